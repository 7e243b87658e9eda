import Verif.Model.CameraOps
import Verif.Props.CameraRolling
import Mathlib.Algebra.Order.Floor.Ring

/-!
C114: the operations on tensors of the camera model.
-/

namespace Verif.CameraOps

open Verif.Camera

/-! ## Specification -/

/-- The sixteen numbers of a transform: rows of the matrix, each with a component of the translation, and a last row. -/
def numbers (a : Iso) (w : Fin 4 → ℝ) : List ℝ :=
  [a.rot 0 0, a.rot 0 1, a.rot 0 2, a.trans 0, a.rot 1 0, a.rot 1 1, a.rot 1 2, a.trans 1, a.rot 2 0, a.rot 2 1, a.rot 2 2, a.trans 2, w 0, w 1, w 2, w 3]

/-- The numbers of the directions in dataset.proto. -/
def dirNumber : Dir → ℤ
  | .unknown => 0
  | .topToBottom => 1
  | .leftToRight => 2
  | .bottomToTop => 3
  | .rightToLeft => 4
  | .globalShutter => 5

/-- The tensors of a calibration and an image, as documented in camera_model_ops.cc:305-321. -/
def encode (c : Calib) (i : Image) (w w' : Fin 4 → ℝ) : Input :=
  ⟨[[c.ext.rot 0 0, c.ext.rot 0 1, c.ext.rot 0 2, c.ext.trans 0], [c.ext.rot 1 0, c.ext.rot 1 1, c.ext.rot 1 2, c.ext.trans 1],
      [c.ext.rot 2 0, c.ext.rot 2 1, c.ext.rot 2 2, c.ext.trans 2], [w 0, w 1, w 2, w 3]],
    [c.fu, c.fv, c.cu, c.cv, c.k1, c.k2, c.k3, c.k4, c.k5], [c.width, c.height, dirNumber c.dir],
    numbers i.pose w' ++ [i.vel 0, i.vel 1, i.vel 2, i.omega 0, i.omega 1, i.omega 2, i.poseTime, i.shutter, i.trigger, i.done]⟩

/-- The tensor of points. -/
def rows (ps : List Vec) : List (List ℝ) := ps.map (fun p => [p 0, p 1, p 2])

/-! ## Parsing -/

theorem toIso_numbers (a : Iso) (w : Fin 4 → ℝ) : toIso (numbers a w) = a := by
  obtain ⟨r, t⟩ := a
  unfold toIso numbers
  congr 1
  · ext k l
    fin_cases k <;> fin_cases l <;> rfl
  · ext k
    fin_cases k <;> rfl

/-- **The tensors are read as documented** (C114). -/
theorem parse_encode (c : Calib) (i : Image) (w w' : Fin 4 → ℝ) : parseCalib (encode c i w w') = some c ∧ parseImage (encode c i w w') = some i := by
  constructor
  · unfold parseCalib
    rw [if_pos]
    · have e : toIso (encode c i w w').extrinsic.flatten = c.ext := toIso_numbers c.ext w
      rw [e]
      obtain ⟨fu, fv, cu, cv, k1, k2, k3, k4, k5, ext, width, height, dir⟩ := c
      cases dir <;> rfl
    · refine ⟨rfl, ?_, rfl, rfl⟩
      intro row h
      simp only [encode, List.mem_cons, List.not_mem_nil, or_false] at h
      rcases h with rfl | rfl | rfl | rfl <;> rfl
  · unfold parseImage
    rw [if_pos (show (encode c i w w').imageMetadata.length = kCameraImageMedataLen from rfl)]
    have e : toIso ((encode c i w w').imageMetadata.take 16) = i.pose := toIso_numbers i.pose w'
    simp only
    rw [e]
    obtain ⟨pose, vel, omega, a, b, d, f⟩ := i
    refine congrArg some ?_
    have e1 : (![vel 0, vel 1, vel 2] : Vec) = vel := by
      ext k
      fin_cases k <;> rfl
    have e2 : (![omega 0, omega 1, omega 2] : Vec) = omega := by
      ext k
      fin_cases k <;> rfl
    refine Eq.trans ?_ (congrArg₂ (fun x y => (⟨pose, x, y, a, b, d, f⟩ : Image)) e1 e2)
    rfl

theorem toVec_row (p : Vec) : toVec [p 0, p 1, p 2] = p := by
  ext k
  fin_cases k <;> rfl

theorem prepared_encode (c : Calib) (i : Image) (w w' : Fin 4 → ℝ) : prepared (encode c i w w') = (Model.new c).prepare i := by
  obtain ⟨h1, h2⟩ := parse_encode c i w w'
  unfold prepared
  rw [h1, h2]
  rfl

theorem rows_ok (ps : List Vec) : ∀ row ∈ rows ps, row.length = 3 := by
  intro row h
  obtain ⟨p, -, rfl⟩ := List.mem_map.mp h
  rfl

theorem mapM_rows {f : List ℝ → Option (List ℝ)} {g : Vec → List ℝ} (ps : List Vec) (h : ∀ p, f [p 0, p 1, p 2] = some (g p)) :
    (rows ps).mapM f = some (ps.map g) := by
  unfold rows
  induction ps with
  | nil => rfl
  | cons p ps ih =>
    rw [List.map_cons, List.mapM_cons, h, ih]
    rfl

/-- Whether a model can be used. -/
theorem total {c : Calib} {i : Image} {m : Model} (h : (Model.new c).prepare i = some m) (p v : Vec) (check : Bool) :
    ∃ r, m.worldToImageMoving check p v = some r := by
  unfold Model.worldToImageMoving
  by_cases hd : (Model.new c).calib.dir = .globalShutter
  · obtain ⟨h1, h2⟩ := prepare_global (m := Model.new c) hd h
    rw [h1, if_pos hd, h2]
    exact ⟨_, rfl⟩
  · unfold Model.prepare at h
    rw [if_neg hd] at h
    change (do let r ← c.prepareRolling i; _) = _ at h
    cases hr : c.prepareRolling i with
    | none => rw [hr] at h; exact absurd h (by simp)
    | some r =>
      rw [hr] at h
      have := Option.some.inj h
      rw [← this, if_neg hd]
      exact ⟨_, rfl⟩

/-! ## The operations -/

/-- **Each row is the projection of its point** (C114): pixel, depth if asked for, and 1 or 0 for its validity; what the projection does not
write is 0.  The points do not influence each other. -/
theorem worldToImageOp_spec {c : Calib} {i : Image} {m : Model} (h : (Model.new c).prepare i = some m) (w w' : Fin 4 → ℝ) (returnDepth : Bool)
    (ps : List Vec) :
    ∃ out : List (List ℝ), worldToImageOp returnDepth (encode c i w w') (rows ps) = some out ∧ out.length = ps.length ∧
      ∀ (k : ℕ) (p : Vec), ps[k]? = some p → ∃ r, m.worldToImage false p = some r ∧
        out[k]? = some ([(r.pixel.getD (0, 0)).1, (r.pixel.getD (0, 0)).2] ++ (if returnDepth then [r.depth.getD 0] else []) ++ [if r.ok then 1 else 0]) := by
  have tot : ∀ p, ∃ r, m.worldToImage false p = some r := fun p => total h p 0 false
  choose f hf using tot
  refine ⟨ps.map (fun p => outRow returnDepth (f p)), ?_, by rw [List.length_map], ?_⟩
  · unfold worldToImageOp
    rw [prepared_encode, h]
    simp only [Option.bind_eq_bind, Option.bind_some]
    rw [if_pos (rows_ok ps)]
    refine mapM_rows ps ?_
    intro p
    rw [toVec_row, hf]
    rfl
  · intro k p hk
    refine ⟨f p, hf p, ?_⟩
    rw [List.getElem?_map, hk]
    cases returnDepth <;> rfl

/-- **Moving points** (C114): each row is the projection of its point with its velocity. -/
theorem worldToImageMovingOp_spec {c : Calib} {i : Image} {m : Model} (h : (Model.new c).prepare i = some m) (w w' : Fin 4 → ℝ) (returnDepth : Bool)
    (ps : List (Vec × Vec)) :
    ∃ out : List (List ℝ), worldToImageMovingOp returnDepth (encode c i w w') (rows (ps.map Prod.fst)) (rows (ps.map Prod.snd)) = some out ∧
      out.length = ps.length ∧ ∀ (k : ℕ) (p : Vec × Vec), ps[k]? = some p → ∃ r, m.worldToImageMoving false p.1 p.2 = some r ∧
        out[k]? = some ([(r.pixel.getD (0, 0)).1, (r.pixel.getD (0, 0)).2] ++ (if returnDepth then [r.depth.getD 0] else []) ++ [if r.ok then 1 else 0]) := by
  have tot : ∀ p : Vec × Vec, ∃ r, m.worldToImageMoving false p.1 p.2 = some r := fun p => total h p.1 p.2 false
  choose f hf using tot
  refine ⟨ps.map (fun p => outRow returnDepth (f p)), ?_, by rw [List.length_map], ?_⟩
  · unfold worldToImageMovingOp
    rw [prepared_encode, h]
    simp only [Option.bind_eq_bind, Option.bind_some]
    rw [if_pos (rows_ok _)]
    unfold rows
    induction ps with
    | nil => rfl
    | cons p ps ih =>
      simp only [List.map_cons, List.zip_cons_cons, List.mapM_cons, toVec_row, hf]
      rw [ih]
      rfl
  · intro k p hk
    refine ⟨f p, hf p, ?_⟩
    rw [List.getElem?_map, hk]
    cases returnDepth <;> rfl

/-- **Points without velocity** (C114): the two operations agree. -/
theorem moving_zero {c : Calib} {i : Image} {m : Model} (h : (Model.new c).prepare i = some m) (w w' : Fin 4 → ℝ) (returnDepth : Bool) (ps : List Vec) :
    worldToImageMovingOp returnDepth (encode c i w w') (rows ps) (rows (ps.map (fun _ => 0))) = worldToImageOp returnDepth (encode c i w w') (rows ps) := by
  unfold worldToImageMovingOp worldToImageOp
  rw [prepared_encode, h]
  simp only [Option.bind_eq_bind, Option.bind_some]
  rw [if_pos (rows_ok ps), if_pos (rows_ok ps)]
  unfold rows Model.worldToImage
  induction ps with
  | nil => rfl
  | cons p ps ih =>
    simp only [List.map_cons, List.zip_cons_cons, List.mapM_cons, toVec_row]
    rw [ih]

/-- **Pixels to points** (C114): each row is the point of its pixel and depth. -/
theorem imageToWorldOp_spec {c : Calib} {i : Image} {m : Model} (h : (Model.new c).prepare i = some m) (hu : 0 < c.fu) (hv : 0 < c.fv) (w w' : Fin 4 → ℝ)
    (ps : List Vec) :
    ∃ out : List Vec, imageToWorldOp (encode c i w w') (rows ps) = some (rows out) ∧ out.length = ps.length ∧
      ∀ (k : ℕ) (p : Vec), ps[k]? = some p → m.imageToWorld (p 0) (p 1) (p 2) = out[k]? := by
  have tot : ∀ p : Vec, ∃ q, m.imageToWorld (p 0) (p 1) (p 2) = some q := by
    intro p
    have ex : ∃ d, c.imageToDirection (p 0) (p 1) = some d := by
      unfold Calib.imageToDirection Calib.iterateUndistortion
      rw [if_pos ⟨hu, hv⟩]
      exact ⟨_, rfl⟩
    obtain ⟨d, hd'⟩ := ex
    by_cases hd : (Model.new c).calib.dir = .globalShutter
    · rw [(imageToWorld_global (m := Model.new c) hd h _ _ _).1]
      change ∃ q, (c.imageToDirection (p 0) (p 1)).map _ = some q
      rw [hd']
      exact ⟨_, rfl⟩
    · unfold Model.prepare at h
      rw [if_neg hd] at h
      change (do let r ← c.prepareRolling i; _) = _ at h
      cases hr : c.prepareRolling i with
      | none => rw [hr] at h; exact absurd h (by simp)
      | some r =>
        rw [hr] at h
        have := Option.some.inj h
        rw [← this]
        unfold Model.imageToWorld
        rw [if_neg hd]
        change ∃ q, (do let d ← c.imageToDirection (p 0) (p 1); _) = some q
        rw [hd']
        exact ⟨_, rfl⟩
  choose f hf using tot
  refine ⟨ps.map f, ?_, by rw [List.length_map], ?_⟩
  · unfold imageToWorldOp
    rw [prepared_encode, h]
    simp only [Option.bind_eq_bind, Option.bind_some]
    rw [if_pos (rows_ok ps), mapM_rows (g := fun p => [f p 0, f p 1, f p 2]) ps]
    · unfold rows
      rw [List.map_map]
      rfl
    · intro p
      simp only [List.getD_cons_zero, List.getD_cons_succ]
      rw [hf]
      rfl
  · intro k p hk
    rw [List.getElem?_map, hk]
    exact hf p

/-- **Tensors of single precision lose the times** (C114): the trigger and the end of the reading of an image of 2023, 60 ms apart, become the same
number, so that the time for reading the image becomes negative. -/
theorem float_times_violated : ∃ trigger done shutter : ℝ, trigger + shutter < done ∧ (2 : ℝ) ^ 30 ≤ trigger ∧ done < 2 ^ 31 ∧ 0 < shutter ∧
    float30 done - float30 trigger - shutter < 0 := by
  refine ⟨1700000000, 1700000000.06, 0.01, by norm_num, by norm_num, by norm_num, by norm_num, ?_⟩
  have e1 : ⌊(1700000000 : ℝ) / 128 + 1 / 2⌋ = 13281250 := by
    rw [Int.floor_eq_iff]
    constructor <;> norm_num
  have e2 : ⌊(1700000000.06 : ℝ) / 128 + 1 / 2⌋ = 13281250 := by
    rw [Int.floor_eq_iff]
    constructor <;> norm_num
  unfold float30
  rw [e1, e2]
  norm_num

/-- The hypotheses hold for the front camera and an image of a vehicle at rest. -/
theorem ops_example : ∃ m, (Model.new (frontCamera ⟨1, 0⟩ .rightToLeft)).prepare ⟨⟨1, 0⟩, 0, 0, 0, 0.01, 0, 0.05⟩ = some m :=
  (prepare_rolling (m := Model.new (frontCamera ⟨1, 0⟩ .rightToLeft)) (by simp [Model.new, frontCamera])).2.2.1
    (by simp [Model.new, frontCamera]) (by simp [Model.new, frontCamera]; norm_num) (by simp [Model.new, frontCamera]; norm_num)

end Verif.CameraOps
