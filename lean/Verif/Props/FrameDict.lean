import Verif.Model.FrameDict
import Verif.Props.CloudsFrame
import Verif.Lemmas.Rounding

/-!
C170: the dictionary of a frame.  C171: its timestamps.
-/

namespace Verif.FrameDict

open Verif.Clouds
open Verif.Boxes (V3 M4)

variable {P : Type}

/-! ## Filling a dictionary -/

theorem fill_aux : ∀ (es : List (String × Value P)) (d : String → Option (Value P)),
    (∀ key : String, (es.foldl (fun (d : String → Option (Value P)) e => Function.update d e.1 (some e.2)) d) key ≠ none → d key ≠ none ∨ key ∈ es.map Prod.fst) ∧
    (∀ key : String, key ∉ es.map Prod.fst → (es.foldl (fun (d : String → Option (Value P)) e => Function.update d e.1 (some e.2)) d) key = d key) ∧
    ((es.map Prod.fst).Nodup → ∀ e ∈ es, (es.foldl (fun (d : String → Option (Value P)) e => Function.update d e.1 (some e.2)) d) e.1 = some e.2) := by
  intro es
  induction es with
  | nil => intro d; exact ⟨fun _ h => Or.inl h, fun _ _ => rfl, by simp⟩
  | cons e es ih =>
    intro d
    obtain ⟨h1, h2, h3⟩ := ih (Function.update d e.1 (some e.2))
    refine ⟨?_, ?_, ?_⟩
    · intro key hk
      rcases h1 key hk with h | h
      · by_cases hke : key = e.1
        · exact Or.inr (by simp [hke])
        · rw [Function.update_of_ne hke] at h; exact Or.inl h
      · exact Or.inr (by rw [List.map_cons]; exact List.mem_cons_of_mem _ h)
    · intro key hk
      rw [List.map_cons, List.mem_cons, not_or] at hk
      rw [List.foldl_cons, h2 key hk.2, Function.update_of_ne hk.1]
    · intro hn e' he'
      rw [List.map_cons, List.nodup_cons] at hn
      rcases List.mem_cons.1 he' with rfl | he'
      · rw [List.foldl_cons, h2 _ hn.1, Function.update_self]
      · exact h3 hn.2 e' he'

theorem fill_get {es : List (String × Value P)} (hn : (es.map Prod.fst).Nodup) {e : String × Value P} (he : e ∈ es) :
    fill es e.1 = some e.2 := (fill_aux es _).2.2 hn e he

theorem fill_mem {es : List (String × Value P)} {key : String} (h : fill es key ≠ none) : key ∈ es.map Prod.fst := by
  rcases (fill_aux es _).1 key h with h | h
  · exact absurd rfl h
  · exact h

/-! ## The keys -/

/-- The documented endings of the keys of a laser. -/
def laserEndings : List String := ["_BEAM_INCLINATION", "_LIDAR_EXTRINSIC", "_RANGE_IMAGE_FIRST_RETURN",
  "_RANGE_IMAGE_SECOND_RETURN", "_CAM_PROJ_FIRST_RETURN", "_CAM_PROJ_SECOND_RETURN"]

/-- Those of a camera that come from its image. -/
def imageEndings : List String := ["_IMAGE", "_SDC_VELOCITY", "_POSE", "_POSE_TIMESTAMP", "_ROLLING_SHUTTER_DURATION",
  "_CAMERA_TRIGGER_TIME", "_CAMERA_READOUT_DONE_TIME"]

/-- Those of a camera that come from its calibration. -/
def cameraEndings : List String := ["_INTRINSIC", "_EXTRINSIC", "_WIDTH", "_HEIGHT", "_ROLLING_SHUTTER_DIRECTION"]

/-- The keys of sensors with the given numbers. -/
def keysOf (names endings : List String) (numbers : List ℕ) : List String :=
  numbers.flatMap fun i => endings.map fun s => names.getD i "" ++ s

theorem all_keys_nodup : (keysOf laserNames laserEndings (List.range 6) ++ keysOf cameraNames imageEndings (List.range 9) ++
    keysOf cameraNames cameraEndings (List.range 9) ++ ["TOP_RANGE_IMAGE_POSE", "POSE", "TIMESTAMP"]).Nodup := by
  decide +kernel

theorem flatMap_subperm {α β : Type} (g : α → List β) {l k : List α} (h : l.Subperm k) : (l.flatMap g).Subperm (k.flatMap g) := by
  obtain ⟨m, h1, h2⟩ := h
  exact ((h1.flatMap_right g).symm.subperm).trans (List.Sublist.subperm (by
    clear h1
    induction h2 with
    | slnil => exact List.Sublist.refl _
    | cons a _ ih => rw [List.flatMap_cons]; exact ih.trans (List.sublist_append_right _ _)
    | cons_cons a _ ih => rw [List.flatMap_cons, List.flatMap_cons]; exact (List.Sublist.refl _).append ih))

theorem keysOf_subperm (names endings : List String) {l : List ℕ} {n : ℕ} (hn : l.Nodup) (hl : ∀ i ∈ l, i < n) :
    (keysOf names endings l).Subperm (keysOf names endings (List.range n)) :=
  flatMap_subperm _ (hn.subperm fun i hi => List.mem_range.2 (hl i hi))

theorem keys_nodup {a b c : List ℕ} (ha : a.Nodup) (hb : b.Nodup) (hc : c.Nodup) (ha' : ∀ i ∈ a, i < 6) (hb' : ∀ i ∈ b, i < 9)
    (hc' : ∀ i ∈ c, i < 9) :
    (keysOf laserNames laserEndings a ++ keysOf cameraNames imageEndings b ++
      keysOf cameraNames cameraEndings c ++ ["TOP_RANGE_IMAGE_POSE", "POSE", "TIMESTAMP"]).Nodup := by
  have h : (keysOf laserNames laserEndings a ++ keysOf cameraNames imageEndings b ++
      keysOf cameraNames cameraEndings c ++ ["TOP_RANGE_IMAGE_POSE", "POSE", "TIMESTAMP"]).Subperm
      (keysOf laserNames laserEndings (List.range 6) ++ keysOf cameraNames imageEndings (List.range 9) ++
        keysOf cameraNames cameraEndings (List.range 9) ++ ["TOP_RANGE_IMAGE_POSE", "POSE", "TIMESTAMP"]) :=
    (((keysOf_subperm _ _ ha ha').append (keysOf_subperm _ _ hb hb')).append (keysOf_subperm _ _ hc hc')).append
      (List.Subperm.refl _)
  obtain ⟨m, h1, h2⟩ := h
  exact h1.nodup_iff.1 (all_keys_nodup.sublist h2)

/-! ## Specification -/

/-- A range image with points: for every pixel up to three channels of the range image and then its point. -/
def IsImage (m : Raw ℝ) (point : ℕ × ℕ → V3 → Prop) (rows : List (List (List ℝ))) : Prop :=
  ∃ h w c, m.dims = [h, w, c] ∧ rows.length = h ∧ (∀ row ∈ rows, row.length = w) ∧
    ∀ r col, r < h → col < w → ∃ cell q, (rows[r]?).bind (fun row => row[col]?) = some cell ∧ point (r, col) q ∧
      cell.length = min 3 c + 3 ∧ (∀ k, k < min 3 c → ∃ v, cell[k]? = some v ∧ Holds m h w c r col k v) ∧
      ∀ i : Fin 3, cell[min 3 c + i.val]? = some (q i)

/-- The documented entries of a laser. -/
def LaserPart (D : Codec) (single : ℝ → ℝ) (f : FullFrame) (d : String → Option (Value P)) (c : Calibration) : Prop :=
  ∃ n l F m1 c1 m2 c2 rows1 rows2 b, laserNames[c.name]? = some n ∧ l ∈ f.frame.lasers ∧ l.name = c.name ∧
    IsMatrix f.frame.pose F ∧ IsReturn D l 0 m1 c1 ∧ IsReturn D l 1 m2 c2 ∧
    IsImage m1 (LaserPoint D f.frame l c m1 F) rows1 ∧ IsImage m2 (LaserPoint D f.frame l c m2 F) rows2 ∧
    d (n ++ "_RANGE_IMAGE_FIRST_RETURN") = some (.grid rows1) ∧ d (n ++ "_RANGE_IMAGE_SECOND_RETURN") = some (.grid rows2) ∧
    d (n ++ "_CAM_PROJ_FIRST_RETURN") = some (.ints c1.dims c1.data) ∧ c1.data.length = c1.dims.prod ∧
    d (n ++ "_CAM_PROJ_SECOND_RETURN") = some (.ints c2.dims c2.data) ∧ c2.data.length = c2.dims.prod ∧
    d (n ++ "_LIDAR_EXTRINSIC") = some (.reals [4, 4] (c.extrinsic.map single)) ∧ c.extrinsic.length = 16 ∧
    d (n ++ "_BEAM_INCLINATION") = some (.reals [b.length] b) ∧ (c.beams ≠ [] → b = c.beams.map single) ∧
    (c.beams = [] → m1.dims[0]? = some b.length ∧
      ∀ row i, row < b.length → b[b.length - 1 - row]? = some i → RowInclination [] c.lo c.hi b.length row i)

/-- The documented entries of a camera that come from its image. -/
def ImagePart (jpeg : Bytes → Option P) (single : ℝ → ℝ) (d : String → Option (Value P)) (i : CameraImage) : Prop :=
  ∃ n p, cameraNames[i.name]? = some n ∧ jpeg i.image = some p ∧ d (n ++ "_IMAGE") = some (.picture p) ∧
    d (n ++ "_SDC_VELOCITY") = some (.reals [6] [single i.vx, single i.vy, single i.vz, single i.wx, single i.wy, single i.wz]) ∧
    d (n ++ "_POSE") = some (.reals [4, 4] (i.pose.map single)) ∧ i.pose.length = 16 ∧
    d (n ++ "_POSE_TIMESTAMP") = some (.reals [] [single i.poseTimestamp]) ∧
    d (n ++ "_ROLLING_SHUTTER_DURATION") = some (.reals [] [i.shutter]) ∧
    d (n ++ "_CAMERA_TRIGGER_TIME") = some (.reals [] [i.triggerTime]) ∧
    d (n ++ "_CAMERA_READOUT_DONE_TIME") = some (.reals [] [i.readoutDoneTime])

/-- The documented entries of a camera that come from its calibration. -/
def CameraPart (single : ℝ → ℝ) (d : String → Option (Value P)) (c : CameraCalibration) : Prop :=
  ∃ n, cameraNames[c.name]? = some n ∧ d (n ++ "_INTRINSIC") = some (.reals [c.intrinsic.length] (c.intrinsic.map single)) ∧
    d (n ++ "_EXTRINSIC") = some (.reals [4, 4] (c.extrinsic.map single)) ∧ c.extrinsic.length = 16 ∧
    d (n ++ "_WIDTH") = some (.ints [] [c.width]) ∧ d (n ++ "_HEIGHT") = some (.ints [] [c.height]) ∧
    d (n ++ "_ROLLING_SHUTTER_DIRECTION") = some (.ints [] [c.direction])

/-- The documented keys of a frame. -/
def Documented (f : FullFrame) (key : String) : Prop :=
  (∃ c ∈ f.frame.calibrations, ∃ n, laserNames[c.name]? = some n ∧ ∃ s ∈ laserEndings, key = n ++ s) ∨
  (∃ i ∈ f.images, ∃ n, cameraNames[i.name]? = some n ∧ ∃ s ∈ imageEndings, key = n ++ s) ∨
  (∃ c ∈ f.cameras, ∃ n, cameraNames[c.name]? = some n ∧ ∃ s ∈ cameraEndings, key = n ++ s) ∨
  key = "TOP_RANGE_IMAGE_POSE" ∨ key = "POSE" ∨ key = "TIMESTAMP"

/-! ## Range images -/

theorem withPolar_image {m : Raw ℝ} {x : Image ℝ} {pts : List (List V3)} {point : ℕ × ℕ → V3 → Prop} (hx : reshape m = some x)
    (hpt : ∀ p : ℕ × ℕ, p.1 < x.h → p.2 < x.w → ∃ q, ((pts[p.1]?).bind fun row => row[p.2]?) = some q ∧ point p q) :
    IsImage m point (withPolar true x pts) := by
  refine ⟨x.h, x.w, x.c, (reshape_some hx).1, by simp [withPolar], ?_, ?_⟩
  · intro row hrow
    unfold withPolar at hrow
    obtain ⟨r, -, rfl⟩ := List.mem_map.1 hrow
    simp
  · intro r col hr hc
    obtain ⟨q, hq, hp⟩ := hpt (r, col) hr hc
    have hlen : ((x.cell r col).take 3).length = min 3 x.c := by simp [Image.cell]
    refine ⟨(x.cell r col).take 3 ++ [q 0, q 1, q 2], q, ?_, hp, ?_, ?_, ?_⟩
    · simp only [withPolar, List.getElem?_map, List.getElem?_range hr, Option.map_some, Option.bind_some,
        List.getElem?_range hc, hq, Option.getD_some, if_true]
    · rw [List.length_append, hlen]; rfl
    · intro k hk
      have hk3 : k < 3 := by omega
      have hkc : k < x.c := by omega
      refine ⟨x.at r col k, ?_, holds_at hx hr hc hkc⟩
      rw [List.getElem?_append_left (by rw [hlen]; exact hk), List.getElem?_take, if_pos hk3]
      simp [Image.cell, List.getElem?_range hkc]
    · intro i
      rw [List.getElem?_append_right (by rw [hlen]; omega), hlen, Nat.add_sub_cancel_left]
      fin_cases i <;> rfl

theorem cartesianOf_eq (s : Parsed) (frame : M4) (top : Image ℝ) (index : ℕ) (keep : Bool) (c : Calibration) :
    cartesianOf s frame top index keep c = (s.ranges c.name).bind fun l => (l[index]?).bind fun ri =>
      Option.bind (if c.beams = [] then ri.dims[0]? else some 0) fun height => (matrix c.extrinsic).bind fun extrinsic =>
        (reshape ri).bind fun x => (cartesian x extrinsic (rowInclinations c.beams c.lo c.hi height)
          (if c.name = 1 then some top else none) (if c.name = 1 then some frame else none)).bind fun points =>
            some (withPolar keep x points) := by
  unfold cartesianOf
  by_cases hb : c.beams = []
  · simp [hb]
  · simp [hb]

theorem toCartesian_image {D : Codec} {f : Frame} {s : Parsed} {index : ℕ} {img : ℕ → Option (List (List (List ℝ)))}
    (hl : (f.lasers.map Laser.name).Nodup) (hn : (f.calibrations.map Calibration.name).Nodup) (hs : parse D f = some s)
    (hF : ∀ F, IsMatrix f.pose F → Affine F) (h : toCartesian f s index true = some img) {c : Calibration}
    (hc : c ∈ f.calibrations) {cp : Raw ℤ} (hcp : (s.projections c.name).bind (fun l => l[index]?) = some cp) :
    ∃ F l m rows, matrix f.pose = some F ∧ img c.name = some rows ∧ l ∈ f.lasers ∧ l.name = c.name ∧ IsReturn D l index m cp ∧
      (s.ranges c.name).bind (fun l => l[index]?) = some m ∧ IsImage m (LaserPoint D f l c m F) rows := by
  unfold toCartesian at h
  simp only [Option.bind_eq_bind, Option.bind_eq_some_iff] at h
  obtain ⟨F, hF', top, htop, hfold⟩ := h
  obtain ⟨rows, h1, h2⟩ := (dict_get hn hfold).1 c hc
  rw [cartesianOf_eq] at h1
  simp only [Option.bind_eq_bind, Option.bind_eq_some_iff, Option.pure_def, Option.some.injEq] at h1
  obtain ⟨rl, hrl, ri, hri, height, hheight, E, hE, x, hx, pts, hpts, rfl⟩ := h1
  have hh : c.beams = [] → height = x.h := by
    intro hb
    rw [if_pos hb, (reshape_some hx).1] at hheight
    simpa using hheight.symm
  rw [rowInclinations_height hh] at hpts
  have hm : (s.ranges c.name).bind (fun l => l[index]?) = some ri := by rw [hrl]; exact hri
  obtain ⟨l, l1, l2, l3, l4⟩ := laser_of hl hs hm hcp
  refine ⟨F, l, ri, _, hF', h2, l1, l2, l3, hm, withPolar_image hx ?_⟩
  intro p hr hc'
  by_cases h1 : c.name = 1
  · simp only [h1, if_true] at hpts
    obtain ⟨q, hq, hqp⟩ := cartesian_posed hx htop (hF _ (matrix_some hF')) hpts hr hc'
    refine ⟨q, hq, E, matrix_some hE, ?_⟩
    rw [if_pos h1]
    exact ⟨_, l4 h1, hqp⟩
  · simp only [h1, if_false] at hpts
    obtain ⟨q, hq, hqp⟩ := cartesian_point hx hpts hr hc'
    refine ⟨q, hq, E, matrix_some hE, ?_⟩
    rw [if_neg h1]; exact hqp

theorem floats_some {single : ℝ → ℝ} {dims : List ℕ} {data : List ℝ} {v : Value P} (h : floats single dims data = some v) :
    data.length = dims.prod ∧ v = .reals dims (data.map single) := by
  unfold floats at h
  split at h
  · cases h; exact ⟨‹_›, rfl⟩
  · simp at h

theorem integers_some {dims : List ℕ} {data : List ℤ} {v : Value P} (h : integers dims data = some v) :
    data.length = dims.prod ∧ v = .ints dims data := by
  unfold integers at h
  split at h
  · cases h; exact ⟨‹_›, rfl⟩
  · simp at h

/-! ## Entries -/

theorem entries_keys {α : Type} {g : α → Option (List (String × Value P))} {names endings : List String} {name : α → ℕ}
    (hg : ∀ a es, g a = some es → ∃ n, names[name a]? = some n ∧ es.map Prod.fst = endings.map fun s => n ++ s) :
    ∀ {l : List α} {r : List (List (String × Value P))}, l.mapM g = some r →
      r.flatten.map Prod.fst = keysOf names endings (l.map name) ∧ ∀ i ∈ l.map name, i < names.length := by
  intro l
  induction l with
  | nil => intro r h; simp at h; subst h; simp [keysOf]
  | cons a l ih =>
    intro r h
    rw [List.mapM_cons] at h
    simp only [Option.bind_eq_bind, Option.bind_eq_some_iff, Option.pure_def, Option.some.injEq] at h
    obtain ⟨es, hes, r', hr', rfl⟩ := h
    obtain ⟨n, hn, he⟩ := hg a es hes
    obtain ⟨i1, i2⟩ := ih hr'
    have hlt : name a < names.length := (List.getElem?_eq_some_iff.1 hn).1
    constructor
    · rw [List.flatten_cons, List.map_append, i1, he, List.map_cons, keysOf, keysOf, List.flatMap_cons]
      congr 2
      funext s
      rw [List.getD_eq_getElem?_getD, hn]; rfl
    · intro i hi
      rcases List.mem_cons.1 hi with rfl | hi
      · exact hlt
      · exact i2 i hi

theorem mem_entries {α : Type} {g : α → Option (List (String × Value P))} {l : List α} {r : List (List (String × Value P))}
    (h : l.mapM g = some r) {a : α} (ha : a ∈ l) : ∃ es, g a = some es ∧ ∀ e ∈ es, e ∈ r.flatten := by
  induction l generalizing r with
  | nil => simp at ha
  | cons b l ih =>
    rw [List.mapM_cons] at h
    simp only [Option.bind_eq_bind, Option.bind_eq_some_iff, Option.pure_def, Option.some.injEq] at h
    obtain ⟨es, hes, r', hr', rfl⟩ := h
    rcases List.mem_cons.1 ha with rfl | ha
    · exact ⟨es, hes, fun e he => by rw [List.flatten_cons]; exact List.mem_append_left _ he⟩
    · obtain ⟨es', h1, h2⟩ := ih hr' ha
      exact ⟨es', h1, fun e he => by rw [List.flatten_cons]; exact List.mem_append_right _ (h2 e he)⟩

theorem laserEntries_keys {single : ℝ → ℝ} {s : Parsed} {first second : ℕ → Option (List (List (List ℝ)))} (c : Calibration)
    (es : List (String × Value P)) (h : laserEntries single s first second c = some es) :
    ∃ n, laserNames[c.name]? = some n ∧ es.map Prod.fst = laserEndings.map fun s => n ++ s := by
  unfold laserEntries at h
  simp only [Option.bind_eq_bind, Option.bind_eq_some_iff, Option.pure_def, Option.some.injEq] at h
  obtain ⟨n, hn, _, _, _, _, _, _, _, _, _, _, _, _, _, _, _, _, _, _, rfl⟩ := h
  exact ⟨n, hn, rfl⟩

theorem imageEntries_keys {single : ℝ → ℝ} {jpeg : Bytes → Option P} (i : CameraImage) (es : List (String × Value P))
    (h : imageEntries single jpeg i = some es) :
    ∃ n, cameraNames[i.name]? = some n ∧ es.map Prod.fst = imageEndings.map fun s => n ++ s := by
  unfold imageEntries at h
  simp only [Option.bind_eq_bind, Option.bind_eq_some_iff, Option.pure_def, Option.some.injEq] at h
  obtain ⟨n, hn, _, _, _, _, rfl⟩ := h
  exact ⟨n, hn, rfl⟩

theorem cameraEntries_keys {single : ℝ → ℝ} (c : CameraCalibration) (es : List (String × Value P))
    (h : cameraEntries single c = some es) :
    ∃ n, cameraNames[c.name]? = some n ∧ es.map Prod.fst = cameraEndings.map fun s => n ++ s := by
  unfold cameraEntries at h
  simp only [Option.bind_eq_bind, Option.bind_eq_some_iff, Option.pure_def, Option.some.injEq] at h
  obtain ⟨n, hn, _, _, rfl⟩ := h
  exact ⟨n, hn, rfl⟩

theorem mem_keysOf {names endings : List String} {l : List ℕ} (hl : ∀ i ∈ l, i < names.length) {key : String}
    (h : key ∈ keysOf names endings l) : ∃ i ∈ l, ∃ n, names[i]? = some n ∧ ∃ s ∈ endings, key = n ++ s := by
  unfold keysOf at h
  obtain ⟨i, hi, h⟩ := List.mem_flatMap.1 h
  obtain ⟨s, hs, rfl⟩ := List.mem_map.1 h
  have := List.getElem?_eq_getElem (hl i hi)
  exact ⟨i, hi, names[i]'(hl i hi), this, s, hs, by rw [List.getD_eq_getElem?_getD, this]; rfl⟩

/-- C170: if every sensor occurs once, the dictionary of a frame has, for every laser and camera, all documented entries,
each from its own message; it has the poses of the pixels of TOP, the pose and the time; and it has no other keys. -/
theorem toDict_spec_partial {D : Codec} {jpeg : Bytes → Option P} {single : ℝ → ℝ} {f : FullFrame} {d : String → Option (Value P)}
    (hl : (f.frame.lasers.map Laser.name).Nodup) (hn : (f.frame.calibrations.map Calibration.name).Nodup)
    (hi : (f.images.map CameraImage.name).Nodup) (hk : (f.cameras.map CameraCalibration.name).Nodup)
    (hF : ∀ F, IsMatrix f.frame.pose F → Affine F) (h : toDict D jpeg single f = some d) :
    (∀ c ∈ f.frame.calibrations, LaserPart D single f d c) ∧ (∀ i ∈ f.images, ImagePart jpeg single d i) ∧
    (∀ c ∈ f.cameras, CameraPart single d c) ∧
    (∃ t, (∀ l ∈ f.frame.lasers, l.name = 1 → l.ret1.range ≠ [] → D.floats l.ret1.pose = some t) ∧
      t.data.length = t.dims.prod ∧ d "TOP_RANGE_IMAGE_POSE" = some (.reals t.dims (t.data.map single))) ∧
    f.frame.pose.length = 16 ∧ d "POSE" = some (.reals [4, 4] (f.frame.pose.map single)) ∧
    d "TIMESTAMP" = some (.ints [] [f.timestamp]) ∧ ∀ key, d key ≠ none → Documented f key := by
  unfold toDict at h
  simp only [Option.bind_eq_bind, Option.bind_eq_some_iff, Option.pure_def, Option.some.injEq] at h
  obtain ⟨s, hs, first, hfirst, second, hsecond, ls, hls, is, his, cs, hcs, es, hes, rfl⟩ := h
  obtain ⟨kl, kl'⟩ := entries_keys laserEntries_keys hls
  obtain ⟨ki, ki'⟩ := entries_keys imageEntries_keys his
  obtain ⟨kc, kc'⟩ := entries_keys cameraEntries_keys hcs
  unfold lastEntries at hes
  simp only [Option.bind_eq_bind, Option.bind_eq_some_iff, Option.pure_def, Option.some.injEq] at hes
  obtain ⟨t, ht, p, hp, rfl⟩ := hes
  obtain ⟨ht1, rfl⟩ := floats_some ht
  obtain ⟨hp1, rfl⟩ := floats_some hp
  set last : List (String × Value P) := [("TOP_RANGE_IMAGE_POSE", .reals s.topPose.dims (s.topPose.data.map single)),
    ("POSE", .reals [4, 4] (f.frame.pose.map single)), ("TIMESTAMP", .ints [] [f.timestamp])] with hlast
  have hkeys : (ls.flatten ++ is.flatten ++ cs.flatten ++ last).map Prod.fst =
      keysOf laserNames laserEndings (f.frame.calibrations.map Calibration.name) ++
        keysOf cameraNames imageEndings (f.images.map CameraImage.name) ++
        keysOf cameraNames cameraEndings (f.cameras.map CameraCalibration.name) ++
        ["TOP_RANGE_IMAGE_POSE", "POSE", "TIMESTAMP"] := by
    rw [List.map_append, List.map_append, List.map_append, kl, ki, kc]; rfl
  have hnd : ((ls.flatten ++ is.flatten ++ cs.flatten ++ last).map Prod.fst).Nodup := by
    rw [hkeys]; exact keys_nodup hn hi hk kl' ki' kc'
  have get : ∀ {e}, e ∈ ls.flatten ++ is.flatten ++ cs.flatten ++ last →
      fill (ls.flatten ++ is.flatten ++ cs.flatten ++ last) e.1 = some e.2 := fun he => fill_get hnd he
  generalize hd : fill (ls.flatten ++ is.flatten ++ cs.flatten ++ last) = d at get
  refine ⟨?_, ?_, ?_, ⟨s.topPose, ?_, ht1, ?_⟩, by simpa using hp1, ?_, ?_, ?_⟩
  · intro c hc
    obtain ⟨el, h1, h2⟩ := mem_entries hls hc
    have get' : ∀ {e}, e ∈ el → d e.1 = some e.2 := fun he =>
      get (List.mem_append_left _ (List.mem_append_left _ (List.mem_append_left _ (h2 _ he))))
    unfold laserEntries at h1
    simp only [Option.bind_eq_bind, Option.bind_eq_some_iff, Option.pure_def, Option.some.injEq] at h1
    obtain ⟨n, hn', beams, hbeams, ext, hext, a, ha, b, hb, pl, hpl, p0, hp0, v0, hv0, p1, hp1', v1, hv1, rfl⟩ := h1
    obtain ⟨e1, rfl⟩ := floats_some hext
    obtain ⟨w0, rfl⟩ := integers_some hv0
    obtain ⟨w1, rfl⟩ := integers_some hv1
    obtain ⟨F, l, m1, rows1, f1, f2, f3, f4, f5, f6, f7⟩ :=
      toCartesian_image hl hn hs hF hfirst hc (cp := p0) (by rw [hpl]; exact hp0)
    obtain ⟨F', l', m2, rows2, g1, g2, g3, g4, g5, g6, g7⟩ :=
      toCartesian_image hl hn hs hF hsecond hc (cp := p1) (by rw [hpl]; exact hp1')
    cases f1.symm.trans g1
    cases ha.symm.trans f2
    cases hb.symm.trans g2
    have hll : l' = l := List.inj_on_of_nodup_map hl g3 f3 (g4.trans f4.symm)
    subst hll
    have hbl : ∃ bl, beams = .reals [bl.length] bl ∧ (c.beams ≠ [] → bl = c.beams.map single) ∧
        (c.beams = [] → m1.dims[0]? = some bl.length ∧
          ∀ row i, row < bl.length → bl[bl.length - 1 - row]? = some i → RowInclination [] c.lo c.hi bl.length row i) := by
      unfold beamEntry at hbeams
      by_cases hb0 : c.beams = []
      · rw [if_pos hb0] at hbeams
        simp only [Option.bind_eq_bind, Option.bind_eq_some_iff, Option.pure_def, Option.some.injEq] at hbeams
        obtain ⟨rl, hrl, r, hr, hh, hhh, rfl⟩ := hbeams
        rw [hrl] at f6
        cases hr.symm.trans f6
        have hlen : (RangeImage.inclinations c.lo c.hi hh).length = hh := by simp [RangeImage.inclinations]
        refine ⟨RangeImage.inclinations c.lo c.hi hh, by rw [hlen], fun h => absurd hb0 h, fun _ => ⟨by rw [hlen]; exact hhh, ?_⟩⟩
        rw [hlen]
        intro row i hrow hgi
        obtain ⟨j, hj1, hj2⟩ := inclination_spec (beams := []) (lo := c.lo) (hi := c.hi) hrow (by simp [rowInclinations, hlen])
        have : j = i := by
          simp only [rowInclinations, if_true] at hj1
          rw [List.getElem?_reverse (by rw [hlen]; exact hrow), hlen] at hj1
          exact Option.some.inj (hj1.symm.trans hgi)
        rw [← this]; exact hj2
      · rw [if_neg hb0] at hbeams
        cases hbeams
        exact ⟨c.beams.map single, by simp, fun _ => rfl, fun h => absurd h hb0⟩
    obtain ⟨bl, rfl, hbl1, hbl2⟩ := hbl
    exact ⟨n, l', F, m1, p0, m2, p1, a, b, bl, hn', g3, g4, matrix_some g1, f5, g5, f7, g7,
      get' (e := (n ++ "_RANGE_IMAGE_FIRST_RETURN", .grid a)) (by simp),
      get' (e := (n ++ "_RANGE_IMAGE_SECOND_RETURN", .grid b)) (by simp),
      get' (e := (n ++ "_CAM_PROJ_FIRST_RETURN", .ints p0.dims p0.data)) (by simp), w0,
      get' (e := (n ++ "_CAM_PROJ_SECOND_RETURN", .ints p1.dims p1.data)) (by simp), w1,
      get' (e := (n ++ "_LIDAR_EXTRINSIC", .reals [4, 4] (c.extrinsic.map single))) (by simp), by simpa using e1,
      get' (e := (n ++ "_BEAM_INCLINATION", .reals [bl.length] bl)) (by simp), hbl1, hbl2⟩
  · intro i hi'
    obtain ⟨el, h1, h2⟩ := mem_entries his hi'
    have get' : ∀ {e}, e ∈ el → d e.1 = some e.2 := fun he =>
      get (List.mem_append_left _ (List.mem_append_left _ (List.mem_append_right _ (h2 _ he))))
    unfold imageEntries at h1
    simp only [Option.bind_eq_bind, Option.bind_eq_some_iff, Option.pure_def, Option.some.injEq] at h1
    obtain ⟨n, hn', pic, hpic, pose, hpose, rfl⟩ := h1
    obtain ⟨e1, rfl⟩ := floats_some hpose
    exact ⟨n, pic, hn', hpic, get' (e := (n ++ "_IMAGE", .picture pic)) (by simp),
      get' (e := (n ++ "_SDC_VELOCITY", .reals [6] [single i.vx, single i.vy, single i.vz, single i.wx, single i.wy, single i.wz]))
        (by simp),
      get' (e := (n ++ "_POSE", .reals [4, 4] (i.pose.map single))) (by simp), by simpa using e1,
      get' (e := (n ++ "_POSE_TIMESTAMP", .reals [] [single i.poseTimestamp])) (by simp),
      get' (e := (n ++ "_ROLLING_SHUTTER_DURATION", .reals [] [i.shutter])) (by simp),
      get' (e := (n ++ "_CAMERA_TRIGGER_TIME", .reals [] [i.triggerTime])) (by simp),
      get' (e := (n ++ "_CAMERA_READOUT_DONE_TIME", .reals [] [i.readoutDoneTime])) (by simp)⟩
  · intro c hc
    obtain ⟨el, h1, h2⟩ := mem_entries hcs hc
    have get' : ∀ {e}, e ∈ el → d e.1 = some e.2 := fun he =>
      get (List.mem_append_left _ (List.mem_append_right _ (h2 _ he)))
    unfold cameraEntries at h1
    simp only [Option.bind_eq_bind, Option.bind_eq_some_iff, Option.pure_def, Option.some.injEq] at h1
    obtain ⟨n, hn', ext, hext, rfl⟩ := h1
    obtain ⟨e1, rfl⟩ := floats_some hext
    exact ⟨n, hn', get' (e := (n ++ "_INTRINSIC", .reals [c.intrinsic.length] (c.intrinsic.map single))) (by simp),
      get' (e := (n ++ "_EXTRINSIC", .reals [4, 4] (c.extrinsic.map single))) (by simp), by simpa using e1,
      get' (e := (n ++ "_WIDTH", .ints [] [c.width])) (by simp), get' (e := (n ++ "_HEIGHT", .ints [] [c.height])) (by simp),
      get' (e := (n ++ "_ROLLING_SHUTTER_DIRECTION", .ints [] [c.direction])) (by simp)⟩
  · exact (parse_spec hl hs).2.2.1
  · exact get (e := ("TOP_RANGE_IMAGE_POSE", .reals s.topPose.dims (s.topPose.data.map single)))
      (List.mem_append_right _ (by simp [hlast]))
  · exact get (e := ("POSE", .reals [4, 4] (f.frame.pose.map single))) (List.mem_append_right _ (by simp [hlast]))
  · exact get (e := ("TIMESTAMP", .ints [] [f.timestamp])) (List.mem_append_right _ (by simp [hlast]))
  · intro key hkey
    rw [← hd] at hkey
    have := fill_mem hkey
    rw [hkeys, List.mem_append, List.mem_append, List.mem_append] at this
    rcases this with ((h | h) | h) | h
    · obtain ⟨i, hi', n, hn', s, hs', rfl⟩ := mem_keysOf kl' h
      obtain ⟨c, hc, rfl⟩ := List.mem_map.1 hi'
      exact Or.inl ⟨c, hc, n, hn', s, hs', rfl⟩
    · obtain ⟨i, hi', n, hn', s, hs', rfl⟩ := mem_keysOf ki' h
      obtain ⟨c, hc, rfl⟩ := List.mem_map.1 hi'
      exact Or.inr (Or.inl ⟨c, hc, n, hn', s, hs', rfl⟩)
    · obtain ⟨i, hi', n, hn', s, hs', rfl⟩ := mem_keysOf kc' h
      obtain ⟨c, hc, rfl⟩ := List.mem_map.1 hi'
      exact Or.inr (Or.inr (Or.inl ⟨c, hc, n, hn', s, hs', rfl⟩))
    · simp only [List.mem_cons, List.not_mem_nil, or_false] at h
      exact Or.inr (Or.inr (Or.inr h))

/-! ## Frames that have no dictionary -/

/-- A dictionary needs both returns of every calibrated laser. -/
theorem toDict_returns {D : Codec} {jpeg : Bytes → Option P} {single : ℝ → ℝ} {f : FullFrame} {d : String → Option (Value P)}
    (hl : (f.frame.lasers.map Laser.name).Nodup) (hn : (f.frame.calibrations.map Calibration.name).Nodup)
    (hi : (f.images.map CameraImage.name).Nodup) (hk : (f.cameras.map CameraCalibration.name).Nodup)
    (hF : ∀ F, IsMatrix f.frame.pose F → Affine F) (h : toDict D jpeg single f = some d) :
    ∀ c ∈ f.frame.calibrations, ∃ l ∈ f.frame.lasers, l.name = c.name ∧ l.ret1.range ≠ [] ∧ l.ret2.range ≠ [] := by
  intro c hc
  obtain ⟨n, l, F, m1, c1, m2, c2, r1, r2, b, -, h1, h2, -, h3, h4, -⟩ := (toDict_spec_partial hl hn hi hk hF h).1 c hc
  refine ⟨l, h1, h2, ?_, ?_⟩
  · rcases h3 with ⟨-, h, -⟩ | ⟨h, -⟩
    · exact h
    · omega
  · rcases h4 with ⟨h, -⟩ | ⟨-, h, -⟩
    · omega
    · exact h

/-- The identity as the messages hold it. -/
def identity16 : List ℝ := [1, 0, 0, 0, 0, 1, 0, 0, 0, 0, 1, 0, 0, 0, 0, 1]

theorem matrix_identity : matrix identity16 = some 1 := by
  unfold matrix
  rw [if_pos (by simp [identity16])]
  congr 1
  funext i j
  fin_cases i <;> fin_cases j <;> simp [identity16]

/-- One pixel for every return; the strings tell what they hold. -/
def oneD : Codec :=
  ⟨fun b => if b = [2] then some ⟨[0, 0, 0, 0, 0, 0], [1, 1, 6]⟩ else some ⟨[5, 1, 0, -1], [1, 1, 4]⟩,
    fun _ => some ⟨[1, 10, 20, 0, 0, 0], [1, 1, 6]⟩⟩

/-- A frame of one laser and one camera. -/
noncomputable def oneF (ret2 : Return) (camera : ℕ) (time : ℝ) : FullFrame where
  frame := ⟨identity16, [⟨1, { range := [1], projection := [3], pose := [2] }, ret2⟩], [{ name := 1, lo := -1, hi := 1, extrinsic := identity16 }]⟩
  images := [⟨camera, [7], identity16, 1, 2, 3, 4, 5, 6, time, 1 / 100, time, time + 1⟩]
  cameras := [⟨camera, [2000, 2000, 960, 640, 0, 0, 0, 0, 0], identity16, 1920, 1280, 1⟩]
  timestamp := 1550000000000000

theorem one_affine (ret2 : Return) (camera : ℕ) (time : ℝ) : ∀ F, IsMatrix (oneF ret2 camera time).frame.pose F → Affine F := by
  intro F hF
  have : F = 1 := by
    have h := hF
    unfold IsMatrix at h
    funext i j
    have hm := matrix_some matrix_identity
    unfold IsMatrix at hm
    first
      | exact Option.some.inj ((h.2 i j).symm.trans (hm.2 i j))
      | exact (h.2 i j).trans (hm.2 i j).symm
  subst this
  unfold Affine
  first
    | (intro j; fin_cases j <;> simp)
    | (funext j; fin_cases j <;> simp)
    | simp

/-- Such a frame has a dictionary, whose contents `toDict_spec_partial` gives. -/
theorem one_exists (time : ℝ) : ∃ d, toDict oneD (fun b => some b) id (oneF { range := [1], projection := [3] } 1 time) = some d := by
  have hparse : ∃ s, parse oneD (oneF { range := [1], projection := [3] } 1 time).frame = some s ∧
      s.ranges 1 = some [⟨[5, 1, 0, -1], [1, 1, 4]⟩, ⟨[5, 1, 0, -1], [1, 1, 4]⟩] ∧
      s.projections 1 = some [⟨[1, 10, 20, 0, 0, 0], [1, 1, 6]⟩, ⟨[1, 10, 20, 0, 0, 0], [1, 1, 6]⟩] ∧
      s.topPose = ⟨[0, 0, 0, 0, 0, 0], [1, 1, 6]⟩ := by
    simp [oneF, oneD, parse, parseLasers, parseFirst, parseSecond, append, put]
  obtain ⟨s, hs, hr, hp, ht⟩ := hparse
  have hcart : ∀ index, index < 2 → ∃ img, toCartesian (oneF { range := [1], projection := [3] } 1 time).frame s index true = some img ∧
      ∃ x, img 1 = some x := by
    intro index hi
    have hri : ([⟨[5, 1, 0, -1], [1, 1, 4]⟩, ⟨[5, 1, 0, -1], [1, 1, 4]⟩] : List (Raw ℝ))[index]? = some ⟨[5, 1, 0, -1], [1, 1, 4]⟩ := by
      rcases (by omega : index = 0 ∨ index = 1) with rfl | rfl <;> rfl
    have hc : ∃ x, cartesianOf s 1 ⟨1, 1, 6, [0, 0, 0, 0, 0, 0]⟩ index true { name := 1, lo := -1, hi := 1, extrinsic := identity16 } = some x := by
      rw [cartesianOf_eq]
      simp [hr, hri, matrix_identity, reshape, Clouds.cartesian, rowInclinations, RangeImage.inclinations, Boxes.inv,
        RangeImage.extract, RangeImage.polar, RangeImage.cartesian]
    obtain ⟨x, hx⟩ := hc
    refine ⟨_, by simp [toCartesian, oneF, matrix_identity, poses, ht, reshape, hx]; rfl, x, by simp⟩
  obtain ⟨i0, h0, x0, hx0⟩ := hcart 0 (by norm_num)
  obtain ⟨i1, h1, x1, hx1⟩ := hcart 1 (by norm_num)
  unfold toDict
  simp [hs, h0, h1]
  simp [oneF, laserEntries, imageEntries, cameraEntries, lastEntries, beamEntry, floats, integers, hr, hp, ht, hx0, hx1, laserNames,
    cameraNames, identity16]

/-- C170 fails for frames whose laser has no second return: the point cloud of the first return exists, the dictionary does
not. -/
theorem second_return_violated : ∃ (D : Codec) (f : FullFrame) (s : Parsed), parse D f.frame = some s ∧
    (∃ img x, toCartesian f.frame s 0 true = some img ∧ img 1 = some x) ∧
    ∀ (jpeg : Bytes → Option P) single, toDict D jpeg single f = none := by
  have hparse : ∃ s, parse oneD (oneF {} 1 0).frame = some s ∧
      s.ranges 1 = some [⟨[5, 1, 0, -1], [1, 1, 4]⟩] ∧ s.topPose = ⟨[0, 0, 0, 0, 0, 0], [1, 1, 6]⟩ := by
    simp [oneF, oneD, parse, parseLasers, parseFirst, parseSecond, append, put]
  obtain ⟨s, hs, hr, ht⟩ := hparse
  have hc : ∃ x, cartesianOf s 1 ⟨1, 1, 6, [0, 0, 0, 0, 0, 0]⟩ 0 true { name := 1, lo := -1, hi := 1, extrinsic := identity16 } = some x := by
    rw [cartesianOf_eq]
    simp [hr, matrix_identity, reshape, Clouds.cartesian, rowInclinations, RangeImage.inclinations, Boxes.inv,
      RangeImage.extract, RangeImage.polar, RangeImage.cartesian]
  obtain ⟨x, hx⟩ := hc
  refine ⟨oneD, oneF {} 1 0, s, hs, ⟨_, x, by simp [toCartesian, oneF, matrix_identity, poses, ht, reshape, hx]; rfl, by simp⟩, ?_⟩
  intro jpeg single
  by_contra hne
  obtain ⟨d, hd⟩ := Option.ne_none_iff_exists'.1 hne
  obtain ⟨l, h1, -, -, h2⟩ := toDict_returns (by simp [oneF]) (by simp [oneF]) (by simp [oneF]) (by simp [oneF]) (one_affine _ _ _) hd
    { name := 1, lo := -1, hi := 1, extrinsic := identity16 } (by simp [oneF])
  simp [oneF] at h1
  subst h1
  exact h2 rfl

/-! ## Times -/

theorem toF32_time {k : ℤ} {q : ℚ} (h1 : 2 ^ 30 ≤ q) (h2 : q < 2 ^ 31) (hk : |q - 128 * k| < 64) : toF32 q = 128 * k := by
  have hpos : (0 : ℚ) < q := lt_of_lt_of_le (by norm_num) h1
  have hlog : Int.log 2 |q| = 30 := by
    rw [abs_of_pos hpos]
    apply le_antisymm
    · have : Int.log 2 q < 31 := (Int.lt_zpow_iff_log_lt (by norm_num) hpos).1 (by exact_mod_cast h2)
      omega
    · exact (Int.zpow_le_iff_le_log (by norm_num) hpos).1 (by exact_mod_cast h1)
  unfold toF32
  rw [if_neg hpos.ne']
  simp only [hlog]
  have hu : (2 : ℚ) ^ ((30 : ℤ) - 23) = 128 := by norm_num
  rw [hu]
  have hr := roundHalfEven_abs_le (q / 128)
  have : roundHalfEven (q / 128) = k := by
    have h3 : |(roundHalfEven (q / 128) : ℚ) - k| < 1 := by
      rw [abs_lt] at hk ⊢
      rw [abs_le] at hr
      have : q / 128 * 128 = q := by ring
      constructor <;> linarith [hr.1, hr.2, hk.1, hk.2]
    have h4 : |roundHalfEven (q / 128) - k| < 1 := by exact_mod_cast h3
    rw [Int.abs_lt_one_iff] at h4
    omega
  rw [this]; ring

/-- C171: the time of the pose of an image is kept up to one part in 2^24; the other times are kept as they are. -/
theorem pose_timestamp_partial {D : Codec} {jpeg : Bytes → Option P} {single : ℝ → ℝ} {f : FullFrame} {d : String → Option (Value P)}
    (hsingle : ∀ q : ℚ, single (q : ℝ) = ((toF32 q : ℚ) : ℝ))
    (hl : (f.frame.lasers.map Laser.name).Nodup) (hn : (f.frame.calibrations.map Calibration.name).Nodup)
    (hi : (f.images.map CameraImage.name).Nodup) (hk : (f.cameras.map CameraCalibration.name).Nodup)
    (hF : ∀ F, IsMatrix f.frame.pose F → Affine F) (h : toDict D jpeg single f = some d) {i : CameraImage} (hmem : i ∈ f.images)
    {q : ℚ} (hq : i.poseTimestamp = q) :
    ∃ n t, cameraNames[i.name]? = some n ∧ d (n ++ "_POSE_TIMESTAMP") = some (.reals [] [((t : ℚ) : ℝ)]) ∧ |q - t| ≤ |q| / 2 ^ 24 ∧
      d (n ++ "_CAMERA_TRIGGER_TIME") = some (.reals [] [i.triggerTime]) ∧
      d (n ++ "_CAMERA_READOUT_DONE_TIME") = some (.reals [] [i.readoutDoneTime]) ∧
      d (n ++ "_ROLLING_SHUTTER_DURATION") = some (.reals [] [i.shutter]) := by
  obtain ⟨n, p, h1, -, -, -, -, -, h2, h3, h4, h5⟩ := (toDict_spec_partial hl hn hi hk hF h).2.1 i hmem
  refine ⟨n, toF32 q, h1, ?_, toF32_abs_le q, h4, h5, h3⟩
  rw [h2, hq, hsingle]

/-- C171 fails: in this decade the times of poses, seconds since 1970, are kept in steps of 128 s, so all times of such a window
become one, wherever they stand in the frames. -/
theorem pose_timestamp_violated {D D' : Codec} {jpeg jpeg' : Bytes → Option P} {single : ℝ → ℝ} {f f' : FullFrame}
    {d d' : String → Option (Value P)} (hsingle : ∀ q : ℚ, single (q : ℝ) = ((toF32 q : ℚ) : ℝ))
    (hl : (f.frame.lasers.map Laser.name).Nodup) (hn : (f.frame.calibrations.map Calibration.name).Nodup)
    (hi : (f.images.map CameraImage.name).Nodup) (hk : (f.cameras.map CameraCalibration.name).Nodup)
    (hF : ∀ F, IsMatrix f.frame.pose F → Affine F) (h : toDict D jpeg single f = some d)
    (hl' : (f'.frame.lasers.map Laser.name).Nodup) (hn' : (f'.frame.calibrations.map Calibration.name).Nodup)
    (hi' : (f'.images.map CameraImage.name).Nodup) (hk' : (f'.cameras.map CameraCalibration.name).Nodup)
    (hF' : ∀ F, IsMatrix f'.frame.pose F → Affine F) (h' : toDict D' jpeg' single f' = some d')
    {i i' : CameraImage} (hmem : i ∈ f.images) (hmem' : i' ∈ f'.images) (hname : i.name = i'.name) {q q' : ℚ}
    (hq : i.poseTimestamp = q) (hq' : i'.poseTimestamp = q') {k : ℤ} (hw : |q - 128 * k| < 64) (hw' : |q' - 128 * k| < 64)
    (hr : 2 ^ 30 ≤ q ∧ q < 2 ^ 31) (hr' : 2 ^ 30 ≤ q' ∧ q' < 2 ^ 31) :
    ∃ n, cameraNames[i.name]? = some n ∧ d (n ++ "_POSE_TIMESTAMP") ≠ none ∧
      d (n ++ "_POSE_TIMESTAMP") = d' (n ++ "_POSE_TIMESTAMP") := by
  obtain ⟨n, p, h1, -, -, -, -, -, h2, -⟩ := (toDict_spec_partial hl hn hi hk hF h).2.1 i hmem
  obtain ⟨n', p', h1', -, -, -, -, -, h2', -⟩ := (toDict_spec_partial hl' hn' hi' hk' hF' h').2.1 i' hmem'
  rw [← hname, h1] at h1'
  cases h1'
  refine ⟨n, h1, by rw [h2]; simp, ?_⟩
  rw [h2, h2', hq, hq', hsingle, hsingle, toF32_time hr.1 hr.2 hw, toF32_time hr'.1 hr'.2 hw']

/-- Two times a minute apart. -/
example : |(1550000000 : ℚ) - 128 * (12109375 : ℤ)| < 64 ∧ |(1550000060 : ℚ) - 128 * (12109375 : ℤ)| < 64 := by norm_num

/-- C170: the names of the lasers and cameras are those of their numbers. -/
theorem names_spec :
    (∀ n s, laserNames[n]? = some s ↔ (n, s) ∈ [(0, "UNKNOWN"), (1, "TOP"), (2, "FRONT"), (3, "SIDE_LEFT"), (4, "SIDE_RIGHT"),
      (5, "REAR")]) ∧
    ∀ n s, cameraNames[n]? = some s ↔ (n, s) ∈ [(0, "UNKNOWN"), (1, "FRONT"), (2, "FRONT_LEFT"), (3, "FRONT_RIGHT"),
      (4, "SIDE_LEFT"), (5, "SIDE_RIGHT"), (6, "REAR_LEFT"), (7, "REAR"), (8, "REAR_RIGHT")] := by
  constructor
  · intro n s
    rcases n with _ | _ | _ | _ | _ | _ | n <;> simp [laserNames, eq_comm]
  · intro n s
    rcases n with _ | _ | _ | _ | _ | _ | _ | _ | _ | n <;> simp [cameraNames, eq_comm]

end Verif.FrameDict
