import Verif.Model.LatencyExamples
import Mathlib.LinearAlgebra.Matrix.NonsingularInverse
import Mathlib.Analysis.SpecialFunctions.Trigonometric.DerivHyp
import Mathlib.Tactic.Linarith
import Mathlib.Tactic.FieldSimp
import Mathlib.Tactic.Ring
import Mathlib.Tactic.FinCases

/-!
# The example submissions of the latency challenge: properties

C187: detections in images are those of the network in pixels.  C188: point clouds of several frames are in the newest frame.
C189: the networks get every valid point with its channels.
-/

namespace Verif.LatencyExamples

open Verif.Boxes
open scoped Matrix

noncomputable section

/-! ### Classes -/

/-- The classes with a type: COCO people, bicycles, cars, motorcycles, buses, trucks and stop signs, as types of label.proto. -/
def HasType (c : ℤ) (t : ℤ) : Prop :=
  (c = 1 ∧ t = 2) ∨ (c = 2 ∧ t = 4) ∨ ((c = 3 ∨ c = 4 ∨ c = 6 ∨ c = 8) ∧ t = 1) ∨ (c = 13 ∧ t = 3)

/-- C187: a class with a type gets it; every other class gets -1. -/
theorem translate_spec (c : ℤ) : (∀ t, HasType c t → translate c = t) ∧ ((∀ t, ¬HasType c t) → translate c = -1) := by
  constructor
  · intro t h
    rcases h with ⟨rfl, rfl⟩ | ⟨rfl, rfl⟩ | ⟨rfl | rfl | rfl | rfl, rfl⟩ | ⟨rfl, rfl⟩ <;> decide
  · intro h
    have hn : (labelMap.find? fun p => p.1 == c) = none := by
      rw [List.find?_eq_none]
      intro p hp hc
      have hc : p.1 = c := by simpa using hc
      subst hc
      simp only [labelMap, List.mem_cons, List.not_mem_nil, or_false] at hp
      apply h p.2
      unfold HasType
      rcases hp with rfl | rfl | rfl | rfl | rfl | rfl | rfl <;> decide
    unfold translate
    rw [hn]

theorem translate_pos (c : ℤ) : 0 < translate c ↔ ∃ t, HasType c t := by
  obtain ⟨h1, h2⟩ := translate_spec c
  constructor
  · intro h
    by_contra hn
    rw [not_exists] at hn
    rw [h2 hn] at h
    omega
  · rintro ⟨t, ht⟩
    rw [h1 t ht]
    rcases ht with ⟨-, rfl⟩ | ⟨-, rfl⟩ | ⟨-, rfl⟩ | ⟨-, rfl⟩ <;> decide

/-! ### Boxes -/

/-- The box in pixels of a detection whose corners are `ymin`, `xmin`, `ymax` and `xmax` in parts of an image with `h` rows and
`w` columns: `x` counts columns. -/
def pixels (h w : ℕ) (c : Corners) : Box4 :=
  ⟨w * (c.c1 + c.c3) / 2, h * (c.c0 + c.c2) / 2, w * (c.c3 - c.c1), h * (c.c2 - c.c0)⟩

/-- C187: what the TensorFlow example returns, up to the boxes: the detections with a type, in order, with their scores and types. -/
theorem runTf_spec (h w : ℕ) {ds : List Det} (hd : ds ≠ []) (hc : ∀ d ∈ ds, 0 ≤ d.cls ∧ d.cls < 256) :
    runTf h w ds = some ((ds.filter fun d => decide (0 < translate d.cls)).map fun d =>
      ⟨tfBox h w d.corners, d.score, translate d.cls⟩) := by
  unfold runTf
  rw [if_neg hd, Option.some.injEq]
  have he : ∀ d ∈ ds, d.cls % 256 = d.cls := fun d hm => Int.emod_eq_of_lt (hc d hm).1 (hc d hm).2
  rw [show (ds.filter fun d => decide (0 < translate (d.cls % 256))) = ds.filter fun d => decide (0 < translate d.cls) from
    List.filter_congr fun d hm => by rw [he d hm]]
  apply List.map_congr_left
  intro d hm
  rw [he d (List.mem_of_mem_filter hm)]

/-- C187 is proved for square images: the boxes of the TensorFlow example are in pixels. -/
theorem tfBox_partial (n : ℕ) (c : Corners) : tfBox n n c = pixels n n c := by
  unfold tfBox pixels
  congr 1 <;> ring

/-- C187: what the boxes of the TensorFlow example are for every image: those of an image with rows and columns exchanged. -/
theorem tfBox_exchanged (h w : ℕ) (c : Corners) : tfBox h w c = pixels w h c := by
  unfold tfBox pixels
  congr 1 <;> ring

/-- C187 is violated for every other image: `x` is scaled by the number of rows and `y` by the number of columns, so every box
with a length or a width is wrong. -/
theorem tfBox_violated {h w : ℕ} (hw : h ≠ w) {c : Corners} (hc : c.c1 < c.c3 ∨ c.c0 < c.c2) : tfBox h w c ≠ pixels h w c := by
  intro he
  have hw' : (h : ℝ) - w ≠ 0 := sub_ne_zero.2 (by exact_mod_cast hw)
  have h1 : (c.c3 - c.c1) * (h : ℝ) = w * (c.c3 - c.c1) := congrArg Box4.length he
  have h2 : (c.c2 - c.c0) * (w : ℝ) = h * (c.c2 - c.c0) := congrArg Box4.width he
  rcases hc with hc | hc
  · have : (c.c3 - c.c1) * ((h : ℝ) - w) = 0 := by linarith
    rcases mul_eq_zero.1 this with h' | h'
    · linarith
    · exact hw' h'
  · have : (c.c2 - c.c0) * ((h : ℝ) - w) = 0 := by linarith
    rcases mul_eq_zero.1 this with h' | h'
    · linarith
    · exact hw' h'

/-- C187 is violated: in an image of 1280 rows and 1920 columns a box at the bottom has its center below the image. -/
theorem tfBox_outside_violated : ∃ c : Corners, 0 ≤ c.c0 ∧ c.c0 ≤ c.c2 ∧ c.c2 ≤ 1 ∧ 0 ≤ c.c1 ∧ c.c1 ≤ c.c3 ∧ c.c3 ≤ 1 ∧
    (1280 : ℝ) < (tfBox 1280 1920 c).cy ∧ (pixels 1280 1920 c).cy < 1280 := by
  refine ⟨⟨4 / 5, 0, 1, 1⟩, ?_⟩
  simp only [tfBox, pixels]
  norm_num

/-- C187 is violated: without detections the TensorFlow and the PyTorch example raise. -/
theorem empty_violated (h w : ℕ) : runTf h w [] = none ∧ runTorch [] = none := ⟨by simp [runTf], rfl⟩

/-- The box of a detection of torchvision, whose corners are `x1`, `y1`, `x2` and `y2` in pixels. -/
def torchvision (c : Corners) : Box4 := ⟨(c.c0 + c.c2) / 2, (c.c1 + c.c3) / 2, c.c2 - c.c0, c.c3 - c.c1⟩

/-- The box if the corners were `ymin`, `xmin`, `ymax` and `xmax`, as a comment says. -/
def torchComment (c : Corners) : Box4 := ⟨(c.c1 + c.c3) / 2, (c.c0 + c.c2) / 2, c.c3 - c.c1, c.c2 - c.c0⟩

/-- C187 is proved for one detection, with corners in the order of the comment: the PyTorch example returns it if it has a type. -/
theorem runTorch_partial (d : Det) : runTorch [d] = some (([d].filter fun d => decide (0 < translate d.cls)).map fun d =>
    ⟨torchComment d.corners, d.score, translate d.cls⟩) := by
  unfold runTorch
  by_cases h : 0 < translate d.cls
  · simp only [h, if_true, List.filter_cons, decide_true, List.filter_nil, List.map_cons, List.map_nil, torchBox, torchComment]
    rw [add_comm d.corners.c3, add_comm d.corners.c2]
  · simp [h]

/-- C187 is violated: the PyTorch example returns at most the first detection, whatever the others are. -/
theorem runTorch_violated (d : Det) (ds : List Det) : runTorch (d :: ds) = runTorch [d] := rfl

/-- C187 is violated: with the corners in the order of torchvision, `x` and `y` are exchanged. -/
theorem torch_order_violated (c : Corners) : torchBox c =
    ⟨(torchvision c).cy, (torchvision c).cx, (torchvision c).width, (torchvision c).length⟩ := by
  unfold torchBox torchvision
  congr 1 <;> ring

/-- A car and a dog. -/
example : runTf 2 2 [⟨⟨0, 0, 1, 1⟩, 1, 3⟩, ⟨⟨0, 0, 1, 1⟩, 1, 18⟩] = some [⟨⟨1, 1, 2, 2⟩, 1, 1⟩] := by
  have h3 : translate 3 = 1 := by decide
  have h18 : translate 18 = -1 := by decide
  simp [runTf, tfBox, h3, h18]

/-! ### Several frames -/

/-- A rigid pose: its upper left part is orthogonal. -/
def Rigid (m : M4) : Prop := rotationPart m * (rotationPart m)ᵀ = 1

/-- C188: a moved point is the same point of the world in the new frame, and the only one; the other channels are kept. -/
theorem transform_spec {old new : M4} (hn : Rigid new) (pc : List Pixel) :
    (transformPointCloud pc old new).length = pc.length ∧
    ∀ (i : ℕ) p, pc[i]? = some p → ∃ q, (transformPointCloud pc old new)[i]? = some q ∧
      q.range = p.range ∧ q.intensity = p.intensity ∧ q.elongation = p.elongation ∧
      apply new q.pos = apply old p.pos ∧ ∀ x, apply new x = apply old p.pos → x = q.pos := by
  unfold transformPointCloud
  refine ⟨by simp, ?_⟩
  intro i p hp
  refine ⟨{ p with pos := (rotationPart new)ᵀ *ᵥ (rotationPart old *ᵥ p.pos + translationPart old - translationPart new) },
    by rw [List.getElem?_map, hp]; rfl, rfl, rfl, rfl, ?_, ?_⟩
  · unfold apply
    dsimp only
    rw [Matrix.mulVec_mulVec, hn, Matrix.one_mulVec, sub_add_cancel]
  · intro x hx
    have h2 : (rotationPart new)ᵀ * rotationPart new = 1 := mul_eq_one_comm.1 hn
    dsimp only
    have : rotationPart old *ᵥ p.pos + translationPart old - translationPart new = rotationPart new *ᵥ x := by
      have := hx
      unfold apply at this
      rw [← this, add_sub_cancel_right]
    rw [this, Matrix.mulVec_mulVec, h2, Matrix.one_mulVec]

/-- C188: moving to the same pose changes nothing, and moving twice is moving once. -/
theorem transform_laws {a b c : M4} (ha : Rigid a) (hb : Rigid b) (pc : List Pixel) :
    transformPointCloud pc a a = pc ∧
    transformPointCloud (transformPointCloud pc a b) b c = transformPointCloud pc a c := by
  constructor
  · unfold transformPointCloud
    conv_rhs => rw [← List.map_id pc]
    apply List.map_congr_left
    intro p _
    have h2 : (rotationPart a)ᵀ * rotationPart a = 1 := mul_eq_one_comm.1 ha
    dsimp only [id]
    rw [add_sub_cancel_right, Matrix.mulVec_mulVec, h2, Matrix.one_mulVec]
  · unfold transformPointCloud
    rw [List.map_map]
    apply List.map_congr_left
    intro p _
    dsimp only [Function.comp]
    rw [Matrix.mulVec_mulVec, hb, Matrix.one_mulVec, sub_add_cancel]

/-- C188 needs rigid poses: with a pose that also scales, even a cloud moved to its own pose changes. -/
theorem transform_scale : ∃ (m : M4) (p : Pixel), ¬Rigid m ∧ transformPointCloud [p] m m ≠ [p] := by
  have hr : rotationPart (fun i j => if i = j then 2 else 0 : M4) = (2 : ℝ) • (1 : M3) := by
    ext i j
    fin_cases i <;> fin_cases j <;> simp [rotationPart]
  refine ⟨fun i j => if i = j then 2 else 0, ⟨1, 0, 0, ![1, 0, 0]⟩, ?_, ?_⟩
  · intro h
    unfold Rigid at h
    rw [hr] at h
    have := congrFun (congrFun h 0) 0
    simp at this
    norm_num at this
  · intro h
    unfold transformPointCloud at h
    rw [hr] at h
    have h1 := congrArg (fun l : List Pixel => (l.map fun p => p.pos 0)) h
    simp [Matrix.smul_mulVec] at h1
    norm_num at h1

theorem mem_valid {image : List (List Pixel)} {p : Pixel} : p ∈ valid image ↔ (∃ row ∈ image, p ∈ row) ∧ 0 < p.range := by
  unfold valid
  rw [List.mem_filter, List.mem_flatten, decide_eq_true_eq]

/-- C188: the combined cloud holds the valid points of the newest frame as they are, then those of the frame before and of the
one before that, moved to the newest pose. -/
theorem combine_spec (frames : Fin 3 → Frame) : combine frames = valid (frames 0).image ++
    transformPointCloud (valid (frames 1).image) (frames 1).pose (frames 0).pose ++
    transformPointCloud (valid (frames 2).image) (frames 2).pose (frames 0).pose := by
  simp [combine]

/-- C188: every valid point of a frame is in the combined cloud at the same place of the world, and every point of the cloud
comes from one. -/
theorem combine_world (frames : Fin 3 → Frame) (hr : Rigid (frames 0).pose) (x : V3) (r i e : ℝ) :
    (∃ q ∈ combine frames, apply (frames 0).pose q.pos = x ∧ q.range = r ∧ q.intensity = i ∧ q.elongation = e) ↔
    ∃ k, ∃ row ∈ (frames k).image, ∃ p ∈ row, 0 < p.range ∧ apply (frames k).pose p.pos = x ∧ p.range = r ∧ p.intensity = i ∧
      p.elongation = e := by
  have moved : ∀ (k : Fin 3), (∃ q ∈ transformPointCloud (valid (frames k).image) (frames k).pose (frames 0).pose,
      apply (frames 0).pose q.pos = x ∧ q.range = r ∧ q.intensity = i ∧ q.elongation = e) ↔
      ∃ row ∈ (frames k).image, ∃ p ∈ row, 0 < p.range ∧ apply (frames k).pose p.pos = x ∧ p.range = r ∧ p.intensity = i ∧
        p.elongation = e := by
    intro k
    obtain ⟨hl, hs⟩ := transform_spec hr (old := (frames k).pose) (valid (frames k).image)
    constructor
    · rintro ⟨q, hq, h1, h2, h3, h4⟩
      obtain ⟨n, hn⟩ := List.getElem?_of_mem hq
      have hlt : n < (valid (frames k).image).length := by
        rw [← hl]
        exact (List.getElem?_eq_some_iff.1 hn).1
      obtain ⟨q', hq', a1, a2, a3, a4, -⟩ := hs n _ (List.getElem?_eq_getElem hlt)
      rw [hn, Option.some.injEq] at hq'
      subst hq'
      obtain ⟨⟨row, hrow, hp⟩, hpos⟩ := mem_valid.1 (List.getElem_mem hlt)
      exact ⟨row, hrow, _, hp, hpos, by rw [← a4]; exact h1, a1 ▸ h2, a2 ▸ h3, a3 ▸ h4⟩
    · rintro ⟨row, hrow, p, hp, hpos, h1, h2, h3, h4⟩
      obtain ⟨n, hn⟩ := List.getElem?_of_mem (mem_valid.2 ⟨⟨row, hrow, hp⟩, hpos⟩)
      obtain ⟨q, hq, a1, a2, a3, a4, -⟩ := hs n p hn
      exact ⟨q, List.mem_of_getElem? hq, by rw [a4]; exact h1, by rw [a1]; exact h2, by rw [a2]; exact h3, by rw [a3]; exact h4⟩
  have first : transformPointCloud (valid (frames 0).image) (frames 0).pose (frames 0).pose = valid (frames 0).image :=
    (transform_laws (c := (frames 0).pose) hr hr _).1
  rw [combine_spec]
  constructor
  · rintro ⟨q, hq, h⟩
    rw [List.mem_append, List.mem_append] at hq
    rcases hq with (hq | hq) | hq
    · exact ⟨0, (moved 0).1 ⟨q, by rw [first]; exact hq, h⟩⟩
    · exact ⟨1, (moved 1).1 ⟨q, hq, h⟩⟩
    · exact ⟨2, (moved 2).1 ⟨q, hq, h⟩⟩
  · rintro ⟨k, hk⟩
    obtain ⟨q, hq, h⟩ := (moved k).2 hk
    refine ⟨q, ?_, h⟩
    rw [List.mem_append, List.mem_append]
    fin_cases k
    · left; left
      rw [← first]
      exact hq
    · exact .inl (.inr hq)
    · exact .inr hq

/-- A frame that stands still and has a point and an invalid pixel. -/
example : ∃ frames : Fin 3 → Frame, Rigid (frames 0).pose ∧ (combine frames).length = 3 := by
  have hr : rotationPart (1 : M4) = 1 := by
    ext i j
    fin_cases i <;> fin_cases j <;> simp [rotationPart]
  refine ⟨fun _ => ⟨[[⟨1, 0, 0, 0⟩, ⟨0, 0, 0, 0⟩]], 1⟩, ?_, ?_⟩
  · show Rigid 1
    unfold Rigid
    rw [hr]
    simp
  · rw [combine_spec]
    simp [valid, transformPointCloud]

/-! ### Inputs -/

theorem tanh_lt {a b : ℝ} : Real.tanh a < Real.tanh b ↔ a < b := by
  have key : ∀ a b : ℝ, a < b → Real.tanh a < Real.tanh b := by
    intro a b h
    rw [Real.tanh_eq_sinh_div_cosh, Real.tanh_eq_sinh_div_cosh, div_lt_div_iff₀ (Real.cosh_pos a) (Real.cosh_pos b)]
    have := Real.sinh_pos_iff.2 (sub_pos.2 h)
    rw [Real.sinh_sub] at this
    linarith
  constructor
  · intro h
    by_contra hn
    rcases lt_or_eq_of_le (not_lt.1 hn) with h' | h'
    · exact absurd h (not_lt.2 (key _ _ h').le)
    · rw [h'] at h
      exact lt_irrefl _ h
  · exact key a b

/-- C189: the PV-RCNN example needs all five lidars; then it gets the valid points of the top, rear, front, left and right one
in this order, with the coordinates first, the intensity squeezed and the elongation as it is. -/
theorem processInputs_spec (input : String → Option (List (List Pixel))) :
    (∀ t r f l s, input "TOP_RANGE_IMAGE_FIRST_RETURN" = some t → input "REAR_RANGE_IMAGE_FIRST_RETURN" = some r →
      input "FRONT_RANGE_IMAGE_FIRST_RETURN" = some f → input "SIDE_LEFT_RANGE_IMAGE_FIRST_RETURN" = some l →
      input "SIDE_RIGHT_RANGE_IMAGE_FIRST_RETURN" = some s →
      processInputs input = some ((valid t ++ valid r ++ valid f ++ valid l ++ valid s).map fun p =>
        ⟨p.pos, Real.tanh p.intensity, p.elongation⟩)) ∧
    ((∃ n ∈ ["TOP", "REAR", "FRONT", "SIDE_LEFT", "SIDE_RIGHT"], input (n ++ "_RANGE_IMAGE_FIRST_RETURN") = none) →
      processInputs input = none) := by
  have hf : dataFields = ["TOP_RANGE_IMAGE_FIRST_RETURN", "REAR_RANGE_IMAGE_FIRST_RETURN", "FRONT_RANGE_IMAGE_FIRST_RETURN",
      "SIDE_LEFT_RANGE_IMAGE_FIRST_RETURN", "SIDE_RIGHT_RANGE_IMAGE_FIRST_RETURN"] := by decide
  unfold processInputs
  rw [hf]
  constructor
  · intro t r f l s ht hr hf hl hs
    simp only [List.mapM_cons, List.mapM_nil, ht, hr, hf, hl, hs, Option.map_some, Option.bind_eq_bind, Option.bind_some,
      Option.pure_def, Option.some.injEq]
    simp [Function.comp_def]
  · rintro ⟨n, hn, hi⟩
    simp only [List.mem_cons, List.not_mem_nil, or_false] at hn
    have h : input "TOP_RANGE_IMAGE_FIRST_RETURN" = none ∨ input "REAR_RANGE_IMAGE_FIRST_RETURN" = none ∨
        input "FRONT_RANGE_IMAGE_FIRST_RETURN" = none ∨ input "SIDE_LEFT_RANGE_IMAGE_FIRST_RETURN" = none ∨
        input "SIDE_RIGHT_RANGE_IMAGE_FIRST_RETURN" = none := by
      rcases hn with rfl | rfl | rfl | rfl | rfl
      · exact .inl hi
      · exact .inr (.inl hi)
      · exact .inr (.inr (.inl hi))
      · exact .inr (.inr (.inr (.inl hi)))
      · exact .inr (.inr (.inr (.inr hi)))
    simp only [List.mapM_cons, List.mapM_nil, Option.bind_eq_bind, Option.pure_def, Option.bind_eq_none_iff]
    intro x hx
    exfalso
    simp only [Option.bind_eq_some_iff, Option.map_eq_some_iff] at hx
    obtain ⟨_, ⟨a, ha, -⟩, _, ⟨_, ⟨b, hb, -⟩, _, ⟨_, ⟨c, hc, -⟩, _, ⟨_, ⟨d, hd, -⟩, _, ⟨_, ⟨e, he, -⟩, -⟩, -⟩, -⟩, -⟩, -⟩ := hx
    rw [ha, hb, hc, hd, he] at h
    simp at h

/-- C189: squeezing keeps intensities apart, and they are less than one. -/
theorem tanh_laws (a b : ℝ) : (Real.tanh a = Real.tanh b ↔ a = b) ∧ -1 < Real.tanh a ∧ Real.tanh a < 1 := by
  refine ⟨⟨fun h => ?_, fun h => by rw [h]⟩, ?_, ?_⟩
  · rcases lt_trichotomy a b with h' | h' | h'
    · exact absurd h (tanh_lt.2 h').ne
    · exact h'
    · exact absurd h (tanh_lt.2 h').ne'
  · rw [Real.tanh_eq_sinh_div_cosh, lt_div_iff₀ (Real.cosh_pos a)]
    have := Real.exp_pos a
    rw [← Real.cosh_add_sinh] at this
    linarith
  · rw [Real.tanh_eq_sinh_div_cosh, div_lt_one (Real.cosh_pos a)]
    have := Real.exp_pos (-a)
    rw [← Real.cosh_sub_sinh] at this
    linarith

/-- C189: the saved model gets each pixel in its place, with ranges in units of 75 meters, squeezed intensities and elongations in
units of 1.5, and its coordinates; different pixels stay different.  Without initialization it is an error. -/
theorem savedModel_spec (image : List (List Pixel)) : savedModelInput false image = none ∧
    ∃ out, savedModelInput true image = some out ∧ out.length = image.length ∧
      ∀ (r : ℕ) row, image[r]? = some row → ∃ orow, out[r]? = some orow ∧ orow.length = row.length ∧
        ∀ (c : ℕ) p, row[c]? = some p → ∃ o, orow[c]? = some o ∧ o.1 0 * 75 = p.range ∧ o.1 1 = Real.tanh p.intensity ∧
          o.1 2 * 1.5 = p.elongation ∧ o.2 = p.pos := by
  refine ⟨rfl, _, rfl, by simp, ?_⟩
  intro r row hr
  refine ⟨_, by rw [List.getElem?_map, hr]; rfl, by simp, ?_⟩
  intro c p hp
  refine ⟨_, by rw [List.getElem?_map, hp]; rfl, ?_, rfl, ?_, rfl⟩
  · show p.range * (1 / 75) * 75 = p.range
    ring
  · show p.elongation * (1 / (3 / 2)) * 1.5 = p.elongation
    norm_num
    ring

end

end Verif.LatencyExamples
