import Verif.Props.Rays
import Mathlib.Tactic.LinearCombination

/-!
C147: coordinates of boxes and of frames.
-/

namespace Verif.Rays

open Verif.Boxes (V3 M4)

/-! ## Specification -/

/-- The point of a box with given coordinates along its length, width and height. -/
noncomputable def boxPoint (b : Box7) (u : V3) : V3 :=
  ![b.center 0 + u 0 * Real.cos b.heading - u 1 * Real.sin b.heading,
    b.center 1 + u 0 * Real.sin b.heading + u 1 * Real.cos b.heading,
    b.center 2 + u 2]

/-- The closed box with heading. -/
def InOriented (b : Box7) (p : V3) : Prop := ∃ u : V3, (∀ i, |u i| ≤ b.size i / 2) ∧ p = boxPoint b u

/-- Squared distance. -/
def sqDist (p q : V3) : ℝ := (p 0 - q 0) ^ 2 + (p 1 - q 1) ^ 2 + (p 2 - q 2) ^ 2

/-! ## Coordinates of a box -/

/-- One row of `transform_points_to_box_coord`. -/
noncomputable def toBoxOne (b : Box7) (p : V3) : V3 := rotateOne (-1 * b.heading) fun i => p i - b.center i

theorem pointsToBox_map (ps : List V3) (b : Box7) : pointsToBox ps b = ps.map (toBoxOne b) := by
  simp [pointsToBox, rotate, toBoxOne, Function.comp_def]

theorem pointsFromBox_map (ps : List V3) (b : Box7) : pointsFromBox ps b = ps.map (boxPoint b) := by
  simp only [pointsFromBox, rotate, List.map_map]
  apply List.map_congr_left
  intro p _
  funext i
  fin_cases i <;> simp [rotateOne, boxPoint] <;> ring

theorem toBox_boxPoint (b : Box7) (u : V3) : toBoxOne b (boxPoint b u) = u := by
  have h := Real.sin_sq_add_cos_sq b.heading
  funext i
  fin_cases i <;> simp [rotateOne, boxPoint, toBoxOne]
  · linear_combination u 0 * h
  · linear_combination u 1 * h

theorem boxPoint_toBox (b : Box7) (p : V3) : boxPoint b (toBoxOne b p) = p := by
  have h := Real.sin_sq_add_cos_sq b.heading
  funext i
  fin_cases i <;> simp [rotateOne, boxPoint, toBoxOne]
  · linear_combination (p 0 - b.center 0) * h
  · linear_combination (p 1 - b.center 1) * h

/-- **C147.**  The coordinates are those of the documentation (centre at the origin, heading is +X, +Z stays) and each
function undoes the other one. -/
theorem box_coordinates (ps : List V3) (b : Box7) :
    pointsToBox (pointsFromBox ps b) b = ps ∧ pointsFromBox (pointsToBox ps b) b = ps ∧
      ∀ (i : ℕ) (p : V3), ps[i]? = some p → ∃ u, (pointsToBox ps b)[i]? = some u ∧ p = boxPoint b u := by
  refine ⟨?_, ?_, ?_⟩
  · rw [pointsToBox_map, pointsFromBox_map, List.map_map]
    simp [Function.comp_def, toBox_boxPoint]
  · rw [pointsToBox_map, pointsFromBox_map, List.map_map]
    simp [Function.comp_def, boxPoint_toBox]
  · intro i p hp
    refine ⟨toBoxOne b p, ?_, (boxPoint_toBox b p).symm⟩
    rw [pointsToBox_map, List.getElem?_map, hp]; rfl

/-- Distances are kept. -/
theorem box_distance (b : Box7) (u v : V3) : sqDist (boxPoint b u) (boxPoint b v) = sqDist u v := by
  have h := Real.sin_sq_add_cos_sq b.heading
  simp [sqDist, boxPoint]
  linear_combination ((u 0 - v 0) ^ 2 + (u 1 - v 1) ^ 2) * h

theorem inOriented_iff (b : Box7) (p : V3) : InOriented b p ↔ InBox b.size (toBoxOne b p) := by
  constructor
  · rintro ⟨u, hu, rfl⟩
    rw [toBox_boxPoint]; exact hu
  · intro h
    exact ⟨_, h, (boxPoint_toBox b p).symm⟩

theorem along_toBox (b : Box7) (o d : V3) (t : ℝ) :
    along (toBoxOne b o) (rotateOne (-1 * b.heading) d) t = toBoxOne b (along o d t) := by
  funext i
  fin_cases i <;> simp [along, rotateOne, toBoxOne] <;> ring

/-- **C147, rays.**  A ray moved into the coordinates of a box is reported to hit the box exactly if the ray itself hits
the box with its position and heading, and the intersections have the same parameters.  The direction must not be parallel
to a face of the box. -/
theorem oriented_hit {b : Box7} (hs : ∀ i, 0 ≤ b.size i) {os ds : List V3} (hl : os.length = ds.length)
    (hd : ∀ d ∈ directionsToBox ds b, ∀ i, d i ≠ 0) :
    ∃ hits, intersect (pointsToBox os b) (directionsToBox ds b) b.size = some hits ∧ hits.length = os.length ∧
      ∀ (i : ℕ) (o d : V3) (h : Hit), os[i]? = some o → ds[i]? = some d → hits[i]? = some h →
        (h.flag = true ↔ ∃ t, 0 < t ∧ InOriented b (along o d t)) ∧
        (∀ t, InOriented b (along o d t) ↔ h.first ≤ t ∧ t ≤ h.second) := by
  obtain ⟨hits, h1, h2, h3⟩ := intersect_spec hs (os := pointsToBox os b) (ds := directionsToBox ds b)
    (by simp [pointsToBox_map, directionsToBox, rotate, hl]) hd
  refine ⟨hits, h1, by simpa [pointsToBox_map] using h2, ?_⟩
  intro i o d h ho hd' hh
  have := h3 i (toBoxOne b o) (rotateOne (-1 * b.heading) d) h (by rw [pointsToBox_map, List.getElem?_map, ho]; rfl)
    (by rw [directionsToBox, rotate, List.getElem?_map, hd']; rfl) hh
  simp only [along_toBox, ← inOriented_iff] at this
  exact this

/-- Directions keep their length. -/
theorem box_direction_length (b : Box7) (d : V3) : sqDist (rotateOne (-1 * b.heading) d) (fun _ => 0) = sqDist d (fun _ => 0) := by
  have h := Real.sin_sq_add_cos_sq b.heading
  simp [sqDist, rotateOne]
  linear_combination (d 0 ^ 2 + d 1 ^ 2) * h

/-- A box, a ray and a hit: the hypotheses of `oriented_hit` can be met with a heading. -/
example : ∃ hits, intersect (pointsToBox [![-3, 0, 0]] ⟨![0, 0, 0], ![2, 2, 2], Real.pi⟩)
    (directionsToBox [![1, 1 / 4, 1 / 4]] ⟨![0, 0, 0], ![2, 2, 2], Real.pi⟩) ![2, 2, 2] = some hits ∧
    ∃ h, hits[0]? = some h ∧ h.flag = true := by
  obtain ⟨hits, h1, h2, h3⟩ := oriented_hit (b := ⟨![0, 0, 0], ![2, 2, 2], Real.pi⟩) (os := [![-3, 0, 0]]) (ds := [![1, 1 / 4, 1 / 4]])
    (by intro i; fin_cases i <;> norm_num) rfl (by
      intro d hd i
      simp only [directionsToBox, rotate, List.map_cons, List.map_nil, List.mem_singleton] at hd
      subst hd
      fin_cases i
      · norm_num [rotateOne]
      · norm_num [rotateOne]
      · change (1 / 4 : ℝ) ≠ 0; norm_num)
  refine ⟨hits, h1, ?_⟩
  obtain ⟨h, hh⟩ : ∃ h, hits[0]? = some h := by
    cases hits with
    | nil => simp at h2
    | cons a l => exact ⟨a, rfl⟩
  refine ⟨h, hh, (h3 0 _ _ h rfl rfl hh).1.2 ⟨3, by norm_num, (inOriented_iff _ _).2 fun i => ?_⟩⟩
  fin_cases i
  · norm_num [toBoxOne, rotateOne, along, abs_le]
  · norm_num [toBoxOne, rotateOne, along, abs_le]
  · change |(0 : ℝ) + 3 * (1 / 4) - 0| ≤ 2 / 2; norm_num [abs_le]

/-! ## Frames -/

/-- What a pose does to a point. -/
def applyPose (m : M4) (p : V3) : V3 :=
  ![m 0 0 * p 0 + m 0 1 * p 1 + m 0 2 * p 2 + m 0 3, m 1 0 * p 0 + m 1 1 * p 1 + m 1 2 * p 2 + m 1 3,
    m 2 0 * p 0 + m 2 1 * p 1 + m 2 2 * p 2 + m 2 3]

/-- What a pose does to a direction. -/
def turn (m : M4) (d : V3) : V3 :=
  ![m 0 0 * d 0 + m 0 1 * d 1 + m 0 2 * d 2, m 1 0 * d 0 + m 1 1 * d 1 + m 1 2 * d 2, m 2 0 * d 0 + m 2 1 * d 1 + m 2 2 * d 2]

/-- The columns of the rotation are orthonormal. -/
def Rigid (m : M4) : Prop :=
  ∀ i j : Fin 3, m 0 i.castSucc * m 0 j.castSucc + m 1 i.castSucc * m 1 j.castSucc + m 2 i.castSucc * m 2 j.castSucc
    = if i = j then 1 else 0

theorem linear_eq (m : M4) (v : V3) : linear m v = turn m v := by
  funext i
  fin_cases i <;> simp [linear, turn, Fin.sum_univ_three, Fin.castSucc, Fin.castAdd, Fin.castLE] <;> rfl

theorem pointsToFrame_map (ps : List V3) (m : M4) : pointsToFrame ps m = ps.map (applyPose m) := by
  apply List.map_congr_left
  intro p _
  funext i
  simp only [linear_eq]
  fin_cases i <;> simp [turn, applyPose, Fin.castSucc, Fin.castAdd, Fin.castLE] <;> rfl

/-- **C147, frames.**  Points are moved by the pose and directions turned by it; the image of a ray is the ray of the
images, with the same parameters. -/
theorem frame_rays (os ds : List V3) (m : M4) :
    pointsToFrame os m = os.map (applyPose m) ∧ directionsToFrame ds m = ds.map (turn m) ∧
      ∀ o d t, along (applyPose m o) (turn m d) t = applyPose m (along o d t) := by
  refine ⟨pointsToFrame_map os m, ?_, ?_⟩
  · exact List.map_congr_left fun d _ => linear_eq m d
  · intro o d t
    funext i
    fin_cases i <;> simp [along, applyPose, turn] <;> ring

/-- Rigid poses keep distances and lengths of directions. -/
theorem frame_distance {m : M4} (hm : Rigid m) (p q : V3) :
    sqDist (applyPose m p) (applyPose m q) = sqDist p q ∧ sqDist (turn m p) (turn m q) = sqDist p q := by
  have h00 := hm 0 0
  have h01 := hm 0 1
  have h02 := hm 0 2
  have h11 := hm 1 1
  have h12 := hm 1 2
  have h22 := hm 2 2
  simp only [Fin.castSucc_zero, Fin.castSucc_one, Fin.isValue, if_true] at h00 h01 h02 h11 h12 h22
  rw [if_neg (by decide)] at h01 h02 h12
  change _ + _ * m 2 2 = _ at h22
  change _ + _ * m 2 2 = _ at h12
  change _ + _ * m 2 2 = _ at h02
  change m 0 2 * m 0 2 + m 1 2 * m 1 2 + m 2 2 * m 2 2 = 1 at h22
  change m 0 1 * m 0 2 + m 1 1 * m 1 2 + m 2 1 * m 2 2 = 0 at h12
  change m 0 0 * m 0 2 + m 1 0 * m 1 2 + m 2 0 * m 2 2 = 0 at h02
  constructor <;> simp [sqDist, applyPose, turn] <;>
  linear_combination (p 0 - q 0) ^ 2 * h00 + (p 1 - q 1) ^ 2 * h11 + (p 2 - q 2) ^ 2 * h22 +
    2 * (p 0 - q 0) * (p 1 - q 1) * h01 + 2 * (p 0 - q 0) * (p 2 - q 2) * h02 + 2 * (p 1 - q 1) * (p 2 - q 2) * h12

/-- There and back: with the inverse pose. -/
theorem frame_back {m n : M4} (hm : m 3 = ![0, 0, 0, 1]) (h : n * m = 1) (ps : List V3) :
    pointsToFrame (pointsToFrame ps m) n = ps := by
  have e : ∀ i j, ∑ k, n i k * m k j = (1 : M4) i j := fun i j => by rw [← h]; rfl
  have hm0 : m 3 0 = 0 := by rw [hm]; rfl
  have hm1 : m 3 1 = 0 := by rw [hm]; rfl
  have hm2 : m 3 2 = 0 := by rw [hm]; rfl
  have hm3 : m 3 3 = 1 := by rw [hm]; rfl
  simp only [Fin.sum_univ_four] at e
  rw [pointsToFrame_map, pointsToFrame_map, List.map_map]
  conv_rhs => rw [← List.map_id ps]
  apply List.map_congr_left
  intro p _
  have one : ∀ i j : Fin 4, (1 : M4) i j = if i = j then 1 else 0 := fun i j => Matrix.one_apply
  funext i
  fin_cases i
  · have a := e 0 0; have b := e 0 1; have c := e 0 2; have d := e 0 3
    simp [one, hm0, hm1, hm2, hm3] at a b c d
    simp [applyPose]; linear_combination p 0 * a + p 1 * b + p 2 * c + d
  · have a := e 1 0; have b := e 1 1; have c := e 1 2; have d := e 1 3
    simp [one, hm0, hm1, hm2, hm3] at a b c d
    simp [applyPose]; linear_combination p 0 * a + p 1 * b + p 2 * c + d
  · have a := e 2 0; have b := e 2 1; have c := e 2 2; have d := e 2 3
    simp [one, hm0, hm1, hm2, hm3] at a b c d
    simp [applyPose]; linear_combination p 0 * a + p 1 * b + p 2 * c + d

/-- The identity is rigid, and so is a quarter turn with a translation. -/
example : Rigid !![0, -1, 0, 5; 1, 0, 0, 6; 0, 0, 1, 7; 0, 0, 0, 1] := by
  intro i j; fin_cases i <;> fin_cases j <;> simp

end Verif.Rays
