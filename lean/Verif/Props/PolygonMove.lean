import Verif.Props.PolygonConvex
import Mathlib.Analysis.Convex.Hull
import Mathlib.LinearAlgebra.Matrix.ToLin
import Mathlib.LinearAlgebra.Determinant

/-!
C100: moving polygons (math/polygon2d.cc:533-557).
-/

namespace Verif.Polygon

open Real MeasureTheory

/-- Specification: turning the plane by `θ` around `c` and then shifting it by `o`. -/
noncomputable def move (θ : ℝ) (c o p : ℝ × ℝ) : ℝ × ℝ :=
  (cos θ * (p.1 - c.1) - sin θ * (p.2 - c.2) + c.1 + o.1, sin θ * (p.1 - c.1) + cos θ * (p.2 - c.2) + c.2 + o.2)

/-! ## Shifting and turning is building from the moved points -/

theorem pad_map (f : Pt ℝ → Pt ℝ) : ∀ l, pad (l.map f) = (pad l).map f
  | [] => rfl
  | [_] => rfl
  | [_, _] => rfl
  | _ :: _ :: _ :: _ => rfl

theorem foldl_elemMin_add (o : Pt ℝ) : ∀ (l : List (Pt ℝ)) (a : Pt ℝ),
    (l.map (· + o)).foldl elemMin (a + o) = l.foldl elemMin a + o
  | [], _ => rfl
  | b :: l, a => by
    have : elemMin (a + o) (b + o) = elemMin a b + o := by
      unfold elemMin
      ext
      · exact (min_add_add_right a.1 b.1 o.1)
      · exact (min_add_add_right a.2 b.2 o.2)
    rw [List.map_cons, List.foldl_cons, List.foldl_cons, this, foldl_elemMin_add o l]

theorem foldl_elemMax_add (o : Pt ℝ) : ∀ (l : List (Pt ℝ)) (a : Pt ℝ),
    (l.map (· + o)).foldl elemMax (a + o) = l.foldl elemMax a + o
  | [], _ => rfl
  | b :: l, a => by
    have : elemMax (a + o) (b + o) = elemMax a b + o := by
      unfold elemMax
      ext
      · exact (max_add_add_right a.1 b.1 o.1)
      · exact (max_add_add_right a.2 b.2 o.2)
    rw [List.map_cons, List.foldl_cons, List.foldl_cons, this, foldl_elemMax_add o l]

/-- Shifting a polygon is the same as building it from shifted points. -/
theorem shift_build {l : List (Pt ℝ)} {P : Poly ℝ} (h : build l = some P) (o : Pt ℝ) :
    build (l.map (· + o)) = some (P.shift o) := by
  unfold build at h ⊢
  rw [pad_map]
  rcases hp : pad l with _ | ⟨a, t⟩
  · rw [hp] at h; cases h
  · rw [hp] at h
    simp only [Option.some.injEq] at h
    subst h
    simp only [List.map_cons, Option.some.injEq, Poly.shift, Poly.mk.injEq, true_and]
    refine ⟨by simp, ?_, ?_⟩
    · exact foldl_elemMin_add o t a
    · exact foldl_elemMax_add o t a

theorem move_zero (c o p : ℝ × ℝ) : move 0 c o p = p + o := by
  unfold move
  ext <;> simp

/-- **Moving a polygon** (C100) is the same as building it from the moved points. -/
theorem transform_build {l : List (Pt ℝ)} {P : Poly ℝ} (h : build l = some P) (h3 : 3 ≤ l.length) (θ : ℝ) (c o : Pt ℝ) :
    P.transform (decide (θ = 0)) (cos θ) (sin θ) c o = build (l.map (move θ c o)) := by
  unfold Poly.transform
  by_cases h0 : θ = 0
  · rw [if_pos (by simpa using h0), ← shift_build h o, h0]
    congr 2
    funext p
    exact (move_zero c o p).symm
  · rw [if_neg (by simpa using h0), (build_boxed h).2.2, pad_eq h3]
    congr 2
    funext p
    unfold move
    ext
    · simp only [Prod.fst_add]; ring
    · simp only [Prod.snd_add]; ring

/-! ## The motion -/

theorem move_inv (θ : ℝ) (c o p : ℝ × ℝ) : move (-θ) (c + o) (-o) (move θ c o p) = p := by
  have h := sin_sq_add_cos_sq θ
  unfold move
  ext
  · simp only [cos_neg, sin_neg, Prod.fst_add, Prod.snd_add, Prod.fst_neg]
    linear_combination (p.1 - c.1) * h
  · simp only [cos_neg, sin_neg, Prod.fst_add, Prod.snd_add, Prod.snd_neg]
    linear_combination (p.2 - c.2) * h

theorem move_inv' (θ : ℝ) (c o p : ℝ × ℝ) : move θ c o (move (-θ) (c + o) (-o) p) = p := by
  have := move_inv (-θ) (c + o) (-o) p
  simpa using this

theorem move_continuous (θ : ℝ) (c o : ℝ × ℝ) : Continuous (move θ c o) := by
  unfold move
  fun_prop

/-- The motion as a homeomorphism. -/
noncomputable def moveHomeo (θ : ℝ) (c o : ℝ × ℝ) : (ℝ × ℝ) ≃ₜ (ℝ × ℝ) where
  toFun := move θ c o
  invFun := move (-θ) (c + o) (-o)
  left_inv := move_inv θ c o
  right_inv := move_inv' θ c o
  continuous_toFun := move_continuous _ _ _
  continuous_invFun := move_continuous _ _ _

theorem move_injective (θ : ℝ) (c o : ℝ × ℝ) : Function.Injective (move θ c o) := (moveHomeo θ c o).injective

/-- The rotation around the origin. -/
noncomputable def rot (θ : ℝ) : (ℝ × ℝ) →ₗ[ℝ] (ℝ × ℝ) where
  toFun p := (cos θ * p.1 - sin θ * p.2, sin θ * p.1 + cos θ * p.2)
  map_add' p q := by ext <;> simp <;> ring
  map_smul' t p := by ext <;> simp <;> ring

/-- The motion as an affine map. -/
noncomputable def moveAff (θ : ℝ) (c o : ℝ × ℝ) : (ℝ × ℝ) →ᵃ[ℝ] (ℝ × ℝ) where
  toFun := move θ c o
  linear := rot θ
  map_vadd' p v := by
    unfold move rot
    ext <;> simp <;> ring

theorem rot_det (θ : ℝ) : LinearMap.det (rot θ) = 1 := by
  rw [← LinearMap.det_toMatrix (Module.Basis.finTwoProd ℝ), Matrix.det_fin_two]
  simp [LinearMap.toMatrix_apply, rot]
  have := sin_sq_add_cos_sq θ
  linarith

theorem volume_move (θ : ℝ) (c o : ℝ × ℝ) (S : Set (ℝ × ℝ)) : volume (move θ c o '' S) = volume S := by
  have : move θ c o '' S = (fun p => p + (move θ c o 0)) '' (rot θ '' S) := by
    rw [Set.image_image]
    refine Set.image_congr (fun p _ => ?_)
    unfold move rot
    ext <;> simp <;> ring
  rw [this, Set.image_add_right, measure_preimage_add_right, Measure.addHaar_image_linearMap, rot_det]
  simp

theorem hull_move (θ : ℝ) (c o : ℝ × ℝ) (l : List (ℝ × ℝ)) : hullOf (l.map (move θ c o)) = move θ c o '' hullOf l := by
  unfold hullOf
  have h1 := AffineMap.image_convexHull (moveAff θ c o) {p | p ∈ l}
  have h2 : ((moveAff θ c o) : ℝ × ℝ → ℝ × ℝ) = move θ c o := rfl
  rw [h2] at h1
  rw [h1]
  congr 1
  ext p
  simp

theorem leftOf_move (θ : ℝ) (c o a b p : ℝ × ℝ) : LeftOf (move θ c o a) (move θ c o b) (move θ c o p) ↔ LeftOf a b p := by
  have h := sin_sq_add_cos_sq θ
  unfold LeftOf move
  have : ∀ x y : ℝ, x = y → (0 < x ↔ 0 < y) := fun x y h => by rw [h]
  apply this
  simp only
  linear_combination ((b.1 - a.1) * (p.2 - a.2) - (b.2 - a.2) * (p.1 - a.1)) * h

theorem getD_map (f : ℝ × ℝ → ℝ × ℝ) (l : List (ℝ × ℝ)) {i : ℕ} (h : i < l.length) :
    (l.map f).getD i (0, 0) = f (l.getD i (0, 0)) := by
  rw [List.getD_eq_getElem?_getD, List.getD_eq_getElem?_getD, List.getElem?_map, List.getElem?_eq_getElem h]
  rfl

theorem convexPosition_move {l : List (ℝ × ℝ)} (h : ConvexPosition l) (θ : ℝ) (c o : ℝ × ℝ) :
    ConvexPosition (l.map (move θ c o)) := by
  have h3 := h.1
  refine ⟨by simpa using h3, fun i hi j hj h1 h2 => ?_⟩
  rw [List.length_map] at hi hj h2 ⊢
  rw [getD_map _ _ hi, getD_map _ _ (Nat.mod_lt _ (by omega)), getD_map _ _ hj, leftOf_move]
  exact h.2 i hi j hj h1 h2

/-! ## C100 -/

/-- Moving a convex polygon never fails. -/
theorem transform_isSome {l : List (Pt ℝ)} (hl : ConvexPosition l) {P : Poly ℝ} (h : build l = some P) (θ : ℝ)
    (c o : Pt ℝ) : ∃ P', P.transform (decide (θ = 0)) (cos θ) (sin θ) c o = some P' := by
  obtain ⟨P', _, h1, _⟩ := convex_build (convexPosition_move hl θ c o)
  exact ⟨P', by rw [transform_build h hl.1, h1]⟩

/-- **Moving a polygon moves its points** (C100). -/
theorem transform_inside {l : List (Pt ℝ)} (hl : ConvexPosition l) {P P' : Poly ℝ} (h : build l = some P) {θ : ℝ}
    {c o : Pt ℝ} (ht : P.transform (decide (θ = 0)) (cos θ) (sin θ) c o = some P') (p : ℝ × ℝ) :
    pointInside P' (move θ c o p) = pointInside P p := by
  rw [transform_build h hl.1] at ht
  have h1 := convex_inside (convexPosition_move hl θ c o) ht (move θ c o p)
  rw [hull_move, (move_injective θ c o).mem_set_image, ← convex_inside hl h p] at h1
  exact Bool.eq_iff_iff.mpr h1

/-- **Moving a polygon keeps its area** (C100). -/
theorem transform_area {l : List (Pt ℝ)} (hl : ConvexPosition l) {P P' : Poly ℝ} (h : build l = some P) {θ : ℝ}
    {c o : Pt ℝ} (ht : P.transform (decide (θ = 0)) (cos θ) (sin θ) c o = some P') : P'.area = P.area := by
  rw [transform_build h hl.1] at ht
  rw [convex_area hl h, convex_area (convexPosition_move hl θ c o) ht, hull_move, volume_move]

/-- **Moving two polygons keeps the area of their intersection** (C100), in general position. -/
theorem transform_intersection_partial {l m : List (Pt ℝ)} (hl : ConvexPosition l) (hm : ConvexPosition m) {P P' Q Q' : Poly ℝ}
    (bP : build l = some P) (bQ : build m = some Q) (gP : ∀ p ∈ l, p ∉ frontier (hullOf m))
    (gQ : ∀ p ∈ m, p ∉ frontier (hullOf l)) {θ : ℝ} {c o : Pt ℝ}
    (tP : P.transform (decide (θ = 0)) (cos θ) (sin θ) c o = some P')
    (tQ : Q.transform (decide (θ = 0)) (cos θ) (sin θ) c o = some Q') :
    intersectionArea P' Q' = intersectionArea P Q := by
  rw [transform_build bP hl.1] at tP
  rw [transform_build bQ hm.1] at tQ
  have hf : ∀ n : List (ℝ × ℝ), frontier (move θ c o '' hullOf n) = move θ c o '' frontier (hullOf n) := fun n =>
    ((moveHomeo θ c o).image_frontier _).symm
  have side : ∀ (k n : List (ℝ × ℝ)), (∀ p ∈ k, p ∉ frontier (hullOf n)) →
      ∀ p ∈ k.map (move θ c o), p ∉ frontier (hullOf (n.map (move θ c o))) := by
    intro k n hk p hp
    obtain ⟨q, hq, rfl⟩ := List.mem_map.mp hp
    rw [hull_move, hf, (move_injective θ c o).mem_set_image]
    exact hk q hq
  rw [convex_intersection_partial hl hm bP bQ gP gQ,
    convex_intersection_partial (convexPosition_move hl θ c o) (convexPosition_move hm θ c o) tP tQ (side l m gP) (side m l gQ),
    hull_move, hull_move, ← Set.image_inter (move_injective θ c o), volume_move]

/-- The box of a moved polygon contains it, also after a mere shift. -/
theorem transform_boxed {l : List (Pt ℝ)} (h3 : 3 ≤ l.length) {P P' : Poly ℝ} (h : build l = some P) {θ : ℝ} {c o : Pt ℝ}
    (ht : P.transform (decide (θ = 0)) (cos θ) (sin θ) c o = some P') :
    P'.pts = l.map (move θ c o) ∧ ∀ v ∈ P'.pts, P'.lo.1 ≤ v.1 ∧ P'.lo.2 ≤ v.2 ∧ v.1 ≤ P'.hi.1 ∧ v.2 ≤ P'.hi.2 := by
  rw [transform_build h h3] at ht
  obtain ⟨a, _, b⟩ := build_boxed ht
  exact ⟨by rw [b, pad_eq (by simpa using h3)], a⟩

/-- A quarter turn of the pentagon around its first corner, shifted by (1, 2). -/
theorem transform_example : ∃ P P', build pentagon = some P ∧
    P.transform (decide (π / 2 = 0)) (cos (π / 2)) (sin (π / 2)) (0, 0) (1, 2) = some P' ∧
    P'.pts = [(1, 2), (1, 6), (-2, 7), (-4, 4), (-2, 1)] := by
  obtain ⟨P, _, h1, _⟩ := convex_build pentagon_convex
  obtain ⟨P', h2⟩ := transform_isSome pentagon_convex h1 (π / 2) (0, 0) (1, 2)
  refine ⟨P, P', h1, h2, ?_⟩
  rw [(transform_boxed pentagon_convex.1 h1 h2).1]
  simp [pentagon, move]
  norm_num

end Verif.Polygon
