import Verif.Props.PolygonBox
import Verif.Lemmas.PolyCast
import Verif.Lemmas.PolyGrid
import Mathlib.Tactic.FinCases

/-!
C96: the intersection area and the IoU of boxes with the same heading, with no assumption on their position: equal boxes,
boxes with common sides and boxes that only touch are included.

The order of the coordinates of two intervals is one of thirteen.  The loop of `ComputeIntersectionVertices` depends only
on that order in both directions (Lemmas/PolyGrid.lean), so that it can be evaluated for each of them.
-/

namespace Verif.Polygon

open Real MeasureTheory Set

/-- `ComputeIntersectionVertices` without the test of the bounding boxes, polygon2d.cc:369-496. -/
def core {K : Type*} [Field K] [LinearOrder K] (P Q : Poly K) : List (Pt K) :=
  match run1 P Q (P.n + Q.n) ((P.n + Q.n) * 2) ⟨0, 0, false, false, []⟩ with
  | some (some l) => l
  | some none => []
  | none =>
    if P.pts.all (pointInside Q) then P.pts
    else if Q.pts.all (pointInside P) then Q.pts
    else []

theorem vertices_core {K : Type*} [Field K] [LinearOrder K] (P Q : Poly K) :
    vertices P Q = if maybeIntersect P Q = false then [] else core P Q := rfl

/-- The rectangle with the given sides, in the order of the corners of a box. -/
def sides {K : Type*} (i j k l : K) : List (Pt K) := [(i, l), (i, k), (j, k), (j, l)]

/-- See `sides`. -/
def rectPoly {K : Type*} (i j k l : K) : Poly K := ⟨sides i j k l, 4, (i, k), (j, l)⟩

/-- The possible orders of the ends of two intervals. -/
def orders : List (ℚ × ℚ × ℚ × ℚ) :=
  [(0, 1, 2, 3), (0, 1, 1, 2), (0, 2, 1, 3), (0, 1, 0, 2), (1, 2, 0, 3), (1, 2, 0, 2), (0, 1, 0, 1), (2, 3, 0, 1),
    (1, 2, 0, 1), (1, 3, 0, 2), (0, 2, 0, 1), (0, 3, 1, 2), (0, 2, 1, 2)]

/-- The result for one pair of orders: the corners of the common rectangle, or fewer than three points. -/
def Correct (x y : ℚ × ℚ × ℚ × ℚ) : Prop :=
  let E := core (rectPoly x.1 x.2.1 y.1 y.2.1) (rectPoly x.2.2.1 x.2.2.2 y.2.2.1 y.2.2.2)
  if max x.1 x.2.2.1 < min x.2.1 x.2.2.2 ∧ max y.1 y.2.2.1 < min y.2.1 y.2.2.2 then
    ∃ k ∈ List.range 4, E = (sides (max x.1 x.2.2.1) (min x.2.1 x.2.2.2) (max y.1 y.2.2.1) (min y.2.1 y.2.2.2)).rotate k
  else E.length < 3

instance (x y : ℚ × ℚ × ℚ × ℚ) : Decidable (Correct x y) := by unfold Correct; infer_instance

/-! The cases are decided one order of the first axis at a time, to keep the memory of each proof small. -/

theorem correct_0 : ∀ y ∈ orders, Correct orders[0] y := by decide +kernel
theorem correct_1 : ∀ y ∈ orders, Correct orders[1] y := by decide +kernel
theorem correct_2 : ∀ y ∈ orders, Correct orders[2] y := by decide +kernel
theorem correct_3 : ∀ y ∈ orders, Correct orders[3] y := by decide +kernel
theorem correct_4 : ∀ y ∈ orders, Correct orders[4] y := by decide +kernel
theorem correct_5 : ∀ y ∈ orders, Correct orders[5] y := by decide +kernel
theorem correct_6 : ∀ y ∈ orders, Correct orders[6] y := by decide +kernel
theorem correct_7 : ∀ y ∈ orders, Correct orders[7] y := by decide +kernel
theorem correct_8 : ∀ y ∈ orders, Correct orders[8] y := by decide +kernel
theorem correct_9 : ∀ y ∈ orders, Correct orders[9] y := by decide +kernel
theorem correct_10 : ∀ y ∈ orders, Correct orders[10] y := by decide +kernel
theorem correct_11 : ∀ y ∈ orders, Correct orders[11] y := by decide +kernel
theorem correct_12 : ∀ y ∈ orders, Correct orders[12] y := by decide +kernel

theorem all_correct : ∀ x ∈ orders, ∀ y ∈ orders, Correct x y := by
  intro x hx
  obtain ⟨i, hi, rfl⟩ := List.mem_iff_getElem.mp hx
  have hi' : i < 13 := hi
  interval_cases i
  · exact correct_0
  · exact correct_1
  · exact correct_2
  · exact correct_3
  · exact correct_4
  · exact correct_5
  · exact correct_6
  · exact correct_7
  · exact correct_8
  · exact correct_9
  · exact correct_10
  · exact correct_11
  · exact correct_12

/-! ## The order of two intervals -/

/-- An increasing function through four given values. -/
noncomputable def ramp (v0 v1 v2 v3 : ℝ) (x : ℝ) : ℝ :=
  v0 + (v1 - v0) * min x 1 + (v2 - v1) * max 0 (min (x - 1) 1) + (v3 - v2) * max 0 (x - 2)

theorem ramp_strictMono {v0 v1 v2 v3 : ℝ} (h1 : v0 < v1) (h2 : v1 < v2) (h3 : v2 < v3) : StrictMono (ramp v0 v1 v2 v3) := by
  intro x y hxy
  have d1 : 0 < v1 - v0 := by linarith
  have d2 : 0 < v2 - v1 := by linarith
  have d3 : 0 < v3 - v2 := by linarith
  have m1 : min x 1 ≤ min y 1 := min_le_min_right _ hxy.le
  have m2 : max 0 (min (x - 1) 1) ≤ max 0 (min (y - 1) 1) := max_le_max_left _ (min_le_min_right _ (by linarith))
  have m3 : max 0 (x - 2) ≤ max 0 (y - 2) := max_le_max_left _ (by linarith)
  have n1 := mul_le_mul_of_nonneg_left m1 d1.le
  have n2 := mul_le_mul_of_nonneg_left m2 d2.le
  have n3 := mul_le_mul_of_nonneg_left m3 d3.le
  unfold ramp
  rcases lt_or_ge x 1 with h | h
  · have : min x 1 < min y 1 := by rw [min_eq_left h.le]; exact lt_min hxy h
    have := mul_lt_mul_of_pos_left this d1
    linarith
  · rcases lt_or_ge x 2 with k | k
    · have : max 0 (min (x - 1) 1) < max 0 (min (y - 1) 1) := by
        rw [min_eq_left (by linarith), max_eq_right (by linarith)]
        exact lt_max_of_lt_right (lt_min (by linarith) (by linarith))
      have := mul_lt_mul_of_pos_left this d2
      linarith
    · have : max 0 (x - 2) < max 0 (y - 2) := by
        rw [max_eq_right (by linarith), max_eq_right (by linarith)]; linarith
      have := mul_lt_mul_of_pos_left this d3
      linarith

theorem ramp_values (v0 v1 v2 v3 : ℝ) : ramp v0 v1 v2 v3 ((0 : ℚ) : ℝ) = v0 ∧ ramp v0 v1 v2 v3 ((1 : ℚ) : ℝ) = v1 ∧
    ramp v0 v1 v2 v3 ((2 : ℚ) : ℝ) = v2 ∧ ramp v0 v1 v2 v3 ((3 : ℚ) : ℝ) = v3 := by
  unfold ramp
  norm_num

/-- Two intervals have one of the orders. -/
theorem exists_order {a b a' b' : ℝ} (h : a < b) (h' : a' < b') :
    ∃ x ∈ orders, ∃ f : ℝ → ℝ, StrictMono f ∧ f (x.1 : ℝ) = a ∧ f (x.2.1 : ℝ) = b ∧ f (x.2.2.1 : ℝ) = a' ∧ f (x.2.2.2 : ℝ) = b' := by
  have four : ∀ v0 v1 v2 v3 : ℝ, v0 < v1 → v1 < v2 → v2 < v3 → ∀ x ∈ orders,
      ramp v0 v1 v2 v3 (x.1 : ℝ) = a → ramp v0 v1 v2 v3 (x.2.1 : ℝ) = b → ramp v0 v1 v2 v3 (x.2.2.1 : ℝ) = a' →
      ramp v0 v1 v2 v3 (x.2.2.2 : ℝ) = b' → ∃ x ∈ orders, ∃ f : ℝ → ℝ, StrictMono f ∧ f (x.1 : ℝ) = a ∧
        f (x.2.1 : ℝ) = b ∧ f (x.2.2.1 : ℝ) = a' ∧ f (x.2.2.2 : ℝ) = b' :=
    fun v0 v1 v2 v3 h1 h2 h3 x hx e1 e2 e3 e4 => ⟨x, hx, _, ramp_strictMono h1 h2 h3, e1, e2, e3, e4⟩
  have r := ramp_values
  rcases lt_trichotomy a a' with g | g | g
  · rcases lt_trichotomy b a' with k | k | k
    · exact four a b a' b' h k h' (0, 1, 2, 3) (by simp [orders]) (r _ _ _ _).1 (r _ _ _ _).2.1 (r _ _ _ _).2.2.1 (r _ _ _ _).2.2.2
    · subst k
      exact four a b b' (b' + 1) h h' (by linarith) (0, 1, 1, 2) (by simp [orders]) (r _ _ _ _).1 (r _ _ _ _).2.1
        (r _ _ _ _).2.1 (r _ _ _ _).2.2.1
    · rcases lt_trichotomy b b' with m | m | m
      · exact four a a' b b' g k m (0, 2, 1, 3) (by simp [orders]) (r _ _ _ _).1 (r _ _ _ _).2.2.1 (r _ _ _ _).2.1 (r _ _ _ _).2.2.2
      · subst m
        exact four a a' b (b + 1) g k (by linarith) (0, 2, 1, 2) (by simp [orders]) (r _ _ _ _).1 (r _ _ _ _).2.2.1
          (r _ _ _ _).2.1 (r _ _ _ _).2.2.1
      · exact four a a' b' b g h' m (0, 3, 1, 2) (by simp [orders]) (r _ _ _ _).1 (r _ _ _ _).2.2.2 (r _ _ _ _).2.1 (r _ _ _ _).2.2.1
  · subst g
    rcases lt_trichotomy b b' with m | m | m
    · exact four a b b' (b' + 1) h m (by linarith) (0, 1, 0, 2) (by simp [orders]) (r _ _ _ _).1 (r _ _ _ _).2.1 (r _ _ _ _).1 (r _ _ _ _).2.2.1
    · subst m
      exact four a b (b + 1) (b + 2) h (by linarith) (by linarith) (0, 1, 0, 1) (by simp [orders]) (r _ _ _ _).1
        (r _ _ _ _).2.1 (r _ _ _ _).1 (r _ _ _ _).2.1
    · exact four a b' b (b + 1) h' m (by linarith) (0, 2, 0, 1) (by simp [orders]) (r _ _ _ _).1 (r _ _ _ _).2.2.1 (r _ _ _ _).1 (r _ _ _ _).2.1
  · rcases lt_trichotomy b' a with k | k | k
    · exact four a' b' a b h' k h (2, 3, 0, 1) (by simp [orders]) (r _ _ _ _).2.2.1 (r _ _ _ _).2.2.2 (r _ _ _ _).1 (r _ _ _ _).2.1
    · subst k
      exact four a' b' b (b + 1) h' h (by linarith) (1, 2, 0, 1) (by simp [orders]) (r _ _ _ _).2.1 (r _ _ _ _).2.2.1
        (r _ _ _ _).1 (r _ _ _ _).2.1
    · rcases lt_trichotomy b b' with m | m | m
      · exact four a' a b b' g h m (1, 2, 0, 3) (by simp [orders]) (r _ _ _ _).2.1 (r _ _ _ _).2.2.1 (r _ _ _ _).1 (r _ _ _ _).2.2.2
      · subst m
        exact four a' a b (b + 1) g h (by linarith) (1, 2, 0, 2) (by simp [orders]) (r _ _ _ _).2.1 (r _ _ _ _).2.2.1
          (r _ _ _ _).1 (r _ _ _ _).2.2.1
      · exact four a' a b' b g k m (1, 3, 0, 2) (by simp [orders]) (r _ _ _ _).2.1 (r _ _ _ _).2.2.2 (r _ _ _ _).1 (r _ _ _ _).2.2.1

/-! ## Rectangles -/

theorem rectPoly_ortho {i j k l : ℝ} (h1 : i < j) (h2 : k < l) : Ortho (rectPoly i j k l) := by
  refine ⟨rfl, by simp [rectPoly], fun m hm => ?_⟩
  change m < 4 at hm
  interval_cases m
  · exact Or.inl ⟨rfl, h2.ne'⟩
  · exact Or.inr ⟨rfl, h1.ne⟩
  · exact Or.inl ⟨rfl, h2.ne⟩
  · exact Or.inr ⟨rfl, h1.ne'⟩

theorem rectPoly_inside {i j k l : ℝ} (h1 : i < j) (h2 : k < l) (p : Pt ℝ) :
    pointInside (rectPoly i j k l) p = true ↔ (i ≤ p.1 ∧ p.1 ≤ j) ∧ k ≤ p.2 ∧ p.2 ≤ l := by
  by_cases hb : p.1 < i ∨ p.2 < k ∨ p.1 > j ∨ p.2 > l
  · have : pointInside (rectPoly i j k l) p = false := by
      unfold pointInside
      rw [if_neg (by simp [rectPoly]), if_pos (by exact hb)]
    rw [this]
    simp only [Bool.false_eq_true, false_iff]
    rintro ⟨⟨a, b⟩, c, d⟩
    rcases hb with g | g | g | g <;> linarith
  · have hn : (i ≤ p.1 ∧ p.1 ≤ j) ∧ k ≤ p.2 ∧ p.2 ≤ l := by
      push Not at hb
      exact ⟨⟨hb.1, hb.2.2.1⟩, hb.2.1, hb.2.2.2⟩
    refine iff_of_true ?_ hn
    obtain ⟨⟨a, b⟩, c, d⟩ := hn
    have e0 : 0 ≤ (l - k) * (p.1 - i) := mul_nonneg (by linarith) (by linarith)
    have e1 : 0 ≤ (j - i) * (p.2 - k) := mul_nonneg (by linarith) (by linarith)
    have e2 : 0 ≤ (l - k) * (j - p.1) := mul_nonneg (by linarith) (by linarith)
    have e3 : 0 ≤ (j - i) * (l - p.2) := mul_nonneg (by linarith) (by linarith)
    unfold pointInside
    rw [if_neg (by simp [rectPoly]), if_neg (by exact hb)]
    have hbi : bisect (rectPoly i j k l) p (rectPoly i j k l).n 0 (rectPoly i j k l).n = (0, 4) := rfl
    simp only [hbi]
    have he : edgesLeft (rectPoly i j k l) p (4 - 1 - 0) 0 = true := by
      simp only [edgesLeft, rectPoly, sides, Poly.pt, cp, Nat.reduceSub, Nat.reduceAdd, List.getD_cons_zero, List.getD_cons_succ,
        Prod.fst_sub, Prod.snd_sub]
      rw [if_neg (by linarith), if_neg (by linarith), if_neg (by linarith)]
    rw [he, if_neg (by simp), if_neg]
    rintro ⟨-, g⟩
    have hs : cp ((rectPoly i j k l).segment (4 - 1)) (p - (rectPoly i j k l).pt (4 - 1)) = (j - i) * (l - p.2) := by
      simp [Poly.segment, Poly.next, rectPoly, sides, Poly.pt, cp]
      ring
    rw [hs] at g
    linarith

/-- A turned rectangle. -/
theorem core_grid {g : Grid} {i j k l i' j' k' l' : ℝ} (h1 : i < j) (h2 : k < l) (h3 : i' < j') (h4 : k' < l')
    {P' Q' : Poly ℝ} (gP : g.On (rectPoly i j k l) P') (gQ : g.On (rectPoly i' j' k' l') Q')
    (iP : ∀ p, pointInside P' (g.at p) = true ↔ (i ≤ p.1 ∧ p.1 ≤ j) ∧ k ≤ p.2 ∧ p.2 ≤ l)
    (iQ : ∀ p, pointInside Q' (g.at p) = true ↔ (i' ≤ p.1 ∧ p.1 ≤ j') ∧ k' ≤ p.2 ∧ p.2 ≤ l') :
    core P' Q' = (core (rectPoly i j k l) (rectPoly i' j' k' l')).map g.at := by
  have hr := grid_run1 (rectPoly_ortho h1 h2) (rectPoly_ortho h3 h4) gP gQ (P'.n + Q'.n) ((P'.n + Q'.n) * 2)
    ⟨0, 0, false, false, []⟩ (by simp [rectPoly]) (by simp [rectPoly])
  have h0 : g.st ⟨0, 0, false, false, []⟩ = ⟨0, 0, false, false, []⟩ := rfl
  rw [h0] at hr
  unfold core
  rw [hr, gP.n, gQ.n]
  have aP : P'.pts.all (pointInside Q') = (rectPoly i j k l).pts.all (pointInside (rectPoly i' j' k' l')) := by
    rw [gP.pts, List.all_map]
    congr 1
    funext p
    exact Bool.eq_iff_iff.mpr ((iQ p).trans (rectPoly_inside h3 h4 p).symm)
  have aQ : Q'.pts.all (pointInside P') = (rectPoly i' j' k' l').pts.all (pointInside (rectPoly i j k l)) := by
    rw [gQ.pts, List.all_map]
    congr 1
    funext p
    exact Bool.eq_iff_iff.mpr ((iP p).trans (rectPoly_inside h1 h2 p).symm)
  rw [aP, aQ, gP.pts, gQ.pts]
  rcases run1 (rectPoly i j k l) (rectPoly i' j' k' l') _ _ _ with _ | _ | l
  · simp only [Option.map_none]
    split_ifs <;> rfl
  · rfl
  · rfl

theorem core_toR (P Q : Poly ℚ) : core P.toR Q.toR = (core P Q).map toR := by
  unfold core
  have h0 : (⟨0, 0, false, false, []⟩ : St ℝ) = (⟨0, 0, false, false, []⟩ : St ℚ).toR := rfl
  rw [h0, toR_run1, show P.toR.n = P.n from rfl, show Q.toR.n = Q.n from rfl]
  have aP : P.toR.pts.all (pointInside Q.toR) = P.pts.all (pointInside Q) := by
    simp only [Poly.toR, List.all_map]
    congr 1
    funext p
    exact toR_pointInside Q p
  have aQ : Q.toR.pts.all (pointInside P.toR) = Q.pts.all (pointInside P) := by
    simp only [Poly.toR, List.all_map]
    congr 1
    funext p
    exact toR_pointInside P p
  rw [aP, aQ]
  rcases run1 P Q (P.n + Q.n) ((P.n + Q.n) * 2) ⟨0, 0, false, false, []⟩ with _ | _ | l
  · simp only [Option.map_none]
    split_ifs <;> rfl
  · rfl
  · rfl

theorem rectPoly_toR (i j k l : ℚ) : (rectPoly i j k l).toR = rectPoly (i : ℝ) (j : ℝ) (k : ℝ) (l : ℝ) := rfl

/-- The area of the corners of a turned rectangle, from any of them. -/
theorem area_sides {c s : ℝ} (hu : c ^ 2 + s ^ 2 = 1) (i j k l : ℝ) {m : ℕ} (hm : m < 4) :
    twiceArea (((sides i j k l).map (turn c s)).rotate m) = 2 * ((j - i) * (l - k)) := by
  interval_cases m <;>
    · simp [sides, List.rotate, twiceArea, fan, cross3, cp, turn]
      linear_combination 2 * ((j - i) * (l - k)) * hu

end Verif.Polygon

namespace Verif.Iou

open Real MeasureTheory Set Verif.Polygon

/-- The sides of a box along its heading and across it. -/
noncomputable def Box.back (b : Box) : ℝ := cos b.heading * b.cx + sin b.heading * b.cy - b.length / 2
/-- See `Box.back`. -/
noncomputable def Box.front (b : Box) : ℝ := cos b.heading * b.cx + sin b.heading * b.cy + b.length / 2
/-- See `Box.back`. -/
noncomputable def Box.right (b : Box) : ℝ := -sin b.heading * b.cx + cos b.heading * b.cy - b.width / 2
/-- See `Box.back`. -/
noncomputable def Box.left (b : Box) : ℝ := -sin b.heading * b.cx + cos b.heading * b.cy + b.width / 2

theorem mem_rect_turn {b : Box} {c s : ℝ} (hu : c ^ 2 + s ^ 2 = 1) (hc : cos b.heading = c) (hs : sin b.heading = s) (p : ℝ × ℝ) :
    turn c s p ∈ rect b ↔ (b.back ≤ p.1 ∧ p.1 ≤ b.front) ∧ b.right ≤ p.2 ∧ p.2 ≤ b.left := by
  have e1 : c * ((turn c s p).1 - b.cx) + s * ((turn c s p).2 - b.cy) = p.1 - (c * b.cx + s * b.cy) := by
    simp only [turn]; linear_combination p.1 * hu
  have e2 : -s * ((turn c s p).1 - b.cx) + c * ((turn c s p).2 - b.cy) = p.2 - (-s * b.cx + c * b.cy) := by
    simp only [turn]; linear_combination p.2 * hu
  simp only [rect, mem_setOf_eq, Box.back, Box.front, Box.left, Box.right]
  rw [hc, hs, e1, e2, abs_le, abs_le]
  constructor
  · rintro ⟨⟨a, b⟩, c, d⟩; exact ⟨⟨by linarith, by linarith⟩, by linarith, by linarith⟩
  · rintro ⟨⟨a, b⟩, c, d⟩; exact ⟨⟨by linarith, by linarith⟩, by linarith, by linarith⟩

/-- The corners of a box in its own directions. -/
theorem polygon_sides {b : Box} {c s : ℝ} (hc : cos b.heading = c) (hs : sin b.heading = s)
    (hl : 0 < b.length) : boxCorners (b.cx, b.cy) (cos b.heading, sin b.heading) b.length b.width =
      (sides b.back b.front b.right b.left).map (turn c s) := by
  have hu := sin_sq_add_cos_sq b.heading
  rw [boxCorners_eq hl]
  subst hc; subst hs
  simp only [sides, turn, List.map_cons, List.map_nil, Box.back, Box.front, Box.left, Box.right, List.cons.injEq, and_true,
    Prod.mk.injEq]
  refine ⟨⟨?_, ?_⟩, ⟨?_, ?_⟩, ⟨?_, ?_⟩, ⟨?_, ?_⟩⟩
  all_goals first
    | linear_combination (-b.cx) * hu
    | linear_combination (-b.cy) * hu

/-- The common part of two boxes with the same heading. -/
theorem inter_volume {b1 b2 : Box} (hc : cos b2.heading = cos b1.heading) (hs : sin b2.heading = sin b1.heading) :
    volume.real (rect b1 ∩ rect b2) =
      max 0 (min b1.front b2.front - max b1.back b2.back) * max 0 (min b1.left b2.left - max b1.right b2.right) := by
  have hu := cos_sq_add_sin_sq b1.heading
  have he : rect b1 ∩ rect b2 = rotation b1.heading ⁻¹'
      (Icc (max b1.back b2.back) (min b1.front b2.front) ×ˢ Icc (max b1.right b2.right) (min b1.left b2.left)) := by
    ext p
    have hp : p = turn (cos b1.heading) (sin b1.heading) (rotation b1.heading p) := by
      rw [rotation_apply]
      ext
      · simp only [turn]; linear_combination (-p.1) * hu
      · simp only [turn]; linear_combination (-p.2) * hu
    rw [mem_inter_iff, mem_preimage, mem_prod, mem_Icc, mem_Icc]
    conv_lhs => rw [hp]
    rw [mem_rect_turn hu rfl rfl, mem_rect_turn hu hc hs]
    simp only [max_le_iff, le_min_iff]
    tauto
  rw [he, Measure.real, Measure.addHaar_preimage_linearMap _ (by rw [rotation_det]; exact one_ne_zero), rotation_det,
    Measure.volume_eq_prod, Measure.prod_prod, Real.volume_Icc, Real.volume_Icc]
  simp only [inv_one, abs_one, ENNReal.ofReal_one, one_mul, ENNReal.toReal_mul]
  rw [ENNReal.toReal_ofReal', ENNReal.toReal_ofReal', max_comm 0, max_comm 0]

/-- **The intersection area of boxes with the same heading** (C96). -/
theorem polygonArea_aligned {b1 b2 : Box} (l1 : 0 < b1.length) (w1 : 0 < b1.width) (l2 : 0 < b2.length) (w2 : 0 < b2.width)
    (hc : cos b2.heading = cos b1.heading) (hs : sin b2.heading = sin b1.heading) :
    polygonArea b1 b2 = cutOff (volume.real (rect b1 ∩ rect b2)) := by
  have hu := cos_sq_add_sin_sq b1.heading
  obtain ⟨P, p1, p2, p3, p4, -⟩ := polygon_spec b1 l1 w1
  obtain ⟨Q, q1, q2, q3, q4, -⟩ := polygon_spec b2 l2 w2
  obtain ⟨P2, p1', -, -, p6, p5⟩ := ofBox_ring (θ := b1.heading) l1 w1 (b1.cx, b1.cy)
  obtain ⟨Q2, q1', -, -, q6, q5⟩ := ofBox_ring (θ := b2.heading) l2 w2 (b2.cx, b2.cy)
  have hPP : P2 = P := Option.some.inj (p1'.symm.trans p1)
  have hQQ : Q2 = Q := Option.some.inj (q1'.symm.trans q1)
  subst hPP; subst hQQ
  have s1 : b1.back < b1.front := by unfold Box.back Box.front; linarith
  have s2 : b1.right < b1.left := by unfold Box.right Box.left; linarith
  have s3 : b2.back < b2.front := by unfold Box.back Box.front; linarith
  have s4 : b2.right < b2.left := by unfold Box.right Box.left; linarith
  obtain ⟨x, hx, f, hf, f1, f2, f3, f4⟩ := exists_order s1 s3
  obtain ⟨y, hy, k, hk, k1, k2, k3, k4⟩ := exists_order s2 s4
  have hcor := all_correct x hx y hy
  set g : Grid := ⟨f, k, cos b1.heading, sin b1.heading, hf, hk, hu⟩ with hg
  have gat : ∀ p, g.at p = turn (cos b1.heading) (sin b1.heading) (f p.1, k p.2) := fun _ => rfl
  have gP : g.On (rectPoly (x.1 : ℝ) (x.2.1 : ℝ) (y.1 : ℝ) (y.2.1 : ℝ)) P2 := by
    refine ⟨p6, ?_⟩
    rw [p5, polygon_sides rfl rfl l1]
    simp only [rectPoly, sides, List.map_cons, List.map_nil, gat, f1, f2, k1, k2]
  have gQ : g.On (rectPoly (x.2.2.1 : ℝ) (x.2.2.2 : ℝ) (y.2.2.1 : ℝ) (y.2.2.2 : ℝ)) Q2 := by
    refine ⟨q6, ?_⟩
    rw [q5, polygon_sides hc hs l2]
    simp only [rectPoly, sides, List.map_cons, List.map_nil, gat, f3, f4, k3, k4]
  have iP : ∀ p, pointInside P2 (g.at p) = true ↔
      ((x.1 : ℝ) ≤ p.1 ∧ p.1 ≤ (x.2.1 : ℝ)) ∧ (y.1 : ℝ) ≤ p.2 ∧ p.2 ≤ (y.2.1 : ℝ) := fun p => by
    rw [pointInside_iff p2 p3, region_eq_hull p2 p3]
    change g.at p ∈ P2.hull ↔ _
    rw [p4, gat, mem_rect_turn hu rfl rfl, ← f1, ← f2, ← k1, ← k2]
    simp only [hf.le_iff_le, hk.le_iff_le]
  have iQ : ∀ p, pointInside Q2 (g.at p) = true ↔
      ((x.2.2.1 : ℝ) ≤ p.1 ∧ p.1 ≤ (x.2.2.2 : ℝ)) ∧ (y.2.2.1 : ℝ) ≤ p.2 ∧ p.2 ≤ (y.2.2.2 : ℝ) := fun p => by
    rw [pointInside_iff q2 q3, region_eq_hull q2 q3]
    change g.at p ∈ Q2.hull ↔ _
    rw [q4, gat, mem_rect_turn hu hc hs, ← f3, ← f4, ← k3, ← k4]
    simp only [hf.le_iff_le, hk.le_iff_le]
  have o1 : (x.1 : ℝ) < (x.2.1 : ℝ) := hf.lt_iff_lt.mp (by rw [f1, f2]; exact s1)
  have o2 : (y.1 : ℝ) < (y.2.1 : ℝ) := hk.lt_iff_lt.mp (by rw [k1, k2]; exact s2)
  have o3 : (x.2.2.1 : ℝ) < (x.2.2.2 : ℝ) := hf.lt_iff_lt.mp (by rw [f3, f4]; exact s3)
  have o4 : (y.2.2.1 : ℝ) < (y.2.2.2 : ℝ) := hk.lt_iff_lt.mp (by rw [k3, k4]; exact s4)
  have hcore := core_grid o1 o2 o3 o4 gP gQ iP iQ
  rw [← rectPoly_toR, ← rectPoly_toR, core_toR] at hcore
  have hvol := inter_volume hc hs
  -- the order of the common sides
  have x1 : f ((max x.1 x.2.2.1 : ℚ) : ℝ) = max b1.back b2.back := by
    rw [Rat.cast_max, hf.monotone.map_max, f1, f3]
  have x2 : f ((min x.2.1 x.2.2.2 : ℚ) : ℝ) = min b1.front b2.front := by
    rw [Rat.cast_min, hf.monotone.map_min, f2, f4]
  have y1 : k ((max y.1 y.2.2.1 : ℚ) : ℝ) = max b1.right b2.right := by
    rw [Rat.cast_max, hk.monotone.map_max, k1, k3]
  have y2 : k ((min y.2.1 y.2.2.2 : ℚ) : ℝ) = min b1.left b2.left := by
    rw [Rat.cast_min, hk.monotone.map_min, k2, k4]
  have lt1 : max x.1 x.2.2.1 < min x.2.1 x.2.2.2 ↔ max b1.back b2.back < min b1.front b2.front := by
    rw [← x1, ← x2, hf.lt_iff_lt, Rat.cast_lt]
  have lt2 : max y.1 y.2.2.1 < min y.2.1 y.2.2.2 ↔ max b1.right b2.right < min b1.left b2.left := by
    rw [← y1, ← y2, hk.lt_iff_lt, Rat.cast_lt]
  unfold polygonArea
  rw [p1, q1]
  simp only
  unfold intersectionArea
  simp only
  by_cases hm : maybeIntersect P2 Q2 = false
  · have hv : vertices P2 Q2 = [] := by rw [vertices_core, if_pos hm]
    rw [hv]
    have h0 := maybeIntersect_sound p2 q2 p3 q3 hm
    have h1 : rect b1 ∩ rect b2 = ∅ := by
      rw [← p4, ← q4]
      unfold common at h0
      rwa [region_eq_hull p2 p3, region_eq_hull q2 q3] at h0
    rw [h1]
    simp [cutOff]
  · have hv := (vertices_core P2 Q2).trans ((if_neg hm).trans hcore)
    rw [hv]
    unfold Correct at hcor
    simp only at hcor
    by_cases hpos : max x.1 x.2.2.1 < min x.2.1 x.2.2.2 ∧ max y.1 y.2.2.1 < min y.2.1 y.2.2.2
    · rw [if_pos hpos] at hcor
      obtain ⟨m, hm4, hE⟩ := hcor
      rw [hE]
      have a1 := lt1.mp hpos.1
      have a2 := lt2.mp hpos.2
      have hlist : List.map g.at (List.map toR ((sides (max x.1 x.2.2.1) (min x.2.1 x.2.2.2) (max y.1 y.2.2.1)
          (min y.2.1 y.2.2.2)).rotate m)) = ((sides (max b1.back b2.back) (min b1.front b2.front) (max b1.right b2.right)
          (min b1.left b2.left)).map (turn (cos b1.heading) (sin b1.heading))).rotate m := by
        rw [List.map_rotate, List.map_rotate]
        congr 1
        simp only [sides, List.map_cons, List.map_nil, gat, toR, x1, x2, y1, y2]
      rw [hlist, if_neg (by simp [sides])]
      unfold areaInternal cutOff
      rw [area_sides hu _ _ _ _ (List.mem_range.mp hm4), hvol,
        max_eq_right (a := (0 : ℝ)) (b := min b1.front b2.front - max b1.back b2.back) (by linarith),
        max_eq_right (a := (0 : ℝ)) (b := min b1.left b2.left - max b1.right b2.right) (by linarith)]
      have hp : 0 ≤ (min b1.front b2.front - max b1.back b2.back) * (min b1.left b2.left - max b1.right b2.right) :=
        mul_nonneg (by linarith) (by linarith)
      rw [abs_of_nonneg (by linarith)]
      unfold Polygon.kEpsilon
      split_ifs <;> ring
    · rw [if_neg hpos] at hcor
      rw [if_pos (by simpa using hcor), hvol]
      rcases not_and_or.mp hpos with h | h
      · have := fun e => h (lt1.mpr e)
        rw [max_eq_left (a := (0 : ℝ)) (b := min b1.front b2.front - max b1.back b2.back) (by linarith [not_lt.mp this]), zero_mul]
        simp [cutOff]
      · have := fun e => h (lt2.mpr e)
        rw [max_eq_left (a := (0 : ℝ)) (b := min b1.left b2.left - max b1.right b2.right) (by linarith [not_lt.mp this]), mul_zero]
        simp [cutOff]

/-- **The IoU of boxes with the same heading** (C96), for boxes between 1 cm and 1000 km in any position. -/
theorem iou_2d_aligned {b1 b2 : Box} (h1 : Sized b1) (h2 : Sized b2) (hc : cos b2.heading = cos b1.heading)
    (hs : sin b2.heading = sin b1.heading) :
    computeIoU polygonArea b1 b2 .b2d =
      some (if 2 * volume.real (rect b1 ∩ rect b2) ≤ 1 / 10 ^ 10 then 0 else iouSpec (rect b1) (rect b2)) :=
  iou_2d_of_area h1 h2 (polygonArea_aligned h1.pos.1 h1.pos.2 h2.pos.1 h2.pos.2 hc hs)

/-- **The IoU of upright boxes with the same heading** (C96). -/
theorem iou_3d_aligned {b1 b2 : Box} (h1 : Sized b1) (h2 : Sized b2) (t1 : kMinBoxDim < b1.height)
    (t2 : kMinBoxDim < b2.height) (hc : cos b2.heading = cos b1.heading) (hs : sin b2.heading = sin b1.heading) :
    computeIoU polygonArea b1 b2 .b3d =
      some (if 2 * volume.real (rect b1 ∩ rect b2) ≤ 1 / 10 ^ 10 then 0 else iouSpec (body b1) (body b2)) :=
  iou_3d_of_area h1 h2 t1 t2 (polygonArea_aligned h1.pos.1 h1.pos.2 h2.pos.1 h2.pos.2 hc hs)

theorem Sized.not_cut {b : Box} (h : Sized b) : ¬ 2 * volume.real (rect b ∩ rect b) ≤ 1 / 10 ^ 10 := by
  rw [inter_self, rect_real b h.pos.1.le h.pos.2.le]
  have := h.area
  have hk : Iou.kEpsilon = 1 / 10 ^ 6 := by norm_num [Iou.kEpsilon]
  rw [hk] at this
  norm_num at this ⊢
  linarith

/-- **The IoU of a box with itself is 1** (C96). -/
theorem iou_self {b : Box} (h : Sized b) : computeIoU polygonArea b b .b2d = some 1 := by
  rw [iou_2d_aligned h h rfl rfl, if_neg h.not_cut, (iouSpec_eq_one (rect_solid b h.pos.1 h.pos.2) (rect_solid b h.pos.1 h.pos.2)).mpr rfl]

/-- **The IoU of an upright box with itself is 1** (C96). -/
theorem iou_self_3d {b : Box} (h : Sized b) (t : kMinBoxDim < b.height) : computeIoU polygonArea b b .b3d = some 1 := by
  have hm : (0 : ℝ) < kMinBoxDim := by norm_num [kMinBoxDim]
  have hb := body_solid b h.pos.1 h.pos.2 (by linarith)
  rw [iou_3d_aligned h h t t rfl rfl, if_neg h.not_cut, (iouSpec_eq_one hb hb).mpr rfl]

/-- A box of the given size at a distance along the first axis. -/
def exBox (x heading length : ℝ) : Box := ⟨x, 0, 0, length, 1, 1, heading⟩

/-- C96: two boxes with common sides, of which one half is common. -/
theorem iou_2d_aligned_example : computeIoU polygonArea (exBox 0 0 2) (exBox 1 0 2) .b2d = some (1 / 3) := by
  have sz : ∀ x, Sized (exBox x 0 2) := fun x => by
    unfold Sized exBox; norm_num [kMinBoxDim, kMaxBoxDim]
  have hv : volume.real (rect (exBox 0 0 2) ∩ rect (exBox 1 0 2)) = 1 := by
    rw [inter_volume (b1 := exBox 0 0 2) (b2 := exBox 1 0 2) rfl rfl]
    simp only [Box.front, Box.back, Box.left, Box.right, exBox, cos_zero, sin_zero]
    norm_num
  rw [iou_2d_aligned (sz 0) (sz 1) rfl rfl, hv, if_neg (by norm_num)]
  congr 1
  have r1 := rect_solid (exBox 0 0 2) (by norm_num [exBox]) (by norm_num [exBox])
  have r2 := rect_solid (exBox 1 0 2) (by norm_num [exBox]) (by norm_num [exBox])
  rw [iouSpec, r1.union_eq r2, hv, rect_real _ (by norm_num [exBox]) (by norm_num [exBox]),
    rect_real _ (by norm_num [exBox]) (by norm_num [exBox])]
  norm_num [exBox]

/-! ## Boxes with opposite headings -/

/-- The area of boxes with rational points. -/
def areaQ (c d : Pt ℚ) (l w : ℚ) (c' d' : Pt ℚ) (l' w' : ℚ) : ℚ :=
  match ofBox c d l w, ofBox c' d' l' w' with
  | some P, some Q => intersectionArea P Q
  | _, _ => 0

theorem polygonArea_rat {b1 b2 : Box} {c d c' d' : Pt ℚ} {l w l' w' : ℚ}
    (h1 : b1.polygon = ofBox (toR c) (toR d) (l : ℝ) (w : ℝ)) (h2 : b2.polygon = ofBox (toR c') (toR d') (l' : ℝ) (w' : ℝ)) :
    polygonArea b1 b2 = ((areaQ c d l w c' d' l' w' : ℚ) : ℝ) := by
  unfold polygonArea areaQ
  rw [h1, h2, toR_ofBox, toR_ofBox]
  generalize ofBox c d l w = A
  generalize ofBox c' d' l' w' = B
  rcases A with _ | P
  · exact Rat.cast_zero.symm
  · rcases B with _ | Q
    · exact Rat.cast_zero.symm
    · exact toR_intersectionArea P Q

theorem exBox_zero : (exBox 0 0 1).polygon = ofBox (toR (0, 0)) (toR (1, 0)) ((1 : ℚ) : ℝ) ((1 : ℚ) : ℝ) := by
  simp [Box.polygon, exBox, toR]

theorem exBox_pi : (exBox 0 π 2).polygon = ofBox (toR (0, 0)) (toR (-1, 0)) ((2 : ℚ) : ℝ) ((1 : ℚ) : ℝ) := by
  simp [Box.polygon, exBox, toR]

/-- The area in a case with collinear sides: a square inside of a rectangle that heads the other way. -/
theorem polygonArea_opposite : polygonArea (exBox 0 0 1) (exBox 0 π 2) = 0 := by
  have key : areaQ (0, 0) (1, 0) 1 1 (0, 0) (-1, 0) 2 1 = 0 := by decide +kernel
  rw [polygonArea_rat exBox_zero exBox_pi, key, Rat.cast_zero]

/-- **C95 fails when sides are collinear**: the boxes have a common area of 1 and an IoU of 1/2, but the code finds 0,
because its loop ends before it returns to the first point. -/
theorem iou_opposite_violated :
    computeIoU polygonArea (exBox 0 0 1) (exBox 0 π 2) .b2d = some 0 ∧
      rect (exBox 0 0 1) ⊆ rect (exBox 0 π 2) ∧ iouSpec (rect (exBox 0 0 1)) (rect (exBox 0 π 2)) = 1 / 2 := by
  have s1 : Sized (exBox 0 0 1) := by unfold Sized exBox; norm_num [kMinBoxDim, kMaxBoxDim]
  have s2 : Sized (exBox 0 π 2) := by unfold Sized exBox; norm_num [kMinBoxDim, kMaxBoxDim]
  have hsub : rect (exBox 0 0 1) ⊆ rect (exBox 0 π 2) := by
    intro p hp
    simp only [rect, exBox, mem_setOf_eq, cos_zero, sin_zero, cos_pi, sin_pi, abs_le] at hp ⊢
    obtain ⟨⟨a, b⟩, c, d⟩ := hp
    exact ⟨⟨by linarith, by linarith⟩, by linarith, by linarith⟩
  refine ⟨?_, hsub, ?_⟩
  · rw [computeIoU_congr (area' := fun _ _ => 0) polygonArea_opposite]
    unfold computeIoU
    rw [if_neg (not_huge s1 s2)]
    simp only
    unfold iou2d
    rw [if_neg (not_tiny s1 s2)]
    exact ratio_zero
  · rw [iouSpec, inter_eq_left.mpr hsub, union_eq_right.mpr hsub, rect_real _ (by norm_num [exBox]) (by norm_num [exBox]),
      rect_real _ (by norm_num [exBox]) (by norm_num [exBox])]
    norm_num [exBox]

/-- The same boxes in the other order: the IoU is found, so that the IoU is not symmetric. -/
theorem polygonArea_opposite' : polygonArea (exBox 0 π 2) (exBox 0 0 1) = 1 := by
  have key : areaQ (0, 0) (-1, 0) 2 1 (0, 0) (1, 0) 1 1 = 1 := by decide +kernel
  rw [polygonArea_rat exBox_pi exBox_zero, key, Rat.cast_one]

/-- **The IoU is not symmetric when sides are collinear** (C95). -/
theorem iou_symm_violated :
    computeIoU polygonArea (exBox 0 0 1) (exBox 0 π 2) .b2d ≠ computeIoU polygonArea (exBox 0 π 2) (exBox 0 0 1) .b2d := by
  have s1 : Sized (exBox 0 0 1) := by unfold Sized exBox; norm_num [kMinBoxDim, kMaxBoxDim]
  have s2 : Sized (exBox 0 π 2) := by unfold Sized exBox; norm_num [kMinBoxDim, kMaxBoxDim]
  have h3 := iou_opposite_violated.2.1
  have ha : polygonArea (exBox 0 π 2) (exBox 0 0 1) = cutOff (volume.real (rect (exBox 0 π 2) ∩ rect (exBox 0 0 1))) := by
    rw [inter_eq_right.mpr h3, rect_real _ (by norm_num [exBox]) (by norm_num [exBox]), polygonArea_opposite', cutOff, if_neg]
    · norm_num [exBox]
    · norm_num [exBox]
  rw [iou_opposite_violated.1, iou_2d_of_area s2 s1 ha, inter_eq_right.mpr h3,
    rect_real _ (by norm_num [exBox]) (by norm_num [exBox]), if_neg (by norm_num [exBox]), iouSpec_symm,
    iou_opposite_violated.2.2]
  norm_num

end Verif.Iou
