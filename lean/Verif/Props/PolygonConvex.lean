import Verif.Lemmas.PolyConvex
import Verif.Props.PolygonArea

/-!
C94, C98: convex polygons given by their points.  C100: moving polygons.  C101: the test for convexity.
-/

namespace Verif.Polygon

open Real MeasureTheory

/-! ## Specification -/

/-- The point `p` is to the left of the line from `a` to `b`. -/
def LeftOf (a b p : ℝ × ℝ) : Prop := 0 < (b.1 - a.1) * (p.2 - a.2) - (b.2 - a.2) * (p.1 - a.1)

/-- At least three points in strictly convex position, in counter-clockwise order: every other point is to the left of
the line through a point and the next one. -/
def ConvexPosition (l : List (ℝ × ℝ)) : Prop :=
  3 ≤ l.length ∧ ∀ i < l.length, ∀ j < l.length, j ≠ i → j ≠ (i + 1) % l.length →
    LeftOf (l.getD i (0, 0)) (l.getD ((i + 1) % l.length) (0, 0)) (l.getD j (0, 0))

/-- The convex hull of the points of a list. -/
def hullOf (l : List (ℝ × ℝ)) : Set (ℝ × ℝ) := convexHull ℝ {p | p ∈ l}

/-! ## Convex position -/

theorem mod_apart {n a t : ℕ} (ha : a < n) (h2 : 2 ≤ t) (ht : t < n) : (a + t) % n ≠ a ∧ (a + t) % n ≠ (a + 1) % n := by
  have e1 : (a + t) % n = if a + t < n then a + t else a + t - n := by
    split_ifs with c
    · exact Nat.mod_eq_of_lt c
    · rw [Nat.mod_eq_sub_mod (by omega), Nat.mod_eq_of_lt (by omega)]
  have e2 : (a + 1) % n = if a + 1 < n then a + 1 else a + 1 - n := by
    split_ifs with c
    · exact Nat.mod_eq_of_lt c
    · rw [Nat.mod_eq_sub_mod (by omega), Nat.mod_eq_of_lt (by omega)]
  rw [e1, e2]
  constructor <;> split_ifs <;> omega

theorem exists_isRing {P : Poly ℝ} (hn : P.n = P.pts.length) (h : ConvexPosition P.pts) : ∃ α, IsRing P α := by
  obtain ⟨h3, hc⟩ := h
  have hpos : 0 < P.n := by omega
  obtain ⟨α, hα⟩ := exists_ring (V := P.v) (n := P.n) (by omega) (fun i => by
    unfold Poly.v; rw [Nat.add_mod_right]) (fun i t h2 ht => by
      have a1 : (i + 1) % P.n = (i % P.n + 1) % P.n := by rw [Nat.mod_add_mod]
      have a2 : (i + t) % P.n = (i % P.n + t) % P.n := by rw [Nat.mod_add_mod]
      have hi := Nat.mod_lt i hpos
      have e1 := hc (i % P.n) (by omega) ((i + t) % P.n) (by have := Nat.mod_lt (i + t) hpos; omega)
        (a2 ▸ (mod_apart hi h2 ht).1) (by rw [a2, ← hn]; exact (mod_apart hi h2 ht).2)
      rw [← hn, ← a1] at e1
      exact e1)
  exact ⟨α, hn, hα⟩

theorem pad_eq {l : List (Pt ℝ)} (h : 3 ≤ l.length) : pad l = l := by
  match l, h with
  | _ :: _ :: _ :: _, _ => rfl

theorem convex_build {l : List (ℝ × ℝ)} (h : ConvexPosition l) :
    ∃ P α, build l = some P ∧ P.pts = l ∧ IsRing P α ∧ Boxed P := by
  have hp := pad_eq h.1
  obtain ⟨a, t, rfl⟩ : ∃ a t, l = a :: t := by
    match l, h.1 with
    | a :: t, _ => exact ⟨a, t, rfl⟩
  have hb : build (a :: t) = some ⟨a :: t, (a :: t).length, bboxLo a t, bboxHi a t⟩ := by
    unfold build; rw [hp]
  obtain ⟨α, hα⟩ := exists_isRing (P := ⟨a :: t, (a :: t).length, bboxLo a t, bboxHi a t⟩) rfl h
  exact ⟨_, α, hb, rfl, hα, (build_boxed hb).1⟩

/-- The ring of a polygon that was built from points in convex position. -/
theorem convex_ring {l : List (ℝ × ℝ)} (h : ConvexPosition l) {P : Poly ℝ} (hb : build l = some P) :
    P.pts = l ∧ Boxed P ∧ ∃ α, IsRing P α := by
  obtain ⟨P', α, h1, h2, h3, h4⟩ := convex_build h
  rw [hb] at h1
  cases h1
  exact ⟨h2, h4, α, h3⟩

/-! ## C98, C94 -/

/-- **Point in polygon** (C98).  The test finds exactly the points of the convex hull of the vertices. -/
theorem convex_inside {l : List (ℝ × ℝ)} (h : ConvexPosition l) {P : Poly ℝ} (hb : build l = some P) (p : ℝ × ℝ) :
    pointInside P p = true ↔ p ∈ hullOf l := by
  obtain ⟨h1, h2, α, h3⟩ := convex_ring h hb
  rw [pointInside_iff h3 h2, region_eq_hull h3 h2, h1]; rfl

/-- **The area of a convex polygon** is the area of the convex hull of its vertices, up to the cut-off. -/
theorem convex_area {l : List (ℝ × ℝ)} (h : ConvexPosition l) {P : Poly ℝ} (hb : build l = some P) :
    P.area = cutOff (volume (hullOf l)).toReal := by
  obtain ⟨h1, h2, α, h3⟩ := convex_ring h hb
  obtain ⟨a1, a2⟩ := polygon_area h3
  have : region P.v α = hullOf l := by rw [region_eq_hull h3 h2, h1]; rfl
  rw [← this, a1, ENNReal.toReal_ofReal (by linarith)]
  exact areaInternal_cutOff a2

/-- **The intersection area of convex polygons** (C94).  Missing: polygons such that a vertex of one lies on the outline
of the other. -/
theorem convex_intersection_partial {l m : List (ℝ × ℝ)} (hl : ConvexPosition l) (hm : ConvexPosition m) {P Q : Poly ℝ}
    (bP : build l = some P) (bQ : build m = some Q) (gP : ∀ p ∈ l, p ∉ frontier (hullOf m))
    (gQ : ∀ p ∈ m, p ∉ frontier (hullOf l)) :
    intersectionArea P Q = cutOff (volume (hullOf l ∩ hullOf m)).toReal := by
  obtain ⟨h1, h2, α, h3⟩ := convex_ring hl bP
  obtain ⟨g1, g2, β, g3⟩ := convex_ring hm bQ
  subst h1; subst g1
  exact intersectionArea_eq h3 g3 h2 g2 gP gQ

/-! ## The constructor from points -/

/-- Neighbours, also the last and the first point, are at least `1e-10` apart. -/
def Spaced (l : List (ℝ × ℝ)) : Prop :=
  ∀ i < l.length, (1 / 10 ^ 10) ^ 2 ≤ ((l.getD i (0, 0)).1 - (l.getD ((i + 1) % l.length) (0, 0)).1) ^ 2 +
    ((l.getD i (0, 0)).2 - (l.getD ((i + 1) % l.length) (0, 0)).2) ^ 2

theorem dedupLoop_id : ∀ (l : List (Pt ℝ)) (a : Pt ℝ),
    (∀ i < l.length, kEpsilon ^ 2 ≤ distSqr ((a :: l).getD i (0, 0)) ((a :: l).getD (i + 1) (0, 0))) → dedupLoop a l = l
  | [], _, _ => rfl
  | b :: l, a, h => by
    have h0 := h 0 (by simp)
    simp only [List.getD_cons_zero, List.getD_cons_succ] at h0
    rw [dedupLoop, if_pos h0, dedupLoop_id l b (fun i hi => ?_)]
    have := h (i + 1) (by simp; omega)
    simpa using this

/-- The constructor keeps points that are not too close. -/
theorem ofPoints_eq {l : List (ℝ × ℝ)} (h3 : 3 ≤ l.length) (h : Spaced l) : ofPoints l = build l := by
  unfold ofPoints
  rw [if_pos (by omega)]
  congr 1
  match l, h3 with
  | a :: t, h3 =>
    have h1 : dedupLoop a t = t := by
      refine dedupLoop_id t a (fun i hi => ?_)
      have := h i (by simp; omega)
      rw [Nat.mod_eq_of_lt (by simp; omega)] at this
      exact this
    unfold dedup
    simp only [h1]
    rw [if_neg]
    rintro ⟨_, g⟩
    have := h ((a :: t).length - 1) (by simp)
    rw [Nat.sub_add_cancel (by simp), Nat.mod_self] at this
    have e1 : (a :: t).getD ((a :: t).length - 1) (0, 0) = (a :: t).getLastD a := by
      rw [List.getLastD_eq_getLast?, List.getLast?_eq_getElem?, List.getD_eq_getElem?_getD,
        List.getElem?_eq_getElem (by simp)]
      rfl
    rw [e1] at this
    exact absurd g (not_lt.mpr this)

/-! ## Example: a pentagon -/

/-- A pentagon. -/
def pentagon : List (ℝ × ℝ) := [(0, 0), (4, 0), (5, 3), (2, 5), (-1, 3)]

theorem pentagon_convex : ConvexPosition pentagon := by
  refine ⟨by simp [pentagon], ?_⟩
  intro i hi j hj h1 h2
  simp only [pentagon, List.length_cons, List.length_nil, zero_add, Nat.reduceAdd] at hi hj h2 ⊢
  interval_cases i <;> interval_cases j <;> first | (exfalso; revert h1 h2; decide) | (norm_num [LeftOf, pentagon])

theorem pentagon_spaced : Spaced pentagon := by
  intro i hi
  simp only [pentagon, List.length_cons, List.length_nil, zero_add, Nat.reduceAdd] at hi ⊢
  interval_cases i <;> norm_num

end Verif.Polygon
