import Verif.Model.Polygon
import Mathlib.Data.Rat.Cast.Order
import Mathlib.Data.Real.Basic
import Mathlib.Tactic.NormNum
import Mathlib.Tactic.Push
import Mathlib.Tactic.Ring

/-!
The algorithms of math/polygon2d.cc on points with rational coordinates: they may be evaluated over the rational
numbers, and the result holds over the real numbers.
-/

namespace Verif.Polygon

/-- A rational point. -/
def toR (p : Pt ℚ) : Pt ℝ := ((p.1 : ℝ), (p.2 : ℝ))

/-- A polygon with rational points. -/
def Poly.toR (P : Poly ℚ) : Poly ℝ := ⟨P.pts.map Polygon.toR, P.n, Polygon.toR P.lo, Polygon.toR P.hi⟩

/-- A state with rational points. -/
def St.toR (s : St ℚ) : St ℝ := ⟨s.pi, s.qi, s.pin, s.qin, s.cps.map Polygon.toR⟩

theorem toR_injective : Function.Injective toR := fun p q h => by
  have h1 : (p.1 : ℝ) = q.1 := congrArg Prod.fst h
  have h2 : (p.2 : ℝ) = q.2 := congrArg Prod.snd h
  exact Prod.ext (by exact_mod_cast h1) (by exact_mod_cast h2)

theorem toR_sub (p q : Pt ℚ) : toR (p - q) = toR p - toR q := by
  ext <;> simp [toR]

theorem toR_add (p q : Pt ℚ) : toR (p + q) = toR p + toR q := by
  ext <;> simp [toR]

theorem toR_scale (t : ℚ) (p : Pt ℚ) : toR (scale t p) = scale (t : ℝ) (toR p) := by
  ext <;> simp [toR, scale]

theorem toR_cp (p q : Pt ℚ) : cp (toR p) (toR q) = ((cp p q : ℚ) : ℝ) := by
  simp [toR, cp]

theorem toR_cross3 (a b c : Pt ℚ) : cross3 (toR a) (toR b) (toR c) = ((cross3 a b c : ℚ) : ℝ) := by
  unfold cross3; rw [← toR_sub, ← toR_sub, toR_cp]

theorem toR_cross4 (a b c d : Pt ℚ) : cross4 (toR a) (toR b) (toR c) (toR d) = ((cross4 a b c d : ℚ) : ℝ) := by
  unfold cross4; rw [← toR_sub, ← toR_sub, toR_cp]

theorem toR_pt (P : Poly ℚ) (i : ℕ) : P.toR.pt i = toR (P.pt i) := by
  unfold Poly.pt Poly.toR
  simp only [List.getD_eq_getElem?_getD, List.getElem?_map]
  rcases P.pts[i]? with _ | p
  · simp [toR]
  · rfl

theorem toR_next (P : Poly ℚ) (i : ℕ) : P.toR.next i = P.next i := rfl

theorem toR_elemMin (p q : Pt ℚ) : elemMin (toR p) (toR q) = toR (elemMin p q) := by
  ext <;> simp [toR, elemMin]

theorem toR_elemMax (p q : Pt ℚ) : elemMax (toR p) (toR q) = toR (elemMax p q) := by
  ext <;> simp [toR, elemMax]

theorem toR_colinearPoint (p0 p1 q : Pt ℚ) :
    colinearPoint (toR p0) (toR p1) (toR q) = (colinearPoint p0 p1 q).map toR := by
  unfold colinearPoint
  rw [toR_elemMin, toR_elemMax]
  simp only [toR, Rat.cast_le]
  split_ifs <;> rfl

theorem toR_sgn (d : ℚ) : sgn (d : ℝ) = ((sgn d : ℚ) : ℝ) := by
  unfold sgn
  simp only [Rat.cast_lt_zero]
  split_ifs <;> simp

theorem toR_inRange (d t rt : ℚ) : inRange (d : ℝ) (t : ℝ) (rt : ℝ) = inRange d t rt := by
  unfold inRange
  have hk : (kCross : ℝ) = ((kCross : ℚ) : ℝ) := by simp [kCross]
  simp only [toR_sgn, hk, gt_iff_lt]
  have e1 : ((t : ℝ) * ((sgn d : ℚ) : ℝ)) = ((t * sgn d : ℚ) : ℝ) := by push_cast; ring
  have e2 : |(d : ℝ)| + max |(d : ℝ)| 1 * ((kCross : ℚ) : ℝ) = ((|d| + max |d| 1 * kCross : ℚ) : ℝ) := by push_cast; ring
  have e3 : |(d : ℝ)| - max |(d : ℝ)| 1 * ((kCross : ℚ) : ℝ) = ((|d| - max |d| 1 * kCross : ℚ) : ℝ) := by push_cast; ring
  have e4 : ((rt : ℝ) * ((sgn d : ℚ) : ℝ)) = ((rt * sgn d : ℚ) : ℝ) := by push_cast; ring
  simp only [e1, e2, e3, e4, Rat.cast_lt, Rat.cast_lt_zero]

theorem map_orElse {α β : Type*} (f : α → β) (a : Option α) (b : Option α) :
    (a <|> b).map f = (a.map f <|> b.map f) := by
  cases a <;> rfl

theorem toR_exactIntersection (p0 p1 q0 q1 : Pt ℚ) (d : ℚ) :
    exactIntersection (toR p0) (toR p1) (toR q0) (toR q1) (d : ℝ) = (exactIntersection p0 p1 q0 q1 d).map toR := by
  unfold exactIntersection
  simp only [toR_cross4, toR_colinearPoint, toR_inRange, Rat.cast_eq_zero, ne_eq]
  split_ifs
  · simp only [map_orElse]
  · rfl
  · rfl
  · rfl
  · simp only [Option.map_some, toR_add, toR_scale, toR_sub]
    push_cast; rfl

theorem toR_append (p : Pt ℚ) (l : List (Pt ℚ)) : append (toR p) (l.map toR) = (append p l).map toR := by
  unfold append
  rcases l with _ | ⟨a, l⟩
  · rfl
  · simp only [List.map_cons]
    have h1 : (toR a :: l.map toR).getLastD (toR a) = toR ((a :: l).getLastD a) := by
      rw [← List.map_cons, List.getLastD_eq_getLast?, List.getLastD_eq_getLast?, List.getLast?_map]
      rcases (a :: l).getLast? with _ | b <;> rfl
    rw [h1]
    simp only [ne_eq, toR_injective.eq_iff]
    split_ifs <;> simp

section

variable (P Q : Poly ℚ)

theorem toR_det (s : St ℚ) : s.toR.det P.toR Q.toR = ((s.det P Q : ℚ) : ℝ) := by
  simp only [St.det, St.toR, toR_next, toR_pt, toR_cross4]

theorem toR_sideP (s : St ℚ) : s.toR.sideP P.toR Q.toR = ((s.sideP P Q : ℚ) : ℝ) := by
  simp only [St.sideP, St.toR, toR_next, toR_pt, toR_cross4]

theorem toR_sideQ (s : St ℚ) : s.toR.sideQ P.toR Q.toR = ((s.sideQ P Q : ℚ) : ℝ) := by
  simp only [St.sideQ, St.toR, toR_next, toR_pt, toR_cross4]

theorem toR_inter (s : St ℚ) : s.toR.inter P.toR Q.toR = (s.inter P Q).map toR := by
  unfold St.inter
  rw [toR_det]
  simp only [St.toR, toR_next, toR_pt, toR_exactIntersection]

theorem toR_mark (s : St ℚ) (x : Pt ℚ) : s.toR.mark P.toR Q.toR (toR x) = (s.mark P Q x).toR := by
  unfold St.mark
  simp only [toR_sideP, Rat.cast_nonneg]
  simp only [St.toR, toR_append]

theorem toR_advanceP (s : St ℚ) : s.toR.advanceP P.toR Q.toR = s.advanceP P Q := by
  unfold St.advanceP
  simp only [toR_det, toR_sideP, toR_sideQ, Rat.cast_nonneg, Rat.cast_lt_zero]

theorem toR_advance (s : St ℚ) : s.toR.advance P.toR Q.toR = (s.advance P Q).toR := by
  unfold St.advance
  simp only [toR_advanceP]
  simp only [St.toR, toR_next, toR_pt, toR_append]
  by_cases h : s.advanceP P Q = true
  · simp only [h, if_true]
    split_ifs <;> rfl
  · simp only [h]
    simp only [Bool.false_eq_true, if_false]
    split_ifs <;> rfl

theorem toR_run2 : ∀ (k : ℕ) (s : St ℚ), run2 P.toR Q.toR k s.toR = (run2 P Q k s).map (List.map toR) := by
  intro k
  induction k with
  | zero => intro s; rfl
  | succ k ih =>
    intro s
    unfold run2
    rw [toR_inter]
    rcases s.inter P Q with _ | x
    · simp only [Option.map_none, toR_advance, ih]
    · simp only [Option.map_some, toR_mark, toR_advance, ih]
      have h1 : s.toR.cps.length = s.cps.length := by simp [St.toR]
      have h2 : some (toR x) = s.toR.cps.head? ↔ some x = s.cps.head? := by
        simp only [St.toR, List.head?_map]
        rcases s.cps.head? with _ | y
        · simp
        · simp only [Option.map_some, Option.some.injEq, toR_injective.eq_iff]
      simp only [h1, h2]
      split_ifs <;> rfl

theorem toR_run1 (t : ℕ) : ∀ (k : ℕ) (s : St ℚ),
    run1 P.toR Q.toR t k s.toR = (run1 P Q t k s).map (Option.map (List.map toR)) := by
  intro k
  induction k with
  | zero => intro s; rfl
  | succ k ih =>
    intro s
    unfold run1
    rw [toR_inter]
    rcases s.inter P Q with _ | x
    · simp only [Option.map_none, toR_advance, ih]
    · simp only [Option.map_some, toR_mark, toR_advance, toR_run2]

theorem toR_segment (i : ℕ) : P.toR.segment i = toR (P.segment i) := by
  simp only [Poly.segment, toR_pt, toR_next, toR_sub]

theorem toR_bisect (p : Pt ℚ) : ∀ (f s e : ℕ), bisect P.toR (toR p) f s e = bisect P p f s e := by
  intro f
  induction f with
  | zero => intro s e; rfl
  | succ f ih =>
    intro s e
    unfold bisect
    simp only [toR_pt, ← toR_sub, toR_cp, Rat.cast_nonneg, ih]

theorem toR_edgesLeft (p : Pt ℚ) : ∀ (k i : ℕ), edgesLeft P.toR (toR p) k i = edgesLeft P p k i := by
  intro k
  induction k with
  | zero => intro i; rfl
  | succ k ih =>
    intro i
    unfold edgesLeft
    simp only [toR_pt, ← toR_sub, toR_cp, Rat.cast_lt_zero, ih]

theorem toR_pointInside (p : Pt ℚ) : pointInside P.toR (toR p) = pointInside P p := by
  unfold pointInside
  simp only [toR_bisect, toR_edgesLeft, toR_segment, toR_pt, ← toR_sub, toR_cp, Rat.cast_lt_zero]
  have e1 : P.toR.n = P.n := rfl
  have e2 : P.toR.lo = toR P.lo := rfl
  have e3 : P.toR.hi = toR P.hi := rfl
  have f1 : ∀ q : Pt ℚ, (toR q).1 = (q.1 : ℝ) := fun _ => rfl
  have f2 : ∀ q : Pt ℚ, (toR q).2 = (q.2 : ℝ) := fun _ => rfl
  simp only [e1, e2, e3, f1, f2, toR_bisect, toR_edgesLeft, gt_iff_lt, Rat.cast_lt]

theorem toR_maybeIntersect : maybeIntersect P.toR Q.toR = maybeIntersect P Q := by
  unfold maybeIntersect
  simp only [Poly.toR, toR, gt_iff_lt, Rat.cast_lt]

/-- The vertices of the intersection of polygons with rational points. -/
theorem toR_vertices : vertices P.toR Q.toR = (vertices P Q).map toR := by
  unfold vertices
  rw [toR_maybeIntersect]
  have h0 : (⟨0, 0, false, false, []⟩ : St ℝ) = (⟨0, 0, false, false, []⟩ : St ℚ).toR := rfl
  rw [h0, toR_run1, show P.toR.n = P.n from rfl, show Q.toR.n = Q.n from rfl]
  have aP : P.toR.pts.all (pointInside Q.toR) = P.pts.all (pointInside Q) := by
    simp only [Poly.toR, List.all_map]
    congr 1
    funext p
    exact toR_pointInside Q p
  have aQ : Q.toR.pts.all (pointInside P.toR) = Q.pts.all (pointInside P) := by
    simp only [Poly.toR, List.all_map]
    congr 1
    funext p
    exact toR_pointInside P p
  rw [aP, aQ]
  by_cases hm : maybeIntersect P Q = false
  · rw [if_pos hm, if_pos hm]; rfl
  · rw [if_neg hm, if_neg hm]
    rcases run1 P Q (P.n + Q.n) ((P.n + Q.n) * 2) ⟨0, 0, false, false, []⟩ with _ | _ | l
    · simp only [Option.map_none]
      split_ifs <;> rfl
    · rfl
    · rfl

end

theorem toR_fan (o : Pt ℚ) : ∀ l : List (Pt ℚ), fan (toR o) (l.map toR) = ((fan o l : ℚ) : ℝ)
  | [] => by simp [fan]
  | [a] => by simp [fan]
  | a :: b :: l => by
    have := toR_fan o (b :: l)
    simp only [List.map_cons, fan, toR_cross3] at this ⊢
    rw [this]; push_cast; ring

theorem toR_areaInternal (l : List (Pt ℚ)) : areaInternal (l.map toR) = ((areaInternal l : ℚ) : ℝ) := by
  unfold areaInternal
  have h : twiceArea (l.map toR) = ((twiceArea l : ℚ) : ℝ) := by
    rcases l with _ | ⟨o, l⟩
    · simp [twiceArea]
    · exact toR_fan o l
  have hk : (kEpsilon : ℝ) = ((kEpsilon : ℚ) : ℝ) := by simp [kEpsilon]
  rw [h, hk, ← Rat.cast_abs]
  simp only [Rat.cast_le]
  split_ifs <;> simp

/-- The intersection area of polygons with rational points. -/
theorem toR_intersectionArea (P Q : Poly ℚ) : intersectionArea P.toR Q.toR = ((intersectionArea P Q : ℚ) : ℝ) := by
  unfold intersectionArea
  simp only [toR_vertices, List.length_map, toR_areaInternal]
  split_ifs
  · simp
  · rfl

theorem toR_foldl_min : ∀ (l : List (Pt ℚ)) (a : Pt ℚ), (l.map toR).foldl elemMin (toR a) = toR (l.foldl elemMin a)
  | [], a => rfl
  | b :: l, a => by simp only [List.map_cons, List.foldl_cons, toR_elemMin, toR_foldl_min l]

theorem toR_foldl_max : ∀ (l : List (Pt ℚ)) (a : Pt ℚ), (l.map toR).foldl elemMax (toR a) = toR (l.foldl elemMax a)
  | [], a => rfl
  | b :: l, a => by simp only [List.map_cons, List.foldl_cons, toR_elemMax, toR_foldl_max l]

theorem toR_build (l : List (Pt ℚ)) : build (l.map toR) = (build l).map Poly.toR := by
  have hp : pad (l.map toR) = (pad l).map toR := by
    match l with
    | [] => rfl
    | [a] => rfl
    | [a, b] => rfl
    | a :: b :: c :: l => rfl
  unfold build
  rw [hp]
  rcases pad l with _ | ⟨a, l⟩
  · rfl
  · simp only [List.map_cons, Option.map_some, Poly.toR, bboxLo, bboxHi, toR_foldl_min, toR_foldl_max, List.length_cons,
      List.length_map]

theorem toR_boxCorners (c d : Pt ℚ) (l w : ℚ) : boxCorners (toR c) (toR d) (l : ℝ) (w : ℝ) = (boxCorners c d l w).map toR := by
  unfold boxCorners
  by_cases h : l = 0
  · have h' : (l : ℝ) = 0 := by exact_mod_cast h
    simp only [if_pos h, if_pos h', List.map_cons, List.map_nil, List.cons.injEq, and_true]
    refine ⟨?_, ?_, ?_, ?_⟩ <;> (ext <;> simp [toR, scale])
  · have h' : (l : ℝ) ≠ 0 := by exact_mod_cast h
    simp only [if_neg h, if_neg h', List.map_cons, List.map_nil, List.cons.injEq, and_true]
    refine ⟨?_, ?_, ?_, ?_⟩ <;> (ext <;> simp [toR, scale])

theorem toR_ofBox (c d : Pt ℚ) (l w : ℚ) : ofBox (toR c) (toR d) (l : ℝ) (w : ℝ) = (ofBox c d l w).map Poly.toR := by
  unfold ofBox
  rw [toR_boxCorners, toR_build]

end Verif.Polygon
