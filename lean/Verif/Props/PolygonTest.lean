import Verif.Props.PolygonConvex
import Mathlib.Analysis.Convex.Segment

/-!
C101: the test for convexity (math/polygon2d.cc:579-631).
-/

namespace Verif.Polygon

open Real

/-! ## Flags -/

theorem eps_pos : (0 : ℝ) < kEpsilon := by unfold kEpsilon; positivity

theorem sawTurn_nonneg {c : Bool} {x : ℝ} (h : 0 ≤ x) : ∃ c', sawTurn (c, false) x = (c', false) := by
  have := eps_pos
  unfold sawTurn
  split_ifs with h1 h2
  · exact ⟨_, rfl⟩
  · linarith
  · exact ⟨_, rfl⟩

theorem turns_nonneg : ∀ (xs : List ℝ) (c : Bool), (∀ x ∈ xs, 0 ≤ x) → ∃ c', turns (c, false) xs = some (c', false)
  | [], c, _ => ⟨c, rfl⟩
  | x :: xs, c, h => by
    obtain ⟨c1, h1⟩ := sawTurn_nonneg (c := c) (h x (by simp))
    rw [turns, h1, if_neg (by simp)]
    exact turns_nonneg xs c1 (fun y hy => h y (List.mem_cons_of_mem _ hy))

theorem fanTurns_nonneg : ∀ (xs : List ℝ) (c : Bool), (∀ x ∈ xs, 0 ≤ x) →
    ∃ c' b, fanTurns (c, false) xs = some ((c', false), b)
  | [], c, _ => ⟨c, true, rfl⟩
  | x :: xs, c, h => by
    rw [fanTurns]
    by_cases h0 : x > kEpsilon ∨ x < -kEpsilon
    · rw [if_pos h0]
      obtain ⟨c1, h1⟩ := sawTurn_nonneg (c := c) (h x (by simp))
      rw [h1]
      simp only [Bool.and_false, Bool.false_eq_true, if_false]
      exact fanTurns_nonneg xs c1 (fun y hy => h y (List.mem_cons_of_mem _ hy))
    · rw [if_neg h0]
      exact ⟨c, false, rfl⟩

theorem refs_nonneg (pts : List (Pt ℝ)) : ∀ (l : List (Pt ℝ)) (c : Bool),
    (∀ r ∈ l, ∀ x ∈ (pts.drop 1).zipWith (fun a b => cross3 r a b) (pts.drop 2), 0 ≤ x) →
    ∃ c', refs pts (c, false) l = some (c', false)
  | [], c, _ => ⟨c, rfl⟩
  | r :: l, c, h => by
    obtain ⟨c1, b, h1⟩ := fanTurns_nonneg _ c (h r (by simp))
    rw [refs, h1]
    cases b
    · exact refs_nonneg pts l c1 (fun y hy => h y (List.mem_cons_of_mem _ hy))
    · exact ⟨c1, rfl⟩

theorem cross3_leftOf {a b p : Pt ℝ} (h : LeftOf a b p) : 0 < cross3 a b p := h

theorem cross3_rot (a b p : Pt ℝ) : cross3 p a b = cross3 a b p := by
  simp only [cross3, cp, Prod.fst_sub, Prod.snd_sub]; ring

/-- In convex position all points are to the left of an edge or on it. -/
theorem ConvexPosition.nonneg {l : List (ℝ × ℝ)} (h : ConvexPosition l) {i j : ℕ} (hi : i < l.length) (hj : j < l.length) :
    0 ≤ cross3 (l.getD i (0, 0)) (l.getD ((i + 1) % l.length) (0, 0)) (l.getD j (0, 0)) := by
  by_cases h1 : j = i
  · subst h1
    simp [cross3, cp]
  by_cases h2 : j = (i + 1) % l.length
  · rw [← h2]
    simp only [cross3, cp, Prod.fst_sub, Prod.snd_sub]
    exact le_of_eq (by ring)
  exact (h.2 i hi j hj h1 h2).le

/-! ## C101 -/

/-- **Points in convex position pass the test**, as counter-clockwise (C101). -/
theorem isConvexHull_convex {l : List (ℝ × ℝ)} (h : ConvexPosition l) : isConvexHull l = some true := by
  have h3 := h.1
  have t : ∀ x ∈ cornerTurns l, 0 ≤ x := by
    intro x hx
    obtain ⟨i, hi, rfl⟩ := List.mem_map.mp hx
    rw [List.mem_range] at hi
    have e : (if i = l.length - 1 then 0 else i + 1) = (i + 1) % l.length := by
      split_ifs with g
      · rw [g, Nat.sub_add_cancel (by omega), Nat.mod_self]
      · exact (Nat.mod_eq_of_lt (by omega)).symm
    rw [e, cross3_rot]
    exact h.nonneg hi (by split_ifs <;> omega)
  obtain ⟨c, hc⟩ := turns_nonneg (cornerTurns l) false t
  obtain ⟨c', hc'⟩ := refs_nonneg l l c (by
    intro r hr x hx
    obtain ⟨j, hj, rfl⟩ := List.mem_iff_getElem.mp hr
    obtain ⟨i, hi, rfl⟩ := List.mem_iff_getElem.mp hx
    simp only [List.length_zipWith, List.length_drop] at hi
    rw [List.getElem_zipWith, List.getElem_drop, List.getElem_drop, cross3_rot]
    have := h.nonneg (i := 1 + i) (j := j) (by omega) hj
    rw [Nat.mod_eq_of_lt (by omega)] at this
    have g : ∀ k (hk : k < l.length), l.getD k (0, 0) = l[k] := fun k hk => by
      rw [List.getD_eq_getElem?_getD, List.getElem?_eq_getElem hk]; rfl
    rw [g _ (by omega), g _ (by omega), g _ hj] at this
    have e : l[2 + i] = l[1 + i + 1] := by congr 1; omega
    rw [e]
    exact this)
  unfold isConvexHull
  rw [hc]
  simp only [hc']
  rfl

theorem sawTurn_mono (f : Bool × Bool) (x : ℝ) : (f.1 = true → (sawTurn f x).1 = true) ∧ (f.2 = true → (sawTurn f x).2 = true) ∧
    (x > kEpsilon → (sawTurn f x).1 = true) ∧ (x < -kEpsilon → (sawTurn f x).2 = true) := by
  have := eps_pos
  unfold sawTurn
  split_ifs with h1 h2
  · exact ⟨fun _ => rfl, id, fun _ => rfl, fun h => by linarith⟩
  · exact ⟨id, fun _ => rfl, fun h => by linarith, fun _ => rfl⟩
  · exact ⟨id, id, fun h => absurd h h1, fun h => absurd h h2⟩

/-- What is known of the flags at the end. -/
structure Grown (f g : Bool × Bool) (xs : List ℝ) : Prop where
  ccw : f.1 = true → g.1 = true
  cw : f.2 = true → g.2 = true
  pos : ∀ x ∈ xs, x > kEpsilon → g.1 = true
  neg : ∀ x ∈ xs, x < -kEpsilon → g.2 = true

theorem Grown.step {f g : Bool × Bool} {x : ℝ} {xs : List ℝ} (h : Grown (sawTurn f x) g xs) : Grown f g (x :: xs) := by
  obtain ⟨m1, m2, m3, m4⟩ := sawTurn_mono f x
  refine ⟨fun g => h.ccw (m1 g), fun g => h.cw (m2 g), fun y hy hp => ?_, fun y hy hp => ?_⟩
  · rcases List.mem_cons.mp hy with rfl | g
    · exact h.ccw (m3 hp)
    · exact h.pos y g hp
  · rcases List.mem_cons.mp hy with rfl | g
    · exact h.cw (m4 hp)
    · exact h.neg y g hp

theorem turns_grown : ∀ (xs : List ℝ) (f g : Bool × Bool), (f.1 && f.2) = false → turns f xs = some g →
    Grown f g xs ∧ (g.1 && g.2) = false
  | [], f, g, hf, h => by
    cases h
    exact ⟨⟨id, id, by simp, by simp⟩, hf⟩
  | x :: xs, f, g, hf, h => by
    rw [turns] at h
    by_cases hb : ((sawTurn f x).1 && (sawTurn f x).2) = true
    · rw [if_pos hb] at h; cases h
    · rw [if_neg hb] at h
      obtain ⟨h1, h2⟩ := turns_grown xs _ g (by simpa using hb) h
      exact ⟨h1.step, h2⟩

theorem fanTurns_grown : ∀ (xs : List ℝ) (f g : Bool × Bool) (b : Bool), (f.1 && f.2) = false → fanTurns f xs = some (g, b) →
    (f.1 = true → g.1 = true) ∧ (f.2 = true → g.2 = true) ∧ (g.1 && g.2) = false
  | [], f, g, b, hf, h => by
    cases h
    exact ⟨id, id, hf⟩
  | x :: xs, f, g, b, hf, h => by
    rw [fanTurns] at h
    by_cases h0 : x > kEpsilon ∨ x < -kEpsilon
    · rw [if_pos h0] at h
      by_cases hb : ((sawTurn f x).1 && (sawTurn f x).2) = true
      · rw [if_pos hb] at h; cases h
      · rw [if_neg hb] at h
        obtain ⟨h1, h2, h3⟩ := fanTurns_grown xs _ g b (by simpa using hb) h
        obtain ⟨m1, m2, _⟩ := sawTurn_mono f x
        exact ⟨fun a => h1 (m1 a), fun a => h2 (m2 a), h3⟩
    · rw [if_neg h0] at h
      cases h
      exact ⟨id, id, hf⟩

theorem refs_grown (pts : List (Pt ℝ)) : ∀ (l : List (Pt ℝ)) (f g : Bool × Bool), (f.1 && f.2) = false →
    refs pts f l = some g → (f.1 = true → g.1 = true) ∧ (f.2 = true → g.2 = true) ∧ (g.1 && g.2) = false
  | [], f, g, hf, h => by
    cases h
    exact ⟨id, id, hf⟩
  | r :: l, f, g, hf, h => by
    rw [refs] at h
    rcases hq : fanTurns f ((pts.drop 1).zipWith (fun a b => cross3 r a b) (pts.drop 2)) with _ | ⟨q, b⟩
    · rw [hq] at h; cases h
    · rw [hq] at h
      obtain ⟨h1, h2, h3⟩ := fanTurns_grown _ f q b hf hq
      cases b
      · simp only [Bool.false_eq_true, if_false] at h
        obtain ⟨g1, g2, g3⟩ := refs_grown pts l q g h3 h
        exact ⟨fun a => g1 (h1 a), fun a => g2 (h2 a), g3⟩
      · simp only [if_true, Option.some.injEq] at h
        subst h
        exact ⟨h1, h2, h3⟩

/-- Twice the signed area of the triangle of a point with its neighbours: positive for a left turn. -/
noncomputable def turnAt (l : List (ℝ × ℝ)) (i : ℕ) : ℝ :=
  let a := l.getD ((i + l.length - 1) % l.length) (0, 0)
  let b := l.getD i (0, 0)
  let c := l.getD ((i + 1) % l.length) (0, 0)
  (b.1 - a.1) * (c.2 - b.2) - (b.2 - a.2) * (c.1 - b.1)

theorem turnAt_mem {l : List (ℝ × ℝ)} {i : ℕ} (hi : i < l.length) : turnAt l i ∈ cornerTurns l := by
  unfold cornerTurns
  refine List.mem_map.mpr ⟨i, List.mem_range.mpr hi, ?_⟩
  have e : (if i = l.length - 1 then 0 else i + 1) = (i + 1) % l.length := by
    split_ifs with g
    · rw [g, Nat.sub_add_cancel (by omega), Nat.mod_self]
    · exact (Nat.mod_eq_of_lt (by omega)).symm
  have e' : (if i = 0 then l.length - 1 else i - 1) = (i + l.length - 1) % l.length := by
    split_ifs with g
    · rw [g, Nat.zero_add, Nat.mod_eq_of_lt (by omega)]
    · rw [show i + l.length - 1 = i - 1 + l.length by omega, Nat.add_mod_right, Nat.mod_eq_of_lt (by omega)]
  rw [e, e']
  unfold turnAt
  simp only [cross3, cp, Prod.fst_sub, Prod.snd_sub]
  ring

/-- **Outlines that pass the test** turn to one side only, up to the tolerance (C101).  Missing: they may still go around
more than once, see `isConvexHull_violated`. -/
theorem isConvexHull_partial {l : List (ℝ × ℝ)} {ccw : Bool} (h : isConvexHull l = some ccw) :
    (ccw = true → ∀ i < l.length, -(1 / 10 ^ 10) ≤ turnAt l i) ∧
    (ccw = false → ∀ i < l.length, turnAt l i ≤ 1 / 10 ^ 10) := by
  unfold isConvexHull at h
  rcases ht : turns (false, false) (cornerTurns l) with _ | f
  · rw [ht] at h; cases h
  · rw [ht] at h
    simp only at h
    rcases hr : refs l f l with _ | g
    · rw [hr] at h; cases h
    · rw [hr] at h
      simp only [Option.some.injEq] at h
      obtain ⟨t1, t2⟩ := turns_grown _ _ f rfl ht
      obtain ⟨r1, r2, r3⟩ := refs_grown l l f g t2 hr
      refine ⟨fun hc i hi => ?_, fun hc i hi => ?_⟩
      · by_contra hn
        have := r2 (t1.neg _ (turnAt_mem hi) (lt_of_not_ge hn))
        rw [this] at h; rw [hc] at h; exact absurd h (by decide)
      · by_contra hn
        have g1 := r1 (t1.pos _ (turnAt_mem hi) (lt_of_not_ge hn))
        rw [hc] at h
        have g2 : g.2 = true := by simpa using h
        rw [g1, g2] at r3
        exact absurd r3 (by decide)

/-- **Triangles and quadrilaterals that pass the test** as counter-clockwise and have no angle close to 180 degrees are
in convex position (C101). -/
theorem isConvexHull_quad {l : List (ℝ × ℝ)} (h : isConvexHull l = some true) (hl : l.length = 3 ∨ l.length = 4)
    (hs : ∀ i < l.length, 1 / 10 ^ 10 < |turnAt l i|) : ConvexPosition l := by
  have pos : ∀ i < l.length, 0 < turnAt l i := fun i hi => by
    have h1 := (isConvexHull_partial h).1 rfl i hi
    have h2 := hs i hi
    rcases lt_abs.mp h2 with g | g
    · exact lt_trans (by norm_num) g
    · linarith
  refine ⟨by omega, fun i hi j hj h1 h2 => ?_⟩
  rcases hl with hl | hl
  · have e : j = (i + 1 + 1) % 3 := by rw [hl] at h2 hi hj; omega
    have := pos ((i + 1) % 3) (by omega)
    unfold turnAt at this
    rw [hl] at this ⊢
    rw [show ((i + 1) % 3 + 3 - 1) % 3 = i by omega, show ((i + 1) % 3 + 1) % 3 = j by omega] at this
    unfold LeftOf
    simp only at this
    linarith
  · rw [hl] at h2 hi hj ⊢
    rcases (show j = (i + 2) % 4 ∨ j = (i + 3) % 4 by omega) with e | e
    · have := pos ((i + 1) % 4) (by omega)
      unfold turnAt at this
      rw [hl, show ((i + 1) % 4 + 4 - 1) % 4 = i by omega, show ((i + 1) % 4 + 1) % 4 = j by omega] at this
      unfold LeftOf
      simp only at this
      linarith
    · have := pos i (by omega)
      unfold turnAt at this
      rw [hl, show (i + 4 - 1) % 4 = j by omega] at this
      unfold LeftOf
      simp only at this
      linarith

/-- A unit square. -/
theorem isConvexHull_example : isConvexHull [((0 : ℝ), (0 : ℝ)), (1, 0), (1, 1), (0, 1)] = some true ∧
    isConvexHull [((0 : ℝ), (0 : ℝ)), (0, 1), (1, 1), (1, 0)] = some false ∧
    isConvexHull [((0 : ℝ), (0 : ℝ)), (4, 0), (1, 1), (0, 4)] = none := by
  refine ⟨?_, ?_, ?_⟩ <;>
  norm_num [isConvexHull, cornerTurns, turns, sawTurn, kEpsilon, cross3, cp, refs, fanTurns, List.range_succ]

/-- An outline that goes around twice, as a spiral. -/
def spiral : List (ℝ × ℝ) := [(1, 9), (0, 0), (10, 0), (10, 10), (0, 10), (0, 1), (9, 1), (9, 9)]

/-- **The test accepts an outline that crosses itself** (C101): the sides from (1, 9) to (0, 0) and from (0, 1) to
(9, 1) share a point. -/
theorem isConvexHull_violated : isConvexHull spiral = some true ∧ ¬ ConvexPosition spiral ∧
    ∃ x, x ∈ segment ℝ ((1 : ℝ), (9 : ℝ)) (0, 0) ∧ x ∈ segment ℝ ((0 : ℝ), (1 : ℝ)) (9, 1) := by
  refine ⟨?_, ?_, (1 / 9, 1), ?_, ?_⟩
  · norm_num [spiral, isConvexHull, cornerTurns, turns, sawTurn, kEpsilon, cross3, cp, refs, fanTurns, List.range_succ]
  · rintro ⟨_, h⟩
    have := h 0 (by simp [spiral]) 5 (by simp [spiral]) (by decide) (by simp [spiral])
    norm_num [spiral, LeftOf] at this
  · exact ⟨1 / 9, 8 / 9, by norm_num, by norm_num, by norm_num, by ext <;> norm_num⟩
  · exact ⟨80 / 81, 1 / 81, by norm_num, by norm_num, by norm_num, by ext <;> norm_num⟩

end Verif.Polygon
