import Verif.Props.RoadEdge

/-!
C51 in full: the signed distance to the road edges for every list of polylines, closed ones that are shorter than others
included, and exactly when a further polyline that is nowhere nearest changes it.
-/

namespace Verif.Road

/-- The foot of the point lies before the first or behind the last segment of the polyline, where it is closed. -/
def AtSeam (q : P3) (l : List P3) (i : ℕ) : Prop :=
  (i = 0 ∧ relT q (pad 0 l) i < 0) ∨ (i + 2 = l.length ∧ 1 < relT q (pad 0 l) i)

/-- The value for the end of a polyline that is not closed: the side of the segment alone decides. -/
noncomputable def endValue (q : P3) (l : List P3) (i : ℕ) : ℝ := (padded 0 l).side q i * norm2 ((padded 0 l).offset q i)

/-- At the seam of a closed polyline with padding only the segment itself decides. -/
theorem padded_signAt_seam {n : ℕ} {l : List P3} {i : ℕ} {q : P3} (h : i + 1 < l.length) (hn : l.length < n)
    (hc : isCyclic l = true) (hs : AtSeam q l i) : (padded n l).signAt q i = (padded 0 l).side q i := by
  have hsegs : (padded n l).segs = n - 1 := by unfold Line.segs; rw [padded_length]; omega
  have hrel : relT q (padded n l).pts i = relT q (pad 0 l) i := pad_relT_eq h
  rw [← padded_side (n := n) (m := 0) h]
  rcases hs with ⟨hi, h1⟩ | ⟨hi, h1⟩
  · apply signAt_else
    · intro _
      have hp : (padded n l).prior i = n - 2 := by
        unfold Line.prior
        rw [if_pos hi, show (padded n l).cyclic = true from hc, if_pos rfl, hsegs]
        omega
      rw [← Bool.not_eq_true, padded_ok, hp]
      omega
    · intro h2
      rw [hrel] at h2
      linarith
  · apply signAt_else
    · intro h2
      rw [hrel] at h2
      linarith
    · intro _
      have hx : (padded n l).next i = i + 1 := by unfold Line.next; rw [if_neg (by omega)]
      rw [← Bool.not_eq_true, padded_ok, hx]
      omega

/-- Away from the seam the padding does not matter for closed polylines either. -/
theorem padded_signAt_inner {n : ℕ} {l : List P3} {i : ℕ} {q : P3} (h : i + 1 < l.length) (hn : l.length < n)
    (hs : ¬ AtSeam q l i) : (padded n l).signAt q i = (padded 0 l).signAt q i := by
  have hsn : (padded n l).segs = n - 1 := by unfold Line.segs; rw [padded_length]; omega
  have hs0 : (padded 0 l).segs = l.length - 1 := by unfold Line.segs; rw [padded_length]; omega
  have hrel : relT q (padded n l).pts i = relT q (padded 0 l).pts i := pad_relT_eq h
  have hconv : ∀ k, k ≠ 0 → k + 1 < l.length → (padded n l).convex k = (padded 0 l).convex k := by
    intro k hk hk'
    rw [Bool.eq_iff_iff, convex_inner hk (by omega), convex_inner hk (by omega)]
    rw [show edge (padded n l).pts (k - 1) = edge (padded 0 l).pts (k - 1) from pad_edge_eq (by omega),
      show edge (padded n l).pts k = edge (padded 0 l).pts k from pad_edge_eq hk']
  by_cases h1 : relT q (padded 0 l).pts i < 0
  · have hi : i ≠ 0 := fun hi => hs (Or.inl ⟨hi, h1⟩)
    have hp : ∀ m, (padded m l).prior i = i - 1 := by
      intro m; unfold Line.prior; rw [if_neg hi]
    have hok : ∀ m, (padded m l).ok ((padded m l).prior i) = true := by
      intro m
      rw [padded_ok, hp]
      omega
    rw [signAt_before (by rw [hrel]; exact h1) (hok n), signAt_before h1 (hok 0), hp, hp, padded_side (m := 0) h,
      padded_side (n := n) (m := 0) (i := i - 1) (by omega), hconv i hi h]
  · by_cases h2 : 1 < relT q (padded 0 l).pts i
    · have hi : i + 2 ≠ l.length := fun hi => hs (Or.inr ⟨hi, h2⟩)
      have hxn : (padded n l).next i = i + 1 := by unfold Line.next; rw [if_neg (by omega)]
      have hx0 : (padded 0 l).next i = i + 1 := by unfold Line.next; rw [if_neg (by omega)]
      rw [signAt_after (by rw [hrel]; exact h2) (by rw [padded_ok, hxn]; omega), signAt_after h2 (by rw [padded_ok, hx0]; omega),
        hxn, hx0, padded_side (m := 0) h, padded_side (n := n) (m := 0) (i := i + 1) (by omega),
        hconv (i + 1) (by omega) (by omega)]
    · rw [signAt_else (fun h' => by rw [hrel] at h'; exact absurd h' h1) (fun h' => by rw [hrel] at h'; exact absurd h' h2),
        signAt_else (fun h' => absurd h' h1) (fun h' => absurd h' h2), padded_side (m := 0) h]

/-- The nearest polyline is closed and shorter than another one, and the point is at its seam. -/
def SeamLost (polylines : List (List P3)) (q : P3) (s : List P3 × ℕ) : Prop :=
  isCyclic s.1 = true ∧ (∃ l ∈ polylines, s.1.length < l.length) ∧ AtSeam q s.1 s.2

open Classical in
/-- The signed distance for all road edges: that of the first nearest segment of its polyline alone, except at the seam of a
closed polyline that is shorter than another one, where it is that of an open polyline. -/
theorem edgeDistance_spec {polylines : List (List P3)} {q : P3} {s : List P3 × ℕ}
    (h : IsFirst (segments (used polylines)) (fun s => segDist q s.1 s.2) s) (hs : segDist q s.1 s.2 < farAway) :
    edgeDistance polylines q = some (if SeamLost polylines q s then endValue q s.1 s.2 else segValue q s.1 s.2) := by
  have hmem := mem_segments.1 h.mem
  have hne : used polylines ≠ [] := fun e => by rw [e] at hmem; simp at hmem
  have hlong : (∃ l ∈ polylines, s.1.length < l.length) ↔ s.1.length < longest (used polylines) := by
    constructor
    · rintro ⟨l, hl, hlt⟩
      exact lt_of_lt_of_le hlt (longest_ge (List.mem_filter.2 ⟨hl, by simp only [decide_eq_true_eq]; omega⟩))
    · intro hlt
      by_contra hno
      push Not at hno
      have hle : longest (used polylines) ≤ s.1.length := longest_le fun l hl => hno l (List.mem_filter.1 hl).1
      omega
  by_cases hsl : SeamLost polylines q s
  · rw [if_pos hsl]
    obtain ⟨hc, hl, hseam⟩ := hsl
    unfold edgeDistance
    rw [edgeLines_eq hne]
    simp only [Option.bind_eq_bind, Option.bind_some]
    rw [signedDistance_first (first_padded (fun l hl => longest_ge hl) h hs)]
    dsimp only
    rw [padded_signAt_seam hmem.2 (hlong.1 hl) hc hseam, Line.dist2, if_pos (padded_ok.2 hmem.2),
      padded_offset (m := 0) hmem.2]
    rfl
  · rw [if_neg hsl]
    by_cases hc : isCyclic s.1 = true ∧ ∃ l ∈ polylines, s.1.length < l.length
    · have hseam : ¬ AtSeam q s.1 s.2 := fun h => hsl ⟨hc.1, hc.2, h⟩
      unfold edgeDistance
      rw [edgeLines_eq hne]
      simp only [Option.bind_eq_bind, Option.bind_some]
      rw [signedDistance_first (first_padded (fun l hl => longest_ge hl) h hs)]
      dsimp only
      rw [padded_signAt_inner hmem.2 (hlong.1 hc.2) hseam, Line.dist2, if_pos (padded_ok.2 hmem.2),
        padded_offset (m := 0) hmem.2]
      rfl
    · refine edgeDistance_partial h hs ?_
      intro hcy l hl
      by_contra hlt
      exact hc ⟨hcy, l, hl, by omega⟩

/-- C51 in full: a further polyline that is nowhere nearest changes the signed distance exactly if the nearest polyline is
closed and was not shorter than any other but is shorter than the new one, the point is at its seam, and the two
values differ there. -/
theorem edgeDistance_extra_iff {p₁ p₂ : List (List P3)} {extra : List P3} {q : P3} {s : List P3 × ℕ}
    (h : IsFirst (segments (used (p₁ ++ p₂))) (fun s => segDist q s.1 s.2) s) (hs : segDist q s.1 s.2 < farAway)
    (hfar : ∀ i, i + 1 < extra.length → segDist q s.1 s.2 < segDist q extra i) :
    edgeDistance (p₁ ++ extra :: p₂) q ≠ edgeDistance (p₁ ++ p₂) q ↔
      isCyclic s.1 = true ∧ (∀ l ∈ p₁ ++ p₂, l.length ≤ s.1.length) ∧ s.1.length < extra.length ∧ AtSeam q s.1 s.2 ∧
        endValue q s.1 s.2 ≠ segValue q s.1 s.2 := by
  classical
  rw [edgeDistance_spec h hs, edgeDistance_spec (first_extra h hfar) hs]
  have hsplit : (∃ l ∈ p₁ ++ extra :: p₂, s.1.length < l.length) ↔
      s.1.length < extra.length ∨ ∃ l ∈ p₁ ++ p₂, s.1.length < l.length := by
    simp only [List.mem_append, List.mem_cons]
    constructor
    · rintro ⟨l, hl | rfl | hl, hlt⟩
      · exact Or.inr ⟨l, Or.inl hl, hlt⟩
      · exact Or.inl hlt
      · exact Or.inr ⟨l, Or.inr hl, hlt⟩
    · rintro (hlt | ⟨l, hl | hl, hlt⟩)
      · exact ⟨extra, Or.inr (Or.inl rfl), hlt⟩
      · exact ⟨l, Or.inl hl, hlt⟩
      · exact ⟨l, Or.inr (Or.inr hl), hlt⟩
  have hall : (∀ l ∈ p₁ ++ p₂, l.length ≤ s.1.length) ↔ ¬ ∃ l ∈ p₁ ++ p₂, s.1.length < l.length := by
    push Not; rfl
  unfold SeamLost
  rw [hsplit, hall]
  by_cases a : isCyclic s.1 = true <;> by_cases b : s.1.length < extra.length <;>
    by_cases c : (∃ l ∈ p₁ ++ p₂, s.1.length < l.length) <;> by_cases d : AtSeam q s.1 s.2 <;>
    simp only [a, b, c, d, true_and, and_true, false_and, and_false, or_true, or_false, if_true, if_false,
      not_true_eq_false, not_false_eq_true, ne_eq, Option.some.injEq, reduceCtorEq]

/-- The point at the tip of the island is a case. -/
theorem tip_seam : isCyclic wedge = true ∧ AtSeam tip wedge 0 ∧ endValue tip wedge 0 = -Real.sqrt (101 / 100) ∧
    ¬ AtSeam ⟨2, 1 / 4, 0⟩ wedge 0 := by
  refine ⟨by norm_num [isCyclic, wedge, dist3sq], Or.inl ⟨rfl, by rw [wedge_rel0]; norm_num⟩, ?_, ?_⟩
  · unfold endValue
    have hside : (padded 0 wedge).side tip 0 = -1 := by
      norm_num [Line.side, padded, vert_getD, toPoint, edge, wedge, tip, cross2, P3.sub, sign]
    have hnorm : norm2 ((padded 0 wedge).offset tip 0) = Real.sqrt (101 / 100) := by
      rw [wedge_offset0]
      unfold norm2
      congr 1
      norm_num [tip]
    rw [hside, hnorm, neg_one_mul]
  · rintro (⟨_, h⟩ | ⟨h, _⟩)
    · have : relT ⟨2, 1 / 4, 0⟩ (pad 0 wedge) 0 = 1 / 2 := by
        norm_num [relT, vert_getD, toPoint, edge, wedge, dot2, P3.sub]
      rw [this] at h
      norm_num at h
    · simp [wedge] at h

end Verif.Road
