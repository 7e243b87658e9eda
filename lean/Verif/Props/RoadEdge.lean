import Verif.Props.RoadBase
import Mathlib.Tactic.IntervalCases

/-! C51: signed distances to road edges. -/

namespace Verif.Road

open Verif.RangeImage (argmin)

/-! ### The tensor of the polylines -/

theorem vert_pad {n : ℕ} {l : List P3} {i : ℕ} (h : i < l.length) : vert (pad n l) i = ⟨l[i], true⟩ := by
  unfold vert pad
  rw [List.getElem?_append_left (by simpa using h), List.getElem?_map, List.getElem?_eq_getElem h]
  rfl

theorem vert_pad_out {n : ℕ} {l : List P3} {i : ℕ} (h : l.length ≤ i) : vert (pad n l) i = blank := by
  unfold vert pad
  rw [List.getElem?_append_right (by simpa using h), List.getElem?_replicate]
  split <;> rfl

theorem vert_raw (l : List P3) (i : ℕ) : vert (l.map fun p => ⟨p, true⟩) i = vert (pad 0 l) i := by
  unfold vert pad
  simp

theorem foldl_max_le {β : Type} (f : β → ℕ) (l : List β) : ∀ m, m ≤ l.foldl (fun m p => max m (f p)) m ∧
    (∀ p ∈ l, f p ≤ l.foldl (fun m p => max m (f p)) m) ∧ (l.foldl (fun m p => max m (f p)) m = m ∨ ∃ p ∈ l, l.foldl (fun m p => max m (f p)) m = f p) := by
  induction l with
  | nil => intro m; simp
  | cons a l ih =>
    intro m
    obtain ⟨h1, h2, h3⟩ := ih (max m (f a))
    rw [List.foldl_cons]
    refine ⟨(le_max_left _ _).trans h1, ?_, ?_⟩
    · intro p hp
      rcases List.mem_cons.1 hp with rfl | hp
      · exact (le_max_right _ _).trans h1
      · exact h2 p hp
    · rcases h3 with h3 | ⟨p, hp, h3⟩
      · rw [h3]
        rcases le_total m (f a) with h | h
        · exact Or.inr ⟨a, by simp, max_eq_right h⟩
        · exact Or.inl (max_eq_left h)
      · exact Or.inr ⟨p, by simp [hp], h3⟩

/-- The tensor has a row for every polyline of at least two points, filled up to the length of the longest one; without any there is an error. -/
theorem tensorize_spec (polylines : List (List P3)) (ids : List ℤ) : tensorize polylines (some ids) =
    if polylines.length ≠ ids.length ∨ (∀ l ∈ polylines, l.length < 2) then none
    else some ((kept polylines ids).map fun l => pad (maxLength (kept polylines ids)) l.1, (kept polylines ids).map Prod.snd) := by
  unfold tensorize
  simp only [Option.getD_some]
  by_cases h : polylines.length = ids.length
  · have hk : kept polylines ids = [] ↔ ∀ l ∈ polylines, l.length < 2 := by
      unfold kept
      rw [List.filter_eq_nil_iff]
      constructor
      · intro h' l hl
        obtain ⟨i, hi⟩ := List.getElem_of_mem hl
        obtain ⟨hi, rfl⟩ := hi
        have := h' (polylines[i], ids[i]'(by omega)) (by
          rw [List.mem_iff_getElem]
          exact ⟨i, by rw [List.length_zip]; omega, by rw [List.getElem_zip]⟩)
        simpa using this
      · intro h' x hx
        have := h' x.1 (List.of_mem_zip (a := x.1) (b := x.2) hx).1
        simp only [decide_eq_true_eq]
        omega
    simp only [h, ne_eq, not_true_eq_false, if_false, false_or, hk]
  · simp [h]

theorem maxLength_spec {k : List (List P3 × ℤ)} : (∀ l ∈ k, l.1.length ≤ maxLength k) ∧ (k ≠ [] → ∃ l ∈ k, l.1.length = maxLength k) := by
  obtain ⟨_, h2, h3⟩ := foldl_max_le (fun p : List P3 × ℤ => p.1.length) k 0
  refine ⟨h2, ?_⟩
  intro hne
  rcases h3 with h3 | ⟨p, hp, h3⟩
  · cases k with
    | nil => exact absurd rfl hne
    | cons a k =>
      have := h2 a (by simp)
      refine ⟨a, by simp, ?_⟩
      unfold maxLength
      omega
  · exact ⟨p, hp, h3.symm⟩

/-- The polylines that are used. -/
def used (polylines : List (List P3)) : List (List P3) := polylines.filter fun l => 2 ≤ l.length

/-- The length of the longest polyline. -/
def longest (polylines : List (List P3)) : ℕ := polylines.foldl (fun m l => max m l.length) 0

/-- A polyline with its padding. -/
noncomputable def padded (n : ℕ) (l : List P3) : Line := ⟨pad n l, isCyclic l⟩

theorem kept_zero (polylines : List (List P3)) : kept polylines (List.replicate polylines.length 0) = (used polylines).map fun l => (l, 0) := by
  unfold kept used
  induction polylines with
  | nil => rfl
  | cons a l ih =>
    rw [List.length_cons, List.replicate_succ, List.zip_cons_cons, List.filter_cons, List.filter_cons]
    by_cases h : 2 ≤ a.length
    · simp only [h, decide_true, if_true, List.map_cons, ih]
    · simp only [h, decide_false, Bool.false_eq_true, if_false, ih]

theorem edgeLines_eq {polylines : List (List P3)} (h : used polylines ≠ []) :
    edgeLines polylines = some ((used polylines).map (padded (longest (used polylines)))) := by
  have hm : maxLength ((used polylines).map fun l => (l, (0 : ℤ))) = longest (used polylines) := by
    unfold maxLength longest
    rw [List.foldl_map]
  unfold edgeLines tensorize
  simp only [Option.getD_none, List.length_replicate, ne_eq, not_true_eq_false, if_false]
  rw [kept_zero, if_neg (by simpa using h), hm]
  simp only [Option.bind_eq_bind, Option.bind_some, Option.pure_def, Option.some.injEq, List.map_map]
  unfold cycles
  change (((used polylines).map _).zip ((used polylines).map isCyclic)).map _ = _
  generalize used polylines = u
  generalize longest u = n
  induction u with
  | nil => rfl
  | cons a u ih => rw [List.map_cons, List.map_cons, List.zip_cons_cons, List.map_cons, ih]; rfl

theorem edgeLines_none {polylines : List (List P3)} (h : used polylines = []) : edgeLines polylines = none := by
  unfold edgeLines tensorize
  simp only [Option.getD_none, List.length_replicate, ne_eq, not_true_eq_false, if_false]
  rw [kept_zero, if_pos (by simpa using h)]
  rfl

theorem longest_ge {polylines : List (List P3)} {l : List P3} (h : l ∈ polylines) : l.length ≤ longest polylines :=
  (foldl_max_le List.length polylines 0).2.1 l h

theorem longest_le {polylines : List (List P3)} {n : ℕ} (h : ∀ l ∈ polylines, l.length ≤ n) : longest polylines ≤ n := by
  rcases (foldl_max_le List.length polylines 0).2.2 with h3 | ⟨p, hp, h3⟩
  · unfold longest; omega
  · have := h p hp
    unfold longest
    omega

theorem padded_ok {n : ℕ} {l : List P3} {i : ℕ} : (padded n l).ok i = true ↔ i + 1 < l.length := by
  unfold Line.ok padded
  rw [Bool.and_eq_true]
  constructor
  · rintro ⟨_, h⟩
    by_contra hge
    rw [vert_pad_out (by omega)] at h
    exact Bool.false_ne_true h
  · intro h
    rw [vert_pad (by omega), vert_pad h]
    exact ⟨rfl, rfl⟩

theorem padded_length {n : ℕ} {l : List P3} : (padded n l).pts.length = max n l.length := by
  unfold padded pad
  rw [List.length_append, List.length_map, List.length_replicate]
  omega

/-! ### Which segment is used -/

theorem signedDistance_first {stretch : ℝ} {lines : List Line} {q : P3} {s : Line × ℕ}
    (h : IsFirst (allSegs lines) (fun s => s.1.dist3 stretch q s.2) s) : signedDistance stretch lines q = some (s.1.signAt q s.2 * s.1.dist2 q s.2) := by
  unfold signedDistance
  simp only [Option.bind_eq_bind, Option.pure_def]
  rw [get_argmin h]
  rfl

/-- The distance that decides which segment is used: in the plane the point of the segment nearest to `q` is taken, heights count threefold. -/
noncomputable def segDist (q : P3) (l : List P3) (i : ℕ) : ℝ := (padded 0 l).dist3 3 q i

/-- The signed distance from one segment of a polyline on its own. -/
noncomputable def segValue (q : P3) (l : List P3) (i : ℕ) : ℝ := (padded 0 l).signAt q i * norm2 ((padded 0 l).offset q i)

/-- The segments of all polylines. -/
def segments (polylines : List (List P3)) : List (List P3 × ℕ) := polylines.flatMap fun l => (List.range (l.length - 1)).map fun i => (l, i)

theorem mem_segments {polylines : List (List P3)} {s : List P3 × ℕ} : s ∈ segments polylines ↔ s.1 ∈ polylines ∧ s.2 + 1 < s.1.length := by
  unfold segments
  rw [List.mem_flatMap]
  constructor
  · rintro ⟨l, hl, h⟩
    obtain ⟨i, hi, rfl⟩ := List.mem_map.1 h
    rw [List.mem_range] at hi
    exact ⟨hl, by dsimp only; omega⟩
  · rintro ⟨h1, h2⟩
    exact ⟨s.1, h1, List.mem_map.2 ⟨s.2, by rw [List.mem_range]; omega, rfl⟩⟩

theorem pad_vert_eq {n m : ℕ} {l : List P3} {i : ℕ} (h : i < l.length) : vert (pad n l) i = vert (pad m l) i := by
  rw [vert_pad h, vert_pad h]

theorem pad_edge_eq {n m : ℕ} {l : List P3} {i : ℕ} (h : i + 1 < l.length) : edge (pad n l) i = edge (pad m l) i := by
  unfold edge
  rw [pad_vert_eq (n := n) (m := m) h, pad_vert_eq (n := n) (m := m) (i := i) (by omega)]

theorem pad_toPoint_eq {n m : ℕ} {l : List P3} {i : ℕ} {q : P3} (h : i + 1 < l.length) : toPoint q (pad n l) i = toPoint q (pad m l) i := by
  unfold toPoint
  rw [pad_vert_eq (m := m) (by omega)]

theorem pad_relT_eq {n m : ℕ} {l : List P3} {i : ℕ} {q : P3} (h : i + 1 < l.length) : relT q (pad n l) i = relT q (pad m l) i := by
  unfold relT
  rw [pad_edge_eq (m := m) h, pad_toPoint_eq (m := m) h]

theorem padded_offset {n m : ℕ} {l : List P3} {i : ℕ} {q : P3} (h : i + 1 < l.length) : (padded n l).offset q i = (padded m l).offset q i := by
  unfold Line.offset padded
  dsimp only
  rw [pad_edge_eq (m := m) h, pad_toPoint_eq (m := m) h, pad_relT_eq (m := m) h]

theorem padded_side {n m : ℕ} {l : List P3} {i : ℕ} {q : P3} (h : i + 1 < l.length) : (padded n l).side q i = (padded m l).side q i := by
  unfold Line.side padded
  dsimp only
  rw [pad_edge_eq (m := m) h, pad_toPoint_eq (m := m) h]

theorem padded_dist3 {n m : ℕ} {l : List P3} {i : ℕ} {q : P3} {stretch : ℝ} (h : i + 1 < l.length) :
    (padded n l).dist3 stretch q i = (padded m l).dist3 stretch q i := by
  unfold Line.dist3
  rw [if_pos (padded_ok.2 h), if_pos (padded_ok.2 h), padded_offset (m := m) h]

theorem padded_dist3_out {n : ℕ} {l : List P3} {i : ℕ} {q : P3} {stretch : ℝ} (h : l.length ≤ i + 1) : (padded n l).dist3 stretch q i = farAway := by
  unfold Line.dist3
  rw [if_neg]
  intro h'
  exact absurd (padded_ok.1 h') (by omega)

theorem signAt_before {l : Line} {q : P3} {i : ℕ} (h : relT q l.pts i < 0) (hok : l.ok (l.prior i) = true) : l.signAt q i =
    if l.convex i then max (l.side q i) (l.side q (l.prior i)) else min (l.side q i) (l.side q (l.prior i)) := if_pos ⟨h, hok⟩

theorem signAt_after {l : Line} {q : P3} {i : ℕ} (h : 1 < relT q l.pts i) (hok : l.ok (l.next i) = true) : l.signAt q i =
    if l.convex (i + 1) then max (l.side q i) (l.side q (l.next i)) else min (l.side q i) (l.side q (l.next i)) := by
  unfold Line.signAt
  rw [if_neg (fun h' => by linarith [h'.1]), if_pos ⟨h, hok⟩]

theorem signAt_else {l : Line} {q : P3} {i : ℕ} (h : relT q l.pts i < 0 → l.ok (l.prior i) = false)
    (h' : 1 < relT q l.pts i → l.ok (l.next i) = false) : l.signAt q i = l.side q i := by
  unfold Line.signAt
  rw [if_neg, if_neg]
  · rintro ⟨h1, h2⟩; rw [h' h1] at h2; exact Bool.false_ne_true h2
  · rintro ⟨h1, h2⟩; rw [h h1] at h2; exact Bool.false_ne_true h2

theorem convex_inner {l : Line} {i : ℕ} (h0 : i ≠ 0) (h1 : i ≠ l.segs) :
    l.convex i = true ↔ 0 < cross2 (edge l.pts (i - 1)) (edge l.pts i) := by
  unfold Line.convex
  simp only [h0, h1, if_false, decide_eq_true_eq]

/-- The padding does not matter for a polyline that is not taken to be closed, or has no padding. -/
theorem padded_signAt {n : ℕ} {l : List P3} {i : ℕ} {q : P3} (h : i + 1 < l.length) (hc : isCyclic l = false ∨ n ≤ l.length) :
    (padded n l).signAt q i = (padded 0 l).signAt q i := by
  rcases Nat.lt_or_ge l.length n with hlt | hge
  · have hc : isCyclic l = false := by
      rcases hc with hc | hc
      · exact hc
      · omega
    have hs : (padded n l).segs = n - 1 := by unfold Line.segs; rw [padded_length]; omega
    have hs0 : (padded 0 l).segs = l.length - 1 := by unfold Line.segs; rw [padded_length]; omega
    have hcn : ∀ m, (padded m l).cyclic = false := fun m => hc
    have hrel : relT q (padded n l).pts i = relT q (padded 0 l).pts i := pad_relT_eq h
    have hconv : ∀ k, k ≠ 0 → k + 1 < l.length → (padded n l).convex k = (padded 0 l).convex k := by
      intro k hk hk'
      rw [Bool.eq_iff_iff, convex_inner hk (by omega), convex_inner hk (by omega)]
      rw [show edge (padded n l).pts (k - 1) = edge (padded 0 l).pts (k - 1) from pad_edge_eq (by omega),
        show edge (padded n l).pts k = edge (padded 0 l).pts k from pad_edge_eq hk']
    by_cases h1 : relT q (padded 0 l).pts i < 0
    · have hp : ∀ m, (padded m l).prior i = i - 1 := by
        intro m; unfold Line.prior; rw [hcn]
        by_cases hi : i = 0
        · rw [if_pos hi, if_neg (by simp)]; omega
        · rw [if_neg hi]
      have hok : ∀ m, (padded m l).ok ((padded m l).prior i) = true := by
        intro m
        rw [padded_ok, hp]
        omega
      rw [signAt_before (by rw [hrel]; exact h1) (hok n), signAt_before h1 (hok 0), hp, hp, padded_side (m := 0) h,
        padded_side (n := n) (m := 0) (i := i - 1) (by omega)]
      by_cases hi : i = 0
      · subst hi; simp
      · rw [hconv i hi (by omega)]
    · by_cases h2 : 1 < relT q (padded 0 l).pts i
      · have hn : (padded n l).next i = i + 1 := by unfold Line.next; rw [if_neg (by omega)]
        by_cases hi : i + 1 = l.length - 1
        · have h0 : (padded 0 l).next i = i := by
            unfold Line.next
            rw [hs0, if_pos hi, hcn, if_neg (by simp)]
            omega
          rw [signAt_else (fun h' => by rw [hrel] at h'; exact absurd h' h1) (fun _ => by
            rw [← Bool.not_eq_true, padded_ok, hn]; omega), signAt_after h2 (by rw [padded_ok, h0]; exact h), h0, padded_side (m := 0) h]
          simp
        · have h0 : (padded 0 l).next i = i + 1 := by unfold Line.next; rw [if_neg (by omega)]
          rw [signAt_after (by rw [hrel]; exact h2) (by rw [padded_ok, hn]; omega), signAt_after h2 (by rw [padded_ok, h0]; omega), hn, h0,
            padded_side (m := 0) h, padded_side (n := n) (m := 0) (i := i + 1) (by omega), hconv (i + 1) (by omega) (by omega)]
      · rw [signAt_else (fun h' => by rw [hrel] at h'; exact absurd h' h1) (fun h' => by rw [hrel] at h'; exact absurd h' h2),
          signAt_else (fun h' => absurd h' h1) (fun h' => absurd h' h2), padded_side (m := 0) h]
  · have : padded n l = padded 0 l := by
      unfold padded pad
      rw [show n - l.length = 0 by omega, show 0 - l.length = 0 by omega]
    rw [this]

theorem segDist_out {l : List P3} {i : ℕ} {q : P3} (h : l.length ≤ i + 1) : segDist q l i = farAway := padded_dist3_out h

/-- The segment that decides in the tensor is the first nearest one of the polylines. -/
theorem first_padded {polylines : List (List P3)} {n : ℕ} (hn : ∀ l ∈ polylines, l.length ≤ n) {q : P3} {s : List P3 × ℕ}
    (h : IsFirst (segments polylines) (fun s => segDist q s.1 s.2) s) (hs : segDist q s.1 s.2 < farAway) :
    IsFirst (allSegs (polylines.map (padded n))) (fun s => s.1.dist3 3 q s.2) (padded n s.1, s.2) := by
  have hseg : ∀ l : List P3, l.length ≤ n → (padded n l).segs = n - 1 := by
    intro l hl; unfold Line.segs; rw [padded_length]; omega
  -- all positions of the tensor, as pairs of a polyline and a position
  have hall : allSegs (polylines.map (padded n)) =
      (polylines.flatMap fun l => (List.range (n - 1)).map fun i => (l, i)).map fun s => (padded n s.1, s.2) := by
    unfold allSegs
    rw [List.map_flatMap, List.flatMap_map]
    apply List.flatMap_congr
    intro l hl
    rw [hseg l (hn l hl), List.map_map]
    rfl
  have hfilter : (polylines.flatMap fun l => (List.range (n - 1)).map fun i => (l, i)).filter (fun s => s.2 + 1 < s.1.length) = segments polylines := by
    unfold segments
    rw [List.filter_flatMap]
    apply List.flatMap_congr
    intro l hl
    rw [List.filter_map]
    have : (List.range (n - 1)).filter ((fun s : List P3 × ℕ => decide (s.2 + 1 < s.1.length)) ∘ fun i => (l, i)) = List.range (l.length - 1) := by
      have h1 := hn l hl
      have : n - 1 = (l.length - 1) + (n - 1 - (l.length - 1)) := by omega
      rw [this, List.range_add, List.filter_append]
      rw [List.filter_eq_self.2, List.filter_eq_nil_iff.2, List.append_nil]
      · intro a ha
        obtain ⟨b, _, rfl⟩ := List.mem_map.1 ha
        simp
        omega
      · intro a ha
        rw [List.mem_range] at ha
        simp
        omega
    rw [this]
  have hbig : IsFirst (polylines.flatMap fun l => (List.range (n - 1)).map fun i => (l, i)) (fun s => segDist q s.1 s.2) s := by
    apply IsFirst.filter (p := fun s => s.2 + 1 < s.1.length)
    · rw [hfilter]; exact h
    · intro x _ hx
      rw [segDist_out (q := q) (l := x.1) (i := x.2) (by simpa using hx)]
      exact hs
  obtain ⟨pre, post, e, h1, h2⟩ := hbig
  have hd : ∀ x : List P3 × ℕ, (padded n x.1).dist3 3 q x.2 = segDist q x.1 x.2 := by
    intro x
    rcases Nat.lt_or_ge (x.2 + 1) x.1.length with hlt | hge
    · exact padded_dist3 hlt
    · rw [padded_dist3_out hge, segDist_out hge]
  refine ⟨pre.map fun s => (padded n s.1, s.2), post.map fun s => (padded n s.1, s.2), ?_, ?_, ?_⟩
  · rw [hall, e, List.map_append, List.map_cons]
  · intro x hx
    obtain ⟨y, hy, rfl⟩ := List.mem_map.1 hx
    dsimp only
    rw [hd, hd]
    exact h1 y hy
  · intro x hx
    obtain ⟨y, hy, rfl⟩ := List.mem_map.1 hx
    dsimp only
    rw [hd, hd]
    exact h2 y hy

/-- What the signed distance is: that of the first nearest segment, where a polyline that is taken to be closed must not be shorter than another one.
Missing are shorter closed ones. -/
theorem edgeDistance_partial {polylines : List (List P3)} {q : P3} {s : List P3 × ℕ}
    (h : IsFirst (segments (used polylines)) (fun s => segDist q s.1 s.2) s) (hs : segDist q s.1 s.2 < farAway)
    (hc : isCyclic s.1 = true → ∀ l ∈ polylines, l.length ≤ s.1.length) : edgeDistance polylines q = some (segValue q s.1 s.2) := by
  have hmem := mem_segments.1 h.mem
  have hne : used polylines ≠ [] := fun e => by rw [e] at hmem; simp at hmem
  unfold edgeDistance
  rw [edgeLines_eq hne]
  simp only [Option.bind_eq_bind, Option.bind_some]
  rw [signedDistance_first (first_padded (fun l hl => longest_ge hl) h hs)]
  dsimp only
  rw [padded_signAt hmem.2, segValue, Line.dist2, if_pos (padded_ok.2 hmem.2), padded_offset (m := 0) hmem.2]
  cases hcy : isCyclic s.1 with
  | false => exact Or.inl rfl
  | true =>
    refine Or.inr (longest_le ?_)
    intro l hl
    exact hc hcy l (List.mem_filter.1 hl).1

/-- A further polyline that is nowhere nearest leaves the first nearest segment as it is. -/
theorem first_extra {p₁ p₂ : List (List P3)} {extra : List P3} {q : P3} {s : List P3 × ℕ}
    (h : IsFirst (segments (used (p₁ ++ p₂))) (fun s => segDist q s.1 s.2) s)
    (hfar : ∀ i, i + 1 < extra.length → segDist q s.1 s.2 < segDist q extra i) :
    IsFirst (segments (used (p₁ ++ extra :: p₂))) (fun s => segDist q s.1 s.2) s := by
  obtain ⟨pre, post, e, h1, h2⟩ := h
  unfold used segments at e ⊢
  rw [List.filter_append, List.flatMap_append] at e
  rw [List.filter_append, List.flatMap_append, List.filter_cons]
  by_cases hx : 2 ≤ extra.length
  · rw [if_pos (by simpa using hx), List.flatMap_cons]
    rcases List.append_eq_append_iff.1 e with ⟨a, h3, h4⟩ | ⟨a, h3, h4⟩
    · -- the segment comes after the new polyline
      refine ⟨(p₁.filter fun l => 2 ≤ l.length).flatMap (fun l => (List.range (l.length - 1)).map fun i => (l, i)) ++
        (List.range (extra.length - 1)).map (fun i => (extra, i)) ++ a, post, by rw [h4]; simp, ?_, h2⟩
      intro x hx'
      rcases List.mem_append.1 hx' with hx' | hx'
      · rcases List.mem_append.1 hx' with hx' | hx'
        · exact h1 x (by rw [h3]; exact List.mem_append_left _ hx')
        · obtain ⟨i, hi, rfl⟩ := List.mem_map.1 hx'
          rw [List.mem_range] at hi
          exact hfar i (by omega)
      · exact h1 x (by rw [h3]; exact List.mem_append_right _ hx')
    · cases a with
      | nil =>
        refine ⟨pre ++ (List.range (extra.length - 1)).map fun i => (extra, i), post, ?_, ?_, h2⟩
        · simp only [List.append_nil, List.nil_append] at h3 h4
          rw [h3, ← h4]; simp
        · intro x hx'
          rcases List.mem_append.1 hx' with hx' | hx'
          · exact h1 x hx'
          · obtain ⟨i, hi, rfl⟩ := List.mem_map.1 hx'
            rw [List.mem_range] at hi
            exact hfar i (by omega)
      | cons b a =>
        obtain ⟨rfl, h5⟩ := List.cons.inj h4
        change post = a ++ _ at h5
        refine ⟨pre, a ++ ((List.range (extra.length - 1)).map (fun i => (extra, i)) ++
          (p₂.filter fun l => 2 ≤ l.length).flatMap fun l => (List.range (l.length - 1)).map fun i => (l, i)), by rw [h3]; simp, h1, ?_⟩
        intro x hx'
        rcases List.mem_append.1 hx' with hx' | hx'
        · exact h2 x (by rw [h5]; exact List.mem_append_left _ hx')
        · rcases List.mem_append.1 hx' with hx' | hx'
          · obtain ⟨i, hi, rfl⟩ := List.mem_map.1 hx'
            rw [List.mem_range] at hi
            exact (hfar i (by omega)).le
          · exact h2 x (by rw [h5]; exact List.mem_append_right _ hx')
  · rw [if_neg (by simpa using hx)]
    exact ⟨pre, post, e, h1, h2⟩

/-- C51, for closed polylines that are not shorter than any other: a further polyline that is nowhere nearest does not change the signed distance. -/
theorem edgeDistance_extra_partial {p₁ p₂ : List (List P3)} {extra : List P3} {q : P3} {s : List P3 × ℕ}
    (h : IsFirst (segments (used (p₁ ++ p₂))) (fun s => segDist q s.1 s.2) s) (hs : segDist q s.1 s.2 < farAway)
    (hfar : ∀ i, i + 1 < extra.length → segDist q s.1 s.2 < segDist q extra i)
    (hc : isCyclic s.1 = true → ∀ l ∈ p₁ ++ extra :: p₂, l.length ≤ s.1.length) :
    edgeDistance (p₁ ++ extra :: p₂) q = edgeDistance (p₁ ++ p₂) q := by
  rw [edgeDistance_partial h hs fun h' l hl => hc h' l (by
    rcases List.mem_append.1 hl with hl | hl
    · exact List.mem_append_left _ hl
    · exact List.mem_append_right _ (by simp [hl]))]
  exact edgeDistance_partial (first_extra h hfar) hs hc

/-! ### Signs -/

/-- `q` is strictly on the left (port) side of the line from `a` to `b`. -/
def LeftOf (a b q : P3) : Prop := 0 < cross2 (b.sub a) (q.sub a)

/-- `q` is strictly on the right (starboard) side of the line from `a` to `b`. -/
def RightOf (a b q : P3) : Prop := cross2 (b.sub a) (q.sub a) < 0

theorem sign_neg {x : ℝ} : sign x < 0 ↔ x < 0 := by
  unfold sign
  split
  · simp_all
  · split
    · constructor
      · intro h; norm_num at h
      · intro h; linarith
    · simp_all

theorem sign_pos {x : ℝ} : 0 < sign x ↔ 0 < x := by
  unfold sign
  split
  · constructor
    · intro h; norm_num at h
    · intro h; linarith
  · split <;> simp_all

theorem cross2_swap (a b : P3) : cross2 a b = -cross2 b a := by unfold cross2; ring

theorem side_neg {l : Line} {q : P3} {i : ℕ} : l.side q i < 0 ↔ LeftOf (vert l.pts i).p (vert l.pts (i + 1)).p q := by
  unfold Line.side LeftOf
  rw [sign_neg, cross2_swap, neg_lt_zero]
  rfl

theorem side_pos {l : Line} {q : P3} {i : ℕ} : 0 < l.side q i ↔ RightOf (vert l.pts i).p (vert l.pts (i + 1)).p q := by
  unfold Line.side RightOf
  rw [sign_pos, cross2_swap, Left.neg_pos_iff]
  rfl

/-- Next to a segment, the sign says on which side of it the point is. -/
theorem signAt_beside {l : Line} {q : P3} {i : ℕ} (h0 : 0 ≤ relT q l.pts i) (h1 : relT q l.pts i ≤ 1) :
    (l.signAt q i < 0 ↔ LeftOf (vert l.pts i).p (vert l.pts (i + 1)).p q) ∧ (0 < l.signAt q i ↔ RightOf (vert l.pts i).p (vert l.pts (i + 1)).p q) := by
  rw [signAt_else (fun h => by linarith) (fun h => by linarith)]
  exact ⟨side_neg, side_pos⟩

/-- Before the start of a segment the corner with the segment before decides.  At a left turn a point is inside if it is left of both segments, at a
right turn if it is left of one of them. -/
theorem signAt_corner_before {l : Line} {q : P3} {i : ℕ} (hi : 0 < i) (hs : i < l.segs) (h : relT q l.pts i < 0) (hok : l.ok (i - 1) = true) :
    (LeftOf (vert l.pts (i - 1)).p (vert l.pts i).p (vert l.pts (i + 1)).p →
      (l.signAt q i < 0 ↔ LeftOf (vert l.pts (i - 1)).p (vert l.pts i).p q ∧ LeftOf (vert l.pts i).p (vert l.pts (i + 1)).p q)) ∧
    (¬ LeftOf (vert l.pts (i - 1)).p (vert l.pts i).p (vert l.pts (i + 1)).p →
      (l.signAt q i < 0 ↔ LeftOf (vert l.pts (i - 1)).p (vert l.pts i).p q ∨ LeftOf (vert l.pts i).p (vert l.pts (i + 1)).p q)) := by
  have hp : l.prior i = i - 1 := if_neg (by omega)
  have hi' : i - 1 + 1 = i := by omega
  have hconv : l.convex i = true ↔ LeftOf (vert l.pts (i - 1)).p (vert l.pts i).p (vert l.pts (i + 1)).p := by
    rw [convex_inner (by omega) (by omega)]
    unfold LeftOf edge
    rw [hi']
    unfold cross2 P3.sub
    constructor <;> intro h <;> nlinarith [h]
  have hside := side_neg (l := l) (q := q) (i := i - 1)
  rw [hi'] at hside
  rw [signAt_before h (by rw [hp]; exact hok), hp]
  constructor
  · intro hc
    rw [if_pos (hconv.2 hc), max_lt_iff, side_neg, hside, and_comm]
  · intro hc
    rw [if_neg (fun h' => hc (hconv.1 h')), min_lt_iff, side_neg, hside, or_comm]

/-- The same after the end of a segment. -/
theorem signAt_corner_after {l : Line} {q : P3} {i : ℕ} (hs : i + 1 < l.segs) (h : 1 < relT q l.pts i) (hok : l.ok (i + 1) = true) :
    (LeftOf (vert l.pts i).p (vert l.pts (i + 1)).p (vert l.pts (i + 2)).p →
      (l.signAt q i < 0 ↔ LeftOf (vert l.pts i).p (vert l.pts (i + 1)).p q ∧ LeftOf (vert l.pts (i + 1)).p (vert l.pts (i + 2)).p q)) ∧
    (¬ LeftOf (vert l.pts i).p (vert l.pts (i + 1)).p (vert l.pts (i + 2)).p →
      (l.signAt q i < 0 ↔ LeftOf (vert l.pts i).p (vert l.pts (i + 1)).p q ∨ LeftOf (vert l.pts (i + 1)).p (vert l.pts (i + 2)).p q)) := by
  have hp : l.next i = i + 1 := if_neg (by omega)
  have hconv : l.convex (i + 1) = true ↔ LeftOf (vert l.pts i).p (vert l.pts (i + 1)).p (vert l.pts (i + 2)).p := by
    rw [convex_inner (by omega) (by omega)]
    unfold LeftOf edge
    rw [show i + 1 - 1 = i by omega, show i + 1 + 1 = i + 2 by omega]
    unfold cross2 P3.sub
    constructor <;> intro h <;> nlinarith [h]
  rw [signAt_after h (by rw [hp]; exact hok), hp]
  constructor
  · intro hc
    rw [if_pos (hconv.2 hc), max_lt_iff, side_neg, side_neg]
  · intro hc
    rw [if_neg (fun h' => hc (hconv.1 h')), min_lt_iff, side_neg, side_neg]

/-! ### Cases -/

/-- A road edge around a narrow island. -/
def wedge : List P3 := [⟨0, 0, 0⟩, ⟨4, 0, 0⟩, ⟨4, 1, 0⟩, ⟨0, 0, 0⟩]

/-- A road edge far away with more points. -/
def farEdge : List P3 := [⟨1000, 0, 0⟩, ⟨1001, 0, 0⟩, ⟨1002, 0, 0⟩, ⟨1003, 0, 0⟩, ⟨1004, 0, 0⟩]

noncomputable def tip : P3 := ⟨-1, 1 / 10, 0⟩

theorem vert_getD (n : ℕ) (l : List P3) (i : ℕ) : (vert (pad n l) i).p = (l[i]?).getD ⟨0, 0, 0⟩ := by
  rcases Nat.lt_or_ge i l.length with h | h
  · rw [vert_pad h, List.getElem?_eq_getElem h]; rfl
  · rw [vert_pad_out h, List.getElem?_eq_none h]; rfl

theorem wedge_rel0 (n : ℕ) : relT tip (pad n wedge) 0 = -1 / 4 := by
  norm_num [relT, toPoint, edge, vert_getD, wedge, tip, dot2, P3.sub]

theorem wedge_rel1 (n : ℕ) : relT tip (pad n wedge) 1 = 1 / 10 := by
  norm_num [relT, toPoint, edge, vert_getD, wedge, tip, dot2, P3.sub]

theorem wedge_rel2 (n : ℕ) : relT tip (pad n wedge) 2 = 209 / 170 := by
  norm_num [relT, toPoint, edge, vert_getD, wedge, tip, dot2, P3.sub]

theorem wedge_offset0 : (padded 0 wedge).offset tip 0 = tip := by
  unfold Line.offset padded
  dsimp only
  rw [wedge_rel0, clip_of_nonpos (by norm_num)]
  ext <;> simp [toPoint, edge, vert_getD, wedge, tip, P3.sub, P3.scale]

theorem wedge_offset1 : (padded 0 wedge).offset tip 1 = ⟨-5, 0, 0⟩ := by
  unfold Line.offset padded
  dsimp only
  rw [wedge_rel1, clip_of_mem (by norm_num) (by norm_num)]
  ext <;> norm_num [toPoint, edge, vert_getD, wedge, tip, P3.sub, P3.scale]

theorem wedge_offset2 : (padded 0 wedge).offset tip 2 = tip := by
  unfold Line.offset padded
  dsimp only
  rw [wedge_rel2, clip_of_one_le (by norm_num)]
  ext <;> norm_num [toPoint, edge, vert_getD, wedge, tip, P3.sub, P3.scale]

theorem wedge_dist0 : segDist tip wedge 0 = Real.sqrt (101 / 100) := by
  unfold segDist Line.dist3
  rw [if_pos (padded_ok.2 (by simp [wedge])), wedge_offset0]
  congr 1
  norm_num [tip]

theorem wedge_dist1 : segDist tip wedge 1 = Real.sqrt 25 := by
  unfold segDist Line.dist3
  rw [if_pos (padded_ok.2 (by simp [wedge])), wedge_offset1]
  congr 1
  norm_num

theorem wedge_dist2 : segDist tip wedge 2 = Real.sqrt (101 / 100) := by
  unfold segDist Line.dist3
  rw [if_pos (padded_ok.2 (by simp [wedge])), wedge_offset2]
  congr 1
  norm_num [tip]

theorem farEdge_dist (i : ℕ) (hi : i + 1 < farEdge.length) : Real.sqrt (101 / 100) < segDist tip farEdge i := by
  have hrel : relT tip (pad 0 farEdge) i ≤ 0 := by
    have hi : i < 4 := by simp [farEdge] at hi; omega
    interval_cases i <;> norm_num [relT, toPoint, edge, vert_getD, farEdge, tip, dot2, P3.sub]
  unfold segDist Line.dist3
  rw [if_pos (padded_ok.2 hi)]
  apply Real.sqrt_lt_sqrt (by norm_num)
  have hx : ((padded 0 farEdge).offset tip i).x ≤ -1001 := by
    unfold Line.offset padded
    dsimp only
    rw [clip_of_nonpos hrel]
    have hi : i < 4 := by simp [farEdge] at hi; omega
    interval_cases i <;> norm_num [toPoint, edge, vert_getD, farEdge, tip, P3.sub, P3.scale]
  nlinarith [sq_nonneg ((padded 0 farEdge).offset tip i).y, sq_nonneg (((padded 0 farEdge).offset tip i).z * 3)]

theorem wedge_first : IsFirst (segments [wedge]) (fun s => segDist tip s.1 s.2) (wedge, 0) := by
  refine ⟨[], [(wedge, 1), (wedge, 2)], rfl, by simp, ?_⟩
  intro x hx
  simp only [List.mem_cons, List.not_mem_nil, or_false] at hx
  rcases hx with rfl | rfl
  · dsimp only
    rw [wedge_dist0, wedge_dist1]
    exact Real.sqrt_le_sqrt (by norm_num)
  · dsimp only
    rw [wedge_dist0, wedge_dist2]

theorem sqrt_lt_farAway {x : ℝ} (h : x < 10 ^ 20) : Real.sqrt x < farAway := by
  unfold farAway
  rw [Real.sqrt_lt' (by norm_num)]
  linarith [h, (by norm_num : ((10 : ℝ) ^ 10) ^ 2 = 10 ^ 20)]

/-- C51 does not hold: a road edge a kilometre away turns the distance of the point from the tip of the island into its opposite, that is from off the
road to on the road, because it has more points. -/
theorem edgeDistance_extra_violated : ∃ v, 0 < v ∧ edgeDistance [wedge] tip = some v ∧ edgeDistance [wedge, farEdge] tip = some (-v) ∧
    ∀ i, i + 1 < farEdge.length → v < segDist tip farEdge i := by
  have hnorm : norm2 ((padded 0 wedge).offset tip 0) = Real.sqrt (101 / 100) := by
    rw [wedge_offset0]
    unfold norm2
    congr 1
    norm_num [tip]
  have hfar : segDist tip wedge 0 < farAway := by rw [wedge_dist0]; exact sqrt_lt_farAway (by norm_num)
  refine ⟨Real.sqrt (101 / 100), Real.sqrt_pos.2 (by norm_num), ?_, ?_, farEdge_dist⟩
  · rw [edgeDistance_partial (polylines := [wedge]) (s := (wedge, 0)) (by
      rw [show used [wedge] = [wedge] by simp [used, wedge]]; exact wedge_first) hfar (by simp)]
    unfold segValue
    rw [hnorm]
    have hp : (padded 0 wedge).prior 0 = 2 := by
      have : isCyclic wedge = true := by norm_num [isCyclic, wedge, dist3sq]
      simp [Line.prior, padded, Line.segs, pad, this]
      simp [wedge]
    have h1 : (padded 0 wedge).signAt tip 0 = 1 := by
      rw [signAt_before (by change relT tip (pad 0 wedge) 0 < 0; rw [wedge_rel0]; norm_num) (by rw [padded_ok, hp]; simp [wedge]), hp]
      have hc : (padded 0 wedge).convex 0 = true := by
        norm_num [Line.convex, padded, Line.segs, pad, edge, vert, wedge, cross2, P3.sub]
      rw [if_pos hc]
      norm_num [Line.side, padded, vert_getD, toPoint, edge, wedge, tip, cross2, P3.sub, sign]
    rw [h1, one_mul]
  · have hu : used [wedge, farEdge] = [wedge, farEdge] := by simp [used, wedge, farEdge]
    have hl : longest [wedge, farEdge] = 5 := by simp [longest, wedge, farEdge]
    have hfirst : IsFirst (segments [wedge, farEdge]) (fun s => segDist tip s.1 s.2) (wedge, 0) := by
      obtain ⟨pre, post, e, h1, h2⟩ := wedge_first
      have e' : segments [wedge, farEdge] = segments [wedge] ++ segments [farEdge] := by simp [segments]
      refine ⟨pre, post ++ segments [farEdge], by rw [e', e]; simp, h1, ?_⟩
      intro x hx
      rcases List.mem_append.1 hx with hx | hx
      · exact h2 x hx
      · obtain ⟨h3, h4⟩ := mem_segments.1 hx
        have h3 : x.1 = farEdge := by simpa using h3
        rw [h3] at h4
        dsimp only
        rw [wedge_dist0, h3]
        exact (farEdge_dist _ h4).le
    unfold edgeDistance
    rw [edgeLines_eq (by rw [hu]; simp), hu, hl]
    simp only [Option.bind_eq_bind, Option.bind_some]
    rw [signedDistance_first (first_padded (by simp [wedge, farEdge]) hfirst hfar)]
    dsimp only
    have hp : (padded 5 wedge).prior 0 = 3 := by
      have : isCyclic wedge = true := by norm_num [isCyclic, wedge, dist3sq]
      simp [Line.prior, padded, Line.segs, pad, this]
      simp [wedge]
    rw [signAt_else (fun _ => by rw [← Bool.not_eq_true, padded_ok, hp]; simp [wedge])
      (fun h => by change 1 < relT tip (pad 5 wedge) 0 at h; rw [wedge_rel0] at h; norm_num at h)]
    have hside : (padded 5 wedge).side tip 0 = -1 := by
      norm_num [Line.side, padded, vert_getD, toPoint, edge, wedge, tip, cross2, P3.sub, sign]
    rw [hside, Line.dist2, if_pos (padded_ok.2 (by simp [wedge])), padded_offset (m := 0) (by simp [wedge]), hnorm, neg_one_mul]

/-- A straight road edge. -/
def straight : List P3 := [⟨0, 0, 0⟩, ⟨1, 0, 0⟩]

/-- C78 does not hold on the extension of a segment: the distance of this point from the road edge is 2, but 0 is reported. -/
theorem edgeDistance_extension_violated : edgeDistance [straight] ⟨3, 0, 0⟩ = some 0 ∧ ∀ p, OnSegment ⟨0, 0, 0⟩ ⟨1, 0, 0⟩ p → 2 ≤ planar ⟨3, 0, 0⟩ p := by
  have hrel : relT ⟨3, 0, 0⟩ (pad 0 straight) 0 = 3 := by norm_num [relT, toPoint, edge, vert_getD, straight, dot2, P3.sub]
  have hoff : (padded 0 straight).offset ⟨3, 0, 0⟩ 0 = ⟨2, 0, 0⟩ := by
    unfold Line.offset padded
    dsimp only
    rw [hrel, clip_of_one_le (by norm_num)]
    ext <;> norm_num [toPoint, edge, vert_getD, straight, P3.sub, P3.scale]
  have hd : segDist ⟨3, 0, 0⟩ straight 0 = Real.sqrt 4 := by
    unfold segDist Line.dist3
    rw [if_pos (padded_ok.2 (by simp [straight])), hoff]
    congr 1
    norm_num
  constructor
  · rw [edgeDistance_partial (polylines := [straight]) (s := (straight, 0)) ⟨[], [], by simp [used, segments, straight], by simp, by simp⟩ (by dsimp only; rw [hd]; exact sqrt_lt_farAway (by norm_num)) (by simp)]
    have hside : (padded 0 straight).side ⟨3, 0, 0⟩ 0 = 0 := by
      norm_num [Line.side, padded, vert_getD, toPoint, edge, straight, cross2, P3.sub, sign]
    have hc : isCyclic straight = false := by norm_num [isCyclic, straight, dist3sq]
    have hn : (padded 0 straight).next 0 = 0 := by
      simp [Line.next, padded, Line.segs, pad, straight]
    unfold segValue
    rw [signAt_after (by change 1 < relT _ (pad 0 straight) 0; rw [hrel]; norm_num) (by rw [hn, padded_ok]; simp [straight]), hn, hside]
    simp
  · rintro p ⟨t, h0, h1, hx, hy⟩
    unfold planar
    apply Real.le_sqrt_of_sq_le
    simp only at hx hy
    rw [hx, hy]
    nlinarith

end Verif.Road
