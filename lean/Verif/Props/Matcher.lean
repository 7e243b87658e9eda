import Verif.Props.MatcherCache
import Verif.Lemmas.MatcherScore
import Verif.Lemmas.Rounding

/-!
Properties C10 and C11: the two matching algorithms.
-/

namespace Verif.Matcher

variable {β : Type}

/-- Specification: the IoU of a prediction and a ground truth; `0` across types. -/
def similarity (F : Frame β) (p g : Obj β) : ℚ :=
  if p.type = g.type then (F.customIou.getD F.defaultIou) p.box g.box else 0

/-- Specification: the longitudinal affinity; `1` if the matcher has no affinity function. -/
def affinity (F : Frame β) (p g : Obj β) : ℚ :=
  match F.customAff with
  | none => 1
  | some f => if p.type = g.type then f p.box g.box else 0

/-- Specification: the pair may be matched: its IoU reaches the threshold of the prediction's type and,
for a longitudinal-error-tolerant matcher, its affinity is not zero. -/
def Eligible (F : Frame β) (p g : Obj β) : Prop :=
  F.thresholds.getD p.type 0 ≤ similarity F p g ∧ (F.letFns = true → affinity F p g ≠ 0)

instance (F : Frame β) (p g : Obj β) : Decidable (Eligible F p g) := by unfold Eligible; infer_instance

/-- Specification: the real-valued benefit of matching a pair. -/
def benefit (F : Frame β) (p g : Obj β) : ℚ :=
  similarity F p g * (if F.letFns then affinity F p g else 1)

/-- Specification: the benefit in millionths, rounded to the nearest integer (ties away from zero). -/
def millionths (F : Frame β) (p g : Obj β) : ℤ := roundHalfAway (benefit F p g * 1000000)

/-- The documented requirements on a call of `Match`: objects set, subsets of existing objects of known
type with a threshold, IoU and affinity functions with values in `[0, 1]`. -/
structure Usable (F : Frame β) (ps gs : List (Obj β)) : Prop where
  preds : F.preds = some ps
  gts : F.gts = some gs
  psub : ∀ i ∈ F.predSubset, ∃ o, ps[i]? = some o ∧ o.type ≠ 0 ∧ o.type < F.thresholds.length
  gsub : ∀ j ∈ F.gtSubset, j < gs.length
  iou01 : ∀ p ∈ ps, ∀ g ∈ gs, 0 ≤ similarity F p g ∧ similarity F p g ≤ 1
  aff01 : ∀ p ∈ ps, ∀ g ∈ gs, 0 ≤ affinity F p g ∧ affinity F p g ≤ 1

/-- The objects at position `i` of the prediction subset and position `j` of the ground-truth subset. -/
def ObjectsAt (F : Frame β) (ps gs : List (Obj β)) (i j : Nat) (p g : Obj β) : Prop :=
  ∃ a b : Nat, F.predSubset[i]? = some a ∧ F.gtSubset[j]? = some b ∧ ps[a]? = some p ∧ gs[b]? = some g

/-- Specification: a one-to-one set of eligible pairs of positions. -/
def LegalMatching (F : Frame β) (ps gs : List (Obj β)) (A : List (Nat × Nat)) : Prop :=
  (A.map Prod.fst).Nodup ∧ (A.map Prod.snd).Nodup ∧
    ∀ x ∈ A, ∃ p g, ObjectsAt F ps gs x.1 x.2 p g ∧ Eligible F p g

/-- Specification: total of the rounded benefits of pairs of positions (`0` for no objects). -/
def totalMillionths (F : Frame β) (ps gs : List (Obj β)) (A : List (Nat × Nat)) : ℤ :=
  (A.map fun x =>
    match F.predSubset[x.1]?, F.gtSubset[x.2]? with
    | some a, some b =>
      match ps[a]?, gs[b]? with
      | some p, some g => millionths F p g
      | _, _ => 0
    | _, _ => 0).sum

section Bridge
variable {F : Frame β} {ps gs : List (Obj β)}

theorem roundHalfAway_bounds {x : ℚ} (h0 : 0 ≤ x) {n : ℤ} (h1 : x ≤ n) :
    0 ≤ roundHalfAway x ∧ roundHalfAway x ≤ n := by
  unfold roundHalfAway
  rw [if_pos h0]
  constructor
  · exact Int.floor_nonneg.mpr (by linarith)
  · have : ⌊x + 1 / 2⌋ < n + 1 := by
      rw [Int.floor_lt]; push_cast; linarith
    omega

theorem millionths_bounds (h : Usable F ps gs) {p g : Obj β} (hp : p ∈ ps) (hg : g ∈ gs) :
    0 ≤ millionths F p g ∧ millionths F p g ≤ 1000000 := by
  obtain ⟨a1, a2⟩ := h.iou01 p hp g hg
  obtain ⟨b1, b2⟩ := h.aff01 p hp g hg
  have hb : 0 ≤ benefit F p g ∧ benefit F p g ≤ 1 := by
    unfold benefit
    split_ifs
    · exact ⟨mul_nonneg a1 b1, by nlinarith⟩
    · simpa using ⟨a1, a2⟩
  exact roundHalfAway_bounds (by linarith) (by push_cast; linarith)

theorem plainIou_eq (h : Usable F ps gs) {a b : Nat} {p g : Obj β} (ha : ps[a]? = some p)
    (hb : gs[b]? = some g) : plainIou F a b = some (similarity F p g) := by
  have h1 := h.iou01 p (List.mem_of_getElem? ha) g (List.mem_of_getElem? hb)
  simp only [plainIou, fetch, h.preds, h.gts, ha, hb, Option.bind_eq_bind, Option.bind_some, pure]
  unfold similarity at h1 ⊢
  unfold freshIou
  by_cases ht : p.type = g.type
  · simp only [ht, if_true] at h1
    simp only [ht, ne_eq, not_true_eq_false, if_false, if_true]
    cases hc : F.customIou with
    | none => rw [hc] at h1; simp only [Option.getD_none] at h1 ⊢; rw [if_pos h1]; rfl
    | some f => rw [hc] at h1; simp only [Option.getD_some] at h1 ⊢; rw [if_pos h1]; rfl
  · simp only [ht, ne_eq, not_false_eq_true, if_true, if_false]
    rw [if_pos (by norm_num)]; rfl

theorem plainAff_eq (h : Usable F ps gs) {a b : Nat} {p g : Obj β} (ha : ps[a]? = some p)
    (hb : gs[b]? = some g) : plainAff F a b = some (affinity F p g) := by
  have h1 := h.aff01 p (List.mem_of_getElem? ha) g (List.mem_of_getElem? hb)
  simp only [plainAff, fetch, h.preds, h.gts, ha, hb, Option.bind_eq_bind, Option.bind_some, pure]
  unfold affinity at h1 ⊢
  cases hc : F.customAff with
  | none => rfl
  | some f =>
    rw [hc] at h1
    simp only at h1 ⊢
    unfold freshAff
    by_cases ht : p.type = g.type
    · simp only [ht, if_true] at h1
      simp only [ht, ne_eq, not_true_eq_false, if_false, if_true, h1, and_self]
      rfl
    · simp only [ht, ne_eq, not_false_eq_true, if_true, if_false]; rfl

/-- Index-level eligibility. -/
def canIdx (F : Frame β) (ps gs : List (Obj β)) (a b : Nat) : Bool :=
  match ps[a]?, gs[b]? with
  | some p, some g => decide (Eligible F p g)
  | _, _ => false

/-- Index-level weight. -/
def wIdx (F : Frame β) (ps gs : List (Obj β)) (a b : Nat) : ℤ :=
  match ps[a]?, gs[b]? with
  | some p, some g => millionths F p g
  | _, _ => 0

theorem canMatch_eq (h : Usable F ps gs) {a b : Nat} (ha : a ∈ F.predSubset) (hb : b ∈ F.gtSubset) :
    canMatch (plainPrims F) F a b = some (canIdx F ps gs a b) := by
  obtain ⟨p, hp, ht, hl⟩ := h.psub a ha
  obtain ⟨g, hg⟩ : ∃ g, gs[b]? = some g := ⟨_, List.getElem?_eq_getElem (h.gsub b hb)⟩
  have hthr : threshold (m := Option) F p.type = some (F.thresholds.getD p.type 0) := by
    unfold threshold
    rw [List.getD, List.getElem?_eq_getElem hl]; rfl
  have hf : fetch (m := Option) F.preds a = some p := by simp [fetch, h.preds, hp]
  have e1 := plainIou_eq h hp hg
  have e2 := plainAff_eq h hp hg
  unfold canMatch
  simp only [hf, Option.bind_eq_bind, Option.bind_some, if_neg ht, plainPrims, e1, e2, hthr, canIdx, hp, hg]
  by_cases hlet : F.letFns = true
  · rw [if_pos hlet]
    by_cases h0 : affinity F p g = 0
    · rw [if_pos h0]
      have : ¬ Eligible F p g := fun he => he.2 hlet h0
      simp [this]
    · rw [if_neg h0]
      have : Eligible F p g ↔ ¬ similarity F p g < F.thresholds.getD p.type 0 := by
        simp only [Eligible, hlet, not_lt]
        exact ⟨fun h => h.1, fun h => ⟨h, fun _ => h0⟩⟩
      simp only [this, pure, decide_not]
  · rw [if_neg hlet]
    have : Eligible F p g ↔ ¬ similarity F p g < F.thresholds.getD p.type 0 := by
      simp only [Eligible, hlet, not_lt]; simp
    simp only [this, pure, decide_not]

theorem matchingWeight_eq (h : Usable F ps gs) {a b : Nat} (ha : a < ps.length) (hb : b < gs.length) :
    matchingWeight (plainPrims F) F a b = some (wIdx F ps gs a b) := by
  have hp : ps[a]? = some ps[a] := List.getElem?_eq_getElem ha
  have hg : gs[b]? = some gs[b] := List.getElem?_eq_getElem hb
  have e1 := plainIou_eq h hp hg
  have e2 := plainAff_eq h hp hg
  unfold matchingWeight
  simp only [plainPrims, e1, e2, Option.bind_eq_bind, Option.bind_some, wIdx, hp, hg, millionths, benefit, quantize]
  by_cases hlet : F.letFns = true
  · simp [hlet]
  · simp [hlet]

theorem psub_lt (h : Usable F ps gs) : ∀ a ∈ F.predSubset, a < ps.length := by
  intro a ha
  obtain ⟨o, ho, _⟩ := h.psub a ha
  exact lt_of_getElem? ho

theorem posCan_iff (x : Nat × Nat) : posCan F.predSubset F.gtSubset (canIdx F ps gs) x ↔
    ∃ p g, ObjectsAt F ps gs x.1 x.2 p g ∧ Eligible F p g := by
  constructor
  · rintro ⟨a, b, h1, h2, h3⟩
    unfold canIdx at h3
    cases hp : ps[a]? with
    | none => rw [hp] at h3; cases h3
    | some p =>
      cases hg : gs[b]? with
      | none => rw [hp, hg] at h3; cases h3
      | some g =>
        rw [hp, hg] at h3
        exact ⟨p, g, ⟨a, b, h1, h2, hp, hg⟩, of_decide_eq_true h3⟩
  · rintro ⟨p, g, ⟨a, b, h1, h2, hp, hg⟩, he⟩
    refine ⟨a, b, h1, h2, ?_⟩
    simp only [canIdx, hp, hg]
    exact decide_eq_true he

theorem posW_sum (A : List (Nat × Nat)) :
    (A.map (posW F.predSubset F.gtSubset (wIdx F ps gs))).sum = totalMillionths F ps gs A := rfl

end Bridge

/-- A matcher state reached from a fresh matcher by some history of calls. -/
def Reachable (s : Matcher β) : Prop :=
  ∃ (F0 : Frame β) (ops : List (Op β)) (outs : List Out), run ops { frame := F0 } = some (outs, s)

theorem Reachable.good {s : Matcher β} (h : Reachable s) : Good s.frame s := by
  obtain ⟨F0, ops, outs, hr⟩ := h
  have := run_refines ops F0 _ (good_fresh F0)
  cases hs : specRun ops F0 with
  | none => rw [hs] at this; simp only at this; rw [this] at hr; cases hr
  | some r =>
    rw [hs] at this
    simp only at this
    obtain ⟨s', h1, h2⟩ := this
    rw [h1] at hr
    simp only [Option.some.injEq, Prod.mk.injEq] at hr
    obtain ⟨-, rfl⟩ := hr
    have hF := h2.1
    rw [hF]
    exact h2

/-- C10. After any history of calls, on objects and functions that meet the documented requirements,
`HungarianMatcher::Match` does not abort; it returns two mutually inverse partial maps of the sizes of
the subsets; they list a one-to-one set of eligible pairs; and no other one-to-one set of eligible pairs
has a larger total rounded benefit. -/
theorem hungarianMatch_optimal (s : Matcher β) (hs : Reachable s) (ps gs : List (Obj β))
    (h : Usable s.frame ps gs) :
    ∃ pm gm s', step .hungarianMatch s = some (.pairs (pm, gm), s') ∧
      pm.length = s.frame.predSubset.length ∧ gm.length = s.frame.gtSubset.length ∧
      (∀ i j : Nat, pm[i]? = some (some j) ↔ gm[j]? = some (some i)) ∧
      LegalMatching s.frame ps gs (pairsOf pm) ∧
      ∀ A, LegalMatching s.frame ps gs A →
        totalMillionths s.frame ps gs A ≤ totalMillionths s.frame ps gs (pairsOf pm) := by
  obtain ⟨pm, gm, h1, h2, h3, h4, h5, h6⟩ := hungarianMatch_core (F := s.frame) (P := plainPrims s.frame)
    (can := canIdx s.frame ps gs) (w := wIdx s.frame ps gs)
    (fun a ha b hb => canMatch_eq h ha hb)
    (fun a ha b hb _ => matchingWeight_eq h (psub_lt h a ha) (h.gsub b hb))
    (fun a ha b hb => by
      have hp : ps[a]? = some (ps[a]'(psub_lt h a ha)) := List.getElem?_eq_getElem (psub_lt h a ha)
      have hg : gs[b]? = some (gs[b]'(h.gsub b hb)) := List.getElem?_eq_getElem (h.gsub b hb)
      simp only [wIdx, hp, hg]
      exact millionths_bounds h (List.mem_of_getElem? hp) (List.mem_of_getElem? hg))
  have hst := step_refines .hungarianMatch s.frame s hs.good
  simp only [specStep, h1, Option.map_some] at hst
  obtain ⟨s', hst, _⟩ := hst
  refine ⟨pm, gm, s', hst, h2, h3, h4, ⟨pairsOf_fst_nodup pm, ?_, ?_⟩, ?_⟩
  · -- distinct ground truths
    have : (pairsOf pm).Nodup := List.Nodup.of_map _ (pairsOf_fst_nodup pm)
    refine List.Nodup.map_on ?_ this
    rintro ⟨i, j⟩ hx ⟨i', j'⟩ hy he
    simp only at he
    subst he
    rw [mem_pairsOf] at hx hy
    have a1 := (h4 _ _).mp hx
    have a2 := (h4 _ _).mp hy
    rw [a1] at a2
    simpa using a2
  · rintro ⟨i, j⟩ hx
    exact (posCan_iff _).mp (h5 i j (mem_pairsOf.mp hx))
  · rintro A ⟨hA1, hA2, hA3⟩
    exact h6 A hA1 hA2 (fun a ha => (posCan_iff a).mpr (hA3 a ha))

/-- C10. With positive thresholds a matched pair has equal types. -/
theorem eligible_same_type (F : Frame β) (p g : Obj β) (hthr : 0 < F.thresholds.getD p.type 0)
    (h : Eligible F p g) : p.type = g.type := by
  by_contra hne
  have := h.1
  simp only [similarity, if_neg hne] at this
  linarith

/-- The limit of `eligible_same_type`: with a threshold of zero, objects of different types are matched. -/
theorem zero_threshold_matches_other_type :
    let F : Frame Nat :=
      ⟨[0, 0, 0], fun _ _ => 1, none, none, false, some [⟨1, 0, 1⟩], some [⟨2, 0, 1⟩], [0], [0]⟩
    (hungarianMatch (cachedPrims Nat) F { frame := F }).map (fun r => r.1.1) = some [some 0] := by
  decide +kernel

/-- C11, what holds for every pair of subsets. `ScoreFirstMatcher::Match` called with empty vectors
does not abort and returns two mutually inverse partial maps; every matched pair is eligible; a
prediction stays unmatched only if every ground truth eligible for it was taken by predictions that
come before it in the score order. -/
theorem scoreFirstMatch_partial (s : Matcher β) (hs : Reachable s) (ps gs : List (Obj β))
    (h : Usable s.frame ps gs) (hp : s.frame.predSubset.Nodup) (hg : s.frame.gtSubset.Nodup)
    (order : List Nat) (ho : ScoreOrder s.frame order) :
    ∃ pm gm s', step (.scoreFirstMatch order ([], [])) s = some (.pairs (pm, gm), s') ∧
      pm.length = s.frame.predSubset.length ∧ gm.length = s.frame.gtSubset.length ∧
      (∀ i j : Nat, pm[i]? = some (some j) ↔ gm[j]? = some (some i)) ∧
      (∀ i j : Nat, pm[i]? = some (some j) → ∃ p g, ObjectsAt s.frame ps gs i j p g ∧ Eligible s.frame p g) ∧
      ∀ before i after, order = before ++ i :: after → pm[i]? = some none →
        ∀ j p g, ObjectsAt s.frame ps gs i j p g → Eligible s.frame p g →
          ∃ i' ∈ before, pm[i']? = some (some j) := by
  have hpl : s.frame.predSubset.length ≤ ps.length := by
    have := (hp.subperm (l₂ := List.range ps.length)
      (fun a ha => List.mem_range.mpr (psub_lt h a ha))).length_le
    simpa using this
  have hgl : s.frame.gtSubset.length ≤ gs.length := by
    have := (hg.subperm (l₂ := List.range gs.length)
      (fun a ha => List.mem_range.mpr (h.gsub a ha))).length_le
    simpa using this
  obtain ⟨⟨pm, gm⟩, h1, h2⟩ := scoreFirst_core (F := s.frame) (P := plainPrims s.frame)
    (can := canIdx s.frame ps gs) (wt := wIdx s.frame ps gs)
    (fun a ha b hb => canMatch_eq h ha hb)
    (fun i hi j hj => matchingWeight_eq h (by omega) (by omega))
    (fun i hi j hj => by
      have hp : ps[i]? = some (ps[i]'(by omega)) := List.getElem?_eq_getElem (by omega)
      have hg : gs[j]? = some (gs[j]'(by omega)) := List.getElem?_eq_getElem (by omega)
      simp only [wIdx, hp, hg]
      exact (millionths_bounds h (List.mem_of_getElem? hp) (List.mem_of_getElem? hg)).1)
    ho.1
  have hst := step_refines (.scoreFirstMatch order ([], [])) s.frame s hs.good
  simp only [specStep, h1, Option.map_some] at hst
  obtain ⟨s', hst, _⟩ := hst
  have hgreedy : ∀ before i after, order = before ++ i :: after →
      GreedyAt s.frame.predSubset s.frame.gtSubset (canIdx s.frame ps gs) (wIdx s.frame ps gs) pm before i :=
    h2.greedy
  refine ⟨pm, gm, s', hst, h2.len1, h2.len2, h2.inv, ?_, ?_⟩
  · intro i j hij
    have hi : i ∈ order := by
      by_contra hc
      exact h2.fresh i hc j hij
    obtain ⟨o1, o2, he⟩ := List.append_of_mem hi
    rcases hgreedy o1 i o2 he with ⟨j', a1, a2, a3, a4⟩ | ⟨a1, _⟩
    · rw [hij] at a1
      simp only [Option.some.injEq] at a1
      subst a1
      exact (posCan_iff _).mp a3
    · rw [hij] at a1; cases a1
  · intro before i after he hn j p g hobj hel
    rcases hgreedy before i after he with ⟨j', a1, _⟩ | ⟨_, a2⟩
    · rw [hn] at a1; cases a1
    · by_contra hc
      push Not at hc
      obtain ⟨a, b, b1, b2, b3, b4⟩ := hobj
      exact a2 j ⟨lt_of_getElem? b2, hc⟩ ((posCan_iff (i, j)).mpr ⟨p, g, ⟨a, b, b1, b2, b3, b4⟩, hel⟩)

/-- C11, when the subsets are all predictions and all ground truths in their order: each prediction, in
the order of scores, gets the ground truth with the largest rounded benefit among those left, or none if
no eligible one is left.  For other subsets this is false, see `scoreFirstMatch_violated`. -/
theorem scoreFirstMatch_all_partial (s : Matcher β) (hs : Reachable s) (ps gs : List (Obj β))
    (h : Usable s.frame ps gs) (hp : s.frame.predSubset = List.range ps.length)
    (hg : s.frame.gtSubset = List.range gs.length) (order : List Nat) (ho : ScoreOrder s.frame order) :
    ∃ pm gm s', step (.scoreFirstMatch order ([], [])) s = some (.pairs (pm, gm), s') ∧
      ∀ before i after, order = before ++ i :: after → ∀ p : Obj β, ps[i]? = some p →
        (∃ j g, pm[i]? = some (some j) ∧ (∀ i' ∈ before, pm[i']? ≠ some (some j)) ∧ gs[j]? = some g ∧
            Eligible s.frame p g ∧
            ∀ (j' : Nat) (g' : Obj β), gs[j']? = some g' → (∀ i' ∈ before, pm[i']? ≠ some (some j')) →
              Eligible s.frame p g' → millionths s.frame p g' ≤ millionths s.frame p g) ∨
          (pm[i]? = some none ∧ ∀ (j' : Nat) (g' : Obj β), gs[j']? = some g' →
            (∀ i' ∈ before, pm[i']? ≠ some (some j')) → ¬ Eligible s.frame p g') := by
  have hpl : s.frame.predSubset.length = ps.length := by rw [hp]; simp
  have hgl : s.frame.gtSubset.length = gs.length := by rw [hg]; simp
  obtain ⟨⟨pm, gm⟩, h1, h2⟩ := scoreFirst_core (F := s.frame) (P := plainPrims s.frame)
    (can := canIdx s.frame ps gs) (wt := wIdx s.frame ps gs)
    (fun a ha b hb => canMatch_eq h ha hb)
    (fun i hi j hj => matchingWeight_eq h (by omega) (by omega))
    (fun i hi j hj => by
      have hp : ps[i]? = some (ps[i]'(by omega)) := List.getElem?_eq_getElem (by omega)
      have hg : gs[j]? = some (gs[j]'(by omega)) := List.getElem?_eq_getElem (by omega)
      simp only [wIdx, hp, hg]
      exact (millionths_bounds h (List.mem_of_getElem? hp) (List.mem_of_getElem? hg)).1)
    ho.1
  have hst := step_refines (.scoreFirstMatch order ([], [])) s.frame s hs.good
  simp only [specStep, h1, Option.map_some] at hst
  obtain ⟨s', hst, _⟩ := hst
  refine ⟨pm, gm, s', hst, ?_⟩
  intro before i after he p hpi
  have hobj : ∀ (j : Nat) (g : Obj β), gs[j]? = some g → ObjectsAt s.frame ps gs i j p g := by
    intro j g hj
    refine ⟨i, j, ?_, ?_, hpi, hj⟩
    · rw [hp, List.getElem?_range (lt_of_getElem? hpi)]
    · rw [hg, List.getElem?_range (lt_of_getElem? hj)]
  have hobj' : ∀ (j : Nat) (p' g : Obj β), ObjectsAt s.frame ps gs i j p' g → p' = p ∧ gs[j]? = some g := by
    rintro j p' g ⟨a, b, b1, b2, b3, b4⟩
    rw [hp, List.getElem?_range (lt_of_getElem? hpi)] at b1
    have hjl : j < gs.length := by rw [← hgl]; exact lt_of_getElem? b2
    rw [hg, List.getElem?_range hjl] at b2
    cases b1; cases b2
    rw [hpi] at b3; cases b3
    exact ⟨rfl, b4⟩
  rcases h2.greedy before i after he with ⟨j, a1, a2, a3, a4⟩ | ⟨a1, a2⟩
  · left
    obtain ⟨p', g, b1, b2⟩ := (posCan_iff (i, j)).mp a3
    obtain ⟨rfl, hgj⟩ := hobj' j p' g b1
    refine ⟨j, g, a1, a2.2, hgj, b2, ?_⟩
    intro j' g' hj' hfree hel
    have := a4 j' ⟨by rw [hgl]; exact lt_of_getElem? hj', hfree⟩
      ((posCan_iff (i, j')).mpr ⟨p', g', hobj j' g' hj', hel⟩)
    simpa only [wIdx, hpi, hgj, hj'] using this
  · right
    refine ⟨a1, ?_⟩
    intro j' g' hj' hfree hel
    exact a2 j' ⟨by rw [hgl]; exact lt_of_getElem? hj', hfree⟩
      ((posCan_iff (i, j')).mpr ⟨p, g', hobj j' g' hj', hel⟩)

/-- Witness objects: the prediction of the subset overlaps ground truth `1` fully and ground truth `2`
by half; an unrelated prediction `0` overlaps ground truth `1` but not ground truth `0`. -/
def badFrame : Frame Nat :=
  { thresholds := [0, 1 / 4],
    defaultIou := fun a b => match a, b with
      | 1, 11 => 1
      | 1, 12 => 1 / 2
      | 0, 11 => 1 / 3
      | _, _ => 0,
    preds := some [⟨1, 0, 1⟩, ⟨1, 1, 1⟩], gts := some [⟨1, 10, 1⟩, ⟨1, 11, 1⟩, ⟨1, 12, 1⟩],
    predSubset := [1], gtSubset := [1, 2] }

/-- C11 is false of the code for proper subsets: the weight is looked up at the subset positions
(matcher.cc:283-285), so the only prediction of the subset is matched with the second ground truth of
the subset although the first one is free, eligible and has twice the IoU. -/
theorem scoreFirstMatch_violated :
    (scoreFirstMatch (cachedPrims Nat) badFrame [0] ([], []) { frame := badFrame }).map (fun r => r.1) =
        some ([some 1], [none, some 0]) ∧
      similarity badFrame ⟨1, 1, 1⟩ ⟨1, 11, 1⟩ = 1 ∧ similarity badFrame ⟨1, 1, 1⟩ ⟨1, 12, 1⟩ = 1 / 2 := by
  decide +kernel

/-- The requirements are met by `badFrame`, and the Hungarian matcher picks the better pair. -/
example : Usable badFrame [⟨1, 0, 1⟩, ⟨1, 1, 1⟩] [⟨1, 10, 1⟩, ⟨1, 11, 1⟩, ⟨1, 12, 1⟩] := by
  refine ⟨rfl, rfl, by decide +kernel, by decide +kernel, ?_, ?_⟩
  · simp only [List.mem_cons, List.not_mem_nil, or_false]
    rintro p (rfl | rfl) g (rfl | rfl | rfl) <;> decide +kernel
  · simp only [List.mem_cons, List.not_mem_nil, or_false]
    rintro p (rfl | rfl) g (rfl | rfl | rfl) <;> decide +kernel

example : (hungarianMatch (cachedPrims Nat) badFrame { frame := badFrame }).map (fun r => r.1) =
    some ([some 0], [some 0, none]) := by
  decide +kernel

/-- `ScoreFirstMatcher::Match` only resizes the vectors it is given; entries left from an earlier call
block ground truths (matcher.cc:259-260). -/
theorem scoreFirstMatch_stale_output :
    let F : Frame Nat :=
      ⟨[0, 1 / 4], fun _ _ => 1, none, none, false, some [⟨1, 0, 1⟩], some [⟨1, 0, 1⟩], [0], [0]⟩
    (scoreFirstMatch (cachedPrims Nat) F [0] ([], [some 7]) { frame := F }).map (fun r => r.1) =
      some ([none], [some 7]) := by
  decide +kernel

end Verif.Matcher
