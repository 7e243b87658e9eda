import Verif.Model.Motion
import Mathlib.Tactic.Linarith
import Mathlib.Tactic.Positivity
import Mathlib.Tactic.FieldSimp
import Mathlib.Tactic.Ring
import Mathlib.Tactic.NormNum
import Mathlib.Algebra.BigOperators.Intervals

/-!
C27: the mean average precision of the motion metrics.
-/

namespace Verif.Motion

/-! ### Specification

For predictions in descending order of confidence (false positives first among equals), the precision at position `j` is
the share of true positives among the first `j + 1`, the interpolated precision at `k` is the best precision at `k` or
later, and the average precision is the sum of the interpolated precisions at the true positives over the number of
ground truth trajectories. -/

/-- The number of true positives. -/
def tpCount (l : List Sample) : ℕ := l.countP (·.tp)

/-- Precision at position `j`. -/
noncomputable def precisionAt (l : List Sample) (j : ℕ) : ℝ := (tpCount (l.take (j + 1)) : ℝ) / ((j : ℝ) + 1)

/-- The best precision at position `k` or later. -/
noncomputable def interpolated (l : List Sample) (k : ℕ) : ℝ :=
  ((List.range' k (l.length - k)).map (precisionAt l)).foldr max 0

/-- A position is a true positive. -/
def isTp (l : List Sample) (k : ℕ) : Prop := ∃ s, l[k]? = some s ∧ s.tp = true

open Classical in
/-- Average precision of predictions in the given order for `n` ground truth trajectories. -/
noncomputable def apSpec (l : List Sample) (n : ℕ) : ℝ :=
  (∑ k ∈ Finset.range l.length, if isTp l k then interpolated l k else 0) / n

/-- Predictions in descending order of confidence, false positives first among equals. -/
def Ordered (l : List Sample) : Prop :=
  l.Pairwise fun a b => b.conf ≤ a.conf ∧ (a.conf = b.conf → a.tp = true → b.tp = true)

/-! ### Sorting -/

theorem before_iff (a b : Sample) :
    Sample.before a b ↔ b.conf ≤ a.conf ∧ (a.conf = b.conf → a.tp = true → b.tp = true) := by
  unfold Sample.before
  constructor
  · rintro (h | ⟨h, h'⟩)
    · exact ⟨h.le, fun e => absurd e (ne_of_gt h)⟩
    · exact ⟨h.ge, fun _ => h'⟩
  · rintro ⟨h, h'⟩
    rcases h.lt_or_eq with h | h
    · exact Or.inl h
    · exact Or.inr ⟨h.symm, h' h.symm⟩

instance before_total : Std.Total Sample.before := ⟨fun a b => by
  rw [before_iff, before_iff]
  rcases lt_trichotomy a.conf b.conf with h | h | h
  · exact Or.inr ⟨h.le, fun e => absurd e (ne_of_gt h)⟩
  · cases ha : a.tp
    · exact Or.inl ⟨h.ge, fun _ h => by simp at h⟩
    · exact Or.inr ⟨h.le, fun _ _ => rfl⟩
  · exact Or.inl ⟨h.le, fun e => absurd e (ne_of_gt h)⟩⟩

instance before_trans : IsTrans Sample Sample.before := ⟨fun a b c => by
  rw [before_iff, before_iff, before_iff]
  rintro ⟨h1, h2⟩ ⟨h3, h4⟩
  refine ⟨h3.trans h1, fun e t => ?_⟩
  have e1 : a.conf = b.conf := le_antisymm (by rw [e]; exact h3) h1
  exact h4 (e1 ▸ e) (h2 e1 t)⟩

instance before_antisymm : Std.Antisymm Sample.before := ⟨fun a b => by
  rw [before_iff, before_iff]
  rintro ⟨h1, h2⟩ ⟨h3, h4⟩
  have e : a.conf = b.conf := le_antisymm h3 h1
  have h2 := h2 e
  have h4 := h4 e.symm
  have ht : a.tp = b.tp := by
    cases h5 : a.tp <;> cases h6 : b.tp <;> simp_all
  cases a; cases b
  simp only at e ht
  rw [e, ht]⟩

open Classical in
theorem sortSamples_perm (l : List Sample) : (sortSamples l).Perm l := List.perm_insertionSort _ l

open Classical in
theorem sortSamples_pairwise (l : List Sample) : (sortSamples l).Pairwise Sample.before :=
  List.pairwise_insertionSort _ l

theorem sortSamples_ordered (l : List Sample) : Ordered (sortSamples l) :=
  (sortSamples_pairwise l).imp fun h => (before_iff _ _).mp h

/-- The order of `Ordered` is unique. -/
theorem eq_of_ordered {l l' : List Sample} (h : Ordered l) (h' : Ordered l') (hp : l.Perm l') : l = l' :=
  List.Perm.eq_of_pairwise (le := Sample.before)
    (fun a b _ _ h1 h2 => before_antisymm.antisymm a b h1 h2)
    (h.imp fun h => (before_iff _ _).mpr h) (h'.imp fun h => (before_iff _ _).mpr h) hp

theorem sortSamples_eq_of_perm {l l' : List Sample} (h : l.Perm l') : sortSamples l = sortSamples l' :=
  eq_of_ordered (sortSamples_ordered l) (sortSamples_ordered l')
    ((sortSamples_perm l).trans (h.trans (sortSamples_perm l').symm))

/-! ### The area under the curve -/

/-- Best precision of the samples `l`, `tps` of `i` samples before them are true positives. -/
noncomputable def maxPrec : List Sample → ℕ → ℕ → ℝ
  | [], _, _ => 0
  | s :: rest, i, tps =>
    let tps := if s.tp then tps + 1 else tps
    max ((tps : ℝ) / (i + 1)) (maxPrec rest (i + 1) tps)

/-- Sum of the interpolated precisions at the true positives. -/
noncomputable def sumPrec : List Sample → ℕ → ℕ → ℝ
  | [], _, _ => 0
  | s :: rest, i, tps =>
    (if s.tp then maxPrec (s :: rest) i tps else 0) + sumPrec rest (i + 1) (if s.tp then tps + 1 else tps)

theorem maxPrec_cons (s : Sample) (rest : List Sample) (i tps : ℕ) : maxPrec (s :: rest) i tps =
    max (((if s.tp then tps + 1 else tps : ℕ) : ℝ) / (i + 1)) (maxPrec rest (i + 1) (if s.tp then tps + 1 else tps)) :=
  rfl

theorem sumPrec_cons (s : Sample) (rest : List Sample) (i tps : ℕ) : sumPrec (s :: rest) i tps =
    (if s.tp then maxPrec (s :: rest) i tps else 0) + sumPrec rest (i + 1) (if s.tp then tps + 1 else tps) := rfl

theorem maxPrec_nonneg (l : List Sample) : ∀ i tps, 0 ≤ maxPrec l i tps := by
  induction l with
  | nil => intro i tps; exact le_refl _
  | cons s rest ih => intro i tps; exact le_max_of_le_right (ih _ _)

/-- The loop over the reversed curve, as a fold from the right. -/
theorem areaLoop_append (a b : List (ℝ × ℝ)) (st : (ℝ × ℝ) × ℝ) :
    areaLoop (a ++ b) st = areaLoop b (areaLoop a st) := by
  induction a generalizing st with
  | nil => rfl
  | cons p rest ih => exact ih _

theorem prLoop_ne_nil (n : ℕ) (s : Sample) (rest : List Sample) (i tps : ℕ) : prLoop n (s :: rest) i tps ≠ [] := by
  simp [prLoop]

/-- Invariant of the loop: the highest point has the best precision, and the area with the rectangle up to the recall
before the suffix is the sum of the interpolated precisions. -/
theorem areaLoop_prLoop (n : ℕ) (hn : n ≠ 0) : ∀ (l : List Sample) (i tps : ℕ) (p : ℝ × ℝ), l ≠ [] →
    (prLoop n l i tps).getLast? = some p →
    (areaLoop (prLoop n l i tps).reverse (p, 0)).1.2 = maxPrec l i tps ∧
      (areaLoop (prLoop n l i tps).reverse (p, 0)).2 +
        (areaLoop (prLoop n l i tps).reverse (p, 0)).1.2 *
          ((areaLoop (prLoop n l i tps).reverse (p, 0)).1.1 - (tps : ℝ) / n) = sumPrec l i tps / n := by
  intro l
  induction l with
  | nil => intro i tps p h; exact absurd rfl h
  | cons s rest ih =>
    intro i tps p _ hp
    set tps' := if s.tp then tps + 1 else tps with ht
    have hcons : prLoop n (s :: rest) i tps = ((tps' : ℝ) / n, (tps' : ℝ) / (i + 1)) :: prLoop n rest (i + 1) tps' := rfl
    rw [hcons, List.reverse_cons, areaLoop_append]
    have hn' : (n : ℝ) ≠ 0 := by exact_mod_cast hn
    have hstep : (tps' : ℝ) / n - (tps : ℝ) / n = (if s.tp then 1 else 0) / n := by
      rw [ht]; cases s.tp
      · simp
      · simp only [if_true]; push_cast; ring
    have hq : (0 : ℝ) ≤ (tps' : ℝ) / (i + 1) := by positivity
    rcases rest with _ | ⟨s2, rest2⟩
    · rw [hcons] at hp
      simp only [prLoop, List.getLast?_singleton, Option.some.injEq] at hp
      subst hp
      simp only [prLoop, List.reverse_nil, areaLoop, gt_iff_lt, lt_irrefl, if_false, maxPrec, sumPrec]
      refine ⟨(max_eq_left hq).symm, ?_⟩
      rw [hstep, ← ht, max_eq_left hq]
      cases s.tp
      · simp
      · simp only [if_true]; ring
    · have hlast : (prLoop n (s2 :: rest2) (i + 1) tps').getLast? = some p := by
        rw [hcons] at hp
        rw [← hp]
        exact (List.getLast?_cons_of_ne_nil (prLoop_ne_nil n s2 rest2 _ _)).symm
      obtain ⟨h1, h2⟩ := ih (i + 1) tps' p (by simp) hlast
      generalize hst : areaLoop (prLoop n (s2 :: rest2) (i + 1) tps').reverse (p, 0) = st at h1 h2
      have hM : maxPrec (s :: s2 :: rest2) i tps = max ((tps' : ℝ) / (i + 1)) (maxPrec (s2 :: rest2) (i + 1) tps') := rfl
      have hS : sumPrec (s :: s2 :: rest2) i tps =
        (if s.tp then maxPrec (s :: s2 :: rest2) i tps else 0) + sumPrec (s2 :: rest2) (i + 1) tps' := rfl
      rw [hS, hM, ← h1]
      simp only [areaLoop, gt_iff_lt]
      by_cases hc : st.1.2 < (tps' : ℝ) / (i + 1)
      · rw [if_pos hc]
        refine ⟨(max_eq_left hc.le).symm, ?_⟩
        rw [max_eq_left hc.le, add_div, ← h2, hstep]
        cases s.tp
        · simp
        · simp only [if_true]; ring
      · rw [if_neg hc]
        push Not at hc
        refine ⟨(max_eq_right hc).symm, ?_⟩
        rw [max_eq_right hc, add_div, ← h2]
        have : st.1.1 - (tps : ℝ) / n = (st.1.1 - (tps' : ℝ) / n) + (if s.tp then 1 else 0) / n := by
          rw [← hstep]; ring
        rw [this]
        cases s.tp
        · simp
        · simp only [if_true]; ring

theorem averagePrecision_sum {b : PStats} (hs : b.samples ≠ []) (hn : b.num ≠ 0) :
    averagePrecision b = some (sumPrec (sortSamples b.samples) 0 0 / b.num) := by
  unfold averagePrecision
  rw [if_neg hs, if_neg hn]
  have hne : sortSamples b.samples ≠ [] := by
    intro h
    have := sortSamples_perm b.samples
    rw [h] at this
    exact hs this.symm.eq_nil
  have hcne : prCurve b.samples b.num ≠ [] := by
    unfold prCurve
    obtain ⟨s, rest, he⟩ := List.exists_cons_of_ne_nil hne
    rw [he]
    exact prLoop_ne_nil _ _ _ _ _
  obtain ⟨p, rest, he⟩ := List.exists_cons_of_ne_nil (l := (prCurve b.samples b.num).reverse) (by simpa using hcne)
  rw [he]
  have hlast : (prLoop b.num (sortSamples b.samples) 0 0).getLast? = some p := by
    have : (prCurve b.samples b.num) = (p :: rest).reverse := by rw [← he, List.reverse_reverse]
    unfold prCurve at this
    rw [this]
    simp
  obtain ⟨_, h2⟩ := areaLoop_prLoop b.num hn _ 0 0 p hne hlast
  have he' : (prLoop b.num (sortSamples b.samples) 0 0).reverse = p :: rest := he
  rw [he'] at h2
  simp only [Nat.cast_zero, zero_div, sub_zero] at h2
  simp only
  rw [← h2, mul_comm (areaLoop (p :: rest) (p, 0)).1.1]

/-! ### Closed form -/

theorem tpCount_append (a b : List Sample) : tpCount (a ++ b) = tpCount a + tpCount b := List.countP_append

theorem tpCount_snoc (a : List Sample) (s : Sample) : tpCount (a ++ [s]) = if s.tp then tpCount a + 1 else tpCount a := by
  rw [tpCount_append]
  unfold tpCount
  cases h : s.tp <;> simp [h]

theorem maxPrec_interpolated (suf : List Sample) : ∀ pre : List Sample,
    maxPrec suf pre.length (tpCount pre) = interpolated (pre ++ suf) pre.length := by
  induction suf with
  | nil => intro pre; simp [maxPrec, interpolated]
  | cons s rest ih =>
    intro pre
    have h := ih (pre ++ [s])
    rw [List.append_assoc, List.singleton_append] at h
    have hl : (pre ++ [s]).length = pre.length + 1 := by simp
    rw [hl, tpCount_snoc] at h
    have hr : interpolated (pre ++ s :: rest) pre.length =
        max (precisionAt (pre ++ s :: rest) pre.length) (interpolated (pre ++ s :: rest) (pre.length + 1)) := by
      unfold interpolated
      have : (pre ++ s :: rest).length - pre.length = rest.length + 1 := by simp
      rw [this]
      have : (pre ++ s :: rest).length - (pre.length + 1) = rest.length := by simp; omega
      rw [this, List.range'_succ]
      rfl
    rw [hr, ← h, maxPrec_cons]
    congr 1
    unfold precisionAt
    have : (pre ++ s :: rest).take (pre.length + 1) = pre ++ [s] := by
      rw [List.take_append]; simp
    rw [this, tpCount_snoc]

open Classical in
theorem sumPrec_closed (suf : List Sample) : ∀ pre : List Sample,
    sumPrec suf pre.length (tpCount pre) =
      ∑ k ∈ Finset.Ico pre.length (pre ++ suf).length, if isTp (pre ++ suf) k then interpolated (pre ++ suf) k else 0 := by
  induction suf with
  | nil => intro pre; simp [sumPrec]
  | cons s rest ih =>
    intro pre
    have h := ih (pre ++ [s])
    rw [List.append_assoc, List.singleton_append] at h
    have hl : (pre ++ [s]).length = pre.length + 1 := by simp
    rw [hl, tpCount_snoc] at h
    rw [Finset.sum_eq_sum_Ico_succ_bot (by simp), ← h]
    rw [sumPrec_cons]
    congr 1
    rw [maxPrec_interpolated]
    have : isTp (pre ++ s :: rest) pre.length ↔ s.tp = true := by
      unfold isTp
      simp
    simp only [this]

/-- C27: the metric of a bucket is the average precision of its samples in descending order of confidence. -/
theorem averagePrecision_spec {b : PStats} {l : List Sample} (hs : b.samples ≠ []) (hn : b.num ≠ 0)
    (hl : Ordered l) (hp : l.Perm b.samples) : averagePrecision b = some (apSpec l b.num) := by
  rw [averagePrecision_sum hs hn,
    eq_of_ordered (sortSamples_ordered _) hl ((sortSamples_perm _).trans hp.symm)]
  have := sumPrec_closed l []
  simp only [List.length_nil, List.nil_append, tpCount, List.countP_nil] at this
  rw [this]
  unfold apSpec
  rw [Finset.range_eq_Ico]

/-- Such an order exists. -/
theorem exists_ordered (l : List Sample) : ∃ l', Ordered l' ∧ l'.Perm l :=
  ⟨sortSamples l, sortSamples_ordered l, sortSamples_perm l⟩

/-- C27: the interpolated precision is the greatest precision from a position on. -/
theorem interpolated_isGreatest (l : List Sample) (k : ℕ) (hk : k < l.length) :
    IsGreatest {p | ∃ j, k ≤ j ∧ j < l.length ∧ p = precisionAt l j} (interpolated l k) := by
  have key : ∀ (n k : ℕ), 0 < n → IsGreatest {p | ∃ j, k ≤ j ∧ j < k + n ∧ p = precisionAt l j}
      (((List.range' k n).map (precisionAt l)).foldr max 0) := by
    intro n
    induction n with
    | zero => intro k h; exact absurd h (lt_irrefl _)
    | succ n ih =>
      intro k _
      rw [List.range'_succ, List.map_cons, List.foldr_cons]
      have hnn : 0 ≤ precisionAt l k := by unfold precisionAt; positivity
      rcases Nat.eq_zero_or_pos n with h0 | h0
      · subst h0
        simp only [List.range'_zero, List.map_nil, List.foldr_nil, max_eq_left hnn]
        refine ⟨⟨k, le_refl _, by omega, rfl⟩, ?_⟩
        rintro p ⟨j, h1, h2, rfl⟩
        have : j = k := by omega
        rw [this]
      · obtain ⟨⟨j, h1, h2, h3⟩, hub⟩ := ih (k + 1) h0
        constructor
        · rcases le_total (precisionAt l k) (((List.range' (k + 1) n).map (precisionAt l)).foldr max 0) with h | h
          · rw [max_eq_right h]; exact ⟨j, by omega, by omega, h3⟩
          · rw [max_eq_left h]; exact ⟨k, le_refl _, by omega, rfl⟩
        · rintro p ⟨j, h1, h2, rfl⟩
          rcases Nat.eq_or_lt_of_le h1 with h | h
          · rw [← h]; exact le_max_left _ _
          · exact le_max_of_le_right (hub ⟨j, by omega, by omega, rfl⟩)
  have := key (l.length - k) k (by omega)
  rw [show k + (l.length - k) = l.length by omega] at this
  exact this

/-! ### Bounds -/

theorem maxPrec_le_one (l : List Sample) : ∀ i tps, tps ≤ i → maxPrec l i tps ≤ 1 := by
  induction l with
  | nil => intro i tps _; simp [maxPrec]
  | cons s rest ih =>
    intro i tps h
    rw [maxPrec_cons]
    have ht : (if s.tp then tps + 1 else tps) ≤ i + 1 := by split <;> omega
    refine max_le ?_ (ih _ _ ht)
    rw [div_le_one (by positivity)]
    exact_mod_cast ht

theorem sumPrec_bounds (l : List Sample) : ∀ i tps, tps ≤ i → 0 ≤ sumPrec l i tps ∧ sumPrec l i tps ≤ tpCount l := by
  induction l with
  | nil => intro i tps _; simp [sumPrec, tpCount]
  | cons s rest ih =>
    intro i tps h
    have ht : (if s.tp then tps + 1 else tps) ≤ i + 1 := by split <;> omega
    obtain ⟨h1, h2⟩ := ih _ _ ht
    have h3 := maxPrec_le_one (s :: rest) i tps h
    have h4 := maxPrec_nonneg (s :: rest) i tps
    rw [sumPrec_cons]
    have hc : (tpCount (s :: rest) : ℝ) = (if s.tp then 1 else 0) + tpCount rest := by
      unfold tpCount
      rw [List.countP_cons]
      cases s.tp
      · simp
      · simp; ring
    rw [hc]
    generalize sumPrec rest (i + 1) (if s.tp then tps + 1 else tps) = q at h1 h2
    cases s.tp
    · simp only [Bool.false_eq_true, if_false]
      exact ⟨by linarith, by linarith⟩
    · simp only [if_true]
      exact ⟨by linarith, by linarith⟩

/-- C27: the metric lies between 0 and the recall, hence at most 1 when there are at most as many true positives as
trajectories. -/
theorem averagePrecision_bounds {b : PStats} {v : ℝ} (h : averagePrecision b = some v)
    (htp : tpCount b.samples ≤ b.num) : 0 ≤ v ∧ v ≤ (tpCount b.samples : ℝ) / b.num ∧ v ≤ 1 := by
  by_cases hs : b.samples = []
  · unfold averagePrecision at h
    rw [if_pos hs] at h
    cases h
    refine ⟨le_refl _, by positivity, zero_le_one⟩
  · have hn : b.num ≠ 0 := by
      intro hn
      unfold averagePrecision at h
      rw [if_neg hs, if_pos hn] at h
      simp at h
    rw [averagePrecision_sum hs hn] at h
    cases h
    have hc : tpCount (sortSamples b.samples) = tpCount b.samples := (sortSamples_perm b.samples).countP_eq _
    obtain ⟨h1, h2⟩ := sumPrec_bounds (sortSamples b.samples) 0 0 (le_refl _)
    rw [hc] at h2
    have hn' : (0 : ℝ) < b.num := by exact_mod_cast Nat.pos_of_ne_zero hn
    refine ⟨by positivity, (div_le_div_iff_of_pos_right hn').mpr h2, ?_⟩
    rw [div_le_one hn']
    exact h2.trans (by exact_mod_cast htp)

/-- C27: the metric does not depend on the order in which samples were accumulated. -/
theorem averagePrecision_perm {a b : PStats} (h : a.samples.Perm b.samples) (hn : a.num = b.num) :
    averagePrecision a = averagePrecision b := by
  by_cases hs : a.samples = []
  · have hb : b.samples = [] := by rw [hs] at h; exact h.symm.eq_nil
    unfold averagePrecision
    rw [if_pos hs, if_pos hb]
  · have hb : b.samples ≠ [] := by intro hb; rw [hb] at h; exact hs h.eq_nil
    by_cases h0 : a.num = 0
    · unfold averagePrecision
      rw [if_neg hs, if_neg hb, if_pos h0, if_pos (hn ▸ h0)]
    · rw [averagePrecision_sum hs h0, averagePrecision_sum hb (hn ▸ h0), sortSamples_eq_of_perm h, hn]

/-! ### Removing false positives -/

theorem maxPrec_anti (l : List Sample) : ∀ i i' tps, i ≤ i' → maxPrec l i' tps ≤ maxPrec l i tps := by
  induction l with
  | nil => intro i i' tps _; exact le_refl _
  | cons s rest ih =>
    intro i i' tps h
    refine max_le_max ?_ (ih _ _ _ (by omega))
    have h' : (i : ℝ) ≤ i' := by exact_mod_cast h
    gcongr

theorem sumPrec_anti (l : List Sample) : ∀ i i' tps, i ≤ i' → sumPrec l i' tps ≤ sumPrec l i tps := by
  induction l with
  | nil => intro i i' tps _; exact le_refl _
  | cons s rest ih =>
    intro i i' tps h
    rw [sumPrec_cons, sumPrec_cons]
    refine add_le_add ?_ (ih _ _ _ (by omega))
    split
    · exact maxPrec_anti _ _ _ _ h
    · exact le_refl _

theorem maxPrec_remove (fp : Sample) (hfp : fp.tp = false) (b : List Sample) : ∀ (a : List Sample) (i tps : ℕ), 0 < i →
    maxPrec (a ++ fp :: b) i tps ≤ max ((tps : ℝ) / i) (maxPrec (a ++ b) i tps) := by
  intro a
  induction a with
  | nil =>
    intro i tps hi
    simp only [List.nil_append, maxPrec, hfp, Bool.false_eq_true, if_false]
    refine max_le_max ?_ (maxPrec_anti b i (i + 1) tps (by omega))
    have : (0 : ℝ) < i := by exact_mod_cast hi
    gcongr
    linarith
  | cons s rest ih =>
    intro i tps hi
    have := ih (i + 1) (if s.tp then tps + 1 else tps) (by omega)
    simp only [List.cons_append, maxPrec]
    simp only [Nat.cast_add, Nat.cast_one] at this
    refine le_max_of_le_right (max_le (le_max_left _ _) this)

theorem sumPrec_remove (fp : Sample) (hfp : fp.tp = false) (b : List Sample) : ∀ (a : List Sample) (i tps : ℕ),
    sumPrec (a ++ fp :: b) i tps ≤ sumPrec (a ++ b) i tps := by
  intro a
  induction a with
  | nil =>
    intro i tps
    simp only [List.nil_append, sumPrec, hfp, Bool.false_eq_true, if_false, zero_add]
    exact sumPrec_anti b i (i + 1) tps (by omega)
  | cons s rest ih =>
    intro i tps
    simp only [List.cons_append]
    rw [sumPrec_cons, sumPrec_cons]
    refine add_le_add ?_ (ih _ _)
    split
    · rename_i hs
      have := maxPrec_remove fp hfp b rest (i + 1) (if s.tp then tps + 1 else tps) (by omega)
      simp only [maxPrec]
      simp only [Nat.cast_add, Nat.cast_one] at this
      exact max_le (le_max_left _ _) this
    · exact le_refl _

/-- Adding false positives never raises the sum. -/
theorem sumPrec_sort_remove (fps l : List Sample) (h : ∀ s ∈ fps, s.tp = false) :
    sumPrec (sortSamples (fps ++ l)) 0 0 ≤ sumPrec (sortSamples l) 0 0 := by
  induction fps with
  | nil => exact le_refl _
  | cons fp fps ih =>
    refine le_trans ?_ (ih fun s hs => h s (List.mem_cons_of_mem _ hs))
    have hm : fp ∈ sortSamples (fp :: fps ++ l) := (sortSamples_perm _).mem_iff.mpr (by simp)
    obtain ⟨a, b, he⟩ := List.append_of_mem hm
    have hp : (a ++ b).Perm (fps ++ l) := by
      have h1 : (fp :: (a ++ b)).Perm (fp :: (fps ++ l)) := by
        refine List.perm_middle.symm.trans ?_
        rw [← he]
        exact sortSamples_perm _
      exact h1.cons_inv
    have ho : Ordered (a ++ b) := by
      have := sortSamples_ordered (fp :: fps ++ l)
      rw [he] at this
      refine List.Pairwise.sublist ?_ this
      exact List.Sublist.append_left (List.sublist_cons_self fp b) a
    rw [he, ← eq_of_ordered ho (sortSamples_ordered _) (hp.trans (sortSamples_perm _).symm)]
    exact sumPrec_remove fp (h fp (by simp)) b a 0 0

/-- C27: leaving out false positives never lowers the metric. -/
theorem averagePrecision_remove {a b : PStats} {fps : List Sample} (hp : a.samples.Perm (fps ++ b.samples))
    (hfp : ∀ s ∈ fps, s.tp = false) (hn : a.num = b.num) {va vb : ℝ} (ha : averagePrecision a = some va)
    (hb : averagePrecision b = some vb) : va ≤ vb := by
  by_cases hs : b.samples = []
  · have hvb : vb = 0 := by
      unfold averagePrecision at hb
      rw [if_pos hs] at hb
      simpa using hb.symm
    rw [hs, List.append_nil] at hp
    have h0 : tpCount a.samples = 0 := by
      unfold tpCount
      rw [List.countP_eq_zero]
      intro s h
      rw [hfp s (hp.mem_iff.mp h)]
      simp
    have := averagePrecision_bounds ha (by omega)
    rw [h0] at this
    simp only [Nat.cast_zero, zero_div] at this
    linarith [this.2.1]
  · have has : a.samples ≠ [] := by
      intro h
      rw [h] at hp
      have := hp.symm.eq_nil
      simp only [List.append_eq_nil_iff] at this
      exact hs this.2
    have hn0 : b.num ≠ 0 := by
      intro h0
      unfold averagePrecision at hb
      rw [if_neg hs, if_pos h0] at hb
      simp at hb
    rw [averagePrecision_sum has (hn ▸ hn0)] at ha
    rw [averagePrecision_sum hs hn0] at hb
    cases ha
    cases hb
    rw [hn, sortSamples_eq_of_perm hp]
    have := sumPrec_sort_remove fps b.samples hfp
    gcongr

/-! ### The samples of a prediction -/

/-- The samples of measured predictions in their order: `(confidence, match)` pairs. -/
def labelled (soft : Bool) : List (ℝ × Bool) → Bool → List Sample
  | [], _ => []
  | (cf, isM) :: rest, found =>
    (if soft then (if isM && found then [] else [⟨cf, isM⟩]) else [⟨cf, if found then false else isM⟩]) ++
      labelled soft rest (found || isM)

/-- The measured predictions. -/
def measured (f : Joint → Option Bool) (l : List Joint) : List (ℝ × Bool) :=
  l.filterMap fun j => (f j).map fun b => (j.conf, b)

theorem sampleLoop_eq {match' : Joint → Res (Option Bool)} {f : Joint → Option Bool} (soft : Bool) :
    ∀ (l : List Joint) (found : Bool), (∀ j ∈ l, match' j = .ok (f j)) →
    sampleLoop match' soft l found = .ok (labelled soft (measured f l) found, !(measured f l).isEmpty) := by
  intro l
  induction l with
  | nil => intro found _; rfl
  | cons j rest ih =>
    intro found h
    have hj := h j (by simp)
    have hr := fun b => ih b fun j hj => h j (List.mem_cons_of_mem _ hj)
    simp only [sampleLoop, hj]
    cases hf : f j with
    | none =>
      have : measured f (j :: rest) = measured f rest := by simp [measured, hf]
      rw [this]
      exact hr found
    | some b =>
      have : measured f (j :: rest) = (j.conf, b) :: measured f rest := by simp [measured, hf]
      rw [this]
      simp only [bind, Except.bind, hr, labelled]
      rfl

theorem labelled_found_tp (soft : Bool) (l : List (ℝ × Bool)) : ∀ s ∈ labelled soft l true, s.tp = false := by
  induction l with
  | nil => intro s h; simp [labelled] at h
  | cons p rest ih =>
    obtain ⟨cf, isM⟩ := p
    intro s h
    simp only [labelled, Bool.true_or, List.mem_append] at h
    rcases h with h | h
    · cases soft <;> cases isM <;> simp at h <;> rw [h]
    · exact ih s h

/-- C27: at most one sample of a prediction is a true positive, and there is one exactly when some measured prediction
matches. -/
theorem labelled_tpCount (soft : Bool) (l : List (ℝ × Bool)) :
    tpCount (labelled soft l false) = if l.any (·.2) then 1 else 0 := by
  induction l with
  | nil => rfl
  | cons p rest ih =>
    obtain ⟨cf, isM⟩ := p
    cases isM
    · simp only [labelled, Bool.false_or, List.any_cons]
      rw [tpCount_append, ih]
      cases soft <;> simp [tpCount]
    · simp only [labelled, Bool.or_true, List.any_cons, Bool.true_or, if_true]
      rw [tpCount_append]
      have : tpCount (labelled soft rest true) = 0 := by
        unfold tpCount
        rw [List.countP_eq_zero]
        intro s hs
        rw [labelled_found_tp soft rest s hs]
        simp
      rw [this]
      cases soft <;> simp [tpCount]

theorem labelled_hard_found (l : List (ℝ × Bool)) :
    labelled false l true = l.map fun p => (⟨p.1, false⟩ : Sample) := by
  induction l with
  | nil => rfl
  | cons p rest ih =>
    obtain ⟨cf, isM⟩ := p
    simp [labelled, ih]

theorem labelled_soft_found (l : List (ℝ × Bool)) :
    labelled true l true = (l.filter fun p => !p.2).map fun p => (⟨p.1, false⟩ : Sample) := by
  induction l with
  | nil => rfl
  | cons p rest ih =>
    obtain ⟨cf, isM⟩ := p
    cases isM <;> simp [labelled, ih]

theorem labelled_no_match (soft : Bool) (l r : List (ℝ × Bool)) (h : ∀ p ∈ l, p.2 = false) :
    labelled soft (l ++ r) false = (l.map fun p => (⟨p.1, false⟩ : Sample)) ++ labelled soft r false := by
  induction l with
  | nil => rfl
  | cons p rest ih =>
    obtain ⟨cf, isM⟩ := p
    have hb : isM = false := h (cf, isM) (by simp)
    subst hb
    have := ih fun p hp => h p (List.mem_cons_of_mem _ hp)
    cases soft <;> simp [labelled, this]

theorem exists_first_match (l : List (ℝ × Bool)) (h : l.any (·.2) = true) :
    ∃ a cf b, l = a ++ (cf, true) :: b ∧ ∀ p ∈ a, p.2 = false := by
  induction l with
  | nil => simp at h
  | cons p rest ih =>
    obtain ⟨cf, isM⟩ := p
    cases isM
    · obtain ⟨a, cf', b, he, ha⟩ := ih (by simpa using h)
      refine ⟨(cf, false) :: a, cf', b, by rw [he]; rfl, ?_⟩
      intro p hp
      rcases List.mem_cons.mp hp with rfl | hp
      · rfl
      · exact ha p hp
    · exact ⟨[], cf, rest, rfl, by simp⟩

/-- The first match in descending order has the greatest confidence of all matches. -/
theorem first_match_greatest {a b : List (ℝ × Bool)} {cf : ℝ} (h : (a ++ (cf, true) :: b).Pairwise fun p q => q.1 ≤ p.1)
    (ha : ∀ p ∈ a, p.2 = false) : ∀ p ∈ a ++ (cf, true) :: b, p.2 = true → p.1 ≤ cf := by
  intro p hp hm
  rcases List.mem_append.mp hp with hp | hp
  · rw [ha p hp] at hm; exact absurd hm (by simp)
  · rcases List.mem_cons.mp hp with rfl | hp
    · exact le_refl _
    · have := (List.pairwise_append.mp h).2.1
      exact (List.pairwise_cons.mp this).1 p hp

/-- C27: the order in which a sort leaves predictions of equal confidence does not change the samples. -/
theorem labelled_ties (soft : Bool) {l l' : List (ℝ × Bool)} (hp : l.Perm l') (h : l.Pairwise fun p q => q.1 ≤ p.1)
    (h' : l'.Pairwise fun p q => q.1 ≤ p.1) : (labelled soft l false).Perm (labelled soft l' false) := by
  by_cases hany : l.any (·.2) = true
  · have hany' : l'.any (·.2) = true := by rw [← hany]; exact (hp.any_eq).symm
    obtain ⟨a, cf, b, he, ha⟩ := exists_first_match l hany
    obtain ⟨a', cf', b', he', ha'⟩ := exists_first_match l' hany'
    have hcf : cf = cf' := by
      apply le_antisymm
      · rw [he'] at h'
        refine first_match_greatest h' ha' (cf, true) ?_ rfl
        rw [← he', ← hp.mem_iff, he]; simp
      · rw [he] at h
        refine first_match_greatest h ha (cf', true) ?_ rfl
        rw [← he, hp.mem_iff, he']; simp
    subst hcf
    have hab : (a ++ b).Perm (a' ++ b') := by
      rw [he, he'] at hp
      exact (List.perm_middle.symm.trans (hp.trans List.perm_middle)).cons_inv
    rw [he, he', labelled_no_match soft a _ ha, labelled_no_match soft a' _ ha']
    have hcons : ∀ b : List (ℝ × Bool), labelled soft ((cf, true) :: b) false = ⟨cf, true⟩ :: labelled soft b true := by
      intro b; cases soft <;> rfl
    rw [hcons, hcons]
    refine List.perm_middle.trans (List.Perm.trans (List.Perm.cons _ ?_) List.perm_middle.symm)
    cases soft
    · rw [labelled_hard_found, labelled_hard_found, ← List.map_append, ← List.map_append]
      exact hab.map _
    · rw [labelled_soft_found, labelled_soft_found, ← List.map_append, ← List.map_append]
      have hf : ∀ a : List (ℝ × Bool), (∀ p ∈ a, p.2 = false) → a.filter (fun p => !p.2) = a := by
        intro a h
        rw [List.filter_eq_self]
        intro p hp
        rw [h p hp]; rfl
      have hflt := hab.filter (fun p => !p.2)
      rw [List.filter_append, List.filter_append, hf a ha, hf a' ha'] at hflt
      exact hflt.map _
  · have hno : ∀ p ∈ l, p.2 = false := by
      intro p hpm
      cases hb : p.2
      · rfl
      · exact absurd (List.any_eq_true.mpr ⟨p, hpm, hb⟩) hany
    have hno' : ∀ p ∈ l', p.2 = false := fun p hpm => hno p (hp.mem_iff.mpr hpm)
    have e := labelled_no_match soft l [] hno
    have e' := labelled_no_match soft l' [] hno'
    simp only [List.append_nil, labelled] at e e'
    rw [e, e']
    exact hp.map _

/-- C27: the soft variant drops false positives only: the further matches. -/
theorem labelled_soft_hard (l : List (ℝ × Bool)) (found : Bool) :
    ∃ fps : List Sample, (∀ s ∈ fps, s.tp = false) ∧
      (labelled false l found).Perm (fps ++ labelled true l found) := by
  induction l generalizing found with
  | nil => exact ⟨[], by simp, List.Perm.refl _⟩
  | cons p rest ih =>
    obtain ⟨cf, isM⟩ := p
    obtain ⟨fps, h1, h2⟩ := ih (found || isM)
    by_cases hd : (isM && found) = true
    · refine ⟨⟨cf, false⟩ :: fps, ?_, ?_⟩
      · intro s hs
        rcases List.mem_cons.mp hs with rfl | hs
        · rfl
        · exact h1 s hs
      · simp only [Bool.and_eq_true] at hd
        obtain ⟨rfl, rfl⟩ := hd
        simp only [labelled, Bool.false_eq_true, if_false, if_true, Bool.and_self, List.nil_append, List.cons_append,
          List.singleton_append]
        exact List.Perm.cons _ h2
    · refine ⟨fps, h1, ?_⟩
      have hf : (if found then false else isM) = isM := by cases found <;> cases isM <;> simp_all
      simp only [labelled, Bool.false_eq_true, if_false, if_true, hd, hf, List.singleton_append]
      exact (List.Perm.cons _ h2).trans List.perm_middle.symm

end Verif.Motion
