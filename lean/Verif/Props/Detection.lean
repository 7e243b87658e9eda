import Verif.Model.Detection
import Verif.Props.Measure
import Verif.Props.Breakdown
import Verif.Props.Matcher
import Mathlib.Data.Finset.Card
import Mathlib.Data.Finset.Range
import Mathlib.Algebra.Order.Ring.Rat

/-!
Properties C16 (detection counts), C61 (pairs with a low heading accuracy) and the shape of the measurements of a
frame.
-/

namespace Verif.Detection

open Verif.Breakdown Verif.Measure

variable {O ι : Type}

/-! ### Specification -/

/-- One evaluation: configuration, frame, generator, shard, subsets, level, cutoff and matching. -/
structure Eval (O ι : Type) where
  c : Config O
  x : Frame O ι
  g : Gen O
  shard : Nat
  ps : List Nat
  gs : List Nat
  level : Nat
  pm : List (Option Nat)
  gm : List (Option Nat)

variable (e : Eval O ι)

/-- The prediction at position `i` of the subset. -/
def Eval.pred (i : Nat) : Option (Item O ι) := (e.ps[i]?).bind fun a => e.x.preds[a]?

/-- The ground truth at position `j` of the subset. -/
def Eval.gt (j : Nat) : Option (Item O ι) := (e.gs[j]?).bind fun b => e.x.gts[b]?

/-- Value of a function of objects at a pair of positions. -/
def Eval.at (f : Nat → Nat → Option ℚ) (i j : Nat) : ℚ :=
  match e.ps[i]?, e.gs[j]? with
  | some a, some b => (f a b).getD 0
  | _, _ => 0

/-- Heading accuracy of a pair of positions. -/
def Eval.ha (i j : Nat) : ℚ := e.at (fun a b => some (e.x.ha a b)) i j

/-- Longitudinal affinity of a pair of positions; 1 without the LET metric. -/
def Eval.la (i j : Nat) : ℚ := e.at (fun a b => if e.c.letEnabled then e.x.aff a b else some 1) i j

/-- IoU of a pair of positions. -/
def Eval.iou (i j : Nat) : ℚ := e.at e.x.iou i j

/-- The ground truth is in the shard itself. -/
def Eval.Own (j : Nat) : Prop := ∃ o, e.gt j = some o ∧ e.g.shard o.core = some (e.shard : ℤ)

/-- The ground truth counts for this shard. -/
def Eval.Counts (j : Nat) : Prop := e.g.gtOnly = true → e.Own j

/-- A true positive: matched with a ground truth of the shard and with enough heading accuracy. -/
def Eval.TP (i j : Nat) : Prop :=
  e.pm[i]? = some (some j) ∧ e.Counts j ∧ e.c.minHeadingAccuracy < e.ha i j

/-- The last of the ground truths with the largest IoU, which is at least 0.01. -/
def Eval.Closest (i j : Nat) : Prop :=
  j < e.gs.length ∧ 1 / 100 ≤ e.iou i j ∧
    ∀ k, k < e.gs.length → e.iou i k ≤ e.iou i j ∧ (j < k → e.iou i k < e.iou i j)

/-- A false positive: not matched, not in a no-label zone and, for a breakdown of ground truths, not closest to
a ground truth of another shard. -/
def Eval.FP (i : Nat) : Prop :=
  e.pm[i]? = some none ∧ (∃ p, e.pred i = some p ∧ p.nlz = false) ∧
    ¬(e.g.gtOnly = true ∧ ∃ j, e.Closest i j ∧ ¬e.Own j)

/-- A false negative: a ground truth of the shard and level that is not matched. -/
def Eval.FN (j : Nat) : Prop :=
  e.gm[j]? = some none ∧ (∃ o, e.gt j = some o ∧ o.level ≤ e.level) ∧ e.Counts j

/-- The subsets and the matching are as `BuildSubsets` and `Match` deliver them. -/
structure Eval.Usable : Prop where
  preds : ∀ a ∈ e.ps, a < e.x.preds.length
  gts : ∀ b ∈ e.gs, b < e.x.gts.length
  shards : ∀ o ∈ e.x.gts, ∃ s, e.g.shard o.core = some s
  iou : ∀ a ∈ e.ps, ∀ b ∈ e.gs, ∃ v, e.x.iou a b = some v
  aff : e.c.letEnabled = true → ∀ a ∈ e.ps, ∀ b ∈ e.gs, ∃ v, e.x.aff a b = some v
  pmLen : e.pm.length = e.ps.length
  gmLen : e.gm.length = e.gs.length
  inv : ∀ i j : Nat, e.pm[i]? = some (some j) ↔ e.gm[j]? = some (some i)

/-- `measure` on an evaluation. -/
def Eval.run (cutoff : ℚ) : Option (Det (Details ι)) :=
  measure e.c e.x e.g e.shard e.ps e.gs e.level cutoff e.pm e.gm

/-! ### The loops -/

variable {e}

theorem Eval.Usable.predAt (h : e.Usable) {i : Nat} (hi : i < e.pm.length) :
    ∃ a p, e.ps[i]? = some a ∧ a ∈ e.ps ∧ e.x.preds[a]? = some p ∧ e.pred i = some p := by
  rw [h.pmLen] at hi
  have h1 : e.ps[i]? = some e.ps[i] := List.getElem?_eq_getElem hi
  have h2 := h.preds _ (List.getElem_mem hi)
  have h3 : e.x.preds[e.ps[i]]? = some (e.x.preds[e.ps[i]]) := List.getElem?_eq_getElem h2
  exact ⟨_, _, h1, List.getElem_mem hi, h3, by simp [Eval.pred, h1, h3]⟩

theorem Eval.Usable.gtAt (h : e.Usable) {j : Nat} (hj : j < e.gs.length) :
    ∃ b o, e.gs[j]? = some b ∧ b ∈ e.gs ∧ e.x.gts[b]? = some o ∧ e.gt j = some o := by
  have h1 : e.gs[j]? = some e.gs[j] := List.getElem?_eq_getElem hj
  have h2 := h.gts _ (List.getElem_mem hj)
  have h3 : e.x.gts[e.gs[j]]? = some (e.x.gts[e.gs[j]]) := List.getElem?_eq_getElem h2
  exact ⟨_, _, h1, List.getElem_mem hj, h3, by simp [Eval.gt, h1, h3]⟩

theorem Eval.Usable.matched_lt (h : e.Usable) {i j : Nat} (hm : e.pm[i]? = some (some j)) : j < e.gs.length := by
  rw [← h.gmLen]
  exact (List.getElem?_eq_some_iff.mp ((h.inv i j).mp hm)).1

open Classical in
theorem inBreakdown_eq (h : e.Usable) {j : Nat} (hj : j < e.gs.length) :
    inBreakdown e.x e.g e.shard e.gs j = some (decide (e.Own j)) := by
  obtain ⟨b, o, h1, -, h3, h4⟩ := h.gtAt hj
  obtain ⟨s, hs⟩ := h.shards o (List.mem_of_getElem? h3)
  unfold inBreakdown
  simp only [h1, h3, hs, Option.bind_eq_bind, Option.bind_some]
  have : e.Own j ↔ s = (e.shard : ℤ) := by
    unfold Eval.Own
    rw [h4]
    constructor
    · rintro ⟨o', e1, e2⟩
      cases e1
      rw [hs] at e2
      exact Option.some.inj e2
    · rintro rfl; exact ⟨o, rfl, hs⟩
  simp only [this]
  rfl

open Classical in
theorem countsM_eq (h : e.Usable) {j : Nat} (hj : j < e.gs.length) :
    counted e.x e.g e.shard e.gs j = some (decide (e.Counts j)) := by
  unfold Eval.Counts counted
  split_ifs with hg
  · rw [inBreakdown_eq h hj]; simp [hg]
  · simp [hg]

/-- What `FindGTWithLargestIoU` finds. -/
theorem largestIou_eq (h : e.Usable) {i a : Nat} (ha : e.ps[i]? = some a) :
    ∃ r, largestIou e.x e.gs a (1 / 100) = some r ∧ ∀ j, r = some j ↔ e.Closest i j := by
  have hiou : ∀ k b, e.gs[k]? = some b → e.x.iou a b = some (e.iou i k) := by
    intro k b hb
    obtain ⟨v, hv⟩ := h.iou a (List.mem_of_getElem? ha) b (List.mem_of_getElem? hb)
    rw [hv]; simp [Eval.iou, Eval.at, ha, hb, hv]
  have key : ∀ n, n ≤ e.gs.length → ∃ r v, (e.gs.zipIdx.take n).foldlM (largestStep e.x a) (none, 1 / 100) = some (r, v) ∧
      ((r = none ∧ v = 1 / 100 ∧ ∀ k < n, e.iou i k < 1 / 100) ∨
        ∃ j, r = some j ∧ v = e.iou i j ∧ j < n ∧ 1 / 100 ≤ e.iou i j ∧
          ∀ k, k < n → e.iou i k ≤ e.iou i j ∧ (j < k → e.iou i k < e.iou i j)) := by
    intro n
    induction n with
    | zero => intro _; exact ⟨none, 1 / 100, by simp, Or.inl ⟨rfl, rfl, by simp⟩⟩
    | succ n ih =>
      intro hn
      obtain ⟨r, v, h1, h2⟩ := ih (by omega)
      have hlt : n < e.gs.length := by omega
      have hb : e.gs[n]? = some e.gs[n] := List.getElem?_eq_getElem hlt
      have hz : e.gs.zipIdx[n]? = some (e.gs[n], n) := by rw [List.getElem?_zipIdx, hb]; simp
      have hstep : (e.gs.zipIdx.take (n + 1)).foldlM (largestStep e.x a) (none, 1 / 100) =
          largestStep e.x a (r, v) (e.gs[n], n) := by
        rw [List.take_add_one, hz, List.foldlM_append, h1]
        simp
      rw [hstep]
      unfold largestStep
      simp only [hiou n _ hb, Option.bind_eq_bind, Option.bind_some]
      by_cases hle : v ≤ e.iou i n
      · rw [if_pos hle]
        refine ⟨some n, e.iou i n, rfl, Or.inr ⟨n, rfl, rfl, by omega, ?_, ?_⟩⟩
        · rcases h2 with ⟨-, hv, -⟩ | ⟨j, -, hv, -, hj, -⟩ <;> rw [hv] at hle <;> linarith
        · intro k hk
          refine ⟨?_, fun hnk => by omega⟩
          rcases Nat.lt_or_ge k n with hkn | hkn
          · rcases h2 with ⟨-, hv, h3⟩ | ⟨j, -, hv, -, -, h3⟩
            · have := h3 k hkn; rw [hv] at hle; linarith
            · have := (h3 k hkn).1; rw [hv] at hle; linarith
          · have : k = n := by omega
            rw [this]
      · rw [if_neg hle]
        have hle := not_le.mp hle
        refine ⟨r, v, rfl, ?_⟩
        rcases h2 with ⟨hr, hv, h3⟩ | ⟨j, hr, hv, hj, h4, h3⟩
        · refine Or.inl ⟨hr, hv, ?_⟩
          intro k hk
          rcases Nat.lt_or_ge k n with hkn | hkn
          · exact h3 k hkn
          · have : k = n := by omega
            rw [this, ← hv]; exact hle
        · refine Or.inr ⟨j, hr, hv, by omega, h4, ?_⟩
          intro k hk
          rcases Nat.lt_or_ge k n with hkn | hkn
          · exact h3 k hkn
          · have : k = n := by omega
            rw [this, ← hv]; exact ⟨hle.le, fun _ => hle⟩
  obtain ⟨r, v, h1, h2⟩ := key e.gs.length (le_refl _)
  refine ⟨r, ?_, ?_⟩
  · unfold largestIou
    rw [List.take_of_length_le (by simp)] at h1
    rw [h1]; rfl
  · intro j
    rcases h2 with ⟨hr, -, h3⟩ | ⟨j', hr, -, hj', h4, h3⟩
    · rw [hr]
      constructor
      · intro hc; cases hc
      · rintro ⟨c1, c2, -⟩
        exact absurd (h3 j c1) (not_lt.mpr c2)
    · rw [hr]
      constructor
      · intro hc; cases hc; exact ⟨hj', h4, h3⟩
      · rintro ⟨c1, c2, c3⟩
        congr 1
        rcases Nat.lt_trichotomy j' j with hlt | heq | hlt
        · have := (h3 j c1).2 hlt
          have := (c3 j' hj').1
          linarith
        · exact heq
        · have := (c3 j' hj').2 hlt
          have := (h3 j c1).1
          linarith

/-- The id of the prediction at a position. -/
def Eval.pid (e : Eval O ι) (i : Nat) : Option ι := (e.pred i).map Item.id

/-- The id of the ground truth at a position. -/
def Eval.gid (e : Eval O ι) (j : Nat) : Option ι := (e.gt j).map Item.id

/-- The partner of a prediction. -/
def Eval.mate (e : Eval O ι) (i : Nat) : Nat := ((e.pm[i]?).join).getD 0

open Classical in
/-- The true positives among the first `n` positions. -/
noncomputable def Eval.tps (e : Eval O ι) (n : Nat) : List Nat :=
  (List.range n).filter fun i => decide (∃ j, e.TP i j)

open Classical in
/-- The false positives among the first `n` positions. -/
noncomputable def Eval.fps (e : Eval O ι) (n : Nat) : List Nat := (List.range n).filter fun i => decide (e.FP i)

open Classical in
/-- The false negatives among the first `n` positions. -/
noncomputable def Eval.fns (e : Eval O ι) (n : Nat) : List Nat := (List.range n).filter fun j => decide (e.FN j)

/-- Specification of the details: the ids of the objects that were counted, in the order of the subsets. -/
def Listed (e : Eval O ι) (tp fp fn : List Nat) (d : Details ι) : Prop :=
  d.fp.map some = fp.map e.pid ∧ d.fn.map some = fn.map e.gid ∧ d.tpPr.map some = tp.map e.pid ∧
    d.tpGt.map some = tp.map (fun i => e.gid (e.mate i)) ∧ d.tpIou = tp.map (fun i => e.iou i (e.mate i)) ∧
    d.tpHa = tp.map (fun i => e.ha i (e.mate i)) ∧ d.tpLa = tp.map fun i => e.la i (e.mate i)

/-- Counters and details agree with lists of positions. -/
structure Agrees (e : Eval O ι) (tp fp fn : List Nat) (r : Acc ι) : Prop where
  ntp : r.tp = tp.length
  nfp : r.fp = fp.length
  nfn : r.fn = fn.length
  ha : r.ha = (tp.map fun i => e.ha i (e.mate i)).sum
  la : r.la = (tp.map fun i => e.la i (e.mate i)).sum
  det : Listed e tp fp fn r.det

theorem tps_succ (n : Nat) : e.tps (n + 1) = e.tps n ++ (by classical exact if ∃ j, e.TP n j then [n] else []) := by
  classical
  unfold Eval.tps
  rw [List.range_succ, List.filter_append]
  congr 1
  by_cases h : ∃ j, e.TP n j <;> simp [h]

theorem fps_succ (n : Nat) : e.fps (n + 1) = e.fps n ++ (by classical exact if e.FP n then [n] else []) := by
  classical
  unfold Eval.fps
  rw [List.range_succ, List.filter_append]
  congr 1
  by_cases h : e.FP n <;> simp [h]

theorem fns_succ (n : Nat) : e.fns (n + 1) = e.fns n ++ (by classical exact if e.FN n then [n] else []) := by
  classical
  unfold Eval.fns
  rw [List.range_succ, List.filter_append]
  congr 1
  by_cases h : e.FN n <;> simp [h]

theorem predStep_ok (h : e.Usable) {n : Nat} (hn : n < e.pm.length) (r : Acc ι)
    (hr : Agrees e (e.tps n) (e.fps n) [] r) :
    ∃ r', predStep e.c e.x e.g e.shard e.ps e.gs r (e.pm[n], n) = some r' ∧
      Agrees e (e.tps (n + 1)) (e.fps (n + 1)) [] r' := by
  classical
  obtain ⟨a, p, h1, h2, h3, h4⟩ := h.predAt hn
  have hpm : e.pm[n]? = some e.pm[n] := List.getElem?_eq_getElem hn
  unfold predStep
  simp only [h1, h3, Option.bind_eq_bind, Option.bind_some]
  cases hm : e.pm[n] with
  | some j =>
    rw [hm] at hpm
    have hj := h.matched_lt hpm
    obtain ⟨b, o, g1, g2, g3, g4⟩ := h.gtAt hj
    have hnoFP : ¬ e.FP n := by rintro ⟨q, -⟩; rw [hpm] at q; cases q
    have hTP : (∃ j', e.TP n j') ↔ e.Counts j ∧ e.c.minHeadingAccuracy < e.ha n j := by
      constructor
      · rintro ⟨j', q1, q2, q3⟩
        rw [hpm] at q1
        cases q1
        exact ⟨q2, q3⟩
      · rintro ⟨q2, q3⟩; exact ⟨j, hpm, q2, q3⟩
    have hha : e.ha n j = e.x.ha a b := by simp [Eval.ha, Eval.at, h1, g1]
    simp only [countsM_eq h hj, Option.bind_some]
    rw [tps_succ, fps_succ, if_neg hnoFP, List.append_nil]
    by_cases hc : e.Counts j
    · simp only [hc, decide_true, if_true, g1, g3, Option.bind_some]
      by_cases hle : e.x.ha a b ≤ e.c.minHeadingAccuracy
      · rw [if_pos hle, if_neg (fun q => absurd (hTP.mp q).2 (by rw [hha]; exact not_lt.mpr hle)), List.append_nil]
        exact ⟨r, rfl, hr⟩
      · rw [if_neg hle, if_pos (hTP.mpr ⟨hc, by rw [hha]; exact not_le.mp hle⟩)]
        have hmate : e.mate n = j := by simp [Eval.mate, hpm]
        obtain ⟨v, hv⟩ := h.iou a h2 b g2
        have hv' : e.iou n j = v := by simp [Eval.iou, Eval.at, h1, g1, hv]
        obtain ⟨la, hla⟩ : ∃ la, affinity e.c e.x a b = some la := by
          unfold affinity
          split_ifs with hl
          · exact h.aff hl a h2 b g2
          · exact ⟨1, rfl⟩
        have hla' : e.la n j = la := by have q := hla; unfold affinity at q; simp [Eval.la, Eval.at, h1, g1, q]
        simp only [hla, hv, Option.bind_some]
        refine ⟨_, rfl, ?_⟩
        obtain ⟨r1, r2, r3, r4, r5, d1, d2, d3, d4, d5, d6, d7⟩ := hr
        have hpid : e.pid n = some p.id := by simp [Eval.pid, h4]
        have hgid : e.gid j = some o.id := by simp [Eval.gid, g4]
        refine ⟨?_, r2, r3, ?_, ?_, d1, d2, ?_, ?_, ?_, ?_, ?_⟩
        · simp [r1]
        · simp [r4, hmate, hha]
        · simp [r5, hmate, hla']
        · simp [d3, hpid]
        · simp [d4, hmate, hgid]
        · simp [d5, hmate, hv']
        · simp [d6, hmate, hha]
        · simp [d7, hmate, hla']
    · simp only [hc, decide_false, Bool.false_eq_true, if_false]
      rw [if_neg (fun q => hc (hTP.mp q).1), List.append_nil]
      exact ⟨r, rfl, hr⟩
  | none =>
    rw [hm] at hpm
    have hnoTP : ¬ ∃ j, e.TP n j := by rintro ⟨j, q, -⟩; rw [hpm] at q; cases q
    rw [tps_succ, fps_succ, if_neg hnoTP, List.append_nil]
    simp only
    by_cases hz : p.nlz = true
    · rw [if_pos hz, if_neg, List.append_nil]
      · exact ⟨r, rfl, hr⟩
      · rintro ⟨-, ⟨p', q1, q2⟩, -⟩
        rw [h4] at q1
        cases q1
        rw [hz] at q2
        cases q2
    · rw [if_neg hz]
      have hz' : p.nlz = false := by simpa using hz
      obtain ⟨q, hq1, hq2⟩ := largestIou_eq h h1
      have hother : elsewhere e.x e.g e.shard e.gs a =
          some (decide (e.g.gtOnly = true ∧ ∃ j, e.Closest n j ∧ ¬e.Own j)) := by
        unfold elsewhere
        split_ifs with hg
        · rw [hq1, Option.bind_some]
          cases q with
          | none =>
            simp only [hg, true_and, Option.some.injEq]
            symm
            rw [decide_eq_false_iff_not]
            rintro ⟨j, hj, -⟩
            exact absurd ((hq2 j).mpr hj) (by simp)
          | some j =>
            have hc := (hq2 j).mp rfl
            simp only [inBreakdown_eq h hc.1, Option.map_some, hg, true_and, Option.some.injEq]
            by_cases ho : e.Own j
            · simp only [ho, decide_true, Bool.not_true]
              symm
              rw [decide_eq_false_iff_not]
              rintro ⟨j', hj', hn'⟩
              have := (hq2 j').mpr hj'
              cases this
              exact hn' ho
            · simp only [ho, decide_false, Bool.not_false]
              symm
              rw [decide_eq_true_eq]
              exact ⟨j, hc, ho⟩
        · simp [hg]
      have hFP : e.FP n ↔ ¬(e.g.gtOnly = true ∧ ∃ j, e.Closest n j ∧ ¬e.Own j) :=
        ⟨fun q => q.2.2, fun q => ⟨hpm, ⟨p, h4, hz'⟩, q⟩⟩
      simp only [hother, Option.bind_some]
      by_cases hc : e.g.gtOnly = true ∧ ∃ j, e.Closest n j ∧ ¬e.Own j
      · rw [if_pos (by simpa using hc), if_neg (by rw [hFP]; exact fun q => q hc), List.append_nil]
        exact ⟨r, rfl, hr⟩
      · rw [if_neg (by simpa using hc), if_pos (hFP.mpr hc)]
        refine ⟨_, rfl, ?_⟩
        obtain ⟨r1, r2, r3, r4, r5, d1, d2, d3, d4, d5, d6, d7⟩ := hr
        have hpid : e.pid n = some p.id := by simp [Eval.pid, h4]
        refine ⟨r1, ?_, r3, r4, r5, ?_, d2, d3, d4, d5, d6, d7⟩
        · simp [r2]
        · simp [d1, hpid]

theorem gtStep_ok (h : e.Usable) {n : Nat} (hn : n < e.gm.length) (tp fp : List Nat) (r : Acc ι)
    (hr : Agrees e tp fp (e.fns n) r) :
    ∃ r', gtStep e.x e.g e.shard e.gs e.level r (e.gm[n], n) = some r' ∧ Agrees e tp fp (e.fns (n + 1)) r' := by
  classical
  have hgm : e.gm[n]? = some e.gm[n] := List.getElem?_eq_getElem hn
  have hlt : n < e.gs.length := by rw [← h.gmLen]; exact hn
  obtain ⟨b, o, g1, g2, g3, g4⟩ := h.gtAt hlt
  unfold gtStep
  rw [fns_succ]
  cases hm : e.gm[n] with
  | some i =>
    rw [hm] at hgm
    rw [if_neg (by rintro ⟨q, -⟩; rw [hgm] at q; cases q), List.append_nil]
    exact ⟨r, rfl, hr⟩
  | none =>
    rw [hm] at hgm
    simp only [g1, g3, Option.bind_eq_bind, Option.bind_some]
    have hFN : e.FN n ↔ o.level ≤ e.level ∧ e.Counts n := by
      constructor
      · rintro ⟨-, ⟨o', q1, q2⟩, q3⟩
        rw [g4] at q1
        cases q1
        exact ⟨q2, q3⟩
      · rintro ⟨q1, q2⟩; exact ⟨hgm, ⟨o, g4, q1⟩, q2⟩
    by_cases hl : o.level ≤ e.level
    · rw [if_pos hl, countsM_eq h hlt]
      simp only [Option.bind_some]
      by_cases hc : e.Counts n
      · simp only [hc, decide_true, if_true]
        rw [if_pos (hFN.mpr ⟨hl, hc⟩)]
        refine ⟨_, rfl, ?_⟩
        obtain ⟨r1, r2, r3, r4, r5, d1, d2, d3, d4, d5, d6, d7⟩ := hr
        have hgid : e.gid n = some o.id := by simp [Eval.gid, g4]
        refine ⟨r1, r2, ?_, r4, r5, d1, ?_, d3, d4, d5, d6, d7⟩
        · simp [r3]
        · simp [d2, hgid]
      · simp only [hc, decide_false, Bool.false_eq_true, if_false]
        rw [if_neg (fun q => hc (hFN.mp q).2), List.append_nil]
        exact ⟨r, rfl, hr⟩
    · rw [if_neg hl, if_neg (by rw [hFN]; exact fun q => hl q.1), List.append_nil]
      exact ⟨r, rfl, hr⟩

theorem foldlM_zipIdx {α σ : Type} (l : List α) (f : σ → α × Nat → Option σ) (P : Nat → σ → Prop) (s : σ)
    (h0 : P 0 s) (hs : ∀ n (hn : n < l.length) t, P n t → ∃ t', f t (l[n], n) = some t' ∧ P (n + 1) t') :
    ∃ t, l.zipIdx.foldlM f s = some t ∧ P l.length t := by
  have key : ∀ n, n ≤ l.length → ∃ t, (l.zipIdx.take n).foldlM f s = some t ∧ P n t := by
    intro n
    induction n with
    | zero => intro _; exact ⟨s, by simp, h0⟩
    | succ n ih =>
      intro hn
      obtain ⟨t, t1, t2⟩ := ih (by omega)
      obtain ⟨t', t3, t4⟩ := hs n (by omega) t t2
      refine ⟨t', ?_, t4⟩
      have hz : l.zipIdx[n]? = some (l[n], n) := by
        rw [List.getElem?_zipIdx, List.getElem?_eq_getElem (by omega)]; simp
      rw [List.take_add_one, hz, List.foldlM_append, t1]
      simpa using t3
  obtain ⟨t, t1, t2⟩ := key l.length (le_refl _)
  rw [List.take_of_length_le (by simp)] at t1
  exact ⟨t, t1, t2⟩

/-! ### C16 -/

/-- C16: the measurement counts exactly the true positives, false positives and false negatives of the
specification, adds up the heading accuracies and affinities of the true positives, and its details list the objects
that were counted. -/
theorem measure_spec (h : e.Usable) (cutoff : ℚ) :
    ∃ m d, e.run cutoff = some m ∧ m.tps = (e.tps e.pm.length).length ∧ m.fps = (e.fps e.pm.length).length ∧
      m.fns = (e.fns e.gm.length).length ∧ m.ha = ((e.tps e.pm.length).map fun i => e.ha i (e.mate i)).sum ∧
      m.la = ((e.tps e.pm.length).map fun i => e.la i (e.mate i)).sum ∧ m.cutoff = some cutoff ∧
      m.details = (if e.c.details then [d] else []) ∧
      Listed e (e.tps e.pm.length) (e.fps e.pm.length) (e.fns e.gm.length) d := by
  obtain ⟨r, r1, r2⟩ := foldlM_zipIdx e.pm (predStep e.c e.x e.g e.shard e.ps e.gs)
    (fun n r => Agrees e (e.tps n) (e.fps n) [] r) {}
    ⟨by simp [Eval.tps], by simp [Eval.fps], rfl, by simp [Eval.tps], by simp [Eval.tps], by
      simp [Listed, Eval.tps, Eval.fps]⟩
    (fun n hn t ht => predStep_ok h hn t ht)
  obtain ⟨r', r3, r4⟩ := foldlM_zipIdx e.gm (gtStep e.x e.g e.shard e.gs e.level)
    (fun n r => Agrees e (e.tps e.pm.length) (e.fps e.pm.length) (e.fns n) r) r
    (by simpa [Eval.fns] using r2) (fun n hn t ht => gtStep_ok h hn _ _ t ht)
  refine ⟨⟨r'.fp, r'.tp, r'.fn, r'.ha, r'.la, some cutoff, if e.c.details then [r'.det] else []⟩, r'.det, ?_, r4.ntp, r4.nfp, r4.nfn, r4.ha, r4.la, rfl, rfl, r4.det⟩
  unfold Eval.run measure
  rw [r1, Option.bind_eq_bind, Option.bind_some, r3]
  rfl

/-- Two disjoint filters of a range. -/
theorem length_filter_disjoint (n : Nat) (p q : Nat → Bool) (h : ∀ i, ¬(p i = true ∧ q i = true)) :
    ((List.range n).filter p).length + ((List.range n).filter q).length =
      ((List.range n).filter fun i => p i || q i).length := by
  induction n with
  | zero => rfl
  | succ n ih =>
    rw [List.range_succ, List.filter_append, List.filter_append, List.filter_append, List.length_append,
      List.length_append, List.length_append, ← ih]
    have := h n
    cases hp : p n <;> cases hq : q n <;> simp_all <;> omega

theorem length_filter_range_le (n : Nat) (p : Nat → Bool) : ((List.range n).filter p).length ≤ n := by
  simpa using List.length_filter_le p (List.range n)

/-- C16: true positives and false positives are different predictions of the subset. -/
theorem tp_fp_le (h : e.Usable) : (e.tps e.pm.length).length + (e.fps e.pm.length).length ≤ e.ps.length := by
  classical
  unfold Eval.tps Eval.fps
  rw [length_filter_disjoint, h.pmLen]
  · exact length_filter_range_le _ _
  · rintro i ⟨h1, h2⟩
    obtain ⟨j, h3, -⟩ := of_decide_eq_true h1
    obtain ⟨h4, -⟩ := of_decide_eq_true h2
    rw [h3] at h4
    cases h4

/-- Positions of matched predictions and of matched ground truths correspond. -/
theorem length_matched (pm gm : List (Option Nat)) (hinv : ∀ i j : Nat, pm[i]? = some (some j) ↔ gm[j]? = some (some i))
    (P : Nat → Nat → Prop) :
    (by classical exact ((List.range pm.length).filter fun i => decide (∃ j, pm[i]? = some (some j) ∧ P i j)).length) =
    (by classical exact ((List.range gm.length).filter fun j => decide (∃ i, gm[j]? = some (some i) ∧ P i j)).length) := by
  classical
  have conv : ∀ (n : Nat) (p : Nat → Bool), ((List.range n).filter p).length =
      ((Finset.range n).filter fun i => p i = true).card := by
    intro n p
    have : ((List.range n).filter p).toFinset = (Finset.range n).filter fun i => p i = true := by
      ext i; simp
    rw [← this, List.toFinset_card_of_nodup (List.nodup_range.filter _)]
  rw [conv, conv]
  refine Finset.card_bij' (fun i _ => ((pm[i]?).join).getD 0) (fun j _ => ((gm[j]?).join).getD 0) ?_ ?_ ?_ ?_
  · intro i hi
    simp only [Finset.mem_filter, Finset.mem_range, decide_eq_true_eq] at hi ⊢
    obtain ⟨-, j, h1, h2⟩ := hi
    have h3 := (hinv i j).mp h1
    simp only [h1, Option.join, Option.getD_some, Option.bind_some, id]
    exact ⟨(List.getElem?_eq_some_iff.mp h3).1, i, h3, h2⟩
  · intro j hj
    simp only [Finset.mem_filter, Finset.mem_range, decide_eq_true_eq] at hj ⊢
    obtain ⟨-, i, h1, h2⟩ := hj
    have h3 := (hinv i j).mpr h1
    simp only [h1, Option.join, Option.getD_some, Option.bind_some, id]
    exact ⟨(List.getElem?_eq_some_iff.mp h3).1, j, h3, h2⟩
  · intro i hi
    simp only [Finset.mem_filter, Finset.mem_range, decide_eq_true_eq] at hi
    obtain ⟨-, j, h1, h2⟩ := hi
    have h3 := (hinv i j).mp h1
    simp [h1, h3]
  · intro j hj
    simp only [Finset.mem_filter, Finset.mem_range, decide_eq_true_eq] at hj
    obtain ⟨-, i, h1, h2⟩ := hj
    have h3 := (hinv i j).mpr h1
    simp [h1, h3]

open Classical in
/-- C16: true positives and false negatives together are the ground truths of the shard that are matched with
enough heading accuracy, or not matched and within the level. -/
theorem tp_fn_eq (h : e.Usable) : (e.tps e.pm.length).length + (e.fns e.gm.length).length =
    ((List.range e.gs.length).filter fun j => decide (e.Counts j ∧
      ((∃ i, e.gm[j]? = some (some i) ∧ e.c.minHeadingAccuracy < e.ha i j) ∨
        (e.gm[j]? = some none ∧ ∃ o, e.gt j = some o ∧ o.level ≤ e.level)))).length := by
  have h1 : (e.tps e.pm.length).length = ((List.range e.gm.length).filter fun j =>
      decide (∃ i, e.gm[j]? = some (some i) ∧ (e.Counts j ∧ e.c.minHeadingAccuracy < e.ha i j))).length :=
    length_matched e.pm e.gm h.inv fun i j => e.Counts j ∧ e.c.minHeadingAccuracy < e.ha i j
  rw [h1]
  unfold Eval.fns
  rw [length_filter_disjoint, h.gmLen]
  · congr 1
    apply List.filter_congr
    intro j _
    rw [Bool.eq_iff_iff]
    simp only [Bool.or_eq_true, decide_eq_true_eq]
    constructor
    · rintro (⟨i, q1, q2, q3⟩ | ⟨q1, q2, q3⟩)
      · exact ⟨q2, Or.inl ⟨i, q1, q3⟩⟩
      · exact ⟨q3, Or.inr ⟨q1, q2⟩⟩
    · rintro ⟨q1, ⟨i, q2, q3⟩ | ⟨q2, q3⟩⟩
      · exact Or.inl ⟨i, q2, q1, q3⟩
      · exact Or.inr ⟨q2, q3, q1⟩
  · rintro j ⟨q1, q2⟩
    obtain ⟨i, q3, -⟩ := of_decide_eq_true q1
    obtain ⟨q4, -⟩ := of_decide_eq_true q2
    rw [q3] at q4
    cases q4

open Classical in
/-- C16: if no heading accuracy is below the configured minimum (the default minimum is -1), true positives and
false negatives together are the ground truths of the shard that are matched or within the level. -/
theorem tp_fn_eq_of_min (h : e.Usable) (hmin : ∀ i j, e.c.minHeadingAccuracy < e.ha i j) :
    (e.tps e.pm.length).length + (e.fns e.gm.length).length =
    ((List.range e.gs.length).filter fun j => decide (e.Counts j ∧
      ((∃ i, e.gm[j]? = some (some i)) ∨ ∃ o, e.gt j = some o ∧ o.level ≤ e.level))).length := by
  rw [tp_fn_eq h]
  congr 1
  apply List.filter_congr
  intro j hj
  rw [decide_eq_decide]
  have hlt : j < e.gm.length := by rw [h.gmLen]; exact List.mem_range.mp hj
  have hsome : e.gm[j]? = some e.gm[j] := List.getElem?_eq_getElem hlt
  constructor
  · rintro ⟨q1, ⟨i, q2, -⟩ | ⟨-, q3⟩⟩
    · exact ⟨q1, Or.inl ⟨i, q2⟩⟩
    · exact ⟨q1, Or.inr q3⟩
  · rintro ⟨q1, ⟨i, q2⟩ | q3⟩
    · exact ⟨q1, Or.inl ⟨i, q2, hmin i j⟩⟩
    · cases hg : e.gm[j] with
      | none => exact ⟨q1, Or.inr ⟨by rw [hsome, hg], q3⟩⟩
      | some i => exact ⟨q1, Or.inl ⟨i, by rw [hsome, hg], hmin i j⟩⟩

theorem sum_bounds (l : List Nat) (f : Nat → ℚ) (h : ∀ i, 0 ≤ f i ∧ f i ≤ 1) :
    0 ≤ (l.map f).sum ∧ (l.map f).sum ≤ l.length := by
  induction l with
  | nil => simp
  | cons a l ih =>
    simp only [List.map_cons, List.sum_cons, List.length_cons]
    have := h a
    push_cast
    constructor <;> linarith [ih.1, ih.2]

/-- C16, the counters of any usable evaluation: non-negative, bounded by the subsets, and the sums of heading
accuracies and affinities are between zero and the number of true positives. -/
theorem measure_bounds (h : e.Usable) (cutoff : ℚ) (hha : ∀ i j, 0 ≤ e.ha i j ∧ e.ha i j ≤ 1)
    (hla : ∀ i j, 0 ≤ e.la i j ∧ e.la i j ≤ 1) :
    ∃ m, e.run cutoff = some m ∧ 0 ≤ m.tps ∧ 0 ≤ m.fps ∧ 0 ≤ m.fns ∧ m.tps + m.fps ≤ e.ps.length ∧
      m.tps + m.fns ≤ e.gs.length ∧ 0 ≤ m.ha ∧ m.ha ≤ m.tps ∧ 0 ≤ m.la ∧ m.la ≤ m.tps := by
  classical
  obtain ⟨m, d, h1, h2, h3, h4, h5, h6, -⟩ := measure_spec h cutoff
  have b1 := tp_fp_le h
  have b2 := tp_fn_eq h
  have b3 := length_filter_range_le e.gs.length fun j => decide (e.Counts j ∧
      ((∃ i, e.gm[j]? = some (some i) ∧ e.c.minHeadingAccuracy < e.ha i j) ∨
        (e.gm[j]? = some none ∧ ∃ o, e.gt j = some o ∧ o.level ≤ e.level)))
  have s1 := sum_bounds (e.tps e.pm.length) (fun i => e.ha i (e.mate i)) fun i => hha i _
  have s2 := sum_bounds (e.tps e.pm.length) (fun i => e.la i (e.mate i)) fun i => hla i _
  refine ⟨m, h1, by omega, by omega, by omega, by omega, by omega, ?_, ?_, ?_, ?_⟩
  · rw [h5]; exact s1.1
  · rw [h5, h2]; exact_mod_cast s1.2
  · rw [h6]; exact s2.1
  · rw [h6, h2]; exact_mod_cast s2.2

/-! ### C61: pairs below the minimum heading accuracy -/

/-- A frame with one prediction and one ground truth that are matched with heading accuracy 1/4. -/
def turned (c : Config Unit) : Eval Unit Nat :=
  ⟨c, ⟨[⟨(), 7, 1, false, 0⟩], [⟨(), 8, 1, false, 1⟩], fun _ _ => some 1, fun _ _ => some 1, fun _ _ => 1 / 4,
    fun _ _ => some ([some 0], [some 0])⟩, ⟨1, fun _ => some 0, fun _ => some [0], false⟩, 0, [0], [0], 2, [some 0], [some 0]⟩

theorem turned_usable (c : Config Unit) : (turned c).Usable where
  preds := by simp [turned]
  gts := by simp [turned]
  shards := fun o _ => ⟨0, rfl⟩
  iou := fun _ _ _ _ => ⟨1, rfl⟩
  aff := fun _ _ _ _ _ => ⟨1, rfl⟩
  pmLen := rfl
  gmLen := rfl
  inv := by
    intro i j
    simp only [turned]
    cases i <;> cases j <;> simp

/-- The hypotheses of `measure_bounds` are met, and the pair is counted with the default minimum. -/
example : ((turned { generators := [], levels := [], cutoffs := [] }).run 0).map (fun m => (m.tps, m.fps, m.fns, m.ha)) =
    some (1, 0, 0, 1 / 4) := by decide +kernel

/-- C61 is false of the code: with a minimum of 1/2 the pair is neither a true positive nor a false positive and
a false negative; both objects vanish from all counts (detection_metrics.cc:73). -/
theorem low_heading_is_false_match_violated :
    ((turned { generators := [], levels := [], cutoffs := [], minHeadingAccuracy := 1 / 2 }).run 0).map
      (fun m => (m.tps, m.fps, m.fns)) = some (0, 0, 0) := by decide +kernel

/-- C61, the part that holds: a pair whose heading accuracy is not above the minimum is no true positive. -/
theorem low_heading_not_true_positive_partial (e : Eval O ι) (i j : Nat)
    (h : e.ha i j ≤ e.c.minHeadingAccuracy) : ¬ e.TP i j := fun ⟨_, _, h'⟩ => absurd h' (not_lt.mpr h)

/-! ### The measurements of a frame -/

/-- Specification: the difficulty levels of generator `i`; LEVEL_2 if none is configured. -/
def levelsOf (c : Config O) (i : Nat) : List Nat := if c.levels.getD i [] = [] then [2] else c.levels.getD i []

/-- Specification: the breakdowns of a configuration, in the documented order, each with all cutoffs. -/
def expectedShape (c : Config O) : List (Measure.Breakdown × List (Option ℚ)) :=
  c.generators.zipIdx.flatMap fun g => (List.range g.1.2.numShards).flatMap fun s =>
    (levelsOf c g.2).map fun l => (⟨g.1.1, s, l⟩, c.cutoffs.map some)

/-- A usable frame: the generators keep their promises on all objects, the matcher returns consistent matchings
of any subsets, and its functions are defined. -/
structure FrameUsable (c : Config O) (x : Frame O ι) : Prop where
  levels : c.levels.length = c.generators.length
  cutoffs : c.cutoffs ≠ []
  preds : ∀ g ∈ c.generators, ∀ p ∈ x.preds, Sound g.2 true p.core
  gts : ∀ g ∈ c.generators, ∀ p ∈ x.gts, Sound g.2 true p.core
  shards : ∀ g ∈ c.generators, ∀ p ∈ x.gts, ∃ s, g.2.shard p.core = some s
  iou : ∀ a b, a < x.preds.length → b < x.gts.length → ∃ v, x.iou a b = some v
  aff : ∀ a b, a < x.preds.length → b < x.gts.length → ∃ v, x.aff a b = some v
  doMatch : ∀ ps gs : List Nat, (∀ a ∈ ps, a < x.preds.length) → (∀ b ∈ gs, b < x.gts.length) →
    ∃ pm gm, x.doMatch ps gs = some (pm, gm) ∧ pm.length = ps.length ∧ gm.length = gs.length ∧
      ∀ i j : Nat, pm[i]? = some (some j) ↔ gm[j]? = some (some i)

/-- The measurement of shard `s` of generator `g`, level `l` and a cutoff is that of the predictions of the
shard whose score reaches the cutoff, of the ground truths of the shard, and of their matching. -/
def Prescribed (c : Config O) (x : Frame O ι) (g : Gen O) (s l : Nat) (cutoff : ℚ) (m : Det (Details ι)) : Prop :=
  ∃ ps gs pm gm, x.doMatch ps gs = some (pm, gm) ∧
    ps.Pairwise (· < ·) ∧ (∀ i, i ∈ ps ↔ ∃ p, x.preds[i]? = some p ∧ cutoff ≤ p.score ∧
      ∃ q, shardsOf g true p.core = some q ∧ (s : ℤ) ∈ q) ∧
    gs.Pairwise (· < ·) ∧ (∀ i, i ∈ gs ↔ ∃ p, x.gts[i]? = some p ∧
      ∃ q, shardsOf g true p.core = some q ∧ (s : ℤ) ∈ q) ∧
    (⟨c, x, g, s, ps, gs, l, pm, gm⟩ : Eval O ι).Usable ∧
    (⟨c, x, g, s, ps, gs, l, pm, gm⟩ : Eval O ι).run cutoff = some m

theorem mapM_exists {α β : Type} (f : α → Option β) (P : α → β → Prop) (l : List α)
    (h : ∀ a ∈ l, ∃ b, f a = some b ∧ P a b) : ∃ r, l.mapM f = some r ∧ List.Forall₂ P l r := by
  induction l with
  | nil => exact ⟨[], rfl, List.Forall₂.nil⟩
  | cons a l ih =>
    obtain ⟨b, h1, h2⟩ := h a (by simp)
    obtain ⟨r, h3, h4⟩ := ih fun a' ha' => h a' (by simp [ha'])
    exact ⟨b :: r, by simp [h1, h3], List.Forall₂.cons h2 h4⟩

theorem exists_of_forall₂_right {α β : Type} {P : α → β → Prop} {l : List α} {r : List β} (h : List.Forall₂ P l r) :
    ∀ b ∈ r, ∃ a ∈ l, P a b := by
  induction h with
  | nil => intro b hb; cases hb
  | cons h1 _ ih =>
    intro b hb
    rcases List.mem_cons.mp hb with rfl | hb
    · exact ⟨_, by simp, h1⟩
    · obtain ⟨a, ha, hp⟩ := ih b hb
      exact ⟨a, by simp [ha], hp⟩

/-- What a shard contributes. -/
def ShardOk (c : Config O) (x : Frame O ι) (gi : Nat) (g : Nat × Gen O) (s : Nat)
    (r : List (Measure.Group (Det (Details ι)))) : Prop :=
  List.Forall₂ (fun l (q : Measure.Group (Det (Details ι))) => q.breakdown = ⟨g.1, s, l⟩ ∧
    List.Forall₂ (fun k m => m.cutoff = some k ∧ Prescribed c x g.2 s l k m) c.cutoffs q.items) (levelsOf c gi) r

theorem perShard_spec {c : Config O} {x : Frame O ι} (h : FrameUsable c x) (pd gt : Subset) (g : Nat × Gen O)
    (hg : c.generators[pd.generatorIndex]? = some g) (hpl : pd.indices.length = c.cutoffs.length)
    (hp : ∀ (k : Nat) (q : List Nat) (cutoff : ℚ), pd.indices[k]? = some q → c.cutoffs[k]? = some cutoff →
      q.Pairwise (· < ·) ∧ ∀ i, i ∈ q ↔ ∃ p, x.preds[i]? = some p ∧ cutoff ≤ p.score ∧
        ∃ q, shardsOf g.2 true p.core = some q ∧ (pd.shard : ℤ) ∈ q)
    (gs : List Nat) (hgs : gt.indices[0]? = some gs) (hgp : gs.Pairwise (· < ·))
    (hgm : ∀ i, i ∈ gs ↔ ∃ p, x.gts[i]? = some p ∧ ∃ q, shardsOf g.2 true p.core = some q ∧ (pd.shard : ℤ) ∈ q) :
    ∃ r, perShard c x pd gt = some r ∧ ShardOk c x pd.generatorIndex g pd.shard r := by
  have hgi : pd.generatorIndex < c.levels.length := by
    rw [h.levels]; exact (List.getElem?_eq_some_iff.mp hg).1
  have hlev : (c.levels[pd.generatorIndex]?).map (fun l => if l.isEmpty then [2] else l) =
      some (levelsOf c pd.generatorIndex) := by
    rw [List.getElem?_eq_getElem hgi]
    unfold levelsOf
    rw [List.getD_eq_getElem?_getD, List.getElem?_eq_getElem hgi]
    simp only [Option.map_some, Option.getD_some, List.isEmpty_iff]
  have hgmem := List.mem_of_getElem? hg
  have hgtlt : ∀ b ∈ gs, b < x.gts.length := by
    intro b hb
    obtain ⟨p, h1, -⟩ := (hgm b).mp hb
    exact (List.getElem?_eq_some_iff.mp h1).1
  let L := levelsOf c pd.generatorIndex
  obtain ⟨cols, c1, c2⟩ := mapM_exists (fun e : ℚ × Nat => do
      let pdSubset ← pd.indices[e.2]?
      let (pm, gm) ← x.doMatch pdSubset gs
      L.mapM fun l => measure c x g.2 pd.shard pdSubset gs l e.1 pm gm)
    (fun e col => List.Forall₂ (fun l (m : Det (Details ι)) => m.cutoff = some e.1 ∧
      Prescribed c x g.2 pd.shard l e.1 m) L col) c.cutoffs.zipIdx (by
    rintro ⟨k, n⟩ hk
    rw [List.mem_zipIdx_iff_getElem?] at hk
    have hn : n < pd.indices.length := by rw [hpl]; exact (List.getElem?_eq_some_iff.mp hk).1
    have hq : pd.indices[n]? = some pd.indices[n] := List.getElem?_eq_getElem hn
    obtain ⟨p1, p2⟩ := hp n _ k hq hk
    have hplt : ∀ a ∈ pd.indices[n], a < x.preds.length := by
      intro a ha
      obtain ⟨p, h1, -⟩ := (p2 a).mp ha
      exact (List.getElem?_eq_some_iff.mp h1).1
    obtain ⟨pm, gm, m1, m2, m3, m4⟩ := h.doMatch pd.indices[n] gs hplt hgtlt
    simp only [hq, m1, Option.bind_eq_bind, Option.bind_some]
    obtain ⟨col, q1, q2⟩ := mapM_exists (fun l => measure c x g.2 pd.shard pd.indices[n] gs l k pm gm)
      (fun l m => m.cutoff = some k ∧ Prescribed c x g.2 pd.shard l k m) L (by
      intro l _
      have hu : (⟨c, x, g.2, pd.shard, pd.indices[n], gs, l, pm, gm⟩ : Eval O ι).Usable :=
        ⟨hplt, hgtlt, h.shards g hgmem, fun a ha b hb => h.iou a b (hplt a ha) (hgtlt b hb),
          fun _ a ha b hb => h.aff a b (hplt a ha) (hgtlt b hb), m2, m3, m4⟩
      obtain ⟨m, d, r1, -, -, -, -, -, r2, -⟩ := measure_spec hu k
      exact ⟨m, r1, r2, _, _, _, _, m1, p1, p2, hgp, hgm, hu, r1⟩)
    exact ⟨col, q1, q2⟩)
  obtain ⟨rows, r1, r2⟩ := mapM_exists (fun l : Nat × Nat => do
      let row ← cols.mapM fun col => col[l.2]?
      pure (⟨⟨g.1, pd.shard, l.1⟩, row⟩ : Measure.Group (Det (Details ι))))
    (fun l q => q.breakdown = ⟨g.1, pd.shard, l.1⟩ ∧
      List.Forall₂ (fun k m => m.cutoff = some k ∧ Prescribed c x g.2 pd.shard l.1 k m) c.cutoffs q.items)
    L.zipIdx (by
    rintro ⟨l, n⟩ hl
    rw [List.mem_zipIdx_iff_getElem?] at hl
    have hcol : ∀ col ∈ cols, ∃ e ∈ c.cutoffs.zipIdx, List.Forall₂ (fun l (m : Det (Details ι)) => m.cutoff = some e.1 ∧
        Prescribed c x g.2 pd.shard l e.1 m) L col := by
      intro col hc
      obtain ⟨i, hi⟩ := List.getElem?_of_mem hc
      have hlen := c2.length_eq
      have hil : i < c.cutoffs.zipIdx.length := by rw [hlen]; exact (List.getElem?_eq_some_iff.mp hi).1
      refine ⟨c.cutoffs.zipIdx[i], List.getElem_mem hil, ?_⟩
      have := c2.get hil (by rw [← hlen]; exact hil)
      rw [List.get_eq_getElem, List.get_eq_getElem] at this
      obtain ⟨hi1, hi2⟩ := List.getElem?_eq_some_iff.mp hi
      rw [← hi2]; exact this
    obtain ⟨row, w1, w2⟩ := mapM_exists (fun col : List (Det (Details ι)) => col[n]?)
      (fun col m => col[n]? = some m) cols (by
      intro col hc
      obtain ⟨e, -, he⟩ := hcol col hc
      have hlt : n < col.length := by rw [← he.length_eq]; exact (List.getElem?_eq_some_iff.mp hl).1
      exact ⟨col[n], List.getElem?_eq_getElem hlt, List.getElem?_eq_getElem hlt⟩)
    simp only [w1, Option.bind_eq_bind, Option.bind_some]
    refine ⟨_, rfl, rfl, ?_⟩
    show List.Forall₂ _ c.cutoffs row
    rw [List.forall₂_iff_get]
    have l1 : c.cutoffs.length = cols.length := by rw [← c2.length_eq]; simp
    have l2 : cols.length = row.length := w2.length_eq
    refine ⟨l1.trans l2, ?_⟩
    intro i hi hi'
    have q1 := c2.get (i := i) (by simpa using hi) (by omega)
    have q2 := w2.get (i := i) (by omega) hi'
    rw [List.get_eq_getElem, List.get_eq_getElem] at q1 q2 ⊢
    rw [List.getElem_zipIdx] at q1
    obtain ⟨hn1, hn2⟩ := List.getElem?_eq_some_iff.mp q2
    obtain ⟨hl1, hl2⟩ := List.getElem?_eq_some_iff.mp hl
    have q3 := q1.get hl1 hn1
    rw [List.get_eq_getElem, List.get_eq_getElem, hl2, hn2] at q3
    exact q3)
  refine ⟨rows, ?_, ?_⟩
  · unfold perShard
    rw [hgs, hlev]
    simp only [hg, Option.bind_eq_bind, Option.bind_some]
    exact Option.bind_eq_some_iff.mpr ⟨cols, c1, r1⟩
  · unfold ShardOk
    have hz : L = L.zipIdx.map Prod.fst := by simp
    show List.Forall₂ _ L rows
    rw [hz, List.forall₂_map_left_iff]
    exact r2

/-- The generators and shards of a configuration, in the documented order. -/
def shardList (c : Config O) : List (Nat × (Nat × Gen O) × Nat) :=
  c.generators.zipIdx.flatMap fun g => (List.range g.1.2.numShards).map fun s => (g.2, g.1, s)

/-- C16 for a whole frame: `ComputeDetectionMeasurements` succeeds and returns, in the order of the breakdown
names, for each difficulty level and score cutoff the measurement of the objects that belong to the shard. -/
theorem frame_spec {c : Config O} {x : Frame O ι} (h : FrameUsable c x) :
    ∃ per, computeMeasurements c x = some per.flatten ∧
      List.Forall₂ (fun k r => ShardOk c x k.1 k.2.1 k.2.2 r) (shardList c) per := by
  have hne : c.cutoffs.isEmpty = false := by
    cases hc : c.cutoffs with
    | nil => exact absurd hc h.cutoffs
    | cons => rfl
  have hsound : ∀ (objs : List (Item O ι)), (∀ g ∈ c.generators, ∀ p ∈ objs, Sound g.2 true p.core) →
      ∀ g ∈ (c.generators.map Prod.snd).map (onItems (ι := ι)), ∀ p ∈ objs, Sound g true p := by
    intro objs ho g hg p hp
    simp only [List.map_map, List.mem_map, Function.comp] at hg
    obtain ⟨g', hg', rfl⟩ := hg
    exact ho g' hg' p hp
  obtain ⟨pds, p1, p2, p3⟩ := buildSubsets_spec ((c.generators.map Prod.snd).map onItems) c.cutoffs Item.score x.preds
    false true (hsound _ h.preds)
  obtain ⟨gts, g1, g2, g3⟩ := buildSubsets_spec ((c.generators.map Prod.snd).map onItems) c.cutoffs Item.score x.gts
    true true (hsound _ h.gts)
  have hkey : pds.map (fun r => (r.generatorIndex, r.shard)) = gts.map (fun r => (r.generatorIndex, r.shard)) :=
    p2.trans g2.symm
  have hlen : pds.length = gts.length := by simpa using congrArg List.length hkey
  have hgen : ∀ (n : Nat) (g : Gen (Item O ι)), ((c.generators.map Prod.snd).map (onItems (ι := ι)))[n]? = some g →
      ∃ g' : Nat × Gen O, c.generators[n]? = some g' ∧ g = onItems g'.2 := by
    intro n g hg
    rw [List.getElem?_map, List.getElem?_map] at hg
    cases hc : c.generators[n]? with
    | none => rw [hc] at hg; cases hg
    | some g' => rw [hc] at hg; exact ⟨g', rfl, (Option.some.inj hg).symm⟩
  obtain ⟨per, e1, e2⟩ := mapM_exists (fun e : Subset × Subset => perShard c x e.1 e.2)
    (fun e r => ∃ g, c.generators[e.1.generatorIndex]? = some g ∧ ShardOk c x e.1.generatorIndex g e.1.shard r)
    (pds.zip gts) (by
    rintro ⟨pd, gt⟩ hmem
    obtain ⟨n, hn⟩ := List.getElem?_of_mem hmem
    rw [List.getElem?_zip_eq_some] at hn
    obtain ⟨hn1, hn2⟩ := hn
    have hk : (pd.generatorIndex, pd.shard) = (gt.generatorIndex, gt.shard) := by
      have := congrArg (fun l => l[n]?) hkey
      simp only [List.getElem?_map] at this
      simpa [hn1, hn2] using this
    obtain ⟨hk1, hk2⟩ := Prod.mk.inj hk
    obtain ⟨gg, a1, a2, a3, a4⟩ := p3 pd (List.mem_of_getElem? hn1)
    obtain ⟨gg', b1, b2, b3, b4⟩ := g3 gt (List.mem_of_getElem? hn2)
    obtain ⟨g, hg, rfl⟩ := hgen _ _ a1
    rw [← hk1, a1] at b1
    obtain rfl := Option.some.inj b1
    have hb3 : gt.indices.length = 1 := by simpa using b3
    have hgs : gt.indices[0]? = some gt.indices[0] := List.getElem?_eq_getElem (by omega)
    obtain ⟨-, c2, c3⟩ := b4 0 _ hgs
    obtain ⟨r, r1, r2⟩ := perShard_spec h pd gt g hg (by simpa using a3) (by
      intro k q cutoff hq hcut
      obtain ⟨-, d2, d3⟩ := a4 k q hq
      refine ⟨d2, fun i => ?_⟩
      rw [d3 i]
      constructor
      · rintro ⟨⟨o, l, q1, q2, q3⟩, q4⟩
        obtain ⟨o', cut, w1, w2, w3⟩ := q4 rfl
        rw [q1] at w1
        rw [hcut] at w2
        cases w1
        cases w2
        exact ⟨o, q1, w3, l, q2, q3⟩
      · rintro ⟨o, q1, q2, l, q3, q4⟩
        exact ⟨⟨o, l, q1, q3, q4⟩, fun _ => ⟨o, cutoff, q1, hcut, q2⟩⟩) _ hgs c2 (by
      intro i
      rw [c3 i]
      constructor
      · rintro ⟨⟨o, l, q1, q2, q3⟩, -⟩
        exact ⟨o, q1, l, q2, by rw [hk2]; exact q3⟩
      · rintro ⟨o, q1, l, q2, q3⟩
        exact ⟨⟨o, l, q1, q2, by rw [← hk2]; exact q3⟩, fun hc => by cases hc⟩)
    exact ⟨r, r1, g, hg, r2⟩)
  refine ⟨per, ?_, ?_⟩
  · unfold computeMeasurements
    simp only [hne, Bool.false_eq_true, if_false, p1, g1, Option.bind_eq_bind, Option.bind_some, hlen, ne_eq,
      not_true_eq_false, e1]
    rfl
  · have hshl : (shardList c).map (fun k => (k.1, k.2.2)) = pds.map fun r => (r.generatorIndex, r.shard) := by
      rw [p2]
      unfold shardList
      rw [List.map_flatMap, List.map_map, List.zipIdx_map, List.flatMap_map]
      apply List.flatMap_congr
      intro e _
      rw [List.map_map]
      rfl
    have hl1 : (shardList c).length = pds.length := by simpa using congrArg List.length hshl
    have hl2 : (pds.zip gts).length = per.length := e2.length_eq
    rw [List.length_zip, ← hlen, Nat.min_self] at hl2
    rw [List.forall₂_iff_get]
    refine ⟨hl1.trans hl2, ?_⟩
    intro i hi hi'
    have q := e2.get (i := i) (by rw [List.length_zip]; omega) hi'
    rw [List.get_eq_getElem, List.get_eq_getElem] at q ⊢
    rw [List.getElem_zip] at q
    obtain ⟨g, w1, w2⟩ := q
    have hki : ((shardList c)[i].1, (shardList c)[i].2.2) = (pds[i].generatorIndex, pds[i].shard) := by
      have := congrArg (fun l => l[i]?) hshl
      simp only [List.getElem?_map] at this
      rw [List.getElem?_eq_getElem hi, List.getElem?_eq_getElem (by omega)] at this
      exact Option.some.inj this
    obtain ⟨k1, k2⟩ := Prod.mk.inj hki
    have hg : c.generators[(shardList c)[i].1]? = some (shardList c)[i].2.1 := by
      have hm : (shardList c)[i] ∈ shardList c := List.getElem_mem hi
      unfold shardList at hm
      rw [List.mem_flatMap] at hm
      obtain ⟨e, he, hm⟩ := hm
      rw [List.mem_map] at hm
      obtain ⟨s, -, hs⟩ := hm
      rw [List.mem_zipIdx_iff_getElem?] at he
      change _ = (shardList c)[i] at hs
      rw [← hs]; exact he
    rw [k1, w1] at hg
    obtain hg := Option.some.inj hg
    rw [k1, k2, ← hg]
    exact w2

theorem forall₂_flatten_map {α β γ : Type} (P : α → List β → Prop) (f : β → γ) (F : α → List γ) (l : List α) (r : List (List β))
    (h : List.Forall₂ P l r) (hP : ∀ a b, P a b → b.map f = F a) : r.flatten.map f = l.flatMap F := by
  induction h with
  | nil => rfl
  | cons h1 _ ih => simp [hP _ _ h1, ih]

theorem forall₂_map_eq {α β γ : Type} (f : β → γ) (F : α → γ) (l : List α) (r : List β)
    (h : List.Forall₂ (fun a b => f b = F a) l r) : r.map f = l.map F := by
  induction h with
  | nil => rfl
  | cons h1 _ ih => simp [h1, ih]

/-- C16 and C15: the measurements of every usable frame have the shape that the configuration prescribes, so the
measurements of any frames can be accumulated. -/
theorem frame_shape {c : Config O} {x : Frame O ι} (h : FrameUsable c x) :
    ∃ v, computeMeasurements c x = some v ∧ shape Det.cutoff v = expectedShape c ∧ WellFormed HasCutoff v := by
  obtain ⟨per, h1, h2⟩ := frame_spec h
  refine ⟨_, h1, ?_, ?_⟩
  · unfold shape
    rw [forall₂_flatten_map (fun k r => ShardOk c x k.1 k.2.1 k.2.2 r) (fun g => (g.breakdown, g.items.map Det.cutoff))
      (fun k : Nat × (Nat × Gen O) × Nat => (levelsOf c k.1).map fun l => ((⟨k.2.1.1, k.2.2, l⟩ : Measure.Breakdown), c.cutoffs.map some))
      (shardList c) per h2]
    · unfold shardList expectedShape
      rw [List.flatMap_assoc]
      apply List.flatMap_congr
      intro e _
      rw [List.flatMap_map]
    · intro k r hr
      apply forall₂_map_eq
      refine hr.imp ?_
      rintro l q ⟨q1, q2⟩
      rw [q1, forall₂_map_eq Det.cutoff some c.cutoffs q.items (q2.imp fun _ _ w => w.1)]
  · intro g hg
    rw [List.mem_flatten] at hg
    obtain ⟨r, hr, hg⟩ := hg
    obtain ⟨k, -, hk⟩ := exists_of_forall₂_right h2 r hr
    obtain ⟨l, -, -, hl⟩ := exists_of_forall₂_right hk g hg
    constructor
    · intro hnil
      rw [hnil] at hl
      have := hl.length_eq
      exact h.cutoffs (by simpa using this)
    · intro m hm
      obtain ⟨q, -, hq, -⟩ := exists_of_forall₂_right hl m hm
      unfold HasCutoff
      rw [hq]; rfl

/-- C16 over any number of frames: the accumulated measurements exist and each counter is the sum of the counters
of the frames. -/
theorem frames_accumulate {c : Config O} (xs : List (Frame O ι)) (hne : xs ≠ []) (hg : expectedShape c ≠ [])
    (h : ∀ x ∈ xs, FrameUsable c x) :
    ∃ fs v, xs.mapM (computeMeasurements c) = some fs ∧ mergeAllDet fs = some v ∧
      shape Det.cutoff v = expectedShape c ∧
      ∀ i j, countsAt Det.counts v i j = (fs.map fun f => countsAt Det.counts f i j).sum := by
  obtain ⟨fs, h1, h2⟩ := mapM_exists (computeMeasurements c)
    (fun _ v => shape Det.cutoff v = expectedShape c ∧ WellFormed HasCutoff v) xs (fun x hx => frame_shape (h x hx))
  have hfne : fs ≠ [] := by
    rintro rfl
    have := h2.length_eq
    exact hne (by simpa using this)
  obtain ⟨v, v1, v2, v3⟩ := detection_accumulates (expectedShape c) fs hfne (by
    intro f hf
    obtain ⟨x, -, w1, w2⟩ := exists_of_forall₂_right h2 f hf
    refine ⟨?_, w2, w1⟩
    rintro rfl
    exact hg w1.symm)
  exact ⟨fs, v, h1, v1, (v2 v (by simp)).2.2, v3⟩

/-- The `Match` of a Hungarian matcher with the given subsets (matcher.cc:192-250). -/
def hungarianOn {β : Type} (F : Matcher.Frame β) (ps gs : List Nat) : Option (List (Option Nat) × List (Option Nat)) :=
  (Matcher.step .hungarianMatch { frame := { F with predSubset := ps, gtSubset := gs } }).bind fun r => match r.1 with
    | .pairs q => some q
    | _ => none

/-- C16 with the real matcher: the Hungarian matcher meets the requirement of `FrameUsable`. -/
theorem hungarianOn_ok {β : Type} (F : Matcher.Frame β) (preds gts : List (Matcher.Obj β)) (hp : F.preds = some preds)
    (hg : F.gts = some gts) (ht : ∀ o ∈ preds, o.type ≠ 0 ∧ o.type < F.thresholds.length)
    (hiou : ∀ p ∈ preds, ∀ g ∈ gts, 0 ≤ Matcher.similarity F p g ∧ Matcher.similarity F p g ≤ 1)
    (haff : ∀ p ∈ preds, ∀ g ∈ gts, 0 ≤ Matcher.affinity F p g ∧ Matcher.affinity F p g ≤ 1)
    (ps gs : List Nat) (hps : ∀ a ∈ ps, a < preds.length) (hgs : ∀ b ∈ gs, b < gts.length) :
    ∃ pm gm, hungarianOn F ps gs = some (pm, gm) ∧ pm.length = ps.length ∧ gm.length = gs.length ∧
      ∀ i j : Nat, pm[i]? = some (some j) ↔ gm[j]? = some (some i) := by
  obtain ⟨pm, gm, s', h1, h2, h3, h4, -⟩ := Matcher.hungarianMatch_optimal
    { frame := { F with predSubset := ps, gtSubset := gs } } ⟨_, [], [], rfl⟩ preds gts
    ⟨hp, hg, fun i hi => ⟨preds[i]'(hps i hi), List.getElem?_eq_getElem (hps i hi), ht _ (List.getElem_mem _)⟩, hgs,
      hiou, haff⟩
  exact ⟨pm, gm, by rw [hungarianOn, h1]; rfl, h2, h3, h4⟩

/-- A frame with two predictions and two ground truths for a breakdown into two shards that only divides the
ground truths, matched by a Hungarian matcher. -/
def demoMatcher : Matcher.Frame Nat :=
  ⟨[0, 1 / 2], fun a b => if a = b then 1 else 1 / 10, none, none, false, some [⟨1, 0, 1⟩, ⟨1, 5, 1 / 2⟩],
    some [⟨1, 0, 1⟩, ⟨1, 1, 1⟩], [], []⟩

/-- See `demoMatcher`. -/
def demoFrame : Frame Nat Nat :=
  ⟨[⟨0, 10, 1, false, 0⟩, ⟨0, 11, 1 / 2, false, 0⟩], [⟨0, 20, 0, false, 1⟩, ⟨1, 21, 0, false, 2⟩],
    fun a b => some (if a = b then 1 else 1 / 10), fun _ _ => some 1, fun _ _ => 3 / 4, hungarianOn demoMatcher⟩

/-- See `demoMatcher`. -/
def demoConfig : Config Nat :=
  { generators := [(9, ⟨2, fun o => some (o : ℤ), fun _ => some [0, 1], true⟩)], levels := [[1, 2]], cutoffs := [0, 3 / 4] }

example : FrameUsable demoConfig demoFrame where
  levels := rfl
  cutoffs := by simp [demoConfig]
  preds := by
    simp only [demoConfig, List.mem_singleton]
    rintro g rfl p -
    exact ⟨[0, 1], rfl, by decide, by decide⟩
  gts := by
    simp only [demoConfig, List.mem_singleton]
    rintro g rfl p -
    exact ⟨[0, 1], rfl, by decide, by decide⟩
  shards := by
    simp only [demoConfig, List.mem_singleton]
    rintro g rfl p -
    exact ⟨_, rfl⟩
  iou := fun a b _ _ => ⟨_, rfl⟩
  aff := fun a b _ _ => ⟨_, rfl⟩
  doMatch := by
    intro ps gs h1 h2
    refine hungarianOn_ok demoMatcher [⟨1, 0, 1⟩, ⟨1, 5, 1 / 2⟩] [⟨1, 0, 1⟩, ⟨1, 1, 1⟩] rfl rfl ?_ ?_ ?_ ps gs h1 h2
    · simp only [List.mem_cons, List.not_mem_nil, or_false]
      rintro o (rfl | rfl) <;> decide +kernel
    · simp only [List.mem_cons, List.not_mem_nil, or_false]
      rintro p (rfl | rfl) g (rfl | rfl) <;> decide +kernel
    · simp only [List.mem_cons, List.not_mem_nil, or_false]
      rintro p (rfl | rfl) g (rfl | rfl) <;> decide +kernel

example : (computeMeasurements demoConfig demoFrame).map (fun v => v.map fun g => g.items.map fun m => (m.tps, m.fps, m.fns)) =
    some [[(1, 0, 0), (1, 0, 0)], [(1, 0, 0), (1, 0, 0)], [(0, 1, 0), (0, 0, 0)], [(0, 1, 1), (0, 0, 1)]] := by
  decide +kernel

end Verif.Detection
