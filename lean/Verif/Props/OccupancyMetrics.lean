import Verif.Props.OccupancyWaypoints

/-!
Metrics of occupancy and flow: utils/occupancy_flow_metrics.py.
-/

namespace Verif.Occupancy

open Verif.ListM
open Verif.Pca (clip)

/-! ### Soft intersection over union -/

/-- Values between 0 and 1. -/
def Unit01 (l : List ℝ) : Prop := ∀ x ∈ l, 0 ≤ x ∧ x ≤ 1

theorem sum_nonneg_of {l : List ℝ} (h : ∀ x ∈ l, 0 ≤ x) : 0 ≤ l.sum := List.sum_nonneg h

/-- The sums behind the ratio: the intersection, and what is in one but not in the other. -/
theorem soft_sums : ∀ {t p : List ℝ}, t.length = p.length → Unit01 t → Unit01 p →
    0 ≤ (List.zipWith (· * ·) p t).sum ∧ 0 ≤ p.sum + t.sum - 2 * (List.zipWith (· * ·) p t).sum ∧
    (p.sum + t.sum - 2 * (List.zipWith (· * ·) p t).sum = 0 → t = p ∧ ∀ x ∈ t, x = 0 ∨ x = 1)
  | [], [], _, _, _ => by simp
  | a :: t, b :: p, hl, ht, hp => by
    obtain ⟨h1, h2, h3⟩ := soft_sums (t := t) (p := p) (by simpa using hl) (fun x hx => ht x (by simp [hx])) (fun x hx => hp x (by simp [hx]))
    obtain ⟨a0, a1⟩ := ht a (by simp)
    obtain ⟨b0, b1⟩ := hp b (by simp)
    have e : b + a - 2 * (b * a) = b * (1 - a) + a * (1 - b) := by ring
    have e1 : 0 ≤ b * (1 - a) := mul_nonneg b0 (by linarith)
    have e2 : 0 ≤ a * (1 - b) := mul_nonneg a0 (by linarith)
    simp only [List.zipWith_cons_cons, List.sum_cons]
    refine ⟨by positivity, by linarith, ?_⟩
    intro h
    obtain ⟨rfl, h5⟩ := h3 (by linarith)
    have f1 : b * (1 - a) = 0 := by linarith
    have f2 : a * (1 - b) = 0 := by linarith
    have hab : a = b ∧ (a = 0 ∨ a = 1) := by
      rcases mul_eq_zero.1 f1 with hb | ha
      · rcases mul_eq_zero.1 f2 with ha' | hb'
        · exact ⟨by rw [ha', hb], Or.inl ha'⟩
        · rw [hb] at hb'
          norm_num at hb'
      · have : a = 1 := by linarith
        rw [this] at f2
        exact ⟨by linarith, Or.inr this⟩
    refine ⟨by rw [hab.1], ?_⟩
    intro x hx
    rcases List.mem_cons.1 hx with rfl | hx
    · exact hab.2
    · exact h5 x hx
  | [], _ :: _, hl, _, _ => by simp at hl
  | _ :: _, [], hl, _, _ => by simp at hl

/-- The ratio is that of the sums: the sizes of the grids cancel. -/
theorem softIou_eq {t p : List ℝ} (hl : t.length = p.length) (hne : t ≠ []) :
    softIou t p = (List.zipWith (· * ·) p t).sum / (p.sum + t.sum - (List.zipWith (· * ·) p t).sum) := by
  have hn : (t.length : ℝ) ≠ 0 := by
    rw [Nat.cast_ne_zero]
    exact fun h => hne (List.length_eq_zero_iff.1 h)
  unfold softIou mean divNoNan
  rw [List.length_zipWith, hl, min_self]
  rw [hl] at hn
  simp only
  rw [← add_div, ← sub_div, div_div_div_cancel_right₀ hn]

/-- C86: the soft intersection over union is between 0 and 1, and 1 exactly when both grids are the same, show only 0 and 1, and are not
empty. -/
theorem softIou_spec {t p : List ℝ} (hl : t.length = p.length) (ht : Unit01 t) (hp : Unit01 p) :
    (0 ≤ softIou t p ∧ softIou t p ≤ 1) ∧ (softIou t p = 1 ↔ t = p ∧ (∀ x ∈ t, x = 0 ∨ x = 1) ∧ ∃ x ∈ t, x = 1) := by
  by_cases hne : t = []
  · subst hne
    obtain rfl : p = [] := List.length_eq_zero_iff.1 hl.symm
    simp [softIou, mean, divNoNan]
  rw [softIou_eq hl hne]
  obtain ⟨h1, h2, h3⟩ := soft_sums hl ht hp
  set i := (List.zipWith (· * ·) p t).sum with hi
  have hu : i ≤ p.sum + t.sum - i := by linarith
  have hu0 : 0 ≤ p.sum + t.sum - i := by linarith
  refine ⟨⟨div_nonneg h1 hu0, div_le_one_of_le₀ hu hu0⟩, ?_⟩
  constructor
  · intro h
    have hnz : p.sum + t.sum - i ≠ 0 := by
      intro h0
      rw [h0, div_zero] at h
      norm_num at h
    have he : i = p.sum + t.sum - i := by rwa [div_eq_one_iff_eq hnz] at h
    obtain ⟨rfl, hb⟩ := h3 (by linarith)
    refine ⟨rfl, hb, ?_⟩
    by_contra hc
    push Not at hc
    have hz : ∀ x ∈ t, x = 0 := fun x hx => (hb x hx).resolve_right (hc x hx)
    have : t.sum = 0 := List.sum_eq_zero hz
    apply hnz
    linarith
  · rintro ⟨rfl, hb, x, hx, hx1⟩
    have e : i = t.sum := by
      rw [hi]
      clear h1 h2 h3 hu hu0 hi i hl ht hp hne hx
      induction t with
      | nil => rfl
      | cons a t ih =>
        rw [List.zipWith_cons_cons, List.sum_cons, List.sum_cons, ih fun y hy => hb y (by simp [hy])]
        rcases hb a (by simp) with h | h <;> rw [h] <;> ring
    have hpos : 0 < t.sum := by
      have : x ≤ t.sum := List.single_le_sum (fun y hy => (ht y hy).1) x hx
      linarith
    rw [e, div_eq_one_iff_eq (by linarith)]
    ring

/-- For grids of zeros and ones it is the number of cells in both divided by the number of cells in one of them. -/
theorem softIou_binary {t p : List Bool} (hl : t.length = p.length) (hne : t ≠ []) :
    softIou (t.map fun b => if b then 1 else 0) (p.map fun b => if b then 1 else 0) =
      ((t.zip p).countP fun x => x.1 && x.2) / ((t.zip p).countP fun x => x.1 || x.2) := by
  rw [softIou_eq (by simpa using hl) (by simpa using hne)]
  have key : ∀ (t p : List Bool), t.length = p.length →
      (List.zipWith (· * ·) (p.map fun b => if b then (1 : ℝ) else 0) (t.map fun b => if b then 1 else 0)).sum =
        (((t.zip p).countP fun x => x.1 && x.2 : ℕ) : ℝ) ∧
      (p.map fun b => if b then (1 : ℝ) else 0).sum + (t.map fun b => if b then (1 : ℝ) else 0).sum =
        (((t.zip p).countP fun x => x.1 || x.2 : ℕ) : ℝ) + (((t.zip p).countP fun x => x.1 && x.2 : ℕ) : ℝ) := by
    intro t
    induction t with
    | nil =>
      intro p hl
      obtain rfl : p = [] := List.length_eq_zero_iff.1 hl.symm
      simp
    | cons a t ih =>
      intro p hl
      cases p with
      | nil => simp at hl
      | cons b p =>
        obtain ⟨h1, h2⟩ := ih p (by simpa using hl)
        simp only [List.map_cons, List.zipWith_cons_cons, List.sum_cons, List.zip_cons_cons, List.countP_cons]
        rw [h1]
        cases a <;> cases b <;> simp
        all_goals first | linarith | (constructor <;> linarith)
  obtain ⟨h1, h2⟩ := key t p hl
  rw [h1]
  congr 1
  rw [h2]
  ring

/-! ### End point error -/

theorem divNoNan_nonneg {a b : ℝ} (ha : 0 ≤ a) (hb : 0 ≤ b) : 0 ≤ divNoNan a b := div_nonneg ha hb

/-- The distance between two flow vectors. -/
noncomputable def flowDist (t p : ℝ × ℝ) : ℝ := Real.sqrt ((t.1 - p.1) ^ 2 + (t.2 - p.2) ^ 2)

/-- C86: the end point error is the mean of the distances over the cells where the true flow is not zero, and 0 if there are none. -/
theorem flowEpe_eq (t p : List (ℝ × ℝ)) (hl : t.length = p.length) :
    flowEpe t p = (((t.zip p).filter fun x => x.1 ≠ (0, 0)).map fun x => flowDist x.1 x.2).sum / ((t.zip p).filter fun x => x.1 ≠ (0, 0)).length := by
  unfold flowEpe divNoNan
  have key : ∀ (t p : List (ℝ × ℝ)), t.length = p.length →
      (List.zipWith (fun t p : ℝ × ℝ => Real.sqrt (((t.1 - p.1) * (if t.1 ≠ 0 ∨ t.2 ≠ 0 then (1 : ℝ) else 0)) ^ 2 +
        ((t.2 - p.2) * (if t.1 ≠ 0 ∨ t.2 ≠ 0 then (1 : ℝ) else 0)) ^ 2)) t p).sum =
        (((t.zip p).filter fun x => x.1 ≠ (0, 0)).map fun x => flowDist x.1 x.2).sum ∧
      (t.map fun f => if f.1 ≠ 0 ∨ f.2 ≠ 0 then (1 : ℝ) else 0).sum = ((t.zip p).filter fun x => x.1 ≠ (0, 0)).length := by
    intro t
    induction t with
    | nil => intro p _; simp
    | cons a t ih =>
      intro p hl
      cases p with
      | nil => simp at hl
      | cons b p =>
        obtain ⟨h1, h2⟩ := ih p (by simpa using hl)
        simp only [List.zipWith_cons_cons, List.sum_cons, List.zip_cons_cons, List.map_cons]
        by_cases ha : a = (0, 0)
        · subst ha
          rw [List.filter_cons_of_neg (by simp), h1, h2]
          simp
        · have ha' : a.1 ≠ 0 ∨ a.2 ≠ 0 := by
            by_contra hc
            push Not at hc
            exact ha (Prod.ext hc.1 hc.2)
          rw [List.filter_cons_of_pos (by simpa using ha), h1, h2]
          rw [if_pos ha']
          simp only [List.map_cons, List.sum_cons, List.length_cons, mul_one, flowDist]
          push_cast
          exact ⟨trivial, by ring⟩
  obtain ⟨h1, h2⟩ := key t p hl
  simp only
  rw [h1, h2]

/-- C86: it is never negative, and 0 exactly when the flows agree wherever the true flow is not zero. -/
theorem flowEpe_zero (t p : List (ℝ × ℝ)) (hl : t.length = p.length) :
    0 ≤ flowEpe t p ∧ (flowEpe t p = 0 ↔ ∀ (i : ℕ) (a b : ℝ × ℝ), t[i]? = some a → p[i]? = some b → a ≠ (0, 0) → a = b) := by
  rw [flowEpe_eq t p hl]
  set l := (t.zip p).filter fun x => x.1 ≠ (0, 0) with hldef
  have hnn : ∀ x ∈ l.map fun x => flowDist x.1 x.2, 0 ≤ x := by
    intro x hx
    obtain ⟨y, _, rfl⟩ := List.mem_map.1 hx
    exact Real.sqrt_nonneg _
  refine ⟨div_nonneg (List.sum_nonneg hnn) (by positivity), ?_⟩
  have hzero : (l.map fun x => flowDist x.1 x.2).sum / (l.length : ℝ) = 0 ↔ ∀ x ∈ l, x.1 = x.2 := by
    constructor
    · intro h x hx
      have hlen : (l.length : ℝ) ≠ 0 := by
        rw [Nat.cast_ne_zero]
        exact fun h => List.ne_nil_of_mem hx (List.length_eq_zero_iff.1 h)
      have hs := (div_eq_zero_iff.1 h).resolve_right hlen
      have : flowDist x.1 x.2 ≤ 0 := by
        rw [← hs]
        exact List.single_le_sum hnn _ (List.mem_map.2 ⟨x, hx, rfl⟩)
      have h0 : flowDist x.1 x.2 = 0 := le_antisymm this (Real.sqrt_nonneg _)
      unfold flowDist at h0
      rw [Real.sqrt_eq_zero (by positivity)] at h0
      have e1 : (x.1.1 - x.2.1) ^ 2 = 0 := by nlinarith [sq_nonneg (x.1.1 - x.2.1), sq_nonneg (x.1.2 - x.2.2)]
      have e2 : (x.1.2 - x.2.2) ^ 2 = 0 := by nlinarith [sq_nonneg (x.1.1 - x.2.1), sq_nonneg (x.1.2 - x.2.2)]
      exact Prod.ext (by linarith [pow_eq_zero_iff (two_ne_zero) |>.1 e1]) (by linarith [pow_eq_zero_iff (two_ne_zero) |>.1 e2])
    · intro h
      rw [List.sum_eq_zero, zero_div]
      intro x hx
      obtain ⟨y, hy, rfl⟩ := List.mem_map.1 hx
      rw [h y hy]
      simp [flowDist]
  rw [hzero, hldef]
  constructor
  · intro h i a b h1 h2 h3
    exact h (a, b) (List.mem_filter.2 ⟨List.mem_of_getElem? (List.getElem?_zip_eq_some.2 ⟨h1, h2⟩), by simpa using h3⟩)
  · rintro h ⟨a, b⟩ hx
    rw [List.mem_filter] at hx
    obtain ⟨i, hi⟩ := List.getElem?_of_mem hx.1
    obtain ⟨h1, h2⟩ := List.getElem?_zip_eq_some.1 hi
    exact h i a b h1 h2 (by simpa using hx.2)

/-- C86: a prediction is free where nothing moves: if the true flow is zero everywhere, every prediction has the error 0. -/
theorem flowEpe_still {t p : List (ℝ × ℝ)} (hl : t.length = p.length) (h : ∀ f ∈ t, f = (0, 0)) : flowEpe t p = 0 := by
  rw [(flowEpe_zero t p hl).2]
  intro i a b h1 _ h3
  exact absurd (h a (List.mem_of_getElem? h1)) h3

/-! ### All way points -/

theorem anyOccupied_iff (l : List ℝ) : anyOccupied l = true ↔ ∃ x ∈ l, 0 < x := by
  unfold anyOccupied
  cases h : greatest l with
  | none =>
    cases l with
    | nil => simp
    | cons a l => simp [greatest] at h
  | some m =>
    obtain ⟨h1, h2⟩ := greatest_spec h
    simp only [decide_eq_true_eq]
    exact ⟨fun h => ⟨m, h1, h⟩, fun ⟨x, hx, h⟩ => h.trans_le (h2 x hx)⟩

/-- Whether a way point counts for the flow: vehicles that are observed there and at the way point before, or such that are occluded at
both; the first way point needs no other. -/
def HasFlow (truth : List Grids) (k : ℕ) : Prop :=
  ∃ g, truth[k]? = some g ∧ ((k = 0 ∧ ((∃ x ∈ g.observed, 0 < x) ∨ ∃ x ∈ g.occluded, 0 < x)) ∨
    ∃ b, 0 < k ∧ truth[k - 1]? = some b ∧ (((∃ x ∈ g.observed, 0 < x) ∧ ∃ x ∈ b.observed, 0 < x) ∨
      ((∃ x ∈ g.occluded, 0 < x) ∧ ∃ x ∈ b.occluded, 0 < x)))

theorem hasFlow_iff {truth : List Grids} {k : ℕ} {f : Bool} (h : hasFlow truth k = some f) : f = true ↔ HasFlow truth k := by
  unfold hasFlow at h
  simp only [Option.bind_eq_bind, Option.bind_eq_some_iff] at h
  obtain ⟨g, hg, b, hb, h⟩ := h
  obtain rfl := Option.some.inj h
  unfold HasFlow
  simp only [Bool.or_eq_true, Bool.and_eq_true, anyOccupied_iff]
  by_cases hk : k = 0
  · rw [if_pos hk] at hb
    obtain rfl := Option.some.inj hb
    subst hk
    simp only [and_true, hg, Option.some.injEq, exists_eq_left', true_and, lt_irrefl, false_and, exists_false, or_false]
  · rw [if_neg hk, Option.map_eq_some_iff] at hb
    obtain ⟨b', hb', rfl⟩ := hb
    simp only [anyOccupied_iff, hg, Option.some.injEq, exists_eq_left', hk, false_and, false_or, Nat.pos_of_ne_zero hk, true_and, hb']

/-- The way points, with the truth, the prediction and the warped grid, of which a property holds. -/
structure Counted (truth pred : List Grids) (warped : List (List ℝ)) (n : ℕ) (P : ℕ → Grids → Prop) (l : List ((Grids × Grids) × List ℝ)) :
    Prop where
  spec : ∃ ks : List ℕ, ks.Pairwise (· < ·) ∧ (∀ k, k ∈ ks ↔ k < n ∧ ∃ t, truth[k]? = some t ∧ P k t) ∧
    List.Forall₂ (fun k x => truth[k]? = some x.1.1 ∧ pred[k]? = some x.1.2 ∧ warped[k]? = some x.2) ks l

theorem counted_of {truth pred : List Grids} {warped : List (List ℝ)} {n : ℕ} {pairs : List (Grids × Grids × List ℝ × Bool)}
    (h : (List.range n).mapM (fun k => do
      let t ← truth[k]?
      let p ← pred[k]?
      let w ← warped[k]?
      let f ← hasFlow truth k
      pure (t, p, w, f)) = some pairs) (q : Grids × Grids × List ℝ × Bool → Bool) (P : ℕ → Grids → Prop)
    (hq : ∀ k t p w f, truth[k]? = some t → hasFlow truth k = some f → (q (t, p, w, f) = true ↔ P k t)) :
    Counted truth pred warped n P ((pairs.filter q).map fun x => ((x.1, x.2.1), x.2.2.1)) := by
  have hall := mapM_forall₂ h
  have hall' : List.Forall₂ (fun k x => truth[k]? = some x.1 ∧ pred[k]? = some x.2.1 ∧ warped[k]? = some x.2.2.1 ∧
      hasFlow truth k = some x.2.2.2) (List.range n) pairs := by
    refine forall₂_imp_mem hall fun k _ x _ hx => ?_
    simp only [Option.bind_eq_bind, Option.bind_eq_some_iff] at hx
    obtain ⟨t, ht, p, hp, w, hw, f, hf, hx⟩ := hx
    obtain rfl := Option.some.inj hx
    exact ⟨ht, hp, hw, hf⟩
  clear h hall
  have key : ∀ (ks : List ℕ) (pairs : List (Grids × Grids × List ℝ × Bool)), ks.Pairwise (· < ·) →
      List.Forall₂ (fun k x => truth[k]? = some x.1 ∧ pred[k]? = some x.2.1 ∧ warped[k]? = some x.2.2.1 ∧
        hasFlow truth k = some x.2.2.2) ks pairs →
      ∃ ks' : List ℕ, ks'.Pairwise (· < ·) ∧ (∀ k, k ∈ ks' ↔ k ∈ ks ∧ ∃ t, truth[k]? = some t ∧ P k t) ∧
        List.Forall₂ (fun k (x : (Grids × Grids) × List ℝ) => truth[k]? = some x.1.1 ∧ pred[k]? = some x.1.2 ∧ warped[k]? = some x.2) ks'
          ((pairs.filter q).map fun x => ((x.1, x.2.1), x.2.2.1)) := by
    intro ks pairs hp hf
    induction hf with
    | nil => exact ⟨[], List.Pairwise.nil, by simp, List.Forall₂.nil⟩
    | @cons k x ks pairs hx hr ih =>
      rw [List.pairwise_cons] at hp
      obtain ⟨ks', h1, h2, h3⟩ := ih hp.2
      obtain ⟨t, p, w, f⟩ := x
      have hqk := hq k t p w f hx.1 hx.2.2.2
      by_cases hb : q (t, p, w, f) = true
      · refine ⟨k :: ks', List.pairwise_cons.2 ⟨fun j hj => hp.1 j ((h2 j).1 hj).1, h1⟩, ?_, ?_⟩
        · intro j
          rw [List.mem_cons, List.mem_cons, h2]
          constructor
          · rintro (rfl | ⟨hj, ht⟩)
            · exact ⟨Or.inl rfl, t, hx.1, hqk.1 hb⟩
            · exact ⟨Or.inr hj, ht⟩
          · rintro ⟨rfl | hj, ht⟩
            · exact Or.inl rfl
            · exact Or.inr ⟨hj, ht⟩
        · rw [List.filter_cons_of_pos hb, List.map_cons]
          exact List.Forall₂.cons ⟨hx.1, hx.2.1, hx.2.2.1⟩ h3
      · refine ⟨ks', h1, ?_, ?_⟩
        · intro j
          rw [List.mem_cons, h2]
          constructor
          · rintro ⟨hj, ht⟩
            exact ⟨Or.inr hj, ht⟩
          · rintro ⟨rfl | hj, t', ht, hP⟩
            · have e := hx.1
              rw [ht] at e
              obtain rfl := Option.some.inj e
              exact absurd (hqk.2 hP) hb
            · exact ⟨hj, t', ht, hP⟩
        · rw [List.filter_cons_of_neg hb]
          exact h3
  obtain ⟨ks', h1, h2, h3⟩ := key (List.range n) pairs (List.pairwise_lt_range) hall'
  exact ⟨ks', h1, by simpa using h2, h3⟩

/-- The occupancy of all vehicles: the sum of observed and occluded ones, at most 1. -/
noncomputable def joint (g : Grids) : List ℝ := List.zipWith (fun a b => max 0 (min 1 (a + b))) g.observed g.occluded

theorem joint_eq (g : Grids) : List.zipWith (fun a b => clip 0 1 (a + b)) g.observed g.occluded = joint g := by
  unfold joint clip
  congr 1
  funext a b
  rw [max_comm, min_comm]

/-- C86: every metric is the mean over the way points that count for it: those with occupied cells of observed, of occluded vehicles, and
those with flow; the counts are their numbers. -/
theorem metricsOf_spec_partial {auc : List ℝ → List ℝ → ℝ} {warped : List (List ℝ)} {n : ℕ} {truth pred : List Grids} {m : Metrics}
    (h : metricsOf auc warped n truth pred = some m) :
    ∃ obs occ flow, Counted truth pred warped n (fun _ t => ∃ x ∈ t.observed, 0 < x) obs ∧
      Counted truth pred warped n (fun _ t => ∃ x ∈ t.occluded, 0 < x) occ ∧ Counted truth pred warped n (fun k _ => HasFlow truth k) flow ∧
      m.numObserved = obs.length ∧ m.numOccluded = occ.length ∧ m.numFlow = flow.length ∧
      m.observedAuc = meanOf (obs.map fun x => auc x.1.1.observed x.1.2.observed) ∧
      m.occludedAuc = meanOf (occ.map fun x => auc x.1.1.occluded x.1.2.occluded) ∧
      m.observedIou = meanOf (obs.map fun x => softIou x.1.1.observed x.1.2.observed) ∧
      m.occludedIou = meanOf (occ.map fun x => softIou x.1.1.occluded x.1.2.occluded) ∧
      m.flowEpe = meanOf (flow.map fun x => flowEpe x.1.1.flow x.1.2.flow) ∧
      m.warpedAuc = meanOf (flow.map fun x => auc (joint x.1.1) (List.zipWith (· * ·) (joint x.1.2) x.2)) ∧
      m.warpedIou = meanOf (flow.map fun x => softIou (joint x.1.1) (List.zipWith (· * ·) (joint x.1.2) x.2)) := by
  unfold metricsOf at h
  rw [Option.bind_eq_bind, Option.bind_eq_some_iff] at h
  obtain ⟨pairs, hp, h⟩ := h
  obtain rfl := Option.some.inj h
  refine ⟨_, _, _, counted_of hp (fun x => anyOccupied x.1.observed) _ fun k t p w f _ _ => anyOccupied_iff _,
    counted_of hp (fun x => anyOccupied x.1.occluded) _ fun k t p w f _ _ => anyOccupied_iff _,
    counted_of hp (fun x => x.2.2.2) _ fun k t p w f _ hf => hasFlow_iff hf, ?_⟩
  simp only [List.length_map, List.map_map, Function.comp_def, joint_eq, and_self]

/-- C86: the metrics cannot be computed for any input with a way point: the function raises. -/
theorem metrics_violated (auc : List ℝ → List ℝ → ℝ) (n : ℕ) (hn : 0 < n) (truth pred : List Grids) : metrics auc n truth pred = none := by
  unfold metrics flowWarp
  rw [if_neg (by omega)]
  rfl

theorem meanOf_range {l : List ℝ} (h : Unit01 l) : 0 ≤ meanOf l ∧ meanOf l ≤ 1 := by
  unfold meanOf
  split
  · norm_num
  · rename_i hl
    have hn : (0 : ℝ) < l.length := by exact_mod_cast Nat.pos_of_ne_zero hl
    refine ⟨div_nonneg (List.sum_nonneg fun x hx => (h x hx).1) hn.le, ?_⟩
    rw [div_le_one hn]
    have := List.sum_le_card_nsmul l 1 fun x hx => (h x hx).2
    simpa using this

/-- A truth and a prediction for two way points of one cell. -/
theorem metricsOf_example : ∃ m, metricsOf (fun _ _ => 1) [[1], [1]] 2 [⟨[1], [0], [(1, 0)], [1]⟩, ⟨[1], [0], [(0, 0)], [1]⟩]
    [⟨[1], [0], [(0, 0)], [1]⟩, ⟨[0], [0], [(0, 0)], [1]⟩] = some m ∧ m.numObserved = 2 ∧ m.numOccluded = 0 ∧ m.numFlow = 2 ∧
      m.observedIou = 1 / 2 ∧ m.flowEpe = 1 / 2 := by
  simp [metricsOf, List.range_succ, hasFlow, anyOccupied, greatest, meanOf, softIou, flowEpe, mean, divNoNan]

end Verif.Occupancy
