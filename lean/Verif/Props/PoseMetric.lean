import Verif.Props.PoseBox

/-!
Properties C34 (pose estimation metric) and C73 (key point similarity and correct key points).
-/

namespace Verif.Pose

open Verif.Boxes

/-! ### C34: one key point -/

/-- C34: both visible: the distance, cut off at the penalty, and it counts. -/
theorem pointError_matched {penalty : ℝ} (hp : 0 ≤ penalty) {g p : Keypoint} (hg : 1 < g.visibility) (hpr : 1 < p.visibility) :
    pointError penalty g p = (min (norm (g.loc - p.loc)) penalty, true) := by
  have h1 : visible g = true := by simpa [visible] using hg
  have h2 : visible p = true := by simpa [visible] using hpr
  have h3 := norm_nonneg' (g.loc - p.loc)
  simp [pointError, h1, h2, clip, h3, hp]

/-- C34: exactly one visible: the penalty, and it counts. -/
theorem pointError_mismatched {penalty : ℝ} {g p : Keypoint}
    (h : (1 < g.visibility ∧ ¬ 1 < p.visibility) ∨ (¬ 1 < g.visibility ∧ 1 < p.visibility)) :
    pointError penalty g p = (penalty, true) := by
  rcases h with ⟨h1, h2⟩ | ⟨h1, h2⟩ <;> simp [pointError, visible, h1, h2]

/-- C34: none visible: nothing, and it does not count. -/
theorem pointError_absent {penalty : ℝ} {g p : Keypoint} (hg : ¬ 1 < g.visibility) (hpr : ¬ 1 < p.visibility) :
    pointError penalty g p = (0, false) := by
  simp [pointError, visible, hg, hpr]

theorem pointError_bounds {penalty : ℝ} (hp : 0 ≤ penalty) (g p : Keypoint) :
    0 ≤ (pointError penalty g p).1 ∧ (pointError penalty g p).1 ≤ penalty := by
  by_cases hg : 1 < g.visibility
  · by_cases hpr : 1 < p.visibility
    · rw [pointError_matched hp hg hpr]
      exact ⟨le_min (norm_nonneg' _) hp, min_le_right _ _⟩
    · rw [pointError_mismatched (Or.inl ⟨hg, hpr⟩)]
      exact ⟨hp, le_refl _⟩
  · by_cases hpr : 1 < p.visibility
    · rw [pointError_mismatched (Or.inr ⟨hg, hpr⟩)]
      exact ⟨hp, le_refl _⟩
    · rw [pointError_absent hg hpr]
      exact ⟨le_refl _, hp⟩

/-! ### Means -/

theorem zipWith_map_zip {α β γ : Type} (f : α → β → γ) (l : List α) (m : List β) :
    List.zipWith f l m = (l.zip m).map fun x => f x.1 x.2 := by
  rw [List.zip, List.map_zipWith]

abbrev Update := List (List Keypoint) × List (List Keypoint) × Weights

theorem sum_le_mul {vs : List (ℝ × ℝ)} {c : ℝ} (h : ∀ v ∈ vs, 0 ≤ v.1 ∧ v.1 ≤ c ∧ 0 ≤ v.2) :
    0 ≤ (vs.map fun v => v.1 * v.2).sum ∧ (vs.map fun v => v.1 * v.2).sum ≤ c * (vs.map Prod.snd).sum ∧
      0 ≤ (vs.map Prod.snd).sum := by
  induction vs with
  | nil => simp
  | cons v rest ih =>
    obtain ⟨i1, i2, i3⟩ := ih fun x hx => h x (List.mem_cons_of_mem _ hx)
    obtain ⟨h1, h2, h3⟩ := h v List.mem_cons_self
    simp only [List.map_cons, List.sum_cons]
    have := mul_nonneg h1 h3
    have := mul_le_mul_of_nonneg_right h2 h3
    exact ⟨by linarith, by linarith, by linarith⟩

/-- A mean of values between 0 and `c` with weights that are not negative. -/
def Good (c : ℝ) (s : Mean) : Prop := 0 ≤ s.total ∧ s.total ≤ c * s.count ∧ 0 ≤ s.count

theorem good_result {c : ℝ} (hc : 0 ≤ c) {s : Mean} (h : Good c s) : 0 ≤ s.result ∧ s.result ≤ c := by
  obtain ⟨h1, h2, h3⟩ := h
  unfold Mean.result divNoNan
  split
  · exact ⟨le_refl _, hc⟩
  · next hne =>
    have hpos : 0 < s.count := lt_of_le_of_ne h3 (Ne.symm hne)
    exact ⟨div_nonneg h1 h3, (div_le_iff₀ hpos).mpr h2⟩

theorem good_update {c : ℝ} {s : Mean} (h : Good c s) {vs : List (ℝ × ℝ)} (hv : ∀ v ∈ vs, 0 ≤ v.1 ∧ v.1 ≤ c ∧ 0 ≤ v.2) :
    Good c (s.update vs) := by
  obtain ⟨h1, h2, h3⟩ := h
  obtain ⟨i1, i2, i3⟩ := sum_le_mul hv
  refine ⟨add_nonneg h1 i1, ?_, add_nonneg h3 i3⟩
  simp only [Mean.update]
  rw [mul_add]
  linarith

/-- No weight is negative. -/
def Weights.Nonneg : Weights → Prop
  | .none => True
  | .perObject w => ∀ x ∈ w, 0 ≤ x
  | .perPoint w => ∀ l ∈ w, ∀ x ∈ l, 0 ≤ x

theorem expand_nonneg {shape : List ℕ} {w : Weights} (h : w.Nonneg) {e : List (List ℝ)} (he : w.expand shape = some e) :
    ∀ l ∈ e, ∀ x ∈ l, 0 ≤ x := by
  cases w with
  | none =>
    simp only [Weights.expand, Option.some.injEq] at he
    subst he
    intro l hl x hx
    obtain ⟨n, _, rfl⟩ := List.mem_map.mp hl
    rw [(List.mem_replicate.mp hx).2]
    exact zero_le_one
  | perObject w =>
    simp only [Weights.expand] at he
    split at he
    · simp only [Option.some.injEq] at he
      subst he
      intro l hl x hx
      rw [zipWith_map_zip] at hl
      obtain ⟨⟨n, y⟩, hm, rfl⟩ := List.mem_map.mp hl
      rw [(List.mem_replicate.mp hx).2]
      exact h y (List.of_mem_zip hm).2
    · simp at he
  | perPoint w =>
    simp only [Weights.expand] at he
    split at he
    · simp only [Option.some.injEq] at he
      subst he
      exact h
    · simp at he

theorem mem_zipWith' {α β γ : Type} {f : α → β → γ} {l : List α} {m : List β} {x : γ} (h : x ∈ List.zipWith f l m) :
    ∃ a ∈ l, ∃ b ∈ m, x = f a b := by
  rw [zipWith_map_zip] at h
  obtain ⟨⟨a, b⟩, hm, rfl⟩ := List.mem_map.mp h
  exact ⟨a, (List.of_mem_zip hm).1, b, (List.of_mem_zip hm).2, rfl⟩

theorem good_updateMean {c : ℝ} {f : Keypoint → Keypoint → ℝ × ℝ} (hf : ∀ g p, 0 ≤ (f g p).1 ∧ (f g p).1 ≤ c ∧ 0 ≤ (f g p).2)
    {s s' : Mean} (h : Good c s) {gt pr : List (List Keypoint)} {w : Weights} (hw : w.Nonneg)
    (hs : updateMean f s gt pr w = some s') : Good c s' := by
  unfold updateMean at hs
  split at hs
  · cases he : w.expand (gt.map List.length) with
    | none => rw [he] at hs; simp at hs
    | some e =>
      rw [he] at hs
      simp only [Option.bind_eq_bind, Option.bind_some, Option.pure_def, Option.some.injEq] at hs
      subst hs
      refine good_update h fun v hv => ?_
      obtain ⟨l, hl, hvl⟩ := List.mem_flatten.mp hv
      obtain ⟨x, _, y, hy, rfl⟩ := mem_zipWith' hl
      obtain ⟨u, hu, z, hz, rfl⟩ := mem_zipWith' hvl
      obtain ⟨a, _, b, _, rfl⟩ := mem_zipWith' hu
      obtain ⟨h1, h2, h3⟩ := hf a b
      exact ⟨h1, h2, mul_nonneg h3 (expand_nonneg hw he y hy z hz)⟩
  · simp at hs

theorem good_fold {c : ℝ} {f : Keypoint → Keypoint → ℝ × ℝ} (hf : ∀ g p, 0 ≤ (f g p).1 ∧ (f g p).1 ≤ c ∧ 0 ≤ (f g p).2)
    (us : List Update) (hw : ∀ u ∈ us, u.2.2.Nonneg) (s : Mean) (h : Good c s) {s' : Mean}
    (hs : us.foldlM (fun s u => updateMean f s u.1 u.2.1 u.2.2) s = some s') : Good c s' := by
  induction us generalizing s with
  | nil =>
    rw [List.foldlM_nil] at hs
    cases hs
    exact h
  | cons u rest ih =>
    rw [List.foldlM_cons] at hs
    cases hu : updateMean f s u.1 u.2.1 u.2.2 with
    | none => rw [hu] at hs; simp at hs
    | some s1 =>
      rw [hu] at hs
      exact ih (fun x hx => hw x (List.mem_cons_of_mem _ hx)) s1 (good_updateMean hf h (hw u List.mem_cons_self) hu) hs

theorem pemValue_good {penalty : ℝ} (hp : 0 ≤ penalty) (g p : Keypoint) :
    0 ≤ (pemValue penalty g p).1 ∧ (pemValue penalty g p).1 ≤ penalty ∧ 0 ≤ (pemValue penalty g p).2 := by
  obtain ⟨h1, h2⟩ := pointError_bounds hp g p
  refine ⟨h1, h2, ?_⟩
  unfold pemValue
  dsimp only
  split
  · exact zero_le_one
  · exact le_refl _

/-- C34: whatever was added, with weights that are not negative, the metric lies between 0 and the penalty. -/
theorem pem_bounds {penalty : ℝ} (hp : 0 ≤ penalty) {us : List Update} (hw : ∀ u ∈ us, u.2.2.Nonneg) {x : ℝ}
    (h : pem penalty us = some x) : 0 ≤ x ∧ x ≤ penalty := by
  unfold pem at h
  cases hs : us.foldlM (fun s u => updateMean (pemValue penalty) s u.1 u.2.1 u.2.2) Mean.start with
  | none => rw [hs] at h; simp at h
  | some s =>
    rw [hs] at h
    simp only [Option.bind_eq_bind, Option.bind_some, Option.pure_def, Option.some.injEq] at h
    subst h
    exact good_result hp (good_fold (pemValue_good hp) us hw Mean.start ⟨le_refl _, by simp [Mean.start], le_refl _⟩ hs)

/-! ### Without weights -/

/-- All pairs of key points of an update. -/
def pairsOf (u : Update) : List (Keypoint × Keypoint) := (List.zipWith List.zip u.1 u.2.1).flatten

theorem objValues_one (f : Keypoint → Keypoint → ℝ × ℝ) (g p : List Keypoint) (h : g.length = p.length) :
    objValues f g p (List.replicate g.length 1) = (g.zip p).map fun x => f x.1 x.2 := by
  unfold objValues
  induction g generalizing p with
  | nil => rfl
  | cons a g ih =>
    cases p with
    | nil => simp at h
    | cons b p =>
      have := ih p (by simpa using h)
      simp only [List.length_cons, List.replicate_succ, List.zipWith_cons_cons, List.zip_cons_cons, List.map_cons, mul_one]
      rw [this]

theorem updateMean_none (f : Keypoint → Keypoint → ℝ × ℝ) (s : Mean) (gt pr : List (List Keypoint))
    (h : gt.map List.length = pr.map List.length) :
    updateMean f s gt pr .none = some (s.update ((pairsOf (gt, pr, .none)).map fun x => f x.1 x.2)) := by
  unfold updateMean
  rw [if_pos h]
  simp only [Weights.expand, Option.bind_eq_bind, Option.bind_some, Option.pure_def, Option.some.injEq]
  congr 1
  unfold pairsOf
  dsimp only
  clear s
  induction gt generalizing pr with
  | nil => rfl
  | cons g gt ih =>
    cases pr with
    | nil => simp at h
    | cons p pr =>
      simp only [List.map_cons, List.cons.injEq] at h
      have := ih pr h.2
      simp only [List.map_cons, List.zip_cons_cons, List.zipWith_cons_cons, List.flatten_cons, List.map_append]
      rw [this, objValues_one f g p h.1]

theorem update_append (s : Mean) (a b : List (ℝ × ℝ)) : (s.update a).update b = s.update (a ++ b) := by
  unfold Mean.update
  simp only [List.map_append, List.sum_append]
  congr 1 <;> ring

theorem fold_none (f : Keypoint → Keypoint → ℝ × ℝ) (us : List Update)
    (h : ∀ u ∈ us, u.2.2 = .none ∧ u.1.map List.length = u.2.1.map List.length) (s : Mean) :
    us.foldlM (fun s u => updateMean f s u.1 u.2.1 u.2.2) s =
      some (s.update (((us.map pairsOf).flatten).map fun x => f x.1 x.2)) := by
  induction us generalizing s with
  | nil => simp [Mean.update]
  | cons u rest ih =>
    obtain ⟨h1, h2⟩ := h u List.mem_cons_self
    rw [List.foldlM_cons]
    obtain ⟨gt, pr, w⟩ := u
    simp only at h1 h2
    subst h1
    simp only [updateMean_none f s gt pr h2, Option.bind_eq_bind, Option.bind_some]
    rw [ih fun x hx => h x (List.mem_cons_of_mem _ hx), update_append]
    simp only [List.map_cons, List.flatten_cons, List.map_append]

/-- Visible in both. -/
def Matched (x : Keypoint × Keypoint) : Prop := 1 < x.1.visibility ∧ 1 < x.2.visibility

/-- Visible in exactly one. -/
def Mismatched (x : Keypoint × Keypoint) : Prop :=
  (1 < x.1.visibility ∧ ¬ 1 < x.2.visibility) ∨ (¬ 1 < x.1.visibility ∧ 1 < x.2.visibility)

instance : DecidablePred Matched := fun _ => inferInstanceAs (Decidable (_ ∧ _))

instance : DecidablePred Mismatched := fun _ => inferInstanceAs (Decidable (_ ∨ _))

/-- The metric in words: the mean, over the key points visible in ground truth or prediction, of the distance cut off at the
penalty for those visible in both and of the penalty for the others. -/
noncomputable def pemSpec (penalty : ℝ) (xs : List (Keypoint × Keypoint)) : ℝ :=
  let matched := xs.filter fun x => decide (Matched x)
  let mismatched := xs.filter fun x => decide (Mismatched x)
  if matched.length + mismatched.length = 0 then 0
  else ((matched.map fun x => min (norm (x.1.loc - x.2.loc)) penalty).sum + mismatched.length * penalty) /
    (matched.length + mismatched.length)

theorem pem_sums {penalty : ℝ} (hp : 0 ≤ penalty) (xs : List (Keypoint × Keypoint)) :
    ((xs.map fun x => pemValue penalty x.1 x.2).map fun v => v.1 * v.2).sum =
      ((xs.filter fun x => decide (Matched x)).map fun x => min (norm (x.1.loc - x.2.loc)) penalty).sum +
        (xs.filter fun x => decide (Mismatched x)).length * penalty ∧
    ((xs.map fun x => pemValue penalty x.1 x.2).map Prod.snd).sum =
      ((xs.filter fun x => decide (Matched x)).length : ℝ) + (xs.filter fun x => decide (Mismatched x)).length := by
  induction xs with
  | nil => simp
  | cons x rest ih =>
    obtain ⟨h1, h2⟩ := ih
    simp only [List.map_cons, List.sum_cons, List.filter_cons]
    rw [h1, h2]
    by_cases hg : 1 < x.1.visibility
    · by_cases hpr : 1 < x.2.visibility
      · have e := pointError_matched hp hg hpr
        have m1 : Matched x := ⟨hg, hpr⟩
        have m2 : ¬ Mismatched x := by rintro (⟨_, h⟩ | ⟨h, _⟩) <;> contradiction
        simp only [pemValue, e, m1, m2, decide_true, decide_false, if_true, List.map_cons, List.sum_cons,
          List.length_cons, Nat.cast_add, Nat.cast_one, Bool.false_eq_true, if_false]
        constructor <;> ring
      · have e := pointError_mismatched (penalty := penalty) (Or.inl ⟨hg, hpr⟩)
        have m1 : ¬ Matched x := fun h => hpr h.2
        have m2 : Mismatched x := Or.inl ⟨hg, hpr⟩
        simp only [pemValue, e, m1, m2, decide_true, decide_false, if_true, List.length_cons, Nat.cast_add, Nat.cast_one,
          Bool.false_eq_true, if_false]
        constructor <;> ring
    · by_cases hpr : 1 < x.2.visibility
      · have e := pointError_mismatched (penalty := penalty) (Or.inr ⟨hg, hpr⟩)
        have m1 : ¬ Matched x := fun h => hg h.1
        have m2 : Mismatched x := Or.inr ⟨hg, hpr⟩
        simp only [pemValue, e, m1, m2, decide_true, decide_false, if_true, List.length_cons, Nat.cast_add, Nat.cast_one,
          Bool.false_eq_true, if_false]
        constructor <;> ring
      · have e := pointError_absent (penalty := penalty) hg hpr
        have m1 : ¬ Matched x := fun h => hg h.1
        have m2 : ¬ Mismatched x := by rintro (⟨h, _⟩ | ⟨_, h⟩) <;> contradiction
        simp only [pemValue, e, m1, m2, decide_false, Bool.false_eq_true, if_false]
        constructor <;> ring

/-- C34: without weights, the metric after any history of updates is that mean over all pairs of key points added. -/
theorem pem_spec {penalty : ℝ} (hp : 0 ≤ penalty) (us : List Update)
    (h : ∀ u ∈ us, u.2.2 = .none ∧ u.1.map List.length = u.2.1.map List.length) :
    pem penalty us = some (pemSpec penalty (us.map pairsOf).flatten) := by
  unfold pem
  rw [fold_none _ us h]
  simp only [Option.bind_eq_bind, Option.bind_some, Option.pure_def, Option.some.injEq]
  obtain ⟨h1, h2⟩ := pem_sums hp (us.map pairsOf).flatten
  unfold Mean.result Mean.update Mean.start divNoNan pemSpec
  simp only [zero_add]
  rw [h1, h2]
  by_cases h0 : ((us.map pairsOf).flatten.filter fun x => decide (Matched x)).length +
      ((us.map pairsOf).flatten.filter fun x => decide (Mismatched x)).length = 0
  · rw [if_pos h0, if_pos (by exact_mod_cast h0)]
  · rw [if_neg h0, if_neg (by exact_mod_cast h0)]

/-- C34: tensors of different shapes are refused. -/
theorem pem_shape {penalty : ℝ} {us : List Update} {u : Update} (hu : u ∈ us)
    (h : u.1.map List.length ≠ u.2.1.map List.length) : pem penalty us = none := by
  unfold pem
  have : ∀ s, us.foldlM (fun s u => updateMean (pemValue penalty) s u.1 u.2.1 u.2.2) s = none := by
    induction us with
    | nil => simp at hu
    | cons x rest ih =>
      intro s
      rw [List.foldlM_cons]
      rcases List.mem_cons.mp hu with rfl | hu'
      · unfold updateMean
        rw [if_neg h]
        rfl
      · cases updateMean (pemValue penalty) s x.1 x.2.1 x.2.2 with
        | none => rfl
        | some s1 => exact ih hu' s1
  rw [this]
  rfl

/-- C34: a case with all kinds of key points: one matched at distance 1, one missed, one invented, one absent; with a
penalty of 2 the metric is (1 + 2 + 2) / 3. -/
theorem example_pem : pem 2 [([[⟨![1, 0, 0], 2⟩, ⟨0, 2⟩, ⟨0, 1⟩, ⟨0, 0⟩]], [[⟨0, 2⟩, ⟨0, 0⟩, ⟨0, 2⟩, ⟨0, 1⟩]], .none)] =
    some (5 / 3) := by
  rw [pem_spec (by norm_num) _ (by simp)]
  have hn : norm ![1, 0, 0] = 1 := by
    rw [← sub_zero ![(1 : ℝ), 0, 0]]
    unfold norm
    rw [show (![1, 0, 0] - 0 : V3) 0 = 1 by simp, show (![1, 0, 0] - 0 : V3) 1 = 0 by simp,
      show (![1, 0, 0] - 0 : V3) 2 = 0 by rw [sub_zero]; rfl]
    norm_num
  congr 1
  simp [pemSpec, pairsOf, Matched, Mismatched, List.filter, hn]
  norm_num

/-! ### C73 -/

/-- C73: the position error metric in words: the mean distance over the key points labelled in both. -/
theorem mpjpe_nonneg {us : List Update} (hw : ∀ u ∈ us, u.2.2.Nonneg) {x : ℝ} (h : mpjpe us = some x) : 0 ≤ x := by
  unfold mpjpe at h
  cases hs : us.foldlM (fun s u => updateMean mpjpeValue s u.1 u.2.1 u.2.2) Mean.start with
  | none => rw [hs] at h; simp at h
  | some s =>
    rw [hs] at h
    simp only [Option.bind_eq_bind, Option.bind_some, Option.pure_def, Option.some.injEq] at h
    subst h
    have key : ∀ (us : List Update), (∀ u ∈ us, u.2.2.Nonneg) → ∀ s s' : Mean, 0 ≤ s.total ∧ 0 ≤ s.count →
        us.foldlM (fun s u => updateMean mpjpeValue s u.1 u.2.1 u.2.2) s = some s' → 0 ≤ s'.total ∧ 0 ≤ s'.count := by
      intro us
      induction us with
      | nil =>
        intro _ s s' h hs
        rw [List.foldlM_nil] at hs
        cases hs
        exact h
      | cons u rest ih =>
        intro hw s s' h hs
        rw [List.foldlM_cons] at hs
        cases hu : updateMean mpjpeValue s u.1 u.2.1 u.2.2 with
        | none => rw [hu] at hs; simp at hs
        | some s1 =>
          rw [hu] at hs
          refine ih (fun x hx => hw x (List.mem_cons_of_mem _ hx)) s1 s' ?_ hs
          unfold updateMean at hu
          split at hu
          · cases he : u.2.2.expand (u.1.map List.length) with
            | none => rw [he] at hu; simp at hu
            | some e =>
              rw [he] at hu
              simp only [Option.bind_eq_bind, Option.bind_some, Option.pure_def, Option.some.injEq] at hu
              subst hu
              have hv : ∀ v ∈ (List.zipWith (fun (x : List Keypoint × List Keypoint) y => objValues mpjpeValue x.1 x.2 y)
                  (u.1.zip u.2.1) e).flatten, 0 ≤ v.1 ∧ 0 ≤ v.2 := by
                intro v hv
                obtain ⟨l, hl, hvl⟩ := List.mem_flatten.mp hv
                obtain ⟨x, _, y, hy, rfl⟩ := mem_zipWith' hl
                obtain ⟨p, hp, z, hz, rfl⟩ := mem_zipWith' hvl
                obtain ⟨a, _, b, _, rfl⟩ := mem_zipWith' hp
                refine ⟨norm_nonneg' _, mul_nonneg ?_ (expand_nonneg (hw u List.mem_cons_self) he y hy z hz)⟩
                unfold mpjpeValue mask
                dsimp only
                split <;> split <;> norm_num
              refine ⟨add_nonneg h.1 (List.sum_nonneg ?_), add_nonneg h.2 (List.sum_nonneg ?_)⟩
              · intro y hy
                obtain ⟨v, hv', rfl⟩ := List.mem_map.mp hy
                exact mul_nonneg (hv v hv').1 (hv v hv').2
              · intro y hy
                obtain ⟨v, hv', rfl⟩ := List.mem_map.mp hy
                exact (hv v hv').2
          · simp at hu
    obtain ⟨h1, h2⟩ := key us hw Mean.start s ⟨le_refl _, le_refl _⟩ hs
    unfold Mean.result divNoNan
    split
    · exact le_refl _
    · exact div_nonneg h1 h2

theorem oksPoint_bounds (d : V3) (s : ℝ) : 0 < oksPoint d s ∧ oksPoint d s ≤ 1 := by
  refine ⟨Real.exp_pos _, ?_⟩
  unfold oksPoint
  rw [Real.exp_le_one_iff]
  unfold divNoNan
  split
  · exact le_refl _
  · refine div_nonpos_of_nonpos_of_nonneg ?_ (by nlinarith [mul_self_nonneg s])
    nlinarith [mul_self_nonneg (d 0), mul_self_nonneg (d 1), mul_self_nonneg (d 2)]

/-- A key point scores at least as much as one that is further away. -/
theorem oksPoint_anti {d d' : V3} (h : norm d ≤ norm d') (s : ℝ) : oksPoint d' s ≤ oksPoint d s := by
  unfold oksPoint
  rw [Real.exp_le_exp]
  unfold divNoNan
  split
  · exact le_refl _
  · next hne =>
    have hs : 0 ≤ 2 * s * s := by nlinarith [mul_self_nonneg s]
    refine div_le_div_of_nonneg_right ?_ hs
    have hsq : norm d ^ 2 ≤ norm d' ^ 2 := pow_le_pow_left₀ (norm_nonneg' d) h 2
    unfold norm at hsq
    rw [Real.sq_sqrt (by positivity), Real.sq_sqrt (by positivity)] at hsq
    nlinarith

theorem weightedMean_bounds {vs : List (ℝ × ℝ)} (h : ∀ v ∈ vs, 0 ≤ v.1 ∧ v.1 ≤ 1 ∧ 0 ≤ v.2) :
    0 ≤ weightedMean vs ∧ weightedMean vs ≤ 1 := by
  obtain ⟨h1, h2, h3⟩ := sum_le_mul h
  have := good_result (s := ⟨(vs.map fun v => v.1 * v.2).sum, (vs.map Prod.snd).sum⟩) zero_le_one ⟨h1, h2, h3⟩
  exact this

theorem mapM_disp (p : List Keypoint) (b : Box) : ∃ ds : List V3, p.mapM (fun k => boxDisplacement k.loc b) = some ds ∧
    ds.length = p.length := by
  induction p with
  | nil => exact ⟨[], rfl, rfl⟩
  | cons k rest ih =>
    obtain ⟨ds, h1, h2⟩ := ih
    obtain ⟨d, hd⟩ : ∃ d, boxDisplacement k.loc b = some d := ⟨_, boxDisplacement_eq k.loc b⟩
    refine ⟨d :: ds, ?_, by simp [h2]⟩
    rw [List.mapM_cons, hd, h1]
    rfl

/-- C73: for lists of the right lengths and weights that are not negative, the similarity of an object exists and lies between
0 and 1. -/
theorem oks_bounds {g p : List Keypoint} {b : Box} {scales w : List ℝ} (h1 : g.length = scales.length)
    (h2 : p.length = scales.length) (h3 : w.length = scales.length) (hw : ∀ x ∈ w, 0 ≤ x) :
    ∃ x, oks g p b scales w = some x ∧ 0 ≤ x ∧ x ≤ 1 := by
  obtain ⟨ds, hd, hlen⟩ := mapM_disp p ⟨b.center, fun i => 3 * b.dim i, 0⟩
  unfold oks
  simp only [h1, h2, h3, and_self, guard_true, Option.bind_eq_bind, Option.pure_def, Option.bind_some, hd]
  refine ⟨_, rfl, ?_⟩
  split
  · refine weightedMean_bounds fun v hv => ?_
    obtain ⟨hv1, hv2⟩ := List.of_mem_zip hv
    obtain ⟨d, _, s, _, e⟩ := mem_zipWith' hv1
    obtain ⟨x, hx, y, hy, e'⟩ := mem_zipWith' hv2
    obtain ⟨a, _, c, _, e''⟩ := mem_zipWith' hx
    rw [e, e', e'']
    refine ⟨(oksPoint_bounds d s).1.le, (oksPoint_bounds d s).2, mul_nonneg ?_ (hw y hy)⟩
    unfold mask
    split <;> split <;> norm_num
  · set scores := List.zipWith oksPoint _ _ with hsc
    have hs : ∀ x ∈ scores, 0 ≤ x ∧ x ≤ 1 := by
      intro x hx
      obtain ⟨d, _, s, _, rfl⟩ := mem_zipWith' hx
      exact ⟨(oksPoint_bounds d s).1.le, (oksPoint_bounds d s).2⟩
    have hl : scores.length ≤ scales.length := by
      rw [hsc, List.length_zipWith, List.length_map]
      exact min_le_right _ _
    have hsum : scores.sum ≤ scores.length := by
      have := List.sum_le_card_nsmul scores 1 fun x hx => (hs x hx).2
      simpa using this
    unfold divNoNan
    split
    · exact ⟨le_refl _, zero_le_one⟩
    · next hne =>
      have hpos : (0 : ℝ) < scales.length := lt_of_le_of_ne (Nat.cast_nonneg _) (Ne.symm hne)
      refine ⟨div_nonneg (List.sum_nonneg fun x hx => (hs x hx).1) hpos.le, (div_le_one hpos).mpr ?_⟩
      exact hsum.trans (by exact_mod_cast hl)

theorem zipWith_ofFn' {α β γ : Type} {n : ℕ} (f : α → β → γ) (a : Fin n → α) (b : Fin n → β) :
    List.zipWith f (List.ofFn a) (List.ofFn b) = List.ofFn fun i => f (a i) (b i) := by
  apply List.ext_getElem
  · simp
  · intro i h1 h2
    simp

/-- Labelled in the ground truth and in the prediction. -/
def labelled (g p : Keypoint) : ℝ := if 0 < g.visibility ∧ 0 < p.visibility then 1 else 0

/-- C73: with some ground truth key point labelled, the similarity is the weighted mean of exp(-d² / 2(ks)²) over the key
points labelled in both, where s is the cube root of the volume of the box. -/
theorem oks_spec {n : ℕ} (g p : Fin n → Keypoint) (b : Box) (k w : Fin n → ℝ) (hg : ∃ i, 0 < (g i).visibility) :
    oks (List.ofFn g) (List.ofFn p) b (List.ofFn k) (List.ofFn w) =
      some (divNoNan (∑ i, oksPoint ((g i).loc - (p i).loc) (k i * boxScale b) * (labelled (g i) (p i) * w i))
        (∑ i, labelled (g i) (p i) * w i)) := by
  obtain ⟨ds, hd, hlen⟩ := mapM_disp (List.ofFn p) ⟨b.center, fun i => 3 * b.dim i, 0⟩
  have hav : 0 < ((List.ofFn g).map mask).sum := by
    rw [List.map_ofFn, List.sum_ofFn]
    obtain ⟨i, hi⟩ := hg
    refine Finset.sum_pos' (fun j _ => ?_) ⟨i, Finset.mem_univ _, ?_⟩
    · simp only [Function.comp, mask]
      split <;> norm_num
    · simp [mask, hi]
  unfold oks
  simp only [List.length_ofFn, and_self, guard_true, Option.bind_eq_bind, Option.pure_def, Option.bind_some, hd, hav,
    decide_true, if_true, Option.some.injEq]
  rw [List.map_ofFn, zipWith_ofFn', zipWith_ofFn', zipWith_ofFn', zipWith_ofFn', List.zip, zipWith_ofFn']
  unfold weightedMean
  rw [List.map_ofFn, List.map_ofFn, List.sum_ofFn, List.sum_ofFn]
  have e : ∀ i, mask (g i) * mask (p i) = labelled (g i) (p i) := by
    intro i
    unfold mask labelled
    by_cases h1 : 0 < (g i).visibility <;> by_cases h2 : 0 < (p i).visibility <;> simp [h1, h2]
  simp only [Function.comp, e]

/-- C73: a prediction with all the right locations has similarity 1, if any key point counts. -/
theorem oks_perfect {n : ℕ} {g p : Fin n → Keypoint} {b : Box} {k w : Fin n → ℝ} (hg : ∃ i, 0 < (g i).visibility)
    (hl : ∀ i, (g i).loc = (p i).loc) (hw : ∑ i, labelled (g i) (p i) * w i ≠ 0) :
    oks (List.ofFn g) (List.ofFn p) b (List.ofFn k) (List.ofFn w) = some 1 := by
  rw [oks_spec g p b k w hg]
  have e : ∀ i, oksPoint ((g i).loc - (p i).loc) (k i * boxScale b) = 1 := by
    intro i
    rw [hl i, sub_self]
    unfold oksPoint divNoNan
    simp
  simp only [e, one_mul]
  unfold divNoNan
  rw [if_neg hw, div_self hw]

/-- C73: moving predicted key points closer to the ground truth never lowers the similarity. -/
theorem oks_anti {n : ℕ} {g p q : Fin n → Keypoint} {b : Box} {k w : Fin n → ℝ} (hg : ∃ i, 0 < (g i).visibility)
    (hv : ∀ i, (p i).visibility = (q i).visibility) (hd : ∀ i, norm ((g i).loc - (p i).loc) ≤ norm ((g i).loc - (q i).loc))
    (hw : ∀ i, 0 ≤ w i) : ∃ x y, oks (List.ofFn g) (List.ofFn p) b (List.ofFn k) (List.ofFn w) = some x ∧
      oks (List.ofFn g) (List.ofFn q) b (List.ofFn k) (List.ofFn w) = some y ∧ y ≤ x := by
  refine ⟨_, _, oks_spec g p b k w hg, oks_spec g q b k w hg, ?_⟩
  have e : ∀ i, labelled (g i) (p i) = labelled (g i) (q i) := by
    intro i
    unfold labelled
    rw [hv i]
  have hl : ∀ i, 0 ≤ labelled (g i) (q i) * w i := by
    intro i
    refine mul_nonneg ?_ (hw i)
    unfold labelled
    split <;> norm_num
  simp only [e]
  unfold divNoNan
  split
  · exact le_refl _
  · refine div_le_div_of_nonneg_right ?_ (Finset.sum_nonneg fun i _ => hl i)
    exact Finset.sum_le_sum fun i _ => mul_le_mul_of_nonneg_right (oksPoint_anti (hd i) _) (hl i)

/-- C73: with no ground truth key point labelled, predictions inside the box three times as large get similarity 1.  The heading
of the box plays no part. -/
theorem oks_surrogate {g p : List Keypoint} {b : Box} {scales w : List ℝ} (h1 : g.length = scales.length)
    (h2 : p.length = scales.length) (h3 : w.length = scales.length) (hg : ∀ k ∈ g, k.visibility ≤ 0) (hne : scales ≠ [])
    (hb : ∀ i, 0 ≤ b.dim i) (hin : ∀ k ∈ p, ∀ i, |k.loc i - b.center i| ≤ 3 * b.dim i / 2) :
    oks g p b scales w = some 1 := by
  have hd : p.mapM (fun k => boxDisplacement k.loc ⟨b.center, fun i => 3 * b.dim i, 0⟩) = some (p.map fun _ => 0) := by
    clear h2
    induction p with
    | nil => rfl
    | cons k rest ih =>
      have hz : boxDisplacement k.loc ⟨b.center, fun i => 3 * b.dim i, 0⟩ = some 0 := by
        rw [boxDisplacement_zero fun j => by have := hb j; dsimp only; linarith, inside_iff]
        have := hin k List.mem_cons_self
        simp only [flip, neg_zero, Real.cos_zero, Real.sin_zero, mul_one, mul_zero, add_zero, sub_zero]
        exact ⟨this 0, this 1, this 2⟩
      rw [List.mapM_cons, hz, ih fun x hx => hin x (List.mem_cons_of_mem _ hx)]
      rfl
  have hav : ¬ 0 < (g.map mask).sum := by
    rw [not_lt]
    refine le_of_eq (List.sum_eq_zero fun x hx => ?_)
    obtain ⟨k, hk, rfl⟩ := List.mem_map.mp hx
    unfold mask
    rw [if_neg (not_lt.mpr (hg k hk))]
  unfold oks
  simp only [h1, h2, h3, and_self, guard_true, Option.bind_eq_bind, Option.pure_def, Option.bind_some, hd, hav, decide_false,
    Bool.false_eq_true, if_false, Option.some.injEq]
  have e : List.zipWith oksPoint (p.map fun _ => 0) (scales.map fun s => s * boxScale b) = List.replicate scales.length 1 := by
    rw [List.eq_replicate_iff]
    refine ⟨by simp [h2], fun x hx => ?_⟩
    obtain ⟨d, hd', s, _, rfl⟩ := mem_zipWith' hx
    obtain ⟨_, _, rfl⟩ := List.mem_map.mp hd'
    unfold oksPoint divNoNan
    simp
  rw [e, List.sum_replicate]
  have : (scales.length : ℝ) ≠ 0 := by
    rw [Nat.cast_ne_zero]
    simpa using hne
  unfold divNoNan
  rw [if_neg this, nsmul_eq_mul, mul_one, div_self this]

/-- C73: the score of one key point. -/
theorem oksPoint_spec {d : V3} {s : ℝ} (hs : s ≠ 0) : oksPoint d s = Real.exp (-(norm d ^ 2) / (2 * s ^ 2)) := by
  unfold oksPoint divNoNan norm
  rw [Real.sq_sqrt (by positivity), if_neg (by simpa using hs)]
  congr 1
  rw [show 2 * s * s = 2 * s ^ 2 by ring]
  congr 1
  ring

/-- C73: the scale is the cube root of the volume. -/
theorem boxScale_spec {b : Box} (hb : ∀ i, 0 ≤ b.dim i) : boxScale b ^ 3 = b.dim 0 * b.dim 1 * b.dim 2 ∧ 0 ≤ boxScale b := by
  have h : 0 ≤ b.dim 0 * b.dim 1 * b.dim 2 := mul_nonneg (mul_nonneg (hb 0) (hb 1)) (hb 2)
  unfold boxScale
  refine ⟨?_, Real.rpow_nonneg h _⟩
  rw [← Real.rpow_natCast, ← Real.rpow_mul h]
  norm_num

/-- C73 has a limit: for a box without volume every prediction is perfect, because a division by zero is replaced by zero
before the exponential. -/
theorem oks_flat {d : V3} : oksPoint d 0 = 1 := by
  unfold oksPoint divNoNan
  simp

/-- C73: a looser threshold never turns a correct key point into a wrong one. -/
theorem pck_mono {t t' : ℝ} (h : t ≤ t') (g p : Keypoint) : (pckValue t g p).1 ≤ (pckValue t' g p).1 ∧
    (pckValue t g p).2 = (pckValue t' g p).2 := by
  refine ⟨?_, rfl⟩
  unfold pckValue
  dsimp only
  split
  · next h1 => rw [if_pos (h1.trans h)]
  · split
    · exact zero_le_one
    · exact le_refl _

/-! ### Key points by type -/

theorem byType_spec (ks : List (ℤ × (V3 × Bool))) (t : ℤ) :
    byType ks t = (ks.reverse.find? fun k => k.1 == t).map Prod.snd := by
  unfold byType
  induction ks using List.reverseRecOn with
  | nil => rfl
  | append_singleton ks k ih =>
    rw [List.foldl_append, List.foldl_cons, List.foldl_nil, List.reverse_append, List.reverse_singleton,
      List.singleton_append, List.find?_cons]
    by_cases h : t = k.1
    · rw [if_pos h]
      have : (k.1 == t) = true := by simp [h]
      rw [this]
      rfl
    · rw [if_neg h, ih]
      have : (k.1 == t) = false := by simpa using Ne.symm h
      rw [this]

/-- C73: the tensor of an object has, at every position, the location and the visibility of the last key point of the type at
that position: 2 if it is visible, 1 if it is occluded, and 0 and the default location if there is none. -/
theorem tensorsFromPoints_spec (ks : List (ℤ × (V3 × Bool))) (default : V3) (order : List ℤ) (i : ℕ) (t : ℤ)
    (hi : order[i]? = some t) : (tensorsFromPoints (byType ks) default order)[i]? =
      some (match ks.reverse.find? fun k => k.1 == t with
        | none => ⟨default, 0⟩
        | some k => ⟨k.2.1, if k.2.2 then 1 else 2⟩) := by
  unfold tensorsFromPoints
  rw [List.getElem?_map, hi, Option.map_some, byType_spec]
  cases ks.reverse.find? fun k => k.1 == t with
  | none => rfl
  | some k => rfl

theorem srcIndex_spec {src : List ℤ} (h : src.Nodup) {i : ℕ} {t : ℤ} (hi : src[i]? = some t) : srcIndex src t = some i := by
  unfold srcIndex
  have key : ∀ (l : List ℤ) (k : ℕ) (d : ℤ → Option ℕ), l.Nodup → ∀ j, l[j]? = some t →
      (l.zipIdx k).foldl (fun d k t => if t = k.1 then some k.2 else d t) d t = some (k + j) := by
    intro l
    induction l with
    | nil => intro k d _ j hj; simp at hj
    | cons a rest ih =>
      intro k d hn j hj
      rw [List.nodup_cons] at hn
      rw [List.zipIdx_cons, List.foldl_cons]
      cases j with
      | zero =>
        have ha : a = t := by simpa using hj
        subst ha
        have hnot : ∀ (l : List ℤ) (k : ℕ) (d : ℤ → Option ℕ), a ∉ l →
            (l.zipIdx k).foldl (fun d k t => if t = k.1 then some k.2 else d t) d a = d a := by
          intro l
          induction l with
          | nil => intro _ _ _; rfl
          | cons b l ih =>
            intro k d hb
            rw [List.zipIdx_cons, List.foldl_cons, ih _ _ fun h => hb (List.mem_cons_of_mem _ h), if_neg]
            rintro rfl
            exact hb List.mem_cons_self
        rw [hnot _ _ _ hn.1, if_pos rfl]
        rfl
      | succ j =>
        rw [ih (k + 1) _ hn.2 j (by simpa using hj)]
        congr 1
        omega
  have := key src 0 (fun _ => none) h i hi
  rwa [Nat.zero_add] at this

/-- C73: selecting a subset of the types returns, at every position, the value of the type at that position. -/
theorem selectSubset_spec {α : Type} {values : List α} {src dst : List ℤ} (hn : src.Nodup) (hl : values.length = src.length)
    (hd : ∀ t ∈ dst, t ∈ src) : ∃ out, selectSubset values src dst = some out ∧ out.length = dst.length ∧
      ∀ (j : ℕ) (t : ℤ) (i : ℕ), dst[j]? = some t → src[i]? = some t → out[j]? = values[i]? := by
  unfold selectSubset
  rw [if_neg (by simpa using hl), if_pos (by simpa using hd)]
  induction dst with
  | nil => exact ⟨[], rfl, rfl, fun j t i h => by simp at h⟩
  | cons t dst ih =>
    obtain ⟨out, h1, h2, h3⟩ := ih fun x hx => hd x (List.mem_cons_of_mem _ hx)
    obtain ⟨i, hi⟩ := List.getElem?_of_mem (hd t List.mem_cons_self)
    have hlt : i < values.length := by
      rw [hl]
      by_contra hge
      rw [List.getElem?_eq_none (by omega)] at hi
      simp at hi
    refine ⟨values[i] :: out, ?_, by simp [h2], ?_⟩
    · rw [List.mapM_cons, srcIndex_spec hn hi, Option.bind_some, List.getElem?_eq_getElem hlt, h1]
      rfl
    · intro j t' i' hj hi'
      cases j with
      | zero =>
        have ht : t = t' := by simpa using hj
        subst ht
        have : i = i' := Option.some.inj ((srcIndex_spec hn hi).symm.trans (srcIndex_spec hn hi'))
        subst this
        simp [List.getElem?_eq_getElem hlt]
      | succ j =>
        have := h3 j t' i' (by simpa using hj) hi'
        simpa using this

/-- C73: types that are not there, or a wrong number of values, are an error. -/
theorem selectSubset_error {α : Type} {values : List α} {src dst : List ℤ}
    (h : values.length ≠ src.length ∨ ∃ t ∈ dst, t ∉ src) : selectSubset values src dst = none := by
  unfold selectSubset
  by_cases h1 : values.length ≠ src.length
  · rw [if_pos h1]
  · rw [if_neg h1, if_neg]
    rcases h with h | ⟨t, ht, hs⟩
    · exact absurd h h1
    · simp only [List.all_eq_true, decide_eq_true_eq, not_forall]
      exact ⟨t, ht, hs⟩

end Verif.Pose
