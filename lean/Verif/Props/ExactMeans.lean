import Verif.Props.OccupancyWaypoints
import Verif.Props.CameraTutorial

/-! Exactly when accumulated flow is the mean of the flows, and when frames of an evaluation are told apart. -/

namespace Verif.Occupancy

theorem countP_eq_countP_iff {α : Type} (p q : α → Bool) : ∀ l : List α, (∀ x ∈ l, p x = true → q x = true) →
    (l.countP p = l.countP q ↔ ∀ x ∈ l, q x = true → p x = true) := by
  intro l
  induction l with
  | nil => simp
  | cons a l ih =>
    intro h
    have hl : ∀ x ∈ l, p x = true → q x = true := fun x hx => h x (by simp [hx])
    have hle : l.countP p ≤ l.countP q := List.countP_mono_left hl
    have ha := h a (by simp)
    simp only [List.countP_cons, List.forall_mem_cons]
    rw [← ih hl]
    cases hp : p a <;> cases hq : q a <;> simp_all <;> omega

/-- The sum of the values of all pairs is that of the pairs that are not zero. -/
theorem sum_nonzero (g : ℝ × ℝ → ℝ) (h0 : g (0, 0) = 0) (seg : List (ℝ × ℝ)) :
    ((seg.filter fun f => f ≠ (0, 0)).map g).sum = (seg.map g).sum := by
  induction seg with
  | nil => rfl
  | cons a l ih =>
    by_cases h : a = (0, 0)
    · rw [List.filter_cons_of_neg (by simp [h]), ih, List.map_cons, List.sum_cons, h, h0, zero_add]
    · rw [List.filter_cons_of_pos (by simp [h]), List.map_cons, List.map_cons, List.sum_cons, List.sum_cons, ih]

theorem mean_component_iff (g : ℝ × ℝ → ℝ) (h0 : g (0, 0) = 0) (seg : List (ℝ × ℝ)) :
    mean ((seg.map g).filter fun x => x ≠ 0) = mean ((seg.filter fun f => f ≠ (0, 0)).map g) ↔
      (seg.map g).sum = 0 ∨ ∀ f ∈ seg, f ≠ (0, 0) → g f ≠ 0 := by
  have e1 : ((seg.map g).filter fun x => x ≠ 0).length = seg.countP fun f => decide (g f ≠ 0) := by
    rw [← List.countP_eq_length_filter, List.countP_map]
    rfl
  have e2 : ((seg.filter fun f => f ≠ (0, 0)).map g).length = seg.countP fun f => decide (f ≠ (0, 0)) := by
    rw [List.length_map, ← List.countP_eq_length_filter]
  unfold mean
  rw [sum_filter_ne, sum_nonzero g h0, e1, e2]
  have himp : ∀ f ∈ seg, decide (g f ≠ 0) = true → decide (f ≠ (0, 0)) = true := by
    intro f _ hf
    simp only [decide_eq_true_eq] at hf ⊢
    rintro rfl
    exact hf h0
  have hc := countP_eq_countP_iff (fun f => decide (g f ≠ 0)) (fun f : ℝ × ℝ => decide (f ≠ (0, 0))) seg himp
  have hc' : (∀ f ∈ seg, f ≠ (0, 0) → g f ≠ 0) ↔ seg.countP (fun f => decide (g f ≠ 0)) = seg.countP fun f => decide (f ≠ (0, 0)) := by
    rw [hc]
    simp only [decide_eq_true_eq]
  rw [hc']
  by_cases hs : (seg.map g).sum = 0
  · simp [hs]
  · simp only [hs, false_or]
    constructor
    · intro h
      rw [div_eq_mul_inv, div_eq_mul_inv] at h
      have := inv_injective (mul_left_cancel₀ hs h)
      exact_mod_cast this
    · intro h
      rw [h]

/-- C85 exactly: the accumulated flow is the mean of the flow vectors of the segment that are not zero exactly when, in each direction, the
values add up to zero or no such vector has the value zero. -/
theorem flowAt_mean_iff (size k : ℕ) (l seg : List (ℝ × ℝ)) (hs : seg = slice l ((k + 1) * size - size) ((k + 1) * size)) :
    flowAt true size k l = some (mean ((seg.filter fun f => f ≠ (0, 0)).map Prod.fst), mean ((seg.filter fun f => f ≠ (0, 0)).map Prod.snd)) ↔
      ((seg.map Prod.fst).sum = 0 ∨ ∀ f ∈ seg, f ≠ (0, 0) → f.1 ≠ 0) ∧ ((seg.map Prod.snd).sum = 0 ∨ ∀ f ∈ seg, f ≠ (0, 0) → f.2 ≠ 0) := by
  rw [flowAt_cumulative, ← hs, Option.some.injEq, Prod.mk.injEq, mean_component_iff Prod.fst rfl, mean_component_iff Prod.snd rfl]

/-- Flows of opposite directions, one of them slanted. -/
theorem flowAt_mean_iff_case : flowAt true 2 0 [((1 : ℝ), 1), (-1, 1)] = some (0, 1) := by
  have := (flowAt_mean_iff 2 0 [((1 : ℝ), 1), (-1, 1)] _ rfl).2 ⟨.inl (by norm_num [slice]), .inr (by norm_num [slice])⟩
  rw [this]
  norm_num [slice, mean]

end Verif.Occupancy

namespace Verif.CameraTutorial

/-- C205 exactly: a ground truth and a prediction are evaluated in one frame only if they are of one context exactly when those of different
contexts have different times. -/
theorem frames_iff (truths : List Truth) (predictions : List Obj) :
    (∀ (i j : ℕ) (g : Truth) (o : Obj), (truths.filter kept)[i]? = some g → predictions[j]? = some o →
      (parse truths predictions).gtFrame[i]? = (parse truths predictions).predFrame[j]? → g.context = o.context) ↔
    ∀ g ∈ truths, g.camera ≠ "" → g.points ≠ 0 → ∀ o ∈ predictions, g.time = o.time → g.context = o.context := by
  constructor
  · intro h g hg hc hp o ho ht
    obtain ⟨i, hi⟩ := List.getElem?_of_mem (List.mem_filter.2 ⟨hg, (by simp [kept, hc, hp] : kept g = true)⟩)
    obtain ⟨j, hj⟩ := List.getElem?_of_mem ho
    refine h i j g o hi hj ?_
    simp only [parse, List.getElem?_map, hi, hj, Option.map_some, ht]
  · intro h i j g o hi hj e
    simp only [parse, List.getElem?_map, hi, hj, Option.map_some, Option.some.injEq] at e
    obtain ⟨hg, hk⟩ := List.mem_filter.1 (List.mem_of_getElem? hi)
    simp only [kept, decide_eq_true_eq] at hk
    exact h g hg hk.1 hk.2 o (List.mem_of_getElem? hj) e

end Verif.CameraTutorial
