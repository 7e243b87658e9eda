import Verif.Props.PoseTensors
import Verif.Props.CameraTutorial
import Verif.Props.OccTutorial

/-!
# Exactly when rows of pose tensors have boxes, rectangles are drawn and the flow loss vanishes (C186, C206, C192)
-/

namespace Verif.PoseTensors

open Verif.Boxes Verif.Pose

/-- **C186, exactly**: there is a row of boxes for each row of key points exactly if all objects with key points have a box. -/
theorem create_boxes_iff {poses : List Input} {default : V3} {order : List ℤ} {out : Output} (ho : order ≠ [])
    (h : create poses default order = some out) :
    (∃ b, out.box = some b ∧ b.center.length = out.keypoints.location.length) ↔ ∀ k ∈ kept poses, k.2.isSome := by
  rw [create_spec poses default ho, Option.some.injEq] at h
  subst h
  have hlen : ∀ l : List (List (ℤ × (V3 × Bool)) × Option LabelBox),
      (l.filterMap Prod.snd).length = l.length ↔ ∀ k ∈ l, k.2.isSome := by
    intro l
    induction l with
    | nil => simp
    | cons k l ih =>
      have hle := List.length_filterMap_le Prod.snd l
      cases hk : k.2 with
      | none =>
        rw [List.filterMap_cons_none hk]
        simp only [List.length_cons, List.mem_cons, forall_eq_or_imp, hk, Option.isSome_none, Bool.false_eq_true, false_and, iff_false]
        omega
      | some b =>
        rw [List.filterMap_cons_some hk]
        simp only [List.length_cons, List.mem_cons, forall_eq_or_imp, hk, Option.isSome_some, true_and, ← ih]
        omega
  by_cases h0 : kept poses = []
  · simp [h0]
  · by_cases h1 : (kept poses).filterMap Prod.snd = []
    · have : ¬ ∀ k ∈ kept poses, k.2.isSome := by
        rw [← hlen, h1]
        intro e
        exact h0 (List.length_eq_zero_iff.1 e.symm)
      simp only [h0, h1, if_false, if_true, this, iff_false]
      rintro ⟨b, hb, -⟩
      cases hb
    · simp only [h0, h1, if_false, Option.some.injEq, exists_eq_left', List.length_map, hlen]

end Verif.PoseTensors

namespace Verif.CameraTutorial

/-- **C206, exactly**: a rectangle is drawn for an object exactly if it has lidar points, all of its corners are projected, and the rectangle around them
has a point inside of the image. -/
theorem rectOf_iff {available : Bool} {width height : ℝ} (hw : 0 ≤ width) (hh : 0 ≤ height) {label : Label} {cs : List (ℝ × ℝ × Bool)}
    (hc : label.corners = some cs) {u0 u1 v0 v1 : ℝ} (hu : Hull (cs.map fun c => c.1) u0 u1) (hv : Hull (cs.map fun c => c.2.1) v0 v1) :
    (∃ r, rectOf available width height label = some (some r)) ↔
      ((available = true → label.topPoints ≠ 0) ∧ (available = false → label.points ≠ 0)) ∧ (∀ c ∈ cs, c.2.2 = true) ∧
      ∃ x y : ℝ, (0 < x ∧ x < width ∧ u0 < x ∧ x < u1) ∧ (0 < y ∧ y < height ∧ v0 < y ∧ y < v1) := by
  constructor
  · rintro ⟨r, hr⟩
    obtain ⟨h1, -, -, -, -, h6, h7, h8⟩ := rectOf_spec hw hh hc hr hu hv
    refine ⟨?_, h1, r.x + r.w / 2, r.y + r.h / 2, ?_⟩
    · by_contra hn
      have : (available = true ∧ label.topPoints = 0) ∨ (available = false ∧ label.points = 0) := by
        cases available <;> simp_all
      unfold rectOf at hr
      simp only [hc] at hr
      rw [if_pos this] at hr
      simp at hr
    · obtain ⟨a, b, c, d, e, f, g, i⟩ := (h8 (r.x + r.w / 2) (r.y + r.h / 2)).1 ⟨by linarith, by linarith, by linarith, by linarith⟩
      exact ⟨⟨a, b, e, f⟩, c, d, g, i⟩
  · rintro ⟨h1, h2, x, y, hx, hy⟩
    exact rectOf_drawn hc h1 h2 hu hv hx hy

end Verif.CameraTutorial

namespace Verif.OccTutorial

/-- **C192, exactly**: the flow loss that is trained vanishes exactly if the prediction is right wherever it predicts a flow; what is left out costs nothing. -/
theorem trainedFlow_zero_iff (t p : List (ℝ × ℝ)) (h : t.length = p.length) :
    flowLoss p t = some 0 ↔ ∀ c ∈ t.zip p, c.2 ≠ (0, 0) → c.1 = c.2 := by
  classical
  rw [(trainedFlow_partial t p h).1, Option.some.injEq]
  have hl1 : ∀ c, 0 ≤ l1 c := fun c => add_nonneg (abs_nonneg _) (abs_nonneg _)
  have hz : ∀ c : (ℝ × ℝ) × (ℝ × ℝ), l1 c = 0 ↔ c.1 = c.2 := by
    rintro ⟨⟨a, b⟩, x, y⟩
    unfold l1
    rw [add_eq_zero_iff_of_nonneg (abs_nonneg _) (abs_nonneg _), abs_eq_zero, abs_eq_zero, sub_eq_zero, sub_eq_zero, Prod.mk.injEq]
  have hs : ∀ l : List ((ℝ × ℝ) × (ℝ × ℝ)), 0 ≤ (l.map l1).sum ∧ ((l.map l1).sum = 0 ↔ ∀ c ∈ l, c.1 = c.2) := by
    intro l
    induction l with
    | nil => simp
    | cons c l ih =>
      rw [List.map_cons, List.sum_cons]
      refine ⟨add_nonneg (hl1 c) ih.1, ?_⟩
      rw [add_eq_zero_iff_of_nonneg (hl1 c) ih.1, ih.2, hz]
      simp
  have hm : ∀ l : List ((ℝ × ℝ) × (ℝ × ℝ)), 2 * (if l.length = 0 then 0 else (l.map l1).sum / (l.length : ℝ)) = 0 ↔ ∀ c ∈ l, c.1 = c.2 := by
    intro l
    by_cases h0 : l.length = 0
    · have := List.length_eq_zero_iff.1 h0
      subst this
      simp
    · rw [if_neg h0, ← (hs l).2]
      have : (l.length : ℝ) ≠ 0 := by exact_mod_cast h0
      constructor
      · intro e
        rcases mul_eq_zero.1 e with e | e
        · norm_num at e
        · exact (div_eq_zero_iff.1 e).resolve_right this
      · intro e
        rw [e, zero_div, mul_zero]
  unfold meanL1
  rw [hm]
  simp only [List.mem_filter, decide_eq_true_eq, and_imp]

end Verif.OccTutorial
