import Verif.Model.Wire

/-! What the parser asks of the no-label zones in a file of results (C134): the coordinates of their polygons are whole doubles. -/

namespace Verif.Wire

/-- Specification: bytes that are fields, nested at most `depth` deep, all of whose length-delimited values are as `ok` says for the field. -/
def Fields (depth : ℕ) (ok : ℕ → Bytes → Prop) (b : Bytes) : Prop :=
  ∃ fs, scan depth b = some fs ∧ ∀ f ∈ fs, ∀ p, f.val = .bytes p → ok f.num p

theorem accepts_message (depth : ℕ) (sub : ℕ → Schema) (b : Bytes) :
    accepts depth (.message sub) b = true ↔ Fields depth (fun n p => accepts (depth - 1) (sub n) p = true) b := by
  unfold Fields
  rw [accepts]
  cases scan depth b with
  | none => simp
  | some fs =>
    simp only [Option.some.injEq, exists_eq_left', List.all_eq_true]
    refine forall_congr' fun f => forall_congr' fun _ => ?_
    cases hv : f.val <;> simp

theorem Fields.congr {depth : ℕ} {ok ok' : ℕ → Bytes → Prop} (h : ∀ n p, ok n p ↔ ok' n p) (b : Bytes) :
    Fields depth ok b ↔ Fields depth ok' b := by
  unfold Fields
  simp only [h]

/-- **Exactly which bytes are a polygon** (C134): fields of which the first and second, if packed, are whole doubles. -/
theorem polygon_accepts (depth : ℕ) (b : Bytes) :
    accepts depth polygonSchema b = true ↔ Fields depth (fun n p => n = 1 ∨ n = 2 → 8 ∣ p.length) b := by
  unfold polygonSchema
  rw [accepts_message]
  apply Fields.congr
  intro n p
  by_cases h : n = 1 ∨ n = 2
  · rw [if_pos h, accepts]
    simp [h, Nat.dvd_iff_mod_eq_zero]
  · rw [if_neg h, accepts]
    simp [h]

/-- **Exactly which bytes are a no-label zone** (C134). -/
theorem zone_accepts (depth : ℕ) (b : Bytes) :
    accepts depth zoneSchema b = true ↔
      Fields depth (fun n p => n = 1 → Fields (depth - 1) (fun k q => k = 1 ∨ k = 2 → 8 ∣ q.length) p) b := by
  unfold zoneSchema
  rw [accepts_message]
  apply Fields.congr
  intro n p
  by_cases h : n = 1
  · rw [if_pos h, polygon_accepts]
    simp [h]
  · rw [if_neg h, accepts]
    simp [h]

/-- **Exactly which bytes are a file of results** (C134): objects with a label each of whose messages can be read, and zones. -/
theorem objects_accepts (depth : ℕ) (b : Bytes) :
    accepts depth objectsSchema b = true ↔
      Fields depth (fun n p =>
        (n = 1 → Fields (depth - 1) (fun k q => k = 1 → accepts (depth - 1 - 1) labelSchema q = true) p) ∧
        (n = 2 → Fields (depth - 1) (fun k q => k = 1 → Fields (depth - 1 - 1) (fun j r => j = 1 ∨ j = 2 → 8 ∣ r.length) q) p)) b := by
  unfold objectsSchema
  rw [accepts_message]
  apply Fields.congr
  intro n p
  by_cases h : n = 1
  · rw [if_pos h]
    simp only [h, true_imp_iff, show ¬ (1 = 2) by decide, false_imp_iff, and_true]
    unfold objectSchema
    rw [accepts_message]
    apply Fields.congr
    intro k q
    by_cases hk : k = 1
    · rw [if_pos hk]; simp [hk]
    · rw [if_neg hk, accepts]; simp [hk]
  · rw [if_neg h]
    by_cases h2 : n = 2
    · rw [if_pos h2, zone_accepts]
      simp [h2]
    · rw [if_neg h2, accepts]
      simp [h, h2]

/-- **Exactly which bytes are a label** (C134): the box, the meta data, the box in the camera and the association are fields; the key points are
messages of key points, and each of these has positions that are messages of two vectors. -/
theorem label_accepts (depth : ℕ) (b : Bytes) :
    accepts depth labelSchema b = true ↔
      Fields depth (fun n p =>
        (n = 1 ∨ n = 2 ∨ n = 10 ∨ n = 12 → accepts (depth - 1) flatSchema p = true) ∧
        (n = 8 → Fields (depth - 1) (fun k q => k = 1 → accepts (depth - 1 - 1) laserKeypoint q = true) p) ∧
        (n = 9 → Fields (depth - 1) (fun k q => k = 1 → accepts (depth - 1 - 1) cameraKeypoint q = true) p)) b := by
  unfold labelSchema
  rw [accepts_message]
  apply Fields.congr
  intro n p
  by_cases h : n = 1 ∨ n = 2 ∨ n = 10 ∨ n = 12
  · rw [if_pos h]
    have h8 : n ≠ 8 := by omega
    have h9 : n ≠ 9 := by omega
    simp [h, h8, h9]
  · rw [if_neg h]
    by_cases h8 : n = 8
    · rw [if_pos h8, accepts_message]
      have h9 : n ≠ 9 := by omega
      simp only [h, h8, h9, false_imp_iff, true_imp_iff, true_and, and_true, show ¬ (8 = 9) by decide]
      simp only [show ¬ (8 = 1 ∨ 8 = 2 ∨ 8 = 10 ∨ 8 = 12) by decide, false_imp_iff, true_and]
      apply Fields.congr
      intro k q
      by_cases hk : k = 1
      · rw [if_pos hk]; simp [hk]
      · rw [if_neg hk, accepts]; simp [hk]
    · rw [if_neg h8]
      by_cases h9 : n = 9
      · rw [if_pos h9, accepts_message]
        simp only [h9, true_imp_iff, show ¬ (9 = 8) by decide, false_imp_iff, true_and,
          show ¬ (9 = 1 ∨ 9 = 2 ∨ 9 = 10 ∨ 9 = 12) by decide]
        apply Fields.congr
        intro k q
        by_cases hk : k = 1
        · rw [if_pos hk]; simp [hk]
        · rw [if_neg hk, accepts]; simp [hk]
      · rw [if_neg h9, accepts]
        simp [h, h8, h9]

/-- **Exactly which bytes are a message of numbers** (C134): fields, whatever they hold. -/
theorem flat_accepts (depth : ℕ) (b : Bytes) : accepts depth flatSchema b = true ↔ ∃ fs, scan depth b = some fs := by
  unfold flatSchema
  rw [accepts_message]
  unfold Fields
  simp [accepts]

/-- **Exactly which bytes are a key point of a laser or a camera** (C134). -/
theorem keypoint_accepts (depth : ℕ) (b : Bytes) :
    (accepts depth laserKeypoint b = true ↔
      Fields depth (fun n p => n = 2 →
        Fields (depth - 1) (fun k q => k = 1 ∨ k = 2 → ∃ fs, scan (depth - 1 - 1) q = some fs) p) b) ∧
    (accepts depth cameraKeypoint b = true ↔
      Fields depth (fun n p => n = 2 ∨ n = 3 →
        Fields (depth - 1) (fun k q => k = 1 ∨ k = 2 → ∃ fs, scan (depth - 1 - 1) q = some fs) p) b) := by
  have pos : ∀ (depth : ℕ) (b : Bytes), accepts depth keypointPosition b = true ↔
      Fields depth (fun k q => k = 1 ∨ k = 2 → ∃ fs, scan (depth - 1) q = some fs) b := by
    intro depth b
    unfold keypointPosition
    rw [accepts_message]
    apply Fields.congr
    intro k q
    by_cases hk : k = 1 ∨ k = 2
    · rw [if_pos hk, flat_accepts]; simp [hk]
    · rw [if_neg hk, accepts]; simp [hk]
  constructor
  · unfold laserKeypoint
    rw [accepts_message]
    apply Fields.congr
    intro n p
    by_cases hn : n = 2
    · rw [if_pos hn, pos]; simp [hn]
    · rw [if_neg hn, accepts]; simp [hn]
  · unfold cameraKeypoint
    rw [accepts_message]
    apply Fields.congr
    intro n p
    by_cases hn : n = 2 ∨ n = 3
    · rw [if_pos hn, pos]; simp [hn]
    · rw [if_neg hn, accepts]; simp [hn]

/-- A polygon with eight bytes of y is accepted, and one with seven is not. -/
theorem polygon_case : accepts 100 polygonSchema [18, 8, 0, 0, 0, 0, 0, 0, 0, 0] = true ∧
    accepts 100 polygonSchema [18, 7, 0, 0, 0, 0, 0, 0, 0] = false := by
  decide +kernel

end Verif.Wire
