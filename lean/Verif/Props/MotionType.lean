import Verif.Props.MotionFrame
import Verif.Props.Angles

/-!
Property C70: the type of a ground truth trajectory.
-/

namespace Verif.Motion

/-- The end state lies `ahead` in front and `left` to the left of the start state. -/
def Relative (s e : State) (ahead left : ℝ) : Prop :=
  e.x = s.x + ahead * Real.cos s.heading - left * Real.sin s.heading ∧
    e.y = s.y + ahead * Real.sin s.heading + left * Real.cos s.heading

/-- Slow at both ends and less than three units apart. -/
def Stays (s e : State) : Prop :=
  √(s.vx ^ 2 + s.vy ^ 2) < 2 ∧ √(e.vx ^ 2 + e.vy ^ 2) < 2 ∧ √((e.x - s.x) ^ 2 + (e.y - s.y) ^ 2) < 3

/-- The headings differ by less than 30 degrees, up to full turns. -/
def Aligned (s e : State) : Prop := ∃ k : ℤ, |e.heading - s.heading - k * (2 * Real.pi)| < Real.pi / 6

/-- The documented type. -/
def HasType (s e : State) (ahead left : ℝ) : TrajType → Prop
  | .stationary => Stays s e
  | .straight => ¬ Stays s e ∧ Aligned s e ∧ |left| < 5 / 2
  | .straightLeft => ¬ Stays s e ∧ Aligned s e ∧ 5 / 2 ≤ left
  | .straightRight => ¬ Stays s e ∧ Aligned s e ∧ left ≤ -(5 / 2)
  | .leftTurn => ¬ Stays s e ∧ ¬ Aligned s e ∧ 0 ≤ left ∧ 0 ≤ ahead
  | .leftUTurn => ¬ Stays s e ∧ ¬ Aligned s e ∧ 0 ≤ left ∧ ahead < 0
  | .rightTurn => ¬ Stays s e ∧ ¬ Aligned s e ∧ left < 0 ∧ 0 ≤ ahead
  | .rightUTurn => ¬ Stays s e ∧ ¬ Aligned s e ∧ left < 0 ∧ ahead < 0

theorem aligned_iff (s e : State) : Aligned s e ↔ |Angles.normalizeAngle (e.heading - s.heading)| < Real.pi / 6 := by
  have hpi := Real.pi_pos
  constructor
  · rintro ⟨k, hk⟩
    have h1 : Angles.normalizeAngle (e.heading - s.heading) = e.heading - s.heading - k * (2 * Real.pi) := by
      have h2 := Angles.normalizeAngle_congr (e.heading - s.heading - k * (2 * Real.pi)) k
      have h3 := abs_lt.mp hk
      have h4 : Angles.normalizeAngle (e.heading - s.heading - k * (2 * Real.pi)) =
          e.heading - s.heading - k * (2 * Real.pi) :=
        Angles.wrapToRange_of_mem _ _ _ (by linarith [h3.1]) (by linarith [h3.2])
      rw [← h4, ← h2]
      congr 1
      ring
    rw [h1]
    exact hk
  · intro h
    obtain ⟨_, _, k, hk⟩ := Angles.normalizeAngle_spec (e.heading - s.heading)
    refine ⟨k, ?_⟩
    have : e.heading - s.heading - k * (2 * Real.pi) = Angles.normalizeAngle (e.heading - s.heading) := by linarith
    rw [this]
    exact h

theorem relative_rotate {s e : State} {ahead left : ℝ} (h : Relative s e ahead left) :
    rotate (e.x - s.x) (e.y - s.y) (-s.heading) = (ahead, left) := by
  obtain ⟨h1, h2⟩ := h
  have := Real.sin_sq_add_cos_sq s.heading
  simp only [rotate, Real.cos_neg, Real.sin_neg, h1, h2, Prod.mk.injEq]
  constructor
  · linear_combination ahead * this
  · linear_combination left * this

/-- Every end state has such coordinates, and only one pair. -/
theorem relative_exists (s e : State) : ∃! p : ℝ × ℝ, Relative s e p.1 p.2 := by
  refine ⟨rotate (e.x - s.x) (e.y - s.y) (-s.heading), ?_, ?_⟩
  · have := Real.sin_sq_add_cos_sq s.heading
    simp only [Relative, rotate, Real.cos_neg, Real.sin_neg]
    constructor
    · linear_combination -(e.x - s.x) * this
    · linear_combination -(e.y - s.y) * this
  · rintro ⟨a, l⟩ h
    exact (relative_rotate h).symm

theorem classify_has {s e : State} {ahead left : ℝ} (h : Relative s e ahead left) :
    HasType s e ahead left (classify s e) := by
  have hst : Stays s e ↔ max (hypot s.vx s.vy) (hypot e.vx e.vy) < 2 ∧ hypot (e.x - s.x) (e.y - s.y) < 3 := by
    unfold Stays hypot
    rw [max_lt_iff]
    tauto
  have hal := aligned_iff s e
  unfold classify
  simp only [relative_rotate h]
  by_cases h1 : Stays s e
  · rw [if_pos (hst.mp h1)]; exact h1
  · rw [if_neg fun hc => h1 (hst.mpr hc)]
    by_cases h2 : Aligned s e
    · rw [if_pos (hal.mp h2)]
      by_cases h3 : |left| < 5 / 2
      · rw [if_pos h3]; exact ⟨h1, h2, h3⟩
      · rw [if_neg h3]
        have h3' := not_lt.mp h3
        by_cases h4 : left < 0
        · rw [if_pos h4]
          rw [abs_of_neg h4] at h3'
          exact ⟨h1, h2, by linarith⟩
        · rw [if_neg h4]
          rw [abs_of_nonneg (not_lt.mp h4)] at h3'
          exact ⟨h1, h2, h3'⟩
    · rw [if_neg fun hc => h2 (hal.mpr hc)]
      by_cases h4 : left < 0
      · rw [if_pos h4]
        by_cases h5 : ahead < 0
        · rw [if_pos h5]; exact ⟨h1, h2, h4, h5⟩
        · rw [if_neg h5]; exact ⟨h1, h2, h4, not_lt.mp h5⟩
      · rw [if_neg h4]
        by_cases h5 : ahead < 0
        · rw [if_pos h5]; exact ⟨h1, h2, not_lt.mp h4, h5⟩
        · rw [if_neg h5]; exact ⟨h1, h2, not_lt.mp h4, not_lt.mp h5⟩

theorem hasType_unique {s e : State} {ahead left : ℝ} {a b : TrajType} (ha : HasType s e ahead left a)
    (hb : HasType s e ahead left b) : a = b := by
  cases a <;> cases b <;> first | rfl | skip
  all_goals
    simp only [HasType, abs_lt] at ha hb
    exfalso
    first
      | tauto
      | (obtain ⟨_, _, h1⟩ := ha; obtain ⟨_, _, h2⟩ := hb; linarith [h1.1, h2])
      | (obtain ⟨_, _, h1⟩ := ha; obtain ⟨_, _, h2⟩ := hb; linarith [h1.2, h2])
      | (obtain ⟨_, _, h1⟩ := ha; obtain ⟨_, _, h2⟩ := hb; linarith [h2.1, h1])
      | (obtain ⟨_, _, h1⟩ := ha; obtain ⟨_, _, h2⟩ := hb; linarith [h2.2, h1])
      | (obtain ⟨_, _, h1⟩ := ha; obtain ⟨_, _, h2⟩ := hb; linarith [h1, h2])
      | (obtain ⟨_, _, h1, h1'⟩ := ha; obtain ⟨_, _, h2, h2'⟩ := hb; linarith)

/-- C70: a trajectory has exactly the documented type. -/
theorem classify_spec {s e : State} {ahead left : ℝ} (h : Relative s e ahead left) (ty : TrajType) :
    classify s e = ty ↔ HasType s e ahead left ty :=
  ⟨fun hc => hc ▸ classify_has h, fun ht => hasType_unique (classify_has h) ht⟩

/-- The type seen in a mirror. -/
def TrajType.mirror : TrajType → TrajType
  | .stationary => .stationary
  | .straight => .straight
  | .straightLeft => .straightRight
  | .straightRight => .straightLeft
  | .leftTurn => .rightTurn
  | .rightTurn => .leftTurn
  | .leftUTurn => .rightUTurn
  | .rightUTurn => .leftUTurn

/-- A state seen in a mirror along the first axis. -/
def State.mirror (s : State) : State := ⟨s.x, -s.y, -s.heading, s.vx, -s.vy, s.length, s.width, s.valid⟩

/-- C70: mirroring a trajectory that does not end exactly in front of or behind its start swaps left and right. -/
theorem classify_mirror {s e : State} {ahead left : ℝ} (h : Relative s e ahead left) (h0 : left ≠ 0) :
    classify s.mirror e.mirror = (classify s e).mirror := by
  have hr : Relative s.mirror e.mirror ahead (-left) := by
    obtain ⟨h1, h2⟩ := h
    constructor
    · simp only [State.mirror, Real.cos_neg, Real.sin_neg, h1]; ring
    · simp only [State.mirror, Real.cos_neg, Real.sin_neg, h2]; ring
  have hst : Stays s.mirror e.mirror ↔ Stays s e := by
    simp only [Stays, State.mirror]
    have : (-e.y - -s.y) ^ 2 = (e.y - s.y) ^ 2 := by ring
    rw [this, neg_sq, neg_sq]
  have hal : Aligned s.mirror e.mirror ↔ Aligned s e := by
    have key : ∀ (a b : ℝ), (∃ k : ℤ, |a - b - k * (2 * Real.pi)| < Real.pi / 6) →
        ∃ k : ℤ, |-a - -b - k * (2 * Real.pi)| < Real.pi / 6 := by
      rintro a b ⟨k, hk⟩
      refine ⟨-k, ?_⟩
      rw [← abs_neg]
      push_cast
      convert hk using 2
      ring
    constructor
    · intro h
      have := key _ _ h
      simpa [State.mirror, Aligned] using this
    · exact key _ _
  rw [classify_spec hr]
  have := classify_has h
  cases hc : classify s e <;> rw [hc] at this <;> simp only [HasType, TrajType.mirror, hst, hal] at this ⊢
  · exact this
  · rw [abs_neg]; exact this
  · exact ⟨this.1, this.2.1, by linarith [this.2.2]⟩
  · exact ⟨this.1, this.2.1, by linarith [this.2.2]⟩
  · exact ⟨this.1, this.2.1, by have := lt_of_le_of_ne this.2.2.1 (Ne.symm h0); linarith, this.2.2.2⟩
  · exact ⟨this.1, this.2.1, by have := lt_of_le_of_ne this.2.2.1 (Ne.symm h0); linarith, this.2.2.2⟩
  · exact ⟨this.1, this.2.1, by linarith [this.2.2.1], this.2.2.2⟩
  · exact ⟨this.1, this.2.1, by linarith [this.2.2.1], this.2.2.2⟩

/-- A quarter turn to the left. -/
theorem example_left_turn :
    classify ⟨0, 0, 0, 5, 0, 4, 2, true⟩ ⟨10, 10, Real.pi / 2, 0, 5, 4, 2, true⟩ = .leftTurn := by
  rw [classify_spec (ahead := 10) (left := 10) (by simp [Relative])]
  refine ⟨?_, ?_, by norm_num, by norm_num⟩
  · rintro ⟨h, _⟩
    simp only at h
    have : √((5 : ℝ) ^ 2 + 0 ^ 2) = 5 := by
      rw [show (5 : ℝ) ^ 2 + 0 ^ 2 = 5 ^ 2 by norm_num, Real.sqrt_sq (by norm_num)]
    linarith
  · rintro ⟨k, hk⟩
    have hpi := Real.pi_pos
    simp only [sub_zero] at hk
    rw [abs_lt] at hk
    have h1 : (k : ℝ) < 1 := by
      by_contra hc
      have := mul_le_mul_of_nonneg_right (not_lt.mp hc) (by positivity : 0 ≤ 2 * Real.pi)
      linarith [hk.1]
    have h2 : 0 < (k : ℝ) := by
      by_contra hc
      have := mul_le_mul_of_nonneg_right (not_lt.mp hc) (by positivity : 0 ≤ 2 * Real.pi)
      linarith [hk.2]
    have h3 : k < 1 := by exact_mod_cast h1
    have h4 : 0 < k := by exact_mod_cast h2
    omega

end Verif.Motion
