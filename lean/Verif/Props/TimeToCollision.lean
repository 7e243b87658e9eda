import Verif.Props.Nearest
import Verif.Props.RoadBase
import Verif.Props.Kinematics

/-!
The time to collision with the object in front: wdl_limited/sim_agents_metrics/interaction_features.py,
`compute_time_to_collision_with_object_in_front`.
-/

namespace Verif.Interaction

open Verif.Planar Verif.ListM
open Verif.Road (IsFirst exists_isFirst get_argmin)

/-! ### Specification -/

/-- The points of the box of a car. -/
def InCar (o : Car) (z : P) : Prop :=
  ∃ ξ η : ℝ, |ξ| ≤ o.length / 2 ∧ |η| ≤ o.width / 2 ∧
    z = (o.x + ξ * Real.cos o.heading - η * Real.sin o.heading, o.y + ξ * Real.sin o.heading + η * Real.cos o.heading)

/-- How far a point is ahead of the front of a car. -/
noncomputable def ahead (ego : Car) (z : P) : ℝ :=
  (z.1 - ego.x) * Real.cos ego.heading + (z.2 - ego.y) * Real.sin ego.heading - ego.length / 2

/-- How far a point is to the left of the middle of a car. -/
noncomputable def aside (ego : Car) (z : P) : ℝ := -(z.1 - ego.x) * Real.sin ego.heading + (z.2 - ego.y) * Real.cos ego.heading

/-- The gap between the front of a car and the nearest point of another, measured along the heading of the car. -/
theorem longDistance_spec (ego o : Car) (hl : 0 ≤ o.length) (hw : 0 ≤ o.width) :
    IsLeast {g | ∃ z, InCar o z ∧ g = ahead ego z} (longDistance ego o) := by
  have hval : longDistance ego o = (o.x - ego.x) * Real.cos ego.heading + (o.y - ego.y) * Real.sin ego.heading - ego.length / 2 -
      (o.length / 2 * |Real.cos (o.heading - ego.heading)| + o.width / 2 * |Real.sin (o.heading - ego.heading)|) := by
    have hs : |Real.sin (|o.heading - ego.heading|)| = |Real.sin (o.heading - ego.heading)| := by
      rcases abs_choice (o.heading - ego.heading) with h | h <;> rw [h]
      rw [Real.sin_neg, abs_neg]
    simp only [longDistance, relative, rotate, longOffset, yawDiff, dot, Real.cos_neg, Real.sin_neg, Real.cos_abs, hs]
    ring
  have hpt : ∀ ξ η : ℝ, ahead ego (o.x + ξ * Real.cos o.heading - η * Real.sin o.heading,
      o.y + ξ * Real.sin o.heading + η * Real.cos o.heading) = (o.x - ego.x) * Real.cos ego.heading +
      (o.y - ego.y) * Real.sin ego.heading - ego.length / 2 + (ξ * Real.cos (o.heading - ego.heading) -
      η * Real.sin (o.heading - ego.heading)) := by
    intro ξ η
    simp only [ahead, Real.cos_sub, Real.sin_sub]
    ring
  rw [hval]
  set c := Real.cos (o.heading - ego.heading)
  set s := Real.sin (o.heading - ego.heading)
  constructor
  · refine ⟨_, ⟨if 0 ≤ c then -(o.length / 2) else o.length / 2, if 0 ≤ s then o.width / 2 else -(o.width / 2), ?_, ?_, rfl⟩, ?_⟩
    · split
      · rw [abs_neg, abs_of_nonneg (by linarith)]
      · rw [abs_of_nonneg (by linarith)]
    · split
      · rw [abs_of_nonneg (by linarith)]
      · rw [abs_neg, abs_of_nonneg (by linarith)]
    · rw [hpt]
      split <;> split
      · rw [abs_of_nonneg ‹0 ≤ c›, abs_of_nonneg ‹0 ≤ s›]
        ring
      · rw [abs_of_nonneg ‹0 ≤ c›, abs_of_neg (not_le.1 ‹¬0 ≤ s›)]
        ring
      · rw [abs_of_neg (not_le.1 ‹¬0 ≤ c›), abs_of_nonneg ‹0 ≤ s›]
        ring
      · rw [abs_of_neg (not_le.1 ‹¬0 ≤ c›), abs_of_neg (not_le.1 ‹¬0 ≤ s›)]
        ring
  · rintro g ⟨z, ⟨ξ, η, h1, h2, rfl⟩, rfl⟩
    rw [hpt]
    have m1 : |ξ * c| ≤ o.length / 2 * |c| := by
      rw [abs_mul]
      exact mul_le_mul_of_nonneg_right h1 (abs_nonneg _)
    have m2 : |η * s| ≤ o.width / 2 * |s| := by
      rw [abs_mul]
      exact mul_le_mul_of_nonneg_right h2 (abs_nonneg _)
    have := neg_abs_le (ξ * c)
    have := le_abs_self (η * s)
    linarith

/-- The lateral overlap is negative exactly if a part of the other car is in the straight trail of the car. -/
theorem latOverlap_spec (ego o : Car) (hl : 0 ≤ o.length) (hw : 0 ≤ o.width) (he : 0 < ego.width) :
    latOverlap ego o < 0 ↔ ∃ z, InCar o z ∧ |aside ego z| < ego.width / 2 := by
  have hval : latOverlap ego o = |-(o.x - ego.x) * Real.sin ego.heading + (o.y - ego.y) * Real.cos ego.heading| - ego.width / 2 -
      (o.length / 2 * |Real.sin (o.heading - ego.heading)| + o.width / 2 * |Real.cos (o.heading - ego.heading)|) := by
    have hs : |Real.sin (|o.heading - ego.heading|)| = |Real.sin (o.heading - ego.heading)| := by
      rcases abs_choice (o.heading - ego.heading) with h | h <;> rw [h]
      rw [Real.sin_neg, abs_neg]
    simp only [latOverlap, relative, rotate, latOffset, yawDiff, dot, Real.cos_neg, Real.sin_neg, Real.cos_abs, hs]
    congr 2
    congr 1
    ring
  have hpt : ∀ ξ η : ℝ, aside ego (o.x + ξ * Real.cos o.heading - η * Real.sin o.heading,
      o.y + ξ * Real.sin o.heading + η * Real.cos o.heading) = -(o.x - ego.x) * Real.sin ego.heading +
      (o.y - ego.y) * Real.cos ego.heading + (ξ * Real.sin (o.heading - ego.heading) +
      η * Real.cos (o.heading - ego.heading)) := by
    intro ξ η
    simp only [aside, Real.cos_sub, Real.sin_sub]
    ring
  rw [hval]
  set c := Real.cos (o.heading - ego.heading)
  set s := Real.sin (o.heading - ego.heading)
  set y := -(o.x - ego.x) * Real.sin ego.heading + (o.y - ego.y) * Real.cos ego.heading
  have hoff : 0 ≤ o.length / 2 * |s| + o.width / 2 * |c| := by positivity
  constructor
  · intro h
    set m := o.length / 2 * |s| + o.width / 2 * |c| with hm
    -- The point of the box that is moved towards the middle by the fraction `t` of the offset.
    have ⟨t, ht, hyt⟩ : ∃ t : ℝ, |t| ≤ 1 ∧ |y + t * m| < ego.width / 2 := by
      by_cases hy : |y| ≤ m
      · by_cases hm0 : m = 0
        · refine ⟨0, by simp, ?_⟩
          rw [hm0] at hy h
          rw [zero_mul, add_zero]
          linarith
        · have hmp : 0 < m := lt_of_le_of_ne hoff (Ne.symm hm0)
          refine ⟨-y / m, ?_, ?_⟩
          · rw [abs_div, abs_neg, abs_of_pos hmp, div_le_one hmp]
            exact hy
          · have : y + -y / m * m = 0 := by
              field_simp
              ring
            rw [this, abs_zero]
            linarith
      · push Not at hy
        rcases le_total 0 y with h0 | h0
        · rw [abs_of_nonneg h0] at hy h
          refine ⟨-1, by simp, ?_⟩
          rw [abs_of_pos (by linarith)]
          linarith
        · rw [abs_of_nonpos h0] at hy h
          refine ⟨1, by simp, ?_⟩
          rw [abs_of_neg (by linarith)]
          linarith
    have hsign : ∀ x : ℝ, ∃ e : ℝ, |e| ≤ 1 ∧ e * x = |x| := by
      intro x
      rcases le_total 0 x with h | h
      · exact ⟨1, by simp, by rw [abs_of_nonneg h, one_mul]⟩
      · exact ⟨-1, by simp, by rw [abs_of_nonpos h]; ring⟩
    obtain ⟨e1, h1, h1'⟩ := hsign s
    obtain ⟨e2, h2, h2'⟩ := hsign c
    refine ⟨_, ⟨t * e1 * (o.length / 2), t * e2 * (o.width / 2), ?_, ?_, rfl⟩, ?_⟩
    · rw [abs_mul, abs_mul, abs_of_nonneg (by linarith : 0 ≤ o.length / 2)]
      have := mul_le_one₀ ht (abs_nonneg e1) h1
      nlinarith
    · rw [abs_mul, abs_mul, abs_of_nonneg (by linarith : 0 ≤ o.width / 2)]
      have := mul_le_one₀ ht (abs_nonneg e2) h2
      nlinarith
    · rw [hpt]
      have e : t * e1 * (o.length / 2) * s + t * e2 * (o.width / 2) * c = t * m := by
        rw [hm, ← h1', ← h2']
        ring
      rw [e]
      exact hyt
  · rintro ⟨z, ⟨ξ, η, h1, h2, rfl⟩, h3⟩
    rw [hpt] at h3
    have m1 : |ξ * s| ≤ o.length / 2 * |s| := by
      rw [abs_mul]
      exact mul_le_mul_of_nonneg_right h1 (abs_nonneg _)
    have m2 : |η * c| ≤ o.width / 2 * |c| := by
      rw [abs_mul]
      exact mul_le_mul_of_nonneg_right h2 (abs_nonneg _)
    have h4 : |y| ≤ |y + (ξ * s + η * c)| + |ξ * s + η * c| := by
      have := abs_sub_abs_le_abs_sub (y + (ξ * s + η * c)) (ξ * s + η * c)
      have h5 := abs_add_le (y + (ξ * s + η * c)) (-(ξ * s + η * c))
      rw [abs_neg, add_neg_cancel_right] at h5
      exact h5
    have h5 := abs_add_le (ξ * s) (η * c)
    linarith

/-- A car follows another valid one: it is ahead, heads in about the same direction, and is in the way; if only a little, then the
directions must agree closely. -/
def Follows (ego o : Car) : Prop :=
  o.valid = true ∧ 0 < longDistance ego o ∧ yawDiff ego o ≤ 75 * (Real.pi / 180) ∧ latOverlap ego o < 0 ∧
    (latOverlap ego o < -(1 / 2) ∨ yawDiff ego o ≤ 10 * (Real.pi / 180))

theorem following_iff (ego o : Car) :
    (o.valid && following (longDistance ego o) (latOverlap ego o) (yawDiff ego o)) = true ↔ Follows ego o := by
  simp only [following, Follows, Bool.and_eq_true, Bool.or_eq_true, decide_eq_true_eq, gt_iff_lt, maxHeadingDiff, maxHeadingDiffSmall,
    smallOverlap]
  constructor
  · rintro ⟨a, ⟨⟨b, c⟩, d⟩, e⟩
    exact ⟨a, b, of_decide_eq_true c, d, e.imp of_decide_eq_true of_decide_eq_true⟩
  · rintro ⟨a, b, c, d, e⟩
    exact ⟨a, ⟨⟨b, decide_eq_true c⟩, d⟩, e.imp decide_eq_true decide_eq_true⟩

theorem maskedLong_follows {ego o : Car} (h : Follows ego o) : maskedLong ego o = longDistance ego o := by
  unfold maskedLong
  rw [if_pos ((following_iff ego o).2 h)]
  ring

theorem maskedLong_not {ego o : Car} (h : ¬Follows ego o) : maskedLong ego o = longDistance ego o + big := by
  unfold maskedLong
  rw [if_neg (fun h' => h ((following_iff ego o).1 h'))]
  ring

/-- The time until a gap is closed at a speed, at most five seconds. -/
noncomputable def closing (gap : ℝ) (v w : Option ℝ) : ℝ :=
  match v, w with
  | some v, some w => if w < v then min (gap / (v - w)) 5 else 5
  | _, _ => 5

theorem ttcStep_eq {ego : Car} {all : List Car} {o : Car} (h : IsFirst all (maskedLong ego) o) :
    ttcStep ego all = some (closing (maskedLong ego o) ego.speed o.speed) := by
  have hg := get_argmin h
  unfold ttcStep
  simp only [List.getElem?_map, hg, Option.map_some, Option.bind_eq_bind, Option.bind_some, Option.pure_def, Option.some.injEq]
  cases hv : ego.speed with
  | none => rfl
  | some v =>
    cases hw : o.speed with
    | none => rfl
    | some w =>
      simp only [closing, gt_iff_lt, sub_pos, maxTime]

/-- C50: the time to collision is positive and at most five seconds. -/
theorem ttcStep_range {ego : Car} {all : List Car} (hne : all ≠ []) (hb : ∀ o ∈ all, -big < longDistance ego o) :
    ∃ t, ttcStep ego all = some t ∧ 0 < t ∧ t ≤ 5 := by
  obtain ⟨o, ho⟩ := exists_isFirst hne (maskedLong ego)
  refine ⟨_, ttcStep_eq ho, ?_⟩
  have hpos : 0 < maskedLong ego o := by
    by_cases hf : Follows ego o
    · rw [maskedLong_follows hf]
      exact hf.2.1
    · rw [maskedLong_not hf]
      linarith [hb o ho.mem]
  unfold closing
  split
  · split
    · rename_i v w hvw
      exact ⟨lt_min (div_pos hpos (by linarith)) (by norm_num), min_le_right _ _⟩
    · norm_num
  · norm_num

/-- What the time to collision is: the gap to the nearest car that is followed, divided by the difference of the speeds, at most
five seconds; and five seconds if that car is not slower, or no car is followed. -/
theorem ttcStep_spec {ego : Car} {all : List Car} (hne : all ≠ []) (hb : ∀ o ∈ all, |longDistance ego o| < big / 2)
    (hv : ∀ o ∈ all, ∀ v w, ego.speed = some v → o.speed = some w → v - w ≤ big / 10) :
    ((∀ o ∈ all, ¬Follows ego o) → ttcStep ego all = some 5) ∧
      ((∃ o ∈ all, Follows ego o) → ∃ o ∈ all, Follows ego o ∧ (∀ o' ∈ all, Follows ego o' → longDistance ego o ≤ longDistance ego o') ∧
        ttcStep ego all = some (closing (longDistance ego o) ego.speed o.speed)) := by
  obtain ⟨o, ho⟩ := exists_isFirst hne (maskedLong ego)
  have hval := ttcStep_eq ho
  constructor
  · intro hno
    rw [maskedLong_not (hno o ho.mem)] at hval
    rw [hval, Option.some.injEq]
    have h1 := hb o ho.mem
    rw [abs_lt] at h1
    cases hs : ego.speed with
    | none => rfl
    | some v =>
      cases hw : o.speed with
      | none => rfl
      | some w =>
        simp only [closing]
        split
        · rename_i hlt
          have h2 := hv o ho.mem v w hs hw
          apply min_eq_right
          rw [le_div_iff₀ (by linarith)]
          linarith [h1.1]
        · rfl
  · rintro ⟨o', ho', hf'⟩
    have hle := ho.le ho'
    rw [maskedLong_follows hf'] at hle
    have hf : Follows ego o := by
      by_contra hn
      rw [maskedLong_not hn] at hle
      have h1 := hb o ho.mem
      have h2 := hb o' ho'
      rw [abs_lt] at h1 h2
      linarith [h1.1, h2.2]
    refine ⟨o, ho.mem, hf, ?_, ?_⟩
    · intro o'' ho'' hf''
      have := ho.le ho''
      rwa [maskedLong_follows hf, maskedLong_follows hf''] at this
    · rw [hval, maskedLong_follows hf]

/-- A car whose speed is not known, as at the first and the last step, gets five seconds. -/
theorem ttcStep_unknown {ego : Car} {all : List Car} (hne : all ≠ []) (h : ego.speed = none) : ttcStep ego all = some 5 := by
  obtain ⟨o, ho⟩ := exists_isFirst hne (maskedLong ego)
  rw [ttcStep_eq ho, h]
  rfl

/-! ### Full turns -/

/-- The same car with full turns added to its heading. -/
noncomputable def turned (k : ℤ) (o : Car) : Car := { o with heading := o.heading + k * (2 * Real.pi) }

theorem abs_turn {d : ℝ} {k : ℤ} (h : |d| ≤ Real.pi) (h' : |d + k * (2 * Real.pi)| ≤ Real.pi) : |d + k * (2 * Real.pi)| = |d| := by
  have hp := Real.pi_pos
  rw [abs_le] at h h'
  have h1 : (k : ℝ) ≤ 1 := by nlinarith [h.1, h'.2]
  have h2 : (-1 : ℝ) ≤ k := by nlinarith [h.2, h'.1]
  have h1' : k ≤ 1 := by exact_mod_cast h1
  have h2' : -1 ≤ k := by exact_mod_cast h2
  have : k = -1 ∨ k = 0 ∨ k = 1 := by omega
  rcases this with rfl | rfl | rfl
  · have : d = Real.pi := by
      push_cast at h'
      linarith [h.2, h'.1]
    rw [this]
    push_cast
    rw [abs_of_neg (by linarith), abs_of_pos hp]
    ring
  · simp
  · have : d = -Real.pi := by
      push_cast at h'
      linarith [h.1, h'.2]
    rw [this]
    push_cast
    rw [abs_of_pos (by linarith), abs_of_neg (by linarith)]
    ring

/-- Two headings are written so that their difference is at most half a turn, before and after. -/
def Reduced (ego o : Car) (k k' : ℤ) : Prop :=
  k = k' ∨ (|o.heading - ego.heading| ≤ Real.pi ∧ |o.heading - ego.heading + (k' - k : ℤ) * (2 * Real.pi)| ≤ Real.pi)

theorem maskedLong_turned {ego o : Car} {k k' : ℤ} (h : Reduced ego o k k') :
    maskedLong (turned k ego) (turned k' o) = maskedLong ego o := by
  have hyaw : yawDiff (turned k ego) (turned k' o) = yawDiff ego o := by
    unfold yawDiff turned
    simp only
    rcases h with rfl | ⟨h1, h2⟩
    · congr 1
      ring
    · rw [← abs_turn h1 h2]
      congr 1
      push_cast
      ring
  have hrel : relative (turned k ego) (turned k' o) = relative ego o := by
    unfold relative turned rotate
    simp only
    rw [Real.cos_neg, Real.sin_neg, Real.cos_add_int_mul_two_pi, Real.sin_add_int_mul_two_pi, Real.cos_neg, Real.sin_neg]
  have hlong : longDistance (turned k ego) (turned k' o) = longDistance ego o := by
    unfold longDistance longOffset
    rw [hyaw, hrel]
    rfl
  have hlat : latOverlap (turned k ego) (turned k' o) = latOverlap ego o := by
    unfold latOverlap latOffset
    rw [hyaw, hrel]
    rfl
  unfold maskedLong
  rw [hlong, hlat, hyaw]
  rfl

/-- C50, partial: full turns do not matter if the headings differ by at most half a turn before and after, or all headings are
turned alike.  Missing: the difference of the headings is not reduced to half a turn, see `ttcStep_turns_violated`. -/
theorem ttcStep_turns_partial {ego : Car} {all : List (Car × ℤ)} {k : ℤ} (h : ∀ p ∈ all, Reduced ego p.1 k p.2) :
    ttcStep (turned k ego) (all.map fun p => turned p.2 p.1) = ttcStep ego (all.map Prod.fst) := by
  by_cases hne : all = []
  · subst hne
    rfl
  have hm : (all.map fun p => turned p.2 p.1).map (maskedLong (turned k ego)) = (all.map Prod.fst).map (maskedLong ego) := by
    rw [List.map_map, List.map_map]
    exact List.map_congr_left fun p hp => maskedLong_turned (h p hp)
  unfold ttcStep
  rw [hm]
  simp only [List.getElem?_map]
  cases hi : all[RangeImage.argmin ((all.map Prod.fst).map (maskedLong ego))]? with
  | none => simp
  | some p => simp [turned]

/-- A slower car straight ahead, three metres away: three seconds.  With a full turn added to its heading it is not followed any
more: five seconds. -/
theorem ttcStep_turns_violated : ∃ ego o : Car,
    ttcStep ego [ego, o] = some 3 ∧ ttcStep ego [ego, turned 1 o] = some 5 := by
  refine ⟨⟨0, 0, 4, 2, 0, some 2, true⟩, ⟨7, 0, 4, 2, 0, some 1, true⟩, ?_, ?_⟩
  · have h1 : maskedLong ⟨0, 0, 4, 2, 0, some 2, true⟩ ⟨0, 0, 4, 2, 0, some 2, true⟩ = big - 4 := by
      rw [maskedLong_not]
      · norm_num [longDistance, relative, rotate, longOffset, yawDiff, dot]
        ring
      · rintro ⟨_, h, _⟩
        norm_num [longDistance, relative, rotate, longOffset, yawDiff, dot] at h
    have h2 : maskedLong ⟨0, 0, 4, 2, 0, some 2, true⟩ ⟨7, 0, 4, 2, 0, some 1, true⟩ = 3 := by
      rw [maskedLong_follows]
      · norm_num [longDistance, relative, rotate, longOffset, yawDiff, dot]
      · have := Real.pi_pos
        refine ⟨rfl, ?_, ?_, ?_, Or.inr ?_⟩
        · norm_num [longDistance, relative, rotate, longOffset, yawDiff, dot]
        · norm_num [yawDiff]
          positivity
        · norm_num [latOverlap, relative, rotate, latOffset, yawDiff, dot]
        · norm_num [yawDiff]
          positivity
    have hf : IsFirst [(⟨0, 0, 4, 2, 0, some 2, true⟩ : Car), ⟨7, 0, 4, 2, 0, some 1, true⟩]
        (maskedLong ⟨0, 0, 4, 2, 0, some 2, true⟩) ⟨7, 0, 4, 2, 0, some 1, true⟩ := by
      refine ⟨[⟨0, 0, 4, 2, 0, some 2, true⟩], [], rfl, ?_, by simp⟩
      intro x hx
      rw [List.mem_singleton] at hx
      subst hx
      rw [h1, h2]
      norm_num [big]
    rw [ttcStep_eq hf, h2]
    norm_num [closing]
  · have h1 : maskedLong ⟨0, 0, 4, 2, 0, some 2, true⟩ ⟨0, 0, 4, 2, 0, some 2, true⟩ = big - 4 := by
      rw [maskedLong_not]
      · norm_num [longDistance, relative, rotate, longOffset, yawDiff, dot]
        ring
      · rintro ⟨_, h, _⟩
        norm_num [longDistance, relative, rotate, longOffset, yawDiff, dot] at h
    have h2 : maskedLong ⟨0, 0, 4, 2, 0, some 2, true⟩ (turned 1 ⟨7, 0, 4, 2, 0, some 1, true⟩) = big + 3 := by
      rw [maskedLong_not]
      · have hp : |2 * Real.pi| = 2 * Real.pi := abs_of_pos (by have := Real.pi_pos; positivity)
        norm_num [longDistance, relative, rotate, longOffset, yawDiff, dot, turned, hp]
        ring
      · rintro ⟨_, _, h, _⟩
        have hp := Real.pi_pos
        norm_num [yawDiff, turned] at h
        rw [abs_of_pos hp] at h
        linarith
    have hf : IsFirst [(⟨0, 0, 4, 2, 0, some 2, true⟩ : Car), turned 1 ⟨7, 0, 4, 2, 0, some 1, true⟩]
        (maskedLong ⟨0, 0, 4, 2, 0, some 2, true⟩) ⟨0, 0, 4, 2, 0, some 2, true⟩ := by
      refine ⟨[], [turned 1 ⟨7, 0, 4, 2, 0, some 1, true⟩], rfl, by simp, ?_⟩
      intro x hx
      rw [List.mem_singleton] at hx
      subst hx
      rw [h1, h2]
      linarith
    rw [ttcStep_eq hf, h1]
    norm_num [closing, big]

/-- At every step, each evaluated object gets a positive time of at most five seconds. -/
theorem timeToCollision_range {ts : List Traj} {mask : List Bool} {dt : ℝ} {s : ℕ} {cars : List Car}
    (hc : ts.mapM (carAt dt s) = some cars) (hlen : mask.length = ts.length)
    (hb : ∀ ego ∈ cars, ∀ o ∈ cars, -big < longDistance ego o) :
    ∃ r, timeToCollision ts mask dt s = some r ∧ r.length = (whereTrue mask).length ∧ ∀ t ∈ r, 0 < t ∧ t ≤ 5 := by
  have hcl := (mapM_forall₂ hc).length_eq
  obtain ⟨egos, he⟩ : ∃ l, gather cars (whereTrue mask) = some l := mapM_isSome fun i hi => by
    have : i < cars.length := by
      rw [← hcl, ← hlen]
      exact (List.getElem?_eq_some_iff.1 (mem_whereTrue.1 hi)).1
    exact ⟨cars[i], List.getElem?_eq_getElem this⟩
  have hmem : ∀ e ∈ egos, e ∈ cars := by
    intro e hm
    obtain ⟨k, hk⟩ := List.getElem?_of_mem hm
    obtain ⟨i, _, hi⟩ := forall₂_get' (mapM_forall₂ he) hk
    exact List.mem_of_getElem? hi
  have hstep : ∀ e ∈ egos, ∃ t, ttcStep e cars = some t ∧ 0 < t ∧ t ≤ 5 := by
    intro e hm
    exact ttcStep_range (List.ne_nil_of_mem (hmem e hm)) (hb e (hmem e hm))
  obtain ⟨r, hr⟩ : ∃ r, egos.mapM (fun ego => ttcStep ego cars) = some r :=
    mapM_isSome fun e hm => ⟨_, (hstep e hm).choose_spec.1⟩
  refine ⟨r, ?_, ?_, ?_⟩
  · unfold timeToCollision
    rw [hc, Option.bind_eq_bind, Option.bind_some, he, Option.bind_some]
    exact hr
  · rw [← (mapM_forall₂ hr).length_eq, ← (mapM_forall₂ he).length_eq]
  · intro t ht
    obtain ⟨k, hk⟩ := List.getElem?_of_mem ht
    obtain ⟨e, hek, het⟩ := forall₂_get' (mapM_forall₂ hr) hk
    obtain ⟨t', ht', h1, h2⟩ := hstep e (List.mem_of_getElem? hek)
    rw [het] at ht'
    obtain rfl := Option.some.inj ht'
    exact ⟨h1, h2⟩

/-- At the first step no speed is known, so everything is at five seconds. -/
theorem carAt_first {dt : ℝ} {t : Traj} {c : Car} (h : carAt dt 0 t = some c) : c.speed = none := by
  have hs : (Kinematics.linearSpeed t.x t.y (t.x.map fun _ => 0) dt)[0]? = some none := by
    simp [Kinematics.linearSpeed, Kinematics.delta, Kinematics.centralDiff, Kinematics.central, Kinematics.norm3]
  unfold carAt at h
  simp only [Option.bind_eq_bind, Option.bind_eq_some_iff] at h
  obtain ⟨x, hx, y, hy, l, hl, w, hw, hd, hhd, v, hv, ok, hok, hc⟩ := h
  rw [hs] at hv
  obtain rfl := Option.some.inj hv
  rw [Option.pure_def, Option.some.injEq] at hc
  rw [← hc]

end Verif.Interaction
