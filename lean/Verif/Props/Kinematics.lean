import Verif.Model.Kinematics
import Verif.Props.Angles

/-! C52 and C79: speeds, accelerations and their validity. -/

namespace Verif.Kinematics

open Verif.Angles

variable {β γ : Type}

/-! ### Central differences -/

theorem central_length (f : β → β → γ) (pad : γ) {t : List β} (h : 2 ≤ t.length) : (central f pad t).length = t.length := by
  unfold central
  rw [List.length_append, List.length_cons, List.length_zipWith, List.length_drop, List.length_take, List.length_singleton]
  omega

/-- For fewer than two steps the result is longer than the argument. -/
theorem central_short (f : β → β → γ) (pad : γ) {t : List β} (h : t.length < 2) : central f pad t = [pad, pad] := by
  unfold central
  rw [List.drop_eq_nil_of_le (by omega)]
  rfl

/-- The value at a step is that of the steps before and after, and the padding if one of them does not exist. -/
theorem central_get (f : β → β → γ) (pad : γ) {t : List β} (i : ℕ) : (central f pad t)[i]? =
    if i = 0 then some pad
    else match t[i - 1]?, t[i + 1]? with
      | some a, some b => some (f b a)
      | _, _ => if i = max (t.length - 1) 1 then some pad else none := by
  unfold central
  cases i with
  | zero => simp
  | succ i =>
    rw [List.cons_append, List.getElem?_cons_succ, if_neg (by omega)]
    simp only [Nat.add_sub_cancel]
    rcases lt_or_ge (i + 2) t.length with h | h
    · rw [List.getElem?_append_left (by rw [List.length_zipWith, List.length_drop, List.length_take]; omega), List.getElem?_zipWith,
        List.getElem?_drop, List.getElem?_take_of_lt (by omega), Nat.add_comm 2 i, List.getElem?_eq_getElem h,
        List.getElem?_eq_getElem (show i < t.length by omega)]
    · rw [List.getElem?_append_right (by rw [List.length_zipWith, List.length_drop, List.length_take]; omega), List.length_zipWith, List.length_drop,
        List.length_take, List.getElem?_eq_none (show t.length ≤ i + 1 + 1 by omega)]
      have : (match t[i]?, (none : Option β) with
        | some a, some b => some (f b a)
        | _, _ => if i + 1 = max (t.length - 1) 1 then some pad else none) = if i + 1 = max (t.length - 1) 1 then some pad else none := by
        cases t[i]? <;> rfl
      rw [this]
      split
      next he =>
        rw [show i - min (t.length - 2) (min (t.length - 2) t.length) = 0 by omega]
        rfl
      next he =>
        rw [List.getElem?_eq_none]
        rw [List.length_singleton]
        omega

/-- A value that is not the padding comes from the steps before and after. -/
theorem central_inner (f : β → β → γ) {pad v : γ} {t : List β} {i : ℕ} (hv : v ≠ pad) :
    (central f pad t)[i]? = some v ↔ ∃ j a b, i = j + 1 ∧ t[j]? = some a ∧ t[j + 2]? = some b ∧ f b a = v := by
  rw [central_get]
  cases i with
  | zero =>
    simp only [if_true, Option.some.injEq]
    constructor
    · intro h; exact absurd h.symm hv
    · rintro ⟨j, _, _, h, _⟩; omega
  | succ i =>
    rw [if_neg (by omega)]
    simp only [Nat.add_sub_cancel]
    constructor
    · intro h
      cases ha : t[i]? with
      | none =>
        rw [ha] at h
        dsimp only at h
        split at h
        · exact absurd (Option.some.inj h).symm hv
        · cases h
      | some a =>
        cases hb : t[i + 1 + 1]? with
        | none =>
          rw [ha, hb] at h
          dsimp only at h
          split at h
          · exact absurd (Option.some.inj h).symm hv
          · cases h
        | some b =>
          rw [ha, hb] at h
          exact ⟨i, a, b, rfl, ha, hb, Option.some.inj h⟩
    · rintro ⟨j, a, b, hj, ha, hb, rfl⟩
      obtain rfl : j = i := by omega
      rw [ha, show j + 1 + 1 = j + 2 by omega, hb]

/-! ### Validity -/

theorem centralAnd_iff {t : List Bool} {i : ℕ} : (centralAnd false t)[i]? = some true ↔ ∃ j, i = j + 1 ∧ t[j]? = some true ∧ t[j + 2]? = some true := by
  unfold centralAnd
  rw [central_inner _ (by simp)]
  constructor
  · rintro ⟨j, a, b, h, ha, hb, hab⟩
    rw [Bool.and_eq_true] at hab
    obtain ⟨rfl, rfl⟩ := hab
    exact ⟨j, h, ha, hb⟩
  · rintro ⟨j, h, ha, hb⟩
    exact ⟨j, true, true, h, ha, hb, rfl⟩

/-- C52: a speed is valid exactly when the steps before and after exist and are valid. -/
theorem speedValid_iff {valid : List Bool} {i : ℕ} :
    (validity valid).1[i]? = some true ↔ ∃ j, i = j + 1 ∧ valid[j]? = some true ∧ valid[j + 2]? = some true := centralAnd_iff

/-- C52: an acceleration is valid exactly when the step itself and those two before and two after exist and are valid. -/
theorem accelValid_iff {valid : List Bool} {i : ℕ} : (validity valid).2[i]? = some true ↔
    ∃ j, i = j + 2 ∧ valid[j]? = some true ∧ valid[j + 2]? = some true ∧ valid[j + 4]? = some true := by
  unfold validity
  rw [centralAnd_iff]
  constructor
  · rintro ⟨j, rfl, h1, h2⟩
    obtain ⟨k, rfl, h3, h4⟩ := centralAnd_iff.1 h1
    obtain ⟨m, hm, h5, h6⟩ := centralAnd_iff.1 h2
    obtain rfl : m = k + 2 := by omega
    exact ⟨k, by omega, h3, h4, h6⟩
  · rintro ⟨k, rfl, h3, h4, h6⟩
    exact ⟨k + 1, by omega, centralAnd_iff.2 ⟨k, rfl, h3, h4⟩, centralAnd_iff.2 ⟨k + 2, by omega, h4, h6⟩⟩

theorem validity_length {valid : List Bool} (h : 2 ≤ valid.length) :
    (validity valid).1.length = valid.length ∧ (validity valid).2.length = valid.length := by
  have h1 : (validity valid).1.length = valid.length := central_length _ _ h
  exact ⟨h1, (central_length _ _ (by rw [show centralAnd false valid = (validity valid).1 from rfl, h1]; exact h)).trans h1⟩

/-- With a single step the validity has two. -/
theorem validity_short_violated : (validity [true]).1 = [false, false] := rfl

/-! ### Values -/

theorem lift2_some {f : ℝ → ℝ → ℝ} {a b : Option ℝ} {v : ℝ} : lift2 f a b = some v ↔ ∃ x y, a = some x ∧ b = some y ∧ f x y = v := by
  cases a <;> cases b <;> simp [lift2]

theorem centralDiff_some {t : List (Option ℝ)} {i : ℕ} {v : ℝ} : (centralDiff none t)[i]? = some (some v) ↔
    ∃ j a b, i = j + 1 ∧ t[j]? = some (some a) ∧ t[j + 2]? = some (some b) ∧ (b - a) / 2 = v := by
  unfold centralDiff
  rw [central_inner _ (by simp)]
  constructor
  · rintro ⟨j, a, b, h, ha, hb, hab⟩
    obtain ⟨x, y, rfl, rfl, h'⟩ := lift2_some.1 hab
    exact ⟨j, y, x, h, ha, hb, h'⟩
  · rintro ⟨j, a, b, h, ha, hb, hab⟩
    exact ⟨j, _, _, h, ha, hb, lift2_some.2 ⟨b, a, rfl, rfl, hab⟩⟩

theorem delta_some {x : List ℝ} {i : ℕ} {v : ℝ} : (delta x)[i]? = some (some v) ↔
    ∃ j a b, i = j + 1 ∧ x[j]? = some a ∧ x[j + 2]? = some b ∧ (b - a) / 2 = v := by
  unfold delta
  rw [centralDiff_some]
  constructor
  · rintro ⟨j, a, b, h, ha, hb, hv⟩
    rw [List.getElem?_map] at ha hb
    exact ⟨j, a, b, h, by simpa using ha, by simpa using hb, hv⟩
  · rintro ⟨j, a, b, h, ha, hb, hv⟩
    exact ⟨j, a, b, h, by rw [List.getElem?_map, ha]; rfl, by rw [List.getElem?_map, hb]; rfl, hv⟩

theorem map_some_get {f : ℝ → ℝ} {l : List (Option ℝ)} {i : ℕ} {v : ℝ} :
    (l.map fun o => o.map f)[i]? = some (some v) ↔ ∃ w, l[i]? = some (some w) ∧ f w = v := by
  rw [List.getElem?_map]
  cases l[i]? with
  | none => simp
  | some o => cases o <;> simp

/-- Where a position exists. -/
def posAt (x y z : List ℝ) (i : ℕ) (p : ℝ × ℝ × ℝ) : Prop := x[i]? = some p.1 ∧ y[i]? = some p.2.1 ∧ z[i]? = some p.2.2

/-- C52: the speed at a step is half the distance of the positions after and before, per second; at other steps it is NaN. -/
theorem linearSpeed_some {x y z : List ℝ} {dt : ℝ} {i : ℕ} {v : ℝ} : (linearSpeed x y z dt)[i]? = some (some v) ↔
    ∃ j p q, i = j + 1 ∧ posAt x y z j p ∧ posAt x y z (j + 2) q ∧ v = displacement q p / (2 * dt) := by
  have key : ∀ a b c : ℝ, Real.sqrt ((a / 2) ^ 2 + (b / 2) ^ 2 + (c / 2) ^ 2) = Real.sqrt (a ^ 2 + b ^ 2 + c ^ 2) / 2 := by
    intro a b c
    rw [show (a / 2) ^ 2 + (b / 2) ^ 2 + (c / 2) ^ 2 = (a ^ 2 + b ^ 2 + c ^ 2) / 2 ^ 2 by ring, Real.sqrt_div' _ (by positivity),
      Real.sqrt_sq (by norm_num)]
  unfold linearSpeed
  rw [List.getElem?_map]
  constructor
  · intro h
    obtain ⟨⟨dx, dy, dz⟩, hd, h'⟩ := Option.map_eq_some_iff.1 h
    rw [List.getElem?_zip_eq_some, List.getElem?_zip_eq_some] at hd
    obtain ⟨hx, hy, hz⟩ := hd
    dsimp only at h' hx hy hz
    obtain ⟨n, hn, hv⟩ := Option.map_eq_some_iff.1 h'
    cases dx with
    | none => cases hn
    | some dx =>
      cases dy with
      | none => cases hn
      | some dy =>
        cases dz with
        | none => cases hn
        | some dz =>
          obtain ⟨j, a, b, hj, h1, h2, rfl⟩ := delta_some.1 hx
          obtain ⟨j2, c, d, hj2, h3, h4, rfl⟩ := delta_some.1 hy
          obtain ⟨j3, e, f, hj3, h5, h6, rfl⟩ := delta_some.1 hz
          obtain rfl : j2 = j := by omega
          obtain rfl : j3 = j2 := by omega
          refine ⟨j3, (a, c, e), (b, d, f), hj, ⟨h1, h3, h5⟩, ⟨h2, h4, h6⟩, ?_⟩
          have hn' : Real.sqrt (((b - a) / 2) ^ 2 + ((d - c) / 2) ^ 2 + ((f - e) / 2) ^ 2) = n := Option.some.inj hn
          rw [← hv, ← hn', key, displacement, div_div]
  · rintro ⟨j, p, q, rfl, ⟨h1, h3, h5⟩, ⟨h2, h4, h6⟩, rfl⟩
    refine Option.map_eq_some_iff.2 ⟨(some ((q.1 - p.1) / 2), some ((q.2.1 - p.2.1) / 2), some ((q.2.2 - p.2.2) / 2)), ?_, ?_⟩
    · rw [List.getElem?_zip_eq_some, List.getElem?_zip_eq_some]
      exact ⟨delta_some.2 ⟨j, _, _, rfl, h1, h2, rfl⟩, delta_some.2 ⟨j, _, _, rfl, h3, h4, rfl⟩, delta_some.2 ⟨j, _, _, rfl, h5, h6, rfl⟩⟩
    · simp only [norm3, Option.map_some, Option.some.injEq]
      rw [key, displacement, div_div]

/-- C52: the linear acceleration is the difference of the speeds one step after and one before. -/
theorem linearAccel_some {x y z : List ℝ} {dt : ℝ} {i : ℕ} {v : ℝ} : (linearAccel x y z dt)[i]? = some (some v) ↔
    ∃ j p q r, i = j + 2 ∧ posAt x y z j p ∧ posAt x y z (j + 2) q ∧ posAt x y z (j + 4) r ∧
      v = (displacement r q / (2 * dt) - displacement q p / (2 * dt)) / (2 * dt) := by
  unfold linearAccel
  rw [map_some_get]
  constructor
  · rintro ⟨w, hw, rfl⟩
    obtain ⟨j, a, b, rfl, ha, hb, rfl⟩ := centralDiff_some.1 hw
    obtain ⟨k, p, q, rfl, hp, hq, rfl⟩ := linearSpeed_some.1 ha
    obtain ⟨m, q', r, hm, hq', hr, rfl⟩ := linearSpeed_some.1 hb
    obtain rfl : m = k + 2 := by omega
    have : q' = q := by
      obtain ⟨a1, a2, a3⟩ := hq
      obtain ⟨b1, b2, b3⟩ := hq'
      rw [a1] at b1; rw [a2] at b2; rw [a3] at b3
      simp only [Option.some.injEq] at b1 b2 b3
      exact (Prod.ext b1 (Prod.ext b2 b3)).symm
    subst this
    exact ⟨k, p, q', r, by omega, hp, hq, hr, by rw [div_div]⟩
  · rintro ⟨k, p, q, r, rfl, hp, hq, hr, rfl⟩
    refine ⟨_, centralDiff_some.2 ⟨k + 1, _, _, by omega, linearSpeed_some.2 ⟨k, p, q, rfl, hp, hq, rfl⟩,
      linearSpeed_some.2 ⟨k + 2, q, r, by omega, hq, hr, rfl⟩, rfl⟩, by rw [div_div]⟩

theorem halfTurn_some {t : List (Option ℝ)} {i : ℕ} {v : ℝ} : (halfTurn t)[i]? = some (some v) ↔
    ∃ j a b, i = j + 1 ∧ t[j]? = some (some a) ∧ t[j + 2]? = some (some b) ∧ wrapAngle (b - a) / 2 = v := by
  unfold halfTurn
  rw [map_some_get (f := fun d => wrapAngle (d * 2) / 2)]
  constructor
  · rintro ⟨w, hw, rfl⟩
    obtain ⟨j, a, b, h, ha, hb, rfl⟩ := centralDiff_some.1 hw
    exact ⟨j, a, b, h, ha, hb, by rw [div_mul_cancel₀ _ (two_ne_zero)]⟩
  · rintro ⟨j, a, b, h, ha, hb, rfl⟩
    exact ⟨_, centralDiff_some.2 ⟨j, a, b, h, ha, hb, rfl⟩, by rw [div_mul_cancel₀ _ (two_ne_zero)]⟩

/-- The rate of turning is half the difference of the headings after and before, reduced to half a turn, per second. -/
theorem turn_some {x y z heading : List ℝ} {dt : ℝ} {i : ℕ} {v : ℝ} : (features x y z heading dt).turn[i]? = some (some v) ↔
    ∃ j a b, i = j + 1 ∧ heading[j]? = some a ∧ heading[j + 2]? = some b ∧ v = wrapAngle (b - a) / (2 * dt) := by
  unfold features
  rw [map_some_get]
  constructor
  · rintro ⟨w, hw, rfl⟩
    obtain ⟨j, a, b, h, ha, hb, rfl⟩ := halfTurn_some.1 hw
    rw [List.getElem?_map] at ha hb
    exact ⟨j, a, b, h, by simpa using ha, by simpa using hb, by rw [div_div]⟩
  · rintro ⟨j, a, b, h, ha, hb, rfl⟩
    exact ⟨_, halfTurn_some.2 ⟨j, a, b, h, by rw [List.getElem?_map, ha]; rfl, by rw [List.getElem?_map, hb]; rfl, rfl⟩, by rw [div_div]⟩

theorem wrapAngle_bounds (a : ℝ) : -Real.pi ≤ wrapAngle a ∧ wrapAngle a < Real.pi := by
  rw [wrapAngle_eq]
  exact ⟨(normalizeAngle_spec a).1, (normalizeAngle_spec a).2.1⟩

theorem wrapAngle_of_mem {a : ℝ} (h : -Real.pi ≤ a) (h' : a < Real.pi) : wrapAngle a = a := by
  rw [wrapAngle_eq]
  exact normalizeAngle_eq h h' 0 (by simp)

theorem wrapAngle_turns (a : ℝ) (k : ℤ) : wrapAngle (a + k * (2 * Real.pi)) = wrapAngle a := by
  rw [wrapAngle_eq, wrapAngle_eq, normalizeAngle_congr]

/-- The angular acceleration is the difference of the rates of turning, without a further reduction. -/
theorem turnAccel_some {x y z heading : List ℝ} {dt : ℝ} {i : ℕ} {v : ℝ} : (features x y z heading dt).turnAccel[i]? = some (some v) ↔
    ∃ j a b c, i = j + 2 ∧ heading[j]? = some a ∧ heading[j + 2]? = some b ∧ heading[j + 4]? = some c ∧
      v = (wrapAngle (c - b) / (2 * dt) - wrapAngle (b - a) / (2 * dt)) / (2 * dt) := by
  have key : ∀ p q : ℝ, wrapAngle (wrapAngle p / 2 - wrapAngle q / 2) / 2 / dt ^ 2 = (wrapAngle p / (2 * dt) - wrapAngle q / (2 * dt)) / (2 * dt) := by
    intro p q
    have hp := wrapAngle_bounds p
    have hq := wrapAngle_bounds q
    rw [wrapAngle_of_mem (by linarith) (by linarith)]
    rcases eq_or_ne dt 0 with rfl | h
    · simp
    · field_simp
  unfold features
  rw [map_some_get]
  constructor
  · rintro ⟨w, hw, rfl⟩
    obtain ⟨j, a, b, rfl, ha, hb, rfl⟩ := halfTurn_some.1 hw
    obtain ⟨k, p, q, rfl, hp, hq, rfl⟩ := halfTurn_some.1 ha
    obtain ⟨m, q', r, hm, hq', hr, rfl⟩ := halfTurn_some.1 hb
    obtain rfl : m = k + 2 := by omega
    rw [hq] at hq'
    simp only [Option.some.injEq] at hq'
    subst hq'
    rw [List.getElem?_map] at hp hq hr
    exact ⟨k, p, q, r, by omega, by simpa using hp, by simpa using hq, by simpa using hr, key _ _⟩
  · rintro ⟨k, p, q, r, rfl, hp, hq, hr, rfl⟩
    have e : ∀ {i : ℕ} {a : ℝ}, heading[i]? = some a → (heading.map some)[i]? = some (some a) := by
      intro i a h
      rw [List.getElem?_map, h]
      rfl
    exact ⟨_, halfTurn_some.2 ⟨k + 1, _, _, by omega, halfTurn_some.2 ⟨k, p, q, rfl, e hp, e hq, rfl⟩,
      halfTurn_some.2 ⟨k + 2, q, r, by omega, e hq, e hr, rfl⟩, rfl⟩, key _ _⟩

/-- C52: a speed that is valid is not the padding, and neither is an acceleration. -/
theorem valid_values {x y z heading : List ℝ} {dt : ℝ} {valid : List Bool} (hx : x.length = valid.length) (hy : y.length = valid.length)
    (hz : z.length = valid.length) (hh : heading.length = valid.length) (i : ℕ) :
    ((validity valid).1[i]? = some true → (∃ v, (features x y z heading dt).speed[i]? = some (some v)) ∧
      ∃ v, (features x y z heading dt).turn[i]? = some (some v)) ∧
    ((validity valid).2[i]? = some true → (∃ v, (features x y z heading dt).accel[i]? = some (some v)) ∧
      ∃ v, (features x y z heading dt).turnAccel[i]? = some (some v)) := by
  have pos : ∀ j, j < valid.length → ∃ p, posAt x y z j p := by
    intro j hj
    exact ⟨(x[j]'(by omega), y[j]'(by omega), z[j]'(by omega)), List.getElem?_eq_getElem _, List.getElem?_eq_getElem _, List.getElem?_eq_getElem _⟩
  have head : ∀ j, j < valid.length → ∃ a, heading[j]? = some a := fun j hj => ⟨_, List.getElem?_eq_getElem (by omega)⟩
  have lt : ∀ {j : ℕ} {b : Bool}, valid[j]? = some b → j < valid.length := fun h => (List.getElem?_eq_some_iff.1 h).1
  constructor
  · intro h
    obtain ⟨j, rfl, h1, h2⟩ := speedValid_iff.1 h
    obtain ⟨p, hp⟩ := pos j (lt h1)
    obtain ⟨q, hq⟩ := pos (j + 2) (lt h2)
    obtain ⟨a, ha⟩ := head j (lt h1)
    obtain ⟨b, hb⟩ := head (j + 2) (lt h2)
    exact ⟨⟨_, linearSpeed_some.2 ⟨j, p, q, rfl, hp, hq, rfl⟩⟩, ⟨_, turn_some.2 ⟨j, a, b, rfl, ha, hb, rfl⟩⟩⟩
  · intro h
    obtain ⟨j, rfl, h1, h2, h3⟩ := accelValid_iff.1 h
    obtain ⟨p, hp⟩ := pos j (lt h1)
    obtain ⟨q, hq⟩ := pos (j + 2) (lt h2)
    obtain ⟨r, hr⟩ := pos (j + 4) (lt h3)
    obtain ⟨a, ha⟩ := head j (lt h1)
    obtain ⟨b, hb⟩ := head (j + 2) (lt h2)
    obtain ⟨c, hc⟩ := head (j + 4) (lt h3)
    exact ⟨⟨_, linearAccel_some.2 ⟨j, p, q, r, rfl, hp, hq, hr, rfl⟩⟩, ⟨_, turnAccel_some.2 ⟨j, a, b, c, rfl, ha, hb, hc, rfl⟩⟩⟩

/-- C52: a valid value depends on valid steps only. -/
theorem speed_local {x y z x' y' z' heading heading' : List ℝ} {dt : ℝ} {valid : List Bool} {i : ℕ} {v : ℝ}
    (hsame : ∀ k : ℕ, valid[k]? = some true → x[k]? = x'[k]? ∧ y[k]? = y'[k]? ∧ z[k]? = z'[k]? ∧ heading[k]? = heading'[k]?) :
    ((validity valid).1[i]? = some true → ((features x y z heading dt).speed[i]? = some (some v) → (features x' y' z' heading' dt).speed[i]? = some (some v)) ∧
      ((features x y z heading dt).turn[i]? = some (some v) → (features x' y' z' heading' dt).turn[i]? = some (some v))) ∧
    ((validity valid).2[i]? = some true → ((features x y z heading dt).accel[i]? = some (some v) → (features x' y' z' heading' dt).accel[i]? = some (some v)) ∧
      ((features x y z heading dt).turnAccel[i]? = some (some v) → (features x' y' z' heading' dt).turnAccel[i]? = some (some v))) := by
  have hp : ∀ {k : ℕ} {p : ℝ × ℝ × ℝ}, valid[k]? = some true → posAt x y z k p → posAt x' y' z' k p := by
    rintro k p h ⟨a, b, c⟩
    obtain ⟨e1, e2, e3, _⟩ := hsame k h
    exact ⟨e1 ▸ a, e2 ▸ b, e3 ▸ c⟩
  have hh : ∀ {k : ℕ} {a : ℝ}, valid[k]? = some true → heading[k]? = some a → heading'[k]? = some a := by
    intro k a h ha
    rw [← (hsame k h).2.2.2]
    exact ha
  constructor
  · intro h
    obtain ⟨j, rfl, h1, h2⟩ := speedValid_iff.1 h
    constructor
    · intro hv
      obtain ⟨k, p, q, hk, hp1, hq, rfl⟩ := linearSpeed_some.1 hv
      obtain rfl : k = j := by omega
      exact linearSpeed_some.2 ⟨k, p, q, rfl, hp h1 hp1, hp h2 hq, rfl⟩
    · intro hv
      obtain ⟨k, a, b, hk, ha, hb, rfl⟩ := turn_some.1 hv
      obtain rfl : k = j := by omega
      exact turn_some.2 ⟨k, a, b, rfl, hh h1 ha, hh h2 hb, rfl⟩
  · intro h
    obtain ⟨j, rfl, h1, h2, h3⟩ := accelValid_iff.1 h
    constructor
    · intro hv
      obtain ⟨k, p, q, r, hk, hp1, hq, hr, rfl⟩ := linearAccel_some.1 hv
      obtain rfl : k = j := by omega
      exact linearAccel_some.2 ⟨k, p, q, r, rfl, hp h1 hp1, hp h2 hq, hp h3 hr, rfl⟩
    · intro hv
      obtain ⟨k, a, b, c, hk, ha, hb, hc, rfl⟩ := turnAccel_some.1 hv
      obtain rfl : k = j := by omega
      exact turnAccel_some.2 ⟨k, a, b, c, rfl, hh h1 ha, hh h2 hb, hh h3 hc, rfl⟩

/-- A mask with one invalid step. -/
theorem validity_case : validity [true, true, true, true, false, true, true] =
    ([false, true, true, false, true, false, false], [false, false, false, true, false, false, false]) := rfl

/-! ### Rates of turning -/

/-- C79: the rate of turning is at most a quarter turn per step. -/
theorem turn_bounds {x y z heading : List ℝ} {dt : ℝ} (hdt : 0 < dt) {i : ℕ} {v : ℝ} (h : (features x y z heading dt).turn[i]? = some (some v)) :
    |v| ≤ Real.pi / 2 / dt := by
  obtain ⟨j, a, b, _, _, _, rfl⟩ := turn_some.1 h
  have := wrapAngle_bounds (b - a)
  rw [abs_le]
  constructor
  · rw [div_div, ← neg_div, div_le_div_iff_of_pos_right (by positivity)]
    exact this.1
  · rw [div_div, div_le_div_iff_of_pos_right (by positivity)]
    exact this.2.le

/-- C79: rates of turning do not depend on how headings are written. -/
theorem turn_turns {x y z heading heading' : List ℝ} {dt : ℝ}
    (h : List.Forall₂ (fun a b => ∃ k : ℤ, b = a + k * (2 * Real.pi)) heading heading') (i : ℕ) (v : ℝ) :
    ((features x y z heading dt).turn[i]? = some (some v) → (features x y z heading' dt).turn[i]? = some (some v)) ∧
    ((features x y z heading dt).turnAccel[i]? = some (some v) → (features x y z heading' dt).turnAccel[i]? = some (some v)) := by
  have get : ∀ {j : ℕ} {a : ℝ}, heading[j]? = some a → ∃ k : ℤ, heading'[j]? = some (a + k * (2 * Real.pi)) := by
    intro j a ha
    obtain ⟨hj, rfl⟩ := List.getElem?_eq_some_iff.1 ha
    have hl := h.length_eq
    obtain ⟨k, hk⟩ := (List.forall₂_iff_get.1 h).2 j hj (by omega)
    refine ⟨k, ?_⟩
    rw [List.getElem?_eq_getElem (by omega)]
    congr 1
  have wrap : ∀ (a b : ℝ) (k m : ℤ), wrapAngle (b + m * (2 * Real.pi) - (a + k * (2 * Real.pi))) = wrapAngle (b - a) := by
    intro a b k m
    rw [show b + m * (2 * Real.pi) - (a + k * (2 * Real.pi)) = b - a + ((m - k : ℤ) : ℝ) * (2 * Real.pi) by push_cast; ring, wrapAngle_turns]
  constructor
  · intro hv
    obtain ⟨j, a, b, rfl, ha, hb, rfl⟩ := turn_some.1 hv
    obtain ⟨k, hk⟩ := get ha
    obtain ⟨m, hm⟩ := get hb
    exact turn_some.2 ⟨j, _, _, rfl, hk, hm, by rw [wrap]⟩
  · intro hv
    obtain ⟨j, a, b, c, rfl, ha, hb, hc, rfl⟩ := turnAccel_some.1 hv
    obtain ⟨k, hk⟩ := get ha
    obtain ⟨m, hm⟩ := get hb
    obtain ⟨n, hn⟩ := get hc
    exact turnAccel_some.2 ⟨j, _, _, _, rfl, hk, hm, hn, by rw [wrap, wrap]⟩

/-- C79: an object that turns by the same angle of less than a quarter turn in every step has this rate of turning, however its headings are
written, and no angular acceleration. -/
theorem turn_steady {x y z heading : List ℝ} {dt start step : ℝ} (hstep : |step| < Real.pi / 2)
    (h : ∀ (i : ℕ) (a : ℝ), heading[i]? = some a → ∃ k : ℤ, a = start + i * step + k * (2 * Real.pi)) (i : ℕ) (v : ℝ) :
    ((features x y z heading dt).turn[i]? = some (some v) → v = step / dt) ∧ ((features x y z heading dt).turnAccel[i]? = some (some v) → v = 0) := by
  rw [abs_lt] at hstep
  have wrap : ∀ {j : ℕ} {a b : ℝ}, heading[j]? = some a → heading[j + 2]? = some b → wrapAngle (b - a) = 2 * step := by
    intro j a b ha hb
    obtain ⟨k, rfl⟩ := h j a ha
    obtain ⟨m, rfl⟩ := h (j + 2) b hb
    rw [show start + ((j + 2 : ℕ) : ℝ) * step + m * (2 * Real.pi) - (start + j * step + k * (2 * Real.pi)) =
      2 * step + ((m - k : ℤ) : ℝ) * (2 * Real.pi) by push_cast; ring, wrapAngle_turns, wrapAngle_of_mem (by linarith) (by linarith)]
  constructor
  · intro hv
    obtain ⟨j, a, b, rfl, ha, hb, rfl⟩ := turn_some.1 hv
    rw [wrap ha hb, mul_div_mul_left _ _ two_ne_zero]
  · intro hv
    obtain ⟨j, a, b, c, rfl, ha, hb, hc, rfl⟩ := turnAccel_some.1 hv
    rw [wrap ha hb, wrap hb hc, sub_self, zero_div]

/-- An object turning by an eighth of a turn per step, with headings that wrap around. -/
theorem turn_case : ∀ (i : ℕ) (a : ℝ), ([3 * Real.pi / 4, -Real.pi, -3 * Real.pi / 4, -Real.pi / 2] : List ℝ)[i]? = some a →
    ∃ k : ℤ, a = 3 * Real.pi / 4 + i * (Real.pi / 4) + k * (2 * Real.pi) := by
  intro i a h
  match i with
  | 0 => exact ⟨0, by simp at h; rw [← h]; push_cast; ring⟩
  | 1 => exact ⟨-1, by simp at h; rw [← h]; push_cast; ring⟩
  | 2 => exact ⟨-1, by simp at h; rw [← h]; push_cast; ring⟩
  | 3 => exact ⟨-1, by simp at h; rw [← h]; push_cast; ring⟩
  | n + 4 => simp at h

/-- C79: a constant velocity gives this speed and no acceleration. -/
theorem speed_steady {x y z heading : List ℝ} {dt : ℝ} {p0 vel : ℝ × ℝ × ℝ} (hdt : 0 < dt)
    (h : ∀ i p, posAt x y z i p → p = (p0.1 + i * dt * vel.1, p0.2.1 + i * dt * vel.2.1, p0.2.2 + i * dt * vel.2.2)) (i : ℕ) (v : ℝ) :
    ((features x y z heading dt).speed[i]? = some (some v) → v = displacement vel (0, 0, 0)) ∧ ((features x y z heading dt).accel[i]? = some (some v) → v = 0) := by
  have dist : ∀ {j : ℕ} {p q}, posAt x y z j p → posAt x y z (j + 2) q → displacement q p = 2 * dt * displacement vel (0, 0, 0) := by
    intro j p q hp hq
    rw [h j p hp, h (j + 2) q hq]
    unfold displacement
    simp only [sub_zero]
    rw [show (p0.1 + ((j + 2 : ℕ) : ℝ) * dt * vel.1 - (p0.1 + j * dt * vel.1)) ^ 2 + (p0.2.1 + ((j + 2 : ℕ) : ℝ) * dt * vel.2.1 - (p0.2.1 + j * dt * vel.2.1)) ^ 2 +
      (p0.2.2 + ((j + 2 : ℕ) : ℝ) * dt * vel.2.2 - (p0.2.2 + j * dt * vel.2.2)) ^ 2 = (2 * dt) ^ 2 * (vel.1 ^ 2 + vel.2.1 ^ 2 + vel.2.2 ^ 2) by push_cast; ring,
      Real.sqrt_mul (by positivity), Real.sqrt_sq (by positivity)]
  constructor
  · intro hv
    obtain ⟨j, p, q, rfl, hp, hq, rfl⟩ := linearSpeed_some.1 hv
    rw [dist hp hq, mul_div_cancel_left₀ _ (by positivity)]
  · intro hv
    obtain ⟨j, p, q, r, rfl, hp, hq, hr, rfl⟩ := linearAccel_some.1 hv
    rw [dist hp hq, dist hq hr, sub_self, zero_div]

/-! ### Displacement errors -/

theorem displacement_nonneg (p q : ℝ × ℝ × ℝ) : 0 ≤ displacement p q := Real.sqrt_nonneg _

theorem displacement_eq_zero {p q : ℝ × ℝ × ℝ} : displacement p q = 0 ↔ p = q := by
  unfold displacement
  rw [Real.sqrt_eq_zero (by positivity)]
  constructor
  · intro h
    have h1 : p.1 - q.1 = 0 := by nlinarith [sq_nonneg (p.1 - q.1), sq_nonneg (p.2.1 - q.2.1), sq_nonneg (p.2.2 - q.2.2)]
    have h2 : p.2.1 - q.2.1 = 0 := by nlinarith [sq_nonneg (p.1 - q.1), sq_nonneg (p.2.1 - q.2.1), sq_nonneg (p.2.2 - q.2.2)]
    have h3 : p.2.2 - q.2.2 = 0 := by nlinarith [sq_nonneg (p.1 - q.1), sq_nonneg (p.2.1 - q.2.1), sq_nonneg (p.2.2 - q.2.2)]
    exact Prod.ext (by linarith) (Prod.ext (by linarith) (by linarith))
  · rintro rfl
    simp

theorem sum_eq_zero_of_nonneg : ∀ {l : List ℝ}, (∀ x ∈ l, 0 ≤ x) → (l.sum = 0 ↔ ∀ x ∈ l, x = 0)
  | [], _ => by simp
  | a :: l, h => by
    have h1 := h a (by simp)
    have h2 : ∀ x ∈ l, 0 ≤ x := fun x hx => h x (by simp [hx])
    have h3 := List.sum_nonneg h2
    rw [List.sum_cons]
    constructor
    · intro h0
      have ha : a = 0 := by linarith
      have hl : l.sum = 0 := by linarith
      intro x hx
      rcases List.mem_cons.1 hx with rfl | hx
      · exact ha
      · exact (sum_eq_zero_of_nonneg h2).1 hl x hx
    · intro h0
      rw [h0 a (by simp), (sum_eq_zero_of_nonneg h2).2 fun x hx => h0 x (by simp [hx]), add_zero]

/-- The average displacement error is not negative, and it is zero exactly when the simulation agrees with the log wherever the log is valid. -/
theorem averageDisplacement_spec {sim log : List (ℝ × ℝ × ℝ)} {valid : List Bool} {v : ℝ} (h : averageDisplacement sim log valid = some v) :
    0 ≤ v ∧ (v = 0 ↔ ∀ (i : ℕ) p q, sim[i]? = some p → log[i]? = some q → valid[i]? = some true → p = q) := by
  unfold averageDisplacement at h
  dsimp only at h
  split at h
  · cases h
  next hn =>
    have hv := Option.some.inj h
    have hpos : (0 : ℝ) < ((valid.filter id).length : ℕ) := by exact_mod_cast Nat.pos_of_ne_zero hn
    have hnn : ∀ x ∈ ((sim.zip log).zip valid).map (fun s => if s.2 then displacement s.1.1 s.1.2 else 0), 0 ≤ x := by
      intro x hx
      obtain ⟨s, _, rfl⟩ := List.mem_map.1 hx
      split
      · exact displacement_nonneg _ _
      · exact le_rfl
    refine ⟨by rw [← hv]; exact div_nonneg (List.sum_nonneg hnn) hpos.le, ?_⟩
    rw [← hv, div_eq_zero_iff, or_iff_left hpos.ne', sum_eq_zero_of_nonneg hnn]
    constructor
    · intro h0 i p q hp hq hi
      have hmem : ((p, q), true) ∈ (sim.zip log).zip valid := by
        apply List.mem_of_getElem? (i := i)
        rw [List.getElem?_zip_eq_some, List.getElem?_zip_eq_some]
        exact ⟨⟨hp, hq⟩, hi⟩
      have := h0 _ (List.mem_map.2 ⟨_, hmem, rfl⟩)
      exact displacement_eq_zero.1 (by simpa using this)
    · intro h0 x hx
      obtain ⟨⟨⟨p, q⟩, b⟩, hs, rfl⟩ := List.mem_map.1 hx
      obtain ⟨i, hi⟩ := List.mem_iff_getElem?.1 hs
      rw [List.getElem?_zip_eq_some, List.getElem?_zip_eq_some] at hi
      obtain ⟨⟨hp, hq⟩, hb⟩ := hi
      dsimp only at hp hq hb ⊢
      cases b with
      | false => simp
      | true => simp only [if_true]; exact displacement_eq_zero.2 (h0 i p q hp hq hb)

/-- C81: the history, where a simulation agrees with the log, is counted too: the reported error is smaller by the share of the valid steps that are
in the future. -/
theorem averageDisplacement_partial {hist sim log : List (ℝ × ℝ × ℝ)} {vh valid : List Bool} (hh : hist.length = vh.length) (hs : sim.length = valid.length)
    (hl : log.length = valid.length) {future : ℝ} (hf : averageDisplacement sim log valid = some future) :
    averageDisplacement (hist ++ sim) (hist ++ log) (vh ++ valid) =
      some (future * ((valid.filter id).length / ((vh.filter id).length + (valid.filter id).length))) := by
  unfold averageDisplacement at hf ⊢
  dsimp only at hf ⊢
  split at hf
  · cases hf
  next hn =>
    have hv := Option.some.inj hf
    have hpos : (0 : ℝ) < ((valid.filter id).length : ℕ) := by exact_mod_cast Nat.pos_of_ne_zero hn
    rw [List.filter_append, List.length_append, if_neg (by omega), List.zip_append rfl, List.zip_append (by simp [hh]), List.map_append, List.sum_append]
    have h0 : (((hist.zip hist).zip vh).map fun s => if s.2 then displacement s.1.1 s.1.2 else 0).sum = 0 := by
      refine (sum_eq_zero_of_nonneg ?_).2 ?_
      · intro x hx
        obtain ⟨s, _, rfl⟩ := List.mem_map.1 hx
        split
        · exact displacement_nonneg _ _
        · exact le_rfl
      · intro x hx
        obtain ⟨⟨⟨p, q⟩, b⟩, hs, rfl⟩ := List.mem_map.1 hx
        obtain ⟨i, hi⟩ := List.mem_iff_getElem?.1 hs
        rw [List.getElem?_zip_eq_some, List.getElem?_zip_eq_some] at hi
        obtain ⟨⟨hp, hq⟩, _⟩ := hi
        dsimp only at hp hq ⊢
        rw [hp] at hq
        rw [← Option.some.inj hq, displacement_eq_zero.2 rfl]
        simp
    rw [h0, zero_add, ← hv]
    congr 1
    push_cast
    field_simp

/-- One step of history and one of the future, 2 m away: the reported error is 1 m. -/
theorem averageDisplacement_violated : averageDisplacement [(0, 0, 0), (2, 0, 0)] [(0, 0, 0), (0, 0, 0)] [true, true] = some 1 ∧
    averageDisplacement [(2, 0, 0)] [(0, 0, 0)] [true] = some 2 := by
  have h2 : averageDisplacement [(2, 0, 0)] [(0, 0, 0)] [true] = some 2 := by
    simp [averageDisplacement, displacement]
  refine ⟨?_, h2⟩
  have := averageDisplacement_partial (hist := [(0, 0, 0)]) (vh := [true]) rfl rfl rfl h2
  rw [show ([(0, 0, 0), (2, 0, 0)] : List (ℝ × ℝ × ℝ)) = [(0, 0, 0)] ++ [(2, 0, 0)] from rfl,
    show ([(0, 0, 0), (0, 0, 0)] : List (ℝ × ℝ × ℝ)) = [(0, 0, 0)] ++ [(0, 0, 0)] from rfl, show [true, true] = [true] ++ [true] from rfl, this]
  norm_num

end Verif.Kinematics
