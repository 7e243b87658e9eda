import Verif.Lemmas.PolyRing
import Mathlib.Analysis.SpecialFunctions.Complex.Arg
import Mathlib.Analysis.SpecialFunctions.Trigonometric.Angle

/-!
Points in convex position, in counter-clockwise order, are a ring: the edges turn left and once around.
-/

namespace Verif.Polygon

open Real

/-- The direction of a vector to the left of a direction. -/
theorem exists_left {α : ℝ} {w : Pt ℝ} (h : 0 < cp (e α) w) :
    ∃ β, (α < β ∧ β < α + π) ∧ ∃ r : ℝ, 0 < r ∧ w = scale r (e β) := by
  set z : ℂ := ⟨w.1 * cos α + w.2 * sin α, cp (e α) w⟩ with hz
  have hz0 : z ≠ 0 := fun g => by
    have : z.im = 0 := by rw [g]; rfl
    rw [hz] at this; exact absurd this h.ne'
  have hn : 0 < ‖z‖ := norm_pos_iff.mpr hz0
  have hre : ‖z‖ * cos z.arg = w.1 * cos α + w.2 * sin α := by
    rw [Complex.cos_arg hz0, mul_div_cancel₀ _ hn.ne']
  have him : ‖z‖ * sin z.arg = cos α * w.2 - sin α * w.1 := by
    rw [Complex.sin_arg, mul_div_cancel₀ _ hn.ne']; rfl
  have h0 : 0 < z.arg := by
    refine lt_of_le_of_ne (Complex.arg_nonneg_iff.mpr h.le) (fun g => ?_)
    rw [← g, sin_zero, mul_zero] at him
    have : cp (e α) w = cos α * w.2 - sin α * w.1 := rfl
    linarith
  have h1 : z.arg < π := by
    refine lt_of_le_of_ne (Complex.arg_le_pi z) (fun g => ?_)
    rw [g, sin_pi, mul_zero] at him
    have : cp (e α) w = cos α * w.2 - sin α * w.1 := rfl
    linarith
  refine ⟨α + z.arg, ⟨by linarith, by linarith⟩, ‖z‖, hn, ?_⟩
  have hs := sin_sq_add_cos_sq α
  ext
  · show w.1 = ‖z‖ * cos (α + z.arg)
    rw [cos_add]
    linear_combination (-cos α) * hre + sin α * him - w.1 * hs
  · show w.2 = ‖z‖ * sin (α + z.arg)
    rw [sin_add]
    linear_combination (-sin α) * hre - cos α * him - w.2 * hs

/-- The direction of a vector is unique up to full turns. -/
theorem dir_unique {a b r s : ℝ} (hr : 0 < r) (hs : 0 < s) (h : scale r (e a) = scale s (e b)) :
    ∃ k : ℤ, a = b + k * (2 * π) := by
  have h1 : r * cos a = s * cos b := congrArg Prod.fst h
  have h2 : r * sin a = s * sin b := congrArg Prod.snd h
  have ha := sin_sq_add_cos_sq a
  have hb := sin_sq_add_cos_sq b
  have hq : r ^ 2 = s ^ 2 := by
    have e1 : r ^ 2 * (sin a ^ 2 + cos a ^ 2) = s ^ 2 * (sin b ^ 2 + cos b ^ 2) := by
      linear_combination (r * cos a + s * cos b) * h1 + (r * sin a + s * sin b) * h2
    rwa [ha, hb, mul_one, mul_one] at e1
  have hrs : r = s := by
    have : (r - s) * (r + s) = 0 := by linear_combination hq
    rcases mul_eq_zero.mp this with g | g <;> linarith
  subst hrs
  have := Real.Angle.cos_sin_inj (mul_left_cancel₀ hr.ne' h1) (mul_left_cancel₀ hr.ne' h2)
  obtain ⟨k, hk⟩ := Real.Angle.angle_eq_iff_two_pi_dvd_sub.mp this
  exact ⟨k, by linarith⟩

theorem int_eq_zero {k : ℤ} {x : ℝ} (h : x = k * (2 * π)) (h0 : -π < x) (h1 : x < π) : k = 0 := by
  have hp := pi_pos
  have a : (k : ℝ) < 1 := by nlinarith
  have b : (-1 : ℝ) < k := by nlinarith
  have a' : k < 1 := by exact_mod_cast a
  have b' : -1 < k := by exact_mod_cast b
  omega

variable {V : ℕ → Pt ℝ} {n : ℕ}

/-- Points such that all are to the left of the line through each and the next turn once around. -/
theorem exists_ring (hn : 3 ≤ n) (per : ∀ i, V (i + n) = V i)
    (H : ∀ i t, 2 ≤ t → t < n → 0 < cp (V (i + 1) - V i) (V (i + t) - V i)) : ∃ α, Ring V n α := by
  have hpi := pi_pos
  -- the edges turn left
  have turn : ∀ i, 0 < cp (V (i + 1) - V i) (V (i + 2) - V (i + 1)) := by
    intro i
    have := H i 2 le_rfl (by omega)
    have e : cp (V (i + 1) - V i) (V (i + 2) - V (i + 1)) = cp (V (i + 1) - V i) (V (i + 2) - V i) := by
      simp only [cp, Prod.fst_sub, Prod.snd_sub]; ring
    rwa [e]
  have start : ∃ a, ∃ r : ℝ, 0 < r ∧ V 1 - V 0 = scale r (e a) := by
    have h0 := turn 0
    have hne : (V 1 - V 0) ≠ 0 := fun g => by
      rw [show (0 : ℕ) + 1 = 1 from rfl, g] at h0; simp [cp] at h0
    have : ∃ θ, 0 < cp (e θ) (V 1 - V 0) := by
      by_contra g
      push Not at g
      have g1 := g 0
      have g2 := g π
      have g3 := g (π / 2)
      have g4 := g (-(π / 2))
      simp [cp, e] at g1 g2 g3 g4
      exact hne (Prod.ext (by simp; linarith) (by simp; linarith))
    obtain ⟨θ, hθ⟩ := this
    obtain ⟨a, _, h⟩ := exists_left hθ
    exact ⟨a, h⟩
  have step : ∀ i a, (∃ r : ℝ, 0 < r ∧ V (i + 1) - V i = scale r (e a)) →
      ∃ b, (a < b ∧ b < a + π) ∧ ∃ r : ℝ, 0 < r ∧ V (i + 2) - V (i + 1) = scale r (e b) := by
    rintro i a ⟨r, hr, h⟩
    have := turn i
    rw [h, scale_cp] at this
    exact exists_left (pos_of_mul_pos_right this hr.le)
  choose f hf1 hf2 using step
  obtain ⟨a0, h0⟩ := start
  let s : (i : ℕ) → {a : ℝ // ∃ r : ℝ, 0 < r ∧ V (i + 1) - V i = scale r (e a)} :=
    fun i => Nat.rec ⟨a0, h0⟩ (fun i a => ⟨f i a.1 a.2, hf2 i a.1 a.2⟩) i
  let α : ℕ → ℝ := fun i => (s i).1
  have hstep : ∀ i, α i < α (i + 1) ∧ α (i + 1) < α i + π := fun i => hf1 i (s i).1 (s i).2
  have hdir : ∀ i, ∃ r : ℝ, 0 < r ∧ V (i + 1) - V i = scale r (e (α i)) := fun i => (s i).2
  have mono : StrictMono α := strictMono_nat_of_lt_succ (fun i => (hstep i).1)
  have left : ∀ i t, 2 ≤ t → t < n → 0 < cp (e (α i)) (V (i + t) - V i) := by
    intro i t h2 ht
    obtain ⟨r, hr, hd⟩ := hdir i
    have := H i t h2 ht
    rw [hd, scale_cp] at this
    exact pos_of_mul_pos_right this hr.le
  have once : ∀ j < n, α j < α 0 + 2 * π := by
    by_contra g
    push Not at g
    have hex : ∃ j, α 0 + 2 * π ≤ α j := let ⟨j, _, hj⟩ := g; ⟨j, hj⟩
    obtain ⟨j0, hj0, hj0'⟩ := g
    set j := Nat.find hex with hj
    have hjs : α 0 + 2 * π ≤ α j := Nat.find_spec hex
    have hjn : j < n := lt_of_le_of_lt (Nat.find_min' hex hj0') hj0
    have hj2 : 2 ≤ j := by
      by_contra hlt
      push Not at hlt
      have h1 := (hstep 0).2
      interval_cases j
      · linarith
      · rw [zero_add] at h1; linarith
    obtain ⟨i, hi⟩ : ∃ i, j = i + 1 := ⟨j - 1, by omega⟩
    have him : α i < α 0 + 2 * π := lt_of_not_ge (Nat.find_min hex (show i < Nat.find hex by rw [← hj]; omega))
    rw [hi] at hjs hjn hj2
    have hst := hstep i
    -- the first point is to the left of both edges at the point `i + 1`
    have hV0 : ∀ m, m ≤ n → V (m + (n - m)) = V 0 := by
      intro m hm
      rw [show m + (n - m) = 0 + n by omega, per]
    have c1 : 0 < cp (e (α i)) (V 0 - V (i + 1)) := by
      have := left i (n - i) (by omega) (by omega)
      rw [hV0 i (by omega)] at this
      obtain ⟨r, hr, hd⟩ := hdir i
      have : cp (e (α i)) (V 0 - V i) = cp (e (α i)) (V 0 - V (i + 1)) + cp (e (α i)) (V (i + 1) - V i) := by
        simp only [cp, Prod.fst_sub, Prod.snd_sub]; ring
      rw [hd, cp_scale, cp_self, mul_zero] at this
      linarith
    have c2 : 0 ≤ cp (e (α (i + 1))) (V 0 - V (i + 1)) := by
      rcases Nat.lt_or_ge (i + 2) n with h | h
      · have := left (i + 1) (n - (i + 1)) (by omega) (by omega)
        rw [hV0 (i + 1) (by omega)] at this
        exact this.le
      · have hd0 : V 0 = V (i + 2) := by rw [show i + 2 = 0 + n by omega, per]
        obtain ⟨r, hr, hd⟩ := hdir (i + 1)
        rw [hd0, hd, cp_scale, cp_self, mul_zero]
    have c3 : 0 < cp (e (α 0)) (V (i + 1) - V 0) := by
      have := left 0 (i + 1) hj2 hjn
      rwa [zero_add] at this
    have key : sin (α (i + 1) - α i) * cp (e (α 0)) (V 0 - V (i + 1)) =
        sin (α (i + 1) - (α 0 + 2 * π)) * cp (e (α i)) (V 0 - V (i + 1)) +
        sin ((α 0 + 2 * π) - α i) * cp (e (α (i + 1))) (V 0 - V (i + 1)) := by
      rw [show α (i + 1) - (α 0 + 2 * π) = (α (i + 1) - α 0) - 2 * π by ring, sin_sub_two_pi,
        show (α 0 + 2 * π) - α i = (α 0 - α i) + 2 * π by ring, sin_add_two_pi]
      simp only [sin_sub, cp, e]
      have q1 := sin_sq_add_cos_sq (α 0)
      have q2 := sin_sq_add_cos_sq (α i)
      have q3 := sin_sq_add_cos_sq (α (i + 1))
      ring
    have p1 : 0 < sin (α (i + 1) - α i) := sin_pos_of_pos_of_lt_pi (by linarith) (by linarith)
    have p2 : 0 ≤ sin (α (i + 1) - (α 0 + 2 * π)) := sin_nonneg_of_nonneg_of_le_pi (by linarith) (by linarith)
    have p3 : 0 ≤ sin ((α 0 + 2 * π) - α i) := sin_nonneg_of_nonneg_of_le_pi (by linarith) (by linarith)
    have p4 : 0 ≤ sin (α (i + 1) - α i) * cp (e (α 0)) (V 0 - V (i + 1)) := by
      rw [key]; exact add_nonneg (mul_nonneg p2 c1.le) (mul_nonneg p3 c2)
    have p5 : cp (e (α 0)) (V 0 - V (i + 1)) = - cp (e (α 0)) (V (i + 1) - V 0) := by
      simp only [cp, Prod.fst_sub, Prod.snd_sub]; ring
    rw [p5] at p4
    nlinarith
  have same : ∀ i, ∃ k : ℤ, α (i + n) = α i + k * (2 * π) := by
    intro i
    obtain ⟨r, hr, h⟩ := hdir i
    obtain ⟨r', hr', h'⟩ := hdir (i + n)
    rw [show i + n + 1 = (i + 1) + n by omega, per, per] at h'
    exact dir_unique hr' hr (h'.symm.trans h)
  have aper : ∀ i, α (i + n) = α i + 2 * π := by
    intro i
    induction i with
    | zero =>
      obtain ⟨k, hk⟩ := same 0
      have h1 := once (n - 1) (by omega)
      have h2 := (hstep (n - 1)).2
      rw [show n - 1 + 1 = 0 + n by omega] at h2
      have h3 : α 0 < α (0 + n) := mono (show (0 : ℕ) < 0 + n by omega)
      have a : (k : ℝ) * 2 < 3 := by nlinarith
      have b : (0 : ℝ) < k := by nlinarith
      have a' : k * 2 < 3 := by exact_mod_cast a
      have b' : 0 < k := by exact_mod_cast b
      have : k = 1 := by omega
      rw [hk, this]; norm_num
    | succ i ih =>
      obtain ⟨k, hk⟩ := same (i + 1)
      have h1 := hstep i
      have h2 := hstep (i + n)
      rw [show i + n + 1 = i + 1 + n by omega] at h2
      have := int_eq_zero (k := k - 1) (x := α (i + 1 + n) - (α (i + 1) + 2 * π)) (by rw [hk]; push_cast; ring) (by linarith) (by linarith)
      have hk1 : k = 1 := by omega
      rw [hk, hk1]; norm_num
  exact ⟨α, hn, per, aper, hstep, fun i => by
    obtain ⟨r, hr, h⟩ := hdir i
    exact ⟨r, hr, by rw [← h]; abel⟩⟩

end Verif.Polygon
