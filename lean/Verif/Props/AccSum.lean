import Verif.Lemmas.AccSum

/-!
# The accurate summation (math/polygon2d.cc:60-108)

Sixteen floating point numbers are added with a relative error of at most `2 ^ -52`, whatever cancels; the sign of the result is the sign of the exact sum
and the result is zero only if the exact sum is.  The number of passes is bounded by the exponent range.
-/

namespace Verif.AccSum

theorem foldl_max (l : List ℝ) (a : ℝ) :
    (a ≤ l.foldl (fun mu pe => max mu |pe|) a ∧ ∀ p ∈ l, |p| ≤ l.foldl (fun mu pe => max mu |pe|) a) ∧
      (l.foldl (fun mu pe => max mu |pe|) a = a ∨ ∃ p ∈ l, l.foldl (fun mu pe => max mu |pe|) a = |p|) := by
  induction l generalizing a with
  | nil => simp
  | cons x l ih =>
    obtain ⟨⟨h1, h2⟩, h3⟩ := ih (max a |x|)
    rw [List.foldl_cons]
    refine ⟨⟨(le_max_left _ _).trans h1, ?_⟩, ?_⟩
    · intro p hp
      rcases List.mem_cons.mp hp with rfl | hp
      · exact (le_max_right _ _).trans h1
      · exact h2 p hp
    · rcases h3 with h | ⟨p, hp, h⟩
      · rw [h]
        rcases max_choice a |x| with c | c
        · exact Or.inl c
        · exact Or.inr ⟨x, List.mem_cons_self .., c⟩
      · exact Or.inr ⟨p, List.mem_cons_of_mem _ hp, h⟩

/-- `mu` is the largest absolute value. -/
theorem le_maxAbs {ps : List ℝ} {p : ℝ} (h : p ∈ ps) : |p| ≤ maxAbs ps := (foldl_max ps _).1.2 p h

theorem maxAbs_mem {ps : List ℝ} (h : maxAbs ps ≠ 0) : ∃ p ∈ ps, maxAbs ps = |p| := by
  rcases (foldl_max ps |ps.headD 0|).2 with c | c
  · cases ps with
    | nil =>
      exfalso
      apply h
      simp [maxAbs]
    | cons x l => exact ⟨x, List.mem_cons_self .., c⟩
  · exact c

theorem sum_zero {ps : List ℝ} (h : maxAbs ps = 0) : ps.sum = 0 := by
  refine List.sum_eq_zero ?_
  intro p hp
  have := le_maxAbs hp
  rw [h] at this
  exact abs_eq_zero.mp (le_antisymm this (abs_nonneg _))

theorem abs_sum_le (ps : List ℝ) (b : ℝ) (h : ∀ p ∈ ps, |p| ≤ b) : |ps.sum| ≤ ps.length * b := by
  induction ps with
  | nil => simp
  | cons x l ih =>
    rw [List.sum_cons, List.length_cons]
    refine (abs_add_le _ _).trans ?_
    have h1 := h x (List.mem_cons_self ..)
    have h2 := ih (fun p hp => h p (List.mem_cons_of_mem _ hp))
    push_cast
    linarith

section
variable {rn : ℝ → ℝ} (hr : Rounding rn) {next : ℝ → ℤ} (hn : Next next)

include hr hn in
/-- The first `sigma`: a power of two large enough for the numbers. -/
theorem first_sigma {ps : List ℝ} (hf : ∀ p ∈ ps, IsFloat p) (h0 : maxAbs ps ≠ 0) :
    ∃ k : ℤ, rn (ms * 2 ^ next (maxAbs ps)) = 2 ^ k ∧ -1074 ≤ k ∧ (∀ p ∈ ps, |p| ≤ 3 / 64 * 2 ^ k) ∧ (2 : ℝ) ^ k ≤ 96 * maxAbs ps := by
  obtain ⟨x, hx, ex⟩ := maxAbs_mem h0
  have x0 : x ≠ 0 := by
    rintro rfl
    rw [abs_zero] at ex
    exact h0 ex
  have pos : 0 < maxAbs ps := by rw [ex]; exact abs_pos.mpr x0
  obtain ⟨n1, n2⟩ := hn _ pos
  have lo : -1074 ≤ next (maxAbs ps) := by
    have g := (float_grid (hf x hx)).ge x0
    rw [← ex] at g
    by_contra c
    push Not at c
    have m : (2 : ℝ) ^ next (maxAbs ps) ≤ 2 ^ (-1074 - 1 : ℤ) := zpow_mono (by omega)
    have e : (2 : ℝ) ^ (-1074 : ℤ) = 2 * 2 ^ (-1074 - 1 : ℤ) := by
      rw [zpow_sub₀ (by norm_num) (-1074 : ℤ) 1, zpow_one]
      ring
    have := two_zpow_pos (-1074 - 1)
    linarith
  have e32 : (2 : ℝ) ^ (next (maxAbs ps) + 5) = 32 * 2 ^ next (maxAbs ps) := by
    rw [zpow_split]
    norm_num
    ring
  refine ⟨next (maxAbs ps) + 5, ?_, by omega, ?_, ?_⟩
  · unfold ms
    rw [← e32]
    exact rn_exact hr (float_pow (by omega))
  · intro p hp
    have := le_maxAbs hp
    rw [e32]
    linarith
  · rw [e32]
    linarith

/-- The error at the end, from the parts. -/
theorem final_bound {T P tau1 sum u res B eps : ℝ} (he : eps = 1 / 9007199254740992) (B0 : 0 < B) (h1 : |tau1 - T| ≤ eps * |T|)
    (hu : |u - (T - tau1 + sum)| ≤ eps * |T - tau1 + sum|) (hres : |res - (tau1 + u)| ≤ eps * |tau1 + u|) (hbig : B ≤ |tau1|)
    (hP : |P| ≤ B / 32) (hs : |sum| ≤ B / 32) (hsP : |sum - P| ≤ eps * (B / 2)) : |res - (T + P)| ≤ 2 * eps * |T + P| := by
  subst he
  have a1 := abs_le.mp h1
  have a2 := abs_le.mp hu
  have a3 := abs_le.mp hres
  have aT : |tau1| ≤ |T| + |tau1 - T| := by
    have := abs_add_le T (tau1 - T)
    rwa [show T + (tau1 - T) = tau1 by ring] at this
  have bT : |T - tau1 + sum| ≤ |tau1 - T| + |sum| := by
    have := abs_add_le (T - tau1) sum
    rwa [abs_sub_comm T tau1] at this
  have bS : |T| ≤ |T + P| + |P| := by
    have := abs_sub_le (T + P) 0 P
    have := abs_sub (T + P) P
    rwa [show T + P - P = T by ring] at this
  have c : |tau1 + u - (T + P)| ≤ |u - (T - tau1 + sum)| + |sum - P| := by
    have := abs_add_le (u - (T - tau1 + sum)) (sum - P)
    rwa [show u - (T - tau1 + sum) + (sum - P) = tau1 + u - (T + P) by ring] at this
  have d : |tau1 + u| ≤ |T + P| + |tau1 + u - (T + P)| := by
    have := abs_add_le (T + P) (tau1 + u - (T + P))
    rwa [show T + P + (tau1 + u - (T + P)) = tau1 + u by ring] at this
  have e : |res - (T + P)| ≤ |res - (tau1 + u)| + |tau1 + u - (T + P)| := by
    have := abs_add_le (res - (tau1 + u)) (tau1 + u - (T + P))
    rwa [show res - (tau1 + u) + (tau1 + u - (T + P)) = res - (T + P) by ring] at this
  linarith

include hr in
/-- At the smallest exponents nothing is left over and the result is rounded once. -/
theorem stop_small (n : ℕ) {k : ℤ} {t : ℝ} {ps : List ℝ} (k22 : k ≤ -1022) (hk : -1074 ≤ k) (hps : ∀ p ∈ ps, IsFloat p ∧ |p| ≤ 3 / 64 * 2 ^ k)
    (hl : ps.length ≤ 16) (gt : Grid (gridOf k) t) (bt : |t| ≤ 2 ^ (k + 5)) :
    loop rn next (n + 1) t (2 ^ k) ps = some (rn (t + ps.sum)) ∧ Grid (-1074) (t + ps.sum) := by
  obtain ⟨h1, h2, h3, h4, h5, h6, h7, h8⟩ := pass_spec hr hk (b := 0) le_rfl (fun j _ => by rw [mul_zero]; exact float_zero) (Or.inr ⟨k22, rfl⟩) ps 0 0 0 hps (by omega)
    (Grid.zero _) (by simp) float_zero (by simp)
  have pk := two_zpow_pos k
  set r := pass rn (2 ^ k) ps 0 0 with hR
  have s0 : r.2.1 = 0 := by
    rw [mul_zero] at h7
    exact abs_eq_zero.mp (le_antisymm h7 (abs_nonneg _))
  have p0 : r.2.2.sum = 0 := List.sum_eq_zero (fun p hp => abs_eq_zero.mp (le_antisymm (h5 p hp).2.2 (abs_nonneg _)))
  have et : r.1 = ps.sum := by
    rw [p0] at h3
    linarith
  have b8 : |r.1| ≤ 7 / 8 * 2 ^ k := by
    refine h2.trans ?_
    have : ((0 + ps.length : ℕ) : ℝ) ≤ 16 := by exact_mod_cast (by omega : 0 + ps.length ≤ 16)
    nlinarith
  obtain ⟨ts, -⟩ := two_sum hr gt h1 bt b8
  refine ⟨?_, ?_⟩
  · rw [loop]
    simp only [← hR]
    have m : (2 : ℝ) ^ k ≤ minDouble := zpow_mono k22
    rw [if_pos (Or.inr m), ts, s0, add_zero, ← et]
    have f2 : IsFloat (t + r.1 - rn (t + r.1)) := ts ▸ hr.float _
    rw [rn_exact hr f2]
    congr 2
    ring
  · rw [← et]
    exact (gt.add h1).mono (gridOf_ge k)

include hr in
/-- Above the smallest exponents: stop with a good result, or go on with the same sum. -/
theorem step_big (n : ℕ) {k : ℤ} {t : ℝ} {ps : List ℝ} (hk : -1022 < k) (hps : ∀ p ∈ ps, IsFloat p ∧ |p| ≤ 3 / 64 * 2 ^ k)
    (hl : ps.length ≤ 16) (gt : Grid (gridOf k) t) (bt : |t| ≤ 2 ^ (k + 5)) :
    (∃ res, loop rn next (n + 1) t (2 ^ k) ps = some res ∧ |res - (t + ps.sum)| ≤ 2 ^ (-52 : ℤ) * |t + ps.sum| ∧ IsFloat res) ∨
    ∃ (t' : ℝ) (ps' : List ℝ), t' + ps'.sum = t + ps.sum ∧ Grid (gridOf k) t' ∧ |t'| ≤ 2 ^ (k - 43) ∧ ps'.length = ps.length ∧
      (∀ p ∈ ps', IsFloat p ∧ |p| ≤ 67 / 64 * 2 ^ (k - 53)) ∧
      loop rn next (n + 1) t (2 ^ k) ps = if t' = 0 then if maxAbs ps' = 0 then some 0 else loop rn next n 0 (rn (ms * 2 ^ next (maxAbs ps'))) ps'
        else loop rn next n t' (2 ^ (k - 48)) ps' := by
  have pk := two_zpow_pos k
  have e52 : (2 : ℝ) ^ (k - 52) = 2 * 2 ^ (k - 53) := by
    rw [show k - 52 = 1 + (k - 53) by ring, zpow_split, zpow_one]
  have p53 := two_zpow_pos (k - 53)
  have bf : ∀ j : ℕ, j ≤ 16 → IsFloat (j * 2 ^ (k - 52)) := by
    intro j hj
    refine float_of_grid (j := k - 52) (by omega) ⟨j, by push_cast; rfl⟩ ?_
    rw [abs_mul, abs_of_pos (two_zpow_pos (k - 52)), Nat.abs_cast, add_comm, zpow_split]
    refine mul_le_mul_of_nonneg_right ?_ (two_zpow_pos _).le
    have : (j : ℝ) ≤ 16 := by exact_mod_cast hj
    norm_num
    linarith
  obtain ⟨h1, h2, h3, h4, h5, h6, h7, h8⟩ := pass_spec hr (by omega : -1074 ≤ k) (b := 2 ^ (k - 52)) (two_zpow_pos _).le bf (Or.inl (by rw [e52]; linarith)) ps 0 0 0 hps
    (by omega) (Grid.zero _) (by simp) float_zero (by simp)
  set r := pass rn (2 ^ k) ps 0 0 with hR
  have l16 : (ps.length : ℝ) ≤ 16 := by exact_mod_cast hl
  have b8 : |r.1| ≤ 7 / 8 * 2 ^ k := by
    refine h2.trans ?_
    rw [zero_add]
    nlinarith
  obtain ⟨ts, tx⟩ := two_sum hr gt h1 bt b8
  have e43 : (2 : ℝ) ^ (k - 43) = 1024 * 2 ^ (k - 53) := by
    rw [show k - 43 = 10 + (k - 53) by ring, zpow_split]
    norm_num
  have fac : rn (factor * 2 ^ k) = 2 ^ (k - 43) := by
    have : factor * 2 ^ k = 2 ^ (k - 43) := by
      rw [e43, zpow_sub53]
      unfold factor kAccSum ms
      ring
    rw [this]
    exact rn_exact hr (float_pow (by omega))
  have nm : ¬ (2 : ℝ) ^ k ≤ minDouble := by
    unfold minDouble
    rw [zpow_le']
    omega
  by_cases stop : rn (factor * 2 ^ k) ≤ |rn (t + r.1)|
  · left
    rw [loop]
    simp only [← hR]
    rw [if_pos (Or.inl stop), ts]
    refine ⟨_, rfl, ?_, hr.float _⟩
    rw [fac] at stop
    have S : t + ps.sum = t + r.1 + r.2.2.sum := by linarith
    have f2 : IsFloat (t + r.1 - rn (t + r.1)) := ts ▸ hr.float _
    rw [S, show (2 : ℝ) ^ (-52 : ℤ) = 2 * 2 ^ (-53 : ℤ) by norm_num]
    refine final_bound (sum := r.2.1) (B := 2 ^ (k - 43)) eps_val (two_zpow_pos _) (rn_rel hr ((gt.add h1).mono (gridOf_ge k)))
      (rn_rel hr ((float_grid f2).add (float_grid h6))) (rn_rel hr ((float_grid (hr.float _)).add (float_grid (hr.float _)))) stop ?_ ?_ ?_
    · refine (abs_sum_le _ _ (fun p hp => (h5 p hp).2.2)).trans ?_
      rw [h4, e43, e52]
      nlinarith
    · refine h7.trans ?_
      rw [zero_add, e43, e52]
      nlinarith
    · rw [zero_add] at h8
      refine h8.trans ?_
      rw [e43, e52]
      have := two_zpow_pos (-53)
      have := mul_pos this p53
      nlinarith
  · right
    have lt : |rn (t + r.1)| < 2 ^ (k - 43) := by
      rw [fac] at stop
      exact not_le.mp stop
    have ex := tx (lt.trans (zpow_lt.mpr (by omega)))
    refine ⟨t + r.1, r.2.2, by linarith, gt.add h1, by rw [← ex]; exact lt.le, h4, fun p hp => ⟨(h5 p hp).1, (h5 p hp).2.1⟩, ?_⟩
    rw [loop]
    simp only [← hR]
    rw [if_neg (by push Not; exact ⟨not_le.mp stop, not_le.mp nm⟩), ex]
    have sg : rn (phi * 2 ^ k) = 2 ^ (k - 48) := by
      have : phi * 2 ^ k = 2 ^ (k - 48) := by
        rw [show k - 48 = 5 + (k - 53) by ring, zpow_split, zpow_sub53]
        unfold phi kAccSum ms
        norm_num
        ring
      rw [this]
      exact rn_exact hr (float_pow (by omega))
    rw [sg]

include hr hn in
/-- The loop ends with the sum of what is left, up to the relative error. -/
theorem loop_spec (n : ℕ) : ∀ (k : ℤ) (t : ℝ) (ps : List ℝ), k + 1022 ≤ 47 * (n : ℤ) → -1074 ≤ k → (∀ p ∈ ps, IsFloat p ∧ |p| ≤ 3 / 64 * 2 ^ k) →
    ps.length ≤ 16 → Grid (gridOf k) t → |t| ≤ 2 ^ (k + 5) →
    ∃ res, loop rn next (n + 1) t (2 ^ k) ps = some res ∧ |res - (t + ps.sum)| ≤ 2 ^ (-52 : ℤ) * |t + ps.sum| ∧ IsFloat res := by
  have small : ∀ (n : ℕ) (k : ℤ) (t : ℝ) (ps : List ℝ), k ≤ -1022 → -1074 ≤ k → (∀ p ∈ ps, IsFloat p ∧ |p| ≤ 3 / 64 * 2 ^ k) → ps.length ≤ 16 →
      Grid (gridOf k) t → |t| ≤ 2 ^ (k + 5) →
      ∃ res, loop rn next (n + 1) t (2 ^ k) ps = some res ∧ |res - (t + ps.sum)| ≤ 2 ^ (-52 : ℤ) * |t + ps.sum| ∧ IsFloat res := by
    intro n k t ps k22 hk hps hl gt bt
    obtain ⟨e, g⟩ := stop_small (next := next) hr n k22 hk hps hl gt bt
    refine ⟨_, e, (rn_rel hr g).trans ?_, hr.float _⟩
    exact mul_le_mul_of_nonneg_right (zpow_mono (by norm_num)) (abs_nonneg _)
  induction n with
  | zero =>
    intro k t ps hn' hk hps hl gt bt
    exact small 0 k t ps (by push_cast at hn'; omega) hk hps hl gt bt
  | succ n ih =>
    intro k t ps hn' hk hps hl gt bt
    rcases le_or_gt k (-1022) with c | c
    · exact small _ k t ps c hk hps hl gt bt
    · rcases step_big (next := next) hr (n + 1) c hps hl gt bt with h | ⟨t', ps', hs, g', b', l', f', e⟩
      · exact h
      · rw [e, ← hs]
        push_cast at hn'
        by_cases t0 : t' = 0
        · rw [if_pos t0, t0, zero_add]
          by_cases m0 : maxAbs ps' = 0
          · rw [if_pos m0, sum_zero m0]
            exact ⟨0, rfl, by simp, float_zero⟩
          · rw [if_neg m0]
            obtain ⟨k', e1, e2, e3, e4⟩ := first_sigma hr hn (fun p hp => (f' p hp).1) m0
            rw [e1]
            have le : k' ≤ k - 47 := by
              obtain ⟨x, hx, ex⟩ := maxAbs_mem m0
              rw [ex] at e4
              have b1 := (f' x hx).2
              have p53 := two_zpow_pos (k - 53)
              have : (2 : ℝ) ^ k' < 2 ^ (k - 46) := by
                rw [show k - 46 = 7 + (k - 53) by ring, zpow_split]
                norm_num
                linarith
              rw [zpow_lt] at this
              omega
            have := ih k' 0 ps' (by omega) e2 (fun p hp => ⟨(f' p hp).1, e3 p hp⟩) (by omega) (Grid.zero _) (by rw [abs_zero]; exact (two_zpow_pos _).le)
            rwa [zero_add] at this
        · rw [if_neg t0]
          refine ih (k - 48) t' ps' (by omega) (by omega) ?_ (by omega) (g'.mono (by unfold gridOf; omega)) ?_
          · intro p hp
            refine ⟨(f' p hp).1, (f' p hp).2.trans ?_⟩
            have p53 := two_zpow_pos (k - 53)
            rw [show k - 48 = 5 + (k - 53) by ring, zpow_split]
            norm_num
            linarith
          · rwa [show k - 48 + 5 = k - 43 by ring]

include hr hn in
/-- **The accurate sum.**  At most sixteen floating point numbers below the largest `double` are added within 64 passes, with a relative error of at most
`2 ^ -52`, however much they cancel. -/
theorem accSum_accurate (ps : List ℝ) (hf : ∀ p ∈ ps, IsFloat p) (hb : ∀ p ∈ ps, |p| ≤ 2 ^ (1024 : ℤ)) (hl : ps.length ≤ 16) :
    ∃ res, accSum rn next 64 ps = some res ∧ IsFloat res ∧ |res - ps.sum| ≤ 2 ^ (-52 : ℤ) * |ps.sum| := by
  unfold accSum
  by_cases m0 : maxAbs ps = 0
  · rw [if_pos m0, sum_zero m0]
    exact ⟨0, rfl, float_zero, by simp⟩
  · rw [if_neg m0]
    obtain ⟨k, e1, e2, e3, e4⟩ := first_sigma hr hn hf m0
    rw [e1]
    have le : k ≤ 1031 := by
      obtain ⟨x, hx, ex⟩ := maxAbs_mem m0
      rw [ex] at e4
      have b1 := hb x hx
      have p := two_zpow_pos 1024
      have : (2 : ℝ) ^ k < 2 ^ (7 + 1024 : ℤ) := by
        rw [zpow_split, show (2 : ℝ) ^ (7 : ℤ) = 128 by norm_num]
        generalize (2 : ℝ) ^ (1024 : ℤ) = M at *
        linarith
      rw [zpow_lt] at this
      omega
    obtain ⟨res, h1, h2, h3⟩ := loop_spec hr hn 63 k 0 ps (by norm_num; omega) e2 (fun p hp => ⟨hf p hp, e3 p hp⟩) hl (Grid.zero _) (by rw [abs_zero]; exact (two_zpow_pos _).le)
    rw [zero_add] at h2
    exact ⟨res, h1, h3, h2⟩

theorem sign_of_rel {x y : ℝ} (h : |x - y| ≤ 2 ^ (-52 : ℤ) * |y|) : (0 < x ↔ 0 < y) ∧ (x < 0 ↔ y < 0) ∧ (x = 0 ↔ y = 0) := by
  rw [show (2 : ℝ) ^ (-52 : ℤ) = 1 / 4503599627370496 by norm_num] at h
  obtain ⟨h1, h2⟩ := abs_le.mp h
  rcases lt_trichotomy y 0 with c | c | c
  · rw [abs_of_neg c] at h1 h2
    have : x < 0 := by linarith
    refine ⟨⟨fun _ => by linarith, fun _ => by linarith⟩, ⟨fun _ => c, fun _ => this⟩, ⟨fun _ => by linarith, fun _ => by linarith⟩⟩
  · subst c
    rw [abs_zero, mul_zero] at h1 h2
    have : x = 0 := by linarith
    subst this
    simp
  · rw [abs_of_pos c] at h1 h2
    have : 0 < x := by linarith
    refine ⟨⟨fun _ => c, fun _ => this⟩, ⟨fun _ => by linarith, fun _ => by linarith⟩, ⟨fun _ => by linarith, fun _ => by linarith⟩⟩

include hr hn in
/-- The sign of the sum is right, and the result is zero exactly if the sum is. -/
theorem accSum_sign (ps : List ℝ) (hf : ∀ p ∈ ps, IsFloat p) (hb : ∀ p ∈ ps, |p| ≤ 2 ^ (1024 : ℤ)) (hl : ps.length ≤ 16) :
    ∃ res, accSum rn next 64 ps = some res ∧ (0 < res ↔ 0 < ps.sum) ∧ (res < 0 ↔ ps.sum < 0) ∧ (res = 0 ↔ ps.sum = 0) := by
  obtain ⟨res, h1, -, h3⟩ := accSum_accurate hr hn ps hf hb hl
  exact ⟨res, h1, sign_of_rel h3⟩

end

/-- A case with cancellation: adding from left to right would give zero. -/
example : ∃ res, accSum roundNearest (fun d => Int.clog 2 d) 64 [2 ^ (100 : ℤ), 1, -2 ^ (100 : ℤ)] = some res ∧ 0 < res := by
  obtain ⟨res, h1, h2, -⟩ := accSum_sign roundNearest_spec clog_next [2 ^ (100 : ℤ), 1, -2 ^ (100 : ℤ)]
    (by
      intro p hp
      simp only [List.mem_cons, List.not_mem_nil, or_false] at hp
      rcases hp with rfl | rfl | rfl
      · exact float_pow (by norm_num)
      · have := float_pow (k := 0) (by norm_num)
        rwa [zpow_zero] at this
      · exact float_neg (float_pow (by norm_num)))
    (by
      intro p hp
      simp only [List.mem_cons, List.not_mem_nil, or_false] at hp
      rcases hp with rfl | rfl | rfl
      · rw [abs_of_pos (two_zpow_pos _)]
        exact zpow_mono (by norm_num)
      · rw [abs_one, ← zpow_zero (2 : ℝ)]
        exact zpow_mono (by norm_num)
      · rw [abs_neg, abs_of_pos (two_zpow_pos _)]
        exact zpow_mono (by norm_num))
    (by simp)
  exact ⟨res, h1, h2.mpr (by simp)⟩

end Verif.AccSum
