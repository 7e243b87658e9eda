import Verif.Props.AccSum

/-!
# The sign of a cross product (math/polygon2d.cc:110-151)

The comment promises the sign "with precise accuracy".  It is precise when the sum of products is used and when the four differences of coordinates are
exact, which is so for coordinates on a common grid of 52 bits.  It is not when the differences are rounded: the fixed threshold does not protect.
-/

namespace Verif.AccSum

/-- The exact cross product. -/
def exactCross (v0 v1 v2 v3 : Pt) : ℝ := (v1.1 - v0.1) * (v3.2 - v2.2) - (v1.2 - v0.2) * (v3.1 - v2.1)

/-- A coordinate whose products neither underflow nor overflow. -/
def Coord (x : ℝ) : Prop := (∃ m e : ℤ, |m| < 2 ^ 53 ∧ -537 ≤ e ∧ x = m * 2 ^ e) ∧ |x| ≤ 2 ^ (500 : ℤ)

theorem Coord.neg {x : ℝ} (h : Coord x) : Coord (-x) := by
  obtain ⟨⟨m, e, hm, he, rfl⟩, hb⟩ := h
  exact ⟨⟨-m, e, by rwa [abs_neg], he, by push_cast; ring⟩, by rwa [abs_neg]⟩

/-- Both coordinates of a point. -/
def CoordPt (v : Pt) : Prop := Coord v.1 ∧ Coord v.2

section
variable {rn : ℝ → ℝ} (hr : Rounding rn)
include hr

/-- What the rounding of a product loses is a floating point number. -/
theorem prod_error {x y : ℝ} (hx : Coord x) (hy : Coord y) : rn (x * y - rn (x * y)) = x * y - rn (x * y) := by
  obtain ⟨⟨m, e, hm, he, ex⟩, -⟩ := hx
  obtain ⟨⟨n, f, hn, hf, ey⟩, -⟩ := hy
  have g : Grid (e + f) (x * y) := ⟨m * n, by rw [ex, ey, zpow_split]; push_cast; ring⟩
  have b : |x * y| ≤ 2 ^ (e + f + 106) := by
    have h1 : |(m : ℝ)| ≤ 2 ^ 53 := by
      rw [← Int.cast_abs]
      exact_mod_cast hm.le
    have h2 : |(n : ℝ)| ≤ 2 ^ 53 := by
      rw [← Int.cast_abs]
      exact_mod_cast hn.le
    have : |(m : ℝ)| * |(n : ℝ)| ≤ 2 ^ (106 : ℤ) := (mul_le_mul h1 h2 (abs_nonneg _) (by positivity)).trans (by norm_num)
    rw [ex, ey, show (m : ℝ) * 2 ^ e * (n * 2 ^ f) = m * n * 2 ^ (e + f) by rw [zpow_split]; ring, abs_mul, abs_mul, abs_of_pos (two_zpow_pos _), add_comm _ (106 : ℤ), zpow_split (i := 106)]
    exact mul_le_mul_of_nonneg_right this (two_zpow_pos _).le
  refine rn_exact hr ?_
  by_cases h : |x * y| ≤ 2 ^ (e + f + 53)
  · rw [rn_exact hr (float_of_grid (by omega) g h), sub_self]
    exact float_zero
  · push Not at h
    have gr := grid_of_float (hr.float (x * y)) (le_abs_rn hr (float_pow (by omega)) h.le)
    refine float_of_grid (j := e + f) (by omega) (g.sub (gr.mono (le_max_of_le_left (by omega)))) ?_
    rw [abs_sub_comm]
    refine (rn_rel hr (g.mono (by omega))).trans ?_
    rw [show e + f + 53 = -53 + (e + f + 106) by ring, zpow_split (i := -53)]
    exact mul_le_mul_of_nonneg_left b (two_zpow_pos _).le

theorem factors_coord {v0 v1 v2 v3 : Pt} (h0 : CoordPt v0) (h1 : CoordPt v1) (h2 : CoordPt v2) (h3 : CoordPt v3) :
    ∀ f ∈ factors v0 v1 v2 v3, Coord f.1 ∧ Coord f.2 := by
  clear hr
  intro f hf
  simp only [factors, List.mem_cons, List.not_mem_nil, or_false] at hf
  rcases hf with rfl | rfl | rfl | rfl | rfl | rfl | rfl | rfl
  · exact ⟨h1.1, h3.2⟩
  · exact ⟨h0.1.neg, h3.2⟩
  · exact ⟨h1.1.neg, h2.2⟩
  · exact ⟨h0.1, h2.2⟩
  · exact ⟨h1.2.neg, h3.1⟩
  · exact ⟨h0.2, h3.1⟩
  · exact ⟨h1.2, h2.1⟩
  · exact ⟨h0.2.neg, h2.1⟩

theorem pair_sum (fs : List (ℝ × ℝ)) (h : ∀ f ∈ fs, Coord f.1 ∧ Coord f.2) :
    (fs.map (fun f => rn (f.1 * f.2))).sum + (fs.map (fun f => rn (f.1 * f.2 - rn (f.1 * f.2)))).sum = (fs.map (fun f => f.1 * f.2)).sum := by
  induction fs with
  | nil => simp
  | cons f fs ih =>
    simp only [List.map_cons, List.sum_cons]
    have := ih (fun g hg => h g (List.mem_cons_of_mem _ hg))
    obtain ⟨a, b⟩ := h f (List.mem_cons_self ..)
    rw [prod_error hr a b]
    linarith

/-- The sixteen terms are floating point numbers and add up to the cross product exactly. -/
theorem terms_sum {v0 v1 v2 v3 : Pt} (h0 : CoordPt v0) (h1 : CoordPt v1) (h2 : CoordPt v2) (h3 : CoordPt v3) :
    (terms rn v0 v1 v2 v3).sum = exactCross v0 v1 v2 v3 := by
  unfold terms
  rw [List.sum_append, pair_sum hr _ (factors_coord hr h0 h1 h2 h3)]
  simp only [factors, exactCross, List.map_cons, List.map_nil, List.sum_cons, List.sum_nil]
  ring

theorem terms_float (v0 v1 v2 v3 : Pt) : ∀ p ∈ terms rn v0 v1 v2 v3, IsFloat p := by
  intro p hp
  rcases List.mem_append.mp hp with h | h
  all_goals
    obtain ⟨f, -, rfl⟩ := List.mem_map.mp h
    exact hr.float _

theorem terms_bound {v0 v1 v2 v3 : Pt} (h0 : CoordPt v0) (h1 : CoordPt v1) (h2 : CoordPt v2) (h3 : CoordPt v3) :
    ∀ p ∈ terms rn v0 v1 v2 v3, |p| ≤ 2 ^ (1024 : ℤ) := by
  have pb : ∀ f ∈ factors v0 v1 v2 v3, |f.1 * f.2| ≤ 2 ^ (1000 : ℤ) := by
    intro f hf
    obtain ⟨a, b⟩ := factors_coord hr h0 h1 h2 h3 f hf
    rw [abs_mul, show (1000 : ℤ) = 500 + 500 by norm_num, zpow_split]
    exact mul_le_mul a.2 b.2 (abs_nonneg _) (two_zpow_pos _).le
  intro p hp
  rcases List.mem_append.mp hp with h | h
  · obtain ⟨f, hf, rfl⟩ := List.mem_map.mp h
    exact abs_rn_le hr (float_pow (by norm_num)) ((pb f hf).trans (zpow_mono (by norm_num)))
  · obtain ⟨f, hf, rfl⟩ := List.mem_map.mp h
    refine abs_rn_le hr (float_pow (by norm_num)) ?_
    have := hr.nearest (f.1 * f.2) 0 float_zero
    rw [zero_sub, abs_neg] at this
    rw [abs_sub_comm]
    exact this.trans ((pb f hf).trans (zpow_mono (by norm_num)))

variable {next : ℝ → ℤ} (hn : Next next)
include hn

/-- Near zero the cross product is accurate: when the quick result is at most `2 ^ -50` the returned value has the relative error `2 ^ -52`. -/
theorem cross_near_zero {v0 v1 v2 v3 : Pt} (h0 : CoordPt v0) (h1 : CoordPt v1) (h2 : CoordPt v2) (h3 : CoordPt v3)
    (hc : |cross rn v0 v1 v2 v3| ≤ 2 ^ (-50 : ℤ)) :
    ∃ r, crossMaybeExact rn next 64 v0 v1 v2 v3 = some r ∧ |r - exactCross v0 v1 v2 v3| ≤ 2 ^ (-52 : ℤ) * |exactCross v0 v1 v2 v3| := by
  unfold crossMaybeExact
  split_ifs with a
  · refine ⟨0, rfl, ?_⟩
    have : exactCross v0 v1 v2 v3 = 0 := by
      unfold exactCross
      rcases a with rfl | rfl <;> ring
    rw [this]
    simp
  · simp only
    rw [if_neg (show ¬ kCrossExactEpsilon < _ from not_lt.mpr hc)]
    obtain ⟨r, e, -, b⟩ := accSum_accurate hr hn _ (terms_float hr v0 v1 v2 v3) (terms_bound hr h0 h1 h2 h3) (by simp [terms, factors])
    rw [terms_sum hr h0 h1 h2 h3] at b
    exact ⟨r, e, b⟩

/-- **The sign is exact when the differences are.**  If the four differences of coordinates are floating point numbers, the sign of the result is the
sign of the exact cross product, and zero is returned exactly for a zero cross product. -/
theorem cross_sign_partial {v0 v1 v2 v3 : Pt} (h0 : CoordPt v0) (h1 : CoordPt v1) (h2 : CoordPt v2) (h3 : CoordPt v3)
    (d1 : IsFloat (v1.1 - v0.1)) (d2 : IsFloat (v1.2 - v0.2)) (d3 : IsFloat (v3.1 - v2.1)) (d4 : IsFloat (v3.2 - v2.2)) :
    ∃ r, crossMaybeExact rn next 64 v0 v1 v2 v3 = some r ∧ (0 < r ↔ 0 < exactCross v0 v1 v2 v3) ∧ (r < 0 ↔ exactCross v0 v1 v2 v3 < 0) ∧
      (r = 0 ↔ exactCross v0 v1 v2 v3 = 0) := by
  by_cases hc : |cross rn v0 v1 v2 v3| ≤ 2 ^ (-50 : ℤ)
  · obtain ⟨r, e, b⟩ := cross_near_zero hr hn h0 h1 h2 h3 hc
    exact ⟨r, e, sign_of_rel b⟩
  · push Not at hc
    have ne : ¬ (v0 = v1 ∨ v2 = v3) := by
      intro a
      have z : cross rn v0 v1 v2 v3 = 0 := by
        unfold cross
        rcases a with rfl | rfl <;> simp [rn_zero hr]
      rw [z, abs_zero] at hc
      linarith [two_zpow_pos (-50)]
    refine ⟨cross rn v0 v1 v2 v3, ?_, ?_⟩
    · unfold crossMaybeExact
      rw [if_neg ne]
      simp only
      rw [if_pos (show kCrossExactEpsilon < _ from hc)]
    · have c0 : cross rn v0 v1 v2 v3 ≠ 0 := by
        intro z
        rw [z, abs_zero] at hc
        linarith [two_zpow_pos (-50)]
      have pos : exactCross v0 v1 v2 v3 ≤ 0 → cross rn v0 v1 v2 v3 ≤ 0 := by
        intro h
        unfold cross
        rw [rn_exact hr d1, rn_exact hr d2, rn_exact hr d3, rn_exact hr d4]
        refine rn_le hr float_zero ?_
        unfold exactCross at h
        have := rn_mono hr (show (v1.1 - v0.1) * (v3.2 - v2.2) ≤ (v1.2 - v0.2) * (v3.1 - v2.1) by linarith)
        linarith
      have neg : 0 ≤ exactCross v0 v1 v2 v3 → 0 ≤ cross rn v0 v1 v2 v3 := by
        intro h
        unfold cross
        rw [rn_exact hr d1, rn_exact hr d2, rn_exact hr d3, rn_exact hr d4]
        refine le_rn hr float_zero ?_
        unfold exactCross at h
        have := rn_mono hr (show (v1.2 - v0.2) * (v3.1 - v2.1) ≤ (v1.1 - v0.1) * (v3.2 - v2.2) by linarith)
        linarith
      rcases lt_trichotomy (exactCross v0 v1 v2 v3) 0 with c | c | c
      · have := lt_of_le_of_ne (pos c.le) c0
        exact ⟨⟨fun _ => by linarith, fun _ => by linarith⟩, ⟨fun _ => c, fun _ => this⟩, ⟨fun h => absurd h c0, fun h => absurd h c.ne⟩⟩
      · exact absurd (le_antisymm (pos c.le) (neg c.ge)) c0
      · have := lt_of_le_of_ne (neg c.le) (Ne.symm c0)
        exact ⟨⟨fun _ => c, fun _ => this⟩, ⟨fun _ => by linarith, fun _ => by linarith⟩, ⟨fun h => absurd h c0, fun h => absurd h c.ne'⟩⟩

/-- Coordinates on a common grid: multiples of one power of two, at most `2 ^ 52` of them from the origin. -/
theorem cross_sign_grid {v0 v1 v2 v3 : Pt} {j : ℤ} (hj : -537 ≤ j) (hj' : j ≤ 448)
    (h : ∀ v ∈ [v0, v1, v2, v3], (Grid j v.1 ∧ |v.1| ≤ 2 ^ (j + 52)) ∧ (Grid j v.2 ∧ |v.2| ≤ 2 ^ (j + 52))) :
    ∃ r, crossMaybeExact rn next 64 v0 v1 v2 v3 = some r ∧ (0 < r ↔ 0 < exactCross v0 v1 v2 v3) ∧ (r < 0 ↔ exactCross v0 v1 v2 v3 < 0) ∧
      (r = 0 ↔ exactCross v0 v1 v2 v3 = 0) := by
  have coord : ∀ x, Grid j x → |x| ≤ 2 ^ (j + 52) → Coord x := by
    rintro x ⟨m, rfl⟩ hb
    refine ⟨⟨m, j, ?_, hj, rfl⟩, hb.trans (zpow_mono (by omega))⟩
    rw [abs_mul, abs_of_pos (two_zpow_pos j), add_comm, zpow_split] at hb
    have hm : |(m : ℝ)| ≤ 2 ^ (52 : ℤ) := le_of_mul_le_mul_right hb (two_zpow_pos j)
    have e : (2 : ℝ) ^ (52 : ℤ) = ((2 ^ 52 : ℤ) : ℝ) := by norm_num
    rw [e, ← Int.cast_abs] at hm
    have := Int.cast_le.mp hm
    omega
  have diff : ∀ x y, Grid j x ∧ |x| ≤ 2 ^ (j + 52) → Grid j y ∧ |y| ≤ 2 ^ (j + 52) → IsFloat (x - y) := by
    intro x y hx hy
    refine float_of_grid (by omega) (hx.1.sub hy.1) ?_
    have := abs_sub x y
    rw [show j + 53 = (j + 52) + 1 by ring, zpow_split (i := j + 52), zpow_one]
    linarith [hx.2, hy.2]
  have k0 := h v0 (by simp)
  have k1 := h v1 (by simp)
  have k2 := h v2 (by simp)
  have k3 := h v3 (by simp)
  exact cross_sign_partial hr hn ⟨coord _ k0.1.1 k0.1.2, coord _ k0.2.1 k0.2.2⟩ ⟨coord _ k1.1.1 k1.1.2, coord _ k1.2.1 k1.2.2⟩
    ⟨coord _ k2.1.1 k2.1.2, coord _ k2.2.1 k2.2.2⟩ ⟨coord _ k3.1.1 k3.1.2, coord _ k3.2.1 k3.2.2⟩
    (diff _ _ k1.1 k0.1) (diff _ _ k1.2 k0.2) (diff _ _ k3.1 k2.1) (diff _ _ k3.2 k2.2)

end

/-- The result of rounding a number close to a floating point number. -/
theorem rn_eq {rn : ℝ → ℝ} (hr : Rounding rn) {x y : ℝ} {i : ℤ} (hi : -1022 ≤ i) (hx : 2 ^ i ≤ |x|) (hy : IsFloat y) (hy' : 2 ^ i ≤ |y|)
    (h : |y - x| < 2 ^ (i - 53)) : rn x = y := by
  have g1 := grid_of_float (hr.float x) (le_abs_rn hr (float_pow (by omega)) hx)
  have g2 := grid_of_float hy hy'
  rw [show max (i - 52) (-1074) = i - 52 by omega] at g1 g2
  by_contra c
  have := (g1.sub g2).ge (sub_ne_zero.mpr c)
  have n := hr.nearest x y hy
  have t := abs_add_le (rn x - x) (x - y)
  rw [show rn x - x + (x - y) = rn x - y by ring, abs_sub_comm x y] at t
  have e : (2 : ℝ) ^ (i - 52) = 2 * 2 ^ (i - 53) := by
    rw [show i - 52 = 1 + (i - 53) by ring, zpow_split, zpow_one]
  linarith

/-- **A wrong sign.**  Differences that are not representable: two segments of about a thousand kilometres, almost parallel.  The exact cross product is
negative, a positive number far above the threshold is returned. -/
theorem quick_sign_violated {rn : ℝ → ℝ} (hr : Rounding rn) (next : ℝ → ℤ) :
    let v0 : Pt := (3 * 2 ^ (-36 : ℤ), -(3 * 2 ^ (-35 : ℤ)))
    let v1 : Pt := (2 ^ (20 : ℤ), 2 ^ (20 : ℤ))
    let v2 : Pt := (0, -(129 * 2 ^ (-40 : ℤ)))
    let v3 : Pt := (2 ^ (20 : ℤ), 2 ^ (20 : ℤ))
    (CoordPt v0 ∧ CoordPt v1 ∧ CoordPt v2 ∧ CoordPt v3) ∧ exactCross v0 v1 v2 v3 < 0 ∧ crossMaybeExact rn next 64 v0 v1 v2 v3 = some (2 ^ (-12 : ℤ)) := by
  intro v0 v1 v2 v3
  have co : ∀ (m e : ℤ), |m| < 2 ^ 53 → -537 ≤ e → |(m : ℝ) * 2 ^ e| ≤ 2 ^ (500 : ℤ) → Coord (m * 2 ^ e) := fun m e a b c => ⟨⟨m, e, a, b, rfl⟩, c⟩
  have big : (2 : ℝ) ^ (20 : ℤ) ≤ 2 ^ (500 : ℤ) := zpow_mono (by norm_num)
  have c20 : Coord ((2 : ℝ) ^ (20 : ℤ)) := ⟨⟨1, 20, by norm_num, by norm_num, by norm_num⟩, by rw [abs_of_pos (two_zpow_pos _)]; exact big⟩
  have small : ∀ x : ℝ, |x| ≤ 2 ^ (20 : ℤ) → |x| ≤ 2 ^ (500 : ℤ) := fun x h => h.trans big
  refine ⟨⟨⟨?_, ?_⟩, ⟨c20, c20⟩, ⟨?_, ?_⟩, ⟨c20, c20⟩⟩, ?_, ?_⟩
  · exact ⟨⟨3, -36, by norm_num, by norm_num, by norm_num [v0]⟩, small _ (by norm_num [v0, abs_of_pos])⟩
  · exact ⟨⟨-3, -35, by norm_num, by norm_num, by norm_num [v0]⟩, small _ (by norm_num [v0, abs_of_pos])⟩
  · exact ⟨⟨0, 0, by norm_num, by norm_num, by norm_num [v2]⟩, small _ (by norm_num [v2])⟩
  · exact ⟨⟨-129, -40, by norm_num, by norm_num, by norm_num [v2]⟩, small _ (by norm_num [v2, abs_of_pos])⟩
  · norm_num [exactCross, v0, v1, v2, v3]
  · have f20 : IsFloat ((2 : ℝ) ^ (20 : ℤ)) := float_pow (by norm_num)
    have r1 : rn (v1.1 - v0.1) = 2 ^ (20 : ℤ) := by
      refine rn_eq hr (i := 19) (by norm_num) ?_ f20 ?_ ?_ <;> norm_num [v0, v1, abs_of_pos]
    have r2 : rn (v1.2 - v0.2) = 2 ^ (20 : ℤ) := by
      refine rn_eq hr (i := 20) (by norm_num) ?_ f20 ?_ ?_ <;> norm_num [v0, v1, abs_of_pos, abs_of_neg]
    have r3 : rn (v3.1 - v2.1) = 2 ^ (20 : ℤ) := by
      rw [show v3.1 - v2.1 = (2 : ℝ) ^ (20 : ℤ) by norm_num [v2, v3]]
      exact rn_exact hr f20
    have fy : IsFloat ((2 : ℝ) ^ (20 : ℤ) + 2 ^ (-32 : ℤ)) := by
      refine ⟨2 ^ 52 + 1, -32, by norm_num, by norm_num, by norm_num⟩
    have r4 : rn (v3.2 - v2.2) = 2 ^ (20 : ℤ) + 2 ^ (-32 : ℤ) := by
      refine rn_eq hr (i := 20) (by norm_num) ?_ fy ?_ ?_ <;> norm_num [v2, v3, abs_of_pos]
    have r5 : rn ((2 : ℝ) ^ (20 : ℤ) * (2 ^ (20 : ℤ) + 2 ^ (-32 : ℤ))) = 2 ^ (40 : ℤ) + 2 ^ (-12 : ℤ) := by
      rw [show (2 : ℝ) ^ (20 : ℤ) * (2 ^ (20 : ℤ) + 2 ^ (-32 : ℤ)) = 2 ^ (40 : ℤ) + 2 ^ (-12 : ℤ) by norm_num]
      exact rn_exact hr ⟨2 ^ 52 + 1, -12, by norm_num, by norm_num, by norm_num⟩
    have r6 : rn ((2 : ℝ) ^ (20 : ℤ) * 2 ^ (20 : ℤ)) = 2 ^ (40 : ℤ) := by
      rw [← zpow_split]
      exact rn_exact hr (float_pow (by norm_num))
    have c : cross rn v0 v1 v2 v3 = 2 ^ (-12 : ℤ) := by
      unfold cross
      rw [r1, r2, r3, r4, r5, r6, add_sub_cancel_left]
      exact rn_exact hr (float_pow (by norm_num))
    have ne : ¬ (v0 = v1 ∨ v2 = v3) := by
      rintro (h | h)
      · have := congrArg Prod.fst h
        norm_num [v0, v1] at this
      · have := congrArg Prod.fst h
        norm_num [v2, v3] at this
    unfold crossMaybeExact
    rw [if_neg ne]
    simp only
    rw [c, if_pos]
    rw [abs_of_pos (two_zpow_pos _)]
    exact zpow_lt.mpr (by norm_num)

/-- The differences can be exact with a cross product far below the precision of the products. -/
example : ∃ r, crossMaybeExact roundNearest (fun d => Int.clog 2 d) 64 (0, 0) (2 ^ (30 : ℤ) + 1, 2 ^ (30 : ℤ)) (0, 0) (2 ^ (30 : ℤ), 2 ^ (30 : ℤ) - 1) = some r ∧ r < 0 := by
  have g : ∀ n : ℤ, Grid 0 (n : ℝ) := fun n => ⟨n, by simp⟩
  obtain ⟨r, h1, -, h2, -⟩ := cross_sign_grid roundNearest_spec clog_next (v0 := (0, 0)) (v1 := (2 ^ (30 : ℤ) + 1, 2 ^ (30 : ℤ))) (v2 := (0, 0))
    (v3 := (2 ^ (30 : ℤ), 2 ^ (30 : ℤ) - 1)) (j := 0) (by norm_num) (by norm_num)
    (by
      have a : Grid 0 (0 : ℝ) := Grid.zero 0
      have b : Grid 0 ((2 : ℝ) ^ (30 : ℤ)) := grid_pow (by norm_num)
      have c : Grid 0 ((2 : ℝ) ^ (30 : ℤ) + 1) := b.add (by simpa using g 1)
      have d : Grid 0 ((2 : ℝ) ^ (30 : ℤ) - 1) := b.sub (by simpa using g 1)
      intro v hv
      simp only [List.mem_cons, List.not_mem_nil, or_false] at hv
      rcases hv with rfl | rfl | rfl | rfl
      · exact ⟨⟨a, by norm_num⟩, ⟨a, by norm_num⟩⟩
      · exact ⟨⟨c, by norm_num [abs_of_pos]⟩, ⟨b, by norm_num [abs_of_pos]⟩⟩
      · exact ⟨⟨a, by norm_num⟩, ⟨a, by norm_num⟩⟩
      · exact ⟨⟨b, by norm_num [abs_of_pos]⟩, ⟨d, by norm_num [abs_of_pos]⟩⟩)
  exact ⟨r, h1, h2.mpr (by norm_num [exactCross])⟩

end Verif.AccSum
