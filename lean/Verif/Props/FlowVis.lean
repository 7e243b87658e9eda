import Verif.Model.FlowVis
import Mathlib.Tactic.Linarith
import Mathlib.Tactic.Positivity
import Mathlib.Tactic.FieldSimp
import Mathlib.Tactic.FinCases

/-!
Pictures of occupancies show the classes over the road (C175); pictures of flow show directions and relative speeds (C176).
-/

namespace Verif.FlowVis

variable {B H W : ℕ}

theorem eps_pos : 0 < eps := by unfold eps; positivity

/-! ## Occupancy -/

/-- Specification: a color with some opacity over an opaque one. -/
def over (a color below : ℝ) : ℝ := a * color + (1 - a) * below

theorem over_range {a c d : ℝ} (ha : 0 ≤ a ∧ a ≤ 1) (hc : 0 ≤ c ∧ c ≤ 1) (hd : 0 ≤ d ∧ d ≤ 1) : 0 ≤ over a c d ∧ over a c d ≤ 1 := by
  unfold over
  have h1 := mul_nonneg ha.1 hc.1
  have h2 := mul_nonneg (sub_nonneg.2 ha.2) hd.1
  have h3 := mul_le_mul_of_nonneg_left hc.2 ha.1
  have h4 := mul_le_mul_of_nonneg_left hd.2 (sub_nonneg.2 ha.2)
  constructor <;> linarith

theorem blend_opaque (fg bg a : ℝ) : blend fg bg a 1 = (over a fg bg / (1 + eps), 1) := by
  unfold blend over
  ext
  · show (fg * a + bg * 1 * (1 - a)) / (a + 1 * (1 - a) + eps) = _
    congr 1 <;> ring
  · show a + 1 * (1 - a) = 1
    ring

theorem div_range {u : ℝ} (h : 0 ≤ u ∧ u ≤ 1) : 0 ≤ u / (1 + eps) ∧ u / (1 + eps) ≤ 1 := by
  have := eps_pos
  exact ⟨div_nonneg h.1 (by linarith), (div_le_one (by linarith)).2 (by linarith [h.2])⟩

theorem div_close {u : ℝ} (h : 0 ≤ u ∧ u ≤ 1) : |u / (1 + eps) - u| ≤ eps := by
  have he := eps_pos
  have : u / (1 + eps) - u = -(u * eps / (1 + eps)) := by field_simp; ring
  rw [this, abs_neg, abs_of_nonneg (by have := h.1; positivity), div_le_iff₀ (by linarith)]
  nlinarith [h.1, h.2]

theorem blend_close {a c d x : ℝ} {k : ℝ} (ha : 0 ≤ a ∧ a ≤ 1) (hc : 0 ≤ c ∧ c ≤ 1) (hx : 0 ≤ x ∧ x ≤ 1)
    (h : |x - d| ≤ k * eps) : |over a c x / (1 + eps) - over a c d| ≤ (k + 1) * eps := by
  have h1 := div_close (over_range ha hc hx)
  have h2 : |over a c x - over a c d| ≤ k * eps := by
    have : over a c x - over a c d = (1 - a) * (x - d) := by unfold over; ring
    rw [this, abs_mul, abs_of_nonneg (sub_nonneg.2 ha.2)]
    calc (1 - a) * |x - d| ≤ 1 * |x - d| := mul_le_mul_of_nonneg_right (by linarith [ha.1]) (abs_nonneg _)
      _ ≤ _ := by linarith
  calc |over a c x / (1 + eps) - over a c d| ≤ |over a c x / (1 + eps) - over a c x| + |over a c x - over a c d| := abs_sub_le _ _ _
    _ ≤ _ := by linarith

/-- Specification: the occupancy of a cell; a class that is not given does not occur. -/
def occupancy (g : Option (Grid B H W)) (b : Fin B) (y : Fin H) (x : Fin W) : ℝ := (g.map fun g => g b y x).getD 0

/-- A grid of probabilities. -/
def Prob (g : Option (Grid B H W)) : Prop := ∀ b y x, 0 ≤ occupancy g b y x ∧ occupancy g b y x ≤ 1

theorem layer_eq (gamma : ℝ) (g : Option (Grid B H W)) (b : Fin B) (y : Fin H) (x : Fin W) :
    layer gamma g b y x = occupancy g b y x ^ (1 / gamma) := by
  cases g <;> rfl

theorem layer_range {gamma : ℝ} (hg : 0 < gamma) {g : Option (Grid B H W)} (h : Prob g) (b : Fin B) (y : Fin H) (x : Fin W) :
    0 ≤ layer gamma g b y x ∧ layer gamma g b y x ≤ 1 := by
  rw [layer_eq]
  exact ⟨Real.rpow_nonneg (h b y x).1 _, Real.rpow_le_one (h b y x).1 (h b y x).2 (by positivity)⟩

/-- Specification: red, two thirds green and blue. -/
noncomputable def red : Fin 3 → ℝ := ![1, 0, 0]
/-- See `red`. -/
noncomputable def green : Fin 3 → ℝ := ![0, 0.67, 0]
/-- See `red`. -/
noncomputable def blue : Fin 3 → ℝ := ![0, 0, 1]

theorem color_range (c : Fin 3) : (0 ≤ red c ∧ red c ≤ 1) ∧ (0 ≤ green c ∧ green c ≤ 1) ∧ (0 ≤ blue c ∧ blue c ≤ 1) := by
  fin_cases c <;> norm_num [red, green, blue]

theorem scaled_range {a c : ℝ} (ha : 0 ≤ a ∧ a ≤ 1) (hc : 0 ≤ c ∧ c ≤ 1) : 0 ≤ a * c ∧ a * c ≤ 1 :=
  ⟨mul_nonneg ha.1 hc.1, mul_le_one₀ ha.2 hc.1 hc.2⟩

theorem occupancyImage_eq (veh ped cyc : Option (Grid B H W)) (road : Grid B H W) (gamma : ℝ) (b : Fin B) (y : Fin H) (x : Fin W)
    (c : Fin 3) : occupancyImage veh ped cyc road gamma b y x c =
      over (layer gamma cyc b y x) (layer gamma cyc b y x * blue c)
        (over (layer gamma ped b y x) (layer gamma ped b y x * green c)
          (over (layer gamma veh b y x) (layer gamma veh b y x * red c)
            (over (road b y x) 0 1 / (1 + eps)) / (1 + eps)) / (1 + eps)) / (1 + eps) := by
  have h1 : ∀ c : Fin 3, rgb (fun (_ : Fin B) (_ : Fin H) (_ : Fin W) => (1 : ℝ)) (fun _ _ _ => 1) (fun _ _ _ => 1) b y x c = 1 := by
    intro c; fin_cases c <;> rfl
  have h0 : ∀ c : Fin 3, rgb (fun (_ : Fin B) (_ : Fin H) (_ : Fin W) => (0 : ℝ)) (fun _ _ _ => 0) (fun _ _ _ => 0) b y x c = 0 := by
    intro c; fin_cases c <;> rfl
  have hv : rgb (layer gamma veh) (fun _ _ _ => 0) (fun _ _ _ => 0) b y x c = layer gamma veh b y x * red c := by
    fin_cases c <;> simp [rgb, red]
  have hp : rgb (fun _ _ _ => 0) (fun b y x => layer gamma ped b y x * 0.67) (fun _ _ _ => 0) b y x c = layer gamma ped b y x * green c := by
    fin_cases c <;> simp [rgb, green]
  have hc : rgb (fun _ _ _ => 0) (fun _ _ _ => 0) (layer gamma cyc) b y x c = layer gamma cyc b y x * blue c := by
    fin_cases c <;> simp [rgb, blue]
  unfold occupancyImage blendImg
  simp only [h1, h0, hv, hp, hc, blend_opaque]

/-- C175: a pixel is the color of cyclists over that of pedestrians over that of vehicles over the road, which is black on white; the
opacity of a class is its amplified occupancy, and so is the brightness of its color.  The constant against division by zero
changes this by less than a millionth. -/
theorem occupancy_formula {veh ped cyc : Option (Grid B H W)} {road : Grid B H W} {gamma : ℝ} (hg : 0 < gamma) (hv : Prob veh)
    (hp : Prob ped) (hc : Prob cyc) (hr : Prob (some road)) (b : Fin B) (y : Fin H) (x : Fin W) (c : Fin 3) :
    let v := occupancy veh b y x ^ (1 / gamma)
    let p := occupancy ped b y x ^ (1 / gamma)
    let k := occupancy cyc b y x ^ (1 / gamma)
    |occupancyImage veh ped cyc road gamma b y x c -
      over k (k * blue c) (over p (p * green c) (over v (v * red c) (over (road b y x) 0 1)))| ≤ 4 / 10 ^ 7 := by
  intro v p k
  have e1 : layer gamma veh b y x = v := layer_eq _ _ _ _ _
  have e2 : layer gamma ped b y x = p := layer_eq _ _ _ _ _
  have e3 : layer gamma cyc b y x = k := layer_eq _ _ _ _ _
  have r1 := layer_range hg hv b y x
  have r2 := layer_range hg hp b y x
  have r3 := layer_range hg hc b y x
  rw [e1] at r1; rw [e2] at r2; rw [e3] at r3
  rw [occupancyImage_eq, e1, e2, e3]
  obtain ⟨cr, cg, cb⟩ := color_range c
  have q0 := over_range (hr b y x) (c := 0) (d := 1) ⟨le_refl _, zero_le_one⟩ ⟨zero_le_one, le_refl _⟩
  have d0 := div_range q0
  have d1 := div_range (over_range r1 (scaled_range r1 cr) d0)
  have d2 := div_range (over_range r2 (scaled_range r2 cg) d1)
  have b0 := div_close q0
  have b1 := blend_close (k := 1) r1 (scaled_range r1 cr) d0 (by rw [one_mul]; exact b0)
  have b2 := blend_close r2 (scaled_range r2 cg) d1 b1
  have b3 := blend_close r3 (scaled_range r3 cb) d2 b2
  refine b3.trans (le_of_eq ?_)
  unfold eps; norm_num

/-- C175: all values are in [0, 1]. -/
theorem occupancy_range {veh ped cyc : Option (Grid B H W)} {road : Grid B H W} {gamma : ℝ} (hg : 0 < gamma) (hv : Prob veh)
    (hp : Prob ped) (hc : Prob cyc) (hr : Prob (some road)) (b : Fin B) (y : Fin H) (x : Fin W) (c : Fin 3) :
    0 ≤ occupancyImage veh ped cyc road gamma b y x c ∧ occupancyImage veh ped cyc road gamma b y x c ≤ 1 := by
  have r1 := layer_range hg hv b y x
  have r2 := layer_range hg hp b y x
  have r3 := layer_range hg hc b y x
  rw [occupancyImage_eq]
  obtain ⟨cr, cg, cb⟩ := color_range c
  have q0 := over_range (hr b y x) (c := 0) (d := 1) ⟨le_refl _, zero_le_one⟩ ⟨zero_le_one, le_refl _⟩
  have d0 := div_range q0
  have d1 := div_range (over_range r1 (scaled_range r1 cr) d0)
  have d2 := div_range (over_range r2 (scaled_range r2 cg) d1)
  exact div_range (over_range r3 (scaled_range r3 cb) d2)

/-- C175: where every class is certain or excluded, a pixel has the color of the topmost class, and that of the road without one. -/
theorem occupancy_certain_partial {veh ped cyc : Option (Grid B H W)} {road : Grid B H W} {gamma : ℝ} (hg : 0 < gamma) (hv : Prob veh)
    (hp : Prob ped) (hc : Prob cyc) (hr : Prob (some road)) (b : Fin B) (y : Fin H) (x : Fin W) (c : Fin 3)
    (h : ∀ g ∈ [veh, ped, cyc], occupancy g b y x = 0 ∨ occupancy g b y x = 1) :
    |occupancyImage veh ped cyc road gamma b y x c -
      (if occupancy cyc b y x = 1 then blue c else if occupancy ped b y x = 1 then green c else
        if occupancy veh b y x = 1 then red c else 1 - road b y x)| ≤ 4 / 10 ^ 7 := by
  have hf := occupancy_formula hg hv hp hc hr b y x c
  simp only at hf
  have z : (0 : ℝ) ^ (1 / gamma) = 0 := Real.zero_rpow (by positivity)
  have key : ∀ q col below : ℝ, q = 0 ∨ q = 1 → over (q ^ (1 / gamma)) (q ^ (1 / gamma) * col) below = if q = 1 then col else below := by
    intro q col below hq
    rcases hq with rfl | rfl
    · rw [z, if_neg (by norm_num)]; unfold over; ring
    · rw [Real.one_rpow, if_pos rfl]; unfold over; ring
  rw [key _ _ _ (h cyc (by simp)), key _ _ _ (h ped (by simp)), key _ _ _ (h veh (by simp))] at hf
  have : over (road b y x) 0 1 = 1 - road b y x := by unfold over; ring
  rwa [this] at hf

/-- C175 fails: the color of an uncertain class is darkened by its own opacity, so a cell that may hold a vehicle is not red with that
opacity over white, whose red is 1: it is darker than both the certain and the empty one. -/
theorem occupancy_violated : |occupancyImage (B := 1) (H := 1) (W := 1) (some fun _ _ _ => 1 / 2) none none (fun _ _ _ => 0) 1 0 0 0 0 -
    over (1 / 2) (red 0) 1| > 1 / 5 := by
  have hp : Prob (B := 1) (H := 1) (W := 1) (some fun _ _ _ => 1 / 2) := by intro b y x; norm_num [occupancy]
  have hn : Prob (B := 1) (H := 1) (W := 1) none := by intro b y x; norm_num [occupancy]
  have hr : Prob (B := 1) (H := 1) (W := 1) (some fun _ _ _ => 0) := by intro b y x; norm_num [occupancy]
  have hf := occupancy_formula (gamma := 1) one_pos hp hn hn hr 0 0 0 0
  simp only [occupancy, over, red, green, blue, Option.map_none, Option.getD_none, Option.map_some, Option.getD_some, div_one,
    Real.rpow_one] at hf
  norm_num [over, red] at hf ⊢
  rw [abs_le] at hf
  rw [lt_abs]
  right
  linarith [hf.2]

/-! ## Flow -/

theorem wrap_range (a : ℝ) : 0 ≤ wrap a ∧ wrap a < 2 * Real.pi := by
  have hp := Real.pi_pos
  have h1 := Int.floor_le (a / (2 * Real.pi))
  have h2 := Int.lt_floor_add_one (a / (2 * Real.pi))
  rw [le_div_iff₀ (by positivity)] at h1
  rw [div_lt_iff₀ (by positivity)] at h2
  unfold wrap
  constructor <;> nlinarith

theorem hue_range (v : ℝ × ℝ) : 0 ≤ hue v ∧ hue v < 1 := by
  have hp := Real.pi_pos
  obtain ⟨h1, h2⟩ := wrap_range (Complex.arg ⟨v.1, v.2⟩)
  unfold hue
  exact ⟨by positivity, (div_lt_one (by positivity)).2 h2⟩

theorem hue_direction (v : ℝ × ℝ) : v.1 = magnitude v * Real.cos (2 * Real.pi * hue v) ∧
    v.2 = magnitude v * Real.sin (2 * Real.pi * hue v) := by
  have hp := Real.pi_pos
  have hw : 2 * Real.pi * hue v = Complex.arg ⟨v.1, v.2⟩ - (⌊Complex.arg ⟨v.1, v.2⟩ / (2 * Real.pi)⌋ : ℤ) * (2 * Real.pi) := by
    unfold hue wrap; field_simp
  have hm : magnitude v = ‖(⟨v.1, v.2⟩ : ℂ)‖ := by
    rw [Complex.norm_def, Complex.normSq_apply]
    unfold magnitude
    congr 1; ring
  rw [hw, Real.cos_sub_int_mul_two_pi, Real.sin_sub_int_mul_two_pi, hm, Complex.norm_mul_cos_arg, Complex.norm_mul_sin_arg]
  exact ⟨rfl, rfl⟩

theorem magnitude_nonneg (v : ℝ × ℝ) : 0 ≤ magnitude v := Real.sqrt_nonneg _

theorem le_limit (flow : Flow B H W) (b : Fin B) (y : Fin H) (x : Fin W) : magnitude (flow b y x) ≤ limit flow (-1) b := by
  unfold limit
  rw [if_pos (by norm_num)]
  exact le_ciSup (f := fun p : Fin H × Fin W => magnitude (flow b p.1 p.2)) (Set.finite_range _).bddAbove (y, x)

theorem limit_attained [Nonempty (Fin H × Fin W)] (flow : Flow B H W) (b : Fin B) :
    ∃ y x, magnitude (flow b y x) = limit flow (-1) b := by
  unfold limit
  rw [if_pos (by norm_num)]
  obtain ⟨p, hp⟩ := exists_eq_ciSup_of_finite (f := fun p : Fin H × Fin W => magnitude (flow b p.1 p.2))
  exact ⟨p.1, p.2, hp⟩

/-- Specification: what hue and saturation say about a picture of flow: the direction, and the speed as a part of the largest one. -/
structure Shows (flow : Fin H → Fin W → ℝ × ℝ) (hue sat : Fin H → Fin W → ℝ) : Prop where
  hue_range : ∀ y x, 0 ≤ hue y x ∧ hue y x < 1
  sat_range : ∀ y x, 0 ≤ sat y x ∧ sat y x ≤ 1
  speed : ∃ top : ℝ, 0 ≤ top ∧ (∀ y x, flow y x =
    (sat y x * top * Real.cos (2 * Real.pi * hue y x), sat y x * top * Real.sin (2 * Real.pi * hue y x))) ∧
    (top = 0 → ∀ y x, sat y x = 0) ∧ (top ≠ 0 → ∃ y x, sat y x = 1)

/-- C176: hue and saturation show the flow. -/
theorem toHsv_shows [Nonempty (Fin H × Fin W)] (flow : Flow B H W) (b : Fin B) :
    Shows (flow b) (fun y x => toHsv flow (-1) b y x 0) (fun y x => toHsv flow (-1) b y x 1) ∧ ∀ y x, toHsv flow (-1) b y x 2 = 1 := by
  have hs : ∀ y x, toHsv flow (-1) b y x 1 = min (divideNoNan (magnitude (flow b y x)) (limit flow (-1) b)) 1 := fun _ _ => rfl
  have hh : ∀ y x, toHsv flow (-1) b y x 0 = hue (flow b y x) := fun _ _ => rfl
  obtain ⟨y0, x0, h0⟩ := limit_attained flow b
  have hl : 0 ≤ limit flow (-1) b := h0 ▸ magnitude_nonneg _
  have hsat : ∀ y x, limit flow (-1) b ≠ 0 → toHsv flow (-1) b y x 1 = magnitude (flow b y x) / limit flow (-1) b := by
    intro y x hne
    rw [hs, divideNoNan, if_neg hne, min_eq_left]
    exact (div_le_one (lt_of_le_of_ne hl hne.symm)).2 (le_limit flow b y x)
  have hsat0 : ∀ y x, limit flow (-1) b = 0 → toHsv flow (-1) b y x 1 = 0 := by
    intro y x h
    rw [hs, divideNoNan, if_pos h, min_eq_left zero_le_one]
  refine ⟨⟨fun y x => hue_range _, ?_, limit flow (-1) b, hl, ?_, fun h y x => hsat0 y x h, ?_⟩, fun _ _ => rfl⟩
  · intro y x
    by_cases h : limit flow (-1) b = 0
    · simp only [hsat0 y x h]; exact ⟨le_refl _, zero_le_one⟩
    · simp only [hsat y x h]
      exact ⟨div_nonneg (magnitude_nonneg _) hl, (div_le_one (lt_of_le_of_ne hl (Ne.symm h))).2 (le_limit flow b y x)⟩
  · intro y x
    have hm : toHsv flow (-1) b y x 1 * limit flow (-1) b = magnitude (flow b y x) := by
      by_cases h : limit flow (-1) b = 0
      · rw [h, mul_zero]
        have := le_limit flow b y x
        rw [h] at this
        exact le_antisymm (magnitude_nonneg _) this
      · rw [hsat y x h, div_mul_cancel₀ _ h]
    simp only [hm, hh]
    exact Prod.ext (hue_direction _).1 (hue_direction _).2
  · intro h
    refine ⟨y0, x0, ?_⟩
    simp only [hsat y0 x0 h, h0]
    exact div_self h

/-- C176: only relative speeds are shown: moving all of an image faster by one factor gives the same picture. -/
theorem toHsv_scale (flow : Flow B H W) {k : Fin B → ℝ} (hk : ∀ b, 0 < k b) :
    toHsv (fun b y x => (k b * (flow b y x).1, k b * (flow b y x).2)) (-1) = toHsv flow (-1) := by
  have hm : ∀ b y x, magnitude (k b * (flow b y x).1, k b * (flow b y x).2) = k b * magnitude (flow b y x) := by
    intro b y x
    unfold magnitude
    rw [show (k b * (flow b y x).1) ^ 2 + (k b * (flow b y x).2) ^ 2 = (k b) ^ 2 * ((flow b y x).1 ^ 2 + (flow b y x).2 ^ 2) by ring,
      Real.sqrt_mul (by positivity), Real.sqrt_sq (hk b).le]
  funext b y x
  have hl : limit (fun b y x => (k b * (flow b y x).1, k b * (flow b y x).2)) (-1) b = k b * limit flow (-1) b := by
    unfold limit
    rw [if_pos (by norm_num), if_pos (by norm_num), Real.mul_iSup_of_nonneg (hk b).le]
    congr 1
    funext p
    exact hm b p.1 p.2
  have hh : hue (k b * (flow b y x).1, k b * (flow b y x).2) = hue (flow b y x) := by
    unfold hue
    congr 2
    rw [← Complex.arg_real_mul ⟨(flow b y x).1, (flow b y x).2⟩ (hk b)]
    congr 1
    apply Complex.ext <;> simp
  unfold toHsv
  rw [hh, hl, hm]
  congr 3
  unfold divideNoNan
  have hne := (hk b).ne'
  by_cases h : limit flow (-1) b = 0
  · rw [if_pos h, if_pos (by rw [h, mul_zero])]
  · rw [if_neg h, if_neg (mul_ne_zero hne h), mul_div_mul_left _ _ hne]

theorem clip_range (x : ℝ) : 0 ≤ clip x ∧ clip x ≤ 1 := by
  unfold clip
  exact ⟨le_max_left _ _, max_le zero_le_one (min_le_left _ _)⟩

theorem clip_low {x : ℝ} (h : x ≤ 0) : clip x = 0 := by
  unfold clip; rw [min_eq_right (by linarith), max_eq_left h]
theorem clip_high {x : ℝ} (h : 1 ≤ x) : clip x = 1 := by
  unfold clip; rw [min_eq_left h, max_eq_right zero_le_one]
theorem clip_mid {x : ℝ} (h : 0 ≤ x) (h' : x ≤ 1) : clip x = x := by
  unfold clip; rw [min_eq_right h', max_eq_right h]

/-- The colors of the six parts of the color wheel. -/
theorem wheel {h : ℝ} (h0 : 0 ≤ h) (h1 : h < 1) :
    ∃ r g b : ℝ, clip (|h * 6 - 3| - 1) = r ∧ clip (2 - |h * 6 - 2|) = g ∧ clip (2 - |h * 6 - 4|) = b ∧
      ((h * 6 < 1 ∧ r = 1 ∧ g = h * 6 ∧ b = 0) ∨ (1 ≤ h * 6 ∧ h * 6 < 2 ∧ r = 2 - h * 6 ∧ g = 1 ∧ b = 0) ∨
       (2 ≤ h * 6 ∧ h * 6 < 3 ∧ r = 0 ∧ g = 1 ∧ b = h * 6 - 2) ∨ (3 ≤ h * 6 ∧ h * 6 < 4 ∧ r = 0 ∧ g = 4 - h * 6 ∧ b = 1) ∨
       (4 ≤ h * 6 ∧ h * 6 < 5 ∧ r = h * 6 - 4 ∧ g = 0 ∧ b = 1) ∨ (5 ≤ h * 6 ∧ h * 6 < 6 ∧ r = 1 ∧ g = 0 ∧ b = 6 - h * 6)) := by
  refine ⟨_, _, _, rfl, rfl, rfl, ?_⟩
  by_cases c1 : h * 6 < 1
  · left
    refine ⟨c1, ?_, ?_, ?_⟩
    · rw [abs_of_nonpos (by linarith)]; exact clip_high (by linarith)
    · rw [abs_of_nonpos (by linarith), clip_mid (by linarith) (by linarith)]; ring
    · rw [abs_of_nonpos (by linarith)]; exact clip_low (by linarith)
  by_cases c2 : h * 6 < 2
  · right; left
    refine ⟨by linarith, c2, ?_, ?_, ?_⟩
    · rw [abs_of_nonpos (by linarith), clip_mid (by linarith) (by linarith)]; ring
    · rw [abs_of_nonpos (by linarith)]; exact clip_high (by linarith)
    · rw [abs_of_nonpos (by linarith)]; exact clip_low (by linarith)
  by_cases c3 : h * 6 < 3
  · right; right; left
    refine ⟨by linarith, c3, ?_, ?_, ?_⟩
    · rw [abs_of_nonpos (by linarith)]; exact clip_low (by linarith)
    · rw [abs_of_nonneg (by linarith)]; exact clip_high (by linarith)
    · rw [abs_of_nonpos (by linarith), clip_mid (by linarith) (by linarith)]; ring
  by_cases c4 : h * 6 < 4
  · right; right; right; left
    refine ⟨by linarith, c4, ?_, ?_, ?_⟩
    · rw [abs_of_nonneg (by linarith)]; exact clip_low (by linarith)
    · rw [abs_of_nonneg (by linarith), clip_mid (by linarith) (by linarith)]; ring
    · rw [abs_of_nonpos (by linarith)]; exact clip_high (by linarith)
  by_cases c5 : h * 6 < 5
  · right; right; right; right; left
    refine ⟨by linarith, c5, ?_, ?_, ?_⟩
    · rw [abs_of_nonneg (by linarith), clip_mid (by linarith) (by linarith)]; ring
    · rw [abs_of_nonneg (by linarith)]; exact clip_low (by linarith)
    · rw [abs_of_nonneg (by linarith)]; exact clip_high (by linarith)
  · right; right; right; right; right
    refine ⟨by linarith, by linarith, ?_, ?_, ?_⟩
    · rw [abs_of_nonneg (by linarith)]; exact clip_high (by linarith)
    · rw [abs_of_nonneg (by linarith)]; exact clip_low (by linarith)
    · rw [abs_of_nonneg (by linarith), clip_mid (by linarith) (by linarith)]; ring

theorem wheel_inj {h h' : ℝ} (h0 : 0 ≤ h) (h1 : h < 1) (h0' : 0 ≤ h') (h1' : h' < 1)
    (er : clip (|h * 6 - 3| - 1) = clip (|h' * 6 - 3| - 1)) (eg : clip (2 - |h * 6 - 2|) = clip (2 - |h' * 6 - 2|))
    (eb : clip (2 - |h * 6 - 4|) = clip (2 - |h' * 6 - 4|)) : h = h' := by
  obtain ⟨r, g, b, wr, wg, wb, w⟩ := wheel h0 h1
  obtain ⟨r', g', b', wr', wg', wb', w'⟩ := wheel h0' h1'
  rw [wr, wr'] at er
  rw [wg, wg'] at eg
  rw [wb, wb'] at eb
  subst er eg eb
  rcases w with ⟨_, _, _, _⟩ | ⟨_, _, _, _, _⟩ | ⟨_, _, _, _, _⟩ | ⟨_, _, _, _, _⟩ | ⟨_, _, _, _, _⟩ | ⟨_, _, _, _, _⟩ <;>
    rcases w' with ⟨_, _, _, _⟩ | ⟨_, _, _, _, _⟩ | ⟨_, _, _, _, _⟩ | ⟨_, _, _, _, _⟩ | ⟨_, _, _, _, _⟩ | ⟨_, _, _, _, _⟩ <;> linarith

theorem wheel_min {h : ℝ} (h0 : 0 ≤ h) (h1 : h < 1) :
    min (clip (|h * 6 - 3| - 1)) (min (clip (2 - |h * 6 - 2|)) (clip (2 - |h * 6 - 4|))) = 0 := by
  apply le_antisymm
  · obtain ⟨r, g, b, wr, wg, wb, w⟩ := wheel h0 h1
    rw [wr, wg, wb]
    rcases w with ⟨_, _, _, e⟩ | ⟨_, _, _, _, e⟩ | ⟨_, _, e, _, _⟩ | ⟨_, _, e, _, _⟩ | ⟨_, _, _, e, _⟩ | ⟨_, _, _, e, _⟩ <;> rw [e] <;> simp
  · exact le_min (clip_range _).1 (le_min (clip_range _).1 (clip_range _).1)

theorem hsvToRgb_range {p : Fin 3 → ℝ} (hs : 0 ≤ p 1 ∧ p 1 ≤ 1) (hv : p 2 = 1) (c : Fin 3) : 0 ≤ hsvToRgb p c ∧ hsvToRgb p c ≤ 1 := by
  have key : ∀ d : ℝ, 0 ≤ d ∧ d ≤ 1 → 0 ≤ ((d - 1) * p 1 + 1) * p 2 ∧ ((d - 1) * p 1 + 1) * p 2 ≤ 1 := by
    intro d hd
    rw [hv]
    constructor <;> nlinarith [mul_nonneg hs.1 (sub_nonneg.2 hd.2), mul_nonneg hs.1 hd.1]
  fin_cases c
  · exact key _ (clip_range _)
  · exact key _ (clip_range _)
  · exact key _ (clip_range _)

/-- Colors of full brightness tell saturation, and hue if there is any. -/
theorem hsvToRgb_inj {p q : Fin 3 → ℝ} (hp : 0 ≤ p 0 ∧ p 0 < 1) (hq : 0 ≤ q 0 ∧ q 0 < 1) (sp : 0 ≤ p 1) (sq : 0 ≤ q 1) (vp : p 2 = 1)
    (vq : q 2 = 1) (h : hsvToRgb p = hsvToRgb q) : p 1 = q 1 ∧ (p 1 ≠ 0 → p 0 = q 0) := by
  have h0 := congrFun h 0
  have h1 := congrFun h 1
  have h2 := congrFun h 2
  simp only [hsvToRgb, Matrix.cons_val_zero, Matrix.cons_val_one, Matrix.cons_val, vp, vq, mul_one, add_left_inj] at h0 h1 h2
  have key : ∀ (s a b c : ℝ), 0 ≤ s → min a (min b c) = 0 → min ((a - 1) * s) (min ((b - 1) * s) ((c - 1) * s)) = -s := by
    intro s a b c hs hm
    rw [← min_mul_of_nonneg _ _ hs, ← min_mul_of_nonneg _ _ hs, min_sub_sub_right, min_sub_sub_right, hm]; ring
  have k1 := key (p 1) _ _ _ sp (wheel_min hp.1 hp.2)
  have k2 := key (q 1) _ _ _ sq (wheel_min hq.1 hq.2)
  rw [h0, h1, h2, k2] at k1
  have hs : p 1 = q 1 := by linarith
  refine ⟨hs, fun hne => ?_⟩
  rw [← hs] at h0 h1 h2
  have e0 := mul_right_cancel₀ hne h0
  have e1 := mul_right_cancel₀ hne h1
  have e2 := mul_right_cancel₀ hne h2
  exact wheel_inj hp.1 hp.2 hq.1 hq.2 (by linarith) (by linarith) (by linarith)

/-- Two pixels of one picture have one color if and only if they move alike. -/
theorem toRgb_iff (flow : Flow B H W) (b : Fin B) (y y' : Fin H) (x x' : Fin W) :
    toRgb flow (-1) b y x = toRgb flow (-1) b y' x' ↔ flow b y x = flow b y' x' := by
  haveI : Nonempty (Fin H × Fin W) := ⟨(y, x)⟩
  constructor
  · intro h
    obtain ⟨⟨h1, h2, top, h3, h4, -, -⟩, h7⟩ := toHsv_shows flow b
    obtain ⟨s, t⟩ := hsvToRgb_inj (h1 y x) (h1 y' x') (h2 y x).1 (h2 y' x').1 (h7 y x) (h7 y' x') h
    rw [h4 y x, h4 y' x', ← s]
    by_cases hz : toHsv flow (-1) b y x 1 = 0
    · rw [hz]; simp
    · rw [t hz]
  · intro h
    unfold toRgb toHsv
    rw [h]

theorem addGray_eq (a : Grid B H W) (scene : Img B H W) (b : Fin B) (y : Fin H) (x : Fin W) (c : Fin 3) :
    addGray a scene b y x c = (1 - a b y x) * scene b y x c / (1 + eps) := by
  unfold addGray blendImg
  simp only [blend_opaque]
  unfold over
  ring

/-- The flow with x and y swapped. -/
def swapped (flow : Flow B H W) : Flow B H W := fun b y x => ((flow b y x).2, (flow b y x).1)

theorem flowImage_eq (flow : Flow B H W) (road trails : Grid B H W) (b : Fin B) (y : Fin H) (x : Fin W) (c : Fin 3) :
    flowImage flow road trails b y x c =
      (1 - trails b y x * 0.2) * ((1 - road b y x) * toRgb (swapped flow) (-1) b y x c / (1 + eps)) / (1 + eps) := by
  unfold flowImage
  simp only [addGray_eq]
  rfl

/-- C176: a pixel is the color of its flow, darkened by the road and by a fifth of the trails; the color is that of hue and saturation
of the swapped vector. -/
theorem flow_formula {flow : Flow B H W} {road trails : Grid B H W} (hr : Prob (some road)) (ht : Prob (some trails)) (b : Fin B)
    (y : Fin H) (x : Fin W) (c : Fin 3) :
    |flowImage flow road trails b y x c -
      (1 - trails b y x / 5) * (1 - road b y x) * hsvToRgb (toHsv (swapped flow) (-1) b y x) c| ≤ 2 / 10 ^ 7 := by
  haveI : Nonempty (Fin H × Fin W) := ⟨(y, x)⟩
  obtain ⟨⟨-, h2, -⟩, h7⟩ := toHsv_shows (swapped flow) b
  have hc := hsvToRgb_range (h2 y x) (h7 y x) c
  have r := hr b y x
  have t := ht b y x
  simp only [occupancy, Option.map_some, Option.getD_some] at r t
  have t' : 0 ≤ trails b y x * 0.2 ∧ trails b y x * 0.2 ≤ 1 := by constructor <;> linarith
  have q0 := over_range r (c := 0) ⟨le_refl _, zero_le_one⟩ hc
  have b0 := div_close q0
  have b1 := blend_close (k := 1) (c := 0) t' ⟨le_refl _, zero_le_one⟩ (div_range q0) (by rw [one_mul]; exact b0)
  rw [flowImage_eq]
  have e : (1 - trails b y x * 0.2) * ((1 - road b y x) * toRgb (swapped flow) (-1) b y x c / (1 + eps)) / (1 + eps) -
      (1 - trails b y x / 5) * (1 - road b y x) * hsvToRgb (toHsv (swapped flow) (-1) b y x) c =
      over (trails b y x * 0.2) 0 (over (road b y x) 0 (hsvToRgb (toHsv (swapped flow) (-1) b y x) c) / (1 + eps)) / (1 + eps) -
      over (trails b y x * 0.2) 0 (over (road b y x) 0 (hsvToRgb (toHsv (swapped flow) (-1) b y x) c)) := by
    unfold over toRgb
    ring
  rw [e]
  refine b1.trans (le_of_eq ?_)
  unfold eps; norm_num

/-- C176: all values are in [0, 1]. -/
theorem flow_range {flow : Flow B H W} {road trails : Grid B H W} (hr : Prob (some road)) (ht : Prob (some trails)) (b : Fin B)
    (y : Fin H) (x : Fin W) (c : Fin 3) : 0 ≤ flowImage flow road trails b y x c ∧ flowImage flow road trails b y x c ≤ 1 := by
  haveI : Nonempty (Fin H × Fin W) := ⟨(y, x)⟩
  obtain ⟨⟨-, h2, -⟩, h7⟩ := toHsv_shows (swapped flow) b
  have hc := hsvToRgb_range (h2 y x) (h7 y x) c
  have r := hr b y x
  have t := ht b y x
  simp only [occupancy, Option.map_some, Option.getD_some] at r t
  have t' : 0 ≤ trails b y x * 0.2 ∧ trails b y x * 0.2 ≤ 1 := by constructor <;> linarith
  have q0 := div_range (over_range r (c := 0) ⟨le_refl _, zero_le_one⟩ hc)
  have q1 := div_range (over_range t' (c := 0) ⟨le_refl _, zero_le_one⟩ q0)
  have e : flowImage flow road trails b y x c =
      over (trails b y x * 0.2) 0 (over (road b y x) 0 (hsvToRgb (toHsv (swapped flow) (-1) b y x) c) / (1 + eps)) / (1 + eps) := by
    rw [flowImage_eq]
    unfold over toRgb
    ring
  rw [e]; exact q1

/-- C176: two pixels beside the road and with equal trails have one color if and only if they move alike. -/
theorem flow_color_iff {flow : Flow B H W} {road trails : Grid B H W} (ht : Prob (some trails)) {b : Fin B} {y y' : Fin H} {x x' : Fin W}
    (er : road b y x = road b y' x') (et : trails b y x = trails b y' x') (hr : road b y x ≠ 1) :
    flowImage flow road trails b y x = flowImage flow road trails b y' x' ↔ flow b y x = flow b y' x' := by
  have he := eps_pos
  have t := (ht b y' x').2
  simp only [occupancy, Option.map_some, Option.getD_some] at t
  have t' : 1 - trails b y' x' * 0.2 ≠ 0 := by intro h; linarith
  have r' : 1 - road b y' x' ≠ 0 := by rw [← er]; intro h; exact hr (by linarith)
  have hsw : swapped flow b y x = swapped flow b y' x' ↔ flow b y x = flow b y' x' := by
    unfold swapped
    rw [Prod.ext_iff, Prod.ext_iff]
    exact And.comm
  rw [← hsw, ← toRgb_iff]
  constructor
  · intro h
    funext c
    have hc := congrFun h c
    rw [flowImage_eq, flowImage_eq, er, et] at hc
    field_simp at hc
    exact hc
  · intro h
    funext c
    rw [flowImage_eq, flowImage_eq, er, et, h]

/-- A picture whose pixels move in different directions; the slower one is less saturated. -/
example : let flow : Flow 1 1 2 := fun _ _ x => if x = 0 then (3, 4) else (0, 0)
    toHsv flow (-1) 0 0 0 1 = 1 ∧ toHsv flow (-1) 0 0 1 1 = 0 := by
  intro flow
  haveI : Nonempty (Fin 1 × Fin 2) := ⟨(0, 0)⟩
  obtain ⟨⟨h1, h2, top, h3, h4, h5, h6⟩, -⟩ := toHsv_shows flow 0
  have m0 : magnitude (flow 0 0 0) = 5 := by
    unfold magnitude
    simp only [flow, if_pos]
    rw [show ((3 : ℝ) ^ 2 + 4 ^ 2) = 5 ^ 2 by norm_num, Real.sqrt_sq (by norm_num)]
  have m1 : magnitude (flow 0 0 1) = 0 := by simp [magnitude, flow]
  have hl : limit flow (-1) 0 = 5 := by
    obtain ⟨y, x, h⟩ := limit_attained flow 0
    have := le_limit flow 0 0 0
    rw [m0] at this
    fin_cases y; fin_cases x
    · exact h.symm.trans m0
    · have : limit flow (-1) 0 = 0 := h.symm.trans m1
      linarith
  have s : ∀ x, toHsv flow (-1) 0 0 x 1 = min (divideNoNan (magnitude (flow 0 0 x)) (limit flow (-1) 0)) 1 := fun _ => rfl
  rw [s, s, m0, m1, hl]
  norm_num [divideNoNan]

/-- **C176**: with a limit given, saturation is the speed as a part of this limit, and full from the limit on. -/
theorem toHsv_given (flow : Flow B H W) {s : ℝ} (hs : 0 < s) (b : Fin B) (y : Fin H) (x : Fin W) :
    (magnitude (flow b y x) ≤ s → toHsv flow s b y x 1 = magnitude (flow b y x) / s) ∧ (s ≤ magnitude (flow b y x) → toHsv flow s b y x 1 = 1) := by
  have h : toHsv flow s b y x 1 = min (divideNoNan (magnitude (flow b y x)) (limit flow s b)) 1 := rfl
  have hl : limit flow s b = s := by unfold limit; rw [if_neg (by linarith)]
  rw [h, hl]
  unfold divideNoNan
  rw [if_neg hs.ne']
  exact ⟨fun h => min_eq_left ((div_le_one hs).2 h), fun h => min_eq_right ((one_le_div hs).2 h)⟩

end Verif.FlowVis
