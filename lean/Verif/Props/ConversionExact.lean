import Verif.Props.ConversionState
import Verif.Props.ConversionSpline

/-! Exactly when times, identifiers and counters of the conversion and the spacing of polygons are right. -/

namespace Verif.Conversion

noncomputable section

/-- A number that is not negative becomes itself exactly when the value is in the unit interval that starts at it. -/
theorem trunc_eq_nat_iff {x : ℝ} {n : ℕ} (hx : 0 ≤ x) : trunc x = n ↔ (n : ℝ) ≤ x ∧ x < n + 1 := by
  unfold trunc
  rw [if_pos hx, Int.floor_eq_iff]
  norm_num

/-- C90 exactly: a time of a whole number of microseconds is stored as it is exactly when the rounding of the seconds to a `float` does
not go down, and up by less than a microsecond. -/
theorem micros_iff {rd : ℝ → ℝ} {ts : List ℝ} {t n : ℕ} (h : ts[t]? = some ((n : ℝ) / 1000000)) (h0 : 0 ≤ rd ((n : ℝ) / 1000000)) :
    micros rd ts t = n ↔ (n : ℝ) / 1000000 ≤ rd ((n : ℝ) / 1000000) ∧ rd ((n : ℝ) / 1000000) < ((n : ℝ) + 1) / 1000000 := by
  unfold micros
  rw [h]
  simp only
  rw [trunc_eq_nat_iff (by positivity), div_le_iff₀ (by norm_num), lt_div_iff₀ (by norm_num)]

/-- A rounding that keeps half a second: 500000 µs are stored. -/
theorem micros_iff_case : micros (fun x => x) [((500000 : ℕ) : ℝ) / 1000000] 0 = (500000 : ℕ) :=
  (micros_iff (n := 500000) (by simp) (by norm_num)).2 ⟨le_refl _, by norm_num⟩

/-- C92 exactly: the identifier of a lane that is not negative is stored as it is exactly when its `float` is in the unit interval that
starts at it. -/
theorem light_id_iff {rd : ℝ → ℝ} {s : LaneState} {n : ℕ} (hn : s.lane = n) (h0 : 0 ≤ rd n) :
    lightVal rd (some s) .id = .int s.lane ↔ (n : ℝ) ≤ rd n ∧ rd n < n + 1 := by
  simp only [lightVal, lightShown, hn, Int.cast_natCast, Val.int.injEq]
  exact trunc_eq_nat_iff h0

/-- The lights of a step of the scenario; none where it has no such step. -/
def lightsAt (sc : Scenario) (t : ℕ) : ℕ := match sc.lights[t]? with | none => 0 | some ls => ls.length

theorem light_step_counters (cfg : Config) (rd : ℝ → ℝ) (sc : Scenario) (t : ℕ) :
    counter "Actual_Traffic_Light_State_Features" (lightStep cfg rd sc t) = lightsAt sc t ∧
    counter "Padded_Traffic_Light_State_Features" (lightStep cfg rd sc t) = (cfg.maxLights : ℤ) - lightsAt sc t := by
  have hz : ∀ c (g : ℕ → Option LaneState), counter c ((List.range cfg.maxLights).flatMap fun i =>
      lightEvents rd (frame cfg t) (g i)) = 0 := by
    intro c g
    rw [counter_flatMap]
    simp [counter_lightEvents]
  unfold lightStep lightsAt
  cases sc.lights[t]? with
  | none =>
    simp only [counter_append, hz _ fun _ => none]
    simp [counter, Ev.amount]
  | some ls =>
    simp only [counter_append, hz _ fun i => ls[i]?]
    simp [counter, Ev.amount]

/-- C92 exactly: the counter of actual lights is the number of lights of the scenario in the steps, whether there is a place for them or
not, and that of padded ones the number of places less that. -/
theorem light_counters_exact (cfg : Config) (rd : ℝ → ℝ) (sc : Scenario) :
    counter "Actual_Traffic_Light_State_Features" (addLights cfg rd sc) =
      ((List.range cfg.steps).map fun t => (lightsAt sc t : ℤ)).sum ∧
    counter "Padded_Traffic_Light_State_Features" (addLights cfg rd sc) =
      ((List.range cfg.steps).map fun t => (cfg.maxLights : ℤ) - lightsAt sc t).sum := by
  unfold addLights
  rw [counter_flatMap, counter_flatMap]
  exact ⟨by simp only [(light_step_counters cfg rd sc _).1], by simp only [(light_step_counters cfg rd sc _).2]⟩

theorem sum_min_iff (m : ℕ) (f : ℕ → ℕ) : ∀ l : List ℕ,
    (l.map fun t => (f t : ℤ)).sum = (l.map fun t => ((min (f t) m : ℕ) : ℤ)).sum ↔ ∀ t ∈ l, f t ≤ m := by
  have hle : ∀ l : List ℕ, (l.map fun t => ((min (f t) m : ℕ) : ℤ)).sum ≤ (l.map fun t => (f t : ℤ)).sum := by
    intro l
    induction l with
    | nil => simp
    | cons a l ih =>
      simp only [List.map_cons, List.sum_cons]
      have : ((min (f a) m : ℕ) : ℤ) ≤ f a := by exact_mod_cast Nat.min_le_left _ _
      linarith
  intro l
  induction l with
  | nil => simp
  | cons a l ih =>
    simp only [List.map_cons, List.sum_cons, List.forall_mem_cons]
    rw [← ih]
    have h1 := hle l
    have h2 : ((min (f a) m : ℕ) : ℤ) ≤ f a := by exact_mod_cast Nat.min_le_left _ _
    constructor
    · intro h
      have e : ((min (f a) m : ℕ) : ℤ) = f a := by linarith
      have e' : min (f a) m = f a := by exact_mod_cast e
      exact ⟨by omega, by linarith⟩
    · rintro ⟨h, h'⟩
      rw [Nat.min_eq_left h, h']

/-- C92 exactly: the counter of actual lights is the number of lights that are stored exactly when no step has more lights than places. -/
theorem light_counters_iff (cfg : Config) (rd : ℝ → ℝ) (sc : Scenario) :
    counter "Actual_Traffic_Light_State_Features" (addLights cfg rd sc) =
      ((List.range (cfg.past + cfg.future)).map fun t => ((min (lightsAt sc t) cfg.maxLights : ℕ) : ℤ)).sum ↔
    ∀ t < cfg.past + cfg.future, lightsAt sc t ≤ cfg.maxLights := by
  rw [(light_counters_exact cfg rd sc).1]
  have : cfg.steps = cfg.past + cfg.future := Nat.add_comm _ _
  rw [this, sum_min_iff]
  simp

/-- C89 exactly: the samples of a side are "spaced apart by this value" exactly when the side is a multiple of it. -/
theorem side_spacing_iff {cfg : Config} {a b : V3} {S : List V3} (h : SideSampling cfg a b S) (hs : 0 < cfg.polygonSpacing) :
    (S ++ [b]).IsChain (fun p q => (q.sub p).len = cfg.polygonSpacing) ↔
      ∃ m : ℕ, 1 ≤ m ∧ (b.sub a).len = m * cfg.polygonSpacing := by
  rcases h with ⟨h0, _⟩ | ⟨_, n, hn, h1, h2, h3, h4⟩
  · linarith
  have hn0 : (0 : ℝ) < n := by exact_mod_cast h1
  have hSb : ∀ j, j ≤ n → (S ++ [b])[j]? = some ⟨a.x + j / n * (b.x - a.x), a.y + j / n * (b.y - a.y), a.z + j / n * (b.z - a.z)⟩ := by
    intro j hj
    rcases Nat.lt_or_ge j n with hlt | hge
    · rw [List.getElem?_append_left (by omega), h4 j hlt]
    · have : j = n := by omega
      subst this
      rw [List.getElem?_append_right (by omega), hn, Nat.sub_self, List.getElem?_cons_zero, div_self hn0.ne']
      congr 1
      ext <;> simp
  have hgap : ∀ j (hj : j + 1 < (S ++ [b]).length), (((S ++ [b])[j + 1]).sub (S ++ [b])[j]).len = (b.sub a).len / n := by
    intro j hj
    rw [List.length_append, hn] at hj
    simp only [List.length_cons, List.length_nil] at hj
    have e1 := hSb j (by omega)
    have e2 := hSb (j + 1) (by omega)
    rw [List.getElem?_eq_getElem (by rw [List.length_append, hn]; simp; omega)] at e1
    rw [List.getElem?_eq_getElem (by rw [List.length_append, hn]; simp; omega)] at e2
    simp only [Option.some.injEq] at e1 e2
    rw [e1, e2, len_smul_ray]
    have : ((j + 1 : ℕ) : ℝ) / n - j / n = 1 / n := by push_cast; field_simp; ring
    rw [this, abs_of_pos (by positivity)]
    ring
  rw [List.isChain_iff_getElem]
  constructor
  · intro hc
    have hl : 0 + 1 < (S ++ [b]).length := by rw [List.length_append, hn]; simp; omega
    have := hc 0 hl
    rw [hgap 0 hl, div_eq_iff hn0.ne'] at this
    exact ⟨n, h1, by rw [this]; ring⟩
  · rintro ⟨m, hm, e⟩ j hj
    rw [hgap j hj, div_eq_iff hn0.ne', e]
    have hmn : m = n := by
      have u1 : (m : ℝ) < n + 1 := lt_of_mul_lt_mul_right (by rw [← e]; exact h3) hs.le
      have u1' : m < n + 1 := by exact_mod_cast u1
      rcases h2 with h2 | h2
      · omega
      · have u2 : (n : ℝ) ≤ m := le_of_mul_le_mul_right (by rw [← e]; exact h2) hs
        have : n ≤ m := by exact_mod_cast u2
        omega
    rw [hmn]; ring

/-- A side of 2 m and a spacing of 1 m: the samples are 1 m apart. -/
theorem side_spacing_iff_case (cfg : Config) (hc : cfg.polygonSpacing = 1) :
    ∀ S : List V3, SideSampling cfg ⟨0, 0, 0⟩ ⟨2, 0, 0⟩ S → (S ++ [(⟨2, 0, 0⟩ : V3)]).IsChain (fun p q => (q.sub p).len = 1) := by
  intro S h
  have := (side_spacing_iff h (by rw [hc]; norm_num)).2 ⟨2, by norm_num, by
    have e : ((⟨2, 0, 0⟩ : V3).sub ⟨0, 0, 0⟩).sqr = 2 ^ 2 := by
      simp only [V3.sqr, V3.sub]
      norm_num
    unfold V3.len
    rw [e, Real.sqrt_sq (by norm_num), hc]; norm_num⟩
  rwa [hc] at this

end

end Verif.Conversion
