import Verif.Model.Conversion
import Verif.Lemmas.ListM
import Mathlib.Tactic.Ring
import Mathlib.Tactic.Linarith
import Mathlib.Tactic.NormNum

/-! Tensors of the conversion: the states of an agent over the steps and the traffic lights. -/

namespace Verif.Conversion

noncomputable section

/-! ### Tensors of a log -/

theorem tensor_append (k : Key) (a b : List Ev) : tensor k (a ++ b) = tensor k a ++ tensor k b := List.filterMap_append

theorem tensor_nil (k : Key) : tensor k [] = [] := rfl

theorem tensor_count (k : Key) (c : String) (n : ℤ) (l : List Ev) : tensor k (.count c n :: l) = tensor k l := rfl

theorem tensor_feat (k k' : Key) (v : Val) (l : List Ev) :
    tensor k (.feat k' v :: l) = (if k' = k then [v] else []) ++ tensor k l := by
  unfold tensor
  by_cases h : k' = k <;> simp [Ev.at, h]

theorem tensor_flatMap {α : Type} (k : Key) (f : α → List Ev) (l : List α) :
    tensor k (l.flatMap f) = l.flatMap fun a => tensor k (f a) := by
  induction l with
  | nil => rfl
  | cons a l ih => simp only [List.flatMap_cons, tensor_append, ih]

theorem tensor_flatten (k : Key) (l : List (List Ev)) : tensor k l.flatten = l.flatMap (tensor k) := by
  induction l with
  | nil => rfl
  | cons a l ih => simp only [List.flatten_cons, List.flatMap_cons, tensor_append, ih]

theorem flatMap_single {α β : Type} {l : List α} {p : α → Prop} [DecidablePred p] {g : α → β} :
    (l.flatMap fun a => if p a then [g a] else []) = (l.filter fun a => p a).map g := by
  induction l with
  | nil => rfl
  | cons a l ih => by_cases h : p a <;> simp [h, ih]

theorem flatMap_none {α β : Type} {l : List α} {f : α → List β} (h : ∀ a ∈ l, f a = []) : l.flatMap f = [] := by
  rw [List.flatMap_eq_nil_iff]; exact h

/-- Entries of blocks of equal length. -/
theorem flatMap_block {α β : Type} {f : α → List β} {n : ℕ} : ∀ {l : List α}, (∀ a ∈ l, (f a).length = n) →
    (l.flatMap f).length = l.length * n ∧
    ∀ (i j : ℕ) (a : α), l[i]? = some a → j < n → (l.flatMap f)[i * n + j]? = (f a)[j]? := by
  intro l
  induction l with
  | nil => intro _; refine ⟨by simp, ?_⟩; intro i j a h; simp at h
  | cons b l ih =>
    intro h
    have hb := h b (by simp)
    obtain ⟨h1, h2⟩ := ih fun a ha => h a (by simp [ha])
    refine ⟨by simp only [List.flatMap_cons, List.length_append, h1, hb, List.length_cons]; ring, ?_⟩
    intro i j a hi hj
    cases i with
    | zero =>
      simp only [List.getElem?_cons_zero, Option.some.injEq] at hi
      subst hi
      rw [List.flatMap_cons, Nat.zero_mul, Nat.zero_add, List.getElem?_append_left (by omega)]
    | succ i =>
      rw [List.getElem?_cons_succ] at hi
      have e : (i + 1) * n + j = n + (i * n + j) := by ring
      rw [List.flatMap_cons, List.getElem?_append_right (by omega), hb, e, Nat.add_sub_cancel_left]
      exact h2 i j a hi hj

/-! ### The steps of a time frame -/

/-- The steps of the scenario that a time frame covers, in order. -/
def stepsOf (cfg : Config) : Frame → List ℕ
  | .past => List.range (cfg.past - 1)
  | .current => List.range' (cfg.past - 1) (min cfg.past 1)
  | .future => List.range' cfg.past cfg.future

theorem range'_filter_all {s n : ℕ} {p : ℕ → Prop} [DecidablePred p] (h : ∀ t, s ≤ t → t < s + n → p t) :
    (List.range' s n).filter (fun t => p t) = List.range' s n := by
  rw [List.filter_eq_self]
  intro t ht
  rw [List.mem_range'_1] at ht
  exact decide_eq_true (h t ht.1 ht.2)

theorem range'_filter_none {s n : ℕ} {p : ℕ → Prop} [DecidablePred p] (h : ∀ t, s ≤ t → t < s + n → ¬ p t) :
    (List.range' s n).filter (fun t => p t) = [] := by
  rw [List.filter_eq_nil_iff]
  intro t ht
  rw [List.mem_range'_1] at ht
  simpa using h t ht.1 ht.2

theorem steps_filter (cfg : Config) (fr : Frame) : ((List.range cfg.steps).filter fun t => frame cfg t = fr) = stepsOf cfg fr := by
  have hsplit : List.range cfg.steps =
      List.range' 0 (cfg.past - 1) ++ (List.range' (cfg.past - 1) (min cfg.past 1) ++ List.range' cfg.past cfg.future) := by
    rw [List.range_eq_range', Config.steps]
    have h1 := List.range'_append (s := cfg.past - 1) (m := min cfg.past 1) (n := cfg.future) (step := 1)
    have h2 := List.range'_append (s := 0) (m := cfg.past - 1) (n := min cfg.past 1 + cfg.future) (step := 1)
    have e1 : cfg.past - 1 + 1 * min cfg.past 1 = cfg.past := by omega
    rw [e1] at h1
    rw [h1]
    have e2 : 0 + 1 * (cfg.past - 1) = cfg.past - 1 := by omega
    rw [e2] at h2
    rw [h2]
    congr 1; omega
  have hp : ∀ t, 0 ≤ t → t < 0 + (cfg.past - 1) → frame cfg t = .past := by
    intro t _ h
    unfold frame
    rw [if_pos (by omega)]
  have hc : ∀ t, cfg.past - 1 ≤ t → t < cfg.past - 1 + min cfg.past 1 → frame cfg t = .current := by
    intro t h h'
    unfold frame
    rw [if_neg (by omega), if_pos (by omega)]
  have hf : ∀ t, cfg.past ≤ t → t < cfg.past + cfg.future → frame cfg t = .future := by
    intro t h _
    unfold frame
    rw [if_neg (by omega), if_neg (by omega)]
  rw [hsplit, List.filter_append, List.filter_append]
  cases fr with
  | past =>
    rw [range'_filter_all hp, range'_filter_none (fun t h h' => by rw [hc t h h']; simp),
      range'_filter_none (fun t h h' => by rw [hf t h h']; simp)]
    simp [stepsOf, List.range_eq_range']
  | current =>
    rw [range'_filter_all hc, range'_filter_none (fun t h h' => by rw [hp t h h']; simp),
      range'_filter_none (fun t h h' => by rw [hf t h h']; simp)]
    simp [stepsOf]
  | future =>
    rw [range'_filter_all hf, range'_filter_none (fun t h h' => by rw [hp t h h']; simp),
      range'_filter_none (fun t h h' => by rw [hc t h h']; simp)]
    simp [stepsOf]

/-- The sizes that the readers of the examples expect: the past without the current step, the current step, the future. -/
theorem stepsOf_length (cfg : Config) (h : 0 < cfg.past) :
    (stepsOf cfg .past).length = cfg.past - 1 ∧ (stepsOf cfg .current).length = 1 ∧ (stepsOf cfg .future).length = cfg.future ∧
    (∀ j, (stepsOf cfg .past)[j]? = if j < cfg.past - 1 then some j else none) ∧
    stepsOf cfg .current = [cfg.past - 1] ∧
    (∀ j, (stepsOf cfg .future)[j]? = if j < cfg.future then some (cfg.past + j) else none) := by
  have e : min cfg.past 1 = 1 := by omega
  refine ⟨by simp [stepsOf], by simp [stepsOf, e], by simp [stepsOf], ?_, by simp [stepsOf, e], ?_⟩
  · intro j
    unfold stepsOf
    by_cases hj : j < cfg.past - 1 <;> simp [hj]
  · intro j
    unfold stepsOf
    by_cases hj : j < cfg.future <;> simp [hj]

/-- All steps `0, 1, 2, …` are covered once, in order. -/
theorem stepsOf_all (cfg : Config) (_h : 0 < cfg.past) :
    stepsOf cfg .past ++ stepsOf cfg .current ++ stepsOf cfg .future = List.range (cfg.past + cfg.future) := by
  unfold stepsOf
  have h1 := List.range'_append (s := 0) (m := cfg.past - 1) (n := min cfg.past 1) (step := 1)
  have e : 0 + 1 * (cfg.past - 1) = cfg.past - 1 := by omega
  rw [e] at h1
  rw [List.range_eq_range', List.range_eq_range', h1]
  have h2 := List.range'_append (s := 0) (m := cfg.past - 1 + min cfg.past 1) (n := cfg.future) (step := 1)
  have e2 : 0 + 1 * (cfg.past - 1 + min cfg.past 1) = cfg.past := by omega
  rw [e2] at h2
  rw [h2]
  congr 1; omega

/-! ### The states of an agent -/

/-- What is stored for a valid state, `us` being the time of the step in microseconds. -/
def shown (rd : ℝ → ℝ) (us : ℤ) (s : ObjState) : StateField → Val
  | .timestamp => .int us
  | .valid => .int 1
  | .x => .float (rd s.x)
  | .y => .float (rd s.y)
  | .z => .float (rd s.z)
  | .width => .float (rd s.width)
  | .length => .float (rd s.length)
  | .height => .float (rd s.height)
  | .velocityX => .float (rd s.vx)
  | .velocityY => .float (rd s.vy)
  | .speed => .float (rd (Real.sqrt (s.vx ^ 2 + s.vy ^ 2)))
  | .bboxYaw => .float (rd s.heading)
  | .velYaw => .float (rd (Complex.arg (s.vx + s.vy * Complex.I)))

/-- What is stored otherwise. -/
def missing : StateField → Val
  | .timestamp => .int (-1)
  | .valid => .int 0
  | _ => .float (-1)

/-- The track shows the state `s` at the step: it has a type, and the state exists and is valid. -/
def Shows (tr : Option Track) (t : ℕ) (s : ObjState) : Prop := ∃ T, tr = some T ∧ T.type ≠ 0 ∧ T.states[t]? = some s ∧ s.valid = true

theorem stateAt_iff {tr : Option Track} {t : ℕ} {s : ObjState} : stateAt tr t = some s ↔ Shows tr t s := by
  unfold stateAt Shows
  cases tr with
  | none => simp
  | some T =>
    by_cases h0 : T.type = 0
    · simp [h0]
    · cases hs : T.states[t]? with
      | none => simp [h0, hs]
      | some s' =>
        cases hv : s'.valid with
        | false =>
          simp only [h0, if_false, hs, hv, Bool.false_eq_true, false_iff, reduceCtorEq, not_exists]
          rintro T' ⟨hT', _, h2, h3⟩
          simp only [Option.some.injEq] at hT'
          subst hT'
          rw [hs] at h2
          simp only [Option.some.injEq] at h2
          subst h2
          rw [hv] at h3
          simp at h3
        | true =>
          simp only [h0, if_false, hs, hv, if_true, Option.some.injEq]
          constructor
          · rintro rfl
            exact ⟨T, rfl, h0, hs, hv⟩
          · rintro ⟨T', hT', _, h2, _⟩
            subst hT'
            rw [hs] at h2
            simpa using h2

theorem complex_mk (a b : ℝ) : (⟨a, b⟩ : ℂ) = a + b * Complex.I := by
  apply Complex.ext <;> simp

theorem stateVal_shows {rd : ℝ → ℝ} {us : ℤ} {tr : Option Track} {t : ℕ} {s : ObjState} (h : Shows tr t s) (f : StateField) :
    stateVal rd us (stateAt tr t) f = shown rd us s f := by
  rw [stateAt_iff.2 h]
  cases f <;> simp [stateVal, shown, complex_mk, ← sq]

theorem stateVal_missing {rd : ℝ → ℝ} {us : ℤ} {tr : Option Track} {t : ℕ} (h : ∀ s, ¬ Shows tr t s) (f : StateField) :
    stateVal rd us (stateAt tr t) f = missing f := by
  have : stateAt tr t = none := by
    cases hs : stateAt tr t with
    | none => rfl
    | some s => exact absurd (stateAt_iff.1 hs) (h s)
  rw [this]
  cases f <;> rfl

theorem tensor_stateCounts (k : Key) (tr : Option Track) (t : ℕ) : tensor k (stateCounts tr t) = [] := by
  unfold stateCounts
  cases stateAt tr t <;> cases tr <;> simp only [List.append_nil, List.nil_append]
  · rfl
  · split <;> rfl
  · rfl
  · split <;> rfl

theorem tensor_step (rd : ℝ → ℝ) (us : ℤ) (s : Option ObjState) (fr fr' : Frame) (f : StateField) :
    tensor (.state fr f) (stateFields.map fun f => Ev.feat (.state fr' f) (stateVal rd us s f)) =
      if fr' = fr then [stateVal rd us s f] else [] := by
  by_cases h : fr' = fr
  · subst h
    cases f <;> simp [tensor, stateFields, Ev.at]
  · simp [tensor, stateFields, Ev.at, h]

theorem tensor_agentEvents_state (rd : ℝ → ℝ) (tr : Option Track) (a b c : Bool) (d : ℤ) (fr : Frame) (f : StateField) :
    tensor (.state fr f) (agentEvents rd tr a b c d) = [] := by
  cases tr <;> simp [agentEvents, tensor, Ev.at]

/-- The tensor of a field of the states, as far as one agent contributes to it. -/
theorem tensor_addState (cfg : Config) (rd : ℝ → ℝ) (ts : List ℝ) (tr : Option Track) (a b c : Bool) (d : ℤ) (fr : Frame) (f : StateField) :
    tensor (.state fr f) (addState cfg rd ts tr a b c d) =
      (stepsOf cfg fr).map fun t => stateVal rd (micros rd ts t) (stateAt tr t) f := by
  unfold addState
  rw [tensor_append, tensor_agentEvents_state, List.nil_append, tensor_flatMap, ← steps_filter, ← flatMap_single]
  congr 1
  funext t
  rw [tensor_append, tensor_stateCounts, tensor_step]
  rfl

/-- The values of an agent that do not change. -/
def agentVal (rd : ℝ → ℝ) (tr : Option Track) (sdc ctx interest : Bool) (diff : ℤ) : AgentField → Val
  | .id => .float (match tr with | none => -1 | some T => rd T.id)
  | .type => .float (match tr with | none => -1 | some T => rd T.type)
  | .interest => .int (match tr with | none => -1 | some _ => if interest then 1 else 0)
  | .isSdc => .int (match tr with | none => -1 | some _ => if sdc then 1 else 0)
  | .isContext => .int (match tr with | none => -1 | some _ => if ctx then 1 else 0)
  | .toPredict => .int (match tr with | none => -1 | some _ => if ctx then 0 else 1)
  | .difficulty => .int (match tr with | none => -1 | some _ => diff)

theorem tensor_agentEvents (rd : ℝ → ℝ) (tr : Option Track) (a b c : Bool) (d : ℤ) (f : AgentField) :
    tensor (.agent f) (agentEvents rd tr a b c d) = [agentVal rd tr a b c d f] := by
  cases tr <;> cases f <;> simp [agentEvents, tensor, Ev.at, agentVal]

theorem tensor_addState_agent (cfg : Config) (rd : ℝ → ℝ) (ts : List ℝ) (tr : Option Track) (a b c : Bool) (d : ℤ) (f : AgentField) :
    tensor (.agent f) (addState cfg rd ts tr a b c d) = [agentVal rd tr a b c d f] := by
  unfold addState
  rw [tensor_append, tensor_agentEvents, tensor_flatMap, flatMap_none, List.append_nil]
  intro t _
  rw [tensor_append, tensor_stateCounts]
  simp [tensor, stateFields, Ev.at]

/-- An agent adds nothing to the other tensors. -/
theorem tensor_addState_other (cfg : Config) (rd : ℝ → ℝ) (ts : List ℝ) (tr : Option Track) (a b c : Bool) (d : ℤ) {k : Key}
    (h1 : ∀ f, k ≠ .agent f) (h2 : ∀ fr f, k ≠ .state fr f) : tensor k (addState cfg rd ts tr a b c d) = [] := by
  cases k with
  | agent f => exact absurd rfl (h1 f)
  | state fr f => exact absurd rfl (h2 fr f)
  | scenarioId | light | road =>
    unfold addState
    rw [tensor_append, tensor_flatMap, flatMap_none, List.append_nil]
    · cases tr <;> simp [agentEvents, tensor, Ev.at]
    · intro t _
      rw [tensor_append, tensor_stateCounts]
      simp [tensor, stateFields, Ev.at]

/-! ### Times -/

theorem trunc_close (x : ℝ) : |(trunc x : ℝ) - x| < 1 := by
  unfold trunc
  rw [abs_lt]
  split
  · have h1 := Int.floor_le x
    have h2 := Int.lt_floor_add_one x
    constructor <;> linarith
  · have h1 := Int.le_ceil x
    have h2 := Int.ceil_lt_add_one x
    constructor <;> linarith

theorem trunc_int (n : ℤ) : trunc n = n := by
  unfold trunc
  split <;> simp

/-- The stored time differs from the time of the scenario by less than a microsecond and the rounding of the seconds to a `float`. -/
theorem micros_close {rd : ℝ → ℝ} {ts : List ℝ} {t : ℕ} {s : ℝ} (h : ts[t]? = some s) :
    |(micros rd ts t : ℝ) - s * 1000000| < 1 + 1000000 * |rd s - s| := by
  unfold micros
  rw [h]
  simp only
  have h1 := trunc_close (rd s * 1000000)
  have h2 : (trunc (rd s * 1000000) : ℝ) - s * 1000000 = ((trunc (rd s * 1000000) : ℝ) - rd s * 1000000) + (rd s - s) * 1000000 := by ring
  rw [h2]
  calc |((trunc (rd s * 1000000) : ℝ) - rd s * 1000000) + (rd s - s) * 1000000|
      ≤ |(trunc (rd s * 1000000) : ℝ) - rd s * 1000000| + |(rd s - s) * 1000000| := abs_add_le _ _
    _ < 1 + 1000000 * |rd s - s| := by
        rw [abs_mul, abs_of_pos (by norm_num : (0 : ℝ) < 1000000)]
        linarith

/-- Without the rounding a whole number of microseconds is stored exactly … -/
theorem micros_exact_partial {rd : ℝ → ℝ} {ts : List ℝ} {t : ℕ} {n : ℤ} (h : ts[t]? = some ((n : ℝ) / 1000000))
    (hrd : rd ((n : ℝ) / 1000000) = (n : ℝ) / 1000000) : micros rd ts t = n := by
  unfold micros
  rw [h]
  simp only [hrd]
  rw [div_mul_cancel₀ _ (by norm_num)]
  exact trunc_int n

/-- … but with the nearest `float` of 0.7, which is 11744051 / 2^24, the time of 0.7 s is 699999 µs. -/
theorem micros_violated (rd : ℝ → ℝ) (h : rd (700000 / 1000000) = 11744051 / 16777216) :
    micros rd [700000 / 1000000] 0 = 699999 := by
  unfold micros
  simp only [List.getElem?_cons_zero, h]
  unfold trunc
  rw [if_pos (by norm_num), Int.floor_eq_iff]
  norm_num

/-! ### Traffic lights -/

/-- What is stored for a traffic light. -/
def lightShown (rd : ℝ → ℝ) (s : LaneState) : LightField → Val
  | .timestamp => .int 0
  | .x => .float (rd s.stop.x)
  | .y => .float (rd s.stop.y)
  | .z => .float (rd s.stop.z)
  | .state => .int (trunc (rd s.state))
  | .id => .int (trunc (rd s.lane))
  | .valid => .int 1

/-- What is stored where there is no traffic light. -/
def lightMissing : LightField → Val
  | .timestamp => .int 0
  | .x => .float (-1)
  | .y => .float (-1)
  | .z => .float (-1)
  | .state => .int (-1)
  | .id => .int (-1)
  | .valid => .int 0

/-- The entry of a step and a position. -/
def lightVal (rd : ℝ → ℝ) (s : Option LaneState) (f : LightField) : Val :=
  match s with
  | none => lightMissing f
  | some s => lightShown rd s f

theorem tensor_lightEvents (rd : ℝ → ℝ) (s : Option LaneState) (fr fr' : Frame) {f : LightField} (hf : f ≠ .timestamp) :
    tensor (.light fr f) (lightEvents rd fr' s) = if fr' = fr then [lightVal rd s f] else [] := by
  by_cases h : fr' = fr
  · subst h
    cases s <;> cases f <;> simp_all [tensor, lightEvents, Ev.at, lightVal, lightShown, lightMissing]
  · cases s <;> simp [tensor, lightEvents, Ev.at, h]

theorem tensor_lightEvents_time (rd : ℝ → ℝ) (s : Option LaneState) (fr fr' : Frame) :
    tensor (.light fr .timestamp) (lightEvents rd fr' s) = [] := by
  cases s <;> simp [tensor, lightEvents, Ev.at]

theorem flatMap_const_if {α β : Type} {l : List α} {p : Prop} [Decidable p] {g : α → β} :
    (l.flatMap fun a => if p then [g a] else []) = if p then l.map g else [] := by
  by_cases h : p
  · simp only [h, if_true]
    induction l with
    | nil => rfl
    | cons a l ih => simp [ih]
  · simp [h]

theorem tensor_lightStep (cfg : Config) (rd : ℝ → ℝ) (sc : Scenario) (t : ℕ) (fr : Frame) {f : LightField} (hf : f ≠ .timestamp) :
    tensor (.light fr f) (lightStep cfg rd sc t) =
      if frame cfg t = fr then (List.range cfg.maxLights).map fun i => lightVal rd ((sc.lights[t]?).bind fun ls => ls[i]?) f else [] := by
  unfold lightStep
  have hk : ¬ Key.light (frame cfg t) .timestamp = Key.light fr f := by
    intro e
    simp only [Key.light.injEq] at e
    exact hf e.2.symm
  cases h : sc.lights[t]? with
  | none =>
    simp only [tensor_append, tensor_count, tensor_feat, hk, if_false, tensor_nil, tensor_flatMap, tensor_lightEvents _ _ _ _ hf,
      List.append_nil, List.nil_append, flatMap_const_if, Option.bind_none]
  | some ls =>
    simp only [tensor_append, tensor_count, tensor_feat, hk, if_false, tensor_nil, tensor_flatMap, tensor_lightEvents _ _ _ _ hf,
      List.append_nil, List.nil_append, flatMap_const_if, Option.bind_some]

theorem tensor_lightStep_time (cfg : Config) (rd : ℝ → ℝ) (sc : Scenario) (t : ℕ) (fr : Frame) :
    tensor (.light fr .timestamp) (lightStep cfg rd sc t) =
      if frame cfg t = fr then [Val.int (if t < sc.lights.length then micros rd sc.timestamps t else -1)] else [] := by
  unfold lightStep
  have hn : ∀ (g : ℕ → Option LaneState), ((List.range cfg.maxLights).flatMap fun i =>
      tensor (.light fr .timestamp) (lightEvents rd (frame cfg t) (g i))) = [] := by
    intro g
    apply flatMap_none
    intro i _
    exact tensor_lightEvents_time rd _ fr _
  cases h : sc.lights[t]? with
  | none =>
    have hlen : ¬ t < sc.lights.length := by
      rw [List.getElem?_eq_none_iff] at h; omega
    have := hn fun _ => none
    by_cases hfr : frame cfg t = fr
    · simp only [tensor_append, tensor_count, tensor_feat, tensor_nil, tensor_flatMap, this, hfr, if_true, hlen, if_false,
        List.append_nil]
      subst hfr
      simp [this]
    · simp only [tensor_append, tensor_count, tensor_feat, tensor_nil, tensor_flatMap, this, hfr, if_false, List.append_nil,
        Key.light.injEq, false_and]
  | some ls =>
    have hlen : t < sc.lights.length := by
      obtain ⟨hl, _⟩ := List.getElem?_eq_some_iff.1 h
      exact hl
    have := hn fun i => ls[i]?
    by_cases hfr : frame cfg t = fr
    · subst hfr
      simp only [tensor_append, tensor_count, tensor_feat, tensor_nil, tensor_flatMap, this, if_true, hlen, List.append_nil]
    · simp only [tensor_append, tensor_count, tensor_feat, tensor_nil, tensor_flatMap, this, hfr, if_false, List.append_nil,
        Key.light.injEq, false_and]

theorem flatMap_if {α β : Type} {l : List α} {p : α → Prop} [DecidablePred p] {g : α → List β} :
    (l.flatMap fun a => if p a then g a else []) = (l.filter fun a => p a).flatMap g := by
  induction l with
  | nil => rfl
  | cons a l ih => by_cases h : p a <;> simp [h, ih]

/-- The tensors of the traffic lights. -/
theorem tensor_addLights (cfg : Config) (rd : ℝ → ℝ) (sc : Scenario) (fr : Frame) {f : LightField} (hf : f ≠ .timestamp) :
    tensor (.light fr f) (addLights cfg rd sc) = (stepsOf cfg fr).flatMap fun t =>
      (List.range cfg.maxLights).map fun i => lightVal rd ((sc.lights[t]?).bind fun ls => ls[i]?) f := by
  unfold addLights
  rw [tensor_flatMap, ← steps_filter, ← flatMap_if]
  congr 1
  funext t
  exact tensor_lightStep cfg rd sc t fr hf

theorem tensor_addLights_time (cfg : Config) (rd : ℝ → ℝ) (sc : Scenario) (fr : Frame) :
    tensor (.light fr .timestamp) (addLights cfg rd sc) =
      (stepsOf cfg fr).map fun t => Val.int (if t < sc.lights.length then micros rd sc.timestamps t else -1) := by
  unfold addLights
  rw [tensor_flatMap, ← steps_filter, ← flatMap_single]
  congr 1
  funext t
  exact tensor_lightStep_time cfg rd sc t fr

theorem tensor_addLights_other (cfg : Config) (rd : ℝ → ℝ) (sc : Scenario) {k : Key} (h : ∀ fr f, k ≠ .light fr f) :
    tensor k (addLights cfg rd sc) = [] := by
  unfold addLights
  rw [tensor_flatMap]
  apply flatMap_none
  intro t _
  have hev : ∀ s, tensor k (lightEvents rd (frame cfg t) s) = [] := by
    intro s
    have h' : ∀ fr f, Key.light fr f ≠ k := fun fr f e => h fr f e.symm
    cases s <;> simp [tensor, lightEvents, Ev.at, h']
  have h' : ∀ fr f, ¬ Key.light fr f = k := fun fr f e => h fr f e.symm
  unfold lightStep
  cases sc.lights[t]? with
  | none => simp [tensor_append, tensor_count, tensor_feat, h', tensor_nil, tensor_flatMap, hev]
  | some ls => simp [tensor_append, tensor_count, tensor_feat, h', tensor_nil, tensor_flatMap, hev]

/-! ### Counters -/

theorem counter_append (c : String) (a b : List Ev) : counter c (a ++ b) = counter c a + counter c b := by
  unfold counter
  rw [List.map_append, List.sum_append]

theorem counter_flatMap {α : Type} (c : String) (f : α → List Ev) (l : List α) :
    counter c (l.flatMap f) = (l.map fun a => counter c (f a)).sum := by
  induction l with
  | nil => rfl
  | cons a l ih => simp only [List.flatMap_cons, counter_append, ih, List.map_cons, List.sum_cons]

theorem counter_lightEvents (c : String) (rd : ℝ → ℝ) (fr : Frame) (s : Option LaneState) : counter c (lightEvents rd fr s) = 0 := by
  cases s <;> simp [counter, lightEvents, Ev.amount]

/-- The counters of the traffic lights: actual and padded together are the number of entries of the tensors … -/
theorem light_counters_partial (cfg : Config) (rd : ℝ → ℝ) (sc : Scenario) :
    counter "Actual_Traffic_Light_State_Features" (addLights cfg rd sc) +
      counter "Padded_Traffic_Light_State_Features" (addLights cfg rd sc) = (cfg.past + cfg.future : ℕ) * cfg.maxLights := by
  unfold addLights
  rw [counter_flatMap, counter_flatMap, ← List.sum_map_add]
  have : (fun t => counter "Actual_Traffic_Light_State_Features" (lightStep cfg rd sc t) +
      counter "Padded_Traffic_Light_State_Features" (lightStep cfg rd sc t)) = fun _ => (cfg.maxLights : ℤ) := by
    funext t
    have hz : ∀ c (g : ℕ → Option LaneState), counter c ((List.range cfg.maxLights).flatMap fun i =>
        lightEvents rd (frame cfg t) (g i)) = 0 := by
      intro c g
      rw [counter_flatMap]
      simp [counter_lightEvents]
    unfold lightStep
    cases sc.lights[t]? with
    | none =>
      simp only [counter_append, hz _ fun _ => none]
      simp [counter, Ev.amount]
    | some ls =>
      simp only [counter_append, hz _ fun i => ls[i]?]
      simp [counter, Ev.amount]
  rw [this]
  simp [Config.steps, Nat.add_comm]

/-- … but with more lights than places the padding is counted as a negative number: two lights and one place. -/
theorem light_counters_violated : ∃ (cfg : Config) (sc : Scenario), ∀ rd : ℝ → ℝ,
    counter "Padded_Traffic_Light_State_Features" (addLights cfg rd sc) < 0 := by
  refine ⟨⟨1, 1, 1, 0, 0, 1, 1, 1, 1⟩, ⟨"", [0], [], [[⟨1, 4, ⟨0, 0, 0⟩⟩, ⟨2, 4, ⟨0, 0, 0⟩⟩]], [], 0, [], []⟩, ?_⟩
  intro rd
  simp [addLights, Config.steps, lightStep, counter, Ev.amount, lightEvents]

/-- The identifier of a lane passes a `float`: 16777217 becomes 16777216, which is another lane. -/
theorem light_id_violated (rd : ℝ → ℝ) (h : rd 16777217 = 16777216) (p : V3) (st : ℕ) :
    lightVal rd (some ⟨16777217, st, p⟩) .id = .int 16777216 := by
  have e : ((16777217 : ℤ) : ℝ) = 16777217 := by norm_num
  simp only [lightVal, lightShown, e, h]
  have := trunc_int 16777216
  simp only [Int.cast_ofNat] at this
  rw [this]

/-- Identifiers that a `float` holds exactly are kept. -/
theorem light_id_exact_partial {rd : ℝ → ℝ} {s : LaneState} (h : rd s.lane = s.lane) : lightVal rd (some s) .id = .int s.lane := by
  simp only [lightVal, lightShown, h, trunc_int]

end

end Verif.Conversion
