import Verif.Props.ConversionState

/-!
# The counters of the states of a converted example

C90: what an agent place adds to the counters of states.
-/

namespace Verif.Conversion

private theorem type_ne {c : String} (h : c.toList.head? ≠ some 'O') (n : ℕ) : s!"Object_Type_{n}" ≠ c := by
  intro e
  apply h
  rw [← e]
  change ("Object_Type_" ++ toString n).toList.head? = _
  rw [String.toList_append]
  rfl

private theorem counter_agentEvents {c : String} (h : c.toList.head? ≠ some 'O') (rd : ℝ → ℝ) (tr : Option Track) (a b d : Bool) (e : ℤ) :
    counter c (agentEvents rd tr a b d e) = match tr with
      | none => if "Padded_State_Feature" = c then 1 else 0
      | some _ => if "Agents_State_Feature" = c then 1 else 0 := by
  cases tr with
  | none => simp [counter, agentEvents, Ev.amount]
  | some tr =>
    have := type_ne h tr.type
    simp only [counter, agentEvents, Ev.amount, List.map_cons, List.map_nil, List.sum_cons, List.sum_nil, if_neg this]
    simp

private theorem counter_fields (c : String) (fr : Frame) (v : StateField → Val) :
    counter c (stateFields.map fun f => Ev.feat (.state fr f) (v f)) = 0 := by
  simp [counter, stateFields, Ev.amount]

private theorem sum_ite (p : ℕ → Prop) [DecidablePred p] : ∀ l : List ℕ,
    (l.map fun t => if p t then (1 : ℤ) else 0).sum = (l.countP fun t => decide (p t) : ℕ)
  | [] => rfl
  | t :: l => by
    rw [List.map_cons, List.sum_cons, sum_ite p l, List.countP_cons]
    by_cases h : p t <;> simp [h]
    ring

/-- **C90**: an agent place adds to the counter of valid states the number of its steps with a valid state,
if it has a type, to the counter of missing steps the
number of steps after the end of its track, and one to the counter of agents or of padding. -/
theorem state_counters (cfg : Config) (rd : ℝ → ℝ) (ts : List ℝ) (tr : Option Track) (sdc ctx interest : Bool) (diff : ℤ) :
    counter "Valid_Object_State" (addState cfg rd ts tr sdc ctx interest diff) =
      (match tr with
      | none => 0
      | some T => if T.type = 0 then 0 else ((T.states.take (cfg.past + cfg.future)).countP ObjState.valid : ℕ)) ∧
    counter "Track_State_Not_Enough_Steps" (addState cfg rd ts tr sdc ctx interest diff) =
      (match tr with | none => 0 | some T => ((cfg.past + cfg.future) - T.states.length : ℕ)) ∧
    counter "Padded_State_Feature" (addState cfg rd ts tr sdc ctx interest diff) = (if tr = none then 1 else 0) ∧
    counter "Agents_State_Feature" (addState cfg rd ts tr sdc ctx interest diff) = (if tr = none then 0 else 1) := by
  have hsteps : cfg.steps = cfg.past + cfg.future := Nat.add_comm _ _
  have general : ∀ c : String, c.toList.head? ≠ some 'O' → counter c (addState cfg rd ts tr sdc ctx interest diff) =
      (match tr with
      | none => if "Padded_State_Feature" = c then 1 else 0
      | some _ => if "Agents_State_Feature" = c then 1 else 0) +
      ((List.range (cfg.past + cfg.future)).map fun t => counter c (stateCounts tr t)).sum := by
    intro c hc
    unfold addState
    rw [counter_append, counter_agentEvents hc, counter_flatMap, hsteps]
    congr 3
    funext t
    rw [counter_append, counter_fields, add_zero]
  have count : ∀ (c : String) (t : ℕ), counter c (stateCounts tr t) =
      (if "Track_State_Not_Enough_Steps" = c ∧ (tr.map fun T => decide (T.states.length ≤ t)).getD false = true then 1 else 0) +
      (if "Valid_Object_State" = c ∧ (stateAt tr t).isSome then 1 else 0) := by
    intro c t
    unfold stateCounts
    rw [counter_append]
    congr 1
    · cases tr with
      | none => simp [counter]
      | some T =>
        by_cases h : T.states.length ≤ t
        · simp [counter, Ev.amount, h]
        · simp [counter, h]
    · cases stateAt tr t <;> simp [counter, Ev.amount]
  refine ⟨?_, ?_, ?_, ?_⟩
  · rw [general _ (by decide)]
    simp only [count]
    simp only [show ("Track_State_Not_Enough_Steps" = "Valid_Object_State") = False by simp, false_and, if_false, zero_add, true_and]
    rw [sum_ite]
    cases tr with
    | none => simp [stateAt]
    | some T =>
      have : ∀ n, (List.range n).countP (fun t => decide ((stateAt (some T) t).isSome = true)) =
          if T.type = 0 then 0 else (T.states.take n).countP ObjState.valid := by
        intro n
        induction n with
        | zero => simp
        | succ n ih =>
          rw [List.range_succ, List.countP_append, ih, List.countP_singleton, List.take_add_one, List.countP_append]
          by_cases h0 : T.type = 0
          · simp [stateAt, h0]
          · cases hs : T.states[n]? with
            | none => simp [stateAt, h0, hs]
            | some x => by_cases hv : x.valid <;> simp [stateAt, h0, hs, hv]
      rw [this]
      simp
  · rw [general _ (by decide)]
    simp only [count]
    simp only [show ("Valid_Object_State" = "Track_State_Not_Enough_Steps") = False by simp, false_and, if_false, add_zero, true_and]
    cases tr with
    | none => simp
    | some T =>
      rw [sum_ite]
      have : ∀ n k : ℕ, (List.range n).countP (fun t => decide (k ≤ t)) = n - k := by
        intro n k
        induction n with
        | zero => simp
        | succ n ih =>
          rw [List.range_succ, List.countP_append, ih, List.countP_singleton]
          by_cases h : k ≤ n
          · simp [h]; omega
          · simp [h]; omega
      simp only [Option.map_some, Option.getD_some, decide_eq_true_eq, this]
      simp
  · rw [general _ (by decide)]
    simp only [count]
    cases tr <;> simp
  · rw [general _ (by decide)]
    simp only [count]
    cases tr <;> simp

end Verif.Conversion
