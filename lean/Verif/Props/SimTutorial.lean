import Verif.Model.SimTutorial
import Verif.Props.SimScene
import Verif.Lemmas.ListM
import Mathlib.Tactic.Linarith
import Mathlib.Tactic.Ring
import Mathlib.Tactic.NormNum

/-! Properties of the policies of the tutorials for simulated agents (C194, C195). -/

namespace Verif.SimTutorial

open Verif.SimAgents Verif.ListM

/-! ### Rollouts of one object -/

/-- Specification: where an object is after `k` steps from `p` with velocity `v` per step and disturbances `d 0`, `d 1`, … per step. -/
def after (p v : S4) (d : ℕ → S4) : ℕ → S4
  | 0 => p
  | k + 1 => after p v d k + (v + d k)

theorem foldl_advance (vel scale : S4) (noise : ℕ → S4) (n : ℕ) (p : S4) :
    (List.range n).foldl (advance vel scale noise) [p] = (List.range (n + 1)).map (after p vel fun k => noise k * scale) := by
  induction n with
  | zero => simp [after]
  | succ n ih =>
    rw [List.range_succ, List.foldl_append, ih, List.foldl_cons, List.foldl_nil, List.range_succ (n := n + 1), List.map_append]
    unfold advance
    congr 1
    rw [List.range_succ, List.map_append, List.map_singleton, List.getLastD_concat]
    rfl

theorem rollout_spec (vel scale : S4) (noise : ℕ → S4) (n : ℕ) (p : S4) :
    rollout vel scale noise n p = (List.range n).map fun k => after p vel (fun j => noise j * scale) (k + 1) := by
  unfold rollout
  rw [foldl_advance, List.range_succ_eq_map]
  simp [Function.comp_def]

/-- Without disturbance the object moves by its velocity in each step. -/
theorem after_linear (p v : S4) (k : ℕ) : after p v (fun _ => 0) k =
    (p.1 + k * v.1, p.2.1 + k * v.2.1, p.2.2.1 + k * v.2.2.1, p.2.2.2 + k * v.2.2.2) := by
  induction k with
  | zero => simp [after]
  | succ k ih =>
    rw [after, ih]
    push_cast
    refine Prod.ext ?_ (Prod.ext ?_ (Prod.ext ?_ ?_)) <;> simp <;> ring

/-- Numbers that do not move and are not disturbed stay. -/
theorem after_heading (p v : S4) (d : ℕ → S4) (hv : v.2.2.2 = 0) (hd : ∀ k, (d k).2.2.2 = 0) (k : ℕ) : (after p v d k).2.2.2 = p.2.2.2 := by
  induction k with
  | zero => rfl
  | succ k ih =>
    rw [after]
    simp only [Prod.snd_add]
    rw [ih, hv, hd]
    simp

/-! ### C194: the extrapolation -/

/-- Specification: the state of a track at a step. -/
def StateAt (t : Track ℝ) (k : ℕ) (p : S4) (valid : Bool) : Prop :=
  ∃ st, t.states[k]? = some st ∧ p = (st.num .x, st.num .y, st.num .z, st.num .heading) ∧ valid = st.valid

/-- Specification: the velocity per step of a track at step 10: the difference of the positions at steps 10 and 9 if the track is valid there,
else zero; the heading does not change. -/
def VelocityOf (t : Track ℝ) (v : S4) : Prop :=
  ∃ a b va vb, StateAt t 10 a va ∧ StateAt t 9 b vb ∧
    v = if va = true ∧ vb = true then (a.1 - b.1, a.2.1 - b.2.1, a.2.2.1 - b.2.2.1, 0) else (0, 0, 0, 0)

theorem stackRow_map {β : Type} (l : List β) (f g h k : β → ℝ) :
    stackRow (l.map f) (l.map g) (l.map h) (l.map k) = l.map fun b => (f b, g b, h b, k b) := by
  unfold stackRow
  induction l with
  | nil => rfl
  | cons a l ih => simp only [List.map_cons, List.zip_cons_cons, ih]

theorem statesOf_ofTracks (ts : List (Track ℝ)) (k : ℕ) (t : Track ℝ) (h : ts[k]? = some t) :
    statesOf (ofTracks ts) k = some (t.states.map fun st => (st.num .x, st.num .y, st.num .z, st.num .heading)) := by
  unfold statesOf ofTracks
  simp only [List.getElem?_map, h, Option.map_some, Option.bind_eq_bind, Option.bind_some, Option.pure_def, stackRow_map]

theorem lastAndVelocity_spec (ts : List (Track ℝ)) (k : ℕ) (t : Track ℝ) (h : ts[k]? = some t) (hl : t.states.length = 11) :
    ∃ p v va, lastAndVelocity (ofTracks ts) k = some (p, v) ∧ StateAt t 10 p va ∧ VelocityOf t v := by
  have h10 : t.states[10]? = some (t.states[10]'(by omega)) := List.getElem?_eq_getElem _
  have h9 : t.states[9]? = some (t.states[9]'(by omega)) := List.getElem?_eq_getElem _
  unfold lastAndVelocity
  rw [statesOf_ofTracks ts k t h]
  simp only [ofTracks, List.getElem?_map, h, Option.map_some, Option.bind_eq_bind, Option.bind_some, Option.pure_def, fromEnd, List.length_map, hl,
    show 1 ≤ 11 by norm_num, show 2 ≤ 11 by norm_num, if_true, show 11 - 1 = 10 by norm_num, show 11 - 2 = 9 by norm_num, h10, h9]
  refine ⟨_, _, _, rfl, ⟨_, h10, rfl, rfl⟩, ?_⟩
  refine ⟨_, _, _, _, ⟨_, h10, rfl, rfl⟩, ⟨_, h9, rfl, rfl⟩, ?_⟩
  simp only [Bool.and_eq_true]

theorem foldl_sup (vs : List S4) : ∀ v : S4, (∀ w ∈ v :: vs, w.2.2.2 = 0) → (vs.foldl (· ⊔ ·) v).2.2.2 = 0 := by
  induction vs with
  | nil => intro v h; exact h v (by simp)
  | cons w vs ih =>
    intro v h
    rw [List.foldl_cons]
    apply ih
    intro u hu
    rcases List.mem_cons.1 hu with rfl | hu
    · simp [h v (by simp), h w (by simp)]
    · exact h u (by simp [hu])

/-- The largest of some numbers. -/
def IsMax (l : List ℝ) (m : ℝ) : Prop := m ∈ l ∧ ∀ a ∈ l, a ≤ m

theorem foldl_max (vs : List S4) (g : S4 → ℝ) (hg : ∀ a b : S4, g (a ⊔ b) = max (g a) (g b)) :
    ∀ v : S4, IsMax ((v :: vs).map g) (g (vs.foldl (· ⊔ ·) v)) := by
  induction vs with
  | nil => intro v; simp [IsMax]
  | cons w vs ih =>
    intro v
    rw [List.foldl_cons]
    obtain ⟨h1, h2⟩ := ih (v ⊔ w)
    simp only [List.map_cons, List.mem_cons, hg] at h1 h2 ⊢
    unfold IsMax
    constructor
    · rcases h1 with h1 | h1
      · rcases max_choice (g v) (g w) with e | e
        · rw [h1, e]; simp
        · rw [h1, e]; simp
      · simp [h1]
    · intro a ha
      have hm := h2 (max (g v) (g w)) (Or.inl rfl)
      simp only [List.mem_cons] at ha
      rcases ha with rfl | rfl | ha
      · exact le_trans (le_max_left _ _) hm
      · exact le_trans (le_max_right _ _) hm
      · exact h2 a (Or.inr ha)

/-- The scale of the disturbances is, in each direction, the largest velocity of an agent. -/
def ScaleOf (vs : List S4) (m : S4) : Prop :=
  IsMax (vs.map fun v => v.1) m.1 ∧ IsMax (vs.map fun v => v.2.1) m.2.1 ∧ IsMax (vs.map fun v => v.2.2.1) m.2.2.1 ∧
    IsMax (vs.map fun v => v.2.2.2) m.2.2.2

theorem maxAction_spec (vs : List S4) (hne : vs ≠ []) : ∃ m, maxAction vs = some m ∧ ScaleOf vs m := by
  cases vs with
  | nil => exact absurd rfl hne
  | cons v vs =>
    exact ⟨_, rfl, foldl_max vs (fun v => v.1) (fun _ _ => rfl) v, foldl_max vs (fun v => v.2.1) (fun _ _ => rfl) v,
      foldl_max vs (fun v => v.2.2.1) (fun _ _ => rfl) v, foldl_max vs (fun v => v.2.2.2) (fun _ _ => rfl) v⟩

/-- The tracks of the history of a scenario. -/
def history (s : Scenario ℝ) : List (Track ℝ) := (agents s).map (Track.cut 0 (some 11))

theorem stateAt_cut (t : Track ℝ) (k : ℕ) (hk : k < 11) (p : S4) (v : Bool) : StateAt (Track.cut 0 (some 11) t) k p v ↔ StateAt t k p v := by
  unfold StateAt Track.cut slice
  simp only [List.drop_zero, List.getElem?_take, hk, if_true]

theorem velocityOf_cut (t : Track ℝ) (v : S4) : VelocityOf (Track.cut 0 (some 11) t) v ↔ VelocityOf t v := by
  unfold VelocityOf
  simp only [stateAt_cut t 10 (by norm_num), stateAt_cut t 9 (by norm_num)]

/-- What the simulation of a scenario gives: the history of the agents and, for 32 rollouts and each agent `i` in the order of the tracks, the 80
states after its state at step 10. -/
structure Extrapolated (s : Scenario ℝ) (noise : ℕ → ℕ → ℕ → S4) (t : Trajs ℝ) (out : List (List (List S4))) (p v : ℕ → S4) (m : S4) : Prop where
  traj : t = ofTracks (history s)
  start : ∀ (i : ℕ) a, (agents s)[i]? = some a → ∃ va, StateAt a 10 (p i) va
  velocity : ∀ (i : ℕ) a, (agents s)[i]? = some a → VelocityOf a (v i)
  scale : ScaleOf ((List.range (agents s).length).map v) m
  states : out = (List.range 32).map fun r => (List.range (agents s).length).map fun i => (List.range 80).map fun k =>
    after (p i) (v i) (fun j => noise r i j * m) (k + 1)

/-- **C194**: simulating a scenario always works and extrapolates: agent `i` starts from its state at the current step and is moved in each step by
its last velocity and a disturbance that is scaled by the largest velocity of an agent. -/
theorem simulate_spec {s : Scenario ℝ} {n : ℕ} (h : Complete s n) (hn : 10 < n) (hag : agents s ≠ []) (noise : ℕ → ℕ → ℕ → S4) :
    ∃ t out p v m, simulate s noise = some (t, out) ∧ Extrapolated s noise t out p v m := by
  have hne : (agents s).map Track.id ≠ [] := by simpa using hag
  have hlen : ∀ t ∈ history s, t.states.length = 11 := by
    intro t ht
    obtain ⟨u, hu, rfl⟩ := List.mem_map.1 ht
    have := h.len u ((agents_iff s u).1 hu).1
    simp [Track.cut, slice, this]; omega
  have hobj : ∀ i : ℕ, i < (agents s).length → ∃ o : S4 × S4, lastAndVelocity (ofTracks (history s)) i = some o ∧
      ∀ a, (agents s)[i]? = some a → (∃ va, StateAt a 10 o.1 va) ∧ VelocityOf a o.2 := by
    intro i hi
    have hi' : i < (history s).length := by simpa [history] using hi
    obtain ⟨p, v, va, h1, h2, h3⟩ := lastAndVelocity_spec (history s) i _ (List.getElem?_eq_getElem hi') (hlen _ (List.getElem_mem hi'))
    refine ⟨(p, v), h1, ?_⟩
    intro a ha
    rw [List.getElem?_eq_getElem hi, Option.some.injEq] at ha
    have e : (history s)[i] = Track.cut 0 (some 11) a := by simp [history, ha]
    rw [e] at h2 h3
    exact ⟨⟨va, (stateAt_cut a 10 (by norm_num) p va).1 h2⟩, (velocityOf_cut a v).1 h3⟩
  choose! o ho1 ho2 using hobj
  have hm : (List.range (ofTracks (history s)).id.length).mapM (lastAndVelocity (ofTracks (history s))) =
      some ((List.range (agents s).length).map o) := by
    apply forall₂_mapM
    have : (ofTracks (history s)).id.length = (agents s).length := by simp [ofTracks, history]
    rw [this, List.forall₂_map_right_iff]
    apply List.forall₂_same.2
    intro i hi
    exact ho1 i (List.mem_range.1 hi)
  obtain ⟨m, hm1, hm2⟩ := maxAction_spec (((List.range (agents s).length).map o).map Prod.snd) (by
    simpa using List.length_pos_iff.2 hag |>.ne')
  refine ⟨ofTracks (history s), (List.range 32).map fun r => ((List.range (agents s).length).map o).zipIdx.map fun o =>
    rollout o.1.2 m (noise r o.2) 80 o.1.1, fun i => (o i).1, fun i => (o i).2, m, ?_, ?_⟩
  · unfold simulate
    rw [fromScenario_eq h, simAgentIds_eq h hn]
    simp only [Option.bind_eq_bind, Option.bind_some, idTensor, if_neg hne]
    rw [gatherById_ofTracks (fun t ht => ((agents_iff s t).1 ht).1) h.ids]
    simp only [Option.bind_some, sliceTime_ofTracks]
    rw [show (ofTracks (List.map (Track.cut 0 (some ((config .simAgents).current + 1))) (agents s))) = ofTracks (history s) from rfl, hm]
    simp only [Option.bind_some, hm1, Option.pure_def]
    rfl
  · constructor
    · rfl
    · intro i a ha
      exact (ho2 i (List.getElem?_eq_some_iff.1 ha).1 a ha).1
    · intro i a ha
      exact (ho2 i (List.getElem?_eq_some_iff.1 ha).1 a ha).2
    · rw [List.map_map] at hm2
      exact hm2
    · apply List.map_congr_left
      intro r _
      apply List.ext_getElem
      · simp
      · intro i h1 h2
        simp only [List.getElem_map, List.getElem_zipIdx, List.getElem_range, Nat.zero_add, rollout_spec]

/-- **C194**: the state of a rollout at a step. -/
theorem Extrapolated.get {s : Scenario ℝ} {noise : ℕ → ℕ → ℕ → S4} {t : Trajs ℝ} {out : List (List (List S4))} {p v : ℕ → S4} {m : S4}
    (h : Extrapolated s noise t out p v m) {r i k : ℕ} (hr : r < 32) (hi : i < (agents s).length) (hk : k < 80) :
    ∃ a b, out[r]? = some a ∧ a[i]? = some b ∧ b[k]? = some (after (p i) (v i) (fun j => noise r i j * m) (k + 1)) := by
  rw [h.states]
  refine ⟨(List.range (agents s).length).map fun i => (List.range 80).map fun k => after (p i) (v i) (fun j => noise r i j * m) (k + 1),
    (List.range 80).map fun k => after (p i) (v i) (fun j => noise r i j * m) (k + 1), ?_, ?_, ?_⟩
  · rw [List.getElem?_map, List.getElem?_range hr]; rfl
  · rw [List.getElem?_map, List.getElem?_range hi]; rfl
  · rw [List.getElem?_map, List.getElem?_range hk]; rfl

/-- **C194**: the headings are those of step 10, whatever the noise. -/
theorem Extrapolated.heading {s : Scenario ℝ} {noise : ℕ → ℕ → ℕ → S4} {t : Trajs ℝ} {out : List (List (List S4))} {p v : ℕ → S4} {m : S4}
    (h : Extrapolated s noise t out p v m) {i : ℕ} (hi : i < (agents s).length) (r k : ℕ) :
    (after (p i) (v i) (fun j => noise r i j * m) k).2.2.2 = (p i).2.2.2 := by
  have hv : ∀ i, i < (agents s).length → (v i).2.2.2 = 0 := by
    intro i hi
    obtain ⟨a, b, va, vb, _, _, e⟩ := h.velocity i _ (List.getElem?_eq_getElem hi)
    rw [e]; split_ifs <;> rfl
  have hm : m.2.2.2 = 0 := by
    have := h.scale.2.2.2.1
    simp only [List.map_map, List.mem_map, List.mem_range, Function.comp] at this
    obtain ⟨j, hj, e⟩ := this
    rw [← e, hv j hj]
  apply after_heading _ _ _ (hv i hi)
  intro k
  simp [hm]

/-- **C194**: without noise each agent follows the straight line of its last velocity. -/
theorem Extrapolated.linear {s : Scenario ℝ} {t : Trajs ℝ} {out : List (List (List S4))} {p v : ℕ → S4} {m : S4}
    (h : Extrapolated s (fun _ _ _ => 0) t out p v m) {r i k : ℕ} (hr : r < 32) (hi : i < (agents s).length) (hk : k < 80) :
    ∃ a b, out[r]? = some a ∧ a[i]? = some b ∧ b[k]? = some ((p i).1 + (k + 1 : ℕ) * (v i).1, (p i).2.1 + (k + 1 : ℕ) * (v i).2.1,
      (p i).2.2.1 + (k + 1 : ℕ) * (v i).2.2.1, (p i).2.2.2 + (k + 1 : ℕ) * (v i).2.2.2) := by
  obtain ⟨a, b, h1, h2, h3⟩ := h.get hr hi hk
  refine ⟨a, b, h1, h2, ?_⟩
  rw [h3]
  simp only [zero_mul]
  rw [after_linear]

/-- **C194, what holds of the diversity**: if some agent moves in the positive direction of x, rollouts with different noise in x differ. -/
theorem Extrapolated.diverse_partial {s : Scenario ℝ} {noise : ℕ → ℕ → ℕ → S4} {t : Trajs ℝ} {out : List (List (List S4))} {p v : ℕ → S4} {m : S4}
    (h : Extrapolated s noise t out p v m) (hpos : ∃ j < (agents s).length, 0 < (v j).1) {r r' i : ℕ} (hr : r < 32) (hr' : r' < 32)
    (hi : i < (agents s).length) (hne : (noise r i 0).1 ≠ (noise r' i 0).1) : out[r]? ≠ out[r']? := by
  intro e
  obtain ⟨a, b, h1, h2, h3⟩ := h.get hr hi (k := 0) (by norm_num)
  obtain ⟨a', b', h1', h2', h3'⟩ := h.get hr' hi (k := 0) (by norm_num)
  rw [h1, h1', Option.some.injEq] at e
  subst e
  rw [h2, Option.some.injEq] at h2'
  subst h2'
  rw [h3, Option.some.injEq] at h3'
  have := congrArg Prod.fst h3'
  simp only [after, Prod.fst_add, Prod.fst_mul, add_right_inj] at this
  have hm : 0 < m.1 := by
    obtain ⟨j, hj, hp⟩ := hpos
    have := h.scale.1.2 (v j).1 (by
      simp only [List.map_map, List.mem_map, List.mem_range, Function.comp]
      exact ⟨j, hj, rfl⟩)
    linarith
  exact hne (mul_right_cancel₀ hm.ne' this)

/-- A track along x: valid all the time, at `a - 9` at step 10 if it moves by `-1`. -/
def backTrack (id : ℤ) (step : ℝ) : Track ℝ :=
  ⟨id, 1, (List.range 11).map fun (k : ℕ) => ⟨fun f => if f = .x then step * (k : ℝ) else 0, true⟩⟩

/-- A parked car and one that drives towards negative x. -/
def backStreet : Scenario ℝ := ⟨[backTrack 1 0, backTrack 2 (-1)], 0, [0]⟩

theorem backStreet_complete : Complete backStreet 11 := ⟨by simp [backStreet], by norm_num, by simp [backStreet, backTrack], by
  simp [backStreet, backTrack]⟩

theorem backStreet_agents : agents backStreet = backStreet.tracks := by
  simp [agents, backStreet, backTrack]

theorem backTrack_velocity (id : ℤ) (step : ℝ) (v : S4) (h : VelocityOf (backTrack id step) v) : v = (step, 0, 0, 0) := by
  obtain ⟨a, b, va, vb, ⟨sa, ha, rfl, rfl⟩, ⟨sb, hb, rfl, rfl⟩, rfl⟩ := h
  simp only [backTrack, List.getElem?_map, List.getElem?_range (show 10 < 11 by norm_num), List.getElem?_range (show 9 < 11 by norm_num),
    Option.map_some, Option.some.injEq] at ha hb
  subst ha hb
  simp
  ring

/-- **C194 is violated**: the noise that makes the rollouts different is scaled by the largest signed velocity, which is zero if some agents stand
and the others move in a negative direction: the 32 rollouts are then equal, whatever the noise. -/
theorem diverse_violated : ∃ s : Scenario ℝ, Complete s 11 ∧ agents s ≠ [] ∧ (∃ t ∈ agents s, ∃ v, VelocityOf t v ∧ v.1 ≠ 0) ∧
    ∀ noise, ∃ t out, simulate s noise = some (t, out) ∧ ∀ r r' : ℕ, r < 32 → r' < 32 → out[r]? = out[r']? := by
  have hag : agents backStreet ≠ [] := by rw [backStreet_agents]; simp [backStreet]
  have key : ∀ noise, ∃ t out p v m, simulate backStreet noise = some (t, out) ∧ Extrapolated backStreet noise t out p v m ∧ v 1 = (-1, 0, 0, 0) ∧
      m = 0 := by
    intro noise
    obtain ⟨t, out, p, v, m, h1, h2⟩ := simulate_spec backStreet_complete (by norm_num) hag noise
    have v0 := backTrack_velocity 1 0 (v 0) (h2.velocity 0 _ (by rw [backStreet_agents]; rfl))
    have v1 := backTrack_velocity 2 (-1) (v 1) (h2.velocity 1 _ (by rw [backStreet_agents]; rfl))
    refine ⟨t, out, p, v, m, h1, h2, v1, ?_⟩
    have hs := h2.scale
    rw [backStreet_agents] at hs
    simp only [backStreet, List.length_cons, List.length_nil, List.range_succ, List.range_zero, List.nil_append, List.map_append, List.map_cons,
      List.map_nil, List.cons_append, ScaleOf, IsMax, v0, v1, List.mem_cons, List.not_mem_nil, or_false, forall_eq_or_imp, forall_eq] at hs
    obtain ⟨⟨a1, a2, a3⟩, ⟨b1, b2, b3⟩, ⟨c1, c2, c3⟩, ⟨d1, d2, d3⟩⟩ := hs
    refine Prod.ext ?_ (Prod.ext ?_ (Prod.ext ?_ ?_))
    · rcases a1 with a | a
      · exact a
      · rw [a] at a2; norm_num at a2
    · simpa using b1
    · simpa using c1
    · simpa using d1
  refine ⟨backStreet, backStreet_complete, hag, ?_, ?_⟩
  · obtain ⟨t, out, p, v, m, h1, h2, h3, _⟩ := key fun _ _ _ => 0
    refine ⟨backTrack 2 (-1), by rw [backStreet_agents]; simp [backStreet], v 1, h2.velocity 1 _ (by rw [backStreet_agents]; rfl), ?_⟩
    rw [h3]; norm_num
  · intro noise
    obtain ⟨t, out, p, v, m, h1, h2, _, h4⟩ := key noise
    refine ⟨t, out, h1, ?_⟩
    intro r r' hr hr'
    rw [h2.states, h4]
    simp only [mul_zero, List.getElem?_map, List.getElem?_range hr, List.getElem?_range hr', Option.map_some]

/-! ### C195: the packaging -/

/-- The trajectory of an object in a scene. -/
def simOf (id : ℤ) (st : List S4) : Sim ℝ :=
  ⟨fun
    | .x => st.map fun p => p.1
    | .y => st.map fun p => p.2.1
    | .z => st.map fun p => p.2.2.1
    | .heading => st.map fun p => p.2.2.2
    | _ => [], [], id, 0⟩

/-- **C195**: a scene has one trajectory per id: that of the states in the same row. -/
theorem sceneOf_spec (states : List (List S4)) (ids : List ℤ) (h : ids.length ≤ states.length) :
    sceneOf states ids = some ((ids.zip states).map fun c => simOf c.1 c.2) := by
  unfold sceneOf
  apply forall₂_mapM
  rw [List.forall₂_iff_get]
  refine ⟨by simp [h], ?_⟩
  intro i h1 h2
  have hi : i < ids.length := by simpa using h1
  have hi' : i < states.length := by omega
  simp only [List.get_eq_getElem, List.getElem_range, List.getElem?_eq_getElem hi, List.getElem?_eq_getElem hi', List.getElem_map, List.getElem_zip,
    Option.bind_eq_bind, Option.bind_some, Option.pure_def]
  rfl

/-- More ids than rows raise. -/
theorem sceneOf_error (states : List (List S4)) (ids : List ℤ) (h : states.length < ids.length) : sceneOf states ids = none := by
  cases e : sceneOf states ids with
  | none => rfl
  | some r =>
    have := mapM_forall₂ e
    have hl := this.length_eq
    rw [List.forall₂_iff_get] at this
    have := this.2 states.length (by simpa using h) (by rw [List.length_range] at hl; omega)
    simp at this

/-- **C195**: the rollouts name the scenario and have, for each rollout of the states, the scene with the states of every object under its id. -/
theorem rolloutsOf_spec (name : String) (states : List (List (List S4))) (ids : List ℤ) (h : ∀ st ∈ states, ids.length ≤ st.length) :
    rolloutsOf name states ids = some ⟨some name, states.map fun st => (ids.zip st).map fun c => simOf c.1 c.2⟩ := by
  unfold rolloutsOf
  have : (states.mapM fun st => sceneOf st ids) = some (states.map fun st => (ids.zip st).map fun c => simOf c.1 c.2) := by
    apply forall₂_mapM
    rw [List.forall₂_map_right_iff]
    exact List.forall₂_same.2 fun st hst => sceneOf_spec st ids (h st hst)
  rw [this]
  rfl

/-- **C195**: states for all sim agents in their order, 32 rollouts and 80 steps make rollouts that pass the validation. -/
theorem rolloutsOf_valid {s : Scenario ℝ} {n : ℕ} (h : Complete s n) (hn : 10 < n) (name : String) (states : List (List (List S4)))
    (h32 : states.length = 32) (hobj : ∀ st ∈ states, st.length = (agents s).length) (h80 : ∀ st ∈ states, ∀ row ∈ st, row.length = 80) :
    ∃ r, rolloutsOf name states ((agents s).map Track.id) = some r ∧ validateRollouts r s .simAgents = some () := by
  refine ⟨_, rolloutsOf_spec name states _ (by intro st hst; simp [hobj st hst]), ?_⟩
  rw [validateRollouts_spec]
  refine ⟨⟨name, rfl⟩, by simpa using h32, ?_⟩
  intro scene hsc
  obtain ⟨st, hst, rfl⟩ := List.mem_map.1 hsc
  rw [validateScene_partial _ (fun t ht => by rw [h.len t ht]; exact hn)]
  constructor
  · intro sim hsim
    obtain ⟨c, hc, rfl⟩ := List.mem_map.1 hsim
    have := h80 st hst c.2 (List.of_mem_zip hc).2
    simp [simOf, this, Challenge.steps]
  · intro i
    have hid : ((((agents s).map Track.id).zip st).map fun c => simOf c.1 c.2).map Sim.id = (agents s).map Track.id := by
      rw [List.map_map]
      have : (Sim.id ∘ fun c : ℤ × List S4 => simOf c.1 c.2) = Prod.fst := by funext c; rfl
      rw [this, List.map_fst_zip]
      simp [hobj st hst]
    have : (∃ sim ∈ (((agents s).map Track.id).zip st).map (fun c => simOf c.1 c.2), sim.id = i) ↔
        i ∈ ((((agents s).map Track.id).zip st).map fun c => simOf c.1 c.2).map Sim.id := by
      simp only [List.mem_map]
    rw [this, hid, List.mem_map]
    constructor
    · rintro ⟨t, ht, e⟩
      exact ⟨t, ((agents_iff s t).1 ht).1, e, ((agents_iff s t).1 ht).2⟩
    · rintro ⟨t, ht, e, hnow⟩
      exact ⟨t, (agents_iff s t).2 ⟨ht, hnow⟩, e⟩

/-- **C195**: what the tutorial simulates can be packaged with the ids it returns, and passes the validation. -/
theorem simulate_valid {s : Scenario ℝ} {n : ℕ} (h : Complete s n) (hn : 10 < n) (hag : agents s ≠ []) (noise : ℕ → ℕ → ℕ → S4) (name : String) :
    ∃ t out r, simulate s noise = some (t, out) ∧ rolloutsOf name out t.id = some r ∧ validateRollouts r s .simAgents = some () := by
  obtain ⟨t, out, p, v, m, h1, h2⟩ := simulate_spec h hn hag noise
  have hid : t.id = (agents s).map Track.id := by
    rw [h2.traj]
    simp only [ofTracks, history, List.map_map]
    rfl
  obtain ⟨r, h3, h4⟩ := rolloutsOf_valid h hn name out (by rw [h2.states]; simp)
    (by intro st hst; rw [h2.states] at hst; obtain ⟨k, _, rfl⟩ := List.mem_map.1 hst; simp)
    (by intro st hst row hrow
        rw [h2.states] at hst; obtain ⟨k, _, rfl⟩ := List.mem_map.1 hst
        obtain ⟨i, _, rfl⟩ := List.mem_map.1 hrow; simp)
  exact ⟨t, out, r, h1, by rw [hid]; exact h3, h4⟩

/-- A concrete case: the scenario above can be simulated and submitted. -/
example : ∃ t out r, simulate backStreet (fun _ _ _ => 0) = some (t, out) ∧ rolloutsOf "a" out t.id = some r ∧
    validateRollouts r backStreet .simAgents = some () :=
  simulate_valid backStreet_complete (by norm_num) (by rw [backStreet_agents]; simp [backStreet]) _ _

end Verif.SimTutorial
