import Mathlib.Tactic.IntervalCases
import Verif.Props.SimTutorial

/-! Properties of the code of tutorial/tutorial_scenario_gen.ipynb (C196, C197). -/

namespace Verif.SimTutorial

open Verif.SimAgents Verif.ListM

/-! ### C196: stripping -/

/-- Specification: a track of which only the history up to the current step is known. -/
def keepHistory (t : Track ℝ) : Track ℝ :=
  ⟨t.id, t.type, t.states.take 11 ++ (t.states.drop 11).map fun _ => ⟨fun _ => 0, false⟩⟩

/-- Specification: a track of which only id, type, length and whether it is valid at the current step are known. -/
def blank (t : Track ℝ) : Track ℝ :=
  ⟨t.id, t.type, t.states.mapIdx fun k st => ⟨fun _ => 0, if k = 10 then st.valid else false⟩⟩

/-- What stripping makes of a list of tracks: the history of the first one stays. -/
def stripped : List (Track ℝ) → List (Track ℝ)
  | [] => []
  | t :: rest => keepHistory t :: rest.map blank

theorem set_row (l : List Bool) (k : ℕ) : (l.map fun _ => false).set k (l[k]?.getD false) = l.mapIdx fun i b => if i = k then b else false := by
  apply List.ext_getElem
  · simp
  · intro i h1 h2
    have hi : i < l.length := by simpa using h1
    rw [List.getElem_set]
    by_cases e : k = i
    · subst e; simp [hi]
    · rw [if_neg e]
      simp [Ne.symm e]

theorem row_zero (u : Track ℝ) (f : Field) : (u.states.map fun st => st.num f).map (fun _ => (0 : ℝ)) = (blank u).states.map fun st => st.num f := by
  apply List.ext_getElem
  · simp [blank]
  · intro i h1 h2
    simp [blank]

theorem row_valid (u : Track ℝ) : (u.states.map State.valid).mapIdx (fun i b => if i = 10 then b else false) = (blank u).states.map State.valid := by
  apply List.ext_getElem
  · simp [blank]
  · intro i h1 h2
    simp [blank]

/-- **C196, what holds**: stripping the tensors of a scenario keeps the history of the *first* track, and of all other tracks only id, type, length
and validity at the current step. -/
theorem strip_partial (ts : List (Track ℝ)) (hne : ts ≠ []) (hlen : ∀ t ∈ ts, 10 < t.states.length) :
    strip (ofTracks ts) = some (ofTracks (stripped ts)) := by
  cases ts with
  | nil => exact absurd rfl hne
  | cons t rest =>
    unfold strip
    rw [if_neg]
    · congr 1
      have hc : (config .scenarioGen).current = 10 := rfl
      rw [hc]
      simp only [ofTracks, stripped, restoreFirst, List.map_cons, List.map_map, Trajs.mk.injEq]
      refine ⟨?_, ?_, ?_, ?_⟩
      · funext f
        congr 1
        · simp [keepHistory, List.map_take, List.map_drop, Function.comp_def]
        · apply List.map_congr_left
          intro u _
          exact row_zero u _
      · rw [List.zipWith_cons_cons]
        congr 1
        · simp only [keepHistory, List.map_append, List.map_take, List.map_map, List.map_drop, Function.comp_def]
          have h10 : 10 < t.states.length := hlen t (by simp)
          apply List.ext_getElem
          · simp
          · intro i h1 h2
            rw [List.getElem_set]
            split_ifs with e
            · subst e
              simp [List.getElem_append, h10]
            · rfl
        · rw [List.zipWith_map_left, List.zipWith_map_right, List.zipWith_self]
          apply List.map_congr_left
          intro u _
          simp only [Function.comp]
          rw [set_row]
          exact row_valid u
      · simp [keepHistory, blank]
      · simp [keepHistory, blank]
    · rintro (h | h)
      · simp [ofTracks] at h
      · rw [List.any_eq_true] at h
        obtain ⟨r, hr, h⟩ := h
        obtain ⟨u, hu, rfl⟩ := List.mem_map.1 hr
        have := hlen u hu
        have hc : (config .scenarioGen).current = 10 := rfl
        rw [hc] at h
        simp at h
        omega

/-- Specification: nothing but id, type, length and validity at the current step is the same. -/
def SameOutside (t u : Track ℝ) : Prop :=
  t.id = u.id ∧ t.type = u.type ∧ t.states.length = u.states.length ∧ (t.states[10]?).map State.valid = (u.states[10]?).map State.valid

theorem blank_congr {t u : Track ℝ} (h : SameOutside t u) : blank t = blank u := by
  obtain ⟨h1, h2, h3, h4⟩ := h
  unfold blank
  rw [h1, h2]
  congr 1
  apply List.ext_getElem
  · simp [h3]
  · intro i a b
    have ha : i < t.states.length := by simpa using a
    have hb : i < u.states.length := by simpa using b
    simp only [List.getElem_mapIdx]
    by_cases e : i = 10
    · subst e
      rw [List.getElem?_eq_getElem ha, List.getElem?_eq_getElem hb] at h4
      simp at h4
      simp [h4]
    · simp [e]

/-- **C196**: no privileged information leaks: scenarios that agree in the history of the first track and in ids, types, lengths and validity at
the current step cannot be told apart after stripping. -/
theorem strip_secret {t u : Track ℝ} {rest rest' : List (Track ℝ)} (h0 : t.id = u.id ∧ t.type = u.type ∧ t.states.length = u.states.length)
    (hh : t.states.take 11 = u.states.take 11) (hr : List.Forall₂ SameOutside rest rest') (hl : ∀ x ∈ t :: rest, 10 < x.states.length) :
    strip (ofTracks (t :: rest)) = strip (ofTracks (u :: rest')) := by
  have hl' : ∀ x ∈ u :: rest', 10 < x.states.length := by
    intro x hx
    rcases List.mem_cons.1 hx with rfl | hx
    · rw [← h0.2.2]; exact hl t (by simp)
    · obtain ⟨i, hi, e⟩ := List.getElem_of_mem hx
      have := (List.forall₂_iff_get.1 hr).2 i (by rw [hr.length_eq]; exact hi) hi
      simp only [List.get_eq_getElem] at this
      rw [← e, ← this.2.2.1]
      exact hl _ (by simp)
  rw [strip_partial _ (by simp) hl, strip_partial _ (by simp) hl']
  have e1 : keepHistory t = keepHistory u := by
    unfold keepHistory
    rw [h0.1, h0.2.1, hh, List.map_const', List.map_const']
    simp [h0.2.2]
  have e2 : rest.map blank = rest'.map blank := by
    clear hl hl'
    induction hr with
    | nil => rfl
    | cons h _ ih => rw [List.map_cons, List.map_cons, blank_congr h, ih]
  rw [show stripped (t :: rest) = keepHistory t :: rest.map blank from rfl, e1, e2]
  rfl

/-- A standing track at `a`. -/
def standing (id : ℤ) (a : ℝ) : Track ℝ := ⟨id, 1, List.replicate 91 ⟨fun _ => a, true⟩⟩

/-- A scenario whose second track is the autonomous vehicle. -/
def secondAdv : Scenario ℝ := ⟨[standing 7 5, standing 8 6], 1, [0]⟩

/-- **C196 is violated**: if the autonomous vehicle is not the first track, its history is removed and that of another agent is kept. -/
theorem strip_violated : ∃ (s : Scenario ℝ) (t : Trajs ℝ), Complete s 91 ∧ s.sdc = 1 ∧
    (do let full ← fromScenario s; strip full) = some t ∧
    (∀ k < 11, ((t.num .x)[1]?).bind (·[k]?) = some 0) ∧ (∀ k < 11, ((t.num .x)[0]?).bind (·[k]?) = some 5) := by
  have hc : Complete secondAdv 91 := ⟨by simp [secondAdv], by norm_num, by simp [secondAdv, standing], by simp [secondAdv, standing]⟩
  refine ⟨secondAdv, ofTracks (stripped secondAdv.tracks), hc, rfl, ?_, ?_, ?_⟩
  · rw [fromScenario_eq hc]
    simp only [Option.bind_eq_bind, Option.bind_some]
    exact strip_partial _ hc.some fun t ht => by rw [hc.len t ht]; norm_num
  · intro k hk
    interval_cases k <;> simp [ofTracks, stripped, secondAdv, blank, standing]
  · intro k hk
    interval_cases k <;> simp [ofTracks, stripped, secondAdv, keepHistory, standing]

/-! ### C197: generating -/

/-- **C197**: the number of agents to generate of a type is the number of tracks of the type that are valid at the current step. -/
theorem numAgents_spec {s : Scenario ℝ} {n : ℕ} (h : Complete s n) (hn : 10 < n) (type : ℤ) :
    numAgents s type = some ((agents s).countP fun t => t.type = type) := by
  unfold numAgents
  rw [simAgentIds_eq h hn]
  simp only [Option.bind_eq_bind, Option.bind_some, Option.pure_def]
  have : (s.tracks.mapM fun t => some (decide (t.id ∈ (agents s).map Track.id ∧ t.type = type))) =
      some (s.tracks.map fun t => decide (t.id ∈ (agents s).map Track.id ∧ t.type = type)) := by
    apply forall₂_mapM
    rw [List.forall₂_map_right_iff]
    exact List.forall₂_same.2 fun _ _ => rfl
  rw [this]
  simp only [Option.bind_some, Option.some.injEq]
  rw [List.count, List.countP_map]
  unfold agents
  rw [List.countP_filter]
  apply List.countP_congr
  intro t ht
  have hmem : t.id ∈ (agents s).map Track.id ↔ t ∈ agents s := by
    constructor
    · intro hm
      obtain ⟨u, hu, e⟩ := List.mem_map.1 hm
      have := List.inj_on_of_nodup_map h.ids ((agents_iff s u).1 hu).1 ht e
      rw [← this]; exact hu
    · intro hm; exact List.mem_map.2 ⟨t, hm, rfl⟩
  have hag : t ∈ agents s ↔ ((t.states[10]?).map State.valid).getD false = true := by
    unfold agents; simp [ht]
  simp only [Function.comp, beq_true, decide_eq_true_eq, Bool.and_eq_true]
  rw [show List.map Track.id (List.filter (fun t => (Option.map State.valid t.states[10]?).getD false) s.tracks) = (agents s).map Track.id from rfl,
    hmem, hag, and_comm]

/-- The stripped agents. -/
def strippedAgents (s : Scenario ℝ) : List (Track ℝ) := (stripped s.tracks).filter fun t => ((t.states[10]?).map State.valid).getD false

theorem now_blank (t : Track ℝ) : ((blank t).states[10]?).map State.valid = (t.states[10]?).map State.valid := by
  unfold blank
  simp only [List.getElem?_mapIdx, Option.map_map]
  cases t.states[10]? <;> simp

theorem now_keep (t : Track ℝ) (h : 10 < t.states.length) : ((keepHistory t).states[10]?).map State.valid = (t.states[10]?).map State.valid := by
  unfold keepHistory
  rw [List.getElem?_append_left (by simp; omega), List.getElem?_take]
  simp

theorem stripped_ids (ts : List (Track ℝ)) : (stripped ts).map Track.id = ts.map Track.id := by
  cases ts with
  | nil => rfl
  | cons t rest => simp [stripped, keepHistory, blank, Function.comp_def]

theorem strippedAgents_eq {s : Scenario ℝ} {t : Track ℝ} {rest : List (Track ℝ)} (hs : s.tracks = t :: rest) (hl : 10 < t.states.length) :
    strippedAgents s = (if ((t.states[10]?).map State.valid).getD false then [keepHistory t] else []) ++
      (rest.filter fun t => ((t.states[10]?).map State.valid).getD false).map blank := by
  unfold strippedAgents
  rw [hs]
  simp only [stripped, List.filter_cons, List.filter_map, Function.comp_def, now_blank, now_keep t hl]
  split_ifs <;> simp

theorem strippedAgents_ids {s : Scenario ℝ} {n : ℕ} (h : Complete s n) (hn : 10 < n) :
    (strippedAgents s).map Track.id = (agents s).map Track.id ∧ (strippedAgents s).map Track.type = (agents s).map Track.type ∧
    ∀ t ∈ strippedAgents s, t.states.length = n := by
  cases hs : s.tracks with
  | nil => exact absurd hs h.some
  | cons t rest =>
    have hl := h.len t (by simp [hs])
    rw [strippedAgents_eq hs (by omega)]
    unfold agents
    rw [hs]
    refine ⟨?_, ?_, ?_⟩
    · simp only [List.filter_cons]
      split_ifs <;> simp [keepHistory, blank, Function.comp_def]
    · simp only [List.filter_cons]
      split_ifs <;> simp [keepHistory, blank, Function.comp_def]
    · intro u hu
      rw [List.mem_append] at hu
      rcases hu with hu | hu
      · split_ifs at hu
        · rw [List.mem_singleton] at hu; subst hu
          simp [keepHistory, hl]; omega
        · simp at hu
      · obtain ⟨w, hw, rfl⟩ := List.mem_map.1 hu
        have := h.len w (by rw [hs]; simp; right; exact (List.mem_filter.1 hw).1)
        simp [blank, this]

/-- The position and the velocity that the generated agents start from, with the disturbances, give the states. -/
def Generated (s : Scenario ℝ) (init : ℕ → ℕ → S4) (noise : ℕ → ℕ → ℕ → S4) (a v : S4) (out : List (List (List S4))) : Prop :=
  out = (List.range 32).map fun r => (List.range (agents s).length).map fun i => (List.range 91).map
    (after (a + init r i) v fun k => noise r i k * (5, 5, 5, 0))

theorem generateStates_eq (ts : List (Track ℝ)) (u : Track ℝ) (hu : ts[0]? = some u) (hl : 1 < u.states.length) (init noise) (va vb : Bool) (a b : S4)
    (ha : StateAt u 0 a va) (hb : StateAt u 1 b vb) :
    generateStates (ofTracks ts) init noise = some ((List.range 32).map fun r => (List.range ts.length).map fun i => (List.range 91).map
      (after (a + init r i) (b.1 - a.1, b.2.1 - a.2.1, b.2.2.1 - a.2.2.1, 0) fun k => noise r i k * (5, 5, 5, 0))) := by
  obtain ⟨sa, ha1, rfl, _⟩ := ha
  obtain ⟨sb, hb1, rfl, _⟩ := hb
  unfold generateStates
  rw [statesOf_ofTracks ts 0 u hu]
  simp only [List.getElem?_map, ha1, hb1, Option.map_some, Option.bind_eq_bind, Option.bind_some, Option.pure_def, foldl_advance]
  simp [config, ofTracks]

theorem generate_eq {s : Scenario ℝ} {n : ℕ} (h : Complete s n) (hn : 10 < n) (hag : agents s ≠ []) (init noise) :
    generate s init noise = (generateStates (ofTracks (strippedAgents s)) init noise).map fun st =>
      (ofTracks (strippedAgents s), st, generateSizes (ofTracks (strippedAgents s))) := by
  have hne : (agents s).map Track.id ≠ [] := by simpa using hag
  unfold generate
  rw [fromScenario_eq h, simAgentIds_eq h hn]
  simp only [Option.bind_eq_bind, Option.bind_some, idTensor, if_neg hne]
  rw [strip_partial s.tracks h.some fun t ht => by rw [h.len t ht]; exact hn]
  simp only [Option.bind_some]
  rw [← (strippedAgents_ids h hn).1, gatherById_ofTracks (ts := strippedAgents s) (fun t ht => (List.mem_filter.1 ht).1) (by rw [stripped_ids]; exact h.ids)]
  simp only [Option.bind_some, Option.pure_def]
  cases generateStates (ofTracks (strippedAgents s)) init noise <;> rfl

/-- **C197, what holds**: if the first track is valid at the current step, every agent starts at a random place around its first state and moves by
its first velocity, in 32 rollouts of 91 steps; the ids are those of the agents, and the sizes are those of the types, with as many steps as the log. -/
theorem generate_partial {s : Scenario ℝ} {n : ℕ} (h : Complete s n) (hn : 10 < n) (adv : Track ℝ) (hadv : s.tracks[0]? = some adv)
    (hnow : adv.Now true) (init noise) : ∃ t out sizes a b va vb, generate s init noise = some (t, out, sizes) ∧
      StateAt adv 0 a va ∧ StateAt adv 1 b vb ∧ Generated s init noise a (b.1 - a.1, b.2.1 - a.2.1, b.2.2.1 - a.2.2.1, 0) out ∧
      t.id = (agents s).map Track.id ∧
      sizes = List.replicate 32 ((agents s).map fun t => List.replicate n (sizeOf t.type)) := by
  cases hs : s.tracks with
  | nil => exact absurd hs h.some
  | cons t rest =>
    rw [hs] at hadv
    obtain rfl : t = adv := by simpa using hadv
    have hl := h.len t (by simp [hs])
    have hag : agents s ≠ [] := by
      intro e
      have := (agents_iff s t).2 ⟨by simp [hs], hnow⟩
      rw [e] at this; simp at this
    have hnow' : ((t.states[10]?).map State.valid).getD false = true := by
      obtain ⟨st, h1, h2⟩ := hnow
      simp [h1, h2]
    obtain ⟨i1, i2, i3⟩ := strippedAgents_ids h hn
    have hsa : (strippedAgents s)[0]? = some (keepHistory t) := by
      rw [strippedAgents_eq hs (by omega), if_pos hnow']; rfl
    have hat : ∀ k, k < 11 → StateAt t k ((t.states[k]?.map fun st => (st.num .x, st.num .y, st.num .z, st.num .heading)).getD 0)
        ((t.states[k]?.map State.valid).getD false) := by
      intro k hk
      have : k < t.states.length := by omega
      exact ⟨t.states[k], List.getElem?_eq_getElem this, by simp [this], by simp [this]⟩
    have hkeep : ∀ k, k < 11 → ∀ p v, StateAt t k p v → StateAt (keepHistory t) k p v := by
      rintro k hk p v ⟨st, h1, h2, h3⟩
      refine ⟨st, ?_, h2, h3⟩
      unfold keepHistory
      rw [List.getElem?_append_left (by simp; omega), List.getElem?_take, if_pos hk, h1]
    have h0 := hat 0 (by norm_num)
    have h1 := hat 1 (by norm_num)
    have hst := generateStates_eq (strippedAgents s) (keepHistory t) hsa (by simp [keepHistory]; omega) init noise _ _ _ _
      (hkeep 0 (by norm_num) _ _ h0) (hkeep 1 (by norm_num) _ _ h1)
    refine ⟨ofTracks (strippedAgents s), _, generateSizes (ofTracks (strippedAgents s)), _, _, _, _, (by rw [generate_eq h hn hag, hst]; rfl), h0, h1, ?_, ?_, ?_⟩
    · unfold Generated
      have : (strippedAgents s).length = (agents s).length := by simpa using congrArg List.length i1
      rw [this]
    · exact i1
    · unfold generateSizes
      have hsteps : SimAgents.steps (ofTracks (strippedAgents s)).valid = n := by
        have hx := i3 (keepHistory t) (by
          rw [strippedAgents_eq hs (by omega), if_pos hnow']; simp)
        rw [strippedAgents_eq hs (by omega), if_pos hnow']
        simp [SimAgents.steps, ofTracks, hx]
      rw [hsteps]
      have : (ofTracks (strippedAgents s)).type = (agents s).map Track.type := i2
      rw [this]
      simp [config, Function.comp_def]

/-- **C197**: sizes by type; types that are not one of the three have no size. -/
theorem sizeOf_spec : sizeOf 1 = (4.78, 2.07, 1.53) ∧ sizeOf 2 = (0.92, 0.82, 1.52) ∧ sizeOf 3 = (1.70, 0.82, 1.76) ∧
    ∀ k : ℤ, k ≠ 1 → k ≠ 2 → k ≠ 3 → sizeOf k = (0, 0, 0) := by
  refine ⟨by simp [sizeOf], by simp [sizeOf], by simp [sizeOf], ?_⟩
  intro k h1 h2 h3
  simp [sizeOf, h1, h2, h3]

/-- **C197 is violated**: if the first track is not valid at the current step, the generated agents start around the origin and do not move, however
far away the scenario is. -/
theorem generate_origin_violated {s : Scenario ℝ} {n : ℕ} (h : Complete s n) (hn : 10 < n) (first : Track ℝ) (h0 : s.tracks[0]? = some first)
    (hnow : first.Now false) (hag : agents s ≠ []) (init noise) : ∃ t out sizes, generate s init noise = some (t, out, sizes) ∧
      Generated s init noise 0 0 out := by
  cases hs : s.tracks with
  | nil => exact absurd hs h.some
  | cons t rest =>
    rw [hs] at h0
    obtain rfl : t = first := by simpa using h0
    have hl := h.len t (by simp [hs])
    have hnow' : ¬ ((t.states[10]?).map State.valid).getD false = true := by
      obtain ⟨st, h1, h2⟩ := hnow
      simp [h1, h2]
    obtain ⟨i1, i2, i3⟩ := strippedAgents_ids h hn
    have hse := strippedAgents_eq hs (show 10 < t.states.length by omega)
    rw [if_neg hnow', List.nil_append] at hse
    have hne : strippedAgents s ≠ [] := by
      intro e
      rw [e] at i1
      exact hag (by simpa using i1.symm)
    obtain ⟨u, us, hu⟩ : ∃ u us, strippedAgents s = u :: us := by
      cases hx : strippedAgents s with
      | nil => exact absurd hx hne
      | cons u us => exact ⟨u, us, rfl⟩
    have hlu := i3 u (by simp [hu])
    obtain ⟨w, _, hw⟩ : ∃ w ∈ rest.filter (fun t => ((t.states[10]?).map State.valid).getD false), blank w = u := by
      have : u ∈ strippedAgents s := by simp [hu]
      rw [hse] at this
      exact List.mem_map.1 this
    have hlw : w.states.length = n := by rw [← hlu, ← hw]; simp [blank]
    have hat : ∀ k, k < 11 → ∃ v, StateAt u k 0 v := by
      intro k hk
      rw [← hw]
      have : k < w.states.length := by omega
      exact ⟨_, ⟨fun _ => 0, if k = 10 then w.states[k].valid else false⟩, by simp [blank, this], rfl, rfl⟩
    obtain ⟨va, ha⟩ := hat 0 (by norm_num)
    obtain ⟨vb, hb⟩ := hat 1 (by norm_num)
    have hst := generateStates_eq (strippedAgents s) u (by simp [hu]) (by omega) init noise va vb 0 0 ha hb
    refine ⟨ofTracks (strippedAgents s), _, generateSizes (ofTracks (strippedAgents s)), (by rw [generate_eq h hn hag, hst]; rfl), ?_⟩
    · unfold Generated
      have : (strippedAgents s).length = (agents s).length := by simpa using congrArg List.length i1
      rw [this]
      simp
      intros; rfl

/-- The case exists: the first track has ended, the others drive far away. -/
example : ∃ (s : Scenario ℝ) (first : Track ℝ), Complete s 91 ∧ s.tracks[0]? = some first ∧ first.Now false ∧ agents s ≠ [] := by
  refine ⟨⟨[⟨3, 1, List.replicate 91 ⟨fun _ => 0, false⟩⟩, standing 4 1000], 1, []⟩, _, ⟨by simp, by norm_num, by simp [standing], by simp [standing]⟩, rfl,
    ⟨_, by simp; rfl, rfl⟩, ?_⟩
  simp [agents, standing]

/-! ### The packaging of generated scenarios -/

/-- The trajectory of a generated object: its type is not set. -/
def genSim (id : ℤ) (st : List S4) (sz : List S3) : Sim ℝ :=
  ⟨fun
    | .x => st.map fun p => p.1
    | .y => st.map fun p => p.2.1
    | .z => st.map fun p => p.2.2.1
    | .heading => st.map fun p => p.2.2.2
    | .length => sz.map fun p => p.1
    | .width => sz.map fun p => p.2.1
    | .height => sz.map fun p => p.2.2, [], id, 0⟩

/-- **C197**: a scene has one trajectory per id, with the states and sizes of the same row. -/
theorem genSceneOf_spec (states : List (List S4)) (sizes : List (List S3)) (ids : List ℤ) (h : ids.length ≤ states.length)
    (h' : ids.length ≤ sizes.length) :
    genSceneOf states sizes ids = some ((ids.zip (states.zip sizes)).map fun c => genSim c.1 c.2.1 c.2.2) := by
  unfold genSceneOf
  apply forall₂_mapM
  rw [List.forall₂_iff_get]
  refine ⟨by simp; omega, ?_⟩
  intro i h1 h2
  have hi : i < ids.length := by simpa using h1
  have hi' : i < states.length := by omega
  have hi'' : i < sizes.length := by omega
  simp only [List.get_eq_getElem, List.getElem_range, List.getElem?_eq_getElem hi, List.getElem?_eq_getElem hi', List.getElem?_eq_getElem hi'',
    List.getElem_map, List.getElem_zip, Option.bind_eq_bind, Option.bind_some, Option.pure_def]
  rfl

theorem genRolloutsOf_spec (name : String) (states : List (List (List S4))) (sizes : List (List (List S3))) (ids : List ℤ)
    (hlen : states.length ≤ sizes.length) (h : ∀ st ∈ states, ids.length ≤ st.length) (h' : ∀ st ∈ sizes, ids.length ≤ st.length) :
    genRolloutsOf name states sizes ids = some ⟨some name, (states.zip sizes).map fun d =>
      (ids.zip (d.1.zip d.2)).map fun c => genSim c.1 c.2.1 c.2.2⟩ := by
  unfold genRolloutsOf
  have : ((List.range states.length).mapM fun (r : ℕ) => do
      let st ← states[r]?
      let sz ← sizes[r]?
      genSceneOf st sz ids) = some ((states.zip sizes).map fun d => (ids.zip (d.1.zip d.2)).map fun c => genSim c.1 c.2.1 c.2.2) := by
    apply forall₂_mapM
    rw [List.forall₂_iff_get]
    refine ⟨by simp; omega, ?_⟩
    intro i h1 h2
    have hi : i < states.length := by simpa using h1
    have hi' : i < sizes.length := by omega
    simp only [List.get_eq_getElem, List.getElem_range, List.getElem?_eq_getElem hi, List.getElem?_eq_getElem hi', List.getElem_map, List.getElem_zip,
      Option.bind_eq_bind, Option.bind_some]
    exact genSceneOf_spec _ _ _ (h _ (List.getElem_mem _)) (h' _ (List.getElem_mem _))
  rw [this]
  rfl

/-- **C197**: what is generated for a scenario whose first track is valid at the current step passes the validation. -/
theorem generate_valid {s : Scenario ℝ} {n : ℕ} (h : Complete s n) (hn : 10 < n) (adv : Track ℝ) (hadv : s.tracks[0]? = some adv)
    (hnow : adv.Now true) (init noise) (name : String) : ∃ t out sizes r, generate s init noise = some (t, out, sizes) ∧
      genRolloutsOf name out sizes t.id = some r ∧ validateRollouts r s .scenarioGen = some () ∧
      ∀ scene ∈ r.scenes, ∀ sim ∈ scene, (sim.num .length).length = n ∧ sim.type = 0 := by
  obtain ⟨t, out, sizes, a, b, va, vb, h1, _, _, h2, h3, h4⟩ := generate_partial h hn adv hadv hnow init noise
  have ho : ∀ st ∈ out, st.length = (agents s).length ∧ ∀ row ∈ st, row.length = 91 := by
    intro st hst
    rw [h2] at hst
    obtain ⟨r, _, rfl⟩ := List.mem_map.1 hst
    refine ⟨by simp, ?_⟩
    intro row hrow
    obtain ⟨i, _, rfl⟩ := List.mem_map.1 hrow
    simp
  have hz : ∀ st ∈ sizes, st.length = (agents s).length ∧ ∀ row ∈ st, row.length = n := by
    intro st hst
    rw [h4] at hst
    obtain rfl := List.eq_of_mem_replicate hst
    refine ⟨by simp, ?_⟩
    intro row hrow
    obtain ⟨i, _, rfl⟩ := List.mem_map.1 hrow
    simp
  have hout : out.length = 32 := by rw [h2]; simp
  have hsz : sizes.length = 32 := by rw [h4]; simp
  have hlen : t.id.length = (agents s).length := by rw [h3]; simp
  refine ⟨t, out, sizes, _, h1, genRolloutsOf_spec name out sizes t.id (by omega) (fun st hst => by rw [hlen, (ho st hst).1])
    (fun st hst => by rw [hlen, (hz st hst).1]), ?_, ?_⟩
  · rw [validateRollouts_spec]
    refine ⟨⟨name, rfl⟩, by simp [hout, hsz], ?_⟩
    intro scene hsc
    obtain ⟨d, hd, rfl⟩ := List.mem_map.1 hsc
    have hd1 := ho d.1 (List.of_mem_zip hd).1
    have hd2 := hz d.2 (List.of_mem_zip hd).2
    rw [validateScene_partial _ (fun t ht => by rw [h.len t ht]; exact hn)]
    constructor
    · intro sim hsim
      obtain ⟨c, hc, rfl⟩ := List.mem_map.1 hsim
      have := hd1.2 c.2.1 (List.of_mem_zip (List.of_mem_zip hc).2).1
      simp [genSim, this, Challenge.steps]
    · intro i
      have hid : ((t.id.zip (d.1.zip d.2)).map fun c => genSim c.1 c.2.1 c.2.2).map Sim.id = (agents s).map Track.id := by
        rw [List.map_map]
        have : (Sim.id ∘ fun c : ℤ × List S4 × List S3 => genSim c.1 c.2.1 c.2.2) = Prod.fst := by funext c; rfl
        rw [this, List.map_fst_zip, h3]
        simp [hlen, hd1.1, hd2.1]
      have : (∃ sim ∈ (t.id.zip (d.1.zip d.2)).map (fun c => genSim c.1 c.2.1 c.2.2), sim.id = i) ↔
          i ∈ ((t.id.zip (d.1.zip d.2)).map fun c => genSim c.1 c.2.1 c.2.2).map Sim.id := by
        simp only [List.mem_map]
      rw [this, hid, List.mem_map]
      constructor
      · rintro ⟨u, hu, e⟩
        exact ⟨u, ((agents_iff s u).1 hu).1, e, ((agents_iff s u).1 hu).2⟩
      · rintro ⟨u, hu, e, hnow⟩
        exact ⟨u, (agents_iff s u).2 ⟨hu, hnow⟩, e⟩
  · intro scene hsc sim hsim
    obtain ⟨d, hd, rfl⟩ := List.mem_map.1 hsc
    obtain ⟨c, hc, rfl⟩ := List.mem_map.1 hsim
    have hd2 := hz d.2 (List.of_mem_zip hd).2
    have := hd2.2 c.2.2 (List.of_mem_zip (List.of_mem_zip hc).2).2
    exact ⟨by simp [genSim, this], rfl⟩

/-- **C197 is violated**: the evaluation reads the types from the submission, and the packaging does not set them: every object that the tutorial
submits, whatever it is, has the unset type 0 there. -/
theorem types_violated (states : List (List S4)) (sizes : List (List S3)) (ids : List ℤ) (scene : List (Sim ℝ)) (s : Scenario ℝ) (t : Trajs ℝ)
    (h1 : genSceneOf states sizes ids = some scene) (h2 : genToTrajs scene s .scenarioGen = some t) : ∀ ty ∈ t.type, ty = 0 := by
  have h0 : ∀ sim ∈ scene, sim.type = 0 := by
    intro sim hsim
    have hf := mapM_forall₂ h1
    obtain ⟨i, hi, e⟩ := List.getElem_of_mem hsim
    have := (List.forall₂_iff_get.1 hf).2 i (by rw [hf.length_eq]; exact hi) hi
    simp only [List.get_eq_getElem, List.getElem_range, e, Option.bind_eq_bind, Option.bind_eq_some_iff, Option.pure_def, Option.some.injEq] at this
    obtain ⟨_, _, _, _, _, _, this⟩ := this
    rw [← this]
  unfold genToTrajs at h2
  simp only [Option.bind_eq_bind, Option.bind_eq_some_iff, Option.pure_def, Option.some.injEq] at h2
  obtain ⟨_, _, _, _, _, _, _, _, _, _, _, _, _, _, _, _, _, _, _, _, _, _, rfl⟩ := h2
  intro ty hty
  obtain ⟨sim, hsim, rfl⟩ := List.mem_map.1 hty
  exact h0 sim hsim

/-- **C197 is violated**: for a scenario of the test set, which ends at the current step, the sizes have 11 steps and the positions 91; the
validation does not notice. -/
theorem sizes_violated : ∃ (s : Scenario ℝ) (t : Trajs ℝ) (out : List (List (List S4))) (sizes : List (List (List S3))) (r : Rollouts ℝ),
    Complete s 11 ∧ generate s (fun _ _ => 0) (fun _ _ _ => 0) = some (t, out, sizes) ∧ genRolloutsOf "a" out sizes t.id = some r ∧
    validateRollouts r s .scenarioGen = some () ∧ ∃ scene ∈ r.scenes, ∃ sim ∈ scene, (sim.num .x).length = 91 ∧ (sim.num .length).length = 11 := by
  obtain ⟨t, out, sizes, r, h1, h2, h3, h4⟩ := generate_valid backStreet_complete (by norm_num) (backTrack 1 0) rfl
    ⟨⟨fun f => if f = .x then 0 * ((10 : ℕ) : ℝ) else 0, true⟩, by simp [backTrack], rfl⟩ (fun _ _ => 0) (fun _ _ _ => 0) "a"
  refine ⟨backStreet, t, out, sizes, r, backStreet_complete, h1, h2, h3, ?_⟩
  obtain ⟨_, h32, hv⟩ := (validateRollouts_spec r backStreet .scenarioGen).1 h3
  have hpos : 0 < r.scenes.length := by omega
  have hm : r.scenes[0] ∈ r.scenes := List.getElem_mem hpos
  have hval := (validateScene_partial r.scenes[0] (s := backStreet) (by simp [backStreet, backTrack]) .scenarioGen).1 (hv _ hm)
  obtain ⟨sim, hs1, hs2⟩ := (hval.2 1).2 ⟨backTrack 1 0, by simp [backStreet], rfl,
    ⟨⟨fun f => if f = .x then 0 * ((10 : ℕ) : ℝ) else 0, true⟩, by simp [backTrack], rfl⟩⟩
  exact ⟨_, hm, sim, hs1, (hval.1 sim hs1).1, (h4 _ hm sim hs1).1⟩

end Verif.SimTutorial
