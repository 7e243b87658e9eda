import Verif.Props.OpsMotionRun
import Std.Data.String.ToNat
import Mathlib.Data.List.Nodup

/-!
C126: predictions for agents without a valid step, and the reads of the identifiers.
C128: the variables of motion_metrics.py, the default identifiers and the assertions about the shapes.
Concrete cases of C125 to C128.
-/

namespace Verif.OpsMotion

open Verif.Motion

/-! ### Agents without a valid step -/

/-- C126: a selected prediction for an agent without a valid step counts as one for the first track of the scenario, and
stops the operation if there is none. -/
theorem unseen_agent {d : Dims} {e : Elem} (ts : List Track) {m n : ℕ} (h0 : 0 ≤ e.idx m n) (h1 : e.idx m n < d.total)
    (hs : ¬ Seen d e (e.idx m n).toNat) :
    let st := (List.range d.total).foldl (addTrack d e) (ts, [])
    findTrack d e st.1 st.2 m n = if ts ++ agentTracks d e = [] then none else some 0 := by
  intro st
  obtain ⟨a, b⟩ := tracks_fold d e ts d.total
  have a' : st.1 = ts ++ agentTracks d e := a
  unfold findTrack
  rw [if_neg (by omega)]
  have hb : trackIndex st.2 (e.idx m n).toNat = 0 := by
    have := b (e.idx m n).toNat
    rw [if_neg fun h => hs h.2] at this
    exact this
  simp only [hb, a']
  by_cases hnil : ts ++ agentTracks d e = []
  · rw [if_pos hnil, hnil]; simp
  · rw [if_neg hnil, if_pos (List.length_pos_iff.mpr hnil)]

/-- What a user relies on: the predicted trajectories carry the identifiers of agents that they were selected for. -/
def AgentStatement : Prop :=
  ∀ (d : Dims) (es : List Elem), (∀ e ∈ es, InRange d e) → ∀ r, parse d es = some r → ∀ x ∈ r, ∀ mm ∈ x.2.preds.multis,
    ∀ j ∈ mm, ∀ t ∈ j.trajs, ∃ e ∈ es, ∃ m < d.groups, ∃ n < d.agents, e.mask m n = true ∧ t.id = e.id (e.idx m n).toNat

/-- C126, partial: so it is if the selected agents have valid steps.  The full statement would need no such restriction;
see `agent_violated`. -/
theorem agent_partial (d : Dims) (es : List Elem) (h : ∀ e ∈ es, WellPointed d e) : ∀ r, parse d es = some r → ∀ x ∈ r,
    ∀ mm ∈ x.2.preds.multis, ∀ j ∈ mm, ∀ t ∈ j.trajs,
    ∃ e ∈ es, ∃ m < d.groups, ∃ n < d.agents, e.mask m n = true ∧ t.id = e.id (e.idx m n).toNat := by
  intro r hr x hx mm hmm j hj t ht
  obtain ⟨r', a, _, _, f⟩ := parse_spec d es h
  rw [hr] at a
  cases a
  rw [(f x.1 x.2 hx).2] at hmm
  obtain ⟨e, he, hq⟩ := List.mem_flatMap.mp hmm
  obtain ⟨m, hm, _, rfl⟩ := elemMultis_mem.mp hq
  obtain ⟨k, _, rfl⟩ := List.mem_map.mp hj
  obtain ⟨n, hn, rfl⟩ := List.mem_map.mp ht
  obtain ⟨hn1, hn2⟩ := List.mem_filter.mp hn
  exact ⟨e, List.mem_of_mem_filter he, m, hm, n, List.mem_range.mp hn1, hn2, rfl⟩

/-! ### Examples -/

/-- One group of one agent with one prediction of two steps; two agents with three steps. -/
def demoDims (batch : ℕ) : Dims := ⟨batch, 1, 1, 1, 2, 2, 3⟩

/-- The tensors of this size. -/
def demoShapes (batch : ℕ) : Shapes :=
  ⟨[batch, 1, 1, 1, 2, 2], [batch, 1, 1], [batch, 2, 3, 7], [batch, 2, 3], [batch, 1, 1], [batch, 1, 1], [batch, 2],
    [batch, 2], [batch]⟩

/-- An element whose first agent is never valid and whose second agent is a cyclist; the prediction is for agent `idx`,
the agents are called `first` and `first + 1`, and the second one stands at `place`. -/
noncomputable def demoElem (scenario : String) (idx first : ℤ) (place : ℝ) : Elem where
  traj := fun _ _ _ t => (t, 0)
  score := fun _ _ => 1
  state := fun j t => ⟨place + t, 0, 0, 1, 0, 2, 1, decide (j = 1)⟩
  idx := fun _ _ => idx
  mask := fun _ _ => true
  type := fun j => if j = 1 then .cyclist else .vehicle
  id := fun j => first + j
  scenario := scenario

theorem demo_dims (batch : ℕ) : dims (demoShapes batch) = some (demoDims batch) := by
  unfold dims demoShapes demoDims
  simp

theorem demo_seen (b : ℕ) (s : String) (i f : ℤ) (p : ℝ) (j : ℕ) : Seen (demoDims b) (demoElem s i f p) j ↔ j = 1 := by
  unfold Seen demoElem demoDims
  constructor
  · rintro ⟨t, _, h⟩; simpa using h
  · rintro rfl; exact ⟨0, by simp, by simp⟩

/-- The hypotheses of `parse_spec`, `scenario_evaluates` and `op_order` are met. -/
theorem demo_wellPointed (b : ℕ) (s : String) (f : ℤ) (p : ℝ) : WellPointed (demoDims b) (demoElem s 1 f p) := by
  intro m _ n _ _
  exact ⟨by simp [demoElem], by simp [demoElem, demoDims], (demo_seen b s 1 f p _).mpr rfl⟩

theorem demo_fits (b : ℕ) : Fits exampleCfg (demoDims b) := by
  refine ⟨rfl, by decide, by decide, by decide, by decide, ⟨?_, ?_, ?_⟩, ?_, rfl, rfl, Nat.one_pos⟩
  · norm_num [exampleCfg]
  · norm_num [exampleCfg]
  · norm_num [exampleCfg]
  · intro sc hsc
    simp only [exampleCfg, List.mem_singleton] at hsc
    subst hsc
    decide

theorem demo_scores (b : ℕ) (s : String) (i f : ℤ) (p : ℝ) : ScoresOk (demoDims b) (demoElem s i f p) :=
  fun _ _ _ _ => zero_le_one

/-- The track of the second agent. -/
noncomputable def demoTrack (f : ℤ) (p : ℝ) : Track :=
  ⟨f + 1, .cyclist, [⟨p + (0 : ℕ), 0, 0, 1, 0, 2, 1, true⟩, ⟨p + (1 : ℕ), 0, 0, 1, 0, 2, 1, true⟩, ⟨p + (2 : ℕ), 0, 0, 1, 0, 2, 1, true⟩]⟩

theorem demo_tracks (b : ℕ) (s : String) (i f : ℤ) (p : ℝ) :
    agentTracks (demoDims b) (demoElem s i f p) = [demoTrack f p] := by
  unfold agentTracks
  have : ((List.range (demoDims b).total).filter fun j => decide (Seen (demoDims b) (demoElem s i f p) j)) = [1] := by
    simp only [demo_seen]
    rfl
  rw [this]
  simp [demoDims, demoElem, demoTrack, List.range_succ]

/-- C125: the scenario of such an element has the track of the cyclist only, as its required track. -/
theorem demo_scenario (b : ℕ) : ∃ x, parse (demoDims b) [demoElem "a" 1 7 0] = some [("a", x)] ∧
    x.scenario = ⟨"a", [demoTrack 7 0], [0]⟩ ∧ x.preds = ⟨"a", [[⟨1, [⟨8, [0, 1], [0, 0]⟩]⟩]]⟩ := by
  obtain ⟨r, h1, h2, h3⟩ := parse_distinct (demoDims b) [demoElem "a" 1 7 0]
    (by intro e he; simp only [List.mem_singleton] at he; subst he; exact demo_wellPointed b _ _ _) (by simp)
  match r, h2 with
  | [(id, x)], _ =>
    obtain ⟨e, he, hid, h4, h5⟩ := h3 id x (by simp)
    simp only [List.mem_singleton] at he
    subst he
    have : id = "a" := hid.symm
    subst this
    refine ⟨x, h1, ?_, ?_⟩
    · rw [h4, demo_tracks]
      have hr : rank (demoDims b) (demoElem "a" 1 7 0) 1 = 0 := by
        unfold rank
        simp only [demo_seen]
        rfl
      have hidx : (demoElem "a" 1 7 0).idx 0 0 = 1 := rfl
      have : elemRequired (demoDims b) (demoElem "a" 1 7 0) 0 = [0] := by
        show [((0 + rank (demoDims b) (demoElem "a" 1 7 0) 1 : ℕ) : ℤ)] = [0]
        rw [hr]
        rfl
      rw [this]
    · rw [h5]
      have : elemMultis (demoDims b) (demoElem "a" 1 7 0) = [[⟨1, [⟨8, [0, 1], [0, 0]⟩]⟩]] := by
        unfold elemMultis
        have hf : ((List.range (demoDims b).groups).filter fun m =>
            decide (∃ n, n < (demoDims b).agents ∧ (demoElem "a" 1 7 0).mask m n = true)) = [0] := by
          have : ∀ m, decide (∃ n, n < (demoDims b).agents ∧ (demoElem "a" 1 7 0).mask m n = true) = true := by
            intro m; exact decide_eq_true ⟨0, Nat.one_pos, rfl⟩
          simp only [this]
          rfl
        rw [hf]
        have hm : members (demoDims b) (demoElem "a" 1 7 0) 0 = [0] := rfl
        simp only [List.map_cons, List.map_nil, hm]
        simp [demoDims, demoElem, List.range_succ]
      rw [this]

/-- C126 is violated: the prediction for the agent 7, which has no valid step, is taken as one for the agent 8. -/
theorem agent_violated : ¬ AgentStatement := by
  intro h
  have hfold : (List.range (demoDims 1).total).foldl (addTrack (demoDims 1) (demoElem "a" 0 7 0)) ([], []) =
      ([demoTrack 7 0], [(1, 0)]) := by
    have h0 : trajectoryIsValid (demoDims 1) (demoElem "a" 0 7 0) 0 = false := by
      rw [Bool.eq_false_iff]; intro hq; have := (demo_seen 1 "a" 0 7 0 0).mp ((valid_iff _ _ _).mp hq); omega
    have h1 : trajectoryIsValid (demoDims 1) (demoElem "a" 0 7 0) 1 = true :=
      (valid_iff _ _ _).mpr ((demo_seen 1 "a" 0 7 0 1).mpr rfl)
    have hr : List.range (demoDims 1).total = [0, 1] := rfl
    rw [hr, List.foldl_cons, List.foldl_cons, List.foldl_nil]
    unfold addTrack
    rw [h0, h1]
    simp [newTrack, demoDims, demoElem, demoTrack, List.range_succ]
  have hfind : findTrack (demoDims 1) (demoElem "a" 0 7 0) [demoTrack 7 0] [(1, 0)] 0 0 = some 0 := rfl
  have hsel : selected (demoDims 1) (demoElem "a" 0 7 0) 0 = [0] := rfl
  have hreq : addRequired (demoDims 1) (demoElem "a" 0 7 0) [demoTrack 7 0] [(1, 0)] = some [0] := rfl
  have hmul : addMultis (demoDims 1) (demoElem "a" 0 7 0) [demoTrack 7 0] [(1, 0)] =
      some [[⟨1, [⟨8, [((0 : ℕ) : ℝ), ((1 : ℕ) : ℝ)], [0, 0]⟩]⟩]] := rfl
  have hp : parse (demoDims 1) [demoElem "a" 0 7 0] = some [("a", ⟨⟨"a", [demoTrack 7 0], [0]⟩,
      ⟨"a", [[⟨1, [⟨8, [((0 : ℕ) : ℝ), ((1 : ℕ) : ℝ)], [0, 0]⟩]⟩]]⟩, [(0, 8)]⟩)] := by
    have he : parseElem (demoDims 1) 0 (demoElem "a" 0 7 0) (Entry.fresh "a") = some ⟨⟨"a", [demoTrack 7 0], [0]⟩,
        ⟨"a", [[⟨1, [⟨8, [((0 : ℕ) : ℝ), ((1 : ℕ) : ℝ)], [0, 0]⟩]⟩]]⟩, [(0, 8)]⟩ := by
      unfold parseElem
      have : (Entry.fresh "a").scenario.tracks = [] := rfl
      rw [this, hfold]
      simp only [hreq, hmul]
      rfl
    unfold parse
    have hz : [demoElem "a" 0 7 0].zipIdx = [(demoElem "a" 0 7 0, 0)] := rfl
    have hg : Results.get [] (demoElem "a" 0 7 0).scenario = Entry.fresh "a" := rfl
    rw [hz, List.foldlM_cons]
    simp only [hg, he, Option.bind_eq_bind, Option.bind_some, Option.pure_def, List.foldlM_nil]
    rfl
  obtain ⟨e, he, m, _, n, _, _, hq⟩ := h (demoDims 1) [demoElem "a" 0 7 0] (by
    intro e he
    simp only [List.mem_singleton] at he
    subst he
    intro m _ n _ _
    exact ⟨by simp [demoElem], by simp [demoElem, demoDims]⟩) _ hp _ (List.mem_singleton.mpr rfl) _
    (List.mem_singleton.mpr rfl) _ (List.mem_singleton.mpr rfl) _ (List.mem_singleton.mpr rfl)
  simp only [List.mem_singleton] at he
  subst he
  simp [demoElem] at hq

/-- What a user relies on: the operation reads its tensors inside of their bounds, whatever the identifiers. -/
def ReadsStatement : Prop :=
  ∀ (d : Dims) (es : List Elem), (∀ e ∈ es, WellPointed d e) → ∀ r, parse d es = some r → ReadsInside d es r

/-- C126 is violated: with the identifiers 1000 and 1001 of two agents, the element 1001 of a row of two is read. -/
theorem reads_violated : ¬ ReadsStatement := by
  intro h
  have hw : ∀ e ∈ [demoElem "a" 1 1000 0], WellPointed (demoDims 1) e := by
    intro e he; simp only [List.mem_singleton] at he; subst he; exact demo_wellPointed _ _ _ _
  obtain ⟨r, hr, hiff⟩ := reads_inside_iff (demoDims 1) [demoElem "a" 1 1000 0] hw
  have := hiff.mp (h _ _ hw r hr) _ (List.mem_singleton.mpr rfl) 0 (by decide) 0 (by decide) rfl
  simp [demoElem, demoDims] at this

/-! ### motion_metrics.py -/

/-- C128: the default object identifiers are safe to read. -/
theorem default_objects_safe (d : Dims) (es : List Elem) (h : ∀ e ∈ defaultObjects es, WellPointed d e) :
    ∃ r, parse d (defaultObjects es) = some r ∧ ReadsInside d (defaultObjects es) r := by
  obtain ⟨r, hr, hiff⟩ := reads_inside_iff d _ h
  refine ⟨r, hr, hiff.mpr ?_⟩
  intro e he m hm n hn hs
  obtain ⟨h0, h1, _⟩ := h e he m hm n hn hs
  obtain ⟨e', _, rfl⟩ := List.mem_map.mp he
  simp only at h0 h1 ⊢
  omega

/-- C128: within one update, the default scenario identifiers are different. -/
theorem default_scenarios_nodup (es : List Elem) : ((defaultScenarios es).map (·.scenario)).Nodup := by
  unfold defaultScenarios
  rw [List.map_map]
  have : (es.zipIdx.map ((fun x : Elem => x.scenario) ∘ fun e => { e.1 with scenario := toString e.2 })) =
      (List.range es.length).map toString := by
    have h2 : List.range es.length = es.zipIdx.map Prod.snd := by rw [List.zipIdx_map_snd, List.range_eq_range']
    rw [h2, List.map_map]
    rfl
  rw [this]
  exact List.nodup_range.map fun a b hab => Nat.repr_injective hab

/-- C128: updates with identifiers that are different everywhere give the same rows in every order of the updates, for
every way to cut the elements into updates, and in every schedule. -/
theorem updates_order {c : Cfg} {overlaps : Box → Box → Bool} {s : Shapes} {d : Dims} (hd : dims s = some d)
    (hf : Fits c d) {bs bs' : List (List Elem)} (hp : (stored bs).Perm (stored bs'))
    (hw : ∀ b ∈ bs, ∀ e ∈ b, WellPointed d e ∧ ScoresOk d e) (hn : ((stored bs).map (·.scenario)).Nodup) :
    ∃ rows, ∀ view view' : Results → Results, (∀ r, (view r).Perm r) → (∀ r, (view' r).Perm r) → ∀ order order' : List ℕ,
      order.Perm (List.range (stored bs).length) → order'.Perm (List.range (stored bs).length) →
      motionOp overlaps c view order s (stored bs) = some rows ∧
      motionOp overlaps c view' order' s (stored bs') = some rows := by
  have hmem : ∀ e ∈ stored bs, WellPointed d e ∧ ScoresOk d e := by
    intro e he
    obtain ⟨b, hb, h⟩ := List.mem_flatten.mp he
    exact hw b hb e h
  obtain ⟨n, rows, hn', h⟩ := op_order (overlaps := overlaps) hd hf hp (fun e he => (hmem e he).1)
    (fun e he => (hmem e he).2) hn
  subst hn'
  exact ⟨rows, h⟩

/-- What a user relies on: without identifiers, every element of every update is a scenario of its own. -/
def DefaultStatement : Prop :=
  ∀ (d : Dims) (bs : List (List Elem)),
    (∀ b ∈ bs, ∀ e ∈ b, WellPointed d e) → ∀ r, parse d (stored (bs.map fun b => defaultScenarios (defaultObjects b))) = some r →
    r.length = (stored bs).length

/-- C128, partial: so it is for one update.  The full statement would need no such restriction; see `default_violated`. -/
theorem default_partial (d : Dims) (b : List Elem) (h : ∀ e ∈ b, WellPointed d e) : ∃ r,
    parse d (stored [defaultScenarios (defaultObjects b)]) = some r ∧ r.length = b.length := by
  have hst : stored [defaultScenarios (defaultObjects b)] = defaultScenarios (defaultObjects b) := by simp [stored]
  rw [hst]
  obtain ⟨r, h1, h2, _⟩ := parse_distinct d (defaultScenarios (defaultObjects b)) (by
    intro e he
    obtain ⟨⟨x, i⟩, hx, rfl⟩ := List.mem_map.mp he
    have hx' := List.mem_iff_getElem?.mpr ⟨i, List.mem_zipIdx_iff_getElem?.mp hx⟩
    obtain ⟨y, hy, rfl⟩ := List.mem_map.mp hx'
    exact h y hy) (default_scenarios_nodup _)
  exact ⟨r, h1, by rw [h2]; simp [defaultScenarios, defaultObjects]⟩

/-- The two updates of the example: the cyclist stands at 0 in the first one and at 100 in the second one. -/
noncomputable def demoUpdates : List (List Elem) := [[demoElem "x" 1 7 0], [demoElem "y" 1 7 100]]

theorem demo_defaults : stored (demoUpdates.map fun b => defaultScenarios (defaultObjects b)) =
    [demoElem "0" 1 0 0, demoElem "0" 1 0 100] := by
  simp [demoUpdates, stored, defaultScenarios, defaultObjects, demoElem]
  rfl

/-- C128 is violated: the first elements of two updates become one scenario. -/
theorem default_violated : ¬ DefaultStatement := by
  intro h
  have hw : ∀ e ∈ stored (demoUpdates.map fun b => defaultScenarios (defaultObjects b)), WellPointed (demoDims 2) e := by
    rw [demo_defaults]
    intro e he
    simp only [List.mem_cons, List.not_mem_nil, or_false] at he
    rcases he with rfl | rfl <;> exact demo_wellPointed _ _ _ _
  obtain ⟨r, a, b, c, _⟩ := parse_spec (demoDims 2) _ hw
  have hl := h (demoDims 2) demoUpdates (by
    intro b hb e he
    simp only [demoUpdates, List.mem_cons, List.not_mem_nil, or_false] at hb
    rcases hb with rfl | rfl <;> (simp only [List.mem_singleton] at he; subst he; exact demo_wellPointed _ _ _ _)) r a
  have hk : r.keys.Perm ["0"] := by
    rw [List.perm_ext_iff_of_nodup b (by simp)]
    intro id
    rw [c, demo_defaults]
    simp [demoElem, eq_comm]
  have := hk.length_eq
  simp only [Results.keys, List.length_map, List.length_singleton] at this
  rw [this] at hl
  simp [stored, demoUpdates] at hl

/-- C128 is violated: both predictions are compared with the track of the second update. -/
theorem default_wrong_track : ∃ r x, parse (demoDims 2)
      (stored (demoUpdates.map fun b => defaultScenarios (defaultObjects b))) = some r ∧ ("0", x) ∈ r ∧
    x.scenario.tracks = [demoTrack 0 0, demoTrack 0 100] ∧ x.scenario.toPredict = [0, 1] ∧
    requiredTracks x.scenario = [(1, demoTrack 0 100)] := by
  have hw : ∀ e ∈ stored (demoUpdates.map fun b => defaultScenarios (defaultObjects b)), WellPointed (demoDims 2) e := by
    rw [demo_defaults]
    intro e he
    simp only [List.mem_cons, List.not_mem_nil, or_false] at he
    rcases he with rfl | rfl <;> exact demo_wellPointed _ _ _ _
  obtain ⟨r, a, b, c, f⟩ := parse_spec (demoDims 2) _ hw
  have hk : "0" ∈ r.keys := (c _).mpr ⟨demoElem "0" 1 0 0, by rw [demo_defaults]; simp, rfl⟩
  obtain ⟨⟨id, x⟩, hx, hid⟩ := List.mem_map.mp hk
  simp only at hid
  subst hid
  have hs := (f _ x hx).1
  have hof : ofScenario "0" (stored (demoUpdates.map fun b => defaultScenarios (defaultObjects b))) =
      [demoElem "0" 1 0 0, demoElem "0" 1 0 100] := by
    rw [demo_defaults]
    simp [ofScenario, demoElem]
  rw [hof] at hs
  have hr : ∀ p, rank (demoDims 2) (demoElem "0" 1 0 p) 1 = 0 := by
    intro p
    unfold rank
    simp only [demo_seen]
    rfl
  have hreq : ∀ p off, elemRequired (demoDims 2) (demoElem "0" 1 0 p) off = [(off : ℤ)] := by
    intro p off
    show [((off + rank (demoDims 2) (demoElem "0" 1 0 p) 1 : ℕ) : ℤ)] = _
    rw [hr]
    rfl
  have hsc : x.scenario = ⟨"0", [demoTrack 0 0, demoTrack 0 100], [0, 1]⟩ := by
    rw [hs]
    simp [scenarioOf, requiredFrom, hreq, demo_tracks]
  refine ⟨r, x, a, hx, ?_, ?_, ?_⟩
  · rw [hsc]
  · rw [hsc]
  · rw [hsc]; rfl

/-- C128: the assertions allow only as many agents in the ground truth as in a group. -/
theorem assertions_square {s : Shapes} {d : Dims} (h : assertions s = true) (hd : dims s = some d) : d.total = d.agents := by
  obtain ⟨⟨w, h1⟩, h2, h3, h4, h5, h6, h7, h8, _⟩ := (dims_iff s d).mp hd
  unfold assertions at h
  rw [h1, h2, h3, h4, h5, h6, h7, h8] at h
  simp only [decide_eq_true_eq] at h
  omega

/-- What a user relies on: the Python function takes the shapes that the operation is documented for. -/
def ShapesStatement : Prop :=
  ∀ (s : Shapes) (d : Dims), dims s = some d → s.traj = [d.batch, d.groups, d.topK, d.agents, d.predSteps, 2] →
    assertions s = true

/-- C128, partial: so it is if a group has as many agents as the ground truth.  The full statement would need no such
restriction; see `shapes_violated`. -/
theorem shapes_partial (s : Shapes) (d : Dims) (hd : dims s = some d)
    (h2 : s.traj = [d.batch, d.groups, d.topK, d.agents, d.predSteps, 2]) (ha : d.total = d.agents) :
    assertions s = true := by
  obtain ⟨_, h2', h3, h4, h5, h6, h7, h8, _⟩ := (dims_iff s d).mp hd
  unfold assertions
  rw [h2, h2', h3, h4, h5, h6, h7, h8]
  simp [ha]

/-- C128 is violated: single predictions in a scene of two agents. -/
theorem shapes_violated : ¬ ShapesStatement := by
  intro h
  have := assertions_square (h (demoShapes 1) (demoDims 1) (demo_dims 1) rfl) (demo_dims 1)
  exact absurd this (by decide)

/-- C127: two scenarios are evaluated, with the same rows in two orders of the batch, of the hash map and of the tasks. -/
theorem demo_rows (overlaps : Box → Box → Bool) : ∃ rows,
    motionOp overlaps exampleCfg id [1, 0] (demoShapes 2) [demoElem "a" 1 7 0, demoElem "b" 1 7 100] = some rows ∧
    motionOp overlaps exampleCfg List.reverse [0, 1] (demoShapes 2) [demoElem "b" 1 7 100, demoElem "a" 1 7 0] = some rows := by
  obtain ⟨n, rows, hn, h⟩ := op_order (overlaps := overlaps) (demo_dims 2) (demo_fits 2)
    (es := [demoElem "a" 1 7 0, demoElem "b" 1 7 100]) (List.Perm.swap _ _ _) (by
      intro e he
      simp only [List.mem_cons, List.not_mem_nil, or_false] at he
      rcases he with rfl | rfl <;> exact demo_wellPointed _ _ _ _) (by
      intro e he
      simp only [List.mem_cons, List.not_mem_nil, or_false] at he
      rcases he with rfl | rfl <;> exact demo_scores _ _ _ _ _) (by simp [demoElem])
  subst hn
  exact ⟨rows, h id List.reverse (fun r => List.Perm.refl _) (fun r => List.reverse_perm r) [1, 0] [0, 1]
    (List.Perm.swap _ _ _) (List.Perm.refl _)⟩

end Verif.OpsMotion
