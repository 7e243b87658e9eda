import Verif.Model.SimAgents
import Verif.Lemmas.ListM
import Mathlib.Tactic.Linarith

/-! C46, C47, C48: gathering by id, validation of submissions, and conversions between scenarios and submissions. -/

namespace Verif.SimAgents

/-! ### C46 -/

theorem indicator_sum (l : List ℤ) (r : ℤ) : (l.map fun t => if t = r then 1 else 0).sum = l.count r := by
  induction l with
  | nil => rfl
  | cons a l ih =>
    rw [List.map_cons, List.sum_cons, ih, List.count_cons]
    by_cases h : a = r <;> simp [h, add_comm]

theorem indicator_zero (l : List ℤ) (r : ℤ) (h : r ∉ l) : ∀ s, (List.zipWith (· * ·) (l.map fun t => if t = r then 1 else 0)
    (List.range' s l.length)).sum = 0 := by
  induction l with
  | nil => intro s; rfl
  | cons a l ih =>
    intro s
    simp only [List.mem_cons, not_or] at h
    simp only [List.map_cons, List.length_cons, List.range'_succ, List.zipWith_cons_cons, List.sum_cons]
    rw [ih h.2, if_neg (Ne.symm h.1)]
    simp

theorem indicator_idx (l : List ℤ) (r : ℤ) (h : l.count r = 1) : ∀ s, (List.zipWith (· * ·) (l.map fun t => if t = r then 1 else 0)
    (List.range' s l.length)).sum = s + l.idxOf r := by
  induction l with
  | nil => simp at h
  | cons a l ih =>
    intro s
    simp only [List.map_cons, List.length_cons, List.range'_succ, List.zipWith_cons_cons, List.sum_cons]
    by_cases e : a = r
    · subst e
      rw [List.count_cons_self] at h
      rw [indicator_zero l a (List.count_eq_zero.1 (by omega))]
      simp
    · rw [List.count_cons_of_ne e] at h
      rw [ih h, if_neg e, List.idxOf_cons_ne _ e]
      simp; omega

/-- `_arg_gather` succeeds exactly if each reference occurs exactly once, and returns its position. -/
theorem argGather_iff (tensor reference : List ℤ) (idx : List ℕ) :
    argGather tensor reference = some idx ↔ (∀ r ∈ reference, tensor.count r = 1) ∧ idx = reference.map fun r => tensor.idxOf r := by
  unfold argGather
  simp only [List.any_map, Function.comp_def, indicator_sum, List.map_map]
  by_cases h1 : ∃ r ∈ reference, tensor.count r < 1
  · have : (reference.any fun r => decide (tensor.count r < 1)) = true := by
      rw [List.any_eq_true]; obtain ⟨r, hr, h⟩ := h1; exact ⟨r, hr, by simpa using h⟩
    rw [if_pos this]
    simp only [reduceCtorEq, false_iff, not_and]
    intro h
    obtain ⟨r, hr, h'⟩ := h1
    have := h r hr
    omega
  have n1 : ¬ (reference.any fun r => decide (tensor.count r < 1)) = true := by
    rw [List.any_eq_true]; rintro ⟨r, hr, h⟩; exact h1 ⟨r, hr, by simpa using h⟩
  rw [if_neg n1]
  by_cases h2 : ∃ r ∈ reference, tensor.count r > 1
  · have : (reference.any fun r => decide (tensor.count r > 1)) = true := by
      rw [List.any_eq_true]; obtain ⟨r, hr, h⟩ := h2; exact ⟨r, hr, by simpa using h⟩
    rw [if_pos this]
    simp only [reduceCtorEq, false_iff, not_and]
    intro h
    obtain ⟨r, hr, h'⟩ := h2
    have := h r hr
    omega
  have n2 : ¬ (reference.any fun r => decide (tensor.count r > 1)) = true := by
    rw [List.any_eq_true]; rintro ⟨r, hr, h⟩; exact h2 ⟨r, hr, by simpa using h⟩
  rw [if_neg n2]
  have hone : ∀ r ∈ reference, tensor.count r = 1 := by
    intro r hr
    have a : ¬ tensor.count r < 1 := fun h => h1 ⟨r, hr, h⟩
    have b : ¬ tensor.count r > 1 := fun h => h2 ⟨r, hr, h⟩
    omega
  have hmap : (reference.map fun r => (List.zipWith (· * ·) (tensor.map fun t => if t = r then 1 else 0) (List.range tensor.length)).sum) =
      reference.map fun r => tensor.idxOf r := by
    apply List.map_congr_left
    intro r hr
    rw [List.range_eq_range', indicator_idx _ _ (hone r hr), zero_add]
  rw [hmap, Option.some.injEq]
  exact ⟨fun h => ⟨hone, h.symm⟩, fun h => h.2.symm⟩

/-- All tensors have one row for each object. -/
structure Trajs.WF {α : Type} (t : Trajs α) : Prop where
  num : ∀ f, (t.num f).length = t.id.length
  valid : t.valid.length = t.id.length
  type : t.type.length = t.id.length

theorem gather_iff {β : Type} (l : List β) (idx : List ℕ) (r : List β) :
    gather l idx = some r ↔ List.Forall₂ (fun (i : ℕ) b => l[i]? = some b) idx r := ListM.mapM_some_iff

theorem gather_total {β : Type} {l : List β} {idx : List ℕ} (h : ∀ i ∈ idx, i < l.length) : ∃ r, gather l idx = some r := by
  unfold gather
  induction idx with
  | nil => exact ⟨[], rfl⟩
  | cons a idx ih =>
    obtain ⟨r, hr⟩ := ih fun i hi => h i (by simp [hi])
    exact ⟨l[a]'(h a (by simp)) :: r, by simp [List.mapM_cons, hr, List.getElem?_eq_getElem (h a (by simp))]⟩

theorem gather_get {β : Type} {l : List β} {idx : List ℕ} {r : List β} (h : gather l idx = some r) {k j : ℕ} (hk : idx[k]? = some j) :
    r[k]? = l[j]? := by
  rw [gather_iff] at h
  induction h generalizing k with
  | nil => simp at hk
  | cons h _ ih =>
    cases k with
    | zero =>
      simp only [List.getElem?_cons_zero, Option.some.injEq] at hk ⊢
      rw [← hk, h]
    | succ k =>
      rw [List.getElem?_cons_succ] at hk ⊢
      exact ih hk

/-- C46: gathering by ids succeeds exactly if each id requested belongs to exactly one object; the result has the ids requested in their order,
and every row is the one of the object with the id. -/
theorem gatherById_spec {α : Type} {t : Trajs α} (hwf : t.WF) (ids : List ℤ) :
    ((∃ r, gatherById t ids = some r) ↔ ∀ i ∈ ids, t.id.count i = 1) ∧
    ∀ r, gatherById t ids = some r → r.id = ids ∧ r.WF ∧ ∀ (k : ℕ) (i : ℤ), ids[k]? = some i → ∃ j : ℕ, t.id[j]? = some i ∧
      (∀ f, (r.num f)[k]? = (t.num f)[j]?) ∧ r.valid[k]? = t.valid[j]? ∧ r.type[k]? = t.type[j]? := by
  have hsucc : ∀ idx : List ℕ, (∀ i ∈ idx, i < t.id.length) → ∃ r, gatherObjects t idx = some r := by
    intro idx hidx
    obtain ⟨a, ha⟩ := gather_total (l := t.num .x) (idx := idx) (by rwa [hwf.num])
    obtain ⟨b, hb⟩ := gather_total (l := t.num .y) (idx := idx) (by rwa [hwf.num])
    obtain ⟨c, hc⟩ := gather_total (l := t.num .z) (idx := idx) (by rwa [hwf.num])
    obtain ⟨d, hd⟩ := gather_total (l := t.num .heading) (idx := idx) (by rwa [hwf.num])
    obtain ⟨e, he⟩ := gather_total (l := t.num .length) (idx := idx) (by rwa [hwf.num])
    obtain ⟨f, hf⟩ := gather_total (l := t.num .width) (idx := idx) (by rwa [hwf.num])
    obtain ⟨g, hg⟩ := gather_total (l := t.num .height) (idx := idx) (by rwa [hwf.num])
    obtain ⟨h, hh⟩ := gather_total (l := t.valid) (idx := idx) (by rwa [hwf.valid])
    obtain ⟨i, hi⟩ := gather_total (l := t.id) (idx := idx) hidx
    obtain ⟨j, hj⟩ := gather_total (l := t.type) (idx := idx) (by rwa [hwf.type])
    exact ⟨_, by simp [gatherObjects, gatherNum, ha, hb, hc, hd, he, hf, hg, hh, hi, hj]; rfl⟩
  constructor
  · constructor
    · rintro ⟨r, hr⟩
      unfold gatherById at hr
      cases h : argGather t.id ids with
      | none => simp [h] at hr
      | some idx => exact ((argGather_iff _ _ _).1 h).1
    · intro h
      obtain ⟨r, hr⟩ := hsucc (ids.map fun i => t.id.idxOf i) (by
        intro i hi
        obtain ⟨a, ha, rfl⟩ := List.mem_map.1 hi
        exact List.idxOf_lt_length_of_mem (List.count_pos_iff.1 (by rw [h a ha]; norm_num)))
      exact ⟨r, by unfold gatherById; rw [(argGather_iff _ _ _).2 ⟨h, rfl⟩]; exact hr⟩
  · intro r hr
    unfold gatherById at hr
    cases h : argGather t.id ids with
    | none => simp [h] at hr
    | some idx =>
      obtain ⟨hone, rfl⟩ := (argGather_iff _ _ _).1 h
      rw [h] at hr
      simp only [Option.bind_eq_bind, Option.bind_some, gatherObjects, gatherNum] at hr
      generalize hidx : ids.map (fun i => t.id.idxOf i) = idx at hr
      cases ha : gather (t.num .x) idx with
      | none => simp [ha] at hr
      | some a =>
      cases hb : gather (t.num .y) idx with
      | none => simp [ha, hb] at hr
      | some b =>
      cases hc : gather (t.num .z) idx with
      | none => simp [ha, hb, hc] at hr
      | some c =>
      cases hd : gather (t.num .heading) idx with
      | none => simp [ha, hb, hc, hd] at hr
      | some d =>
      cases he : gather (t.num .length) idx with
      | none => simp [ha, hb, hc, hd, he] at hr
      | some e =>
      cases hf : gather (t.num .width) idx with
      | none => simp [ha, hb, hc, hd, he, hf] at hr
      | some f =>
      cases hg : gather (t.num .height) idx with
      | none => simp [ha, hb, hc, hd, he, hf, hg] at hr
      | some g =>
      cases hh : gather t.valid idx with
      | none => simp [ha, hb, hc, hd, he, hf, hg, hh] at hr
      | some v =>
      cases hi : gather t.id idx with
      | none => simp [ha, hb, hc, hd, he, hf, hg, hh, hi] at hr
      | some i =>
      cases hj : gather t.type idx with
      | none => simp [ha, hb, hc, hd, he, hf, hg, hh, hi, hj] at hr
      | some j =>
      simp only [ha, hb, hc, hd, he, hf, hg, hh, hi, hj, Option.bind_some, Option.pure_def, Option.some.injEq] at hr
      subst hr
      have hlen : ∀ {β : Type} {l r : List β}, gather l idx = some r → r.length = ids.length := by
        intro β l r h
        rw [← ((gather_iff _ _ _).1 h).length_eq, ← hidx, List.length_map]
      have hget : ∀ (k : ℕ) (a : ℤ), ids[k]? = some a → idx[k]? = some (t.id.idxOf a) ∧ t.id[t.id.idxOf a]? = some a := by
        intro k a hk
        refine ⟨by rw [← hidx, List.getElem?_map, hk]; rfl, ?_⟩
        have hm : a ∈ t.id := List.count_pos_iff.1 (by rw [hone a (List.mem_of_getElem? hk)]; norm_num)
        rw [List.getElem?_eq_getElem (List.idxOf_lt_length_of_mem hm), List.getElem_idxOf]
      have hid : i = ids := by
        apply List.ext_getElem?
        intro k
        cases hk : ids[k]? with
        | none =>
          rw [List.getElem?_eq_none_iff] at hk ⊢
          rw [hlen hi]; exact hk
        | some a => rw [gather_get hi (hget k a hk).1, (hget k a hk).2]
      refine ⟨hid, ⟨?_, ?_, ?_⟩, ?_⟩
      · intro fld; dsimp only; rw [hid]
        cases fld
        · exact hlen ha
        · exact hlen hb
        · exact hlen hc
        · exact hlen hd
        · exact hlen he
        · exact hlen hf
        · exact hlen hg
      · dsimp only; rw [hid]; exact hlen hh
      · dsimp only; rw [hid]; exact hlen hj
      · intro k a hk
        obtain ⟨h1, h2⟩ := hget k a hk
        refine ⟨_, h2, ?_, gather_get hh h1, gather_get hj h1⟩
        intro fld
        cases fld
        · exact gather_get ha h1
        · exact gather_get hb h1
        · exact gather_get hc h1
        · exact gather_get hd h1
        · exact gather_get he h1
        · exact gather_get hf h1
        · exact gather_get hg h1

/-- A case for the hypotheses. -/
theorem argGather_case : argGather [7, 3, 9] [9, 7, 9] = some [2, 0, 2] ∧ argGather [7, 3, 7] [7] = none ∧ argGather [7, 3] [4] = none := by
  decide

/-! ### C47 -/

/-- A track is valid at the current step. -/
def Track.Now {α : Type} (t : Track α) (b : Bool) : Prop := ∃ st, t.states[10]? = some st ∧ st.valid = b

theorem config_current (ch : Challenge) : (config ch).current = 10 := by cases ch <;> rfl

/-- The required ids: those of the tracks that are valid at the current step, in their order; tracks that end before are an error. -/
theorem simAgentIds_spec {α : Type} (s : Scenario α) (ch : Challenge) :
    ((∃ ids, simAgentIds s ch = some ids) ↔ ∀ t ∈ s.tracks, 10 < t.states.length) ∧
    ∀ ids, simAgentIds s ch = some ids → (∀ i, i ∈ ids ↔ ∃ t ∈ s.tracks, t.id = i ∧ t.Now true) ∧ ids.Sublist (s.tracks.map Track.id) := by
  have key : ∀ tracks : List (Track α), ((∃ fl, tracks.mapM (isSimAgent (config ch)) = some fl) ↔ ∀ t ∈ tracks, 10 < t.states.length) ∧
      ∀ fl, tracks.mapM (isSimAgent (config ch)) = some fl →
        (∀ i, i ∈ ((tracks.zip fl).filter fun x => x.2).map (fun x => x.1.id) ↔ ∃ t ∈ tracks, t.id = i ∧ t.Now true) ∧
        (((tracks.zip fl).filter fun x => x.2).map fun x => x.1.id).Sublist (tracks.map Track.id) := by
    intro tracks
    induction tracks with
    | nil => exact ⟨by simp, by intro fl h; simp at h; subst h; simp⟩
    | cons t tracks ih =>
      obtain ⟨ih1, ih2⟩ := ih
      have hfl : isSimAgent (config ch) t = (t.states[10]?).map State.valid := by
        unfold isSimAgent
        rw [config_current]
        cases t.states[10]? <;> rfl
      cases hst : t.states[10]? with
      | none =>
        rw [hst] at hfl
        have hno : (t :: tracks).mapM (isSimAgent (config ch)) = none := by simp [List.mapM_cons, hfl]
        rw [hno]
        refine ⟨?_, by simp⟩
        have : ¬ 10 < t.states.length := by rw [List.getElem?_eq_none_iff] at hst; omega
        simp [this]
      | some st =>
        rw [hst] at hfl
        have hlt : 10 < t.states.length := (List.getElem?_eq_some_iff.1 hst).1
        have hcons : (t :: tracks).mapM (isSimAgent (config ch)) = (tracks.mapM (isSimAgent (config ch))).map (st.valid :: ·) := by
          rw [List.mapM_cons, hfl]
          cases tracks.mapM (isSimAgent (config ch)) <;> rfl
        rw [hcons]
        refine ⟨?_, ?_⟩
        · simp only [List.mem_cons, forall_eq_or_imp, hlt, true_and, ← ih1]
          simp [Option.map_eq_some_iff]
        · intro fl h
          rw [Option.map_eq_some_iff] at h
          obtain ⟨fl', h1, rfl⟩ := h
          obtain ⟨a, b⟩ := ih2 fl' h1
          rw [List.zip_cons_cons, List.filter_cons]
          have hnow : ∀ c, t.Now c ↔ st.valid = c := by
            intro c
            unfold Track.Now
            rw [hst]
            simp
          cases hv : st.valid with
          | true =>
            simp only [if_true, List.map_cons, List.mem_cons, a]
            refine ⟨?_, b.cons_cons _⟩
            intro i
            simp only [exists_eq_or_imp, hnow, hv, and_true]
            exact or_congr_left eq_comm
          | false =>
            simp only [Bool.false_eq_true, if_false, a, List.map_cons, List.mem_cons]
            refine ⟨?_, b.cons _⟩
            intro i
            simp [hnow, hv]
  obtain ⟨k1, k2⟩ := key s.tracks
  unfold simAgentIds
  constructor
  · rw [← k1]
    cases s.tracks.mapM (isSimAgent (config ch)) <;> simp
  · intro ids h
    cases hm : s.tracks.mapM (isSimAgent (config ch)) with
    | none => simp [hm] at h
    | some fl =>
      simp only [hm, Option.bind_eq_bind, Option.bind_some, Option.pure_def, Option.some.injEq] at h
      subst h
      exact k2 fl hm

/-- The number of steps of a submission. -/
def Challenge.steps : Challenge → ℕ
  | .simAgents => 80
  | .scenarioGen => 91

/-- C47: a scene is accepted exactly if every trajectory has the right number of positions and headings and belongs to a required object, and
every required object has a trajectory.  That no object has two is missing. -/
theorem validateScene_partial {α : Type} (scene : List (Sim α)) {s : Scenario α} (hs : ∀ t ∈ s.tracks, 10 < t.states.length) (ch : Challenge) :
    validateScene scene s ch = some () ↔
      (∀ sim ∈ scene, (sim.num .x).length = ch.steps ∧ (sim.num .y).length = ch.steps ∧ (sim.num .z).length = ch.steps ∧
        (sim.num .heading).length = ch.steps) ∧
      ∀ i, (∃ sim ∈ scene, sim.id = i) ↔ ∃ t ∈ s.tracks, t.id = i ∧ t.Now true := by
  obtain ⟨ids, hids⟩ := (simAgentIds_spec s ch).1.2 hs
  have hmem := ((simAgentIds_spec s ch).2 ids hids).1
  have hsteps : (config ch).steps = ch.steps := by cases ch <;> rfl
  unfold validateScene
  rw [hids]
  simp only [Option.bind_eq_bind, Option.bind_some]
  have hall : scene.all (checkSim (config ch).steps ids) = true ↔ ∀ sim ∈ scene, ((sim.num .x).length = ch.steps ∧ (sim.num .y).length = ch.steps ∧
      (sim.num .z).length = ch.steps ∧ (sim.num .heading).length = ch.steps) ∧ sim.id ∈ ids := by
    rw [List.all_eq_true, hsteps]
    refine forall₂_congr fun sim _ => ?_
    unfold checkSim
    rw [decide_eq_true_eq]
    tauto
  have hmiss : (ids.filter fun i => i ∉ scene.map Sim.id) = [] ↔ ∀ i ∈ ids, i ∈ scene.map Sim.id := by
    rw [List.filter_eq_nil_iff]
    simp
  constructor
  · intro h
    split at h
    next h1 =>
      split at h
      next h2 =>
        rw [hall] at h1
        rw [hmiss] at h2
        refine ⟨fun sim hsim => (h1 sim hsim).1, fun i => ?_⟩
        rw [← hmem i]
        constructor
        · rintro ⟨sim, hsim, rfl⟩; exact (h1 sim hsim).2
        · intro hi
          obtain ⟨sim, hsim, e⟩ := List.mem_map.1 (h2 i hi)
          exact ⟨sim, hsim, e⟩
      next => simp at h
    next => simp at h
  · rintro ⟨h1, h2⟩
    rw [if_pos, if_pos]
    · rw [hmiss]
      intro i hi
      obtain ⟨sim, hsim, e⟩ := (h2 i).2 ((hmem i).1 hi)
      exact List.mem_map.2 ⟨sim, hsim, e⟩
    · rw [hall]
      exact fun sim hsim => ⟨h1 sim hsim, (hmem _).2 ((h2 _).1 ⟨sim, hsim, rfl⟩)⟩

/-- C47: a set of rollouts is accepted exactly if it names its scenario, has 32 scenes, and all of them are accepted. -/
theorem validateRollouts_spec {α : Type} (r : Rollouts α) (s : Scenario α) (ch : Challenge) :
    validateRollouts r s ch = some () ↔ (∃ name, r.scenarioId = some name) ∧ r.scenes.length = 32 ∧
      ∀ scene ∈ r.scenes, validateScene scene s ch = some () := by
  have h32 : (config ch).rollouts = 32 := by cases ch <;> rfl
  have hm : ∀ l : List (List (Sim α)), (∃ u, (l.mapM fun scene => validateScene scene s ch) = some u) ↔ ∀ scene ∈ l, validateScene scene s ch = some () := by
    intro l
    induction l with
    | nil => simp
    | cons a l ih =>
      rw [List.forall_mem_cons, ← ih, List.mapM_cons]
      cases validateScene a s ch with
      | none => simp
      | some u => cases (l.mapM fun scene => validateScene scene s ch) <;> simp
  unfold validateRollouts
  rw [h32, ← hm]
  cases hid : r.scenarioId with
  | none => simp
  | some name =>
    rw [if_neg (by simp)]
    by_cases hl : r.scenes.length = 32
    · rw [if_neg (by simp [hl])]
      cases hmm : (r.scenes.mapM fun scene => validateScene scene s ch) <;> simp [hmm, hl]
    · rw [if_pos hl]
      simp [hl]

/-- A track that is valid all the time. -/
def constTrack (id : ℤ) (n : ℕ) : Track ℤ := ⟨id, 1, List.replicate n ⟨fun _ => 0, true⟩⟩

/-- A trajectory with the right lengths. -/
def constSim (id : ℤ) (n : ℕ) : Sim ℤ := ⟨fun _ => List.replicate n 0, [], id, 1⟩

/-- C47 does not hold: an object may be simulated twice. -/
theorem validateScene_twice_violated :
    validateScene [constSim 7 80, constSim 7 80] ⟨[constTrack 7 11], 0, []⟩ .simAgents = some () := by
  rw [validateScene_partial]
  · constructor
    · intro sim h
      simp only [List.mem_cons, List.not_mem_nil, or_false, or_self] at h
      subst h
      simp [constSim, Challenge.steps]
    · intro i
      simp [constSim, constTrack, Track.Now]
  · simp [constTrack]

/-- A case in which the validation fails: an object is missing. -/
theorem validateScene_case : validateScene [constSim 7 80] ⟨[constTrack 7 11, constTrack 8 11], 0, []⟩ .simAgents = none := by
  have h : ¬ validateScene [constSim 7 80] ⟨[constTrack 7 11, constTrack 8 11], 0, []⟩ .simAgents = some () := by
    rw [validateScene_partial]
    · rintro ⟨_, h⟩
      have := (h 8).2 ⟨constTrack 8 11, by simp, rfl, ⟨⟨fun _ => 0, true⟩, by simp [constTrack], rfl⟩⟩
      simp [constSim] at this
    · simp [constTrack]
  cases h' : validateScene [constSim 7 80] ⟨[constTrack 7 11, constTrack 8 11], 0, []⟩ .simAgents with
  | none => rfl
  | some u => exact absurd h' h

/-- The ids for evaluation are the AV and the objects to predict, each once and in increasing order. -/
theorem evaluationIds_spec {α : Type} {s : Scenario α} {ids : List ℤ} (h : evaluationIds s .simAgents = some ids) :
    ids.Pairwise (· < ·) ∧ ∀ i, i ∈ ids ↔ ∃ j, (j = s.sdc ∨ j ∈ s.toPredict) ∧ ∃ t, pyGet s.tracks j = some t ∧ t.id = i := by
  unfold evaluationIds at h
  cases ha : pyGet s.tracks s.sdc with
  | none => simp [ha] at h
  | some av =>
    cases ho : s.toPredict.mapM (pyGet s.tracks) with
    | none => simp [ha, ho] at h
    | some others =>
      simp only [ha, ho, Option.bind_eq_bind, Option.bind_some, Option.pure_def, Option.some.injEq] at h
      subst h
      constructor
      · have h1 := List.pairwise_insertionSort (· ≤ ·) (av.id :: others.map Track.id).dedup
        have h2 : ((av.id :: others.map Track.id).dedup.insertionSort (· ≤ ·)).Nodup :=
          (List.perm_insertionSort _ _).nodup_iff.2 (List.nodup_dedup _)
        exact (h1.and h2).imp fun {a b} h => lt_of_le_of_ne h.1 h.2
      · intro i
        rw [(List.perm_insertionSort (· ≤ ·) _).mem_iff, List.mem_dedup, List.mem_cons]
        have hf := ListM.mapM_forall₂ ho
        constructor
        · rintro (rfl | hi)
          · exact ⟨s.sdc, Or.inl rfl, av, ha, rfl⟩
          · obtain ⟨t, ht, rfl⟩ := List.mem_map.1 hi
            obtain ⟨j, hj, hjt⟩ := ListM.forall₂_exists_left hf.flip ht
            exact ⟨j, Or.inr hj, t, hjt, rfl⟩
        · rintro ⟨j, rfl | hj, t, ht, rfl⟩
          · left; rw [ha] at ht; rw [Option.some.inj ht]
          · right
            obtain ⟨t', ht', hjt⟩ := ListM.forall₂_exists_left hf hj
            rw [ht] at hjt
            exact List.mem_map.2 ⟨t', ht', by rw [Option.some.inj hjt]⟩

end Verif.SimAgents
