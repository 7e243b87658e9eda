import Verif.Props.ConversionSpline
import Verif.Props.ConversionAgents

/-! The whole conversion: when it crashes, when it reports an error, and what a successful one contains. -/

namespace Verif.Conversion

noncomputable section

/-! ### The parts of an example -/

theorem tensor_roadEvents_other (rd : ℝ → ℝ) (a b c : ℤ) (p d : V3) {k : Key} (h : ∀ f, k ≠ .road f) :
    tensor k (roadEvents rd a b c p d) = [] := by
  have h' : ∀ f, ¬ Key.road f = k := fun f e => h f e.symm
  simp [roadEvents, tensor, Ev.at, h']

theorem tensor_addRoadFeatures_other {cfg : Config} {rd : ℝ → ℝ} {k : Key} (h : ∀ f, k ≠ .road f) : ∀ {fs : List MapFeature} {n m : ℕ}
    {e : List Ev}, addRoadFeatures cfg rd n fs = some (m, e) → tensor k e = [] := by
  intro fs
  induction fs with
  | nil =>
    intro n m e he
    simp only [addRoadFeatures, Option.some.injEq, Prod.mk.injEq] at he
    rw [← he.2]; rfl
  | cons f fs ih =>
    intro n m e he
    simp only [addRoadFeatures, Option.bind_eq_bind, Option.bind_eq_some_iff, Option.some.injEq, Prod.mk.injEq, Prod.exists] at he
    obtain ⟨n1, e1, h1, n2, e2, h2, _, rfl⟩ := he
    rw [tensor_append, ih h2, List.append_nil]
    unfold addRoadSample at h1
    rw [Option.map_eq_some_iff] at h1
    obtain ⟨pts, _, h1⟩ := h1
    simp only [Prod.mk.injEq] at h1
    rw [← h1.2, tensor_flatMap]
    exact flatMap_none fun _ _ => tensor_roadEvents_other _ _ _ _ _ _ h

theorem tensor_addRoad_other {cfg : Config} {rd : ℝ → ℝ} {fs : List MapFeature} {log : List Ev} (hl : addRoad cfg rd fs = some log)
    {k : Key} (h : ∀ f, k ≠ .road f) : tensor k log = [] := by
  unfold addRoad at hl
  simp only [Option.bind_eq_bind, Option.bind_eq_some_iff, Option.some.injEq, Prod.exists] at hl
  obtain ⟨m, e, he, rfl⟩ := hl
  rw [tensor_append, tensor_append, tensor_addRoadFeatures_other h he, tensor_flatten]
  simp only [tensor_count, tensor_nil, List.append_nil, List.nil_append]
  apply flatMap_none
  intro a ha
  rw [List.eq_of_mem_replicate ha]
  exact tensor_roadEvents_other _ _ _ _ _ _ h

theorem tensor_agentLog_other (cfg : Config) (rd : ℝ → ℝ) (sc : Scenario) (I : List ℕ) (ctx : Bool) (a : Option ℕ) {k : Key}
    (h1 : ∀ f, k ≠ .agent f) (h2 : ∀ fr f, k ≠ .state fr f) : tensor k (agentLog cfg rd sc I ctx a) = [] := by
  cases a <;> exact tensor_addState_other _ _ _ _ _ _ _ _ h1 h2

theorem tensor_addAgents_other {cfg : Config} {rd : ℝ → ℝ} {sort : (ℕ → ℕ → Bool) → List ℕ → List ℕ} {sc : Scenario} {log : List Ev}
    (hl : addAgents cfg rd sort sc = some (some log)) {k : Key} (h1 : ∀ f, k ≠ .agent f) (h2 : ∀ fr f, k ≠ .state fr f) :
    tensor k log = [] := by
  unfold addAgents at hl
  simp only [Option.bind_eq_bind, Option.bind_eq_some_iff] at hl
  obtain ⟨I, _, hl⟩ := hl
  split at hl
  · simp at hl
  simp only [Option.bind_eq_some_iff] at hl
  obtain ⟨M, _, hl⟩ := hl
  split at hl
  · simp at hl
  split at hl
  · simp at hl
  simp only [Option.some.injEq] at hl
  rw [← hl, tensor_append, tensor_append, tensor_append, tensor_flatMap, tensor_flatMap,
    flatMap_none fun _ _ => tensor_agentLog_other _ _ _ _ _ _ h1 h2, flatMap_none fun _ _ => tensor_agentLog_other _ _ _ _ _ _ h1 h2]
  rfl

/-- A successful conversion keeps the parts apart. -/
theorem example_parts {cfg : Config} {rd : ℝ → ℝ} {sort : (ℕ → ℕ → Bool) → List ℕ → List ℕ} {sc : Scenario} {log : List Ev}
    (h : toExample cfg rd sort sc = some (some log)) :
    validateScenario sc = true ∧ ∃ road agents, addRoad cfg rd sc.map = some road ∧ addAgents cfg rd sort sc = some (some agents) ∧
      tensor .scenarioId log = [.bytes sc.id] ∧ (∀ f, tensor (.road f) log = tensor (.road f) road) ∧
      (∀ fr f, tensor (.light fr f) log = tensor (.light fr f) (addLights cfg rd sc)) ∧
      (∀ f, tensor (.agent f) log = tensor (.agent f) agents) ∧ ∀ fr f, tensor (.state fr f) log = tensor (.state fr f) agents := by
  unfold toExample at h
  split at h
  · simp at h
  rename_i hv
  simp only [Option.bind_eq_bind, Option.bind_eq_some_iff, Option.some.injEq] at h
  obtain ⟨road, hr, ag, ha, h⟩ := h
  cases ag with
  | none => simp at h
  | some ag =>
    simp only [Option.map_some, Option.some.injEq] at h
    have key : ∀ k, tensor k log = (if Key.scenarioId = k then [Val.bytes sc.id] else []) ++ tensor k road ++
        tensor k (addLights cfg rd sc) ++ tensor k ag := by
      intro k
      rw [← h]
      simp only [tensor_append, tensor_count, tensor_feat, tensor_nil, List.append_nil]
    refine ⟨by simpa using hv, road, ag, hr, ha, ?_, ?_, ?_, ?_, ?_⟩
    · rw [key, if_pos rfl, tensor_addRoad_other hr (by simp), tensor_addLights_other _ _ _ (by simp),
        tensor_addAgents_other ha (by simp) (by simp)]
      rfl
    · intro f
      rw [key, if_neg (by simp), tensor_addLights_other _ _ _ (by simp), tensor_addAgents_other ha (by simp) (by simp)]
      simp
    · intro fr f
      rw [key, if_neg (by simp), tensor_addRoad_other hr (by simp), tensor_addAgents_other ha (by simp) (by simp)]
      simp
    · intro f
      rw [key, if_neg (by simp), tensor_addRoad_other hr (by simp), tensor_addLights_other _ _ _ (by simp)]
      simp
    · intro fr f
      rw [key, if_neg (by simp), tensor_addRoad_other hr (by simp), tensor_addLights_other _ _ _ (by simp)]
      simp

/-! ### What a successful conversion contains -/

/-- **The agents of an example.** -/
theorem conversion_agents {cfg : Config} {rd : ℝ → ℝ} {sort : (ℕ → ℕ → Bool) → List ℕ → List ℕ} {sc : Scenario} {log : List Ev}
    (hsort : IsSort sort) (h : toExample cfg rd sort sc = some (some log)) :
    ∃ M C, Roster cfg sc M C ∧
      (∀ f, (tensor (.agent f) log).length = cfg.maxAgents ∧ ∀ (a : ℕ),
        (∀ i ctx, (places cfg M C)[a]? = some (some (i, ctx)) → ∃ T d, sc.tracks[i]? = some T ∧ HasDifficulty sc i d ∧
          (tensor (.agent f) log)[a]? = some (agentShown rd sc ctx i T d f)) ∧
        ((places cfg M C)[a]? = some none → (tensor (.agent f) log)[a]? = some (agentMissing f))) ∧
      ∀ fr f, (tensor (.state fr f) log).length = cfg.maxAgents * (stepsOf cfg fr).length ∧ ∀ (a j t : ℕ) p,
        (places cfg M C)[a]? = some p → (stepsOf cfg fr)[j]? = some t →
        ∃ v, (tensor (.state fr f) log)[a * (stepsOf cfg fr).length + j]? = some v ∧
          let tr := p.bind fun q => sc.tracks[q.1]?
          (∀ s, Shows tr t s → v = shown rd (micros rd sc.timestamps t) s f) ∧ ((∀ s, ¬ Shows tr t s) → v = missing f) := by
  obtain ⟨hv, road, ag, _, ha, _, _, _, h1, h2⟩ := example_parts h
  obtain ⟨M, C, hr, hA, hS⟩ := agents_spec hsort hv ha
  refine ⟨M, C, hr, ?_, ?_⟩
  · intro f
    rw [h1]
    exact hA f
  · intro fr f
    rw [h2]
    exact hS fr f

/-- **The road graph of an example.** -/
theorem conversion_road {cfg : Config} {rd : ℝ → ℝ} {sort : (ℕ → ℕ → Bool) → List ℕ → List ℕ} {sc : Scenario} {log : List Ev}
    (h : toExample cfg rd sort sc = some (some log)) (hs : 0 < cfg.sourceSpacing) (hd : ∀ f ∈ sc.map, Drawn f.data) :
    ∃ (Rs : List (List V3)) (W : List Row),
      List.Forall₂ (fun (f : MapFeature) R => Sampling cfg R f.data) (ranked sc.map) Rs ∧
      W.map (fun r => (r.n, r.p)) = (Rs.zipIdx.flatMap fun Rn => Rn.1.map fun p => (Rn.2, p)).take cfg.maxRoad ∧
      (∀ (k : ℕ) r, W[k]? = some r → (ranked sc.map)[r.n]? = some r.f ∧
        (∀ r', W[k + 1]? = some r' → r'.n = r.n → r.d = (r'.p.sub r.p).normalized) ∧
        ((∀ r', W[k + 1]? = some r' → r'.n ≠ r.n) → r.d = ⟨0, 0, 0⟩)) ∧
      ∀ f, (tensor (.road f) log).length = cfg.maxRoad * width f ∧ ∀ (k j : ℕ), k < cfg.maxRoad → j < width f →
        (∀ r, W[k]? = some r → (tensor (.road f) log)[k * width f + j]? = (rowVals rd r f)[j]?) ∧
        (W[k]? = none → (tensor (.road f) log)[k * width f + j]? = (padVals f)[j]?) := by
  obtain ⟨_, road, _, hr, _, _, hroad, _⟩ := example_parts h
  obtain ⟨log', Rs, W, hl, h1, h2, h3, h4⟩ := road_spec rd hs hd
  rw [hr] at hl
  simp only [Option.some.injEq] at hl
  subst hl
  refine ⟨Rs, W, h1, h2, h3, ?_⟩
  intro f
  rw [hroad]
  exact h4 f

/-- **The traffic lights of an example**: for every step of a frame `maxLights` entries, the recorded ones first. -/
theorem conversion_lights {cfg : Config} {rd : ℝ → ℝ} {sort : (ℕ → ℕ → Bool) → List ℕ → List ℕ} {sc : Scenario} {log : List Ev}
    (h : toExample cfg rd sort sc = some (some log)) (fr : Frame) :
    (∀ f, f ≠ .timestamp → (tensor (.light fr f) log).length = (stepsOf cfg fr).length * cfg.maxLights ∧
      ∀ (j t i : ℕ), (stepsOf cfg fr)[j]? = some t → i < cfg.maxLights →
        (∀ ls s, sc.lights[t]? = some ls → ls[i]? = some s →
          (tensor (.light fr f) log)[j * cfg.maxLights + i]? = some (lightShown rd s f)) ∧
        ((∀ ls, sc.lights[t]? = some ls → ls.length ≤ i) →
          (tensor (.light fr f) log)[j * cfg.maxLights + i]? = some (lightMissing f))) ∧
    (tensor (.light fr .timestamp) log).length = (stepsOf cfg fr).length ∧
      ∀ (j t : ℕ), (stepsOf cfg fr)[j]? = some t → (tensor (.light fr .timestamp) log)[j]? =
        some (.int (if t < sc.lights.length then micros rd sc.timestamps t else -1)) := by
  obtain ⟨_, _, _, _, _, _, _, hl, _⟩ := example_parts h
  refine ⟨?_, ?_, ?_⟩
  · intro f hf
    rw [hl, tensor_addLights cfg rd sc fr hf]
    obtain ⟨h1, h2⟩ := flatMap_block (l := stepsOf cfg fr) (n := cfg.maxLights)
      (f := fun t => (List.range cfg.maxLights).map fun i => lightVal rd ((sc.lights[t]?).bind fun ls => ls[i]?) f) (by simp)
    refine ⟨h1, ?_⟩
    intro j t i hj hi
    have e := h2 j i t hj hi
    rw [List.getElem?_map, List.getElem?_range hi] at e
    simp only [Option.map_some] at e
    constructor
    · intro ls s h1 h2
      rw [e, h1, Option.bind_some, h2]
      rfl
    · intro hn
      rw [e]
      cases hls : sc.lights[t]? with
      | none => rfl
      | some ls =>
        rw [Option.bind_some, List.getElem?_eq_none (hn ls hls)]
        rfl
  · rw [hl, tensor_addLights_time, List.length_map]
  · intro j t hj
    rw [hl, tensor_addLights_time, List.getElem?_map, hj]
    rfl

/-- The identifier of the scenario is kept. -/
theorem conversion_id {cfg : Config} {rd : ℝ → ℝ} {sort : (ℕ → ℕ → Bool) → List ℕ → List ℕ} {sc : Scenario} {log : List Ev}
    (h : toExample cfg rd sort sc = some (some log)) : tensor .scenarioId log = [.bytes sc.id] :=
  (example_parts h).2.choose_spec.choose_spec.2.2.1

/-! ### When the conversion ends, and how -/

/-- The scenario is consistent: it has steps, its own vehicle is one of the tracks, and every track has a state for every step. -/
def Consistent (sc : Scenario) : Prop :=
  sc.timestamps ≠ [] ∧ (0 ≤ sc.sdc ∧ sc.sdc < sc.tracks.length) ∧ ∀ T ∈ sc.tracks, T.states.length = sc.timestamps.length

theorem validate_iff (sc : Scenario) : validateScenario sc = true ↔ Consistent sc := by
  simp only [validateScenario, Consistent, Bool.and_eq_true, decide_eq_true_eq, List.all_eq_true, beq_iff_eq, and_assoc]

/-- What the code takes for granted: a source spacing, polygons with vertices, indices of tracks in the list of the tracks to predict, enough
steps and room for the modeled agents. -/
structure Fit (cfg : Config) (sc : Scenario) : Prop where
  spacing : 0 < cfg.sourceSpacing
  drawn : ∀ f ∈ sc.map, Drawn f.data
  indices : ∀ e ∈ sc.predict, 0 ≤ e.1 ∧ e.1 < sc.tracks.length
  past : 0 < cfg.past
  steps : cfg.past ≤ sc.timestamps.length
  room : cfg.maxModeled ≤ cfg.maxAgents

/-- Someone can be modeled: a listed track is valid now. -/
def SomeModeled (cfg : Config) (sc : Scenario) : Prop := 0 < cfg.maxModeled ∧ ∃ i d, ((i : ℤ), d) ∈ sc.predict ∧ ∃ n : ℕ, i = n ∧ ValidNow cfg sc n

theorem findTrack_total {cfg : Config} (id : ℤ) : ∀ {l : List Track} {i : ℕ}, (∀ t ∈ l, (t.now cfg).isSome) →
    (findTrack cfg false id i l).isSome := by
  intro l
  induction l with
  | nil => intro i _; rfl
  | cons t l ih =>
    intro i h
    unfold findTrack
    have h1 := h t (by simp)
    rw [Option.isSome_iff_exists] at h1
    obtain ⟨s, hs⟩ := h1
    have h2 := ih (i := i + 1) fun t ht => h t (by simp [ht])
    rw [hs]
    by_cases he : t.id = id
    · cases hv : s.valid <;> simp [he, hv, h2]
    · simp [he, h2]

theorem modelStep_total {cfg : Config} {sc : Scenario} (acc : List ℕ) {e : ℤ × ℕ} (he : 0 ≤ e.1 ∧ e.1 < sc.tracks.length)
    (hnow : ∀ t ∈ sc.tracks, (t.now cfg).isSome) : ∃ acc', modelStep cfg sc acc e = some acc' := by
  unfold modelStep
  rw [if_neg (by omega)]
  have hlt : e.1.toNat < sc.tracks.length := by omega
  rw [List.getElem?_eq_getElem hlt]
  have h1 := hnow _ (List.getElem_mem hlt)
  rw [Option.isSome_iff_exists] at h1
  obtain ⟨s, hs⟩ := h1
  simp only [hs]
  exact ⟨_, rfl⟩

theorem foldlM_total {cfg : Config} {sc : Scenario} (hnow : ∀ t ∈ sc.tracks, (t.now cfg).isSome) : ∀ {l : List (ℤ × ℕ)} (acc : List ℕ),
    (∀ e ∈ l, 0 ≤ e.1 ∧ e.1 < sc.tracks.length) → ∃ M, l.foldlM (modelStep cfg sc) acc = some M := by
  intro l
  induction l with
  | nil => intro acc _; exact ⟨acc, rfl⟩
  | cons e l ih =>
    intro acc h
    obtain ⟨acc', h1⟩ := modelStep_total acc (h e (by simp)) hnow
    obtain ⟨M, h2⟩ := ih acc' fun e he => h e (by simp [he])
    exact ⟨M, by rw [List.foldlM_cons, h1]; exact h2⟩

/-- **The outcome.**  Under `Fit` the conversion never crashes; it succeeds exactly for the consistent scenarios in which someone can be
modeled, and reports an error otherwise. -/
theorem conversion_outcome_partial {cfg : Config} (rd : ℝ → ℝ) (sort : (ℕ → ℕ → Bool) → List ℕ → List ℕ) {sc : Scenario} (hf : Fit cfg sc) :
    ∃ r, toExample cfg rd sort sc = some r ∧ (r.isSome ↔ Consistent sc ∧ SomeModeled cfg sc) := by
  unfold toExample
  by_cases hv : validateScenario sc = false
  · refine ⟨none, by rw [if_pos hv], ?_⟩
    simp only [Option.isSome_none, Bool.false_eq_true, false_iff, not_and]
    intro hc
    rw [← validate_iff] at hc
    rw [hc] at hv
    simp at hv
  · rw [if_neg hv]
    have hv' : validateScenario sc = true := by simpa using hv
    have hc := (validate_iff sc).1 hv'
    obtain ⟨road, _, _, hroad, _⟩ := road_spec rd hf.spacing hf.drawn
    have hnow : ∀ t ∈ sc.tracks, (t.now cfg).isSome := by
      intro t ht
      unfold Track.now
      have h1 := hf.past
      have h2 := hf.steps
      have h3 := hc.2.2 t ht
      rw [if_neg (by omega), List.getElem?_eq_getElem (by omega)]
      rfl
    obtain ⟨I, hI, _⟩ := objectsOfInterest_spec cfg sc
    have hO : ∃ O, objectsOfInterest cfg false sc = some O := by
      unfold objectsOfInterest
      obtain ⟨r, hr⟩ : ∃ r, (sc.interest.mapM fun id => findTrack cfg false id 0 sc.tracks) = some r := by
        apply ListM.mapM_isSome
        intro id _
        exact Option.isSome_iff_exists.1 (findTrack_total id hnow)
      exact ⟨_, by rw [hr]; rfl⟩
    obtain ⟨O, hO⟩ := hO
    obtain ⟨M, hM⟩ := foldlM_total hnow [] hf.indices
    have hmod : modeledAgents cfg sc = some M := by
      unfold modeledAgents
      rw [hO]
      exact hM
    obtain ⟨hnd, hmem, hlen, hlt, _⟩ := modeledAgents_spec hmod
    have hfit : M.length ≤ cfg.maxAgents := by
      have := hf.room
      omega
    have hne : M ≠ [] ↔ SomeModeled cfg sc := by
      constructor
      · intro hne
        obtain ⟨i, hi⟩ := List.exists_mem_of_ne_nil M hne
        obtain ⟨p, d, h1, h2, h3⟩ := (hmem i).1 hi
        exact ⟨by omega, i, d, List.mem_of_getElem? h1, i, rfl, h2⟩
      · rintro ⟨hpos, i, d, hid, n, rfl, hvn⟩ hM0
        rw [hM0] at hlen
        simp only [List.length_nil] at hlen
        have hfin : {i : ℕ | ValidNow cfg sc i ∧ ∃ d, ((i : ℤ), d) ∈ sc.predict}.Finite := by
          apply (Set.finite_lt_nat sc.tracks.length).subset
          rintro i ⟨⟨s, ⟨T, hT, _⟩, _⟩, _⟩
          exact (List.getElem?_eq_some_iff.1 hT).1
        have : 0 < {i : ℕ | ValidNow cfg sc i ∧ ∃ d, ((i : ℤ), d) ∈ sc.predict}.ncard := by
          rw [Set.ncard_pos hfin]
          exact ⟨n, hvn, d, hid⟩
        omega
    have hag : ∃ r, addAgents cfg rd sort sc = some r ∧ (r.isSome ↔ M ≠ []) := by
      unfold addAgents
      rw [hI]
      simp only [Option.bind_eq_bind, Option.bind_some]
      rw [if_neg (by have := hc.2.1; omega), hmod]
      simp only [Option.bind_some]
      by_cases hM0 : M = []
      · exact ⟨none, by rw [if_pos hM0], by simp [hM0]⟩
      · rw [if_neg hM0, if_neg (by omega)]
        exact ⟨_, rfl, by simp [hM0]⟩
    obtain ⟨r, hr, hrs⟩ := hag
    rw [hroad, hr]
    refine ⟨_, rfl, ?_⟩
    rw [Option.isSome_map, hrs, hne]
    exact ⟨fun h => ⟨hc, h⟩, fun h => h.2⟩

/-! ### What the code takes for granted and does not check -/

theorem toExample_none_of_agents {cfg : Config} {rd : ℝ → ℝ} {sort : (ℕ → ℕ → Bool) → List ℕ → List ℕ} {sc : Scenario}
    (hc : Consistent sc) (h : addAgents cfg rd sort sc = none) : toExample cfg rd sort sc = none := by
  unfold toExample
  rw [(validate_iff sc).2 hc, if_neg (by simp), h]
  cases addRoad cfg rd sc.map <;> rfl

theorem addAgents_none_of_modeled {cfg : Config} {rd : ℝ → ℝ} {sort : (ℕ → ℕ → Bool) → List ℕ → List ℕ} {sc : Scenario}
    (hc : Consistent sc) (h : modeledAgents cfg sc = none) : addAgents cfg rd sort sc = none := by
  obtain ⟨I, hI, _⟩ := objectsOfInterest_spec cfg sc
  unfold addAgents
  rw [hI]
  simp only [Option.bind_eq_bind, Option.bind_some]
  rw [if_neg (by have := hc.2.1; omega), h]
  rfl

/-- A consistent scenario with an index outside of the tracks (also a negative one) in the list of the tracks to predict crashes the
conversion. -/
theorem conversion_index_violated {cfg : Config} (rd : ℝ → ℝ) (sort : (ℕ → ℕ → Bool) → List ℕ → List ℕ) {sc : Scenario} (hc : Consistent sc)
    {e : ℤ × ℕ} (he : e ∈ sc.predict) (hout : e.1 < 0 ∨ (sc.tracks.length : ℤ) ≤ e.1) : toExample cfg rd sort sc = none := by
  apply toExample_none_of_agents hc
  apply addAgents_none_of_modeled hc
  cases h : modeledAgents cfg sc with
  | none => rfl
  | some M =>
    exfalso
    unfold modeledAgents at h
    simp only [Option.bind_eq_bind, Option.bind_eq_some_iff] at h
    obtain ⟨_, _, h⟩ := h
    obtain ⟨_, _, _, _, _, _, hall⟩ := foldlM_spec h
    have := hall e he
    omega

/-- A consistent scenario that ends before the current step of the configuration crashes the conversion if it lists a track to predict. -/
theorem conversion_short_violated {cfg : Config} (rd : ℝ → ℝ) (sort : (ℕ → ℕ → Bool) → List ℕ → List ℕ) {sc : Scenario} (hc : Consistent sc)
    (hp : sc.predict ≠ []) (hshort : sc.timestamps.length < cfg.past) : toExample cfg rd sort sc = none := by
  apply toExample_none_of_agents hc
  apply addAgents_none_of_modeled hc
  cases h : modeledAgents cfg sc with
  | none => rfl
  | some M =>
    exfalso
    obtain ⟨e, he⟩ := List.exists_mem_of_ne_nil _ hp
    obtain ⟨s, T, hT, _, hs⟩ := (modeledAgents_spec h).2.2.2.2 e he
    have h1 := hc.2.2 T (List.mem_of_getElem? hT)
    have h2 := (List.getElem?_eq_some_iff.1 hs).1
    omega

theorem findTrack_none {cfg : Config} {id : ℤ} : ∀ {l : List Track} {i : ℕ}, (∀ t ∈ l, t.now cfg = none) → (∃ t ∈ l, t.id = id) →
    findTrack cfg false id i l = none := by
  intro l
  induction l with
  | nil => intro i _ h; obtain ⟨t, ht, _⟩ := h; simp at ht
  | cons t l ih =>
    intro i hn h
    unfold findTrack
    by_cases he : t.id = id
    · simp [he, hn t (by simp)]
    · rw [if_neg he]
      apply ih fun t ht => hn t (by simp [ht])
      obtain ⟨t', ht', hid⟩ := h
      rcases List.mem_cons.1 ht' with rfl | h
      · exact absurd hid he
      · exact ⟨t', h, hid⟩

/-- Neither is it converted if one of its objects is of interest, although these are not used for the choice of the agents. -/
theorem conversion_interest_violated {cfg : Config} (rd : ℝ → ℝ) (sort : (ℕ → ℕ → Bool) → List ℕ → List ℕ) {sc : Scenario}
    (hc : Consistent sc) (hi : ∃ T ∈ sc.tracks, T.id ∈ sc.interest) (hshort : sc.timestamps.length < cfg.past) :
    toExample cfg rd sort sc = none := by
  apply toExample_none_of_agents hc
  apply addAgents_none_of_modeled hc
  obtain ⟨T, hT, hid⟩ := hi
  have hn : ∀ t ∈ sc.tracks, t.now cfg = none := by
    intro t ht
    have := hc.2.2 t ht
    unfold Track.now
    rw [if_neg (by omega), List.getElem?_eq_none (by omega)]
  have : objectsOfInterest cfg false sc = none := by
    unfold objectsOfInterest
    cases h : (sc.interest.mapM fun id => findTrack cfg false id 0 sc.tracks) with
    | none => rfl
    | some r =>
      exfalso
      obtain ⟨b, _, hb⟩ := ListM.forall₂_exists_left (ListM.mapM_forall₂ h) hid
      rw [findTrack_none hn ⟨T, hT, rfl⟩] at hb
      simp at hb
  unfold modeledAgents
  rw [this]
  rfl

/-- More listed tracks than agents in the configuration crash the conversion, if they may all be modeled. -/
theorem conversion_room_violated {cfg : Config} (rd : ℝ → ℝ) (sort : (ℕ → ℕ → Bool) → List ℕ → List ℕ) {sc : Scenario} (hc : Consistent sc)
    (hmax : cfg.maxAgents < cfg.maxModeled)
    (hmany : cfg.maxAgents < {i : ℕ | ValidNow cfg sc i ∧ ∃ d, ((i : ℤ), d) ∈ sc.predict}.ncard) : toExample cfg rd sort sc = none := by
  apply toExample_none_of_agents hc
  cases h : modeledAgents cfg sc with
  | none => exact addAgents_none_of_modeled hc h
  | some M =>
    obtain ⟨_, _, hlen, _⟩ := modeledAgents_spec h
    obtain ⟨I, hI, _⟩ := objectsOfInterest_spec cfg sc
    unfold addAgents
    rw [hI]
    simp only [Option.bind_eq_bind, Option.bind_some]
    rw [if_neg (by have := hc.2.1; omega), h]
    simp only [Option.bind_some]
    have : cfg.maxAgents < M.length := by omega
    rw [if_neg (by rintro rfl; simp at this), if_pos this]

/-- A crosswalk without vertices as the only feature of the map crashes the conversion. -/
theorem conversion_polygon_violated {cfg : Config} (rd : ℝ → ℝ) (sort : (ℕ → ℕ → Bool) → List ℕ → List ℕ) {sc : Scenario} (hc : Consistent sc)
    (hpos : 0 < cfg.maxRoad) {id : ℤ} (hm : sc.map = [⟨id, .crosswalk []⟩]) : toExample cfg rd sort sc = none := by
  have hroad : addRoad cfg rd sc.map = none := by
    have hp : prioritized sc.map = [⟨id, .crosswalk []⟩] := by
      rw [hm]
      simp [prioritized, priorities, FeatureData.kind]
    unfold addRoad
    rw [hp]
    have : addRoadSample cfg rd 0 ⟨id, .crosswalk []⟩ = none := by
      unfold addRoadSample featureSamples
      rw [if_neg (by omega)]
      rfl
    simp [addRoadFeatures, this]
  unfold toExample
  rw [(validate_iff sc).2 hc, if_neg (by simp), hroad]
  rfl

/-! ### A scenario -/

/-- A state that is valid or not, at a place on the x axis. -/
def exState (x : ℝ) (v : Bool) : ObjState := ⟨x, 0, 0, 4, 2, 1.5, 0, 1, 0, v⟩

/-- Three tracks over three steps; the vehicle itself (the first one) is not valid at the second step. -/
def exScenario : Scenario :=
  ⟨"scenario", [0, 0.1, 0.2], [⟨10, 1, [exState 0 true, exState 0 false, exState 0 true]⟩,
    ⟨11, 1, [exState 5 true, exState 6 true, exState 7 true]⟩, ⟨12, 2, [exState 9 false, exState 9 true, exState 9 false]⟩],
    [[⟨100, 4, ⟨1, 2, 3⟩⟩], [], []], [⟨100, .lane 2 [⟨0, 0, 0⟩, ⟨1, 0, 0⟩, ⟨2, 0, 0⟩]⟩, ⟨7, .crosswalk [⟨0, 0, 0⟩, ⟨2, 0, 0⟩, ⟨2, 3, 0⟩]⟩],
    0, [11], [(1, 2)]⟩

/-- Two agents, two steps up to now and one in the future. -/
def exConfig : Config := ⟨2, 2, 2, 1, 10, 0.5, 1, 1, 4⟩

theorem exFit : Fit exConfig exScenario := by
  refine ⟨by norm_num [exConfig], ?_, ?_, by simp [exConfig], by simp [exConfig, exScenario], by simp [exConfig]⟩
  · intro f hf
    simp only [exScenario, List.mem_cons, List.not_mem_nil, or_false] at hf
    rcases hf with rfl | rfl <;> simp [Drawn]
  · intro e he
    simp only [exScenario, List.mem_cons, List.not_mem_nil, or_false] at he
    subst he
    simp [exScenario]

theorem exConsistent : Consistent exScenario := by
  refine ⟨by simp [exScenario], by simp [exScenario], ?_⟩
  intro T hT
  simp only [exScenario, List.mem_cons, List.not_mem_nil, or_false] at hT
  rcases hT with rfl | rfl | rfl <;> rfl

theorem exValid : ¬ ValidNow exConfig exScenario 0 ∧ ValidNow exConfig exScenario 1 ∧ ValidNow exConfig exScenario 2 := by
  refine ⟨?_, ⟨exState 6 true, ⟨_, rfl, by simp [exConfig], rfl⟩, rfl⟩, ⟨exState 9 true, ⟨_, rfl, by simp [exConfig], rfl⟩, rfl⟩⟩
  rintro ⟨s, ⟨T, hT, _, hs⟩, hv⟩
  simp only [exScenario, List.getElem?_cons_zero, Option.some.injEq] at hT
  subst hT
  simp only [exConfig, Nat.add_one_sub_one, List.getElem?_cons_succ, List.getElem?_cons_zero, Option.some.injEq] at hs
  subst hs
  simp [exState] at hv

/-- The conversion of the scenario succeeds. -/
theorem exSuccess (rd : ℝ → ℝ) (sort : (ℕ → ℕ → Bool) → List ℕ → List ℕ) : ∃ log, toExample exConfig rd sort exScenario = some (some log) := by
  obtain ⟨r, h, hr⟩ := conversion_outcome_partial rd sort exFit
  have : r.isSome := hr.2 ⟨exConsistent, by simp [exConfig], 1, 2, by simp [exScenario], 1, rfl, exValid.2.1⟩
  rw [Option.isSome_iff_exists] at this
  obtain ⟨log, rfl⟩ := this
  exact ⟨log, h⟩

/-- The vehicle itself need not be in the example: it is not in that of this scenario, although it has a track and there are places for
two agents. -/
theorem conversion_sdc_violated (rd : ℝ → ℝ) {sort : (ℕ → ℕ → Bool) → List ℕ → List ℕ} (hsort : IsSort sort) :
    ∃ log, toExample exConfig rd sort exScenario = some (some log) ∧ tensor (.agent .isSdc) log = [.int 0, .int 0] := by
  obtain ⟨log, h⟩ := exSuccess rd sort
  refine ⟨log, h, ?_⟩
  obtain ⟨M, C, hr, hA, _⟩ := conversion_agents hsort h
  obtain ⟨v0, v1, v2⟩ := exValid
  have hMmem : ∀ i, i ∈ M ↔ i = 1 := by
    intro i
    rw [hr.chosen]
    constructor
    · rintro ⟨p, d, hp, _⟩
      have := List.mem_of_getElem? hp
      simp only [exScenario, List.mem_cons, List.not_mem_nil, or_false, Prod.mk.injEq] at this
      omega
    · rintro rfl
      refine ⟨0, 2, rfl, v1, ?_⟩
      have : ListedBefore exConfig exScenario 0 = ∅ := by
        ext i
        simp [ListedBefore]
      rw [this]
      simp [exConfig]
  have hM : M = [1] := by
    have hnd := (List.nodup_append.1 hr.nodup).1
    have : M.Perm [1] := by
      rw [List.perm_ext_iff_of_nodup hnd (by simp)]
      intro i
      rw [hMmem]
      simp
    exact List.perm_singleton.1 this
  have hlen : C.length = 1 := by
    rw [hr.room, hM]
    simp [exConfig, exScenario]
  obtain ⟨c, hC⟩ := List.length_eq_one_iff.1 hlen
  have hc0 : c ≠ 0 := by
    rintro rfl
    refine hr.best 0 (by simp [hC]) 2 (by simp [exScenario]) (by simp [hM]) (by simp [hC]) (Or.inl ⟨v2, v0⟩)
  have hplaces : places exConfig M C = [some (1, false), some (c, true)] := by
    rw [hM, hC]
    rfl
  obtain ⟨hl, hAt⟩ := hA .isSdc
  obtain ⟨_, _, _, _, h0⟩ := (hAt 0).1 1 false (by rw [hplaces]; rfl)
  obtain ⟨_, _, _, _, h1⟩ := (hAt 1).1 c true (by rw [hplaces]; rfl)
  simp only [agentShown] at h0 h1
  rw [if_neg (by simp [exScenario])] at h0
  rw [if_neg (by simp [exScenario, hc0])] at h1
  have hl2 : (tensor (.agent .isSdc) log).length = 2 := hl
  match hT : tensor (.agent .isSdc) log, hl2 with
  | [a, b], _ =>
    rw [hT] at h0 h1
    simp only [List.getElem?_cons_zero, List.getElem?_cons_succ, Option.some.injEq] at h0 h1
    rw [h0, h1]

end

end Verif.Conversion
