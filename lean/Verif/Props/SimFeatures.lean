import Verif.Model.SimFeatures
import Verif.Props.SimScene
import Verif.Props.Nearest
import Verif.Props.TimeToCollision
import Verif.Props.RoadLight

/-! C158: the features of a scene belong to the evaluated objects and to the simulated steps. -/

namespace Verif.SimFeatures

open Verif.SimAgents Verif.ListM

noncomputable section

/-! ### Tensors of objects -/

/-- The tensors of a list of objects. -/
def ofSims (l : List (Sim ℝ)) : Trajs ℝ := ⟨fun f => l.map fun o => o.num f, l.map Sim.valid, l.map Sim.id, l.map Sim.type⟩

/-- A track as an object. -/
def logged (t : Track ℝ) : Sim ℝ := ⟨fun f => t.states.map fun st => st.num f, t.states.map State.valid, t.id, t.type⟩

theorem ofTracks_eq (ts : List (Track ℝ)) : ofTracks ts = ofSims (ts.map logged) := by
  simp only [ofTracks, ofSims, List.map_map]
  rfl

theorem gather_sims {β : Type} {objs l : List (Sim ℝ)} (hsub : ∀ o ∈ l, o ∈ objs) (hn : (objs.map Sim.id).Nodup) (g : Sim ℝ → β) :
    SimAgents.gather (objs.map g) (l.map fun o => (objs.map Sim.id).idxOf o.id) = some (l.map g) := by
  rw [gather_iff]
  induction l with
  | nil => exact .nil
  | cons t ts ih =>
    refine .cons ?_ (ih fun u hu => hsub u (by simp [hu]))
    obtain ⟨k, hk, e⟩ := List.getElem_of_mem (hsub t (by simp))
    have hk' : k < (objs.map Sim.id).length := by simpa using hk
    have h1 : (objs.map Sim.id)[k] = t.id := by rw [List.getElem_map, e]
    have : (objs.map Sim.id).idxOf t.id = k := by rw [← h1, hn.idxOf_getElem]
    dsimp only
    rw [this, List.getElem?_map, List.getElem?_eq_getElem hk, e]
    rfl

theorem gatherById_sims {objs l : List (Sim ℝ)} (hsub : ∀ o ∈ l, o ∈ objs) (hn : (objs.map Sim.id).Nodup) :
    gatherById (ofSims objs) (l.map Sim.id) = some (ofSims l) := by
  unfold gatherById
  have h : argGather (ofSims objs).id (l.map Sim.id) = some (l.map fun t => (objs.map Sim.id).idxOf t.id) := by
    rw [argGather_iff]
    refine ⟨?_, by rw [List.map_map]; rfl⟩
    intro r hr
    obtain ⟨t, ht, rfl⟩ := List.mem_map.1 hr
    exact List.count_eq_one_of_mem hn (List.mem_map.2 ⟨t, hsub t ht, rfl⟩)
  rw [h]
  simp [gatherObjects, gatherNum, ofSims, gather_sims hsub hn]
  funext f
  cases f <;> rfl

theorem rows_sims (l : List (Sim ℝ)) : rows (ofSims l) = some l := by
  unfold rows
  rw [mapM_some_iff, List.forall₂_iff_get]
  refine ⟨by simp [ofSims], ?_⟩
  intro i h1 h2
  simp only [List.get_eq_getElem, List.getElem_range, row, ofSims, List.getElem?_map, List.getElem?_eq_getElem h2, Option.map_some,
    Option.bind_eq_bind, Option.bind_some, Option.pure_def, Option.some.injEq]
  cases h : l[i] with
  | mk num valid id type =>
    simp only [Sim.mk.injEq, and_true]
    funext f
    cases f <;> rfl

/-! ### Masks -/

theorem whereTrue_front (a b : ℕ) : Interaction.whereTrue (List.replicate a true ++ List.replicate b false) = List.range a := by
  unfold Interaction.whereTrue
  rw [List.length_append, List.length_replicate, List.length_replicate, List.range_add, List.filter_append]
  rw [List.filter_eq_self.2, List.filter_eq_nil_iff.2, List.append_nil]
  · intro i hi
    obtain ⟨j, hj, rfl⟩ := List.mem_map.1 hi
    rw [List.mem_range] at hj
    rw [List.getElem?_append_right (by simp)]
    simp [hj]
  · intro i hi
    rw [List.mem_range] at hi
    rw [List.getElem?_append_left (by simpa using hi)]
    simp [hi]

theorem whereTrue_back (a b : ℕ) : Interaction.whereTrue ((List.replicate a true ++ List.replicate b false).map not) =
    (List.range b).map (a + ·) := by
  unfold Interaction.whereTrue
  rw [List.length_map, List.length_append, List.length_replicate, List.length_replicate, List.range_add, List.filter_append]
  rw [List.filter_eq_nil_iff.2, List.nil_append, List.filter_eq_self.2]
  · intro i hi
    obtain ⟨j, hj, rfl⟩ := List.mem_map.1 hi
    rw [List.mem_range] at hj
    rw [List.getElem?_map, List.getElem?_append_right (by simp)]
    simp [hj]
  · intro i hi
    rw [List.mem_range] at hi
    rw [List.getElem?_map, List.getElem?_append_left (by simpa using hi)]
    simp [hi]

theorem gather_front {β : Type} (l r : List β) : Interaction.gather (l ++ r) (List.range l.length) = some l := by
  unfold Interaction.gather
  rw [mapM_some_iff, List.forall₂_iff_get]
  refine ⟨by simp, ?_⟩
  intro i h1 h2
  simp only [List.get_eq_getElem, List.getElem_range]
  rw [List.getElem?_append_left h2, List.getElem?_eq_getElem h2]

theorem gather_back {β : Type} (l r : List β) : Interaction.gather (l ++ r) ((List.range r.length).map (l.length + ·)) = some r := by
  unfold Interaction.gather
  rw [mapM_some_iff, List.forall₂_iff_get]
  refine ⟨by simp, ?_⟩
  intro i h1 h2
  simp only [List.get_eq_getElem, List.getElem_range, List.getElem_map]
  rw [List.getElem?_append_right (by omega), Nat.add_sub_cancel_left, List.getElem?_eq_getElem h2]

/-! ### The objects of a scene -/

/-- What an object of a scene is taken to be: for simulated agents the history of its track and then the simulation with the box of the
current step; for generated scenes the submitted states, valid as its track is at the current step. -/
def entity (ch : Challenge) (logValidity : Bool) (p : Sim ℝ × Track ℝ) : Sim ℝ :=
  match ch with
  | .simAgents => ⟨joined p.1 p.2,
      (p.2.states.take 11).map State.valid ++ (if logValidity then (p.2.states.drop 11).map State.valid else List.replicate 80 true), p.1.id,
      p.2.type⟩
  | .scenarioGen => ⟨p.1.num, List.replicate 91 (((p.2.states[10]?).map State.valid).getD false), p.1.id, p.1.type⟩

/-- A complete scenario and a scene for some of its tracks with the number of steps of the challenge. -/
structure Posed (s : Scenario ℝ) (ch : Challenge) (pairs : List (Sim ℝ × Track ℝ)) : Prop where
  complete : Complete s 91
  track : ∀ p ∈ pairs, OfTrack s p.1 p.2
  len : ∀ p ∈ pairs, ∀ f, (f = .x ∨ f = .y ∨ f = .z ∨ f = .heading ∨ ch = .scenarioGen) → (p.1.num f).length = (config ch).steps
  ids : (pairs.map fun p => p.1.id).Nodup

theorem trajectories_eq {s : Scenario ℝ} {ch : Challenge} {pairs : List (Sim ℝ × Track ℝ)} (h : Posed s ch pairs) (hne : pairs ≠ []) (lv : Bool) :
    trajectories (pairs.map Prod.fst) s ch lv = some (ofSims (pairs.map (entity ch lv))) := by
  cases ch with
  | simAgents =>
    unfold trajectories
    dsimp only
    rw [sceneToTrajs_spec h.complete (by norm_num) (m := 80) hne (fun p hp => ⟨h.track p hp, fun f hf => h.len p hp f (by tauto)⟩)]
    simp only [ofSims, List.map_map]
    rfl
  | scenarioGen =>
    unfold trajectories
    dsimp only
    rw [genToTrajs_meaning h.complete (by norm_num) (m := 91) hne (fun p hp => ⟨h.track p hp, fun f => h.len p hp f (by tauto)⟩)]
    simp only [ofSims, List.map_map]
    rfl

theorem entity_id (ch : Challenge) (lv : Bool) (p : Sim ℝ × Track ℝ) : (entity ch lv p).id = p.1.id := by cases ch <;> rfl

theorem entity_len {s : Scenario ℝ} {ch : Challenge} {pairs : List (Sim ℝ × Track ℝ)} (h : Posed s ch pairs) {p : Sim ℝ × Track ℝ} (hp : p ∈ pairs)
    (lv : Bool) : (entity ch lv p).valid.length = 91 ∧ ∀ f, ((entity ch lv p).num f).length = 91 := by
  have hl := h.complete.len p.2 (h.track p hp).1
  have hx := h.len p hp .x (by simp)
  have h10 : p.2.states[10]? = some (p.2.states[10]'(by omega)) := List.getElem?_eq_getElem (by omega)
  cases ch with
  | simAgents =>
    refine ⟨?_, ?_⟩
    · cases lv <;> simp [entity, hl]
    · intro f
      have hy := h.len p hp .y (by simp)
      have hz := h.len p hp .z (by simp)
      have hh := h.len p hp .heading (by simp)
      cases f <;> simp [entity, joined, hl, hx, hy, hz, hh, h10, config]
  | scenarioGen =>
    refine ⟨by simp [entity], fun f => ?_⟩
    simpa [entity, config] using h.len p hp f (by simp)

/-- A way of listing sets. -/
structure Listing (order : List ℤ → List ℤ) : Prop where
  mem : ∀ l x, x ∈ order l ↔ x ∈ l
  nodup : ∀ l, (order l).Nodup

/-- The evaluated objects in the order of their ids, and the other ones in any order. -/
structure Arranged (pairs eval rest : List (Sim ℝ × Track ℝ)) (ids : List ℤ) : Prop where
  perm : (eval ++ rest).Perm pairs
  ids : (eval.map fun p => p.1.id) = ids

theorem exists_pairs {pairs : List (Sim ℝ × Track ℝ)} {ids : List ℤ} (h : ∀ i ∈ ids, ∃ p ∈ pairs, p.1.id = i) :
    ∃ l : List (Sim ℝ × Track ℝ), (∀ p ∈ l, p ∈ pairs) ∧ (l.map fun p => p.1.id) = ids := by
  induction ids with
  | nil => exact ⟨[], by simp, rfl⟩
  | cons i ids ih =>
    obtain ⟨l, h1, h2⟩ := ih fun j hj => h j (by simp [hj])
    obtain ⟨p, hp, e⟩ := h i (by simp)
    refine ⟨p :: l, ?_, by simp [e, h2]⟩
    intro q hq
    rcases List.mem_cons.1 hq with rfl | hq
    · exact hp
    · exact h1 q hq

theorem evaluationIds_nodup {s : Scenario ℝ} {n : ℕ} (h : Complete s n) {ch : Challenge} (hn : 10 < n) {ids : List ℤ}
    (he : evaluationIds s ch = some ids) : ids.Nodup ∧ ∀ i ∈ ids, ∃ t ∈ s.tracks, t.id = i := by
  cases ch with
  | simAgents =>
    obtain ⟨h1, h2⟩ := evaluationIds_spec he
    refine ⟨h1.imp fun h => h.ne, fun i hi => ?_⟩
    obtain ⟨j, _, t, ht, e⟩ := (h2 i).1 hi
    obtain ⟨k, hk, _⟩ := (pyGet_iff _ _ _).1 ht
    exact ⟨t, List.mem_of_getElem? hk, e⟩
  | scenarioGen =>
    have : evaluationIds s .scenarioGen = simAgentIds s .scenarioGen := rfl
    rw [this, simAgentIds_eq h hn, Option.some.injEq] at he
    subst he
    refine ⟨((List.filter_sublist (l := s.tracks)).map Track.id).nodup h.ids, fun i hi => ?_⟩
    obtain ⟨t, ht, e⟩ := List.mem_map.1 hi
    exact ⟨t, ((agents_iff s t).1 ht).1, e⟩

/-! ### The features in terms of the objects -/

/-- The mask of the evaluated objects. -/
def frontMask (a b : ℕ) : List Bool := List.replicate a true ++ List.replicate b false

/-- The violations of evaluated objects. -/
def lightFor (order : List ℤ → List ℤ) (m : MapData) (objs : List (Sim ℝ)) : Option (List (List Bool)) :=
  if lanes m ≠ [] ∧ m.signals ≠ [] then objs.mapM (lightOf order m) else some (objs.map fun _ => List.replicate 91 false)

open Classical in
/-- The features of arranged objects. -/
def arranged (order : List ℤ → List ℤ) (m : MapData) (ch : Challenge) (lv : Bool) (eval rest : List (Sim ℝ × Track ℝ)) : Option Features := do
  let objs := (eval ++ rest).map (entity ch lv)
  let near ← nearestAll 91 objs (frontMask eval.length rest.length)
  let time ← timeAll 91 objs (frontMask eval.length rest.length)
  let edge ← (List.range 91).mapM fun s => (eval.map (entity ch lv)).mapM (edgeAt (roadEdges m) s)
  let light ← lightFor order m (eval.map (entity ch lv))
  pure {
    id := eval.map fun p => p.1.id
    type := eval.map fun p => (entity ch lv p).type
    valid := eval.map fun p => (if lv then p.2.states.map State.valid else (entity ch lv p).valid).drop (cutoff ch)
    error := eval.map fun p => if ch = .simAgents then displacement (entity ch lv p) (logged p.2) else some 0
    kinematic := eval.map fun p => cut (cutoff ch) (kinematic (entity ch lv p))
    nearest := near.drop (cutoff ch)
    collision := (near.drop (cutoff ch)).map fun l => l.map fun d => decide (d < 0)
    time := time.drop (cutoff ch)
    edge := edge.drop (cutoff ch)
    offroad := (edge.drop (cutoff ch)).map fun l => l.map fun d => decide (d > 0)
    redLight := light.map (List.drop (cutoff ch)) }

theorem steps_eq {l : List (List Bool)} {n : ℕ} (hne : l ≠ []) (h : ∀ a ∈ l, a.length = n) : steps l = n := by
  cases l with
  | nil => exact absurd rfl hne
  | cons a l => simp [steps, h a (by simp)]

theorem perm_of_ids {pairs l : List (Sim ℝ × Track ℝ)} (hn : (pairs.map fun p => p.1.id).Nodup) (hsub : ∀ p ∈ l, p ∈ pairs)
    (hl : (l.map fun p => p.1.id).Nodup) (hall : ∀ p ∈ pairs, p.1.id ∈ l.map fun p => p.1.id) : l.Perm pairs := by
  rw [List.perm_ext_iff_of_nodup hl.of_map hn.of_map]
  intro p
  refine ⟨hsub p, fun hp => ?_⟩
  obtain ⟨q, hq, e⟩ := List.mem_map.1 (hall p hp)
  have := List.inj_on_of_nodup_map hn (hsub q hq) hp e
  exact this ▸ hq

/-- The features of a scene in terms of its objects, arranged with the evaluated ones first. -/
theorem compute_eq {order : List ℤ → List ℤ} (ho : Listing order) {s : Scenario ℝ} {m : MapData} {ch : Challenge}
    {pairs : List (Sim ℝ × Track ℝ)} (h : Posed s ch pairs) {ids : List ℤ} (he : evaluationIds s ch = some ids) (hne : ids ≠ [])
    (hin : ∀ i ∈ ids, ∃ p ∈ pairs, p.1.id = i) (lv : Bool) :
    ∃ eval rest, Arranged pairs eval rest ids ∧
      (rest.map fun p => p.1.id) = order ((pairs.map fun p => p.1.id).filter fun i => i ∉ ids) ∧
      compute order s m (pairs.map Prod.fst) ch lv = arranged order m ch lv eval rest := by
  obtain ⟨hnod, _⟩ := evaluationIds_nodup h.complete (by norm_num) he
  obtain ⟨eval, he1, he2⟩ := exists_pairs hin
  obtain ⟨rest, hr1, hr2⟩ := exists_pairs (pairs := pairs) (ids := order ((pairs.map fun p => p.1.id).filter fun i => i ∉ ids)) (by
    intro i hi
    rw [ho.mem, List.mem_filter] at hi
    obtain ⟨p, hp, e⟩ := List.mem_map.1 hi.1
    exact ⟨p, hp, e⟩)
  have hp0 : pairs ≠ [] := by
    rintro rfl
    cases ids with
    | nil => exact hne rfl
    | cons i _ => obtain ⟨p, hp, _⟩ := hin i (by simp); simp at hp
  have hev0 : eval ≠ [] := by
    rintro rfl
    exact hne he2.symm
  have hsub : ∀ p ∈ eval ++ rest, p ∈ pairs := by
    intro p hp
    rcases List.mem_append.1 hp with hp | hp
    · exact he1 p hp
    · exact hr1 p hp
  have hall : ((eval ++ rest).map fun p => p.1.id) = ids ++ order ((pairs.map fun p => p.1.id).filter fun i => i ∉ ids) := by
    rw [List.map_append, he2, hr2]
  have hperm : (eval ++ rest).Perm pairs := by
    apply perm_of_ids h.ids hsub
    · rw [hall, List.nodup_append]
      refine ⟨hnod, ho.nodup _, ?_⟩
      rintro a ha b hb rfl
      rw [ho.mem, List.mem_filter] at hb
      simp [ha] at hb
    · intro p hp
      rw [hall, List.mem_append, ho.mem, List.mem_filter]
      by_cases hi : p.1.id ∈ ids
      · exact Or.inl hi
      · exact Or.inr ⟨List.mem_map.2 ⟨p, hp, rfl⟩, by simp [hi]⟩
  refine ⟨eval, rest, ⟨hperm, he2⟩, hr2, ?_⟩
  -- the tensors
  have hidsE : ∀ l : List (Sim ℝ × Track ℝ), (l.map (entity ch lv)).map Sim.id = l.map fun p => p.1.id := by
    intro l
    rw [List.map_map]
    exact List.map_congr_left fun p _ => entity_id ch lv p
  have hnE : ((pairs.map (entity ch lv)).map Sim.id).Nodup := by rw [hidsE]; exact h.ids
  have hg : ∀ l : List (Sim ℝ × Track ℝ), (∀ p ∈ l, p ∈ pairs) →
      gatherById (ofSims (pairs.map (entity ch lv))) (l.map fun p => p.1.id) = some (ofSims (l.map (entity ch lv))) := by
    intro l hl
    rw [← hidsE]
    apply gatherById_sims _ hnE
    intro o ho
    obtain ⟨p, hp, rfl⟩ := List.mem_map.1 ho
    exact List.mem_map.2 ⟨p, hl p hp, rfl⟩
  have hL1 : gatherById (ofTracks s.tracks) (ofSims (pairs.map (entity ch lv))).id = some (ofSims (pairs.map fun p => logged p.2)) := by
    have e : (ofSims (pairs.map (entity ch lv))).id = (pairs.map Prod.snd).map Track.id := by
      show (pairs.map (entity ch lv)).map Sim.id = _
      rw [hidsE, List.map_map]
      exact List.map_congr_left fun p hp => (h.track p hp).2.symm
    rw [e, gatherById_ofTracks _ h.complete.ids, ofTracks_eq, List.map_map]
    · rfl
    · intro t ht
      obtain ⟨p, hp, rfl⟩ := List.mem_map.1 ht
      exact (h.track p hp).1
  have hidsL : ∀ l : List (Sim ℝ × Track ℝ), (∀ p ∈ l, p ∈ pairs) → (l.map fun p => logged p.2).map Sim.id = l.map fun p => p.1.id := by
    intro l hl
    rw [List.map_map]
    exact List.map_congr_left fun p hp => (h.track p (hl p hp)).2
  have hL2 : gatherById (ofSims (pairs.map fun p => logged p.2)) ids = some (ofSims (eval.map fun p => logged p.2)) := by
    rw [← he2, ← hidsL eval he1]
    apply gatherById_sims
    · intro o ho
      obtain ⟨p, hp, rfl⟩ := List.mem_map.1 ho
      exact List.mem_map.2 ⟨p, he1 p hp, rfl⟩
    · rw [hidsL pairs fun p hp => hp]
      exact h.ids
  have hmask : ((ofSims ((eval ++ rest).map (entity ch lv))).id.map fun i => decide (i ∈ ids)) = frontMask eval.length rest.length := by
    show ((((eval ++ rest).map (entity ch lv)).map Sim.id).map fun i => decide (i ∈ ids)) = _
    rw [hidsE, hall, List.map_append]
    unfold frontMask
    congr 1
    · rw [List.eq_replicate_iff]
      refine ⟨by rw [List.length_map, ← he2, List.length_map], ?_⟩
      intro b hb
      obtain ⟨i, hi, rfl⟩ := List.mem_map.1 hb
      simpa using hi
    · rw [List.eq_replicate_iff]
      refine ⟨by rw [List.length_map, ← hr2, List.length_map], ?_⟩
      intro b hb
      obtain ⟨i, hi, rfl⟩ := List.mem_map.1 hb
      rw [ho.mem, List.mem_filter] at hi
      simpa using hi.2
  have hn1 : steps (ofSims ((eval ++ rest).map (entity ch lv))).valid = 91 := by
    apply steps_eq
    · simp [ofSims, hev0]
    · intro a ha
      obtain ⟨o, ho', rfl⟩ := List.mem_map.1 ha
      obtain ⟨p, hp, rfl⟩ := List.mem_map.1 ho'
      exact (entity_len h (hsub p hp) lv).1
  have hn2 : steps (ofSims (eval.map fun p => logged p.2)).valid = 91 := by
    apply steps_eq
    · simp [ofSims, hev0]
    · intro a ha
      obtain ⟨o, ho', rfl⟩ := List.mem_map.1 ha
      obtain ⟨p, hp, rfl⟩ := List.mem_map.1 ho'
      simpa [logged] using h.complete.len p.2 (h.track p (he1 p hp)).1
  have hidsS : (ofSims (pairs.map (entity ch lv))).id = pairs.map fun p => p.1.id := hidsE pairs
  have hgat : Interaction.gather ((eval ++ rest).map (entity ch lv)) (Interaction.whereTrue (frontMask eval.length rest.length)) =
      some (eval.map (entity ch lv)) := by
    unfold frontMask
    rw [whereTrue_front, List.map_append, show eval.length = (eval.map (entity ch lv)).length by simp, gather_front]
  have hedge : edgeAll m 91 ((eval ++ rest).map (entity ch lv)) (frontMask eval.length rest.length) =
      (List.range 91).mapM fun s => (eval.map (entity ch lv)).mapM (edgeAt (roadEdges m) s) := by
    unfold edgeAll
    rw [hgat]
    rfl
  have hlight : lightAll order m ids.length 91 ((eval ++ rest).map (entity ch lv)) (frontMask eval.length rest.length) =
      lightFor order m (eval.map (entity ch lv)) := by
    unfold lightAll lightFor
    rw [hgat]
    split
    · rfl
    · rw [List.map_const', List.length_map, ← he2, List.length_map]
  have herr : errors ch (eval.map (entity ch lv)) (eval.map fun p => logged p.2) 91 91 =
      some (eval.map fun p => if ch = .simAgents then displacement (entity ch lv p) (logged p.2) else some 0) := by
    cases ch with
    | simAgents =>
      simp only [errors, if_true]
      rw [zipWith_map_map]
    | scenarioGen =>
      simp only [errors, reduceCtorEq, if_false, List.map_map]
      rfl
  have hval : (if lv then (ofSims (eval.map fun p => logged p.2)).valid else (ofSims (eval.map (entity ch lv))).valid).map (List.drop (cutoff ch)) =
      eval.map fun p => (if lv then p.2.states.map State.valid else (entity ch lv p).valid).drop (cutoff ch) := by
    cases lv <;> simp [ofSims, logged, Function.comp_def]
  have hid' : (ofSims (eval.map (entity ch lv))).id = eval.map fun p => p.1.id := hidsE eval
  have hty : (ofSims (eval.map (entity ch lv))).type = eval.map fun p => (entity ch lv p).type := by simp only [ofSims, List.map_map]; rfl
  have hallE : gatherById (ofSims (pairs.map (entity ch lv)))
      (ids ++ order ((ofSims (pairs.map (entity ch lv))).id.filter fun i => i ∉ ids)) = some (ofSims ((eval ++ rest).map (entity ch lv))) := by
    rw [hidsS, ← hall]
    exact hg _ hsub
  have hevE : gatherById (ofSims (pairs.map (entity ch lv))) ids = some (ofSims (eval.map (entity ch lv))) := by rw [← he2]; exact hg eval he1
  unfold compute
  refine bind_of (trajectories_eq h hp0 lv) ?_
  refine bind_of (fromScenario_eq h.complete) ?_
  refine bind_of hL1 ?_
  refine bind_of he ?_
  refine bind_of (if_neg hne) ?_
  refine bind_of hevE ?_
  refine bind_of hallE ?_
  refine bind_of hL2 ?_
  dsimp only
  refine bind_of (rows_sims _) ?_
  refine bind_of (rows_sims _) ?_
  refine bind_of (rows_sims _) ?_
  rw [hmask, hn1, hn2, hedge, hlight, herr, hval, hid', hty]
  rw [show ((eval.map (entity ch lv)).map fun r => cut (cutoff ch) (kinematic r)) = eval.map fun p => cut (cutoff ch) (kinematic (entity ch lv p)) by
    rw [List.map_map]; rfl]
  rfl

end

end Verif.SimFeatures
