import Verif.Props.SimAgents

/-! C48: conversions between scenarios and submissions. -/

namespace Verif.SimAgents

/-- The trajectories of a list of tracks. -/
def ofTracks {α : Type} (ts : List (Track α)) : Trajs α :=
  ⟨fun f => ts.map fun t => t.states.map fun st => st.num f, ts.map fun t => t.states.map State.valid, ts.map Track.id, ts.map Track.type⟩

/-- All tracks have the same number of states, at least one, and their ids differ. -/
structure Complete {α : Type} (s : Scenario α) (n : ℕ) : Prop where
  some : s.tracks ≠ []
  pos : 0 < n
  len : ∀ t ∈ s.tracks, t.states.length = n
  ids : (s.tracks.map Track.id).Nodup

theorem rect_of {β : Type} {l : List (List β)} {n : ℕ} (h : ∀ a ∈ l, a.length = n) : rect l = some l := by
  cases l with
  | nil => rfl
  | cons a l =>
    have : (l.all fun b => b.length = a.length) = true := by
      rw [List.all_eq_true]
      intro b hb
      simp [h a (by simp), h b (by simp [hb])]
    simp only [rect, this, if_true]

theorem fromScenario_eq {α : Type} {s : Scenario α} {n : ℕ} (h : Complete s n) : fromScenario s = some (ofTracks s.tracks) := by
  unfold fromScenario
  rw [if_neg, rect_of (n := n)]
  · rfl
  · intro a ha
    obtain ⟨t, ht, rfl⟩ := List.mem_map.1 ha
    rw [List.length_map, h.len t ht]
  · rintro (h' | h')
    · exact h.some h'
    · rw [List.any_eq_true] at h'
      obtain ⟨t, ht, he⟩ := h'
      have := h.len t ht
      rw [List.isEmpty_iff.1 he] at this
      have := h.pos
      simp_all

/-- A scenario is read exactly if it has tracks and all have the same number of states, at least one. -/
theorem fromScenario_iff {α : Type} (s : Scenario α) : (∃ t, fromScenario s = some t) ↔
    s.tracks ≠ [] ∧ ∃ n, 0 < n ∧ ∀ t ∈ s.tracks, t.states.length = n := by
  unfold fromScenario
  constructor
  · rintro ⟨t, h⟩
    split at h
    · simp at h
    next h0 =>
      push Not at h0
      refine ⟨h0.1, ?_⟩
      have hne : ∀ t ∈ s.tracks, t.states ≠ [] := by
        intro t ht e
        exact h0.2 (List.any_eq_true.2 ⟨t, ht, by simp [e]⟩)
      cases hs : s.tracks with
      | nil => exact absurd hs h0.1
      | cons a rest =>
        rw [hs] at h hne
        simp only [List.map_cons, rect] at h
        split at h
        next hall =>
          rw [List.all_eq_true] at hall
          refine ⟨a.states.length, List.length_pos_iff.2 (hne a (by simp)), ?_⟩
          intro t ht
          rcases List.mem_cons.1 ht with rfl | ht
          · rfl
          · simpa using hall _ (List.mem_map.2 ⟨t, ht, rfl⟩)
        next => simp at h
  · rintro ⟨h1, n, hn, h2⟩
    rw [if_neg, rect_of (n := n)]
    · exact ⟨_, rfl⟩
    · intro a ha
      obtain ⟨t, ht, rfl⟩ := List.mem_map.1 ha
      rw [List.length_map, h2 t ht]
    · rintro (h' | h')
      · exact h1 h'
      · rw [List.any_eq_true] at h'
        obtain ⟨t, ht, he⟩ := h'
        have := h2 t ht
        rw [List.isEmpty_iff.1 he] at this
        simp at this
        omega

/-- Cutting a track in time. -/
def Track.cut {α : Type} (start : ℕ) (stop : Option ℕ) (t : Track α) : Track α := ⟨t.id, t.type, slice start stop t.states⟩

theorem slice_map {β γ : Type} (start : ℕ) (stop : Option ℕ) (f : β → γ) (l : List β) : slice start stop (l.map f) = (slice start stop l).map f := by
  cases stop <;> simp [slice]

theorem sliceTime_ofTracks {α : Type} (start : ℕ) (stop : Option ℕ) (ts : List (Track α)) :
    sliceTime start stop (ofTracks ts) = ofTracks (ts.map (Track.cut start stop)) := by
  unfold sliceTime ofTracks
  simp only [List.map_map, Trajs.mk.injEq]
  refine ⟨?_, ?_, ?_, ?_⟩
  · funext f
    apply List.map_congr_left
    intro t _
    simp [Track.cut, slice_map]
  · apply List.map_congr_left
    intro t _
    simp [Track.cut, slice_map]
  · exact List.map_congr_left fun _ _ => rfl
  · exact List.map_congr_left fun _ _ => rfl

theorem gather_idx {α β : Type} {tracks ts : List (Track α)} (hsub : ∀ t ∈ ts, t ∈ tracks) (hn : (tracks.map Track.id).Nodup) (g : Track α → β) :
    gather (tracks.map g) (ts.map fun t => (tracks.map Track.id).idxOf t.id) = some (ts.map g) := by
  rw [gather_iff]
  induction ts with
  | nil => exact .nil
  | cons t ts ih =>
    refine .cons ?_ (ih fun u hu => hsub u (by simp [hu]))
    obtain ⟨k, hk, e⟩ := List.getElem_of_mem (hsub t (by simp))
    have hk' : k < (tracks.map Track.id).length := by simpa using hk
    have h1 : (tracks.map Track.id)[k] = t.id := by rw [List.getElem_map, e]
    have : (tracks.map Track.id).idxOf t.id = k := by rw [← h1, hn.idxOf_getElem]
    dsimp only
    rw [this, List.getElem?_map, List.getElem?_eq_getElem hk, e]
    rfl

/-- Gathering the ids of some of the tracks gives these tracks. -/
theorem gatherById_ofTracks {α : Type} {tracks ts : List (Track α)} (hsub : ∀ t ∈ ts, t ∈ tracks) (hn : (tracks.map Track.id).Nodup) :
    gatherById (ofTracks tracks) (ts.map Track.id) = some (ofTracks ts) := by
  unfold gatherById
  have h : argGather (ofTracks tracks).id (ts.map Track.id) = some (ts.map fun t => (tracks.map Track.id).idxOf t.id) := by
    rw [argGather_iff]
    refine ⟨?_, by rw [List.map_map]; rfl⟩
    intro r hr
    obtain ⟨t, ht, rfl⟩ := List.mem_map.1 hr
    exact List.count_eq_one_of_mem hn (List.mem_map.2 ⟨t, hsub t ht, rfl⟩)
  rw [h]
  simp [gatherObjects, gatherNum, ofTracks, gather_idx hsub hn]
  funext f
  cases f <;> rfl

/-- The tracks that are valid at the current step. -/
def agents {α : Type} (s : Scenario α) : List (Track α) := s.tracks.filter fun t => ((t.states[10]?).map State.valid).getD false

theorem agents_iff {α : Type} (s : Scenario α) (t : Track α) : t ∈ agents s ↔ t ∈ s.tracks ∧ t.Now true := by
  unfold agents Track.Now
  rw [List.mem_filter]
  cases t.states[10]? <;> simp

theorem simAgentIds_eq {α : Type} {s : Scenario α} {n : ℕ} (h : Complete s n) (hn : 10 < n) (ch : Challenge) :
    simAgentIds s ch = some ((agents s).map Track.id) := by
  have key : ∀ ts : List (Track α), (∀ t ∈ ts, t.states.length = n) → ts.mapM (isSimAgent (config ch)) =
      some (ts.map fun t => ((t.states[10]?).map State.valid).getD false) := by
    intro ts
    induction ts with
    | nil => intro _; rfl
    | cons t ts ih =>
      intro hts
      have h1 : isSimAgent (config ch) t = some (((t.states[10]?).map State.valid).getD false) := by
        have hl := hts t (by simp)
        unfold isSimAgent
        rw [config_current, List.getElem?_eq_getElem (show 10 < t.states.length by omega)]
        rfl
      rw [List.mapM_cons, h1, ih fun u hu => hts u (by simp [hu])]
      rfl
  unfold simAgentIds agents
  rw [key s.tracks h.len]
  simp only [Option.bind_eq_bind, Option.bind_some, Option.pure_def, Option.some.injEq]
  generalize s.tracks = ts
  induction ts with
  | nil => rfl
  | cons t ts ih =>
    rw [List.map_cons, List.zip_cons_cons, List.filter_cons, List.filter_cons]
    by_cases hv : ((t.states[10]?).map State.valid).getD false = true
    · rw [if_pos hv, if_pos hv, List.map_cons, List.map_cons, ih]
    · rw [if_neg hv, if_neg hv, ih]

/-- The trajectory that follows the log: the states after the current one, or all states. -/
def follow {α : Type} (ch : Challenge) (t : Track α) : Sim α :=
  let states := if ch = .simAgents then t.states.drop 11 else t.states
  ⟨fun f => states.map fun st => st.num f, states.map State.valid, t.id, t.type⟩

theorem rows_ofTracks {α : Type} (ts : List (Track α)) : (List.range (ofTracks ts).id.length).mapM (row (ofTracks ts)) =
    some (ts.map fun t => ⟨fun f => t.states.map fun st => st.num f, t.states.map State.valid, t.id, t.type⟩) := by
  rw [ListM.mapM_some_iff, List.forall₂_iff_get]
  refine ⟨by simp [ofTracks], ?_⟩
  intro i h1 h2
  have hi : i < ts.length := by simpa using h2
  simp [row, ofTracks, List.getElem?_eq_getElem hi]
  funext f
  cases f <;> rfl

/-- C48: the submission made of a scenario has one trajectory for each track that is valid at the current step, in the order of the tracks, and it
follows the log. -/
theorem toScene_spec {α : Type} {s : Scenario α} (h : Complete s 91) (hag : agents s ≠ []) (ch : Challenge) :
    toScene s ch = some ((agents s).map (follow ch)) := by
  unfold toScene
  rw [fromScenario_eq h, simAgentIds_eq h (by norm_num)]
  have hne : (agents s).map Track.id ≠ [] := by simpa using hag
  simp only [Option.bind_eq_bind, Option.bind_some, idTensor, if_neg hne]
  rw [gatherById_ofTracks (fun t ht => ((agents_iff s t).1 ht).1) h.ids]
  simp only [Option.bind_some]
  have hsteps : ∀ (ts : List (Track α)) (m : ℕ), ts ≠ [] → (∀ t ∈ ts, t.states.length = m) → steps (ofTracks ts).valid = m := by
    intro ts m hts hm
    cases ts with
    | nil => exact absurd rfl hts
    | cons t ts => simp [steps, ofTracks, hm t (by simp)]
  have heq : ∀ ts : List (Track α), allEqual (ofTracks ts) = true := by intro ts; simp [allEqual, ofTracks]
  have hlen : ∀ t ∈ agents s, t.states.length = 91 := fun t ht => h.len t ((agents_iff s t).1 ht).1
  cases ch with
  | simAgents =>
    simp only [if_true]
    rw [sliceTime_ofTracks, hsteps _ 80 (by simpa using hag) (by
      intro t ht
      obtain ⟨u, hu, rfl⟩ := List.mem_map.1 ht
      simp [Track.cut, slice, config, hlen u hu]), heq]
    simp only [config, ne_eq, not_true_eq_false, if_false]
    rw [rows_ofTracks, List.map_map]
    rfl
  | scenarioGen =>
    simp only [reduceCtorEq, if_false]
    rw [hsteps _ 91 hag hlen, heq]
    simp only [config, ne_eq, not_true_eq_false, if_false]
    rw [rows_ofTracks]
    rfl

/-- C48: the submission made of a scenario is valid, with exactly one trajectory for each required object. -/
theorem toScene_valid {α : Type} {s : Scenario α} (h : Complete s 91) (hag : agents s ≠ []) (ch : Challenge) :
    ∃ scene, toScene s ch = some scene ∧ validateScene scene s ch = some () ∧ (scene.map Sim.id).Nodup := by
  refine ⟨_, toScene_spec h hag ch, ?_, ?_⟩
  · rw [validateScene_partial _ (fun t ht => by rw [h.len t ht]; norm_num)]
    constructor
    · intro sim hsim
      obtain ⟨t, ht, rfl⟩ := List.mem_map.1 hsim
      have hl := h.len t ((agents_iff s t).1 ht).1
      cases ch <;> simp [follow, Challenge.steps, hl]
    · intro i
      constructor
      · rintro ⟨sim, hsim, rfl⟩
        obtain ⟨t, ht, rfl⟩ := List.mem_map.1 hsim
        obtain ⟨h1, h2⟩ := (agents_iff s t).1 ht
        exact ⟨t, h1, by cases ch <;> rfl, h2⟩
      · rintro ⟨t, ht, rfl, hnow⟩
        exact ⟨follow ch t, List.mem_map.2 ⟨t, (agents_iff s t).2 ⟨ht, hnow⟩, rfl⟩, by cases ch <;> rfl⟩
  · rw [List.map_map]
    have : (agents s).map (Sim.id ∘ follow ch) = (agents s).map Track.id := List.map_congr_left fun t _ => by cases ch <;> rfl
    rw [this]
    exact ((List.filter_sublist (l := s.tracks)).map Track.id).nodup h.ids

/-- The track an object of a scene belongs to. -/
def OfTrack {α : Type} (s : Scenario α) (sim : Sim α) (t : Track α) : Prop := t ∈ s.tracks ∧ t.id = sim.id

/-- The trajectory of an object: its history in the log and then the simulated states, with the box of the current step. -/
def joined {α : Type} (sim : Sim α) (t : Track α) : Field → List α
  | .x => (t.states.take 11).map (fun st => st.num .x) ++ sim.num .x
  | .y => (t.states.take 11).map (fun st => st.num .y) ++ sim.num .y
  | .z => (t.states.take 11).map (fun st => st.num .z) ++ sim.num .z
  | .heading => (t.states.take 11).map (fun st => st.num .heading) ++ sim.num .heading
  | f => (t.states.take 11).map (fun st => st.num f) ++
      ((t.states[10]?).map fun st => List.replicate (sim.num .x).length (st.num f)).getD []

theorem mapM_repeatLast {α : Type} {ts : List (Track α)} {n m : ℕ} (hn : 10 < n) (hlen : ∀ t ∈ ts, t.states.length = n) (f : Field) :
    ((ofTracks (ts.map (Track.cut 0 (some 11)))).num f).mapM (repeatLast m) =
      some (ts.map fun t => ((t.states[10]?).map fun st => List.replicate m (st.num f)).getD []) := by
  induction ts with
  | nil => rfl
  | cons t ts ih =>
    have ih := ih fun u hu => hlen u (by simp [hu])
    have hl := hlen t (by simp)
    simp only [ofTracks, List.map_cons] at ih ⊢
    rw [List.mapM_cons, ih]
    have h10 : t.states[10]? = some (t.states[10]'(by omega)) := List.getElem?_eq_getElem (by omega)
    have : repeatLast m (((Track.cut 0 (some 11) t).states).map fun st => st.num f) = some (List.replicate m ((t.states[10]'(by omega)).num f)) := by
      unfold repeatLast Track.cut slice
      dsimp only
      rw [List.drop_zero, List.getLast?_map, List.getLast?_eq_getElem?, List.length_take, List.getElem?_take_of_lt (by omega)]
      rw [show min 11 t.states.length - 1 = 10 by omega, h10]
      rfl
    rw [this, h10]
    rfl

theorem bind_of {β γ : Type} {x : Option β} {a : β} {f : β → Option γ} {r : Option γ} (h : x = some a) (h' : f a = r) : (x >>= f) = r := by
  rw [h]; exact h'

theorem zipWith_map_map {β γ δ ε : Type} (f : γ → δ → ε) (g : β → γ) (h : β → δ) (l : List β) :
    List.zipWith f (l.map g) (l.map h) = l.map fun b => f (g b) (h b) := by
  induction l with
  | nil => rfl
  | cons a l ih => simp [ih]

/-- C48: what a submission means: for every object the history of its track in the log followed by the simulated positions and headings; the box
keeps the size it has at the current step, the type is the one of the log, and the future is valid, or as valid as in the log. -/
theorem sceneToTrajs_spec {α : Type} {s : Scenario α} {n m : ℕ} (h : Complete s n) (hn : 10 < n) {pairs : List (Sim α × Track α)} (hne : pairs ≠ [])
    (hp : ∀ p ∈ pairs, OfTrack s p.1 p.2 ∧ ∀ f, f = .x ∨ f = .y ∨ f = .z ∨ f = .heading → (p.1.num f).length = m) (logValidity : Bool) :
    sceneToTrajs (pairs.map Prod.fst) s logValidity = some
      ⟨fun f => pairs.map fun p => joined p.1 p.2 f,
       pairs.map fun p => (p.2.states.take 11).map State.valid ++ (if logValidity then (p.2.states.drop 11).map State.valid else List.replicate m true),
       pairs.map fun p => p.1.id, pairs.map fun p => p.2.type⟩ := by
  have hids : (pairs.map Prod.fst).map Sim.id = (pairs.map Prod.snd).map Track.id := by
    rw [List.map_map, List.map_map]
    exact List.map_congr_left fun p hp' => (hp p hp').1.2.symm
  have hsub : ∀ t ∈ pairs.map Prod.snd, t ∈ s.tracks := by
    intro t ht
    obtain ⟨p, hp', rfl⟩ := List.mem_map.1 ht
    exact (hp p hp').1.1
  have hlen : ∀ t ∈ pairs.map Prod.snd, t.states.length = n := fun t ht => h.len t (hsub t ht)
  have hrect : ∀ f, f = .x ∨ f = .y ∨ f = .z ∨ f = .heading →
      sceneTensor (pairs.map Prod.fst) (fun t => t.num f) = some (pairs.map fun p => p.1.num f) := by
    intro f hf
    unfold sceneTensor
    rw [List.map_map]
    apply rect_of (n := m)
    intro a ha
    obtain ⟨p, hp', rfl⟩ := List.mem_map.1 ha
    exact (hp p hp').2 f hf
  have hnei : (pairs.map Prod.fst).map Sim.id ≠ [] := by simpa using hne
  have hhist : gatherById (sliceTime 0 (some 11) (ofTracks s.tracks)) ((pairs.map Prod.fst).map Sim.id) =
      some (ofTracks ((pairs.map Prod.snd).map (Track.cut 0 (some 11)))) := by
    rw [sliceTime_ofTracks, hids]
    have : (pairs.map Prod.snd).map Track.id = ((pairs.map Prod.snd).map (Track.cut 0 (some 11))).map Track.id := by
      simp only [List.map_map]; rfl
    rw [this]
    apply gatherById_ofTracks
    · intro t ht
      obtain ⟨u, hu, rfl⟩ := List.mem_map.1 ht
      exact List.mem_map.2 ⟨u, hsub u hu, rfl⟩
    · rw [List.map_map]
      exact h.ids
  have hst : steps (pairs.map fun p => p.1.num .x) = m := by
    cases pairs with
    | nil => exact absurd rfl hne
    | cons p ps => simp [steps, (hp p (by simp)).2 .x (Or.inl rfl)]
  have hcat : ∀ {β : Type} (g : Track α → List β) (k : Sim α × Track α → List β),
      concat (((pairs.map Prod.snd).map (Track.cut 0 (some 11))).map g) (pairs.map k) =
        some (pairs.map fun p => g (Track.cut 0 (some 11) p.2) ++ k p) := by
    intro β g k
    unfold concat
    rw [if_pos (by simp), List.map_map, List.map_map, zipWith_map_map]
    rfl
  have hrep : ∀ f, ((ofTracks ((pairs.map Prod.snd).map (Track.cut 0 (some 11)))).num f).mapM (repeatLast (steps (pairs.map fun p => p.1.num .x))) =
      some (pairs.map fun p => ((p.2.states[10]?).map fun st => List.replicate m (st.num f)).getD []) := by
    intro f
    rw [hst, mapM_repeatLast hn hlen, List.map_map]
    rfl
  have hfull : (if logValidity then gatherById (ofTracks s.tracks) ((pairs.map Prod.fst).map Sim.id) else some (ofTracks s.tracks)) =
      some (if logValidity then ofTracks (pairs.map Prod.snd) else ofTracks s.tracks) := by
    cases logValidity with
    | true => rw [if_pos rfl, if_pos rfl, hids]; exact gatherById_ofTracks hsub h.ids
    | false => rfl
  have hvalid : (if logValidity then (sliceTime (10 + 1) none (if logValidity then ofTracks (pairs.map Prod.snd) else ofTracks s.tracks)).valid
      else (pairs.map fun p => p.1.num .x).map fun r => r.map fun _ => true) =
      pairs.map fun p => if logValidity then (p.2.states.drop 11).map State.valid else List.replicate m true := by
    cases logValidity with
    | true =>
      simp only [if_true]
      rw [sliceTime_ofTracks]
      simp only [ofTracks, List.map_map]
      rfl
    | false =>
      simp only [Bool.false_eq_true, if_false]
      rw [List.map_map]
      refine List.map_congr_left fun p hp' => ?_
      simp [(hp p hp').2 .x (Or.inl rfl)]
  have hnum : ∀ (f : Field) (k : Sim α × Track α → List α),
      concat ((ofTracks ((pairs.map Prod.snd).map (Track.cut 0 (some 11)))).num f) (pairs.map k) =
        some (pairs.map fun p => (p.2.states.take 11).map (fun st => st.num f) ++ k p) :=
    fun f k => hcat (fun t : Track α => t.states.map fun st : State α => st.num f) k
  unfold sceneToTrajs
  refine bind_of (fromScenario_eq h) ?_
  refine bind_of (hrect .x (by simp)) ?_
  refine bind_of (hrect .y (by simp)) ?_
  refine bind_of (hrect .z (by simp)) ?_
  refine bind_of (hrect .heading (by simp)) ?_
  refine bind_of (if_neg hnei) ?_
  refine bind_of hhist ?_
  refine bind_of hfull ?_
  refine bind_of (hrep .length) ?_
  refine bind_of (hrep .width) ?_
  refine bind_of (hrep .height) ?_
  refine bind_of (hnum .x _) ?_
  refine bind_of (hnum .y _) ?_
  refine bind_of (hnum .z _) ?_
  refine bind_of (hnum .heading _) ?_
  refine bind_of (hnum .length _) ?_
  refine bind_of (hnum .width _) ?_
  refine bind_of (hnum .height _) ?_
  refine bind_of (x := concat ((ofTracks ((pairs.map Prod.snd).map (Track.cut 0 (some 11)))).valid) _)
    (Eq.trans (congrArg (concat _) hvalid) (hcat (fun t => t.states.map State.valid) _)) ?_
  refine congrArg some ?_
  rw [Trajs.mk.injEq]
  refine ⟨?_, rfl, by rw [List.map_map]; rfl, by simp only [ofTracks, List.map_map]; rfl⟩
  funext f
  cases f with
  | x => rfl
  | y => rfl
  | z => rfl
  | heading => rfl
  | length => exact List.map_congr_left fun p hp' => by simp only [joined, (hp p hp').2 .x (Or.inl rfl)]
  | width => exact List.map_congr_left fun p hp' => by simp only [joined, (hp p hp').2 .x (Or.inl rfl)]
  | height => exact List.map_congr_left fun p hp' => by simp only [joined, (hp p hp').2 .x (Or.inl rfl)]

/-- C48: turning a scenario into a submission and back gives the tracks of the log that are valid at the current step: positions, headings, validity,
ids and types.  The sizes of the boxes are missing: they are only those of the log if these do not change after the current step. -/
theorem roundTrip_partial {α : Type} {s : Scenario α} (h : Complete s 91) (hag : agents s ≠ []) :
    ∃ scene t, toScene s .simAgents = some scene ∧ sceneToTrajs scene s true = some t ∧
      t.valid = (agents s).map (fun t => t.states.map State.valid) ∧ t.id = (agents s).map Track.id ∧ t.type = (agents s).map Track.type ∧
      (∀ f, f = .x ∨ f = .y ∨ f = .z ∨ f = .heading → t.num f = (agents s).map fun t => t.states.map fun st => st.num f) ∧
      ∀ f, (∀ t ∈ agents s, ∀ st ∈ t.states.drop 11, ∀ now, t.states[10]? = some now → st.num f = now.num f) →
        t.num f = (agents s).map fun t => t.states.map fun st => st.num f := by
  have hlen : ∀ t ∈ agents s, t.states.length = 91 := fun t ht => h.len t ((agents_iff s t).1 ht).1
  have hspec := sceneToTrajs_spec h (by norm_num) (pairs := (agents s).map fun t => (follow .simAgents t, t)) (m := 80) (by simpa using hag) (by
    intro p hp
    obtain ⟨t, ht, rfl⟩ := List.mem_map.1 hp
    refine ⟨⟨((agents_iff s t).1 ht).1, rfl⟩, ?_⟩
    intro f _
    simp [follow, hlen t ht]) true
  rw [List.map_map] at hspec
  refine ⟨_, _, toScene_spec h hag .simAgents, hspec, ?_, ?_, ?_, ?_, ?_⟩
  · rw [List.map_map]
    refine List.map_congr_left fun t _ => ?_
    simp [Function.comp, ← List.map_append]
  · dsimp only; rw [List.map_map]; rfl
  · dsimp only; rw [List.map_map]; rfl
  · intro f hf
    dsimp only
    rw [List.map_map]
    refine List.map_congr_left fun t _ => ?_
    rcases hf with rfl | rfl | rfl | rfl <;> simp [joined, follow, Function.comp, ← List.map_append]
  · intro f hf
    dsimp only
    rw [List.map_map]
    refine List.map_congr_left fun t ht => ?_
    have hl := hlen t ht
    have h10 : t.states[10]? = some (t.states[10]'(by omega)) := List.getElem?_eq_getElem (by omega)
    have hrep : List.replicate 80 ((t.states[10]'(by omega)).num f) = (t.states.drop 11).map fun st => st.num f := by
      symm
      rw [List.eq_replicate_iff]
      refine ⟨by simp [hl], ?_⟩
      intro b hb
      obtain ⟨st, hst, rfl⟩ := List.mem_map.1 hb
      exact hf t ht st hst _ h10
    have hx : ((follow .simAgents t).num .x).length = 80 := by simp [follow, hl]
    cases f <;> simp only [joined, Function.comp, h10, Option.map_some, Option.getD_some, hx, hrep] <;>
      simp [follow, ← List.map_append]

/-- A scenario with one object whose length changes after the current step. -/
def growing : Scenario ℤ := ⟨[⟨7, 1, List.replicate 11 ⟨fun _ => 1, true⟩ ++ List.replicate 80 ⟨fun _ => 2, true⟩⟩], 0, []⟩

theorem growing_complete : Complete growing 91 := ⟨by simp [growing], by norm_num, by simp [growing], by simp [growing]⟩

theorem growing_agents : agents growing = growing.tracks := by simp [agents, growing]

/-- C48 does not hold for the sizes of the boxes: those after the current step are not the ones of the log. -/
theorem roundTrip_size_violated : ∃ scene t, toScene growing .simAgents = some scene ∧ sceneToTrajs scene growing true = some t ∧
    t.num .length = [List.replicate 91 1] ∧
    t.num .length ≠ growing.tracks.map (fun t => t.states.map fun st => st.num .length) := by
  have hag : agents growing ≠ [] := by rw [growing_agents]; simp [growing]
  have hspec := sceneToTrajs_spec growing_complete (by norm_num) (pairs := growing.tracks.map fun t => (follow .simAgents t, t)) (m := 80)
    (by simp [growing]) (by
    intro p hp
    obtain ⟨t, ht, rfl⟩ := List.mem_map.1 hp
    refine ⟨⟨ht, rfl⟩, ?_⟩
    intro f _
    simp [follow, growing_complete.len t ht]) true
  have h1 := toScene_spec growing_complete hag .simAgents
  rw [growing_agents] at h1
  rw [List.map_map] at hspec
  refine ⟨_, _, h1, hspec, ?_, ?_⟩
  · decide
  · decide

/-- C48: what a submission for scenario generation means: the numbers and types are those submitted, and an object is valid all the time or never, as
its track in the log is at the current step. -/
theorem genToTrajs_meaning {α : Type} {s : Scenario α} {n m : ℕ} (h : Complete s n) (hn : 10 < n) {pairs : List (Sim α × Track α)} (hne : pairs ≠ [])
    (hp : ∀ p ∈ pairs, OfTrack s p.1 p.2 ∧ ∀ f, (p.1.num f).length = m) (ch : Challenge) :
    genToTrajs (pairs.map Prod.fst) s ch = some ⟨fun f => pairs.map fun p => p.1.num f,
      pairs.map fun p => List.replicate m (((p.2.states[10]?).map State.valid).getD false), pairs.map fun p => p.1.id, pairs.map fun p => p.1.type⟩ := by
  have hT : ∀ f, sceneTensor (pairs.map Prod.fst) (fun t => t.num f) = some (pairs.map fun p => p.1.num f) := by
    intro f
    unfold sceneTensor
    rw [List.map_map]
    refine rect_of (n := m) ?_
    intro a ha
    obtain ⟨p, hp', rfl⟩ := List.mem_map.1 ha
    exact (hp p hp').2 f
  have hids : (pairs.map Prod.fst).map Sim.id = (pairs.map Prod.snd).map Track.id := by
    rw [List.map_map, List.map_map]
    exact List.map_congr_left fun p hp' => (hp p hp').1.2.symm
  have hsub : ∀ t ∈ pairs.map Prod.snd, t ∈ s.tracks := by
    intro t ht
    obtain ⟨p, hp', rfl⟩ := List.mem_map.1 ht
    exact (hp p hp').1.1
  have hnei : (pairs.map Prod.fst).map Sim.id ≠ [] := by simpa using hne
  have hst : steps (pairs.map fun p => p.1.num .x) = m := by
    cases pairs with
    | nil => exact absurd rfl hne
    | cons p ps => simp [steps, (hp p (by simp)).2 .x]
  have hnow : ((ofTracks (pairs.map Prod.snd)).valid.mapM fun r => r[(config ch).current]?) =
      some (pairs.map fun p => ((p.2.states[10]?).map State.valid).getD false) := by
    rw [ListM.mapM_some_iff]
    simp only [ofTracks, List.forall₂_map_left_iff, List.forall₂_map_right_iff, List.forall₂_same]
    intro p hp'
    have hl := h.len p.2 (hp p hp').1.1
    rw [List.getElem?_map, config_current, List.getElem?_eq_getElem (show 10 < p.2.states.length by omega)]
    rfl
  unfold genToTrajs
  refine bind_of (hT .x) ?_
  refine bind_of (hT .y) ?_
  refine bind_of (hT .z) ?_
  refine bind_of (hT .heading) ?_
  refine bind_of (hT .length) ?_
  refine bind_of (hT .width) ?_
  refine bind_of (hT .height) ?_
  refine bind_of (if_neg hnei) ?_
  refine bind_of (fromScenario_eq h) ?_
  refine bind_of (a := ofTracks (pairs.map Prod.snd)) (by rw [hids]; exact gatherById_ofTracks hsub h.ids) ?_
  refine bind_of hnow ?_
  refine congrArg some ?_
  rw [Trajs.mk.injEq, hst, List.map_map, List.map_map, List.map_map]
  refine ⟨?_, rfl, rfl, rfl⟩
  funext f
  cases f <;> rfl

/-- C48: a scenario turned into a submission for scenario generation and back gives the numbers of the log, all of them valid. -/
theorem genToTrajs_log {α : Type} {s : Scenario α} (h : Complete s 91) (hag : agents s ≠ []) :
    ∃ scene t, toScene s .scenarioGen = some scene ∧ genToTrajs scene s .scenarioGen = some t ∧
      (∀ f, t.num f = (agents s).map fun t => t.states.map fun st => st.num f) ∧ t.valid = (agents s).map (fun _ => List.replicate 91 true) ∧
      t.id = (agents s).map Track.id ∧ t.type = (agents s).map Track.type := by
  have hspec := genToTrajs_meaning h (by norm_num) (pairs := (agents s).map fun t => (follow .scenarioGen t, t)) (m := 91) (by simpa using hag) (by
    intro p hp
    obtain ⟨t, ht, rfl⟩ := List.mem_map.1 hp
    have h1 := ((agents_iff s t).1 ht).1
    exact ⟨⟨h1, rfl⟩, fun f => by simp [follow, h.len t h1]⟩) .scenarioGen
  rw [List.map_map] at hspec
  refine ⟨_, _, toScene_spec h hag .scenarioGen, hspec, ?_, ?_, ?_, ?_⟩
  · intro f
    dsimp only
    rw [List.map_map]; rfl
  · dsimp only
    rw [List.map_map]
    refine List.map_congr_left fun t ht => ?_
    obtain ⟨st, h1, h2⟩ := ((agents_iff s t).1 ht).2
    simp [h1, h2]
  · dsimp only; rw [List.map_map]; rfl
  · dsimp only; rw [List.map_map]; rfl

/-- Without an object that is valid at the current step there is no submission. -/
theorem toScene_none {α : Type} {s : Scenario α} {n : ℕ} (h : Complete s n) (hn : 10 < n) (hag : agents s = []) (ch : Challenge) :
    toScene s ch = none := by
  unfold toScene
  rw [fromScenario_eq h, simAgentIds_eq h hn, hag]
  simp [idTensor]

/-- Cutting in time: step `k` of the result is step `start + k` of the trajectory, as far as this is before the end. -/
theorem sliceTime_spec {α : Type} (start : ℕ) (stop : Option ℕ) (t : Trajs α) (j k : ℕ) :
    (sliceTime start stop t).id = t.id ∧ (sliceTime start stop t).type = t.type ∧
    (((sliceTime start stop t).valid[j]?).bind fun r => r[k]?) =
      (if (∀ e, stop = some e → start + k < e) then (t.valid[j]?).bind fun r => r[start + k]? else none) ∧
    ∀ f, ((((sliceTime start stop t).num f)[j]?).bind fun r => r[k]?) =
      (if (∀ e, stop = some e → start + k < e) then ((t.num f)[j]?).bind fun r => r[start + k]? else none) := by
  have key : ∀ {β : Type} (l : List (List β)), (((l.map (slice start stop))[j]?).bind fun r => r[k]?) =
      (if (∀ e, stop = some e → start + k < e) then (l[j]?).bind fun r => r[start + k]? else none) := by
    intro β l
    rw [List.getElem?_map]
    cases l[j]? with
    | none => simp
    | some r =>
      simp only [Option.map_some, Option.bind_some]
      cases stop with
      | none => simp [slice]
      | some e => simp [slice, List.getElem?_take]
  exact ⟨rfl, rfl, key _, fun f => key _⟩

/-- Positions as Python understands them: from the front, or negative ones from the end. -/
theorem pyGet_iff {β : Type} (l : List β) (i : ℤ) (x : β) : pyGet l i = some x ↔ ∃ k : ℕ, l[k]? = some x ∧ (i = k ∨ i = (k : ℤ) - l.length) := by
  unfold pyGet
  constructor
  · intro h
    split at h
    · exact ⟨i.toNat, h, by omega⟩
    · split at h
      · exact ⟨(i + l.length).toNat, h, by omega⟩
      · simp at h
  · rintro ⟨k, h1, h2⟩
    have hk := (List.getElem?_eq_some_iff.1 h1).1
    rcases h2 with rfl | rfl
    · rw [if_pos (by omega)]
      simpa using h1
    · rw [if_neg (by omega), if_pos (by omega), show ((k : ℤ) - l.length + l.length).toNat = k by omega, h1]

end Verif.SimAgents
