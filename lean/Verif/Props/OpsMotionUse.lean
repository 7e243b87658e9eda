import Verif.Props.OpsMotion
import Mathlib.Tactic.Push

/-!
C125, C126: scenarios of distinct elements, refusals, agents without a valid step, and the reads of the identifiers.
C127: the operation is the library, whatever the schedule, the order of the hash map and the order of the batch.
-/

namespace Verif.OpsMotion

open Verif.Motion

/-! ### The shapes -/

/-- C125: the accepted shapes.  Nothing is known of the last dimension of the trajectories. -/
theorem dims_iff (s : Shapes) (d : Dims) : dims s = some d ↔
    (∃ w, s.traj = [d.batch, d.groups, d.topK, d.agents, d.predSteps, w]) ∧ s.score = [d.batch, d.groups, d.topK] ∧
    s.gt = [d.batch, d.total, d.gtSteps, 7] ∧ s.valid = [d.batch, d.total, d.gtSteps] ∧
    s.idx = [d.batch, d.groups, d.agents] ∧ s.mask = [d.batch, d.groups, d.agents] ∧ s.type = [d.batch, d.total] ∧
    s.id = [d.batch, d.total] ∧ s.scenario = [d.batch] := by
  constructor
  · intro h
    unfold dims at h
    split at h
    · rename_i h1 h2 h3 h4 h5 h6 h7 h8 h9
      split at h
      · rename_i hc
        obtain ⟨rfl, rfl, rfl, rfl, rfl, rfl, rfl, rfl, rfl, rfl, rfl, rfl, rfl, rfl, rfl, rfl, rfl, rfl, rfl⟩ := hc
        cases h
        exact ⟨⟨_, h1⟩, h2, h3, h4, h5, h6, h7, h8, h9⟩
      · simp at h
    · simp at h
  · rintro ⟨⟨w, h1⟩, h2, h3, h4, h5, h6, h7, h8, h9⟩
    unfold dims
    rw [h1, h2, h3, h4, h5, h6, h7, h8, h9]
    simp

/-! ### Distinct scenarios -/

theorem ofScenario_distinct {es : List Elem} (h : (es.map (·.scenario)).Nodup) {e : Elem} (he : e ∈ es) :
    ofScenario e.scenario es = [e] := by
  unfold ofScenario
  induction es with
  | nil => simp at he
  | cons a rest ih =>
    simp only [List.map_cons, List.nodup_cons] at h
    have none : ∀ id, id ∉ rest.map (·.scenario) → rest.filter (fun e => e.scenario == id) = [] := by
      intro id hid
      rw [List.filter_eq_nil_iff]
      intro x hx hq
      exact hid (List.mem_map.mpr ⟨x, hx, by simpa using hq⟩)
    rcases List.mem_cons.mp he with rfl | he
    · rw [List.filter_cons_of_pos (by simp), none _ h.1]
    · rw [List.filter_cons_of_neg, ih h.2 he]
      intro hq
      exact h.1 (List.mem_map.mpr ⟨e, he, by simpa using Eq.symm (by simpa using hq)⟩)

/-- C125: elements with different identifiers are different scenarios, each with the tracks, the required tracks and the
predictions of its element. -/
theorem parse_distinct (d : Dims) (es : List Elem) (h : ∀ e ∈ es, WellPointed d e) (hd : (es.map (·.scenario)).Nodup) :
    ∃ r, parse d es = some r ∧ r.length = es.length ∧ ∀ id x, (id, x) ∈ r → ∃ e ∈ es, e.scenario = id ∧
      x.scenario = ⟨id, agentTracks d e, elemRequired d e 0⟩ ∧ x.preds = ⟨id, elemMultis d e⟩ := by
  obtain ⟨r, a, b, c, f⟩ := parse_spec d es h
  refine ⟨r, a, ?_, ?_⟩
  · have : (es.map (·.scenario)).Perm r.keys := by
      rw [List.perm_ext_iff_of_nodup hd b]
      intro id
      rw [c]
      simp
    have := this.length_eq
    simpa [Results.keys] using this.symm
  · intro id x hx
    obtain ⟨e, he, rfl⟩ := (c id).mp (List.mem_map.mpr ⟨_, hx, rfl⟩)
    obtain ⟨h1, h2⟩ := f _ x hx
    rw [ofScenario_distinct hd he] at h1 h2
    refine ⟨e, he, rfl, ?_, ?_⟩
    · rw [h1]; simp [scenarioOf, requiredFrom]
    · rw [h2]; simp [predsOf]

/-- C125: the required track of a selected prediction is that of the agent that it points at. -/
theorem required_track {d : Dims} {e : Elem} (h : WellPointed d e) {m n : ℕ} (hm : m < d.groups) (hn : n < d.agents)
    (hs : e.mask m n = true) :
    ((rank d e (e.idx m n).toNat : ℕ) : ℤ) ∈ elemRequired d e 0 ∧
    (agentTracks d e)[rank d e (e.idx m n).toNat]? = some ⟨e.id (e.idx m n).toNat, e.type (e.idx m n).toNat,
      (List.range d.gtSteps).map fun t => e.state (e.idx m n).toNat t⟩ := by
  obtain ⟨a, b, c⟩ := h m hm n hn hs
  refine ⟨?_, agentTracks_rank d e (by omega) c⟩
  unfold elemRequired members
  refine List.mem_flatMap.mpr ⟨m, List.mem_range.mpr hm, List.mem_map.mpr ⟨n, ?_, by simp⟩⟩
  exact List.mem_filter.mpr ⟨List.mem_range.mpr hn, hs⟩

/-! ### Refusals -/

theorem mapM_none {α β : Type} (f : α → Option β) : ∀ (l : List α), (∃ a ∈ l, f a = none) → l.mapM f = none := by
  intro l
  induction l with
  | nil => rintro ⟨a, ha, _⟩; simp at ha
  | cons x rest ih =>
    rintro ⟨a, ha, hf⟩
    rw [List.mapM_cons]
    cases hx : f x with
    | none => rfl
    | some y =>
      rcases List.mem_cons.mp ha with rfl | ha
      · rw [hf] at hx; simp at hx
      · rw [ih ⟨a, ha, hf⟩]; rfl

/-- One element that selects a prediction for an agent that does not exist. -/
theorem elem_refuses {d : Dims} {e : Elem} (h : ¬ InRange d e) (i : ℕ) (x : Entry) : parseElem d i e x = none := by
  unfold InRange at h
  push Not at h
  obtain ⟨m, hm, n, hn, hs, hq⟩ := h
  unfold parseElem
  generalize (List.range d.total).foldl (addTrack d e) (x.scenario.tracks, []) = st
  have : addRequired d e st.1 st.2 = none := by
    unfold addRequired
    rw [mapM_none _ (List.range d.groups) ⟨m, List.mem_range.mpr hm, mapM_none _ _ ⟨n, List.mem_filter.mpr
      ⟨List.mem_range.mpr hn, hs⟩, by
        unfold findTrack
        rw [if_pos]
        by_cases h0 : e.idx m n < 0
        · exact Or.inl h0
        · exact Or.inr (hq (by omega))⟩⟩]
    rfl
  simp only [this]
  rfl

/-- C125: a selected prediction for an agent that does not exist stops the operation. -/
theorem parse_refuses (d : Dims) (es : List Elem) (h : ∃ e ∈ es, ¬ InRange d e) : parse d es = none := by
  unfold parse
  have : ∀ (l : List (Elem × ℕ)) (r : Results), (∃ e ∈ l, ¬ InRange d e.1) →
      l.foldlM (fun (r : Results) (e : Elem × ℕ) => do
        let x ← parseElem d e.2 e.1 (r.get e.1.scenario)
        pure (r.put e.1.scenario x)) r = none := by
    intro l
    induction l with
    | nil => rintro r ⟨e, he, _⟩; simp at he
    | cons a rest ih =>
      rintro r ⟨e, he, hq⟩
      rw [List.foldlM_cons]
      by_cases ha : InRange d a.1
      · have hr : ∃ e ∈ rest, ¬ InRange d e.1 := by
          rcases List.mem_cons.mp he with rfl | he
          · exact absurd ha hq
          · exact ⟨e, he, hq⟩
        cases parseElem d a.2 a.1 (r.get a.1.scenario) with
        | none => rfl
        | some x =>
          simp only [Option.bind_eq_bind, Option.bind_some, Option.pure_def]
          exact ih _ hr
      · rw [elem_refuses ha]
        rfl
  obtain ⟨e, he, hq⟩ := h
  obtain ⟨i, hi⟩ := List.mem_iff_getElem?.mp he
  exact this _ _ ⟨(e, i), List.mem_zipIdx_iff_getElem?.mpr hi, hq⟩

/-! ### The reads of the identifiers -/

/-- The reads stay inside of the matrix of the identifiers. -/
def ReadsInside (d : Dims) (es : List Elem) (r : Results) : Prop :=
  ∀ e ∈ r, ∀ p ∈ e.2.reads, p.1 < es.length ∧ 0 ≤ p.2 ∧ p.2 < d.total

/-- C126: the operation reads inside of the matrix of the identifiers exactly if the identifiers of the selected agents are
numbers between zero and the number of agents. -/
theorem reads_inside_iff (d : Dims) (es : List Elem) (h : ∀ e ∈ es, WellPointed d e) : ∃ r, parse d es = some r ∧
    (ReadsInside d es r ↔ ∀ e ∈ es, ∀ m < d.groups, ∀ n < d.agents, e.mask m n = true →
      0 ≤ e.id (e.idx m n).toNat ∧ e.id (e.idx m n).toNat < d.total) := by
  have hmem : ∀ e ∈ es.zipIdx, e.1 ∈ es ∧ e.2 < es.length := by
    rintro ⟨e, i⟩ he
    have hi := List.mem_zipIdx_iff_getElem?.mp he
    exact ⟨List.mem_iff_getElem?.mpr ⟨i, hi⟩, (List.getElem?_eq_some_iff.mp hi).1⟩
  obtain ⟨r, a, b, c, f⟩ := parse_loop d es.zipIdx [] [] (fun e he => h e.1 (hmem e he).1)
    (by simp [Results.keys]) (by simp [Results.keys])
    (by intro id; simp [Results.get, entryOf, Entry.fresh, scenarioOf, predsOf, requiredFrom])
  refine ⟨r, a, ?_⟩
  constructor
  · intro hr e he m hm n hn hs
    obtain ⟨i, hi⟩ := List.mem_iff_getElem?.mp he
    have hz : (e, i) ∈ es.zipIdx := List.mem_zipIdx_iff_getElem?.mpr hi
    have hk : e.scenario ∈ r.keys := (c _).mpr ⟨(e, i), by simpa using hz, rfl⟩
    obtain ⟨⟨id, x⟩, hx, hid⟩ := List.mem_map.mp hk
    simp only at hid
    subst hid
    have hx' := Results.get_of_mem b hx
    rw [f, List.nil_append] at hx'
    exact (hr _ hx (i, e.id (e.idx m n).toNat) (by
      rw [← hx']
      refine List.mem_flatMap.mpr ⟨(e, i), List.mem_filter.mpr ⟨hz, by simp⟩, ?_⟩
      exact List.mem_flatMap.mpr ⟨m, List.mem_range.mpr hm, List.mem_map.mpr ⟨n, List.mem_filter.mpr
        ⟨List.mem_range.mpr hn, hs⟩, rfl⟩⟩)).2
  · rintro hq ⟨id, x⟩ hx p hp
    have hx' := Results.get_of_mem b hx
    rw [f, List.nil_append] at hx'
    simp only at hp
    rw [← hx'] at hp
    obtain ⟨⟨e, i⟩, he, hp⟩ := List.mem_flatMap.mp hp
    obtain ⟨m, hm, hp⟩ := List.mem_flatMap.mp hp
    obtain ⟨n, hn, rfl⟩ := List.mem_map.mp hp
    have he' := hmem _ (List.mem_filter.mp he).1
    obtain ⟨hn1, hn2⟩ := List.mem_filter.mp hn
    exact ⟨he'.2, hq e he'.1 m (List.mem_range.mp hm) n (List.mem_range.mp hn1) hn2⟩

/-! ### The operation is the library -/

theorem total_tasks (overlaps : Box → Box → Bool) (c : Cfg) : ∀ (xs : List (Scenario × Preds)) (r : Stats),
    (xs.mapM (task overlaps c)).bind (fun slots => total slots r) =
      (allStats overlaps c (xs.map fun x => (x.2, some x.1)) r).toOption := by
  intro xs
  induction xs with
  | nil => intro r; rfl
  | cons x rest ih =>
    intro r
    rw [List.mapM_cons, List.map_cons, allStats_cons]
    rw [show task overlaps c x = match computeMetricsStats overlaps c x.2 x.1 [] with
      | .error .crash => none
      | r => some r from rfl]
    cases hx : computeMetricsStats overlaps c x.2 x.1 [] with
    | error e =>
      have hR : (do
          let own ← (Except.error e : Res Stats)
          let r ← r.accumulate own
          allStats overlaps c (rest.map fun x => (x.2, some x.1)) r : Res Stats).toOption = none := rfl
      rw [hR]
      cases e with
      | crash => rfl
      | invalid =>
        simp only [Option.bind_eq_bind, Option.bind_some]
        cases rest.mapM (task overlaps c) <;> rfl
      | internal =>
        simp only [Option.bind_eq_bind, Option.bind_some]
        cases rest.mapM (task overlaps c) <;> rfl
    | ok s =>
      simp only [Option.bind_eq_bind, Option.bind_some]
      cases ha : r.accumulate s with
      | error e =>
        have hR : (do
            let own ← (Except.ok s : Res Stats)
            let r ← r.accumulate own
            allStats overlaps c (rest.map fun x => (x.2, some x.1)) r : Res Stats).toOption = none := by
          simp only [bind, Except.bind, ha]; rfl
        rw [hR]
        cases rest.mapM (task overlaps c) with
        | none => rfl
        | some slots => simp [total, ha]
      | ok r1 =>
        have hR : (do
            let own ← (Except.ok s : Res Stats)
            let r ← r.accumulate own
            allStats overlaps c (rest.map fun x => (x.2, some x.1)) r : Res Stats).toOption =
            (allStats overlaps c (rest.map fun x => (x.2, some x.1)) r1).toOption := by
          simp only [bind, Except.bind, ha]
        rw [hR, ← ih r1]
        cases rest.mapM (task overlaps c) with
        | none => rfl
        | some slots => simp [total, ha]

/-- The library on scenarios: `ComputeMotionMetrics` of the predictions, and the rows for the types and steps. -/
noncomputable def libraryRows (overlaps : Box → Box → Bool) (c : Cfg) (xs : List (Scenario × Preds)) :
    Option (List Row) :=
  ((allStats overlaps c (xs.map fun x => (x.2, some x.1)) []).toOption).bind fun st =>
    (motionMetrics st).map (createOutput c)

/-- C127: the operation is the library applied to the parsed scenarios, in every schedule of the tasks. -/
theorem op_is_library (overlaps : Box → Box → Bool) (c : Cfg) (view : Results → Results) (order : List ℕ) (s : Shapes)
    (es : List Elem) (d : Dims) (hd : dims s = some d) (rs : Results) (hr : parse d es = some rs)
    (ho : order.Perm (List.range (view rs).length)) :
    motionOp overlaps c view order s es =
      libraryRows overlaps c ((view rs).map fun e => (e.2.scenario, e.2.preds)) := by
  unfold motionOp libraryRows
  rw [hd]
  simp only [Option.bind_eq_bind, Option.bind_some, hr]
  generalize hxs : ((view rs).map fun e => (e.2.scenario, e.2.preds)) = xs
  have hlen : xs.length = (view rs).length := by rw [← hxs, List.length_map]
  have hp : runPool overlaps c xs order = xs.mapM (task overlaps c) := by
    have h := OpsTracking.pool_slots (fun x (_ : ℕ) => task overlaps c x) (.ok []) xs order (by rw [hlen]; exact ho)
    unfold runPool
    rw [h]
    have : ∀ (l : List (Scenario × Preds)) (k : ℕ), (l.zipIdx k).mapM (fun e => task overlaps c e.1) =
        l.mapM (task overlaps c) := by
      intro l
      induction l with
      | nil => intro k; rfl
      | cons a rest ih => intro k; rw [List.zipIdx_cons, List.mapM_cons, List.mapM_cons, ih]
    exact this xs 0
  rw [hp, ← total_tasks, Option.bind_assoc]
  congr 1
  funext slots
  congr 1
  funext st
  cases motionMetrics st <;> rfl

/-- C127: shapes that do not fit and selected agents that do not exist stop the operation, whatever the schedule. -/
theorem op_refuses (overlaps : Box → Box → Bool) (c : Cfg) (view : Results → Results) (order : List ℕ) (s : Shapes)
    (es : List Elem) (h : ∀ d, dims s = some d → parse d es = none) : motionOp overlaps c view order s es = none := by
  unfold motionOp
  cases hd : dims s with
  | none => rfl
  | some d =>
    simp only [Option.bind_eq_bind, Option.bind_some, h d hd]
    rfl

/-! ### The rows -/

theorem bundleAt_iff {bs : List ((ObjType × ℤ) × Bundle)} (h : (bs.map (·.1)).Nodup) (k : ObjType × ℤ) (b : Bundle) :
    bundleAt bs k = some b ↔ (k, b) ∈ bs := by
  unfold bundleAt
  constructor
  · intro hb
    obtain ⟨e, he, rfl⟩ := Option.map_eq_some_iff.mp hb
    have h1 := List.find?_some he
    have h2 := List.mem_of_find?_eq_some he
    obtain ⟨k', b'⟩ := e
    have : k' = k := by simpa using h1
    subst this
    simpa using h2
  · intro hb
    cases hf : bs.reverse.find? fun e => e.1 == k with
    | none =>
      have := List.find?_eq_none.mp hf (k, b) (by simpa using hb)
      simp at this
    | some e =>
      have h1 := List.find?_some hf
      have h2 : e ∈ bs := by simpa using List.mem_of_find?_eq_some hf
      obtain ⟨k', b'⟩ := e
      have : k' = k := by simpa using h1
      subst this
      have hinj := List.inj_on_of_nodup_map h h2 hb rfl
      cases hinj
      rfl

theorem createOutput_perm {c : Cfg} {bs bs' : List ((ObjType × ℤ) × Bundle)} (h : (bs.map (·.1)).Nodup) (hp : bs.Perm bs') :
    createOutput c bs = createOutput c bs' := by
  have h' : (bs'.map (·.1)).Nodup := (hp.map _).nodup_iff.mp h
  have : ∀ k, bundleAt bs k = bundleAt bs' k := by
    intro k
    apply Option.ext
    intro b
    rw [bundleAt_iff h, bundleAt_iff h', hp.mem_iff]
  unfold createOutput
  simp only [this]

/-- C127: there is one row for each name, in the order of the names; the row of a type and a step holds their metrics, and
only negative ones if no prediction has the type. -/
theorem rows_spec {c : Cfg} {bs : List ((ObjType × ℤ) × Bundle)} (h : (bs.map (·.1)).Nodup) :
    (createOutput c bs).length = 3 * c.steps.length ∧ (createOutput c bs).length = (breakdownNames c).length ∧
    ∀ (i : ℕ) (k : ObjType × ℤ), (breakdownNames c)[i]? = some k →
      (∀ b, (k, b) ∈ bs → (createOutput c bs)[i]? = some (Row.mk b.ade b.fde b.miss b.overlap b.map)) ∧
      (k ∉ bs.map (·.1) → (createOutput c bs)[i]? = some (Row.mk (-1) (-1) (-1) (-1) (-1))) := by
  have hmap : createOutput c bs = (breakdownNames c).map fun k => outputRow (bundleAt bs k) := by
    unfold createOutput breakdownNames
    simp [List.map_flatMap, Function.comp_def]
  have hlen : (breakdownNames c).length = 3 * c.steps.length := by
    unfold breakdownNames
    simp
    omega
  refine ⟨by rw [hmap, List.length_map, hlen], by rw [hmap, List.length_map], ?_⟩
  intro i k hk
  rw [hmap, List.getElem?_map, hk]
  refine ⟨fun b hb => ?_, fun hn => ?_⟩
  · rw [Option.map_some, (bundleAt_iff h k b).mpr hb]; rfl
  · have : bundleAt bs k = none := by
      cases hb : bundleAt bs k with
      | none => rfl
      | some b => exact absurd (List.mem_map.mpr ⟨_, (bundleAt_iff h k b).mp hb, rfl⟩) hn
    rw [Option.map_some, this]; rfl

end Verif.OpsMotion
