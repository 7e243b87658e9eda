import Verif.Model.OpsMotion
import Verif.Props.Motion
import Verif.Props.OpsTracking

/-!
C125, C126: how the operation reads scenarios and predictions from tensors.
-/

namespace Verif.OpsMotion

open Verif.Motion

/-! ### Specification -/

/-- The agent has a valid step. -/
def Seen (d : Dims) (e : Elem) (j : ℕ) : Prop := ∃ t, t < d.gtSteps ∧ (e.state j t).valid = true

instance (d : Dims) (e : Elem) (j : ℕ) : Decidable (Seen d e j) := by unfold Seen; infer_instance

/-- The number of agents with a valid step before an agent. -/
def rank (d : Dims) (e : Elem) (j : ℕ) : ℕ := ((List.range j).filter fun i => decide (Seen d e i)).length

/-- The tracks of an element: one for each agent with a valid step, in the order of the agents. -/
def agentTracks (d : Dims) (e : Elem) : List Track :=
  ((List.range d.total).filter fun j => decide (Seen d e j)).map fun j =>
    ⟨e.id j, e.type j, (List.range d.gtSteps).map fun t => e.state j t⟩

/-- The selected agents of a group. -/
def members (d : Dims) (e : Elem) (m : ℕ) : List ℕ := (List.range d.agents).filter fun n => e.mask m n

/-- The required tracks of an element whose tracks stand behind `off` other tracks. -/
def elemRequired (d : Dims) (e : Elem) (off : ℕ) : List ℤ :=
  (List.range d.groups).flatMap fun m => (members d e m).map fun n => ((off + rank d e (e.idx m n).toNat : ℕ) : ℤ)

/-- The predictions of an element: one for each group with a selected agent; each of its joint predictions holds the
trajectories of the selected agents under their identifiers. -/
def elemMultis (d : Dims) (e : Elem) : List Multi :=
  ((List.range d.groups).filter fun m => decide (∃ n, n < d.agents ∧ e.mask m n = true)).map fun m =>
    (List.range d.topK).map fun k => ⟨e.score m k, (members d e m).map fun n =>
      ⟨e.id (e.idx m n).toNat, (List.range d.predSteps).map fun t => (e.traj m k n t).1,
        (List.range d.predSteps).map fun t => (e.traj m k n t).2⟩⟩

/-- The selected predictions point at agents of the element. -/
def InRange (d : Dims) (e : Elem) : Prop :=
  ∀ m < d.groups, ∀ n < d.agents, e.mask m n = true → 0 ≤ e.idx m n ∧ e.idx m n < d.total

/-- The selected predictions point at agents of the element that have a valid step. -/
def WellPointed (d : Dims) (e : Elem) : Prop :=
  ∀ m < d.groups, ∀ n < d.agents, e.mask m n = true →
    0 ≤ e.idx m n ∧ e.idx m n < d.total ∧ Seen d e (e.idx m n).toNat

/-- The required tracks of elements one after the other. -/
def requiredFrom (d : Dims) : List Elem → ℕ → List ℤ
  | [], _ => []
  | e :: es, off => elemRequired d e off ++ requiredFrom d es (off + (agentTracks d e).length)

/-- The scenario that some elements describe together. -/
def scenarioOf (d : Dims) (id : String) (es : List Elem) : Scenario :=
  ⟨id, es.flatMap (agentTracks d), requiredFrom d es 0⟩

/-- The predictions of some elements. -/
def predsOf (d : Dims) (id : String) (es : List Elem) : Preds := ⟨id, es.flatMap (elemMultis d)⟩

/-- The elements of a scenario. -/
def ofScenario (id : String) (es : List Elem) : List Elem := es.filter fun e => e.scenario == id

/-! ### The tracks -/

theorem valid_iff (d : Dims) (e : Elem) (j : ℕ) : trajectoryIsValid d e j = true ↔ Seen d e j := by
  unfold trajectoryIsValid Seen
  rw [List.any_eq_true]
  constructor
  · rintro ⟨t, ht, h⟩; exact ⟨t, List.mem_range.mp ht, h⟩
  · rintro ⟨t, ht, h⟩; exact ⟨t, List.mem_range.mpr ht, h⟩

theorem tracks_fold (d : Dims) (e : Elem) (ts : List Track) : ∀ n : ℕ,
    ((List.range n).foldl (addTrack d e) (ts, [])).1 =
      ts ++ ((List.range n).filter fun j => decide (Seen d e j)).map (newTrack d e) ∧
    ∀ j, trackIndex ((List.range n).foldl (addTrack d e) (ts, [])).2 j =
      if j < n ∧ Seen d e j then ts.length + rank d e j else 0 := by
  intro n
  induction n with
  | zero => exact ⟨by simp, fun j => by simp [trackIndex]⟩
  | succ n ih =>
    obtain ⟨h1, h2⟩ := ih
    rw [List.range_succ, List.foldl_append, List.foldl_cons, List.foldl_nil]
    generalize (List.range n).foldl (addTrack d e) (ts, []) = st at h1 h2
    unfold addTrack
    by_cases hv : trajectoryIsValid d e n = true
    · have hs := (valid_iff d e n).mp hv
      rw [if_pos hv]
      refine ⟨by simp [h1, hs, List.filter_append], fun j => ?_⟩
      by_cases hj : j = n
      · subst hj
        simp only [trackIndex, List.find?_cons, beq_self_eq_true, Option.map_some, Option.getD_some]
        rw [if_pos ⟨Nat.lt_succ_self _, hs⟩, h1]
        simp [rank]
      · have : trackIndex ((n, st.1.length) :: st.2) j = trackIndex st.2 j := by
          simp [trackIndex, List.find?_cons, Ne.symm hj]
        rw [this, h2]
        have : (j < n + 1 ∧ Seen d e j) ↔ (j < n ∧ Seen d e j) := by
          constructor
          · rintro ⟨a, b⟩; exact ⟨by omega, b⟩
          · rintro ⟨a, b⟩; exact ⟨by omega, b⟩
        simp only [this]
    · have hs : ¬ Seen d e n := fun h => hv ((valid_iff d e n).mpr h)
      rw [if_neg hv]
      refine ⟨by simp [h1, hs, List.filter_append], fun j => ?_⟩
      rw [h2]
      have : (j < n + 1 ∧ Seen d e j) ↔ (j < n ∧ Seen d e j) := by
        constructor
        · rintro ⟨a, b⟩
          refine ⟨?_, b⟩
          rcases Nat.lt_succ_iff_lt_or_eq.mp a with h | h
          · exact h
          · subst h; exact absurd b hs
        · rintro ⟨a, b⟩; exact ⟨by omega, b⟩
      simp only [this]

/-- The track of an agent with a valid step stands behind those of the agents before it. -/
theorem agentTracks_rank (d : Dims) (e : Elem) {j : ℕ} (hj : j < d.total) (hs : Seen d e j) :
    (agentTracks d e)[rank d e j]? = some ⟨e.id j, e.type j, (List.range d.gtSteps).map fun t => e.state j t⟩ := by
  unfold agentTracks
  have : List.range d.total = List.range j ++ j :: (List.range' (j + 1) (d.total - (j + 1))) := by
    have h1 : List.range d.total = List.range j ++ List.range' j (d.total - j) := by
      have : d.total = j + (d.total - j) := by omega
      conv_lhs => rw [this]
      rw [List.range_eq_range', List.range_eq_range', List.range'_eq_append_iff]
      exact ⟨j, by omega, by simp, by simp⟩
    rw [h1]
    congr 1
    have : d.total - j = (d.total - (j + 1)) + 1 := by omega
    rw [this, List.range'_succ]
  rw [this, List.filter_append, List.filter_cons_of_pos (by simpa using hs), List.map_append, List.getElem?_append_right
    (by simp [rank])]
  simp [rank]

theorem mapM_some' {α β : Type} (f : α → Option β) (g : α → β) : ∀ l : List α, (∀ a ∈ l, f a = some (g a)) →
    l.mapM f = some (l.map g) := by
  intro l
  induction l with
  | nil => intro _; rfl
  | cons a rest ih =>
    intro h
    rw [List.mapM_cons, h a (by simp), ih fun x hx => h x (List.mem_cons_of_mem _ hx)]
    rfl

/-- One element: its tracks, required tracks and predictions stand behind those of the earlier elements of its scenario. -/
theorem elem_parse {d : Dims} {e : Elem} (h : WellPointed d e) (i : ℕ) (x : Entry) :
    parseElem d i e x = some
      ⟨⟨e.scenario, x.scenario.tracks ++ agentTracks d e,
        x.scenario.toPredict ++ elemRequired d e x.scenario.tracks.length⟩,
       ⟨e.scenario, x.preds.multis ++ elemMultis d e⟩,
       x.reads ++ (List.range d.groups).flatMap fun m => (members d e m).map fun n => (i, e.id (e.idx m n).toNat)⟩ := by
  obtain ⟨h1, h2⟩ := tracks_fold d e x.scenario.tracks d.total
  unfold parseElem
  generalize (List.range d.total).foldl (addTrack d e) (x.scenario.tracks, []) = st at h1 h2
  obtain ⟨ts, map⟩ := st
  simp only at h1 h2
  have hts : ts = x.scenario.tracks ++ agentTracks d e := h1
  have hfind : ∀ m < d.groups, ∀ n ∈ members d e m,
      findTrack d e ts map m n = some (x.scenario.tracks.length + rank d e (e.idx m n).toNat) ∧
      ts[x.scenario.tracks.length + rank d e (e.idx m n).toNat]? =
        some ⟨e.id (e.idx m n).toNat, e.type (e.idx m n).toNat,
          (List.range d.gtSteps).map fun t => e.state (e.idx m n).toNat t⟩ := by
    intro m hm n hn
    obtain ⟨hn1, hn2⟩ := List.mem_filter.mp hn
    obtain ⟨a, b, c⟩ := h m hm n (List.mem_range.mp hn1) hn2
    have hlt : (e.idx m n).toNat < d.total := by omega
    have hget : ts[x.scenario.tracks.length + rank d e (e.idx m n).toNat]? =
        some ⟨e.id (e.idx m n).toNat, e.type (e.idx m n).toNat,
          (List.range d.gtSteps).map fun t => e.state (e.idx m n).toNat t⟩ := by
      rw [hts, List.getElem?_append_right (by omega), Nat.add_sub_cancel_left]
      exact agentTracks_rank d e hlt c
    refine ⟨?_, hget⟩
    unfold findTrack
    rw [if_neg (by omega)]
    simp only [h2]
    rw [if_pos (show (e.idx m n).toNat < d.total ∧ Seen d e (e.idx m n).toNat from ⟨hlt, c⟩),
      if_pos (List.getElem?_eq_some_iff.mp hget).1]
  have hreq : addRequired d e ts map = some ((List.range d.groups).flatMap fun m => (members d e m).map fun n =>
      x.scenario.tracks.length + rank d e (e.idx m n).toNat) := by
    unfold addRequired
    rw [mapM_some' _ (fun m => (members d e m).map fun n => x.scenario.tracks.length + rank d e (e.idx m n).toNat)
      (List.range d.groups) (fun m hm => mapM_some' _ _ (selected d e m) fun n hn =>
        (hfind m (List.mem_range.mp hm) n hn).1)]
    simp [List.flatMap_def]
  have hmul : addMultis d e ts map = some (elemMultis d e) := by
    unfold addMultis elemMultis
    have : ((List.range d.groups).filter fun m => (List.range d.agents).any (e.mask m)) =
        (List.range d.groups).filter fun m => decide (∃ n, n < d.agents ∧ e.mask m n = true) := by
      refine List.filter_congr fun m _ => ?_
      rw [Bool.eq_iff_iff, List.any_eq_true, decide_eq_true_iff]
      simp [List.mem_range]
    rw [this]
    refine mapM_some' _ _ _ fun m hm => ?_
    have hm' := List.mem_range.mp (List.mem_filter.mp hm).1
    refine mapM_some' _ _ _ fun k _ => ?_
    unfold newJoint
    rw [mapM_some' _ (fun n => ⟨e.id (e.idx m n).toNat, (List.range d.predSteps).map fun t => (e.traj m k n t).1,
        (List.range d.predSteps).map fun t => (e.traj m k n t).2⟩) (selected d e m) (fun n hn => by
      obtain ⟨a, b⟩ := hfind m hm' n hn
      unfold newTrajectory
      rw [a]
      simp only [Option.bind_eq_bind, Option.bind_some, b]
      rfl)]
    rfl
  have hreads : interestReads i ts ((List.range d.groups).flatMap fun m => (members d e m).map fun n =>
      x.scenario.tracks.length + rank d e (e.idx m n).toNat) =
      (List.range d.groups).flatMap fun m => (members d e m).map fun n => (i, e.id (e.idx m n).toNat) := by
    unfold interestReads
    have key : ∀ l : List ℕ, (∀ m ∈ l, m < d.groups) → (l.flatMap fun m => (members d e m).map fun n =>
        x.scenario.tracks.length + rank d e (e.idx m n).toNat).filterMap (fun r => (ts[r]?).map fun tk => (i, tk.id)) =
        l.flatMap fun m => (members d e m).map fun n => (i, e.id (e.idx m n).toNat) := by
      intro l
      induction l with
      | nil => intro _; rfl
      | cons m rest ih =>
        intro hl
        rw [List.flatMap_cons, List.flatMap_cons, List.filterMap_append, ih fun y hy => hl y (List.mem_cons_of_mem _ hy)]
        congr 1
        rw [List.filterMap_map]
        have : ∀ l' : List ℕ, (∀ n ∈ l', n ∈ members d e m) → l'.filterMap ((fun r => (ts[r]?).map fun tk => (i, tk.id)) ∘
            fun n => x.scenario.tracks.length + rank d e (e.idx m n).toNat) =
            l'.map fun n => (i, e.id (e.idx m n).toNat) := by
          intro l'
          induction l' with
          | nil => intro _; rfl
          | cons n r2 ih2 =>
            intro hl'
            rw [List.filterMap_cons, List.map_cons, ih2 fun y hy => hl' y (List.mem_cons_of_mem _ hy)]
            simp only [Function.comp_apply, (hfind m (hl m (by simp)) n (hl' n (by simp))).2, Option.map_some]
        exact this _ fun n hn => hn
    exact key _ fun m hm => List.mem_range.mp hm
  simp only [hreq, hmul, Option.bind_eq_bind, Option.bind_some, hreads]
  rw [hts]
  simp only [Option.pure_def, elemRequired, List.map_flatMap, List.map_map]
  rfl

/-! ### The hash map -/

def Results.keys (r : Results) : List String := r.map (·.1)

theorem Results.get_put (r : Results) (id id' : String) (x : Entry) :
    (r.put id x).get id' = if id' = id then x else r.get id' := by
  induction r with
  | nil =>
    by_cases h : id' = id
    · subst h; simp [Results.put, Results.get]
    · simp [Results.put, Results.get, h, Ne.symm h]
  | cons e rest ih =>
    obtain ⟨i, y⟩ := e
    unfold Results.put
    by_cases hi : i = id
    · rw [if_pos hi]
      subst hi
      by_cases h : id' = i
      · subst h; simp [Results.get]
      · simp [Results.get, h, Ne.symm h, List.find?_cons]
    · rw [if_neg hi]
      by_cases h : i = id'
      · subst h
        simp [Results.get, List.find?_cons, hi]
      · have e1 : ∀ l : Results, Results.get ((i, y) :: l) id' = Results.get l id' := by
          intro l; simp [Results.get, List.find?_cons, h]
        rw [e1, e1, ih]

theorem Results.keys_put (r : Results) (id : String) (x : Entry) :
    (r.put id x).keys = if id ∈ r.keys then r.keys else r.keys ++ [id] := by
  induction r with
  | nil => simp [Results.put, Results.keys]
  | cons e rest ih =>
    obtain ⟨i, y⟩ := e
    unfold Results.put
    by_cases hi : i = id
    · subst hi; simp [Results.keys]
    · rw [if_neg hi]
      have hk : ∀ l : Results, Results.keys ((i, y) :: l) = i :: l.keys := fun _ => rfl
      rw [hk, hk, ih]
      by_cases hm : id ∈ Results.keys rest
      · rw [if_pos hm, if_pos (List.mem_cons_of_mem _ hm)]
      · rw [if_neg hm, if_neg (by simp [hm, Ne.symm hi])]
        rfl

theorem Results.get_of_mem {r : Results} (h : r.keys.Nodup) {id : String} {x : Entry} (hx : (id, x) ∈ r) :
    r.get id = x := by
  induction r with
  | nil => simp at hx
  | cons e rest ih =>
    obtain ⟨i, y⟩ := e
    simp only [Results.keys, List.map_cons, List.nodup_cons] at h
    rcases List.mem_cons.mp hx with hx | hx
    · cases hx; simp [Results.get]
    · have hne : i ≠ id := by
        rintro rfl
        exact h.1 (List.mem_map.mpr ⟨_, hx, rfl⟩)
      have : Results.get ((i, y) :: rest) id = Results.get rest id := by simp [Results.get, List.find?_cons, hne]
      rw [this]
      exact ih h.2 hx

theorem requiredFrom_append (d : Dims) : ∀ (a b : List Elem) (off : ℕ),
    requiredFrom d (a ++ b) off = requiredFrom d a off ++ requiredFrom d b (off + (a.flatMap (agentTracks d)).length) := by
  intro a
  induction a with
  | nil => intro b off; simp [requiredFrom]
  | cons e rest ih =>
    intro b off
    rw [List.cons_append, requiredFrom, requiredFrom, ih, List.append_assoc, List.flatMap_cons, List.length_append,
      Nat.add_assoc]

/-- The positions that an element's parsing reads from the identifiers. -/
def elemReads (d : Dims) (e : Elem) (i : ℕ) : List (ℕ × ℤ) :=
  (List.range d.groups).flatMap fun m => (members d e m).map fun n => (i, e.id (e.idx m n).toNat)

/-- The entry of a scenario. -/
def entryOf (d : Dims) (id : String) (es : List (Elem × ℕ)) : Entry :=
  let own := es.filter fun e => e.1.scenario == id
  ⟨scenarioOf d id (own.map (·.1)), predsOf d id (own.map (·.1)), own.flatMap fun e => elemReads d e.1 e.2⟩

theorem parse_loop (d : Dims) : ∀ (es pre : List (Elem × ℕ)) (r : Results), (∀ e ∈ es, WellPointed d e.1) →
    r.keys.Nodup → (∀ id, id ∈ r.keys ↔ ∃ e ∈ pre, e.1.scenario = id) → (∀ id, r.get id = entryOf d id pre) →
    ∃ r', es.foldlM (fun (r : Results) (e : Elem × ℕ) => do
        let x ← parseElem d e.2 e.1 (r.get e.1.scenario)
        pure (r.put e.1.scenario x)) r = some r' ∧ r'.keys.Nodup ∧
      (∀ id, id ∈ r'.keys ↔ ∃ e ∈ pre ++ es, e.1.scenario = id) ∧ ∀ id, r'.get id = entryOf d id (pre ++ es) := by
  intro es
  induction es with
  | nil => intro pre r _ h1 h2 h3; exact ⟨r, rfl, h1, by simpa using h2, by simpa using h3⟩
  | cons e rest ih =>
    intro pre r hw h1 h2 h3
    rw [List.foldlM_cons]
    have hx : parseElem d e.2 e.1 (r.get e.1.scenario) = some (entryOf d e.1.scenario (pre ++ [e])) := by
      rw [elem_parse (hw e (by simp)) e.2, h3]
      have hf : (pre ++ [e]).filter (fun x => x.1.scenario == e.1.scenario) =
          pre.filter (fun x => x.1.scenario == e.1.scenario) ++ [e] := by
        rw [List.filter_append]; simp
      simp only [entryOf, hf, List.map_append, List.flatMap_append, scenarioOf, predsOf, requiredFrom_append, Nat.zero_add,
        List.map_cons, List.map_nil, List.flatMap_cons, List.flatMap_nil, List.append_nil, requiredFrom, elemReads]
    rw [hx]
    simp only [Option.bind_eq_bind, Option.bind_some, Option.pure_def]
    obtain ⟨r', a, b, c, f⟩ := ih (pre ++ [e]) (r.put e.1.scenario (entryOf d e.1.scenario (pre ++ [e]))) (fun y hy => hw y (List.mem_cons_of_mem _ hy))
      (by
        rw [Results.keys_put]
        split
        · exact h1
        · rename_i hn
          rw [List.nodup_append]
          refine ⟨h1, by simp, ?_⟩
          intro a ha b hb
          simp only [List.mem_singleton] at hb
          rintro rfl
          exact hn (hb ▸ ha))
      (by
        intro id
        rw [Results.keys_put]
        split
        · rename_i hm
          rw [h2]
          constructor
          · rintro ⟨y, hy, rfl⟩; exact ⟨y, by simp [hy], rfl⟩
          · rintro ⟨y, hy, rfl⟩
            rcases List.mem_append.mp hy with hy | hy
            · exact ⟨y, hy, rfl⟩
            · simp only [List.mem_singleton] at hy
              subst hy
              exact (h2 _).mp hm
        · rw [List.mem_append, h2]
          simp only [List.mem_singleton, List.mem_append]
          constructor
          · rintro (⟨y, hy, rfl⟩ | rfl)
            · exact ⟨y, Or.inl hy, rfl⟩
            · exact ⟨e, Or.inr rfl, rfl⟩
          · rintro ⟨y, hy | rfl, rfl⟩
            · exact Or.inl ⟨y, hy, rfl⟩
            · exact Or.inr rfl)
      (by
        intro id
        rw [Results.get_put]
        by_cases hid : id = e.1.scenario
        · subst hid
          rw [if_pos rfl]
        · rw [if_neg hid, h3]
          have : (e.1.scenario == id) = false := by simp [Ne.symm hid]
          simp [entryOf, List.filter_append, this])
    refine ⟨r', a, b, ?_, ?_⟩
    · simpa using c
    · simpa using f

theorem entryOf_scenario (d : Dims) (id : String) (es : List Elem) (k : ℕ) :
    (entryOf d id (es.zipIdx k)).scenario = scenarioOf d id (ofScenario id es) ∧
    (entryOf d id (es.zipIdx k)).preds = predsOf d id (ofScenario id es) := by
  have : ((es.zipIdx k).filter fun e => e.1.scenario == id).map (·.1) = ofScenario id es := by
    induction es generalizing k with
    | nil => rfl
    | cons e rest ih =>
      rw [List.zipIdx_cons, List.filter_cons, ofScenario, List.filter_cons]
      have := ih (k + 1)
      split <;> simp [this, ofScenario]
  simp only [entryOf, this, and_self]

/-- C125: if every selected prediction points at an agent with a valid step, the operation evaluates one scenario for each
identifier.  The scenario has the tracks of all the agents with a valid step, the required tracks are those of the selected
agents, and the predictions are the groups with a selected agent. -/
theorem parse_spec (d : Dims) (es : List Elem) (h : ∀ e ∈ es, WellPointed d e) :
    ∃ r, parse d es = some r ∧ r.keys.Nodup ∧ (∀ id, id ∈ r.keys ↔ ∃ e ∈ es, e.scenario = id) ∧
      ∀ id x, (id, x) ∈ r → x.scenario = scenarioOf d id (ofScenario id es) ∧
        x.preds = predsOf d id (ofScenario id es) := by
  obtain ⟨r, a, b, c, f⟩ := parse_loop d es.zipIdx [] [] (fun e he => h e.1 (by
      obtain ⟨x, i⟩ := e
      exact (List.mem_iff_getElem?.mpr ⟨i, List.mem_zipIdx_iff_getElem?.mp he⟩)))
    (by simp [Results.keys]) (by simp [Results.keys]) (by intro id; simp [Results.get, entryOf, Entry.fresh, scenarioOf, predsOf, requiredFrom])
  refine ⟨r, a, b, ?_, ?_⟩
  · intro id
    rw [c, List.nil_append]
    constructor
    · rintro ⟨⟨x, i⟩, hx, rfl⟩
      exact ⟨x, List.mem_iff_getElem?.mpr ⟨i, List.mem_zipIdx_iff_getElem?.mp hx⟩, rfl⟩
    · rintro ⟨x, hx, rfl⟩
      obtain ⟨i, hi⟩ := List.mem_iff_getElem?.mp hx
      exact ⟨(x, i), List.mem_zipIdx_iff_getElem?.mpr hi, rfl⟩
  · intro id x hx
    rw [← Results.get_of_mem b hx, f]
    exact entryOf_scenario d id es 0

end Verif.OpsMotion
