import Verif.Props.OpsMotionUse

/-!
C127: input that fits the configuration is evaluated, and the result does not depend on the order of the batch.
-/

namespace Verif.OpsMotion

open Verif.Motion

/-! ### Accepted predictions -/

theorem sameSet_of {a b : List ℤ} (h : ∀ x, x ∈ a ↔ x ∈ b) : sameSet a b = true := by
  unfold sameSet
  rw [Bool.and_eq_true, List.all_eq_true, List.all_eq_true]
  refine ⟨fun x hx => ?_, fun x hx => ?_⟩
  · simpa using (h x).mp hx
  · simpa using (h x).mpr hx

/-- The joint predictions are of the given length and have the same identifiers. -/
def Uniform (size : ℤ) (mm : Multi) (ids : List ℤ) : Prop :=
  ∀ j ∈ mm, j.trajs.map (·.id) = ids ∧ ∀ t ∈ j.trajs, (t.xs.length : ℤ) = size ∧ (t.ys.length : ℤ) = size

theorem multiLoop_accepts {size : ℤ} {ids : List ℤ} : ∀ (mm : Multi) (have' out : List ℤ), Uniform size mm ids →
    have' = [] ∨ have' = ids → ∃ r, validateMultiLoop size mm have' out = .ok r ∧
      ∀ x, x ∈ r ↔ x ∈ out ∨ (mm ≠ [] ∧ x ∈ ids) := by
  intro mm
  induction mm with
  | nil => intro have' out _ _; exact ⟨out, rfl, fun x => by simp⟩
  | cons j rest ih =>
    intro have' out hu hh
    obtain ⟨h1, h2⟩ := hu j (by simp)
    unfold validateMultiLoop
    rw [if_neg (by
      intro hq
      obtain ⟨t, ht, hd⟩ := List.any_eq_true.mp hq
      have := h2 t ht
      simp at hd
      omega)]
    have he : (if have'.isEmpty then j.trajs.map (·.id) else have') = ids := by
      rcases hh with rfl | rfl
      · simpa using h1
      · rw [h1]; split <;> rfl
    simp only [he]
    rw [h1, if_pos (sameSet_of fun x => Iff.rfl)]
    obtain ⟨r, hr, hm⟩ := ih ids (out ++ ids) (fun j hj => hu j (List.mem_cons_of_mem _ hj)) (Or.inr rfl)
    refine ⟨r, hr, fun x => ?_⟩
    rw [hm, List.mem_append]
    constructor
    · rintro ((h | h) | h)
      · exact Or.inl h
      · exact Or.inr ⟨by simp, h⟩
      · exact Or.inr ⟨by simp, h.2⟩
    · rintro (h | h)
      · exact Or.inl (Or.inl h)
      · exact Or.inl (Or.inr h.2)

theorem multis_accepts {size : ℤ} {ids : Multi → List ℤ} : ∀ (l : List Multi) (out : List ℤ),
    (∀ mm ∈ l, mm ≠ [] ∧ Uniform size mm (ids mm)) → ∃ r, validateMultis size l out = .ok r ∧
      ∀ x, x ∈ r ↔ x ∈ out ∨ ∃ mm ∈ l, x ∈ ids mm := by
  intro l
  induction l with
  | nil => intro out _; exact ⟨out, rfl, fun x => by simp⟩
  | cons mm rest ih =>
    intro out h
    obtain ⟨r1, h1, h2⟩ := multiLoop_accepts mm [] out (h mm (by simp)).2 (Or.inl rfl)
    obtain ⟨r, h3, h4⟩ := ih r1 fun x hx => h x (List.mem_cons_of_mem _ hx)
    refine ⟨r, ?_, fun x => ?_⟩
    · unfold validateMultis validateMulti
      rw [h1]
      exact h3
    · rw [h4, h2]
      have := (h mm (by simp)).1
      simp only [List.mem_cons, exists_eq_or_imp, this, ne_eq, not_false_iff, true_and, or_assoc]

theorem idsToTracks_mem : ∀ (l : List Track) (m : Tracks) (e : ℤ × Track), e ∈ idsToTracks l m → e.2 ∈ l ∨ e ∈ m := by
  intro l
  induction l with
  | nil => intro m e h; exact Or.inr h
  | cons t rest ih =>
    intro m e h
    rcases ih _ e h with h | h
    · exact Or.inl (List.mem_cons_of_mem _ h)
    · rcases List.mem_cons.mp h with rfl | h
      · exact Or.inl (by simp)
      · exact Or.inr (List.mem_of_mem_filter h)

theorem idsToTracks_known : ∀ (l : List Track) (m : Tracks) (i : ℤ), (∃ t ∈ l, t.id = i) ∨ (∃ e ∈ m, e.1 = i) →
    ∃ e ∈ idsToTracks l m, e.1 = i := by
  intro l
  induction l with
  | nil => rintro m i (⟨t, ht, _⟩ | h); · simp at ht
           · exact h
  | cons t rest ih =>
    intro m i h
    refine ih _ i ?_
    by_cases hi : t.id = i
    · exact Or.inr ⟨(t.id, t), by simp, hi⟩
    · rcases h with ⟨t', ht', rfl⟩ | ⟨e, he, rfl⟩
      · rcases List.mem_cons.mp ht' with rfl | ht'
        · exact absurd rfl hi
        · exact Or.inl ⟨t', ht', rfl⟩
      · exact Or.inr ⟨e, List.mem_cons_of_mem _ (List.mem_filter.mpr ⟨he, by simpa using Ne.symm hi⟩), rfl⟩

/-- Predictions of the right length that predict exactly the required tracks are accepted. -/
theorem stats_accepts {c : Cfg} {s : Scenario} {p : Preds} (hid : p.scenarioId = s.id) (hc : validateConfig c = .ok ())
    {ts : List Track} (hts : s.toPredict.mapM (requiredTrack s) = .ok ts) {ids : Multi → List ℤ}
    (hu : ∀ mm ∈ p.multis, mm ≠ [] ∧ Uniform (predictionSteps c) mm (ids mm))
    (hids : ∀ x, (∃ mm ∈ p.multis, x ∈ ids mm) ↔ x ∈ ts.map (·.id))
    (hlen : ∀ t ∈ ts, (t.states.length : ℤ) = c.history + c.future + 1) (overlaps : Box → Box → Bool) (r : Stats) :
    computeMetricsStats overlaps c p s r = computeAll overlaps c (requiredTracks s) s p.multis r ∧
    (∀ mm ∈ p.multis, ∀ j ∈ mm, ∀ t ∈ j.trajs, (t.xs.length : ℤ) = predictionSteps c ∧
      (t.ys.length : ℤ) = predictionSteps c ∧ (trackOf (requiredTracks s) t.id).isSome) ∧
    ∀ e ∈ requiredTracks s, (e.2.states.length : ℤ) = c.history + c.future + 1 ∧ e.2.id = e.1 := by
  have hm : requiredTracks s = idsToTracks ts [] := by unfold requiredTracks; rw [hts]
  obtain ⟨q, h1, h2⟩ := multis_accepts (size := predictionSteps c) (ids := ids) p.multis [] hu
  have hp : validatePredictions c p s = .ok () := by
    unfold validatePredictions validateRequired
    rw [if_neg (by simpa using hid), h1, hts]
    simp only [bind, Except.bind]
    rw [if_pos (sameSet_of fun x => by rw [h2, ← hids]; simp)]
  have hsz : ∀ e ∈ requiredTracks s, (e.2.states.length : ℤ) = c.history + c.future + 1 := by
    intro e he
    rw [hm] at he
    rcases idsToTracks_mem ts [] e he with h | h
    · exact hlen _ h
    · simp at h
  have hv : validateTracks c (idsToTracks ts []) = .ok () := by
    unfold validateTracks
    rw [if_neg]
    intro hq
    obtain ⟨e, he, hd⟩ := List.any_eq_true.mp hq
    have := hsz e (by rw [hm]; exact he)
    simp [this] at hd
  have hknown : ∀ mm ∈ p.multis, ∀ j ∈ mm, ∀ t ∈ j.trajs, ∃ e ∈ idsToTracks ts [], e.1 = t.id := by
    intro mm hmm j hj t ht
    have : t.id ∈ ids mm := by
      rw [← ((hu mm hmm).2 j hj).1]
      exact List.mem_map.mpr ⟨t, ht, rfl⟩
    obtain ⟨tk, htk, hq⟩ := List.mem_map.mp ((hids t.id).mp ⟨mm, hmm, this⟩)
    exact idsToTracks_known ts [] t.id (Or.inl ⟨tk, htk, hq⟩)
  have hi : validateIds p (idsToTracks ts []) = .ok () := by
    unfold validateIds
    rw [if_neg]
    intro hq
    obtain ⟨mm, hmm, hq⟩ := List.any_eq_true.mp hq
    obtain ⟨j, hj, hq⟩ := List.any_eq_true.mp hq
    obtain ⟨t, ht, hq⟩ := List.any_eq_true.mp hq
    obtain ⟨e, he, hne⟩ := hknown mm hmm j hj t ht
    rw [Option.isNone_iff_eq_none, List.find?_eq_none] at hq
    exact hq e he (by simpa using hne)
  refine ⟨?_, ?_, fun e he => ⟨hsz e he, idsToTracks_ids ts [] (by simp) e (by rw [← hm]; exact he)⟩⟩
  · unfold computeMetricsStats
    rw [hc, hp, hts]
    simp only [bind, Except.bind, hv, hi, hm]
  · intro mm hmm j hj t ht
    obtain ⟨a, b⟩ := ((hu mm hmm).2 j hj).2 t ht
    refine ⟨a, b, ?_⟩
    rw [hm]
    exact validateIds_known hi mm hmm j hj t ht

/-! ### The scenarios of the operation -/

/-- The sizes of the tensors fit the configuration, which satisfies the conditions of the evaluation. -/
structure Fits (c : Cfg) (d : Dims) : Prop where
  config : validateConfig c = .ok ()
  predPos : 0 < c.predSps
  hist : 0 ≤ c.history
  maxPos : 0 < c.maxPred
  two : 2 ≤ predictionSteps c
  scaled : Scaled c
  steps : ∀ sc ∈ c.steps, sc.step < predictionSteps c
  predSteps : (d.predSteps : ℤ) = predictionSteps c
  gtSteps : (d.gtSteps : ℤ) = c.history + c.future + 1
  topK : 0 < d.topK

/-- The scores are not negative. -/
def ScoresOk (d : Dims) (e : Elem) : Prop := ∀ m < d.groups, ∀ k < d.topK, 0 ≤ e.score m k

theorem agentTracks_length {d : Dims} {e : Elem} {tk : Track} (h : tk ∈ agentTracks d e) : tk.states.length = d.gtSteps := by
  obtain ⟨j, _, rfl⟩ := List.mem_map.mp h
  simp

/-- The identifiers of the selected agents of an element. -/
def selectedIds (d : Dims) (e : Elem) : List ℤ :=
  (List.range d.groups).flatMap fun m => (members d e m).map fun n => e.id (e.idx m n).toNat

theorem elem_required_tracks {d : Dims} {e : Elem} (h : WellPointed d e) {s : Scenario} {pre post : List Track}
    (hs : s.tracks = pre ++ agentTracks d e ++ post) :
    ∃ ts, (elemRequired d e pre.length).mapM (requiredTrack s) = .ok ts ∧ ts.map (·.id) = selectedIds d e ∧
      ∀ t ∈ ts, t ∈ agentTracks d e := by
  have hone : ∀ m < d.groups, ∀ n ∈ members d e m,
      requiredTrack s ((pre.length + rank d e (e.idx m n).toNat : ℕ) : ℤ) =
        .ok ⟨e.id (e.idx m n).toNat, e.type (e.idx m n).toNat,
          (List.range d.gtSteps).map fun t => e.state (e.idx m n).toNat t⟩ ∧
      (⟨e.id (e.idx m n).toNat, e.type (e.idx m n).toNat,
          (List.range d.gtSteps).map fun t => e.state (e.idx m n).toNat t⟩ : Track) ∈ agentTracks d e := by
    intro m hm n hn
    obtain ⟨hn1, hn2⟩ := List.mem_filter.mp hn
    obtain ⟨a, b, c⟩ := h m hm n (List.mem_range.mp hn1) hn2
    have hr := agentTracks_rank d e (j := (e.idx m n).toNat) (by omega) c
    have hlt := (List.getElem?_eq_some_iff.mp hr).1
    refine ⟨?_, List.mem_iff_getElem?.mpr ⟨_, hr⟩⟩
    have hget : s.tracks[pre.length + rank d e (e.idx m n).toNat]? = some ⟨e.id (e.idx m n).toNat,
        e.type (e.idx m n).toNat, (List.range d.gtSteps).map fun t => e.state (e.idx m n).toNat t⟩ := by
      rw [hs, List.append_assoc, List.getElem?_append_right (by omega), Nat.add_sub_cancel_left,
        List.getElem?_append_left hlt]
      exact hr
    have hl := (List.getElem?_eq_some_iff.mp hget).1
    unfold requiredTrack at'
    rw [if_neg (by push_cast; omega), if_neg (by omega), Int.toNat_natCast, hget]
  have key : ∀ l : List ℕ, (∀ m ∈ l, m < d.groups) → ∃ ts,
      (l.flatMap fun m => (members d e m).map fun n => ((pre.length + rank d e (e.idx m n).toNat : ℕ) : ℤ)).mapM
        (requiredTrack s) = .ok ts ∧
      ts.map (·.id) = (l.flatMap fun m => (members d e m).map fun n => e.id (e.idx m n).toNat) ∧
      ∀ t ∈ ts, t ∈ agentTracks d e := by
    intro l
    induction l with
    | nil => intro _; exact ⟨[], rfl, rfl, by simp⟩
    | cons m rest ih =>
      intro hl
      obtain ⟨ts, h1, h2, h3⟩ := ih fun x hx => hl x (List.mem_cons_of_mem _ hx)
      have hm := hl m (by simp)
      refine ⟨((members d e m).map fun n => ⟨e.id (e.idx m n).toNat, e.type (e.idx m n).toNat,
          (List.range d.gtSteps).map fun t => e.state (e.idx m n).toNat t⟩) ++ ts, ?_, ?_, ?_⟩
      · rw [List.flatMap_cons, List.mapM_append, h1]
        have : ((members d e m).map fun n => ((pre.length + rank d e (e.idx m n).toNat : ℕ) : ℤ)).mapM (requiredTrack s) =
            .ok ((members d e m).map fun n => ⟨e.id (e.idx m n).toNat, e.type (e.idx m n).toNat,
              (List.range d.gtSteps).map fun t => e.state (e.idx m n).toNat t⟩) := by
          rw [List.mapM_map]
          exact mapM_ok _ fun n hn => (hone m hm n hn).1
        rw [this]
        rfl
      · rw [List.map_append, h2, List.flatMap_cons, List.map_map]; rfl
      · intro t ht
        rcases List.mem_append.mp ht with ht | ht
        · obtain ⟨n, hn, rfl⟩ := List.mem_map.mp ht
          exact (hone m hm n hn).2
        · exact h3 t ht
  exact key _ fun m hm => List.mem_range.mp hm

theorem required_tracks {d : Dims} : ∀ (es : List Elem) (pre : List Track) (s : Scenario), (∀ e ∈ es, WellPointed d e) →
    s.tracks = pre ++ es.flatMap (agentTracks d) →
    ∃ ts, (requiredFrom d es pre.length).mapM (requiredTrack s) = .ok ts ∧
      ts.map (·.id) = es.flatMap (selectedIds d) ∧ ∀ t ∈ ts, t.states.length = d.gtSteps := by
  intro es
  induction es with
  | nil => intro pre s _ _; exact ⟨[], rfl, rfl, by simp⟩
  | cons e rest ih =>
    intro pre s h hs
    rw [List.flatMap_cons, ← List.append_assoc] at hs
    obtain ⟨t1, a1, a2, a3⟩ := elem_required_tracks (h e (by simp)) hs
    obtain ⟨t2, b1, b2, b3⟩ := ih (pre ++ agentTracks d e) s (fun x hx => h x (List.mem_cons_of_mem _ hx)) hs
    rw [List.length_append] at b1
    refine ⟨t1 ++ t2, ?_, ?_, ?_⟩
    · unfold requiredFrom
      rw [List.mapM_append, a1, b1]
      rfl
    · rw [List.map_append, a2, b2, List.flatMap_cons]
    · intro t ht
      rcases List.mem_append.mp ht with ht | ht
      · exact agentTracks_length (a3 t ht)
      · exact b3 t ht

theorem elemMultis_mem {d : Dims} {e : Elem} {mm : Multi} : mm ∈ elemMultis d e ↔ ∃ m < d.groups,
    (∃ n < d.agents, e.mask m n = true) ∧ mm = (List.range d.topK).map fun k => ⟨e.score m k,
      (members d e m).map fun n => ⟨e.id (e.idx m n).toNat, (List.range d.predSteps).map fun t => (e.traj m k n t).1,
        (List.range d.predSteps).map fun t => (e.traj m k n t).2⟩⟩ := by
  unfold elemMultis
  rw [List.mem_map]
  constructor
  · rintro ⟨m, hm, rfl⟩
    obtain ⟨h1, h2⟩ := List.mem_filter.mp hm
    exact ⟨m, List.mem_range.mp h1, of_decide_eq_true h2, rfl⟩
  · rintro ⟨m, hm, hq, rfl⟩
    exact ⟨m, List.mem_filter.mpr ⟨List.mem_range.mpr hm, decide_eq_true hq⟩, rfl⟩

/-- C127: the evaluation of a scenario of fitting, well-pointed elements is not refused and does not crash; every group
with a selected agent is evaluated. -/
theorem scenario_evaluates {c : Cfg} {d : Dims} (hf : Fits c d) (id : String) (es : List Elem)
    (hw : ∀ e ∈ es, WellPointed d e) (hsc : ∀ e ∈ es, ScoresOk d e) (overlaps : Box → Box → Bool) :
    Sound c (scenarioOf d id es) (predsOf d id es) ∧ evaluated (predsOf d id es).multis = (predsOf d id es).multis ∧
    ∃ r, computeMetricsStats overlaps c (predsOf d id es) (scenarioOf d id es) [] = .ok r ∧ r.Fine := by
  have hfull : FullTracks c (scenarioOf d id es) := by
    intro tk htk
    obtain ⟨e, _, h⟩ := List.mem_flatMap.mp htk
    rw [agentTracks_length h, hf.gtSteps]
  have hconf : ∀ mm ∈ (predsOf d id es).multis, ∀ j ∈ mm, 0 ≤ j.conf := by
    intro mm hmm j hj
    obtain ⟨e, he, h⟩ := List.mem_flatMap.mp hmm
    obtain ⟨m, hm, _, rfl⟩ := elemMultis_mem.mp h
    obtain ⟨k, hk, rfl⟩ := List.mem_map.mp hj
    exact hsc e he m hm k (List.mem_range.mp hk)
  have hsound : Sound c (scenarioOf d id es) (predsOf d id es) :=
    ⟨hf.predPos, hf.hist, hf.maxPos, hf.two, hf.scaled, hf.steps, hfull, hconf⟩
  have hhas : ∀ mm ∈ (predsOf d id es).multis, HasPredictions mm = true := by
    intro mm hmm
    obtain ⟨e, he, h⟩ := List.mem_flatMap.mp hmm
    obtain ⟨m, hm, ⟨n, hn, hs⟩, rfl⟩ := elemMultis_mem.mp h
    have hne : members d e m ≠ [] :=
      List.ne_nil_of_mem (List.mem_filter.mpr ⟨List.mem_range.mpr hn, hs⟩)
    obtain ⟨k, hk⟩ : ∃ k, d.topK = k + 1 := ⟨d.topK - 1, by have := hf.topK; omega⟩
    rw [hk, List.range_succ_eq_map, List.map_cons]
    simp [HasPredictions, hne]
  refine ⟨hsound, all_contribute_partial hhas, ?_⟩
  obtain ⟨ts, t1, t2, t3⟩ := required_tracks es [] (scenarioOf d id es) hw (by simp [scenarioOf])
  have hacc := stats_accepts (c := c) (s := scenarioOf d id es) (p := predsOf d id es) rfl hf.config (ts := ts) t1
    (ids := fun mm => match mm with
      | [] => []
      | j :: _ => j.trajs.map (·.id)) (by
      intro mm hmm
      obtain ⟨e, he, h⟩ := List.mem_flatMap.mp hmm
      obtain ⟨m, hm, _, rfl⟩ := elemMultis_mem.mp h
      obtain ⟨k, hk⟩ : ∃ k, d.topK = k + 1 := ⟨d.topK - 1, by have := hf.topK; omega⟩
      refine ⟨by rw [hk, List.range_succ_eq_map]; simp, ?_⟩
      intro j hj
      obtain ⟨k', _, rfl⟩ := List.mem_map.mp hj
      refine ⟨?_, ?_⟩
      · rw [hk, List.range_succ_eq_map, List.map_cons]
        simp
      · intro t ht
        obtain ⟨n, _, rfl⟩ := List.mem_map.mp ht
        simp [hf.predSteps]) (by
      intro x
      rw [t2, List.mem_flatMap]
      obtain ⟨k, hk⟩ : ∃ k, d.topK = k + 1 := ⟨d.topK - 1, by have := hf.topK; omega⟩
      constructor
      · rintro ⟨mm, hmm, hx⟩
        obtain ⟨e, he, h⟩ := List.mem_flatMap.mp hmm
        obtain ⟨m, hm, _, rfl⟩ := elemMultis_mem.mp h
        refine ⟨e, he, List.mem_flatMap.mpr ⟨m, List.mem_range.mpr hm, ?_⟩⟩
        rw [hk, List.range_succ_eq_map, List.map_cons] at hx
        simpa using hx
      · rintro ⟨e, he, hx⟩
        obtain ⟨m, hm, hx⟩ := List.mem_flatMap.mp hx
        obtain ⟨n, hn, rfl⟩ := List.mem_map.mp hx
        obtain ⟨hn1, hn2⟩ := List.mem_filter.mp hn
        refine ⟨_, List.mem_flatMap.mpr ⟨e, he, elemMultis_mem.mpr ⟨m, List.mem_range.mp hm,
          ⟨n, List.mem_range.mp hn1, hn2⟩, rfl⟩⟩, ?_⟩
        rw [hk, List.range_succ_eq_map, List.map_cons]
        simp only [List.map_map, List.mem_map, Function.comp_apply]
        exact ⟨n, hn, rfl⟩) (by
      intro t ht
      rw [t3 t ht, hf.gtSteps]) overlaps []
  obtain ⟨h1, h2, h3⟩ := (validateConfig_ok hf.predPos).mp hf.config
  obtain ⟨r, hr, hfine, _⟩ := computeAll_ok
    ⟨hf.predPos, h2, h1, hf.hist, fun e he => (hacc.2.2 e he).1, fun e he => (hacc.2.2 e he).2⟩ hf.scaled hfull hf.two
    hf.maxPos (fun sc hs => ⟨(h3 sc hs).1, hf.steps sc hs⟩) overlaps (predsOf d id es).multis [] hconf
    (fun mm hmm j hj t ht => ⟨(hacc.2.1 mm hmm j hj t ht).1, (hacc.2.1 mm hmm j hj t ht).2.1,
      (hacc.2.1 mm hmm j hj t ht).2.2⟩) (show Stats.Fine [] from ⟨Stats.good_nil, by simp⟩)
  exact ⟨r, hacc.1.trans hr, hfine⟩

/-! ### The order of scenarios -/

theorem library_total {c : Cfg} {overlaps : Box → Box → Bool} : ∀ (xs : List (Scenario × Preds)),
    (∀ x ∈ xs, Sound c x.1 x.2 ∧ ∃ r, computeMetricsStats overlaps c x.2 x.1 [] = .ok r ∧ r.Fine) → ∀ r0 : Stats, r0.Fine →
    ∃ r, allStats overlaps c (xs.map fun x => (x.2, some x.1)) r0 = .ok r ∧ r.Fine := by
  intro xs
  induction xs with
  | nil => intro _ r0 h0; exact ⟨r0, rfl, h0⟩
  | cons x rest ih =>
    intro h r0 h0
    obtain ⟨_, own, h1, h2⟩ := h x (by simp)
    obtain ⟨r1, h3, _⟩ := Stats.accumulate_spec h0.1 h2.1
    obtain ⟨r, h4, h5⟩ := ih (fun y hy => h y (List.mem_cons_of_mem _ hy)) r1 (Stats.accumulate_fine h0 h2 h3)
    refine ⟨r, ?_, h5⟩
    rw [List.map_cons, allStats_cons]
    simp only [h1, h3, bind, Except.bind]
    exact h4

theorem library_perm {c : Cfg} {overlaps : Box → Box → Bool} {xs ys : List (Scenario × Preds)} (hp : xs.Perm ys)
    (h : ∀ x ∈ xs, Sound c x.1 x.2 ∧ ∃ r, computeMetricsStats overlaps c x.2 x.1 [] = .ok r ∧ r.Fine) :
    ∃ rows, libraryRows overlaps c xs = some rows ∧ libraryRows overlaps c ys = some rows := by
  obtain ⟨r, hr, hfine⟩ := library_total xs h [] ⟨Stats.good_nil, by simp⟩
  obtain ⟨r', q, q', h1, h2, h3, h4⟩ := allStats_perm (overlaps := overlaps) (c := c)
    (hp.map fun x : Scenario × Preds => (x.2, some x.1)) (by
      intro e he s hs
      obtain ⟨x, hx, rfl⟩ := List.mem_map.mp he
      cases hs
      exact (h x hx).1) hr
  refine ⟨createOutput c q, ?_, ?_⟩
  · unfold libraryRows; rw [hr]; simp [Except.toOption, h2]
  · unfold libraryRows; rw [h1]
    simp only [Except.toOption, Option.bind_some, h3, Option.map_some]
    have hk : (q.map (·.1)).Nodup := by
      obtain ⟨l, e1, e2, _⟩ := motionMetrics_spec hfine.1
      rw [h2] at e1
      cases e1
      rw [e2]
      exact hfine.1.1
    rw [createOutput_perm hk h4]

/-- C127: fitting input whose scenarios are different gives the same rows for every order of the batch, of the hash map
and of the tasks. -/
theorem op_order {c : Cfg} {overlaps : Box → Box → Bool} {s : Shapes} {d : Dims} (hd : dims s = some d) (hf : Fits c d)
    {es es' : List Elem} (hp : es.Perm es') (hw : ∀ e ∈ es, WellPointed d e) (hsc : ∀ e ∈ es, ScoresOk d e)
    (hn : (es.map (·.scenario)).Nodup) :
    ∃ n rows, n = es.length ∧ ∀ view view' : Results → Results, (∀ r, (view r).Perm r) → (∀ r, (view' r).Perm r) →
      ∀ order order' : List ℕ, order.Perm (List.range n) → order'.Perm (List.range n) →
      motionOp overlaps c view order s es = some rows ∧ motionOp overlaps c view' order' s es' = some rows := by
  obtain ⟨r, a, b, e1, f⟩ := parse_spec d es hw
  obtain ⟨r', a', b', e1', f'⟩ := parse_spec d es' fun e he => hw e (hp.mem_iff.mpr he)
  have hn' : (es'.map (·.scenario)).Nodup := (hp.map _).nodup_iff.mp hn
  have hlen : ∀ {es : List Elem} {r : Results}, (es.map (·.scenario)).Nodup → r.keys.Nodup →
      (∀ id, id ∈ r.keys ↔ ∃ e ∈ es, e.scenario = id) → r.length = es.length := by
    intro es r hn hb he
    have : (es.map (·.scenario)).Perm r.keys := by
      rw [List.perm_ext_iff_of_nodup hn hb]
      intro id
      rw [he]
      simp
    have := this.length_eq
    simpa [Results.keys] using this.symm
  have hmap : ∀ {es : List Elem} {r : Results}, (∀ id x, (id, x) ∈ r → x.scenario = scenarioOf d id (ofScenario id es) ∧
      x.preds = predsOf d id (ofScenario id es)) → r.map (fun e => (e.2.scenario, e.2.preds)) =
      r.keys.map fun id => (scenarioOf d id (ofScenario id es), predsOf d id (ofScenario id es)) := by
    intro es r hx
    unfold Results.keys
    rw [List.map_map]
    refine List.map_congr_left fun e he => ?_
    obtain ⟨h1, h2⟩ := hx e.1 e.2 he
    rw [h1, h2]
    rfl
  have hkeys : r.keys.Perm r'.keys := by
    rw [List.perm_ext_iff_of_nodup b b']
    intro id
    rw [e1, e1']
    constructor
    · rintro ⟨e, he, h⟩; exact ⟨e, hp.mem_iff.mp he, h⟩
    · rintro ⟨e, he, h⟩; exact ⟨e, hp.mem_iff.mpr he, h⟩
  have hpr : (r.map fun e => (e.2.scenario, e.2.preds)).Perm (r'.map fun e => (e.2.scenario, e.2.preds)) := by
    rw [hmap f, hmap f']
    have : r'.keys.map (fun id => (scenarioOf d id (ofScenario id es'), predsOf d id (ofScenario id es'))) =
        r'.keys.map fun id => (scenarioOf d id (ofScenario id es), predsOf d id (ofScenario id es)) := by
      refine List.map_congr_left fun id hid => ?_
      obtain ⟨e, he, rfl⟩ := (e1' id).mp hid
      rw [ofScenario_distinct hn' he, ofScenario_distinct hn (hp.mem_iff.mpr he)]
    rw [this]
    exact hkeys.map _
  have hall : ∀ x ∈ r.map (fun e => (e.2.scenario, e.2.preds)), Sound c x.1 x.2 ∧
      ∃ st, computeMetricsStats overlaps c x.2 x.1 [] = .ok st ∧ st.Fine := by
    intro x hx
    rw [hmap f] at hx
    obtain ⟨id, _, rfl⟩ := List.mem_map.mp hx
    have := scenario_evaluates hf id (ofScenario id es) (fun e he => hw e (List.mem_of_mem_filter he))
      (fun e he => hsc e (List.mem_of_mem_filter he)) overlaps
    exact ⟨this.1, this.2.2⟩
  obtain ⟨rows, h1, _⟩ := library_perm (List.Perm.refl _) hall
  refine ⟨es.length, rows, rfl, ?_⟩
  intro view view' hv hv' order order' ho ho'
  have l1 : (view r).length = es.length := by rw [(hv r).length_eq, hlen hn b e1]
  have l2 : (view' r').length = es.length := by rw [(hv' r').length_eq, hlen hn' b' e1', hp.length_eq]
  rw [op_is_library overlaps c view order s es d hd r a (by rw [l1]; exact ho),
    op_is_library overlaps c view' order' s es' d hd r' a' (by rw [l2]; exact ho')]
  constructor
  · obtain ⟨rows', g1, g2⟩ := library_perm ((hv r).map fun e => (e.2.scenario, e.2.preds)).symm hall
    rw [h1] at g1; cases g1; exact g2
  · obtain ⟨rows', g1, g2⟩ := library_perm (hpr.trans ((hv' r').map fun e => (e.2.scenario, e.2.preds)).symm) hall
    rw [h1] at g1; cases g1; exact g2

end Verif.OpsMotion
