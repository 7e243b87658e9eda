import Verif.Props.SimFeaturesOrder

/-! C160, C161, C162: which scenes have features, the features of rollouts, and those of the logged scene. -/

namespace Verif.SimFeatures

open Verif.SimAgents Verif.ListM
open Verif.Interaction (Obj Car big pairDistance roundingFactor Scene closing maskedLong carAt whereTrue maskedDistance ttcStep Proper)

noncomputable section

/-! ### Which scenes have features -/

theorem edgeAt_isSome {m : MapData} {k : ℕ} {r : Sim ℝ} {o : Obj} (h : objAt k r = some o) :
    (edgeAt (roadEdges m) k r).isSome ↔ ∃ f ∈ m.features, ∃ l, f.edge = some l ∧ 2 ≤ l.length := by
  unfold edgeAt
  rw [h, roadEdges_spec]
  simp only [Option.bind_eq_bind, Option.bind_some]
  rw [Road.roadEdge_iff]
  constructor
  · rintro ⟨l, hl, h2⟩
    obtain ⟨f, hf, hfl⟩ := List.mem_flatMap.1 hl
    exact ⟨f, hf, l, by simpa using hfl, h2⟩
  · rintro ⟨f, hf, l, hl, h2⟩
    exact ⟨l, List.mem_flatMap.2 ⟨f, hf, by simp [hl]⟩, h2⟩

theorem lightOf_isSome {order : List ℤ → List ℤ} {m : MapData} {r : Sim ℝ} (hv : r.valid.length = 91) (hf : ∀ f, (r.num f).length = 91) :
    (lightOf order m r).isSome ↔ (∃ i l, (i, l) ∈ lanes m ∧ 2 ≤ l.length) ∧ m.signals.length = 91 := by
  unfold lightOf
  rw [Road.redLight_iff]
  simp only [List.length_map, List.length_zip, hf, hv, true_and, Nat.min_self]
  constructor
  · rintro ⟨⟨l, hl, h2⟩, _, h3⟩
    obtain ⟨⟨i, l'⟩, hil, rfl⟩ := List.mem_map.1 hl
    exact ⟨⟨i, l', hil, h2⟩, h3.symm⟩
  · rintro ⟨⟨i, l, hl, h2⟩, h3⟩
    refine ⟨⟨l, List.mem_map.2 ⟨_, hl, rfl⟩, h2⟩, ?_, h3.symm⟩
    intro e
    rw [e] at h3
    simp at h3

/-- C160: a scene with an object for each evaluated id and with boxes of positive size has features exactly if the map has a road edge with two
points and, if there are lanes of surface streets and traffic lights at all, a lane with two points and lights at all steps. -/
theorem compute_iff_partial {order : List ℤ → List ℤ} (ho : Listing order) {s : Scenario ℝ} {m : MapData} {ch : Challenge}
    {pairs : List (Sim ℝ × Track ℝ)} (h : Posed s ch pairs) {ids : List ℤ} (he : evaluationIds s ch = some ids) (hne : ids ≠ [])
    (hin : ∀ i ∈ ids, ∃ p ∈ pairs, p.1.id = i) {lv : Bool}
    (hp : ∀ k < 91, ∀ p ∈ pairs, ∀ o, AtStep (entity ch lv p) k o → o.valid = true → 0 < o.length ∧ 0 < o.width) :
    (compute order s m (pairs.map Prod.fst) ch lv).isSome ↔
      (∃ f ∈ m.features, ∃ l, f.edge = some l ∧ 2 ≤ l.length) ∧
      (lanes m = [] ∨ m.signals = [] ∨ (∃ i l, (i, l) ∈ lanes m ∧ 2 ≤ l.length) ∧ m.signals.length = 91) := by
  obtain ⟨eval, rest, harr, _, hc⟩ := compute_eq ho (m := m) h he hne hin lv
  have hl : ∀ p ∈ eval ++ rest, p ∈ pairs := fun p hp => harr.perm.mem_iff.1 hp
  have hle : ∀ p ∈ eval, p ∈ pairs := fun p hp => hl p (List.mem_append_left _ hp)
  have hev : ∃ p, p ∈ eval := by
    cases eval with
    | nil => exact absurd harr.ids.symm hne
    | cons p l => exact ⟨p, by simp⟩
  obtain ⟨p0, hp0⟩ := hev
  obtain ⟨hv0, hf0⟩ := entity_len h (hle p0 hp0) lv
  rw [hc]
  constructor
  · intro hs
    obtain ⟨F, hF⟩ := Option.isSome_iff_exists.1 hs
    unfold arranged at hF
    simp only [Option.bind_eq_bind, Option.bind_eq_some_iff] at hF
    obtain ⟨_, _, _, _, edge, hedge, light, hlight, _⟩ := hF
    constructor
    · obtain ⟨er, _, he2⟩ := mapM_get hedge (range_get (show 0 < 91 by norm_num))
      obtain ⟨d, _, hd⟩ := forall₂_exists_left (mapM_forall₂ he2) (List.mem_map.2 ⟨p0, hp0, rfl⟩)
      obtain ⟨o, ho'⟩ := objAt_some hv0 hf0 (show 0 < 91 by norm_num)
      rw [← edgeAt_isSome ho', hd]
      rfl
    · unfold lightFor at hlight
      split at hlight
      next hyes =>
        right; right
        obtain ⟨d, _, hd⟩ := forall₂_exists_left (mapM_forall₂ hlight) (List.mem_map.2 ⟨p0, hp0, rfl⟩)
        rw [← lightOf_isSome (order := order) hv0 hf0, hd]
        rfl
      next hno => tauto
  · rintro ⟨hedge, hlight⟩
    have h1 : ∃ near, nearestAll 91 ((eval ++ rest).map (entity ch lv)) (frontMask eval.length rest.length) = some near := by
      apply mapM_isSome
      intro k hk
      rw [List.mem_range] at hk
      obtain ⟨os, hos⟩ := entities_at h hl lv hk
      rw [hos]
      apply Interaction.nearest_some
      · rw [← (mapM_forall₂ hos).length_eq, frontMask_length, List.length_map, List.length_append]
      · intro o ho' hvo
        obtain ⟨j, hj⟩ := List.mem_iff_getElem?.1 ho'
        obtain ⟨r, hr1, hr2⟩ := mapM_get' hos hj
        obtain ⟨p, hp', rfl⟩ := List.mem_map.1 (List.mem_of_getElem? hr1)
        obtain ⟨a, b⟩ := hp k hk p (hl p hp') o (objAt_iff.1 hr2) hvo
        exact ⟨a, b, by norm_num [roundingFactor], by norm_num [roundingFactor]⟩
    obtain ⟨near, hnear⟩ := h1
    obtain ⟨time, htime⟩ := timeAll_some h hl lv
    have h2 : ∃ edge, ((List.range 91).mapM fun s => (eval.map (entity ch lv)).mapM (edgeAt (roadEdges m) s)) = some edge := by
      apply mapM_isSome
      intro k hk
      rw [List.mem_range] at hk
      apply mapM_isSome
      intro r hr
      obtain ⟨p, hp', rfl⟩ := List.mem_map.1 hr
      obtain ⟨hv, hf⟩ := entity_len h (hle p hp') lv
      obtain ⟨o, ho'⟩ := objAt_some hv hf hk
      exact Option.isSome_iff_exists.1 ((edgeAt_isSome ho').2 hedge)
    obtain ⟨edge, hedge'⟩ := h2
    have h3 : ∃ light, lightFor order m (eval.map (entity ch lv)) = some light := by
      unfold lightFor
      split
      next hyes =>
        apply mapM_isSome
        intro r hr
        obtain ⟨p, hp', rfl⟩ := List.mem_map.1 hr
        obtain ⟨hv, hf⟩ := entity_len h (hle p hp') lv
        refine Option.isSome_iff_exists.1 ((lightOf_isSome hv hf).2 ?_)
        rcases hlight with e | e | e
        · exact absurd e hyes.1
        · exact absurd e hyes.2
        · exact e
      next => exact ⟨_, rfl⟩
    obtain ⟨light, hlight'⟩ := h3
    unfold arranged
    simp only [hnear, htime, hedge', hlight', Option.bind_eq_bind, Option.bind_some]
    rfl

theorem trajectories_nil {s : Scenario ℝ} (h : Complete s 91) (ch : Challenge) (lv : Bool) : trajectories [] s ch lv = none := by
  cases ch with
  | simAgents =>
    show sceneToTrajs [] s lv = none
    unfold sceneToTrajs
    refine bind_of (fromScenario_eq h) ?_
    refine bind_of (a := []) rfl ?_
    refine bind_of (a := []) rfl ?_
    refine bind_of (a := []) rfl ?_
    refine bind_of (a := []) rfl ?_
    rfl
  | scenarioGen =>
    show genToTrajs [] s .scenarioGen = none
    unfold genToTrajs
    refine bind_of (a := []) rfl ?_
    refine bind_of (a := []) rfl ?_
    refine bind_of (a := []) rfl ?_
    refine bind_of (a := []) rfl ?_
    refine bind_of (a := []) rfl ?_
    refine bind_of (a := []) rfl ?_
    refine bind_of (a := []) rfl ?_
    rfl

/-- Without an object for an evaluated id there are no features. -/
theorem compute_missing {order : List ℤ → List ℤ} {s : Scenario ℝ} {m : MapData} {ch : Challenge}
    {pairs : List (Sim ℝ × Track ℝ)} (h : Posed s ch pairs) {ids : List ℤ} (he : evaluationIds s ch = some ids) {i : ℤ} (hi : i ∈ ids)
    (hno : ∀ p ∈ pairs, p.1.id ≠ i) (lv : Bool) : compute order s m (pairs.map Prod.fst) ch lv = none := by
  rw [Option.eq_none_iff_forall_ne_some]
  intro F hF
  unfold compute at hF
  rw [Option.bind_eq_bind, Option.bind_eq_some_iff] at hF
  obtain ⟨sim, hsim, hF⟩ := hF
  rw [Option.bind_eq_some_iff] at hF
  obtain ⟨log, hlog, hF⟩ := hF
  rw [Option.bind_eq_some_iff] at hF
  obtain ⟨log', hlog', hF⟩ := hF
  rw [he, Option.bind_eq_bind, Option.bind_some, Option.bind_eq_bind, Option.bind_eq_some_iff] at hF
  obtain ⟨ids', hids', hF⟩ := hF
  have e : ids' = ids := by
    unfold idTensor at hids'
    split at hids'
    · simp at hids'
    · exact (Option.some.inj hids').symm
  subst e
  rw [Option.bind_eq_some_iff] at hF
  obtain ⟨eval, heval, _⟩ := hF
  by_cases hp : pairs = []
  · subst hp
    rw [List.map_nil, trajectories_nil h.complete] at hsim
    exact absurd hsim (by simp)
  · rw [trajectories_eq h hp, Option.some.injEq] at hsim
    subst hsim
    have hwf : (ofSims (pairs.map (entity ch lv))).WF := ⟨fun f => by simp [ofSims], by simp [ofSims], by simp [ofSims]⟩
    have := ((gatherById_spec hwf ids').1.1 ⟨_, heval⟩) i hi
    have hm : i ∈ (ofSims (pairs.map (entity ch lv))).id := List.count_pos_iff.1 (by omega)
    obtain ⟨o, ho1, ho2⟩ := List.mem_map.1 hm
    obtain ⟨p, hp1, rfl⟩ := List.mem_map.1 ho1
    rw [entity_id] at ho2
    exact hno p hp1 ho2

/-! ### The logged scene -/

/-- The logged scene as pairs. -/
theorem logged_posed {s : Scenario ℝ} (h : Complete s 91) (ch : Challenge) : Posed s ch ((agents s).map fun t => (follow ch t, t)) := by
  have hlen : ∀ t ∈ agents s, t.states.length = 91 := fun t ht => h.len t ((agents_iff s t).1 ht).1
  refine ⟨h, ?_, ?_, ?_⟩
  · intro p hp
    obtain ⟨t, ht, rfl⟩ := List.mem_map.1 hp
    exact ⟨((agents_iff s t).1 ht).1, by cases ch <;> rfl⟩
  · intro p hp f _
    obtain ⟨t, ht, rfl⟩ := List.mem_map.1 hp
    cases ch <;> simp [follow, config, hlen t ht]
  · rw [List.map_map]
    have : (agents s).map ((fun p : Sim ℝ × Track ℝ => p.1.id) ∘ fun t => (follow ch t, t)) = (agents s).map Track.id :=
      List.map_congr_left fun t _ => by cases ch <;> rfl
    rw [this]
    exact ((List.filter_sublist (l := s.tracks)).map Track.id).nodup h.ids

theorem logged_scene {s : Scenario ℝ} (h : Complete s 91) (hag : agents s ≠ []) (ch : Challenge) :
    toScene s ch = some (((agents s).map fun t => (follow ch t, t)).map Prod.fst) := by
  rw [toScene_spec h hag, List.map_map]
  rfl

theorem averageDisplacement_self (l : List (ℝ × ℝ × ℝ)) {valid : List Bool} (h : true ∈ valid) :
    Kinematics.averageDisplacement l l valid = some 0 := by
  unfold Kinematics.averageDisplacement
  have hn : (valid.filter id).length ≠ 0 := by
    intro e
    rw [List.length_eq_zero_iff, List.filter_eq_nil_iff] at e
    exact e true h rfl
  simp only [if_neg hn, Option.some.injEq]
  rw [List.sum_eq_zero, zero_div]
  intro x hx
  obtain ⟨⟨⟨a, b⟩, v⟩, hy, rfl⟩ := List.mem_map.1 hx
  have hab := List.of_mem_zip hy
  have e : a = b := by
    have := hab.1
    rw [List.zip_eq_zipWith, List.zipWith_self] at this
    obtain ⟨c, _, hc⟩ := List.mem_map.1 this
    simp only [Prod.mk.injEq] at hc
    exact hc.1.symm.trans hc.2
  subst e
  simp [Kinematics.displacement]

/-- C162: in the features of the logged scene the displacement of every evaluated object is zero. -/
theorem logged_error {order : List ℤ → List ℤ} (ho : Listing order) {s : Scenario ℝ} (h : Complete s 91) {m : MapData} {ch : Challenge}
    {ids : List ℤ} (he : evaluationIds s ch = some ids) (hne : ids ≠ []) (hin : ∀ i ∈ ids, ∃ t ∈ agents s, t.id = i) {F : Features}
    {scene : List (Sim ℝ)} (hs : toScene s ch = some scene) (hF : compute order s m scene ch true = some F) :
    F.error = ids.map fun _ => some 0 := by
  have hag : agents s ≠ [] := by
    intro e
    cases ids with
    | nil => exact hne rfl
    | cons i _ => obtain ⟨t, ht, _⟩ := hin i (by simp); rw [e] at ht; simp at ht
  rw [logged_scene h hag, Option.some.injEq] at hs
  subst hs
  have hpose := logged_posed h ch
  have hin' : ∀ i ∈ ids, ∃ p ∈ (agents s).map (fun t => (follow ch t, t)), p.1.id = i := by
    intro i hi
    obtain ⟨t, ht, e⟩ := hin i hi
    exact ⟨_, List.mem_map.2 ⟨t, ht, rfl⟩, by rw [← e]; cases ch <;> rfl⟩
  obtain ⟨_, ⟨_, _, hlen, _⟩, _, hrow⟩ := compute_spec ho hpose he hne hin' hF
  apply List.ext_getElem?
  intro k
  rw [List.getElem?_map]
  cases hk : ids[k]? with
  | none =>
    rw [List.getElem?_eq_none_iff] at hk
    simpa [hlen] using hk
  | some i =>
    obtain ⟨p, hp, hpi, _, _, h1, h2, _⟩ := hrow k i hk
    obtain ⟨t, ht, rfl⟩ := List.mem_map.1 hp
    cases ch with
    | scenarioGen => exact h1 rfl
    | simAgents =>
      rw [h2 rfl]
      have hpos : positions (entity .simAgents true (follow .simAgents t, t)) = t.states.map fun st => (st.num .x, st.num .y, st.num .z) := by
        have hxyz : ∀ f, f = .x ∨ f = .y ∨ f = .z → (entity .simAgents true (follow .simAgents t, t)).num f = t.states.map fun st => st.num f := by
          intro f hf
          rcases hf with rfl | rfl | rfl <;> simp [entity, joined, follow, ← List.map_append]
        unfold positions
        rw [hxyz .x (by simp), hxyz .y (by simp), hxyz .z (by simp), List.zip_map', List.zip_map']
      rw [hpos]
      obtain ⟨st, hst, hv⟩ := ((agents_iff s t).1 ht).2
      rw [averageDisplacement_self _ (List.mem_map.2 ⟨st, List.mem_of_getElem? hst, hv⟩)]
      rfl

/-! ### Rollouts -/

/-- C161: the features of rollouts: those of the logged scene with the validity of the log, and for each scene its own, in the order of the
scenes.  All have the same ids, so that the exception for misaligned ids is never raised; there are features exactly if there is a scene and each
of the scenes has features. -/
theorem rollouts_spec {order : List ℤ → List ℤ} (ho : Listing order) {s : Scenario ℝ} (h : Complete s 91) {m : MapData} {ch : Challenge}
    {ids : List ℤ} (he : evaluationIds s ch = some ids) (hne : ids ≠ []) (hin : ∀ i ∈ ids, ∃ t ∈ agents s, t.id = i)
    {scenes : List (List (Sim ℝ × Track ℝ))} (hp : ∀ pairs ∈ scenes, Posed s ch pairs ∧ ∀ i ∈ ids, ∃ p ∈ pairs, p.1.id = i)
    (L : Features) (Fs : List Features) :
    rollouts order s m (scenes.map fun pairs => pairs.map Prod.fst) ch = some (L, Fs) ↔
      scenes ≠ [] ∧ (∃ scene, toScene s ch = some scene ∧ compute order s m scene ch true = some L) ∧
      List.Forall₂ (fun pairs F => compute order s m (pairs.map Prod.fst) ch false = some F) scenes Fs := by
  have hag : agents s ≠ [] := by
    intro e
    cases ids with
    | nil => exact hne rfl
    | cons i _ => obtain ⟨t, ht, _⟩ := hin i (by simp); rw [e] at ht; simp at ht
  have hin' : ∀ i ∈ ids, ∃ p ∈ (agents s).map (fun t => (follow ch t, t)), p.1.id = i := by
    intro i hi
    obtain ⟨t, ht, e⟩ := hin i hi
    exact ⟨_, List.mem_map.2 ⟨t, ht, rfl⟩, by rw [← e]; cases ch <;> rfl⟩
  have hlogid : ∀ L', compute order s m (((agents s).map fun t => (follow ch t, t)).map Prod.fst) ch true = some L' → L'.id = ids :=
    fun L' hL => (compute_spec ho (logged_posed h ch) he hne hin' hL).1
  have hsimid : ∀ pairs ∈ scenes, ∀ F, compute order s m (pairs.map Prod.fst) ch false = some F → F.id = ids :=
    fun pairs hps F hF => (compute_spec ho (hp pairs hps).1 he hne (hp pairs hps).2 hF).1
  unfold rollouts
  rw [logged_scene h hag]
  simp only [Option.bind_eq_bind, Option.bind_some, Option.some.injEq, exists_eq_left', List.mapM_map]
  constructor
  · intro hr
    rw [Option.bind_eq_some_iff] at hr
    obtain ⟨L', hL, hr⟩ := hr
    rw [Option.bind_eq_some_iff] at hr
    obtain ⟨sims, hsims, hr⟩ := hr
    split at hr
    · simp at hr
    next hn =>
      simp only [Option.pure_def, Option.some.injEq, Prod.mk.injEq] at hr
      obtain ⟨rfl, rfl⟩ := hr
      refine ⟨?_, hL, ?_⟩
      · rintro rfl
        simp at hsims
        exact hn hsims
      · refine forall₂_imp_mem (mapM_forall₂ hsims) ?_
        intro pairs _ F _ hF
        rw [Function.comp_apply, Option.bind_eq_some_iff] at hF
        obtain ⟨f, h1, h2⟩ := hF
        split at h2
        · simp at h2
        · rw [Option.some.injEq] at h2
          exact h2 ▸ h1
  · rintro ⟨hn, hL, hFs⟩
    rw [hL]
    simp only [Option.bind_some]
    have : scenes.mapM ((fun scene => (compute order s m scene ch false).bind fun f => if f.id ≠ L.id then none else some f) ∘
        fun pairs : List (Sim ℝ × Track ℝ) => pairs.map Prod.fst) = some Fs := by
      apply forall₂_mapM
      refine forall₂_imp_mem hFs ?_
      intro pairs hps F _ hF
      simp only [Function.comp_apply]
      rw [hF, Option.bind_some, if_neg]
      rw [not_not, hsimid pairs hps F hF, hlogid L hL]
    rw [this]
    simp only [Option.bind_some]
    rw [if_neg]
    · rfl
    · rintro rfl
      cases hFs
      exact hn rfl

/-- C160 does not hold for all scenarios: if a track to be evaluated is not valid at the current step, there are no features whatever is submitted. -/
theorem rollouts_unscored {order : List ℤ → List ℤ} {s : Scenario ℝ} (h : Complete s 91) {m : MapData} {ch : Challenge} {ids : List ℤ}
    (he : evaluationIds s ch = some ids) {i : ℤ} (hi : i ∈ ids) (hno : ∀ t ∈ agents s, t.id ≠ i) (scenes : List (List (Sim ℝ))) :
    rollouts order s m scenes ch = none := by
  unfold rollouts
  by_cases hag : agents s = []
  · rw [toScene_none h (by norm_num) hag]
    rfl
  · rw [logged_scene h hag]
    simp only [Option.bind_eq_bind, Option.bind_some]
    rw [compute_missing (logged_posed h ch) he hi]
    · rfl
    · intro p hp
      obtain ⟨t, ht, rfl⟩ := List.mem_map.1 hp
      have := hno t ht
      cases ch <;> exact this

end

end Verif.SimFeatures
