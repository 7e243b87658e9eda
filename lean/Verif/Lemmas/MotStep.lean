import Verif.Lemmas.MotEval
import Mathlib.Algebra.BigOperators.Group.List.Basic

namespace Verif.Mot

variable {ι : Type} [DecidableEq ι]

theorem mem_carry {old new : List (ι × ι)} {e : ι × ι} : e ∈ carry old new ↔
    e ∈ new ∨ (e ∈ old ∧ e.1 ∉ new.map Prod.fst ∧ e.2 ∉ new.map Prod.snd) := by
  simp only [carry, List.mem_append, List.mem_filter, Bool.and_eq_true, Bool.not_eq_true',
    decide_eq_false_iff_not]

theorem compatible_mem {x : Input ι} {e : ι × ι} (h : compatible x e = true) :
    e.2 ∈ predIds x ∧ e.1 ∈ gtIds x := by
  unfold compatible at h
  rw [← firstPred_isSome, ← firstGt_isSome]
  cases h1 : firstPred x e.2 <;> cases h2 : firstGt x e.1 <;> simp_all

/-- The update of the carried mapping. -/
theorem update_spec (h : HashOrder) {s : State ι} (hs : Inv s) {N : List (ι × ι)} (n1 : (keys N).Nodup)
    (n2 : (N.map Prod.snd).Nodup) :
    let u := (h.order N).foldl (updateStep s.pdGt N) (s.gtPd, [])
    let gtPd := u.2.foldl erase u.1
    ∃ pdGt, (h.order gtPd).foldlM invertStep [] = some pdGt ∧
      (∀ m : Measurement ι, Inv ⟨m, gtPd, pdGt⟩) ∧ ∀ e, e ∈ gtPd ↔ e ∈ carry s.gtPd N := by
  intro u gtPd
  have hperm := h.perm N
  have n1' : (keys (h.order N)).Nodup := ((hperm.map _).nodup_iff).mpr n1
  have hu : u = _ := update_fold s.pdGt N (h.order N) s.gtPd []
  have ku : (keys u.1).Nodup := by rw [hu]; exact assignAll_keys _ _ hs.gtPd
  have kg : (keys gtPd).Nodup := by
    have : gtPd = u.1.filter fun e => !decide (e.1 ∈ u.2) := eraseAll _ _
    rw [this]
    exact (List.filter_sublist.map _).nodup ku
  have mu1 : ∀ g p, (g, p) ∈ u.1 ↔ (g, p) ∈ N ∨ (g ∉ keys N ∧ (g, p) ∈ s.gtPd) := by
    intro g p
    rw [← get?_eq_some ku, hu, assignAll_get? _ _ _ n1', Option.or_eq_some_iff, get?_eq_some n1',
      get?_eq_none, get?_eq_some hs.gtPd, hperm.mem_iff]
    have : g ∉ keys (h.order N) ↔ g ∉ keys N := by
      unfold keys; rw [(hperm.map _).mem_iff]
    rw [this]
  have mu2 : ∀ g, g ∈ u.2 ↔ g ∉ keys N ∧ ∃ e ∈ N, (g, e.2) ∈ s.gtPd := by
    intro g
    rw [hu]
    simp only [List.nil_append, List.mem_filterMap]
    constructor
    · rintro ⟨e, he, h1⟩
      cases hg : get? s.pdGt e.2 with
      | none => simp [hg] at h1
      | some g' =>
        simp only [hg] at h1
        split_ifs at h1 with hn
        obtain rfl := Option.some.inj h1
        refine ⟨get?_eq_none.mp (Option.isNone_iff_eq_none.mp hn), e, hperm.mem_iff.mp he, ?_⟩
        rw [hs.inverse]; exact mem_of_get? hg
    · rintro ⟨hk, e, he, hm⟩
      refine ⟨e, hperm.mem_iff.mpr he, ?_⟩
      have : get? s.pdGt e.2 = some g := (get?_eq_some hs.pdGt).mpr ((hs.inverse _ _).mp hm)
      simp [this, get?_eq_none.mpr hk]
  have mg : ∀ e, e ∈ gtPd ↔ e ∈ carry s.gtPd N := by
    rintro ⟨g, p⟩
    have : gtPd = u.1.filter fun e => !decide (e.1 ∈ u.2) := eraseAll _ _
    rw [this, List.mem_filter, mu1, mem_carry]
    simp only [Bool.not_eq_true', decide_eq_false_iff_not, mu2]
    constructor
    · rintro ⟨h1 | ⟨h1, h2⟩, h3⟩
      · exact Or.inl h1
      · refine Or.inr ⟨h2, h1, ?_⟩
        intro hp
        obtain ⟨e, he, hep⟩ := List.mem_map.mp hp
        exact h3 ⟨h1, e, he, by rw [hep]; exact h2⟩
    · rintro (h1 | ⟨h1, h2, h3⟩)
      · refine ⟨Or.inl h1, ?_⟩
        rintro ⟨h2, -⟩
        exact h2 (List.mem_map.mpr ⟨_, h1, rfl⟩)
      · refine ⟨Or.inr ⟨h2, h1⟩, ?_⟩
        rintro ⟨-, e, he, hm⟩
        apply h3
        have e1 := (get?_eq_some hs.gtPd).mpr h1
        have e2 := (get?_eq_some hs.gtPd).mpr hm
        rw [e1] at e2
        exact List.mem_map.mpr ⟨e, he, (Option.some.inj e2).symm⟩
  have n2g : (gtPd.map Prod.snd).Nodup := by
    apply List.Nodup.map_on _ (List.Nodup.of_map _ kg)
    intro a ha b hb hab
    rw [mg, mem_carry] at ha hb
    rcases ha with ha | ⟨ha, ha1, ha2⟩ <;> rcases hb with hb | ⟨hb, hb1, hb2⟩
    · exact List.inj_on_of_nodup_map n2 ha hb hab
    · exact absurd (List.mem_map.mpr ⟨a, ha, hab⟩) hb2
    · exact absurd (List.mem_map.mpr ⟨b, hb, hab.symm⟩) ha2
    · exact List.inj_on_of_nodup_map hs.snd_nodup ha hb hab
  have hp2 := h.perm gtPd
  have hinv := invert_fold (h.order gtPd) [] (by
    simpa [keys] using ((hp2.map Prod.snd).nodup_iff).mpr n2g)
  refine ⟨_, hinv, ?_, mg⟩
  intro m
  refine ⟨kg, ?_, ?_⟩
  · simp only [List.nil_append, keys, List.map_map]
    exact ((hp2.map Prod.snd).nodup_iff).mpr n2g
  · intro g p
    simp only [List.nil_append, List.mem_map]
    constructor
    · intro hm; exact ⟨(g, p), hp2.mem_iff.mpr hm, rfl⟩
    · rintro ⟨⟨a, b⟩, hm, he⟩
      simp only [Prod.swap, Prod.mk.injEq] at he
      obtain ⟨rfl, rfl⟩ := he
      exact hp2.mem_iff.mp hm

/-- What one call of `MOT::Eval` does. -/
structure StepSpec (x : Input ι) (level : Nat) (details : Bool) (s : State ι) (N : List (ι × ι))
    (s' : State ι) : Prop where
  corr : Correspondence x s.gtPd N
  inv : Inv s'
  carried : ∀ e, e ∈ s'.gtPd ↔ e ∈ carry s.gtPd N
  misses : s'.meas.misses = s.meas.misses + missCount x level N
  fps : s'.meas.fps = s.meas.fps + fpCount x N
  objects : s'.meas.objectsGt = s.meas.objectsGt + gtCount x level N
  matched : s'.meas.matches_ = s.meas.matches_ + N.length
  mismatches : s'.meas.mismatches = s.meas.mismatches + switchCount s.gtPd N + takeoverCount x s.gtPd N
  cost : s'.meas.cost = s.meas.cost + (N.map fun e => 1 - overlap x e).sum
  details : if details then ∃ d : Details ι, s'.meas.details = s.meas.details ++ [d] ∧
      d.tpGt.length = d.tpPred.length ∧ (d.tpGt.zip d.tpPred).Perm N ∧
      d.fnGt.Perm ((gtIds x).filter fun g => !decide (g ∈ N.map Prod.fst)) ∧
      d.fpPred.Perm ((predIds x).filter fun p => !decide (p ∈ N.map Prod.snd))
    else s'.meas.details = s.meas.details

theorem mapM_of_map {α : Type} {l : List Nat} {f : Nat → Option α} {ids : List α} (h : l.map f = ids.map some) :
    l.mapM f = some ids := by
  induction l generalizing ids with
  | nil => have : ids = [] := by simpa using h.symm
           subst this; rfl
  | cons a l ih =>
    cases ids with
    | nil => simp at h
    | cons b ids =>
      simp only [List.map_cons, List.cons.injEq] at h
      simp [List.mapM_cons, h.1, ih h.2]

theorem eval_spec (h : HashOrder) {x : Input ι} (hx : Usable x) {s : State ι} (hs : Inv s) (level : Nat)
    (details : Bool) : ∃ N s', eval h x level details s = some s' ∧ StepSpec x level details s N s' := by
  obtain ⟨ids, hids⟩ := exists_ids (l := x.predSubset) (f := fun i => (x.preds[i]?).map Pred.id) (by
    intro i hi; simp [hx.pin i hi])
  obtain ⟨gids, hgids⟩ := exists_ids (l := x.gtSubset) (f := fun i => (x.gts[i]?).map Gt.id) (by
    intro i hi; simp [hx.gin i hi])
  have hgtIds : gtIds x = gids := filterMap_of_map hgids
  have hpredIds : predIds x = ids.dedup := by rw [predIds, filterMap_of_map hids]
  have bpd := buildPd_fold x x.predSubset ids 0 [] hids
  have bgt := buildGt_fold x x.gtSubset gids 0 [] hgids (by simpa [keys, ← hgtIds] using hx.gtNodup)
  set pd := (ids.zipIdx).foldl (fun m e => emplace m e.1 e.2) [] with hpd
  have kpd : (keys pd).Nodup := emplaceAll_keys _ _ (by simp [keys])
  have gpd : ∀ p, get? pd p = get? ids.zipIdx p := by
    intro p; rw [hpd, emplaceAll_get?]; simp [get?]
  have mpd : ∀ p, p ∈ keys pd ↔ p ∈ predIds x := by
    intro p
    rw [← get?_isSome, gpd, get?_isSome, keys_zipIdx, hpredIds, List.mem_dedup]
  have lookP : ∀ p pos, get? pd p = some pos → ∃ i o, x.predSubset[pos]? = some i ∧ x.preds[i]? = some o ∧
      o.id = p ∧ firstPred x p = some i := by
    intro p pos hp
    rw [gpd] at hp
    obtain ⟨-, i, h1, h2⟩ := get?_zipIdx x.predSubset ids 0 hids pos hp
    obtain ⟨-, o, h3, h4⟩ := firstPred_spec h2
    exact ⟨i, o, by simpa using h1, h3, h4, h2⟩
  have lookG : ∀ p pos, get? gids.zipIdx p = some pos → ∃ i o, x.gtSubset[pos]? = some i ∧
      x.gts[i]? = some o ∧ o.id = p ∧ firstGt x p = some i := by
    intro p pos hp
    obtain ⟨-, i, h1, h2⟩ := get?_zipIdx x.gtSubset gids 0 hgids pos hp
    obtain ⟨-, o, h3, h4⟩ := firstGt_spec h2
    exact ⟨i, o, by simpa using h1, h3, h4, h2⟩
  have kgt : (keys gids.zipIdx).Nodup := by rw [keys_zipIdx, ← hgtIds]; exact hx.gtNodup
  -- keeping the carried pairs
  have permL := h.perm s.gtPd
  have nL1 : (keys (h.order s.gtPd)).Nodup := ((permL.map _).nodup_iff).mpr hs.gtPd
  have nL2 : ((h.order s.gtPd).map Prod.snd).Nodup := ((permL.map _).nodup_iff).mpr hs.snd_nodup
  have hinit := init_fold x (compatible x) (overlap x) (h.order s.gtPd) ⟨pd, gids.zipIdx, [], s.meas.cost⟩
    nL1 nL2 (by simp [keys]) (by
      intro e _ pi gi hp hg
      obtain ⟨p, o, a1, a2, a3, a4⟩ := lookP _ _ hp
      obtain ⟨g, o', b1, b2, b3, b4⟩ := lookG _ _ hg
      have mp := (firstPred_spec a4).1
      have mg := (firstGt_spec b4).1
      obtain ⟨b, hb⟩ := Option.isSome_iff_exists.mp (hx.can p mp g mg)
      obtain ⟨v, hv, -⟩ := hx.iou p mp g mg
      refine ⟨p, g, a1, b1, ?_, ?_⟩
      · cases b <;> simp [compatible, a4, b4, hb]
      · intro _; simp [overlap, a4, b4, hv])
  have hKeq : (h.order s.gtPd).filter (fun e => (get? pd e.2).isSome && (get? gids.zipIdx e.1).isSome &&
      compatible x e) = (h.order s.gtPd).filter (compatible x) := by
    apply List.filter_congr
    intro e _
    by_cases hc : compatible x e = true
    · obtain ⟨h1, h2⟩ := compatible_mem hc
      rw [← mpd, ← get?_isSome] at h1
      rw [hgtIds, ← keys_zipIdx gids 0, ← get?_isSome] at h2
      simp [h1, h2]
    · simp [hc]
  simp only [hKeq] at hinit
  set K := (h.order s.gtPd).filter (compatible x) with hK
  have nK1 : (keys K).Nodup := (List.filter_sublist.map _).nodup nL1
  have nK2 : (K.map Prod.snd).Nodup := (List.filter_sublist.map _).nodup nL2
  have mK : ∀ e, e ∈ K ↔ e ∈ s.gtPd ∧ compatible x e = true := by
    intro e; rw [hK, List.mem_filter, permL.mem_iff]
  set pd' := pd.filter fun e => !decide (e.1 ∈ K.map Prod.snd) with hpd'
  set gt' := gids.zipIdx.filter fun e => !decide (e.1 ∈ K.map Prod.fst) with hgt'
  have kpd' : keys pd' = (keys pd).filter fun p => !decide (p ∈ K.map Prod.snd) := by
    rw [keys, keys, hpd', List.filter_map]; rfl
  have kgt' : keys gt' = gids.filter fun p => !decide (p ∈ K.map Prod.fst) := by
    conv_rhs => rw [← keys_zipIdx gids 0]
    rw [keys, keys, hgt', List.filter_map]; rfl
  obtain ⟨r, ps, gs, pm, gm, r1, r2, r3, r4, r5, r6, r7, r8, r9, r9', r10, r11, r12, r13⟩ :=
    matchRest_spec h hx (pd := pd') (gt := gt') (by rw [kpd']; exact kpd.filter _)
      (by rw [kgt', ← hgtIds]; exact hx.gtNodup.filter _)
      (by
        intro e he
        have he' : (e.1, e.2) ∈ pd := (List.mem_filter.mp he).1
        exact lookP e.1 e.2 ((get?_eq_some kpd).mpr he'))
      (by
        intro e he
        have he' : (e.1, e.2) ∈ gids.zipIdx := (List.mem_filter.mp he).1
        exact lookG e.1 e.2 ((get?_eq_some kgt).mpr he')) level
      (s.meas.cost + (K.map fun e => 1 - overlap x e).sum)
  have permR := h.perm r.pairs
  have disj1 : ∀ e ∈ r.pairs, e.1 ∉ K.map Prod.fst := by
    intro e he
    have := (r9 e he).2.1
    rw [kgt', List.mem_filter] at this
    simpa using this.2
  have disj2 : ∀ e ∈ r.pairs, e.2 ∉ K.map Prod.snd := by
    intro e he
    have := (r9 e he).1
    rw [kpd', List.mem_filter] at this
    simpa using this.2
  have nN1 : (keys (K ++ h.order r.pairs)).Nodup := by
    rw [keys, List.map_append, List.nodup_append]
    refine ⟨nK1, ((permR.map _).nodup_iff).mpr r7, ?_⟩
    intro a ha b hb
    rintro rfl
    obtain ⟨e, he, rfl⟩ := List.mem_map.mp hb
    exact disj1 e (permR.mem_iff.mp he) ha
  have hnew : (h.order r.pairs).foldl (fun m e => emplace m e.1 e.2) K = K ++ h.order r.pairs :=
    emplaceAll_append _ _ nN1
  have nN2 : ((K ++ h.order r.pairs).map Prod.snd).Nodup := by
    rw [List.map_append, List.nodup_append]
    refine ⟨nK2, ((permR.map _).nodup_iff).mpr r8, ?_⟩
    intro a ha b hb
    rintro rfl
    obtain ⟨e, he, rfl⟩ := List.mem_map.mp hb
    exact disj2 e (permR.mem_iff.mp he) ha
  set N := K ++ h.order r.pairs with hN
  have mN : ∀ e, e ∈ N ↔ e ∈ K ∨ e ∈ r.pairs := by
    intro e; rw [hN, List.mem_append, permR.mem_iff]
  have mN1 : ∀ g, g ∈ N.map Prod.fst ↔ g ∈ K.map Prod.fst ∨ g ∈ keys r.pairs := by
    intro g; rw [hN, List.map_append, List.mem_append, (permR.map _).mem_iff]; rfl
  have mN2 : ∀ g, g ∈ N.map Prod.snd ↔ g ∈ K.map Prod.snd ∨ g ∈ r.pairs.map Prod.snd := by
    intro g; rw [hN, List.map_append, List.mem_append, (permR.map _).mem_iff]
  obtain ⟨pdGt, u1, u2, u3⟩ := update_spec h hs nN1 nN2
  have permN := h.perm N
  have dfn : detailFn x gs N = some (((keys (h.order gt')).filter fun i => !decide (i ∈ N.map Prod.fst))) := by
    unfold detailFn
    rw [mapM_of_map r6]; rfl
  have dfp : detailFp x ps N = some (((keys (h.order pd')).filter fun i => !decide (i ∈ N.map Prod.snd))) := by
    unfold detailFp
    rw [mapM_of_map r5]; rfl
  have legalN : ∀ e ∈ N, compatible x e = true := by
    intro e he
    rcases (mN e).mp he with h1 | h1
    · exact ((mK e).mp h1).2
    · exact (r9 e h1).2.2.1
  refine ⟨N, ⟨⟨s.meas.misses + r.fns, s.meas.fps + r.fps,
      s.meas.mismatches + (h.order N).foldl (mismatchStep s N gt') 0, r.cost, s.meas.matches_ + N.length,
      s.meas.objectsGt + x.gtSubset.length - r.above, s.meas.details ++ if details then
        [⟨(keys (h.order pd')).filter fun i => !decide (i ∈ N.map Prod.snd),
          (keys (h.order gt')).filter fun i => !decide (i ∈ N.map Prod.fst),
          (h.order N).map Prod.fst, (h.order N).map Prod.snd⟩] else []⟩,
      ((h.order N).foldl (updateStep s.pdGt N) (s.gtPd, [])).2.foldl erase
        ((h.order N).foldl (updateStep s.pdGt N) (s.gtPd, [])).1, pdGt⟩, ?_, ?_⟩
  · unfold eval
    simp only [bpd, bgt, hinit, r1, List.nil_append, Option.bind_eq_bind, Option.bind_some, hnew]
    rw [if_pos nN2, u1, dfn, dfp]
    simp only [Option.bind_some]
  · have anyK2 : ∀ p, (s.gtPd.any fun e => decide (e.2 = p) && compatible x e) = decide (p ∈ K.map Prod.snd) := by
      intro p
      rw [Bool.eq_iff_iff, List.any_eq_true, decide_eq_true_eq, List.mem_map]
      constructor
      · rintro ⟨e, he, hc⟩
        simp only [Bool.and_eq_true, decide_eq_true_eq] at hc
        exact ⟨e, (mK e).mpr ⟨he, hc.2⟩, hc.1⟩
      · rintro ⟨e, he, rfl⟩
        obtain ⟨h1, h2⟩ := (mK e).mp he
        exact ⟨e, h1, by simp [h2]⟩
    have anyK1 : ∀ p, (s.gtPd.any fun e => decide (e.1 = p) && compatible x e) = decide (p ∈ K.map Prod.fst) := by
      intro p
      rw [Bool.eq_iff_iff, List.any_eq_true, decide_eq_true_eq, List.mem_map]
      constructor
      · rintro ⟨e, he, hc⟩
        simp only [Bool.and_eq_true, decide_eq_true_eq] at hc
        exact ⟨e, (mK e).mpr ⟨he, hc.2⟩, hc.1⟩
      · rintro ⟨e, he, rfl⟩
        obtain ⟨h1, h2⟩ := (mK e).mp he
        exact ⟨e, h1, by simp [h2]⟩
    have permKeysPd : (keys pd).Perm (predIds x) := by
      apply (List.perm_ext_iff_of_nodup kpd _).mpr mpd
      rw [hpredIds]; exact List.nodup_dedup _
    have permPd' : (keys (h.order pd')).Perm ((predIds x).filter fun p => !decide (p ∈ K.map Prod.snd)) := by
      refine ((h.perm pd').map Prod.fst).trans ?_
      change (keys pd').Perm _
      rw [kpd']
      exact permKeysPd.filter _
    have permGt' : (keys (h.order gt')).Perm ((gtIds x).filter fun p => !decide (p ∈ K.map Prod.fst)) := by
      refine ((h.perm gt').map Prod.fst).trans ?_
      change (keys gt').Perm _
      rw [kgt', hgtIds]
    have hmiss : (r.fns : ℤ) = missCount x level N := by
      rw [r12, missCount, hgtIds, kgt', List.countP_filter]
      congr 1
      apply List.countP_congr
      intro g _
      simp only [mN1, Bool.and_eq_true, Bool.not_eq_true', decide_eq_false_iff_not, decide_eq_true_eq, not_or]
      tauto
    have habove : (r.above : ℤ) = ((gtIds x).countP fun g => !(decide (g ∈ N.map Prod.fst) ||
        decide (gtLevel x g ≤ level)) : Nat) := by
      rw [r13, hgtIds, kgt', List.countP_filter]
      congr 1
      apply List.countP_congr
      intro g _
      simp only [mN1, Bool.and_eq_true, Bool.not_eq_true', decide_eq_false_iff_not, not_or,
        Bool.or_eq_false_iff]
      tauto
    have hfp : (r.fps : ℤ) = fpCount x N := by
      rw [r11, fpCount, kpd', List.countP_filter, permKeysPd.countP_eq]
      congr 1
      apply List.countP_congr
      intro g _
      simp only [mN2, Bool.and_eq_true, Bool.not_eq_true', decide_eq_false_iff_not, not_or]
      tauto
    have hlen : x.gtSubset.length = (gtIds x).length := by
      rw [hgtIds]; simpa using congrArg List.length hgids
    refine ⟨⟨nN1, nN2, legalN, ?_, ps, gs, pm, gm, r2, ?_, ?_, ?_, ?_⟩, u2 _, u3, ?_, ?_, ?_, rfl, ?_, ?_, ?_⟩
    · intro e he hc
      exact (mN e).mpr (Or.inl ((mK e).mpr ⟨he, hc⟩))
    · have e1 : ps = (keys (h.order pd')).filterMap (firstPred x) := by
        have := congrArg (List.filterMap id) r3
        simpa [List.filterMap_map] using this
      rw [e1]
      simp only [anyK2]
      exact permPd'.filterMap _
    · have e1 : gs = (keys (h.order gt')).filterMap (firstGt x) := by
        have := congrArg (List.filterMap id) r4
        simpa [List.filterMap_map] using this
      rw [e1]
      simp only [anyK1]
      exact permGt'.filterMap _
    · intro e he
      rcases (mN e).mp he with h1 | h1
      · exact Or.inl ((mK e).mp h1).1
      · exact Or.inr (r9 e h1).2.2.2
    · intro i j hij
      obtain ⟨e, he, h1⟩ := r9' i j hij
      exact ⟨e, (mN e).mpr (Or.inr he), h1⟩
    · simp only [hmiss]
    · simp only [hfp]
    · simp only [habove, hlen, gtCount]
      have := List.length_eq_countP_add_countP (l := gtIds x)
        (fun g => decide (g ∈ N.map Prod.fst) || decide (gtLevel x g ≤ level))
      simp only [Bool.not_eq_true, decide_not] at this ⊢
      have e2 : (gtIds x).countP (fun g => decide ((decide (g ∈ N.map Prod.fst) || decide (gtLevel x g ≤ level)) = false))
          = (gtIds x).countP fun g => !(decide (g ∈ N.map Prod.fst) || decide (gtLevel x g ≤ level)) := by
        apply List.countP_congr
        intro g _
        simp
      rw [e2] at this
      omega
    · simp only [mismatch_fold, zero_add]
      have e1 : (h.order N).countP (fun e => match get? s.gtPd e.1 with
          | none => false
          | some q => decide (q ≠ e.2)) = switchCount s.gtPd N := by
        rw [permN.countP_eq, switchCount]
        apply List.countP_congr
        intro e _
        cases hg : get? s.gtPd e.1 with
        | none =>
          simp only [Bool.false_eq_true, false_iff, List.any_eq_true, Bool.and_eq_true, decide_eq_true_eq, not_exists, not_and]
          intro o ho h1
          exact absurd (List.mem_map.mpr ⟨o, ho, h1⟩) (get?_eq_none.mp hg)
        | some q =>
          simp only [ne_eq, decide_not, Bool.not_eq_true', decide_eq_false_iff_not, List.any_eq_true,
            Bool.and_eq_true, decide_eq_true_eq]
          constructor
          · intro hq; exact ⟨(e.1, q), mem_of_get? hg, rfl, hq⟩
          · rintro ⟨⟨a, b⟩, ho, h1, h2⟩
            simp only at h1 h2
            subst h1
            rw [(get?_eq_some hs.gtPd).mpr ho] at hg
            rw [← Option.some.inj hg]; exact h2
      have e2 : (h.order N).countP (fun e => match get? s.pdGt e.2 with
          | none => false
          | some g => decide ((get? gt' g).isNone ∧ (get? N g).isNone)) = takeoverCount x s.gtPd N := by
        rw [permN.countP_eq, takeoverCount]
        have absent : ∀ g, ((get? gt' g).isNone = true ∧ (get? N g).isNone = true) ↔ g ∉ gtIds x := by
          intro g
          rw [Option.isNone_iff_eq_none, Option.isNone_iff_eq_none, get?_eq_none, get?_eq_none, kgt', hgtIds,
            List.mem_filter]
          have : g ∈ keys N ↔ g ∈ K.map Prod.fst ∨ g ∈ keys r.pairs := mN1 g
          rw [this]
          simp only [Bool.not_eq_true', decide_eq_false_iff_not, not_and, not_not, not_or]
          constructor
          · rintro ⟨h1, h2, h3⟩ h4
            exact h2 (h1 h4)
          · intro h1
            refine ⟨fun h2 => absurd h2 h1, ?_, ?_⟩
            · intro h2
              obtain ⟨e, he, rfl⟩ := List.mem_map.mp h2
              have := (compatible_mem ((mK e).mp he).2).2
              rw [hgtIds] at this; exact h1 this
            · intro h2
              obtain ⟨e, he, rfl⟩ := List.mem_map.mp h2
              have := (compatible_mem (r9 e he).2.2.1).2
              rw [hgtIds] at this; exact h1 this
        apply List.countP_congr
        intro e _
        cases hg : get? s.pdGt e.2 with
        | none =>
          simp only [Bool.false_eq_true, false_iff, List.any_eq_true, Bool.and_eq_true, decide_eq_true_eq, not_exists, not_and]
          rintro ⟨a, b⟩ ho h1
          simp only at h1
          subst h1
          exact absurd (List.mem_map.mpr ⟨_, (hs.inverse _ _).mp ho, rfl⟩) (get?_eq_none.mp hg)
        | some g =>
          simp only [absent, decide_not, Bool.not_eq_true', decide_eq_false_iff_not, List.any_eq_true,
            Bool.and_eq_true, decide_eq_true_eq]
          constructor
          · intro hq; exact ⟨(g, e.2), (hs.inverse _ _).mpr (mem_of_get? hg), rfl, hq⟩
          · rintro ⟨⟨a, b⟩, ho, h1, h2⟩
            simp only at h1 h2
            subst h1
            rw [(get?_eq_some hs.pdGt).mpr ((hs.inverse _ _).mp ho)] at hg
            rw [← Option.some.inj hg]; exact h2
      have e1' : ((_ : Nat) : ℤ) = _ := congrArg (fun n : Nat => (n : ℤ)) e1
      have e2' : ((_ : Nat) : ℤ) = _ := congrArg (fun n : Nat => (n : ℤ)) e2
      exact (congrArg (s.meas.mismatches + ·) (congrArg₂ (· + ·) e1' e2')).trans (by ring)
    · simp only [r10]
      have : (N.map fun e => 1 - overlap x e).sum = (K.map fun e => 1 - overlap x e).sum +
          (r.pairs.map fun e => 1 - overlap x e).sum := by
        rw [hN, List.map_append, List.sum_append, List.Perm.sum_eq (permR.map _)]
      rw [this]; ring
    · cases details with
      | false => simp
      | true =>
        simp only [if_true]
        refine ⟨_, rfl, by simp, ?_, ?_, ?_⟩
        · simp only
          rw [List.zip_map']
          simpa using permN
        · refine (permGt'.filter _).trans ?_
          rw [List.filter_filter]
          apply List.Perm.of_eq
          apply List.filter_congr
          intro g _
          by_cases h1 : g ∈ K.map Prod.fst
          · have h2 := (mN1 g).mpr (Or.inl h1); simp only [h1, h2]; rfl
          · simp only [h1]; simp
        · refine (permPd'.filter _).trans ?_
          rw [List.filter_filter]
          apply List.Perm.of_eq
          apply List.filter_congr
          intro g _
          by_cases h1 : g ∈ K.map Prod.snd
          · have h2 := (mN2 g).mpr (Or.inl h1); simp only [h1, h2]; rfl
          · simp only [h1]; simp

end Verif.Mot
