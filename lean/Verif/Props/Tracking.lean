import Verif.Model.Tracking
import Verif.Props.Breakdown
import Verif.Props.Detection
import Verif.Props.Measure
import Verif.Props.Mot

/-!
The tracking evaluation of a scene: which objects each measurement is about, in which order the measurements come,
and that they are what multi object tracking yields on the frames restricted to a shard and a score cutoff.
-/

namespace Verif.Tracking

open Verif.Breakdown Verif.Detection

variable {O ι : Type}

/-- Specification: a generator puts the object in one of its shards, or in none (a negative shard). -/
def Placed (g : Gen O) (o : O) : Prop := ∃ s, g.shard o = some s ∧ s < (g.numShards : ℤ)

/-- A usable frame: the generators place all objects, ground truths have different ids, and the matcher keeps its
promises for any selection of the objects. -/
structure FrameUsable (c : Config O) (x : Frame O ι) : Prop where
  preds : ∀ g ∈ c.generators, ∀ p ∈ x.preds, Placed g.2 p.core
  gts : ∀ g ∈ c.generators, ∀ p ∈ x.gts, Placed g.2 p.core
  ids : (x.gts.map Item.id).Nodup
  can : ∀ a b, a < x.preds.length → b < x.gts.length → (x.canMatch a b).isSome
  iou : ∀ a b, a < x.preds.length → b < x.gts.length → ∃ v, x.iou a b = some v ∧ 0 ≤ v ∧ v ≤ 1
  doMatch : ∀ ps gs : List Nat, (∀ a ∈ ps, a < x.preds.length) → (∀ b ∈ gs, b < x.gts.length) →
    ∃ pm gm, x.doMatch ps gs = some (pm, gm) ∧ pm.length = ps.length ∧ gm.length = gs.length ∧
      (∀ i j : Nat, pm[i]? = some (some j) ↔ gm[j]? = some (some i)) ∧
      ∀ i j : Nat, pm[i]? = some (some j) →
        ∃ a b, ps[i]? = some a ∧ gs[j]? = some b ∧ x.canMatch a b = some true

/-- A usable scene. -/
structure SceneUsable (c : Config O) (xs : List (Frame O ι)) : Prop where
  levels : c.levels.length = c.generators.length
  frames : ∀ x ∈ xs, FrameUsable c x

/-- Specification: the predictions of shard `s` whose score reaches the cutoff, in ascending order. -/
def IsPreds (x : Frame O ι) (g : Gen O) (s : Nat) (cutoff : ℚ) (ps : List Nat) : Prop :=
  ps.Pairwise (· < ·) ∧ ∀ a, a ∈ ps ↔ ∃ p, x.preds[a]? = some p ∧ cutoff ≤ p.score ∧ g.shard p.core = some (s : ℤ)

/-- Specification: the ground truths of shard `s`, in ascending order. -/
def IsGts (x : Frame O ι) (g : Gen O) (s : Nat) (gs : List Nat) : Prop :=
  gs.Pairwise (· < ·) ∧ ∀ b, b ∈ gs ↔ ∃ p, x.gts[b]? = some p ∧ g.shard p.core = some (s : ℤ)

/-- Specification: the frame restricted to a shard and a cutoff, as the multi object tracking evaluation reads it. -/
def Restricted (g : Gen O) (s : Nat) (cutoff : ℚ) (x : Frame O ι) (i : Mot.Input ι) : Prop :=
  ∃ ps gs, IsPreds x g s cutoff ps ∧ IsGts x g s gs ∧
    i.preds = x.preds.map (fun p => ⟨p.id, p.nlz⟩) ∧ i.gts = x.gts.map (fun g => ⟨g.id, g.level⟩) ∧
    i.predSubset = ps ∧ i.gtSubset = gs ∧ i.canMatch = x.canMatch ∧ i.iou = x.iou ∧ i.doMatch = x.doMatch

/-! ### Subsets -/

theorem sound_of_placed {g : Gen O} {o : O} (h : Placed g o) : Sound g false o := by
  obtain ⟨s, h1, h2⟩ := h
  unfold Sound shardsOf
  simp only [Bool.false_eq_true, false_and, if_false, h1, Option.map_some]
  by_cases hs : 0 ≤ s
  · exact ⟨[s], by simp [hs], by simp, by simpa [hs] using h2⟩
  · exact ⟨[], by simp [hs], by simp, by simp⟩

theorem mem_shards {g : Gen O} {o : O} (s : Nat) :
    (∃ l, shardsOf g false o = some l ∧ (s : ℤ) ∈ l) ↔ g.shard o = some (s : ℤ) := by
  unfold shardsOf
  simp only [Bool.false_eq_true, false_and, if_false]
  cases h : g.shard o with
  | none => simp
  | some t =>
    simp only [Option.map_some, Option.some.injEq]
    constructor
    · rintro ⟨l, rfl, hl⟩
      split at hl
      · exact (List.mem_singleton.mp hl).symm
      · cases hl
    · rintro rfl
      exact ⟨[(s : ℤ)], by simp, by simp⟩

/-- The generator index and shard of a subset. -/
def keyOf (r : Subset) : Nat × Nat := (r.generatorIndex, r.shard)

/-- The subsets of a frame are the prescribed ones, in the documented order. -/
structure SubsOk (c : Config O) (x : Frame O ι) (s : List Subset × List Subset) : Prop where
  pdKeys : s.1.map keyOf = (shardList c).map fun k => (k.1, k.2.2)
  gtKeys : s.2.map keyOf = (shardList c).map fun k => (k.1, k.2.2)
  sel : ∀ (i : Nat) (e : Nat × (Nat × Gen O) × Nat) (k : Nat) (cutoff : ℚ), (shardList c)[i]? = some e →
    c.cutoffs[k]? = some cutoff → ∃ p q ps gs, s.1[i]? = some p ∧ p.indices[k]? = some ps ∧ s.2[i]? = some q ∧
      q.indices[0]? = some gs ∧ IsPreds x e.2.1.2 e.2.2 cutoff ps ∧ IsGts x e.2.1.2 e.2.2 gs

theorem shardList_gen (c : Config O) {i : Nat} {e : Nat × (Nat × Gen O) × Nat} (h : (shardList c)[i]? = some e) :
    c.generators[e.1]? = some e.2.1 ∧ e.2.2 < e.2.1.2.numShards := by
  have hm := List.mem_of_getElem? h
  unfold shardList at hm
  rw [List.mem_flatMap] at hm
  obtain ⟨q, hq, hm⟩ := hm
  rw [List.mem_map] at hm
  obtain ⟨s, hs, rfl⟩ := hm
  rw [List.mem_zipIdx_iff_getElem?] at hq
  exact ⟨hq, List.mem_range.mp hs⟩

theorem subsetsOf_spec {c : Config O} {x : Frame O ι} (h : FrameUsable c x) :
    ∃ s, subsetsOf c x = some s ∧ SubsOk c x s := by
  have hsound : ∀ (objs : List (Item O ι)), (∀ g ∈ c.generators, ∀ p ∈ objs, Placed g.2 p.core) →
      ∀ g ∈ (c.generators.map Prod.snd).map (onItems (ι := ι)), ∀ p ∈ objs, Sound g false p := by
    intro objs ho g hg p hp
    simp only [List.map_map, List.mem_map, Function.comp] at hg
    obtain ⟨g', hg', rfl⟩ := hg
    exact sound_of_placed (g := onItems g'.2) (ho g' hg' p hp)
  obtain ⟨pds, p1, p2, p3⟩ := buildSubsets_spec ((c.generators.map Prod.snd).map onItems) c.cutoffs Item.score x.preds
    false false (hsound _ h.preds)
  obtain ⟨gts, g1, g2, g3⟩ := buildSubsets_spec ((c.generators.map Prod.snd).map onItems) c.cutoffs Item.score x.gts
    true false (hsound _ h.gts)
  have hkeys : ((c.generators.map Prod.snd).map (onItems (ι := ι))).zipIdx.flatMap
      (fun e => (List.range e.1.numShards).map fun s => (e.2, s)) = (shardList c).map fun k => (k.1, k.2.2) := by
    unfold shardList
    rw [List.map_flatMap, List.map_map, List.zipIdx_map, List.flatMap_map]
    apply List.flatMap_congr
    intro e _
    rw [List.map_map]
    rfl
  rw [hkeys] at p2 g2
  have hat : ∀ (l : List Subset), l.map (fun r => (r.generatorIndex, r.shard)) =
      (shardList c).map (fun k => (k.1, k.2.2)) → ∀ (i : Nat) (e : Nat × (Nat × Gen O) × Nat),
      (shardList c)[i]? = some e → ∃ r, l[i]? = some r ∧ r.generatorIndex = e.1 ∧ r.shard = e.2.2 := by
    intro l hl i e he
    have := congrArg (fun l => l[i]?) hl
    simp only [List.getElem?_map, he, Option.map_some] at this
    cases hr : l[i]? with
    | none => rw [hr] at this; cases this
    | some r =>
      rw [hr] at this
      simp only [Option.map_some, Option.some.injEq, Prod.mk.injEq] at this
      exact ⟨r, rfl, this.1, this.2⟩
  have hgen : ∀ (n : Nat) (g' : Nat × Gen O), c.generators[n]? = some g' →
      ((c.generators.map Prod.snd).map (onItems (ι := ι)))[n]? = some (onItems g'.2) := by
    intro n g' hg
    rw [List.getElem?_map, List.getElem?_map, hg]; rfl
  refine ⟨(pds, gts), ?_, p2, g2, ?_⟩
  · unfold subsetsOf
    simp only [p1, g1, Option.bind_eq_bind, Option.bind_some]
    rfl
  · intro i e k cutoff he hk
    obtain ⟨hge, -⟩ := shardList_gen c he
    obtain ⟨p, pi, pg, ps⟩ := hat pds p2 i e he
    obtain ⟨q, qi, qg, qs⟩ := hat gts g2 i e he
    obtain ⟨gg, a1, a2, a3, a4⟩ := p3 p (List.mem_of_getElem? pi)
    obtain ⟨gg', b1, b2, b3, b4⟩ := g3 q (List.mem_of_getElem? qi)
    rw [pg, hgen _ _ hge] at a1
    rw [qg, hgen _ _ hge] at b1
    obtain rfl := Option.some.inj a1
    obtain rfl := Option.some.inj b1
    have hkl : k < p.indices.length := by
      have := (List.getElem?_eq_some_iff.mp hk).1
      simp only [Bool.false_eq_true, if_false] at a3
      omega
    have h0 : 0 < q.indices.length := by
      rw [b3]; simp
    have e1 : p.indices[k]? = some p.indices[k] := List.getElem?_eq_getElem hkl
    have e2 : q.indices[0]? = some q.indices[0] := List.getElem?_eq_getElem h0
    refine ⟨p, q, _, _, pi, e1, qi, e2, ?_, ?_⟩
    · obtain ⟨-, d2, d3⟩ := a4 k _ e1
      refine ⟨d2, fun a => ?_⟩
      rw [d3 a]
      constructor
      · rintro ⟨⟨o, l, q1, q2, q3⟩, q4⟩
        obtain ⟨o', cut, w1, w2, w3⟩ := q4 rfl
        rw [q1] at w1
        rw [hk] at w2
        cases w1
        cases w2
        refine ⟨o, q1, w3, ?_⟩
        have := (mem_shards (g := onItems e.2.1.2) (o := o) p.shard).mp ⟨l, q2, q3⟩
        rw [← ps]; exact this
      · rintro ⟨o, q1, q2, q3⟩
        have q3 : (onItems (ι := ι) e.2.1.2).shard o = some (p.shard : ℤ) := by rw [ps]; exact q3
        obtain ⟨l, l1, l2⟩ := (mem_shards p.shard).mpr q3
        exact ⟨⟨o, l, q1, l1, l2⟩, fun _ => ⟨o, cutoff, q1, hk, q2⟩⟩
    · obtain ⟨-, d2, d3⟩ := b4 0 _ e2
      refine ⟨d2, fun a => ?_⟩
      rw [d3 a]
      constructor
      · rintro ⟨⟨o, l, q1, q2, q3⟩, -⟩
        refine ⟨o, q1, ?_⟩
        have := (mem_shards (g := onItems e.2.1.2) (o := o) q.shard).mp ⟨l, q2, q3⟩
        rw [← qs]; exact this
      · rintro ⟨o, q1, q3⟩
        have q3 : (onItems (ι := ι) e.2.1.2).shard o = some (q.shard : ℤ) := by rw [qs]; exact q3
        obtain ⟨l, l1, l2⟩ := (mem_shards q.shard).mpr q3
        exact ⟨⟨o, l, q1, l1, l2⟩, fun hc => by cases hc⟩

/-! ### The inputs of multi object tracking -/

theorem input_restricted {c : Config O} {x : Frame O ι} {s : List Subset × List Subset} (h : SubsOk c x s)
    {i k : Nat} {e : Nat × (Nat × Gen O) × Nat} {cutoff : ℚ} (he : (shardList c)[i]? = some e)
    (hk : c.cutoffs[k]? = some cutoff) :
    ∃ y, (do
      let p ← s.1[i]?
      let ps ← p.indices[k]?
      let g ← s.2[i]?
      let gs ← g.indices[0]?
      pure (x.input ps gs) : Option (Mot.Input ι)) = some y ∧ Restricted e.2.1.2 e.2.2 cutoff x y := by
  obtain ⟨p, q, ps, gs, h1, h2, h3, h4, h5, h6⟩ := h.sel i e k cutoff he hk
  refine ⟨x.input ps gs, ?_, ps, gs, h5, h6, rfl, rfl, rfl, rfl, rfl, rfl, rfl⟩
  simp only [h1, h2, h3, h4, Option.bind_eq_bind, Option.bind_some]
  rfl

theorem inputs_spec {c : Config O} {xs : List (Frame O ι)} {subs : List (List Subset × List Subset)}
    (h : List.Forall₂ (SubsOk c) xs subs) {i k : Nat} {e : Nat × (Nat × Gen O) × Nat} {cutoff : ℚ}
    (he : (shardList c)[i]? = some e) (hk : c.cutoffs[k]? = some cutoff) :
    ∃ ins, inputs xs subs i k = some ins ∧ List.Forall₂ (Restricted e.2.1.2 e.2.2 cutoff) xs ins := by
  unfold inputs
  induction h with
  | nil => exact ⟨[], rfl, List.Forall₂.nil⟩
  | @cons x s xs subs h1 _ ih =>
    obtain ⟨ins, i1, i2⟩ := ih
    obtain ⟨y, y1, y2⟩ := input_restricted h1 he hk
    refine ⟨y :: ins, ?_, List.Forall₂.cons y2 i2⟩
    rw [List.zip_cons_cons, List.mapM_cons, y1, i1]
    rfl

theorem restricted_usable [DecidableEq ι] {c : Config O} {x : Frame O ι} (h : FrameUsable c x) {g : Gen O} {s : Nat}
    {cutoff : ℚ} {y : Mot.Input ι} (hy : Restricted g s cutoff x y) : Mot.Usable y := by
  obtain ⟨ps, gs, h1, h2, e1, e2, e3, e4, e5, e6, e7⟩ := hy
  have hp : ∀ a ∈ ps, a < x.preds.length := by
    intro a ha
    obtain ⟨p, hp, -⟩ := (h1.2 a).mp ha
    exact (List.getElem?_eq_some_iff.mp hp).1
  have hg : ∀ a ∈ gs, a < x.gts.length := by
    intro a ha
    obtain ⟨p, hp, -⟩ := (h2.2 a).mp ha
    exact (List.getElem?_eq_some_iff.mp hp).1
  refine ⟨?_, ?_, ?_, ?_, ?_, ?_⟩
  · rw [e1, e3]; intro i hi; rw [List.length_map]; exact hp i hi
  · rw [e2, e4]; intro i hi; rw [List.length_map]; exact hg i hi
  · unfold Mot.gtIds
    rw [e2, e4]
    rw [List.nodup_iff_pairwise_ne, List.pairwise_filterMap]
    apply List.Pairwise.imp_of_mem _ h2.1
    intro a b ha hb hab u hu v hv huv
    have h3 := hg a ha
    have h4 := hg b hb
    simp only [List.getElem?_map, List.getElem?_eq_getElem h3, List.getElem?_eq_getElem h4, Option.map_some,
      Option.some.injEq] at hu hv
    subst hu; subst hv
    have := h.ids.getElem_inj_iff (i := a) (j := b) (hi := by simpa using h3) (hj := by simpa using h4)
    simp only [List.getElem_map] at this
    have := this.mp huv
    omega
  · rw [e3, e4, e5]; intro a ha b hb; exact h.can a b (hp a ha) (hg b hb)
  · rw [e3, e4, e6]; intro a ha b hb; exact h.iou a b (hp a ha) (hg b hb)
  · rw [e3, e4, e5, e7]
    intro qs rs hqs hrs
    exact h.doMatch qs rs (fun a ha => hp a (hqs ha)) (fun b hb => hg b (hrs hb))

/-! ### Measurements -/

variable [DecidableEq ι]

/-- Specification: the measurement of shard `s` of generator `g` for a level and a cutoff is what multi object
tracking yields for the frames restricted to the shard and the cutoff: some history of legal correspondences explains
all its numbers. -/
def Prescribed (details : Bool) (xs : List (Frame O ι)) (g : Gen O) (s l : Nat) (cutoff : ℚ) (m : Out ι) : Prop :=
  ∃ ins Ns st, List.Forall₂ (Restricted g s cutoff) xs ins ∧ (∀ y ∈ ins, Mot.Usable y) ∧
    Mot.Explains l details ins Ns st ∧
    (∃ hs : List (Mot.HashOrder × Mot.Input ι), hs.map Prod.snd = ins ∧ Mot.run l details hs {} = some st) ∧
    m.1 = ⟨st.meas.misses, st.meas.fps, st.meas.mismatches, st.meas.cost, st.meas.matches_, st.meas.objectsGt, cutoff⟩ ∧
    m.2 = st.meas.details

theorem forall₂_mem_right {α β : Type} {P : α → β → Prop} {Q : β → Prop} {l : List α} {r : List β}
    (h : List.Forall₂ P l r) (hQ : ∀ a ∈ l, ∀ b, P a b → Q b) : ∀ b ∈ r, Q b := by
  intro b hb
  obtain ⟨a, ha, hp⟩ := exists_of_forall₂_right h b hb
  exact hQ a ha b hp

theorem measureOne_spec {c : Config O} {xs : List (Frame O ι)} (hx : SceneUsable c xs) (H : Orders)
    {subs : List (List Subset × List Subset)} (h : List.Forall₂ (SubsOk c) xs subs) {i : Nat}
    {e : Nat × (Nat × Gen O) × Nat} (he : (shardList c)[i]? = some e) (q : ℚ × Nat) (hq : c.cutoffs[q.2]? = some q.1)
    (l : Nat × Nat) :
    ∃ m, measureOne c H xs subs i q l = some m ∧ m.1.cutoff = q.1 ∧
      Prescribed c.details xs e.2.1.2 e.2.2 l.1 q.1 m := by
  obtain ⟨ins, i1, i2⟩ := inputs_spec h he hq
  have hu : ∀ y ∈ ins, Mot.Usable y :=
    forall₂_mem_right i2 fun x hxm y hy => restricted_usable (hx.frames x hxm) hy
  obtain ⟨st, Ns, r1, -, -, r2⟩ := Mot.run_explained l.1 c.details
    (ins.zipIdx.map fun f => (H i q.2 l.2 f.2, f.1)) (by
      intro f hf
      obtain ⟨f', hf', rfl⟩ := List.mem_map.mp hf
      exact hu _ (List.mem_of_getElem? (List.mem_zipIdx_iff_getElem?.mp hf')))
  have hsnd : (ins.zipIdx.map fun f => (H i q.2 l.2 f.2, f.1)).map Prod.snd = ins := by
    rw [List.map_map]
    have : (Prod.snd ∘ fun f : Mot.Input ι × Nat => (H i q.2 l.2 f.2, f.1)) = Prod.fst := rfl
    rw [this]; simp
  refine ⟨toOut st.meas q.1, ?_, rfl, ins, Ns, st, i2, hu, ?_, ⟨_, hsnd, r1⟩, rfl, rfl⟩
  · unfold measureOne
    rw [i1]
    simp only [Option.bind_eq_bind, Option.bind_some]
    rw [r1]; rfl
  · rw [hsnd] at r2
    exact r2

/-- What a shard contributes. -/
def ShardOk (c : Config O) (xs : List (Frame O ι)) (gi : Nat) (g : Nat × Gen O) (s : Nat)
    (r : List (Measure.Group (Out ι))) : Prop :=
  List.Forall₂ (fun l (q : Measure.Group (Out ι)) => q.breakdown = ⟨g.1, s, l⟩ ∧
    List.Forall₂ (fun k m => m.1.cutoff = k ∧ Prescribed c.details xs g.2 s l k m) c.cutoffs q.items)
    (Detection.levelsOf c gi) r

theorem perShard_spec {c : Config O} {xs : List (Frame O ι)} (hx : SceneUsable c xs) (hne : xs ≠ []) (H : Orders)
    {subs : List (List Subset × List Subset)} (h : List.Forall₂ (SubsOk c) xs subs) {i : Nat}
    {e : Nat × (Nat × Gen O) × Nat} (he : (shardList c)[i]? = some e) :
    ∃ r, perShard c H xs subs i = some r ∧ ShardOk c xs e.1 e.2.1 e.2.2 r := by
  obtain ⟨hge, -⟩ := shardList_gen c he
  have hgi : e.1 < c.levels.length := by
    rw [hx.levels]; exact (List.getElem?_eq_some_iff.mp hge).1
  have hlev : (c.levels[e.1]?).map (fun l => if l.isEmpty then [2] else l) = some (Detection.levelsOf c e.1) := by
    rw [List.getElem?_eq_getElem hgi]
    unfold Detection.levelsOf
    rw [List.getD_eq_getElem?_getD, List.getElem?_eq_getElem hgi]
    simp only [Option.map_some, Option.getD_some, List.isEmpty_iff]
  obtain ⟨x, xs', rfl⟩ := List.exists_cons_of_ne_nil hne
  cases subs with
  | nil => cases h
  | cons first rest =>
  have hfirst : SubsOk c x first := by cases h; assumption
  obtain ⟨pd, hpd, hpg, hps⟩ : ∃ r, first.1[i]? = some r ∧ r.generatorIndex = e.1 ∧ r.shard = e.2.2 := by
    have := congrArg (fun l => l[i]?) hfirst.pdKeys
    simp only [List.getElem?_map, he, Option.map_some] at this
    cases hr : first.1[i]? with
    | none => rw [hr] at this; cases this
    | some r =>
      rw [hr] at this
      simp only [keyOf, Option.map_some, Option.some.injEq, Prod.mk.injEq] at this
      exact ⟨r, rfl, this.1, this.2⟩
  let xs := x :: xs'
  let subs := first :: rest
  let L := Detection.levelsOf c e.1
  obtain ⟨cols, c1, c2⟩ := mapM_exists (fun q : ℚ × Nat => L.zipIdx.mapM (measureOne c H xs subs i q))
    (fun q col => List.Forall₂ (fun l (m : Out ι) => m.1.cutoff = q.1 ∧
      Prescribed c.details xs e.2.1.2 e.2.2 l q.1 m) L col) c.cutoffs.zipIdx (by
    rintro ⟨k, n⟩ hk
    rw [List.mem_zipIdx_iff_getElem?] at hk
    obtain ⟨col, q1, q2⟩ := mapM_exists (measureOne c H xs subs i (k, n))
      (fun l m => m.1.cutoff = k ∧ Prescribed c.details xs e.2.1.2 e.2.2 l.1 k m) L.zipIdx
      (fun l _ => measureOne_spec hx H h he (k, n) hk l)
    refine ⟨col, q1, ?_⟩
    have hz : L = L.zipIdx.map Prod.fst := by simp
    rw [hz, List.forall₂_map_left_iff]
    exact q2)
  obtain ⟨rows, r1, r2⟩ := mapM_exists (fun l : Nat × Nat => do
      let row ← cols.mapM fun col => col[l.2]?
      pure (⟨⟨e.2.1.1, pd.shard, l.1⟩, row⟩ : Measure.Group (Out ι)))
    (fun l q => q.breakdown = ⟨e.2.1.1, e.2.2, l.1⟩ ∧
      List.Forall₂ (fun k m => m.1.cutoff = k ∧ Prescribed c.details xs e.2.1.2 e.2.2 l.1 k m) c.cutoffs q.items)
    L.zipIdx (by
    rintro ⟨l, n⟩ hl
    rw [List.mem_zipIdx_iff_getElem?] at hl
    have hcol : ∀ col ∈ cols, n < col.length := by
      refine forall₂_mem_right (Q := fun col => n < col.length) c2 ?_
      intro q _ col hcol
      rw [← hcol.length_eq]; exact (List.getElem?_eq_some_iff.mp hl).1
    obtain ⟨row, w1, w2⟩ := mapM_exists (fun col : List (Out ι) => col[n]?)
      (fun col m => col[n]? = some m) cols (by
      intro col hc
      exact ⟨col[n]'(hcol col hc), List.getElem?_eq_getElem _, List.getElem?_eq_getElem _⟩)
    simp only [w1, Option.bind_eq_bind, Option.bind_some]
    refine ⟨_, rfl, by rw [hps], ?_⟩
    show List.Forall₂ _ c.cutoffs row
    rw [List.forall₂_iff_get]
    have l1 : c.cutoffs.length = cols.length := by rw [← c2.length_eq]; simp
    have l2 : cols.length = row.length := w2.length_eq
    refine ⟨l1.trans l2, ?_⟩
    intro j hi hi'
    have q1 := c2.get (i := j) (by simpa using hi) (by omega)
    have q2 := w2.get (i := j) (by omega) hi'
    rw [List.get_eq_getElem, List.get_eq_getElem] at q1 q2 ⊢
    rw [List.getElem_zipIdx] at q1
    obtain ⟨hn1, hn2⟩ := List.getElem?_eq_some_iff.mp q2
    obtain ⟨hl1, hl2⟩ := List.getElem?_eq_some_iff.mp hl
    have q3 := q1.get hl1 hn1
    rw [List.get_eq_getElem, List.get_eq_getElem, hl2, hn2] at q3
    exact q3)
  refine ⟨rows, ?_, ?_⟩
  · show perShard c H xs (first :: rest) i = some rows
    unfold perShard
    simp only [hpd, hpg, hge, hlev, Option.bind_eq_bind, Option.bind_some]
    exact Option.bind_eq_some_iff.mpr ⟨cols, c1, r1⟩
  · unfold ShardOk
    have hz : L = L.zipIdx.map Prod.fst := by simp
    show List.Forall₂ _ L rows
    rw [hz, List.forall₂_map_left_iff]
    exact r2

/-- The evaluation of frames whose speeds are settled, tracking_metrics.cc:218-248. -/
theorem evaluate_spec {c : Config O} {xs : List (Frame O ι)} (hx : SceneUsable c xs) (hne : xs ≠ []) (H : Orders) :
    ∃ subs per, xs.mapM (subsetsOf c) = some subs ∧
      (subs.all fun s => s.1.length == numShardsOf subs && s.2.length == numShardsOf subs) = true ∧
      (List.range (numShardsOf subs)).mapM (perShard c H xs subs) = some per ∧
      List.Forall₂ (fun k r => ShardOk c xs k.1 k.2.1 k.2.2 r) (shardList c) per := by
  obtain ⟨subs, s1, s2⟩ := mapM_exists (subsetsOf c) (SubsOk c) xs fun x hxm => subsetsOf_spec (hx.frames x hxm)
  have hlen : ∀ s ∈ subs, s.1.length = (shardList c).length ∧ s.2.length = (shardList c).length := by
    refine forall₂_mem_right
      (Q := fun s => s.1.length = (shardList c).length ∧ s.2.length = (shardList c).length) s2 ?_
    intro x _ s hs
    exact ⟨by simpa using congrArg List.length hs.pdKeys, by simpa using congrArg List.length hs.gtKeys⟩
  have hn : numShardsOf subs = (shardList c).length := by
    obtain ⟨x, xs', rfl⟩ := List.exists_cons_of_ne_nil hne
    cases subs with
    | nil => cases s2
    | cons s rest => exact (hlen s (by simp)).1
  obtain ⟨per, p1, p2⟩ := mapM_exists (perShard c H xs subs)
    (fun i r => ∀ e, (shardList c)[i]? = some e → ShardOk c xs e.1 e.2.1 e.2.2 r) (List.range (shardList c).length) (by
      intro i hi
      have hi := List.mem_range.mp hi
      have he := List.getElem?_eq_getElem hi
      obtain ⟨r, r1, r2⟩ := perShard_spec hx hne H s2 he
      refine ⟨r, r1, ?_⟩
      intro e he'
      rw [he] at he'
      cases he'
      exact r2)
  refine ⟨subs, per, s1, ?_, by rw [hn]; exact p1, ?_⟩
  · rw [List.all_eq_true]
    intro s hs
    obtain ⟨h1, h2⟩ := hlen s hs
    simp [h1, h2, hn]
  · rw [List.forall₂_iff_get]
    have hl := p2.length_eq
    rw [List.length_range] at hl
    refine ⟨hl, ?_⟩
    intro i hi hi'
    have := p2.get (i := i) (by simpa using hi) hi'
    rw [List.get_eq_getElem, List.get_eq_getElem, List.getElem_range] at this
    rw [List.get_eq_getElem, List.get_eq_getElem]
    exact this _ (List.getElem?_eq_getElem hi)

end Verif.Tracking
