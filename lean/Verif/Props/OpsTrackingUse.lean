import Verif.Props.OpsTracking

/-!
Properties C122, C123 and C124: other ids, other orders, the difficulty of ground truths and the variables of the
tracking operation.
-/

namespace Verif.OpsTracking

open Verif.Ops Verif.Detection Verif.Curve

variable {κ : Type} [LinearOrder κ] {O : Type}

/-! ### Other ids -/

theorem rowsFor_rename {ν ν' α : Type} [LinearOrder ν] [LinearOrder ν'] {σ : ν → ν'} (rs : List (ν × α)) (S : List ν)
    (hin : ∀ x ∈ S, ∀ y ∈ S, σ x = σ y → x = y) (hrs : ∀ r ∈ rs, r.1 ∈ S) {k : ν} (hk : k ∈ S) :
    rowsFor (rs.map fun r => (σ r.1, r.2)) (σ k) = rowsFor rs k := by
  unfold rowsFor
  rw [List.filter_map, List.map_map]
  have : rs.filter ((fun r : ν' × α => decide (r.1 = σ k)) ∘ fun r => (σ r.1, r.2)) = rs.filter fun r => decide (r.1 = k) := by
    apply List.filter_congr
    intro r hr
    simp only [Function.comp_apply, decide_eq_decide]
    exact ⟨fun e => hin _ (hrs r hr) _ hk e, fun e => by rw [e]⟩
  rw [this]
  rfl

theorem idList_rename {ν ν' α : Type} [LinearOrder ν] [LinearOrder ν'] {σ : ν → ν'} (a b : List (ν × α))
    (hin : ∀ x ∈ idList a b, ∀ y ∈ idList a b, σ x = σ y → x = y) :
    (idList (a.map fun r => (σ r.1, r.2)) (b.map fun r => (σ r.1, r.2))).Perm ((idList a b).map σ) := by
  refine (List.perm_ext_iff_of_nodup ((idList_sorted _ _).imp ne_of_lt) ?_).mpr ?_
  · rw [List.nodup_map_iff_inj_on ((idList_sorted _ _).imp ne_of_lt)]
    exact fun x hx y hy e => hin x hx y hy e
  · intro k
    rw [mem_idList]
    simp only [List.map_map, List.mem_map, Function.comp_apply, mem_idList]
    constructor
    · rintro (⟨r, hr, rfl⟩ | ⟨r, hr, rfl⟩)
      · exact ⟨r.1, Or.inl ⟨r, hr, rfl⟩, rfl⟩
      · exact ⟨r.1, Or.inr ⟨r, hr, rfl⟩, rfl⟩
    · rintro ⟨x, (⟨r, hr, rfl⟩ | ⟨r, hr, rfl⟩), rfl⟩
      · exact Or.inl ⟨r, hr, rfl⟩
      · exact Or.inr ⟨r, hr, rfl⟩

/-- C122: giving the sequences other ids permutes the sequences, and changes nothing inside of them. -/
theorem rename_sequences {κ' : Type} [LinearOrder κ'] (a b : List (κ × ℤ × Obj)) (σ : κ → κ')
    (hin : ∀ x ∈ idList a b, ∀ y ∈ idList a b, σ x = σ y → x = y) :
    (sequencesOf (a.map fun r => (σ r.1, r.2)) (b.map fun r => (σ r.1, r.2))).Perm (sequencesOf a b) := by
  unfold sequencesOf
  refine ((idList_rename a b hin).map _).trans ?_
  rw [List.map_map]
  apply List.Perm.of_eq
  apply List.map_congr_left
  intro k hk
  simp only [Function.comp_apply]
  rw [rowsFor_rename a _ hin (fun r hr => (mem_idList _ _ _).mpr (Or.inl (List.mem_map_of_mem hr))) hk,
    rowsFor_rename b _ hin (fun r hr => (mem_idList _ _ _).mpr (Or.inr (List.mem_map_of_mem hr))) hk]

/-- C122: only the order of the ids of the frames matters: any strictly increasing renumbering, another one for each
sequence, gives the same sequences. -/
theorem renumber_frames (a b : List (κ × ℤ × Obj)) (σ : κ → ℤ → ℤ) (hσ : ∀ s, StrictMono (σ s)) :
    sequencesOf (a.map fun r => (r.1, σ r.1 r.2.1, r.2.2)) (b.map fun r => (r.1, σ r.1 r.2.1, r.2.2)) = sequencesOf a b := by
  have hkeys : ∀ (x : List (κ × ℤ × Obj)), (x.map fun r => (r.1, σ r.1 r.2.1, r.2.2)).map Prod.fst = x.map Prod.fst := by
    intro x; rw [List.map_map]; rfl
  have hrows : ∀ (x : List (κ × ℤ × Obj)) (s : κ), rowsFor (x.map fun r => (r.1, σ r.1 r.2.1, r.2.2)) s =
      (rowsFor x s).map fun r => (σ s r.1, r.2) := by
    intro x s
    unfold rowsFor
    rw [List.filter_map, List.map_map, List.map_map]
    apply List.map_congr_left
    intro r hr
    have := of_decide_eq_true (List.mem_filter.mp hr).2
    simp only [Function.comp_apply] at this ⊢
    rw [this]
  unfold sequencesOf
  rw [idList_congr (a' := a) (b' := b) (fun k => by rw [hkeys]) (fun k => by rw [hkeys])]
  apply List.map_congr_left
  intro s _
  rw [hrows, hrows]
  have hin : ∀ x ∈ idList (rowsFor a s) (rowsFor b s), ∀ y ∈ idList (rowsFor a s) (rowsFor b s), σ s x = σ s y → x = y :=
    fun x _ y _ e => (hσ s).injective e
  have hid : idList ((rowsFor a s).map fun r => (σ s r.1, r.2)) ((rowsFor b s).map fun r => (σ s r.1, r.2)) =
      (idList (rowsFor a s) (rowsFor b s)).map (σ s) := by
    apply sorted_unique (idList_sorted _ _)
    · exact List.pairwise_map.mpr ((idList_sorted _ _).imp fun h => hσ s h)
    · exact fun x => (idList_rename _ _ hin).mem_iff
  unfold framesOf
  rw [hid, List.map_map]
  apply List.map_congr_left
  intro k hk
  simp only [Function.comp_apply, Prod.mk.injEq]
  exact ⟨rowsFor_rename _ _ hin (fun r hr => (mem_idList _ _ _).mpr (Or.inl (List.mem_map_of_mem hr))) hk,
    rowsFor_rename _ _ hin (fun r hr => (mem_idList _ _ _).mpr (Or.inr (List.mem_map_of_mem hr))) hk⟩

/-! ### The order of the sequences -/

open Verif.Measure in
theorem trk_same {v w : List (Measure.Group Trk)} (h1 : shape Trk.cutoff v = shape Trk.cutoff w)
    (h2 : ∀ i j, countsAt Trk.counts v i j = countsAt Trk.counts w i j) : v = w := by
  have hl : v.length = w.length := by have := congrArg List.length h1; simpa [shape] using this
  apply List.ext_getElem hl
  intro i a b
  have hi : (shape Trk.cutoff v)[i]'(by simpa [shape] using a) = (shape Trk.cutoff w)[i]'(by simpa [shape] using b) := by
    simp only [h1]
  simp only [shape, List.getElem_map, Prod.mk.injEq] at hi
  obtain ⟨hb, hc⟩ := hi
  have hl' : v[i].items.length = w[i].items.length := by have := congrArg List.length hc; simpa using this
  have hitems : v[i].items = w[i].items := by
    apply List.ext_getElem hl'
    intro j a' b'
    have hj : (v[i].items.map Trk.cutoff)[j]'(by simpa using a') = (w[i].items.map Trk.cutoff)[j]'(by simpa using b') := by
      simp only [hc]
    have hn := h2 i j
    simp only [countsAt, entry, List.getElem?_eq_getElem a, List.getElem?_eq_getElem b, List.getElem?_eq_getElem a',
      List.getElem?_eq_getElem b', Trk.counts, Prod.mk.injEq] at hn
    simp only [List.getElem_map] at hj
    revert hj hn
    generalize v[i].items[j] = x
    generalize w[i].items[j] = y
    obtain ⟨⟩ := x
    obtain ⟨⟩ := y
    simp only [Trk.mk.injEq]
    tauto
  revert hb hitems
  generalize v[i] = x
  generalize w[i] = y
  obtain ⟨⟩ := x
  obtain ⟨⟩ := y
  rintro ⟨⟩ ⟨⟩
  rfl

/-- Measurements of scenes in another order are the same measurements in another order. -/
theorem forall₂_perm.{u} {α : Type u} {β : Type} {R : α → β → Prop} (hR : ∀ a b c, R a b → R a c → b = c) {l l' : List α} (hp : l.Perm l') :
    ∀ {r r' : List β}, List.Forall₂ R l r → List.Forall₂ R l' r' → r.Perm r' := by
  induction hp with
  | nil => rintro r r' ⟨⟩ ⟨⟩; exact .nil
  | cons x _ ih =>
    rintro r r' (_ | ⟨h1, h2⟩) (_ | ⟨h3, h4⟩)
    obtain rfl := hR _ _ _ h1 h3
    exact (ih h2 h4).cons _
  | swap x y l =>
    rintro r r' (_ | ⟨h1, _ | ⟨h2, h3⟩⟩) (_ | ⟨h4, _ | ⟨h5, h6⟩⟩)
    obtain rfl := hR _ _ _ h1 h5
    obtain rfl := hR _ _ _ h2 h4
    have : ∀ {m : List α} {s s' : List β}, List.Forall₂ R m s → List.Forall₂ R m s' → s = s' := by
      intro m s s' hs
      induction hs generalizing s' with
      | nil => rintro ⟨⟩; rfl
      | cons a _ ih => rintro (_ | ⟨b, c⟩); rw [hR _ _ _ a b, ih c]
    rw [this h3 h6]
    exact List.Perm.swap _ _ _
  | trans p q ih1 ih2 =>
    intro r r' h h'
    obtain ⟨s, hs⟩ : ∃ s, List.Forall₂ R _ s := by
      obtain ⟨s, h1, -⟩ := List.perm_comp_forall₂ p.symm h
      exact ⟨s, h1⟩
    exact (ih1 h hs).trans (ih2 hs h')

section Perm
variable {ι : Type} [DecidableEq ι]

/-- The metrics of scenes with cutoffs given by the configuration do not depend on the order of the scenes. -/
theorem metrics_perm (M : Tracking.Motion O) {c : Config O} (desired : Nat) {s s' : List (List (Tracking.Frame O ι))}
    (hc : c.cutoffs ≠ []) (hu : Tracking.AllUsable M c s) (hne : ∀ xs ∈ s, xs ≠ []) {H H' : Nat → Tracking.Orders}
    (hp : (s.zipIdx.map fun e => (e.1, H e.2)).Perm (s'.zipIdx.map fun e => (e.1, H' e.2))) :
    Tracking.computeMetrics M c desired H s = Tracking.computeMetrics M c desired H' s' := by
  have hss : s.Perm s' := by
    have := hp.map Prod.fst
    simpa [List.map_map, Function.comp_def] using this
  have hk : ∀ x : List (List (Tracking.Frame O ι)), Tracking.usedCutoffs c desired x = some c.cutoffs := by
    intro x; unfold Tracking.usedCutoffs
    rw [if_neg (by simpa using hc)]
  by_cases h0 : s = []
  · subst h0
    obtain rfl := hss.symm.eq_nil
    unfold Tracking.computeMetrics
    simp only [List.zipIdx_nil, List.mapM_nil]
  have hex : ∃ xs ∈ s, xs ≠ [] := by
    cases s with
    | nil => exact absurd rfl h0
    | cons x s => exact ⟨x, by simp, hne x (by simp)⟩
  obtain ⟨fs, v, f1, f2, f3, f4⟩ := Tracking.metrics_spec M desired (hk s) hc hu hex H
  obtain ⟨fs', v', g1, g2, g3, g4⟩ := Tracking.metrics_spec M desired (hk s') hc
    (fun xs hx => hu xs (hss.mem_iff.mpr hx)) (by
      obtain ⟨xs, h1, h2⟩ := hex
      exact ⟨xs, hss.mem_iff.mp h1, h2⟩) H'
  rw [f2, g2]
  have hperm : fs.Perm fs' := by
    refine forall₂_perm (R := fun (e : List (Tracking.Frame O ι) × Tracking.Orders) f =>
      Tracking.computeMeasurements M c e.2 e.1 = some f) ?_ hp ?_ ?_
    · intro a b d h1 h2
      rw [h1] at h2
      exact Option.some.inj h2
    · exact List.forall₂_map_left_iff.mpr f1
    · exact List.forall₂_map_left_iff.mpr g1
  rw [trk_same (f3.trans g3.symm) fun i j => by rw [f4, g4]; exact (hperm.map _).sum_eq]

end Perm

/-- C123: with cutoffs in the configuration the outputs depend on the sequences as a collection only: neither their
order, and so neither their ids nor the way their rows are interleaved, changes any output. -/
theorem sequences_perm_partial (E : Env O) (c : Config O) (desired : Nat) {κ' : Type} [LinearOrder κ'] {pd : PdTensors κ}
    {gt : GtTensors κ} {pd' : PdTensors κ'} {gt' : GtTensors κ'} {ss ss' : List (List (List Obj × List Obj))}
    (hs : opScenes pd gt = some ss) (hs' : opScenes pd' gt' = some ss') {order order' : List Nat}
    (ho : order.Perm (List.range ss.length)) (ho' : order'.Perm (List.range ss'.length)) (hc : c.cutoffs ≠ [])
    (hu : Tracking.AllUsable E.motion c (ss.map E.scene)) (hne : ∀ xs ∈ ss, xs ≠ []) {H H' : Nat → Tracking.Orders}
    (hp : (ss.zipIdx.map fun e => (e.1, H e.2)).Perm (ss'.zipIdx.map fun e => (e.1, H' e.2))) :
    trackingOp E c desired H order pd gt = trackingOp E c desired H' order' pd' gt' := by
  rw [tracking_op_is_library E c desired H hs ho, tracking_op_is_library E c desired H' hs' ho']
  congr 1
  refine metrics_perm E.motion desired hc hu ?_ ?_
  · intro xs hx
    obtain ⟨ys, hy, rfl⟩ := List.mem_map.mp hx
    simpa [Env.scene] using hne ys hy
  · have := hp.map fun e => (E.scene e.1, e.2)
    simpa [List.zipIdx_map, List.map_map, Function.comp_def] using this

/-- C123: without rows the operation returns empty outputs. -/
theorem no_rows (E : Env O) (c : Config O) (desired : Nat) (H : Nat → Tracking.Orders) {pd : PdTensors κ} {gt : GtTensors κ}
    (hp : SeqConsistent pd.args) (hg : SeqConsistent gt.args) (h1 : pd.bbox = []) (h2 : gt.bbox = []) :
    trackingOp E c desired H [] pd gt = some ⟨[], [], [], [], [], [], []⟩ := by
  obtain ⟨a, -, a1, -⟩ := sequences_parse hp
  obtain ⟨b, -, b1, -⟩ := sequences_parse hg
  have ha : a = [] := List.length_eq_zero_iff.mp (a1.1.trans (by show pd.bbox.length = 0; simp [h1]))
  have hb : b = [] := List.length_eq_zero_iff.mp (b1.1.trans (by show gt.bbox.length = 0; simp [h2]))
  subst ha hb
  rw [tracking_op_is_library E c desired H (scenes_spec hp hg a1 b1) (by simp [sequencesOf, idList])]
  have : sequencesOf ([] : List (κ × ℤ × Obj)) [] = [] := by simp [sequencesOf, idList]
  rw [this]
  unfold Tracking.computeMetrics Tracking.usedCutoffs
  by_cases hc : c.cutoffs.isEmpty
  · simp only [hc, if_true]; rfl
  · simp only [hc]; rfl

/-! ### C124: the difficulty of ground truths -/

/-- An object without its detection difficulty. -/
def erase (o : Obj) : Obj := { o with detLevel := none }

/-- Nothing that the matcher, the breakdowns or the speeds read depends on the detection difficulty. -/
structure Blind (E : Env O) : Prop where
  core : ∀ o, E.core (erase o) = E.core o
  canMatch : ∀ xs ys, E.canMatch xs (ys.map erase) = E.canMatch xs ys
  iou : ∀ xs ys, E.iou xs (ys.map erase) = E.iou xs ys
  doMatch : ∀ xs ys, E.doMatch xs (ys.map erase) = E.doMatch xs ys

theorem rowsFor_values {ν α β : Type} [DecidableEq ν] (g : α → β) (rs : List (ν × α)) (k : ν) :
    rowsFor (rs.map fun r => (r.1, g r.2)) k = (rowsFor rs k).map g := by
  unfold rowsFor
  rw [List.filter_map, List.map_map, List.map_map]
  rfl

theorem map_keys {ν α β : Type} (g : α → β) (rs : List (ν × α)) : (rs.map fun r => (r.1, g r.2)).map Prod.fst = rs.map Prod.fst := by
  rw [List.map_map]; rfl

theorem idList_values {ν α : Type} [LinearOrder ν] (g : α → α) (a b : List (ν × α)) :
    idList a (b.map fun r => (r.1, g r.2)) = idList a b :=
  idList_congr (fun _ => Iff.rfl) fun k => by rw [map_keys]

theorem sequencesOf_erase (a b : List (κ × ℤ × Obj)) :
    sequencesOf a (b.map fun r => (r.1, r.2.1, erase r.2.2)) =
      (sequencesOf a b).map fun xs => xs.map fun x => (x.1, x.2.map erase) := by
  have h : (b.map fun r => (r.1, r.2.1, erase r.2.2)) = b.map fun r => (r.1, (fun q : ℤ × Obj => (q.1, erase q.2)) r.2) := rfl
  unfold sequencesOf
  rw [h, idList_values (fun q : ℤ × Obj => (q.1, erase q.2)), List.map_map]
  apply List.map_congr_left
  intro s _
  rw [rowsFor_values (fun q : ℤ × Obj => (q.1, erase q.2))]
  unfold framesOf
  rw [idList_values erase]
  simp only [Function.comp_apply, List.map_map]
  apply List.map_congr_left
  intro f _
  rw [rowsFor_values erase]
  rfl

theorem scene_erase {E : Env O} (hE : Blind E) (xs : List (List Obj × List Obj)) :
    E.scene (xs.map fun x => (x.1, x.2.map erase)) = E.scene xs := by
  unfold Env.scene
  rw [List.map_map]
  apply List.map_congr_left
  intro x _
  have hi : E.item ∘ erase = E.item := by
    funext o
    simp only [Function.comp_apply, Env.item, hE.core]
    rfl
  simp only [Function.comp_apply, Env.frame, List.map_map, hi, hE.canMatch, hE.iou, hE.doMatch]

theorem rows_erase {t : SeqTensors κ} {rs : List (κ × ℤ × Obj)} (h : SeqRowsAre t rs) :
    SeqRowsAre { t with base := { t.base with detLevel := none } } (rs.map fun r => (r.1, r.2.1, erase r.2.2)) := by
  refine ⟨by simpa using h.1, ?_⟩
  intro i r hr
  rw [List.getElem?_map] at hr
  obtain ⟨q, hq, rfl⟩ := Option.map_eq_some_iff.mp hr
  have := h.2 i q hq
  exact ⟨this.sequence, this.object, this.id, this.row.frame, this.row.type, this.row.box, this.row.score, this.row.nlz, rfl,
    this.row.trkLevel, this.row.speed, rfl⟩

/-- C124: the difficulties of the ground truths have no effect on the outputs. -/
theorem difficulty_ignored {E : Env O} (hE : Blind E) (c : Config O) (desired : Nat) (H : Nat → Tracking.Orders)
    (order : List Nat) {pd : PdTensors κ} {gt : GtTensors κ} (hp : SeqConsistent pd.args) (hg : SeqConsistent gt.args)
    (ds : List Nat) (hd : ds.length = gt.bbox.length) :
    trackingOp E c desired H order pd { gt with difficulty := ds } = trackingOp E c desired H order pd gt := by
  have hg' : SeqConsistent ({ gt with difficulty := ds } : GtTensors κ).args :=
    ⟨⟨hg.base.dof, hg.base.rows, hg.base.type, hg.base.frame, hg.base.score, hg.base.nlz,
      by rintro l ⟨⟩; exact hd, hg.base.trkLevel, hg.base.speed⟩, hg.sequence, hg.object⟩
  obtain ⟨a, -, a1, -⟩ := sequences_parse hp
  obtain ⟨b, -, b1, -⟩ := sequences_parse hg
  obtain ⟨b', -, b1', -⟩ := sequences_parse hg'
  have hc0 : SeqConsistent { gt.args with base := { gt.args.base with detLevel := none } } :=
    ⟨⟨hg.base.dof, hg.base.rows, hg.base.type, hg.base.frame, hg.base.score, hg.base.nlz,
      by rintro l ⟨⟩, hg.base.trkLevel, hg.base.speed⟩, hg.sequence, hg.object⟩
  have he : (b'.map fun r => (r.1, r.2.1, erase r.2.2)) = b.map fun r => (r.1, r.2.1, erase r.2.2) := by
    refine SeqRowsAre.unique ?_ (rows_erase b1) hc0
    have := rows_erase b1'
    exact this
  have hs := congrArg (sequencesOf a) he
  rw [sequencesOf_erase, sequencesOf_erase] at hs
  have hsc : (sequencesOf a b').map E.scene = (sequencesOf a b).map E.scene := by
    have := congrArg (List.map E.scene) hs
    simpa only [List.map_map, Function.comp_def, scene_erase hE] using this
  unfold trackingOp
  rw [scenes_spec hp hg a1 b1, scenes_spec hp hg' a1 b1']
  simp only [Option.bind_eq_bind, Option.bind_some, hsc]

/-! ### The variables -/

theorem seqRows_iff {t : SeqTensors κ} (hc : SeqConsistent t) (rs : List (κ × ℤ × Obj)) :
    SeqRowsAre t rs ↔ RowsAre t.base (rs.map fun r => (r.2.1, { r.2.2 with id := none })) ∧
      t.sequence = rs.map Prod.fst ∧ t.object.map some = rs.map fun r => r.2.2.id := by
  constructor
  · rintro ⟨h1, h2⟩
    refine ⟨⟨by simpa using h1, ?_⟩, ?_, ?_⟩
    · intro i r hr
      rw [List.getElem?_map] at hr
      obtain ⟨q, hq, rfl⟩ := Option.map_eq_some_iff.mp hr
      exact (h2 i q hq).row
    · apply List.ext_getElem (by rw [hc.sequence, List.length_map, h1])
      intro i a b
      rw [List.length_map] at b
      have := (h2 i _ (List.getElem?_eq_getElem b)).sequence
      rw [List.getElem?_eq_getElem a] at this
      rw [List.getElem_map]
      exact Option.some.inj this
    · apply List.ext_getElem (by rw [List.length_map, hc.object, List.length_map, h1])
      intro i a b
      rw [List.length_map] at a b
      have := (h2 i _ (List.getElem?_eq_getElem b)).object
      rw [List.getElem?_eq_getElem a] at this
      rw [List.getElem_map, List.getElem_map]
      exact this
  · rintro ⟨⟨h1, h2⟩, h3, h4⟩
    refine ⟨by simpa using h1, ?_⟩
    intro i r hr
    have hr1 : (rs.map fun r => (r.2.1, ({ r.2.2 with id := none } : Obj)))[i]? = some (r.2.1, { r.2.2 with id := none }) := by
      rw [List.getElem?_map, hr]; rfl
    have ho : (t.object.map some)[i]? = some r.2.2.id := by rw [h4, List.getElem?_map, hr]; rfl
    rw [List.getElem?_map] at ho
    obtain ⟨k, hk, hk'⟩ := Option.map_eq_some_iff.mp ho
    exact ⟨by rw [h3, List.getElem?_map, hr]; rfl, by rw [hk, hk'], by rw [← hk']; simp, h2 i _ hr1⟩

/-- The tensors of a call without the ids of sequences and objects. -/
def PdTensors.toOps (t : PdTensors κ) : Ops.PdTensors := ⟨t.dof, t.bbox, t.type, t.score, t.frame, t.nlz⟩

/-- See `PdTensors.toOps`. -/
def GtTensors.toOps (t : GtTensors κ) : Ops.GtTensors := ⟨t.dof, t.bbox, t.type, t.frame, t.difficulty, t.speed⟩

theorem pdSeq_append {a b : PdTensors κ} {x y : List (κ × ℤ × Obj)} (hd : a.dof = b.dof) (ha : SeqConsistent a.args)
    (hb : SeqConsistent b.args) (hx : SeqRowsAre a.args x) (hy : SeqRowsAre b.args y) :
    SeqConsistent (a.append b).args ∧ SeqRowsAre (a.append b).args (x ++ y) := by
  obtain ⟨x1, x2, x3⟩ := (seqRows_iff ha x).mp hx
  obtain ⟨y1, y2, y3⟩ := (seqRows_iff hb y).mp hy
  obtain ⟨h1, h2⟩ := pd_append (a := a.toOps) (b := b.toOps) hd ha.base hb.base x1 y1
  have hc : SeqConsistent (a.append b).args :=
    ⟨h1, by have := ha.sequence; have := hb.sequence; simp_all [PdTensors.append, PdTensors.args],
      by have := ha.object; have := hb.object; simp_all [PdTensors.append, PdTensors.args]⟩
  refine ⟨hc, (seqRows_iff hc _).mpr ⟨?_, ?_, ?_⟩⟩
  · rw [List.map_append]; exact h2
  · rw [List.map_append, ← x2, ← y2]; rfl
  · rw [List.map_append, ← x3, ← y3, ← List.map_append]; rfl

theorem gtSeq_append {a b : GtTensors κ} {x y : List (κ × ℤ × Obj)} (hd : a.dof = b.dof) (ha : SeqConsistent a.args)
    (hb : SeqConsistent b.args) (hx : SeqRowsAre a.args x) (hy : SeqRowsAre b.args y) :
    SeqConsistent (a.append b).args ∧ SeqRowsAre (a.append b).args (x ++ y) := by
  obtain ⟨x1, x2, x3⟩ := (seqRows_iff ha x).mp hx
  obtain ⟨y1, y2, y3⟩ := (seqRows_iff hb y).mp hy
  obtain ⟨h1, h2⟩ := gt_append (a := a.toOps) (b := b.toOps) hd ha.base hb.base x1 y1
  have hc : SeqConsistent (a.append b).args :=
    ⟨h1, by have := ha.sequence; have := hb.sequence; simp_all [GtTensors.append, GtTensors.args],
      by have := ha.object; have := hb.object; simp_all [GtTensors.append, GtTensors.args]⟩
  refine ⟨hc, (seqRows_iff hc _).mpr ⟨?_, ?_, ?_⟩⟩
  · rw [List.map_append]; exact h2
  · rw [List.map_append, ← x2, ← y2]; rfl
  · rw [List.map_append, ← x3, ← y3, ← List.map_append]; rfl

/-- A batch with its rows. -/
structure SeqBatch (dof : Nat) (b : PdTensors κ × GtTensors κ) (r : List (κ × ℤ × Obj) × List (κ × ℤ × Obj)) : Prop where
  pdDof : b.1.dof = dof
  gtDof : b.2.dof = dof
  pd : SeqConsistent b.1.args
  gt : SeqConsistent b.2.args
  pdRows : SeqRowsAre b.1.args r.1
  gtRows : SeqRowsAre b.2.args r.2

/-- C123: after any number of updates the variables hold the rows of all batches, in the order of the updates; a
sequence may be spread over any number of batches. -/
theorem variables_hold_rows {dof : Nat} (hd : dof = 4 ∨ dof = 5 ∨ dof = 7) {bs : List (PdTensors κ × GtTensors κ)}
    {rows : List (List (κ × ℤ × Obj) × List (κ × ℤ × Obj))} (h : List.Forall₂ (SeqBatch dof) bs rows) :
    SeqBatch dof (accumulate dof bs) ((rows.map Prod.fst).flatten, (rows.map Prod.snd).flatten) := by
  have key : ∀ {bs : List (PdTensors κ × GtTensors κ)} {rows : List (List (κ × ℤ × Obj) × List (κ × ℤ × Obj))}
      (s : PdTensors κ × GtTensors κ) (r : List (κ × ℤ × Obj) × List (κ × ℤ × Obj)), List.Forall₂ (SeqBatch dof) bs rows →
      SeqBatch dof s r → SeqBatch dof (bs.foldl (fun s b => (s.1.append b.1, s.2.append b.2)) s)
        (r.1 ++ (rows.map Prod.fst).flatten, r.2 ++ (rows.map Prod.snd).flatten) := by
    intro bs rows s r h hs
    induction h generalizing s r with
    | nil => simpa using hs
    | @cons b q bs rows hb _ ih =>
      obtain ⟨a1, a2⟩ := pdSeq_append (hs.pdDof.trans hb.pdDof.symm) hs.pd hb.pd hs.pdRows hb.pdRows
      obtain ⟨g1, g2⟩ := gtSeq_append (hs.gtDof.trans hb.gtDof.symm) hs.gt hb.gt hs.gtRows hb.gtRows
      have := ih (s.1.append b.1, s.2.append b.2) (r.1 ++ q.1, r.2 ++ q.2) ⟨hs.pdDof, hs.gtDof, a1, g1, a2, g2⟩
      simpa [List.append_assoc] using this
  obtain ⟨e1, e2, e3, e4⟩ := empty_rows hd
  have hp : SeqConsistent (PdTensors.empty (κ := κ) dof).args := ⟨e1, rfl, rfl⟩
  have hg : SeqConsistent (GtTensors.empty (κ := κ) dof).args := ⟨e3, rfl, rfl⟩
  have := key (PdTensors.empty dof, GtTensors.empty dof) ([], []) h
    ⟨rfl, rfl, hp, hg, (seqRows_iff hp []).mpr ⟨e2, rfl, rfl⟩, (seqRows_iff hg []).mpr ⟨e4, rfl, rfl⟩⟩
  simpa [accumulate] using this

/-! ### Examples -/

/-- An environment in which all pairs overlap and the first objects are matched. -/
def demoEnv : Env Tracking.Thing :=
  ⟨fun o => (o.box.cx.getD 0, o.speed), Tracking.thingMotion, fun _ _ _ _ => some true, fun _ _ _ _ => some 1,
    fun _ _ ps gs => some (Tracking.firstMatch ps gs)⟩

/-- One breakdown with one shard, evaluated at level 1. -/
def levelOne (cutoffs : List ℚ) : Config Tracking.Thing :=
  { generators := [(1, ⟨1, fun _ => some 0, fun _ => some [0], false⟩)], levels := [[1]], cutoffs := cutoffs }

/-- Predictions of (score, frame, sequence, object). -/
def demoPd (rs : List (ℚ × ℤ × Nat × ℤ)) : PdTensors Nat :=
  ⟨4, rs.map fun _ => [0, 0, 1, 1], rs.map fun _ => 1, rs.map fun r => r.1, rs.map fun r => r.2.1, rs.map fun r => r.2.2.1,
    rs.map fun r => r.2.2.2, rs.map fun _ => false⟩

/-- Ground truths of (difficulty, frame, sequence, object). -/
def demoGt (rs : List (Nat × ℤ × Nat × ℤ)) : GtTensors Nat :=
  ⟨4, rs.map fun _ => [0, 0, 1, 1], rs.map fun _ => 1, rs.map fun r => r.2.1, rs.map fun r => r.2.2.1,
    rs.map fun r => r.2.2.2, rs.map fun r => r.1, rs.map fun _ => (0, 0)⟩

/-- The orders of the hash containers in the examples. -/
def demoOrders : Nat → Tracking.Orders := fun _ _ _ _ _ => Tracking.idOrder

/-- C124 as documented (metrics_ops.cc:287-288): the difficulty of a ground truth decides at which levels it counts. -/
def DifficultyStatement : Prop :=
  ∀ (c : Config Tracking.Thing) (pd : PdTensors Nat) (gt : GtTensors Nat) (ss : List (List (List Obj × List Obj))),
    opScenes pd gt = some ss →
      trackingOp demoEnv c 2 demoOrders (List.range ss.length) pd gt =
        (Tracking.computeMetrics demoEnv.motion c 2 demoOrders (ss.map fun xs =>
          demoEnv.scene (xs.map fun x => (x.1, x.2.map fun o => { o with trkLevel := o.detLevel })))).map createOutput

theorem demo_difficulty :
    (trackingOp demoEnv (levelOne [0]) 2 demoOrders [0] (demoPd [(1, 5, 3, 7)]) (demoGt [(1, 5, 3, 7), (2, 5, 3, 8)])).map
      (fun o => (o.mota, o.miss)) = some ([1 / 2], [1 / 2]) ∧
    ((opScenes (demoPd [(1, 5, 3, 7)]) (demoGt [(1, 5, 3, 7), (2, 5, 3, 8)])).bind fun ss =>
      ((Tracking.computeMetrics demoEnv.motion (levelOne [0]) 2 demoOrders (ss.map fun xs =>
          demoEnv.scene (xs.map fun x => (x.1, x.2.map fun o => { o with trkLevel := o.detLevel })))).map createOutput).map
      (fun o => (o.mota, o.miss))) = some ([1], [0]) ∧
    ((opScenes (demoPd [(1, 5, 3, 7)]) (demoGt [(1, 5, 3, 7), (2, 5, 3, 8)])).map List.length) = some 1 := by
  decide +kernel

/-- C124 is false of the code: a missed ground truth of level 2 lowers the result of level 1, because the operation
stores the difficulty as that of detection (tracking_metrics_ops.cc:206-207). -/
theorem difficulty_violated : ¬ DifficultyStatement := by
  intro h
  obtain ⟨h1, h2, h3⟩ := demo_difficulty
  cases hs : opScenes (demoPd [(1, 5, 3, 7)]) (demoGt [(1, 5, 3, 7), (2, 5, 3, 8)]) with
  | none => rw [hs] at h3; cases h3
  | some ss =>
    rw [hs] at h2 h3
    have hl : ss.length = 1 := Option.some.inj h3
    have := h (levelOne [0]) _ _ ss hs
    rw [hl] at this
    rw [Option.bind_some, ← this, show List.range 1 = [0] from rfl, h1] at h2
    revert h2
    decide +kernel

/-- The environment of the examples does not look at the difficulty. -/
example : Blind demoEnv := ⟨fun _ => rfl, fun _ _ => rfl, fun _ _ => rfl, fun _ _ => rfl⟩

/-- The predictions of two sequences: `s` has two frames with two predictions each, sequence 1 has one frame with two. -/
def twoSequences (s : Nat) : PdTensors Nat :=
  demoPd [(9 / 10, 0, s, 1), (8 / 10, 0, s, 2), (7 / 10, 1, s, 1), (1 / 10, 1, s, 2), (6 / 10, 0, 1, 1), (5 / 10, 0, 1, 2)]

/-- C123 is false of the code if the cutoffs are to be estimated: giving a sequence another id changes the result
(tracking_metrics.cc:306 reads the number of predictions from the wrong scene). -/
theorem sequence_name_violated :
    (trackingOp demoEnv (levelOne []) 2 demoOrders [0, 1] (twoSequences 0)
      (demoGt [(1, 0, 0, 1), (1, 1, 0, 1), (1, 0, 1, 1)])).map (fun o => (o.mota, o.cutoff)) = some ([1 / 3], [1 / 2]) ∧
    (trackingOp demoEnv (levelOne []) 2 demoOrders [0, 1] (twoSequences 2)
      (demoGt [(1, 0, 2, 1), (1, 1, 2, 1), (1, 0, 1, 1)])).map (fun o => (o.mota, o.cutoff)) = some ([0], [0]) := by
  decide +kernel

/-- The tensors of the examples are consistent, and their rows are in two sequences. -/
example : SeqConsistent (twoSequences 0).args ∧
    ((opScenes (twoSequences 0) (demoGt [(1, 0, 0, 1), (1, 1, 0, 1), (1, 0, 1, 1)])).map fun ss => ss.map fun xs =>
      xs.map fun x => (x.1.length, x.2.length)) = some [[(2, 1), (2, 1)], [(2, 1)]] := by
  refine ⟨⟨⟨Or.inl rfl, ?_, rfl, rfl, ?_, ?_, ?_, ?_, ?_⟩, rfl, rfl⟩, by decide +kernel⟩
  · intro r hr
    have : ∀ r ∈ (twoSequences 0).args.base.bbox, r.length = 4 := by decide +kernel
    exact this r hr
  all_goals rintro l ⟨⟩
  all_goals rfl

end Verif.OpsTracking
