import Verif.Model.Mot
import Mathlib.Tactic.Linarith
import Mathlib.Tactic.Ring
import Mathlib.Data.List.Nodup
import Mathlib.Data.List.Dedup

namespace Verif.Mot

section Map
variable {κ α : Type} [DecidableEq κ]

/-- Keys of a map. -/
def keys (m : List (κ × α)) : List κ := m.map Prod.fst

theorem get?_append (m n : List (κ × α)) (k : κ) : get? (m ++ n) k = (get? m k).or (get? n k) := by
  induction m with
  | nil => simp [get?]
  | cons e m ih =>
    obtain ⟨a, b⟩ := e
    simp only [List.cons_append, get?]
    split_ifs <;> simp [ih]

theorem get?_isSome {m : List (κ × α)} {k : κ} : (get? m k).isSome ↔ k ∈ keys m := by
  induction m with
  | nil => simp [get?, keys]
  | cons e m ih =>
    obtain ⟨a, b⟩ := e
    simp only [get?, keys, List.map_cons, List.mem_cons]
    split_ifs with h
    · simp [h]
    · rw [ih]; simp [keys, Ne.symm h, eq_comm]

theorem get?_eq_none {m : List (κ × α)} {k : κ} : get? m k = none ↔ k ∉ keys m := by
  rw [← get?_isSome]; cases get? m k <;> simp

theorem mem_of_get? {m : List (κ × α)} {k : κ} {v : α} (h : get? m k = some v) : (k, v) ∈ m := by
  induction m with
  | nil => simp [get?] at h
  | cons e m ih =>
    obtain ⟨a, b⟩ := e
    simp only [get?] at h
    split_ifs at h with hc
    · simp_all
    · exact List.mem_cons_of_mem _ (ih h)

theorem get?_eq_some {m : List (κ × α)} (hm : (keys m).Nodup) {k : κ} {v : α} :
    get? m k = some v ↔ (k, v) ∈ m := by
  refine ⟨mem_of_get?, fun h => ?_⟩
  induction m with
  | nil => simp at h
  | cons e m ih =>
    obtain ⟨a, b⟩ := e
    simp only [keys, List.map_cons, List.nodup_cons] at hm
    simp only [get?]
    rcases List.mem_cons.mp h with h | h
    · simp only [Prod.mk.injEq] at h
      rw [if_pos h.1.symm, h.2]
    · rw [if_neg, ih hm.2 h]
      rintro rfl
      exact hm.1 (List.mem_map.mpr ⟨_, h, rfl⟩)

theorem mem_keys {m : List (κ × α)} {k : κ} : k ∈ keys m ↔ ∃ v, (k, v) ∈ m := by
  simp [keys]

/-- Inserting a list of entries one by one. -/
theorem emplaceAll_get? (l : List (κ × α)) : ∀ (m : List (κ × α)) (k : κ),
    get? (l.foldl (fun m e => emplace m e.1 e.2) m) k = (get? m k).or (get? l k) := by
  induction l with
  | nil => intro m k; simp [get?]
  | cons e l ih =>
    obtain ⟨a, b⟩ := e
    intro m k
    rw [List.foldl_cons, ih]
    unfold emplace
    by_cases h : (get? m a).isSome
    · rw [if_pos h]
      simp only [get?]
      split_ifs with hk
      · subst hk
        obtain ⟨v, hv⟩ := Option.isSome_iff_exists.mp h
        simp [hv]
      · rfl
    · rw [if_neg h, get?_append]
      simp only [get?]
      split_ifs with hk
      · subst hk
        cases hg : get? m a <;> simp_all
      · simp

theorem emplace_keys {m : List (κ × α)} (hm : (keys m).Nodup) (k : κ) (v : α) :
    (keys (emplace m k v)).Nodup := by
  unfold emplace
  split_ifs with h
  · exact hm
  · simp only [keys, List.map_append, List.map_cons, List.map_nil]
    rw [List.nodup_append]
    refine ⟨hm, by simp, ?_⟩
    intro a ha b hb
    simp only [List.mem_singleton] at hb
    subst hb
    rintro rfl
    exact h (get?_isSome.mpr ha)

theorem emplaceAll_keys (l : List (κ × α)) : ∀ m : List (κ × α), (keys m).Nodup →
    (keys (l.foldl (fun m e => emplace m e.1 e.2) m)).Nodup := by
  induction l with
  | nil => intro m hm; exact hm
  | cons e l ih => intro m hm; exact ih _ (emplace_keys hm _ _)

theorem emplaceAll_append (l : List (κ × α)) : ∀ m : List (κ × α), (keys (m ++ l)).Nodup →
    l.foldl (fun m e => emplace m e.1 e.2) m = m ++ l := by
  induction l with
  | nil => intro m _; simp
  | cons e l ih =>
    intro m hm
    have he : emplace m e.1 e.2 = m ++ [e] := by
      unfold emplace
      rw [if_neg]
      intro h
      rw [get?_isSome] at h
      simp only [keys, List.map_append, List.map_cons, List.nodup_append] at hm
      exact hm.2.2 _ h e.1 (by simp) rfl
    rw [List.foldl_cons, he, ih]
    · simp
    · simpa using hm

theorem assign_get? (m : List (κ × α)) (k : κ) (v : α) (k' : κ) :
    get? (assign m k v) k' = if k = k' then some v else get? m k' := by
  unfold assign
  by_cases h : (get? m k).isSome
  · rw [if_pos h]
    induction m with
    | nil => simp [get?] at h
    | cons e m ih =>
      obtain ⟨a, b⟩ := e
      simp only [List.map_cons, get?] at h ⊢
      by_cases ha : a = k
      · subst ha
        simp only [if_true, get?]
        by_cases hk : a = k'
        · simp [hk]
        · simp only [if_neg hk]
          by_cases hm : (get? m a).isSome
          · have := ih hm; simpa [hk] using this
          · have : m.map (fun e => if e.1 = a then (a, v) else e) = m := by
              conv_rhs => rw [← List.map_id m]
              apply List.map_congr_left
              intro e he
              rw [if_neg]; · rfl
              rintro rfl
              exact hm (get?_isSome.mpr (List.mem_map.mpr ⟨_, he, rfl⟩))
            rw [this]
      · rw [if_neg ha] at h
        rw [if_neg ha]
        simp only [get?]
        by_cases hk : a = k'
        · subst hk; simp [Ne.symm ha]
        · rw [if_neg hk, if_neg hk]; exact ih h
  · rw [if_neg h, get?_append]
    simp only [get?]
    split_ifs with hk
    · subst hk; cases hg : get? m k <;> simp_all
    · simp

theorem assign_keys {m : List (κ × α)} (hm : (keys m).Nodup) (k : κ) (v : α) :
    (keys (assign m k v)).Nodup := by
  unfold assign
  split_ifs with h
  · have : keys (m.map fun e => if e.1 = k then (k, v) else e) = keys m := by
      unfold keys
      rw [List.map_map]
      apply List.map_congr_left
      intro e _
      simp only [Function.comp]
      split_ifs with he
      · exact he.symm
      · rfl
    rw [this]; exact hm
  · have := emplace_keys hm k v
    unfold emplace at this
    rwa [if_neg h] at this

theorem assign_new {m : List (κ × α)} {k : κ} (h : k ∉ keys m) (v : α) : assign m k v = m ++ [(k, v)] := by
  unfold assign
  rw [if_neg]
  rwa [get?_isSome]

theorem erase_keys (m : List (κ × α)) (k : κ) : (keys (erase m k)).Sublist (keys m) :=
  (List.filter_sublist).map _

theorem get?_filter_key (m : List (κ × α)) (q : κ → Bool) (k : κ) :
    get? (m.filter fun e => q e.1) k = if q k then get? m k else none := by
  induction m with
  | nil => simp [get?]
  | cons e m ih =>
    obtain ⟨a, b⟩ := e
    simp only [List.filter_cons]
    by_cases hq : q a
    · simp only [hq, if_true, get?]
      by_cases hk : a = k
      · subst hk; simp [hq]
      · simp [hk, ih]
    · rw [if_neg hq, ih]
      by_cases hk : a = k
      · subst hk; simp [hq]
      · simp [hk, get?]

theorem erase_get? (m : List (κ × α)) (k k' : κ) :
    get? (erase m k) k' = if k = k' then none else get? m k' := by
  unfold erase
  rw [get?_filter_key m (fun a => !decide (a = k)) k']
  by_cases h : k = k'
  · simp [h]
  · simp [h, Ne.symm h]

theorem eraseAll (l : List κ) : ∀ m : List (κ × α),
    l.foldl erase m = m.filter fun e => !decide (e.1 ∈ l) := by
  induction l with
  | nil => intro m; simp
  | cons k l ih =>
    intro m
    rw [List.foldl_cons, ih]
    unfold erase
    rw [List.filter_filter]
    apply List.filter_congr
    intro e _
    by_cases h1 : e.1 = k <;> by_cases h2 : e.1 ∈ l <;> simp [h1, h2]

end Map

theorem countP_of_map_eq {α β : Type} {l : List α} {l' : List β} {q : α → Bool} {q' : β → Bool}
    (h : l.map q = l'.map q') : l.countP q = l'.countP q' := by
  have e1 : l.countP q = (l.map q).countP id := by rw [List.countP_map]; rfl
  have e2 : l'.countP q' = (l'.map q').countP id := by rw [List.countP_map]; rfl
  rw [e1, e2, h]

section Build
variable {ι : Type} [DecidableEq ι]

/-- Position lookup in a list of (id, position) pairs. -/
theorem get?_zipIdx {f : Nat → Option ι} {p : ι} : ∀ (l : List Nat) (ids : List ι) (k : Nat),
    l.map f = ids.map some → ∀ pos, get? (ids.zipIdx k) p = some pos →
        k ≤ pos ∧ ∃ i, l[pos - k]? = some i ∧ l.find? (fun i => decide (f i = some p)) = some i := by
  intro l
  induction l with
  | nil =>
    intro ids k h pos hg
    have : ids = [] := by simpa using h.symm
    subst this
    simp [get?] at hg
  | cons a l ih =>
    intro ids k hm pos h
    cases ids with
    | nil => simp at hm
    | cons b ids =>
      simp only [List.map_cons, List.cons.injEq] at hm
      simp only [List.zipIdx_cons, get?] at h
      split_ifs at h with hp
      · obtain rfl := Option.some.inj h
        refine ⟨le_refl _, a, by simp, ?_⟩
        rw [List.find?_cons_of_pos]
        rw [hm.1, hp]; simp
      · obtain ⟨h1, i, h2, h3⟩ := ih ids (k + 1) hm.2 pos h
        refine ⟨by omega, i, ?_, ?_⟩
        · rw [show pos - k = (pos - (k + 1)) + 1 by omega]; simpa using h2
        · rw [List.find?_cons_of_neg]
          · exact h3
          · rw [hm.1]; simp [hp]

theorem exists_ids {l : List Nat} {f : Nat → Option ι} (h : ∀ i ∈ l, (f i).isSome) :
    ∃ ids : List ι, l.map f = ids.map some := by
  induction l with
  | nil => exact ⟨[], rfl⟩
  | cons a l ih =>
    obtain ⟨ids, hi⟩ := ih fun i hi => h i (by simp [hi])
    obtain ⟨b, hb⟩ := Option.isSome_iff_exists.mp (h a (by simp))
    exact ⟨b :: ids, by simp [hi, hb]⟩

theorem filterMap_of_map {l : List Nat} {f : Nat → Option ι} {ids : List ι} (h : l.map f = ids.map some) :
    l.filterMap f = ids := by
  have : l.filterMap f = (l.map f).filterMap id := by rw [List.filterMap_map]; rfl
  rw [this, h, List.filterMap_map]
  simp

theorem keys_zipIdx (ids : List ι) (k : Nat) : keys (ids.zipIdx k) = ids := List.zipIdx_map_fst ..

theorem buildPd_fold (x : Input ι) : ∀ (l : List Nat) (ids : List ι) (k : Nat) (m : List (ι × Nat)),
    l.map (fun i => (x.preds[i]?).map Pred.id) = ids.map some →
    (l.zipIdx k).foldlM (buildPdStep x) m =
      some ((ids.zipIdx k).foldl (fun m e => emplace m e.1 e.2) m) := by
  intro l
  induction l with
  | nil => intro ids k m h; have : ids = [] := by simpa using h.symm
           subst this; rfl
  | cons a l ih =>
    intro ids k m h
    cases ids with
    | nil => simp at h
    | cons b ids =>
      simp only [List.map_cons, List.cons.injEq, Option.map_eq_some_iff] at h
      obtain ⟨⟨o, ho, rfl⟩, h2⟩ := h
      rw [List.zipIdx_cons, List.zipIdx_cons, List.foldlM_cons, List.foldl_cons]
      simp only [buildPdStep, ho, Option.bind_eq_bind, Option.bind_some]
      exact ih ids (k + 1) _ h2

theorem buildGt_fold (x : Input ι) : ∀ (l : List Nat) (ids : List ι) (k : Nat) (m : List (ι × Nat)),
    l.map (fun i => (x.gts[i]?).map Gt.id) = ids.map some → (keys m ++ ids).Nodup →
    (l.zipIdx k).foldlM (buildGtStep x) m = some (m ++ ids.zipIdx k) := by
  intro l
  induction l with
  | nil => intro ids k m h _; have : ids = [] := by simpa using h.symm
           subst this; simp
  | cons a l ih =>
    intro ids k m h hn
    cases ids with
    | nil => simp at h
    | cons b ids =>
      simp only [List.map_cons, List.cons.injEq, Option.map_eq_some_iff] at h
      obtain ⟨⟨o, ho, rfl⟩, h2⟩ := h
      rw [List.zipIdx_cons, List.zipIdx_cons, List.foldlM_cons]
      have hk : ¬ (get? m o.id).isSome = true := by
        rw [get?_isSome]
        intro hk
        rw [List.nodup_append] at hn
        exact hn.2.2 _ hk o.id (by simp) rfl
      simp only [buildGtStep, ho, if_neg hk, Option.bind_eq_bind, Option.bind_some]
      rw [ih ids (k + 1) _ h2]
      · simp
      · simpa [keys] using hn

end Build

section Init
variable {ι : Type} [DecidableEq ι]

/-- What the loop of `InitializeNewMapping` does to all pairs, given what `CanMatch` and `IoU` answer. -/
theorem init_fold (x : Input ι) (can : ι × ι → Bool) (I : ι × ι → ℚ) : ∀ (L : List (ι × ι)) (s : InitState ι),
    (keys L).Nodup → (L.map Prod.snd).Nodup → (∀ e ∈ L, e.1 ∉ keys s.new) →
    (∀ e ∈ L, ∀ pi gi, get? s.pd e.2 = some pi → get? s.gt e.1 = some gi →
      ∃ p g, x.predSubset[pi]? = some p ∧ x.gtSubset[gi]? = some g ∧ x.canMatch p g = some (can e) ∧
        (can e = true → x.iou p g = some (I e))) →
    let K := L.filter fun e => (get? s.pd e.2).isSome && (get? s.gt e.1).isSome && can e
    L.foldlM (initStep x) s = some ⟨s.pd.filter fun e => !decide (e.1 ∈ K.map Prod.snd),
      s.gt.filter fun e => !decide (e.1 ∈ K.map Prod.fst), s.new ++ K,
      s.cost + (K.map fun e => 1 - I e).sum⟩ := by
  intro L
  induction L with
  | nil => intro s _ _ _ _; simp
  | cons e L ih =>
    intro s hn1 hn2 hnew hval
    simp only [keys, List.map_cons, List.nodup_cons] at hn1 hn2
    rw [List.foldlM_cons]
    have skip : ((get? s.pd e.2).isSome && (get? s.gt e.1).isSome && can e) = false →
        initStep x s e = some s := by
      intro h
      unfold initStep
      cases hp : get? s.pd e.2 with
      | none => rfl
      | some pi =>
        cases hg : get? s.gt e.1 with
        | none => rfl
        | some gi =>
          obtain ⟨p, g, h1, h2, h3, -⟩ := hval e (by simp) pi gi hp hg
          rw [hp, hg] at h
          simp only [Option.isSome_some, Bool.true_and] at h
          simp [h1, h2, h3, h]
    cases hb : ((get? s.pd e.2).isSome && (get? s.gt e.1).isSome && can e) with
    | false =>
      rw [skip hb]
      have := ih s hn1.2 hn2.2 (fun e' he' => hnew e' (by simp [he']))
        (fun e' he' => hval e' (by simp [he']))
      simp only [Option.bind_eq_bind, Option.bind_some, List.filter_cons, hb]
      exact this
    | true =>
      simp only [Bool.and_eq_true] at hb
      obtain ⟨⟨hb1, hb2⟩, hb3⟩ := hb
      obtain ⟨pi, hp⟩ := Option.isSome_iff_exists.mp hb1
      obtain ⟨gi, hg⟩ := Option.isSome_iff_exists.mp hb2
      obtain ⟨p, g, h1, h2, h3, h4⟩ := hval e (by simp) pi gi hp hg
      have hst : initStep x s e = some ⟨erase s.pd e.2, erase s.gt e.1, s.new ++ [e], s.cost + 1 - I e⟩ := by
        unfold initStep
        simp only [hp, hg, h1, h2, h3, hb3, h4 hb3]
        have : emplace s.new e.1 e.2 = s.new ++ [e] := by
          unfold emplace
          rw [if_neg]
          rw [get?_isSome]
          exact hnew e (by simp)
        rw [this]
      have ne1 : ∀ e' ∈ L, e.1 ≠ e'.1 := by
        intro e' he' h; exact hn1.1 (List.mem_map.mpr ⟨e', he', h.symm⟩)
      have ne2 : ∀ e' ∈ L, e.2 ≠ e'.2 := by
        intro e' he' h; exact hn2.1 (List.mem_map.mpr ⟨e', he', h.symm⟩)
      have := ih ⟨erase s.pd e.2, erase s.gt e.1, s.new ++ [e], s.cost + 1 - I e⟩ hn1.2 hn2.2
        (fun e' he' => by
          simp only [keys, List.map_append, List.mem_append, not_or]
          refine ⟨hnew e' (by simp [he']), ?_⟩
          simpa using Ne.symm (ne1 e' he'))
        (fun e' he' pi gi hp hg => by
          simp only [erase_get?] at hp hg
          rw [if_neg (ne2 e' he')] at hp
          rw [if_neg (ne1 e' he')] at hg
          exact hval e' (by simp [he']) pi gi hp hg)
      simp only at this
      have hK : L.filter (fun e' => (get? (erase s.pd e.2) e'.2).isSome &&
            (get? (erase s.gt e.1) e'.1).isSome && can e') =
          L.filter (fun e' => (get? s.pd e'.2).isSome && (get? s.gt e'.1).isSome && can e') := by
        apply List.filter_congr
        intro e' he'
        rw [erase_get?, erase_get?, if_neg (ne2 e' he'), if_neg (ne1 e' he')]
      rw [hK] at this
      rw [hst]
      simp only [Option.bind_eq_bind, Option.bind_some]
      rw [this]
      simp only [List.filter_cons, hb1, hb2, hb3, Bool.and_self, if_true, erase, List.filter_filter,
        List.map_cons, List.sum_cons, List.append_assoc, List.singleton_append, Option.some.injEq,
        InitState.mk.injEq, true_and]
      refine ⟨?_, ?_, by ring⟩
      · apply List.filter_congr
        intro a _
        by_cases ha : a.1 = e.2 <;> simp [ha]
      · apply List.filter_congr
        intro a _
        by_cases ha : a.1 = e.1 <;> simp [ha]

end Init

section Rest
variable {ι : Type} [DecidableEq ι]

/-- The pair of ids recorded for an entry (`pd_matches[i]`, `i`). -/
def pairOf (P : List (Pred ι)) (G : List (Gt ι)) (e : Option Nat × Nat) : Option (ι × ι) :=
  match e.1 with
  | none => none
  | some j =>
    match G[j]?, P[e.2]? with
    | some g, some p => some (g.id, p.id)
    | _, _ => none

/-- The prediction at position `i` overlaps a no-label zone. -/
def nlzAt (P : List (Pred ι)) (i : Nat) : Bool :=
  match P[i]? with
  | none => false
  | some p => p.nlz

/-- The ground truth at position `i` is at most of the given level. -/
def levelAt (G : List (Gt ι)) (level : Nat) (i : Nat) : Bool :=
  match G[i]? with
  | none => false
  | some g => decide (g.level ≤ level)

theorem matchPd_fold (x : Input ι) {ps gs : List Nat} {P : List (Pred ι)} {G : List (Gt ι)}
    (hP : ps.map (fun i => x.preds[i]?) = P.map some) (hG : gs.map (fun i => x.gts[i]?) = G.map some)
    (I : ι × ι → ℚ)
    (hI : ∀ (i j : Nat) (p : Pred ι) (g : Gt ι), P[i]? = some p → G[j]? = some g → ∀ pi gi, ps[i]? = some pi → gs[j]? = some gi →
      x.iou pi gi = some (I (g.id, p.id))) :
    ∀ (l : List (Option Nat × Nat)) (r : MatchResult ι),
      (∀ e ∈ l, e.2 < P.length ∧ ∀ j, e.1 = some j → j < G.length) →
      (keys (r.pairs ++ l.filterMap (pairOf P G))).Nodup →
      l.foldlM (matchPdStep x ps gs) r = some ⟨r.fps + (l.countP fun e => e.1.isNone && !nlzAt P e.2 : Nat),
        r.fns, r.above, r.pairs ++ l.filterMap (pairOf P G),
        r.cost + ((l.filterMap (pairOf P G)).map fun e => 1 - I e).sum⟩ := by
  have getP : ∀ i : Nat, i < P.length → ∃ pi p, ps[i]? = some pi ∧ x.preds[pi]? = some p ∧ P[i]? = some p := by
    intro i hi
    have hl : ps.length = P.length := by simpa using congrArg List.length hP
    have h1 := congrArg (fun l => l[i]?) hP
    simp only [List.getElem?_map, List.getElem?_eq_getElem hi, List.getElem?_eq_getElem (hl ▸ hi : i < ps.length),
      Option.map_some, Option.some.injEq] at h1
    exact ⟨ps[i]'(hl ▸ hi), P[i], List.getElem?_eq_getElem _, h1, List.getElem?_eq_getElem hi⟩
  have getG : ∀ i : Nat, i < G.length → ∃ pi p, gs[i]? = some pi ∧ x.gts[pi]? = some p ∧ G[i]? = some p := by
    intro i hi
    have hl : gs.length = G.length := by simpa using congrArg List.length hG
    have h1 := congrArg (fun l => l[i]?) hG
    simp only [List.getElem?_map, List.getElem?_eq_getElem hi, List.getElem?_eq_getElem (hl ▸ hi : i < gs.length),
      Option.map_some, Option.some.injEq] at h1
    exact ⟨gs[i]'(hl ▸ hi), G[i], List.getElem?_eq_getElem _, h1, List.getElem?_eq_getElem hi⟩
  intro l
  induction l with
  | nil => intro r _ _; simp
  | cons e l ih =>
    intro r hb hn
    obtain ⟨m, i⟩ := e
    obtain ⟨hi, hj⟩ := hb (m, i) (by simp)
    obtain ⟨pi, p, h1, h2, h3⟩ := getP i hi
    rw [List.foldlM_cons]
    cases m with
    | none =>
      have hf : (((none : Option Nat), i) :: l).filterMap (pairOf P G) = l.filterMap (pairOf P G) := by
        simp [List.filterMap_cons, pairOf]
      rw [hf] at hn ⊢
      cases hnl : p.nlz with
      | true =>
        have : matchPdStep x ps gs r (none, i) = some r := by simp [matchPdStep, h1, h2, hnl]
        rw [this]
        simp only [Option.bind_eq_bind, Option.bind_some]
        rw [ih r (fun e he => hb e (by simp [he])) hn]
        simp [List.countP_cons, nlzAt, h3, hnl]
      | false =>
        have : matchPdStep x ps gs r (none, i) = some { r with fps := r.fps + 1 } := by
          simp [matchPdStep, h1, h2, hnl]
        rw [this]
        simp only [Option.bind_eq_bind, Option.bind_some]
        rw [ih { r with fps := r.fps + 1 } (fun e he => hb e (by simp [he])) hn]
        simp [List.countP_cons, nlzAt, h3, hnl]
        ring
    | some j =>
      obtain ⟨gi, g, h4, h5, h6⟩ := getG j (hj j rfl)
      have hf : ((some j, i) :: l).filterMap (pairOf P G) = (g.id, p.id) :: l.filterMap (pairOf P G) := by
        simp [List.filterMap_cons, pairOf, h3, h6]
      rw [hf] at hn ⊢
      have hv := hI i j p g h3 h6 pi gi h1 h4
      have hnew : g.id ∉ keys r.pairs := by
        intro hk
        simp only [keys, List.map_append, List.map_cons, List.nodup_append] at hn
        exact hn.2.2 _ hk g.id (by simp) rfl
      have : matchPdStep x ps gs r (some j, i) =
          some ⟨r.fps, r.fns, r.above, r.pairs ++ [(g.id, p.id)], r.cost + 1 - I (g.id, p.id)⟩ := by
        simp [matchPdStep, h1, h2, h4, h5, hv, assign_new hnew]
      rw [this]
      simp only [Option.bind_eq_bind, Option.bind_some]
      rw [ih _ (fun e he => hb e (by simp [he])) (by simpa using hn)]
      simp [List.countP_cons]
      ring

theorem matchGt_fold (x : Input ι) {gs : List Nat} {G : List (Gt ι)} (level : Nat)
    (hG : gs.map (fun i => x.gts[i]?) = G.map some) :
    ∀ (l : List (Option Nat × Nat)) (r : MatchResult ι), (∀ e ∈ l, e.2 < G.length) →
      l.foldlM (matchGtStep x gs level) r = some ⟨r.fps,
        r.fns + (l.countP fun e => e.1.isNone && levelAt G level e.2 : Nat),
        r.above + (l.countP fun e => e.1.isNone && !levelAt G level e.2 : Nat), r.pairs, r.cost⟩ := by
  have getG : ∀ i : Nat, i < G.length → ∃ pi p, gs[i]? = some pi ∧ x.gts[pi]? = some p ∧ G[i]? = some p := by
    intro i hi
    have hl : gs.length = G.length := by simpa using congrArg List.length hG
    have h1 := congrArg (fun l => l[i]?) hG
    simp only [List.getElem?_map, List.getElem?_eq_getElem hi, List.getElem?_eq_getElem (hl ▸ hi : i < gs.length),
      Option.map_some, Option.some.injEq] at h1
    exact ⟨gs[i]'(hl ▸ hi), G[i], List.getElem?_eq_getElem _, h1, List.getElem?_eq_getElem hi⟩
  intro l
  induction l with
  | nil => intro r _; simp
  | cons e l ih =>
    intro r hb
    obtain ⟨m, i⟩ := e
    have hi := hb (m, i) (by simp)
    obtain ⟨gi, g, h1, h2, h3⟩ := getG i hi
    rw [List.foldlM_cons]
    cases m with
    | some j =>
      simp only [matchGtStep, Option.bind_eq_bind, Option.bind_some]
      rw [ih r (fun e he => hb e (by simp [he]))]
      simp
    | none =>
      by_cases hl : g.level ≤ level
      · have : matchGtStep x gs level r (none, i) = some { r with fns := r.fns + 1 } := by
          simp [matchGtStep, h1, h2, hl]
        rw [this]
        simp only [Option.bind_eq_bind, Option.bind_some]
        rw [ih _ (fun e he => hb e (by simp [he]))]
        simp [levelAt, h3, hl]
        ring
      · have : matchGtStep x gs level r (none, i) = some { r with above := r.above + 1 } := by
          simp [matchGtStep, h1, h2, hl]
        rw [this]
        simp only [Option.bind_eq_bind, Option.bind_some]
        rw [ih _ (fun e he => hb e (by simp [he]))]
        simp [levelAt, h3, hl]
        ring

end Rest

section Update
variable {ι : Type} [DecidableEq ι]

theorem mismatch_fold (s : State ι) (new : List (ι × ι)) (gt : List (ι × Nat)) (L : List (ι × ι)) (n : ℤ) :
    L.foldl (mismatchStep s new gt) n = n +
      (L.countP fun e => match get? s.gtPd e.1 with
        | none => false
        | some q => decide (q ≠ e.2) : Nat) +
      (L.countP fun e => match get? s.pdGt e.2 with
        | none => false
        | some g => decide ((get? gt g).isNone ∧ (get? new g).isNone) : Nat) := by
  induction L generalizing n with
  | nil => simp
  | cons e L ih =>
    rw [List.foldl_cons, ih, List.countP_cons, List.countP_cons]
    unfold mismatchStep
    cases h1 : get? s.gtPd e.1 <;> cases h2 : get? s.pdGt e.2
    · simp
    · simp only [decide_eq_true_eq, Bool.false_eq_true, if_false]
      split_ifs <;> push_cast <;> omega
    · simp only [decide_eq_true_eq, Bool.false_eq_true, if_false]
      split_ifs <;> push_cast <;> omega
    · simp only [decide_eq_true_eq, Bool.false_eq_true, if_false]
      split_ifs <;> push_cast <;> omega

theorem update_fold (pdGt new : List (ι × ι)) (L : List (ι × ι)) (m : List (ι × ι)) (ev : List ι) :
    L.foldl (updateStep pdGt new) (m, ev) =
      (L.foldl (fun m e => assign m e.1 e.2) m,
        ev ++ L.filterMap fun e => match get? pdGt e.2 with
          | none => none
          | some g => if (get? new g).isNone then some g else none) := by
  induction L generalizing m ev with
  | nil => simp
  | cons e L ih =>
    rw [List.foldl_cons]
    have : updateStep pdGt new (m, ev) e = (assign m e.1 e.2, ev ++ (match get? pdGt e.2 with
        | none => none
        | some g => if (get? new g).isNone then some g else none).toList) := by
      unfold updateStep
      cases get? pdGt e.2 with
      | none => simp
      | some g => dsimp only; split_ifs <;> simp
    rw [this, ih]
    simp only [List.foldl_cons, List.filterMap_cons]
    cases get? pdGt e.2 with
    | none => simp
    | some g => dsimp only; split_ifs <;> simp

theorem assignAll_get? (L : List (ι × ι)) : ∀ (m : List (ι × ι)) (k : ι), (keys L).Nodup →
    get? (L.foldl (fun m e => assign m e.1 e.2) m) k = (get? L k).or (get? m k) := by
  induction L with
  | nil => intro m k _; simp [get?]
  | cons e L ih =>
    intro m k hn
    simp only [keys, List.map_cons, List.nodup_cons] at hn
    rw [List.foldl_cons, ih _ _ hn.2, assign_get?]
    obtain ⟨a, b⟩ := e
    simp only [get?]
    split_ifs with h
    · subst h
      have : get? L a = none := get?_eq_none.mpr hn.1
      simp [this]
    · rfl

theorem assignAll_keys (L : List (ι × ι)) : ∀ (m : List (ι × ι)), (keys m).Nodup →
    (keys (L.foldl (fun m e => assign m e.1 e.2) m)).Nodup := by
  induction L with
  | nil => intro m h; exact h
  | cons e L ih => intro m h; exact ih _ (assign_keys h _ _)

theorem invert_fold : ∀ (L m : List (ι × ι)), (keys m ++ L.map Prod.snd).Nodup →
    L.foldlM invertStep m = some (m ++ L.map Prod.swap) := by
  intro L
  induction L with
  | nil => intro m _; simp
  | cons e L ih =>
    intro m hn
    have hk : ¬ (get? m e.2).isSome = true := by
      rw [get?_isSome]
      intro h
      rw [List.nodup_append] at hn
      exact hn.2.2 _ h e.2 (by simp) rfl
    rw [List.foldlM_cons]
    simp only [invertStep, if_neg hk, Option.bind_eq_bind, Option.bind_some]
    rw [ih]
    · simp [Prod.swap]
    · simpa [keys] using hn

end Update

end Verif.Mot
