import Verif.Model.Pose
import Verif.Props.Hungarian

/-!
Property C33: reordering objects accounts for every visible object exactly once.
-/

namespace Verif.Pose

/-! ### Specification -/

/-- An association between ground truth and predictions: positions in range, none twice. -/
structure Association (gt pr : List Obj) (ids : List (ℕ × ℕ)) : Prop where
  gtNodup : (ids.map Prod.fst).Nodup
  prNodup : (ids.map Prod.snd).Nodup
  range : ∀ m ∈ ids, m.1 < gt.length ∧ m.2 < pr.length

/-- The prediction a ground truth is compared with. -/
noncomputable def partner (zero : Obj) (ids : List (ℕ × ℕ)) (pr : List Obj) (i : ℕ) : Obj :=
  match ids.find? fun m => m.1 == i with
  | some m => pr.getD m.2 zero
  | none => zero

/-- Every ground truth with visible key points against its partner, and every unmatched prediction with visible key points
against zeros. -/
noncomputable def expected (zero : Obj) (ids : List (ℕ × ℕ)) (gt pr : List Obj) : List (Obj × Obj) :=
  ((List.range gt.length).filter fun i => hasVisible (gt.getD i zero)).map (fun i => (gt.getD i zero, partner zero ids pr i)) ++
  ((List.range pr.length).filter fun j => hasVisible (pr.getD j zero) && decide (j ∉ ids.map Prod.snd)).map
    fun j => (zero, pr.getD j zero)

/-! ### Lemmas -/

theorem missingIds_spec {ids : List ℕ} {count : ℕ} (h : ∀ i ∈ ids, i < count) :
    missingIds ids count = some ((List.range count).filter fun i => decide (i ∉ ids)) := by
  unfold missingIds
  rw [if_pos (by simpa using h)]
  have key : ∀ l : List ℕ, ((l.zip (l.map fun i => ids.any fun x => x == i)).filterMap
      fun x => if x.2 then none else some x.1) = l.filter fun i => decide (i ∉ ids) := by
    intro l
    induction l with
    | nil => rfl
    | cons i rest ih =>
      rw [List.map_cons, List.zip_cons_cons, List.filterMap_cons, List.filter_cons, ih]
      by_cases hi : i ∈ ids
      · have : (ids.any fun x => x == i) = true := by simpa using hi
        simp [this, hi]
      · have : (ids.any fun x => x == i) = false := by
          simp only [List.any_eq_false, beq_iff_eq]
          rintro x hx rfl
          exact hi hx
        simp [this, hi]
  exact congrArg some (key _)

theorem missingIds_out {ids : List ℕ} {count : ℕ} (h : ¬ ∀ i ∈ ids, i < count) : missingIds ids count = none := by
  unfold missingIds
  rw [if_neg (by simpa using h)]

theorem indicesOfFalse_mem {l : List Bool} {i : ℕ} : i ∈ indicesOfFalse l ↔ l[i]? = some false := by
  unfold indicesOfFalse
  rw [List.mem_filterMap]
  constructor
  · rintro ⟨⟨b, k⟩, hx, hy⟩
    rw [List.mem_zipIdx_iff_getElem?] at hx
    cases b <;> simp at hy
    subst hy
    exact hx
  · intro h
    exact ⟨(false, i), by rw [List.mem_zipIdx_iff_getElem?]; exact h, rfl⟩

theorem selectIds_spec {ids : List (ℕ × ℕ)} {mask : List Bool} (h : ∀ m ∈ ids, m.1 < mask.length) :
    selectIds ids mask = some (ids.filter fun m => mask.getD m.1 false) := by
  unfold selectIds
  have h1 : ids.mapM (fun m => mask[m.1]?) = some (ids.map fun m => mask.getD m.1 false) := by
    induction ids with
    | nil => rfl
    | cons m rest ih =>
      have hm := h m List.mem_cons_self
      rw [List.mapM_cons, ih fun x hx => h x (List.mem_cons_of_mem _ hx), List.getElem?_eq_getElem hm]
      simp [List.getD_eq_getElem?_getD, List.getElem?_eq_getElem hm]
  rw [h1]
  simp only [Option.bind_eq_bind, Option.bind_some, Option.pure_def, Option.some.injEq]
  clear h h1
  induction ids with
  | nil => rfl
  | cons m rest ih =>
    rw [List.map_cons, List.zip_cons_cons, List.filterMap_cons, List.filter_cons, ih]
    cases mask.getD m.1 false <;> rfl

theorem gather_spec {α : Type} (zero : α) (l : List α) {ids : List ℕ} (h : ∀ i ∈ ids, i < l.length) :
    ids.mapM (fun i => l[i]?) = some (ids.map fun i => l.getD i zero) := by
  induction ids with
  | nil => rfl
  | cons i rest ih =>
    have hi := h i List.mem_cons_self
    rw [List.mapM_cons, ih fun x hx => h x (List.mem_cons_of_mem _ hx), List.getElem?_eq_getElem hi]
    simp [List.getD_eq_getElem?_getD, List.getElem?_eq_getElem hi]

theorem reorder_gt {α : Type} (zero : α) (l : List α) {a b : List ℕ} (k : ℕ) (ha : ∀ i ∈ a, i < l.length)
    (hb : ∀ i ∈ b, i < l.length) : reorderList zero l [.ids a, .ids b, .pad k] =
      some (a.map (fun i => l.getD i zero) ++ b.map (fun i => l.getD i zero) ++ List.replicate k zero) := by
  unfold reorderList
  rw [List.mapM_cons, List.mapM_cons, List.mapM_cons, List.mapM_nil]
  simp only [gather_spec zero l ha, gather_spec zero l hb, Option.bind_eq_bind, Option.bind_some, Option.pure_def]
  simp

theorem reorder_pr {α : Type} (zero : α) (l : List α) {a b : List ℕ} (k : ℕ) (ha : ∀ i ∈ a, i < l.length)
    (hb : ∀ i ∈ b, i < l.length) : reorderList zero l [.ids a, .pad k, .ids b] =
      some (a.map (fun i => l.getD i zero) ++ List.replicate k zero ++ b.map (fun i => l.getD i zero)) := by
  unfold reorderList
  rw [List.mapM_cons, List.mapM_cons, List.mapM_cons, List.mapM_nil]
  simp only [gather_spec zero l ha, gather_spec zero l hb, Option.bind_eq_bind, Option.bind_some, Option.pure_def]
  simp

theorem zip_three {α : Type} (f g : ℕ × ℕ → α) (h k : ℕ → α) (a : List (ℕ × ℕ)) (b c : List ℕ) (z : α) :
    (a.map f ++ b.map h ++ List.replicate c.length z).zip (a.map g ++ List.replicate b.length z ++ c.map k) =
      a.map (fun m => (f m, g m)) ++ b.map (fun i => (h i, z)) ++ c.map fun j => (z, k j) := by
  have hb : List.replicate b.length z = b.map fun _ => z := by rw [List.map_const']
  have hc : List.replicate c.length z = c.map fun _ => z := by rw [List.map_const']
  rw [List.zip_append (by simp), List.zip_append (by simp), hb, hc, List.zip_map', List.zip_map', List.zip_map']

theorem find_of_nodup {ids : List (ℕ × ℕ)} (h : (ids.map Prod.fst).Nodup) {m : ℕ × ℕ} (hm : m ∈ ids) :
    ids.find? (fun x => x.1 == m.1) = some m := by
  induction ids with
  | nil => simp at hm
  | cons x rest ih =>
    rw [List.map_cons, List.nodup_cons] at h
    rcases List.mem_cons.mp hm with rfl | hm'
    · simp
    · have hne : x.1 ≠ m.1 := by
        intro e
        exact h.1 (e ▸ List.mem_map_of_mem hm')
      rw [List.find?_cons_of_neg (by simpa using hne)]
      exact ih h.2 hm'

theorem find_none {ids : List (ℕ × ℕ)} {i : ℕ} (h : i ∉ ids.map Prod.fst) : ids.find? (fun x => x.1 == i) = none := by
  rw [List.find?_eq_none]
  intro x hx e
  exact h (List.mem_map.mpr ⟨x, hx, by simpa using e⟩)

theorem hv_getD (l : List Obj) (zero : Obj) {i : ℕ} (h : i < l.length) :
    (l.map hasVisible)[i]? = some (hasVisible (l.getD i zero)) := by
  rw [List.getElem?_map, List.getElem?_eq_getElem h, List.getD_eq_getElem?_getD, List.getElem?_eq_getElem h]
  rfl

/-- C33: for every association, `reorder` succeeds, returns two lists of the same length, and pairs, up to order, every
ground truth with visible key points with its prediction (or zeros), and every unmatched prediction with visible key points
with zeros. -/
theorem reorder_spec (n : ℕ) {gt pr : List Obj} {ids : List (ℕ × ℕ)} (h : Association gt pr ids) :
    ∃ g p, reorder n ids gt pr = some (g, p) ∧ g.length = p.length ∧
      (g.zip p).Perm (expected (zeroObj n) ids gt pr) := by
  have hgt : ∀ m ∈ ids, m.1 < (gt.map hasVisible).length := fun m hm => by simpa using (h.range m hm).1
  have hsel := selectIds_spec hgt
  set vis := ids.filter fun m => (gt.map hasVisible).getD m.1 false with hvis
  have hvisiff : ∀ m, m ∈ vis ↔ m ∈ ids ∧ hasVisible (gt.getD m.1 (zeroObj n)) = true := by
    intro m
    rw [hvis, List.mem_filter]
    refine and_congr_right fun hm => ?_
    rw [List.getD_eq_getElem?_getD, hv_getD gt (zeroObj n) (h.range m hm).1]
    rfl
  have hf : ∀ (l : List Obj) {i : ℕ}, i ∈ indicesOfFalse (l.map hasVisible) ↔
      i < l.length ∧ hasVisible (l.getD i (zeroObj n)) = false := by
    intro l i
    rw [indicesOfFalse_mem]
    constructor
    · intro hi
      have hlt : i < l.length := by
        by_contra hn
        rw [List.getElem?_eq_none (by simpa using hn)] at hi
        simp at hi
      rw [hv_getD l (zeroObj n) hlt] at hi
      exact ⟨hlt, Option.some.inj hi⟩
    · rintro ⟨hlt, hi⟩
      rw [hv_getD l (zeroObj n) hlt, hi]
  have hg1 : ∀ i ∈ ids.map Prod.fst ++ indicesOfFalse (gt.map hasVisible), i < gt.length := by
    intro i hi
    rcases List.mem_append.mp hi with hi | hi
    · obtain ⟨m, hm, rfl⟩ := List.mem_map.mp hi
      exact (h.range m hm).1
    · exact ((hf gt).mp hi).1
  have hp1 : ∀ i ∈ ids.map Prod.snd ++ indicesOfFalse (pr.map hasVisible), i < pr.length := by
    intro i hi
    rcases List.mem_append.mp hi with hi | hi
    · obtain ⟨m, hm, rfl⟩ := List.mem_map.mp hi
      exact (h.range m hm).2
    · exact ((hf pr).mp hi).1
  have hfn := missingIds_spec hg1
  have hfp := missingIds_spec hp1
  set fn := (List.range gt.length).filter fun i => decide (i ∉ ids.map Prod.fst ++ indicesOfFalse (gt.map hasVisible))
    with hfnd
  set fp := (List.range pr.length).filter fun i => decide (i ∉ ids.map Prod.snd ++ indicesOfFalse (pr.map hasVisible))
    with hfpd
  have hfnm : ∀ i, i ∈ fn ↔ i < gt.length ∧ i ∉ ids.map Prod.fst ∧ hasVisible (gt.getD i (zeroObj n)) = true := by
    intro i
    rw [hfnd, List.mem_filter, List.mem_range, decide_eq_true_eq, List.mem_append, not_or, hf gt]
    constructor
    · rintro ⟨h1, h2, h3⟩
      refine ⟨h1, h2, ?_⟩
      by_contra hv
      exact h3 ⟨h1, by simpa using hv⟩
    · rintro ⟨h1, h2, h3⟩
      exact ⟨h1, h2, fun hc => by rw [h3] at hc; simp at hc⟩
  have hfpe : fp = (List.range pr.length).filter fun j => hasVisible (pr.getD j (zeroObj n)) && decide (j ∉ ids.map Prod.snd) := by
    rw [hfpd]
    refine List.filter_congr fun i hi => ?_
    rw [List.mem_range] at hi
    rw [Bool.eq_iff_iff, decide_eq_true_eq, List.mem_append, not_or, hf pr, Bool.and_eq_true, decide_eq_true_eq]
    constructor
    · rintro ⟨h2, h3⟩
      refine ⟨?_, h2⟩
      by_contra hv
      exact h3 ⟨hi, by simpa using hv⟩
    · rintro ⟨h3, h2⟩
      exact ⟨h2, fun hc => by rw [h3] at hc; simp at hc⟩
  have e1 := reorder_gt (zeroObj n) gt (a := vis.map Prod.fst) (b := fn) fp.length
    (fun i hi => by
      obtain ⟨m, hm, rfl⟩ := List.mem_map.mp hi
      exact (h.range m ((hvisiff m).mp hm).1).1)
    (fun i hi => ((hfnm i).mp hi).1)
  have e2 := reorder_pr (zeroObj n) pr (a := vis.map Prod.snd) (b := fp) fn.length
    (fun i hi => by
      obtain ⟨m, hm, rfl⟩ := List.mem_map.mp hi
      exact (h.range m ((hvisiff m).mp hm).1).2)
    (fun i hi => by rw [hfpe, List.mem_filter, List.mem_range] at hi; exact hi.1)
  refine ⟨(vis.map Prod.fst).map (fun i => gt.getD i (zeroObj n)) ++ fn.map (fun i => gt.getD i (zeroObj n)) ++
      List.replicate fp.length (zeroObj n), (vis.map Prod.snd).map (fun i => pr.getD i (zeroObj n)) ++ List.replicate fn.length (zeroObj n) ++
      fp.map (fun i => pr.getD i (zeroObj n)), ?_, ?_, ?_⟩
  · unfold reorder
    simp only [hsel, hfn, hfp, Option.bind_eq_bind, Option.bind_some, e1, e2, Option.pure_def]
  · simp only [List.length_append, List.length_map, List.length_replicate]
  · rw [List.map_map, List.map_map, zip_three]
    unfold expected
    rw [← hfpe]
    refine List.Perm.append_right _ ?_
    have hperm : (vis.map Prod.fst ++ fn).Perm ((List.range gt.length).filter fun i => hasVisible (gt.getD i (zeroObj n))) := by
      refine (List.perm_ext_iff_of_nodup ?_ (List.nodup_range.filter _)).mpr ?_
      · refine List.Nodup.append ?_ (List.nodup_range.filter _) ?_
        · exact h.gtNodup.sublist ((List.filter_sublist).map _)
        · intro i hi hi'
          obtain ⟨m, hm, rfl⟩ := List.mem_map.mp hi
          exact ((hfnm _).mp hi').2.1 (List.mem_map_of_mem ((hvisiff m).mp hm).1)
      · intro i
        rw [List.mem_append, hfnm, List.mem_filter, List.mem_range]
        constructor
        · rintro (hi | hi)
          · obtain ⟨m, hm, rfl⟩ := List.mem_map.mp hi
            obtain ⟨hm1, hm2⟩ := (hvisiff m).mp hm
            exact ⟨(h.range m hm1).1, hm2⟩
          · exact ⟨hi.1, hi.2.2⟩
        · rintro ⟨hi, hv⟩
          by_cases hm : i ∈ ids.map Prod.fst
          · obtain ⟨m, hm', rfl⟩ := List.mem_map.mp hm
            exact Or.inl (List.mem_map_of_mem ((hvisiff m).mpr ⟨hm', hv⟩))
          · exact Or.inr ⟨hi, hm, hv⟩
    refine List.Perm.trans (List.Perm.of_eq ?_) (hperm.map fun i => (gt.getD i (zeroObj n), partner (zeroObj n) ids pr i))
    rw [List.map_append, List.map_map]
    congr 1
    · refine List.map_congr_left fun m hm => ?_
      simp only [Function.comp_apply, partner, find_of_nodup h.gtNodup ((hvisiff m).mp hm).1]
    · refine List.map_congr_left fun i hi => ?_
      simp only [partner, find_none ((hfnm i).mp hi).2.1]

/-- C33: an association with a position out of range is an error. -/
theorem reorder_out (n : ℕ) {gt pr : List Obj} {ids : List (ℕ × ℕ)} (h : ¬ ∀ m ∈ ids, m.1 < gt.length ∧ m.2 < pr.length) :
    reorder n ids gt pr = none := by
  push Not at h
  obtain ⟨m, hm, hr⟩ := h
  unfold reorder
  cases hs : selectIds ids (gt.map hasVisible) with
  | none => rfl
  | some vis =>
    simp only [Option.bind_eq_bind, Option.bind_some]
    by_cases hg : m.1 < gt.length
    · have hp : missingIds (ids.map Prod.snd ++ indicesOfFalse (pr.map hasVisible)) pr.length = none := by
        refine missingIds_out fun hall => ?_
        have := hall m.2 (List.mem_append_left _ (List.mem_map_of_mem hm))
        have := hr hg
        omega
      rw [hp]
      cases missingIds (ids.map Prod.fst ++ indicesOfFalse (gt.map hasVisible)) gt.length <;> rfl
    · have hp : missingIds (ids.map Prod.fst ++ indicesOfFalse (gt.map hasVisible)) gt.length = none := by
        refine missingIds_out fun hall => ?_
        have := hall m.1 (List.mem_append_left _ (List.mem_map_of_mem hm))
        omega
      rw [hp]
      rfl

/-- A matched pair, a missed object, an ignored invisible one, and a false prediction. -/
theorem example_reorder : ∃ (gt pr : List Obj) (ids : List (ℕ × ℕ)), Association gt pr ids ∧ ids = [(1, 0)] ∧
    (gt.map hasVisible) = [true, true, false] ∧ (pr.map hasVisible) = [true, true] ∧
    (expected (zeroObj 1) ids gt pr).length = 3 := by
  let v (x : ℝ) : Obj := ⟨[⟨![x, 0, 0], 2⟩], ⟨0, 0, 0⟩⟩
  let o : Obj := ⟨[⟨0, 1⟩], ⟨0, 0, 0⟩⟩
  exact ⟨[v 1, v 2, o], [v 3, v 4], [(1, 0)], ⟨by simp, by simp, by simp⟩, rfl, rfl, rfl, rfl⟩

end Verif.Pose
