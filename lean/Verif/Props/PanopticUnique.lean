import Verif.Props.Panoptic

/-! Exactly when global instance ids do not collide. -/

namespace Verif.Panoptic

open Verif.ListM

/-- With ids that are not negative: the offset ids are not below the first offset, which is one of them exactly when zero is an id of the
first sequence, and they are all different exactly when zero is no id of another one. -/
theorem offsets_nodup_iff : ∀ {d : List (String × List ℤ)} {c : ℤ} {off : List (String × List ℤ)}, offsets c d = some off →
    (∀ x ∈ d, x.2.Nodup) → (∀ x ∈ d, ∀ i ∈ x.2, 0 ≤ i) →
    (∀ i ∈ (off.map Prod.snd).flatten, c ≤ i) ∧ (c ∈ (off.map Prod.snd).flatten ↔ ∃ x, d.head? = some x ∧ 0 ∈ x.2) ∧
    ((off.map Prod.snd).flatten.Nodup ↔ ∀ x ∈ d.tail, 0 ∉ x.2) := by
  intro d
  induction d with
  | nil =>
    intro c off h _ _
    simp only [offsets, Option.some.injEq] at h; subst h
    simp
  | cons x d ih =>
    intro c off h hn hp
    obtain ⟨s, ids⟩ := x
    simp only [offsets, Option.bind_eq_bind] at h
    cases hm : maxOf ids with
    | none => simp [hm] at h
    | some m =>
      cases hr : offsets (c + m) d with
      | none => simp [hm, hr] at h
      | some r =>
        simp only [hm, hr, Option.bind_some, Option.pure_def, Option.some.injEq] at h
        subst h
        obtain ⟨h1, h2, h3⟩ := ih hr (fun x hx => hn x (by simp [hx])) (fun x hx => hp x (by simp [hx]))
        obtain ⟨m1, m2⟩ := maxOf_spec hm
        have hp0 := hp (s, ids) (by simp)
        have hm0 := hp0 m m1
        simp only [List.map_cons, List.flatten_cons, List.tail_cons, List.head?_cons, Option.some.injEq, exists_eq_left']
        refine ⟨?_, ?_, ?_⟩
        · intro i hi
          rcases List.mem_append.1 hi with hi | hi
          · obtain ⟨j, hj, rfl⟩ := List.mem_map.1 hi
            have := hp0 j hj
            omega
          · have := h1 i hi
            omega
        · constructor
          · intro hi
            rcases List.mem_append.1 hi with hi | hi
            · obtain ⟨j, hj, e⟩ := List.mem_map.1 hi
              obtain rfl : j = 0 := by omega
              exact hj
            · have := h1 c hi
              obtain rfl : m = 0 := by omega
              exact m1
          · intro h0
            exact List.mem_append.2 (.inl (List.mem_map.2 ⟨0, h0, by omega⟩))
        · rw [List.nodup_append]
          constructor
          · rintro ⟨-, hr', hd⟩ y hy hy0
            cases d with
            | nil => simp at hy
            | cons z d =>
              rcases List.mem_cons.1 hy with rfl | hy
              · exact hd (m + c) (List.mem_map.2 ⟨m, m1, rfl⟩) (c + m) (h2.2 ⟨y, rfl, hy0⟩) (by omega)
              · exact h3.1 hr' y hy hy0
          · intro hz
            refine ⟨(hn (s, ids) (by simp)).map (fun a b e => by simpa using e), h3.2 fun y hy => hz y (List.mem_of_mem_tail hy), ?_⟩
            intro a ha b hb e
            obtain ⟨i, hi, rfl⟩ := List.mem_map.1 ha
            have e1 := h1 b hb
            have e2 := m2 i hi
            have eb : b = c + m := by omega
            rw [eb] at hb
            obtain ⟨y, hy, hy0⟩ := h2.1 hb
            exact hz y (List.mem_of_mem_head? hy) hy0

/-- The first sequence with ids is that of the first frame that is looked at. -/
theorem globalIds_head (frames : List Frame) :
    ((globalIds frames).head?.map Prod.fst) = (frames.find? fun f => f.mapping ≠ [] ∨ f.component = true).map Frame.seq := by
  unfold globalIds
  have keep : ∀ (l : List Frame) (d : List (String × List ℤ)), d ≠ [] →
      ((l.foldl (fun d f => if f.mapping = [] ∧ ¬ f.component then d else addIds d f.seq (f.mapping.map Mapping.glob)) d).head?.map
        Prod.fst) = d.head?.map Prod.fst := by
    intro l
    induction l with
    | nil => intro d _; rfl
    | cons f l ih =>
      intro d hd
      rw [List.foldl_cons]
      split
      · exact ih d hd
      · cases d with
        | nil => exact absurd rfl hd
        | cons x d =>
          obtain ⟨s, ids⟩ := x
          rw [ih _ (by unfold addIds; split <;> simp)]
          unfold addIds
          split <;> rfl
  induction frames with
  | nil => rfl
  | cons f l ih =>
    rw [List.foldl_cons, List.find?_cons]
    by_cases h : f.mapping = [] ∧ ¬ f.component
    · rw [if_pos h, ih]
      simp [h.1, h.2]
    · rw [if_neg h, keep _ _ (by simp [addIds])]
      have : decide (f.mapping ≠ [] ∨ f.component = true) = true := by
        simp only [decide_eq_true_eq]
        by_cases h1 : f.mapping = []
        · right
          by_contra h2
          exact h ⟨h1, h2⟩
        · exact .inl h1
      rw [this]
      rfl

/-- C39 exactly: with ids that are not negative, different instances get different ids exactly when an id of zero is used only in the
sequence of the first frame that is looked at, which is the first one with an instance or given as a component. -/
theorem remap_injective_iff {frames : List Frame} {sequential : Bool} {r : Remap} (h : remapGlobalIds frames sequential = some r)
    (hp : ∀ f ∈ frames, ∀ m ∈ f.mapping, 0 ≤ m.glob) :
    (∀ (k k' : String × ℤ) (v : ℤ), r.lookup k = some v → r.lookup k' = some v → k = k') ↔
      ∀ f ∈ frames, ∀ m ∈ f.mapping, m.glob = 0 →
        ∃ g, (frames.find? fun g => g.mapping ≠ [] ∨ g.component = true) = some g ∧ f.seq = g.seq := by
  have hk := remap_keys_nodup h
  have hinj : (∀ (k k' : String × ℤ) (v : ℤ), r.lookup k = some v → r.lookup k' = some v → k = k') ↔ (r.map Prod.snd).Nodup := by
    rw [List.nodup_map_iff_inj_on (List.Nodup.of_map _ hk)]
    constructor
    · rintro hi ⟨k, v⟩ hx ⟨k', v'⟩ hy e
      simp only at e
      subst e
      rw [hi k k' v (lookup_of_mem hk hx) (lookup_of_mem hk hy)]
    · intro hi k k' v h1 h2
      have := hi (k, v) (mem_of_lookup h1) (k', v) (mem_of_lookup h2) rfl
      exact congrArg Prod.fst this
  rw [hinj]
  obtain ⟨ht, hm⟩ := globalIds_spec frames
  have hp' : ∀ x ∈ globalIds frames, ∀ i ∈ x.2, 0 ≤ i := by
    intro x hx i hi
    obtain ⟨f, hf, _, m, hm, rfl⟩ := (hm x.1 i).1 ⟨x, hx, rfl, hi⟩
    exact hp f hf m hm
  have hhead := globalIds_head frames
  have htail : (∀ x ∈ (globalIds frames).tail, 0 ∉ x.2) ↔ ∀ f ∈ frames, ∀ m ∈ f.mapping, m.glob = 0 →
        ∃ g, (frames.find? fun g => g.mapping ≠ [] ∨ g.component = true) = some g ∧ f.seq = g.seq := by
    cases hd : globalIds frames with
    | nil =>
      refine ⟨fun _ f hf m hmm _ => ?_, fun _ => by simp⟩
      obtain ⟨x, hx, _⟩ := (hm f.seq m.glob).2 ⟨f, hf, rfl, m, hmm, rfl⟩
      rw [hd] at hx
      simp at hx
    | cons y d =>
      rw [hd] at hhead ht hm
      simp only [List.head?_cons, Option.map_some] at hhead
      obtain ⟨g, hg, eg⟩ := Option.map_eq_some_iff.1 hhead.symm
      simp only [List.tail_cons]
      have hnot : ∀ x ∈ d, x.1 ≠ y.1 := by
        intro x hx e
        have := ht.1
        rw [List.map_cons, List.nodup_cons] at this
        exact this.1 (e ▸ List.mem_map.2 ⟨x, hx, rfl⟩)
      constructor
      · intro hz f hf m hmm h0
        refine ⟨g, hg, ?_⟩
        obtain ⟨x, hx, ex, hi⟩ := (hm f.seq m.glob).2 ⟨f, hf, rfl, m, hmm, rfl⟩
        rcases List.mem_cons.1 hx with rfl | hx
        · rw [← ex, eg]
        · exact absurd (h0 ▸ hi) (hz x hx)
      · intro hz x hx h0
        obtain ⟨f, hf, ef, m, hmm, e0⟩ := (hm x.1 0).1 ⟨x, by simp [hx], rfl, h0⟩
        obtain ⟨g', hg', e⟩ := hz f hf m hmm e0
        rw [hg] at hg'
        obtain rfl : g = g' := by simpa using hg'
        exact hnot x hx (by rw [← ef, e, eg])
  rw [← htail]
  rcases remap_parts h with ⟨h0, rfl⟩ | ⟨off, vals, ho, rfl, hl, hf, ht'⟩
  · simp [h0]
  · rw [List.map_snd_zip (le_of_eq hl), ← (offsets_nodup_iff ho ht.2 hp').2.2]
    cases sequential with
    | false => rw [hf rfl]
    | true =>
      obtain ⟨e, _⟩ := ht' rfl
      rw [e]
      exact ⟨List.Nodup.of_map _, fun h1 => List.Nodup.map_on (fun x hx y hy e => rank_inj hx hy e) h1⟩

/-- An id of zero in the first sequence only. -/
theorem remap_injective_iff_case : ∃ r, remapGlobalIds [idsOnly "one" [0, 5], idsOnly "two" [5]] false = some r ∧
    r = [(("one", 0), 0), (("one", 5), 5), (("two", 5), 10)] := ⟨_, rfl, by decide⟩

end Verif.Panoptic
