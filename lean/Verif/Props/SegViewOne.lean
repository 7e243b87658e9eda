import Verif.Props.SegView

/-! Exactly when all the frames that are chosen are of one sequence (C185). -/

namespace Verif.SegView

theorem take_run {α : Type} (p : α → Bool) : ∀ (l : List α) (n : ℕ),
    (∀ a ∈ l.take (min ((l.takeWhile p).length + 1) n), p a = true) → ∀ a ∈ l.take n, p a = true
  | [], _, _, a, ha => by simp at ha
  | _, 0, _, a, ha => by simp at ha
  | b :: l, n + 1, h, a, ha => by
    have hb : p b = true := h b (by rw [Nat.add_min_add_right, List.take_succ_cons]; exact List.mem_cons_self ..)
    rw [List.takeWhile_cons_of_pos hb, List.length_cons, Nat.add_min_add_right, List.take_succ_cons] at h
    rw [List.take_succ_cons] at ha
    rcases List.mem_cons.1 ha with rfl | ha
    · exact hb
    · exact take_run p l n (fun a ha => h a (List.mem_cons_of_mem _ ha)) a ha

/-- **Exactly when all chosen frames are of the sequence returned** (C185): the first `k` frames with labels are of one sequence. -/
theorem load_one_iff {k : ℤ} (hk : 1 ≤ k) {frames : List Frame} (hf : ∀ f ∈ frames, f.first.isSome) {r : List Frame} {s : Option String}
    (h : load frames k = some (r, s)) :
    (∀ f ∈ r, seqOf f = s) ↔ ∀ f ∈ (frames.filter Labelled).take k.toNat, seqOf f = s := by
  rw [load_spec k frames hf] at h
  cases hL : frames.filter Labelled with
  | nil =>
    rw [hL] at h
    simp only [List.head?_nil, Option.some.injEq, Prod.mk.injEq] at h
    simp [← h.1]
  | cons f l =>
    rw [hL] at h
    simp only [List.head?_cons, Option.some.injEq, Prod.mk.injEq] at h
    obtain ⟨h1, h2⟩ := h
    rw [max_eq_left hk] at h1
    subst h1 h2
    constructor
    · intro hall g hg
      have := take_run (fun g => seqOf g == seqOf f) (f :: l) k.toNat (fun a ha => by simpa using hall a ha) g hg
      simpa using this
    · intro hall g hg
      exact hall g (List.take_subset_take_left _ (min_le_right _ _) hg)

/-- **Exactly when the frames are the first `k` with labels** (C185): all but the last of them are of one sequence. -/
theorem load_first_iff {k : ℤ} (hk : 1 ≤ k) {frames : List Frame} (hf : ∀ f ∈ frames, f.first.isSome) {r : List Frame} {s : Option String}
    (h : load frames k = some (r, s)) :
    r.length = ((frames.filter Labelled).take k.toNat).length ↔
      ∀ f ∈ ((frames.filter Labelled).take k.toNat).dropLast, seqOf f = s := by
  have key : ∀ (p : Frame → Bool) (l : List Frame) (n : ℕ),
      (l.take (min ((l.takeWhile p).length + 1) n)).length = (l.take n).length ↔ ∀ a ∈ (l.take n).dropLast, p a = true := by
    intro p l
    induction l with
    | nil => simp
    | cons b l ih =>
      intro n
      cases n with
      | zero => simp
      | succ n =>
        rw [Nat.add_min_add_right, List.take_succ_cons, List.take_succ_cons, List.length_cons, List.length_cons, Nat.add_right_cancel_iff]
        by_cases hb : p b = true
        · rw [List.takeWhile_cons_of_pos hb, List.length_cons, ih n]
          cases hl : l.take n with
          | nil => simp
          | cons c l' => rw [List.dropLast_cons_cons]; simp [hb]
        · rw [List.takeWhile_cons_of_neg hb]
          cases hl : l.take n with
          | nil => simp
          | cons c l' => rw [List.dropLast_cons_cons]; simp [hb]
  rw [load_spec k frames hf] at h
  cases hL : frames.filter Labelled with
  | nil =>
    rw [hL] at h
    simp only [List.head?_nil, Option.some.injEq, Prod.mk.injEq] at h
    simp [← h.1]
  | cons f l =>
    rw [hL] at h
    simp only [List.head?_cons, Option.some.injEq, Prod.mk.injEq] at h
    obtain ⟨h1, h2⟩ := h
    rw [max_eq_left hk] at h1
    subst h1 h2
    rw [key]
    simp

/-- Three frames, the second of another sequence: of two the last is of another sequence, of three one is missing besides. -/
theorem load_one_case :
    load [⟨0, some ⟨true, "a"⟩⟩, ⟨1, some ⟨true, "b"⟩⟩, ⟨2, some ⟨true, "a"⟩⟩] 2 =
      some ([⟨0, some ⟨true, "a"⟩⟩, ⟨1, some ⟨true, "b"⟩⟩], some "a") ∧
    load [⟨0, some ⟨true, "a"⟩⟩, ⟨1, some ⟨true, "b"⟩⟩, ⟨2, some ⟨true, "a"⟩⟩] 3 =
      some ([⟨0, some ⟨true, "a"⟩⟩, ⟨1, some ⟨true, "b"⟩⟩], some "a") ∧
    load [⟨0, some ⟨true, "a"⟩⟩, ⟨1, some ⟨true, "b"⟩⟩, ⟨2, some ⟨true, "a"⟩⟩] 1 = some ([⟨0, some ⟨true, "a"⟩⟩], some "a") :=
  ⟨rfl, rfl, rfl⟩

end Verif.SegView
