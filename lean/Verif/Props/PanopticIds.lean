import Verif.Model.Panoptic
import Verif.Lemmas.ListM
import Mathlib.Tactic.Linarith
import Mathlib.Data.List.Perm.Basic
import Mathlib.Data.List.Zip

/-! C38 (encoding and decoding panoptic labels) and C39 (global ids of different sequences). -/

namespace Verif.Panoptic

open Verif.ListM

/-! ### C38 -/

/-- C38: decoding an encoded pair of labels gives them back whenever every instance label is below the divisor and the result has 32
bits. -/
theorem decode_encode (semantic inst : List ℕ) (divisor : ℕ) (hl : semantic.length = inst.length)
    (h : ∀ x ∈ semantic.zip inst, x.2 < divisor ∧ x.1 * divisor + x.2 < 2 ^ 32) (hd : 0 < divisor) :
    decode (encode semantic inst divisor) divisor = some (semantic, inst) := by
  unfold decode
  rw [if_neg (by omega)]
  have key : ∀ s i : ℕ, i < divisor → s * divisor + i < 2 ^ 32 → encodePx divisor s i = s * divisor + i := by
    intro s i hi hs
    unfold encodePx u32
    have h1 : s ≤ s * divisor := Nat.le_mul_of_pos_right s hd
    rw [Nat.mod_eq_of_lt (by omega : s < 2 ^ 32), Nat.mod_eq_of_lt (by omega : i < 2 ^ 32), Nat.mod_eq_of_lt hs]
  rw [Int.toNat_natCast]
  unfold encode
  induction semantic generalizing inst with
  | nil => cases inst with
    | nil => rfl
    | cons _ _ => simp at hl
  | cons s semantic ih =>
    cases inst with
    | nil => simp at hl
    | cons i inst =>
      have h0 := h (s, i) (by simp)
      have h1 := ih inst (by simpa using hl) fun x hx => h x (by simp [hx])
      simp only [Option.some.injEq, Prod.mk.injEq] at h1
      simp only [List.zipWith_cons_cons, List.map_cons, Option.some.injEq, Prod.mk.injEq, List.cons.injEq]
      rw [key s i h0.1 h0.2]
      refine ⟨⟨?_, h1.1⟩, ?_, h1.2⟩
      · rw [Nat.mul_comm, Nat.mul_add_div hd, Nat.div_eq_of_lt h0.1, Nat.add_zero]
      · rw [Nat.mul_comm, Nat.mul_add_mod, Nat.mod_eq_of_lt h0.1]

/-- C38: encoding the two parts of a decoded label gives the label back. -/
theorem encode_decode (l : List ℕ) (divisor : ℕ) (semantic inst : List ℕ) (h32 : ∀ x ∈ l, x < 2 ^ 32)
    (h : decode l divisor = some (semantic, inst)) : encode semantic inst divisor = l := by
  unfold decode at h
  split at h
  · simp at h
  next hd =>
    simp only [Int.toNat_natCast, Option.some.injEq, Prod.mk.injEq] at h
    obtain ⟨rfl, rfl⟩ := h
    unfold encode
    rw [List.zipWith_map_left, List.zipWith_map_right, List.zipWith_self]
    conv_rhs => rw [← List.map_id l]
    apply List.map_congr_left
    intro x hx
    have hx := h32 x hx
    unfold encodePx u32
    have h1 : x / divisor ≤ x := Nat.div_le_self _ _
    have h2 : x % divisor ≤ x := Nat.mod_le _ _
    rw [Nat.mod_eq_of_lt (by omega : x / divisor < 2 ^ 32), Nat.mod_eq_of_lt (by omega : x % divisor < 2 ^ 32),
      Nat.mul_comm, Nat.div_add_mod, Nat.mod_eq_of_lt hx]
    rfl

/-- C38: the decoded instance labels are below the divisor. -/
theorem decode_bound (l : List ℕ) (divisor : ℤ) (semantic inst : List ℕ) (h : decode l divisor = some (semantic, inst)) :
    semantic.length = l.length ∧ inst.length = l.length ∧ ∀ i ∈ inst, (i : ℤ) < divisor := by
  unfold decode at h
  split at h
  · simp at h
  next hd =>
    simp only [Option.some.injEq, Prod.mk.injEq] at h
    obtain ⟨rfl, rfl⟩ := h
    refine ⟨by simp, by simp, fun i hi => ?_⟩
    obtain ⟨x, _, rfl⟩ := List.mem_map.1 hi
    have : x % divisor.toNat < divisor.toNat := Nat.mod_lt _ (by omega)
    omega

/-- C38: exactly the divisors that are not positive are rejected. -/
theorem decode_rejects (l : List ℕ) (divisor : ℤ) : decode l divisor = none ↔ divisor ≤ 0 := by
  unfold decode
  split <;> simp [*]

/-- A case for the hypotheses: the labels of the test of the repository. -/
theorem decode_encode_case : decode (encode [0, 23, 1, 2] [1, 2, 5, 999] 1000) 1000 = some ([0, 23, 1, 2], [1, 2, 5, 999]) :=
  decode_encode _ _ 1000 rfl (by decide) (by decide)

/-- C38: without the bound of 32 bits the labels are lost silently. -/
theorem decode_encode_violated : decode (encode [4294968] [1] 1000) 1000 = some ([0], [705]) := by decide

/-! ### The ids of each sequence -/

theorem update_mem {s l : List ℤ} {x : ℤ} : x ∈ update s l ↔ x ∈ s ∨ x ∈ l := by
  unfold update
  induction l generalizing s with
  | nil => simp
  | cons y l ih =>
    rw [List.foldl_cons, ih]
    split
    · constructor
      · rintro (h | h) <;> simp [h]
      · rintro (h | h)
        · exact Or.inl h
        · rcases List.mem_cons.1 h with rfl | h
          · exact Or.inl ‹_›
          · exact Or.inr h
    · simp only [List.mem_append, List.mem_singleton, List.mem_cons, or_assoc, List.not_mem_nil, or_false]

theorem update_nodup {s l : List ℤ} (h : s.Nodup) : (update s l).Nodup := by
  unfold update
  induction l generalizing s with
  | nil => simpa
  | cons y l ih =>
    rw [List.foldl_cons]
    apply ih
    split
    · exact h
    · rw [List.nodup_append]
      refine ⟨h, by simp, ?_⟩
      intro a ha b hb e
      simp only [List.mem_singleton] at hb
      subst hb e
      exact absurd ha ‹_›

/-- The table of ids: every sequence once, every id of a sequence once. -/
def Table (d : List (String × List ℤ)) : Prop := (d.map Prod.fst).Nodup ∧ ∀ x ∈ d, x.2.Nodup

/-- `i` is an id of the sequence `s`. -/
def Has (d : List (String × List ℤ)) (s : String) (i : ℤ) : Prop := ∃ x ∈ d, x.1 = s ∧ i ∈ x.2

theorem addIds_keys (d : List (String × List ℤ)) (seq : String) (ids : List ℤ) (s : String) :
    s ∈ (addIds d seq ids).map Prod.fst ↔ s ∈ d.map Prod.fst ∨ s = seq := by
  induction d with
  | nil => simp [addIds]
  | cons x d ih =>
    obtain ⟨a, l⟩ := x
    rw [addIds]
    split
    next h => subst h; simp only [List.map_cons, List.mem_cons]; tauto
    next h => simp only [List.map_cons, List.mem_cons, ih]; tauto

theorem addIds_table {d : List (String × List ℤ)} (seq : String) (ids : List ℤ) (h : Table d) : Table (addIds d seq ids) := by
  induction d with
  | nil => exact ⟨by simp [addIds], by simp [addIds, update_nodup]⟩
  | cons x d ih =>
    obtain ⟨a, l⟩ := x
    obtain ⟨h1, h2⟩ := h
    rw [List.map_cons, List.nodup_cons] at h1
    have ih := ih ⟨h1.2, fun x hx => h2 x (by simp [hx])⟩
    rw [addIds]
    split
    next h =>
      refine ⟨by simpa using h1, fun x hx => ?_⟩
      rcases List.mem_cons.1 hx with rfl | hx
      · exact update_nodup (h2 (a, l) (by simp))
      · exact h2 x (by simp [hx])
    next h =>
      refine ⟨?_, fun x hx => ?_⟩
      · rw [List.map_cons, List.nodup_cons]
        refine ⟨fun hm => ?_, ih.1⟩
        rcases (addIds_keys d seq ids a).1 hm with hm | hm
        · exact h1.1 hm
        · exact h hm
      · rcases List.mem_cons.1 hx with rfl | hx
        · exact h2 (a, l) (by simp)
        · exact ih.2 x hx

theorem addIds_has {d : List (String × List ℤ)} (seq : String) (ids : List ℤ) (s : String) (i : ℤ) :
    Has (addIds d seq ids) s i ↔ Has d s i ∨ (s = seq ∧ i ∈ ids) := by
  induction d with
  | nil => simp [addIds, Has, update_mem, eq_comm]
  | cons x d ih =>
    obtain ⟨a, l⟩ := x
    rw [addIds]
    split
    next h =>
      subst h
      unfold Has
      simp only [List.mem_cons, exists_eq_or_imp, update_mem]
      constructor
      · rintro (⟨rfl, h | h⟩ | h)
        · exact Or.inl (Or.inl ⟨rfl, h⟩)
        · exact Or.inr ⟨rfl, h⟩
        · exact Or.inl (Or.inr h)
      · rintro ((⟨rfl, h⟩ | h) | ⟨rfl, h⟩)
        · exact Or.inl ⟨rfl, Or.inl h⟩
        · exact Or.inr h
        · exact Or.inl ⟨rfl, Or.inr h⟩
    next h =>
      unfold Has at ih ⊢
      simp only [List.mem_cons, exists_eq_or_imp, ih, or_assoc]

theorem globalIds_spec (frames : List Frame) : Table (globalIds frames) ∧ ∀ (s : String) (i : ℤ),
    Has (globalIds frames) s i ↔ ∃ f ∈ frames, f.seq = s ∧ ∃ m ∈ f.mapping, m.glob = i := by
  unfold globalIds
  suffices H : ∀ d, Table d → Table (frames.foldl (fun d f => if f.mapping = [] ∧ ¬ f.component then d else
      addIds d f.seq (f.mapping.map Mapping.glob)) d) ∧ ∀ (s : String) (i : ℤ), Has (frames.foldl (fun d f =>
      if f.mapping = [] ∧ ¬ f.component then d else addIds d f.seq (f.mapping.map Mapping.glob)) d) s i ↔
      Has d s i ∨ ∃ f ∈ frames, f.seq = s ∧ ∃ m ∈ f.mapping, m.glob = i by
    obtain ⟨h1, h2⟩ := H [] ⟨by simp, by simp⟩
    refine ⟨h1, fun s i => ?_⟩
    rw [h2]
    simp [Has]
  induction frames with
  | nil => intro d hd; exact ⟨hd, fun s i => by simp⟩
  | cons f frames ih =>
    intro d hd
    rw [List.foldl_cons]
    split
    next h =>
      obtain ⟨h1, h2⟩ := ih d hd
      refine ⟨h1, fun s i => ?_⟩
      rw [h2]
      simp [h.1]
    next h =>
      obtain ⟨h1, h2⟩ := ih _ (addIds_table f.seq (f.mapping.map Mapping.glob) hd)
      refine ⟨h1, fun s i => ?_⟩
      rw [h2, addIds_has]
      simp only [List.mem_cons, exists_eq_or_imp, List.mem_map, or_assoc]
      constructor
      · rintro (h | ⟨rfl, m, hm⟩ | h)
        · exact Or.inl h
        · exact Or.inr (Or.inl ⟨rfl, m, hm⟩)
        · exact Or.inr (Or.inr h)
      · rintro (h | ⟨rfl, m, hm⟩ | h)
        · exact Or.inl h
        · exact Or.inr (Or.inl ⟨rfl, m, hm⟩)
        · exact Or.inr (Or.inr h)

/-! ### The largest id -/

theorem maxOf_spec {l : List ℤ} {m : ℤ} (h : maxOf l = some m) : m ∈ l ∧ ∀ x ∈ l, x ≤ m := by
  cases l with
  | nil => simp [maxOf] at h
  | cons a l =>
    simp only [maxOf, Option.some.injEq] at h
    subst h
    induction l generalizing a with
    | nil => simp
    | cons b l ih =>
      rw [List.foldl_cons]
      obtain ⟨h1, h2⟩ := ih (max a b)
      constructor
      · rcases List.mem_cons.1 h1 with h | h
        · rw [h]; rcases max_choice a b with h' | h' <;> simp [h']
        · exact List.mem_cons_of_mem _ (List.mem_cons_of_mem _ h)
      · intro x hx
        have h3 := h2 (max a b) (by simp)
        rcases List.mem_cons.1 hx with rfl | hx
        · exact (le_max_left _ _).trans h3
        · rcases List.mem_cons.1 hx with rfl | hx
          · exact (le_max_right _ _).trans h3
          · exact h2 x (List.mem_cons_of_mem _ hx)

theorem maxOf_isSome {l : List ℤ} (h : l ≠ []) : ∃ m, maxOf l = some m := by
  cases l with
  | nil => exact absurd rfl h
  | cons a l => exact ⟨_, rfl⟩

/-! ### The offsets -/

theorem offsets_length : ∀ {d : List (String × List ℤ)} {c : ℤ} {off : List (String × List ℤ)}, offsets c d = some off →
    ((off.map Prod.snd).flatten).length = ((d.map fun x => x.2.map fun i => (x.1, i)).flatten).length := by
  intro d
  induction d with
  | nil => intro c off h; simp only [offsets, Option.some.injEq] at h; subst h; rfl
  | cons x d ih =>
    intro c off h
    obtain ⟨s, ids⟩ := x
    simp only [offsets, Option.bind_eq_bind] at h
    cases hm : maxOf ids with
    | none => simp [hm] at h
    | some m =>
      cases hr : offsets (c + m) d with
      | none => simp [hm, hr] at h
      | some r =>
        simp only [hm, hr, Option.bind_some, Option.pure_def, Option.some.injEq] at h
        subst h
        have := ih hr
        simp only [List.map_cons, List.flatten_cons, List.length_append, List.length_map, this]

/-- With positive ids, the offset ids are all different and above the first offset. -/
theorem offsets_nodup : ∀ {d : List (String × List ℤ)} {c : ℤ} {off : List (String × List ℤ)}, offsets c d = some off →
    (∀ x ∈ d, x.2.Nodup) → (∀ x ∈ d, ∀ i ∈ x.2, 1 ≤ i) →
    (off.map Prod.snd).flatten.Nodup ∧ ∀ i ∈ (off.map Prod.snd).flatten, c < i := by
  intro d
  induction d with
  | nil =>
    intro c off h _ _
    simp only [offsets, Option.some.injEq] at h; subst h
    simp
  | cons x d ih =>
    intro c off h hn hp
    obtain ⟨s, ids⟩ := x
    simp only [offsets, Option.bind_eq_bind] at h
    cases hm : maxOf ids with
    | none => simp [hm] at h
    | some m =>
      cases hr : offsets (c + m) d with
      | none => simp [hm, hr] at h
      | some r =>
        simp only [hm, hr, Option.bind_some, Option.pure_def, Option.some.injEq] at h
        subst h
        obtain ⟨h1, h2⟩ := ih hr (fun x hx => hn x (by simp [hx])) (fun x hx => hp x (by simp [hx]))
        obtain ⟨m1, m2⟩ := maxOf_spec hm
        have hm1 := hp (s, ids) (by simp) m m1
        simp only [List.map_cons, List.flatten_cons]
        constructor
        · rw [List.nodup_append]
          refine ⟨(hn (s, ids) (by simp)).map (fun a b e => by simpa using e), h1, ?_⟩
          intro a ha b hb e
          obtain ⟨i, hi, rfl⟩ := List.mem_map.1 ha
          have := h2 b hb
          have := m2 i hi
          omega
        · intro i hi
          rcases List.mem_append.1 hi with hi | hi
          · obtain ⟨j, hj, rfl⟩ := List.mem_map.1 hi
            have := hp (s, ids) (by simp) j hj
            omega
          · have := h2 i hi
            omega

theorem offsets_isSome : ∀ {d : List (String × List ℤ)} (c : ℤ), (∀ x ∈ d, x.2 ≠ []) → ∃ off, offsets c d = some off := by
  intro d
  induction d with
  | nil => intro c _; exact ⟨[], rfl⟩
  | cons x d ih =>
    intro c h
    obtain ⟨s, ids⟩ := x
    obtain ⟨m, hm⟩ := maxOf_isSome (h (s, ids) (by simp))
    obtain ⟨r, hr⟩ := ih (c + m) fun x hx => h x (by simp [hx])
    exact ⟨_, by simp only [offsets, hm, hr, Option.bind_eq_bind, Option.bind_some, Option.pure_def]; rfl⟩

/-! ### Relabelling -/

theorem unique_mem {l : List ℤ} {x : ℤ} : x ∈ unique l ↔ x ∈ l := by
  unfold unique
  rw [List.mem_insertionSort, List.mem_dedup]

theorem unique_sorted (l : List ℤ) : (unique l).Pairwise (· < ·) := by
  have h1 : (unique l).Pairwise (· ≤ ·) := List.pairwise_insertionSort _ _
  have h2 : (unique l).Nodup := (List.perm_insertionSort _ _).nodup_iff.2 (List.nodup_dedup l)
  exact h1.imp₂ (fun a b h h' => lt_of_le_of_ne h h') h2

/-- The first new label. -/
def base (l : List ℤ) : ℤ := if (unique l).head? = some 0 then 0 else 1

theorem outVals_eq (ins : List ℤ) : outVals ins =
    (List.range ins.length).map fun k : ℕ => (k : ℤ) + if ins.head? = some 0 then 0 else 1 := by
  unfold outVals
  split
  next h =>
    cases ins with
    | nil => simp at h
    | cons a ins =>
      simp only [List.length_cons, Nat.add_sub_cancel, List.range_succ_eq_map, List.map_cons, List.map_map]
      congr 1
      rw [List.range'_eq_map_range, List.map_map]
      apply List.map_congr_left
      intro k _
      simp only [Function.comp]
      push_cast
      simp; omega
  next h =>
    rw [List.range'_eq_map_range, List.map_map]
    apply List.map_congr_left
    intro k _
    simp only [Function.comp]
    simp; omega

/-- The new label of `x`. -/
def rank (l : List ℤ) (x : ℤ) : ℤ := ((unique l).idxOf x : ℤ) + base l

theorem outVals_length (ins : List ℤ) : (outVals ins).length = ins.length := by rw [outVals_eq]; simp

theorem lookup_rank {l : List ℤ} {x : ℤ} (h : x ∈ l) : ((unique l).zip (outVals (unique l))).lookup x = some (rank l x) := by
  rw [lookup_zip_idxOf (outVals_length _).symm, outVals_eq]
  have : (unique l).idxOf x < (unique l).length := List.idxOf_lt_length_of_mem (unique_mem.2 h)
  rw [List.getElem?_map, List.getElem?_range this]
  rfl

theorem rank_lt {l : List ℤ} {x y : ℤ} (hx : x ∈ l) (hy : y ∈ l) (h : x < y) : rank l x < rank l y := by
  unfold rank
  have hx' := List.idxOf_lt_length_of_mem (unique_mem.2 hx)
  have hy' := List.idxOf_lt_length_of_mem (unique_mem.2 hy)
  by_contra hc
  push Not at hc
  have hc : (unique l).idxOf y ≤ (unique l).idxOf x := by omega
  have e1 := List.getElem_idxOf hx'
  have e2 := List.getElem_idxOf hy'
  rcases Nat.lt_or_ge ((unique l).idxOf y) ((unique l).idxOf x) with h1 | h1
  · have := List.pairwise_iff_getElem.1 (unique_sorted l) _ _ hy' hx' h1
    rw [e1, e2] at this
    omega
  · have e : (unique l).idxOf x = (unique l).idxOf y := by omega
    have : x = y := by rw [← e1, ← e2]; congr 1
    omega

theorem rank_inj {l : List ℤ} {x y : ℤ} (hx : x ∈ l) (hy : y ∈ l) (h : rank l x = rank l y) : x = y := by
  rcases lt_trichotomy x y with h1 | h1 | h1
  · have := rank_lt hx hy h1; omega
  · exact h1
  · have := rank_lt hy hx h1; omega

theorem rank_zero {l : List ℤ} (hn : ∀ x ∈ l, 0 ≤ x) (h : 0 ∈ l) : rank l 0 = 0 := by
  have hs := unique_sorted l
  have hm : (0 : ℤ) ∈ unique l := unique_mem.2 h
  have hall : ∀ x ∈ unique l, 0 ≤ x := fun x hx => hn x (unique_mem.1 hx)
  unfold rank base
  cases hu : unique l with
  | nil => rw [hu] at hm; simp at hm
  | cons a u =>
    rw [hu] at hs hm hall
    rw [List.pairwise_cons] at hs
    have ha : a = 0 := by
      rcases List.mem_cons.1 hm with h | h
      · exact h.symm
      · have h1 := hs.1 0 h
        have h2 := hall a (by simp)
        omega
    subst ha
    simp

theorem rank_pos {l : List ℤ} {x : ℤ} (hx : x ∈ l) (h : 0 < x) : 0 < rank l x := by
  unfold rank base
  split
  next hh =>
    cases hu : unique l with
    | nil => rw [hu] at hh; simp at hh
    | cons a u =>
      rw [hu] at hh
      simp only [List.head?_cons, Option.some.injEq] at hh
      subst hh
      rw [List.idxOf_cons]
      have : ((0 : ℤ) == x) = false := by rw [beq_eq_false_iff_ne]; omega
      rw [this]
      simp
  next => omega

theorem rank_nonneg {l : List ℤ} {x : ℤ} : 0 ≤ rank l x := by
  unfold rank base
  split <;> omega

/-- What `relabel_sequential` does. -/
theorem relabel_spec {l new : List ℤ} {inv : List (ℤ × ℤ)} (h : relabel l = some (new, inv)) :
    new = l.map (rank l) ∧ (∀ x ∈ l, 0 ≤ x) ∧ (∀ a b, (a, b) ∈ inv ↔ b ∈ l ∧ a = rank l b) ∧ (inv.map Prod.fst).Nodup := by
  unfold relabel at h
  split at h
  · simp at h
  next hn =>
    push Not at hn
    have hm : l.mapM (fun x => ((unique l).zip (outVals (unique l))).lookup x) = some (l.map (rank l)) := by
      apply forall₂_mapM
      rw [List.forall₂_map_right_iff]
      exact List.forall₂_same.2 fun x hx => lookup_rank hx
    simp only [hm, Option.bind_eq_bind, Option.bind_some, Option.pure_def, Option.some.injEq, Prod.mk.injEq] at h
    obtain ⟨rfl, rfl⟩ := h
    have hs : (unique l).Nodup := (unique_sorted l).imp ne_of_lt
    refine ⟨rfl, hn.2, fun a b => ?_, ?_⟩
    · have hmem : (a, b) ∈ (outVals (unique l)).zip (unique l) ↔ (b, a) ∈ (unique l).zip (outVals (unique l)) := by
        rw [← List.zip_swap (unique l), List.mem_map]
        constructor
        · rintro ⟨⟨p, q⟩, h1, h2⟩
          simp only [Prod.swap_prod_mk, Prod.mk.injEq] at h2
          obtain ⟨rfl, rfl⟩ := h2
          exact h1
        · intro h1; exact ⟨(b, a), h1, rfl⟩
      rw [hmem]
      constructor
      · intro hb
        have hb' : b ∈ l := unique_mem.1 (List.of_mem_zip hb).1
        refine ⟨hb', ?_⟩
        have h1 := lookup_of_mem (l := (unique l).zip (outVals (unique l)))
          (by rw [List.map_fst_zip (le_of_eq (outVals_length _).symm)]; exact hs) hb
        rw [lookup_rank hb'] at h1
        exact (Option.some.inj h1).symm
      · rintro ⟨hb, rfl⟩
        exact mem_of_lookup (lookup_rank hb)
    · rw [List.map_fst_zip (le_of_eq (outVals_length _)), outVals_eq]
      refine List.Nodup.map ?_ List.nodup_range
      intro a b e
      simpa using e

theorem relabel_isSome {l : List ℤ} (h : l ≠ []) (hn : ∀ x ∈ l, 0 ≤ x) : ∃ r, relabel l = some r := by
  unfold relabel
  rw [if_neg (by push Not; exact ⟨h, hn⟩)]
  have hm : l.mapM (fun x => ((unique l).zip (outVals (unique l))).lookup x) = some (l.map (rank l)) := by
    apply forall₂_mapM
    rw [List.forall₂_map_right_iff]
    exact List.forall₂_same.2 fun x hx => lookup_rank hx
  exact ⟨_, by simp only [hm]; rfl⟩

/-! ### C39 -/

theorem keys_nodup {d : List (String × List ℤ)} (h : Table d) : ((d.map fun x => x.2.map fun i => (x.1, i)).flatten).Nodup := by
  induction d with
  | nil => simp
  | cons x d ih =>
    obtain ⟨h1, h2⟩ := h
    rw [List.map_cons, List.nodup_cons] at h1
    rw [List.map_cons, List.flatten_cons, List.nodup_append]
    refine ⟨(h2 x (by simp)).map fun a b e => by simpa using e, ih ⟨h1.2, fun y hy => h2 y (by simp [hy])⟩, ?_⟩
    intro a ha b hb e
    subst e
    obtain ⟨i, _, rfl⟩ := List.mem_map.1 ha
    obtain ⟨l, hl, hb⟩ := List.mem_flatten.1 hb
    obtain ⟨y, hy, rfl⟩ := List.mem_map.1 hl
    obtain ⟨j, _, hj⟩ := List.mem_map.1 hb
    simp only [Prod.mk.injEq] at hj
    exact h1.1 (hj.1 ▸ List.mem_map.2 ⟨y, hy, rfl⟩)

theorem keys_mem {d : List (String × List ℤ)} {s : String} {i : ℤ} :
    (s, i) ∈ (d.map fun x => x.2.map fun i => (x.1, i)).flatten ↔ Has d s i := by
  unfold Has
  rw [List.mem_flatten]
  constructor
  · rintro ⟨l, hl, hi⟩
    obtain ⟨x, hx, rfl⟩ := List.mem_map.1 hl
    obtain ⟨j, hj, e⟩ := List.mem_map.1 hi
    simp only [Prod.mk.injEq] at e
    exact ⟨x, hx, e.1, e.2 ▸ hj⟩
  · rintro ⟨x, hx, rfl, hi⟩
    exact ⟨_, List.mem_map.2 ⟨x, hx, rfl⟩, List.mem_map.2 ⟨i, hi, rfl⟩⟩

/-- The parts of a remapping. -/
theorem remap_parts {frames : List Frame} {sequential : Bool} {r : Remap} (h : remapGlobalIds frames sequential = some r) :
    (globalIds frames = [] ∧ r = []) ∨ ∃ off vals, offsets 0 (globalIds frames) = some off ∧
      r = (((globalIds frames).map fun x => x.2.map fun i => (x.1, i)).flatten).zip vals ∧
      vals.length = (((globalIds frames).map fun x => x.2.map fun i => (x.1, i)).flatten).length ∧
      (sequential = false → vals = (off.map Prod.snd).flatten) ∧
      (sequential = true → vals = (off.map Prod.snd).flatten.map (rank (off.map Prod.snd).flatten) ∧
        ∀ x ∈ (off.map Prod.snd).flatten, 0 ≤ x) := by
  unfold remapGlobalIds at h
  simp only [Option.bind_eq_bind, Option.pure_def] at h
  split at h
  next h0 => left; exact ⟨h0, by simpa using h.symm⟩
  next h0 =>
    right
    cases ho : offsets 0 (globalIds frames) with
    | none => simp [ho] at h
    | some off =>
      have hl := offsets_length ho
      rw [ho, Option.bind_some] at h
      cases sequential with
      | false =>
        simp only [Bool.false_eq_true, if_false, Option.bind_some, Option.some.injEq] at h
        exact ⟨off, _, rfl, h.symm, hl, fun _ => rfl, by simp⟩
      | true =>
        simp only [if_true] at h
        cases hr : relabel (off.map Prod.snd).flatten with
        | none => simp [hr] at h
        | some x =>
          obtain ⟨new, inv⟩ := x
          simp only [hr, Option.map_some, Option.bind_some, Option.some.injEq] at h
          obtain ⟨h1, h2, _⟩ := relabel_spec hr
          exact ⟨off, new, rfl, h.symm, by rw [h1, List.length_map, hl], by simp, fun _ => ⟨h1, h2⟩⟩

/-- C39: the remapping is defined for exactly the pairs of a sequence and a global id that occur in the frames. -/
theorem remap_domain {frames : List Frame} {sequential : Bool} {r : Remap} (h : remapGlobalIds frames sequential = some r)
    (s : String) (i : ℤ) :
    (∃ v, r.lookup (s, i) = some v) ↔ ∃ f ∈ frames, f.seq = s ∧ ∃ m ∈ f.mapping, m.glob = i := by
  obtain ⟨ht, hm⟩ := globalIds_spec frames
  rw [← hm, ← keys_mem]
  rcases remap_parts h with ⟨h0, rfl⟩ | ⟨off, vals, _, rfl, hl, _⟩
  · simp [h0]
  · have hf : (((((globalIds frames).map fun x => x.2.map fun i => (x.1, i)).flatten).zip vals).map Prod.fst).Nodup := by
      rw [List.map_fst_zip (le_of_eq hl.symm)]; exact keys_nodup ht
    constructor
    · rintro ⟨v, hv⟩
      exact (List.of_mem_zip (mem_of_lookup hv)).1
    · intro hk
      obtain ⟨v, hv⟩ := exists_zip_left hl.symm hk
      exact ⟨v, lookup_of_mem hf hv⟩

theorem remap_vals_nodup {frames : List Frame} {sequential : Bool} {r : Remap} (h : remapGlobalIds frames sequential = some r)
    (hp : ∀ f ∈ frames, ∀ m ∈ f.mapping, 1 ≤ m.glob) : (r.map Prod.snd).Nodup ∧ ∀ v ∈ r.map Prod.snd, 1 ≤ v := by
  obtain ⟨ht, hm⟩ := globalIds_spec frames
  have hp' : ∀ x ∈ globalIds frames, ∀ i ∈ x.2, 1 ≤ i := by
    intro x hx i hi
    obtain ⟨f, hf, _, m, hm, rfl⟩ := (hm x.1 i).1 ⟨x, hx, rfl, hi⟩
    exact hp f hf m hm
  rcases remap_parts h with ⟨h0, rfl⟩ | ⟨off, vals, ho, rfl, hl, hf, ht'⟩
  · simp
  · rw [List.map_snd_zip (le_of_eq hl)]
    obtain ⟨h1, h2⟩ := offsets_nodup ho ht.2 hp'
    cases sequential with
    | false => rw [hf rfl]; exact ⟨h1, fun v hv => h2 v hv⟩
    | true =>
      obtain ⟨e, _⟩ := ht' rfl
      rw [e]
      refine ⟨?_, ?_⟩
      · refine List.Nodup.map_on ?_ h1
        intro x hx y hy e
        exact rank_inj hx hy e
      · intro v hv
        obtain ⟨x, hx, rfl⟩ := List.mem_map.1 hv
        exact rank_pos hx (h2 x hx)

/-- C39: when the global ids are positive, different instances (of one sequence or of two) get different ids, which are positive. -/
theorem remap_injective_partial {frames : List Frame} {sequential : Bool} {r : Remap} (h : remapGlobalIds frames sequential = some r)
    (hp : ∀ f ∈ frames, ∀ m ∈ f.mapping, 1 ≤ m.glob) {k k' : String × ℤ} {v v' : ℤ} (hk : r.lookup k = some v)
    (hk' : r.lookup k' = some v') : 1 ≤ v ∧ (v = v' → k = k') := by
  obtain ⟨h1, h2⟩ := remap_vals_nodup h hp
  refine ⟨h2 v (List.mem_map.2 ⟨_, mem_of_lookup hk, rfl⟩), ?_⟩
  rintro rfl
  have hz : r = (r.map Prod.fst).zip (r.map Prod.snd) := (List.zip_of_prod rfl rfl)
  have a := mem_of_lookup hk
  have b := mem_of_lookup hk'
  rw [hz] at a b
  exact zip_right_inj h1 a b

/-- C39: asked for sequential ids, the remapping uses exactly 1, 2, …, n for the n instances. -/
theorem remap_sequential {frames : List Frame} {r : Remap} (h : remapGlobalIds frames true = some r)
    (hp : ∀ f ∈ frames, ∀ m ∈ f.mapping, 1 ≤ m.glob) :
    ∀ v : ℤ, v ∈ r.map Prod.snd ↔ 1 ≤ v ∧ v ≤ r.length := by
  obtain ⟨ht, hm⟩ := globalIds_spec frames
  obtain ⟨hn, hge⟩ := remap_vals_nodup h hp
  have hp' : ∀ x ∈ globalIds frames, ∀ i ∈ x.2, 1 ≤ i := by
    intro x hx i hi
    obtain ⟨f, hf, _, m, hm, rfl⟩ := (hm x.1 i).1 ⟨x, hx, rfl, hi⟩
    exact hp f hf m hm
  rcases remap_parts h with ⟨h0, rfl⟩ | ⟨off, vals, ho, rfl, hl, _, ht'⟩
  · intro v; simp; omega
  · obtain ⟨e, _⟩ := ht' rfl
    obtain ⟨h1, h2⟩ := offsets_nodup ho ht.2 hp'
    have hb : base (off.map Prod.snd).flatten = 1 := by
      unfold base
      rw [if_neg]
      intro hh
      have := h2 0 (unique_mem.1 (List.mem_of_mem_head? hh))
      omega
    have hul : (unique (off.map Prod.snd).flatten).length = vals.length := by
      rw [e, List.length_map]
      unfold unique
      rw [List.length_insertionSort, h1.dedup]
    intro v
    rw [List.map_snd_zip (le_of_eq hl), List.length_zip, ← hl, Nat.min_self]
    constructor
    · intro hv
      rw [List.map_snd_zip (le_of_eq hl)] at hge
      refine ⟨hge v hv, ?_⟩
      rw [e] at hv
      obtain ⟨x, hx, rfl⟩ := List.mem_map.1 hv
      have := List.idxOf_lt_length_of_mem (unique_mem.2 hx)
      unfold rank
      rw [hb]
      omega
    · rintro ⟨v1, v2⟩
      have hlt : (v - 1).toNat < (unique (off.map Prod.snd).flatten).length := by omega
      have hx : (unique (off.map Prod.snd).flatten)[(v - 1).toNat] ∈ (off.map Prod.snd).flatten := unique_mem.1 (List.getElem_mem _)
      rw [e]
      refine List.mem_map.2 ⟨_, hx, ?_⟩
      unfold rank
      rw [List.Nodup.idxOf_getElem ((unique_sorted _).imp ne_of_lt), hb]
      omega

/-- C39: labels given as messages with ids that are not negative can always be remapped; so can components that have an instance. -/
theorem remap_defined {frames : List Frame} (sequential : Bool) (hp : ∀ f ∈ frames, ∀ m ∈ f.mapping, 0 ≤ m.glob)
    (hc : ∀ f ∈ frames, f.component = true → f.mapping ≠ []) : ∃ r, remapGlobalIds frames sequential = some r := by
  obtain ⟨ht, hm⟩ := globalIds_spec frames
  have hne : ∀ x ∈ globalIds frames, x.2 ≠ [] := by
    unfold globalIds
    suffices H : ∀ d : List (String × List ℤ), (∀ x ∈ d, x.2 ≠ []) → ∀ x ∈ frames.foldl (fun d f =>
        if f.mapping = [] ∧ ¬ f.component then d else addIds d f.seq (f.mapping.map Mapping.glob)) d, x.2 ≠ [] from H [] (by simp)
    clear ht hm hp
    induction frames with
    | nil => intro d hd; exact hd
    | cons f frames ih =>
      intro d hd
      rw [List.foldl_cons]
      apply ih fun g hg => hc g (by simp [hg])
      split
      · exact hd
      next hf =>
        have hf' : f.mapping ≠ [] := by
          intro e
          by_cases hcf : f.component = true
          · exact hc f (by simp) hcf e
          · exact hf ⟨e, hcf⟩
        have hids : f.mapping.map Mapping.glob ≠ [] := by simpa using hf'
        generalize f.mapping.map Mapping.glob = ids at hids
        obtain ⟨y, hy⟩ := List.exists_mem_of_ne_nil _ hids
        have hu : ∀ s, update s ids ≠ [] := fun s => List.ne_nil_of_mem (update_mem.2 (Or.inr hy))
        clear ih
        induction d with
        | nil => intro x hx; simp only [addIds, List.mem_singleton] at hx; subst hx; exact hu []
        | cons z d ihd =>
          obtain ⟨a, l⟩ := z
          rw [addIds]
          split
          · intro x hx
            rcases List.mem_cons.1 hx with rfl | hx
            · exact hu l
            · exact hd x (by simp [hx])
          · intro x hx
            rcases List.mem_cons.1 hx with rfl | hx
            · exact hd (a, l) (by simp)
            · exact ihd (fun y hy => hd y (by simp [hy])) x hx
  have hnn : ∀ x ∈ globalIds frames, ∀ i ∈ x.2, 0 ≤ i := by
    intro x hx i hi
    obtain ⟨f, hf, _, m, hm, rfl⟩ := (hm x.1 i).1 ⟨x, hx, rfl, hi⟩
    exact hp f hf m hm
  unfold remapGlobalIds
  by_cases h0 : globalIds frames = []
  · exact ⟨[], by rw [h0]; rfl⟩
  · obtain ⟨off, ho⟩ := offsets_isSome 0 hne
    simp only [if_neg h0, ho, Option.bind_eq_bind, Option.bind_some, Option.pure_def]
    cases sequential with
    | false => exact ⟨_, by simp only [Bool.false_eq_true, if_false, Option.bind_some]; rfl⟩
    | true =>
      have hpos : ∀ (d : List (String × List ℤ)) (c : ℤ) (off : List (String × List ℤ)), 0 ≤ c → offsets c d = some off →
          (∀ x ∈ d, ∀ i ∈ x.2, 0 ≤ i) → ∀ i ∈ (off.map Prod.snd).flatten, 0 ≤ i := by
        intro d
        induction d with
        | nil =>
          intro c off _ h _
          simp only [offsets, Option.some.injEq] at h; subst h
          simp
        | cons x d ih =>
          intro c off hc h hp
          obtain ⟨s, ids⟩ := x
          simp only [offsets, Option.bind_eq_bind] at h
          cases hm : maxOf ids with
          | none => simp [hm] at h
          | some m =>
            cases hr : offsets (c + m) d with
            | none => simp [hm, hr] at h
            | some r =>
              simp only [hm, hr, Option.bind_some, Option.pure_def, Option.some.injEq] at h
              subst h
              have hm1 := hp (s, ids) (by simp) m (maxOf_spec hm).1
              intro i hi
              rw [List.map_cons, List.flatten_cons] at hi
              rcases List.mem_append.1 hi with hi | hi
              · obtain ⟨j, hj, rfl⟩ := List.mem_map.1 hi
                have := hp (s, ids) (by simp) j hj
                omega
              · exact ih (c + m) r (by omega) hr (fun x hx => hp x (by simp [hx])) i hi
      have hofne : (off.map Prod.snd).flatten ≠ [] := by
        obtain ⟨x, hx⟩ := List.exists_mem_of_ne_nil _ h0
        obtain ⟨i, hi⟩ := List.exists_mem_of_ne_nil _ (hne x hx)
        have := offsets_length ho
        have hk := keys_mem.2 (⟨x, hx, rfl, hi⟩ : Has (globalIds frames) x.1 i)
        intro e
        rw [e] at this
        rw [List.eq_nil_of_length_eq_zero this.symm] at hk
        simp at hk
      obtain ⟨x, hx⟩ := relabel_isSome hofne (hpos _ 0 off le_rfl ho hnn)
      exact ⟨_, by simp only [if_true, hx, Option.map_some, Option.bind_some]; rfl⟩

/-- A frame that only carries ids. -/
def idsOnly (s : String) (ids : List ℤ) : Frame := ⟨s, 1000, [0], ids.map fun i => ⟨i, i, true⟩, none, false⟩

/-- C39 does not hold for an id of zero: instance 5 of one sequence and instance 0 of another both become 5. -/
theorem remap_injective_violated : ∃ r, remapGlobalIds [idsOnly "one" [5], idsOnly "two" [0]] false = some r ∧
    r.lookup ("one", 5) = some 5 ∧ r.lookup ("two", 0) = some 5 := ⟨_, rfl, rfl, rfl⟩

/-- C39: a component without instances, alone in its sequence, cannot be remapped although a message with the same contents can. -/
theorem remap_component_violated : remapGlobalIds [⟨"one", 1000, [0], [], none, true⟩] false = none ∧
    remapGlobalIds [⟨"one", 1000, [0], [], none, false⟩] false = some [] := ⟨rfl, rfl⟩

/-- A case for the hypotheses: the two sequences of the test of the repository. -/
theorem remap_case : remapGlobalIds [idsOnly "one" [50, 60], idsOnly "two" [50, 60]] false =
    some [(("one", 50), 50), (("one", 60), 60), (("two", 50), 110), (("two", 60), 120)] ∧
    remapGlobalIds [idsOnly "one" [50, 60], idsOnly "two" [50, 60]] true =
      some [(("one", 50), 1), (("one", 60), 2), (("two", 50), 3), (("two", 60), 4)] ∧
    ∀ f ∈ [idsOnly "one" [50, 60], idsOnly "two" [50, 60]], ∀ m ∈ f.mapping, 1 ≤ m.glob := by
  refine ⟨by decide, by decide, by decide⟩

/-- C39: for frames of one sequence the ids are unchanged unless sequential ids are asked for. -/
theorem remap_single {frames : List Frame} {r : Remap} {s : String} (h : remapGlobalIds frames false = some r)
    (hs : ∀ f ∈ frames, f.seq = s) {k : String × ℤ} {v : ℤ} (hk : r.lookup k = some v) : v = k.2 ∧ k.1 = s := by
  obtain ⟨ht, hm⟩ := globalIds_spec frames
  have hkey : k.1 = s := by
    obtain ⟨f, hf, e, _⟩ := (remap_domain h k.1 k.2).1 ⟨v, hk⟩
    rw [← e, hs f hf]
  refine ⟨?_, hkey⟩
  have hd : ∀ x ∈ globalIds frames, x.1 = s := by
    unfold globalIds
    suffices H : ∀ d : List (String × List ℤ), (∀ x ∈ d, x.1 = s) → ∀ x ∈ frames.foldl (fun d f =>
        if f.mapping = [] ∧ ¬ f.component then d else addIds d f.seq (f.mapping.map Mapping.glob)) d, x.1 = s from H [] (by simp)
    clear ht hm h
    induction frames with
    | nil => intro d hd; exact hd
    | cons f frames ih =>
      intro d hd
      rw [List.foldl_cons]
      apply ih fun g hg => hs g (by simp [hg])
      split
      · exact hd
      · intro x hx
        rcases (addIds_keys d f.seq _ x.1).1 (List.mem_map.2 ⟨x, hx, rfl⟩) with h1 | h1
        · obtain ⟨y, hy, e⟩ := List.mem_map.1 h1
          rw [← e, hd y hy]
        · rw [h1, hs f (by simp)]
  rcases remap_parts h with ⟨h0, rfl⟩ | ⟨off, vals, ho, rfl, hl, hf, hq⟩
  · simp at hk
  · clear hq
    have := mem_of_lookup hk
    rw [hf rfl] at this
    revert this ho
    cases hg : globalIds frames with
    | nil => intro ho hz; simp at hz
    | cons x d =>
      rw [hg] at ht hd
      cases d with
      | cons y d =>
        exfalso
        have h1 := ht.1
        simp only [List.map_cons, List.nodup_cons, List.mem_cons] at h1
        exact h1.1 (Or.inl (by rw [hd x (by simp), hd y (by simp)]))
      | nil =>
        intro ho hz
        obtain ⟨a, ids⟩ := x
        simp only [offsets, Option.bind_eq_bind] at ho
        cases hmx : maxOf ids with
        | none => simp [hmx] at ho
        | some m =>
          simp only [hmx, Option.bind_some, Option.pure_def, Option.some.injEq] at ho
          subst ho
          simp only [List.map_cons, List.map_nil, List.flatten_cons, List.flatten_nil, List.append_nil, List.zip_map,
            add_zero, List.map_id'] at hz
          clear hmx hl hk hkey hm h hf ht hd hg
          induction ids with
          | nil => simp at hz
          | cons i ids ih =>
            rw [List.map_cons, List.zip_cons_cons] at hz
            rcases List.mem_cons.1 hz with e | e
            · rw [Prod.mk.injEq] at e
              rw [e.1, e.2]
            · exact ih e

end Verif.Panoptic
