import Verif.Model.Hungarian
import Mathlib.Data.List.Nodup
import Mathlib.Data.List.Perm.Subperm
import Mathlib.Data.List.Range
import Mathlib.Tactic.Linarith
import Mathlib.Tactic.Ring

namespace Verif.Hungarian

/-- The edge `(i, j)` lies in the equality subgraph. -/
def Tight (n : Nat) (edge : Nat → ℤ) (lx ly : Nat → ℤ) (i j : Nat) : Prop :=
  lx i + ly j = edge (i * n + j)

section Neighbours
variable {n : Nat} {edge lx ly : Nat → ℤ}

theorem foldl_insert_spec (i : Nat) (L : List Nat) : ∀ (N : List Nat), N.Nodup →
    ∃ ext, L.foldl (fun N j => if lx i + ly j = edge (i * n + j) then insertOrd N j else N) N = N ++ ext ∧
      (N ++ ext).Nodup ∧
      (∀ j, j ∈ N ++ ext ↔ j ∈ N ∨ (j ∈ L ∧ Tight n edge lx ly i j)) ∧
      ∀ j ∈ ext, Tight n edge lx ly i j := by
  induction L with
  | nil => intro N h; exact ⟨[], by simp, by simpa using h, by simp, by simp⟩
  | cons a L ih =>
    intro N h
    simp only [List.foldl_cons]
    by_cases ht : lx i + ly a = edge (i * n + a)
    · rw [if_pos ht]
      by_cases hm : a ∈ N
      · have e : insertOrd N a = N := by simp [insertOrd, hm]
        rw [e]
        obtain ⟨ext, h1, h2, h3, h4⟩ := ih N h
        refine ⟨ext, h1, h2, ?_, h4⟩
        intro j; rw [h3]
        constructor
        · rintro (h | ⟨h, h'⟩)
          · exact Or.inl h
          · exact Or.inr ⟨List.mem_cons_of_mem _ h, h'⟩
        · rintro (h | ⟨h, h'⟩)
          · exact Or.inl h
          · rcases List.mem_cons.mp h with rfl | h
            · exact Or.inl hm
            · exact Or.inr ⟨h, h'⟩
      · have e : insertOrd N a = N ++ [a] := by simp [insertOrd, hm]
        rw [e]
        have hn : (N ++ [a]).Nodup := by
          rw [List.nodup_append]
          refine ⟨h, by simp, ?_⟩
          intro x hx y hy hxy
          simp only [List.mem_singleton] at hy
          exact hm (hy ▸ hxy ▸ hx)
        obtain ⟨ext, h1, h2, h3, h4⟩ := ih (N ++ [a]) hn
        refine ⟨a :: ext, by simpa using h1, by simpa using h2, ?_, ?_⟩
        · intro j
          have := h3 j
          simp only [List.append_assoc, List.singleton_append, List.mem_append, List.mem_cons,
            List.not_mem_nil, or_false] at this ⊢
          rw [this]
          constructor
          · rintro ((h | rfl) | ⟨h, h'⟩)
            · exact Or.inl h
            · exact Or.inr ⟨Or.inl rfl, ht⟩
            · exact Or.inr ⟨Or.inr h, h'⟩
          · rintro (h | ⟨rfl | h, h'⟩)
            · exact Or.inl (Or.inl h)
            · exact Or.inl (Or.inr rfl)
            · exact Or.inr ⟨h, h'⟩
        · intro j hj
          rcases List.mem_cons.mp hj with rfl | hj
          · exact ht
          · exact h4 j hj
    · rw [if_neg ht]
      obtain ⟨ext, h1, h2, h3, h4⟩ := ih N h
      refine ⟨ext, h1, h2, ?_, h4⟩
      intro j; rw [h3]
      constructor
      · rintro (h | ⟨h, h'⟩)
        · exact Or.inl h
        · exact Or.inr ⟨List.mem_cons_of_mem _ h, h'⟩
      · rintro (h | ⟨h, h'⟩)
        · exact Or.inl h
        · rcases List.mem_cons.mp h with rfl | h
          · exact absurd h' ht
          · exact Or.inr ⟨h, h'⟩

/-- Meaning of the pair `(N, parentN)` for the tree nodes `S`. -/
structure NInv (n : Nat) (edge lx ly : Nat → ℤ) (S : List Nat) (NP : List Nat × List Nat) : Prop where
  nodup : NP.1.Nodup
  len : NP.2.length = NP.1.length
  mem : ∀ j, j ∈ NP.1 ↔ j < n ∧ ∃ i ∈ S, Tight n edge lx ly i j
  parent : ∀ (k j : Nat), NP.1[k]? = some j →
    ∃ ii i : Nat, NP.2[k]? = some ii ∧ S[ii]? = some i ∧ Tight n edge lx ly i j

theorem NInv.add {S : List Nat} {NP : List Nat × List Nat} (h : NInv n edge lx ly S NP) (z : Nat) :
    NInv n edge lx ly (S ++ [z]) (addNeighbours n edge lx ly z S.length NP) := by
  obtain ⟨ext, h1, h2, h3, h4⟩ := foldl_insert_spec (n := n) (edge := edge) (lx := lx) (ly := ly) z
    (List.range n) NP.1 h.nodup
  have e : addNeighbours n edge lx ly z S.length NP =
      (NP.1 ++ ext, NP.2 ++ List.replicate ext.length S.length) := by
    simp only [addNeighbours, addNbrs, h1, List.length_append]
    rw [show NP.1.length + ext.length - NP.1.length = ext.length by omega]
  rw [e]
  refine ⟨h2, by simp [h.len], ?_, ?_⟩
  · intro j
    simp only
    rw [h3, h.mem]
    simp only [List.mem_range, List.mem_append, List.mem_singleton]
    constructor
    · rintro (⟨hj, i, hi, ht⟩ | ⟨hj, ht⟩)
      · exact ⟨hj, i, Or.inl hi, ht⟩
      · exact ⟨hj, z, Or.inr rfl, ht⟩
    · rintro ⟨hj, i, hi | rfl, ht⟩
      · exact Or.inl ⟨hj, i, hi, ht⟩
      · exact Or.inr ⟨hj, ht⟩
  · intro k j hk
    simp only at hk ⊢
    by_cases hlt : k < NP.1.length
    · rw [List.getElem?_append_left hlt] at hk
      obtain ⟨ii, i, hp, hs, ht⟩ := h.parent k j hk
      refine ⟨ii, i, ?_, ?_, ht⟩
      · rw [List.getElem?_append_left (by rw [h.len]; exact hlt)]; exact hp
      · rw [List.getElem?_append_left]
        · exact hs
        · by_contra hc
          rw [List.getElem?_eq_none (by omega)] at hs
          cases hs
    · rw [List.getElem?_append_right (by omega)] at hk
      have hmem : j ∈ ext := List.mem_of_getElem? hk
      have hlt2 : k - NP.1.length < ext.length := by
        by_contra hc
        rw [List.getElem?_eq_none (by omega)] at hk
        cases hk
      refine ⟨S.length, z, ?_, by simp, h4 j hmem⟩
      rw [List.getElem?_append_right (by rw [h.len]; omega), h.len]
      simp [hlt2]

theorem NInv.nil : NInv n edge lx ly [] ([], []) :=
  ⟨by simp, by simp, by simp, by simp⟩

theorem findNeighboursFrom_inv (S : List Nat) : ∀ (pre : List Nat) (NP : List Nat × List Nat),
    NInv n edge lx ly pre NP →
    NInv n edge lx ly (pre ++ S) (findNeighboursFrom n edge lx ly pre.length S NP) := by
  induction S with
  | nil => intro pre NP h; simpa [findNeighboursFrom] using h
  | cons i S ih =>
    intro pre NP h
    have h1 := h.add i
    have h2 := ih (pre ++ [i]) _ h1
    simpa [findNeighboursFrom] using h2

theorem findNeighbours_inv (S : List Nat) :
    NInv n edge lx ly S (findNeighbours n edge lx ly S) := by
  simpa [findNeighbours] using findNeighboursFrom_inv (n := n) (edge := edge) (lx := lx) (ly := ly) S []
    ([], []) NInv.nil

end Neighbours

section Slack
variable {n : Nat} {edge lx ly : Nat → ℤ}

theorem foldl_min_spec (g : Nat → ℤ) (P : Nat → Prop) [DecidablePred P] (L : List Nat) : ∀ a : ℤ,
    let r := L.foldl (fun a j => if P j then a else min a (g j)) a
    r ≤ a ∧ (∀ j ∈ L, ¬ P j → r ≤ g j) ∧ (r = a ∨ ∃ j ∈ L, ¬ P j ∧ r = g j) := by
  induction L with
  | nil => intro a; simp
  | cons b L ih =>
    intro a
    simp only [List.foldl_cons]
    by_cases hb : P b
    · rw [if_pos hb]
      obtain ⟨h1, h2, h3⟩ := ih a
      refine ⟨h1, ?_, ?_⟩
      · intro j hj hp
        rcases List.mem_cons.mp hj with rfl | hj
        · exact absurd hb hp
        · exact h2 j hj hp
      · rcases h3 with h3 | ⟨j, hj, hp, h3⟩
        · exact Or.inl h3
        · exact Or.inr ⟨j, List.mem_cons_of_mem _ hj, hp, h3⟩
    · rw [if_neg hb]
      obtain ⟨h1, h2, h3⟩ := ih (min a (g b))
      refine ⟨le_trans h1 (min_le_left _ _), ?_, ?_⟩
      · intro j hj hp
        rcases List.mem_cons.mp hj with rfl | hj
        · exact le_trans h1 (min_le_right _ _)
        · exact h2 j hj hp
      · rcases h3 with h3 | ⟨j, hj, hp, h3⟩
        · rcases min_choice a (g b) with h | h
          · exact Or.inl (h3.trans h)
          · exact Or.inr ⟨b, by simp, hb, h3.trans h⟩
        · exact Or.inr ⟨j, List.mem_cons_of_mem _ hj, hp, h3⟩

theorem minSlack_aux (S T : List Nat) : ∀ a : ℤ,
    let r := S.foldl
      (fun a i => (List.range n).foldl
        (fun a j => if j ∈ T then a else min a (lx i + ly j - edge (i * n + j))) a) a
    r ≤ a ∧ (∀ i ∈ S, ∀ j < n, j ∉ T → r ≤ lx i + ly j - edge (i * n + j)) ∧
      (r = a ∨ ∃ i ∈ S, ∃ j < n, j ∉ T ∧ r = lx i + ly j - edge (i * n + j)) := by
  induction S with
  | nil => intro a; simp
  | cons i S ih =>
    intro a
    simp only [List.foldl_cons]
    obtain ⟨r1, r2, r3⟩ := foldl_min_spec (fun j => lx i + ly j - edge (i * n + j)) (· ∈ T)
      (List.range n) a
    simp only [List.mem_range] at r2 r3
    set a' := (List.range n).foldl
        (fun a j => if j ∈ T then a else min a (lx i + ly j - edge (i * n + j))) a
    obtain ⟨h1, h2, h3⟩ := ih a'
    refine ⟨le_trans h1 r1, ?_, ?_⟩
    · intro i' hi' j hj hT
      rcases List.mem_cons.mp hi' with rfl | hi'
      · exact le_trans h1 (r2 j hj hT)
      · exact h2 i' hi' j hj hT
    · rcases h3 with h3 | ⟨i', hi', j, hj, hT, h3⟩
      · rcases r3 with r3 | ⟨j, hj, hT, r3⟩
        · exact Or.inl (h3.trans r3)
        · exact Or.inr ⟨i, by simp, j, hj, hT, h3.trans r3⟩
      · exact Or.inr ⟨i', List.mem_cons_of_mem _ hi', j, hj, hT, h3⟩

theorem lowerAll_spec (a : ℤ) (S : List Nat) : ∀ (f : Nat → ℤ), S.Nodup → ∀ x,
    lowerAll f S a x = if x ∈ S then f x - a else f x := by
  induction S with
  | nil => intro f _ x; simp [lowerAll]
  | cons i S ih =>
    intro f h x
    have hn := List.nodup_cons.mp h
    have := ih (fun x => if x = i then f i - a else f x) hn.2 x
    simp only [lowerAll, List.foldl_cons] at this ⊢
    rw [this]
    by_cases hx : x = i
    · subst hx; simp [hn.1]
    · simp [hx]

theorem raiseAll_spec (a : ℤ) (T : List Nat) : ∀ (f : Nat → ℤ), T.Nodup → ∀ x,
    raiseAll f T a x = if x ∈ T then f x + a else f x := by
  induction T with
  | nil => intro f _ x; simp [raiseAll]
  | cons i T ih =>
    intro f h x
    have hn := List.nodup_cons.mp h
    have := ih (fun x => if x = i then f i + a else f x) hn.2 x
    simp only [raiseAll, List.foldl_cons] at this ⊢
    rw [this]
    by_cases hx : x = i
    · subst hx; simp [hn.1]
    · simp [hx]

end Slack

/-- Invariant of the outer loop. -/
structure OInv (n : Nat) (edge : Nat → ℤ) (W : ℤ) (m : Matching) (lx ly : Nat → ℤ) : Prop where
  feas : ∀ i < n, ∀ j < n, edge (i * n + j) ≤ lx i + ly j
  cons : ∀ i j, m.p i = some j ↔ m.ip j = some i
  tight : ∀ i j, m.p i = some j → i < n ∧ j < n ∧ Tight n edge lx ly i j
  lynn : ∀ j < n, 0 ≤ ly j
  lyfree : ∀ j < n, m.ip j = none → ly j = 0
  lxnn : ∀ i < n, 0 ≤ lx i
  lxW : ∀ i < n, lx i ≤ W

/-- Invariant of the alternating tree in the inner loop. -/
structure TInv (n : Nat) (edge : Nat → ℤ) (W : ℤ) (m : Matching) (i0 : Nat) (t : Tree) : Prop where
  o : OInv n edge W m t.lx t.ly
  root : i0 < n ∧ m.p i0 = none
  S0 : t.S[0]? = some i0
  lenS : t.S.length = t.T.length + 1
  link : ∀ k j : Nat, t.T[k]? = some j → ∃ i : Nat, t.S[k + 1]? = some i ∧ m.ip j = some i
  Tnodup : t.T.Nodup
  Tlt : ∀ j ∈ t.T, j < n
  lenP : t.parentT.length = t.T.length
  par : ∀ k j : Nat, t.T[k]? = some j → ∃ ii i : Nat, t.parentT[k]? = some ii ∧ ii ≤ k ∧ t.S[ii]? = some i ∧
    Tight n edge t.lx t.ly i j
  N : NInv n edge t.lx t.ly t.S (t.N, t.parentN)
  TN : ∀ j ∈ t.T, j ∈ t.N

/-- Some column is free as long as the root row is. -/
theorem exists_free {n : Nat} {m : Matching} (cons : ∀ i j, m.p i = some j ↔ m.ip j = some i)
    (hlt : ∀ i j, m.p i = some j → i < n ∧ j < n) {i0 : Nat} (h0 : i0 < n) (hp : m.p i0 = none) :
    ∃ j < n, m.ip j = none := by
  by_contra hc
  push Not at hc
  have hall : ∀ j < n, ∃ i, m.ip j = some i := by
    intro j hj
    exact Option.ne_none_iff_exists'.mp (hc j hj)
  -- map j ↦ ip j injects range n into (range n) without i0
  let f : Nat → Nat := fun j => (m.ip j).getD 0
  have hf : ∀ j < n, m.ip j = some (f j) := by
    intro j hj
    obtain ⟨i, hi⟩ := hall j hj
    simp [f, hi]
  have hnd : ((List.range n).map f).Nodup := by
    refine List.Nodup.map_on ?_ List.nodup_range
    intro x hx y hy hxy
    have h1 := hf x (List.mem_range.mp hx)
    have h2 := hf y (List.mem_range.mp hy)
    have h3 := (cons _ _).mpr h1
    have h4 := (cons _ _).mpr h2
    rw [hxy, h4] at h3
    simpa using h3.symm
  have hsub : (List.range n).map f ⊆ (List.range n).erase i0 := by
    intro i hi
    obtain ⟨j, hj, rfl⟩ := List.mem_map.mp hi
    have h1 := hf j (List.mem_range.mp hj)
    have h2 := (cons _ _).mpr h1
    rw [List.Nodup.mem_erase_iff List.nodup_range]
    refine ⟨?_, List.mem_range.mpr (hlt _ _ h2).1⟩
    intro h; rw [h, hp] at h2; cases h2
  have hle := (hnd.subperm hsub).length_le
  rw [List.length_map, List.length_range, List.length_erase_of_mem (List.mem_range.mpr h0),
    List.length_range] at hle
  omega

namespace TInv
variable {n : Nat} {edge : Nat → ℤ} {W : ℤ} {m : Matching} {i0 : Nat} {t : Tree}

theorem T_matched (h : TInv n edge W m i0 t) : ∀ j ∈ t.T, ∃ i ∈ t.S, m.ip j = some i := by
  intro j hj
  obtain ⟨k, hk⟩ := List.mem_iff_getElem?.mp hj
  obtain ⟨i, h1, h2⟩ := h.link k j hk
  exact ⟨i, List.mem_of_getElem? h1, h2⟩

theorem S_matched (h : TInv n edge W m i0 t) {k i : Nat} (hk : t.S[k + 1]? = some i) :
    ∃ j, t.T[k]? = some j ∧ m.ip j = some i := by
  have hlt : k < t.T.length := by
    have : k + 1 < t.S.length := by
      by_contra hc
      rw [List.getElem?_eq_none (by omega)] at hk; cases hk
    have := h.lenS; omega
  have h1 : t.T[k]? = some t.T[k] := List.getElem?_eq_getElem hlt
  obtain ⟨i', h2, h3⟩ := h.link k _ h1
  rw [hk] at h2
  cases h2
  exact ⟨_, h1, h3⟩

theorem mem_S (h : TInv n edge W m i0 t) {i : Nat} (hi : i ∈ t.S) :
    i = i0 ∨ ∃ j ∈ t.T, m.p i = some j := by
  obtain ⟨k, hk⟩ := List.mem_iff_getElem?.mp hi
  cases k with
  | zero => rw [h.S0] at hk; left; exact (Option.some.inj hk).symm
  | succ k =>
    obtain ⟨j, h1, h2⟩ := h.S_matched hk
    exact Or.inr ⟨j, List.mem_of_getElem? h1, (h.o.cons _ _).mpr h2⟩

theorem S_lt (h : TInv n edge W m i0 t) : ∀ i ∈ t.S, i < n := by
  intro i hi
  rcases h.mem_S hi with rfl | ⟨j, _, hp⟩
  · exact h.root.1
  · exact (h.o.tight _ _ hp).1

theorem getElem?_inj_of_nodup {l : List Nat} (hn : l.Nodup) {a b x : Nat} (ha : l[a]? = some x)
    (hb : l[b]? = some x) : a = b := by
  have h1 : a < l.length := by
    by_contra hc; rw [List.getElem?_eq_none (by omega)] at ha; cases ha
  have h2 : b < l.length := by
    by_contra hc; rw [List.getElem?_eq_none (by omega)] at hb; cases hb
  rw [List.getElem?_eq_getElem h1] at ha
  rw [List.getElem?_eq_getElem h2] at hb
  exact (List.Nodup.getElem_inj_iff hn).mp ((Option.some.inj ha).trans (Option.some.inj hb).symm)

theorem S_nodup (h : TInv n edge W m i0 t) : t.S.Nodup := by
  rw [List.nodup_iff_injective_getElem]
  rintro ⟨a, ha⟩ ⟨b, hb⟩ hab
  simp only at hab
  rw [Fin.mk.injEq]
  have h1 : t.S[a]? = some t.S[a] := List.getElem?_eq_getElem ha
  have h2 : t.S[b]? = some t.S[a] := by rw [hab]; exact List.getElem?_eq_getElem hb
  cases a with
  | zero =>
    cases b with
    | zero => rfl
    | succ b =>
      obtain ⟨j, _, h4⟩ := h.S_matched h2
      have h5 := (h.o.cons _ _).mpr h4
      rw [h.S0] at h1
      rw [← Option.some.inj h1, h.root.2] at h5
      cases h5
  | succ a =>
    obtain ⟨j, h3, h4⟩ := h.S_matched h1
    have h5 := (h.o.cons _ _).mpr h4
    cases b with
    | zero =>
      rw [h.S0] at h2
      rw [← Option.some.inj h2, h.root.2] at h5
      cases h5
    | succ b =>
      obtain ⟨j', h6, h7⟩ := h.S_matched h2
      have h8 := (h.o.cons _ _).mpr h7
      rw [h5] at h8
      cases h8
      rw [getElem?_inj_of_nodup h.Tnodup h3 h6]

theorem exists_free_not_T (h : TInv n edge W m i0 t) : ∃ j < n, j ∉ t.T ∧ m.ip j = none := by
  obtain ⟨j, hj, hf⟩ := exists_free h.o.cons (fun i j hp => ⟨(h.o.tight i j hp).1, (h.o.tight i j hp).2.1⟩)
    h.root.1 h.root.2
  refine ⟨j, hj, ?_, hf⟩
  intro hT
  obtain ⟨i, _, hi⟩ := h.T_matched j hT
  rw [hf] at hi; cases hi

theorem lyW (o : OInv n edge W m t.lx t.ly) (hW : 0 ≤ W) (hedge : ∀ i < n, ∀ j < n, edge (i * n + j) ≤ W) :
    ∀ j < n, t.ly j ≤ W := by
  intro j hj
  cases hip : m.ip j with
  | none => rw [o.lyfree j hj hip]; exact hW
  | some i =>
    obtain ⟨hi, _, ht⟩ := o.tight i j ((o.cons _ _).mpr hip)
    have := o.lxnn i hi
    have := hedge i hi j hj
    unfold Tight at ht
    omega

end TInv

end Verif.Hungarian
