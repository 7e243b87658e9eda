import Verif.Lemmas.Hungarian

namespace Verif.Hungarian

section Refresh
variable {n : Nat} {edge : Nat → ℤ} {W : ℤ} {m : Matching} {i0 : Nat} {t : Tree}

theorem sameSet_false {N T : List Nat} (hN : N.Nodup) (hT : T.Nodup) (hTN : ∀ j ∈ T, j ∈ N)
    (h : sameSet N T = false) : ∃ j ∈ N, j ∉ T := by
  by_contra hc
  push Not at hc
  have h1 := (hN.subperm hc).length_le
  have h2 := (hT.subperm hTN).length_le
  have : sameSet N T = true := by
    simp only [sameSet, Bool.and_eq_true, beq_iff_eq, List.all_eq_true, decide_eq_true_eq]
    exact ⟨by omega, hc⟩
  rw [this] at h; cases h

theorem refresh_spec (h : TInv n edge W m i0 t) (hnn : ∀ i < n, ∀ j < n, 0 ≤ edge (i * n + j))
    (hW : ∀ i < n, ∀ j < n, edge (i * n + j) ≤ W) (hW0 : 0 ≤ W) (hmax : 2 * W ≤ weightMax) :
    TInv n edge W m i0 (refresh n edge t) ∧ (refresh n edge t).S = t.S ∧ (refresh n edge t).T = t.T ∧
      ∃ j ∈ (refresh n edge t).N, j ∉ t.T := by
  unfold refresh
  by_cases hs : sameSet t.N t.T = true
  · rw [if_pos hs]
    simp only
    have hSn := h.S_nodup
    have hlyW := TInv.lyW h.o hW0 hW
    obtain ⟨m1, m2, m3⟩ := minSlack_aux (n := n) (edge := edge) (lx := t.lx) (ly := t.ly) t.S t.T weightMax
    set a := minSlack n edge t.S t.T t.lx t.ly with ha
    have ea : (t.S.foldl
      (fun a i => (List.range n).foldl
        (fun a j => if j ∈ t.T then a else min a (t.lx i + t.ly j - edge (i * n + j))) a) weightMax) = a := rfl
    rw [ea] at m1 m2 m3
    obtain ⟨jf, hjf, hjfT, hjfree⟩ := h.exists_free_not_T
    have hi0S : i0 ∈ t.S := List.mem_of_getElem? h.S0
    have hatt : ∃ i ∈ t.S, ∃ j < n, j ∉ t.T ∧ a = t.lx i + t.ly j - edge (i * n + j) := by
      rcases m3 with m3 | m3
      · refine ⟨i0, hi0S, jf, hjf, hjfT, ?_⟩
        have h1 := m2 i0 hi0S jf hjf hjfT
        have h2 := h.o.lxW i0 h.root.1
        have h3 := h.o.lyfree jf hjf hjfree
        have h4 := hnn i0 h.root.1 jf hjf
        omega
      · exact m3
    have ha0 : 0 ≤ a := by
      obtain ⟨i, hi, j, hj, _, he⟩ := hatt
      have := h.o.feas i (h.S_lt i hi) j hj
      omega
    have elx : ∀ x, (improve n edge t.S t.T t.lx t.ly).1 x = if x ∈ t.S then t.lx x - a else t.lx x :=
      lowerAll_spec a t.S t.lx hSn
    have ely : ∀ x, (improve n edge t.S t.T t.lx t.ly).2 x = if x ∈ t.T then t.ly x + a else t.ly x :=
      raiseAll_spec a t.T t.ly h.Tnodup
    set lx' := (improve n edge t.S t.T t.lx t.ly).1
    set ly' := (improve n edge t.S t.T t.lx t.ly).2
    have hfeas : ∀ i < n, ∀ j < n, edge (i * n + j) ≤ lx' i + ly' j := by
      intro i hi j hj
      rw [elx, ely]
      have h1 := h.o.feas i hi j hj
      by_cases hiS : i ∈ t.S
      · by_cases hjT : j ∈ t.T
        · rw [if_pos hiS, if_pos hjT]; omega
        · have := m2 i hiS j hj hjT
          rw [if_pos hiS, if_neg hjT]; omega
      · by_cases hjT : j ∈ t.T
        · rw [if_neg hiS, if_pos hjT]; omega
        · rw [if_neg hiS, if_neg hjT]; exact h1
    have htST : ∀ i j, i ∈ t.S → j ∈ t.T → Tight n edge t.lx t.ly i j → Tight n edge lx' ly' i j := by
      intro i j hi hj ht
      unfold Tight at ht ⊢
      rw [elx, ely, if_pos hi, if_pos hj]; omega
    have hO : OInv n edge W m lx' ly' := by
      refine ⟨hfeas, h.o.cons, ?_, ?_, ?_, ?_, ?_⟩
      · intro i j hp
        obtain ⟨hi, hj, ht⟩ := h.o.tight i j hp
        refine ⟨hi, hj, ?_⟩
        by_cases hiS : i ∈ t.S
        · rcases h.mem_S hiS with rfl | ⟨j', hj', hp'⟩
          · rw [h.root.2] at hp; cases hp
          · rw [hp] at hp'; cases hp'
            exact htST i j hiS hj' ht
        · have hjT : j ∉ t.T := by
            intro hjT
            obtain ⟨i', hi', hip⟩ := h.T_matched j hjT
            have := (h.o.cons _ _).mp hp
            rw [this] at hip; cases hip
            exact hiS hi'
          unfold Tight at ht ⊢
          rw [elx, ely, if_neg hiS, if_neg hjT]; exact ht
      · intro j hj
        have := h.o.lynn j hj
        rw [ely]; split_ifs <;> omega
      · intro j hj hf
        have hjT : j ∉ t.T := by
          intro hjT
          obtain ⟨i', hi', hip⟩ := h.T_matched j hjT
          rw [hf] at hip; cases hip
        rw [ely, if_neg hjT]; exact h.o.lyfree j hj hf
      · intro i hi
        have h1 := hfeas i hi jf hjf
        have h2 : ly' jf = 0 := by rw [ely, if_neg hjfT]; exact h.o.lyfree jf hjf hjfree
        have h3 := hnn i hi jf hjf
        omega
      · intro i hi
        have := h.o.lxW i hi
        rw [elx]; split_ifs <;> omega
    have hNI := findNeighbours_inv (n := n) (edge := edge) (lx := lx') (ly := ly') t.S
    have hpar : ∀ k j : Nat, t.T[k]? = some j → ∃ ii i : Nat, t.parentT[k]? = some ii ∧ ii ≤ k ∧
        t.S[ii]? = some i ∧ Tight n edge lx' ly' i j := by
      intro k j hk
      obtain ⟨ii, i, h1, h2, h3, h4⟩ := h.par k j hk
      exact ⟨ii, i, h1, h2, h3, htST i j (List.mem_of_getElem? h3) (List.mem_of_getElem? hk) h4⟩
    refine ⟨⟨hO, h.root, h.S0, h.lenS, h.link, h.Tnodup, h.Tlt, h.lenP, hpar, hNI, ?_⟩, trivial, trivial, ?_⟩
    · intro j hj
      obtain ⟨k, hk⟩ := List.mem_iff_getElem?.mp hj
      obtain ⟨ii, i, h1, h2, h3, h4⟩ := hpar k j hk
      exact (hNI.mem j).mpr ⟨h.Tlt j hj, i, List.mem_of_getElem? h3, h4⟩
    · obtain ⟨i, hi, j, hj, hjT, he⟩ := hatt
      refine ⟨j, (hNI.mem j).mpr ⟨hj, i, hi, ?_⟩, hjT⟩
      unfold Tight
      rw [elx, ely, if_pos hi, if_neg hjT]; omega
  · rw [if_neg hs]
    exact ⟨h, rfl, rfl, sameSet_false h.N.nodup h.Tnodup h.TN (by simpa using hs)⟩

end Refresh

section Augment
variable {n : Nat} {edge lx ly : Nat → ℤ}

/-- State of the augmentation loop while the column `j = T[k']` is being rematched. -/
structure AInv (n : Nat) (edge lx ly : Nat → ℤ) (S T : List Nat) (i0 k' j : Nat) (m : Matching) :
    Prop where
  tk : T[k']? = some j
  cons : ∀ x y, y ≠ j → (m.p x = some y ↔ m.ip y = some x)
  free : ∀ x, m.p x ≠ some j
  tight : ∀ x y, m.p x = some y → x < n ∧ y < n ∧ Tight n edge lx ly x y
  link : ∀ (kk y : Nat), kk < k' → T[kk]? = some y → ∃ x : Nat, S[kk + 1]? = some x ∧ m.p x = some y
  root : m.p i0 = none

/-- What augmenting achieves. -/
structure AugRes (n : Nat) (edge lx ly : Nat → ℤ) (i0 : Nat) (m m' : Matching) : Prop where
  cons : ∀ x y, m'.p x = some y ↔ m'.ip y = some x
  tight : ∀ x y, m'.p x = some y → x < n ∧ y < n ∧ Tight n edge lx ly x y
  dom : ∀ x, m'.p x = none ↔ m.p x = none ∧ x ≠ i0
  ipdom : ∀ y, m'.ip y = none → m.ip y = none

theorem augLoop_spec {S T P : List Nat} (hS : S.Nodup) (hT : T.Nodup) {i0 : Nat}
    (hS0 : S[0]? = some i0) (hSlt : ∀ i ∈ S, i < n) (hTlt : ∀ j ∈ T, j < n)
    (hpar : ∀ k j : Nat, T[k]? = some j → ∃ ii i : Nat, P[k]? = some ii ∧ ii ≤ k ∧ S[ii]? = some i ∧
      Tight n edge lx ly i j) :
    ∀ (k : Nat) (k' j : Nat) (m : Matching), k < T.length → k' ≤ k →
      AInv n edge lx ly S T i0 k' j m →
      ∃ m', augLoop S T P (k + 1) (some j) m = some m' ∧ AugRes n edge lx ly i0 m m' := by
  intro k
  induction k with
  | zero =>
    intro k' j m hk hk' hA
    have : k' = 0 := by omega
    subst this
    obtain ⟨ii, i, h1, h2, h3, h4⟩ := hpar 0 j hA.tk
    have hii : ii = 0 := by omega
    subst hii
    rw [hS0] at h3; cases h3
    refine ⟨m.add i0 j, ?_, ?_⟩
    · simp only [augLoop, hA.tk, h1, hS0, hA.root]; simp
    · refine ⟨?_, ?_, ?_, ?_⟩
      · intro x y
        simp only [Matching.add]
        by_cases hx : x = i0
        · by_cases hy : y = j
          · simp [hx, hy]
          · simp only [hx, hy, if_true, if_false]
            rw [← hA.cons i0 y hy, hA.root]
            simp only [Option.some.injEq, reduceCtorEq, iff_false]
            exact fun h => hy h.symm
        · by_cases hy : y = j
          · simp only [hx, hy, if_true, if_false, Option.some.injEq]
            constructor
            · intro h; exact absurd h (hA.free x)
            · intro h; exact absurd h.symm hx
          · simp only [hx, hy, if_false]; exact hA.cons x y hy
      · intro x y
        simp only [Matching.add]
        by_cases hx : x = i0
        · simp only [hx, if_true, Option.some.injEq]
          rintro rfl
          exact ⟨hSlt _ (List.mem_of_getElem? hS0), hTlt _ (List.mem_of_getElem? hA.tk), h4⟩
        · simp only [hx, if_false]; exact hA.tight x y
      · intro x
        simp only [Matching.add]
        by_cases hx : x = i0 <;> simp [hx]
      · intro y
        simp only [Matching.add]
        by_cases hy : y = j <;> simp [hy]
  | succ k ih =>
    intro k' j m hk hk' hA
    by_cases hkk : k' = k + 1
    · subst hkk
      obtain ⟨ii, i, h1, h2, h3, h4⟩ := hpar (k + 1) j hA.tk
      have hiS : i ∈ S := List.mem_of_getElem? h3
      cases ii with
      | zero =>
        rw [hS0] at h3; cases h3
        refine ⟨m.add i0 j, ?_, ?_⟩
        · simp only [augLoop, hA.tk, h1, hS0, hA.root]; simp
        · refine ⟨?_, ?_, ?_, ?_⟩
          · intro x y
            simp only [Matching.add]
            by_cases hx : x = i0
            · by_cases hy : y = j
              · simp [hx, hy]
              · simp only [hx, hy, if_true, if_false]
                rw [← hA.cons i0 y hy, hA.root]
                simp only [Option.some.injEq, reduceCtorEq, iff_false]
                exact fun h => hy h.symm
            · by_cases hy : y = j
              · simp only [hx, hy, if_true, if_false, Option.some.injEq]
                constructor
                · intro h; exact absurd h (hA.free x)
                · intro h; exact absurd h.symm hx
              · simp only [hx, hy, if_false]; exact hA.cons x y hy
          · intro x y
            simp only [Matching.add]
            by_cases hx : x = i0
            · simp only [hx, if_true, Option.some.injEq]
              rintro rfl
              exact ⟨hSlt _ hiS, hTlt _ (List.mem_of_getElem? hA.tk), h4⟩
            · simp only [hx, if_false]; exact hA.tight x y
          · intro x
            simp only [Matching.add]
            by_cases hx : x = i0 <;> simp [hx]
          · intro y
            simp only [Matching.add]
            by_cases hy : y = j <;> simp [hy]
      | succ ii =>
        -- the row `i = S[ii+1]` is matched to `T[ii]`
        have hiiT : ii < T.length := by omega
        have hTii : T[ii]? = some T[ii] := List.getElem?_eq_getElem hiiT
        obtain ⟨x0, hx0, hpx0⟩ := hA.link ii T[ii] (by omega) hTii
        rw [h3] at hx0; cases hx0
        have hne : T[ii] ≠ j := by
          intro he
          rw [he] at hTii
          have := TInv.getElem?_inj_of_nodup hT hTii hA.tk
          omega
        have hi0 : i ≠ i0 := by
          intro he; rw [he, hA.root] at hpx0; cases hpx0
        have hA' : AInv n edge lx ly S T i0 ii T[ii] (m.add i j) := by
          refine ⟨hTii, ?_, ?_, ?_, ?_, ?_⟩
          · intro x y hy
            simp only [Matching.add]
            by_cases hx : x = i
            · by_cases hyj : y = j
              · simp [hx, hyj]
              · simp only [hx, hyj, if_true, if_false]
                rw [← hA.cons i y hyj, hpx0]
                simp only [Option.some.injEq]
                constructor
                · intro h; exact absurd h.symm hyj
                · intro h; exact absurd h.symm hy
            · by_cases hyj : y = j
              · simp only [hx, hyj, if_true, if_false, Option.some.injEq]
                constructor
                · intro h; exact absurd h (hA.free x)
                · intro h; exact absurd h.symm hx
              · simp only [hx, hyj, if_false]; exact hA.cons x y hyj
          · intro x
            simp only [Matching.add]
            by_cases hx : x = i
            · simp only [hx, if_true, ne_eq, Option.some.injEq]
              exact fun h => hne h.symm
            · simp only [hx, if_false]
              intro h
              have h5 := (hA.cons x _ hne).mp h
              have h6 := (hA.cons i _ hne).mp hpx0
              rw [h5] at h6; exact hx (Option.some.inj h6)
          · intro x y
            simp only [Matching.add]
            by_cases hx : x = i
            · simp only [hx, if_true, Option.some.injEq]
              rintro rfl
              exact ⟨hSlt _ hiS, hTlt _ (List.mem_of_getElem? hA.tk), h4⟩
            · simp only [hx, if_false]; exact hA.tight x y
          · intro kk y hkk hy
            obtain ⟨x, hx, hpx⟩ := hA.link kk y (by omega) hy
            refine ⟨x, hx, ?_⟩
            simp only [Matching.add]
            have : x ≠ i := by
              intro he
              rw [he] at hx
              have := TInv.getElem?_inj_of_nodup hS hx h3
              omega
            simp only [this, if_false]; exact hpx
          · simp only [Matching.add, Ne.symm hi0, if_false]; exact hA.root
        obtain ⟨m', hm', hR⟩ := ih ii T[ii] (m.add i j) (by omega) (by omega) hA'
        refine ⟨m', ?_, ?_⟩
        · rw [augLoop]
          simp only [hA.tk, h1, h3, hpx0, if_true]
          rw [if_neg (by omega)]
          exact hm'
        · refine ⟨hR.cons, hR.tight, ?_, ?_⟩
          · intro x
            rw [hR.dom]
            simp only [Matching.add]
            by_cases hx : x = i
            · simp [hx, hpx0]
            · simp [hx]
          · intro y hy
            have := hR.ipdom y hy
            simp only [Matching.add] at this
            by_cases hyj : y = j
            · simp [hyj] at this
            · simpa [hyj] using this
    · have hlt : k' ≤ k := by omega
      have hTk : T[k + 1]? = some T[k + 1] := List.getElem?_eq_getElem hk
      have hne : T[k + 1] ≠ j := by
        intro he
        rw [he] at hTk
        have := TInv.getElem?_inj_of_nodup hT hTk hA.tk
        omega
      obtain ⟨m', hm', hR⟩ := ih k' j m (by omega) hlt hA
      refine ⟨m', ?_, hR⟩
      rw [augLoop, hTk]
      simp only [Option.some.injEq, hne, if_false]
      exact hm'

end Augment

section Inner
variable {n : Nat} {edge : Nat → ℤ} {W : ℤ} {m : Matching} {i0 : Nat}

theorem inner_spec (hnn : ∀ i < n, ∀ j < n, 0 ≤ edge (i * n + j))
    (hW : ∀ i < n, ∀ j < n, edge (i * n + j) ≤ W) (hW0 : 0 ≤ W) (hmax : 2 * W ≤ weightMax) :
    ∀ (fuel : Nat) (t : Tree), TInv n edge W m i0 t → n + 1 ≤ fuel + t.T.length →
      ∃ m' lx' ly', inner n edge m fuel t = some (m', lx', ly') ∧ OInv n edge W m' lx' ly' ∧
        (∀ x, m'.p x = none ↔ m.p x = none ∧ x ≠ i0) := by
  intro fuel
  induction fuel with
  | zero =>
    intro t h hf
    exfalso
    have h1 : t.T.length ≤ n := by
      have := (h.Tnodup.subperm (l₂ := List.range n) (fun j hj => List.mem_range.mpr (h.Tlt j hj))).length_le
      simpa using this
    omega
  | succ fuel ih =>
    intro t0 h0 hf
    obtain ⟨h, eS, eT, jx, hjx, hjxT⟩ := refresh_spec h0 hnn hW hW0 hmax
    rw [← eT] at hjxT
    rw [inner]
    simp only
    have eT' := eT
    set t := refresh n edge t0 with ht
    have hpick : ∃ jj, pickY t.N t.T = some jj := by
      have : (pickY t.N t.T).isSome := by
        simp only [pickY, List.findIdx?_isSome, List.any_eq_true, decide_eq_true_eq]
        exact ⟨jx, hjx, hjxT⟩
      exact Option.isSome_iff_exists.mp this
    obtain ⟨jj, hjj⟩ := hpick
    have hjj2 := List.findIdx?_eq_some_iff_getElem.mp hjj
    obtain ⟨hjjlt, hjjP, _⟩ := hjj2
    have hNj : t.N[jj]? = some t.N[jj] := List.getElem?_eq_getElem hjjlt
    have hjT : t.N[jj] ∉ t.T := by simpa using hjjP
    obtain ⟨ii, ip, hpN, hSii, htight⟩ := h.N.parent jj _ hNj
    simp only at hpN
    set j := t.N[jj] with hj
    have hjn : j < n := ((h.N.mem j).mp (List.getElem_mem hjjlt)).1
    have hiilt : ii < t.S.length := by
      by_contra hc; rw [List.getElem?_eq_none (by omega)] at hSii; cases hSii
    have hins : insertOrd t.T j = t.T ++ [j] := by simp [insertOrd, hjT]
    have hTn : (t.T ++ [j]).Nodup := by
      rw [List.nodup_append]
      refine ⟨h.Tnodup, by simp, ?_⟩
      intro x hx y hy hxy
      simp only [List.mem_singleton] at hy
      exact hjT (hy ▸ hxy ▸ hx)
    have hTlt : ∀ y ∈ t.T ++ [j], y < n := by
      intro y hy
      rcases List.mem_append.mp hy with hy | hy
      · exact h.Tlt y hy
      · rw [List.mem_singleton.mp hy]; exact hjn
    have hpar' : ∀ (S' : List Nat), (∀ k i : Nat, t.S[k]? = some i → S'[k]? = some i) →
        ∀ k y : Nat, (t.T ++ [j])[k]? = some y → ∃ ii' i : Nat, (t.parentT ++ [ii])[k]? = some ii' ∧
          ii' ≤ k ∧ S'[ii']? = some i ∧ Tight n edge t.lx t.ly i y := by
      intro S' hS' k y hk
      by_cases hlt : k < t.T.length
      · rw [List.getElem?_append_left hlt] at hk
        obtain ⟨ii', i, h1, h2, h3, h4⟩ := h.par k y hk
        exact ⟨ii', i, by rw [List.getElem?_append_left (by rw [h.lenP]; exact hlt)]; exact h1, h2,
          hS' _ _ h3, h4⟩
      · have hk' : k = t.T.length := by
          have : k < (t.T ++ [j]).length := by
            by_contra hc; rw [List.getElem?_eq_none (by omega)] at hk; cases hk
          simp at this; omega
        subst hk'
        simp only [List.getElem?_concat_length, Option.some.injEq] at hk
        subst hk
        refine ⟨ii, ip, ?_, ?_, hS' _ _ hSii, htight⟩
        · rw [← h.lenP]; simp
        · have := h.lenS; omega
    rw [hjj]
    simp only [hNj, hpN, hins]
    cases hip : m.ip j with
    | none =>
      simp only
      have hA : AInv n edge t.lx t.ly t.S (t.T ++ [j]) i0 t.T.length j m := by
        refine ⟨by simp, ?_, ?_, h.o.tight, ?_, h.root.2⟩
        · intro x y _; exact h.o.cons x y
        · intro x hx
          rw [(h.o.cons x j).mp hx] at hip; cases hip
        · intro kk y hkk hy
          rw [List.getElem?_append_left hkk] at hy
          obtain ⟨i, h1, h2⟩ := h.link kk y hy
          exact ⟨i, h1, (h.o.cons _ _).mpr h2⟩
      obtain ⟨m', hm', hR⟩ := augLoop_spec h.S_nodup hTn h.S0 h.S_lt hTlt
        (hpar' t.S (fun _ _ hh => hh)) t.T.length t.T.length j m (by simp) le_rfl hA
      have haug : augment t.S (t.T ++ [j]) (t.parentT ++ [ii]) m = some m' := by
        simp only [augment]
        rw [if_pos (by simp [h.lenS])]
        simp only [List.length_append, List.length_singleton, Nat.add_sub_cancel,
          List.getElem?_concat_length, hip, if_true]
        exact hm'
      rw [haug]
      refine ⟨m', t.lx, t.ly, rfl, ⟨h.o.feas, hR.cons, hR.tight, h.o.lynn, ?_, h.o.lxnn, h.o.lxW⟩, hR.dom⟩
      intro y hy hf'
      exact h.o.lyfree y hy (hR.ipdom y hf')
    | some z =>
      simp only
      have hzlen : (t.S ++ [z]).length - 1 = t.S.length := by simp
      rw [hzlen]
      have hN' := h.N.add z
      refine ih _ ⟨h.o, h.root, ?_, ?_, ?_, hTn, hTlt, ?_, ?_, hN', ?_⟩ ?_
      · simp only
        rw [List.getElem?_append_left (by have := h.lenS; omega)]; exact h.S0
      · simp [h.lenS]
      · intro k y hk
        simp only at hk ⊢
        by_cases hlt : k < t.T.length
        · rw [List.getElem?_append_left hlt] at hk
          obtain ⟨i, h1, h2⟩ := h.link k y hk
          exact ⟨i, by rw [List.getElem?_append_left (by have := h.lenS; omega)]; exact h1, h2⟩
        · have hk' : k = t.T.length := by
            have : k < (t.T ++ [j]).length := by
              by_contra hc; rw [List.getElem?_eq_none (by omega)] at hk; cases hk
            simp at this; omega
          subst hk'
          simp only [List.getElem?_concat_length, Option.some.injEq] at hk
          subst hk
          refine ⟨z, ?_, hip⟩
          rw [← h.lenS]; simp
      · simp [h.lenP]
      · simp only
        refine hpar' _ ?_
        intro k i hk
        have : k < t.S.length := by
          by_contra hc; rw [List.getElem?_eq_none (by omega)] at hk; cases hk
        rw [List.getElem?_append_left this]; exact hk
      · intro y hy
        have hyN : y ∈ t.N := by
          rcases List.mem_append.mp hy with hy | hy
          · exact h.TN y hy
          · rw [List.mem_singleton.mp hy]; exact List.getElem_mem hjjlt
        have := (h.N.mem y).mp hyN
        obtain ⟨hy1, i, hi, hti⟩ := this
        exact (hN'.mem y).mpr ⟨hy1, i, List.mem_append_left _ hi, hti⟩
      · simp only [List.length_append, List.length_singleton]
        rw [eT]; omega

end Inner

section Outer
variable {n : Nat} {edge : Nat → ℤ} {W : ℤ}

theorem outer_spec (hnn : ∀ i < n, ∀ j < n, 0 ≤ edge (i * n + j))
    (hW : ∀ i < n, ∀ j < n, edge (i * n + j) ≤ W) (hW0 : 0 ≤ W) (hmax : 2 * W ≤ weightMax)
    (budget : Nat) (hb : n + 1 ≤ budget) :
    ∀ (fuel : Nat) (m : Matching) (lx ly : Nat → ℤ), OInv n edge W m lx ly →
      ((List.range n).filter fun i => (m.p i).isNone).length < fuel →
      ∃ m' lx' ly', outer n edge budget fuel m lx ly = some (m', lx', ly') ∧
        OInv n edge W m' lx' ly' ∧ ∀ i < n, (m'.p i).isSome := by
  intro fuel
  induction fuel with
  | zero => intro m lx ly _ h; omega
  | succ fuel ih =>
    intro m lx ly hO hf
    rw [outer]
    cases hu : m.findUnmatched n with
    | none =>
      refine ⟨m, lx, ly, rfl, hO, ?_⟩
      intro i hi
      have := List.find?_eq_none.mp hu i (List.mem_range.mpr hi)
      exact Option.isSome_iff_ne_none.mpr (by simpa using this)
    | some i =>
      simp only
      have hi1 := List.mem_range.mp (List.mem_of_find?_eq_some hu)
      have hi2 : m.p i = none := by simpa using List.find?_some hu
      have hN := findNeighbours_inv (n := n) (edge := edge) (lx := lx) (ly := ly) [i]
      obtain ⟨m', lx', ly', h1, h2, h3⟩ := inner_spec hnn hW hW0 hmax (m := m) (i0 := i) budget
        { lx := lx, ly := ly, S := [i], T := [], parentT := [],
          N := (findNeighbours n edge lx ly [i]).1, parentN := (findNeighbours n edge lx ly [i]).2 }
        ⟨hO, ⟨hi1, hi2⟩, by simp, by simp, by simp, by simp, by simp, by simp, by simp, hN, by simp⟩
        (by simpa using hb)
      rw [h1]
      refine ih m' lx' ly' h2 ?_
      have hlt : ((List.range n).filter fun i => (m'.p i).isNone).length <
          ((List.range n).filter fun i => (m.p i).isNone).length := by
        have hsub : (((List.range n).filter fun i => (m'.p i).isNone)) ⊆
            ((List.range n).filter fun i => (m.p i).isNone).erase i := by
          intro x hx
          simp only [List.mem_filter, List.mem_range, Option.isNone_iff_eq_none] at hx
          have := (h3 x).mp hx.2
          rw [List.Nodup.mem_erase_iff (List.nodup_range.filter _)]
          simp only [List.mem_filter, List.mem_range, Option.isNone_iff_eq_none]
          exact ⟨this.2, hx.1, this.1⟩
        have hle := ((List.nodup_range.filter _).subperm hsub).length_le
        have hmem : i ∈ (List.range n).filter fun i => (m.p i).isNone := by
          simp [hi1, hi2]
        rw [List.length_erase_of_mem hmem] at hle
        have := List.length_pos_of_mem hmem
        omega
      omega

theorem initLx_spec (i : Nat) : 0 ≤ initLx n edge i ∧ (∀ j < n, edge (i * n + j) ≤ initLx n edge i) ∧
    (initLx n edge i = 0 ∨ ∃ j < n, initLx n edge i = edge (i * n + j)) := by
  have key : ∀ (L : List Nat) (a : ℤ),
      let r := L.foldl (fun a j => max a (edge (i * n + j))) a
      a ≤ r ∧ (∀ j ∈ L, edge (i * n + j) ≤ r) ∧ (r = a ∨ ∃ j ∈ L, r = edge (i * n + j)) := by
    intro L
    induction L with
    | nil => intro a; simp
    | cons b L ih =>
      intro a
      simp only [List.foldl_cons]
      obtain ⟨h1, h2, h3⟩ := ih (max a (edge (i * n + b)))
      refine ⟨le_trans (le_max_left _ _) h1, ?_, ?_⟩
      · intro j hj
        rcases List.mem_cons.mp hj with rfl | hj
        · exact le_trans (le_max_right _ _) h1
        · exact h2 j hj
      · rcases h3 with h3 | ⟨j, hj, h3⟩
        · rcases max_choice a (edge (i * n + b)) with h | h
          · exact Or.inl (h3.trans h)
          · exact Or.inr ⟨b, by simp, h3.trans h⟩
        · exact Or.inr ⟨j, List.mem_cons_of_mem _ hj, h3⟩
  obtain ⟨h1, h2, h3⟩ := key (List.range n) 0
  simp only [List.mem_range] at h2 h3
  exact ⟨h1, h2, h3⟩

theorem init_inv (hW : ∀ i < n, ∀ j < n, edge (i * n + j) ≤ W) (hW0 : 0 ≤ W) :
    OInv n edge W Matching.empty (initLx n edge) (fun _ => 0) := by
  refine ⟨?_, by simp [Matching.empty], by simp [Matching.empty], by simp, by simp, ?_, ?_⟩
  · intro i _ j hj
    simpa using (initLx_spec (n := n) (edge := edge) i).2.1 j hj
  · intro i _; exact (initLx_spec i).1
  · intro i hi
    rcases (initLx_spec (n := n) (edge := edge) i).2.2 with h | ⟨j, hj, h⟩
    · rw [h]; exact hW0
    · rw [h]; exact hW i hi j hj

end Outer

end Verif.Hungarian
