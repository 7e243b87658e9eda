import Verif.Lemmas.MatcherHungarian

namespace Verif.Matcher

section Score
variable {β : Type} {F : Frame β} {P : Prims Option} {can : Nat → Nat → Bool} {wt : Nat → Nat → ℤ}

theorem lt_of_getElem? {α : Type} {l : List α} {i : Nat} {a : α} (h : l[i]? = some a) : i < l.length := by
  by_contra hc; rw [List.getElem?_eq_none (by omega)] at h; cases h

/-- The inner loop finds a candidate of largest weight. -/
theorem bestGt_spec {p i : Nat} {gm : List (Option Nat)} : ∀ (l : List (Nat × Nat)) (b : Option Nat × ℤ),
    (∀ x ∈ l, x.2 < gm.length) → (∀ x ∈ l, canMatch P F p x.1 = some (can p x.1)) →
    (∀ x ∈ l, matchingWeight P F i x.2 = some (wt i x.2)) →
    ∃ b', bestGt P F p i gm l b = some b' ∧ b.2 ≤ b'.2 ∧
      (∀ x ∈ l, gm[x.2]? = some none → can p x.1 = true → wt i x.2 ≤ b'.2) ∧
      (b' = b ∨ ∃ x ∈ l, gm[x.2]? = some none ∧ can p x.1 = true ∧ b' = (some x.2, wt i x.2) ∧ b.2 < wt i x.2) := by
  intro l
  induction l with
  | nil => intro b _ _ _; exact ⟨b, rfl, le_rfl, by simp, Or.inl rfl⟩
  | cons x l ih =>
    obtain ⟨g, j⟩ := x
    intro b h1 h2 h3
    rw [bestGt]
    have ih' := fun b => ih b (fun x hx => h1 x (by simp [hx])) (fun x hx => h2 x (by simp [hx]))
      (fun x hx => h3 x (by simp [hx]))
    have hskip : (gm[j]? = some none → can p g = true → wt i j ≤ b.2) →
        ∃ b', bestGt P F p i gm l b = some b' ∧ b.2 ≤ b'.2 ∧
          (∀ x ∈ (g, j) :: l, gm[x.2]? = some none → can p x.1 = true → wt i x.2 ≤ b'.2) ∧
          (b' = b ∨ ∃ x ∈ (g, j) :: l, gm[x.2]? = some none ∧ can p x.1 = true ∧
            b' = (some x.2, wt i x.2) ∧ b.2 < wt i x.2) := by
      intro hj
      obtain ⟨b', e1, e2, e3, e4⟩ := ih' b
      refine ⟨b', e1, e2, ?_, ?_⟩
      · intro x hx hg hc
        rcases List.mem_cons.mp hx with rfl | hx
        · exact le_trans (hj hg hc) e2
        · exact e3 x hx hg hc
      · rcases e4 with e4 | ⟨x, hx, e5⟩
        · exact Or.inl e4
        · exact Or.inr ⟨x, by simp [hx], e5⟩
    have hjl := h1 (g, j) (by simp)
    simp only at hjl
    cases hgm : gm[j]? with
    | none => rw [List.getElem?_eq_getElem hjl] at hgm; cases hgm
    | some o =>
      cases o with
      | some k =>
        simp only
        exact hskip (fun h => by rw [hgm] at h; cases h)
      | none =>
        simp only [h2 (g, j) (by simp), h3 (g, j) (by simp), Option.bind_eq_bind, Option.bind_some]
        by_cases hc : can p g = true
        · rw [if_pos hc]
          by_cases hlt : b.2 < wt i j
          · rw [if_pos hlt]
            obtain ⟨b', e1, e2, e3, e4⟩ := ih' (some j, wt i j)
            simp only at e2
            refine ⟨b', e1, by omega, ?_, ?_⟩
            · intro x hx hg hc'
              rcases List.mem_cons.mp hx with rfl | hx
              · exact e2
              · exact e3 x hx hg hc'
            · right
              rcases e4 with e4 | ⟨x, hx, e5, e6, e7, e8⟩
              · exact ⟨(g, j), by simp, hgm, hc, e4, hlt⟩
              · exact ⟨x, by simp [hx], e5, e6, e7, by simp only at e8; omega⟩
          · rw [if_neg hlt]
            exact hskip (fun _ _ => by omega)
        · rw [if_neg hc]
          exact hskip (fun _ h => absurd h hc)

/-- Choice made for the prediction at position `i` when the ground truths taken by `before` are gone. -/
def GreedyAt (ps gs : List Nat) (can : Nat → Nat → Bool) (wt : Nat → Nat → ℤ) (pm : List (Option Nat))
    (before : List Nat) (i : Nat) : Prop :=
  let free := fun j : Nat => j < gs.length ∧ ∀ i' ∈ before, pm[i']? ≠ some (some j)
  (∃ j, pm[i]? = some (some j) ∧ free j ∧ posCan ps gs can (i, j) ∧
      ∀ j', free j' → posCan ps gs can (i, j') → wt i j' ≤ wt i j) ∨
    (pm[i]? = some none ∧ ∀ j', free j' → ¬ posCan ps gs can (i, j'))

/-- Invariant of the outer loop after processing the positions `pre`. -/
structure SInv (ps gs : List Nat) (can : Nat → Nat → Bool) (wt : Nat → Nat → ℤ) (pre : List Nat)
    (r : List (Option Nat) × List (Option Nat)) : Prop where
  len1 : r.1.length = ps.length
  len2 : r.2.length = gs.length
  inv : ∀ i j : Nat, r.1[i]? = some (some j) ↔ r.2[j]? = some (some i)
  fresh : ∀ i, i ∉ pre → ∀ j : Nat, r.1[i]? ≠ some (some j)
  greedy : ∀ o1 i o2, pre = o1 ++ i :: o2 → GreedyAt ps gs can wt r.1 o1 i

theorem scoreStep_spec
    (hcan : ∀ p ∈ F.predSubset, ∀ g ∈ F.gtSubset, canMatch P F p g = some (can p g))
    (hwt : ∀ i < F.predSubset.length, ∀ j < F.gtSubset.length, matchingWeight P F i j = some (wt i j))
    (hw0 : ∀ i < F.predSubset.length, ∀ j < F.gtSubset.length, 0 ≤ wt i j)
    {pre : List Nat} {r : List (Option Nat) × List (Option Nat)}
    (h : SInv F.predSubset F.gtSubset can wt pre r) {i : Nat} (hi : i < F.predSubset.length) (hip : i ∉ pre) :
    ∃ r', scoreStep P F r i = some r' ∧ SInv F.predSubset F.gtSubset can wt (pre ++ [i]) r' := by
  set ps := F.predSubset with hps
  set gs := F.gtSubset with hgs
  obtain ⟨pm, gm⟩ := r
  have hpi : ps[i]? = some ps[i] := List.getElem?_eq_getElem hi
  have hmem : ∀ x : Nat × Nat, x ∈ gs.zipIdx ↔ gs[x.2]? = some x.1 := by
    intro x; exact List.mem_zipIdx_iff_getElem?
  obtain ⟨b, hb, -, hb2, hb3⟩ := bestGt_spec (P := P) (F := F) (can := can) (wt := wt) (p := ps[i]) (i := i)
    (gm := gm) gs.zipIdx (none, -1)
    (fun x hx => by rw [h.len2]; exact lt_of_getElem? ((hmem x).mp hx))
    (fun x hx => hcan _ (List.getElem_mem hi) _ (List.mem_of_getElem? ((hmem x).mp hx)))
    (fun x hx => hwt i hi _ (lt_of_getElem? ((hmem x).mp hx)))
  simp only [h.len2] at *
  have hlen1 : pm.length = ps.length := h.len1
  have hlen2 : gm.length = gs.length := h.len2
  -- free ground truths are those whose entry is still empty
  have hfree : ∀ j, gm[j]? = some none ↔ (j < gs.length ∧ ∀ i' ∈ pre, pm[i']? ≠ some (some j)) := by
    intro j
    constructor
    · intro hj
      refine ⟨by rw [← hlen2]; exact lt_of_getElem? hj, ?_⟩
      intro i' _ hc
      rw [(h.inv i' j).mp hc] at hj; cases hj
    · rintro ⟨hj, hno⟩
      have hjl : gm[j]? = some gm[j] := List.getElem?_eq_getElem (by omega)
      cases hg : gm[j] with
      | none => rw [hjl, hg]
      | some i' =>
        exfalso
        rw [hg] at hjl
        have h1 := (h.inv i' j).mpr hjl
        by_cases hm : i' ∈ pre
        · exact hno i' hm h1
        · exact h.fresh i' hm j h1
  have hstepEq : scoreStep P F (pm, gm) i = some (match b.1 with
      | none => (pm, gm)
      | some j => (pm.set i (some j), gm.set j (some i))) := by
    unfold scoreStep
    simp only [← hps, ← hgs, hpi, hb, Option.bind_eq_bind, Option.bind_some]
    cases b.1 <;> rfl
  -- greedy property of old positions is not affected by a write at position i
  have hold : ∀ (pm' : List (Option Nat)), (∀ k, k ≠ i → pm'[k]? = pm[k]?) → ∀ o1 k o2, pre = o1 ++ k :: o2 →
      GreedyAt ps gs can wt pm' o1 k := by
    intro pm' hp o1 k o2 he
    have hk : k ≠ i := by
      rintro rfl; exact hip (by rw [he]; simp)
    have ho : ∀ x ∈ o1, x ≠ i := by
      rintro x hx rfl; exact hip (by rw [he]; simp [hx])
    have hg := h.greedy o1 k o2 he
    have hfr : ∀ j : Nat, (∀ i' ∈ o1, pm'[i']? ≠ some (some j)) ↔ (∀ i' ∈ o1, pm[i']? ≠ some (some j)) := by
      intro j
      constructor
      · intro hh x hx; rw [← hp x (ho x hx)]; exact hh x hx
      · intro hh x hx; rw [hp x (ho x hx)]; exact hh x hx
    unfold GreedyAt at hg ⊢
    simp only [hfr, hp k hk]
    exact hg
  have hsplit : ∀ o1 k o2, pre ++ [i] = o1 ++ k :: o2 → (o1 = pre ∧ k = i) ∨ ∃ o3, pre = o1 ++ k :: o3 := by
    intro o1 k o2 he
    rcases List.eq_nil_or_concat o2 with rfl | ⟨o3, z, rfl⟩
    · left
      have := List.append_inj' he (by simp)
      exact ⟨this.1.symm, by simpa using this.2.symm⟩
    · right
      refine ⟨o3, ?_⟩
      have he' : pre ++ [i] = (o1 ++ k :: o3) ++ [z] := by simp [he]
      exact (List.append_inj' he' (by simp)).1
  have hpmi : pm[i]? = some none := by
    have hl : pm[i]? = some pm[i] := List.getElem?_eq_getElem (by omega)
    cases hc : pm[i] with
    | none => rw [hl, hc]
    | some j => rw [hc] at hl; exact absurd hl (h.fresh i hip j)
  rw [hstepEq]
  rcases hb3 with rfl | ⟨x, hx, hx1, hx2, rfl, hx3⟩
  · -- nothing to match
    refine ⟨(pm, gm), rfl, hlen1, hlen2, h.inv, ?_, ?_⟩
    · intro k hk; exact h.fresh k (by intro hc; exact hk (by simp [hc]))
    · intro o1 k o2 he
      rcases hsplit o1 k o2 he with ⟨rfl, rfl⟩ | ⟨o3, he'⟩
      · right
        refine ⟨hpmi, ?_⟩
        rintro j' hf ⟨p, g, h1, h2, h3⟩
        simp only at h1 h2
        rw [hpi] at h1
        cases h1
        have := hb2 (g, j') ((hmem _).mpr h2) ((hfree j').mpr hf) h3
        have h0 := hw0 k hi j' hf.1
        simp only at this
        omega
      · exact hold pm (fun _ _ => rfl) o1 k o3 he'
  · obtain ⟨g, j⟩ := x
    simp only at hx hx1 hx2 hx3 hb2 ⊢
    have hgj : gs[j]? = some g := (hmem (g, j)).mp hx
    have hjl : j < gs.length := lt_of_getElem? hgj
    refine ⟨_, rfl, by simpa using hlen1, by simpa using hlen2, ?_, ?_, ?_⟩
    · intro a c
      simp only [List.getElem?_set]
      by_cases ha : i = a
      · subst ha
        by_cases hc : j = c
        · subst hc
          simp [hlen1, hlen2, hi, hjl]
        · simp only [if_true, hlen1, hi, if_neg hc, Option.some.injEq]
          constructor
          · intro hh; exact absurd hh hc
          · intro hh
            rw [← (h.inv i c)] at hh
            exact absurd hh (h.fresh i hip c)
      · by_cases hc : j = c
        · subst hc
          simp only [if_neg ha, if_true, hlen2, hjl, Option.some.injEq]
          constructor
          · intro hh
            rw [h.inv a j] at hh
            rw [hx1] at hh; cases hh
          · intro hh; exact absurd hh ha
        · simp only [if_neg ha, if_neg hc]; exact h.inv a c
    · intro k hk c
      simp only [List.mem_append, List.mem_singleton, not_or] at hk
      simp only [List.getElem?_set_ne (Ne.symm hk.2)]
      exact h.fresh k hk.1 c
    · intro o1 k o2 he
      have hpm' : ∀ k', k' ≠ i → (pm.set i (some j))[k']? = pm[k']? := by
        intro k' hk'; exact List.getElem?_set_ne (Ne.symm hk')
      rcases hsplit o1 k o2 he with ⟨rfl, rfl⟩ | ⟨o3, he'⟩
      · left
        have hfr : ∀ c : Nat, (∀ i' ∈ o1, (pm.set k (some j))[i']? ≠ some (some c)) ↔
            (∀ i' ∈ o1, pm[i']? ≠ some (some c)) := by
          intro c
          constructor
          · intro hh y hy
            rw [← hpm' y (by rintro rfl; exact hip hy)]; exact hh y hy
          · intro hh y hy
            rw [hpm' y (by rintro rfl; exact hip hy)]; exact hh y hy
        refine ⟨j, by simp [hlen1, hi], ?_, ⟨ps[k], g, hpi, hgj, hx2⟩, ?_⟩
        · have := (hfree j).mp hx1
          exact ⟨this.1, (hfr j).mpr this.2⟩
        · rintro j' ⟨hf1, hf2⟩ ⟨p, g', h1, h2, h3⟩
          simp only at h1 h2
          rw [hpi] at h1
          cases h1
          exact hb2 (g', j') ((hmem _).mpr h2) ((hfree j').mpr ⟨hf1, (hfr j').mp hf2⟩) h3
      · exact hold _ hpm' o1 k o3 he'

theorem scoreFirst_core
    (hcan : ∀ p ∈ F.predSubset, ∀ g ∈ F.gtSubset, canMatch P F p g = some (can p g))
    (hwt : ∀ i < F.predSubset.length, ∀ j < F.gtSubset.length, matchingWeight P F i j = some (wt i j))
    (hw0 : ∀ i < F.predSubset.length, ∀ j < F.gtSubset.length, 0 ≤ wt i j)
    {order : List Nat} (ho : order.Perm (List.range F.predSubset.length)) :
    ∃ r, scoreFirstMatch P F order ([], []) = some r ∧ SInv F.predSubset F.gtSubset can wt order r := by
  have key : ∀ (l pre : List Nat) (r : List (Option Nat) × List (Option Nat)),
      SInv F.predSubset F.gtSubset can wt pre r → (pre ++ l).Nodup → (∀ i ∈ l, i < F.predSubset.length) →
      ∃ r', l.foldlM (scoreStep P F) r = some r' ∧ SInv F.predSubset F.gtSubset can wt (pre ++ l) r' := by
    intro l
    induction l with
    | nil => intro pre r h _ _; exact ⟨r, rfl, by simpa using h⟩
    | cons i l ih =>
      intro pre r h hn hl
      have hip : i ∉ pre := by
        intro hc
        rw [List.nodup_append] at hn
        exact hn.2.2 i hc i (by simp) rfl
      obtain ⟨r1, e1, h1⟩ := scoreStep_spec hcan hwt hw0 h (hl i (by simp)) hip
      obtain ⟨r2, e2, h2⟩ := ih (pre ++ [i]) r1 h1 (by simpa using hn) (fun k hk => hl k (by simp [hk]))
      refine ⟨r2, ?_, by simpa using h2⟩
      rw [List.foldlM_cons, e1]; exact e2
  have h0 : SInv F.predSubset F.gtSubset can wt []
      (resize [] F.predSubset.length, resize [] F.gtSubset.length) := by
    refine ⟨by simp [resize], by simp [resize], ?_, ?_, ?_⟩
    · intro i j; simp [resize, List.getElem?_replicate]
    · intro i _ j; simp [resize, List.getElem?_replicate]
    · intro o1 i o2 he; simp at he
  obtain ⟨r, e, h⟩ := key order [] _ h0 (by simpa using (ho.nodup_iff).mpr List.nodup_range)
    (fun i hi => List.mem_range.mp (ho.mem_iff.mp hi))
  exact ⟨r, e, by simpa using h⟩

end Score

end Verif.Matcher
