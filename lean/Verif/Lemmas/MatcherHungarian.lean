import Verif.Model.Matcher
import Verif.Props.Hungarian

namespace Verif.Matcher

open Verif.Hungarian

/-- The pairs listed by the first output of `Match`. -/
def pairsOf (pm : List (Option Nat)) : List (Nat × Nat) :=
  pm.zipIdx.filterMap fun x => x.1.map fun j => (x.2, j)

theorem mem_pairsOf {pm : List (Option Nat)} {i j : Nat} : (i, j) ∈ pairsOf pm ↔ pm[i]? = some (some j) := by
  simp only [pairsOf, List.mem_filterMap, List.mem_zipIdx_iff_getElem?]
  constructor
  · rintro ⟨⟨o, k⟩, h1, h2⟩
    simp only [Option.map_eq_some_iff, Prod.mk.injEq] at h2
    obtain ⟨j', h3, rfl, rfl⟩ := h2
    simp only at h1 h3
    rw [h1, h3]
  · intro h
    exact ⟨(some j, i), h, by simp⟩

theorem sum_filterMap {α γ : Type} (g : α → Option γ) (f : γ → ℤ) (l : List α) :
    ((l.filterMap g).map f).sum = (l.map fun x => ((g x).map f).getD 0).sum := by
  induction l with
  | nil => simp
  | cons a l ih =>
    cases h : g a with
    | none => simp [h, ih]
    | some b => simp [h, ih]

theorem map_zipIdx_range {α γ : Type} (l : List α) (f : Option α → Nat → γ) :
    (l.zipIdx.map fun x => f (some x.1) x.2) = (List.range l.length).map fun i => f l[i]? i := by
  apply List.ext_getElem
  · simp
  · intro i h1 h2
    have : i < l.length := by simpa using h2
    simp [List.getElem?_eq_getElem this]

theorem sum_pairsOf (pm : List (Option Nat)) (f : Nat × Nat → ℤ) :
    ((pairsOf pm).map f).sum = ((List.range pm.length).map fun i =>
      match pm[i]? with | some (some j) => f (i, j) | _ => 0).sum := by
  rw [pairsOf, sum_filterMap]
  have := map_zipIdx_range pm (fun o i => match o with | some (some j) => f (i, j) | _ => 0)
  rw [← this]
  congr 1
  refine List.map_congr_left ?_
  rintro ⟨o, i⟩ _
  cases o <;> simp

theorem pairsOf_fst_nodup (pm : List (Option Nat)) : ((pairsOf pm).map Prod.fst).Nodup := by
  have h : ((pairsOf pm).map Prod.fst).Sublist (pm.zipIdx.map Prod.snd) := by
    unfold pairsOf
    generalize pm.zipIdx = l
    induction l with
    | nil => simp
    | cons a l ih =>
      obtain ⟨o, i⟩ := a
      cases o with
      | none => simpa using List.Sublist.cons _ ih
      | some j => simpa using ih
  refine h.nodup ?_
  rw [List.zipIdx_map_snd]
  exact List.nodup_range' ..

section Fold
variable {gs : List Nat} {can : Nat → Nat → Bool}

/-- What `readBack` writes for one assigned pair. -/
def resOf (gs : List Nat) (can : Nat → Nat → Bool) (x : (Nat × Nat) × Nat) : Option Nat :=
  match gs[x.1.2]? with
  | none => none
  | some g => if can x.1.1 g then some x.1.2 else none

theorem readBack_fold {β : Type} {F : Frame β} {P : Prims Option} {n : Nat} :
    ∀ (l : List ((Nat × Nat) × Nat)) (pm gm : List (Option Nat)),
      (∀ x ∈ l, x.1.2 < n) → (∀ x ∈ l, ∀ g ∈ gs, canMatch P F x.1.1 g = some (can x.1.1 g)) →
      (l.map fun x => x.2).Nodup → (l.map fun x => x.1.2).Nodup → (∀ x ∈ l, x.2 < pm.length) →
      gm.length = gs.length →
      ∃ pm' gm', l.foldlM (readBack P F n gs) (pm, gm) = some (pm', gm') ∧
        pm'.length = pm.length ∧ gm'.length = gm.length ∧
        (∀ x ∈ l, pm'[x.2]? = some (resOf gs can x)) ∧
        (∀ i : Nat, (∀ x ∈ l, x.2 ≠ i) → pm'[i]? = pm[i]?) ∧
        (∀ x ∈ l, x.1.2 < gs.length → gm'[x.1.2]? = some ((resOf gs can x).map fun _ => x.2)) ∧
        (∀ j : Nat, (∀ x ∈ l, x.1.2 ≠ j) → gm'[j]? = gm[j]?) := by
  intro l
  induction l with
  | nil => intro pm gm _ _ _ _ _ _; exact ⟨pm, gm, by simp, rfl, rfl, by simp, by simp, by simp, by simp⟩
  | cons x l ih =>
    intro pm gm hn hc hn1 hn2 hlen hg
    simp only [List.map_cons, List.nodup_cons] at hn1 hn2
    obtain ⟨hx1, hn1⟩ := hn1
    obtain ⟨hx2, hn2⟩ := hn2
    have hx1' : ∀ y ∈ l, y.2 ≠ x.2 := by
      intro y hy he; exact hx1 (List.mem_map.mpr ⟨y, hy, he⟩)
    have hx2' : ∀ y ∈ l, y.1.2 ≠ x.1.2 := by
      intro y hy he; exact hx2 (List.mem_map.mpr ⟨y, hy, he⟩)
    have hstep : ∃ gm1, readBack P F n gs (pm, gm) x = some (pm.set x.2 (resOf gs can x), gm1) ∧
        gm1.length = gm.length ∧
        (x.1.2 < gs.length → gm1[x.1.2]? = some ((resOf gs can x).map fun _ => x.2)) ∧
        ∀ j, j ≠ x.1.2 → gm1[j]? = gm[j]? := by
      unfold readBack
      simp only [if_pos (hn x (by simp))]
      cases hgx : gs[x.1.2]? with
      | none =>
        refine ⟨gm, by simp [resOf, hgx], rfl, ?_, fun _ _ => rfl⟩
        intro h
        rw [List.getElem?_eq_getElem h] at hgx; cases hgx
      | some g =>
        simp only [hc x (by simp) g (List.mem_of_getElem? hgx), Option.bind_eq_bind, Option.bind_some]
        refine ⟨gm.set x.1.2 (if can x.1.1 g then some x.2 else none), ?_, by simp, ?_, ?_⟩
        · simp [resOf, hgx]
        · intro h
          rw [List.getElem?_set_self (by omega)]
          simp only [resOf, hgx]
          split_ifs <;> simp
        · intro j hj
          rw [List.getElem?_set_ne (Ne.symm hj)]
    obtain ⟨gm1, hs, hl1, hs1, hs2⟩ := hstep
    obtain ⟨pm', gm', h0, h1, h2, h3, h4, h5, h6⟩ := ih (pm.set x.2 (resOf gs can x)) gm1
      (fun y hy => hn y (by simp [hy])) (fun y hy => hc y (by simp [hy])) hn1 hn2
      (fun y hy => by simpa using hlen y (by simp [hy])) (by omega)
    refine ⟨pm', gm', ?_, by simpa using h1, by omega, ?_, ?_, ?_, ?_⟩
    · rw [List.foldlM_cons, hs]; exact h0
    · intro y hy
      rcases List.mem_cons.mp hy with rfl | hy
      · rw [h4 _ hx1', List.getElem?_set_self (hlen y (by simp))]
      · exact h3 y hy
    · intro i hi
      rw [h4 i (fun y hy => hi y (by simp [hy])), List.getElem?_set_ne (hi x (by simp))]
    · intro y hy hlt
      rcases List.mem_cons.mp hy with rfl | hy
      · rw [h6 _ hx2', hs1 hlt]
      · exact h5 y hy hlt
    · intro j hj
      rw [h6 j (fun y hy => hj y (by simp [hy])), hs2 j (Ne.symm (hj x (by simp)))]

end Fold

theorem flatEdge_at {n : Nat} (rows : List (List ℤ)) {i j : Nat} (hj : j < n) :
    flatEdge n rows (i * n + j) = (rows.getD i []).getD j 0 := by
  have h1 : (i * n + j) / n = i := by
    rw [Nat.mul_comm, Nat.mul_add_div (by omega)]; simp [Nat.div_eq_of_lt hj]
  have h2 : (i * n + j) % n = j := by
    rw [Nat.mul_comm, Nat.mul_add_mod]; exact Nat.mod_eq_of_lt hj
  rw [flatEdge, h1, h2]

/-- Sum over a set of distinct indices is bounded by the sum over all indices. -/
theorem sum_map_le_range {γ : Type} (A : List γ) (k : γ → Nat) (f : Nat → ℤ) (n : Nat) (hn : (A.map k).Nodup)
    (hlt : ∀ a ∈ A, k a < n) (hf : ∀ i < n, 0 ≤ f i) :
    (A.map fun a => f (k a)).sum ≤ ((List.range n).map f).sum := by
  have hsub : A.map k ⊆ List.range n := by
    intro x hx
    obtain ⟨a, ha, rfl⟩ := List.mem_map.mp hx
    exact List.mem_range.mpr (hlt a ha)
  obtain ⟨l, hl, hs⟩ := hn.subperm hsub
  have e : (A.map fun a => f (k a)) = (A.map k).map f := by simp
  rw [e, ← (hl.map f).sum_eq]
  refine List.Sublist.sum_le_sum (hs.map f) ?_
  intro x hx
  obtain ⟨i, hi, rfl⟩ := List.mem_map.mp hx
  exact hf i (List.mem_range.mp hi)

theorem perm_getD_lt {n : Nat} {q : List Nat} (h : IsAssignment n q) {i : Nat} (hi : i < n) :
    q[i]? = some (q.getD i 0) ∧ q.getD i 0 < n := by
  have hl : q.length = n := by simpa using h.length_eq
  have h1 : q[i]? = some (q.getD i 0) := by
    rw [List.getD, List.getElem?_eq_getElem (by omega)]; rfl
  exact ⟨h1, List.mem_range.mp (h.mem_iff.mp (List.mem_of_getElem? h1))⟩

theorem map_snd_zip_sublist (a : List Nat) : ∀ b : List Nat, ((a.zip b).map Prod.snd).Sublist b := by
  induction a with
  | nil => intro b; simp
  | cons x a ih =>
    intro b
    cases b with
    | nil => simp
    | cons y b => simpa using ih b

section Core
variable {β : Type} {F : Frame β} {P : Prims Option} {can : Nat → Nat → Bool} {w : Nat → Nat → ℤ}

/-- Weight of the pair of positions `(i, j)`. -/
def posW (ps gs : List Nat) (w : Nat → Nat → ℤ) (x : Nat × Nat) : ℤ :=
  match ps[x.1]?, gs[x.2]? with
  | some p, some g => w p g
  | _, _ => 0

/-- The pair of positions `(i, j)` is an allowed match. -/
def posCan (ps gs : List Nat) (can : Nat → Nat → Bool) (x : Nat × Nat) : Prop :=
  ∃ p g : Nat, ps[x.1]? = some p ∧ gs[x.2]? = some g ∧ can p g = true

theorem hungarianMatch_core
    (hcan : ∀ p ∈ F.predSubset, ∀ g ∈ F.gtSubset, canMatch P F p g = some (can p g))
    (hw : ∀ p ∈ F.predSubset, ∀ g ∈ F.gtSubset, can p g = true → matchingWeight P F p g = some (w p g))
    (hw0 : ∀ p ∈ F.predSubset, ∀ g ∈ F.gtSubset, 0 ≤ w p g ∧ w p g ≤ 1000000) :
    ∃ pm gm, hungarianMatch P F = some (pm, gm) ∧ pm.length = F.predSubset.length ∧
      gm.length = F.gtSubset.length ∧
      (∀ i j : Nat, pm[i]? = some (some j) ↔ gm[j]? = some (some i)) ∧
      (∀ i j : Nat, pm[i]? = some (some j) → posCan F.predSubset F.gtSubset can (i, j)) ∧
      ∀ A : List (Nat × Nat), (A.map Prod.fst).Nodup → (A.map Prod.snd).Nodup →
        (∀ a ∈ A, posCan F.predSubset F.gtSubset can a) →
        (A.map (posW F.predSubset F.gtSubset w)).sum ≤
          ((pairsOf pm).map (posW F.predSubset F.gtSubset w)).sum := by
  set ps := F.predSubset with hps
  set gs := F.gtSubset with hgs
  by_cases h0 : ps.length = 0 ∨ gs.length = 0
  · refine ⟨List.replicate ps.length none, List.replicate gs.length none, ?_, by simp, by simp, ?_, ?_, ?_⟩
    · unfold hungarianMatch
      simp only [← hps, ← hgs, if_pos h0]
      rfl
    · intro i j; simp [List.getElem?_replicate]
    · intro i j h; simp [List.getElem?_replicate] at h
    · intro A _ _ hA
      have hAn : A = [] := by
        cases A with
        | nil => rfl
        | cons a A =>
          obtain ⟨p, g, h1, h2, _⟩ := hA a (by simp)
          rcases h0 with h0 | h0
          · rw [List.length_eq_zero_iff.mp h0] at h1; simp at h1
          · rw [List.length_eq_zero_iff.mp h0] at h2; simp at h2
      subst hAn
      have : pairsOf (List.replicate ps.length (none : Option Nat)) = [] := by
        rw [List.eq_nil_iff_forall_not_mem]
        rintro ⟨i, j⟩ hij
        rw [mem_pairsOf] at hij
        simp [List.getElem?_replicate] at hij
      rw [this]
  · have hps0 : 0 < ps.length := by omega
    have hgs0 : 0 < gs.length := by omega
    set n := max ps.length gs.length with hn
    have hn1 : ps.length ≤ n := le_max_left _ _
    have hn2 : gs.length ≤ n := le_max_right _ _
    let e : Nat → Nat → ℤ := fun p g => if can p g then w p g else 0
    have hedge : ∀ p ∈ ps, ∀ g ∈ gs, edgeOf P F p g = some (e p g) := by
      intro p hp g hg
      unfold edgeOf
      rw [hcan p hp g hg]
      simp only [e, Option.bind_eq_bind, Option.bind_some]
      split_ifs with hc
      · exact hw p hp g hg hc
      · rfl
    have hrows : (ps.mapM fun p => gs.mapM fun g => edgeOf P F p g) =
        some (ps.map fun p => gs.map fun g => e p g) := by
      refine mapM_some _ ?_
      intro p hp
      exact mapM_some _ (fun g hg => hedge p hp g hg)
    set rows := ps.map fun p => gs.map fun g => e p g with hr
    have hat : ∀ i j, j < n → flatEdge n rows (i * n + j) = posW ps gs e (i, j) := by
      intro i j hj
      rw [flatEdge_at rows hj]
      simp only [posW, hr, List.getD, List.getElem?_map]
      cases ps[i]? with
      | none => simp
      | some p =>
        simp only [Option.map_some, Option.getD_some, List.getElem?_map]
        cases gs[j]? <;> rfl
    have hposW : ∀ x, 0 ≤ posW ps gs e x ∧ posW ps gs e x ≤ 1000000 := by
      intro x
      unfold posW
      cases h1 : ps[x.1]? with
      | none => simp
      | some p =>
        cases h2 : gs[x.2]? with
        | none => simp
        | some g =>
          simp only [e]
          split_ifs
          · exact hw0 p (List.mem_of_getElem? h1) g (List.mem_of_getElem? h2)
          · simp
    have hbound : ∀ i < n, ∀ j < n, 0 ≤ flatEdge n rows (i * n + j) ∧
        flatEdge n rows (i * n + j) ≤ 1000000 := by
      intro i _ j hj; rw [hat i j hj]; exact hposW _
    obtain ⟨perm, lx, ly, hh, hperm, -⟩ := hungarian_optimal (n + 1) n (flatEdge n rows) 1000000
      (by omega) hbound (by norm_num) le_rfl
    obtain ⟨hfeas, htight, hlab⟩ := hungarian_labels (n + 1) n (flatEdge n rows) 1000000
      (by omega) hbound (by norm_num) le_rfl perm lx ly hh
    have hpl : perm.length = n := by simpa using hperm.length_eq
    have hmem : ∀ x, x ∈ (ps.zip perm).zipIdx ↔ ps[x.2]? = some x.1.1 ∧ perm[x.2]? = some x.1.2 := by
      rintro ⟨⟨p, j⟩, i⟩
      rw [List.mem_zipIdx_iff_getElem?, List.getElem?_zip_eq_some]
    obtain ⟨pm, gm, f0, f1, f2, f3, f4, f5, f6⟩ := readBack_fold (gs := gs) (can := can) (F := F) (P := P)
      (n := n) (ps.zip perm).zipIdx (List.replicate ps.length none) (List.replicate gs.length none)
      (by
        intro x hx
        exact List.mem_range.mp (hperm.mem_iff.mp (List.mem_of_getElem? ((hmem x).mp hx).2)))
      (by
        intro x hx g hg
        exact hcan _ (List.mem_of_getElem? ((hmem x).mp hx).1) g hg)
      (by
        rw [List.zipIdx_map_snd]; exact List.nodup_range' ..)
      (by
        have : ((ps.zip perm).zipIdx.map fun x => x.1.2) = (ps.zip perm).map Prod.snd := by
          rw [show (fun x : (Nat × Nat) × Nat => x.1.2) = Prod.snd ∘ Prod.fst from rfl, ← List.map_map,
            List.zipIdx_map_fst]
        rw [this]
        exact (map_snd_zip_sublist ps perm).nodup ((hperm.nodup_iff).mpr List.nodup_range))
      (by
        intro x hx
        have := ((hmem x).mp hx).1
        by_contra hc
        simp only [List.length_replicate] at hc
        rw [List.getElem?_eq_none (by omega)] at this; cases this)
      (by simp)
    have hlt_of_some : ∀ {α : Type} {l : List α} {i : Nat} {a : α}, l[i]? = some a → i < l.length := by
      intro α l i a h
      by_contra hc; rw [List.getElem?_eq_none (by omega)] at h; cases h
    have hpl' : pm.length = ps.length := by simpa using f1
    -- the element at position i
    have helt : ∀ i < ps.length, ∃ p j : Nat, ps[i]? = some p ∧ perm[i]? = some j ∧ ((p, j), i) ∈ (ps.zip perm).zipIdx := by
      intro i hi
      refine ⟨ps[i], perm[i]'(by omega), List.getElem?_eq_getElem hi, List.getElem?_eq_getElem _, ?_⟩
      rw [hmem]
      exact ⟨List.getElem?_eq_getElem hi, List.getElem?_eq_getElem _⟩
    have hres : ∀ x j, resOf gs can x = some j → j = x.1.2 ∧ ∃ g, gs[x.1.2]? = some g ∧ can x.1.1 g = true := by
      intro x j h
      unfold resOf at h
      cases hg : gs[x.1.2]? with
      | none => rw [hg] at h; cases h
      | some g =>
        rw [hg] at h
        simp only at h
        split_ifs at h with hc
        exact ⟨(Option.some.inj h).symm, g, rfl, hc⟩
    have hpmc : ∀ i j : Nat, pm[i]? = some (some j) → ∃ p g : Nat, ps[i]? = some p ∧ gs[j]? = some g ∧ can p g = true ∧
        perm[i]? = some j ∧ ((p, j), i) ∈ (ps.zip perm).zipIdx := by
      intro i j h
      have hi : i < ps.length := by rw [← hpl']; exact hlt_of_some h
      obtain ⟨p, j', h1, h2, h3⟩ := helt i hi
      rw [f3 _ h3] at h
      obtain ⟨h4, g, h5, h6⟩ := hres _ _ (Option.some.inj h)
      simp only at h4
      subst h4
      exact ⟨p, g, h1, h5, h6, h2, h3⟩
    refine ⟨pm, gm, ?_, hpl', by simpa using f2, ?_, ?_, ?_⟩
    · unfold hungarianMatch
      simp only [← hps, ← hgs, if_neg h0, ← hn, hrows, Option.bind_eq_bind, Option.bind_some, hh]
      exact f0
    · intro i j
      constructor
      · intro h
        obtain ⟨p, g, h1, h2, h3, h4, h5⟩ := hpmc i j h
        have hr := f3 _ h5
        simp only at hr
        rw [h] at hr
        have := f5 _ h5 (hlt_of_some h2)
        simp only at this
        rw [this, ← Option.some.inj hr]; rfl
      · intro h
        by_cases hex : ∃ x ∈ (ps.zip perm).zipIdx, x.1.2 = j
        · obtain ⟨x, hx, rfl⟩ := hex
          have hjl : x.1.2 < gs.length := by
            have := hlt_of_some h
            simpa [f2] using this
          have h5 := f5 x hx hjl
          rw [h] at h5
          have h6 := Option.some.inj h5
          cases hrx : resOf gs can x with
          | none => rw [hrx] at h6; cases h6
          | some j' =>
            rw [hrx] at h6
            simp only [Option.map_some, Option.some.injEq] at h6
            subst h6
            rw [f3 x hx, hrx, (hres x j' hrx).1]
        · push Not at hex
          rw [f6 j hex] at h
          simp [List.getElem?_replicate] at h
    · intro i j h
      obtain ⟨p, g, h1, h2, h3, _, _⟩ := hpmc i j h
      exact ⟨p, g, h1, h2, h3⟩
    · intro A hA1 hA2 hA
      -- upper bound by the labels
      have hAlt : ∀ a ∈ A, a.1 < ps.length ∧ a.2 < gs.length := by
        intro a ha
        obtain ⟨p, g, h1, h2, _⟩ := hA a ha
        exact ⟨hlt_of_some h1, hlt_of_some h2⟩
      have hAe : ∀ a ∈ A, posW ps gs w a ≤ lx a.1 + ly a.2 := by
        intro a ha
        have hl := hAlt a ha
        have := hfeas a.1 (by omega) a.2 (by omega)
        rw [hat a.1 a.2 (by omega), show (a.1, a.2) = a from rfl] at this
        obtain ⟨p, g, h1, h2, h3⟩ := hA a ha
        have he : posW ps gs w a = posW ps gs e a := by
          simp only [posW, h1, h2, e, h3, if_true]
        rw [he]; exact this
      have s1 : (A.map (posW ps gs w)).sum ≤ (A.map fun a => lx a.1 + ly a.2).sum :=
        List.sum_le_sum hAe
      have s2 := sum_map_le_range A Prod.fst lx n hA1 (fun a ha => by have := hAlt a ha; omega)
        (fun i hi => (hlab i hi).1)
      have s3 := sum_map_le_range A Prod.snd ly n hA2 (fun a ha => by have := hAlt a ha; omega)
        (fun i hi => (hlab i hi).2.2.1)
      rw [List.sum_map_add] at s1
      -- the labels add up to the weight of the result
      have s4 : ((List.range n).map lx).sum + ((List.range n).map ly).sum =
          ((List.range n).map fun i => flatEdge n rows (i * n + perm.getD i 0)).sum := by
        rw [← sum_getD_perm hperm ly, ← List.sum_map_add]
        congr 1
        refine List.map_congr_left ?_
        intro i hi
        exact (htight i (List.mem_range.mp hi)).symm
      have s5 : ((List.range n).map fun i => flatEdge n rows (i * n + perm.getD i 0)).sum =
          ((List.range ps.length).map fun i => flatEdge n rows (i * n + perm.getD i 0)).sum := by
        obtain ⟨d, hd⟩ := Nat.exists_eq_add_of_le hn1
        rw [hd, List.range_add, List.map_append, List.sum_append, ← hd]
        have : (((List.range d).map (ps.length + ·)).map fun i =>
            flatEdge n rows (i * n + perm.getD i 0)).sum = 0 := by
          apply List.sum_eq_zero
          intro x hx
          obtain ⟨i, hi, rfl⟩ := List.mem_map.mp hx
          obtain ⟨k, hk, rfl⟩ := List.mem_map.mp hi
          have hk' := List.mem_range.mp hk
          rw [hat _ _ (perm_getD_lt hperm (by omega)).2]
          simp [posW]
        rw [this, add_zero]
      have s6 : ((pairsOf pm).map (posW ps gs w)).sum =
          ((List.range ps.length).map fun i => flatEdge n rows (i * n + perm.getD i 0)).sum := by
        rw [sum_pairsOf, hpl']
        congr 1
        refine List.map_congr_left ?_
        intro i hi
        have hi' := List.mem_range.mp hi
        obtain ⟨p, j, h1, h2, h3⟩ := helt i hi'
        have hgd := (perm_getD_lt hperm (show i < n by omega))
        have hj : perm.getD i 0 = j := by
          rw [h2] at hgd; exact (Option.some.inj hgd.1).symm
        rw [hat _ _ hgd.2, hj]
        have := f3 _ h3
        simp only at this
        rw [this]
        unfold resOf
        cases hg : gs[j]? with
        | none => simp [posW, h1, hg]
        | some g =>
          by_cases hc : can p g = true
          · simp [posW, h1, hg, e, hc]
          · simp [posW, h1, hg, e, hc]
      rw [s6, ← s5, ← s4]
      omega

end Core

end Verif.Matcher
