import Verif.Model.DeltaEncoder
import Verif.Lemmas.Rounding
import Mathlib.Data.List.FinRange
import Mathlib.Tactic.Linarith

namespace Verif.DeltaEncoder

theorem getD_lt {α : Type} {l : List α} {d : α} {i : Nat} (h : i < l.length) : l.getD i d = l[i] := by
  simp [List.getD, List.getElem?_eq_getElem h]

theorem diffs_map_add (k : ℤ) : ∀ l : List ℤ, diffs (l.map (· + k)) = diffs l
  | [] => rfl
  | [_] => rfl
  | a :: b :: r => by
    have := diffs_map_add k (b :: r)
    simp only [List.map_cons, diffs] at this ⊢
    rw [this]; congr 1; ring

/-- The run lengths of `x` without the leading marker. -/
def runs (x : List Nat) : List ℤ := diffs ((0 :: (changes x).map (· + 1)) ++ [(x.length : ℤ)])

theorem runs_single (a : Nat) : runs [a] = [1] := by simp [runs, changes, diffs]

theorem runs_ne (a b : Nat) (r : List Nat) (h : a ≠ b) : runs (a :: b :: r) = 1 :: runs (b :: r) := by
  unfold runs
  simp only [changes, h, if_false]
  have e : (0 :: (0 :: (changes (b :: r)).map (· + 1)).map (· + 1)) ++ [((a :: b :: r).length : ℤ)]
      = 0 :: ((0 :: (changes (b :: r)).map (· + 1)) ++ [((b :: r).length : ℤ)]).map (· + 1) := by
    simp
  rw [e]
  rw [← diffs_map_add 1 ((0 :: (changes (b :: r)).map (· + 1)) ++ [((b :: r).length : ℤ)])]
  simp [diffs]

theorem runs_eq (a : Nat) (r : List Nat) :
    ∃ h t, runs (a :: r) = (h + 1) :: t ∧ 0 ≤ h ∧ runs (a :: a :: r) = (h + 2) :: t := by
  induction r generalizing a with
  | nil => exact ⟨0, [], by simp [runs_single], le_rfl, by simp [runs, changes, diffs]⟩
  | cons b r ih =>
    have key : ∀ L : List ℤ, ∀ n : ℤ, 
        diffs (0 :: (L.map (· + 1)).map (· + 1) ++ [n + 1]) =
          match diffs (0 :: L.map (· + 1) ++ [n]) with
          | [] => []
          | h :: t => (h + 1) :: t := by
      intro L n
      cases L with
      | nil => simp [diffs]
      | cons c L =>
        simp only [List.map_cons, List.cons_append, diffs]
        congr 1
        · ring
        · have := diffs_map_add 1 ((c + 1) :: (L.map (· + 1)) ++ [n])
          simpa using this
    have hpos : ∃ h t, runs (a :: b :: r) = (h + 1) :: t ∧ 0 ≤ h := by
      by_cases hab : a = b
      · subst hab
        obtain ⟨h, t, _, h0, h2⟩ := ih a
        exact ⟨h + 1, t, by rw [h2]; congr 1; ring, by omega⟩
      · exact ⟨0, _, by rw [runs_ne _ _ _ hab]; rfl, le_rfl⟩
    obtain ⟨h, t, h1, h0⟩ := hpos
    refine ⟨h, t, h1, h0, ?_⟩
    have hk := key (changes (a :: b :: r)) ((a :: b :: r).length : ℤ)
    have hr : runs (a :: a :: b :: r) =
        diffs (0 :: ((changes (a :: b :: r)).map (· + 1)).map (· + 1) ++
          [((a :: b :: r).length : ℤ) + 1]) := by
      unfold runs
      rw [changes.eq_1 a a (b :: r), if_pos rfl]
      simp
    rw [hr, hk]
    have : diffs (0 :: (changes (a :: b :: r)).map (· + 1) ++ [((a :: b :: r).length : ℤ)]) =
        (h + 1) :: t := by
      rw [← h1]; rfl
    rw [this]
    simp only [List.cons.injEq, and_true]
    ring

theorem rldecodeFrom_runs : ∀ (a : Nat) (r : List Nat), (∀ v ∈ a :: r, v = 0 ∨ v = 1) →
    rldecodeFrom a (runs (a :: r)) = a :: r
  | a, [], _ => by simp [runs_single, rldecodeFrom]
  | a, b :: r, hv => by
    have ih := rldecodeFrom_runs b r (fun v h => hv v (List.mem_cons_of_mem _ h))
    by_cases hab : a = b
    · subst hab
      obtain ⟨h, t, h1, h0, h2⟩ := runs_eq a r
      rw [h2]
      rw [h1] at ih
      simp only [rldecodeFrom] at ih ⊢
      have e : (h + 2).toNat = (h + 1).toNat + 1 := by omega
      rw [e, List.replicate_succ, List.cons_append, ih]
    · rw [runs_ne _ _ _ hab]
      have ha := hv a (by simp)
      have hb := hv b (by simp)
      have : 1 - a = b := by omega
      simp [rldecodeFrom, this, ih]

theorem rlencode_cons (a : Nat) (r : List Nat) :
    rlencode (a :: r) = .ok (if a = 0 then 0 :: runs (a :: r) else runs (a :: r)) := rfl

theorem runs_pos : ∀ (x : List Nat), ∀ l ∈ runs x, x ≠ [] → 0 < l
  | [], _, _ => fun h => absurd rfl h
  | [a], l, h => by intro _; simp [runs_single] at h; omega
  | a :: b :: r, l, h => by
    intro _
    by_cases hab : a = b
    · subst hab
      obtain ⟨h', t, h1, h0, h2⟩ := runs_eq a r
      have ih := runs_pos (a :: r)
      rw [h2] at h
      rw [h1] at ih
      rcases List.mem_cons.mp h with h | h
      · omega
      · exact ih l (List.mem_cons_of_mem _ h) (by simp)
    · rw [runs_ne _ _ _ hab] at h
      rcases List.mem_cons.mp h with h | h
      · omega
      · exact runs_pos (b :: r) l h (by simp)

theorem diffs_sum (a z : ℤ) : ∀ m : List ℤ, (diffs ((a :: m) ++ [z])).sum = z - a := by
  intro m
  induction m generalizing a with
  | nil => simp [diffs]
  | cons b m ih =>
    simp only [List.cons_append, diffs, List.sum_cons] at ih ⊢
    rw [ih b]; ring

theorem runs_sum (x : List Nat) : (runs x).sum = x.length := by
  unfold runs; rw [diffs_sum]; ring

theorem cumsum_diffs : ∀ (a : ℤ) (r : List ℤ), cumsumFrom a (diffs (a :: r)) = r
  | _, [] => rfl
  | a, b :: r => by
    have := cumsum_diffs b r
    simp only [diffs, cumsumFrom]
    rw [show a + (b - a) = b by ring, this]

/-- The residual list of a flat list of values. -/
def residualOf (l : List ℤ) : List ℤ :=
  match l.filter (· ≠ 0) with
  | [] => []
  | a :: r => a :: diffs (a :: r)

theorem cumsum_residualOf (l : List ℤ) : cumsumFrom 0 (residualOf l) = l.filter (· ≠ 0) := by
  unfold residualOf
  split
  · rename_i h; rw [h]; rfl
  · rename_i a r h
    rw [h]; simp only [cumsumFrom, zero_add, cumsum_diffs]

theorem fillMask_zero (ms : List Nat) (vs : List ℤ) :
    fillMask (0 :: ms) vs = (fillMask ms vs).map ((0 : ℤ) :: ·) := by
  cases vs <;> simp [fillMask]

theorem fillMask_one (ms : List Nat) (v : ℤ) (vs : List ℤ) :
    fillMask (1 :: ms) (v :: vs) = (fillMask ms vs).map (v :: ·) := by
  simp [fillMask]

theorem fillMask_spec : ∀ l : List ℤ,
    fillMask (l.map fun v => if v ≠ 0 then 1 else 0) (l.filter (· ≠ 0)) = .ok l
  | [] => rfl
  | v :: l => by
    have ih := fillMask_spec l
    by_cases hv : v = 0
    · subst hv
      rw [List.map_cons, List.filter_cons_of_neg (by simp), if_neg (by simp), fillMask_zero, ih]
      rfl
    · rw [List.map_cons, List.filter_cons_of_pos (by simpa using hv), if_pos hv, fillMask_one, ih]
      rfl

theorem flattenCHW_length {α : Type} (x : Image α) : (flattenCHW x).length = x.c * (x.h * x.w) := by
  simp [flattenCHW, List.length_flatMap]

theorem getElem_flatMap_const {β γ : Type} (l : List β) (f : β → List γ) (n : Nat)
    (hf : ∀ b, (f b).length = n) (i k : Nat) (hi : i < l.length) (hk : k < n)
    (h : i * n + k < (l.flatMap f).length) :
    (l.flatMap f)[i * n + k] = (f l[i])[k]'(by rw [hf]; exact hk) := by
  induction l generalizing i with
  | nil => simp at hi
  | cons b l ih =>
    cases i with
    | zero =>
      simp only [List.flatMap_cons, Nat.zero_mul, Nat.zero_add, List.getElem_cons_zero]
      rw [List.getElem_append_left]
    | succ i =>
      simp only [List.flatMap_cons, List.getElem_cons_succ]
      have e : (i + 1) * n + k = (f b).length + (i * n + k) := by rw [hf, Nat.add_mul]; omega
      have h' : i * n + k < (l.flatMap f).length := by
        simp only [List.flatMap_cons, List.length_append] at h; omega
      rw [List.getElem_append_right (by omega)]
      have e2 : (i + 1) * n + k - (f b).length = i * n + k := by omega
      simp only [e2]
      exact ih i (by simpa using hi) h'

theorem flattenCHW_getElem {α : Type} (x : Image α) (i : Fin x.h) (j : Fin x.w) (ch : Fin x.c)
    (h : ch.val * (x.h * x.w) + (i.val * x.w + j.val) < (flattenCHW x).length) :
    (flattenCHW x)[ch.val * (x.h * x.w) + (i.val * x.w + j.val)] = x.px i j ch := by
  have h1 : i.val * x.w + j.val < x.h * x.w := by
    calc i.val * x.w + j.val < i.val * x.w + x.w := by omega
      _ = (i.val + 1) * x.w := by rw [Nat.add_mul]; omega
      _ ≤ x.h * x.w := Nat.mul_le_mul_right _ i.isLt
  unfold flattenCHW at h ⊢
  rw [getElem_flatMap_const _ _ (x.h * x.w) (by intro b; simp [List.length_flatMap])
    ch.val (i.val * x.w + j.val) (by simp) h1]
  rw [getElem_flatMap_const _ _ x.w (by intro b; simp) i.val j.val (by simp) j.isLt]
  simp

theorem unflatten_flatten {α : Type} (x : Image α) :
    unflattenCHW x.h x.w x.c (flattenCHW x) = .ok x := by
  unfold unflattenCHW
  rw [dif_pos (flattenCHW_length x)]
  congr 1
  cases x with
  | mk h w c px =>
    simp only [Image.mk.injEq, heq_eq_eq, true_and]
    funext i j ch
    exact flattenCHW_getElem ⟨h, w, c, px⟩ i j ch _

theorem checkPrecision_length {c : Nat} {p : Precision} {qs : List ℚ}
    (h : checkPrecision c p = .ok qs) : qs.length = c ∧ ∀ q ∈ qs, 0 < q := by
  cases p with
  | scalar q =>
    simp only [checkPrecision] at h
    split at h
    · cases h
    · cases h
      rename_i hq
      refine ⟨by simp, ?_⟩
      intro q' hq'
      rw [List.eq_of_mem_replicate hq']; exact not_le.mp hq
  | list l =>
    simp only [checkPrecision] at h
    split at h
    · cases h
    · split at h
      · cases h
      · cases h
        rename_i h1 h2
        refine ⟨by simpa using h1, ?_⟩
        intro q hq
        simp only [List.any_eq_true, decide_eq_true_eq, not_exists, not_and, not_le] at h2
        exact h2 q hq

end Verif.DeltaEncoder
