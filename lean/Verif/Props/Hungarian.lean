import Verif.Lemmas.HungarianLoop
import Mathlib.Algebra.BigOperators.Group.List.Lemmas
import Mathlib.Algebra.Order.BigOperators.Group.List

/-!
Property C09: the assignment solver finishes and its answer is optimal.
-/

namespace Verif.Hungarian

/-- Specification: an assignment of the rows `0..n-1` to distinct columns `0..n-1`, given as the list
of the columns. -/
def IsAssignment (n : Nat) (q : List Nat) : Prop := q.Perm (List.range n)

/-- Specification: total weight of an assignment in the row-major matrix `edge`. -/
def totalWeight (n : Nat) (edge : Nat → ℤ) (q : List Nat) : ℤ :=
  ((List.range n).map fun i => edge (i * n + q.getD i 0)).sum

theorem mapM_some {α β : Type} {f : α → Option β} {g : α → β} :
    ∀ L : List α, (∀ i ∈ L, f i = some (g i)) → L.mapM f = some (L.map g) := by
  intro L
  induction L with
  | nil => intro _; simp
  | cons a L ih =>
    intro h
    rw [List.mapM_cons, h a (by simp), ih (fun i hi => h i (by simp [hi]))]
    simp

theorem sum_getD_perm {n : Nat} {q : List Nat} (h : IsAssignment n q) (g : Nat → ℤ) :
    ((List.range n).map fun i => g (q.getD i 0)).sum = ((List.range n).map g).sum := by
  have hl : q.length = n := by simpa using h.length_eq
  have e : (List.range n).map (fun i => g (q.getD i 0)) = q.map g := by
    apply List.ext_getElem
    · simp [hl]
    · intro i h1 h2
      have : i < q.length := by simpa using h2
      simp [List.getD, this]
  rw [e]
  exact (h.map g).sum_eq

/-- Weak duality: no assignment weighs more than the sum of feasible labels. -/
theorem totalWeight_le {n : Nat} {edge lx ly : Nat → ℤ}
    (hf : ∀ i < n, ∀ j < n, edge (i * n + j) ≤ lx i + ly j) {q : List Nat} (h : IsAssignment n q) :
    totalWeight n edge q ≤ ((List.range n).map lx).sum + ((List.range n).map ly).sum := by
  have hl : q.length = n := by simpa using h.length_eq
  rw [← sum_getD_perm h ly, ← List.sum_map_add]
  refine List.sum_le_sum ?_
  intro i hi
  have hi' := List.mem_range.mp hi
  refine hf i hi' _ ?_
  have : q.getD i 0 ∈ q := by
    rw [List.getD, List.getElem?_eq_getElem (by omega)]
    exact List.getElem_mem _
  exact List.mem_range.mp (h.mem_iff.mp this)

/-- C09. For every size and every matrix of weights between `0` and `W` with `2 W` representable, the
solver finishes (every loop within `n + 1` iterations, no fatal check), its answer is an assignment,
and no assignment weighs more. -/
theorem hungarian_optimal (budget n : Nat) (edge : Nat → ℤ) (W : ℤ) (hn : 0 < n)
    (hedge : ∀ i < n, ∀ j < n, 0 ≤ edge (i * n + j) ∧ edge (i * n + j) ≤ W)
    (hmax : 2 * W ≤ 2147483647) (hb : n + 1 ≤ budget) :
    ∃ perm lx ly, hungarian budget n edge = some (perm, lx, ly) ∧ IsAssignment n perm ∧
      ∀ q, IsAssignment n q → totalWeight n edge q ≤ totalWeight n edge perm := by
  have hW : ∀ i < n, ∀ j < n, edge (i * n + j) ≤ W := fun i hi j hj => (hedge i hi j hj).2
  have hnn : ∀ i < n, ∀ j < n, 0 ≤ edge (i * n + j) := fun i hi j hj => (hedge i hi j hj).1
  have hW0 : 0 ≤ W := le_trans (hnn 0 hn 0 hn) (hW 0 hn 0 hn)
  obtain ⟨m, lx, ly, h1, h2, h3⟩ := outer_spec hnn hW hW0 (by simpa [weightMax] using hmax) budget hb
    budget Matching.empty (initLx n edge) (fun _ => 0) (init_inv hW hW0)
    (lt_of_le_of_lt (List.length_filter_le _ _) (by rw [List.length_range]; omega))
  have hs : ∀ i < n, m.p i = some ((m.p i).getD 0) := by
    intro i hi
    obtain ⟨j, hj⟩ := Option.isSome_iff_exists.mp (h3 i hi)
    simp [hj]
  have hmap := mapM_some (f := m.p) (g := fun i => (m.p i).getD 0) (List.range n)
    (fun i hi => hs i (List.mem_range.mp hi))
  have hperm : IsAssignment n ((List.range n).map fun i => (m.p i).getD 0) := by
    have hnd : ((List.range n).map fun i => (m.p i).getD 0).Nodup := by
      refine List.Nodup.map_on ?_ List.nodup_range
      intro x hx y hy hxy
      have e1 := hs x (List.mem_range.mp hx)
      have e2 := hs y (List.mem_range.mp hy)
      rw [hxy] at e1
      have e3 := (h2.cons _ _).mp e1
      have e4 := (h2.cons _ _).mp e2
      rw [e3] at e4
      exact Option.some.inj e4
    have hsub : ((List.range n).map fun i => (m.p i).getD 0) ⊆ List.range n := by
      intro j hj
      obtain ⟨i, hi, rfl⟩ := List.mem_map.mp hj
      exact List.mem_range.mpr (h2.tight _ _ (hs i (List.mem_range.mp hi))).2.1
    exact (hnd.subperm hsub).perm_of_length_le (by simp)
  refine ⟨_, lx, ly, ?_, hperm, ?_⟩
  · simp only [hungarian, if_neg (show n ≠ 0 by omega), h1, hmap]
  · intro q hq
    refine le_trans (totalWeight_le h2.feas hq) (le_of_eq ?_)
    rw [← sum_getD_perm hperm ly, ← List.sum_map_add, totalWeight]
    congr 1
    refine List.map_congr_left ?_
    intro i hi
    have hi' := List.mem_range.mp hi
    have e : ((List.range n).map fun i => (m.p i).getD 0).getD i 0 = (m.p i).getD 0 := by
      simp [List.getD, hi']
    rw [e]
    exact (h2.tight _ _ (hs i hi')).2.2

/-- C09. The labels written to `lx`/`ly` certify the optimum and stay within the input range, so
32 bit arithmetic never overflows in the final state. -/
theorem hungarian_labels (budget n : Nat) (edge : Nat → ℤ) (W : ℤ) (hn : 0 < n)
    (hedge : ∀ i < n, ∀ j < n, 0 ≤ edge (i * n + j) ∧ edge (i * n + j) ≤ W)
    (hmax : 2 * W ≤ 2147483647) (hb : n + 1 ≤ budget) (perm : List Nat) (lx ly : Nat → ℤ)
    (h : hungarian budget n edge = some (perm, lx, ly)) :
    (∀ i < n, ∀ j < n, edge (i * n + j) ≤ lx i + ly j) ∧
      (∀ i < n, edge (i * n + perm.getD i 0) = lx i + ly (perm.getD i 0)) ∧
      (∀ i < n, 0 ≤ lx i ∧ lx i ≤ W ∧ 0 ≤ ly i ∧ ly i ≤ W) := by
  have hW : ∀ i < n, ∀ j < n, edge (i * n + j) ≤ W := fun i hi j hj => (hedge i hi j hj).2
  have hnn : ∀ i < n, ∀ j < n, 0 ≤ edge (i * n + j) := fun i hi j hj => (hedge i hi j hj).1
  have hW0 : 0 ≤ W := le_trans (hnn 0 hn 0 hn) (hW 0 hn 0 hn)
  obtain ⟨m, lx', ly', h1, h2, h3⟩ := outer_spec hnn hW hW0 (by simpa [weightMax] using hmax) budget hb
    budget Matching.empty (initLx n edge) (fun _ => 0) (init_inv hW hW0)
    (lt_of_le_of_lt (List.length_filter_le _ _) (by rw [List.length_range]; omega))
  have hs : ∀ i < n, m.p i = some ((m.p i).getD 0) := by
    intro i hi
    obtain ⟨j, hj⟩ := Option.isSome_iff_exists.mp (h3 i hi)
    simp [hj]
  have hmap := mapM_some (f := m.p) (g := fun i => (m.p i).getD 0) (List.range n)
    (fun i hi => hs i (List.mem_range.mp hi))
  simp only [hungarian, if_neg (show n ≠ 0 by omega), h1, hmap, Option.some.injEq, Prod.mk.injEq] at h
  obtain ⟨rfl, rfl, rfl⟩ := h
  refine ⟨h2.feas, ?_, ?_⟩
  · intro i hi
    have e : ((List.range n).map fun i => (m.p i).getD 0).getD i 0 = (m.p i).getD 0 := by
      simp [List.getD, hi]
    rw [e]
    exact (h2.tight _ _ (hs i hi)).2.2.symm
  · intro i hi
    refine ⟨h2.lxnn i hi, h2.lxW i hi, h2.lynn i hi, ?_⟩
    exact TInv.lyW (t := { lx := lx', ly := ly', S := [], T := [], parentT := [], N := [], parentN := [] })
      h2 hW0 hW i hi

/-- C09. The empty problem is refused (`CHECK(n > 0)`). -/
theorem hungarian_empty (budget : Nat) (edge : Nat → ℤ) : hungarian budget 0 edge = none := rfl

/-- The hypotheses are met by a 3×3 matrix that needs label changes and an augmenting path. -/
example : let edge : Nat → ℤ := fun k => [7, 4, 3, 6, 8, 5, 9, 4, 4].getD k 0
    (∀ i < 3, ∀ j < 3, 0 ≤ edge (i * 3 + j) ∧ edge (i * 3 + j) ≤ 9) ∧
      (hungarian 4 3 edge).map (·.1) = some [2, 1, 0] := by
  decide

end Verif.Hungarian
