import Verif.Model.Tensor
import Verif.Props.Detection

/-!
Facts about the tensors of `Verif.Model.Tensor`.
-/

namespace Verif.Tensor

variable {α β : Type}

theorem offset_lt : ∀ (idx shape : List Nat), within idx shape = true → offset idx shape < shape.prod := by
  intro idx
  induction idx with
  | nil => intro shape h; cases shape with
    | nil => simp [offset]
    | cons => simp [within] at h
  | cons i is ih =>
    intro shape h
    cases shape with
    | nil => simp [within] at h
    | cons n ns =>
      rw [within, Bool.and_eq_true, decide_eq_true_eq] at h
      rw [offset, List.prod_cons]
      have := ih ns h.2
      calc i * ns.prod + offset is ns < i * ns.prod + ns.prod := by omega
        _ = (i + 1) * ns.prod := by ring
        _ ≤ n * ns.prod := Nat.mul_le_mul_right _ h.1

theorem coords_offset : ∀ (idx shape : List Nat), within idx shape = true → coords shape (offset idx shape) = idx := by
  intro idx
  induction idx with
  | nil => intro shape h; cases shape with
    | nil => rfl
    | cons => simp [within] at h
  | cons i is ih =>
    intro shape h
    cases shape with
    | nil => simp [within] at h
    | cons n ns =>
      rw [within, Bool.and_eq_true, decide_eq_true_eq] at h
      have hlt := offset_lt is ns h.2
      have hpos : 0 < ns.prod := by omega
      rw [offset, coords, Nat.add_comm, Nat.add_mul_div_right _ _ hpos, Nat.div_eq_of_lt hlt, Nat.zero_add,
        Nat.add_mul_mod_self_right, Nat.mod_eq_of_lt hlt, ih ns h.2]

theorem within_coords : ∀ (shape : List Nat) (k : Nat), k < shape.prod → within (coords shape k) shape = true := by
  intro shape
  induction shape with
  | nil => intro k _; rfl
  | cons n ns ih =>
    intro k hk
    rw [List.prod_cons] at hk
    have hpos : 0 < ns.prod := by
      rcases Nat.eq_zero_or_pos ns.prod with h | h
      · rw [h] at hk; omega
      · exact h
    rw [coords, within, Bool.and_eq_true, decide_eq_true_eq]
    exact ⟨Nat.div_lt_of_lt_mul (by rw [Nat.mul_comm]; exact hk), ih _ (Nat.mod_lt _ hpos)⟩

theorem offset_coords : ∀ (shape : List Nat) (k : Nat), k < shape.prod → offset (coords shape k) shape = k := by
  intro shape
  induction shape with
  | nil => intro k hk; simp at hk; subst hk; rfl
  | cons n ns ih =>
    intro k hk
    rw [List.prod_cons] at hk
    have hpos : 0 < ns.prod := by
      rcases Nat.eq_zero_or_pos ns.prod with h | h
      · rw [h] at hk; omega
      · exact h
    rw [coords, offset, ih _ (Nat.mod_lt _ hpos), Nat.mul_comm]
    exact Nat.div_add_mod k ns.prod

theorem get?_isSome {t : Tensor α} (ht : t.WF) {idx : List Nat} (h : within idx t.shape = true) :
    ∃ a, t.get? idx = some a := by
  have hlt : offset idx t.shape < t.data.length := by rw [ht]; exact offset_lt _ _ h
  exact ⟨t.data[offset idx t.shape], by rw [get?, if_pos h, List.getElem?_eq_getElem hlt]⟩

theorem get?_none {t : Tensor α} {idx : List Nat} (h : within idx t.shape = false) : t.get? idx = none := by
  rw [get?, h]; rfl

/-- Two tensors of one shape with equal elements are equal. -/
theorem ext {t u : Tensor α} (ht : t.WF) (hu : u.WF) (hs : t.shape = u.shape)
    (h : ∀ idx, within idx t.shape = true → t.get? idx = u.get? idx) : t = u := by
  have hd : t.data = u.data := by
    apply List.ext_getElem?
    intro k
    rcases Nat.lt_or_ge k t.shape.prod with hk | hk
    · have h1 := h _ (within_coords _ _ hk)
      rw [get?, get?, ← hs, if_pos (within_coords _ _ hk), if_pos (within_coords _ _ hk), offset_coords _ _ hk] at h1
      exact h1
    · rw [List.getElem?_eq_none (by rw [ht]; exact hk), List.getElem?_eq_none (by rw [hu, ← hs]; exact hk)]
  cases t; cases u
  simp only at hs hd
  subst hs hd
  rfl

theorem getElem?_of_mapM {γ δ : Type} (f : γ → Option δ) : ∀ (l : List γ) (r : List δ), l.mapM f = some r →
    r.length = l.length ∧ ∀ (k : Nat) (a : γ), l[k]? = some a → r[k]? = f a := by
  intro l
  induction l with
  | nil => intro r h; simp at h; subst h; simp
  | cons a l ih =>
    intro r h
    rw [List.mapM_cons] at h
    simp only [Option.bind_eq_bind, Option.bind_eq_some_iff, Option.pure_def, Option.some.injEq] at h
    obtain ⟨b, hb, r', hr', rfl⟩ := h
    obtain ⟨h1, h2⟩ := ih r' hr'
    refine ⟨by simp [h1], ?_⟩
    intro k c hk
    cases k with
    | zero => simp at hk; subst hk; simpa using hb.symm
    | succ k => simpa using h2 k c (by simpa using hk)

/-- What `ofFn?` returns has the given elements. -/
theorem ofFn?_some {shape : List Nat} {f : List Nat → Option α} {t : Tensor α} (h : ofFn? shape f = some t) :
    t.shape = shape ∧ t.WF ∧ ∀ idx, within idx shape = true → t.get? idx = f idx := by
  unfold ofFn? at h
  rw [Option.map_eq_some_iff] at h
  obtain ⟨d, hd, rfl⟩ := h
  obtain ⟨h1, h2⟩ := getElem?_of_mapM f _ _ hd
  refine ⟨rfl, ?_, ?_⟩
  · unfold WF; simpa using h1
  · intro idx hi
    have hlt := offset_lt _ _ hi
    rw [get?, if_pos hi]
    have := h2 (offset idx shape) idx (by
      rw [List.getElem?_map, List.getElem?_range hlt]
      simp [coords_offset _ _ hi])
    exact this

/-- `ofFn?` succeeds if all elements are given. -/
theorem ofFn?_ok (shape : List Nat) (f : List Nat → Option α) (h : ∀ idx, within idx shape = true → ∃ a, f idx = some a) :
    ∃ t, ofFn? shape f = some t ∧ t.shape = shape ∧ t.WF ∧ ∀ idx, within idx shape = true → t.get? idx = f idx := by
  obtain ⟨d, hd, -⟩ := Detection.mapM_exists f (fun _ _ => True) ((List.range shape.prod).map (coords shape)) (by
    intro idx hi
    obtain ⟨k, hk, rfl⟩ := List.mem_map.mp hi
    obtain ⟨a, ha⟩ := h _ (within_coords _ _ (List.mem_range.mp hk))
    exact ⟨a, ha, trivial⟩)
  have : ofFn? shape f = some ⟨shape, d⟩ := by rw [ofFn?, hd]; rfl
  exact ⟨_, this, ofFn?_some this⟩

theorem reshape_some {t u : Tensor α} {shape : List Nat} (ht : t.WF) (h : t.reshape shape = some u) :
    u.shape = shape ∧ u.WF ∧ u.data = t.data := by
  unfold reshape at h
  split_ifs at h with hp
  cases h
  exact ⟨rfl, by unfold WF at *; rw [ht]; exact hp.symm, rfl⟩

theorem reshape_ok {t : Tensor α} {shape : List Nat} (h : shape.prod = t.shape.prod) :
    t.reshape shape = some ⟨shape, t.data⟩ := if_pos h

/-- Elements at the same position are the same. -/
theorem get?_of_data {t u : Tensor α} (hd : u.data = t.data) {i j : List Nat} (hi : within i u.shape = true)
    (hj : within j t.shape = true) (ho : offset i u.shape = offset j t.shape) : u.get? i = t.get? j := by
  rw [get?, get?, if_pos hi, if_pos hj, hd, ho]

theorem within_iff3 {i j k a b c : Nat} : within [i, j, k] [a, b, c] = true ↔ i < a ∧ j < b ∧ k < c := by
  simp [within, and_assoc]

theorem within_iff2 {i j a b : Nat} : within [i, j] [a, b] = true ↔ i < a ∧ j < b := by
  simp [within]

theorem within_iff1 {i a : Nat} : within [i] [a] = true ↔ i < a := by
  simp [within]

theorem within_iff5 {i j k l m a b c d e : Nat} : within [i, j, k, l, m] [a, b, c, d, e] = true ↔
    i < a ∧ j < b ∧ k < c ∧ l < d ∧ m < e := by
  simp [within, and_assoc]

theorem exists_of_within1 {idx : List Nat} {a : Nat} (h : within idx [a] = true) : ∃ i, idx = [i] ∧ i < a := by
  match idx, h with
  | [i], h => exact ⟨i, rfl, within_iff1.mp h⟩
  | i :: j :: t, h => simp [within] at h

theorem exists_of_within2 {idx : List Nat} {a b : Nat} (h : within idx [a, b] = true) :
    ∃ i j, idx = [i, j] ∧ i < a ∧ j < b := by
  match idx, h with
  | [i, j], h => exact ⟨i, j, rfl, within_iff2.mp h⟩
  | [i], h => simp [within] at h
  | i :: j :: k :: t, h => simp [within] at h

theorem exists_of_within3 {idx : List Nat} {a b c : Nat} (h : within idx [a, b, c] = true) :
    ∃ i j k, idx = [i, j, k] ∧ i < a ∧ j < b ∧ k < c := by
  match idx, h with
  | [i, j, k], h => exact ⟨i, j, k, rfl, within_iff3.mp h⟩
  | [i], h => simp [within] at h
  | [i, j], h => simp [within] at h
  | i :: j :: k :: l :: t, h => simp [within] at h

theorem exists_of_within5 {idx : List Nat} {a b c d e : Nat} (h : within idx [a, b, c, d, e] = true) :
    ∃ i j k l m, idx = [i, j, k, l, m] ∧ i < a ∧ j < b ∧ k < c ∧ l < d ∧ m < e := by
  match idx, h with
  | [i, j, k, l, m], h => exact ⟨i, j, k, l, m, rfl, within_iff5.mp h⟩
  | [i], h => simp [within] at h
  | [i, j], h => simp [within] at h
  | [i, j, k], h => simp [within] at h
  | [i, j, k, l], h => simp [within] at h
  | i :: j :: k :: l :: m :: n :: t, h => simp [within] at h

end Verif.Tensor
