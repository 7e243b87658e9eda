import Verif.Model.Waypoints
import Mathlib.Tactic.SplitIfs
import Mathlib.Tactic.Linarith

/-! C226: the grids read at a way point are those that were put there. -/

namespace Verif.Waypoints

variable {β : Type}

/-- What a history of appended grids put into a field of a type, in order. -/
def putInto (h : List (ℤ × Field × β)) (t : ℤ) (f : Field) : List β := (h.filter fun x => decide (x.1 = t ∧ x.2.1 = f)).map fun x => x.2.2

/-- The types of agents. -/
def IsType (t : ℤ) : Prop := t = 1 ∨ t = 2 ∨ t = 3

/-- The k-th element, counted from the end if `k` is negative. -/
def IsKth (l : List β) (k : ℤ) (g : β) : Prop := ∃ i : ℕ, l[i]? = some g ∧ ((i : ℤ) = k ∨ (i : ℤ) = l.length + k ∧ k < 0)

theorem pyIndex_iff {l : List β} {k : ℤ} {g : β} : pyIndex l k = some g ↔ IsKth l k g := by
  unfold pyIndex IsKth
  split
  next h =>
    constructor
    · intro e; exact ⟨_, e, Or.inl (Int.toNat_of_nonneg h)⟩
    · rintro ⟨i, e, hi | hi⟩
      · rw [← hi]; simpa using e
      · omega
  next h =>
    split
    next h' =>
      constructor
      · intro e; exact ⟨_, e, Or.inr ⟨Int.toNat_of_nonneg h', by omega⟩⟩
      · rintro ⟨i, e, hi | hi⟩
        · omega
        · rw [← hi.1]; simpa using e
    next h' =>
      constructor
      · intro e; cases e
      · rintro ⟨i, e, hi | hi⟩ <;> omega

theorem pyIndex_none {l : List β} {k : ℤ} : pyIndex l k = none ↔ k < -l.length ∨ (l.length : ℤ) ≤ k := by
  unfold pyIndex
  split
  · rw [List.getElem?_eq_none_iff]; omega
  · split
    · rw [List.getElem?_eq_none_iff]; omega
    · simp; omega

theorem append_get (o : OneType β) (g : β) (f f' : Field) : (o.append g f).get f' = if f' = f then o.get f ++ [g] else o.get f' := by
  cases f <;> cases f' <;> rfl

/-- C226: appending adds the grid at the end of the list of its type and field and leaves all others as they are; types that are not those of agents are refused. -/
theorem put_spec (w : Grids β) (t : ℤ) (f : Field) (g : β) : (w.put t f g = none ↔ ¬ IsType t) ∧ ∀ w', w.put t f g = some w' → ∀ t' f',
    ((w'.view t').map fun o => o.get f') = (w.view t').map fun o => if t' = t ∧ f' = f then o.get f' ++ [g] else o.get f' := by
  unfold Grids.put IsType
  refine ⟨by split_ifs <;> simp_all, ?_⟩
  intro w' hw t' f'
  split_ifs at hw with h1 h2 h3
  all_goals
    cases hw
    subst t
    simp only [Grids.view]
    split_ifs <;> simp_all [append_get]
    try (split_ifs <;> simp_all)

theorem view_isSome (w : Grids β) (t : ℤ) : (w.view t).isSome ↔ IsType t := by
  unfold Grids.view IsType
  split_ifs <;> simp_all

/-- C226: after any history of appended grids each field of each type holds what was put there, in order; a history fails only if it names another type. -/
theorem puts_spec (h : List (ℤ × Field × β)) : ∀ (w : Grids β), (w.puts h = none ↔ ∃ x ∈ h, ¬ IsType x.1) ∧ ∀ w', w.puts h = some w' → ∀ t f,
    ((w'.view t).map fun o => o.get f) = (w.view t).map fun o => o.get f ++ putInto h t f := by
  induction h with
  | nil =>
    intro w
    refine ⟨by simp [Grids.puts], ?_⟩
    intro w' hw t f
    cases hw
    simp [putInto]
  | cons x h ih =>
    intro w
    obtain ⟨hn, hs⟩ := put_spec w x.1 x.2.1 x.2.2
    cases hp : w.put x.1 x.2.1 x.2.2 with
    | none => simp [Grids.puts, hp, hn.1 hp]
    | some w1 =>
      have hx : IsType x.1 := by
        by_contra hx
        rw [hn.2 hx] at hp; cases hp
      refine ⟨by simp [Grids.puts, hp, (ih w1).1, hx], ?_⟩
      intro w' hw t f
      simp only [Grids.puts, hp, Option.bind_some] at hw
      rw [(ih w1).2 w' hw t f]
      have h1 := hs w1 hp t f
      cases hv1 : w1.view t with
      | none =>
        rw [hv1] at h1
        cases hv : w.view t with
        | none => rfl
        | some o => rw [hv] at h1; simp at h1
      | some o1 =>
        rw [hv1] at h1
        cases hv : w.view t with
        | none => rw [hv] at h1; simp at h1
        | some o =>
          rw [hv] at h1
          simp only [Option.map_some, Option.some.injEq] at h1 ⊢
          rw [h1]
          by_cases hc : x.1 = t ∧ x.2.1 = f
          · have hc' : t = x.1 ∧ f = x.2.1 := ⟨hc.1.symm, hc.2.symm⟩
            rw [if_pos hc']
            simp [putInto, List.filter_cons, hc]
          · have hc' : ¬ (t = x.1 ∧ f = x.2.1) := fun h => hc ⟨h.1.symm, h.2.symm⟩
            rw [if_neg hc']
            simp [putInto, List.filter_cons, hc]

theorem pick_iff {l : List β} {k : ℤ} {r : Option β} : pick l k = some r ↔ l = [] ∧ r = none ∨ ∃ g, r = some g ∧ IsKth l k g := by
  unfold pick
  split
  next h =>
    subst h
    constructor
    · intro e; cases e; exact Or.inl ⟨rfl, rfl⟩
    · rintro (⟨-, e⟩ | ⟨g, -, i, e, -⟩)
      · rw [e]
      · simp at e
  next h =>
    simp only [Option.map_eq_some_iff, pyIndex_iff, h, false_and, false_or]
    constructor
    · rintro ⟨g, e, rfl⟩; exact ⟨g, rfl, e⟩
    · rintro ⟨g, rfl, e⟩; exact ⟨g, e, rfl⟩

theorem pick_none {l : List β} {k : ℤ} : pick l k = none ↔ l ≠ [] ∧ (k < -l.length ∨ (l.length : ℤ) ≤ k) := by
  unfold pick
  split <;> simp_all [pyIndex_none]

theorem at_parts {w : Grids β} {f : Field} {k : ℤ} {a : AgentGrids β} : w.at' f k = some a ↔
    ∀ t o, w.view t = some o → ∃ r, a.view t = some r ∧ pick (o.get f) k = some r := by
  constructor
  · intro h t o ho
    unfold Grids.at' at h
    simp only [Option.bind_eq_bind, Option.bind_eq_some_iff, Option.pure_def, Option.some.injEq] at h
    obtain ⟨v, hv, p, hp, c, hc, rfl⟩ := h
    unfold Grids.view at ho
    unfold AgentGrids.view
    split_ifs at ho ⊢ <;> cases ho
    · exact ⟨_, rfl, hv⟩
    · exact ⟨_, rfl, hp⟩
    · exact ⟨_, rfl, hc⟩
  · intro h
    obtain ⟨v, hv, hv'⟩ := h 1 w.vehicles rfl
    obtain ⟨p, hp, hp'⟩ := h 2 w.pedestrians rfl
    obtain ⟨c, hc, hc'⟩ := h 3 w.cyclists rfl
    unfold Grids.at'
    rw [hv', hp', hc']
    simp only [AgentGrids.view] at hv hp hc
    cases a
    simp at hv hp hc
    simp [hv, hp, hc]

/-- C226: reading way point `k` after any history gives, for each type, nothing if nothing was put there and otherwise the k-th grid that was put there (from the end if `k` is negative). -/
theorem at_spec {h : List (ℤ × Field × β)} {w : Grids β} (hw : ({} : Grids β).puts h = some w) (f : Field) (k : ℤ) (a : AgentGrids β) : w.at' f k = some a ↔
    ∀ t, IsType t → ∃ r, a.view t = some r ∧ (putInto h t f = [] ∧ r = none ∨ ∃ g, r = some g ∧ IsKth (putInto h t f) k g) := by
  have key : ∀ t o, w.view t = some o → o.get f = putInto h t f := by
    intro t o ho
    have := (puts_spec h {}).2 w hw t f
    rw [ho] at this
    unfold Grids.view at this
    split_ifs at this <;> cases f <;> simpa [OneType.get] using this
  rw [at_parts]
  constructor
  · intro hh t ht
    obtain ⟨o, ho⟩ := Option.isSome_iff_exists.1 ((view_isSome w t).2 ht)
    obtain ⟨r, hr, hp⟩ := hh t o ho
    refine ⟨r, hr, ?_⟩
    rw [← key t o ho]
    exact pick_iff.1 hp
  · intro hh t o ho
    obtain ⟨r, hr, hp⟩ := hh t ((view_isSome w t).1 (by simp [ho]))
    refine ⟨r, hr, ?_⟩
    rw [← key t o ho] at hp
    exact pick_iff.2 hp

/-- C226: it raises exactly if a type has grids there but not that many. -/
theorem at_raises {h : List (ℤ × Field × β)} {w : Grids β} (hw : ({} : Grids β).puts h = some w) (f : Field) (k : ℤ) : w.at' f k = none ↔
    ∃ t, IsType t ∧ putInto h t f ≠ [] ∧ (k < -(putInto h t f).length ∨ ((putInto h t f).length : ℤ) ≤ k) := by
  have key : ∀ t o, w.view t = some o → o.get f = putInto h t f := by
    intro t o ho
    have := (puts_spec h {}).2 w hw t f
    rw [ho] at this
    unfold Grids.view at this
    split_ifs at this <;> cases f <;> simpa [OneType.get] using this
  have e1 := key 1 w.vehicles rfl
  have e2 := key 2 w.pedestrians rfl
  have e3 := key 3 w.cyclists rfl
  constructor
  · intro hn
    by_contra hc
    have hp : ∀ t, IsType t → ∃ r, pick (putInto h t f) k = some r := by
      intro t ht
      cases hq : pick (putInto h t f) k with
      | some r => exact ⟨r, rfl⟩
      | none => exact absurd ⟨t, ht, pick_none.1 hq⟩ hc
    obtain ⟨v, hv⟩ := hp 1 (Or.inl rfl)
    obtain ⟨p, hp'⟩ := hp 2 (Or.inr (Or.inl rfl))
    obtain ⟨c, hc'⟩ := hp 3 (Or.inr (Or.inr rfl))
    unfold Grids.at' at hn
    rw [e1, e2, e3, hv, hp', hc'] at hn
    simp at hn
  · rintro ⟨t, ht, hn⟩
    have hq := pick_none.2 hn
    unfold Grids.at'
    rw [e1, e2, e3]
    rcases ht with rfl | rfl | rfl
    · rw [hq]; rfl
    · rw [hq]; cases pick (putInto h 1 f) k <;> rfl
    · rw [hq]; cases pick (putInto h 1 f) k <;> cases pick (putInto h 2 f) k <;> rfl

theorem putInto_fill (f : Field) (n : ℕ) (grid : ℤ → ℕ → β) {t : ℤ} (ht : IsType t) :
    putInto (allTypes.flatMap fun t => (List.range n).map fun k => (t, f, grid t k)) t f = (List.range n).map (grid t) := by
  have h : ∀ a, putInto ((List.range n).map fun k => (a, f, grid a k)) t f = if a = t then (List.range n).map (grid a) else [] := by
    intro a
    unfold putInto
    rw [List.filter_map, List.map_map]
    by_cases ha : a = t
    · simp [ha, Function.comp_def]
    · simp [ha, Function.comp_def]
  have happ : ∀ a b : List (ℤ × Field × β), putInto (a ++ b) t f = putInto a t f ++ putInto b t f := by intro a b; simp [putInto]
  simp only [allTypes, List.flatMap_cons, List.flatMap_nil, List.append_nil, happ, h]
  rcases ht with rfl | rfl | rfl <;> simp

/-- C226: after the ground truth of `n` way points has been added, way point `k` has for each type its k-th grid, counted from the end for `k < 0`; with no way points it is empty. -/
theorem fill_spec (f : Field) (n : ℕ) (grid : ℤ → ℕ → β) : ∃ w, ({} : Grids β).fill f n grid = some w ∧
    (∀ k : ℕ, k < n → w.at' f k = some ⟨some (grid 1 k), some (grid 2 k), some (grid 3 k)⟩ ∧
      w.at' f (k - n) = some ⟨some (grid 1 k), some (grid 2 k), some (grid 3 k)⟩) ∧
    (0 < n → ∀ k : ℤ, k < -n ∨ n ≤ k → w.at' f k = none) ∧ (∀ f' k, f' ≠ f ∨ n = 0 → w.at' f' k = some {}) := by
  set h := allTypes.flatMap fun t => (List.range n).map fun k => (t, f, grid t k) with hh
  have hty : ∀ x ∈ h, IsType x.1 := by
    intro x hx
    simp only [hh, allTypes, List.mem_flatMap, List.mem_map, List.mem_cons, List.not_mem_nil, or_false] at hx
    obtain ⟨t, ht, k, -, rfl⟩ := hx
    exact ht
  obtain ⟨w, hw⟩ : ∃ w, ({} : Grids β).puts h = some w := by
    cases hp : ({} : Grids β).puts h with
    | some w => exact ⟨w, rfl⟩
    | none => obtain ⟨x, hx, hn⟩ := ((puts_spec h {}).1).1 hp; exact absurd (hty x hx) hn
  have hin : ∀ t, IsType t → putInto h t f = (List.range n).map (grid t) := fun t ht => putInto_fill f n grid ht
  have hview : ∀ t, IsType t → ∀ k, AgentGrids.view (⟨some (grid 1 k), some (grid 2 k), some (grid 3 k)⟩ : AgentGrids β) t = some (some (grid t k)) := by
    rintro t (rfl | rfl | rfl) k <;> rfl
  refine ⟨w, hw, ?_, ?_, ?_⟩
  · intro k hk
    have hk' : ∀ t, ((List.range n).map (grid t))[k]? = some (grid t k) := by intro t; simp [List.getElem?_range, hk]
    constructor
    · rw [at_spec hw]
      intro t ht
      refine ⟨_, hview t ht k, Or.inr ⟨_, rfl, ?_⟩⟩
      rw [hin t ht]
      exact ⟨k, hk' t, Or.inl rfl⟩
    · rw [at_spec hw]
      intro t ht
      refine ⟨_, hview t ht k, Or.inr ⟨_, rfl, ?_⟩⟩
      rw [hin t ht]
      refine ⟨k, hk' t, Or.inr ⟨?_, by omega⟩⟩
      simp
  · intro hn k hk
    rw [at_raises hw]
    refine ⟨1, Or.inl rfl, ?_⟩
    rw [hin 1 (Or.inl rfl)]
    refine ⟨by simp; omega, by simpa using hk⟩
  · intro f' k hf
    rw [at_spec hw]
    intro t ht
    have he : AgentGrids.view ({} : AgentGrids β) t = some none := by rcases ht with rfl | rfl | rfl <;> rfl
    refine ⟨none, he, Or.inl ⟨?_, rfl⟩⟩
    rcases hf with hf | hf
    · unfold putInto
      rw [List.map_eq_nil_iff, List.filter_eq_nil_iff]
      intro x hx
      simp only [hh, List.mem_flatMap, List.mem_map] at hx
      obtain ⟨t, -, k, -, rfl⟩ := hx
      simp [Ne.symm hf]
    · subst hf
      by_cases hff : f' = f
      · rw [hff, hin t ht]; rfl
      · simp [hh, putInto, allTypes]

/-- A case for the hypotheses: two way points of vehicles, one of cyclists. -/
theorem at_case : ∃ w, ({} : Grids ℕ).puts [(1, .flow, 7), (3, .flow, 8), (1, .flow, 9)] = some w ∧ w.at' .flow 0 = some ⟨some 7, none, some 8⟩ ∧
    w.at' .flow (-1) = some ⟨some 9, none, some 8⟩ ∧ w.at' .flow 1 = none ∧ w.at' .observed 5 = some {} := ⟨_, rfl, rfl, rfl, rfl, rfl⟩

end Verif.Waypoints
