import Verif.Props.ConversionState
import Mathlib.Data.Finset.Card
import Mathlib.Data.List.Perm.Basic
import Mathlib.Data.List.Nodup
import Mathlib.Data.List.ReduceOption
import Mathlib.Data.List.Range

/-! The choice of the agents of an example and the tensors of the agents. -/

namespace Verif.Conversion

noncomputable section

/-! ### Sorting -/

/-- The requirement of `std::sort`: a strict weak order. -/
structure StrictWeak (lt : ℕ → ℕ → Bool) : Prop where
  irrefl : ∀ a, lt a a = false
  trans : ∀ a b c, lt a b = true → lt b c = true → lt a c = true
  incomp : ∀ a b c, lt a b = false → lt b c = false → lt a c = false

/-- What `std::sort` promises: some arrangement of the elements without an element before a smaller one. -/
def IsSort (sort : (ℕ → ℕ → Bool) → List ℕ → List ℕ) : Prop :=
  ∀ lt l, StrictWeak lt → (sort lt l).Perm l ∧ (sort lt l).Pairwise fun a b => lt b a = false

/-- Merge sort is such a function. -/
theorem mergeSort_isSort : IsSort fun lt l => l.mergeSort fun a b => !lt b a := by
  intro lt l h
  refine ⟨List.mergeSort_perm l _, ?_⟩
  have := List.pairwise_mergeSort (le := fun a b => !lt b a) ?_ ?_ l
  · exact this.imp (fun h => by simpa using h)
  · intro a b c h1 h2
    simp only [Bool.not_eq_true'] at h1 h2 ⊢
    exact h.incomp c b a h2 h1
  · intro a b
    simp only [Bool.or_eq_true, Bool.not_eq_true']
    by_contra hc
    push Not at hc
    simp only [ne_eq, Bool.not_eq_false] at hc
    have := h.trans a b a hc.2 hc.1
    rw [h.irrefl] at this
    simp at this

/-- The comparison of the context agents meets the requirement. -/
theorem contextLt_strictWeak (cfg : Config) (sc : Scenario) : StrictWeak (contextLt cfg sc) := by
  constructor
  · intro a
    unfold contextLt
    cases nowValid cfg sc a <;> simp
  · intro a b c
    unfold contextLt
    cases nowValid cfg sc a <;> cases nowValid cfg sc b <;> cases nowValid cfg sc c <;> simp <;> intros <;> first | omega | linarith
  · intro a b c
    unfold contextLt
    cases nowValid cfg sc a <;> cases nowValid cfg sc b <;> cases nowValid cfg sc c <;> simp <;> intros <;> first | omega | linarith

theorem modeledLt_strictWeak (sc : Scenario) : StrictWeak (modeledLt sc) := by
  constructor
  · intro a
    simp [modeledLt]
  · intro a b c h1 h2
    simp only [modeledLt, decide_eq_true_eq] at *
    omega
  · intro a b c h1 h2
    simp only [modeledLt, decide_eq_false_iff_not] at *
    omega

/-! ### What the choice should be -/

/-- The state of track `i` at the current step. -/
def Current (cfg : Config) (sc : Scenario) (i : ℕ) (s : ObjState) : Prop :=
  ∃ T, sc.tracks[i]? = some T ∧ 0 < cfg.past ∧ T.states[cfg.past - 1]? = some s

/-- Track `i` is valid at the current step. -/
def ValidNow (cfg : Config) (sc : Scenario) (i : ℕ) : Prop := ∃ s, Current cfg sc i s ∧ s.valid = true

/-- The distance of track `i` from the vehicle itself at the current step. -/
def DistNow (cfg : Config) (sc : Scenario) (i : ℕ) (d : ℝ) : Prop :=
  ∃ s e, Current cfg sc i s ∧ Current cfg sc sc.sdc.toNat e ∧ d = Real.sqrt ((s.x - e.x) ^ 2 + (s.y - e.y) ^ 2)

/-- The number of valid states of track `i`. -/
def ValidSteps (sc : Scenario) (i n : ℕ) : Prop := ∃ T, sc.tracks[i]? = some T ∧ n = (T.states.filter ObjState.valid).length

/-- Track `a` is to be preferred to track `b` as a context agent: tracks that are valid now come first, the nearer ones before the
farther ones; then those with more valid states. -/
def Before (cfg : Config) (sc : Scenario) (a b : ℕ) : Prop :=
  (ValidNow cfg sc a ∧ ¬ ValidNow cfg sc b) ∨
  (ValidNow cfg sc a ∧ ValidNow cfg sc b ∧ ∃ da db, DistNow cfg sc a da ∧ DistNow cfg sc b db ∧ da < db) ∨
  (¬ ValidNow cfg sc a ∧ ¬ ValidNow cfg sc b ∧ ∃ na nb, ValidSteps sc a na ∧ ValidSteps sc b nb ∧ nb < na)

/-- The tracks that are listed for prediction before position `p` and valid now. -/
def ListedBefore (cfg : Config) (sc : Scenario) (p : ℕ) : Set ℕ :=
  {i | ∃ q < p, ∃ d, sc.predict[q]? = some ((i : ℤ), d) ∧ ValidNow cfg sc i}

/-- Track `i` is listed for prediction and valid now, and less than the maximum number of such tracks come before it. -/
def Chosen (cfg : Config) (sc : Scenario) (i : ℕ) : Prop :=
  ∃ p d, sc.predict[p]? = some ((i : ℤ), d) ∧ ValidNow cfg sc i ∧ (ListedBefore cfg sc p).ncard < cfg.maxModeled

theorem nowValid_iff {cfg : Config} {sc : Scenario} {i : ℕ} : nowValid cfg sc i = true ↔ ValidNow cfg sc i := by
  unfold nowValid ValidNow Current Track.now
  cases h : sc.tracks[i]? with
  | none => simp
  | some T =>
    by_cases hp : cfg.past = 0
    · simp [hp]
    · have hp' : 0 < cfg.past := by omega
      cases hs : T.states[cfg.past - 1]? with
      | none => simp [hp, hs]
      | some s => simp [hp, hs, hp']

/-! ### The modeled agents -/

theorem getElem?_concat_lt {α : Type} {l : List α} {a : α} {q : ℕ} (h : q < l.length) : (l ++ [a])[q]? = l[q]? :=
  List.getElem?_append_left h

/-- The invariant of the loop over the listed tracks. -/
theorem foldlM_spec {cfg : Config} {sc : Scenario} : ∀ {l : List (ℤ × ℕ)} {acc : List ℕ},
    l.foldlM (modelStep cfg sc) [] = some acc →
    ∃ V : ℕ → Finset ℕ,
      (∀ p i, i ∈ V p ↔ ∃ q < p, ∃ d, l[q]? = some ((i : ℤ), d) ∧ ValidNow cfg sc i) ∧
      acc.Nodup ∧ acc.length = min cfg.maxModeled (V l.length).card ∧
      (∀ i, i ∈ acc ↔ ∃ p d, l[p]? = some ((i : ℤ), d) ∧ ValidNow cfg sc i ∧ (V p).card < cfg.maxModeled) ∧
      (∀ i ∈ acc, i < sc.tracks.length) ∧
      (∀ e ∈ l, 0 ≤ e.1 ∧ e.1 < sc.tracks.length ∧ ∃ s, Current cfg sc e.1.toNat s) := by
  intro l
  induction l using List.reverseRecOn with
  | nil =>
    intro acc h
    simp only [List.foldlM_nil, Option.pure_def, Option.some.injEq] at h
    subst h
    refine ⟨fun _ => ∅, by simp, by simp, by simp, by simp, by simp, by simp⟩
  | append_singleton l e ih =>
    intro acc h
    rw [List.foldlM_append] at h
    cases ha : l.foldlM (modelStep cfg sc) [] with
    | none => rw [ha] at h; simp at h
    | some acc0 =>
      rw [ha] at h
      simp only [Option.bind_eq_bind, Option.bind_some, List.foldlM_cons, List.foldlM_nil, Option.pure_def, Option.bind_fun_some] at h
      obtain ⟨V, hV, hnd, hlen, hmem, hlt, hall⟩ := ih ha
      unfold modelStep at h
      split at h
      · simp at h
      rename_i hr
      push Not at hr
      obtain ⟨hr1, hr2⟩ := hr
      have hi : ((e.1.toNat : ℕ) : ℤ) = e.1 := Int.toNat_of_nonneg hr2
      have hin : e.1.toNat < sc.tracks.length := by omega
      cases hT : sc.tracks[e.1.toNat]? with
      | none => rw [hT] at h; simp at h
      | some T =>
        rw [hT] at h
        simp only at h
        cases hs : T.now cfg with
        | none => rw [hs] at h; simp at h
        | some s =>
          rw [hs] at h
          simp only [Option.some.injEq] at h
          have hcur : Current cfg sc e.1.toNat s := by
            unfold Track.now at hs
            split at hs
            · simp at hs
            · exact ⟨T, hT, by omega, hs⟩
          have hval : ValidNow cfg sc e.1.toNat ↔ s.valid = true := by
            constructor
            · rintro ⟨s', ⟨T', hT', hp, hs'⟩, hv⟩
              obtain ⟨T'', hT'', _, hs''⟩ := hcur
              rw [hT'] at hT''
              simp only [Option.some.injEq] at hT''
              subst hT''
              rw [hs'] at hs''
              simp only [Option.some.injEq] at hs''
              subst hs''
              exact hv
            · intro hv
              exact ⟨s, hcur, hv⟩
          -- the sets of the longer list
          have hex : ∃ V' : ℕ → Finset ℕ, ∀ p i, i ∈ V' p ↔ ∃ q < p, ∃ d, (l ++ [e])[q]? = some ((i : ℤ), d) ∧ ValidNow cfg sc i := by
            classical
            refine ⟨fun p => if p ≤ l.length then V p else if s.valid = true then insert e.1.toNat (V l.length) else V l.length, ?_⟩
            intro p i
            by_cases hp : p ≤ l.length
            · simp only [hp, if_true]
              rw [hV]
              constructor
              · rintro ⟨q, hq, d, h1, h2⟩
                exact ⟨q, hq, d, by rw [getElem?_concat_lt (by omega)]; exact h1, h2⟩
              · rintro ⟨q, hq, d, h1, h2⟩
                rw [getElem?_concat_lt (by omega)] at h1
                exact ⟨q, hq, d, h1, h2⟩
            · have hp2 : l.length < p := by omega
              have hsplit : (∃ q < p, ∃ d, (l ++ [e])[q]? = some ((i : ℤ), d) ∧ ValidNow cfg sc i) ↔
                  i ∈ V l.length ∨ (i = e.1.toNat ∧ s.valid = true) := by
                rw [hV]
                constructor
                · rintro ⟨q, hq, d, h1, h2⟩
                  by_cases hql : q < l.length
                  · left
                    rw [getElem?_concat_lt hql] at h1
                    exact ⟨q, hql, d, h1, h2⟩
                  · right
                    rw [List.getElem?_append_right (by omega)] at h1
                    have hq0 : q - l.length = 0 := by
                      by_contra hne
                      rw [List.getElem?_eq_none (by simp; omega)] at h1
                      simp at h1
                    rw [hq0, List.getElem?_cons_zero, Option.some.injEq] at h1
                    have : i = e.1.toNat := by rw [h1]; simp
                    subst this
                    exact ⟨rfl, hval.1 h2⟩
                · rintro (⟨q, hq, d, h1, h2⟩ | ⟨rfl, h2⟩)
                  · exact ⟨q, by omega, d, by rw [getElem?_concat_lt hq]; exact h1, h2⟩
                  · refine ⟨l.length, hp2, e.2, ?_, hval.2 h2⟩
                    rw [List.getElem?_append_right (le_refl _)]
                    simp [hi]
              rw [hsplit]
              simp only [hp, if_false]
              by_cases hv : s.valid = true
              · simp only [hv, if_true, Finset.mem_insert, and_true]
                tauto
              · simp [hv]
          obtain ⟨V', hV'⟩ := hex
          have hVle : ∀ p ≤ l.length, V' p = V p := by
            intro p hp
            ext i
            rw [hV', hV]
            constructor
            · rintro ⟨q, hq, d, h1, h2⟩
              rw [getElem?_concat_lt (by omega)] at h1
              exact ⟨q, hq, d, h1, h2⟩
            · rintro ⟨q, hq, d, h1, h2⟩
              exact ⟨q, hq, d, by rw [getElem?_concat_lt (by omega)]; exact h1, h2⟩
          have hVlast : ∀ i, i ∈ V' (l ++ [e]).length ↔ i ∈ V l.length ∨ (i = e.1.toNat ∧ s.valid = true) := by
            intro i
            rw [hV', hV]
            constructor
            · rintro ⟨q, hq, d, h1, h2⟩
              by_cases hql : q < l.length
              · left
                rw [getElem?_concat_lt hql] at h1
                exact ⟨q, hql, d, h1, h2⟩
              · right
                simp only [List.length_append, List.length_cons, List.length_nil, Nat.zero_add] at hq
                have hq0 : q = l.length := by omega
                subst hq0
                rw [List.getElem?_append_right (le_refl _)] at h1
                simp only [Nat.sub_self, List.getElem?_cons_zero, Option.some.injEq] at h1
                have : i = e.1.toNat := by rw [h1]; simp
                subst this
                exact ⟨rfl, hval.1 h2⟩
            · rintro (⟨q, hq, d, h1, h2⟩ | ⟨rfl, h2⟩)
              · exact ⟨q, by simp; omega, d, by rw [getElem?_concat_lt hq]; exact h1, h2⟩
              · refine ⟨l.length, by simp, e.2, ?_, hval.2 h2⟩
                rw [List.getElem?_append_right (le_refl _)]
                simp [hi]
          have hsub : ∀ i ∈ acc0, i ∈ V l.length := by
            intro i hi'
            obtain ⟨p, d, h1, h2, _⟩ := (hmem i).1 hi'
            rw [hV]
            exact ⟨p, (List.getElem?_eq_some_iff.1 h1).1, d, h1, h2⟩
          have hold : ∀ i, i ∈ acc0 ↔ ∃ p < l.length, ∃ d, (l ++ [e])[p]? = some ((i : ℤ), d) ∧ ValidNow cfg sc i ∧
              (V' p).card < cfg.maxModeled := by
            intro i
            rw [hmem]
            constructor
            · rintro ⟨p, d, h1, h2, h3⟩
              have hp := (List.getElem?_eq_some_iff.1 h1).1
              exact ⟨p, hp, d, by rw [getElem?_concat_lt hp]; exact h1, h2, by rw [hVle p hp.le]; exact h3⟩
            · rintro ⟨p, hp, d, h1, h2, h3⟩
              rw [getElem?_concat_lt hp] at h1
              rw [hVle p hp.le] at h3
              exact ⟨p, d, h1, h2, h3⟩
          have hnew : ∀ i : ℕ, (∃ p d, (l ++ [e])[p]? = some ((i : ℤ), d) ∧ ValidNow cfg sc i ∧ (V' p).card < cfg.maxModeled) ↔
              i ∈ acc0 ∨ (i = e.1.toNat ∧ s.valid = true ∧ (V l.length).card < cfg.maxModeled) := by
            intro i
            rw [hold]
            constructor
            · rintro ⟨p, d, h1, h2, h3⟩
              by_cases hp : p < l.length
              · exact Or.inl ⟨p, hp, d, h1, h2, h3⟩
              · right
                have hlen' := (List.getElem?_eq_some_iff.1 h1).1
                simp only [List.length_append, List.length_cons, List.length_nil, Nat.zero_add] at hlen'
                have hp0 : p = l.length := by omega
                subst hp0
                rw [List.getElem?_append_right (le_refl _)] at h1
                simp only [Nat.sub_self, List.getElem?_cons_zero, Option.some.injEq] at h1
                have : i = e.1.toNat := by rw [h1]; simp
                subst this
                rw [hVle _ (le_refl _)] at h3
                exact ⟨rfl, hval.1 h2, h3⟩
            · rintro (⟨p, _, d, h1, h2, h3⟩ | ⟨rfl, h2, h3⟩)
              · exact ⟨p, d, h1, h2, h3⟩
              · refine ⟨l.length, e.2, ?_, hval.2 h2, by rw [hVle _ (le_refl _)]; exact h3⟩
                rw [List.getElem?_append_right (le_refl _)]
                simp [hi]
          have hfull : (V l.length).card < cfg.maxModeled → acc0.toFinset = V l.length := by
            intro hlt'
            apply Finset.eq_of_subset_of_card_le
            · intro i hi'
              exact hsub i (List.mem_toFinset.1 hi')
            · rw [List.toFinset_card_of_nodup hnd, hlen]
              omega
          have hallnew : ∀ x ∈ l ++ [e], 0 ≤ x.1 ∧ x.1 < sc.tracks.length ∧ ∃ s, Current cfg sc x.1.toNat s := by
            intro x hx
            rw [List.mem_append] at hx
            rcases hx with hx | hx
            · exact hall x hx
            · simp only [List.mem_singleton] at hx
              subst hx
              exact ⟨hr2, hr1, s, hcur⟩
          refine ⟨V', hV', ?_⟩
          by_cases hcond : s.valid = true ∧ acc0.length < cfg.maxModeled
          · rw [if_pos hcond] at h
            have hcard : (V l.length).card < cfg.maxModeled := by omega
            have hset := hfull hcard
            by_cases hin' : e.1.toNat ∈ acc0
            · rw [if_pos hin'] at h
              subst h
              have hVeq : V' (l ++ [e]).length = V l.length := by
                ext i
                rw [hVlast]
                constructor
                · rintro (h1 | ⟨rfl, _⟩)
                  · exact h1
                  · exact hsub _ hin'
                · exact Or.inl
              refine ⟨hnd, by rw [hVeq, hlen], ?_, hlt, hallnew⟩
              intro i
              rw [hnew]
              constructor
              · exact Or.inl
              · rintro (h1 | ⟨rfl, _⟩)
                · exact h1
                · exact hin'
            · rw [if_neg hin'] at h
              subst h
              have hnotin : e.1.toNat ∉ V l.length := by
                rw [← hset, List.mem_toFinset]
                exact hin'
              have hVeq : V' (l ++ [e]).length = insert e.1.toNat (V l.length) := by
                ext i
                rw [hVlast, Finset.mem_insert]
                simp only [hcond.1, and_true]
                tauto
              refine ⟨?_, ?_, ?_, ?_, hallnew⟩
              · rw [List.nodup_append]
                refine ⟨hnd, by simp, ?_⟩
                intro a ha' b hb hab
                simp only [List.mem_singleton] at hb
                subst hb hab
                exact hin' ha'
              · rw [hVeq, Finset.card_insert_of_notMem hnotin, List.length_append, hlen]
                simp only [List.length_cons, List.length_nil]
                omega
              · intro i
                rw [hnew, List.mem_append, List.mem_singleton]
                simp only [hcond.1, hcard, and_true]
              · intro i hi'
                rw [List.mem_append, List.mem_singleton] at hi'
                rcases hi' with hi' | rfl
                · exact hlt i hi'
                · exact hin
          · rw [if_neg hcond] at h
            subst h
            have hdrop : ¬ (s.valid = true ∧ (V l.length).card < cfg.maxModeled) := by
              intro hh
              apply hcond
              exact ⟨hh.1, by omega⟩
            refine ⟨hnd, ?_, ?_, hlt, hallnew⟩
            · by_cases hv : s.valid = true
              · have h1 : cfg.maxModeled ≤ (V l.length).card := by
                  by_contra hc
                  exact hdrop ⟨hv, by omega⟩
                have h2 : V l.length ⊆ V' (l ++ [e]).length := by
                  intro i hi'
                  rw [hVlast]
                  exact Or.inl hi'
                have h3 := Finset.card_le_card h2
                rw [hlen]
                omega
              · have : V' (l ++ [e]).length = V l.length := by
                  ext i
                  rw [hVlast]
                  simp [hv]
                rw [this, hlen]
            · intro i
              rw [hnew]
              constructor
              · exact Or.inl
              · rintro (h1 | ⟨_, h2⟩)
                · exact h1
                · exact absurd h2 hdrop

/-- The modeled agents are the first listed ones that are valid now, each of them once. -/
theorem modeledAgents_spec {cfg : Config} {sc : Scenario} {M : List ℕ} (h : modeledAgents cfg sc = some M) :
    M.Nodup ∧ (∀ i, i ∈ M ↔ Chosen cfg sc i) ∧
    M.length = min cfg.maxModeled {i : ℕ | ValidNow cfg sc i ∧ ∃ d, ((i : ℤ), d) ∈ sc.predict}.ncard ∧
    (∀ i ∈ M, i < sc.tracks.length) ∧ ∀ e ∈ sc.predict, ∃ s, Current cfg sc e.1.toNat s := by
  unfold modeledAgents at h
  cases hi : objectsOfInterest cfg false sc with
  | none => rw [hi] at h; simp at h
  | some I =>
    rw [hi] at h
    simp only [Option.bind_eq_bind, Option.bind_some] at h
    obtain ⟨V, hV, hnd, hlen, hmem, hlt, hall⟩ := foldlM_spec h
    have hVs : ∀ p, ((V p : Finset ℕ) : Set ℕ) = ListedBefore cfg sc p := by
      intro p
      ext i
      rw [Finset.mem_coe, hV]
      rfl
    have hcard : ∀ p, (V p).card = (ListedBefore cfg sc p).ncard := by
      intro p
      rw [← hVs, Set.ncard_coe_finset]
    refine ⟨hnd, ?_, ?_, hlt, fun e he => (hall e he).2.2⟩
    · intro i
      rw [hmem]
      unfold Chosen
      simp only [hcard]
    · rw [hlen, hcard]
      congr 2
      ext i
      unfold ListedBefore
      simp only [Set.mem_setOf_eq]
      constructor
      · rintro ⟨q, _, d, h1, h2⟩
        exact ⟨h2, d, List.mem_of_getElem? h1⟩
      · rintro ⟨h2, d, h1⟩
        obtain ⟨q, hq⟩ := List.getElem?_of_mem h1
        exact ⟨q, (List.getElem?_eq_some_iff.1 hq).1, d, hq, h2⟩

/-! ### The context agents -/

theorem current_unique {cfg : Config} {sc : Scenario} {i : ℕ} {s s' : ObjState} (h : Current cfg sc i s) (h' : Current cfg sc i s') :
    s = s' := by
  obtain ⟨T, hT, _, hs⟩ := h
  obtain ⟨T', hT', _, hs'⟩ := h'
  rw [hT] at hT'
  simp only [Option.some.injEq] at hT'
  subst hT'
  rw [hs] at hs'
  simpa using hs'

theorem nowCenter_eq {cfg : Config} {sc : Scenario} {i : ℕ} {s : ObjState} (h : Current cfg sc i s) : nowCenter cfg sc i = (s.x, s.y) := by
  obtain ⟨T, hT, hp, hs⟩ := h
  unfold nowCenter Track.now
  simp [hT, hs, show ¬ cfg.past = 0 by omega]

theorem validCount_eq {sc : Scenario} {i : ℕ} {T : Track} (h : sc.tracks[i]? = some T) :
    validCount sc i = (T.states.filter ObjState.valid).length := by
  unfold validCount
  simp [h, List.countP_eq_length_filter]

/-- The comparison of the code is the preference, for tracks with a current state. -/
theorem contextLt_iff {cfg : Config} {sc : Scenario} {a b : ℕ} (ha : ∃ s, Current cfg sc a s) (hb : ∃ s, Current cfg sc b s)
    (he : ∃ s, Current cfg sc sc.sdc.toNat s) : contextLt cfg sc a b = true ↔ Before cfg sc a b := by
  obtain ⟨sa, ha⟩ := ha
  obtain ⟨sb, hb⟩ := hb
  obtain ⟨se, he⟩ := he
  obtain ⟨Ta, hTa, _, _⟩ := id ha
  obtain ⟨Tb, hTb, _, _⟩ := id hb
  have hda : ∀ d, DistNow cfg sc a d ↔ d = sdcDist cfg sc a := by
    intro d
    unfold sdcDist
    rw [nowCenter_eq ha, nowCenter_eq he]
    constructor
    · rintro ⟨s, e, h1, h2, h3⟩
      rw [current_unique h1 ha, current_unique h2 he] at h3
      exact h3
    · intro h
      exact ⟨sa, se, ha, he, h⟩
  have hdb : ∀ d, DistNow cfg sc b d ↔ d = sdcDist cfg sc b := by
    intro d
    unfold sdcDist
    rw [nowCenter_eq hb, nowCenter_eq he]
    constructor
    · rintro ⟨s, e, h1, h2, h3⟩
      rw [current_unique h1 hb, current_unique h2 he] at h3
      exact h3
    · intro h
      exact ⟨sb, se, hb, he, h⟩
  have hna : ∀ n, ValidSteps sc a n ↔ n = validCount sc a := by
    intro n
    rw [validCount_eq hTa]
    unfold ValidSteps
    rw [hTa]
    simp
  have hnb : ∀ n, ValidSteps sc b n ↔ n = validCount sc b := by
    intro n
    rw [validCount_eq hTb]
    unfold ValidSteps
    rw [hTb]
    simp
  unfold Before contextLt
  simp only [← nowValid_iff, hda, hdb, hna, hnb]
  cases nowValid cfg sc a <;> cases nowValid cfg sc b <;> simp

/-! ### Objects of interest -/

/-- The track is the first one with an identifier that is listed as an object of interest. -/
def Interesting (sc : Scenario) (i : ℕ) : Prop :=
  ∃ T, sc.tracks[i]? = some T ∧ T.id ∈ sc.interest ∧ ∀ j < i, ∀ T', sc.tracks[j]? = some T' → T'.id ≠ T.id

theorem findTrack_keep (cfg : Config) (id : ℤ) : ∀ (l : List Track) (i : ℕ), ∃ r, findTrack cfg true id i l = some r ∧
    ∀ n, r = some n ↔ ∃ j T, n = i + j ∧ l[j]? = some T ∧ T.id = id ∧ ∀ j' < j, ∀ T', l[j']? = some T' → T'.id ≠ id := by
  intro l
  induction l with
  | nil => intro i; exact ⟨none, rfl, by simp⟩
  | cons t l ih =>
    intro i
    unfold findTrack
    by_cases h : t.id = id
    · simp only [h, if_true]
      refine ⟨some i, rfl, ?_⟩
      intro n
      constructor
      · intro e
        simp only [Option.some.injEq] at e
        exact ⟨0, t, by omega, rfl, h, by intro j' hj'; omega⟩
      · rintro ⟨j, T, hn, hT, hid, hmin⟩
        cases j with
        | zero => rw [hn]; simp
        | succ j => exact absurd h (hmin 0 (by omega) t rfl)
    · simp only [h, if_false]
      obtain ⟨r, hr, hspec⟩ := ih (i + 1)
      refine ⟨r, hr, ?_⟩
      intro n
      rw [hspec]
      constructor
      · rintro ⟨j, T, hn, hT, hid, hmin⟩
        refine ⟨j + 1, T, by omega, by simpa using hT, hid, ?_⟩
        intro j' hj' T' hT'
        cases j' with
        | zero =>
          simp only [List.getElem?_cons_zero, Option.some.injEq] at hT'
          subst hT'; exact h
        | succ j' =>
          rw [List.getElem?_cons_succ] at hT'
          exact hmin j' (by omega) T' hT'
      · rintro ⟨j, T, hn, hT, hid, hmin⟩
        cases j with
        | zero =>
          simp only [List.getElem?_cons_zero, Option.some.injEq] at hT
          subst hT; exact absurd hid h
        | succ j =>
          rw [List.getElem?_cons_succ] at hT
          exact ⟨j, T, by omega, hT, hid, fun j' hj' T' hT' => hmin (j' + 1) (by omega) T' (by simpa using hT')⟩

theorem objectsOfInterest_spec (cfg : Config) (sc : Scenario) :
    ∃ I, objectsOfInterest cfg true sc = some I ∧ ∀ i, i ∈ I ↔ Interesting sc i := by
  unfold objectsOfInterest
  obtain ⟨r, hr⟩ := ListM.mapM_isSome (f := fun id => findTrack cfg true id 0 sc.tracks) (l := sc.interest)
    fun id _ => ⟨_, (findTrack_keep cfg id sc.tracks 0).choose_spec.1⟩
  refine ⟨r.reduceOption, by rw [hr]; rfl, ?_⟩
  have h2 := ListM.mapM_forall₂ hr
  intro i
  rw [List.reduceOption_mem_iff]
  constructor
  · intro hi
    obtain ⟨id, hid, hf⟩ := ListM.forall₂_exists_left h2.flip hi
    obtain ⟨r', hr', hspec⟩ := findTrack_keep cfg id sc.tracks 0
    rw [hr'] at hf
    simp only [Option.some.injEq] at hf
    obtain ⟨j, T, hn, hT, hTid, hmin⟩ := (hspec i).1 hf
    have : i = j := by omega
    subst this
    exact ⟨T, hT, by rw [hTid]; exact hid, by rw [hTid]; exact hmin⟩
  · rintro ⟨T, hT, hmem, hmin⟩
    obtain ⟨x, hx, hf⟩ := ListM.forall₂_exists_left h2 hmem
    obtain ⟨r', hr', hspec⟩ := findTrack_keep cfg T.id sc.tracks 0
    rw [hr'] at hf
    simp only [Option.some.injEq] at hf
    have : r' = some i := (hspec i).2 ⟨i, T, by omega, hT, rfl, hmin⟩
    rw [← this, hf]
    exact hx

/-! ### Difficulty -/

/-- The difficulty of the first entry for the track in the list of the tracks to predict, 0 without one. -/
def HasDifficulty (sc : Scenario) (i : ℕ) (d : ℤ) : Prop :=
  (∃ (p n : ℕ), sc.predict[p]? = some ((i : ℤ), n) ∧ d = n ∧ ∀ (q : ℕ) (e : ℤ × ℕ), q < p → sc.predict[q]? = some e → e.1 ≠ i) ∨
  ((∀ e ∈ sc.predict, e.1 ≠ i) ∧ d = 0)

theorem difficulty_spec (sc : Scenario) (i : ℕ) : HasDifficulty sc i (difficulty sc i) := by
  unfold difficulty HasDifficulty
  cases h : sc.predict.find? fun e => e.1 = (i : ℤ) with
  | none =>
    right
    rw [List.find?_eq_none] at h
    exact ⟨fun e he => by simpa using h e he, rfl⟩
  | some e =>
    left
    rw [List.find?_eq_some_iff_getElem] at h
    obtain ⟨he, p, hp, hpe, hmin⟩ := h
    simp only [decide_eq_true_eq] at he
    refine ⟨p, e.2, ?_, rfl, ?_⟩
    · rw [List.getElem?_eq_getElem hp, hpe, ← he]
    · intro q e' hq he'
      obtain ⟨hq', hqe⟩ := List.getElem?_eq_some_iff.1 he'
      have := hmin q hq
      rw [hqe] at this
      simpa using this

/-! ### The agents of an example -/

/-- The agents of an example: the modeled ones `M` and the context `C`. -/
structure Roster (cfg : Config) (sc : Scenario) (M C : List ℕ) : Prop where
  /-- There is at least one modeled agent, and they fit. -/
  nonempty : M ≠ []
  fits : M.length ≤ cfg.maxAgents
  /-- Every track is there at most once. -/
  nodup : (M ++ C).Nodup
  tracks : ∀ i ∈ M ++ C, i < sc.tracks.length
  /-- The modeled agents are the chosen tracks, by their identifiers. -/
  chosen : ∀ i, i ∈ M ↔ Chosen cfg sc i
  sorted : M.Pairwise fun a b => ∀ A B, sc.tracks[a]? = some A → sc.tracks[b]? = some B → A.id ≤ B.id
  /-- The context takes all the other tracks or all the room. -/
  room : C.length = min (cfg.maxAgents - M.length) (sc.tracks.length - M.length)
  /-- No track is preferred to one before it, nor one that is left out to one that is not. -/
  order : C.Pairwise fun a b => ¬ Before cfg sc b a
  best : ∀ i ∈ C, ∀ j, j < sc.tracks.length → j ∉ M → j ∉ C → ¬ Before cfg sc j i

open Classical in
/-- The values of an agent. -/
def agentShown (rd : ℝ → ℝ) (sc : Scenario) (ctx : Bool) (i : ℕ) (T : Track) (d : ℤ) : AgentField → Val
  | .id => .float (rd T.id)
  | .type => .float (rd T.type)
  | .interest => .int (if Interesting sc i then 1 else 0)
  | .isSdc => .int (if (i : ℤ) = sc.sdc then 1 else 0)
  | .isContext => .int (if ctx then 1 else 0)
  | .toPredict => .int (if ctx then 0 else 1)
  | .difficulty => .int d

/-- The values of a place without an agent. -/
def agentMissing : AgentField → Val
  | .id => .float (-1)
  | .type => .float (-1)
  | _ => .int (-1)

/-- The places of an example: who is there (if anyone) and whether as context. -/
def places (cfg : Config) (M C : List ℕ) : List (Option (ℕ × Bool)) :=
  M.map (fun i => some (i, false)) ++ C.map (fun i => some (i, true)) ++ List.replicate (cfg.maxAgents - M.length - C.length) none

theorem places_length {cfg : Config} {sc : Scenario} {M C : List ℕ} (h : Roster cfg sc M C) : (places cfg M C).length = cfg.maxAgents := by
  have h1 := h.fits
  have h2 := h.room
  simp only [places, List.length_append, List.length_map, List.length_replicate]
  omega

theorem validate_length {sc : Scenario} (h : validateScenario sc = true) {i : ℕ} {T : Track} (hT : sc.tracks[i]? = some T) :
    T.states.length = sc.timestamps.length := by
  unfold validateScenario at h
  simp only [Bool.and_eq_true, List.all_eq_true, beq_iff_eq] at h
  exact h.2 T (List.mem_of_getElem? hT)

theorem all_current {cfg : Config} {sc : Scenario} (h : validateScenario sc = true) {i : ℕ} {s : ObjState} (hi : Current cfg sc i s)
    {j : ℕ} (hj : j < sc.tracks.length) : ∃ s, Current cfg sc j s := by
  obtain ⟨T, hT, hp, hs⟩ := hi
  have h1 := validate_length h hT
  have h2 := validate_length h (List.getElem?_eq_getElem hj)
  have h3 := (List.getElem?_eq_some_iff.1 hs).1
  exact ⟨_, _, List.getElem?_eq_getElem hj, hp, List.getElem?_eq_getElem (by omega)⟩

theorem pairwise_of_take_drop {α : Type} {R : α → α → Prop} {l : List α} (h : l.Pairwise R) {n : ℕ} {a b : α} (ha : a ∈ l.take n)
    (hb : b ∈ l.drop n) : R a b := by
  rw [← List.take_append_drop n l, List.pairwise_append] at h
  exact h.2.2 a ha b hb

/-- The log of a place. -/
def placeLog (cfg : Config) (rd : ℝ → ℝ) (sc : Scenario) (I : List ℕ) : Option (ℕ × Bool) → List Ev
  | none => agentLog cfg rd sc I true none
  | some (i, ctx) => agentLog cfg rd sc I ctx (some i)

theorem addAgents_spec {cfg : Config} {rd : ℝ → ℝ} {sort : (ℕ → ℕ → Bool) → List ℕ → List ℕ} {sc : Scenario} {log : List Ev}
    (hsort : IsSort sort) (hval : validateScenario sc = true) (h : addAgents cfg rd sort sc = some (some log)) :
    ∃ M C I, Roster cfg sc M C ∧ (∀ i, i ∈ I ↔ Interesting sc i) ∧
      (∀ k, tensor k log = (places cfg M C).flatMap fun a => tensor k (placeLog cfg rd sc I a)) := by
  unfold addAgents at h
  obtain ⟨I, hI, hIs⟩ := objectsOfInterest_spec cfg sc
  rw [hI] at h
  simp only [Option.bind_eq_bind, Option.bind_some] at h
  split at h
  · simp at h
  rename_i hsdc
  push Not at hsdc
  cases hm : modeledAgents cfg sc with
  | none => rw [hm] at h; simp at h
  | some M0 =>
    rw [hm] at h
    simp only [Option.bind_some] at h
    split at h
    · simp at h
    rename_i hne
    split at h
    · simp at h
    rename_i hfit
    push Not at hfit
    obtain ⟨hnd, hmem, hlen, hlt, hcur⟩ := modeledAgents_spec hm
    -- a current state exists
    obtain ⟨i0, hi0⟩ := List.exists_mem_of_ne_nil M0 hne
    have hcur0 : ∃ s, Current cfg sc i0 s := by
      obtain ⟨p, d, _, ⟨s, hs, _⟩, _⟩ := (hmem i0).1 hi0
      exact ⟨s, hs⟩
    obtain ⟨s0, hs0⟩ := hcur0
    have hall : ∀ j, j < sc.tracks.length → ∃ s, Current cfg sc j s := fun j hj => all_current hval hs0 hj
    have hsdc' : ∃ s, Current cfg sc sc.sdc.toNat s := hall _ (by omega)
    obtain ⟨hp1, hs1⟩ := hsort (modeledLt sc) M0 (modeledLt_strictWeak sc)
    obtain ⟨hp2, hs2⟩ := hsort (contextLt cfg sc) ((List.range sc.tracks.length).filter fun i => ¬ i ∈ M0) (contextLt_strictWeak cfg sc)
    set M := sort (modeledLt sc) M0 with hM
    set Q := sort (contextLt cfg sc) ((List.range sc.tracks.length).filter fun i => ¬ i ∈ M0) with hQ
    have hlenM : M.length = M0.length := hp1.length_eq
    have hmemQ : ∀ i, i ∈ Q ↔ i < sc.tracks.length ∧ i ∉ M0 := by
      intro i
      rw [hp2.mem_iff]
      simp
    have hQnd : Q.Nodup := hp2.nodup_iff.2 (List.nodup_range.filter _)
    have hQlen : Q.length = sc.tracks.length - M.length := by
      have h1 : (M0 ++ Q).Perm (List.range sc.tracks.length) := by
        rw [List.perm_ext_iff_of_nodup]
        · intro i
          rw [List.mem_append, hmemQ, List.mem_range]
          constructor
          · rintro (h | h)
            · exact hlt i h
            · exact h.1
          · intro h
            by_cases hi : i ∈ M0
            · exact Or.inl hi
            · exact Or.inr ⟨h, hi⟩
        · rw [List.nodup_append]
          exact ⟨hnd, hQnd, fun a ha b hb hab => ((hmemQ b).1 hb).2 (hab ▸ ha)⟩
        · exact List.nodup_range
      have h2 := h1.length_eq
      rw [List.length_append, List.length_range] at h2
      omega
    set C := Q.take (cfg.maxAgents - M0.length) with hC
    have hmemC : ∀ i ∈ C, i ∈ Q := fun i hi => List.mem_of_mem_take hi
    have hnb : ∀ a b, a ∈ Q → b ∈ Q → contextLt cfg sc b a = false → ¬ Before cfg sc b a := by
      intro a b ha hb hf hbef
      rw [← contextLt_iff (hall b ((hmemQ b).1 hb).1) (hall a ((hmemQ a).1 ha).1) hsdc'] at hbef
      rw [hf] at hbef
      simp at hbef
    have hroster : Roster cfg sc M C := by
      refine ⟨?_, by rw [hlenM]; exact hfit, ?_, ?_, ?_, ?_, ?_, ?_, ?_⟩
      · intro e
        rw [e] at hlenM
        exact hne (List.length_eq_zero_iff.1 hlenM.symm)
      · rw [List.nodup_append]
        refine ⟨hp1.nodup_iff.2 hnd, hQnd.sublist (List.take_sublist _ _), ?_⟩
        intro a ha b hb hab
        subst hab
        exact ((hmemQ a).1 (hmemC a hb)).2 (hp1.mem_iff.1 ha)
      · intro i hi
        rw [List.mem_append] at hi
        rcases hi with hi | hi
        · exact hlt i (hp1.mem_iff.1 hi)
        · exact ((hmemQ i).1 (hmemC i hi)).1
      · intro i
        rw [hp1.mem_iff, hmem]
      · refine hs1.imp ?_
        intro a b hab A B hA hB
        simp only [modeledLt, hA, hB, Option.map_some, Option.getD_some, decide_eq_false_iff_not] at hab
        omega
      · rw [hC, List.length_take, hQlen, hlenM]
      · have h1 : Q.Pairwise fun a b => contextLt cfg sc b a = false := hs2
        have h2 : C.Pairwise fun a b => contextLt cfg sc b a = false := h1.sublist (List.take_sublist _ _)
        rw [List.pairwise_iff_forall_sublist] at h2 ⊢
        intro a b hab
        have ha : a ∈ C := hab.subset (by simp)
        have hb : b ∈ C := hab.subset (by simp)
        exact hnb a b (hmemC a ha) (hmemC b hb) (h2 hab)
      · intro i hi j hj hjM hjC
        have hjQ : j ∈ Q := (hmemQ j).2 ⟨hj, fun h => hjM (hp1.mem_iff.2 h)⟩
        have hjd : j ∈ Q.drop (cfg.maxAgents - M0.length) := by
          rw [← List.take_append_drop (cfg.maxAgents - M0.length) Q, List.mem_append] at hjQ
          rcases hjQ with h | h
          · exact absurd h hjC
          · exact h
        exact hnb i j (hmemC i hi) hjQ (pairwise_of_take_drop hs2 hi hjd)
    refine ⟨M, C, I, hroster, hIs, ?_⟩
    simp only [Option.some.injEq] at h
    intro k
    rw [← h]
    simp only [tensor_append, tensor_flatMap, tensor_count, tensor_nil, List.nil_append, List.append_nil, places, List.flatMap_append]
    rw [List.append_assoc]
    congr 1
    · rw [List.flatMap_map]
      rfl
    · congr 1
      · rw [List.flatMap_map, List.flatMap_map]
        rfl
      · have e : cfg.maxAgents - M0.length - Q.length = cfg.maxAgents - M.length - C.length := by
          rw [hC, List.length_take]; omega
        rw [e]
        generalize cfg.maxAgents - M.length - C.length = n
        induction n with
        | zero => rfl
        | succ n ih => rw [List.replicate_succ, List.replicate_succ, List.flatMap_cons, List.flatMap_cons, ih]; rfl

/-- **The tensors of the agents.** -/
theorem agents_spec {cfg : Config} {rd : ℝ → ℝ} {sort : (ℕ → ℕ → Bool) → List ℕ → List ℕ} {sc : Scenario} {log : List Ev}
    (hsort : IsSort sort) (hval : validateScenario sc = true) (h : addAgents cfg rd sort sc = some (some log)) :
    ∃ M C, Roster cfg sc M C ∧
      (∀ f, (tensor (.agent f) log).length = cfg.maxAgents ∧ ∀ (a : ℕ),
        (∀ i ctx, (places cfg M C)[a]? = some (some (i, ctx)) → ∃ T d, sc.tracks[i]? = some T ∧ HasDifficulty sc i d ∧
          (tensor (.agent f) log)[a]? = some (agentShown rd sc ctx i T d f)) ∧
        ((places cfg M C)[a]? = some none → (tensor (.agent f) log)[a]? = some (agentMissing f))) ∧
      ∀ fr f, (tensor (.state fr f) log).length = cfg.maxAgents * (stepsOf cfg fr).length ∧ ∀ (a j t : ℕ) p,
        (places cfg M C)[a]? = some p → (stepsOf cfg fr)[j]? = some t →
        ∃ v, (tensor (.state fr f) log)[a * (stepsOf cfg fr).length + j]? = some v ∧
          let tr := p.bind fun q => sc.tracks[q.1]?
          (∀ s, Shows tr t s → v = shown rd (micros rd sc.timestamps t) s f) ∧ ((∀ s, ¬ Shows tr t s) → v = missing f) := by
  obtain ⟨M, C, I, hr, hI, hk⟩ := addAgents_spec hsort hval h
  refine ⟨M, C, hr, ?_, ?_⟩
  · intro f
    have hsingle : ∀ p, tensor (.agent f) (placeLog cfg rd sc I p) = [match p with
        | none => agentVal rd none false true false (-1) f
        | some (i, ctx) => agentVal rd sc.tracks[i]? (decide ((i : ℤ) = sc.sdc)) ctx (decide (i ∈ I)) (difficulty sc i) f] := by
      intro p
      cases p with
      | none => exact tensor_addState_agent ..
      | some q => exact tensor_addState_agent ..
    have hblock := flatMap_block (l := places cfg M C) (f := fun p => tensor (.agent f) (placeLog cfg rd sc I p)) (n := 1)
      (fun p _ => by rw [hsingle]; rfl)
    rw [hk]
    refine ⟨by rw [hblock.1, places_length hr, Nat.mul_one], ?_⟩
    intro a
    constructor
    · intro i ctx hp
      have hi : i < sc.tracks.length := by
        apply hr.tracks
        have := List.mem_of_getElem? hp
        simp only [places, List.mem_append, List.mem_map, List.mem_replicate, Option.some.injEq, Prod.mk.injEq, reduceCtorEq, and_false,
          or_false] at this
        rw [List.mem_append]
        rcases this with ⟨x, hx, rfl, _⟩ | ⟨x, hx, rfl, _⟩
        · exact Or.inl hx
        · exact Or.inr hx
      refine ⟨_, difficulty sc i, List.getElem?_eq_getElem hi, difficulty_spec sc i, ?_⟩
      have := hblock.2 a 0 _ hp (by omega)
      rw [Nat.mul_one, Nat.add_zero, hsingle] at this
      rw [this]
      simp only [List.getElem?_cons_zero, Option.some.injEq, List.getElem?_eq_getElem hi]
      by_cases hd : Interesting sc i
      · have hd' := (hI i).2 hd
        cases f <;> simp [agentVal, agentShown, hd, hd']
      · have hd' : i ∉ I := fun h => hd ((hI i).1 h)
        cases f <;> simp [agentVal, agentShown, hd, hd']
    · intro hp
      have := hblock.2 a 0 _ hp (by omega)
      rw [Nat.mul_one, Nat.add_zero, hsingle] at this
      rw [this]
      cases f <;> rfl
  · intro fr f
    have htr : ∀ p, tensor (.state fr f) (placeLog cfg rd sc I p) =
        (stepsOf cfg fr).map fun t => stateVal rd (micros rd sc.timestamps t) (stateAt (p.bind fun q => sc.tracks[q.1]?) t) f := by
      intro p
      cases p with
      | none => exact tensor_addState ..
      | some q => exact tensor_addState ..
    have hblock := flatMap_block (l := places cfg M C) (f := fun p => tensor (.state fr f) (placeLog cfg rd sc I p))
      (n := (stepsOf cfg fr).length) (fun p _ => by rw [htr, List.length_map])
    rw [hk]
    refine ⟨by rw [hblock.1, places_length hr], ?_⟩
    intro a j t p hp ht
    have hj := (List.getElem?_eq_some_iff.1 ht).1
    refine ⟨stateVal rd (micros rd sc.timestamps t) (stateAt (p.bind fun q => sc.tracks[q.1]?) t) f, ?_, ?_, ?_⟩
    · rw [hblock.2 a j p hp hj, htr, List.getElem?_map, ht]
      rfl
    · intro s hs
      exact stateVal_shows hs f
    · intro hs
      exact stateVal_missing hs f

/-- The vehicle itself is among the agents if it is valid now, no other valid track is at its position and not all the places are taken
by modeled agents. -/
theorem sdc_included_partial {cfg : Config} {sc : Scenario} {M C : List ℕ} (hr : Roster cfg sc M C) {e : ℕ} (he : sc.sdc = e)
    (hv : ValidNow cfg sc e) (hroom : M.length < cfg.maxAgents)
    (hpos : ∀ i s c, i ≠ e → Current cfg sc i s → s.valid = true → Current cfg sc e c → (s.x, s.y) ≠ (c.x, c.y)) : e ∈ M ++ C := by
  by_contra hnot
  rw [List.mem_append] at hnot
  push Not at hnot
  obtain ⟨c, hc, hcv⟩ := hv
  have hlt : e < sc.tracks.length := by
    obtain ⟨T, hT, _⟩ := hc
    exact (List.getElem?_eq_some_iff.1 hT).1
  have hlen : M.length + C.length < sc.tracks.length := by
    have h1 : (e :: (M ++ C)).Nodup := by
      rw [List.nodup_cons]
      exact ⟨by rw [List.mem_append]; tauto, hr.nodup⟩
    have h2 : ∀ x ∈ e :: (M ++ C), x ∈ List.range sc.tracks.length := by
      intro x hx
      rw [List.mem_cons] at hx
      rw [List.mem_range]
      rcases hx with rfl | hx
      · exact hlt
      · exact hr.tracks x hx
    have h3 := (List.subperm_of_subset h1 h2).length_le
    simp only [List.length_cons, List.length_append, List.length_range] at h3
    omega
  have hC : C ≠ [] := by
    intro h
    have := hr.room
    rw [h] at this hlen
    simp only [List.length_nil] at this hlen
    omega
  obtain ⟨i, hi⟩ := List.exists_mem_of_ne_nil C hC
  have hne : i ≠ e := by rintro rfl; exact hnot.2 hi
  apply hr.best i hi e hlt hnot.1 hnot.2
  by_cases hiv : ValidNow cfg sc i
  · refine Or.inr (Or.inl ⟨⟨c, hc, hcv⟩, hiv, ?_⟩)
    obtain ⟨s, hs, hsv⟩ := hiv
    have hc' : Current cfg sc sc.sdc.toNat c := by rw [he]; exact hc
    refine ⟨_, _, ⟨c, c, hc, hc', rfl⟩, ⟨s, c, hs, hc', rfl⟩, ?_⟩
    have hp := hpos i s c hne hs hsv hc
    simp only [sub_self, ne_eq, OfNat.ofNat_ne_zero, not_false_eq_true, zero_pow, add_zero, Real.sqrt_zero]
    apply Real.sqrt_pos.2
    by_contra hle
    push Not at hle
    have h1 := sq_nonneg (s.x - c.x)
    have h2 := sq_nonneg (s.y - c.y)
    have h3 : s.x - c.x = 0 := by
      apply pow_eq_zero_iff (n := 2) (by norm_num) |>.1
      linarith
    have h4 : s.y - c.y = 0 := by
      apply pow_eq_zero_iff (n := 2) (by norm_num) |>.1
      linarith
    apply hp
    rw [Prod.mk.injEq]
    constructor <;> linarith
  · exact Or.inl ⟨⟨c, hc, hcv⟩, hiv⟩

end

end Verif.Conversion
