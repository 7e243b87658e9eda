import Verif.Model.Examples
import Mathlib.Algebra.Order.Group.Abs
import Mathlib.Algebra.Order.Ring.Abs
import Mathlib.Tactic.Linarith
import Mathlib.Tactic.NormNum
import Mathlib.Tactic.Positivity

/-!
C168: comparing examples.  C169: the tokens of the cameras.
-/

namespace Verif.Examples

/-- Specification: `a` has the feature `f` under the name `key`. -/
def Has (e : Example) (key : String) (f : Feature) : Prop := (key, f) ∈ e

/-- Every name occurs once. -/
def Named (e : Example) : Prop := (e.map Prod.fst).Nodup

theorem look_iff {e : Example} (h : Named e) (key : String) (f : Feature) : look e key = some f ↔ Has e key f := by
  unfold look Has
  constructor
  · intro H
    obtain ⟨p, hp, rfl⟩ := Option.map_eq_some_iff.1 H
    have h1 := List.find?_some hp
    have h2 := List.mem_of_find?_eq_some hp
    have : p.1 = key := by simpa using h1
    rw [← this]; exact h2
  · intro H
    cases hf : e.find? fun p => decide (p.1 = key) with
    | none =>
      have := List.find?_eq_none.1 hf _ H
      simp at this
    | some p =>
      have h1 : p.1 = key := by simpa using List.find?_some hf
      have h2 := List.mem_of_find?_eq_some hf
      have := List.inj_on_of_nodup_map h h2 H (by simpa using h1)
      rw [this]; rfl

theorem look_isSome {e : Example} (h : Named e) (key : String) : (look e key).isSome = true ↔ ∃ f, Has e key f := by
  rw [Option.isSome_iff_exists]
  exact exists_congr fun f => look_iff h key f

/-- Specification: two floats agree: they are the same infinity, or they are numbers and differ by at most `atol` plus
`rtol` times the size of the second. -/
inductive Agree (atol rtol : ℚ) : Num → Num → Prop
  | inf (s : Bool) : Agree atol rtol (.inf s) (.inf s)
  | fin {a b : ℚ} (h : |a - b| ≤ atol + rtol * |b|) : Agree atol rtol (.fin a) (.fin b)

theorem isClose_iff (atol rtol : ℚ) (a b : Num) : isClose atol rtol a b = true ↔ Agree atol rtol a b := by
  constructor
  · intro h
    cases a <;> cases b <;> simp only [isClose, Bool.false_eq_true, decide_eq_true_eq, beq_iff_eq] at h
    · rw [h]; exact .inf _
    · exact .fin h
  · intro h
    cases h with
    | inf s => simp [isClose]
    | fin h => simpa [isClose] using h

/-- Specification: two features of one name are treated as equal.  The second decides how: if it is a list of floats, the
floats of the first (none, if it has no list of floats) have to agree with its own; otherwise they have to be the same. -/
def Same (atol rtol : ℚ) (a b : Feature) : Prop :=
  match b with
  | .floats v => List.Forall₂ (Agree atol rtol) a.floatValues v
  | _ => a = b

theorem all_zip_iff {α β : Type} {P : α → β → Bool} : ∀ (l : List α) (k : List β),
    (l.length = k.length ∧ ((l.zip k).all fun p => P p.1 p.2) = true) ↔ List.Forall₂ (fun a b => P a b = true) l k := by
  intro l
  induction l with
  | nil => intro k; cases k <;> simp
  | cons a l ih =>
    intro k
    cases k with
    | nil => simp
    | cons b k =>
      rw [List.forall₂_cons, ← ih]
      simp only [List.length_cons, Nat.add_right_cancel_iff, List.zip_cons_cons, List.all_cons, Bool.and_eq_true]
      tauto

theorem sameFeature_iff (atol rtol : ℚ) (a b : Feature) : sameFeature atol rtol a b = true ↔ Same atol rtol a b := by
  cases b with
  | floats v =>
    simp only [sameFeature, Same, Bool.and_eq_true, decide_eq_true_eq]
    rw [all_zip_iff (P := isClose atol rtol)]
    constructor
    · exact fun h => h.imp fun _ _ => (isClose_iff _ _ _ _).1
    · exact fun h => h.imp fun _ _ => (isClose_iff _ _ _ _).2
  | _ => simp only [sameFeature, Same, decide_eq_true_eq]; exact eq_comm

/-- C168: two examples compare as equal if and only if they have the same names and the two features of every name are
treated as equal. -/
theorem examplesEqual_iff {a b : Example} (ha : Named a) (hb : Named b) (atol rtol : ℚ) :
    examplesEqual a b atol rtol = true ↔
      (∀ key, (∃ f, Has a key f) ↔ ∃ f, Has b key f) ∧ ∀ key f g, Has a key f → Has b key g → Same atol rtol f g := by
  unfold examplesEqual
  rw [Bool.and_eq_true, List.all_eq_true, List.all_eq_true]
  constructor
  · rintro ⟨h1, h2⟩
    have key1 : ∀ key f, Has a key f → ∃ g, Has b key g ∧ Same atol rtol f g := by
      intro key f hf
      have := h1 (key, f) hf
      cases hl : look b key with
      | none => simp [hl] at this
      | some g =>
        simp only [hl] at this
        exact ⟨g, (look_iff hb _ _).1 hl, (sameFeature_iff _ _ _ _).1 this⟩
    refine ⟨fun key => ⟨?_, ?_⟩, ?_⟩
    · rintro ⟨f, hf⟩
      obtain ⟨g, hg, -⟩ := key1 key f hf
      exact ⟨g, hg⟩
    · rintro ⟨g, hg⟩
      exact (look_isSome ha key).1 (h2 (key, g) hg)
    · intro key f g hf hg
      obtain ⟨g', hg', hs⟩ := key1 key f hf
      have e1 := (look_iff hb key g).2 hg
      have e2 := (look_iff hb key g').2 hg'
      cases e1.symm.trans e2
      exact hs
  · rintro ⟨h1, h2⟩
    constructor
    · rintro ⟨key, f⟩ hf
      obtain ⟨g, hg⟩ := (h1 key).1 ⟨f, hf⟩
      simp only [(look_iff hb key g).2 hg]
      exact (sameFeature_iff _ _ _ _).2 (h2 key f g hf hg)
    · rintro ⟨key, g⟩ hg
      exact (look_isSome ha key).2 ((h1 key).2 ⟨g, hg⟩)

/-- C168: the order of the features does not matter. -/
theorem examplesEqual_perm {a a' b b' : Example} (ha : Named a) (hb : Named b) (pa : a.Perm a') (pb : b.Perm b')
    (atol rtol : ℚ) : examplesEqual a b atol rtol = examplesEqual a' b' atol rtol := by
  have ha' : Named a' := (pa.map _).nodup_iff.1 ha
  have hb' : Named b' := (pb.map _).nodup_iff.1 hb
  rw [Bool.eq_iff_iff, examplesEqual_iff ha hb, examplesEqual_iff ha' hb']
  have e1 : ∀ key f, Has a key f ↔ Has a' key f := fun _ _ => pa.mem_iff
  have e2 : ∀ key f, Has b key f ↔ Has b' key f := fun _ _ => pb.mem_iff
  simp only [e1, e2]

/-- No feature contains "not a number". -/
def NoNan (e : Example) : Prop := ∀ key f, Has e key f → .nan ∉ f.floatValues

theorem agree_refl {atol rtol : ℚ} (h1 : 0 ≤ atol) (h2 : 0 ≤ rtol) {a : Num} : Agree atol rtol a a ↔ a ≠ .nan := by
  constructor
  · rintro h rfl; cases h
  · intro h
    cases a with
    | nan => exact absurd rfl h
    | inf s => exact .inf s
    | fin x => exact .fin (by rw [sub_self, abs_zero]; positivity)

/-- C168: an example is equal to itself if and only if it does not contain "not a number" (for tolerances that are not
negative). -/
theorem refl_iff {a : Example} (ha : Named a) {atol rtol : ℚ} (h1 : 0 ≤ atol) (h2 : 0 ≤ rtol) :
    examplesEqual a a atol rtol = true ↔ NoNan a := by
  rw [examplesEqual_iff ha ha]
  constructor
  · rintro ⟨-, h⟩ key f hf hn
    have := h key f f hf hf
    cases f with
    | floats v =>
      have hv : List.Forall₂ (Agree atol rtol) v v := this
      have : Agree atol rtol .nan .nan := (List.forall₂_same.1 hv) _ hn
      cases this
    | unset => simp [Feature.floatValues] at hn
    | bytes v => simp [Feature.floatValues] at hn
    | ints v => simp [Feature.floatValues] at hn
  · intro h
    refine ⟨fun _ => Iff.rfl, ?_⟩
    intro key f g hf hg
    have e := (look_iff ha key f).2 hf
    rw [(look_iff ha key g).2 hg] at e
    cases e
    cases f with
    | floats v =>
      show List.Forall₂ (Agree atol rtol) v v
      rw [List.forall₂_same]
      intro x hx
      rw [agree_refl h1 h2]
      rintro rfl
      exact h key _ hf hx
    | _ => rfl

/-- No name has a list of no floats in one example and something else than a list of floats in the other. -/
def NoGhost (a b : Example) : Prop := ∀ key f, Has a key f → ∀ g, Has b key g → (g = .floats [] → ∃ v, f = .floats v)

/-- C168: without a relative tolerance the comparison is symmetric, unless a name has a list of no floats in one example
and something else in the other. -/
theorem symm_partial {a b : Example} (ha : Named a) (hb : Named b) (atol : ℚ) (h : NoGhost a b)
    (H : examplesEqual a b atol 0 = true) : examplesEqual b a atol 0 = true := by
  rw [examplesEqual_iff ha hb] at H
  rw [examplesEqual_iff hb ha]
  refine ⟨fun key => (H.1 key).symm, ?_⟩
  intro key f g hf hg
  have hs := H.2 key g f hg hf
  cases f with
  | floats v =>
    have hv : List.Forall₂ (Agree atol 0) g.floatValues v := hs
    have hgf : ∃ u, g = .floats u := by
      cases hv0 : v with
      | nil => exact h key g hg _ hf (by rw [hv0])
      | cons x v' =>
        rw [hv0] at hv
        cases g with
        | floats u => exact ⟨u, rfl⟩
        | unset => cases hv
        | bytes u => cases hv
        | ints u => cases hv
    obtain ⟨u, rfl⟩ := hgf
    show List.Forall₂ (Agree atol 0) v u
    have hv' : List.Forall₂ (Agree atol 0) u v := hv
    refine hv'.flip.imp ?_
    intro x y hxy
    cases hxy with
    | inf s => exact .inf s
    | fin h => exact .fin (by rw [abs_sub_comm]; simpa using h)
  | _ =>
    have : g = _ := hs
    subst this
    rfl

/-- C168: without a relative tolerance, equality up to `s` and equality up to `t` of three examples give equality up to
`s + t` of the first and the last. -/
theorem trans_tolerance {a b c : Example} (ha : Named a) (hb : Named b) (hc : Named c) {s t : ℚ}
    (h1 : examplesEqual a b s 0 = true) (h2 : examplesEqual b c t 0 = true) :
    examplesEqual a c (s + t) 0 = true := by
  rw [examplesEqual_iff ha hb] at h1
  rw [examplesEqual_iff hb hc] at h2
  rw [examplesEqual_iff ha hc]
  refine ⟨fun key => (h1.1 key).trans (h2.1 key), ?_⟩
  intro key f k hf hk
  obtain ⟨g, hgb⟩ := (h1.1 key).1 ⟨f, hf⟩
  have e1 := h1.2 key f g hf hgb
  have e2 := h2.2 key g k hgb hk
  cases k with
  | floats v =>
    have e2' : List.Forall₂ (Agree t 0) g.floatValues v := e2
    show List.Forall₂ (Agree (s + t) 0) f.floatValues v
    cases g with
    | floats u =>
      have e1' : List.Forall₂ (Agree s 0) f.floatValues u := e1
      have e2'' : List.Forall₂ (Agree t 0) u v := e2'
      clear e1 e2 e2' hk hgb
      revert e1' e2''
      generalize f.floatValues = l
      intro e1 e2
      induction e1 generalizing v with
      | nil => cases e2; exact .nil
      | cons hxy _ ih =>
        cases e2 with
        | cons hyz e2 =>
          refine .cons ?_ (ih _ e2)
          cases hxy with
          | inf s => cases hyz; exact .inf s
          | fin hxy => cases hyz with
            | fin hyz =>
              refine .fin ?_
              rename_i x y z
              have := abs_sub_le x y z
              simp only [zero_mul, add_zero] at *
              linarith
    | unset => have : f = _ := e1; subst this; cases e2'; exact .nil
    | bytes u => have : f = _ := e1; subst this; cases e2'; exact .nil
    | ints u => have : f = _ := e1; subst this; cases e2'; exact .nil
  | _ =>
    have hgk : g = _ := e2
    subst hgk
    exact e1

/-- **C168.**  Examples that differ compare as equal, and the comparison depends on the order of the arguments: integers
on one side and a list of no floats on the other; and with a relative tolerance also two numbers. -/
theorem examplesEqual_violated :
    examplesEqual [("speed", .ints [7, 8])] [("speed", .floats [])] (1 / 1000) 0 = true ∧
    examplesEqual [("speed", .floats [])] [("speed", .ints [7, 8])] (1 / 1000) 0 = false ∧
    examplesEqual [("speed", .floats [.fin 100])] [("speed", .floats [.fin 111])] 0 (1 / 10) = true ∧
    examplesEqual [("speed", .floats [.fin 111])] [("speed", .floats [.fin 100])] 0 (1 / 10) = false ∧
    examplesEqual [("speed", .floats [.nan])] [("speed", .floats [.nan])] (1 / 1000) 0 = false := by
  decide +kernel

/-- The hypotheses of `symm_partial` and `trans_tolerance` are met by these examples. -/
example : Named [("x", .floats [.fin 1, .inf true]), ("id", .ints [4])] ∧
    examplesEqual [("x", .floats [.fin 1, .inf true]), ("id", .ints [4])]
      [("id", .ints [4]), ("x", .floats [.fin (10005 / 10000), .inf true])] (1 / 1000) 0 = true ∧
    NoGhost [("x", .floats [.fin 1, .inf true]), ("id", .ints [4])]
      [("id", .ints [4]), ("x", .floats [.fin (10005 / 10000), .inf true])] := by
  refine ⟨by unfold Named; decide, by decide +kernel, ?_⟩
  intro key f hf g hg h
  subst h
  simp [Has] at hg

/-- C169: the scenario keeps all its fields and its tokens; the tokens of the camera data follow in their order, and no
other field of the camera data is used. -/
theorem addTokens_spec_partial {T F : Type} (s c c' : Scenario T F) :
    (addTokens s c).rest = s.rest ∧ (addTokens s c).tokens.length = s.tokens.length + c.tokens.length ∧
    (∀ i < s.tokens.length, (addTokens s c).tokens[i]? = s.tokens[i]?) ∧
    (∀ i, (addTokens s c).tokens[s.tokens.length + i]? = c.tokens[i]?) ∧
    (c.tokens = c'.tokens → addTokens s c = addTokens s c') := by
  refine ⟨rfl, by simp [addTokens], ?_, ?_, ?_⟩
  · intro i hi
    exact List.getElem?_append_left hi
  · intro i
    show (s.tokens ++ c.tokens)[s.tokens.length + i]? = _
    rw [List.getElem?_append_right (by omega), Nat.add_sub_cancel_left]
  · intro h
    simp [addTokens, h]

theorem foldl_min_lt : ∀ (l : List ℤ) (a x : ℤ), l.foldl min a < x ↔ a < x ∨ ∃ b ∈ l, b < x := by
  intro l
  induction l with
  | nil => simp
  | cons b l ih => intro a x; rw [List.foldl_cons, ih, min_lt_iff, List.exists_mem_cons_iff, or_assoc]

theorem lt_foldl_max : ∀ (l : List ℤ) (a x : ℤ), x < l.foldl max a ↔ x < a ∨ ∃ b ∈ l, x < b := by
  intro l
  induction l with
  | nil => simp
  | cons b l ih => intro a x; rw [List.foldl_cons, ih, lt_max_iff, List.exists_mem_cons_iff, or_assoc]

theorem exists_of_forall₂ {α β : Type} {P : α → β → Prop} {l : List α} {k : List β} (h : List.Forall₂ P l k) {x : α}
    (hx : x ∈ l) : ∃ y, P x y := by
  induction h with
  | nil => simp at hx
  | cons h1 _ ih =>
    rcases List.mem_cons.1 hx with rfl | hx
    · exact ⟨_, h1⟩
    · exact ih hx

/-- C169: the embeddings of tokens are returned if and only if there are tokens and all of them are indices of the
codebook; then they are the rows of the tokens, in their order. -/
theorem embeddings_iff {α : Type} (codebook : List α) (tokens : List ℤ) (r : List α) :
    embeddings codebook tokens = some r ↔ tokens ≠ [] ∧
      List.Forall₂ (fun t v => 0 ≤ t ∧ codebook[t.toNat]? = some v) tokens r := by
  have hM : ∀ (l : List ℤ) (r : List α), (∀ t ∈ l, 0 ≤ t) → ((l.mapM fun i => codebook[i.toNat]?) = some r ↔
      List.Forall₂ (fun t v => 0 ≤ t ∧ codebook[t.toNat]? = some v) l r) := by
    intro l
    induction l with
    | nil => intro r _; simp [List.mapM_nil, eq_comm]
    | cons t l ih =>
      intro r h
      rw [List.mapM_cons]
      simp only [Option.bind_eq_bind, Option.bind_eq_some_iff, Option.pure_def, Option.some.injEq]
      constructor
      · rintro ⟨v, hv, vs, hvs, rfl⟩
        exact .cons ⟨h t (by simp), hv⟩ ((ih _ fun x hx => h x (by simp [hx])).1 hvs)
      · intro H
        cases H with
        | cons h1 h2 => exact ⟨_, h1.2, _, (ih _ fun x hx => h x (by simp [hx])).2 h2, rfl⟩
  cases tokens with
  | nil => simp [embeddings]
  | cons t ts =>
    unfold embeddings
    simp only
    by_cases hb : ts.foldl min t < 0 ∨ (codebook.length : ℤ) - 1 < ts.foldl max t
    · rw [if_pos hb]
      refine ⟨(by simp), ?_⟩
      rintro ⟨-, H⟩
      exfalso
      have hall : ∀ x ∈ t :: ts, 0 ≤ x ∧ x ≤ (codebook.length : ℤ) - 1 := by
        intro x hx
        obtain ⟨v, hv⟩ := exists_of_forall₂ H hx
        have := (List.getElem?_eq_some_iff.1 hv.2).1
        omega
      rcases hb with hb | hb
      · rw [foldl_min_lt] at hb
        rcases hb with hb | ⟨b, hb, hlt⟩
        · have := hall t (by simp); omega
        · have := hall b (by simp [hb]); omega
      · rw [lt_foldl_max] at hb
        rcases hb with hb | ⟨b, hb, hlt⟩
        · have := hall t (by simp); omega
        · have := hall b (by simp [hb]); omega
    · rw [if_neg hb, hM]
      · simp
      · intro x hx
        by_contra hneg
        refine hb (Or.inl ((foldl_min_lt _ _ _).2 ?_))
        rcases List.mem_cons.1 hx with rfl | hx
        · exact Or.inl (by omega)
        · exact Or.inr ⟨x, hx, by omega⟩

/-- **C169.**  No tokens give an error and not a table without rows. -/
theorem no_tokens_violated {α : Type} (codebook : List α) : embeddings codebook [] = none := rfl

/-- Tokens that are added twice are there twice. -/
example : (addTokens (addTokens (⟨[1], ()⟩ : Scenario ℕ Unit) ⟨[2], ()⟩) ⟨[2], ()⟩).tokens = [1, 2, 2] := by decide

example : embeddings ["a", "b", "c"] [2, 0, 2] = some ["c", "a", "c"] ∧ embeddings ["a", "b"] [0, 2] = none ∧
    embeddings ["a", "b"] [-1, 0] = none := by decide

end Verif.Examples
