import Verif.Model.Matcher
import Mathlib.Tactic.Linarith

namespace Verif.Matcher

variable {β : Type}

/-- Specification: the IoU of a pair without any cache. -/
def plainIou (F : Frame β) (i j : Nat) : Option ℚ := do
  let p ← fetch F.preds i
  let g ← fetch F.gts j
  freshIou F p g

/-- Specification: the affinity of a pair without any cache. -/
def plainAff (F : Frame β) (i j : Nat) : Option ℚ := do
  let p ← fetch F.preds i
  let g ← fetch F.gts j
  match F.customAff with
  | none => return 1
  | some f => freshAff f p g

/-- Specification: the primitives without caches. -/
def plainPrims (F : Frame β) : Prims Option := ⟨plainIou F, plainAff F⟩

/-- A cache that is unallocated, or has the right shape and only holds correct entries. -/
def CacheOK (f : Nat → Nat → Option ℚ) (np ng : Nat) (c : List (List ℚ)) : Prop :=
  c = [] ∨ (c.length = np ∧ (∀ r ∈ c, r.length = ng) ∧
    ∀ i j v, entry? c i j = some v → v < 0 ∨ f i j = some v)

/-- States of the matcher that answer like `F`. -/
def Good (F : Frame β) (s : Matcher β) : Prop :=
  s.frame = F ∧ CacheOK (plainIou F) (size F.preds) (size F.gts) s.iouCache ∧
    CacheOK (plainAff F) (size F.preds) (size F.gts) s.affCache

theorem CacheOK.allocate {f : Nat → Nat → Option ℚ} {np ng : Nat} {c : List (List ℚ)}
    (h : CacheOK f np ng c) : (allocate c np ng).length = np ∧ (∀ r ∈ allocate c np ng, r.length = ng) ∧
      ∀ i j v, entry? (Matcher.allocate c np ng) i j = some v → v < 0 ∨ f i j = some v := by
  rcases h with rfl | h
  · simp only [Matcher.allocate, List.isEmpty_nil, if_true]
    refine ⟨by simp, ?_, ?_⟩
    · intro r hr; rw [List.eq_of_mem_replicate hr]; simp
    · intro i j v hv
      left
      simp only [entry?, List.getElem?_replicate] at hv
      split_ifs at hv
      · simp only [Option.bind_some, List.getElem?_replicate] at hv
        split_ifs at hv
        have := Option.some.inj hv
        rw [← this]; norm_num
      · simp at hv
  · unfold Matcher.allocate
    by_cases hc : c.isEmpty = true
    · have : c = [] := by simpa using hc
      subst this
      rw [if_pos hc]
      have hnp : np = 0 := by simpa using h.1.symm
      subst hnp
      simpa using h.2.2
    · rw [if_neg hc]; exact h

theorem entry?_isSome {c : List (List ℚ)} {np ng i j : Nat} (h1 : c.length = np)
    (h2 : ∀ r ∈ c, r.length = ng) (hi : i < np) (hj : j < ng) : ∃ v, entry? c i j = some v := by
  have hi' : i < c.length := by omega
  refine ⟨(c[i])[j]'(by rw [h2 _ (List.getElem_mem hi')]; exact hj), ?_⟩
  simp only [entry?, List.getElem?_eq_getElem hi', Option.bind_some]
  exact List.getElem?_eq_getElem _

theorem CacheOK.store {f : Nat → Nat → Option ℚ} {np ng : Nat} {c : List (List ℚ)}
    (h1 : c.length = np) (h2 : ∀ r ∈ c, r.length = ng)
    (h3 : ∀ i j v, entry? c i j = some v → v < 0 ∨ f i j = some v) {i j : Nat} {v : ℚ}
    (hv : f i j = some v) : CacheOK f np ng (store c i j v) := by
  right
  refine ⟨by simp [Matcher.store, h1], ?_, ?_⟩
  · intro r hr
    obtain ⟨k, hk⟩ := List.mem_iff_getElem?.mp hr
    simp only [Matcher.store, List.getElem?_modify] at hk
    cases hc : c[k]? with
    | none => rw [hc] at hk; simp at hk
    | some r' =>
      rw [hc] at hk
      simp only [Option.map_eq_map, Option.map_some, Option.some.injEq] at hk
      have hlen := h2 r' (List.mem_of_getElem? hc)
      rw [← hk]
      split_ifs <;> simp [hlen]
  · intro a b w hw
    simp only [entry?, Matcher.store, List.getElem?_modify] at hw
    cases hc : c[a]? with
    | none => rw [hc] at hw; simp at hw
    | some r' =>
      rw [hc] at hw
      simp only [Option.map_eq_map, Option.map_some, Option.bind_some] at hw
      have hold : ∀ x, r'[b]? = some x → x < 0 ∨ f a b = some x := by
        intro x hx
        exact h3 a b x (by simp [entry?, hc, hx])
      by_cases ha : i = a
      · rw [if_pos ha] at hw
        rw [List.getElem?_set] at hw
        by_cases hb : j = b
        · rw [if_pos hb] at hw
          split_ifs at hw
          have := Option.some.inj hw
          right; rw [← ha, ← hb, hv, this]
        · rw [if_neg hb] at hw; exact hold w hw
      · rw [if_neg ha] at hw; exact hold w hw

/-- A stateful computation that, on all states answering like `F`, gives the answer `o`. -/
def Refines (F : Frame β) {α : Type} (x : StateT (Matcher β) Option α) (o : Option α) : Prop :=
  ∀ s, Good F s → match o with
    | none => x s = none
    | some v => ∃ s', x s = some (v, s') ∧ Good F s'

namespace Refines
variable {F : Frame β} {α γ δ : Type}

theorem pure (v : α) : Refines F (pure v) (pure v) := fun s hs => ⟨s, rfl, hs⟩

theorem failure : Refines (α := α) F failure failure := fun _ _ => rfl

theorem bind {x : StateT (Matcher β) Option α} {o : Option α} {f : α → StateT (Matcher β) Option γ}
    {g : α → Option γ} (h1 : Refines F x o) (h2 : ∀ v, Refines F (f v) (g v)) :
    Refines F (x >>= f) (o >>= g) := by
  intro s hs
  have h := h1 s hs
  cases o with
  | none => simp only at h; simp [StateT.bind, Bind.bind, h]
  | some v =>
    simp only at h
    obtain ⟨s', hx, hs'⟩ := h
    have h' := h2 v s' hs'
    have e : (x >>= f) s = f v s' := by simp [StateT.bind, Bind.bind, hx]
    rw [e]
    exact h'

theorem ite {c : Prop} [Decidable c] {x y : StateT (Matcher β) Option α} {o p : Option α}
    (h1 : Refines F x o) (h2 : Refines F y p) :
    Refines F (if c then x else y) (if c then o else p) := by
  split_ifs <;> assumption

theorem mapM {f : γ → StateT (Matcher β) Option α} {g : γ → Option α}
    (h : ∀ x, Refines F (f x) (g x)) : ∀ l : List γ, Refines F (l.mapM f) (l.mapM g) := by
  intro l
  induction l with
  | nil => simpa using pure []
  | cons a l ih =>
    rw [List.mapM_cons, List.mapM_cons]
    exact bind (h a) fun v => bind ih fun vs => pure _

theorem foldlM {f : δ → γ → StateT (Matcher β) Option δ} {g : δ → γ → Option δ}
    (h : ∀ a x, Refines F (f a x) (g a x)) : ∀ (l : List γ) (a : δ),
      Refines F (l.foldlM f a) (l.foldlM g a) := by
  intro l
  induction l with
  | nil => intro a; simpa using pure a
  | cons x l ih =>
    intro a
    rw [List.foldlM_cons, List.foldlM_cons]
    exact bind (h a x) fun v => ih v

theorem fetch (l : Option (List (Obj β))) (i : Nat) :
    Refines F (fetch l i) (Matcher.fetch l i) := by
  unfold Matcher.fetch
  cases l with
  | none => exact failure
  | some l =>
    simp only
    cases l[i]? with
    | none => exact failure
    | some o => exact pure o

end Refines

theorem fetch_some {l : Option (List (Obj β))} {i : Nat} {o : Obj β}
    (h : fetch (m := Option) l i = some o) : i < size l := by
  unfold fetch at h
  cases l with
  | none => cases h
  | some l =>
    simp only at h
    cases hl : l[i]? with
    | none => rw [hl] at h; cases h
    | some o' =>
      simp only [size, Option.getD_some]
      by_contra hc
      rw [List.getElem?_eq_none (by omega)] at hl
      cases hl

theorem fetchS (l : Option (List (Obj β))) (i : Nat) (s : Matcher β) :
    (fetch l i : StateT (Matcher β) Option (Obj β)) s = (fetch (m := Option) l i).map fun o => (o, s) := by
  unfold fetch
  cases l with
  | none => rfl
  | some l => simp only; cases l[i]? <;> rfl

theorem freshIouS (F : Frame β) (p g : Obj β) (s : Matcher β) :
    (freshIou F p g : StateT (Matcher β) Option ℚ) s = (freshIou (m := Option) F p g).map fun o => (o, s) := by
  unfold freshIou
  simp only
  split_ifs <;> rfl

theorem freshAffS (f : β → β → ℚ) (p g : Obj β) (s : Matcher β) :
    (freshAff f p g : StateT (Matcher β) Option ℚ) s = (freshAff (m := Option) f p g).map fun o => (o, s) := by
  unfold freshAff
  simp only
  split_ifs <;> rfl

theorem bindS {σ α γ : Type} (x : StateT σ Option α) (f : α → StateT σ Option γ) (s : σ) :
    (x >>= f) s = (x s).bind fun a => f a.1 a.2 := rfl

theorem getS {σ : Type} (s : σ) : (get : StateT σ Option σ) s = some (s, s) := rfl

theorem setS {σ : Type} (t s : σ) : (set t : StateT σ Option PUnit) s = some (⟨⟩, t) := rfl

theorem pureS {σ α : Type} (v : α) (s : σ) : (pure v : StateT σ Option α) s = some (v, s) := rfl

theorem iouCached_refines (F : Frame β) (i j : Nat) : Refines F (iouCached i j) (plainIou F i j) := by
  intro s hs
  obtain ⟨rfl, hI, hA⟩ := hs
  have e : iouCached i j s =
      (fetch (m := Option) s.frame.preds i).bind fun p => (fetch (m := Option) s.frame.gts j).bind fun g =>
        match entry? (allocate s.iouCache (size s.frame.preds) (size s.frame.gts)) i j with
        | none => none
        | some v =>
          if v < 0 then (freshIou (m := Option) s.frame p g).map fun v' =>
            (v', { s with iouCache := store (allocate s.iouCache (size s.frame.preds) (size s.frame.gts)) i j v' })
          else some (v, { s with iouCache := allocate s.iouCache (size s.frame.preds) (size s.frame.gts) }) := by
    rw [iouCached]
    simp only [bindS, getS, setS, fetchS, Option.bind_some]
    cases h1 : fetch (m := Option) s.frame.preds i with
    | none => simp
    | some p =>
      cases h2 : fetch (m := Option) s.frame.gts j with
      | none => simp
      | some g =>
        simp only [Option.map_some, Option.bind_some]
        cases h3 : entry? (allocate s.iouCache (size s.frame.preds) (size s.frame.gts)) i j with
        | none => rfl
        | some v =>
          simp only
          split_ifs with hv
          · simp only [bindS, freshIouS, setS, pureS]
            cases freshIou (m := Option) s.frame p g <;> simp
          · rfl
  rw [e]
  unfold plainIou
  cases h1 : fetch (m := Option) s.frame.preds i with
  | none => simp
  | some p =>
    cases h2 : fetch (m := Option) s.frame.gts j with
    | none => simp
    | some g =>
      obtain ⟨a1, a2, a3⟩ := hI.allocate
      obtain ⟨v, hv⟩ := entry?_isSome a1 a2 (fetch_some h1) (fetch_some h2)
      have hp : plainIou s.frame i j = freshIou (m := Option) s.frame p g := by
        simp [plainIou, h1, h2]
      simp only [Option.bind_eq_bind, Option.bind_some, hv]
      split_ifs with hneg
      · cases h3 : freshIou (m := Option) s.frame p g with
        | none => simp
        | some w =>
          simp only [Option.map_some]
          refine ⟨_, rfl, rfl, ?_, hA⟩
          exact CacheOK.store a1 a2 a3 (hp.trans h3)
      · rcases a3 i j v hv with h | h
        · exact absurd h hneg
        · rw [hp] at h
          rw [h]
          exact ⟨_, rfl, rfl, Or.inr ⟨a1, a2, a3⟩, hA⟩

theorem affCached_refines (F : Frame β) (i j : Nat) : Refines F (affCached i j) (plainAff F i j) := by
  intro s hs
  obtain ⟨rfl, hI, hA⟩ := hs
  have e : affCached i j s =
      (fetch (m := Option) s.frame.preds i).bind fun p => (fetch (m := Option) s.frame.gts j).bind fun g =>
        match s.frame.customAff with
        | none => some (1, s)
        | some f =>
          match entry? (allocate s.affCache (size s.frame.preds) (size s.frame.gts)) i j with
          | none => none
          | some v =>
            if v < 0 then (freshAff (m := Option) f p g).map fun v' =>
              (v', { s with affCache := store (allocate s.affCache (size s.frame.preds) (size s.frame.gts)) i j v' })
            else some (v, { s with affCache := allocate s.affCache (size s.frame.preds) (size s.frame.gts) }) := by
    rw [affCached]
    simp only [bindS, getS, fetchS, Option.bind_some]
    cases h1 : fetch (m := Option) s.frame.preds i with
    | none => simp
    | some p =>
      cases h2 : fetch (m := Option) s.frame.gts j with
      | none => simp
      | some g =>
        simp only [Option.map_some, Option.bind_some]
        cases hc : s.frame.customAff with
        | none => rfl
        | some f =>
          simp only [bindS, setS, Option.bind_some]
          cases h3 : entry? (allocate s.affCache (size s.frame.preds) (size s.frame.gts)) i j with
          | none => rfl
          | some v =>
            simp only
            split_ifs with hv
            · simp only [bindS, freshAffS, setS, pureS]
              cases freshAff (m := Option) f p g <;> simp
            · rfl
  rw [e]
  unfold plainAff
  cases h1 : fetch (m := Option) s.frame.preds i with
  | none => simp
  | some p =>
    cases h2 : fetch (m := Option) s.frame.gts j with
    | none => simp
    | some g =>
      have hp : plainAff s.frame i j = match s.frame.customAff with
          | none => some 1
          | some f => freshAff (m := Option) f p g := by
        simp only [plainAff, h1, h2, Option.bind_eq_bind, Option.bind_some]
        rfl
      simp only [Option.bind_eq_bind, Option.bind_some]
      cases hc : s.frame.customAff with
      | none => exact ⟨s, rfl, rfl, hI, hA⟩
      | some f =>
        rw [hc] at hp
        simp only at hp ⊢
        obtain ⟨a1, a2, a3⟩ := hA.allocate
        obtain ⟨v, hv⟩ := entry?_isSome a1 a2 (fetch_some h1) (fetch_some h2)
        simp only [hv]
        split_ifs with hneg
        · cases h3 : freshAff (m := Option) f p g with
          | none => simp
          | some w =>
            simp only [Option.map_some]
            refine ⟨_, rfl, rfl, hI, ?_⟩
            exact CacheOK.store a1 a2 a3 (hp.trans h3)
        · rcases a3 i j v hv with h | h
          · exact absurd h hneg
          · rw [hp] at h
            rw [h]
            exact ⟨_, rfl, rfl, hI, Or.inr ⟨a1, a2, a3⟩⟩

section Generic
variable {F : Frame β}

theorem threshold_refines (t : Nat) : Refines F (threshold F t) (threshold F t) := by
  unfold threshold
  cases F.thresholds[t]? with
  | none => exact Refines.failure
  | some v => exact Refines.pure v

theorem canMatch_refines (i j : Nat) :
    Refines F (canMatch (cachedPrims β) F i j) (canMatch (plainPrims F) F i j) := by
  unfold canMatch
  refine Refines.bind (Refines.fetch _ _) fun p => ?_
  refine Refines.ite Refines.failure (Refines.ite ?_ ?_)
  · refine Refines.bind (affCached_refines F i j) fun a => Refines.ite (Refines.pure _) ?_
    exact Refines.bind (iouCached_refines F i j) fun v =>
      Refines.bind (threshold_refines _) fun t => Refines.pure _
  · exact Refines.bind (iouCached_refines F i j) fun v =>
      Refines.bind (threshold_refines _) fun t => Refines.pure _

theorem matchingWeight_refines (i j : Nat) :
    Refines F (matchingWeight (cachedPrims β) F i j) (matchingWeight (plainPrims F) F i j) := by
  unfold matchingWeight
  refine Refines.bind (iouCached_refines F i j) fun v => Refines.ite ?_ (Refines.pure _)
  exact Refines.bind (affCached_refines F i j) fun a => Refines.pure _

theorem edgeOf_refines (i j : Nat) :
    Refines F (edgeOf (cachedPrims β) F i j) (edgeOf (plainPrims F) F i j) := by
  unfold edgeOf
  exact Refines.bind (canMatch_refines i j) fun c =>
    Refines.ite (matchingWeight_refines i j) (Refines.pure _)

theorem readBack_refines (n : Nat) (gs : List Nat) (r : List (Option Nat) × List (Option Nat))
    (x : (Nat × Nat) × Nat) :
    Refines F (readBack (cachedPrims β) F n gs r x) (readBack (plainPrims F) F n gs r x) := by
  unfold readBack
  simp only
  refine Refines.ite ?_ Refines.failure
  cases gs[x.1.2]? with
  | none => exact Refines.pure _
  | some g => exact Refines.bind (canMatch_refines _ _) fun c => Refines.pure _

theorem hungarianMatch_refines :
    Refines F (hungarianMatch (cachedPrims β) F) (hungarianMatch (plainPrims F) F) := by
  unfold hungarianMatch
  simp only
  refine Refines.ite (Refines.pure _) ?_
  refine Refines.bind (Refines.mapM (fun p => Refines.mapM (fun g => edgeOf_refines p g) _) _) fun rows => ?_
  cases Hungarian.hungarian _ _ _ with
  | none => exact Refines.failure
  | some x =>
    obtain ⟨perm, lx, ly⟩ := x
    exact Refines.foldlM (fun a x => readBack_refines _ _ a x) _ _

theorem bestGt_refines (p i : Nat) (gm : List (Option Nat)) : ∀ (l : List (Nat × Nat)) (b : Option Nat × ℤ),
    Refines F (bestGt (cachedPrims β) F p i gm l b) (bestGt (plainPrims F) F p i gm l b) := by
  intro l
  induction l with
  | nil => intro b; exact Refines.pure b
  | cons x l ih =>
    obtain ⟨g, j⟩ := x
    intro b
    rw [bestGt, bestGt]
    cases gm[j]? with
    | none => exact Refines.failure
    | some o =>
      cases o with
      | some _ => exact ih b
      | none =>
        simp only
        refine Refines.bind (canMatch_refines _ _) fun c => Refines.ite ?_ (ih _)
        refine Refines.bind (matchingWeight_refines _ _) fun w => Refines.ite ?_ (ih _)
        exact Refines.bind (matchingWeight_refines _ _) fun w => ih _

theorem scoreStep_refines (r : List (Option Nat) × List (Option Nat)) (i : Nat) :
    Refines F (scoreStep (cachedPrims β) F r i) (scoreStep (plainPrims F) F r i) := by
  unfold scoreStep
  cases F.predSubset[i]? with
  | none => exact Refines.failure
  | some p =>
    simp only
    refine Refines.bind (bestGt_refines _ _ _ _ _) fun b => ?_
    cases b.1 with
    | none => exact Refines.pure _
    | some j => exact Refines.pure _

theorem scoreFirstMatch_refines (order : List Nat) (r0 : List (Option Nat) × List (Option Nat)) :
    Refines F (scoreFirstMatch (cachedPrims β) F order r0) (scoreFirstMatch (plainPrims F) F order r0) := by
  unfold scoreFirstMatch
  exact Refines.foldlM (fun a x => scoreStep_refines a x) _ _

end Generic

end Verif.Matcher
