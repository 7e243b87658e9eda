import Verif.Props.MatcherCache
import Verif.Props.Mot

/-!
# What the matcher answers for affinities, and repeated ids in tracking

C12: affinities after a history and after a custom function was set.  C14: ground truths of a frame with the same id.
-/

namespace Verif.Matcher

variable {β : Type}

/-- What is answered for the affinity of two objects: 1 without a custom function; with one, 0 for different types and else its value, if that
is in `[0, 1]`. -/
def Answer (f : Option (β → β → ℚ)) (p g : Obj β) : Option ℚ :=
  match f with
  | none => some 1
  | some f => if p.type = g.type then (if 0 ≤ f p.box g.box ∧ f p.box g.box ≤ 1 then some (f p.box g.box) else none) else some 0

theorem aff_answer {F : Frame β} {s : Matcher β} (h : Good F s) (ps gs : List (Obj β)) (hp : s.frame.preds = some ps)
    (hg : s.frame.gts = some gs) (i j : Nat) (p g : Obj β) (hi : ps[i]? = some p) (hj : gs[j]? = some g) :
    (affCached i j s).map Prod.fst = Answer s.frame.customAff p g := by
  have hF := h.1
  have h3 := affCached_refines F i j s h
  have e : plainAff F i j = Answer s.frame.customAff p g := by
    rw [← hF]
    simp only [plainAff, fetch, hp, hg, hi, hj, Option.bind_eq_bind, pure, Option.bind_some, Answer]
    cases s.frame.customAff with
    | none => rfl
    | some f =>
      simp only [freshAff]
      by_cases ht : p.type = g.type
      · simp only [ht, ne_eq, not_true_eq_false, if_false, if_true]
        rfl
      · simp only [ht, ne_eq, not_false_eq_true, if_true, if_false]
        rfl
  rw [← e]
  cases ho : plainAff F i j with
  | none => rw [ho] at h3; simp only at h3; simp [h3]
  | some v =>
    rw [ho] at h3
    simp only at h3
    obtain ⟨s'', h4, _⟩ := h3
    simp [h4]

/-- **C12**: after every history that was not aborted, the affinity returned for a pair is that of the objects and the function now set; a value outside
of `[0, 1]` aborts the process. -/
theorem aff_after_history (F : Frame β) (ops : List (Op β)) (outs : List Out) (s : Matcher β)
    (hrun : run ops { frame := F } = some (outs, s)) (ps gs : List (Obj β)) (hp : s.frame.preds = some ps)
    (hg : s.frame.gts = some gs) (i j : Nat) (p g : Obj β) (hi : ps[i]? = some p) (hj : gs[j]? = some g) :
    (affCached i j s).map Prod.fst = Answer s.frame.customAff p g := by
  have h := run_refines ops F _ (good_fresh F)
  cases hs : specRun ops F with
  | none => rw [hs] at h; simp only at h; rw [h] at hrun; cases hrun
  | some r =>
    rw [hs] at h
    simp only at h
    obtain ⟨s', h1, h2⟩ := h
    rw [h1] at hrun
    simp only [Option.some.injEq, Prod.mk.injEq] at hrun
    obtain ⟨-, rfl⟩ := hrun
    exact aff_answer h2 ps gs hp hg i j p g hi hj

/-- **C12**: an affinity function that is set before the first query is the one that is used, and the IoU is not touched. -/
theorem setCustomAff_fresh (F : Frame β) (f : β → β → ℚ) (ps gs : List (Obj β)) (hp : F.preds = some ps) (hg : F.gts = some gs)
    (i j : Nat) (p g : Obj β) (hi : ps[i]? = some p) (hj : gs[j]? = some g) :
    (affCached i j (({ frame := F } : Matcher β).setCustomAff f)).map Prod.fst = Answer (some f) p g ∧
    (({ frame := F } : Matcher β).setCustomAff f).frame.customIou = F.customIou :=
  ⟨aff_answer (good_fresh { F with customAff := some f }) ps gs hp hg i j p g hi hj, rfl⟩

end Verif.Matcher

namespace Verif.Mot

section
variable {ι : Type} [DecidableEq ι]

private theorem buildGt_nodup (x : Input ι) : ∀ (l : List Nat) (k : Nat) (m r : List (ι × Nat)), (keys m).Nodup →
    (l.zipIdx k).foldlM (buildGtStep x) m = some r →
    ∃ ids : List ι, l.map (fun i => (x.gts[i]?).map Gt.id) = ids.map some ∧ (keys m ++ ids).Nodup := by
  intro l
  induction l with
  | nil => intro k m r hm _; exact ⟨[], rfl, by simpa using hm⟩
  | cons a l ih =>
    intro k m r hm h
    rw [List.zipIdx_cons, List.foldlM_cons] at h
    obtain ⟨m', h1, h2⟩ := Option.bind_eq_some_iff.1 h
    unfold buildGtStep at h1
    cases ho : x.gts[a]? with
    | none => simp [ho] at h1
    | some o =>
      simp only [ho] at h1
      split_ifs at h1 with hk
      cases h1
      rw [get?_isSome] at hk
      have hn : (keys (m ++ [(o.id, k)])).Nodup := by
        simp only [keys, List.map_append, List.map_cons, List.map_nil]
        rw [List.nodup_append]
        refine ⟨hm, by simp, ?_⟩
        intro u hu v hv e
        rw [List.mem_singleton] at hv
        subst hv
        subst e
        exact hk hu
      obtain ⟨ids, h3, h4⟩ := ih (k + 1) _ r hn h2
      refine ⟨o.id :: ids, by simp [ho, h3], ?_⟩
      simpa [keys] using h4

/-- **C14**: ids name the ground truths of a frame: the evaluation of a frame in which two ground truths have the same id, or of which one is missing,
is aborted, whatever the history. -/
theorem eval_ids (h : HashOrder) (x : Input ι) (level : Nat) (details : Bool) (s s' : State ι) (he : eval h x level details s = some s') :
    ∃ ids : List ι, x.gtSubset.map (fun i => (x.gts[i]?).map Gt.id) = ids.map some ∧ ids.Nodup := by
  unfold eval at he
  obtain ⟨pd, -, he⟩ := Option.bind_eq_some_iff.1 he
  obtain ⟨gt, h1, -⟩ := Option.bind_eq_some_iff.1 he
  obtain ⟨ids, h2, h3⟩ := buildGt_nodup x x.gtSubset 0 [] gt (by simp [keys]) h1
  exact ⟨ids, h2, by simpa [keys] using h3⟩

end

end Verif.Mot
