import Verif.Lemmas.MatcherCache

/-!
Property C12: the caches of the matcher never change an answer.
-/

namespace Verif.Matcher

variable {β : Type}

/-- Specification: one call on a matcher without caches. -/
def specStep : Op β → Frame β → Option (Out × Frame β)
  | .setPredictions l, F => some (.unit, { F with preds := some l })
  | .setGroundTruths l, F => some (.unit, { F with gts := some l })
  | .setPredictionSubset l, F => some (.unit, { F with predSubset := l })
  | .setGroundTruthSubset l, F => some (.unit, { F with gtSubset := l })
  | .iou i j, F => (plainIou F i j).map fun v => (.number v, F)
  | .affinity i j, F => (plainAff F i j).map fun v => (.number v, F)
  | .canMatch i j, F => (canMatch (plainPrims F) F i j).map fun v => (.bool v, F)
  | .matchingWeight i j, F => (matchingWeight (plainPrims F) F i j).map fun v => (.weight v, F)
  | .hungarianMatch, F => (hungarianMatch (plainPrims F) F).map fun v => (.pairs v, F)
  | .scoreFirstMatch o r, F => (scoreFirstMatch (plainPrims F) F o r).map fun v => (.pairs v, F)

/-- Specification: a history of calls on a matcher without caches. -/
def specRun : List (Op β) → Frame β → Option (List Out × Frame β)
  | [], F => some ([], F)
  | op :: ops, F => (specStep op F).bind fun r => (specRun ops r.2).map fun q => (r.1 :: q.1, q.2)

theorem good_fresh (F : Frame β) : Good F { frame := F } := ⟨rfl, Or.inl rfl, Or.inl rfl⟩

theorem lift_query {α : Type} {F : Frame β} {x : StateT (Matcher β) Option α} {o : Option α} (f : α → Out)
    (h : Refines F x o) (s : Matcher β) (hs : Good F s) :
    match o.map fun v => (f v, F) with
    | none => (x >>= fun v => (pure (f v) : StateT (Matcher β) Option Out)) s = none
    | some r => ∃ s', (x >>= fun v => (pure (f v) : StateT (Matcher β) Option Out)) s = some (r.1, s') ∧
        Good r.2 s' := by
  have := h s hs
  cases o with
  | none => simp only at this; simp [bindS, this]
  | some v =>
    simp only at this
    obtain ⟨s', h1, h2⟩ := this
    exact ⟨s', by simp [bindS, h1, pureS], h2⟩

theorem step_refines (op : Op β) (F : Frame β) (s : Matcher β) (hs : Good F s) :
    match specStep op F with
    | none => step op s = none
    | some r => ∃ s', step op s = some (r.1, s') ∧ Good r.2 s' := by
  cases op with
  | setPredictions l =>
    obtain ⟨rfl, _, _⟩ := hs
    exact ⟨_, rfl, rfl, Or.inl rfl, Or.inl rfl⟩
  | setGroundTruths l =>
    obtain ⟨rfl, _, _⟩ := hs
    exact ⟨_, rfl, rfl, Or.inl rfl, Or.inl rfl⟩
  | setPredictionSubset l =>
    obtain ⟨rfl, h1, h2⟩ := hs
    exact ⟨_, rfl, rfl, h1, h2⟩
  | setGroundTruthSubset l =>
    obtain ⟨rfl, h1, h2⟩ := hs
    exact ⟨_, rfl, rfl, h1, h2⟩
  | iou i j => exact lift_query _ (iouCached_refines F i j) s hs
  | affinity i j => exact lift_query _ (affCached_refines F i j) s hs
  | canMatch i j =>
    have := lift_query Out.bool (canMatch_refines (F := F) i j) s hs
    obtain ⟨rfl, h1, h2⟩ := hs
    exact this
  | matchingWeight i j =>
    have := lift_query Out.weight (matchingWeight_refines (F := F) i j) s hs
    obtain ⟨rfl, h1, h2⟩ := hs
    exact this
  | hungarianMatch =>
    have := lift_query Out.pairs (hungarianMatch_refines (F := F)) s hs
    obtain ⟨rfl, h1, h2⟩ := hs
    exact this
  | scoreFirstMatch o r =>
    have := lift_query Out.pairs (scoreFirstMatch_refines (F := F) o r) s hs
    obtain ⟨rfl, h1, h2⟩ := hs
    exact this

theorem run_refines (ops : List (Op β)) : ∀ (F : Frame β) (s : Matcher β), Good F s →
    match specRun ops F with
    | none => run ops s = none
    | some r => ∃ s', run ops s = some (r.1, s') ∧ Good r.2 s' := by
  induction ops with
  | nil => intro F s hs; exact ⟨s, rfl, hs⟩
  | cons op ops ih =>
    intro F s hs
    have e : run (op :: ops) s = (step op s).bind fun a => (run ops a.2).map fun b => (a.1 :: b.1, b.2) := by
      simp only [run, List.mapM_cons, bindS]
      congr 1
      funext a
      cases (List.mapM step ops a.2) <;> rfl
    rw [e, specRun]
    have h := step_refines op F s hs
    cases hsp : specStep op F with
    | none => rw [hsp] at h; simp only at h; simp [h]
    | some r =>
      rw [hsp] at h
      simp only at h
      obtain ⟨s', h1, h2⟩ := h
      have h3 := ih r.2 s' h2
      simp only [Option.bind_some, h1]
      cases hr : specRun ops r.2 with
      | none => rw [hr] at h3; simp only at h3; simp [h3]
      | some q =>
        rw [hr] at h3
        simp only at h3
        obtain ⟨s'', h4, h5⟩ := h3
        exact ⟨s'', by simp [h4], h5⟩

/-- C12. For every history of setter calls, queries and matchings on a fresh matcher, the outputs (and
whether the process is aborted) are those of the matcher without caches. -/
theorem history_outputs (F : Frame β) (ops : List (Op β)) :
    (run ops { frame := F }).map Prod.fst = (specRun ops F).map Prod.fst := by
  have h := run_refines ops F _ (good_fresh F)
  cases hs : specRun ops F with
  | none => rw [hs] at h; simp only at h; simp [h]
  | some r =>
    rw [hs] at h
    simp only at h
    obtain ⟨s', h1, _⟩ := h
    simp [h1]

/-- C12. After every history that was not aborted, the IoU returned for the pair `(i, j)` is `0` if the
types of the objects now set differ, and else the IoU function of their boxes, whenever that value is
in `[0, 1]` (otherwise the process is aborted). -/
theorem iou_after_history (F : Frame β) (ops : List (Op β)) (outs : List Out) (s : Matcher β)
    (hrun : run ops { frame := F } = some (outs, s)) (ps gs : List (Obj β)) (hp : s.frame.preds = some ps)
    (hg : s.frame.gts = some gs) (i j : Nat) (p g : Obj β) (hi : ps[i]? = some p) (hj : gs[j]? = some g) :
    (iouCached i j s).map Prod.fst =
      let v := if p.type = g.type then (s.frame.customIou.getD s.frame.defaultIou) p.box g.box else 0
      if 0 ≤ v ∧ v ≤ 1 then some v else none := by
  have h := run_refines ops F _ (good_fresh F)
  cases hs : specRun ops F with
  | none => rw [hs] at h; simp only at h; rw [h] at hrun; cases hrun
  | some r =>
    rw [hs] at h
    simp only at h
    obtain ⟨s', h1, h2⟩ := h
    rw [h1] at hrun
    simp only [Option.some.injEq, Prod.mk.injEq] at hrun
    obtain ⟨-, rfl⟩ := hrun
    have hF := h2.1
    have h3 := iouCached_refines r.2 i j s' h2
    have e : plainIou r.2 i j = freshIou (m := Option) r.2 p g := by
      rw [← hF]
      simp [plainIou, fetch, hp, hg, hi, hj]
    have e2 : freshIou (m := Option) r.2 p g =
        let v := if p.type = g.type then (s'.frame.customIou.getD s'.frame.defaultIou) p.box g.box else 0
        if 0 ≤ v ∧ v ≤ 1 then some v else none := by
      rw [hF]
      unfold freshIou
      by_cases ht : p.type = g.type
      · simp only [ht, ne_eq, not_true_eq_false, if_false, if_true]
        cases r.2.customIou <;> rfl
      · simp only [ht, ne_eq, not_false_eq_true, if_true, if_false]; rfl
    rw [← e2, ← e]
    cases ho : plainIou r.2 i j with
    | none => rw [ho] at h3; simp only at h3; simp [h3]
    | some v =>
      rw [ho] at h3
      simp only at h3
      obtain ⟨s'', h4, _⟩ := h3
      simp [h4]

/-- C12. An index that addresses no object, or a query before both vectors are set, aborts. -/
theorem iou_out_of_range (s : Matcher β) (i j : Nat)
    (h : size s.frame.preds ≤ i ∨ size s.frame.gts ≤ j) : iouCached i j s = none := by
  have key : ∀ (l : Option (List (Obj β))) (k : Nat), size l ≤ k → fetch (m := Option) l k = none := by
    intro l k hk
    cases hf : fetch (m := Option) l k with
    | none => rfl
    | some o => have := fetch_some hf; omega
  rw [iouCached]
  simp only [bindS, getS, fetchS, Option.bind_some]
  rcases h with h | h
  · rw [key _ _ h]; rfl
  · rw [key _ _ h]
    cases fetch (m := Option) s.frame.preds i <;> rfl

/-- The limit of C12: `SetCustomIoUComputeFunc` keeps the cache, so a function set after a query is
ignored for the pairs already queried. -/
theorem setCustomIou_after_query_stale :
    let o : Obj Nat := ⟨1, 0, 1⟩
    let s0 : Matcher Nat := { frame := { thresholds := [0, 0], defaultIou := fun _ _ => 1 / 2,
                                         preds := some [o], gts := some [o] } }
    ((iouCached 0 0 s0).bind fun r => (iouCached 0 0 (r.2.setCustomIou fun _ _ => 1)).map Prod.fst) =
      some (1 / 2) := by
  decide +kernel

/-- A history that meets the hypotheses of `iou_after_history`: objects are replaced between queries. -/
example : let o1 : Obj Nat := ⟨1, 3, 1⟩
    let o2 : Obj Nat := ⟨1, 5, 1⟩
    let F : Frame Nat := { thresholds := [0, 1 / 2], defaultIou := fun a b => if a = b then 1 else 1 / 4 }
    ((run [.setPredictions [o1], .setGroundTruths [o1, o2], .iou 0 0, .iou 0 1, .setPredictions [o2],
      .iou 0 0, .iou 0 1] { frame := F }).map Prod.fst) =
      some [.unit, .unit, .number 1, .number (1 / 4), .unit, .number (1 / 4), .number 1] := by
  decide +kernel

end Verif.Matcher
