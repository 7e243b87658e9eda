import Verif.Lemmas.Mot

/-!
Specification vocabulary for tracking evaluation and the proof that one call of `MOT::Eval` meets it.
-/

namespace Verif.Mot

variable {ι : Type} [DecidableEq ι]

/-- The ids of the predictions of the frame, each once. -/
def predIds (x : Input ι) : List ι := (x.predSubset.filterMap fun i => (x.preds[i]?).map Pred.id).dedup

/-- The ids of the ground truths of the frame. -/
def gtIds (x : Input ι) : List ι := x.gtSubset.filterMap fun i => (x.gts[i]?).map Gt.id

/-- The index of the first prediction of the frame with this id. -/
def firstPred (x : Input ι) (p : ι) : Option Nat :=
  x.predSubset.find? fun i => decide ((x.preds[i]?).map Pred.id = some p)

/-- The index of the ground truth of the frame with this id. -/
def firstGt (x : Input ι) (g : ι) : Option Nat :=
  x.gtSubset.find? fun i => decide ((x.gts[i]?).map Gt.id = some g)

/-- Both ids are present in the frame and the matcher allows the pair. -/
def compatible (x : Input ι) (e : ι × ι) : Bool :=
  match firstPred x e.2, firstGt x e.1 with
  | some a, some b => x.canMatch a b == some true
  | _, _ => false

/-- The IoU of the pair. -/
def overlap (x : Input ι) (e : ι × ι) : ℚ :=
  match firstPred x e.2, firstGt x e.1 with
  | some a, some b => (x.iou a b).getD 0
  | _, _ => 0

/-- The prediction with this id overlaps a no-label zone. -/
def predNlz (x : Input ι) (p : ι) : Bool :=
  match (firstPred x p).bind fun i => x.preds[i]? with
  | some o => o.nlz
  | none => false

/-- The difficulty level of the ground truth with this id. -/
def gtLevel (x : Input ι) (g : ι) : Nat :=
  match (firstGt x g).bind fun i => x.gts[i]? with
  | some o => o.level
  | none => 0

/-- The documented requirements on a frame: subsets of existing objects, different ids for different
ground truths, a total `CanMatch` and `IoU` in `[0, 1]`, and a `Match` that returns, for any selection of
the frame's objects, two mutually inverse partial maps of pairs accepted by `CanMatch`. -/
structure Usable (x : Input ι) : Prop where
  pin : ∀ i ∈ x.predSubset, i < x.preds.length
  gin : ∀ i ∈ x.gtSubset, i < x.gts.length
  gtNodup : (gtIds x).Nodup
  can : ∀ a ∈ x.predSubset, ∀ b ∈ x.gtSubset, (x.canMatch a b).isSome
  iou : ∀ a ∈ x.predSubset, ∀ b ∈ x.gtSubset, ∃ v, x.iou a b = some v ∧ 0 ≤ v ∧ v ≤ 1
  doMatch : ∀ ps gs : List Nat, ps ⊆ x.predSubset → gs ⊆ x.gtSubset →
    ∃ pm gm, x.doMatch ps gs = some (pm, gm) ∧ pm.length = ps.length ∧ gm.length = gs.length ∧
      (∀ i j : Nat, pm[i]? = some (some j) ↔ gm[j]? = some (some i)) ∧
      ∀ i j : Nat, pm[i]? = some (some j) →
        ∃ a b, ps[i]? = some a ∧ gs[j]? = some b ∧ x.canMatch a b = some true

/-- `new` is a legal correspondence for the frame given the carried mapping `old`: one-to-one, made of
allowed pairs, keeping every pair of `old` that is still allowed; the other pairs are what the matcher
answers for the objects that remain. -/
structure Correspondence (x : Input ι) (old new : List (ι × ι)) : Prop where
  gtOnce : (new.map Prod.fst).Nodup
  pdOnce : (new.map Prod.snd).Nodup
  legal : ∀ e ∈ new, compatible x e = true
  kept : ∀ e ∈ old, compatible x e = true → e ∈ new
  rest : ∃ (ps gs : List Nat) (pm gm : List (Option Nat)), x.doMatch ps gs = some (pm, gm) ∧
    ps.Perm (((predIds x).filter fun p => !old.any fun e => decide (e.2 = p) && compatible x e).filterMap
      (firstPred x)) ∧
    gs.Perm (((gtIds x).filter fun g => !old.any fun e => decide (e.1 = g) && compatible x e).filterMap
      (firstGt x)) ∧
    (∀ e ∈ new, e ∈ old ∨
      ∃ (i j : Nat), pm[i]? = some (some j) ∧ firstPred x e.2 = ps[i]? ∧ firstGt x e.1 = gs[j]?) ∧
    ∀ i j : Nat, pm[i]? = some (some j) → ∃ e ∈ new, firstPred x e.2 = ps[i]? ∧ firstGt x e.1 = gs[j]?

/-- The mapping carried to the next frame: the new pairs, and the old pairs none of whose ends occurs in
a new pair. -/
def carry (old new : List (ι × ι)) : List (ι × ι) :=
  new ++ old.filter fun e => !decide (e.1 ∈ new.map Prod.fst) && !decide (e.2 ∈ new.map Prod.snd)

/-- Ground truths up to the difficulty level without partner. -/
def missCount (x : Input ι) (level : Nat) (new : List (ι × ι)) : Nat :=
  (gtIds x).countP fun g => !decide (g ∈ new.map Prod.fst) && decide (gtLevel x g ≤ level)

/-- Ground truths that count: with a partner, or up to the difficulty level. -/
def gtCount (x : Input ι) (level : Nat) (new : List (ι × ι)) : Nat :=
  (gtIds x).countP fun g => decide (g ∈ new.map Prod.fst) || decide (gtLevel x g ≤ level)

/-- Predictions without partner outside no-label zones. -/
def fpCount (x : Input ι) (new : List (ι × ι)) : Nat :=
  (predIds x).countP fun p => !decide (p ∈ new.map Prod.snd) && !predNlz x p

/-- Ground truths whose partner is not the carried one. -/
def switchCount (old new : List (ι × ι)) : Nat :=
  new.countP fun e => old.any fun o => decide (o.1 = e.1) && !decide (o.2 = e.2)

/-- Pairs whose prediction was carried by a ground truth that is absent from the frame. -/
def takeoverCount (x : Input ι) (old new : List (ι × ι)) : Nat :=
  new.countP fun e => old.any fun o => decide (o.2 = e.2) && !decide (o.1 ∈ gtIds x)

/-- The two maps of the state are inverse to each other. -/
structure Inv (s : State ι) : Prop where
  gtPd : (keys s.gtPd).Nodup
  pdGt : (keys s.pdGt).Nodup
  inverse : ∀ g p, (g, p) ∈ s.gtPd ↔ (p, g) ∈ s.pdGt

theorem Inv.snd_nodup {s : State ι} (h : Inv s) : (s.gtPd.map Prod.snd).Nodup := by
  apply List.Nodup.map_on _ (List.Nodup.of_map _ h.gtPd)
  intro a ha b hb hab
  have h1 := (h.inverse a.1 a.2).mp ha
  have h2 := (h.inverse b.1 b.2).mp hb
  rw [hab] at h1
  have e1 := (get?_eq_some h.pdGt).mpr h1
  have e2 := (get?_eq_some h.pdGt).mpr h2
  rw [e1] at e2
  exact Prod.ext (Option.some.inj e2) hab

section Lists

theorem exists_pred_lists (x : Input ι) : ∀ E : List (ι × Nat),
    (∀ e ∈ E, ∃ i o, x.predSubset[e.2]? = some i ∧ x.preds[i]? = some o ∧ o.id = e.1 ∧
      firstPred x e.1 = some i) →
    ∃ (ps : List Nat) (P : List (Pred ι)), E.mapM (fun e => x.predSubset[e.2]?) = some ps ∧
      ps.map (fun i => x.preds[i]?) = P.map some ∧ P.map Pred.id = keys E ∧
      ps.map some = (keys E).map (firstPred x) ∧ ps ⊆ x.predSubset := by
  intro E
  induction E with
  | nil => intro _; exact ⟨[], [], by simp, rfl, rfl, rfl, by simp⟩
  | cons e E ih =>
    intro h
    obtain ⟨ps, P, h1, h2, h3, h4, h5⟩ := ih fun e he => h e (by simp [he])
    obtain ⟨i, o, a1, a2, a3, a4⟩ := h e (by simp)
    refine ⟨i :: ps, o :: P, ?_, by simp [h2, a2], by simp [h3, a3, keys], ?_, ?_⟩
    · simp [List.mapM_cons, a1, h1]
    · simp only [keys, List.map_cons, a4] at h4 ⊢; rw [h4]
    · intro k hk
      rcases List.mem_cons.mp hk with rfl | hk
      · exact List.mem_of_getElem? a1
      · exact h5 hk

theorem exists_gt_lists (x : Input ι) : ∀ E : List (ι × Nat),
    (∀ e ∈ E, ∃ i o, x.gtSubset[e.2]? = some i ∧ x.gts[i]? = some o ∧ o.id = e.1 ∧
      firstGt x e.1 = some i) →
    ∃ (ps : List Nat) (P : List (Gt ι)), E.mapM (fun e => x.gtSubset[e.2]?) = some ps ∧
      ps.map (fun i => x.gts[i]?) = P.map some ∧ P.map Gt.id = keys E ∧
      ps.map some = (keys E).map (firstGt x) ∧ ps ⊆ x.gtSubset := by
  intro E
  induction E with
  | nil => intro _; exact ⟨[], [], by simp, rfl, rfl, rfl, by simp⟩
  | cons e E ih =>
    intro h
    obtain ⟨ps, P, h1, h2, h3, h4, h5⟩ := ih fun e he => h e (by simp [he])
    obtain ⟨i, o, a1, a2, a3, a4⟩ := h e (by simp)
    refine ⟨i :: ps, o :: P, ?_, by simp [h2, a2], by simp [h3, a3, keys], ?_, ?_⟩
    · simp [List.mapM_cons, a1, h1]
    · simp only [keys, List.map_cons, a4] at h4 ⊢; rw [h4]
    · intro k hk
      rcases List.mem_cons.mp hk with rfl | hk
      · exact List.mem_of_getElem? a1
      · exact h5 hk

theorem firstPred_spec {x : Input ι} {p : ι} {i : Nat} (h : firstPred x p = some i) :
    i ∈ x.predSubset ∧ ∃ o, x.preds[i]? = some o ∧ o.id = p := by
  have h1 := List.mem_of_find?_eq_some h
  have h2 := List.find?_some h
  simp only [decide_eq_true_eq, Option.map_eq_some_iff] at h2
  exact ⟨h1, h2⟩

theorem firstGt_spec {x : Input ι} {p : ι} {i : Nat} (h : firstGt x p = some i) :
    i ∈ x.gtSubset ∧ ∃ o, x.gts[i]? = some o ∧ o.id = p := by
  have h1 := List.mem_of_find?_eq_some h
  have h2 := List.find?_some h
  simp only [decide_eq_true_eq, Option.map_eq_some_iff] at h2
  exact ⟨h1, h2⟩

theorem firstPred_isSome {x : Input ι} {p : ι} : (firstPred x p).isSome ↔ p ∈ predIds x := by
  unfold firstPred predIds
  rw [List.find?_isSome]
  simp

theorem firstGt_isSome {x : Input ι} {g : ι} : (firstGt x g).isSome ↔ g ∈ gtIds x := by
  unfold firstGt gtIds
  rw [List.find?_isSome]
  simp

end Lists

/-- Which entries of the matching remain unmatched, by id. -/
theorem pm_none_iff {P : List (Pred ι)} {G : List (Gt ι)} {pm : List (Option Nat)}
    (hpm : pm.length = P.length) (hP : (P.map Pred.id).Nodup) (hj : ∀ i j : Nat, pm[i]? = some (some j) → j < G.length)
    {i : Nat} (hi : i < pm.length) :
    pm[i].isNone = !decide (P[i].id ∈ (pm.zipIdx.filterMap (pairOf P G)).map Prod.snd) := by
  cases hm : pm[i] with
  | some j =>
    have hm' : pm[i]? = some (some j) := by rw [List.getElem?_eq_getElem hi, hm]
    have hjG := hj i j hm'
    simp only [Option.isNone_some]
    symm
    rw [Bool.not_eq_false', decide_eq_true_eq, List.mem_map]
    refine ⟨(G[j].id, P[i].id), ?_, rfl⟩
    rw [List.mem_filterMap]
    refine ⟨(some j, i), List.mem_zipIdx_iff_getElem?.mpr hm', ?_⟩
    simp [pairOf, List.getElem?_eq_getElem hjG, List.getElem?_eq_getElem (hpm ▸ hi : i < P.length)]
  | none =>
    simp only [Option.isNone_none]
    symm
    rw [Bool.not_eq_true', decide_eq_false_iff_not, List.mem_map]
    rintro ⟨⟨a, b⟩, hab, hb⟩
    rw [List.mem_filterMap] at hab
    obtain ⟨⟨m, k⟩, hk, hpair⟩ := hab
    have hk' := List.mem_zipIdx_iff_getElem?.mp hk
    simp only at hk' hb
    unfold pairOf at hpair
    cases m with
    | none => simp at hpair
    | some j =>
      simp only at hpair
      cases hG : G[j]? with
      | none => simp [hG] at hpair
      | some g =>
        cases hPk : P[k]? with
        | none => simp [hG, hPk] at hpair
        | some p =>
          simp only [hG, hPk, Option.some.injEq, Prod.mk.injEq] at hpair
          obtain ⟨hk2, hpk⟩ := List.getElem?_eq_some_iff.mp hPk
          have : k = i := by
            refine (List.Nodup.getElem_inj_iff hP (hi := by simpa using hk2)
              (hj := by simpa using (hpm ▸ hi : i < P.length))).mp ?_
            simp only [List.getElem_map]
            rw [hpk, hpair.2, hb]
          subst this
          rw [List.getElem?_eq_getElem hi, hm] at hk'
          cases hk'

theorem gm_none_iff {P : List (Pred ι)} {G : List (Gt ι)} {pm gm : List (Option Nat)}
    (hpm : pm.length = P.length) (hgm : gm.length = G.length) (hG : (G.map Gt.id).Nodup)
    (hinv : ∀ i j : Nat, pm[i]? = some (some j) ↔ gm[j]? = some (some i))
    {j : Nat} (hj : j < gm.length) :
    gm[j].isNone = !decide (G[j].id ∈ (pm.zipIdx.filterMap (pairOf P G)).map Prod.fst) := by
  cases hm : gm[j] with
  | some i =>
    have hm' : gm[j]? = some (some i) := by rw [List.getElem?_eq_getElem hj, hm]
    have hm2 := (hinv i j).mpr hm'
    obtain ⟨hi, -⟩ := List.getElem?_eq_some_iff.mp hm2
    simp only [Option.isNone_some]
    symm
    rw [Bool.not_eq_false', decide_eq_true_eq, List.mem_map]
    refine ⟨(G[j].id, P[i].id), ?_, rfl⟩
    rw [List.mem_filterMap]
    refine ⟨(some j, i), List.mem_zipIdx_iff_getElem?.mpr hm2, ?_⟩
    simp [pairOf, List.getElem?_eq_getElem (hgm ▸ hj : j < G.length), List.getElem?_eq_getElem (hpm ▸ hi : i < P.length)]
  | none =>
    simp only [Option.isNone_none]
    symm
    rw [Bool.not_eq_true', decide_eq_false_iff_not, List.mem_map]
    rintro ⟨⟨a, b⟩, hab, ha⟩
    rw [List.mem_filterMap] at hab
    obtain ⟨⟨m, k⟩, hk, hpair⟩ := hab
    have hk' := List.mem_zipIdx_iff_getElem?.mp hk
    simp only at hk' ha
    unfold pairOf at hpair
    cases m with
    | none => simp at hpair
    | some j' =>
      simp only at hpair
      cases hGj : G[j']? with
      | none => simp [hGj] at hpair
      | some g =>
        cases hPk : P[k]? with
        | none => simp [hGj, hPk] at hpair
        | some p =>
          simp only [hGj, hPk, Option.some.injEq, Prod.mk.injEq] at hpair
          obtain ⟨hk2, hgk⟩ := List.getElem?_eq_some_iff.mp hGj
          have : j' = j := by
            refine (List.Nodup.getElem_inj_iff hG (hi := by simpa using hk2)
              (hj := by simpa using (hgm ▸ hj : j < G.length))).mp ?_
            simp only [List.getElem_map]
            rw [hgk, hpair.1, ha]
          subst this
          rw [hinv, List.getElem?_eq_getElem hj, hm] at hk'
          cases hk'

theorem nodup_filterMap_on {α β : Type} {f : α → Option β} : ∀ {l : List α}, l.Nodup →
    (∀ a ∈ l, ∀ a' ∈ l, ∀ b, f a = some b → f a' = some b → a = a') → (l.filterMap f).Nodup := by
  intro l
  induction l with
  | nil => intro _ _; simp
  | cons a l ih =>
    intro hn h
    rw [List.nodup_cons] at hn
    have := ih hn.2 fun a ha a' ha' => h a (by simp [ha]) a' (by simp [ha'])
    rw [List.filterMap_cons]
    cases hf : f a with
    | none => exact this
    | some b =>
      simp only [List.nodup_cons]
      refine ⟨?_, this⟩
      rw [List.mem_filterMap]
      rintro ⟨a', ha', hb⟩
      obtain rfl := h a (by simp) a' (by simp [ha']) b hf hb
      exact hn.1 ha'

theorem pairOf_eq_some {P : List (Pred ι)} {G : List (Gt ι)} {m : Option Nat} {i : Nat} {e : ι × ι}
    (h : pairOf P G (m, i) = some e) :
    ∃ j g p, m = some j ∧ G[j]? = some g ∧ P[i]? = some p ∧ g.id = e.1 ∧ p.id = e.2 := by
  unfold pairOf at h
  cases m with
  | none => simp at h
  | some j =>
    simp only at h
    cases hG : G[j]? with
    | none => simp [hG] at h
    | some g =>
      cases hP : P[i]? with
      | none => simp [hG, hP] at h
      | some p =>
        simp only [hG, hP, Option.some.injEq] at h
        subst h
        exact ⟨j, g, p, rfl, hG, rfl, rfl, rfl⟩

theorem zipIdx_nodup {α : Type} (l : List α) : l.zipIdx.Nodup := by
  apply List.Nodup.of_map Prod.snd
  rw [List.zipIdx_map_snd]
  exact List.nodup_range' ..

theorem id_inj {α : Type} {f : α → ι} {l : List α} (hl : (l.map f).Nodup) {i j : Nat} {a b : α}
    (hi : l[i]? = some a) (hj : l[j]? = some b) (h : f a = f b) : i = j := by
  obtain ⟨hi1, hi2⟩ := List.getElem?_eq_some_iff.mp hi
  obtain ⟨hj1, hj2⟩ := List.getElem?_eq_some_iff.mp hj
  refine (List.Nodup.getElem_inj_iff hl (hi := by simpa using hi1) (hj := by simpa using hj1)).mp ?_
  simp only [List.getElem_map, hi2, hj2, h]

/-- What `MOT::Match` returns. -/
theorem matchRest_spec (h : HashOrder) {x : Input ι} (hx : Usable x) {pd gt : List (ι × Nat)}
    (hpd : (keys pd).Nodup) (hgt : (keys gt).Nodup)
    (hE : ∀ e ∈ pd, ∃ i o, x.predSubset[e.2]? = some i ∧ x.preds[i]? = some o ∧ o.id = e.1 ∧
      firstPred x e.1 = some i)
    (hF : ∀ e ∈ gt, ∃ i o, x.gtSubset[e.2]? = some i ∧ x.gts[i]? = some o ∧ o.id = e.1 ∧
      firstGt x e.1 = some i) (level : Nat) (cost : ℚ) :
    ∃ (r : MatchResult ι) (ps gs : List Nat) (pm gm : List (Option Nat)),
      matchRest h x level pd gt cost = some (r, ps, gs) ∧ x.doMatch ps gs = some (pm, gm) ∧
      ps.map some = (keys (h.order pd)).map (firstPred x) ∧
      gs.map some = (keys (h.order gt)).map (firstGt x) ∧
      ps.map (fun i => (x.preds[i]?).map Pred.id) = (keys (h.order pd)).map some ∧
      gs.map (fun i => (x.gts[i]?).map Gt.id) = (keys (h.order gt)).map some ∧
      (keys r.pairs).Nodup ∧ (r.pairs.map Prod.snd).Nodup ∧
      (∀ e ∈ r.pairs, e.2 ∈ keys pd ∧ e.1 ∈ keys gt ∧ compatible x e = true ∧
        ∃ i j : Nat, pm[i]? = some (some j) ∧ firstPred x e.2 = ps[i]? ∧ firstGt x e.1 = gs[j]?) ∧
      (∀ i j : Nat, pm[i]? = some (some j) →
        ∃ e ∈ r.pairs, firstPred x e.2 = ps[i]? ∧ firstGt x e.1 = gs[j]?) ∧
      r.cost = cost + (r.pairs.map fun e => 1 - overlap x e).sum ∧
      r.fps = ((keys pd).countP fun p => !decide (p ∈ r.pairs.map Prod.snd) && !predNlz x p : Nat) ∧
      r.fns = ((keys gt).countP fun g => !decide (g ∈ keys r.pairs) && decide (gtLevel x g ≤ level) : Nat) ∧
      r.above = ((keys gt).countP fun g => !decide (g ∈ keys r.pairs) && !decide (gtLevel x g ≤ level) : Nat) := by
  have permP := h.perm pd
  have permG := h.perm gt
  obtain ⟨ps, P, p1, p2, p3, p4, p5⟩ := exists_pred_lists x (h.order pd)
    fun e he => hE e (permP.mem_iff.mp he)
  obtain ⟨gs, G, g1, g2, g3, g4, g5⟩ := exists_gt_lists x (h.order gt)
    fun e he => hF e (permG.mem_iff.mp he)
  obtain ⟨pm, gm, m1, m2, m3, m4, m5⟩ := hx.doMatch ps gs p5 g5
  have keysP : (keys (h.order pd)).Perm (keys pd) := permP.map _
  have keysG : (keys (h.order gt)).Perm (keys gt) := permG.map _
  have nP : (P.map Pred.id).Nodup := by rw [p3]; exact keysP.nodup_iff.mpr hpd
  have nG : (G.map Gt.id).Nodup := by rw [g3]; exact keysG.nodup_iff.mpr hgt
  have lP : ps.length = P.length := by simpa using congrArg List.length p2
  have lG : gs.length = G.length := by simpa using congrArg List.length g2
  have atP : ∀ (i : Nat) (p : Pred ι), P[i]? = some p → ∃ a, ps[i]? = some a ∧ x.preds[a]? = some p ∧
      firstPred x p.id = some a ∧ p.id ∈ keys pd := by
    intro i p hp
    obtain ⟨hi, he⟩ := List.getElem?_eq_some_iff.mp hp
    have e1 := congrArg (fun l => l[i]?) p2
    have e2 := congrArg (fun l => l[i]?) p4
    rw [← p3] at e2
    simp only [List.getElem?_map, hp, Option.map_some, List.getElem?_eq_getElem (lP ▸ hi : i < ps.length),
      Option.some.injEq] at e1 e2
    refine ⟨ps[i]'(lP ▸ hi), List.getElem?_eq_getElem _, e1, e2.symm, ?_⟩
    rw [← keysP.mem_iff, ← p3]
    exact List.mem_map.mpr ⟨p, List.mem_of_getElem? hp, rfl⟩
  have atG : ∀ (i : Nat) (p : Gt ι), G[i]? = some p → ∃ a, gs[i]? = some a ∧ x.gts[a]? = some p ∧
      firstGt x p.id = some a ∧ p.id ∈ keys gt := by
    intro i p hp
    obtain ⟨hi, he⟩ := List.getElem?_eq_some_iff.mp hp
    have e1 := congrArg (fun l => l[i]?) g2
    have e2 := congrArg (fun l => l[i]?) g4
    rw [← g3] at e2
    simp only [List.getElem?_map, hp, Option.map_some, List.getElem?_eq_getElem (lG ▸ hi : i < gs.length),
      Option.some.injEq] at e1 e2
    refine ⟨gs[i]'(lG ▸ hi), List.getElem?_eq_getElem _, e1, e2.symm, ?_⟩
    rw [← keysG.mem_iff, ← g3]
    exact List.mem_map.mpr ⟨p, List.mem_of_getElem? hp, rfl⟩
  have hI : ∀ (i j : Nat) (p : Pred ι) (g : Gt ι), P[i]? = some p → G[j]? = some g →
      ∀ pi gi, ps[i]? = some pi → gs[j]? = some gi → x.iou pi gi = some (overlap x (g.id, p.id)) := by
    intro i j p g hp hg pi gi hpi hgi
    obtain ⟨a, a1, a2, a3, -⟩ := atP i p hp
    obtain ⟨b, b1, b2, b3, -⟩ := atG j g hg
    rw [hpi] at a1; rw [hgi] at b1
    obtain rfl := Option.some.inj a1
    obtain rfl := Option.some.inj b1
    obtain ⟨v, hv, -⟩ := hx.iou pi (p5 (List.mem_of_getElem? hpi)) gi (g5 (List.mem_of_getElem? hgi))
    simp [overlap, a3, b3, hv]
  have bound : ∀ e ∈ pm.zipIdx, e.2 < P.length ∧ ∀ j, e.1 = some j → j < G.length := by
    intro e he
    have he' := List.mem_zipIdx_iff_getElem?.mp he
    obtain ⟨hi, -⟩ := List.getElem?_eq_some_iff.mp he'
    refine ⟨by omega, ?_⟩
    intro j hj
    rw [hj] at he'
    obtain ⟨hj2, -⟩ := List.getElem?_eq_some_iff.mp ((m4 _ _).mp he')
    omega
  set res := pm.zipIdx.filterMap (pairOf P G) with hres
  have memres : ∀ e ∈ res, ∃ (i j : Nat) (g : Gt ι) (p : Pred ι), pm[i]? = some (some j) ∧ G[j]? = some g ∧
      P[i]? = some p ∧ g.id = e.1 ∧ p.id = e.2 := by
    intro e he
    rw [hres, List.mem_filterMap] at he
    obtain ⟨⟨m, i⟩, hmi, hp⟩ := he
    obtain ⟨j, g, p, rfl, h2, h3, h4, h5⟩ := pairOf_eq_some hp
    exact ⟨i, j, g, p, List.mem_zipIdx_iff_getElem?.mp hmi, h2, h3, h4, h5⟩
  have nres1 : (keys res).Nodup := by
    rw [keys, hres, List.map_filterMap]
    apply nodup_filterMap_on (zipIdx_nodup pm)
    rintro ⟨m, i⟩ h1 ⟨m', i'⟩ h2 b e1 e2
    simp only [Option.map_eq_some_iff] at e1 e2
    obtain ⟨e, he, rfl⟩ := e1
    obtain ⟨e', he', hee⟩ := e2
    obtain ⟨j, g, p, rfl, a2, a3, a4, a5⟩ := pairOf_eq_some he
    obtain ⟨j', g', p', rfl, b2, b3, b4, b5⟩ := pairOf_eq_some he'
    have hj : j = j' := id_inj nG a2 b2 (by rw [a4, b4, hee])
    subst hj
    have k1 := (m4 _ _).mp (List.mem_zipIdx_iff_getElem?.mp h1)
    have k2 := (m4 _ _).mp (List.mem_zipIdx_iff_getElem?.mp h2)
    simp only at k1 k2
    rw [k1] at k2
    simp only [Option.some.injEq] at k2
    rw [k2]
  have nres2 : (res.map Prod.snd).Nodup := by
    rw [hres, List.map_filterMap]
    apply nodup_filterMap_on (zipIdx_nodup pm)
    rintro ⟨m, i⟩ h1 ⟨m', i'⟩ h2 b e1 e2
    simp only [Option.map_eq_some_iff] at e1 e2
    obtain ⟨e, he, rfl⟩ := e1
    obtain ⟨e', he', hee⟩ := e2
    obtain ⟨j, g, p, rfl, a2, a3, a4, a5⟩ := pairOf_eq_some he
    obtain ⟨j', g', p', rfl, b2, b3, b4, b5⟩ := pairOf_eq_some he'
    have hi : i = i' := id_inj nP a3 b3 (by rw [a5, b5, hee])
    subst hi
    have k1 := List.mem_zipIdx_iff_getElem?.mp h1
    have k2 := List.mem_zipIdx_iff_getElem?.mp h2
    simp only at k1 k2
    rw [k1] at k2
    simp only [Option.some.injEq] at k2
    rw [k2]
  have f1 := matchPd_fold x p2 g2 (overlap x) hI pm.zipIdx { cost := cost } bound (by simpa using nres1)
  simp only [List.nil_append, ← hres] at f1
  have f2 := matchGt_fold x level g2 gm.zipIdx
    ⟨0 + (pm.zipIdx.countP fun e => e.1.isNone && !nlzAt P e.2 : Nat), 0, 0, res,
      cost + (res.map fun e => 1 - overlap x e).sum⟩ (fun e he => by
      obtain ⟨hi, -⟩ := List.getElem?_eq_some_iff.mp (List.mem_zipIdx_iff_getElem?.mp he)
      omega)
  refine ⟨⟨0 + (pm.zipIdx.countP fun e => e.1.isNone && !nlzAt P e.2 : Nat),
    0 + (gm.zipIdx.countP fun e => e.1.isNone && levelAt G level e.2 : Nat),
    0 + (gm.zipIdx.countP fun e => e.1.isNone && !levelAt G level e.2 : Nat), res,
      cost + (res.map fun e => 1 - overlap x e).sum⟩, ps, gs, pm, gm, ?_, m1, p4, g4, ?_, ?_, nres1, nres2, ?_,
    ?_, rfl, ?_, ?_, ?_⟩
  · unfold matchRest
    simp only [p1, g1, m1, f1, f2, Option.bind_eq_bind, Option.bind_some]
    rw [if_pos nres2]
  · have := congrArg (List.map (Option.map Pred.id)) p2
    rw [List.map_map, List.map_map] at this
    rw [← p3, List.map_map]
    exact this
  · have := congrArg (List.map (Option.map Gt.id)) g2
    rw [List.map_map, List.map_map] at this
    rw [← g3, List.map_map]
    exact this
  · intro e he
    obtain ⟨i, j, g, p, a1, a2, a3, a4, a5⟩ := memres e he
    obtain ⟨a, c1, c2, c3, c4⟩ := atP i p a3
    obtain ⟨b, d1, d2, d3, d4⟩ := atG j g a2
    rw [a5] at c3 c4
    rw [a4] at d3 d4
    refine ⟨c4, d4, ?_, i, j, a1, by rw [c3, c1], by rw [d3, d1]⟩
    obtain ⟨a', b', e1, e2, e3⟩ := m5 i j a1
    rw [c1] at e1; rw [d1] at e2
    obtain rfl := Option.some.inj e1
    obtain rfl := Option.some.inj e2
    simp [compatible, c3, d3, e3]
  · intro i j hij
    obtain ⟨hi, hj⟩ := bound (some j, i) (List.mem_zipIdx_iff_getElem?.mpr hij)
    have hj := hj j rfl
    simp only at hi
    have hP := List.getElem?_eq_getElem hi
    have hG := List.getElem?_eq_getElem hj
    obtain ⟨a, c1, c2, c3, c4⟩ := atP i _ hP
    obtain ⟨b, d1, d2, d3, d4⟩ := atG j _ hG
    refine ⟨(G[j].id, P[i].id), ?_, by rw [c3, c1], by rw [d3, d1]⟩
    rw [hres, List.mem_filterMap]
    exact ⟨(some j, i), List.mem_zipIdx_iff_getElem?.mpr hij, by simp [pairOf, hP, hG]⟩
  · simp only [zero_add, Nat.cast_inj]
    rw [← keysP.countP_eq, ← p3, List.countP_map]
    apply countP_of_map_eq
    apply List.ext_getElem (by simp; omega)
    intro i h1 h2
    simp only [List.length_map, List.length_zipIdx] at h1 h2
    simp only [List.getElem_map, List.getElem_zipIdx, Function.comp, Nat.zero_add]
    rw [pm_none_iff (G := G) (by omega) nP (fun i j hij => (bound (some j, i) (List.mem_zipIdx_iff_getElem?.mpr hij)).2 j rfl) h1]
    congr 2
    obtain ⟨a, c1, c2, c3, c4⟩ := atP i P[i] (List.getElem?_eq_getElem h2)
    simp [nlzAt, predNlz, c3, c2, List.getElem?_eq_getElem h2]
  · simp only [zero_add, Nat.cast_inj]
    rw [← keysG.countP_eq, ← g3, List.countP_map]
    apply countP_of_map_eq
    apply List.ext_getElem (by simp; omega)
    intro i h1 h2
    simp only [List.length_map, List.length_zipIdx] at h1 h2
    simp only [List.getElem_map, List.getElem_zipIdx, Function.comp, Nat.zero_add]
    rw [gm_none_iff (P := P) (G := G) (by omega) (by omega) nG m4 h1]
    congr 1
    obtain ⟨a, c1, c2, c3, c4⟩ := atG i G[i] (List.getElem?_eq_getElem h2)
    simp [levelAt, gtLevel, c3, c2, List.getElem?_eq_getElem h2]
  · simp only [zero_add, Nat.cast_inj]
    rw [← keysG.countP_eq, ← g3, List.countP_map]
    apply countP_of_map_eq
    apply List.ext_getElem (by simp; omega)
    intro i h1 h2
    simp only [List.length_map, List.length_zipIdx] at h1 h2
    simp only [List.getElem_map, List.getElem_zipIdx, Function.comp, Nat.zero_add]
    rw [gm_none_iff (P := P) (G := G) (by omega) (by omega) nG m4 h1]
    congr 2
    obtain ⟨a, c1, c2, c3, c4⟩ := atG i G[i] (List.getElem?_eq_getElem h2)
    simp [levelAt, gtLevel, c3, c2, List.getElem?_eq_getElem h2]

end Verif.Mot
