import Verif.Props.OpsMatchUse

/-!
Properties C130 and C131: which matchers the operation can run, and that an element of the batch is matched on its own,
whatever the padding.
-/

namespace Verif.OpsMatch

open Verif.Matcher
open Verif.Ops (Box)

/-! ## Elements of the batch -/

/-- Specification: element `e` of a tensor of shape `[b, n, d]`, as a batch of one. -/
def element (n d e : ℕ) (t : Tensor) : Tensor := ⟨[1, n, d], fun k => t.data (e * n * d + k)⟩

/-- Specification: the results of the elements, with the indices counted through the whole batch. -/
def offsets (n m : ℕ) (all : List (List MatchResult)) : List MatchResult :=
  all.zipIdx.flatMap fun (x : List MatchResult × ℕ) =>
    x.1.map fun (r : MatchResult) => ⟨r.prediction + x.2 * n, r.truth + x.2 * m, r.iou, r.affinity⟩

theorem matchOp_elements {iouOf : ℕ → Box → Box → ℚ} {c : Config} {b n m d : ℕ} {pred gt : Tensor}
    (hsh : Shaped c b n m d pred gt) :
    matchOp iouOf c pred gt =
      ((List.range b).mapM fun e => matchBoxes iouOf c (objects d pred.data n e) (objects d gt.data m e)).map (offsets n m) := by
  obtain ⟨sp, sg, htab⟩ := hsh
  have hd : d = 4 ∨ d = 5 ∨ d = 7 := by omega
  have hfit : dimensionFits c.boxType d = true := by
    simp only [dimensionFits, Bool.or_eq_true, Bool.and_eq_true, beq_iff_eq]
    tauto
  unfold matchOp
  rw [sp, sg]
  simp only [hfit, and_self, if_true, parse_spec hd, Option.bind_eq_bind, Option.bind_some, zip_map_range]
  rw [List.mapM_map]
  rw [show ((fun x : List (Obj Box) × List (Obj Box) => matchBoxes iouOf c x.1 x.2) ∘
      fun i => (objects d pred.data n i, objects d gt.data m i)) =
    fun e => matchBoxes iouOf c (objects d pred.data n e) (objects d gt.data m e) from rfl]
  cases (List.range b).mapM fun e => matchBoxes iouOf c (objects d pred.data n e) (objects d gt.data m e) with
  | none => rfl
  | some all => rfl

theorem objects_element (d n e : ℕ) (t : Tensor) : objects d (element n d e t).data n 0 = objects d t.data n e := by
  unfold objects
  refine List.map_congr_left fun i _ => ?_
  have : ∀ k, (element n d e t).data ((0 * n + i) * d + k) = t.data ((e * n + i) * d + k) := by
    intro k
    simp only [element]
    congr 1
    ring
  simp only [flatBox, this]

/-- C131. The result of a batch is the results of its elements, one after the other. -/
theorem batch_elements {iouOf : ℕ → Box → Box → ℚ} {c : Config} {b n m d : ℕ} {pred gt : Tensor}
    (hsh : Shaped c b n m d pred gt) :
    matchOp iouOf c pred gt =
      ((List.range b).mapM fun e => matchOp iouOf c (element n d e pred) (element m d e gt)).map (offsets n m) := by
  rw [matchOp_elements hsh]
  congr 1
  congr 1
  funext e
  have h1 : Shaped c 1 n m d (element n d e pred) (element m d e gt) := ⟨rfl, rfl, hsh.2.2⟩
  rw [matchOp_elements h1]
  rw [show List.range 1 = [0] from rfl]
  simp only [List.mapM_cons, List.mapM_nil, objects_element]
  cases matchBoxes iouOf c (objects d pred.data n e) (objects d gt.data m e) with
  | none => rfl
  | some o => simp [offsets]

/-! ## Types of matcher -/

theorem mapM_fails {α γ : Type} (f : α → Option γ) (l : List α) (a : α) (ha : a ∈ l) (h : f a = none) : l.mapM f = none := by
  induction l with
  | nil => cases ha
  | cons x l ih =>
    rw [List.mapM_cons]
    rcases List.mem_cons.mp ha with rfl | h'
    · rw [h]; rfl
    · rw [ih h']
      cases f x <;> rfl

/-- C130. With the matcher that takes predictions in the order of their scores, the operation aborts for every non-empty
batch, even one without boxes. -/
theorem score_first_aborts {iouOf : ℕ → Box → Box → ℚ} {c : Config} (hk : c.kind = .scoreFirst) {b n m d : ℕ}
    {pred gt : Tensor} (hsh : Shaped c b n m d pred gt) (hb : 0 < b) : matchOp iouOf c pred gt = none := by
  rw [matchOp_elements hsh, mapM_fails _ _ 0 (List.mem_range.mpr hb), Option.map_none]
  unfold matchBoxes
  cases create iouOf c with
  | none => rfl
  | some mm =>
    cases validIndex c.boxType (objects d pred.data n 0) with
    | none => rfl
    | some ps =>
      cases validIndex c.boxType (objects d gt.data m 0) with
      | none => rfl
      | some gs =>
        simp only [Option.bind_eq_bind, Option.bind_some, hk, matchPredictions, bindS, getS]
        rfl

/-- C130, what holds: with the Hungarian matcher the operation succeeds on every batch of every shape that it accepts.
Missing: the other matchers, see `kinds_violated`. -/
theorem kinds_partial {iouOf : ℕ → Box → Box → ℚ} {c : Config} (hs : Sane iouOf c) {b n m d : ℕ} {pred gt : Tensor}
    (hsh : Shaped c b n m d pred gt) : (matchOp iouOf c pred gt).isSome := by
  obtain ⟨out, h, _⟩ := matchOp_spec hs hsh
  rw [h]; rfl

/-- C130 is false: `match` in Python offers the type of matcher as an argument, but for every shape, threshold and similarity
the type that takes predictions in the order of their scores aborts, where the Hungarian type succeeds. -/
theorem kinds_violated (iouOf : ℕ → Box → Box → ℚ) (h01 : ∀ t p g, 0 ≤ iouOf t p g ∧ iouOf t p g ≤ 1) (iou : ℚ) (pred gt : Tensor)
    (n m : ℕ) (hp : pred.shape = [n, 7]) (hg : gt.shape = [m, 7]) :
    pyMatch iouOf pred gt iou 1 .scoreFirst none = none ∧ (pyMatch iouOf pred gt iou 1 .hungarian none).isSome := by
  have sh : ∀ k, Shaped (pyConfig iou 1 k none) 1 n m 7 (batched pred) (batched gt) := by
    intro k
    exact ⟨by simp [batched, hp], by simp [batched, hg], Or.inr (Or.inr ⟨rfl, rfl⟩)⟩
  have e : ∀ k, pyMatch iouOf pred gt iou 1 k none = matchOp iouOf (pyConfig iou 1 k none) (batched pred) (batched gt) := by
    intro k
    unfold pyMatch
    simp only [(sh k).1, (sh k).2.1, and_self, if_true]
  rw [e, e]
  refine ⟨score_first_aborts rfl (sh _) (by decide), kinds_partial ?_ (sh _)⟩
  exact { kind := rfl, five := rfl, known := Or.inl rfl, iou01 := fun p g => h01 1 p g, aff01 := fun p g => by simp [affFn, pyConfig] }

/-! ## Rank two -/

/-- C131. In Python, tensors of rank two are a batch of one. -/
theorem python_rank_two {iouOf : ℕ → Box → Box → ℚ} {iou : ℚ} {t : ℕ} {k : Kind}
    {tol : Option ((Box → Box → ℚ) × (Box → Box → ℚ))} {pred gt : Tensor} {n m d : ℕ} (hp : pred.shape = [n, d])
    (hg : gt.shape = [m, d]) :
    pyMatch iouOf pred gt iou t k tol = matchOp iouOf (pyConfig iou t k tol) ⟨[1, n, d], pred.data⟩ ⟨[1, m, d], gt.data⟩ := by
  simp [pyMatch, batched, hp, hg]

/-- C131. In Python, tensors of rank three go to the operation as they are. -/
theorem python_rank_three {iouOf : ℕ → Box → Box → ℚ} {iou : ℚ} {t : ℕ} {k : Kind}
    {tol : Option ((Box → Box → ℚ) × (Box → Box → ℚ))} {pred gt : Tensor} {b n m d : ℕ} (hp : pred.shape = [b, n, d])
    (hg : gt.shape = [b, m, d]) :
    pyMatch iouOf pred gt iou t k tol = matchOp iouOf (pyConfig iou t k tol) pred gt := by
  simp [pyMatch, batched, hp, hg]

/-! ## Padding -/

theorem foldlM_agree {α δ : Type} {f g : δ → α → Option δ} : ∀ (l : List α) (a : δ), (∀ b, ∀ x ∈ l, f b x = g b x) →
    l.foldlM f a = l.foldlM g a := by
  intro l
  induction l with
  | nil => intro a _; rfl
  | cons x l ih =>
    intro a h
    rw [List.foldlM_cons, List.foldlM_cons, h a x (by simp)]
    cases g a x with
    | none => rfl
    | some v => exact ih v fun b y hy => h b y (List.mem_cons_of_mem _ hy)

theorem mapM_agree {α γ : Type} {f g : α → Option γ} : ∀ l : List α, (∀ x ∈ l, f x = g x) → l.mapM f = l.mapM g := by
  intro l
  induction l with
  | nil => intro _; rfl
  | cons x l ih =>
    intro h
    rw [List.mapM_cons, List.mapM_cons, h x (by simp), ih fun y hy => h y (List.mem_cons_of_mem _ hy)]

theorem hungarianMatch_agree {F G : Frame Box} (hp : F.predSubset = G.predSubset) (hg : F.gtSubset = G.gtSubset)
    (hc : ∀ p ∈ F.predSubset, ∀ g ∈ F.gtSubset, canMatch (plainPrims F) F p g = canMatch (plainPrims G) G p g)
    (hw : ∀ p ∈ F.predSubset, ∀ g ∈ F.gtSubset, matchingWeight (plainPrims F) F p g = matchingWeight (plainPrims G) G p g) :
    hungarianMatch (plainPrims F) F = hungarianMatch (plainPrims G) G := by
  unfold hungarianMatch
  rw [← hp, ← hg]
  simp only
  have he : (F.predSubset.mapM fun p => F.gtSubset.mapM fun g => edgeOf (plainPrims F) F p g) =
      F.predSubset.mapM fun p => F.gtSubset.mapM fun g => edgeOf (plainPrims G) G p g := by
    refine mapM_agree _ fun p hp' => mapM_agree _ fun g hg' => ?_
    unfold edgeOf
    rw [hc p hp' g hg', hw p hp' g hg']
  rw [he]
  split_ifs with h0
  · rfl
  congr 1
  funext rows
  cases Hungarian.hungarian _ _ _ with
  | none => rfl
  | some x =>
    obtain ⟨perm, lx, ly⟩ := x
    refine foldlM_agree _ _ ?_
    rintro r ⟨⟨p, j⟩, i⟩ hx
    have hpm : p ∈ F.predSubset := by
      have h1 : (p, j) ∈ F.predSubset.zip perm := by
        rw [List.mem_zipIdx_iff_getElem?] at hx
        exact List.mem_of_getElem? hx
      exact (List.of_mem_zip h1).1
    unfold readBack
    simp only
    split_ifs with hj
    · cases hgj : F.gtSubset[j]? with
      | none => rfl
      | some g =>
        simp only
        rw [hc p hpm g (List.mem_of_getElem? hgj)]
    · rfl

theorem boxIn_append {l pad : List (Obj Box)} {i : ℕ} (h : i < l.length) : boxIn (l ++ pad) i = boxIn l i := by
  simp [boxIn, List.getElem?_append_left h]

/-- The run of `MatchBoxes` with the Hungarian matcher, from the answers of a matcher without caches. -/
theorem matchBoxes_eq {iouOf : ℕ → Box → Box → ℚ} {c : Config} (hs : Sane iouOf c) {preds gts : List (Obj Box)}
    (hp : ∀ o ∈ preds, o.type = 1) (hg : ∀ o ∈ gts, o.type = 1) {ps gs : List ℕ}
    (eps : validIndex c.boxType preds = some ps) (egs : validIndex c.boxType gts = some gs) :
    ∃ pm gm, hungarianMatch (plainPrims (frameOf iouOf c preds gts ps gs)) (frameOf iouOf c preds gts ps gs) = some (pm, gm) ∧
      matchBoxes iouOf c preds gts =
        some ((pairsOf pm).map (toResult iouOf c (boxIn preds) (boxIn gts) ps gs)) ∧
      (∀ x ∈ pairsOf pm, x.1 < ps.length ∧ x.2 < gs.length) := by
  obtain ⟨ps', eps', _, memP⟩ := validIndex_spec hs.known preds
  obtain ⟨gs', egs', _, memG⟩ := validIndex_spec hs.known gts
  rw [eps] at eps'
  rw [egs] at egs'
  cases eps'; cases egs'
  obtain ⟨m, em, ef⟩ := create_frame (iouOf := iouOf) hs.five (by rw [hs.kind]; decide) preds gts ps gs
  have hu : Usable (frameOf iouOf c preds gts ps gs) preds gts := usable_frame hs hp hg
    (fun i hi => by obtain ⟨o, h, _⟩ := (memP i).mp hi; exact lt_of_getElem? h)
    (fun i hi => by obtain ⟨o, h, _⟩ := (memG i).mp hi; exact lt_of_getElem? h)
  generalize hF : frameOf iouOf c preds gts ps gs = F at hu ⊢
  rw [hF] at ef
  have hFp : F.predSubset = ps := by rw [← hF]; rfl
  have hFg : F.gtSubset = gs := by rw [← hF]; rfl
  obtain ⟨pm, gm, s1, est, l1, l2, inv, _, _⟩ := hungarianMatch_optimal { frame := F } ⟨F, [], [], rfl⟩ preds gts hu
  simp only at l1 l2
  rw [hFp] at l1
  rw [hFg] at l2
  have good : hungarianMatch (plainPrims F) F = some (pm, gm) ∧
      hungarianMatch (cachedPrims Box) F { frame := F } = some ((pm, gm), s1) ∧ Good F s1 := by
    have h := hungarianMatch_refines (F := F) { frame := F } (good_fresh F)
    cases hq : hungarianMatch (plainPrims F) F with
    | none =>
      rw [hq] at h
      simp only [step, bindS, getS, Option.bind_some, h, Option.bind_none] at est
      cases est
    | some v =>
      rw [hq] at h
      obtain ⟨s', e, g⟩ := h
      simp only [step, bindS, getS, Option.bind_some, e, pureS] at est
      simp only [Option.some.injEq, Prod.mk.injEq, Out.pairs.injEq] at est
      obtain ⟨rfl, rfl⟩ := est
      exact ⟨rfl, e, g⟩
  obtain ⟨epl, ehm, g1⟩ := good
  have epred : matchPredictions c.kind { frame := F } = some (pm, s1) := by
    rw [hs.kind]
    simp only [matchPredictions, bindS, getS, Option.bind_some, ehm, pureS]
  have inPos : ∀ x ∈ pm.zipIdx, ∀ j, x.1 = some j → x.2 < ps.length ∧ j < gs.length := by
    rintro ⟨o, i⟩ hx j hj
    simp only at hj
    subst hj
    have hi : pm[i]? = some (some j) := List.mem_zipIdx_iff_getElem?.mp hx
    refine ⟨by rw [← l1]; exact lt_of_getElem? hi, ?_⟩
    rw [← l2]
    exact lt_of_getElem? ((inv i j).mp hi)
  obtain ⟨s2, erep⟩ := report_loop hF.symm hu hp hg pm.zipIdx [] s1 g1 inPos
  rw [List.nil_append] at erep
  change _ = some ((pairsOf pm).map (toResult iouOf c (boxIn preds) (boxIn gts) ps gs), s2) at erep
  refine ⟨pm, gm, epl, ?_, ?_⟩
  · unfold matchBoxes
    simp only [em, eps, egs, Option.bind_eq_bind, Option.bind_some, ef, epred, l1, if_true, erep, Option.pure_def]
  · rintro ⟨i, j⟩ hx
    rw [mem_pairsOf] at hx
    exact inPos (some j, i) (List.mem_zipIdx_iff_getElem?.mpr hx) j rfl

theorem validIndex_append {t : ℕ} (ht : t = 1 ∨ t = 2 ∨ t = 3) {l pad : List (Obj Box)}
    (hpad : ∀ o ∈ pad, ¬ Solid t o.box) : validIndex t (l ++ pad) = validIndex t l := by
  have h : ∀ (pad : List (Obj Box)) (k : ℕ) (acc : List ℕ), (∀ o ∈ pad, ¬ Solid t o.box) →
      (pad.zipIdx k).foldlM (fun (acc : List ℕ) (x : Obj Box × ℕ) => do
        if ← isValidBox x.1.box t then return acc ++ [x.2] else return acc) acc = some acc := by
    intro pad
    induction pad with
    | nil => intro k acc _; rfl
    | cons o pad ih =>
      intro k acc hp
      obtain ⟨v, hv, hi⟩ := isValidBox_iff ht o.box
      have : v = false := by
        cases v with
        | false => rfl
        | true => exact absurd (hi.mp rfl) (hp o (by simp))
      rw [List.zipIdx_cons, List.foldlM_cons]
      simp only [hv, this, Option.bind_eq_bind, Option.bind_some, Option.pure_def]
      exact ih (k + 1) acc fun o' ho' => hp o' (List.mem_cons_of_mem _ ho')
  unfold validIndex
  rw [List.zipIdx_append, List.foldlM_append]
  cases (l.zipIdx.foldlM (fun (acc : List ℕ) (x : Obj Box × ℕ) => do
        if ← isValidBox x.1.box t then return acc ++ [x.2] else return acc) [] : Option (List ℕ)) with
  | none => rfl
  | some acc => exact h pad _ acc hpad

/-- Boxes without extent at the end of either list change nothing. -/
theorem matchBoxes_pad {iouOf : ℕ → Box → Box → ℚ} {c : Config} (hs : Sane iouOf c) {preds gts pp pg : List (Obj Box)}
    (hp : ∀ o ∈ preds ++ pp, o.type = 1) (hg : ∀ o ∈ gts ++ pg, o.type = 1)
    (np : ∀ o ∈ pp, ¬ Solid c.boxType o.box) (ng : ∀ o ∈ pg, ¬ Solid c.boxType o.box) :
    matchBoxes iouOf c (preds ++ pp) (gts ++ pg) = matchBoxes iouOf c preds gts := by
  obtain ⟨ps, eps, _, memP⟩ := validIndex_spec hs.known preds
  obtain ⟨gs, egs, _, memG⟩ := validIndex_spec hs.known gts
  have hp' : ∀ o ∈ preds, o.type = 1 := fun o ho => hp o (List.mem_append_left _ ho)
  have hg' : ∀ o ∈ gts, o.type = 1 := fun o ho => hg o (List.mem_append_left _ ho)
  have lp : ∀ i ∈ ps, i < preds.length := fun i hi => by obtain ⟨o, h, _⟩ := (memP i).mp hi; exact lt_of_getElem? h
  have lg : ∀ i ∈ gs, i < gts.length := fun i hi => by obtain ⟨o, h, _⟩ := (memG i).mp hi; exact lt_of_getElem? h
  obtain ⟨pm, gm, h1, e1, in1⟩ := matchBoxes_eq hs hp' hg' eps egs
  obtain ⟨pm', gm', h2, e2, _⟩ := matchBoxes_eq hs hp hg ((validIndex_append hs.known np).trans eps)
    ((validIndex_append hs.known ng).trans egs)
  have hu : Usable (frameOf iouOf c preds gts ps gs) preds gts := usable_frame hs hp' hg' lp lg
  have hu' : Usable (frameOf iouOf c (preds ++ pp) (gts ++ pg) ps gs) (preds ++ pp) (gts ++ pg) :=
    usable_frame hs hp hg (fun i hi => by have := lp i hi; simp; omega) (fun i hi => by have := lg i hi; simp; omega)
  have ge : ∀ {a b : ℕ}, a < preds.length → b < gts.length →
      (preds ++ pp)[a]? = preds[a]? ∧ (gts ++ pg)[b]? = gts[b]? := by
    intro a b ha hb
    exact ⟨List.getElem?_append_left ha, List.getElem?_append_left hb⟩
  have hsame := hungarianMatch_agree (F := frameOf iouOf c (preds ++ pp) (gts ++ pg) ps gs)
    (G := frameOf iouOf c preds gts ps gs) rfl rfl
    (by
      intro p hpm g hgm
      rw [canMatch_eq hu' hpm hgm, canMatch_eq hu hpm hgm]
      obtain ⟨g1, g2⟩ := ge (lp p hpm) (lg g hgm)
      simp only [canIdx, g1, g2]
      rfl)
    (by
      intro p hpm g hgm
      have a := lp p hpm
      have b := lg g hgm
      rw [matchingWeight_eq hu' (by simp; omega) (by simp; omega), matchingWeight_eq hu a b]
      obtain ⟨g1, g2⟩ := ge a b
      simp only [wIdx, g1, g2]
      rfl)
  rw [hsame, h1] at h2
  cases h2
  rw [e1, e2]
  congr 1
  refine List.map_congr_left fun x hx => ?_
  obtain ⟨b1, b2⟩ := in1 x hx
  have m1 : ps.getD x.1 0 ∈ ps := by simp [List.getD, List.getElem?_eq_getElem b1]
  have m2 : gs.getD x.2 0 ∈ gs := by simp [List.getD, List.getElem?_eq_getElem b2]
  simp only [toResult, boxIn_append (lp _ m1), boxIn_append (lg _ m2)]

/-- Specification: the second tensor has the boxes of the first, and boxes of zeros at the end of every element. -/
def Padded (b n n' d : ℕ) (t t' : Tensor) : Prop :=
  n ≤ n' ∧ ∀ e < b, (∀ i < n, ∀ k < d, t'.data ((e * n' + i) * d + k) = t.data ((e * n + i) * d + k)) ∧
    ∀ i, n ≤ i → i < n' → ∀ k < d, t'.data ((e * n' + i) * d + k) = 0

theorem flatBox_congr {d : ℕ} (hd : d = 4 ∨ d = 5 ∨ d = 7) {x y : ℕ → ℚ} {k l : ℕ}
    (h : ∀ i < d, x (k * d + i) = y (l * d + i)) : flatBox d x k = flatBox d y l := by
  rcases hd with rfl | rfl | rfl
  · simp [flatBox, h 0 (by decide), h 1 (by decide), h 2 (by decide), h 3 (by decide),
      show x (k * 4) = y (l * 4) from by simpa using h 0 (by decide)]
  · simp [flatBox, h 1 (by decide), h 2 (by decide), h 3 (by decide), h 4 (by decide),
      show x (k * 5) = y (l * 5) from by simpa using h 0 (by decide)]
  · simp [flatBox, h 1 (by decide), h 2 (by decide), h 3 (by decide), h 4 (by decide), h 5 (by decide), h 6 (by decide),
      show x (k * 7) = y (l * 7) from by simpa using h 0 (by decide)]

theorem flat_zero {c : Config} {d : ℕ} (hd : d = 4 ∨ d = 5 ∨ d = 7) {x : ℕ → ℚ} {k : ℕ}
    (h : ∀ i < d, x (k * d + i) = 0) : ¬ Solid c.boxType (flatBox d x k) := by
  intro hsol
  have h1 := hsol.1
  rcases hd with rfl | rfl | rfl
  · simp [flatBox, h 2 (by omega)] at h1
  · simp [flatBox, h 2 (by omega)] at h1
  · simp [flatBox, h 3 (by omega)] at h1

theorem objects_padded {c : Config} {b n n' d : ℕ} (hd : d = 4 ∨ d = 5 ∨ d = 7) {t t' : Tensor} (h : Padded b n n' d t t')
    {e : ℕ} (he : e < b) : ∃ pad, objects d t'.data n' e = objects d t.data n e ++ pad ∧
      ∀ o ∈ pad, ¬ Solid c.boxType o.box := by
  refine ⟨(objects d t'.data n' e).drop n, ?_, ?_⟩
  · rw [← List.take_append_drop n (objects d t'.data n' e)]
    congr 1
    · unfold objects
      rw [← List.map_take, List.take_range, Nat.min_eq_left h.1]
      refine List.map_congr_left fun i hi => ?_
      rw [flatBox_congr hd ((h.2 e he).1 i (List.mem_range.mp hi))]
    · simp
  · intro o ho
    obtain ⟨i, hi, rfl⟩ := List.mem_iff_getElem.mp ho
    simp only [List.getElem_drop, objects, List.getElem_map, List.getElem_range]
    have hlen : n + i < n' := by simp [objects] at hi; omega
    exact flat_zero hd ((h.2 e he).2 (n + i) (by omega) hlen)

/-- C131. Padding the elements of either tensor with boxes of zeros changes nothing but the numbering: there are results of
the elements from which both answers are counted. -/
theorem padding_invariant {iouOf : ℕ → Box → Box → ℚ} {c : Config} (hs : Sane iouOf c) {b n m n' m' d : ℕ}
    {pred gt pred' gt' : Tensor} (h : Shaped c b n m d pred gt) (h' : Shaped c b n' m' d pred' gt')
    (hp : Padded b n n' d pred pred') (hg : Padded b m m' d gt gt') :
    ∃ all, matchOp iouOf c pred gt = some (offsets n m all) ∧ matchOp iouOf c pred' gt' = some (offsets n' m' all) ∧
      all.length = b ∧ ∀ l ∈ all, ∀ r ∈ l, r.prediction < n ∧ r.truth < m := by
  have hd : d = 4 ∨ d = 5 ∨ d = 7 := by have := h.2.2; omega
  have hex : ∀ e, ∃ out, matchBoxes iouOf c (objects d pred.data n e) (objects d gt.data m e) = some out ∧
      Answer iouOf c (boxIn (objects d pred.data n e)) (boxIn (objects d gt.data m e)) n m out := by
    intro e
    have := matchBoxes_spec hs (objects d pred.data n e) (objects d gt.data m e) (objects_type _ _ _ _) (objects_type _ _ _ _)
    rwa [objects_length, objects_length] at this
  choose o ho ans using hex
  have same : ∀ e < b, matchBoxes iouOf c (objects d pred'.data n' e) (objects d gt'.data m' e) = some (o e) := by
    intro e he
    obtain ⟨pp, e1, s1⟩ := objects_padded (c := c) hd hp he
    obtain ⟨pg, e2, s2⟩ := objects_padded (c := c) hd hg he
    have t1 := objects_type d pred'.data n' e
    have t2 := objects_type d gt'.data m' e
    rw [e1] at t1 ⊢
    rw [e2] at t2 ⊢
    rw [matchBoxes_pad hs t1 t2 s1 s2, ho]
  refine ⟨(List.range b).map o, ?_, ?_, by simp, ?_⟩
  · rw [matchOp_elements h, mapM_range _ o b (fun e _ => ho e)]; rfl
  · rw [matchOp_elements h', mapM_range _ o b same]; rfl
  · intro l hl r hr
    obtain ⟨e, _, rfl⟩ := List.mem_map.mp hl
    obtain ⟨h1, h2, _⟩ := (ans e).legal.fits r.pair (List.mem_map_of_mem hr)
    exact ⟨h1, h2⟩

/-! ## A concrete case -/

/-- A similarity for the example: one if the first coordinates agree, three fifths if they differ by less than one. -/
def demoIou (_ : ℕ) (p g : Box) : ℚ :=
  let x := |p.cx.getD 0 - g.cx.getD 0|
  if x = 0 then 1 else if x < 1 then 3 / 5 else 0

/-- Two elements with three predictions each; the last prediction of the second is padding. -/
def demoPred : Tensor := ⟨[2, 3, 4], fun k => ([0, 0, 1, 1,  1/2, 0, 1, 1,  9, 0, 1, 1,   5, 0, 1, 1,  7, 0, 1, 1,  0, 0, 0, 0].getD k 0)⟩

/-- Two elements with two ground truths each. -/
def demoGt : Tensor := ⟨[2, 2, 4], fun k => ([1/2, 0, 1, 1,  1, 0, 1, 1,   7, 0, 1, 1,  0, 0, 0, 0].getD k 0)⟩

theorem demo_sane : Sane demoIou (pyConfig (1 / 2) 3 .hungarian none) where
  kind := rfl
  five := rfl
  known := Or.inr (Or.inr rfl)
  iou01 := fun p g => by
    simp only [iouFn, pyConfig, Option.map_none, Option.getD_none, demoIou]
    split_ifs <;> norm_num
  aff01 := fun p g => by simp [affFn, pyConfig]

theorem demo_shaped : Shaped (pyConfig (1 / 2) 3 .hungarian none) 2 3 2 4 demoPred demoGt := ⟨rfl, rfl, Or.inl ⟨rfl, rfl⟩⟩

/-- Prediction 0 overlaps ground truth 0, and prediction 1 coincides with it and overlaps ground truth 1: the two overlaps
together are worth more than the coincidence.  The prediction of the second element that has a partner is number four. -/
theorem demo_match : matchOp demoIou (pyConfig (1 / 2) 3 .hungarian none) demoPred demoGt =
    some [⟨0, 0, 3 / 5, 1⟩, ⟨1, 1, 3 / 5, 1⟩, ⟨4, 2, 1, 1⟩] := by
  decide +kernel

/-- The limit of C129: with a threshold of zero, boxes that do not overlap are reported as matched. -/
theorem zero_threshold_matches_apart :
    matchOp demoIou (pyConfig 0 3 .hungarian none) ⟨[1, 1, 4], fun k => ([0, 0, 1, 1].getD k 0)⟩
      ⟨[1, 1, 4], fun k => ([50, 0, 1, 1].getD k 0)⟩ = some [⟨0, 0, 0, 1⟩] := by
  decide +kernel

end Verif.OpsMatch
