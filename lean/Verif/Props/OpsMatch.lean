import Verif.Model.OpsMatch
import Verif.Props.Matcher
import Mathlib.Tactic.Linarith

/-!
Property C129: the operation that matches boxes, one batch element.
-/

namespace Verif.OpsMatch

open Verif.Matcher
open Verif.Ops (Box)

/-! ## Specification -/

/-- Specification: the box has a positive extent in every direction that its type uses. -/
def Solid (boxType : ℕ) (b : Box) : Prop :=
  0 < b.length.getD 0 ∧ 0 < b.width.getD 0 ∧ (boxType = 1 → 0 < b.height.getD 0)

/-- Specification: the similarity that the configuration asks for. -/
def iouFn (iouOf : ℕ → Box → Box → ℚ) (c : Config) : Box → Box → ℚ := (c.tolerant.map Prod.fst).getD (iouOf c.boxType)

/-- Specification: the affinity that the configuration asks for, `1` without one. -/
def affFn (c : Config) : Box → Box → ℚ := (c.tolerant.map Prod.snd).getD fun _ _ => 1

/-- Specification: the two boxes may be matched. -/
def Fit (iouOf : ℕ → Box → Box → ℚ) (c : Config) (p g : Box) : Prop :=
  Solid c.boxType p ∧ Solid c.boxType g ∧ c.thresholds.getD 1 0 ≤ iouFn iouOf c p g ∧ (c.tolerant ≠ none → affFn c p g ≠ 0)

/-- Specification: what a match is worth, in millionths. -/
def worth (iouOf : ℕ → Box → Box → ℚ) (c : Config) (p g : Box) : ℤ :=
  roundHalfAway (iouFn iouOf c p g * affFn c p g * 1000000)

/-- Specification: a one-to-one set of pairs of boxes that may be matched, over two families of boxes. -/
structure OneToOne (iouOf : ℕ → Box → Box → ℚ) (c : Config) (pb gb : ℕ → Box) (np ng : ℕ) (A : List (ℕ × ℕ)) : Prop where
  left : (A.map Prod.fst).Nodup
  right : (A.map Prod.snd).Nodup
  fits : ∀ x ∈ A, x.1 < np ∧ x.2 < ng ∧ Fit iouOf c (pb x.1) (gb x.2)

/-- Specification: the total worth of a set of pairs. -/
def value (iouOf : ℕ → Box → Box → ℚ) (c : Config) (pb gb : ℕ → Box) (A : List (ℕ × ℕ)) : ℤ :=
  (A.map fun x => worth iouOf c (pb x.1) (gb x.2)).sum

/-- Hypotheses on the configuration: the Hungarian matcher, five thresholds, a known box type, and similarities in `[0, 1]`. -/
structure Sane (iouOf : ℕ → Box → Box → ℚ) (c : Config) : Prop where
  kind : c.kind = .hungarian
  five : c.thresholds.length = 5
  known : c.boxType = 1 ∨ c.boxType = 2 ∨ c.boxType = 3
  iou01 : ∀ p g, 0 ≤ iouFn iouOf c p g ∧ iouFn iouOf c p g ≤ 1
  aff01 : ∀ p g, 0 ≤ affFn c p g ∧ affFn c p g ≤ 1

/-! ## Valid boxes -/

theorem isValidBox_iff {t : ℕ} (ht : t = 1 ∨ t = 2 ∨ t = 3) (b : Box) :
    ∃ v, isValidBox b t = some v ∧ (v = true ↔ Solid t b) := by
  rcases ht with rfl | rfl | rfl
  · refine ⟨_, rfl, ?_⟩
    simp only [positive, Bool.and_eq_true, decide_eq_true_eq, Solid]
    tauto
  · refine ⟨_, rfl, ?_⟩
    simp only [positive, Bool.and_eq_true, decide_eq_true_eq, Solid]
    constructor
    · rintro ⟨a, b⟩; exact ⟨b, a, fun h => by omega⟩
    · rintro ⟨a, b, _⟩; exact ⟨b, a⟩
  · refine ⟨_, rfl, ?_⟩
    simp only [positive, Bool.and_eq_true, decide_eq_true_eq, Solid]
    constructor
    · rintro ⟨a, b⟩; exact ⟨b, a, fun h => by omega⟩
    · rintro ⟨a, b, _⟩; exact ⟨b, a⟩

theorem validIndex_loop {t : ℕ} (ht : t = 1 ∨ t = 2 ∨ t = 3) : ∀ (l : List (Obj Box)) (k : ℕ) (acc : List ℕ),
    acc.Pairwise (· < ·) → (∀ i ∈ acc, i < k) →
    ∃ r, (l.zipIdx k).foldlM (fun (acc : List ℕ) (x : Obj Box × ℕ) => do
        if ← isValidBox x.1.box t then return acc ++ [x.2] else return acc) acc = some r ∧
      r.Pairwise (· < ·) ∧ ∀ i, i ∈ r ↔ i ∈ acc ∨ (k ≤ i ∧ ∃ o, l[i - k]? = some o ∧ Solid t o.box) := by
  intro l
  induction l with
  | nil => intro k acc h1 _; exact ⟨acc, rfl, h1, by simp⟩
  | cons o l ih =>
    intro k acc h1 h2
    obtain ⟨v, hv, hi⟩ := isValidBox_iff ht o.box
    have hmem : ∀ i, (k ≤ i ∧ ∃ o', (o :: l)[i - k]? = some o' ∧ Solid t o'.box) ↔
        (i = k ∧ Solid t o.box) ∨ (k + 1 ≤ i ∧ ∃ o', l[i - (k + 1)]? = some o' ∧ Solid t o'.box) := by
      intro i
      by_cases hik : k ≤ i
      · obtain ⟨j, rfl⟩ := Nat.exists_eq_add_of_le hik
        cases j with
        | zero => simp
        | succ j =>
          have e1 : k + (j + 1) - k = j + 1 := by omega
          have e2 : k + (j + 1) - (k + 1) = j := by omega
          simp only [e1, e2, List.getElem?_cons_succ]
          constructor
          · rintro ⟨_, h⟩; exact Or.inr ⟨by omega, h⟩
          · rintro (⟨h, _⟩ | ⟨_, h⟩)
            · omega
            · exact ⟨by omega, h⟩
      · constructor
        · rintro ⟨h, _⟩; omega
        · rintro (⟨h, _⟩ | ⟨h, _⟩) <;> omega
    simp only [List.zipIdx_cons, List.foldlM_cons, hv, Option.bind_eq_bind, Option.bind_some, Option.pure_def]
    cases hvv : v with
    | false =>
      have hns : ¬ Solid t o.box := fun h => by rw [hi.mpr h] at hvv; cases hvv
      obtain ⟨r, e, p, m⟩ := ih (k + 1) acc h1 (fun i hi => by have := h2 i hi; omega)
      refine ⟨r, by simpa using e, p, fun i => ?_⟩
      rw [m, hmem]
      simp [hns]
    | true =>
      have hs : Solid t o.box := hi.mp hvv
      obtain ⟨r, e, p, m⟩ := ih (k + 1) (acc ++ [k])
        (List.pairwise_append.mpr ⟨h1, by simp, by simpa using h2⟩)
        (fun i hi => by
          rcases List.mem_append.mp hi with h | h
          · have := h2 i h; omega
          · have := List.mem_singleton.mp h; omega)
      refine ⟨r, by simpa using e, p, fun i => ?_⟩
      rw [m, hmem, List.mem_append, List.mem_singleton]
      simp only [hs, and_true]
      tauto

theorem validIndex_spec {t : ℕ} (ht : t = 1 ∨ t = 2 ∨ t = 3) (l : List (Obj Box)) :
    ∃ r, validIndex t l = some r ∧ r.Pairwise (· < ·) ∧ ∀ i, i ∈ r ↔ ∃ o, l[i]? = some o ∧ Solid t o.box := by
  obtain ⟨r, e, p, m⟩ := validIndex_loop ht l 0 [] (by simp) (by simp)
  exact ⟨r, e, p, fun i => by simpa using m i⟩

/-! ## The frame of the matcher -/

/-- The members of the matcher that `MatchBoxes` sets up. -/
def frameOf (iouOf : ℕ → Box → Box → ℚ) (c : Config) (preds gts : List (Obj Box)) (ps gs : List ℕ) : Frame Box :=
  ⟨c.thresholds, iouOf c.boxType, c.tolerant.map Prod.fst, c.tolerant.map Prod.snd, c.tolerant.isSome, some preds, some gts,
    ps, gs⟩

theorem create_frame {iouOf : ℕ → Box → Box → ℚ} {c : Config} (h5 : c.thresholds.length = 5) (hk : c.kind ≠ .unknown)
    (preds gts : List (Obj Box)) (ps gs : List ℕ) :
    ∃ m, create iouOf c = some m ∧
      (((m.setPredictions preds).setGroundTruths gts).setPredictionSubset ps).setGroundTruthSubset gs =
        { frame := frameOf iouOf c preds gts ps gs } := by
  unfold create
  rw [if_pos h5, if_neg hk]
  cases ht : c.tolerant with
  | none => exact ⟨_, rfl, by simp [frameOf, ht, Matcher.setPredictions, Matcher.setGroundTruths,
      Matcher.setPredictionSubset, Matcher.setGroundTruthSubset]⟩
  | some x => exact ⟨_, rfl, by simp [frameOf, ht, Matcher.setPredictions, Matcher.setGroundTruths,
      Matcher.setPredictionSubset, Matcher.setGroundTruthSubset]⟩

section
variable {iouOf : ℕ → Box → Box → ℚ} {c : Config} {preds gts : List (Obj Box)} {ps gs : List ℕ}

theorem similarity_frame {p g : Obj Box} (hp : p.type = 1) (hg : g.type = 1) :
    similarity (frameOf iouOf c preds gts ps gs) p g = iouFn iouOf c p.box g.box := by
  simp [similarity, hp, hg, frameOf, iouFn]

theorem affinity_frame {p g : Obj Box} (hp : p.type = 1) (hg : g.type = 1) :
    affinity (frameOf iouOf c preds gts ps gs) p g = affFn c p.box g.box := by
  unfold affinity affFn frameOf
  cases c.tolerant <;> simp [hp, hg]

theorem millionths_frame {p g : Obj Box} (hp : p.type = 1) (hg : g.type = 1) :
    millionths (frameOf iouOf c preds gts ps gs) p g = worth iouOf c p.box g.box := by
  unfold millionths benefit worth
  rw [similarity_frame hp hg, affinity_frame hp hg]
  congr 2
  unfold frameOf affFn
  cases c.tolerant <;> simp

theorem eligible_frame {p g : Obj Box} (hp : p.type = 1) (hg : g.type = 1) (sp : Solid c.boxType p.box)
    (sg : Solid c.boxType g.box) :
    Eligible (frameOf iouOf c preds gts ps gs) p g ↔ Fit iouOf c p.box g.box := by
  unfold Eligible Fit
  rw [similarity_frame hp hg, affinity_frame hp hg, hp]
  have h : (frameOf iouOf c preds gts ps gs).letFns = true ↔ c.tolerant ≠ none := by
    simp [frameOf, Option.isSome_iff_ne_none]
  rw [h]
  exact ⟨fun h => ⟨sp, sg, h⟩, fun h => h.2.2⟩

theorem usable_frame (hs : Sane iouOf c) (hp : ∀ o ∈ preds, o.type = 1) (hg : ∀ o ∈ gts, o.type = 1)
    (hps : ∀ i ∈ ps, i < preds.length) (hgs : ∀ i ∈ gs, i < gts.length) :
    Usable (frameOf iouOf c preds gts ps gs) preds gts where
  preds := rfl
  gts := rfl
  psub := fun i hi => by
    have h1 : preds[i]? = some (preds[i]'(hps i hi)) := List.getElem?_eq_getElem (hps i hi)
    have h2 := hp _ (List.mem_of_getElem? h1)
    refine ⟨_, h1, by rw [h2]; decide, ?_⟩
    rw [h2]
    show 1 < c.thresholds.length
    rw [hs.five]; decide
  gsub := hgs
  iou01 := fun p hp' g hg' => by rw [similarity_frame (hp p hp') (hg g hg')]; exact hs.iou01 _ _
  aff01 := fun p hp' g hg' => by rw [affinity_frame (hp p hp') (hg g hg')]; exact hs.aff01 _ _

end

/-! ## Reporting the matches -/

/-- What is reported for the positions `x` in the two lists of valid boxes. -/
def toResult (iouOf : ℕ → Box → Box → ℚ) (c : Config) (pb gb : ℕ → Box) (ps gs : List ℕ) (x : ℕ × ℕ) : MatchResult :=
  let p := ps.getD x.1 0
  let g := gs.getD x.2 0
  ⟨p, g, iouFn iouOf c (pb p) (gb g), affFn c (pb p) (gb g)⟩

/-- The box at a position of a list of objects. -/
def boxIn (l : List (Obj Box)) (i : ℕ) : Box := (l[i]?.map (·.box)).getD {}

theorem boxIn_of {l : List (Obj Box)} {i : ℕ} {o : Obj Box} (h : l[i]? = some o) : boxIn l i = o.box := by
  simp [boxIn, h]

theorem report_loop {iouOf : ℕ → Box → Box → ℚ} {c : Config} {preds gts : List (Obj Box)} {ps gs : List ℕ}
    {F : Frame Box} (hF : F = frameOf iouOf c preds gts ps gs) (hu : Usable F preds gts)
    (hp : ∀ o ∈ preds, o.type = 1) (hg : ∀ o ∈ gts, o.type = 1) :
    ∀ (l : List (Option ℕ × ℕ)) (out : List MatchResult) (s : Matcher Box), Good F s →
      (∀ x ∈ l, ∀ j, x.1 = some j → x.2 < ps.length ∧ j < gs.length) →
      ∃ s', (l.foldlM (reportMatch ps gs) out) s =
        some (out ++ (l.filterMap fun x => x.1.map fun j => (x.2, j)).map
          (toResult iouOf c (boxIn preds) (boxIn gts) ps gs), s') := by
  intro l
  induction l with
  | nil => intro out s _ _; exact ⟨s, by simp [pureS]⟩
  | cons x l ih =>
    obtain ⟨o, i⟩ := x
    intro out s hs hl
    have hl' : ∀ x ∈ l, ∀ j, x.1 = some j → x.2 < ps.length ∧ j < gs.length :=
      fun x hx => hl x (List.mem_cons_of_mem _ hx)
    rw [List.foldlM_cons, bindS]
    cases o with
    | none =>
      obtain ⟨s', e⟩ := ih out s hs hl'
      exact ⟨s', by simpa [reportMatch, pureS] using e⟩
    | some j =>
      obtain ⟨hi, hj⟩ := hl (some j, i) (by simp) j rfl
      have ei : ps[i]? = some (ps[i]'hi) := List.getElem?_eq_getElem hi
      have ej : gs[j]? = some (gs[j]'hj) := List.getElem?_eq_getElem hj
      have mp : ps[i]'hi ∈ F.predSubset := by rw [hF]; exact List.getElem_mem hi
      have mg : gs[j]'hj ∈ F.gtSubset := by rw [hF]; exact List.getElem_mem hj
      obtain ⟨p, hp1, _⟩ := hu.psub _ mp
      have hg1 : gts[gs[j]'hj]? = some (gts[gs[j]'hj]'(hu.gsub _ mg)) := List.getElem?_eq_getElem _
      generalize gts[gs[j]'hj]'(hu.gsub _ mg) = g at hg1
      have tp := hp _ (List.mem_of_getElem? hp1)
      have tg := hg _ (List.mem_of_getElem? hg1)
      have r1 := iouCached_refines F (ps[i]'hi) (gs[j]'hj) s hs
      rw [plainIou_eq hu hp1 hg1] at r1
      obtain ⟨s1, e1, g1⟩ := r1
      have r2 := affCached_refines F (ps[i]'hi) (gs[j]'hj) s1 g1
      rw [plainAff_eq hu hp1 hg1] at r2
      obtain ⟨s2, e2, g2⟩ := r2
      have step : reportMatch ps gs out (some j, i) s =
          some (out ++ [toResult iouOf c (boxIn preds) (boxIn gts) ps gs (i, j)], s2) := by
        simp only [reportMatch, ei, ej, bindS, e1, Option.bind_some, e2, pureS]
        congr 4
        simp only [toResult, List.getD, ei, ej, Option.getD_some, boxIn_of hp1, boxIn_of hg1]
        rw [hF, similarity_frame tp tg, affinity_frame tp tg]
      obtain ⟨s', e⟩ := ih (out ++ [toResult iouOf c (boxIn preds) (boxIn gts) ps gs (i, j)]) s2 g2 hl'
      refine ⟨s', ?_⟩
      rw [step]
      simp only [Option.bind_some]
      rw [e]
      simp

/-! ## One element of the batch -/

theorem pairsOf_fst_increasing (pm : List (Option ℕ)) : ((pairsOf pm).map Prod.fst).Pairwise (· < ·) := by
  have h : ((pairsOf pm).map Prod.fst).Sublist (pm.zipIdx.map Prod.snd) := by
    unfold pairsOf
    generalize pm.zipIdx = l
    induction l with
    | nil => simp
    | cons a l ih =>
      obtain ⟨o, i⟩ := a
      cases o with
      | none => simpa using List.Sublist.cons _ ih
      | some j => simpa using ih
  refine List.Pairwise.sublist h ?_
  rw [List.zipIdx_map_snd]
  exact List.pairwise_lt_range' ..

/-- The pair of a result. -/
def MatchResult.pair (r : MatchResult) : ℕ × ℕ := (r.prediction, r.truth)

/-- What a correct answer for two families of boxes is. -/
structure Answer (iouOf : ℕ → Box → Box → ℚ) (c : Config) (pb gb : ℕ → Box) (np ng : ℕ) (out : List MatchResult) : Prop where
  legal : OneToOne iouOf c pb gb np ng (out.map MatchResult.pair)
  sorted : (out.map MatchResult.prediction).Pairwise (· < ·)
  iou : ∀ r ∈ out, r.iou = iouFn iouOf c (pb r.prediction) (gb r.truth)
  affinity : ∀ r ∈ out, r.affinity = affFn c (pb r.prediction) (gb r.truth)
  best : ∀ A, OneToOne iouOf c pb gb np ng A → value iouOf c pb gb A ≤ value iouOf c pb gb (out.map MatchResult.pair)

theorem matchBoxes_spec {iouOf : ℕ → Box → Box → ℚ} {c : Config} (hs : Sane iouOf c) (preds gts : List (Obj Box))
    (hp : ∀ o ∈ preds, o.type = 1) (hg : ∀ o ∈ gts, o.type = 1) :
    ∃ out, matchBoxes iouOf c preds gts = some out ∧
      Answer iouOf c (boxIn preds) (boxIn gts) preds.length gts.length out := by
  obtain ⟨ps, eps, ordP, memP⟩ := validIndex_spec hs.known preds
  obtain ⟨gs, egs, ordG, memG⟩ := validIndex_spec hs.known gts
  obtain ⟨m, em, ef⟩ := create_frame (iouOf := iouOf) hs.five (by rw [hs.kind]; decide) preds gts ps gs
  have hu : Usable (frameOf iouOf c preds gts ps gs) preds gts := usable_frame hs hp hg
    (fun i hi => by obtain ⟨o, h, _⟩ := (memP i).mp hi; exact lt_of_getElem? h)
    (fun i hi => by obtain ⟨o, h, _⟩ := (memG i).mp hi; exact lt_of_getElem? h)
  generalize hF : frameOf iouOf c preds gts ps gs = F at hu
  rw [hF] at ef
  have hFp : F.predSubset = ps := by rw [← hF]; rfl
  have hFg : F.gtSubset = gs := by rw [← hF]; rfl
  obtain ⟨pm, gm, s1, est, l1, l2, inv, leg, best⟩ := hungarianMatch_optimal { frame := F } ⟨F, [], [], rfl⟩ preds gts hu
  simp only at l1 l2 leg best
  rw [hFp] at l1
  rw [hFg] at l2
  -- the state after the match answers like the frame
  have good : hungarianMatch (cachedPrims Box) F { frame := F } = some ((pm, gm), s1) ∧ Good F s1 := by
    have h := hungarianMatch_refines (F := F) { frame := F } (good_fresh F)
    cases hq : hungarianMatch (plainPrims F) F with
    | none =>
      rw [hq] at h
      simp only [step, bindS, getS, Option.bind_some, h, Option.bind_none] at est
      cases est
    | some v =>
      rw [hq] at h
      obtain ⟨s', e, g⟩ := h
      simp only [step, bindS, getS, Option.bind_some, e, pureS] at est
      simp only [Option.some.injEq, Prod.mk.injEq, Out.pairs.injEq] at est
      obtain ⟨rfl, rfl⟩ := est
      exact ⟨e, g⟩
  obtain ⟨ehm, g1⟩ := good
  have epred : matchPredictions c.kind { frame := F } = some (pm, s1) := by
    rw [hs.kind]
    simp only [matchPredictions, bindS, getS, Option.bind_some, ehm, pureS]
  have inPos : ∀ x ∈ pm.zipIdx, ∀ j, x.1 = some j → x.2 < ps.length ∧ j < gs.length := by
    rintro ⟨o, i⟩ hx j hj
    simp only at hj
    subst hj
    have hi : pm[i]? = some (some j) := List.mem_zipIdx_iff_getElem?.mp hx
    refine ⟨by rw [← l1]; exact lt_of_getElem? hi, ?_⟩
    rw [← l2]
    exact lt_of_getElem? ((inv i j).mp hi)
  obtain ⟨s2, erep⟩ := report_loop hF.symm hu hp hg pm.zipIdx [] s1 g1 inPos
  rw [List.nil_append] at erep
  change _ = some ((pairsOf pm).map (toResult iouOf c (boxIn preds) (boxIn gts) ps gs), s2) at erep
  refine ⟨(pairsOf pm).map (toResult iouOf c (boxIn preds) (boxIn gts) ps gs), ?_, ?_⟩
  · unfold matchBoxes
    simp only [em, eps, egs, Option.bind_eq_bind, Option.bind_some, ef, epred, l1, if_true, erep, Option.pure_def]
  have pos : ∀ x ∈ pairsOf pm, x.1 < ps.length ∧ x.2 < gs.length := by
    rintro ⟨i, j⟩ hx
    rw [mem_pairsOf] at hx
    exact inPos (some j, i) (List.mem_zipIdx_iff_getElem?.mpr hx) j rfl
  have nodP : ps.Nodup := ordP.imp (fun h => Nat.ne_of_lt h)
  have nodG : gs.Nodup := ordG.imp (fun h => Nat.ne_of_lt h)
  -- facts about the pair of objects at two positions
  have at_pos : ∀ x ∈ pairsOf pm, ps.getD x.1 0 < preds.length ∧ gs.getD x.2 0 < gts.length ∧
      Fit iouOf c (boxIn preds (ps.getD x.1 0)) (boxIn gts (gs.getD x.2 0)) := by
    intro x hx
    obtain ⟨p, g, ⟨a, b, a1, b1, a2, b2⟩, el⟩ := leg.2.2 x hx
    rw [hFp] at a1
    rw [hFg] at b1
    have e1 : ps.getD x.1 0 = a := by simp [List.getD, a1]
    have e2 : gs.getD x.2 0 = b := by simp [List.getD, b1]
    rw [e1, e2, boxIn_of a2, boxIn_of b2]
    refine ⟨lt_of_getElem? a2, lt_of_getElem? b2, ?_⟩
    obtain ⟨o1, o2, o3⟩ := (memP a).mp (List.mem_of_getElem? a1)
    obtain ⟨q1, q2, q3⟩ := (memG b).mp (List.mem_of_getElem? b1)
    rw [a2] at o2
    rw [b2] at q2
    cases o2; cases q2
    rw [← hF] at el
    exact (eligible_frame (hp _ (List.mem_of_getElem? a2)) (hg _ (List.mem_of_getElem? b2)) o3 q3).mp el
  have hpair : ((pairsOf pm).map (toResult iouOf c (boxIn preds) (boxIn gts) ps gs)).map MatchResult.pair =
      (pairsOf pm).map fun x => (ps.getD x.1 0, gs.getD x.2 0) := by
    rw [List.map_map]; rfl
  have total_eq : ∀ A : List (ℕ × ℕ), (∀ x ∈ A, x.1 < ps.length ∧ x.2 < gs.length) →
      totalMillionths F preds gts A =
        value iouOf c (boxIn preds) (boxIn gts) (A.map fun x => (ps.getD x.1 0, gs.getD x.2 0)) := by
    intro A hA
    unfold totalMillionths value
    rw [List.map_map]
    congr 1
    refine List.map_congr_left fun x hx => ?_
    obtain ⟨h1, h2⟩ := hA x hx
    have e1 : ps[x.1]? = some (ps[x.1]'h1) := List.getElem?_eq_getElem h1
    have e2 : gs[x.2]? = some (gs[x.2]'h2) := List.getElem?_eq_getElem h2
    obtain ⟨o, ho, _⟩ := (memP _).mp (List.getElem_mem h1)
    obtain ⟨q, hq, _⟩ := (memG _).mp (List.getElem_mem h2)
    simp only [hFp, hFg, e1, e2, ho, hq, Function.comp, List.getD, Option.getD_some, boxIn_of ho, boxIn_of hq]
    rw [← hF]
    exact millionths_frame (hp _ (List.mem_of_getElem? ho)) (hg _ (List.mem_of_getElem? hq))
  refine ⟨⟨?_, ?_, ?_⟩, ?_, ?_, ?_, ?_⟩
  · rw [hpair, List.map_map]
    have : ((pairsOf pm).map (Prod.fst ∘ fun x => (ps.getD x.1 0, gs.getD x.2 0))) =
        ((pairsOf pm).map Prod.fst).map fun i => ps.getD i 0 := by rw [List.map_map]; rfl
    rw [this]
    refine List.Nodup.map_on ?_ leg.1
    intro i hi j hj he
    obtain ⟨x, hx, rfl⟩ := List.mem_map.mp hi
    obtain ⟨y, hy, rfl⟩ := List.mem_map.mp hj
    have h1 := (pos x hx).1
    have h2 := (pos y hy).1
    simp only [List.getD, List.getElem?_eq_getElem h1, List.getElem?_eq_getElem h2, Option.getD_some] at he
    exact (List.Nodup.getElem_inj_iff nodP).mp he
  · rw [hpair, List.map_map]
    have : ((pairsOf pm).map (Prod.snd ∘ fun x => (ps.getD x.1 0, gs.getD x.2 0))) =
        ((pairsOf pm).map Prod.snd).map fun i => gs.getD i 0 := by rw [List.map_map]; rfl
    rw [this]
    refine List.Nodup.map_on ?_ leg.2.1
    intro i hi j hj he
    obtain ⟨x, hx, rfl⟩ := List.mem_map.mp hi
    obtain ⟨y, hy, rfl⟩ := List.mem_map.mp hj
    have h1 := (pos x hx).2
    have h2 := (pos y hy).2
    simp only [List.getD, List.getElem?_eq_getElem h1, List.getElem?_eq_getElem h2, Option.getD_some] at he
    exact (List.Nodup.getElem_inj_iff nodG).mp he
  · rw [hpair]
    intro y hy
    obtain ⟨x, hx, rfl⟩ := List.mem_map.mp hy
    exact at_pos x hx
  · rw [List.map_map]
    have : ((pairsOf pm).map (MatchResult.prediction ∘ toResult iouOf c (boxIn preds) (boxIn gts) ps gs)) =
        ((pairsOf pm).map Prod.fst).map fun i => ps.getD i 0 := by rw [List.map_map]; rfl
    rw [this, List.pairwise_map]
    have hall : ∀ i ∈ (pairsOf pm).map Prod.fst, i < ps.length := by
      intro i hi
      obtain ⟨x, hx, rfl⟩ := List.mem_map.mp hi
      exact (pos x hx).1
    refine List.Pairwise.imp_of_mem ?_ (pairsOf_fst_increasing pm)
    intro i j hi hj hij
    have h1 := hall i hi
    have h2 := hall j hj
    simp only [List.getD, List.getElem?_eq_getElem h1, List.getElem?_eq_getElem h2, Option.getD_some]
    exact List.pairwise_iff_getElem.mp ordP i j h1 h2 hij
  · intro r hr
    obtain ⟨x, hx, rfl⟩ := List.mem_map.mp hr
    rfl
  · intro r hr
    obtain ⟨x, hx, rfl⟩ := List.mem_map.mp hr
    rfl
  · intro A hA
    have memA : ∀ x ∈ A, x.1 ∈ ps ∧ x.2 ∈ gs := by
      intro x hx
      obtain ⟨h1, h2, f1, f2, _⟩ := hA.fits x hx
      have e1 : preds[x.1]? = some (preds[x.1]'h1) := List.getElem?_eq_getElem h1
      have e2 : gts[x.2]? = some (gts[x.2]'h2) := List.getElem?_eq_getElem h2
      rw [boxIn_of e1] at f1
      rw [boxIn_of e2] at f2
      exact ⟨(memP _).mpr ⟨_, e1, f1⟩, (memG _).mpr ⟨_, e2, f2⟩⟩
    have back : ∀ {l : List ℕ} {a : ℕ}, a ∈ l → l.getD (l.idxOf a) 0 = a := by
      intro l a ha
      have h := List.idxOf_lt_length_of_mem ha
      simp [List.getD, List.getElem?_eq_getElem h]
    let A' := A.map fun x => (ps.idxOf x.1, gs.idxOf x.2)
    have hA' : A'.map (fun x => (ps.getD x.1 0, gs.getD x.2 0)) = A := by
      simp only [A', List.map_map]
      conv_rhs => rw [← List.map_id A]
      refine List.map_congr_left fun x hx => ?_
      simp only [Function.comp, id, back (memA x hx).1, back (memA x hx).2]
    have boundsA' : ∀ x ∈ A', x.1 < ps.length ∧ x.2 < gs.length := by
      intro y hy
      obtain ⟨x, hx, rfl⟩ := List.mem_map.mp hy
      exact ⟨List.idxOf_lt_length_of_mem (memA x hx).1, List.idxOf_lt_length_of_mem (memA x hx).2⟩
    have legalA' : LegalMatching F preds gts A' := by
      refine ⟨?_, ?_, ?_⟩
      · refine List.Nodup.of_map (fun i => ps.getD i 0) ?_
        have : (A'.map Prod.fst).map (fun i => ps.getD i 0) = A.map Prod.fst := by
          conv_rhs => rw [← hA']
          simp only [List.map_map]; rfl
        rw [this]; exact hA.left
      · refine List.Nodup.of_map (fun i => gs.getD i 0) ?_
        have : (A'.map Prod.snd).map (fun i => gs.getD i 0) = A.map Prod.snd := by
          conv_rhs => rw [← hA']
          simp only [List.map_map]; rfl
        rw [this]; exact hA.right
      · intro y hy
        obtain ⟨x, hx, rfl⟩ := List.mem_map.mp hy
        obtain ⟨m1, m2⟩ := memA x hx
        obtain ⟨h1, h2, f⟩ := hA.fits x hx
        have e1 : preds[x.1]? = some (preds[x.1]'h1) := List.getElem?_eq_getElem h1
        have e2 : gts[x.2]? = some (gts[x.2]'h2) := List.getElem?_eq_getElem h2
        refine ⟨_, _, ⟨x.1, x.2, ?_, ?_, e1, e2⟩, ?_⟩
        · rw [hFp]; simp [List.getElem?_eq_getElem (List.idxOf_lt_length_of_mem m1)]
        · rw [hFg]; simp [List.getElem?_eq_getElem (List.idxOf_lt_length_of_mem m2)]
        · rw [boxIn_of e1, boxIn_of e2] at f
          rw [← hF]
          exact (eligible_frame (hp _ (List.mem_of_getElem? e1)) (hg _ (List.mem_of_getElem? e2)) f.1 f.2.1).mpr f
    have := best A' legalA'
    rw [total_eq A' boundsA', total_eq _ pos, hA', ← hpair] at this
    exact this

end Verif.OpsMatch
