import Verif.Props.Curve
import Verif.Lemmas.ListM

/-! Exactly which scores the cutoffs of tracking are estimated from (C21). -/

namespace Verif.Curve

/-- Specification: the scores that are read of a scene: of each frame as many as the scene with the number of the frame has frames. -/
def readScores (pds : List (List (List ℚ))) (scene : List (List ℚ)) : List ℚ :=
  (scene.zipIdx.map fun e => e.1.take ((pds[e.2]?).getD []).length).flatten

/-- Specification: nothing is read outside: for every frame there is a scene with its number, which has at most as many frames as the frame has
predictions. -/
def Inside (pds : List (List (List ℚ))) : Prop :=
  ∀ scene ∈ pds, ∀ (f : Nat) (frame : List ℚ), scene[f]? = some frame → ∃ other, pds[f]? = some other ∧ other.length ≤ frame.length

theorem take_of_range (frame : List ℚ) (m : ℕ) (h : m ≤ frame.length) :
    ((List.range m).mapM fun i => frame[i]?) = some (frame.take m) := by
  rw [Breakdown.mapM_some_of (fun i => frame[i]?) (fun i => frame.getD i 0) (List.range m) (by
    intro i hi
    rw [List.mem_range] at hi
    have : i < frame.length := by omega
    simp [this])]
  congr 1
  apply List.ext_getElem
  · simp [h]
  · intro i h1 h2
    have : i < frame.length := by simp at h2; omega
    simp [this]

theorem trackingScores_inside (pds : List (List (List ℚ))) (h : Inside pds) :
    trackingScores pds = some (pds.map (readScores pds)).flatten := by
  have hscene : ∀ scene ∈ pds, (do
      let frames ← scene.zipIdx.mapM fun e : List ℚ × Nat => do
        let other ← pds[e.2]?
        (List.range other.length).mapM fun i => e.1[i]?
      pure frames.flatten) = some (readScores pds scene) := by
    intro scene hs
    have : (scene.zipIdx.mapM fun e : List ℚ × Nat => do
        let other ← pds[e.2]?
        (List.range other.length).mapM fun i => e.1[i]?) =
          some (scene.zipIdx.map fun e => e.1.take ((pds[e.2]?).getD []).length) := by
      apply Breakdown.mapM_some_of
      rintro ⟨frame, f⟩ he
      rw [List.mem_zipIdx_iff_getElem?] at he
      obtain ⟨other, h1, h2⟩ := h scene hs f frame he
      simp only [h1, Option.bind_eq_bind, Option.bind_some, Option.getD_some]
      exact take_of_range frame _ h2
    rw [this]
    rfl
  unfold trackingScores
  rw [Breakdown.mapM_some_of _ (readScores pds) pds hscene]
  rfl

theorem trackingScores_some_iff (pds : List (List (List ℚ))) : (trackingScores pds).isSome ↔ Inside pds := by
  constructor
  · intro h scene hs f frame hf
    obtain ⟨r, hr⟩ := Option.isSome_iff_exists.1 h
    unfold trackingScores at hr
    simp only [Option.bind_eq_bind, Option.bind_eq_some_iff] at hr
    obtain ⟨per, hper, -⟩ := hr
    have hmem : ∀ {α β : Type} {g : α → Option β} {l : List α} {r : List β}, l.mapM g = some r → ∀ a ∈ l, ∃ b, g a = some b := by
      intro α β g l r h a ha
      have h2 := ListM.mapM_forall₂ h
      clear h
      induction h2 with
      | nil => simp at ha
      | cons h1 _ ih =>
        rcases List.mem_cons.1 ha with rfl | ha
        · exact ⟨_, h1⟩
        · exact ih ha
    obtain ⟨b, hb⟩ := hmem hper scene hs
    simp only [Option.bind_eq_some_iff] at hb
    obtain ⟨frames, hfr, -⟩ := hb
    obtain ⟨c, hc⟩ := hmem hfr (frame, f) (List.mem_zipIdx_iff_getElem?.2 hf)
    simp only [Option.bind_eq_some_iff] at hc
    obtain ⟨other, ho, hc⟩ := hc
    refine ⟨other, ho, ?_⟩
    by_contra hlt
    obtain ⟨d, hd⟩ := hmem hc frame.length (List.mem_range.2 (by omega))
    simp at hd
  · intro h
    rw [trackingScores_inside pds h]
    rfl

/-- **Exactly which scores the cutoffs are estimated from** (C21): if nothing is read outside of the vectors, of each frame the first scores, as
many as the scene with the number of the frame has frames; otherwise there is no result. -/
theorem tracking_cutoffs_exact (n : Nat) (hn : 0 < n) (pds : List (List (List ℚ))) (hne : pds ≠ []) :
    (Inside pds → estimateTracking n pds = decideScoreCutoffs ((pds.map (readScores pds)).flatten.insertionSort (· ≤ ·)) n) ∧
      (¬ Inside pds → estimateTracking n pds = none) := by
  unfold estimateTracking
  rw [if_neg (by simpa using hne), if_neg (by omega)]
  constructor
  · intro h
    rw [trackingScores_inside pds h]
    rfl
  · intro h
    have : trackingScores pds = none := by
      rw [← Option.not_isSome_iff_eq_none, trackingScores_some_iff]
      exact h
    rw [this]
    rfl

/-- **Exactly when all scores are read** (C21): every frame has as many predictions as the scene with its number has frames. -/
theorem tracking_scores_all_iff (pds : List (List (List ℚ))) (h : Inside pds) :
    (pds.map (readScores pds)).flatten.length = pds.flatten.flatten.length ↔
      ∀ scene ∈ pds, ∀ (f : Nat) (frame : List ℚ), scene[f]? = some frame → ∃ other, pds[f]? = some other ∧ other.length = frame.length := by
  have sums : ∀ {α : Type} (l : List α) (a b : α → ℕ), (∀ x ∈ l, a x ≤ b x) →
      ((l.map a).sum = (l.map b).sum ↔ ∀ x ∈ l, a x = b x) ∧ (l.map a).sum ≤ (l.map b).sum := by
    intro α l a b
    induction l with
    | nil => simp
    | cons x l ih =>
      intro hab
      obtain ⟨i1, i2⟩ := ih fun y hy => hab y (List.mem_cons_of_mem _ hy)
      have hx := hab x (List.mem_cons_self ..)
      simp only [List.map_cons, List.sum_cons]
      refine ⟨?_, by omega⟩
      rw [List.forall_mem_cons, ← i1]
      omega
  have inner : ∀ scene ∈ pds, (readScores pds scene).length = ((scene.zipIdx.map fun e => min ((pds[e.2]?).getD []).length e.1.length)).sum := by
    intro scene _
    unfold readScores
    rw [List.length_flatten, List.map_map]
    congr 1
    apply List.map_congr_left
    intro e _
    simp
  have outer : ∀ scene : List (List ℚ), scene.flatten.length = (scene.zipIdx.map fun e => e.1.length).sum := by
    intro scene
    rw [List.length_flatten]
    congr 1
    conv_lhs => rw [← List.zipIdx_map_fst 0 scene, List.map_map]
    rfl
  have per := fun (scene : List (List ℚ)) => sums scene.zipIdx (fun e => min ((pds[e.2]?).getD []).length e.1.length) (fun e => e.1.length)
    (fun e _ => min_le_right _ _)
  rw [List.length_flatten, List.map_map, List.flatten_flatten, List.length_flatten, List.map_map]
  rw [(sums pds (List.length ∘ readScores pds) (List.length ∘ List.flatten) (by
    intro scene hs
    simp only [Function.comp]
    rw [inner scene hs, outer]
    exact (per scene).2)).1]
  refine forall_congr' fun scene => forall_congr' fun hs => ?_
  simp only [Function.comp]
  rw [inner scene hs, outer, (per scene).1]
  constructor
  · intro hall f frame hf
    obtain ⟨other, h1, h2⟩ := h scene hs f frame hf
    have := hall (frame, f) (List.mem_zipIdx_iff_getElem?.2 hf)
    rw [h1] at this
    simp only [Option.getD_some] at this
    exact ⟨other, h1, by omega⟩
  · rintro hall ⟨frame, f⟩ he
    rw [List.mem_zipIdx_iff_getElem?] at he
    obtain ⟨other, h1, h2⟩ := hall f frame he
    rw [h1]
    simp only [Option.getD_some]
    omega

/-- One scene of one frame with three predictions: only the first is read. -/
theorem tracking_scores_case : Inside [[[1 / 10, 1 / 2, 9 / 10]]] ∧ readScores [[[1 / 10, 1 / 2, 9 / 10]]] [[1 / 10, 1 / 2, 9 / 10]] = [1 / 10] := by
  constructor
  · intro scene hs f frame hf
    rw [List.mem_singleton] at hs
    subst hs
    rcases f with _ | f
    · simp at hf
      subst hf
      exact ⟨_, rfl, by simp⟩
    · simp at hf
  · rfl

end Verif.Curve
