import Verif.Props.OpsState

/-!
Concrete cases of C116 to C119, the histories of an evaluator, and what fails.
-/

namespace Verif.Ops

open Verif.Breakdown Verif.Measure Verif.Detection Verif.Curve

instance : DecidableEq (ℚ × ℚ × ℤ × ℤ × ℤ) := inferInstance
instance : DecidableEq (List (List (ℚ × ℚ × ℤ × ℤ × ℤ))) := inferInstance

/-! ### A concrete configuration -/

/-- A matcher that pairs predictions and ground truths in their order. -/
def demoEnv : Env Nat where
  core o := o.type
  iou _ _ _ _ := some 1
  aff _ _ _ _ := some 1
  ha _ _ _ _ := 3 / 4
  doMatch _ _ ps gs := some ((List.range ps.length).map fun i => if i < gs.length then some i else none,
    (List.range gs.length).map fun i => if i < ps.length then some i else none)

/-- One breakdown without shards, two levels, and given cutoffs. -/
def demoOp (cutoffs : List ℚ) : OpConfig Nat where
  base := { generators := [(1, ⟨1, fun _ => some 0, fun _ => some [0], false⟩)], levels := [[1, 2]], cutoffs := cutoffs }
  desired := 2
  delta := 1 / 20

theorem demo_usable {cutoffs : List ℚ} (hc : cutoffs ≠ []) (f : List Obj × List Obj) :
    FrameUsable (demoOp cutoffs).base (demoEnv.frame f) where
  levels := rfl
  cutoffs := hc
  preds := by
    simp only [demoOp, List.mem_singleton]
    rintro g rfl p -
    exact ⟨[0], rfl, by decide, by decide⟩
  gts := by
    simp only [demoOp, List.mem_singleton]
    rintro g rfl p -
    exact ⟨[0], rfl, by decide, by decide⟩
  shards := by
    simp only [demoOp, List.mem_singleton]
    rintro g rfl p -
    exact ⟨_, rfl⟩
  iou := fun a b _ _ => ⟨_, rfl⟩
  aff := fun a b _ _ => ⟨_, rfl⟩
  doMatch := by
    intro ps gs _ _
    refine ⟨_, _, rfl, by simp, by simp, ?_⟩
    have key : ∀ (m n i j : Nat), ((List.range m).map fun i => if i < n then some i else none)[i]? = some (some j) ↔
        i < m ∧ i < n ∧ i = j := by
      intro m n i j
      rw [List.getElem?_map]
      by_cases hi : i < m
      · rw [List.getElem?_range hi]
        by_cases hn : i < n
        · simp [hi, hn]
        · simp [hi, hn]
      · rw [List.getElem?_eq_none (by simpa using hi)]
        simp [hi]
    intro i j
    rw [key, key]
    constructor
    · rintro ⟨h1, h2, rfl⟩; exact ⟨h2, h1, rfl⟩
    · rintro ⟨h1, h2, rfl⟩; exact ⟨h2, h1, rfl⟩

theorem demo_shape (cutoffs : List ℚ) : expectedShape (demoOp cutoffs).base ≠ [] := by
  simp [expectedShape, demoOp, Detection.levelsOf]

/-- Two predictions and two ground truths in two frames, boxes of five columns. -/
def demoPd : PdTensors :=
  ⟨5, [[1, 2, 4, 2, 0], [5, 6, 4, 2, 1]], [1, 1], [9 / 10, 1 / 2], [7, 3], [false, false]⟩

/-- See `demoPd`. -/
def demoGt : GtTensors := ⟨5, [[1, 2, 4, 2, 0]], [1], [7], [1], [(0, 0)]⟩

/-- See `demoPd`. -/
def demoRows : List (ℤ × Obj) × List (ℤ × Obj) :=
  ([(7, ⟨1, ⟨some 1, some 2, none, some 4, some 2, none, some 0⟩, some (9 / 10), some false, none, none, none, none⟩),
    (3, ⟨1, ⟨some 5, some 6, none, some 4, some 2, none, some 1⟩, some (1 / 2), some false, none, none, none, none⟩)],
   [(7, ⟨1, ⟨some 1, some 2, none, some 4, some 2, none, some 0⟩, none, none, some 1, none, some (0, 0), none⟩)])

theorem demo_batch : BatchRows 5 (demoPd, demoGt) demoRows := by
  refine ⟨rfl, rfl, ⟨Or.inr (Or.inl rfl), by decide, rfl, rfl, ?_, ?_, ?_, ?_, ?_⟩,
    ⟨Or.inr (Or.inl rfl), by decide, rfl, rfl, ?_, ?_, ?_, ?_, ?_⟩, ⟨rfl, ?_⟩, ⟨rfl, ?_⟩⟩
  · rintro l ⟨⟩; rfl
  · rintro l ⟨⟩; rfl
  · rintro l ⟨⟩
  · rintro l ⟨⟩
  · rintro l ⟨⟩
  · rintro l ⟨⟩
  · rintro l ⟨⟩
  · rintro l ⟨⟩; rfl
  · rintro l ⟨⟩
  · rintro l ⟨⟩; rfl
  · intro i r hr
    match i with
    | 0 => cases hr; exact ⟨rfl, rfl, ⟨_, rfl, rfl, rfl⟩, rfl, rfl, rfl, rfl, rfl, rfl⟩
    | 1 => cases hr; exact ⟨rfl, rfl, ⟨_, rfl, rfl, rfl⟩, rfl, rfl, rfl, rfl, rfl, rfl⟩
    | i + 2 => cases hr
  · intro i r hr
    match i with
    | 0 => cases hr; exact ⟨rfl, rfl, ⟨_, rfl, rfl, rfl⟩, rfl, rfl, rfl, rfl, rfl, rfl⟩
    | i + 1 => cases hr

/-- The frames of the concrete case are evaluated in the order of their ids. -/
example : (opFrames demoPd demoGt).map (fun fs => fs.map fun f => (f.1.length, f.2.length)) = some [(1, 0), (1, 1)] := by decide +kernel

/-- The outputs of the concrete case. -/
example : (detectionOp demoEnv (demoOp [0, 3 / 4]) [1, 0] demoPd demoGt).map (fun o => (o.pr, o.breakdown)) =
    some ([[(1 / 2, 1, 1, 1, 0), (1, 1, 1, 0, 0)], [(1 / 2, 1, 1, 1, 0), (1, 1, 1, 0, 0)]], [(1, 0, 1), (1, 0, 2)]) := by decide +kernel

/-- The second batch: no frame in common with `demoPd`. -/
def demoBatch₂ : PdTensors × GtTensors := (⟨5, [], [], [], [], []⟩, ⟨5, [[0, 0, 4, 2, 0]], [1], [4], [2], [(0, 0)]⟩)

example : (do
    let s ← stateOp demoEnv (demoOp [0, 3 / 4]) demoPd demoGt
    let t ← stateOp demoEnv (demoOp [0, 3 / 4]) demoBatch₂.1 demoBatch₂.2
    let r ← resultOp (demoOp [0, 3 / 4]) (sumStates [s, t])
    let a := accumulate 5 [(demoPd, demoGt), demoBatch₂]
    let d ← detectionOp demoEnv (demoOp [0, 3 / 4]) [2, 0, 1] a.1 a.2
    some (decide (r = d), r.pr)) =
    some (true, [[(1 / 2, 1, 1, 1, 0), (1, 1, 1, 0, 0)], [(1 / 2, 1 / 2, 1, 1, 1), (1, 1 / 2, 1, 0, 1)]]) := by decide +kernel

/-! ### What fails -/

/-- Violated: a frame whose prediction comes with one batch and whose ground truth comes with another is evaluated as two
frames; the sum of the states counts a false positive and a false negative where there is a true positive. -/
theorem split_frame_violated :
    let c := demoOp [0]
    let b₁ : PdTensors × GtTensors := (⟨5, [[1, 2, 4, 2, 0]], [1], [9 / 10], [7], [false]⟩, GtTensors.empty 5)
    let b₂ : PdTensors × GtTensors := (PdTensors.empty 5, demoGt)
    (do let s ← stateOp demoEnv c b₁.1 b₁.2
        let t ← stateOp demoEnv c b₂.1 b₂.2
        resultOp c (sumStates [s, t])).map Output.pr = some [[(1, 0, 0, 1, 1)], [(1, 0, 0, 1, 1)]] ∧
    (detectionOp demoEnv c [0] (accumulate 5 [b₁, b₂]).1 (accumulate 5 [b₁, b₂]).2).map Output.pr =
      some [[(1, 1, 1, 0, 0)], [(1, 1, 1, 0, 0)]] := by decide +kernel

/-- Violated: a configuration that lets the cutoffs be estimated works with the metrics operation and with the state
operation, but the result operation then returns no operating points and average precisions of zero. -/
theorem estimated_cutoffs_violated :
    let c := demoOp []
    ((stateOp demoEnv c demoPd demoGt).bind (resultOp c)).map (fun o => (o.ap, o.pr)) = some ([0, 0], [[], []]) ∧
    (detectionOp demoEnv c [0, 1] demoPd demoGt).map (fun o => o.pr.map List.length) = some [2, 2] ∧
    (detectionOp demoEnv c [0, 1] demoPd demoGt).map Output.ap ≠ some [0, 0] := by decide +kernel

end Verif.Ops
