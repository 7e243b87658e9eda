import Verif.Props.SubmitMake

/-! C133 and C138: what the programs refuse, and which detections are left out of the latency results. -/

namespace Verif.Submit

open Verif.Wire

/-- C133. A submission is written only if there are files and shards, all files are read, and method and account are
named. -/
theorem create_requires {inputs : List Bytes} {submission : Submission} {n : ℤ} {outs : List Bytes}
    (h : create inputs submission n = some outs) :
    inputs ≠ [] ∧ 0 < n ∧ submission.method ≠ [] ∧ submission.account ≠ [] ∧
      ∀ c ∈ inputs, ∃ b os, strip c = some b ∧ parseObjects b = some os := by
  unfold create at h
  by_cases h1 : inputs.isEmpty = true
  · simp [h1] at h
  by_cases h2 : n ≤ 0
  · simp [h1, h2] at h
  simp only [h1, h2, if_false, Option.bind_eq_bind, Bool.false_eq_true] at h
  cases h3 : inputs.mapM fun content => (strip content).bind parseObjects with
  | none => simp [h3] at h
  | some files =>
    simp only [h3, Option.bind_some] at h
    by_cases h4 : submission.method = [] ∨ submission.account = []
    · simp [h4] at h
    · push Not at h4
      refine ⟨by simpa using h1, by omega, h4.1, h4.2, ?_⟩
      intro c hc
      obtain ⟨os, _, ho⟩ := ListM.forall₂_exists_left (ListM.mapM_forall₂ h3) hc
      obtain ⟨b, hb, ho⟩ := Option.bind_eq_some_iff.1 ho
      exact ⟨b, os, hb, ho⟩

/-- C138. What is saved for a frame is what the model returned for it, with as many scores and classes as boxes. -/
theorem evaluate_checked {run : FrameId → Output} {listing : List FrameId} {saved : List (FrameId × Output)}
    (h : evaluate run listing = some saved) : List.Forall₂ (fun f (s : FrameId × Output) => s = (f, run f) ∧
      s.2.scores.length = s.2.boxes.length ∧ s.2.classes.length = s.2.boxes.length) listing saved := by
  refine (ListM.mapM_forall₂ h).imp ?_
  intro f s hs
  obtain ⟨r, hr, rfl⟩ := Option.map_eq_some_iff.1 hs
  unfold checkOutput at hr
  split at hr
  · cases hr; rename_i h; exact ⟨rfl, h⟩
  · simp at hr

/-- A model with another number of inputs than one has no camera. -/
theorem camera_needs_one (fields : List (List Char)) (h : fields.length ≠ 1) : cameraOf (readLines fields) = none := by
  match fields with
  | [] => rfl
  | [a] => simp at h
  | [a, b] =>
    by_cases hb : b = []
    · subst hb
      simp only [readLines, if_true, cameraOf]
      rw [if_neg]
      rintro ⟨t, ht⟩
      have := congrArg List.getLast? ht
      rw [List.getLast?_append, List.getLast?_append] at this
      revert this
      simp
    · simp [readLines, hb, cameraOf]
  | a :: b :: c :: l => simp [readLines, cameraOf]

/-- C138. Results in two dimensions of a model with another number of inputs than one are refused. -/
theorem two_dimensions_one_input (fields : List (List Char)) (hf : fields.length ≠ 1) (f : FrameId) (row : List Bytes) (score : Bytes)
    (cls : ℕ) : rowObject (readLines fields) f 4 row score cls = none := by
  have h := camera_needs_one fields hf
  unfold rowObject
  split
  · rfl
  · simp only [h]
    split <;> simp

/-- C138. A detection is left out of the latency results exactly if its score is below 0.03, or its length or width below 0.01, or it
has a height and that is below 0.01. -/
theorem left_out_iff (o : Object) : skipped o = true ↔
    Below (single (o.score.getD oneFloat)) lowest ∨ Below (double ((boxOf o).length.getD zeroDouble)) thin ∨
    Below (double ((boxOf o).width.getD zeroDouble)) thin ∨
    ∃ x, (boxOf o).height = some x ∧ Below (double x) thin := by
  unfold skipped Below scoreOf num
  cases e : (boxOf o).height <;> simp [e, or_assoc]

/-- The numbers of the rule. -/
theorem lowest_thin : ∃ a b : ℚ, lowest = .fin a ∧ thin = .fin b ∧ |a - 3 / 100| < 1 / 10 ^ 15 ∧ |b - 1 / 100| < 1 / 10 ^ 15 := by
  refine ⟨8646911284551352 / 2 ^ 58, 5764607523034235 / 2 ^ 59, by decide +kernel, by decide +kernel, ?_, ?_⟩ <;>
    rw [abs_lt] <;> constructor <;> norm_num

end Verif.Submit
