import Verif.Props.ToolsFrames

/-!
Property C140: which ground truths the detection programs evaluate, with which difficulty and which box.
-/

namespace Verif.Tools

/-! ### Specification -/

/-- The difficulty of a ground truth with `n` points: the annotated one, or else LEVEL_2 for at most five points and
LEVEL_1 for more. -/
def IsLevel (n : ℤ) (annotated : Option Nat) (level : Option Nat) : Prop :=
  (∀ l, annotated = some l → l ≠ 0 → level = some l) ∧
  ((∀ l, annotated = some l → l = 0) → (n ≤ 5 → level = some 2) ∧ (5 < n → level = some 1))

/-- A ground truth with at least one point. -/
def Visible (o : Rec) : Prop := ∃ n, o.points = some n ∧ 0 < n

/-- A ground truth with at least one point of the top lidar that is visible in a camera. -/
def VisibleLet (o : Rec) : Prop := (∃ n, o.topPoints = some n ∧ 0 < n) ∧ ∃ s, o.mostVisible = some s ∧ s ≠ ""

/-- The ground truth `o` is evaluated as `e`. -/
def EvaluatedAs (o e : Rec) : Prop :=
  (∀ n, o.points = some n → IsLevel n o.detLevel e.detLevel) ∧ { e with detLevel := none } = { o with detLevel := none }

/-- The ground truth `o` is evaluated as `e` by the program for camera only detection: with its camera synchronised
box. -/
def EvaluatedAsLet (o e : Rec) : Prop :=
  (∀ n, o.topPoints = some n → IsLevel n o.detLevel e.detLevel) ∧ (∀ b, o.synced = some b → e.box = b) ∧
    { e with detLevel := none, box := {} } = { o with detLevel := none, box := {} }

/-- The names of cameras, dataset.proto. -/
def cameraNames : List String :=
  ["UNKNOWN", "FRONT", "FRONT_LEFT", "FRONT_RIGHT", "SIDE_LEFT", "SIDE_RIGHT", "REAR_LEFT", "REAR", "REAR_RIGHT"]

/-! ### Proofs -/

theorem isLevel_withLevel (n : ℤ) (o : Rec) : IsLevel n o.detLevel (withLevel n o).detLevel := by
  unfold IsLevel withLevel
  constructor
  · intro l hl h0
    rw [if_neg]
    · exact hl
    · rintro (h | h)
      · rw [hl] at h; cases h
      · rw [hl] at h; exact h0 (Option.some.inj h)
  · intro h
    rw [if_pos]
    · constructor
      · intro hn; simp [hn]
      · intro hn; simp [not_le.mpr hn]
    · cases hd : o.detLevel with
      | none => exact Or.inl rfl
      | some l => rw [h l hd]; exact Or.inr rfl

theorem withLevel_rest (n : ℤ) (o : Rec) : { withLevel n o with detLevel := none } = { o with detLevel := none } := by
  unfold withLevel
  split_ifs <;> rfl

theorem points_iff (p : Option ℤ) : p.getD 0 ≤ 0 ↔ ¬∃ n, p = some n ∧ 0 < n := by
  cases p with
  | none => simp
  | some n => simp

open Classical in
/-- C140: the detection program evaluates exactly the ground truths with at least one point, in the order of the file,
with the annotated difficulty or the one by the number of points, and otherwise unchanged. -/
theorem prepare_spec_partial (gts : List Rec) : List.Forall₂ EvaluatedAs (gts.filter fun o => decide (Visible o)) (prepare gts) := by
  unfold prepare
  induction gts with
  | nil => exact List.Forall₂.nil
  | cons o gts ih =>
    rw [List.filterMap_cons, List.filter_cons]
    by_cases h : o.points.getD 0 ≤ 0
    · have hv : ¬Visible o := (points_iff _).mp h
      simp only [if_pos h, hv, decide_false, Bool.false_eq_true, if_false]
      exact ih
    · have hv : Visible o := not_not.mp (mt (points_iff _).mpr h)
      simp only [if_neg h, hv, decide_true, if_true]
      refine List.Forall₂.cons ⟨?_, withLevel_rest _ _⟩ ih
      intro n hn
      rw [hn]
      exact isLevel_withLevel n o

theorem parseCamera_iff (s : String) : (Breakdown.parseCamera s).isSome = true ↔ s ∈ cameraNames := by
  unfold Breakdown.parseCamera cameraNames
  split_ifs <;> simp_all

theorem prepareLetOne_cases (o : Rec) : (¬VisibleLet o ∧ prepareLetOne o = some none) ∨
    (VisibleLet o ∧ o.mostVisible.getD "" ∉ cameraNames ∧ prepareLetOne o = none) ∨
    (VisibleLet o ∧ o.mostVisible.getD "" ∈ cameraNames ∧ ∃ e, prepareLetOne o = some (some e) ∧ EvaluatedAsLet o e ∧
      (o.synced = none → e.box = {})) := by
  unfold prepareLetOne
  by_cases h : o.topPoints.getD 0 ≤ 0
  · exact Or.inl ⟨fun hv => (points_iff _).mp h hv.1, by rw [if_pos h]⟩
  have hp := not_not.mp (mt (points_iff _).mpr h)
  rw [if_neg h]
  have hm : (withLevel (o.topPoints.getD 0) o).mostVisible = o.mostVisible := by unfold withLevel; split_ifs <;> rfl
  have hs : (withLevel (o.topPoints.getD 0) o).synced = o.synced := by unfold withLevel; split_ifs <;> rfl
  simp only [hm, hs]
  by_cases hc : o.mostVisible = none ∨ o.mostVisible = some ""
  · left
    refine ⟨?_, by rw [if_pos hc]⟩
    rintro ⟨-, s, h1, h2⟩
    rcases hc with hc | hc
    · rw [h1] at hc; cases hc
    · rw [h1] at hc; exact h2 (Option.some.inj hc)
  have hv : VisibleLet o := by
    refine ⟨hp, ?_⟩
    cases hmv : o.mostVisible with
    | none => exact absurd (Or.inl hmv) hc
    | some s => exact ⟨s, rfl, fun h0 => hc (Or.inr (by rw [hmv, h0]))⟩
  rw [if_neg hc]
  by_cases hn : o.mostVisible.getD "" ∈ cameraNames
  · right; right
    refine ⟨hv, hn, { withLevel (o.topPoints.getD 0) o with box := o.synced.getD {} }, ?_, ⟨?_, ?_, ?_⟩, ?_⟩
    · have hq := (parseCamera_iff _).mpr hn
      rw [if_neg (by rw [Option.isNone_iff_eq_none]; intro h0; rw [h0] at hq; cases hq)]
      simp only [hm, hs]
    · intro n hn'
      rw [hn']
      exact isLevel_withLevel n o
    · intro b hb
      show o.synced.getD {} = b
      rw [hb]; rfl
    · have := withLevel_rest (o.topPoints.getD 0) o
      have h2 := congrArg (fun r : Rec => { r with box := {} }) this
      exact h2
    · intro h0
      show o.synced.getD {} = {}
      rw [h0]; rfl
  · right; left
    refine ⟨hv, hn, ?_⟩
    rw [if_pos]
    have := mt (parseCamera_iff _).mp hn
    cases hq : Breakdown.parseCamera (o.mostVisible.getD "") with
    | none => rfl
    | some c => rw [hq] at this; exact absurd rfl this

/-- C140: the program for camera only detection stops exactly if a ground truth that it should evaluate names no
camera. -/
theorem prepareLet_stops (gts : List Rec) :
    prepareLet gts = none ↔ ∃ o ∈ gts, VisibleLet o ∧ o.mostVisible.getD "" ∉ cameraNames := by
  unfold prepareLet
  rw [Option.map_eq_none_iff]
  induction gts with
  | nil => simp
  | cons o gts ih =>
    rw [List.mapM_cons]
    rcases prepareLetOne_cases o with ⟨h1, h2⟩ | ⟨h1, h2, h3⟩ | ⟨h1, h2, e, h3, -⟩
    · rw [h2]
      simp only [Option.bind_eq_bind, Option.bind_some, List.mem_cons, exists_eq_or_imp, h1, false_and, false_or]
      rw [← ih]
      cases List.mapM prepareLetOne gts <;> simp
    · rw [h3]
      simp only [Option.bind_eq_bind, Option.bind_none, true_iff]
      exact ⟨o, by simp, h1, h2⟩
    · rw [h3]
      simp only [Option.bind_eq_bind, Option.bind_some, List.mem_cons, exists_eq_or_imp, h1, h2, not_true, and_false, false_or]
      rw [← ih]
      cases List.mapM prepareLetOne gts <;> simp

open Classical in
/-- C140: otherwise it evaluates exactly the ground truths with points of the top lidar that are visible in a camera, with
the box synchronised to that camera. -/
theorem prepareLet_spec {gts r : List Rec} (h : prepareLet gts = some r) :
    List.Forall₂ EvaluatedAsLet (gts.filter fun o => decide (VisibleLet o)) r := by
  unfold prepareLet at h
  rw [Option.map_eq_some_iff] at h
  obtain ⟨l, hl, rfl⟩ := h
  induction gts generalizing l with
  | nil => cases hl; exact List.Forall₂.nil
  | cons o gts ih =>
    rw [List.mapM_cons] at hl
    rw [List.filter_cons]
    rcases prepareLetOne_cases o with ⟨h1, h2⟩ | ⟨h1, h2, h3⟩ | ⟨h1, h2, e, h3, h4, -⟩
    · rw [h2] at hl
      cases hm : List.mapM prepareLetOne gts with
      | none => rw [hm] at hl; cases hl
      | some l' =>
        rw [hm] at hl
        cases hl
        simp only [h1, decide_false, Bool.false_eq_true, if_false, List.filterMap_cons, id_eq]
        exact ih l' hm
    · rw [h3] at hl; cases hl
    · rw [h3] at hl
      cases hm : List.mapM prepareLetOne gts with
      | none => rw [hm] at hl; cases hl
      | some l' =>
        rw [hm] at hl
        cases hl
        simp only [h1, decide_true, if_true, List.filterMap_cons, id_eq]
        exact List.Forall₂.cons h4 (ih l' hm)

/-- A ground truth with three points and no annotated difficulty, and one without points. -/
example : prepare [⟨"a", 1, none, "x", 1, {}, none, some 3, none, none, none, none, none, none, none⟩,
      ⟨"a", 1, none, "y", 1, {}, none, some 0, none, none, none, none, none, none, none⟩] =
    [⟨"a", 1, none, "x", 1, {}, none, some 3, none, some 2, none, none, none, none, none⟩] := by
  simp [prepare, withLevel]

/-! ### Where the programs disagree with their documentation -/

/-- C140 is false for ground truths that were not prepared, although the program says that users need not populate the
most visible camera and the camera synchronised box (compute_detection_let_metrics_main.cc:29-31): without the camera
the ground truth is not evaluated at all, and without the box it is evaluated with a box of no size at the origin. -/
theorem unpopulated_violated (o : Rec) (n : ℤ) (hp : o.topPoints = some n) (h0 : 0 < n) :
    (o.mostVisible = none → prepareLet [o] = some []) ∧
    (o.mostVisible = some "FRONT" → o.synced = none → ∃ e, prepareLet [o] = some [e] ∧
      e.box = ⟨0, 0, 0, 0, 0, 0, 0⟩) := by
  constructor
  · intro h
    rcases prepareLetOne_cases o with ⟨h1, h2⟩ | ⟨h1, -⟩ | ⟨h1, -⟩
    · simp [prepareLet, h2]
    · obtain ⟨-, s, hs, -⟩ := h1; rw [h] at hs; cases hs
    · obtain ⟨-, s, hs, -⟩ := h1; rw [h] at hs; cases hs
  · intro h hs
    rcases prepareLetOne_cases o with ⟨h1, h2⟩ | ⟨h1, h2, -⟩ | ⟨h1, h2, e, h3, -, h4⟩
    · exact absurd ⟨⟨n, hp, h0⟩, "FRONT", h, by decide⟩ h1
    · rw [h] at h2; exact absurd (by decide) h2
    · exact ⟨e, by simp [prepareLet, h3], h4 hs⟩

end Verif.Tools
