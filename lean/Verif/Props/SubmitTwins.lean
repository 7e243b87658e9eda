import Verif.Props.SubmitCompare

/-!
Property C136: where the comparison of equal results fails, and cases of the theorems.
-/

namespace Verif.Submit

open Verif.Wire

/-- The exact difference of two scores, and boxes that overlap if they are equal. -/
def exact : Env where
  iou := fun _ b c => if b = c then 1 else 0
  gap := fun a b => match single a, single b with
    | .fin x, .fin y => .fin |x - y|
    | _, _ => .nan

theorem exact_ok : exact.Ok := by
  intro d b c
  unfold exact
  simp only
  split_ifs <;> norm_num

/-- The double 1 and the floats 0.9 and 0.5. -/
def one : Bytes := [0, 0, 0, 0, 0, 0, 240, 63]
def high : Bytes := [102, 102, 102, 63]
def half : Bytes := [0, 0, 0, 63]

/-- A box of unit size and heading 1 at `x`. -/
def cube (x : Bytes) : Box := ⟨some x, some one, some one, some one, some one, some one, some one⟩

/-- A vehicle in a frame. -/
def vehicle (x score : Bytes) : Object := ⟨some ⟨some (cube x), some 1, []⟩, some score, some [99], some 1, none, []⟩

theorem vehicle_ok (x score : Bytes) (hx : x.length = 8) (hs : score.length = 4) :
    (vehicle x score).Ok ∧ Fits (vehicle x score).fields := by
  have hb : (write (cube x).fields).length = 63 := by
    simp [cube, Box.fields, Wire.optional, write, Field.write, Val.write, Val.wireType, writeVarint, hx, one]
  have hl : (write (Label.fields ⟨some (cube x), some 1, []⟩)).length = 67 := by
    rw [Label.fields]
    simp only [Wire.optional, write, List.cons_append, List.nil_append, List.append_nil, List.flatMap_cons, List.flatMap_nil,
      Field.write, Val.write, Val.wireType, List.length_append]
    rw [show (cube x).fields.flatMap Field.write = write (cube x).fields from rfl, hb]
    simp [writeVarint]
  refine ⟨⟨?_, ?_, by simp [vehicle], by simp [vehicle], by simp [vehicle], by intro f hf; simp [vehicle] at hf⟩, ?_⟩
  · intro l h
    simp only [vehicle, Option.some.injEq] at h
    subst h
    refine ⟨⟨?_, by simp, by intro f hf; simp at hf⟩, by unfold Fits; rw [hl]; norm_num⟩
    intro b h
    simp only [Option.some.injEq] at h
    subst h
    refine ⟨?_, by unfold Fits; rw [hb]; norm_num⟩
    intro f hf
    simp only [cube, Box.fields, Wire.optional, List.cons_append, List.nil_append, List.mem_cons, List.not_mem_nil,
      or_false] at hf
    rcases hf with rfl | rfl | rfl | rfl | rfl | rfl | rfl
    · exact ⟨by norm_num, by norm_num, hx⟩
    all_goals exact ⟨by norm_num, by norm_num, rfl⟩
  · intro s h
    simp only [vehicle, Option.some.injEq] at h
    subst h
    exact hs
  · unfold Fits vehicle Object.fields
    simp only [Wire.optional, write, List.cons_append, List.nil_append, List.append_nil, List.flatMap_cons, List.flatMap_nil,
      Field.write, Val.write, Val.wireType, List.length_append]
    rw [show (Label.fields ⟨some (cube x), some 1, []⟩).flatMap Field.write =
      write (Label.fields ⟨some (cube x), some 1, []⟩) from rfl, hl, hs]
    simp [writeVarint]

/-- A file of vehicles. -/
def fleet (l : List (Bytes × Bytes)) : Objects := ⟨l.map fun e => vehicle e.1 e.2, []⟩

theorem fleet_ok (l : List (Bytes × Bytes)) (h : ∀ e ∈ l, e.1.length = 8 ∧ e.2.length = 4) : (fleet l).Ok := by
  refine ⟨?_, by intro f hf; simp [fleet] at hf⟩
  intro o ho
  obtain ⟨e, he, rfl⟩ := List.mem_map.1 ho
  exact vehicle_ok _ _ (h e he).1 (h e he).2

theorem read_fleet (l : List (Bytes × Bytes)) (h : ∀ e ∈ l, e.1.length = 8 ∧ e.2.length = 4) :
    readFile (writeObjects (fleet l)) = some (fleet l).objects ∧
      readFiles [writeObjects (fleet l)] = some (fleet l).objects := by
  have := read_objects _ (fleet_ok l h)
  refine ⟨this, ?_⟩
  unfold readFiles
  simp [List.mapM_cons, this]

theorem compare_fleets (l r : List (Bytes × Bytes)) (hl : ∀ e ∈ l, e.1.length = 8 ∧ e.2.length = 4)
    (hr : ∀ e ∈ r, e.1.length = 8 ∧ e.2.length = 4) (junk : Bool) (threshold minimum : ℚ) :
    compare exact junk (writeObjects (fleet l)) [writeObjects (fleet r)] threshold minimum =
      (compareLoop exact (groups minimum (fleet r).objects) (groups minimum (fleet l).objects)
        (fresh exact (lastHeading junk (fleet l).objects) threshold)).map fun _ =>
          (groups minimum (fleet l).objects).map Prod.fst :=
  compare_eq exact junk _ _ threshold minimum _ _ (read_fleet l hl).1 (read_fleet r hr).2

/-- C136 fails: two detections with the same box and different scores, listed in one order in the latency results and
in the other in the submission, are matched in the order in which they come and are found to be different. -/
theorem compare_complete_violated : ∃ latency full : Objects, latency.Ok ∧ full.Ok ∧
    full.objects.Perm latency.objects ∧ (∀ o ∈ latency.objects, SelfEqual exact true o) ∧
    ∀ junk, compare exact junk (writeObjects latency) [writeObjects full] (9 / 10) 0 = none := by
  have h1 : ∀ e ∈ [(one, high), (one, half)], e.1.length = 8 ∧ e.2.length = 4 := by decide
  have h2 : ∀ e ∈ [(one, half), (one, high)], e.1.length = 8 ∧ e.2.length = 4 := by decide
  refine ⟨fleet [(one, high), (one, half)], fleet [(one, half), (one, high)], fleet_ok _ h1, fleet_ok _ h2,
    List.Perm.swap _ _ _, ?_, ?_⟩
  · have : ∀ o ∈ (fleet [(one, high), (one, half)]).objects, exact.iou true (boxOf o) (boxOf o) = 1 ∧
        slack.lt (exact.gap (scoreOf o) (scoreOf o)) = false := by decide +kernel
    exact this
  · intro junk
    rw [compare_fleets _ _ h1 h2]
    have : (compareLoop exact (groups 0 (fleet [(one, half), (one, high)]).objects)
        (groups 0 (fleet [(one, high), (one, half)]).objects) (fresh exact true (9 / 10))).isNone = true := by
      decide +kernel
    have h3 : lastHeading junk (fleet [(one, high), (one, half)]).objects = true := rfl
    rw [h3, Option.isNone_iff_eq_none.1 this]
    rfl

/-- The double 2. -/
def double2 : Bytes := [0, 0, 0, 0, 0, 0, 0, 64]

/-- C136, a case: two detections that can be told apart are accepted in the other order. -/
example (junk : Bool) : ∃ keys, compare exact junk (writeObjects (fleet [(one, high), (double2, half)]))
    [writeObjects (fleet [(double2, half), (one, high)])] (9 / 10) 0 = some keys := by
  have h1 : ∀ e ∈ [(one, high), (double2, half)], e.1.length = 8 ∧ e.2.length = 4 := by decide
  have h2 : ∀ e ∈ [(double2, half), (one, high)], e.1.length = 8 ∧ e.2.length = 4 := by decide
  refine compare_complete_partial exact exact_ok junk true _ _ (9 / 10) 0 (by norm_num) (by norm_num) _ _
    (read_fleet _ h1).1 (read_fleet _ h2).2 ?_ ?_
  · intro _ o ho
    have : o = vehicle double2 half := by simpa [fleet] using ho.symm
    subst this
    rfl
  · intro k hk
    have hperm : (fleet [(double2, half), (one, high)]).objects.Perm (fleet [(one, high), (double2, half)]).objects :=
      List.Perm.swap _ _ _
    have hself : ∀ o ∈ (fleet [(one, high), (double2, half)]).objects, exact.iou true (boxOf o) (boxOf o) = 1 ∧
        slack.lt (exact.gap (scoreOf o) (scoreOf o)) = false := by decide +kernel
    have hap : Apart exact true (9 / 10) (fleet [(one, high), (double2, half)]).objects := by
      unfold Apart
      decide +kernel
    exact ⟨hperm.filter _, List.Pairwise.filter _ hap, fun o ho => hself o (List.mem_filter.1 ho).1⟩

/-- C137, the size of the gap: a submission of any size is accepted with latency results without detections. -/
example (n : ℕ) : compare exact true [] [writeObjects (fleet (List.replicate n (one, high)))] (9 / 10) 0 = some [] :=
  missing_detections_violated exact true _ _ _ _
    (read_fleet _ (by intro e he; rw [List.eq_of_mem_replicate he]; decide)).2

end Verif.Submit
