import Verif.Model.Submit
import Verif.Lemmas.Wire

/-!
Property C134: which message the comparison takes a file for.
-/

namespace Verif.Submit

open Verif.Wire

/-! ## Specification -/

/-- Specification: a name whose bytes happen to be the encoding of a zone without labels. -/
def LooksLikeZone (name : Bytes) : Prop := accepts 99 zoneSchema name = true

instance (name : Bytes) : Decidable (LooksLikeZone name) := by unfold LooksLikeZone; infer_instance

/-- Specification: a submission that declares its task as the number that it is. -/
def Declared (s : Submission) : Prop := ∀ f ∈ s.rest, ∀ p, f.val = .bytes p → f.num ≠ 1

/-! ## Theorems -/

/-- C134. A file of predictions is read as its predictions. -/
theorem read_objects (os : Objects) (h : os.Ok) : readFile (writeObjects os) = some os.objects := by
  unfold readFile
  rw [parse_writeObjects os h]

/-- A submission is taken for a file of predictions exactly if each of its names looks like a zone. -/
theorem accepts_submission (s : Submission) (h : s.Ok) (ht : Declared s) :
    accepts nesting objectsSchema (writeSubmission s) = true ↔ ∀ name ∈ strings 2 s.rest, LooksLikeZone name := by
  unfold writeSubmission objectsSchema
  rw [accepts, scan_write nesting _ (s.fields_ok h)]
  simp only [List.all_eq_true]
  constructor
  · intro ha name hn
    rw [strings, List.mem_filterMap] at hn
    obtain ⟨f, hf, hfn⟩ := hn
    rcases hv : f.val with _ | _ | p | _ | _ <;> rw [hv] at hfn <;> simp only [reduceCtorEq] at hfn
    split_ifs at hfn with hk
    have := ha f (by unfold Submission.fields; exact List.mem_append_left _ hf)
    rw [hv] at this
    simp only [Option.some.injEq] at hfn
    subst hfn
    simpa [hk, LooksLikeZone, nesting] using this
  · intro ha f hf
    rcases hv : f.val with _ | _ | p | _ | _ <;> simp only
    unfold Submission.fields at hf
    rcases List.mem_append.1 hf with hf | hf
    · have h1 := ht f hf p hv
      by_cases h2 : f.num = 2
      · have := ha p (by
          rw [strings, List.mem_filterMap]
          exact ⟨f, hf, by rw [hv]; simp [h2]⟩)
        simpa [h2, LooksLikeZone, nesting] using this
      · simp only [h1, h2, if_false]
        rfl
    · obtain ⟨os, _, rfl⟩ := mem_optional hf
      simp only
      norm_num
      rfl

theorem read_as_objects (s : Submission) (h : s.Ok) (ht : Declared s) :
    (Objects.read s.fields).objects = [] := by
  unfold Objects.read
  have : strings 1 s.fields = [] := strings_nil 1 _ fun f hf p hp => by
    unfold Submission.fields at hf
    rcases List.mem_append.1 hf with hf | hf
    · exact ht f hf p hp
    · obtain ⟨os, _, rfl⟩ := mem_optional hf
      norm_num
  simp [this]

/-- C134, for submissions with a name that does not look like a zone.  A submission is read as its results. -/
theorem read_submission_partial (s : Submission) (h : s.Ok) (ht : Declared s)
    (hn : ∃ name ∈ strings 2 s.rest, ¬ LooksLikeZone name) :
    readFile (writeSubmission s) = some (s.results.getD {}).objects := by
  have hna : ¬ accepts nesting objectsSchema (writeSubmission s) = true := by
    rw [accepts_submission s h ht]
    obtain ⟨name, h1, h2⟩ := hn
    exact fun hall => h2 (hall name h1)
  have hp : parseObjects (writeSubmission s) = none := by unfold parseObjects; rw [if_neg hna]
  unfold readFile
  rw [hp]
  simp only
  rw [parse_writeSubmission s h, Option.map_some]

/-- C134, the other submissions: they are read, without an error, as if they had no predictions. -/
theorem read_submission_lost (s : Submission) (h : s.Ok) (ht : Declared s)
    (hn : ∀ name ∈ strings 2 s.rest, LooksLikeZone name) : readFile (writeSubmission s) = some [] := by
  have hp : parseObjects (writeSubmission s) = some (Objects.read s.fields) := by
    unfold parseObjects
    rw [if_pos ((accepts_submission s h ht).2 hn), writeSubmission, scan_write nesting _ (s.fields_ok h),
      Option.map_some]
  unfold readFile
  rw [hp]
  simp only
  rw [read_as_objects s h ht]

/-- The bytes of "PointPillar" and "MyMethod". -/
def pillar : Bytes := [80, 111, 105, 110, 116, 80, 105, 108, 108, 97, 114]
def mine : Bytes := [77, 121, 77, 101, 116, 104, 111, 100]

example : pillar = "PointPillar".toList.map Char.toNat ∧ mine = "MyMethod".toList.map Char.toNat := by decide +kernel

theorem pillar_zone : LooksLikeZone pillar := by decide +kernel
theorem mine_not_zone : ¬ LooksLikeZone mine := by decide +kernel

/-- One prediction under a name. -/
def named (name : Bytes) : Submission :=
  ⟨some ⟨[{ timestamp := some 1 }], []⟩, [⟨1, .varint 2⟩, ⟨2, .bytes name⟩, ⟨13, .bytes [97]⟩]⟩

theorem named_ok (name : Bytes) (h : name.length < 2 ^ 31 - 16) : (named name).Ok := by
  refine ⟨?_, ?_⟩
  · intro os hos
    simp only [named, Option.some.injEq] at hos
    subst hos
    refine ⟨⟨?_, by intro f hf; simp at hf⟩, ?_⟩
    · intro o ho
      simp only [List.mem_singleton] at ho
      subst ho
      refine ⟨⟨by simp, by simp, by simp, by simp, by simp, by intro f hf; simp at hf⟩, ?_⟩
      simp [Fits, Object.fields, Wire.optional, write, Field.write, Val.write, Val.wireType, writeVarint]
    · simp [Fits, Objects.fields, Object.fields, Wire.optional, write, Field.write, Val.write, Val.wireType, writeVarint]
  · intro f hf
    simp only [named, List.mem_cons, List.not_mem_nil, or_false] at hf
    rcases hf with rfl | rfl | rfl
    · exact ⟨⟨by norm_num, by norm_num, by simp [Val.Ok]⟩, by decide, by simp⟩
    · exact ⟨⟨by norm_num, by norm_num, h⟩, by rfl, fun p hp d _ => by
        simp only [Val.bytes.injEq] at hp; subst hp; simp [submissionSchema, Schema.sub, accepts]⟩
    · exact ⟨⟨by norm_num, by norm_num, by simp [Val.Ok]⟩, by decide, fun p hp d _ => by
        simp [submissionSchema, Schema.sub, accepts]⟩

theorem named_declared (name : Bytes) : Declared (named name) := by
  intro f hf p hp
  simp only [named, List.mem_cons, List.not_mem_nil, or_false] at hf
  rcases hf with rfl | rfl | rfl
  · simp at hp
  · norm_num
  · norm_num

/-- C134 fails: the submission of a method called "PointPillar" has a prediction and is read as if it had none. -/
theorem read_submission_violated : ∃ s : Submission, s.Ok ∧ Declared s ∧ (s.results.getD {}).objects ≠ [] ∧
    s.method = "PointPillar".toList.map Char.toNat ∧ readFile (writeSubmission s) = some [] := by
  refine ⟨named pillar, named_ok _ (by decide), named_declared _, by simp [named], by decide +kernel, ?_⟩
  refine read_submission_lost _ (named_ok _ (by decide)) (named_declared _) ?_
  intro n hn
  have : n = pillar := by simpa [named, strings] using hn
  rw [this]
  exact pillar_zone

/-- The submission of a method called "MyMethod" is read as its prediction. -/
example : readFile (writeSubmission (named mine)) = some [{ timestamp := some 1 }] :=
  read_submission_partial _ (named_ok _ (by decide)) (named_declared _) ⟨mine, by decide, mine_not_zone⟩

/-- C134. A file that does not exist is read as if it had no predictions. -/
theorem read_missing : readFile [] = some [] := by decide

end Verif.Submit
