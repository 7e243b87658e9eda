import Verif.Model.Submit
import Verif.Lemmas.Wire
import Verif.Lemmas.ListM
import Mathlib.Data.List.Forall2
import Mathlib.Algebra.BigOperators.Group.List.Basic
import Mathlib.Algebra.BigOperators.Group.Finset.Basic
import Mathlib.Data.List.Count

/-!
Properties C132 and C133: the program that writes a submission.
-/

namespace Verif.Submit

open Verif.Wire

/-! ## Specification -/

/-- Specification: `a` is a number below `b`. -/
def Below (a b : Fl) : Prop := Fl.lt a b = true

/-- Specification: the prediction is kept: its score is not below 0.03 and its box is made of numbers. -/
def Kept (o : Object) : Prop :=
  ¬ Below (single (o.score.getD oneFloat)) lowest ∧
    ∀ x ∈ [(boxOf o).centerX, (boxOf o).centerY, (boxOf o).centerZ, (boxOf o).length, (boxOf o).width,
      (boxOf o).height, (boxOf o).heading], double (x.getD zeroDouble) ≠ .nan

instance (o : Object) : Decidable (Kept o) := by unfold Kept Below; infer_instance

/-- Specification: the extent that is written for an extent: the same number unless it is below a millionth. -/
structure Widened (x : Option Bytes) (y : Bytes) : Prop where
  small : Below (double (x.getD zeroDouble)) (double tiny) → y = tiny
  other : ¬ Below (double (x.getD zeroDouble)) (double tiny) → y = x.getD zeroDouble

/-- Specification: `o'` is `o` with its extents widened and nothing else changed. -/
structure Cleaned (o o' : Object) : Prop where
  score : o'.score = o.score
  context : o'.context = o.context
  timestamp : o'.timestamp = o.timestamp
  camera : o'.camera = o.camera
  rest : o'.rest = o.rest
  label : ∃ l b, o'.label = some l ∧ l.box = some b ∧ l.type = (o.label.getD {}).type ∧ l.rest = (o.label.getD {}).rest ∧
    b.centerX = (boxOf o).centerX ∧ b.centerY = (boxOf o).centerY ∧ b.centerZ = (boxOf o).centerZ ∧
    b.heading = (boxOf o).heading ∧
    (∃ y, b.length = some y ∧ Widened (boxOf o).length y) ∧
    (∃ y, b.width = some y ∧ Widened (boxOf o).width y) ∧
    ∃ y, b.height = some y ∧ Widened (boxOf o).height y

/-- Specification: a file with the bytes of a message, possibly followed by a line feed.  Without one the bytes must not
be empty or end in the byte of a line feed. -/
def Holds (content : Bytes) (f : Objects) : Prop :=
  content = writeObjects f ++ [10] ∨ (content = writeObjects f ∧ content ≠ [] ∧ content.getLast? ≠ some 10)

/-- Specification: the predictions of all files, each with its position in its file. -/
def entries (files : List Objects) : List (Object × ℕ) := files.flatMap fun f => f.objects.zipIdx

/-- Specification: the predictions of shard `k`. -/
def shard (n k : ℕ) (files : List Objects) : List Object :=
  ((entries files).filter fun e => decide (Kept e.1 ∧ e.2 % n = k)).map fun e => sanitise e.1

/-! ## Single predictions -/

theorem kept_iff (o : Object) : Kept o ↔ lowScore o = false ∧ hasNan (boxOf o) = false := by
  unfold Kept lowScore hasNan Below num scoreOf
  simp only [List.forall_mem_cons, List.not_mem_nil, false_imp_iff, implies_true, and_true, Bool.or_eq_false_iff,
    decide_eq_false_iff_not, Bool.not_eq_true]
  tauto

theorem atLeast_widened (x : Option Bytes) : Widened x (atLeast x) :=
  ⟨fun h => by unfold atLeast num; exact if_pos h, fun h => by unfold atLeast num; exact if_neg h⟩

/-- C132. What is written for a prediction differs from it in the extents only. -/
theorem sanitise_cleaned (o : Object) : Cleaned o (sanitise o) := by
  refine ⟨rfl, rfl, rfl, rfl, rfl, ?_⟩
  exact ⟨_, _, rfl, rfl, rfl, rfl, rfl, rfl, rfl, rfl, ⟨_, rfl, atLeast_widened _⟩, ⟨_, rfl, atLeast_widened _⟩,
    _, rfl, atLeast_widened _⟩

theorem tiny_not_below : ¬ Below (double tiny) (double tiny) := by
  unfold Below
  cases h : double tiny with
  | nan => simp [Fl.lt]
  | inf b => cases b <;> simp [Fl.lt]
  | fin q => simp [Fl.lt]

theorem atLeast_idem (x : Option Bytes) : atLeast (some (atLeast x)) = atLeast x := by
  have h := atLeast_widened x
  have h2 := atLeast_widened (some (atLeast x))
  by_cases hb : Below (double (x.getD zeroDouble)) (double tiny)
  · have e := h.small hb
    exact h2.other (by rw [Option.getD_some, e]; exact tiny_not_below)
  · have e := h.other hb
    exact h2.other (by rw [Option.getD_some, e]; exact hb)

/-- C132. A prediction that was written once is written unchanged the next time. -/
theorem sanitise_idem (o : Object) : sanitise (sanitise o) = sanitise o := by
  have e : boxOf (sanitise o) = { boxOf o with
      length := some (atLeast (boxOf o).length), width := some (atLeast (boxOf o).width),
      height := some (atLeast (boxOf o).height) } := rfl
  rw [show sanitise (sanitise o) = { sanitise o with label := some { ((sanitise o).label.getD {}) with
    box := some { boxOf (sanitise o) with
      length := some (atLeast (boxOf (sanitise o)).length), width := some (atLeast (boxOf (sanitise o)).width),
      height := some (atLeast (boxOf (sanitise o)).height) } } } from rfl, e]
  simp only [atLeast_idem]
  rfl

theorem tiny_number : double tiny ≠ .nan := by decide +kernel

theorem atLeast_nan (x : Option Bytes) : double (atLeast x) = .nan ↔ double (x.getD zeroDouble) = .nan := by
  have h := atLeast_widened x
  by_cases hb : Below (double (x.getD zeroDouble)) (double tiny)
  · rw [h.small hb]
    constructor
    · intro h; exact absurd h tiny_number
    · intro h; rw [h] at hb; simp [Below, Fl.lt] at hb
  · rw [h.other hb]

/-- C132. A prediction is kept the second time exactly if it is kept the first time. -/
theorem sanitise_kept (o : Object) : Kept (sanitise o) ↔ Kept o := by
  have e : boxOf (sanitise o) = { boxOf o with
      length := some (atLeast (boxOf o).length), width := some (atLeast (boxOf o).width),
      height := some (atLeast (boxOf o).height) } := rfl
  have e2 : (sanitise o).score = o.score := rfl
  unfold Kept
  rw [e, e2]
  simp only [List.forall_mem_cons, List.not_mem_nil, false_imp_iff, implies_true, and_true, Option.getD_some,
    ne_eq, atLeast_nan]

/-! ## The shards -/

/-- One step of the loop over the objects. -/
def addEntry (subs : List Submission) (e : Object × ℕ) : List Submission :=
  if lowScore e.1 then subs
  else if hasNan (boxOf e.1) then subs
  else subs.modify (e.2 % subs.length) (addObject (sanitise e.1))

theorem addFile_eq (subs : List Submission) (os : Objects) : addFile subs os = os.objects.zipIdx.foldl addEntry subs := rfl

theorem addEntry_length (subs : List Submission) (e : Object × ℕ) : (addEntry subs e).length = subs.length := by
  unfold addEntry; split_ifs <;> simp

/-- What the loop adds to shard `k`. -/
def pick (n k : ℕ) (L : List (Object × ℕ)) : List Object :=
  (L.filter fun e => decide (Kept e.1 ∧ e.2 % n = k)).map fun e => sanitise e.1

def addAll (os : List Object) (s : Submission) : Submission := os.foldl (fun s o => addObject o s) s

theorem addEntry_get (n k : ℕ) (subs : List Submission) (hn : subs.length = n) (e : Object × ℕ) :
    (addEntry subs e)[k]? = (subs[k]?).map (addAll (pick n k [e])) := by
  unfold addEntry pick
  by_cases hk : Kept e.1
  · obtain ⟨h1, h2⟩ := (kept_iff e.1).1 hk
    rw [h1, h2]
    simp only [Bool.false_eq_true, if_false, List.getElem?_modify, hn]
    by_cases hi : e.2 % n = k
    · simp [hk, hi, List.filter_cons]
      rfl
    · simp [hi, addAll, List.filter_cons]
      cases subs[k]? <;> rfl
  · have : ¬ (lowScore e.1 = false ∧ hasNan (boxOf e.1) = false) := fun h => hk ((kept_iff e.1).2 h)
    have e1 : (List.filter (fun e : Object × ℕ => decide (Kept e.1 ∧ e.2 % n = k)) [e]) = [] := by
      simp [List.filter_cons, hk]
    rw [e1]
    have e2 : (subs[k]?).map (addAll (List.map (fun e : Object × ℕ => sanitise e.1) [])) = subs[k]? := by
      cases subs[k]? <;> rfl
    rw [e2]
    cases hl : lowScore e.1 with
    | true => simp
    | false =>
      cases hb : hasNan (boxOf e.1) with
      | true => simp
      | false => exact absurd ⟨hl, hb⟩ this

theorem addEntries_get (n k : ℕ) : ∀ (L : List (Object × ℕ)) (subs : List Submission), subs.length = n →
    (L.foldl addEntry subs).length = n ∧
      (L.foldl addEntry subs)[k]? = (subs[k]?).map (addAll (pick n k L)) := by
  intro L
  induction L with
  | nil => intro subs hn; exact ⟨hn, by cases h : subs[k]? <;> simp [h, pick, addAll]⟩
  | cons e L ih =>
    intro subs hn
    obtain ⟨h1, h2⟩ := ih (addEntry subs e) (by rw [addEntry_length, hn])
    refine ⟨h1, ?_⟩
    rw [List.foldl_cons, h2, addEntry_get n k subs hn e]
    have : pick n k (e :: L) = pick n k [e] ++ pick n k L := by
      unfold pick; rw [← List.map_append, ← List.filter_append]; rfl
    rw [this]
    cases subs[k]? with
    | none => rfl
    | some s => simp [addAll, List.foldl_append]

theorem foldl_addFile (files : List Objects) (subs : List Submission) :
    files.foldl addFile subs = (entries files).foldl addEntry subs := by
  induction files generalizing subs with
  | nil => rfl
  | cons f files ih => 
    rw [List.foldl_cons, ih, addFile_eq, show entries (f :: files) = f.objects.zipIdx ++ entries files from rfl,
      List.foldl_append]

theorem addAll_some (os : List Object) (rest : List Field) (r : Objects) :
    addAll os ⟨some r, rest⟩ = ⟨some ⟨r.objects ++ os, r.rest⟩, rest⟩ := by
  induction os generalizing r with
  | nil => simp [addAll]
  | cons o os ih =>
    have : addAll (o :: os) ⟨some r, rest⟩ = addAll os ⟨some ⟨r.objects ++ [o], r.rest⟩, rest⟩ := rfl
    rw [this, ih]
    simp

theorem addAll_none (os : List Object) (rest : List Field) (hos : os ≠ []) :
    addAll os ⟨none, rest⟩ = ⟨some ⟨os, []⟩, rest⟩ := by
  cases os with
  | nil => exact absurd rfl hos
  | cons o os =>
    have : addAll (o :: os) ⟨none, rest⟩ = addAll os ⟨some ⟨[o], []⟩, rest⟩ := rfl
    rw [this, addAll_some]
    rfl

/-! ## Files -/

theorem strip_holds (content : Bytes) (f : Objects) (h : Holds content f) : strip content = some (writeObjects f) := by
  rcases h with rfl | ⟨rfl, hne, hl⟩
  · simp [strip]
  · unfold strip
    cases hc : (writeObjects f).getLast? with
    | none => exact absurd (List.getLast?_eq_none_iff.1 hc) hne
    | some b =>
      rw [hc] at hl
      have : b ≠ 10 := fun h => hl (by rw [h])
      simp [this]

theorem read_inputs (contents : List Bytes) (files : List Objects)
    (h : List.Forall₂ (fun c (f : Objects) => f.Ok ∧ Holds c f) contents files) :
    (contents.mapM fun content => (strip content).bind parseObjects) = some files := by
  induction h with
  | nil => rfl
  | cons h _ ih =>
    rw [List.mapM_cons, ih, strip_holds _ _ h.2, Option.bind_some, parse_writeObjects _ h.1]
    rfl

theorem payload_length (fs : List Field) (f : Field) (hf : f ∈ fs) (p : Bytes) (hp : f.val = .bytes p) :
    p.length ≤ (write fs).length := by
  induction fs with
  | nil => simp at hf
  | cons g fs ih =>
    rw [write_cons, List.length_append]
    rcases List.mem_cons.1 hf with rfl | hf
    · rw [Field.write, hp, Val.write]
      simp only [List.length_append]
      omega
    · have := ih hf; omega

/-- What is written for a prediction can be written if the file is not too long. -/
theorem sanitise_ok (o : Object) (h : o.Ok) (hfit : Fits (sanitise o).fields) : (sanitise o).Ok := by
  obtain ⟨h1, h2, h3, h4, h5, h6⟩ := h
  refine ⟨?_, h2, h3, h4, h5, h6⟩
  intro l hl
  have hmem : (⟨1, .bytes (write l.fields)⟩ : Field) ∈ (sanitise o).fields := by
    simp only [Object.fields, hl, Wire.optional, List.mem_append, List.mem_singleton]
    tauto
  have hlf : Fits l.fields := lt_of_le_of_lt (payload_length _ _ hmem _ rfl) hfit
  refine ⟨?_, hlf⟩
  have hlab : (o.label.getD {}).Ok := by
    cases ho : o.label with
    | none => exact ⟨by simp, by simp, by intro f hf; simp at hf⟩
    | some l => exact (h1 l ho).1
  obtain ⟨g1, g2, g3⟩ := hlab
  have hl' : l = { (o.label.getD {}) with box := l.box } := by
    have : (sanitise o).label = some l := hl
    simp only [sanitise, Option.some.injEq] at this
    rw [← this]
  have hbox : l.box = some { boxOf o with
      length := some (atLeast (boxOf o).length), width := some (atLeast (boxOf o).width),
      height := some (atLeast (boxOf o).height) } := by
    have : (sanitise o).label = some l := hl
    simp only [sanitise, Option.some.injEq] at this
    rw [← this]
  refine ⟨?_, by rw [hl']; exact g2, by rw [hl']; exact g3⟩
  intro b hb
  have hbm : (⟨1, .bytes (write b.fields)⟩ : Field) ∈ l.fields := by
    simp only [Label.fields, hb, Wire.optional, List.mem_append, List.mem_singleton]
    tauto
  refine ⟨?_, lt_of_le_of_lt (payload_length _ _ hbm _ rfl) hlf⟩
  rw [hbox, Option.some.injEq] at hb
  subst hb
  have hold : (boxOf o).Ok := by
    unfold boxOf
    cases hb : (o.label.getD {}).box with
    | none => intro f hf; simp [Box.fields, Wire.optional, boxOf, hb] at hf
    | some b => exact (g1 b hb).1
  have hlen : ∀ x : Option Bytes, (∀ y, x = some y → y.length = 8) → (atLeast x).length = 8 := by
    intro x hx
    unfold atLeast
    split_ifs
    · rfl
    · cases x with
      | none => rfl
      | some y => exact hx y rfl
  have hget : ∀ (k : ℕ) (x : Option Bytes), (∀ f ∈ Wire.optional k Val.fixed64 x, f.Ok) → ∀ y, x = some y → y.length = 8 := by
    intro k x hx y hy
    exact (hx ⟨k, .fixed64 y⟩ (by simp [Wire.optional, hy])).2.2
  have hsub : ∀ f, f ∈ Wire.optional 5 Val.fixed64 (boxOf o).length ∨ f ∈ Wire.optional 4 Val.fixed64 (boxOf o).width ∨
      f ∈ Wire.optional 6 Val.fixed64 (boxOf o).height → f.Ok := by
    intro f hf
    refine hold f ?_
    simp only [Box.fields, List.mem_append]
    tauto
  have k5 := hlen _ (hget 5 _ fun f hf => hsub f (Or.inl hf))
  have k4 := hlen _ (hget 4 _ fun f hf => hsub f (Or.inr (Or.inl hf)))
  have k6 := hlen _ (hget 6 _ fun f hf => hsub f (Or.inr (Or.inr hf)))
  intro f hf
  simp only [Box.fields, List.mem_append, or_assoc] at hf
  rcases hf with hf | hf | hf | hf | hf | hf | hf
  · exact hold f (by simp only [Box.fields, List.mem_append]; tauto)
  · exact hold f (by simp only [Box.fields, List.mem_append]; tauto)
  · exact hold f (by simp only [Box.fields, List.mem_append]; tauto)
  · obtain ⟨v, hv, rfl⟩ := mem_optional hf
    rw [Option.some.injEq] at hv; subst hv
    exact ⟨by norm_num, by norm_num, k4⟩
  · obtain ⟨v, hv, rfl⟩ := mem_optional hf
    rw [Option.some.injEq] at hv; subst hv
    exact ⟨by norm_num, by norm_num, k5⟩
  · obtain ⟨v, hv, rfl⟩ := mem_optional hf
    rw [Option.some.injEq] at hv; subst hv
    exact ⟨by norm_num, by norm_num, k6⟩
  · exact hold f (by simp only [Box.fields, List.mem_append]; tauto)

theorem mem_entries {files : List Objects} {e : Object × ℕ} (h : e ∈ entries files) : ∃ f ∈ files, e.1 ∈ f.objects := by
  obtain ⟨f, hf, he⟩ := List.mem_flatMap.1 h
  exact ⟨f, hf, (List.mem_zipIdx' he).2 ▸ List.getElem_mem _⟩

theorem mem_shard {n k : ℕ} {files : List Objects} {o : Object} (h : o ∈ shard n k files) :
    ∃ f ∈ files, ∃ o' ∈ f.objects, o = sanitise o' := by
  obtain ⟨e, he, rfl⟩ := List.mem_map.1 h
  obtain ⟨f, hf, ho⟩ := mem_entries (List.mem_filter.1 he).1
  exact ⟨f, hf, e.1, ho, rfl⟩

theorem forall₂_files {contents : List Bytes} {files : List Objects}
    (h : List.Forall₂ (fun c (f : Objects) => f.Ok ∧ Holds c f) contents files) : ∀ f ∈ files, f.Ok := by
  induction h with
  | nil => simp
  | cons h _ ih => intro g hg; rcases List.mem_cons.1 hg with rfl | hg; exacts [h.1, ih g hg]

theorem shard_ok {n k : ℕ} {files : List Objects} (hf : ∀ f ∈ files, f.Ok)
    (hfit : Fits (Objects.fields ⟨shard n k files, []⟩)) : (Objects.mk (shard n k files) []).Ok := by
  refine ⟨fun o ho => ?_, by intro f hf; simp at hf⟩
  have hm : (⟨1, .bytes (write o.fields)⟩ : Field) ∈ Objects.fields ⟨shard n k files, []⟩ := by
    simp only [Objects.fields, List.append_nil, List.mem_map]
    exact ⟨o, ho, rfl⟩
  have ho' : Fits o.fields := lt_of_le_of_lt (payload_length _ _ hm _ rfl) hfit
  obtain ⟨f, hff, o', ho2, rfl⟩ := mem_shard ho
  exact ⟨sanitise_ok o' ((hf f hff).1 o' ho2).1 ho', ho'⟩

/-- The submissions that are written. -/
theorem create_run (contents : List Bytes) (files : List Objects)
    (h : List.Forall₂ (fun c (f : Objects) => f.Ok ∧ Holds c f) contents files) (hne : files ≠ [])
    (header : Submission) (hh : header.Ok) (hr : header.results = none) (hm : header.method ≠ []) (ha : header.account ≠ [])
    (n : ℕ) (hn : 0 < n) (hfit : ∀ k < n, Fits (Objects.fields ⟨shard n k files, []⟩)) :
    ∃ subs : List Submission, create contents header n = some (subs.map writeSubmission) ∧ subs.length = n ∧ ∀ k < n, ∃ s,
      subs[k]? = some s ∧ s.Ok ∧ s.rest = header.rest ∧ (s.results.getD {}).objects = shard n k files := by
  have hci : contents.isEmpty = false := by
    cases h with
    | nil => exact absurd rfl hne
    | cons _ _ => rfl
  refine ⟨files.foldl addFile (List.replicate n header), ?_, ?_, ?_⟩
  · unfold create
    rw [read_inputs contents files h]
    have : ¬ ((n : ℤ) ≤ 0) := by omega
    simp [hci, hm, ha]
    omega
  · rw [foldl_addFile]
    exact (addEntries_get n 0 _ _ (by simp)).1
  · intro k hk
    rw [foldl_addFile]
    have hg := (addEntries_get n k (entries files) (List.replicate n header) (by simp)).2
    rw [List.getElem?_replicate, if_pos hk, Option.map_some] at hg
    refine ⟨addAll (shard n k files) header, hg, ?_⟩
    obtain ⟨res, rest⟩ := header
    simp only at hr
    subst hr
    by_cases hs : shard n k files = []
    · rw [hs]
      exact ⟨hh, rfl, rfl⟩
    · rw [addAll_none _ _ hs]
      refine ⟨⟨?_, hh.2⟩, rfl, rfl⟩
      intro os hos
      simp only [Option.some.injEq] at hos
      subst hos
      exact ⟨shard_ok (forall₂_files h) (hfit k hk), hfit k hk⟩

/-- C132, for files that do not end in the byte of a line feed unless one was added.  From input files that hold
predictions, a description with both names and a positive number of shards, the program writes that many files.  File `k`
reads back as a submission with the fields of the description and, in order, the kept predictions of all files whose
position in their file is `k` modulo the number of shards. -/
theorem create_spec_partial (contents : List Bytes) (files : List Objects)
    (h : List.Forall₂ (fun c (f : Objects) => f.Ok ∧ Holds c f) contents files) (hne : files ≠ [])
    (header : Submission) (hh : header.Ok) (hr : header.results = none) (hm : header.method ≠ []) (ha : header.account ≠ [])
    (n : ℕ) (hn : 0 < n) (hfit : ∀ k < n, Fits (Objects.fields ⟨shard n k files, []⟩)) :
    ∃ outs, create contents header n = some outs ∧ outs.length = n ∧ ∀ k < n, ∃ out s,
      outs[k]? = some out ∧ parseSubmission out = some s ∧ s.rest = header.rest ∧
      (s.results.getD {}).objects = shard n k files := by
  obtain ⟨subs, h1, h2, h3⟩ := create_run contents files h hne header hh hr hm ha n hn hfit
  refine ⟨_, h1, by simpa using h2, fun k hk => ?_⟩
  obtain ⟨s, hs, hok, hrest, hobj⟩ := h3 k hk
  exact ⟨writeSubmission s, s, by rw [List.getElem?_map, hs]; rfl, parse_writeSubmission s hok, hrest, hobj⟩

/-! ## All shards together -/

theorem perm_of_key {α : Type} [DecidableEq α] (n : ℕ) (g : α → ℕ) (L : List α) (hg : ∀ a ∈ L, g a < n) :
    ((List.range n).flatMap fun k => L.filter fun a => decide (g a = k)).Perm L := by
  induction L with
  | nil => simp
  | cons a L ih =>
    have ih := ih fun b hb => hg b (by simp [hb])
    rw [List.perm_iff_count] at ih ⊢
    intro x
    have hx := ih x
    rw [List.count_flatMap] at hx ⊢
    simp only [Function.comp_def] at hx ⊢
    rw [List.count_cons, ← hx]
    have hstep : ∀ k, List.count x (List.filter (fun a => decide (g a = k)) (a :: L)) =
        List.count x (List.filter (fun a => decide (g a = k)) L) + (if g a = k then if a == x then 1 else 0 else 0) := by
      intro k
      rw [List.filter_cons]
      by_cases hk : g a = k
      · simp [hk, List.count_cons]
      · simp [hk]
    simp only [hstep]
    rw [List.sum_map_add]
    congr 1
    have ha : g a < n := hg a (by simp)
    have hsum : ∀ m, ((List.range m).map fun k => if g a = k then if a == x then 1 else 0 else 0).sum =
        if g a < m then if a == x then 1 else 0 else 0 := by
      intro m
      induction m with
      | zero => simp
      | succ m ih =>
        rw [List.range_succ, List.map_append, List.sum_append, ih]
        simp only [List.map_cons, List.map_nil, List.sum_cons, List.sum_nil, Nat.add_zero]
        by_cases h1 : g a = m
        · simp [h1]
        · by_cases h2 : g a < m
          · have h3 : g a < m + 1 := by omega
            simp [h1, h2, h3]
          · have h3 : ¬ g a < m + 1 := by omega
            simp [h1, h2, h3]
    rw [hsum n, if_pos ha]

/-- C132. The files together hold every kept prediction once. -/
theorem shards_perm (n : ℕ) (hn : 0 < n) (files : List Objects) :
    ((List.range n).flatMap fun k => shard n k files).Perm
      (((files.flatMap Objects.objects).filter fun o => decide (Kept o)).map sanitise) := by
  have h := perm_of_key n (fun e : Object × ℕ => e.2 % n) ((entries files).filter fun e => decide (Kept e.1))
    fun a _ => Nat.mod_lt _ hn
  have h2 := h.map fun e : Object × ℕ => sanitise e.1
  have e1 : (((entries files).filter fun e => decide (Kept e.1)).map fun e : Object × ℕ => sanitise e.1) =
      ((files.flatMap Objects.objects).filter fun o => decide (Kept o)).map sanitise := by
    have : files.flatMap Objects.objects = (entries files).map Prod.fst := by
      unfold entries
      rw [List.map_flatMap]
      congr 1
      funext f
      rw [List.zipIdx_map_fst]
    rw [this, List.filter_map, List.map_map]
    rfl
  rw [e1, List.map_flatMap] at h2
  refine (List.Perm.of_eq ?_).trans h2
  congr 1
  funext k
  unfold shard
  congr 1
  rw [List.filter_filter]
  congr 1
  funext e
  by_cases h1 : Kept e.1 <;> by_cases h2 : e.2 % n = k <;> simp [h1, h2]

/-! ## Violations -/

/-- One prediction of frame 10. -/
def tenth : Objects := ⟨[{ timestamp := some 10 }], []⟩

/-- A description of a submission. -/
def header : Submission := ⟨none, [⟨2, .bytes [109]⟩, ⟨13, .bytes [97]⟩]⟩

theorem write_tenth : writeObjects tenth = [10, 2, 40, 10] := by
  simp [writeObjects, tenth, Objects.fields, Object.fields, Wire.optional, write, Field.write, Val.write, Val.wireType,
    writeVarint]

theorem tenth_ok : tenth.Ok := by
  refine ⟨?_, by intro f hf; simp [tenth] at hf⟩
  intro o ho
  simp only [tenth, List.mem_singleton] at ho
  subst ho
  refine ⟨⟨by simp, by simp, by simp, by simp, by simp, by intro f hf; simp at hf⟩, ?_⟩
  simp [Fits, Object.fields, Wire.optional, write, Field.write, Val.write, Val.wireType, writeVarint]

/-- C132 fails: a file without a line feed at its end whose last byte is the byte of one, here the end of the time
10 of its only prediction, loses that byte and the program is aborted. -/
theorem last_byte_violated : ∃ os : Objects, os.Ok ∧ os.objects ≠ [] ∧
    ∀ (h : Submission) (n : ℤ), create [writeObjects os] h n = none := by
  refine ⟨tenth, tenth_ok, by simp [tenth], fun h n => ?_⟩
  have : (strip (writeObjects tenth)).bind parseObjects = none := by rw [write_tenth]; decide
  unfold create
  simp [List.mapM_cons, this]

/-- C132 fails: a file without predictions is empty, and the last byte of an empty string is read. -/
theorem no_predictions_violated : ∃ os : Objects, os.Ok ∧
    ∀ (h : Submission) (n : ℤ), create [writeObjects os] h n = none := by
  refine ⟨{}, ⟨by simp, by intro f hf; simp at hf⟩, fun h n => ?_⟩
  have : strip (writeObjects {}) = none := by rfl
  unfold create
  simp [List.mapM_cons, this]

/-- A prediction whose score is not a number. -/
def unscored : Object := { score := some [0, 0, 192, 127] }

/-- The double nearest to 0.03. -/
def nearest : ℚ := 2161727821137838 / 2 ^ 56

example : |nearest - 3 / 100| < 1 / 10 ^ 17 := by norm_num [nearest, abs_lt]

/-- C133. A prediction with a finite score is kept exactly if the score is not below 0.03 and no number of its box is
missing. -/
theorem kept_finite_partial (o : Object) (q : ℚ) (h : single (o.score.getD oneFloat) = .fin q) :
    Kept o ↔ nearest ≤ q ∧
      ∀ x ∈ [(boxOf o).centerX, (boxOf o).centerY, (boxOf o).centerZ, (boxOf o).length, (boxOf o).width,
        (boxOf o).height, (boxOf o).heading], double (x.getD zeroDouble) ≠ .nan := by
  have e : lowest = .fin nearest := by decide +kernel
  unfold Kept Below
  rw [h, e]
  simp only [Fl.lt, decide_eq_true_eq, not_lt]

/-- C133 fails for scores: a prediction with a box of numbers and a score that is not a number is kept. -/
theorem nan_score_violated : ∃ o : Object, single (o.score.getD oneFloat) = .nan ∧ Kept o :=
  ⟨unscored, by decide +kernel, by decide +kernel⟩

/-! ## A case -/

/-- Two files of predictions. -/
def two : List Objects :=
  [⟨[{ timestamp := some 1 }, { timestamp := some 2 }, unscored], []⟩, ⟨[{ timestamp := some 4 }], []⟩]

example : (shard 2 0 two).map Object.timestamp = [some 1, none, some 4] := by decide +kernel
example : (shard 2 1 two).map Object.timestamp = [some 2] := by decide +kernel
example : header.method ≠ [] ∧ header.account ≠ [] ∧ header.results = none := by decide

end Verif.Submit
