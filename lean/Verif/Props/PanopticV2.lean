import Verif.Model.PanopticV2
import Verif.Props.PanopticIds

/-! C225: camera segmentation labels read from components of the second format decode to the labels read from the messages. -/

namespace Verif.PanopticV2

open Verif.Panoptic Verif.Extract

/-- The global id of an instance of a message; fields that are not set read as 0. -/
def globalId (m : Option ℤ × Option ℤ × Option Bool) : ℤ := m.2.1.getD 0

/-- Two labels are of one sequence. -/
def SameSequence (a b : SegLabel) : Prop := a.sequence.getD [] = b.sequence.getD []

theorem mappingLoop_eq (ms : List (Option ℤ × Option ℤ × Option Bool)) : ∀ a b c, mappingLoop (a, b, c) ms =
    (a ++ ms.map (fun m => m.1.getD 0), b ++ ms.map (fun m => m.2.1.getD 0), c ++ ms.map (fun m => m.2.2.getD false)) := by
  induction ms with
  | nil => intro a b c; simp [mappingLoop]
  | cons m ms ih => intro a b c; simp [mappingLoop, ih]

theorem iterate_map {α : Type} (f g : α → ℤ) (t : α → Bool) (l : List α) : iterate (l.map f) (l.map g) (l.map t) = l.map fun x => ⟨f x, g x, t x⟩ := by
  induction l with
  | nil => rfl
  | cons x l ih => simp [iterate, ih]

/-- C225: iterating over the three lists gives as many instances as the shortest of them has entries, the i-th made of the i-th entries. -/
theorem iterate_spec : ∀ (ls gs : List ℤ) (ts : List Bool), (iterate ls gs ts).length = min ls.length (min gs.length ts.length) ∧
    ∀ (i : ℕ) (m : Mapping), (iterate ls gs ts)[i]? = some m ↔ ls[i]? = some m.loc ∧ gs[i]? = some m.glob ∧ ts[i]? = some m.tracked
  | [], gs, ts => by simp [iterate]
  | l :: ls, [], ts => by simp [iterate]
  | l :: ls, g :: gs, [] => by simp [iterate]
  | l :: ls, g :: gs, t :: ts => by
    obtain ⟨h1, h2⟩ := iterate_spec ls gs ts
    refine ⟨by simp only [iterate, List.length_cons, h1]; omega, ?_⟩
    intro i m
    cases i with
    | zero =>
      obtain ⟨a, b, c⟩ := m
      simp [iterate]
    | succ i => simpa [iterate] using h2 i m

/-- C225: the component extracted from a message shows the same label, divisor, mappings, sequence and coverage. -/
theorem ofComponent_extract (p : Png) (f : FrameKey) (camera : ℕ) (l : SegLabel) :
    (segLabel f camera (some l)).map (ofComponent p) = some { ofMessage p l with component := true } := by
  simp only [segLabel, Option.map_some, ofComponent, ofMessage, mappingLoop_eq, List.nil_append, iterate_map]

/-- Every label without instances comes after a label of its sequence that has some. -/
def Introduced (ls : List SegLabel) : Prop :=
  ∀ before l after, ls = before ++ l :: after → l.mapping = [] → ∃ k ∈ before, SameSequence k l ∧ k.mapping ≠ []

theorem addIds_nil {d : List (String × List ℤ)} {s : String} (h : s ∈ d.map Prod.fst) : addIds d s [] = d := by
  induction d with
  | nil => simp at h
  | cons x d ih =>
    obtain ⟨a, l⟩ := x
    rw [addIds]
    split
    · rfl
    next hne => rw [ih (by simp only [List.map_cons, List.mem_cons] at h; rcases h with h | h; exact absurd h.symm hne; exact h)]

theorem mapping_nil {p : Png} {l : SegLabel} : (ofMessage p l).mapping = [] ↔ l.mapping = [] := by simp [ofMessage]

theorem globalIds_components (p : Png) {ls : List SegLabel} (h : Introduced ls) :
    globalIds (ls.map fun l => { ofMessage p l with component := true }) = globalIds (ls.map (ofMessage p)) := by
  have key : ∀ (before after : List SegLabel) (d : List (String × List ℤ)), ls = before ++ after →
      (∀ k ∈ before, k.mapping ≠ [] → (ofMessage p k).seq ∈ d.map Prod.fst) →
      (after.map fun l => { ofMessage p l with component := true }).foldl (fun d f => if f.mapping = [] ∧ ¬ f.component then d else
        addIds d f.seq (f.mapping.map Mapping.glob)) d =
      (after.map (ofMessage p)).foldl (fun d f => if f.mapping = [] ∧ ¬ f.component then d else addIds d f.seq (f.mapping.map Mapping.glob)) d := by
    intro before after
    induction after generalizing before with
    | nil => intro d _ _; rfl
    | cons l after ih =>
      intro d hl hd
      simp only [List.map_cons, List.foldl_cons]
      by_cases hm : l.mapping = []
      · have hm' : (ofMessage p l).mapping = [] := mapping_nil.2 hm
        obtain ⟨k, hk, hs, hk0⟩ := h before l after hl hm
        have hin : (ofMessage p l).seq ∈ d.map Prod.fst := by
          have := hd k hk hk0
          have e : (ofMessage p k).seq = (ofMessage p l).seq := by simp only [ofMessage]; rw [show k.sequence.getD [] = l.sequence.getD [] from hs]
          rwa [e] at this
        have hc : (ofMessage p l).component = false := rfl
        simp only [hm', hc, List.map_nil]
        rw [if_neg (by simp), addIds_nil hin, if_pos (by simp)]
        refine ih (before ++ [l]) d (by simp [hl]) ?_
        intro k hk hk0
        rcases List.mem_append.1 hk with hk | hk
        · exact hd k hk hk0
        · rw [List.mem_singleton.1 hk] at hk0; exact absurd hm hk0
      · have hm' : (ofMessage p l).mapping ≠ [] := fun e => hm (mapping_nil.1 e)
        rw [if_neg (by simp), if_neg (by simp [hm'])]
        refine ih (before ++ [l]) _ (by simp [hl]) ?_
        intro k hk hk0
        rw [addIds_keys]
        rcases List.mem_append.1 hk with hk | hk
        · exact Or.inl (hd k hk hk0)
        · rw [List.mem_singleton.1 hk]; exact Or.inr rfl
  unfold globalIds
  exact key [] ls [] rfl (by simp)

theorem decodeFrame_component (r : Option Remap) (d : ℤ) (f : Frame) : decodeFrame r d { f with component := true } = decodeFrame r d f := rfl

theorem outDivisor_component (p : Png) (ls : List SegLabel) (r : Option Remap) (new : Option ℤ) :
    outDivisor (ls.map fun l => { ofMessage p l with component := true }) r new = outDivisor (ls.map (ofMessage p)) r new := by
  cases ls <;> rfl

theorem frames_component (p : Png) (r : Option Remap) (d : ℤ) (ls : List SegLabel) :
    (ls.map fun l => { ofMessage p l with component := true }).mapM (decodeFrame r d) = (ls.map (ofMessage p)).mapM (decodeFrame r d) := by
  induction ls with
  | nil => rfl
  | cons l ls ih =>
    simp only [List.map_cons, List.mapM_cons, ih, decodeFrame_component]

/-- The components extracted from labels of the cameras of any frames. -/
def Extracted (ls : List SegLabel) (cs : List SegLabel2) : Prop := List.Forall₂ (fun l c => ∃ f camera, segLabel f camera (some l) = some c) ls cs

theorem extracted_frames (p : Png) {ls : List SegLabel} {cs : List SegLabel2} (h : Extracted ls cs) :
    cs.map (ofComponent p) = ls.map fun l => { ofMessage p l with component := true } := by
  induction h with
  | nil => rfl
  | @cons l _ _ _ hd _ ih =>
    obtain ⟨f, camera, e⟩ := hd
    have := ofComponent_extract p f camera l
    rw [e, Option.map_some, Option.some.injEq] at this
    simp only [List.map_cons, this, ih]

/-- C225, the part that holds: without remapping, and with it if every label without instances comes after a label of its sequence that has some, decoding
the extracted components gives what decoding the messages gives. -/
theorem decode_extract_partial (p : Png) {ls : List SegLabel} {cs : List SegLabel2} (h : Extracted ls cs) {global : Bool} (hg : global = true → Introduced ls)
    (sequential : Bool) (new : Option ℤ) : decodeComponents p cs global sequential new = decodeMessages p ls global sequential new := by
  unfold decodeComponents decodeMessages decodeMulti
  rw [extracted_frames p h]
  have hr : remapIf (ls.map fun l => { ofMessage p l with component := true }) global sequential = remapIf (ls.map (ofMessage p)) global sequential := by
    unfold remapIf
    cases global with
    | false => rfl
    | true => simp only [if_true, remapGlobalIds, globalIds_components p (hg rfl)]
  rw [hr]
  simp only [outDivisor_component, frames_component]

theorem globalIds_keys {fs : List Frame} (h : ∀ f ∈ fs, f.component = true) (s : String) : s ∈ (globalIds fs).map Prod.fst ↔ ∃ f ∈ fs, f.seq = s := by
  unfold globalIds
  suffices H : ∀ d : List (String × List ℤ), s ∈ (fs.foldl (fun d f => if f.mapping = [] ∧ ¬ f.component then d else
      addIds d f.seq (f.mapping.map Mapping.glob)) d).map Prod.fst ↔ s ∈ d.map Prod.fst ∨ ∃ f ∈ fs, f.seq = s by simpa using H []
  induction fs with
  | nil => intro d; simp
  | cons f fs ih =>
    intro d
    rw [List.foldl_cons, if_neg (by simp [h f (by simp)]), ih (fun g hg => h g (by simp [hg])), addIds_keys]
    constructor
    · rintro ((h | h) | ⟨g, hg, e⟩)
      · exact Or.inl h
      · exact Or.inr ⟨f, by simp, h.symm⟩
      · exact Or.inr ⟨g, by simp [hg], e⟩
    · rintro (h | ⟨g, hg, e⟩)
      · exact Or.inl (Or.inl h)
      · rcases List.mem_cons.1 hg with rfl | hg
        · exact Or.inl (Or.inr e.symm)
        · exact Or.inr ⟨g, hg, e⟩

theorem offsets_none {x : String × List ℤ} : ∀ {d : List (String × List ℤ)} (c : ℤ), x ∈ d → x.2 = [] → offsets c d = none
  | [], _, h, _ => by simp at h
  | (s, ids) :: d, c, h, e => by
    simp only [offsets, Option.bind_eq_bind]
    rcases List.mem_cons.1 h with rfl | h
    · subst e; rfl
    · cases maxOf ids with
      | none => rfl
      | some m => rw [Option.bind_some, offsets_none (c + m) h e, Option.bind_none]

/-- C225: components can be remapped only if every sequence has an instance: one sequence without any makes the decoding of all of them fail. -/
theorem decode_components_fails (p : Png) {ls : List SegLabel} {cs : List SegLabel2} (h : Extracted ls cs) {l : SegLabel} (hl : l ∈ ls)
    (he : ∀ k ∈ ls, SameSequence k l → k.mapping = []) (sequential : Bool) (new : Option ℤ) : decodeComponents p cs true sequential new = none := by
  unfold decodeComponents decodeMulti
  rw [extracted_frames p h]
  set fs := ls.map fun l => { ofMessage p l with component := true } with hfs
  suffices hr : remapGlobalIds fs sequential = none by simp [remapIf, hr]
  have hc : ∀ f ∈ fs, f.component = true := by
    intro f hf
    obtain ⟨k, -, rfl⟩ := List.mem_map.1 hf
    rfl
  have hk : (ofMessage p l).seq ∈ (globalIds fs).map Prod.fst := (globalIds_keys hc _).2 ⟨_, List.mem_map.2 ⟨l, hl, rfl⟩, rfl⟩
  obtain ⟨x, hx, hxs⟩ := List.mem_map.1 hk
  have hx0 : x.2 = [] := by
    rcases hx2 : x.2 with _ | ⟨i, rest⟩
    · rfl
    · obtain ⟨f, hf, e, m, hm, -⟩ := ((globalIds_spec fs).2 x.1 i).1 ⟨x, hx, rfl, by simp [hx2]⟩
      obtain ⟨k, hk, rfl⟩ := List.mem_map.1 hf
      have hseq : SameSequence k l := by
        have : (ofMessage p k).seq = (ofMessage p l).seq := e.trans hxs
        exact String.ofList_injective this
      have := he k hk hseq
      simp [ofMessage, this] at hm
  unfold remapGlobalIds
  have h0 : globalIds fs ≠ [] := List.ne_nil_of_mem hx
  simp only [if_neg h0, offsets_none 0 hx hx0, Option.bind_eq_bind, Option.bind_none]

/-- Images of one pixel whose bytes are the label: enough for the examples. -/
def bytes : Png := ⟨fun l => l.map UInt8.toNat, fun l => l.map UInt8.toNat⟩

/-- A label of one pixel. -/
def pixel (sequence : String) (inst : UInt8) (mapping : List (Option ℤ × Option ℤ × Option Bool)) : SegLabel :=
  { divisor := some 100, image := [inst], mapping := mapping, sequence := some sequence.toList }

/-- The component extracted from a label. -/
def component (l : SegLabel) : SegLabel2 :=
  let m := mappingLoop ([], [], []) l.mapping
  ⟨(⟨"segment".toList, 0⟩, 1), l.divisor.getD 0, l.image, m.1, m.2.1, m.2.2, l.sequence.getD [], l.coverage⟩

theorem component_extracted (ls : List SegLabel) : Extracted ls (ls.map component) := by
  induction ls with
  | nil => exact .nil
  | cons l ls ih => exact .cons ⟨⟨"segment".toList, 0⟩, 1, rfl⟩ ih

/-- C225 fails for a sequence without instances: its message decodes, its component raises. -/
theorem decode_empty_violated : decodeMessages bytes [pixel "a" 0 []] true false none = some ([([0], [0], [1])], 100) ∧
    decodeComponents bytes [component (pixel "a" 0 [])] true false none = none := by
  constructor <;> rfl

/-- C225 fails if a label without instances is the first of its sequence: the sequences are numbered in another order, and instance 3 of the second sequence, 8 in the labels decoded from
messages, is 3 in those decoded from components. -/
theorem decode_order_violated :
    let ls := [pixel "a" 0 [], pixel "b" 1 [(some 1, some 5, some true)], pixel "a" 1 [(some 1, some 3, some true)]]
    decodeMessages bytes ls true false none = some ([([0], [0], [1]), ([5], [1], [1]), ([8], [1], [1])], 100) ∧
    decodeComponents bytes (ls.map component) true false none = some ([([0], [0], [1]), ([8], [1], [1]), ([3], [1], [1])], 100) := by
  constructor <;> rfl

/-- A case for the hypotheses of `decode_extract_partial`. -/
theorem decode_extract_case :
    let ls := [pixel "a" 1 [(some 1, some 3, some true)], pixel "a" 0 []]
    Introduced ls ∧ decodeComponents bytes (ls.map component) true false none = some ([([3], [1], [1]), ([0], [0], [1])], 100) := by
  refine ⟨?_, rfl⟩
  intro before l after h hm
  rcases before with _ | ⟨b, before⟩
  · simp only [List.nil_append, List.cons.injEq] at h
    rw [← h.1] at hm
    simp [pixel] at hm
  · simp only [List.cons_append, List.cons.injEq] at h
    refine ⟨b, by simp, ?_, by rw [← h.1]; simp [pixel]⟩
    rcases before with _ | ⟨b', before⟩
    · simp only [List.nil_append, List.cons.injEq] at h
      rw [← h.1, ← h.2.1]; rfl
    · simp at h

/-- C225: a component whose list of flags is shorter loses the instances without a flag, silently. -/
theorem iterate_truncated : iterate [1, 2] [10, 20] [true] = [⟨1, 10, true⟩] := rfl

end Verif.PanopticV2
