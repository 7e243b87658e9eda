import Verif.Model.Tools
import Verif.Props.OpsTracking
import Std.Data.String.ToNat

/-!
Properties C139 and C142: which frames and scenes the command line programs evaluate.
-/

namespace Verif.Tools

open Verif.Ops (push lookup setInsert idsOf rowsFor idList)

/-! ### Specification -/

/-- Two objects are of the same frame: the same context, camera and time; an absent camera is UNKNOWN. -/
def SameFrame (a b : Rec) : Prop :=
  a.context = b.context ∧ a.camera.getD 0 = b.camera.getD 0 ∧ a.time = b.time

instance (a b : Rec) : Decidable (SameFrame a b) := by unfold SameFrame; infer_instance

/-- The objects of the frame of `o`, in the order of the file. -/
def ofFrame (o : Rec) (l : List Rec) : List Rec := l.filter fun x => decide (SameFrame x o)

/-- `xs` are the frames of two files: each frame that has an object once, with all its predictions and all its ground
truths in the order of the files; the frames of a context and a camera are in the order of time. -/
def AreFrames (pds gts : List Rec) (xs : List (List Rec × List Rec)) : Prop :=
  ∃ os : List Rec, (∀ o ∈ os, o ∈ pds ∨ o ∈ gts) ∧ (∀ o, o ∈ pds ∨ o ∈ gts → ∃ r ∈ os, SameFrame o r) ∧
    os.Pairwise (fun a b => ¬SameFrame a b) ∧
    os.Pairwise (fun a b => a.context = b.context → a.camera.getD 0 = b.camera.getD 0 → a.time < b.time) ∧
    xs = os.map fun o => (ofFrame o pds, ofFrame o gts)

/-! ### Keys -/

theorem toString_digits (n : Nat) : ∀ c ∈ (toString n).toList, c ≠ '_' := by
  intro c hc
  have h : (toString n).toList = Nat.toDigits 10 n := by
    simp
  rw [h] at hc
  have := Nat.isDigit_of_mem_toDigits (by norm_num) (by norm_num) hc
  rintro rfl
  exact absurd this (by decide)

theorem append_sep {c : Char} : ∀ {a b s t : List Char}, (∀ x ∈ s, x ≠ c) → (∀ x ∈ t, x ≠ c) →
    a ++ c :: s = b ++ c :: t → a = b ∧ s = t := by
  intro a
  induction a with
  | nil =>
    intro b s t hs ht h
    cases b with
    | nil => exact ⟨rfl, by simpa using h⟩
    | cons y b =>
      rw [List.nil_append, List.cons_append, List.cons.injEq] at h
      exact absurd rfl (hs c (by rw [h.2]; simp))
  | cons x a ih =>
    intro b s t hs ht h
    cases b with
    | nil =>
      rw [List.nil_append, List.cons_append, List.cons.injEq] at h
      exact absurd rfl (ht c (by rw [← h.2]; simp))
    | cons y b =>
      rw [List.cons_append, List.cons_append, List.cons.injEq] at h
      obtain ⟨h1, h2⟩ := ih hs ht h.2
      exact ⟨by rw [h.1, h1], h2⟩

/-- C139: the key of a frame determines its context, its camera and its time, whatever the name of the context. -/
theorem detKey_iff (a b : Rec) : detKey a = detKey b ↔ SameFrame a b := by
  unfold detKey SameFrame
  rw [toLex_inj, Prod.mk.injEq]
  constructor
  · rintro ⟨h1, h2⟩
    have h := congrArg String.toList h1
    simp only [String.toList_append, List.append_assoc] at h
    have h3 : ("_" : String).toList = ['_'] := rfl
    rw [h3, List.singleton_append, List.singleton_append] at h
    obtain ⟨h4, h5⟩ := append_sep (toString_digits _) (toString_digits _) h
    refine ⟨String.toList_injective h4, ?_, h2⟩
    have h6 : toString (a.camera.getD 0) = toString (b.camera.getD 0) := String.toList_injective h5
    exact Nat.repr_injective h6
  · rintro ⟨h1, h2, h3⟩
    rw [h1, h2, h3]
    exact ⟨rfl, rfl⟩

/-! ### Grouping -/

section
variable {κ : Type} [LinearOrder κ] (key : Rec → κ)

theorem groupBy_eq (os : List Rec) :
    groupBy key os = (os.map fun o => (key o, o)).foldl (fun m r => push m r.1 r.2) [] := by
  unfold groupBy
  rw [List.foldl_map]

theorem rowsFor_map (os : List Rec) (k : κ) :
    rowsFor (os.map fun o => (key o, o)) k = os.filter fun o => decide (key o = k) := by
  unfold rowsFor
  induction os with
  | nil => rfl
  | cons o os ih =>
    rw [List.map_cons, List.filter_cons, List.filter_cons]
    by_cases h : key o = k <;> simp [h, ih]

theorem examples_eq (pds gts : List Rec) : examples key pds gts =
    (idList (pds.map fun o => (key o, o)) (gts.map fun o => (key o, o))).map fun k =>
      (pds.filter (fun o => decide (key o = k)), gts.filter fun o => decide (key o = k)) := by
  obtain ⟨-, p2, p3⟩ := Ops.group_spec (pds.map fun o => (key o, o)) [] List.nodup_nil
  obtain ⟨-, g2, g3⟩ := Ops.group_spec (gts.map fun o => (key o, o)) [] List.nodup_nil
  unfold examples
  rw [groupBy_eq, groupBy_eq]
  simp only [Ops.idsOf_eq (a := pds.map fun o => (key o, o)) (b := gts.map fun o => (key o, o))
    (fun k => by rw [p2]; simp) (fun k => by rw [g2]; simp), p3, g3, lookup, List.nil_append, rowsFor_map]

theorem mem_keys (pds gts : List Rec) (k : κ) :
    k ∈ idList (pds.map fun o => (key o, o)) (gts.map fun o => (key o, o)) ↔ ∃ o, (o ∈ pds ∨ o ∈ gts) ∧ key o = k := by
  rw [Ops.mem_idList]
  simp only [List.map_map, List.mem_map, Function.comp_apply]
  constructor
  · rintro (⟨o, h1, h2⟩ | ⟨o, h1, h2⟩)
    · exact ⟨o, Or.inl h1, h2⟩
    · exact ⟨o, Or.inr h1, h2⟩
  · rintro ⟨o, h1 | h1, h2⟩
    · exact Or.inl ⟨o, h1, h2⟩
    · exact Or.inr ⟨o, h1, h2⟩

/-- One object for each key. -/
theorem representatives (pds gts : List Rec) : ∃ os : List Rec, (∀ o ∈ os, o ∈ pds ∨ o ∈ gts) ∧
    os.map key = idList (pds.map fun o => (key o, o)) (gts.map fun o => (key o, o)) := by
  have h : ∀ ks : List κ, (∀ k ∈ ks, ∃ o, (o ∈ pds ∨ o ∈ gts) ∧ key o = k) →
      ∃ os : List Rec, (∀ o ∈ os, o ∈ pds ∨ o ∈ gts) ∧ os.map key = ks := by
    intro ks
    induction ks with
    | nil => intro _; exact ⟨[], by simp, rfl⟩
    | cons k ks ih =>
      intro hk
      obtain ⟨o, h1, h2⟩ := hk k (by simp)
      obtain ⟨os, h3, h4⟩ := ih fun k' hk' => hk k' (by simp [hk'])
      refine ⟨o :: os, ?_, by rw [List.map_cons, h2, h4]⟩
      intro x hx
      rcases List.mem_cons.mp hx with rfl | hx
      · exact h1
      · exact h3 x hx
  exact h _ fun k hk => (mem_keys key pds gts k).mp hk

/-- The number of objects in all groups. -/
theorem group_count (ks : List κ) (hn : ks.Nodup) (os : List Rec) (h : ∀ o ∈ os, key o ∈ ks) :
    (ks.map fun k => (os.filter fun o => decide (key o = k)).length).sum = os.length := by
  induction os with
  | nil => simp
  | cons r rs ih =>
    have h1 : ∀ k, ((r :: rs).filter fun o => decide (key o = k)).length =
        (if key r = k then 1 else 0) + (rs.filter fun o => decide (key o = k)).length := by
      intro k
      rw [List.filter_cons]
      by_cases hk : key r = k
      · simp [hk]; omega
      · simp [hk]
    rw [List.map_congr_left (fun k _ => h1 k), List.sum_map_add, ih fun x hx => h x (List.mem_cons_of_mem _ hx)]
    have h2 : (ks.map fun k => if key r = k then 1 else 0).sum = ks.count (key r) := by
      clear hn h ih h1
      induction ks with
      | nil => rfl
      | cons x l ih =>
        rw [List.map_cons, List.sum_cons, ih, List.count_cons]
        by_cases hx : key r = x
        · subst hx; simp; omega
        · simp [hx, Ne.symm hx]
    rw [h2, List.count_eq_one_of_mem hn (h r List.mem_cons_self), List.length_cons]
    omega

end

/-- C139: the programs evaluate the frames of the two files, whatever they contain. -/
theorem examples_frames (pds gts : List Rec) : AreFrames pds gts (examples detKey pds gts) := by
  obtain ⟨os, h1, h2⟩ := representatives detKey pds gts
  have hs : (os.map detKey).Pairwise (· < ·) := by rw [h2]; exact Ops.idList_sorted _ _
  rw [List.pairwise_map] at hs
  refine ⟨os, h1, ?_, ?_, ?_, ?_⟩
  · intro o ho
    have := (mem_keys detKey pds gts (detKey o)).mpr ⟨o, ho, rfl⟩
    rw [← h2, List.mem_map] at this
    obtain ⟨r, hr, hk⟩ := this
    exact ⟨r, hr, (detKey_iff _ _).mp hk.symm⟩
  · refine hs.imp fun {a b} hab hsame => ?_
    rw [(detKey_iff a b).mpr hsame] at hab
    exact lt_irrefl _ hab
  · refine hs.imp fun {a b} hab hc hk => ?_
    unfold detKey at hab
    rw [hc, hk] at hab
    rcases Prod.Lex.lt_iff.mp hab with h | h
    · exact absurd h (lt_irrefl _)
    · exact h.2
  · rw [examples_eq, ← h2, List.map_map]
    apply List.map_congr_left
    intro o _
    simp only [Function.comp_apply, ofFrame, detKey_iff]

/-- C139: every object is in exactly one frame. -/
theorem examples_count (pds gts : List Rec) :
    ((examples detKey pds gts).map fun f => f.1.length).sum = pds.length ∧
    ((examples detKey pds gts).map fun f => f.2.length).sum = gts.length := by
  have hn : (idList (pds.map fun o => (detKey o, o)) (gts.map fun o => (detKey o, o))).Nodup :=
    (Ops.idList_sorted _ _).imp ne_of_lt
  rw [examples_eq, List.map_map, List.map_map]
  exact ⟨group_count detKey _ hn pds fun o ho => (mem_keys detKey pds gts _).mpr ⟨o, Or.inl ho, rfl⟩,
    group_count detKey _ hn gts fun o ho => (mem_keys detKey pds gts _).mpr ⟨o, Or.inr ho, rfl⟩⟩

/-- The frames are determined by the order of the objects within each frame. -/
theorem examples_congr {pds gts pds' gts' : List Rec} (hp : ∀ o, ofFrame o pds = ofFrame o pds')
    (hg : ∀ o, ofFrame o gts = ofFrame o gts') : examples detKey pds gts = examples detKey pds' gts' := by
  have mem : ∀ {a b : List Rec}, (∀ o, ofFrame o a = ofFrame o b) → ∀ o, o ∈ a ↔ o ∈ b := by
    intro a b h o
    have h1 : ∀ l : List Rec, o ∈ ofFrame o l ↔ o ∈ l := by
      intro l
      unfold ofFrame SameFrame
      simp
    rw [← h1 a, h o, h1 b]
  obtain ⟨os, h1, h2⟩ := representatives detKey pds gts
  have e : idList (pds.map fun o => (detKey o, o)) (gts.map fun o => (detKey o, o)) =
      idList (pds'.map fun o => (detKey o, o)) (gts'.map fun o => (detKey o, o)) := by
    apply Ops.sorted_unique (Ops.idList_sorted _ _) (Ops.idList_sorted _ _)
    intro k
    rw [mem_keys, mem_keys]
    simp only [mem hp, mem hg]
  rw [examples_eq, examples_eq, ← e, ← h2, List.map_map, List.map_map]
  apply List.map_congr_left
  intro o _
  simp only [Function.comp_apply, detKey_iff]
  exact Prod.ext (hp o) (hg o)

theorem withLevel_same (n : ℤ) (o : Rec) : (withLevel n o).context = o.context ∧ (withLevel n o).camera = o.camera ∧
    (withLevel n o).time = o.time := by
  unfold withLevel
  split_ifs <;> exact ⟨rfl, rfl, rfl⟩

theorem ofFrame_prepare (o : Rec) (l : List Rec) : ofFrame o (prepare l) = prepare (ofFrame o l) := by
  unfold ofFrame prepare
  induction l with
  | nil => rfl
  | cons a l ih =>
    have hsame : SameFrame (withLevel (a.points.getD 0) a) o ↔ SameFrame a o := by
      obtain ⟨h1, h2, h3⟩ := withLevel_same (a.points.getD 0) a
      unfold SameFrame
      rw [h1, h2, h3]
    rw [List.filterMap_cons, List.filter_cons]
    by_cases h0 : a.points.getD 0 ≤ 0
    · rw [if_pos h0]
      by_cases hs : SameFrame a o
      · simp only [hs, decide_true, if_true]
        rw [List.filterMap_cons, if_pos h0]
        exact ih
      · simp only [hs, decide_false, Bool.false_eq_true, if_false]
        exact ih
    · rw [if_neg h0]
      simp only
      rw [List.filter_cons]
      by_cases hs : SameFrame a o
      · simp only [hs, hsame.mpr hs, decide_true, if_true]
        rw [List.filterMap_cons, if_neg h0, ih]
      · simp only [hs, mt hsame.mp hs, decide_false, Bool.false_eq_true, if_false]
        exact ih

/-- C139: files whose objects are interleaved differently, with the same order within each frame, have the same
metrics. -/
theorem interleaving_irrelevant (E : Env) {pds gts pds' gts' : List Rec} (hp : ∀ o, ofFrame o pds = ofFrame o pds')
    (hg : ∀ o, ofFrame o gts = ofFrame o gts') :
    detection E (some pds) (some gts) = detection E (some pds') (some gts') := by
  unfold detection
  simp only [examples_congr (gts := prepare gts) (gts' := prepare gts') hp fun o => by rw [ofFrame_prepare, ofFrame_prepare, hg]]

/-- Contexts whose names end like the number of a camera: camera 0 of context `a_1` and camera 1 of context `a` are
different frames, and objects with and without camera UNKNOWN are of the same frame. -/
example (o : Rec) : detKey { o with context := "a_1", camera := none } ≠ detKey { o with context := "a", camera := some 1 } ∧
    detKey { o with camera := some 0 } = detKey { o with camera := none } :=
  ⟨fun h => absurd ((detKey_iff _ _).mp h).2.1 (by simp), (detKey_iff _ _).mpr ⟨rfl, rfl, rfl⟩⟩

/-- An interleaved file and a file in the order of frames. -/
example (E : Env) (a b c : Rec) (hb : ¬SameFrame c b)
    (gts : List Rec) : detection E (some [a, b, c]) (some gts) = detection E (some [a, c, b]) (some gts) := by
  apply interleaving_irrelevant
  · intro o
    unfold ofFrame
    have h1 : SameFrame b o → ¬SameFrame c o := by
      rintro ⟨x, y, z⟩ ⟨x', y', z'⟩
      exact hb ⟨x'.trans x.symm, y'.trans y.symm, z'.trans z.symm⟩
    by_cases hbo : SameFrame b o
    · simp [List.filter_cons, hbo, h1 hbo]
    · simp [List.filter_cons, hbo]
  · intro o; rfl

/-! ### Scenes -/

/-- `xs` are the frames of a scene: each time once, in the order of time, with all its objects in the order of the
files. -/
def AreTimes (pds gts : List Rec) (xs : List (List Rec × List Rec)) : Prop :=
  ∃ ts : List ℤ, ts.Pairwise (· < ·) ∧ (∀ t, t ∈ ts ↔ ∃ o, (o ∈ pds ∨ o ∈ gts) ∧ o.time = t) ∧
    xs = ts.map fun t => (pds.filter (fun o => decide (o.time = t)), gts.filter fun o => decide (o.time = t))

/-- `xs` are the scenes of two files: each context once, with all the frames of the context. -/
def AreScenes (pds gts : List Rec) (xs : List (List (List Rec × List Rec))) : Prop :=
  ∃ cs : List String, cs.Nodup ∧ (∀ c, c ∈ cs ↔ ∃ o, (o ∈ pds ∨ o ∈ gts) ∧ o.context = c) ∧
    List.Forall₂ (fun c x => AreTimes (pds.filter fun o => decide (o.context = c))
      (gts.filter fun o => decide (o.context = c)) x) cs xs

theorem scene_rows (os : List Rec) (c : String) :
    rowsFor (os.map fun o => (o.context, o.time, o)) c = (os.filter fun o => decide (o.context = c)).map fun o => (o.time, o) := by
  unfold rowsFor
  induction os with
  | nil => rfl
  | cons o os ih =>
    rw [List.map_cons, List.filter_cons, List.filter_cons]
    by_cases h : o.context = c <;> simp [h, ih]

theorem fill_spec (os : List Rec) :
    (∀ c, c ∈ (os.foldl (fun (m : List (String × List (ℤ × List Rec))) o => OpsTracking.pushIn m o.context o.time o) []).map Prod.fst ↔
      ∃ o ∈ os, o.context = c) ∧
    ∀ c, lookup (os.foldl (fun (m : List (String × List (ℤ × List Rec))) o => OpsTracking.pushIn m o.context o.time o) []) c =
      groupBy Rec.time (os.filter fun o => decide (o.context = c)) := by
  obtain ⟨h1, h2⟩ := OpsTracking.group2_spec (os.map fun o => (o.context, o.time, o)) []
  rw [List.foldl_map] at h1 h2
  refine ⟨fun c => ?_, fun c => ?_⟩
  · rw [h1]; simp
  · rw [h2, scene_rows, groupBy_eq]; rfl

theorem scenes_eq (pds gts : List Rec) : ∃ cs : List String, cs.Pairwise (· < ·) ∧
    (∀ c, c ∈ cs ↔ ∃ o, (o ∈ pds ∨ o ∈ gts) ∧ o.context = c) ∧
    scenes pds gts = cs.map fun c => examples Rec.time (pds.filter fun o => decide (o.context = c))
      (gts.filter fun o => decide (o.context = c)) := by
  obtain ⟨p1, p2⟩ := fill_spec pds
  obtain ⟨g1, g2⟩ := fill_spec gts
  refine ⟨idList (pds.map fun o => (o.context, o)) (gts.map fun o => (o.context, o)), Ops.idList_sorted _ _,
    fun c => mem_keys Rec.context pds gts c, ?_⟩
  unfold scenes
  simp only [p2, g2]
  rw [Ops.idsOf_eq (a := pds.map fun o => (o.context, o)) (b := gts.map fun o => (o.context, o))
    (fun k => by rw [p1]; simp) (fun k => by rw [g1]; simp)]
  rfl

theorem times_spec (pds gts : List Rec) : AreTimes pds gts (examples Rec.time pds gts) :=
  ⟨_, Ops.idList_sorted _ _, fun t => mem_keys Rec.time pds gts t, examples_eq _ _ _⟩

/-- C142: the tracking program evaluates the scenes of the two files: one scene for each context, its frames in the order
of time whatever the order in the files. -/
theorem scenes_spec (pds gts : List Rec) : AreScenes pds gts (scenes pds gts) := by
  obtain ⟨cs, h1, h2, h3⟩ := scenes_eq pds gts
  refine ⟨cs, h1.imp ne_of_lt, h2, ?_⟩
  rw [h3, List.forall₂_map_right_iff, List.forall₂_same]
  intro c _
  exact times_spec _ _

/-- C142: no scene and no frame is empty. -/
theorem scenes_nonempty (pds gts : List Rec) : ∀ xs ∈ scenes pds gts, xs ≠ [] ∧ ∀ x ∈ xs, x.1 ≠ [] ∨ x.2 ≠ [] := by
  obtain ⟨cs, -, h2, h3⟩ := scenes_eq pds gts
  intro xs hxs
  rw [h3, List.mem_map] at hxs
  obtain ⟨c, hc, rfl⟩ := hxs
  obtain ⟨o, ho, hoc⟩ := (h2 c).mp hc
  obtain ⟨ts, -, t2, t3⟩ := times_spec (pds.filter fun o => decide (o.context = c)) (gts.filter fun o => decide (o.context = c))
  rw [t3]
  constructor
  · intro h
    rw [List.map_eq_nil_iff] at h
    have := (t2 o.time).mpr ⟨o, by simpa [hoc] using ho, rfl⟩
    rw [h] at this
    simp at this
  · intro x hx
    obtain ⟨t, ht, rfl⟩ := List.mem_map.mp hx
    obtain ⟨o', h', e⟩ := (t2 t).mp ht
    rcases h' with h' | h'
    · left
      exact List.ne_nil_of_mem (List.mem_filter.mpr ⟨h', by simp [e]⟩)
    · right
      exact List.ne_nil_of_mem (List.mem_filter.mpr ⟨h', by simp [e]⟩)

/-- C142: the tracking program reads the context and the time only, so files whose objects are interleaved differently,
with the same order within each frame, have the same metrics. -/
theorem tracking_interleaving (E : Env) (M : Tracking.Motion Breakdown.Obj) (H : Nat → Tracking.Orders)
    {pds gts pds' gts' : List Rec}
    (hp : ∀ (c : String) (t : ℤ), pds.filter (fun o => decide (o.context = c ∧ o.time = t)) =
      pds'.filter fun o => decide (o.context = c ∧ o.time = t))
    (hg : ∀ (c : String) (t : ℤ), gts.filter (fun o => decide (o.context = c ∧ o.time = t)) =
      gts'.filter fun o => decide (o.context = c ∧ o.time = t)) :
    tracking E M H (some pds) (some gts) = tracking E M H (some pds') (some gts') := by
  have mem : ∀ {a b : List Rec}, (∀ (c : String) (t : ℤ), a.filter (fun o => decide (o.context = c ∧ o.time = t)) =
      b.filter fun o => decide (o.context = c ∧ o.time = t)) → ∀ o, o ∈ a ↔ o ∈ b := by
    intro a b h o
    have h1 : ∀ l : List Rec, o ∈ l.filter (fun x => decide (x.context = o.context ∧ x.time = o.time)) ↔ o ∈ l := by
      intro l; simp
    rw [← h1 a, h, h1 b]
  have two : ∀ (l : List Rec) (c : String) (t : ℤ), (l.filter fun o => decide (o.context = c)).filter (fun o => decide (o.time = t)) =
      l.filter fun o => decide (o.context = c ∧ o.time = t) := by
    intro l c t
    rw [List.filter_filter]
    apply List.filter_congr
    intro o _
    by_cases h1 : o.context = c <;> by_cases h2 : o.time = t <;> simp [h1, h2]
  have e : scenes pds gts = scenes pds' gts' := by
    obtain ⟨cs, h1, h2, h3⟩ := scenes_eq pds gts
    obtain ⟨cs', h1', h2', h3'⟩ := scenes_eq pds' gts'
    have ec : cs = cs' := by
      apply Ops.sorted_unique h1 h1'
      intro c
      rw [h2, h2']
      simp only [mem hp, mem hg]
    rw [h3, h3', ← ec]
    apply List.map_congr_left
    intro c _
    rw [examples_eq, examples_eq]
    have ek : idList ((pds.filter fun o => decide (o.context = c)).map fun o => (o.time, o))
        ((gts.filter fun o => decide (o.context = c)).map fun o => (o.time, o)) =
        idList ((pds'.filter fun o => decide (o.context = c)).map fun o => (o.time, o))
        ((gts'.filter fun o => decide (o.context = c)).map fun o => (o.time, o)) := by
      apply Ops.sorted_unique (Ops.idList_sorted _ _) (Ops.idList_sorted _ _)
      intro k
      rw [mem_keys Rec.time, mem_keys Rec.time]
      simp only [List.mem_filter, mem hp, mem hg]
    rw [ek]
    apply List.map_congr_left
    intro t _
    simp only [two, hp, hg]
  unfold tracking
  simp only [e]

/-- C142, a difference between the programs: objects of one context and time of two cameras are two frames for the
detection program and one for the tracking program (compute_tracking_metrics_main.cc:137-146). -/
theorem cameras_are_merged (a b : Rec) (hc : a.context = b.context) (ht : a.time = b.time)
    (hk : a.camera.getD 0 ≠ b.camera.getD 0) :
    scenes [] [a, b] = [[([], [a, b])]] ∧ (examples detKey [] [a, b]).length = 2 := by
  constructor
  · unfold scenes
    simp [OpsTracking.pushIn, push, lookup, idsOf, setInsert, hc, ht]
  · have hne : detKey a ≠ detKey b := fun h => hk ((detKey_iff a b).mp h).2.1
    unfold examples groupBy
    simp only [List.foldl_cons, List.foldl_nil, push, if_neg hne, idsOf, List.map_nil, List.map_cons, List.nil_append, setInsert,
      if_neg hne.symm]
    split_ifs <;> rfl

end Verif.Tools
