import Verif.Props.SubmitCreate
import Verif.Props.SubmitTwins

/-!
Property C138: results of the same model, through the latency evaluation and through a submission.
-/

namespace Verif.Submit

open Verif.Wire

/-! ## Rows -/

/-- C138. A row of seven numbers is a box of center, length, width, height and heading in the frame of its directory. -/
theorem row_3d (lines : List (List Char)) (f : FrameId) (x y z l w h a score : Bytes) (cls : ℕ) (hc : cls ≤ 4) :
    ∃ o, rowObject lines f 7 [x, y, z, l, w, h, a] score cls = some o ∧ typeOf o = cls ∧ scoreOf o = score ∧
      keyOf o = (f.context, f.timestamp, 0) ∧
      (boxOf o).centerX = some x ∧ (boxOf o).centerY = some y ∧ (boxOf o).centerZ = some z ∧ (boxOf o).length = some l ∧
      (boxOf o).width = some w ∧ (boxOf o).height = some h ∧ (boxOf o).heading = some a := by
  have : ¬ 4 < cls := by omega
  refine ⟨⟨some ⟨some ⟨some x, some y, some z, some w, some l, some h, some a⟩, some cls, []⟩, some score,
    some f.context, some f.timestamp, none, []⟩, ?_, rfl, rfl, rfl, rfl, rfl, rfl, rfl, rfl, rfl, rfl⟩
  unfold rowObject
  rw [if_neg this]
  rfl

/-- C138. A row of four numbers is a box of center, length and width in the image of the camera that the only field
names. -/
theorem row_2d (camera : List Char) (c : ℕ) (hcam : cameraNames[c]? = some camera) (f : FrameId)
    (x y l w score : Bytes) (cls : ℕ) (hc : cls ≤ 4) :
    ∃ o, rowObject (readLines [camera ++ "_IMAGE".toList]) f 4 [x, y, l, w] score cls = some o ∧ typeOf o = cls ∧
      scoreOf o = score ∧ keyOf o = (f.context, f.timestamp, c) ∧
      (boxOf o).centerX = some x ∧ (boxOf o).centerY = some y ∧ (boxOf o).centerZ = none ∧ (boxOf o).length = some l ∧
      (boxOf o).width = some w ∧ (boxOf o).height = none ∧ (boxOf o).heading = none := by
  have : ¬ 4 < cls := by omega
  have hn : camera ++ "_IMAGE".toList ≠ [] := by simp
  have hcv : cameraValue camera = some c := by
    have hlt := (List.getElem?_eq_some_iff.1 hcam).1
    have he := (List.getElem?_eq_some_iff.1 hcam).2
    have hall : ∀ k < cameraNames.length, ∀ n, cameraNames[k]? = some n → cameraValue n = some k := by decide
    exact hall c hlt camera hcam
  have hco : cameraOf (readLines [camera ++ "_IMAGE".toList]) = some c := by
    unfold readLines
    rw [if_neg hn]
    unfold cameraOf
    simp only
    rw [if_pos (List.suffix_append _ _)]
    have : (camera ++ "_IMAGE".toList).take ((camera ++ "_IMAGE".toList).length - 6) = camera := by
      simp
    rw [this, hcv]
  refine ⟨⟨some ⟨some ⟨some x, some y, none, some w, some l, none, none⟩, some cls, []⟩, some score,
    some f.context, some f.timestamp, some c, []⟩, ?_, rfl, rfl, rfl, rfl, rfl, rfl, rfl, rfl, rfl, rfl⟩
  unfold rowObject
  rw [if_neg this]
  simp only [hco, Option.map_some]
  rfl

/-! ## The order of directories -/

theorem mapM_perm {α γ : Type} (f : α → Option γ) {l l' : List α} (h : l.Perm l') :
    ∀ r, l.mapM f = some r → ∃ r', l'.mapM f = some r' ∧ r.Perm r' := by
  induction h with
  | nil => intro r hr; exact ⟨r, hr, List.Perm.refl _⟩
  | cons a h ih =>
    intro r hr
    rw [List.mapM_cons] at hr
    obtain ⟨b, hb, hr⟩ := Option.bind_eq_some_iff.1 hr
    obtain ⟨t, ht, hr⟩ := Option.bind_eq_some_iff.1 hr
    have : r = b :: t := by simpa using hr.symm
    subst this
    obtain ⟨t', ht', hp⟩ := ih t ht
    exact ⟨b :: t', by rw [List.mapM_cons, hb, ht']; rfl, hp.cons b⟩
  | swap a a' l =>
    intro r hr
    rw [List.mapM_cons, List.mapM_cons] at hr
    obtain ⟨b, hb, hr⟩ := Option.bind_eq_some_iff.1 hr
    obtain ⟨q, hq, hr⟩ := Option.bind_eq_some_iff.1 hr
    obtain ⟨b', hb', hq⟩ := Option.bind_eq_some_iff.1 hq
    obtain ⟨t, ht, hq⟩ := Option.bind_eq_some_iff.1 hq
    have : r = b :: b' :: t := by
      have h1 : q = b' :: t := by simpa using hq.symm
      subst h1
      simpa using hr.symm
    subst this
    exact ⟨b' :: b :: t, by rw [List.mapM_cons, List.mapM_cons, hb, hb', ht]; rfl, List.Perm.swap _ _ _⟩
  | trans _ _ ih1 ih2 =>
    intro r hr
    obtain ⟨r1, h1, p1⟩ := ih1 r hr
    obtain ⟨r2, h2, p2⟩ := ih2 r1 h1
    exact ⟨r2, h2, p1.trans p2⟩

/-- C138. The order in which the directories of the frames are listed, by the evaluation and by the program that
collects its results, does not change which detections are in the file. -/
theorem listing_order (run : FrameId → Output) (fields : List (List Char)) (listing listing' : List FrameId)
    (h : listing.Perm listing') (saved : List (FrameId × Output)) (hs : evaluate run listing = some saved)
    (os : List (List Object)) (ho : saved.mapM (makeFrame (readLines fields)) = some os) :
    ∃ saved' os', evaluate run listing' = some saved' ∧ saved'.mapM (makeFrame (readLines fields)) = some os' ∧
      makeFile fields saved' = some (writeObjects ⟨os'.flatten, []⟩) ∧ os.flatten.Perm os'.flatten := by
  obtain ⟨saved', hs', hp⟩ := mapM_perm _ h saved hs
  obtain ⟨os', ho', hp'⟩ := mapM_perm _ hp os ho
  exact ⟨saved', os', hs', ho', by unfold makeFile; rw [ho']; rfl, hp'.flatten⟩

/-! ## The same detections on both ways -/

/-- Specification: a three-dimensional detection with all numbers set, made of numbers, and at least 0.01 in each
extent. -/
structure Solid (o : Object) : Prop where
  label : ∃ l b, o.label = some l ∧ l.box = some b ∧
    (∃ x, b.length = some x) ∧ (∃ x, b.width = some x) ∧ ∃ x, b.height = some x
  numbers : ∀ x ∈ [(boxOf o).centerX, (boxOf o).centerY, (boxOf o).centerZ, (boxOf o).length, (boxOf o).width,
      (boxOf o).height, (boxOf o).heading], double (x.getD zeroDouble) ≠ .nan
  thick : ∀ x ∈ [(boxOf o).length, (boxOf o).width, (boxOf o).height], ¬ Below (double (x.getD zeroDouble)) thin

theorem tiny_thin (a : Fl) (h : ¬ Below a thin) (hn : a ≠ .nan) : ¬ Below a (double tiny) := by
  have e1 : ∃ p q : ℚ, double tiny = .fin p ∧ thin = .fin q ∧ p ≤ q := by
    refine ⟨4722366482869645 / 2 ^ 72, 5764607523034235 / 2 ^ 59, by decide +kernel, by decide +kernel, by norm_num⟩
  obtain ⟨p, q, hp, hq, hle⟩ := e1
  unfold Below at *
  rw [hp]
  rw [hq] at h
  cases a with
  | nan => exact absurd rfl hn
  | inf b => cases b <;> simp_all [Fl.lt]
  | fin r =>
    simp only [Fl.lt, decide_eq_true_eq, not_lt] at h ⊢
    linarith

/-- A solid detection is written unchanged. -/
theorem solid_unchanged (o : Object) (h : Solid o) : sanitise o = o := by
  obtain ⟨⟨l, b, hl, hb, ⟨x, hx⟩, ⟨y, hy⟩, z, hz⟩, hn, ht⟩ := h
  have hbox : boxOf o = b := by unfold boxOf; rw [hl]; simp [hb]
  have key : ∀ (v : Option Bytes) (u : Bytes), v = some u → double (v.getD zeroDouble) ≠ .nan →
      ¬ Below (double (v.getD zeroDouble)) thin → some (atLeast v) = v := by
    intro v u hv h1 h2
    rw [(atLeast_widened v).other (tiny_thin _ h2 h1), hv]
    rfl
  rw [hbox] at hn ht
  have k1 := key b.length x hx (hn _ (by simp)) (ht _ (by simp))
  have k2 := key b.width y hy (hn _ (by simp)) (ht _ (by simp))
  have k3 := key b.height z hz (hn _ (by simp)) (ht _ (by simp))
  rw [show sanitise o = { o with label := some { (o.label.getD {}) with
    box := some { boxOf o with
      length := some (atLeast (boxOf o).length), width := some (atLeast (boxOf o).width),
      height := some (atLeast (boxOf o).height) } } } from rfl, hbox, k1, k2, k3, hl]
  obtain ⟨lb, lt, lr⟩ := l
  simp only at hb
  subst hb
  obtain ⟨ol, os, oc, ot, oca, orr⟩ := o
  simp only at hl
  subst hl
  rfl

/-- A solid detection is left out of the one file if it is left out of the other. -/
theorem solid_skipped (o : Object) (h : Solid o) : skipped o = false ↔ Kept o := by
  have hl := h.thick (boxOf o).length (by simp)
  have hw := h.thick (boxOf o).width (by simp)
  have hh := h.thick (boxOf o).height (by simp)
  unfold Below at hl hw hh
  rw [Bool.not_eq_true] at hl hw hh
  unfold skipped Kept Below scoreOf num
  simp only [hl, hw, hh, Bool.or_false, Bool.and_false]
  constructor
  · intro hs; exact ⟨by rw [hs]; simp, h.numbers⟩
  · rintro ⟨hs, _⟩; simpa using hs

theorem readFiles_subs (subs : List Submission) (n : ℕ) (hlen : subs.length = n) (shards : ℕ → List Object)
    (h : ∀ k < n, ∃ s, subs[k]? = some s ∧ readFile (writeSubmission s) = some (shards k)) :
    readFiles (subs.map writeSubmission) = some ((List.range n).flatMap shards) := by
  have hm : (subs.map writeSubmission).mapM readFile = some ((List.range n).map shards) := by
    rw [ListM.mapM_some_iff, List.forall₂_iff_get]
    refine ⟨by simp [hlen], ?_⟩
    intro i h1 h2
    have hi : i < n := by simpa using h2
    obtain ⟨s, hs, hr⟩ := h i hi
    have hs' := (List.getElem?_eq_some_iff.1 hs).2
    simpa [hs'] using hr
  unfold readFiles
  rw [hm, Option.map_some, List.flatMap_def]

/-- Specification: the detections of a saved frame, one for each row. -/
def rowsOf (lines : List (List Char)) (e : FrameId × Output) : Option (List Object) :=
  ((e.2.boxes.zip e.2.scores).zip e.2.classes).mapM fun (r : (List Bytes × Bytes) × ℕ) =>
    rowObject lines e.1 e.2.width r.1.1 r.1.2 r.2

/-- C138. The file with the latency results holds the detections of the rows, in order, except those that are left
out. -/
theorem makeFile_rows (fields : List (List Char)) (saved : List (FrameId × Output))
    (hlen : ∀ e ∈ saved, e.2.scores.length = e.2.boxes.length ∧ e.2.classes.length = e.2.boxes.length)
    (oss : List (List Object)) (h : saved.mapM (rowsOf (readLines fields)) = some oss) :
    makeFile fields saved = some (writeObjects ⟨oss.flatten.filter (fun o => !skipped o), []⟩) := by
  have hm : saved.mapM (makeFrame (readLines fields)) = some (oss.map fun os => os.filter fun o => !skipped o) := by
    rw [ListM.mapM_some_iff] at h ⊢
    induction h with
    | nil => exact List.Forall₂.nil
    | cons h1 h2 ih =>
      refine List.Forall₂.cons ?_ (ih fun e he => hlen e (by simp [he]))
      obtain ⟨k1, k2⟩ := hlen _ (List.mem_cons_self)
      unfold rowsOf at h1
      unfold makeFrame
      rw [h1]
      simp [k1, k2]
  unfold makeFile
  rw [hm, Option.map_some, List.filter_flatten]

theorem filter_congr_perm {P os : List Object} (k : Key) (h : (P.filter fun o => decide (keyOf o = k)).Perm
    (os.filter fun o => decide (keyOf o = k))) (minimum : ℚ) :
    (frameOf minimum (P.filter fun o => decide (Kept o)) k).Perm (frameOf minimum (os.filter fun o => decide (Kept o)) k) := by
  have e : ∀ L : List Object, frameOf minimum (L.filter fun o => decide (Kept o)) k =
      (L.filter fun o => decide (keyOf o = k)).filter fun o => decide (Checked minimum o) && decide (Kept o) := by
    intro L
    unfold frameOf
    rw [List.filter_filter, List.filter_filter]
    congr 1
    funext o
    by_cases h1 : Checked minimum o <;> by_cases h2 : keyOf o = k <;> by_cases h3 : Kept o <;> simp [h1, h2, h3]
  rw [e, e]
  exact h.filter _

/-- C138, for solid detections.  A participant submits predictions, and the same model is run on some of the frames by
the latency evaluation.  If the predictions of these frames are the rows that the model returns there, in any order, the
detections are at least 0.01 in each extent and made of numbers, those of a frame can be told apart, and the name of the
method does not look like a zone, then the submission is written and the comparison accepts it. -/
theorem honest_accepted_partial (E : Env) (hE : E.Ok) (junk : Bool) (threshold minimum : ℚ) (ht : 0 < threshold)
    (ht1 : threshold ≤ 1)
    -- the submission
    (P : Objects) (hP : P.Ok) (header : Submission) (hh : header.Ok) (hd : Declared header) (hr : header.results = none)
    (hm : header.method ≠ []) (ha : header.account ≠ []) (hz : ∃ name ∈ strings 2 header.rest, ¬ LooksLikeZone name)
    (n : ℕ) (hn : 0 < n) (hfit : ∀ k < n, Fits (Objects.fields ⟨shard n k [P], []⟩))
    -- the latency evaluation
    (fields : List (List Char)) (saved : List (FrameId × Output))
    (hlen : ∀ e ∈ saved, e.2.scores.length = e.2.boxes.length ∧ e.2.classes.length = e.2.boxes.length)
    (oss : List (List Object)) (hrows : saved.mapM (rowsOf (readLines fields)) = some oss)
    (hok : (Objects.mk (oss.flatten.filter fun o => !skipped o) []).Ok)
    -- the detections
    (hsame : ∀ o ∈ oss.flatten, (P.objects.filter fun p => decide (keyOf p = keyOf o)).Perm
      (oss.flatten.filter fun p => decide (keyOf p = keyOf o)))
    (hsolid : ∀ o ∈ P.objects, Solid o) (h3d : ∀ o ∈ oss.flatten, (boxOf o).heading.isSome = true)
    (hapart : ∀ k, Apart E true threshold (oss.flatten.filter fun p => decide (keyOf p = k)))
    (hself : ∀ o ∈ oss.flatten, SelfEqual E true o) :
    ∃ outs latency keys, create [writeObjects P ++ [10]] header n = some outs ∧ makeFile fields saved = some latency ∧
      compare E junk latency outs threshold minimum = some keys := by
  have hfa : List.Forall₂ (fun c (f : Objects) => f.Ok ∧ Holds c f) [writeObjects P ++ [10]] [P] :=
    List.Forall₂.cons ⟨hP, Or.inl rfl⟩ List.Forall₂.nil
  obtain ⟨subs, hc, hsl, hsub⟩ := create_run _ _ hfa (by simp) header hh hr hm ha n hn hfit
  have hread : readFiles (subs.map writeSubmission) = some ((List.range n).flatMap fun k => shard n k [P]) := by
    refine readFiles_subs subs n hsl _ fun k hk => ?_
    obtain ⟨s, h1, h2, h3, h4⟩ := hsub k hk
    refine ⟨s, h1, ?_⟩
    rw [read_submission_partial s h2 (by unfold Declared; rw [h3]; exact hd) (by rw [h3]; exact hz), h4]
  have hperm : ((List.range n).flatMap fun k => shard n k [P]).Perm (P.objects.filter fun o => decide (Kept o)) := by
    refine (shards_perm n hn [P]).trans (List.Perm.of_eq ?_)
    rw [show [P].flatMap Objects.objects = P.objects from by simp]
    have : ∀ o ∈ P.objects.filter (fun o => decide (Kept o)), sanitise o = id o := fun o ho =>
      solid_unchanged o (hsolid o (List.mem_filter.1 ho).1)
    rw [List.map_congr_left this, List.map_id]
  have hsol2 : ∀ o ∈ oss.flatten, Solid o := by
    intro o ho
    have : o ∈ oss.flatten.filter fun p => decide (keyOf p = keyOf o) := List.mem_filter.2 ⟨ho, by simp⟩
    exact hsolid o (List.mem_filter.1 ((hsame o ho).mem_iff.2 this)).1
  have hls : (oss.flatten.filter fun o => !skipped o) = oss.flatten.filter fun o => decide (Kept o) := by
    refine List.filter_congr fun o ho => ?_
    have := solid_skipped o (hsol2 o ho)
    by_cases hk : Kept o
    · simp [this.2 hk, hk]
    · have : ¬ skipped o = false := fun h => hk (this.1 h)
      simp [hk, this]
  obtain ⟨keys, hkeys⟩ := compare_complete_partial E hE junk true _ (subs.map writeSubmission) threshold minimum ht ht1
    (oss.flatten.filter fun o => !skipped o) _ (read_objects _ hok) hread
    (fun _ o ho => h3d o (List.mem_filter.1 (List.mem_of_getLast? ho)).1)
    (by
      rintro k ⟨o, ho, hck, rfl⟩
      have ho' := (List.mem_filter.1 ho).1
      have hpk := filter_congr_perm (keyOf o) (hsame o ho') minimum
      refine ⟨?_, ?_, ?_⟩
      · rw [hls]
        exact (hperm.filter _).trans hpk
      · have hsubl : (frameOf minimum (oss.flatten.filter fun o => !skipped o) (keyOf o)).Sublist
            (oss.flatten.filter fun p => decide (keyOf p = keyOf o)) := by
          unfold frameOf
          rw [List.filter_filter]
          refine List.monotone_filter_right _ ?_
          intro p hp
          simp only [Bool.and_eq_true, decide_eq_true_eq] at hp ⊢
          exact hp.1.2
        exact List.Pairwise.sublist hsubl (hapart (keyOf o))
      · intro p hp
        exact hself p (List.mem_filter.1 (List.mem_filter.1 hp).1).1)
  exact ⟨_, _, keys, hc, makeFile_rows fields saved hlen oss hrows, hkeys⟩

/-! ## Violation -/

/-- A double of about 0.004. -/
def sliver : Bytes := [0, 0, 0, 0, 0, 0, 112, 63]

/-- What a model returns for a frame: a box of unit size and one that is 0.004 long. -/
def output : Output :=
  ⟨7, [[one, one, one, one, one, one, one], [double2, one, one, sliver, one, one, one]], [high, high], [1, 1]⟩

/-- The frame and what is saved for it. -/
def scene : List (FrameId × Output) := [(⟨[99], 1⟩, output)]

/-- The detections that the participant submits. -/
def both : Objects :=
  ⟨[vehicle one high, ⟨some ⟨some ⟨some double2, some one, some one, some one, some sliver, some one, some one⟩, some 1, []⟩,
    some high, some [99], some 1, none, []⟩], []⟩

/-- A description of the submission. -/
def title : Submission := ⟨none, [⟨1, .varint 2⟩, ⟨2, .bytes mine⟩, ⟨13, .bytes [97]⟩]⟩

theorem title_ok : title.Ok :=
  ⟨by intro os h; simp [title] at h, (named_ok mine (by decide)).2⟩

theorem both_rows : scene.mapM (rowsOf (readLines [])) = some [both.objects] := by decide +kernel

theorem both_ok : both.Ok := by
  refine ⟨?_, by intro f hf; simp [both] at hf⟩
  intro o ho
  simp only [both, List.mem_cons, List.not_mem_nil, or_false] at ho
  rcases ho with rfl | rfl
  · exact vehicle_ok one high rfl rfl
  · refine ⟨⟨?_, ?_, by simp, by simp, by simp, by intro f hf; simp at hf⟩, ?_⟩
    · intro l h
      simp only [Option.some.injEq] at h
      subst h
      refine ⟨⟨?_, by simp, by intro f hf; simp at hf⟩, ?_⟩
      · intro b h
        simp only [Option.some.injEq] at h
        subst h
        refine ⟨?_, ?_⟩
        · intro f hf
          simp only [Box.fields, Wire.optional, List.cons_append, List.nil_append, List.mem_cons, List.not_mem_nil,
            or_false] at hf
          rcases hf with rfl | rfl | rfl | rfl | rfl | rfl | rfl <;> exact ⟨by norm_num, by norm_num, rfl⟩
        · simp [Fits, Box.fields, Wire.optional, write, Field.write, Val.write, Val.wireType, writeVarint, one, sliver, double2]
      · simp [Fits, Label.fields, Box.fields, Wire.optional, write, Field.write, Val.write, Val.wireType, writeVarint,
          one, sliver, double2]
    · intro s h
      simp only [Option.some.injEq] at h
      subst h
      rfl
    · simp [Fits, Object.fields, Label.fields, Box.fields, Wire.optional, write, Field.write, Val.write, Val.wireType,
        writeVarint, one, sliver, double2, high]

/-- C138 fails: a model returns two detections for a frame, one of them 0.004 long.  The participant submits exactly
these.  The program that collects the latency results leaves out the small one, the program that writes the submission
keeps it, and the comparison fails whatever the environment. -/
theorem honest_accepted_violated : ∃ outs latency, create [writeObjects both ++ [10]] title 1 = some outs ∧
    makeFile [] scene = some latency ∧ ∀ (E : Env), E.Ok → ∀ junk, compare E junk latency outs (9 / 10) 0 = none := by
  have hfa : List.Forall₂ (fun c (f : Objects) => f.Ok ∧ Holds c f) [writeObjects both ++ [10]] [both] :=
    List.Forall₂.cons ⟨both_ok, Or.inl rfl⟩ List.Forall₂.nil
  have hs0 : shard 1 0 [both] = both.objects := by decide +kernel
  have hfit : ∀ k < 1, Fits (Objects.fields ⟨shard 1 k [both], []⟩) := by
    intro k hk
    obtain rfl : k = 0 := by omega
    rw [hs0]
    simp [Fits, both, vehicle, cube, Objects.fields, Object.fields, Label.fields, Box.fields, Wire.optional, write,
      Field.write, Val.write, Val.wireType, writeVarint, one, sliver, double2, high]
  obtain ⟨subs, hc, hsl, hsub⟩ := create_run _ _ hfa (by simp) title title_ok rfl (by decide) (by decide) 1 (by norm_num) hfit
  have hread : readFiles (subs.map writeSubmission) = some ((List.range 1).flatMap fun k => shard 1 k [both]) := by
    refine readFiles_subs subs 1 hsl _ fun k hk => ?_
    obtain ⟨s, h1, h2, h3, h4⟩ := hsub k hk
    refine ⟨s, h1, ?_⟩
    rw [read_submission_partial s h2 (by unfold Declared; rw [h3]; exact named_declared mine)
      (by rw [h3]; exact ⟨mine, by decide, mine_not_zone⟩), h4]
  have hls : ([both.objects].flatten.filter fun o => !skipped o) = (fleet [(one, high)]).objects := by decide +kernel
  have hmake := makeFile_rows [] scene (by decide) _ both_rows
  refine ⟨_, _, hc, hmake, fun E hE junk => ?_⟩
  cases hcmp : compare E junk (writeObjects ⟨[both.objects].flatten.filter (fun o => !skipped o), []⟩)
      (subs.map writeSubmission) (9 / 10) 0 with
  | none => rfl
  | some keys =>
    exfalso
    have hl : readFile (writeObjects ⟨[both.objects].flatten.filter (fun o => !skipped o), []⟩) =
        some (fleet [(one, high)]).objects := by
      rw [hls]
      exact (read_fleet [(one, high)] (by decide)).1
    have := extra_detections_partial E hE junk _ _ (9 / 10) 0 (by norm_num) keys hcmp _ _ hl hread ([99], 1, 0)
      ⟨vehicle one high, by simp [fleet], by decide +kernel, rfl⟩
    revert this
    decide +kernel

/-- The same with a second box of unit size is accepted. -/
example : ∀ o ∈ (fleet [(one, high), (double2, high)]).objects, Solid o := by
  intro o ho
  simp only [fleet, List.map_cons, List.map_nil, List.mem_cons, List.not_mem_nil, or_false] at ho
  rcases ho with rfl | rfl
  · exact ⟨⟨_, _, rfl, rfl, ⟨_, rfl⟩, ⟨_, rfl⟩, _, rfl⟩, by decide +kernel, by unfold Below; decide +kernel⟩
  · exact ⟨⟨_, _, rfl, rfl, ⟨_, rfl⟩, ⟨_, rfl⟩, _, rfl⟩, by decide +kernel, by unfold Below; decide +kernel⟩

end Verif.Submit
