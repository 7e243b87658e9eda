import Verif.Props.LatencyExamples
import Verif.Props.E2ETutorial
import Verif.Props.PvpsTutorial
import Verif.Props.Extract

/-!
# Exactly when the examples of the latency challenge, the end-to-end and panoptic tutorials and the extraction are right

C187: boxes in pixels and all detections.  C201: calibrations beside their images.  C209: saving submissions again.
C157: all numbers of an intrinsic.
-/

namespace Verif.LatencyExamples

/-- **C187, exactly**: a box of the TensorFlow example is in pixels exactly if the image is square or all corners are zero. -/
theorem tfBox_iff (h w : ℕ) (c : Corners) : tfBox h w c = pixels h w c ↔
    h = w ∨ (c.c0 = 0 ∧ c.c1 = 0 ∧ c.c2 = 0 ∧ c.c3 = 0) := by
  constructor
  · intro he
    by_cases hw : h = w
    · exact Or.inl hw
    · right
      have hw' : (h : ℝ) - w ≠ 0 := sub_ne_zero.2 (by exact_mod_cast hw)
      have h1 : (c.c3 - c.c1) * (h : ℝ) = w * (c.c3 - c.c1) := congrArg Box4.length he
      have h2 : (c.c2 - c.c0) * (w : ℝ) = h * (c.c2 - c.c0) := congrArg Box4.width he
      have h3 : (c.c3 + c.c1) * (h : ℝ) / 2 = w * (c.c1 + c.c3) / 2 := congrArg Box4.cx he
      have h4 : (c.c2 + c.c0) * (w : ℝ) / 2 = h * (c.c0 + c.c2) / 2 := congrArg Box4.cy he
      have e1 : c.c3 - c.c1 = 0 := (mul_eq_zero.1 (show (c.c3 - c.c1) * ((h : ℝ) - w) = 0 by linarith)).resolve_right hw'
      have e2 : c.c2 - c.c0 = 0 := (mul_eq_zero.1 (show (c.c2 - c.c0) * ((h : ℝ) - w) = 0 by linarith)).resolve_right hw'
      have e3 : c.c3 + c.c1 = 0 := (mul_eq_zero.1 (show (c.c3 + c.c1) * ((h : ℝ) - w) = 0 by linarith)).resolve_right hw'
      have e4 : c.c2 + c.c0 = 0 := (mul_eq_zero.1 (show (c.c2 + c.c0) * ((h : ℝ) - w) = 0 by linarith)).resolve_right hw'
      refine ⟨?_, ?_, ?_, ?_⟩ <;> linarith
  · rintro (rfl | ⟨h0, h1, h2, h3⟩)
    · exact tfBox_partial h c
    · simp [tfBox, pixels, h0, h1, h2, h3]

/-- **C187, exactly**: a box of the PyTorch example is that of torchvision exactly if both corners are on the diagonal. -/
theorem torch_order_iff (c : Corners) : torchBox c = torchvision c ↔ c.c0 = c.c1 ∧ c.c2 = c.c3 := by
  constructor
  · intro he
    have h1 : (c.c3 + c.c1) / 2 = (c.c0 + c.c2) / 2 := congrArg Box4.cx he
    have h2 : c.c3 - c.c1 = c.c2 - c.c0 := congrArg Box4.length he
    constructor <;> linarith
  · rintro ⟨h0, h2⟩
    simp only [torchBox, torchvision, h0, h2]
    simp only [add_comm]

/-- **C187, exactly**: the PyTorch example returns all detections that have a type exactly if there is a detection and none after
the first has a type. -/
theorem runTorch_iff (ds : List Det) : runTorch ds = some ((ds.filter fun d => decide (0 < translate d.cls)).map fun d =>
    ⟨torchComment d.corners, d.score, translate d.cls⟩) ↔ ds ≠ [] ∧ ∀ d ∈ ds.tail, ¬0 < translate d.cls := by
  cases ds with
  | nil => simp [runTorch]
  | cons d ds =>
    rw [runTorch_violated, runTorch_partial, Option.some.injEq]
    constructor
    · intro h
      refine ⟨by simp, ?_⟩
      have hl := congrArg List.length h
      simp only [List.length_map] at hl
      have : (ds.filter fun d => decide (0 < translate d.cls)).length = 0 := by
        rw [show d :: ds = [d] ++ ds from rfl, List.filter_append, List.length_append] at hl
        omega
      rw [List.length_eq_zero_iff, List.filter_eq_nil_iff] at this
      intro e he
      simpa using this e he
    · rintro ⟨-, h⟩
      have : (ds.filter fun d => decide (0 < translate d.cls)) = [] := by
        rw [List.filter_eq_nil_iff]
        intro e he
        simpa using h e he
      rw [show d :: ds = [d] ++ ds from rfl, List.filter_append, this, List.append_nil]

end Verif.LatencyExamples

namespace Verif.E2ETutorial

private theorem pick_iff {I C : Type} {images : List (ℕ × I)} (hn : (images.map Prod.fst).Nodup) (cals : List (ℕ × C)) (n i : ℕ) (img : I)
    (hi : images[i]? = some (n, img)) : pick images cals n = (cals[i]?).map fun c => some (img, c) := by
  have hf : images.findIdx? (fun p => p.1 = n) = some i := by
    rw [List.findIdx?_eq_some_iff_getElem]
    obtain ⟨hl, he⟩ := List.getElem?_eq_some_iff.1 hi
    refine ⟨hl, by simp [he], ?_⟩
    intro j hj
    have hjl : j < images.length := by omega
    simp only [decide_eq_true_eq]
    intro e
    have := (List.Nodup.getElem_inj_iff hn (i := j) (j := i) (hi := by simpa using hjl) (hj := by simpa using hl)).1 (by simp [e, he])
    omega
  unfold pick
  rw [hf]
  simp only [hi, Option.bind_eq_bind, Option.bind_some]
  cases cals[i]? <;> rfl

private theorem pick_none {I C : Type} {images : List (ℕ × I)} (cals : List (ℕ × C)) (n : ℕ) (h : n ∉ images.map Prod.fst) :
    pick images cals n = some none := by
  unfold pick
  have : images.findIdx? (fun p => p.1 = n) = none := by
    rw [List.findIdx?_eq_none_iff]
    intro p hp
    simp only [decide_eq_false_iff_not]
    rintro rfl
    exact h (List.mem_map_of_mem hp)
  rw [this]

private theorem picks {I C : Type} {images : List (ℕ × I)} (hn : (images.map Prod.fst).Nodup) (cals : List (ℕ × C)) (names : List ℕ)
    (l : List (Option (I × ℕ × C))) (hl : names.mapM (pick images cals) = some l)
    (h : (l.filterMap id).map (fun p => p.2.1) = names.filter (fun n => n ∈ images.map Prod.fst)) :
    ∀ (i : ℕ) p, images[i]? = some p → p.1 ∈ names → ∃ c, cals[i]? = some c ∧ c.1 = p.1 := by
  induction names generalizing l with
  | nil => intro i p _ hp; simp at hp
  | cons n names ih =>
    rw [List.mapM_cons] at hl
    obtain ⟨x, hx, hl⟩ := Option.bind_eq_some_iff.1 hl
    obtain ⟨t, ht, hl⟩ := Option.bind_eq_some_iff.1 hl
    simp only [Option.pure_def, Option.some.injEq] at hl
    subst hl
    intro i p hi hp
    by_cases hm : n ∈ images.map Prod.fst
    · obtain ⟨q, hq, rfl⟩ := List.mem_map.1 hm
      obtain ⟨j, hj⟩ := List.mem_iff_getElem?.1 hq
      rw [pick_iff hn cals q.1 j q.2 hj] at hx
      obtain ⟨c, hc, rfl⟩ := Option.map_eq_some_iff.1 hx
      rw [List.filter_cons, if_pos (by simpa using hm)] at h
      simp only [List.filterMap_cons, id, List.map_cons, List.cons.injEq] at h
      rcases List.mem_cons.1 hp with hp | hp
      · obtain ⟨hil, he⟩ := List.getElem?_eq_some_iff.1 hi
        obtain ⟨hjl, hej⟩ := List.getElem?_eq_some_iff.1 hj
        have : i = j := (List.Nodup.getElem_inj_iff hn (i := i) (j := j) (hi := by simpa using hil) (hj := by simpa using hjl)).1
          (by simp [he, hej, hp])
        subst this
        exact ⟨c, hc, h.1.trans hp.symm⟩
      · exact ih t ht h.2 i p hi hp
    · rw [pick_none cals n hm] at hx
      obtain rfl := Option.some.inj hx
      rw [List.filter_cons, if_neg (by simpa using hm)] at h
      simp only [List.filterMap_cons, id] at h
      rcases List.mem_cons.1 hp with hp | hp
      · exact absurd (List.mem_map.2 ⟨p, List.mem_of_getElem? hi, hp⟩) hm
      · exact ih t ht h i p hi hp

private theorem picked {I C : Type} {images : List (ℕ × I)} (hn : (images.map Prod.fst).Nodup) (cals : List (ℕ × C)) (names : List ℕ)
    (h : ∀ (i : ℕ) p, images[i]? = some p → p.1 ∈ names → ∃ c, cals[i]? = some c ∧ c.1 = p.1) :
    ∃ l, names.mapM (pick images cals) = some l ∧
      (l.filterMap id).map (fun p => p.2.1) = names.filter (fun n => n ∈ images.map Prod.fst) ∧
      ∀ p ∈ l.filterMap id, (p.2.1, p.1) ∈ images ∧ p.2 ∈ cals := by
  induction names with
  | nil => exact ⟨[], rfl, rfl, by simp⟩
  | cons n names ih =>
    obtain ⟨l, h1, h2, h3⟩ := ih fun i p hi hp => h i p hi (List.mem_cons_of_mem _ hp)
    by_cases hm : n ∈ images.map Prod.fst
    · obtain ⟨q, hq, rfl⟩ := List.mem_map.1 hm
      obtain ⟨j, hj⟩ := List.mem_iff_getElem?.1 hq
      obtain ⟨c, hc, e⟩ := h j q hj (by simp)
      have hp : pick images cals q.1 = some (some (q.2, c)) := by rw [pick_iff hn cals q.1 j q.2 hj, hc]; rfl
      refine ⟨some (q.2, c) :: l, by simp [List.mapM_cons, hp, h1], ?_, ?_⟩
      · rw [List.filter_cons, if_pos (by simpa using hm)]
        simp only [List.filterMap_cons, id, List.map_cons, e]
        exact congrArg (q.1 :: ·) h2
      · intro p hp
        simp only [List.filterMap_cons, id] at hp
        rcases List.mem_cons.1 hp with rfl | hp
        · exact ⟨by rw [e]; exact hq, List.mem_of_getElem? hc⟩
        · exact h3 p hp
    · refine ⟨none :: l, by simp [List.mapM_cons, pick_none cals n hm, h1], ?_, by simpa using h3⟩
      rw [List.filter_cons, if_neg (by simpa using hm)]
      simpa using h2

/-- **C201, exactly**: for images of different cameras, the front images come from left to right, each with its own calibration, exactly
if the calibration at the position of every front image is of its camera. -/
theorem front3_iff {I C : Type} {images : List (ℕ × I)} (hn : (images.map Prod.fst).Nodup) (cals : List (ℕ × C)) :
    (∃ out, front3 images cals = some out ∧ IsFront images cals out) ↔
      ∀ (i : ℕ) p, images[i]? = some p → p.1 = 1 ∨ p.1 = 2 ∨ p.1 = 3 → ∃ c, cals[i]? = some c ∧ c.1 = p.1 := by
  have hmem : ∀ n : ℕ, n ∈ [2, 1, 3] ↔ n = 1 ∨ n = 2 ∨ n = 3 := by
    intro n
    simp only [List.mem_cons, List.not_mem_nil, or_false]
    omega
  constructor
  · rintro ⟨out, hf, h1, -, -⟩ i p hi hp
    unfold front3 at hf
    obtain ⟨l, hl, hf⟩ := Option.bind_eq_some_iff.1 hf
    simp only [Option.pure_def, Option.some.injEq] at hf
    subst hf
    rw [List.map_map] at h1
    exact picks hn cals [2, 1, 3] l hl h1 i p hi ((hmem _).2 hp)
  · intro h
    obtain ⟨l, h1, h2, h3⟩ := picked hn cals [2, 1, 3] fun i p hi hp => h i p hi ((hmem _).1 hp)
    refine ⟨((l.filterMap id).map Prod.fst, (l.filterMap id).map Prod.snd), ?_, ?_, ?_, ?_⟩
    · unfold front3; rw [h1]; rfl
    · rw [List.map_map]; exact h2
    · intro c hc
      obtain ⟨p, hp, rfl⟩ := List.mem_map.1 hc
      exact (h3 p hp).2
    · rw [List.forall₂_map_left_iff, List.forall₂_map_right_iff, List.forall₂_same]
      intro p hp
      exact (h3 p hp).1

/-- A case: the side cameras may have their calibrations in another order. -/
theorem front3_iff_case : ∃ out, front3 [(1, "front"), (4, "side left"), (5, "side right")] [(1, 10), (5, 50), (4, 40)] = some out ∧
    IsFront [(1, "front"), (4, "side left"), (5, "side right")] [(1, 10), (5, 50), (4, 40)] out := by
  rw [front3_iff (by simp)]
  intro i p hi hp
  match i with
  | 0 => simp at hi; subst hi; exact ⟨_, rfl, rfl⟩
  | 1 => simp at hi; subst hi; simp at hp
  | 2 => simp at hi; subst hi; simp at hp
  | i + 3 => simp at hi

end Verif.E2ETutorial

namespace Verif.PvpsTutorial

/-- **C209, exactly**: submissions are saved, whatever the names of the contexts, exactly if the folder is missing or empty. -/
theorem saveAll_iff (folder : Folder) (names : List String) : (∃ folder', saveAll folder names = some folder') ↔
    folder = none ∨ folder = some [] := by
  have hs : ∀ (names : List String) (f : Folder), ∃ f', names.foldlM (fun folder context => do
      let name ← saveName (segment ++ context.toList ++ ending)
      pure (save folder name)) f = some f' := by
    intro names
    induction names with
    | nil => intro f; exact ⟨f, rfl⟩
    | cons c names ih =>
      intro f
      have : ∃ n, saveName (segment ++ c.toList ++ ending) = some n := by
        unfold saveName
        have : tfrecord <:+: segment ++ c.toList ++ ending :=
          List.IsInfix.trans (show tfrecord <:+: ending by decide) (List.suffix_append _ _).isInfix
        rw [if_pos this]
        exact ⟨_, rfl⟩
      obtain ⟨n, hn⟩ := this
      rw [List.foldlM_cons, hn]
      exact ih (save f n)
  match folder with
  | none => exact ⟨fun _ => Or.inl rfl, fun _ => hs names none⟩
  | some [] => exact ⟨fun _ => Or.inr rfl, fun _ => hs names none⟩
  | some (a :: l) =>
    constructor
    · rintro ⟨f, hf⟩
      exact absurd hf (by simp [saveAll, removeDirs])
    · simp

end Verif.PvpsTutorial

namespace Verif.Extract

/-- **C157, exactly**: no number of the intrinsic is lost exactly if there are nine. -/
theorem calibration_iff (f : FrameKey) (c : CameraCalibration) : (∃ r, calibration f c = .ok r ∧
    c.intrinsic = [r.intrinsic.fu, r.intrinsic.fv, r.intrinsic.cu, r.intrinsic.cv, r.intrinsic.k1,
      r.intrinsic.k2, r.intrinsic.p1, r.intrinsic.p2, r.intrinsic.k3]) ↔ c.intrinsic.length = 9 := by
  constructor
  · rintro ⟨r, -, h⟩
    rw [h]
    rfl
  · intro h
    cases hr : calibration f c with
    | error e =>
      have := ((calibration_error f c e).1 hr).2
      omega
    | ok r =>
      obtain ⟨⟨rest, hi⟩, -⟩ := (calibration_spec_partial f c r).1 hr
      refine ⟨r, rfl, ?_⟩
      have hl := congrArg List.length hi
      simp only [h, List.length_append, List.length_cons, List.length_nil] at hl
      have : rest = [] := List.length_eq_zero_iff.1 (by omega)
      rw [hi, this, List.append_nil]

end Verif.Extract
