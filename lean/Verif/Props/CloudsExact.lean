import Verif.Props.CloudsVersions

/-!
C150: exactly which frames have clouds.
-/

namespace Verif.Clouds

open Verif.Boxes (V3 M4)

/-! ## Specification -/

/-- Every pixel with a positive range is a pixel of the image of projections. -/
def Covers (x : Image ℝ) (y : Image ℤ) : Prop := ∀ r c, r < x.h → c < x.w → 0 < x.at r c 0 → r < y.h ∧ c < y.w

/-- What is necessary and sufficient for a calibration: the return and its projections, three numbers for the shape of each, an extrinsic
matrix, projections of the pixels with a range, an inclination for each row if there is a list, and, for TOP, poses of the
same size and a pose of the frame with an inverse. -/
def Needed (s : Parsed) (index : ℕ) (top : Image ℝ) (frame : M4) (c : Calibration) : Prop :=
  ∃ ri x cp y e, (s.ranges c.name).bind (fun l => l[index]?) = some ri ∧ (s.projections c.name).bind (fun l => l[index]?) = some cp ∧
    reshape ri = some x ∧ reshape cp = some y ∧ matrix c.extrinsic = some e ∧ x.c ≠ 0 ∧ Covers x y ∧
    (c.beams = [] ∨ c.beams.length = x.h) ∧ (c.name = 1 → top.h = x.h ∧ top.w = x.w ∧ frame.det ≠ 0)

/-! ## Proofs -/

theorem clouds_if {f : Frame} {s : Parsed} {index : ℕ} {keep : Bool} {frame : M4} {top : Image ℝ}
    (hn : (f.calibrations.map Calibration.name).Nodup) (hf : matrix f.pose = some frame) (ht : poses s.topPose = some top)
    (hu : ∀ c ∈ f.calibrations, Needed s index top frame c) : ∃ r, toCloud f s index keep = some r := by
  have hcart : ∀ c ∈ f.calibrations, ∃ img, cartesianOf s frame top index keep c = some img ∧
      ∃ ri x cp y e pts, (s.ranges c.name).bind (fun l => l[index]?) = some ri ∧
        (s.projections c.name).bind (fun l => l[index]?) = some cp ∧ reshape ri = some x ∧ reshape cp = some y ∧
        cartesian x e (rowInclinations c.beams c.lo c.hi x.h) (if c.name = 1 then some top else none)
          (if c.name = 1 then some frame else none) = some pts ∧ img = withPolar keep x pts ∧ Covers x y := by
    intro c hc
    obtain ⟨ri, x, cp, y, e, h1, h2, h3, h4, h5, h6, h7, h9, h10⟩ := hu c hc
    have hl : (rowInclinations c.beams c.lo c.hi x.h).length = x.h := by
      unfold rowInclinations
      rcases h9 with hb | hb
      · simp [hb, RangeImage.inclinations]
      · split
        · simp [RangeImage.inclinations]
        · simpa using hb
    obtain ⟨pts, hpts⟩ := cartesian_total (e := e) (p := if c.name = 1 then some top else none)
      (f := if c.name = 1 then some frame else none) h6 hl (by
        intro pi hpi
        split at hpi
        · rename_i h1; cases hpi; rw [if_pos h1]; exact ⟨(h10 h1).1, (h10 h1).2.1, frame, rfl, (h10 h1).2.2⟩
        · simp at hpi)
    refine ⟨withPolar keep x pts, ?_, ri, x, cp, y, e, pts, h1, h2, h3, h4, hpts, rfl, h7⟩
    obtain ⟨l, hl1, hl2⟩ := Option.bind_eq_some_iff.1 h1
    unfold cartesianOf
    by_cases hb : c.beams = []
    · have := (reshape_some h3).1
      rw [hb] at hpts
      simp [hl1, hl2, h3, h5, hb, this, hpts]
    · rw [rowInclinations_height (b := 0) (fun h => absurd h hb)] at hpts
      simp [hl1, hl2, h3, h5, hb, hpts]
  have hd : ∀ (cs : List Calibration), (∀ c ∈ cs, c ∈ f.calibrations) → ∀ d, ∃ d', cs.foldlM (fun (d : ℕ → Option (List (List (List ℝ)))) c => do
      let x ← cartesianOf s frame top index keep c
      pure (Function.update d c.name (some x))) d = some d' := by
    intro cs
    induction cs with
    | nil => intro _ d; exact ⟨d, rfl⟩
    | cons c cs ih =>
      intro hm d
      obtain ⟨img, h1, _⟩ := hcart c (hm c (by simp))
      rw [List.foldlM_cons]
      simp only [h1, Option.bind_eq_bind, Option.bind_some, Option.pure_def]
      exact ih (fun c' h => hm c' (by simp [h])) _
  obtain ⟨d', hd'⟩ := hd f.calibrations (fun _ h => h) fun _ => none
  obtain ⟨hget, _⟩ := dict_get hn hd'
  have : ∃ r, (f.calibrations.insertionSort fun a b => a.name ≤ b.name).mapM (cloudOf s d' index) = some r := by
    apply ListM.mapM_isSome
    intro c hc
    have hc : c ∈ f.calibrations := (List.mem_insertionSort _).1 hc
    obtain ⟨img, h1, h2⟩ := hget c hc
    obtain ⟨img', h1', ri, x, cp, y, e, pts, g1, g2, g3, g4, g5, g6, g7⟩ := hcart c hc
    rw [h1] at h1'
    cases h1'
    obtain ⟨rows, hrows⟩ := gather_total (keep := keep) g5
    have : ∃ pr, gatherImage y (hits x) = some pr := by
      apply ListM.mapM_isSome
      intro p hp
      obtain ⟨hr, hc⟩ := mem_hits_lt hp
      exact ⟨_, if_pos (g7 p.1 p.2 hr hc (by simpa [hits] using (List.mem_filter.1 hp).2))⟩
    obtain ⟨pr, hpr⟩ := this
    obtain ⟨l, hl1, hl2⟩ := Option.bind_eq_some_iff.1 g1
    obtain ⟨l', hl1', hl2'⟩ := Option.bind_eq_some_iff.1 g2
    exact ⟨(rows, pr), by simp [cloudOf, hl1, hl2, g3, h2, g6, hrows, hl1', hl2', g4, hpr]⟩
  obtain ⟨r, hr⟩ := this
  refine ⟨(r.map Prod.fst, r.map Prod.snd), ?_⟩
  unfold toCloud toCartesian
  simp only [hf, ht, Option.bind_eq_bind, Option.bind_some, Option.pure_def] at hd' ⊢
  rw [hd']
  simp [hr]

theorem cartesian_needs {x : Image ℝ} {e : M4} {incl : List ℝ} {p : Option (Image ℝ)} {f : Option M4} {pts : List (List V3)}
    (h : cartesian x e incl p f = some pts) :
    x.c ≠ 0 ∧ incl.length = x.h ∧ ∀ pi F, p = some pi → f = some F → pi.h = x.h ∧ pi.w = x.w ∧ F.det ≠ 0 := by
  unfold cartesian at h
  split at h
  · simp at h
  rename_i h0
  push Not at h0
  refine ⟨h0.1, h0.2, ?_⟩
  rintro pi F rfl rfl
  simp only at h
  split at h
  · simp at h
  rename_i h1
  push Not at h1
  refine ⟨h1.1, h1.2, ?_⟩
  intro hd
  simp [Boxes.inv, hd] at h

theorem clouds_needs {f : Frame} {s : Parsed} {index : ℕ} {keep : Bool} {r : List (List (List ℝ)) × List (List (List ℤ))}
    (hn : (f.calibrations.map Calibration.name).Nodup) (h : toCloud f s index keep = some r) :
    ∃ frame top, matrix f.pose = some frame ∧ poses s.topPose = some top ∧ ∀ c ∈ f.calibrations, Needed s index top frame c := by
  unfold toCloud toCartesian at h
  simp only [Option.bind_eq_bind, Option.bind_eq_some_iff] at h
  obtain ⟨d, ⟨frame, hf, top, ht, hd⟩, rs, hrs, _⟩ := h
  refine ⟨frame, top, hf, ht, ?_⟩
  intro c hc
  obtain ⟨hget, _⟩ := dict_get hn hd
  obtain ⟨img, h1, h2⟩ := hget c hc
  obtain ⟨_, _, h3⟩ := ListM.forall₂_exists_left (ListM.mapM_forall₂ hrs) ((List.mem_insertionSort _).2 hc)
  unfold cartesianOf at h1
  unfold cloudOf at h3
  simp only [Option.bind_eq_bind, Option.bind_eq_some_iff] at h1 h3
  obtain ⟨l, a1, ri, a2, h1⟩ := h1
  have : ∃ height e x pts, matrix c.extrinsic = some e ∧ reshape ri = some x ∧ cartesian x e (rowInclinations c.beams c.lo c.hi height)
      (if c.name = 1 then some top else none) (if c.name = 1 then some frame else none) = some pts := by
    split at h1 <;> simp only [Option.bind_eq_some_iff] at h1 <;> obtain ⟨height, _, e, a4, x, a5, pts, a6, _⟩ := h1 <;>
      exact ⟨height, e, x, pts, a4, a5, a6⟩
  obtain ⟨height, e, x, pts, a4, a5, a6⟩ := this
  obtain ⟨l', b1, ri', b2, x', b3, image, b4, points, b5, cl, b6, cp, b7, y, b8, cps, b9, _⟩ := h3
  rw [a1] at b1; cases b1
  rw [a2] at b2; cases b2
  rw [a5] at b3; cases b3
  obtain ⟨c1, c2, c3⟩ := cartesian_needs a6
  refine ⟨ri, x, cp, y, e, by simp [a1, a2], by simp [b6, b7], a5, b8, a4, c1, ?_, ?_, ?_⟩
  · intro i j hi hj hp
    have hm : (i, j) ∈ hits x := by
      simp only [hits, List.mem_filter, List.mem_flatMap, List.mem_map, List.mem_range]
      exact ⟨⟨i, hi, j, hj, rfl⟩, by simpa using hp⟩
    obtain ⟨_, _, hz⟩ := ListM.forall₂_exists_left (ListM.mapM_forall₂ b9) hm
    by_contra hne
    rw [if_neg hne] at hz
    simp at hz
  · by_cases hb : c.beams = []
    · exact .inl hb
    · right; simpa [rowInclinations, hb] using c2
  · intro h1
    exact c3 top frame (if_pos h1) (if_pos h1)

/-- C150: if no laser is calibrated twice, a frame has clouds exactly if it has a pose, poses of the pixels of TOP, and what
each calibration needs.  Keeping the polar features changes nothing.  The frame of `CloudsVersions` after `clouds_exist_partial` meets both sides. -/
theorem clouds_exist_iff {f : Frame} {s : Parsed} {index : ℕ} {keep : Bool} (hn : (f.calibrations.map Calibration.name).Nodup) :
    (∃ r, toCloud f s index keep = some r) ↔
      ∃ frame top, matrix f.pose = some frame ∧ poses s.topPose = some top ∧ ∀ c ∈ f.calibrations, Needed s index top frame c :=
  ⟨fun ⟨_, h⟩ => clouds_needs hn h, fun ⟨_, _, hf, ht, hu⟩ => clouds_if hn hf ht hu⟩

end Verif.Clouds
