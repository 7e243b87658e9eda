import Verif.Props.CloudsFrame

/-!
C150-C152: which frames have clouds, the second version of the functions, and the motion data set.
-/

namespace Verif.Clouds

open Verif.Boxes (V3 M4)

/-! ## Which frames have clouds -/

theorem cartesian_total {x : Image ℝ} {e : M4} {incl : List ℝ} {p : Option (Image ℝ)} {f : Option M4} (h0 : x.c ≠ 0)
    (hl : incl.length = x.h) (hp : ∀ pi, p = some pi → pi.h = x.h ∧ pi.w = x.w ∧ ∃ F, f = some F ∧ F.det ≠ 0) :
    ∃ pts, cartesian x e incl p f = some pts := by
  unfold cartesian
  rw [if_neg (by tauto)]
  cases p with
  | none =>
    apply ListM.mapM_isSome
    intro r hr
    apply ListM.mapM_isSome
    intro c _
    have : r < incl.length := by rw [hl]; exact List.mem_range.1 hr
    simp [RangeImage.extract, RangeImage.polar, RangeImage.cartesian, List.getElem?_eq_getElem this]
  | some pi =>
    obtain ⟨h1, h2, F, rfl, hF⟩ := hp pi rfl
    simp only [h1, h2, ne_eq, not_true, or_self, if_false, Boxes.inv, hF, Option.bind_eq_bind, Option.bind_some]
    apply ListM.mapM_isSome
    intro r hr
    apply ListM.mapM_isSome
    intro c _
    have : r < incl.length := by rw [hl]; exact List.mem_range.1 hr
    simp [RangeImage.extract, RangeImage.polar, RangeImage.cartesian, List.getElem?_eq_getElem this, Boxes.inv, hF]

theorem cartesian_size {x : Image ℝ} {e : M4} {incl : List ℝ} {p : Option (Image ℝ)} {f : Option M4} {pts : List (List V3)}
    (h : cartesian x e incl p f = some pts) {r c : ℕ} (hr : r < x.h) (hc : c < x.w) : ∃ q, ((pts[r]?).bind fun row => row[c]?) = some q := by
  unfold cartesian at h
  split at h
  · simp at h
  split at h
  · obtain ⟨q, _, hq⟩ := grid_get h hr hc; exact ⟨q, hq⟩
  · split at h
    · simp at h
    split at h
    · simp at h
    · simp only [Option.bind_eq_bind, Option.bind_eq_some_iff] at h
      obtain ⟨_, _, h⟩ := h
      obtain ⟨q, _, hq⟩ := grid_get h hr hc; exact ⟨q, hq⟩

theorem withPolar_get {keep : Bool} {x : Image ℝ} {pts : List (List V3)} {r c : ℕ} (hr : r < x.h) (hc : c < x.w) {q : V3}
    (hq : ((pts[r]?).bind fun row => row[c]?) = some q) :
    (((withPolar keep x pts)[r]?).bind fun row => row[c]?) = some ((if keep then (x.cell r c).take 3 else []) ++ [q 0, q 1, q 2]) := by
  simp only [withPolar, List.getElem?_map, List.getElem?_range hr, Option.map_some, Option.bind_some, List.getElem?_range hc, hq,
    Option.getD_some]

theorem gather_total {x : Image ℝ} {keep : Bool} {e : M4} {incl : List ℝ} {p : Option (Image ℝ)} {f : Option M4} {pts : List (List V3)}
    (h : cartesian x e incl p f = some pts) : ∃ rows, gather (withPolar keep x pts) (hits x) = some rows := by
  apply ListM.mapM_isSome
  intro p hp
  obtain ⟨hr, hc⟩ := mem_hits_lt hp
  obtain ⟨q, hq⟩ := cartesian_size h hr hc
  exact ⟨_, withPolar_get hr hc hq⟩

/-- What a calibration needs: the return, its projections, the shapes, and an inclination for each row if there is a list. -/
structure Usable (s : Parsed) (index : ℕ) (top : Image ℝ) (frame : M4) (c : Calibration) : Prop where
  all : ∃ ri x cp y e, (s.ranges c.name).bind (fun l => l[index]?) = some ri ∧ (s.projections c.name).bind (fun l => l[index]?) = some cp ∧
    reshape ri = some x ∧ reshape cp = some y ∧ matrix c.extrinsic = some e ∧ x.c ≠ 0 ∧ x.h ≤ y.h ∧ x.w ≤ y.w ∧
    (c.beams = [] ∨ c.beams.length = x.h) ∧ (c.name = 1 → top.h = x.h ∧ top.w = x.w ∧ frame.det ≠ 0)

/-- C150: a frame with the first return of TOP has clouds. -/
theorem clouds_exist_partial {f : Frame} {s : Parsed} {index : ℕ} {keep : Bool} {frame : M4} {top : Image ℝ}
    (hn : (f.calibrations.map Calibration.name).Nodup) (hf : matrix f.pose = some frame) (ht : poses s.topPose = some top)
    (hu : ∀ c ∈ f.calibrations, Usable s index top frame c) : ∃ r, toCloud f s index keep = some r := by
  have hcart : ∀ c ∈ f.calibrations, ∃ img, cartesianOf s frame top index keep c = some img ∧
      ∃ ri x cp y e pts, (s.ranges c.name).bind (fun l => l[index]?) = some ri ∧
        (s.projections c.name).bind (fun l => l[index]?) = some cp ∧ reshape ri = some x ∧ reshape cp = some y ∧
        cartesian x e (rowInclinations c.beams c.lo c.hi x.h) (if c.name = 1 then some top else none)
          (if c.name = 1 then some frame else none) = some pts ∧ img = withPolar keep x pts ∧ x.h ≤ y.h ∧ x.w ≤ y.w := by
    intro c hc
    obtain ⟨ri, x, cp, y, e, h1, h2, h3, h4, h5, h6, h7, h8, h9, h10⟩ := (hu c hc).all
    have hl : (rowInclinations c.beams c.lo c.hi x.h).length = x.h := by
      unfold rowInclinations
      rcases h9 with hb | hb
      · simp [hb, RangeImage.inclinations]
      · split
        · simp [RangeImage.inclinations]
        · simpa using hb
    obtain ⟨pts, hpts⟩ := cartesian_total (e := e) (p := if c.name = 1 then some top else none)
      (f := if c.name = 1 then some frame else none) h6 hl (by
        intro pi hpi
        split at hpi
        · rename_i h1; cases hpi; rw [if_pos h1]; exact ⟨(h10 h1).1, (h10 h1).2.1, frame, rfl, (h10 h1).2.2⟩
        · simp at hpi)
    refine ⟨withPolar keep x pts, ?_, ri, x, cp, y, e, pts, h1, h2, h3, h4, hpts, rfl, h7, h8⟩
    obtain ⟨l, hl1, hl2⟩ := Option.bind_eq_some_iff.1 h1
    unfold cartesianOf
    by_cases hb : c.beams = []
    · have := (reshape_some h3).1
      rw [hb] at hpts
      simp [hl1, hl2, h3, h5, hb, this, hpts]
    · rw [rowInclinations_height (b := 0) (fun h => absurd h hb)] at hpts
      simp [hl1, hl2, h3, h5, hb, hpts]
  have hd : ∀ (cs : List Calibration), (∀ c ∈ cs, c ∈ f.calibrations) → ∀ d, ∃ d', cs.foldlM (fun (d : ℕ → Option (List (List (List ℝ)))) c => do
      let x ← cartesianOf s frame top index keep c
      pure (Function.update d c.name (some x))) d = some d' := by
    intro cs
    induction cs with
    | nil => intro _ d; exact ⟨d, rfl⟩
    | cons c cs ih =>
      intro hm d
      obtain ⟨img, h1, _⟩ := hcart c (hm c (by simp))
      rw [List.foldlM_cons]
      simp only [h1, Option.bind_eq_bind, Option.bind_some, Option.pure_def]
      exact ih (fun c' h => hm c' (by simp [h])) _
  obtain ⟨d', hd'⟩ := hd f.calibrations (fun _ h => h) fun _ => none
  obtain ⟨hget, _⟩ := dict_get hn hd'
  have : ∃ r, (f.calibrations.insertionSort fun a b => a.name ≤ b.name).mapM (cloudOf s d' index) = some r := by
    apply ListM.mapM_isSome
    intro c hc
    have hc : c ∈ f.calibrations := (List.mem_insertionSort _).1 hc
    obtain ⟨img, h1, h2⟩ := hget c hc
    obtain ⟨img', h1', ri, x, cp, y, e, pts, g1, g2, g3, g4, g5, g6, g7, g8⟩ := hcart c hc
    rw [h1] at h1'
    cases h1'
    obtain ⟨rows, hrows⟩ := gather_total (keep := keep) g5
    have : ∃ pr, gatherImage y (hits x) = some pr := by
      apply ListM.mapM_isSome
      intro p hp
      obtain ⟨hr, hc⟩ := mem_hits_lt hp
      exact ⟨_, if_pos ⟨by omega, by omega⟩⟩
    obtain ⟨pr, hpr⟩ := this
    obtain ⟨l, hl1, hl2⟩ := Option.bind_eq_some_iff.1 g1
    obtain ⟨l', hl1', hl2'⟩ := Option.bind_eq_some_iff.1 g2
    exact ⟨(rows, pr), by simp [cloudOf, hl1, hl2, g3, h2, g6, hrows, hl1', hl2', g4, hpr]⟩
  obtain ⟨r, hr⟩ := this
  refine ⟨(r.map Prod.fst, r.map Prod.snd), ?_⟩
  unfold toCloud toCartesian
  simp only [hf, ht, Option.bind_eq_bind, Option.bind_some, Option.pure_def] at hd' ⊢
  rw [hd']
  simp [hr]

/-- Without the first return of TOP there is no cloud of any laser. -/
theorem top_needed {D : Codec} {f : Frame} {s : Parsed} (hl : (f.lasers.map Laser.name).Nodup) (hs : parse D f = some s)
    (ht : ∀ l ∈ f.lasers, l.name = 1 → l.ret1.range = []) (index : ℕ) (keep : Bool) : toCloud f s index keep = none := by
  have e := (parse_spec hl hs).2.2.2 ht
  unfold toCloud toCartesian
  cases matrix f.pose with
  | none => rfl
  | some m => simp [e, poses, reshape]

/-- The numbers of the identity. -/
def eye : List ℝ := [1, 0, 0, 0, 0, 1, 0, 0, 0, 0, 1, 0, 0, 0, 0, 1]

/-! ## The second version -/

theorem inclinations2_eq (c : Calibration) (h : ℕ) :
    inclinations2 (extractCalibration c) h = rowInclinations c.beams c.lo c.hi h := by
  unfold inclinations2 extractCalibration rowInclinations
  by_cases hb : c.beams = [] <;> simp [hb]

theorem extract_extrinsic (c : Calibration) : (extractCalibration c).extrinsic = c.extrinsic := by
  unfold extractCalibration; split <;> rfl

/-- A cloud of the second version, without poses. -/
theorem toCloud2_plain {m : Raw ℝ} {c : Calibration} {x : Image ℝ} {e : M4} {pts : List (List V3)} {keep : Bool} (hx : reshape m = some x)
    (he : matrix c.extrinsic = some e) (hp : cartesian x e (rowInclinations c.beams c.lo c.hi x.h) none none = some pts) :
    toCloud2 m (extractCalibration c) none none keep = gather (withPolar keep x pts) (hits x) := by
  simp only [toCloud2, toCartesian2, Option.isSome_none, Bool.false_eq_true, false_and, if_false, hx, Option.bind_eq_bind, Option.bind_some,
    extract_extrinsic, he, inclinations2_eq, hp, Option.pure_def]

/-- A cloud of the second version, with poses. -/
theorem toCloud2_posed {m pm : Raw ℝ} {fp : List ℝ} {c : Calibration} {x pi : Image ℝ} {e f : M4} {pts : List (List V3)} {keep : Bool}
    (hx : reshape m = some x) (he : matrix c.extrinsic = some e) (hpi : poses pm = some pi) (hf : matrix fp = some f)
    (hp : cartesian x e (rowInclinations c.beams c.lo c.hi x.h) (some pi) (some f) = some pts) :
    toCloud2 m (extractCalibration c) (some pm) (some fp) keep = gather (withPolar keep x pts) (hits x) := by
  simp only [toCloud2, toCartesian2, Option.isSome_some, Option.isNone_some, Bool.false_eq_true, and_false, if_false, hx,
    Option.bind_eq_bind, Option.bind_some, extract_extrinsic, he, inclinations2_eq, hpi, hf, hp, Option.pure_def]

theorem laserByName_of {ls : List Laser} (hn : (ls.map Laser.name).Nodup) {l : Laser} (hl : l ∈ ls) : laserByName ls l.name = some l := by
  induction ls with
  | nil => simp at hl
  | cons a ls ih =>
    simp only [List.map_cons, List.nodup_cons] at hn
    unfold laserByName
    rw [List.find?_cons]
    rcases List.mem_cons.1 hl with rfl | hl
    · simp
    · have : a.name ≠ l.name := fun e => hn.1 (e ▸ List.mem_map_of_mem hl)
      simp only [this, decide_false]
      exact ih hn.2 hl

/-- An empty string has no image in it. -/
def EmptyIsNoImage (D : Codec) : Prop := (∀ m, D.floats [] = some m → m.dims = []) ∧ ∀ m, D.ints [] = some m → m.dims = []

/-- What the extractors return for a laser: the range images and the projections of both returns. -/
def returnOf {α : Type} (r : Option α × Option α) (index : ℕ) : Option α := if index = 0 then r.1 else if index = 1 then r.2 else none

/-- C151: what the first version computes for a frame, the second computes from the components of the lasers. -/
theorem versions_agree {D : Codec} {f : Frame} {s : Parsed} {index : ℕ} {keep : Bool} {clouds : List (List (List ℝ))}
    {projs : List (List (List ℤ))} (hl : (f.lasers.map Laser.name).Nodup) (hn : (f.calibrations.map Calibration.name).Nodup)
    (hD : EmptyIsNoImage D) (hr : ∀ l ∈ f.lasers, ∀ r ∈ [l.ret1, l.ret2], r.range = [] → r.projection = [])
    (hs : parse D f = some s) (h : toCloud f s index keep = some (clouds, projs)) :
    ∃ rs, clouds = rs.map Prod.fst ∧ projs = rs.map Prod.snd ∧
      List.Forall₂ (fun c (r : List (List ℝ) × List (List ℤ)) => ∃ l rm rc m cp,
        laserByName f.lasers c.name = some l ∧ extractReturns D.floats l.ret1.range l.ret2.range = some (some rm) ∧
        extractReturns D.ints l.ret1.projection l.ret2.projection = some (some rc) ∧
        returnOf rm index = some m ∧ returnOf rc index = some cp ∧ projections2 m cp = some r.2 ∧
        if c.name = 1 then ∃ pm, extractPose D l = some (some pm) ∧
          toCloud2 m (extractCalibration c) (some pm) (some f.pose) keep = some r.1
        else toCloud2 m (extractCalibration c) none none keep = some r.1)
        (f.calibrations.insertionSort fun a b => a.name ≤ b.name) rs := by
  obtain ⟨rs, h1, h2, h3⟩ := computed hn h
  refine ⟨rs, h2, h3, h1.imp ?_⟩
  rintro c ⟨rows, pr⟩ ⟨k⟩
  obtain ⟨l, hl1, hl2, hl3, hl4⟩ := laser_of hl hs k.hri k.hcp
  have hent := (parse_spec hl hs).1 l hl1
  have hne : ∀ {b : Bytes} {cp : Raw ℤ}, D.ints b = some cp → cp.dims ≠ [] → b ≠ [] := by
    rintro b cp h1 h2 rfl; exact h2 (hD.2 _ h1)
  have hcp : k.cp.dims ≠ [] := by rw [(reshape_some k.hy).1]; simp
  have hA : ∃ rm, extractReturns D.floats l.ret1.range l.ret2.range = some (some rm) ∧ returnOf rm index = some k.ri := by
    rcases hent with ⟨e1, e2, _⟩ | ⟨e1, e2, _, a, b, ha, hb, _, _⟩ | ⟨e1, e2, _, a, b, a', b', ha, hb, ha', hb', _, _⟩
    · rcases hl3 with ⟨_, e, _⟩ | ⟨_, e, _⟩
      · exact absurd e1 e
      · exact absurd e2 e
    · refine ⟨(some a, none), by simp [extractReturns, parseImage, e1, e2, ha], ?_⟩
      rcases hl3 with ⟨i, _, e, _⟩ | ⟨_, e, _⟩
      · rw [ha] at e; simp only [returnOf, i, if_true]; exact e
      · exact absurd e2 e
    · refine ⟨(some a, some a'), by simp [extractReturns, parseImage, e1, e2, ha, ha'], ?_⟩
      rcases hl3 with ⟨i, _, e, _⟩ | ⟨i, _, e, _⟩
      · rw [ha] at e; simp only [returnOf, i, if_true]; exact e
      · rw [ha'] at e; simp only [returnOf, i, if_true]; simpa using e
  have hB : ∃ rc, extractReturns D.ints l.ret1.projection l.ret2.projection = some (some rc) ∧ returnOf rc index = some k.cp := by
    have hpar : ∀ {b : Bytes} {u : Raw ℤ}, D.ints b = some u → ∃ o, parseImage D.ints b = some o ∧ (b ≠ [] → o = some u) := by
      intro b u hu
      unfold parseImage
      by_cases hb : b = []
      · exact ⟨none, by simp [hb], fun h => absurd hb h⟩
      · exact ⟨some u, by simp [hb, hu], fun _ => rfl⟩
    have hboth : (∃ o1, parseImage D.ints l.ret1.projection = some o1 ∧ (l.ret1.projection ≠ [] → o1 = D.ints l.ret1.projection)) ∧
        ∃ o2, parseImage D.ints l.ret2.projection = some o2 ∧ (l.ret2.projection ≠ [] → o2 = D.ints l.ret2.projection) := by
      have emp : ∀ {b : Bytes}, b = [] → ∃ o, parseImage D.ints b = some o ∧ (b ≠ [] → o = D.ints b) := by
        intro b hb; exact ⟨none, by simp [parseImage, hb], fun h => absurd hb h⟩
      have ful : ∀ {b : Bytes} {u : Raw ℤ}, D.ints b = some u → ∃ o, parseImage D.ints b = some o ∧ (b ≠ [] → o = D.ints b) := by
        intro b u hu; obtain ⟨o, h1, h2⟩ := hpar hu; exact ⟨o, h1, fun h => by rw [h2 h, hu]⟩
      rcases hent with ⟨e1, e2, _⟩ | ⟨e1, e2, _, a, b, ha, hb, _, _⟩ | ⟨e1, e2, _, a, b, a', b', ha, hb, ha', hb', _, _⟩
      · exact ⟨emp (hr l hl1 _ (by simp) e1), emp (hr l hl1 _ (by simp) e2)⟩
      · exact ⟨ful hb, emp (hr l hl1 _ (by simp) e2)⟩
      · exact ⟨ful hb, ful hb'⟩
    obtain ⟨⟨o1, g1, g1'⟩, o2, g2, g2'⟩ := hboth
    refine ⟨(o1, o2), ?_, ?_⟩
    · simp only [extractReturns, g1, g2, Option.bind_eq_bind, Option.bind_some, Option.pure_def, Option.some.injEq]
      rw [if_neg]
      rcases hl3 with ⟨i, _, _, e⟩ | ⟨i, _, _, e⟩
      · rw [g1' (hne e hcp), e]; simp
      · rw [g2' (hne e hcp), e]; simp
    · rcases hl3 with ⟨i, _, _, e⟩ | ⟨i, _, _, e⟩
      · simp only [returnOf, i, if_true]; rw [g1' (hne e hcp), e]
      · simp only [returnOf, i, if_true, one_ne_zero, if_false]; rw [g2' (hne e hcp), e]
  obtain ⟨rm, a1, a2⟩ := hA
  obtain ⟨rc, b1, b2⟩ := hB
  refine ⟨l, rm, rc, k.ri, k.cp, hl2 ▸ laserByName_of hl hl1, a1, b1, a2, b2, ?_, ?_⟩
  · simp [projections2, k.hx, k.hy, k.hprojs]
  · have hpts := k.hpts
    by_cases h1 : c.name = 1
    · simp only [h1, if_true] at hpts ⊢
      refine ⟨s.topPose, ?_, ?_⟩
      · have := hl4 h1
        have hb : l.ret1.pose ≠ [] := by
          intro e
          rw [e] at this
          have h0 := hD.1 _ this
          have := k.htop
          simp [poses, reshape, h0] at this
        simp [extractPose, parseImage, hb, this]
      · rw [toCloud2_posed k.hx k.hext k.htop k.hframe hpts]; exact k.hrows
    · simp only [h1, if_false] at hpts ⊢
      rw [toCloud2_plain k.hx k.hext hpts]; exact k.hrows

/-- C150 fails: a frame of a side laser alone, whose only return has one pixel, has no cloud in the first version, and has one in the
second. -/
theorem clouds_exist_violated : ∃ D : Codec, ∃ f : Frame, ∃ s, ∃ m cp, ∃ c,
    (f.lasers.map Laser.name).Nodup ∧ f.calibrations = [c] ∧ parse D f = some s ∧ s.ranges c.name = some [m] ∧
    s.projections c.name = some [cp] ∧ toCloud f s 0 false = none ∧
    ∃ rows, toCloud2 m (extractCalibration c) none none false = some rows ∧ rows.length = 1 ∧
    ∃ pr, projections2 m cp = some pr ∧ pr.length = 1 := by
  refine ⟨⟨fun _ => some ⟨[1, 0, 0, 0], [1, 1, 4]⟩, fun _ => some ⟨[0, 0, 0, 0, 0, 0], [1, 1, 6]⟩⟩,
    ⟨eye, [{ name := 2, ret1 := { range := [1] } }], [{ name := 2, lo := -1, hi := 1, extrinsic := eye }]⟩, ?_⟩
  refine ⟨_, _, _, _, by simp, rfl, rfl, rfl, rfl, ?_, ?_⟩
  · apply top_needed (D := ⟨fun _ => some ⟨[1, 0, 0, 0], [1, 1, 4]⟩, fun _ => some ⟨[0, 0, 0, 0, 0, 0], [1, 1, 6]⟩⟩) (by simp) rfl
    simp
  · have hh : hits ⟨1, 1, 4, [1, 0, 0, 0]⟩ = [(0, 0)] := by
      simp [hits, List.range_succ, Image.at]
    have hx : reshape (⟨[1, 0, 0, 0], [1, 1, 4]⟩ : Raw ℝ) = some ⟨1, 1, 4, [1, 0, 0, 0]⟩ := by simp [reshape]
    obtain ⟨e, he⟩ : ∃ e, matrix eye = some e := ⟨_, by simp only [matrix, eye, List.length_cons, List.length_nil]; rfl⟩
    obtain ⟨pts, hpts⟩ := cartesian_total (x := ⟨1, 1, 4, [1, 0, 0, 0]⟩) (e := e) (incl := rowInclinations [] (-1) 1 1)
      (p := none) (f := none) (by simp) (by simp [rowInclinations, RangeImage.inclinations]) (by rintro pi hpi; cases hpi)
    obtain ⟨rows, hrows⟩ := gather_total (keep := false) hpts
    refine ⟨rows, ?_, ?_, ?_⟩
    · rw [toCloud2_plain hx he hpts, hrows]
    · have := List.Forall₂.length_eq (ListM.mapM_forall₂ hrows)
      rw [hh] at this; simpa using this.symm
    · have hy : reshape (⟨[0, 0, 0, 0, 0, 0], [1, 1, 6]⟩ : Raw ℤ) = some ⟨1, 1, 6, [0, 0, 0, 0, 0, 0]⟩ := by simp [reshape]
      simp [projections2, hx, hy, hh, gatherImage]

/-- A frame of TOP and a side laser, listed in the other order, has clouds of both; the hypotheses of `frame_clouds`, `versions_agree` and
`clouds_exist_partial` hold of it. -/
example : ∃ D : Codec, ∃ f : Frame, ∃ s r, (f.lasers.map Laser.name).Nodup ∧ (f.calibrations.map Calibration.name).Nodup ∧
    f.calibrations.length = 2 ∧ EmptyIsNoImage D ∧ (∀ l ∈ f.lasers, ∀ r ∈ [l.ret1, l.ret2], r.range = [] → r.projection = []) ∧
    (∀ F, IsMatrix f.pose F → Affine F) ∧ parse D f = some s ∧ toCloud f s 0 true = some r := by
  let D : Codec := ⟨fun b => if b = [] then none else if b = [1] then some ⟨[1, 0, 0, 0], [1, 1, 4]⟩ else some ⟨[0, 0, 0, 0, 0, 0], [1, 1, 6]⟩,
    fun b => if b = [] then none else some ⟨[0, 0, 0, 0, 0, 0], [1, 1, 6]⟩⟩
  let f : Frame := ⟨eye, [{ name := 2, ret1 := { range := [1], projection := [1] } },
      { name := 1, ret1 := { range := [1], projection := [1], pose := [2] } }],
    [{ name := 2, lo := -1, hi := 1, extrinsic := eye }, { name := 1, beams := [0], extrinsic := eye }]⟩
  obtain ⟨s, hs⟩ : ∃ s, parse D f = some s := by
    refine parse_total_partial (by simp [f]) ?_ (by simp [f]) (by simp [f])
    intro l hl
    simp only [f, List.mem_cons, List.not_mem_nil, or_false] at hl
    rcases hl with rfl | rfl <;> simp [Decodable, D]
  have hl : (f.lasers.map Laser.name).Nodup := by simp [f]
  obtain ⟨p1, p2, p3, p4⟩ := parse_spec hl hs
  have q1 := p1 _ (List.mem_cons_self)
  have q2 := p1 _ (List.mem_cons_of_mem _ List.mem_cons_self)
  have q3 := p3 _ (List.mem_cons_of_mem _ List.mem_cons_self) rfl (by simp)
  simp [Entry, D] at q1 q2 q3
  obtain ⟨e, he⟩ : ∃ e, matrix eye = some e := ⟨_, by simp only [matrix, eye, List.length_cons, List.length_nil]; rfl⟩
  have h1 : ∀ F, IsMatrix eye F → F = 1 := by
    intro F hF
    ext i j
    have := hF.2 i j
    fin_cases i <;> fin_cases j <;> simp [eye] at this ⊢ <;> exact this.symm
  have hn : (f.calibrations.map Calibration.name).Nodup := by simp [f]
  have ht : poses s.topPose = some ⟨1, 1, 6, [0, 0, 0, 0, 0, 0]⟩ := by rw [← q3]; simp [poses, reshape]
  obtain ⟨r, hr⟩ := clouds_exist_partial (f := f) (s := s) (index := 0) (keep := true) hn he ht (by
    intro c hc
    simp only [f, List.mem_cons, List.not_mem_nil, or_false] at hc
    have hx : reshape (⟨[1, 0, 0, 0], [1, 1, 4]⟩ : Raw ℝ) = some ⟨1, 1, 4, [1, 0, 0, 0]⟩ := by simp [reshape]
    have hy : reshape (⟨[0, 0, 0, 0, 0, 0], [1, 1, 6]⟩ : Raw ℤ) = some ⟨1, 1, 6, [0, 0, 0, 0, 0, 0]⟩ := by simp [reshape]
    rcases hc with rfl | rfl
    · exact ⟨_, _, _, _, e, by simp [q1], by simp [q1], hx, hy, he, by simp, by simp, by simp, by simp, by simp⟩
    · exact ⟨_, _, _, _, e, by simp [q2], by simp [q2], hx, hy, he, by simp, by simp, by simp, by simp,
        fun _ => ⟨rfl, rfl, by rw [h1 e (matrix_some he)]; simp⟩⟩)
  refine ⟨D, f, s, r, hl, hn, rfl, ⟨by simp [D], by simp [D]⟩, by simp [f], ?_, hs, hr⟩
  intro F hF
  rw [h1 F hF]
  simp [Affine]

/-! ## Motion data set -/

/-- An image as a message. -/
def Image.raw {α : Type} (x : Image α) : Raw α := ⟨x.data, [x.h, x.w, x.c]⟩

def Image.Whole {α : Type} (x : Image α) : Prop := x.data.length = x.h * x.w * x.c

theorem reshape_raw {α : Type} {x : Image α} (h : x.Whole) : reshape x.raw = some x := by
  exact if_pos h

theorem gather_zip {x : Image ℝ} {pts : List (List V3)} {keep : Bool} : ∀ {l : List (ℕ × ℕ)} {ps : List V3} {fs : List (List ℝ)},
    gather pts l = some ps → gatherImage x l = some fs →
    gather (withPolar keep x pts) l = some (List.zipWith (fun u q => (if keep then u.take 3 else []) ++ [q 0, q 1, q 2]) fs ps) ∧
      fs.length = ps.length := by
  intro l
  induction l with
  | nil => intro ps fs h1 h2; simp [gather] at h1; simp [gatherImage] at h2; subst h1 h2; simp [gather]
  | cons p l ih =>
    intro ps fs h1 h2
    simp only [gather, gatherImage, List.mapM_cons, Option.bind_eq_bind, Option.bind_eq_some_iff, Option.pure_def, Option.some.injEq] at h1 h2
    obtain ⟨q, hq, ps, hps, rfl⟩ := h1
    obtain ⟨u, hu, fs, hfs, rfl⟩ := h2
    split at hu
    · rename_i hb
      simp only [Option.some.injEq] at hu
      obtain ⟨i1, i2⟩ := ih hps hfs
      refine ⟨?_, by simp [i2]⟩
      unfold gather at i1 ⊢
      rw [List.mapM_cons, withPolar_get hb.1 hb.2 (by simpa [Option.bind_eq_some_iff] using hq)]
      simp only [Option.bind_eq_bind, Option.bind_some, i1, Option.pure_def, List.zipWith_cons_cons, hu]
    · simp at hu

/-- A cloud of the second version from points and features. -/
def joined (keep : Bool) (r : List V3 × List (List ℝ)) : List (List ℝ) :=
  List.zipWith (fun u q => (if keep then u else []) ++ [q 0, q 1, q 2]) r.2 r.1

theorem joined_take (keep : Bool) (fs : List (List ℝ)) (ps : List V3) :
    joined keep (ps, fs.map fun u => u.take 3) =
      List.zipWith (fun u q => (if keep then u.take 3 else []) ++ [q 0, q 1, q 2]) fs ps := by
  simp [joined, List.zipWith_map_left]

/-- C152: the points and features of the side lasers are those of the second version, for both returns. -/
theorem side_agrees {decode : Bytes → Option (Image ℝ)} {l : Compressed} {c : Calibration} {a b : List V3 × List (List ℝ)} (keep : Bool)
    (hw : ∀ y x, decode y = some x → x.Whole) (h : side decode l c = some (a, b)) :
    (∃ x, decode l.range1 = some x ∧ a.1.length = a.2.length ∧ toCloud2 x.raw (extractCalibration c) none none keep = some (joined keep a)) ∧
    ∃ x, decode l.range2 = some x ∧ b.1.length = b.2.length ∧ toCloud2 x.raw (extractCalibration c) none none keep = some (joined keep b) := by
  have one : ∀ {x : Image ℝ} {a : List V3 × List (List ℝ)}, x.Whole → sideReturn x c = some a →
      a.1.length = a.2.length ∧ toCloud2 x.raw (extractCalibration c) none none keep = some (joined keep a) := by
    intro x a hx ha
    simp only [sideReturn, Option.bind_eq_bind, Option.bind_eq_some_iff, Option.pure_def, Option.some.injEq] at ha
    obtain ⟨e, he, pts, hpts, ps, hps, fs, hfs, rfl⟩ := ha
    obtain ⟨g1, g2⟩ := gather_zip (keep := keep) hps hfs
    refine ⟨by simp [g2], ?_⟩
    rw [toCloud2_plain (reshape_raw hx) he hpts, g1, joined_take]
  simp only [side, Option.bind_eq_bind, Option.bind_eq_some_iff, Option.pure_def, Option.some.injEq, Prod.mk.injEq] at h
  obtain ⟨x1, h1, a', ha, x2, h2, b', hb, rfl, rfl⟩ := h
  exact ⟨⟨x1, h1, one (hw _ _ h1) ha⟩, x2, h2, one (hw _ _ h2) hb⟩

/-- C152: the same for TOP, whose pixels have poses; the poses of the first return are used for both. -/
theorem top_agrees_partial {decode : Bytes → Option (Image ℝ)} {l : Compressed} {c : Calibration} {fp : List ℝ} {frame : M4}
    {a b : List V3 × List (List ℝ)} (keep : Bool) (hw : ∀ y x, decode y = some x → x.Whole) (hf : matrix fp = some frame)
    (h : top decode l frame c = some (a, b)) :
    ∃ p, decode l.pose1 = some p ∧
    (∃ x, decode l.range1 = some x ∧ a.1.length = a.2.length ∧
      toCloud2 x.raw (extractCalibration c) (some p.raw) (some fp) keep = some (joined keep a)) ∧
    ∃ x, decode l.range2 = some x ∧ b.1.length = b.2.length ∧
      toCloud2 x.raw (extractCalibration c) (some p.raw) (some fp) keep = some (joined keep b) := by
  simp only [top, Option.bind_eq_bind, Option.bind_eq_some_iff] at h
  obtain ⟨p, hp, h⟩ := h
  split at h
  · simp at h
  rename_i h6
  push Not at h6
  have hpp : poses p.raw = some p := by simp [poses, reshape_raw (hw _ _ hp), h6]
  have one : ∀ {x : Image ℝ} {a : List V3 × List (List ℝ)}, x.Whole → topReturn x p frame c = some a →
      a.1.length = a.2.length ∧ toCloud2 x.raw (extractCalibration c) (some p.raw) (some fp) keep = some (joined keep a) := by
    intro x a hx ha
    by_cases hb : c.beams = []
    · simp [topReturn, hb] at ha
    have hinc : rowInclinations c.beams c.lo c.hi x.h = c.beams.reverse := by simp [rowInclinations, hb]
    simp only [topReturn, hb, if_false, Option.bind_eq_bind, Option.bind_some, Option.bind_eq_some_iff, Option.pure_def,
      Option.some.injEq] at ha
    obtain ⟨e, he, pts, hpts, ps, hps, fs, hfs, rfl⟩ := ha
    obtain ⟨g1, g2⟩ := gather_zip (keep := keep) hps hfs
    refine ⟨by simp [g2], ?_⟩
    rw [toCloud2_posed (reshape_raw hx) he hpp hf (hinc ▸ hpts), g1, joined_take]
  simp only [Option.bind_eq_some_iff, Option.pure_def, Option.some.injEq, Prod.mk.injEq] at h
  obtain ⟨x1, h1, a', ha, x2, h2, b', hb, rfl, rfl⟩ := h
  exact ⟨p, hp, ⟨x1, h1, one (hw _ _ h1) ha⟩, x2, h2, one (hw _ _ h2) hb⟩

/-- C152 fails: without a list of inclinations the side lasers and the second version spread the beams evenly, and TOP raises. -/
theorem top_inclinations_violated : (∀ decode l frame c, c.beams = [] → top decode l frame c = none) ∧
    ∃ (x p : Image ℝ) (c : Calibration) (r : List V3 × List (List ℝ)), c.beams = [] ∧ x.Whole ∧ p.Whole ∧
      side (fun _ => some x) ⟨[], [], []⟩ c = some (r, r) ∧ r.1.length = 1 ∧
      ∃ rows, toCloud2 x.raw (extractCalibration c) (some p.raw) (some eye) false = some rows ∧ rows.length = 1 := by
  constructor
  · intro decode l frame c hb
    unfold top
    cases decode l.pose1 with
    | none => rfl
    | some p =>
      simp only [Option.bind_eq_bind, Option.bind_some]
      split
      · rfl
      · cases decode l.range1 with
        | none => rfl
        | some x => simp [topReturn, hb]
  · have hx : Image.Whole (⟨1, 1, 4, [1, 0, 0, 0]⟩ : Image ℝ) := by simp [Image.Whole]
    have hp : Image.Whole (⟨1, 1, 6, [0, 0, 0, 0, 0, 0]⟩ : Image ℝ) := by simp [Image.Whole]
    have hh : hits ⟨1, 1, 4, [1, 0, 0, 0]⟩ = [(0, 0)] := by simp [hits, List.range_succ, Image.at]
    let c : Calibration := { name := 1, lo := -1, hi := 1, extrinsic := eye }
    obtain ⟨e, he⟩ : ∃ e, matrix c.extrinsic = some e := ⟨_, by simp [matrix, c, eye]; rfl⟩
    have hpp : poses (Image.raw (⟨1, 1, 6, [0, 0, 0, 0, 0, 0]⟩ : Image ℝ)) = some ⟨1, 1, 6, [0, 0, 0, 0, 0, 0]⟩ := by
      simp [poses, reshape_raw hp]
    have hdet : e.det ≠ 0 := by
      have : e = 1 := by
        have hm := (matrix_some he).2
        ext i j
        have := hm i j
        fin_cases i <;> fin_cases j <;> simp [c, eye] at this ⊢ <;> exact this.symm
      rw [this]; simp
    obtain ⟨pts, hpts⟩ := cartesian_total (x := ⟨1, 1, 4, [1, 0, 0, 0]⟩) (e := e) (incl := rowInclinations c.beams c.lo c.hi 1)
      (p := some ⟨1, 1, 6, [0, 0, 0, 0, 0, 0]⟩) (f := some e) (by simp) (by simp [rowInclinations, c, RangeImage.inclinations])
      (by rintro pi hpi; cases hpi; exact ⟨rfl, rfl, e, rfl, hdet⟩)
    obtain ⟨rows, hrows⟩ := gather_total (keep := false) hpts
    obtain ⟨pts', hpts'⟩ := cartesian_total (x := ⟨1, 1, 4, [1, 0, 0, 0]⟩) (e := e) (incl := rowInclinations c.beams c.lo c.hi 1)
      (p := none) (f := none) (by simp) (by simp [rowInclinations, c, RangeImage.inclinations])
      (by rintro pi hpi; cases hpi)
    obtain ⟨q, hq⟩ := cartesian_size hpts' (r := 0) (c := 0) (by simp) (by simp)
    refine ⟨⟨1, 1, 4, [1, 0, 0, 0]⟩, ⟨1, 1, 6, [0, 0, 0, 0, 0, 0]⟩, c, ([q], [[1, 0, 0]]), rfl, hx, hp, ?_, rfl, rows, ?_, ?_⟩
    · have hone : sideReturn ⟨1, 1, 4, [1, 0, 0, 0]⟩ c = some ([q], [[1, 0, 0]]) := by
        have hg : gather pts' [(0, 0)] = some [q] := by
          simp only [gather, List.mapM_cons, List.mapM_nil, hq, Option.bind_eq_bind, Option.bind_some, Option.pure_def]
        simp only [sideReturn, he, hpts', hh, hg, Option.bind_eq_bind, Option.bind_some, Option.pure_def]
        simp [gatherImage, Image.cell, List.range_succ, Image.at]
      simp only [side, hone, Option.bind_eq_bind, Option.bind_some, Option.pure_def]
    · rw [toCloud2_posed (reshape_raw hx) he hpp he hpts, hrows]
    · have := List.Forall₂.length_eq (ListM.mapM_forall₂ hrows)
      rw [hh] at this; simpa using this.symm

end Verif.Clouds
