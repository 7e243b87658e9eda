import Verif.Props.CloudsFrame
import Verif.Props.CloudsVersions
import Verif.Props.AssetTutorial
import Verif.Model.LaserTutorial

/-! C217-C220: the tutorials that show lasers and cameras. -/

namespace Verif.LaserTutorial

open Verif.Clouds
open Verif.Boxes (V3 M4)

/-! ### C217: point clouds with maps -/

/-- Specification: the trace of a laser.  One entry per pixel with a return, in order: the place of its point in the map, and a channel as color. -/
def IsTrace (D : Codec) (f : Clouds.Frame) (offset : V3) (channel : ℕ) (l : Laser) (c : Calibration) (tr : List (V3 × ℝ)) : Prop :=
  ∃ img cp F pix, IsReturn D l 0 img cp ∧ IsMatrix f.pose F ∧ PixelsInOrder img pix ∧
    List.Forall₂ (fun p e => ∃ q, LaserPoint D f l c img F p q ∧ e.1 = move F q + offset ∧ ∃ h w k, Holds img h w k p.1 p.2 channel e.2) pix tr

/-- **C217, what holds**: the points of the laser with the smallest name are shown, at their places in the map, in order; the color is the range. -/
theorem trace_partial {F : Type} {D : Codec} {m : MapFrame F} {tr : List (V3 × ℝ)} (hl : (m.frame.lasers.map Laser.name).Nodup)
    (hn : (m.frame.calibrations.map Calibration.name).Nodup) (hF : ∀ F, IsMatrix m.frame.pose F → Affine F) (h : traceOf D m = some tr) :
    ∃ c ∈ m.frame.calibrations, (∀ c' ∈ m.frame.calibrations, c.name ≤ c'.name) ∧ ∃ l ∈ m.frame.lasers, l.name = c.name ∧
      IsTrace D m.frame m.offset 0 l c tr := by
  unfold traceOf at h
  simp only [Option.bind_eq_bind, Option.bind_eq_some_iff] at h
  obtain ⟨s, hs, ⟨points, projs⟩, hp, first, h1, t, ht, h⟩ := h
  obtain ⟨cs, M, hperm, hlt, hM, hall, hlen⟩ := frame_clouds hl hn hs hF hp
  cases points with
  | nil => simp at h1
  | cons rows points =>
    cases projs with
    | nil => simp at hlen
    | cons pr projs =>
      rw [List.zip_cons_cons] at hall
      cases hall with
      | @cons c _ cs _ hc _ =>
        simp only [List.getElem?_cons_zero, Option.some.injEq] at h1
        subst h1
        obtain ⟨l, hl1, hl2, img, cp, hr, ⟨pix, hpix, hrows⟩, -⟩ := hc
        refine ⟨c, hperm.subset (by simp), ?_, l, hl1, hl2, img, cp, M, pix, hr, hM, hpix, ?_⟩
        · intro c' hc'
          rcases List.mem_cons.1 (hperm.symm.subset hc') with rfl | h'
          · exact le_refl _
          · exact ((List.pairwise_cons.1 hlt).1 c' h').le
        · have heq : t = M := by
            have h' := matrix_some ht
            ext i j
            have a := h'.2 i j
            rw [hM.2 i j] at a
            exact (Option.some.inj a).symm
          have h2 := ListM.mapM_forall₂ h
          clear h hlen hpix hp
          dsimp only at hrows
          induction hrows generalizing tr with
          | nil => cases h2; exact List.Forall₂.nil
          | cons hd _ ih =>
            cases h2 with
            | cons e1 e2 =>
              refine List.Forall₂.cons ?_ (ih e2)
              obtain ⟨q, hq, feats, rfl, -, hk⟩ := hd
              obtain ⟨hh, w, k, -, hfl, hold⟩ := hk rfl
              refine ⟨q, hq, ?_⟩
              have h3 : feats.length = 3 := by
                by_contra hne
                have : feats.length < 3 := by omega
                have hd : ((feats ++ [q 0, q 1, q 2]).drop 3).length < 3 := by simp; omega
                split at e1
                · rename_i heq
                  rw [heq] at hd; simp at hd
                · simp at e1
              have hdrop : (feats ++ [q 0, q 1, q 2]).drop 3 = [q 0, q 1, q 2] := List.drop_left' h3
              rw [hdrop] at e1
              simp only [Option.some.injEq] at e1
              rw [← e1]
              dsimp only
              constructor
              · rw [apply_eq_move, heq]
                congr 2
                ext i; fin_cases i <;> rfl
              · obtain ⟨a, b, d, rfl⟩ : ∃ a b d, feats = [a, b, d] := List.length_eq_three.1 h3
                exact ⟨hh, w, k, hold 0 a (by simp)⟩

/-- **C217**: nothing is shown without frames; otherwise the map of the first frame and a trace for every frame. -/
theorem plot_spec {F G : Type} (draw : List F → Option G) (D : Codec) : plotClouds draw D [] = some none ∧
    ∀ (m : MapFrame F) ms, (∀ g ts, plotClouds draw D (m :: ms) = some (some (g, ts)) ↔
      draw m.features = some g ∧ List.Forall₂ (fun f t => traceOf D f = some t) (m :: ms) ts) ∧ plotClouds draw D (m :: ms) ≠ some none := by
  refine ⟨rfl, fun m ms => ⟨fun g ts => ?_, ?_⟩⟩
  · unfold plotClouds
    simp only [Option.bind_eq_bind, Option.bind_eq_some_iff, Option.pure_def, Option.some.injEq, Prod.mk.injEq]
    constructor
    · rintro ⟨g', hg, ts', ht, rfl, rfl⟩
      exact ⟨hg, ListM.mapM_forall₂ ht⟩
    · rintro ⟨hg, ht⟩
      exact ⟨g, hg, ts, ListM.forall₂_mapM ht, rfl, rfl⟩
  · unfold plotClouds
    simp only [Option.bind_eq_bind, ne_eq, Option.bind_eq_some_iff, Option.pure_def, Option.some.injEq]
    rintro ⟨g, -, ts, -, h⟩
    simp at h

/-- A codec: one pixel at range 1 and intensity 0; no camera; the pose of the pixel is that of the vehicle. -/
noncomputable def codec1 : Codec :=
  ⟨fun b => if b = [] then none else if b = [1] then some ⟨[1, 0, 0, 0], [1, 1, 4]⟩ else some ⟨[0, 0, 0, 0, 0, 0], [1, 1, 6]⟩,
    fun b => if b = [] then none else some ⟨[0, 0, 0, 0, 0, 0], [1, 1, 6]⟩⟩

/-- A frame of TOP and a side laser. -/
noncomputable def frame1 : Clouds.Frame :=
  ⟨eye, [{ name := 2, ret1 := { range := [1], projection := [1] } }, { name := 1, ret1 := { range := [1], projection := [1], pose := [2] } }],
    [{ name := 2, lo := -1, hi := 1, extrinsic := eye }, { name := 1, beams := [0], extrinsic := eye }]⟩

theorem eye_unique {F : M4} (hF : IsMatrix eye F) : F = 1 := by
  ext i j
  have := hF.2 i j
  fin_cases i <;> fin_cases j <;> simp [eye] at this ⊢ <;> exact this.symm

theorem frame1_cloud : ∃ s r, parse codec1 frame1 = some s ∧ toCloud frame1 s 0 true = some r := by
  obtain ⟨s, hs⟩ : ∃ s, parse codec1 frame1 = some s := by
    refine parse_total_partial (by simp [frame1]) ?_ (by simp [frame1]) (by simp [frame1])
    intro l hl
    simp only [frame1, List.mem_cons, List.not_mem_nil, or_false] at hl
    rcases hl with rfl | rfl <;> simp [Decodable, codec1]
  have hl : (frame1.lasers.map Laser.name).Nodup := by simp [frame1]
  obtain ⟨p1, p2, p3, p4⟩ := parse_spec hl hs
  have q1 := p1 _ (List.mem_cons_self)
  have q2 := p1 _ (List.mem_cons_of_mem _ List.mem_cons_self)
  have q3 := p3 _ (List.mem_cons_of_mem _ List.mem_cons_self) rfl (by simp)
  simp [Entry, codec1] at q1 q2 q3
  obtain ⟨e, he⟩ : ∃ e, matrix eye = some e := ⟨_, by simp only [matrix, eye, List.length_cons, List.length_nil]; rfl⟩
  have hn : (frame1.calibrations.map Calibration.name).Nodup := by simp [frame1]
  have ht : poses s.topPose = some ⟨1, 1, 6, [0, 0, 0, 0, 0, 0]⟩ := by rw [← q3]; simp [poses, reshape]
  obtain ⟨r, hr⟩ := clouds_exist_partial (f := frame1) (s := s) (index := 0) (keep := true) hn he ht (by
    intro c hc
    simp only [frame1, List.mem_cons, List.not_mem_nil, or_false] at hc
    have hx : reshape (⟨[1, 0, 0, 0], [1, 1, 4]⟩ : Raw ℝ) = some ⟨1, 1, 4, [1, 0, 0, 0]⟩ := by simp [reshape]
    have hy : reshape (⟨[0, 0, 0, 0, 0, 0], [1, 1, 6]⟩ : Raw ℤ) = some ⟨1, 1, 6, [0, 0, 0, 0, 0, 0]⟩ := by simp [reshape]
    rcases hc with rfl | rfl
    · exact ⟨_, _, _, _, e, by simp [q1], by simp [q1], hx, hy, he, by simp, by simp, by simp, by simp, by simp⟩
    · exact ⟨_, _, _, _, e, by simp [q2], by simp [q2], hx, hy, he, by simp, by simp, by simp, by simp,
        fun _ => ⟨rfl, rfl, by rw [eye_unique (matrix_some he)]; simp⟩⟩)
  exact ⟨s, r, hs, hr⟩

theorem frame1_return {l : Laser} (hl : l ∈ frame1.lasers) {img : Raw ℝ} {cp : Raw ℤ} (h : IsReturn codec1 l 0 img cp) : img = ⟨[1, 0, 0, 0], [1, 1, 4]⟩ := by
  rcases h with ⟨-, -, h, -⟩ | ⟨h, -⟩
  · simp only [frame1, List.mem_cons, List.not_mem_nil, or_false] at hl
    rcases hl with rfl | rfl <;> simp [codec1] at h <;> exact h.symm
  · simp at h

theorem one_pixel {pix : List (ℕ × ℕ)} (h : PixelsInOrder ⟨[1, 0, 0, 0], [1, 1, 4]⟩ pix) : pix = [(0, 0)] := by
  refine pixels_unique h ⟨?_, by simp⟩
  intro p
  simp only [List.mem_singleton]
  constructor
  · rintro rfl
    exact ⟨1, 1, 4, 1, by simp [Holds], by norm_num⟩
  · rintro ⟨hh, w, c, v, ⟨hd, -, h1, h2, -⟩, -⟩
    simp only [List.cons.injEq, and_true] at hd
    obtain ⟨rfl, rfl, rfl⟩ := hd
    exact Prod.ext (by omega) (by omega)

/-- **C217 is violated**: of a frame whose two lasers have a point each, one point is shown, and its color is the range 1, not the intensity 0. -/
theorem maps_violated : ∃ (D : Codec) (m : MapFrame Unit) (tr : List (V3 × ℝ)), traceOf D m = some tr ∧ m.frame.calibrations.length = 2 ∧
    (∀ l ∈ m.frame.lasers, ∃ img cp, IsReturn D l 0 img cp ∧ Pixel img (0, 0)) ∧ tr.length = 1 ∧
    (∀ l ∈ m.frame.lasers, ∀ c, ¬ IsTrace D m.frame m.offset 1 l c tr) := by
  obtain ⟨s, ⟨clouds, projs⟩, hs, hr⟩ := frame1_cloud
  have hl : (frame1.lasers.map Laser.name).Nodup := by simp [frame1]
  have hn : (frame1.calibrations.map Calibration.name).Nodup := by simp [frame1]
  have hF : ∀ F, IsMatrix frame1.pose F → Affine F := fun F h => by rw [eye_unique h]; simp [Affine]
  obtain ⟨tr, htr⟩ : ∃ tr, traceOf codec1 (⟨frame1, 0, []⟩ : MapFrame Unit) = some tr := by
    obtain ⟨cs, M, hperm, hlt, hM, hall, hlen⟩ := frame_clouds hl hn hs hF hr
    have hcs : cs.length = 2 := by rw [hperm.length_eq]; rfl
    have h0 := hall.length_eq
    rw [hcs, List.length_zip, ← hlen, min_self] at h0
    cases clouds with
    | nil => simp at h0
    | cons rows clouds =>
      cases projs with
      | nil => simp at hlen
      | cons pr projs =>
        rw [List.zip_cons_cons] at hall
        cases hall with
        | cons hc _ =>
          obtain ⟨l, hl1, hl2, img, cp, hret, ⟨pix, hpix, hrows⟩, -⟩ := hc
          obtain ⟨e, he⟩ : ∃ e, matrix eye = some e := ⟨_, by simp only [matrix, eye, List.length_cons, List.length_nil]; rfl⟩
          unfold traceOf
          simp only [hs, hr, Option.bind_eq_bind, Option.bind_some, List.getElem?_cons_zero]
          rw [show matrix frame1.pose = some e from he, Option.bind_some]
          apply ListM.mapM_isSome
          intro row hrow
          obtain ⟨i, hi, rfl⟩ := List.mem_iff_getElem.1 hrow
          have hfi := List.forall₂_iff_get.1 hrows
          obtain ⟨q, -, feats, hfe, -, hk⟩ := hfi.2 i (by rw [hfi.1]; exact hi) hi
          obtain ⟨hh, w, k, hd, hfl, -⟩ := hk rfl
          rw [frame1_return hl1 hret] at hd
          simp only [List.cons.injEq, and_true] at hd
          have h3 : feats.length = 3 := by rw [hfl, ← hd.2.2]; rfl
          simp only [List.get_eq_getElem] at hfe
          rw [hfe]
          have hdrop : (feats ++ [q 0, q 1, q 2]).drop 3 = [q 0, q 1, q 2] := List.drop_left' h3
          rw [hdrop]
          exact ⟨_, rfl⟩
  obtain ⟨c, hc, -, l, hl1, -, img, cp, M, pix, hret, hM, hpix, hall⟩ := trace_partial hl hn hF htr
  rw [frame1_return hl1 hret] at hpix hall
  rw [one_pixel hpix] at hall
  refine ⟨codec1, ⟨frame1, 0, []⟩, tr, htr, rfl, ?_, by rw [← hall.length_eq]; rfl, ?_⟩
  · intro l hl
    simp only [frame1, List.mem_cons, List.not_mem_nil, or_false] at hl
    have hpx : Pixel (⟨[1, 0, 0, 0], [1, 1, 4]⟩ : Raw ℝ) (0, 0) := ⟨1, 1, 4, 1, by simp [Holds], by norm_num⟩
    rcases hl with rfl | rfl
    · exact ⟨_, ⟨[0, 0, 0, 0, 0, 0], [1, 1, 6]⟩, Or.inl (by simp [codec1]), hpx⟩
    · exact ⟨_, ⟨[0, 0, 0, 0, 0, 0], [1, 1, 6]⟩, Or.inl (by simp [codec1]), hpx⟩
  · rintro l' hl' c' ⟨img', cp', M', pix', hret', -, hpix', hall'⟩
    rw [frame1_return hl' hret'] at hpix' hall'
    rw [one_pixel hpix'] at hall'
    cases hall with
    | cons a _ =>
      cases hall' with
      | cons b _ =>
        obtain ⟨-, -, -, h1, w1, k1, hd1, -, -, -, -, hv1⟩ := a
        obtain ⟨-, -, -, h2, w2, k2, hd2, -, -, -, -, hv2⟩ := b
        simp only [List.cons.injEq, and_true] at hd1 hd2
        obtain ⟨rfl, rfl, rfl⟩ := hd1
        obtain ⟨rfl, rfl, rfl⟩ := hd2
        simp at hv1 hv2
        rw [← hv1] at hv2
        norm_num at hv2

/-! ### C218: lasers of the motion data set -/

/-- Specification: the points of both returns of a laser, as the second version of the functions makes them. -/
def IsLaser (decode : Bytes → Option (Image ℝ)) (f : WFrame) (l : WLaser) (r : List (List ℝ) × List (List ℝ)) : Prop :=
  ∃ c ∈ f.calibrations, c.name = l.name ∧ ∃ x1 x2, decode l.data.range1 = some x1 ∧ decode l.data.range2 = some x2 ∧
    if l.name = 1 then ∃ p, decode l.data.pose1 = some p ∧
      toCloud2 x1.raw (extractCalibration c) (some p.raw) (some f.pose) true = some r.1 ∧
      toCloud2 x2.raw (extractCalibration c) (some p.raw) (some f.pose) true = some r.2
    else toCloud2 x1.raw (extractCalibration c) none none true = some r.1 ∧ toCloud2 x2.raw (extractCalibration c) none none true = some r.2

theorem joined_append {a b : List V3 × List (List ℝ)} (h : a.1.length = a.2.length) :
    joined true (a.1 ++ b.1, a.2 ++ b.2) = joined true a ++ joined true b := by
  unfold joined
  exact List.zipWith_append h.symm

theorem laserPoints_spec {decode : Bytes → Option (Image ℝ)} (hw : ∀ y x, decode y = some x → x.Whole) {f : WFrame} {pose : M4} (hp : matrix f.pose = some pose)
    {l : WLaser} {a b : List V3 × List (List ℝ)} (h : laserPoints decode f pose l = some (a, b)) :
    a.1.length = a.2.length ∧ b.1.length = b.2.length ∧ IsLaser decode f l (joined true a, joined true b) := by
  unfold laserPoints at h
  simp only [Option.bind_eq_bind, Option.bind_eq_some_iff] at h
  obtain ⟨c, hc, h⟩ := h
  unfold laserCalib at hc
  have hm := List.mem_of_find?_eq_some hc
  have hcn := List.find?_some hc
  simp only [decide_eq_true_eq] at hcn
  by_cases h1 : l.name = 1
  · rw [if_pos h1] at h
    obtain ⟨p, hp', ⟨x1, h2, h3, h4⟩, x2, h5, h6, h7⟩ := top_agrees_partial true hw hp h
    exact ⟨h3, h6, c, hm, hcn, x1, x2, h2, h5, by rw [if_pos h1]; exact ⟨p, hp', h4, h7⟩⟩
  · rw [if_neg h1] at h
    obtain ⟨⟨x1, h2, h3, h4⟩, x2, h5, h6, h7⟩ := side_agrees true hw h
    exact ⟨h3, h6, c, hm, hcn, x1, x2, h2, h5, by rw [if_neg h1]; exact ⟨h4, h7⟩⟩

/-- **C218, what holds**: if all frames can be read, then there is a cloud for each, whose points and features belong together, and it consists of both returns
of all lasers, in order. -/
theorem allPoints_partial {decode : Bytes → Option (Image ℝ)} (hw : ∀ y x, decode y = some x → x.Whole) {frames : List WFrame}
    {rs : List (List V3 × List (List ℝ))} (h : allPoints decode frames = some rs) :
    List.Forall₂ (fun f r => r.1.length = r.2.length ∧ ∃ parts, List.Forall₂ (IsLaser decode f) f.lasers parts ∧
      joined true r = parts.flatMap fun p => p.1 ++ p.2) frames rs := by
  unfold allPoints at h
  have h1 := ListM.mapM_forall₂ h
  rw [List.forall₂_iff_get] at h1 ⊢
  obtain ⟨hlen, h1⟩ := h1
  rw [List.length_zipIdx] at hlen
  refine ⟨hlen, fun i hi hj => ?_⟩
  have h2 := h1 i (by rw [List.length_zipIdx]; exact hi) hj
  simp only [List.get_eq_getElem, List.getElem_zipIdx, Nat.zero_add] at h2 ⊢
  generalize rs[i] = r at h2 ⊢
  unfold framePoints at h2
  rw [List.getElem?_eq_getElem hi] at h2
  generalize frames[i] = f at h2 ⊢
  simp only [Option.bind_eq_bind, Option.bind_some, Option.bind_eq_some_iff] at h2
  obtain ⟨pose, hp, rs', h3, h4⟩ := h2
  split_ifs at h4 with h5
  simp only [Option.pure_def, Option.some.injEq] at h4
  subst h4
  have h6 := ListM.mapM_forall₂ h3
  generalize f.lasers = ls at h6 ⊢
  clear h3 h5
  induction h6 with
  | nil => exact ⟨rfl, [], List.Forall₂.nil, rfl⟩
  | @cons l ab ls rs'' hd _ ih =>
    obtain ⟨ih1, parts, ih2, ih3⟩ := ih
    obtain ⟨a, b⟩ := ab
    obtain ⟨e1, e2, e3⟩ := laserPoints_spec hw hp hd
    refine ⟨?_, _, List.Forall₂.cons e3 ih2, ?_⟩
    · simp only [List.flatMap_cons, List.length_append] at ih1 ⊢
      omega
    · simp only [List.flatMap_cons]
      rw [← ih3]
      rw [joined_append (a := (a.1 ++ b.1, a.2 ++ b.2)) (b := (_, _)) (by simp [e1, e2]), joined_append e1]

/-- **C218**: when all frames can be read. -/
theorem allPoints_total {decode : Bytes → Option (Image ℝ)} {frames : List WFrame} :
    (∃ rs, allPoints decode frames = some rs) ↔
    ∀ f ∈ frames, f.lasers ≠ [] ∧ ∃ pose, matrix f.pose = some pose ∧ ∀ l ∈ f.lasers, ∃ r, laserPoints decode f pose l = some r := by
  constructor
  · rintro ⟨rs, h⟩ f hf
    obtain ⟨i, hi, rfl⟩ := List.mem_iff_getElem.1 hf
    have h1 := ListM.mapM_forall₂ h
    rw [List.forall₂_iff_get] at h1
    have h2 := h1.2 i (by rw [List.length_zipIdx]; exact hi) (by have := h1.1; rw [List.length_zipIdx] at this; omega)
    simp only [List.get_eq_getElem, List.getElem_zipIdx, Nat.zero_add] at h2
    unfold framePoints at h2
    rw [List.getElem?_eq_getElem hi] at h2
    simp only [Option.bind_eq_bind, Option.bind_some, Option.bind_eq_some_iff] at h2
    obtain ⟨pose, hp, rs', h3, h4⟩ := h2
    split_ifs at h4 with h5
    have h6 := ListM.mapM_forall₂ h3
    refine ⟨?_, pose, hp, ?_⟩
    · intro he
      rw [he] at h6
      cases h6
      exact h5 rfl
    · intro l hl
      obtain ⟨j, hj, rfl⟩ := List.mem_iff_getElem.1 hl
      rw [List.forall₂_iff_get] at h6
      exact ⟨_, h6.2 j hj (by have := h6.1; omega)⟩
  · intro h
    apply ListM.mapM_isSome
    rintro ⟨f, i⟩ hp
    have hi := List.mem_zipIdx_iff_getElem?.1 hp
    simp only at hi
    obtain ⟨h1, pose, h2, h3⟩ := h f (List.mem_of_getElem? hi)
    obtain ⟨rs, h4⟩ := ListM.mapM_isSome h3
    refine ⟨(rs.flatMap fun r => r.1.1 ++ r.2.1, rs.flatMap fun r => r.1.2 ++ r.2.2), ?_⟩
    unfold framePoints
    simp only [hi, Option.bind_eq_bind, Option.bind_some, h2, h4]
    rw [if_neg]
    · rfl
    · rintro rfl
      have := (ListM.mapM_forall₂ h4).length_eq
      exact h1 (List.length_eq_zero_iff.1 this)

/-- **C218 is violated**: one frame without lasers, or with a laser that is not calibrated, and there are no points of any frame. -/
theorem allPoints_violated (decode : Bytes → Option (Image ℝ)) (frames : List WFrame) (f : WFrame) (hf : f ∈ frames)
    (h : f.lasers = [] ∨ ∃ l ∈ f.lasers, ∀ c ∈ f.calibrations, c.name ≠ l.name) : allPoints decode frames = none := by
  cases he : allPoints decode frames with
  | none => rfl
  | some rs =>
    exfalso
    obtain ⟨h1, pose, -, h3⟩ := allPoints_total.1 ⟨rs, he⟩ f hf
    rcases h with h | ⟨l, hl, h⟩
    · exact h1 h
    · obtain ⟨r, hr⟩ := h3 l hl
      unfold laserPoints laserCalib at hr
      rw [List.find?_eq_none.2 (by simpa using h)] at hr
      simp at hr

/-! ### C219: cameras and range images -/

/-- Specification: a rectangle covers the points of a box. -/
def Covers (b : Label2) (r : Rectangle) : Prop := ∀ u v : ℝ,
  (r.x ≤ u ∧ u ≤ r.x + r.width ∧ r.y ≤ v ∧ v ≤ r.y + r.height) ↔ (|u - b.cx| ≤ b.length / 2 ∧ |v - b.cy| ≤ b.width / 2)

theorem covers (b : Label2) : Covers b ⟨b.cx - 1 / 2 * b.length, b.cy - 1 / 2 * b.width, b.length, b.width⟩ := by
  intro u v
  rw [abs_le, abs_le]
  dsimp only
  constructor
  · rintro ⟨h1, h2, h3, h4⟩; exact ⟨⟨by linarith, by linarith⟩, by linarith, by linarith⟩
  · rintro ⟨⟨h1, h2⟩, h3, h4⟩; exact ⟨by linarith, by linarith, by linarith, by linarith⟩

theorem filter_name {ls : List CameraLabels} (hn : (ls.map CameraLabels.name).Nodup) {L : CameraLabels} (hL : L ∈ ls) :
    (ls.filter fun l => decide (l.name = L.name)) = [L] := by
  induction ls with
  | nil => simp at hL
  | cons a ls ih =>
    rw [List.map_cons, List.nodup_cons] at hn
    rcases List.mem_cons.1 hL with rfl | hL
    · rw [List.filter_cons_of_pos (by simp)]
      rw [List.filter_eq_nil_iff.2]
      intro b hb
      simp only [decide_eq_true_eq]
      intro e
      exact hn.1 (e ▸ List.mem_map_of_mem hb)
    · rw [List.filter_cons_of_neg]
      · exact ih hn.2 hL
      · simp only [decide_eq_true_eq]
        intro e
        exact hn.1 (e ▸ List.mem_map_of_mem hL)

/-- **C219, what holds**: given the labels of the frame, the picture of a camera has one rectangle for each label of the camera, in order, that covers it. -/
theorem camera_partial {frameLabels : List CameraLabels} (hn : (frameLabels.map CameraLabels.name).Nodup) {camera rows cols index : ℕ}
    (h1 : 1 ≤ index) (h2 : index ≤ rows * cols) :
    ∃ rects, showCamera frameLabels camera frameLabels rows cols index = some rects ∧
      (∀ L ∈ frameLabels, L.name = camera → List.Forall₂ Covers L.labels rects) ∧ ((∀ L ∈ frameLabels, L.name ≠ camera) → rects = []) := by
  refine ⟨_, by unfold showCamera; rw [if_pos ⟨h1, h2⟩], ?_, ?_⟩
  · rintro L hL rfl
    rw [filter_name hn hL]
    simp only [List.flatMap_cons, List.flatMap_nil, List.append_nil]
    rw [List.forall₂_map_right_iff, List.forall₂_same]
    exact fun b _ => covers b
  · intro h
    rw [List.filter_eq_nil_iff.2 (by simpa using h)]
    rfl

/-- **C219**: the pictures of up to nine cameras, and of no more. -/
theorem cameras_spec (frameLabels : List CameraLabels) (cameras : List ℕ) :
    (cameras.length ≤ 9 → ∃ rs, showCameras frameLabels cameras = some rs ∧
      List.Forall₂ (fun c r => showCamera frameLabels c frameLabels 1 1 1 = some r) cameras rs) ∧
    (9 < cameras.length → showCameras frameLabels cameras = none) := by
  constructor
  · intro h
    have hex : ∃ rs, showCameras frameLabels cameras = some rs := by
      apply ListM.mapM_isSome
      rintro ⟨c, i⟩ hp
      have hi := List.mem_zipIdx_iff_getElem?.1 hp
      simp only at hi
      obtain ⟨hi, -⟩ := List.getElem?_eq_some_iff.1 hi
      exact ⟨_, by unfold showCamera; rw [if_pos ⟨by omega, by simp only; omega⟩]⟩
    obtain ⟨rs, hr⟩ := hex
    refine ⟨rs, hr, ?_⟩
    have h1 := ListM.mapM_forall₂ hr
    rw [List.forall₂_iff_get] at h1 ⊢
    obtain ⟨hlen, h1⟩ := h1
    rw [List.length_zipIdx] at hlen
    refine ⟨hlen, fun i hi hj => ?_⟩
    have h2 := h1 i (by rw [List.length_zipIdx]; exact hi) hj
    simp only [List.get_eq_getElem, List.getElem_zipIdx, Nat.zero_add] at h2 ⊢
    rw [← h2]
    unfold showCamera
    rw [if_pos ⟨by omega, by omega⟩, if_pos ⟨by omega, by omega⟩]
  · intro h
    cases hr : showCameras frameLabels cameras with
    | none => rfl
    | some rs =>
      exfalso
      have h1 := ListM.mapM_forall₂ hr
      rw [List.forall₂_iff_get] at h1
      have h2 := h1.2 9 (by rw [List.length_zipIdx]; exact h) (by have := h1.1; rw [List.length_zipIdx] at this; omega)
      simp only [List.get_eq_getElem, List.getElem_zipIdx, Nat.zero_add] at h2
      unfold showCamera at h2
      rw [if_neg (by omega)] at h2
      simp at h2

/-- **C219 is violated**: the labels given are ignored: those of the global frame are shown whatever is given. -/
theorem camera_violated : (∀ frameLabels camera a b rows cols index, showCamera frameLabels camera a rows cols index = showCamera frameLabels camera b rows cols index) ∧
    showCamera [] 1 [⟨1, [⟨5, 5, 2, 2⟩]⟩] 1 1 1 = some [] ∧ showCamera [⟨1, [⟨5, 5, 2, 2⟩]⟩] 1 [] 1 1 1 = some [⟨4, 4, 2, 2⟩] := by
  refine ⟨fun _ _ _ _ _ _ _ => rfl, by simp [showCamera], ?_⟩
  simp [showCamera]
  norm_num

/-- **C219**: the pictures of a range image show its first three channels; every pixel that is not negative has its number, and others a large one. -/
theorem range_spec {m : Raw ℝ} {start : ℕ} {ps : List (String × ℝ × List (List ℝ))} (h : showRange m start = some ps) :
    ps.map (fun p => (p.1, p.2.1)) = [("range", 75), ("intensity", 3 / 2), ("elongation", 3 / 2)] ∧
    ∃ hh w c, m.dims = [hh, w, c] ∧ ∀ (k : ℕ) (p : String × ℝ × List (List ℝ)), ps[k]? = some p → p.2.2.length = hh ∧ (∀ row ∈ p.2.2, row.length = w) ∧
      ∀ r col v, Holds m hh w c r col k v → ((p.2.2[r]?).bind fun row => row[col]?) = some (if 0 ≤ v then v else 10 ^ 10) := by
  unfold showRange at h
  simp only [Option.bind_eq_bind, Option.bind_eq_some_iff] at h
  obtain ⟨x, hx, h⟩ := h
  split_ifs at h with hc
  simp only [Option.pure_def, Option.some.injEq] at h
  subst h
  refine ⟨rfl, x.h, x.w, x.c, (reshape_some hx).1, ?_⟩
  intro k p hp
  have key : p.2.2 = (List.range x.h).map fun r => (List.range x.w).map fun c => if 0 ≤ x.at r c k then x.at r c k else 10 ^ 10 := by
    rcases k with _ | _ | _ | k
    · simp at hp; rw [← hp]
    · simp at hp; rw [← hp]
    · simp at hp; rw [← hp]
    · simp at hp
  rw [key]
  refine ⟨by simp, by simp, ?_⟩
  intro r col v hv
  have hr := hv.2.2.1
  have hcol := hv.2.2.2.1
  have hk := hv.2.2.2.2.1
  have : x.at r col k = v := (holds_unique hx hv).2.2.2.2.2.2.symm
  rw [List.getElem?_map, List.getElem?_range hr, Option.map_some, Option.bind_some, List.getElem?_map, List.getElem?_range hcol, Option.map_some, this]

/-- **C219**: when the pictures of a range image can be made. -/
theorem range_total (m : Raw ℝ) (start : ℕ) : (∃ ps, showRange m start = some ps) ↔
    ∃ h w c, m.dims = [h, w, c] ∧ m.data.length = h * w * c ∧ 3 ≤ c ∧ 1 ≤ start ∧ start ≤ 6 := by
  unfold showRange
  constructor
  · rintro ⟨ps, h⟩
    simp only [Option.bind_eq_bind, Option.bind_eq_some_iff] at h
    obtain ⟨x, hx, h⟩ := h
    split_ifs at h with hc
    obtain ⟨h1, h2⟩ := reshape_some hx
    unfold reshape at hx
    rw [h1] at hx
    simp only at hx
    split_ifs at hx with hd
    exact ⟨_, _, _, h1, hd, hc.1, hc.2.1, by omega⟩
  · rintro ⟨h, w, c, hd, hl, h3, h1, h6⟩
    have : reshape m = some ⟨h, w, c, m.data⟩ := by unfold reshape; rw [hd]; simp [hl]
    rw [this]
    simp only [Option.bind_eq_bind, Option.bind_some]
    rw [if_pos ⟨h3, h1, by omega⟩]
    exact ⟨_, rfl⟩

/-- **C219**: up to the limit the brightness is proportional to the number. -/
theorem brightness_spec {limit v : ℝ} (h0 : 0 < limit) (h1 : 0 ≤ v) (h2 : v ≤ limit) : brightness limit v = v / limit := by
  unfold brightness
  rw [min_eq_right, max_eq_right]
  · positivity
  · rwa [div_le_one h0]

/-- **C219 is violated**: a pixel without a return is as bright as one at 75 metres or more. -/
theorem brightness_violated {v : ℝ} (h : 75 ≤ v) : brightness 75 (10 ^ 10) = brightness 75 v := by
  unfold brightness
  rw [min_eq_left, min_eq_left]
  · rw [le_div_iff₀ (by norm_num)]; linarith
  · norm_num

/-! ### C220: points in pictures -/

/-- Specification: the projections and distances of some points, in order. -/
def Shows (chosen : List ℤ → V3 → Prop) (position : List ℤ → ℤ × ℤ) (cps : List (List ℤ)) (points : List V3) (out : List (ℤ × ℤ × ℝ)) : Prop :=
  ∃ at_ : List ℕ, at_.Pairwise (· < ·) ∧ (∀ i, i ∈ at_ ↔ ∃ c p, cps[i]? = some c ∧ points[i]? = some p ∧ chosen c p) ∧
    List.Forall₂ (fun i o => ∃ c p, cps[i]? = some c ∧ points[i]? = some p ∧ (o.1, o.2.1) = position c ∧ 0 ≤ o.2.2 ∧
      o.2.2 ^ 2 = p 0 ^ 2 + p 1 ^ 2 + p 2 ^ 2) at_ out

theorem filter_positions {α : Type} (P : α → Bool) (l : List α) :
    ∃ at_ : List ℕ, at_.Pairwise (· < ·) ∧ (∀ i, i ∈ at_ ↔ ∃ a, l[i]? = some a ∧ P a = true) ∧
      List.Forall₂ (fun i a => l[i]? = some a) at_ (l.filter P) := by
  induction l using List.reverseRecOn with
  | nil => exact ⟨[], List.Pairwise.nil, by simp, List.Forall₂.nil⟩
  | append_singleton l a ih =>
    obtain ⟨at_, h1, h2, h3⟩ := ih
    have hlt : ∀ i ∈ at_, i < l.length := fun i hi => by
      obtain ⟨b, hb, -⟩ := (h2 i).1 hi
      exact (List.getElem?_eq_some_iff.1 hb).1
    have h3' : List.Forall₂ (fun i b => (l ++ [a])[i]? = some b) at_ (l.filter P) := by
      refine ListM.forall₂_imp_mem h3 ?_
      intro i hi b _ hb
      rw [List.getElem?_append_left (hlt i hi)]; exact hb
    have hget : ∀ i b, (l ++ [a])[i]? = some b ↔ l[i]? = some b ∨ (i = l.length ∧ a = b) := by
      intro i b
      rcases lt_trichotomy i l.length with h | h | h
      · rw [List.getElem?_append_left h]; simp; omega
      · subst h; simp
      · rw [List.getElem?_eq_none (by simp; omega), List.getElem?_eq_none (by omega)]; simp; omega
    rw [List.filter_append]
    by_cases hp : P a = true
    · refine ⟨at_ ++ [l.length], ?_, ?_, ?_⟩
      · rw [List.pairwise_append]
        exact ⟨h1, by simp, fun i hi j hj => by rw [List.mem_singleton.1 hj]; exact hlt i hi⟩
      · intro i
        simp only [List.mem_append, List.mem_singleton, h2, hget]
        constructor
        · rintro (⟨b, hb, hpb⟩ | rfl)
          · exact ⟨b, Or.inl hb, hpb⟩
          · exact ⟨a, Or.inr ⟨rfl, rfl⟩, hp⟩
        · rintro ⟨b, hb | ⟨rfl, rfl⟩, hpb⟩
          · exact Or.inl ⟨b, hb, hpb⟩
          · exact Or.inr rfl
      · rw [List.filter_cons_of_pos hp]
        refine List.rel_append h3' (List.Forall₂.cons ?_ List.Forall₂.nil)
        simp
    · refine ⟨at_, h1, ?_, ?_⟩
      · intro i
        rw [h2]
        simp only [hget]
        constructor
        · rintro ⟨b, hb, hpb⟩; exact ⟨b, Or.inl hb, hpb⟩
        · rintro ⟨b, hb | ⟨rfl, rfl⟩, hpb⟩
          · exact ⟨b, hb, hpb⟩
          · exact absurd hpb hp
      · rw [List.filter_cons_of_neg hp, List.filter_nil, List.append_nil]; exact h3'

/-- **C220, what holds**: the points shown are exactly those whose first projection is in the first camera, in order, at that projection, with their distances
from the vehicle. -/
theorem projected_partial {cameras : List ℕ} {cps : List (List ℤ)} {points : List V3} {out : List (ℤ × ℤ × ℝ)} (h : projected cameras cps points = some out) :
    ∃ camera ∈ cameras, (∀ c ∈ cameras, camera ≤ c) ∧
      Shows (fun c _ => c[0]? = some (camera : ℤ)) (fun c => (c.getD 1 0, c.getD 2 0)) cps points out := by
  unfold projected at h
  simp only [Option.bind_eq_bind, Option.bind_eq_some_iff] at h
  obtain ⟨camera, hc, h⟩ := h
  obtain ⟨hm, hle⟩ := List.min?_eq_some_iff.1 hc
  split_ifs at h with hs
  simp only [Option.pure_def, Option.some.injEq] at h
  subst h
  refine ⟨camera, hm, hle, ?_⟩
  obtain ⟨at_, h1, h2, h3⟩ := filter_positions (fun q : List ℤ × V3 => decide (q.1.getD 0 0 = (camera : ℤ))) (cps.zip points)
  have h0 : ∀ c ∈ cps, (c.getD 0 0 = (camera : ℤ) ↔ c[0]? = some (camera : ℤ)) := by
    intro c hc
    have := hs.2 c hc
    cases c with
    | nil => simp at this
    | cons a c => simp
  refine ⟨at_, h1, ?_, ?_⟩
  · intro i
    rw [h2]
    simp only [decide_eq_true_eq]
    constructor
    · rintro ⟨⟨c, p⟩, hz, hcam⟩
      obtain ⟨a, b⟩ := List.getElem?_zip_eq_some.1 hz
      exact ⟨c, p, a, b, (h0 c (List.mem_of_getElem? a)).1 hcam⟩
    · rintro ⟨c, p, a, b, hcam⟩
      have hz : (cps.zip points)[i]? = some (c, p) := List.getElem?_zip_eq_some.2 ⟨a, b⟩
      exact ⟨(c, p), hz, (h0 c (List.mem_of_getElem? a)).2 hcam⟩
  · rw [List.forall₂_map_right_iff]
    refine h3.imp ?_
    rintro i ⟨c, p⟩ hz
    obtain ⟨a, b⟩ := List.getElem?_zip_eq_some.1 hz
    exact ⟨c, p, a, b, rfl, Real.sqrt_nonneg _, Real.sq_sqrt (by positivity)⟩

/-- **C220**: when there are points: a camera, as many projections as points, and six numbers each. -/
theorem projected_total (cameras : List ℕ) (cps : List (List ℤ)) (points : List V3) : (∃ out, projected cameras cps points = some out) ↔
    cameras ≠ [] ∧ cps.length = points.length ∧ ∀ p ∈ cps, p.length = 6 := by
  unfold projected
  cases hc : cameras.min? with
  | none => rw [List.min?_eq_none_iff] at hc; simp [hc]
  | some c =>
    have : cameras ≠ [] := by rintro rfl; simp at hc
    simp only [Option.bind_eq_bind, Option.bind_some, this, ne_eq, not_false_eq_true, true_and]
    split_ifs with h
    · exact ⟨fun _ => h, fun _ => ⟨_, rfl⟩⟩
    · exact ⟨fun ⟨_, e⟩ => by simp at e, fun e => absurd e h⟩

/-- **C220 is violated**: a point that two cameras see is shown only in that of its first projection: it is missing in the picture of camera 1. -/
theorem projected_violated : projected [1, 2] [[2, 30, 40, 1, 50, 60]] [![3, 4, 0]] = some [] ∧
    projected [1, 2] [[1, 50, 60, 2, 30, 40]] [![3, 4, 0]] = some [(50, 60, 5)] := by
  constructor
  · simp [projected]
  · simp [projected]
    rw [show (3 : ℝ) ^ 2 + 4 ^ 2 = 5 ^ 2 by norm_num]
    exact Real.sqrt_sq (by norm_num)

/-- **C220**: colors are in the map, and two distances have the same color exactly if they differ by a multiple of 20 metres. -/
theorem colorOf_spec (r s : ℝ) : 0 ≤ colorOf r ∧ colorOf r < 1 ∧ (colorOf r = colorOf s ↔ ∃ n : ℤ, r - s = 20 * n) := by
  have he : ∀ r, colorOf r = Int.fract (r / 20) := by
    intro r
    unfold colorOf Int.fract
    ring
  rw [he, he]
  refine ⟨Int.fract_nonneg _, Int.fract_lt_one _, ?_⟩
  rw [Int.fract_eq_fract]
  constructor
  · rintro ⟨z, hz⟩; exact ⟨z, by linarith⟩
  · rintro ⟨z, hz⟩; exact ⟨z, by linarith⟩

/-- **C220**: every point is drawn at its position with the color of its distance. -/
theorem plotPoints_spec (ps : List (ℤ × ℤ × ℝ)) : (plotPoints ps).1.length = ps.length ∧ (plotPoints ps).2.1.length = ps.length ∧
    (plotPoints ps).2.2.length = ps.length ∧ ∀ (i : ℕ) p, ps[i]? = some p → (plotPoints ps).1[i]? = some p.1 ∧ (plotPoints ps).2.1[i]? = some p.2.1 ∧
      ∃ c, (plotPoints ps).2.2[i]? = some c ∧ c = Int.fract (p.2.2 / 20) := by
  unfold plotPoints
  refine ⟨by simp, by simp, by simp, ?_⟩
  intro i p hp
  simp only [List.getElem?_map, hp, Option.map_some, Option.some.injEq, true_and, exists_eq_left']
  unfold colorOf Int.fract
  ring

end Verif.LaserTutorial
