import Verif.Props.SegmentGeom
import Verif.Model.Polygon

/-!
C104: boxes made from centres, corners and axes.
-/

namespace Verif.Segment

open Real Verif.Polygon

/-! ## Specification -/

/-- The point with the given coordinates along and to the left of the heading. -/
noncomputable def place (c : Pt ℝ) (h a b : ℝ) : Pt ℝ := (c.1 + a * cos h - b * sin h, c.2 + a * sin h + b * cos h)

/-- The corners of a box with centre `c`, heading `h`, length `l` and width `w`, clockwise: rear left, front left, front right, rear right. -/
noncomputable def rectCorners (c : Pt ℝ) (h l w : ℝ) : List (Pt ℝ) :=
  [place c h (-(l / 2)) (w / 2), place c h (l / 2) (w / 2), place c h (l / 2) (-(w / 2)), place c h (-(l / 2)) (-(w / 2))]

/-- The centre of a segment. -/
noncomputable def mid (s : Seg) : Pt ℝ := ((s.start.1 + s.stop.1) / 2, (s.start.2 + s.stop.2) / 2)

/-- A motion of the plane. -/
noncomputable def motion (θ : ℝ) (t p : Pt ℝ) : Pt ℝ := (cos θ * p.1 - sin θ * p.2 + t.1, sin θ * p.1 + cos θ * p.2 + t.2)

/-! ## Corners -/

theorem place_eq (s : Seg) {h : ℝ} (hh : s.IsHeading h) :
    s.start = place (mid s) h (-(s.dist / 2)) 0 ∧ s.stop = place (mid s) h (s.dist / 2) 0 := by
  obtain ⟨h1, h2⟩ := hh
  constructor
  · ext
    · simp only [place, mid]; rw [h1]; ring
    · simp only [place, mid]; rw [h2]; ring
  · ext
    · simp only [place, mid]; rw [h1]; ring
    · simp only [place, mid]; rw [h2]; ring

theorem perpUnit_of_heading {s : Seg} (hs : Sound s) (h0 : s.dist ≠ 0) {h : ℝ} (hh : s.IsHeading h) : s.perpUnit = (-sin h, cos h) := by
  unfold Seg.perpUnit
  rw [hs.getLength, if_neg h0]
  obtain ⟨h1, h2⟩ := hh
  ext
  · show 1 / s.dist * (-(s.stop.2 - s.start.2)) = -sin h
    rw [h2]; field_simp; ring
  · show 1 / s.dist * (s.stop.1 - s.start.1) = cos h
    rw [h1]; field_simp; ring

theorem corners_of_heading {b : Box} (hb : Sound b.axis) (h0 : b.axis.dist ≠ 0) {h : ℝ} (hh : b.axis.IsHeading h) :
    b.corners = rectCorners (mid b.axis) h b.axis.dist b.width := by
  obtain ⟨e1, e2⟩ := place_eq b.axis hh
  unfold Box.corners rectCorners
  simp only [perpUnit_of_heading hb h0 hh]
  rw [e1, e2]
  simp only [place, scale]
  congr 1
  · ext <;> simp only [Prod.fst_add, Prod.snd_add] <;> ring
  congr 1
  · ext <;> simp only [Prod.fst_add, Prod.snd_add] <;> ring
  congr 1
  · ext <;> simp only [Prod.fst_sub, Prod.snd_sub] <;> ring
  congr 1
  · ext <;> simp only [Prod.fst_sub, Prod.snd_sub] <;> ring

/-- **The corners of a box** (C104): those of the rectangle around its centre with its heading, its length and its width, clockwise from the rear
left one, or counter-clockwise. -/
theorem corners_spec {b : Box} (hb : Built b.axis) (h0 : b.axis.dist ≠ 0) :
    b.corners = rectCorners b.axis.center b.axis.getHeading.1 b.axis.getLength.1 b.width ∧
    b.cornersCcw = [b.corners.getD 0 (0, 0), b.corners.getD 3 (0, 0), b.corners.getD 2 (0, 0), b.corners.getD 1 (0, 0)] ∧
    b.area = b.axis.dist * b.width := by
  have hs := built_sound hb
  refine ⟨?_, rfl, ?_⟩
  · rw [corners_of_heading hs h0 hs.getHeading, hs.getLength]
    congr 1
  · unfold Box.area; rw [hs.getLength]; ring

theorem dist_ofDirection (c d : Pt ℝ) {l : ℝ} (hd : d.1 ^ 2 + d.2 ^ 2 = 1) (hl : 0 ≤ l) : (Seg.ofDirection c d l).dist = l :=
  ((built_sound (.ofDirection c d l hd hl)).length l rfl).symm

theorem dist_ofHeading (c : Pt ℝ) (h : ℝ) {l : ℝ} (hl : 0 ≤ l) : (Seg.ofHeading c h l).dist = l :=
  ((built_sound (.ofHeading c h l hl)).length l rfl).symm

theorem mid_ofHeading (c : Pt ℝ) (h l : ℝ) : mid (Seg.ofHeading c h l) = c := by
  ext <;> simp [mid, Seg.ofHeading, Seg.ofDirection]

/-- **A box from its centre, heading, length and width** (C104). -/
theorem ofCenter_corners (c : Pt ℝ) (h l w : ℝ) (hl : 0 < l) :
    (Box.ofCenter c h l w).corners = rectCorners c h l w ∧
    (Box.ofCenter c h l w).cornersCcw = boxCorners c (cos h, sin h) l w ∧ (Box.ofCenter c h l w).area = l * w := by
  have hb : Built (Box.ofCenter c h l w).axis := .ofHeading c h l hl.le
  have hd : (Box.ofCenter c h l w).axis.dist = l := dist_ofHeading c h hl.le
  have e := corners_of_heading (b := Box.ofCenter c h l w) (built_sound hb) (by rw [hd]; exact hl.ne') ((built_sound hb).heading h rfl)
  rw [hd, show mid (Box.ofCenter c h l w).axis = c from mid_ofHeading c h l] at e
  refine ⟨e, ?_, ?_⟩
  · rw [(corners_spec hb (by rw [hd]; exact hl.ne')).2.1, e]
    unfold boxCorners rectCorners place scale
    have hl' := hl.ne'
    simp only [if_neg hl', List.getD_cons_zero, List.getD_cons_succ]
    show _ = _
    congr 1
    · ext
      · simp only [Box.ofCenter, Prod.fst_add, Prod.snd_add, Prod.fst_sub, Prod.snd_sub]; field_simp; ring
      · simp only [Box.ofCenter, Prod.fst_add, Prod.snd_add, Prod.fst_sub, Prod.snd_sub]; field_simp; ring
    congr 1
    · ext
      · simp only [Box.ofCenter, Prod.fst_add, Prod.snd_add, Prod.fst_sub, Prod.snd_sub]; field_simp; ring
      · simp only [Box.ofCenter, Prod.fst_add, Prod.snd_add, Prod.fst_sub, Prod.snd_sub]; field_simp; ring
    congr 1
    · ext
      · simp only [Box.ofCenter, Prod.fst_add, Prod.snd_add, Prod.fst_sub, Prod.snd_sub]; field_simp; ring
      · simp only [Box.ofCenter, Prod.fst_add, Prod.snd_add, Prod.fst_sub, Prod.snd_sub]; field_simp; ring
    congr 1
    · ext
      · simp only [Box.ofCenter, Prod.fst_add, Prod.snd_add, Prod.fst_sub, Prod.snd_sub]; field_simp; ring
      · simp only [Box.ofCenter, Prod.fst_add, Prod.snd_add, Prod.fst_sub, Prod.snd_sub]; field_simp; ring
  · rw [(corners_spec hb (by rw [hd]; exact hl.ne')).2.2, hd]; rfl

/-- **A box from one corner** (C104): it is a rectangle with the heading, length and width, and the given corner is that of the given index.
For a positive length only. -/
theorem ofCorner_partial (i : ℕ) (hi : i < 4) (corner : Pt ℝ) (h l w : ℝ) (hl : 0 < l) :
    (∃ c, (Box.ofCorner i corner h l w).corners = rectCorners c h l w) ∧
    (Box.ofCorner i corner h l w).corners[i]? = some corner ∧ (Box.ofCorner i corner h l w).area = l * w := by
  have hu : (unitFromAngle h).1 ^ 2 + (unitFromAngle h).2 ^ 2 = 1 := by
    simp only [unitFromAngle]; exact cos_sq_add_sin_sq h
  have key : ∀ sh : Pt ℝ, (⟨(Seg.ofDirection corner (unitFromAngle h) l).shift sh, w⟩ : Box).corners = rectCorners (corner + sh) h l w ∧
      (⟨(Seg.ofDirection corner (unitFromAngle h) l).shift sh, w⟩ : Box).area = l * w := fun sh => by
    have hb : Built ((Seg.ofDirection corner (unitFromAngle h) l).shift sh) := .shift _ (.ofDirection _ _ _ hu hl.le)
    have hd : ((Seg.ofDirection corner (unitFromAngle h) l).shift sh).dist = l := ((built_sound hb).length l rfl).symm
    have hh : ((Seg.ofDirection corner (unitFromAngle h) l).shift sh).IsHeading h := by
      unfold Seg.IsHeading
      rw [hd]
      simp only [Seg.ofDirection, Seg.shift, scale, unitFromAngle, Prod.fst_add, Prod.snd_add, Prod.fst_sub, Prod.snd_sub]
      exact ⟨by ring, by ring⟩
    have hm : mid ((Seg.ofDirection corner (unitFromAngle h) l).shift sh) = corner + sh := by
      ext <;> simp only [mid, Seg.ofDirection, Seg.shift, scale, Prod.fst_add, Prod.snd_add, Prod.fst_sub, Prod.snd_sub] <;> ring
    generalize (Seg.ofDirection corner (unitFromAngle h) l).shift sh = sg at hb hd hh hm
    have e := corners_of_heading (b := ⟨sg, w⟩) (built_sound hb) (by simp only [hd]; exact hl.ne') hh
    refine ⟨?_, ?_⟩
    · rw [e]; simp only [hd, hm]
    · rw [(corners_spec (b := ⟨sg, w⟩) hb (by simp only [hd]; exact hl.ne')).2.2]; simp only [hd]
  unfold Box.ofCorner Box.ofCornerDirection
  refine ⟨⟨_, (key _).1⟩, ?_, (key _).2⟩
  rw [(key _).1]
  have hcase : i = 0 ∨ i = 1 ∨ i = 2 ∨ i = 3 := by omega
  rcases hcase with rfl | rfl | rfl | rfl
  · simp [rectCorners, place, scale, perp, unitFromAngle]
    ext <;> simp <;> ring
  · simp [rectCorners, place, scale, perp, unitFromAngle]
    ext <;> simp <;> ring
  · simp [rectCorners, place, scale, perp, unitFromAngle]
    ext <;> simp <;> ring
  · simp [rectCorners, place, scale, perp, unitFromAngle]
    ext <;> simp <;> ring

/-- **A box of length zero does not keep the corner**: its width has no direction. -/
theorem ofCorner_violated : (Box.ofCorner 0 (0, 0) 0 0 2).corners = [(0, -1), (0, -1), (0, -1), (0, -1)] := by
  have hl : (Box.ofCorner 0 (0, 0) 0 0 2).axis.getLength.1 = 0 := by
    simp [Box.ofCorner, Box.ofCornerDirection, Seg.ofDirection, Seg.shift, Seg.getLength]
  unfold Box.corners Seg.perpUnit
  rw [hl, if_pos rfl]
  simp [Box.ofCorner, Box.ofCornerDirection, Seg.ofDirection, Seg.shift, scale, perp, unitFromAngle]

/-- **A box from two opposite corners** (C104): exactly if the second is not below or left of the first; then the corners are those of the
rectangle with sides along the axes, and the area is its area. -/
theorem ofCorners_spec (p q : Pt ℝ) :
    (Box.ofCorners p q = none ↔ q.1 < p.1 ∨ q.2 < p.2) ∧
    ∀ b, Box.ofCorners p q = some b →
      (∀ x, x ∈ b.corners ↔ (x.1 = p.1 ∨ x.1 = q.1) ∧ (x.2 = p.2 ∨ x.2 = q.2)) ∧ b.area = (q.1 - p.1) * (q.2 - p.2) := by
  unfold Box.ofCorners
  simp only
  constructor
  · constructor
    · intro h
      split_ifs at h with g
      · rw [le_min_iff] at g
        push Not at g
        by_cases h1 : q.1 < p.1
        · exact .inl h1
        · exact .inr (by have := g (by linarith [not_lt.mp h1]); linarith)
    · intro h
      rw [if_neg]
      rw [le_min_iff]
      rintro ⟨a, b⟩
      rcases h with h | h <;> linarith
  · intro b hb
    by_cases g : 0 ≤ min (q.1 - p.1) (q.2 - p.2)
    swap
    · rw [if_neg g] at hb; cases hb
    rw [if_pos g, Option.some.injEq] at hb
    rw [le_min_iff] at g
    obtain ⟨g1, g2⟩ := g
    have hc1 : (scale (1 / 2) (p + q)).1 = (p.1 + q.1) / 2 := by simp only [scale, Prod.fst_add]; ring
    have hc2 : (scale (1 / 2) (p + q)).2 = (p.2 + q.2) / 2 := by simp only [scale, Prod.snd_add]; ring
    by_cases hge : q.1 - p.1 ≥ q.2 - p.2
    · rw [if_pos hge, max_eq_left hge, min_eq_right hge] at hb
      by_cases h0 : q.1 - p.1 = 0
      · have e1 : q.1 = p.1 := by linarith
        have e2 : q.2 = p.2 := by linarith
        subst hb
        rw [h0]
        have hl : (Seg.ofHeading (scale (1 / 2) (p + q)) 0 0).getLength.1 = 0 := rfl
        refine ⟨fun x => ?_, by unfold Box.area; rw [hl]; ring⟩
        unfold Box.corners Seg.perpUnit
        simp only [hl, if_true]
        have : (scale (1 / 2) (p + q)) = p := by
          ext
          · rw [hc1, e1]; ring
          · rw [hc2, e2]; ring
        rw [this]
        simp [Seg.ofHeading, Seg.ofDirection, scale, e1, e2, Prod.ext_iff]
      · have hpos : 0 < q.1 - p.1 := lt_of_le_of_ne g1 (Ne.symm h0)
        obtain ⟨c, _, ar⟩ := ofCenter_corners (scale (1 / 2) (p + q)) 0 (q.1 - p.1) (q.2 - p.2) hpos
        subst hb
        refine ⟨fun x => ?_, ar⟩
        rw [show (⟨Seg.ofHeading (scale (1 / 2) (p + q)) 0 (q.1 - p.1), q.2 - p.2⟩ : Box) = Box.ofCenter _ _ _ _ from rfl, c]
        simp only [rectCorners, place, hc1, hc2, cos_zero, sin_zero, mul_one, mul_zero, sub_zero, add_zero, List.mem_cons, List.not_mem_nil,
          or_false, Prod.ext_iff]
        rw [show (p.1 + q.1) / 2 + -((q.1 - p.1) / 2) = p.1 by ring, show (p.1 + q.1) / 2 + (q.1 - p.1) / 2 = q.1 by ring,
          show (p.2 + q.2) / 2 + -((q.2 - p.2) / 2) = p.2 by ring, show (p.2 + q.2) / 2 + (q.2 - p.2) / 2 = q.2 by ring]
        tauto
    · rw [if_neg hge] at hb
      push Not at hge
      rw [max_eq_right hge.le, min_eq_left hge.le] at hb
      obtain ⟨c, _, ar⟩ := ofCenter_corners (scale (1 / 2) (p + q)) (π / 2) (q.2 - p.2) (q.1 - p.1) (by linarith)
      subst hb
      refine ⟨fun x => ?_, by rw [mul_comm]; exact ar⟩
      rw [show (⟨Seg.ofHeading (scale (1 / 2) (p + q)) (π / 2) (q.2 - p.2), q.1 - p.1⟩ : Box) = Box.ofCenter _ _ _ _ from rfl, c]
      simp only [rectCorners, place, hc1, hc2, cos_pi_div_two, sin_pi_div_two, mul_one, mul_zero, add_zero, List.mem_cons,
        List.not_mem_nil, or_false, Prod.ext_iff]
      rw [show (p.1 + q.1) / 2 - -((q.1 - p.1) / 2) = q.1 by ring, show (p.1 + q.1) / 2 - (q.1 - p.1) / 2 = p.1 by ring,
        show (p.2 + q.2) / 2 + -((q.2 - p.2) / 2) = p.2 by ring, show (p.2 + q.2) / 2 + (q.2 - p.2) / 2 = q.2 by ring]
      tauto

/-! ## Moves -/

/-- **Resizing a box** (C104) keeps its centre and its heading. -/
theorem setSize_spec {b : Box} (hb : Built b.axis) (l w : ℝ) (hl : 0 < l) :
    (b.setSize l w).corners = rectCorners b.axis.center b.axis.getHeading.1 l w ∧
    (b.setSize l w).axis.getHeading.1 = b.axis.getHeading.1 ∧ (b.setSize l w).axis.center = b.axis.center := by
  refine ⟨(ofCenter_corners _ _ l w hl).1, rfl, ?_⟩
  ext <;> simp [Box.setSize, Seg.center, Seg.ofHeading, Seg.ofDirection, scale] <;> ring

/-- **A box of length zero that was made from a direction loses it when resized.** -/
theorem setSize_violated : ((⟨Seg.ofDirection (0, 0) (0, 1) 0, 1⟩ : Box).setSize 2 1).corners = rectCorners (0, 0) 0 2 1 := by
  rw [(setSize_spec (.ofDirection _ _ _ (by norm_num) le_rfl) 2 1 (by norm_num)).1]
  congr 1
  · simp [Seg.center, Seg.ofDirection, scale]
  · simp [Seg.getHeading, Seg.ofDirection, scale, atan2]
    exact Complex.arg_zero

theorem corners_motion {s s' : Seg} (hs : Sound s) (hs' : Sound s') {θ : ℝ} {t : Pt ℝ} (h1 : s'.start = motion θ t s.start)
    (h2 : s'.stop = motion θ t s.stop) (w : ℝ) : (⟨s', w⟩ : Box).corners = (⟨s, w⟩ : Box).corners.map (motion θ t) := by
  have hd : s'.dist = s.dist := by
    unfold Seg.dist
    congr 1
    rw [h1, h2]
    simp only [motion]
    linear_combination ((s.stop.1 - s.start.1) ^ 2 + (s.stop.2 - s.start.2) ^ 2) * sin_sq_add_cos_sq θ
  by_cases h0 : s.dist = 0
  · have p : ∀ {s : Seg}, Sound s → s.dist = 0 → s.perpUnit = (0, 0) := fun hs h0 => by
      unfold Seg.perpUnit; rw [hs.getLength, if_pos h0]
    unfold Box.corners
    simp only [p hs h0, p hs' (hd ▸ h0), h1, h2, scale, mul_zero, List.map_cons, List.map_nil]
    simp [Prod.ext_iff, motion]
  · have hh := hs.getHeading
    have hh' : s'.IsHeading (s.getHeading.1 + θ) := by
      obtain ⟨a1, a2⟩ := hh
      unfold Seg.IsHeading
      rw [hd, h1, h2]
      simp only [motion, cos_add, sin_add]
      exact ⟨by linear_combination cos θ * a1 - sin θ * a2, by linear_combination sin θ * a1 + cos θ * a2⟩
    rw [corners_of_heading (b := ⟨s, w⟩) hs h0 hh, corners_of_heading (b := ⟨s', w⟩) hs' (by rw [hd]; exact h0) hh', hd]
    have hm : mid s' = motion θ t (mid s) := by
      unfold mid; rw [h1, h2]
      ext <;> simp only [motion] <;> ring
    rw [hm]
    have hp : ∀ a b, place (motion θ t (mid s)) (s.getHeading.1 + θ) a b = motion θ t (place (mid s) s.getHeading.1 a b) := fun a b => by
      ext <;> simp only [place, motion, cos_add, sin_add] <;> ring
    simp only [rectCorners, hp, List.map_cons, List.map_nil]

/-- **Moving a box moves its corners** (C104): shifts, moves of the centre, and turns around the origin, a point or the centre. -/
theorem corners_move {b : Box} (hb : Built b.axis) (o : Pt ℝ) (θ : ℝ) :
    (⟨b.axis.shift o, b.width⟩ : Box).corners = b.corners.map (· + o) ∧
    (⟨b.axis.moveCenter o, b.width⟩ : Box).corners = b.corners.map (· + (o - b.axis.center)) ∧
    (⟨b.axis.rotateAroundOrigin θ, b.width⟩ : Box).corners = b.corners.map (motion θ (0, 0)) ∧
    (⟨b.axis.rotateAroundPoint o θ, b.width⟩ : Box).corners = b.corners.map (fun p => o + motion θ (0, 0) (p - o)) ∧
    (⟨b.axis.rotateAroundCenter θ, b.width⟩ : Box).corners =
      b.corners.map (fun p => b.axis.center + motion θ (0, 0) (p - b.axis.center)) := by
  have hs := built_sound hb
  have hshift : ∀ o : Pt ℝ, motion 0 o = (· + o) := fun o => by
    funext p; ext <;> simp [motion]
  have hrot : ∀ o : Pt ℝ, motion θ (o - motion θ (0, 0) o) = fun p => o + motion θ (0, 0) (p - o) := fun o => by
    funext p; ext <;> simp only [motion, Prod.fst_add, Prod.snd_add, Prod.fst_sub, Prod.snd_sub] <;> ring
  refine ⟨?_, ?_, ?_, ?_, ?_⟩
  · rw [← hshift]
    refine corners_motion hs (built_sound (.shift o hb)) ?_ ?_ _ <;> rw [hshift] <;> rfl
  · rw [← hshift]
    refine corners_motion hs (built_sound (.moveCenter o hb)) ?_ ?_ _ <;> rw [hshift] <;> rfl
  · refine corners_motion hs (built_sound (.rotateAroundOrigin θ hb)) ?_ ?_ _ <;>
      (ext <;> simp only [motion, Seg.rotateAroundOrigin, rotate] <;> ring)
  · rw [← hrot]
    refine corners_motion hs (built_sound (.rotateAroundPoint o θ hb)) ?_ ?_ _ <;>
      (ext <;> simp only [motion, Seg.rotateAroundPoint, rotate, Prod.fst_add, Prod.snd_add, Prod.fst_sub, Prod.snd_sub] <;> ring)
  · rw [← hrot]
    refine corners_motion hs (built_sound (.rotateAroundCenter θ hb)) ?_ ?_ _ <;>
      (ext <;> simp only [motion, Seg.rotateAroundCenter, Seg.rotateAroundPoint, rotate, Prod.fst_add, Prod.snd_add, Prod.fst_sub, Prod.snd_sub] <;> ring)

/-- A box 4 by 2 made from its front right corner. -/
theorem ofCorner_example : (Box.ofCorner 2 (5, 0) 0 4 2).corners = [(1, 2), (5, 2), (5, 0), (1, 0)] := by
  obtain ⟨⟨c, hc⟩, h2, _⟩ := ofCorner_partial 2 (by norm_num) (5, 0) 0 4 2 (by norm_num)
  have e : ((2 : ℕ) : ℤ) = 2 := rfl
  rw [e] at hc h2
  rw [hc] at h2 ⊢
  simp only [rectCorners, place, cos_zero, sin_zero, mul_zero, mul_one, sub_zero, add_zero, List.getElem?_cons_succ, List.getElem?_cons_zero,
    Option.some.injEq, Prod.mk.injEq] at h2 ⊢
  obtain ⟨a, b⟩ := h2
  have a' : c.1 = 3 := by linarith
  have b' : c.2 = 1 := by linarith
  rw [a', b']
  norm_num

end Verif.Segment
