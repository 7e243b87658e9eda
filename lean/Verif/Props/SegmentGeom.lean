import Verif.Props.SegmentCache
import Verif.Props.PolygonSegment

/-!
C103: distances, intersections and sampling of segments.
-/

namespace Verif.Segment

open Real Verif.Polygon

/-- The points of a segment. -/
def Seg.points (s : Seg) : Set (Pt ℝ) := segment ℝ s.start s.stop

theorem mem_points (s : Seg) (x : Pt ℝ) :
    x ∈ s.points ↔ ∃ t : ℝ, 0 ≤ t ∧ t ≤ 1 ∧ x = s.start + scale t (s.stop - s.start) := mem_segment_iff _ _ _

/-- The squared distance of two points. -/
def sqd (p q : Pt ℝ) : ℝ := (p.1 - q.1) ^ 2 + (p.2 - q.2) ^ 2

theorem distSqr_eq (p q : Pt ℝ) : distSqr p q = sqd p q := rfl

theorem sqd_comm (p q : Pt ℝ) : sqd p q = sqd q p := by unfold sqd; ring

theorem sqd_pos {p q : Pt ℝ} (h : p ≠ q) : 0 < sqd p q := by
  unfold sqd
  by_cases h1 : p.1 = q.1
  · have h2 : p.2 - q.2 ≠ 0 := fun g => h (Prod.ext h1 (by linarith))
    positivity
  · have h2 : p.1 - q.1 ≠ 0 := fun g => h1 (by linarith)
    positivity

/-! ## Distances -/

/-- **The distance of a point to a segment** (C103) is the least distance to a point of the segment. -/
theorem distSqrToPoint_spec (s : Seg) (q : Pt ℝ) :
    (∃ x ∈ s.points, s.distSqrToPoint q = sqd x q) ∧ ∀ x ∈ s.points, s.distSqrToPoint q ≤ sqd x q := by
  unfold Seg.distSqrToPoint
  by_cases h : s.start = s.stop
  · rw [if_pos h]
    refine ⟨⟨s.start, left_mem_segment ℝ _ _, rfl⟩, fun x hx => ?_⟩
    rw [mem_points, ← h] at hx
    obtain ⟨t, _, _, rfl⟩ := hx
    rw [show s.start + scale t (s.start - s.start) = s.start by ext <;> simp [scale]]
    rfl
  · rw [if_neg h]
    have hD := sqd_pos h
    set D := sqd s.start s.stop with hDd
    unfold pointDistSqr
    simp only [distSqr_eq, ← hDd]
    set a := dot (q - s.start) (s.stop - s.start) with had
    have had' : a = (q.1 - s.start.1) * (s.stop.1 - s.start.1) + (q.2 - s.start.2) * (s.stop.2 - s.start.2) := rfl
    -- the distance to the point at `t`
    have hx : ∀ t : ℝ, sqd (s.start + scale t (s.stop - s.start)) q = sqd q s.start - 2 * t * a + t ^ 2 * D := fun t => by
      rw [had', hDd]
      unfold sqd scale
      simp only [Prod.fst_add, Prod.snd_add, Prod.fst_sub, Prod.snd_sub]
      ring
    by_cases h1 : a * (1 / D) < 0
    · rw [if_pos h1]
      have ha : a < 0 := by
        by_contra g
        push Not at g
        have : 0 ≤ a * (1 / D) := by positivity
        linarith
      refine ⟨⟨s.start, left_mem_segment ℝ _ _, sqd_comm _ _⟩, fun x hx' => ?_⟩
      obtain ⟨t, t0, t1, rfl⟩ := (mem_points s x).mp hx'
      rw [hx]
      nlinarith [mul_nonneg t0 (neg_nonneg.mpr ha.le), mul_nonneg (sq_nonneg t) hD.le]
    · rw [if_neg h1]
      push Not at h1
      have ha : 0 ≤ a := by
        by_contra g
        push Not at g
        have : a * (1 / D) < 0 := mul_neg_of_neg_of_pos g (by positivity)
        linarith
      by_cases h2 : a * (1 / D) > 1
      · rw [if_pos h2]
        have ha2 : D < a := by
          rw [gt_iff_lt, mul_one_div, lt_div_iff₀ hD, one_mul] at h2
          exact h2
        have he : sqd q s.stop = sqd q s.start - 2 * a + D := by
          have := hx 1
          rw [show s.start + scale 1 (s.stop - s.start) = s.stop by ext <;> simp [scale], sqd_comm] at this
          linarith
        refine ⟨⟨s.stop, right_mem_segment ℝ _ _, sqd_comm _ _⟩, fun x hx' => ?_⟩
        obtain ⟨t, t0, t1, rfl⟩ := (mem_points s x).mp hx'
        rw [hx, he]
        nlinarith [mul_nonneg (sub_nonneg.mpr t1) (sub_nonneg.mpr ha2.le), mul_nonneg (sub_nonneg.mpr t1) (sub_nonneg.mpr ha2.le),
          mul_nonneg (mul_self_nonneg (1 - t)) hD.le]
      · rw [if_neg h2]
        push Not at h2
        have hmin : cp (q - s.start) (s.stop - s.start) ^ 2 * (1 / D) = sqd q s.start - a ^ 2 / D := by
          have : cp (q - s.start) (s.stop - s.start) ^ 2 = sqd q s.start * D - a ^ 2 := by
            rw [had', hDd]
            unfold cp sqd
            simp only [Prod.fst_sub, Prod.snd_sub]
            ring
          rw [this]
          field_simp
        rw [hmin]
        refine ⟨⟨s.start + scale (a * (1 / D)) (s.stop - s.start), (mem_points s _).mpr ⟨_, h1, h2, rfl⟩, ?_⟩, fun x hx' => ?_⟩
        · rw [hx]; field_simp; ring
        · obtain ⟨t, t0, t1, rfl⟩ := (mem_points s x).mp hx'
          rw [hx]
          have : 0 ≤ (t - a / D) ^ 2 * D := by positivity
          have e : (t - a / D) ^ 2 * D = t ^ 2 * D - 2 * t * a + a ^ 2 / D := by field_simp; ring
          linarith

/-- A segment holds a point exactly when the distance is zero. -/
theorem distSqrToPoint_eq_zero (s : Seg) (q : Pt ℝ) : s.distSqrToPoint q = 0 ↔ q ∈ s.points := by
  obtain ⟨⟨x, hx, e⟩, hmin⟩ := distSqrToPoint_spec s q
  constructor
  · intro h
    by_cases g : x = q
    · exact g ▸ hx
    · exact absurd (e ▸ h) (sqd_pos g).ne'
  · intro h
    have := hmin q h
    have z : sqd q q = 0 := by unfold sqd; ring
    have n : 0 ≤ sqd x q := by unfold sqd; positivity
    linarith

/-! ## Intersections -/

/-- The cross product of the directions of two segments. -/
def Seg.cross (s o : Seg) : ℝ :=
  (s.stop.1 - s.start.1) * (o.stop.2 - o.start.2) - (s.stop.2 - s.start.2) * (o.stop.1 - o.start.1)

theorem eps_pos : 0 < eps := by unfold eps; positivity

/-- Within the tolerance of a point of the segment. -/
def Seg.Near (s : Seg) (x : Pt ℝ) : Prop := ∃ a ∈ s.points, sqd a x ≤ eps ^ 2

theorem near_of_not_off {s : Seg} {x : Pt ℝ} {t : ℝ} (hx : x = s.start + scale t (s.stop - s.start))
    (h : ¬ off s.start s.stop x t) : s.Near x := by
  unfold off at h
  push Not at h
  obtain ⟨h1, h2⟩ := h
  by_cases t0 : t < 0
  · exact ⟨s.start, left_mem_segment ℝ _ _, h1 t0⟩
  · by_cases t1 : t > 1
    · exact ⟨s.stop, right_mem_segment ℝ _ _, h2 t1⟩
    · push Not at t0 t1
      refine ⟨x, (mem_points s x).mpr ⟨t, t0, t1, hx⟩, ?_⟩
      have : sqd x x = 0 := by unfold sqd; ring
      rw [this]; positivity

/-- The intersection of the lines is on both lines. -/
theorem crossing_lines {s o : Seg} (h : s.cross o ≠ 0) :
    s.start + scale (cp (o.stop - o.start) (s.start - o.start) / s.cross o) (s.stop - s.start) =
    o.start + scale (cp (s.stop - s.start) (s.start - o.start) / s.cross o) (o.stop - o.start) := by
  ext
  · simp only [scale, Prod.fst_add, Prod.fst_sub]
    field_simp
    unfold cp Seg.cross
    simp only [Prod.fst_sub, Prod.snd_sub]
    ring
  · simp only [scale, Prod.snd_add, Prod.snd_sub]
    field_simp
    unfold cp Seg.cross
    simp only [Prod.fst_sub, Prod.snd_sub]
    ring

theorem cross_ne {s o : Seg} (h : ¬ |s.cross o| < eps) : s.cross o ≠ 0 := fun g => h (by rw [g, abs_zero]; exact eps_pos)

open Classical in
theorem crossing_eq (s o : Seg) : crossing s o =
    if off s.start s.stop (s.start + scale (cp (o.stop - o.start) (s.start - o.start) / s.cross o) (s.stop - s.start))
        (cp (o.stop - o.start) (s.start - o.start) / s.cross o) ∨
      off o.start o.stop (s.start + scale (cp (o.stop - o.start) (s.start - o.start) / s.cross o) (s.stop - s.start))
        (cp (s.stop - s.start) (s.start - o.start) / s.cross o)
    then none else some (s.start + scale (cp (o.stop - o.start) (s.start - o.start) / s.cross o) (s.stop - s.start)) := rfl

/-- A common point of segments that are not parallel is the crossing of their lines. -/
theorem crossing_of_mem {s o : Seg} (h : s.cross o ≠ 0) {x : Pt ℝ} (h1 : x ∈ s.points) (h2 : x ∈ o.points) :
    crossing s o = some x := by
  obtain ⟨t, t0, t1, e1⟩ := (mem_points s x).mp h1
  obtain ⟨u, u0, u1, e2⟩ := (mem_points o x).mp h2
  have a1 := congrArg Prod.fst (e1.symm.trans e2)
  have a2 := congrArg Prod.snd (e1.symm.trans e2)
  simp only [scale, Prod.fst_add, Prod.snd_add, Prod.fst_sub, Prod.snd_sub] at a1 a2
  have ht : cp (o.stop - o.start) (s.start - o.start) / s.cross o = t := by
    rw [div_eq_iff h]
    unfold cp Seg.cross
    simp only [Prod.fst_sub, Prod.snd_sub]
    linear_combination (o.stop.1 - o.start.1) * a2 - (o.stop.2 - o.start.2) * a1
  have hu : cp (s.stop - s.start) (s.start - o.start) / s.cross o = u := by
    rw [div_eq_iff h]
    unfold cp Seg.cross
    simp only [Prod.fst_sub, Prod.snd_sub]
    linear_combination (s.stop.1 - s.start.1) * a2 - (s.stop.2 - s.start.2) * a1
  rw [crossing_eq, if_neg, ht, ← e1]
  rw [ht, hu]
  unfold off
  rintro ((⟨g, _⟩ | ⟨g, _⟩) | (⟨g, _⟩ | ⟨g, _⟩)) <;> linarith

theorem crossing_near {s o : Seg} (h : s.cross o ≠ 0) {x : Pt ℝ} (hx : crossing s o = some x) : s.Near x ∧ o.Near x := by
  rw [crossing_eq] at hx
  split_ifs at hx with g
  push Not at g
  simp only [Option.some.injEq] at hx
  rw [hx] at g
  exact ⟨near_of_not_off hx.symm g.1, near_of_not_off (by rw [← crossing_lines h]; exact hx.symm) g.2⟩

/-- **The intersection of two segments** (C103).  For segments whose directions have a cross product that is not below the tolerance:
a common point is found, and a point that is found is within the tolerance of both segments.  The other segments have none. -/
theorem intersect_partial (s o : Seg) :
    (eps ≤ |s.cross o| → ∀ x, x ∈ s.points → x ∈ o.points → s.intersect o = some x) ∧
    (∀ x, s.intersect o = some x → s.Near x ∧ o.Near x) ∧
    (|s.cross o| < eps → s.intersect o = none) := by
  have hd : cp (s.stop - s.start) (o.stop - o.start) = s.cross o := rfl
  refine ⟨fun h x h1 h2 => ?_, fun x hx => ?_, fun h => ?_⟩
  · unfold Seg.intersect
    rw [hd, if_neg (not_lt.mpr h)]
    exact crossing_of_mem (cross_ne (not_lt.mpr h)) h1 h2
  · unfold Seg.intersect at hx
    rw [hd] at hx
    split_ifs at hx with h
    exact crossing_near (cross_ne h) hx
  · unfold Seg.intersect
    rw [hd, if_pos h]

/-- Parallel segments with a common point have an end of one on the other. -/
theorem parallel_end {s o : Seg} (h : s.cross o = 0) {x : Pt ℝ} (h1 : x ∈ s.points) (h2 : x ∈ o.points) :
    o.start ∈ s.points ∨ o.stop ∈ s.points ∨ s.start ∈ o.points ∨ s.stop ∈ o.points := by
  obtain ⟨t, t0, t1, e1⟩ := (mem_points s x).mp h1
  obtain ⟨u, u0, u1, e2⟩ := (mem_points o x).mp h2
  by_cases hs : s.start = s.stop
  · right; right; left
    rw [← hs, show s.start + scale t (s.start - s.start) = s.start by ext <;> simp [scale]] at e1
    exact e1 ▸ h2
  have hD := sqd_pos hs
  obtain ⟨k, hk⟩ : ∃ k : ℝ, o.stop - o.start = scale k (s.stop - s.start) := by
    refine ⟨dot (s.stop - s.start) (o.stop - o.start) / sqd s.start s.stop, ?_⟩
    unfold Seg.cross at h
    ext
    · show o.stop.1 - o.start.1 = _ * (s.stop.1 - s.start.1)
      rw [div_mul_eq_mul_div, eq_div_iff hD.ne']
      unfold dot sqd
      simp only [Prod.fst_sub, Prod.snd_sub]
      linear_combination -(s.stop.2 - s.start.2) * h
    · show o.stop.2 - o.start.2 = _ * (s.stop.2 - s.start.2)
      rw [div_mul_eq_mul_div, eq_div_iff hD.ne']
      unfold dot sqd
      simp only [Prod.fst_sub, Prod.snd_sub]
      linear_combination (s.stop.1 - s.start.1) * h
  have k1 := congrArg Prod.fst hk
  have k2 := congrArg Prod.snd hk
  have a1 := congrArg Prod.fst (e1.symm.trans e2)
  have a2 := congrArg Prod.snd (e1.symm.trans e2)
  simp only [scale, Prod.fst_add, Prod.snd_add, Prod.fst_sub, Prod.snd_sub] at a1 a2 k1 k2
  have hstart : o.start = s.start + scale (t - u * k) (s.stop - s.start) := by
    ext
    · simp only [scale, Prod.fst_add, Prod.fst_sub]; linear_combination -a1 - u * k1
    · simp only [scale, Prod.snd_add, Prod.snd_sub]; linear_combination -a2 - u * k2
  have hstop : o.stop = s.start + scale (t + (1 - u) * k) (s.stop - s.start) := by
    ext
    · simp only [scale, Prod.fst_add, Prod.fst_sub]; linear_combination -a1 + (1 - u) * k1
    · simp only [scale, Prod.snd_add, Prod.snd_sub]; linear_combination -a2 + (1 - u) * k2
  by_cases ha : 0 ≤ t - u * k ∧ t - u * k ≤ 1
  · exact .inl ((mem_points s _).mpr ⟨_, ha.1, ha.2, hstart⟩)
  by_cases hb : 0 ≤ t + (1 - u) * k ∧ t + (1 - u) * k ≤ 1
  · exact .inr (.inl ((mem_points s _).mpr ⟨_, hb.1, hb.2, hstop⟩))
  right; right; left
  have hk0 : k ≠ 0 := by
    rintro rfl
    exact ha ⟨by linarith, by linarith⟩
  have hv : 0 ≤ -(t - u * k) / k ∧ -(t - u * k) / k ≤ 1 := by
    rcases lt_or_gt_of_ne hk0 with g | g
    · have c1 : 0 ≤ t - u * k := by nlinarith
      have c2 : t + (1 - u) * k < 0 := by
        by_contra g2
        push Not at g2
        exact hb ⟨g2, by nlinarith⟩
      constructor
      · exact div_nonneg_of_nonpos (by linarith) g.le
      · rw [div_le_one_of_neg g]; linarith
    · have c1 : t - u * k < 0 := by
        by_contra g2
        push Not at g2
        exact ha ⟨g2, by nlinarith⟩
      have c2 : 0 ≤ t + (1 - u) * k := by nlinarith
      constructor
      · exact div_nonneg (by linarith) g.le
      · rw [div_le_one g]; linarith
  refine (mem_points o _).mpr ⟨_, hv.1, hv.2, ?_⟩
  rw [hk, hstart]
  ext
  · simp only [scale, Prod.fst_add, Prod.fst_sub]; field_simp; ring
  · simp only [scale, Prod.snd_add, Prod.snd_sub]; field_simp; ring

theorem near_of_lt {s : Seg} {q : Pt ℝ} (h : s.distSqrToPoint q < eps ^ 2) : s.Near q := by
  obtain ⟨⟨x, hx, e⟩, _⟩ := distSqrToPoint_spec s q
  exact ⟨x, hx, by rw [← e]; exact h.le⟩

theorem near_self {s : Seg} {q : Pt ℝ} (h : q ∈ s.points) : s.Near q :=
  ⟨q, h, by have : sqd q q = 0 := by unfold sqd; ring
            rw [this]; positivity⟩

/-- **The test for an intersection** (C103) holds for segments with a common point that are parallel or have a cross product that is not below
the tolerance, and it implies that some point is within the tolerance of both segments. -/
theorem intersectOrCoincide_partial (s o : Seg) :
    (s.cross o = 0 ∨ eps ≤ |s.cross o| → (s.points ∩ o.points).Nonempty → s.intersectOrCoincide o = true) ∧
    (s.intersectOrCoincide o = true → ∃ x, s.Near x ∧ o.Near x) := by
  have hd : cp (s.stop - s.start) (o.stop - o.start) = s.cross o := rfl
  have e2 : (0 : ℝ) < eps ^ 2 := by have := eps_pos; positivity
  refine ⟨fun h ⟨x, h1, h2⟩ => ?_, fun h => ?_⟩
  · unfold Seg.intersectOrCoincide
    rw [hd]
    rcases h with h | h
    · rw [if_pos (by rw [h, abs_zero]; exact eps_pos), decide_eq_true_iff]
      rcases parallel_end h h1 h2 with g | g | g | g
      · exact .inl (((distSqrToPoint_eq_zero _ _).mpr g).trans_lt e2)
      · exact .inr (.inl (((distSqrToPoint_eq_zero _ _).mpr g).trans_lt e2))
      · exact .inr (.inr (.inl (((distSqrToPoint_eq_zero _ _).mpr g).trans_lt e2)))
      · exact .inr (.inr (.inr (((distSqrToPoint_eq_zero _ _).mpr g).trans_lt e2)))
    · rw [if_neg (not_lt.mpr h), crossing_of_mem (cross_ne (not_lt.mpr h)) h1 h2]
      rfl
  · unfold Seg.intersectOrCoincide at h
    rw [hd] at h
    split_ifs at h with g
    · rw [decide_eq_true_iff] at h
      rcases h with h | h | h | h
      · exact ⟨_, near_of_lt h, near_self (left_mem_segment ℝ _ _)⟩
      · exact ⟨_, near_of_lt h, near_self (right_mem_segment ℝ _ _)⟩
      · exact ⟨_, near_self (left_mem_segment ℝ _ _), near_of_lt h⟩
      · exact ⟨_, near_self (right_mem_segment ℝ _ _), near_of_lt h⟩
    · obtain ⟨x, hx⟩ := Option.isSome_iff_exists.mp h
      exact ⟨x, crossing_near (cross_ne g) hx⟩

/-- Two segments that cross at a right angle. -/
theorem intersect_example : (Seg.ofEnds (-1, 0) (1, 0)).intersect (Seg.ofEnds (0, -1) (0, 1)) = some (0, 0) := by
  refine (intersect_partial _ _).1 ?_ _ ?_ ?_
  · simp [Seg.cross, Seg.ofEnds, eps]; norm_num
  · exact (mem_points _ _).mpr ⟨1 / 2, by norm_num, by norm_num, by simp [Seg.ofEnds, scale]; norm_num⟩
  · exact (mem_points _ _).mpr ⟨1 / 2, by norm_num, by norm_num, by simp [Seg.ofEnds, scale]; norm_num⟩

/-- **Small segments that cross are missed**, although they are long compared with the tolerance. -/
theorem intersect_violated : ∃ s o : Seg, (0, 0) ∈ s.points ∧ (0, 0) ∈ o.points ∧ 10000 * eps < s.dist ∧ 10000 * eps < o.dist ∧
    s.intersect o = none ∧ s.intersectOrCoincide o = false := by
  have hs : ∀ a : ℝ, 0 ≤ a → (Seg.ofEnds (-a, 0) (a, 0)).dist = 2 * a := fun a ha => by
    simp only [Seg.dist, Seg.ofEnds]
    rw [show (a - -a) ^ 2 + ((0 : ℝ) - 0) ^ 2 = (2 * a) ^ 2 by ring, sqrt_sq (by linarith)]
  have ho : ∀ a : ℝ, 0 ≤ a → (Seg.ofEnds (0, -a) (0, a)).dist = 2 * a := fun a ha => by
    simp only [Seg.dist, Seg.ofEnds]
    rw [show ((0 : ℝ) - 0) ^ 2 + (a - -a) ^ 2 = (2 * a) ^ 2 by ring, sqrt_sq (by linarith)]
  have hc : |(Seg.ofEnds (-(1 / 10 ^ 6), 0) (1 / 10 ^ 6, 0)).cross (Seg.ofEnds (0, -(1 / 10 ^ 6)) (0, 1 / 10 ^ 6))| < eps := by
    simp only [Seg.cross, Seg.ofEnds, eps]
    rw [abs_of_nonneg] <;> norm_num
  refine ⟨.ofEnds (-(1 / 10 ^ 6), 0) (1 / 10 ^ 6, 0), .ofEnds (0, -(1 / 10 ^ 6)) (0, 1 / 10 ^ 6), ?_, ?_, ?_, ?_, ?_, ?_⟩
  · exact (mem_points _ _).mpr ⟨1 / 2, by norm_num, by norm_num, by simp [Seg.ofEnds, scale]; norm_num⟩
  · exact (mem_points _ _).mpr ⟨1 / 2, by norm_num, by norm_num, by simp [Seg.ofEnds, scale]; norm_num⟩
  · rw [hs _ (by positivity)]; unfold eps; norm_num
  · rw [ho _ (by positivity)]; unfold eps; norm_num
  · exact (intersect_partial _ _).2.2 hc
  · unfold Seg.intersectOrCoincide
    rw [show cp _ _ = Seg.cross _ _ from rfl, if_pos hc, decide_eq_false_iff_not]
    have far1 : ∀ y : ℝ, y ^ 2 = (1 / 10 ^ 6) ^ 2 →
        ¬ (Seg.ofEnds (-(1 / 10 ^ 6), 0) (1 / 10 ^ 6, 0)).distSqrToPoint (0, y) < eps ^ 2 := fun y hy => by
      obtain ⟨⟨x, hx, e⟩, _⟩ := distSqrToPoint_spec (Seg.ofEnds (-(1 / 10 ^ 6), 0) (1 / 10 ^ 6, 0)) (0, y)
      obtain ⟨t, _, _, rfl⟩ := (mem_points _ x).mp hx
      rw [e]
      simp only [sqd, Seg.ofEnds, scale, Prod.fst_add, Prod.snd_add, Prod.fst_sub, Prod.snd_sub]
      rw [show (0 + t * (0 - 0) - y) ^ 2 = y ^ 2 by ring, hy, not_lt]
      refine le_trans ?_ (le_add_of_nonneg_left (sq_nonneg _))
      unfold eps; norm_num
    have far2 : ∀ y : ℝ, y ^ 2 = (1 / 10 ^ 6) ^ 2 →
        ¬ (Seg.ofEnds (0, -(1 / 10 ^ 6)) (0, 1 / 10 ^ 6)).distSqrToPoint (y, 0) < eps ^ 2 := fun y hy => by
      obtain ⟨⟨x, hx, e⟩, _⟩ := distSqrToPoint_spec (Seg.ofEnds (0, -(1 / 10 ^ 6)) (0, 1 / 10 ^ 6)) (y, 0)
      obtain ⟨t, _, _, rfl⟩ := (mem_points _ x).mp hx
      rw [e]
      simp only [sqd, Seg.ofEnds, scale, Prod.fst_add, Prod.snd_add, Prod.fst_sub, Prod.snd_sub]
      rw [show (0 + t * (0 - 0) - y) ^ 2 = y ^ 2 by ring, hy, not_lt]
      refine le_trans ?_ (le_add_of_nonneg_right (sq_nonneg _))
      unfold eps; norm_num
    rintro (h | h | h | h)
    · exact far1 _ (by norm_num) h
    · exact far1 _ (by norm_num) h
    · exact far2 _ (by norm_num) h
    · exact far2 _ (by norm_num) h

/-! ## The quick test -/

theorem between {a b t : ℝ} (h0 : 0 ≤ t) (h1 : t ≤ 1) : min a b ≤ a + t * (b - a) ∧ a + t * (b - a) ≤ max a b := by
  rcases le_total a b with h | h
  · rw [min_eq_left h, max_eq_right h]; constructor <;> nlinarith
  · rw [min_eq_right h, max_eq_left h]; constructor <;> nlinarith

/-- **The quick test has no false negatives** (C103): segments with a common point pass it; and segments that pass it have bounding boxes that
are not farther apart than the tolerance. -/
theorem mightIntersect_spec (s o : Seg) :
    ((s.points ∩ o.points).Nonempty → s.mightIntersect o = true) ∧
    (s.mightIntersect o = true ↔
      min o.start.1 o.stop.1 - max s.start.1 s.stop.1 ≤ eps ∧ min s.start.1 s.stop.1 - max o.start.1 o.stop.1 ≤ eps ∧
      min o.start.2 o.stop.2 - max s.start.2 s.stop.2 ≤ eps ∧ min s.start.2 s.stop.2 - max o.start.2 o.stop.2 ≤ eps) := by
  have he := eps_pos
  have key : s.mightIntersect o = true ↔
      min o.start.1 o.stop.1 - max s.start.1 s.stop.1 ≤ eps ∧ min s.start.1 s.stop.1 - max o.start.1 o.stop.1 ≤ eps ∧
      min o.start.2 o.stop.2 - max s.start.2 s.stop.2 ≤ eps ∧ min s.start.2 s.stop.2 - max o.start.2 o.stop.2 ≤ eps := by
    unfold Seg.mightIntersect
    rw [decide_eq_true_iff]
    constructor
    · rintro ⟨a, b, c, d⟩; exact ⟨by linarith, by linarith, by linarith, by linarith⟩
    · rintro ⟨a, b, c, d⟩; exact ⟨by linarith, by linarith, by linarith, by linarith⟩
  refine ⟨fun ⟨x, h1, h2⟩ => ?_, key⟩
  rw [key]
  obtain ⟨t, t0, t1, e1⟩ := (mem_points s x).mp h1
  obtain ⟨u, u0, u1, e2⟩ := (mem_points o x).mp h2
  have a1 := congrArg Prod.fst (e1.symm.trans e2)
  have a2 := congrArg Prod.snd (e1.symm.trans e2)
  simp only [scale, Prod.fst_add, Prod.snd_add, Prod.fst_sub, Prod.snd_sub] at a1 a2
  obtain ⟨b1, b2⟩ := between (a := s.start.1) (b := s.stop.1) t0 t1
  obtain ⟨b3, b4⟩ := between (a := s.start.2) (b := s.stop.2) t0 t1
  obtain ⟨b5, b6⟩ := between (a := o.start.1) (b := o.stop.1) u0 u1
  obtain ⟨b7, b8⟩ := between (a := o.start.2) (b := o.stop.2) u0 u1
  exact ⟨by linarith, by linarith, by linarith, by linarith⟩

/-- **The quick test rejects segments for which an intersection is found**, both being within the tolerance of it. -/
theorem mightIntersect_violated : ∃ s o : Seg, (s.intersect o).isSome ∧ s.mightIntersect o = false := by
  set e := eps with he
  have hp := eps_pos
  have hv : e = 1 / 10 ^ 10 := rfl
  refine ⟨.ofEnds (-1, 0) (0, 0), .ofEnds (8 / 5 * e, 2 / 5 * e) (8 / 5 * e + 17, 2 / 5 * e + 8), ?_, ?_⟩
  · have hc : (Seg.ofEnds (-1, 0) (0, 0)).cross (Seg.ofEnds (8 / 5 * e, 2 / 5 * e) (8 / 5 * e + 17, 2 / 5 * e + 8)) = 8 := by
      simp only [Seg.cross, Seg.ofEnds]; ring
    unfold Seg.intersect
    rw [show cp _ _ = Seg.cross _ _ from rfl, hc, if_neg (by rw [← he, hv]; norm_num)]
    rw [crossing_eq, hc, if_neg]
    · rfl
    have ht : cp (8 / 5 * e + 17 - 8 / 5 * e, 2 / 5 * e + 8 - 2 / 5 * e) (-1 - 8 / 5 * e, 0 - 2 / 5 * e) / 8 = 1 + 3 / 4 * e := by
      simp only [cp]; ring
    have hu : cp (0 - -1, 0 - 0) (-1 - 8 / 5 * e, 0 - 2 / 5 * e) / 8 = -(1 / 20 * e) := by
      simp only [cp]; ring
    simp only [Seg.ofEnds, Prod.mk_sub_mk, ht, hu]
    unfold off distSqr scale
    simp only [Prod.fst_add, Prod.snd_add, ← he]
    rintro ((⟨g, _⟩ | ⟨_, g⟩) | (⟨_, g⟩ | ⟨g, _⟩)) <;> nlinarith
  · rw [← Bool.not_eq_true, (mightIntersect_spec _ _).2]
    rintro ⟨h, _⟩
    simp only [Seg.ofEnds] at h
    rw [min_eq_left (by linarith), max_eq_right (by norm_num)] at h
    linarith

/-! ## Sides and samples -/

/-- **The side of a point** (C103): left or right of the line by the sign of the cross product unless that is below the tolerance, and the
signed distance to the line, positive to the right. -/
theorem sideOfPoint_spec {s : Seg} (h : Built s) (p : Pt ℝ) (hne : s.dist ≠ 0) :
    let d := (s.stop.1 - s.start.1) * (p.2 - s.start.2) - (s.stop.2 - s.start.2) * (p.1 - s.start.1)
    ((s.sideOfPoint p).1 = .left ↔ eps ≤ d) ∧ ((s.sideOfPoint p).1 = .right ↔ d ≤ -eps) ∧
    ((s.sideOfPoint p).1 = .colinear ↔ |d| < eps) ∧
    (s.sideOfPoint p).2 = (p.1 - s.start.1) * sin s.getHeading.1 - (p.2 - s.start.2) * cos s.getHeading.1 ∧
    (s.sideOfPoint p).2 ^ 2 = sInf {x | ∃ t : ℝ, x = sqd p (s.start + scale t (s.stop - s.start))} := by
  intro d
  have he := eps_pos
  have hd : cp (s.stop - s.start) (p - s.start) = d := rfl
  have g1 := (query_spec_partial h).1
  have g3 := (query_spec_partial h).2.2.1
  have hdist : (s.sideOfPoint p).2 = -d / s.dist := by
    unfold Seg.sideOfPoint; rw [g1]; rfl
  refine ⟨?_, ?_, ?_, ?_, ?_⟩
  · unfold Seg.sideOfPoint
    simp only [hd]
    split_ifs with h1 h2
    · simp only [true_iff]; rw [abs_of_pos h2] at h1; exact h1
    · push Not at h2; simp only [reduceCtorEq, false_iff]; intro g; linarith
    · simp only [reduceCtorEq, false_iff]; intro g; exact h1 (le_trans g (le_abs_self d))
  · unfold Seg.sideOfPoint
    simp only [hd]
    split_ifs with h1 h2
    · simp only [reduceCtorEq, false_iff]; intro g; linarith
    · push Not at h2; simp only [true_iff]; rw [abs_of_nonpos h2] at h1; linarith
    · simp only [reduceCtorEq, false_iff]; intro g; exact h1 (le_trans (by linarith) (neg_le_abs d))
  · unfold Seg.sideOfPoint
    simp only [hd]
    split_ifs with h1 h2
    · simp only [reduceCtorEq, false_iff]; exact not_lt.mpr h1
    · simp only [reduceCtorEq, false_iff]; exact not_lt.mpr h1
    · simp only [true_iff]; exact not_le.mp h1
  · rw [hdist, div_eq_iff hne]
    show -((s.stop.1 - s.start.1) * (p.2 - s.start.2) - (s.stop.2 - s.start.2) * (p.1 - s.start.1)) = _
    rw [g3.1, g3.2]
    ring
  · have hD : s.dist ^ 2 ≠ 0 := pow_ne_zero 2 hne
    have hD' : 0 < s.dist ^ 2 := lt_of_le_of_ne (sq_nonneg _) hD.symm
    have hq : ∀ t : ℝ, sqd p (s.start + scale t (s.stop - s.start)) = d ^ 2 / s.dist ^ 2 +
        s.dist ^ 2 * (t - ((s.stop.1 - s.start.1) * (p.1 - s.start.1) + (s.stop.2 - s.start.2) * (p.2 - s.start.2)) / s.dist ^ 2) ^ 2 := fun t => by
      have e := s.dist_sq
      rw [show (d ^ 2 / s.dist ^ 2 + s.dist ^ 2 * (t - ((s.stop.1 - s.start.1) * (p.1 - s.start.1) + (s.stop.2 - s.start.2) * (p.2 - s.start.2)) / s.dist ^ 2) ^ 2)
        = (d ^ 2 + (t * s.dist ^ 2 - ((s.stop.1 - s.start.1) * (p.1 - s.start.1) + (s.stop.2 - s.start.2) * (p.2 - s.start.2))) ^ 2) / s.dist ^ 2 by
          field_simp, eq_div_iff hD, e]
      simp only [d, sqd, scale, Prod.fst_add, Prod.snd_add, Prod.fst_sub, Prod.snd_sub]
      ring
    rw [hdist, div_pow, neg_sq]
    refine le_antisymm (le_csInf ⟨_, 0, rfl⟩ ?_) (csInf_le ⟨0, ?_⟩ ⟨((s.stop.1 - s.start.1) * (p.1 - s.start.1) + (s.stop.2 - s.start.2) * (p.2 - s.start.2)) / s.dist ^ 2, ?_⟩)
    · rintro x ⟨t, rfl⟩
      rw [hq]
      exact le_add_of_nonneg_right (by positivity)
    · rintro x ⟨t, rfl⟩
      unfold sqd; positivity
    · rw [hq]; ring

/-- **A sample at a distance** (C103): the point at that distance from the start in the direction of the segment, and whether it is before the end. -/
theorem sample_spec {s : Seg} (h : Built s) (d : ℝ) :
    (s.sample d = none ↔ d < 0) ∧
    (0 ≤ d → s.dist ≠ 0 → s.sample d =
      some ((s.start.1 + d * cos s.getHeading.1, s.start.2 + d * sin s.getHeading.1), decide (d < s.dist))) ∧
    (0 ≤ d → s.dist = 0 → s.sample d = some (s.start, false)) := by
  have g1 := (query_spec_partial h).1
  have g3 := (query_spec_partial h).2.2.1
  have h0 := s.dist_nonneg
  unfold Seg.sample
  rw [g1]
  refine ⟨?_, fun hd hne => ?_, fun hd hz => ?_⟩
  · by_cases hd : 0 ≤ d
    · rw [if_neg (not_not.mpr hd), if_neg (not_not.mpr h0)]
      split_ifs <;> simp [hd]
    · rw [if_pos hd]; simp only [true_iff]; exact not_le.mp hd
  · rw [if_neg (not_not.mpr hd), if_neg (not_not.mpr h0), if_neg hne]
    have e1 : s.start.1 + d / s.dist * (s.stop.1 - s.start.1) = s.start.1 + d * cos s.getHeading.1 := by
      rw [g3.1]; field_simp; ring
    have e2 : s.start.2 + d / s.dist * (s.stop.2 - s.start.2) = s.start.2 + d * sin s.getHeading.1 := by
      rw [g3.2]; field_simp; ring
    simp only [Option.some.injEq, Prod.mk.injEq]
    refine ⟨Prod.ext e1 e2, ?_⟩
    rw [decide_eq_decide, div_lt_one (lt_of_le_of_ne h0 (Ne.symm hne))]
  · rw [if_neg (not_not.mpr hd), if_neg (not_not.mpr h0), if_pos hz]

theorem sampleLoop_eq (start dp : Pt ℝ) {f : ℝ} (hf : 0 < f) : ∀ (n : ℕ) (r : ℝ), 1 ≤ r + n * f →
    ∃ m : ℕ, sampleLoop start dp f n r = (List.range m).map (fun k : ℕ => start + scale (r + (k : ℝ) * f) dp) ∧
      ∀ k : ℕ, k < m ↔ r + k * f < 1
  | 0, r, h => ⟨0, rfl, fun k => ⟨fun g => absurd g (Nat.not_lt_zero k), fun g => absurd g (by
      have : (0 : ℝ) ≤ k * f := by positivity
      simp only [Nat.cast_zero, zero_mul, add_zero] at h
      linarith)⟩⟩
  | n + 1, r, h => by
    unfold sampleLoop
    by_cases hr : r < 1
    · rw [if_pos hr]
      obtain ⟨m, h1, h2⟩ := sampleLoop_eq start dp hf n (r + f) (by push_cast at h; linarith)
      refine ⟨m + 1, ?_, fun k => ?_⟩
      · rw [h1, List.range_succ_eq_map, List.map_cons, List.map_map]
        simp only [Nat.cast_zero, zero_mul, add_zero]
        congr 1
        refine List.map_congr_left (fun k _ => ?_)
        simp only [Function.comp, Nat.succ_eq_add_one]
        push_cast
        rw [show r + f + (k : ℝ) * f = r + ((k : ℝ) + 1) * f by ring]
      · cases k with
        | zero => simpa using hr
        | succ k =>
          rw [Nat.add_lt_add_iff_right, h2]
          push_cast
          rw [show r + f + (k : ℝ) * f = r + ((k : ℝ) + 1) * f by ring]
    · rw [if_neg hr]
      refine ⟨0, rfl, fun k => ⟨fun g => absurd g (Nat.not_lt_zero k), fun g => absurd g ?_⟩⟩
      have : (0 : ℝ) ≤ k * f := by positivity
      push Not at hr
      linarith

/-- **Samples of a segment** (C103): the points at the multiples of the distance from the start, all those before the end, in order; the start
of a segment that is a point. -/
theorem samplePoints_spec (start stop : Pt ℝ) (d : ℝ) :
    (samplePoints start stop d = none ↔ d ≤ 0) ∧
    (0 < d → start ≠ stop → ∃ m : ℕ, (∀ k : ℕ, k < m ↔ k * d < √((stop.1 - start.1) ^ 2 + (stop.2 - start.2) ^ 2)) ∧
      samplePoints start stop d = some ((List.range m).map (fun k : ℕ =>
        start + scale ((k : ℝ) * d / √((stop.1 - start.1) ^ 2 + (stop.2 - start.2) ^ 2)) (stop - start)))) ∧
    (0 < d → start = stop → samplePoints start stop d = some [start]) := by
  have hl : len (stop - start) = √((stop.1 - start.1) ^ 2 + (stop.2 - start.2) ^ 2) := rfl
  unfold samplePoints
  rw [hl]
  set L := √((stop.1 - start.1) ^ 2 + (stop.2 - start.2) ^ 2) with hL
  refine ⟨?_, fun hd hne => ?_, fun hd he => ?_⟩
  · by_cases hd : 0 < d
    · rw [if_neg (not_not.mpr hd)]
      split_ifs <;> simp [hd]
    · rw [if_pos hd]; simp only [true_iff]; exact not_lt.mp hd
  · have h0 : 0 < L := by
      rw [hL, sqrt_pos]
      have := sqd_pos hne
      unfold sqd at this
      nlinarith
    have hf : 0 < d / L := by positivity
    rw [if_neg (not_not.mpr hd), if_neg h0.ne']
    obtain ⟨m, h1, h2⟩ := sampleLoop_eq start (stop - start) hf (⌈1 / (d / L)⌉₊ + 1) 0 (by
      have := Nat.le_ceil (1 / (d / L))
      rw [div_le_iff₀ hf] at this
      push_cast
      nlinarith)
    refine ⟨m, fun k => ?_, ?_⟩
    · rw [h2, zero_add, ← mul_div_assoc, div_lt_one h0]
    · simp only [h1, zero_add, mul_div_assoc]
  · rw [if_neg (not_not.mpr hd), if_pos]
    rw [hL, he]; simp

end Verif.Segment
