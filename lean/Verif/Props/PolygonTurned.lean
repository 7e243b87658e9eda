import Verif.Lemmas.PolyTurned3
import Verif.Props.MotionOverlap

/-!
C222: boxes whose headings differ by one, two or three right angles, in any position.  The outline of such a box is that
of a box with the first one's heading, read from another corner, so that the 169 orders of the sides (Props/PolygonAligned.lean)
decide these cases as well.  Turned by one right angle every position is exact.  Turned by two or three, exactly one kind
of position is missed, and its area is found to be zero.
-/

namespace Verif.Polygon

open Real MeasureTheory Set

theorem all_turned : ∀ q ∈ List.range 4, ∀ x ∈ orders, ∀ y ∈ orders, CorrectTurned q x y := by
  intro q hq x hx
  have hq : q < 4 := List.mem_range.mp hq
  obtain ⟨i, hi, rfl⟩ := List.mem_iff_getElem.mp hx
  have hi' : i < 13 := hi
  interval_cases q <;> interval_cases i
  · exact turned0_0
  · exact turned0_1
  · exact turned0_2
  · exact turned0_3
  · exact turned0_4
  · exact turned0_5
  · exact turned0_6
  · exact turned0_7
  · exact turned0_8
  · exact turned0_9
  · exact turned0_10
  · exact turned0_11
  · exact turned0_12
  · exact turned1_0
  · exact turned1_1
  · exact turned1_2
  · exact turned1_3
  · exact turned1_4
  · exact turned1_5
  · exact turned1_6
  · exact turned1_7
  · exact turned1_8
  · exact turned1_9
  · exact turned1_10
  · exact turned1_11
  · exact turned1_12
  · exact turned2_0
  · exact turned2_1
  · exact turned2_2
  · exact turned2_3
  · exact turned2_4
  · exact turned2_5
  · exact turned2_6
  · exact turned2_7
  · exact turned2_8
  · exact turned2_9
  · exact turned2_10
  · exact turned2_11
  · exact turned2_12
  · exact turned3_0
  · exact turned3_1
  · exact turned3_2
  · exact turned3_3
  · exact turned3_4
  · exact turned3_5
  · exact turned3_6
  · exact turned3_7
  · exact turned3_8
  · exact turned3_9
  · exact turned3_10
  · exact turned3_11
  · exact turned3_12

theorem turnedPoly_ortho {q : ℕ} (hq : q < 4) {i j k l : ℝ} (h1 : i < j) (h2 : k < l) : Ortho (turnedPoly q i j k l) := by
  refine ⟨by simp [turnedPoly, sides], by simp [turnedPoly], fun m hm => ?_⟩
  change m < 4 at hm
  interval_cases q <;> interval_cases m
  all_goals first
    | exact Or.inl ⟨rfl, h2.ne'⟩
    | exact Or.inr ⟨rfl, h1.ne⟩
    | exact Or.inl ⟨rfl, h2.ne⟩
    | exact Or.inr ⟨rfl, h1.ne'⟩

theorem turnedPoly_inside {q : ℕ} (hq : q < 4) {i j k l : ℝ} (h1 : i < j) (h2 : k < l) (p : Pt ℝ) :
    pointInside (turnedPoly q i j k l) p = true ↔ (i ≤ p.1 ∧ p.1 ≤ j) ∧ k ≤ p.2 ∧ p.2 ≤ l := by
  by_cases hb : p.1 < i ∨ p.2 < k ∨ p.1 > j ∨ p.2 > l
  · have : pointInside (turnedPoly q i j k l) p = false := by
      unfold pointInside
      rw [if_neg (by simp [turnedPoly]), if_pos (by exact hb)]
    rw [this]
    simp only [Bool.false_eq_true, false_iff]
    rintro ⟨⟨a, b⟩, c, d⟩
    rcases hb with g | g | g | g <;> linarith
  · have hn : (i ≤ p.1 ∧ p.1 ≤ j) ∧ k ≤ p.2 ∧ p.2 ≤ l := by
      push Not at hb
      exact ⟨⟨hb.1, hb.2.2.1⟩, hb.2.1, hb.2.2.2⟩
    refine iff_of_true ?_ hn
    obtain ⟨⟨a, b⟩, c, d⟩ := hn
    have e0 : 0 ≤ (l - k) * (p.1 - i) := mul_nonneg (by linarith) (by linarith)
    have e1 : 0 ≤ (j - i) * (p.2 - k) := mul_nonneg (by linarith) (by linarith)
    have e2 : 0 ≤ (l - k) * (j - p.1) := mul_nonneg (by linarith) (by linarith)
    have e3 : 0 ≤ (j - i) * (l - p.2) := mul_nonneg (by linarith) (by linarith)
    unfold pointInside
    rw [if_neg (by simp [turnedPoly]), if_neg (by exact hb)]
    have hbi : bisect (turnedPoly q i j k l) p (turnedPoly q i j k l).n 0 (turnedPoly q i j k l).n = (0, 4) := rfl
    simp only [hbi]
    have he : edgesLeft (turnedPoly q i j k l) p (4 - 1 - 0) 0 = true := by
      interval_cases q <;>
      · simp only [edgesLeft, turnedPoly, sides, List.rotate, List.length_cons, List.length_nil, Nat.reduceMod, Nat.reduceAdd,
          List.splitAt, List.splitAt.go, List.cons_append, List.nil_append, Poly.pt, cp, Nat.reduceSub, List.getD_cons_zero, List.getD_cons_succ,
          Prod.fst_sub, Prod.snd_sub]
        simp
        refine ⟨by linarith, by linarith, by linarith⟩
    rw [he, if_neg (by simp), if_neg]
    rintro ⟨-, g⟩
    interval_cases q <;>
    · simp [Poly.segment, Poly.next, turnedPoly, sides, Poly.pt, cp, List.rotate] at g
      linarith

/-- A turned rectangle. -/
theorem core_turned {q : ℕ} (hq : q < 4) {g : Grid} {i j k l i' j' k' l' : ℝ} (h1 : i < j) (h2 : k < l) (h3 : i' < j') (h4 : k' < l')
    {P' Q' : Poly ℝ} (gP : g.On (rectPoly i j k l) P') (gQ : g.On (turnedPoly q i' j' k' l') Q')
    (iP : ∀ p, pointInside P' (g.at p) = true ↔ (i ≤ p.1 ∧ p.1 ≤ j) ∧ k ≤ p.2 ∧ p.2 ≤ l)
    (iQ : ∀ p, pointInside Q' (g.at p) = true ↔ (i' ≤ p.1 ∧ p.1 ≤ j') ∧ k' ≤ p.2 ∧ p.2 ≤ l') :
    core P' Q' = (core (rectPoly i j k l) (turnedPoly q i' j' k' l')).map g.at := by
  have hr := grid_run1 (rectPoly_ortho h1 h2) (turnedPoly_ortho hq h3 h4) gP gQ (P'.n + Q'.n) ((P'.n + Q'.n) * 2)
    ⟨0, 0, false, false, []⟩ (by simp [rectPoly]) (by simp [turnedPoly])
  have h0 : g.st ⟨0, 0, false, false, []⟩ = ⟨0, 0, false, false, []⟩ := rfl
  rw [h0] at hr
  unfold core
  rw [hr, gP.n, gQ.n]
  have aP : P'.pts.all (pointInside Q') = (rectPoly i j k l).pts.all (pointInside (turnedPoly q i' j' k' l')) := by
    rw [gP.pts, List.all_map]
    congr 1
    funext p
    exact Bool.eq_iff_iff.mpr ((iQ p).trans (turnedPoly_inside hq h3 h4 p).symm)
  have aQ : Q'.pts.all (pointInside P') = (turnedPoly q i' j' k' l').pts.all (pointInside (rectPoly i j k l)) := by
    rw [gQ.pts, List.all_map]
    congr 1
    funext p
    exact Bool.eq_iff_iff.mpr ((iP p).trans (rectPoly_inside h1 h2 p).symm)
  rw [aP, aQ, gP.pts, gQ.pts]
  rcases run1 (rectPoly i j k l) (turnedPoly q i' j' k' l') _ _ _ with _ | _ | l
  · simp only [Option.map_none]
    split_ifs <;> rfl
  · rfl
  · rfl

theorem turnedPoly_toR (q : ℕ) (i j k l : ℚ) : (turnedPoly q i j k l).toR = turnedPoly q (i : ℝ) (j : ℝ) (k : ℝ) (l : ℝ) := by
  simp only [turnedPoly, Poly.toR, List.map_rotate]
  rfl

end Verif.Polygon

namespace Verif.Iou

open Real MeasureTheory Set Verif.Polygon

/-- The box `b2` heads as `b1` turned to the left by `q` right angles. -/
def Quarter (q : ℕ) (b1 b2 : Box) : Prop :=
  cos b2.heading = cos (b1.heading + q * (π / 2)) ∧ sin b2.heading = sin (b1.heading + q * (π / 2))

/-- The same set of points, seen as a box with another heading: length and width are exchanged when the turn is odd. -/
noncomputable def Box.faced (b : Box) (q : ℕ) (θ : ℝ) : Box :=
  { b with heading := θ, length := if q % 2 = 0 then b.length else b.width, width := if q % 2 = 0 then b.width else b.length }

theorem quarter_cases {q : ℕ} (hq : q < 4) {b1 b2 : Box} (h : Quarter q b1 b2) :
    (q = 0 ∧ cos b2.heading = cos b1.heading ∧ sin b2.heading = sin b1.heading) ∨
    (q = 1 ∧ cos b2.heading = -sin b1.heading ∧ sin b2.heading = cos b1.heading) ∨
    (q = 2 ∧ cos b2.heading = -cos b1.heading ∧ sin b2.heading = -sin b1.heading) ∨
    (q = 3 ∧ cos b2.heading = sin b1.heading ∧ sin b2.heading = -cos b1.heading) := by
  obtain ⟨hc, hs⟩ := h
  interval_cases q
  · simp only [Nat.cast_zero, zero_mul, add_zero] at hc hs
    simp [hc, hs]
  · simp only [Nat.cast_one, one_mul, cos_add_pi_div_two, sin_add_pi_div_two] at hc hs
    simp [hc, hs]
  · have e : b1.heading + ((2 : ℕ) : ℝ) * (π / 2) = b1.heading + π := by push_cast; ring
    rw [e, cos_add_pi] at hc
    rw [e, sin_add_pi] at hs
    simp [hc, hs]
  · have e : b1.heading + ((3 : ℕ) : ℝ) * (π / 2) = b1.heading + π + π / 2 := by push_cast; ring
    rw [e, cos_add_pi_div_two, sin_add_pi, neg_neg] at hc
    rw [e, sin_add_pi_div_two, cos_add_pi] at hs
    simp [hc, hs]

/-- The points of a box do not change when it is seen with another heading. -/
theorem rect_faced {q : ℕ} (hq : q < 4) {b1 b2 : Box} (h : Quarter q b1 b2) : rect (b2.faced q b1.heading) = rect b2 := by
  ext p
  rcases quarter_cases hq h with ⟨rfl, hc, hs⟩ | ⟨rfl, hc, hs⟩ | ⟨rfl, hc, hs⟩ | ⟨rfl, hc, hs⟩ <;>
    simp only [rect, Box.faced, mem_ofPred_eq, hc, hs, Nat.reduceMod, one_ne_zero, if_true, if_false, abs_le]
  · constructor
    · rintro ⟨⟨a, b⟩, c, d⟩; exact ⟨⟨by linarith, by linarith⟩, by linarith, by linarith⟩
    · rintro ⟨⟨a, b⟩, c, d⟩; exact ⟨⟨by linarith, by linarith⟩, by linarith, by linarith⟩
  · constructor
    · rintro ⟨⟨a, b⟩, c, d⟩; exact ⟨⟨by linarith, by linarith⟩, by linarith, by linarith⟩
    · rintro ⟨⟨a, b⟩, c, d⟩; exact ⟨⟨by linarith, by linarith⟩, by linarith, by linarith⟩
  · constructor
    · rintro ⟨⟨a, b⟩, c, d⟩; exact ⟨⟨by linarith, by linarith⟩, by linarith, by linarith⟩
    · rintro ⟨⟨a, b⟩, c, d⟩; exact ⟨⟨by linarith, by linarith⟩, by linarith, by linarith⟩

/-- The corners of a turned box are those of the box with the other heading, from another corner. -/
theorem corners_faced {q : ℕ} (hq : q < 4) {b1 b2 : Box} (h : Quarter q b1 b2) (hl : 0 < b2.length) (hw : 0 < b2.width) :
    boxCorners (b2.cx, b2.cy) (cos b2.heading, sin b2.heading) b2.length b2.width =
      (boxCorners (b2.cx, b2.cy) (cos b1.heading, sin b1.heading) (b2.faced q b1.heading).length (b2.faced q b1.heading).width).rotate q := by
  have r0 : ∀ a b c d : Pt ℝ, [a, b, c, d].rotate 0 = [a, b, c, d] := fun _ _ _ _ => rfl
  have r1 : ∀ a b c d : Pt ℝ, [a, b, c, d].rotate 1 = [b, c, d, a] := fun _ _ _ _ => rfl
  have r2 : ∀ a b c d : Pt ℝ, [a, b, c, d].rotate 2 = [c, d, a, b] := fun _ _ _ _ => rfl
  have r3 : ∀ a b c d : Pt ℝ, [a, b, c, d].rotate 3 = [d, a, b, c] := fun _ _ _ _ => rfl
  rw [boxCorners_eq hl, boxCorners_eq (by unfold Box.faced; simp only; split_ifs <;> assumption)]
  rcases quarter_cases hq h with ⟨rfl, hc, hs⟩ | ⟨rfl, hc, hs⟩ | ⟨rfl, hc, hs⟩ | ⟨rfl, hc, hs⟩
  · simp only [Box.faced, hc, hs, Nat.reduceMod, if_true, r0]
  all_goals
    simp only [Box.faced, hc, hs, Nat.reduceMod, one_ne_zero, if_true, if_false, r1, r2, r3, List.cons.injEq, and_true, Prod.mk.injEq]
    refine ⟨⟨?_, ?_⟩, ⟨?_, ?_⟩, ⟨?_, ?_⟩, ?_, ?_⟩ <;> ring

/-- The one kind of position that is missed: the boxes have their left sides, as seen along the heading of the first one,
on one line, the second box begins before the first one and does not end before it, and it was turned by two or three
right angles. -/
def Missed (q : ℕ) (b1 b2 : Box) : Prop :=
  missed q b1.back b1.front b1.left (b2.faced q b1.heading).back (b2.faced q b1.heading).front (b2.faced q b1.heading).left

open Classical in
/-- **The intersection area of boxes whose headings differ by right angles** (C222). -/
theorem polygonArea_turned {q : ℕ} (hq : q < 4) {b1 b2 : Box} (l1 : 0 < b1.length) (w1 : 0 < b1.width) (l2 : 0 < b2.length)
    (w2 : 0 < b2.width) (h : Quarter q b1 b2) :
    polygonArea b1 b2 = if Missed q b1 b2 then 0 else cutOff (volume.real (rect b1 ∩ rect b2)) := by
  have hu := cos_sq_add_sin_sq b1.heading
  obtain ⟨P, p1, p2, p3, p4, -⟩ := polygon_spec b1 l1 w1
  obtain ⟨Q, q1, q2, q3, q4, -⟩ := polygon_spec b2 l2 w2
  obtain ⟨P2, p1', -, -, p6, p5⟩ := ofBox_ring (θ := b1.heading) l1 w1 (b1.cx, b1.cy)
  obtain ⟨Q2, q1', -, -, q6, q5⟩ := ofBox_ring (θ := b2.heading) l2 w2 (b2.cx, b2.cy)
  have hPP : P2 = P := Option.some.inj (p1'.symm.trans p1)
  have hQQ : Q2 = Q := Option.some.inj (q1'.symm.trans q1)
  subst hPP; subst hQQ
  rw [corners_faced hq h l2 w2] at q5
  rw [← rect_faced hq h] at q4
  have lf : 0 < (b2.faced q b1.heading).length := by unfold Box.faced; simp only; split_ifs <;> assumption
  have wf : 0 < (b2.faced q b1.heading).width := by unfold Box.faced; simp only; split_ifs <;> assumption
  have hc : cos (b2.faced q b1.heading).heading = cos b1.heading := rfl
  have hs : sin (b2.faced q b1.heading).heading = sin b1.heading := rfl
  have hcen : boxCorners (b2.cx, b2.cy) (cos b1.heading, sin b1.heading) (b2.faced q b1.heading).length (b2.faced q b1.heading).width =
      (sides (b2.faced q b1.heading).back (b2.faced q b1.heading).front (b2.faced q b1.heading).right (b2.faced q b1.heading).left).map
        (turn (cos b1.heading) (sin b1.heading)) := polygon_sides (b := b2.faced q b1.heading) hc hs lf
  rw [hcen] at q5
  rw [← rect_faced hq h]
  unfold Missed
  generalize b2.faced q b1.heading = B at *
  have s1 : b1.back < b1.front := by unfold Box.back Box.front; linarith
  have s2 : b1.right < b1.left := by unfold Box.right Box.left; linarith
  have s3 : B.back < B.front := by unfold Box.back Box.front; linarith
  have s4 : B.right < B.left := by unfold Box.right Box.left; linarith
  obtain ⟨x, hx, f, hf, f1, f2, f3, f4⟩ := exists_order s1 s3
  obtain ⟨y, hy, k, hk, k1, k2, k3, k4⟩ := exists_order s2 s4
  have hcor := all_turned q (List.mem_range.mpr hq) x hx y hy
  set g : Grid := ⟨f, k, cos b1.heading, sin b1.heading, hf, hk, hu⟩ with hg
  have gat : ∀ p, g.at p = turn (cos b1.heading) (sin b1.heading) (f p.1, k p.2) := fun _ => rfl
  have gP : g.On (rectPoly (x.1 : ℝ) (x.2.1 : ℝ) (y.1 : ℝ) (y.2.1 : ℝ)) P2 := by
    refine ⟨p6, ?_⟩
    rw [p5, polygon_sides rfl rfl l1]
    simp only [rectPoly, sides, List.map_cons, List.map_nil, gat, f1, f2, k1, k2]
  have gQ : g.On (turnedPoly q (x.2.2.1 : ℝ) (x.2.2.2 : ℝ) (y.2.2.1 : ℝ) (y.2.2.2 : ℝ)) Q2 := by
    refine ⟨q6, ?_⟩
    rw [q5]
    simp only [turnedPoly, List.map_rotate]
    simp only [sides, List.map_cons, List.map_nil, gat, f3, f4, k3, k4]
  have iP : ∀ p, pointInside P2 (g.at p) = true ↔
      ((x.1 : ℝ) ≤ p.1 ∧ p.1 ≤ (x.2.1 : ℝ)) ∧ (y.1 : ℝ) ≤ p.2 ∧ p.2 ≤ (y.2.1 : ℝ) := fun p => by
    rw [pointInside_iff p2 p3, region_eq_hull p2 p3]
    change g.at p ∈ P2.hull ↔ _
    rw [p4, gat, mem_rect_turn hu rfl rfl, ← f1, ← f2, ← k1, ← k2]
    simp only [hf.le_iff_le, hk.le_iff_le]
  have iQ : ∀ p, pointInside Q2 (g.at p) = true ↔
      ((x.2.2.1 : ℝ) ≤ p.1 ∧ p.1 ≤ (x.2.2.2 : ℝ)) ∧ (y.2.2.1 : ℝ) ≤ p.2 ∧ p.2 ≤ (y.2.2.2 : ℝ) := fun p => by
    rw [pointInside_iff q2 q3, region_eq_hull q2 q3]
    change g.at p ∈ Q2.hull ↔ _
    rw [q4, gat, mem_rect_turn hu hc hs, ← f3, ← f4, ← k3, ← k4]
    simp only [hf.le_iff_le, hk.le_iff_le]
  have o1 : (x.1 : ℝ) < (x.2.1 : ℝ) := hf.lt_iff_lt.mp (by rw [f1, f2]; exact s1)
  have o2 : (y.1 : ℝ) < (y.2.1 : ℝ) := hk.lt_iff_lt.mp (by rw [k1, k2]; exact s2)
  have o3 : (x.2.2.1 : ℝ) < (x.2.2.2 : ℝ) := hf.lt_iff_lt.mp (by rw [f3, f4]; exact s3)
  have o4 : (y.2.2.1 : ℝ) < (y.2.2.2 : ℝ) := hk.lt_iff_lt.mp (by rw [k3, k4]; exact s4)
  have hcore := core_turned hq o1 o2 o3 o4 gP gQ iP iQ
  rw [← rectPoly_toR, ← turnedPoly_toR, core_toR] at hcore
  have hvol := inter_volume hc hs
  have hmiss : missed q x.1 x.2.1 y.2.1 x.2.2.1 x.2.2.2 y.2.2.2 ↔ missed q b1.back b1.front b1.left B.back B.front B.left := by
    unfold missed
    rw [← f1, ← f2, ← f3, ← f4, ← k2, ← k4, hf.lt_iff_lt, hf.le_iff_le, hk.injective.eq_iff, Rat.cast_lt, Rat.cast_le, Rat.cast_inj]
  -- the order of the common sides
  have x1 : f ((max x.1 x.2.2.1 : ℚ) : ℝ) = max b1.back B.back := by
    rw [Rat.cast_max, hf.monotone.map_max, f1, f3]
  have x2 : f ((min x.2.1 x.2.2.2 : ℚ) : ℝ) = min b1.front B.front := by
    rw [Rat.cast_min, hf.monotone.map_min, f2, f4]
  have y1 : k ((max y.1 y.2.2.1 : ℚ) : ℝ) = max b1.right B.right := by
    rw [Rat.cast_max, hk.monotone.map_max, k1, k3]
  have y2 : k ((min y.2.1 y.2.2.2 : ℚ) : ℝ) = min b1.left B.left := by
    rw [Rat.cast_min, hk.monotone.map_min, k2, k4]
  have lt1 : max x.1 x.2.2.1 < min x.2.1 x.2.2.2 ↔ max b1.back B.back < min b1.front B.front := by
    rw [← x1, ← x2, hf.lt_iff_lt, Rat.cast_lt]
  have lt2 : max y.1 y.2.2.1 < min y.2.1 y.2.2.2 ↔ max b1.right B.right < min b1.left B.left := by
    rw [← y1, ← y2, hk.lt_iff_lt, Rat.cast_lt]
  unfold polygonArea
  rw [p1, q1]
  simp only
  unfold intersectionArea
  simp only
  by_cases hm : maybeIntersect P2 Q2 = false
  · have hv : vertices P2 Q2 = [] := by rw [vertices_core, if_pos hm]
    rw [hv]
    have h0 := maybeIntersect_sound p2 q2 p3 q3 hm
    have h1 : rect b1 ∩ rect B = ∅ := by
      rw [← p4, ← q4]
      unfold common at h0
      rwa [region_eq_hull p2 p3, region_eq_hull q2 q3] at h0
    rw [h1]
    simp [cutOff]
  · have hv := (vertices_core P2 Q2).trans ((if_neg hm).trans hcore)
    rw [hv]
    unfold CorrectTurned at hcor
    simp only at hcor
    by_cases hmi : missed q b1.back b1.front b1.left B.back B.front B.left
    · rw [if_pos (hmiss.mpr hmi)] at hcor
      rw [if_pos (by simpa using hcor), if_pos hmi]
    rw [if_neg (fun c => hmi (hmiss.mp c))] at hcor
    rw [if_neg hmi]
    by_cases hpos : max x.1 x.2.2.1 < min x.2.1 x.2.2.2 ∧ max y.1 y.2.2.1 < min y.2.1 y.2.2.2
    · rw [if_pos hpos] at hcor
      obtain ⟨m, hm4, hE⟩ := hcor
      rw [hE]
      have a1 := lt1.mp hpos.1
      have a2 := lt2.mp hpos.2
      have hlist : List.map g.at (List.map toR ((sides (max x.1 x.2.2.1) (min x.2.1 x.2.2.2) (max y.1 y.2.2.1)
          (min y.2.1 y.2.2.2)).rotate m)) = ((sides (max b1.back B.back) (min b1.front B.front) (max b1.right B.right)
          (min b1.left B.left)).map (turn (cos b1.heading) (sin b1.heading))).rotate m := by
        rw [List.map_rotate, List.map_rotate]
        congr 1
        simp only [sides, List.map_cons, List.map_nil, gat, toR, x1, x2, y1, y2]
      rw [hlist, if_neg (by simp [sides])]
      unfold areaInternal cutOff
      rw [area_sides hu _ _ _ _ (List.mem_range.mp hm4), hvol,
        max_eq_right (a := (0 : ℝ)) (b := min b1.front B.front - max b1.back B.back) (by linarith),
        max_eq_right (a := (0 : ℝ)) (b := min b1.left B.left - max b1.right B.right) (by linarith)]
      have hp : 0 ≤ (min b1.front B.front - max b1.back B.back) * (min b1.left B.left - max b1.right B.right) :=
        mul_nonneg (by linarith) (by linarith)
      rw [abs_of_nonneg (by linarith)]
      unfold Polygon.kEpsilon
      split_ifs <;> ring
    · rw [if_neg hpos] at hcor
      rw [if_pos (by simpa using hcor), hvol]
      rcases not_and_or.mp hpos with h | h
      · have := fun e => h (lt1.mpr e)
        rw [max_eq_left (a := (0 : ℝ)) (b := min b1.front B.front - max b1.back B.back) (by linarith [not_lt.mp this]), zero_mul]
        simp [cutOff]
      · have := fun e => h (lt2.mpr e)
        rw [max_eq_left (a := (0 : ℝ)) (b := min b1.left B.left - max b1.right B.right) (by linarith [not_lt.mp this]), mul_zero]
        simp [cutOff]

/-- A position that is missed is one in which the boxes have a common area: the first one lies between the ends of the
second one. -/
theorem missed_common {q : ℕ} (hq : q < 4) {b1 b2 : Box} (l1 : 0 < b1.length) (w1 : 0 < b1.width) (l2 : 0 < b2.length)
    (w2 : 0 < b2.width) (h : Quarter q b1 b2) (hm : Missed q b1 b2) : 0 < volume.real (rect b1 ∩ rect b2) := by
  have lf : 0 < (b2.faced q b1.heading).length := by unfold Box.faced; simp only; split_ifs <;> assumption
  have wf : 0 < (b2.faced q b1.heading).width := by unfold Box.faced; simp only; split_ifs <;> assumption
  obtain ⟨-, h1, h2, h3⟩ := hm
  rw [← rect_faced hq h, inter_volume (b1 := b1) (b2 := b2.faced q b1.heading) rfl rfl]
  generalize b2.faced q b1.heading = B at *
  have s1 : b1.back < b1.front := by unfold Box.back Box.front; linarith
  have s2 : b1.right < b1.left := by unfold Box.right Box.left; linarith
  have s4 : B.right < B.left := by unfold Box.right Box.left; linarith
  rw [min_eq_left h3, max_eq_left h2.le, ← h1, min_self]
  refine mul_pos (lt_max_of_lt_right (by linarith)) (lt_max_of_lt_right (sub_pos.mpr (max_lt s2 ?_)))
  rw [h1]; exact s4

theorem iou_2d_of_zero {b1 b2 : Box} (s1 : Sized b1) (s2 : Sized b2) (h : polygonArea b1 b2 = 0) :
    computeIoU polygonArea b1 b2 .b2d = some 0 := by
  rw [computeIoU_congr (area' := fun _ _ => 0) h]
  unfold computeIoU
  rw [if_neg (not_huge s1 s2)]
  simp only
  unfold iou2d
  rw [if_neg (not_tiny s1 s2)]
  exact ratio_zero

open Classical in
/-- **The IoU of boxes whose headings differ by right angles** (C222): exact, but for one kind of position, in which it is
found to be zero. -/
theorem iou_2d_turned {q : ℕ} (hq : q < 4) {b1 b2 : Box} (h1 : Sized b1) (h2 : Sized b2) (h : Quarter q b1 b2) :
    computeIoU polygonArea b1 b2 .b2d =
      some (if Missed q b1 b2 ∨ 2 * volume.real (rect b1 ∩ rect b2) ≤ 1 / 10 ^ 10 then 0 else iouSpec (rect b1) (rect b2)) := by
  have ha := polygonArea_turned hq h1.pos.1 h1.pos.2 h2.pos.1 h2.pos.2 h
  by_cases hm : Missed q b1 b2
  · rw [if_pos hm] at ha
    rw [if_pos (Or.inl hm), iou_2d_of_zero h1 h2 ha]
  · rw [if_neg hm] at ha
    rw [iou_2d_of_area h1 h2 ha]
    simp only [hm, false_or]

/-- **Turned to the left by one right angle, every position is exact** (C222). -/
theorem iou_2d_left_partial {b1 b2 : Box} (h1 : Sized b1) (h2 : Sized b2) (h : Quarter 1 b1 b2) :
    computeIoU polygonArea b1 b2 .b2d =
      some (if 2 * volume.real (rect b1 ∩ rect b2) ≤ 1 / 10 ^ 10 then 0 else iouSpec (rect b1) (rect b2)) := by
  rw [iou_2d_turned (by norm_num) h1 h2 h]
  have : ¬ Missed 1 b1 b2 := fun c => absurd c.1 (by norm_num)
  simp only [this, false_or]

/-- **The IoU of upright boxes whose headings differ by right angles** (C222), outside of that position. -/
theorem iou_3d_turned_partial {q : ℕ} (hq : q < 4) {b1 b2 : Box} (h1 : Sized b1) (h2 : Sized b2) (t1 : kMinBoxDim < b1.height)
    (t2 : kMinBoxDim < b2.height) (h : Quarter q b1 b2) (hm : ¬ Missed q b1 b2) :
    computeIoU polygonArea b1 b2 .b3d =
      some (if 2 * volume.real (rect b1 ∩ rect b2) ≤ 1 / 10 ^ 10 then 0 else iouSpec (body b1) (body b2)) := by
  have ha := polygonArea_turned hq h1.pos.1 h1.pos.2 h2.pos.1 h2.pos.2 h
  rw [if_neg hm] at ha
  exact iou_3d_of_area h1 h2 t1 t2 ha

/-- **A box and the same set of points with another heading have IoU 1** (C222): turned by any number of right angles. -/
theorem iou_reversed {q : ℕ} (hq : q < 4) {b1 b2 : Box} (h1 : Sized b1) (h2 : Sized b2) (h : Quarter q b1 b2)
    (he : rect b1 = rect b2) : computeIoU polygonArea b1 b2 .b2d = some 1 := by
  have hm : ¬ Missed q b1 b2 := by
    rintro ⟨-, -, c, -⟩
    have hu := cos_sq_add_sin_sq b1.heading
    have lf : 0 < (b2.faced q b1.heading).length := by
      have := h2.pos.1; have := h2.pos.2; unfold Box.faced; simp only; split_ifs <;> assumption
    have wf : 0 < (b2.faced q b1.heading).width := by
      have := h2.pos.1; have := h2.pos.2; unfold Box.faced; simp only; split_ifs <;> assumption
    rw [← rect_faced hq h] at he
    have hx : turn (cos b1.heading) (sin b1.heading) ((b2.faced q b1.heading).back, (b2.faced q b1.heading).left) ∈ rect b1 := by
      rw [he, mem_rect_turn (b := b2.faced q b1.heading) hu rfl rfl]
      generalize b2.faced q b1.heading = B at *
      refine ⟨⟨le_rfl, ?_⟩, ?_, le_rfl⟩
      · unfold Box.back Box.front; linarith
      · unfold Box.right Box.left; linarith
    rw [mem_rect_turn hu rfl rfl] at hx
    exact absurd hx.1.1 (not_le.mpr c)
  rw [iou_2d_turned hq h1 h2 h, if_neg, (iouSpec_eq_one (rect_solid b1 h1.pos.1 h1.pos.2) (rect_solid b2 h2.pos.1 h2.pos.2)).mpr he]
  rintro (c | c)
  · exact hm c
  · rw [← he] at c
    exact h1.not_cut c

/-- C222: a box and the box that heads the other way. -/
theorem iou_reversed_example {b : Box} (h : Sized b) : computeIoU polygonArea b { b with heading := b.heading + π } .b2d = some 1 := by
  have hq : Quarter 2 b { b with heading := b.heading + π } := by
    have e : b.heading + ((2 : ℕ) : ℝ) * (π / 2) = b.heading + π := by push_cast; ring
    exact ⟨by rw [e], by rw [e]⟩
  refine iou_reversed (by norm_num) h h hq ?_
  rw [← rect_faced (by norm_num) hq]
  rfl

/-- A square, and a box of twice its size across that heads to the right of it. -/
noncomputable def sideBox : Box := ⟨0, 0, 0, 1, 2, 1, 3 * (π / 2)⟩

/-- **C222 fails of boxes at a right angle**: a square in the middle of a box that heads to the right of it is missed, and
in the other order it is found. -/
theorem iou_turned_violated : Sized (exBox 0 0 1) ∧ Sized sideBox ∧ Quarter 3 (exBox 0 0 1) sideBox ∧
    computeIoU polygonArea (exBox 0 0 1) sideBox .b2d = some 0 ∧ computeIoU polygonArea sideBox (exBox 0 0 1) .b2d = some (1 / 2) ∧
    iouSpec (rect (exBox 0 0 1)) (rect sideBox) = 1 / 2 := by
  have s1 : Sized (exBox 0 0 1) := by unfold Sized exBox; norm_num [kMinBoxDim, kMaxBoxDim]
  have s2 : Sized sideBox := by unfold Sized sideBox; norm_num [kMinBoxDim, kMaxBoxDim]
  have hq : Quarter 3 (exBox 0 0 1) sideBox := by
    constructor <;> · congr 1; simp [exBox, sideBox]
  have hq' : Quarter 1 sideBox (exBox 0 0 1) := by
    have e : sideBox.heading + ((1 : ℕ) : ℝ) * (π / 2) = 0 + 2 * π := by simp only [sideBox]; push_cast; ring
    constructor
    · rw [e, cos_add_two_pi]; rfl
    · rw [e, sin_add_two_pi]; rfl
  have hsub : rect (exBox 0 0 1) ⊆ rect sideBox := by
    rw [← rect_faced (by norm_num) hq]
    intro p hp
    simp only [rect, exBox, sideBox, Box.faced, mem_ofPred_eq, cos_zero, sin_zero, abs_le] at hp ⊢
    norm_num at hp ⊢
    obtain ⟨⟨a, b⟩, c, d⟩ := hp
    exact ⟨⟨by linarith, by linarith⟩, by linarith, by linarith⟩
  have hiou : iouSpec (rect (exBox 0 0 1)) (rect sideBox) = 1 / 2 := by
    rw [iouSpec, inter_eq_left.mpr hsub, union_eq_right.mpr hsub, rect_real _ (by norm_num [exBox]) (by norm_num [exBox]),
      rect_real _ (by norm_num [sideBox]) (by norm_num [sideBox])]
    norm_num [exBox, sideBox]
  have hmiss : Missed 3 (exBox 0 0 1) sideBox := by
    simp only [Missed, missed, Box.faced, Box.back, Box.front, Box.left, exBox, sideBox, cos_zero, sin_zero]
    norm_num
  refine ⟨s1, s2, hq, ?_, ?_, hiou⟩
  · rw [iou_2d_turned (by norm_num) s1 s2 hq, if_pos (Or.inl hmiss)]
  · rw [iou_2d_left_partial s2 s1 hq', inter_comm, inter_eq_left.mpr hsub, rect_real _ (by norm_num [exBox]) (by norm_num [exBox]),
      if_neg (by norm_num [exBox])]
    have : iouSpec (rect sideBox) (rect (exBox 0 0 1)) = iouSpec (rect (exBox 0 0 1)) (rect sideBox) := by
      unfold iouSpec; rw [inter_comm, union_comm]
    rw [this, hiou]

/-- C222: the same points with length and width exchanged. -/
theorem iou_2d_left_example : Quarter 1 (exBox 0 0 2) ⟨0, 0, 0, 1, 2, 1, π / 2⟩ ∧
    computeIoU polygonArea (exBox 0 0 2) ⟨0, 0, 0, 1, 2, 1, π / 2⟩ .b2d = some 1 := by
  have s1 : Sized (exBox 0 0 2) := by unfold Sized exBox; norm_num [kMinBoxDim, kMaxBoxDim]
  have s2 : Sized (⟨0, 0, 0, 1, 2, 1, π / 2⟩ : Box) := by unfold Sized; norm_num [kMinBoxDim, kMaxBoxDim]
  have hq : Quarter 1 (exBox 0 0 2) ⟨0, 0, 0, 1, 2, 1, π / 2⟩ := by
    constructor <;> · congr 1; simp [exBox]
  refine ⟨hq, iou_reversed (by norm_num) s1 s2 hq ?_⟩
  rw [← rect_faced (by norm_num) hq]
  rfl

end Verif.Iou

namespace Verif.Motion

open Real MeasureTheory Verif.Polygon

/-- **The overlap test for boxes whose headings differ by right angles** (C222). -/
theorem boxesOverlap_turned {q : ℕ} (hq : q < 4) {b b' : Box} (l1 : 0 < b.length) (w1 : 0 < b.width) (l2 : 0 < b'.length)
    (w2 : 0 < b'.width) (h : Iou.Quarter q b.upright b'.upright) :
    boxesOverlap b b' = true ↔
      1 / 10 ^ 10 < 2 * volume.real (Iou.rect b.upright ∩ Iou.rect b'.upright) ∧ ¬ Iou.Missed q b.upright b'.upright := by
  rw [boxesOverlap_area, Iou.polygonArea_turned (b1 := b.upright) (b2 := b'.upright) hq l1 w1 l2 w2 h]
  by_cases hm : Iou.Missed q b.upright b'.upright
  · simp [hm]
  · rw [if_neg hm, cutOff_pos]
    simp [hm]

end Verif.Motion
