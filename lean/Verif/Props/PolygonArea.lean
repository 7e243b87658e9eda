import Verif.Props.PolygonInside
import Mathlib.Analysis.Convex.Hull
import Mathlib.Topology.Algebra.Module.Basic

/-!
C94: the intersection area of two convex polygons, math/polygon2d.cc:360-504.  If no vertex of one polygon lies on the
boundary of the other then `ComputeIntersectionArea` is the area of the common points of the two polygons, apart from
areas below the cut-off of `AreaInternal`, which become zero.
-/

namespace Verif.Polygon

open Real MeasureTheory

/-! ## Counting the directions from another turn on -/

theorem ht_turn (V : ℕ → Pt ℝ) (α : ℕ → ℝ) (k : ℤ) (i : ℕ) (z : Pt ℝ) :
    ht V (fun i => α i + k * (2 * π)) i z = ht V α i z := by
  unfold ht e
  simp only [cos_add_int_mul_two_pi, sin_add_int_mul_two_pi]

theorem region_turn (V : ℕ → Pt ℝ) (α : ℕ → ℝ) (k : ℤ) : region V (fun i => α i + k * (2 * π)) = region V α := by
  ext z
  simp only [region, Set.mem_setOf_eq, ht_turn]

theorem Ring.turn {V : ℕ → Pt ℝ} {n : ℕ} {α : ℕ → ℝ} (R : Ring V n α) (k : ℤ) :
    Ring V n (fun i => α i + k * (2 * π)) := by
  refine ⟨R.pos, R.per, fun i => ?_, fun i => ?_, fun i => ?_⟩
  · rw [R.aper]; ring
  · have := R.step i
    exact ⟨by linarith, by linarith⟩
  · obtain ⟨r, hr, er⟩ := R.dir i
    refine ⟨r, hr, ?_⟩
    rw [er]
    simp only [e, cos_add_int_mul_two_pi, sin_add_int_mul_two_pi]

theorem exists_near (α β : ℕ → ℝ) : ∃ k : ℤ, Near α (fun i => β i + k * (2 * π)) := by
  have h2pi : (0 : ℝ) < 2 * π := by positivity
  set k := ⌈(α 0 - β 0 - π) / (2 * π)⌉ with hk
  have k1 : (α 0 - β 0 - π) / (2 * π) ≤ k := Int.le_ceil _
  have k2 : (k : ℝ) < (α 0 - β 0 - π) / (2 * π) + 1 := Int.ceil_lt_add_one _
  rw [div_le_iff₀ h2pi] at k1
  rw [← sub_lt_iff_lt_add, lt_div_iff₀ h2pi] at k2
  exact ⟨k, by linarith, by linarith⟩

section

variable {P Q : Poly ℝ} {α β : ℕ → ℝ}

/-- If the loop finds no crossing then there is none. -/
theorem no_crossing (hP : IsRing P α) (hQ : IsRing Q β) (hN : Near α β) (gP : Apart P.v Q.v β) (gQ : Apart Q.v P.v α)
    (h : ∀ i, i < (P.n + Q.n) * 2 → ∀ x, OnEdge P.v α (pos P Q i).1 x → OnEdge Q.v β (pos P Q i).2 x → False)
    {c d : ℕ} {y : Pt ℝ} (oP : OnEdge P.v α c y) (oQ : OnEdge Q.v β d y) : False := by
  have nP := hP.ring.pos
  have nQ := hQ.ring.pos
  have hp := pos_path hP hQ hN (oP.mem hP.ring) (oQ.mem hQ.ring)
  -- move the indices to the first turn
  set c' := c % P.n with hc
  set d' := d % Q.n with hd
  have lc : c' < P.n := Nat.mod_lt _ (by omega)
  have ld : d' < Q.n := Nat.mod_lt _ (by omega)
  have oP' : OnEdge P.v α c' y := oP.mod hP.ring (by rw [hc, Nat.mod_mod])
  have oQ' : OnEdge Q.v β d' y := oQ.mod hQ.ring (by rw [hd, Nat.mod_mod])
  have uc : α 0 ≤ α c' ∧ α c' < α 0 + 2 * π := by
    have h1 := hP.ring.mono lc
    have h2 := hP.ring.aper 0
    rw [zero_add] at h2
    exact ⟨hP.ring.mono.monotone (Nat.zero_le _), by linarith⟩
  have ud : β 0 ≤ β d' ∧ β d' < β 0 + 2 * π := by
    have h1 := hQ.ring.mono ld
    have h2 := hQ.ring.aper 0
    rw [zero_add] at h2
    exact ⟨hQ.ring.mono.monotone (Nat.zero_le _), by linarith⟩
  obtain ⟨n1, n2⟩ := hN
  -- the copies that are near
  have key : ∀ i j : ℕ, i ≤ 1 → j ≤ 1 → i + j ≤ 1 → α (c' + P.n * i) - β (d' + Q.n * j) ≤ π →
      -π ≤ α (c' + P.n * i) - β (d' + Q.n * j) → False := by
    intro i j hi hj hij h1 h2
    have o1 : OnEdge P.v α (c' + P.n * i) y := oP'.mod hP.ring (by simp)
    have o2 : OnEdge Q.v β (d' + Q.n * j) y := oQ'.mod hQ.ring (by simp)
    have hs := sin_ne_zero_of_cross hP.ring hQ.ring gP gQ o1 o2
    have hsum : c' + P.n * i + (d' + Q.n * j) < (P.n + Q.n) * 2 := by
      have : P.n * i ≤ P.n * 1 := Nat.mul_le_mul_left _ hi
      have : Q.n * j ≤ Q.n * 1 := Nat.mul_le_mul_left _ hj
      omega
    have hlt1 : α (c' + P.n * i) - β (d' + Q.n * j) < π := lt_of_le_of_ne h1 (fun hc => hs (by rw [hc, sin_pi]))
    have hlt2 : -π < α (c' + P.n * i) - β (d' + Q.n * j) :=
      lt_of_le_of_ne h2 (fun hc => hs (by rw [← hc, sin_neg, sin_pi, neg_zero]))
    rcases lt_trichotomy (α (c' + P.n * i)) (β (d' + Q.n * j)) with g | g | g
    · have hen : En Q.v β P.v α (d' + Q.n * j) (c' + P.n * i) y := ⟨o2, o1, g, by linarith⟩
      obtain ⟨v1, v2⟩ := hp.swap.visit hQ.ring hP.ring hen
      refine h _ (show d' + Q.n * j + (c' + P.n * i) < _ by omega) y ?_ ?_
      · rw [v2]; exact o1
      · rw [v1]; exact o2
    · rw [g, sub_self, sin_zero] at hs; exact hs rfl
    · have hen : En P.v α Q.v β (c' + P.n * i) (d' + Q.n * j) y := ⟨o1, o2, g, by linarith⟩
      obtain ⟨v1, v2⟩ := hp.visit hP.ring hQ.ring hen
      refine h _ hsum y ?_ ?_
      · rw [v1]; exact o1
      · rw [v2]; exact o2
  have hpi := pi_pos
  by_cases h1 : α c' - β d' ≤ π
  · by_cases h2 : -π ≤ α c' - β d'
    · exact key 0 0 (by omega) (by omega) (by omega) (by simpa using h1) (by simpa using h2)
    · push Not at h2
      refine key 1 0 (by omega) (by omega) (by omega) ?_ ?_
      · rw [hP.ring.aper_mul]; simp only [mul_zero, add_zero, Nat.cast_one, mul_one]; linarith
      · rw [hP.ring.aper_mul]; simp only [mul_zero, add_zero, Nat.cast_one, mul_one]; linarith
  · push Not at h1
    refine key 0 1 (by omega) (by omega) (by omega) ?_ ?_
    · rw [hQ.ring.aper_mul]; simp only [mul_zero, add_zero, Nat.cast_one, mul_one]; linarith
    · rw [hQ.ring.aper_mul]; simp only [mul_zero, add_zero, Nat.cast_one, mul_one]; linarith

/-- If the boundaries do not cross and a point of the first polygon lies on the boundary of the second, then the second
polygon lies inside of the first. -/
theorem walk_inside (hP : IsRing P α) (hQ : IsRing Q β) (gP : Apart P.v Q.v β) (gQ : Apart Q.v P.v α)
    (hno : ∀ c d y, OnEdge P.v α c y → OnEdge Q.v β d y → False) {y : Pt ℝ} {j : ℕ} (yP : y ∈ region P.v α)
    (yQ : y ∈ region Q.v β) (hj : ht Q.v β j y = 0) (i : ℕ) : Q.v i ∈ region P.v α := by
  have nQ := hQ.ring.pos
  -- along one edge
  have along : ∀ (d : ℕ) (z : Pt ℝ), z ∈ region P.v α → z ∈ region Q.v β → ht Q.v β d z = 0 → Q.v (d + 1) ∈ region P.v α := by
    intro d z zP zQ hz
    by_contra hn
    obtain ⟨c, t, -, t0, t1, w1, w2, w3⟩ := hP.ring.leave zP hn
    set w := z + scale t (Q.v (d + 1) - z) with hw
    have wQ : w ∈ region Q.v β := region_comb zQ (hQ.ring.vertex_mem _) t0 t1.le
    have w0 : ht Q.v β d w = 0 := by
      have : ht Q.v β d (Q.v (d + 1)) = ht Q.v β d z + cp (e (β d)) (Q.v (d + 1) - z) := by rw [← ht_add]; congr 1; abel
      rw [hQ.ring.ht_next, hz] at this
      rw [hw, ht_add, cp_scale, hz, show cp (e (β d)) (Q.v (d + 1) - z) = 0 by linarith]; ring
    exact hno c d w (OnEdge.of_mem hP.ring gP w1 w2 wQ w0) (OnEdge.of_mem hQ.ring gQ wQ w0 w1 w2)
  have all : ∀ t, Q.v (j + 1 + t) ∈ region P.v α := by
    intro t
    induction t with
    | zero => exact along j y yP yQ hj
    | succ t ih => exact along (j + 1 + t) _ ih (hQ.ring.vertex_mem _) (Ring.ht_self _ _ _)
  obtain ⟨t, -, -, h3⟩ := hQ.ring.exists_offset (j + 1) i
  rw [h3]; exact all t

theorem region_subset (hP : IsRing P α) (h : ∀ i, P.v i ∈ region Q.v β) : region P.v α ⊆ region Q.v β :=
  fun _ hz j => hP.ring.half_plane (fun i _ => h i j) hz

/-- **The vertices of the intersection**: a walk around the common region, or nothing if there is no common point. -/
theorem vertices_near (hP : IsRing P α) (hQ : IsRing Q β) (bP : Boxed P) (bQ : Boxed Q) (hN : Near α β)
    (gP : Apart P.v Q.v β) (gQ : Apart Q.v P.v α) :
    Walk (common P Q α β) (vertices P Q) ∨ (common P Q α β = ∅ ∧ vertices P Q = []) := by
  unfold vertices
  by_cases hm : maybeIntersect P Q = false
  · rw [if_pos hm]
    exact Or.inr ⟨maybeIntersect_sound hP hQ bP bQ hm, rfl⟩
  rw [if_neg hm]
  rcases run1_spec hP hQ hN gP gQ ((P.n + Q.n) * 2) 0 ⟨0, 0, false, false, []⟩ ⟨by simp [pos], by simp [pos]⟩ rfl rfl rfl with
    ⟨l, e, hw⟩ | ⟨e, hno⟩
  · left; rw [e]; exact hw
  · rw [e]
    have hno' : ∀ c d y, OnEdge P.v α c y → OnEdge Q.v β d y → False := fun c d y o1 o2 =>
      no_crossing hP hQ hN gP gQ (fun i hi => hno i (by omega) (by omega)) o1 o2
    have inP : P.pts.all (pointInside Q) = true ↔ ∀ i, P.v i ∈ region Q.v β := by
      rw [List.all_eq_true]
      constructor
      · exact fun h i => (pointInside_iff hQ bQ _).mp (h _ (hP.v_mem i))
      · intro h x hx
        rw [hP.pts_eq] at hx
        obtain ⟨i, -, rfl⟩ := List.mem_map.mp hx
        exact (pointInside_iff hQ bQ _).mpr (h i)
    have inQ : Q.pts.all (pointInside P) = true ↔ ∀ i, Q.v i ∈ region P.v α := by
      rw [List.all_eq_true]
      constructor
      · exact fun h i => (pointInside_iff hP bP _).mp (h _ (hQ.v_mem i))
      · intro h x hx
        rw [hQ.pts_eq] at hx
        obtain ⟨i, -, rfl⟩ := List.mem_map.mp hx
        exact (pointInside_iff hP bP _).mpr (h i)
    simp only
    by_cases c1 : P.pts.all (pointInside Q) = true
    · rw [if_pos c1]
      left
      have : common P Q α β = region P.v α :=
        Set.Subset.antisymm (fun z hz => hz.1) (fun z hz => ⟨hz, region_subset hP (inP.mp c1) hz⟩)
      rw [this]; exact hP.walk
    rw [if_neg c1]
    by_cases c2 : Q.pts.all (pointInside P) = true
    · rw [if_pos c2]
      left
      have : common P Q α β = region Q.v β :=
        Set.Subset.antisymm (fun z hz => hz.2) (fun z hz => ⟨region_subset hQ (inQ.mp c2) hz, hz⟩)
      rw [this]; exact hQ.walk
    rw [if_neg c2]
    right
    refine ⟨?_, rfl⟩
    rw [Set.eq_empty_iff_forall_notMem]
    rintro z ⟨z1, z2⟩
    -- a vertex of the first polygon is outside of the second
    have : ∃ i, P.v i ∉ region Q.v β := by
      by_contra hc
      push Not at hc
      exact c1 (inP.mpr hc)
    obtain ⟨i, hi⟩ := this
    obtain ⟨j, t, -, t0, t1, y1, y2, -⟩ := hQ.ring.leave z2 hi
    exact c2 (inQ.mpr (walk_inside hP hQ gP gQ hno' (region_comb z1 (hP.ring.vertex_mem _) t0 t1.le) y1 y2))

theorem vertices_spec (hP : IsRing P α) (hQ : IsRing Q β) (bP : Boxed P) (bQ : Boxed Q)
    (gP : Apart P.v Q.v β) (gQ : Apart Q.v P.v α) :
    Walk (common P Q α β) (vertices P Q) ∨ (common P Q α β = ∅ ∧ vertices P Q = []) := by
  obtain ⟨k, hk⟩ := exists_near α β
  have hQ' : IsRing Q (fun i => β i + k * (2 * π)) := ⟨hQ.len, hQ.ring.turn k⟩
  have hc : common P Q α (fun i => β i + k * (2 * π)) = common P Q α β := by
    unfold common; rw [region_turn]
  have := vertices_near hP hQ' bP bQ hk (fun i j h => by rw [ht_turn]; rw [region_turn] at h; exact gP i j h) gQ
  rwa [hc] at this

/-! ## Convex hulls -/

theorem region_convex (V : ℕ → Pt ℝ) (α : ℕ → ℝ) : Convex ℝ (region V α) := by
  rw [convex_iff_segment_subset]
  intro x hx y hy z hz
  rw [mem_segment_iff] at hz
  obtain ⟨t, t0, t1, rfl⟩ := hz
  exact region_comb hx hy t0 t1

/-- **The points to the left of the edges are the convex hull of the vertices.** -/
theorem region_eq_hull (hP : IsRing P α) (bP : Boxed P) : region P.v α = convexHull ℝ {p | p ∈ P.pts} := by
  apply Set.Subset.antisymm
  · -- a convex set that contains the vertices is an intersection of half planes; use the sectors of the test
    intro p hp
    have hn := hP.ring.pos
    have hlast : P.v P.n = P.v 0 := by have := hP.ring.per 0; rwa [zero_add] at this
    have hmem : ∀ i, P.v i ∈ convexHull ℝ {p | p ∈ P.pts} := fun i => subset_convexHull ℝ _ (hP.v_mem i)
    have hconv : ∀ z ∈ convexHull ℝ {p | p ∈ P.pts}, ∀ w ∈ convexHull ℝ {p | p ∈ P.pts}, ∀ t : ℝ, 0 ≤ t → t ≤ 1 →
        z + scale t (w - z) ∈ convexHull ℝ {p | p ∈ P.pts} := by
      intro z hz w hw t t0 t1
      exact (convex_iff_segment_subset.mp (convex_convexHull ℝ _)) hz hw ((mem_segment_iff _ _ _).mpr ⟨t, t0, t1, rfl⟩)
    have side : ∀ i, 0 ≤ cross3 (P.v i) (P.v (i + 1)) p := fun i => by
      obtain ⟨r, hr, er⟩ := hP.ring.edge i
      unfold cross3
      rw [er, scale_cp]
      exact mul_nonneg hr.le (hp i)
    set f : ℕ → ℝ := fun i => cross3 (P.v 0) (P.v i) p with hf
    have f1 : 0 ≤ f 1 := side 0
    have fE : f (P.n - 1) ≤ 0 := by
      have h1 := side (P.n - 1)
      rw [Nat.sub_add_cancel (by omega), hlast] at h1
      have : f (P.n - 1) = - cross3 (P.v (P.n - 1)) (P.v 0) p := by
        simp only [hf, cross3, cp, Prod.fst_sub, Prod.snd_sub]; ring
      linarith
    have hsec : ∃ i, 1 ≤ i ∧ i < P.n - 1 ∧ 0 ≤ f i ∧ f (i + 1) ≤ 0 := by
      by_contra hno
      push Not at hno
      have : ∀ j, 1 ≤ j → j ≤ P.n - 1 → 0 ≤ f j := by
        intro j hj
        induction j, hj using Nat.le_induction with
        | base => intro _; exact f1
        | succ j hj ih =>
          intro hjE
          exact (hno j hj (by omega) (ih (by omega))).le
      have hl := hno (P.n - 2) (by omega) (by omega) (this (P.n - 2) (by omega) (by omega))
      rw [show P.n - 2 + 1 = P.n - 1 by omega] at hl
      linarith
    obtain ⟨i, i2, i3, i4, i5⟩ := hsec
    have hpos : 0 < cross3 (P.v 0) (P.v i) (P.v (i + 1)) := by
      have h1 := hP.ring.ht_vertex_offset_pos i (P.n - i) (by omega) (by omega)
      rw [Nat.add_sub_cancel' (by omega), hlast] at h1
      obtain ⟨r, hr, er⟩ := hP.ring.edge i
      have : cross3 (P.v 0) (P.v i) (P.v (i + 1)) = r * ht P.v α i (P.v 0) := by
        have : cross3 (P.v 0) (P.v i) (P.v (i + 1)) = cp (P.v (i + 1) - P.v i) (P.v 0 - P.v i) := by
          simp only [cross3, cp, Prod.fst_sub, Prod.snd_sub]; ring
        rw [this, er, scale_cp]; rfl
      rw [this]; positivity
    exact triangle_subset hconv (hmem 0) (hmem i) (hmem (i + 1)) hpos ⟨i4, i5, side i⟩
  · apply convexHull_min _ (region_convex _ _)
    intro p hp
    have hp' : p ∈ P.pts := hp
    rw [hP.pts_eq] at hp'
    obtain ⟨i, -, rfl⟩ := List.mem_map.mp hp'
    exact hP.ring.vertex_mem i

/-- A point of the region on the line of an edge is a boundary point. -/
theorem mem_frontier_of_ht {V : ℕ → Pt ℝ} {i : ℕ} {z : Pt ℝ} (hz : z ∈ region V α) (h : ht V α i z = 0) :
    z ∈ frontier (region V α) := by
  rw [frontier, Set.mem_diff]
  refine ⟨subset_closure hz, fun hint => ?_⟩
  -- move a little to the right of the edge
  have hc : Filter.Tendsto (fun t : ℝ => z + scale t (sin (α i), -cos (α i))) (nhds 0) (nhds z) := by
    have : Continuous (fun t : ℝ => z + scale t (sin (α i), -cos (α i))) := by
      unfold scale; fun_prop
    have h0 := this.tendsto 0
    have e0 : z + scale (0 : ℝ) (sin (α i), -cos (α i)) = z := by ext <;> simp [scale]
    rwa [e0] at h0
  have hev := hc.eventually (mem_interior_iff_mem_nhds.mp hint)
  obtain ⟨ε, he, hb⟩ := Metric.eventually_nhds_iff.mp hev
  have hin : z + scale (ε / 2) (sin (α i), -cos (α i)) ∈ region V α := by
    apply hb
    rw [Real.dist_eq, sub_zero, abs_of_pos (by linarith)]
    linarith
  have h1 := hin i
  rw [ht_add, cp_scale, h] at h1
  have : cp (e (α i)) (sin (α i), -cos (α i)) = -1 := by
    simp only [cp, e]
    linear_combination (-1) * sin_sq_add_cos_sq (α i)
  rw [this] at h1
  linarith

/-! ## The intersection area -/

/-- The cut-off of small areas. -/
noncomputable def cutOff (v : ℝ) : ℝ := if 2 * v ≤ 1 / 10 ^ 10 then 0 else v

/-- The points of a polygon. -/
def Poly.hull (P : Poly ℝ) : Set (ℝ × ℝ) := convexHull ℝ {p | p ∈ P.pts}

theorem areaInternal_cutOff {l : List (Pt ℝ)} (h : 0 ≤ twiceArea l) : areaInternal l = cutOff (twiceArea l / 2) := by
  unfold areaInternal cutOff kEpsilon
  rw [abs_of_nonneg h, show 2 * (twiceArea l / 2) = twiceArea l by ring]
  split_ifs <;> ring

/-- **The intersection area of convex polygons** (C94).  Let no vertex of one polygon lie on the boundary of the other.
Then the computed intersection area is the area of the set of the common points, up to the cut-off. -/
theorem intersectionArea_eq (hP : IsRing P α) (hQ : IsRing Q β) (bP : Boxed P) (bQ : Boxed Q)
    (gP : ∀ p ∈ P.pts, p ∉ frontier Q.hull) (gQ : ∀ p ∈ Q.pts, p ∉ frontier P.hull) :
    intersectionArea P Q = cutOff (volume (P.hull ∩ Q.hull)).toReal := by
  have eP : region P.v α = P.hull := region_eq_hull hP bP
  have eQ : region Q.v β = Q.hull := region_eq_hull hQ bQ
  have aP : Apart P.v Q.v β := fun i j h1 h2 => gP _ (hP.v_mem i) (eQ ▸ mem_frontier_of_ht h1 h2)
  have aQ : Apart Q.v P.v α := fun i j h1 h2 => gQ _ (hQ.v_mem i) (eP ▸ mem_frontier_of_ht h1 h2)
  have hc : common P Q α β = P.hull ∩ Q.hull := by
    rw [← eP, ← eQ]; rfl
  unfold intersectionArea
  simp only
  rcases vertices_spec hP hQ bP bQ aP aQ with hw | ⟨h1, h2⟩
  · rw [if_neg (by have := hw.len; omega)]
    have hconv : ∀ z ∈ common P Q α β, ∀ w ∈ common P Q α β, ∀ t : ℝ, 0 ≤ t → t ≤ 1 → z + scale t (w - z) ∈ common P Q α β :=
      fun z hz w hw t t0 t1 => ⟨region_comb hz.1 hw.1 t0 t1, region_comb hz.2 hw.2 t0 t1⟩
    obtain ⟨a1, a2⟩ := hw.area hconv
    rw [areaInternal_cutOff a2, ← hc, a1, ENNReal.toReal_ofReal (by linarith)]
  · rw [h2, if_pos (by simp), ← hc, h1, measure_empty, ENNReal.toReal_zero, cutOff, if_pos (by norm_num)]

end

end Verif.Polygon
