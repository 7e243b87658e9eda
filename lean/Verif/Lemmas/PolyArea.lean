import Verif.Lemmas.PolyRing
import Mathlib.MeasureTheory.Measure.Lebesgue.EqHaar
import Mathlib.LinearAlgebra.Matrix.Determinant.Basic
import Mathlib.LinearAlgebra.Determinant

/-!
The area of a convex set of the plane with a polygonal boundary: the sum of the fan of triangles from one of its
corners.
-/

namespace Verif.Polygon

open Real MeasureTheory

instance : Measure.IsAddHaarMeasure (volume : Measure (ℝ × ℝ)) := Measure.prod.instIsAddHaarMeasure _ _

/-- The cross product with a fixed vector. -/
noncomputable def cpLin (u : Pt ℝ) : (ℝ × ℝ) →ₗ[ℝ] ℝ where
  toFun v := cp u v
  map_add' v w := cp_add u v w
  map_smul' t v := by simp only [cp, Prod.smul_fst, Prod.smul_snd, smul_eq_mul, RingHom.id_apply]; ring

theorem continuous_cross3 (u v : Pt ℝ) : Continuous (fun z : Pt ℝ => cross3 u v z) := by
  unfold cross3 cp
  fun_prop

/-- Lines have no area. -/
theorem volume_line {u v : Pt ℝ} (h : v ≠ u) : volume {z : ℝ × ℝ | cross3 u v z = 0} = 0 := by
  have hne : LinearMap.ker (cpLin (v - u)) ≠ ⊤ := by
    intro ht
    have h1 : ((1, 0) : ℝ × ℝ) ∈ LinearMap.ker (cpLin (v - u)) := by rw [ht]; trivial
    have h2 : ((0, 1) : ℝ × ℝ) ∈ LinearMap.ker (cpLin (v - u)) := by rw [ht]; trivial
    rw [LinearMap.mem_ker] at h1 h2
    simp only [cpLin, LinearMap.coe_mk, AddHom.coe_mk, cp, mul_zero, mul_one, zero_sub, sub_zero] at h1 h2
    apply h
    have : v - u = 0 := Prod.ext h2 (by simpa using neg_eq_zero.mp h1)
    exact sub_eq_zero.mp this
  have h0 := Measure.addHaar_submodule (volume : Measure (ℝ × ℝ)) _ hne
  have : {z : ℝ × ℝ | cross3 u v z = 0} = (fun z => z + (-u)) ⁻¹' (LinearMap.ker (cpLin (v - u)) : Set (ℝ × ℝ)) := by
    ext z
    simp only [Set.mem_setOf_eq, Set.mem_preimage, SetLike.mem_coe, LinearMap.mem_ker, cpLin, LinearMap.coe_mk,
      AddHom.coe_mk, cross3, sub_eq_add_neg]
  rw [this, measure_preimage_add_right, h0]

/-- The triangle with the corners (0, 0), (1, 0) and (0, 1). -/
def stdTriangle : Set (ℝ × ℝ) := {z | 0 ≤ z.1 ∧ 0 ≤ z.2 ∧ z.1 + z.2 ≤ 1}

theorem volume_stdTriangle : volume stdTriangle = ENNReal.ofReal (1 / 2) := by
  have hsq : volume (Set.Icc (0 : ℝ) 1 ×ˢ Set.Icc (0 : ℝ) 1) = 1 := by
    rw [Measure.volume_eq_prod, Measure.prod_prod, Real.volume_Icc]; simp
  have hmeas : MeasurableSet {z : ℝ × ℝ | z.1 + z.2 ≤ 1} :=
    (isClosed_le (by fun_prop) (by fun_prop)).measurableSet
  have h1 : (Set.Icc (0 : ℝ) 1 ×ˢ Set.Icc (0 : ℝ) 1) ∩ {z : ℝ × ℝ | z.1 + z.2 ≤ 1} = stdTriangle := by
    ext z
    simp only [Set.mem_inter_iff, Set.mem_prod, Set.mem_Icc, Set.mem_setOf_eq, stdTriangle]
    constructor
    · rintro ⟨⟨⟨a, b⟩, c, d⟩, f⟩; exact ⟨a, c, f⟩
    · rintro ⟨a, c, f⟩; exact ⟨⟨⟨a, by linarith⟩, c, by linarith⟩, f⟩
  have h2 : volume ((Set.Icc (0 : ℝ) 1 ×ˢ Set.Icc (0 : ℝ) 1) \ {z : ℝ × ℝ | z.1 + z.2 ≤ 1}) = volume stdTriangle := by
    -- the other half is the reflection of the triangle, up to a line
    have himg : volume ((fun z : ℝ × ℝ => ((1, 1) : ℝ × ℝ) - z) ⁻¹' stdTriangle) = volume stdTriangle := by
      have : (fun z : ℝ × ℝ => ((1, 1) : ℝ × ℝ) - z) ⁻¹' stdTriangle
          = ((-1 : ℝ) • ·) ⁻¹' ((fun z : ℝ × ℝ => ((1, 1) : ℝ × ℝ) + z) ⁻¹' stdTriangle) := by
        ext z
        simp only [Set.mem_preimage, sub_eq_add_neg, neg_smul, one_smul]
      rw [this, Measure.addHaar_preimage_smul _ (by norm_num), measure_preimage_add]
      simp
    rw [← himg]
    apply measure_congr
    have hl : volume {z : ℝ × ℝ | cross3 ((1, 0) : ℝ × ℝ) (0, 1) z = 0} = 0 := volume_line (by simp)
    have hae : ∀ᵐ z : ℝ × ℝ, cross3 ((1, 0) : ℝ × ℝ) (0, 1) z ≠ 0 := by
      rw [ae_iff]; simpa using hl
    filter_upwards [hae] with z hz
    have hz' : z.1 + z.2 ≠ 1 := by
      intro hc; apply hz; simp only [cross3, cp, Prod.fst_sub, Prod.snd_sub]; linarith
    apply propext
    change (((0 ≤ z.1 ∧ z.1 ≤ 1) ∧ (0 ≤ z.2 ∧ z.2 ≤ 1)) ∧ ¬ (z.1 + z.2 ≤ 1)) ↔ (0 ≤ 1 - z.1 ∧ 0 ≤ 1 - z.2 ∧ 1 - z.1 + (1 - z.2) ≤ 1)
    constructor
    · rintro ⟨⟨⟨a, b⟩, c, d⟩, f⟩
      exact ⟨by linarith, by linarith, by linarith⟩
    · rintro ⟨a, b, c⟩
      exact ⟨⟨⟨by linarith, by linarith⟩, by linarith, by linarith⟩, fun h => hz' (by linarith)⟩
  have h3 := measure_inter_add_sdiff (μ := (volume : Measure (ℝ × ℝ))) (Set.Icc (0 : ℝ) 1 ×ˢ Set.Icc (0 : ℝ) 1) hmeas
  rw [h1, h2, hsq, ← two_mul] at h3
  have h4 : ENNReal.ofReal (1 / 2) = 1 / 2 := by
    rw [ENNReal.ofReal_div_of_pos (by norm_num)]; simp
  rw [h4, ENNReal.eq_div_iff (by norm_num) (by norm_num)]
  exact h3

/-- The closed triangle to the left of its sides. -/
def triangle (o a b : Pt ℝ) : Set (ℝ × ℝ) := {z | 0 ≤ cross3 o a z ∧ cross3 o b z ≤ 0 ∧ 0 ≤ cross3 a b z}

theorem volume_triangle {o a b : Pt ℝ} (h : 0 < cross3 o a b) :
    volume (triangle o a b) = ENNReal.ofReal (cross3 o a b / 2) := by
  set D := cross3 o a b with hD
  set f : (ℝ × ℝ) →ₗ[ℝ] (ℝ × ℝ) := Matrix.toLin (Module.Basis.finTwoProd ℝ) (Module.Basis.finTwoProd ℝ)
    !![(a - o).1, (b - o).1; (a - o).2, (b - o).2] with hf
  have hdet : LinearMap.det f = D := by
    rw [hf, LinearMap.det_toLin, Matrix.det_fin_two_of, hD]
    simp only [cross3, cp]; ring
  have happ : ∀ z : ℝ × ℝ, f z = ((a - o).1 * z.1 + (b - o).1 * z.2, (a - o).2 * z.1 + (b - o).2 * z.2) := fun z => by
    rw [hf, Matrix.toLin_finTwoProd_apply]
  have himg : (fun z => z + (-o)) ⁻¹' (f '' stdTriangle) = triangle o a b := by
    ext z
    simp only [Set.mem_preimage, Set.mem_image, triangle, Set.mem_setOf_eq, stdTriangle]
    have hDe : D = (a.1 - o.1) * (b.2 - o.2) - (a.2 - o.2) * (b.1 - o.1) := by
      rw [hD]; simp only [cross3, cp, Prod.fst_sub, Prod.snd_sub]
    simp only [cross3, cp, Prod.fst_sub, Prod.snd_sub]
    constructor
    · rintro ⟨w, ⟨w0, w1, w2⟩, hw⟩
      rw [happ, Prod.ext_iff] at hw
      simp only [Prod.fst_sub, Prod.snd_sub, Prod.fst_add, Prod.snd_add, Prod.fst_neg, Prod.snd_neg] at hw
      have z1 : z.1 = o.1 + ((a.1 - o.1) * w.1 + (b.1 - o.1) * w.2) := by linarith [hw.1]
      have z2 : z.2 = o.2 + ((a.2 - o.2) * w.1 + (b.2 - o.2) * w.2) := by linarith [hw.2]
      refine ⟨?_, ?_, ?_⟩
      · have : (a.1 - o.1) * (z.2 - o.2) - (a.2 - o.2) * (z.1 - o.1) = D * w.2 := by rw [z1, z2, hDe]; ring
        rw [this]; positivity
      · have : (b.1 - o.1) * (z.2 - o.2) - (b.2 - o.2) * (z.1 - o.1) = -(D * w.1) := by rw [z1, z2, hDe]; ring
        rw [this]
        have := mul_nonneg h.le w0
        linarith
      · have : (b.1 - a.1) * (z.2 - a.2) - (b.2 - a.2) * (z.1 - a.1) = D * (1 - w.1 - w.2) := by rw [z1, z2, hDe]; ring
        rw [this]
        exact mul_nonneg h.le (by linarith)
    · rintro ⟨h1, h2, h3⟩
      refine ⟨(-((b.1 - o.1) * (z.2 - o.2) - (b.2 - o.2) * (z.1 - o.1)) / D, ((a.1 - o.1) * (z.2 - o.2) - (a.2 - o.2) * (z.1 - o.1)) / D), ⟨?_, ?_, ?_⟩, ?_⟩
      · exact div_nonneg (by linarith) h.le
      · exact div_nonneg h1 h.le
      · rw [← add_div, div_le_one h, hDe]; linarith
      · rw [happ, Prod.ext_iff]
        have hne : D ≠ 0 := h.ne'
        simp only [Prod.fst_sub, Prod.snd_sub, Prod.fst_add, Prod.snd_add, Prod.fst_neg, Prod.snd_neg]
        constructor
        · field_simp
          rw [hDe]; ring
        · field_simp
          rw [hDe]; ring
  rw [← himg, measure_preimage_add_right, Measure.addHaar_image_linearMap, hdet, volume_stdTriangle, abs_of_pos h,
    ← ENNReal.ofReal_mul h.le]
  congr 1
  ring

/-! ## The fan of a convex set -/

/-- A corner of a set: two half planes with different directions that touch the set there. -/
def Corner (S : Set (Pt ℝ)) (o : Pt ℝ) : Prop :=
  ∃ θ φ : ℝ, sin (φ - θ) ≠ 0 ∧ ∀ z ∈ S, 0 ≤ cp (e θ) (z - o) ∧ 0 ≤ cp (e φ) (z - o)

/-- A corner does not lie strictly between two points of the set. -/
theorem Corner.ray {S : Set (Pt ℝ)} {o u w : Pt ℝ} (h : Corner S o) (hu : u ∈ S) (hw : w ∈ S) {t : ℝ}
    (e : w - o = scale t (u - o)) (ht : t < 0) : u = o := by
  obtain ⟨θ, φ, hs, hh⟩ := h
  obtain ⟨u1, u2⟩ := hh u hu
  obtain ⟨w1, w2⟩ := hh w hw
  rw [e, cp_scale] at w1 w2
  have z1 : cp (Polygon.e θ) (u - o) = 0 := by nlinarith
  have z2 : cp (Polygon.e φ) (u - o) = 0 := by nlinarith
  have key : ∀ v : Pt ℝ, cp (Polygon.e θ) v = 0 → cp (Polygon.e φ) v = 0 → v = 0 := by
    intro v h1 h2
    rw [sin_sub] at hs
    simp only [cp, Polygon.e] at h1 h2
    have a : (sin φ * cos θ - cos φ * sin θ) * v.1 = 0 := by linear_combination cos φ * h1 - cos θ * h2
    have b : (sin φ * cos θ - cos φ * sin θ) * v.2 = 0 := by linear_combination sin φ * h1 - sin θ * h2
    exact Prod.ext (by simpa [hs] using a) (by simpa [hs] using b)
  exact sub_eq_zero.mp (key _ z1 z2)

/-- Two vectors with cross product zero are multiples. -/
theorem exists_scale {u v : Pt ℝ} (hu : u ≠ 0) (h : cp u v = 0) : ∃ t : ℝ, v = scale t u := by
  simp only [cp] at h
  by_cases hx : u.1 = 0
  · have hy : u.2 ≠ 0 := fun hc => hu (Prod.ext hx hc)
    refine ⟨v.2 / u.2, Prod.ext ?_ ?_⟩
    · simp only [scale, hx, mul_zero]
      rw [hx] at h
      rcases mul_eq_zero.mp (show u.2 * v.1 = 0 by linarith) with h | h
      · exact absurd h hy
      · exact h
    · simp only [scale]; field_simp
  · refine ⟨v.1 / u.1, Prod.ext ?_ ?_⟩
    · simp only [scale]; field_simp
    · simp only [scale]; field_simp; linarith

/-- A convex set that contains the corners of a triangle contains the triangle. -/
theorem triangle_subset {S : Set (Pt ℝ)} {o a b z : Pt ℝ}
    (hconv : ∀ z ∈ S, ∀ w ∈ S, ∀ t : ℝ, 0 ≤ t → t ≤ 1 → z + scale t (w - z) ∈ S) (ho : o ∈ S) (haS : a ∈ S)
    (hbS : b ∈ S) (q : 0 < cross3 o a b) (hz : z ∈ triangle o a b) : z ∈ S := by
  obtain ⟨z1, z2, z3⟩ := hz
  -- barycentric coordinates
  set D := cross3 o a b with hDd
  set x := -cross3 o b z / D with hx
  set y := cross3 o a z / D with hy
  have x0 : 0 ≤ x := div_nonneg (by linarith) q.le
  have y0 : 0 ≤ y := div_nonneg z1 q.le
  have xy : x + y ≤ 1 := by
    rw [hx, hy, ← add_div, div_le_one q]
    have : cross3 a b z = D - (-cross3 o b z + cross3 o a z) := by
      rw [hDd]; simp only [cross3, cp, Prod.fst_sub, Prod.snd_sub]; ring
    linarith
  have hzz : z = o + scale x (a - o) + scale y (b - o) := by
    have hne := q.ne'
    have d1 : D * x = -cross3 o b z := by rw [hx]; field_simp
    have d2 : D * y = cross3 o a z := by rw [hy]; field_simp
    have hDe : D = cross3 o a b := hDd
    simp only [cross3, cp, Prod.fst_sub, Prod.snd_sub] at d1 d2 hDe
    ext
    · apply mul_left_cancel₀ hne
      simp only [scale, Prod.fst_add, Prod.fst_sub]
      linear_combination (a.1 - o.1) * (-d1) + (b.1 - o.1) * (-d2) + (z.1 - o.1) * hDe
    · apply mul_left_cancel₀ hne
      simp only [scale, Prod.snd_add, Prod.snd_sub]
      linear_combination (a.2 - o.2) * (-d1) + (b.2 - o.2) * (-d2) + (z.2 - o.2) * hDe
  rcases (show 0 ≤ x + y by linarith).lt_or_eq with g | g
  · have m1 : a + scale (y / (x + y)) (b - a) ∈ S :=
      hconv a haS b hbS _ (by positivity) (by rw [div_le_one g]; linarith)
    have m2 := hconv o ho _ m1 (x + y) g.le xy
    have : z = o + scale (x + y) (a + scale (y / (x + y)) (b - a) - o) := by
      rw [hzz]
      ext <;> simp only [scale, Prod.fst_add, Prod.snd_add, Prod.fst_sub, Prod.snd_sub] <;> field_simp <;> ring
    rw [this]; exact m2
  · have ex : x = 0 := by linarith
    have ey : y = 0 := by linarith
    rw [hzz, ex, ey]
    have : o + scale 0 (a - o) + scale 0 (b - o) = o := by ext <;> simp [scale]
    rw [this]; exact ho

theorem fan_area_aux {S : Set (Pt ℝ)} {o v1 : Pt ℝ} (hconv : ∀ z ∈ S, ∀ w ∈ S, ∀ t : ℝ, 0 ≤ t → t ≤ 1 → z + scale t (w - z) ∈ S)
    (ho : o ∈ S) (hc : Corner S o) (h1S : v1 ∈ S) (h1 : v1 ≠ o) (hS1 : ∀ z ∈ S, 0 ≤ cross3 o v1 z) :
    ∀ (l : List (Pt ℝ)) (a : Pt ℝ), (∀ v ∈ a :: l, v ∈ S ∧ v ≠ o) →
      List.IsChain (fun u v => ∀ z ∈ S, 0 ≤ cross3 u v z) (a :: l) →
      (∀ z ∈ S, 0 ≤ cross3 ((a :: l).getLast (by simp)) o z) →
      volume (S ∩ {z : ℝ × ℝ | 0 ≤ cross3 o a z}) = ENNReal.ofReal (fan o (a :: l) / 2) ∧ 0 ≤ fan o (a :: l) := by
  have flip : ∀ u z : Pt ℝ, cross3 u o z = - cross3 o u z := fun u z => by
    simp only [cross3, cp, Prod.fst_sub, Prod.snd_sub]; ring
  -- of two vertices in a row, a point to the right of the first is not strictly to the left of the second
  have before : ∀ a b z : Pt ℝ, a ∈ S → a ≠ o → b ∈ S → z ∈ S → (∀ z ∈ S, 0 ≤ cross3 a b z) → 0 < cross3 o b z →
      0 ≤ cross3 o a z := by
    intro a b z ha hao hb hz hab hbz
    by_contra hn
    push Not at hn
    have p1 := hS1 a ha
    have p2 := hS1 b hb
    have p3 := hS1 z hz
    have p4 : 0 ≤ cross3 o a b := by
      have := hab o ho
      have e : cross3 a b o = cross3 o a b := by simp only [cross3, cp, Prod.fst_sub, Prod.snd_sub]; ring
      rwa [e] at this
    have pl : cross3 o v1 a * cross3 o b z = cross3 o v1 b * cross3 o a z - cross3 o v1 z * cross3 o a b := by
      simp only [cross3, cp, Prod.fst_sub, Prod.snd_sub]; ring
    rcases p1.lt_or_eq with q | q
    · have := mul_pos q hbz
      nlinarith [mul_nonneg p2 (neg_nonneg.mpr hn.le), mul_nonneg p3 p4]
    · obtain ⟨t, ht⟩ := exists_scale (sub_ne_zero.mpr h1) (show cp (v1 - o) (a - o) = 0 from q.symm)
      have hz' : cross3 o a z = t * cross3 o v1 z := by
        unfold cross3; rw [ht, scale_cp]
      have ht0 : t < 0 := by
        by_contra hh
        push Not at hh
        have := mul_nonneg hh p3
        linarith
      exact h1 (hc.ray h1S ha ht ht0)
  intro l
  induction l with
  | nil =>
    intro a ha _ hlast
    simp only [fan, zero_div, ENNReal.ofReal_zero, le_refl, and_true]
    apply measure_mono_null _ (volume_line (ha a (by simp)).2)
    rintro z ⟨hz, hz'⟩
    have := hlast z hz
    simp only [List.getLast_singleton] at this
    rw [flip] at this
    exact le_antisymm (by linarith) hz'
  | cons b l ih =>
    intro a ha hch hlast
    rw [List.isChain_cons_cons] at hch
    obtain ⟨ih1, ih2⟩ := ih b (fun v hv => ha v (List.mem_cons_of_mem _ hv)) hch.2 (by simpa using hlast)
    obtain ⟨haS, hao⟩ := ha a (by simp)
    obtain ⟨hbS, hbo⟩ := ha b (by simp)
    have hD : 0 ≤ cross3 o a b := by
      have := hch.1 o ho
      have e : cross3 a b o = cross3 o a b := by simp only [cross3, cp, Prod.fst_sub, Prod.snd_sub]; ring
      rwa [e] at this
    have hfan : fan o (a :: b :: l) = cross3 o a b + fan o (b :: l) := rfl
    refine ⟨?_, by rw [hfan]; linarith⟩
    have hm : MeasurableSet {z : ℝ × ℝ | cross3 o b z ≤ 0} :=
      (isClosed_le (continuous_cross3 o b) continuous_const).measurableSet
    rw [← measure_inter_add_sdiff (S ∩ {z : ℝ × ℝ | 0 ≤ cross3 o a z}) hm, hfan, add_div,
      ENNReal.ofReal_add (by linarith) (by linarith)]
    congr 1
    · -- the triangle
      rcases hD.lt_or_eq with q | q
      · rw [← volume_triangle q]
        congr 1
        ext z
        constructor
        · rintro ⟨⟨hz, z1⟩, z2⟩
          exact ⟨z1, z2, hch.1 z hz⟩
        · rintro ⟨z1, z2, z3⟩
          refine ⟨⟨?_, z1⟩, z2⟩
          exact triangle_subset hconv ho haS hbS q ⟨z1, z2, z3⟩
      · rw [← q, zero_div, ENNReal.ofReal_zero]
        apply measure_mono_null _ (volume_line hao)
        rintro z ⟨⟨hz, z1⟩, z2⟩
        obtain ⟨t, ht⟩ := exists_scale (sub_ne_zero.mpr hao) (show cp (a - o) (b - o) = 0 from q.symm)
        have hzb : cross3 o b z = t * cross3 o a z := by unfold cross3; rw [ht, scale_cp]
        have ht0 : 0 < t := by
          by_contra hh
          push Not at hh
          rcases hh.lt_or_eq with g | g
          · exact hao (hc.ray haS hbS ht g)
          · apply hbo
            rw [g] at ht
            have : b - o = 0 := by rw [ht]; ext <;> simp [scale]
            exact sub_eq_zero.mp this
        have z2' : t * cross3 o a z ≤ 0 := hzb ▸ z2
        have z1' : 0 ≤ cross3 o a z := z1
        exact le_antisymm (by nlinarith) z1'
    · rw [← ih1]
      apply measure_congr
      have hae : ∀ᵐ z : ℝ × ℝ, cross3 o b z ≠ 0 := by
        rw [ae_iff]; simpa using volume_line hbo
      filter_upwards [hae] with z hz
      apply propext
      constructor
      · rintro ⟨⟨h1, -⟩, h2⟩
        exact ⟨h1, (not_le.mp (show ¬ cross3 o b z ≤ 0 from h2)).le⟩
      · rintro ⟨h1, h2⟩
        have h3 : 0 < cross3 o b z := lt_of_le_of_ne h2 (Ne.symm hz)
        exact ⟨⟨h1, before a b z haS hao hbS h1 hch.1 h3⟩, not_le.mpr h3⟩

/-- **Area of a convex set by the fan of its corners.**  If a convex set lies to the left of each step of a closed
walk through points of the set that starts in a corner and returns to it once, then the fan of the walk is twice its
area. -/
theorem fan_area {S : Set (Pt ℝ)} {o v1 : Pt ℝ} {l : List (Pt ℝ)}
    (hconv : ∀ z ∈ S, ∀ w ∈ S, ∀ t : ℝ, 0 ≤ t → t ≤ 1 → z + scale t (w - z) ∈ S) (ho : o ∈ S) (hc : Corner S o)
    (hl : ∀ v ∈ v1 :: l, v ∈ S ∧ v ≠ o)
    (hch : List.IsChain (fun u v => ∀ z ∈ S, 0 ≤ cross3 u v z) (o :: v1 :: l))
    (hlast : ∀ z ∈ S, 0 ≤ cross3 ((v1 :: l).getLast (by simp)) o z) :
    volume S = ENNReal.ofReal (twiceArea (o :: v1 :: l) / 2) ∧ 0 ≤ twiceArea (o :: v1 :: l) := by
  rw [List.isChain_cons_cons] at hch
  have h := fan_area_aux hconv ho hc (hl v1 (by simp)).1 (hl v1 (by simp)).2 hch.1 l v1 hl hch.2 hlast
  have e : S ∩ {z : ℝ × ℝ | 0 ≤ cross3 o v1 z} = S := Set.inter_eq_left.mpr hch.1
  rw [e] at h
  exact h

end Verif.Polygon
