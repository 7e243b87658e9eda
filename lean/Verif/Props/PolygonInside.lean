import Verif.Lemmas.PolyFound

/-!
Convex polygons: the point-in-polygon test (math/polygon2d.cc:235-271), the bounding box (polygon2d.cc:506-531) and the
area (polygon2d.cc:155-177).
-/

namespace Verif.Polygon

open Real MeasureTheory

/-! ## Supporting vertices -/

/-- In each direction there is a vertex such that the polygon lies to the left of it. -/
theorem Ring.support {V : ℕ → Pt ℝ} {n : ℕ} {α : ℕ → ℝ} (R : Ring V n α) (θ : ℝ) :
    ∃ i, ∀ z ∈ region V α, 0 ≤ cp (e θ) (z - V i) := by
  have hn := R.pos
  -- count the direction from the first edge on
  have h2pi : (0 : ℝ) < 2 * π := by positivity
  set k := ⌈(α 0 - θ) / (2 * π)⌉ with hk
  have k1 : (α 0 - θ) / (2 * π) ≤ k := Int.le_ceil _
  rw [div_le_iff₀ h2pi] at k1
  set θ' := θ + k * (2 * π) with hθ
  have hc : e θ' = e θ := by
    simp only [e, hθ, cos_add_int_mul_two_pi, sin_add_int_mul_two_pi]
  have h0 : α 0 ≤ θ' := by rw [hθ]; linarith
  -- the last edge before the direction
  have hex : ∃ i, θ' < α i := by
    obtain ⟨N, hN⟩ := exists_nat_gt ((θ' - α 0) / (2 * π))
    refine ⟨0 + n * N, ?_⟩
    rw [R.aper_mul]
    rw [div_lt_iff₀ h2pi] at hN
    linarith
  classical
  have hf := Nat.find_spec hex
  rcases hi : Nat.find hex with _ | i
  · rw [hi] at hf; linarith
  · rw [hi] at hf
    have hm : α i ≤ θ' := not_lt.mp (Nat.find_min hex (by omega))
    have hs := R.step i
    refine ⟨i + 1, fun z hz => ?_⟩
    have := R.wedge (θ := θ' - π) (a := i) (by linarith) (by linarith) (by linarith) hz
    have e1 := cp_e_add_pi (θ' - π) (z - V (i + 1))
    rw [sub_add_cancel, hc] at e1
    rw [e1]; linarith

/-- A half plane that contains the vertices contains the polygon. -/
theorem Ring.half_plane {V : ℕ → Pt ℝ} {n : ℕ} {α : ℕ → ℝ} (R : Ring V n α) {θ : ℝ} {w : Pt ℝ}
    (h : ∀ i < n, 0 ≤ cp (e θ) (V i - w)) {z : Pt ℝ} (hz : z ∈ region V α) : 0 ≤ cp (e θ) (z - w) := by
  obtain ⟨i, hi⟩ := R.support θ
  have h1 := hi z hz
  have h2 := h (i % n) (Nat.mod_lt _ (by have := R.pos; omega))
  rw [R.per_mod] at h2
  have : z - w = (z - V i) + (V i - w) := by abel
  rw [this, cp_add]; linarith

/-! ## Bounding boxes -/

theorem foldl_elemMin_le : ∀ (l : List (Pt ℝ)) (a : Pt ℝ), (l.foldl elemMin a).1 ≤ a.1 ∧ (l.foldl elemMin a).2 ≤ a.2 ∧
    ∀ v ∈ l, (l.foldl elemMin a).1 ≤ v.1 ∧ (l.foldl elemMin a).2 ≤ v.2 := by
  intro l
  induction l with
  | nil => intro a; simp
  | cons b l ih =>
    intro a
    obtain ⟨h1, h2, h3⟩ := ih (elemMin a b)
    simp only [List.foldl_cons]
    have a1 : (elemMin a b).1 ≤ a.1 := min_le_left _ _
    have a2 : (elemMin a b).2 ≤ a.2 := min_le_left _ _
    have b1 : (elemMin a b).1 ≤ b.1 := min_le_right _ _
    have b2 : (elemMin a b).2 ≤ b.2 := min_le_right _ _
    refine ⟨h1.trans a1, h2.trans a2, fun v hv => ?_⟩
    rcases List.mem_cons.mp hv with rfl | g
    · exact ⟨h1.trans b1, h2.trans b2⟩
    · exact h3 v g

theorem le_foldl_elemMax : ∀ (l : List (Pt ℝ)) (a : Pt ℝ), a.1 ≤ (l.foldl elemMax a).1 ∧ a.2 ≤ (l.foldl elemMax a).2 ∧
    ∀ v ∈ l, v.1 ≤ (l.foldl elemMax a).1 ∧ v.2 ≤ (l.foldl elemMax a).2 := by
  intro l
  induction l with
  | nil => intro a; simp
  | cons b l ih =>
    intro a
    obtain ⟨h1, h2, h3⟩ := ih (elemMax a b)
    simp only [List.foldl_cons]
    have a1 : a.1 ≤ (elemMax a b).1 := le_max_left _ _
    have a2 : a.2 ≤ (elemMax a b).2 := le_max_left _ _
    have b1 : b.1 ≤ (elemMax a b).1 := le_max_right _ _
    have b2 : b.2 ≤ (elemMax a b).2 := le_max_right _ _
    refine ⟨a1.trans h1, a2.trans h2, fun v hv => ?_⟩
    rcases List.mem_cons.mp hv with rfl | g
    · exact ⟨b1.trans h1, b2.trans h2⟩
    · exact h3 v g

/-- The bounding box of a polygon contains its points. -/
def Boxed (P : Poly ℝ) : Prop := ∀ v ∈ P.pts, P.lo.1 ≤ v.1 ∧ P.lo.2 ≤ v.2 ∧ v.1 ≤ P.hi.1 ∧ v.2 ≤ P.hi.2

theorem build_boxed {pts : List (Pt ℝ)} {P : Poly ℝ} (h : build pts = some P) :
    Boxed P ∧ P.n = P.pts.length ∧ P.pts = pad pts := by
  unfold build at h
  rcases hp : pad pts with _ | ⟨a, l⟩
  · rw [hp] at h; cases h
  · rw [hp] at h
    simp only [Option.some.injEq] at h
    subst h
    refine ⟨?_, rfl, rfl⟩
    intro v hv
    obtain ⟨h1, h2, h3⟩ := foldl_elemMin_le l a
    obtain ⟨g1, g2, g3⟩ := le_foldl_elemMax l a
    rcases List.mem_cons.mp hv with rfl | g
    · exact ⟨h1, h2, g1, g2⟩
    · exact ⟨(h3 v g).1, (h3 v g).2, (g3 v g).1, (g3 v g).2⟩

section

variable {P Q : Poly ℝ} {α β : ℕ → ℝ}

theorem IsRing.v_eq (h : IsRing P α) {i : ℕ} (hi : i < P.n) : P.v i = P.pts[i]'(h.len ▸ hi) := by
  unfold Poly.v Poly.pt
  rw [Nat.mod_eq_of_lt hi, List.getD_eq_getElem?_getD, List.getElem?_eq_getElem (h.len ▸ hi)]; rfl

theorem IsRing.v_mem (h : IsRing P α) (i : ℕ) : P.v i ∈ P.pts := by
  have hn := h.ring.pos
  rw [← h.ring.per_mod, h.v_eq (Nat.mod_lt _ (by omega))]
  exact List.getElem_mem _

theorem IsRing.pts_eq (h : IsRing P α) : P.pts = (List.range P.n).map P.v := by
  apply List.ext_getElem
  · simp [h.len]
  · intro i h1 h2
    rw [List.getElem_map, List.getElem_range, h.v_eq (by rw [h.len]; exact h1)]

/-- **The bounding box contains the polygon.** -/
theorem mem_box (h : IsRing P α) (hb : Boxed P) {z : Pt ℝ} (hz : z ∈ region P.v α) :
    P.lo.1 ≤ z.1 ∧ P.lo.2 ≤ z.2 ∧ z.1 ≤ P.hi.1 ∧ z.2 ≤ P.hi.2 := by
  have hv : ∀ i, P.lo.1 ≤ (P.v i).1 ∧ P.lo.2 ≤ (P.v i).2 ∧ (P.v i).1 ≤ P.hi.1 ∧ (P.v i).2 ≤ P.hi.2 :=
    fun i => hb _ (h.v_mem i)
  refine ⟨?_, ?_, ?_, ?_⟩
  · have := h.ring.half_plane (θ := -(π / 2)) (w := P.lo) (fun i _ => by
      simp only [cp, e, cos_neg, cos_pi_div_two, sin_neg, sin_pi_div_two, Prod.fst_sub, Prod.snd_sub]
      linarith [(hv i).1]) hz
    simp only [cp, e, cos_neg, cos_pi_div_two, sin_neg, sin_pi_div_two, Prod.fst_sub, Prod.snd_sub] at this
    linarith
  · have := h.ring.half_plane (θ := 0) (w := P.lo) (fun i _ => by
      simp only [cp, e, cos_zero, sin_zero, Prod.fst_sub, Prod.snd_sub]
      linarith [(hv i).2.1]) hz
    simp only [cp, e, cos_zero, sin_zero, Prod.fst_sub, Prod.snd_sub] at this
    linarith
  · have := h.ring.half_plane (θ := π / 2) (w := P.hi) (fun i _ => by
      simp only [cp, e, cos_pi_div_two, sin_pi_div_two, Prod.fst_sub, Prod.snd_sub]
      linarith [(hv i).2.2.1]) hz
    simp only [cp, e, cos_pi_div_two, sin_pi_div_two, Prod.fst_sub, Prod.snd_sub] at this
    linarith
  · have := h.ring.half_plane (θ := π) (w := P.hi) (fun i _ => by
      simp only [cp, e, cos_pi, sin_pi, Prod.fst_sub, Prod.snd_sub]
      linarith [(hv i).2.2.2]) hz
    simp only [cp, e, cos_pi, sin_pi, Prod.fst_sub, Prod.snd_sub] at this
    linarith

/-- **The test of the bounding boxes** rejects only polygons without a common point. -/
theorem maybeIntersect_sound (hP : IsRing P α) (hQ : IsRing Q β) (bP : Boxed P) (bQ : Boxed Q)
    (h : maybeIntersect P Q = false) : common P Q α β = ∅ := by
  rw [Set.eq_empty_iff_forall_notMem]
  rintro z ⟨z1, z2⟩
  obtain ⟨a1, a2, a3, a4⟩ := mem_box hP bP z1
  obtain ⟨b1, b2, b3, b4⟩ := mem_box hQ bQ z2
  unfold maybeIntersect at h
  split_ifs at h with hc
  rcases hc with g | g | g | g <;> linarith

/-! ## Points in polygons -/

/-- The range that is left after the bisection: the point is to the left of the ray to its start, and to the right of
the ray to its end. -/
structure Range (P : Poly ℝ) (p : Pt ℝ) (s e : ℕ) : Prop where
  lt : s + 3 ≤ e
  le : e ≤ P.n
  lo : s = 0 ∨ 0 ≤ cp (P.pt s - P.pt 0) (p - P.pt 0)
  hi : e = P.n ∨ cp (P.pt e - P.pt 0) (p - P.pt 0) < 0

theorem bisect_range (p : Pt ℝ) : ∀ (f s e : ℕ), Range P p s e →
    Range P p (bisect P p f s e).1 (bisect P p f s e).2 := by
  intro f
  induction f with
  | zero => intro s e h; exact h
  | succ f ih =>
    intro s e h
    unfold bisect
    have h1 := h.lt
    have h2 := h.le
    by_cases hc : 10 < e - s
    · rw [if_pos hc]
      simp only
      by_cases hm : 0 ≤ cp (P.pt ((e + s) / 2) - P.pt 0) (p - P.pt 0)
      · rw [if_pos hm]
        exact ih _ _ ⟨by omega, h2, Or.inr hm, h.hi⟩
      · rw [if_neg hm]
        exact ih _ _ ⟨by omega, by omega, h.lo, Or.inr (not_le.mp hm)⟩
    · rw [if_neg hc]; exact h

theorem edgesLeft_iff (p : Pt ℝ) : ∀ (k i : ℕ),
    edgesLeft P p k i = true ↔ ∀ j, i ≤ j → j < i + k → 0 ≤ cp (P.pt (j + 1) - P.pt j) (p - P.pt j) := by
  intro k
  induction k with
  | zero => intro i; simp only [edgesLeft, true_iff]; intro j h1 h2; omega
  | succ k ih =>
    intro i
    unfold edgesLeft
    split_ifs with h
    · simp only [Bool.false_eq_true, false_iff]
      intro hh
      exact absurd (hh i le_rfl (by omega)) (not_le.mpr h)
    · rw [ih]
      constructor
      · intro hh j h1 h2
        rcases Nat.lt_or_ge i j with g | g
        · exact hh j g (by omega)
        · have : j = i := by omega
          rw [this]; exact not_lt.mp h
      · intro hh j h1 h2
        exact hh j (by omega) (by omega)

/-- **The point-in-polygon test is exact.** -/
theorem pointInside_iff (hP : IsRing P α) (hb : Boxed P) (p : Pt ℝ) : pointInside P p = true ↔ p ∈ region P.v α := by
  have hn := hP.ring.pos
  have hpt : ∀ i, i < P.n → P.pt i = P.v i := fun i hi => by unfold Poly.v; rw [Nat.mod_eq_of_lt hi]
  have h0 : P.pt 0 = P.v 0 := hpt 0 (by omega)
  have hlast : P.v P.n = P.v 0 := by have := hP.ring.per 0; rwa [zero_add] at this
  -- the side of an edge in the code
  have side : ∀ i, ∃ r : ℝ, 0 < r ∧ cp (P.v (i + 1) - P.v i) (p - P.v i) = r * ht P.v α i p := fun i => by
    obtain ⟨r, hr, er⟩ := hP.ring.edge i
    exact ⟨r, hr, by rw [er, scale_cp]; rfl⟩
  have side' : ∀ i, 0 ≤ cp (P.v (i + 1) - P.v i) (p - P.v i) ↔ 0 ≤ ht P.v α i p := fun i => by
    obtain ⟨r, hr, er⟩ := side i
    rw [er]
    exact ⟨fun h => nonneg_of_mul_nonneg_right h hr, fun h => by positivity⟩
  have hr : Range P p (bisect P p P.n 0 P.n).1 (bisect P p P.n 0 P.n).2 :=
    bisect_range p _ _ _ ⟨by omega, le_rfl, Or.inl rfl, Or.inl rfl⟩
  unfold pointInside
  rw [if_neg (by omega)]
  generalize bisect P p P.n 0 P.n = r at hr
  obtain ⟨s, en⟩ := r
  obtain ⟨l1, l2, l3, l4⟩ := hr
  simp only at l1 l2 l3 l4 ⊢
  -- the edges that are tested
  have tested : (¬ edgesLeft P p (en - 1 - s) s = false ∧ ¬ (s < en ∧ cp (P.segment (en - 1)) (p - P.pt (en - 1)) < 0)) ↔
      ∀ i, s ≤ i → i < en → 0 ≤ ht P.v α i p := by
    rw [Bool.not_eq_false, edgesLeft_iff]
    have hseg : P.segment (en - 1) = P.v (en - 1 + 1) - P.v (en - 1) := by
      unfold Poly.segment
      have := next_mod P (by omega) (en - 1)
      rw [Nat.mod_eq_of_lt (by omega)] at this
      rw [this, hpt (en - 1) (by omega)]; rfl
    rw [hseg, hpt (en - 1) (by omega)]
    constructor
    · rintro ⟨g1, g2⟩ i h1 h2
      rw [← side']
      rcases Nat.lt_or_ge i (en - 1) with h | h
      · have := g1 i h1 (by omega)
        rwa [hpt _ (by omega), hpt _ (by omega)] at this
      · have : i = en - 1 := by omega
        rw [this]
        exact not_lt.mp (fun hc => g2 ⟨by omega, hc⟩)
    · intro hh
      refine ⟨fun j h1 h2 => ?_, ?_⟩
      · rw [hpt _ (by omega), hpt _ (by omega), side']
        exact hh j h1 (by omega)
      · rintro ⟨-, hc⟩
        have := (side' (en - 1)).mpr (hh (en - 1) (by omega) (by omega))
        linarith
  constructor
  · intro h
    split_ifs at h with c1 c2 c3
    have ht' := tested.mp ⟨c2, c3⟩
    -- the rays from the first vertex
    set f : ℕ → ℝ := fun i => cross3 (P.v 0) (P.v i) p with hf
    have fpt : ∀ i, i < P.n → cp (P.pt i - P.pt 0) (p - P.pt 0) = f i := fun i hi => by rw [hpt i hi, h0]; rfl
    have hE : ∃ E, s + 2 ≤ E ∧ E ≤ P.n - 1 ∧ E ≤ en ∧ f E ≤ 0 := by
      by_cases hen : en = P.n
      · refine ⟨P.n - 1, by omega, le_rfl, by omega, ?_⟩
        have h1 := (side' (P.n - 1)).mpr (ht' (P.n - 1) (by omega) (by omega))
        rw [Nat.sub_add_cancel (by omega), hlast] at h1
        have : f (P.n - 1) = - cp (P.v 0 - P.v (P.n - 1)) (p - P.v (P.n - 1)) := by
          simp only [hf, cross3, cp, Prod.fst_sub, Prod.snd_sub]; ring
        linarith
      · rcases l4 with g | g
        · exact absurd g hen
        · rw [fpt en (by omega)] at g
          exact ⟨en, by omega, by omega, le_rfl, g.le⟩
    obtain ⟨E, E1, E2, E3, E4⟩ := hE
    have hstart : ∃ i, s ≤ i ∧ 1 ≤ i ∧ i < E ∧ 0 ≤ f i := by
      rcases Nat.eq_zero_or_pos s with hs | hs
      · refine ⟨1, by omega, le_rfl, by omega, ?_⟩
        have := (side' 0).mpr (ht' 0 (by omega) (by omega))
        exact this
      · refine ⟨s, le_rfl, hs, by omega, ?_⟩
        rcases l3 with g | g
        · omega
        · rwa [fpt s (by omega)] at g
    -- the sector of the point
    have hsec : ∃ i, s ≤ i ∧ 1 ≤ i ∧ i < E ∧ 0 ≤ f i ∧ f (i + 1) ≤ 0 := by
      by_contra hno
      push Not at hno
      obtain ⟨i, i1, i2, i3, i4⟩ := hstart
      have : ∀ j, i ≤ j → j ≤ E → 0 ≤ f j := by
        intro j hj
        induction j, hj using Nat.le_induction with
        | base => intro _; exact i4
        | succ j hj ih =>
          intro hjE
          exact (hno j (by omega) (by omega) (by omega) (ih (by omega))).le
      have hlast := hno (E - 1) (by omega) (by omega) (by omega) (this (E - 1) (by omega) (by omega))
      rw [Nat.sub_add_cancel (by omega)] at hlast
      linarith
    obtain ⟨i, i1, i2, i3, i4, i5⟩ := hsec
    have hpos : 0 < cross3 (P.v 0) (P.v i) (P.v (i + 1)) := by
      have h1 := hP.ring.ht_vertex_offset_pos i (P.n - i) (by omega) (by omega)
      rw [Nat.add_sub_cancel' (by omega), hlast] at h1
      obtain ⟨r, hr, er⟩ := hP.ring.edge i
      have : cross3 (P.v 0) (P.v i) (P.v (i + 1)) = r * ht P.v α i (P.v 0) := by
        have : cross3 (P.v 0) (P.v i) (P.v (i + 1)) = cp (P.v (i + 1) - P.v i) (P.v 0 - P.v i) := by
          simp only [cross3, cp, Prod.fst_sub, Prod.snd_sub]; ring
        rw [this, er, scale_cp]; rfl
      rw [this]; positivity
    exact triangle_subset (fun z hz w hw t t0 t1 => region_comb hz hw t0 t1) (hP.ring.vertex_mem 0) (hP.ring.vertex_mem i)
      (hP.ring.vertex_mem (i + 1)) hpos ⟨i4, i5, (side' i).mpr (ht' i i1 (by omega))⟩
  · intro h
    obtain ⟨a1, a2, a3, a4⟩ := mem_box hP hb h
    rw [if_neg (by rintro (g | g | g | g) <;> linarith)]
    obtain ⟨t1, t2⟩ := tested.mpr (fun i _ _ => h i)
    rw [if_neg t1, if_neg t2]

/-! ## The area -/

theorem IsRing.walk (hP : IsRing P α) : Walk (region P.v α) P.pts := by
  have hn := hP.ring.pos
  have hpts := hP.pts_eq
  obtain ⟨m, hm⟩ : ∃ m, P.n = m + 2 := ⟨P.n - 2, by omega⟩
  have hlast : P.v P.n = P.v 0 := by have := hP.ring.per 0; rwa [zero_add] at this
  have side : ∀ i, ∀ z ∈ region P.v α, 0 ≤ cross3 (P.v i) (P.v (i + 1)) z := fun i z hz => by
    obtain ⟨r, hr, er⟩ := hP.ring.edge i
    unfold cross3
    rw [er, scale_cp]
    exact mul_nonneg hr.le (hz i)
  have hl : P.pts = P.v 0 :: P.v 1 :: (List.range m).map (fun i => P.v (i + 2)) := by
    rw [hpts, hm, List.range_succ_eq_map, List.range_succ_eq_map]
    simp [List.map_map, Function.comp_def]
  refine ⟨by rw [← hP.len]; omega, P.v 0, P.v 1, _, hl, hP.ring.vertex_mem 0, ?_, ?_, ?_, ?_⟩
  · refine ⟨α 0, α (P.n - 1), ?_, fun z hz => ⟨hz 0, ?_⟩⟩
    · have hs := hP.ring.step (P.n - 1)
      have ha := hP.ring.aper 0
      rw [zero_add] at ha
      rw [Nat.sub_add_cancel (by omega), ha] at hs
      have := sin_neg_diff (x := α (P.n - 1)) (y := α 0 + 2 * π) hs.1 hs.2
      rw [show α (P.n - 1) - (α 0 + 2 * π) = α (P.n - 1) - α 0 - 2 * π by ring, sin_sub_two_pi] at this
      exact this.ne
    · have h1 := hz (P.n - 1)
      have h2 := hP.ring.ht_next (P.n - 1)
      rw [Nat.sub_add_cancel (by omega), hlast] at h2
      have : ht P.v α (P.n - 1) z = ht P.v α (P.n - 1) (P.v 0) + cp (e (α (P.n - 1))) (z - P.v 0) := by
        rw [← ht_add]; congr 1; abel
      linarith
  · intro u hu
    have : ∃ j, 0 < j ∧ j < P.n ∧ u = P.v j := by
      rcases List.mem_cons.mp hu with rfl | g
      · exact ⟨1, by omega, by omega, rfl⟩
      · obtain ⟨i, hi, rfl⟩ := List.mem_map.mp g
        exact ⟨i + 2, by omega, by have := List.mem_range.mp hi; omega, rfl⟩
    obtain ⟨j, j0, jn, rfl⟩ := this
    refine ⟨hP.ring.vertex_mem j, fun hc => ?_⟩
    rcases Nat.lt_or_ge 1 j with g | g
    · have := hP.ring.ht_vertex_offset_pos 0 j jn g
      rw [zero_add, hc, Ring.ht_self] at this
      linarith
    · have : j = 1 := by omega
      subst this
      -- the second edge starts away from the first vertex
      have := hP.ring.ht_vertex_offset_pos 1 (P.n - 1) (by omega) (by omega)
      rw [Nat.add_sub_cancel' (by omega), hlast, ← hc, Ring.ht_self] at this
      linarith
  · rw [← hl, hpts]
    rw [List.isChain_iff_getElem]
    intro i hi
    simp only [List.getElem_map, List.getElem_range]
    exact side i
  · intro z hz
    have h1 := side (P.n - 1) z hz
    rw [Nat.sub_add_cancel (by omega), hlast] at h1
    have : (P.v 1 :: (List.range m).map (fun i => P.v (i + 2))).getLast (by simp) = P.v (P.n - 1) := by
      have e1 : (P.v 1 :: (List.range m).map (fun i => P.v (i + 2))) = (List.range (m + 1)).map (fun i => P.v (i + 1)) := by
        rw [List.range_succ_eq_map]; simp [List.map_map, Function.comp_def]
      simp only [e1, List.getLast_map, List.getLast_range]
      rw [hm]; rfl
    rw [this]; exact h1

/-- The area of what a walk surrounds. -/
theorem Walk.area {S : Set (Pt ℝ)} {l : List (Pt ℝ)}
    (hconv : ∀ z ∈ S, ∀ w ∈ S, ∀ t : ℝ, 0 ≤ t → t ≤ 1 → z + scale t (w - z) ∈ S) (h : Walk S l) :
    volume S = ENNReal.ofReal (twiceArea l / 2) ∧ 0 ≤ twiceArea l := by
  obtain ⟨o, v, t, rfl, h1, h2, h3, h4, h5⟩ := h.walk
  exact fan_area hconv h1 h2 h3 h4 h5

/-- **The area of a convex polygon** is the area of the points to the left of its edges. -/
theorem polygon_area (hP : IsRing P α) :
    volume (region P.v α) = ENNReal.ofReal (twiceArea P.pts / 2) ∧ 0 ≤ twiceArea P.pts :=
  hP.walk.area (fun _ hz _ hw _ t0 t1 => region_comb hz hw t0 t1)

end

end Verif.Polygon
