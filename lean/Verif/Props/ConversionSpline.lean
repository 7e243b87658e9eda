import Verif.Props.ConversionRoadTensor
import Mathlib.Analysis.Calculus.Deriv.Pow
import Mathlib.Analysis.Calculus.Deriv.Mul
import Mathlib.Analysis.Calculus.Deriv.Add

/-! Geometry of the samples of the road graph. -/

namespace Verif.Conversion

noncomputable section

/-! ### Polylines -/

/-- The curve passes through the vertices. -/
theorem onCurve_vertex {P : List V3} {i : ℕ} {p : V3} (h : OnCurve P i p) : P[i]? = some p := by
  obtain ⟨i', b, c, h1, h2, hb, hc, h⟩ := h
  have e : i' = i := by
    have e1 : i' ≤ i := by exact_mod_cast h1
    have e2 : i < i' + 1 := by exact_mod_cast h2
    omega
  subst e
  rw [hb]
  simp only [Option.some.injEq]
  rcases h with ⟨_, h⟩ | ⟨_, a, d, _, _, h⟩ <;> rw [h] <;> ext <;> simp [catmullRom]

/-- The pieces meet: at the end of a piece the formula gives the next vertex. -/
theorem catmullRom_ends (a b c d : ℝ) : catmullRom a b c d 0 = b ∧ catmullRom a b c d 1 = c := by
  constructor <;> unfold catmullRom <;> ring

/-- Two curved pieces meet with the same tangent: half the difference of the neighbours of the vertex. -/
theorem catmullRom_tangents (a b c d : ℝ) :
    HasDerivAt (catmullRom a b c d) ((c - a) / 2) 0 ∧ HasDerivAt (catmullRom a b c d) ((d - b) / 2) 1 := by
  have key : ∀ t, HasDerivAt (catmullRom a b c d)
      ((6 * t ^ 2 - 6 * t) * b + (3 * t ^ 2 - 4 * t + 1) * ((c - a) / 2) + (6 * t - 6 * t ^ 2) * c + (3 * t ^ 2 - 2 * t) * ((d - b) / 2)) t := by
    intro t
    have h3 : HasDerivAt (fun t : ℝ => t ^ 3) (3 * t ^ 2) t := by simpa using hasDerivAt_pow 3 t
    have h2 : HasDerivAt (fun t : ℝ => t ^ 2) (2 * t) t := by simpa using hasDerivAt_pow 2 t
    have h1 : HasDerivAt (fun t : ℝ => t) 1 t := hasDerivAt_id' t
    have e1 := (((h3.const_mul 2).sub (h2.const_mul 3)).add_const 1).mul_const b
    have e2 := (((h3.sub (h2.const_mul 2)).add h1)).mul_const ((c - a) / 2)
    have e3 := ((h2.const_mul 3).sub (h3.const_mul 2)).mul_const c
    have e4 := (h3.sub h2).mul_const ((d - b) / 2)
    have := ((e1.add e2).add e3).add e4
    have hfun : catmullRom a b c d = fun t => (2 * t ^ 3 - 3 * t ^ 2 + 1) * b + (t ^ 3 - 2 * t ^ 2 + t) * ((c - a) / 2) +
        (3 * t ^ 2 - 2 * t ^ 3) * c + (t ^ 3 - t ^ 2) * ((d - b) / 2) := rfl
    rw [hfun]
    refine this.congr_deriv ?_
    ring
  constructor
  · have := key 0
    refine this.congr_deriv ?_
    ring
  · have := key 1
    refine this.congr_deriv ?_
    ring

/-- If the spacing of the samples is a multiple of that of the vertices, the samples are vertices: every `m`-th one. -/
theorem inner_multiple {cfg : Config} {P Q : List V3} (hQ : InnerSamples cfg P Q) {m : ℕ} (hm : cfg.ratio = m) {k : ℕ}
    (hk : k < Q.length) : Q[k]? = P[k * m]? := by
  have h := hQ.2 k _ (List.getElem?_eq_getElem hk)
  have e : (k : ℝ) * cfg.ratio = ((k * m : ℕ) : ℝ) := by rw [hm]; push_cast; ring
  rw [e] at h
  rw [onCurve_vertex h, List.getElem?_eq_getElem hk]

/-- The sampling starts with the first vertex. -/
theorem polyline_first {cfg : Config} {P R : List V3} (h : PolylineSampling cfg P R) : R.head? = P.head? := by
  rcases h with ⟨hP, hR⟩ | ⟨Q, last, hl, hQ, h⟩
  · rw [hP, hR]
  · by_cases hne : Q = []
    · subst hne
      have hlen : P.length = 1 := by
        have h0 := (hQ.1 0).not.1 (by simp)
        have h1 : P ≠ [] := by rintro rfl; simp at hl
        have h2 := List.length_pos_iff.2 h1
        push Not at h0
        simp only [Nat.cast_zero, zero_mul] at h0
        have : (P.length : ℝ) ≤ 1 := by linarith
        have : P.length ≤ 1 := by exact_mod_cast this
        omega
      obtain ⟨a, rfl⟩ := List.length_eq_one_iff.1 hlen
      simp only [List.getLast?_singleton, Option.some.injEq] at hl
      subst hl
      rcases h with ⟨h, _⟩ | ⟨_, q, h, _⟩
      · rw [h]; rfl
      · simp at h
    · have hpos := List.length_pos_iff.2 hne
      have h0 := hQ.2 0 _ (List.getElem?_eq_getElem hpos)
      rw [Nat.cast_zero, zero_mul] at h0
      have hv := onCurve_vertex (i := 0) (by simpa using h0)
      have hhead : Q.head? = P.head? := by
        rw [List.head?_eq_getElem?, List.head?_eq_getElem?, hv, List.getElem?_eq_getElem hpos]
      rcases h with ⟨h, _⟩ | ⟨h, _⟩
      · rw [h, List.head?_append, hhead]
        cases hP : P.head? with
        | none =>
          rw [List.head?_eq_none_iff] at hP
          rw [hP] at hl
          simp at hl
        | some x => rfl
      · rw [h, hhead]

/-- The sampling ends at the last vertex or within a centimetre of it. -/
theorem polyline_last {cfg : Config} {P R : List V3} (h : PolylineSampling cfg P R) (hP : P ≠ []) :
    ∃ last r, P.getLast? = some last ∧ R.getLast? = some r ∧ (last.sub r).len ≤ 0.01 := by
  rcases h with ⟨hP', _⟩ | ⟨Q, last, hl, hQ, h⟩
  · exact absurd hP' hP
  · rcases h with ⟨h, _⟩ | ⟨h, q, hq, hd⟩
    · refine ⟨last, last, hl, by rw [h]; simp, ?_⟩
      have : (last.sub last).len = 0 := by
        simp [V3.len, V3.sqr, V3.sub]
      rw [this]
      norm_num
    · exact ⟨last, q, hl, by rw [h]; exact hq, hd⟩

/-- A straight road with equally spaced vertices is sampled on the line, at equal distances. -/
theorem onCurve_straight {P : List V3} {a v : V3} (hP : ∀ (i : ℕ) (q : V3), P[i]? = some q → q = a.add (v.smul i)) {u : ℝ} {p : V3}
    (h : OnCurve P u p) : p = a.add (v.smul u) := by
  obtain ⟨i, b, c, h1, h2, hb, hc, h⟩ := h
  have eb := hP i b hb
  have ec := hP (i + 1) c hc
  rcases h with ⟨_, h⟩ | ⟨hi, a', d, ha, hd, h⟩
  · rw [h, eb, ec]
    ext <;> simp only [V3.add, V3.smul] <;> push_cast <;> ring
  · have ea := hP (i - 1) a' ha
    have ed := hP (i + 2) d hd
    have ei : ((i - 1 : ℕ) : ℝ) = i - 1 := by rw [Nat.cast_sub (by omega)]; simp
    rw [h, ea, eb, ec, ed]
    ext <;> simp only [V3.add, V3.smul, catmullRom, ei] <;> push_cast <;> ring

/-! ### Polygons -/

theorem len_smul_ray (a b : V3) (s t : ℝ) :
    ((⟨a.x + t * (b.x - a.x), a.y + t * (b.y - a.y), a.z + t * (b.z - a.z)⟩ : V3).sub
      ⟨a.x + s * (b.x - a.x), a.y + s * (b.y - a.y), a.z + s * (b.z - a.z)⟩).len = |t - s| * (b.sub a).len := by
  have : ((⟨a.x + t * (b.x - a.x), a.y + t * (b.y - a.y), a.z + t * (b.z - a.z)⟩ : V3).sub
      ⟨a.x + s * (b.x - a.x), a.y + s * (b.y - a.y), a.z + s * (b.z - a.z)⟩).sqr = (t - s) ^ 2 * (b.sub a).sqr := by
    simp only [V3.sqr, V3.sub]
    ring
  unfold V3.len
  rw [this, Real.sqrt_mul (sq_nonneg _), Real.sqrt_sq_eq_abs]

/-- A side: it starts with its first end, and with its second end added the neighbours are at equal distances, below twice the spacing;
not below the spacing unless the whole side is. -/
theorem side_gaps {cfg : Config} {a b : V3} {S : List V3} (h : SideSampling cfg a b S) (hs : 0 < cfg.polygonSpacing) :
    ∃ g, g < 2 * cfg.polygonSpacing ∧ (cfg.polygonSpacing ≤ (b.sub a).len → cfg.polygonSpacing ≤ g) ∧
      (S ++ [b]).head? = some a ∧ (S ++ [b]).IsChain (fun p q => (q.sub p).len = g) ∧
      ∀ p ∈ S, ∃ t, 0 ≤ t ∧ t ≤ 1 ∧ p = ⟨a.x + t * (b.x - a.x), a.y + t * (b.y - a.y), a.z + t * (b.z - a.z)⟩ := by
  rcases h with ⟨h0, _⟩ | ⟨_, n, hn, h1, h2, h3, h4⟩
  · linarith
  have hn0 : (0 : ℝ) < n := by exact_mod_cast h1
  have hSb : ∀ j, j ≤ n → (S ++ [b])[j]? = some ⟨a.x + j / n * (b.x - a.x), a.y + j / n * (b.y - a.y), a.z + j / n * (b.z - a.z)⟩ := by
    intro j hj
    rcases Nat.lt_or_ge j n with hlt | hge
    · rw [List.getElem?_append_left (by omega), h4 j hlt]
    · have : j = n := by omega
      subst this
      rw [List.getElem?_append_right (by omega), hn, Nat.sub_self, List.getElem?_cons_zero, div_self hn0.ne']
      congr 1
      ext <;> simp
  refine ⟨(b.sub a).len / n, ?_, ?_, ?_, ?_, ?_⟩
  · rw [div_lt_iff₀ hn0]
    have : (n : ℝ) + 1 ≤ 2 * n := by
      have : (1 : ℝ) ≤ n := by exact_mod_cast h1
      linarith
    nlinarith
  · intro hL
    rw [le_div_iff₀ hn0]
    rcases h2 with h2 | h2
    · rw [h2]; simpa using hL
    · linarith
  · rw [List.head?_eq_getElem?, hSb 0 (by omega)]
    simp
  · rw [List.isChain_iff_getElem]
    intro j hj
    rw [List.length_append, hn] at hj
    simp only [List.length_cons, List.length_nil] at hj
    have e1 := hSb j (by omega)
    have e2 := hSb (j + 1) (by omega)
    rw [List.getElem?_eq_getElem (by rw [List.length_append, hn]; simp; omega)] at e1
    rw [List.getElem?_eq_getElem (by rw [List.length_append, hn]; simp; omega)] at e2
    simp only [Option.some.injEq] at e1 e2
    rw [e1, e2, len_smul_ray]
    have : ((j + 1 : ℕ) : ℝ) / n - j / n = 1 / n := by push_cast; field_simp; ring
    rw [this, abs_of_pos (by positivity)]
    ring
  · intro p hp
    obtain ⟨j, hj⟩ := List.getElem?_of_mem hp
    have hjn : j < n := by have := (List.getElem?_eq_some_iff.1 hj).1; omega
    rw [h4 j hjn] at hj
    simp only [Option.some.injEq] at hj
    refine ⟨j / n, by positivity, ?_, hj.symm⟩
    rw [div_le_one hn0]
    exact_mod_cast hjn.le

/-- The path along the sides from `a` over the vertices to `z`. -/
theorem path_gaps {cfg : Config} (hs : 0 < cfg.polygonSpacing) (z : V3) : ∀ (l : List V3) (a : V3) (pieces : List (List V3)),
    List.Forall₂ (fun (e : V3 × V3) S => SideSampling cfg e.1 e.2 S) ((a :: l).zip (l ++ [z])) pieces →
    (pieces.flatten ++ [z]).head? = some a ∧
    (pieces.flatten ++ [z]).IsChain (fun p q => (q.sub p).len < 2 * cfg.polygonSpacing) := by
  intro l
  induction l with
  | nil =>
    intro a pieces h
    simp only [List.nil_append, List.zip_cons_cons, List.zip_nil_right] at h
    cases h with
    | cons h1 h2 =>
      cases h2
      obtain ⟨g, hg, _, hh, hc, _⟩ := side_gaps h1 hs
      simp only [List.flatten_cons, List.flatten_nil, List.append_nil]
      refine ⟨hh, hc.imp ?_⟩
      intro p q hpq
      rw [hpq]
      exact hg
  | cons b l ih =>
    intro a pieces h
    simp only [List.cons_append, List.zip_cons_cons] at h
    cases h with
    | @cons _ S _ pieces' h1 h2 =>
      obtain ⟨hh', hc'⟩ := ih b pieces' (by simpa using h2)
      obtain ⟨g, hg, _, hh, hc, _⟩ := side_gaps h1 hs
      simp only [List.flatten_cons, List.append_assoc]
      generalize pieces'.flatten ++ [z] = T at *
      have hS : S ≠ [] := by
        rintro rfl
        rcases h1 with ⟨h0, _⟩ | ⟨_, n, hn, h1n, _⟩
        · linarith
        · simp at hn; omega
      cases T with
      | nil => simp at hh'
      | cons t T =>
        simp only [List.head?_cons, Option.some.injEq] at hh'
        subst hh'
        constructor
        · cases S with
          | nil => exact absurd rfl hS
          | cons s S => simpa using hh
        · rw [List.isChain_append]
          rw [List.isChain_append] at hc
          refine ⟨hc.1.imp ?_, hc', ?_⟩
          · intro p q hpq
            rw [hpq]
            exact hg
          · intro x hx y hy
            simp only [List.head?_cons, Option.mem_def, Option.some.injEq] at hy
            subst hy
            rw [hc.2.2 x hx t (by simp)]
            exact hg

/-- The samples of a polygon start and end at its first vertex, and neighbours are closer than twice the spacing. -/
theorem polygon_gaps_partial {cfg : Config} (hs : 0 < cfg.polygonSpacing) {P R : List V3} (h : PolygonSampling cfg P R) :
    R.head? = P.head? ∧ R.getLast? = P.head? ∧ R.IsChain (fun p q => (q.sub p).len < 2 * cfg.polygonSpacing) := by
  obtain ⟨first, pieces, hf, hR, hp⟩ := h
  cases P with
  | nil => simp at hf
  | cons a l =>
    simp only [List.head?_cons, Option.some.injEq] at hf
    subst hf
    obtain ⟨h1, h2⟩ := path_gaps hs a l a pieces (by simpa using hp)
    rw [hR]
    exact ⟨by simpa using h1, by simp, h2⟩

/-- Every vertex of a polygon is a sample. -/
theorem polygon_vertices {cfg : Config} {P R : List V3} (h : PolygonSampling cfg P R) : ∀ p ∈ P, p ∈ R := by
  obtain ⟨first, pieces, hf, hR, hp⟩ := h
  intro p hpP
  rw [hR, List.mem_append]
  left
  obtain ⟨i, hi⟩ := List.getElem?_of_mem hpP
  have hil := (List.getElem?_eq_some_iff.1 hi).1
  have hlen : (P.tail ++ [first]).length = P.length := by
    rw [List.length_append, List.length_tail]
    simp only [List.length_cons, List.length_nil]
    omega
  have hz : (P.zip (P.tail ++ [first]))[i]? = some (p, (P.tail ++ [first])[i]'(by omega)) := by
    rw [List.getElem?_zip_eq_some]
    exact ⟨hi, List.getElem?_eq_getElem _⟩
  obtain ⟨S, hS, hside⟩ := ListM.forall₂_exists_left hp (List.mem_of_getElem? hz)
  rw [List.mem_flatten]
  refine ⟨S, hS, ?_⟩
  rcases hside with ⟨_, h⟩ | ⟨_, n, hn, h1, _, _, h4⟩
  · rw [h]; simp
  · have := h4 0 (by omega)
    apply List.mem_of_getElem? (i := 0)
    rw [this]
    simp

/-- Every sample of a polygon is on one of its sides. -/
theorem polygon_outline {cfg : Config} {P R : List V3} (h : PolygonSampling cfg P R) {first : V3} (hf : P.head? = some first) :
    ∀ p ∈ R, ∃ e ∈ P.zip (P.tail ++ [first]), ∃ t, 0 ≤ t ∧ t ≤ 1 ∧
      p = ⟨e.1.x + t * (e.2.x - e.1.x), e.1.y + t * (e.2.y - e.1.y), e.1.z + t * (e.2.z - e.1.z)⟩ := by
  obtain ⟨first', pieces, hf', hR, hp⟩ := h
  rw [hf] at hf'
  simp only [Option.some.injEq] at hf'
  subst hf'
  intro p hpR
  rw [hR, List.mem_append] at hpR
  rcases hpR with hpR | hpR
  · rw [List.mem_flatten] at hpR
    obtain ⟨S, hS, hpS⟩ := hpR
    obtain ⟨e, he, hside⟩ := ListM.forall₂_exists_left hp.flip hS
    refine ⟨e, he, ?_⟩
    by_cases hs : 0 < cfg.polygonSpacing
    · obtain ⟨_, _, _, _, _, hon⟩ := side_gaps hside hs
      exact hon p hpS
    · rcases hside with ⟨_, h⟩ | ⟨h0, _⟩
      · rw [h] at hpS
        simp only [List.mem_singleton] at hpS
        subst hpS
        exact ⟨0, le_refl _, by norm_num, by ext <;> simp⟩
      · exact absurd h0 hs
  · simp only [List.mem_singleton] at hpR
    subst hpR
    cases P with
    | nil => simp at hf
    | cons a l =>
      simp only [List.head?_cons, Option.some.injEq] at hf
      subst hf
      have : ∃ b, (a, b) ∈ (a :: l).zip ((a :: l).tail ++ [a]) := by
        cases l with
        | nil => exact ⟨a, by simp⟩
        | cons b l => exact ⟨b, by simp⟩
      obtain ⟨b, hb⟩ := this
      exact ⟨(a, b), hb, 0, le_refl _, by norm_num, by ext <;> simp⟩

/-- The samples of a side are not "spaced apart by this value": on a side of 1.9 m with a spacing of 1 m there is no sample between its
ends, 1.9 m apart. -/
theorem polygon_spacing_violated (cfg : Config) (hc : cfg.polygonSpacing = 1) :
    SideSampling cfg ⟨0, 0, 0⟩ ⟨1.9, 0, 0⟩ [⟨0, 0, 0⟩] ∧ ∀ S, SideSampling cfg ⟨0, 0, 0⟩ ⟨1.9, 0, 0⟩ S → S = [⟨0, 0, 0⟩] := by
  have hlen : ((⟨1.9, 0, 0⟩ : V3).sub ⟨0, 0, 0⟩).len = 1.9 := by
    have : ((⟨1.9, 0, 0⟩ : V3).sub ⟨0, 0, 0⟩).sqr = 1.9 ^ 2 := by
      simp only [V3.sqr, V3.sub]
      norm_num
    unfold V3.len
    rw [this, Real.sqrt_sq (by norm_num)]
  have h1 : SideSampling cfg ⟨0, 0, 0⟩ ⟨1.9, 0, 0⟩ [⟨0, 0, 0⟩] := by
    right
    rw [hc, hlen]
    refine ⟨by norm_num, 1, rfl, le_refl _, Or.inl rfl, by norm_num, ?_⟩
    intro j hj
    have : j = 0 := by omega
    subst this
    simp
  exact ⟨h1, fun S hS => sideSampling_unique hS h1⟩

/-! ### Rigid motions -/

/-- A rigid motion: an affine map that keeps distances. -/
structure Rigid (φ : V3 → V3) : Prop where
  affine : ∃ m11 m12 m13 m21 m22 m23 m31 m32 m33 b1 b2 b3 : ℝ, ∀ p, φ p =
    ⟨m11 * p.x + m12 * p.y + m13 * p.z + b1, m21 * p.x + m22 * p.y + m23 * p.z + b2, m31 * p.x + m32 * p.y + m33 * p.z + b3⟩
  isometry : ∀ p q, ((φ p).sub (φ q)).len = (p.sub q).len

/-- The rotation that belongs to a motion. -/
def turn (φ : V3 → V3) (v : V3) : V3 := (φ v).sub (φ ⟨0, 0, 0⟩)

/-- A rotation of the plane by an angle with a translation is one. -/
theorem rigid_example (c s tx ty tz : ℝ) (h : c ^ 2 + s ^ 2 = 1) :
    Rigid fun p => ⟨c * p.x - s * p.y + tx, s * p.x + c * p.y + ty, p.z + tz⟩ := by
  refine ⟨⟨c, -s, 0, s, c, 0, 0, 0, 1, tx, ty, tz, ?_⟩, ?_⟩
  · intro p
    ext <;> simp only <;> ring
  · intro p q
    unfold V3.len
    congr 1
    simp only [V3.sqr, V3.sub]
    have : ∀ u w : ℝ, (c * u - s * w) * (c * u - s * w) + (s * u + c * w) * (s * u + c * w) = u * u + w * w := by
      intro u w
      have : (c * u - s * w) * (c * u - s * w) + (s * u + c * w) * (s * u + c * w) = (c ^ 2 + s ^ 2) * (u * u + w * w) := by ring
      rw [this, h, one_mul]
    have := this (p.x - q.x) (p.y - q.y)
    linarith

theorem onCurve_rigid {φ : V3 → V3} (hφ : Rigid φ) {P : List V3} {u : ℝ} {p : V3} (h : OnCurve P u p) : OnCurve (P.map φ) u (φ p) := by
  obtain ⟨⟨m11, m12, m13, m21, m22, m23, m31, m32, m33, b1, b2, b3, hm⟩, _⟩ := hφ
  obtain ⟨i, b, c, h1, h2, hb, hc, h⟩ := h
  refine ⟨i, φ b, φ c, h1, h2, by rw [List.getElem?_map, hb]; rfl, by rw [List.getElem?_map, hc]; rfl, ?_⟩
  rcases h with ⟨hi, h⟩ | ⟨hi, a, d, ha, hd, h⟩
  · left
    refine ⟨by rw [List.length_map]; exact hi, ?_⟩
    rw [h, hm, hm, hm]
    ext <;> simp only <;> ring
  · right
    refine ⟨hi, φ a, φ d, by rw [List.getElem?_map, ha]; rfl, by rw [List.getElem?_map, hd]; rfl, ?_⟩
    rw [h, hm, hm, hm, hm, hm]
    ext <;> simp only [catmullRom] <;> ring

theorem polyline_rigid {φ : V3 → V3} (hφ : Rigid φ) {cfg : Config} {P R : List V3} (h : PolylineSampling cfg P R) :
    PolylineSampling cfg (P.map φ) (R.map φ) := by
  rcases h with ⟨hP, hR⟩ | ⟨Q, last, hl, hQ, h⟩
  · exact Or.inl ⟨by rw [hP]; rfl, by rw [hR]; rfl⟩
  · refine Or.inr ⟨Q.map φ, φ last, by rw [List.getLast?_map, hl]; rfl, ⟨?_, ?_⟩, ?_⟩
    · intro k
      rw [List.length_map, List.length_map]
      exact hQ.1 k
    · intro k p hk
      rw [List.getElem?_map] at hk
      cases hq : Q[k]? with
      | none => rw [hq] at hk; simp at hk
      | some q =>
        rw [hq] at hk
        simp only [Option.map_some, Option.some.injEq] at hk
        rw [← hk]
        exact onCurve_rigid hφ (hQ.2 k q hq)
    · rcases h with ⟨h, hfar⟩ | ⟨h, q, hq, hd⟩
      · left
        refine ⟨by rw [h, List.map_append]; rfl, ?_⟩
        intro q hq
        rw [List.getLast?_map] at hq
        cases hq' : Q.getLast? with
        | none => rw [hq'] at hq; simp at hq
        | some q' =>
          rw [hq'] at hq
          simp only [Option.map_some, Option.some.injEq] at hq
          rw [← hq, hφ.isometry]
          exact hfar q' hq'
      · right
        exact ⟨by rw [h], φ q, by rw [List.getLast?_map, hq]; rfl, by rw [hφ.isometry]; exact hd⟩

theorem side_rigid {φ : V3 → V3} (hφ : Rigid φ) {cfg : Config} {a b : V3} {S : List V3} (h : SideSampling cfg a b S) :
    SideSampling cfg (φ a) (φ b) (S.map φ) := by
  rcases h with ⟨h0, h⟩ | ⟨h0, n, hn, h1, h2, h3, h4⟩
  · exact Or.inl ⟨h0, by rw [h]; rfl⟩
  · refine Or.inr ⟨h0, n, by rw [List.length_map]; exact hn, h1, by rw [hφ.isometry]; exact h2, by rw [hφ.isometry]; exact h3, ?_⟩
    intro j hj
    rw [List.getElem?_map, h4 j hj]
    obtain ⟨⟨m11, m12, m13, m21, m22, m23, m31, m32, m33, b1, b2, b3, hm⟩, _⟩ := hφ
    simp only [Option.map_some, Option.some.injEq]
    rw [hm, hm, hm]
    ext <;> simp only <;> ring

theorem polygon_rigid {φ : V3 → V3} (hφ : Rigid φ) {cfg : Config} {P R : List V3} (h : PolygonSampling cfg P R) :
    PolygonSampling cfg (P.map φ) (R.map φ) := by
  obtain ⟨first, pieces, hf, hR, hp⟩ := h
  refine ⟨φ first, pieces.map (List.map φ), by rw [List.head?_map, hf]; rfl, by rw [hR, List.map_append, List.map_flatten]; rfl, ?_⟩
  have e : (P.map φ).zip ((P.map φ).tail ++ [φ first]) = (P.zip (P.tail ++ [first])).map fun e => (φ e.1, φ e.2) := by
    have : (P.map φ).tail ++ [φ first] = (P.tail ++ [first]).map φ := by
      rw [List.map_append, List.map_tail]; rfl
    rw [this, List.zip_map]
    rfl
  rw [e, List.forall₂_map_left_iff, List.forall₂_map_right_iff]
  exact hp.imp fun e S h => side_rigid hφ h

/-- The feature in another frame. -/
def FeatureData.move (φ : V3 → V3) : FeatureData → FeatureData
  | .lane t P => .lane t (P.map φ)
  | .roadLine t P => .roadLine t (P.map φ)
  | .roadEdge t P => .roadEdge t (P.map φ)
  | .stopSign p => .stopSign (φ p)
  | .crosswalk P => .crosswalk (P.map φ)
  | .speedBump P => .speedBump (P.map φ)
  | .driveway P => .driveway (P.map φ)
  | .notSet => .notSet

/-- Moving the map moves its samples. -/
theorem sampling_rigid {φ : V3 → V3} (hφ : Rigid φ) {cfg : Config} {d : FeatureData} {R : List V3} (h : Sampling cfg R d) :
    Sampling cfg (R.map φ) (d.move φ) := by
  cases d with
  | lane t P => exact polyline_rigid hφ h
  | roadLine t P => exact polyline_rigid hφ h
  | roadEdge t P => exact polyline_rigid hφ h
  | stopSign p =>
    have h' : R = [p] := h
    show R.map φ = [φ p]
    rw [h']; rfl
  | crosswalk P => exact polygon_rigid hφ h
  | speedBump P => exact polygon_rigid hφ h
  | driveway P => exact polygon_rigid hφ h
  | notSet =>
    have h' : R = [] := h
    show R.map φ = []
    rw [h']; rfl

/-- Moving the points turns the directions. -/
theorem directions_rigid {φ : V3 → V3} (hφ : Rigid φ) : ∀ l : List V3, directions (l.map φ) = (directions l).map (turn φ) := by
  have hiso := hφ.isometry
  obtain ⟨⟨m11, m12, m13, m21, m22, m23, m31, m32, m33, b1, b2, b3, hm⟩, _⟩ := hφ
  have hz : turn φ ⟨0, 0, 0⟩ = ⟨0, 0, 0⟩ := by
    unfold turn V3.sub
    ext <;> simp
  have hn : ∀ p q, ((φ q).sub (φ p)).normalized = turn φ (q.sub p).normalized := by
    intro p q
    unfold V3.normalized
    rw [hiso]
    split
    · unfold turn
      rw [hm, hm, hm, hm]
      ext <;> simp only [V3.sub, V3.div] <;> ring
    · exact hz.symm
  intro l
  induction l with
  | nil => rfl
  | cons p l ih =>
    cases l with
    | nil => simp [directions, hz]
    | cons q l =>
      simp only [List.map_cons, directions] at ih ⊢
      rw [hn, ih]

end

end Verif.Conversion
