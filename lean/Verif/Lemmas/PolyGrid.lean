import Verif.Props.PolygonArea
import Mathlib.Data.Sign.Basic
import Mathlib.Analysis.Convex.Segment

/-!
Polygons with sides in two perpendicular directions: the loop of `ComputeIntersectionVertices` depends on such polygons
only through the order of the coordinates of their points.
-/

namespace Verif.Polygon

open Set

/-- A grid: coordinates along two perpendicular directions that grow with the given ones. -/
structure Grid where
  φ : ℝ → ℝ
  ψ : ℝ → ℝ
  c : ℝ
  s : ℝ
  hφ : StrictMono φ
  hψ : StrictMono ψ
  unit : c ^ 2 + s ^ 2 = 1

/-- A turn of the plane. -/
def turn (c s : ℝ) (p : Pt ℝ) : Pt ℝ := (c * p.1 - s * p.2, s * p.1 + c * p.2)

/-- The point of a grid with the given coordinates. -/
def Grid.at (g : Grid) (p : Pt ℝ) : Pt ℝ := turn g.c g.s (g.φ p.1, g.ψ p.2)

/-- The grid of the plane itself. -/
def Grid.id : Grid := ⟨fun x => x, fun x => x, 1, 0, strictMono_id, strictMono_id, by norm_num⟩

theorem Grid.id_at (p : Pt ℝ) : Grid.id.at p = p := by
  ext <;> simp [Grid.id, Grid.at, turn]

section

variable {c s : ℝ} (h : c ^ 2 + s ^ 2 = 1)

include h

theorem turn_injective : Function.Injective (turn c s) := fun p q e => by
  have e1 : c * p.1 - s * p.2 = c * q.1 - s * q.2 := congrArg Prod.fst e
  have e2 : s * p.1 + c * p.2 = s * q.1 + c * q.2 := congrArg Prod.snd e
  ext
  · linear_combination c * e1 + s * e2 + (q.1 - p.1) * h
  · linear_combination -s * e1 + c * e2 + (q.2 - p.2) * h

theorem turn_cross (a b d f : Pt ℝ) : cross4 (turn c s a) (turn c s b) (turn c s d) (turn c s f) = cross4 a b d f := by
  simp only [cross4, cp, turn, Prod.fst_sub, Prod.snd_sub]
  linear_combination ((b.1 - a.1) * (f.2 - d.2) - (b.2 - a.2) * (f.1 - d.1)) * h

theorem turn_segment (a b x : Pt ℝ) : turn c s x ∈ segment ℝ (turn c s a) (turn c s b) ↔ x ∈ segment ℝ a b := by
  rw [mem_segment_iff, mem_segment_iff]
  have he : ∀ t, turn c s a + scale t (turn c s b - turn c s a) = turn c s (a + scale t (b - a)) := fun t => by
    ext <;> simp [turn, scale] <;> ring
  simp only [he, (turn_injective h).eq_iff]

omit h in
theorem turn_segment_range (a b y : Pt ℝ) (hy : y ∈ segment ℝ (turn c s a) (turn c s b)) : ∃ x, y = turn c s x := by
  rw [mem_segment_iff] at hy
  obtain ⟨t, -, -, rfl⟩ := hy
  exact ⟨a + scale t (b - a), by ext <;> simp [turn, scale] <;> ring⟩

end

theorem Grid.injective (g : Grid) : Function.Injective g.at := fun p q e => by
  have := turn_injective g.unit e
  exact Prod.ext (g.hφ.injective (congrArg Prod.fst this)) (g.hψ.injective (congrArg Prod.snd this))

theorem sign_mono {f : ℝ → ℝ} (hf : StrictMono f) (x y : ℝ) : SignType.sign (f x - f y) = SignType.sign (x - y) := by
  rcases lt_trichotomy x y with h | h | h
  · rw [sign_neg (sub_neg.mpr h), sign_neg (sub_neg.mpr (hf h))]
  · rw [h, sub_self, sub_self]
  · rw [sign_pos (sub_pos.mpr h), sign_pos (sub_pos.mpr (hf h))]

/-- The sign of a cross product with a segment along a direction of the grid. -/
theorem Grid.sign_cross (g : Grid) {a b : Pt ℝ} (hab : a.1 = b.1 ∨ a.2 = b.2) (p q : Pt ℝ) :
    SignType.sign (cross4 (g.at a) (g.at b) (g.at p) (g.at q)) = SignType.sign (cross4 a b p q) := by
  unfold Grid.at
  rw [turn_cross g.unit]
  simp only [cross4, cp, Prod.fst_sub, Prod.snd_sub]
  rcases hab with h | h
  · rw [h]
    simp only [sub_self, zero_mul, zero_sub]
    rw [Left.sign_neg, Left.sign_neg, sign_mul, sign_mul, sign_mono g.hψ, sign_mono g.hφ]
  · rw [h]
    simp only [sub_self, zero_mul, sub_zero]
    rw [sign_mul, sign_mul, sign_mono g.hψ, sign_mono g.hφ]

theorem nonneg_congr {x y : ℝ} (h : SignType.sign x = SignType.sign y) : 0 ≤ x ↔ 0 ≤ y := by
  rw [← sign_nonneg_iff (a := x), h, sign_nonneg_iff]

theorem neg_congr {x y : ℝ} (h : SignType.sign x = SignType.sign y) : x < 0 ↔ y < 0 := by
  rw [← sign_eq_neg_one_iff (a := x), h, sign_eq_neg_one_iff]

theorem zero_congr {x y : ℝ} (h : SignType.sign x = SignType.sign y) : x = 0 ↔ y = 0 := by
  rw [← sign_eq_zero_iff (a := x), h, sign_eq_zero_iff]

/-- A segment in the second direction. -/
theorem mem_vertical {a b x : Pt ℝ} (h : a.1 = b.1) : x ∈ segment ℝ a b ↔ x.1 = a.1 ∧ x.2 ∈ uIcc a.2 b.2 := by
  obtain ⟨a1, a2⟩ := a; obtain ⟨b1, b2⟩ := b; obtain ⟨x1, x2⟩ := x
  simp only at h
  subst h
  rw [← Prod.image_mk_segment_right, mem_image, segment_eq_uIcc]
  constructor
  · rintro ⟨y, hy, e⟩
    cases e
    exact ⟨rfl, hy⟩
  · rintro ⟨h1, h2⟩
    exact ⟨x2, h2, Prod.ext h1.symm rfl⟩

/-- A segment in the first direction. -/
theorem mem_horizontal {a b x : Pt ℝ} (h : a.2 = b.2) : x ∈ segment ℝ a b ↔ x.2 = a.2 ∧ x.1 ∈ uIcc a.1 b.1 := by
  obtain ⟨a1, a2⟩ := a; obtain ⟨b1, b2⟩ := b; obtain ⟨x1, x2⟩ := x
  simp only at h
  subst h
  rw [← Prod.image_mk_segment_left, mem_image, segment_eq_uIcc]
  constructor
  · rintro ⟨y, hy, e⟩
    cases e
    exact ⟨rfl, hy⟩
  · rintro ⟨h1, h2⟩
    exact ⟨x1, h2, Prod.ext rfl h1.symm⟩

theorem mono_uIcc {f : ℝ → ℝ} (hf : StrictMono f) (a b x : ℝ) : f x ∈ uIcc (f a) (f b) ↔ x ∈ uIcc a b := by
  rw [mem_uIcc, mem_uIcc]
  simp only [hf.le_iff_le]

/-- A side along a direction of the grid. -/
def Axis (a b : Pt ℝ) : Prop := (a.1 = b.1 ∧ a.2 ≠ b.2) ∨ (a.2 = b.2 ∧ a.1 ≠ b.1)

theorem Axis.ne {a b : Pt ℝ} (h : Axis a b) : a ≠ b := by
  rintro rfl
  rcases h with h | h
  · exact h.2 rfl
  · exact h.2 rfl

theorem Axis.or {a b : Pt ℝ} (h : Axis a b) : a.1 = b.1 ∨ a.2 = b.2 := h.imp And.left And.left

theorem Grid.mem_segment (g : Grid) {a b : Pt ℝ} (h : Axis a b) (x : Pt ℝ) :
    g.at x ∈ segment ℝ (g.at a) (g.at b) ↔ x ∈ segment ℝ a b := by
  unfold Grid.at
  rw [turn_segment g.unit]
  rcases h with h | h
  · rw [mem_vertical h.1, mem_vertical (by simp only [h.1])]
    simp only [mono_uIcc g.hψ, g.hφ.injective.eq_iff]
  · rw [mem_horizontal h.1, mem_horizontal (by simp only [h.1])]
    simp only [mono_uIcc g.hφ, g.hψ.injective.eq_iff]

/-- A point of a side along the first direction and of one along the second direction. -/
theorem Grid.cross_point (g : Grid) {p0 p1 q0 q1 y : Pt ℝ} (hp : p0.2 = p1.2) (hq : q0.1 = q1.1)
    (y1 : y ∈ segment ℝ (g.at p0) (g.at p1)) (y2 : y ∈ segment ℝ (g.at q0) (g.at q1)) : y = g.at (q0.1, p0.2) := by
  unfold Grid.at at y1 y2 ⊢
  obtain ⟨x, rfl⟩ := turn_segment_range _ _ _ y1
  rw [turn_segment g.unit] at y1 y2
  rw [mem_horizontal (by simp only [hp])] at y1
  rw [mem_vertical (by simp only [hq])] at y2
  congr 1
  exact Prod.ext y2.1 y1.1

theorem Grid.ne (g : Grid) {a b : Pt ℝ} (h : Axis a b) : g.at a ≠ g.at b := fun e => h.ne (g.injective e)

/-- What the routine finds on sides in different directions. -/
theorem Grid.inter_point (g : Grid) {p0 p1 q0 q1 x : Pt ℝ} (hp : Axis p0 p1)
    (hx : ∀ y, y ∈ segment ℝ (g.at p0) (g.at p1) → y ∈ segment ℝ (g.at q0) (g.at q1) → y = g.at x) :
    segmentIntersection (g.at p0) (g.at p1) (g.at q0) (g.at q1) =
      open Classical in
      if g.at x ∈ segment ℝ (g.at p0) (g.at p1) ∧ g.at x ∈ segment ℝ (g.at q0) (g.at q1) then some (g.at x) else none := by
  obtain ⟨h1, h2⟩ := segmentIntersection_spec_partial (g.at q0) (g.at q1) (g.ne hp)
  rcases hi : segmentIntersection (g.at p0) (g.at p1) (g.at q0) (g.at q1) with _ | y
  · rw [if_neg]
    rintro ⟨a, b⟩
    exact Set.disjoint_left.mp (h2 hi) a b
  · obtain ⟨a, b⟩ := h1 y hi
    have := hx y a b
    subst this
    rw [if_pos ⟨a, b⟩]

theorem Grid.colinearPoint (g : Grid) {a b q : Pt ℝ} (h : Axis a b) (hc : cross4 a b a q = 0) :
    colinearPoint (g.at a) (g.at b) (g.at q) = (colinearPoint a b q).map g.at := by
  have hc' : cross4 (g.at a) (g.at b) (g.at a) (g.at q) = 0 := (zero_congr (g.sign_cross h.or a q)).mpr hc
  have k1 := colinearPoint_iff (g.ne h) hc'
  have k2 := colinearPoint_iff h.ne hc
  rcases e : Polygon.colinearPoint a b q with _ | x
  · rcases e' : Polygon.colinearPoint (g.at a) (g.at b) (g.at q) with _ | y
    · rfl
    · have := (k1 y).mp e'
      rw [g.mem_segment h] at this
      have := (k2 q).mpr ⟨rfl, this.2⟩
      rw [e] at this; cases this
  · have h2 := (k2 x).mp e
    rw [(k1 (g.at x)).mpr ⟨by rw [h2.1], (g.mem_segment h q).mpr h2.2⟩]
    rfl

theorem map_orElse' {α β : Type*} (f : α → β) (a : Option α) (b : Option α) :
    (a <|> b).map f = (a.map f <|> b.map f) := by
  cases a <;> rfl

/-- **The intersection of two sides** depends only on the order of the coordinates. -/
theorem Grid.segmentIntersection (g : Grid) {p0 p1 q0 q1 : Pt ℝ} (hp : Axis p0 p1) (hq : Axis q0 q1) :
    segmentIntersection (g.at p0) (g.at p1) (g.at q0) (g.at q1) = (segmentIntersection p0 p1 q0 q1).map g.at := by
  have key : ∀ x, (∀ g : Grid, ∀ y, y ∈ segment ℝ (g.at p0) (g.at p1) → y ∈ segment ℝ (g.at q0) (g.at q1) → y = g.at x) →
      Polygon.segmentIntersection (g.at p0) (g.at p1) (g.at q0) (g.at q1) =
        (Polygon.segmentIntersection p0 p1 q0 q1).map g.at := by
    intro x hx
    have h1 := g.inter_point hp (hx g)
    have h2 := Grid.id.inter_point hp (hx Grid.id)
    simp only [Grid.id_at] at h2
    rw [h1, h2]
    have e1 := g.mem_segment hp x
    have e2 := g.mem_segment hq x
    by_cases hx : x ∈ segment ℝ p0 p1 ∧ x ∈ segment ℝ q0 q1
    · rw [if_pos ⟨e1.mpr hx.1, e2.mpr hx.2⟩, if_pos (by simpa only [Grid.id_at] using hx)]; rfl
    · rw [if_neg (fun h => hx ⟨e1.mp h.1, e2.mp h.2⟩), if_neg (by simpa only [Grid.id_at] using hx)]; rfl
  have par : cross4 p0 p1 q1 q0 = 0 → Polygon.segmentIntersection (g.at p0) (g.at p1) (g.at q0) (g.at q1) =
        (Polygon.segmentIntersection p0 p1 q0 q1).map g.at := by
    intro h0
    have h0' := (zero_congr (g.sign_cross hp.or q1 q0)).mpr h0
    unfold Polygon.segmentIntersection exactIntersection
    rw [if_pos h0, if_pos h0']
    by_cases hc : cross4 p0 p1 p0 q0 = 0
    · have hc' := (zero_congr (g.sign_cross hp.or p0 q0)).mpr hc
      rw [if_neg (not_not.mpr hc), if_neg (not_not.mpr hc')]
      have c2 : cross4 p0 p1 p0 q1 = 0 := by
        simp only [cross4, cp, Prod.fst_sub, Prod.snd_sub] at h0 hc ⊢; linarith
      have c3 : cross4 q0 q1 q0 p0 = 0 := by
        simp only [cross4, cp, Prod.fst_sub, Prod.snd_sub] at h0 hc ⊢
        rcases hp with h | h
        · rw [h.1] at h0 hc ⊢
          have a1 : q0.1 = p1.1 := by
            have : (p1.2 - p0.2) * (q0.1 - p1.1) = 0 := by linarith
            rcases mul_eq_zero.mp this with e | e
            · exact absurd (by linarith) h.2
            · linarith
          have a2 : q1.1 = q0.1 := by
            have : (p1.2 - p0.2) * (q0.1 - q1.1) = 0 := by linarith
            rcases mul_eq_zero.mp this with e | e
            · exact absurd (by linarith) h.2
            · linarith
          rw [a2, a1]; ring
        · rw [h.1] at h0 hc ⊢
          have a1 : q0.2 = p1.2 := by
            have : (p1.1 - p0.1) * (q0.2 - p1.2) = 0 := by linarith
            rcases mul_eq_zero.mp this with e | e
            · exact absurd (by linarith) h.2
            · linarith
          have a2 : q1.2 = q0.2 := by
            have : (p1.1 - p0.1) * (q0.2 - q1.2) = 0 := by linarith
            rcases mul_eq_zero.mp this with e | e
            · exact absurd (by linarith) h.2
            · linarith
          rw [a2, a1]; ring
      have c4 : cross4 q0 q1 q0 p1 = 0 := by
        simp only [cross4, cp, Prod.fst_sub, Prod.snd_sub] at h0 c3 ⊢; linarith
      rw [g.colinearPoint hq c3, g.colinearPoint hq c4, g.colinearPoint hp hc, g.colinearPoint hp c2]
      simp only [map_orElse']
    · rw [if_pos hc, if_pos (fun e => hc ((zero_congr (g.sign_cross hp.or p0 q0)).mp e))]
      rfl
  rcases hp with h | h <;> rcases hq with k | k
  · apply par
    simp only [cross4, cp, Prod.fst_sub, Prod.snd_sub]
    rw [h.1, k.1]; ring
  · apply key (p0.1, q0.2)
    intro g y y1 y2
    exact g.cross_point k.1 h.1 y2 y1
  · apply key (q0.1, p0.2)
    intro g y y1 y2
    exact g.cross_point h.1 k.1 y1 y2
  · apply par
    simp only [cross4, cp, Prod.fst_sub, Prod.snd_sub]
    rw [h.1, k.1]; ring

/-! ## The loop -/

/-- Sides along the directions of the grid. -/
structure Ortho (P : Poly ℝ) : Prop where
  len : P.n = P.pts.length
  pos : 0 < P.n
  axis : ∀ i < P.n, Axis (P.pt i) (P.pt (P.next i))

/-- A polygon with the points of another one on a grid. -/
structure Grid.On (g : Grid) (P P' : Poly ℝ) : Prop where
  n : P'.n = P.n
  pts : P'.pts = P.pts.map g.at

theorem Poly.next_lt {P : Poly ℝ} (h : 0 < P.n) {i : ℕ} (hi : i < P.n) : P.next i < P.n := by
  unfold Poly.next
  split_ifs <;> omega

theorem Grid.On.pt {g : Grid} {P P' : Poly ℝ} (h : g.On P P') (hl : P.n = P.pts.length) {i : ℕ} (hi : i < P.n) :
    P'.pt i = g.at (P.pt i) := by
  unfold Poly.pt
  rw [h.pts, List.getD_eq_getElem?_getD, List.getD_eq_getElem?_getD, List.getElem?_map,
    List.getElem?_eq_getElem (by omega)]
  rfl

theorem Grid.On.next {g : Grid} {P P' : Poly ℝ} (h : g.On P P') (i : ℕ) : P'.next i = P.next i := by
  unfold Poly.next; rw [h.n]

theorem Grid.append (g : Grid) (p : Pt ℝ) (l : List (Pt ℝ)) : append (g.at p) (l.map g.at) = (append p l).map g.at := by
  unfold Polygon.append
  rcases l with _ | ⟨a, l⟩
  · rfl
  · simp only [List.map_cons]
    have h1 : (g.at a :: l.map g.at).getLastD (g.at a) = g.at ((a :: l).getLastD a) := by
      rw [← List.map_cons, List.getLastD_eq_getLast?, List.getLastD_eq_getLast?, List.getLast?_map]
      rcases (a :: l).getLast? with _ | b <;> rfl
    rw [h1]
    simp only [ne_eq, g.injective.eq_iff]
    split_ifs <;> simp

/-- A state on a grid. -/
def Grid.st (g : Grid) (s : St ℝ) : St ℝ := ⟨s.pi, s.qi, s.pin, s.qin, s.cps.map g.at⟩

section

variable {g : Grid} {P P' Q Q' : Poly ℝ} (hP : Ortho P) (hQ : Ortho Q) (gP : g.On P P') (gQ : g.On Q Q') {s : St ℝ}
  (h1 : s.pi < P.n) (h2 : s.qi < Q.n)

include hP hQ gP gQ h1 h2

theorem grid_det : SignType.sign ((g.st s).det P' Q') = SignType.sign (s.det P Q) := by
  simp only [St.det, Grid.st]
  rw [gP.next, gQ.next, gP.pt hP.len h1, gP.pt hP.len (Poly.next_lt hP.pos h1), gQ.pt hQ.len h2,
    gQ.pt hQ.len (Poly.next_lt hQ.pos h2), g.sign_cross (hP.axis _ h1).or]

theorem grid_sideP : SignType.sign ((g.st s).sideP P' Q') = SignType.sign (s.sideP P Q) := by
  simp only [St.sideP, Grid.st]
  rw [gP.next, gQ.next, gP.pt hP.len (Poly.next_lt hP.pos h1), gQ.pt hQ.len h2,
    gQ.pt hQ.len (Poly.next_lt hQ.pos h2), g.sign_cross ((hQ.axis _ h2).or.imp Eq.symm Eq.symm)]

theorem grid_sideQ : SignType.sign ((g.st s).sideQ P' Q') = SignType.sign (s.sideQ P Q) := by
  simp only [St.sideQ, Grid.st]
  rw [gP.next, gQ.next, gP.pt hP.len (Poly.next_lt hP.pos h1), gP.pt hP.len h1,
    gQ.pt hQ.len (Poly.next_lt hQ.pos h2), g.sign_cross ((hP.axis _ h1).or.imp Eq.symm Eq.symm)]

theorem grid_inter : (g.st s).inter P' Q' = (s.inter P Q).map g.at := by
  have := g.segmentIntersection (hP.axis _ h1) (hQ.axis _ h2)
  unfold Polygon.segmentIntersection at this
  unfold St.inter St.det
  simp only [Grid.st]
  rw [gP.next, gQ.next, gP.pt hP.len h1, gP.pt hP.len (Poly.next_lt hP.pos h1), gQ.pt hQ.len h2,
    gQ.pt hQ.len (Poly.next_lt hQ.pos h2), this]

theorem grid_mark (x : Pt ℝ) : (g.st s).mark P' Q' (g.at x) = g.st (s.mark P Q x) := by
  unfold St.mark
  simp only [nonneg_congr (grid_sideP hP hQ gP gQ h1 h2)]
  simp only [Grid.st, g.append]

theorem grid_advance : (g.st s).advance P' Q' = g.st (s.advance P Q) := by
  have ha : (g.st s).advanceP P' Q' = s.advanceP P Q := by
    unfold St.advanceP
    simp only [nonneg_congr (grid_det hP hQ gP gQ h1 h2), neg_congr (grid_sideP hP hQ gP gQ h1 h2),
      nonneg_congr (grid_sideQ hP hQ gP gQ h1 h2)]
  unfold St.advance
  rw [ha]
  have e1 : (g.st s).pi = s.pi := rfl
  have e2 : (g.st s).qi = s.qi := rfl
  have e3 : (g.st s).pin = s.pin := rfl
  have e4 : (g.st s).qin = s.qin := rfl
  have e5 : (g.st s).cps = s.cps.map g.at := rfl
  rw [e1, e2, e3, e4, e5, gP.next, gQ.next, gP.pt hP.len (Poly.next_lt hP.pos h1), gQ.pt hQ.len (Poly.next_lt hQ.pos h2),
    g.append, g.append]
  split_ifs <;> rfl

omit gP gQ in
theorem advance_lt : (s.advance P Q).pi < P.n ∧ (s.advance P Q).qi < Q.n := by
  unfold St.advance
  by_cases h : s.advanceP P Q = true
  · rw [if_pos h]
    exact ⟨Poly.next_lt hP.pos h1, h2⟩
  · rw [if_neg h]
    exact ⟨h1, Poly.next_lt hQ.pos h2⟩

end

theorem grid_run2 {g : Grid} {P P' Q Q' : Poly ℝ} (hP : Ortho P) (hQ : Ortho Q) (gP : g.On P P') (gQ : g.On Q Q') :
    ∀ (k : ℕ) (s : St ℝ), s.pi < P.n → s.qi < Q.n → run2 P' Q' k (g.st s) = (run2 P Q k s).map (List.map g.at) := by
  intro k
  induction k with
  | zero => intro s _ _; rfl
  | succ k ih =>
    intro s h1 h2
    unfold run2
    rw [grid_inter hP hQ gP gQ h1 h2]
    rcases s.inter P Q with _ | x
    · obtain ⟨k1, k2⟩ := advance_lt hP hQ h1 h2
      simp only [Option.map_none, grid_advance hP hQ gP gQ h1 h2, ih _ k1 k2]
    · simp only [Option.map_some]
      have m1 : (s.mark P Q x).pi < P.n := h1
      have m2 : (s.mark P Q x).qi < Q.n := h2
      obtain ⟨k1, k2⟩ := advance_lt hP hQ m1 m2
      rw [grid_mark hP hQ gP gQ h1 h2, grid_advance hP hQ gP gQ m1 m2, ih _ k1 k2]
      have e1 : (g.st s).cps.length = s.cps.length := by simp [Grid.st]
      have e2 : some (g.at x) = (g.st s).cps.head? ↔ some x = s.cps.head? := by
        simp only [Grid.st, List.head?_map]
        rcases s.cps.head? with _ | y
        · simp
        · simp only [Option.map_some, Option.some.injEq, g.injective.eq_iff]
      simp only [e1, e2]
      split_ifs <;> rfl

theorem grid_run1 {g : Grid} {P P' Q Q' : Poly ℝ} (hP : Ortho P) (hQ : Ortho Q) (gP : g.On P P') (gQ : g.On Q Q') (t : ℕ) :
    ∀ (k : ℕ) (s : St ℝ), s.pi < P.n → s.qi < Q.n →
      run1 P' Q' t k (g.st s) = (run1 P Q t k s).map (Option.map (List.map g.at)) := by
  intro k
  induction k with
  | zero => intro s _ _; rfl
  | succ k ih =>
    intro s h1 h2
    unfold run1
    rw [grid_inter hP hQ gP gQ h1 h2]
    rcases s.inter P Q with _ | x
    · obtain ⟨k1, k2⟩ := advance_lt hP hQ h1 h2
      simp only [Option.map_none, grid_advance hP hQ gP gQ h1 h2, ih _ k1 k2]
    · simp only [Option.map_some]
      have m1 : (s.mark P Q x).pi < P.n := h1
      have m2 : (s.mark P Q x).qi < Q.n := h2
      obtain ⟨k1, k2⟩ := advance_lt hP hQ m1 m2
      rw [grid_mark hP hQ gP gQ h1 h2, grid_advance hP hQ gP gQ m1 m2, grid_run2 hP hQ gP gQ _ _ k1 k2]

end Verif.Polygon
