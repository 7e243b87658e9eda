import Verif.Model.Planar
import Mathlib.Topology.Order.Compact
import Mathlib.Topology.Instances.Real.Lemmas
import Mathlib.Tactic.Linarith
import Mathlib.Tactic.Ring
import Mathlib.Tactic.FieldSimp
import Mathlib.Tactic.LinearCombination

/-!
The sum of two rectangles, and the octagon around it.
-/

namespace Verif.Planar

/-- A quarter turn to the left. -/
def left (u : P) : P := (-u.2, u.1)

/-- Two rectangles: the sum of their first corners, the directions of their first sides, and the lengths of their sides. -/
structure Conf where
  o : P
  u : P
  v : P
  a1 : ℝ
  a2 : ℝ
  b1 : ℝ
  b2 : ℝ

/-- The second direction is at most a quarter turn to the left of the first. -/
structure Conf.Ok (c : Conf) : Prop where
  hu : dot c.u c.u = 1
  hv : dot c.v c.v = 1
  ha1 : 0 < c.a1
  ha2 : 0 < c.a2
  hb1 : 0 < c.b1
  hb2 : 0 < c.b2
  hc : 0 ≤ dot c.u c.v
  hs : 0 ≤ cross c.u c.v

/-- The sum of a point of the first and a point of the second rectangle. -/
def Conf.pt (c : Conf) (x1 x2 y1 y2 : ℝ) : P :=
  (c.o.1 + x1 * c.u.1 + x2 * -c.u.2 + y1 * c.v.1 + y2 * -c.v.2, c.o.2 + x1 * c.u.2 + x2 * c.u.1 + y1 * c.v.2 + y2 * c.v.1)

/-- The set of all sums. -/
def Conf.Zone (c : Conf) (z : P) : Prop :=
  ∃ x1 x2 y1 y2 : ℝ, 0 ≤ x1 ∧ x1 ≤ c.a1 ∧ 0 ≤ x2 ∧ x2 ≤ c.a2 ∧ 0 ≤ y1 ∧ y1 ≤ c.b1 ∧ 0 ≤ y2 ∧ y2 ≤ c.b2 ∧ z = c.pt x1 x2 y1 y2

/-- The octagon. -/
def Conf.verts (c : Conf) : List P :=
  [c.pt 0 0 0 0, c.pt c.a1 0 0 0, c.pt c.a1 0 c.b1 0, c.pt c.a1 c.a2 c.b1 0, c.pt c.a1 c.a2 c.b1 c.b2, c.pt 0 c.a2 c.b1 c.b2,
    c.pt 0 c.a2 0 c.b2, c.pt 0 0 0 c.b2]

theorem Conf.edges_verts (c : Conf) : edges c.verts =
    [(c.pt 0 0 0 0, c.pt c.a1 0 0 0), (c.pt c.a1 0 0 0, c.pt c.a1 0 c.b1 0), (c.pt c.a1 0 c.b1 0, c.pt c.a1 c.a2 c.b1 0),
      (c.pt c.a1 c.a2 c.b1 0, c.pt c.a1 c.a2 c.b1 c.b2), (c.pt c.a1 c.a2 c.b1 c.b2, c.pt 0 c.a2 c.b1 c.b2),
      (c.pt 0 c.a2 c.b1 c.b2, c.pt 0 c.a2 0 c.b2), (c.pt 0 c.a2 0 c.b2, c.pt 0 0 0 c.b2), (c.pt 0 0 0 c.b2, c.pt 0 0 0 0)] := rfl

/-- Every point of the sum is on the left of every edge. -/
theorem Conf.Ok.left_of {c : Conf} (h : c.Ok) {z : P} (hz : c.Zone z) {e : P × P} (he : e ∈ edges c.verts) :
    0 ≤ cross (e.2 - e.1) (z - e.1) := by
  obtain ⟨x1, x2, y1, y2, h1, h2, h3, h4, h5, h6, h7, h8, rfl⟩ := hz
  obtain ⟨hu, hv, ha1, ha2, hb1, hb2, hc, hs⟩ := h
  obtain ⟨o, ⟨p, q⟩, ⟨r, s⟩, a1, a2, b1, b2⟩ := c
  simp only [dot, cross] at *
  rw [Conf.edges_verts] at he
  simp only [List.mem_cons, List.not_mem_nil, or_false] at he

  rcases he with rfl | rfl | rfl | rfl | rfl | rfl | rfl | rfl <;> simp only [Conf.pt, Prod.fst_sub, Prod.snd_sub]
  · have e : 0 ≤ a1 * (x2 + y1 * (p * s - q * r) + y2 * (p * r + q * s)) := by positivity
    linear_combination e - a1 * x2 * hu
  · have e : 0 ≤ b1 * ((a1 - x1) * (p * s - q * r) + x2 * (p * r + q * s) + y2) := by
      have := sub_nonneg.2 h2
      positivity
    linear_combination e - b1 * y2 * hv
  · have e : 0 ≤ a2 * ((a1 - x1) + (b1 - y1) * (p * r + q * s) + y2 * (p * s - q * r)) := by
      have := sub_nonneg.2 h2
      have := sub_nonneg.2 h6
      positivity
    linear_combination e - a2 * (a1 - x1) * hu
  · have e : 0 ≤ b2 * ((a1 - x1) * (p * r + q * s) + (a2 - x2) * (p * s - q * r) + (b1 - y1)) := by
      have := sub_nonneg.2 h2
      have := sub_nonneg.2 h4
      have := sub_nonneg.2 h6
      positivity
    linear_combination e - b2 * (b1 - y1) * hv
  · have e : 0 ≤ a1 * ((a2 - x2) + (b1 - y1) * (p * s - q * r) + (b2 - y2) * (p * r + q * s)) := by
      have := sub_nonneg.2 h4
      have := sub_nonneg.2 h6
      have := sub_nonneg.2 h8
      positivity
    linear_combination e - a1 * (a2 - x2) * hu
  · have e : 0 ≤ b1 * (x1 * (p * s - q * r) + (a2 - x2) * (p * r + q * s) + (b2 - y2)) := by
      have := sub_nonneg.2 h4
      have := sub_nonneg.2 h8
      positivity
    linear_combination e - b1 * (b2 - y2) * hv
  · have e : 0 ≤ a2 * (x1 + y1 * (p * r + q * s) + (b2 - y2) * (p * s - q * r)) := by
      have := sub_nonneg.2 h8
      positivity
    linear_combination e - a2 * x1 * hu
  · have e : 0 ≤ b2 * (x1 * (p * r + q * s) + x2 * (p * s - q * r) + y1) := by positivity
    linear_combination e - b2 * y1 * hv

/-- The same two rectangles, beginning at the next corners. -/
def Conf.turn (c : Conf) : Conf := ⟨c.pt c.a1 0 c.b1 0, left c.u, left c.v, c.a2, c.a1, c.b2, c.b1⟩

theorem Conf.pt_turn (c : Conf) (x1 x2 y1 y2 : ℝ) : c.turn.pt x1 x2 y1 y2 = c.pt (c.a1 - x2) x1 (c.b1 - y2) y1 := by
  simp only [Conf.turn, Conf.pt, left, Prod.mk.injEq]
  constructor <;> ring

theorem Conf.verts_turn (c : Conf) : c.turn.verts = c.verts.drop 2 ++ c.verts.take 2 := by
  unfold Conf.verts
  simp only [Conf.pt_turn]
  simp [Conf.turn]

theorem Conf.mem_edges_turn (c : Conf) (e : P × P) : e ∈ edges c.turn.verts ↔ e ∈ edges c.verts := by
  rw [Conf.verts_turn]
  simp only [Conf.verts, edges, List.drop, List.take, List.cons_append, List.nil_append, List.zip_cons_cons, List.zip_nil_left,
    List.mem_cons, List.not_mem_nil, or_false]
  tauto

theorem Conf.zone_turn (c : Conf) (z : P) : c.turn.Zone z ↔ c.Zone z := by
  constructor
  · rintro ⟨x1, x2, y1, y2, h1, h2, h3, h4, h5, h6, h7, h8, rfl⟩
    simp only [Conf.turn] at h2 h4 h6 h8
    exact ⟨c.a1 - x2, x1, c.b1 - y2, y1, by linarith, by linarith, h1, h2, by linarith, by linarith, h5, h6, c.pt_turn _ _ _ _⟩
  · rintro ⟨x1, x2, y1, y2, h1, h2, h3, h4, h5, h6, h7, h8, rfl⟩
    refine ⟨x2, c.a1 - x1, y2, c.b1 - y1, h3, h4, by linarith, by simp only [Conf.turn]; linarith, h7, h8, by linarith,
      by simp only [Conf.turn]; linarith, ?_⟩
    rw [Conf.pt_turn, sub_sub_cancel, sub_sub_cancel]

theorem Conf.Ok.turn {c : Conf} (h : c.Ok) : c.turn.Ok := by
  obtain ⟨hu, hv, ha1, ha2, hb1, hb2, hc, hs⟩ := h
  simp only [dot, cross] at hu hv hc hs
  refine ⟨?_, ?_, ha2, ha1, hb2, hb1, ?_, ?_⟩ <;> simp only [Conf.turn, left, dot, cross] <;> linarith

/-- A point of a segment. -/
def OnEdge (e : P × P) (z : P) : Prop :=
  ∃ t : ℝ, 0 ≤ t ∧ t ≤ 1 ∧ z = (e.1.1 + t * (e.2.1 - e.1.1), e.1.2 + t * (e.2.2 - e.1.2))

/-- The point of the sum nearest to the origin. -/
def Conf.Nearest (c : Conf) (z : P) : Prop := c.Zone z ∧ ∀ z', c.Zone z' → dot z z ≤ dot z' z'

theorem Conf.exists_nearest {c : Conf} (h : c.Ok) : ∃ z, c.Nearest z := by
  have hK : IsCompact (Set.Icc (0 : ℝ) c.a1 ×ˢ Set.Icc (0 : ℝ) c.a2 ×ˢ Set.Icc (0 : ℝ) c.b1 ×ˢ Set.Icc (0 : ℝ) c.b2) :=
    isCompact_Icc.prod (isCompact_Icc.prod (isCompact_Icc.prod isCompact_Icc))
  obtain ⟨⟨x1, x2, y1, y2⟩, hm, hmin⟩ := hK.exists_isMinOn
    ⟨(0, 0, 0, 0), by simp [h.ha1.le, h.ha2.le, h.hb1.le, h.hb2.le]⟩
    (f := fun t => dot (c.pt t.1 t.2.1 t.2.2.1 t.2.2.2) (c.pt t.1 t.2.1 t.2.2.1 t.2.2.2))
    (by simp only [dot, Conf.pt]; fun_prop)
  simp only [Set.mem_prod, Set.mem_Icc] at hm
  refine ⟨c.pt x1 x2 y1 y2, ⟨x1, x2, y1, y2, hm.1.1, hm.1.2, hm.2.1.1, hm.2.1.2, hm.2.2.1.1, hm.2.2.1.2, hm.2.2.2.1, hm.2.2.2.2,
    rfl⟩, ?_⟩
  rintro z' ⟨x1', x2', y1', y2', h1, h2, h3, h4, h5, h6, h7, h8, rfl⟩
  exact hmin (a := (x1', x2', y1', y2')) (by simp only [Set.mem_prod, Set.mem_Icc]; exact ⟨⟨h1, h2⟩, ⟨h3, h4⟩, ⟨h5, h6⟩, h7, h8⟩)

theorem slope {g t m : ℝ} (h0 : 0 ≤ t) (hm : t ≤ m) (h : ∀ t', 0 ≤ t' → t' ≤ m → 0 ≤ 2 * (t' - t) * g + (t' - t) ^ 2) :
    (0 < g → t = 0) ∧ (g < 0 → t = m) := by
  constructor
  · intro hg
    by_contra hne
    have hpos : 0 < t := lt_of_le_of_ne h0 (Ne.symm hne)
    have h1 := h (t - min t g) (by linarith [min_le_left t g]) (by linarith [lt_min hpos hg])
    have h2 := lt_min hpos hg
    have h3 := min_le_right t g
    nlinarith
  · intro hg
    by_contra hne
    have hpos : 0 < m - t := by have := lt_of_le_of_ne hm hne; linarith
    have hg' : 0 < -g := by linarith
    have h1 := h (t + min (m - t) (-g)) (by linarith [lt_min hpos hg']) (by linarith [min_le_left (m - t) (-g)])
    have h2 := lt_min hpos hg'
    have h3 := min_le_right (m - t) (-g)
    nlinarith

/-- The coordinates of the nearest point are extreme unless the side is at a right angle to it. -/
theorem Conf.Nearest.slopes {c : Conf} (h : c.Ok) {x1 x2 y1 y2 : ℝ} (hn : c.Nearest (c.pt x1 x2 y1 y2))
    (hb : (0 ≤ x1 ∧ x1 ≤ c.a1) ∧ (0 ≤ x2 ∧ x2 ≤ c.a2) ∧ (0 ≤ y1 ∧ y1 ≤ c.b1) ∧ 0 ≤ y2 ∧ y2 ≤ c.b2) :
    let z := c.pt x1 x2 y1 y2
    ((0 < dot z c.u → x1 = 0) ∧ (dot z c.u < 0 → x1 = c.a1)) ∧
    ((0 < dot z (left c.u) → x2 = 0) ∧ (dot z (left c.u) < 0 → x2 = c.a2)) ∧
    ((0 < dot z c.v → y1 = 0) ∧ (dot z c.v < 0 → y1 = c.b1)) ∧
    ((0 < dot z (left c.v) → y2 = 0) ∧ (dot z (left c.v) < 0 → y2 = c.b2)) := by
  intro z
  obtain ⟨⟨h1, h2⟩, ⟨h3, h4⟩, ⟨h5, h6⟩, h7, h8⟩ := hb
  have hu := h.hu
  have hv := h.hv
  simp only [dot] at hu hv
  refine ⟨slope h1 h2 ?_, slope h3 h4 ?_, slope h5 h6 ?_, slope h7 h8 ?_⟩ <;> intro t ht htm
  · have := hn.2 (c.pt t x2 y1 y2) ⟨t, x2, y1, y2, ht, htm, h3, h4, h5, h6, h7, h8, rfl⟩
    simp only [z, dot, Conf.pt] at this ⊢
    linear_combination this + (t - x1) ^ 2 * hu
  · have := hn.2 (c.pt x1 t y1 y2) ⟨x1, t, y1, y2, h1, h2, ht, htm, h5, h6, h7, h8, rfl⟩
    simp only [z, dot, Conf.pt, left] at this ⊢
    linear_combination this + (t - x2) ^ 2 * hu
  · have := hn.2 (c.pt x1 x2 t y2) ⟨x1, x2, t, y2, h1, h2, h3, h4, ht, htm, h7, h8, rfl⟩
    simp only [z, dot, Conf.pt] at this ⊢
    linear_combination this + (t - y1) ^ 2 * hv
  · have := hn.2 (c.pt x1 x2 y1 t) ⟨x1, x2, y1, t, h1, h2, h3, h4, h5, h6, ht, htm, rfl⟩
    simp only [z, dot, Conf.pt, left] at this ⊢
    linear_combination this + (t - y2) ^ 2 * hv

/-- The point is on an edge, and the origin is on the other side of that edge. -/
def Conf.Beyond (c : Conf) (z : P) : Prop := ∃ e ∈ edges c.verts, OnEdge e z ∧ cross (e.2 - e.1) ((0, 0) - e.1) < 0

theorem Conf.edge8 {c : Conf} (h : c.Ok) {t : ℝ} (h0 : 0 ≤ t) (h1 : t ≤ c.b2) (hd : 0 < dot (c.pt 0 0 0 t) c.v) :
    c.Beyond (c.pt 0 0 0 t) := by
  have hb := h.hb2
  refine ⟨(c.pt 0 0 0 c.b2, c.pt 0 0 0 0), by simp [Conf.edges_verts], ⟨1 - t / c.b2, ?_, ?_, ?_⟩, ?_⟩
  · rw [sub_nonneg, div_le_one hb]
    exact h1
  · linarith [div_nonneg h0 hb.le]
  · simp only [Conf.pt, Prod.mk.injEq]
    constructor <;> field_simp <;> ring
  · simp only [cross, dot, Conf.pt, Prod.fst_sub, Prod.snd_sub] at hd ⊢
    linear_combination c.b2 * hd

theorem Conf.edge7 {c : Conf} (h : c.Ok) {t : ℝ} (h0 : 0 ≤ t) (h1 : t ≤ c.a2) (hd : 0 < dot (c.pt 0 t 0 c.b2) c.u) :
    c.Beyond (c.pt 0 t 0 c.b2) := by
  have hb := h.ha2
  refine ⟨(c.pt 0 c.a2 0 c.b2, c.pt 0 0 0 c.b2), by simp [Conf.edges_verts], ⟨1 - t / c.a2, ?_, ?_, ?_⟩, ?_⟩
  · rw [sub_nonneg, div_le_one hb]
    exact h1
  · linarith [div_nonneg h0 hb.le]
  · simp only [Conf.pt, Prod.mk.injEq]
    constructor <;> field_simp <;> ring
  · simp only [cross, dot, Conf.pt, Prod.fst_sub, Prod.snd_sub] at hd ⊢
    linear_combination c.a2 * hd

theorem Conf.edge6 {c : Conf} (h : c.Ok) {t : ℝ} (h0 : 0 ≤ t) (h1 : t ≤ c.b1) (hd : dot (c.pt 0 c.a2 t c.b2) (left c.v) < 0) :
    c.Beyond (c.pt 0 c.a2 t c.b2) := by
  have hb := h.hb1
  refine ⟨(c.pt 0 c.a2 c.b1 c.b2, c.pt 0 c.a2 0 c.b2), by simp [Conf.edges_verts], ⟨1 - t / c.b1, ?_, ?_, ?_⟩, ?_⟩
  · rw [sub_nonneg, div_le_one hb]
    exact h1
  · linarith [div_nonneg h0 hb.le]
  · simp only [Conf.pt, Prod.mk.injEq]
    constructor <;> field_simp <;> ring
  · simp only [cross, dot, Conf.pt, left, Prod.fst_sub, Prod.snd_sub] at hd ⊢
    linear_combination c.b1 * hd

/-- The second direction in terms of the first. -/
theorem Conf.Ok.v_eq {c : Conf} (h : c.Ok) :
    c.v.1 = dot c.u c.v * c.u.1 - cross c.u c.v * c.u.2 ∧ c.v.2 = dot c.u c.v * c.u.2 + cross c.u c.v * c.u.1 := by
  have hu := h.hu
  simp only [dot, cross] at hu ⊢
  constructor
  · linear_combination -c.v.1 * hu
  · linear_combination -c.v.2 * hu

theorem Conf.Ok.unit_circle {c : Conf} (h : c.Ok) : dot c.u c.v ^ 2 + cross c.u c.v ^ 2 = 1 := by
  have hu := h.hu
  have hv := h.hv
  simp only [dot, cross] at hu hv ⊢
  linear_combination (c.v.1 * c.v.1 + c.v.2 * c.v.2) * hu + hv

theorem Conf.Nearest.quadrant {c : Conf} (h : c.Ok) {z : P} (hn : c.Nearest z) (hA : 0 < dot z c.u) (hB : 0 ≤ dot z (left c.u)) :
    c.Beyond z := by
  obtain ⟨x1, x2, y1, y2, h1, h2, h3, h4, h5, h6, h7, h8, rfl⟩ := hn.1
  obtain ⟨s1, s2, s3, s4⟩ := hn.slopes h ⟨⟨h1, h2⟩, ⟨h3, h4⟩, ⟨h5, h6⟩, h7, h8⟩
  obtain ⟨e1, e2⟩ := h.v_eq
  have hcs := h.unit_circle
  have hc := h.hc
  have hs := h.hs
  set z := c.pt x1 x2 y1 y2 with hz
  set k := dot c.u c.v
  set l := cross c.u c.v
  have hC : dot z c.v = k * dot z c.u + l * dot z (left c.u) := by
    simp only [dot, left]
    rw [e1, e2]
    ring
  have hD : dot z (left c.v) = -l * dot z c.u + k * dot z (left c.u) := by
    simp only [dot, left]
    rw [e1, e2]
    ring
  have hx1 := s1.1 hA
  by_cases hCp : 0 < dot z c.v
  · have hy1 := s3.1 hCp
    rcases hB.lt_or_eq with hB | hB
    · have hx2 := s2.1 hB
      rw [hx1, hx2, hy1] at hz
      rw [hz] at hCp ⊢
      exact Conf.edge8 h h7 h8 hCp
    · rcases hs.lt_or_eq with hs | hs
      · have hDn : dot z (left c.v) < 0 := by
          rw [hD, ← hB]
          nlinarith
        have hy2 := s4.2 hDn
        rw [hx1, hy1, hy2] at hz
        rw [hz] at hA ⊢
        exact Conf.edge7 h h3 h4 hA
      · have hk : k = 1 := by
          rw [← hs] at hcs
          have : (k - 1) * (k + 1) = 0 := by linear_combination hcs
          rcases mul_eq_zero.1 this with h | h <;> linarith
        rw [← hs, hk] at e1 e2
        rw [hx1, hy1] at hz
        by_cases ht : x2 + y2 ≤ c.b2
        · have : z = c.pt 0 0 0 (x2 + y2) := by
            rw [hz]
            simp only [Conf.pt, Prod.mk.injEq]
            rw [e1, e2]
            constructor <;> ring
          rw [this] at hCp ⊢
          exact Conf.edge8 h (by linarith) ht hCp
        · have : z = c.pt 0 (x2 + y2 - c.b2) 0 c.b2 := by
            rw [hz]
            simp only [Conf.pt, Prod.mk.injEq]
            rw [e1, e2]
            constructor <;> ring
          rw [this] at hA ⊢
          exact Conf.edge7 h (by linarith) (by linarith) hA
  · have hk : k = 0 := by
      by_contra hne
      have : 0 < k := lt_of_le_of_ne hc (Ne.symm hne)
      apply hCp
      rw [hC]
      have := mul_pos this hA
      have := mul_nonneg hs hB
      linarith
    have hl : l = 1 := by
      rw [hk] at hcs
      have : (l - 1) * (l + 1) = 0 := by linear_combination hcs
      rcases mul_eq_zero.1 this with h | h <;> linarith
    have hDn : dot z (left c.v) < 0 := by
      rw [hD, hk, hl]
      linarith
    have hy2 := s4.2 hDn
    rw [hl, hk] at e1 e2
    rw [hx1, hy2] at hz
    by_cases ht : x2 + y1 ≤ c.a2
    · have : z = c.pt 0 (x2 + y1) 0 c.b2 := by
        rw [hz]
        simp only [Conf.pt, Prod.mk.injEq]
        rw [e1, e2]
        constructor <;> ring
      rw [this] at hA ⊢
      exact Conf.edge7 h (by linarith) ht hA
    · have : z = c.pt 0 c.a2 (x2 + y1 - c.a2) c.b2 := by
        rw [hz]
        simp only [Conf.pt, Prod.mk.injEq]
        rw [e1, e2]
        constructor <;> ring
      rw [this] at hDn ⊢
      exact Conf.edge6 h (by linarith) (by linarith) hDn

theorem Conf.nearest_turn {c : Conf} {z : P} (h : c.Nearest z) : c.turn.Nearest z :=
  ⟨(c.zone_turn z).2 h.1, fun z' hz' => h.2 z' ((c.zone_turn z').1 hz')⟩

theorem Conf.beyond_turn {c : Conf} {z : P} (h : c.turn.Beyond z) : c.Beyond z := by
  obtain ⟨e, he, h1, h2⟩ := h
  exact ⟨e, (c.mem_edges_turn e).1 he, h1, h2⟩

theorem left_turns (z u : P) : dot z (left (left u)) = -dot z u ∧ dot z (left (left (left u))) = -dot z (left u) := by
  simp only [dot, left]
  constructor <;> ring

/-- The nearest point of the sum is on an edge beyond which the origin lies, unless it is the origin. -/
theorem Conf.Nearest.beyond {c : Conf} (h : c.Ok) {z : P} (hn : c.Nearest z) (hz : z ≠ (0, 0)) : c.Beyond z := by
  have t2 := left_turns z c.u
  have t3 := left_turns z (left c.u)
  by_cases h1 : 0 < dot z c.u ∧ 0 ≤ dot z (left c.u)
  · exact hn.quadrant h h1.1 h1.2
  by_cases h2 : 0 < dot z (left c.u) ∧ dot z c.u ≤ 0
  · exact Conf.beyond_turn ((Conf.nearest_turn hn).quadrant h.turn h2.1 (by simp only [Conf.turn]; rw [t2.1]; linarith [h2.2]))
  by_cases h3 : dot z c.u < 0 ∧ dot z (left c.u) ≤ 0
  · refine Conf.beyond_turn (Conf.beyond_turn ((Conf.nearest_turn (Conf.nearest_turn hn)).quadrant h.turn.turn ?_ ?_))
    · simp only [Conf.turn]
      rw [t2.1]
      linarith [h3.1]
    · simp only [Conf.turn]
      rw [t3.1]
      linarith [h3.2]
  by_cases h4 : dot z (left c.u) < 0 ∧ 0 ≤ dot z c.u
  · refine Conf.beyond_turn (Conf.beyond_turn (Conf.beyond_turn
      ((Conf.nearest_turn (Conf.nearest_turn (Conf.nearest_turn hn))).quadrant h.turn.turn.turn ?_ ?_)))
    · simp only [Conf.turn]
      rw [t3.1]
      linarith [h4.1]
    · simp only [Conf.turn]
      rw [t3.2, t2.1]
      linarith [h4.2]
  exfalso
  have e1 : dot z c.u = 0 ∧ dot z (left c.u) = 0 := by
    constructor
    · by_contra hne
      rcases lt_or_gt_of_ne hne with h | h
      · exact h3 ⟨h, not_lt.1 fun h' => h2 ⟨h', h.le⟩⟩
      · exact h1 ⟨h, not_lt.1 fun h' => h4 ⟨h', h.le⟩⟩
    · by_contra hne
      rcases lt_or_gt_of_ne hne with h | h
      · exact h4 ⟨h, not_lt.1 fun h' => h3 ⟨h', h.le⟩⟩
      · exact h2 ⟨h, not_lt.1 fun h' => h1 ⟨h', h.le⟩⟩
  have hu := h.hu
  simp only [dot, left] at e1 hu
  apply hz
  ext
  · linear_combination c.u.1 * e1.1 - c.u.2 * e1.2 - z.1 * hu
  · linear_combination c.u.2 * e1.1 + c.u.1 * e1.2 - z.2 * hu

end Verif.Planar
