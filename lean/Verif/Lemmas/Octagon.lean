import Verif.Lemmas.PolygonDist

/-!
The signed distance of the origin to the sum of two rectangles.
-/

namespace Verif.Planar

/-- The first edge of the octagon. -/
def Conf.e1 (c : Conf) : P × P := (c.pt 0 0 0 0, c.pt c.a1 0 0 0)

/-- The second edge of the octagon. -/
def Conf.e2 (c : Conf) : P × P := (c.pt c.a1 0 0 0, c.pt c.a1 0 c.b1 0)

theorem Conf.e1_mem (c : Conf) : c.e1 ∈ edges c.verts := by simp [Conf.edges_verts, Conf.e1]

theorem Conf.e2_mem (c : Conf) : c.e2 ∈ edges c.verts := by simp [Conf.edges_verts, Conf.e2]

/-- What holds for the first two edges, and does not depend on where the rectangles begin, holds for all edges. -/
theorem Conf.edge_ind {p : Conf → P × P → Prop} (ht : ∀ c e, p c.turn e → p c e) (h1 : ∀ c, c.Ok → p c c.e1)
    (h2 : ∀ c, c.Ok → p c c.e2) {c : Conf} (h : c.Ok) {e : P × P} (he : e ∈ edges c.verts) : p c e := by
  rw [Conf.edges_verts] at he
  simp only [List.mem_cons, List.not_mem_nil, or_false] at he
  have t1 := h.turn
  have t2 := t1.turn
  have t3 := t2.turn
  rcases he with rfl | rfl | rfl | rfl | rfl | rfl | rfl | rfl
  · exact h1 c h
  · exact h2 c h
  · have := ht _ _ (h1 _ t1)
    simp only [Conf.e1, Conf.pt_turn] at this
    simpa [Conf.turn] using this
  · have := ht _ _ (h2 _ t1)
    simp only [Conf.e2, Conf.pt_turn] at this
    simpa [Conf.turn] using this
  · have := ht _ _ (ht _ _ (h1 _ t2))
    simp only [Conf.e1, Conf.pt_turn] at this
    simpa [Conf.turn] using this
  · have := ht _ _ (ht _ _ (h2 _ t2))
    simp only [Conf.e2, Conf.pt_turn] at this
    simpa [Conf.turn] using this
  · have := ht _ _ (ht _ _ (ht _ _ (h1 _ t3)))
    simp only [Conf.e1, Conf.pt_turn] at this
    simpa [Conf.turn] using this
  · have := ht _ _ (ht _ _ (ht _ _ (h2 _ t3)))
    simp only [Conf.e2, Conf.pt_turn] at this
    simpa [Conf.turn] using this

/-- Every edge has a direction and a positive length. -/
theorem Conf.Ok.edge_dir {c : Conf} (h : c.Ok) {e : P × P} (he : e ∈ edges c.verts) :
    ∃ (l : ℝ) (t : P), 0 < l ∧ dot t t = 1 ∧ e.2 - e.1 = (l * t.1, l * t.2) := by
  refine Conf.edge_ind (p := fun _ e => ∃ (l : ℝ) (t : P), 0 < l ∧ dot t t = 1 ∧ e.2 - e.1 = (l * t.1, l * t.2))
    (fun _ _ h => h) ?_ ?_ h he
  · intro c h
    refine ⟨c.a1, c.u, h.ha1, h.hu, ?_⟩
    ext <;> simp [Conf.e1, Conf.pt]
  · intro c h
    refine ⟨c.b1, c.v, h.hb1, h.hv, ?_⟩
    ext <;> simp [Conf.e2, Conf.pt]

theorem Conf.Ok.edge_ne {c : Conf} (h : c.Ok) {e : P × P} (he : e ∈ edges c.verts) : e.1 ≠ e.2 := by
  obtain ⟨l, t, hl, ht, hd⟩ := h.edge_dir he
  intro heq
  rw [heq, sub_self] at hd
  have h1 := congrArg Prod.fst hd
  have h2 := congrArg Prod.snd hd
  simp only [Prod.fst_zero, Prod.snd_zero] at h1 h2
  have : l * dot t t = 0 := by
    simp only [dot]
    linear_combination -t.1 * h1 - t.2 * h2
  rw [ht] at this
  linarith

/-- The edges belong to the sum. -/
theorem Conf.Ok.edge_zone {c : Conf} (h : c.Ok) {e : P × P} (he : e ∈ edges c.verts) {z : P} (hz : OnEdge e z) : c.Zone z := by
  refine Conf.edge_ind (p := fun c e => ∀ z, OnEdge e z → c.Zone z) (fun c e h z hz => (c.zone_turn z).1 (h z hz)) ?_ ?_ h he z hz
  · rintro c h z ⟨t, h0, h1, rfl⟩
    have := h.ha1
    refine ⟨t * c.a1, 0, 0, 0, by positivity, by nlinarith, le_refl _, h.ha2.le, le_refl _, h.hb1.le, le_refl _, h.hb2.le, ?_⟩
    simp only [Conf.e1, Conf.pt, Prod.mk.injEq]
    constructor <;> ring
  · rintro c h z ⟨t, h0, h1, rfl⟩
    have := h.hb1
    refine ⟨c.a1, 0, t * c.b1, 0, h.ha1.le, le_refl _, le_refl _, h.ha2.le, by positivity, by nlinarith, le_refl _, h.hb2.le, ?_⟩
    simp only [Conf.e2, Conf.pt, Prod.mk.injEq]
    constructor <;> ring

/-- The sum, moved so that the given point becomes the origin. -/
def Conf.shift (c : Conf) (w : P) : Conf := { c with o := c.o - w }

theorem Conf.pt_shift (c : Conf) (w : P) (x1 x2 y1 y2 : ℝ) : (c.shift w).pt x1 x2 y1 y2 = c.pt x1 x2 y1 y2 - w := by
  ext <;> simp only [Conf.shift, Conf.pt, Prod.fst_sub, Prod.snd_sub] <;> ring

theorem Conf.zone_shift (c : Conf) (w z : P) : (c.shift w).Zone z ↔ c.Zone (z + w) := by
  constructor
  · rintro ⟨x1, x2, y1, y2, h1, h2, h3, h4, h5, h6, h7, h8, rfl⟩
    exact ⟨x1, x2, y1, y2, h1, h2, h3, h4, h5, h6, h7, h8, by rw [Conf.pt_shift, sub_add_cancel]⟩
  · rintro ⟨x1, x2, y1, y2, h1, h2, h3, h4, h5, h6, h7, h8, h⟩
    exact ⟨x1, x2, y1, y2, h1, h2, h3, h4, h5, h6, h7, h8, by rw [Conf.pt_shift, ← h, add_sub_cancel_right]⟩

theorem Conf.verts_shift (c : Conf) (w : P) : (c.shift w).verts = c.verts.map fun v => v - w := by
  unfold Conf.verts
  simp only [Conf.pt_shift]
  rfl

theorem edges_map (f : P → P) (poly : List P) : edges (poly.map f) = (edges poly).map fun e => (f e.1, f e.2) := by
  unfold edges
  rw [← List.map_drop, ← List.map_take, ← List.map_append, List.zip_map]
  rfl

theorem Conf.Ok.shift {c : Conf} (h : c.Ok) (w : P) : (c.shift w).Ok :=
  ⟨h.hu, h.hv, h.ha1, h.ha2, h.hb1, h.hb2, h.hc, h.hs⟩

/-- A point that is not to the right of any edge belongs to the sum. -/
theorem Conf.Ok.zone_of_left {c : Conf} (h : c.Ok) {w : P} (hw : ∀ e ∈ edges c.verts, 0 ≤ cross (e.2 - e.1) (w - e.1)) :
    c.Zone w := by
  obtain ⟨z, hz⟩ := Conf.exists_nearest (h.shift w)
  by_cases h0 : z = (0, 0)
  · have := (c.zone_shift w z).1 hz.1
    rw [h0] at this
    have e : ((0, 0) : P) + w = w := by
      ext <;> simp
    rwa [e] at this
  · exfalso
    obtain ⟨e, he, _, hlt⟩ := hz.beyond (h.shift w) h0
    rw [Conf.verts_shift, edges_map] at he
    obtain ⟨e', he', rfl⟩ := List.mem_map.1 he
    have := hw e' he'
    simp only [cross, Prod.fst_sub, Prod.snd_sub] at this hlt
    nlinarith

theorem Conf.onE1 {c : Conf} (h : c.Ok) {t : ℝ} (h0 : 0 ≤ t) (h1 : t ≤ c.a1) {z : P} (hz : z = c.pt t 0 0 0) :
    ∃ e ∈ edges c.verts, OnEdge e z := by
  have := h.ha1
  refine ⟨_, c.e1_mem, t / c.a1, by positivity, (div_le_one this).2 h1, ?_⟩
  rw [hz]
  simp only [Conf.e1, Conf.pt, Prod.mk.injEq]
  constructor <;> field_simp <;> ring

theorem Conf.onE2 {c : Conf} (h : c.Ok) {t : ℝ} (h0 : 0 ≤ t) (h1 : t ≤ c.b1) {z : P} (hz : z = c.pt c.a1 0 t 0) :
    ∃ e ∈ edges c.verts, OnEdge e z := by
  have := h.hb1
  refine ⟨_, c.e2_mem, t / c.b1, by positivity, (div_le_one this).2 h1, ?_⟩
  rw [hz]
  simp only [Conf.e2, Conf.pt, Prod.mk.injEq]
  constructor <;> field_simp <;> ring

theorem Conf.onE3 {c : Conf} (h : c.Ok) {t : ℝ} (h0 : 0 ≤ t) (h1 : t ≤ c.a2) {z : P} (hz : z = c.pt c.a1 t c.b1 0) :
    ∃ e ∈ edges c.verts, OnEdge e z := by
  obtain ⟨e, he, hon⟩ := Conf.onE1 (c := c.turn) h.turn h0 h1 (z := z) (by
    rw [hz, Conf.pt_turn]
    simp)
  exact ⟨e, (c.mem_edges_turn e).1 he, hon⟩

theorem Conf.onE8 {c : Conf} (h : c.Ok) {t : ℝ} (h0 : 0 ≤ t) (h1 : t ≤ c.b2) {z : P} (hz : z = c.pt 0 0 0 t) :
    ∃ e ∈ edges c.verts, OnEdge e z := by
  have := h.hb2
  refine ⟨(c.pt 0 0 0 c.b2, c.pt 0 0 0 0), by simp [Conf.edges_verts], 1 - t / c.b2, ?_, by linarith [div_nonneg h0 this.le], ?_⟩
  · rw [sub_nonneg, div_le_one this]
    exact h1
  · rw [hz]
    simp only [Conf.pt, Prod.mk.injEq]
    constructor <;> field_simp <;> ring

theorem Conf.Ok.parallel {c : Conf} (h : c.Ok) (hs : cross c.u c.v = 0) : c.v = c.u ∧ dot c.u c.v = 1 := by
  have hcs := h.unit_circle
  have hc := h.hc
  have hk : dot c.u c.v = 1 := by
    rw [hs] at hcs
    have : (dot c.u c.v - 1) * (dot c.u c.v + 1) = 0 := by linear_combination hcs
    rcases mul_eq_zero.1 this with h | h <;> linarith
  obtain ⟨e1, e2⟩ := h.v_eq
  rw [hs, hk] at e1 e2
  exact ⟨by ext <;> linarith, hk⟩

theorem Conf.Ok.square {c : Conf} (h : c.Ok) (hc : dot c.u c.v = 0) : c.v = left c.u ∧ cross c.u c.v = 1 := by
  have hcs := h.unit_circle
  have hs := h.hs
  have hk : cross c.u c.v = 1 := by
    rw [hc] at hcs
    have : (cross c.u c.v - 1) * (cross c.u c.v + 1) = 0 := by linear_combination hcs
    rcases mul_eq_zero.1 this with h | h <;> linarith
  obtain ⟨e1, e2⟩ := h.v_eq
  rw [hc, hk] at e1 e2
  exact ⟨by ext <;> simp only [left] <;> linarith, hk⟩

/-- A point of the sum on the line of an edge is on an edge. -/
theorem Conf.Ok.on_line {c : Conf} (h : c.Ok) {e : P × P} (he : e ∈ edges c.verts) {z : P} (hz : c.Zone z)
    (hl : cross (e.2 - e.1) (z - e.1) = 0) : ∃ e ∈ edges c.verts, OnEdge e z := by
  refine Conf.edge_ind (p := fun c e => ∀ z, c.Zone z → cross (e.2 - e.1) (z - e.1) = 0 → ∃ e ∈ edges c.verts, OnEdge e z)
    ?_ ?_ ?_ h he z hz hl
  · intro c e h z hz hl
    obtain ⟨e', he', hon⟩ := h z ((c.zone_turn z).2 hz) hl
    exact ⟨e', (c.mem_edges_turn e').1 he', hon⟩
  · rintro c h z ⟨x1, x2, y1, y2, h1, h2, h3, h4, h5, h6, h7, h8, rfl⟩ hl
    have hu := h.hu
    have hv := h.hv
    have hc := h.hc
    have hs := h.hs
    have ha := h.ha1
    have hsum : x2 + y1 * cross c.u c.v + y2 * dot c.u c.v = 0 := by
      have : c.a1 * (x2 + y1 * cross c.u c.v + y2 * dot c.u c.v) = 0 := by
        simp only [Conf.e1, Conf.pt, cross, dot, Prod.fst_sub, Prod.snd_sub] at hl hu ⊢
        linear_combination hl - c.a1 * x2 * hu
      exact (mul_eq_zero.1 this).resolve_left ha.ne'
    have m1 := mul_nonneg h5 hs
    have m2 := mul_nonneg h7 hc
    have z1 : x2 = 0 := by linarith
    have z2 : y1 * cross c.u c.v = 0 := by linarith
    have z3 : y2 * dot c.u c.v = 0 := by linarith
    subst z1
    rcases mul_eq_zero.1 z2 with z2 | z2
    · subst z2
      rcases mul_eq_zero.1 z3 with z3 | z3
      · subst z3
        exact Conf.onE1 h h1 h2 rfl
      · obtain ⟨hv', _⟩ := h.square z3
        by_cases hle : y2 ≤ x1
        · refine Conf.onE1 h (t := x1 - y2) (by linarith) (by linarith) ?_
          simp only [Conf.pt, hv', left, Prod.mk.injEq]
          constructor <;> ring
        · refine Conf.onE8 h (t := y2 - x1) (by linarith) (by linarith) ?_
          simp only [Conf.pt, hv', left, Prod.mk.injEq]
          constructor <;> ring
    · obtain ⟨hv', hk⟩ := h.parallel z2
      rw [hk, mul_one] at z3
      subst z3
      by_cases hle : x1 + y1 ≤ c.a1
      · refine Conf.onE1 h (t := x1 + y1) (by linarith) hle ?_
        simp only [Conf.pt, hv', Prod.mk.injEq]
        constructor <;> ring
      · refine Conf.onE2 h (t := x1 + y1 - c.a1) (by linarith) (by linarith) ?_
        simp only [Conf.pt, hv', Prod.mk.injEq]
        constructor <;> ring
  · rintro c h z ⟨x1, x2, y1, y2, h1, h2, h3, h4, h5, h6, h7, h8, rfl⟩ hl
    have hu := h.hu
    have hv := h.hv
    have hc := h.hc
    have hs := h.hs
    have hb := h.hb1
    have hsum : (c.a1 - x1) * cross c.u c.v + x2 * dot c.u c.v + y2 = 0 := by
      have : c.b1 * ((c.a1 - x1) * cross c.u c.v + x2 * dot c.u c.v + y2) = 0 := by
        simp only [Conf.e2, Conf.pt, cross, dot, Prod.fst_sub, Prod.snd_sub] at hl hv ⊢
        linear_combination hl - c.b1 * y2 * hv
      exact (mul_eq_zero.1 this).resolve_left hb.ne'
    have m1 := mul_nonneg (sub_nonneg.2 h2) hs
    have m2 := mul_nonneg h3 hc
    have z1 : y2 = 0 := by linarith
    have z2 : (c.a1 - x1) * cross c.u c.v = 0 := by linarith
    have z3 : x2 * dot c.u c.v = 0 := by linarith
    subst z1
    rcases mul_eq_zero.1 z2 with z2 | z2
    · have z2 : x1 = c.a1 := by linarith
      subst z2
      rcases mul_eq_zero.1 z3 with z3 | z3
      · subst z3
        exact Conf.onE2 h h5 h6 rfl
      · obtain ⟨hv', _⟩ := h.square z3
        by_cases hle : x2 + y1 ≤ c.b1
        · refine Conf.onE2 h (t := x2 + y1) (by linarith) hle ?_
          simp only [Conf.pt, hv', left, Prod.mk.injEq]
          constructor <;> ring
        · refine Conf.onE3 h (t := x2 + y1 - c.b1) (by linarith) (by linarith) ?_
          simp only [Conf.pt, hv', left, Prod.mk.injEq]
          constructor <;> ring
    · obtain ⟨hv', hk⟩ := h.parallel z2
      rw [hk, mul_one] at z3
      subst z3
      by_cases hle : x1 + y1 ≤ c.a1
      · refine Conf.onE1 h (t := x1 + y1) (by linarith) hle ?_
        simp only [Conf.pt, hv', Prod.mk.injEq]
        constructor <;> ring
      · refine Conf.onE2 h (t := x1 + y1 - c.a1) (by linarith) (by linarith) ?_
        simp only [Conf.pt, hv', Prod.mk.injEq]
        constructor <;> ring

theorem norm_zero_sub (z : P) : norm ((0, 0) - z) = norm z := by
  simp [norm]

theorem dot_le_norm (a b : P) : dot a b ≤ norm a * norm b := by
  have h1 := norm_sq a
  have h2 := norm_sq b
  have h3 := norm_nonneg a
  have h4 := norm_nonneg b
  refine le_of_sq_le_sq ?_ (by positivity)
  rw [mul_pow, h1, h2]
  simp only [dot]
  nlinarith [sq_nonneg (a.1 * b.2 - a.2 * b.1)]
where
  le_of_sq_le_sq {x y : ℝ} (h : x ^ 2 ≤ y ^ 2) (hy : 0 ≤ y) : x ≤ y := by
    by_contra hlt
    nlinarith

theorem norm_left (a : P) : norm (left a) = norm a := by
  simp only [norm, left]
  congr 1
  ring

/-- The signed distance of the origin: the distance to the nearest point of the sum outside of it; inside, the largest radius of a
disc within the sum, negative. -/
theorem Conf.Ok.signed {c : Conf} (h : c.Ok) : ∃ d : ℝ, signedDistance (0, 0) c.verts = some d ∧
    (¬c.Zone (0, 0) → 0 < d ∧ (∃ z, c.Zone z ∧ norm z = d) ∧ ∀ z, c.Zone z → d ≤ norm z) ∧
    (c.Zone (0, 0) → d ≤ 0 ∧ (∀ w, norm w ≤ -d → c.Zone w) ∧ ∃ n, norm n = 1 ∧ ∀ z, c.Zone z → d ≤ dot n z) := by
  obtain ⟨m, ⟨e0, he0, z0, hon0, hm0⟩, hmin, hin, hout⟩ :=
    signedDistance_spec (0, 0) (poly := c.verts) (by simp [Conf.verts]) (fun e he => h.edge_ne he)
  rw [norm_zero_sub] at hm0
  have hm : 0 ≤ m := hm0 ▸ norm_nonneg _
  by_cases hz : c.Zone (0, 0)
  · refine ⟨-m, hin fun e he => h.left_of hz he, fun hn => absurd hz hn, fun _ => ?_⟩
    have hne : (edges c.verts).map (fun e => cross (e.2 - e.1) ((0, 0) - e.1) / norm (e.2 - e.1)) ≠ [] := by
      simp [Conf.edges_verts]
    obtain ⟨p, hp, _, hpmin⟩ := least_spec hne
    obtain ⟨e, he, rfl⟩ := List.mem_map.1 hp
    obtain ⟨l, t, hl, ht, hd⟩ := h.edge_dir he
    have hnt : norm t = 1 := norm_eq_of_sq zero_le_one (by simp only [dot] at ht; linarith)
    have hlen : ∀ {l : ℝ} {t : P}, 0 < l → dot t t = 1 → norm (l * t.1, l * t.2) = l := by
      intro l t hl ht
      apply norm_eq_of_sq hl.le
      simp only [dot] at ht
      linear_combination l ^ 2 * ht
    set p := cross (e.2 - e.1) ((0, 0) - e.1) / norm (e.2 - e.1) with hpdef
    have hp0 : 0 ≤ p := div_nonneg (h.left_of hz he) (norm_nonneg _)
    have hpe : p = -dot (left t) e.1 := by
      rw [hpdef, hd, hlen hl ht]
      simp only [cross, dot, left, Prod.fst_sub, Prod.snd_sub]
      field_simp
      ring
    set f : P := (-p * (left t).1, -p * (left t).2) with hf
    have hnf : norm f = p := by
      apply norm_eq_of_sq hp0
      simp only [hf, left, dot] at ht ⊢
      linear_combination p ^ 2 * ht
    have key : ∀ w : P, norm w ≤ p → c.Zone w := by
      intro w hw
      apply h.zone_of_left
      intro e' he'
      obtain ⟨l', t', hl', ht', hd'⟩ := h.edge_dir he'
      have hp' := hpmin _ (List.mem_map.2 ⟨e', he', rfl⟩)
      rw [hd', hlen hl' ht'] at hp'
      have hnt' : norm t' = 1 := norm_eq_of_sq zero_le_one (by simp only [dot] at ht'; linarith)
      have hdw := dot_le_norm (left t') (-w.1, -w.2)
      have hnw : norm (-w.1, -w.2) = norm w := by simp [norm]
      rw [norm_left, hnt', hnw, one_mul] at hdw
      have e3 : cross (l' * t'.1, l' * t'.2) ((0, 0) - e'.1) / l' = -dot (left t') e'.1 := by
        simp only [cross, dot, left, Prod.fst_sub, Prod.snd_sub]
        field_simp
        ring
      rw [e3] at hp'
      rw [hd']
      have e4 : cross (l' * t'.1, l' * t'.2) (w - e'.1) = l' * (dot (left t') w - dot (left t') e'.1) := by
        simp only [cross, dot, left, Prod.fst_sub, Prod.snd_sub]
        ring
      rw [e4]
      have e5 : dot (left t') (-w.1, -w.2) = -dot (left t') w := by
        simp only [dot]
        ring
      rw [e5] at hdw
      exact mul_nonneg hl'.le (by linarith)
    have hfz := key f hnf.le
    obtain ⟨e', he', hon⟩ := h.on_line he hfz (by
      rw [hd]
      have : cross (l * t.1, l * t.2) (f - e.1) = l * (dot (left t) f - dot (left t) e.1) := by
        simp only [cross, dot, left, Prod.fst_sub, Prod.snd_sub]
        ring
      rw [this]
      have : dot (left t) f = -p := by
        simp only [hf, left, dot] at ht ⊢
        linear_combination -p * ht
      rw [this, hpe]
      ring)
    have hmp : m ≤ p := by
      have := hmin e' he' f hon
      rw [norm_zero_sub, hnf] at this
      exact this
    refine ⟨by linarith, fun w hw => key w (by linarith), left t, by rw [norm_left, hnt], fun z hz' => ?_⟩
    have h1 := h.left_of hz' he
    have hz0 := h.edge_zone he0 hon0
    rw [hd] at h1
    have e4 : cross (l * t.1, l * t.2) (z - e.1) = l * (dot (left t) z - dot (left t) e.1) := by
      simp only [cross, dot, left, Prod.fst_sub, Prod.snd_sub]
      ring
    rw [e4] at h1
    have h2 : 0 ≤ dot (left t) z - dot (left t) e.1 := nonneg_of_mul_nonneg_right h1 hl
    obtain ⟨l0, t0, hl0, ht0, hd0⟩ := h.edge_dir he0
    have hp' := hpmin _ (List.mem_map.2 ⟨e0, he0, rfl⟩)
    rw [hd0, hlen hl0 ht0] at hp'
    have e3 : cross (l0 * t0.1, l0 * t0.2) ((0, 0) - e0.1) / l0 = -dot (left t0) e0.1 := by
      simp only [cross, dot, left, Prod.fst_sub, Prod.snd_sub]
      field_simp
      ring
    rw [e3] at hp'
    have hnt0 : norm t0 = 1 := norm_eq_of_sq zero_le_one (by simp only [dot] at ht0; linarith)
    have hdw := dot_le_norm (left t0) (-z0.1, -z0.2)
    have hnw : norm (-z0.1, -z0.2) = norm z0 := by simp [norm]
    rw [norm_left, hnt0, hnw, one_mul, hm0] at hdw
    obtain ⟨r, _, _, hz0eq⟩ := hon0
    have d1 := congrArg Prod.fst hd0
    have d2 := congrArg Prod.snd hd0
    simp only [Prod.fst_sub, Prod.snd_sub] at d1 d2
    have e6 : dot (left t0) (-z0.1, -z0.2) = -dot (left t0) e0.1 := by
      rw [hz0eq]
      simp only [dot, left]
      rw [d1, d2]
      ring
    rw [e6] at hdw
    linarith
  · obtain ⟨z, hn⟩ := Conf.exists_nearest h
    have hz0 : z ≠ (0, 0) := by
      rintro rfl
      exact hz hn.1
    obtain ⟨e, he, hon, hlt⟩ := hn.beyond h hz0
    have hzm : m ≤ norm z := by
      have := hmin e he z hon
      rwa [norm_zero_sub] at this
    have hmz : norm z ≤ m := by
      rw [← hm0]
      apply norm_le_norm
      have := hn.2 z0 (h.edge_zone he0 hon0)
      simp only [dot] at this
      linarith
    have heq : m = norm z := le_antisymm hzm hmz
    refine ⟨m, hout ⟨e, he, hlt⟩, fun _ => ⟨?_, ⟨z, hn.1, heq.symm⟩, ?_⟩, fun h' => absurd h' hz⟩
    · rw [heq]
      exact lt_of_le_of_ne (norm_nonneg _) (fun h' => hz0 (norm_eq_zero.1 h'.symm))
    · intro z' hz'
      rw [heq]
      apply norm_le_norm
      have := hn.2 z' hz'
      simp only [dot] at this
      linarith

end Verif.Planar
