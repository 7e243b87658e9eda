import Verif.Lemmas.Octagon
import Verif.Model.Interaction
import Verif.Props.RangeImage

/-!
The distance of two boxes with rounded corners: wdl_limited/sim_agents_metrics/interaction_features.py, `pairDistance`.
-/

namespace Verif.Planar

open Verif.RangeImage (argmin argmin_spec)

/-! ### Specification -/

/-- The signed distance of the origin to a set: outside, the distance to the nearest point; inside, the negative radius of the
largest disc in the set, with a half plane that shows it cannot be larger. -/
def IsSigned (D : P → Prop) (d : ℝ) : Prop :=
  (0 < d → (∃ z, D z ∧ norm z = d) ∧ ∀ z, D z → d ≤ norm z) ∧
    (d ≤ 0 → (∀ w, norm w ≤ -d → D w) ∧ ∃ n, norm n = 1 ∧ ∀ z, D z → d ≤ dot n z)

theorem norm_zero : norm (0, 0) = 0 := by simp [norm]

theorem norm_smul (t : ℝ) (a : P) : norm (t * a.1, t * a.2) = |t| * norm a := by
  apply norm_eq_of_sq (mul_nonneg (abs_nonneg _) (norm_nonneg _))
  simp only
  rw [mul_pow |t|, sq_abs, norm_sq]
  ring

theorem norm_add (a b : P) : norm (a + b) ≤ norm a + norm b := by
  apply norm_le_of_sq (add_nonneg (norm_nonneg _) (norm_nonneg _))
  have h := dot_le_norm a b
  have h1 := norm_sq a
  have h2 := norm_sq b
  simp only [dot] at h
  simp only [Prod.fst_add, Prod.snd_add]
  nlinarith

theorem norm_neg (a : P) : norm (-a) = norm a := by
  simp [norm]

/-- There is only one signed distance. -/
theorem IsSigned.unique {D : P → Prop} {d d' : ℝ} (h : IsSigned D d) (h' : IsSigned D d') : d = d' := by
  have mixed : ∀ {d d' : ℝ}, IsSigned D d → IsSigned D d' → 0 < d → d' ≤ 0 → False := by
    intro d d' h h' hd hd'
    have h1 := (h'.2 hd').1 (0, 0) (by rw [norm_zero]; linarith)
    have h2 := (h.1 hd).2 _ h1
    rw [norm_zero] at h2
    linarith
  have inner : ∀ {d d' : ℝ}, IsSigned D d → IsSigned D d' → d ≤ 0 → d' ≤ 0 → d' ≤ d := by
    intro d d' h h' hd hd'
    obtain ⟨n, hn, hz⟩ := (h'.2 hd').2
    have h1 := (h.2 hd).1 (d * n.1, d * n.2) (by rw [norm_smul, hn, mul_one, abs_of_nonpos hd])
    have h2 := hz _ h1
    have h3 := norm_sq n
    rw [hn] at h3
    simp only [dot] at h2
    nlinarith
  rcases lt_or_ge 0 d with hd | hd
  · rcases lt_or_ge 0 d' with hd' | hd'
    · obtain ⟨⟨z, hz, hzd⟩, hmin⟩ := h.1 hd
      obtain ⟨⟨z', hz', hzd'⟩, hmin'⟩ := h'.1 hd'
      have h1 := hmin _ hz'
      have h2 := hmin' _ hz
      linarith
    · exact (mixed h h' hd hd').elim
  · rcases lt_or_ge 0 d' with hd' | hd'
    · exact (mixed h' h hd' hd).elim
    · exact le_antisymm (inner h' h hd' hd) (inner h h' hd hd')

theorem IsSigned.neg {D : P → Prop} {d : ℝ} (h : IsSigned D d) : IsSigned (fun z => D (-z)) d := by
  refine ⟨fun hd => ⟨?_, fun z hz => ?_⟩, fun hd => ⟨fun w hw => (h.2 hd).1 _ (by rwa [norm_neg]), ?_⟩⟩
  · obtain ⟨z, hz, hzd⟩ := (h.1 hd).1
    exact ⟨-z, by simpa using hz, by rw [norm_neg, hzd]⟩
  · rw [← norm_neg]
    exact (h.1 hd).2 _ hz
  · obtain ⟨n, hn, hall⟩ := (h.2 hd).2
    refine ⟨-n, by rw [norm_neg, hn], fun z hz => ?_⟩
    have := hall _ hz
    simpa [dot] using this

/-! ### Rectangles -/

/-- A rectangle: a corner, the direction of the side that begins there, and the lengths of its sides. -/
structure Rect where
  p : P
  u : P
  a : ℝ
  b : ℝ

/-- The corners, counter-clockwise. -/
def Rect.list (r : Rect) : List P :=
  [r.p, (r.p.1 + r.a * r.u.1, r.p.2 + r.a * r.u.2), (r.p.1 + r.a * r.u.1 - r.b * r.u.2, r.p.2 + r.a * r.u.2 + r.b * r.u.1),
    (r.p.1 - r.b * r.u.2, r.p.2 + r.b * r.u.1)]

structure Rect.Ok (r : Rect) : Prop where
  hu : dot r.u r.u = 1
  ha : 0 < r.a
  hb : 0 < r.b

def Rect.Region (r : Rect) (z : P) : Prop :=
  ∃ x y : ℝ, 0 ≤ x ∧ x ≤ r.a ∧ 0 ≤ y ∧ y ≤ r.b ∧ z = (r.p.1 + x * r.u.1 - y * r.u.2, r.p.2 + x * r.u.2 + y * r.u.1)

/-- The same rectangle, beginning at the next corner. -/
def Rect.turn (r : Rect) : Rect := ⟨(r.p.1 + r.a * r.u.1, r.p.2 + r.a * r.u.2), left r.u, r.b, r.a⟩

theorem Rect.Ok.turn {r : Rect} (h : r.Ok) : r.turn.Ok :=
  ⟨by have := h.hu; simp only [Rect.turn, left, dot] at this ⊢; linarith, h.hb, h.ha⟩

theorem Rect.list_turn (r : Rect) : r.turn.list = r.list.drop 1 ++ r.list.take 1 := by
  simp only [Rect.turn, Rect.list, left, List.drop, List.take, List.cons_append, List.nil_append]
  congr 1
  congr 1
  · ext <;> simp only <;> ring
  congr 1
  · ext <;> simp only <;> ring
  congr 1
  ext <;> simp only <;> ring

theorem Rect.region_turn (r : Rect) (z : P) : r.turn.Region z ↔ r.Region z := by
  constructor
  · rintro ⟨x, y, h1, h2, h3, h4, rfl⟩
    simp only [Rect.turn] at h2 h4
    refine ⟨r.a - y, x, by linarith, by linarith, h1, h2, ?_⟩
    simp only [Rect.turn, left, Prod.mk.injEq]
    constructor <;> ring
  · rintro ⟨x, y, h1, h2, h3, h4, rfl⟩
    refine ⟨y, r.a - x, h3, h4, by linarith, by simp only [Rect.turn]; linarith, ?_⟩
    simp only [Rect.turn, left, Prod.mk.injEq]
    constructor <;> ring

theorem Rect.unit_side {r : Rect} (h : r.Ok) {x y : P} (hx : r.list[0]? = some x) (hy : r.list[1]? = some y) :
    unit (y - x) = some r.u := by
  simp only [Rect.list, List.getElem?_cons_zero, List.getElem?_cons_succ, Option.some.injEq] at hx hy
  have hn : norm (y - x) = r.a := by
    apply norm_eq_of_sq h.ha.le
    have := h.hu
    rw [← hx, ← hy]
    simp only [dot, Prod.fst_sub, Prod.snd_sub] at this ⊢
    linear_combination r.a ^ 2 * this
  have ha := h.ha.ne'
  rw [unit, hn, if_neg ha, ← hx, ← hy]
  simp only [Prod.fst_sub, Prod.snd_sub, Option.some.injEq]
  ext
  · simp only
    field_simp
    ring
  · simp only
    field_simp
    ring

/-- The rectangle, beginning at its lowest corner. -/
theorem Rect.downmost {r : Rect} (h : r.Ok) : ∃ (i : ℕ) (s : Rect), Planar.downmost r.list = some (i, s.u) ∧ s.Ok ∧ 0 ≤ s.u.1 ∧
    0 ≤ s.u.2 ∧ (∀ z, s.Region z ↔ r.Region z) ∧ ∀ k, r.list[(k + i) % 4]? = s.list[k % 4]? := by
  obtain ⟨m, hm, hmin⟩ := argmin_spec (l := r.list.map Prod.snd) (by simp [Rect.list])
  have hi : argmin (r.list.map Prod.snd) < 4 := by
    have := (List.getElem?_eq_some_iff.1 hm).1
    simpa [Rect.list] using this
  have key : ∀ (i : ℕ) (s : Rect), argmin (r.list.map Prod.snd) = i → s.Ok → (∀ z, s.Region z ↔ r.Region z) →
      (∀ k, r.list[(k + i) % 4]? = s.list[k % 4]?) → ∃ (i : ℕ) (s : Rect), Planar.downmost r.list = some (i, s.u) ∧ s.Ok ∧
      0 ≤ s.u.1 ∧ 0 ≤ s.u.2 ∧ (∀ z, s.Region z ↔ r.Region z) ∧ ∀ k, r.list[(k + i) % 4]? = s.list[k % 4]? := by
    intro i s hai hs hreg hk
    rw [hai] at hm hi
    have h0 := hk 0
    have h1 := hk 1
    have h3 := hk 3
    rw [zero_add, Nat.mod_eq_of_lt hi, Nat.zero_mod] at h0
    rw [Nat.mod_eq_of_lt (by norm_num : 1 < 4)] at h1
    rw [Nat.mod_eq_of_lt (by norm_num : 3 < 4)] at h3
    have hlow : ∀ v ∈ r.list, s.p.2 ≤ v.2 := by
      intro v hv
      rw [List.getElem?_map, h0] at hm
      simp only [Rect.list, List.getElem?_cons_zero, Option.map_some, Option.some.injEq] at hm
      rw [hm]
      exact hmin _ (List.mem_map_of_mem hv)
    have m1 := hlow _ (List.mem_of_getElem? (h1.trans (by simp only [Rect.list, List.getElem?_cons_zero, List.getElem?_cons_succ]; rfl)))
    have m3 := hlow _ (List.mem_of_getElem? (h3.trans (by simp only [Rect.list, List.getElem?_cons_zero, List.getElem?_cons_succ]; rfl)))
    simp only at m1 m3
    refine ⟨i, s, ?_, hs, ?_, ?_, hreg, hk⟩
    · have hu := Rect.unit_side hs (x := s.p) (y := (s.p.1 + s.a * s.u.1, s.p.2 + s.a * s.u.2)) rfl rfl
      unfold Planar.downmost
      simp only [hai]
      rw [h0]
      simp only [Rect.list, List.getElem?_cons_zero, Option.bind_eq_bind, Option.bind_some]
      rw [add_comm i 1]
      have : r.list[(1 + i) % 4]? = some (s.p.1 + s.a * s.u.1, s.p.2 + s.a * s.u.2) := h1
      simp only [Rect.list] at this
      rw [this]
      simp only [Option.bind_some]
      rw [hu]
      rfl
    · have := hs.hb
      nlinarith
    · have := hs.ha
      nlinarith
  have t1 := h.turn
  have t2 := t1.turn
  have t3 := t2.turn
  have step : ∀ (r : Rect) (k : ℕ), r.turn.list[k % 4]? = r.list[(k + 1) % 4]? := by
    intro r k
    rw [Rect.list_turn, Nat.add_mod]
    have : k % 4 < 4 := Nat.mod_lt _ (by norm_num)
    generalize k % 4 = j at *
    interval_cases j <;> rfl
  obtain ⟨i, hai⟩ : ∃ i, argmin (r.list.map Prod.snd) = i := ⟨_, rfl⟩
  rw [hai] at hi
  interval_cases i
  · exact key 0 r hai h (fun _ => Iff.rfl) (fun k => by rw [add_zero])
  · exact key 1 r.turn hai t1 (fun z => r.region_turn z) (fun k => (step r k).symm)
  · refine key 2 r.turn.turn hai t2 (fun z => (r.turn.region_turn z).trans (r.region_turn z)) (fun k => ?_)
    rw [step, step]
  · refine key 3 r.turn.turn.turn hai t3 (fun z => (r.turn.turn.region_turn z).trans ((r.turn.region_turn z).trans (r.region_turn z)))
      (fun k => ?_)
    rw [step, step, step]

theorem pick1 {r s : Rect} {i : ℕ} (h : ∀ k, r.list[(k + i) % 4]? = s.list[k % 4]?) :
    pick r.list order1 i = some [s.p, s.p, (s.p.1 + s.a * s.u.1, s.p.2 + s.a * s.u.2), (s.p.1 + s.a * s.u.1, s.p.2 + s.a * s.u.2),
      (s.p.1 + s.a * s.u.1 - s.b * s.u.2, s.p.2 + s.a * s.u.2 + s.b * s.u.1),
      (s.p.1 + s.a * s.u.1 - s.b * s.u.2, s.p.2 + s.a * s.u.2 + s.b * s.u.1),
      (s.p.1 - s.b * s.u.2, s.p.2 + s.b * s.u.1), (s.p.1 - s.b * s.u.2, s.p.2 + s.b * s.u.1)] := by
  simp only [pick, order1, h]
  rfl

theorem pick2 {r s : Rect} {i : ℕ} (h : ∀ k, r.list[(k + i) % 4]? = s.list[k % 4]?) :
    pick r.list order2 i = some [s.p, (s.p.1 + s.a * s.u.1, s.p.2 + s.a * s.u.2), (s.p.1 + s.a * s.u.1, s.p.2 + s.a * s.u.2),
      (s.p.1 + s.a * s.u.1 - s.b * s.u.2, s.p.2 + s.a * s.u.2 + s.b * s.u.1),
      (s.p.1 + s.a * s.u.1 - s.b * s.u.2, s.p.2 + s.a * s.u.2 + s.b * s.u.1),
      (s.p.1 - s.b * s.u.2, s.p.2 + s.b * s.u.1), (s.p.1 - s.b * s.u.2, s.p.2 + s.b * s.u.1), s.p] := by
  simp only [pick, order2, h]
  rfl

theorem zone_iff (r s : Rect) (z : P) : (Conf.mk (r.p + s.p) r.u s.u r.a r.b s.a s.b).Zone z ↔
    ∃ p q, r.Region p ∧ s.Region q ∧ z = p + q := by
  constructor
  · rintro ⟨x1, x2, y1, y2, h1, h2, h3, h4, h5, h6, h7, h8, rfl⟩
    refine ⟨_, _, ⟨x1, x2, h1, h2, h3, h4, rfl⟩, ⟨y1, y2, h5, h6, h7, h8, rfl⟩, ?_⟩
    ext <;> simp only [Conf.pt, Prod.fst_add, Prod.snd_add] <;> ring
  · rintro ⟨_, _, ⟨x1, x2, h1, h2, h3, h4, rfl⟩, ⟨y1, y2, h5, h6, h7, h8, rfl⟩, rfl⟩
    refine ⟨x1, x2, y1, y2, h1, h2, h3, h4, h5, h6, h7, h8, ?_⟩
    ext <;> simp only [Conf.pt, Prod.fst_add, Prod.snd_add] <;> ring

/-- The sum of two rectangles is an octagon around the sums of their points. -/
theorem minkowskiSum_spec {r s : Rect} (hr : r.Ok) (hs : s.Ok) : ∃ c : Conf, c.Ok ∧ minkowskiSum r.list s.list = some c.verts ∧
    ∀ z, c.Zone z ↔ ∃ p q, r.Region p ∧ s.Region q ∧ z = p + q := by
  obtain ⟨i, r', hd, hr', hr1, hr2, hreg, hk⟩ := Rect.downmost hr
  obtain ⟨j, s', hd', hs', hs1, hs2, hreg', hk'⟩ := Rect.downmost hs
  by_cases hc : 0 ≤ cross r'.u s'.u
  · refine ⟨Conf.mk (r'.p + s'.p) r'.u s'.u r'.a r'.b s'.a s'.b, ⟨hr'.hu, hs'.hu, hr'.ha, hr'.hb, hs'.ha, hs'.hb, ?_, hc⟩, ?_, ?_⟩
    · exact add_nonneg (mul_nonneg hr1 hs1) (mul_nonneg hr2 hs2)
    · unfold minkowskiSum
      rw [hd, Option.bind_eq_bind, Option.bind_some, hd', Option.bind_eq_bind, Option.bind_some]
      simp only [if_pos hc]
      rw [pick2 hk, pick1 hk']
      simp only [Option.bind_eq_bind, Option.bind_some, Option.pure_def, Option.some.injEq, Conf.verts, List.zipWith_cons_cons,
        List.zipWith_nil_right, List.cons.injEq, and_true]
      refine ⟨?_, ?_, ?_, ?_, ?_, ?_, ?_, ?_⟩ <;> ext <;> simp only [Conf.pt, Prod.fst_add, Prod.snd_add] <;> ring
    · intro z
      rw [zone_iff]
      simp only [hreg, hreg']
  · refine ⟨Conf.mk (s'.p + r'.p) s'.u r'.u s'.a s'.b r'.a r'.b, ⟨hs'.hu, hr'.hu, hs'.ha, hs'.hb, hr'.ha, hr'.hb, ?_, ?_⟩, ?_, ?_⟩
    · exact add_nonneg (mul_nonneg hs1 hr1) (mul_nonneg hs2 hr2)
    · simp only [cross] at hc ⊢
      linarith
    · unfold minkowskiSum
      rw [hd, Option.bind_eq_bind, Option.bind_some, hd', Option.bind_eq_bind, Option.bind_some]
      simp only [if_neg hc]
      rw [pick1 hk, pick2 hk']
      simp only [Option.bind_eq_bind, Option.bind_some, Option.pure_def, Option.some.injEq, Conf.verts, List.zipWith_cons_cons,
        List.zipWith_nil_right, List.cons.injEq, and_true]
      refine ⟨?_, ?_, ?_, ?_, ?_, ?_, ?_, ?_⟩ <;> ext <;> simp only [Conf.pt, Prod.fst_add, Prod.snd_add] <;> ring
    · intro z
      rw [zone_iff]
      simp only [hreg, hreg']
      constructor
      · rintro ⟨p, q, h1, h2, h3⟩
        exact ⟨q, p, h2, h1, by rw [h3, add_comm]⟩
      · rintro ⟨p, q, h1, h2, h3⟩
        exact ⟨q, p, h2, h1, by rw [h3, add_comm]⟩

/-! ### Rounding -/

theorem Conf.zone_convex (c : Conf) {z z' : P} (h : c.Zone z) (h' : c.Zone z') {t : ℝ} (h0 : 0 ≤ t) (h1 : t ≤ 1) :
    c.Zone ((1 - t) * z.1 + t * z'.1, (1 - t) * z.2 + t * z'.2) := by
  obtain ⟨x1, x2, y1, y2, a1, a2, a3, a4, a5, a6, a7, a8, rfl⟩ := h
  obtain ⟨x1', x2', y1', y2', b1, b2, b3, b4, b5, b6, b7, b8, rfl⟩ := h'
  have g := sub_nonneg.2 h1
  refine ⟨(1 - t) * x1 + t * x1', (1 - t) * x2 + t * x2', (1 - t) * y1 + t * y1', (1 - t) * y2 + t * y2', by positivity, ?_,
    by positivity, ?_, by positivity, ?_, by positivity, ?_, ?_⟩
  · nlinarith
  · nlinarith
  · nlinarith
  · nlinarith
  · simp only [Conf.pt, Prod.mk.injEq]
    constructor <;> ring

/-- The sum lies in a half plane at the signed distance from the origin. -/
def HalfPlane (D : P → Prop) (d : ℝ) : Prop := ∃ n, norm n = 1 ∧ ∀ z, D z → d ≤ dot n z

theorem Conf.Ok.isSigned {c : Conf} (h : c.Ok) : ∃ d, signedDistance (0, 0) c.verts = some d ∧ IsSigned c.Zone d ∧ HalfPlane c.Zone d ∧
    (c.Zone (0, 0) ↔ d ≤ 0) := by
  obtain ⟨d, hd, hout, hin⟩ := h.signed
  by_cases hz : c.Zone (0, 0)
  · obtain ⟨h1, h2, h3⟩ := hin hz
    exact ⟨d, hd, ⟨fun h => absurd h (not_lt.2 h1), fun _ => ⟨h2, h3⟩⟩, h3, ⟨fun _ => h1, fun _ => hz⟩⟩
  · obtain ⟨h1, ⟨z0, hz0, hzd⟩, h3⟩ := hout hz
    refine ⟨d, hd, ⟨fun _ => ⟨⟨z0, hz0, hzd⟩, h3⟩, fun h => absurd h1 (not_lt.2 h)⟩, ⟨(1 / d * z0.1, 1 / d * z0.2), ?_, ?_⟩,
      ⟨fun h => absurd h hz, fun h => absurd h1 (not_lt.2 h)⟩⟩
    · rw [norm_smul, hzd, abs_of_pos (by positivity)]
      field_simp
    · intro z hz
      have hsq := norm_sq z0
      rw [hzd] at hsq
      have key : 0 ≤ z0.1 * (z.1 - z0.1) + z0.2 * (z.2 - z0.2) := by
        by_contra hneg
        push Not at hneg
        set g := z0.1 * (z.1 - z0.1) + z0.2 * (z.2 - z0.2) with hg
        set q := (z.1 - z0.1) ^ 2 + (z.2 - z0.2) ^ 2 with hq
        have hq0 : 0 < q := by
          rcases (by positivity : 0 ≤ q).lt_or_eq with h | h
          · exact h
          · have e1 : z.1 - z0.1 = 0 := by nlinarith [sq_nonneg (z.1 - z0.1), sq_nonneg (z.2 - z0.2)]
            have e2 : z.2 - z0.2 = 0 := by nlinarith [sq_nonneg (z.1 - z0.1), sq_nonneg (z.2 - z0.2)]
            rw [hg, e1, e2] at hneg
            linarith
        have hmin : 0 < min 1 (-g / q) := lt_min one_pos (div_pos (by linarith) hq0)
        set t := min 1 (-g / q) with ht
        have hle := h3 _ (Conf.zone_convex c hz0 hz hmin.le (min_le_left _ _))
        have hsq' := norm_sq ((1 - t) * z0.1 + t * z.1, (1 - t) * z0.2 + t * z.2)
        have hle2 : d ^ 2 ≤ norm ((1 - t) * z0.1 + t * z.1, (1 - t) * z0.2 + t * z.2) ^ 2 := by
          gcongr
        rw [hsq'] at hle2
        simp only at hle2
        have e : ((1 - t) * z0.1 + t * z.1) ^ 2 + ((1 - t) * z0.2 + t * z.2) ^ 2 = d ^ 2 + t * (2 * g + t * q) := by
          rw [hsq, hg, hq]
          ring
        rw [e] at hle2
        have htq : t * q ≤ -g := by
          have := min_le_right 1 (-g / q)
          rw [← ht] at this
          calc t * q ≤ -g / q * q := by gcongr
            _ = -g := by field_simp
        nlinarith
      simp only [dot]
      have : d ^ 2 ≤ z0.1 * z.1 + z0.2 * z.2 := by nlinarith
      calc d = 1 / d * d ^ 2 := by field_simp
        _ ≤ 1 / d * (z0.1 * z.1 + z0.2 * z.2) := by gcongr
        _ = 1 / d * z0.1 * z.1 + 1 / d * z0.2 * z.2 := by ring

/-- All points within a distance of a set. -/
def Inflate (D : P → Prop) (s : ℝ) (z : P) : Prop := ∃ z0 e, D z0 ∧ norm e ≤ s ∧ z = z0 + e

theorem split_norm {w : P} {r s : ℝ} (hr : 0 ≤ r) (hs : 0 ≤ s) (h : norm w ≤ r + s) :
    ∃ e1 e2, norm e1 ≤ r ∧ norm e2 ≤ s ∧ w = e1 + e2 := by
  by_cases h0 : r + s = 0
  · have : w = (0, 0) := norm_eq_zero.1 (le_antisymm (by linarith) (norm_nonneg _))
    exact ⟨(0, 0), (0, 0), by rw [norm_zero]; exact hr, by rw [norm_zero]; exact hs, by rw [this]; simp⟩
  · have hpos : 0 < r + s := lt_of_le_of_ne (by linarith) (Ne.symm h0)
    refine ⟨(r / (r + s) * w.1, r / (r + s) * w.2), (s / (r + s) * w.1, s / (r + s) * w.2), ?_, ?_, ?_⟩
    · rw [norm_smul, abs_of_nonneg (by positivity)]
      calc r / (r + s) * norm w ≤ r / (r + s) * (r + s) := by gcongr
        _ = r := by field_simp
    · rw [norm_smul, abs_of_nonneg (by positivity)]
      calc s / (r + s) * norm w ≤ s / (r + s) * (r + s) := by gcongr
        _ = s := by field_simp
    · ext
      · simp only [Prod.fst_add]
        field_simp
      · simp only [Prod.snd_add]
        field_simp

theorem norm_sub_le (a b : P) : norm a - norm b ≤ norm (a + b) := by
  have := norm_add (a + b) (-b)
  rw [norm_neg, add_neg_cancel_right] at this
  linarith

/-- Rounding the corners moves the outline by the radius. -/
theorem IsSigned.inflate {D : P → Prop} {d s : ℝ} (h : IsSigned D d) (hp : HalfPlane D d) (hs : 0 ≤ s) : IsSigned (Inflate D s) (d - s) := by
  constructor
  · intro hd
    have hd' : 0 < d := by linarith
    obtain ⟨⟨z, hz, hzd⟩, hmin⟩ := h.1 hd'
    constructor
    · refine ⟨z + (-(s / d) * z.1, -(s / d) * z.2), ⟨z, _, hz, ?_, rfl⟩, ?_⟩
      · rw [norm_smul, hzd, abs_neg, abs_of_nonneg (by positivity)]
        field_simp
        exact le_refl _
      · have e : z + (-(s / d) * z.1, -(s / d) * z.2) = ((1 - s / d) * z.1, (1 - s / d) * z.2) := by
          ext <;> simp only [Prod.fst_add, Prod.snd_add] <;> ring
        rw [e, norm_smul, hzd, abs_of_nonneg]
        · field_simp
        · rw [sub_nonneg, div_le_one hd']
          linarith
    · rintro z' ⟨z0, e, hz0, he, rfl⟩
      have := hmin z0 hz0
      have := norm_sub_le z0 e
      linarith
  · intro hd
    constructor
    · intro w hw
      rcases lt_or_ge 0 d with hd' | hd'
      · obtain ⟨⟨z, hz, hzd⟩, hmin⟩ := h.1 hd'
        refine ⟨z, w - z, hz, ?_, by rw [add_sub_cancel]⟩
        have := norm_add w (-z)
        rw [norm_neg, ← sub_eq_add_neg] at this
        linarith
      · obtain ⟨e1, e2, h1, h2, rfl⟩ := split_norm (w := w) (r := -d) (s := s) (by linarith) hs (by linarith)
        exact ⟨e1, e2, (h.2 hd').1 e1 h1, h2, rfl⟩
    · obtain ⟨n, hn, hall⟩ := hp
      refine ⟨n, hn, ?_⟩
      rintro z ⟨z0, e, hz0, he, rfl⟩
      have h1 := hall z0 hz0
      have h2 := dot_le_norm n (-e)
      rw [norm_neg, hn, one_mul] at h2
      simp only [dot, Prod.fst_add, Prod.snd_add, Prod.fst_neg, Prod.snd_neg] at h1 h2 ⊢
      linarith

end Verif.Planar

namespace Verif.Interaction

open Verif.Planar

/-- The points of a rectangle with the given size around the position of an object, turned by its heading. -/
def InBox (o : Obj) (l w : ℝ) (z : P) : Prop :=
  ∃ ξ η : ℝ, |ξ| ≤ l / 2 ∧ |η| ≤ w / 2 ∧
    z = (o.x + ξ * Real.cos o.heading - η * Real.sin o.heading, o.y + ξ * Real.sin o.heading + η * Real.cos o.heading)

/-- The box of an object with rounded corners: all points within the rounding radius, a fraction of half the smaller side, of the
rectangle that is smaller by this radius on all sides. -/
def Rounded (f : ℝ) (o : Obj) (z : P) : Prop :=
  ∃ p, InBox o (o.length - min o.length o.width * f) (o.width - min o.length o.width * f) p ∧
    Planar.norm (z - p) ≤ min o.length o.width * f / 2

/-- The differences of the points of two objects. -/
def Difference (f : ℝ) (a b : Obj) (z : P) : Prop := ∃ p q, Rounded f a p ∧ Rounded f b q ∧ z = p - q

/-- The lower corners of a box as a rectangle. -/
noncomputable def rectOf (o : Obj) (l w : ℝ) : Rect :=
  ⟨(o.x + l / 2 * Real.cos o.heading - w / 2 * Real.sin o.heading, o.y + l / 2 * Real.sin o.heading + w / 2 * Real.cos o.heading),
    (-Real.cos o.heading, -Real.sin o.heading), l, w⟩

theorem corners_rect (f : ℝ) (o : Obj) :
    corners (core f o) = (rectOf o (o.length - 2 * shrink f o) (o.width - 2 * shrink f o)).list := by
  simp only [corners, Boxes.corners, Boxes.localCorners, core, Rect.list, rectOf]
  simp only [List.map_cons, List.map_nil, List.take, Boxes.yaw_mulVec]
  simp
  refine ⟨⟨?_, ?_⟩, ⟨?_, ?_⟩, ⟨?_, ?_⟩, ?_, ?_⟩ <;> ring

theorem region_rectOf (o : Obj) (l w : ℝ) (z : P) : (rectOf o l w).Region z ↔ InBox o l w z := by
  constructor
  · rintro ⟨x, y, h1, h2, h3, h4, rfl⟩
    simp only [rectOf] at h2 h4
    refine ⟨l / 2 - x, w / 2 - y, abs_le.2 ⟨by linarith, by linarith⟩, abs_le.2 ⟨by linarith, by linarith⟩, ?_⟩
    simp only [rectOf, Prod.mk.injEq]
    constructor <;> ring
  · rintro ⟨ξ, η, h1, h2, rfl⟩
    rw [abs_le] at h1 h2
    refine ⟨l / 2 - ξ, w / 2 - η, by linarith, by simp only [rectOf]; linarith, by linarith, by simp only [rectOf]; linarith, ?_⟩
    simp only [rectOf, Prod.mk.injEq]
    constructor <;> ring

/-- The negative of a rectangle. -/
def negRect (r : Rect) : Rect := ⟨-r.p, -r.u, r.a, r.b⟩

theorem list_negRect (r : Rect) : (negRect r).list = r.list.map fun c => (-1 * c.1, -1 * c.2) := by
  simp only [negRect, Rect.list, List.map_cons, List.map_nil, List.cons.injEq, and_true]
  refine ⟨?_, ?_, ?_, ?_⟩ <;> ext <;> simp only [Prod.fst_neg, Prod.snd_neg] <;> ring

theorem region_negRect (r : Rect) (z : P) : (negRect r).Region z ↔ r.Region (-z) := by
  constructor
  · rintro ⟨x, y, h1, h2, h3, h4, rfl⟩
    refine ⟨x, y, h1, h2, h3, h4, ?_⟩
    ext <;> simp only [negRect, Prod.fst_neg, Prod.snd_neg] <;> ring
  · rintro ⟨x, y, h1, h2, h3, h4, h⟩
    refine ⟨x, y, h1, h2, h3, h4, ?_⟩
    have e1 := congrArg Prod.fst h
    have e2 := congrArg Prod.snd h
    simp only [Prod.fst_neg, Prod.snd_neg] at e1 e2
    ext <;> simp only [negRect, Prod.fst_neg, Prod.snd_neg] <;> linarith

/-- The sizes for which the distance is defined: a box that is not degenerate, and corners that are not rounded all the way. -/
structure Proper (f : ℝ) (o : Obj) : Prop where
  length : 0 < o.length
  width : 0 < o.width
  low : 0 ≤ f
  high : f < 1

theorem Proper.shrink_nonneg {f : ℝ} {o : Obj} (h : Proper f o) : 0 ≤ shrink f o := by
  have := lt_min h.length h.width
  have := h.low
  unfold shrink
  positivity

theorem Proper.rect {f : ℝ} {o : Obj} (h : Proper f o) : (rectOf o (o.length - 2 * shrink f o) (o.width - 2 * shrink f o)).Ok := by
  have h1 := lt_min h.length h.width
  have h2 := min_le_left o.length o.width
  have h3 := min_le_right o.length o.width
  have h4 := h.high
  refine ⟨?_, ?_, ?_⟩
  · simp only [rectOf, dot]
    linear_combination Real.cos_sq_add_sin_sq o.heading
  · simp only [rectOf, shrink]
    nlinarith
  · simp only [rectOf, shrink]
    nlinarith

theorem difference_iff {f : ℝ} {a b : Obj} (ha : Proper f a) (hb : Proper f b) (z : P) : Difference f a b z ↔
    Inflate (fun z => ∃ p q, InBox a (a.length - 2 * shrink f a) (a.width - 2 * shrink f a) p ∧
      InBox b (b.length - 2 * shrink f b) (b.width - 2 * shrink f b) (-q) ∧ z = p + q) (shrink f a + shrink f b) z := by
  have e : ∀ o : Obj, 2 * shrink f o = min o.length o.width * f := fun o => by
    unfold shrink
    ring
  constructor
  · rintro ⟨p, q, ⟨p0, hp0, hp⟩, ⟨q0, hq0, hq⟩, rfl⟩
    refine ⟨p0 + -q0, (p - p0) + -(q - q0), ⟨p0, -q0, by rwa [e], by rw [e, neg_neg]; exact hq0, rfl⟩, ?_, by abel⟩
    have := norm_add (p - p0) (-(q - q0))
    rw [norm_neg] at this
    unfold shrink
    linarith
  · rintro ⟨_, w, ⟨p, q, hp, hq, rfl⟩, hw, rfl⟩
    obtain ⟨e1, e2, h1, h2, rfl⟩ := split_norm ha.shrink_nonneg hb.shrink_nonneg hw
    rw [e] at hp hq
    refine ⟨p + e1, -q + -e2, ⟨p, hp, ?_⟩, ⟨-q, hq, ?_⟩, by abel⟩
    · rw [add_sub_cancel_left]
      exact h1
    · rw [add_sub_cancel_left, norm_neg]
      exact h2

/-- C82: the distance of two objects is the signed distance between their boxes with rounded corners: when they are apart, the
smallest distance between their points; when they meet, the negative of the smallest shift that separates them. -/
theorem pairDistance_spec {f : ℝ} {a b : Obj} (ha : Proper f a) (hb : Proper f b) :
    ∃ d, pairDistance f a b = some d ∧ IsSigned (Difference f a b) d := by
  have hnb : (negRect (rectOf b (b.length - 2 * shrink f b) (b.width - 2 * shrink f b))).Ok := by
    have := hb.rect
    refine ⟨?_, this.ha, this.hb⟩
    have h := this.hu
    simp only [negRect, dot, Prod.fst_neg, Prod.snd_neg] at h ⊢
    linarith
  obtain ⟨c, hc, hsum, hzone⟩ := minkowskiSum_spec ha.rect hnb
  obtain ⟨d, hd, hsig, hhalf, _⟩ := hc.isSigned
  refine ⟨d - shrink f a - shrink f b, ?_, ?_⟩
  · unfold pairDistance
    rw [corners_rect, corners_rect, ← list_negRect, hsum, Option.bind_eq_bind, Option.bind_some, hd]
    rfl
  · have := hsig.inflate hhalf (add_nonneg ha.shrink_nonneg hb.shrink_nonneg)
    rw [← sub_sub] at this
    have e : Inflate c.Zone (shrink f a + shrink f b) = Difference f a b := by
      funext z
      rw [eq_iff_iff, difference_iff ha hb]
      have : c.Zone = fun z => ∃ p q, InBox a (a.length - 2 * shrink f a) (a.width - 2 * shrink f a) p ∧
          InBox b (b.length - 2 * shrink f b) (b.width - 2 * shrink f b) (-q) ∧ z = p + q := by
        funext z
        rw [eq_iff_iff, hzone]
        simp only [region_negRect, region_rectOf]
      rw [this]
    rwa [e] at this

/-- The distance is zero or negative exactly if the two objects have a point in common. -/
theorem pairDistance_meet {f : ℝ} {a b : Obj} (ha : Proper f a) (hb : Proper f b) {d : ℝ} (h : pairDistance f a b = some d) :
    d ≤ 0 ↔ ∃ p, Rounded f a p ∧ Rounded f b p := by
  obtain ⟨d', hd', hsig⟩ := pairDistance_spec ha hb
  rw [h] at hd'
  obtain rfl := Option.some.inj hd'
  constructor
  · intro hd
    obtain ⟨p, q, hp, hq, he⟩ := (hsig.2 hd).1 (0, 0) (by rw [norm_zero]; linarith)
    have : p = q := by
      have := he.symm
      exact sub_eq_zero.1 this
    exact ⟨p, hp, this ▸ hq⟩
  · rintro ⟨p, hp, hq⟩
    by_contra hd
    push Not at hd
    have := (hsig.1 hd).2 (p - p) ⟨p, p, hp, hq, rfl⟩
    rw [sub_self] at this
    have e : Planar.norm 0 = 0 := norm_zero
    rw [e] at this
    linarith

/-- The distance is negative, which counts as a collision, exactly if the objects still have a point in common after any small
shift: touching is not a collision. -/
theorem pairDistance_collision {f : ℝ} {a b : Obj} (ha : Proper f a) (hb : Proper f b) {d : ℝ} (h : pairDistance f a b = some d) :
    d < 0 ↔ ∃ r : ℝ, 0 < r ∧ ∀ w, Planar.norm w ≤ r → ∃ p, Rounded f a (p + w) ∧ Rounded f b p := by
  obtain ⟨d', hd', hsig⟩ := pairDistance_spec ha hb
  rw [h] at hd'
  obtain rfl := Option.some.inj hd'
  constructor
  · intro hd
    refine ⟨-d, by linarith, fun w hw => ?_⟩
    obtain ⟨p, q, hp, hq, he⟩ := (hsig.2 hd.le).1 w hw
    exact ⟨q, by rw [he, add_sub_cancel]; exact hp, hq⟩
  · rintro ⟨r, hr, hall⟩
    have hmeet : d ≤ 0 := by
      obtain ⟨p, hp, hq⟩ := hall (0, 0) (by rw [norm_zero]; exact hr.le)
      refine (pairDistance_meet ha hb h).2 ⟨p, ?_, hq⟩
      have e : p + ((0, 0) : P) = p := add_zero p
      rwa [e] at hp
    obtain ⟨n, hn, hz⟩ := (hsig.2 hmeet).2
    obtain ⟨p, hp, hq⟩ := hall (-r * n.1, -r * n.2) (by rw [norm_smul, hn, mul_one, abs_neg, abs_of_pos hr])
    have := hz _ ⟨_, _, hp, hq, rfl⟩
    rw [add_sub_cancel_left] at this
    have h3 := norm_sq n
    rw [hn] at h3
    simp only [dot] at this
    nlinarith

/-- The distance does not depend on which of the two objects is evaluated. -/
theorem pairDistance_comm {f : ℝ} {a b : Obj} (ha : Proper f a) (hb : Proper f b) : pairDistance f a b = pairDistance f b a := by
  obtain ⟨d, hd, h1⟩ := pairDistance_spec ha hb
  obtain ⟨d', hd', h2⟩ := pairDistance_spec hb ha
  have h3 := h2.neg
  have e : (fun z => Difference f b a (-z)) = Difference f a b := by
    funext z
    rw [eq_iff_iff]
    constructor
    · rintro ⟨p, q, hp, hq, h⟩
      exact ⟨q, p, hq, hp, by rw [← neg_neg z, h, neg_sub]⟩
    · rintro ⟨p, q, hp, hq, h⟩
      exact ⟨q, p, hq, hp, by rw [h, neg_sub]⟩
  rw [e] at h3
  rw [hd, hd', h1.unique h3]

/-- The distance depends only on the sets of points of the two objects. -/
theorem pairDistance_congr {f : ℝ} {a b a' b' : Obj} (ha : Proper f a) (hb : Proper f b) (ha' : Proper f a') (hb' : Proper f b')
    (h1 : ∀ z, Rounded f a z ↔ Rounded f a' z) (h2 : ∀ z, Rounded f b z ↔ Rounded f b' z) :
    pairDistance f a b = pairDistance f a' b' := by
  obtain ⟨d, hd, h3⟩ := pairDistance_spec ha hb
  obtain ⟨d', hd', h4⟩ := pairDistance_spec ha' hb'
  have e : Difference f a' b' = Difference f a b := by
    funext z
    simp only [Difference, h1, h2]
  rw [e] at h4
  rw [hd, hd', h3.unique h4]

/-- An object with half a turn more: the same box. -/
theorem pairDistance_half_turn {f : ℝ} {a b : Obj} (ha : Proper f a) (hb : Proper f b) (k : ℤ) :
    pairDistance f { a with heading := a.heading + k * Real.pi } b = pairDistance f a b := by
  refine pairDistance_congr ⟨ha.length, ha.width, ha.low, ha.high⟩ hb ha hb (fun z => ?_) (fun _ => Iff.rfl)
  have key : ∀ l w p, InBox { a with heading := a.heading + k * Real.pi } l w p ↔ InBox a l w p := by
    intro l w p
    have hsq : ((-1 : ℝ) ^ k) * ((-1 : ℝ) ^ k) = 1 := by
      rcases Int.even_or_odd k with h | h
      · rw [h.neg_one_zpow]
        norm_num
      · rw [h.neg_one_zpow]
        norm_num
    have habs : ∀ x : ℝ, |(-1 : ℝ) ^ k * x| = |x| := by
      intro x
      rcases Int.even_or_odd k with h | h
      · rw [h.neg_one_zpow, one_mul]
      · rw [h.neg_one_zpow, neg_one_mul, abs_neg]
    unfold InBox
    simp only [Real.cos_add_int_mul_pi, Real.sin_add_int_mul_pi]
    constructor
    · rintro ⟨ξ, η, h1, h2, h3⟩
      refine ⟨(-1) ^ k * ξ, (-1) ^ k * η, by rwa [habs], by rwa [habs], ?_⟩
      rw [h3]
      simp only [Prod.mk.injEq]
      constructor <;> ring
    · rintro ⟨ξ, η, h1, h2, h3⟩
      refine ⟨(-1) ^ k * ξ, (-1) ^ k * η, by rwa [habs], by rwa [habs], ?_⟩
      rw [h3]
      simp only [Prod.mk.injEq]
      constructor
      · linear_combination (-ξ * Real.cos a.heading + η * Real.sin a.heading) * hsq
      · linear_combination (-ξ * Real.sin a.heading - η * Real.cos a.heading) * hsq
  unfold Rounded
  simp only [key]

/-- Two cars of four by two metres, one behind the other: six metres between their bumpers. -/
theorem pairDistance_example (v w : Bool) : pairDistance roundingFactor ⟨0, 0, 0, 4, 2, 1, 0, v⟩ ⟨10, 0, 0, 4, 2, 1, 0, w⟩ = some 6 := by
  have hp : ∀ x v, Proper roundingFactor ⟨x, 0, 0, 4, 2, 1, 0, v⟩ := fun x v =>
    ⟨by norm_num, by norm_num, by norm_num [roundingFactor], by norm_num [roundingFactor]⟩
  obtain ⟨d, hd, h⟩ := pairDistance_spec (hp 0 v) (hp 10 w)
  rw [hd, Option.some.injEq]
  refine h.unique ⟨fun _ => ⟨⟨(-6, 0), ⟨(2, 0), (8, 0), ⟨(13 / 10, 0), ⟨13 / 10, 0, ?_, ?_, ?_⟩, ?_⟩,
    ⟨(87 / 10, 0), ⟨-13 / 10, 0, ?_, ?_, ?_⟩, ?_⟩, ?_⟩, ?_⟩, ?_⟩, fun h => absurd h (by norm_num)⟩
  · norm_num [roundingFactor, abs_of_pos]
  · norm_num [roundingFactor]
  · norm_num
  · apply norm_le_of_sq <;> norm_num [roundingFactor]
  · rw [abs_of_neg (by norm_num)]
    norm_num [roundingFactor]
  · norm_num [roundingFactor]
  · norm_num
  · apply norm_le_of_sq <;> norm_num [roundingFactor]
  · norm_num
  · apply norm_eq_of_sq <;> norm_num
  · rintro z ⟨p, q, ⟨p0, ⟨ξ, η, h1, _, rfl⟩, hp⟩, ⟨q0, ⟨ξ', η', h1', _, rfl⟩, hq⟩, rfl⟩
    simp only [roundingFactor, Real.cos_zero, Real.sin_zero, mul_one, mul_zero, sub_zero, zero_add, add_zero] at h1 h1' hp hq
    have fst_le : ∀ a : P, |a.1| ≤ Planar.norm a := fun a => Real.abs_le_sqrt (by nlinarith [sq_nonneg a.2])
    have e1 := (fst_le _).trans hp
    have e2 := (fst_le _).trans hq
    have e3 := fst_le (p - q)
    have : min (4 : ℝ) 2 = 2 := min_eq_right (by norm_num)
    rw [this] at *
    simp only [Prod.fst_sub] at e1 e2 e3
    rw [abs_le] at *
    refine le_trans ?_ ((neg_le_abs _).trans (fst_le (p - q)))
    simp only [Prod.fst_sub]
    linarith [e1.2, e2.1, h1.2, h1'.1]

end Verif.Interaction
