import Verif.Lemmas.PolyChase
import Verif.Lemmas.PolyArea

/-!
The loop of `ComputeIntersectionVertices` (math/polygon2d.cc:405-457) on convex polygons follows the abstract chase.
-/

namespace Verif.Polygon

open Real

/-- The vertex with the index `k`, counted around the polygon. -/
def Poly.v {K : Type*} [Field K] [LinearOrder K] (P : Poly K) (k : ℕ) : Pt K := P.pt (k % P.n)

/-- A polygon with the directions of its edges. -/
structure IsRing (P : Poly ℝ) (α : ℕ → ℝ) : Prop where
  len : P.n = P.pts.length
  ring : Ring P.v P.n α

section

variable {P Q : Poly ℝ} {α β : ℕ → ℝ}

theorem next_mod (P : Poly ℝ) (h : 0 < P.n) (k : ℕ) : P.next (k % P.n) = (k + 1) % P.n := by
  have hk := Nat.mod_lt k h
  unfold Poly.next
  rw [Nat.add_mod]
  split_ifs with g
  · rw [g]
    rcases Nat.lt_or_ge 1 P.n with h1 | h1
    · rw [Nat.mod_eq_of_lt h1, Nat.sub_add_cancel (by omega), Nat.mod_self]
    · have : P.n = 1 := by omega
      rw [this]
  · rcases Nat.lt_or_ge 1 P.n with h1 | h1
    · rw [Nat.mod_eq_of_lt h1, Nat.mod_eq_of_lt (show k % P.n + 1 < P.n by omega)]
    · omega

/-- The next pair of edges, counted without wrapping. -/
noncomputable def posStep (P Q : Poly ℝ) (p : ℕ × ℕ) : ℕ × ℕ :=
  if (St.advanceP P Q ⟨p.1 % P.n, p.2 % Q.n, false, false, []⟩) = true then (p.1 + 1, p.2) else (p.1, p.2 + 1)

/-- The pair of edges of the iteration `k`, counted without wrapping. -/
noncomputable def pos (P Q : Poly ℝ) : ℕ → ℕ × ℕ
  | 0 => (0, 0)
  | k + 1 => posStep P Q (pos P Q k)

/-- A state of the loop in the iteration `k`. -/
def At (P Q : Poly ℝ) (k : ℕ) (s : St ℝ) : Prop := s.pi = (pos P Q k).1 % P.n ∧ s.qi = (pos P Q k).2 % Q.n

theorem St.advance_at (hP : 0 < P.n) (hQ : 0 < Q.n) {k : ℕ} {s : St ℝ} (h : At P Q k s) :
    (s.advance P Q).pin = s.pin ∧ (s.advance P Q).qin = s.qin ∧ At P Q (k + 1) (s.advance P Q) ∧
    (((pos P Q (k + 1)) = ((pos P Q k).1 + 1, (pos P Q k).2) ∧
        (s.advance P Q).cps = if s.pin then append (P.v ((pos P Q k).1 + 1)) s.cps else s.cps) ∨
     ((pos P Q (k + 1)) = ((pos P Q k).1, (pos P Q k).2 + 1) ∧
        (s.advance P Q).cps = if s.qin then append (Q.v ((pos P Q k).2 + 1)) s.cps else s.cps)) := by
  obtain ⟨h1, h2⟩ := h
  have e : s.advanceP P Q = St.advanceP P Q ⟨(pos P Q k).1 % P.n, (pos P Q k).2 % Q.n, false, false, []⟩ := by
    rw [← h1, ← h2]; rfl
  unfold St.advance
  by_cases hc : s.advanceP P Q = true
  · rw [if_pos hc]
    have hp : pos P Q (k + 1) = ((pos P Q k).1 + 1, (pos P Q k).2) := by
      change posStep P Q _ = _
      unfold posStep
      rw [if_pos (e ▸ hc)]
    refine ⟨rfl, rfl, ⟨?_, ?_⟩, Or.inl ⟨hp, ?_⟩⟩
    · rw [hp]; simp only [h1]; exact next_mod P hP _
    · rw [hp]; exact h2
    · simp only [h1, next_mod P hP, Poly.v]
  · rw [if_neg hc]
    have hp : pos P Q (k + 1) = ((pos P Q k).1, (pos P Q k).2 + 1) := by
      change posStep P Q _ = _
      unfold posStep
      rw [if_neg (e ▸ hc)]
    refine ⟨rfl, rfl, ⟨?_, ?_⟩, Or.inr ⟨hp, ?_⟩⟩
    · rw [hp]; exact h1
    · rw [hp]; simp only [h2]; exact next_mod Q hQ _
    · simp only [h2, next_mod Q hQ, Poly.v]

theorem Ring.edge {V : ℕ → Pt ℝ} {n : ℕ} (R : Ring V n α) (i : ℕ) :
    ∃ r : ℝ, 0 < r ∧ V (i + 1) - V i = scale r (e (α i)) := by
  obtain ⟨r, hr, er⟩ := R.dir i
  exact ⟨r, hr, by rw [er]; abel⟩

theorem posStep_rule (hP : IsRing P α) (hQ : IsRing Q β) (a b : ℕ) :
    (posStep P Q (a, b) = (a + 1, b) ∧ ((0 ≤ sin (α a - β b) ∧ ht Q.v β b (P.v (a + 1)) < 0) ∨
        (sin (α a - β b) < 0 ∧ 0 ≤ ht P.v α a (Q.v (b + 1))))) ∨
      (posStep P Q (a, b) = (a, b + 1) ∧ Rule Q.v β P.v α b a) := by
  have nP : 0 < P.n := by have := hP.ring.pos; omega
  have nQ : 0 < Q.n := by have := hQ.ring.pos; omega
  obtain ⟨r, hr, er⟩ := hP.ring.edge a
  obtain ⟨r', hr', er'⟩ := hQ.ring.edge b
  set s : St ℝ := ⟨a % P.n, b % Q.n, false, false, []⟩ with hs
  have f1 : P.pt s.pi = P.v a := rfl
  have f2 : Q.pt s.qi = Q.v b := rfl
  have f3 : P.pt (P.next s.pi) = P.v (a + 1) := by rw [hs]; simp only [next_mod P nP]; rfl
  have f4 : Q.pt (Q.next s.qi) = Q.v (b + 1) := by rw [hs]; simp only [next_mod Q nQ]; rfl
  have det : s.det P Q = r * r' * sin (α a - β b) := by
    unfold St.det cross4
    rw [f1, f2, f3, f4, er, ← neg_sub (Q.v (b + 1)), er', scale_cp, ← zero_sub, cp_sub, cp_zero, cp_scale, cp_e,
      ← neg_sub (α a), sin_neg]
    ring
  have sP : s.sideP P Q = r' * ht Q.v β b (P.v (a + 1)) := by
    unfold St.sideP cross4 ht
    rw [f2, f3, f4, ← neg_sub (P.v (a + 1)), ← neg_sub (Q.v (b + 1)), er', ← scale_cp]
    simp only [cp, Prod.fst_neg, Prod.snd_neg]; ring
  have sQ : s.sideQ P Q = r * ht P.v α a (Q.v (b + 1)) := by
    unfold St.sideQ cross4 ht
    rw [f1, f3, f4, ← neg_sub (P.v (a + 1)), ← neg_sub (Q.v (b + 1)), er, ← scale_cp]
    simp only [cp, Prod.fst_neg, Prod.snd_neg]; ring
  have dneg : sin (β b - α a) = - sin (α a - β b) := by rw [← neg_sub, sin_neg]
  have hrr : 0 < r * r' := mul_pos hr hr'
  unfold posStep
  change ((if s.advanceP P Q = true then _ else _) = _ ∧ _) ∨ ((if s.advanceP P Q = true then _ else _) = _ ∧ _)
  by_cases hc : s.advanceP P Q = true
  · left
    rw [if_pos hc]
    refine ⟨rfl, ?_⟩
    unfold St.advanceP at hc
    split_ifs at hc with hd
    · rw [det] at hd
      rw [decide_eq_true_eq, sP] at hc
      left
      exact ⟨nonneg_of_mul_nonneg_right hd hrr, by by_contra hh; push Not at hh; have := mul_nonneg hr'.le hh; linarith⟩
    · rw [det] at hd
      rw [decide_eq_true_eq, sQ] at hc
      right
      refine ⟨?_, nonneg_of_mul_nonneg_right hc hr⟩
      by_contra hh; push Not at hh; have := mul_nonneg hrr.le hh; linarith
  · right
    rw [if_neg hc]
    refine ⟨rfl, ?_⟩
    unfold St.advanceP at hc
    split_ifs at hc with hd
    · rw [det] at hd
      rw [decide_eq_true_eq, sP, not_lt] at hc
      right
      rw [dneg]
      exact ⟨by linarith [nonneg_of_mul_nonneg_right hd hrr], nonneg_of_mul_nonneg_right hc hr'⟩
    · rw [det] at hd
      rw [decide_eq_true_eq, sQ, not_le] at hc
      left
      rw [dneg]
      refine ⟨?_, by by_contra hh; push Not at hh; have := mul_nonneg hr.le hh; linarith⟩
      by_contra hh; push Not at hh
      have := mul_nonneg hrr.le (show 0 ≤ sin (α a - β b) by linarith)
      linarith

/-- Directions of the edges of two polygons, counted such that the first ones are near each other. -/
def Near (α β : ℕ → ℝ) : Prop := β 0 - π < α 0 ∧ α 0 ≤ β 0 + π

theorem pos_near (hP : IsRing P α) (hQ : IsRing Q β) (hN : Near α β) {z : Pt ℝ} (zP : z ∈ region P.v α)
    (zQ : z ∈ region Q.v β) (k : ℕ) :
    (α (pos P Q k).1 < β (pos P Q k).2 + π ∧ β (pos P Q k).2 < α (pos P Q k).1 + π) ∨
      (k = 0 ∧ α 0 = β 0 + π) := by
  induction k with
  | zero =>
    rcases hN.2.lt_or_eq with h | h
    · left; exact ⟨h, by have := hN.1; change β 0 < α 0 + π; linarith⟩
    · right; exact ⟨rfl, h⟩
  | succ k ih =>
    left
    change α (posStep P Q (pos P Q k)).1 < β (posStep P Q (pos P Q k)).2 + π ∧ _
    rcases ih with ⟨i1, i2⟩ | ⟨rfl, hh⟩
    · rcases posStep_rule hP hQ (pos P Q k).1 (pos P Q k).2 with ⟨e, hr⟩ | ⟨e, hr⟩
      · simp only [pos]
        rw [e]
        exact near_step hP.ring zP zQ i1 i2 (hr.imp_right (fun h => ⟨h.1.le, h.2⟩))
      · simp only [pos]
        rw [e]
        exact (near_step hQ.ring zQ zP i2 i1 hr).symm
    · have e0 : pos P Q 0 = (0, 0) := rfl
      have sQ := hQ.ring.step 0
      rcases posStep_rule hP hQ 0 0 with ⟨e, hr⟩ | ⟨e, hr⟩
      · exfalso
        have h0 : sin (α 0 - β 0) = 0 := by rw [hh, add_sub_cancel_left, sin_pi]
        have w := hP.ring.wedge (θ := β 0) (a := 0) (by linarith [pi_pos]) hh.le (by linarith [(hP.ring.step 0).1]) zP
        have hz := zQ 0
        rcases hr with ⟨-, h2⟩ | ⟨h2, -⟩
        · have h5 : ht Q.v β 0 z = ht Q.v β 0 (P.v (0 + 1)) + cp (Polygon.e (β 0)) (z - P.v (0 + 1)) := by
            rw [← ht_add]; congr 1; abel
          linarith
        · linarith
      · rw [show posStep P Q (pos P Q 0) = (0, 0 + 1) from e, show pos P Q (0 + 1) = (0, 0 + 1) from e]
        simp only [zero_add] at *
        exact ⟨by linarith [sQ.1], by linarith [sQ.2, pi_pos]⟩

/-- **The loop follows a path.** -/
theorem pos_path (hP : IsRing P α) (hQ : IsRing Q β) (hN : Near α β) {z : Pt ℝ} (zP : z ∈ region P.v α)
    (zQ : z ∈ region Q.v β) :
    Path P.v α Q.v β (fun k => (pos P Q k).1) (fun k => (pos P Q k).2) := by
  refine ⟨rfl, rfl, fun k => ?_, fun k => ?_⟩
  · rcases pos_near hP hQ hN zP zQ k with h | ⟨rfl, h⟩
    · exact ⟨h.1.le, h.2.le⟩
    · change α 0 ≤ β 0 + π ∧ β 0 ≤ α 0 + π
      exact ⟨h.le, by linarith [pi_pos]⟩
  · have hs : pos P Q (k + 1) = posStep P Q ((pos P Q k).1, (pos P Q k).2) := rfl
    rcases posStep_rule hP hQ (pos P Q k).1 (pos P Q k).2 with ⟨e, hr⟩ | ⟨e, hr⟩
    · left
      simp only [hs, e]
      refine ⟨trivial, trivial, hr.imp_right (fun h => ⟨h.1.le, h.2⟩), ?_⟩
      rcases pos_near hP hQ hN zP zQ k with h | ⟨rfl, h⟩
      · exact h.1
      · exfalso
        rcases pos_near hP hQ hN zP zQ 1 with h' | ⟨h', -⟩
        · rw [hs, e] at h'
          have h1 := h'.1
          change α (0 + 1) < β 0 + π at h1
          linarith [(hP.ring.step 0).1]
        · omega
    · right
      simp only [hs, e]
      refine ⟨trivial, trivial, hr, ?_⟩
      rcases pos_near hP hQ hN zP zQ k with h | ⟨rfl, h⟩
      · exact h.2
      · change β 0 < α 0 + π
        linarith [pi_pos]

/-- **The intersection of the current edges.** -/
theorem inter_spec (hP : IsRing P α) (hQ : IsRing Q β) {k : ℕ} {s : St ℝ} (h : At P Q k s) :
    (∀ x, s.inter P Q = some x → x ∈ region P.v α ∧ x ∈ region Q.v β ∧ ht P.v α (pos P Q k).1 x = 0 ∧
      ht Q.v β (pos P Q k).2 x = 0) ∧
    (s.inter P Q = none → ∀ x, OnEdge P.v α (pos P Q k).1 x → OnEdge Q.v β (pos P Q k).2 x → False) := by
  have nP : 0 < P.n := by have := hP.ring.pos; omega
  have nQ : 0 < Q.n := by have := hQ.ring.pos; omega
  set a := (pos P Q k).1 with ha
  set b := (pos P Q k).2 with hb
  obtain ⟨h1, h2⟩ := h
  have e0 : s.inter P Q = segmentIntersection (P.v a) (P.v (a + 1)) (Q.v b) (Q.v (b + 1)) := by
    unfold St.inter St.det segmentIntersection
    rw [h1, h2, next_mod P nP, next_mod Q nQ]; rfl
  obtain ⟨r, hr, er⟩ := hP.ring.dir a
  obtain ⟨r', hr', er'⟩ := hQ.ring.dir b
  have hne : P.v a ≠ P.v (a + 1) := by
    intro hc
    have h0 : scale r (e (α a)) = 0 := by
      have : P.v a + scale r (e (α a)) = P.v a + 0 := by rw [← er, ← hc, add_zero]
      exact add_left_cancel this
    have c1 : r * cos (α a) = 0 := congrArg Prod.fst h0
    have c2 : r * sin (α a) = 0 := congrArg Prod.snd h0
    have c3 := sin_sq_add_cos_sq (α a)
    have d1 : cos (α a) = 0 := by simpa [hr.ne'] using c1
    have d2 : sin (α a) = 0 := by simpa [hr.ne'] using c2
    rw [d1, d2] at c3
    norm_num at c3
  obtain ⟨g1, g2⟩ := segmentIntersection_spec_partial (Q.v b) (Q.v (b + 1)) hne
  rw [e0]
  constructor
  · intro x hx
    obtain ⟨x1, x2⟩ := g1 x hx
    rw [mem_segment_iff] at x1 x2
    obtain ⟨t, t0, t1, et⟩ := x1
    obtain ⟨u, u0, u1, eu⟩ := x2
    refine ⟨?_, ?_, ?_, ?_⟩
    · rw [et]; exact region_comb (hP.ring.vertex_mem _) (hP.ring.vertex_mem _) t0 t1
    · rw [eu]; exact region_comb (hQ.ring.vertex_mem _) (hQ.ring.vertex_mem _) u0 u1
    · rw [et, er, add_sub_cancel_left, ht_add, cp_scale, cp_scale, cp_self, Ring.ht_self]; ring
    · rw [eu, er', add_sub_cancel_left, ht_add, cp_scale, cp_scale, cp_self, Ring.ht_self]; ring
  · intro hx x oP oQ
    have hd := g2 hx
    have aux : ∀ (V : ℕ → Pt ℝ) (γ : ℕ → ℝ) (i : ℕ), OnEdge V γ i x → x ∈ segment ℝ (V i) (V (i + 1)) := by
      rintro V γ i ⟨u, u', k1, k2, f1, f2⟩
      rw [mem_segment_iff]
      refine ⟨u / (u + u'), by positivity, by rw [div_le_one (by linarith)]; linarith, ?_⟩
      rw [f2, f1]; ext <;> simp only [scale, Prod.fst_add, Prod.snd_add, Prod.fst_sub, Prod.snd_sub] <;> field_simp <;> ring
    exact Set.disjoint_left.mp hd (aux _ _ _ oP) (aux _ _ _ oQ)

/-- Two edges that are not parallel cross in one point. -/
theorem cross_unique {V W : ℕ → Pt ℝ} {α β : ℕ → ℝ} {a b : ℕ} {x y : Pt ℝ} (hs : sin (α a - β b) ≠ 0) (x1 : ht V α a x = 0)
    (x2 : ht W β b x = 0) (y1 : ht V α a y = 0) (y2 : ht W β b y = 0) : x = y := by
  have h1 : cp (e (α a)) (x - y) = 0 := by
    have : ht V α a x = ht V α a y + cp (e (α a)) (x - y) := by rw [← ht_add]; congr 1; abel
    linarith
  have h2 : cp (e (β b)) (x - y) = 0 := by
    have : ht W β b x = ht W β b y + cp (e (β b)) (x - y) := by rw [← ht_add]; congr 1; abel
    linarith
  have : x - y = 0 := by
    generalize x - y = v at h1 h2
    rw [sin_sub] at hs
    simp only [cp, e] at h1 h2
    have a1 : (sin (α a) * cos (β b) - cos (α a) * sin (β b)) * v.1 = 0 := by
      linear_combination cos (α a) * h2 - cos (β b) * h1
    have a2 : (sin (α a) * cos (β b) - cos (α a) * sin (β b)) * v.2 = 0 := by
      linear_combination sin (α a) * h2 - sin (β b) * h1
    exact Prod.ext (by simpa [hs] using a1) (by simpa [hs] using a2)
  exact sub_eq_zero.mp this

/-- **An intersection is a crossing.** -/
theorem inter_iff (hP : IsRing P α) (hQ : IsRing Q β) (hN : Near α β) (gP : Apart P.v Q.v β) (gQ : Apart Q.v P.v α)
    {k : ℕ} {s : St ℝ} (h : At P Q k s) (x : Pt ℝ) :
    s.inter P Q = some x ↔ En P.v α Q.v β (pos P Q k).1 (pos P Q k).2 x ∨ En Q.v β P.v α (pos P Q k).2 (pos P Q k).1 x := by
  obtain ⟨s1, s2⟩ := inter_spec hP hQ h
  have fwd : ∀ x, s.inter P Q = some x →
      En P.v α Q.v β (pos P Q k).1 (pos P Q k).2 x ∨ En Q.v β P.v α (pos P Q k).2 (pos P Q k).1 x := by
    intro x hx
    obtain ⟨x1, x2, x3, x4⟩ := s1 x hx
    have oP := OnEdge.of_mem hP.ring gP x1 x3 x2 x4
    have oQ := OnEdge.of_mem hQ.ring gQ x2 x4 x1 x3
    have hs := sin_ne_zero_of_cross hP.ring hQ.ring gP gQ oP oQ
    rcases pos_near hP hQ hN x1 x2 k with hn | ⟨rfl, hn⟩
    · rcases lt_trichotomy (α (pos P Q k).1) (β (pos P Q k).2) with g | g | g
      · exact Or.inr ⟨oQ, oP, g, hn.2⟩
      · rw [g, sub_self, sin_zero] at hs; exact absurd rfl hs
      · exact Or.inl ⟨oP, oQ, g, hn.1⟩
    · exfalso
      apply hs
      change sin (α 0 - β 0) = 0
      rw [hn, add_sub_cancel_left, sin_pi]
  refine ⟨fwd x, fun hx => ?_⟩
  have hx' : OnEdge P.v α (pos P Q k).1 x ∧ OnEdge Q.v β (pos P Q k).2 x := by
    rcases hx with g | g
    · exact ⟨g.onP, g.onQ⟩
    · exact ⟨g.onQ, g.onP⟩
  rcases hi : s.inter P Q with _ | y
  · exact (s2 hi x hx'.1 hx'.2).elim
  · obtain ⟨y1, y2, y3, y4⟩ := s1 y hi
    have hs := sin_ne_zero_of_cross hP.ring hQ.ring gP gQ hx'.1 hx'.2
    rw [cross_unique hs y3 y4 hx'.1.ht_zero hx'.2.ht_zero]

end

end Verif.Polygon
