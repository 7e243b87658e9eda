import Verif.Lemmas.PolyRing

/-!
The chase of the edges of two convex polygons (math/polygon2d.cc:360-457) in the abstract: a path of pairs of edges
that follows the advance rule visits every crossing of the two boundaries, and between crossings the edge of the inner
polygon stays inside of the other polygon.
-/

namespace Verif.Polygon

open Real

theorem region_comb {P : ℕ → Pt ℝ} {α : ℕ → ℝ} {z w : Pt ℝ} {t : ℝ} (hz : z ∈ region P α) (hw : w ∈ region P α)
    (h0 : 0 ≤ t) (h1 : t ≤ 1) : z + scale t (w - z) ∈ region P α := by
  intro i
  have a := hz i
  have b := hw i
  have hb : ht P α i w = ht P α i z + cp (e (α i)) (w - z) := by rw [← ht_add]; congr 1; abel
  rw [ht_add, cp_scale]
  rw [hb] at b
  nlinarith

/-- No vertex of the first polygon lies on the boundary of the second. -/
def Apart (P : ℕ → Pt ℝ) (Q : ℕ → Pt ℝ) (β : ℕ → ℝ) : Prop :=
  ∀ i j, P i ∈ region Q β → ht Q β j (P i) ≠ 0

section

variable {P Q : ℕ → Pt ℝ} {n m : ℕ} {α β : ℕ → ℝ}

theorem OnEdge.of_mem (RP : Ring P n α) (hg : Apart P Q β) {c j : ℕ} {y : Pt ℝ} (hy : y ∈ region P α)
    (h0 : ht P α c y = 0) (hyQ : y ∈ region Q β) (hj : ht Q β j y = 0) : OnEdge P α c y := by
  obtain ⟨s, s', h1, h2, e1, e2⟩ := RP.mem_edge hy h0
  refine ⟨s, s', lt_of_le_of_ne h1 ?_, lt_of_le_of_ne h2 ?_, e1, e2⟩
  · rintro rfl
    have : y = P c := by rw [e1]; ext <;> simp [scale]
    exact hg c j (this ▸ hyQ) (this ▸ hj)
  · rintro rfl
    have : P (c + 1) = y := by rw [e2]; ext <;> simp [scale]
    exact hg (c + 1) j (this ▸ hyQ) (this ▸ hj)

theorem OnEdge.mod (RP : Ring P n α) {c c' : ℕ} {y : Pt ℝ} (h : OnEdge P α c y) (hc : c' % n = c % n) :
    OnEdge P α c' y := by
  have he : e (α c') = e (α c) := by
    have aux : ∀ i, e (α (i % n)) = e (α i) := fun i => by
      conv_rhs => rw [← Nat.mod_add_div i n]
      rw [RP.aper_mul, show α (i % n) + 2 * π * (i / n : ℕ) = α (i % n) + (i / n : ℕ) * (2 * π) by ring]
      simp only [e, cos_add_nat_mul_two_pi, sin_add_nat_mul_two_pi]
    rw [← aux c', hc, aux]
  have hp : P c' = P c := by rw [← RP.per_mod c', hc, RP.per_mod]
  have hp1 : P (c' + 1) = P (c + 1) := by
    rw [← RP.per_mod (c' + 1), ← RP.per_mod (c + 1), Nat.add_mod, hc, ← Nat.add_mod]
  obtain ⟨s, s', h1, h2, e1, e2⟩ := h
  exact ⟨s, s', h1, h2, by rw [hp, he]; exact e1, by rw [hp1, he]; exact e2⟩

/-- Edges that cross are not parallel. -/
theorem sin_ne_zero_of_cross (RP : Ring P n α) (RQ : Ring Q m β) (gP : Apart P Q β) (gQ : Apart Q P α) {c d : ℕ}
    {y : Pt ℝ} (hP : OnEdge P α c y) (hQ : OnEdge Q β d y) : sin (α c - β d) ≠ 0 := by
  intro hs
  -- the direction of the second edge is that of the first, up to sign
  have hk : ∃ k : ℝ, (k = 1 ∨ k = -1) ∧ e (β d) = scale k (e (α c)) := by
    have c1 := sin_sq_add_cos_sq (α c)
    have c2 := sin_sq_add_cos_sq (β d)
    have c3 : sin (α c) * cos (β d) - cos (α c) * sin (β d) = 0 := by rw [← sin_sub]; exact hs
    refine ⟨cos (α c) * cos (β d) + sin (α c) * sin (β d), ?_, ?_⟩
    · have : (cos (α c) * cos (β d) + sin (α c) * sin (β d)) ^ 2 = 1 := by
        linear_combination (-(sin (α c) * cos (β d) - cos (α c) * sin (β d))) * c3 + c2 * (sin (α c) ^ 2 + cos (α c) ^ 2) + c1
      rcases mul_eq_zero.mp (show (cos (α c) * cos (β d) + sin (α c) * sin (β d) - 1) *
          (cos (α c) * cos (β d) + sin (α c) * sin (β d) + 1) = 0 by linear_combination this) with h | h
      · exact Or.inl (by linarith)
      · exact Or.inr (by linarith)
    · ext
      · simp only [e, scale]
        linear_combination (-cos (β d)) * c1 + sin (α c) * c3
      · simp only [e, scale]
        linear_combination (-sin (β d)) * c1 - cos (α c) * c3
  obtain ⟨k, hk1, hk⟩ := hk
  have hyP := hP.mem RP
  have hyQ := hQ.mem RQ
  obtain ⟨s, s', h1, h2, e1, e2⟩ := hP
  -- a vertex of the second polygon ahead of `y`
  obtain ⟨j, t, ht0, hj, hj0⟩ : ∃ (j : ℕ) (t : ℝ), 0 < t ∧ Q j = y + scale t (e (α c)) ∧ ht Q β d (Q j) = 0 := by
    obtain ⟨u, u', k1, k2, f1, f2⟩ := hQ
    rcases hk1 with rfl | rfl
    · refine ⟨d + 1, u', k2, ?_, RQ.ht_next d⟩
      rw [f2, hk]; ext <;> simp [scale]
    · refine ⟨d, u, k1, ?_, Ring.ht_self Q β d⟩
      rw [f1, hk]; ext <;> simp [scale]
  have z0 : ht Q β d y = 0 := by
    obtain ⟨u, u', k1, k2, f1, f2⟩ := hQ
    rw [f1, ht_step, Ring.ht_self, sub_self, sin_zero]; ring
  have w0 : ht P α c y = 0 := by rw [e1, ht_step, Ring.ht_self, sub_self, sin_zero]; ring
  rcases le_total s' t with h | h
  · -- the end of the first edge lies on the second
    have hc : P (c + 1) = y + scale (s' / t) (Q j - y) := by
      rw [e2, hj]; ext <;> simp only [scale, Prod.fst_add, Prod.snd_add, Prod.fst_sub, Prod.snd_sub] <;> field_simp <;> ring
    apply gP (c + 1) d
    · rw [hc]; exact region_comb hyQ (RQ.vertex_mem j) (by positivity) (by rwa [div_le_one ht0])
    · rw [e2, ht_add, cp_scale, z0]
      have : ht Q β d (Q j) = ht Q β d y + t * cp (e (β d)) (e (α c)) := by rw [hj, ht_add, cp_scale]
      rw [hj0, z0] at this
      have h3 : cp (e (β d)) (e (α c)) = 0 := by
        rcases mul_eq_zero.mp (show t * cp (e (β d)) (e (α c)) = 0 by linarith) with h | h
        · exact absurd h ht0.ne'
        · exact h
      rw [h3]; ring
  · have hc : Q j = y + scale (t / s') (P (c + 1) - y) := by
      rw [e2, hj]; ext <;> simp only [scale, Prod.fst_add, Prod.snd_add, Prod.fst_sub, Prod.snd_sub] <;> field_simp <;> ring
    apply gQ j c
    · rw [hc]; exact region_comb hyP (RP.vertex_mem (c + 1)) (by positivity) (by rwa [div_le_one h2])
    · rw [hj, ht_step, w0, sub_self, sin_zero]; ring

/-- The copy of an edge with a direction that is ahead of a given one by less than a half turn. -/
theorem Ring.copy (RQ : Ring Q m β) {θ : ℝ} {j : ℕ} (hs : 0 < sin (β j - θ)) (h0 : β 0 ≤ θ) :
    ∃ d, d % m = j % m ∧ θ < β d ∧ β d < θ + π := by
  have hm := RQ.pos
  -- start from the residue
  have hj : sin (β (j % m) - θ) = sin (β j - θ) := by
    conv_rhs => rw [← Nat.mod_add_div j m]
    rw [RQ.aper_mul, show β (j % m) + 2 * π * (j / m : ℕ) - θ = β (j % m) - θ + (j / m : ℕ) * (2 * π) by ring,
      sin_add_nat_mul_two_pi]
  rw [← hj] at hs
  set i := j % m with hi
  have him : i < m := Nat.mod_lt _ (by omega)
  have hup : β i < β 0 + 2 * π := by
    have := RQ.mono him
    have h := RQ.aper 0
    rw [zero_add] at h
    rwa [h] at this
  have h2pi : (0 : ℝ) < 2 * π := by positivity
  -- the number of turns to add
  set k := ⌊(θ - β i) / (2 * π)⌋ with hk
  have k1 : (k : ℝ) ≤ (θ - β i) / (2 * π) := Int.floor_le _
  have k2 : (θ - β i) / (2 * π) < k + 1 := Int.lt_floor_add_one _
  rw [le_div_iff₀ h2pi] at k1
  rw [div_lt_iff₀ h2pi] at k2
  have hkn : 0 ≤ k + 1 := by
    have : (-1 : ℝ) < k + 1 := by
      have : -(2 * π) < (k + 1) * (2 * π) := by linarith
      nlinarith
    have : (-1 : ℤ) < k + 1 := by exact_mod_cast this
    omega
  obtain ⟨N, hN⟩ := Int.eq_ofNat_of_zero_le hkn
  have hNr : (N : ℝ) = k + 1 := by
    have : ((k + 1 : ℤ) : ℝ) = (N : ℤ) := by rw [hN]
    push_cast at this
    exact this.symm
  refine ⟨i + m * N, by simp [hi], ?_, ?_⟩
  · rw [RQ.aper_mul, hNr]; linarith
  · rw [RQ.aper_mul, hNr]
    by_contra hc
    push Not at hc
    have h3 : sin (β i + 2 * π * (k + 1) - θ) = sin (β i - θ) := by
      rw [← hNr, show β i + 2 * π * (N : ℝ) - θ = β i - θ + N * (2 * π) by ring, sin_add_nat_mul_two_pi]
    have h4 : sin (β i + 2 * π * (k + 1) - θ) ≤ 0 := by
      have := sin_nonneg_of_nonneg_of_le_pi (x := β i + 2 * π * (k + 1) - θ - π) (by linarith) (by linarith)
      rw [sin_sub_pi] at this
      linarith
    linarith

/-! ## The path -/

/-- A path of pairs of edges that follows the advance rule, with directions within a half turn of each other. -/
structure Path (P : ℕ → Pt ℝ) (α : ℕ → ℝ) (Q : ℕ → Pt ℝ) (β : ℕ → ℝ) (a b : ℕ → ℕ) : Prop where
  a0 : a 0 = 0
  b0 : b 0 = 0
  near : ∀ k, α (a k) ≤ β (b k) + π ∧ β (b k) ≤ α (a k) + π
  step : ∀ k, (a (k + 1) = a k + 1 ∧ b (k + 1) = b k ∧ Rule P α Q β (a k) (b k) ∧ α (a k) < β (b k) + π) ∨
    (a (k + 1) = a k ∧ b (k + 1) = b k + 1 ∧ Rule Q β P α (b k) (a k) ∧ β (b k) < α (a k) + π)

namespace Path

variable {a b : ℕ → ℕ}

theorem swap (h : Path P α Q β a b) : Path Q β P α b a :=
  ⟨h.b0, h.a0, fun k => ⟨(h.near k).2, (h.near k).1⟩, fun k => by
    rcases h.step k with ⟨h1, h2, h3, h4⟩ | ⟨h1, h2, h3, h4⟩
    · exact Or.inr ⟨h2, h1, h3, h4⟩
    · exact Or.inl ⟨h2, h1, h3, h4⟩⟩

theorem sum (h : Path P α Q β a b) (k : ℕ) : a k + b k = k := by
  induction k with
  | zero => rw [h.a0, h.b0]
  | succ k ih => rcases h.step k with ⟨h1, h2, -⟩ | ⟨h1, h2, -⟩ <;> omega

theorem mono (h : Path P α Q β a b) : Monotone a :=
  monotone_nat_of_le_succ (fun k => by rcases h.step k with ⟨h1, -⟩ | ⟨h1, -⟩ <;> omega)

/-- The path visits every crossing through which the first polygon enters the second. -/
theorem visit (RP : Ring P n α) (RQ : Ring Q m β) (h : Path P α Q β a b) {c d : ℕ} {y : Pt ℝ}
    (hc : En P α Q β c d y) : a (c + d) = c ∧ b (c + d) = d := by
  have key : ∀ k ≤ c + d, a k ≤ c ∧ b k ≤ d := by
    intro k
    induction k with
    | zero => intro _; rw [h.a0, h.b0]; exact ⟨Nat.zero_le _, Nat.zero_le _⟩
    | succ k ih =>
      intro hk
      obtain ⟨i1, i2⟩ := ih (by omega)
      have hs := h.sum k
      rcases h.step k with ⟨h1, h2, h3, h4⟩ | ⟨h1, h2, h3, h4⟩
      · rcases Nat.lt_or_ge (a k) c with g | g
        · omega
        · have : a k = c := by omega
          rw [this] at h3 h4
          exact (barrier1 RQ hc (by omega) h4 h3).elim
      · rcases Nat.lt_or_ge (b k) d with g | g
        · omega
        · have : b k = d := by omega
          rw [this] at h3 h4
          exact (barrier2 RP hc (by omega) h4 h3).elim
  have := key _ le_rfl
  have := h.sum (c + d)
  omega

end Path

/-! ## Phases -/

/-- While the first polygon is inside of the second: `l` is the last point that was recorded, on the current edge of
the first polygon; the edge does not enter later on and did not leave before. -/
structure Phase (P : ℕ → Pt ℝ) (α : ℕ → ℝ) (Q : ℕ → Pt ℝ) (β : ℕ → ℝ) (a b : ℕ) (l : Pt ℝ) : Prop where
  mem : l ∈ region Q β
  on : ∃ s s' : ℝ, 0 ≤ s ∧ 0 < s' ∧ l = P a + scale s (e (α a)) ∧ P (a + 1) = l + scale s' (e (α a))
  en : ∀ d, b ≤ d → ∀ y, ¬ En P α Q β a d y
  ex : ∀ d, d < b → ∀ y, ¬ En Q β P α d a y
  ahead : β 0 ≤ α a

namespace Phase

variable {a b : ℕ → ℕ} {k : ℕ} {l : Pt ℝ}

theorem memP (RP : Ring P n α) {i j : ℕ} (h : Phase P α Q β i j l) : l ∈ region P α := by
  obtain ⟨s, s', h1, h2, e1, e2⟩ := h.on
  have : l = P i + scale (s / (s + s')) (P (i + 1) - P i) := by
    rw [e2, e1]; ext <;> simp only [scale, Prod.fst_add, Prod.snd_add, Prod.fst_sub, Prod.snd_sub] <;> field_simp <;> ring
  rw [this]
  exact region_comb (RP.vertex_mem _) (RP.vertex_mem _) (by positivity) (by rw [div_le_one (by linarith)]; linarith)

/-- The other edge moves on. -/
theorem other {i j : ℕ} (h : Phase P α Q β i j l) (hx : ∀ y, ¬ En Q β P α j i y) : Phase P α Q β i (j + 1) l :=
  ⟨h.mem, h.on, fun d hd => h.en d (by omega), fun d hd y => by
    rcases Nat.lt_succ_iff_lt_or_eq.mp hd with g | g
    · exact h.ex d g y
    · rw [g]; exact hx y, h.ahead⟩

/-- The inner edge moves on: its end is inside, and becomes the last point. -/
theorem own (RP : Ring P n α) (RQ : Ring Q m β) (gP : Apart P Q β) (gQ : Apart Q P α) (hp : Path P α Q β a b)
    (h : Phase P α Q β (a k) (b k) l) (hx : ∀ y, ¬ En Q β P α (b k) (a k) y) (hs : a (k + 1) = a k + 1) :
    Phase P α Q β (a k + 1) (b k) (P (a k + 1)) ∧
      ∀ z ∈ region P α, 0 ≤ cross3 l (P (a k + 1)) z := by
  have hsum := hp.sum k
  have hsum1 := hp.sum (k + 1)
  obtain ⟨s, s', h1, h2, e1, e2⟩ := h.on
  have hmem : P (a k + 1) ∈ region Q β := by
    by_contra hn
    obtain ⟨j, t, -, t0, t1, y1, y2, y3⟩ := RQ.leave h.mem hn
    have hd : P (a k + 1) - l = scale s' (e (α (a k))) := by rw [e2]; abel
    rw [hd] at y1 y2 y3
    rw [cp_scale, cp_e] at y3
    have hsn : 0 < sin (β j - α (a k)) := by
      have : sin (α (a k) - β j) < 0 := by
        by_contra hc
        push Not at hc
        have := mul_nonneg h2.le hc
        linarith
      rw [← neg_sub, sin_neg] at this
      linarith
    set y := l + scale t (scale s' (e (α (a k)))) with hy
    have hyP : y ∈ region P α := by
      rw [hy, ← hd]
      exact region_comb (h.memP RP) (RP.vertex_mem _) t0 t1.le
    have hy0 : ht P α (a k) y = 0 := by
      rw [hy, ht_add, cp_scale, cp_scale, cp_self, e1, ht_step, Ring.ht_self, sub_self, sin_zero]; ring
    have onP : OnEdge P α (a k) y := OnEdge.of_mem RP gP hyP hy0 y1 y2
    have onQ : OnEdge Q β j y := OnEdge.of_mem RQ gQ y1 y2 hyP hy0
    obtain ⟨d, d1, d2, d3⟩ := RQ.copy hsn h.ahead
    have hen : En Q β P α d (a k) y := ⟨onQ.mod RQ d1, onP, d2, d3⟩
    obtain ⟨v1, v2⟩ := hp.swap.visit RQ RP hen
    rcases lt_trichotomy d (b k) with g | g | g
    · exact h.ex d g y hen
    · exact hx y (g ▸ hen)
    · have := hp.mono (show k + 1 ≤ d + a k by omega)
      omega
  refine ⟨⟨hmem, ?_, ?_, ?_, ?_⟩, ?_⟩
  · obtain ⟨r, hr, er⟩ := RP.dir (a k + 1)
    exact ⟨0, r, le_refl _, hr, by ext <;> simp [scale], er⟩
  · intro d _ y hy
    have z0 := hy.onQ.ht_zero
    obtain ⟨u, u', k1, k2, f1, f2⟩ := hy.onP
    rw [f1, ht_step] at z0
    have := hmem d
    have := mul_pos k1 (sin_pos_diff hy.lo hy.hi)
    linarith
  · intro d hd y hy
    obtain ⟨v1, v2⟩ := hp.swap.visit RQ RP hy
    have := hp.mono (show d + (a k + 1) ≤ k by omega)
    omega
  · linarith [h.ahead, (RP.step (a k)).1]
  · intro z hz
    have hd : P (a k + 1) - l = scale s' (e (α (a k))) := by rw [e2]; abel
    unfold cross3
    rw [hd, scale_cp]
    have z1 := hz (a k)
    have : ht P α (a k) z = cp (e (α (a k))) (z - l) := by
      unfold ht
      have : z - P (a k) = (z - l) + scale s (e (α (a k))) := by rw [e1]; abel
      rw [this, cp_add, cp_scale, cp_self]; ring
    rw [this] at z1
    positivity

/-- From a crossing onwards: the other polygon is the inner one. -/
theorem start (RP : Ring P n α) (RQ : Ring Q m β) (hp : Path P α Q β a b) {y : Pt ℝ}
    (hy : En P α Q β (a k) (b k) y) :
    a (k + 1) = a k ∧ b (k + 1) = b k + 1 ∧ Phase P α Q β (a k) (b k + 1) y := by
  have hstep : a (k + 1) = a k ∧ b (k + 1) = b k + 1 := by
    rcases hp.step k with ⟨h1, h2, h3, -⟩ | ⟨h1, h2, -⟩
    · exfalso
      have hs := sin_pos_diff hy.lo hy.hi
      rcases h3 with ⟨-, g⟩ | ⟨g, -⟩
      · have z0 := hy.onQ.ht_zero
        obtain ⟨u, u', k1, k2, f1, f2⟩ := hy.onP
        rw [f2, ht_step, z0] at g
        have := mul_pos k2 hs
        linarith
      · linarith
    · exact ⟨h1, h2⟩
  refine ⟨hstep.1, hstep.2, hy.onQ.mem RQ, ?_, ?_, ?_, ?_⟩
  · obtain ⟨u, u', k1, k2, f1, f2⟩ := hy.onP
    exact ⟨u, u', k1.le, k2, f1, f2⟩
  · intro d hd y' hy'
    have := hy.unique RP RQ hy'
    omega
  · intro d hd y' hy'
    have : β d ≤ β (b k) := RQ.mono.monotone (by omega)
    linarith [hy'.lo, hy.lo]
  · linarith [hy.lo, RQ.mono.monotone (Nat.zero_le (b k))]

/-- The point where the inner polygon leaves is ahead of the last point. -/
theorem leave {i j : ℕ} (h : Phase P α Q β i j l) {y : Pt ℝ} (hy : En Q β P α j i y) :
    ∀ z ∈ region P α, 0 ≤ cross3 l y z := by
  intro z hz
  obtain ⟨s, s', h1, h2, e1, e2⟩ := h.on
  obtain ⟨u, u', k1, k2, f1, f2⟩ := hy.onQ
  have z0 := hy.onP.ht_zero
  have hl := h.mem j
  have hs := sin_neg_diff hy.lo hy.hi
  have hle : s ≤ u := by
    rw [f1, ht_step] at z0
    rw [e1, ht_step] at hl
    by_contra hc
    push Not at hc
    nlinarith [mul_pos_of_neg_of_neg (show u - s < 0 by linarith) hs]
  have hd : y - l = scale (u - s) (e (α i)) := by
    rw [f1, e1]; ext <;> simp only [scale, Prod.fst_add, Prod.snd_add, Prod.fst_sub, Prod.snd_sub] <;> ring
  unfold cross3
  rw [hd, scale_cp]
  have z1 := hz i
  have : ht P α i z = cp (e (α i)) (z - l) := by
    unfold ht
    have : z - P i = (z - l) + scale s (e (α i)) := by rw [e1]; abel
    rw [this, cp_add, cp_scale, cp_self]; ring
  rw [this] at z1
  exact mul_nonneg (by linarith) z1

end Phase

end

end Verif.Polygon
