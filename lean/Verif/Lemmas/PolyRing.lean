import Verif.Props.PolygonSegment
import Mathlib.Analysis.SpecialFunctions.Trigonometric.Basic
import Mathlib.Order.Monotone.Basic
import Mathlib.Tactic.LinearCombination
import Mathlib.Tactic.Positivity
import Mathlib.Tactic.IntervalCases

/-!
Convex polygons given by the directions of their edges: the sides of vertices, chains of edges, and the points where a
segment leaves a polygon.
-/

namespace Verif.Polygon

open Real

/-- The unit vector of a direction. -/
noncomputable def e (θ : ℝ) : Pt ℝ := (cos θ, sin θ)

theorem cp_e (a b : ℝ) : cp (e a) (e b) = sin (b - a) := by
  simp only [cp, e, sin_sub]; ring

theorem cp_add (u v w : Pt ℝ) : cp u (v + w) = cp u v + cp u w := by
  simp only [cp, Prod.fst_add, Prod.snd_add]; ring

theorem cp_sub (u v w : Pt ℝ) : cp u (v - w) = cp u v - cp u w := by
  simp only [cp, Prod.fst_sub, Prod.snd_sub]; ring

theorem cp_scale (u v : Pt ℝ) (t : ℝ) : cp u (scale t v) = t * cp u v := by
  simp only [cp, scale]; ring

theorem scale_cp (u v : Pt ℝ) (t : ℝ) : cp (scale t u) v = t * cp u v := by
  simp only [cp, scale]; ring

theorem cp_self (u : Pt ℝ) : cp u u = 0 := by
  simp only [cp]; ring

theorem cp_zero (u : Pt ℝ) : cp u 0 = 0 := by
  simp [cp]

theorem e_add_two_pi (θ : ℝ) : e (θ + 2 * π) = e θ := by
  simp [e]

theorem cp_e_add_pi (θ : ℝ) (v : Pt ℝ) : cp (e (θ + π)) v = - cp (e θ) v := by
  simp only [cp, e, cos_add_pi, sin_add_pi]; ring

/-- A closed convex polygon with at least three vertices, counter-clockwise: `P i` is the vertex and `α i` the
direction of the edge from `P i` to `P (i + 1)`.  Each edge turns left by less than a half turn, and `n` edges make one
full turn and return to the start. -/
structure Ring (P : ℕ → Pt ℝ) (n : ℕ) (α : ℕ → ℝ) : Prop where
  pos : 3 ≤ n
  per : ∀ i, P (i + n) = P i
  aper : ∀ i, α (i + n) = α i + 2 * π
  step : ∀ i, α i < α (i + 1) ∧ α (i + 1) < α i + π
  dir : ∀ i, ∃ r : ℝ, 0 < r ∧ P (i + 1) = P i + scale r (e (α i))

/-- The signed distance of a point to the left of an edge. -/
noncomputable def ht (P : ℕ → Pt ℝ) (α : ℕ → ℝ) (i : ℕ) (z : Pt ℝ) : ℝ := cp (e (α i)) (z - P i)

/-- The points to the left of all edges. -/
def region (P : ℕ → Pt ℝ) (α : ℕ → ℝ) : Set (Pt ℝ) := {z | ∀ i, 0 ≤ ht P α i z}

theorem ht_add (P : ℕ → Pt ℝ) (α : ℕ → ℝ) (i : ℕ) (z v : Pt ℝ) :
    ht P α i (z + v) = ht P α i z + cp (e (α i)) v := by
  unfold ht
  rw [add_sub_right_comm, cp_add]

theorem ht_step (P : ℕ → Pt ℝ) (α : ℕ → ℝ) (i : ℕ) (z : Pt ℝ) (t θ : ℝ) :
    ht P α i (z + scale t (e θ)) = ht P α i z + t * sin (θ - α i) := by
  rw [ht_add, cp_scale, cp_e]

namespace Ring

variable {P : ℕ → Pt ℝ} {n : ℕ} {α : ℕ → ℝ}

theorem mono (R : Ring P n α) : StrictMono α := strictMono_nat_of_lt_succ (fun i => (R.step i).1)

theorem lt_iff (R : Ring P n α) {i j : ℕ} : α i < α j ↔ i < j := R.mono.lt_iff_lt

theorem per_mul (R : Ring P n α) (i k : ℕ) : P (i + n * k) = P i := by
  induction k with
  | zero => rfl
  | succ k ih => rw [Nat.mul_succ, ← add_assoc, R.per, ih]

theorem aper_mul (R : Ring P n α) (i k : ℕ) : α (i + n * k) = α i + 2 * π * k := by
  induction k with
  | zero => simp
  | succ k ih => rw [Nat.mul_succ, ← add_assoc, R.aper, ih]; push_cast; ring

theorem per_mod (R : Ring P n α) (i : ℕ) : P (i % n) = P i := by
  conv_rhs => rw [← Nat.mod_add_div i n]
  rw [R.per_mul]

theorem ht_per (R : Ring P n α) (i k : ℕ) (z : Pt ℝ) : ht P α (i + n * k) z = ht P α i z := by
  unfold ht
  rw [R.per_mul, R.aper_mul]
  congr 1
  rw [show α i + 2 * π * k = α i + k * (2 * π) by ring]
  simp only [e, cos_add_nat_mul_two_pi, sin_add_nat_mul_two_pi]

theorem ht_mod (R : Ring P n α) (i : ℕ) (z : Pt ℝ) : ht P α (i % n) z = ht P α i z := by
  conv_rhs => rw [← Nat.mod_add_div i n]
  rw [R.ht_per]

theorem mem_region_iff (R : Ring P n α) (z : Pt ℝ) : z ∈ region P α ↔ ∀ i < n, 0 ≤ ht P α i z := by
  constructor
  · exact fun h i _ => h i
  · intro h i
    rw [← R.ht_mod]
    exact h _ (Nat.mod_lt _ (by linarith [R.pos]))

theorem ht_self (P : ℕ → Pt ℝ) (α : ℕ → ℝ) (i : ℕ) : ht P α i (P i) = 0 := by
  unfold ht; rw [sub_self, cp_zero]

theorem ht_next (R : Ring P n α) (i : ℕ) : ht P α i (P (i + 1)) = 0 := by
  obtain ⟨r, -, e⟩ := R.dir i
  rw [e, ht_step, ht_self, sub_self, sin_zero]; ring

/-- Along edges with directions between `θ` and `θ + π` one moves to the left of `θ`. -/
theorem chain_nonneg (R : Ring P n α) {θ : ℝ} {i j : ℕ} (hij : i ≤ j)
    (H : ∀ k, i ≤ k → k < j → 0 ≤ sin (α k - θ)) : 0 ≤ cp (e θ) (P j - P i) := by
  induction j, hij using Nat.le_induction with
  | base => rw [sub_self, cp_zero]
  | succ j hij ih =>
    obtain ⟨r, hr, er⟩ := R.dir j
    rw [er, add_sub_right_comm, cp_add, cp_scale, cp_e]
    have h1 := ih (fun k a b => H k a (by omega))
    have h2 := H j hij (by omega)
    positivity

theorem chain_pos (R : Ring P n α) {θ : ℝ} {i j : ℕ} (hij : i < j)
    (H : ∀ k, i ≤ k → k < j → 0 ≤ sin (α k - θ)) (h0 : 0 < sin (α i - θ)) : 0 < cp (e θ) (P j - P i) := by
  have h1 := R.chain_nonneg (θ := θ) (i := i + 1) (j := j) hij (fun k a b => H k (by omega) b)
  obtain ⟨r, hr, er⟩ := R.dir i
  have : P j - P i = (P j - P (i + 1)) + scale r (e (α i)) := by rw [er]; abel
  rw [this, cp_add, cp_scale, cp_e]
  positivity

theorem exists_offset (R : Ring P n α) (i j : ℕ) : ∃ t, t < n ∧ j % n = (i + t) % n ∧ P j = P (i + t) := by
  have hn := R.pos
  have h : j % n = (i + (j + i * (n - 1)) % n) % n := by
    rw [Nat.add_mod, Nat.mod_mod, ← Nat.add_mod, show i + (j + i * (n - 1)) = j + n * i by
      obtain ⟨m, rfl⟩ : ∃ m, n = m + 1 := ⟨n - 1, by omega⟩
      simp only [Nat.add_sub_cancel]; ring, Nat.add_mul_mod_self_left]
  exact ⟨_, Nat.mod_lt _ (by omega), h, by rw [← R.per_mod j, h, R.per_mod]⟩

theorem ht_vertex_offset (R : Ring P n α) (i t : ℕ) (ht' : t < n) : 0 ≤ ht P α i (P (i + t)) := by
  unfold ht
  rcases Nat.eq_zero_or_pos t with h | h
  · subst h; rw [add_zero, sub_self, cp_zero]
  by_cases hc : α (i + t - 1) ≤ α i + π
  · apply R.chain_nonneg (by omega)
    intro k h1 h2
    apply sin_nonneg_of_nonneg_of_le_pi
    · linarith [R.mono.monotone h1]
    · have : α k ≤ α (i + t - 1) := R.mono.monotone (by omega)
      linarith
  · push Not at hc
    have h1 := R.chain_nonneg (θ := α i + π) (i := i + t) (j := i + n) (by omega) (fun k h1 h2 => by
      apply sin_nonneg_of_nonneg_of_le_pi
      · have : α (i + t - 1) ≤ α k := R.mono.monotone (by omega)
        linarith
      · have : α k < α (i + n) := R.mono h2
        rw [R.aper] at this
        linarith)
    rw [cp_e_add_pi, R.per] at h1
    have : P (i + t) - P i = -(P i - P (i + t)) := by abel
    rw [this, ← zero_sub, cp_sub, cp_zero]
    linarith

theorem ht_vertex_offset_pos (R : Ring P n α) (i t : ℕ) (ht' : t < n) (h2 : 2 ≤ t) : 0 < ht P α i (P (i + t)) := by
  unfold ht
  by_cases hc : α (i + t - 1) ≤ α i + π
  · have h0 : 0 < sin (α (i + 1) - α i) := by
      apply sin_pos_of_pos_of_lt_pi
      · linarith [(R.step i).1]
      · linarith [(R.step i).2]
    have := R.chain_pos (θ := α i) (i := i + 1) (j := i + t) (by omega) (fun k h1 h2 => by
      apply sin_nonneg_of_nonneg_of_le_pi
      · linarith [R.mono.monotone (show i ≤ k by omega)]
      · have : α k ≤ α (i + t - 1) := R.mono.monotone (by omega)
        linarith) h0
    have h3 := R.ht_next i
    unfold ht at h3
    have e : P (i + t) - P i = (P (i + t) - P (i + 1)) + (P (i + 1) - P i) := by abel
    rw [e, cp_add, h3]
    linarith
  · push Not at hc
    have lo : ∀ k, i + t ≤ k → α i + π < α k := fun k hk => by
      have : α (i + t - 1) ≤ α k := R.mono.monotone (by omega)
      linarith
    have up : ∀ k, k < i + n → α k < α i + 2 * π := fun k hk => by
      have : α k < α (i + n) := R.mono hk
      rwa [R.aper] at this
    have h1 := R.chain_pos (θ := α i + π) (i := i + t) (j := i + n) (by omega) (fun k h1 h2 => by
      apply sin_nonneg_of_nonneg_of_le_pi
      · linarith [lo k h1]
      · linarith [up k h2]) (sin_pos_of_pos_of_lt_pi (by linarith [lo (i + t) le_rfl]) (by linarith [up (i + t) (by omega)]))
    rw [cp_e_add_pi, R.per] at h1
    have : P (i + t) - P i = -(P i - P (i + t)) := by abel
    rw [this, ← zero_sub, cp_sub, cp_zero]
    linarith

/-- Every vertex lies to the left of every edge. -/
theorem ht_vertex (R : Ring P n α) (i j : ℕ) : 0 ≤ ht P α i (P j) := by
  obtain ⟨t, h1, -, h2⟩ := R.exists_offset i j
  rw [h2]
  exact R.ht_vertex_offset i t h1

theorem vertex_mem (R : Ring P n α) (j : ℕ) : P j ∈ region P α := fun i => R.ht_vertex i j

/-- The vertices on the line of an edge are its ends. -/
theorem ht_vertex_eq_zero (R : Ring P n α) {i j : ℕ} (h : ht P α i (P j) = 0) :
    j % n = i % n ∨ j % n = (i + 1) % n := by
  obtain ⟨t, h1, h2, h3⟩ := R.exists_offset i j
  rcases Nat.lt_or_ge t 2 with h4 | h4
  · interval_cases t
    · exact Or.inl h2
    · exact Or.inr h2
  · rw [h3] at h
    exact absurd h (R.ht_vertex_offset_pos i t h1 h4).ne'

/-- The sides of the region seen from the end of an edge: if the polygon turns through the direction `θ + π` at the end
of an edge then it lies to the right of `θ` there. -/
theorem wedge (R : Ring P n α) {θ : ℝ} {a : ℕ} (h0 : θ ≤ α a) (h1 : α a ≤ θ + π) (h2 : θ + π ≤ α (a + 1))
    {z : Pt ℝ} (hz : z ∈ region P α) : cp (e θ) (z - P (a + 1)) ≤ 0 := by
  have hs := R.step a
  have s1 : 0 < sin (α (a + 1) - α a) := sin_pos_of_pos_of_lt_pi (by linarith) (by linarith)
  have s2 : 0 ≤ sin (α a - θ) := sin_nonneg_of_nonneg_of_le_pi (by linarith) (by linarith)
  have s3 : sin (α (a + 1) - θ) ≤ 0 := by
    have := sin_nonneg_of_nonneg_of_le_pi (x := α (a + 1) - θ - π) (by linarith) (by linarith)
    rw [sin_sub_pi] at this
    linarith
  have v1 : 0 ≤ cp (e (α a)) (z - P (a + 1)) := by
    have a1 := hz a
    have a2 := R.ht_next a
    unfold ht at a1 a2
    have : z - P (a + 1) = (z - P a) - (P (a + 1) - P a) := by abel
    rw [this, cp_sub, a2]
    linarith
  have v2 : 0 ≤ cp (e (α (a + 1))) (z - P (a + 1)) := hz (a + 1)
  have key : sin (α (a + 1) - α a) * cp (e θ) (z - P (a + 1)) =
      sin (α (a + 1) - θ) * cp (e (α a)) (z - P (a + 1)) - sin (α a - θ) * cp (e (α (a + 1))) (z - P (a + 1)) := by
    generalize z - P (a + 1) = v
    simp only [cp, e, sin_sub]
    have c0 := sin_sq_add_cos_sq θ
    have c1 := sin_sq_add_cos_sq (α a)
    have c2 := sin_sq_add_cos_sq (α (a + 1))
    ring
  by_contra hc
  push Not at hc
  have : 0 < sin (α (a + 1) - α a) * cp (e θ) (z - P (a + 1)) := mul_pos s1 hc
  rw [key] at this
  nlinarith [mul_nonneg s2 v2, mul_nonneg (neg_nonneg.mpr s3) v1]

end Ring

/-! ## Points inside of an edge -/

/-- A point of an edge that is not one of its ends. -/
def OnEdge (P : ℕ → Pt ℝ) (α : ℕ → ℝ) (c : ℕ) (y : Pt ℝ) : Prop :=
  ∃ s s' : ℝ, 0 < s ∧ 0 < s' ∧ y = P c + scale s (e (α c)) ∧ P (c + 1) = y + scale s' (e (α c))

namespace OnEdge

variable {P : ℕ → Pt ℝ} {n : ℕ} {α : ℕ → ℝ} {c : ℕ} {y : Pt ℝ}

theorem comb (h : OnEdge P α c y) (i : ℕ) : ∃ u v : ℝ, 0 < u ∧ 0 < v ∧
    ht P α i y = u * ht P α i (P c) + v * ht P α i (P (c + 1)) := by
  obtain ⟨s, s', h1, h2, h3, h4⟩ := h
  have hs : 0 < s + s' := by linarith
  refine ⟨s' / (s + s'), s / (s + s'), by positivity, by positivity, ?_⟩
  rw [h4, ht_step]
  have : ht P α i y = ht P α i (P c) + s * sin (α c - α i) := by rw [h3, ht_step]
  rw [this]
  field_simp
  ring

theorem mem (R : Ring P n α) (h : OnEdge P α c y) : y ∈ region P α := by
  intro i
  obtain ⟨u, v, hu, hv, e⟩ := h.comb i
  rw [e]
  have := R.ht_vertex i c
  have := R.ht_vertex i (c + 1)
  positivity

theorem ht_zero (h : OnEdge P α c y) : ht P α c y = 0 := by
  obtain ⟨s, s', h1, h2, h3, h4⟩ := h
  rw [h3, ht_step, sub_self, sin_zero, Ring.ht_self]; ring

/-- An inner point of an edge is on the line of no other edge. -/
theorem eq_of_ht_zero (R : Ring P n α) (h : OnEdge P α c y) {i : ℕ} (hi : ht P α i y = 0) : i % n = c % n := by
  obtain ⟨u, v, hu, hv, e⟩ := h.comb i
  rw [hi] at e
  have a1 := R.ht_vertex i c
  have a2 := R.ht_vertex i (c + 1)
  have b1 : ht P α i (P c) = 0 := by nlinarith [mul_nonneg hu.le a1, mul_nonneg hv.le a2]
  have b2 : ht P α i (P (c + 1)) = 0 := by nlinarith [mul_nonneg hu.le a1, mul_nonneg hv.le a2]
  have hn := R.pos
  rcases R.ht_vertex_eq_zero b1 with c1 | c1
  · exact c1.symm
  · rcases R.ht_vertex_eq_zero b2 with c2 | c2
    · exfalso
      have h1 : (c + 1) % n = (i + 1 + 1) % n := by rw [Nat.add_mod, c1, ← Nat.add_mod]
      rw [c2] at h1
      have h2 : i ≡ i + 2 [MOD n] := h1
      have := (Nat.modEq_iff_dvd' (by omega)).mp h2
      have := Nat.le_of_dvd (by omega) this
      omega
    · have : c + 1 ≡ i + 1 [MOD n] := c2
      exact (Nat.ModEq.add_right_cancel' 1 this).symm

end OnEdge

/-! ## Crossings -/

/-- The edge `c` of `P` enters `Q` through its edge `d` in `y`. -/
structure En (P : ℕ → Pt ℝ) (α : ℕ → ℝ) (Q : ℕ → Pt ℝ) (β : ℕ → ℝ) (c d : ℕ) (y : Pt ℝ) : Prop where
  onP : OnEdge P α c y
  onQ : OnEdge Q β d y
  lo : β d < α c
  hi : α c < β d + π

/-- What the advance rule tells of a step of the edge of `P` from the edges `a` and `b`. -/
def Rule (P : ℕ → Pt ℝ) (α : ℕ → ℝ) (Q : ℕ → Pt ℝ) (β : ℕ → ℝ) (a b : ℕ) : Prop :=
  (0 ≤ sin (α a - β b) ∧ ht Q β b (P (a + 1)) < 0) ∨ (sin (α a - β b) ≤ 0 ∧ 0 ≤ ht P α a (Q (b + 1)))

section chase

variable {P Q : ℕ → Pt ℝ} {n m : ℕ} {α β : ℕ → ℝ}

theorem sin_pos_diff {x y : ℝ} (h0 : y < x) (h1 : x < y + π) : 0 < sin (x - y) :=
  sin_pos_of_pos_of_lt_pi (by linarith) (by linarith)

theorem sin_nonneg_diff {x y : ℝ} (h0 : y ≤ x) (h1 : x ≤ y + π) : 0 ≤ sin (x - y) :=
  sin_nonneg_of_nonneg_of_le_pi (by linarith) (by linarith)

theorem sin_neg_diff {x y : ℝ} (h0 : x < y) (h1 : y < x + π) : sin (x - y) < 0 := by
  have := sin_pos_diff h0 h1
  rw [← neg_sub, sin_neg] at this
  linarith

/-- The edge of `P` does not go past an edge that enters `Q` before the edge of `Q` gets there. -/
theorem barrier1 (RQ : Ring Q m β) {c d b : ℕ} {y : Pt ℝ} (h : En P α Q β c d y) (hb : b < d)
    (hn : α c < β b + π) (hr : Rule P α Q β c b) : False := by
  have hbd : β b < β d := RQ.mono hb
  have hs := sin_pos_diff (lt_trans hbd h.lo) hn
  rcases hr with ⟨-, h2⟩ | ⟨h1, -⟩
  · have hy := h.onQ.mem RQ b
    obtain ⟨s, s', -, hs', -, e⟩ := h.onP
    rw [e, ht_step] at h2
    have := mul_pos hs' hs
    linarith
  · linarith

/-- The edge of `Q` does not go past an edge through which `P` enters before the edge of `P` gets there. -/
theorem barrier2 (RP : Ring P n α) {c d a : ℕ} {y : Pt ℝ} (h : En P α Q β c d y) (ha : a < c)
    (hn1 : β d < α a + π) (hr : Rule Q β P α d a) : False := by
  have hac : α a < α c := RP.mono ha
  have hd := h.hi
  rcases hr with ⟨h1, h2⟩ | ⟨h1, h2⟩
  · have hy := h.onP.mem RP a
    obtain ⟨s, s', -, hs', -, e⟩ := h.onQ
    rw [e, ht_step] at h2
    have := mul_nonneg hs'.le h1
    linarith
  · have hda : β d ≤ α a := by
      by_contra hc
      push Not at hc
      exact absurd (sin_pos_diff hc hn1) (not_lt.mpr h1)
    have h3 := RP.chain_nonneg (θ := β d) (i := a + 1) (j := c) (by omega) (fun k k1 k2 => by
      apply sin_nonneg_diff
      · have : α a < α k := RP.mono (by omega)
        linarith
      · have : α k < α c := RP.mono k2
        linarith)
    have hy := h.onQ.ht_zero
    obtain ⟨s, s', hs, -, e1, -⟩ := h.onP
    rw [e1, ht_step] at hy
    have h4 := mul_pos hs (sin_pos_diff h.lo h.hi)
    have h5 : ht Q β d (P c) = ht Q β d (P (a + 1)) + cp (e (β d)) (P c - P (a + 1)) := by
      rw [← ht_add]; congr 1; abel
    linarith

/-- The directions of the two edges stay within a half turn of each other. -/
theorem near_step (RP : Ring P n α) {a b : ℕ} {z : Pt ℝ} (hzP : z ∈ region P α) (hzQ : z ∈ region Q β)
    (h1 : α a < β b + π) (h2 : β b < α a + π) (hr : Rule P α Q β a b) :
    α (a + 1) < β b + π ∧ β b < α (a + 1) + π := by
  have hs := RP.step a
  refine ⟨?_, by linarith⟩
  rcases hr with ⟨k1, k2⟩ | ⟨k1, k2⟩
  · by_contra hc
    push Not at hc
    have hba : β b ≤ α a := by
      by_contra hc'
      push Not at hc'
      exact absurd (sin_neg_diff hc' h2) (not_lt.mpr k1)
    have h3 := RP.wedge (θ := β b) hba h1.le hc hzP
    have h4 := hzQ b
    have h5 : ht Q β b z = ht Q β b (P (a + 1)) + cp (e (β b)) (z - P (a + 1)) := by
      rw [← ht_add]; congr 1; abel
    linarith
  · have hba : α a ≤ β b := by
      by_contra hc'
      push Not at hc'
      exact absurd (sin_pos_diff hc' h1) (not_lt.mpr k1)
    linarith

/-- Two crossings through which an edge enters are the same. -/
theorem En.unique (RP : Ring P n α) (RQ : Ring Q m β) {c d d' : ℕ} {y y' : Pt ℝ} (h : En P α Q β c d y)
    (h' : En P α Q β c d' y') : d = d' := by
  have e1 : y = y' := by
    obtain ⟨s, -, -, -, es, -⟩ := h.onP
    obtain ⟨t, -, -, -, et, -⟩ := h'.onP
    have a1 := h.onQ.mem RQ d'
    have a2 := h'.onQ.mem RQ d
    have z1 := h.onQ.ht_zero
    have z2 := h'.onQ.ht_zero
    rw [es, ht_step] at a1 z1
    rw [et, ht_step] at a2 z2
    have p1 := sin_pos_diff h.lo h.hi
    have p2 := sin_pos_diff h'.lo h'.hi
    have q1 : 0 ≤ (t - s) * sin (α c - β d) := by linarith
    have q2 : 0 ≤ (s - t) * sin (α c - β d') := by linarith
    have q3 : 0 ≤ t - s := nonneg_of_mul_nonneg_left q1 p1
    have q4 : 0 ≤ s - t := nonneg_of_mul_nonneg_left q2 p2
    rw [es, et, show s = t by linarith]
  subst e1
  have hm : d' % m = d % m := h.onQ.eq_of_ht_zero RQ h'.onQ.ht_zero
  have aux : ∀ i j : ℕ, i % m = j % m → i ≤ j → β j < α c → β j < β i + π → i = j := by
    intro i j hij hle _ h2
    obtain ⟨k, hk⟩ := (Nat.modEq_iff_dvd' hle).mp hij
    have hj : j = i + m * k := by omega
    rw [hj, RQ.aper_mul] at h2
    rcases Nat.eq_zero_or_pos k with h0 | h0
    · rw [h0] at hj; simpa using hj.symm
    · exfalso
      have : (1 : ℝ) ≤ k := by exact_mod_cast h0
      nlinarith [pi_pos]
  rcases Nat.le_total d d' with hle | hle
  · exact aux d d' hm.symm hle h'.lo (by linarith [h.hi, h'.lo])
  · exact (aux d' d hm hle h.lo (by linarith [h'.hi, h.lo])).symm

end chase

/-! ## Leaving a polygon -/

/-- A segment from a point of the polygon to a point outside leaves it through an edge. -/
theorem Ring.leave {Q : ℕ → Pt ℝ} {m : ℕ} {β : ℕ → ℝ} (R : Ring Q m β) {z w : Pt ℝ} (hz : z ∈ region Q β)
    (hw : w ∉ region Q β) :
    ∃ (j : ℕ) (t : ℝ), j < m ∧ 0 ≤ t ∧ t < 1 ∧ z + scale t (w - z) ∈ region Q β ∧ ht Q β j (z + scale t (w - z)) = 0 ∧
      cp (e (β j)) (w - z) < 0 := by
  -- the smallest parameter among the edges with the end on the right
  have key : ∀ k ≤ m, (∃ i < k, ht Q β i w < 0) → ∃ (j : ℕ) (t : ℝ), j < k ∧ 0 ≤ t ∧ t < 1 ∧
      (∀ i < k, 0 ≤ ht Q β i (z + scale t (w - z))) ∧ ht Q β j (z + scale t (w - z)) = 0 ∧ cp (e (β j)) (w - z) < 0 := by
    intro k
    induction k with
    | zero => rintro _ ⟨i, hi, -⟩; omega
    | succ k ih =>
      intro hk hex
      have hzk := hz k
      have dw : ∀ i, ht Q β i w = ht Q β i z + cp (e (β i)) (w - z) := fun i => by
        rw [← ht_add]; congr 1; abel
      have lin : ∀ (i : ℕ) (t : ℝ), ht Q β i (z + scale t (w - z)) = ht Q β i z + t * cp (e (β i)) (w - z) :=
        fun i t => by rw [ht_add, cp_scale]
      by_cases hprev : ∃ i < k, ht Q β i w < 0
      · obtain ⟨j, t, hj, t0, t1, hall, hj0, hjn⟩ := ih (by omega) hprev
        by_cases hkk : 0 ≤ ht Q β k (z + scale t (w - z))
        · refine ⟨j, t, by omega, t0, t1, fun i hi => ?_, hj0, hjn⟩
          rcases Nat.lt_succ_iff_lt_or_eq.mp hi with h | h
          · exact hall i h
          · rw [h]; exact hkk
        · push Not at hkk
          rw [lin] at hkk
          have hneg : cp (e (β k)) (w - z) < 0 := by
            by_contra hc
            push Not at hc
            have := mul_nonneg t0 hc
            linarith
          set u := ht Q β k z / (- cp (e (β k)) (w - z)) with hu
          have hpos : 0 < - cp (e (β k)) (w - z) := by linarith
          have u0 : 0 ≤ u := div_nonneg hzk hpos.le
          have ut : u < t := by
            rw [hu, div_lt_iff₀ hpos]; linarith
          have uz : ht Q β k (z + scale u (w - z)) = 0 := by
            rw [lin, hu]; have := hneg.ne; field_simp; ring
          refine ⟨k, u, by omega, u0, by linarith, fun i hi => ?_, uz, hneg⟩
          rcases Nat.lt_succ_iff_lt_or_eq.mp hi with h | h
          · have a1 := hall i h
            have a2 := hz i
            rw [lin] at a1 ⊢
            by_cases hc : 0 ≤ cp (e (β i)) (w - z)
            · have := mul_nonneg u0 hc
              linarith
            · push Not at hc
              nlinarith
          · rw [h, uz]
      · push Not at hprev
        have hkw : ht Q β k w < 0 := by
          obtain ⟨i, hi, hh⟩ := hex
          rcases Nat.lt_succ_iff_lt_or_eq.mp hi with h | h
          · exact absurd hh (not_lt.mpr (hprev i h))
          · rw [← h]; exact hh
        have hneg : cp (e (β k)) (w - z) < 0 := by
          rw [dw] at hkw; linarith
        set u := ht Q β k z / (- cp (e (β k)) (w - z)) with hu
        have hpos : 0 < - cp (e (β k)) (w - z) := by linarith
        have u0 : 0 ≤ u := div_nonneg hzk hpos.le
        have u1 : u < 1 := by
          rw [hu, div_lt_one hpos]
          rw [dw] at hkw; linarith
        have uz : ht Q β k (z + scale u (w - z)) = 0 := by
          rw [lin, hu]; have := hneg.ne; field_simp; ring
        refine ⟨k, u, by omega, u0, u1, fun i hi => ?_, uz, hneg⟩
        rcases Nat.lt_succ_iff_lt_or_eq.mp hi with h | h
        · have a1 := hprev i h
          have a2 := hz i
          rw [dw] at a1
          rw [lin]
          nlinarith
        · rw [h, uz]
  have hw' : ∃ i < m, ht Q β i w < 0 := by
    by_contra hc
    push Not at hc
    exact hw ((R.mem_region_iff w).mpr hc)
  obtain ⟨j, t, h1, h2, h3, h4, h5, h6⟩ := key m le_rfl hw'
  exact ⟨j, t, h1, h2, h3, (R.mem_region_iff _).mpr h4, h5, h6⟩

/-- A point of the polygon on the line of an edge lies between the ends of the edge. -/
theorem Ring.mem_edge {Q : ℕ → Pt ℝ} {m : ℕ} {β : ℕ → ℝ} (R : Ring Q m β) {j : ℕ} {z : Pt ℝ} (hz : z ∈ region Q β)
    (h : ht Q β j z = 0) :
    ∃ s s' : ℝ, 0 ≤ s ∧ 0 ≤ s' ∧ z = Q j + scale s (e (β j)) ∧ Q (j + 1) = z + scale s' (e (β j)) := by
  -- coordinates along the edge
  set s := (z - Q j).1 * cos (β j) + (z - Q j).2 * sin (β j) with hs
  have hz' : z = Q j + scale s (e (β j)) := by
    have h1 := sin_sq_add_cos_sq (β j)
    unfold ht at h
    simp only [cp, e, Prod.fst_sub, Prod.snd_sub] at h hs
    ext
    · simp only [scale, e, Prod.fst_add, hs]
      linear_combination (-(z.1 - (Q j).1)) * h1 + (-sin (β j)) * h
    · simp only [scale, e, Prod.snd_add, hs]
      linear_combination (-(z.2 - (Q j).2)) * h1 + (cos (β j)) * h
  obtain ⟨r, hr, er⟩ := R.dir j
  refine ⟨s, r - s, ?_, ?_, hz', ?_⟩
  · -- the edge before
    have hm := R.pos
    have e1 : Q (j + (m - 1) + 1) = Q j := by rw [show j + (m - 1) + 1 = j + m by omega, R.per]
    have e2 : β (j + (m - 1) + 1) = β j + 2 * π := by rw [show j + (m - 1) + 1 = j + m by omega, R.aper]
    have a1 := hz (j + (m - 1))
    have a2 := R.ht_next (j + (m - 1))
    rw [e1] at a2
    rw [hz', ht_step, a2] at a1
    have st := R.step (j + (m - 1))
    rw [e2] at st
    have : 0 < sin (β j - β (j + (m - 1))) := by
      have := sin_pos_of_pos_of_lt_pi (x := β j + 2 * π - β (j + (m - 1))) (by linarith) (by linarith)
      rwa [show β j + 2 * π - β (j + (m - 1)) = β j - β (j + (m - 1)) + 2 * π by ring, sin_add_two_pi] at this
    exact nonneg_of_mul_nonneg_left (by linarith) this
  · have a1 := hz (j + 1)
    have st := R.step j
    have a2 : Q (j + 1) = z + scale (r - s) (e (β j)) := by
      rw [er, hz']; ext <;> simp only [scale, Prod.fst_add, Prod.snd_add] <;> ring
    have a3 := Ring.ht_self Q β (j + 1)
    rw [a2, ht_step] at a3
    have := sin_neg_diff st.1 st.2
    by_contra hc
    push Not at hc
    nlinarith [mul_pos_of_neg_of_neg hc this]
  · rw [er, hz']; ext <;> simp only [scale, Prod.fst_add, Prod.snd_add] <;> ring

end Verif.Polygon
