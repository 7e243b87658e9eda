import Verif.Props.RoadEdge
import Mathlib.Data.Finset.Max

/-! C78: the signed distance to a closed convex road edge. -/

namespace Verif.Road

/-- The corners of a polygon, counted around it again and again. -/
def corner (p : List P3) (i : ℕ) : P3 := (p[i % p.length]?).getD ⟨0, 0, 0⟩

/-- Twice the signed area of the triangle of a side and a point: positive on the left. -/
def leftness (p : List P3) (i : ℕ) (q : P3) : ℝ := cross2 ((corner p (i + 1)).sub (corner p i)) (q.sub (corner p i))

/-- The corners of a convex polygon, counterclockwise: every corner is strictly left of every side it is not on; they are at one height. -/
structure Convex (p : List P3) (height : ℝ) : Prop where
  three : 3 ≤ p.length
  left : ∀ i j, j % p.length ≠ i % p.length → j % p.length ≠ (i + 1) % p.length → 0 < leftness p i (corner p j)
  flat : ∀ i, (corner p i).z = height

/-- Strictly inside: left of all sides. -/
def Inside (p : List P3) (q : P3) : Prop := ∀ i, 0 < leftness p i q

/-- Outside: right of some side. -/
def Outside (p : List P3) (q : P3) : Prop := ∃ i, leftness p i q < 0

/-- The closed polyline around a polygon. -/
def around (p : List P3) : List P3 := p ++ p.take 1

theorem corner_period (p : List P3) (i : ℕ) : corner p (i + p.length) = corner p i := by
  unfold corner; rw [Nat.add_mod_right]

theorem leftness_period (p : List P3) (i : ℕ) (q : P3) : leftness p (i + p.length) q = leftness p i q := by
  unfold leftness
  rw [corner_period, show i + p.length + 1 = i + 1 + p.length by omega, corner_period]

theorem corner_mod (p : List P3) (i : ℕ) : corner p (i % p.length) = corner p i := by
  unfold corner; rw [Nat.mod_mod]

theorem leftness_mod (p : List P3) (i : ℕ) (q : P3) : leftness p (i % p.length) q = leftness p i q := by
  unfold leftness
  rw [corner_mod]
  have : corner p (i % p.length + 1) = corner p (i + 1) := by
    unfold corner; rw [Nat.mod_add_mod]
  rw [this]

theorem leftness_start (p : List P3) (i : ℕ) : leftness p i (corner p i) = 0 := by unfold leftness cross2 P3.sub; ring

theorem leftness_end (p : List P3) (i : ℕ) : leftness p i (corner p (i + 1)) = 0 := by unfold leftness cross2 P3.sub; ring

/-- On a line the leftness is affine. -/
theorem leftness_affine (p : List P3) (i : ℕ) {a b x : P3} {t : ℝ} (hx : x.x = a.x + t * (b.x - a.x)) (hy : x.y = a.y + t * (b.y - a.y)) :
    leftness p i x = (1 - t) * leftness p i a + t * leftness p i b := by
  unfold leftness cross2 P3.sub
  simp only
  rw [hx, hy]
  ring

variable {p : List P3} {height : ℝ}

theorem Convex.nonneg (h : Convex p height) (i j : ℕ) : 0 ≤ leftness p i (corner p j) := by
  by_cases h1 : j % p.length = i % p.length
  · rw [← corner_mod, h1, corner_mod, leftness_start]
  · by_cases h2 : j % p.length = (i + 1) % p.length
    · rw [← corner_mod, h2, corner_mod, leftness_end]
    · exact (h.left i j h1 h2).le

theorem mod_succ_ne {k i : ℕ} (hk : 2 ≤ k) : (i + 1) % k ≠ i % k := by
  intro h
  have h1 := Nat.div_add_mod i k
  have h2 := Nat.div_add_mod (i + 1) k
  have h3 := Nat.mod_lt i (show 0 < k by omega)
  rcases Nat.lt_or_ge (i % k + 1) k with h4 | h4
  · have : (i + 1) % k = i % k + 1 := by
      rw [Nat.add_mod, Nat.mod_eq_of_lt (show 1 < k by omega), Nat.mod_eq_of_lt h4]
    omega
  · have : (i + 1) % k = 0 := by
      rw [Nat.add_mod, Nat.mod_eq_of_lt (show 1 < k by omega), show i % k + 1 = k by omega, Nat.mod_self]
    omega

theorem mod_succ_inj {k i j : ℕ} (h : (i + 1) % k = (j + 1) % k) : i % k = j % k := Nat.ModEq.add_right_cancel' 1 h

theorem mod_two_ne {k i : ℕ} (hk : 3 ≤ k) : (i + 2) % k ≠ i % k := by
  intro h
  have h3 := Nat.mod_lt i (show 0 < k by omega)
  rcases Nat.lt_or_ge (i % k + 2) k with h4 | h4
  · have : (i + 2) % k = i % k + 2 := by
      rw [Nat.add_mod, Nat.mod_eq_of_lt (show 2 < k by omega), Nat.mod_eq_of_lt h4]
    omega
  · have : (i + 2) % k = i % k + 2 - k := by
      rw [Nat.add_mod, Nat.mod_eq_of_lt (show 2 < k by omega), Nat.mod_eq_sub_mod h4, Nat.mod_eq_of_lt (by omega)]
    omega

/-- The next corner but one is strictly left of a side. -/
theorem Convex.turn (h : Convex p height) (i : ℕ) : 0 < leftness p i (corner p (i + 2)) := by
  have := h.three
  exact h.left i (i + 2) (mod_two_ne this) (fun e => mod_succ_ne (by omega) e)

/-- The corner before is strictly left of a side. -/
theorem Convex.turn_before (h : Convex p height) (i : ℕ) : 0 < leftness p (i + 1) (corner p i) := by
  have := h.three
  exact h.left (i + 1) i (fun e => mod_succ_ne (by omega) e.symm) (fun e => mod_two_ne this e.symm)

theorem Convex.long (h : Convex p height) (i : ℕ) : 0 < ((corner p (i + 1)).x - (corner p i).x) ^ 2 + ((corner p (i + 1)).y - (corner p i).y) ^ 2 := by
  have := h.turn i
  unfold leftness cross2 P3.sub at this
  simp only at this
  by_contra hle
  have hx : (corner p (i + 1)).x - (corner p i).x = 0 := by
    nlinarith [sq_nonneg ((corner p (i + 1)).x - (corner p i).x), sq_nonneg ((corner p (i + 1)).y - (corner p i).y)]
  have hy : (corner p (i + 1)).y - (corner p i).y = 0 := by
    nlinarith [sq_nonneg ((corner p (i + 1)).x - (corner p i).x), sq_nonneg ((corner p (i + 1)).y - (corner p i).y)]
  rw [hx, hy] at this
  linarith

/-- A point of the polygon on the line of a side is on the side. -/
theorem Convex.face (h : Convex p height) {x : P3} (hx : ∀ i, 0 ≤ leftness p i x) {j : ℕ} (h0 : leftness p (j + 1) x = 0) :
    OnSegment (corner p (j + 1)) (corner p (j + 2)) x := by
  have hl := h.long (j + 1)
  have e : ∃ t : ℝ, x.x = (corner p (j + 1)).x + t * ((corner p (j + 2)).x - (corner p (j + 1)).x) ∧
      x.y = (corner p (j + 1)).y + t * ((corner p (j + 2)).y - (corner p (j + 1)).y) := by
    unfold leftness cross2 P3.sub at h0
    simp only [show j + 1 + 1 = j + 2 by omega] at h0 hl
    refine ⟨((x.x - (corner p (j + 1)).x) * ((corner p (j + 2)).x - (corner p (j + 1)).x) +
      (x.y - (corner p (j + 1)).y) * ((corner p (j + 2)).y - (corner p (j + 1)).y)) /
      (((corner p (j + 2)).x - (corner p (j + 1)).x) ^ 2 + ((corner p (j + 2)).y - (corner p (j + 1)).y) ^ 2), ?_, ?_⟩
    · rw [div_mul_eq_mul_div, ← sub_eq_iff_eq_add', eq_div_iff hl.ne']
      linear_combination -((corner p (j + 2)).y - (corner p (j + 1)).y) * h0
    · rw [div_mul_eq_mul_div, ← sub_eq_iff_eq_add', eq_div_iff hl.ne']
      linear_combination ((corner p (j + 2)).x - (corner p (j + 1)).x) * h0
  obtain ⟨t, ex, ey⟩ := e
  refine ⟨t, ?_, ?_, ex, ey⟩
  · have h1 := hx j
    rw [leftness_affine p j ex ey, leftness_end, mul_zero, zero_add] at h1
    have := h.turn j
    by_contra hlt
    push Not at hlt
    nlinarith
  · have h1 := hx (j + 2)
    rw [leftness_affine p (j + 2) ex ey, leftness_start, mul_zero, add_zero] at h1
    have := h.turn_before (j + 1)
    rw [show j + 1 + 1 = j + 2 by omega] at this
    by_contra hlt
    push Not at hlt
    nlinarith

theorem Convex.face' (h : Convex p height) {x : P3} (hx : ∀ i, 0 ≤ leftness p i x) {j : ℕ} (h0 : leftness p j x = 0) :
    OnSegment (corner p j) (corner p (j + 1)) x := by
  have hk := h.three
  have h1 := h.face hx (j := j + (p.length - 1)) (by rw [show j + (p.length - 1) + 1 = j + p.length by omega, leftness_period]; exact h0)
  rw [show j + (p.length - 1) + 1 = j + p.length by omega, corner_period, show j + (p.length - 1) + 2 = j + 1 + p.length by omega,
    corner_period] at h1
  exact h1

theorem planar_scale {q a x : P3} {t : ℝ} (h0 : 0 ≤ t) (h1 : t ≤ 1) (hx : x.x = a.x + t * (q.x - a.x)) (hy : x.y = a.y + t * (q.y - a.y)) :
    planar q x = (1 - t) * planar q a := by
  unfold planar
  rw [hx, hy, show (q.x - (a.x + t * (q.x - a.x))) ^ 2 + (q.y - (a.y + t * (q.y - a.y))) ^ 2 =
    (1 - t) ^ 2 * ((q.x - a.x) ^ 2 + (q.y - a.y) ^ 2) by ring, Real.sqrt_mul (sq_nonneg _), Real.sqrt_sq (by linarith)]

theorem planar_pos {q a : P3} {i : ℕ} (h : leftness p i q ≠ leftness p i a) : 0 < planar q a := by
  unfold planar
  apply Real.sqrt_pos.2
  by_contra hle
  have hx : q.x = a.x := by nlinarith [sq_nonneg (q.x - a.x), sq_nonneg (q.y - a.y)]
  have hy : q.y = a.y := by nlinarith [sq_nonneg (q.x - a.x), sq_nonneg (q.y - a.y)]
  apply h
  unfold leftness cross2 P3.sub
  simp only
  rw [hx, hy]

/-- Leaving the polygon on the way from `x` to `q`. -/
theorem Convex.exit (h : Convex p height) {q x : P3} (hx : ∀ i, 0 ≤ leftness p i x) (hq : Outside p q)
    (hact : ∀ i, leftness p i x = 0 → 0 ≤ leftness p i q) :
    ∃ j y, OnSegment (corner p j) (corner p (j + 1)) y ∧ planar q y < planar q x := by
  obtain ⟨j₀, hj₀⟩ := hq
  have hk := h.three
  let S := (Finset.range p.length).filter fun i => leftness p i q < 0
  have hne : S.Nonempty := ⟨j₀ % p.length, by
    rw [Finset.mem_filter, Finset.mem_range, leftness_mod]
    exact ⟨Nat.mod_lt _ (by omega), hj₀⟩⟩
  obtain ⟨j, hj, hmin⟩ := Finset.exists_min_image S (fun i => leftness p i x / (leftness p i x - leftness p i q)) hne
  have hpos : ∀ i, leftness p i q < 0 → 0 < leftness p i x := by
    intro i hi
    rcases (hx i).eq_or_lt with e | e
    · exact absurd (hact i e.symm) (not_le.2 hi)
    · exact e
  have hjq := (Finset.mem_filter.1 hj).2
  have hjx := hpos j hjq
  have hden : 0 < leftness p j x - leftness p j q := by linarith
  set s := leftness p j x / (leftness p j x - leftness p j q) with hs
  have hs0 : 0 < s := div_pos hjx hden
  have hs1 : s < 1 := by rw [hs, div_lt_one hden]; linarith
  let y : P3 := ⟨x.x + s * (q.x - x.x), x.y + s * (q.y - x.y), 0⟩
  have hy : ∀ i, leftness p i y = (1 - s) * leftness p i x + s * leftness p i q := fun i => leftness_affine p i rfl rfl
  have hyj : leftness p j y = 0 := by
    rw [hy, hs]
    field_simp
    ring
  have hyall : ∀ i, 0 ≤ leftness p i y := by
    intro i
    rw [hy]
    rcases lt_or_ge (leftness p i q) 0 with hi | hi
    · have hi' : leftness p (i % p.length) q < 0 := by rw [leftness_mod]; exact hi
      have := hmin (i % p.length) (Finset.mem_filter.2 ⟨Finset.mem_range.2 (Nat.mod_lt _ (by omega)), hi'⟩)
      rw [leftness_mod, leftness_mod] at this
      have hix := hpos i hi
      have hd : 0 < leftness p i x - leftness p i q := by linarith
      rw [le_div_iff₀ hd] at this
      nlinarith
    · have := hx i
      nlinarith
  refine ⟨j, y, h.face' hyall hyj, ?_⟩
  rw [planar_scale hs0.le hs1.le rfl rfl]
  have : 0 < planar q x := planar_pos (p := p) (i := j) (by linarith)
  nlinarith

/-- A nearest point of the boundary is on a side with the point on its outer side. -/
theorem Convex.active (h : Convex p height) {q x : P3} {i : ℕ} (hx : OnSegment (corner p i) (corner p (i + 1)) x) (hq : Outside p q)
    (hmin : ∀ j y, OnSegment (corner p j) (corner p (j + 1)) y → planar q x ≤ planar q y) : ∃ j, leftness p j x = 0 ∧ leftness p j q < 0 := by
  obtain ⟨t, h0, h1, ex, ey⟩ := hx
  have hall : ∀ j, 0 ≤ leftness p j x := by
    intro j
    rw [leftness_affine p j ex ey]
    have a := h.nonneg j i
    have b := h.nonneg j (i + 1)
    nlinarith
  by_contra hno
  push Not at hno
  obtain ⟨j, y, hy, hlt⟩ := h.exit hall hq hno
  exact absurd (hmin j y hy) (not_le.2 hlt)

/-- If no point on the way from `a` in direction `d` is nearer to `q`, then this direction does not lead towards `q`. -/
theorem not_towards {q a b : P3} (hmin : ∀ y, OnSegment a b y → planar q a ≤ planar q y) :
    (q.x - a.x) * (b.x - a.x) + (q.y - a.y) * (b.y - a.y) ≤ 0 := by
  by_contra hpos
  push Not at hpos
  set w := (q.x - a.x) * (b.x - a.x) + (q.y - a.y) * (b.y - a.y) with hw
  set D := (b.x - a.x) ^ 2 + (b.y - a.y) ^ 2 with hD
  have hD0 : 0 ≤ D := by positivity
  have hden : 0 < D + w := by linarith
  have hs0 : 0 < w / (D + w) := div_pos hpos hden
  have hs1 : w / (D + w) ≤ 1 := by rw [div_le_one hden]; linarith
  have h1 := hmin ⟨a.x + w / (D + w) * (b.x - a.x), a.y + w / (D + w) * (b.y - a.y), 0⟩ ⟨_, hs0.le, hs1, rfl, rfl⟩
  unfold planar at h1
  rw [Real.sqrt_le_sqrt_iff (by positivity)] at h1
  simp only at h1
  set s := w / (D + w) with hs
  have e : (q.x - (a.x + s * (b.x - a.x))) ^ 2 + (q.y - (a.y + s * (b.y - a.y))) ^ 2 =
      (q.x - a.x) ^ 2 + (q.y - a.y) ^ 2 - 2 * s * w + s ^ 2 * D := by rw [hw, hD]; ring
  rw [e] at h1
  have hsD : s * D < w * 2 := by
    have : s * (D + w) = w := div_mul_cancel₀ _ hden.ne'
    nlinarith
  nlinarith

theorem around_length (h : 0 < p.length) : (around p).length = p.length + 1 := by
  unfold around
  rw [List.length_append, List.length_take]
  omega

theorem vert_around (h : 0 < p.length) {i : ℕ} (hi : i ≤ p.length) : (vert (pad 0 (around p)) i).p = corner p i := by
  rw [vert_getD]
  unfold around corner
  rcases hi.lt_or_eq with hlt | rfl
  · rw [List.getElem?_append_left hlt, Nat.mod_eq_of_lt hlt]
  · rw [List.getElem?_append_right le_rfl, Nat.mod_self, Nat.sub_self, List.getElem?_take_of_lt (by omega)]

theorem around_cyclic (h : 0 < p.length) : isCyclic (around p) = true := by
  obtain ⟨a, l, rfl⟩ := List.exists_cons_of_ne_nil (List.length_pos_iff.1 h)
  have h1 : (around (a :: l)).head? = some a := rfl
  have h2 : (around (a :: l)).getLast? = some a := by
    rw [show around (a :: l) = (a :: l) ++ [a] from rfl, List.getLast?_append]
    rfl
  unfold isCyclic
  rw [h1, h2]
  simp [dist3sq]

/-- The closed polyline as it is in the tensor. -/
noncomputable def ring (p : List P3) : Line := padded 0 (around p)

theorem ring_segs (h : 0 < p.length) : (ring p).segs = p.length := by
  unfold Line.segs ring
  rw [padded_length, around_length h]
  omega

theorem ring_ok (h : 0 < p.length) {i : ℕ} (hi : i < p.length) : (ring p).ok i = true := padded_ok.2 (by rw [around_length h]; omega)

theorem ring_prior (h : 0 < p.length) (i : ℕ) : (ring p).prior i = if i = 0 then p.length - 1 else i - 1 := by
  unfold Line.prior
  rw [ring_segs h, show (ring p).cyclic = true from around_cyclic h]
  rfl

theorem ring_next (h : 0 < p.length) (i : ℕ) : (ring p).next i = if i + 1 = p.length then 0 else i + 1 := by
  unfold Line.next
  rw [ring_segs h, show (ring p).cyclic = true from around_cyclic h]
  rfl

theorem ring_side (h : 0 < p.length) {i : ℕ} (hi : i < p.length) (q : P3) : (ring p).side q i = sign (-leftness p i q) := by
  unfold Line.side toPoint edge ring padded leftness
  dsimp only
  rw [vert_around h hi.le, vert_around h hi, cross2_swap]

theorem ring_edge (h : 0 < p.length) {i : ℕ} (hi : i < p.length) : edge (ring p).pts i = (corner p (i + 1)).sub (corner p i) := by
  unfold edge ring padded
  dsimp only
  rw [vert_around h hi.le, vert_around h hi]

/-- All corners of the polygon are left turns. -/
theorem ring_convex (h : Convex p height) {i : ℕ} (hi : i ≤ p.length) : (ring p).convex i = true := by
  have hk := h.three
  have key : ∀ j, 0 < cross2 ((corner p (j + 1)).sub (corner p j)) ((corner p (j + 2)).sub (corner p (j + 1))) := by
    intro j
    have := h.turn j
    unfold leftness cross2 P3.sub at this
    unfold cross2 P3.sub
    simp only at this ⊢
    nlinarith [this]
  unfold Line.convex
  rw [ring_segs (by omega), decide_eq_true_eq]
  rcases Nat.eq_zero_or_pos i with rfl | h0
  · simp only [if_true]
    rw [if_neg (by omega), ring_edge (by omega) (by omega), ring_edge (by omega) (by omega)]
    have := key (p.length - 1)
    rw [show p.length - 1 + 1 = 0 + p.length by omega, show p.length - 1 + 2 = 1 + p.length by omega, corner_period, corner_period] at this
    rw [show p.length - 1 + 1 = 0 + p.length by omega, corner_period]
    exact this
  · rw [if_neg (by omega)]
    rcases hi.lt_or_eq with hlt | rfl
    · rw [if_neg (by omega), ring_edge (by omega) (by omega), ring_edge (by omega) hlt]
      have := key (i - 1)
      rw [show i - 1 + 1 = i by omega, show i - 1 + 2 = i + 1 by omega] at this
      rw [show i - 1 + 1 = i by omega]
      exact this
    · simp only [if_true]
      rw [ring_edge (by omega) (by omega), ring_edge (by omega) (by omega)]
      have := key (p.length - 1)
      rw [show p.length - 1 + 1 = 0 + p.length by omega, show p.length - 1 + 2 = 1 + p.length by omega, corner_period, corner_period] at this
      rw [show p.length - 1 + 1 = 0 + p.length by omega, corner_period]
      exact this

/-- The sign before, beside and after a side. -/
theorem ring_signAt (h : Convex p height) {i : ℕ} (hi : i < p.length) (q : P3) :
    (relT q (ring p).pts i < 0 → (ring p).signAt q i = max (sign (-leftness p i q)) (sign (-leftness p (i + p.length - 1) q))) ∧
    (1 < relT q (ring p).pts i → (ring p).signAt q i = max (sign (-leftness p i q)) (sign (-leftness p (i + 1) q))) ∧
    (0 ≤ relT q (ring p).pts i → relT q (ring p).pts i ≤ 1 → (ring p).signAt q i = sign (-leftness p i q)) := by
  have hk := h.three
  have hk0 : 0 < p.length := by omega
  refine ⟨?_, ?_, ?_⟩
  · intro hr
    have hp : (ring p).prior i < p.length := by rw [ring_prior hk0]; split <;> omega
    rw [signAt_before hr (ring_ok hk0 hp), if_pos (ring_convex h hi.le), ring_side hk0 hi, ring_side hk0 hp, ring_prior hk0]
    split
    next h0 => subst h0; rw [Nat.zero_add]
    next h0 => rw [show i + p.length - 1 = i - 1 + p.length by omega, leftness_period]
  · intro hr
    have hp : (ring p).next i < p.length := by rw [ring_next hk0]; split <;> omega
    rw [signAt_after hr (ring_ok hk0 hp), if_pos (ring_convex h hi), ring_side hk0 hi, ring_side hk0 hp, ring_next hk0]
    split
    next h0 => rw [h0, show leftness p p.length q = leftness p (0 + p.length) q by rw [Nat.zero_add], leftness_period]
    next h0 => rfl
  · intro h0 h1
    rw [signAt_else (fun h' => by linarith) (fun h' => by linarith), ring_side hk0 hi]

theorem sign_neg_of_pos {x : ℝ} (h : 0 < x) : sign (-x) = -1 := if_pos (by linarith)

theorem sign_neg_of_neg {x : ℝ} (h : x < 0) : sign (-x) = 1 := by
  unfold sign
  rw [if_neg (by linarith), if_pos (by linarith)]

theorem sign_le_one (x : ℝ) : sign x ≤ 1 := by
  unfold sign
  split
  · norm_num
  · split <;> norm_num

theorem OnSegment.symm {a b x : P3} (h : OnSegment a b x) : OnSegment b a x := by
  obtain ⟨t, h0, h1, hx, hy⟩ := h
  exact ⟨1 - t, by linarith, by linarith, by rw [hx]; ring, by rw [hy]; ring⟩

theorem Convex.zero (h : Convex p height) {j m : ℕ} (h0 : leftness p j (corner p m) = 0) :
    m % p.length = j % p.length ∨ m % p.length = (j + 1) % p.length := by
  by_contra hno
  push Not at hno
  exact absurd h0 (h.left j m hno.1 hno.2).ne'

theorem leftness_congr {i j : ℕ} (h : i % p.length = j % p.length) (q : P3) : leftness p i q = leftness p j q := by
  rw [← leftness_mod, h, leftness_mod]

/-- The point of a side that is nearest. -/
noncomputable def foot (p : List P3) (q : P3) (i : ℕ) : P3 :=
  ⟨(corner p i).x + clip (relT q (ring p).pts i) * ((corner p (i + 1)).x - (corner p i).x),
   (corner p i).y + clip (relT q (ring p).pts i) * ((corner p (i + 1)).y - (corner p i).y), 0⟩

theorem foot_on (p : List P3) (q : P3) (i : ℕ) : OnSegment (corner p i) (corner p (i + 1)) (foot p q i) :=
  ⟨_, (clip_mem _).1, (clip_mem _).2, rfl, rfl⟩

theorem foot_planar (h : 0 < p.length) {i : ℕ} (hi : i < p.length) (q : P3) : planar q (foot p q i) = norm2 ((ring p).offset q i) := by
  unfold planar norm2 Line.offset toPoint
  rw [ring_edge h hi, show (vert (ring p).pts i).p = corner p i from vert_around h hi.le]
  unfold foot P3.sub P3.scale
  congr 1
  ring

theorem ring_dot (h : 0 < p.length) {i : ℕ} (hi : i < p.length) (q : P3) : relT q (ring p).pts i =
    ((q.x - (corner p i).x) * ((corner p (i + 1)).x - (corner p i).x) + (q.y - (corner p i).y) * ((corner p (i + 1)).y - (corner p i).y)) /
      (((corner p (i + 1)).x - (corner p i).x) ^ 2 + ((corner p (i + 1)).y - (corner p i).y) ^ 2) := by
  unfold relT toPoint
  rw [ring_edge h hi, show (vert (ring p).pts i).p = corner p i from vert_around h hi.le]
  unfold dot2 P3.sub
  simp only [pow_two]

/-- Off the polygon the sign at the nearest side is positive. -/
theorem ring_sign_outside (h : Convex p height) {i : ℕ} (hi : i < p.length) {q : P3} (hq : Outside p q)
    (hmin : ∀ j y, OnSegment (corner p j) (corner p (j + 1)) y → planar q (foot p q i) ≤ planar q y) : (ring p).signAt q i = 1 := by
  have hk := h.three
  have hk0 : 0 < p.length := by omega
  obtain ⟨hb, ha, hm⟩ := ring_signAt h hi q
  obtain ⟨j, hj0, hjq⟩ := h.active (foot_on p q i) hq hmin
  have haff : leftness p j (foot p q i) = (1 - clip (relT q (ring p).pts i)) * leftness p j (corner p i) +
    clip (relT q (ring p).pts i) * leftness p j (corner p (i + 1)) := leftness_affine p j rfl rfl
  have hrel := ring_dot hk0 hi q
  have hlong := h.long i
  have hpred : (i + p.length - 1 + 1) = i + p.length := by omega
  rcases lt_trichotomy (relT q (ring p).pts i) 0 with hr | hr | hr
  · -- before the start
    rw [clip_of_nonpos hr.le] at haff
    rw [hb hr]
    apply le_antisymm (max_le (sign_le_one _) (sign_le_one _))
    rcases h.zero (j := j) (m := i) (by linarith) with e | e
    · rw [leftness_congr e, sign_neg_of_neg hjq]; exact le_max_left _ _
    · have : leftness p (i + p.length - 1) q = leftness p j q := leftness_congr (mod_succ_inj (by rw [hpred, Nat.add_mod_right]; exact e)) q
      rw [this, sign_neg_of_neg hjq]; exact le_max_right _ _
  · -- at the start
    rw [hm hr.ge (by linarith)]
    rw [hr, clip_of_nonpos le_rfl] at haff
    rcases lt_or_ge (leftness p i q) 0 with hneg | hnn
    · exact sign_neg_of_neg hneg
    · exfalso
      have hfoot : planar q (foot p q i) = planar q (corner p i) := by
        unfold planar foot
        rw [hr, clip_of_nonpos le_rfl]
        simp
      have hprev : leftness p (i + p.length - 1) q < 0 := by
        rcases h.zero (j := j) (m := i) (by linarith) with e | e
        · rw [leftness_congr e] at hnn; linarith
        · have : leftness p (i + p.length - 1) q = leftness p j q := leftness_congr (mod_succ_inj (by rw [hpred, Nat.add_mod_right]; exact e)) q
          rw [this]; exact hjq
      have hdot : (q.x - (corner p i).x) * ((corner p (i + 1)).x - (corner p i).x) + (q.y - (corner p i).y) * ((corner p (i + 1)).y - (corner p i).y) = 0 := by
        rw [hr] at hrel
        rcases div_eq_zero_iff.1 hrel.symm with e | e
        · exact e
        · linarith
      have hnt := not_towards (q := q) (a := corner p i) (b := corner p (i + p.length - 1)) (by
        intro y hy
        rw [← hfoot]
        apply hmin (i + p.length - 1) y
        rw [hpred, corner_period]
        exact hy.symm)
      have hturn := h.turn (i + p.length - 1)
      rw [show i + p.length - 1 + 2 = i + 1 + p.length by omega, corner_period] at hturn
      unfold leftness at hprev hnn hturn
      rw [hpred, corner_period] at hprev hturn
      generalize corner p i = b at *
      generalize corner p (i + 1) = c at *
      generalize corner p (i + p.length - 1) = a at *
      unfold cross2 P3.sub at hprev hnn hturn
      simp only at hprev hnn hturn
      -- `q - b` is a multiple of the left normal of `c - b`
      have hc : ((q.x - b.x) * (a.x - b.x) + (q.y - b.y) * (a.y - b.y)) * ((c.x - b.x) ^ 2 + (c.y - b.y) ^ 2) =
          ((c.x - b.x) * (q.y - b.y) - (c.y - b.y) * (q.x - b.x)) * ((b.x - a.x) * (c.y - a.y) - (b.y - a.y) * (c.x - a.x)) := by
        linear_combination ((a.x - b.x) * (c.x - b.x) + (a.y - b.y) * (c.y - b.y)) * hdot
      have hd : ((b.x - a.x) * (q.y - a.y) - (b.y - a.y) * (q.x - a.x)) * ((c.x - b.x) ^ 2 + (c.y - b.y) ^ 2) =
          ((c.x - b.x) * (q.y - b.y) - (c.y - b.y) * (q.x - b.x)) * ((b.x - a.x) * (c.x - b.x) + (b.y - a.y) * (c.y - b.y)) := by
        linear_combination ((b.x - a.x) * (c.y - b.y) - (b.y - a.y) * (c.x - b.x)) * hdot
      rcases hnn.eq_or_lt with e | e
      · rw [← e, zero_mul] at hd
        rcases mul_eq_zero.1 hd with e2 | e2
        · linarith
        · linarith
      · have : 0 < ((q.x - b.x) * (a.x - b.x) + (q.y - b.y) * (a.y - b.y)) * ((c.x - b.x) ^ 2 + (c.y - b.y) ^ 2) := by
          rw [hc]; exact mul_pos e hturn
        have := (mul_pos_iff_of_pos_right hlong).1 this
        linarith
  · rcases lt_trichotomy (relT q (ring p).pts i) 1 with hr1 | hr1 | hr1
    · -- beside
      rw [hm hr.le hr1.le]
      rw [clip_of_mem hr.le hr1.le] at haff
      have a := h.nonneg j i
      have b := h.nonneg j (i + 1)
      have hA : leftness p j (corner p i) = 0 := by nlinarith
      have hB : leftness p j (corner p (i + 1)) = 0 := by nlinarith
      have hij : i % p.length = j % p.length := by
        rcases h.zero hA with e | e
        · exact e
        · rcases h.zero hB with e2 | e2
          · exfalso
            have h1 : (i + 1) % p.length = (j + 2) % p.length := by rw [Nat.add_mod, e, ← Nat.add_mod]
            exact mod_two_ne hk (h1.symm.trans e2)
          · exact mod_succ_inj e2
      rw [leftness_congr hij]
      exact sign_neg_of_neg hjq
    · -- at the end
      rw [hm hr.le hr1.le]
      rw [hr1, clip_of_one_le le_rfl] at haff
      rcases lt_or_ge (leftness p i q) 0 with hneg | hnn
      · exact sign_neg_of_neg hneg
      · exfalso
        have hfoot : planar q (foot p q i) = planar q (corner p (i + 1)) := by
          unfold planar foot
          rw [hr1, clip_of_one_le le_rfl]
          simp
        have hnext : leftness p (i + 1) q < 0 := by
          rcases h.zero (j := j) (m := i + 1) (by linarith) with e | e
          · rw [leftness_congr e]; exact hjq
          · rw [leftness_congr (mod_succ_inj e)] at hnn; linarith
        have hdot : (q.x - (corner p (i + 1)).x) * ((corner p (i + 1)).x - (corner p i).x) +
            (q.y - (corner p (i + 1)).y) * ((corner p (i + 1)).y - (corner p i).y) = 0 := by
          rw [hr1, eq_comm, div_eq_one_iff_eq hlong.ne'] at hrel
          linear_combination hrel
        have hnt := not_towards (q := q) (a := corner p (i + 1)) (b := corner p (i + 2)) (by
          intro y hy
          rw [← hfoot]
          exact hmin (i + 1) y hy)
        have hturn := h.turn i
        unfold leftness at hnext hnn hturn
        rw [show i + 1 + 1 = i + 2 by omega] at hnext
        generalize corner p i = a at *
        generalize corner p (i + 1) = b at *
        generalize corner p (i + 2) = c at *
        unfold cross2 P3.sub at hnext hnn hturn
        simp only at hnext hnn hturn
        have hc : ((q.x - b.x) * (c.x - b.x) + (q.y - b.y) * (c.y - b.y)) * ((b.x - a.x) ^ 2 + (b.y - a.y) ^ 2) =
            ((b.x - a.x) * (q.y - a.y) - (b.y - a.y) * (q.x - a.x)) * ((b.x - a.x) * (c.y - a.y) - (b.y - a.y) * (c.x - a.x)) := by
          linear_combination ((b.x - a.x) * (c.x - b.x) + (b.y - a.y) * (c.y - b.y)) * hdot
        have hd : ((c.x - b.x) * (q.y - b.y) - (c.y - b.y) * (q.x - b.x)) * ((b.x - a.x) ^ 2 + (b.y - a.y) ^ 2) =
            ((b.x - a.x) * (q.y - a.y) - (b.y - a.y) * (q.x - a.x)) * ((b.x - a.x) * (c.x - b.x) + (b.y - a.y) * (c.y - b.y)) := by
          linear_combination ((c.x - b.x) * (b.y - a.y) - (c.y - b.y) * (b.x - a.x)) * hdot
        rcases hnn.eq_or_lt with e | e
        · rw [← e, zero_mul] at hd
          rcases mul_eq_zero.1 hd with e2 | e2
          · linarith
          · linarith
        · have : 0 < ((q.x - b.x) * (c.x - b.x) + (q.y - b.y) * (c.y - b.y)) * ((b.x - a.x) ^ 2 + (b.y - a.y) ^ 2) := by
            rw [hc]; exact mul_pos e hturn
          have := (mul_pos_iff_of_pos_right hlong).1 this
          linarith
    · -- after the end
      rw [clip_of_one_le hr1.le] at haff
      rw [ha hr1]
      apply le_antisymm (max_le (sign_le_one _) (sign_le_one _))
      rcases h.zero (j := j) (m := i + 1) (by linarith) with e | e
      · rw [leftness_congr e, sign_neg_of_neg hjq]; exact le_max_right _ _
      · rw [leftness_congr (mod_succ_inj e), sign_neg_of_neg hjq]; exact le_max_left _ _

/-- Inside the polygon the sign is negative. -/
theorem ring_sign_inside (h : Convex p height) {i : ℕ} (hi : i < p.length) {q : P3} (hq : Inside p q) : (ring p).signAt q i = -1 := by
  obtain ⟨hb, ha, hm⟩ := ring_signAt h hi q
  rcases lt_or_ge (relT q (ring p).pts i) 0 with hr | hr
  · rw [hb hr, sign_neg_of_pos (hq _), sign_neg_of_pos (hq _), max_self]
  · rcases lt_or_ge 1 (relT q (ring p).pts i) with hr1 | hr1
    · rw [ha hr1, sign_neg_of_pos (hq _), sign_neg_of_pos (hq _), max_self]
    · rw [hm hr hr1, sign_neg_of_pos (hq _)]

theorem ring_dist3 (h : Convex p height) {i : ℕ} (hi : i < p.length) (q : P3) (stretch : ℝ) :
    (ring p).dist3 stretch q i = Real.sqrt (planar q (foot p q i) ^ 2 + ((q.z - height) * stretch) ^ 2) := by
  have hk := h.three
  have hk0 : 0 < p.length := by omega
  unfold Line.dist3
  rw [if_pos (ring_ok hk0 hi), foot_planar hk0 hi, norm2, Real.sq_sqrt (by positivity)]
  congr 2
  have : ((ring p).offset q i).z = q.z - height := by
    unfold Line.offset toPoint
    rw [ring_edge hk0 hi, show (vert (ring p).pts i).p = corner p i from vert_around hk0 hi.le]
    unfold P3.sub P3.scale
    simp only [h.flat]
    ring
  rw [this]

/-- C78 for a closed convex road edge: the signed distance is the distance from the road edge, negative inside and positive outside. -/
theorem edgeDistance_convex_partial (h : Convex p height) (q : P3) : ∃ v, edgeDistance [around p] q = some v ∧ (v < 0 ↔ Inside p q) ∧
    (0 < v ↔ Outside p q) ∧ (∃ i y, OnSegment (corner p i) (corner p (i + 1)) y ∧ planar q y = |v|) ∧
    ∀ i y, OnSegment (corner p i) (corner p (i + 1)) y → |v| ≤ planar q y := by
  have hk := h.three
  have hk0 : 0 < p.length := by omega
  have hL := around_length hk0
  have hu : used [around p] = [around p] := by
    have h2 : 2 ≤ (around p).length := by omega
    simp [used, h2]
  have hpad : padded (longest [around p]) (around p) = ring p := by
    have : longest [around p] = (around p).length := by simp [longest]
    unfold ring padded pad
    rw [this, Nat.sub_self, Nat.zero_sub]
  have hall : allSegs [ring p] = (List.range p.length).map fun i => (ring p, i) := by
    unfold allSegs
    rw [List.flatMap_singleton, ring_segs hk0]
  obtain ⟨s, hs⟩ := exists_isFirst (l := allSegs [ring p]) (by rw [hall]; simpa using List.length_pos_iff.1 hk0) fun s => s.1.dist3 3 q s.2
  have hmem := hs.mem
  rw [hall] at hmem
  obtain ⟨i, hi, rfl⟩ := List.mem_map.1 hmem
  rw [List.mem_range] at hi
  have hnear : ∀ j, j < p.length → planar q (foot p q i) ≤ planar q (foot p q j) := by
    intro j hj
    have := hs.le (x := (ring p, j)) (by rw [hall]; exact List.mem_map.2 ⟨j, List.mem_range.2 hj, rfl⟩)
    dsimp only at this
    rw [ring_dist3 h hi, ring_dist3 h hj, Real.sqrt_le_sqrt_iff (by positivity)] at this
    have h2 : planar q (foot p q i) ^ 2 ≤ planar q (foot p q j) ^ 2 := by linarith
    exact (sq_le_sq₀ (Real.sqrt_nonneg _) (Real.sqrt_nonneg _)).1 h2
  have hmin : ∀ j y, OnSegment (corner p j) (corner p (j + 1)) y → planar q (foot p q i) ≤ planar q y := by
    intro j y hy
    have hj := Nat.mod_lt j hk0
    refine (hnear _ hj).trans ?_
    rw [foot_planar hk0 hj]
    apply (offset_dist (ring p) q (j % p.length)).2
    rw [show (vert (ring p).pts (j % p.length)).p = corner p (j % p.length) from vert_around hk0 hj.le,
      show (vert (ring p).pts (j % p.length + 1)).p = corner p (j % p.length + 1) from vert_around hk0 hj, corner_mod]
    have : corner p (j % p.length + 1) = corner p (j + 1) := by unfold corner; rw [Nat.mod_add_mod]
    rw [this]
    exact hy
  have hval : edgeDistance [around p] q = some ((ring p).signAt q i * planar q (foot p q i)) := by
    unfold edgeDistance
    rw [edgeLines_eq (by rw [hu]; simp), hu]
    simp only [List.map_cons, List.map_nil, hpad, Option.bind_eq_bind, Option.bind_some]
    rw [signedDistance_first hs, Line.dist2, if_pos (ring_ok hk0 hi), foot_planar hk0 hi]
  have hzero : leftness p i (foot p q i) = 0 := by
    rw [leftness_affine p i (a := corner p i) (b := corner p (i + 1)) rfl rfl, leftness_start, leftness_end, mul_zero, mul_zero, add_zero]
  have hfoot0 : 0 ≤ planar q (foot p q i) := Real.sqrt_nonneg _
  by_cases hin : Inside p q
  · have hout : ¬ Outside p q := by rintro ⟨j, hj⟩; linarith [hin j]
    have hpos : 0 < planar q (foot p q i) := planar_pos (p := p) (i := i) (by rw [hzero]; exact (hin i).ne')
    refine ⟨_, hval, ?_, ?_, ?_, ?_⟩ <;> rw [ring_sign_inside h hi hin, neg_one_mul]
    · exact ⟨fun _ => hin, fun _ => by linarith⟩
    · exact ⟨fun h' => by linarith, fun h' => absurd h' hout⟩
    · exact ⟨i, _, foot_on p q i, by rw [abs_neg, abs_of_pos hpos]⟩
    · rw [abs_neg, abs_of_pos hpos]; exact hmin
  · by_cases hout : Outside p q
    · obtain ⟨j, hj0, hjq⟩ := h.active (foot_on p q i) hout hmin
      have hpos : 0 < planar q (foot p q i) := planar_pos (p := p) (i := j) (by rw [hj0]; exact hjq.ne)
      refine ⟨_, hval, ?_, ?_, ?_, ?_⟩ <;> rw [ring_sign_outside h hi hout hmin, one_mul]
      · exact ⟨fun h' => by linarith, fun h' => absurd h' hin⟩
      · exact ⟨fun _ => hout, fun _ => hpos⟩
      · exact ⟨i, _, foot_on p q i, by rw [abs_of_pos hpos]⟩
      · rw [abs_of_pos hpos]; exact hmin
    · -- on the boundary
      unfold Inside at hin
      unfold Outside at hout
      push Not at hin hout
      obtain ⟨j, hj⟩ := hin
      have hon := h.face' hout (le_antisymm hj (hout j))
      have h0 : planar q (foot p q i) = 0 := by
        have := hmin j q hon
        have hqq : planar q q = 0 := by simp [planar]
        linarith
      refine ⟨_, hval, ?_, ?_, ?_, ?_⟩ <;> rw [h0, mul_zero]
      · refine ⟨fun h' => absurd h' (lt_irrefl _), fun h' => absurd (h' j) (not_lt.2 hj)⟩
      · refine ⟨fun h' => absurd h' (lt_irrefl _), ?_⟩
        rintro ⟨m, hm⟩
        exact absurd (hout m) (not_le.2 hm)
      · exact ⟨i, _, foot_on p q i, by rw [h0, abs_zero]⟩
      · rw [abs_zero]; exact fun _ _ _ => Real.sqrt_nonneg _

/-- A square is a convex road edge. -/
theorem square_convex : Convex [⟨0, 0, 5⟩, ⟨1, 0, 5⟩, ⟨1, 1, 5⟩, ⟨0, 1, 5⟩] 5 := by
  refine ⟨by simp, ?_, ?_⟩
  · intro i j h1 h2
    rw [← corner_mod, ← leftness_mod]
    have h2' : j % 4 ≠ (i % 4 + 1) % 4 := by rw [Nat.mod_add_mod]; exact h2
    have hi := Nat.mod_lt i (show 0 < 4 by norm_num)
    have hj := Nat.mod_lt j (show 0 < 4 by norm_num)
    simp only [List.length_cons, List.length_nil, Nat.zero_add, Nat.reduceAdd] at h1 ⊢
    generalize i % 4 = i at *
    generalize j % 4 = j at *
    interval_cases i <;> interval_cases j <;> first | omega | norm_num [leftness, corner, cross2, P3.sub]
  · intro i
    rw [← corner_mod]
    have hi := Nat.mod_lt i (show 0 < 4 by norm_num)
    simp only [List.length_cons, List.length_nil, Nat.zero_add, Nat.reduceAdd]
    generalize i % 4 = i at *
    interval_cases i <;> simp [corner]

end Verif.Road
