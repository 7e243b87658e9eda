import Verif.Props.PolygonMove

/-! C100: the area of the intersection of two polygons that are moved together, in any position. -/

namespace Verif.Polygon

open Real MeasureTheory

noncomputable section

variable {θ : ℝ} {c o : ℝ × ℝ}

theorem cross4_move (v0 v1 v2 v3 : ℝ × ℝ) :
    cross4 (move θ c o v0) (move θ c o v1) (move θ c o v2) (move θ c o v3) = cross4 v0 v1 v2 v3 := by
  have h := sin_sq_add_cos_sq θ
  unfold cross4 cp move
  simp only [Prod.fst_sub, Prod.snd_sub]
  linear_combination ((v1.1 - v0.1) * (v3.2 - v2.2) - (v1.2 - v0.2) * (v3.1 - v2.1)) * h

theorem cross3_move (v0 v1 v2 : ℝ × ℝ) : cross3 (move θ c o v0) (move θ c o v1) (move θ c o v2) = cross3 v0 v1 v2 :=
  cross4_move v0 v1 v0 v2

/-- The scalar product of the ways from `a` to `b` and to `x`. -/
def along (a b x : ℝ × ℝ) : ℝ := (b.1 - a.1) * (x.1 - a.1) + (b.2 - a.2) * (x.2 - a.2)

theorem along_move (a b x : ℝ × ℝ) : along (move θ c o a) (move θ c o b) (move θ c o x) = along a b x := by
  have h := sin_sq_add_cos_sq θ
  unfold along move
  linear_combination ((b.1 - a.1) * (x.1 - a.1) + (b.2 - a.2) * (x.2 - a.2)) * h

theorem between_iff {p q t : ℝ} {x : ℝ} (h : x = p + t * (q - p)) : (min p q ≤ x ∧ x ≤ max p q) ↔ p = q ∨ 0 ≤ t ∧ t ≤ 1 := by
  subst h
  constructor
  · rintro ⟨h1, h2⟩
    rcases lt_trichotomy p q with g | g | g
    · right
      rw [min_eq_left g.le] at h1
      rw [max_eq_right g.le] at h2
      have : 0 < q - p := by linarith
      exact ⟨by by_contra hn; push Not at hn; nlinarith, by by_contra hn; push Not at hn; nlinarith⟩
    · exact Or.inl g
    · right
      rw [min_eq_right g.le] at h1
      rw [max_eq_left g.le] at h2
      have : 0 < p - q := by linarith
      exact ⟨by by_contra hn; push Not at hn; nlinarith, by by_contra hn; push Not at hn; nlinarith⟩
  · rintro (g | ⟨h0, h1⟩)
    · subst g; simp
    · rcases le_total p q with g | g
      · rw [min_eq_left g, max_eq_right g]
        exact ⟨by nlinarith, by nlinarith⟩
      · rw [min_eq_right g, max_eq_left g]
        exact ⟨by nlinarith, by nlinarith⟩

/-- A point on the line through `a` and `b` is in the box of the two exactly if it is between them. -/
theorem colinear_iff {a b x : ℝ × ℝ} (hab : a ≠ b) (hx : cp (b - a) (x - a) = 0) :
    ((elemMin a b).1 ≤ x.1 ∧ x.1 ≤ (elemMax a b).1 ∧ (elemMin a b).2 ≤ x.2 ∧ x.2 ≤ (elemMax a b).2) ↔
      0 ≤ along a b x ∧ along a b x ≤ along a b b := by
  have hpos : 0 < along a b b := by
    unfold along
    have : a.1 ≠ b.1 ∨ a.2 ≠ b.2 := by
      by_contra hn
      push Not at hn
      exact hab (Prod.ext hn.1 hn.2)
    rcases this with g | g
    · have := sq_pos_of_ne_zero (sub_ne_zero.2 g.symm); nlinarith [sq_nonneg (b.2 - a.2)]
    · have := sq_pos_of_ne_zero (sub_ne_zero.2 g.symm); nlinarith [sq_nonneg (b.1 - a.1)]
  set t := along a b x / along a b b with ht
  have e : along a b x = t * along a b b := by rw [ht]; field_simp
  unfold cp at hx
  simp only [Prod.fst_sub, Prod.snd_sub] at hx
  have e1 : x.1 = a.1 + t * (b.1 - a.1) := by
    have : (x.1 - a.1) * along a b b = t * along a b b * (b.1 - a.1) := by
      rw [← e]; unfold along; linear_combination (-(b.2 - a.2)) * hx
    have h2 : (x.1 - a.1 - t * (b.1 - a.1)) * along a b b = 0 := by linear_combination this
    rcases mul_eq_zero.1 h2 with g | g
    · linarith
    · exact absurd g hpos.ne'
  have e2 : x.2 = a.2 + t * (b.2 - a.2) := by
    have : (x.2 - a.2) * along a b b = t * along a b b * (b.2 - a.2) := by
      rw [← e]; unfold along; linear_combination (b.1 - a.1) * hx
    have h2 : (x.2 - a.2 - t * (b.2 - a.2)) * along a b b = 0 := by linear_combination this
    rcases mul_eq_zero.1 h2 with g | g
    · linarith
    · exact absurd g hpos.ne'
  have ht' : (0 ≤ along a b x ∧ along a b x ≤ along a b b) ↔ 0 ≤ t ∧ t ≤ 1 := by
    rw [e]
    constructor
    · rintro ⟨h1, h2⟩
      exact ⟨by by_contra hn; push Not at hn; nlinarith, by by_contra hn; push Not at hn; nlinarith⟩
    · rintro ⟨h1, h2⟩
      exact ⟨by positivity, by nlinarith⟩
  rw [ht']
  have b1 := between_iff e1
  have b2 := between_iff e2
  unfold elemMin elemMax
  simp only
  constructor
  · rintro ⟨h1, h2, h3, h4⟩
    rcases b1.1 ⟨h1, h2⟩ with g | g
    · rcases b2.1 ⟨h3, h4⟩ with g' | g'
      · exact absurd (Prod.ext g g') hab
      · exact g'
    · exact g
  · intro h
    have i1 := b1.2 (Or.inr h)
    have i2 := b2.2 (Or.inr h)
    exact ⟨i1.1, i1.2, i2.1, i2.2⟩

theorem colinearPoint_move {a b x : ℝ × ℝ} (hab : a ≠ b) (hx : cp (b - a) (x - a) = 0) :
    colinearPoint (move θ c o a) (move θ c o b) (move θ c o x) = (colinearPoint a b x).map (move θ c o) := by
  have hx' : cp (move θ c o b - move θ c o a) (move θ c o x - move θ c o a) = 0 := by
    have := cross4_move (θ := θ) (c := c) (o := o) a b a x
    unfold cross4 at this
    rw [this, hx]
  have h1 := colinear_iff hab hx
  have h2 := colinear_iff ((move_injective θ c o).ne hab) hx'
  rw [along_move, along_move] at h2
  unfold colinearPoint
  by_cases h : 0 ≤ along a b x ∧ along a b x ≤ along a b b
  · rw [if_pos (h1.2 h), if_pos (h2.2 h)]; rfl
  · rw [if_neg (fun g => h (h1.1 g)), if_neg (fun g => h (h2.1 g))]; rfl

theorem orElse_map {α β : Type} (f : α → β) (x y : Option α) : (x.map f <|> y.map f) = (x <|> y).map f := by
  cases x <;> rfl

/-- The intersection of two edges moves with them. -/
theorem exactIntersection_move {p0 p1 q0 q1 : ℝ × ℝ} (hp : p0 ≠ p1) (hq : q0 ≠ q1) :
    exactIntersection (move θ c o p0) (move θ c o p1) (move θ c o q0) (move θ c o q1) (cross4 p0 p1 q1 q0) =
      (exactIntersection p0 p1 q0 q1 (cross4 p0 p1 q1 q0)).map (move θ c o) := by
  unfold exactIntersection
  simp only [cross4_move]
  by_cases hd : cross4 p0 p1 q1 q0 = 0
  · rw [if_pos hd, if_pos hd]
    by_cases hc : cross4 p0 p1 p0 q0 ≠ 0
    · rw [if_pos hc, if_pos hc]; rfl
    · rw [if_neg hc, if_neg hc]
      push Not at hc
      unfold cross4 cp at hd hc
      simp only [Prod.fst_sub, Prod.snd_sub] at hd hc
      have hpp : p1.1 - p0.1 ≠ 0 ∨ p1.2 - p0.2 ≠ 0 := by
        by_contra hn
        push Not at hn
        exact hp (Prod.ext (by linarith [hn.1]) (by linarith [hn.2]))
      -- all four points are on one line
      have k1 : cp (p1 - p0) (q0 - p0) = 0 := hc
      have k2 : cp (p1 - p0) (q1 - p0) = 0 := by
        unfold cp; simp only [Prod.fst_sub, Prod.snd_sub]; linear_combination hc - hd
      have k3 : cp (q1 - q0) (p0 - q0) = 0 := by
        unfold cp; simp only [Prod.fst_sub, Prod.snd_sub]
        rcases hpp with g | g
        · apply mul_left_cancel₀ g
          linear_combination (q1.1 - q0.1) * (-hc) + (q0.1 - p0.1) * (-hd)
        · apply mul_left_cancel₀ g
          linear_combination (q1.2 - q0.2) * (-hc) + (q0.2 - p0.2) * (-hd)
      have k4 : cp (q1 - q0) (p1 - q0) = 0 := by
        unfold cp at k3 ⊢; simp only [Prod.fst_sub, Prod.snd_sub] at k3 ⊢
        linear_combination k3 + hd
      rw [colinearPoint_move hq k3, colinearPoint_move hq k4, colinearPoint_move hp k1, colinearPoint_move hp k2]
      simp only [orElse_map]
  · rw [if_neg hd, if_neg hd]
    split_ifs
    · rfl
    · rfl
    · simp only [Option.map_some, Option.some.injEq]
      unfold move scale
      ext <;> simp only [Prod.fst_add, Prod.snd_add, Prod.fst_sub, Prod.snd_sub] <;> ring

theorem append_move {f : ℝ × ℝ → ℝ × ℝ} (hf : Function.Injective f) (p : ℝ × ℝ) (l : List (ℝ × ℝ)) :
    append (f p) (l.map f) = (append p l).map f := by
  cases l with
  | nil => rfl
  | cons a l =>
    have : (f a :: l.map f).getLastD (f a) = f ((a :: l).getLastD a) := by
      rw [← List.map_cons]
      rw [List.getLastD_eq_getLast?, List.getLastD_eq_getLast?, List.getLast?_map]
      cases (a :: l).getLast? <;> rfl
    unfold append
    simp only [List.map_cons]
    rw [this]
    by_cases h : p ≠ a ∧ p ≠ (a :: l).getLastD a
    · rw [if_pos h, if_pos ⟨hf.ne h.1, hf.ne h.2⟩]; simp
    · rw [if_neg h, if_neg (fun g => h ⟨fun e => g.1 (congrArg f e), fun e => g.2 (congrArg f e)⟩)]; simp

/-! ### The loop -/

/-- A moved polygon: points and number. -/
def MovedPoly (f : ℝ × ℝ → ℝ × ℝ) (P P' : Poly ℝ) : Prop := P'.pts = P.pts.map f ∧ P'.n = P.n ∧ P.n = P.pts.length

/-- Sides are not points. -/
def Sided (P : Poly ℝ) : Prop := ∀ i < P.n, P.pt i ≠ P.pt (P.next i)

theorem MovedPoly.pt {f : ℝ × ℝ → ℝ × ℝ} {P P' : Poly ℝ} (h : MovedPoly f P P') {i : ℕ} (hi : i < P.n) : P'.pt i = f (P.pt i) := by
  unfold Poly.pt
  rw [h.1]
  exact getD_map f P.pts (by rw [← h.2.2]; exact hi)

theorem MovedPoly.next {f : ℝ × ℝ → ℝ × ℝ} {P P' : Poly ℝ} (h : MovedPoly f P P') (i : ℕ) : P'.next i = P.next i := by
  unfold Poly.next
  rw [h.2.1]

theorem next_within (P : Poly ℝ) {i : ℕ} (hi : i < P.n) : P.next i < P.n := by
  unfold Poly.next
  split_ifs <;> omega

/-- The moved state. -/
def St.moved (f : ℝ × ℝ → ℝ × ℝ) (s : St ℝ) : St ℝ := ⟨s.pi, s.qi, s.pin, s.qin, s.cps.map f⟩

theorem det_move {P P' Q Q' : Poly ℝ} (hP : MovedPoly (move θ c o) P P') (hQ : MovedPoly (move θ c o) Q Q') {s : St ℝ} (h1 : s.pi < P.n) (h2 : s.qi < Q.n) :
    (s.moved (move θ c o)).det P' Q' = s.det P Q := by
  unfold St.det St.moved
  simp only
  rw [hP.next, hQ.next, hP.pt h1, hP.pt (next_within P h1), hQ.pt h2, hQ.pt (next_within Q h2), cross4_move]

theorem sideP_move {P P' Q Q' : Poly ℝ} (hP : MovedPoly (move θ c o) P P') (hQ : MovedPoly (move θ c o) Q Q') {s : St ℝ} (h1 : s.pi < P.n) (h2 : s.qi < Q.n) :
    (s.moved (move θ c o)).sideP P' Q' = s.sideP P Q := by
  unfold St.sideP St.moved
  simp only
  rw [hP.next, hQ.next, hP.pt (next_within P h1), hQ.pt h2, hQ.pt (next_within Q h2), cross4_move]

theorem sideQ_move {P P' Q Q' : Poly ℝ} (hP : MovedPoly (move θ c o) P P') (hQ : MovedPoly (move θ c o) Q Q') {s : St ℝ} (h1 : s.pi < P.n) (h2 : s.qi < Q.n) :
    (s.moved (move θ c o)).sideQ P' Q' = s.sideQ P Q := by
  unfold St.sideQ St.moved
  simp only
  rw [hP.next, hQ.next, hP.pt h1, hP.pt (next_within P h1), hQ.pt (next_within Q h2), cross4_move]

theorem inter_move {P P' Q Q' : Poly ℝ} (hP : MovedPoly (move θ c o) P P') (hQ : MovedPoly (move θ c o) Q Q') (sP : Sided P) (sQ : Sided Q)
    {s : St ℝ} (h1 : s.pi < P.n) (h2 : s.qi < Q.n) :
    (s.moved (move θ c o)).inter P' Q' = (s.inter P Q).map (move θ c o) := by
  unfold St.inter
  rw [det_move hP hQ h1 h2]
  unfold St.det St.moved
  simp only
  rw [hP.next, hQ.next, hP.pt h1, hP.pt (next_within P h1), hQ.pt h2, hQ.pt (next_within Q h2)]
  exact exactIntersection_move (sP _ h1) (sQ _ h2)

theorem mark_move {P P' Q Q' : Poly ℝ} (hP : MovedPoly (move θ c o) P P') (hQ : MovedPoly (move θ c o) Q Q') {s : St ℝ} (h1 : s.pi < P.n) (h2 : s.qi < Q.n)
    (x : ℝ × ℝ) : (s.moved (move θ c o)).mark P' Q' (move θ c o x) = (s.mark P Q x).moved (move θ c o) := by
  unfold St.mark
  rw [sideP_move hP hQ h1 h2]
  unfold St.moved
  simp only
  rw [append_move (move_injective θ c o)]

theorem advance_move {P P' Q Q' : Poly ℝ} (hP : MovedPoly (move θ c o) P P') (hQ : MovedPoly (move θ c o) Q Q') {s : St ℝ} (h1 : s.pi < P.n) (h2 : s.qi < Q.n) :
    (s.moved (move θ c o)).advance P' Q' = (s.advance P Q).moved (move θ c o) := by
  have e : (s.moved (move θ c o)).advanceP P' Q' = s.advanceP P Q := by
    unfold St.advanceP
    rw [det_move hP hQ h1 h2, sideP_move hP hQ h1 h2, sideQ_move hP hQ h1 h2]
  unfold St.advance
  rw [e]
  cases s.advanceP P Q
  · unfold St.moved
    simp only [Bool.false_eq_true, if_false]
    rw [hQ.next, hQ.pt (next_within Q h2), append_move (move_injective θ c o)]
    cases s.qin <;> rfl
  · unfold St.moved
    simp only [if_true]
    rw [hP.next, hP.pt (next_within P h1), append_move (move_injective θ c o)]
    cases s.pin <;> rfl

theorem advance_within (P Q : Poly ℝ) {s : St ℝ} (h1 : s.pi < P.n) (h2 : s.qi < Q.n) : (s.advance P Q).pi < P.n ∧ (s.advance P Q).qi < Q.n := by
  unfold St.advance
  cases s.advanceP P Q
  · exact ⟨h1, next_within Q h2⟩
  · exact ⟨next_within P h1, h2⟩

theorem run2_move {P P' Q Q' : Poly ℝ} (hP : MovedPoly (move θ c o) P P') (hQ : MovedPoly (move θ c o) Q Q') (sP : Sided P) (sQ : Sided Q) :
    ∀ (k : ℕ) (s : St ℝ), s.pi < P.n → s.qi < Q.n →
      run2 P' Q' k (s.moved (move θ c o)) = (run2 P Q k s).map (List.map (move θ c o))
  | 0, _, _, _ => rfl
  | k + 1, s, h1, h2 => by
    unfold run2
    rw [inter_move hP hQ sP sQ h1 h2]
    cases hx : s.inter P Q with
    | none =>
      simp only [Option.map_none]
      rw [advance_move hP hQ h1 h2]
      exact run2_move hP hQ sP sQ k _ (advance_within P Q h1 h2).1 (advance_within P Q h1 h2).2
    | some x =>
      simp only [Option.map_some]
      have e : (2 < (s.moved (move θ c o)).cps.length ∧ some (move θ c o x) = (s.moved (move θ c o)).cps.head?) ↔
          (2 < s.cps.length ∧ some x = s.cps.head?) := by
        unfold St.moved
        simp only [List.length_map, List.head?_map]
        cases s.cps.head? with
        | none => simp
        | some y => simp [(move_injective θ c o).eq_iff]
      by_cases h : 2 < s.cps.length ∧ some x = s.cps.head?
      · rw [if_pos h, if_pos (e.2 h)]; rfl
      · rw [if_neg h, if_neg (fun g => h (e.1 g)), mark_move hP hQ h1 h2]
        have m1 : (s.mark P Q x).pi < P.n := h1
        have m2 : (s.mark P Q x).qi < Q.n := h2
        rw [advance_move hP hQ m1 m2]
        exact run2_move hP hQ sP sQ k _ (advance_within P Q m1 m2).1 (advance_within P Q m1 m2).2

theorem run1_move {P P' Q Q' : Poly ℝ} (hP : MovedPoly (move θ c o) P P') (hQ : MovedPoly (move θ c o) Q Q') (sP : Sided P) (sQ : Sided Q) (total : ℕ) :
    ∀ (k : ℕ) (s : St ℝ), s.pi < P.n → s.qi < Q.n →
      run1 P' Q' total k (s.moved (move θ c o)) = (run1 P Q total k s).map (Option.map (List.map (move θ c o)))
  | 0, _, _, _ => rfl
  | k + 1, s, h1, h2 => by
    unfold run1
    rw [inter_move hP hQ sP sQ h1 h2]
    cases hx : s.inter P Q with
    | none =>
      simp only [Option.map_none]
      rw [advance_move hP hQ h1 h2]
      exact run1_move hP hQ sP sQ total k _ (advance_within P Q h1 h2).1 (advance_within P Q h1 h2).2
    | some x =>
      simp only [Option.map_some]
      rw [mark_move hP hQ h1 h2]
      have m1 : (s.mark P Q x).pi < P.n := h1
      have m2 : (s.mark P Q x).qi < Q.n := h2
      rw [advance_move hP hQ m1 m2, run2_move hP hQ sP sQ _ _ (advance_within P Q m1 m2).1 (advance_within P Q m1 m2).2]

/-! ### The whole -/

theorem fan_move (p : ℝ × ℝ) : ∀ l : List (ℝ × ℝ), fan (move θ c o p) (l.map (move θ c o)) = fan p l
  | [] => rfl
  | [_] => rfl
  | a :: b :: l => by
    have := fan_move p (b :: l)
    rw [List.map_cons] at this
    simp only [List.map_cons, fan, cross3_move]
    rw [this]

theorem areaInternal_move (l : List (ℝ × ℝ)) : areaInternal (l.map (move θ c o)) = areaInternal l := by
  have : twiceArea (l.map (move θ c o)) = twiceArea l := by
    cases l with
    | nil => rfl
    | cons a l => exact fan_move a l
  unfold areaInternal
  rw [this]

theorem sided {l : List (ℝ × ℝ)} (hl : ConvexPosition l) {P : Poly ℝ} (h : build l = some P) : Sided P := by
  obtain ⟨h1, h2, h3⟩ := build_boxed h
  rw [pad_eq hl.1] at h3
  have hn : P.n = l.length := by
    unfold build at h
    rw [pad_eq hl.1] at h
    cases l with
    | nil => cases h
    | cons a l => simp only [Option.some.injEq] at h; subst h; rfl
  intro i hi e
  have h3' := hl.1
  rw [hn] at hi
  have hnext : P.next i = (i + 1) % l.length := by
    unfold Poly.next
    rw [hn]
    split_ifs with g
    · subst g
      rw [Nat.sub_add_cancel (by omega), Nat.mod_self]
    · rw [Nat.mod_eq_of_lt (by omega)]
  obtain ⟨m1, m2⟩ := mod_apart hi (le_refl 2) (by omega : 2 < l.length)
  have := hl.2 i hi _ (Nat.mod_lt _ (by omega)) m1 m2
  unfold Poly.pt at e
  rw [h3, hnext] at e
  rw [← e] at this
  unfold LeftOf at this
  simp at this

/-- If the boxes of two polygons do not meet, their intersection is empty however they are moved. -/
theorem apart_area {l m : List (ℝ × ℝ)} (hl : ConvexPosition l) (hm : ConvexPosition m) {P Q : Poly ℝ} (bP : build l = some P)
    (bQ : build m = some Q) (h : hullOf l ∩ hullOf m = ∅) : intersectionArea P Q = 0 := by
  have fin : ∀ n : List (ℝ × ℝ), IsClosed (hullOf n) := fun n => (n.finite_toSet.isCompact_convexHull (𝕜 := ℝ)).isClosed
  have sub : ∀ n : List (ℝ × ℝ), ∀ p ∈ n, p ∈ hullOf n := fun n p hp => subset_convexHull ℝ _ hp
  rw [convex_intersection_partial hl hm bP bQ]
  · rw [h]; simp [cutOff]
  · intro p hp hf
    exact Set.eq_empty_iff_forall_notMem.1 h p ⟨sub l p hp, (fin m).frontier_subset hf⟩
  · intro p hp hf
    exact Set.eq_empty_iff_forall_notMem.1 h p ⟨(fin l).frontier_subset hf, sub m p hp⟩

theorem apart_hull {l m : List (ℝ × ℝ)} (hl : ConvexPosition l) (hm : ConvexPosition m) {P Q : Poly ℝ} (bP : build l = some P)
    (bQ : build m = some Q) (h : maybeIntersect P Q = false) : hullOf l ∩ hullOf m = ∅ := by
  obtain ⟨h1, h2, α, h3⟩ := convex_ring hl bP
  obtain ⟨g1, g2, β, g3⟩ := convex_ring hm bQ
  have := maybeIntersect_sound h3 g3 h2 g2 h
  unfold common at this
  rw [region_eq_hull h3 h2, region_eq_hull g3 g2] at this
  subst h1; subst g1
  exact this

theorem all_move {l : List (ℝ × ℝ)} (hl : ConvexPosition l) {P P' : Poly ℝ} (h : build l = some P)
    (ht : P.transform (decide (θ = 0)) (cos θ) (sin θ) c o = some P') (m : List (ℝ × ℝ)) :
    (m.map (move θ c o)).all (pointInside P') = m.all (pointInside P) := by
  rw [List.all_map]
  congr 1
  funext p
  exact transform_inside hl h ht p

/-- C100: the area of the intersection of two convex polygons that are moved together is kept, in any position: also if they touch, share
sides or if the code does not find their intersection. -/
theorem transform_intersection {l m : List (Pt ℝ)} (hl : ConvexPosition l) (hm : ConvexPosition m) {P P' Q Q' : Poly ℝ}
    (bP : build l = some P) (bQ : build m = some Q)
    (tP : P.transform (decide (θ = 0)) (cos θ) (sin θ) c o = some P')
    (tQ : Q.transform (decide (θ = 0)) (cos θ) (sin θ) c o = some Q') :
    intersectionArea P' Q' = intersectionArea P Q := by
  have bP' := tP
  have bQ' := tQ
  rw [transform_build bP hl.1] at bP'
  rw [transform_build bQ hm.1] at bQ'
  have hl' := convexPosition_move hl θ c o
  have hm' := convexPosition_move hm θ c o
  by_cases hd : hullOf l ∩ hullOf m = ∅
  · rw [apart_area hl hm bP bQ hd, apart_area hl' hm' bP' bQ']
    rw [hull_move, hull_move, ← Set.image_inter (move_injective θ c o), hd, Set.image_empty]
  · have hd' : hullOf (l.map (move θ c o)) ∩ hullOf (m.map (move θ c o)) ≠ ∅ := by
      rw [hull_move, hull_move, ← Set.image_inter (move_injective θ c o), Ne, Set.image_eq_empty]
      exact hd
    have m1 : maybeIntersect P Q ≠ false := fun h => hd (apart_hull hl hm bP bQ h)
    have m2 : maybeIntersect P' Q' ≠ false := fun h => hd' (apart_hull hl' hm' bP' bQ' h)
    have mv : ∀ {k : List (ℝ × ℝ)} (_ : ConvexPosition k) {R R' : Poly ℝ}, build k = some R → build (k.map (move θ c o)) = some R' →
        MovedPoly (move θ c o) R R' ∧ R.pts = k ∧ 0 < R.n := by
      intro k hk R R' h h'
      have hk' := convexPosition_move hk θ c o
      have h3 := hk.1
      unfold build at h h'
      rw [pad_eq hk.1] at h
      rw [pad_eq hk'.1] at h'
      cases k with
      | nil => cases h
      | cons a k =>
        simp only [List.map_cons, Option.some.injEq] at h h'
        subst h; subst h'
        exact ⟨⟨by simp, by simp, rfl⟩, rfl, by simp⟩
    obtain ⟨hP, eP, nP⟩ := mv hl bP bP'
    obtain ⟨hQ, eQ, nQ⟩ := mv hm bQ bQ'
    have hv : vertices P' Q' = (vertices P Q).map (move θ c o) := by
      unfold vertices
      rw [if_neg m1, if_neg m2]
      have hr := run1_move hP hQ (sided hl bP) (sided hm bQ) (P.n + Q.n) ((P.n + Q.n) * 2) ⟨0, 0, false, false, []⟩ nP nQ
      rw [show (⟨0, 0, false, false, []⟩ : St ℝ) = (⟨0, 0, false, false, []⟩ : St ℝ).moved (move θ c o) from rfl]
      rw [hP.2.1, hQ.2.1, hr]
      rw [show (⟨0, 0, false, false, []⟩ : St ℝ).moved (move θ c o) = ⟨0, 0, false, false, []⟩ from rfl]
      rcases run1 P Q (P.n + Q.n) ((P.n + Q.n) * 2) ⟨0, 0, false, false, []⟩ with _ | (_ | r)
      · simp only [Option.map_none]
        rw [hP.1, hQ.1, all_move hm bQ tQ, all_move hl bP tP]
        split_ifs <;> rfl
      · rfl
      · rfl
    unfold intersectionArea
    simp only
    rw [hv, List.length_map, areaInternal_move]

end

end Verif.Polygon
