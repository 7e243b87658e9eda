import Verif.Lemmas.PolyRun

/-!
From the first crossing onwards the loop of `ComputeIntersectionVertices` (math/polygon2d.cc:405-457) collects the
corners of the common region and returns them after one turn.
-/

namespace Verif.Polygon

open Real

/-- The points collected so far: a walk along the boundary of the common region that started in `x0`. -/
structure Good (S : Set (Pt ℝ)) (x0 : Pt ℝ) (l : List (Pt ℝ)) : Prop where
  head : ∃ t, l = x0 :: t ∧ ∀ v ∈ t, v ≠ x0
  mem : ∀ v ∈ l, v ∈ S
  chain : List.IsChain (fun u v => ∀ z ∈ S, 0 ≤ cross3 u v z) l

namespace Good

variable {S : Set (Pt ℝ)} {x0 : Pt ℝ} {l : List (Pt ℝ)}

theorem single (h : x0 ∈ S) : Good S x0 [x0] :=
  ⟨⟨[], rfl, by simp⟩, by simpa using h, by simp⟩

theorem append_cases (h : Good S x0 l) {p : Pt ℝ} (hp : p ∈ S) (hne : p ≠ x0)
    (hc : ∀ z ∈ S, 0 ≤ cross3 (l.getLastD x0) p z) :
    Good S x0 (append p l) ∧ (append p l).getLastD x0 = p ∧ 2 ≤ (append p l).length := by
  obtain ⟨⟨t, rfl, ht⟩, hm, hch⟩ := h
  unfold append
  by_cases hl : p ≠ (x0 :: t).getLastD x0
  · simp only
    rw [if_pos ⟨hne, hl⟩]
    refine ⟨⟨⟨t ++ [p], rfl, ?_⟩, ?_, ?_⟩, by rw [List.getLastD_eq_getLast?, List.getLast?_concat]; rfl, by simp⟩
    · intro v hv
      rcases List.mem_append.mp hv with g | g
      · exact ht v g
      · rw [List.mem_singleton.mp g]; exact hne
    · intro v hv
      rcases List.mem_append.mp hv with g | g
      · exact hm v g
      · rw [List.mem_singleton.mp g]; exact hp
    · rw [List.isChain_append]
      refine ⟨hch, by simp, ?_⟩
      intro x hx y hy
      simp only [List.head?_cons, Option.mem_def, Option.some.injEq] at hy
      subst hy
      have : x = (x0 :: t).getLastD x0 := by
        rw [List.getLastD_eq_getLast?, Option.mem_def.mp hx]; rfl
      rw [this]; exact hc
  · push Not at hl
    simp only
    rw [if_neg (fun g => g.2 hl)]
    refine ⟨⟨⟨t, rfl, ht⟩, hm, hch⟩, hl.symm, ?_⟩
    rcases t with _ | ⟨a, t⟩
    · exact absurd hl hne
    · simp

end Good

section

variable {P Q : Poly ℝ} {α β : ℕ → ℝ}

/-- The common region. -/
def common (P Q : Poly ℝ) (α β : ℕ → ℝ) : Set (Pt ℝ) := {z | z ∈ region P.v α ∧ z ∈ region Q.v β}

/-- The state of the loop after the first crossing. -/
structure Inv (P Q : Poly ℝ) (α β : ℕ → ℝ) (x0 : Pt ℝ) (pin0 : Bool) (k : ℕ) (s : St ℝ) : Prop where
  at' : At P Q k s
  good : Good (common P Q α β) x0 s.cps
  phase : (s.pin = true ∧ s.qin = false ∧ Phase P.v α Q.v β (pos P Q k).1 (pos P Q k).2 (s.cps.getLastD x0)) ∨
    (s.pin = false ∧ s.qin = true ∧ Phase Q.v β P.v α (pos P Q k).2 (pos P Q k).1 (s.cps.getLastD x0))
  len : s.cps.length < 2 → s.pin = pin0

theorem En.sin_ne {V W : ℕ → Pt ℝ} {α β : ℕ → ℝ} {c d : ℕ} {y : Pt ℝ} (h : En V α W β c d y) : 0 < sin (α c - β d) :=
  sin_pos_diff h.lo h.hi

theorem mark_at {k : ℕ} {s : St ℝ} (h : At P Q k s) (x : Pt ℝ) : At P Q k (s.mark P Q x) := h

theorem sideP_at (hP : IsRing P α) (hQ : IsRing Q β) {k : ℕ} {s : St ℝ} (h : At P Q k s) :
    ∃ r : ℝ, 0 < r ∧ s.sideP P Q = r * ht Q.v β (pos P Q k).2 (P.v ((pos P Q k).1 + 1)) := by
  have nP : 0 < P.n := by have := hP.ring.pos; omega
  have nQ : 0 < Q.n := by have := hQ.ring.pos; omega
  obtain ⟨r', hr', er'⟩ := hQ.ring.edge (pos P Q k).2
  refine ⟨r', hr', ?_⟩
  obtain ⟨h1, h2⟩ := h
  have f2 : Q.pt s.qi = Q.v (pos P Q k).2 := by rw [h2]; rfl
  have f3 : P.pt (P.next s.pi) = P.v ((pos P Q k).1 + 1) := by rw [h1, next_mod P nP]; rfl
  have f4 : Q.pt (Q.next s.qi) = Q.v ((pos P Q k).2 + 1) := by rw [h2, next_mod Q nQ]; rfl
  unfold St.sideP cross4 ht
  rw [f2, f3, f4, ← neg_sub (P.v ((pos P Q k).1 + 1)), ← neg_sub (Q.v ((pos P Q k).2 + 1)), er', ← scale_cp]
  simp only [cp, Prod.fst_neg, Prod.snd_neg]; ring

/-- An entering edge sets the flag of the first polygon, a leaving edge that of the second. -/
theorem mark_flags (hP : IsRing P α) (hQ : IsRing Q β) {k : ℕ} {s : St ℝ} (h : At P Q k s) {x : Pt ℝ} :
    (En P.v α Q.v β (pos P Q k).1 (pos P Q k).2 x → (s.mark P Q x).pin = true ∧ (s.mark P Q x).qin = false) ∧
    (En Q.v β P.v α (pos P Q k).2 (pos P Q k).1 x → (s.mark P Q x).pin = false ∧ (s.mark P Q x).qin = true) := by
  obtain ⟨r, hr, er⟩ := sideP_at hP hQ h
  constructor
  · intro hx
    have h0 := hx.onQ.ht_zero
    obtain ⟨u, u', k1, k2, f1, f2⟩ := hx.onP
    have : 0 ≤ s.sideP P Q := by
      rw [er, f2, ht_step, h0]
      have := hx.sin_ne
      positivity
    simp [St.mark, this]
  · intro hx
    have h0 := hx.onP.ht_zero
    obtain ⟨u, u', k1, k2, f1, f2⟩ := hx.onQ
    have : s.sideP P Q < 0 := by
      rw [er, f2, ht_step, h0]
      have := sin_neg_diff hx.lo hx.hi
      have := mul_neg_of_pos_of_neg k2 this
      exact mul_neg_of_pos_of_neg hr (by linarith)
    simp [St.mark, this]

/-- The state after the iteration of the first crossing. -/
theorem inv_start (hP : IsRing P α) (hQ : IsRing Q β) (hN : Near α β) {k : ℕ} {s : St ℝ} {x : Pt ℝ} (h : At P Q k s)
    (hc : s.cps = [])
    (hx : En P.v α Q.v β (pos P Q k).1 (pos P Q k).2 x ∨ En Q.v β P.v α (pos P Q k).2 (pos P Q k).1 x) :
    Inv P Q α β x (decide (0 ≤ s.sideP P Q)) (k + 1) ((s.mark P Q x).advance P Q) := by
  have nP : 0 < P.n := by have := hP.ring.pos; omega
  have nQ : 0 < Q.n := by have := hQ.ring.pos; omega
  have hm : x ∈ region P.v α ∧ x ∈ region Q.v β := by
    rcases hx with g | g
    · exact ⟨g.onP.mem hP.ring, g.onQ.mem hQ.ring⟩
    · exact ⟨g.onQ.mem hP.ring, g.onP.mem hQ.ring⟩
  have hp := pos_path hP hQ hN hm.1 hm.2
  have hcps : (s.mark P Q x).cps = [x] := by simp [St.mark, hc, append]
  obtain ⟨a1, a2, a3, a4⟩ := St.advance_at nP nQ (mark_at h x)
  obtain ⟨m1, m2⟩ := mark_flags hP hQ h (x := x)
  have hpin : (s.mark P Q x).pin = decide (0 ≤ s.sideP P Q) := rfl
  rcases hx with g | g
  · obtain ⟨b1, b2, b3⟩ := Phase.start hP.ring hQ.ring hp g
    obtain ⟨f1, f2⟩ := m1 g
    have hpos : pos P Q (k + 1) = ((pos P Q k).1, (pos P Q k).2 + 1) := Prod.ext b1 b2
    have hcps' : ((s.mark P Q x).advance P Q).cps = [x] := by
      rcases a4 with ⟨e1, -⟩ | ⟨-, e2⟩
      · rw [hpos] at e1
        have := congrArg Prod.fst e1
        simp at this
      · rw [e2, f2]; simpa using hcps
    refine ⟨a3, ?_, Or.inl ⟨by rw [a1, f1], by rw [a2, f2], ?_⟩, fun _ => by rw [a1, hpin]⟩
    · rw [hcps']; exact Good.single hm
    · rw [hcps', hpos]; exact b3
  · obtain ⟨b1, b2, b3⟩ := Phase.start hQ.ring hP.ring hp.swap g
    obtain ⟨f1, f2⟩ := m2 g
    have hpos : pos P Q (k + 1) = ((pos P Q k).1 + 1, (pos P Q k).2) := Prod.ext b2 b1
    have hcps' : ((s.mark P Q x).advance P Q).cps = [x] := by
      rcases a4 with ⟨-, e2⟩ | ⟨e1, -⟩
      · rw [e2, f1]; simpa using hcps
      · rw [hpos] at e1
        have := congrArg Prod.fst e1
        simp at this
    refine ⟨a3, ?_, Or.inr ⟨by rw [a1, f1], by rw [a2, f2], ?_⟩, fun _ => by rw [a1, hpin]⟩
    · rw [hcps']; exact Good.single hm
    · rw [hcps', hpos]; exact b3

/-- An iteration without an intersection. -/
theorem inv_none (hP : IsRing P α) (hQ : IsRing Q β) (hN : Near α β) (gP : Apart P.v Q.v β) (gQ : Apart Q.v P.v α)
    {x0 : Pt ℝ} {pin0 : Bool} {k : ℕ} {s : St ℝ} {c d : ℕ} (x0P : ht P.v α c x0 = 0) (x0Q : ht Q.v β d x0 = 0)
    (h : Inv P Q α β x0 pin0 k s) (hi : s.inter P Q = none) : Inv P Q α β x0 pin0 (k + 1) (s.advance P Q) := by
  have nP : 0 < P.n := by have := hP.ring.pos; omega
  have nQ : 0 < Q.n := by have := hQ.ring.pos; omega
  have hx0 : x0 ∈ common P Q α β := by
    obtain ⟨t, e, -⟩ := h.good.head
    exact h.good.mem x0 (by rw [e]; simp)
  have hp := pos_path hP hQ hN hx0.1 hx0.2
  have no1 : ∀ y, ¬ En P.v α Q.v β (pos P Q k).1 (pos P Q k).2 y := fun y hy => by
    have := (inter_iff hP hQ hN gP gQ h.at' y).mpr (Or.inl hy)
    rw [hi] at this; cases this
  have no2 : ∀ y, ¬ En Q.v β P.v α (pos P Q k).2 (pos P Q k).1 y := fun y hy => by
    have := (inter_iff hP hQ hN gP gQ h.at' y).mpr (Or.inr hy)
    rw [hi] at this; cases this
  obtain ⟨a1, a2, a3, a4⟩ := St.advance_at nP nQ h.at'
  rcases h.phase with ⟨p1, p2, p3⟩ | ⟨p1, p2, p3⟩
  · rcases a4 with ⟨e1, e2⟩ | ⟨e1, e2⟩
    · have hs : (pos P Q (k + 1)).1 = (pos P Q k).1 + 1 := by rw [e1]
      obtain ⟨o1, o2⟩ := Phase.own hP.ring hQ.ring gP gQ hp p3 no2 hs
      have hne : P.v ((pos P Q k).1 + 1) ≠ x0 := fun hc => gP _ d o1.mem (by rw [hc]; exact x0Q)
      obtain ⟨q1, q2, q3⟩ := h.good.append_cases (p := P.v ((pos P Q k).1 + 1)) ⟨hP.ring.vertex_mem _, o1.mem⟩ hne
        (fun z hz => o2 z hz.1)
      rw [p1] at e2
      simp only [if_true] at e2
      refine ⟨a3, by rw [e2]; exact q1, Or.inl ⟨by rw [a1, p1], by rw [a2, p2], ?_⟩, ?_⟩
      · rw [e2, q2, e1]; exact o1
      · rw [e2]; intro hl; omega
    · rw [p2] at e2
      simp only [Bool.false_eq_true, if_false] at e2
      refine ⟨a3, by rw [e2]; exact h.good, Or.inl ⟨by rw [a1, p1], by rw [a2, p2], ?_⟩, ?_⟩
      · rw [e2, e1]; exact p3.other no2
      · rw [e2, a1]; exact h.len
  · rcases a4 with ⟨e1, e2⟩ | ⟨e1, e2⟩
    · rw [p1] at e2
      simp only [Bool.false_eq_true, if_false] at e2
      refine ⟨a3, by rw [e2]; exact h.good, Or.inr ⟨by rw [a1, p1], by rw [a2, p2], ?_⟩, ?_⟩
      · rw [e2, e1]; exact p3.other no1
      · rw [e2, a1]; exact h.len
    · have hs : (pos P Q (k + 1)).2 = (pos P Q k).2 + 1 := by rw [e1]
      obtain ⟨o1, o2⟩ := Phase.own hQ.ring hP.ring gQ gP hp.swap p3 no1 hs
      have hne : Q.v ((pos P Q k).2 + 1) ≠ x0 := fun hc => gQ _ c o1.mem (by rw [hc]; exact x0P)
      obtain ⟨q1, q2, q3⟩ := h.good.append_cases (p := Q.v ((pos P Q k).2 + 1)) ⟨o1.mem, hQ.ring.vertex_mem _⟩ hne
        (fun z hz => o2 z hz.2)
      rw [p2] at e2
      simp only [if_true] at e2
      refine ⟨a3, by rw [e2]; exact q1, Or.inr ⟨by rw [a1, p1], by rw [a2, p2], ?_⟩, ?_⟩
      · rw [e2, q2, e1]; exact o1
      · rw [e2]; intro hl; omega

/-- An iteration with an intersection that is not the first one. -/
theorem inv_some (hP : IsRing P α) (hQ : IsRing Q β) (hN : Near α β) (gP : Apart P.v Q.v β) (gQ : Apart Q.v P.v α)
    {x0 : Pt ℝ} {pin0 : Bool} {k : ℕ} {s : St ℝ} {x : Pt ℝ} (h : Inv P Q α β x0 pin0 k s) (hi : s.inter P Q = some x)
    (hne : x ≠ x0) : Inv P Q α β x0 pin0 (k + 1) ((s.mark P Q x).advance P Q) := by
  have nP : 0 < P.n := by have := hP.ring.pos; omega
  have nQ : 0 < Q.n := by have := hQ.ring.pos; omega
  have hx0 : x0 ∈ common P Q α β := by
    obtain ⟨t, e, -⟩ := h.good.head
    exact h.good.mem x0 (by rw [e]; simp)
  have hp := pos_path hP hQ hN hx0.1 hx0.2
  have hx := (inter_iff hP hQ hN gP gQ h.at' x).mp hi
  obtain ⟨a1, a2, a3, a4⟩ := St.advance_at nP nQ (mark_at h.at' x)
  obtain ⟨m1, m2⟩ := mark_flags hP hQ h.at' (x := x)
  have hcps : (s.mark P Q x).cps = append x s.cps := rfl
  have hm : x ∈ common P Q α β := by
    rcases hx with g | g
    · exact ⟨g.onP.mem hP.ring, g.onQ.mem hQ.ring⟩
    · exact ⟨g.onQ.mem hP.ring, g.onP.mem hQ.ring⟩
  rcases h.phase with ⟨p1, p2, p3⟩ | ⟨p1, p2, p3⟩
  · rcases hx with g | g
    · exact (p3.en _ le_rfl x g).elim
    · obtain ⟨q1, q2, q3⟩ := h.good.append_cases hm hne (fun z hz => p3.leave g z hz.1)
      obtain ⟨b1, b2, b3⟩ := Phase.start hQ.ring hP.ring hp.swap g
      obtain ⟨f1, f2⟩ := m2 g
      have hpos : pos P Q (k + 1) = ((pos P Q k).1 + 1, (pos P Q k).2) := Prod.ext b2 b1
      have hcps' : ((s.mark P Q x).advance P Q).cps = append x s.cps := by
        rcases a4 with ⟨-, e2⟩ | ⟨e1, -⟩
        · rw [e2, f1]; simpa using hcps
        · rw [hpos] at e1
          have := congrArg Prod.fst e1
          simp at this
      refine ⟨a3, by rw [hcps']; exact q1, Or.inr ⟨by rw [a1, f1], by rw [a2, f2], ?_⟩, ?_⟩
      · rw [hcps', q2, hpos]; exact b3
      · rw [hcps']; intro hl; omega
  · rcases hx with g | g
    · obtain ⟨q1, q2, q3⟩ := h.good.append_cases hm hne (fun z hz => p3.leave g z hz.2)
      obtain ⟨b1, b2, b3⟩ := Phase.start hP.ring hQ.ring hp g
      obtain ⟨f1, f2⟩ := m1 g
      have hpos : pos P Q (k + 1) = ((pos P Q k).1, (pos P Q k).2 + 1) := Prod.ext b1 b2
      have hcps' : ((s.mark P Q x).advance P Q).cps = append x s.cps := by
        rcases a4 with ⟨e1, -⟩ | ⟨-, e2⟩
        · rw [hpos] at e1
          have := congrArg Prod.fst e1
          simp at this
        · rw [e2, f2]; simpa using hcps
      refine ⟨a3, by rw [hcps']; exact q1, Or.inl ⟨by rw [a1, f1], by rw [a2, f2], ?_⟩, ?_⟩
      · rw [hcps', q2, hpos]; exact b3
      · rw [hcps']; intro hl; omega
    · exact (p3.en _ le_rfl x g).elim

/-! ## The crossing comes around once -/

theorem mod_copy {n i j : ℕ} (h : j % n = i % n) (hle : i ≤ j) : ∃ k, j = i + n * k := by
  obtain ⟨k, hk⟩ := (Nat.modEq_iff_dvd' hle).mp (show i ≡ j [MOD n] from h.symm)
  exact ⟨k, by omega⟩

/-- Later iterations within one turn do not find the same crossing. -/
theorem cross_once (hP : IsRing P α) (hQ : IsRing Q β) (hN : Near α β) {k0 k : ℕ} {x : Pt ℝ} (h0 : k0 < k)
    (h1 : k < k0 + (P.n + Q.n))
    (c0 : En P.v α Q.v β (pos P Q k0).1 (pos P Q k0).2 x ∨ En Q.v β P.v α (pos P Q k0).2 (pos P Q k0).1 x)
    (c1 : En P.v α Q.v β (pos P Q k).1 (pos P Q k).2 x ∨ En Q.v β P.v α (pos P Q k).2 (pos P Q k).1 x) : False := by
  have hm0 : OnEdge P.v α (pos P Q k0).1 x ∧ OnEdge Q.v β (pos P Q k0).2 x ∧
      |α (pos P Q k0).1 - β (pos P Q k0).2| < π := by
    rcases c0 with g | g
    · exact ⟨g.onP, g.onQ, by rw [abs_lt]; constructor <;> linarith [g.lo, g.hi, pi_pos]⟩
    · exact ⟨g.onQ, g.onP, by rw [abs_lt]; constructor <;> linarith [g.lo, g.hi, pi_pos]⟩
  have hm1 : OnEdge P.v α (pos P Q k).1 x ∧ OnEdge Q.v β (pos P Q k).2 x ∧
      |α (pos P Q k).1 - β (pos P Q k).2| < π := by
    rcases c1 with g | g
    · exact ⟨g.onP, g.onQ, by rw [abs_lt]; constructor <;> linarith [g.lo, g.hi, pi_pos]⟩
    · exact ⟨g.onQ, g.onP, by rw [abs_lt]; constructor <;> linarith [g.lo, g.hi, pi_pos]⟩
  have hp := pos_path hP hQ hN (hm0.1.mem hP.ring) (hm0.2.1.mem hQ.ring)
  have s0 := hp.sum k0
  have s1 := hp.sum k
  have mo1 := hp.mono h0.le
  have mo2 := hp.swap.mono h0.le
  obtain ⟨i, hi⟩ := mod_copy (hm0.1.eq_of_ht_zero hP.ring hm1.1.ht_zero) mo1
  obtain ⟨j, hj⟩ := mod_copy (hm0.2.1.eq_of_ht_zero hQ.ring hm1.2.1.ht_zero) mo2
  have hij : i = j := by
    have b0 := abs_lt.mp hm0.2.2
    have b1 := abs_lt.mp hm1.2.2
    rw [hi, hj, hP.ring.aper_mul, hQ.ring.aper_mul] at b1
    have : ((i : ℤ) - j) = 0 := by
      have u1 : (i : ℝ) - j < 1 := by nlinarith [pi_pos, b0.1, b0.2, b1.1, b1.2]
      have u2 : (-1 : ℝ) < (i : ℝ) - j := by nlinarith [pi_pos, b0.1, b0.2, b1.1, b1.2]
      have v1 : (i : ℤ) - j < 1 := by exact_mod_cast u1
      have v2 : (-1 : ℤ) < (i : ℤ) - j := by exact_mod_cast u2
      omega
    omega
  subst hij
  rcases Nat.eq_zero_or_pos i with hz | hz
  · rw [hz] at hi hj; simp at hi hj; omega
  · have : P.n ≤ P.n * i := Nat.le_mul_of_pos_right _ hz
    have : Q.n ≤ Q.n * i := Nat.le_mul_of_pos_right _ hz
    omega

theorem En.turn {V W : ℕ → Pt ℝ} {α β : ℕ → ℝ} {n m c d : ℕ} {x : Pt ℝ} (RP : Ring V n α) (RQ : Ring W m β)
    (h : En V α W β c d x) (i : ℕ) : En V α W β (c + n * i) (d + m * i) x :=
  ⟨h.onP.mod RP (by simp), h.onQ.mod RQ (by simp), by rw [RP.aper_mul, RQ.aper_mul]; linarith [h.lo],
    by rw [RP.aper_mul, RQ.aper_mul]; linarith [h.hi]⟩

/-- After one turn the loop is at the first crossing again. -/
theorem cross_again (hP : IsRing P α) (hQ : IsRing Q β) (hN : Near α β) {k : ℕ} {x : Pt ℝ} :
    (En P.v α Q.v β (pos P Q k).1 (pos P Q k).2 x → En P.v α Q.v β (pos P Q (k + (P.n + Q.n))).1 (pos P Q (k + (P.n + Q.n))).2 x) ∧
    (En Q.v β P.v α (pos P Q k).2 (pos P Q k).1 x → En Q.v β P.v α (pos P Q (k + (P.n + Q.n))).2 (pos P Q (k + (P.n + Q.n))).1 x) := by
  constructor
  · intro h
    have hp := pos_path hP hQ hN (h.onP.mem hP.ring) (h.onQ.mem hQ.ring)
    have h1 := h.turn hP.ring hQ.ring 1
    obtain ⟨v1, v2⟩ := hp.visit hP.ring hQ.ring h1
    have s := hp.sum k
    have e : (pos P Q k).1 + P.n * 1 + ((pos P Q k).2 + Q.n * 1) = k + (P.n + Q.n) := by omega
    rw [e] at v1 v2
    rw [v1, v2]; exact h1
  · intro h
    have hp := pos_path hP hQ hN (h.onQ.mem hP.ring) (h.onP.mem hQ.ring)
    have h1 := h.turn hQ.ring hP.ring 1
    obtain ⟨v1, v2⟩ := hp.swap.visit hQ.ring hP.ring h1
    have s := hp.sum k
    have e : (pos P Q k).2 + Q.n * 1 + ((pos P Q k).1 + P.n * 1) = k + (P.n + Q.n) := by omega
    rw [e] at v1 v2
    rw [v1, v2]; exact h1

/-! ## The common region is not contained in a line -/

theorem Ring.cone {V : ℕ → Pt ℝ} {n c : ℕ} {y v : Pt ℝ} (R : Ring V n α) (h : OnEdge V α c y) (hv : 0 ≤ cp (e (α c)) v) :
    ∃ t : ℝ, 0 < t ∧ y + scale t v ∈ region V α := by
  have hy := h.mem R
  have key : ∀ k, ∃ t : ℝ, 0 < t ∧ ∀ i < k, 0 ≤ ht V α i (y + scale t v) := by
    intro k
    induction k with
    | zero => exact ⟨1, one_pos, fun i hi => by omega⟩
    | succ k ih =>
      obtain ⟨t, t0, ht'⟩ := ih
      have lin : ∀ (i : ℕ) (u : ℝ), ht V α i (y + scale u v) = ht V α i y + u * cp (e (α i)) v := fun i u => by
        rw [ht_add, cp_scale]
      -- a smaller parameter keeps the earlier edges
      have small : ∀ u, 0 < u → u ≤ t → ∀ i < k, 0 ≤ ht V α i (y + scale u v) := by
        intro u u0 ut i hi
        have a1 := ht' i hi
        have a2 := hy i
        rw [lin] at a1 ⊢
        by_cases hc : 0 ≤ cp (e (α i)) v
        · positivity
        · push Not at hc; nlinarith
      by_cases hz : ht V α k y = 0
      · have hk : k % n = c % n := h.eq_of_ht_zero R hz
        refine ⟨t, t0, fun i hi => ?_⟩
        rcases Nat.lt_succ_iff_lt_or_eq.mp hi with g | g
        · exact ht' i g
        · rw [g, lin, hz]
          have : cp (e (α k)) v = cp (e (α c)) v := by
            have a1 := R.ht_mod k (y + v)
            have a2 := R.ht_mod c (y + v)
            have a3 := R.ht_mod k y
            have a4 := R.ht_mod c y
            rw [hk] at a1 a3
            rw [a2, ht_add, ht_add] at a1
            rw [a4] at a3
            linarith
          rw [this]; positivity
      · have hpos : 0 < ht V α k y := lt_of_le_of_ne (hy k) (Ne.symm hz)
        set u := min t (ht V α k y / (|cp (e (α k)) v| + 1)) with hu
        have hd : 0 < |cp (e (α k)) v| + 1 := by positivity
        have u0 : 0 < u := lt_min t0 (div_pos hpos hd)
        refine ⟨u, u0, fun i hi => ?_⟩
        rcases Nat.lt_succ_iff_lt_or_eq.mp hi with g | g
        · exact small u u0 (min_le_left _ _) i g
        · rw [g, lin]
          have b1 : u * (|cp (e (α k)) v| + 1) ≤ ht V α k y := by
            rw [← le_div_iff₀ hd]; exact min_le_right _ _
          have b2 := neg_abs_le (cp (e (α k)) v)
          nlinarith
  obtain ⟨t, t0, ht'⟩ := key n
  exact ⟨t, t0, (R.mem_region_iff _).mpr ht'⟩

theorem common_cone {V W : ℕ → Pt ℝ} {α β : ℕ → ℝ} {n m c d : ℕ} {y v : Pt ℝ} (RP : Ring V n α) (RQ : Ring W m β)
    (hP : OnEdge V α c y) (hQ : OnEdge W β d y) (h1 : 0 ≤ cp (e (α c)) v) (h2 : 0 ≤ cp (e (β d)) v) :
    ∃ t : ℝ, 0 < t ∧ y + scale t v ∈ region V α ∧ y + scale t v ∈ region W β := by
  obtain ⟨t, t0, a⟩ := RP.cone hP h1
  obtain ⟨u, u0, b⟩ := RQ.cone hQ h2
  have aux : ∀ (X : ℕ → Pt ℝ) (γ : ℕ → ℝ) (t s : ℝ), y ∈ region X γ → y + scale t v ∈ region X γ → 0 < s → s ≤ t →
      y + scale s v ∈ region X γ := by
    intro X γ t s hy hh hs hst
    have := region_comb hy hh (t := s / t) (div_nonneg hs.le (by linarith)) (by rw [div_le_one (by linarith)]; exact hst)
    have e : y + scale s v = y + scale (s / t) (y + scale t v - y) := by
      have : t ≠ 0 := by intro h; linarith
      ext <;> simp only [scale, Prod.fst_add, Prod.snd_add, Prod.fst_sub, Prod.snd_sub] <;> field_simp <;> ring
    rw [e]; exact this
  exact ⟨min t u, lt_min t0 u0, aux V α t _ (hP.mem RP) a (lt_min t0 u0) (min_le_left _ _),
    aux W β u _ (hQ.mem RQ) b (lt_min t0 u0) (min_le_right _ _)⟩

/-- No line contains the common region of two polygons that cross. -/
theorem En.not_line {V W : ℕ → Pt ℝ} {α β : ℕ → ℝ} {n m c d : ℕ} {y w : Pt ℝ} (RP : Ring V n α) (RQ : Ring W m β)
    (h : En V α W β c d y) (hw : w ≠ y)
    (hl : ∀ z, z ∈ region V α → z ∈ region W β → cross3 y w z = 0) : False := by
  have hs := h.sin_ne
  have hs' : sin (β d - α c) = - sin (α c - β d) := by rw [← neg_sub, sin_neg]
  obtain ⟨t, t0, a1, a2⟩ := common_cone RP RQ h.onP h.onQ (v := e (α c)) (by rw [cp_self]) (by rw [cp_e]; exact hs.le)
  obtain ⟨u, u0, b1, b2⟩ := common_cone RP RQ h.onP h.onQ (v := scale (-1) (e (β d)))
    (by rw [cp_scale, cp_e, hs']; linarith) (by rw [cp_scale, cp_self]; linarith)
  have c1 := hl _ a1 a2
  have c2 := hl _ b1 b2
  unfold cross3 at c1 c2
  rw [add_sub_cancel_left, cp_scale] at c1 c2
  rw [cp_scale] at c2
  have d1 : cp (w - y) (e (α c)) = 0 := by
    rcases mul_eq_zero.mp c1 with g | g
    · linarith
    · exact g
  have d2 : cp (w - y) (e (β d)) = 0 := by
    rcases mul_eq_zero.mp c2 with g | g
    · linarith
    · linarith
  apply hw
  have : w - y = 0 := by
    generalize w - y = v at d1 d2
    rw [sin_sub] at hs
    have hs := hs.ne'
    simp only [cp, e] at d1 d2
    have a1 : (sin (α c) * cos (β d) - cos (α c) * sin (β d)) * v.1 = 0 := by
      linear_combination cos (β d) * d1 - cos (α c) * d2
    have a2 : (sin (α c) * cos (β d) - cos (α c) * sin (β d)) * v.2 = 0 := by
      linear_combination sin (β d) * d1 - sin (α c) * d2
    exact Prod.ext (by simpa [hs] using a1) (by simpa [hs] using a2)
  exact sub_eq_zero.mp this

/-! ## The loop after the first crossing -/

/-- What the loop returns: a closed walk around the common region. -/
structure Walk (S : Set (Pt ℝ)) (l : List (Pt ℝ)) : Prop where
  len : 2 < l.length
  walk : ∃ o v t, l = o :: v :: t ∧ o ∈ S ∧ Corner S o ∧ (∀ u ∈ v :: t, u ∈ S ∧ u ≠ o) ∧
    List.IsChain (fun u v => ∀ z ∈ S, 0 ≤ cross3 u v z) (o :: v :: t) ∧
    ∀ z ∈ S, 0 ≤ cross3 ((v :: t).getLast (by simp)) o z

theorem En.corner {V W : ℕ → Pt ℝ} {α β : ℕ → ℝ} {c d : ℕ} {y : Pt ℝ} (h : En V α W β c d y) {S : Set (Pt ℝ)}
    (hS : ∀ z ∈ S, z ∈ region V α ∧ z ∈ region W β) : Corner S y := by
  refine ⟨β d, α c, h.sin_ne.ne', fun z hz => ?_⟩
  have h1 := (hS z hz).1 c
  have h2 := (hS z hz).2 d
  have e1 : ht V α c z = ht V α c y + cp (e (α c)) (z - y) := by rw [← ht_add]; congr 1; abel
  have e2 : ht W β d z = ht W β d y + cp (e (β d)) (z - y) := by rw [← ht_add]; congr 1; abel
  rw [e1, h.onP.ht_zero] at h1
  rw [e2, h.onQ.ht_zero] at h2
  exact ⟨by linarith, by linarith⟩

theorem walk_end {x0 : Pt ℝ} {S : Set (Pt ℝ)} {l : List (Pt ℝ)} (hg : Good S x0 l) (hc : Corner S x0)
    (hl : ¬ l.length < 2) (hlast : ∀ z ∈ S, 0 ≤ cross3 (l.getLastD x0) x0 z)
    (hnl : ∀ w, w ≠ x0 → (∀ z ∈ S, cross3 x0 w z = 0) → False) : Walk S l := by
  obtain ⟨⟨t, rfl, ht⟩, hm, hch⟩ := hg
  rcases t with _ | ⟨v, t⟩
  · simp at hl
  have hx := hm x0 (by simp)
  refine ⟨?_, x0, v, t, rfl, hx, hc, fun u hu => ⟨hm u (List.mem_cons_of_mem _ hu), ht u hu⟩, hch, ?_⟩
  · rcases t with _ | ⟨w, t⟩
    · exfalso
      apply hnl v (ht v (by simp))
      intro z hz
      have h1 := (List.isChain_cons_cons.mp hch).1 z hz
      have h2 := hlast z hz
      simp only [List.getLastD_cons, List.getLastD_nil] at h2
      have : cross3 v x0 z = - cross3 x0 v z := by
        simp only [cross3, cp, Prod.fst_sub, Prod.snd_sub]; ring
      linarith
    · simp
  · have : (x0 :: v :: t).getLastD x0 = (v :: t).getLast (by simp) := by
      rw [List.getLastD_eq_getLast?, List.getLast?_cons_cons, List.getLast?_eq_getLast_of_ne_nil (by simp)]; rfl
    rw [← this]; exact hlast

/-- **The loop returns a walk around the common region.** -/
theorem run2_spec (hP : IsRing P α) (hQ : IsRing Q β) (hN : Near α β) (gP : Apart P.v Q.v β) (gQ : Apart Q.v P.v α)
    {x0 : Pt ℝ} {pin0 : Bool} {k0 : ℕ}
    (c0 : (En P.v α Q.v β (pos P Q k0).1 (pos P Q k0).2 x0 ∧ pin0 = true) ∨
      (En Q.v β P.v α (pos P Q k0).2 (pos P Q k0).1 x0 ∧ pin0 = false)) :
    ∀ (f k : ℕ) (s : St ℝ), k0 < k → k + f = k0 + (P.n + Q.n) + 1 → 0 < f → Inv P Q α β x0 pin0 k s →
      ∃ l, run2 P Q f s = some l ∧ Walk (common P Q α β) l := by
  have c0' : En P.v α Q.v β (pos P Q k0).1 (pos P Q k0).2 x0 ∨ En Q.v β P.v α (pos P Q k0).2 (pos P Q k0).1 x0 :=
    c0.imp And.left And.left
  have hx0 : ∃ c d, ht P.v α c x0 = 0 ∧ ht Q.v β d x0 = 0 := by
    rcases c0' with g | g
    · exact ⟨_, _, g.onP.ht_zero, g.onQ.ht_zero⟩
    · exact ⟨_, _, g.onQ.ht_zero, g.onP.ht_zero⟩
  obtain ⟨c, d, z1, z2⟩ := hx0
  intro f
  induction f with
  | zero => intro k s _ _ h; omega
  | succ f ih =>
    intro k s hk hf _ hinv
    unfold run2
    by_cases hend : k = k0 + (P.n + Q.n)
    · subst hend
      have again : (En P.v α Q.v β (pos P Q (k0 + (P.n + Q.n))).1 (pos P Q (k0 + (P.n + Q.n))).2 x0 ∧ pin0 = true) ∨
          (En Q.v β P.v α (pos P Q (k0 + (P.n + Q.n))).2 (pos P Q (k0 + (P.n + Q.n))).1 x0 ∧ pin0 = false) :=
        c0.imp (fun g => ⟨(cross_again hP hQ hN).1 g.1, g.2⟩) (fun g => ⟨(cross_again hP hQ hN).2 g.1, g.2⟩)
      have hi : s.inter P Q = some x0 :=
        (inter_iff hP hQ hN gP gQ hinv.at' x0).mpr (again.imp And.left And.left)
      rw [hi]
      have hw : Walk (common P Q α β) s.cps := by
        rcases again with ⟨g, hp0⟩ | ⟨g, hp0⟩
        · rcases hinv.phase with ⟨-, -, p3⟩ | ⟨p1, -, p3⟩
          · exact (p3.en _ le_rfl _ g).elim
          · refine walk_end hinv.good (g.corner (fun z hz => hz)) ?_ (fun z hz => p3.leave g z hz.2) ?_
            · intro hl
              have := hinv.len hl
              rw [p1, hp0] at this
              cases this
            · exact fun w hw hl => g.not_line hP.ring hQ.ring hw (fun z h1 h2 => hl z ⟨h1, h2⟩)
        · rcases hinv.phase with ⟨p1, -, p3⟩ | ⟨-, -, p3⟩
          · refine walk_end hinv.good (g.corner (fun z hz => ⟨hz.2, hz.1⟩)) ?_ (fun z hz => p3.leave g z hz.1) ?_
            · intro hl
              have := hinv.len hl
              rw [p1, hp0] at this
              cases this
            · exact fun w hw hl => g.not_line hQ.ring hP.ring hw (fun z h1 h2 => hl z ⟨h2, h1⟩)
          · exact (p3.en _ le_rfl _ g).elim
      refine ⟨s.cps, ?_, hw⟩
      obtain ⟨t, et, -⟩ := hinv.good.head
      simp only
      rw [if_pos ⟨hw.len, by rw [et]; rfl⟩]
    · rcases hi : s.inter P Q with _ | x
      · exact ih (k + 1) _ (by omega) (by omega) (by omega) (inv_none hP hQ hN gP gQ z1 z2 hinv hi)
      · have hx := (inter_iff hP hQ hN gP gQ hinv.at' x).mp hi
        have hne : x ≠ x0 := by
          rintro rfl
          exact cross_once hP hQ hN hk (by omega) c0' hx
        simp only
        have hnh : ¬ (2 < s.cps.length ∧ some x = s.cps.head?) := by
          rintro ⟨-, g⟩
          obtain ⟨t, et, -⟩ := hinv.good.head
          rw [et] at g
          exact hne (Option.some.inj g)
        rw [if_neg hnh]
        exact ih (k + 1) _ (by omega) (by omega) (by omega) (inv_some hP hQ hN gP gQ hinv hi hne)

/-- **The loop until the first crossing.**  Either it finds a crossing and returns a walk around the common region, or
the edges of none of its iterations cross. -/
theorem run1_spec (hP : IsRing P α) (hQ : IsRing Q β) (hN : Near α β) (gP : Apart P.v Q.v β) (gQ : Apart Q.v P.v α) :
    ∀ (f k : ℕ) (s : St ℝ), At P Q k s → s.cps = [] → s.pin = false → s.qin = false →
      (∃ l, run1 P Q (P.n + Q.n) f s = some (some l) ∧ Walk (common P Q α β) l) ∨
      (run1 P Q (P.n + Q.n) f s = none ∧ ∀ i, k ≤ i → i < k + f → ∀ x, OnEdge P.v α (pos P Q i).1 x →
        OnEdge Q.v β (pos P Q i).2 x → False) := by
  have nP : 0 < P.n := by have := hP.ring.pos; omega
  have nQ : 0 < Q.n := by have := hQ.ring.pos; omega
  intro f
  induction f with
  | zero => intro k s _ _ _ _; right; exact ⟨rfl, fun i h1 h2 => by omega⟩
  | succ f ih =>
    intro k s hs hc hp hq
    unfold run1
    rcases hi : s.inter P Q with _ | x
    · simp only
      obtain ⟨a1, a2, a3, a4⟩ := St.advance_at nP nQ hs
      have hc' : (s.advance P Q).cps = [] := by
        rcases a4 with ⟨-, e2⟩ | ⟨-, e2⟩
        · rw [e2, hp]; simpa using hc
        · rw [e2, hq]; simpa using hc
      rcases ih (k + 1) _ a3 hc' (by rw [a1, hp]) (by rw [a2, hq]) with g | ⟨g1, g2⟩
      · exact Or.inl g
      · right
        refine ⟨g1, fun i h1 h2 x oP oQ => ?_⟩
        rcases Nat.lt_or_ge k i with h | h
        · exact g2 i h (by omega) x oP oQ
        · have : i = k := by omega
          subst this
          exact (inter_spec hP hQ hs).2 hi x oP oQ
    · left
      simp only
      have hx := (inter_iff hP hQ hN gP gQ hs x).mp hi
      have hinv := inv_start hP hQ hN hs hc hx
      obtain ⟨m1, m2⟩ := mark_flags hP hQ hs (x := x)
      obtain ⟨l, e, hw⟩ := run2_spec hP hQ hN gP gQ (k0 := k) (x0 := x) (pin0 := decide (0 ≤ s.sideP P Q))
        (hx.imp (fun g => ⟨g, (m1 g).1⟩) (fun g => ⟨g, (m2 g).1⟩)) (P.n + Q.n) (k + 1) _ (by omega) (by omega) (by omega) hinv
      exact ⟨l, by rw [e], hw⟩

end

end Verif.Polygon
