import Verif.Props.ConversionState
import Mathlib.Tactic.FieldSimp
import Mathlib.Tactic.Positivity
import Mathlib.Data.List.Infix
import Mathlib.Data.List.Pairwise

/-! The samples of the road graph: what is sampled, in which order, and what is stored. -/

namespace Verif.Conversion

noncomputable section

/-! ### Resampling of polylines -/

/-- The Catmull–Rom curve between `b` and `c` in Hermite form: the tangents are half the differences of the neighbours. -/
def catmullRom (a b c d t : ℝ) : ℝ :=
  (2 * t ^ 3 - 3 * t ^ 2 + 1) * b + (t ^ 3 - 2 * t ^ 2 + t) * ((c - a) / 2) + (3 * t ^ 2 - 2 * t ^ 3) * c + (t ^ 3 - t ^ 2) * ((d - b) / 2)

theorem cubicSpline_eq (p0 p1 p2 p3 : V3) (t : ℝ) : cubicSpline p0 p1 p2 p3 t =
    ⟨catmullRom p0.x p1.x p2.x p3.x t, catmullRom p0.y p1.y p2.y p3.y t, catmullRom p0.z p1.z p2.z p3.z t⟩ := by
  unfold cubicSpline catmullRom
  ext <;> simp only [V3.add, V3.sub, V3.smul, V3.neg] <;> ring

/-- `p` is the point with parameter `u` of the curve through the vertices: vertex `i` has the parameter `i`; the first and the last piece
are straight and the others Catmull–Rom curves. -/
def OnCurve (P : List V3) (u : ℝ) (p : V3) : Prop :=
  ∃ (i : ℕ) (b c : V3), (i : ℝ) ≤ u ∧ u < i + 1 ∧ P[i]? = some b ∧ P[i + 1]? = some c ∧
    (((i = 0 ∨ i + 2 = P.length) ∧
      p = ⟨b.x + (u - i) * (c.x - b.x), b.y + (u - i) * (c.y - b.y), b.z + (u - i) * (c.z - b.z)⟩) ∨
    (0 < i ∧ ∃ a d, P[i - 1]? = some a ∧ P[i + 2]? = some d ∧
      p = ⟨catmullRom a.x b.x c.x d.x (u - i), catmullRom a.y b.y c.y d.y (u - i), catmullRom a.z b.z c.z d.z (u - i)⟩))

/-- The distance of the samples in units of the distance of the vertices. -/
def Config.ratio (cfg : Config) : ℝ := (if cfg.polylineSpacing ≤ 0 then cfg.sourceSpacing else cfg.polylineSpacing) / cfg.sourceSpacing

theorem ratio_pos {cfg : Config} (h : 0 < cfg.sourceSpacing) : 0 < cfg.ratio := by
  unfold Config.ratio
  split
  · rw [div_self h.ne']; norm_num
  · rename_i hn
    push Not at hn
    exact div_pos hn h

theorem onCurve_unique {P : List V3} {u : ℝ} {p q : V3} (hp : OnCurve P u p) (hq : OnCurve P u q) : p = q := by
  obtain ⟨i, b, c, h1, h2, hb, hc, h⟩ := hp
  obtain ⟨i', b', c', h1', h2', hb', hc', h'⟩ := hq
  have e : i = i' := by
    have e1 : (i : ℝ) < i' + 1 := by linarith
    have e2 : (i' : ℝ) < i + 1 := by linarith
    have e1' : i < i' + 1 := by exact_mod_cast e1
    have e2' : i' < i + 1 := by exact_mod_cast e2
    omega
  subst e
  rw [hb] at hb'
  rw [hc] at hc'
  simp only [Option.some.injEq] at hb' hc'
  subst hb' hc'
  rcases h with ⟨ha, h⟩ | ⟨ha, a, d, ha1, hd1, h⟩
  · rcases h' with ⟨_, h'⟩ | ⟨hb0, a', d', _, hd', _⟩
    · rw [h, h']
    · have := (List.getElem?_eq_some_iff.1 hd').1
      omega
  · rcases h' with ⟨hx, h'⟩ | ⟨_, a', d', ha', hd', h'⟩
    · have := (List.getElem?_eq_some_iff.1 hd1).1
      omega
    · rw [ha1] at ha'
      rw [hd1] at hd'
      simp only [Option.some.injEq] at ha' hd'
      subst ha' hd'
      rw [h, h']

theorem getD_of {l : List V3} {i : ℕ} {d : V3} (h : i < l.length) : l.getD i d = l[i] := by
  rw [List.getD_eq_getElem?_getD, List.getElem?_eq_getElem h]
  rfl

theorem samplePoint_spec {cfg : Config} (hs : 0 < cfg.sourceSpacing) (P : List V3) (k : ℕ) :
    ((k : ℝ) * cfg.ratio < P.length - 1 → ∃ p, samplePoint cfg P k = some p ∧ OnCurve P (k * cfg.ratio) p) ∧
    ((P.length : ℝ) - 1 ≤ k * cfg.ratio → samplePoint cfg P k = none) := by
  have hr := ratio_pos hs
  have hu : (k : ℝ) * cfg.spacing / cfg.sourceSpacing = k * cfg.ratio := by
    unfold Config.spacing Config.ratio
    rw [mul_div_assoc]
  have hu0 : 0 ≤ (k : ℝ) * cfg.ratio := by positivity
  have hfl := Nat.floor_le hu0
  have hlt := Nat.lt_floor_add_one ((k : ℝ) * cfg.ratio)
  have halpha : ((k : ℝ) * cfg.spacing - (⌊(k : ℝ) * cfg.ratio⌋₊ : ℝ) * cfg.sourceSpacing) / cfg.sourceSpacing =
      k * cfg.ratio - ⌊(k : ℝ) * cfg.ratio⌋₊ := by
    rw [sub_div, hu, mul_div_assoc, div_self hs.ne', mul_one]
  constructor
  · intro hk
    have hi : ⌊(k : ℝ) * cfg.ratio⌋₊ + 1 < P.length := by
      have : (⌊(k : ℝ) * cfg.ratio⌋₊ : ℝ) + 1 < P.length := by linarith
      exact_mod_cast this
    unfold samplePoint
    simp only [hu, halpha]
    rw [if_neg (by omega)]
    generalize ⌊(k : ℝ) * cfg.ratio⌋₊ = i at *
    generalize (k : ℝ) * cfg.ratio = u at *
    refine ⟨_, rfl, i, P[i], P[i + 1], hfl, hlt, List.getElem?_eq_getElem (by omega), List.getElem?_eq_getElem hi, ?_⟩
    by_cases hc : i < 1 ∨ P.length < i + 3
    · left
      refine ⟨by omega, ?_⟩
      rw [if_pos hc, getD_of (by omega), getD_of (by omega)]
      ext <;> simp only [interpolatePoint, V3.add, V3.sub, V3.smul]
    · right
      push Not at hc
      refine ⟨by omega, P[i - 1], P[i + 2], List.getElem?_eq_getElem (by omega), List.getElem?_eq_getElem (by omega), ?_⟩
      rw [if_neg (by omega), getD_of (by omega), getD_of (by omega),
        getD_of (by omega), getD_of (by omega), cubicSpline_eq]
  · intro hk
    unfold samplePoint
    simp only [hu]
    rw [if_pos]
    by_contra hc
    push Not at hc
    have : ((⌊(k : ℝ) * cfg.ratio⌋₊ + 1 + 1 : ℕ) : ℝ) ≤ P.length := by exact_mod_cast hc
    push_cast at this
    linarith

/-- The samples before the last vertex: those with a parameter below that of the last vertex. -/
def InnerSamples (cfg : Config) (P Q : List V3) : Prop :=
  (∀ k, k < Q.length ↔ (k : ℝ) * cfg.ratio < P.length - 1) ∧ ∀ (k : ℕ) p, Q[k]? = some p → OnCurve P (k * cfg.ratio) p

/-- The loop gives the first of these samples. -/
theorem sampleLoop_spec {cfg : Config} (P : List V3) : ∀ (room k : ℕ),
    (sampleLoop cfg P room k).length ≤ room ∧
    (∀ j p, (sampleLoop cfg P room k)[j]? = some p → samplePoint cfg P (k + j) = some p) ∧
    ((sampleLoop cfg P room k).length < room → samplePoint cfg P (k + (sampleLoop cfg P room k).length) = none) := by
  intro room
  induction room with
  | zero => intro k; simp [sampleLoop]
  | succ room ih =>
    intro k
    unfold sampleLoop
    cases h : samplePoint cfg P k with
    | none => simp [h]
    | some p =>
      obtain ⟨h1, h2, h3⟩ := ih (k + 1)
      refine ⟨by simpa using h1, ?_, ?_⟩
      · intro j q hj
        cases j with
        | zero =>
          simp only [List.getElem?_cons_zero, Option.some.injEq] at hj
          subst hj
          exact h
        | succ j =>
          rw [List.getElem?_cons_succ] at hj
          have := h2 j q hj
          rw [← this]
          congr 1; omega
      · intro hlt
        simp only [List.length_cons] at hlt ⊢
        have := h3 (by omega)
        rw [← this]
        congr 1; omega

theorem innerSamples_exists {cfg : Config} (hs : 0 < cfg.sourceSpacing) (P : List V3) (hP : P ≠ []) :
    ∃ Q, InnerSamples cfg P Q ∧ ∀ room, sampleLoop cfg P room 0 = Q.take room := by
  have hr := ratio_pos hs
  have hlen : (1 : ℝ) ≤ P.length := by
    have : 1 ≤ P.length := List.length_pos_iff.2 hP
    exact_mod_cast this
  -- the number of samples
  set K := ⌈((P.length : ℝ) - 1) / cfg.ratio⌉₊ with hK
  have hKk : ∀ k : ℕ, k < K ↔ (k : ℝ) * cfg.ratio < P.length - 1 := by
    intro k
    rw [hK, Nat.lt_ceil, lt_div_iff₀ hr]
  have hlong : ∀ room, (sampleLoop cfg P room 0).length = min room K := by
    intro room
    obtain ⟨h1, h2, h3⟩ := sampleLoop_spec (cfg := cfg) P room 0
    set n := (sampleLoop cfg P room 0).length with hn
    have hle : n ≤ K := by
      by_contra hc
      push Not at hc
      have hKn : K < (sampleLoop cfg P room 0).length := by omega
      have := h2 K _ (List.getElem?_eq_getElem hKn)
      rw [Nat.zero_add, (samplePoint_spec hs P K).2 (by
        have := (hKk K).not.1 (lt_irrefl K)
        push Not at this
        exact this)] at this
      simp at this
    rcases Nat.lt_or_ge n room with hlt | hge
    · have h4 := h3 hlt
      rw [Nat.zero_add] at h4
      have : K ≤ n := by
        by_contra hc
        push Not at hc
        obtain ⟨p, hp, _⟩ := (samplePoint_spec hs P n).1 ((hKk n).1 hc)
        rw [h4] at hp
        simp at hp
      omega
    · omega
  refine ⟨sampleLoop cfg P K 0, ⟨?_, ?_⟩, ?_⟩
  · intro k
    rw [hlong, Nat.min_self]
    exact hKk k
  · intro k p hk
    have h2 := (sampleLoop_spec (cfg := cfg) P K 0).2.1 k p hk
    rw [Nat.zero_add] at h2
    have hkK : k < K := by
      have := (List.getElem?_eq_some_iff.1 hk).1
      rw [hlong] at this
      omega
    obtain ⟨q, hq, hon⟩ := (samplePoint_spec hs P k).1 ((hKk k).1 hkK)
    rw [h2] at hq
    simp only [Option.some.injEq] at hq
    rw [hq]
    exact hon
  · intro room
    apply List.ext_getElem?
    intro j
    rw [List.getElem?_take]
    by_cases hj : j < room
    · rw [if_pos hj]
      by_cases hjK : j < K
      · have e1 := (sampleLoop_spec (cfg := cfg) P room 0).2.1 j _
          (List.getElem?_eq_getElem (by rw [hlong]; omega))
        have e2 := (sampleLoop_spec (cfg := cfg) P K 0).2.1 j _
          (List.getElem?_eq_getElem (by rw [hlong]; omega))
        rw [e1] at e2
        rw [List.getElem?_eq_getElem (by rw [hlong]; omega), List.getElem?_eq_getElem (by rw [hlong]; omega)]
        exact e2
      · rw [List.getElem?_eq_none (by rw [hlong]; omega), List.getElem?_eq_none (by rw [hlong]; omega)]
    · rw [if_neg hj, List.getElem?_eq_none (by rw [hlong]; omega)]

/-- The complete sampling of a polyline: the samples on the curve, and the last vertex unless it is within a centimetre of the last
sample.  Nothing for an empty polyline. -/
def PolylineSampling (cfg : Config) (P R : List V3) : Prop :=
  (P = [] ∧ R = []) ∨ ∃ Q last, P.getLast? = some last ∧ InnerSamples cfg P Q ∧
    ((R = Q ++ [last] ∧ ∀ q, Q.getLast? = some q → 0.01 < (last.sub q).len) ∨
     (R = Q ∧ ∃ q, Q.getLast? = some q ∧ (last.sub q).len ≤ 0.01))

theorem sqr_nonneg (v : V3) : 0 ≤ v.sqr := by
  unfold V3.sqr
  have := mul_self_nonneg v.x
  have := mul_self_nonneg v.y
  have := mul_self_nonneg v.z
  linarith

theorem len_lt_iff (v : V3) : 0.01 * 0.01 < v.sqr ↔ (0.01 : ℝ) < v.len := by
  unfold V3.len
  rw [Real.lt_sqrt (by norm_num), sq]

theorem polylineSamples_spec {cfg : Config} (hs : 0 < cfg.sourceSpacing) (P : List V3) :
    ∃ R, PolylineSampling cfg P R ∧ (P ≠ [] → R ≠ []) ∧ ∀ num, num < cfg.maxRoad → polylineSamples cfg P num = some (R.take (cfg.maxRoad - num)) := by
  by_cases hP : P = []
  · subst hP
    exact ⟨[], Or.inl ⟨rfl, rfl⟩, by simp, by intro num _; simp [polylineSamples]⟩
  obtain ⟨Q, hQ, hloop⟩ := innerSamples_exists hs P hP
  obtain ⟨last, hlast⟩ : ∃ l, P.getLast? = some l := by
    cases h : P.getLast? with
    | none => rw [List.getLast?_eq_none_iff] at h; exact absurd h hP
    | some l => exact ⟨l, rfl⟩
  have hcode : ∀ num, num < cfg.maxRoad → polylineSamples cfg P num =
      (if (Q.take (cfg.maxRoad - num)).length + num < cfg.maxRoad then
        match Q.getLast? with
        | none => some [last]
        | some q => some (if 0.01 * 0.01 < (last.sub q).sqr then Q ++ [last] else Q)
      else some (Q.take (cfg.maxRoad - num))) := by
    intro num hnum
    unfold polylineSamples
    rw [hlast]
    simp only [hloop]
    rw [if_neg (by push Not; exact hs)]
    rw [Nat.add_comm]
    by_cases hc : (Q.take (cfg.maxRoad - num)).length + num < cfg.maxRoad
    · rw [if_pos hc, if_pos hc]
      have : Q.take (cfg.maxRoad - num) = Q := by
        rw [List.take_eq_self_iff]
        rw [List.length_take] at hc
        omega
      rw [this]
      cases Q.getLast? <;> rfl
    · rw [if_neg hc, if_neg hc]
  cases hq : Q.getLast? with
  | none =>
    have hQnil : Q = [] := List.getLast?_eq_none_iff.1 hq
    refine ⟨Q ++ [last], Or.inr ⟨Q, last, hlast, hQ, Or.inl ⟨rfl, ?_⟩⟩, by simp, ?_⟩
    · intro q h; rw [hq] at h; simp at h
    · intro num hnum
      rw [hcode num hnum, hq, hQnil]
      rw [if_pos (by simpa using hnum)]
      simp only [List.nil_append]
      rw [List.take_of_length_le (by simp; omega)]
  | some q =>
    by_cases hfar : 0.01 * 0.01 < (last.sub q).sqr
    · refine ⟨Q ++ [last], Or.inr ⟨Q, last, hlast, hQ, Or.inl ⟨rfl, ?_⟩⟩, by simp, ?_⟩
      · intro q' h
        rw [hq] at h
        simp only [Option.some.injEq] at h
        subst h
        exact (len_lt_iff _).1 hfar
      · intro num hnum
        rw [hcode num hnum, hq]
        simp only [hfar, if_true]
        by_cases hc : (Q.take (cfg.maxRoad - num)).length + num < cfg.maxRoad
        · rw [if_pos hc]
          rw [List.length_take] at hc
          rw [List.take_of_length_le (by rw [List.length_append]; simp; omega)]
        · rw [if_neg hc]
          rw [List.length_take] at hc
          rw [List.take_append_of_le_length (by omega)]
    · refine ⟨Q, Or.inr ⟨Q, last, hlast, hQ, Or.inr ⟨rfl, q, hq, ?_⟩⟩, ?_, ?_⟩
      · by_contra hc
        push Not at hc
        exact hfar ((len_lt_iff _).2 hc)
      · intro _ h
        rw [h] at hq
        simp at hq
      · intro num hnum
        rw [hcode num hnum, hq]
        simp only [hfar, if_false]
        by_cases hc : (Q.take (cfg.maxRoad - num)).length + num < cfg.maxRoad
        · rw [if_pos hc]
          rw [List.length_take] at hc
          rw [List.take_of_length_le (by omega)]
        · rw [if_neg hc]

/-! ### Sampling of polygons -/

/-- The samples of one side, without its end: its start only, or at equal distances in as many parts as the spacing fits into the side,
at least one. -/
def SideSampling (cfg : Config) (a b : V3) (S : List V3) : Prop :=
  (cfg.polygonSpacing ≤ 0 ∧ S = [a]) ∨
  (0 < cfg.polygonSpacing ∧ ∃ n : ℕ, S.length = n ∧ 1 ≤ n ∧ (n = 1 ∨ (n : ℝ) * cfg.polygonSpacing ≤ (b.sub a).len) ∧
    (b.sub a).len < (n + 1) * cfg.polygonSpacing ∧
    ∀ j, j < n → S[j]? = some ⟨a.x + j / n * (b.x - a.x), a.y + j / n * (b.y - a.y), a.z + j / n * (b.z - a.z)⟩)

/-- The samples of a polygon: those of its sides in order and the first vertex again. -/
def PolygonSampling (cfg : Config) (P R : List V3) : Prop :=
  ∃ first pieces, P.head? = some first ∧ R = pieces.flatten ++ [first] ∧
    List.Forall₂ (fun (e : V3 × V3) S => SideSampling cfg e.1 e.2 S) (P.zip (P.tail ++ [first])) pieces

/-- A side without the limit. -/
def sideFull (cfg : Config) (a b : V3) : List V3 :=
  if cfg.polygonSpacing ≤ 0 then [a]
  else
    let ray := b.sub a
    let n := max (trunc (1 + ray.len / cfg.polygonSpacing)).toNat 2
    (List.range (n - 1)).map fun (j : ℕ) => a.add ((ray.smul (j : ℝ)).div ((n - 1 : ℕ) : ℝ))

theorem segmentSamples_eq (cfg : Config) (a b : V3) (num : ℕ) : segmentSamples cfg a b num = (sideFull cfg a b).take (cfg.maxRoad - num) := by
  unfold segmentSamples sideFull
  by_cases h : cfg.maxRoad ≤ num
  · rw [if_pos h, Nat.sub_eq_zero_of_le h, List.take_zero]
  · rw [if_neg h]
    split
    · rw [List.take_of_length_le (by simp; omega)]
    · simp only
      rw [← List.map_take, List.take_range, Nat.min_comm]

theorem len_nonneg (v : V3) : 0 ≤ v.len := Real.sqrt_nonneg _

theorem sideFull_spec (cfg : Config) (a b : V3) : SideSampling cfg a b (sideFull cfg a b) := by
  unfold SideSampling sideFull
  by_cases h : cfg.polygonSpacing ≤ 0
  · left
    exact ⟨h, by rw [if_pos h]⟩
  · right
    rw [if_neg h]
    push Not at h
    refine ⟨h, ?_⟩
    have hq : 0 ≤ (b.sub a).len / cfg.polygonSpacing := div_nonneg (len_nonneg _) h.le
    have htr : (trunc (1 + (b.sub a).len / cfg.polygonSpacing)).toNat = 1 + ⌊(b.sub a).len / cfg.polygonSpacing⌋₊ := by
      unfold trunc
      rw [if_pos (by linarith)]
      have e : (1 : ℝ) + (b.sub a).len / cfg.polygonSpacing = (b.sub a).len / cfg.polygonSpacing + 1 := by ring
      rw [e, Int.floor_add_one, Int.toNat_add (Int.floor_nonneg.2 hq) (by norm_num), Int.floor_toNat]
      simp [Nat.add_comm]
    simp only [htr]
    set m := ⌊(b.sub a).len / cfg.polygonSpacing⌋₊ with hm
    have hn : max (1 + m) 2 - 1 = max m 1 := by omega
    rw [hn]
    have hfl : (m : ℝ) ≤ (b.sub a).len / cfg.polygonSpacing := Nat.floor_le hq
    have hlt : (b.sub a).len / cfg.polygonSpacing < m + 1 := Nat.lt_floor_add_one _
    rw [le_div_iff₀ h] at hfl
    rw [div_lt_iff₀ h] at hlt
    refine ⟨max m 1, by simp, by omega, ?_, ?_, ?_⟩
    · rcases Nat.lt_or_ge m 1 with hlt1 | hge
      · left; omega
      · right; rw [Nat.max_eq_left hge]; exact hfl
    · have : (m : ℝ) ≤ ((max m 1 : ℕ) : ℝ) := by exact_mod_cast Nat.le_max_left m 1
      nlinarith
    · intro j hj
      rw [List.getElem?_map, List.getElem?_range hj]
      simp only [Option.map_some, Option.some.injEq]
      ext <;> simp only [V3.add, V3.smul, V3.div, V3.sub] <;> ring

theorem take_append_take {α : Type} (A B : List α) (r : ℕ) : A.take r ++ B.take (r - (A.take r).length) = (A ++ B).take r := by
  rw [List.take_append, List.length_take]
  congr 2
  omega

theorem polygonLoop_eq (cfg : Config) : ∀ (P : List V3) (num : ℕ),
    polygonLoop cfg P num = ((P.zip P.tail).flatMap fun e => sideFull cfg e.1 e.2).take (cfg.maxRoad - num) := by
  intro P
  induction P with
  | nil => intro num; simp [polygonLoop]
  | cons a l ih =>
    intro num
    cases l with
    | nil => simp [polygonLoop]
    | cons b l =>
      unfold polygonLoop
      simp only [List.tail_cons, List.zip_cons_cons, List.flatMap_cons]
      rw [← take_append_take, segmentSamples_eq]
      have e : cfg.maxRoad - (num + ((sideFull cfg a b).take (cfg.maxRoad - num)).length) =
          cfg.maxRoad - num - ((sideFull cfg a b).take (cfg.maxRoad - num)).length := by omega
      split
      · rename_i hc
        have e2 : cfg.maxRoad - num - ((sideFull cfg a b).take (cfg.maxRoad - num)).length = 0 := by omega
        rw [e2, List.take_zero, List.append_nil]
      · rw [ih, e]
        rfl

theorem zip_close (P : List V3) (first last : V3) (h : P.getLast? = some last) :
    P.zip (P.tail ++ [first]) = P.zip P.tail ++ [(last, first)] := by
  induction P with
  | nil => simp at h
  | cons a l ih =>
    cases l with
    | nil => simp only [List.getLast?_singleton, Option.some.injEq] at h; subst h; rfl
    | cons b l =>
      rw [List.getLast?_cons_cons] at h
      have := ih h
      simp only [List.tail_cons, List.cons_append, List.zip_cons_cons] at this ⊢
      rw [this]

theorem polygonSamples_spec (cfg : Config) (P : List V3) (hP : P ≠ []) :
    ∃ R, PolygonSampling cfg P R ∧ R ≠ [] ∧ ∀ num, num < cfg.maxRoad → polygonSamples cfg P num = some (R.take (cfg.maxRoad - num)) := by
  obtain ⟨last, hlast⟩ : ∃ l, P.getLast? = some l := by
    cases h : P.getLast? with
    | none => rw [List.getLast?_eq_none_iff] at h; exact absurd h hP
    | some l => exact ⟨l, rfl⟩
  obtain ⟨first, hfirst⟩ : ∃ l, P.head? = some l := by
    cases P with
    | nil => exact absurd rfl hP
    | cons a l => exact ⟨a, rfl⟩
  refine ⟨((P.zip (P.tail ++ [first])).map fun e => sideFull cfg e.1 e.2).flatten ++ [first], ⟨first, _, hfirst, rfl, ?_⟩, by simp, ?_⟩
  · rw [List.forall₂_map_right_iff, List.forall₂_same]
    intro e _
    exact sideFull_spec cfg e.1 e.2
  · intro num hnum
    unfold polygonSamples
    rw [hfirst, hlast]
    simp only
    rw [polygonLoop_eq, segmentSamples_eq]
    have e : ∀ A : List V3, cfg.maxRoad - (num + (A.take (cfg.maxRoad - num)).length) =
        cfg.maxRoad - num - (A.take (cfg.maxRoad - num)).length := by intro A; omega
    rw [e, take_append_take]
    have hcl : ((P.zip P.tail).flatMap fun e => sideFull cfg e.1 e.2) ++ sideFull cfg last first =
        ((P.zip (P.tail ++ [first])).map fun e => sideFull cfg e.1 e.2).flatten := by
      rw [zip_close P first last hlast, List.map_append, List.flatten_append]
      simp [List.flatMap_def]
    rw [hcl]
    generalize ((P.zip (P.tail ++ [first])).map fun e => sideFull cfg e.1 e.2).flatten = A
    congr 1
    by_cases hc : A.length < cfg.maxRoad - num
    · rw [if_pos (by rw [List.length_take]; omega), List.take_of_length_le hc.le, List.take_of_length_le (by simp; omega)]
    · rw [if_neg (by rw [List.length_take]; omega), List.take_append_of_le_length (by omega)]

/-! ### The samples of a feature -/

/-- The complete sampling of a feature of the map. -/
def Sampling (cfg : Config) (R : List V3) : FeatureData → Prop
  | .lane _ P => PolylineSampling cfg P R
  | .roadLine _ P => PolylineSampling cfg P R
  | .roadEdge _ P => PolylineSampling cfg P R
  | .stopSign p => R = [p]
  | .crosswalk P => PolygonSampling cfg P R
  | .speedBump P => PolygonSampling cfg P R
  | .driveway P => PolygonSampling cfg P R
  | .notSet => R = []

/-- The polygon of a feature has a vertex. -/
def Drawn : FeatureData → Prop
  | .crosswalk P => P ≠ []
  | .speedBump P => P ≠ []
  | .driveway P => P ≠ []
  | _ => True

theorem innerSamples_unique {cfg : Config} {P Q Q' : List V3} (h : InnerSamples cfg P Q) (h' : InnerSamples cfg P Q') : Q = Q' := by
  have hlen : ∀ k, k < Q.length ↔ k < Q'.length := fun k => (h.1 k).trans (h'.1 k).symm
  have he : Q.length = Q'.length := by
    rcases Nat.lt_trichotomy Q.length Q'.length with h | h | h
    · have := (hlen Q.length).2 h; omega
    · exact h
    · have := (hlen Q'.length).1 h; omega
  apply List.ext_getElem he
  intro k h1 h2
  exact onCurve_unique (h.2 k _ (List.getElem?_eq_getElem h1)) (h'.2 k _ (List.getElem?_eq_getElem h2))

theorem sideSampling_unique {cfg : Config} {a b : V3} {S S' : List V3} (h : SideSampling cfg a b S) (h' : SideSampling cfg a b S') :
    S = S' := by
  rcases h with ⟨h0, h⟩ | ⟨h0, n, hn, h1, h2, h3, h4⟩
  · rcases h' with ⟨_, h'⟩ | ⟨h0', _⟩
    · rw [h, h']
    · linarith
  · rcases h' with ⟨h0', _⟩ | ⟨_, n', hn', h1', h2', h3', h4'⟩
    · linarith
    have key : ∀ m m' : ℕ, 1 ≤ m' → (m = 1 ∨ (m : ℝ) * cfg.polygonSpacing ≤ (b.sub a).len) →
        (b.sub a).len < (m' + 1) * cfg.polygonSpacing → m ≤ m' := by
      intro m m' hm' hm hlt
      rcases hm with rfl | hm
      · exact hm'
      · have : (m : ℝ) * cfg.polygonSpacing < (m' + 1) * cfg.polygonSpacing := lt_of_le_of_lt hm hlt
        have := lt_of_mul_lt_mul_right this h0.le
        have : m < m' + 1 := by exact_mod_cast this
        omega
    have e : n = n' := le_antisymm (key n n' h1' h2 h3') (key n' n h1 h2' h3)
    subst e
    apply List.ext_getElem?
    intro j
    by_cases hj : j < n
    · rw [h4 j hj, h4' j hj]
    · rw [List.getElem?_eq_none (by omega), List.getElem?_eq_none (by omega)]

/-- The sampling of a feature is determined. -/
theorem sampling_unique {cfg : Config} {R R' : List V3} {d : FeatureData} (h : Sampling cfg R d) (h' : Sampling cfg R' d) : R = R' := by
  have hpl : ∀ P, PolylineSampling cfg P R → PolylineSampling cfg P R' → R = R' := by
    intro P h h'
    rcases h with ⟨hP, h⟩ | ⟨Q, last, hl, hQ, h⟩
    · rcases h' with ⟨_, h'⟩ | ⟨Q', last', hl', _⟩
      · rw [h, h']
      · rw [hP] at hl'; simp at hl'
    · rcases h' with ⟨hP, _⟩ | ⟨Q', last', hl', hQ', h'⟩
      · rw [hP] at hl; simp at hl
      · rw [hl] at hl'
        simp only [Option.some.injEq] at hl'
        subst hl'
        have e := innerSamples_unique hQ hQ'
        subst e
        rcases h with ⟨h1, h2⟩ | ⟨h1, q, h2, h3⟩ <;> rcases h' with ⟨h1', h2'⟩ | ⟨h1', q', h2', h3'⟩
        · rw [h1, h1']
        · have := h2 q' h2'; linarith
        · have := h2' q h2; linarith
        · rw [h1, h1']
  have hpg : ∀ P, PolygonSampling cfg P R → PolygonSampling cfg P R' → R = R' := by
    rintro P ⟨first, pieces, hf, hR, hp⟩ ⟨first', pieces', hf', hR', hp'⟩
    rw [hf] at hf'
    simp only [Option.some.injEq] at hf'
    subst hf'
    have : pieces = pieces' := by
      clear hR hR'
      generalize P.zip (P.tail ++ [first]) = E at hp hp'
      induction hp generalizing pieces' with
      | nil => cases hp'; rfl
      | cons h1 _ ih =>
        cases hp' with
        | cons h1' h2' => rw [sideSampling_unique h1 h1', ih _ h2']
    rw [hR, hR', this]
  cases d with
  | lane _ P => exact hpl P h h'
  | roadLine _ P => exact hpl P h h'
  | roadEdge _ P => exact hpl P h h'
  | stopSign p => exact (show R = [p] from h).trans (show R' = [p] from h').symm
  | crosswalk P => exact hpg P h h'
  | speedBump P => exact hpg P h h'
  | driveway P => exact hpg P h h'
  | notSet => exact (show R = [] from h).trans (show R' = [] from h').symm

theorem featureSamples_spec {cfg : Config} (hs : 0 < cfg.sourceSpacing) {d : FeatureData} (hd : Drawn d) :
    ∃ R, Sampling cfg R d ∧ ∀ num, featureSamples cfg d num = some (R.take (cfg.maxRoad - num)) := by
  have hfull : ∀ (R : List V3) num, cfg.maxRoad ≤ num → some ([] : List V3) = some (R.take (cfg.maxRoad - num)) := by
    intro R num h
    rw [Nat.sub_eq_zero_of_le h, List.take_zero]
  have hpl : ∀ P : List V3, ∃ R, PolylineSampling cfg P R ∧ ∀ num,
      (if cfg.maxRoad ≤ num then some [] else polylineSamples cfg P num) = some (R.take (cfg.maxRoad - num)) := by
    intro P
    obtain ⟨R, h1, _, h2⟩ := polylineSamples_spec hs P
    refine ⟨R, h1, ?_⟩
    intro num
    by_cases h : cfg.maxRoad ≤ num
    · rw [if_pos h]; exact hfull R num h
    · rw [if_neg h]; exact h2 num (by omega)
  have hpg : ∀ P : List V3, P ≠ [] → ∃ R, PolygonSampling cfg P R ∧ ∀ num,
      (if cfg.maxRoad ≤ num then some [] else polygonSamples cfg P num) = some (R.take (cfg.maxRoad - num)) := by
    intro P hP
    obtain ⟨R, h1, _, h2⟩ := polygonSamples_spec cfg P hP
    refine ⟨R, h1, ?_⟩
    intro num
    by_cases h : cfg.maxRoad ≤ num
    · rw [if_pos h]; exact hfull R num h
    · rw [if_neg h]; exact h2 num (by omega)
  unfold featureSamples
  cases d with
  | lane _ P => exact hpl P
  | roadLine _ P => exact hpl P
  | roadEdge _ P => exact hpl P
  | stopSign p =>
    obtain ⟨R, h1, h2⟩ := hpl [p]
    refine ⟨R, ?_, h2⟩
    rcases h1 with ⟨h, _⟩ | ⟨Q, last, hl, hQ, h⟩
    · simp at h
    · simp only [List.getLast?_singleton, Option.some.injEq] at hl
      subst hl
      have hQ0 : Q = [] := by
        by_contra hne
        have h0 := (hQ.1 0).1 (List.length_pos_iff.2 hne)
        simp at h0
      subst hQ0
      rcases h with ⟨h, _⟩ | ⟨_, q, h, _⟩
      · exact h
      · simp at h
  | crosswalk P => exact hpg P hd
  | speedBump P => exact hpg P hd
  | driveway P => exact hpg P hd
  | notSet =>
    refine ⟨[], rfl, ?_⟩
    intro num
    simp

end

end Verif.Conversion
