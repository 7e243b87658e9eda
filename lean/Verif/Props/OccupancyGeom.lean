import Verif.Props.Occupancy
import Mathlib.Tactic.IntervalCases

/-!
What the rendered cells say about the boxes, and how the grids depend on the world frame.
-/

namespace Verif.Occupancy

open Verif.ListM
open Verif.Pca (roundEven clip roundEven_near)

/-! ### Occupied cells touch boxes -/

theorem Even.abs_le {n : ℕ} {u : ℝ} (h : Even n u) : |u| ≤ 1 / 2 := by
  rcases h with ⟨_, rfl⟩ | ⟨h1, i, hi, hu⟩
  · norm_num
  · have h2 : (1 : ℝ) < n := by exact_mod_cast h1
    have h3 : (i : ℝ) + 1 ≤ n := by exact_mod_cast hi
    have h4 : (0 : ℝ) ≤ i := by positivity
    rw [_root_.abs_le]
    constructor
    · by_contra hc
      push Not at hc
      nlinarith
    · by_contra hc
      push Not at hc
      nlinarith

theorem Sample.inBox {n m : ℕ} {s : State} {p : ℝ × ℝ} (h : Sample n m s p) (hl : 0 ≤ s.length) (hw : 0 ≤ s.width) : InBox s p := by
  obtain ⟨u, v, hu, hv, rfl⟩ := h
  refine ⟨s.length * u, s.width * v, ?_, ?_, rfl⟩
  · rw [abs_mul, abs_of_nonneg hl]
    nlinarith [hu.abs_le]
  · rw [abs_mul, abs_of_nonneg hw]
    nlinarith [hv.abs_le]

theorem Nearest.close {cfg : Config} {q : ℝ × ℝ} {row col : ℤ} (h : Nearest cfg q row col) : |q.1 - col| ≤ 1 / 2 ∧ |q.2 - row| ≤ 1 / 2 := by
  obtain ⟨rfl, rfl⟩ := h
  have h1 := roundEven_near (q.1 - cfg.sdcX)
  have h2 := roundEven_near (q.2 - cfg.sdcY)
  rw [abs_sub_comm] at h1 h2
  push_cast
  rw [_root_.abs_le] at h1 h2 ⊢
  rw [_root_.abs_le]
  refine ⟨⟨?_, ?_⟩, ?_, ?_⟩ <;> linarith [h1.1, h1.2, h2.1, h2.2]

/-- C83: an occupied cell contains a point of the box of some valid selected agent of the kind. -/
theorem occupied_box {cfg : Config} {agents : List Agent} {times : List Time} {obs occ : Bool} {g : Kind → ℤ → ℤ → List ℝ} {ego : State}
    (h : renderOccupancy cfg agents times obs occ = some g) (he : sdc agents = some ego)
    (hb : ∀ a ∈ agents, ∀ s ∈ stack times a, s.valid = true → 0 ≤ s.length ∧ 0 ≤ s.width)
    {kind : Kind} {row col : ℤ} {t : ℕ} {v : ℝ} (hv : (g kind row col)[t]? = some v) (h0 : v ≠ 0) :
    v = 1 ∧ Cell cfg row col ∧ ∃ a ∈ agents, a.type = kind.code ∧ Selected times obs occ a ∧ ∃ s, (stack times a)[t]? = some s ∧
      s.valid = true ∧ ∃ p, InBox s p ∧ |(pixel cfg ego p).1 - col| ≤ 1 / 2 ∧ |(pixel cfg ego p).2 - row| ≤ 1 / 2 := by
  classical
  obtain ⟨ego', he', hspec⟩ := renderOccupancy_spec h
  rw [he] at he'
  obtain rfl := Option.some.inj he'
  have ht : t < numSteps cfg times := by
    rw [← (hspec kind row col).1]
    exact (List.getElem?_eq_some_iff.1 hv).1
  have := (hspec kind row col).2 t ht
  rw [hv] at this
  have := Option.some.inj this
  split at this
  · rename_i hc
    obtain ⟨hcell, a, ha, hk, hsel, s, hs, hvalid, p, hp, hn⟩ := hc
    obtain ⟨b1, b2⟩ := hb a ha s (List.mem_of_getElem? hs) hvalid
    exact ⟨this, hcell, a, ha, hk, hsel, s, hs, hvalid, p, hp.inBox b1 b2, hn.close⟩
  · exact absurd this h0

/-! ### Boxes fill cells -/

theorem exists_even {n : ℕ} (hn : 1 < n) {L ξ : ℝ} (h : |ξ| ≤ L / 2) : ∃ u, Even n u ∧ |ξ - L * u| ≤ L / ((n : ℝ) - 1) / 2 := by
  have h2 : (1 : ℝ) < n := by exact_mod_cast hn
  have hL : 0 ≤ L := by
    have := abs_nonneg ξ
    linarith
  rcases hL.eq_or_lt with rfl | hL
  · have : ξ = 0 := by
      have := abs_nonneg ξ
      rw [← abs_eq_zero]
      linarith
    refine ⟨unitAt n 0, unitAt_even (by omega), ?_⟩
    rw [this]
    simp
  · rw [_root_.abs_le] at h
    have hne : (n : ℝ) - 1 ≠ 0 := by linarith
    set z := ξ * ((n : ℝ) - 1) / L + ((n : ℝ) - 1) / 2 with hz
    have hz0 : 0 ≤ z := by
      have : -(((n : ℝ) - 1) / 2) ≤ ξ * ((n : ℝ) - 1) / L := by
        rw [le_div_iff₀ hL]
        nlinarith
      linarith
    have hz1 : z ≤ n - 1 := by
      have : ξ * ((n : ℝ) - 1) / L ≤ ((n : ℝ) - 1) / 2 := by
        rw [div_le_iff₀ hL]
        nlinarith
      linarith
    have hfl : (⌊z + 1 / 2⌋₊ : ℝ) ≤ z + 1 / 2 := Nat.floor_le (by linarith)
    have hfu : z + 1 / 2 < (⌊z + 1 / 2⌋₊ : ℝ) + 1 := Nat.lt_floor_add_one _
    set i := ⌊z + 1 / 2⌋₊
    have hi : i < n := by
      have : (i : ℝ) < n := by linarith
      exact_mod_cast this
    refine ⟨(i - ((n : ℝ) - 1) / 2) / (n - 1), Or.inr ⟨hn, i, hi, by field_simp⟩, ?_⟩
    have e : ξ - L * ((i - ((n : ℝ) - 1) / 2) / (n - 1)) = L / (n - 1) * (z - i) := by
      rw [hz]
      field_simp
      ring
    rw [e, abs_mul, abs_of_pos (div_pos hL (by linarith))]
    have h5 : |z - i| ≤ 1 / 2 := by
      rw [_root_.abs_le]
      constructor <;> linarith
    have h6 : 0 ≤ L / ((n : ℝ) - 1) := (div_pos hL (by linarith)).le
    nlinarith

theorem roundEven_of_close {k : ℤ} {x : ℝ} (h : |x - k| < 1 / 2) : roundEven x = k := by
  have h1 := roundEven_near x
  rw [_root_.abs_le] at h1
  rw [abs_lt] at h
  have h2 : (roundEven x : ℝ) < k + 1 := by linarith [h1.2, h.2]
  have h3 : (k : ℝ) < roundEven x + 1 := by linarith [h1.1, h.1]
  have h4 : roundEven x < k + 1 := by exact_mod_cast h2
  have h5 : k < roundEven x + 1 := by exact_mod_cast h3
  omega

theorem pixel_close {cfg : Config} {ego : State} {p q : ℝ × ℝ} {r : ℝ} (h : (p.1 - q.1) ^ 2 + (p.2 - q.2) ^ 2 ≤ r) :
    ((pixel cfg ego p).1 - (pixel cfg ego q).1) ^ 2 ≤ r * cfg.pixelsPerMeter ^ 2 ∧
      ((pixel cfg ego p).2 - (pixel cfg ego q).2) ^ 2 ≤ r * cfg.pixelsPerMeter ^ 2 := by
  have hs := Real.sin_sq_add_cos_sq ego.yaw
  set c := Real.cos ego.yaw with hc
  set s := Real.sin ego.yaw with hs'
  have hm : 0 ≤ cfg.pixelsPerMeter ^ 2 := sq_nonneg _
  unfold pixel
  by_cases hn : cfg.normalizeYaw
  · simp only [hn, if_true, ← hc, ← hs']
    constructor
    · have e : ((cfg.sdcX : ℝ) - (-(p.1 - ego.x) * s + (p.2 - ego.y) * c) * cfg.pixelsPerMeter -
          (cfg.sdcX - (-(q.1 - ego.x) * s + (q.2 - ego.y) * c) * cfg.pixelsPerMeter)) ^ 2 =
          ((p.1 - q.1) ^ 2 + (p.2 - q.2) ^ 2 - ((p.1 - q.1) * c + (p.2 - q.2) * s) ^ 2) * cfg.pixelsPerMeter ^ 2 := by
        linear_combination (-((p.1 - q.1) ^ 2 + (p.2 - q.2) ^ 2) * cfg.pixelsPerMeter ^ 2) * (-hs)
      rw [e]
      exact mul_le_mul_of_nonneg_right (by nlinarith [sq_nonneg ((p.1 - q.1) * c + (p.2 - q.2) * s)]) hm
    · have e : ((cfg.sdcY : ℝ) - ((p.1 - ego.x) * c + (p.2 - ego.y) * s) * cfg.pixelsPerMeter -
          (cfg.sdcY - ((q.1 - ego.x) * c + (q.2 - ego.y) * s) * cfg.pixelsPerMeter)) ^ 2 =
          ((p.1 - q.1) ^ 2 + (p.2 - q.2) ^ 2 - (-(p.1 - q.1) * s + (p.2 - q.2) * c) ^ 2) * cfg.pixelsPerMeter ^ 2 := by
        linear_combination (-((p.1 - q.1) ^ 2 + (p.2 - q.2) ^ 2) * cfg.pixelsPerMeter ^ 2) * (-hs)
      rw [e]
      exact mul_le_mul_of_nonneg_right (by nlinarith [sq_nonneg (-(p.1 - q.1) * s + (p.2 - q.2) * c)]) hm
  · simp only [hn, Bool.false_eq_true, if_false]
    constructor
    · have e : ((cfg.sdcX : ℝ) + (p.1 - ego.x) * cfg.pixelsPerMeter - (cfg.sdcX + (q.1 - ego.x) * cfg.pixelsPerMeter)) ^ 2 =
          (p.1 - q.1) ^ 2 * cfg.pixelsPerMeter ^ 2 := by ring
      rw [e]
      exact mul_le_mul_of_nonneg_right (by nlinarith [sq_nonneg (p.2 - q.2)]) hm
    · have e : ((cfg.sdcY : ℝ) - (p.2 - ego.y) * cfg.pixelsPerMeter - (cfg.sdcY - (q.2 - ego.y) * cfg.pixelsPerMeter)) ^ 2 =
          (p.2 - q.2) ^ 2 * cfg.pixelsPerMeter ^ 2 := by ring
      rw [e]
      exact mul_le_mul_of_nonneg_right (by nlinarith [sq_nonneg (p.1 - q.1)]) hm

theorem abs_lt_half {x : ℝ} (h : x ^ 2 < 1 / 4) : |x| < 1 / 2 := by
  rw [abs_lt]
  constructor <;> nlinarith

/-- C83: boxes have no holes: a cell whose centre lies in the box of a selected valid agent is occupied, provided the diagonal between
neighbouring samples is shorter than a cell. -/
theorem box_occupied_partial {cfg : Config} {agents : List Agent} {times : List Time} {obs occ : Bool} {g : Kind → ℤ → ℤ → List ℝ}
    {ego : State} (h : renderOccupancy cfg agents times obs occ = some g) (he : sdc agents = some ego) {kind : Kind} {row col : ℤ} {t : ℕ}
    (hc : Cell cfg row col) {a : Agent} (ha : a ∈ agents) (hk : a.type = kind.code) (hsel : Selected times obs occ a) {s : State}
    (hs : (stack times a)[t]? = some s) (hvalid : s.valid = true) {p : ℝ × ℝ} (hp : InBox s p) (hpix : pixel cfg ego p = ((col : ℝ), (row : ℝ)))
    (hn : 1 < cfg.pointsLength) (hm : 1 < cfg.pointsWidth)
    (hd : ((s.length / ((cfg.pointsLength : ℝ) - 1)) ^ 2 + (s.width / ((cfg.pointsWidth : ℝ) - 1)) ^ 2) * cfg.pixelsPerMeter ^ 2 < 1) :
    (g kind row col)[t]? = some 1 := by
  classical
  obtain ⟨ego', he', hspec⟩ := renderOccupancy_spec h
  rw [he] at he'
  obtain rfl := Option.some.inj he'
  have ht : t < numSteps cfg times := by
    unfold renderOccupancy at h
    simp only [Option.bind_eq_bind, Option.bind_eq_some_iff] at h
    obtain ⟨all, hall, _⟩ := h
    obtain ⟨_, units, _, _, hf, _, hlen⟩ := sampleAll_spec hall
    obtain ⟨x, hx, hxs⟩ := forall₂_exists_left hf ha
    obtain ⟨_, _, _, hst⟩ := sampleAgent_spec hxs
    rw [← hlen x hx, hst, List.length_map]
    exact (List.getElem?_eq_some_iff.1 hs).1
  rw [(hspec kind row col).2 t ht, if_pos]
  refine ⟨hc, a, ha, hk, hsel, s, hs, hvalid, ?_⟩
  obtain ⟨ξ, η, hξ, hη, rfl⟩ := hp
  obtain ⟨u, hu, hu'⟩ := exists_even hn hξ
  obtain ⟨v, hv, hv'⟩ := exists_even hm hη
  refine ⟨_, ⟨u, v, hu, hv, rfl⟩, ?_⟩
  set dl := s.length / ((cfg.pointsLength : ℝ) - 1)
  set dw := s.width / ((cfg.pointsWidth : ℝ) - 1)
  have e1 : (ξ - s.length * u) ^ 2 ≤ (dl / 2) ^ 2 := by rw [← sq_abs (ξ - s.length * u)]; exact pow_le_pow_left₀ (abs_nonneg _) hu' 2
  have e2 : (η - s.width * v) ^ 2 ≤ (dw / 2) ^ 2 := by rw [← sq_abs (η - s.width * v)]; exact pow_le_pow_left₀ (abs_nonneg _) hv' 2
  have hsc := Real.sin_sq_add_cos_sq s.yaw
  have hpc := pixel_close (cfg := cfg) (ego := ego)
    (p := (s.x + s.length * u * Real.cos s.yaw - s.width * v * Real.sin s.yaw, s.y + s.length * u * Real.sin s.yaw + s.width * v * Real.cos s.yaw))
    (q := (s.x + ξ * Real.cos s.yaw - η * Real.sin s.yaw, s.y + ξ * Real.sin s.yaw + η * Real.cos s.yaw)) (r := (dl ^ 2 + dw ^ 2) / 4) (by
      have e : (s.x + s.length * u * Real.cos s.yaw - s.width * v * Real.sin s.yaw - (s.x + ξ * Real.cos s.yaw - η * Real.sin s.yaw)) ^ 2 +
          (s.y + s.length * u * Real.sin s.yaw + s.width * v * Real.cos s.yaw - (s.y + ξ * Real.sin s.yaw + η * Real.cos s.yaw)) ^ 2 =
          (ξ - s.length * u) ^ 2 + (η - s.width * v) ^ 2 := by
        linear_combination ((ξ - s.length * u) ^ 2 + (η - s.width * v) ^ 2) * hsc
      rw [e]
      linarith)
  rw [hpix] at hpc
  have hlt : (dl ^ 2 + dw ^ 2) / 4 * cfg.pixelsPerMeter ^ 2 < 1 / 4 := by linarith
  have b1 := abs_lt_half (hpc.1.trans_lt hlt)
  have b2 := abs_lt_half (hpc.2.trans_lt hlt)
  refine ⟨?_, ?_⟩
  · rw [roundEven_of_close (k := col - cfg.sdcX)]
    · ring
    · push_cast
      convert b1 using 2
      ring
  · rw [roundEven_of_close (k := row - cfg.sdcY)]
    · ring
    · push_cast
      convert b2 using 2
      ring

/-! ### Observed and occluded agents -/

theorem ite_or_max (P Q : Prop) [Decidable P] [Decidable Q] : (if P ∨ Q then (1 : ℝ) else 0) = max (if P then 1 else 0) (if Q then 1 else 0) := by
  by_cases hP : P <;> by_cases hQ : Q <;> simp [hP, hQ]

/-- At future steps every cell is the maximum of what shows the observed agents and of what shows the others. -/
theorem observed_max_occluded {cfg : Config} {agents : List Agent} {times : List Time} {g go gc : Kind → ℤ → ℤ → List ℝ}
    (hf : Time.future ∈ times) (h : renderOccupancy cfg agents times true true = some g)
    (ho : renderOccupancy cfg agents times true false = some go) (hc : renderOccupancy cfg agents times false true = some gc)
    (kind : Kind) (row col : ℤ) : g kind row col = List.zipWith max (go kind row col) (gc kind row col) := by
  classical
  obtain ⟨ego, he, h1⟩ := renderOccupancy_spec h
  obtain ⟨ego2, he2, h2⟩ := renderOccupancy_spec ho
  obtain ⟨ego3, he3, h3⟩ := renderOccupancy_spec hc
  rw [he] at he2 he3
  obtain rfl := Option.some.inj he2
  obtain rfl := Option.some.inj he3
  obtain ⟨l1, v1⟩ := h1 kind row col
  obtain ⟨l2, v2⟩ := h2 kind row col
  obtain ⟨l3, v3⟩ := h3 kind row col
  apply List.ext_getElem?
  intro t
  by_cases ht : t < numSteps cfg times
  · rw [v1 t ht, List.getElem?_zipWith, v2 t ht, v3 t ht]
    simp only
    congr 1
    have key : (Cell cfg row col ∧ ∃ a ∈ agents, a.type = kind.code ∧ Selected times true true a ∧ HitBy cfg ego times t row col a) ↔
        (Cell cfg row col ∧ ∃ a ∈ agents, a.type = kind.code ∧ Selected times true false a ∧ HitBy cfg ego times t row col a) ∨
        (Cell cfg row col ∧ ∃ a ∈ agents, a.type = kind.code ∧ Selected times false true a ∧ HitBy cfg ego times t row col a) := by
      constructor
      · rintro ⟨hcell, a, ha, hk, _, hh⟩
        by_cases hobs : ∃ s ∈ a.states .past ++ a.states .current, s.valid = true
        · exact Or.inl ⟨hcell, a, ha, hk, Or.inr (Or.inr (Or.inl ⟨rfl, hobs⟩)), hh⟩
        · push Not at hobs
          exact Or.inr ⟨hcell, a, ha, hk, Or.inr (Or.inr (Or.inr ⟨rfl, fun s hs => by simpa using hobs s hs⟩)), hh⟩
      · rintro (⟨hcell, a, ha, hk, _, hh⟩ | ⟨hcell, a, ha, hk, _, hh⟩)
        · exact ⟨hcell, a, ha, hk, Or.inr (Or.inl ⟨rfl, rfl⟩), hh⟩
        · exact ⟨hcell, a, ha, hk, Or.inr (Or.inl ⟨rfl, rfl⟩), hh⟩
    rw [if_congr key rfl rfl]
    exact ite_or_max _ _
  · rw [List.getElem?_eq_none (by omega), List.getElem?_eq_none]
    rw [List.length_zipWith, l2, l3]
    omega

/-- No agent is shown as observed and as occluded. -/
theorem not_observed_occluded {times : List Time} (hf : Time.future ∈ times) {a : Agent} (h1 : Selected times true false a)
    (h2 : Selected times false true a) : False := by
  rcases h1 with h | h | ⟨_, s, hs, hv⟩ | h
  · exact h hf
  · simp at h
  · rcases h2 with h | h | h | ⟨_, h⟩
    · exact h hf
    · simp at h
    · simp at h
    · rw [h s hs] at hv
      simp at hv
  · simp at h

/-! ### The frame of the world -/

/-- A rigid motion of the world: a turn about the origin, then a shift. -/
noncomputable def State.moved (θ tx ty : ℝ) (s : State) : State :=
  ⟨Real.cos θ * s.x - Real.sin θ * s.y + tx, Real.sin θ * s.x + Real.cos θ * s.y + ty, s.yaw + θ, s.length, s.width, s.valid⟩

noncomputable def Agent.moved (θ tx ty : ℝ) (a : Agent) : Agent := ⟨a.type, a.isSdc, fun t => (a.states t).map (State.moved θ tx ty)⟩

theorem localPose_moved {normalize : Bool} {θ tx ty : ℝ} (h : normalize = true ∨ θ = 0) (ego s : State) :
    localPose normalize (ego.moved θ tx ty) (s.moved θ tx ty) = localPose normalize ego s := by
  unfold localPose State.moved rotate
  cases normalize
  · obtain rfl : θ = 0 := by simpa using h
    simp
  · simp only [if_true]
    have e : Real.pi / 2 - (ego.yaw + θ) = (Real.pi / 2 - ego.yaw) - θ := by ring
    have hs := Real.sin_sq_add_cos_sq θ
    rw [e, Real.cos_sub (Real.pi / 2 - ego.yaw) θ, Real.sin_sub (Real.pi / 2 - ego.yaw) θ]
    simp only [Prod.mk.injEq]
    refine ⟨⟨?_, ?_⟩, by ring⟩
    · linear_combination (Real.cos (Real.pi / 2 - ego.yaw) * (s.x - ego.x) - Real.sin (Real.pi / 2 - ego.yaw) * (s.y - ego.y)) * hs
    · linear_combination (Real.sin (Real.pi / 2 - ego.yaw) * (s.x - ego.x) + Real.cos (Real.pi / 2 - ego.yaw) * (s.y - ego.y)) * hs

theorem stack_moved (θ tx ty : ℝ) (times : List Time) (a : Agent) :
    stack times (a.moved θ tx ty) = (stack times a).map (State.moved θ tx ty) := by
  unfold stack Agent.moved
  rw [List.map_flatMap]

theorem sdc_moved (θ tx ty : ℝ) (agents : List Agent) : sdc (agents.map (Agent.moved θ tx ty)) = (sdc agents).map (State.moved θ tx ty) := by
  unfold sdc
  rw [List.filter_map]
  have : (fun a : Agent => a.isSdc == 1) ∘ Agent.moved θ tx ty = fun a : Agent => a.isSdc == 1 := rfl
  rw [this]
  generalize agents.filter (fun a => a.isSdc == 1) = l
  rcases l with _ | ⟨a, _ | ⟨b, l⟩⟩
  · rfl
  · show ((a.states .current).map (State.moved θ tx ty))[0]? = _
    rw [List.getElem?_map]
  · rfl

theorem sampleAll_moved {cfg : Config} {θ tx ty : ℝ} (h : cfg.normalizeYaw = true ∨ θ = 0) (agents : List Agent) (times : List Time)
    (obs occ : Bool) : sampleAll cfg (agents.map (Agent.moved θ tx ty)) times obs occ = sampleAll cfg agents times obs occ := by
  unfold sampleAll
  rw [sdc_moved]
  cases sdc agents with
  | none => rfl
  | some ego =>
    simp only [Option.map_some, Option.bind_eq_bind, Option.bind_some]
    have hobs : ∀ a : Agent, observed (a.moved θ tx ty) = observed a := by
      intro a
      unfold observed
      rw [stack_moved, List.any_map]
      rfl
    have hkeep : ∀ a : Agent, keep times obs occ (a.moved θ tx ty) = keep times obs occ a := by
      intro a
      unfold keep
      rw [hobs]
    have hagent : ∀ units a, sampleAgent cfg units (ego.moved θ tx ty) times obs occ (a.moved θ tx ty) =
        sampleAgent cfg units ego times obs occ a := by
      intro units a
      unfold sampleAgent
      rw [hkeep, stack_moved]
      simp only [List.map_map]
      congr 1
      funext k
      congr 2
      apply List.map_congr_left
      intro s _
      simp only [Function.comp]
      rw [localPose_moved h]
      rfl
    have hshape : (agents.map (Agent.moved θ tx ty)).all (Agent.shaped cfg) = agents.all (Agent.shaped cfg) := by
      rw [List.all_map]
      congr 1
      funext a
      simp [Agent.shaped, Agent.moved]
    rw [hshape]
    congr 1
    funext units
    rw [List.mapM_map]
    have : (sampleAgent cfg units (ego.moved θ tx ty) times obs occ ∘ Agent.moved θ tx ty) = sampleAgent cfg units ego times obs occ :=
      funext (hagent units)
    rw [this]

/-- C83: moving the whole world changes no grid: all rigid motions if the heading is normalised, otherwise shifts. -/
theorem renderOccupancy_moved {cfg : Config} {θ tx ty : ℝ} (h : cfg.normalizeYaw = true ∨ θ = 0) (agents : List Agent) (times : List Time)
    (obs occ : Bool) :
    renderOccupancy cfg (agents.map (Agent.moved θ tx ty)) times obs occ = renderOccupancy cfg agents times obs occ := by
  unfold renderOccupancy
  rw [sampleAll_moved h]

theorem renderFlow_moved {cfg : Config} {θ tx ty : ℝ} (h : cfg.normalizeYaw = true ∨ θ = 0) (agents : List Agent) (times : List Time)
    (obs occ : Bool) : renderFlow cfg (agents.map (Agent.moved θ tx ty)) times obs occ = renderFlow cfg agents times obs occ := by
  unfold renderFlow
  rw [sampleAll_moved h]

/-! ### The map -/

open Classical in
/-- C83: the picture of the map has a 1 at the cells that are nearest to a valid point of it. -/
theorem renderRoadgraph_spec {cfg : Config} {agents : List Agent} {points : List (Bool × ℝ × ℝ)} {ego : State} (he : sdc agents = some ego) :
    ∃ g, renderRoadgraph cfg agents points = some g ∧ ∀ row col, g row col =
      if Cell cfg row col ∧ ∃ p, (true, p) ∈ points ∧ Nearest cfg (pixel cfg ego p) row col then 1 else 0 := by
  have himage : ∀ (p : ℝ × ℝ) (row col : ℤ), toImage cfg (if cfg.normalizeYaw then rotate (p.1 - ego.x) (p.2 - ego.y) (Real.pi / 2 - ego.yaw)
      else (p.1 - ego.x, p.2 - ego.y)) = (col, row) ↔ Nearest cfg (pixel cfg ego p) row col := by
    intro p row col
    have := toImage_boxPoint cfg ego ⟨p.1, p.2, 0, 0, 0, true⟩ (0, 0) row col
    simp only [mul_zero, zero_mul, add_zero, sub_zero] at this
    rw [← this]
    unfold boxPoint localPose
    cases cfg.normalizeYaw <;> simp
  unfold renderRoadgraph
  simp only [he, Option.bind_eq_bind, Option.bind_some]
  set image := (points.filter Prod.fst).map fun p => toImage cfg (if cfg.normalizeYaw = true then
    rotate (p.2.1 - ego.x) (p.2.2 - ego.y) (Real.pi / 2 - ego.yaw) else (p.2.1 - ego.x, p.2.2 - ego.y)) with himg
  obtain ⟨g, hg⟩ := scatter_ok (cfg := cfg) (n := 1) (entries := (image.filter (inFov cfg)).map fun q => ((q.2, q.1, 0), (1 : ℝ))) (by
    intro e h
    obtain ⟨q, hq, rfl⟩ := List.mem_map.1 h
    have hf := inFov_iff.1 (List.mem_filter.1 hq).2
    exact ⟨⟨hf.2, hf.1⟩, Nat.one_pos⟩)
  rw [hg]
  refine ⟨_, rfl, ?_⟩
  intro row col
  obtain ⟨h1, h2⟩ := scatter_some hg row col
  have h3 := h2 0 one_pos
  have h4 : (g row col).headD 0 = (((((image.filter (inFov cfg)).map fun q => ((q.2, q.1, 0), (1 : ℝ))).filter fun e =>
      e.1 = (row, col, 0)).map Prod.snd).sum) := by
    rw [List.headD_eq_head?_getD, List.head?_eq_getElem?, h3]
    rfl
  rw [h4]
  have h5 : ((image.filter (inFov cfg)).map fun q => ((q.2, q.1, 0), (1 : ℝ))) =
      ((image.filter (inFov cfg)).map fun q => ((q.2, q.1, 0) : ℤ × ℤ × ℕ)).map fun i => (i, (1 : ℝ)) := by
    rw [List.map_map]
    rfl
  rw [h5, clip_count]
  refine if_congr ?_ rfl rfl
  rw [List.mem_map]
  constructor
  · rintro ⟨⟨x, y⟩, hq, he⟩
    simp only [Prod.mk.injEq, and_true] at he
    obtain ⟨rfl, rfl⟩ := he
    rw [List.mem_filter, himg, List.mem_map] at hq
    obtain ⟨⟨⟨b, p⟩, hp, hi⟩, hf⟩ := hq
    rw [List.mem_filter] at hp
    have hb : b = true := hp.2
    subst hb
    have hf := inFov_iff.1 hf
    exact ⟨⟨hf.2, hf.1⟩, p, hp.1, (himage p _ _).1 hi⟩
  · rintro ⟨hc, p, hp, hn⟩
    refine ⟨(col, row), List.mem_filter.2 ⟨?_, inFov_iff.2 ⟨hc.2, hc.1⟩⟩, rfl⟩
    rw [himg, List.mem_map]
    exact ⟨(true, p), List.mem_filter.2 ⟨hp, rfl⟩, (himage p row col).2 hn⟩

/-! ### Concrete scenes -/

/-- An agent that does not move. -/
def still (type isSdc : ℤ) (s : State) (past current future : Bool) (p f : ℕ) : Agent :=
  ⟨type, isSdc, fun t => match t with
    | .past => List.replicate p { s with valid := past }
    | .current => [{ s with valid := current }]
    | .future => List.replicate f { s with valid := future }⟩

/-- The defaults of the configuration, with the yaw as it is. -/
noncomputable def defaults : Config := ⟨10, 80, 8, false, false, 256, 256, 128, 192, 3.2, 48, 16⟩

noncomputable def truck : State := ⟨0, 0, 0, 20, 2, true⟩

theorem shaped_still (cfg : Config) (type isSdc : ℤ) (s : State) (a b c : Bool) :
    (still type isSdc s a b c cfg.numPast cfg.numFuture).shaped cfg = true := by
  simp [Agent.shaped, still]

/-- C83: with the default configuration a vehicle of 20 metres has holes: the grid is 0 at a cell whose centre is in its box. -/
theorem box_occupied_violated : ∃ g ego, renderOccupancy defaults [still 1 1 truck true true true 10 80] [.current] true true = some g ∧
    sdc [still 1 1 truck true true true 10 80] = some ego ∧ ∃ p, InBox truck p ∧ pixel defaults ego p = (((98 : ℤ) : ℝ), ((192 : ℤ) : ℝ)) ∧
      (g .vehicle 192 98)[0]? = some 0 := by
  classical
  have he : sdc [still 1 1 truck true true true 10 80] = some truck := rfl
  obtain ⟨g, hg⟩ := renderOccupancy_some (cfg := defaults) (times := [.current]) (obs := true) (occ := true) he
    (by intro a ha; rw [List.mem_singleton.1 ha]; exact shaped_still defaults 1 1 truck true true true) (by simp) (by simp [defaults])
    (by simp [defaults]) (Or.inl rfl)
  refine ⟨g, truck, hg, he, (-9.375, 0), ⟨-9.375, 0, ?_, ?_, ?_⟩, ?_, ?_⟩
  · norm_num [truck, abs_le]
  · norm_num [truck]
  · simp [truck]
  · simp only [pixel, defaults, truck]
    norm_num
  · obtain ⟨ego, he', hspec⟩ := renderOccupancy_spec hg
    rw [he] at he'
    obtain rfl := Option.some.inj he'
    rw [(hspec .vehicle 192 98).2 0 (by simp [numSteps])]
    rw [if_neg]
    rintro ⟨_, a, ha, _, _, s, hs, _, p, hp, hn⟩
    obtain rfl := List.mem_singleton.1 ha
    have : s = truck := by simpa [stack, still, truck] using hs.symm
    subst this
    obtain ⟨u, v, hu, _, rfl⟩ := hp
    have hc := hn.close.1
    simp only [pixel, defaults, truck] at hc
    norm_num at hc
    rcases hu with ⟨h, _⟩ | ⟨_, i, hi, hu⟩
    · simp [defaults] at h
    · simp only [defaults] at hu
      push_cast at hu
      rw [_root_.abs_le] at hc
      by_cases h2 : i ≤ 1
      · have : (i : ℝ) ≤ 1 := by exact_mod_cast h2
        linarith [hc.1]
      · have : (2 : ℝ) ≤ i := by exact_mod_cast (by omega : 2 ≤ i)
        linarith [hc.2]

/-- A car of ordinary size meets the condition of `box_occupied_partial` with the default configuration. -/
theorem spacing_car : (((4.5 : ℝ) / ((defaults.pointsLength : ℝ) - 1)) ^ 2 + ((2 : ℝ) / ((defaults.pointsWidth : ℝ) - 1)) ^ 2) *
    defaults.pixelsPerMeter ^ 2 < 1 := by
  simp only [defaults]
  norm_num

/-- A small configuration: one step of the past, one of the future, one point for a box. -/
noncomputable def tiny : Config := ⟨1, 1, 1, false, true, 3, 3, 1, 1, 1, 1, 1⟩

noncomputable def unit : State := ⟨0, 0, 0, 1, 1, true⟩

noncomputable def lost : List Agent := [still 1 1 unit true true false 1 1, still 1 0 unit true false true 1 1]

/-- C83: the documentation divides agents by whether they are valid at the current step, the code by whether they are valid at any step up
to now: here the only agent with a valid future state is not valid now, and is shown as observed and not as occluded. -/
theorem observed_violated : ∃ go gc, renderOccupancy tiny lost [.future] true false = some go ∧
    renderOccupancy tiny lost [.future] false true = some gc ∧
    (∀ a ∈ lost, (∃ s ∈ a.states .future, s.valid = true) → ∀ s ∈ a.states .current, s.valid = false) ∧
    (go .vehicle 1 1)[0]? = some 1 ∧ (gc .vehicle 1 1)[0]? = some 0 := by
  classical
  have he : sdc lost = some unit := rfl
  have hs : ∀ a ∈ lost, a.shaped tiny = true := by
    intro a ha
    simp only [lost, List.mem_cons, List.not_mem_nil, or_false] at ha
    rcases ha with rfl | rfl
    · exact shaped_still tiny 1 1 unit true true false
    · exact shaped_still tiny 1 0 unit true false true
  obtain ⟨go, hgo⟩ := renderOccupancy_some (cfg := tiny) (times := [.future]) (obs := true) (occ := false) he hs (by simp) (by simp [tiny])
    (by simp [tiny]) (Or.inl rfl)
  obtain ⟨gc, hgc⟩ := renderOccupancy_some (cfg := tiny) (times := [.future]) (obs := false) (occ := true) he hs (by simp) (by simp [tiny])
    (by simp [tiny]) (Or.inr rfl)
  refine ⟨go, gc, hgo, hgc, ?_, ?_, ?_⟩
  · intro a ha
    simp only [lost, List.mem_cons, List.not_mem_nil, or_false] at ha
    rcases ha with rfl | rfl
    · simp [still]
    · simp [still]
  · obtain ⟨ego, he', hspec⟩ := renderOccupancy_spec hgo
    rw [he] at he'
    obtain rfl := Option.some.inj he'
    rw [(hspec .vehicle 1 1).2 0 (by simp [numSteps, tiny]), if_pos]
    refine ⟨by simp [Cell, tiny], still 1 0 unit true false true 1 1, by simp [lost], rfl, Or.inr (Or.inr (Or.inl ⟨rfl, unit, ?_, rfl⟩)), unit,
      by simp [stack, still, unit], rfl, (0, 0), ⟨0, 0, Or.inl ⟨rfl, rfl⟩, Or.inl ⟨rfl, rfl⟩, by simp [unit]⟩, ?_⟩
    · simp [still, unit]
    · have : roundEven (0 : ℝ) = 0 := by
        have := Verif.Pca.roundEven_intCast (K := ℝ) 0
        simpa using this
      simp [Nearest, pixel, tiny, unit, this]
  · obtain ⟨ego, he', hspec⟩ := renderOccupancy_spec hgc
    rw [(hspec .vehicle 1 1).2 0 (by simp [numSteps, tiny]), if_neg]
    rintro ⟨_, a, ha, _, hsel, _⟩
    have hobs : ∃ s ∈ a.states .past ++ a.states .current, s.valid = true := by
      simp only [lost, List.mem_cons, List.not_mem_nil, or_false] at ha
      rcases ha with rfl | rfl <;> exact ⟨unit, by simp [still, unit], rfl⟩
    exact not_observed_occluded (by simp) (Or.inr (Or.inr (Or.inl ⟨rfl, hobs⟩))) hsel

end Verif.Occupancy
