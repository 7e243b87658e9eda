import Verif.Model.Occupancy
import Verif.Props.Pca
import Verif.Lemmas.ListM
import Mathlib.Tactic.Ring
import Mathlib.Tactic.Linarith
import Mathlib.Tactic.LinearCombination

/-!
Rendering of occupancy grids: utils/occupancy_flow_renderer.py.
-/

namespace Verif.Occupancy

open Verif.ListM
open Verif.Pca (roundEven clip roundEven_near)

/-! ### Specification -/

/-- The points of the box of a state. -/
def InBox (s : State) (p : ℝ × ℝ) : Prop :=
  ∃ ξ η : ℝ, |ξ| ≤ s.length / 2 ∧ |η| ≤ s.width / 2 ∧
    p = (s.x + ξ * Real.cos s.yaw - η * Real.sin s.yaw, s.y + ξ * Real.sin s.yaw + η * Real.cos s.yaw)

/-- A number divides the range from -1/2 to 1/2 evenly, or is its middle. -/
def Even (n : ℕ) (u : ℝ) : Prop := (n = 1 ∧ u = 0) ∨ (1 < n ∧ ∃ i : ℕ, i < n ∧ u * (n - 1) = i - ((n : ℝ) - 1) / 2)

/-- The sample points of a box: `n` by `m` points that divide the sides evenly. -/
def Sample (n m : ℕ) (s : State) (p : ℝ × ℝ) : Prop :=
  ∃ u v : ℝ, Even n u ∧ Even m v ∧
    p = (s.x + s.length * u * Real.cos s.yaw - s.width * v * Real.sin s.yaw,
      s.y + s.length * u * Real.sin s.yaw + s.width * v * Real.cos s.yaw)

/-- Where a point of the world is in the image: the autonomous vehicle is at its cell, and heads up if the yaw is normalised. -/
noncomputable def pixel (cfg : Config) (ego : State) (p : ℝ × ℝ) : ℝ × ℝ :=
  let ahead := (p.1 - ego.x) * Real.cos ego.yaw + (p.2 - ego.y) * Real.sin ego.yaw
  let left := -(p.1 - ego.x) * Real.sin ego.yaw + (p.2 - ego.y) * Real.cos ego.yaw
  if cfg.normalizeYaw then (cfg.sdcX - left * cfg.pixelsPerMeter, cfg.sdcY - ahead * cfg.pixelsPerMeter)
  else (cfg.sdcX + (p.1 - ego.x) * cfg.pixelsPerMeter, cfg.sdcY - (p.2 - ego.y) * cfg.pixelsPerMeter)

/-- A cell is nearest to a point; a point in the middle between two goes to the one at an even distance from the vehicle. -/
def Nearest (cfg : Config) (q : ℝ × ℝ) (row col : ℤ) : Prop :=
  col = roundEven (q.1 - cfg.sdcX) + cfg.sdcX ∧ row = roundEven (q.2 - cfg.sdcY) + cfg.sdcY

/-- The agents that are rendered: with only one of the flags, future steps show only agents that have been observed, or only those that
have not. -/
def Selected (times : List Time) (obs occ : Bool) (a : Agent) : Prop :=
  Time.future ∉ times ∨ (obs = true ∧ occ = true) ∨
    (obs = true ∧ ∃ s ∈ a.states .past ++ a.states .current, s.valid = true) ∨
    (occ = true ∧ ∀ s ∈ a.states .past ++ a.states .current, s.valid = false)

/-- The frame of the grids is that of the only agent that is marked as the autonomous vehicle, as it is now. -/
theorem sdc_spec {agents : List Agent} {ego : State} (h : sdc agents = some ego) :
    ∃ l a r, agents = l ++ a :: r ∧ a.isSdc = 1 ∧ (a.states .current)[0]? = some ego ∧ ∀ b ∈ l ++ r, b.isSdc ≠ 1 := by
  unfold sdc at h
  split at h
  · rename_i a hf
    have ha : a ∈ agents.filter fun a => a.isSdc == 1 := by rw [hf]; simp
    obtain ⟨ha, h1⟩ := List.mem_filter.1 ha
    obtain ⟨l, r, rfl⟩ := List.append_of_mem ha
    refine ⟨l, a, r, rfl, by simpa using h1, h, ?_⟩
    rw [List.filter_append, List.filter_cons_of_pos (p := fun a : Agent => a.isSdc == 1) h1] at hf
    have hlen := congrArg List.length hf
    simp only [List.length_append, List.length_cons, List.length_nil] at hlen
    have e1 : l.filter (fun a => a.isSdc == 1) = [] := List.length_eq_zero_iff.1 (by omega)
    have e2 : r.filter (fun a => a.isSdc == 1) = [] := List.length_eq_zero_iff.1 (by omega)
    rw [List.filter_eq_nil_iff] at e1 e2
    intro b hb hb1
    rcases List.mem_append.1 hb with hb | hb
    · exact e1 b hb (by simp [hb1])
    · exact e2 b hb (by simp [hb1])
  · simp at h

/-! ### Samples -/

theorem unitAt_even {n i : ℕ} (h : i < n) : Even n (unitAt n i) := by
  unfold Even unitAt
  by_cases h1 : n = 1
  · left
    rw [if_pos h1]
    exact ⟨h1, by ring⟩
  · right
    rw [if_neg h1]
    refine ⟨by omega, i, h, ?_⟩
    have : (n : ℝ) - 1 ≠ 0 := by
      have : (1 : ℝ) < n := by exact_mod_cast (by omega : 1 < n)
      linarith
    field_simp

theorem even_unitAt {n : ℕ} {u : ℝ} (h : Even n u) : ∃ i, i < n ∧ unitAt n i = u := by
  rcases h with ⟨h1, rfl⟩ | ⟨h1, i, hi, hu⟩
  · exact ⟨0, by omega, by unfold unitAt; rw [if_pos h1]; ring⟩
  · refine ⟨i, hi, ?_⟩
    unfold unitAt
    rw [if_neg (by omega)]
    have : (n : ℝ) - 1 ≠ 0 := by
      have : (1 : ℝ) < n := by exact_mod_cast h1
      linarith
    field_simp
    linarith

theorem mem_unitPoints {n m : ℕ} {l : List (ℝ × ℝ)} (h : unitPoints n m = some l) (u : ℝ × ℝ) :
    u ∈ l ↔ Even n u.1 ∧ Even m u.2 := by
  unfold unitPoints at h
  split at h
  · simp at h
  · obtain rfl := Option.some.inj h
    simp only [List.mem_flatMap, List.mem_range, List.mem_map]
    constructor
    · rintro ⟨i, hi, j, hj, rfl⟩
      exact ⟨unitAt_even hi, unitAt_even hj⟩
    · rintro ⟨h1, h2⟩
      obtain ⟨i, hi, e1⟩ := even_unitAt h1
      obtain ⟨j, hj, e2⟩ := even_unitAt h2
      exact ⟨i, hi, j, hj, by rw [e1, e2]⟩

/-- The point of the box in the frame of the vehicle and its place in the image. -/
theorem toImage_boxPoint (cfg : Config) (ego s : State) (u : ℝ × ℝ) (row col : ℤ) :
    toImage cfg (boxPoint (localPose cfg.normalizeYaw ego s) s.length s.width u) = (col, row) ↔
      Nearest cfg (pixel cfg ego (s.x + s.length * u.1 * Real.cos s.yaw - s.width * u.2 * Real.sin s.yaw,
        s.y + s.length * u.1 * Real.sin s.yaw + s.width * u.2 * Real.cos s.yaw)) row col := by
  unfold toImage Nearest pixel localPose boxPoint
  by_cases hn : cfg.normalizeYaw
  · simp only [hn, if_true, rotate, Prod.mk.injEq]
    have e1 : (Real.cos (s.yaw + (Real.pi / 2 - ego.yaw)) * s.length * u.1 - Real.sin (s.yaw + (Real.pi / 2 - ego.yaw)) * s.width * u.2 +
        (Real.cos (Real.pi / 2 - ego.yaw) * (s.x - ego.x) - Real.sin (Real.pi / 2 - ego.yaw) * (s.y - ego.y))) * cfg.pixelsPerMeter =
        (cfg.sdcX : ℝ) - (-(s.x + s.length * u.1 * Real.cos s.yaw - s.width * u.2 * Real.sin s.yaw - ego.x) * Real.sin ego.yaw +
          (s.y + s.length * u.1 * Real.sin s.yaw + s.width * u.2 * Real.cos s.yaw - ego.y) * Real.cos ego.yaw) * cfg.pixelsPerMeter -
        cfg.sdcX := by
      rw [Real.cos_add, Real.sin_add, Real.cos_pi_div_two_sub, Real.sin_pi_div_two_sub]
      ring
    have e2 : -(Real.sin (s.yaw + (Real.pi / 2 - ego.yaw)) * s.length * u.1 + Real.cos (s.yaw + (Real.pi / 2 - ego.yaw)) * s.width * u.2 +
        (Real.sin (Real.pi / 2 - ego.yaw) * (s.x - ego.x) + Real.cos (Real.pi / 2 - ego.yaw) * (s.y - ego.y))) * cfg.pixelsPerMeter =
        (cfg.sdcY : ℝ) - ((s.x + s.length * u.1 * Real.cos s.yaw - s.width * u.2 * Real.sin s.yaw - ego.x) * Real.cos ego.yaw +
          (s.y + s.length * u.1 * Real.sin s.yaw + s.width * u.2 * Real.cos s.yaw - ego.y) * Real.sin ego.yaw) * cfg.pixelsPerMeter -
        cfg.sdcY := by
      rw [Real.cos_add, Real.sin_add, Real.cos_pi_div_two_sub, Real.sin_pi_div_two_sub]
      ring
    rw [e1, e2]
    exact ⟨fun h => ⟨h.1.symm, h.2.symm⟩, fun h => ⟨h.1.symm, h.2.symm⟩⟩
  · simp only [hn, Bool.false_eq_true, if_false, Prod.mk.injEq]
    have e1 : (Real.cos s.yaw * s.length * u.1 - Real.sin s.yaw * s.width * u.2 + (s.x - ego.x)) * cfg.pixelsPerMeter =
        (cfg.sdcX : ℝ) + (s.x + s.length * u.1 * Real.cos s.yaw - s.width * u.2 * Real.sin s.yaw - ego.x) * cfg.pixelsPerMeter -
        cfg.sdcX := by ring
    have e2 : -(Real.sin s.yaw * s.length * u.1 + Real.cos s.yaw * s.width * u.2 + (s.y - ego.y)) * cfg.pixelsPerMeter =
        (cfg.sdcY : ℝ) - (s.y + s.length * u.1 * Real.sin s.yaw + s.width * u.2 * Real.cos s.yaw - ego.y) * cfg.pixelsPerMeter -
        cfg.sdcY := by ring
    rw [e1, e2]
    exact ⟨fun h => ⟨h.1.symm, h.2.symm⟩, fun h => ⟨h.1.symm, h.2.symm⟩⟩

theorem keep_spec {times : List Time} {obs occ : Bool} {a : Agent} {k : Bool} (h : keep times obs occ a = some k) :
    k = true ↔ Selected times obs occ a := by
  have hany : observed a = true ↔ ∃ s ∈ a.states .past ++ a.states .current, s.valid = true := by
    simp [observed, stack, or_and_right, exists_or]
  have hnone : observed a = false ↔ ∀ s ∈ a.states .past ++ a.states .current, s.valid = false := by
    rw [← Bool.not_eq_true, hany]
    push Not
    simp
  unfold keep at h
  unfold Selected
  rw [← hany, ← hnone]
  by_cases hf : Time.future ∈ times
  · cases obs <;> cases occ <;> simp [hf] at h ⊢
    · rw [h]
      simp
    · rw [h]
    · exact h
  · simp [hf] at h
    simp [hf, h]

theorem keep_some {times : List Time} {obs occ : Bool} (h : obs = true ∨ occ = true) (a : Agent) : ∃ k, keep times obs occ a = some k := by
  unfold keep
  by_cases hf : Time.future ∈ times <;> rcases h with rfl | rfl
  · cases occ <;> simp [hf]
  · cases obs <;> simp [hf]
  · cases occ <;> simp [hf]
  · cases obs <;> simp [hf]

/-! ### Rendering -/

theorem mem_hits {cfg : Config} {all : List Sampled} {kind : Kind} {r c : ℤ} {t : ℕ} :
    (r, c, t) ∈ hits cfg all kind ↔
      ∃ a ∈ all, a.type = kind.code ∧ ∃ pts, a.steps[t]? = some (true, pts) ∧ (c, r) ∈ pts ∧ inFov cfg (c, r) = true := by
  unfold hits
  rw [List.mem_flatMap]
  constructor
  · rintro ⟨a, ha, h⟩
    split at h
    · rename_i hk
      rw [List.mem_flatMap] at h
      obtain ⟨⟨⟨ok, pts⟩, i⟩, hs, h⟩ := h
      rw [List.mk_mem_zipIdx_iff_getElem?] at hs
      simp only at h
      split at h
      · rename_i hok
        rw [List.mem_map] at h
        obtain ⟨⟨x, y⟩, hq, he⟩ := h
        rw [List.mem_filter] at hq
        simp only [Prod.mk.injEq] at he
        obtain ⟨rfl, rfl, rfl⟩ := he
        exact ⟨a, ha, hk, pts, by rw [hs, hok], hq.1, hq.2⟩
      · simp at h
    · simp at h
  · rintro ⟨a, ha, hk, pts, hs, hm, hf⟩
    refine ⟨a, ha, ?_⟩
    rw [if_pos hk, List.mem_flatMap]
    refine ⟨((true, pts), t), List.mk_mem_zipIdx_iff_getElem?.2 hs, ?_⟩
    simp only [if_true]
    rw [List.mem_map]
    exact ⟨(c, r), List.mem_filter.2 ⟨hm, hf⟩, rfl⟩

theorem inFov_iff {cfg : Config} {q : ℤ × ℤ} : inFov cfg q = true ↔ (0 ≤ q.1 ∧ q.1 < cfg.width) ∧ (0 ≤ q.2 ∧ q.2 < cfg.height) := by
  unfold inFov
  rw [decide_eq_true_eq]
  tauto

theorem scatter_some {entries : List ((ℤ × ℤ × ℕ) × ℝ)} {h w n : ℕ} {g : ℤ → ℤ → List ℝ} (hg : scatter entries h w n = some g) (r c : ℤ) :
    (g r c).length = n ∧ ∀ t, t < n → (g r c)[t]? = some (((entries.filter fun e => e.1 = (r, c, t)).map Prod.snd).sum) := by
  unfold scatter at hg
  split at hg
  · obtain rfl := Option.some.inj hg
    refine ⟨by simp, ?_⟩
    intro t ht
    rw [List.getElem?_map, List.getElem?_range ht]
    rfl
  · simp at hg

theorem clip_count (l : List (ℤ × ℤ × ℕ)) (i : ℤ × ℤ × ℕ) [Decidable (i ∈ l)] :
    clip 0 1 ((((l.map fun i => (i, (1 : ℝ))).filter fun e => e.1 = i).map Prod.snd).sum) = if i ∈ l then 1 else 0 := by
  have hsum : (((l.map fun i => (i, (1 : ℝ))).filter fun e => e.1 = i).map Prod.snd).sum = (l.filter fun j => j = i).length := by
    clear * -
    rw [List.filter_map, List.map_map]
    induction l with
    | nil => simp
    | cons a l ih =>
      by_cases ha : a = i
      · simp [ha] at ih ⊢
        rw [ih, add_comm]
      · simp [ha] at ih ⊢
        exact ih
  rw [hsum]
  unfold clip
  split
  · rename_i hm
    have : 1 ≤ (l.filter fun j => j = i).length := List.length_pos_of_mem (List.mem_filter.2 ⟨hm, by simp⟩)
    have h1 : (1 : ℝ) ≤ (l.filter fun j => j = i).length := by exact_mod_cast this
    rw [min_eq_right h1]
    simp
  · rename_i hm
    have : l.filter (fun j => decide (j = i)) = [] := by
      rw [List.filter_eq_nil_iff]
      intro j hj
      simp only [decide_eq_true_eq]
      rintro rfl
      exact hm hj
    rw [this]
    simp

theorem sampleAll_spec {cfg : Config} {agents : List Agent} {times : List Time} {obs occ : Bool} {all : List Sampled}
    (h : sampleAll cfg agents times obs occ = some all) :
    ∃ ego units, sdc agents = some ego ∧ unitPoints cfg.pointsLength cfg.pointsWidth = some units ∧
      List.Forall₂ (fun a s => sampleAgent cfg units ego times obs occ a = some s) agents all ∧
      (∀ a ∈ agents, a.shaped cfg = true) ∧ ∀ s ∈ all, s.steps.length = numSteps cfg times := by
  unfold sampleAll at h
  simp only [Option.bind_eq_bind, Option.bind_eq_some_iff] at h
  obtain ⟨ego, he, units, hu, all', ha, h⟩ := h
  split at h
  · rename_i hc
    obtain rfl := Option.some.inj h
    rw [Bool.and_eq_true, List.all_eq_true, List.all_eq_true] at hc
    exact ⟨ego, units, he, hu, mapM_forall₂ ha, hc.1, fun s hs => by simpa using hc.2 s hs⟩
  · simp at h

theorem sampleAgent_spec {cfg : Config} {units : List (ℝ × ℝ)} {ego : State} {times : List Time} {obs occ : Bool} {a : Agent} {s : Sampled}
    (h : sampleAgent cfg units ego times obs occ a = some s) :
    ∃ k, keep times obs occ a = some k ∧ s.type = a.type ∧ s.steps = (stack times a).map fun st =>
      (st.valid && k, units.map fun u => toImage cfg (boxPoint (localPose cfg.normalizeYaw ego st) st.length st.width u)) := by
  unfold sampleAgent at h
  rw [Option.bind_eq_bind, Option.bind_eq_some_iff] at h
  obtain ⟨k, hk, h⟩ := h
  obtain rfl := Option.some.inj h
  exact ⟨k, hk, rfl, rfl⟩

/-- A cell is hit by an agent: a sample of its box at the step is nearest to the cell. -/
def HitBy (cfg : Config) (ego : State) (times : List Time) (t : ℕ) (row col : ℤ) (a : Agent) : Prop :=
  ∃ s, (stack times a)[t]? = some s ∧ s.valid = true ∧
    ∃ p, Sample cfg.pointsLength cfg.pointsWidth s p ∧ Nearest cfg (pixel cfg ego p) row col

/-- A cell of the grid. -/
def Cell (cfg : Config) (row col : ℤ) : Prop := (0 ≤ row ∧ row < cfg.height) ∧ (0 ≤ col ∧ col < cfg.width)

theorem mem_hits_iff {cfg : Config} {agents : List Agent} {times : List Time} {obs occ : Bool} {all : List Sampled}
    (h : sampleAll cfg agents times obs occ = some all) {ego : State} (he : sdc agents = some ego) (kind : Kind) (r c : ℤ) (t : ℕ) :
    (r, c, t) ∈ hits cfg all kind ↔
      Cell cfg r c ∧ ∃ a ∈ agents, a.type = kind.code ∧ Selected times obs occ a ∧ HitBy cfg ego times t r c a := by
  obtain ⟨ego', units, he', hu, hall, _, _⟩ := sampleAll_spec h
  rw [he] at he'
  obtain rfl := Option.some.inj he'
  have hsample : ∀ st : State, (c, r) ∈ (units.map fun u => toImage cfg (boxPoint (localPose cfg.normalizeYaw ego st) st.length st.width u)) ↔
      ∃ p, Sample cfg.pointsLength cfg.pointsWidth st p ∧ Nearest cfg (pixel cfg ego p) r c := by
    intro st
    rw [List.mem_map]
    constructor
    · rintro ⟨u, hm, hi⟩
      exact ⟨_, ⟨u.1, u.2, ((mem_unitPoints hu u).1 hm).1, ((mem_unitPoints hu u).1 hm).2, rfl⟩, (toImage_boxPoint cfg ego st u r c).1 hi⟩
    · rintro ⟨p, ⟨u, v, h1, h2, rfl⟩, hn⟩
      exact ⟨(u, v), (mem_unitPoints hu (u, v)).2 ⟨h1, h2⟩, (toImage_boxPoint cfg ego st (u, v) r c).2 hn⟩
  rw [mem_hits]
  constructor
  · rintro ⟨s, hs, hk, pts, hst, hm, hf⟩
    obtain ⟨a, ha, hsa⟩ := forall₂_exists_left hall.flip hs
    obtain ⟨k, hkeep, htype, hsteps⟩ := sampleAgent_spec hsa
    rw [hsteps, List.getElem?_map, Option.map_eq_some_iff] at hst
    obtain ⟨st, hst, hv⟩ := hst
    simp only [Prod.mk.injEq, Bool.and_eq_true] at hv
    obtain ⟨⟨hvalid, hkt⟩, rfl⟩ := hv
    rw [inFov_iff] at hf
    exact ⟨⟨hf.2, hf.1⟩, a, ha, by rw [← htype, hk], (keep_spec hkeep).1 hkt, st, hst, hvalid, (hsample st).1 hm⟩
  · rintro ⟨hc, a, ha, hk, hsel, st, hst, hvalid, hp⟩
    obtain ⟨s, hs, hsa⟩ := forall₂_exists_left hall ha
    obtain ⟨k, hkeep, htype, hsteps⟩ := sampleAgent_spec hsa
    refine ⟨s, hs, by rw [htype, hk], _, ?_, (hsample st).2 hp, inFov_iff.2 ⟨hc.2, hc.1⟩⟩
    rw [hsteps, List.getElem?_map, hst, Option.map_some, hvalid, (keep_spec hkeep).2 hsel]
    rfl

open Classical in
/-- C83: what a grid shows: a cell is 1 if a sample of the box of a selected valid agent of the kind is nearest to it, otherwise 0. -/
theorem renderOccupancy_spec {cfg : Config} {agents : List Agent} {times : List Time} {obs occ : Bool} {g : Kind → ℤ → ℤ → List ℝ}
    (h : renderOccupancy cfg agents times obs occ = some g) :
    ∃ ego, sdc agents = some ego ∧ ∀ kind row col, (g kind row col).length = numSteps cfg times ∧
      ∀ t, t < numSteps cfg times → (g kind row col)[t]? = some (if Cell cfg row col ∧
        ∃ a ∈ agents, a.type = kind.code ∧ Selected times obs occ a ∧ HitBy cfg ego times t row col a then 1 else 0) := by
  unfold renderOccupancy at h
  simp only [Option.bind_eq_bind, Option.bind_eq_some_iff] at h
  obtain ⟨all, ha, v, hv, p, hp, c, hc, h⟩ := h
  obtain ⟨ego, units, he, _⟩ := sampleAll_spec ha
  obtain rfl := Option.some.inj h
  refine ⟨ego, he, ?_⟩
  have key : ∀ kind row col (gk : ℤ → ℤ → List ℝ),
      scatter ((hits cfg all kind).map fun i => (i, (1 : ℝ))) cfg.height cfg.width (numSteps cfg times) = some gk →
      ((gk row col).map (clip 0 1)).length = numSteps cfg times ∧
      ∀ t, t < numSteps cfg times → ((gk row col).map (clip 0 1))[t]? = some (if Cell cfg row col ∧
        ∃ a ∈ agents, a.type = kind.code ∧ Selected times obs occ a ∧ HitBy cfg ego times t row col a then 1 else 0) := by
    intro kind row col gk hg
    obtain ⟨h1, h2⟩ := scatter_some hg row col
    refine ⟨by rw [List.length_map, h1], ?_⟩
    intro t ht
    rw [List.getElem?_map, h2 t ht, Option.map_some, clip_count]
    congr 1
    exact if_congr (mem_hits_iff ha he kind row col t) rfl rfl
  intro kind row col
  cases kind
  · exact key .vehicle row col v hv
  · exact key .pedestrian row col p hp
  · exact key .cyclist row col c hc

theorem scatter_ok {entries : List ((ℤ × ℤ × ℕ) × ℝ)} {cfg : Config} {n : ℕ}
    (h : ∀ e ∈ entries, Cell cfg e.1.1 e.1.2.1 ∧ e.1.2.2 < n) : ∃ g, scatter entries cfg.height cfg.width n = some g := by
  unfold scatter
  rw [if_pos]
  · exact ⟨_, rfl⟩
  · intro e he
    exact ⟨(h e he).1.1, (h e he).1.2, (h e he).2⟩

theorem hits_range {cfg : Config} {all : List Sampled} {n : ℕ} (hn : ∀ s ∈ all, s.steps.length = n) (kind : Kind) :
    ∀ e ∈ (hits cfg all kind).map (fun i => (i, (1 : ℝ))), Cell cfg e.1.1 e.1.2.1 ∧ e.1.2.2 < n := by
  intro e he
  rw [List.mem_map] at he
  obtain ⟨⟨r, c, t⟩, hm, rfl⟩ := he
  obtain ⟨a, ha, _, pts, hs, _, hf⟩ := mem_hits.1 hm
  rw [inFov_iff] at hf
  refine ⟨⟨hf.2, hf.1⟩, ?_⟩
  rw [← hn a ha]
  exact (List.getElem?_eq_some_iff.1 hs).1

theorem length_stack {cfg : Config} {times : List Time} {a : Agent} (hd : times.Nodup) (ha : a.shaped cfg = true) :
    (stack times a).length = numSteps cfg times := by
  have hlen : ∀ t, (a.states t).length = match t with | .past => cfg.numPast | .current => 1 | .future => cfg.numFuture := by
    simp only [Agent.shaped, Bool.and_eq_true, beq_iff_eq] at ha
    intro t
    cases t
    · exact ha.1.1
    · exact ha.1.2
    · exact ha.2
  unfold stack numSteps
  induction times with
  | nil => simp
  | cons t times ih =>
    rw [List.nodup_cons] at hd
    rw [List.flatMap_cons, List.length_append, ih hd.2, hlen t]
    cases t
    · have := hd.1
      simp [this]
      omega
    · have := hd.1
      simp [this]
      omega
    · have := hd.1
      simp [this]
      omega

/-- The rendering succeeds for inputs of the configured shape with one autonomous vehicle. -/
theorem sampleAll_some {cfg : Config} {agents : List Agent} {times : List Time} {obs occ : Bool} {ego : State}
    (he : sdc agents = some ego) (hs : ∀ a ∈ agents, a.shaped cfg = true) (hd : times.Nodup) (hp : 0 < cfg.pointsLength)
    (hw : 0 < cfg.pointsWidth) (ho : obs = true ∨ occ = true) : ∃ all, sampleAll cfg agents times obs occ = some all := by
  obtain ⟨units, hu⟩ : ∃ u, unitPoints cfg.pointsLength cfg.pointsWidth = some u := by
    unfold unitPoints
    rw [if_neg (by omega)]
    exact ⟨_, rfl⟩
  obtain ⟨all, hall⟩ : ∃ l, agents.mapM (sampleAgent cfg units ego times obs occ) = some l := mapM_isSome fun a _ => by
    obtain ⟨k, hk⟩ := keep_some (times := times) ho a
    unfold sampleAgent
    rw [hk]
    exact ⟨_, rfl⟩
  refine ⟨all, ?_⟩
  unfold sampleAll
  simp only [he, hu, hall, Option.bind_eq_bind, Option.bind_some]
  rw [if_pos]
  rw [Bool.and_eq_true, List.all_eq_true, List.all_eq_true]
  refine ⟨hs, ?_⟩
  intro s hm
  obtain ⟨a, ha, hsa⟩ := forall₂_exists_left (mapM_forall₂ hall).flip hm
  obtain ⟨k, _, _, hst⟩ := sampleAgent_spec hsa
  rw [hst, List.length_map, length_stack hd (hs a ha)]
  simp

theorem renderOccupancy_some {cfg : Config} {agents : List Agent} {times : List Time} {obs occ : Bool} {ego : State}
    (he : sdc agents = some ego) (hs : ∀ a ∈ agents, a.shaped cfg = true) (hd : times.Nodup) (hp : 0 < cfg.pointsLength)
    (hw : 0 < cfg.pointsWidth) (ho : obs = true ∨ occ = true) : ∃ g, renderOccupancy cfg agents times obs occ = some g := by
  obtain ⟨all, hall⟩ := sampleAll_some (times := times) he hs hd hp hw ho
  obtain ⟨_, _, _, _, _, _, hn⟩ := sampleAll_spec hall
  obtain ⟨v, hv⟩ := scatter_ok (hits_range (cfg := cfg) hn .vehicle)
  obtain ⟨p, hp⟩ := scatter_ok (hits_range (cfg := cfg) hn .pedestrian)
  obtain ⟨c, hc⟩ := scatter_ok (hits_range (cfg := cfg) hn .cyclist)
  unfold renderOccupancy
  simp only [hall, hv, hp, hc, Option.bind_eq_bind, Option.bind_some]
  exact ⟨_, rfl⟩

end Verif.Occupancy
