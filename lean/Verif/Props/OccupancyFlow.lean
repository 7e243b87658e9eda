import Verif.Props.OccupancyGeom
import Mathlib.Algebra.Order.BigOperators.Group.List

/-!
The flow of the occupied cells: utils/occupancy_flow_renderer.py:177-384.
-/

namespace Verif.Occupancy

open Verif.ListM
open Verif.Pca (roundEven clip roundEven_near)

/-! ### Specification -/

/-- The `i`-th of `n` numbers that divide the range from -1/2 to 1/2 evenly. -/
noncomputable def frac (n i : ℕ) : ℝ := if n = 1 then 0 else (i : ℝ) / ((n : ℝ) - 1) - 1 / 2

/-- The sample `i`, `j` of a box. -/
noncomputable def samplePoint (cfg : Config) (s : State) (i j : ℕ) : ℝ × ℝ :=
  (s.x + s.length * frac cfg.pointsLength i * Real.cos s.yaw - s.width * frac cfg.pointsWidth j * Real.sin s.yaw,
    s.y + s.length * frac cfg.pointsLength i * Real.sin s.yaw + s.width * frac cfg.pointsWidth j * Real.cos s.yaw)

/-- The cell of a sample: its column and its row. -/
noncomputable def cellOf (cfg : Config) (ego s : State) (ij : ℕ × ℕ) : ℤ × ℤ :=
  (roundEven ((pixel cfg ego (samplePoint cfg s ij.1 ij.2)).1 - cfg.sdcX) + cfg.sdcX,
    roundEven ((pixel cfg ego (samplePoint cfg s ij.1 ij.2)).2 - cfg.sdcY) + cfg.sdcY)

/-- The numbers of all samples. -/
def samples (cfg : Config) : List (ℕ × ℕ) :=
  (List.range cfg.pointsLength).flatMap fun i => (List.range cfg.pointsWidth).map fun j => (i, j)

open Classical in
/-- The displacements at a cell: for every sample of an agent, valid at both steps, that is in the cell at the later step, how far away its
cell was at the earlier one. -/
noncomputable def displacements (cfg : Config) (agents : List Agent) (times : List Time) (obs occ : Bool) (ego : State) (kind : Kind)
    (before after : ℕ) (row col : ℤ) : List (ℤ × ℤ) :=
  agents.flatMap fun a => if a.type = kind.code ∧ Selected times obs occ a then
    (match (stack times a)[after]?, (stack times a)[before]? with
    | some s', some s => if s'.valid = true ∧ s.valid = true then
        ((samples cfg).filter fun ij => cellOf cfg ego s' ij = (col, row)).map fun ij =>
          ((cellOf cfg ego s ij).1 - col, (cellOf cfg ego s ij).2 - row)
      else []
    | _, _ => [])
  else []

/-- The mean of a list of displacements, zero for none. -/
noncomputable def meanFlow (l : List (ℤ × ℤ)) : ℝ × ℝ :=
  ((l.map fun d => (d.1 : ℝ)).sum / l.length, (l.map fun d => (d.2 : ℝ)).sum / l.length)

/-! ### Proof -/

theorem unitAt_frac (n i : ℕ) : unitAt n i = frac n i := by
  unfold unitAt frac
  split <;> ring

theorem toImage_cellOf (cfg : Config) (ego s : State) (i j : ℕ) :
    toImage cfg (boxPoint (localPose cfg.normalizeYaw ego s) s.length s.width (unitAt cfg.pointsLength i, unitAt cfg.pointsWidth j)) =
      cellOf cfg ego s (i, j) := by
  have := (toImage_boxPoint cfg ego s (unitAt cfg.pointsLength i, unitAt cfg.pointsWidth j) (cellOf cfg ego s (i, j)).2
    (cellOf cfg ego s (i, j)).1).2
  rw [this]
  unfold Nearest cellOf samplePoint
  simp only [unitAt_frac, and_self]

theorem units_eq {cfg : Config} {units : List (ℝ × ℝ)} (h : unitPoints cfg.pointsLength cfg.pointsWidth = some units) (ego s : State) :
    (units.map fun u => toImage cfg (boxPoint (localPose cfg.normalizeYaw ego s) s.length s.width u)) = (samples cfg).map (cellOf cfg ego s) := by
  unfold unitPoints at h
  split at h
  · simp at h
  · obtain rfl := Option.some.inj h
    unfold samples
    rw [List.map_flatMap, List.map_flatMap]
    congr 1
    funext i
    rw [List.map_map, List.map_map]
    apply List.map_congr_left
    intro j _
    exact toImage_cellOf cfg ego s i j

theorem flatMap_zipIdx_at {α β : Type} (F : α → List β) (t : ℕ) : ∀ (l : List α) (k : ℕ),
    ((l.zipIdx k).flatMap fun s => if s.2 = t + k then F s.1 else []) = match l[t]? with | some x => F x | none => []
  | [], _ => by simp
  | a :: l, k => by
    rw [List.zipIdx_cons, List.flatMap_cons]
    cases t with
    | zero =>
      simp only [Nat.zero_add, if_true, List.getElem?_cons_zero]
      have : ((l.zipIdx (k + 1)).flatMap fun s => if s.2 = k then F s.1 else []) = [] := by
        rw [List.flatMap_eq_nil_iff]
        rintro ⟨x, i⟩ hx
        have := List.mem_zipIdx hx
        rw [if_neg]
        simp only
        omega
      rw [this, List.append_nil]
    | succ t =>
      simp only
      rw [if_neg (by omega), List.nil_append, List.getElem?_cons_succ]
      have := flatMap_zipIdx_at F t l (k + 1)
      rw [← this]
      congr 1
      funext s
      congr 1
      rw [eq_iff_iff]
      omega

theorem flatMap_congr_of {α β : Type} {l : List α} {f g : α → List β} (h : ∀ a ∈ l, f a = g a) : l.flatMap f = l.flatMap g := by
  induction l with
  | nil => rfl
  | cons a l ih =>
    rw [List.flatMap_cons, List.flatMap_cons, h a (by simp), ih fun b hb => h b (by simp [hb])]

theorem flatMap_forall₂ {α β γ : Type} {f : α → List γ} {g : β → List γ} {R : α → β → Prop} {l : List α} {r : List β}
    (h : List.Forall₂ R l r) (hfg : ∀ a b, R a b → f a = g b) : l.flatMap f = r.flatMap g := by
  induction h with
  | nil => rfl
  | cons h1 _ ih => rw [List.flatMap_cons, List.flatMap_cons, hfg _ _ h1, ih]

theorem flowHits_filter {cfg : Config} {agents : List Agent} {times : List Time} {obs occ : Bool} {all : List Sampled}
    (h : sampleAll cfg agents times obs occ = some all) {ego : State} (he : sdc agents = some ego) (kind : Kind) {row col : ℤ}
    (hc : Cell cfg row col) {size t : ℕ} (hs : 0 < size) (ht : t + size < numSteps cfg times) :
    ((flowHits cfg size all kind).filter fun e => e.1 = (row, col, t)).map Prod.snd =
      displacements cfg agents times obs occ ego kind t (t + size) row col := by
  classical
  obtain ⟨ego', units, he', hu, hall, _, hlen⟩ := sampleAll_spec h
  rw [he] at he'
  obtain rfl := Option.some.inj he'
  unfold flowHits displacements
  rw [List.filter_flatMap, List.map_flatMap]
  symm
  have hall' : List.Forall₂ (fun a s => sampleAgent cfg units ego times obs occ a = some s ∧ s.steps.length = numSteps cfg times) agents all := by
    refine forall₂_imp_mem hall fun a ha s hs h => ⟨h, hlen s hs⟩
  refine flatMap_forall₂ hall' ?_
  rintro a s ⟨hsa, hl⟩
  obtain ⟨k, hkeep, htype, hsteps⟩ := sampleAgent_spec hsa
  rw [htype]
  by_cases hk : a.type = kind.code
  swap
  · rw [if_neg (fun h => hk h.1), if_neg hk]
    rfl
  rw [if_pos hk]
  rw [hsteps, List.length_map] at hl
  have hfov : inFov cfg (col, row) = true := inFov_iff.2 ⟨hc.2, hc.1⟩
  rw [List.filter_flatMap, List.map_flatMap]
  have key : ∀ x : ((Bool × List (ℤ × ℤ)) × Bool × List (ℤ × ℤ)) × ℕ,
      (((if (x.1.1.1 && x.1.2.1) = true then
        ((x.1.1.2.zip x.1.2.2).filter fun q => inFov cfg q.1).map fun q => ((q.1.2, q.1.1, x.2), q.2.1 - q.1.1, q.2.2 - q.1.2)
        else []).filter fun e => decide (e.1 = (row, col, t))).map Prod.snd) =
      if x.2 = t + 0 then (if (x.1.1.1 && x.1.2.1) = true then
        ((x.1.1.2.zip x.1.2.2).filter fun q => q.1 = (col, row)).map fun q => (q.2.1 - col, q.2.2 - row) else []) else [] := by
    rintro ⟨⟨⟨b1, l1⟩, b2, l2⟩, i⟩
    simp only [Nat.add_zero]
    by_cases hi : i = t
    · subst hi
      rw [if_pos rfl]
      by_cases hb : (b1 && b2) = true
      · rw [if_pos hb, if_pos hb, List.filter_map, List.map_map, List.filter_filter]
        have e : (l1.zip l2).filter (fun q => ((fun e : (ℤ × ℤ × ℕ) × ℤ × ℤ => decide (e.1 = (row, col, i))) ∘
            fun q : (ℤ × ℤ) × ℤ × ℤ => ((q.1.2, q.1.1, i), q.2.1 - q.1.1, q.2.2 - q.1.2)) q && inFov cfg q.1) =
            (l1.zip l2).filter fun q => q.1 = (col, row) := by
          apply List.filter_congr
          rintro ⟨⟨x, y⟩, q⟩ _
          simp only [Function.comp, Prod.mk.injEq, and_true]
          by_cases hxy : y = row ∧ x = col
          · obtain ⟨rfl, rfl⟩ := hxy
            simp [hfov]
          · have h2 : ¬(x = col ∧ y = row) := fun h => hxy ⟨h.2, h.1⟩
            simp [hxy, h2]
        rw [e]
        apply List.map_congr_left
        intro q hq
        rw [List.mem_filter, decide_eq_true_eq] at hq
        simp only [Function.comp, hq.2]
      · rw [if_neg hb, if_neg hb]
        rfl
    · rw [if_neg hi]
      by_cases hb : (b1 && b2) = true
      · rw [if_pos hb, List.map_eq_nil_iff, List.filter_eq_nil_iff]
        intro e he
        rw [List.mem_map] at he
        obtain ⟨q, _, rfl⟩ := he
        simp [hi]
      · rw [if_neg hb]
        rfl
  rw [flatMap_congr_of fun x _ => key x]
  rw [flatMap_zipIdx_at (fun x : (Bool × List (ℤ × ℤ)) × Bool × List (ℤ × ℤ) => if (x.1.1 && x.2.1) = true then
    ((x.1.2.zip x.2.2).filter fun q => q.1 = (col, row)).map fun q => (q.2.1 - col, q.2.2 - row) else [])]
  obtain ⟨s1, h1⟩ : ∃ x, (stack times a)[t + size]? = some x := ⟨_, List.getElem?_eq_getElem (by omega)⟩
  obtain ⟨s0, h0⟩ : ∃ x, (stack times a)[t]? = some x := ⟨_, List.getElem?_eq_getElem (by omega)⟩
  have e1 : (s.steps.drop size)[t]? = some (s1.valid && k, (samples cfg).map (cellOf cfg ego s1)) := by
    rw [List.getElem?_drop, hsteps, List.getElem?_map, Nat.add_comm, h1, Option.map_some, units_eq hu]
  have e0 : (initPy s.steps size)[t]? = some (s0.valid && k, (samples cfg).map (cellOf cfg ego s0)) := by
    unfold initPy
    rw [if_neg (by omega), List.getElem?_take, hsteps, List.length_map, hl, if_pos (by omega), List.getElem?_map, h0, Option.map_some,
      units_eq hu]
  have ez : ((s.steps.drop size).zip (initPy s.steps size))[t]? =
      some ((s1.valid && k, (samples cfg).map (cellOf cfg ego s1)), (s0.valid && k, (samples cfg).map (cellOf cfg ego s0))) := by
    rw [List.getElem?_zip_eq_some]
    exact ⟨e1, e0⟩
  rw [ez, h1, h0]
  simp only
  by_cases hsel : Selected times obs occ a
  · have hkt := (keep_spec hkeep).2 hsel
    rw [if_pos ⟨hk, hsel⟩, hkt]
    simp only [Bool.and_true, Bool.and_eq_true]
    by_cases hv : s1.valid = true ∧ s0.valid = true
    · rw [if_pos hv, if_pos hv, List.zip_map', List.filter_map, List.map_map]
      rfl
    · rw [if_neg hv, if_neg hv]
  · have hkf : k = false := by
      rw [← Bool.not_eq_true]
      exact fun h => hsel ((keep_spec hkeep).1 h)
    rw [if_neg (fun h => hsel h.2), hkf]
    simp

theorem renderFlowKind_spec {cfg : Config} {agents : List Agent} {times : List Time} {obs occ : Bool} {all : List Sampled}
    (h : sampleAll cfg agents times obs occ = some all) {ego : State} (he : sdc agents = some ego) {kind : Kind} {size : ℕ} (hs : 0 < size)
    {g : ℤ → ℤ → List (ℝ × ℝ)} (hg : renderFlowKind cfg size (numSteps cfg times - size) all kind = some g) {row col : ℤ}
    (hc : Cell cfg row col) :
    (g row col).length = numSteps cfg times - size ∧ ∀ t, t + size < numSteps cfg times →
      (g row col)[t]? = some (meanFlow (displacements cfg agents times obs occ ego kind t (t + size) row col)) := by
  unfold renderFlowKind at hg
  simp only [Option.bind_eq_bind, Option.bind_eq_some_iff] at hg
  obtain ⟨x, hx, y, hy, n, hn, hg⟩ := hg
  obtain rfl := Option.some.inj hg
  obtain ⟨lx, vx⟩ := scatter_some hx row col
  obtain ⟨ly, vy⟩ := scatter_some hy row col
  obtain ⟨ln, vn⟩ := scatter_some hn row col
  refine ⟨by simp [lx, ly, ln], ?_⟩
  intro t ht
  have ht' : t < numSteps cfg times - size := by omega
  have hd := flowHits_filter h he kind hc hs ht
  have hzip : ((x row col).zip (y row col))[t]? = some (_, _) := List.getElem?_zip_eq_some.2 ⟨vx t ht', vy t ht'⟩
  have ex : ∀ f : ℤ × ℤ → ℝ, ((((flowHits cfg size all kind).map fun e => (e.1, f e.2)).filter fun e => e.1 = (row, col, t)).map Prod.snd) =
      (displacements cfg agents times obs occ ego kind t (t + size) row col).map f := by
    intro f
    rw [← hd, List.filter_map, List.map_map, List.map_map]
    rfl
  have e1 := ex fun d => (d.1 : ℝ)
  have e2 := ex fun d => (d.2 : ℝ)
  have e3 := ex fun _ => (1 : ℝ)
  rw [List.getElem?_zipWith, hzip, vn t ht', e1, e2, e3]
  simp only [meanFlow, divNoNan, List.map_const', List.sum_replicate, nsmul_eq_mul, mul_one]
  rfl

/-- C84: the flow of a cell is the mean of the displacements, back in time, of the samples in it; it is zero if there are none. -/
theorem renderFlow_spec {cfg : Config} {agents : List Agent} {times : List Time} {obs occ : Bool} {g : Kind → ℤ → ℤ → List (ℝ × ℝ)}
    (h : renderFlow cfg agents times obs occ = some g) :
    ∃ ego size, sdc agents = some ego ∧ waypointSize cfg = some size ∧ 0 < size ∧ size ≤ numSteps cfg times ∧
      ∀ kind row col, Cell cfg row col → (g kind row col).length = numSteps cfg times - size ∧ ∀ t, t + size < numSteps cfg times →
        (g kind row col)[t]? = some (meanFlow (displacements cfg agents times obs occ ego kind t (t + size) row col)) := by
  unfold renderFlow at h
  simp only [Option.bind_eq_bind, Option.bind_eq_some_iff] at h
  obtain ⟨all, ha, size, hs, h⟩ := h
  split at h
  · simp at h
  · rename_i hsz
    push Not at hsz
    rw [Option.bind_eq_some_iff] at h
    obtain ⟨v, hv, h⟩ := h
    rw [Option.bind_eq_some_iff] at h
    obtain ⟨p, hp, h⟩ := h
    rw [Option.bind_eq_some_iff] at h
    obtain ⟨c, hc, h⟩ := h
    obtain rfl := Option.some.inj h
    obtain ⟨ego, _, he, _⟩ := sampleAll_spec ha
    have hpos : 0 < size := Nat.pos_of_ne_zero hsz.1
    refine ⟨ego, size, he, hs, hpos, hsz.2, ?_⟩
    intro kind row col hcell
    cases kind
    · exact renderFlowKind_spec ha he hpos hv hcell
    · exact renderFlowKind_spec ha he hpos hp hcell
    · exact renderFlowKind_spec ha he hpos hc hcell

/-! ### Consequences -/

theorem meanFlow_const {l : List (ℤ × ℤ)} {d : ℤ × ℤ} (h : ∀ e ∈ l, e = d) (hl : l ≠ []) : meanFlow l = ((d.1 : ℝ), (d.2 : ℝ)) := by
  have : l = List.replicate l.length d := List.eq_replicate_iff.2 ⟨rfl, h⟩
  have hn : (l.length : ℝ) ≠ 0 := by
    rw [Nat.cast_ne_zero]
    exact fun h => hl (List.length_eq_zero_iff.1 h)
  unfold meanFlow
  rw [this]
  simp only [List.map_replicate, List.sum_replicate, List.length_replicate, nsmul_eq_mul]
  rw [mul_div_cancel_left₀ _ hn, mul_div_cancel_left₀ _ hn]

theorem mean_bounds {l : List (ℤ × ℤ)} (f : ℤ × ℤ → ℝ) {lo hi : ℝ} (h : ∀ e ∈ l, lo ≤ f e ∧ f e ≤ hi) (hl : l ≠ []) :
    lo ≤ (l.map f).sum / l.length ∧ (l.map f).sum / l.length ≤ hi := by
  have hn : (0 : ℝ) < l.length := by exact_mod_cast List.length_pos_iff.2 hl
  rw [le_div_iff₀ hn, div_le_iff₀ hn]
  constructor
  · have := List.card_nsmul_le_sum (l.map f) lo (by
      intro x hx
      obtain ⟨e, he, rfl⟩ := List.mem_map.1 hx
      exact (h e he).1)
    simp only [List.length_map, nsmul_eq_mul] at this
    linarith
  · have := List.sum_le_card_nsmul (l.map f) hi (by
      intro x hx
      obtain ⟨e, he, rfl⟩ := List.mem_map.1 hx
      exact (h e he).2)
    simp only [List.length_map, nsmul_eq_mul] at this
    linarith

theorem mem_samples {cfg : Config} {i j : ℕ} : (i, j) ∈ samples cfg ↔ i < cfg.pointsLength ∧ j < cfg.pointsWidth := by
  simp [samples]

theorem frac_even {n i : ℕ} (h : i < n) : Even n (frac n i) := unitAt_frac n i ▸ unitAt_even h

theorem samplePoint_sample {cfg : Config} {s : State} {i j : ℕ} (hi : i < cfg.pointsLength) (hj : j < cfg.pointsWidth) :
    Sample cfg.pointsLength cfg.pointsWidth s (samplePoint cfg s i j) := ⟨_, _, frac_even hi, frac_even hj, rfl⟩

theorem cellOf_near (cfg : Config) (ego s : State) (ij : ℕ × ℕ) :
    |((cellOf cfg ego s ij).1 : ℝ) - (pixel cfg ego (samplePoint cfg s ij.1 ij.2)).1| ≤ 1 / 2 ∧
      |((cellOf cfg ego s ij).2 : ℝ) - (pixel cfg ego (samplePoint cfg s ij.1 ij.2)).2| ≤ 1 / 2 := by
  have h : Nearest cfg (pixel cfg ego (samplePoint cfg s ij.1 ij.2)) (cellOf cfg ego s ij).2 (cellOf cfg ego s ij).1 := ⟨rfl, rfl⟩
  rw [abs_sub_comm, abs_sub_comm ((cellOf cfg ego s ij).2 : ℝ)]
  exact h.close

theorem mem_displacements {cfg : Config} {agents : List Agent} {times : List Time} {obs occ : Bool} {ego : State} {kind : Kind}
    {before after : ℕ} {row col : ℤ} {d : ℤ × ℤ} :
    d ∈ displacements cfg agents times obs occ ego kind before after row col ↔
      ∃ a ∈ agents, a.type = kind.code ∧ Selected times obs occ a ∧ ∃ s' s, (stack times a)[after]? = some s' ∧
        (stack times a)[before]? = some s ∧ s'.valid = true ∧ s.valid = true ∧ ∃ ij ∈ samples cfg, cellOf cfg ego s' ij = (col, row) ∧
          d = ((cellOf cfg ego s ij).1 - col, (cellOf cfg ego s ij).2 - row) := by
  classical
  unfold displacements
  rw [List.mem_flatMap]
  constructor
  · rintro ⟨a, ha, h⟩
    split at h
    · rename_i hk
      split at h
      · rename_i s' s h1 h0
        split at h
        · rename_i hv
          rw [List.mem_map] at h
          obtain ⟨ij, hij, rfl⟩ := h
          rw [List.mem_filter] at hij
          exact ⟨a, ha, hk.1, hk.2, s', s, h1, h0, hv.1, hv.2, ij, hij.1, of_decide_eq_true hij.2, rfl⟩
        · simp at h
      · simp at h
    · simp at h
  · rintro ⟨a, ha, hk, hsel, s', s, h1, h0, v1, v0, ij, hij, hcell, rfl⟩
    refine ⟨a, ha, ?_⟩
    rw [if_pos ⟨hk, hsel⟩, h1, h0]
    simp only
    rw [if_pos ⟨v1, v0⟩, List.mem_map]
    exact ⟨ij, List.mem_filter.2 ⟨hij, decide_eq_true hcell⟩, rfl⟩

/-- C84: where there is flow, the cell is occupied at the later step, by an agent that was valid at the earlier one. -/
theorem flow_occupied {cfg : Config} {agents : List Agent} {times : List Time} {obs occ : Bool} {ego : State} {kind : Kind}
    {before after : ℕ} {row col : ℤ} (h : meanFlow (displacements cfg agents times obs occ ego kind before after row col) ≠ (0, 0)) :
    ∃ a ∈ agents, a.type = kind.code ∧ Selected times obs occ a ∧ HitBy cfg ego times after row col a ∧
      ∃ s, (stack times a)[before]? = some s ∧ s.valid = true := by
  rcases hl : displacements cfg agents times obs occ ego kind before after row col with _ | ⟨d, l⟩
  · rw [hl] at h
    simp [meanFlow] at h
  · have hd : d ∈ displacements cfg agents times obs occ ego kind before after row col := by rw [hl]; simp
    obtain ⟨a, ha, hk, hsel, s', s, h1, h0, v1, v0, ⟨i, j⟩, hij, hcell, _⟩ := mem_displacements.1 hd
    rw [mem_samples] at hij
    refine ⟨a, ha, hk, hsel, ⟨s', h1, v1, _, samplePoint_sample hij.1 hij.2, ?_⟩, s, h0, v0⟩
    unfold cellOf at hcell
    rw [Prod.mk.injEq] at hcell
    exact ⟨hcell.1.symm, hcell.2.symm⟩

/-- C84: the flow lies between the extreme movements of the samples in the image, up to one cell for the rounding of both ends: if all
samples of valid agents that end up in the cell have moved by between `lo` and `hi` columns, the flow is in the range from `lo - 1` to
`hi + 1`. -/
theorem flow_bounds_x {cfg : Config} {agents : List Agent} {times : List Time} {obs occ : Bool} {ego : State} {kind : Kind}
    {before after : ℕ} {row col : ℤ} {lo hi : ℝ}
    (hne : displacements cfg agents times obs occ ego kind before after row col ≠ [])
    (h : ∀ a ∈ agents, ∀ s' s, (stack times a)[after]? = some s' → (stack times a)[before]? = some s → s'.valid = true → s.valid = true →
      ∀ i j, lo ≤ (pixel cfg ego (samplePoint cfg s i j)).1 - (pixel cfg ego (samplePoint cfg s' i j)).1 ∧
        (pixel cfg ego (samplePoint cfg s i j)).1 - (pixel cfg ego (samplePoint cfg s' i j)).1 ≤ hi) :
    lo - 1 ≤ (meanFlow (displacements cfg agents times obs occ ego kind before after row col)).1 ∧
      (meanFlow (displacements cfg agents times obs occ ego kind before after row col)).1 ≤ hi + 1 := by
  refine mean_bounds _ ?_ hne
  intro d hd
  obtain ⟨a, ha, _, _, s', s, h1, h0, v1, v0, ⟨i, j⟩, _, hcell, rfl⟩ := mem_displacements.1 hd
  obtain ⟨b1, b2⟩ := h a ha s' s h1 h0 v1 v0 i j
  have c1 := (cellOf_near cfg ego s' (i, j)).1
  have c0 := (cellOf_near cfg ego s (i, j)).1
  rw [hcell] at c1
  rw [abs_le] at c1 c0
  push_cast
  constructor <;> linarith [c1.1, c1.2, c0.1, c0.2]

theorem flow_bounds_y {cfg : Config} {agents : List Agent} {times : List Time} {obs occ : Bool} {ego : State} {kind : Kind}
    {before after : ℕ} {row col : ℤ} {lo hi : ℝ}
    (hne : displacements cfg agents times obs occ ego kind before after row col ≠ [])
    (h : ∀ a ∈ agents, ∀ s' s, (stack times a)[after]? = some s' → (stack times a)[before]? = some s → s'.valid = true → s.valid = true →
      ∀ i j, lo ≤ (pixel cfg ego (samplePoint cfg s i j)).2 - (pixel cfg ego (samplePoint cfg s' i j)).2 ∧
        (pixel cfg ego (samplePoint cfg s i j)).2 - (pixel cfg ego (samplePoint cfg s' i j)).2 ≤ hi) :
    lo - 1 ≤ (meanFlow (displacements cfg agents times obs occ ego kind before after row col)).2 ∧
      (meanFlow (displacements cfg agents times obs occ ego kind before after row col)).2 ≤ hi + 1 := by
  refine mean_bounds _ ?_ hne
  intro d hd
  obtain ⟨a, ha, _, _, s', s, h1, h0, v1, v0, ⟨i, j⟩, _, hcell, rfl⟩ := mem_displacements.1 hd
  obtain ⟨b1, b2⟩ := h a ha s' s h1 h0 v1 v0 i j
  have c1 := (cellOf_near cfg ego s' (i, j)).2
  have c0 := (cellOf_near cfg ego s (i, j)).2
  rw [hcell] at c1
  rw [abs_le] at c1 c0
  push_cast
  constructor <;> linarith [c1.1, c1.2, c0.1, c0.2]

/-- C84: agents that stand still have no flow. -/
theorem flow_still {cfg : Config} {agents : List Agent} {times : List Time} {obs occ : Bool} {ego : State} {kind : Kind}
    {before after : ℕ} {row col : ℤ}
    (h : ∀ a ∈ agents, ∀ s' s, (stack times a)[after]? = some s' → (stack times a)[before]? = some s → s'.valid = true → s.valid = true →
      s = s') : meanFlow (displacements cfg agents times obs occ ego kind before after row col) = (0, 0) := by
  by_cases hne : displacements cfg agents times obs occ ego kind before after row col = []
  · rw [hne]
    simp [meanFlow]
  · rw [meanFlow_const (d := (0, 0)) _ hne]
    · simp
    · intro d hd
      obtain ⟨a, ha, _, _, s', s, h1, h0, v1, v0, ij, _, hcell, rfl⟩ := mem_displacements.1 hd
      rw [h a ha s' s h1 h0 v1 v0, hcell]
      simp

theorem renderFlow_some {cfg : Config} {agents : List Agent} {times : List Time} {obs occ : Bool} {ego : State}
    (he : sdc agents = some ego) (hs : ∀ a ∈ agents, a.shaped cfg = true) (hd : times.Nodup) (hp : 0 < cfg.pointsLength)
    (hw : 0 < cfg.pointsWidth) (ho : obs = true ∨ occ = true) {size : ℕ} (hsz : waypointSize cfg = some size) (h0 : 0 < size)
    (hle : size ≤ numSteps cfg times) : ∃ g, renderFlow cfg agents times obs occ = some g := by
  obtain ⟨all, hall⟩ := sampleAll_some (times := times) he hs hd hp hw ho
  obtain ⟨_, _, _, _, _, _, hn⟩ := sampleAll_spec hall
  have hrange : ∀ kind, ∀ e ∈ flowHits cfg size all kind, Cell cfg e.1.1 e.1.2.1 ∧ e.1.2.2 < numSteps cfg times - size := by
    intro kind e hm
    unfold flowHits at hm
    rw [List.mem_flatMap] at hm
    obtain ⟨a, ha, hm⟩ := hm
    split at hm
    · rw [List.mem_flatMap] at hm
      obtain ⟨⟨⟨⟨b1, l1⟩, b2, l2⟩, i⟩, hx, hm⟩ := hm
      rw [List.mk_mem_zipIdx_iff_getElem?] at hx
      simp only at hm
      split at hm
      · rw [List.mem_map] at hm
        obtain ⟨q, hq, rfl⟩ := hm
        rw [List.mem_filter] at hq
        have hf := inFov_iff.1 hq.2
        refine ⟨⟨hf.2, hf.1⟩, ?_⟩
        have := (List.getElem?_eq_some_iff.1 hx).1
        rw [List.length_zip, List.length_drop, hn a ha] at this
        simp only
        omega
      · simp at hm
    · simp at hm
  have hkind : ∀ kind, ∃ g, renderFlowKind cfg size (numSteps cfg times - size) all kind = some g := by
    intro kind
    have hr : ∀ (f : ℤ × ℤ → ℝ), ∃ g, scatter ((flowHits cfg size all kind).map fun e => (e.1, f e.2)) cfg.height cfg.width
        (numSteps cfg times - size) = some g := by
      intro f
      apply scatter_ok
      intro e hm
      obtain ⟨e', hm', rfl⟩ := List.mem_map.1 hm
      exact hrange kind e' hm'
    obtain ⟨x, hx⟩ := hr fun d => (d.1 : ℝ)
    obtain ⟨y, hy⟩ := hr fun d => (d.2 : ℝ)
    obtain ⟨n, hn⟩ := hr fun _ => 1
    unfold renderFlowKind
    simp only [hx, hy, hn, Option.bind_eq_bind, Option.bind_some]
    exact ⟨_, rfl⟩
  obtain ⟨v, hv⟩ := hkind .vehicle
  obtain ⟨p, hp⟩ := hkind .pedestrian
  obtain ⟨c, hc⟩ := hkind .cyclist
  unfold renderFlow
  simp only [hall, hsz, Option.bind_eq_bind, Option.bind_some]
  rw [if_neg (by omega)]
  simp only [hv, hp, hc, Option.bind_some]
  exact ⟨_, rfl⟩

end Verif.Occupancy
