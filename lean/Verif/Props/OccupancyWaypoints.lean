import Verif.Props.OccupancyFlow

/-!
Way points of the occupancy and flow grids and agent trails: utils/occupancy_flow_grids.py.
-/

namespace Verif.Occupancy

open Verif.ListM
open Verif.Pca (clip)

/-! ### Steps -/

theorem stack_index {cfg : Config} {a : Agent} (h : a.shaped cfg = true) :
    (∀ t, t < cfg.numPast → (stack [.past, .current, .future] a)[t]? = (stack [.past] a)[t]?) ∧
    (stack [.past, .current, .future] a)[cfg.numPast]? = (stack [.current] a)[0]? ∧
    (∀ t, (stack [.past, .current, .future] a)[cfg.numPast + 1 + t]? = (stack [.future] a)[t]?) := by
  simp only [Agent.shaped, Bool.and_eq_true, beq_iff_eq] at h
  obtain ⟨⟨h1, h2⟩, h3⟩ := h
  simp only [stack, List.flatMap_cons, List.flatMap_nil, List.append_nil]
  refine ⟨?_, ?_, ?_⟩
  · intro t ht
    rw [List.getElem?_append_left (by omega)]
  · rw [List.getElem?_append_right (by omega), h1, Nat.sub_self, List.getElem?_append_left (by omega)]
  · intro t
    rw [List.getElem?_append_right (by omega), List.getElem?_append_right (by omega), h1, h2]
    congr 1
    omega

theorem mem_shaped {cfg : Config} {agents : List Agent} {times : List Time} {obs occ : Bool} {g : Kind → ℤ → ℤ → List ℝ}
    (h : renderOccupancy cfg agents times obs occ = some g) : ∀ a ∈ agents, a.shaped cfg = true := by
  unfold renderOccupancy at h
  simp only [Option.bind_eq_bind, Option.bind_eq_some_iff] at h
  obtain ⟨all, ha, _⟩ := h
  obtain ⟨_, _, _, _, _, hs, _⟩ := sampleAll_spec ha
  exact hs

theorem hitBy_congr {cfg : Config} {ego : State} {times times' : List Time} {t t' : ℕ} {row col : ℤ} {a : Agent}
    (h : (stack times a)[t]? = (stack times' a)[t']?) : HitBy cfg ego times t row col a ↔ HitBy cfg ego times' t' row col a := by
  unfold HitBy
  rw [h]

/-- A grid with all agents is the same at a step whichever other steps are rendered. -/
theorem render_step {cfg : Config} {agents : List Agent} {times times' : List Time} {g g' : Kind → ℤ → ℤ → List ℝ}
    (h : renderOccupancy cfg agents times true true = some g) (h' : renderOccupancy cfg agents times' true true = some g') {t t' : ℕ}
    (ht : t < numSteps cfg times) (ht' : t' < numSteps cfg times') (hst : ∀ a ∈ agents, (stack times a)[t]? = (stack times' a)[t']?)
    (kind : Kind) (row col : ℤ) : (g kind row col)[t]? = (g' kind row col)[t']? := by
  classical
  obtain ⟨ego, he, h1⟩ := renderOccupancy_spec h
  obtain ⟨ego', he', h2⟩ := renderOccupancy_spec h'
  rw [he] at he'
  obtain rfl := Option.some.inj he'
  rw [(h1 kind row col).2 t ht, (h2 kind row col).2 t' ht']
  congr 1
  refine if_congr ?_ rfl rfl
  constructor
  · rintro ⟨hc, a, ha, hk, _, hh⟩
    exact ⟨hc, a, ha, hk, Or.inr (Or.inl ⟨rfl, rfl⟩), (hitBy_congr (hst a ha)).1 hh⟩
  · rintro ⟨hc, a, ha, hk, _, hh⟩
    exact ⟨hc, a, ha, hk, Or.inr (Or.inl ⟨rfl, rfl⟩), (hitBy_congr (hst a ha)).2 hh⟩

theorem timestepGrids_some {cfg : Config} {agents : List Agent} {g : Steps} (h : timestepGrids cfg agents = some g) :
    renderOccupancy cfg agents [.current] true true = some g.current ∧ renderOccupancy cfg agents [.past] true true = some g.past ∧
    renderOccupancy cfg agents [.future] true false = some g.futureObserved ∧
    renderOccupancy cfg agents [.future] false true = some g.futureOccluded ∧
    renderOccupancy cfg agents [.past, .current, .future] true true = some g.allOccupancy ∧
    renderFlow cfg agents [.past, .current, .future] true true = some g.allFlow := by
  unfold timestepGrids at h
  simp only [Option.bind_eq_bind, Option.bind_eq_some_iff] at h
  obtain ⟨a, ha, b, hb, c, hc, d, hd, e, he, f, hf, h⟩ := h
  obtain rfl := Option.some.inj h
  exact ⟨ha, hb, hc, hd, he, hf⟩

/-- The steps of all times: the past, the current step, and the future, which is the maximum of the observed and the occluded agents. -/
theorem timestepGrids_spec {cfg : Config} {agents : List Agent} {g : Steps} (h : timestepGrids cfg agents = some g) (kind : Kind)
    (row col : ℤ) : g.allOccupancy kind row col = g.past kind row col ++ g.current kind row col ++
      List.zipWith max (g.futureObserved kind row col) (g.futureOccluded kind row col) := by
  obtain ⟨hcur, hpast, hobs, hocc, hall, _⟩ := timestepGrids_some h
  have hshape := mem_shaped hcur
  obtain ⟨ego, he, _⟩ := renderOccupancy_spec hcur
  obtain ⟨gf, hf⟩ : ∃ gf, renderOccupancy cfg agents [.future] true true = some gf := by
    have hall' := hall
    unfold renderOccupancy at hall'
    simp only [Option.bind_eq_bind, Option.bind_eq_some_iff] at hall'
    obtain ⟨all, ha, _⟩ := hall'
    obtain ⟨_, units, _, hu, _⟩ := sampleAll_spec ha
    unfold unitPoints at hu
    split at hu
    · simp at hu
    · exact renderOccupancy_some he hshape (by simp) (by omega) (by omega) (Or.inl rfl)
  rw [← observed_max_occluded (by simp) hf hobs hocc kind row col]
  obtain ⟨_, _, l1⟩ := renderOccupancy_spec hall
  obtain ⟨_, _, l2⟩ := renderOccupancy_spec hpast
  obtain ⟨_, _, l3⟩ := renderOccupancy_spec hcur
  obtain ⟨_, _, l4⟩ := renderOccupancy_spec hf
  have n1 := (l1 kind row col).1
  have n2 := (l2 kind row col).1
  have n3 := (l3 kind row col).1
  have n4 := (l4 kind row col).1
  simp [numSteps] at n1 n2 n3 n4
  apply List.ext_getElem?
  intro t
  by_cases hp : t < cfg.numPast
  · rw [List.append_assoc, List.getElem?_append_left (by omega)]
    exact render_step hall hpast (by simp [numSteps]; omega) (by simp [numSteps]; omega) (fun a ha => (stack_index (hshape a ha)).1 t hp) _ _ _
  · by_cases hc : t = cfg.numPast
    · subst hc
      rw [List.append_assoc, List.getElem?_append_right (by omega), n2, Nat.sub_self, List.getElem?_append_left (by omega)]
      exact render_step hall hcur (by simp [numSteps]; omega) (by simp [numSteps]) (fun a ha => (stack_index (hshape a ha)).2.1) _ _ _
    · rw [List.getElem?_append_right (by simp; omega)]
      obtain ⟨j, rfl⟩ : ∃ j, t = cfg.numPast + 1 + j := ⟨t - (cfg.numPast + 1), by omega⟩
      rw [List.length_append, n2, n3, Nat.add_sub_cancel_left]
      by_cases hj : j < cfg.numFuture
      · exact render_step hall hf (by simp [numSteps]; omega) (by simp [numSteps]; omega) (fun a ha => (stack_index (hshape a ha)).2.2 j) _ _ _
      · rw [List.getElem?_eq_none (by omega), List.getElem?_eq_none (by omega)]

/-! ### Way points -/

theorem slice_head {β : Type} (l : List β) (a : ℕ) : (slice l a (a + 1)).head? = l[a]? := by
  unfold slice
  rw [List.head?_drop, List.getElem?_take, if_pos (by omega)]

theorem greatest_spec {l : List ℝ} {m : ℝ} (h : greatest l = some m) : m ∈ l ∧ ∀ x ∈ l, x ≤ m := by
  cases l with
  | nil => simp [greatest] at h
  | cons a l =>
    simp only [greatest, Option.some.injEq] at h
    subst h
    obtain ⟨h1, h2, h3⟩ := Verif.Pca.foldl_max_ge l a
    constructor
    · rcases h3 with h | h
      · rw [h]
        simp
      · exact List.mem_cons_of_mem _ h
    · intro x hx
      rcases List.mem_cons.1 hx with rfl | hx
      · exact h1
      · exact h2 x hx

theorem mem_slice {β : Type} {l : List β} {a b : ℕ} {x : β} : x ∈ slice l a b ↔ ∃ i, a ≤ i ∧ i < b ∧ l[i]? = some x := by
  unfold slice
  rw [List.mem_iff_getElem?]
  constructor
  · rintro ⟨i, hi⟩
    rw [List.getElem?_drop, List.getElem?_take] at hi
    split at hi
    · exact ⟨a + i, by omega, by omega, hi⟩
    · simp at hi
  · rintro ⟨i, h1, h2, hi⟩
    refine ⟨i - a, ?_⟩
    rw [List.getElem?_drop, List.getElem?_take, if_pos (by omega)]
    rw [← hi]
    congr 1
    omega

/-- What a way point says about the steps it stands for: of the steps `k*size` to `(k+1)*size - 1` (counted from 0) the last one, or the
greatest value. -/
def AtWaypoint (cumulative : Bool) (size k : ℕ) (l : List ℝ) (v : ℝ) : Prop :=
  if cumulative then (∃ i, k * size ≤ i ∧ i < (k + 1) * size ∧ l[i]? = some v) ∧
    ∀ i x, k * size ≤ i → i < (k + 1) * size → l[i]? = some x → x ≤ v
  else ∃ i, i + 1 = (k + 1) * size ∧ l[i]? = some v

theorem occupancyAt_spec {cumulative : Bool} {size k : ℕ} (hs : 0 < size) {l : List ℝ} (hl : (k + 1) * size ≤ l.length) :
    ∃ v, occupancyAt cumulative size k l = some v ∧ AtWaypoint cumulative size k l v := by
  have e : (k + 1) * size = k * size + size := Nat.succ_mul k size
  unfold occupancyAt AtWaypoint
  cases cumulative
  · simp only [Bool.false_eq_true, if_false]
    obtain ⟨i, hi⟩ : ∃ i, (k + 1) * size = i + 1 := ⟨(k + 1) * size - 1, by omega⟩
    rw [hi, Nat.add_sub_cancel, slice_head]
    rw [hi] at hl
    exact ⟨_, List.getElem?_eq_getElem (by omega), i, rfl, List.getElem?_eq_getElem (by omega)⟩
  · simp only [if_true]
    have e2 : (k + 1) * size - size = k * size := by omega
    rw [e2]
    have hne : slice l (k * size) ((k + 1) * size) ≠ [] := by
      apply List.ne_nil_of_mem (a := l[k * size]'(by omega))
      exact mem_slice.2 ⟨k * size, le_refl _, by omega, List.getElem?_eq_getElem (by omega)⟩
    obtain ⟨m, hm⟩ : ∃ m, greatest (slice l (k * size) ((k + 1) * size)) = some m := by
      cases hc : slice l (k * size) ((k + 1) * size) with
      | nil => exact absurd hc hne
      | cons a l => exact ⟨_, rfl⟩
    obtain ⟨h1, h2⟩ := greatest_spec hm
    exact ⟨m, hm, mem_slice.1 h1, fun i x h3 h4 h5 => h2 x (mem_slice.2 ⟨i, h3, h4, h5⟩)⟩

theorem getElem?_tail_init {β : Type} {l : List β} {p f size i : ℕ} (hl : l.length = p + 1 + f) (h1 : size ≤ p + 1) (hs : 0 < size)
    (hi : i < f) : (tailPy (initPy l size) f)[i]? = l[p + 1 - size + i]? := by
  unfold tailPy initPy
  rw [if_neg (by omega), if_neg (by omega), List.getElem?_drop, List.getElem?_take, List.length_take, hl, if_pos (by omega)]
  congr 1
  omega

theorem length_tail_init {β : Type} {l : List β} {p f size : ℕ} (hl : l.length = p + 1 + f) (h1 : size ≤ p + 1) (hs : 0 < size)
    (hf : 0 < f) : (tailPy (initPy l size) f).length = f := by
  unfold tailPy initPy
  rw [if_neg (by omega), if_neg (by omega), List.length_drop, List.length_take, hl]
  omega

/-- The creation of way points fails exactly when there are none, the steps cannot be divided among them, or a way point is longer than the
history. -/
theorem waypointGrids_none (cfg : Config) (g : Steps) : waypointGrids cfg g = none ↔
    cfg.numWaypoints = 0 ∨ ¬cfg.numWaypoints ∣ cfg.numFuture ∨ cfg.numPast + 1 < cfg.numFuture / cfg.numWaypoints := by
  unfold waypointGrids waypointSize
  by_cases h0 : cfg.numWaypoints = 0
  · simp [h0]
  · rw [if_neg h0]
    simp only [Option.bind_eq_bind, Option.bind_some, h0, false_or]
    by_cases h1 : cfg.numFuture % cfg.numWaypoints = 0
    · have hd := Nat.dvd_of_mod_eq_zero h1
      by_cases h2 : cfg.numFuture / cfg.numWaypoints > cfg.numPast + 1
      · simp [h1, h2]
      · simp only [ne_eq, h1, not_true_eq_false, if_false, h2, hd, false_or]
        constructor
        · intro h
          cases h
        · intro h
          exact absurd (by simpa using h) h2
    · have hd : ¬cfg.numWaypoints ∣ cfg.numFuture := fun h => h1 (Nat.mod_eq_zero_of_dvd h)
      simp [h1, hd]

/-- C85: the way points of a scenario: their number, and at each of them which steps it shows. -/
theorem waypointGrids_spec {cfg : Config} {agents : List Agent} {g : Steps} {l : List Waypoint} (h : timestepGrids cfg agents = some g)
    (hw : waypointGrids cfg g = some l) :
    l.length = cfg.numWaypoints ∧ ∃ size, 0 < size ∧ cfg.numWaypoints * size = cfg.numFuture ∧ ∀ k w, l[k]? = some w →
      ∀ kind row col, (∃ v, w.observed kind row col = some v ∧ AtWaypoint cfg.cumulative size k (g.futureObserved kind row col) v) ∧
        (∃ v, w.occluded kind row col = some v ∧ AtWaypoint cfg.cumulative size k (g.futureOccluded kind row col) v) ∧
        ∃ v, w.flowOrigin kind row col = some v ∧
          AtWaypoint cfg.cumulative size k ((g.allOccupancy kind row col).drop (cfg.numPast + 1 - size)) v := by
  obtain ⟨hcur, hpast, hobs, hocc, hall, hflow⟩ := timestepGrids_some h
  obtain ⟨_, size', _, hs', hpos, _⟩ := renderFlow_spec hflow
  unfold waypointGrids at hw
  rw [Option.bind_eq_bind, Option.bind_eq_some_iff] at hw
  obtain ⟨size, hs, hw⟩ := hw
  rw [hs'] at hs
  obtain rfl := Option.some.inj hs
  split at hw
  · simp at hw
  rename_i hmod
  push Not at hmod
  split at hw
  · simp at hw
  rename_i hle
  push Not at hle
  obtain rfl := Option.some.inj hw
  have hW : cfg.numWaypoints ≠ 0 := by
    intro h0
    simp [waypointSize, h0] at hs'
  unfold waypointSize at hs'
  rw [if_neg hW] at hs'
  have hsz := Option.some.inj hs'
  have hmul : cfg.numWaypoints * size' = cfg.numFuture := by
    rw [← hsz]
    exact Nat.mul_div_cancel' (Nat.dvd_of_mod_eq_zero hmod)
  refine ⟨by simp, size', hpos, hmul, ?_⟩
  intro k w hk kind row col
  rw [List.getElem?_map, Option.map_eq_some_iff] at hk
  obtain ⟨k', hk', rfl⟩ := hk
  rw [List.getElem?_eq_some_iff] at hk'
  obtain ⟨hlt, rfl⟩ := hk'
  rw [List.length_range] at hlt
  rw [List.getElem_range]
  have hkf : (k + 1) * size' ≤ cfg.numFuture := by
    rw [← hmul]
    exact Nat.mul_le_mul_right _ hlt
  have hkp : (k + 1) * size' = k * size' + size' := Nat.succ_mul k size'
  obtain ⟨_, _, l1⟩ := renderOccupancy_spec hobs
  obtain ⟨_, _, l2⟩ := renderOccupancy_spec hocc
  obtain ⟨_, _, l3⟩ := renderOccupancy_spec hall
  have n1 := (l1 kind row col).1
  have n2 := (l2 kind row col).1
  have n3 := (l3 kind row col).1
  simp [numSteps] at n1 n2 n3
  refine ⟨occupancyAt_spec hpos (by omega), occupancyAt_spec hpos (by omega), ?_⟩
  obtain ⟨v, hv, hat⟩ := occupancyAt_spec (cumulative := cfg.cumulative) (k := k) hpos
    (l := tailPy (initPy (g.allOccupancy kind row col) size') cfg.numFuture) (by rw [length_tail_init n3 (by omega) hpos (by omega)]; omega)
  refine ⟨v, hv, ?_⟩
  unfold AtWaypoint at hat ⊢
  have hget : ∀ i, i < (k + 1) * size' → (tailPy (initPy (g.allOccupancy kind row col) size') cfg.numFuture)[i]? =
      ((g.allOccupancy kind row col).drop (cfg.numPast + 1 - size'))[i]? := by
    intro i hi
    rw [getElem?_tail_init n3 (by omega) hpos (by omega), List.getElem?_drop]
  cases hcum : cfg.cumulative
  · rw [hcum] at hat
    simp only [Bool.false_eq_true, if_false] at hat ⊢
    obtain ⟨i, h1, h2⟩ := hat
    exact ⟨i, h1, by rw [← hget i (by omega)]; exact h2⟩
  · rw [hcum] at hat
    simp only [if_true] at hat ⊢
    obtain ⟨⟨i, h1, h2, h3⟩, h4⟩ := hat
    exact ⟨⟨i, h1, h2, by rw [← hget i h2]; exact h3⟩, fun i x h5 h6 h7 => h4 i x h5 h6 (by rw [hget i h6]; exact h7)⟩

/-- C85: without accumulation, the flow at a way point is the flow from it back to the way point before (the current step for the first
one): the mean of the displacements between step `numPast + (k+1)*size` and step `numPast + k*size` of all the steps. -/
theorem waypointGrids_flow {cfg : Config} {agents : List Agent} {g : Steps} {l : List Waypoint} (h : timestepGrids cfg agents = some g)
    (hw : waypointGrids cfg g = some l) (hcum : cfg.cumulative = false) :
    ∃ ego size, sdc agents = some ego ∧ 0 < size ∧ cfg.numWaypoints * size = cfg.numFuture ∧ ∀ k w, l[k]? = some w →
      ∀ kind row col, Cell cfg row col → w.flow kind row col =
        some (meanFlow (displacements cfg agents [.past, .current, .future] true true ego kind (cfg.numPast + k * size)
          (cfg.numPast + (k + 1) * size) row col)) := by
  obtain ⟨hcur, hpast, hobs, hocc, hall, hflow⟩ := timestepGrids_some h
  obtain ⟨ego, size', he, hs', hpos, hle', hspec⟩ := renderFlow_spec hflow
  unfold waypointGrids at hw
  rw [Option.bind_eq_bind, Option.bind_eq_some_iff] at hw
  obtain ⟨size, hs, hw⟩ := hw
  rw [hs'] at hs
  obtain rfl := Option.some.inj hs
  split at hw
  · simp at hw
  rename_i hmod
  push Not at hmod
  split at hw
  · simp at hw
  rename_i hle
  push Not at hle
  obtain rfl := Option.some.inj hw
  have hW : cfg.numWaypoints ≠ 0 := by
    intro h0
    simp [waypointSize, h0] at hs'
  unfold waypointSize at hs'
  rw [if_neg hW] at hs'
  have hsz := Option.some.inj hs'
  have hmul : cfg.numWaypoints * size' = cfg.numFuture := by
    rw [← hsz]
    exact Nat.mul_div_cancel' (Nat.dvd_of_mod_eq_zero hmod)
  refine ⟨ego, size', he, hpos, hmul, ?_⟩
  intro k w hk kind row col hcell
  rw [List.getElem?_map, Option.map_eq_some_iff] at hk
  obtain ⟨k', hk', rfl⟩ := hk
  rw [List.getElem?_eq_some_iff] at hk'
  obtain ⟨hlt, rfl⟩ := hk'
  rw [List.length_range] at hlt
  rw [List.getElem_range]
  have hkf : (k + 1) * size' ≤ cfg.numFuture := by
    rw [← hmul]
    exact Nat.mul_le_mul_right _ hlt
  have hkp : (k + 1) * size' = k * size' + size' := Nat.succ_mul k size'
  obtain ⟨hlen, hval⟩ := hspec kind row col hcell
  have hn : numSteps cfg [.past, .current, .future] = cfg.numPast + 1 + cfg.numFuture := by simp [numSteps]
  rw [hn] at hlen hval
  simp only [flowAt, hcum, Bool.false_eq_true, if_false]
  unfold tailPy
  rw [if_neg (by omega), List.getElem?_drop, hlen]
  have e : cfg.numPast + 1 + cfg.numFuture - size' - cfg.numFuture + ((k + 1) * size' - 1) = cfg.numPast + k * size' := by omega
  rw [e, hval _ (by omega)]
  congr 3
  omega

/-- C85: the origin of the flow of a way point is what the way point before shows, observed or occluded; the first one starts from the
current step. -/
theorem waypointGrids_origin {cfg : Config} {agents : List Agent} {g : Steps} {l : List Waypoint} (h : timestepGrids cfg agents = some g)
    (hw : waypointGrids cfg g = some l) (hcum : cfg.cumulative = false) (kind : Kind) (row col : ℤ) :
    (∀ w, l[0]? = some w → w.flowOrigin kind row col = (g.current kind row col)[0]?) ∧
    ∀ k w w', l[k]? = some w → l[k + 1]? = some w' → ∃ a b, w.observed kind row col = some a ∧ w.occluded kind row col = some b ∧
      w'.flowOrigin kind row col = some (max a b) := by
  obtain ⟨hlen, size, hpos, hmul, hspec⟩ := waypointGrids_spec h hw
  have hall := timestepGrids_spec h kind row col
  obtain ⟨hcur, hpast, hobs, hocc, hallr, hflow⟩ := timestepGrids_some h
  obtain ⟨_, _, l1⟩ := renderOccupancy_spec hobs
  obtain ⟨_, _, l2⟩ := renderOccupancy_spec hocc
  obtain ⟨_, _, l3⟩ := renderOccupancy_spec hcur
  obtain ⟨_, _, l4⟩ := renderOccupancy_spec hpast
  have n1 := (l1 kind row col).1
  have n2 := (l2 kind row col).1
  have n3 := (l3 kind row col).1
  have n4 := (l4 kind row col).1
  simp [numSteps] at n1 n2 n3 n4
  have hsz : size ≤ cfg.numPast + 1 := by
    by_contra hc
    push Not at hc
    have hW : cfg.numWaypoints ≠ 0 := by
      intro h0
      rw [(waypointGrids_none cfg g).2 (Or.inl h0)] at hw
      simp at hw
    rw [(waypointGrids_none cfg g).2 (Or.inr (Or.inr (by
      rw [← hmul, Nat.mul_div_cancel_left _ (Nat.pos_of_ne_zero hW)]
      exact hc)))] at hw
    simp at hw
  constructor
  · intro w hk
    obtain ⟨_, _, v, hv, hat⟩ := hspec 0 w hk kind row col
    rw [hcum] at hat
    simp only [AtWaypoint, Bool.false_eq_true, if_false] at hat
    obtain ⟨i, hi, hat⟩ := hat
    rw [List.getElem?_drop, hall, List.append_assoc, List.getElem?_append_right (by omega), List.getElem?_append_left (by omega)] at hat
    rw [hv, ← hat]
    congr 1
    omega
  · intro k w w' hk hk'
    obtain ⟨⟨a, ha, hat1⟩, ⟨b, hb, hat2⟩, _⟩ := hspec k w hk kind row col
    obtain ⟨_, _, v, hv, hat⟩ := hspec (k + 1) w' hk' kind row col
    rw [hcum] at hat hat1 hat2
    simp only [AtWaypoint, Bool.false_eq_true, if_false] at hat hat1 hat2
    obtain ⟨i, hi, hat⟩ := hat
    obtain ⟨i1, hi1, hat1⟩ := hat1
    obtain ⟨i2, hi2, hat2⟩ := hat2
    obtain rfl : i1 = i2 := by omega
    have e1 : (k + 1 + 1) * size = (k + 1) * size + size := Nat.succ_mul _ _
    refine ⟨a, b, ha, hb, ?_⟩
    rw [hv, ← hat, List.getElem?_drop, hall, List.getElem?_append_right (by simp; omega), List.length_append, n4, n3]
    have e2 : cfg.numPast + 1 - size + i - (cfg.numPast + 1) = i1 := by omega
    rw [e2, List.getElem?_zipWith, hat1, hat2]

/-! ### Accumulated flow -/

theorem sum_filter_ne (l : List ℝ) : (l.filter fun x => x ≠ 0).sum = l.sum := by
  induction l with
  | nil => rfl
  | cons a l ih =>
    by_cases h : a = 0
    · simp [h] at ih ⊢
      exact ih
    · simp [h] at ih ⊢
      exact ih

/-- The accumulated flow is, for each direction alone, the mean of the values of the segment that are not zero. -/
theorem flowAt_cumulative (size k : ℕ) (l : List (ℝ × ℝ)) :
    flowAt true size k l = some
      (mean (((slice l ((k + 1) * size - size) ((k + 1) * size)).map Prod.fst).filter fun x => x ≠ 0),
        mean (((slice l ((k + 1) * size - size) ((k + 1) * size)).map Prod.snd).filter fun x => x ≠ 0)) := by
  simp only [flowAt, if_true, divNoNan, mean, sum_filter_ne]
  rw [List.filter_map, List.filter_map, List.length_map, List.length_map]
  rfl

/-- C85: the accumulated flow is the mean of the flow vectors of the segment when no vector has just one component that is zero. -/
theorem flowAt_mean_partial (size k : ℕ) (l : List (ℝ × ℝ))
    (h : ∀ f ∈ slice l ((k + 1) * size - size) ((k + 1) * size), f.1 = 0 ↔ f.2 = 0) :
    ∃ seg, seg = (slice l ((k + 1) * size - size) ((k + 1) * size)).filter (fun f => f ≠ (0, 0)) ∧
      flowAt true size k l = some (mean (seg.map Prod.fst), mean (seg.map Prod.snd)) := by
  refine ⟨_, rfl, ?_⟩
  rw [flowAt_cumulative, List.filter_map, List.filter_map]
  have h1 : ∀ f ∈ slice l ((k + 1) * size - size) ((k + 1) * size), (((fun x : ℝ => decide (x ≠ 0)) ∘ Prod.fst) f) = decide (f ≠ (0, 0)) := by
    rintro ⟨x, y⟩ hf
    have := h _ hf
    simp only [Function.comp, decide_eq_decide, ne_eq, Prod.mk.injEq] at this ⊢
    tauto
  have h2 : ∀ f ∈ slice l ((k + 1) * size - size) ((k + 1) * size), (((fun x : ℝ => decide (x ≠ 0)) ∘ Prod.snd) f) = decide (f ≠ (0, 0)) := by
    rintro ⟨x, y⟩ hf
    have := h _ hf
    simp only [Function.comp, decide_eq_decide, ne_eq, Prod.mk.injEq] at this ⊢
    tauto
  rw [List.filter_congr h1, List.filter_congr h2]

/-- C85: in general it is not: of the flows (1, 1) and (0, 1) the mean is (1/2, 1), the accumulated flow is (1, 1). -/
theorem flowAt_mean_violated : flowAt true 2 0 [((1 : ℝ), 1), (0, 1)] = some (1, 1) ∧
    (mean ([((1 : ℝ), (1 : ℝ)), (0, 1)].map Prod.fst), mean ([((1 : ℝ), (1 : ℝ)), (0, 1)].map Prod.snd)) = ((1 / 2 : ℝ), (1 : ℝ)) := by
  constructor
  · simp [flowAt, slice, divNoNan]
  · simp [mean]

/-! ### A scene -/

theorem timestepGrids_ok {cfg : Config} {agents : List Agent} {ego : State} (he : sdc agents = some ego)
    (hs : ∀ a ∈ agents, a.shaped cfg = true) (hp : 0 < cfg.pointsLength) (hw : 0 < cfg.pointsWidth) {size : ℕ}
    (hsz : waypointSize cfg = some size) (h0 : 0 < size) (hle : size ≤ cfg.numPast + 1 + cfg.numFuture) :
    ∃ g, timestepGrids cfg agents = some g := by
  obtain ⟨a, ha⟩ := renderOccupancy_some (times := [.current]) (obs := true) (occ := true) he hs (by simp) hp hw (Or.inl rfl)
  obtain ⟨b, hb⟩ := renderOccupancy_some (times := [.past]) (obs := true) (occ := true) he hs (by simp) hp hw (Or.inl rfl)
  obtain ⟨c, hc⟩ := renderOccupancy_some (times := [.future]) (obs := true) (occ := false) he hs (by simp) hp hw (Or.inl rfl)
  obtain ⟨d, hd⟩ := renderOccupancy_some (times := [.future]) (obs := false) (occ := true) he hs (by simp) hp hw (Or.inr rfl)
  obtain ⟨e, he'⟩ := renderOccupancy_some (times := [.past, .current, .future]) (obs := true) (occ := true) he hs (by simp) hp hw (Or.inl rfl)
  obtain ⟨f, hf⟩ := renderFlow_some (times := [.past, .current, .future]) (obs := true) (occ := true) he hs (by simp) hp hw (Or.inl rfl)
    hsz h0 (by simpa [numSteps] using hle)
  refine ⟨⟨a, b, c, d, e, f⟩, ?_⟩
  unfold timestepGrids
  simp only [ha, hb, hc, hd, he', hf, Option.bind_eq_bind, Option.bind_some]
  rfl

/-- A car that drives one cell ahead in the only step of the future, with a parked autonomous vehicle of another type behind. -/
noncomputable def driving : List Agent :=
  [still 0 1 unit true true true 1 1, ⟨1, 0, fun t => match t with | .past => [unit] | .current => [unit] | .future => [{ unit with x := 1 }]⟩]

theorem cell_unit (x : ℤ) : cellOf tiny unit { unit with x := (x : ℝ) } (0, 0) = (1, 1 - x) := by
  have h0 := Verif.Pca.roundEven_intCast (K := ℝ) 0
  have hx := Verif.Pca.roundEven_intCast (K := ℝ) (-x)
  simp only [Int.cast_zero, Int.cast_neg] at h0 hx
  simp [cellOf, samplePoint, pixel, tiny, unit, frac, h0, hx]
  ring

/-- The way points of a small scene: the car shows up one row higher, and its flow points one row back. -/
theorem waypointGrids_example : ∃ g l w, timestepGrids tiny driving = some g ∧ waypointGrids tiny g = some l ∧ l[0]? = some w ∧
    w.flow .vehicle 0 1 = some (0, 1) := by
  have he : sdc driving = some unit := rfl
  have hs : ∀ a ∈ driving, a.shaped tiny = true := by
    intro a ha
    simp only [driving, List.mem_cons, List.not_mem_nil, or_false] at ha
    rcases ha with rfl | rfl
    · exact shaped_still tiny 0 1 unit true true true
    · rfl
  obtain ⟨g, hg⟩ := timestepGrids_ok he hs (by simp [tiny]) (by simp [tiny]) (size := 1) (by simp [waypointSize, tiny]) one_pos (by simp [tiny])
  have hne : waypointGrids tiny g ≠ none := by
    rw [ne_eq, waypointGrids_none]
    simp [tiny]
  obtain ⟨l, hl⟩ := Option.ne_none_iff_exists'.1 hne
  obtain ⟨hlen, _⟩ := waypointGrids_spec hg hl
  obtain ⟨w, hw⟩ : ∃ w, l[0]? = some w := ⟨_, List.getElem?_eq_getElem (by rw [hlen]; simp [tiny])⟩
  refine ⟨g, l, w, hg, hl, hw, ?_⟩
  obtain ⟨ego, size, he', hpos, hmul, hspec⟩ := waypointGrids_flow hg hl rfl
  rw [he] at he'
  obtain rfl := Option.some.inj he'
  have : size = 1 := by simpa [tiny] using hmul
  subst this
  rw [hspec 0 w hw .vehicle 0 1 (by simp [Cell, tiny])]
  have hsamples : samples tiny = [(0, 0)] := rfl
  have h1 := cell_unit 1
  have h0 := cell_unit 0
  simp only [Int.cast_one, Int.cast_zero] at h1 h0
  have hd : displacements tiny driving [.past, .current, .future] true true unit .vehicle (tiny.numPast + 0 * 1) (tiny.numPast + (0 + 1) * 1) 0 1 =
      [(0, 1)] := by
    have hsel : ∀ a, Selected [.past, .current, .future] true true a := fun a => Or.inr (Or.inl ⟨rfl, rfl⟩)
    have hu : ({ unit with x := 0 } : State) = unit := rfl
    rw [hu] at h0
    unfold displacements
    rw [hsamples]
    simp [driving, still, Kind.code, hsel, stack, tiny] at h0 h1 ⊢
    simp [h1, h0, unit] at *
  rw [hd]
  simp [meanFlow]

/-! ### Trails -/

theorem clip_range (x : ℝ) : 0 ≤ clip 0 1 x ∧ clip 0 1 x ≤ 1 := by
  unfold clip
  exact ⟨le_max_right _ _, max_le (min_le_right _ _) zero_le_one⟩

theorem clip_eq_zero {x : ℝ} : clip 0 1 x = 0 ↔ x ≤ 0 := by
  unfold clip
  constructor
  · intro h
    by_contra hc
    push Not at hc
    have : 0 < max (min x 1) 0 := lt_max_of_lt_left (lt_min hc one_pos)
    linarith
  · intro h
    rw [min_eq_left (by linarith), max_eq_right h]

theorem clip_eq_one {x : ℝ} (h : 1 ≤ x) : clip 0 1 x = 1 := by
  unfold clip
  rw [min_eq_right h, max_eq_left zero_le_one]

theorem clip_mono {x y : ℝ} (h : x ≤ y) : clip 0 1 x ≤ clip 0 1 y := max_le_max (min_le_min h le_rfl) le_rfl

theorem trail_range {gamma : ℝ} (l : List ℝ) {t : ℝ} (h : 0 ≤ t ∧ t ≤ 1) :
    0 ≤ l.foldl (trailStep gamma) t ∧ l.foldl (trailStep gamma) t ≤ 1 := by
  induction l generalizing t with
  | nil => exact h
  | cons a l ih => exact ih (clip_range _)

theorem trail_zero {gamma : ℝ} (hg : 0 < gamma) {l : List ℝ} (hl : ∀ x ∈ l, 0 ≤ x) {t : ℝ} (ht : 0 ≤ t) :
    l.foldl (trailStep gamma) t = 0 ↔ t = 0 ∧ ∀ x ∈ l, x = 0 := by
  induction l generalizing t with
  | nil => simp
  | cons a l ih =>
    have ha := hl a (by simp)
    have h0 : 0 ≤ trailStep gamma t a := (clip_range _).1
    rw [List.foldl_cons, ih (fun x hx => hl x (by simp [hx])) h0]
    have e : trailStep gamma t a = 0 ↔ t * gamma + a ≤ 0 := clip_eq_zero
    rw [e]
    have : t * gamma + a ≤ 0 ↔ t = 0 ∧ a = 0 := by
      constructor
      · intro h
        have h1 : 0 ≤ t * gamma := by positivity
        have h2 : t * gamma = 0 := by linarith
        rcases mul_eq_zero.1 h2 with h3 | h3
        · exact ⟨h3, by linarith⟩
        · exact absurd h3 hg.ne'
      · rintro ⟨rfl, rfl⟩
        simp
    rw [this]
    simp only [List.mem_cons, forall_eq_or_imp]
    tauto

/-- C85: the trail of the agents is in the range from 0 to 1, 1 where an agent is now, and 0 exactly where none is or has been. -/
theorem agentTrail_spec {gamma : ℝ} (hg : 0 < gamma) {past : List ℝ} {current : ℝ} (hp : ∀ x ∈ past, 0 ≤ x) (hc : 0 ≤ current) :
    (0 ≤ agentTrail gamma past current ∧ agentTrail gamma past current ≤ 1) ∧ (1 ≤ current → agentTrail gamma past current = 1) ∧
      (agentTrail gamma past current = 0 ↔ current = 0 ∧ ∀ x ∈ past, x = 0) := by
  have h1 := trail_range (gamma := gamma) past (t := 0) ⟨le_rfl, zero_le_one⟩
  have h2 : 0 ≤ past.foldl (trailStep gamma) 0 * gamma * gamma := mul_nonneg (mul_nonneg h1.1 hg.le) hg.le
  refine ⟨clip_range _, fun h => clip_eq_one (by linarith), ?_⟩
  unfold agentTrail
  rw [clip_eq_zero]
  constructor
  · intro h
    have h3 : past.foldl (trailStep gamma) 0 * gamma * gamma = 0 := by linarith
    have h4 : past.foldl (trailStep gamma) 0 = 0 := by
      rcases mul_eq_zero.1 h3 with h5 | h5
      · rcases mul_eq_zero.1 h5 with h6 | h6
        · exact h6
        · exact absurd h6 hg.ne'
      · exact absurd h5 hg.ne'
    exact ⟨by linarith, ((trail_zero hg hp le_rfl).1 h4).2⟩
  · rintro ⟨rfl, h⟩
    rw [(trail_zero hg hp le_rfl).2 ⟨rfl, h⟩]
    simp

/-- A trail of the past that was full fades: after `n` empty steps it has the value `gamma ^ (n + 2)`. -/
theorem agentTrail_fades {gamma : ℝ} (hg : 0 < gamma) (h1 : gamma ≤ 1) (n : ℕ) (before : List ℝ) (a : ℝ) (ha : 1 ≤ a)
    (hb : ∀ x ∈ before, 0 ≤ x) : agentTrail gamma (before ++ a :: List.replicate n 0) 0 = gamma ^ (n + 2) := by
  have hn : ∀ (n : ℕ) (t : ℝ), 0 ≤ t → t ≤ 1 → (List.replicate n (0 : ℝ)).foldl (trailStep gamma) t = t * gamma ^ n := by
    intro n
    induction n with
    | zero => intro t _ _; simp
    | succ n ih =>
      intro t h0 ht
      rw [List.replicate_succ, List.foldl_cons]
      have e : trailStep gamma t 0 = t * gamma := by
        unfold trailStep clip
        rw [add_zero, min_eq_left (by nlinarith), max_eq_left (by positivity)]
      rw [e, ih _ (by positivity) (by nlinarith), pow_succ]
      ring
  unfold agentTrail
  rw [List.foldl_append, List.foldl_cons]
  have hr := trail_range (gamma := gamma) before (t := 0) ⟨le_rfl, zero_le_one⟩
  have e : trailStep gamma (before.foldl (trailStep gamma) 0) a = 1 := by
    refine clip_eq_one ?_
    have : 0 ≤ before.foldl (trailStep gamma) 0 * gamma := mul_nonneg hr.1 hg.le
    linarith
  rw [e, hn n 1 zero_le_one le_rfl]
  have : 1 * gamma ^ n * gamma * gamma + 0 = gamma ^ (n + 2) := by ring
  rw [this]
  unfold clip
  rw [min_eq_left (pow_le_one₀ hg.le h1), max_eq_left (by positivity)]

end Verif.Occupancy
