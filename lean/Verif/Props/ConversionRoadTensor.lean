import Verif.Props.ConversionRoad

/-! The road graph of an example: order, limit and contents of the tensors. -/

namespace Verif.Conversion

noncomputable section

/-! ### The order -/

/-- Lanes, road lines, stop signs, crosswalks, speed bumps, road edges and the rest. -/
def rank (f : MapFeature) : ℕ :=
  match f.data with
  | .lane _ _ => 0
  | .roadLine _ _ => 1
  | .stopSign _ => 2
  | .crosswalk _ => 3
  | .speedBump _ => 4
  | .roadEdge _ _ => 5
  | .driveway _ => 6
  | .notSet => 6

/-- The features by rank, those of the same rank in their order. -/
def ranked (fs : List MapFeature) : List MapFeature := (List.range 7).flatMap fun r => fs.filter fun f => rank f = r

theorem prioritized_eq (fs : List MapFeature) : prioritized fs = ranked fs := by
  have hk : ∀ (r : ℕ) (k : Kind), (∀ f : MapFeature, f.data.kind = k ↔ rank f = r) →
      (fs.filter fun f => f.data.kind = k) = fs.filter fun f => rank f = r := by
    intro r k h
    apply List.filter_congr
    intro f _
    simp [h f]
  have h6 : (fs.filter fun f => ¬ f.data.kind ∈ priorities) = fs.filter fun f => rank f = 6 := by
    apply List.filter_congr
    intro f _
    cases hd : f.data <;> simp [FeatureData.kind, priorities, rank, hd]
  unfold prioritized ranked
  rw [h6]
  have hr : List.range 7 = [0, 1, 2, 3, 4, 5, 6] := rfl
  rw [hr]
  simp only [priorities, List.flatMap_cons, List.flatMap_nil, List.append_nil, List.append_assoc]
  rw [hk 0 .lane, hk 1 .roadLine, hk 2 .stopSign, hk 3 .crosswalk, hk 4 .speedBump, hk 5 .roadEdge]
  all_goals
    intro f
    cases hd : f.data <;> simp [FeatureData.kind, rank, hd]

/-- The order is a rearrangement of the features by rank that keeps the order within a rank. -/
theorem ranked_spec (fs : List MapFeature) :
    (ranked fs).Perm fs ∧ (ranked fs).Pairwise (fun f g => rank f ≤ rank g) ∧
    ∀ r, ((ranked fs).filter fun f => rank f = r) = fs.filter fun f => rank f = r := by
  have hlt : ∀ f, rank f < 7 := by
    intro f
    unfold rank
    cases f.data <;> simp
  have hfil : ∀ r, ((ranked fs).filter fun f => rank f = r) = fs.filter fun f => rank f = r := by
    intro r
    unfold ranked
    rw [List.filter_flatMap]
    have : ∀ n, (List.range n).flatMap (fun a => (fs.filter fun f => rank f = a).filter fun f => rank f = r) =
        if r < n then fs.filter fun f => rank f = r else [] := by
      intro n
      induction n with
      | zero => simp
      | succ n ih =>
        rw [List.range_succ, List.flatMap_append, ih]
        simp only [List.flatMap_cons, List.flatMap_nil, List.append_nil]
        by_cases h1 : r < n
        · rw [if_pos h1, if_pos (by omega), List.filter_filter]
          have : (fs.filter fun a => decide (rank a = r) && decide (rank a = n)) = [] := by
            rw [List.filter_eq_nil_iff]
            intro f _
            simp
            omega
          rw [this, List.append_nil]
        · rw [if_neg h1, List.nil_append]
          by_cases h2 : r = n
          · subst h2
            rw [if_pos (by omega), List.filter_filter]
            simp
          · rw [if_neg (by omega), List.filter_filter, List.filter_eq_nil_iff]
            intro f _
            simp
            omega
    rw [this 7]
    split
    · rfl
    · rename_i h
      symm
      rw [List.filter_eq_nil_iff]
      intro f _
      have := hlt f
      simp
      omega
  refine ⟨?_, ?_, hfil⟩
  · classical
    rw [List.perm_iff_count]
    intro f
    have h1 : ∀ l : List MapFeature, l.count f = (l.filter fun g => rank g = rank f).count f := by
      intro l
      rw [List.count_filter]
      simp
    rw [h1, hfil, ← h1]
  · unfold ranked
    rw [List.pairwise_flatMap]
    constructor
    · intro r _
      apply List.Pairwise.imp_of_mem (R := fun _ _ => True)
      · intro f g hf hg _
        simp only [List.mem_filter, decide_eq_true_eq] at hf hg
        omega
      · exact List.pairwise_of_forall fun _ _ => trivial
    · have hpr : (List.range 7).Pairwise (· < ·) := List.pairwise_lt_range
      refine hpr.imp ?_
      intro a b hab x hx y hy
      simp only [List.mem_filter, decide_eq_true_eq] at hx hy
      omega

/-! ### Directions -/

/-- The unit vector in the direction of `v`, the zero vector for the zero vector. -/
theorem normalized_spec (v : V3) : (v.len = 0 ∧ v.normalized = ⟨0, 0, 0⟩) ∨
    (0 < v.len ∧ v.normalized.len = 1 ∧ V3.smul v.len v.normalized = v) := by
  unfold V3.normalized
  rcases (len_nonneg v).lt_or_eq with h | h
  · right
    rw [if_pos h]
    refine ⟨h, ?_, ?_⟩
    · have hsq : v.sqr = v.len ^ 2 := by
        unfold V3.len
        rw [Real.sq_sqrt (sqr_nonneg v)]
      have hd : (v.div v.len).sqr = 1 := by
        have : (v.div v.len).sqr = v.sqr / v.len ^ 2 := by
          simp only [V3.sqr, V3.div]
          field_simp
        rw [this, hsq, div_self (pow_ne_zero 2 h.ne')]
      have : (v.div v.len).len = Real.sqrt (v.div v.len).sqr := rfl
      rw [this, hd, Real.sqrt_one]
    · ext <;> simp only [V3.smul, V3.div] <;> field_simp
  · left
    rw [if_neg (by rw [← h]; exact lt_irrefl 0)]
    exact ⟨h.symm, rfl⟩

theorem directions_length : ∀ l : List V3, (directions l).length = l.length := by
  intro l
  induction l with
  | nil => rfl
  | cons p l ih =>
    cases l with
    | nil => rfl
    | cons q l => simp only [directions, List.length_cons] at ih ⊢; omega

theorem directions_spec : ∀ (l : List V3) (j : ℕ) (p : V3), l[j]? = some p →
    (∀ q, l[j + 1]? = some q → (directions l)[j]? = some (q.sub p).normalized) ∧
    (l[j + 1]? = none → (directions l)[j]? = some ⟨0, 0, 0⟩) := by
  intro l
  induction l with
  | nil => intro j p h; simp at h
  | cons a l ih =>
    intro j p h
    cases l with
    | nil =>
      cases j with
      | zero => simp [directions]
      | succ j => simp at h
    | cons b l =>
      cases j with
      | zero =>
        simp only [List.getElem?_cons_zero, Option.some.injEq] at h
        subst h
        simp [directions]
      | succ j =>
        rw [List.getElem?_cons_succ] at h
        have := ih j p h
        simpa [directions] using this

/-! ### The limit -/

/-- The lists up to a total length. -/
def cut : ℕ → List (List V3) → List (List V3)
  | _, [] => []
  | n, l :: ls => l.take n :: cut (n - l.length) ls

/-- A row of the tensors: the feature, its position, the point and the direction. -/
structure Row where
  f : MapFeature
  n : ℕ
  p : V3
  d : V3

/-- The rows of the samples of some features from position `n` on. -/
def rows : ℕ → List MapFeature → List (List V3) → List Row
  | n, f :: fs, l :: ls => ((l.zip (directions l)).map fun pd => ⟨f, n, pd.1, pd.2⟩) ++ rows (n + 1) fs ls
  | _, _, _ => []

theorem rows_features {n : ℕ} : ∀ {fs : List MapFeature} {ls : List (List V3)} {k : ℕ} {r : Row}, (rows n fs ls)[k]? = some r →
    n ≤ r.n ∧ fs[r.n - n]? = some r.f := by
  intro fs
  induction fs generalizing n with
  | nil => intro ls k r h; simp [rows] at h
  | cons f fs ih =>
    intro ls k r h
    cases ls with
    | nil => simp [rows] at h
    | cons l ls =>
      unfold rows at h
      by_cases hk : k < ((l.zip (directions l)).map fun pd => (⟨f, n, pd.1, pd.2⟩ : Row)).length
      · rw [List.getElem?_append_left hk] at h
        have hm := List.mem_of_getElem? h
        rw [List.mem_map] at hm
        obtain ⟨pd, _, rfl⟩ := hm
        simp
      · rw [List.getElem?_append_right (by omega)] at h
        obtain ⟨h1, h2⟩ := ih h
        refine ⟨by omega, ?_⟩
        have e : r.n - n = (r.n - (n + 1)) + 1 := by omega
        rw [e, List.getElem?_cons_succ]
        exact h2

theorem rows_points : ∀ {fs : List MapFeature} {Rs : List (List V3)} (n room : ℕ), fs.length = Rs.length →
    (rows n fs (cut room Rs)).map (fun r => (r.n, r.p)) = ((Rs.zipIdx n).flatMap fun Rn => Rn.1.map fun p => (Rn.2, p)).take room := by
  intro fs
  induction fs with
  | nil =>
    intro Rs n room h
    cases Rs with
    | nil => simp [rows]
    | cons _ _ => simp at h
  | cons f fs ih =>
    intro Rs n room h
    cases Rs with
    | nil => simp at h
    | cons R Rs =>
      simp only [List.length_cons, Nat.add_right_cancel_iff] at h
      unfold cut rows
      rw [List.map_append, ih (n + 1) (room - R.length) h, List.zipIdx_cons, List.flatMap_cons, List.take_append, List.length_map]
      congr 1
      rw [List.map_map, ← List.map_take]
      have : (fun r : Row => (r.n, r.p)) ∘ (fun pd : V3 × V3 => (⟨f, n, pd.1, pd.2⟩ : Row)) = (fun p => (n, p)) ∘ Prod.fst := rfl
      rw [this, ← List.map_map, List.map_fst_zip (by rw [directions_length])]

theorem rows_directions : ∀ {fs : List MapFeature} {ls : List (List V3)} {n k : ℕ} {r : Row}, (rows n fs ls)[k]? = some r →
    (∀ r', (rows n fs ls)[k + 1]? = some r' → r'.n = r.n → r.d = (r'.p.sub r.p).normalized) ∧
    ((∀ r', (rows n fs ls)[k + 1]? = some r' → r'.n ≠ r.n) → r.d = ⟨0, 0, 0⟩) := by
  intro fs
  induction fs with
  | nil => intro ls n k r h; simp [rows] at h
  | cons f fs ih =>
    intro ls n k r h
    cases ls with
    | nil => simp [rows] at h
    | cons l ls =>
      unfold rows at h ⊢
      have hlen : ((l.zip (directions l)).map fun pd => (⟨f, n, pd.1, pd.2⟩ : Row)).length = l.length := by
        simp [directions_length]
      by_cases hk : k < l.length
      · rw [List.getElem?_append_left (by rw [hlen]; exact hk), List.getElem?_map] at h
        have hz : (l.zip (directions l))[k]? = some (l[k], (directions l)[k]'(by rw [directions_length]; exact hk)) := by
          rw [List.getElem?_zip_eq_some]
          exact ⟨List.getElem?_eq_getElem hk, List.getElem?_eq_getElem _⟩
        rw [hz] at h
        simp only [Option.map_some, Option.some.injEq] at h
        have hdir := directions_spec l k l[k] (List.getElem?_eq_getElem hk)
        have hde : (directions l)[k]? = some r.d := by
          rw [List.getElem?_eq_getElem (by rw [directions_length]; exact hk), ← h]
        have hp : r.p = l[k] := by rw [← h]
        have hn : r.n = n := by rw [← h]
        by_cases hk1 : k + 1 < l.length
        · have hz1 : (l.zip (directions l))[k + 1]? = some (l[k + 1], (directions l)[k + 1]'(by rw [directions_length]; exact hk1)) := by
            rw [List.getElem?_zip_eq_some]
            exact ⟨List.getElem?_eq_getElem hk1, List.getElem?_eq_getElem _⟩
          rw [List.getElem?_append_left (by rw [hlen]; exact hk1), List.getElem?_map, hz1]
          have hd := hdir.1 _ (List.getElem?_eq_getElem hk1)
          rw [hde] at hd
          simp only [Option.some.injEq] at hd
          constructor
          · intro r' hr' _
            simp only [Option.map_some, Option.some.injEq] at hr'
            rw [← hr', hp]
            exact hd
          · intro hx
            exact absurd hn.symm (hx _ rfl)
        · have hd := hdir.2 (List.getElem?_eq_none (by omega))
          rw [hde] at hd
          simp only [Option.some.injEq] at hd
          refine ⟨?_, fun _ => hd⟩
          intro r' hr' hne
          rw [List.getElem?_append_right (by rw [hlen]; omega)] at hr'
          have := (rows_features hr').1
          omega
      · rw [List.getElem?_append_right (by rw [hlen]; omega), hlen] at h
        rw [List.getElem?_append_right (by rw [hlen]; omega), hlen]
        have e : k + 1 - l.length = (k - l.length) + 1 := by omega
        rw [e]
        exact ih h

/-- What the rows add. -/
def rowEvents (rd : ℝ → ℝ) (r : Row) : List Ev := roadEvents rd r.f.id r.f.data.type 1 r.p r.d

theorem addRoadFeatures_spec {cfg : Config} (rd : ℝ → ℝ) (hs : 0 < cfg.sourceSpacing) : ∀ {fs : List MapFeature},
    (∀ f ∈ fs, Drawn f.data) →
    ∃ Rs, List.Forall₂ (fun (f : MapFeature) R => Sampling cfg R f.data) fs Rs ∧ ∀ num n,
      addRoadFeatures cfg rd num fs = some (num + (rows n fs (cut (cfg.maxRoad - num) Rs)).length,
        (rows n fs (cut (cfg.maxRoad - num) Rs)).flatMap (rowEvents rd)) := by
  intro fs
  induction fs with
  | nil => intro _; exact ⟨[], List.Forall₂.nil, by intro num n; rfl⟩
  | cons f fs ih =>
    intro h
    obtain ⟨R, hR, hcode⟩ := featureSamples_spec hs (h f (by simp))
    obtain ⟨Rs, hRs, hrest⟩ := ih fun g hg => h g (by simp [hg])
    refine ⟨R :: Rs, List.Forall₂.cons hR hRs, ?_⟩
    intro num n
    unfold addRoadFeatures addRoadSample
    rw [hcode num]
    simp only [Option.map_some, Option.bind_eq_bind, Option.bind_some]
    rw [hrest _ (n + 1)]
    have e : cfg.maxRoad - (num + (R.take (cfg.maxRoad - num)).length) = cfg.maxRoad - num - R.length := by
      rw [List.length_take]; omega
    simp only [Option.bind_some, e, cut, rows, List.length_append, List.flatMap_append, List.length_map, List.length_zip,
      directions_length, Nat.min_self, List.flatMap_map]
    rw [Nat.add_assoc]
    rfl

/-! ### The tensors -/

theorem tensor_road_block {k : Key} {rd : ℝ → ℝ} {l : List Row} {g : Row → List Val} {n : ℕ}
    (hg : ∀ r, tensor k (rowEvents rd r) = g r) (hn : ∀ r, (g r).length = n) :
    (tensor k (l.flatMap (rowEvents rd))).length = l.length * n ∧
    ∀ (i j : ℕ) r, l[i]? = some r → j < n → (tensor k (l.flatMap (rowEvents rd)))[i * n + j]? = (g r)[j]? := by
  rw [tensor_flatMap]
  have h := flatMap_block (l := l) (f := fun r => tensor k (rowEvents rd r)) (n := n) (fun r _ => by rw [hg]; exact hn r)
  refine ⟨h.1, ?_⟩
  intro i j r hi hj
  rw [h.2 i j r hi hj, hg]

/-- The code of a type of samples: lanes have the numbers of their types from 0, lines from 5, edges from 14, and the rest a number each. -/
def code : FeatureData → ℤ
  | .lane t _ => if 0 ≤ t ∧ t < 4 then t else -1
  | .roadLine t _ => if 0 ≤ t ∧ t < 9 then 5 + t else -1
  | .roadEdge t _ => if 0 ≤ t ∧ t < 3 then 14 + t else -1
  | .stopSign _ => 17
  | .crosswalk _ => 18
  | .speedBump _ => 19
  | .driveway _ => 20
  | .notSet => -1

theorem type_code (d : FeatureData) : d.type = code d := by
  cases d <;> simp only [FeatureData.type, code, laneType, roadLineType, roadEdgeType] <;> split_ifs <;> omega

/-- Two features with the same known code are of the same kind and type. -/
theorem code_injective {d d' : FeatureData} (h : code d = code d') (hk : code d ≠ -1) :
    d.kind = d'.kind ∧ (∀ t t' P P', d = .lane t P → d' = .lane t' P' → t = t') ∧
      (∀ t t' P P', d = .roadLine t P → d' = .roadLine t' P' → t = t') ∧
      (∀ t t' P P', d = .roadEdge t P → d' = .roadEdge t' P' → t = t') := by
  cases d <;> cases d' <;> simp only [code, FeatureData.kind, reduceCtorEq, FeatureData.lane.injEq, FeatureData.roadLine.injEq,
    FeatureData.roadEdge.injEq] at * <;> (try split_ifs at *) <;> first
    | omega
    | (refine ⟨trivial, ?_, ?_, ?_⟩ <;> intro t t' P P' h1 h2 <;> first | exact h1.elim | (have := h1.1; have := h2.1; omega))

/-- The values of a row. -/
def rowVals (rd : ℝ → ℝ) (r : Row) : RoadField → List Val
  | .id => [.int r.f.id]
  | .type => [.int (code r.f.data)]
  | .valid => [.int 1]
  | .xyz => [.float (rd r.p.x), .float (rd r.p.y), .float (rd r.p.z)]
  | .dir => [.float (rd r.d.x), .float (rd r.d.y), .float (rd r.d.z)]

/-- The values of a place without a sample. -/
def padVals : RoadField → List Val
  | .id => [.int (-1)]
  | .type => [.int (-1)]
  | .valid => [.int 0]
  | .xyz => [.float (-1), .float (-1), .float (-1)]
  | .dir => [.float (-1), .float (-1), .float (-1)]

/-- The number of values of a sample. -/
def width : RoadField → ℕ
  | .id => 1
  | .type => 1
  | .valid => 1
  | .xyz => 3
  | .dir => 3

theorem tensor_rowEvents (rd : ℝ → ℝ) (r : Row) (f : RoadField) : tensor (.road f) (rowEvents rd r) = rowVals rd r f := by
  cases f <;> simp [rowEvents, roadEvents, tensor, Ev.at, rowVals, type_code]

theorem tensor_padEvents (f : RoadField) :
    tensor (.road f) (roadEvents id (-1) (-1) 0 ⟨-1, -1, -1⟩ ⟨-1, -1, -1⟩) = padVals f := by
  cases f <;> simp [roadEvents, tensor, Ev.at, padVals]

/-- **The road graph of an example.** -/
theorem road_spec {cfg : Config} (rd : ℝ → ℝ) {fs : List MapFeature} (hs : 0 < cfg.sourceSpacing) (hd : ∀ f ∈ fs, Drawn f.data) :
    ∃ (log : List Ev) (Rs : List (List V3)) (W : List Row), addRoad cfg rd fs = some log ∧
      List.Forall₂ (fun (f : MapFeature) R => Sampling cfg R f.data) (ranked fs) Rs ∧
      -- the points are the first ones of the samples of the features in order
      W.map (fun r => (r.n, r.p)) = (Rs.zipIdx.flatMap fun Rn => Rn.1.map fun p => (Rn.2, p)).take cfg.maxRoad ∧
      (∀ (k : ℕ) r, W[k]? = some r → (ranked fs)[r.n]? = some r.f ∧
        -- the direction is towards the next point of the same feature
        (∀ r', W[k + 1]? = some r' → r'.n = r.n → r.d = (r'.p.sub r.p).normalized) ∧
        ((∀ r', W[k + 1]? = some r' → r'.n ≠ r.n) → r.d = ⟨0, 0, 0⟩)) ∧
      -- the tensors have a fixed size and contain the rows, then the padding
      ∀ f, (tensor (.road f) log).length = cfg.maxRoad * width f ∧ ∀ (k j : ℕ), k < cfg.maxRoad → j < width f →
        (∀ r, W[k]? = some r → (tensor (.road f) log)[k * width f + j]? = (rowVals rd r f)[j]?) ∧
        (W[k]? = none → (tensor (.road f) log)[k * width f + j]? = (padVals f)[j]?) := by
  obtain ⟨Rs, hRs, hcode⟩ := addRoadFeatures_spec (cfg := cfg) rd hs (fs := prioritized fs) (by
    intro f hf
    rw [prioritized_eq] at hf
    exact hd f ((ranked_spec fs).1.mem_iff.1 hf))
  have hc := hcode 0 0
  rw [Nat.zero_add, Nat.sub_zero] at hc
  set W := rows 0 (prioritized fs) (cut cfg.maxRoad Rs) with hW
  have hpts := rows_points (fs := prioritized fs) (Rs := Rs) 0 cfg.maxRoad hRs.length_eq
  rw [← hW] at hpts
  have hWlen : W.length ≤ cfg.maxRoad := by
    have := congrArg List.length hpts
    rw [List.length_map, List.length_take] at this
    omega
  refine ⟨W.flatMap (rowEvents rd) ++ [Ev.count "Road_Graph_Samples_Valid_Points" W.length,
        Ev.count "Road_Graph_Samples_Padded_Points" ((cfg.maxRoad : ℤ) - W.length)] ++
      (List.replicate (cfg.maxRoad - W.length) (roadEvents id (-1) (-1) 0 ⟨-1, -1, -1⟩ ⟨-1, -1, -1⟩)).flatten, Rs, W, ?_, by rw [← prioritized_eq]; exact hRs, hpts, ?_, ?_⟩
  · unfold addRoad
    rw [hc]
    rfl
  · intro k r hk
    refine ⟨?_, rows_directions hk⟩
    have := rows_features hk
    rw [Nat.sub_zero, prioritized_eq] at this
    exact this.2
  · intro f
    have hw : ∀ r, (rowVals rd r f).length = width f := by intro r; cases f <;> rfl
    have hpw : (padVals f).length = width f := by cases f <;> rfl
    have hb := tensor_road_block (k := .road f) (rd := rd) (l := W) (g := fun r => rowVals rd r f) (n := width f)
      (fun r => tensor_rowEvents rd r f) hw
    have hten : tensor (.road f) (W.flatMap (rowEvents rd) ++ [Ev.count "Road_Graph_Samples_Valid_Points" W.length,
          Ev.count "Road_Graph_Samples_Padded_Points" ((cfg.maxRoad : ℤ) - W.length)] ++
        (List.replicate (cfg.maxRoad - W.length) (roadEvents id (-1) (-1) 0 ⟨-1, -1, -1⟩ ⟨-1, -1, -1⟩)).flatten) =
        tensor (.road f) (W.flatMap (rowEvents rd)) ++
          (List.replicate (cfg.maxRoad - W.length) ()).flatMap fun _ => padVals f := by
      rw [tensor_append, tensor_append, tensor_flatten, tensor_count, tensor_count, tensor_nil, List.append_nil]
      congr 1
      generalize cfg.maxRoad - W.length = m
      induction m with
      | zero => rfl
      | succ m ih => rw [List.replicate_succ, List.replicate_succ, List.flatMap_cons, List.flatMap_cons, ih, tensor_padEvents]
    rw [hten]
    have hpb := flatMap_block (l := List.replicate (cfg.maxRoad - W.length) ()) (f := fun _ => padVals f) (n := width f) (fun _ _ => hpw)
    constructor
    · rw [List.length_append, hb.1, hpb.1, List.length_replicate, ← Nat.add_mul]
      congr 1; omega
    · intro k j hk hj
      constructor
      · intro r hr
        have hkl := (List.getElem?_eq_some_iff.1 hr).1
        have hlt : k * width f + j < W.length * width f := by
          calc k * width f + j < k * width f + width f := by omega
            _ = (k + 1) * width f := by ring
            _ ≤ W.length * width f := Nat.mul_le_mul_right _ (by omega)
        rw [List.getElem?_append_left (by rw [hb.1]; exact hlt), hb.2 k j r hr hj]
      · intro hr
        have hkl : W.length ≤ k := List.getElem?_eq_none_iff.1 hr
        have hge : W.length * width f ≤ k * width f := Nat.mul_le_mul_right _ hkl
        rw [List.getElem?_append_right (by rw [hb.1]; omega), hb.1]
        have e : k * width f + j - W.length * width f = (k - W.length) * width f + j := by
          rw [Nat.sub_mul]; omega
        rw [e]
        exact hpb.2 (k - W.length) j () (by rw [List.getElem?_replicate, if_pos (by omega)]) hj

/-- The counters of the road graph: valid and padded points together are the size of the tensor. -/
theorem road_counters {cfg : Config} {rd : ℝ → ℝ} {fs : List MapFeature} {log : List Ev} (h : addRoad cfg rd fs = some log) :
    counter "Road_Graph_Samples_Valid_Points" log + counter "Road_Graph_Samples_Padded_Points" log = cfg.maxRoad := by
  unfold addRoad at h
  cases hf : addRoadFeatures cfg rd 0 (prioritized fs) with
  | none => rw [hf] at h; simp at h
  | some ne =>
    obtain ⟨num, e⟩ := ne
    rw [hf] at h
    simp only [Option.bind_eq_bind, Option.bind_some, Option.some.injEq] at h
    have hev : ∀ c id type valid p d (g : ℝ → ℝ), counter c (roadEvents g id type valid p d) = 0 := by
      intro c id type valid p d g
      simp [counter, roadEvents, Ev.amount]
    have hz : ∀ c (fs : List MapFeature) num num' e, addRoadFeatures cfg rd num fs = some (num', e) → counter c e = 0 := by
      intro c fs
      induction fs with
      | nil =>
        intro num num' e h
        simp only [addRoadFeatures, Option.some.injEq, Prod.mk.injEq] at h
        rw [← h.2]; rfl
      | cons f fs ih =>
        intro num num' e h
        unfold addRoadFeatures addRoadSample at h
        cases hs : featureSamples cfg f.data num with
        | none => rw [hs] at h; simp at h
        | some pts =>
          rw [hs] at h
          simp only [Option.map_some, Option.bind_eq_bind, Option.bind_some] at h
          cases hr : addRoadFeatures cfg rd (num + pts.length) fs with
          | none => rw [hr] at h; simp at h
          | some ne' =>
            obtain ⟨n2, e2⟩ := ne'
            rw [hr] at h
            simp only [Option.bind_some, Option.some.injEq, Prod.mk.injEq] at h
            rw [← h.2, counter_append, ih _ _ _ hr, counter_flatMap]
            simp [hev]
    have hpad : ∀ c m, counter c (List.replicate m (roadEvents id (-1) (-1) 0 ⟨-1, -1, -1⟩ ⟨-1, -1, -1⟩)).flatten = 0 := by
      intro c m
      induction m with
      | zero => rfl
      | succ m ih => rw [List.replicate_succ, List.flatten_cons, counter_append, ih, hev]; rfl
    rw [← h]
    simp only [counter_append, hz _ _ _ _ _ hf, hpad]
    simp [counter, Ev.amount]

end

end Verif.Conversion
