import Verif.Props.Ops

/-!
Property C118: the accumulable state of the detection operations.
-/

namespace Verif.Ops

open Verif.Breakdown Verif.Measure Verif.Detection Verif.Curve

variable {O : Type}

/-! ### Specification -/

/-- The sum of two states, element by element. -/
def addStates (s t : List (List Cell)) : List (List Cell) := s.zipWith (List.zipWith (· + ·)) t

/-- The sum of the states of batches. -/
def sumStates : List (List (List Cell)) → List (List Cell)
  | [] => []
  | s :: ss => ss.foldl addStates s

/-! ### States -/

/-- Element of a state; zero outside. -/
def stateAt (s : List (List Cell)) (i j : Nat) : Cell := entry (fun r => entry (fun x : Cell => x) r) s i j

/-- The state has `m` rows of `n` elements. -/
def StateShape (m n : Nat) (s : List (List Cell)) : Prop := s.length = m ∧ ∀ r ∈ s, r.length = n

/-- Counters as elements of a state. -/
def cellOf (k : ℤ × ℤ × ℤ × ℚ × ℚ) : Cell := (k.1, k.2.1, k.2.2.1, k.2.2.2.1, k.2.2.2.2)

theorem cellOf_add (a b : ℤ × ℤ × ℤ × ℚ × ℚ) : cellOf (a + b) = cellOf a + cellOf b := by
  simp only [cellOf, Prod.fst_add, Prod.snd_add, Int.cast_add, Prod.mk_add_mk]

theorem cellOf_zero : cellOf 0 = 0 := by simp [cellOf]

theorem trunc_int (n : ℤ) : trunc (n : ℚ) = n := by simp [trunc]

theorem addStates_shape {m n : Nat} {s t : List (List Cell)} (hs : StateShape m n s) (ht : StateShape m n t) :
    StateShape m n (addStates s t) := by
  refine ⟨by simp [addStates, hs.1, ht.1], ?_⟩
  intro r hr
  unfold addStates at hr
  rw [List.mem_iff_getElem] at hr
  obtain ⟨i, hi, rfl⟩ := hr
  simp only [List.length_zipWith] at hi
  rw [List.getElem_zipWith, List.length_zipWith, hs.2 _ (List.getElem_mem _), ht.2 _ (List.getElem_mem _), min_self]

theorem entry_zipWith {α : Type} {C : Type} [AddCommMonoid C] (f : α → C) (g : α → α → α) (hg : ∀ a b, f (g a b) = f a + f b)
    {l k : List α} (h : l.length = k.length) (j : Nat) : entry f (l.zipWith g k) j = entry f l j + entry f k j := by
  unfold entry
  rw [List.getElem?_zipWith]
  by_cases hj : j < l.length
  · rw [List.getElem?_eq_getElem hj, List.getElem?_eq_getElem (h ▸ hj)]
    simp [hg]
  · rw [List.getElem?_eq_none (by omega), List.getElem?_eq_none (by omega)]
    simp

theorem stateAt_add {m n : Nat} {s t : List (List Cell)} (hs : StateShape m n s) (ht : StateShape m n t) (i j : Nat) :
    stateAt (addStates s t) i j = stateAt s i j + stateAt t i j := by
  unfold stateAt addStates entry
  rw [List.getElem?_zipWith]
  by_cases hi : i < s.length
  · have hi' : i < t.length := by rw [ht.1, ← hs.1]; exact hi
    rw [List.getElem?_eq_getElem hi, List.getElem?_eq_getElem hi']
    have := entry_zipWith (fun x : Cell => x) (· + ·) (fun _ _ => rfl)
      (l := s[i]) (k := t[i]) (by rw [hs.2 _ (List.getElem_mem _), ht.2 _ (List.getElem_mem _)]) j
    exact this
  · have hi' : ¬ i < t.length := by rw [ht.1, ← hs.1]; exact hi
    rw [List.getElem?_eq_none (by omega), List.getElem?_eq_none (by omega)]
    simp

theorem sumStates_spec {m n : Nat} (ss : List (List (List Cell))) (hne : ss ≠ []) (h : ∀ s ∈ ss, StateShape m n s) :
    StateShape m n (sumStates ss) ∧ ∀ i j, stateAt (sumStates ss) i j = (ss.map fun s => stateAt s i j).sum := by
  obtain ⟨s, ss, rfl⟩ := List.exists_cons_of_ne_nil hne
  have hs := h s (by simp)
  have h' : ∀ t ∈ ss, StateShape m n t := fun t ht => h t (List.mem_cons_of_mem _ ht)
  clear hne h
  simp only [sumStates, List.map_cons, List.sum_cons]
  induction ss generalizing s with
  | nil => simp [hs]
  | cons t ss ih =>
    have ht := h' t (by simp)
    obtain ⟨i1, i2⟩ := ih (addStates s t) (addStates_shape hs ht) fun u hu => h' u (List.mem_cons_of_mem _ hu)
    refine ⟨i1, fun i j => ?_⟩
    rw [List.foldl_cons, i2, stateAt_add hs ht, List.map_cons, List.sum_cons, add_assoc]

/-! ### From states to measurements -/

theorem breakdowns_eq (c : Config O) (h : c.levels.length = c.generators.length) :
    breakdowns c = some ((expectedShape c).map Prod.fst) := by
  unfold breakdowns
  obtain ⟨r, r1, r2⟩ := mapM_exists (fun g : (Nat × Gen O) × Nat => do
      let levels ← (c.levels[g.2]?).map fun l : List Nat => if l.isEmpty then [2] else l
      pure ((List.range g.1.2.numShards).flatMap fun s => levels.map fun l => (⟨g.1.1, s, l⟩ : Measure.Breakdown)))
    (fun g b => b = ((List.range g.1.2.numShards).flatMap fun s => (Detection.levelsOf c g.2).map fun l => (⟨g.1.1, s, l⟩ : Measure.Breakdown)))
    c.generators.zipIdx (by
      intro g hg
      have hlt : g.2 < c.levels.length := by
        have := List.snd_lt_of_mem_zipIdx hg
        omega
      refine ⟨_, ?_, rfl⟩
      rw [List.getElem?_eq_getElem hlt]
      simp only [Option.map_some, Option.bind_eq_bind, Option.bind_some]
      unfold Detection.levelsOf
      rw [show c.levels.getD g.2 [] = c.levels[g.2] by rw [List.getD_eq_getElem?_getD, List.getElem?_eq_getElem hlt]; rfl]
      simp only [List.isEmpty_iff]
      rfl)
  rw [r1, Option.map_some]
  congr 1
  have : r = c.generators.zipIdx.map fun g => ((List.range g.1.2.numShards).flatMap fun s =>
      (Detection.levelsOf c g.2).map fun l => (⟨g.1.1, s, l⟩ : Measure.Breakdown)) := by
    have := forall₂_map_eq (id) (fun g : (Nat × Gen O) × Nat => ((List.range g.1.2.numShards).flatMap fun s =>
      (Detection.levelsOf c g.2).map fun l => (⟨g.1.1, s, l⟩ : Measure.Breakdown))) _ _ r2
    simpa using this
  rw [this, ← List.flatMap_def]
  unfold expectedShape
  rw [List.map_flatMap]
  apply List.flatMap_congr
  intro g _
  rw [List.map_flatMap]
  apply List.flatMap_congr
  intro s _
  rw [List.map_map]
  rfl

/-- The counters that the result operation reads from an element of a state. -/
def countsOf (x : Cell) : ℤ × ℤ × ℤ × ℚ × ℚ := (trunc x.1, trunc x.2.1, trunc x.2.2.1, x.2.2.2.1, x.2.2.2.2)

theorem countsOf_cellOf (k : ℤ × ℤ × ℤ × ℚ × ℚ) : countsOf (cellOf k) = k := by
  simp [countsOf, cellOf, trunc_int]

theorem zipIdx_getElem_of {α : Type} {l : List α} {x : α × Nat} (h : x ∈ l.zipIdx) : l[x.2]? = some x.1 :=
  (List.mem_zipIdx_iff_getElem?).mp h

theorem expectedShape_snd {c : Config O} {e : Measure.Breakdown × List (Option ℚ)} (h : e ∈ expectedShape c) : e.2 = c.cutoffs.map some := by
  unfold expectedShape at h
  simp only [List.mem_flatMap, List.mem_map] at h
  obtain ⟨_, _, _, _, _, _, rfl⟩ := h
  rfl

theorem ofState_spec {c : Config O} (hl : c.levels.length = c.generators.length) {s : List (List Cell)}
    (hs : StateShape (expectedShape c).length c.cutoffs.length s) :
    ∃ w, ofState c s = some w ∧ shape Det.cutoff w = expectedShape c ∧
      ∀ i j, (i < (expectedShape c).length → j < c.cutoffs.length → countsAt Det.counts w i j = countsOf (stateAt s i j)) ∧
        (¬(i < (expectedShape c).length ∧ j < c.cutoffs.length) → countsAt Det.counts w i j = 0) := by
  let cell (i : Nat) (k : ℚ × Nat) : Det (Detection.Details Unit) :=
    { fps := trunc (stateAt s i k.2).1, tps := trunc (stateAt s i k.2).2.1, fns := trunc (stateAt s i k.2).2.2.1,
      ha := (stateAt s i k.2).2.2.2.1, la := (stateAt s i k.2).2.2.2.2, cutoff := some k.1 }
  have hrow : ∀ i (hi : i < s.length), c.cutoffs.zipIdx.mapM (fun k => do
      let row ← s[i]?
      let x ← row[k.2]?
      pure ({ fps := trunc x.1, tps := trunc x.2.1, fns := trunc x.2.2.1, ha := x.2.2.2.1, la := x.2.2.2.2,
              cutoff := some k.1 } : Det (Detection.Details Unit))) = some (c.cutoffs.zipIdx.map (cell i)) := by
    intro i hi
    obtain ⟨r, r1, r2⟩ := mapM_exists (fun k : ℚ × Nat => do
      let row ← s[i]?
      let x ← row[k.2]?
      pure ({ fps := trunc x.1, tps := trunc x.2.1, fns := trunc x.2.2.1, ha := x.2.2.2.1, la := x.2.2.2.2,
              cutoff := some k.1 } : Det (Detection.Details Unit))) (fun k m => m = cell i k) c.cutoffs.zipIdx (by
        intro k hk
        have hk2 : k.2 < s[i].length := by
          rw [hs.2 _ (List.getElem_mem hi)]
          have := List.snd_lt_of_mem_zipIdx hk
          omega
        refine ⟨cell i k, ?_, rfl⟩
        rw [List.getElem?_eq_getElem hi]
        simp only [Option.bind_eq_bind, Option.bind_some, List.getElem?_eq_getElem hk2]
        have : stateAt s i k.2 = s[i][k.2] := by
          simp [stateAt, entry, List.getElem?_eq_getElem hi, List.getElem?_eq_getElem hk2]
        simp only [cell, this]
        rfl)
    rw [r1]
    congr 1
    have := forall₂_map_eq id (cell i) _ _ r2
    simpa using this
  obtain ⟨w, w1, w2⟩ := mapM_exists (fun b : Measure.Breakdown × Nat => do
      let items ← c.cutoffs.zipIdx.mapM fun k => do
        let row ← s[b.2]?
        let x ← row[k.2]?
        pure ({ fps := trunc x.1, tps := trunc x.2.1, fns := trunc x.2.2.1, ha := x.2.2.2.1, la := x.2.2.2.2,
                cutoff := some k.1 } : Det (Detection.Details Unit))
      pure (⟨b.1, items⟩ : Measure.Group (Det (Detection.Details Unit))))
    (fun b g => g = ⟨b.1, c.cutoffs.zipIdx.map (cell b.2)⟩) ((expectedShape c).map Prod.fst).zipIdx (by
      intro b hb
      have hb2 : b.2 < s.length := by
        have := List.snd_lt_of_mem_zipIdx hb
        rw [hs.1]
        simpa using this
      refine ⟨⟨b.1, c.cutoffs.zipIdx.map (cell b.2)⟩, ?_, rfl⟩
      have := hrow b.2 hb2
      rw [this]
      rfl)
  have hw : w = ((expectedShape c).map Prod.fst).zipIdx.map fun b => ⟨b.1, c.cutoffs.zipIdx.map (cell b.2)⟩ := by
    have := forall₂_map_eq id _ _ _ w2
    simpa using this
  refine ⟨w, ?_, ?_, ?_⟩
  · unfold ofState
    rw [breakdowns_eq c hl]
    simp only [Option.bind_eq_bind, Option.bind_some]
    exact w1
  · rw [hw]
    unfold shape
    apply List.ext_getElem (by simp)
    intro i a b
    have hmem := expectedShape_snd (List.getElem_mem b)
    simp only [List.getElem_map, List.getElem_zipIdx, List.map_map, Function.comp_def]
    apply Prod.ext
    · rfl
    · rw [hmem]
      simp only [cell]
      apply List.ext_getElem (by simp)
      intro j x y
      simp
  · intro i j
    have hcnt : countsAt Det.counts w i j = if i < (expectedShape c).length ∧ j < c.cutoffs.length then countsOf (stateAt s i j) else 0 := by
      rw [hw]
      unfold countsAt entry
      rw [List.getElem?_map, List.getElem?_zipIdx, List.getElem?_map]
      by_cases hi : i < (expectedShape c).length
      · rw [List.getElem?_eq_getElem hi]
        simp only [Option.map_some, List.getElem?_map, List.getElem?_zipIdx, Nat.zero_add]
        by_cases hj : j < c.cutoffs.length
        · rw [List.getElem?_eq_getElem hj]
          simp [hi, hj, cell, Det.counts, countsOf]
        · rw [List.getElem?_eq_none (by omega)]
          simp [hj]
      · rw [List.getElem?_eq_none (by omega)]
        simp [hi]
    refine ⟨fun hi hj => ?_, fun h => ?_⟩
    · rw [hcnt, if_pos ⟨hi, hj⟩]
    · rw [hcnt, if_neg h]

/-! ### The state of a batch -/

theorem frameCounts_range {c : Config O} {x : Frame O Unit} (h : FrameUsable c x) {i j : Nat}
    (hij : ¬(i < (expectedShape c).length ∧ j < c.cutoffs.length)) : frameCounts c x i j = 0 := by
  obtain ⟨v, v1, v2, -⟩ := frame_shape h
  unfold frameCounts
  rw [v1]
  simp only
  unfold countsAt entry
  have hl : v.length = (expectedShape c).length := by rw [← v2]; simp [shape]
  by_cases hi : i < v.length
  · rw [List.getElem?_eq_getElem hi]
    simp only
    have hm : (v[i].breakdown, v[i].items.map Det.cutoff) ∈ expectedShape c := by
      rw [← v2]; exact List.mem_map_of_mem (List.getElem_mem hi)
    have hlen := congrArg List.length (expectedShape_snd hm)
    simp only [List.length_map] at hlen
    rw [List.getElem?_eq_none (by omega)]
  · rw [List.getElem?_eq_none (by omega)]
    rfl

theorem usedCutoffs_set {c : OpConfig O} (h : c.base.cutoffs ≠ []) (xs : List (Frame O Unit)) :
    usedCutoffs c.base c.desired xs = some c.base.cutoffs := by
  unfold usedCutoffs
  rw [if_neg (by simpa using h)]

theorem sum_cellOf (l : List (ℤ × ℤ × ℤ × ℚ × ℚ)) : cellOf l.sum = (l.map cellOf).sum := by
  induction l with
  | nil => exact cellOf_zero
  | cons a l ih => rw [List.sum_cons, cellOf_add, ih, List.map_cons, List.sum_cons]

theorem stateOp_spec (E : Env O) (c : OpConfig O) {pd : PdTensors} {gt : GtTensors} {fs : List (List Obj × List Obj)}
    (hf : opFrames pd gt = some fs) (hne : fs ≠ []) (hc : c.base.cutoffs ≠ []) (hg : expectedShape c.base ≠ [])
    (hu : ∀ f ∈ fs, FrameUsable c.base (E.frame f)) :
    ∃ s, stateOp E c pd gt = some s ∧ StateShape (expectedShape c.base).length c.base.cutoffs.length s ∧
      ∀ i j, stateAt s i j = cellOf (fs.map fun f => frameCounts c.base (E.frame f) i j).sum := by
  obtain ⟨per, v, p1, p2, p3, p4⟩ := accumulated (c := c.base) (fs.map E.frame) (by simpa using hne) hg
    (by intro x hx; obtain ⟨f, hf, rfl⟩ := List.mem_map.mp hx; exact hu f hf)
  have hlen : ∀ g ∈ v, g.items.length = c.base.cutoffs.length := by
    intro g hgv
    have hm : (g.breakdown, g.items.map Det.cutoff) ∈ expectedShape c.base := by
      rw [← p3]; exact List.mem_map_of_mem hgv
    have := congrArg List.length (expectedShape_snd hm)
    simpa using this
  have hvl : v.length = (expectedShape c.base).length := by rw [← p3]; simp [shape]
  obtain ⟨g, v', rfl⟩ : ∃ g v', v = g :: v' := by
    cases v with
    | nil => exact absurd p3.symm hg
    | cons g v' => exact ⟨g, v', rfl⟩
  refine ⟨(g :: v').map fun g => g.items.map toCell, ?_, ⟨by rw [List.length_map, hvl], ?_⟩, ?_⟩
  · unfold stateOp OpConfig.withCutoffs
    rw [hf]
    simp only [Option.bind_eq_bind, Option.bind_some, usedCutoffs_set hc, Option.map_some, p1, p2, List.head?_cons]
    rw [if_pos]
    rw [List.all_eq_true]
    intro g' hg'
    simp [hlen g' hg', hlen g (by simp)]
  · intro r hr
    obtain ⟨g', hg', rfl⟩ := List.mem_map.mp hr
    rw [List.length_map, hlen g' hg']
  · intro i j
    have hcell : stateAt ((g :: v').map fun g => g.items.map toCell) i j = cellOf (countsAt Det.counts (g :: v') i j) := by
      unfold stateAt countsAt entry
      rw [List.getElem?_map]
      cases (g :: v')[i]? with
      | none => exact cellOf_zero.symm
      | some q =>
        simp only [Option.map_some, List.getElem?_map]
        cases q.items[j]? with
        | none => exact cellOf_zero.symm
        | some m => rfl
    rw [hcell, p4, List.map_map]
    rfl

/-- C118: the state of a batch, given to the result operation, yields what the metrics operation yields for the batch. -/
theorem result_of_sum (E : Env O) (c : OpConfig O) (hc : c.base.cutoffs ≠ []) (hg : expectedShape c.base ≠ [])
    (batches : List (List (List Obj × List Obj))) (states : List (List (List Cell))) (hne : states ≠ [])
    (hst : List.Forall₂ (fun fs s => StateShape (expectedShape c.base).length c.base.cutoffs.length s ∧
      ∀ i j, stateAt s i j = cellOf (fs.map fun f => frameCounts c.base (E.frame f) i j).sum) batches states)
    {pd : PdTensors} {gt : GtTensors} {fs : List (List Obj × List Obj)} (hf : opFrames pd gt = some fs) (hfne : fs ≠ [])
    (hu : ∀ f ∈ fs, FrameUsable c.base (E.frame f)) (hsum : ∀ i j, (fs.map fun f => frameCounts c.base (E.frame f) i j).sum =
      (batches.map fun b => (b.map fun f => frameCounts c.base (E.frame f) i j).sum).sum)
    {order : List Nat} (ho : order.Perm (List.range fs.length)) :
    resultOp c (sumStates states) = detectionOp E c order pd gt := by
  obtain ⟨t1, t2⟩ := sumStates_spec (m := (expectedShape c.base).length) (n := c.base.cutoffs.length) states hne
    (fun s hs => by obtain ⟨_, -, h, -⟩ := exists_of_forall₂_right hst s hs; exact h)
  have hl : c.base.levels.length = c.base.generators.length := by
    obtain ⟨f, fs', rfl⟩ := List.exists_cons_of_ne_nil hfne
    exact (hu f (by simp)).levels
  obtain ⟨w, w1, w2, w3⟩ := ofState_spec hl t1
  obtain ⟨per, v, p1, p2, p3, p4⟩ := accumulated (c := c.base) (fs.map E.frame) (by simpa using hfne) hg
    (by intro x hx; obtain ⟨f, hf, rfl⟩ := List.mem_map.mp hx; exact hu f hf)
  rw [detectionOp_eq E c pd gt hf ho, usedCutoffs_set hc]
  simp only [Option.bind_some, p1, p2]
  unfold resultOp
  simp only [w1, Option.bind_eq_bind, Option.bind_some, metricsWith_bind, mergeAll_one]
  apply finish_congr
  refine ⟨w2.trans p3.symm, fun i j => ?_⟩
  rw [p4, List.map_map]
  by_cases hij : i < (expectedShape c.base).length ∧ j < c.base.cutoffs.length
  · rw [(w3 i j).1 hij.1 hij.2, t2]
    have : (states.map fun s => stateAt s i j) =
        batches.map fun b => cellOf (b.map fun f => frameCounts c.base (E.frame f) i j).sum := by
      apply forall₂_map_eq
      exact hst.imp fun b s h => h.2 i j
    rw [this]
    have e : (batches.map fun b => cellOf (b.map fun f => frameCounts c.base (E.frame f) i j).sum) =
        (batches.map fun b => (b.map fun f => frameCounts c.base (E.frame f) i j).sum).map cellOf := by
      rw [List.map_map]; rfl
    rw [e, ← sum_cellOf, countsOf_cellOf, ← hsum]
    rfl
  · rw [(w3 i j).2 hij]
    symm
    apply List.sum_eq_zero
    intro q hq
    obtain ⟨f, hf, rfl⟩ := List.mem_map.mp hq
    exact frameCounts_range (hu f hf) hij

/-- C118: computing the state of a call and then its result gives the output of the metrics operation. -/
theorem state_then_result (E : Env O) (c : OpConfig O) {pd : PdTensors} {gt : GtTensors} {fs : List (List Obj × List Obj)}
    (hf : opFrames pd gt = some fs) (hne : fs ≠ []) (hc : c.base.cutoffs ≠ []) (hg : expectedShape c.base ≠ [])
    (hu : ∀ f ∈ fs, FrameUsable c.base (E.frame f)) {order : List Nat} (ho : order.Perm (List.range fs.length)) :
    ∃ s, stateOp E c pd gt = some s ∧ resultOp c s = detectionOp E c order pd gt := by
  obtain ⟨s, s1, s2, s3⟩ := stateOp_spec E c hf hne hc hg hu
  exact ⟨s, s1, result_of_sum E c hc hg [fs] [s] (by simp) (.cons ⟨s2, s3⟩ .nil) hf hne hu (by simp) ho⟩

/-! ### Batches -/

theorem frameCounts_empty {c : Config O} (E : Env O) (h : FrameUsable c (E.frame ([], []))) (i j : Nat) :
    frameCounts c (E.frame ([], [])) i j = 0 := by
  obtain ⟨per, p1, p2⟩ := frame_spec h
  unfold frameCounts
  rw [p1]
  simp only
  unfold countsAt entry
  cases hq : per.flatten[i]? with
  | none => rfl
  | some q =>
    simp only
    cases hm : q.items[j]? with
    | none => rfl
    | some m =>
      simp only
      obtain ⟨r, hr, hqr⟩ := List.mem_flatten.mp (List.mem_of_getElem? hq)
      obtain ⟨_, -, hk⟩ := exists_of_forall₂_right p2 r hr
      obtain ⟨_, -, -, hl⟩ := exists_of_forall₂_right hk q hqr
      obtain ⟨k, -, -, ps, gs, pm, gm, -, -, hps, -, hgs, hus, hrun⟩ :=
        exists_of_forall₂_right hl m (List.mem_of_getElem? hm)
      have hps0 : ps = [] := by
        rw [List.eq_nil_iff_forall_not_mem]
        intro a ha
        obtain ⟨p, hp, -⟩ := (hps a).mp ha
        simp [Env.frame] at hp
      have hgs0 : gs = [] := by
        rw [List.eq_nil_iff_forall_not_mem]
        intro a ha
        obtain ⟨p, hp, -⟩ := (hgs a).mp ha
        simp [Env.frame] at hp
      obtain ⟨m', d, r1, r2, r3, r4, r5, r6, -⟩ := measure_spec hus k
      rw [hrun] at r1
      cases r1
      have l1 := hus.pmLen
      have l2 := hus.gmLen
      simp only [hps0, hgs0, List.length_nil] at l1 l2
      simp only [l1, l2, Eval.tps, Eval.fps, Eval.fns, List.range_zero, List.filter_nil, List.length_nil, List.map_nil,
        List.sum_nil] at r2 r3 r4 r5 r6
      simp [Det.counts, r2, r3, r4, r5, r6]

theorem sum_orEmpty {c : Config O} (E : Env O) (fs : List (List Obj × List Obj)) (h : ∀ f ∈ orEmpty fs, FrameUsable c (E.frame f))
    (i j : Nat) : ((orEmpty fs).map fun f => frameCounts c (E.frame f) i j).sum = (fs.map fun f => frameCounts c (E.frame f) i j).sum := by
  unfold orEmpty at h ⊢
  split_ifs with hfs
  · rw [if_pos hfs] at h
    rw [hfs]
    simp [frameCounts_empty E (h _ (by simp))]
  · rfl

theorem rowsFor_append {κ α : Type} [DecidableEq κ] (a a' : List (κ × α)) (k : κ) : rowsFor (a ++ a') k = rowsFor a k ++ rowsFor a' k := by
  simp [rowsFor]

theorem rowsFor_of_not_mem {κ α : Type} [DecidableEq κ] {a : List (κ × α)} {k : κ} (h : k ∉ a.map Prod.fst) : rowsFor a k = [] := by
  unfold rowsFor
  rw [List.map_eq_nil_iff, List.filter_eq_nil_iff]
  intro r hr e
  exact h (List.mem_map.mpr ⟨r, hr, by simpa using e⟩)

/-- The frames of batches without a common frame are the frames of the batches. -/
theorem framesOf_append (a b a' b' : List (ℤ × Obj)) (hd : ∀ k ∈ idList a b, k ∉ idList a' b') :
    (framesOf (a ++ a') (b ++ b')).Perm (framesOf a b ++ framesOf a' b') := by
  have hp : (idList (a ++ a') (b ++ b')).Perm (idList a b ++ idList a' b') := by
    refine (List.perm_ext_iff_of_nodup ((idList_sorted _ _).imp ne_of_lt) ?_).mpr ?_
    · rw [List.nodup_append]
      exact ⟨(idList_sorted _ _).imp ne_of_lt, (idList_sorted _ _).imp ne_of_lt, fun x hx y hy e => hd x hx (e ▸ hy)⟩
    · intro k
      simp only [mem_idList, List.mem_append, List.map_append]
      tauto
  unfold framesOf
  refine (hp.map _).trans ?_
  rw [List.map_append]
  apply List.Perm.of_eq
  congr 1
  · apply List.map_congr_left
    intro k hk
    have h1 := hd k hk
    rw [mem_idList, not_or] at h1
    rw [rowsFor_append, rowsFor_append, rowsFor_of_not_mem h1.1, rowsFor_of_not_mem h1.2, List.append_nil, List.append_nil]
  · apply List.map_congr_left
    intro k hk
    have h1 : k ∉ idList a b := fun h => hd k h hk
    rw [mem_idList, not_or] at h1
    rw [rowsFor_append, rowsFor_append, rowsFor_of_not_mem h1.1, rowsFor_of_not_mem h1.2, List.nil_append, List.nil_append]

theorem framesOf_flatten (rows : List (List (ℤ × Obj) × List (ℤ × Obj)))
    (hd : rows.Pairwise fun r r' => ∀ k ∈ idList r.1 r.2, k ∉ idList r'.1 r'.2) :
    (framesOf (rows.map Prod.fst).flatten (rows.map Prod.snd).flatten).Perm (rows.flatMap fun r => framesOf r.1 r.2) := by
  induction rows with
  | nil => exact List.Perm.of_eq (by simp [framesOf, idList])
  | cons r rows ih =>
    obtain ⟨h1, h2⟩ := List.pairwise_cons.mp hd
    simp only [List.map_cons, List.flatten_cons, List.flatMap_cons]
    refine (framesOf_append _ _ _ _ ?_).trans ((ih h2).append_left _)
    intro k hk hk'
    rw [mem_idList] at hk'
    rcases hk' with hk' | hk'
    · obtain ⟨q, hq, rfl⟩ := List.mem_map.mp hk'
      obtain ⟨l, hl, hql⟩ := List.mem_flatten.mp hq
      obtain ⟨r', hr', rfl⟩ := List.mem_map.mp hl
      exact h1 r' hr' _ hk ((mem_idList _ _ _).mpr (Or.inl (List.mem_map_of_mem hql)))
    · obtain ⟨q, hq, rfl⟩ := List.mem_map.mp hk'
      obtain ⟨l, hl, hql⟩ := List.mem_flatten.mp hq
      obtain ⟨r', hr', rfl⟩ := List.mem_map.mp hl
      exact h1 r' hr' _ hk ((mem_idList _ _ _).mpr (Or.inr (List.mem_map_of_mem hql)))

/-- A batch with its rows. -/
structure BatchRows (dof : Nat) (b : PdTensors × GtTensors) (r : List (ℤ × Obj) × List (ℤ × Obj)) : Prop where
  pdDof : b.1.dof = dof
  gtDof : b.2.dof = dof
  pd : Consistent b.1.args
  gt : Consistent b.2.args
  pdRows : RowsAre b.1.args r.1
  gtRows : RowsAre b.2.args r.2


theorem IsRow.append_left {t u v : Tensors} {i : Nat} {id : ℤ} {o : Obj} (h : IsRow t i id o) (hd : v.dof = t.dof)
    (hb : v.bbox = t.bbox ++ u.bbox) (ht : v.type = t.type ++ u.type) (hf : v.frame = t.frame ++ u.frame)
    (h1 : v.score.bind (·[i]?) = t.score.bind (·[i]?)) (h2 : v.nlz.bind (·[i]?) = t.nlz.bind (·[i]?))
    (h3 : v.detLevel.bind (·[i]?) = t.detLevel.bind (·[i]?)) (h4 : v.trkLevel.bind (·[i]?) = t.trkLevel.bind (·[i]?))
    (h5 : v.speed.bind (·[i]?) = t.speed.bind (·[i]?)) : IsRow v i id o := by
  have key : ∀ {α : Type} {x y : List α} {a : α}, x[i]? = some a → (x ++ y)[i]? = some a := by
    intro α x y a h
    rw [List.getElem?_append_left (List.getElem?_eq_some_iff.mp h).1]; exact h
  obtain ⟨r, r1, r2, r3⟩ := h.box
  exact ⟨by rw [hf]; exact key h.frame, by rw [ht]; exact key h.type, ⟨r, by rw [hb]; exact key r1, by rw [hd]; exact r2, by rw [hd]; exact r3⟩,
    h.score.trans h1.symm, h.nlz.trans h2.symm, h.detLevel.trans h3.symm, h.trkLevel.trans h4.symm, h.speed.trans h5.symm, h.id⟩

theorem IsRow.append_right {t u v : Tensors} {i n : Nat} {id : ℤ} {o : Obj} (h : IsRow u i id o) (hd : v.dof = u.dof)
    (hb : v.bbox = t.bbox ++ u.bbox) (ht : v.type = t.type ++ u.type) (hf : v.frame = t.frame ++ u.frame)
    (nb : t.bbox.length = n) (nt : t.type.length = n) (nf : t.frame.length = n)
    (h1 : v.score.bind (·[n + i]?) = u.score.bind (·[i]?)) (h2 : v.nlz.bind (·[n + i]?) = u.nlz.bind (·[i]?))
    (h3 : v.detLevel.bind (·[n + i]?) = u.detLevel.bind (·[i]?)) (h4 : v.trkLevel.bind (·[n + i]?) = u.trkLevel.bind (·[i]?))
    (h5 : v.speed.bind (·[n + i]?) = u.speed.bind (·[i]?)) : IsRow v (n + i) id o := by
  have key : ∀ {α : Type} {x y : List α} {a : α}, x.length = n → y[i]? = some a → (x ++ y)[n + i]? = some a := by
    intro α x y a hx h
    rw [List.getElem?_append_right (by omega), hx, Nat.add_sub_cancel_left]; exact h
  obtain ⟨r, r1, r2, r3⟩ := h.box
  exact ⟨by rw [hf]; exact key nf h.frame, by rw [ht]; exact key nt h.type,
    ⟨r, by rw [hb]; exact key nb r1, by rw [hd]; exact r2, by rw [hd]; exact r3⟩,
    h.score.trans h1.symm, h.nlz.trans h2.symm, h.detLevel.trans h3.symm, h.trkLevel.trans h4.symm, h.speed.trans h5.symm, h.id⟩

theorem rowsAre_of_parts {t u v : Tensors} {a b : List (ℤ × Obj)} (hb : v.bbox = t.bbox ++ u.bbox)
    (hl : a.length = t.bbox.length) (hl' : b.length = u.bbox.length)
    (h1 : ∀ i r, i < a.length → a[i]? = some r → IsRow v i r.1 r.2) (h2 : ∀ i r, b[i]? = some r → IsRow v (a.length + i) r.1 r.2) :
    RowsAre v (a ++ b) := by
  refine ⟨by rw [hb, List.length_append, List.length_append, hl, hl'], ?_⟩
  intro i r hr
  by_cases hi : i < a.length
  · rw [List.getElem?_append_left hi] at hr
    exact h1 i r hi hr
  · rw [List.getElem?_append_right (by omega)] at hr
    have := h2 _ r hr
    rwa [show a.length + (i - a.length) = i by omega] at this

theorem pd_append {a b : PdTensors} {x y : List (ℤ × Obj)} (hd : a.dof = b.dof) (ha : Consistent a.args) (hb : Consistent b.args)
    (hx : RowsAre a.args x) (hy : RowsAre b.args y) : Consistent (a.append b).args ∧ RowsAre (a.append b).args (x ++ y) := by
  have sc := ha.score _ rfl
  have nz := ha.nlz _ rfl
  refine ⟨⟨ha.dof, ?_, ?_, ?_, ?_, ?_, ?_, ?_, ?_⟩, ?_⟩
  · intro r hr
    rcases List.mem_append.mp hr with hr | hr
    · exact ha.rows r hr
    · exact (hb.rows r hr).trans hd.symm
  · have := ha.type; have := hb.type; simp_all [PdTensors.append, PdTensors.args]
  · have := ha.frame; have := hb.frame; simp_all [PdTensors.append, PdTensors.args]
  · rintro l ⟨⟩; have := hb.score _ rfl; simp_all [PdTensors.append, PdTensors.args]
  · rintro l ⟨⟩; have := hb.nlz _ rfl; simp_all [PdTensors.append, PdTensors.args]
  · rintro l ⟨⟩
  · rintro l ⟨⟩
  · rintro l ⟨⟩
  · refine rowsAre_of_parts (t := a.args) (u := b.args) rfl hx.1 hy.1 ?_ ?_
    · intro i r hi hr
      have hi' : i < a.bbox.length := hx.1 ▸ hi
      refine (hx.2 i r hr).append_left (u := b.args) rfl rfl rfl rfl ?_ ?_ rfl rfl rfl
      · exact List.getElem?_append_left (by rw [sc]; exact hi')
      · exact List.getElem?_append_left (by rw [nz]; exact hi')
    · intro i r hr
      rw [hx.1]
      refine (hy.2 i r hr).append_right (t := a.args) hd rfl rfl rfl rfl ha.type ha.frame ?_ ?_ rfl rfl rfl
      · refine (List.getElem?_append_right (by omega)).trans ?_
        rw [sc, Nat.add_sub_cancel_left]; rfl
      · refine (List.getElem?_append_right (by omega)).trans ?_
        rw [nz, Nat.add_sub_cancel_left]; rfl

theorem gt_append {a b : GtTensors} {x y : List (ℤ × Obj)} (hd : a.dof = b.dof) (ha : Consistent a.args) (hb : Consistent b.args)
    (hx : RowsAre a.args x) (hy : RowsAre b.args y) : Consistent (a.append b).args ∧ RowsAre (a.append b).args (x ++ y) := by
  have sc := ha.detLevel _ rfl
  have nz := ha.speed _ rfl
  refine ⟨⟨ha.dof, ?_, ?_, ?_, ?_, ?_, ?_, ?_, ?_⟩, ?_⟩
  · intro r hr
    rcases List.mem_append.mp hr with hr | hr
    · exact ha.rows r hr
    · exact (hb.rows r hr).trans hd.symm
  · have := ha.type; have := hb.type; simp_all [GtTensors.append, GtTensors.args]
  · have := ha.frame; have := hb.frame; simp_all [GtTensors.append, GtTensors.args]
  · rintro l ⟨⟩
  · rintro l ⟨⟩
  · rintro l ⟨⟩; have := hb.detLevel _ rfl; simp_all [GtTensors.append, GtTensors.args]
  · rintro l ⟨⟩
  · rintro l ⟨⟩; have := hb.speed _ rfl; simp_all [GtTensors.append, GtTensors.args]
  · refine rowsAre_of_parts (t := a.args) (u := b.args) rfl hx.1 hy.1 ?_ ?_
    · intro i r hi hr
      have hi' : i < a.bbox.length := hx.1 ▸ hi
      refine (hx.2 i r hr).append_left (u := b.args) rfl rfl rfl rfl rfl rfl ?_ rfl ?_
      · exact List.getElem?_append_left (by rw [sc]; exact hi')
      · exact List.getElem?_append_left (by rw [nz]; exact hi')
    · intro i r hr
      rw [hx.1]
      refine (hy.2 i r hr).append_right (t := a.args) hd rfl rfl rfl rfl ha.type ha.frame rfl rfl ?_ rfl ?_
      · refine (List.getElem?_append_right (by omega)).trans ?_
        rw [sc, Nat.add_sub_cancel_left]; rfl
      · refine (List.getElem?_append_right (by omega)).trans ?_
        rw [nz, Nat.add_sub_cancel_left]; rfl

theorem empty_rows {dof : Nat} (hd : dof = 4 ∨ dof = 5 ∨ dof = 7) :
    Consistent (PdTensors.empty dof).args ∧ RowsAre (PdTensors.empty dof).args [] ∧
    Consistent (GtTensors.empty dof).args ∧ RowsAre (GtTensors.empty dof).args [] := by
  refine ⟨⟨hd, ?_, rfl, rfl, ?_, ?_, ?_, ?_, ?_⟩, ⟨rfl, by simp⟩, ⟨hd, ?_, rfl, rfl, ?_, ?_, ?_, ?_, ?_⟩, ⟨rfl, by simp⟩⟩
  all_goals first
    | (intro r hr; simp [PdTensors.empty, PdTensors.args, GtTensors.empty, GtTensors.args] at hr; done)
    | (rintro l ⟨⟩; rfl)
    | (rintro l ⟨⟩; done)

/-- C119: after any number of updates the variables hold the rows of all batches, in the order of the updates. -/
theorem accumulate_rows {dof : Nat} (hd : dof = 4 ∨ dof = 5 ∨ dof = 7) {bs : List (PdTensors × GtTensors)}
    {rows : List (List (ℤ × Obj) × List (ℤ × Obj))} (h : List.Forall₂ (BatchRows dof) bs rows) :
    BatchRows dof (accumulate dof bs) ((rows.map Prod.fst).flatten, (rows.map Prod.snd).flatten) := by
  have key : ∀ {bs : List (PdTensors × GtTensors)} {rows : List (List (ℤ × Obj) × List (ℤ × Obj))} (s : PdTensors × GtTensors)
      (r : List (ℤ × Obj) × List (ℤ × Obj)), List.Forall₂ (BatchRows dof) bs rows → BatchRows dof s r →
      BatchRows dof (bs.foldl (fun s b => (s.1.append b.1, s.2.append b.2)) s)
        (r.1 ++ (rows.map Prod.fst).flatten, r.2 ++ (rows.map Prod.snd).flatten) := by
    intro bs rows s r h hs
    induction h generalizing s r with
    | nil => simpa using hs
    | @cons b q bs rows hb _ ih =>
      obtain ⟨a1, a2⟩ := pd_append (hs.pdDof.trans hb.pdDof.symm) hs.pd hb.pd hs.pdRows hb.pdRows
      obtain ⟨g1, g2⟩ := gt_append (hs.gtDof.trans hb.gtDof.symm) hs.gt hb.gt hs.gtRows hb.gtRows
      have := ih (s.1.append b.1, s.2.append b.2) (r.1 ++ q.1, r.2 ++ q.2) ⟨hs.pdDof, hs.gtDof, a1, g1, a2, g2⟩
      simpa [List.append_assoc] using this
  obtain ⟨e1, e2, e3, e4⟩ := empty_rows hd
  have := key (PdTensors.empty dof, GtTensors.empty dof) ([], []) h ⟨rfl, rfl, e1, e3, e2, e4⟩
  simpa [accumulate] using this

/-- C118: if no frame is spread over two batches, the sum of the states of the batches, given to the result operation,
yields what the metrics operation yields for the rows of all batches. -/
theorem states_accumulate_partial (E : Env O) (c : OpConfig O) {dof : Nat} (hd : dof = 4 ∨ dof = 5 ∨ dof = 7) (hc : c.base.cutoffs ≠ [])
    (hg : expectedShape c.base ≠ []) {bs : List (PdTensors × GtTensors)} (hne : bs ≠ [])
    {rows : List (List (ℤ × Obj) × List (ℤ × Obj))} (hrows : List.Forall₂ (BatchRows dof) bs rows)
    (hdis : rows.Pairwise fun r r' => ∀ k ∈ idList r.1 r.2, k ∉ idList r'.1 r'.2)
    (hu : ∀ r ∈ rows, ∀ f ∈ orEmpty (framesOf r.1 r.2), FrameUsable c.base (E.frame f)) :
    ∃ states fs, bs.mapM (fun b => stateOp E c b.1 b.2) = some states ∧
      opFrames (accumulate dof bs).1 (accumulate dof bs).2 = some fs ∧
      ∀ order : List Nat, order.Perm (List.range fs.length) →
        resultOp c (sumStates states) = detectionOp E c order (accumulate dof bs).1 (accumulate dof bs).2 := by
  have hone : ∀ b r, BatchRows dof b r → r ∈ rows → ∃ s, stateOp E c b.1 b.2 = some s ∧
      StateShape (expectedShape c.base).length c.base.cutoffs.length s ∧
      ∀ i j, stateAt s i j = cellOf ((orEmpty (framesOf r.1 r.2)).map fun f => frameCounts c.base (E.frame f) i j).sum := by
    intro b r hb hr
    refine stateOp_spec E c (frames_spec hb.pd hb.gt hb.pdRows hb.gtRows) ?_ hc hg (hu r hr)
    unfold orEmpty
    split_ifs with h
    · simp
    · exact h
  have hstates : ∀ {bs : List (PdTensors × GtTensors)} {rs : List (List (ℤ × Obj) × List (ℤ × Obj))},
      List.Forall₂ (BatchRows dof) bs rs → (∀ r ∈ rs, r ∈ rows) → ∃ states, bs.mapM (fun b => stateOp E c b.1 b.2) = some states ∧
      List.Forall₂ (fun fs s => StateShape (expectedShape c.base).length c.base.cutoffs.length s ∧
        ∀ i j, stateAt s i j = cellOf (fs.map fun f => frameCounts c.base (E.frame f) i j).sum)
        (rs.map fun r => orEmpty (framesOf r.1 r.2)) states := by
    intro bs rs h
    induction h with
    | nil => intro _; exact ⟨[], rfl, .nil⟩
    | @cons b r bs rs hb _ ih =>
      intro hm
      obtain ⟨s, s1, s2, s3⟩ := hone b r hb (hm r (by simp))
      obtain ⟨ss, t1, t2⟩ := ih fun q hq => hm q (List.mem_cons_of_mem _ hq)
      exact ⟨s :: ss, by rw [List.mapM_cons, s1, t1]; rfl, .cons ⟨s2, s3⟩ t2⟩
  obtain ⟨states, st1, st2⟩ := hstates hrows fun r hr => hr
  have hall := accumulate_rows hd hrows
  have hf := frames_spec hall.pd hall.gt hall.pdRows hall.gtRows
  have hperm := framesOf_flatten rows hdis
  have hrne : rows ≠ [] := by
    rintro rfl
    exact hne (by simpa using hrows.length_eq)
  have hmem : ∀ f ∈ orEmpty (framesOf (rows.map Prod.fst).flatten (rows.map Prod.snd).flatten),
      ∃ r ∈ rows, f ∈ orEmpty (framesOf r.1 r.2) := by
    intro f hf
    unfold orEmpty at hf
    split_ifs at hf with h0
    · obtain ⟨r, rs, hrs⟩ := List.exists_cons_of_ne_nil hrne
      refine ⟨r, by simp [hrs], ?_⟩
      rw [h0] at hperm
      have : framesOf r.1 r.2 = [] := by
        have h1 := hperm.symm.eq_nil
        rw [List.flatMap_eq_nil_iff] at h1
        exact h1 r (by simp [hrs])
      unfold orEmpty
      rw [if_pos this]
      exact hf
    · obtain ⟨r, hr, hfr⟩ := List.mem_flatMap.mp (hperm.mem_iff.mp hf)
      refine ⟨r, hr, ?_⟩
      unfold orEmpty
      rw [if_neg (by rintro h; rw [h] at hfr; simp at hfr)]
      exact hfr
  have hu' : ∀ f ∈ orEmpty (framesOf (rows.map Prod.fst).flatten (rows.map Prod.snd).flatten), FrameUsable c.base (E.frame f) := by
    intro f hf
    obtain ⟨r, hr, hfr⟩ := hmem f hf
    exact hu r hr f hfr
  refine ⟨states, _, st1, hf, fun order ho => ?_⟩
  refine result_of_sum E c hc hg _ states ?_ st2 hf ?_ hu' ?_ ho
  · rintro rfl
    have := st2.length_eq
    simp only [List.length_map, List.length_nil, List.length_eq_zero_iff] at this
    exact hrne this
  · unfold orEmpty
    split_ifs with h
    · simp
    · exact h
  · intro i j
    rw [sum_orEmpty E _ hu', (hperm.map _).sum_eq]
    have hs : ∀ rs : List (List (ℤ × Obj) × List (ℤ × Obj)), (∀ r ∈ rs, r ∈ rows) →
        ((rs.flatMap fun r => framesOf r.1 r.2).map fun f => frameCounts c.base (E.frame f) i j).sum =
        ((rs.map fun r => orEmpty (framesOf r.1 r.2)).map fun b => (b.map fun f => frameCounts c.base (E.frame f) i j).sum).sum := by
      intro rs hm
      induction rs with
      | nil => rfl
      | cons r rs ih =>
        rw [List.flatMap_cons, List.map_append, List.sum_append, ih fun q hq => hm q (List.mem_cons_of_mem _ hq), List.map_cons,
          List.map_cons, List.sum_cons, sum_orEmpty E _ (hu r (hm r (by simp)))]
    exact hs rows fun r hr => hr

end Verif.Ops
