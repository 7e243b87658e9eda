import Verif.Model.OccTutorial
import Verif.Lemmas.ListM
import Mathlib.Tactic.Linarith
import Mathlib.Tactic.FieldSimp
import Mathlib.Tactic.Ring
import Mathlib.Tactic.NormNum
import Mathlib.Tactic.Positivity
import Mathlib.Tactic.Cases
import Mathlib.Algebra.Order.Round

/-! Properties of the code of tutorial/tutorial_occupancy_flow.ipynb (C190 - C193). -/

namespace Verif.OccTutorial

/-! ### C190: cutting the channels -/

theorem take_drop_one {α : Type} (l : List α) (a : ℕ) : (l.drop a).take 1 = l[a]?.toList := by
  induction l generalizing a with
  | nil => simp
  | cons x l ih => cases a with
    | zero => simp
    | succ a => simpa using ih a

theorem take_drop_two {α : Type} (l : List α) (a : ℕ) :
    (l.drop a).take 2 = l[a]?.toList ++ l[a + 1]?.toList := by
  induction l generalizing a with
  | nil => simp
  | cons x l ih => cases a with
    | zero => cases l <;> simp
    | succ a => simpa using ih a

/-- The cut of a cut. -/
theorem slice_slice {α : Type} (a b c d : ℕ) (cells : List (List α)) (h : a + d ≤ b) :
    slice c d (slice a b cells) = slice (a + c) (a + d) cells := by
  unfold slice
  rw [List.map_map]
  apply List.map_congr_left
  intro x _
  simp only [Function.comp, List.drop_take, List.drop_drop, List.take_take]
  congr 1
  omega

/-- **C190**: way point `k` gets channel `4 k` of each cell as observed occupancy, `4 k + 1` as
occluded occupancy and the two after as flow, and there are as many way points as asked for,
whatever the network returns. -/
theorem waypoint_spec {α : Type} (n : ℕ) (out : List (List α)) :
    (waypointLogits n out).observed.length = n ∧ (waypointLogits n out).occluded.length = n ∧
    (waypointLogits n out).flow.length = n ∧
    ∀ k : ℕ, k < n →
      (waypointLogits n out).observed[k]? = some (out.map fun c => c[4 * k]?.toList) ∧
      (waypointLogits n out).occluded[k]? = some (out.map fun c => c[4 * k + 1]?.toList) ∧
      (waypointLogits n out).flow[k]? =
        some (out.map fun c => c[4 * k + 2]?.toList ++ c[4 * k + 3]?.toList) := by
  refine ⟨by simp [waypointLogits], by simp [waypointLogits], by simp [waypointLogits], ?_⟩
  intro k hk
  simp only [waypointLogits, List.map_map, List.getElem?_map, List.getElem?_range hk,
    Option.map_some, Function.comp, numChannels]
  rw [slice_slice _ _ _ _ _ (by omega), slice_slice _ _ _ _ _ (by omega),
    slice_slice _ _ _ _ _ (by omega)]
  refine ⟨?_, ?_, ?_⟩
  · congr 1
    unfold slice
    apply List.map_congr_left
    intro c _
    rw [show k * 4 + 1 - (k * 4 + 0) = 1 by omega, take_drop_one]
    congr 2; omega
  · congr 1
    unfold slice
    apply List.map_congr_left
    intro c _
    rw [show k * 4 + 2 - (k * 4 + 1) = 1 by omega, take_drop_one]
    congr 2; omega
  · congr 1
    unfold slice
    apply List.map_congr_left
    intro c _
    rw [show k * 4 + 4 - (k * 4 + 2) = 2 by omega, take_drop_two]
    congr 3 <;> omega

/-- **C190**: with four channels per way point, no channel is lost or used twice: the pieces of a
cell, put together, are the cell. -/
theorem waypoint_join {α : Type} (n : ℕ) (c : List α) (h : c.length = 4 * n) :
    (List.range n).flatMap (fun k => c[4 * k]?.toList ++ c[4 * k + 1]?.toList ++
      (c[4 * k + 2]?.toList ++ c[4 * k + 3]?.toList)) = c := by
  induction n generalizing c with
  | zero => simp at h; simp [h]
  | succ n ih =>
    obtain ⟨w, x, y, z, r, rfl⟩ : ∃ w x y z r, c = w :: x :: y :: z :: r := by
      rcases c with _ | ⟨w, _ | ⟨x, _ | ⟨y, _ | ⟨z, r⟩⟩⟩⟩
      · simp at h
      · simp at h; omega
      · simp at h; omega
      · simp at h; omega
      · exact ⟨w, x, y, z, r, rfl⟩
    rw [List.range_succ_eq_map, List.flatMap_cons, List.flatMap_map]
    have hr := ih r (by simp at h; omega)
    have e : ∀ k : ℕ, 4 * Nat.succ k = 4 * k + 4 := fun k => by omega
    simp only [e, List.getElem?_cons_succ, Nat.mul_zero, List.getElem?_cons_zero, Option.toList_some,
      Nat.zero_add, List.cons_append, List.nil_append]
    have e2 : ∀ k : ℕ, (w :: x :: y :: z :: r)[4 * k + 4 + 1]? = r[4 * k + 1]? ∧
        (w :: x :: y :: z :: r)[4 * k + 4 + 2]? = r[4 * k + 2]? ∧
        (w :: x :: y :: z :: r)[4 * k + 4 + 3]? = r[4 * k + 3]? ∧
        (w :: x :: y :: z :: r)[4 * k + 4]? = r[4 * k]? := by
      intro k
      refine ⟨?_, ?_, ?_, ?_⟩
      · rw [show 4 * k + 4 + 1 = (4 * k + 1) + 4 by omega]; simp
      · rw [show 4 * k + 4 + 2 = (4 * k + 2) + 4 by omega]; simp
      · rw [show 4 * k + 4 + 3 = (4 * k + 3) + 4 by omega]; simp
      · simp
    simp only [List.append_assoc] at hr
    simp [e2, hr]

/-- A concrete case: two way points. -/
example : waypointLogits 2 [[0, 1, 2, 3, 4, 5, 6, 7], [10, 11, 12, 13, 14, 15, 16, 17]] =
    { observed := [[[0], [10]], [[4], [14]]], occluded := [[[1], [11]], [[5], [15]]],
      flow := [[[2, 3], [12, 13]], [[6, 7], [16, 17]]] } := by decide

/-! ### C191: the occupancy loss -/

theorem sigmoid_pos (x : ℝ) : 0 < sigmoid x := by unfold sigmoid; positivity

theorem sigmoid_lt_one (x : ℝ) : sigmoid x < 1 := by
  unfold sigmoid
  rw [div_lt_one (by positivity)]
  linarith [Real.exp_pos (-x)]

theorem one_sub_sigmoid (x : ℝ) : 1 - sigmoid x = sigmoid (-x) := by
  unfold sigmoid
  rw [neg_neg]
  have h : Real.exp (-x) * Real.exp x = 1 := by rw [← Real.exp_add]; simp
  field_simp
  nlinarith

theorem log_sigmoid (x : ℝ) : Real.log (sigmoid x) = -Real.log (1 + Real.exp (-x)) := by
  unfold sigmoid
  rw [Real.log_div one_ne_zero (by positivity), Real.log_one, zero_sub]

theorem log_one_add_exp (x : ℝ) : Real.log (1 + Real.exp x) = x + Real.log (1 + Real.exp (-x)) := by
  have : (1 + Real.exp x) = Real.exp x * (1 + Real.exp (-x)) := by
    rw [mul_add, ← Real.exp_add]; simp; ring
  rw [this, Real.log_mul (by positivity) (by positivity), Real.log_exp]

/-- **C191**: the stable form is the cross entropy of the label and the probability. -/
theorem xe_spec (z x : ℝ) :
    xe z x = -(z * Real.log (sigmoid x)) - (1 - z) * Real.log (1 - sigmoid x) := by
  rw [one_sub_sigmoid, log_sigmoid, log_sigmoid, neg_neg]
  unfold xe
  rcases le_total 0 x with h | h
  · rw [max_eq_left h, abs_of_nonneg h, log_one_add_exp x]; ring
  · rw [max_eq_right h, abs_of_nonpos h, neg_neg, log_one_add_exp x]; ring

/-- Labels between zero and one have no negative loss. -/
theorem xe_nonneg (z x : ℝ) (h0 : 0 ≤ z) (h1 : z ≤ 1) : 0 ≤ xe z x := by
  rw [xe_spec]
  have a := Real.log_nonpos (sigmoid_pos x).le (sigmoid_lt_one x).le
  have b := Real.log_nonpos (x := 1 - sigmoid x) (by linarith [sigmoid_lt_one x])
    (by linarith [sigmoid_pos x])
  nlinarith

/-- More confident is better: for an occupied cell the loss falls with the logit, for a free cell
it grows. -/
theorem xe_mono {x y : ℝ} (h : x < y) : xe 1 y < xe 1 x ∧ xe 0 x < xe 0 y := by
  have e : Real.exp (-y) < Real.exp (-x) := Real.exp_lt_exp.2 (by linarith)
  have e' : Real.exp x < Real.exp y := Real.exp_lt_exp.2 h
  constructor
  · simp only [xe_spec, log_sigmoid, sub_self, zero_mul, sub_zero, one_mul, neg_neg]
    exact Real.log_lt_log (by positivity) (by linarith)
  · simp only [xe_spec, one_sub_sigmoid, log_sigmoid, sub_zero, one_mul, zero_mul, neg_zero,
      zero_sub, neg_neg]
    exact Real.log_lt_log (by positivity) (by linarith)

/-- **C191**: the loss of a grid is a thousand times the mean cross entropy of its cells. -/
theorem sigmoidXe_spec (t p : List ℝ) (h : t.length = p.length) (hp : p ≠ []) (w : ℝ) :
    sigmoidXe t p w = some (w * ((t.zip p).map fun c =>
      -(c.1 * Real.log (sigmoid c.2)) - (1 - c.1) * Real.log (1 - sigmoid c.2)).sum / p.length) := by
  unfold sigmoidXe
  rw [if_neg (by simp [h, hp])]
  congr 4
  rw [List.zip, List.map_zipWith]
  congr 1
  funext a b
  exact xe_spec a b

/-- **C191**: the occupancy losses of `n` way points are the means of the losses of the way
points, each between the ground truth and the logits of the same way point. -/
theorem occupancyFlowLoss_spec (n : ℕ) (hn : 0 < n) (t p : Grids) (a b c : ℕ → ℝ)
    (ha : ∀ k < n, ∃ x y, t.observed[k]? = some x ∧ p.observed[k]? = some y ∧
      sigmoidXe x y = some (a k))
    (hb : ∀ k < n, ∃ x y, t.occluded[k]? = some x ∧ p.occluded[k]? = some y ∧
      sigmoidXe x y = some (b k))
    (hc : ∀ k < n, ∃ x y, t.flow[k]? = some x ∧ p.flow[k]? = some y ∧ flowLoss y x = some (c k)) :
    occupancyFlowLoss n t p = some
      { observed := ((List.range n).map a).sum / n, occluded := ((List.range n).map b).sum / n,
        flow := ((List.range n).map c).sum / n } := by
  have key : ∀ (f : ℕ → Option ℝ) (g : ℕ → ℝ), (∀ k < n, f k = some (g k)) →
      (List.range n).mapM f = some ((List.range n).map g) := by
    intro f g h
    apply ListM.forall₂_mapM
    rw [List.forall₂_map_right_iff]
    apply List.forall₂_same.2
    intro k hk
    exact h k (List.mem_range.1 hk)
  have hne : ∀ g : ℕ → ℝ, (List.range n).map g ≠ [] := by
    intro g h
    have := congrArg List.length h
    simp at this; omega
  unfold occupancyFlowLoss
  rw [key _ a (by
      intro k hk; obtain ⟨x, y, h1, h2, h3⟩ := ha k hk; simp [h1, h2, h3]),
    key _ b (by
      intro k hk; obtain ⟨x, y, h1, h2, h3⟩ := hb k hk; simp [h1, h2, h3]),
    key _ c (by
      intro k hk; obtain ⟨x, y, h1, h2, h3⟩ := hc k hk; simp [h1, h2, h3])]
  simp [meanOf, hn.ne']

/-! ### C192: the flow loss -/

/-- Specification: the L1 distance of the flows of a cell. -/
def l1 (c : (ℝ × ℝ) × (ℝ × ℝ)) : ℝ := |c.1.1 - c.2.1| + |c.1.2 - c.2.2|

open Classical in
/-- Specification: the mean L1 distance over the cells whose flow, according to `mask`, is not
zero; zero if there are none. -/
noncomputable def meanL1 (mask : (ℝ × ℝ) × (ℝ × ℝ) → ℝ × ℝ) (t p : List (ℝ × ℝ)) : ℝ :=
  let cells := (t.zip p).filter fun c => mask c ≠ (0, 0)
  if cells.length = 0 then 0 else (cells.map l1).sum / cells.length

theorem flowExists_eq (f : ℝ × ℝ) : flowExists f = if f ≠ (0, 0) then 1 else 0 := by
  unfold flowExists
  by_cases h : f.1 ≠ 0 ∨ f.2 ≠ 0
  · rw [if_pos h, if_pos]; rintro rfl; simp at h
  · rw [if_neg h, if_neg]
    push Not at h ⊢
    exact Prod.ext h.1 h.2

open Classical in
theorem flow_sums (t p : List (ℝ × ℝ)) (h : t.length = p.length) :
    ((List.zipWith (fun (d : ℝ × ℝ) e => (d.1 * e, d.2 * e))
      (List.zipWith (fun t p => (t.1 - p.1, t.2 - p.2)) t p) (t.map flowExists)).map
        (fun d => |d.1| + |d.2|)).sum =
      (((t.zip p).filter fun c => c.1 ≠ (0, 0)).map l1).sum ∧
    (t.map flowExists).sum = (((t.zip p).filter fun c => c.1 ≠ (0, 0)).length : ℝ) := by
  induction t generalizing p with
  | nil => simp
  | cons x t ih =>
    cases p with
    | nil => simp at h
    | cons y p =>
      obtain ⟨h1, h2⟩ := ih p (by simpa using h)
      by_cases hx : x = (0, 0)
      · constructor
        · simp only [List.zipWith_cons_cons, List.map_cons, List.sum_cons, h1, List.zip_cons_cons]
          rw [flowExists_eq, if_neg (by simpa using hx), List.filter_cons_of_neg (by simpa using hx)]
          simp
        · simp only [List.map_cons, List.sum_cons, h2, List.zip_cons_cons]
          rw [flowExists_eq, if_neg (by simpa using hx), List.filter_cons_of_neg (by simpa using hx)]
          simp
      · constructor
        · simp only [List.zipWith_cons_cons, List.map_cons, List.sum_cons, h1, List.zip_cons_cons]
          rw [flowExists_eq, if_pos hx, List.filter_cons_of_pos (by simpa using hx)]
          simp [l1]
        · simp only [List.map_cons, List.sum_cons, h2, List.zip_cons_cons]
          rw [flowExists_eq, if_pos hx, List.filter_cons_of_pos (by simpa using hx)]
          simp [add_comm]

/-- `_flow_loss` itself is twice the mean over the cells where its first argument is not zero: the
existing cells are divided by two although each is counted once. -/
theorem flowLoss_spec (t p : List (ℝ × ℝ)) (h : t.length = p.length) (w : ℝ) :
    flowLoss t p w = some (w * (2 * meanL1 Prod.fst t p)) := by
  classical
  obtain ⟨h1, h2⟩ := flow_sums t p h
  unfold flowLoss
  rw [if_neg (by simpa using h)]
  dsimp only
  rw [h1, h2]
  unfold meanL1 divNoNan
  dsimp only
  by_cases hz : ((t.zip p).filter fun c => c.1 ≠ (0, 0)).length = 0
  · rw [if_pos hz, if_pos (by rw [hz]; simp)]; simp
  · rw [if_neg hz, if_neg (by simpa using hz)]
    have : (((t.zip p).filter fun c => c.1 ≠ (0, 0)).length : ℝ) ≠ 0 := by exact_mod_cast hz
    congr 2
    field_simp

theorem meanL1_swap (t p : List (ℝ × ℝ)) : meanL1 Prod.fst p t = meanL1 Prod.snd t p := by
  classical
  unfold meanL1
  have e : (p.zip t).filter (fun c => Prod.fst c ≠ (0, 0)) =
      ((t.zip p).filter fun c => Prod.snd c ≠ (0, 0)).map Prod.swap := by
    rw [← List.zip_swap t p, List.filter_map]
    rfl
  dsimp only
  rw [e]
  simp only [List.length_map, List.map_map]
  congr 3
  apply List.map_congr_left
  intro c _
  simp only [Function.comp, l1, Prod.fst_swap, Prod.snd_swap]
  rw [abs_sub_comm, abs_sub_comm c.2.2]

/-- **C192, what holds**: the flow loss of one way point, as the training uses it, is twice the
mean L1 error over the cells in which the *predicted* flow is not zero; where predicted and true
flow are zero in the same cells this is twice the mean over the cells with true flow. -/
theorem trainedFlow_partial (t p : List (ℝ × ℝ)) (h : t.length = p.length) :
    flowLoss p t = some (2 * meanL1 Prod.snd t p) ∧
    ((∀ c ∈ t.zip p, c.1 = (0, 0) ↔ c.2 = (0, 0)) → flowLoss p t = some (2 * meanL1 Prod.fst t p)) := by
  have e := flowLoss_spec p t h.symm 1
  rw [meanL1_swap, one_mul] at e
  refine ⟨e, fun hc => ?_⟩
  rw [e]
  classical
  unfold meanL1
  dsimp only
  rw [List.filter_congr (q := fun c => Prod.fst c ≠ (0, 0))]
  intro c hm
  simp [hc c hm]

/-- **C192 is violated**: a network that predicts no flow anywhere has no flow loss, whatever the
true flow. -/
theorem zero_flow_violated :
    (∀ t : List (ℝ × ℝ), flowLoss (t.map fun _ => ((0 : ℝ), (0 : ℝ))) t = some 0) ∧
    ∃ t : List (ℝ × ℝ), meanL1 Prod.fst t (t.map fun _ => (0, 0)) = 100 := by
  classical
  constructor
  · intro t
    rw [(trainedFlow_partial t (t.map fun _ => (0, 0)) (by simp)).1]
    have : (t.zip (t.map fun _ => ((0 : ℝ), (0 : ℝ)))).filter (fun c => Prod.snd c ≠ (0, 0)) = [] := by
      rw [List.filter_eq_nil_iff]
      intro c hc
      have := (List.of_mem_zip hc).2
      simp only [List.mem_map] at this
      obtain ⟨_, _, h⟩ := this
      simp [← h]
    unfold meanL1
    dsimp only
    rw [this]
    simp
  · refine ⟨[(60, 40)], ?_⟩
    simp [meanL1, l1]
    norm_num

/-- **C192 is violated**: even of a complete prediction the loss is twice the mean error. -/
theorem doubled_flow_violated :
    ∃ t p : List (ℝ × ℝ), (∀ c ∈ t.zip p, c.1 ≠ (0, 0) ∧ c.2 ≠ (0, 0)) ∧
      meanL1 Prod.fst t p = 1 ∧ flowLoss p t = some 2 := by
  classical
  refine ⟨[(1, 0)], [(2, 0)], by simp, ?_, ?_⟩
  · simp [meanL1, l1]; norm_num
  · rw [(trainedFlow_partial [(1, 0)] [(2, 0)] rfl).1]
    simp [meanL1, l1]; norm_num

/-- **C192 is violated**: the training step compares with the way points of an earlier cell and
not with those of its own batch. -/
theorem train_violated :
    ∃ (rasterize run : Unit → Grids) (global : Grids) (own : Losses),
      occupancyFlowLoss 1 (rasterize ()) (run ()) = some own ∧
      trainLoss 1 rasterize run global () ≠ some (own.observed + own.occluded + own.flow) := by
  classical
  let g (x : ℝ) : Grids := { observed := [[0]], occluded := [[0]], flow := [[(x, 0)]] }
  have loss : ∀ x : ℝ, occupancyFlowLoss 1 (g x) (g 1) = some
      { observed := 1000 * xe 0 0, occluded := 1000 * xe 0 0, flow := 2 * |x - 1| } := by
    intro x
    have := occupancyFlowLoss_spec 1 one_pos (g x) (g 1) (fun _ => 1000 * xe 0 0)
      (fun _ => 1000 * xe 0 0) (fun _ => 2 * |x - 1|)
      (by intro k hk; obtain rfl : k = 0 := by omega
          exact ⟨_, _, rfl, rfl, by simp [sigmoidXe]⟩)
      (by intro k hk; obtain rfl : k = 0 := by omega
          exact ⟨_, _, rfl, rfl, by simp [sigmoidXe]⟩)
      (by intro k hk; obtain rfl : k = 0 := by omega
          refine ⟨_, _, rfl, rfl, ?_⟩
          rw [(trainedFlow_partial [(x, 0)] [(1, 0)] rfl).1]
          simp [meanL1, l1])
    rw [this]; simp
  refine ⟨fun _ => g 2, fun _ => g 1, g 1, _, loss 2, ?_⟩
  unfold trainLoss
  rw [loss 1]
  simp
  norm_num

/-- What holds of the training step: if the batch is the one of the earlier cell, then it takes the sum of the three losses of that batch, and it raises
exactly if they cannot be computed. -/
theorem train_partial {I : Type} (n : ℕ) (rasterize run : I → Grids) (x : I) :
    (∀ own, occupancyFlowLoss n (rasterize x) (run x) = some own →
      trainLoss n rasterize run (rasterize x) x = some (own.observed + own.occluded + own.flow)) ∧
    (occupancyFlowLoss n (rasterize x) (run x) = none → trainLoss n rasterize run (rasterize x) x = none) := by
  unfold trainLoss
  constructor
  · intro own h; rw [h]; rfl
  · intro h; rw [h]; rfl

/-- The training step depends on the batch only through the output of the network. -/
theorem train_ignores_batch {I : Type} (n : ℕ) (r r' : I → Grids) (run : I → Grids) (g : Grids)
    (x y : I) (h : run x = run y) : trainLoss n r run g x = trainLoss n r' run g y := by
  unfold trainLoss; rw [h]

/-! ### C193: the submission -/

theorem roundHalfEvenR_abs (x : ℝ) : |x - roundHalfEvenR x| ≤ 1 / 2 := by
  have hf := Int.self_sub_floor x
  have h0 := Int.fract_nonneg x
  have h1 := Int.fract_lt_one x
  unfold roundHalfEvenR
  split_ifs with a b c
  · rw [hf, abs_of_nonneg h0]; exact a.le
  · push_cast
    rw [show x - (⌊x⌋ + 1) = Int.fract x - 1 by rw [← hf]; ring, abs_of_nonpos (by linarith)]
    linarith
  · rw [hf, abs_of_nonneg h0]; linarith
  · push_cast
    rw [show x - (⌊x⌋ + 1) = Int.fract x - 1 by rw [← hf]; ring, abs_of_nonpos (by linarith)]
    linarith

/-- **C193**: a probability is written as a byte that is nearest to 255 times it. -/
theorem quantOcc_spec (x : ℝ) (h0 : 0 ≤ x) (h1 : x ≤ 1) :
    quantOcc x ≤ 255 ∧ |(quantOcc x : ℝ) / 255 - x| ≤ 1 / 510 := by
  have h := abs_le.1 (roundHalfEvenR_abs (x * 255))
  have l : (-1 : ℝ) < roundHalfEvenR (x * 255) := by linarith [h.2]
  have u : (roundHalfEvenR (x * 255) : ℝ) < 256 := by linarith [h.1]
  have l' : -1 < roundHalfEvenR (x * 255) := by exact_mod_cast l
  have u' : roundHalfEvenR (x * 255) < 256 := by exact_mod_cast u
  have e : ((quantOcc x : ℕ) : ℤ) = roundHalfEvenR (x * 255) := by
    unfold quantOcc
    rw [Int.toNat_of_nonneg (by omega)]; omega
  have er : ((quantOcc x : ℕ) : ℝ) = (roundHalfEvenR (x * 255) : ℝ) := by
    rw [← e]; simp
  refine ⟨by omega, ?_⟩
  rw [er, abs_le]
  constructor <;> linarith [h.1, h.2]

/-- **C193**: a flow within the range of a signed byte is written rounded, others as the nearest
end of the range. -/
theorem quantFlow_spec (x : ℝ) :
    -128 ≤ quantFlow x ∧ quantFlow x ≤ 127 ∧
    (-128 ≤ x → x ≤ 127 → |(quantFlow x : ℝ) - x| ≤ 1 / 2) ∧
    (127 ≤ x → quantFlow x = 127) ∧ (x ≤ -128 → quantFlow x = -128) := by
  have h := abs_le.1 (roundHalfEvenR_abs x)
  unfold quantFlow
  refine ⟨by omega, by omega, ?_, ?_, ?_⟩
  · intro a b
    have l : (-129 : ℝ) < roundHalfEvenR x := by linarith [h.2]
    have u : (roundHalfEvenR x : ℝ) < 128 := by linarith [h.1]
    have l' : -129 < roundHalfEvenR x := by exact_mod_cast l
    have u' : roundHalfEvenR x < 128 := by exact_mod_cast u
    rw [min_eq_right (by omega), max_eq_right (by omega), abs_sub_comm]
    exact roundHalfEvenR_abs x
  · intro a
    have u : (126 : ℝ) < roundHalfEvenR x := by linarith [h.2]
    have u' : 126 < roundHalfEvenR x := by exact_mod_cast u
    omega
  · intro a
    have u : (roundHalfEvenR x : ℝ) < -127 := by linarith [h.1]
    have u' : roundHalfEvenR x < -127 := by exact_mod_cast u
    omega

/-- **C193**: the message of way point `k` has the quantized grids of way point `k`. -/
theorem addWaypoints_spec (n : ℕ) (g : Grids) (ms : List WaypointMessage)
    (h : addWaypoints n g = some ms) : ms.length = n ∧ ∀ k : ℕ, k < n → ∃ a b c,
      g.observed[k]? = some a ∧ g.occluded[k]? = some b ∧ g.flow[k]? = some c ∧
      ms[k]? = some { observed := a.map quantOcc, occluded := b.map quantOcc,
                      flow := c.map fun p => (quantFlow p.1, quantFlow p.2) } := by
  have hf := ListM.mapM_forall₂ h
  have hl := hf.length_eq
  rw [List.length_range] at hl
  refine ⟨hl.symm, fun k hk => ?_⟩
  have hk' : k < ms.length := by omega
  have := List.forall₂_iff_get.1 hf |>.2 k (by simpa using hk) hk'
  simp only [List.get_eq_getElem, List.getElem_range] at this
  cases ha : g.observed[k]? with
  | none => simp [ha] at this
  | some a =>
    cases hb : g.occluded[k]? with
    | none => simp [ha, hb] at this
    | some b =>
      cases hc : g.flow[k]? with
      | none => simp [ha, hb, hc] at this
      | some c =>
        simp only [ha, hb, hc, Option.bind_eq_bind, Option.bind_some, Option.pure_def,
          Option.some.injEq] at this
        exact ⟨a, b, c, rfl, rfl, rfl, by rw [List.getElem?_eq_getElem hk', ← this]⟩

/-- Messages exist exactly if every way point has its three grids. -/
theorem addWaypoints_some (n : ℕ) (g : Grids) (ho : n ≤ g.observed.length)
    (hc : n ≤ g.occluded.length) (hf : n ≤ g.flow.length) : ∃ ms, addWaypoints n g = some ms := by
  apply ListM.mapM_isSome
  intro k hk
  rw [List.mem_range] at hk
  rw [List.getElem?_eq_getElem (by omega), List.getElem?_eq_getElem (by omega),
    List.getElem?_eq_getElem (by omega)]
  exact ⟨_, rfl⟩

/-- The grids of a network with all way points. -/
def Complete (n : ℕ) (g : Grids) : Prop :=
  n ≤ g.observed.length ∧ n ≤ g.occluded.length ∧ n ≤ g.flow.length

/-- **C193**: the submission of a shard gets exactly one prediction for each example whose scenario
is in the list of test scenarios, in order, under its id, made of that example. -/
theorem predictShard_spec {I : Type} (n : ℕ) (idOf : I → String) (run : I → Grids)
    (ids : List String) (xs : List I) (hrun : ∀ x ∈ xs, Complete n (run x))
    (sub : List (String × List WaypointMessage)) :
    ∃ preds, predictShard n idOf run ids sub xs = some (sub ++ preds) ∧
      List.Forall₂ (fun x p => p.1 = idOf x ∧ addWaypoints n (applySigmoid (run x)) = some p.2)
        (xs.filter fun x => ids.contains (idOf x)) preds := by
  induction xs generalizing sub with
  | nil => exact ⟨[], by simp [predictShard], List.Forall₂.nil⟩
  | cons x xs ih =>
    by_cases hx : ids.contains (idOf x) = true
    · obtain ⟨ws, hws⟩ := addWaypoints_some n (applySigmoid (run x))
        (by simpa [applySigmoid] using (hrun x (by simp)).1)
        (by simpa [applySigmoid] using (hrun x (by simp)).2.1)
        (by simpa [applySigmoid] using (hrun x (by simp)).2.2)
      obtain ⟨preds, h1, h2⟩ := ih (fun y hy => hrun y (by simp [hy])) (sub ++ [(idOf x, ws)])
      refine ⟨(idOf x, ws) :: preds, ?_, ?_⟩
      · simp only [predictShard, hx, if_true, hws, Option.bind_eq_bind, Option.bind_some]
        rw [h1]; simp
      · rw [List.filter_cons_of_pos (by simpa using hx)]
        exact List.Forall₂.cons ⟨rfl, hws⟩ h2
    · obtain ⟨preds, h1, h2⟩ := ih (fun y hy => hrun y (by simp [hy])) sub
      refine ⟨preds, ?_, ?_⟩
      · simp only [predictShard, hx, if_false, Bool.false_eq_true]
        exact h1
      · rw [List.filter_cons_of_neg (by simpa using hx)]; exact h2

/-- **C193**: what is written are probabilities, the larger the more the network believes in
them, and the flow is not touched. -/
theorem applySigmoid_spec (g : Grids) :
    (applySigmoid g).flow = g.flow ∧
    (applySigmoid g).observed = g.observed.map (·.map sigmoid) ∧
    (applySigmoid g).occluded = g.occluded.map (·.map sigmoid) ∧
    (∀ x : ℝ, 0 < sigmoid x ∧ sigmoid x < 1) ∧ StrictMono sigmoid := by
  refine ⟨rfl, rfl, rfl, fun x => ⟨sigmoid_pos x, sigmoid_lt_one x⟩, ?_⟩
  intro x y h
  unfold sigmoid
  apply one_div_lt_one_div_of_lt (by positivity)
  have := Real.exp_lt_exp.2 (neg_lt_neg h)
  linarith

/-- A concrete case: an even logit is written as 128. -/
example : quantOcc (sigmoid 0) = 128 ∧ quantFlow (-300) = -128 := by
  refine ⟨?_, (quantFlow_spec _).2.2.2.2 (by norm_num)⟩
  have : sigmoid 0 * 255 = 127 + 1 / 2 := by unfold sigmoid; norm_num
  have f : ⌊sigmoid 0 * 255⌋ = 127 := by rw [this, Int.floor_eq_iff]; norm_num
  have r : Int.fract (sigmoid 0 * 255) = 1 / 2 := by
    rw [← Int.self_sub_floor, f, this]; norm_num
  unfold quantOcc roundHalfEvenR
  rw [r, f]; norm_num; rfl

end Verif.OccTutorial
