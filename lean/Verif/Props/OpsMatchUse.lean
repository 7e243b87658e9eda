import Verif.Props.OpsMatch
import Mathlib.Data.List.Basic
import Mathlib.Algebra.BigOperators.Group.List.Basic

/-!
Properties C129 and C130: the operation that matches a batch of boxes, its refusals, and the types of matcher.
-/

namespace Verif.OpsMatch

open Verif.Matcher
open Verif.Ops (Box)

/-! ## Specification -/

/-- Specification: box number `k` of a tensor whose boxes have `d` numbers, as if it were reshaped to `[-1, d]`.  With seven
numbers the third is the height of the bottom. -/
def flatBox (d : ℕ) (data : ℕ → ℚ) (k : ℕ) : Box :=
  let x := fun c => data (k * d + c)
  if d = 7 then ⟨some (x 0), some (x 1), some (x 2 + x 5 / 2), some (x 3), some (x 4), some (x 5), some (x 6)⟩
  else if d = 5 then ⟨some (x 0), some (x 1), none, some (x 2), some (x 3), none, some (x 4)⟩
  else ⟨some (x 0), some (x 1), none, some (x 2), some (x 3), none, none⟩

/-- Specification: the shapes and the box type go together. -/
def Shaped (c : Config) (b n m d : ℕ) (pred gt : Tensor) : Prop :=
  pred.shape = [b, n, d] ∧ gt.shape = [b, m, d] ∧
    ((c.boxType = 3 ∧ d = 4) ∨ (c.boxType = 2 ∧ (d = 5 ∨ d = 7)) ∨ (c.boxType = 1 ∧ d = 7))

/-- Specification: one-to-one pairs of boxes that may be matched and belong to the same element of the batch; the boxes are
counted through the whole batch. -/
structure BatchLegal (iouOf : ℕ → Box → Box → ℚ) (c : Config) (b n m d : ℕ) (pred gt : Tensor) (A : List (ℕ × ℕ)) : Prop where
  pairs : OneToOne iouOf c (flatBox d pred.data) (flatBox d gt.data) (b * n) (b * m) A
  same : ∀ x ∈ A, x.1 / n = x.2 / m

/-! ## Parsing -/

theorem mapM_range {α : Type} (f : ℕ → Option α) (g : ℕ → α) (n : ℕ) (h : ∀ i < n, f i = some (g i)) :
    (List.range n).mapM f = some ((List.range n).map g) := by
  have : ∀ l : List ℕ, (∀ i ∈ l, i < n) → l.mapM f = some (l.map g) := by
    intro l
    induction l with
    | nil => intro _; rfl
    | cons a l ih =>
      intro hl
      rw [List.mapM_cons, h a (hl a (by simp)), ih (fun i hi => hl i (List.mem_cons_of_mem _ hi))]
      rfl
  exact this _ (fun i hi => List.mem_range.mp hi)

/-- The objects of one element of the batch. -/
def objects (d : ℕ) (data : ℕ → ℚ) (n b : ℕ) : List (Obj Box) :=
  (List.range n).map fun i => ⟨1, flatBox d data (b * n + i), 1⟩

theorem parse_spec {d : ℕ} (hd : d = 4 ∨ d = 5 ∨ d = 7) (b n : ℕ) (data : ℕ → ℚ) :
    parseBoxesTensor b n d data = some ((List.range b).map fun k => objects d data n k) := by
  unfold parseBoxesTensor
  refine mapM_range _ _ _ fun k _ => ?_
  refine mapM_range _ _ _ fun i _ => ?_
  rcases hd with rfl | rfl | rfl <;> rfl

theorem boxIn_objects {d : ℕ} {data : ℕ → ℚ} {n b i : ℕ} (h : i < n) :
    boxIn (objects d data n b) i = flatBox d data (b * n + i) := by
  simp [boxIn, objects, h]

theorem objects_length (d : ℕ) (data : ℕ → ℚ) (n b : ℕ) : (objects d data n b).length = n := by simp [objects]

theorem objects_type (d : ℕ) (data : ℕ → ℚ) (n b : ℕ) : ∀ o ∈ objects d data n b, o.type = 1 := by
  intro o ho
  obtain ⟨i, _, rfl⟩ := List.mem_map.mp ho
  rfl

theorem zip_map_range {α γ : Type} (f : ℕ → α) (g : ℕ → γ) (n : ℕ) :
    ((List.range n).map f).zip ((List.range n).map g) = (List.range n).map fun i => (f i, g i) := by
  apply List.ext_getElem
  · simp
  · intro i h1 h2; simp

theorem zipIdx_map_range {α : Type} (f : ℕ → α) (n : ℕ) :
    ((List.range n).map f).zipIdx = (List.range n).map fun i => (f i, i) := by
  apply List.ext_getElem
  · simp
  · intro i h1 h2; simp

theorem mapM_map_range {α γ : Type} (f : α → Option γ) (g : ℕ → α) (r : ℕ → γ) (n : ℕ) (h : ∀ i < n, f (g i) = some (r i)) :
    ((List.range n).map g).mapM f = some ((List.range n).map r) := by
  rw [List.mapM_map]
  exact mapM_range _ _ _ h

/-! ## Sums over the elements of the batch -/

theorem sum_split {α : Type} (f : α → ℤ) (k : α → ℕ) (b : ℕ) : ∀ A : List α, (∀ x ∈ A, k x < b) →
    (A.map f).sum = ((List.range b).map fun e => ((A.filter fun x => k x = e).map f).sum).sum := by
  intro A
  induction A with
  | nil => intro _; simp
  | cons a A ih =>
    intro h
    have ha := h a (by simp)
    rw [List.map_cons, List.sum_cons, ih fun x hx => h x (List.mem_cons_of_mem _ hx)]
    have e : ∀ e, (((a :: A).filter fun x => k x = e).map f).sum =
        (if k a = e then f a else 0) + ((A.filter fun x => k x = e).map f).sum := by
      intro e
      by_cases hk : k a = e <;> simp [hk]
    simp only [e]
    rw [List.sum_map_add]
    congr 1
    clear ih h e
    induction b with
    | zero => omega
    | succ b ih =>
      rw [List.range_succ, List.map_append, List.sum_append]
      by_cases hb : k a = b
      · have : ((List.range b).map fun e => if k a = e then f a else 0).sum = 0 := by
          refine List.sum_eq_zero fun x hx => ?_
          obtain ⟨e, he, rfl⟩ := List.mem_map.mp hx
          have := List.mem_range.mp he
          rw [if_neg (by omega)]
        rw [this]
        simp [hb]
      · have h' := ih (by omega)
        rw [← h']
        simp [hb]

theorem sum_le_range (f g : ℕ → ℤ) (n : ℕ) (h : ∀ i < n, f i ≤ g i) :
    ((List.range n).map f).sum ≤ ((List.range n).map g).sum := by
  induction n with
  | zero => simp
  | succ n ih =>
    simp only [List.range_succ, List.map_append, List.sum_append, List.map_cons, List.map_nil, List.sum_cons, List.sum_nil,
      add_zero]
    exact add_le_add (ih fun i hi => h i (by omega)) (h n (by omega))

/-! ## The whole batch -/

/-- C129. For tensors whose shapes go with the box type, the operation with the Hungarian matcher succeeds.  The pairs that
it returns are one-to-one, in range, of the same element of the batch, of boxes with positive extents, and reach the
threshold; the predictions come in increasing order; each pair comes with its own similarity and affinity; and no other
such set of pairs has a larger total worth. -/
theorem matchOp_spec {iouOf : ℕ → Box → Box → ℚ} {c : Config} (hs : Sane iouOf c) {b n m d : ℕ} {pred gt : Tensor}
    (hsh : Shaped c b n m d pred gt) :
    ∃ out, matchOp iouOf c pred gt = some out ∧
      BatchLegal iouOf c b n m d pred gt (out.map MatchResult.pair) ∧
      (out.map MatchResult.prediction).Pairwise (· < ·) ∧
      (∀ r ∈ out, r.iou = iouFn iouOf c (flatBox d pred.data r.prediction) (flatBox d gt.data r.truth) ∧
        r.affinity = affFn c (flatBox d pred.data r.prediction) (flatBox d gt.data r.truth)) ∧
      ∀ A, BatchLegal iouOf c b n m d pred gt A →
        value iouOf c (flatBox d pred.data) (flatBox d gt.data) A ≤
          value iouOf c (flatBox d pred.data) (flatBox d gt.data) (out.map MatchResult.pair) := by
  obtain ⟨sp, sg, htab⟩ := hsh
  have hd : d = 4 ∨ d = 5 ∨ d = 7 := by omega
  have hfit : dimensionFits c.boxType d = true := by
    simp only [dimensionFits, Bool.or_eq_true, Bool.and_eq_true, beq_iff_eq]
    tauto
  have hex : ∀ e, ∃ out, matchBoxes iouOf c (objects d pred.data n e) (objects d gt.data m e) = some out ∧
      Answer iouOf c (boxIn (objects d pred.data n e)) (boxIn (objects d gt.data m e)) n m out := by
    intro e
    have := matchBoxes_spec hs (objects d pred.data n e) (objects d gt.data m e) (objects_type _ _ _ _) (objects_type _ _ _ _)
    rwa [objects_length, objects_length] at this
  choose o ho ans using hex
  let shift : ℕ → MatchResult → MatchResult := fun e r =>
    { r with prediction := r.prediction + e * n, truth := r.truth + e * m }
  have hop : matchOp iouOf c pred gt = some ((List.range b).flatMap fun e => (o e).map (shift e)) := by
    unfold matchOp
    rw [sp, sg]
    simp only [hfit, and_self, if_true, parse_spec hd, Option.bind_eq_bind, Option.bind_some, zip_map_range]
    rw [mapM_map_range (fun x : List (Obj Box) × List (Obj Box) => matchBoxes iouOf c x.1 x.2)
      (fun i => (objects d pred.data n i, objects d gt.data m i)) o b (fun i _ => ho i)]
    simp only [Option.bind_some, Option.pure_def, zipIdx_map_range, List.flatMap_map]
    rfl
  -- facts about one reported pair
  have rng : ∀ e, ∀ r ∈ o e, r.prediction < n ∧ r.truth < m ∧
      Fit iouOf c (flatBox d pred.data (e * n + r.prediction)) (flatBox d gt.data (e * m + r.truth)) := by
    intro e r hr
    obtain ⟨h1, h2, h3⟩ := (ans e).legal.fits r.pair (List.mem_map_of_mem hr)
    simp only [MatchResult.pair] at h1 h2 h3
    rw [boxIn_objects h1, boxIn_objects h2] at h3
    exact ⟨h1, h2, h3⟩
  have memOut : ∀ r, r ∈ ((List.range b).flatMap fun e => (o e).map (shift e)) ↔ ∃ e < b, ∃ q ∈ o e, shift e q = r := by
    intro r
    simp [List.mem_flatMap]
  have sorted : (((List.range b).flatMap fun e => (o e).map (shift e)).map MatchResult.prediction).Pairwise (· < ·) := by
    rw [List.pairwise_map, List.pairwise_flatMap]
    refine ⟨fun e _ => ?_, ?_⟩
    · rw [List.pairwise_map]
      have := (ans e).sorted
      rw [List.pairwise_map] at this
      exact this.imp (fun h => by simp only [shift]; omega)
    · refine List.pairwise_lt_range.imp ?_
      intro e e' hee x hx y hy
      obtain ⟨q, hq, rfl⟩ := List.mem_map.mp hx
      obtain ⟨q', hq', rfl⟩ := List.mem_map.mp hy
      have h1 := (rng e q hq).1
      have h2 : (e + 1) * n ≤ e' * n := Nat.mul_le_mul_right _ hee
      simp only [shift]
      rw [Nat.add_mul] at h2
      omega
  have hcell : ∀ {k i e : ℕ}, i < k → (i + e * k) / k = e := by
    intro k i e h
    rw [Nat.add_mul_div_right _ _ (by omega), Nat.div_eq_of_lt h, Nat.zero_add]
  refine ⟨_, hop, ⟨⟨?_, ?_, ?_⟩, ?_⟩, sorted, ?_, ?_⟩
  · rw [List.map_map]
    exact sorted.imp (fun h => Nat.ne_of_lt h)
  · rw [List.map_map, List.map_flatMap, List.nodup_flatMap]
    refine ⟨fun e _ => ?_, ?_⟩
    · have := (ans e).legal.right
      rw [List.map_map] at this ⊢
      have h2 : (o e).map ((Prod.snd ∘ MatchResult.pair) ∘ shift e) =
          ((o e).map (Prod.snd ∘ MatchResult.pair)).map fun j => j + e * m := by rw [List.map_map]; rfl
      rw [h2]
      exact this.map (fun a b h => by simpa using h)
    · refine List.pairwise_lt_range.imp ?_
      intro e e' hee
      simp only [Function.onFun]
      rw [List.disjoint_left]
      intro x hx hy
      rw [List.map_map] at hx hy
      obtain ⟨q, hq, rfl⟩ := List.mem_map.mp hx
      obtain ⟨q', hq', he⟩ := List.mem_map.mp hy
      simp only [Function.comp, MatchResult.pair, shift] at he
      have h1 := hcell (e := e) (rng e q hq).2.1
      have h2 := hcell (e := e') (rng e' q' hq').2.1
      rw [he, h1] at h2
      omega
  · intro x hx
    obtain ⟨r, hr, rfl⟩ := List.mem_map.mp hx
    obtain ⟨e, he, q, hq, rfl⟩ := (memOut r).mp hr
    obtain ⟨h1, h2, h3⟩ := rng e q hq
    have l1 : (e + 1) * n ≤ b * n := Nat.mul_le_mul_right _ he
    have l2 : (e + 1) * m ≤ b * m := Nat.mul_le_mul_right _ he
    rw [Nat.add_mul] at l1 l2
    simp only [MatchResult.pair, shift]
    rw [Nat.add_comm q.prediction, Nat.add_comm q.truth]
    exact ⟨by omega, by omega, h3⟩
  · intro x hx
    obtain ⟨r, hr, rfl⟩ := List.mem_map.mp hx
    obtain ⟨e, he, q, hq, rfl⟩ := (memOut r).mp hr
    obtain ⟨h1, h2, _⟩ := rng e q hq
    simp only [MatchResult.pair, shift]
    rw [hcell h1, hcell h2]
  · intro r hr
    obtain ⟨e, he, q, hq, rfl⟩ := (memOut r).mp hr
    obtain ⟨h1, h2, _⟩ := rng e q hq
    have a1 := (ans e).iou q hq
    have a2 := (ans e).affinity q hq
    rw [boxIn_objects h1, boxIn_objects h2] at a1 a2
    simp only [shift]
    rw [Nat.add_comm q.prediction, Nat.add_comm q.truth]
    exact ⟨a1, a2⟩
  · intro A hA
    have hlt : ∀ x ∈ A, x.1 / n < b := by
      intro x hx
      have := (hA.pairs.fits x hx).1
      rw [Nat.mul_comm] at this
      exact Nat.div_lt_of_lt_mul this
    have hval : value iouOf c (flatBox d pred.data) (flatBox d gt.data)
        (((List.range b).flatMap fun e => (o e).map (shift e)).map MatchResult.pair) =
        ((List.range b).map fun e => value iouOf c (boxIn (objects d pred.data n e)) (boxIn (objects d gt.data m e))
          ((o e).map MatchResult.pair)).sum := by
      unfold value
      rw [List.map_map, List.map_flatMap, List.flatMap, List.sum_flatten, List.map_map]
      congr 1
      refine List.map_congr_left fun e _ => ?_
      simp only [Function.comp, List.map_map]
      congr 1
      refine List.map_congr_left fun q hq => ?_
      obtain ⟨h1, h2, _⟩ := rng e q hq
      simp only [Function.comp, MatchResult.pair, shift, boxIn_objects h1, boxIn_objects h2]
      rw [Nat.add_comm q.prediction, Nat.add_comm q.truth]
    rw [hval]
    unfold value
    rw [sum_split _ (fun x : ℕ × ℕ => x.1 / n) b A hlt]
    refine sum_le_range _ _ _ fun e _ => ?_
    -- the pairs of element `e`, counted inside the element
    have hmem : ∀ x ∈ A.filter (fun x => x.1 / n = e), x.1 % n < n ∧ x.2 % m < m ∧ x.1 = e * n + x.1 % n ∧
        x.2 = e * m + x.2 % m ∧ x ∈ A := by
      intro x hx
      obtain ⟨hxA, hxe⟩ := List.mem_filter.mp hx
      have hxe := of_decide_eq_true hxe
      obtain ⟨h1, h2, _⟩ := hA.pairs.fits x hxA
      have n0 : 0 < n := by
        rcases Nat.eq_zero_or_pos n with h | h
        · rw [h] at h1; simp at h1
        · exact h
      have m0 : 0 < m := by
        rcases Nat.eq_zero_or_pos m with h | h
        · rw [h] at h2; simp at h2
        · exact h
      have h3 := hA.same x hxA
      refine ⟨Nat.mod_lt _ n0, Nat.mod_lt _ m0, ?_, ?_, hxA⟩
      · have := Nat.div_add_mod x.1 n
        rw [hxe, Nat.mul_comm] at this
        omega
      · have := Nat.div_add_mod x.2 m
        rw [← h3, hxe, Nat.mul_comm] at this
        omega
    have key := (ans e).best ((A.filter fun x => x.1 / n = e).map fun x => (x.1 % n, x.2 % m)) ⟨?_, ?_, ?_⟩
    · have : value iouOf c (boxIn (objects d pred.data n e)) (boxIn (objects d gt.data m e))
          ((A.filter fun x => x.1 / n = e).map fun x => (x.1 % n, x.2 % m)) =
          ((A.filter fun x => x.1 / n = e).map fun x =>
            worth iouOf c (flatBox d pred.data x.1) (flatBox d gt.data x.2)).sum := by
        unfold value
        rw [List.map_map]
        congr 1
        refine List.map_congr_left fun x hx => ?_
        obtain ⟨h1, h2, h3, h4, _⟩ := hmem x hx
        simp only [Function.comp, boxIn_objects h1, boxIn_objects h2]
        rw [← h3, ← h4]
      rw [this] at key
      exact key
    · rw [List.map_map]
      refine List.Nodup.of_map (fun i => e * n + i) ?_
      have h : ((A.filter fun x => x.1 / n = e).map (Prod.fst ∘ fun x => (x.1 % n, x.2 % m))).map (fun i => e * n + i) =
          (A.filter fun x => x.1 / n = e).map Prod.fst := by
        rw [List.map_map]
        refine List.map_congr_left fun x hx => ?_
        exact (hmem x hx).2.2.1.symm
      rw [h]
      exact hA.pairs.left.sublist (List.filter_sublist.map _)
    · rw [List.map_map]
      refine List.Nodup.of_map (fun i => e * m + i) ?_
      have h : ((A.filter fun x => x.1 / n = e).map (Prod.snd ∘ fun x => (x.1 % n, x.2 % m))).map (fun i => e * m + i) =
          (A.filter fun x => x.1 / n = e).map Prod.snd := by
        rw [List.map_map]
        refine List.map_congr_left fun x hx => ?_
        exact (hmem x hx).2.2.2.1.symm
      rw [h]
      exact hA.pairs.right.sublist (List.filter_sublist.map _)
    · intro y hy
      obtain ⟨x, hx, rfl⟩ := List.mem_map.mp hy
      obtain ⟨h1, h2, h3, h4, hxA⟩ := hmem x hx
      refine ⟨h1, h2, ?_⟩
      simp only [boxIn_objects h1, boxIn_objects h2]
      rw [← h3, ← h4]
      exact (hA.pairs.fits x hxA).2.2

/-- C129. A box of zeros is never matched. -/
theorem zero_box_unmatched {iouOf : ℕ → Box → Box → ℚ} {c : Config} (hs : Sane iouOf c) {b n m d : ℕ} {pred gt : Tensor}
    (hsh : Shaped c b n m d pred gt) {out : List MatchResult} (h : matchOp iouOf c pred gt = some out) :
    (∀ k, (∀ i < d, pred.data (k * d + i) = 0) → ∀ r ∈ out, r.prediction ≠ k) ∧
      ∀ k, (∀ i < d, gt.data (k * d + i) = 0) → ∀ r ∈ out, r.truth ≠ k := by
  obtain ⟨out', e, leg, _⟩ := matchOp_spec hs hsh
  rw [h] at e
  cases e
  have hd : d = 4 ∨ d = 5 ∨ d = 7 := by have := hsh.2.2; omega
  have flat : ∀ (data : ℕ → ℚ) (k : ℕ), (∀ i < d, data (k * d + i) = 0) → ¬ Solid c.boxType (flatBox d data k) := by
    intro data k hk hsol
    have h1 := hsol.1
    rcases hd with rfl | rfl | rfl
    · simp [flatBox, hk 2 (by omega)] at h1
    · simp [flatBox, hk 2 (by omega)] at h1
    · simp [flatBox, hk 3 (by omega)] at h1
  constructor
  · rintro k hk r hr rfl
    exact flat _ _ hk (leg.pairs.fits r.pair (List.mem_map_of_mem hr)).2.2.1
  · rintro k hk r hr rfl
    exact flat _ _ hk (leg.pairs.fits r.pair (List.mem_map_of_mem hr)).2.2.2.1

/-- C129. Tensors whose shapes do not go together or with the box type are refused. -/
theorem matchOp_refuses {iouOf : ℕ → Box → Box → ℚ} {c : Config} {pred gt : Tensor}
    (h : ∀ b n m d, ¬ Shaped c b n m d pred gt) : matchOp iouOf c pred gt = none := by
  unfold matchOp
  split
  · rename_i b n d b' m d' h1 h2
    by_cases hc : d = d' ∧ b' = b ∧ dimensionFits c.boxType d = true
    · obtain ⟨rfl, rfl, hf⟩ := hc
      exfalso
      refine h b' n m d ⟨h1, h2, ?_⟩
      simp only [dimensionFits, Bool.or_eq_true, Bool.and_eq_true, beq_iff_eq] at hf
      tauto
    · rw [if_neg hc]
  · rfl

end Verif.OpsMatch
