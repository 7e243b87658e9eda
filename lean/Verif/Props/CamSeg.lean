import Verif.Model.CamSeg
import Mathlib.Algebra.Order.Group.Abs
import Mathlib.Algebra.BigOperators.Group.List.Basic
import Mathlib.Algebra.Group.Prod
import Mathlib.Data.Int.Lemmas
import Mathlib.Tactic.Linarith
import Mathlib.Tactic.FieldSimp
import Mathlib.Tactic.NormNum
import Mathlib.Tactic.Abel

/-!
C166: what the metric of panoptic video segmentation is computed from.  C167: aggregating the metrics of sequences.
-/

namespace Verif.CamSeg

/-- C166: for the label that is evaluated, the class is that of the ground truth; a tracked pixel keeps its label and an
untracked one gets instance 0 of its class. -/
theorem augment_spec {d : ℤ} (hd : 0 < d) (y : ℤ) (tracked : Bool) :
    augment d y tracked / d = y / d ∧
      (tracked = true → augment d y tracked = y) ∧ (tracked = false → augment d y tracked % d = 0) := by
  have hf : y.fdiv d = y / d := Int.fdiv_eq_ediv_of_nonneg y hd.le
  unfold augment
  rw [hf]
  cases tracked
  · refine ⟨?_, by simp, ?_⟩
    · simp [Int.mul_ediv_cancel _ hd.ne']
    · simp
  · simp

/-- C166: the weights of a pixel that `n` cameras see add up to 1 over the cameras; a pixel that no camera is said to see
has weight 10^8. -/
theorem weight_spec : (∀ n : ℕ, 0 < n → (n : ℚ) * weight n = 1) ∧ ∀ n : ℤ, n ≤ 0 → weight n = 100000000 := by
  constructor
  · intro n hn
    have h1 : (1 : ℚ) ≤ n := by exact_mod_cast hn
    unfold weight
    rw [max_eq_left (by push_cast; linarith)]
    push_cast
    field_simp
  · intro n hn
    have h1 : (n : ℚ) ≤ 0 := by exact_mod_cast hn
    unfold weight
    rw [max_eq_right (by linarith)]
    norm_num

variable {S R : Type}

/-- Specification: the state after the frames `0 … n - 1`. -/
def after (Q : Quality S R) (divisor sequence : ℤ) (truths preds coverages : List (List ℤ))
    (trackeds : List (List Bool)) (s : S) : ℕ → S
  | 0 => s
  | n + 1 => Q.update (after Q divisor sequence truths preds coverages trackeds s n)
      ((List.range (truths.getD n []).length).map fun i =>
        augment divisor ((truths.getD n []).getD i 0) ((trackeds.getD n []).getD i false))
      (preds.getD n []) sequence
      ((coverages.getD n []).map weight)

theorem zipWith_eq_range (f : ℤ → Bool → ℤ) : ∀ (a : List ℤ) (b : List Bool), b.length = a.length →
    a.zipWith f b = (List.range a.length).map fun i => f (a.getD i 0) (b.getD i false) := by
  intro a b h
  apply List.ext_getElem?
  intro i
  rcases Nat.lt_or_ge i a.length with hi | hi
  · rw [List.getElem?_map, List.getElem?_range hi, List.getElem?_zipWith, List.getElem?_eq_getElem hi,
      List.getElem?_eq_getElem (by omega)]
    simp [List.getD_eq_getElem?_getD, List.getElem?_eq_getElem hi, List.getElem?_eq_getElem (show i < b.length by omega)]
  · rw [List.getElem?_eq_none (by simp; omega), List.getElem?_eq_none (by simp; omega)]

theorem after_cons (Q : Quality S R) (d sq : ℤ) (t p c : List ℤ) (k : List Bool) (ts ps cs : List (List ℤ))
    (ks : List (List Bool)) (s : S) (n : ℕ) :
    after Q d sq (t :: ts) (p :: ps) (c :: cs) (k :: ks) s (n + 1) =
      after Q d sq ts ps cs ks (after Q d sq (t :: ts) (p :: ps) (c :: cs) (k :: ks) s 1) n := by
  induction n with
  | zero => rfl
  | succ n ih =>
    rw [after, ih]
    rfl

theorem fold_frames (Q : Quality S R) (d sq : ℤ) : ∀ (ts ps cs : List (List ℤ)) (ks : List (List Bool)) (s : S),
    ts.length = ps.length → ts.length = cs.length → ts.length = ks.length → ∀ r,
    (frames ts ps cs ks).foldlM (step Q d sq) s = some r ↔
      (∀ i < ts.length, (ps.getD i []).length = (ts.getD i []).length ∧ (cs.getD i []).length = (ts.getD i []).length ∧
        (ks.getD i []).length = (ts.getD i []).length) ∧ r = after Q d sq ts ps cs ks s ts.length := by
  intro ts
  induction ts with
  | nil =>
    intro ps cs ks s _ _ _ r
    simp [frames, after, eq_comm]
  | cons t ts ih =>
    intro ps cs ks s h1 h2 h3 r
    match ps, cs, ks, h1, h2, h3 with
    | p :: ps, c :: cs, k :: ks, h1, h2, h3 =>
      have hfr : frames (t :: ts) (p :: ps) (c :: cs) (k :: ks) = ⟨t, p, c, k⟩ :: frames ts ps cs ks := rfl
      rw [hfr, List.foldlM_cons]
      by_cases hok : p.length = t.length ∧ c.length = t.length ∧ k.length = t.length
      · have hs : step Q d sq s ⟨t, p, c, k⟩ = some (after Q d sq (t :: ts) (p :: ps) (c :: cs) (k :: ks) s 1) := by
          unfold step Inputs.ok
          rw [if_pos (by simp [hok.1, hok.2.1, hok.2.2])]
          simp only [after, List.getD_cons_zero, zipWith_eq_range _ _ _ hok.2.2]
        rw [hs]
        simp only [Option.bind_eq_bind, Option.bind_some]
        rw [ih ps cs ks _ (by simpa using h1) (by simpa using h2) (by simpa using h3), List.length_cons,
          after_cons Q d sq t p c k ts ps cs ks s ts.length]
        constructor
        · rintro ⟨H, rfl⟩
          refine ⟨?_, rfl⟩
          intro i hi
          cases i with
          | zero => simpa using hok
          | succ i => simpa using H i (by omega)
        · rintro ⟨H, rfl⟩
          refine ⟨?_, rfl⟩
          intro i hi
          simpa using H (i + 1) (by omega)
      · have hs : step Q d sq s ⟨t, p, c, k⟩ = none := by
          unfold step Inputs.ok
          rw [if_neg]
          simpa [and_assoc] using hok
        rw [hs]
        simp only [Option.bind_eq_bind, Option.bind_none]
        constructor
        · rintro ⟨⟩
        · rintro ⟨H, -⟩
          exact absurd (by simpa using H 0 (by simp)) hok

/-- C166: a sequence is evaluated if and only if there is one array of each kind for every frame and the arrays of a frame
have one size; then every frame is given to the metric once, in order, under the identifier of the sequence, with the
labels of `augment_spec` and the weights of `weight_spec`, and the prediction is given unchanged. -/
theorem bySequence_iff (Q : Quality S R) (d sq off : ℤ) (ts ps cs : List (List ℤ)) (ks : List (List Bool)) (r : S) :
    bySequence Q d ts ps cs ks sq off = some r ↔
      (ps.length = ts.length ∧ cs.length = ts.length ∧ ks.length = ts.length ∧
        ∀ i < ts.length, (ps.getD i []).length = (ts.getD i []).length ∧ (cs.getD i []).length = (ts.getD i []).length ∧
          (ks.getD i []).length = (ts.getD i []).length) ∧
      r = after Q d sq ts ps cs ks (Q.new d off) ts.length := by
  unfold bySequence
  by_cases h1 : ts.length = ps.length
  · by_cases h2 : ts.length = cs.length
    · by_cases h3 : ts.length = ks.length
      · rw [if_neg (by simpa using h1), if_neg (by simpa using h2), if_neg (by simpa using h3),
          fold_frames Q d sq ts ps cs ks _ h1 h2 h3]
        exact ⟨fun ⟨a, b⟩ => ⟨⟨h1.symm, h2.symm, h3.symm, a⟩, b⟩, fun ⟨⟨_, _, _, a⟩, b⟩ => ⟨a, b⟩⟩
      · rw [if_neg (by simpa using h1), if_neg (by simpa using h2), if_pos h3]
        exact ⟨(by simp), fun ⟨⟨_, _, h, _⟩, _⟩ => absurd h.symm h3⟩
    · rw [if_neg (by simpa using h1), if_pos h2]
      exact ⟨(by simp), fun ⟨⟨_, h, _⟩, _⟩ => absurd h.symm h2⟩
  · rw [if_pos h1]
    exact ⟨(by simp), fun ⟨⟨h, _⟩, _⟩ => absurd h.symm h1⟩

/-- What is assumed of the metric object: it has a configuration that never changes and an amount that is zero after a
reset, that updates and merges add to, and that the result is computed from. -/
structure Adds {A C : Type} [AddCommMonoid A] (Q : Quality S R) (config : S → C) (amount : S → A)
    (share : C → List ℤ → List ℤ → ℤ → List ℚ → A) : Prop where
  new_amount : ∀ d off, amount (Q.new d off) = 0
  reset_config : ∀ s, config (Q.reset s) = config s
  reset_amount : ∀ s, amount (Q.reset s) = 0
  update_config : ∀ s t p q w, config (Q.update s t p q w) = config s
  update_amount : ∀ s t p q w, amount (Q.update s t p q w) = amount s + share (config s) t p q w
  merge_config : ∀ s l, config (Q.merge s l) = config s
  merge_amount : ∀ s l, amount (Q.merge s l) = amount s + (l.map amount).sum
  result_eq : ∀ s u, config s = config u → amount s = amount u → Q.result s = Q.result u

variable {A C : Type} [AddCommMonoid A] {Q : Quality S R} {config : S → C} {amount : S → A}
  {share : C → List ℤ → List ℤ → ℤ → List ℚ → A}

/-- C167: the aggregate of metric objects of one configuration is the result of any object of that configuration with the
sum of their amounts: each object is counted once (also the first), and there is no aggregate of no objects. -/
theorem aggregate_spec (H : Adds Q config amount share) (l : List S) :
    (l = [] → aggregate Q l = none) ∧
    ∀ u, l ≠ [] → (∀ s ∈ l, config s = config u) → amount u = (l.map amount).sum → aggregate Q l = some (Q.result u) := by
  refine ⟨?_, ?_⟩
  · rintro rfl; rfl
  · intro u hl hc ha
    cases l with
    | nil => exact absurd rfl hl
    | cons s l =>
      show some (Q.result (Q.merge (Q.reset s) (s :: l))) = _
      rw [H.result_eq _ u]
      · rw [H.merge_config, H.reset_config, hc s (by simp)]
      · rw [H.merge_amount, H.reset_amount, zero_add, ha]

/-- C167: the order of the objects does not matter. -/
theorem aggregate_perm (H : Adds Q config amount share) {l k : List S} (hp : l.Perm k)
    (hc : ∀ s ∈ l, ∀ u ∈ l, config s = config u) : aggregate Q l = aggregate Q k := by
  cases l with
  | nil => rw [List.nil_perm.1 hp]
  | cons s l =>
    cases k with
    | nil => exact absurd hp.symm (List.not_perm_nil_cons _ _)
    | cons u k =>
      show some (Q.result (Q.merge (Q.reset s) (s :: l))) = some (Q.result (Q.merge (Q.reset u) (u :: k)))
      rw [H.result_eq _ (Q.merge (Q.reset u) (u :: k))]
      · rw [H.merge_config, H.merge_config, H.reset_config, H.reset_config]
        exact hc s (by simp) u (hp.symm.subset (by simp))
      · rw [H.merge_amount, H.merge_amount, H.reset_amount, H.reset_amount, (hp.map amount).sum_eq]

/-- A video: its identifier and the arrays of its frames. -/
structure Video where
  sequence : ℤ
  truths : List (List ℤ)
  preds : List (List ℤ)
  coverages : List (List ℤ)
  trackeds : List (List Bool)

theorem after_amount (H : Adds Q config amount share) (d sq : ℤ) (ts ps cs : List (List ℤ)) (ks : List (List Bool)) (s : S) :
    ∀ n, config (after Q d sq ts ps cs ks s n) = config s ∧
      ∀ u, config u = config s →
        amount (after Q d sq ts ps cs ks u n) + amount s = amount u + amount (after Q d sq ts ps cs ks s n) := by
  intro n
  induction n with
  | zero => exact ⟨rfl, fun u _ => rfl⟩
  | succ n ih =>
    refine ⟨by rw [after, H.update_config, ih.1], ?_⟩
    intro u hu
    have hcu : config (after Q d sq ts ps cs ks u n) = config s := by
      have : ∀ m, config (after Q d sq ts ps cs ks u m) = config u := by
        intro m
        induction m with
        | zero => rfl
        | succ m ihm => rw [after, H.update_config, ihm]
      rw [this, hu]
    rw [after, after, H.update_amount, H.update_amount, hcu, ih.1, add_right_comm, ih.2 u hu, add_assoc]

/-- Specification: one object that sees the frames of all videos one after another. -/
def afterAll (Q : Quality S R) (d : ℤ) : S → List Video → S
  | s, [] => s
  | s, v :: vs => afterAll Q d (after Q d v.sequence v.truths v.preds v.coverages v.trackeds s v.truths.length) vs

theorem afterAll_amount (H : Adds Q config amount share) (d off : ℤ) : ∀ (vs : List Video) (s : S),
    config s = config (Q.new d off) →
    config (afterAll Q d s vs) = config (Q.new d off) ∧
    amount (afterAll Q d s vs) = amount s + (vs.map fun v =>
      amount (after Q d v.sequence v.truths v.preds v.coverages v.trackeds (Q.new d off) v.truths.length)).sum := by
  intro vs
  induction vs with
  | nil => intro s hs; exact ⟨hs, by simp [afterAll]⟩
  | cons v vs ih =>
    intro s hs
    have h1 := after_amount H d v.sequence v.truths v.preds v.coverages v.trackeds s v.truths.length
    have h2 := after_amount H d v.sequence v.truths v.preds v.coverages v.trackeds (Q.new d off) v.truths.length
    obtain ⟨i1, i2⟩ := ih _ (h1.1.trans hs)
    refine ⟨i1, ?_⟩
    rw [afterAll, i2, List.map_cons, List.sum_cons, ← add_assoc]
    congr 1
    have := h2.2 s hs
    rw [H.new_amount, add_zero] at this
    exact this

/-- C167: evaluating videos one by one and aggregating is evaluating all their frames with one object, and the videos may
be taken in any order. -/
theorem aggregate_videos (H : Adds Q config amount share) (d off : ℤ) (vs : List Video) (hv : vs ≠ []) (objects : List S)
    (ho : List.Forall₂ (fun v s => bySequence Q d v.truths v.preds v.coverages v.trackeds v.sequence off = some s) vs objects)
    {ws : List Video} (hp : vs.Perm ws) :
    aggregate Q objects = some (Q.result (afterAll Q d (Q.new d off) ws)) := by
  have hobj : objects = vs.map fun v =>
      after Q d v.sequence v.truths v.preds v.coverages v.trackeds (Q.new d off) v.truths.length := by
    clear hp hv
    induction ho with
    | nil => rfl
    | cons h _ ih => rw [List.map_cons, ← ih, ((bySequence_iff Q d _ off _ _ _ _ _).1 h).2]
  obtain ⟨a1, a2⟩ := afterAll_amount H d off ws (Q.new d off) rfl
  apply (aggregate_spec H objects).2
  · rw [hobj]; simpa using hv
  · intro s hs
    rw [hobj] at hs
    obtain ⟨v, -, rfl⟩ := List.mem_map.1 hs
    rw [a1]
    exact (after_amount H d v.sequence v.truths v.preds v.coverages v.trackeds (Q.new d off) v.truths.length).1
  · rw [a2, H.new_amount, zero_add, hobj, List.map_map, (hp.symm.map _).sum_eq]
    rfl

/-- A metric object: the sum of the weights of the pixels that are predicted correctly, and of all pixels. -/
def correct : Quality (ℤ × ℚ × ℚ) ℚ where
  new d _ := (d, 0, 0)
  update s t p _ w := (s.1, s.2.1 + (((t.zip p).zip w).map fun x => if x.1.1 = x.1.2 then x.2 else 0).sum,
    s.2.2 + (((t.zip p).zip w).map fun x => x.2).sum)
  reset s := (s.1, 0, 0)
  merge s l := (s.1, s.2 + (l.map Prod.snd).sum)
  result s := s.2.1 / s.2.2

/-- The assumptions are met by this object. -/
theorem correct_adds : Adds correct Prod.fst Prod.snd (fun _ t p _ w =>
    ((((t.zip p).zip w).map fun x => if x.1.1 = x.1.2 then x.2 else 0).sum, (((t.zip p).zip w).map fun x => x.2).sum)) where
  new_amount _ _ := rfl
  reset_config _ := rfl
  reset_amount _ := rfl
  update_config _ _ _ _ _ := rfl
  update_amount _ _ _ _ _ := rfl
  merge_config _ _ := rfl
  merge_amount _ _ := rfl
  result_eq s u h1 h2 := by
    have : s = u := Prod.ext h1 h2
    rw [this]

/-- Two frames with three pixels: the second pixel is not tracked, and two cameras see the third. -/
example : bySequence correct 1000 [[2007, 2007, 3005], [2007]] [[2007, 2000, 3005], [2001]] [[1, 1, 2], [1]]
    [[true, false, true], [true]] 0 16777216 = some (1000, 5 / 2, 7 / 2) := by decide +kernel

example : aggregate correct [(1000, 1, 2), (1000, 3, 4)] = some (2 / 3) := by decide +kernel

example : bySequence correct 1000 [[2007]] [] [[1]] [[true]] 0 16777216 = none := by decide +kernel

end Verif.CamSeg
