import Verif.Lemmas.MotStep
import Verif.Props.Matcher

/-!
Properties C13, C14, C58 and C60: tracking evaluation over histories of frames.

The specification vocabulary (`Usable`, `Correspondence`, `carry`, the counts) is at the beginning of
Lemmas/MotEval.lean; it does not use the definitions of the model apart from the input.
-/

namespace Verif.Mot

variable {ι : Type} [DecidableEq ι]

/-- Specification: the pairs held after a history of correspondences. -/
def held (Ns : List (List (ι × ι))) : List (ι × ι) := Ns.foldl carry []

/-- Specification: the sum over a history of a quantity that depends on the frame, the pairs held before
it and the correspondence of the frame. -/
def total {α : Type} [AddMonoid α] (f : Input ι → List (ι × ι) → List (ι × ι) → α) (xs : List (Input ι))
    (Ns : List (List (ι × ι))) : α :=
  ((xs.zip Ns).zipIdx.map fun e => f e.1.1 (held (Ns.take e.2)) e.1.2).sum

/-- Specification: the entry of the details list for a frame. -/
structure Listed (x : Input ι) (N : List (ι × ι)) (d : Details ι) : Prop where
  lengths : d.tpGt.length = d.tpPred.length
  tp : (d.tpGt.zip d.tpPred).Perm N
  fn : d.fnGt.Perm ((gtIds x).filter fun g => !decide (g ∈ N.map Prod.fst))
  fp : d.fpPred.Perm ((predIds x).filter fun p => !decide (p ∈ N.map Prod.snd))

/-- Specification: the history `Ns` of correspondences explains the state `s` reached after the frames
`xs`. -/
structure Explains (level : Nat) (details : Bool) (xs : List (Input ι)) (Ns : List (List (ι × ι)))
    (s : State ι) : Prop where
  length : Ns.length = xs.length
  corr : ∀ (t : Nat) (x : Input ι) (N : List (ι × ι)), xs[t]? = some x → Ns[t]? = some N →
    Correspondence x (held (Ns.take t)) N
  misses : s.meas.misses = (total (fun x _ N => missCount x level N) xs Ns : Nat)
  fps : s.meas.fps = (total (fun x _ N => fpCount x N) xs Ns : Nat)
  objects : s.meas.objectsGt = (total (fun x _ N => gtCount x level N) xs Ns : Nat)
  matched : s.meas.matches_ = (total (fun _ _ N => N.length) xs Ns : Nat)
  mismatches : s.meas.mismatches =
    (total (fun x old N => switchCount old N + takeoverCount x old N) xs Ns : Nat)
  cost : s.meas.cost = total (fun x _ N => (N.map fun e => 1 - overlap x e).sum) xs Ns
  details : if details then s.meas.details.length = xs.length ∧
      ∀ (t : Nat) (x : Input ι) (N : List (ι × ι)) (d : Details ι), xs[t]? = some x → Ns[t]? = some N →
        s.meas.details[t]? = some d → Listed x N d
    else s.meas.details = []

section Congr
variable {old old' : List (ι × ι)}

theorem any_congr_mem (h : ∀ e, e ∈ old ↔ e ∈ old') (q : ι × ι → Bool) : old.any q = old'.any q := by
  rw [Bool.eq_iff_iff, List.any_eq_true, List.any_eq_true]
  exact exists_congr fun e => and_congr_left fun _ => h e

theorem Correspondence.congr {x : Input ι} {N : List (ι × ι)} (h : ∀ e, e ∈ old ↔ e ∈ old')
    (c : Correspondence x old N) : Correspondence x old' N := by
  refine ⟨c.gtOnce, c.pdOnce, c.legal, fun e he => c.kept e ((h e).mpr he), ?_⟩
  obtain ⟨ps, gs, pm, gm, h1, h2, h3, h4, h5⟩ := c.rest
  refine ⟨ps, gs, pm, gm, h1, ?_, ?_, ?_, h5⟩
  · simpa only [any_congr_mem h] using h2
  · simpa only [any_congr_mem h] using h3
  · intro e he
    rw [← h]; exact h4 e he

theorem switchCount_congr (h : ∀ e, e ∈ old ↔ e ∈ old') (N : List (ι × ι)) :
    switchCount old N = switchCount old' N := by
  unfold switchCount; simp only [any_congr_mem h]

theorem takeoverCount_congr (h : ∀ e, e ∈ old ↔ e ∈ old') (x : Input ι) (N : List (ι × ι)) :
    takeoverCount x old N = takeoverCount x old' N := by
  unfold takeoverCount; simp only [any_congr_mem h]

theorem mem_carry_congr (h : ∀ e, e ∈ old ↔ e ∈ old') (N : List (ι × ι)) (e : ι × ι) :
    e ∈ carry old N ↔ e ∈ carry old' N := by
  rw [mem_carry, mem_carry, h]

end Congr

theorem total_snoc {α : Type} [AddMonoid α] (f : Input ι → List (ι × ι) → List (ι × ι) → α)
    {xs : List (Input ι)} {Ns : List (List (ι × ι))} (hl : Ns.length = xs.length) (x : Input ι)
    (N : List (ι × ι)) : total f (xs ++ [x]) (Ns ++ [N]) = total f xs Ns + f x (held Ns) N := by
  unfold total
  rw [List.zip_append hl.symm, List.zipIdx_append, List.map_append, List.sum_append]
  congr 1
  · congr 1
    apply List.map_congr_left
    intro e he
    have hlt : e.2 < Ns.length := by
      obtain ⟨h1, -⟩ := List.getElem?_eq_some_iff.mp (List.mem_zipIdx_iff_getElem?.mp he)
      simp only [List.length_zip] at h1; omega
    rw [List.take_append_of_le_length (by omega)]
  · simp [hl]

theorem held_snoc (Ns : List (List (ι × ι))) (N : List (ι × ι)) :
    held (Ns ++ [N]) = carry (held Ns) N := by
  simp [held]

theorem run_snoc (level : Nat) (details : Bool) (frames : List (HashOrder × Input ι)) (f : HashOrder × Input ι)
    (s : State ι) : run level details (frames ++ [f]) s =
      (run level details frames s).bind fun s => eval f.1 f.2 level details s := by
  simp [run, List.foldlM_append]

/-- What a pair held after a history is: the ground truth and the prediction were matched with each other
in some frame, and neither of them was matched in any later frame. -/
theorem mem_held (Ns : List (List (ι × ι))) (g p : ι) : (g, p) ∈ held Ns ↔
    ∃ (t : Nat) (N : List (ι × ι)), Ns[t]? = some N ∧ (g, p) ∈ N ∧
      ∀ (t' : Nat) (N' : List (ι × ι)), t < t' → Ns[t']? = some N' →
        g ∉ N'.map Prod.fst ∧ p ∉ N'.map Prod.snd := by
  induction Ns using List.reverseRecOn with
  | nil => simp [held]
  | append_singleton Ns N ih =>
    rw [held_snoc, mem_carry, ih]
    constructor
    · rintro (h | ⟨⟨t, M, h1, h2, h3⟩, h4, h5⟩)
      · refine ⟨Ns.length, N, by simp, h, ?_⟩
        intro t' N' ht hN'
        have := (List.getElem?_eq_some_iff.mp hN').1
        simp at this; omega
      · have hl := (List.getElem?_eq_some_iff.mp h1).1
        refine ⟨t, M, by rw [List.getElem?_append_left hl]; exact h1, h2, ?_⟩
        intro t' N' ht hN'
        by_cases hlt : t' < Ns.length
        · rw [List.getElem?_append_left hlt] at hN'
          exact h3 t' N' ht hN'
        · have := (List.getElem?_eq_some_iff.mp hN').1
          simp only [List.length_append, List.length_singleton] at this
          have e : t' = Ns.length := by omega
          subst e
          simp only [List.getElem?_concat_length, Option.some.injEq] at hN'
          subst hN'
          exact ⟨h4, h5⟩
    · rintro ⟨t, M, h1, h2, h3⟩
      by_cases hlt : t < Ns.length
      · right
        rw [List.getElem?_append_left hlt] at h1
        refine ⟨⟨t, M, h1, h2, ?_⟩, h3 Ns.length N hlt (by simp)⟩
        intro t' N' ht hN'
        exact h3 t' N' ht (by rw [List.getElem?_append_left (List.getElem?_eq_some_iff.mp hN').1]; exact hN')
      · left
        have := (List.getElem?_eq_some_iff.mp h1).1
        simp only [List.length_append, List.length_singleton] at this
        have e : t = Ns.length := by omega
        subst e
        simp only [List.getElem?_concat_length, Option.some.injEq] at h1
        subst h1
        exact h2

/-- C13 (main part).  Evaluating any history of usable frames with any iteration order of the hash maps
never aborts, and some sequence of legal correspondences explains every number reported. -/
theorem run_explained (level : Nat) (details : Bool) (frames : List (HashOrder × Input ι))
    (hx : ∀ f ∈ frames, Usable f.2) :
    ∃ s Ns, run level details frames {} = some s ∧ Inv s ∧ (∀ e, e ∈ s.gtPd ↔ e ∈ held Ns) ∧
      Explains level details (frames.map Prod.snd) Ns s := by
  induction frames using List.reverseRecOn with
  | nil =>
    refine ⟨{}, [], rfl, ⟨by simp [keys], by simp [keys], by simp⟩, by simp [held], rfl, by simp, rfl, rfl, rfl,
      rfl, rfl, rfl, ?_⟩
    cases details <;> simp
  | append_singleton frames f ih =>
    obtain ⟨s, Ns, h1, h2, h3, h4⟩ := ih fun f hf => hx f (by simp [hf])
    obtain ⟨N, s', e1, e2⟩ := eval_spec f.1 (hx f (by simp)) h2 level details
    have hl := h4.length
    refine ⟨s', Ns ++ [N], by rw [run_snoc, h1]; exact e1, e2.inv, ?_, ?_⟩
    · intro e
      rw [e2.carried, held_snoc]
      exact mem_carry_congr h3 N e
    · rw [List.map_append, List.map_singleton]
      refine ⟨by simp [hl], ?_, ?_, ?_, ?_, ?_, ?_, ?_, ?_⟩
      · intro t x M hxt hMt
        by_cases hlt : t < Ns.length
        · rw [List.getElem?_append_left hlt] at hMt
          rw [List.getElem?_append_left (by omega)] at hxt
          rw [List.take_append_of_le_length (by omega)]
          exact h4.corr t x M hxt hMt
        · have := (List.getElem?_eq_some_iff.mp hMt).1
          simp only [List.length_append, List.length_singleton] at this
          have e : t = Ns.length := by omega
          subst e
          simp only [List.getElem?_concat_length, Option.some.injEq] at hMt
          rw [hl, List.getElem?_concat_length, Option.some.injEq] at hxt
          subst hMt; subst hxt
          rw [List.take_left']
          · exact e2.corr.congr h3
          · rfl
      · rw [total_snoc _ hl, e2.misses, h4.misses]; push_cast; rfl
      · rw [total_snoc _ hl, e2.fps, h4.fps]; push_cast; rfl
      · rw [total_snoc _ hl, e2.objects, h4.objects]; push_cast; rfl
      · rw [total_snoc _ hl, e2.matched, h4.matched]; push_cast; rfl
      · rw [total_snoc _ hl, e2.mismatches, h4.mismatches, switchCount_congr h3, takeoverCount_congr h3]
        push_cast; ring
      · rw [total_snoc _ hl, e2.cost, h4.cost]
      · have d1 := e2.details
        have d2 := h4.details
        cases details with
        | false => simp only [Bool.false_eq_true, if_false] at d1 d2 ⊢; rw [d1, d2]
        | true =>
          simp only [if_true] at d1 d2 ⊢
          obtain ⟨d, k1, k2, k3, k4, k5⟩ := d1
          refine ⟨by rw [k1]; simp [d2.1], ?_⟩
          intro t x M d' hxt hMt hdt
          have hlt' := (List.getElem?_eq_some_iff.mp hMt).1
          simp only [List.length_append, List.length_singleton] at hlt'
          rw [k1] at hdt
          by_cases hlt : t < Ns.length
          · rw [List.getElem?_append_left hlt] at hMt
            rw [List.getElem?_append_left (by omega)] at hxt
            rw [List.getElem?_append_left (by rw [d2.1]; omega)] at hdt
            exact d2.2 t x M d' hxt hMt hdt
          · have e : t = Ns.length := by omega
            subst e
            simp only [List.getElem?_concat_length, Option.some.injEq] at hMt
            rw [hl, List.getElem?_concat_length, Option.some.injEq] at hxt
            rw [hl, ← d2.1, List.getElem?_concat_length, Option.some.injEq] at hdt
            subst hMt; subst hxt; subst hdt
            exact ⟨k2, k3, k4, k5⟩

theorem countP_mem_of_subset {A B : List ι} (hA : A.Nodup) (hB : B.Nodup) (h : A ⊆ B) :
    (B.countP fun b => decide (b ∈ A)) = A.length := by
  rw [List.countP_eq_length_filter]
  apply List.Perm.length_eq
  rw [List.perm_ext_iff_of_nodup (hB.filter _) hA]
  intro a
  rw [List.mem_filter]
  simp only [decide_eq_true_eq]
  exact ⟨fun h => h.2, fun ha => ⟨h ha, ha⟩⟩

/-- C13 (per frame).  In a frame every ground truth is matched or not, every prediction is matched or not:
the matched ones are as many as pairs, and the counted ground truths are the matched and the missed. -/
theorem frame_accounting {x : Input ι} (hx : Usable x) {old N : List (ι × ι)} (c : Correspondence x old N)
    (level : Nat) :
    N.length + (gtIds x).countP (fun g => !decide (g ∈ N.map Prod.fst)) = (gtIds x).length ∧
      N.length + (predIds x).countP (fun p => !decide (p ∈ N.map Prod.snd)) = (predIds x).length ∧
      N.length + missCount x level N = gtCount x level N ∧
      N.length + fpCount x N ≤ (predIds x).length := by
  have s1 : N.map Prod.fst ⊆ gtIds x := by
    intro g hg
    obtain ⟨e, he, rfl⟩ := List.mem_map.mp hg
    exact (compatible_mem (c.legal e he)).2
  have s2 : N.map Prod.snd ⊆ predIds x := by
    intro g hg
    obtain ⟨e, he, rfl⟩ := List.mem_map.mp hg
    exact (compatible_mem (c.legal e he)).1
  have c1 := countP_mem_of_subset c.gtOnce hx.gtNodup s1
  have c2 := countP_mem_of_subset c.pdOnce (List.nodup_dedup _ : (predIds x).Nodup) s2
  simp only [List.length_map] at c1 c2
  have split : ∀ (l : List ι) (q : ι → Bool), l.countP q + l.countP (fun a => !q a) = l.length := by
    intro l q
    have := List.length_eq_countP_add_countP q (l := l)
    rw [this]
    congr 1
    apply List.countP_congr
    intro a _; simp
  refine ⟨by rw [← c1]; exact split _ _, by rw [← c2]; exact split _ _, ?_, ?_⟩
  · unfold missCount gtCount
    rw [← c1]
    have : ∀ l : List ι, l.countP (fun b => decide (b ∈ N.map Prod.fst)) +
        l.countP (fun g => !decide (g ∈ N.map Prod.fst) && decide (gtLevel x g ≤ level)) =
        l.countP fun g => decide (g ∈ N.map Prod.fst) || decide (gtLevel x g ≤ level) := by
      intro l
      induction l with
      | nil => rfl
      | cons a l ih =>
        simp only [List.countP_cons]
        by_cases h1 : a ∈ N.map Prod.fst <;> by_cases h2 : gtLevel x a ≤ level <;> simp [h1, h2] <;> omega
    exact this _
  · have := split (predIds x) fun p => decide (p ∈ N.map Prod.snd)
    rw [← c2, ← this]
    apply Nat.add_le_add_left
    apply List.countP_mono_left
    intro a _ h
    simp only [Bool.and_eq_true] at h
    exact h.1

theorem overlap_bounds {x : Input ι} (hx : Usable x) (e : ι × ι) : 0 ≤ overlap x e ∧ overlap x e ≤ 1 := by
  unfold overlap
  split
  · rename_i a b ha hb
    obtain ⟨v, hv, h1⟩ := hx.iou a (firstPred_spec ha).1 b (firstGt_spec hb).1
    rw [hv]; exact h1
  · exact ⟨le_refl _, by norm_num⟩

theorem cost_bounds {x : Input ι} (hx : Usable x) (N : List (ι × ι)) :
    0 ≤ (N.map fun e => 1 - overlap x e).sum ∧ (N.map fun e => 1 - overlap x e).sum ≤ (N.length : ℚ) := by
  induction N with
  | nil => simp
  | cons e N ih =>
    obtain ⟨h1, h2⟩ := overlap_bounds hx e
    simp only [List.map_cons, List.sum_cons, List.length_cons]
    push_cast
    constructor <;> linarith [ih.1, ih.2]

/-- C13 (totals).  After any history: matched plus missed is the number of counted ground truths, no
counter is negative, and the accumulated cost is between zero and the number of matches (so that MOTP is
between zero and one). -/
theorem run_totals (level : Nat) (details : Bool) (frames : List (HashOrder × Input ι))
    (hx : ∀ f ∈ frames, Usable f.2) :
    ∃ s, run level details frames {} = some s ∧
      s.meas.matches_ + s.meas.misses = s.meas.objectsGt ∧ 0 ≤ s.meas.misses ∧ 0 ≤ s.meas.fps ∧
      0 ≤ s.meas.mismatches ∧ 0 ≤ s.meas.cost ∧ s.meas.cost ≤ s.meas.matches_ := by
  obtain ⟨s, Ns, h1, -, -, h⟩ := run_explained level details frames hx
  have hx' : ∀ x ∈ frames.map Prod.snd, Usable x := by
    intro x hxm
    obtain ⟨f, hf, rfl⟩ := List.mem_map.mp hxm
    exact hx f hf
  have key : ∀ e ∈ ((frames.map Prod.snd).zip Ns).zipIdx, Usable e.1.1 ∧ ∃ old, Correspondence e.1.1 old e.1.2 := by
    rintro ⟨⟨x, N⟩, t⟩ he
    have he := List.mem_zipIdx_iff_getElem?.mp he
    simp only [List.getElem?_zip_eq_some] at he
    exact ⟨hx' x (List.mem_of_getElem? he.1), _, h.corr t x N he.1 he.2⟩
  refine ⟨s, h1, ?_, by rw [h.misses]; positivity, by rw [h.fps]; positivity, by rw [h.mismatches]; positivity,
    ?_, ?_⟩
  · rw [h.matched, h.misses, h.objects, ← Nat.cast_add, Nat.cast_inj]
    unfold total
    rw [← List.sum_map_add]
    congr 1
    apply List.map_congr_left
    intro e he
    obtain ⟨k1, old, k2⟩ := key e he
    exact (frame_accounting k1 k2 level).2.2.1
  · rw [h.cost]
    unfold total
    apply List.sum_nonneg
    intro v hv
    obtain ⟨e, he, rfl⟩ := List.mem_map.mp hv
    exact (cost_bounds (key e he).1 _).1
  · rw [h.cost, h.matched]
    unfold total
    generalize ((frames.map Prod.snd).zip Ns).zipIdx = L at key
    induction L with
    | nil => simp
    | cons e L ih =>
      have i1 := ih fun e he => key e (by simp [he])
      have i2 := (cost_bounds (key e (by simp)).1 e.1.2).2
      simp only [List.map_cons, List.sum_cons]
      push_cast at i1 ⊢
      linarith

/-! ### The Hungarian matcher is a usable matcher -/

section Hungarian
open Verif.Matcher (plainPrims hungarianMatch canMatch plainIou)
variable {β : Type}

/-- The frame handed to `MOT::Eval` when the matcher is a `HungarianMatcher` (tracking_metrics.cc:41-91):
`P` and `G` are the tracking fields of the predictions and ground truths set in the matcher `F`. -/
def ofMatcher (F : Matcher.Frame β) (P : List (Pred ι)) (G : List (Gt ι)) : Input ι where
  preds := P
  gts := G
  predSubset := F.predSubset
  gtSubset := F.gtSubset
  canMatch a b := canMatch (m := Option) (plainPrims F) F a b
  iou a b := plainIou F a b
  doMatch ps gs :=
    let F' := { F with predSubset := ps, gtSubset := gs }
    hungarianMatch (plainPrims F') F'

/-- A matcher that meets its own requirements, with distinct ground-truth ids in the subset, is usable for
tracking. -/
theorem ofMatcher_usable (F : Matcher.Frame β) (P : List (Pred ι)) (G : List (Gt ι))
    (ps gs : List (Matcher.Obj β)) (h : Matcher.Usable F ps gs) (hP : P.length = ps.length)
    (hG : G.length = gs.length) (hn : (gtIds (ofMatcher F P G)).Nodup) : Usable (ofMatcher F P G) := by
  refine ⟨?_, ?_, hn, ?_, ?_, ?_⟩
  · intro i hi
    change i < P.length
    rw [hP]; exact Matcher.psub_lt h i hi
  · intro i hi
    change i < G.length
    rw [hG]; exact h.gsub i hi
  · intro a ha b hb
    have := Matcher.canMatch_eq h ha hb
    change (canMatch (m := Option) (plainPrims F) F a b).isSome
    rw [this]; rfl
  · intro a ha b hb
    have ha' := List.getElem?_eq_getElem (Matcher.psub_lt h a ha)
    have hb' := List.getElem?_eq_getElem (h.gsub b hb)
    exact ⟨_, Matcher.plainIou_eq h ha' hb', h.iou01 _ (List.getElem_mem _) _ (List.getElem_mem _)⟩
  · intro pl gl hpl hgl
    have h' : Matcher.Usable { F with predSubset := pl, gtSubset := gl } ps gs :=
      ⟨h.preds, h.gts, fun i hi => h.psub i (hpl hi), fun j hj => h.gsub j (hgl hj), h.iou01, h.aff01⟩
    obtain ⟨pm, gm, h1, h2, h3, h4, h5, -⟩ := Matcher.hungarianMatch_core
      (F := { F with predSubset := pl, gtSubset := gl }) (P := plainPrims { F with predSubset := pl, gtSubset := gl })
      (can := Matcher.canIdx F ps gs) (w := Matcher.wIdx F ps gs)
      (fun a ha b hb => Matcher.canMatch_eq h' ha hb)
      (fun a ha b hb _ => Matcher.matchingWeight_eq h' (Matcher.psub_lt h' a ha) (h'.gsub b hb))
      (fun a ha b hb => by
        have hp : ps[a]? = some (ps[a]'(Matcher.psub_lt h' a ha)) := List.getElem?_eq_getElem _
        have hg : gs[b]? = some (gs[b]'(h'.gsub b hb)) := List.getElem?_eq_getElem _
        simp only [Matcher.wIdx, hp, hg]
        exact Matcher.millionths_bounds h (List.mem_of_getElem? hp) (List.mem_of_getElem? hg))
    refine ⟨pm, gm, h1, h2, h3, h4, ?_⟩
    intro i j hij
    have := h5 i j hij
    obtain ⟨a, b, a1, a2, a3⟩ := this
    refine ⟨a, b, a1, a2, ?_⟩
    change canMatch (m := Option) (plainPrims F) F a b = some true
    rw [Matcher.canMatch_eq h (hpl (List.mem_of_getElem? a1)) (hgl (List.mem_of_getElem? a2)), a3]

end Hungarian

/-! ### Details (C58) -/

theorem length_filter_of_countP {α : Type} (l : List α) (q : α → Bool) : (l.filter q).length = l.countP q :=
  List.countP_eq_length_filter.symm

/-- C58 (the part that holds).  The details of a frame list as many misses as were counted plus the
unmatched ground truths above the difficulty level, and as many false positives as were counted plus the
unmatched predictions in no-label zones; without such objects the lists and the counts agree. -/
theorem details_lengths_partial {x : Input ι} {N : List (ι × ι)} {d : Details ι} (h : Listed x N d) (level : Nat) :
    d.tpGt.length = N.length ∧
    d.fnGt.length = missCount x level N + (gtIds x).countP (fun g =>
      !decide (g ∈ N.map Prod.fst) && decide (level < gtLevel x g)) ∧
    d.fpPred.length = fpCount x N + (predIds x).countP (fun p =>
      !decide (p ∈ N.map Prod.snd) && predNlz x p) ∧
    ((∀ g ∈ gtIds x, gtLevel x g ≤ level) → d.fnGt.length = missCount x level N) ∧
    ((∀ p ∈ predIds x, predNlz x p = false) → d.fpPred.length = fpCount x N) := by
  have split : ∀ (l : List ι) (a b : ι → Bool), l.countP a =
      l.countP (fun i => a i && b i) + l.countP (fun i => a i && !b i) := by
    intro l a b
    induction l with
    | nil => rfl
    | cons i l ih =>
      simp only [List.countP_cons, ih]
      by_cases h1 : a i = true <;> by_cases h2 : b i = true <;> simp [h1, h2] <;> omega
  have e1 : d.fnGt.length = missCount x level N + (gtIds x).countP (fun g =>
      !decide (g ∈ N.map Prod.fst) && decide (level < gtLevel x g)) := by
    rw [h.fn.length_eq, length_filter_of_countP, split _ _ fun g => decide (gtLevel x g ≤ level)]
    unfold missCount
    congr 1
    apply List.countP_congr
    intro g _
    simp
  have e2 : d.fpPred.length = fpCount x N + (predIds x).countP (fun p =>
      !decide (p ∈ N.map Prod.snd) && predNlz x p) := by
    rw [h.fp.length_eq, length_filter_of_countP, split _ _ fun g => !predNlz x g]
    unfold fpCount
    simp only [Bool.not_not]
  refine ⟨?_, e1, e2, ?_, ?_⟩
  · have := h.tp.length_eq
    rw [List.length_zip, ← h.lengths] at this
    simpa using this
  · intro hl
    rw [e1, List.countP_eq_zero.mpr, Nat.add_zero]
    intro g hg
    simp only [Bool.and_eq_true, decide_eq_true_eq, not_and, Nat.not_lt]
    intro _; exact hl g hg
  · intro hl
    rw [e2, List.countP_eq_zero.mpr, Nat.add_zero]
    intro g hg
    simp [hl g hg]

/-! ### Concrete histories -/

/-- The iteration order that leaves every list as it is, and the one that reverses it. -/
def asIs : HashOrder := ⟨fun l => l, fun _ => .refl _⟩

/-- See `asIs`. -/
def reversed : HashOrder := ⟨List.reverse, fun l => l.reverse_perm⟩

/-- A frame on a line: a prediction (id, position, no-label zone) overlaps a ground truth (id, position,
level) fully if they are at the same position and not at all otherwise. -/
def onLine (P : List (Nat × Nat × Bool)) (G : List (Nat × Nat × Nat)) : Input Nat :=
  ofMatcher (β := Nat)
    { thresholds := [0, 1 / 2], defaultIou := fun a b => if a = b then 1 else 0,
      preds := some (P.map fun p => ⟨1, p.2.1, 1⟩), gts := some (G.map fun g => ⟨1, g.2.1, 1⟩),
      predSubset := List.range P.length, gtSubset := List.range G.length }
    (P.map fun p => ⟨p.1, p.2.2⟩) (G.map fun g => ⟨g.1, g.2.2⟩)

/-- Every such frame with distinct ground-truth ids is usable. -/
theorem onLine_usable (P : List (Nat × Nat × Bool)) (G : List (Nat × Nat × Nat))
    (hn : (G.map fun g => g.1).Nodup) : Usable (onLine P G) := by
  have hsim : ∀ (F : Matcher.Frame Nat) (p g : Matcher.Obj Nat), F.customIou = none →
      F.defaultIou = (fun a b => if a = b then 1 else 0) →
      0 ≤ Matcher.similarity F p g ∧ Matcher.similarity F p g ≤ 1 := by
    intro F p g h1 h2
    unfold Matcher.similarity
    rw [h1, h2]
    simp only [Option.getD_none]
    split_ifs <;> constructor <;> norm_num
  refine ofMatcher_usable _ _ _ (P.map fun p => ⟨1, p.2.1, 1⟩) (G.map fun g => ⟨1, g.2.1, 1⟩)
    ⟨rfl, rfl, ?_, ?_, ?_, ?_⟩ (by simp) (by simp) ?_
  · intro i hi
    simp only [List.mem_range] at hi
    exact ⟨⟨1, P[i].2.1, 1⟩, by simp [hi], by simp, by simp⟩
  · intro i hi
    simpa using hi
  · intro p _ g _
    exact hsim _ p g rfl rfl
  · intro p _ g _
    simp only [Matcher.affinity]
    constructor <;> norm_num
  · have : gtIds (ofMatcher (β := Nat)
      { thresholds := [0, 1 / 2], defaultIou := fun a b => if a = b then 1 else 0,
        preds := some (P.map fun p => ⟨1, p.2.1, 1⟩), gts := some (G.map fun g => ⟨1, g.2.1, 1⟩),
        predSubset := List.range P.length, gtSubset := List.range G.length }
      (P.map fun p => ⟨p.1, p.2.2⟩) (G.map fun g => ⟨g.1, g.2.2⟩)) = G.map fun g => g.1 := by
      apply filterMap_of_map
      apply List.ext_getElem (by simp [ofMatcher])
      intro i h1 h2
      simp only [List.length_map] at h2
      simp [ofMatcher, h2]
    rw [this]; exact hn

/-- A history with a match kept, an identity switch, a takeover, a miss, false positives and ignored
objects; the hash order does not matter here. -/
example :
    let frames := fun h : HashOrder =>
      [(h, onLine [(11, 1, false), (12, 2, false)] [(1, 1, 1), (2, 2, 1)]),
       (h, onLine [(11, 1, false), (13, 2, false), (14, 9, true)] [(1, 1, 1), (2, 2, 1), (3, 7, 2)]),
       (h, onLine [(11, 3, false), (15, 8, false)] [(4, 3, 1), (2, 2, 1)])]
    let counts := fun s : State Nat =>
      (s.meas.misses, s.meas.fps, s.meas.mismatches, s.meas.matches_, s.meas.objectsGt, s.meas.cost)
    (run 1 true (frames asIs) {}).map counts = some (1, 1, 2, 5, 6, 0) ∧
      (run 1 true (frames reversed) {}).map counts = some (1, 1, 2, 5, 6, 0) := by
  constructor <;> decide +kernel

/-- C60 is false of the code: ground truth 2 is matched with prediction 12, loses it to ground truth 1
while it is visible, and is then matched with prediction 13.  Both ground truths change their prediction,
but only one mismatch is counted: the second pair is dropped from the mapping and forgotten. -/
theorem every_switch_counted_violated :
    let frames :=
      [(asIs, onLine [(11, 1, false), (12, 2, false)] [(1, 1, 1), (2, 2, 1)]),
       (asIs, onLine [(12, 1, false)] [(1, 1, 1), (2, 2, 1)]),
       (asIs, onLine [(13, 2, false)] [(2, 2, 1)])]
    (run 1 true frames {}).map (fun s => (s.meas.details.map fun d => d.tpGt.zip d.tpPred, s.meas.mismatches)) =
      some ([[(1, 11), (2, 12)], [(1, 12)], [(2, 13)]], 1) := by
  decide +kernel

/-- C60, other direction: a mismatch is counted although no ground truth changed its prediction (ground
truth 2 takes over prediction 11 after ground truth 1 left). -/
theorem only_switches_counted_violated :
    let frames :=
      [(asIs, onLine [(11, 1, false)] [(1, 1, 1)]), (asIs, onLine [(11, 2, false)] [(2, 2, 1)])]
    (run 1 true frames {}).map (fun s => (s.meas.details.map fun d => d.tpGt.zip d.tpPred, s.meas.mismatches)) =
      some ([[(1, 11)], [(2, 11)]], 1) := by
  decide +kernel

/-- C58 is false of the code: the details list a false positive and a miss that were not counted. -/
theorem details_match_counts_violated :
    (run 1 true [(asIs, onLine [(11, 1, true)] [(1, 5, 2)])] {}).map
      (fun s => (s.meas.fps, s.meas.misses, s.meas.details.map fun d => (d.fpPred, d.fnGt))) =
      some (0, 0, [([11], [1])]) := by
  decide +kernel

/-- Specification: `q` is the prediction the ground truth `g` was most recently matched with. -/
def MostRecent (Ns : List (List (ι × ι))) (g q : ι) : Prop :=
  ∃ (t : Nat) (M : List (ι × ι)), Ns[t]? = some M ∧ (g, q) ∈ M ∧
    ∀ (t' : Nat) (M' : List (ι × ι)), t < t' → Ns[t']? = some M' → g ∉ M'.map Prod.fst

open Classical in
/-- C60 (the part that holds).  If in a history no prediction is ever matched with two different ground
truths, then the mismatches of the next frame are exactly the ground truths matched to a prediction that
differs from their most recent one. -/
theorem switches_counted_partial (Ns : List (List (ι × ι))) (N : List (ι × ι)) (x : Input ι)
    (hN : ∀ e ∈ N, e.1 ∈ gtIds x)
    (hfree : ∀ (M : List (ι × ι)) (e : ι × ι), M ∈ Ns → e ∈ M → ∀ (M' : List (ι × ι)) (e' : ι × ι),
      M' ∈ Ns ++ [N] → e' ∈ M' → e.2 = e'.2 → e.1 = e'.1) :
    takeoverCount x (held Ns) N = 0 ∧
      switchCount (held Ns) N = N.countP fun e => decide (∃ q, MostRecent Ns e.1 q ∧ q ≠ e.2) := by
  have key : ∀ g q, MostRecent Ns g q ↔ (g, q) ∈ held Ns := by
    intro g p
    rw [mem_held]; unfold MostRecent
    constructor
    · rintro ⟨t, M, k1, k2, k3⟩
      refine ⟨t, M, k1, k2, fun t' M' ht hM => ⟨k3 t' M' ht hM, ?_⟩⟩
      intro hp
      obtain ⟨e, he, hep⟩ := List.mem_map.mp hp
      have := hfree M (g, p) (List.mem_of_getElem? k1) k2 M' e
        (by simp [List.mem_of_getElem? hM]) he hep.symm
      exact k3 t' M' ht hM (List.mem_map.mpr ⟨e, he, this.symm⟩)
    · rintro ⟨t, M, k1, k2, k3⟩
      exact ⟨t, M, k1, k2, fun t' M' ht hM => (k3 t' M' ht hM).1⟩
  constructor
  · unfold takeoverCount
    rw [List.countP_eq_zero]
    intro e he
    simp only [List.any_eq_true, Bool.and_eq_true, Bool.not_eq_true', decide_eq_true_eq,
      decide_eq_false_iff_not, not_exists, not_and, not_not]
    intro o ho h1
    obtain ⟨t, M, k1, k2, -⟩ := (mem_held Ns o.1 o.2).mp ho
    have := hfree M o (List.mem_of_getElem? k1) k2 N e (by simp) he h1
    rw [this]; exact hN e he
  · unfold switchCount
    apply List.countP_congr
    intro e he
    simp only [List.any_eq_true, Bool.and_eq_true, Bool.not_eq_true', decide_eq_true_eq,
      decide_eq_false_iff_not, ne_eq]
    constructor
    · rintro ⟨⟨a, b⟩, ho, h1, h2⟩
      simp only at h1 h2
      subst h1
      exact ⟨_, (key _ _).mpr ho, h2⟩
    · rintro ⟨q, h1, h2⟩
      exact ⟨(e.1, q), (key _ _).mp h1, rfl, h2⟩

/-- The hypotheses are met: object 1 is tracked as 11, vanishes, and comes back as 13. -/
example : let Ns : List (List (Nat × Nat)) := [[(1, 11), (2, 12)], [(2, 12)]]
    switchCount (held Ns) [(1, 13), (2, 12)] = 1 ∧
    ∀ M ∈ Ns, ∀ e ∈ M, ∀ M' ∈ Ns ++ [[(1, 13), (2, 12)]], ∀ e' ∈ M', e.2 = e'.2 → e.1 = e'.1 := by
  decide

end Verif.Mot
