import Verif.Props.OpsDemo

/-!
Property C119: the detection evaluators in Python.
-/

namespace Verif.Ops

open Verif.Breakdown Verif.Measure Verif.Detection Verif.Curve

/-! ### Recall at a precision -/

/-- C119: `Recall@p` is the largest recall of the operating points whose precision is above `p`, and zero if there is no
such point. -/
theorem recallAt_spec (p : ℚ) (pr : List (ℚ × ℚ)) (hne : pr ≠ []) (h0 : ∀ e ∈ pr, 0 ≤ e.2) :
    ∃ r, recallAt p pr = some r ∧ (∀ e ∈ pr, p < e.1 → e.2 ≤ r) ∧
      ((∃ e ∈ pr, p < e.1 ∧ e.2 = r) ∨ (r = 0 ∧ ∀ e ∈ pr, ¬ p < e.1)) := by
  obtain ⟨r, hr⟩ : ∃ r, (pr.map fun e => if e.1 > p then e.2 else 0).max? = some r := by
    cases h : (pr.map fun e => if e.1 > p then e.2 else 0).max? with
    | none => rw [List.max?_eq_none_iff, List.map_eq_nil_iff] at h; exact absurd h hne
    | some r => exact ⟨r, rfl⟩
  obtain ⟨h1, h2⟩ := List.max?_eq_some_iff.mp hr
  have hle : ∀ e ∈ pr, p < e.1 → e.2 ≤ r := by
    intro e he hp
    have := h2 _ (List.mem_map_of_mem (f := fun e : ℚ × ℚ => if e.1 > p then e.2 else 0) he)
    simpa [hp] using this
  refine ⟨r, hr, hle, ?_⟩
  obtain ⟨e, he, hre⟩ := List.mem_map.mp h1
  by_cases hp : p < e.1
  · exact Or.inl ⟨e, he, hp, by rw [if_pos hp] at hre; exact hre⟩
  · rw [if_neg (show ¬ e.1 > p from hp)] at hre
    by_cases hex : ∃ f ∈ pr, p < f.1
    · obtain ⟨f, hf, hpf⟩ := hex
      exact Or.inl ⟨f, hf, hpf, le_antisymm (hle f hf hpf) (by rw [← hre]; exact h0 f hf)⟩
    · push Not at hex
      exact Or.inr ⟨hre.symm, fun f hf => not_lt.mpr (hex f hf)⟩

example : recallAt (9 / 10) [(1 / 2, 1), (19 / 20, 1 / 4), (1, 1 / 8)] = some (1 / 4) := by decide +kernel

/-! ### Histories of an evaluator -/

/-- All keys that an update needs are present. -/
def Call.Complete : Call → Prop
  | .update u => u.pd.isSome ∧ u.gt.isSome
  | _ => True

/-- Specification: the batches given since the last time the evaluator was emptied. -/
def pending (acc : List (PdTensors × GtBatch)) : List Call → List (PdTensors × GtBatch)
  | [] => acc
  | .update u :: h =>
    match u.pd, u.gt with
    | some p, some g => pending (acc ++ [(p, g)]) h
    | _, _ => pending acc h
  | .evaluate :: h => pending acc h
  | .result :: h => pending [] h
  | .reset :: h => pending [] h

theorem run_pending (h : List Call) : ∀ acc : List (PdTensors × GtBatch), (∀ c ∈ h, c.Complete) →
    (Evaluator.run ⟨acc.map Prod.fst, acc.map Prod.snd⟩ h).1 =
      ⟨(pending acc h).map Prod.fst, (pending acc h).map Prod.snd⟩ := by
  induction h with
  | nil => intro acc _; rfl
  | cons c h ih =>
    intro acc hc
    have hh : ∀ c ∈ h, c.Complete := fun x hx => hc x (List.mem_cons_of_mem _ hx)
    unfold Evaluator.run
    cases c with
    | update u =>
      obtain ⟨h1, h2⟩ := hc (.update u) (by simp)
      obtain ⟨pd, gt⟩ := u
      obtain ⟨p, rfl⟩ := Option.isSome_iff_exists.mp h1
      obtain ⟨g, rfl⟩ := Option.isSome_iff_exists.mp h2
      have := ih (acc ++ [(p, g)]) hh
      simpa [Evaluator.call, pending] using this
    | evaluate => simpa [Evaluator.call, pending] using ih acc hh
    | reset => simpa [Evaluator.call, pending] using ih [] hh
    | result =>
      have := ih [] hh
      unfold Evaluator.call Evaluator.evaluate
      cases acc with
      | nil => simpa [pending, concatPd] using this
      | cons a acc => simpa [pending, concatPd, concatGt] using this

/-- The rows that the evaluator must pass on for a list of batches. -/
structure AllRows (bs : List (PdTensors × GtBatch)) (p : PdTensors) (g : GtTensors) : Prop where
  pbox : p.bbox = bs.flatMap fun b => b.1.bbox
  ptype : p.type = bs.flatMap fun b => b.1.type
  pscore : p.score = bs.flatMap fun b => b.1.score
  pframe : p.frame = bs.flatMap fun b => b.1.frame
  pnlz : p.nlz = bs.flatMap fun b => b.1.nlz
  gbox : g.bbox = bs.flatMap fun b => b.2.bbox
  gtype : g.type = bs.flatMap fun b => b.2.type
  gframe : g.frame = bs.flatMap fun b => b.2.frame
  gdiff : g.difficulty = bs.flatMap fun b => b.2.difficulty
  speeds : (∀ b ∈ bs, b.2.speed.isSome) → g.speed = bs.flatMap fun b => b.2.speed.getD []
  noSpeeds : (∀ b ∈ bs, b.2.speed = none) → g.speed = List.replicate g.bbox.length (0, 0)

theorem foldl_append_fields (ts : List PdTensors) : ∀ t : PdTensors, let r := ts.foldl PdTensors.append t
    r.dof = t.dof ∧ r.bbox = (t :: ts).flatMap PdTensors.bbox ∧ r.type = (t :: ts).flatMap PdTensors.type ∧ r.score = (t :: ts).flatMap PdTensors.score ∧
    r.frame = (t :: ts).flatMap PdTensors.frame ∧ r.nlz = (t :: ts).flatMap PdTensors.nlz := by
  induction ts with
  | nil => intro t; simp
  | cons u ts ih =>
    intro t
    obtain ⟨h0, h1, h2, h3, h4, h5⟩ := ih (t.append u)
    refine ⟨h0, ?_, ?_, ?_, ?_, ?_⟩
    · rw [List.foldl_cons, h1]; simp [PdTensors.append]
    · rw [List.foldl_cons, h2]; simp [PdTensors.append]
    · rw [List.foldl_cons, h3]; simp [PdTensors.append]
    · rw [List.foldl_cons, h4]; simp [PdTensors.append]
    · rw [List.foldl_cons, h5]; simp [PdTensors.append]

theorem filterMap_flatten {α β : Type} (f : α → Option (List β)) (l : List α) (h : ∀ a ∈ l, (f a).isSome) :
    (l.filterMap f).flatten = l.flatMap fun a => (f a).getD [] := by
  induction l with
  | nil => rfl
  | cons a l ih =>
    obtain ⟨x, hx⟩ := Option.isSome_iff_exists.mp (h a (by simp))
    rw [List.filterMap_cons_some hx, List.flatten_cons, List.flatMap_cons, ih fun b hb => h b (List.mem_cons_of_mem _ hb), hx]
    rfl

theorem evaluate_rows (bs : List (PdTensors × GtBatch)) (hne : bs ≠ []) :
    ∃ p g, Evaluator.evaluate ⟨bs.map Prod.fst, bs.map Prod.snd⟩ = .value p g ∧ AllRows bs p g := by
  obtain ⟨b, bs, rfl⟩ := List.exists_cons_of_ne_nil hne
  obtain ⟨-, h1, h2, h3, h4, h5⟩ := foldl_append_fields (bs.map Prod.fst) b.1
  refine ⟨_, _, rfl, ⟨?_, ?_, ?_, ?_, ?_, ?_, ?_, ?_, ?_, ?_, ?_⟩⟩
  · rw [h1, ← List.map_cons (f := Prod.fst), List.flatMap_map]
  · rw [h2, ← List.map_cons (f := Prod.fst), List.flatMap_map]
  · rw [h3, ← List.map_cons (f := Prod.fst), List.flatMap_map]
  · rw [h4, ← List.map_cons (f := Prod.fst), List.flatMap_map]
  · rw [h5, ← List.map_cons (f := Prod.fst), List.flatMap_map]
  · simp only; rw [← List.map_cons (f := Prod.snd), List.flatMap_map]
  · simp only; rw [← List.map_cons (f := Prod.snd), List.flatMap_map]
  · simp only; rw [← List.map_cons (f := Prod.snd), List.flatMap_map]
  · simp only; rw [← List.map_cons (f := Prod.snd), List.flatMap_map]
  · intro h
    have h' : ∀ g ∈ (b :: bs).map Prod.snd, (GtBatch.speed g).isSome := by
      intro g hg
      obtain ⟨x, hx, rfl⟩ := List.mem_map.mp hg
      exact h x hx
    have e := filterMap_flatten GtBatch.speed _ h'
    simp only
    rw [← List.map_cons (f := Prod.snd), if_neg, e, List.flatMap_map]
    simp only [List.isEmpty_iff]
    obtain ⟨x, hx⟩ := Option.isSome_iff_exists.mp (h b (by simp))
    rw [List.map_cons, List.filterMap_cons_some hx]
    simp
  · intro h
    have e : (b.2 :: bs.map Prod.snd).filterMap GtBatch.speed = [] := by
      rw [List.filterMap_eq_nil_iff]
      intro g hg
      rw [← List.map_cons (f := Prod.snd)] at hg
      obtain ⟨x, hx, rfl⟩ := List.mem_map.mp hg
      exact h x hx
    simp only [e]
    rfl

/-- C119: after any history of complete calls, `evaluate` and `result` compute the metrics of exactly the rows of the
updates since the last `result` or `reset`, in the order of the updates; they raise an error if there was none; `evaluate`
changes nothing, `result` and `reset` empty the evaluator. -/
theorem evaluator_history_partial (h : List Call) (hc : ∀ c ∈ h, c.Complete) :
    let s := (Evaluator.run {} h).1
    let bs := pending [] h
    (bs = [] → (s.call .evaluate).2 = .error ∧ (s.call .result).2 = .error) ∧
    (bs ≠ [] → ∃ p g, (s.call .evaluate).2 = .value p g ∧ (s.call .result).2 = .value p g ∧ AllRows bs p g) ∧
    (s.call .evaluate).1 = s ∧ (s.call .result).1 = {} ∧ (s.call .reset).1 = {} := by
  have hs := run_pending h [] hc
  simp only [List.map_nil] at hs
  intro s bs
  have hs' : s = ⟨bs.map Prod.fst, bs.map Prod.snd⟩ := hs
  rw [hs']
  by_cases hb : bs = []
  · rw [hb]
    exact ⟨fun _ => ⟨rfl, rfl⟩, fun h => absurd rfl h, rfl, rfl, rfl⟩
  · obtain ⟨p, g, e1, e2⟩ := evaluate_rows bs hb
    refine ⟨fun h => absurd h hb, fun _ => ⟨p, g, ?_, ?_, e2⟩, rfl, ?_, rfl⟩
    · simp only [Evaluator.call, e1]
    · simp only [Evaluator.call, e1]
    · simp only [Evaluator.call, e1]

/-- A history that meets the hypotheses: one batch, evaluated, emptied, and another batch. -/
example : (∀ c ∈ [Call.update ⟨some demoPd, some ⟨5, [[1, 2, 4, 2, 0]], [1], [7], [1], none⟩⟩, .evaluate, .result,
      .update ⟨some demoPd, some ⟨5, [], [], [], [], none⟩⟩], c.Complete) ∧
    (pending [] [Call.update ⟨some demoPd, some ⟨5, [[1, 2, 4, 2, 0]], [1], [7], [1], none⟩⟩, .evaluate, .result,
      .update ⟨some demoPd, some ⟨5, [], [], [], [], none⟩⟩]).length = 1 := by
  constructor
  · simp [Call.Complete]
  · rfl

/-! ### What fails -/

/-- Violated: an update that raises because a key of the ground truths is missing has already stored the predictions; if
the caller catches the error and goes on, every later result until the next reset counts them. -/
theorem failed_update_violated (s : Evaluator) (p : PdTensors) :
    (s.call (.update ⟨some p, none⟩)).2 = .error ∧ (s.call (.update ⟨some p, none⟩)).1 = { s with pds := s.pds ++ [p] } :=
  ⟨rfl, rfl⟩

/-- What holds: an update whose predictions are incomplete changes nothing. -/
theorem failed_update_partial (s : Evaluator) (g : Option GtBatch) : (s.call (.update ⟨none, g⟩)).1 = s ∧ (s.call (.update ⟨none, g⟩)).2 = .error :=
  ⟨rfl, rfl⟩

/-- Violated: speeds are optional for every batch, but if one batch has them and a batch with objects does not, the
operation refuses the accumulated tensors. -/
theorem mixed_speeds_violated (gs : List GtBatch) (hlen : ∀ g ∈ gs, ∀ l, g.speed = some l → l.length = g.bbox.length)
    (h₁ : ∃ g ∈ gs, g.speed.isSome) (h₂ : ∃ g ∈ gs, g.speed = none ∧ g.bbox ≠ []) :
    ∃ t, concatGt gs = some t ∧ parseObjects t.args = none := by
  obtain ⟨g₀, hg₀, hs₀⟩ := h₁
  cases gs with
  | nil => simp at hg₀
  | cons g gs =>
    refine ⟨_, rfl, parse_refuses _ (Or.inr (Or.inr (Or.inr (Or.inr (Or.inr (Or.inr ⟨_, rfl, ?_⟩))))))⟩
    simp only
    rw [if_neg]
    · have hlt : ∀ l : List GtBatch, (∀ g ∈ l, ∀ x, g.speed = some x → x.length = g.bbox.length) →
          ((l.filterMap GtBatch.speed).flatten.length ≤ (l.flatMap GtBatch.bbox).length) ∧
          ((∃ g ∈ l, g.speed = none ∧ g.bbox ≠ []) → (l.filterMap GtBatch.speed).flatten.length < (l.flatMap GtBatch.bbox).length) := by
        intro l
        induction l with
        | nil => intro _; simp
        | cons a l ih =>
          intro ha
          obtain ⟨i1, i2⟩ := ih fun g hg => ha g (List.mem_cons_of_mem _ hg)
          rw [List.flatMap_cons, List.length_append]
          cases hx : a.speed with
          | none =>
            rw [List.filterMap_cons_none hx]
            refine ⟨by omega, ?_⟩
            rintro ⟨g, hg, h1, h2⟩
            rcases List.mem_cons.mp hg with rfl | hg
            · have : 0 < g.bbox.length := List.length_pos_iff.mpr h2
              omega
            · have := i2 ⟨g, hg, h1, h2⟩
              omega
          | some x =>
            have := ha a (by simp) x hx
            rw [List.filterMap_cons_some hx, List.flatten_cons, List.length_append]
            refine ⟨by omega, ?_⟩
            rintro ⟨g, hg, h1, h2⟩
            rcases List.mem_cons.mp hg with rfl | hg
            · rw [hx] at h1; cases h1
            · have := i2 ⟨g, hg, h1, h2⟩
              omega
      exact ne_of_lt ((hlt (g :: gs) hlen).2 h₂)
    · simp only [List.isEmpty_iff]
      intro h
      rw [List.filterMap_eq_nil_iff] at h
      rw [h g₀ hg₀] at hs₀
      cases hs₀

end Verif.Ops
