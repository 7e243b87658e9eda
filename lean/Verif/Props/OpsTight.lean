import Verif.Props.OpsMatchPad
import Verif.Props.OpsMotionDemo
import Verif.Props.OpsTracking

/-!
Statements added after wrong programs survived: the number of values of a box, the outputs and the cutoffs of the tracking
operation, exactly which shapes the Python function for motion metrics takes, and the threshold of the Python function that
matches boxes.
-/

namespace Verif.OpsTight

/-- C116: the number of values that a box of each type has; other types are refused. -/
theorem desiredDof_spec (t n : Nat) :
    Ops.desiredDof t = some n ↔ (t = 1 ∧ n = 7) ∨ (t = 2 ∧ n = 5) ∨ (t = 3 ∧ n = 4) := by
  unfold Ops.desiredDof
  split_ifs with h1 h2 h3 <;> simp only [Option.some.injEq, reduceCtorEq, false_iff] <;> omega

/-- C116: a row with the number of values of its type is a box with the fields of that type and no others. -/
theorem desiredDof_fields {t n : Nat} (h : Ops.desiredDof t = some n) {r : List ℚ} (hr : r.length = n) :
    ∃ b, Ops.boxByDimension n r = some b ∧ (b.cz.isSome ↔ t = 1) ∧ (b.height.isSome ↔ t = 1) ∧ (b.heading.isSome ↔ t ≠ 3) ∧
      b.cx.isSome ∧ b.cy.isSome ∧ b.length.isSome ∧ b.width.isSome := by
  rcases (desiredDof_spec t n).mp h with ⟨rfl, rfl⟩ | ⟨rfl, rfl⟩ | ⟨rfl, rfl⟩
  · match r, hr with
    | [a, b, c, d, e, f, g], _ => exact ⟨_, rfl, by simp⟩
  · match r, hr with
    | [a, b, c, d, e], _ => exact ⟨_, rfl, by simp⟩
  · match r, hr with
    | [a, b, c, d], _ => exact ⟨_, rfl, by simp⟩

/-- C123: row `i` of the outputs of the tracking operation holds the metrics of breakdown `i`. -/
theorem tracking_output_rows (ms : List (Measure.Breakdown × Measure.TrkMetrics)) (i : Nat) (hi : i < ms.length)
    (hb : ∀ e ∈ ms, e.1.generator < 256 ∧ e.1.shard < 256 ∧ e.1.level < 256) :
    let o := OpsTracking.createOutput ms
    o.mota[i]? = some ms[i].2.mota ∧ o.motp[i]? = some ms[i].2.motp ∧ o.miss[i]? = some ms[i].2.miss ∧
    o.mismatch[i]? = some ms[i].2.mismatch ∧ o.fp[i]? = some ms[i].2.fp ∧ o.cutoff[i]? = some ms[i].2.cutoff ∧
    o.breakdown[i]? = some (ms[i].1.generator, ms[i].1.shard, ms[i].1.level) ∧
    [o.mota.length, o.motp.length, o.miss.length, o.mismatch.length, o.fp.length, o.cutoff.length, o.breakdown.length] =
      List.replicate 7 ms.length := by
  have := hb ms[i] (List.getElem_mem hi)
  simp [OpsTracking.createOutput, hi, Nat.mod_eq_of_lt this.1, Nat.mod_eq_of_lt this.2.1, Nat.mod_eq_of_lt this.2.2]

/-- C120: cutoffs in the configuration are used as they are; only a configuration without cutoffs has them estimated. -/
theorem tracking_cutoffs {O ι : Type} (c : Detection.Config O) (desired : Nat) (scenes : List (List (Tracking.Frame O ι))) :
    Tracking.usedCutoffs c desired scenes = if c.cutoffs = [] then
      Curve.estimateTracking desired (scenes.map fun xs => xs.map fun x => x.preds.map Tracking.Item.score)
      else some c.cutoffs := by
  unfold Tracking.usedCutoffs
  cases h : c.cutoffs <;> simp

/-- C128: exactly these shapes are taken; the batch sizes and the number of steps of the predictions are not looked at. -/
theorem assertions_iff (s : OpsMotion.Shapes) :
    OpsMotion.assertions s = true ↔ ∃ m k n tg, (∃ b t, s.traj = [b, m, k, n, t, 2]) ∧ (∃ b, s.score = [b, m, k]) ∧
      (∃ b, s.gt = [b, n, tg, 7]) ∧ (∃ b, s.valid = [b, n, tg]) ∧ (∃ b, s.idx = [b, m, n]) ∧ (∃ b, s.mask = [b, m, n]) ∧
      (∃ b, s.type = [b, n]) ∧ (∃ b, s.id = [b, n]) := by
  constructor
  · intro h
    unfold OpsMotion.assertions at h
    split at h
    · rename_i b m k n t two b1 m1 k1 b2 a tg w b3 a3 tg3 b4 m4 n4 b5 m5 n5 b6 a6 b7 a7 e1 e2 e3 e4 e5 e6 e7 e8
      simp only [decide_eq_true_eq] at h
      obtain ⟨rfl, rfl, rfl, rfl, rfl, rfl, rfl, rfl, rfl, rfl, rfl, rfl, rfl⟩ := h
      exact ⟨_, _, _, _, ⟨_, _, e1⟩, ⟨_, e2⟩, ⟨_, e3⟩, ⟨_, e4⟩, ⟨_, e5⟩, ⟨_, e6⟩, ⟨_, e7⟩, ⟨_, e8⟩⟩
    · exact absurd h (by simp)
  · rintro ⟨m, k, n, tg, ⟨_, _, h1⟩, ⟨_, h2⟩, ⟨_, h3⟩, ⟨_, h4⟩, ⟨_, h5⟩, ⟨_, h6⟩, ⟨_, h7⟩, ⟨_, h8⟩⟩
    unfold OpsMotion.assertions
    rw [h1, h2, h3, h4, h5, h6, h7, h8]
    simp

/-- Shapes with one more agent in the ground truth than in the validity tensor are refused. -/
example : OpsMotion.assertions ⟨[1, 1, 1, 2, 16, 2], [1, 1, 1], [1, 3, 91, 7], [1, 2, 91], [1, 1, 2], [1, 1, 2], [1, 2], [1, 2], [1]⟩ = false := rfl

/-- C129: with the Hungarian matcher every pair that `match` in Python returns has at least the similarity `iou` of its
argument, and no single pair of solid boxes with that similarity is worth more than all that is returned. -/
theorem python_threshold {iouOf : ℕ → Ops.Box → Ops.Box → ℚ} (h01 : ∀ t p g, 0 ≤ iouOf t p g ∧ iouOf t p g ≤ 1) (iou : ℚ)
    (pred gt : OpsMatch.Tensor) {b n m : ℕ} (hp : pred.shape = [b, n, 7]) (hg : gt.shape = [b, m, 7]) :
    ∃ out, OpsMatch.pyMatch iouOf pred gt iou 1 .hungarian none = some out ∧
      (∀ r ∈ out, iou ≤ iouOf 1 (OpsMatch.flatBox 7 pred.data r.prediction) (OpsMatch.flatBox 7 gt.data r.truth) ∧
        r.iou = iouOf 1 (OpsMatch.flatBox 7 pred.data r.prediction) (OpsMatch.flatBox 7 gt.data r.truth) ∧ r.affinity = 1) ∧
      ∀ i j, i < b * n → j < b * m → i / n = j / m → OpsMatch.Solid 1 (OpsMatch.flatBox 7 pred.data i) →
        OpsMatch.Solid 1 (OpsMatch.flatBox 7 gt.data j) →
        iou ≤ iouOf 1 (OpsMatch.flatBox 7 pred.data i) (OpsMatch.flatBox 7 gt.data j) →
        roundHalfAway (iouOf 1 (OpsMatch.flatBox 7 pred.data i) (OpsMatch.flatBox 7 gt.data j) * 1 * 1000000) ≤
          (out.map fun r => roundHalfAway
            (iouOf 1 (OpsMatch.flatBox 7 pred.data r.prediction) (OpsMatch.flatBox 7 gt.data r.truth) * 1 * 1000000)).sum := by
  have sane : OpsMatch.Sane iouOf (OpsMatch.pyConfig iou 1 .hungarian none) :=
    { kind := rfl, five := rfl, known := Or.inl rfl, iou01 := fun p g => h01 1 p g,
      aff01 := fun p g => by simp [OpsMatch.affFn, OpsMatch.pyConfig] }
  obtain ⟨out, ho, hl, _, hv, hopt⟩ := OpsMatch.matchOp_spec sane ⟨hp, hg, Or.inr (Or.inr ⟨rfl, rfl⟩)⟩
  refine ⟨out, by rw [OpsMatch.python_rank_three hp hg]; exact ho, ?_, ?_⟩
  · intro r hr
    have hf := (hl.pairs.fits r.pair (List.mem_map.mpr ⟨r, hr, rfl⟩)).2.2
    exact ⟨hf.2.2.1, (hv r hr).1, (hv r hr).2⟩
  · intro i j hi hj hij si sj ht
    have := hopt [(i, j)] ⟨⟨by simp, by simp, ?_⟩, ?_⟩
    · simpa [OpsMatch.value, OpsMatch.worth, OpsMatch.iouFn, OpsMatch.affFn, OpsMatch.pyConfig, List.map_map,
        Function.comp_def, OpsMatch.MatchResult.pair] using this
    · intro x hx
      rw [List.mem_singleton] at hx
      subst hx
      exact ⟨hi, hj, si, sj, ht, fun h => absurd rfl h⟩
    · intro x hx
      rw [List.mem_singleton] at hx
      subst hx
      exact hij

end Verif.OpsTight
