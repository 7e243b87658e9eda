import Verif.Props.SegmentBox

/-!
C104, boxes of length zero that are made from one corner.
-/

namespace Verif.Segment

open Real Verif.Polygon

/-- All four corners of such a box are the same point. -/
theorem ofCorner_thin (i : ℤ) (corner : Pt ℝ) (h w : ℝ) :
    ∃ p, (Box.ofCorner i corner h 0 w).corners = [p, p, p, p] ∧
      p = (Box.ofCorner i corner h 0 w).axis.center := by
  obtain ⟨sh, hsh⟩ : ∃ sh, Box.ofCorner i corner h 0 w = ⟨(Seg.ofDirection corner (unitFromAngle h) 0).shift sh, w⟩ := ⟨_, rfl⟩
  rw [hsh]
  have hl : ((Seg.ofDirection corner (unitFromAngle h) 0).shift sh).getLength.1 = 0 := by
    simp [Seg.ofDirection, Seg.shift, Seg.getLength]
  refine ⟨_, ?_, rfl⟩
  unfold Box.corners Seg.perpUnit
  rw [hl, if_pos rfl]
  simp only [Seg.ofDirection, Seg.shift, Seg.center]
  simp only [scale, List.cons.injEq, Prod.ext_iff, Prod.fst_add, Prod.snd_add, Prod.fst_sub, Prod.snd_sub, and_true]
  refine ⟨⟨?_, ?_⟩, ⟨?_, ?_⟩, ⟨?_, ?_⟩, ⟨?_, ?_⟩⟩ <;> simp

/-- **The given corner is that of the given index exactly if the length is positive or the width zero** (C104). -/
theorem ofCorner_iff (i : ℕ) (hi : i < 4) (corner : Pt ℝ) (h l w : ℝ) (hl : 0 ≤ l) :
    (Box.ofCorner i corner h l w).corners[i]? = some corner ↔ 0 < l ∨ w = 0 := by
  rcases hl.lt_or_eq with hp | rfl
  · exact ⟨fun _ => .inl hp, fun _ => (ofCorner_partial i hi corner h l w hp).2.1⟩
  · obtain ⟨p, hp, hc⟩ := ofCorner_thin i corner h w
    have hg : ([p, p, p, p] : List (Pt ℝ))[i]? = some p := by
      interval_cases i <;> rfl
    rw [hp, hg, hc, Option.some.injEq]
    have hu := cos_sq_add_sin_sq h
    simp only [lt_irrefl, false_or]
    constructor
    · intro e
      have e1 := congrArg Prod.fst e
      have e2 := congrArg Prod.snd e
      have h1 : w * sin h = 0 ∧ w * cos h = 0 := by
        interval_cases i <;>
          simp [Box.ofCorner, Box.ofCornerDirection, Seg.ofDirection, Seg.shift, Seg.center, scale, perp, unitFromAngle] at e1 e2 <;>
          constructor <;> rw [mul_eq_zero] <;> assumption
      have : w * (cos h ^ 2 + sin h ^ 2) = 0 := by linear_combination cos h * h1.2 + sin h * h1.1
      rwa [hu, mul_one] at this
    · rintro rfl
      interval_cases i <;>
        simp [Box.ofCorner, Box.ofCornerDirection, Seg.ofDirection, Seg.shift, Seg.center, scale, perp, unitFromAngle] <;>
        ext <;> simp <;> ring

end Verif.Segment
