import Verif.Props.DeltaEncoder
import Verif.Props.Curve

/-!
C02 and C20: which streams are decompressed, and which gaps of recall are filled.
-/

namespace Verif.DeltaEncoder

theorem fillMask_iff (ms : List Nat) (vs : List ℤ) :
    (∀ r, fillMask ms vs = .ok r → r.length = ms.length) ∧
    ((∃ r, fillMask ms vs = .ok r) ↔ vs.length = (ms.filter fun m => decide (0 < m)).length) := by
  induction ms generalizing vs with
  | nil => cases vs <;> simp [fillMask, eq_comm]
  | cons m ms ih =>
    by_cases hm : 0 < m
    · cases vs with
      | nil => simp [fillMask, hm]
      | cons v vs =>
        obtain ⟨h1, h2⟩ := ih vs
        cases h : fillMask ms vs with
        | error e => simp [h, eq_comm] at h2; simp [fillMask, hm, h, Except.map]; omega
        | ok r => simp [h, eq_comm] at h2; have := h1 r h; simp [fillMask, hm, h, Except.map, eq_comm, this]; omega
    · obtain ⟨h1, h2⟩ := ih vs
      cases h : fillMask ms vs with
      | error e => simp [h, eq_comm] at h2; simp [fillMask, hm, h, Except.map]; omega
      | ok r => simp [h, eq_comm] at h2; have := h1 r h; simp [fillMask, hm, h, Except.map, eq_comm, this]; omega

theorem cumsumFrom_length (a : ℤ) (l : List ℤ) : (cumsumFrom a l).length = l.length := by
  induction l generalizing a with
  | nil => rfl
  | cons d l ih => simp [cumsumFrom, ih]

/-- C02: a stream is decompressed exactly if it has a residual for each set bit of the mask, a bit for each value of the shape and a
precision for each channel.  A single residual is left out: numpy would write it to all positions. -/
theorem decompress_accepts_iff (s : Stream) (_h1 : s.residual.length ≠ 1) :
    (∃ img, decompress s = .ok img) ↔ s.residual.length = ((rldecode s.mask).filter fun m => decide (0 < m)).length ∧
      (rldecode s.mask).length = s.shape.2.2 * (s.shape.1 * s.shape.2.1) ∧ s.shape.2.2 ≤ s.precision.length := by
  obtain ⟨hl, hi⟩ := fillMask_iff (rldecode s.mask) (cumsumFrom 0 s.residual)
  rw [cumsumFrom_length] at hi
  rw [← hi]
  unfold decompress
  cases h : fillMask (rldecode s.mask) (cumsumFrom 0 s.residual) with
  | error e => simp
  | ok r =>
    have := hl r h
    rw [← this]
    unfold unflattenCHW
    by_cases hs : r.length = s.shape.2.2 * (s.shape.1 * s.shape.2.1)
    · by_cases hp : s.shape.2.2 ≤ s.precision.length <;> simp [hs, hp]
    · simp [hs]

end Verif.DeltaEncoder

namespace Verif.Curve

/-- C20: points are added between two recalls exactly if these differ by more than the allowed step and a millionth. -/
theorem fill_gap (delta p r last : ℚ) (hδ : 0 < delta) :
    fill delta p r ⌈(last - r) / delta⌉₊ last ≠ [] ↔ delta + 1 / 1000000 < last - r := by
  constructor
  · intro h
    cases hn : ⌈(last - r) / delta⌉₊ with
    | zero => rw [hn] at h; simp [fill] at h
    | succ n =>
      rw [hn, fill] at h
      by_contra hc
      rw [if_neg (by simpa [kError] using hc)] at h
      exact h rfl
  · intro h
    have : 0 < ⌈(last - r) / delta⌉₊ := Nat.ceil_pos.2 (div_pos (by linarith) hδ)
    obtain ⟨n, hn⟩ := Nat.exists_eq_succ_of_ne_zero this.ne'
    rw [hn, fill, if_pos (by simpa [kError] using h)]
    simp

/-- A gap of a step and a ten thousandth is filled, one of a step and a millionth is not. -/
theorem fill_gap_case : meanAveragePrecision [1, 1 / 2] [1 / 2, 1 / 2 + 1 / 10 + 1 / 10000] (1 / 10) =
      some (1 / 2 + 1 / 20 + 3 / 40000) ∧
    meanAveragePrecision [1, 1 / 2] [1 / 2, 1 / 2 + 1 / 10 + 1 / 1000000] (1 / 10) = some (1 / 2 + 3 / 40 + 3 / 4000000) := by
  decide +kernel

end Verif.Curve
