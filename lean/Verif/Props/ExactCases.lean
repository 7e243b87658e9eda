import Verif.Props.Mot
import Verif.Props.SegView
import Verif.Props.AssetTutorial
import Verif.Props.LaserTutorial
import Verif.Props.SemsegTutorial

/-! Exactly when five properties that fail in general hold (C58, C184, C200, C214, C219). -/

namespace Verif.Mot

variable {ι : Type} [DecidableEq ι]

/-- **Exactly when the details agree with the counts** (C58): no unmatched ground truth is above the level, and no unmatched prediction is in a
no-label zone. -/
theorem details_agree_iff {x : Input ι} {N : List (ι × ι)} {d : Details ι} (h : Listed x N d) (level : Nat) :
    (d.fnGt.length = missCount x level N ↔ ∀ g ∈ gtIds x, g ∉ N.map Prod.fst → gtLevel x g ≤ level) ∧
      (d.fpPred.length = fpCount x N ↔ ∀ p ∈ predIds x, p ∉ N.map Prod.snd → predNlz x p = false) := by
  obtain ⟨-, h1, h2, -⟩ := details_lengths_partial h level
  rw [h1, h2]
  constructor
  · rw [Nat.add_eq_left, List.countP_eq_zero]
    simp
  · rw [Nat.add_eq_left, List.countP_eq_zero]
    simp

end Verif.Mot

namespace Verif.SegView

/-- **Exactly which instances of a class share a color** (C184): those whose numbers differ by a multiple of twice `delta`. -/
theorem instances_same_iff {k : Kind} {prime delta i j : ℤ} (hp : 0 ≤ prime) (hd : 0 < delta) (hd' : delta ≤ 128)
    (hcop : Int.gcd (2 * delta) prime = 1) (hi : 0 < i) (hj : 0 < j) (hki : k.Fits (i * prime)) (hkj : k.Fits (j * prime)) (c : Color) :
    instanceColor k.wrap prime delta c i = instanceColor k.wrap prime delta c j ↔ 2 * delta ∣ j - i := by
  rw [green_eq hp hi hki, green_eq hp hj hkj]
  constructor
  · intro h
    have h1 : (c.g + offset prime delta i) % 256 = (c.g + offset prime delta j) % 256 := congrArg Color.g h
    obtain ⟨a1, a2⟩ := offset_range (prime := prime) hd i
    obtain ⟨b1, b2⟩ := offset_range (prime := prime) hd j
    have h2 : offset prime delta i = offset prime delta j := by omega
    have h3 : i * prime % (2 * delta) = j * prime % (2 * delta) := by
      unfold offset at h2
      omega
    have h4 : (2 * delta) ∣ (j - i) * prime := by
      rw [sub_mul]
      exact Int.ModEq.dvd h3
    exact Int.dvd_of_dvd_mul_left_of_gcd_one h4 hcop
  · intro h
    have h3 : i * prime % (2 * delta) = j * prime % (2 * delta) := by
      apply Int.ModEq.symm
      apply Int.ModEq.mul_right
      exact (Int.modEq_iff_dvd.2 h).symm
    unfold offset
    rw [h3]

/-- With the default prime and delta, instances 1 and 101 share a color and instances 1 and 100 do not. -/
theorem instances_same_case (c : Color) :
    instanceColor Kind.signed.wrap 41 50 c 1 = instanceColor Kind.signed.wrap 41 50 c 101 ∧
      instanceColor Kind.signed.wrap 41 50 c 1 ≠ instanceColor Kind.signed.wrap 41 50 c 100 := by
  constructor
  · rw [instances_same_iff (k := .signed) (prime := 41) (delta := 50) (by norm_num) (by norm_num) (by norm_num) (by decide) (by norm_num) (by norm_num)
      trivial trivial]
    decide
  · rw [Ne, instances_same_iff (k := .signed) (prime := 41) (delta := 50) (by norm_num) (by norm_num) (by norm_num) (by decide) (by norm_num) (by norm_num)
      trivial trivial]
    decide

end Verif.SegView

namespace Verif.AssetTutorial

/-- **Exactly which grids can be shown** (C214): a row or a column of at least two places and no more images than places. -/
theorem grid_iff (h w n : ℕ) :
    (grid h w (n + 1)).isSome ↔ (h = 1 ∧ 2 ≤ w ∧ n + 1 ≤ w) ∨ (w = 1 ∧ 2 ≤ h ∧ n + 1 ≤ h) := by
  have key : ∀ (g : ℕ → Option (ℕ × ℕ)) (m : ℕ), ((List.range m).mapM g).isSome ↔ ∀ i < m, (g i).isSome := by
    intro g m
    have hl : ∀ l : List ℕ, (l.mapM g).isSome ↔ ∀ i ∈ l, (g i).isSome := by
      intro l
      induction l with
      | nil => simp
      | cons a l ih =>
        rw [List.mapM_cons]
        cases ha : g a with
        | none => simp [ha]
        | some b =>
          cases hb : l.mapM g with
          | none => simp [hb] at ih ⊢; simpa [ha] using ih
          | some c => simp [hb] at ih ⊢; exact ⟨by simp [ha], ih⟩
    rw [hl]
    simp
  unfold grid
  rw [key]
  constructor
  · intro hall
    have h0 := hall n (by omega)
    split_ifs at h0 with a b c d e <;> first | (simp at h0; done) | skip
    · left; omega
    · right; omega
  · rintro (⟨rfl, h1, h2⟩ | ⟨rfl, h1, h2⟩) i hi
    · rw [if_neg (by omega), if_pos rfl, if_pos (by omega)]; rfl
    · rw [if_neg (by omega), if_neg (by omega), if_pos rfl, if_pos (by omega)]; rfl

end Verif.AssetTutorial

namespace Verif.LaserTutorial

/-- **Exactly which returns look like none** (C219): those at 75 metres or more. -/
theorem brightness_iff (v : ℝ) : brightness 75 v = brightness 75 (10 ^ 10) ↔ 75 ≤ v := by
  refine ⟨fun h => ?_, fun h => (brightness_violated h).symm⟩
  by_contra hv
  have h1 : brightness 75 (10 ^ 10) = 1 := by
    unfold brightness
    rw [min_eq_left (by norm_num)]
    norm_num
  have h2 : brightness 75 v < 1 := by
    unfold brightness
    refine max_lt (by norm_num) (lt_of_le_of_lt (min_le_right _ _) ?_)
    rw [div_lt_one (by norm_num)]
    exact not_le.1 hv
  rw [h1] at h
  exact absurd h h2.ne

end Verif.LaserTutorial

namespace Verif.SemsegTutorial

open Verif.Clouds Verif.ListM

open Classical in
/-- **Exactly when the frames chosen for validation are those with labels of TOP** (C200): in every frame the first lidar has labels if and only
if TOP has. -/
theorem validation_right_iff (fs : List Labelled) :
    (fs.filter fun f => (isLabelled f).getD false) = (fs.filter fun f => decide (∃ l ∈ f.frame.lasers, l.name = 1 ∧ l.ret1.seg ≠ [])) ↔
      ∀ f ∈ fs, ((∃ l, f.frame.lasers.head? = some l ∧ l.ret1.seg ≠ []) ↔ ∃ l ∈ f.frame.lasers, l.name = 1 ∧ l.ret1.seg ≠ []) := by
  have hl : ∀ f : Labelled, (isLabelled f).getD false = true ↔ ∃ l, f.frame.lasers.head? = some l ∧ l.ret1.seg ≠ [] := by
    intro f
    unfold isLabelled
    cases f.frame.lasers with
    | nil => simp
    | cons a l => simp
  constructor
  · intro h f hf
    rw [← hl]
    constructor
    · intro hp
      have : f ∈ fs.filter fun f => decide (∃ l ∈ f.frame.lasers, l.name = 1 ∧ l.ret1.seg ≠ []) := by
        rw [← h]; exact List.mem_filter.2 ⟨hf, hp⟩
      exact of_decide_eq_true (List.mem_filter.1 this).2
    · intro hq
      have : f ∈ fs.filter fun f => (isLabelled f).getD false := by
        rw [h]; exact List.mem_filter.2 ⟨hf, decide_eq_true hq⟩
      exact (List.mem_filter.1 this).2
  · intro h
    apply List.filter_congr
    intro f hf
    rw [Bool.eq_iff_iff, hl, h f hf, decide_eq_true_iff]

/-- The condition fails for the frame whose TOP comes second. -/
theorem validation_right_case :
    ¬ ((∃ l, topSecond.frame.lasers.head? = some l ∧ l.ret1.seg ≠ []) ↔ ∃ l ∈ topSecond.frame.lasers, l.name = 1 ∧ l.ret1.seg ≠ []) := by
  simp [topSecond]

end Verif.SemsegTutorial
