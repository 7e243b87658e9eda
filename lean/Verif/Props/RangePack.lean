import Verif.Model.RangeImage
import Verif.Lemmas.ListM
import Mathlib.Tactic.Linarith
import Mathlib.Tactic.NormNum
import Mathlib.Tactic.FieldSimp
import Mathlib.Tactic.Ring
import Mathlib.Data.Nat.Bitwise

/-! C42 (packed lidar features), C43 (scattering with pooling) and C45 (cropping). -/

namespace Verif.RangeImage

open Verif.Boxes

/-! ### C42 -/

theorem metres_pos : 0 < metres := by unfold metres; norm_num

/-- C42: a range (or elongation) is accepted exactly if it is not negative and at most the largest code times the step. -/
theorem encodeGrid_iff (bits : ℕ) (r : ℝ) : (∃ n, encodeGrid bits r = some n) ↔ 0 ≤ r ∧ r ≤ (2 ^ bits - 1) * metres := by
  unfold encodeGrid
  have h1 : 0 ≤ r / metres ↔ 0 ≤ r := by
    constructor
    · intro h
      have := mul_nonneg h metres_pos.le
      rwa [div_mul_cancel₀ _ metres_pos.ne'] at this
    · intro h; exact div_nonneg h metres_pos.le
  have h2 : r / metres ≤ 2 ^ bits - 1 ↔ r ≤ (2 ^ bits - 1) * metres := div_le_iff₀ metres_pos
  simp only [h1, h2]
  split <;> simp [*]

/-- C42: the decoded range is at most the range, by less than a step, and the code has the given number of bits. -/
theorem encodeGrid_spec {bits : ℕ} {r : ℝ} {n : ℕ} (h : encodeGrid bits r = some n) :
    n < 2 ^ bits ∧ decodeGrid n ≤ r ∧ r < decodeGrid n + metres := by
  unfold encodeGrid at h
  split at h
  next hr =>
    simp only [Option.some.injEq] at h
    subst h
    have h1 := Nat.floor_le hr.1
    have h2 := Nat.lt_floor_add_one (r / metres)
    refine ⟨?_, ?_, ?_⟩
    · have : ((⌊r / metres⌋₊ : ℕ) : ℝ) < ((2 ^ bits : ℕ) : ℝ) := by push_cast; linarith [hr.2]
      exact_mod_cast this
    · unfold decodeGrid
      rwa [← le_div_iff₀ metres_pos]
    · unfold decodeGrid
      rw [div_lt_iff₀ metres_pos] at h2
      linarith
  · simp at h

/-- C42: the codes are ordered like the ranges. -/
theorem encodeGrid_mono {bits : ℕ} {r s : ℝ} {m n : ℕ} (hr : encodeGrid bits r = some m) (hs : encodeGrid bits s = some n) (h : r ≤ s) :
    m ≤ n := by
  unfold encodeGrid at hr hs
  split at hr <;> split at hs <;> simp only [Option.some.injEq, reduceCtorEq] at hr hs
  subst hr hs
  exact Nat.floor_le_floor (div_le_div_of_nonneg_right h metres_pos.le)

/-- C42: what is packed: the range code above the 16 bits of the intensity, and above the 8 bits of the elongation. -/
theorem encodeFeatures_spec {f : Feature} {p : Packed} (h : encodeFeatures f = some p) (hi : f.intensity < 2 ^ 32) :
    ∃ e, encodeGrid 16 f.range = some p.range ∧ encodeGrid 8 f.elongation = some e ∧
      p.intensity = p.range * 2 ^ 16 + f.intensity / 2 ^ 16 ∧ p.elongation = p.range * 2 ^ 16 + e ∧
      p.range < 2 ^ 16 ∧ f.intensity / 2 ^ 16 < 2 ^ 16 ∧ e < 2 ^ 8 := by
  unfold encodeFeatures at h
  cases hr : encodeGrid 16 f.range with
  | none => simp [hr] at h
  | some r =>
    cases he : encodeGrid 8 f.elongation with
    | none => simp [hr, he] at h
    | some e =>
      simp only [hr, he, Option.bind_eq_bind, Option.bind_some, Option.pure_def, Option.some.injEq] at h
      subst h
      have h1 := (encodeGrid_spec hr).1
      have h2 := (encodeGrid_spec he).1
      have h3 : f.intensity / 2 ^ 16 < 2 ^ 16 := by omega
      have hs : (r <<< 16) % 2 ^ 32 = r <<< 16 := by
        rw [Nat.shiftLeft_eq]
        exact Nat.mod_eq_of_lt (by omega)
      refine ⟨e, rfl, rfl, ?_, ?_, h1, h3, h2⟩
      · dsimp only
        rw [hs, encodeIntensity, Nat.shiftRight_eq_div_pow, Nat.mod_eq_of_lt h3, ← Nat.shiftLeft_add_eq_or_of_lt h3, Nat.shiftLeft_eq]
      · dsimp only
        rw [hs, ← Nat.shiftLeft_add_eq_or_of_lt (by omega : e < 2 ^ 16), Nat.shiftLeft_eq]

/-- C42: decoding packed features gives the range and the elongation on their grid and the upper half of the intensity. -/
theorem decode_encodeFeatures {f : Feature} {p : Packed} (h : encodeFeatures f = some p) (hi : f.intensity < 2 ^ 32) :
    ((decodeFeatures p).range ≤ f.range ∧ f.range < (decodeFeatures p).range + metres) ∧
    (decodeFeatures p).intensity = f.intensity / 2 ^ 16 * 2 ^ 16 ∧
    ((decodeFeatures p).elongation ≤ f.elongation ∧ f.elongation < (decodeFeatures p).elongation + metres) := by
  obtain ⟨e, hr, he, h1, h2, h3, h4, h5⟩ := encodeFeatures_spec h hi
  have e1 : p.intensity &&& 0xFFFF = f.intensity / 2 ^ 16 := by
    rw [show (0xFFFF : ℕ) = 2 ^ 16 - 1 by norm_num, Nat.and_two_pow_sub_one_eq_mod, h1]
    omega
  have e2 : p.elongation &&& 0xFF = e := by
    rw [show (0xFF : ℕ) = 2 ^ 8 - 1 by norm_num, Nat.and_two_pow_sub_one_eq_mod, h2]
    omega
  refine ⟨(encodeGrid_spec hr).2, ?_, ?_⟩
  · unfold decodeFeatures decodeIntensity
    dsimp only
    rw [e1, Nat.shiftLeft_eq, Nat.mod_eq_of_lt (by omega)]
  · unfold decodeFeatures
    dsimp only
    rw [e2]
    exact (encodeGrid_spec he).2

/-- C42: features are rejected exactly if the range or the elongation is out of range. -/
theorem encodeFeatures_iff (f : Feature) : (∃ p, encodeFeatures f = some p) ↔
    (0 ≤ f.range ∧ f.range ≤ (2 ^ 16 - 1) * metres) ∧ (0 ≤ f.elongation ∧ f.elongation ≤ (2 ^ 8 - 1) * metres) := by
  rw [← encodeGrid_iff, ← encodeGrid_iff]
  unfold encodeFeatures
  cases hr : encodeGrid 16 f.range <;> cases he : encodeGrid 8 f.elongation <;> simp

/-- C42: the packed features are ordered by range first: a smaller range code makes all packed features smaller, and an equal one leaves
the order of the intensities and of the elongations. -/
theorem pack_order {f g : Feature} {p q : Packed} (hf : encodeFeatures f = some p) (hg : encodeFeatures g = some q)
    (hi : f.intensity < 2 ^ 32) (hj : g.intensity < 2 ^ 32) :
    (p.range < q.range → p.intensity < q.intensity ∧ p.elongation < q.elongation) ∧
    (p.range = q.range → (p.intensity < q.intensity ↔ f.intensity / 2 ^ 16 < g.intensity / 2 ^ 16)) ∧
    (p.intensity < q.intensity → p.range ≤ q.range) ∧ (p.elongation < q.elongation → p.range ≤ q.range) := by
  obtain ⟨e, _, _, h1, h2, h3, h4, h5⟩ := encodeFeatures_spec hf hi
  obtain ⟨e', _, _, k1, k2, k3, k4, k5⟩ := encodeFeatures_spec hg hj
  refine ⟨fun h => ⟨by omega, by omega⟩, fun h => by omega, fun h => by omega, fun h => by omega⟩

/-- The value of a float that is not negative, in units of the smallest positive float, 2^-149, from its bits: 8 bits of exponent and
23 of mantissa. -/
def floatUnits (bits : ℕ) : ℕ :=
  if bits / 2 ^ 23 = 0 then bits % 2 ^ 23 else (2 ^ 23 + bits % 2 ^ 23) * 2 ^ (bits / 2 ^ 23 - 1)

/-- C42: intensities that are not negative are ordered like their bits, so their codes are ordered like them. -/
theorem floatUnits_lt {a b : ℕ} (h : a < b) : floatUnits a < floatUnits b := by
  unfold floatUnits
  have hd : a / 2 ^ 23 ≤ b / 2 ^ 23 := Nat.div_le_div_right h.le
  have ha := Nat.div_add_mod a (2 ^ 23)
  have hb := Nat.div_add_mod b (2 ^ 23)
  have ma := Nat.mod_lt a (by norm_num : 0 < 2 ^ 23)
  have mb := Nat.mod_lt b (by norm_num : 0 < 2 ^ 23)
  rcases hd.eq_or_lt with he | hl
  · rw [he] at ha ⊢
    have hm : a % 2 ^ 23 < b % 2 ^ 23 := by omega
    split
    · exact hm
    · exact Nat.mul_lt_mul_of_pos_right (by omega) (by positivity)
  · have hb0 : b / 2 ^ 23 ≠ 0 := by omega
    rw [if_neg hb0]
    split
    · calc a % 2 ^ 23 < 2 ^ 23 * 1 := by omega
        _ ≤ (2 ^ 23 + b % 2 ^ 23) * 2 ^ (b / 2 ^ 23 - 1) := Nat.mul_le_mul (by omega) Nat.one_le_two_pow
    next ha0 =>
      calc (2 ^ 23 + a % 2 ^ 23) * 2 ^ (a / 2 ^ 23 - 1) < 2 ^ 24 * 2 ^ (a / 2 ^ 23 - 1) :=
            Nat.mul_lt_mul_of_pos_right (by omega) (by positivity)
        _ = 2 ^ 23 * 2 ^ (a / 2 ^ 23 - 1 + 1) := by ring
        _ ≤ 2 ^ 23 * 2 ^ (b / 2 ^ 23 - 1) := Nat.mul_le_mul_left _ (Nat.pow_le_pow_right (by norm_num) (by omega))
        _ ≤ (2 ^ 23 + b % 2 ^ 23) * 2 ^ (b / 2 ^ 23 - 1) := Nat.mul_le_mul_right _ (by omega)

/-- C42: the decoded intensity is at most the intensity, and for normal floats the error is below one part in 128. -/
theorem intensity_error (bits : ℕ) : floatUnits (bits / 2 ^ 16 * 2 ^ 16) ≤ floatUnits bits ∧
    (2 ^ 23 ≤ bits → (floatUnits bits - floatUnits (bits / 2 ^ 16 * 2 ^ 16)) * 128 < floatUnits bits) := by
  have hle : bits / 2 ^ 16 * 2 ^ 16 ≤ bits := Nat.div_mul_le_self _ _
  constructor
  · rcases hle.eq_or_lt with h | h
    · rw [h]
    · exact (floatUnits_lt h).le
  · intro hn
    have hq : bits / 2 ^ 16 * 2 ^ 16 / 2 ^ 23 = bits / 2 ^ 23 := by omega
    have h0 : bits / 2 ^ 23 ≠ 0 := by omega
    unfold floatUnits
    rw [hq, if_neg h0, if_neg h0, ← Nat.sub_mul, Nat.mul_right_comm]
    exact Nat.mul_lt_mul_of_pos_right (by omega) (by positivity)

/-! ### C43 -/

theorem code_div {w r c : ℤ} (h0 : 0 ≤ c) (h1 : c < w) : (r * w + c) / w = r ∧ (r * w + c) % w = c := by
  have hw : w ≠ 0 := by omega
  constructor
  · rw [mul_comm, Int.mul_add_ediv_left _ _ hw, Int.ediv_eq_zero_of_lt h0 h1, add_zero]
  · rw [add_comm, Int.add_mul_emod_self_right, Int.emod_eq_of_lt h0 h1]

theorem filter_eq_singleton {α : Type} [DecidableEq α] {l : List α} (hn : l.Nodup) (a : α) :
    (l.filter fun x => x = a) = if a ∈ l then [a] else [] := by
  induction l with
  | nil => simp
  | cons b l ih =>
    rw [List.nodup_cons] at hn
    rw [List.filter_cons]
    by_cases h : b = a
    · subst h
      have : ∀ x ∈ l, ¬ x = b := fun x hx e => hn.1 (e ▸ hx)
      simp only [decide_true, if_true, List.mem_cons, true_or]
      rw [List.filter_eq_nil_iff.2 (by simpa using this)]
    · simp only [h, decide_false, Bool.false_eq_true, if_false, ih hn.2, List.mem_cons]
      have : a = b ↔ False := by constructor; intro e; exact h e.symm; exact False.elim
      simp only [this, false_or]

/-- C43: when every index is inside of the image, each cell has the pooled values of exactly the points with its index, in their order, and
zero if there are none. -/
theorem scatter_spec {α : Type} [AddCommMonoid α] (idx : List (ℤ × ℤ)) (vals : List α) (height width : ℤ) (pool : List α → α)
    (hin : ∀ p ∈ idx, 0 ≤ p.1 ∧ p.1 < height ∧ 0 ≤ p.2 ∧ p.2 < width) :
    ∃ image, scatter idx vals height width pool = some image ∧
      ∀ r c, 0 ≤ r → r < height → 0 ≤ c → c < width →
        image r c = if (r, c) ∈ idx then pool (((idx.zip vals).filter fun x => x.1 = (r, c)).map Prod.snd) else 0 := by
  unfold scatter
  dsimp only
  rw [if_pos]
  · refine ⟨_, rfl, ?_⟩
    intro r c hr0 hr1 hc0 hc1
    have hmem : ∀ u ∈ (idx.map fun p => p.1 * width + p.2).dedup, (u / width, u % width) = (r, c) ↔ u = r * width + c := by
      intro u _
      constructor
      · intro h
        simp only [Prod.mk.injEq] at h
        rw [← h.1, ← h.2, mul_comm, Int.mul_ediv_add_emod]
      · rintro rfl
        rw [(code_div hc0 hc1).1, (code_div hc0 hc1).2]
    rw [List.filter_map, List.map_map]
    have hfil : ((idx.map fun p => p.1 * width + p.2).dedup.filter ((fun e : (ℤ × ℤ) × α => decide (e.1 = (r, c))) ∘ fun u =>
        ((u / width, u % width), pool ((((idx.map fun p => p.1 * width + p.2).zip vals).filter fun x => x.1 = u).map Prod.snd)))) =
        (idx.map fun p => p.1 * width + p.2).dedup.filter fun u => u = r * width + c := by
      apply List.filter_congr
      intro u hu
      simp only [Function.comp, hmem u hu]
    rw [hfil, filter_eq_singleton (List.nodup_dedup _)]
    simp only [List.mem_dedup]
    have hiff : r * width + c ∈ (idx.map fun p => p.1 * width + p.2) ↔ (r, c) ∈ idx := by
      rw [List.mem_map]
      constructor
      · rintro ⟨p, hp, e⟩
        obtain ⟨_, _, h3, h4⟩ := hin p hp
        have a := code_div (r := p.1) h3 h4
        rw [e, (code_div hc0 hc1).1, (code_div hc0 hc1).2] at a
        have : p = (r, c) := Prod.ext a.1.symm a.2.symm
        exact this ▸ hp
      · intro h; exact ⟨(r, c), h, rfl⟩
    by_cases hm : (r, c) ∈ idx
    · rw [if_pos (hiff.2 hm), if_pos hm]
      simp only [List.map_cons, List.map_nil, List.sum_cons, List.sum_nil, add_zero, Function.comp]
      congr 1
      have : ∀ (l : List (ℤ × ℤ)) (v : List α), (∀ p ∈ l, 0 ≤ p.2 ∧ p.2 < width) →
          (((l.map fun p => p.1 * width + p.2).zip v).filter fun x => x.1 = r * width + c).map Prod.snd =
          ((l.zip v).filter fun x => x.1 = (r, c)).map Prod.snd := by
        intro l
        induction l with
        | nil => intro v _; simp
        | cons p l ih =>
          intro v hl
          cases v with
          | nil => simp
          | cons a v =>
            have ih := ih v fun q hq => hl q (by simp [hq])
            have hp := hl p (by simp)
            have : p.1 * width + p.2 = r * width + c ↔ p = (r, c) := by
              constructor
              · intro e
                have a := code_div (r := p.1) hp.1 hp.2
                rw [e, (code_div hc0 hc1).1, (code_div hc0 hc1).2] at a
                exact Prod.ext a.1.symm a.2.symm
              · rintro rfl; rfl
            simp only [List.map_cons, List.zip_cons_cons, List.filter_cons, this]
            by_cases hpp : p = (r, c)
            · simp only [hpp, decide_true, if_true, List.map_cons]
              rw [ih]
            · simp only [hpp, decide_false, Bool.false_eq_true, if_false]
              rw [ih]
      exact this idx vals fun p hp => (hin p hp).2.2
    · rw [if_neg (fun h => hm (hiff.1 h)), if_neg hm]
      rfl
  · rw [List.all_eq_true]
    intro e he
    obtain ⟨u, hu, rfl⟩ := List.mem_map.1 he
    rw [List.mem_dedup] at hu
    obtain ⟨p, hp, rfl⟩ := List.mem_map.1 hu
    obtain ⟨h1, h2, h3, h4⟩ := hin p hp
    rw [(code_div h3 h4).1, (code_div h3 h4).2]
    simp [h1, h2, h3, h4]

/-- C43: the image does not depend on the order of the points if the pool does not. -/
theorem scatter_perm {α : Type} [AddCommMonoid α] {pts pts' : List ((ℤ × ℤ) × α)} (hp : pts.Perm pts') (height width : ℤ)
    (pool : List α → α) (hpool : ∀ l l' : List α, l.Perm l' → pool l = pool l')
    (hin : ∀ p ∈ pts, 0 ≤ p.1.1 ∧ p.1.1 < height ∧ 0 ≤ p.1.2 ∧ p.1.2 < width) :
    ∃ im im', scatter (pts.map Prod.fst) (pts.map Prod.snd) height width pool = some im ∧
      scatter (pts'.map Prod.fst) (pts'.map Prod.snd) height width pool = some im' ∧
      ∀ r c, 0 ≤ r → r < height → 0 ≤ c → c < width → im r c = im' r c := by
  have hz : ∀ l : List ((ℤ × ℤ) × α), (l.map Prod.fst).zip (l.map Prod.snd) = l := fun l => (List.zip_of_prod rfl rfl).symm
  obtain ⟨im, h1, h2⟩ := scatter_spec (pts.map Prod.fst) (pts.map Prod.snd) height width pool (by
    intro p hp; obtain ⟨q, hq, rfl⟩ := List.mem_map.1 hp; exact hin q hq)
  obtain ⟨im', h1', h2'⟩ := scatter_spec (pts'.map Prod.fst) (pts'.map Prod.snd) height width pool (by
    intro p hp'; obtain ⟨q, hq, rfl⟩ := List.mem_map.1 hp'; exact hin q (hp.mem_iff.2 hq))
  refine ⟨im, im', h1, h1', fun r c a b d e => ?_⟩
  rw [h2 r c a b d e, h2' r c a b d e, hz, hz, hpool _ _ ((hp.filter _).map _)]
  have : (r, c) ∈ pts.map Prod.fst ↔ (r, c) ∈ pts'.map Prod.fst := (hp.map _).mem_iff
  simp only [this]

theorem foldl_min_spec {α : Type} [LinearOrder α] : ∀ (l : List α) (a : α), l.foldl min a ∈ a :: l ∧ ∀ x ∈ a :: l, l.foldl min a ≤ x := by
  intro l
  induction l with
  | nil => intro a; simp
  | cons b l ih =>
    intro a
    rw [List.foldl_cons]
    obtain ⟨h1, h2⟩ := ih (min a b)
    constructor
    · rcases List.mem_cons.1 h1 with h | h
      · rw [h]; rcases min_choice a b with h' | h' <;> simp [h']
      · exact List.mem_cons_of_mem _ (List.mem_cons_of_mem _ h)
    · intro x hx
      have h3 := h2 (min a b) (by simp)
      rcases List.mem_cons.1 hx with rfl | hx
      · exact h3.trans (min_le_left _ _)
      · rcases List.mem_cons.1 hx with rfl | hx
        · exact h3.trans (min_le_right _ _)
        · exact h2 x (List.mem_cons_of_mem _ hx)

/-- The default pools take the smallest or the largest value of a segment. -/
theorem segMin_spec {α : Type} [LinearOrder α] [Zero α] {l : List α} (h : l ≠ []) : segMin l ∈ l ∧ ∀ x ∈ l, segMin l ≤ x := by
  cases l with
  | nil => exact absurd rfl h
  | cons a l => exact foldl_min_spec l a

theorem segMax_spec {α : Type} [LinearOrder α] [Zero α] {l : List α} (h : l ≠ []) : segMax l ∈ l ∧ ∀ x ∈ l, x ≤ segMax l := by
  cases l with
  | nil => exact absurd rfl h
  | cons a l => exact foldl_min_spec (α := αᵒᵈ) l a

theorem segMin_unique {α : Type} [LinearOrder α] [Zero α] {l : List α} {m : α} (hm : m ∈ l) (hle : ∀ x ∈ l, m ≤ x) : segMin l = m := by
  obtain ⟨h1, h2⟩ := segMin_spec (List.ne_nil_of_mem hm)
  exact le_antisymm (h2 m hm) (hle _ h1)

theorem segMin_perm {α : Type} [LinearOrder α] [Zero α] {l l' : List α} (h : l.Perm l') : segMin l = segMin l' := by
  cases l with
  | nil => rw [h.symm.eq_nil]
  | cons a l =>
    have hne : l' ≠ [] := by rintro rfl; exact absurd h.eq_nil (by simp)
    obtain ⟨h1, h2⟩ := segMin_spec hne
    exact segMin_unique (h.mem_iff.2 h1) fun x hx => h2 x (h.mem_iff.1 hx)

/-- C43 does not hold for a column outside of the image: the value appears at the start of the next row. -/
theorem scatter_outside_violated : ∃ image : ℤ → ℤ → ℤ, scatter [(0, 3)] [7] 2 3 segMin = some image ∧ image 1 0 = 7 :=
  ⟨_, rfl, by decide⟩

/-- A case for the hypotheses: two points in one cell and one in another. -/
theorem scatter_case : ∃ image : ℤ → ℤ → ℤ, scatter [(0, 2), (1, 0), (0, 2)] [7, 5, 4] 2 3 segMin = some image ∧
    image 0 2 = 4 ∧ image 1 0 = 5 ∧ image 1 1 = 0 := ⟨_, rfl, by decide, by decide, by decide⟩

/-! ### C45 -/

/-- The window of an image, the central one shifted, is inside of the image. -/
def WindowOk (width : ℕ) (new s : ℤ) : Prop := 0 ≤ (width - new) / 2 + s ∧ (width - new) / 2 + s + new ≤ width

instance (width : ℕ) (new s : ℤ) : Decidable (WindowOk width new s) := inferInstanceAs (Decidable (_ ∧ _))

/-- C45: cropping to the present width changes nothing; otherwise it succeeds exactly if the new width is at least one and smaller than
the old one, and every shift keeps its window inside of the image and there is one for each image. -/
theorem crop_iff {α : Type} (images : List (List (List α))) (width : ℕ) (new : ℤ) (shift : Option (List ℤ)) :
    (∃ out, crop images width new shift = some out) ↔ (width : ℤ) = new ∨
      (1 ≤ new ∧ new < width ∧ ∀ s, shift = some s → images.length ≤ s.length ∧ ∀ i ∈ s, WindowOk width new i) := by
  unfold crop
  by_cases h1 : (width : ℤ) = new
  · simp [h1]
  rw [if_neg h1]
  by_cases h2 : new < 1
  · rw [if_pos h2]
    simp only [reduceCtorEq, exists_false, false_iff, not_or]
    exact ⟨h1, fun h => by omega⟩
  rw [if_neg h2]
  by_cases h3 : new ≥ width
  · rw [if_pos h3]
    simp only [reduceCtorEq, exists_false, false_iff, not_or]
    exact ⟨h1, fun h => by omega⟩
  rw [if_neg h3]
  have hw : ∀ s : List ℤ, windows width new s = if (∀ i ∈ s, WindowOk width new i) then
      some (s.map fun i => (width - new) / 2 + i) else none := by
    intro s
    unfold windows WindowOk
    dsimp only
    congr 1
    simp
  rw [hw]
  cases shift with
  | none =>
    rw [Option.getD_none, if_pos]
    · simp [h1, show 1 ≤ new by omega, show new < width by omega]
    · intro i hi
      obtain ⟨_, _, rfl⟩ := List.mem_map.1 hi
      unfold WindowOk
      omega
  | some s =>
    rw [Option.getD_some]
    simp only [Option.some.injEq, forall_eq', h1, false_or, show 1 ≤ new by omega, show new < width by omega, true_and]
    by_cases hs : ∀ i ∈ s, WindowOk width new i
    · rw [if_pos hs]
      simp only [Option.bind_eq_bind, Option.bind_some, List.length_map]
      by_cases hl : s.length < images.length
      · simp [hl]
      · rw [if_neg hl]
        simp [show images.length ≤ s.length by omega]; try exact fun i hi => hs i hi
    · rw [if_neg hs]
      simp only [Option.bind_eq_bind, Option.bind_none, reduceCtorEq, exists_false, false_iff, not_and]
      exact fun _ => hs

/-- C45: every cropped row has the new width and consists of the columns of the window, which is the central one shifted. -/
theorem crop_spec {α : Type} {images out : List (List (List α))} {width : ℕ} {new : ℤ} {shift : Option (List ℤ)}
    (h : crop images width new shift = some out) (hne : (width : ℤ) ≠ new) (hrows : ∀ im ∈ images, ∀ row ∈ im, row.length = width) :
    out.length = images.length ∧ ∀ (k : ℕ) (im : List (List α)), images[k]? = some im → ∃ s : ℤ,
      (∀ l, shift = some l → l[k]? = some s) ∧ (shift = none → s = 0) ∧ WindowOk width new s ∧ ∃ im', out[k]? = some im' ∧
      im'.length = im.length ∧ ∀ (r : ℕ) (row : List α), im[r]? = some row → ∃ row', im'[r]? = some row' ∧ (row'.length : ℤ) = new ∧
        ∀ c : ℕ, (c : ℤ) < new → row'[c]? = row[((width - new) / 2 + s).toNat + c]? := by
  unfold crop at h
  rw [if_neg hne] at h
  split at h
  · simp at h
  next h2 =>
  split at h
  · simp at h
  next h3 =>
  simp only [windows] at h
  split at h
  next hw =>
    rw [List.all_eq_true] at hw
    simp only [Option.bind_eq_bind, Option.bind_some, List.length_map] at h
    split at h
    · simp at h
    next hl =>
      simp only [Option.pure_def, Option.some.injEq] at h
      subst h
      refine ⟨by simp only [List.length_map, List.length_zip]; omega, ?_⟩
      intro k im him
      have hk : k < images.length := (List.getElem?_eq_some_iff.1 him).1
      have hk' : k < (shift.getD (images.map fun _ => 0)).length := by omega
      have hs := List.getElem?_eq_getElem hk'
      generalize (shift.getD (images.map fun _ => 0))[k] = s at hs
      have hwin : WindowOk width new s := by
        have := hw ((width - new) / 2 + s) (List.mem_map.2 ⟨s, List.mem_of_getElem? hs, rfl⟩)
        simpa [WindowOk] using this
      refine ⟨s, ?_, ?_, hwin, ?_⟩
      · rintro l rfl; simpa using hs
      · rintro rfl
        rw [Option.getD_none, List.getElem?_map, him] at hs
        simpa using hs.symm
      · refine ⟨im.map fun row => (row.drop ((width - new) / 2 + s).toNat).take new.toNat, ?_, by simp, ?_⟩
        · rw [List.getElem?_map]
          have : (images.zip ((shift.getD (images.map fun _ => 0)).map fun i => (width - new) / 2 + i))[k]? =
              some (im, (width - new) / 2 + s) := by
            rw [List.getElem?_zip_eq_some]
            exact ⟨him, by rw [List.getElem?_map, hs]; rfl⟩
          rw [this]; rfl
        · intro r row hrow
          refine ⟨_, by rw [List.getElem?_map, hrow]; rfl, ?_, ?_⟩
          · have hlen := hrows im (List.mem_of_getElem? him) row (List.mem_of_getElem? hrow)
            rw [List.length_take, List.length_drop, hlen]
            unfold WindowOk at hwin
            omega
          · intro c hc
            rw [List.getElem?_take_of_lt (by omega), List.getElem?_drop]
  next => simp at h

/-- A case for the hypotheses. -/
theorem crop_case : crop [[[0, 1, 2, 3, 4, 5]], [[0, 1, 2, 3, 4, 5]]] 6 3 (some [0, 2]) = some [[[1, 2, 3]], [[3, 4, 5]]] := by decide

/-- C45: when the width does not change, the shift is ignored, also one that would be rejected otherwise. -/
theorem crop_same_width : crop [[[0, 1]]] 2 2 (some [9]) = some [[[0, 1]]] := by decide

/-! ### Inclinations -/

/-- The inclinations of a uniform range image are the centres of equal parts of the range, from the lowest to the highest. -/
theorem inclinations_spec (lo hi : ℝ) (height : ℕ) (h : lo < hi) (k : ℕ) (hk : k < height) :
    ∃ x, (inclinations lo hi height)[k]? = some x ∧ lo < x ∧ x < hi ∧ x = lo + (k + 1 / 2) * ((hi - lo) / height) := by
  have hh : (0 : ℝ) < height := by exact_mod_cast (by omega : 0 < height)
  have hk' : (k : ℝ) + 1 ≤ height := by exact_mod_cast hk
  have e : (1 / 2 + (k : ℝ)) / height * (hi - lo) + lo = lo + (k + 1 / 2) * ((hi - lo) / height) := by ring
  refine ⟨(1 / 2 + (k : ℝ)) / height * (hi - lo) + lo, ?_, ?_, ?_, e⟩
  · unfold inclinations
    rw [List.getElem?_map, List.getElem?_range hk]
    rfl
  · have : 0 < (1 / 2 + (k : ℝ)) / height := by positivity
    nlinarith
  · have : (1 / 2 + (k : ℝ)) / height < 1 := by rw [div_lt_one hh]; linarith
    nlinarith

/-- They are all different and increasing. -/
theorem inclinations_strict (lo hi : ℝ) (height : ℕ) (h : lo < hi) : (inclinations lo hi height).Pairwise (· < ·) := by
  unfold inclinations
  rw [List.pairwise_map]
  refine List.pairwise_lt_range.imp_of_mem ?_
  intro a b ha _ hab
  have hh : (0 : ℝ) < height := by
    have := List.mem_range.1 ha
    exact_mod_cast (by omega : 0 < height)
  have hab' : (a : ℝ) < b := by exact_mod_cast hab
  have : (1 / 2 + (a : ℝ)) / height < (1 / 2 + (b : ℝ)) / height := by
    apply div_lt_div_of_pos_right _ hh; linarith
  nlinarith

end Verif.RangeImage
