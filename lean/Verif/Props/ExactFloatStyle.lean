import Verif.Props.ExactFloatText

/-!
Property C109, the notation: a number is printed with an exponent exactly if it is small or has more digits than asked for.
-/

namespace Verif.ExactFloat

open EF

/-- The most significant digit (the last of the list) is there and is not zero. -/
def Lead (l : List ℕ) : Prop := ∃ x, l.getLast? = some x ∧ x ≠ 0

theorem lead_cons {d : ℕ} {l : List ℕ} (h : Lead l) : Lead (d :: l) := by
  obtain ⟨x, h1, h2⟩ := h
  refine ⟨x, ?_, h2⟩
  rw [List.getLast?_cons, h1]; rfl

theorem lead_tail {d : ℕ} {l : List ℕ} (h : Lead (d :: l)) (hl : l ≠ []) : Lead l := by
  obtain ⟨x, h1, h2⟩ := h
  obtain ⟨e, l', rfl⟩ := List.exists_cons_of_ne_nil hl
  exact ⟨x, by rw [List.getLast?_cons_cons] at h1; exact h1, h2⟩

theorem lead_inc : ∀ l : List ℕ, Lead l → Lead (incDigits l) := by
  intro l
  induction l with
  | nil => intro _; exact ⟨1, rfl, by decide⟩
  | cons d l ih =>
    intro h
    unfold incDigits
    by_cases hl : l = []
    · subst hl
      split_ifs
      · exact ⟨d + 1, rfl, by omega⟩
      · exact ⟨1, rfl, by decide⟩
    · split_ifs
      · exact lead_cons (lead_tail h hl)
      · exact lead_cons (ih (lead_tail h hl))

theorem lead_drop : ∀ (k : ℕ) (l : List ℕ), Lead l → k < l.length → Lead (l.drop k) := by
  intro k
  induction k with
  | zero => intro l h _; exact h
  | succ k ih =>
    intro l h hk
    cases l with
    | nil => simp at hk
    | cons d l =>
      have hk' : k < l.length := by simpa using hk
      have hl : l ≠ [] := by rintro rfl; simp at hk'
      exact ih l (lead_tail h hl) hk'

theorem lead_strip : ∀ l : List ℕ, Lead l → Lead (strip l) := by
  intro l
  induction l with
  | nil => intro h; exact h
  | cons d l ih =>
    intro h
    unfold strip
    by_cases hd : d = 0
    · subst hd
      rw [List.dropWhile_cons_of_pos (by decide)]
      refine ih (lead_tail h ?_)
      rintro rfl
      obtain ⟨x, h1, h2⟩ := h
      simp at h1
      exact h2 h1.symm
    · rw [List.dropWhile_cons_of_neg (by simpa using hd)]
      exact h

theorem lead_round {n M : ℕ} (hn : n ≠ 0) (hM : 1 ≤ M) : Lead (roundDigits M (Nat.digits 10 n)).1 := by
  have h0 : Lead (Nat.digits 10 n) :=
    ⟨_, List.getLast?_eq_getLast_of_ne_nil (Nat.digits_ne_nil_iff_ne_zero.mpr hn), Nat.getLast_digit_ne_zero 10 hn⟩
  unfold roundDigits
  simp only
  split_ifs with h1 h2
  · exact h0
  · exact lead_inc _ (lead_drop _ _ h0 (by omega))
  · exact lead_drop _ _ h0 (by omega)

/-- The decimal value lies between two powers of ten given by the exponent. -/
theorem decVal_bounds {a : EF} (ca : Canon a) (na : a.isNormal = true) (M : ℕ) (hM : 1 ≤ M) :
    (10 : ℚ) ^ ((a.decimalDigits M).2 - 1) ≤ decVal (a.decimalDigits M) ∧
      decVal (a.decimalDigits M) < 10 ^ (a.decimalDigits M).2 := by
  obtain ⟨hd, hne⟩ := digits_parts ca na M hM
  have hb0 : a.bn ≠ 0 := by
    have := (normal_parts ca na).1
    omega
  have hl : Lead (a.decimalDigits M).1.reverse := by
    unfold decimalDigits
    simp only [List.reverse_reverse]
    exact lead_strip _ (lead_round (decimal_ne hb0) hM)
  generalize hx : (a.decimalDigits M).2 = x
  generalize hs : (a.decimalDigits M).1 = ds at hd hne hl
  have e : decVal (a.decimalDigits M) = (Nat.ofDigits 10 ds.reverse : ℕ) * (10 : ℚ) ^ (x - ds.length) := by
    unfold decVal
    rw [hs, hx]
  rw [e]
  have hlen : 0 < ds.length := List.length_pos_iff.mpr hne
  have up : Nat.ofDigits 10 ds.reverse < 10 ^ ds.length := by
    have := Nat.ofDigits_lt_base_pow_length (b := 10) (l := ds.reverse) (by norm_num)
      (fun d h => hd d (List.mem_reverse.mp h))
    rwa [List.length_reverse] at this
  have low : 10 ^ (ds.length - 1) ≤ Nat.ofDigits 10 ds.reverse := by
    obtain ⟨y, h1, h2⟩ := hl
    obtain ⟨l, hlast⟩ : ∃ l, ds.reverse = l ++ [y] := by
      obtain ⟨l, h⟩ := List.getLast?_eq_some_iff.mp h1
      exact ⟨l, h⟩
    have hll : l.length = ds.length - 1 := by
      have := congrArg List.length hlast
      rw [List.length_reverse, List.length_append, List.length_singleton] at this
      omega
    rw [hlast, Nat.ofDigits_append, hll, Nat.ofDigits_singleton]
    have : 10 ^ (ds.length - 1) * 1 ≤ 10 ^ (ds.length - 1) * y := Nat.mul_le_mul_left _ (by omega)
    omega
  have pos : (0 : ℚ) < 10 ^ (x - ds.length) := by positivity
  constructor
  · have : (10 : ℚ) ^ (x - 1) = ((10 ^ (ds.length - 1) : ℕ) : ℚ) * 10 ^ (x - ds.length) := by
      rw [Nat.cast_pow, Nat.cast_ofNat, ← zpow_natCast, ← zpow_add₀ (by norm_num)]
      congr 1
      omega
    rw [this]
    exact mul_le_mul_of_nonneg_right (by exact_mod_cast low) pos.le
  · have : (10 : ℚ) ^ x = ((10 ^ ds.length : ℕ) : ℚ) * 10 ^ (x - ds.length) := by
      rw [Nat.cast_pow, Nat.cast_ofNat, ← zpow_natCast, ← zpow_add₀ (by norm_num)]
      congr 1
      omega
    rw [this]
    exact mul_lt_mul_of_pos_right (by exact_mod_cast up) pos

theorem digitChar_ne_e {d : ℕ} (h : d < 10) : digitChar d ≠ 'e' := by
  interval_cases d <;> decide

theorem format_exponent {ds : List ℕ} (hd : ∀ d ∈ ds, d < 10) (neg : Bool) (x : ℤ) (M : ℕ) :
    'e' ∈ format neg (ds.map digitChar) x M ↔ (x ≤ -4 ∨ x > M) := by
  have hne : 'e' ∉ ds.map digitChar := by
    intro h
    obtain ⟨d, h1, h2⟩ := List.mem_map.mp h
    exact digitChar_ne_e (hd d h1) h2
  have ht : ∀ k, 'e' ∉ (ds.map digitChar).take k := fun k h => hne (List.mem_of_mem_take h)
  have hdr : ∀ k, 'e' ∉ (ds.map digitChar).drop k := fun k h => hne (List.mem_of_mem_drop h)
  have hsign : 'e' ∉ (if neg then ['-'] else []) := by cases neg <;> simp
  generalize ds.map digitChar = s at hne ht hdr
  unfold format
  rw [List.mem_append]
  simp only [hsign, false_or]
  split_ifs with h1 h2 h3 h4
  · exact iff_of_true (by simp [expChars]) h1
  · exact iff_of_true (by simp [expChars]) h1
  · refine iff_of_false ?_ h1
    rw [List.mem_append]
    rintro (h | h)
    · exact hne h
    · exact absurd (List.eq_of_mem_replicate h) (by decide)
  · refine iff_of_false ?_ h1
    rw [List.mem_append, List.mem_cons]
    rintro (h | h | h)
    · exact ht _ h
    · exact absurd h (by decide)
    · exact hdr _ h
  · refine iff_of_false ?_ h1
    simp only [List.cons_append, List.mem_cons, List.mem_append]
    rintro (h | h | h | h)
    · exact absurd h (by decide)
    · exact absurd h (by decide)
    · exact absurd (List.eq_of_mem_replicate h) (by decide)
    · exact hne h

/-- **The notation** (C109): the string has an exponent exactly if the number that it denotes is smaller than a
ten-thousandth or has more digits before the point than were asked for. -/
theorem string_exponent {a : EF} (ca : Canon a) (na : a.isNormal = true) (M : ℕ) (hM : 1 ≤ M) :
    ∃ v : ℚ, parse (a.toStringWithMaxDigits M) = some v ∧
      ('e' ∈ a.toStringWithMaxDigits M ↔ |v| < 1 / 10 ^ 4 ∨ 10 ^ M ≤ |v|) := by
  refine ⟨_, string_denotes ca na M hM, ?_⟩
  obtain ⟨lo, hi⟩ := decVal_bounds ca na M hM
  have hpos : 0 < decVal (a.decimalDigits M) := lt_of_lt_of_le (by positivity) lo
  have habs : |((a.sign : ℤ) : ℚ) * decVal (a.decimalDigits M)| = decVal (a.decimalDigits M) := by
    rw [abs_mul, abs_of_pos hpos]
    rcases ca.sign with s | s <;> simp [s]
  rw [habs]
  have hstr : a.toStringWithMaxDigits M =
      format (decide (a.sign < 0)) ((a.decimalDigits M).1.map digitChar) (a.decimalDigits M).2 M := by
    unfold toStringWithMaxDigits
    rw [if_neg (by rw [na]; decide)]
  rw [hstr, format_exponent (digits_parts ca na M hM).1]
  generalize (a.decimalDigits M).2 = x at lo hi
  have one : (1 : ℚ) < 10 := by norm_num
  constructor
  · rintro (h | h)
    · left
      calc decVal (a.decimalDigits M) < 10 ^ x := hi
        _ ≤ 10 ^ (-4 : ℤ) := zpow_le_zpow_right₀ one.le h
        _ = 1 / 10 ^ 4 := by norm_num
    · right
      calc (10 : ℚ) ^ M = 10 ^ (M : ℤ) := (zpow_natCast _ _).symm
        _ ≤ 10 ^ (x - 1) := zpow_le_zpow_right₀ one.le (by omega)
        _ ≤ _ := lo
  · rintro (h | h)
    · left
      have : (10 : ℚ) ^ (x - 1) < 10 ^ (-4 : ℤ) := by
        calc (10 : ℚ) ^ (x - 1) ≤ _ := lo
          _ < 1 / 10 ^ 4 := h
          _ = 10 ^ (-4 : ℤ) := by norm_num
      have := (zpow_lt_zpow_iff_right₀ one).mp this
      omega
    · right
      have : (10 : ℚ) ^ (M : ℤ) < 10 ^ x := by
        calc (10 : ℚ) ^ (M : ℤ) = 10 ^ M := zpow_natCast _ _
          _ ≤ _ := h
          _ < _ := hi
      exact (zpow_lt_zpow_iff_right₀ one).mp this

/-- Both kinds of notation occur. -/
theorem exponent_example : EF.toString ⟨1, -1, 1⟩ = "0.5".toList ∧
    EF.toStringWithMaxDigits ⟨1, 10, 1⟩ 2 = "1e+3".toList := by
  decide +kernel

end Verif.ExactFloat
