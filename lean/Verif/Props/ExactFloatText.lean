import Verif.Props.ExactFloatString

/-!
C109: the text of exact numbers: what a string denotes, and strings that tell numbers apart.
-/

namespace Verif.ExactFloat

open EF

/-! ## Specification: the number that a string denotes -/

/-- The number written by a string of digits. -/
def numVal (s : List Char) : ℕ := s.foldl (fun n c => 10 * n + (c.toNat - 48)) 0

/-- The exponent written after the digits. -/
def parseExp : List Char → Option ℤ
  | [] => some 0
  | 'e' :: '+' :: t => if t ≠ [] ∧ t.all Char.isDigit then some (numVal t) else none
  | 'e' :: '-' :: t => if t ≠ [] ∧ t.all Char.isDigit then some (-(numVal t : ℤ)) else none
  | _ => none

/-- The fraction after the integer part, and what follows. -/
def parseFrac : List Char → List Char × List Char
  | '.' :: t => (t.takeWhile Char.isDigit, t.dropWhile Char.isDigit)
  | t => ([], t)

/-- The number that an unsigned decimal string denotes. -/
def parseUnsigned (s : List Char) : Option ℚ :=
  let ip := s.takeWhile Char.isDigit
  let f := parseFrac (s.dropWhile Char.isDigit)
  if ip = [] then none else (parseExp f.2).map (fun e : ℤ => (numVal (ip ++ f.1) : ℚ) * 10 ^ (e - (f.1.length : ℤ)))

/-- The number that a decimal string denotes. -/
def parse : List Char → Option ℚ
  | '-' :: t => (parseUnsigned t).map (fun x => -x)
  | t => parseUnsigned t

/-! ## Digits and characters -/

theorem digitChar_parts {d : ℕ} (h : d < 10) : (digitChar d).isDigit = true ∧ (digitChar d).toNat - 48 = d ∧ digitChar d ≠ '<' ∧ digitChar d ≠ '-' := by
  have : ∀ d : Fin 10, (digitChar d).isDigit = true ∧ (digitChar d).toNat - 48 = d ∧ digitChar d ≠ '<' ∧ digitChar d ≠ '-' := by decide
  exact this ⟨d, h⟩

theorem numVal_append (s : List Char) (c : Char) : numVal (s ++ [c]) = 10 * numVal s + (c.toNat - 48) := by
  unfold numVal
  rw [List.foldl_append]
  rfl

theorem numVal_digits (l : List ℕ) (h : ∀ d ∈ l, d < 10) : numVal (l.map digitChar) = Nat.ofDigits 10 l.reverse := by
  induction l using List.reverseRecOn with
  | nil => rfl
  | append_singleton l d ih =>
    rw [List.map_append, List.map_singleton, numVal_append, ih (fun x hx => h x (by simp [hx])), (digitChar_parts (h d (by simp))).2.1,
      List.reverse_append, List.reverse_singleton, List.singleton_append, Nat.ofDigits_cons]
    push_cast
    ring

theorem numVal_zeros (s : List Char) (k : ℕ) : numVal (s ++ List.replicate k '0') = numVal s * 10 ^ k := by
  induction k with
  | zero => simp
  | succ k ih =>
    rw [List.replicate_succ', ← List.append_assoc, numVal_append, ih, show ('0').toNat - 48 = 0 by decide, pow_succ]
    ring

theorem numVal_lead (k : ℕ) (s : List Char) : numVal (List.replicate k '0' ++ s) = numVal s := by
  unfold numVal
  rw [List.foldl_append]
  congr 1
  induction k with
  | zero => rfl
  | succ k ih =>
    rw [List.replicate_succ', List.foldl_append, ih]
    rfl

theorem natChars_spec (n : ℕ) : numVal (natChars n) = n ∧ natChars n ≠ [] ∧ (natChars n).all Char.isDigit = true ∧ ∀ c ∈ natChars n, c ≠ '<' := by
  unfold natChars
  split_ifs with h
  · subst h
    exact ⟨by decide, by simp, by decide, by decide⟩
  · have hd : ∀ d ∈ (Nat.digits 10 n).reverse, d < 10 := fun d hd => Nat.digits_lt_base (by norm_num) (List.mem_reverse.mp hd)
    refine ⟨?_, ?_, ?_, ?_⟩
    · rw [numVal_digits _ hd, List.reverse_reverse, Nat.ofDigits_digits]
    · intro g
      rw [List.map_eq_nil_iff, List.reverse_eq_nil_iff, Nat.digits_eq_nil_iff_eq_zero] at g
      exact h g
    · rw [List.all_eq_true]
      intro c hc
      obtain ⟨d, hd', rfl⟩ := List.mem_map.mp hc
      exact (digitChar_parts (hd d hd')).1
    · intro c hc
      obtain ⟨d, hd', rfl⟩ := List.mem_map.mp hc
      exact (digitChar_parts (hd d hd')).2.2.1

theorem parseExp_expChars (e : ℤ) : parseExp (expChars e) = some e := by
  obtain ⟨h1, h2, h3, -⟩ := natChars_spec e.natAbs
  unfold expChars
  split_ifs with g
  · show (if natChars e.natAbs ≠ [] ∧ (natChars e.natAbs).all Char.isDigit then some (-(numVal (natChars e.natAbs) : ℤ)) else none) = some e
    rw [if_pos ⟨h2, h3⟩, h1]
    congr 1
    omega
  · show (if natChars e.natAbs ≠ [] ∧ (natChars e.natAbs).all Char.isDigit then some (numVal (natChars e.natAbs) : ℤ) else none) = some e
    rw [if_pos ⟨h2, h3⟩, h1]
    congr 1
    omega

theorem takeWhile_all {l r : List Char} (h : ∀ c ∈ l, c.isDigit = true) (hr : ∀ c ∈ r.head?, c.isDigit = false) :
    (l ++ r).takeWhile Char.isDigit = l ∧ (l ++ r).dropWhile Char.isDigit = r := by
  rw [List.takeWhile_append_of_pos h, List.dropWhile_append_of_pos h]
  cases r with
  | nil => simp
  | cons c t =>
    have := hr c (by simp)
    rw [List.takeWhile_cons_of_neg (by simp [this]), List.dropWhile_cons_of_neg (by simp [this])]
    simp

/-- A tail that ends the digits. -/
structure Tail (t : List Char) (e : ℤ) : Prop where
  exp : parseExp t = some e
  head : ∀ c ∈ t.head?, c.isDigit = false
  frac : parseFrac t = ([], t)

theorem tail_nil : Tail [] 0 := ⟨rfl, by simp, rfl⟩

theorem tail_exp (e : ℤ) : Tail (expChars e) e := ⟨parseExp_expChars e, by simp only [expChars, List.head?_cons, Option.mem_def, Option.some.injEq]; rintro c rfl; rfl, rfl⟩

theorem parse_int {ip t : List Char} {e : ℤ} (h : ip ≠ []) (hd : ∀ c ∈ ip, c.isDigit = true) (ht : Tail t e) :
    parseUnsigned (ip ++ t) = some ((numVal ip : ℚ) * 10 ^ e) := by
  obtain ⟨h1, h2⟩ := takeWhile_all hd ht.head
  unfold parseUnsigned
  simp only [h1, h2, ht.frac, ht.exp, if_neg h]
  simp

theorem parse_frac {ip fp t : List Char} {e : ℤ} (h : ip ≠ []) (hd : ∀ c ∈ ip, c.isDigit = true) (hf : ∀ c ∈ fp, c.isDigit = true) (ht : Tail t e) :
    parseUnsigned (ip ++ '.' :: (fp ++ t)) = some ((numVal (ip ++ fp) : ℚ) * 10 ^ (e - (fp.length : ℤ))) := by
  obtain ⟨h1, h2⟩ := takeWhile_all (r := '.' :: (fp ++ t)) hd (by simp only [List.head?_cons, Option.mem_def, Option.some.injEq]; rintro c rfl; rfl)
  obtain ⟨h3, h4⟩ := takeWhile_all hf ht.head
  have h5 : parseFrac ('.' :: (fp ++ t)) = (fp, t) := by
    show (List.takeWhile Char.isDigit (fp ++ t), List.dropWhile Char.isDigit (fp ++ t)) = (fp, t)
    rw [h3, h4]
  unfold parseUnsigned
  simp only [h1, h2, h5, ht.exp, if_neg h]
  simp

/-! ## The format -/

theorem format_unsigned {ds : List ℕ} (hds : ∀ d ∈ ds, d < 10) (hne : ds ≠ []) (x : ℤ) (M : ℕ) :
    parseUnsigned (format false (ds.map digitChar) x M) = some (decVal (ds, x)) := by
  have hc : ∀ c ∈ ds.map digitChar, c.isDigit = true := by
    intro c hc
    obtain ⟨d, hd, rfl⟩ := List.mem_map.mp hc
    exact (digitChar_parts (hds d hd)).1
  have hnum := numVal_digits ds hds
  have hlen : (ds.map digitChar).length = ds.length := List.length_map _
  have hne' : ds.map digitChar ≠ [] := by simpa using hne
  have hpos : 0 < ds.length := List.length_pos_iff.mpr hne
  unfold decVal
  simp only
  rw [← hnum, ← hlen]
  rw [← hlen] at hpos
  clear hnum hlen
  generalize ds.map digitChar = s at *
  have hdrop : ∀ k, ∀ c ∈ s.drop k, c.isDigit = true := fun k c hx => hc c (List.mem_of_mem_drop hx)
  have htake : ∀ k, ∀ c ∈ s.take k, c.isDigit = true := fun k c hx => hc c (List.mem_of_mem_take hx)
  unfold format
  simp only [Bool.false_eq_true, if_false, List.nil_append]
  split_ifs with g1 g2 g3 g4
  · rw [List.append_assoc, List.cons_append, parse_frac (by simp; omega) (htake 1) (hdrop 1) (tail_exp _), List.take_append_drop, List.length_drop]
    congr 2
    congr 1
    omega
  · have : s.take 1 = s := List.take_of_length_le (by omega)
    rw [this, List.append_nil, parse_int hne' hc (tail_exp _)]
    congr 2
    congr 1
    omega
  · have hz : ∀ c ∈ s ++ List.replicate (x - s.length).toNat '0', c.isDigit = true := by
      intro c hx
      rcases List.mem_append.mp hx with q | q
      · exact hc c q
      · rw [List.eq_of_mem_replicate q]; rfl
    have := parse_int (t := []) (e := 0) (ip := s ++ List.replicate (x - s.length).toNat '0') (by simp [hne']) hz tail_nil
    rw [List.append_nil] at this
    rw [this, numVal_zeros, zpow_zero, mul_one]
    push_cast
    congr 2
    rw [← zpow_natCast]
    congr 1
    omega
  · have := parse_frac (t := []) (e := 0) (ip := s.take x.toNat) (fp := s.drop x.toNat) (by
      intro q
      have : (s.take x.toNat).length = 0 := by rw [q]; rfl
      rw [List.length_take] at this
      omega) (htake _) (hdrop _) tail_nil
    rw [List.append_nil] at this
    rw [this, List.take_append_drop, List.length_drop]
    congr 3
    omega
  · have hz : ∀ c ∈ List.replicate (-x).toNat '0' ++ s, c.isDigit = true := by
      intro c hx
      rcases List.mem_append.mp hx with q | q
      · rw [List.eq_of_mem_replicate q]; rfl
      · exact hc c q
    have := parse_frac (t := []) (e := 0) (ip := ['0']) (fp := List.replicate (-x).toNat '0' ++ s) (by simp) (by simp) hz tail_nil
    rw [List.append_nil] at this
    rw [show '0' :: '.' :: List.replicate (-x).toNat '0' ++ s = ['0'] ++ '.' :: (List.replicate (-x).toNat '0' ++ s) by simp, this]
    rw [show ['0'] ++ (List.replicate (-x).toNat '0' ++ s) = List.replicate ((-x).toNat + 1) '0' ++ s by
      rw [List.replicate_succ]; rfl, numVal_lead, List.length_append, List.length_replicate]
    congr 3
    push_cast
    omega

/-- The digits of a normal number. -/
theorem digits_parts {a : EF} (ca : Canon a) (na : a.isNormal = true) (M : ℕ) (hM : 1 ≤ M) :
    (∀ d ∈ (a.decimalDigits M).1, d < 10) ∧ (a.decimalDigits M).1 ≠ [] := by
  have hb0 : a.bn ≠ 0 := by
    have := (normal_parts ca na).1
    omega
  have h0 := decimal_ne hb0
  obtain ⟨r1, -, -⟩ := roundDigits_spec a.decimal.1 M h0 hM
  constructor
  · intro d hd
    unfold decimalDigits at hd
    have := (strip_val (roundDigits M (Nat.digits 10 a.decimal.1)).1).2.2 d (List.mem_reverse.mp hd)
    exact r1 d this
  · intro g
    have e := (decimal_error ca na M hM).2
    have : decVal (a.decimalDigits M) = 0 := by
      unfold decVal
      rw [g]
      simp
    rw [this] at e
    have : (0 : ℚ) < 10 ^ (Int.log 10 |a.val|) := by positivity
    linarith

theorem format_head {ds : List ℕ} (hds : ∀ d ∈ ds, d < 10) (hne : ds ≠ []) (x : ℤ) (M : ℕ) :
    ∀ t, format false (ds.map digitChar) x M ≠ '-' :: t := by
  intro t h
  have e := format_unsigned hds hne x M
  rw [h] at e
  unfold parseUnsigned at e
  rw [List.takeWhile_cons_of_neg (by decide)] at e
  simp at e

/-- **The string denotes the decimal value** (C109). -/
theorem string_denotes {a : EF} (ca : Canon a) (na : a.isNormal = true) (M : ℕ) (hM : 1 ≤ M) :
    parse (a.toStringWithMaxDigits M) = some (a.sign * decVal (a.decimalDigits M)) := by
  obtain ⟨h1, h2⟩ := digits_parts ca na M hM
  have key := format_unsigned h1 h2 (a.decimalDigits M).2 M
  have hh := format_head h1 h2 (a.decimalDigits M).2 M
  unfold toStringWithMaxDigits
  rw [if_neg (by rw [na]; decide)]
  simp only
  have eta : ((a.decimalDigits M).1, (a.decimalDigits M).2) = a.decimalDigits M := rfl
  rw [eta] at key
  rcases ca.sign with s | s
  · rw [s, show decide ((1 : ℤ) < 0) = false by decide]
    have : ∀ l, (∀ t, l ≠ '-' :: t) → parse l = parseUnsigned l := by
      intro l hl
      unfold parse
      split
      · exact absurd rfl (hl _)
      · rfl
    rw [this _ hh, key]
    simp
  · rw [s, show decide ((-1 : ℤ) < 0) = true by decide]
    have e : format true ((a.decimalDigits M).1.map digitChar) (a.decimalDigits M).2 M =
        '-' :: format false ((a.decimalDigits M).1.map digitChar) (a.decimalDigits M).2 M := by
      unfold format
      simp
    rw [e]
    show (parseUnsigned _).map _ = _
    rw [key]
    simp

/-- **Strings of special values** (C109). -/
theorem string_special {a : EF} (ca : Canon a) (M : ℕ) :
    (a.isNan = true → a.toStringWithMaxDigits M = "nan".toList) ∧
    (a.isZero = true → a.toStringWithMaxDigits M = if a.sign < 0 then "-0".toList else "0".toList) ∧
    (a.isInf = true → a.toStringWithMaxDigits M = if a.sign < 0 then "-inf".toList else "inf".toList) := by
  unfold toStringWithMaxDigits
  refine ⟨fun h => ?_, fun h => ?_, fun h => ?_⟩
  · rw [if_pos (nan_parts h).1, if_pos h]; rfl
  · have n : a.isNormal = false := (not_normal_iff a).mpr (of_decide_eq_true h : a.exp = kExpZero).ge
    have nn : a.isNan = false := by
      unfold isNan
      rw [(of_decide_eq_true h : a.exp = kExpZero)]
      decide
    rw [if_pos n, if_neg (by rw [nn]; decide), if_pos h]; rfl
  · rw [if_pos (inf_parts h).1, if_neg (by rw [(inf_parts h).2.1]; decide), if_neg (by rw [(inf_parts h).2.2.1]; decide)]; rfl

/-- **A value printed with a wrong last digit** (C109): 26 with one digit is printed as 20; the nearest number with one digit is 30. -/
theorem decimal_violated : ¬ DecimalStatement := by
  intro h
  have hnb : numBits 13 = 4 := by decide
  have hf : EF.fullExp ⟨1, 1, 13⟩ = 5 := by
    show (1 : ℤ) + (numBits 13 : ℕ) = _
    rw [hnb]
    norm_num
  have k1 : kMinExp = -200000000 := rfl
  have k2 : kMaxExp = 200000000 := rfl
  have n : EF.isNormal ⟨1, 1, 13⟩ = true := by decide
  have c : Canon ⟨1, 1, 13⟩ := by
    refine ⟨.inl rfl, .inl ⟨n, by show 13 % 2 = 1; norm_num, by omega, by omega, ?_⟩⟩
    show numBits 13 ≤ kMaxPrec
    rw [hnb]; decide
  obtain ⟨N, h1, h2⟩ := h _ 1 c n le_rfl
  have hd : EF.decimalDigits ⟨1, 1, 13⟩ 1 = ([2], 2) := by
    unfold decimalDigits decimal
    norm_num [roundDigits, strip]
  have hv : EF.val ⟨1, 1, 13⟩ = 26 := by unfold EF.val; norm_num
  have hlog : Int.log 10 |EF.val ⟨1, 1, 13⟩| = 1 := by
    have := log10_val c (by norm_num : (13 : ℕ) ≠ 0)
    rw [this]
    unfold decimal
    norm_num
  rw [hlog] at h1 h2
  rw [hv] at h1
  rw [hd] at h2
  norm_num [decVal] at h1 h2
  have hN : N = 2 := by
    have : (N : ℚ) = 2 := by linarith
    exact_mod_cast this
  rw [hN] at h1
  simp only [Rounds] at h1
  norm_num [abs_of_pos] at h1

/-! ## Strings that tell numbers apart -/

/-- Two numbers with the same number of bits that differ are farther apart than the errors of their strings. -/
theorem close_eq {m n : ℕ} {e f : ℤ} {p : ℕ} (hm : m % 2 = 1) (hn : n % 2 = 1) (pm : numBits m = p) (pn : numBits n = p) {y u v Q : ℚ}
    (hQ : (2 : ℚ) ^ p ≤ Q) (hQ' : (2 : ℚ) * 2 ≤ Q) (u0 : 0 < u) (v0 : 0 < v) (hu : u * Q ≤ m * 2 ^ e) (hv : v * Q ≤ y)
    (h1 : |y - m * 2 ^ e| < u) (h2 : |y - n * 2 ^ f| < v) (hlt : (m : ℚ) * 2 ^ e < n * 2 ^ f) : False := by
  have hm0 : m ≠ 0 := by omega
  have hn0 : n ≠ 0 := by omega
  have am := mant_lt (n := m) e
  have an := mant_ge hn0 f
  have an2 := mant_lt (n := n) f
  have am2 := mant_ge hm0 e
  rw [pm] at am am2
  rw [pn] at an an2
  have hef : e ≤ f := by
    have := pow_lt_pow_iff.mp (am2.trans_lt (hlt.trans an2))
    omega
  have pe : (0 : ℚ) < 2 ^ e := by positivity
  have hQ0 : (0 : ℚ) < Q := by linarith
  rw [abs_lt] at h1 h2
  -- the first unit
  have hp1 : 1 ≤ p := by rw [← pm]; exact numBits_pos hm0
  have mP : m + 1 ≤ 2 ^ p := by rw [← pm]; exact lt_pow_numBits m
  have mPq : (m : ℚ) + 1 ≤ 2 ^ p := by exact_mod_cast mP
  have hu2 : u < 2 ^ e := by
    by_contra c
    have : (2 : ℚ) ^ e * Q ≤ u * Q := mul_le_mul_of_nonneg_right (not_lt.mp c) hQ0.le
    have : (2 : ℚ) ^ e * 2 ^ p ≤ 2 ^ e * Q := mul_le_mul_of_nonneg_left hQ pe.le
    nlinarith
  have hy : y < 2 ^ p * 2 ^ e := by nlinarith
  have hv2 : v < 2 ^ e := by
    by_contra c
    have : (2 : ℚ) ^ e * Q ≤ v * Q := mul_le_mul_of_nonneg_right (not_lt.mp c) hQ0.le
    have : (2 : ℚ) ^ e * 2 ^ p ≤ 2 ^ e * Q := mul_le_mul_of_nonneg_left hQ pe.le
    nlinarith
  have gapU : (n : ℚ) * 2 ^ f - m * 2 ^ e < 2 * 2 ^ e := by linarith
  obtain ⟨k, rfl⟩ : ∃ k : ℕ, f = e + k := ⟨(f - e).toNat, by omega⟩
  have e2 := shift_mant (q := n) (k := k) rfl e
  rw [e2] at gapU hlt h2
  have g1 : m < n * 2 ^ k := by
    have := lt_of_mul_lt_mul_right hlt pe.le
    exact_mod_cast this
  have g2 : n * 2 ^ k < m + 2 := by
    have : ((n * 2 ^ k : ℕ) : ℚ) * 2 ^ e < ((m + 2 : ℕ) : ℚ) * 2 ^ e := by
      push_cast at gapU ⊢
      linarith
    have := lt_of_mul_lt_mul_right this pe.le
    exact_mod_cast this
  have g3 : n * 2 ^ k = m + 1 := by omega
  have hk : k ≠ 0 := by
    rintro rfl
    rw [pow_zero, mul_one] at g3
    omega
  -- then the larger number has an even multiple, which is the power of two above the smaller one
  have b1 : 2 ^ (p - 1) ≤ n := by rw [← pn]; exact pow_le_of_numBits hn0
  have b2 : 2 ^ p ≤ n * 2 := by
    obtain ⟨j, rfl⟩ : ∃ j, p = j + 1 := ⟨p - 1, by omega⟩
    rw [pow_succ]
    simp only [Nat.add_sub_cancel] at b1
    omega
  have b3 : n * 2 ≤ n * 2 ^ k := Nat.mul_le_mul_left _ (by
    calc 2 = 2 ^ 1 := rfl
      _ ≤ 2 ^ k := Nat.pow_le_pow_right (by norm_num) (by omega))
  have b4 : m + 1 = 2 ^ p := by omega
  have b5 : n * 2 = 2 ^ p := by omega
  have hp : p = 1 := by
    by_contra c
    obtain ⟨j, rfl⟩ : ∃ j, p = j + 2 := ⟨p - 2, by omega⟩
    rw [pow_succ, pow_succ] at b5
    omega
  -- a power of two and its double
  subst hp
  have m1 : m = 1 := by omega
  have hu3 : u * 4 ≤ 2 ^ e := by
    rw [m1] at hu
    push_cast at hu
    nlinarith
  have hv3 : v * 2 ≤ 2 ^ e := by
    nlinarith
  rw [g3] at h2
  push_cast at h2
  nlinarith

/-- **Numbers with the same number of bits have different strings** (C109). -/
theorem string_injective {a b : EF} (ca : Canon a) (cb : Canon b) (na : a.isNormal = true) (nb : b.isNormal = true) (hp : a.prec = b.prec)
    (h : a.toString = b.toString) : a = b := by
  unfold EF.toString at h
  rw [← hp] at h
  set M := max kMinSignificantDigits (numSignificantDigits a.prec) with hM
  have hM1 : 10 ≤ M := le_max_left _ _
  have hM2 : 1 + Nat.clog 10 (2 ^ a.prec) ≤ M := le_max_right _ _
  have pa := string_denotes ca na M (by omega)
  have pb := string_denotes cb nb M (by omega)
  rw [h, pb] at pa
  have heq := Option.some.inj pa
  obtain ⟨ea1, ea2⟩ := decimal_error ca na M (by omega)
  obtain ⟨eb1, eb2⟩ := decimal_error cb nb M (by omega)
  have ya : 0 < decVal (a.decimalDigits M) := lt_of_lt_of_le (by positivity) ea2
  have yb : 0 < decVal (b.decimalDigits M) := lt_of_lt_of_le (by positivity) eb2
  have hs : a.sign = b.sign ∧ decVal (a.decimalDigits M) = decVal (b.decimalDigits M) := by
    rcases ca.sign with s | s <;> rcases cb.sign with t | t <;> rw [s, t] at heq ⊢ <;> push_cast at heq
    · exact ⟨rfl, by linarith⟩
    · linarith
    · linarith
    · exact ⟨rfl, by linarith⟩
  obtain ⟨hs, hy⟩ := hs
  have oa := (normal_parts ca na).1
  have ob := (normal_parts cb nb).1
  have posa : 0 < |a.val| := by rw [abs_val ca.sign]; exact (normal_parts ca na).2.2.2.2
  have posb : 0 < |b.val| := by rw [abs_val cb.sign]; exact (normal_parts cb nb).2.2.2.2
  have la := Int.zpow_log_le_self (b := 10) (by norm_num) posa
  have lb := Int.zpow_log_le_self (b := 10) (by norm_num) posb
  have hQ : (2 : ℚ) ^ a.prec ≤ 10 ^ (M - 1) := by
    have : 2 ^ a.prec ≤ 10 ^ (M - 1) := (Nat.le_pow_clog (by norm_num) _).trans (Nat.pow_le_pow_right (by norm_num) (by omega))
    exact_mod_cast this
  have hQ' : (2 : ℚ) * 2 ≤ 10 ^ (M - 1) := by
    have : 10 ^ 9 ≤ 10 ^ (M - 1) := Nat.pow_le_pow_right (by norm_num) (by omega)
    have : ((10 ^ 9 : ℕ) : ℚ) ≤ ((10 ^ (M - 1) : ℕ) : ℚ) := by exact_mod_cast this
    push_cast at this
    norm_num at this ⊢
    linarith
  have unit : ∀ x : ℤ, (10 : ℚ) ^ (x + 1 - M) * 10 ^ (M - 1) = 10 ^ x := by
    intro x
    rw [← zpow_natCast, ← zpow_add₀ (by norm_num)]
    congr 1
    omega
  have hmag : a.mag = b.mag := by
    rw [abs_val ca.sign] at ea1 ea2 la
    rw [abs_val cb.sign] at eb1 eb2 lb
    rcases lt_trichotomy a.mag b.mag with g | g | g
    · exact (close_eq (y := decVal (a.decimalDigits M)) (u := 10 ^ (Int.log 10 a.mag + 1 - (M : ℤ))) (v := 10 ^ (Int.log 10 b.mag + 1 - (M : ℤ))) oa ob rfl hp.symm hQ hQ' (by positivity) (by positivity)
        (by rw [unit]; exact_mod_cast la) (by rw [unit, hy]; exact eb2) ea1 (by rw [hy]; exact eb1) g).elim
    · exact g
    · exact (close_eq (y := decVal (b.decimalDigits M)) (u := 10 ^ (Int.log 10 b.mag + 1 - (M : ℤ))) (v := 10 ^ (Int.log 10 a.mag + 1 - (M : ℤ))) ob oa hp.symm rfl hQ hQ' (by positivity) (by positivity)
        (by rw [unit]; exact_mod_cast lb) (by rw [unit, ← hy]; exact ea2) eb1 (by rw [← hy]; exact ea1) g).elim
  exact val_injective ca cb na nb (by rw [val_eq, val_eq, hmag, hs])

theorem last_mark {s₁ s₂ t₁ t₂ : List Char} (h₁ : '<' ∉ t₁) (h₂ : '<' ∉ t₂) (h : s₁ ++ '<' :: t₁ = s₂ ++ '<' :: t₂) : s₁ = s₂ ∧ t₁ = t₂ := by
  rcases List.append_eq_append_iff.mp h with ⟨u, rfl, e⟩ | ⟨u, rfl, e⟩
  · cases u with
    | nil => simp at e; exact ⟨by simp, e⟩
    | cons c u =>
      rw [List.cons_append] at e
      injection e with _ e
      exact (h₁ (e ▸ by simp)).elim
  · cases u with
    | nil => simp at e; exact ⟨by simp, e.symm⟩
    | cons c u =>
      rw [List.cons_append] at e
      injection e with _ e
      exact (h₂ (e ▸ by simp)).elim

/-- The string of a normal number denotes a number other than zero. -/
theorem string_normal {a : EF} (ca : Canon a) (na : a.isNormal = true) : ∃ x : ℚ, x ≠ 0 ∧ parse a.toString = some x := by
  unfold EF.toString
  have hM : 1 ≤ max kMinSignificantDigits (numSignificantDigits a.prec) := le_trans (by decide) (le_max_left _ _)
  refine ⟨_, ?_, string_denotes ca na _ hM⟩
  have y : 0 < decVal (a.decimalDigits (max kMinSignificantDigits (numSignificantDigits a.prec))) := lt_of_lt_of_le (by positivity) (decimal_error ca na _ hM).2
  rcases ca.sign with s | s <;> rw [s] <;> push_cast
  · linarith
  · linarith

/-- The strings of other values. -/
theorem string_other {a : EF} (ca : Canon a) (na : a.isNormal = false) :
    (a.isNan = true ∧ a.toString = ['n', 'a', 'n']) ∨ (a = ⟨1, kExpZero, 0⟩ ∧ a.toString = ['0']) ∨ (a = ⟨-1, kExpZero, 0⟩ ∧ a.toString = ['-', '0']) ∨
    (a = ⟨1, kExpInfinity, 0⟩ ∧ a.toString = ['i', 'n', 'f']) ∨ (a = ⟨-1, kExpInfinity, 0⟩ ∧ a.toString = ['-', 'i', 'n', 'f']) := by
  obtain ⟨s1, s2, s3⟩ := string_special ca (max kMinSignificantDigits (numSignificantDigits a.prec))
  rcases ca.form with g | ⟨-, b0, g⟩
  · rw [na] at g
    exact absurd g.1 (by decide)
  · obtain ⟨s, e, b⟩ := a
    simp only at b0
    subst b0
    have hs := ca.sign
    simp only at hs
    rcases g with g | g | g
    · have ee : e = kExpZero := of_decide_eq_true g
      have := s2 g
      subst ee
      rcases hs with rfl | rfl
      · exact .inr (.inl ⟨rfl, this⟩)
      · exact .inr (.inr (.inl ⟨rfl, this⟩))
    · have ee : e = kExpInfinity := of_decide_eq_true g
      have := s3 g
      subst ee
      rcases hs with rfl | rfl
      · exact .inr (.inr (.inr (.inl ⟨rfl, this⟩)))
      · exact .inr (.inr (.inr (.inr ⟨rfl, this⟩)))
    · exact .inl ⟨g, s1 g⟩

theorem string_other_parse {a : EF} (ca : Canon a) (na : a.isNormal = false) : parse a.toString = none ∨ parse a.toString = some 0 := by
  rcases string_other ca na with ⟨-, e⟩ | ⟨-, e⟩ | ⟨-, e⟩ | ⟨-, e⟩ | ⟨-, e⟩ <;> rw [e]
  · exact .inl rfl
  · right
    show parseUnsigned ['0'] = _
    have := parse_int (ip := ['0']) (t := []) (by simp) (by simp) tail_nil
    rw [List.append_nil] at this
    rw [this, show numVal ['0'] = 0 from rfl]
    simp
  · right
    show (parseUnsigned ['0']).map _ = _
    have := parse_int (ip := ['0']) (t := []) (by simp) (by simp) tail_nil
    rw [List.append_nil] at this
    rw [this, show numVal ['0'] = 0 from rfl]
    simp
  · exact .inl rfl
  · exact .inl rfl

/-- **Different values have different unique strings** (C109). -/
theorem unique_string {a b : EF} (ca : Canon a) (cb : Canon b) (h : a.toUniqueString = b.toUniqueString) : a = b ∨ (a.isNan = true ∧ b.isNan = true) := by
  unfold toUniqueString at h
  have clean : ∀ n, '<' ∉ natChars n ++ ['>'] := by
    intro n q
    rcases List.mem_append.mp q with q | q
    · exact (natChars_spec n).2.2.2 _ q rfl
    · simp at q
  rw [List.append_assoc, List.append_assoc, List.cons_append, List.cons_append] at h
  obtain ⟨h1, h2⟩ := last_mark (clean _) (clean _) h
  have hp : a.prec = b.prec := by
    have := List.append_cancel_right h2
    rw [← (natChars_spec a.prec).1, this, (natChars_spec b.prec).1]
  cases na : a.isNormal
  · cases nb : b.isNormal
    · rcases string_other ca na with ⟨i, e⟩ | ⟨i, e⟩ | ⟨i, e⟩ | ⟨i, e⟩ | ⟨i, e⟩ <;>
      rcases string_other cb nb with ⟨j, f⟩ | ⟨j, f⟩ | ⟨j, f⟩ | ⟨j, f⟩ | ⟨j, f⟩ <;>
      first
        | exact .inr ⟨i, j⟩
        | exact .inl (i.trans j.symm)
        | (rw [e, f] at h1; exact absurd h1 (by decide))
    · obtain ⟨x, x0, e⟩ := string_normal cb nb
      rw [← h1] at e
      rcases string_other_parse ca na with g | g <;> rw [g] at e
      · cases e
      · exact (x0 (Option.some.inj e).symm).elim
  · cases nb : b.isNormal
    · obtain ⟨x, x0, e⟩ := string_normal ca na
      rw [h1] at e
      rcases string_other_parse cb nb with g | g <;> rw [g] at e
      · cases e
      · exact (x0 (Option.some.inj e).symm).elim
    · exact .inl (string_injective ca cb na nb hp h1)

/-- A string: 0.5. -/
theorem string_example : EF.toUniqueString ⟨1, -1, 1⟩ = "0.5<1>".toList ∧ parse "0.5".toList = some (1 / 2) ∧ parse "-1.25e+3".toList = some (-1250) := by
  refine ⟨?_, ?_, ?_⟩
  · decide +kernel
  · have := parse_frac (ip := ['0']) (fp := ['5']) (t := []) (by simp) (by simp) (by simp) tail_nil
    rw [show parse "0.5".toList = parseUnsigned (['0'] ++ '.' :: (['5'] ++ [])) by simp [parse], this, show numVal (['0'] ++ ['5']) = 5 from rfl]
    norm_num
  · have := parse_frac (ip := ['1']) (fp := ['2', '5']) (t := expChars 3) (by simp) (by simp) (by simp) (tail_exp 3)
    rw [show "-1.25e+3".toList = '-' :: (['1'] ++ '.' :: (['2', '5'] ++ expChars 3)) by decide +kernel,
      show ∀ t, parse ('-' :: t) = (parseUnsigned t).map (fun x => -x) from fun _ => by simp [parse], this, show numVal (['1'] ++ ['2', '5']) = 125 from rfl]
    norm_num

end Verif.ExactFloat
