import Verif.Lemmas.DeltaEncoder

/-!
Properties C01, C02, C03, C57: the delta codec of range images.
-/

namespace Verif.DeltaEncoder

/-- Specification: the precision of channel `ch` requested by the caller. -/
def Precision.prec : Precision → Nat → ℚ
  | .scalar q, _ => q
  | .list qs, ch => qs.getD ch 0

/-- Specification: what the documentation calls a legal precision for `c` channels. -/
def Precision.Legal (c : Nat) : Precision → Prop
  | .scalar q => 0 < q
  | .list qs => qs.length = c ∧ ∀ q ∈ qs, 0 < q

/-- Specification: an image that has at least one cell and whose sides fit in 16 bits. -/
def Image.Encodable {α : Type} (x : Image α) : Prop :=
  0 < x.h ∧ 0 < x.w ∧ 0 < x.c ∧ x.h ≤ 65535 ∧ x.w ≤ 65535 ∧ x.c ≤ 65535

/-- Specification of the rounding used below: the nearest integer, the even one on a tie. -/
theorem roundHalfEven_spec (x : ℚ) (r : ℤ) :
    roundHalfEven x = r ↔ |x - r| < 1 / 2 ∨ (|x - r| = 1 / 2 ∧ r % 2 = 0) := by
  constructor
  · rintro rfl
    unfold roundHalfEven
    have h1 := Int.floor_le x
    have h2 := Int.lt_floor_add_one x
    simp only
    split_ifs with h3 h4 h5
    · left; rw [abs_lt]; constructor <;> linarith
    · left; rw [abs_lt]; push_cast; constructor <;> linarith
    · right; refine ⟨?_, h5⟩
      have : x - ⌊x⌋ = 1 / 2 := by linarith
      rw [this]; norm_num
    · right; refine ⟨?_, by omega⟩
      have : x - (⌊x⌋ + 1 : ℤ) = -(1 / 2) := by push_cast; linarith
      rw [this, abs_neg]; norm_num
  · have h1 := Int.floor_le x
    have h2 := Int.lt_floor_add_one x
    rintro (h | ⟨h, hr⟩)
    · rw [abs_lt] at h
      have hlo : ⌊x⌋ ≤ r := by
        by_contra hc
        have : (r : ℚ) + 1 ≤ ⌊x⌋ := by exact_mod_cast (not_le.mp hc)
        linarith
      have hhi : r ≤ ⌊x⌋ + 1 := by
        by_contra hc
        have : (⌊x⌋ : ℚ) + 1 + 1 ≤ r := by exact_mod_cast (not_le.mp hc)
        linarith
      unfold roundHalfEven
      simp only
      rcases (show r = ⌊x⌋ ∨ r = ⌊x⌋ + 1 by omega) with h3 | h3
      · rw [h3] at h; rw [if_pos (by linarith), h3]
      · rw [h3] at h; push_cast at h
        rw [if_neg (by linarith), if_pos (by linarith), h3]
    · have hlo : ⌊x⌋ ≤ r := by
        by_contra hc
        have : (r : ℚ) + 1 ≤ ⌊x⌋ := by exact_mod_cast (not_le.mp hc)
        rw [abs_of_nonneg (by linarith)] at h
        linarith
      have hhi : r ≤ ⌊x⌋ + 1 := by
        by_contra hc
        have : (⌊x⌋ : ℚ) + 1 + 1 ≤ r := by exact_mod_cast (not_le.mp hc)
        rw [abs_of_nonpos (by linarith)] at h
        linarith
      unfold roundHalfEven
      simp only
      rcases (show r = ⌊x⌋ ∨ r = ⌊x⌋ + 1 by omega) with h3 | h3
      · rw [h3, abs_of_nonneg (by linarith)] at h
        rw [if_neg (by linarith), if_neg (by linarith), if_pos (by omega), h3]
      · rw [h3] at h; push_cast at h
        rw [abs_of_nonpos (by linarith)] at h
        rw [if_neg (by linarith), if_neg (by linarith), if_neg (by omega), h3]

/-- C02. Run-length coding of a non-empty bit list is lossless; the lengths add up to the length of
the list, none is negative and only the first can be zero. -/
theorem rle_roundtrip (x : List Nat) (hne : x ≠ []) (hbits : ∀ v ∈ x, v = 0 ∨ v = 1) :
    ∃ ls, rlencode x = .ok ls ∧ rldecode ls = x ∧ ls.sum = (x.length : ℤ) ∧
      (∀ l ∈ ls, 0 ≤ l) ∧ ∀ l ∈ ls.tail, 0 < l := by
  cases x with
  | nil => exact absurd rfl hne
  | cons a r =>
    refine ⟨_, rlencode_cons a r, ?_, ?_, ?_, ?_⟩
    · split_ifs with ha
      · subst ha
        simp only [rldecode, rldecodeFrom]
        simpa using rldecodeFrom_runs 0 r hbits
      · have ha1 : a = 1 := by rcases hbits a (by simp) with h | h <;> omega
        subst ha1
        exact rldecodeFrom_runs 1 r hbits
    · split_ifs <;> simp [runs_sum]
    · intro l hl
      split_ifs at hl
      · rcases List.mem_cons.mp hl with h | h
        · omega
        · exact (runs_pos _ l h (by simp)).le
      · exact (runs_pos _ l hl (by simp)).le
    · intro l hl
      split_ifs at hl
      · exact runs_pos _ l (by simpa using hl) (by simp)
      · exact runs_pos _ l (List.mem_of_mem_tail hl) (by simp)

example : rlencode [0, 0, 1, 1, 1, 0] = .ok [0, 2, 3, 1] ∧ rldecode [0, 2, 3, 1] = [0, 0, 1, 1, 1, 0] := by
  decide

/-- C02, error branch: the empty mask is the only one refused. -/
theorem rle_refuses_only_empty (x : List Nat) : (∃ e, rlencode x = .error e) ↔ x = [] := by
  cases x with
  | nil => simp [rlencode]
  | cons a r => simp [rlencode]

theorem checkPrecision_iff (c : Nat) (p : Precision) :
    (∃ qs, checkPrecision c p = .ok qs) ↔ p.Legal c := by
  cases p with
  | scalar q => by_cases h : q ≤ 0 <;> simp [checkPrecision, Precision.Legal, h, not_lt.mpr]
                exact not_le.mp h
  | list l =>
    constructor
    · rintro ⟨qs, h⟩
      have h' := h
      simp only [checkPrecision] at h'
      split at h'
      · cases h'
      · split at h'
        · cases h'
        · cases h'; exact checkPrecision_length h
    · rintro ⟨h1, h2⟩
      refine ⟨l, ?_⟩
      simp only [checkPrecision]
      rw [if_neg (by simpa using h1), if_neg]
      simp only [List.any_eq_true, decide_eq_true_eq, not_exists, not_and, not_le]
      exact h2

theorem checkPrecision_prec {c : Nat} {p : Precision} {qs : List ℚ} (h : checkPrecision c p = .ok qs)
    (ch : Nat) (hch : ch < c) : qs.getD ch 0 = p.prec ch := by
  cases p with
  | scalar q =>
    simp only [checkPrecision] at h
    split at h
    · cases h
    · cases h; simp [Precision.prec, hch]
  | list l =>
    simp only [checkPrecision] at h
    split at h
    · cases h
    · split at h
      · cases h
      · cases h; rfl

theorem flatten_ne_nil {x : Image ℤ} (h : 0 < x.h) (w : 0 < x.w) (c : 0 < x.c) : flattenCHW x ≠ [] := by
  intro h0
  have h1 := flattenCHW_length x
  rw [h0] at h1
  have h2 : 0 < x.c * (x.h * x.w) := by positivity
  simp only [List.length_nil] at h1
  omega

theorem compress_ok {x : Image ℚ} {p : Precision} (hx : x.Encodable) (hp : p.Legal x.c) :
    ∃ qs m, checkPrecision x.c p = .ok qs ∧ computeMask (quantise x qs) = .ok m ∧
      (compress x p).1 = .ok (Stream.mk (computeResidual (quantise x qs)) m (x.h, x.w, x.c) (qs.map toF32)) := by
  obtain ⟨qs, hqs⟩ := (checkPrecision_iff _ _).mpr hp
  obtain ⟨h1, h2, h3, h4, h5, h6⟩ := hx
  have hne : (flattenCHW (quantise x qs)).map (fun v => if v ≠ 0 then 1 else 0) ≠ [] := by
    simpa using flatten_ne_nil (x := quantise x qs) h1 h2 h3
  obtain ⟨m, hm, _⟩ := rle_roundtrip _ hne (by
    intro v hv
    obtain ⟨u, _, rfl⟩ := List.mem_map.mp hv
    split_ifs <;> simp)
  refine ⟨qs, m, hqs, hm, ?_⟩
  have hm' : computeMask (quantise x qs) = .ok m := hm
  have hmeta : computeMetadata qs x.h x.w x.c = .ok (x.h, x.w, x.c, qs.map toF32) := by
    simp only [computeMetadata]; rw [if_neg (by omega)]
  simp only [compress, hqs, hm', hmeta]

/-- C03. `compress` raises exactly when the precision is not legal or the image has a side longer
than 65535 or no cell at all; a precision error or an oversized (non-empty) image is a ValueError. -/
theorem compress_accepts_iff (x : Image ℚ) (p : Precision) :
    (∃ s, (compress x p).1 = .ok s) ↔ (p.Legal x.c ∧ x.Encodable) := by
  constructor
  · rintro ⟨s, hs⟩
    simp only [compress] at hs
    split at hs
    · cases hs
    · rename_i qs hqs
      have hp := (checkPrecision_iff _ _).mp ⟨qs, hqs⟩
      refine ⟨hp, ?_⟩
      split at hs
      · cases hs
      · rename_i m hm
        split at hs
        · cases hs
        · rename_i h w c fs hmeta
          simp only [computeMetadata] at hmeta
          split at hmeta
          · cases hmeta
          · rename_i hdim
            have hne : flattenCHW (quantise x qs) ≠ [] := by
              intro h0
              rw [computeMask, h0] at hm
              simp [rlencode] at hm
            have hl := flattenCHW_length (quantise x qs)
            have hpos : 0 < (flattenCHW (quantise x qs)).length := List.length_pos_of_ne_nil hne
            rw [hl] at hpos
            have hc := Nat.pos_of_mul_pos_right hpos
            have hhw := Nat.pos_of_mul_pos_left hpos
            have hh := Nat.pos_of_mul_pos_right hhw
            have hw := Nat.pos_of_mul_pos_left hhw
            exact ⟨hh, hw, hc, by omega, by omega, by omega⟩
  · rintro ⟨hp, hx⟩
    obtain ⟨qs, m, _, _, h⟩ := compress_ok hx hp
    exact ⟨_, h⟩

/-- C03. The error raised is ValueError, except for an image without cells (and legal precision),
which raises IndexError. -/
theorem compress_error_kind (x : Image ℚ) (p : Precision) (e : Exc) (h : (compress x p).1 = .error e) :
    e = .valueError ∨ (e = .indexError ∧ (x.h = 0 ∨ x.w = 0 ∨ x.c = 0)) := by
  simp only [compress] at h
  split at h
  · rename_i e' he
    cases h
    cases p with
    | scalar q => simp only [checkPrecision] at he; split at he <;> simp_all
    | list l =>
      simp only [checkPrecision] at he
      split at he
      · simp_all
      · split at he <;> simp_all
  · rename_i qs hqs
    split at h
    · rename_i e' he
      right
      cases h
      have h0 := (rle_refuses_only_empty _).mp ⟨_, he⟩
      have h1 : flattenCHW (quantise x qs) = [] := by simpa using h0
      have h2 := flattenCHW_length (quantise x qs)
      rw [h1] at h2
      have h3 : x.c * (x.h * x.w) = 0 := h2.symm
      refine ⟨?_, by rcases Nat.mul_eq_zero.mp h3 with h | h
                     · simp [h]
                     · rcases Nat.mul_eq_zero.mp h with h | h <;> simp [h]⟩
      rw [computeMask, h1] at he
      simp [rlencode] at he
      exact he.symm
    · split at h
      · rename_i e' he
        cases h
        simp only [computeMetadata] at he
        split at he <;> simp_all
      · cases h

example : (Precision.scalar (1/10)).Legal 2 ∧ (Precision.list [1, 1/2]).Legal 2 ∧
    ¬ (Precision.list [1]).Legal 2 ∧ ¬ (Precision.scalar 0).Legal 2 := by
  simp [Precision.Legal]

/-- C01. For every encodable image and legal precision `compress` succeeds, `decompress` succeeds on
its output, the result has the shape of the input, and each cell is the input cell divided by the
channel's precision, rounded to the nearest integer (ties to even), times the precision as stored
(a 32 bit float). -/
theorem decompress_compress (x : Image ℚ) (p : Precision) (hx : x.Encodable) (hp : p.Legal x.c) :
    ∃ s, (compress x p).1 = .ok s ∧
      decompress s = .ok (Image.mk x.h x.w x.c fun i j ch =>
        (roundHalfEven (x.px i j ch / p.prec ch) : ℚ) * toF32 (p.prec ch)) := by
  obtain ⟨qs, m, hqs, hm, hc⟩ := compress_ok hx hp
  refine ⟨_, hc, ?_⟩
  obtain ⟨h1, h2, h3, h4, h5, h6⟩ := hx
  have hne : (flattenCHW (quantise x qs)).map (fun v => if v ≠ 0 then 1 else 0) ≠ [] := by
    simpa using flatten_ne_nil (x := quantise x qs) h1 h2 h3
  obtain ⟨m', hm', hdec, _⟩ := rle_roundtrip _ hne (by
    intro v hv
    obtain ⟨u, _, rfl⟩ := List.mem_map.mp hv
    split_ifs <;> simp)
  have : m = m' := by
    have h : (Except.ok m : Except Exc _) = .ok m' := by rw [← hm, ← hm']; rfl
    simpa using h
  subst this
  have hfill : fillMask (rldecode m) (cumsumFrom 0 (computeResidual (quantise x qs))) =
      .ok (flattenCHW (quantise x qs)) := by
    rw [hdec]
    have : cumsumFrom 0 (computeResidual (quantise x qs)) = (flattenCHW (quantise x qs)).filter (· ≠ 0) :=
      cumsum_residualOf _
    rw [this]
    exact fillMask_spec _
  have hun := unflatten_flatten (quantise x qs)
  have hun' : unflattenCHW x.h x.w x.c (flattenCHW (quantise x qs)) = .ok (quantise x qs) := hun
  obtain ⟨hlen, _⟩ := checkPrecision_length hqs
  simp only [decompress, hfill, hun']
  rw [if_pos (by simp [quantise, hlen])]
  simp only [quantise]
  congr 2
  funext i j ch
  have hat := checkPrecision_prec hqs ch ch.isLt
  have hl : ch.val < qs.length := by rw [hlen]; exact ch.isLt
  rw [hat]
  congr 1
  rw [getD_lt (by simpa using hl), List.getElem_map, ← hat,
    getD_lt hl]

/-- C01, error bound when the precision is exactly representable in 32 bits: every decoded cell is
an integer multiple of the precision, no further than half the precision from the original. -/
theorem roundtrip_error_exact (x : Image ℚ) (p : Precision) (hx : x.Encodable) (hp : p.Legal x.c)
    (hrep : ∀ ch < x.c, toF32 (p.prec ch) = p.prec ch) :
    ∃ s y, (compress x p).1 = .ok s ∧ decompress s = .ok ⟨x.h, x.w, x.c, y⟩ ∧
      ∀ i j (ch : Fin x.c), (∃ k : ℤ, y i j ch = k * p.prec ch) ∧
        |x.px i j ch - y i j ch| ≤ p.prec ch / 2 := by
  obtain ⟨s, hs, hd⟩ := decompress_compress x p hx hp
  refine ⟨s, _, hs, hd, ?_⟩
  intro i j ch
  rw [hrep ch ch.isLt]
  refine ⟨⟨_, rfl⟩, ?_⟩
  have hpos : 0 < p.prec ch := by
    cases p with
    | scalar q => exact hp
    | list l =>
      have : ch.val < l.length := by rw [hp.1]; exact ch.isLt
      simp only [Precision.prec, getD_lt this]
      exact hp.2 _ (List.getElem_mem this)
  have hr := roundHalfEven_abs_le (x.px i j ch / p.prec ch)
  set k := roundHalfEven (x.px i j ch / p.prec ch)
  have e : x.px i j ch - k * p.prec ch = (x.px i j ch / p.prec ch - k) * p.prec ch := by
    field_simp
  rw [e, abs_mul, abs_of_pos hpos]
  calc _ ≤ 1 / 2 * p.prec ch := mul_le_mul_of_nonneg_right hr hpos.le
    _ = _ := by ring

/-- C01, error bound for any precision: half the precision plus the relative error 2⁻²⁴ of storing
the precision in 32 bits, scaled by the rounded magnitude. -/
theorem roundtrip_error (x : Image ℚ) (p : Precision) (hx : x.Encodable) (hp : p.Legal x.c) :
    ∃ s y, (compress x p).1 = .ok s ∧ decompress s = .ok ⟨x.h, x.w, x.c, y⟩ ∧
      ∀ i j (ch : Fin x.c),
        |x.px i j ch - y i j ch| ≤ p.prec ch / 2 + (|x.px i j ch| + p.prec ch / 2) / 2 ^ 24 := by
  obtain ⟨s, hs, hd⟩ := decompress_compress x p hx hp
  refine ⟨s, _, hs, hd, ?_⟩
  intro i j ch
  have hpos : 0 < p.prec ch := by
    cases p with
    | scalar q => exact hp
    | list l =>
      have : ch.val < l.length := by rw [hp.1]; exact ch.isLt
      simp only [Precision.prec, getD_lt this]
      exact hp.2 _ (List.getElem_mem this)
  have hr := roundHalfEven_abs_le (x.px i j ch / p.prec ch)
  set k := roundHalfEven (x.px i j ch / p.prec ch)
  set q := p.prec ch
  set v := x.px i j ch
  have hf := toF32_abs_le q
  rw [abs_of_pos hpos] at hf
  have e : v - k * q = (v / q - k) * q := by field_simp
  have e1 : |v - k * q| ≤ q / 2 := by
    rw [e, abs_mul, abs_of_pos hpos]
    calc _ ≤ 1 / 2 * q := mul_le_mul_of_nonneg_right hr hpos.le
      _ = _ := by ring
  have e2 : |(k : ℚ)| * q ≤ |v| + q / 2 := by
    have : |(k : ℚ) * q| ≤ |v| + |v - k * q| := by
      have h := abs_sub_abs_le_abs_sub ((k : ℚ) * q) v
      rw [abs_sub_comm] at h; linarith
    rw [abs_mul, abs_of_pos hpos] at this
    linarith
  have e3 : |(k : ℚ) * q - k * toF32 q| ≤ (|v| + q / 2) / 2 ^ 24 := by
    rw [← mul_sub, abs_mul]
    calc |(k : ℚ)| * |q - toF32 q| ≤ |(k : ℚ)| * (q / 2 ^ 24) :=
          mul_le_mul_of_nonneg_left hf (abs_nonneg _)
      _ = (|(k : ℚ)| * q) / 2 ^ 24 := by ring
      _ ≤ _ := div_le_div_of_nonneg_right e2 (by positivity)
  calc |v - k * toF32 q| = |(v - k * q) + (k * q - k * toF32 q)| := by ring_nf
    _ ≤ |v - k * q| + |(k : ℚ) * q - k * toF32 q| := abs_add_le _ _
    _ ≤ _ := by linarith

/-- C57. On success `compress` has overwritten the caller's array with the rounded integers. -/
theorem compress_overwrites_input (x : Image ℚ) (p : Precision) (hx : x.Encodable) (hp : p.Legal x.c) :
    (compress x p).2 = Image.mk x.h x.w x.c fun i j ch =>
      (roundHalfEven (x.px i j ch / p.prec ch) : ℚ) := by
  obtain ⟨qs, m, hqs, hm, hc⟩ := compress_ok hx hp
  obtain ⟨h1, h2, h3, h4, h5, h6⟩ := hx
  have hmeta : computeMetadata qs x.h x.w x.c = .ok (x.h, x.w, x.c, qs.map toF32) := by
    simp only [computeMetadata]; rw [if_neg (by omega)]
  simp only [compress, hqs, hm, hmeta]
  simp only [quantise]
  congr 1
  funext i j ch
  rw [checkPrecision_prec hqs ch ch.isLt]

/-- A 1x1x1 image holding 5. -/
def five : Image ℚ := ⟨1, 1, 1, fun _ _ _ => 5⟩

example : five.Encodable ∧ (Precision.scalar 2).Legal 1 := by simp [five, Image.Encodable, Precision.Legal]

/-- C57 is violated: compressing an image with precision 2 changes the caller's pixel 5 to 2. -/
theorem compress_input_unchanged_violated :
    ∃ (x : Image ℚ) (p : Precision), x.Encodable ∧ p.Legal x.c ∧ (compress x p).2 ≠ x := by
  refine ⟨five, .scalar 2, by simp [five, Image.Encodable], by simp [Precision.Legal], ?_⟩
  rw [compress_overwrites_input _ _ (by simp [five, Image.Encodable]) (by simp [Precision.Legal])]
  intro h
  have h2 : (fun (_ : Fin 1) (_ : Fin 1) (_ : Fin 1) => (roundHalfEven (5 / 2) : ℚ)) =
      fun _ _ _ => (5 : ℚ) := by
    have := h
    simpa [five, Precision.prec] using this
  have h3 := congrFun (congrFun (congrFun h2 0) 0) 0
  have h4 : (⌊(5 / 2 : ℚ)⌋ : ℤ) = 2 := by rw [Int.floor_eq_iff]; norm_num
  simp only [roundHalfEven, h4] at h3
  norm_num at h3

/-- C57 partial: what remains true is that an image already on an integer grid with precision 1 is
left unchanged. -/
theorem compress_input_unchanged_partial (x : Image ℚ) (hx : x.Encodable)
    (hint : ∀ i j ch, ∃ k : ℤ, x.px i j ch = k) : (compress x (.scalar 1)).2 = x := by
  rw [compress_overwrites_input _ _ hx (by simp [Precision.Legal])]
  cases x with
  | mk h w c px =>
    simp only [Precision.prec, div_one, Image.mk.injEq, heq_eq_eq, true_and]
    funext i j ch
    obtain ⟨k, hk⟩ := hint i j ch
    simp only at hk
    rw [hk, roundHalfEven_intCast]

end Verif.DeltaEncoder
