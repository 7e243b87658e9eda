import Verif.Model.Rays
import Mathlib.Tactic.Linarith
import Mathlib.Tactic.FieldSimp
import Mathlib.Tactic.Ring
import Mathlib.Tactic.NormNum
import Mathlib.Tactic.FinCases

/-!
C144: which rays hit a box, and where.
-/

namespace Verif.Rays

open Verif.Boxes (V3)

/-! ## Specification -/

/-- The point at parameter `t` of a ray. -/
def along (o d : V3) (t : ℝ) : V3 := fun i => o i + t * d i

/-- The closed box of a given size around the origin. -/
def InBox (size p : V3) : Prop := ∀ i, |p i| ≤ size i / 2

/-- The direction that the code uses: components that are zero are replaced by 1e-10. -/
noncomputable def bent (d : V3) : V3 := fun i => if d i = 0 then 1 / 10 ^ 10 else d i

/-! ## One axis -/

theorem slab_iff {size o d t : ℝ} (hs : 0 ≤ size) :
    (slabMin size o d ≤ t ∧ t ≤ slabMax size o d) ↔ |o + t * (if d = 0 then 1 / 10 ^ 10 else d)| ≤ size / 2 := by
  set e : ℝ := if d = 0 then 1 / 10 ^ 10 else d with he
  have hinv : invDir d = 1 / e := by
    unfold invDir margin; rw [he]; split <;> simp_all
  have he0 : e ≠ 0 := by
    rw [he]; split
    · positivity
    · assumption
  rw [abs_le]
  unfold slabMin slabMax raySign selBounds
  rw [hinv]
  rcases lt_or_gt_of_ne he0 with h | h
  · have h1 : (1 : ℝ) / e < 0 := by simpa using h
    rw [if_pos h1]
    have e1 : ((1 - 1) * (-(1 / 2) * size) + 1 * (1 / 2 * size) - o) * (1 / e) = (size / 2 - o) / e := by ring
    have e2 : ((1 - (1 - 1)) * (-(1 / 2) * size) + (1 - 1) * (1 / 2 * size) - o) * (1 / e) = (-(size / 2) - o) / e := by ring
    rw [e1, e2, div_le_iff_of_neg h, le_div_iff_of_neg h]
    constructor <;> rintro ⟨a, b⟩ <;> constructor <;> linarith
  · have h1 : ¬ (1 : ℝ) / e < 0 := by simpa using h.le
    rw [if_neg h1]
    have e1 : ((1 - 0) * (-(1 / 2) * size) + 0 * (1 / 2 * size) - o) * (1 / e) = (-(size / 2) - o) / e := by ring
    have e2 : ((1 - (1 - 0)) * (-(1 / 2) * size) + (1 - 0) * (1 / 2 * size) - o) * (1 / e) = (size / 2 - o) / e := by ring
    rw [e1, e2, div_le_iff₀ h, le_div_iff₀ h]
    constructor <;> rintro ⟨a, b⟩ <;> constructor <;> linarith

theorem slab_le {size o d : ℝ} (hs : 0 ≤ size) : slabMin size o d ≤ slabMax size o d := by
  set e : ℝ := if d = 0 then 1 / 10 ^ 10 else d with he
  have he0 : e ≠ 0 := by
    rw [he]; split
    · positivity
    · assumption
  have := (slab_iff (size := size) (o := o) (d := d) (t := -o / e) hs).2 (by
    rw [← he, div_mul_cancel₀ _ he0]; simpa using by linarith)
  exact this.1.trans this.2

/-! ## The box -/

theorem intersectOne_times {size : V3} (hs : ∀ i, 0 ≤ size i) (o d : V3) (t : ℝ) :
    ((intersectOne size o d).first ≤ t ∧ t ≤ (intersectOne size o d).second) ↔ InBox size (along o (bent d) t) := by
  have h := fun i => slab_iff (o := o i) (d := d i) (t := t) (hs i)
  simp only [intersectOne, InBox, along, bent, Fin.forall_fin_succ, IsEmpty.forall_iff, and_true, ← h]
  simp only [max_le_iff, le_min_iff, Fin.succ_zero_eq_one, Fin.succ_one_eq_two]
  tauto

theorem intersectOne_flag {size : V3} (hs : ∀ i, 0 ≤ size i) (o d : V3) :
    (intersectOne size o d).flag = true ↔
      (intersectOne size o d).first ≤ (intersectOne size o d).second ∧ 0 < (intersectOne size o d).second := by
  have h := fun i => slab_le (o := o i) (d := d i) (hs i)
  have h0 := h 0
  have h1 := h 1
  have h2 := h 2
  simp only [intersectOne, gt_iff_lt]
  constructor
  · intro hf
    split_ifs at hf with a b c d e
    simp only [not_lt, not_le] at a b c d e
    refine ⟨?_, a⟩
    simp only [max_le_iff, le_min_iff] at *
    tauto
  · rintro ⟨a, b⟩
    rw [if_neg (not_le.2 b)]
    simp only [max_le_iff, le_min_iff] at a
    rw [if_neg (by simp only [not_lt, le_min_iff]; tauto), if_neg (by simp only [not_lt, max_le_iff]; tauto), if_neg (by simp only [not_lt]; tauto),
      if_neg (by simp only [not_lt]; tauto)]

/-- **C144.**  For boxes whose sizes are not negative and rays without components that are zero: the flag says whether the
ray meets the closed box at a positive parameter; then it is inside exactly between the two intersections. -/
theorem intersect_spec {size : V3} (hs : ∀ i, 0 ≤ size i) {os ds : List V3} (hl : os.length = ds.length)
    (hd : ∀ d ∈ ds, ∀ i, d i ≠ 0) :
    ∃ hits, intersect os ds size = some hits ∧ hits.length = os.length ∧
      ∀ (i : ℕ) (o d : V3) (h : Hit), os[i]? = some o → ds[i]? = some d → hits[i]? = some h →
        (h.flag = true ↔ ∃ t, 0 < t ∧ InBox size (along o d t)) ∧
        (∀ t, InBox size (along o d t) ↔ h.first ≤ t ∧ t ≤ h.second) := by
  refine ⟨List.zipWith (intersectOne size) os ds, ?_, ?_, ?_⟩
  · simp [intersect, hl]
  · simp [hl]
  · intro i o d h ho hd' hh
    have hb : bent d = d := by
      funext j
      exact if_neg (hd d (List.mem_of_getElem? hd') j)
    rw [List.getElem?_zipWith, ho, hd'] at hh
    obtain rfl : intersectOne size o d = h := by simpa using hh
    have ht := fun t => (intersectOne_times hs o d t)
    rw [hb] at ht
    refine ⟨?_, fun t => (ht t).symm⟩
    rw [intersectOne_flag hs]
    constructor
    · rintro ⟨a, b⟩
      exact ⟨_, b, (ht _).1 ⟨a, le_rfl⟩⟩
    · rintro ⟨t, h0, h1⟩
      have := (ht t).2 h1
      exact ⟨this.1.trans this.2, h0.trans_le this.2⟩

/-- **C144, if components are zero.**  The flag is that of the ray whose zero components are replaced by 1e-10. -/
theorem intersect_bent {size : V3} (hs : ∀ i, 0 ≤ size i) (o d : V3) :
    ((intersectOne size o d).flag = true ↔ ∃ t, 0 < t ∧ InBox size (along o (bent d) t)) ∧
      ∀ t, InBox size (along o (bent d) t) ↔ (intersectOne size o d).first ≤ t ∧ t ≤ (intersectOne size o d).second := by
  refine ⟨?_, fun t => (intersectOne_times hs o d t).symm⟩
  rw [intersectOne_flag hs]
  constructor
  · rintro ⟨a, b⟩
    exact ⟨_, b, (intersectOne_times hs o d _).1 ⟨a, le_rfl⟩⟩
  · rintro ⟨t, h0, h1⟩
    have := (intersectOne_times hs o d t).2 h1
    exact ⟨this.1.trans this.2, h0.trans_le this.2⟩

/-- **C144, with tolerance.**  If the ray is inside of the box made smaller by 1e-10 times the parameter on every side it is
reported, and a ray that is reported is inside of the box made larger by this. -/
theorem intersect_near_partial {size : V3} (hs : ∀ i, 0 ≤ size i) (o d : V3) :
    ((∃ t, 0 < t ∧ ∀ i, |along o d t i| ≤ size i / 2 - t / 10 ^ 10) → (intersectOne size o d).flag = true) ∧
      ((intersectOne size o d).flag = true → ∃ t, 0 < t ∧ ∀ i, |along o d t i| ≤ size i / 2 + t / 10 ^ 10) := by
  have key : ∀ t : ℝ, 0 < t → ∀ i, |along o (bent d) t i - along o d t i| ≤ t / 10 ^ 10 := by
    intro t ht i
    unfold along bent
    split
    · rename_i h
      rw [h]
      have : o i + t * (1 / 10 ^ 10) - (o i + t * 0) = t / 10 ^ 10 := by ring
      rw [this, abs_of_nonneg (by positivity)]
    · simp; positivity
  rw [(intersect_bent hs o d).1]
  constructor
  · rintro ⟨t, h0, h⟩
    refine ⟨t, h0, fun i => ?_⟩
    have a := abs_le.1 (key t h0 i)
    have b := abs_le.1 (h i)
    rw [abs_le]; constructor <;> linarith
  · rintro ⟨t, h0, h⟩
    refine ⟨t, h0, fun i => ?_⟩
    have a := abs_le.1 (key t h0 i)
    have b := abs_le.1 (h i)
    rw [abs_le]; constructor <;> linarith

/-! ## What the documentation says about the intersections -/

/-- "`t` is the distance to the origin", if the direction has length one. -/
theorem parameter_is_distance {o d : V3} (hd : d 0 ^ 2 + d 1 ^ 2 + d 2 ^ 2 = 1) {t : ℝ} (ht : 0 ≤ t) :
    Real.sqrt ((along o d t 0 - o 0) ^ 2 + (along o d t 1 - o 1) ^ 2 + (along o d t 2 - o 2) ^ 2) = t := by
  have : (along o d t 0 - o 0) ^ 2 + (along o d t 1 - o 1) ^ 2 + (along o d t 2 - o 2) ^ 2 = t ^ 2 := by
    unfold along; linear_combination t ^ 2 * hd
  rw [this, Real.sqrt_sq ht]

/-- "If the ray's origin is inside the box, the first intersection will take negative value": for every direction, also
with zeros.  The second one is positive and the flag is set. -/
theorem inside_first_negative {size o : V3} (hin : ∀ i, |o i| < size i / 2) (d : V3) :
    (intersectOne size o d).flag = true ∧ (intersectOne size o d).first < 0 ∧ 0 < (intersectOne size o d).second := by
  have hs : ∀ i, 0 ≤ size i := fun i => by have := (abs_nonneg (o i)).trans_lt (hin i); linarith
  have key : ∀ i, slabMin (size i) (o i) (d i) < 0 ∧ 0 < slabMax (size i) (o i) (d i) := by
    intro i
    have h := fun t => slab_iff (size := size i) (o := o i) (d := d i) (t := t) (hs i)
    set e : ℝ := if d i = 0 then 1 / 10 ^ 10 else d i with he
    have he0 : e ≠ 0 := by
      rw [he]; split
      · positivity
      · assumption
    have hg : 0 < size i / 2 - |o i| := by linarith [hin i]
    have hε : 0 < (size i / 2 - |o i|) / |e| := div_pos hg (abs_pos.2 he0)
    have hb : ∀ t : ℝ, |t| = (size i / 2 - |o i|) / |e| → |o i + t * e| ≤ size i / 2 := by
      intro t ht
      refine (abs_add_le _ _).trans ?_
      rw [abs_mul, ht, div_mul_cancel₀ _ (abs_pos.2 he0).ne']; linarith
    have h1 := (h _).2 (hb _ (abs_of_pos hε))
    have h2 := (h _).2 (hb (-((size i / 2 - |o i|) / |e|)) (by rw [abs_neg, abs_of_pos hε]))
    exact ⟨by linarith [h2.1], by linarith [h1.2]⟩
  have h1 : (intersectOne size o d).first < 0 := by
    simp only [intersectOne, max_lt_iff]; exact ⟨⟨(key 0).1, (key 1).1⟩, (key 2).1⟩
  have h2 : 0 < (intersectOne size o d).second := by
    simp only [intersectOne, lt_min_iff]; exact ⟨⟨(key 0).2, (key 1).2⟩, (key 2).2⟩
  exact ⟨(intersectOne_flag hs o d).2 ⟨(h1.trans h2).le, h2⟩, h1, h2⟩

/-- **C145.**  "If there is no ray-box intersection, both first and second ones will take negative values" is not so: this
ray passes the box and both values are positive. -/
theorem miss_negative_violated :
    let h := intersectOne ![2, 2, 2] ![-5, 0, -2] ![1, 1, 1]
    h.flag = false ∧ h.first = 4 ∧ h.second = 1 := by
  have i1 : invDir 1 = 1 := by norm_num [invDir]
  have s1 : raySign 1 = 0 := by norm_num [raySign, i1]
  simp only [intersectOne, slabMin, slabMax, selBounds, Matrix.cons_val_zero, Matrix.cons_val_one, Matrix.cons_val,
    i1, s1]
  norm_num

/-- What remains of it: if the line meets the box but the ray does not, neither value is positive; they are negative if
the box does not contain the origin of the ray. -/
theorem miss_negative_partial {size : V3} (hs : ∀ i, 0 ≤ size i) {o d : V3} (hd : ∀ i, d i ≠ 0)
    (hline : ∃ t, InBox size (along o d t)) (hno : ¬ InBox size o) (hf : (intersectOne size o d).flag = false) :
    (intersectOne size o d).first < 0 ∧ (intersectOne size o d).second < 0 := by
  have hb : bent d = d := by funext j; exact if_neg (hd j)
  have ht := fun t => (intersectOne_times hs o d t)
  rw [hb] at ht
  obtain ⟨t, h⟩ := hline
  have h1 := (ht t).2 h
  have h0 : ¬ ((intersectOne size o d).first ≤ 0 ∧ 0 ≤ (intersectOne size o d).second) := by
    rw [ht]; convert hno using 2; funext i; simp [along]
  have h2 : ¬ 0 < (intersectOne size o d).second := by
    intro hp
    have := (intersectOne_flag hs o d).2 ⟨h1.1.trans h1.2, hp⟩
    simp [hf] at this
  have h3 : (intersectOne size o d).second < 0 := by
    rcases lt_or_eq_of_le (not_lt.1 h2) with h | h
    · exact h
    · exact absurd ⟨by linarith [h1.1, h1.2], h.ge⟩ h0
  exact ⟨by linarith [h1.1, h1.2], h3⟩

theorem intersectOne_flag_false {size : V3} (hs : ∀ i, 0 ≤ size i) {o d : V3}
    (h : ¬ ∃ t, 0 < t ∧ InBox size (along o (bent d) t)) : (intersectOne size o d).flag = false := by
  rw [← (intersect_bent hs o d).1] at h
  simpa using h

/-- **C146.**  Rays in the plane of a face: one that runs in the face `y = -1` is reported, one in the face `y = 1` is
not, although both touch the box; and a ray that passes the box at a distance of 1e-11 is reported. -/
theorem parallel_violated :
    ((intersectOne ![2, 2, 2] ![-5, -1, 0] ![1, 0, 0]).flag = true ∧
      (intersectOne ![2, 2, 2] ![-5, 1, 0] ![1, 0, 0]).flag = false ∧
      (∃ t, 0 < t ∧ InBox ![2, 2, 2] (along ![-5, -1, 0] ![1, 0, 0] t)) ∧
      ∃ t, 0 < t ∧ InBox ![2, 2, 2] (along ![-5, 1, 0] ![1, 0, 0] t)) ∧
    (intersectOne ![2, 2, 2] ![-5, -1 - 1 / 10 ^ 11, 0] ![1, 0, 0]).flag = true ∧
      ¬ ∃ t, 0 < t ∧ InBox ![2, 2, 2] (along ![-5, -1 - 1 / 10 ^ 11, 0] ![1, 0, 0] t) := by
  have hs : ∀ i, (0 : ℝ) ≤ (![2, 2, 2] : V3) i := by intro i; fin_cases i <;> norm_num
  refine ⟨⟨?_, ?_, ?_, ?_⟩, ?_, ?_⟩
  · rw [(intersect_bent hs _ _).1]
    refine ⟨5, by norm_num, fun i => ?_⟩
    fin_cases i <;> norm_num [along, bent, abs_le]
  · apply intersectOne_flag_false hs
    rintro ⟨t, h0, h⟩
    have := (abs_le.1 (h 1)).2
    norm_num [along, bent] at this
    linarith
  · refine ⟨5, by norm_num, fun i => ?_⟩
    fin_cases i <;> norm_num [along, abs_le]
  · refine ⟨5, by norm_num, fun i => ?_⟩
    fin_cases i <;> norm_num [along, abs_le]
  · rw [(intersect_bent hs _ _).1]
    refine ⟨5, by norm_num, fun i => ?_⟩
    fin_cases i <;> norm_num [along, bent, abs_le]
  · rintro ⟨t, h0, h⟩
    have := (abs_le.1 (h 1)).1
    norm_num [along] at this

/-- A ray that meets the hypotheses of `intersect_spec` and hits the box. -/
example : (intersectOne ![2, 2, 2] ![-3, -3, -3] ![1, 1, 1]).flag = true := by
  rw [(intersect_bent (fun i => by fin_cases i <;> norm_num) _ _).1]
  refine ⟨3, by norm_num, fun i => ?_⟩
  fin_cases i <;> norm_num [along, bent]

end Verif.Rays
