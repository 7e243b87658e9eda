import Verif.Model.PcaFit
import Verif.Props.Pca
import Mathlib.LinearAlgebra.Matrix.NonsingularInverse
import Mathlib.Algebra.BigOperators.Field
import Mathlib.Tactic.FieldSimp
import Mathlib.Tactic.FinCases
import Mathlib.Tactic.Ring
import Mathlib.Tactic.Linarith
import Mathlib.Tactic.NormNum

/-!
C228: the parameters of `fit_pca` transform every vector like the fitted scikit-learn pipeline; their deviations are
positive; the eigenvalues are the variances of the coefficients, and what the components lose is what is missing from
the total variance.
-/

namespace Verif.PcaFit

variable {s m n : Nat}

theorem columnVar_nonneg (x : Fin s → Fin n → ℝ) (k : Fin n) : 0 ≤ columnVar x k :=
  div_nonneg (Finset.sum_nonneg fun _ _ => sq_nonneg _) (Nat.cast_nonneg _)

/-- The deviations are positive, also for constant columns. -/
theorem columnScale_pos (x : Fin s → Fin n → ℝ) (k : Fin n) : 0 < columnScale x k := by
  unfold columnScale
  split_ifs with h
  · exact one_pos
  · exact Real.sqrt_pos.2 (lt_of_le_of_ne (columnVar_nonneg x k) (Ne.symm h))

/-- Scaled samples have mean 0. -/
theorem scaled_mean (x : Fin s → Fin n → ℝ) (hs : s ≠ 0) (k : Fin n) : columnMean (fun i => scaled x (x i)) k = 0 := by
  have hs' : (s : ℝ) ≠ 0 := by exact_mod_cast hs
  unfold columnMean scaled
  rw [← Finset.sum_div, Finset.sum_sub_distrib]
  simp only [Finset.sum_const, Finset.card_univ, Fintype.card_fin, nsmul_eq_mul]
  unfold columnMean
  rw [mul_div_cancel₀ _ hs', sub_self, zero_div, zero_div]

/-- Scaled columns have mean square 1, or 0 if the column is constant. -/
theorem scaled_square (x : Fin s → Fin n → ℝ) (k : Fin n) :
    (∑ i, scaled x (x i) k ^ 2) / s = if columnVar x k = 0 then 0 else 1 := by
  have h : (∑ i, scaled x (x i) k ^ 2) / s = columnVar x k / columnScale x k ^ 2 := by
    unfold scaled
    simp only [div_pow]
    rw [← Finset.sum_div]
    unfold columnVar
    rw [div_right_comm]
  rw [h]
  unfold columnScale
  split_ifs with h0
  · rw [h0, zero_div]
  · rw [Real.sq_sqrt (columnVar_nonneg x k), div_self h0]

/-- Fitting fails exactly without samples or with too many components. -/
theorem fitPca_defined (x : Fin s → Fin n → ℝ) (axes : Fin m → Fin n → ℝ) :
    (fitPca x axes).isSome = true ↔ 0 < s ∧ m ≤ s ∧ m ≤ n := by
  unfold fitPca
  split_ifs with h
  · simp only [Option.isSome_none, Bool.false_eq_true, false_iff]; omega
  · simp only [Option.isSome_some, true_iff]; omega

variable {x : Fin s → Fin n → ℝ} {axes : Fin m → Fin n → ℝ} {p : Pipeline m n} {f : Fitted m n}

theorem fitPca_parts (h : fitPca x axes = some (p, f)) : s ≠ 0 ∧
    p = ⟨columnMean x, columnScale x, columnMean fun i => scaled x (x i), axes⟩ ∧
    f = ⟨⟨columnMean x, columnScale x, axes⟩, fun i => explained x (axes i)⟩ := by
  unfold fitPca at h
  split_ifs at h with h0
  obtain ⟨h1, h2⟩ := Prod.mk.inj (Option.some.inj h)
  exact ⟨fun h => h0 (Or.inl h), h1.symm, h2.symm⟩

/-- The mean that the code drops is 0: the parameters transform every vector like the pipeline, not only the samples. -/
theorem transform_eq (h : fitPca x axes = some (p, f)) (v : Fin n → ℝ) : Pca.transform f.params v = p.transform v := by
  obtain ⟨hs, rfl, rfl⟩ := fitPca_parts h
  funext i
  unfold Pca.transform Pipeline.transform
  apply Finset.sum_congr rfl
  intro k _
  simp only [scaled_mean x hs, sub_zero]
  ring

/-- The same for the way back, for every vector of coefficients. -/
theorem inverse_eq (h : fitPca x axes = some (p, f)) (c : Fin m → ℝ) : Pca.inverse f.params c = p.inverse c := by
  obtain ⟨hs, rfl, rfl⟩ := fitPca_parts h
  funext k
  unfold Pca.inverse Pipeline.inverse
  simp only [scaled_mean x hs, add_zero, mul_comm]

/-- The fitted deviations are positive, so that no transformation divides by 0. -/
theorem std_pos (h : fitPca x axes = some (p, f)) (k : Fin n) : 0 < f.params.std k := by
  obtain ⟨_, _, rfl⟩ := fitPca_parts h
  exact columnScale_pos x k

/-- The mean of the samples has the coefficients 0. -/
theorem coefficients_mean (h : fitPca x axes = some (p, f)) (i : Fin m) : ∑ j, Pca.transform f.params (x j) i = 0 := by
  obtain ⟨hs, _, rfl⟩ := fitPca_parts h
  have hs' : (s : ℝ) ≠ 0 := by exact_mod_cast hs
  unfold Pca.transform
  rw [Finset.sum_comm]
  apply Finset.sum_eq_zero
  intro k _
  rw [← Finset.mul_sum]
  have := scaled_mean x hs k
  unfold columnMean scaled at this
  rw [div_eq_zero_iff] at this
  rcases this with h | h
  · rw [h, mul_zero]
  · exact absurd h hs'

/-- An eigenvalue is the variance of its coefficient over the samples. -/
theorem values_variance (h : fitPca x axes = some (p, f)) (i : Fin m) :
    f.values i = (∑ j, Pca.transform f.params (x j) i ^ 2) / ((s : ℝ) - 1) := by
  obtain ⟨hs, _, rfl⟩ := fitPca_parts h
  simp only [explained, scaled_mean x hs, sub_zero]
  rfl

/-- The axes are orthonormal. -/
def Orthonormal (axes : Fin m → Fin n → ℝ) : Prop := ∀ i j, ∑ k, axes i k * axes j k = if i = j then 1 else 0

theorem orthonormal_columns {axes : Fin n → Fin n → ℝ} (ho : Orthonormal axes) (k j : Fin n) :
    ∑ i, axes i k * axes i j = if k = j then 1 else 0 := by
  have hm : (Matrix.of axes) * (Matrix.of axes).transpose = 1 := by
    ext i j
    rw [Matrix.mul_apply, Matrix.one_apply]
    exact ho i j
  have hm' := mul_eq_one_comm.1 hm
  have := congrFun (congrFun hm' k) j
  rw [Matrix.mul_apply, Matrix.one_apply] at this
  exact this

/-- As many orthonormal axes as features lose nothing: going there and back is the identity on every vector. -/
theorem full_round_trip {axes : Fin n → Fin n → ℝ} {p : Pipeline n n} {f : Fitted n n} (h : fitPca x axes = some (p, f))
    (ho : Orthonormal axes) (v : Fin n → ℝ) : Pca.inverse f.params (Pca.transform f.params v) = v := by
  have hstd := std_pos h
  obtain ⟨hs, _, rfl⟩ := fitPca_parts h
  exact Pca.project_eq _ (fun k => (hstd k).ne') (orthonormal_columns ho) v

/-- An image that is coded with parameters fitted to any samples, with as many components as values in a tile, is decoded
up to half a step per coefficient. -/
theorem codec_fitted {s h w d tile : Nat} {x : Fin s → Fin (tile * tile * d) → ℝ}
    {axes : Fin (tile * tile * d) → Fin (tile * tile * d) → ℝ} {p : Pipeline (tile * tile * d) (tile * tile * d)}
    {f : Fitted (tile * tile * d) (tile * tile * d)} (hf : fitPca x axes = some (p, f)) (ho : Orthonormal axes)
    (q : Fin (tile * tile * d) → ℝ) (hq : ∀ i, 0 < q i) {img : Tensor ℝ} (L : Tiling.Legal img h w d tile)
    (hr : ∀ ty tx, ty < Tiling.numTiles h tile → tx < Tiling.numTiles w tile →
      Pca.InRange ⟨f.params, q, tile⟩ (Pca.tileOf img h w d tile (tile * tile * d) ty tx)) :
    ∃ code out, Pca.encode ⟨f.params, q, tile⟩ img = some code ∧ Pca.decode ⟨f.params, q, tile⟩ code = some out ∧
      out.shape = img.shape ∧
      ∀ y x k (_ : y < h) (_ : x < w) (hk : k < d), ∃ v a, out.get? [y, x, k] = some v ∧ img.get? [y, x, k] = some a ∧
        |v - a| ≤ Pca.bound ⟨f.params, q, tile⟩ ⟨Pca.posInTile d tile y x k, Pca.posInTile_lt L.tilePos hk⟩ := by
  have hstd := std_pos hf
  refine Pca.decode_encode_orthonormal ⟨f.params, q, tile⟩ rfl hq (fun k => (hstd k).ne') ?_ L hr
  obtain ⟨_, _, rfl⟩ := fitPca_parts hf
  exact orthonormal_columns ho

/-- What is lost: in units of the deviations, the squared error of a sample is its squared length less the squares of its
coefficients. -/
theorem loss (h : fitPca x axes = some (p, f)) (ho : Orthonormal axes) (v : Fin n → ℝ) :
    ∑ k, ((Pca.inverse f.params (Pca.transform f.params v) k - v k) / f.params.std k) ^ 2 =
      ∑ k, ((v k - f.params.mean k) / f.params.std k) ^ 2 - ∑ i, Pca.transform f.params v i ^ 2 := by
  have hstd := std_pos h
  obtain ⟨hs, _, rfl⟩ := fitPca_parts h
  simp only at hstd ⊢
  have h1 : ∀ k, (Pca.inverse (K := ℝ) ⟨columnMean x, columnScale x, axes⟩
      (Pca.transform ⟨columnMean x, columnScale x, axes⟩ v) k - v k) / columnScale x k =
      (∑ i, axes i k * Pca.transform ⟨columnMean x, columnScale x, axes⟩ v i) -
        (v k - columnMean x k) / columnScale x k := by
    intro k
    unfold Pca.inverse
    have := (hstd k).ne'
    field_simp
    ring
  simp only [h1]
  set c := Pca.transform (K := ℝ) ⟨columnMean x, columnScale x, axes⟩ v with hc
  set u : Fin n → ℝ := fun k => (v k - columnMean x k) / columnScale x k with hu
  have hci : ∀ i, c i = ∑ k, axes i k * u k := fun i => rfl
  change ∑ k, ((∑ i, axes i k * c i) - u k) ^ 2 = ∑ k, u k ^ 2 - ∑ i, c i ^ 2
  have e1 : ∑ k, (∑ i, axes i k * c i) ^ 2 = ∑ i, c i ^ 2 := by
    calc ∑ k, (∑ i, axes i k * c i) ^ 2 = ∑ k, ∑ i, ∑ j, (axes i k * c i) * (axes j k * c j) := by
          apply Finset.sum_congr rfl
          intro k _
          rw [sq, Finset.sum_mul_sum]
      _ = ∑ i, ∑ j, ∑ k, (axes i k * c i) * (axes j k * c j) := by
          rw [Finset.sum_comm]
          apply Finset.sum_congr rfl
          intro i _
          rw [Finset.sum_comm]
      _ = ∑ i, ∑ j, (if i = j then 1 else 0) * (c i * c j) := by
          apply Finset.sum_congr rfl
          intro i _
          apply Finset.sum_congr rfl
          intro j _
          rw [← ho i j, Finset.sum_mul]
          apply Finset.sum_congr rfl
          intro k _
          ring
      _ = _ := by simp [sq]
  have e2 : ∑ k, (∑ i, axes i k * c i) * u k = ∑ i, c i ^ 2 := by
    calc ∑ k, (∑ i, axes i k * c i) * u k = ∑ k, ∑ i, axes i k * c i * u k := by
          apply Finset.sum_congr rfl
          intro k _
          rw [Finset.sum_mul]
      _ = ∑ i, ∑ k, axes i k * c i * u k := Finset.sum_comm
      _ = ∑ i, c i ^ 2 := by
          apply Finset.sum_congr rfl
          intro i _
          rw [sq, hci i]
          conv_rhs => rw [Finset.sum_mul]
          apply Finset.sum_congr rfl
          intro k _
          rw [← hci i]
          ring
  have e3 : ∑ k, ((∑ i, axes i k * c i) - u k) ^ 2 =
      ∑ k, (∑ i, axes i k * c i) ^ 2 - 2 * ∑ k, (∑ i, axes i k * c i) * u k + ∑ k, u k ^ 2 := by
    rw [Finset.mul_sum, ← Finset.sum_sub_distrib, ← Finset.sum_add_distrib]
    apply Finset.sum_congr rfl
    intro k _
    ring
  rw [e3, e1, e2]
  ring

/-- Over the samples: the squared error, in units of the deviations, is the number of samples for each column that is
not constant, less the eigenvalues of the components kept times the number of samples minus 1. -/
theorem total_loss (h : fitPca x axes = some (p, f)) (ho : Orthonormal axes) (hs : 1 < s) :
    ∑ j, ∑ k, ((Pca.inverse f.params (Pca.transform f.params (x j)) k - x j k) / f.params.std k) ^ 2 =
      s * ((Finset.univ.filter fun k => columnVar x k ≠ 0).card : ℝ) - ((s : ℝ) - 1) * ∑ i, f.values i := by
  have hs1 : (s : ℝ) - 1 ≠ 0 := by
    have : (1 : ℝ) < s := by exact_mod_cast hs
    linarith
  have hs0 : (s : ℝ) ≠ 0 := by
    have : s ≠ 0 := by omega
    exact_mod_cast this
  simp only [loss h ho, values_variance h]
  rw [Finset.sum_sub_distrib]
  congr 1
  · rw [Finset.sum_comm]
    obtain ⟨_, _, rfl⟩ := fitPca_parts h
    have h1 : ∀ k, ∑ j, ((x j k - columnMean x k) / columnScale x k) ^ 2 = s * if columnVar x k = 0 then 0 else 1 := by
      intro k
      rw [← scaled_square x k, mul_div_cancel₀ _ hs0]
      rfl
    simp only [h1]
    rw [← Finset.mul_sum]
    congr 1
    rw [Finset.card_filter]
    push_cast
    apply Finset.sum_congr rfl
    intro k _
    split_ifs <;> simp_all
  · rw [Finset.sum_comm, ← Finset.sum_div, mul_div_cancel₀ _ hs1]

/-- A case: two samples and two features of which the second is constant; one axis keeps everything. -/
theorem fit_case : ∃ p f, fitPca (s := 2) (n := 2) (m := 1) ![![1, 5], ![3, 5]] ![![1, 0]] = some (p, f) ∧
    Orthonormal (m := 1) (n := 2) ![![1, 0]] ∧ f.params.mean = ![2, 5] ∧ f.params.std = ![1, 1] ∧ f.values 0 = 2 ∧
    Pca.transform f.params ![3, 5] 0 = 1 ∧ Pca.inverse f.params (Pca.transform f.params ![7, 6]) = ![7, 5] := by
  have hmean : columnMean (s := 2) (n := 2) ![![1, 5], ![3, 5]] = ![2, 5] := by
    funext k
    fin_cases k <;> norm_num [columnMean, Fin.sum_univ_two]
  have hvar : columnVar (s := 2) (n := 2) ![![1, 5], ![3, 5]] = ![1, 0] := by
    funext k
    fin_cases k <;> norm_num [columnVar, hmean, Fin.sum_univ_two]
  have hscale : columnScale (s := 2) (n := 2) ![![1, 5], ![3, 5]] = ![1, 1] := by
    funext k
    fin_cases k <;> norm_num [columnScale, hvar]
  have hd : (fitPca (s := 2) (n := 2) (m := 1) ![![1, 5], ![3, 5]] ![![1, 0]]).isSome = true := by
    rw [fitPca_defined]; omega
  obtain ⟨⟨p, f⟩, h⟩ := Option.isSome_iff_exists.1 hd
  have hv := values_variance h 0
  refine ⟨p, f, h, ?_, ?_⟩
  · intro i j
    fin_cases i; fin_cases j
    simp
  · obtain ⟨_, _, rfl⟩ := fitPca_parts h
    refine ⟨hmean, hscale, ?_, ?_, ?_⟩
    · rw [hv]
      norm_num [Pca.transform, hmean, hscale, Fin.sum_univ_two]
    · norm_num [Pca.transform, hmean, hscale, Fin.sum_univ_two]
    · funext k
      fin_cases k <;> norm_num [Pca.transform, Pca.inverse, hmean, hscale, Fin.sum_univ_two]

end Verif.PcaFit
