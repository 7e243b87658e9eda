import Verif.Model.Pca
import Mathlib.Data.Real.Sqrt

/-!
Model of `fit_pca`, utils/compression/pca_codec.py:50-73, with the two steps of scikit-learn that it fits.  The numbers are
real numbers.  `StandardScaler` is modelled (with its default settings); for `PCA` only what it stores and how it
transforms is modelled: the principal axes are an argument, because how they are computed is not part of this code.
`none` is an exception.
-/

namespace Verif.PcaFit

variable {s m n : Nat}

/-- `StandardScaler.mean_`: the mean of a column. -/
noncomputable def columnMean (x : Fin s → Fin n → ℝ) (k : Fin n) : ℝ := (∑ i, x i k) / s

/-- `StandardScaler.var_`: the mean squared deviation from the mean. -/
noncomputable def columnVar (x : Fin s → Fin n → ℝ) (k : Fin n) : ℝ := (∑ i, (x i k - columnMean x k) ^ 2) / s

/-- `StandardScaler.scale_`: the standard deviation, or 1 for a constant column. -/
noncomputable def columnScale (x : Fin s → Fin n → ℝ) (k : Fin n) : ℝ :=
  if columnVar x k = 0 then 1 else Real.sqrt (columnVar x k)

/-- `StandardScaler.transform`. -/
noncomputable def scaled (x : Fin s → Fin n → ℝ) (v : Fin n → ℝ) : Fin n → ℝ :=
  fun k => (v k - columnMean x k) / columnScale x k

/-- The variance of `PCA.explained_variance_` along an axis: of the scaled samples about `PCA.mean_`, with the
denominator `s - 1`. -/
noncomputable def explained (x : Fin s → Fin n → ℝ) (axis : Fin n → ℝ) : ℝ :=
  (∑ i, (∑ k, axis k * (scaled x (x i) k - columnMean (fun j => scaled x (x j)) k)) ^ 2) / ((s : ℝ) - 1)

/-- The fitted `pipeline.Pipeline`: a scaler and a `PCA`. -/
structure Pipeline (m n : Nat) where
  mean : Fin n → ℝ
  scale : Fin n → ℝ
  pcaMean : Fin n → ℝ
  components : Fin m → Fin n → ℝ

/-- `Pipeline.transform` for one sample: `PCA` subtracts its own mean. -/
noncomputable def Pipeline.transform (p : Pipeline m n) (v : Fin n → ℝ) : Fin m → ℝ :=
  fun i => ∑ k, ((v k - p.mean k) / p.scale k - p.pcaMean k) * p.components i k

/-- `Pipeline.inverse_transform` for one sample. -/
noncomputable def Pipeline.inverse (p : Pipeline m n) (c : Fin m → ℝ) : Fin n → ℝ :=
  fun k => ((∑ i, c i * p.components i k) + p.pcaMean k) * p.scale k + p.mean k

/-- The parameters with the eigenvalues, pca_codec.py:44-47. -/
structure Fitted (m n : Nat) where
  params : Pca.Params ℝ m n
  values : Fin m → ℝ

/-- `fit_pca`, pca_codec.py:50-73; `axes` are the `components_` that scikit-learn finds. It refuses to fit without samples and
more components than samples or features. -/
noncomputable def fitPca (x : Fin s → Fin n → ℝ) (axes : Fin m → Fin n → ℝ) : Option (Pipeline m n × Fitted m n) :=
  if s = 0 ∨ s < m ∨ n < m then none
  else some (⟨columnMean x, columnScale x, columnMean fun i => scaled x (x i), axes⟩,
    ⟨⟨columnMean x, columnScale x, axes⟩, fun i => explained x (axes i)⟩)

end Verif.PcaFit
