import Mathlib.Analysis.SpecialFunctions.Log.Basic
import Mathlib.Analysis.SpecialFunctions.Sqrt
import Mathlib.Analysis.SpecialFunctions.Trigonometric.Basic

/-!
Likelihood estimates for the sim agents metrics: wdl_limited/sim_agents_metrics/estimators.py.

Tensors are index functions with their shape; `tf.reshape` keeps the row-major order of the elements.  Samples are finite real numbers (the handling
of NaN inside of `tfp.stats.histogram` is not modelled), arithmetic is exact.
-/

namespace Verif.Estimators

noncomputable section

/-- A tensor of rank 2. -/
structure T2 (α : Type) where
  rows : ℕ
  cols : ℕ
  at' : ℕ → ℕ → α

/-- A tensor of rank 3. -/
structure T3 (α : Type) where
  d0 : ℕ
  d1 : ℕ
  d2 : ℕ
  at' : ℕ → ℕ → ℕ → α

variable {α : Type}

/-- The elements in row-major order. -/
def T2.flat (t : T2 α) (n : ℕ) : α := t.at' (n / t.cols) (n % t.cols)

/-- The elements in row-major order. -/
def T3.flat (t : T3 α) (n : ℕ) : α := t.at' (n / (t.d1 * t.d2)) (n / t.d2 % t.d1) (n % t.d2)

/-- `tf.reshape` to a tensor of rank 2; in this file the number of elements always agrees. -/
def reshape2 (rows cols : ℕ) (f : ℕ → α) : T2 α := ⟨rows, cols, fun i j => f (i * cols + j)⟩

/-- `tf.transpose(x, [1, 0, 2])`. -/
def T3.transpose102 (t : T3 α) : T3 α := ⟨t.d1, t.d0, t.d2, fun i j k => t.at' j i k⟩

/-- `tf.transpose(x, [1, 2, 0])`. -/
def T3.transpose120 (t : T3 α) : T3 α := ⟨t.d1, t.d2, t.d0, fun i j k => t.at' k i j⟩

/-- `tf.transpose(x, [2, 1, 0])`. -/
def T3.transpose210 (t : T3 α) : T3 α := ⟨t.d2, t.d1, t.d0, fun i j k => t.at' k j i⟩

/-- `tf.transpose(x, [1, 0])`. -/
def T2.transpose (t : T2 α) : T2 α := ⟨t.cols, t.rows, fun i j => t.at' j i⟩

/-- A row as a list. -/
def T2.row (t : T2 α) (i : ℕ) : List α := (List.range t.cols).map (t.at' i)

/-- A logarithm of a likelihood. -/
inductive Score where
  | nan
  | negInf
  | fin (v : ℝ)

/-- The logarithm of a probability `p / total`. -/
def logRatio (p total : ℝ) : Score :=
  if p < 0 ∨ total ≤ 0 then .nan else if p = 0 then .negInf else .fin (Real.log (p / total))

/-- `HistogramEstimate`. -/
structure Histogram where
  lo : ℝ
  hi : ℝ
  bins : ℕ
  pseudo : ℝ

/-- `tf.linspace(config.min_val, config.max_val, config.num_bins+1)`, estimators.py:237-238. -/
def edge (c : Histogram) (k : ℕ) : ℝ := c.lo + (c.hi - c.lo) * k / c.bins

/-- `tf.clip_by_value`. -/
def clipTo (lo hi x : ℝ) : ℝ := max lo (min x hi)

open Classical in
/-- `tfp.stats.histogram`: bins are closed on the left and open on the right, the last one is closed. -/
def counts (c : Histogram) (l : List ℝ) : List ℕ :=
  (List.range c.bins).map fun k => (l.filter fun x => edge c k ≤ x ∧ (x < edge c (k + 1) ∨ k + 1 = c.bins ∧ x ≤ edge c (k + 1))).length

/-- `tf.argmax`: the first one of the largest. -/
def argmax (l : List ℕ) : ℕ := l.idxOf (l.foldr max 0)

/-- `histogram_estimate`, estimators.py:210-269.  Edges that do not increase and a histogram without bins are refused by tfp. -/
def histogramEstimate (c : Histogram) (log sim : T2 ℝ) : Option (T2 Score) :=
  if log.rows ≠ sim.rows ∨ c.bins = 0 ∨ c.hi ≤ c.lo then none
  else
    let log : T2 ℝ := ⟨log.rows, log.cols, fun i k => clipTo c.lo c.hi (log.at' i k)⟩
    let sim : T2 ℝ := ⟨sim.rows, sim.cols, fun i k => clipTo c.lo c.hi (sim.at' i k)⟩
    let probs : ℕ → List ℝ := fun i => (counts c (sim.row i)).map fun n : ℕ => (n : ℝ) + c.pseudo
    let maxBin : ℕ → ℕ := fun n => argmax (counts c [log.flat n])
    let batched : T2 ℕ := reshape2 log.rows log.cols maxBin
    let likelihood : T2 Score := ⟨log.cols, log.rows, fun k i => logRatio ((probs i).getD (batched.transpose.at' k i) 0) (probs i).sum⟩
    some likelihood.transpose

/-- The logarithm of the density of a mixture of Gaussian kernels at a point, as given by sklearn's `KernelDensity`. -/
def kdeScore (h : ℝ) (samples : List ℝ) (x : ℝ) : ℝ :=
  Real.log ((samples.map fun s => Real.exp (-(x - s) ^ 2 / (2 * h ^ 2)) / (Real.sqrt (2 * Real.pi) * h)).sum / samples.length)

/-- `kernel_density_estimate`, estimators.py:272-313.  sklearn refuses an empty list of samples. -/
def kernelDensityEstimate (h : ℝ) (log sim : T2 ℝ) : Option (T2 Score) :=
  if h ≤ 0 ∨ log.rows ≠ sim.rows ∨ sim.cols = 0 then none
  else some ⟨log.rows, log.cols, fun i k => .fin (kdeScore h (sim.row i) (log.at' i k) - Real.log (1 / (Real.sqrt (2 * Real.pi) * h)))⟩

/-- `tf.cast` of a boolean. -/
def cast (b : Bool) : ℝ := if b then 1 else 0

/-- `bernoulli_estimate`, estimators.py:316-362. -/
def bernoulliEstimate (pseudo : ℝ) (log sim : T2 Bool) : Option (T2 Score) :=
  histogramEstimate ⟨-1 / 2, 3 / 2, 2, pseudo⟩ ⟨log.rows, log.cols, fun i k => cast (log.at' i k)⟩ ⟨sim.rows, sim.cols, fun i k => cast (sim.at' i k)⟩

/-- The oneof `estimator` of `FeatureConfig`. -/
inductive Estimator where
  | histogram (c : Histogram)
  | kernelDensity (bandwidth : ℝ)
  | bernoulli (pseudo : ℝ)
  | unset

/-- The dispatch for tensors of floats, estimators.py:55-66 and 129-143. -/
def estimateFloat : Estimator → T2 ℝ → T2 ℝ → Option (T2 Score)
  | .histogram c => histogramEstimate c
  | .kernelDensity h => kernelDensityEstimate h
  | .bernoulli _ => fun _ _ => none
  | .unset => fun _ _ => none

/-- The dispatch for boolean tensors. -/
def estimateBool : Estimator → T2 Bool → T2 Bool → Option (T2 Score)
  | .bernoulli p => bernoulliEstimate p
  | _ => fun _ _ => none

/-- `FeatureConfig`. -/
structure FeatureConfig where
  estimator : Estimator
  independent : Bool
  weight : ℝ
  aggregate : Bool

/-- `_log_likelihood_estimate_timeseries_agent_level`, estimators.py:17-72. -/
def agentLevel (est : T2 α → T2 α → Option (T2 Score)) (independent : Bool) (log : T2 α) (sim : T3 α) : Option (T2 Score) :=
  if log.rows ≠ sim.d1 ∨ log.cols ≠ sim.d2 then none
  else
    let r :=
      if independent then est log (reshape2 sim.d1 (sim.d0 * sim.d2) sim.transpose102.flat)
      else est (reshape2 (sim.d1 * sim.d2) 1 log.flat) (reshape2 (sim.d1 * sim.d2) sim.d0 sim.transpose120.flat)
    r.map fun l => reshape2 sim.d1 sim.d2 l.flat

/-- `_log_likelihood_estimate_timeseries_scene_level`, estimators.py:75-149. -/
def sceneLevel (est : T2 α → T2 α → Option (T2 Score)) (independent : Bool) (log : T2 α) (sim : T3 α) : Option (T2 Score) :=
  if log.rows ≠ sim.d1 ∨ log.cols ≠ sim.d2 then none
  else
    let r :=
      if independent then est (reshape2 1 (sim.d1 * sim.d2) log.transpose.flat) (reshape2 1 (sim.d1 * sim.d0 * sim.d2) sim.transpose102.flat)
      else est log.transpose (reshape2 sim.d2 (sim.d1 * sim.d0) sim.transpose210.flat)
    r.map fun l => (reshape2 sim.d2 sim.d1 l.flat).transpose

/-- `log_likelihood_estimate_timeseries`, estimators.py:152-177. -/
def timeseries (est : T2 α → T2 α → Option (T2 Score)) (c : FeatureConfig) (log : T2 α) (sim : T3 α) : Option (T2 Score) :=
  if c.aggregate then sceneLevel est c.independent log sim else agentLevel est c.independent log sim

/-- `log_likelihood_estimate_scenario_level`, estimators.py:180-207: vectors and matrices get an axis of length one. -/
def scenarioLevel (est : T2 α → T2 α → Option (T2 Score)) (c : FeatureConfig) (n : ℕ) (log : ℕ → α) (sim : T2 α) : Option (ℕ → Score) :=
  (timeseries est c ⟨n, 1, fun i _ => log i⟩ ⟨sim.rows, sim.cols, 1, fun r o _ => sim.at' r o⟩).map fun t i => t.at' i 0

end

end Verif.Estimators
