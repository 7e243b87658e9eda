import Mathlib.Data.Rat.Defs
import Mathlib.Algebra.Order.Field.Rat

/-!
Model of utils/example_utils.py and utils/womd_camera_utils.py.  `none` is an exception.  Floats are rational numbers,
the infinities or "not a number"; sums and differences are exact.
-/

namespace Verif.Examples

/-- A float. -/
inductive Num
  | nan
  | inf (positive : Bool)
  | fin (x : ℚ)
  deriving DecidableEq

/-- `tf.train.Feature`: one of three lists, or none of them. -/
inductive Feature
  | unset
  | bytes (v : List String)
  | floats (v : List Num)
  | ints (v : List ℤ)
  deriving DecidableEq

/-- `tf.train.Example`: a map; every name occurs once. -/
abbrev Example := List (String × Feature)

/-- `example.features.feature[key]`. -/
def look (e : Example) (key : String) : Option Feature := (e.find? fun p => decide (p.1 = key)).map Prod.snd

/-- One element of `np.allclose`: finite numbers within the tolerance, which is relative to the second, or equal
infinities. -/
def isClose (atol rtol : ℚ) : Num → Num → Bool
  | .fin a, .fin b => decide (|a - b| ≤ atol + rtol * |b|)
  | .inf a, .inf b => a == b
  | _, _ => false

/-- `feature.float_list.value`: empty if the feature has no list of floats. -/
def Feature.floatValues : Feature → List Num
  | .floats v => v
  | _ => []

/-- example_utils.py:39-52: the comparison of the two features of one name. -/
def sameFeature (atol rtol : ℚ) (a b : Feature) : Bool :=
  match b with
  | .floats v =>
    decide (a.floatValues.length = v.length) && (a.floatValues.zip v).all fun p => isClose atol rtol p.1 p.2
  | _ => decide (b = a)

/-- `examples_equal`, example_utils.py:21-58. -/
def examplesEqual (a b : Example) (atol rtol : ℚ) : Bool :=
  (a.all fun p => match look b p.1 with
    | none => false
    | some f => sameFeature atol rtol p.2 f) &&
  b.all fun p => (look a p.1).isSome

/-- The fields of a scenario: the tokens of the cameras and all others. -/
structure Scenario (T F : Type) where
  tokens : List T
  rest : F
  deriving DecidableEq

/-- `add_camera_tokens_to_scenario`, womd_camera_utils.py:22-39. -/
def addTokens {T F : Type} (scenario cameraData : Scenario T F) : Scenario T F :=
  { scenario with tokens := scenario.tokens ++ cameraData.tokens }

/-- `get_camera_embedding_from_codebook`, womd_camera_utils.py:42-60: `np.min` and `np.max` of no tokens are errors. -/
def embeddings {α : Type} (codebook : List α) (tokens : List ℤ) : Option (List α) :=
  match tokens with
  | [] => none
  | t :: ts =>
    if ts.foldl min t < 0 ∨ (codebook.length : ℤ) - 1 < ts.foldl max t then none
    else tokens.mapM fun i => codebook[i.toNat]?

end Verif.Examples
