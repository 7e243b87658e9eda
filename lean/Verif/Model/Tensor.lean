import Mathlib.Data.List.Basic
import Mathlib.Algebra.BigOperators.Group.List.Basic

/-!
Dense tensors as TensorFlow and NumPy have them: a shape and the elements in row-major order.  This file models the
operations of those libraries that the code uses (`reshape`, element access and building a tensor from its
elements); it corresponds to no file of the repository.  `none` is an error raised by the library.
-/

namespace Verif

/-- A dense tensor: its shape and its elements in row-major order. -/
structure Tensor (α : Type) where
  shape : List Nat
  data : List α
  deriving DecidableEq

namespace Tensor

variable {α β : Type}

/-- The indices are in range. -/
def within : List Nat → List Nat → Bool
  | [], [] => true
  | i :: is, n :: ns => decide (i < n) && within is ns
  | _, _ => false

/-- Position of an element in row-major order. -/
def offset : List Nat → List Nat → Nat
  | i :: is, _ :: ns => i * ns.prod + offset is ns
  | _, _ => 0

/-- The indices of a position in row-major order. -/
def coords : List Nat → Nat → List Nat
  | [], _ => []
  | _ :: ns, k => k / ns.prod :: coords ns (k % ns.prod)

/-- Element access. -/
def get? (t : Tensor α) (idx : List Nat) : Option α := if within idx t.shape then t.data[offset idx t.shape]? else none

/-- As many elements as the shape says; every tensor of the libraries is like this. -/
def WF (t : Tensor α) : Prop := t.data.length = t.shape.prod

/-- A tensor given by its elements. -/
def ofFn? (shape : List Nat) (f : List Nat → Option α) : Option (Tensor α) :=
  (((List.range shape.prod).map (coords shape)).mapM f).map fun d => ⟨shape, d⟩

/-- `reshape`: the elements stay in row-major order; the sizes have to agree. -/
def reshape (t : Tensor α) (shape : List Nat) : Option (Tensor α) :=
  if shape.prod = t.shape.prod then some ⟨shape, t.data⟩ else none

end Tensor
end Verif
