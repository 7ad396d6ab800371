import Verif.Prelude
import Mathlib.Algebra.Order.Field.Basic

/-! # Model of `init_covariances` (classicML/backend/python/ops.py:679-716) -/

namespace CML.GMM

/-- A numpy array: its shape and the entry at a multi-index. -/
structure Arr (K : Type*) where
  shape : List Nat
  entry : List Nat → K

/-- The index of the original array for an index of the squeezed one: axes of length 1 get index 0. -/
def unsqueeze : List Nat → List Nat → List Nat
  | [], _ => []
  | n :: s, idx =>
    if n = 1 then 0 :: unsqueeze s idx
    else
      match idx with
      | [] => []
      | i :: idx => i :: unsqueeze s idx

/-- `np.squeeze` (ops.py:708): the axes of length 1 are removed. -/
def Arr.squeeze {K : Type*} (a : Arr K) : Arr K where
  shape := a.shape.filter fun n => n ≠ 1
  entry idx := a.entry (unsqueeze a.shape idx)

/-- The `init` argument: `None`, a list or array, anything else. -/
inductive CovInit (K : Type*)
  | none
  | array (a : Arr K)
  | other

/-- ops.py:679-716 `init_covariances`; `d` is `x.shape[1]`. -/
def initCovariances {K : Type*} [Field K] (d nComponents : Nat) : CovInit K → Except PyErr (Arr K)
  | .none => .ok { shape := [nComponents, d, d]
                   entry := fun idx => if idx[1]? = idx[2]? then 1 / 10 else 0 }
  | .array a => if a.squeeze.shape = [nComponents, d, d] then .ok a.squeeze else .error .valueError
  | .other => .error .typeError

end CML.GMM
