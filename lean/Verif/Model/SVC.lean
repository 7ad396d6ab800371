import Verif.Model.SMO
import Mathlib.Algebra.BigOperators.Group.List.Basic

/-!
# Model of `SupportVectorClassifier` (classicML/api/models/support_vector_machine/support_vector_classifier.py)

Rows are lists of numbers; a kernel is its function of two rows (its call on arrays evaluates it on pairs of rows, see
`Verif.Model.Kernels`).  `make name gamma` is the kernel `get_kernel(name, gamma)` builds from a name (training.py:79-92).
-/

namespace CML.SVC
open SMO

variable {K N : Type*} [Field K] [LinearOrder K]

/-- The `gamma` argument of `compile`: `'auto'`, `'scale'` or a number (support_vector_classifier.py:81-83). -/
inductive Gamma (K : Type*)
  | auto
  | scale
  | num (g : K)

/-- The `kernel` attribute: a name, or a `Kernel` instance. -/
inductive KernelAttr (K N : Type*)
  | name (s : N)
  | inst (k : List K → List K → K)

/-- The attributes of the classifier (support_vector_classifier.py:59-73). -/
structure Obj (K N : Type*) where
  supportVector : List (List K)
  supportAlpha : List K
  supportY : List K
  b : K
  C : K
  kernel : KernelAttr K N
  gamma : Gamma K
  tol : K
  trained : Bool
  loaded : Bool

/-- support_vector_classifier.py:75-92 `compile`. -/
def Obj.compile (o : Obj K N) (C : K) (kernel : KernelAttr K N) (gamma : Gamma K) (tol : K) : Obj K N :=
  { o with C := C, kernel := kernel, gamma := gamma, tol := tol }

/-- `x.var()`: the variance of all entries. -/
def var (x : List (List K)) : K :=
  let l := x.flatten
  let m := l.sum / (l.length : K)
  (l.map fun v => (v - m) ^ 2).sum / (l.length : K)

/-- support_vector_classifier.py:111-115: `gamma` as a number; `d` is `x.shape[1]`. `none`: a division by zero (an exception, or an
infinite `gamma` that turns the kernel into NaN). -/
def Gamma.value (x : List (List K)) (d : Nat) : Gamma K → Option K
  | .auto => if d = 0 then none else some (1 / (d : K))
  | .scale => if (d : K) * var x = 0 then none else some (1 / ((d : K) * var x))
  | .num g => some g

/-- training.py:79-94 `get_kernel` for known names and for instances. -/
def getKernel (make : N → K → List K → List K → K) (gamma : K) : KernelAttr K N → List K → List K → K
  | .name s => make s gamma
  | .inst k => k

/-- optimizers.py:930-966: what the optimiser sees of the data. -/
def problem (k : List K → List K → K) (C tol : K) {n : Nat} (x : Fin n → List K) (y : Fin n → K) : Problem K n :=
  { y := y, gram := fun i j => k (x i) (x j), C := C, tol := tol }

/-- support_vector_classifier.py:94-126 `fit`, as a relation: `Fit … o x y d epochs o'` says that the call may end with the object
`o'`, for the permutations `perms` drawn by the optimiser. -/
def Fit (make : N → K → List K → List K → K) {n : Nat} (perms : Nat → List (Fin n)) (o : Obj K N) (x : Fin n → List K)
    (y : Fin n → K) (d : Nat) (epochs : Int) (o' : Obj K N) : Prop :=
  ∃ (g : K) (s : State K n), o.gamma.value (List.ofFn x) d = some g ∧
    Returns (problem (getKernel make g o.kernel) o.C o.tol x y) perms epochs s ∧
    o' = { o with
      gamma := .num g
      kernel := .inst (getKernel make g o.kernel)
      supportVector := (extract (problem (getKernel make g o.kernel) o.C o.tol x y) s).support.map x
      supportAlpha := (extract (problem (getKernel make g o.kernel) o.C o.tol x y) s).supportAlpha
      supportY := (extract (problem (getKernel make g o.kernel) o.C o.tol x y) s).supportY
      b := (extract (problem (getKernel make g o.kernel) o.C o.tol x y) s).b
      trained := true }

/-- support_vector_classifier.py:148-149: `(support_alpha * support_y)ᵀ κ + b` for one row. -/
def decisionValue (k : List K → List K → K) (o : Obj K N) (r : List K) : K :=
  (List.zipWith (fun ay v => ay * k r v) (List.zipWith (· * ·) o.supportAlpha o.supportY) o.supportVector).sum + o.b

/-- support_vector_classifier.py:128-153 `predict`. A kernel that is still a name is a string, which cannot be called
(`TypeError`; only for objects that were compiled again after training). -/
def Obj.predict (o : Obj K N) (rows : List (List K)) : Except PyErr (List Int) :=
  if o.trained = false ∧ o.loaded = false then .error .valueError
  else
    match o.kernel with
    | .inst k => .ok (rows.map fun r => if decisionValue k o r < 0 then -1 else 1)
    | .name _ => if rows.isEmpty then .ok [] else .error .typeError

end CML.SVC
