import Verif.Prelude
import Mathlib.Analysis.SpecialFunctions.Log.Basic
import Mathlib.Analysis.SpecialFunctions.Exp
import Mathlib.Analysis.Complex.Trigonometric
import Mathlib.Algebra.BigOperators.Group.Finset.Basic

/-!
# The losses, activations and kernels of the two engines, on arrays

classicML/backend/python/{losses,activations,kernels}.py against classicML/backend/cc/{losses,activations,kernels}.

An array is a vector or a matrix (arrays of higher dimension are not modelled).  Arguments are finite numbers; results may be infinite or
NaN (`Fl`), rounding is not modelled.  `none` as the answer of a C++ function is undefined behaviour: an Eigen assertion or, without assertions, an
access outside of an array.
-/

namespace CML.Eng
open Finset

/-- A floating point number, without rounding. -/
inductive Fl
  | nan | ninf | pinf
  | fin (x : ℝ)

namespace Fl

/-- Addition. -/
noncomputable def add : Fl → Fl → Fl
  | fin a, fin b => fin (a + b)
  | fin _, pinf => pinf
  | fin _, ninf => ninf
  | pinf, fin _ => pinf
  | pinf, pinf => pinf
  | ninf, fin _ => ninf
  | ninf, ninf => ninf
  | _, _ => nan

/-- Negation. -/
noncomputable def neg : Fl → Fl
  | fin a => fin (-a)
  | pinf => ninf
  | ninf => pinf
  | nan => nan

/-- A finite number times a number: zero times an infinity is NaN. -/
noncomputable def smul (a : ℝ) : Fl → Fl
  | fin b => fin (a * b)
  | pinf => if 0 < a then pinf else if a < 0 then ninf else nan
  | ninf => if 0 < a then ninf else if a < 0 then pinf else nan
  | nan => nan

/-- Division by a number of samples. -/
noncomputable def divNat (a : Fl) (n : Nat) : Fl :=
  match a with
  | fin x => if n = 0 then (if 0 < x then pinf else if x < 0 then ninf else nan) else fin (x / n)
  | b => b

/-- `np.log`, Eigen's `log`. -/
noncomputable def log (x : ℝ) : Fl := if 0 < x then fin (Real.log x) else if x = 0 then ninf else nan

noncomputable instance : Zero Fl := ⟨fin 0⟩
noncomputable instance : Add Fl := ⟨add⟩
noncomputable instance : Neg Fl := ⟨neg⟩

theorem add_def (a b : Fl) : a + b = add a b := rfl
theorem zero_def : (0 : Fl) = fin 0 := rfl

noncomputable instance : AddCommMonoid Fl where
  add_assoc a b c := by cases a <;> cases b <;> cases c <;> simp [add_def, add, add_assoc]
  zero_add a := by cases a <;> simp [zero_def, add_def, add]
  add_zero a := by cases a <;> simp [zero_def, add_def, add]
  add_comm a b := by cases a <;> cases b <;> simp [add_def, add, add_comm]
  nsmul := nsmulRec

end Fl

/-- An array of dimension one or two. -/
inductive Arr (α : Type)
  | vec (n : Nat) (e : ℕ → α)
  | mat (r c : Nat) (e : ℕ → ℕ → α)

/-- What a Python function returns: a number or an array. -/
inductive Out
  | scalar (v : Fl)
  | array (a : Arr Fl)

/-- An Eigen matrix. -/
structure EMat (α : Type) where
  rows : Nat
  cols : Nat
  e : ℕ → ℕ → α

/-- The conversion of pybind11 from a numpy array to `Eigen::MatrixXd`: a vector becomes one column. -/
def eig {α : Type} : Arr α → EMat α
  | .vec n e => ⟨n, 1, fun i _ => e i⟩
  | .mat r c e => ⟨r, c, e⟩

/-- `y_true.reshape(-1, 1)` when `y_true.ndim == 1` (losses.py:46-47, 71-72). -/
def asColumn {α : Type} : Arr α → EMat α
  | .vec n e => ⟨n, 1, fun i _ => e i⟩
  | .mat r c e => ⟨r, c, e⟩

/-- `np.squeeze`. -/
def squeeze : Arr Fl → Out
  | .vec n e => if n = 1 then .scalar (e 0) else .array (.vec n e)
  | .mat r c e =>
    if r = 1 ∧ c = 1 then .scalar (e 0 0)
    else if r = 1 then .array (.vec c fun j => e 0 j)
    else if c = 1 then .array (.vec r fun i => e i 0)
    else .array (.mat r c e)

/-- The length of an axis under numpy broadcasting. -/
def bdim (a b : Nat) : Option Nat := if a = b then some a else if a = 1 then some b else if b = 1 then some a else none

/-- The index used along an axis of length `a`: the only one if it has length 1. -/
def bidx (a i : Nat) : Nat := if a = 1 then 0 else i

/-- A binary operation on two matrices with numpy broadcasting. -/
def broadcast {α β γ : Type} (f : α → β → γ) (a : EMat α) (b : EMat β) : Except PyErr (EMat γ) :=
  match bdim a.rows b.rows, bdim a.cols b.cols with
  | some r, some c => .ok ⟨r, c, fun i j => f (a.e (bidx a.rows i) (bidx a.cols j)) (b.e (bidx b.rows i) (bidx b.cols j))⟩
  | _, _ => .error .valueError

/-- A vector takes part in broadcasting as one row. -/
def asRow {α : Type} : Arr α → EMat α
  | .vec n e => ⟨1, n, fun _ j => e j⟩
  | .mat r c e => ⟨r, c, e⟩

/-- `np.sum`, Eigen's `sum`. -/
noncomputable def total (m : EMat Fl) : Fl := ∑ i ∈ range m.rows, ∑ j ∈ range m.cols, m.e i j

/-! ## Losses -/

/-- losses.py:36-52 `BinaryCrossentropy.__call__`: two matrix products with the transposed labels. -/
noncomputable def bcePy (p y : Arr ℝ) : Except PyErr Out :=
  let y := asColumn y
  let entry := fun (q : ℕ → ℝ) (i : Nat) =>
    Fl.divNat (Fl.neg ((∑ l ∈ range y.rows, Fl.smul (y.e l i) (Fl.log (q l))) + ∑ l ∈ range y.rows, Fl.smul (1 - y.e l i) (Fl.log (1 - q l)))) y.rows
  match p with
  | .mat r c e => if y.rows = r then .ok (squeeze (.mat y.cols c fun i j => entry (fun l => e l j) i)) else .error .valueError
  | .vec r e => if y.rows = r then .ok (squeeze (.vec y.cols fun i => entry e i)) else .error .valueError

/-- losses.cc:39-51 `BinaryCrossentropy::PyCall`: products entry by entry, then two sums. -/
noncomputable def bceCC (p y : Arr ℝ) : Option Fl :=
  let p := eig p
  let y := eig y
  if p.rows = y.rows ∧ p.cols = y.cols then
    some (Fl.divNat (Fl.neg (total ⟨y.rows, y.cols, fun i j => Fl.smul (y.e i j) (Fl.log (p.e i j))⟩
      + total ⟨y.rows, y.cols, fun i j => Fl.smul (1 - y.e i j) (Fl.log (1 - p.e i j))⟩)) y.rows)
  else none

/-- losses.py:61-77 `CategoricalCrossentropy.__call__`. -/
noncomputable def ccePy (p y : Arr ℝ) : Except PyErr Out :=
  let y := asColumn y
  match broadcast (fun a b => Fl.smul a (Fl.log b)) y (asRow p) with
  | .ok m => .ok (.scalar (Fl.divNat (Fl.neg (total m)) y.rows))
  | .error e => .error e

/-- losses.cc:65-75 `CategoricalCrossentropy::PyCall`. -/
noncomputable def cceCC (p y : Arr ℝ) : Option Fl :=
  let p := eig p
  let y := eig y
  if p.rows = y.rows ∧ p.cols = y.cols then
    some (Fl.divNat (Fl.neg (total ⟨y.rows, y.cols, fun i j => Fl.smul (y.e i j) (Fl.log (p.e i j))⟩)) y.rows)
  else none

/-- losses.py:87-103 `Crossentropy.__call__`: `y_pred.shape[1]` of a vector raises `IndexError`. -/
noncomputable def cePy (p y : Arr ℝ) : Except PyErr Out :=
  match p with
  | .vec _ _ => .error .indexError
  | .mat r c e => if c = 1 then bcePy (.mat r c e) y else ccePy (.mat r c e) y

/-- losses.cc:88-101 `Crossentropy::PyCall`. -/
noncomputable def ceCC (p y : Arr ℝ) : Option Fl := if (eig p).cols = 1 then bceCC p y else cceCC p y

/-- `a.reshape(-1, 1)`: the entries row by row in one column. -/
def column {α : Type} : Arr α → EMat α
  | .vec n e => ⟨n, 1, fun i _ => e i⟩
  | .mat r c e => ⟨r * c, 1, fun i _ => e (i / c) (i % c)⟩

/-- The entry of the log-likelihood: `-y z + log(1 + exp z)`. -/
noncomputable def llTerm (y z : ℝ) : ℝ := -y * z + Real.log (1 + Real.exp z)

/-- losses.py:112-129 `LogLikelihood.__call__`: without a third argument `args[0]` raises `IndexError`. -/
noncomputable def llPy (y beta : Arr ℝ) (args : List (EMat ℝ)) : Except PyErr Fl :=
  match args with
  | [] => .error .indexError
  | x :: _ =>
    let y := column y
    let b := column beta
    if x.cols = b.rows then
      match broadcast llTerm y ⟨x.rows, 1, fun i _ => ∑ l ∈ range x.cols, x.e i l * b.e l 0⟩ with
      | .ok m => .ok (.fin (∑ i ∈ range m.rows, ∑ j ∈ range m.cols, m.e i j))
      | .error e => .error e
    else .error .valueError

/-- losses.cc:114-126 `LogLikelihood::PyCall`. -/
noncomputable def llCC (y beta : Arr ℝ) (args : List (EMat ℝ)) : Except PyErr (Option Fl) :=
  match args with
  | [] => .error .indexError
  | x :: _ =>
    let y := eig y
    let b := eig beta
    if x.cols = b.rows ∧ y.rows = x.rows ∧ y.cols = b.cols then
      .ok (some (.fin (∑ i ∈ range x.rows, ∑ j ∈ range b.cols, llTerm (y.e i j) (∑ l ∈ range x.cols, x.e i l * b.e l j))))
    else .ok none

/-- `y_true.shape[0]`. -/
def firstAxis {α : Type} : Arr α → Nat
  | .vec n _ => n
  | .mat r _ _ => r

/-- losses.py:138-151 `MeanSquaredError.__call__`: numpy broadcasting. -/
noncomputable def msePy (p y : Arr ℝ) : Except PyErr Fl :=
  match broadcast (fun a b => a - b) (asRow p) (asRow y) with
  | .ok m => .ok (Fl.divNat (.fin ((∑ i ∈ range m.rows, ∑ j ∈ range m.cols, m.e i j) ^ 2 / 2)) (firstAxis y))
  | .error e => .error e

/-- losses.cc:139-150 `MeanSquaredError::PyCall`. -/
noncomputable def mseCC (p y : Arr ℝ) : Option Fl :=
  let p := eig p
  let y := eig y
  if p.rows = y.rows ∧ p.cols = y.cols then
    some (Fl.divNat (.fin ((∑ i ∈ range y.rows, ∑ j ∈ range y.cols, (p.e i j - y.e i j)) ^ 2 / 2)) y.rows)
  else none

/-! ## Kernels -/

/-- matrix_op.cc:155-183 `Reshape(matrix, 1, -1)`: Eigen stores column by column. -/
def reshapeRow {α : Type} (m : EMat α) : EMat α := ⟨1, m.rows * m.cols, fun _ k => m.e (k % m.rows) (k / m.rows)⟩

/-- kernels.cc:37-41, 63-67, 90-94, 130-134: a matrix with one column is turned into one row. -/
def rowOf {α : Type} (x : EMat α) : EMat α := if x.cols = 1 then reshapeRow x else x

/-- `np.matmul(x_j, x_i.T)`, then an elementary function; `x_i.T` of a vector is the vector. -/
noncomputable def matmulPy (f : ℝ → ℝ) (xi xj : Arr ℝ) : Except PyErr (Arr ℝ ⊕ ℝ) :=
  match xj, xi with
  | .vec n b, .vec m a => if n = m then .ok (.inr (f (∑ l ∈ range n, b l * a l))) else .error .valueError
  | .mat n d b, .vec m a => if d = m then .ok (.inl (.vec n fun i => f (∑ l ∈ range d, b i l * a l))) else .error .valueError
  | .vec n b, .mat m d a => if n = d then .ok (.inl (.vec m fun i => f (∑ l ∈ range n, b l * a i l))) else .error .valueError
  | .mat n d b, .mat m d' a =>
    if d = d' then .ok (.inl (.mat n m fun i j => f (∑ l ∈ range d, b i l * a j l))) else .error .valueError

/-- The C++ kernels that are functions of the inner product: `x_j * _x_i.transpose()`, an elementary function, one row. -/
noncomputable def matmulCC (f : ℝ → ℝ) (xi xj : Arr ℝ) : Option (EMat ℝ) :=
  let a := rowOf (eig xi)
  let b := eig xj
  if b.cols = a.cols then some (reshapeRow ⟨b.rows, a.rows, fun i j => f (∑ l ∈ range b.cols, b.e i l * a.e j l)⟩) else none

/-- kernels.py:35-47 `Linear.__call__`. -/
noncomputable def linearPy := matmulPy fun t => t
/-- kernels.cc:35-47 `Linear::PyCall`. -/
noncomputable def linearCC := matmulCC fun t => t
/-- kernels.py:67-79 `Polynomial.__call__`. -/
noncomputable def polyPy (gamma : ℝ) (degree : Nat) := matmulPy fun t => gamma * t ^ degree
/-- kernels.cc:61-75 `Polynomial::PyCall`. -/
noncomputable def polyCC (gamma : ℝ) (degree : Nat) := matmulCC fun t => gamma * t ^ degree
/-- kernels.py:139-151 `Sigmoid.__call__`. -/
noncomputable def sigmoidPy (gamma beta theta : ℝ) := matmulPy fun t => gamma * Real.tanh (beta * t + theta)
/-- kernels.cc:128-141 `Sigmoid::PyCall`. -/
noncomputable def sigmoidCC (gamma beta theta : ℝ) := matmulCC fun t => gamma * Real.tanh (beta * t + theta)

/-- kernels.py:96-108 `RBF.__call__`: `np.sum(..., axis=1)` of the difference of two vectors raises `numpy.AxisError`, a `ValueError`. -/
noncomputable def rbfPy (gamma : ℝ) (xi xj : Arr ℝ) : Except PyErr (Arr ℝ) :=
  match broadcast (fun a b => a - b) (asRow xj) (asRow xi) with
  | .error e => .error e
  | .ok m =>
    match xj, xi with
    | .vec _ _, .vec _ _ => .error .valueError
    | _, _ => .ok (.vec m.rows fun i => Real.exp (gamma * -∑ l ∈ range m.cols, m.e i l ^ 2))

/-- matrix_op.cc:42-74 `BroadcastSub`. A difference of matrices of different sizes is an assertion. -/
def bsub (a b : EMat ℝ) : Except PyErr (Option (EMat ℝ)) :=
  if a.rows = b.rows ∧ a.cols = b.cols then .ok (some ⟨a.rows, a.cols, fun i j => a.e i j - b.e i j⟩)
  else if a.rows ≠ 1 ∧ b.rows ≠ 1 then .error .valueError
  else if a.cols ≠ b.cols then .error .valueError
  else if b.rows < a.rows then
    (if b.rows = 1 then .ok (some ⟨a.rows, a.cols, fun i j => a.e i j - b.e 0 j⟩) else .ok none)
  else
    (if a.rows = 1 then .ok (some ⟨b.rows, b.cols, fun i j => -(b.e i j - a.e 0 j)⟩) else .ok none)

/-- kernels.cc:88-101 `RBF::PyCall`. -/
noncomputable def rbfCC (gamma : ℝ) (xi xj : Arr ℝ) : Except PyErr (Option (EMat ℝ)) :=
  match bsub (eig xj) (rowOf (eig xi)) with
  | .error e => .error e
  | .ok none => .ok none
  | .ok (some m) => .ok (some (reshapeRow ⟨m.rows, 1, fun i _ => Real.exp (gamma * -∑ l ∈ range m.cols, m.e i l ^ 2)⟩))

/-! ## Activations -/

/-- activations.py:44-54 `Relu.__call__` keeps the shape. -/
noncomputable def reluPy : Arr ℝ → Arr ℝ
  | .vec n e => .vec n fun i => max 0 (e i)
  | .mat r c e => .mat r c fun i j => max 0 (e i j)

/-- activations.cc:44-58 `Relu::PyCall`. -/
noncomputable def reluCC (z : Arr ℝ) : EMat ℝ := ⟨(eig z).rows, (eig z).cols, fun i j => if 0 ≥ (eig z).e i j then 0 else (eig z).e i j⟩

/-- activations.py:80-90 `Sigmoid.__call__` keeps the shape. -/
noncomputable def sigPy : Arr ℝ → Arr ℝ
  | .vec n e => .vec n fun i => 1 / (1 + Real.exp (-e i))
  | .mat r c e => .mat r c fun i j => 1 / (1 + Real.exp (-e i j))

/-- activations.cc:90-95 `Sigmoid::PyCall`. -/
noncomputable def sigCC (z : Arr ℝ) : EMat ℝ := ⟨(eig z).rows, (eig z).cols, fun i j => 1 / (1 + Real.exp (-(eig z).e i j))⟩

/-- `np.max`, Eigen's `maxCoeff`, of a matrix with at least one entry. -/
noncomputable def maxOf (m : EMat ℝ) : ℝ :=
  if h : (range m.rows ×ˢ range m.cols).Nonempty then (range m.rows ×ˢ range m.cols).sup' h fun p => m.e p.1 p.2 else 0

/-- `np.exp(z) / np.sum(np.exp(z), axis=1, keepdims=True)` after the subtraction of `M`. -/
noncomputable def softmaxBy (M : ℝ) (m : EMat ℝ) : EMat ℝ :=
  ⟨m.rows, m.cols, fun i j => Real.exp (m.e i j - M) / ∑ l ∈ range m.cols, Real.exp (m.e i l - M)⟩

/-- activations.py:122-134 `Softmax.__call__`: `np.max` of an array without entries and `axis=1` of a vector raise `ValueError`. -/
noncomputable def softPy (z : Arr ℝ) : Except PyErr (EMat ℝ) :=
  match z with
  | .vec _ _ => .error .valueError
  | .mat r c e => if r = 0 ∨ c = 0 then .error .valueError else .ok (softmaxBy (maxOf ⟨r, c, e⟩) ⟨r, c, e⟩)

/-- activations.cc:121-138 `Softmax::PyCall`: `maxCoeff` of a matrix without entries is an assertion. -/
noncomputable def softCC (z : Arr ℝ) : Option (EMat ℝ) :=
  let m := eig z
  if m.rows = 0 ∨ m.cols = 0 then none else some (softmaxBy (maxOf m) m)

/-- activations.py:92-113 `Sigmoid.diff` on matrices, with numpy broadcasting; without a third argument `args[0]` raises `IndexError`. -/
noncomputable def sigDiffPy (output a : EMat ℝ) (args : List (Arr ℝ)) : Except PyErr (EMat ℝ) :=
  match args with
  | [] => .error .indexError
  | y :: _ =>
    match broadcast (fun s t => s - t) (asRow y) output with
    | .error e => .error e
    | .ok err => broadcast (fun s t => s * (1 - s) * t) a err

/-- activations.cc:99-109 `Sigmoid::Diff`. -/
noncomputable def sigDiffCC (output a : EMat ℝ) (args : List (Arr ℝ)) : Except PyErr (Option (EMat ℝ)) :=
  match args with
  | [] => .error .indexError
  | y :: _ =>
    let y := eig y
    if y.rows = output.rows ∧ y.cols = output.cols ∧ a.rows = output.rows ∧ a.cols = output.cols then
      .ok (some ⟨a.rows, a.cols, fun i j => a.e i j * (1 - a.e i j) * (y.e i j - output.e i j)⟩)
    else .ok none

/-- activations.py:56-71 `Relu.diff` on matrices: a boolean index of another shape raises `IndexError`. -/
noncomputable def reluDiffPy (output a : EMat ℝ) : Except PyErr (EMat ℝ) :=
  if a.rows = output.rows ∧ a.cols = output.cols then .ok ⟨output.rows, output.cols, fun i j => if a.e i j ≤ 0 then 0 else output.e i j⟩
  else .error .indexError

/-- activations.cc:61-76 `Relu::Diff`: the loop runs over `a` and writes into a copy of `output`. -/
noncomputable def reluDiffCC (output a : EMat ℝ) : Option (EMat ℝ) :=
  if ∀ i < a.rows, ∀ j < a.cols, a.e i j ≤ 0 → i < output.rows ∧ j < output.cols then
    some ⟨output.rows, output.cols, fun i j => if i < a.rows ∧ j < a.cols ∧ a.e i j ≤ 0 then 0 else output.e i j⟩
  else none

/-! ## Precision -/

/-- The element types of numpy arrays that occur. -/
inductive DT
  | f32 | f64 | i32 | i64
  deriving DecidableEq, Repr

/-- The overload chosen by pybind11 for functions registered first for `float32` and then for `float64` matrices (losses_wrapper.cc:57-60,
metrics_wrapper.cc:88-106, kernels_wrapper.cc:57-58, activations_wrapper.cc:59-66): the first round accepts only arguments that need no conversion, the
second takes the first overload. -/
def overload (args : List DT) : DT :=
  if args.all (· = .f32) then .f32 else if args.all (· = .f64) then .f64 else .f32

/-- framework/dtypes.py:30-47 `set_precision`: the element types of features and labels for a value of the environment variable
`CLASSICML_PRECISION`, and whether a warning is logged. -/
def setPrecision (env : String) : DT × DT × Bool :=
  if env = "32-bit" then (.f32, .i32, false) else if env = "64-bit" then (.f64, .i64, false) else (.f32, .i32, true)

/-- The environment variable after classicML/__init__.py:10 `os.environ.setdefault('CLASSICML_PRECISION', '32-bit')`. -/
def environ (set : Option String) : String := set.getD "32-bit"

end CML.Eng
