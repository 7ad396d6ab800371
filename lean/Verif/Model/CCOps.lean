import Verif.Model.CC
import Verif.Model.LDA
import Verif.Model.Bayes

/-!
# Model of the C++ engine, second part (classicML/backend/cc/ops/ops.cc)

`none` is undefined behaviour (an Eigen assertion, or an access outside of the array, or a variable that was never assigned).
Arithmetic is exact, except where a rounding function is a parameter.
-/

namespace CML.CC
open Matrix

variable {K : Type*} [Field K] [LinearOrder K] {d : Nat}

/-! ## Linear discriminant analysis -/

/-- The rows as an Eigen matrix. -/
def toMat (X : List (Fin d → K)) : Mat K := ⟨d, X.map List.ofFn⟩

/-- ops.cc:415, 416: `BroadcastSub(X, mu).transpose() * BroadcastSub(X, mu)`. -/
def classScatter (X mu : Mat K) : Except PyErr (Option (Nat → Nat → K)) :=
  match broadcastSub X mu with
  | .error e => .error e
  | .ok none => .ok none
  | .ok (some D) => .ok (some fun a b => (D.rows.map fun r => r.getD a 0 * r.getD b 0).sum)

/-- ops.cc:408-421 `GetWithinClassScatterMatrix`. -/
def scatter (X0 X1 mu0 mu1 : Mat K) : Except PyErr (Option (Nat → Nat → K)) :=
  match classScatter X0 mu0, classScatter X1 mu1 with
  | .error e, _ => .error e
  | _, .error e => .error e
  | .ok (some a), .ok (some b) => .ok (some fun i j => a i j + b i j)
  | _, _ => .ok none

/-- linear_discriminant_analysis.py:31-57 `fit` with the functions of the C++ engine (`get_w` is ops.cc:391-406 `GetW_V2`, the model of which is
`LDA.getWCC`). The mean of an empty class is NaN; what it is replaced by here does not matter, since subtracting it is undefined. -/
def fitLDA (svd : Matrix (Fin d) (Fin d) K → LDA.SVD K d) (x : List (Fin d → K)) (y : List Int) :
    Except PyErr (Option (LDA.Trained K d)) :=
  if x.length ≠ y.length then .error .indexError
  else
    let X0 := LDA.rowsOf x y 0
    let X1 := LDA.rowsOf x y 1
    let mu0 := LDA.colMean X0
    let mu1 := LDA.colMean X1
    match scatter (toMat X0) (toMat X1) (toMat [mu0.getD 0]) (toMat [mu1.getD 0]) with
    | .error e => .error e
    | .ok none => .ok none
    | .ok (some S) =>
      .ok (some { w := some (LDA.getWCC svd (fun a b => S a b) (mu0.getD 0) (mu1.getD 0)), mu0 := mu0, mu1 := mu1 })

/-! ## Estimates of the Bayes classifiers -/

/-- ops.cc:308-319 `GetConditionalProbability`: the counts are `uint32` (or `uint64`): sums are taken modulo `2 ^ bits`, but the number of samples
with the value is converted before 1 is added. A division by zero is inf or NaN: `none`. -/
noncomputable def condProb (bits a c num : Nat) (smoothing : Bool) : Option ℝ :=
  if smoothing then
    let den := (c + num) % 2 ^ bits
    if den = 0 then none else some (Bayes.ratio (a + 1) den)
  else if c = 0 then none else some (Bayes.ratio a c)

/-- ops.cc:322-333 `GetDependentPriorProbability`: here both sums are taken in the type of the counts. -/
noncomputable def depPrior (bits a n values : Nat) (smoothing : Bool) : Option ℝ :=
  if smoothing then
    let num := (a + 1) % 2 ^ bits
    let den := (n + 2 * values) % 2 ^ bits
    if den = 0 then none else some (Bayes.ratio num den)
  else if n = 0 then none else some (Bayes.ratio a n)

open Classical in
/-- ops.cc:358-375 `GetProbabilityDensity`: `fl` is the rounding of the float or of the double branch. -/
noncomputable def density (fl : ℝ → ℝ) (sample mean var : ℝ) : Option ℝ :=
  if var = 0 then none
  else
    let p := fl (1 / (√(2 * Real.pi) * var) * Real.exp (-((sample - mean) ^ 2 / (2 * var ^ 2))))
    if p = 0 then some (1 / 10 ^ 36) else some p

/-! ## CompareDifferences2 -/

/-- ops.cc:287-292: the innermost loop, left at the first element above the threshold. -/
def anyAbove (tol : K) : List K → List K → Bool
  | a :: as, b :: bs => if |a - b| > tol then true else anyAbove tol as bs
  | _, _ => false

/-- ops.cc:275-298 `CompareDifferences2` on two tensors of equal shape. -/
def compareTensors (tol : K) (x0 x1 : List (List (List K))) : List (List Bool) :=
  List.zipWith (fun m0 m1 => List.zipWith (anyAbove tol) m0 m1) x0 x1

/-! ## TypeOfTarget_V2 -/

/-- The dtype kinds that `TypeOfTarget_V2` distinguishes (ops.cc:576-590): `object`, `'f'`, `'i'`, `'U'` and the others (bool, unsigned, bytes,
dates). -/
inductive Kind
  | object | float | int | str | other
  deriving DecidableEq

/-- An array: numbers, or strings given by their code points. -/
inductive Data
  | num (l : List ℚ)
  | str (l : List (List Nat))

/-- matrix_op.cc:12-25 `AnyDiscreteInteger`: the numbers are rounded to `float32` by `rnd`, then truncated to `int32`; the conversion of a number
outside of the range of `int32` is undefined. The loop ends at the first number that is not an integer. -/
def anyDiscreteInteger (rnd : ℚ → ℚ) : List ℚ → Option Bool
  | [] => some true
  | v :: vs =>
    if rnd v ≤ -2 ^ 31 - 1 ∨ 2 ^ 31 ≤ rnd v then none
    else if (rnd v).den ≠ 1 then some false
    else anyDiscreteInteger rnd vs

/-- matrix_op.cc:200-213: the key under which a string enters the set: the first byte of its (little-endian) UCS-4 code; an empty string
is all zeros. -/
def strKey : List Nat → Nat
  | [] => 0
  | c :: _ => c % 256

/-- ops.cc:585-590 and matrix_op.cc:189-217 `Unique`: the number of distinct values; for the other kinds the variable stays unassigned. -/
def numUnique (rnd : ℚ → ℚ) : Kind → Data → Option Nat
  | .float, .num l => some (Ops.numUnique (l.map rnd))
  | .int, .num l => some (Ops.numUnique (l.map rnd))
  | .str, .str l => some (Ops.numUnique (l.map strKey))
  | _, _ => none

/-- ops.cc:592-605: the answer from the number of distinct values; `request().shape[1]` of an array without axes is outside of the array. -/
def answer (shape : List Nat) (u : Nat) : Option Ops.TargetType :=
  let tail : Ops.TargetType := if shape.length = 2 ∧ u ≥ 2 then .multilabel else .unknown
  let column : Ops.TargetType := if u = 2 then .binary else if u > 2 then .multiclass else tail
  if shape.length = 1 then some column
  else match shape[1]? with
    | none => none
    | some c => some (if c = 1 then column else tail)

/-- ops.cc:580: the test is made for floating point arrays only. -/
def discrete (rnd : ℚ → ℚ) : Kind → Data → Option Bool
  | .float, .num l => anyDiscreteInteger rnd l
  | _, _ => some true

/-- ops.cc:575-606 `TypeOfTarget_V2`. -/
def typeOfTarget (rnd : ℚ → ℚ) (kind : Kind) (shape : List Nat) (data : Data) : Option Ops.TargetType :=
  if kind = .object ∨ shape.length > 2 then some .unknown
  else
    match discrete rnd kind data with
    | none => none
    | some false => some .continuous
    | some true =>
      match numUnique rnd kind data with
      | none => none
      | some u => answer shape u

/-! ## ConvexHull -/

/-- ops.cc:132-137 `GetSlope`: `big` is the largest `float32`. -/
def slope (big : K) (p0 p1 : K × K) : K := if p0.1 = p1.1 then big else (p1.2 - p0.2) / (p1.1 - p0.1)

/-- What `std::sort` (ops.cc:80-84, not stable) may make of the points after the first. -/
def IsSlopeSort (big : K) (start : K × K) (pts order : List (K × K)) : Prop :=
  order.Perm pts ∧ order.Pairwise fun p q => slope big start p ≤ slope big start q

/-- ops.cc:65-110 `ComputeConvexHull`, from the result `start :: pts` of `MatrixSorting` (ops.cc:113-129) and the result `order` of the second sort.
Without points `row(0)` is outside of the matrix. `GetCrossProduct` (ops.cc:140-142) and the loop are those of the Python version. -/
def computeHull (sorted order : List (K × K)) : Option (List (K × K)) :=
  match sorted with
  | [] => none
  | start :: _ =>
    let hull := (Hull.scan start order).reverse
    some (hull ++ hull.take 1)

end CML.CC
