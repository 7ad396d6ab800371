import Verif.Model.KMeans
import Verif.Model.GMM
import Verif.Model.SMO
import Verif.Model.Hull

/-!
# Model of the C++ engine (classicML/backend/cc/ops/ops.cc, classicML/backend/cc/matrix_op.cc)

`none` is undefined behaviour: an Eigen assertion, or, with assertions disabled, an access outside of the array.
Arithmetic is exact. Eigen's `minCoeff(&index)` is modelled as in Eigen 3.3: the first entry is taken as best so far and replaced
by every later entry that compares smaller (comparisons with NaN are false).
-/

namespace CML.CC

/-! ## BootstrapSampling -/

/-- `abs` on `int32`: the smallest number has no absolute value and stays as it is. -/
def abs32 (v : Int) : Int := if v = -2 ^ 31 then -2 ^ 31 else |v|

/-- ops.cc:32, 51, 435: `abs(element) % num_of_samples` (`%` truncates towards zero). -/
def drawnIndex (n : Nat) (v : Int) : Int := (abs32 v).tmod n

/-- `x(indices, Eigen::all)`: a negative index or one beyond the last row is an access outside of the matrix. -/
def rowsAt {α : Type*} (x : List α) (indices : List Int) : Option (List α) :=
  indices.mapM fun i => if i < 0 then none else x[i.toNat]?

/-- ops.cc:18-38 `BootstrapSampling1`: `draw` are the `x.rows()` numbers given by `row_vector32i::Random`. -/
def bootstrapPair {α β : Type*} (draw : List Int) (x : List α) (y : List β) : Except PyErr (Option (List α × List β)) :=
  if x.length ≠ y.length then .error .valueError
  else
    let indices := draw.map (drawnIndex x.length)
    .ok (match rowsAt x indices, rowsAt y indices with
      | some a, some b => some (a, b)
      | _, _ => none)

/-- ops.cc:43-57 `BootstrapSampling2`. -/
def bootstrapOne {α : Type*} (draw : List Int) (x : List α) : Option (List α) := rowsAt x (draw.map (drawnIndex x.length))

/-! ## Clustering -/

variable {K : Type*} [Field K] [LinearOrder K] {n k d : Nat}

/-- The body of the inner loop of ops.cc:158-163 for one row: the running sum and the number of rows of the cluster. -/
def addMember (c : Nat) (acc : (Fin d → K) × Nat) (p : (Fin d → K) × Nat) : (Fin d → K) × Nat :=
  if p.2 = c then (fun l => acc.1 l + p.1 l, acc.2 + 1) else acc

/-- ops.cc:152-164: sum and count of one cluster, and the division; 0/0 is NaN. -/
def clusterMean (x : List (Fin d → K)) (clusters : List Nat) (c : Nat) : Option (Fin d → K) :=
  let r := (x.zip clusters).foldl (addMember c) (fun _ => 0, 0)
  if r.2 = 0 then none else some fun l => r.1 l / (r.2 : K)

/-- ops.cc:147-170 `CalculateCentroids`. -/
def calculateCentroids (x : List (Fin d → K)) (clusters : List Nat) : List (Option (Fin d → K)) :=
  (List.range (Ops.numUnique clusters)).map fun c => clusterMean x clusters c

/-- `value < res` on numbers that may be NaN. -/
def ltNaN : Option K → Option K → Bool
  | some a, some b => decide (a < b)
  | _, _ => false

/-- The loop of `minCoeff`. -/
def minCoeffAux (bi : Nat) (bv : Option K) (i : Nat) : List (Option K) → Nat
  | [] => bi
  | v :: vs => if ltNaN v bv then minCoeffAux i v (i + 1) vs else minCoeffAux bi bv (i + 1) vs

/-- matrix_op.cc:29-40 `ArgMin` for one row (`minCoeff` of an empty row is an assertion). -/
def argMin : List (Option K) → Option Nat
  | [] => none
  | v :: vs => some (minCoeffAux 0 v 1 vs)

/-- ops.cc:214-228 `CalculateEuclideanDistance` and ops.cc:300-305 `GetCluster`, for all samples. -/
def getCluster (root : K → K) (x : List (Fin d → K)) (centroids : List (Option (Fin d → K))) : Option (List Nat) :=
  x.mapM fun u => argMin (centroids.map fun c => c.map fun v => root (∑ l, (u l - v l) ^ 2))

/-- ops.cc:266-273 `CompareDifferences1`: `rowwise().maxCoeff() > tol`, for one row; a NaN row gives `false`. At least one feature. -/
def rowDiffers (tol : K) : Option (Fin (d + 1) → K) → Option (Fin (d + 1) → K) → Bool
  | some a, some b => decide (tol < Finset.univ.sup' Finset.univ_nonempty fun l => |a l - b l|)
  | _, _ => false

/-- ops.cc:266-273 `CompareDifferences1`; Eigen does not broadcast: matrices of different sizes are an assertion. -/
def compareDifferences (tol : K) (x0 x1 : List (Option (Fin (d + 1) → K))) : Option (List Bool) :=
  if x0.length = x1.length then some (List.zipWith (rowDiffers tol) x0 x1) else none

/-- k_means.py:87-99 with the functions of the C++ engine. -/
def fitLoop (root : K → K) (x : List (Fin (d + 1) → K)) (tol : K) :
    Nat → List (Option (Fin (d + 1) → K)) → Option (List Nat) → Option (KMeans.Fitted K (d + 1))
  | 0, cs, lab => some { centroids := cs, clusters := lab, stopped := false }
  | e + 1, cs, _ =>
    match getCluster root x cs with
    | none => none
    | some lab =>
      match compareDifferences tol cs (calculateCentroids x lab) with
      | none => none
      | some diff =>
        if diff.any id then fitLoop root x tol e (calculateCentroids x lab) (some lab)
        else some { centroids := cs, clusters := some lab, stopped := true }

/-- k_means.py:67-101 `fit` with the C++ engine, from given initial centroids. -/
def fit (root : K → K) (x : List (Fin (d + 1) → K)) (tol : K) (epochs : Nat) (init : List (Fin (d + 1) → K)) :
    Option (KMeans.Fitted K (d + 1)) :=
  fitLoop root x tol epochs (init.map some) none

/-- The entries of a matrix in the order in which Eigen stores them: column by column (`Reshape(init, 1, -1)`,
matrix_op.cc:155-183). All rows have `cols` entries. -/
def colMajor (cols : Nat) (rows : List (List K)) : List K :=
  (List.range cols).flatMap fun j => rows.filterMap fun r => r[j]?

/-- ops.cc:446-471 `InitCentroids2`; the argument has arrived as a matrix (a vector is a matrix with one column).
`(int32)element` truncates, the entries being non-negative there. -/
def initFromMatrix [FloorSemiring K] (x : List (List K)) (nFeatures nClusters cols : Nat) (rows : List (List K)) :
    Except PyErr (Option (List (List K))) :=
  if rows.length = nClusters ∧ cols = nFeatures then .ok (some rows)
  else if rows.length * cols = nClusters then
    let l := colMajor cols rows
    if l = [] then .ok none
    else if l.any (fun v => decide ((x.length : K) ≤ v)) ∨ l.any (fun v => decide (v < 0)) then .error .valueError
    else .ok (Ops.fancy x (l.map fun v => ⌊v⌋₊))
  else .error .valueError

/-- ops.cc:423-444, 447-470 `InitCentroids1`, `InitCentroids2` and their dispatch: a string that is not 'random' raises `TypeError`; a vector
arrives as a matrix with one column, a number as a 1x1 matrix is not accepted by the converter (`TypeError`), nor is a tensor. -/
def initCentroids [FloorSemiring K] (x : List (List K)) (nFeatures nClusters : Nat) (init : KMeans.Init K) (draw : List Int) :
    Except PyErr (Option (List (List K))) :=
  match init with
  | .random => .ok (rowsAt x (draw.map (drawnIndex x.length)))
  | .other => .error .typeError
  | .scalar => .error .typeError
  | .tensor => .error .typeError
  | .vec _ l => initFromMatrix x nFeatures nClusters 1 (l.map fun v => [v])
  | .mat _ rows => initFromMatrix x nFeatures nClusters (match rows with | [] => 0 | r :: _ => r.length) rows

/-! ## Gaussian mixture and support vector machine -/

/-- ops.cc:230-250 `CalculateMeans`: the loops over the samples. -/
def calculateMeans (x : Fin n → Fin d → K) (g : Fin n → Fin k → K) : Fin k → Fin d → K :=
  fun i l => ((List.finRange n).foldl (fun acc j => acc + g j i * x j l) 0) / ((List.finRange n).map fun j => g j i).sum

/-- ops.cc:172-212 `CalculateError` with matrix_op.cc:114-137 `GetNonZeroSubMatrix`: the marks `mark` are floating point numbers; the rows
with mark 1 are selected, but the test is whether any mark differs from 0. `gram k i` is the kernel of rows `k` and `i`. -/
def calculateError (y alphas mark : Fin n → K) (gram : Fin n → Fin n → K) (b : K) (i : Fin n) : K :=
  let fx := if ∃ j, mark j ≠ 0 then
      (((List.finRange n).filter fun j => mark j = 1).map fun j => alphas j * y j * gram j i).sum + b
    else b
  fx - y i

/-! ## Matrix operations -/

/-- A matrix as a list of rows with a number of columns. -/
structure Mat (K : Type*) where
  cols : Nat
  rows : List (List K)

/-- Entrywise difference of two rows. -/
def subRow (a b : List K) : List K := List.zipWith (· - ·) a b

/-- matrix_op.cc:42-74 `BroadcastSub`.  When one matrix has one row and the other none, the loop subtracts an empty matrix from the row. -/
def broadcastSub (a b : Mat K) : Except PyErr (Option (Mat K)) :=
  if a.rows.length = b.rows.length ∧ a.cols = b.cols then .ok (some ⟨a.cols, List.zipWith subRow a.rows b.rows⟩)
  else if a.rows.length ≠ 1 ∧ b.rows.length ≠ 1 then .error .valueError
  else if a.cols ≠ b.cols then .error .valueError
  else if b.rows.length < a.rows.length then
    match b.rows with
    | [r0] => .ok (some ⟨a.cols, a.rows.map fun r => subRow r r0⟩)
    | _ => .ok none
  else
    match a.rows with
    | [r0] => .ok (some ⟨b.cols, b.rows.map fun r => (subRow r r0).map fun v => -v⟩)
    | _ => .ok none

end CML.CC
