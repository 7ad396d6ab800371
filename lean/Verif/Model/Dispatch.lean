import Verif.Prelude
import Verif.Model.Ops

/-!
# Which C++ overload a call of the `CC` engine runs

With `CLASSICML_ENGINE=CC` the functions of `classicML.backend` are pybind11 bindings
(classicML/backend/__init__.py:7-93), most of them with several overloads: one in single
precision, one in double precision, and sometimes one for plain Python numbers.  Which of them
runs is decided from the dynamic types of the arguments.

Modelled: the conversion rule of every kind of formal parameter that the bindings use
(pybind11 2.9-2.11, the versions named at classicML/backend/cc/numpy_patch.h:4; the rule for
NumPy scalars is the one in numpy_patch.h:295-323), the two passes of pybind11's dispatcher, the
overload tables of the wrappers, and the argument types at the call sites of the trainers.

Not modelled: what the chosen overload computes (see `Model/CC`, `Model/CCOps`, `Model/Init`,
`Model/Engines`), keyword passing of arguments, pandas objects and text/object arrays given
directly to a binding, non-finite NumPy scalars given as counts, `bytes`.
-/

namespace CML.Disp

/-- NumPy element types (classicML/backend/cc/dtypes.h:19-35, classicML/framework/dtypes.py:10-27).
The classes of `framework/dtypes.py` are subclasses of the NumPy ones and pass `isinstance`. -/
inductive DT
  | bool | i32 | i64 | u32 | u64 | f32 | f64
  deriving DecidableEq, Repr

/-- The precision of an overload (classicML/backend/cc/dtypes.h:19-20). -/
inductive Width
  | single | double
  deriving DecidableEq, Repr

/-- The dynamic type of a Python argument, with the value where the dispatcher looks at it.
`npScalar dt z`: NumPy scalar with integral part `z`;  `array dt shape z`: `ndarray`, `z` the
integral part of its element when there is exactly one;  `list n rest`: rectangular nested list of
numbers of shape `n :: rest`;  `other`: an object that is neither a number nor array-like
(a kernel, say).  Simplification: see the header. -/
inductive Arg
  | npScalar (dt : DT) (z : Int)
  | pyFloat
  | pyInt (z : Int)
  | pyBool
  | none
  | str
  | array (dt : DT) (shape : List Nat) (z : Int)
  | list (n : Nat) (rest : List Nat)
  | other
  deriving DecidableEq, Repr

/-- The kinds of formal parameters in the bindings (classicML/backend/cc/dtypes.h:19-57). -/
inductive Formal
  /-- `np_float32`, `np_int64`, ... (dtypes.h:29-35) -/
  | np (dt : DT)
  /-- `float32`, `float64` as a plain C++ number -/
  | float
  /-- `uint32` -/
  | uint32
  /-- `uint64` -/
  | uint64
  /-- `int32` -/
  | int32
  /-- `matrix32`, `matrix64`, `matrix32i`, `matrix64i` (dtypes.h:38-41) -/
  | mat (dt : DT)
  /-- `vector32`, `vector64` (dtypes.h:43-44) -/
  | vec (dt : DT)
  /-- `row_vector32f`, ..., `row_vector64i` (dtypes.h:47-50) -/
  | row (dt : DT)
  /-- `tensor32`, `tensor64` (dtypes.h:56-57) -/
  | tensor (dt : DT)
  /-- `bool` -/
  | boolean
  /-- `std::string` -/
  | string
  /-- `pybind11::object` -/
  | object
  /-- `std::optional<uint32>` -/
  | optUint32
  deriving DecidableEq, Repr

/-- Number of elements of an array. -/
def size (shape : List Nat) : Nat := shape.prod

/-- The shapes an Eigen matrix, column vector or row vector takes (pybind11/eigen.h,
`EigenProps::conformable`): one or two axes, and for vectors the fixed axis of length 1. -/
def shapeFits (fixedRows fixedCols : Bool) : List Nat → Bool
  | [_] => true
  | [r, c] => (!fixedRows || r == 1) && (!fixedCols || c == 1)
  | _ => false

/-- The Eigen caster: without conversion only an `ndarray` of exactly the element type, with
conversion anything numeric with one or two axes. -/
def eigen (convert : Bool) (dt : DT) (fixedRows fixedCols : Bool) : Arg → Bool
  | .array dt' shape _ => (convert || dt == dt') && shapeFits fixedRows fixedCols shape
  | .list n rest => convert && shapeFits fixedRows fixedCols (n :: rest)
  | _ => false

/-- Does a C++ integer type with values from `-lo` up to, not including, `hi` contain the value?
(`Int.negSucc n` is `-(n + 1)`.) -/
def inRange (lo hi : Nat) : Int → Bool
  | .ofNat n => decide (n < hi)
  | .negSucc n => decide (n < lo)

def DT.isFloat : DT → Bool
  | .f32 => true
  | .f64 => true
  | _ => false

/-- The caster of C++ integers (pybind11/cast.h, `type_caster<T>::load`).  `index`: does reading a
number honour `__index__` without conversion?  (`PyLong_AsLong` does; `PyLong_AsUnsignedLong`
does only through pybind11's own `PyNumber_Index`, compiled in for Python 3.7.)  Python floats,
among them `np.float64`, are always refused. -/
def integer (index convert : Bool) (lo hi : Nat) : Arg → Bool
  | .pyInt z => inRange lo hi z
  | .pyBool => true
  | .npScalar .f64 _ => false
  | .npScalar .f32 z => convert && inRange lo hi z
  | .npScalar _ z => (convert || index) && inRange lo hi z
  | .array dt shape z =>
      (convert && size shape == 1 && inRange lo hi z) ||
        (index && shape.isEmpty && !dt.isFloat && dt != .bool && inRange lo hi z)
  | _ => false

/-- The caster of C++ floating point numbers: without conversion a Python `float` (`np.float64` is
a subclass), with conversion any number or one-element array. -/
def floating (convert : Bool) : Arg → Bool
  | .pyFloat => true
  | .npScalar .f64 _ => true
  | .npScalar _ _ => convert
  | .pyInt _ => convert
  | .pyBool => convert
  | .array _ shape _ => convert && size shape == 1
  | _ => false

/-- The caster of `bool`: without conversion `True`, `False` or `np.bool_`; with conversion also
`None` and everything with a truth value in the number protocol. -/
def boolean (convert : Bool) : Arg → Bool
  | .pyBool => true
  | .npScalar .bool _ => true
  | .npScalar _ _ => convert
  | .none => convert
  | .pyInt _ => convert
  | .pyFloat => convert
  | .array _ shape _ => convert && decide (size shape ≤ 1)
  | _ => false

/-- The caster of `pybind11::array_t`: without conversion an `ndarray` of exactly the element type;
with conversion whatever NumPy turns into such an array. -/
def tensor (convert : Bool) (dt : DT) : Arg → Bool
  | .array dt' _ _ => convert || dt == dt'
  | .str => false
  | .other => false
  | _ => convert

/-- Does the formal parameter take the argument?  `idx`: Python 3.7 (see `integer`). -/
def accepts (idx convert : Bool) : Formal → Arg → Bool
  -- classicML/backend/cc/numpy_patch.h:312-318 (no conversion ever)
  | .np dt, .npScalar dt' _ => dt == dt'
  | .np _, _ => false
  | .float, a => floating convert a
  -- 2³², 2⁶⁴, 2³¹
  | .uint32, a => integer idx convert 0 4294967296 a
  | .uint64, a => integer idx convert 0 18446744073709551616 a
  | .int32, a => integer true convert 2147483648 2147483648 a
  | .mat dt, a => eigen convert dt false false a
  | .vec dt, a => eigen convert dt false true a
  | .row dt, a => eigen convert dt true false a
  | .tensor dt, a => tensor convert dt a
  | .boolean, a => boolean convert a
  | .string, .str => true
  | .string, _ => false
  | .object, _ => true
  | .optUint32, .none => true
  | .optUint32, a => integer idx convert 0 4294967296 a

/-- One bound overload.  `variadic`: it ends in `pybind11::args`, which take anything;
`labels`: `bootstrap_sampling` hands back the labels too. -/
structure Overload where
  formals : List Formal
  variadic : Bool := false
  width : Width
  labels : Bool := true
  deriving DecidableEq, Repr

/-- All arguments of the call fit. -/
def fits (idx convert variadic : Bool) : List Formal → List Arg → Bool
  | [], [] => true
  | [], _ :: _ => variadic
  | _ :: _, [] => false
  | f :: fs, a :: as => accepts idx convert f a && fits idx convert variadic fs as

def Overload.takes (idx convert : Bool) (args : List Arg) (o : Overload) : Bool :=
  fits idx convert o.variadic o.formals args

/-- pybind11's dispatcher (pybind11/pybind11.h, `cpp_function::dispatcher`): the first overload, in
order of binding, that takes the arguments as they are; failing that, the first that takes them
after conversion; failing that, `TypeError`.  (For a function with a single overload pybind11 goes
straight to the second pass; `accepts_mono` shows that this is the same.) -/
def dispatch (idx : Bool) (table : List Overload) (args : List Arg) : Except PyErr Overload :=
  match table.find? (Overload.takes idx false args) with
  | some o => .ok o
  | none =>
      match table.find? (Overload.takes idx true args) with
      | some o => .ok o
      | none => .error .typeError

/-! ## The overload tables -/

/-- Two overloads on matrices, the pattern of most bindings. -/
def matrices (n : Nat) : List Overload :=
  [⟨List.replicate n (.mat .f32), false, .single, true⟩,
   ⟨List.replicate n (.mat .f64), false, .double, true⟩]

/-- classicML/backend/cc/ops/ops_wrapper.cc:17-105. -/
def bootstrapSampling : List Overload :=
  [⟨[.mat .f32, .mat .f32, .optUint32], false, .single, true⟩,
   ⟨[.mat .f64, .mat .f64, .optUint32], false, .double, true⟩,
   ⟨[.mat .f32, .mat .i32, .optUint32], false, .single, true⟩,
   ⟨[.mat .f64, .mat .i64, .optUint32], false, .double, true⟩,
   ⟨[.mat .f32, .object, .optUint32], false, .single, false⟩,
   ⟨[.mat .f64, .object, .optUint32], false, .double, false⟩]

/-- classicML/backend/cc/ops/ops_wrapper.cc:118 (`ConvexHull`). -/
def convexHull : List Overload := [⟨[.mat .f32], false, .single, true⟩]

/-- classicML/backend/cc/ops/ops_wrapper.cc:132-148, ops.h:51. -/
def calculateCentroids : List Overload :=
  [⟨[.mat .f32, .row .i32], false, .single, true⟩,
   ⟨[.mat .f64, .row .i32], false, .double, true⟩]

/-- classicML/backend/cc/ops/ops_wrapper.cc:152-192, ops.h:54-60. -/
def calculateError : List Overload :=
  [⟨[.mat .f32, .vec .f32, .uint32, .object, .vec .f32, .vec .f32, .mat .f32], false, .single, true⟩,
   ⟨[.mat .f64, .vec .f64, .uint32, .object, .vec .f64, .vec .f64, .mat .f64], false, .double, true⟩]

/-- classicML/backend/cc/ops/ops_wrapper.cc:196-211. -/
def calculateEuclideanDistance : List Overload := matrices 2

/-- classicML/backend/cc/ops/ops_wrapper.cc:214-230. -/
def calculateMeans : List Overload := matrices 2

/-- Three numbers: NumPy single, NumPy double, plain C++ `float`.
classicML/backend/cc/ops/ops_wrapper.cc:234-266 (`clip_alpha`), 469-500
(`get_probability_density`). -/
def threeFloats : List Overload :=
  [⟨[.np .f32, .np .f32, .np .f32], false, .single, true⟩,
   ⟨[.np .f64, .np .f64, .np .f64], false, .double, true⟩,
   ⟨[.float, .float, .float], false, .single, true⟩]

/-- classicML/backend/cc/ops/ops_wrapper.cc:269-327. -/
def compareDifferences : List Overload :=
  [⟨[.mat .f32, .mat .f32, .np .f32], false, .single, true⟩,
   ⟨[.mat .f64, .mat .f64, .np .f64], false, .double, true⟩,
   ⟨[.mat .f32, .mat .f32, .float], false, .single, true⟩,
   ⟨[.tensor .f32, .tensor .f32, .np .f32], false, .single, true⟩,
   ⟨[.tensor .f64, .tensor .f64, .np .f64], false, .double, true⟩,
   ⟨[.tensor .f32, .tensor .f32, .float], false, .single, true⟩]

/-- classicML/backend/cc/ops/ops_wrapper.cc:331-347. -/
def getCluster : List Overload := matrices 1

/-- Three counts and the smoothing flag: NumPy `uint32`, NumPy `uint64`, plain C++ `uint32`.
classicML/backend/cc/ops/ops_wrapper.cc:351-395 (`get_conditional_probability`), 398-442
(`get_dependent_prior_probability`). -/
def threeCounts : List Overload :=
  [⟨[.np .u32, .np .u32, .np .u32, .boolean], false, .single, true⟩,
   ⟨[.np .u64, .np .u64, .np .u64, .boolean], false, .double, true⟩,
   ⟨[.uint32, .uint32, .uint32, .boolean], false, .single, true⟩]

/-- classicML/backend/cc/ops/ops_wrapper.cc:445-466. -/
def getPriorProbability : List Overload :=
  [⟨[.uint32, .row .i32, .boolean], false, .single, true⟩,
   ⟨[.uint32, .row .i64, .boolean], false, .double, true⟩]

/-- classicML/backend/cc/ops/ops_wrapper.cc:503-516. -/
def getWV1 : List Overload := [⟨[.mat .f64, .mat .f64, .mat .f64], false, .double, true⟩]

/-- classicML/backend/cc/ops/ops_wrapper.cc:519-540. -/
def getW : List Overload := matrices 3

/-- classicML/backend/cc/ops/ops_wrapper.cc:543-566. -/
def getWithinClassScatterMatrix : List Overload := matrices 4

/-- classicML/backend/cc/ops/ops_wrapper.cc:569-632. -/
def initCentroids : List Overload :=
  [⟨[.mat .f32, .uint32, .string], false, .single, true⟩,
   ⟨[.mat .f64, .uint64, .string], false, .double, true⟩,
   ⟨[.mat .f32, .uint32, .mat .f32], false, .single, true⟩,
   ⟨[.mat .f64, .uint64, .mat .f64], false, .double, true⟩]

/-- classicML/backend/cc/ops/ops_wrapper.cc:635-679. -/
def selectSecondAlpha : List Overload :=
  [⟨[.np .f32, .row .f32, .row .f32], false, .single, true⟩,
   ⟨[.np .f64, .row .f64, .row .f64], false, .double, true⟩,
   ⟨[.float, .row .f32, .row .f32], false, .single, true⟩]

/-- `__call__` of the activations.
classicML/backend/cc/activations/activations_wrapper.cc:59-72, 112-125, 173-186. -/
def activationCall : List Overload := matrices 1

/-- Two matrices and `*args`: `diff` of the activations
(classicML/backend/cc/activations/activations_wrapper.cc:73-97, 126-158, 187-204), the losses
(classicML/backend/cc/losses/losses_wrapper.cc:57-61, 76-80, 96-100, 115-118, 134-138), the metrics
(classicML/backend/cc/metrics/metrics_wrapper.cc:58-74, 89-105, 120-136). -/
def twoMatricesArgs : List Overload :=
  [⟨[.mat .f32, .mat .f32], true, .single, true⟩,
   ⟨[.mat .f64, .mat .f64], true, .double, true⟩]

/-- `__call__` of the kernels.
classicML/backend/cc/kernels/kernels_wrapper.cc:57-58, 92-93, 120-121, 143-144, 189-190. -/
def kernelCall : List Overload := matrices 2

/-- `__call__` of the initialisers for regression and networks.
classicML/backend/cc/initializers/initializers_wrapper.cc:68-102, 118-157, 174-218, 231-275. -/
def initializerCall : List Overload :=
  [⟨[.np .i32], false, .single, true⟩,
   ⟨[.np .i64], false, .double, true⟩,
   ⟨[.int32], false, .single, true⟩,
   ⟨[.row .i32], false, .single, true⟩,
   ⟨[.row .i64], false, .double, true⟩]

/-- `__call__` of the initialiser of radial basis function networks.
classicML/backend/cc/initializers/initializers_wrapper.cc:287-313. -/
def rbfInitializerCall : List Overload :=
  [⟨[.np .i32], false, .single, true⟩,
   ⟨[.np .i64], false, .double, true⟩,
   ⟨[.int32], false, .single, true⟩]

/-! ## The call sites of the trainers

`w` is the configured precision (classicML/framework/dtypes.py:30-47): `_cml_precision.float` and
`_cml_precision.int`. -/

/-- `_cml_precision.float` (classicML/framework/dtypes.py:36-45). -/
def Width.float : Width → DT
  | .single => .f32
  | .double => .f64

/-- `_cml_precision.int` (classicML/framework/dtypes.py:36-45). -/
def Width.int : Width → DT
  | .single => .i32
  | .double => .i64

/-- `set_precision` (classicML/framework/dtypes.py:30-47): only '64-bit' is double. -/
def setPrecision (env : String) : Width :=
  if env = "32-bit" then .single else if env = "64-bit" then .double else .single

/-- The calls the trainers make into the bindings; the fields are what varies from call to call.
Python numbers of a user's configuration are represented at their documented types (`tol: float`,
`n_clusters: int`, `hidden_units: int`, `seed: int`). -/
inductive Site
  /-- optimizers.py:1001, 1014, 1098: `i` is a Python or a NumPy integer, `b` a one-element array -/
  | smoError (n d i : Nat) (numpyIndex : Bool) (bType : DT) (bShape : List Nat)
  /-- optimizers.py:1008 with the violation just computed, a 1×1 array -/
  | smoSelectFresh (n : Nat) (eType : DT)
  /-- optimizers.py:1008 with the violation from the cache, a NumPy scalar -/
  | smoSelectCached (n : Nat)
  /-- optimizers.py:1065-1066: a 0-d array and two NumPy scalars -/
  | smoClip (aType : DT)
  /-- optimizers.py:1055-1058: two rows of the data -/
  | smoKernel (d : Nat)
  /-- support_vector_classifier.py:149: a row of the data and the support vectors -/
  | svcPredict (d m : Nat)
  /-- k_means.py:84 (init_centroids) with the default `init` -/
  | kmeansInit (n d k : Nat)
  /-- k_means.py:84 with an array of indices or vectors as `init` -/
  | kmeansInitArray (n d k : Nat) (dt : DT) (shape : List Nat)
  /-- k_means.py:84 with a list as `init` -/
  | kmeansInitList (n d k m : Nat) (rest : List Nat)
  /-- k_means.py:88 -/
  | kmeansDistance (n d k : Nat) (cType : DT)
  /-- k_means.py:90 -/
  | kmeansCluster (n k : Nat) (dType : DT)
  /-- k_means.py:92: the clusters are what `get_cluster` returned, an int32 array -/
  | kmeansCentroids (n d : Nat)
  /-- k_means.py:94, gaussian_mixture.py:125, 127 -/
  | compareMatrices (shape₀ shape₁ : List Nat) (t₀ t₁ : DT)
  /-- gaussian_mixture.py:126 -/
  | compareTensors (k d : Nat) (t₀ t₁ : DT)
  /-- gaussian_mixture.py:121 (calculate_means) -/
  | gmmMeans (n d k : Nat) (gType : DT)
  /-- linear_discriminant_analysis.py:51 -/
  | ldaScatter (n₀ n₁ d : Nat)
  /-- linear_discriminant_analysis.py:53 -/
  | ldaW (d : Nat) (sType : DT)
  /-- bagging.py:70 -/
  | bagging (n d : Nat) (seed : Nat)
  /-- naive_bayes_classifier.py:86 -/
  | nbPrior (n : Nat)
  /-- naive_bayes_classifier.py:213-214 and semi_naive_bayes_classifiers.py:390, 406 -/
  | density (x mean var : Arg)
  /-- naive_bayes_classifier.py:220, 223: a NumPy scalar of the configured float type and two
  Python integers -/
  | nbConditional (dcx dc n : Nat)
  /-- semi_naive_bayes_classifiers.py:168-171: three Python integers -/
  | spodePrior (dcx d n : Nat)
  /-- semi_naive_bayes_classifiers.py:394-397, 410-413: a NumPy integer and two Python integers -/
  | spodeConditional (dcx dc n : Nat)
  /-- logistic_regression.py:88, 92 -/
  | logregInit (d : Nat)
  /-- back_propagation_neural_network.py:104-105 -/
  | bpnnInit (layers : Nat)
  /-- radial_basis_function_network.py:97 -/
  | rbfInit (hidden : Nat)
  /-- optimizers.py:239, 250, 252, 582, 697 -/
  | activation (n m : Nat) (zType : DT)
  /-- optimizers.py:284 -/
  | sigmoidDiff (n : Nat)
  /-- optimizers.py:286 -/
  | softmaxDiff (n m : Nat)
  /-- optimizers.py:298 -/
  | reluDiff (n m : Nat) (oType aType : DT)
  /-- optimizers.py:185-186, 418-419, 543-544, 655-656, 786-787: a loss or metric of predictions
  and integer labels -/
  | lossOrMetric (pType : DT) (pShape yShape : List Nat)
  deriving DecidableEq, Repr

/-- The function called. -/
def Site.table : Site → List Overload
  | .smoError .. => calculateError
  | .smoSelectFresh .. => selectSecondAlpha
  | .smoSelectCached .. => selectSecondAlpha
  | .smoClip .. => threeFloats
  | .smoKernel .. => kernelCall
  | .svcPredict .. => kernelCall
  | .kmeansInit .. => initCentroids
  | .kmeansInitArray .. => initCentroids
  | .kmeansInitList .. => initCentroids
  | .kmeansDistance .. => calculateEuclideanDistance
  | .kmeansCluster .. => getCluster
  | .kmeansCentroids .. => calculateCentroids
  | .compareMatrices .. => compareDifferences
  | .compareTensors .. => compareDifferences
  | .gmmMeans .. => calculateMeans
  | .ldaScatter .. => getWithinClassScatterMatrix
  | .ldaW .. => getW
  | .bagging .. => bootstrapSampling
  | .nbPrior .. => getPriorProbability
  | .density .. => threeFloats
  | .nbConditional .. => threeCounts
  | .spodePrior .. => threeCounts
  | .spodeConditional .. => threeCounts
  | .logregInit .. => initializerCall
  | .bpnnInit .. => initializerCall
  | .rbfInit .. => rbfInitializerCall
  | .activation .. => activationCall
  | .sigmoidDiff .. => twoMatricesArgs
  | .softmaxDiff .. => twoMatricesArgs
  | .reluDiff .. => twoMatricesArgs
  | .lossOrMetric .. => twoMatricesArgs

/-- The arguments, under configured precision `w`. -/
def Site.args (w : Width) : Site → List Arg
  | .smoError n d i numpyIndex bType bShape =>
      [.array w.float [n, d] 0, .array w.int [n, 1] 0,
       if numpyIndex then .npScalar .i64 i else .pyInt i, .other,
       .array w.float [n] 0, .array .bool [n] 0, .array bType bShape 0]
  | .smoSelectFresh n eType =>
      [.array eType [1, 1] 0, .array w.float [n] 0, .array w.float [n] 0]
  | .smoSelectCached n =>
      [.npScalar w.float 0, .array w.float [n] 0, .array w.float [n] 0]
  | .smoClip aType => [.array aType [] 0, .npScalar w.float 0, .npScalar w.float 0]
  | .smoKernel d => [.array w.float [1, d] 0, .array w.float [1, d] 0]
  | .svcPredict d m => [.array w.float [d] 0, .array w.float [m, d] 0]
  | .kmeansInit n d k => [.array w.float [n, d] 0, .pyInt k, .str]
  | .kmeansInitArray n d k dt shape => [.array w.float [n, d] 0, .pyInt k, .array dt shape 0]
  | .kmeansInitList n d k m rest => [.array w.float [n, d] 0, .pyInt k, .list m rest]
  | .kmeansDistance n d k cType => [.array w.float [n, d] 0, .array cType [k, d] 0]
  | .kmeansCluster n k dType => [.array dType [n, k] 0]
  | .kmeansCentroids n d => [.array w.float [n, d] 0, .array .i32 [n] 0]
  | .compareMatrices s₀ s₁ t₀ t₁ => [.array t₀ s₀ 0, .array t₁ s₁ 0, .pyFloat]
  | .compareTensors k d t₀ t₁ => [.array t₀ [k, d, d] 0, .array t₁ [k, d, d] 0, .pyFloat]
  | .gmmMeans n d k gType => [.array w.float [n, d] 0, .array gType [n, k] 0]
  | .ldaScatter n₀ n₁ d =>
      [.array w.float [n₀, d] 0, .array w.float [n₁, d] 0, .array w.float [1, d] 0,
       .array w.float [1, d] 0]
  | .ldaW d sType => [.array sType [d, d] 0, .array w.float [1, d] 0, .array w.float [1, d] 0]
  | .bagging n d seed => [.array w.float [n, d] 0, .array w.int [n] 0, .pyInt seed]
  | .nbPrior n => [.pyInt n, .array w.int [n] 0, .pyBool]
  | .density x mean var => [x, mean, var]
  | .nbConditional dcx dc n => [.npScalar w.float dcx, .pyInt dc, .pyInt n, .pyBool]
  | .spodePrior dcx d n => [.pyInt dcx, .pyInt d, .pyInt n, .pyBool]
  | .spodeConditional dcx dc n => [.npScalar w.int dcx, .pyInt dc, .pyInt n, .pyBool]
  | .logregInit d => [.npScalar w.int d]
  | .bpnnInit layers => [.array w.int [layers] 0]
  | .rbfInit hidden => [.pyInt hidden]
  | .activation n m zType => [.array zType [n, m] 0]
  | .sigmoidDiff n => [.array w.float [n, 1] 0, .array w.float [n, 1] 0, .array w.float [n, 1] 0]
  | .softmaxDiff n m => [.array w.int [n, m] 0, .array w.float [n, m] 0]
  | .reluDiff n m oType aType => [.array oType [n, m] 0, .array aType [n, m] 0]
  | .lossOrMetric pType pShape yShape => [.array pType pShape 0, .array w.int yShape 0]

/-- What happens at a call site: the overload that runs, or `TypeError`. -/
def Site.run (idx : Bool) (w : Width) (s : Site) : Except PyErr Overload :=
  dispatch idx s.table (s.args w)

/-! ## Clipping through an overload -/

/-- `ClipAlpha` (classicML/backend/cc/ops/ops.cc:253-264, `Ops.ccClipAlpha`) behind the conversion
`rnd` of its three arguments to the number type of the overload. -/
def clipThrough {K : Type} [LT K] [DecidableLT K] (rnd : K → K) (alpha low high : K) : K :=
  Ops.ccClipAlpha (rnd alpha) (rnd low) (rnd high)

end CML.Disp
