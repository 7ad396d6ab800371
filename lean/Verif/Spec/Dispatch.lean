import Verif.Model.Dispatch

/-!
# What a user can say about a call into the C++ engine

The words of the properties about overloads, independent of the dispatcher.
4294967296 = 2³², 2147483648 = 2³¹.
-/

namespace CML.Disp

/-- A `ndarray` of double precision with one or two axes. -/
def Arg.IsDoubleMatrix : Arg → Prop
  | .array .f64 [_] _ => True
  | .array .f64 [_, _] _ => True
  | _ => False

/-- A numeric array or nested list, of any element type, with one or two axes. -/
def Arg.IsMatrix : Arg → Prop
  | .array _ [_] _ => True
  | .array _ [_, _] _ => True
  | .list _ [] => True
  | .list _ [_] => True
  | _ => False

/-- A number: Python or NumPy, or an array with exactly one element. -/
def Arg.IsNumber : Arg → Prop
  | .pyFloat => True
  | .pyInt _ => True
  | .pyBool => True
  | .npScalar _ _ => True
  | .array _ shape _ => shape.prod = 1
  | _ => False

/-- A NumPy scalar of the given type. -/
def Arg.IsScalar (dt : DT) : Arg → Prop
  | .npScalar dt' _ => dt' = dt
  | _ => False

/-- A count that fits 32 bits and is not a double precision number: a Python integer or boolean, a
NumPy number other than `np.float64`, a one-element array. -/
def Arg.IsCount : Arg → Prop
  | .pyInt z => 0 ≤ z ∧ z < 4294967296
  | .pyBool => True
  | .npScalar .f64 _ => False
  | .npScalar _ z => 0 ≤ z ∧ z < 4294967296
  | .array _ shape z => shape.prod = 1 ∧ 0 ≤ z ∧ z < 4294967296
  | _ => False

/-- Something with a truth value: a boolean, a number, `None`, an array with at most one element. -/
def Arg.IsFlag : Arg → Prop
  | .pyBool => True
  | .pyInt _ => True
  | .pyFloat => True
  | .npScalar _ _ => True
  | .none => True
  | .array _ shape _ => shape.prod ≤ 1
  | _ => False

/-- A count that fits 32 bits and is read without conversion: a Python integer or boolean; under
Python 3.7 (`py37`) also a NumPy integer or boolean, or an array of integers without axes. -/
def Arg.IsPlainCount (py37 : Bool) (bound : Int) : Arg → Prop
  | .pyInt z => 0 ≤ z ∧ z < bound
  | .pyBool => True
  | .npScalar dt z => py37 = true ∧ dt ≠ .f32 ∧ dt ≠ .f64 ∧ 0 ≤ z ∧ z < bound
  | .array dt shape z =>
      py37 = true ∧ shape = [] ∧ dt ≠ .f32 ∧ dt ≠ .f64 ∧ dt ≠ .bool ∧ 0 ≤ z ∧ z < bound
  | _ => False

/-- A count that fits 64 bits (18446744073709551616 = 2⁶⁴), as `IsCount` otherwise. -/
def Arg.IsLongCount : Arg → Prop
  | .pyInt z => 0 ≤ z ∧ z < 18446744073709551616
  | .pyBool => True
  | .npScalar .f64 _ => False
  | .npScalar _ z => 0 ≤ z ∧ z < 18446744073709551616
  | .array _ shape z => shape.prod = 1 ∧ 0 ≤ z ∧ z < 18446744073709551616
  | _ => False

/-- An integer that fits 32 bits with sign, as `IsCount` otherwise. -/
def Arg.IsInteger : Arg → Prop
  | .pyInt z => -2147483648 ≤ z ∧ z < 2147483648
  | .pyBool => True
  | .npScalar .f64 _ => False
  | .npScalar _ z => -2147483648 ≤ z ∧ z < 2147483648
  | .array _ shape z => shape.prod = 1 ∧ -2147483648 ≤ z ∧ z < 2147483648
  | _ => False

/-- A Python or NumPy boolean. -/
def Arg.IsBool : Arg → Prop
  | .pyBool => True
  | .npScalar .bool _ => True
  | _ => False

/-- A string. -/
def Arg.IsStr : Arg → Prop
  | .str => True
  | _ => False

/-- A `ndarray` of the given element type that is a row: one axis, or two of which the first has
length 1. -/
def Arg.IsRowOf (dt : DT) : Arg → Prop
  | .array dt' [_] _ => dt' = dt
  | .array dt' [r, _] _ => dt' = dt ∧ r = 1
  | _ => False

/-- A numeric array or nested list that is a row. -/
def Arg.IsRow : Arg → Prop
  | .array _ [_] _ => True
  | .array _ [r, _] _ => r = 1
  | .list _ [] => True
  | .list r [_] => r = 1
  | _ => False

/-- A `ndarray` of the given element type that is a column: one axis, or two of which the second has
length 1. -/
def Arg.IsColumnOf (dt : DT) : Arg → Prop
  | .array dt' [_] _ => dt' = dt
  | .array dt' [_, c] _ => dt' = dt ∧ c = 1
  | _ => False

/-- A numeric array or nested list that is a column. -/
def Arg.IsColumn : Arg → Prop
  | .array _ [_] _ => True
  | .array _ [_, c] _ => c = 1
  | .list _ [] => True
  | .list _ [c] => c = 1
  | _ => False

/-- A `ndarray` of the given element type, with any number of axes. -/
def Arg.IsArrayOf (dt : DT) : Arg → Prop
  | .array dt' _ _ => dt' = dt
  | _ => False

/-- Whatever NumPy can turn into an array of floats: arrays, nested lists, numbers, `None`. -/
def Arg.IsArrayLike : Arg → Prop
  | .str => False
  | .other => False
  | _ => True

/-- Two shapes an ndarray of at most two axes can have. -/
def OneOrTwoAxes (shape : List Nat) : Prop := shape.length = 1 ∨ shape.length = 2

/-- The call runs an overload of the given precision. -/
def Runs (r : Except PyErr Overload) (w : Width) : Prop := ∃ o, r = .ok o ∧ o.width = w

/-- The three possible outcomes of a call, for `P` the arguments of the double-precision overload and
`Q` those of the single-precision one. -/
def Outcome (r : Except PyErr Overload) (P Q : Prop) : Prop :=
  (Runs r .double ↔ P) ∧ (Runs r .single ↔ Q ∧ ¬ P) ∧ (r = .error .typeError ↔ ¬ P ∧ ¬ Q)

/-- The sizes of the call are those of real data (counts below 2³², shapes with one or two axes) and,
in single precision, no intermediate array is of double precision. -/
def Site.Usual (w : Width) : Site → Prop
  | .smoError _ _ i _ _ bShape => i < 4294967296 ∧ OneOrTwoAxes bShape
  | .kmeansInit _ _ k => k < 4294967296
  | .kmeansInitArray _ _ k _ shape => k < 4294967296 ∧ OneOrTwoAxes shape
  | .kmeansInitList _ _ k m rest => k < 4294967296 ∧ OneOrTwoAxes (m :: rest)
  | .kmeansCluster _ _ dType => w = .single → dType ≠ .f64
  | .compareMatrices s₀ s₁ _ _ => OneOrTwoAxes s₀ ∧ OneOrTwoAxes s₁
  | .bagging _ _ seed => seed < 4294967296
  | .nbPrior n => n < 4294967296
  | .density x mean var =>
      (x.IsNumber ∧ mean.IsNumber ∧ var.IsNumber) ∧
        (w = .single → ¬ (x.IsScalar .f64 ∧ mean.IsScalar .f64 ∧ var.IsScalar .f64))
  | .nbConditional dcx dc n => dcx < 4294967296 ∧ dc < 4294967296 ∧ n < 4294967296
  | .spodePrior dcx d n => dcx < 4294967296 ∧ d < 4294967296 ∧ n < 4294967296
  | .spodeConditional dcx dc n => dcx < 4294967296 ∧ dc < 4294967296 ∧ n < 4294967296
  | .rbfInit hidden => hidden < 2147483648
  | .activation _ _ zType => w = .single → zType ≠ .f64
  | .reluDiff _ _ oType aType => w = .single → ¬ (oType = .f64 ∧ aType = .f64)
  | .lossOrMetric _ pShape yShape => OneOrTwoAxes pShape ∧ OneOrTwoAxes yShape
  | _ => True

/-- The call sites at which the configured double precision is really used. -/
def Site.InDouble : Site → Prop
  | .smoSelectCached _ => True
  | .smoKernel _ => True
  | .svcPredict _ _ => True
  | .kmeansInit _ _ _ => True
  | .kmeansInitArray _ _ _ dt _ => dt = .f64
  | .kmeansDistance _ _ _ cType => cType = .f64
  | .kmeansCluster _ _ dType => dType = .f64
  | .kmeansCentroids _ _ => True
  | .gmmMeans _ _ _ gType => gType = .f64
  | .ldaScatter _ _ _ => True
  | .ldaW _ sType => sType = .f64
  | .bagging _ _ _ => True
  | .nbPrior _ => True
  | .density x mean var => x.IsScalar .f64 ∧ mean.IsScalar .f64 ∧ var.IsScalar .f64
  | .logregInit _ => True
  | .bpnnInit _ => True
  | .activation _ _ zType => zType = .f64
  | .sigmoidDiff _ => True
  | .reluDiff _ _ oType aType => oType = .f64 ∧ aType = .f64
  | _ => False

/-- The one call site whose call is refused in double precision. -/
def Site.Refused : Site → Prop
  | .nbConditional _ _ _ => True
  | _ => False

/-- The labels that `bootstrap_sampling` carries along with data of precision `w`: an array with one
or two axes whose elements are floats or integers of the same width as the data. -/
def Arg.IsLabels (w : Width) : Arg → Prop
  | .array dt shape _ => (dt = w.float ∨ dt = w.int) ∧ OneOrTwoAxes shape
  | _ => False

/-- A seed as documented: absent, or a Python integer that fits 32 bits. -/
def Arg.IsSeed : Arg → Prop
  | .none => True
  | .pyInt z => 0 ≤ z ∧ z < 4294967296
  | _ => False

/-- Not a NumPy integer or boolean, and not an array without axes. -/
def Arg.NoNumpyInteger : Arg → Prop
  | .npScalar dt _ => dt = .f32 ∨ dt = .f64
  | .array _ shape _ => shape ≠ []
  | _ => True

end CML.Disp
