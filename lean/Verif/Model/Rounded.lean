import Verif.Model.Preprocess
import Verif.Model.Ops
import Mathlib.Algebra.BigOperators.Fin

/-!
# Floating point versions of some models

The other models compute exactly. Here `fl : K → K` is applied after every operation, as the processor does; the inputs are numbers of the format
(`fl x = x`). One format is used for a whole computation (simplification: `_cml_precision.float`). `none` is a result that is not a finite number.
-/

namespace CML.Float
open CML.Prep

variable {K : Type*} [Field K] [LinearOrder K]

/-- Division with rounding. -/
def flDiv (fl : K → K) (a b : K) : Option K := if b = 0 then none else some (fl (a / b))

/-- preprocessing.py:226-241 `MinMaxScaler.__call__` on a 1-D array, as `Prep.minMaxCall`, with a rounding after each of the three operations. -/
def minMaxCall (fl : K → K) (x : List K) : Except PyErr ((K × K) × List (Option K)) :=
  match x.min?, x.max? with
  | some lo, some hi => .ok ((lo, hi), x.map fun v => flDiv fl (fl (v - lo)) (fl (hi - lo)))
  | _, _ => .error .valueError

/-- preprocessing.py:243-255 `MinMaxScaler.inverse` on a 1-D array, with roundings. -/
def minMaxInverse (fl : K → K) (st : K × K) (z : List (Option K)) : List (Option K) :=
  z.map fun v => v.map fun v => fl (fl (v * fl (st.2 - st.1)) + st.1)

/-! ## Sums

`np.sum` adds in an order that depends on the memory layout (pairwise, in blocks of eight, …); `+=` in a loop adds from left to right. -/

/-- An order of summation of `n` numbers: a binary tree with the numbers at its leaves. -/
inductive Order (n : Nat)
  | entry (i : Fin n)
  | add (a b : Order n)

/-- The numbers that are added. -/
def Order.entries {n : Nat} : Order n → List (Fin n)
  | .entry i => [i]
  | .add a b => a.entries ++ b.entries

/-- The number of additions on the longest way from a number to the sum. -/
def Order.depth {n : Nat} : Order n → Nat
  | .entry _ => 0
  | .add a b => max a.depth b.depth + 1

/-- The sum that is computed. -/
def Order.sum {n : Nat} (fl : K → K) (e : Fin n → K) : Order n → K
  | .entry i => e i
  | .add a b => fl (a.sum fl e + b.sum fl e)

/-- From left to right, the order of `+=` in a loop. -/
def Order.loop {n : Nat} (o : Order n) : List (Fin n) → Order n
  | [] => o
  | i :: l => (Order.add o (.entry i)).loop l

/-- Numbers divided by their sum: activations.py:131 (one row), boosting.py:85. -/
def shares {n : Nat} (fl : K → K) (o : Order n) (e : Fin n → K) : Fin n → Option K := fun i => flDiv fl (e i) (o.sum fl e)

/-- activations.py:130-131 `Softmax.__call__` for one row of a matrix whose largest entry is `M`; `ex` is `np.exp` of the format. -/
def softmaxRow {n : Nat} (fl ex : K → K) (o : Order n) (M : K) (z : Fin n → K) : Fin n → Option K := shares fl o fun j => ex (fl (z j - M))

/-- activations.py:122-134 `Softmax.__call__` on a matrix: `np.max` of the whole matrix (`ValueError` if it has no entries), row by row. -/
def softmax {m n : Nat} (fl ex : K → K) (o : Order n) (z : Fin m → Fin n → K) : Except PyErr (Fin m → Fin n → Option K) :=
  match (List.ofFn fun i => List.ofFn (z i)).flatten.max? with
  | some M => .ok fun i => softmaxRow fl ex o M (z i)
  | none => .error .valueError

/-- activations.py:80-90 `Sigmoid.__call__` on one entry. -/
def sigmoid (fl ex : K → K) (z : K) : Option K := flDiv fl 1 (fl (1 + ex (-z)))

/-- boosting.py:67: the first weight of every sample. -/
def firstWeight (fl : K → K) (n : Nat) : K := fl (1 / n)

/-- boosting.py:81-85: the weights after a round; `up` and `down` are `np.exp(alpha)` and `np.exp(-alpha)`, `wrong` the misclassified samples. The
exponentials are always of double precision (`np.ones(len(x))`), so the products are rounded twice, by `wide` and by `fl`. -/
def nextWeights {n : Nat} (fl wide : K → K) (o : Order n) (up down : K) (wrong : Fin n → Bool) (w : Fin n → K) : Fin n → Option K :=
  shares fl o fun i => fl (wide (w i * if wrong i then up else down))

/-- ops.py:464-470 for one sample: `probability[j] += alpha[i] * …`, from 0, in the order of the components. After the first round of EM the mixing
coefficients are of double precision (ops.py:283), so sums are rounded twice, by `wide` and by `fl`. -/
def mixture (fl wide : K → K) (terms : List K) : K := terms.foldl (fun s t => fl (wide (s + t))) 0

/-- ops.py:431-439: the posterior probabilities of one sample for mixing coefficients `alpha` and densities `p`. -/
def posteriors {n : Nat} (fl wide : K → K) (alpha p : Fin n → K) : Fin n → Option K := fun i =>
  if mixture fl wide (List.ofFn fun i => wide (alpha i * p i)) = 0 then none
  else some (fl (wide (wide (alpha i * p i) / mixture fl wide (List.ofFn fun i => wide (alpha i * p i)))))

/-- ops.py:743-751 `init_mixture_coefficient` with a list or an array of coefficients: `np.sum(init) != 1` raises (`init` has double precision: `wide`;
fewer than eight numbers are added from left to right), and the coefficients are stored with the precision of the library. -/
def initCoefficients (fl wide : K → K) (n : Nat) (init : List K) : Except PyErr (List K) :=
  if init.length ≠ n then .error .valueError
  else if init.foldl (fun s t => wide (s + t)) 0 ≠ 1 then .error .valueError
  else .ok (init.map fl)

/-! ## SMO -/

/-- optimizers.py:1042-1047: the bounds of the second multiplier; `opp` tells that the labels differ. `alphas[i]` is a scalar of the format: its sums with another
such scalar are of the format, with the Python number `C` of double precision. -/
def smoBounds (fl wide : K → K) (C : K) (opp : Bool) (ai aj : K) : K × K :=
  if opp then (fl (max 0 (fl (aj - ai))), fl (min C (wide (wide (C + aj) - ai))))
  else (fl (max 0 (wide (fl (ai + aj) - C))), fl (min C (fl (ai + aj))))

/-- optimizers.py:1063-1071, 1080-1081: the two multipliers after a step whose unclipped second multiplier is `v`; `none` if the bounds agree or the change is
too small. -/
def smoPair (fl wide : K → K) (C : K) (opp : Bool) (ai aj v : K) : Option (K × K) :=
  if (smoBounds fl wide C opp ai aj).1 = (smoBounds fl wide C opp ai aj).2 then none
  else if |Ops.clipAlpha v (smoBounds fl wide C opp ai aj).1 (smoBounds fl wide C opp ai aj).2 - aj| < 1 / 100000 then none
  else some
    (fl (wide (ai + (if opp then -1 else 1) * wide (aj - Ops.clipAlpha v (smoBounds fl wide C opp ai aj).1 (smoBounds fl wide C opp ai aj).2))),
      fl (Ops.clipAlpha v (smoBounds fl wide C opp ai aj).1 (smoBounds fl wide C opp ai aj).2))

/-! ## Accuracy -/

/-- metrics.py:91-97, 120-128 and metrics of the trees: `accuracy / n` for `k` correct answers of `n`, a Python number. -/
def accuracy (wide : K → K) (k n : Nat) : K := wide ((k : K) / n)

/-- generators.py:268 `1 - BinaryAccuracy()(…)`: the error of a candidate stump with `k` correct answers of `n`. -/
def stumpError (wide : K → K) (k n : Nat) : K := wide (1 - accuracy wide k n)

/-! ## StandardScaler -/

/-- Adding from left to right (`np.sum` of fewer than eight numbers). -/
def sumLoop (fl : K → K) (x : List K) : K := x.foldl (fun s t => fl (s + t)) 0

/-- `np.mean` of a 1-D array: the sum (in an order that depends on the length: `total`), divided with double precision and rounded to the format. -/
def mean (fl wide : K → K) (total : List K → K) (x : List K) : K := fl (wide (total x / x.length))

/-- `np.var` of a 1-D array: the mean of the squares of the deviations from the mean (there divided in the format). -/
def variance (fl wide : K → K) (total : List K → K) (x : List K) : K :=
  mean fl wide total (x.map fun v => fl (fl (v - fl (total x / x.length)) * fl (v - fl (total x / x.length))))

/-- preprocessing.py:346-361 `StandardScaler.__call__` on a 1-D array of the format: deviations from the mean divided by the variance. -/
def standardize (fl wide : K → K) (total : List K → K) (x : List K) : List (Option K) :=
  x.map fun v => flDiv fl (fl (v - mean fl wide total x)) (variance fl wide total x)

end CML.Float
