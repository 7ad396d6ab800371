import Verif.Model.Rounded

/-!
# Linear scores in floating point

As `Model/SVC.lean`, `Model/LogReg.lean` and `Model/LDA.lean`, with the rounding `fl` of the format after every operation. A BLAS library adds the products of a scalar
product in an order of its own and may fuse a multiplication and an addition: `Plan`. Overflow is not modelled.
-/

namespace CML.Float

variable {K : Type*} [Field K] [LinearOrder K]

/-- How `np.matmul` and `np.dot` compute a scalar product of `n` factors: rounded products, products added without an own rounding (fused multiply-add), rounded
sums. -/
inductive Plan (n : Nat)
  | mul (i : Fin n)
  | fma (i : Fin n) (p : Plan n)
  | add (p q : Plan n)

/-- The products that are added. -/
def Plan.entries {n : Nat} : Plan n → List (Fin n)
  | .mul i => [i]
  | .fma i p => i :: p.entries
  | .add p q => p.entries ++ q.entries

/-- The number of roundings on the longest way from a factor to the result. -/
def Plan.depth {n : Nat} : Plan n → Nat
  | .mul _ => 1
  | .fma _ p => p.depth + 1
  | .add p q => max p.depth q.depth + 1

/-- The scalar product that is computed (`np.matmul`, `np.dot`: optimizers.py:581, 696; kernels.py:44; support_vector_classifier.py:150;
linear_discriminant_analysis.py:77-79). -/
def Plan.dot {n : Nat} (fl : K → K) (a x : Fin n → K) : Plan n → K
  | .mul i => fl (a i * x i)
  | .fma i p => fl (a i * x i + p.dot fl a x)
  | .add p q => fl (p.dot fl a x + q.dot fl a x)

/-- optimizers.py:577-582, 692-697 `forward` for one sample: the score with the appended 1, then the sigmoid function (activations.py:80-90). -/
def logistic {d : Nat} (fl ex : K → K) (p : Plan (d + 1)) (beta : Fin (d + 1) → K) (x : Fin d → K) : Option K :=
  sigmoid fl ex (p.dot fl (Fin.snoc x 1 : Fin (d + 1) → K) beta)

/-- support_vector_classifier.py:148-152 for one row, `kappa` the computed kernel values. `self.b` is of the format of the library or of double precision, and the sum has
its format: `wide`. -/
def svcRow {n : Nat} (fl wide : K → K) (p : Plan n) (alpha y kappa : Fin n → K) (b : K) : Int :=
  if wide (p.dot fl (fun i => fl (alpha i * y i)) kappa + b) < 0 then -1 else 1

/-- kernels.py:33-46 `Linear.__call__` with a row and the support vectors; the scalar products may be computed differently. -/
def linearKernel {n d : Nat} (fl : K → K) (q : Fin n → Plan d) (sv : Fin n → Fin d → K) (x : Fin d → K) : Fin n → K := fun j => (q j).dot fl (sv j) x

/-- linear_discriminant_analysis.py:77-84 for one row; the three scalar products may be computed differently. -/
def ldaRow {d : Nat} (fl : K → K) (p q0 q1 : Plan d) (w mu0 mu1 x : Fin d → K) : Int :=
  if |fl (p.dot fl x w - q0.dot fl w mu0)| > |fl (p.dot fl x w - q1.dot fl w mu1)| then 1 else 0

end CML.Float
