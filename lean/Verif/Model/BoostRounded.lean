import Verif.Model.Rounded

/-!
# The rounds of AdaBoost in floating point (classicML/api/models/ensemble/boosting.py:66-90)

`fl` is the rounding of the precision of the library, `wide` that of double precision, `lg` and `ex` the logarithm and the exponential function of double
precision. Base learners enter only through the samples they misclassify.
-/

namespace CML.Float

variable {K : Type*} [Field K] [LinearOrder K]

/-- What a round needs: the misclassified samples, and the orders of the two sums. -/
structure Round (n : Nat) where
  wrong : Fin n → Bool
  errorOrder : Order n
  order : Order n

/-- boosting.py:74: the weights of the misclassified samples are added; the other samples are skipped, which is the same as adding 0. -/
def roundError {n : Nat} (fl : K → K) (r : Round n) (w : Fin n → K) : K := r.errorOrder.sum fl fun i => if r.wrong i then w i else 0

/-- boosting.py:76-77: a Python number makes the scalar operations run in double precision; the result is converted to the precision of the library. -/
def alphaOf (fl wide lg : K → K) (eps e : K) : K := fl (wide (lg (wide (wide (1 - e) / max e eps)) / 2))

/-- boosting.py:69-90: the weights at the beginning of each round. The loop ends after a round whose error exceeds 1/2 or is below `EPSILON` (line 89). Simplification:
the loop is followed only as long as the weights are numbers. -/
def distributions {n : Nat} (fl wide lg ex : K → K) (eps : K) : List (Round n) → (Fin n → Option K) → List (Fin n → Option K)
  | [], _ => []
  | r :: rs, w =>
    if h : ∀ i, (w i).isSome then
      if 1 / 2 < roundError fl r (fun i => (w i).get (h i)) ∨ roundError fl r (fun i => (w i).get (h i)) < eps then [w]
      else w :: distributions fl wide lg ex eps rs (nextWeights fl wide r.order
        (ex (alphaOf fl wide lg eps (roundError fl r fun i => (w i).get (h i)))) (ex (-alphaOf fl wide lg eps (roundError fl r fun i => (w i).get (h i))))
        r.wrong fun i => (w i).get (h i))
    else [w]

/-- boosting.py:67-90: the weights at the beginning of each round of `fit`, at most one round for each entry of the list. -/
def boostWeights {n : Nat} (fl wide lg ex : K → K) (eps : K) (rounds : List (Round n)) : List (Fin n → Option K) :=
  distributions fl wide lg ex eps rounds fun _ => some (firstWeight fl n)

end CML.Float
