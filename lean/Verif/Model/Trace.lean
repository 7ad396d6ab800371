import Verif.Model.FailedFit

/-!
# Histories of calls

A program calls the methods of one instance in any order and goes on after exceptions (`try … except`). The instance is the one of
`Verif.Model.FailedFit`; `predict` and `score` do not change it and do not occur.
-/

namespace CML.Failed

variable {K : Type} [Field K] [LinearOrder K]

/-- The state after a list of calls; exceptions are caught by the caller. -/
def run {O E : Type*} (step : O → E → O × Option PyErr) (o : O) : List E → O
  | [] => o
  | e :: h => run step (step o e).1 h

/-! ## LinearDiscriminantAnalysis -/

/-- A call: `fit` on any data set; `load_weights` of a file that passes the checks of `io.initialize_weights_file`, with the attributes it contains;
`load_weights` of a file that does not pass them. -/
inductive LDACall (K : Type)
  | fit (d : Nat) (x : List (Fin d → K)) (y : List Int)
  | load (w mu0 mu1 : Option (RowVec K))
  | badFile (e : PyErr)

/-- linear_discriminant_analysis.py:110-121: the attributes are assigned one after the other; a missing one is a `KeyError`. -/
def LDAObj.load (o : LDAObj K) (w mu0 mu1 : Option (RowVec K)) : LDAObj K × Option PyErr :=
  match w, mu0, mu1 with
  | none, _, _ => (o, some .keyError)
  | some w, none, _ => ({ o with w := some w }, some .keyError)
  | some w, some m0, none => ({ o with w := some w, mu0 := some m0 }, some .keyError)
  | some w, some m0, some m1 => ({ o with w := some w, mu0 := some m0, mu1 := some m1, loaded := true }, none)

/-- linear_discriminant_analysis.py:31-57, 97-121: one call. `gw` is the projection function of the engine. -/
def LDAObj.step (gw : ∀ d : Nat, Matrix (Fin d) (Fin d) K → (Fin d → K) → (Fin d → K) → Except PyErr (Fin d → K)) (o : LDAObj K) : LDACall K → LDAObj K × Option PyErr
  | .fit d x y => o.fit (gw d) x y
  | .load w m0 m1 => o.load w m0 m1
  | .badFile e => (o, some e)

/-! ## KMeans -/

/-- A call on data with `d` features (simplification: one number of features for all calls). -/
inductive KMCall (K : Type) (d : Nat)
  | fit (x : List (Fin d → K)) (tol : K) (epochs : Nat) (start : Except PyErr (List (Fin d → K)))
  | load (centroids : Option (List (Option (Fin d → K)))) (clusters : Option (List Nat))
  | badFile (e : PyErr)

/-- k_means.py:152-166: centroids, then clusters (a missing `init` or `tol` raises before both, as `badFile` does). -/
def KMObj.load {d : Nat} (o : KMObj K d) (centroids : Option (List (Option (Fin d → K)))) (clusters : Option (List Nat)) : KMObj K d × Option PyErr :=
  match centroids, clusters with
  | none, _ => (o, some .keyError)
  | some c, none => ({ o with centroids := some c }, some .keyError)
  | some c, some l => ({ o with centroids := some c, clusters := some l, loaded := true }, none)

/-- k_means.py:67-101, 138-166: one call. -/
def KMObj.step {d : Nat} (root : K → K) (o : KMObj K d) : KMCall K d → KMObj K d × Option PyErr
  | .fit x tol epochs start => o.fit root x tol epochs start
  | .load c l => o.load c l
  | .badFile e => (o, some e)

/-! ## LogisticRegression -/

/-- A call of an instance compiled with the default optimiser (loaded files name it too); `draw` is what the initialiser returns in this call. -/
inductive LRCall
  | fit (n d : Nat) (draw : Fin (d + 1) → ℝ) (x : Fin n → Fin d → ℝ) (y : Fin n → ℝ) (epochs : Nat)
  | load (beta : Option (Σ d : Nat, Fin (d + 1) → ℝ))
  | badFile (e : PyErr)

/-- logistic_regression.py:70-98, 134-163: one call. -/
noncomputable def LR.step (o : LR) : LRCall → LR × Option PyErr
  | .fit _ _ draw x y epochs => o.fit draw x y epochs
  | .load none => (o, some .keyError)
  | .load (some b) => ({ o with beta := some b, loaded := true }, none)
  | .badFile e => (o, some e)

/-! ## BaggingClassifier -/

/-- A call: `fit` with a base learner, data and a number of estimators; `load_weights` of a file with the attributes it contains (a file without
`base_algorithm` raises before the members are touched, as `badFile` does). -/
inductive BagCall (Q E : Type)
  | fit (learn : List (List Q) → List (List Int) → Except PyErr E) (x : List (List Q)) (y : List Int) (k : Nat)
  | load (members : Option (List E)) (seed : Option Nat)
  | badFile (e : PyErr)

/-- bagging.py:53-79, 120-146: one call. The members are replaced before the seed is read. -/
def bagStep {Q E : Type} (rng : Option Nat → (n : Nat) → Fin n → Fin n) (o : Bagging.Obj E) : BagCall Q E → Bagging.Obj E × Option PyErr
  | .fit learn x y k => bagFit rng learn x y k o
  | .load none _ => (o, some .keyError)
  | .load (some ms) none => ({ o with members := ms }, some .keyError)
  | .load (some ms) (some s) => ({ o with members := ms, seed := s, loaded := true }, none)
  | .badFile e => (o, some e)

/-! ## AdaBoostClassifier -/

/-- A call, as for bagging; the coefficients in a file are an array. -/
inductive AdaCall (X : Type)
  | fit (n : Nat) (learn : (Fin n → ℝ) → Except PyErr (X → Int)) (x : Fin n → X) (y : Fin n → Int) (k : Nat)
  | load (estimators : Option (List (X → Int))) (alphas : Option (List (WithBot ℝ)))
  | badFile (e : PyErr)

/-- boosting.py:51-97, 136-162: one call. -/
noncomputable def adaStep {X : Type} (o : Ada.Obj X) : AdaCall X → Ada.Obj X × Option PyErr
  | .fit _ learn x y k => adaFit learn x y k o
  | .load none _ => (o, some .keyError)
  | .load (some es) none => ({ o with estimators := es }, some .keyError)
  | .load (some es) (some as) => ({ o with estimators := es, alphas := as, asArray := true, loaded := true }, none)
  | .badFile e => (o, some e)

end CML.Failed
