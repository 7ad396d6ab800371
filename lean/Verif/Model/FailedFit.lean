import Verif.Model.LogReg
import Verif.Model.LDA
import Verif.Model.KMeans
import Verif.Model.Bayes
import Verif.Model.Ensemble
import Verif.Model.Network
import Verif.Model.GMMInit
import Verif.Dict

/-!
# `fit` as a method that may raise: what it leaves behind

The models of training in the other files return the trained model or an error. Here `fit` works on the attributes of the instance, statement by
statement, and returns the instance as it is when the call ends, with the error if one was raised. The computations are those of the other files.
-/

namespace CML.Failed
open LogReg

/-! ## LogisticRegression (compiled with the default optimiser) -/

/-- logistic_regression.py:44-50: the attributes. `beta` has one entry for each feature and one for the bias. -/
structure LR where
  beta : Option (Σ d : Nat, Fin (d + 1) → ℝ) := none
  trained : Bool := false
  loaded : Bool := false

variable {n d : Nat}

/-- optimizers.py:639-663: the epochs of `NewtonMethod.run`. The parameters are updated in place (`beta -= …`, line 678), so `self.beta` holds them when
an epoch raises. -/
noncomputable def newtonLoop (x : Fin n → Fin d → ℝ) (y : Fin n → ℝ) : Nat → (Fin (d + 1) → ℝ) → (Fin (d + 1) → ℝ) × Option PyErr
  | 0, b => (b, none)
  | e + 1, b =>
    match newtonStep x y b with
    | .error err => (b, some err)
    | .ok b' => newtonLoop x y e b'

/-- logistic_regression.py:93-98 with parameters `b` for `d` features. -/
noncomputable def LR.train (o : LR) (x : Fin n → Fin d → ℝ) (y : Fin n → ℝ) (epochs : Nat) (b : Fin (d + 1) → ℝ) : LR × Option PyErr :=
  match newtonLoop x y epochs b with
  | (b', none) => ({ o with beta := some ⟨d, b'⟩, trained := true }, none)
  | (b', some e) => ({ o with beta := some ⟨d, b'⟩ }, some e)

/-- logistic_regression.py:70-98 `fit` of a compiled instance; `draw` is what the initialiser returns. Loaded parameters for another number of features
raise `ValueError` in the first epoch (`np.matmul`); a loaded instance has parameters (line 154). -/
noncomputable def LR.fit (draw : Fin (d + 1) → ℝ) (o : LR) (x : Fin n → Fin d → ℝ) (y : Fin n → ℝ) (epochs : Nat) : LR × Option PyErr :=
  match o.loaded, o.beta with
  | true, some ⟨d', b⟩ =>
    if h : d' = d then o.train x y epochs (h ▸ b)
    else if epochs = 0 then ({ o with trained := true }, none) else (o, some .valueError)
  | true, none => if epochs = 0 then ({ o with trained := true }, none) else (o, some .attributeError)
  | false, _ => o.train x y epochs draw

/-- logistic_regression.py:100-120 `predict`. -/
noncomputable def LR.predict (o : LR) (x : Fin n → Fin d → ℝ) : Except PyErr (Fin n → ℝ) :=
  if o.trained = false ∧ o.loaded = false then .error .valueError
  else match o.beta with
    | none => .error .attributeError
    | some ⟨d', b⟩ => if h : d' = d then .ok (forward x (h ▸ b)) else .error .valueError

/-! ## LinearDiscriminantAnalysis -/

/-- A row vector of some length (`none`: all `NaN`). -/
abbrev RowVec (K : Type) := Σ d : Nat, Option (Fin d → K)

/-- linear_discriminant_analysis.py:24-29: the attributes. -/
structure LDAObj (K : Type) where
  w : Option (RowVec K) := none
  mu0 : Option (RowVec K) := none
  mu1 : Option (RowVec K) := none
  trained : Bool := false
  loaded : Bool := false

variable {K : Type} [Field K] [LinearOrder K]

/-- linear_discriminant_analysis.py:31-57 `fit`: both means are stored before the projection vector is computed. -/
def LDAObj.fit (gw : Matrix (Fin d) (Fin d) K → (Fin d → K) → (Fin d → K) → Except PyErr (Fin d → K)) (o : LDAObj K)
    (x : List (Fin d → K)) (y : List Int) : LDAObj K × Option PyErr :=
  if x.length ≠ y.length then (o, some .indexError)
  else
    let X0 := LDA.rowsOf x y 0
    let X1 := LDA.rowsOf x y 1
    let mu0 := LDA.colMean X0
    let mu1 := LDA.colMean X1
    let o1 : LDAObj K := { o with mu0 := some ⟨d, mu0⟩, mu1 := some ⟨d, mu1⟩ }
    match gw (LDA.scatter X0 X1 (mu0.getD 0) (mu1.getD 0)) (mu0.getD 0) (mu1.getD 0) with
    | .error e => (o1, some e)
    | .ok w => ({ o1 with w := some ⟨d, if mu0.isSome && mu1.isSome then some w else none⟩, trained := true }, none)

/-- A vector of length `d`, if it has that length. -/
def asLen (d : Nat) : RowVec K → Option (Option (Fin d → K))
  | ⟨d', v⟩ => if h : d' = d then some (h ▸ v) else none

/-- linear_discriminant_analysis.py:59-84 `predict`; `np.dot` of vectors of different lengths raises `ValueError`. -/
def LDAObj.predict (o : LDAObj K) (x : List (Fin d → K)) : Except PyErr (List Int) :=
  if o.trained = false ∧ o.loaded = false then .error .valueError
  else match o.w, o.mu0, o.mu1 with
    | some w, some m0, some m1 =>
      match asLen d w, asLen d m0, asLen d m1 with
      | some w, some m0, some m1 => .ok (LDA.predict ⟨w, m0, m1⟩ x)
      | _, _, _ => .error .valueError
    | _, _, _ => .error .attributeError

/-! ## KMeans -/

/-- k_means.py:42-49: the attributes that `fit` sets. -/
structure KMObj (K : Type) (d : Nat) where
  centroids : Option (List (Option (Fin d → K))) := none
  clusters : Option (List Nat) := none
  trained : Bool := false
  loaded : Bool := false

/-- k_means.py:87-99: the training loop on the attributes. -/
def KMObj.loop (root : K → K) (x : List (Fin d → K)) (tol : K) : Nat → List (Option (Fin d → K)) → KMObj K d → KMObj K d × Option PyErr
  | 0, cs, o => ({ o with centroids := some cs }, none)
  | e + 1, cs, o =>
    match KMeans.getCluster root x cs with
    | none => ({ o with centroids := some cs }, some .valueError)
    | some lab =>
      match KMeans.compareDifferences cs (KMeans.calculateCentroids x lab) tol with
      | .error er => ({ o with centroids := some cs, clusters := some lab }, some er)
      | .ok diff =>
        if diff.any id then KMObj.loop root x tol e (KMeans.calculateCentroids x lab) { o with clusters := some lab }
        else ({ o with centroids := some cs, clusters := some lab }, none)

/-- k_means.py:67-101 `fit`; `start` is the result of `init_centroids`. -/
def KMObj.fit (root : K → K) (x : List (Fin d → K)) (tol : K) (epochs : Nat) (start : Except PyErr (List (Fin d → K))) (o : KMObj K d) :
    KMObj K d × Option PyErr :=
  match start with
  | .error e => (o, some e)
  | .ok init =>
    match KMObj.loop root x tol epochs (init.map some) o with
    | (o', none) => ({ o' with trained := true }, none)
    | (o', some e) => (o', some e)

/-- k_means.py:103-129 `predict`. -/
def KMObj.predict (root : K → K) (o : KMObj K d) (x : List (Fin d → K)) : Except PyErr (List Nat) :=
  if o.trained = false ∧ o.loaded = false then .error .valueError
  else match o.centroids with
    | none => .error .attributeError
    | some cs => match KMeans.getCluster root x cs with
      | none => .error .valueError
      | some l => .ok l

/-! ## GaussianMixture -/

/-- gaussian_mixture.py:60-65: the attributes that `fit` sets. -/
structure GMObj (M A C : Type) where
  mu : Option M := none
  sigma : Option (GMM.Arr K) := none
  alpha : Option A := none
  clusters : Option C := none
  trained : Bool := false
  loaded : Bool := false

/-- gaussian_mixture.py:107-110: the initialisation; `means` and `coefs` are the results of `init_means` and `init_mixture_coefficient`. -/
def GMObj.start {M A C : Type} (means : Except PyErr M) (d k : Nat) (cov : GMM.CovInit K) (coefs : Except PyErr A) (o : GMObj (K := K) M A C) :
    GMObj (K := K) M A C × Option PyErr :=
  match means with
  | .error e => (o, some e)
  | .ok m =>
    match GMM.initCovariances d k cov with
    | .error e => ({ o with mu := some m }, some e)
    | .ok s =>
      match coefs with
      | .error e => ({ o with mu := some m, sigma := some s }, some e)
      | .ok a => ({ o with mu := some m, sigma := some s, alpha := some a }, none)

/-! ## NaiveBayesClassifier -/

open Bayes

/-- naive_bayes_classifier.py:31-38: the attributes. -/
structure NBObj (V : Type) where
  prior : Option (ℝ × ℝ) := none
  pi0 : Dict String (Stored V) := []
  pi1 : Dict String (Stored V) := []
  trained : Bool := false
  loaded : Bool := false

variable {V : Type} [DecidableEq V]

/-- naive_bayes_classifier.py:91-140: the attributes one after the other; the two entries of an attribute are stored when both are computed. -/
noncomputable def NBObj.loop (order : List V → List V) (y : List Int) : List (String × Col V) → NBObj V → NBObj V × Option PyErr
  | [], o => (o, none)
  | (name, col) :: rest, o =>
    match nbColumn order y 0 col, nbColumn order y 1 col with
    | .ok a, .ok b => NBObj.loop order y rest { o with pi0 := Dict.set o.pi0 name a, pi1 := Dict.set o.pi1 name b }
    | .error e, _ => (o, some e)
    | _, .error e => (o, some e)

/-- naive_bayes_classifier.py:60-144 `fit` on a table with `y.length` rows. -/
noncomputable def NBObj.fit (order : List V → List V) (smoothing : Bool) (o : NBObj V) (table : List (String × Col V)) (y : List Int) :
    NBObj V × Option PyErr :=
  match Bayes.prior y.length y smoothing with
  | .error e => (o, some e)
  | .ok p =>
    match NBObj.loop order y table { o with prior := some p } with
    | (o', none) => ({ o' with trained := true }, none)
    | (o', some e) => (o', some e)

/-- `[d[name] for name in names]`; a missing name is a `KeyError`. -/
def lookAll (d : Dict String (Stored V)) : List String → Except PyErr (List (Stored V))
  | [] => .ok []
  | n :: ns =>
    match Dict.get d n, lookAll d ns with
    | some s, .ok ss => .ok (s :: ss)
    | none, _ => .error .keyError
    | _, .error e => .error e

/-- naive_bayes_classifier.py:146-232 `predict` for one row with as many values as there are names. -/
noncomputable def NBObj.predict (fl : ℝ → ℝ) (smoothing : Bool) (names : List String) (o : NBObj V) (x : List (Cell V)) : Except PyErr Int :=
  if o.trained = false ∧ o.loaded = false then .error .valueError
  else match o.prior with
    | none => .error .typeError
    | some (p0, p1) =>
      match lookAll o.pi0 names, lookAll o.pi1 names with
      | .ok a, .ok b => nbPredict fl smoothing ⟨p0, p1, a, b⟩ x
      | .error e, _ => .error e
      | _, .error e => .error e

/-! ## Ensembles -/

/-- bagging.py:71-77: the loop on the attributes; the seed is advanced before the learner is trained. -/
def bagLoop {Q E : Type*} (rng : Option Nat → (n : Nat) → Fin n → Fin n) (learn : List (List Q) → List (List Int) → Except PyErr E)
    (x : List (List Q)) (y : List Int) : Nat → Bagging.Obj E → Bagging.Obj E × Option PyErr
  | 0, o => (o, none)
  | k + 1, o =>
    match Ops.bootstrapSampling rng (.d2 x) (some (.d1 y)) (some o.seed) with
    | .ok (xs, some ys) =>
      match learn xs ys with
      | .ok e => bagLoop rng learn x y k { o with seed := o.seed + 1, members := o.members ++ [e] }
      | .error e => ({ o with seed := o.seed + 1 }, some e)
    | .ok (_, none) => (o, some .valueError)
    | .error e => (o, some e)

/-- bagging.py:53-79 `fit`. -/
def bagFit {Q E : Type*} (rng : Option Nat → (n : Nat) → Fin n → Fin n) (learn : List (List Q) → List (List Int) → Except PyErr E)
    (x : List (List Q)) (y : List Int) (k : Nat) (o : Bagging.Obj E) : Bagging.Obj E × Option PyErr :=
  match bagLoop rng learn x y k o with
  | (o', none) => ({ o' with trained := true }, none)
  | (o', some e) => (o', some e)

open Classical in
/-- boosting.py:70-91: the loop on the attributes. `alpha_list` is a list here; an array has no `append`. -/
noncomputable def adaLoop {X : Type*} (learn : (Fin n → ℝ) → Except PyErr (X → Int)) (x : Fin n → X) (y : Fin n → Int) :
    Nat → Option (Fin n → ℝ) → Ada.Obj X → Ada.Obj X × Option PyErr
  | 0, _, o => (o, none)
  | _ + 1, none, o => (o, some .valueError)
  | k + 1, some D, o =>
    match learn D with
    | .error e => (o, some e)
    | .ok h =>
      if o.asArray then (o, some .attributeError)
      else
        let p := fun i => h (x i)
        let e := Ada.errorOf D p y
        let o' := { o with estimators := o.estimators ++ [h], alphas := o.alphas ++ [Ada.alphaOf e] }
        if e > 1 / 2 ∨ e < Ada.EPS then (o', none)
        else adaLoop learn x y k (Ada.reweight D p y (Ada.alphaOf e)) o'

/-- boosting.py:51-97 `fit`. -/
noncomputable def adaFit {X : Type*} (learn : (Fin n → ℝ) → Except PyErr (X → Int)) (x : Fin n → X) (y : Fin n → Int) (k : Nat)
    (o : Ada.Obj X) : Ada.Obj X × Option PyErr :=
  match adaLoop learn x y k (some fun _ => 1 / (n : ℝ)) o with
  | (o', none) => ({ o' with asArray := true, trained := true }, none)
  | (o', some e) => (o', some e)

/-! ## BackPropagationNeuralNetwork (compiled with the default optimiser) -/

/-- back_propagation_neural_network.py:38-47: the attributes that `fit` uses. -/
structure BPObj where
  parameters : Option (List Net.Layer) := none
  trained : Bool := false
  loaded : Bool := false

/-- optimizers.py:172-194: the epochs of SGD, the parameters being changed in place. (An error inside the update itself does not occur: gradients have
the shapes of the parameters.) -/
noncomputable def sgdLoop (lr : ℝ) (x y : Net.Mat) : List Nat → List Net.Layer → List Net.Layer × Option PyErr
  | [], P => (P, none)
  | i :: is, P =>
    match Net.sgdStep lr x y P i with
    | .error e => (P, some e)
    | .ok P' => sgdLoop lr x y is P'

/-- back_propagation_neural_network.py:81-111 `fit` of an instance compiled with `structure`; `rnd` are the random numbers of the initialiser and `is` the
samples drawn in the epochs. -/
noncomputable def BPObj.fit (lr : ℝ) (rnd : Nat → ℕ → ℕ → ℝ) (layers : List Nat) (is : List Nat) (o : BPObj) (x y : Net.Mat) : BPObj × Option PyErr :=
  let start := if o.loaded then o.parameters.getD [] else Net.initLayers rnd 0 (x.cols :: layers)
  match sgdLoop lr x y is start with
  | (P, none) => ({ o with parameters := some P, trained := true }, none)
  | (P, some e) => ({ o with parameters := some P }, some e)

/-- back_propagation_neural_network.py:113-136 `predict`. -/
noncomputable def BPObj.predict (o : BPObj) (x : Net.Mat) : Except PyErr Net.Mat :=
  if o.trained = false ∧ o.loaded = false then .error .valueError
  else match o.parameters with
    | none => .error .attributeError
    | some P => match Net.forward x P with
      | .error e => .error e
      | .ok (y, _) => .ok y

end CML.Failed
