import Verif.Model.Trace

/-!
# Histories of calls of a GaussianMixture and of a RadialBasisFunctionNetwork

classicML/api/models/cluster/gaussian_mixture.py:46-213, classicML/api/models/neural_network/radial_basis_function_network.py:33-169. What the computations do is modelled
in `Model/GMM` and `Model/RBF`; here they are parameters.
-/

namespace CML.Failed

/-! ## GaussianMixture -/

/-- The computations of `gaussian_mixture.py`: `init_means`, `init_covariances`, `init_mixture_coefficient` (lines 109-111; the first argument are the attributes set by
`compile`, `none` if it was not called), an EM step (115-122), the comparison (124-126), and the clusters of rows (162-170). -/
structure GMOps (I M S A X C : Type) where
  means : Option I → X → Except PyErr M
  covariances : Option I → X → Except PyErr S
  coefficients : Option I → X → Except PyErr A
  em : X → M × S × A → Except PyErr (M × S × A)
  changed : Option I → M × S × A → M × S × A → Bool
  clusters : X → M × S × A → Except PyErr C

/-- gaussian_mixture.py:46-65: the instance; `settings` are the four attributes set by `compile`. -/
structure GMState (I M S A C : Type) where
  settings : Option I := none
  mu : Option M := none
  sigma : Option S := none
  alpha : Option A := none
  clusters : Option C := none
  trained : Bool := false
  loaded : Bool := false

/-- A call: `compile`; `fit`; `load_weights` of a file with the attributes of `compile` and these weights (`none`: missing); of a file without some attribute of `compile`
(which leaves a mixture of settings); of a file that `io.initialize_weights_file` refuses. -/
inductive GMCall (I M S A X C : Type)
  | compile (i : I)
  | fit (x : X) (epochs : Nat)
  | load (i : I) (mu : Option M) (sigma : Option S) (alpha : Option A) (clusters : Option C)
  | halfCompile (i : I)
  | badFile (e : PyErr)

variable {I M S A X C : Type}

/-- gaussian_mixture.py:113-131: the loop; the attributes are assigned in every epoch that changes them. -/
def gmLoop (ops : GMOps I M S A X C) (i : Option I) (x : X) : Nat → M × S × A → (M × S × A) × Option PyErr
  | 0, P => (P, none)
  | n + 1, P =>
    match ops.em x P with
    | .error e => (P, some e)
    | .ok Q => if ops.changed i P Q then gmLoop ops i x n Q else (P, none)

/-- gaussian_mixture.py:92-139 `fit`. The flag is set before the clusters of the samples are computed. -/
def GMState.fit (ops : GMOps I M S A X C) (o : GMState I M S A C) (x : X) (epochs : Nat) : GMState I M S A C × Option PyErr :=
  match ops.means o.settings x with
  | .error e => (o, some e)
  | .ok m =>
    match ops.covariances o.settings x with
    | .error e => ({ o with mu := some m }, some e)
    | .ok s =>
      match ops.coefficients o.settings x with
      | .error e => ({ o with mu := some m, sigma := some s }, some e)
      | .ok a =>
        match gmLoop ops o.settings x epochs (m, s, a) with
        | ((m, s, a), some e) => ({ o with mu := some m, sigma := some s, alpha := some a }, some e)
        | ((m, s, a), none) =>
          match ops.clusters x (m, s, a) with
          | .error e => ({ o with mu := some m, sigma := some s, alpha := some a, trained := true }, some e)
          | .ok c => ({ o with mu := some m, sigma := some s, alpha := some a, trained := true, clusters := some c }, none)

/-- gaussian_mixture.py:182-213 `load_weights`. -/
def GMState.load (o : GMState I M S A C) (i : I) : Option M → Option S → Option A → Option C → GMState I M S A C × Option PyErr
  | none, _, _, _ => ({ o with settings := some i }, some .keyError)
  | some m, none, _, _ => ({ o with settings := some i, mu := some m }, some .keyError)
  | some m, some s, none, _ => ({ o with settings := some i, mu := some m, sigma := some s }, some .keyError)
  | some m, some s, some a, none => ({ o with settings := some i, mu := some m, sigma := some s, alpha := some a }, some .keyError)
  | some m, some s, some a, some c => ({ o with settings := some i, mu := some m, sigma := some s, alpha := some a, clusters := some c, loaded := true }, none)

/-- gaussian_mixture.py:67-139, 182-213: one call. -/
def GMState.step (ops : GMOps I M S A X C) (o : GMState I M S A C) : GMCall I M S A X C → GMState I M S A C × Option PyErr
  | .compile i => ({ o with settings := some i }, none)
  | .fit x n => o.fit ops x n
  | .load i m s a c => o.load i m s a c
  | .halfCompile i => ({ o with settings := some i }, some .keyError)
  | .badFile e => (o, some e)

/-- gaussian_mixture.py:141-172 `predict`; a missing attribute would be an error of another kind. -/
def GMState.predict (ops : GMOps I M S A X C) (o : GMState I M S A C) (x : X) : Except PyErr C :=
  if o.trained = false ∧ o.loaded = false then .error .valueError
  else match o.mu, o.sigma, o.alpha with
    | some m, some s, some a => ops.clusters x (m, s, a)
    | _, _, _ => .error .typeError

/-! ## RadialBasisFunctionNetwork -/

/-- radial_basis_function_network.py:33-50: the instance; `initializer` tells whether there is one; `params` are the entries `w, b, c, beta`; `opt` the optimiser (its learning rate `L`). -/
structure RBState (P L : Type) where
  initializer : Bool := false
  hidden : Option Nat := none
  opt : Option L := none
  params : Option P := none
  trained : Bool := false
  loaded : Bool := false

/-- A call: `compile`; `fit` with these random numbers; `load_weights` of a file with a complete network; of a file that lacks an attribute of `compile` (what is read before
it is given; simplification: a file has all four weights or fails before them); of a file that is refused. -/
inductive RBCall (R D P L : Type)
  | compile (hidden : Nat) (lr : L)
  | fit (rnd : R) (d : D)
  | load (hidden : Nat) (lr : L) (params : P)
  | incomplete (hidden : Option Nat) (lr : Option L)
  | badFile (e : PyErr)

variable {R D P L Y : Type}

/-- radial_basis_function_network.py:77-103 `fit`; `init` is the initialiser, `train` the optimiser (in place: it leaves parameters also if it raises). Without
`compile` the initialiser is `None` (not callable, `TypeError`), after an incomplete load the optimiser may be. -/
def RBState.fit (init : Nat → R → P) (train : L → D → P → P × Option PyErr) (o : RBState P L) (rnd : R) (d : D) : RBState P L × Option PyErr :=
  let start : Except PyErr P :=
    if o.loaded = false then (match o.initializer, o.hidden with | true, some h => .ok (init h rnd) | _, _ => .error .typeError)
    else (match o.params with | none => .error .typeError | some p => .ok p)
  match start with
  | .error e => (o, some e)
  | .ok p =>
    match o.opt with
    | none => ({ o with params := some p }, some .typeError)
    | some lr =>
      match train lr d p with
      | (p', none) => ({ o with params := some p', trained := true }, none)
      | (p', some e) => ({ o with params := some p' }, some e)

/-- radial_basis_function_network.py:52-103, 138-169: one call. -/
def RBState.step (init : Nat → R → P) (train : L → D → P → P × Option PyErr) (o : RBState P L) : RBCall R D P L → RBState P L × Option PyErr
  | .compile h lr => ({ o with initializer := true, hidden := some h, opt := some lr }, none)
  | .fit r d => o.fit init train r d
  | .load h lr p => ({ o with hidden := some h, opt := some lr, params := some p, loaded := true }, none)
  | .incomplete none _ => (o, some .keyError)
  | .incomplete (some h) none => ({ o with hidden := some h }, some .keyError)
  | .incomplete (some h) (some lr) => ({ o with hidden := some h, opt := some lr }, some .keyError)
  | .badFile e => (o, some e)

/-- radial_basis_function_network.py:105-124 `predict`: the forward pass is a method of the optimiser. -/
def RBState.predict (forward : D → P → Except PyErr Y) (o : RBState P L) (x : D) : Except PyErr Y :=
  if o.trained = false ∧ o.loaded = false then .error .valueError
  else match o.opt, o.params with
    | some _, some p => forward x p
    | none, _ => .error .attributeError
    | _, none => .error .keyError

end CML.Failed
