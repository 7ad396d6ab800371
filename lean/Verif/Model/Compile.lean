import Verif.Model.Getters
import Verif.Model.Init
import Verif.Model.RBF
import Verif.Model.Adam
import Verif.Model.LogReg

/-!
# `compile`, `fit` and `predict` of the models that take an optimiser

`LogisticRegression` (api/models/linear_model/logistic_regression.py), `BackPropagationNeuralNetwork`
(api/models/neural_network/back_propagation_neural_network.py), `RadialBasisFunctionNetwork`
(api/models/neural_network/radial_basis_function_network.py) and the `compile` of `DecisionTreeClassifier`, with the Python engine, as methods on the
attributes of an instance and the process wide random generator. Every one of the six optimisers can be put into every one of the models. The
training steps are those of `LogReg`, `Network`, `Adam` and `RBF`. Rounding is left out.
-/

namespace CML.Comp
open CML.Net (Mat Layer) 
open CML.Getters

/-- `np.random`: with `randint(0, n)`. -/
structure Gen (σ : Type) extends Init.Rng σ where
  randint : σ → Nat → Nat × σ

variable {σ : Type}

/-- What `self.beta` or `self.parameters` may hold: `None` (logistic_regression.py:49), an array with `k` entries (a logistic regression with `k - 1`
features), the dictionary of a network (`net []` is `dict()`, back_propagation_neural_network.py:53), the dictionary of an RBF network. -/
inductive Params
  | none
  | arr (k : Nat) (b : ℕ → ℝ)
  | net (P : List Layer)
  | rbf (P : RBF.Params)

/-- The attributes (logistic_regression.py:43-52, back_propagation_neural_network.py:47-57, radial_basis_function_network.py:40-50). `layers` is
`network_structure` (networks only; a list of sizes) and `hidden` is `hidden_units` (RBF networks only). `initializer` is what the user gave, or the
object that `compile` made of it. -/
structure Inst where
  seed : Option Int := none
  initializer : Arg InitObj := .none
  layers : Option (List Nat) := none
  hidden : Option Int := none
  optimizer : Option OptObj := none
  loss : Option LossObj := none
  metric : Option MetricObj := none
  params : Params := .none
  trained : Bool := false
  loaded : Bool := false

/-- logistic_regression.py:34-52 `__init__`. -/
def newLR (seed : Option Int) (initializer : Arg InitObj) : Inst := { seed := seed, initializer := initializer }
/-- back_propagation_neural_network.py:38-57 `__init__`. -/
def newNN (seed : Option Int) (initializer : Arg InitObj) : Inst := { seed := seed, initializer := initializer, params := .net [] }
/-- radial_basis_function_network.py:33-50 `__init__`. -/
def newRBF (seed : Option Int) : Inst := { seed := seed, params := .net [] }

/-! ## compile -/

/-- initializers.py:32 `np.random.seed(seed)`: without a seed the state comes from the operating system (`entropy`); a seed outside of `[0, 2^32)`
raises `ValueError`. -/
def reseed (g : Gen σ) (entropy : σ) : Option Int → Except PyErr σ
  | none => .ok entropy
  | some k => if 0 ≤ k ∧ k < 4294967296 then .ok (g.seeded k.toNat) else .error .valueError

/-- training.py:36-65 `get_initializer(arg, seed)` with the effect of the constructor (initializers.py:22-32) on the random generator. An instance is
returned as it is. -/
def makeInit (g : Gen σ) (entropy : σ) (arg : Arg InitObj) (seed : Option Int) (s : σ) : Except PyErr (InitObj × σ) :=
  match getInitializer arg seed with
  | .error e => .error e
  | .ok i =>
    match arg with
    | .obj _ => .ok (i, s)
    | _ =>
      match reseed g entropy seed with
      | .error e => .error e
      | .ok s' => .ok (i, s')

/-- The arguments `optimizer`, `loss` and `metric` of `compile`. -/
structure Args where
  optimizer : Arg OptObj
  loss : Arg LossObj
  metric : Arg MetricObj

/-- logistic_regression.py:66-68, back_propagation_neural_network.py:77-79, radial_basis_function_network.py:73-75: one assignment after the other. -/
def compileRest (a : Args) (o : Inst) : Inst × Option PyErr :=
  match getOptimizer a.optimizer with
  | .error e => (o, some e)
  | .ok p =>
    match getLoss a.loss with
    | .error e => ({ o with optimizer := some p }, some e)
    | .ok l =>
      match getMetric a.metric with
      | .error e => ({ o with optimizer := some p, loss := some l }, some e)
      | .ok m => ({ o with optimizer := some p, loss := some l, metric := m }, none)

/-- logistic_regression.py:54-68 `compile`. -/
def compileLR (g : Gen σ) (entropy : σ) (a : Args) (o : Inst) (s : σ) : Inst × σ × Option PyErr :=
  match makeInit g entropy o.initializer o.seed s with
  | .error e => (o, s, some e)
  | .ok (i, s') =>
    ((compileRest a { o with initializer := .obj i }).1, s', (compileRest a { o with initializer := .obj i }).2)

/-- back_propagation_neural_network.py:59-79 `compile`. -/
def compileNN (g : Gen σ) (entropy : σ) (layers : List Nat) (a : Args) (o : Inst) (s : σ) : Inst × σ × Option PyErr :=
  match makeInit g entropy o.initializer o.seed s with
  | .error e => ({ o with layers := some layers }, s, some e)
  | .ok (i, s') =>
    ((compileRest a { o with layers := some layers, initializer := .obj i }).1, s',
      (compileRest a { o with layers := some layers, initializer := .obj i }).2)

/-- radial_basis_function_network.py:52-75 `compile`; `hidden` is what `_cml_precision.int(hidden_units)` gives. -/
def compileRBF (g : Gen σ) (entropy : σ) (hidden : Except PyErr Int) (a : Args) (o : Inst) (s : σ) : Inst × σ × Option PyErr :=
  match hidden with
  | .error e => (o, s, some e)
  | .ok h =>
    match makeInit g entropy (.str "rbf_normal") o.seed s with
    | .error e => ({ o with hidden := some h }, s, some e)
    | .ok (i, s') =>
      ((compileRest a { o with hidden := some h, initializer := .obj i }).1, s',
        (compileRest a { o with hidden := some h, initializer := .obj i }).2)

/-- decision_tree_classifier.py:93-98: the attributes that `compile` sets; the generator is given by its criterion. -/
structure TreeInst where
  criterion : Option String := none
  generator : Option CritObj := none
  pruner : Option PruneObj := none

/-- decision_tree_classifier.py:103-124 `compile`; generators.py:94-106 `DecisionTreeGenerator(criterion)` calls `get_criterion`. -/
def compileTree (criterion : Arg CritObj) (pruning : Arg PruneObj) (o : TreeInst) : TreeInst × Option PyErr :=
  match criterion with
  | .str c =>
    if c = "gain" ∨ c = "gini" ∨ c = "entropy" then
      if pruning = .none ∨ pruning = .str "pre" ∨ pruning = .str "post" then
        match getCriterion (.str c) with
        | .error e => ({ o with criterion := some c }, some e)
        | .ok k =>
          match getPruner pruning with
          | .error e => ({ o with criterion := some c, generator := some k }, some e)
          | .ok p => ({ criterion := some c, generator := some k, pruner := p }, none)
      else (o, some .attributeError)
    else (o, some .attributeError)
  | _ => (o, some .attributeError)

/-! ## The initial parameters -/

/-- The kind of an initialiser that takes `attributes_or_structure`; `RBFNormal` does not (initializers.py:154). -/
def kindOf : InitCls → Option Init.Kind
  | .randomNormal => some .randomNormal
  | .heNormal => some .heNormal
  | .xavierNormal => some .xavierNormal
  | .glorotNormal => some .xavierNormal
  | .rbfNormal => none

/-- logistic_regression.py:92 `self.initializer(attributes_or_structure=…)` for `d` features: calling `None` or a string, and the wrong keyword, raise
`TypeError`. -/
noncomputable def initBeta (g : Gen σ) (i : Arg InitObj) (d : Nat) (s : σ) : Except PyErr (Params × σ) :=
  match i with
  | .obj i =>
    match kindOf i.cls with
    | none => .error .typeError
    | some k => .ok (.arr (d + 1) fun j => (Init.callInt g.toRng k d s).1.e j 0, (Init.callInt g.toRng k d s).2)
  | _ => .error .typeError

/-- initializers.py:57-62, 92-97, 131-136: the loop over the layers. -/
noncomputable def netLayers (g : Gen σ) (k : Init.Kind) : List Nat → σ → List Layer × σ
  | nIn :: nOut :: rest, s =>
    (⟨Init.Mat.scale (Init.randMat g.randn nOut nIn s).1 (Init.layerScale k nIn nOut), ⟨1, nOut, fun _ _ => 0⟩⟩ ::
        (netLayers g k (nOut :: rest) (Init.randMat g.randn nOut nIn s).2).1,
      (netLayers g k (nOut :: rest) (Init.randMat g.randn nOut nIn s).2).2)
  | _, s => ([], s)

/-- back_propagation_neural_network.py:98-103 for `d` features. Without a structure `None.insert` raises `AttributeError` (before the initialiser is
called). -/
noncomputable def initNet (g : Gen σ) (i : Arg InitObj) (layers : Option (List Nat)) (d : Nat) (s : σ) : Except PyErr (Params × σ) :=
  match layers with
  | none => .error .attributeError
  | some ls =>
    match i with
    | .obj i =>
      match kindOf i.cls with
      | none => .error .typeError
      | some k => .ok (.net (netLayers g k (d :: ls) s).1, (netLayers g k (d :: ls) s).2)
    | _ => .error .typeError

/-- radial_basis_function_network.py:95 `self.initializer(hidden_units=…)`, initializers.py:154-170: a negative number raises `ValueError` (`np.zeros`),
no number `TypeError`. -/
noncomputable def initRBF (g : Gen σ) (i : Arg InitObj) (hidden : Option Int) (s : σ) : Except PyErr (Params × σ) :=
  match i with
  | .obj i =>
    if i.cls = .rbfNormal then
      match hidden with
      | none => .error .typeError
      | some h =>
        if h < 0 then .error .valueError
        else
          .ok (.rbf (RBF.init h.toNat (Init.randMat g.rand h.toNat 2 s).1.e
              (Init.randMat g.randn 1 h.toNat (Init.randMat g.rand h.toNat 2 s).2).1.e),
            (Init.randMat g.randn 1 h.toNat (Init.randMat g.rand h.toNat 2 s).2).2)
    else .error .typeError
  | _ => .error .typeError

/-! ## The optimisers on any parameters -/

/-- `hyper[i]` as a number. -/
noncomputable def hyp (o : OptObj) (i : Nat) : ℝ := ((o.hyper.getD i 0 : ℚ) : ℝ)

/-- The number of labels and the labels one after the other (`y.reshape(-1, 1)`). -/
def flat : RBF.Labels → Nat × (ℕ → ℝ)
  | .vec n f => (n, f)
  | .mat y => (y.rows * y.cols, fun i => y.e (i / y.cols) (i % y.cols))

/-- The label of a sample is a row (optimizers.py:180, 271-272). -/
def asMat : RBF.Labels → Mat
  | .vec n f => ⟨n, 1, fun i _ => f i⟩
  | .mat y => y

/-- The entries of the table. -/
def xFin (x : Mat) : Fin x.rows → Fin x.cols → ℝ := fun i j => x.e i j

/-- A vector of `k` entries. -/
def extend {k : Nat} (f : Fin k → ℝ) : ℕ → ℝ := fun j => if h : j < k then f ⟨j, h⟩ else 0

/-- optimizers.py:536-541: an epoch of `GradientDescent`. `parameters.reshape` (line 578): a dictionary and `None` have no `reshape`. (Another number of
labels than of samples is an error here, also where numpy repeats a single one.) -/
noncomputable def gdEpoch (lr : ℝ) (x : Mat) (y : RBF.Labels) : Params → Except PyErr Params
  | .arr k b =>
    if k = x.cols + 1 ∧ (flat y).1 = x.rows then
      .ok (.arr (x.cols + 1) (extend (LogReg.gdStep lr (xFin x) (fun i => (flat y).2 i) fun j => b j)))
    else .error .valueError
  | _ => .error .attributeError

/-- optimizers.py:643-650: an epoch of `NewtonMethod` (line 693). -/
noncomputable def newtonEpoch (x : Mat) (y : RBF.Labels) : Params → Except PyErr Params
  | .arr k b =>
    if k = x.cols + 1 ∧ (flat y).1 = x.rows then
      match LogReg.newtonStep (xFin x) (fun i => (flat y).2 i) fun j => b j with
      | .error e => .error e
      | .ok b' => .ok (.arr (x.cols + 1) (extend b'))
    else .error .valueError
  | _ => .error .attributeError

/-- optimizers.py:174-182: an epoch of `StochasticGradientDescent`: `randint(0, 0)` raises `ValueError`; `len(None)` `TypeError`; a string as the index of
an array `IndexError`; the dictionary of an RBF network has no key `'w1'` (lines 229-235). -/
noncomputable def sgdEpoch (g : Gen σ) (lr : ℝ) (x : Mat) (y : RBF.Labels) (p : Params) (s : σ) : Except PyErr (Params × σ) :=
  if x.rows = 0 then .error .valueError
  else
    match p with
    | .none => .error .typeError
    | .arr _ _ => .error .indexError
    | .rbf _ => .error .keyError
    | .net P =>
      match Net.sgdStep lr x (asMat y) P (g.randint s x.rows).1 with
      | .error e => .error e
      | .ok P' => .ok (.net P', (g.randint s x.rows).2)

/-- optimizers.py:470-491 `Adam._initializer` on any parameters: `len(None)`; an array with two entries or more is indexed with a string. The result
is the state of the optimiser: the layers with their moments, or an array with at most one entry. -/
def adamStart : Params → Except PyErr (List Net.AdamLayer ⊕ Params)
  | .none => .error .typeError
  | .arr k b => if 2 ≤ k then .error .indexError else .ok (.inr (.arr k b))
  | .net P => .ok (.inl (Net.adamInit P))
  | .rbf _ => .error .keyError

/-- optimizers.py:401-410: epoch `t` of `Adam`. -/
noncomputable def adamEpoch (g : Gen σ) (o : OptObj) (x : Mat) (y : RBF.Labels) (t : Nat) (S : List Net.AdamLayer ⊕ Params) (s : σ) :
    Except PyErr ((List Net.AdamLayer ⊕ Params) × σ) :=
  if x.rows = 0 then .error .valueError
  else
    match S with
    | .inr _ => .error .indexError
    | .inl S =>
      match Net.sampleGrad x (asMat y) (Net.layersOf S) (g.randint s x.rows).1 with
      | .error e => .error e
      | .ok gs =>
        match Net.adamUpdate (hyp o 0) (hyp o 1) (hyp o 2) (hyp o 3) t S gs with
        | .error e => .error e
        | .ok S' => .ok (.inl S', (g.randint s x.rows).2)

/-- The parameters in the state of Adam. -/
def adamParams : List Net.AdamLayer ⊕ Params → Params
  | .inl S => .net (Net.layersOf S)
  | .inr p => p

/-- optimizers.py:778-784: an epoch of `RadialBasisFunctionOptimizer` (line 827: the four keys). -/
noncomputable def rbfEpoch (lr : ℝ) (x : Mat) (y : RBF.Labels) : Params → Except PyErr Params
  | .none => .error .typeError
  | .arr _ _ => .error .indexError
  | .net _ => .error .keyError
  | .rbf P =>
    match RBF.step lr x y P with
    | .error e => .error e
    | .ok P' => .ok (.rbf P')

/-- Whether training is watched: a progress bar (`verbose=True`, or one left by an earlier call) or a list of callbacks; and the errors that computing a
loss or a metric at given parameters may raise (shapes). -/
structure Watch where
  on : Bool
  lossErr : LossCls → Params → Option PyErr
  metricErr : MetricCls → Params → Option PyErr

/-- optimizers.py:184-191, 412-419, 542-546, 653-657, 786-788: the values that are shown. Gradient descent and Newton's method look at the name of the loss;
the two-argument call of `LogLikelihood` raises `IndexError` (losses.py:124 `args[0]`). Calling `None` raises `TypeError`. -/
def watch (w : Watch) (c : OptCls) (loss : Option LossObj) (metric : Option MetricObj) (p : Params) : Except PyErr Unit :=
  if w.on = false then .ok ()
  else
    match loss with
    | none => .error (if c = .gd ∨ c = .newton then .attributeError else .typeError)
    | some l =>
      if l.cls = .logLikelihood ∧ ¬ ((c = .gd ∨ c = .newton) ∧ l.name = "log_likelihood") then .error .indexError
      else
        match w.lossErr l.cls p with
        | some e => .error e
        | none =>
          match metric with
          | none => .error .typeError
          | some m =>
            match w.metricErr m.cls p with
            | some e => .error e
            | none => .ok ()

/-- The loops `for epoch in range(1, epochs + 1)` (optimizers.py:172, 398, 534, 641, 775): `k` epochs, the first is epoch `t`. -/
def loop {S : Type} (step : Nat → S → σ → Except PyErr (S × σ)) (mon : S → Except PyErr Unit) : Nat → Nat → S → σ → Except PyErr (S × σ)
  | _, 0, S, s => .ok (S, s)
  | t, k + 1, S, s =>
    match step t S s with
    | .error e => .error e
    | .ok (S', s') =>
      match mon S' with
      | .error e => .error e
      | .ok _ => loop step mon (t + 1) k S' s'

/-- A step that draws no random number. -/
def pure1 (f : Params → Except PyErr Params) (_t : Nat) (p : Params) (s : σ) : Except PyErr (Params × σ) :=
  match f p with
  | .error e => .error e
  | .ok p' => .ok (p', s)

/-- A step that does not count epochs. -/
def uncounted (f : Params → σ → Except PyErr (Params × σ)) (_t : Nat) (p : Params) (s : σ) : Except PyErr (Params × σ) := f p s

/-- `self.optimizer(x, y, epochs, parameters, verbose, loss, metric, callbacks)` (optimizers.py:91-104 and the `run` methods 142-195, 366-427, 508-553,
617-665, 751-795). `SequentialMinimalOptimization.run` (906-940) takes the loss for the number of epochs: `0 < loss` raises `TypeError`. -/
noncomputable def run (g : Gen σ) (w : Watch) (o : OptObj) (loss : Option LossObj) (metric : Option MetricObj) (x : Mat) (y : RBF.Labels) (epochs : Nat)
    (p : Params) (s : σ) : Except PyErr (Params × σ) :=
  match o.cls with
  | .gd => loop (pure1 (gdEpoch (hyp o 0) x y)) (watch w .gd loss metric) 1 epochs p s
  | .newton => loop (pure1 (newtonEpoch x y)) (watch w .newton loss metric) 1 epochs p s
  | .sgd => loop (uncounted (sgdEpoch g (hyp o 0) x y)) (watch w .sgd loss metric) 1 epochs p s
  | .adam =>
    match adamStart p with
    | .error e => .error e
    | .ok S =>
      match loop (adamEpoch g o x y) (fun S => watch w .adam loss metric (adamParams S)) 1 epochs S s with
      | .error e => .error e
      | .ok (S', s') => .ok (adamParams S', s')
  | .rbf => loop (pure1 (rbfEpoch (hyp o 0) x y)) (watch w .rbf loss metric) 1 epochs p s
  | .smo => .error .typeError

/-- `self.optimizer.forward(x, parameters)` (optimizers.py:217-258, 567-584, 682-699, 814-839); SMO has no `forward`. -/
noncomputable def forward (o : OptObj) (x : Mat) (p : Params) : Except PyErr Mat :=
  match o.cls with
  | .gd | .newton =>
    match p with
    | .arr k b => if k = x.cols + 1 then .ok ⟨x.rows, 1, fun i _ => extend (LogReg.forward (xFin x) fun j => b j) i⟩ else .error .valueError
    | _ => .error .attributeError
  | .sgd | .adam =>
    match p with
    | .none => .error .typeError
    | .arr _ _ => .error .indexError
    | .rbf _ => .error .keyError
    | .net P => match Net.forward x P with
      | .error e => .error e
      | .ok (y, _) => .ok y
  | .rbf =>
    match p with
    | .none => .error .typeError
    | .arr _ _ => .error .indexError
    | .net _ => .error .keyError
    | .rbf P => match RBF.forward x P with
      | .error e => .error e
      | .ok (y, _) => .ok y
  | .smo => .error .attributeError

/-! ## fit and predict -/

/-- The last statements of `fit` (logistic_regression.py:94-98, back_propagation_neural_network.py:105-109, radial_basis_function_network.py:97-101): an
instance without an optimiser calls `None`. What a call that raises leaves behind is modelled in `FailedFit`. -/
noncomputable def train (g : Gen σ) (w : Watch) (o : Inst) (x : Mat) (y : RBF.Labels) (epochs : Nat) (p : Params) (s : σ) : Except PyErr (Inst × σ) :=
  match o.optimizer with
  | none => .error .typeError
  | some p' =>
    match run g w p' o.loss o.metric x y epochs p s with
    | .error e => .error e
    | .ok (q, s') => .ok ({ o with params := q, trained := true }, s')

/-- `fit` with the initial parameters `fresh`, which are made unless weights were loaded. -/
noncomputable def fitWith (fresh : σ → Except PyErr (Params × σ)) (g : Gen σ) (w : Watch) (o : Inst) (x : Mat) (y : RBF.Labels) (epochs : Nat) (s : σ) :
    Except PyErr (Inst × σ) :=
  if o.loaded then train g w o x y epochs o.params s
  else
    match fresh s with
    | .error e => .error e
    | .ok (p, s') => train g w o x y epochs p s'

/-- logistic_regression.py:70-98 `fit`. -/
noncomputable def fitLR (g : Gen σ) (w : Watch) (o : Inst) (x : Mat) (y : RBF.Labels) (epochs : Nat) (s : σ) : Except PyErr (Inst × σ) :=
  fitWith (initBeta g o.initializer x.cols) g w o x y epochs s

/-- back_propagation_neural_network.py:81-111 `fit`. -/
noncomputable def fitNN (g : Gen σ) (w : Watch) (o : Inst) (x : Mat) (y : RBF.Labels) (epochs : Nat) (s : σ) : Except PyErr (Inst × σ) :=
  fitWith (initNet g o.initializer o.layers x.cols) g w o x y epochs s

/-- radial_basis_function_network.py:77-103 `fit`. -/
noncomputable def fitRBF (g : Gen σ) (w : Watch) (o : Inst) (x : Mat) (y : RBF.Labels) (epochs : Nat) (s : σ) : Except PyErr (Inst × σ) :=
  fitWith (initRBF g o.initializer o.hidden) g w o x y epochs s

/-- logistic_regression.py:112-119 (before `np.squeeze`), back_propagation_neural_network.py:126-136 and radial_basis_function_network.py:117-124 `predict` of
an array. -/
noncomputable def predict (o : Inst) (x : Mat) : Except PyErr Mat :=
  if o.trained = false ∧ o.loaded = false then .error .valueError
  else
    match o.optimizer with
    | none => .error .attributeError
    | some p => forward p x o.params

end CML.Comp
