import Verif.Model.IO
import Verif.Model.Getters

/-!
# Model of `load_weights` / `save_weights` of all models

A model instance is its attribute dictionary (`fields`), the dictionary `self.parameters` of the
neural networks, and the two flags.  Each `load_weights` / `save_weights` is a straight-line program
(a list of lines); an exception stops it and leaves the effects of the lines before.
-/

namespace CML.Persist
open CML.Getters CML.IO

/-- Python values held by the attributes of a model.  `data` is any other picklable object
(a tree, a list of estimators, a table of probabilities), known by an identity. -/
inductive PyVal
  | none | num (q : ℚ) | str (s : String) | arr (shape : List Nat) (xs : List ℚ)
  | kernel (o : KernObj) | optimizer (o : OptObj) | loss (o : LossObj) | metric (o : MetricObj)
  | pruner (o : PruneObj) | data (id : Nat)
  deriving DecidableEq

/-- Values of HDF5 attributes: scalars, strings, arrays, raw bytes (`np.void`). -/
inductive HVal
  | num (q : ℚ) | str (s : String) | arr (shape : List Nat) (xs : List ℚ) | void (b : List Nat)
  deriving DecidableEq

/-- Library behaviour: `pickle`, and which attribute values HDF5 can store (an attribute lives in the
object header and must stay below 64 KB). -/
structure Env where
  dumps : PyVal → List Nat
  loads : List Nat → Option PyVal
  fits : HVal → Bool

/-- What is assumed of `pickle`: `loads(dumps(x))` equals `x`. -/
def Env.Pickles (env : Env) : Prop := ∀ v, env.loads (env.dumps v) = some v

/-- A model instance. -/
structure PyObj where
  fields : Dict String PyVal
  params : Dict String PyVal
  isTrained : Bool
  isLoaded : Bool

/-- The two data sets. -/
inductive DS | compile | weights
  deriving DecidableEq

/-- Right-hand sides in `save_weights`: `self.f`, `self.f.name`, `np.void(dumps(self.f))`. -/
inductive SaveExpr | field (f : String) | nameOf (f : String) | pickle (f : String)
  deriving DecidableEq

/-- `ds.attrs[key] = expr`, optionally under `if self.cond is not None`. -/
structure SaveLine where
  ds : DS
  key : String
  expr : SaveExpr
  cond : Option String := none
  deriving DecidableEq

/-- Right-hand sides in `load_weights`, applied to `ds.attrs[key]`. -/
inductive LoadExpr | attr | kernel | optimizer | loss | metric | unpickle | pruner
  deriving DecidableEq

/-- `self.field = expr(ds.attrs[key])`, optionally under `if self.cond is not None`. -/
structure LoadLine where
  field : String
  ds : DS
  key : String
  expr : LoadExpr
  cond : Option String := none
  deriving DecidableEq

/-- A class: its model name, the two programs, whether they end with the loop over
`self.parameters` (neural networks), and whether `load_weights` opens the data set `compile`. -/
structure Cls where
  name : String
  save : List SaveLine
  load : List LoadLine
  loop : Bool := false
  opensCompile : Bool := true

/-- `attrs[key] = v`: `TypeError` for values without HDF5 equivalent, a library error for values that
do not fit. -/
def toH (env : Env) (v : PyVal) : Except PyErr HVal :=
  match v with
  | .num q => if env.fits (.num q) then .ok (.num q) else .error .h5Error
  | .str s => if env.fits (.str s) then .ok (.str s) else .error .h5Error
  | .arr sh xs => if env.fits (.arr sh xs) then .ok (.arr sh xs) else .error .h5Error
  | _ => .error .typeError

/-- The value read back from an attribute. -/
def ofH : HVal → PyVal
  | .num q => .num q
  | .str s => .str s
  | .arr sh xs => .arr sh xs
  | .void _ => .none

/-- `self.f`: `AttributeError` if there is no such attribute. -/
def getField (o : PyObj) (f : String) : Except PyErr PyVal :=
  match o.fields.get f with
  | some v => .ok v
  | none => .error .attributeError

/-- `v.name`. -/
def pyName : PyVal → Except PyErr String
  | .kernel o => .ok o.name
  | .optimizer o => .ok o.name
  | .loss o => .ok o.name
  | .metric o => .ok o.name
  | .pruner o => .ok o.name
  | _ => .error .attributeError

/-- Evaluation of a right-hand side of `save_weights` including the storage of the value. -/
def evalSave (env : Env) (o : PyObj) : SaveExpr → Except PyErr HVal
  | .field f => getField o f >>= toH env
  | .nameOf f => do
    let v ← getField o f
    let s ← pyName v
    toH env (.str s)
  | .pickle f => do
    let v ← getField o f
    if env.fits (.void (env.dumps v)) then .ok (.void (env.dumps v)) else .error .h5Error

/-- The attributes of a data set. -/
def Params.ds {V : Type} (p : Params V) : DS → Option (Dict String V)
  | .compile => p.compile
  | .weights => p.weights

/-- `ds.attrs[key] = v`. -/
def Params.put {V : Type} (p : Params V) (d : DS) (k : String) (v : V) : Params V :=
  match d with
  | .compile => { p with compile := p.compile.map (fun a => a.set k v) }
  | .weights => { p with weights := p.weights.map (fun a => a.set k v) }

/-- Is the condition of a line met (`if self.cond is not None`)? -/
def active (o : PyObj) (cond : Option String) : Bool :=
  match cond with
  | none => true
  | some f => decide (o.fields.get f ≠ some .none)

/-- The straight-line part of a `save_weights`. -/
def execSave (env : Env) (o : PyObj) : List SaveLine → Params HVal → Params HVal × Option PyErr
  | [], p => (p, none)
  | l :: ls, p =>
    if active o l.cond then
      match evalSave env o l.expr with
      | .ok v => execSave env o ls (Params.put p l.ds l.key v)
      | .error e => (p, some e)
    else execSave env o ls p

/-- `for parameter in self.parameters: weights_ds.attrs[parameter] = self.parameters[parameter]`. -/
def execSaveLoop (env : Env) : Dict String PyVal → Params HVal → Params HVal × Option PyErr
  | [], p => (p, none)
  | (k, v) :: d, p =>
    match toH env v with
    | .ok h => execSaveLoop env d (Params.put p .weights k h)
    | .error e => (p, some e)

/-- `save_weights`: the file is created first (`io.initialize_weights_file(mode='w')`), then filled.
The `try/except TypeError` re-raises a `TypeError`. -/
def save (env : Env) (writable : String → Bool) (user : String) (c : Cls) (fs : FS HVal)
    (path : String) (o : PyObj) : FS HVal × Option PyErr :=
  match initWrite writable user fs path c.name with
  | (fs1, some e) => (fs1, some e)
  | (fs1, none) =>
    let r1 := execSave env o c.save ⟨some [], some []⟩
    let r := match r1.2 with
      | some e => (r1.1, some e)
      | none => if c.loop then execSaveLoop env o.params r1.1 else (r1.1, none)
    (fun p => if p = path then (fs1 p).map (fun f => { f with parameters := some r.1 }) else fs1 p, r.2)

/-- Evaluation of a right-hand side of `load_weights` on the stored value.  `loads(v.tobytes())`: a string has no
`tobytes`; the raw bytes of numbers and arrays are taken not to be a pickle (simplification; `UnpicklingError` is
`valueError`). -/
def evalLoad (env : Env) (o : PyObj) (e : LoadExpr) (h : HVal) : Except PyErr PyVal :=
  match e with
  | .attr => .ok (ofH h)
  | .kernel =>
    match h, o.fields.get "gamma" with
    | .str s, some (.num g) => (getKernel (.str s) g).map PyVal.kernel
    | .str s, _ => (getKernel (.str s) 0).map PyVal.kernel
    | _, _ => .error .attributeError
  | .optimizer =>
    match h with
    | .str s => (getOptimizer (.str s)).map PyVal.optimizer
    | _ => .error .attributeError
  | .loss =>
    match h with
    | .str s => (getLoss (.str s)).map PyVal.loss
    | _ => (getLoss .other).map PyVal.loss
  | .metric =>
    match h with
    | .str s => (getMetric (.str s)).map (fun m => (m.map PyVal.metric).getD .none)
    | _ => .error .attributeError
  | .pruner =>
    match h with
    | .str s => (getPruner (.str s)).map (fun m => (m.map PyVal.pruner).getD .none)
    | _ => .error .attributeError
  | .unpickle =>
    match h with
    | .void b =>
      match env.loads b with
      | some v => .ok v
      | none => .error .valueError
    | .str _ => .error .attributeError
    | _ => .error .valueError

/-- `self.f = v`. -/
def setField (o : PyObj) (f : String) (v : PyVal) : PyObj := { o with fields := o.fields.set f v }

/-- One line of a `load_weights`. -/
def loadLine (env : Env) (p : Params HVal) (o : PyObj) (l : LoadLine) : Except PyErr PyObj :=
  if active o l.cond then do
    let ds ← key (Params.ds p l.ds)
    let h ← key (ds.get l.key)
    let v ← evalLoad env o l.expr h
    .ok (setField o l.field v)
  else .ok o

/-- The straight-line part of a `load_weights`. -/
def execLoad (env : Env) (p : Params HVal) : List LoadLine → PyObj → PyObj × Option PyErr
  | [], o => (o, none)
  | l :: ls, o =>
    match loadLine env p o l with
    | .ok o' => execLoad env p ls o'
    | .error e => (o, some e)

/-- `for attr in weights_ds.attrs: self.parameters[attr] = weights_ds.attrs[attr]`. -/
def execLoadLoop : Dict String HVal → PyObj → PyObj
  | [], o => o
  | (k, h) :: d, o => execLoadLoop d { o with params := o.params.set k (ofH h) }

/-- `load_weights`: header check, the data sets must be present, the lines, the loop, `is_loaded = True`.
A `KeyError` is re-raised as a `KeyError`. -/
def load (env : Env) (pv : String → Option Version) (c : Cls) (fs : FS HVal) (path : String)
    (o : PyObj) : PyObj × Option PyErr :=
  match initRead pv fs path c.name with
  | .error e => (o, some e)
  | .ok p =>
    if c.opensCompile && p.compile.isNone then (o, some .keyError)
    else match p.weights with
    | none => (o, some .keyError)
    | some w =>
      match execLoad env p c.load o with
      | (o1, some e) => (o1, some e)
      | (o1, none) =>
        let o2 := if c.loop then execLoadLoop w o1 else o1
        ({ o2 with isLoaded := true }, none)

/-! ## The programs of the classes -/

/-- `linear_discriminant_analysis.py:98-144`. -/
def lda : Cls where
  name := "LinearDiscriminantAnalysis"
  save := [⟨.weights, "w", .field "w", none⟩, ⟨.weights, "mu_0", .field "mu_0", none⟩,
    ⟨.weights, "mu_1", .field "mu_1", none⟩]
  load := [⟨"w", .weights, "w", .attr, none⟩, ⟨"mu_0", .weights, "mu_0", .attr, none⟩,
    ⟨"mu_1", .weights, "mu_1", .attr, none⟩]
  opensCompile := false

/-- `logistic_regression.py:134-192`. -/
def logReg : Cls where
  name := "LogisticRegression"
  save := [⟨.compile, "optimizer", .nameOf "optimizer", none⟩, ⟨.compile, "loss", .nameOf "loss", none⟩,
    ⟨.compile, "metric", .nameOf "metric", none⟩, ⟨.weights, "beta", .field "beta", none⟩]
  load := [⟨"optimizer", .compile, "optimizer", .optimizer, none⟩, ⟨"loss", .compile, "loss", .loss, none⟩,
    ⟨"metric", .compile, "metric", .metric, none⟩, ⟨"beta", .weights, "beta", .attr, none⟩]

/-- `k_means.py:139-193`. -/
def kMeans : Cls where
  name := "KMeans"
  save := [⟨.compile, "init", .field "init", none⟩, ⟨.compile, "tol", .field "tol", none⟩,
    ⟨.weights, "centroids", .field "centroids", none⟩, ⟨.weights, "clusters", .field "clusters", none⟩]
  load := [⟨"init", .compile, "init", .attr, none⟩, ⟨"tol", .compile, "tol", .attr, none⟩,
    ⟨"centroids", .weights, "centroids", .attr, none⟩, ⟨"clusters", .weights, "clusters", .attr, none⟩]

/-- `gaussian_mixture.py:182-244`. -/
def gmm : Cls where
  name := "GaussianMixture"
  save := [⟨.compile, "init", .field "init", none⟩,
    ⟨.compile, "covariances_init", .pickle "covariances_init", none⟩,
    ⟨.compile, "mixture_coefficient_init", .pickle "mixture_coefficient_init", none⟩,
    ⟨.compile, "tol", .field "tol", none⟩,
    ⟨.weights, "mu", .field "mu", none⟩, ⟨.weights, "sigma", .field "sigma", none⟩,
    ⟨.weights, "alpha", .field "alpha", none⟩, ⟨.weights, "clusters", .field "clusters", none⟩]
  load := [⟨"init", .compile, "init", .attr, none⟩,
    ⟨"covariances_init", .compile, "covariances_init", .unpickle, none⟩,
    ⟨"mixture_coefficient_init", .compile, "mixture_coefficient_init", .unpickle, none⟩,
    ⟨"tol", .compile, "tol", .attr, none⟩,
    ⟨"mu", .weights, "mu", .attr, none⟩, ⟨"sigma", .weights, "sigma", .attr, none⟩,
    ⟨"alpha", .weights, "alpha", .attr, none⟩, ⟨"clusters", .weights, "clusters", .attr, none⟩]

/-- `support_vector_classifier.py:168-238` (simplification: the casts to float64 of `support_y` and `b`
are left out). -/
def svc : Cls where
  name := "SupportVectorClassifier"
  save := [⟨.compile, "C", .field "C", none⟩, ⟨.compile, "kernel", .nameOf "kernel", none⟩,
    ⟨.compile, "gamma", .field "gamma", none⟩, ⟨.compile, "tol", .field "tol", none⟩,
    ⟨.weights, "support", .field "support", none⟩, ⟨.weights, "support_vector", .field "support_vector", none⟩,
    ⟨.weights, "support_alpha", .field "support_alpha", none⟩, ⟨.weights, "support_y", .field "support_y", none⟩,
    ⟨.weights, "b", .field "b", none⟩]
  load := [⟨"C", .compile, "C", .attr, none⟩, ⟨"gamma", .compile, "gamma", .attr, none⟩,
    ⟨"kernel", .compile, "kernel", .kernel, none⟩, ⟨"tol", .compile, "tol", .attr, none⟩,
    ⟨"support", .weights, "support", .attr, none⟩, ⟨"support_vector", .weights, "support_vector", .attr, none⟩,
    ⟨"support_alpha", .weights, "support_alpha", .attr, none⟩, ⟨"support_y", .weights, "support_y", .attr, none⟩,
    ⟨"b", .weights, "b", .attr, none⟩]

/-- `back_propagation_neural_network.py:150-212`. -/
def bpnn : Cls where
  name := "BackPropagationNeuralNetwork"
  save := [⟨.compile, "network_structure", .field "network_structure", none⟩,
    ⟨.compile, "optimizer", .nameOf "optimizer", none⟩, ⟨.compile, "loss", .nameOf "loss", none⟩,
    ⟨.compile, "metric", .nameOf "metric", none⟩]
  load := [⟨"network_structure", .compile, "network_structure", .attr, none⟩,
    ⟨"optimizer", .compile, "optimizer", .optimizer, none⟩, ⟨"loss", .compile, "loss", .loss, none⟩,
    ⟨"metric", .compile, "metric", .metric, none⟩]
  loop := true

/-- `radial_basis_function_network.py:138-200`. -/
def rbfn : Cls where
  name := "RadialBasisFunctionNetwork"
  save := [⟨.compile, "hidden_units", .field "hidden_units", none⟩,
    ⟨.compile, "optimizer", .nameOf "optimizer", none⟩, ⟨.compile, "loss", .nameOf "loss", none⟩,
    ⟨.compile, "metric", .nameOf "metric", none⟩]
  load := [⟨"hidden_units", .compile, "hidden_units", .attr, none⟩,
    ⟨"optimizer", .compile, "optimizer", .optimizer, none⟩, ⟨"loss", .compile, "loss", .loss, none⟩,
    ⟨"metric", .compile, "metric", .metric, none⟩]
  loop := true

/-- `decision_tree_classifier.py:245-308`. -/
def tree : Cls where
  name := "DecisionTreeClassifier"
  save := [⟨.compile, "criterion", .field "criterion", none⟩,
    ⟨.compile, "pruning", .nameOf "pruner", some "pruner"⟩, ⟨.weights, "tree", .pickle "tree", none⟩]
  load := [⟨"criterion", .compile, "criterion", .attr, none⟩,
    ⟨"pruner", .compile, "pruning", .pruner, some "pruner"⟩, ⟨"tree", .weights, "tree", .unpickle, none⟩]

/-- `naive_bayes_classifier.py:246-307`. -/
def naiveBayes : Cls where
  name := "NaiveBayesClassifier"
  save := [⟨.compile, "smoothing", .field "smoothing", none⟩, ⟨.weights, "p_0", .field "p_0", none⟩,
    ⟨.weights, "p_1", .field "p_1", none⟩, ⟨.weights, "pi_0", .pickle "pi_0", none⟩,
    ⟨.weights, "pi_1", .pickle "pi_1", none⟩]
  load := [⟨"smoothing", .compile, "smoothing", .attr, none⟩, ⟨"p_0", .weights, "p_0", .attr, none⟩,
    ⟨"p_1", .weights, "p_1", .attr, none⟩, ⟨"pi_0", .weights, "pi_0", .unpickle, none⟩,
    ⟨"pi_1", .weights, "pi_1", .unpickle, none⟩]

/-- `semi_naive_bayes_classifiers.py:281-338`. -/
def spode : Cls where
  name := "SuperParentOneDependentEstimator"
  save := [⟨.compile, "super_parent_name", .field "super_parent_name", none⟩,
    ⟨.compile, "smoothing", .field "smoothing", none⟩, ⟨.weights, "_list_of_p_c", .pickle "_list_of_p_c", none⟩]
  load := [⟨"super_parent_name", .compile, "super_parent_name", .attr, none⟩,
    ⟨"smoothing", .compile, "smoothing", .attr, none⟩, ⟨"_list_of_p_c", .weights, "_list_of_p_c", .unpickle, none⟩]

/-- `semi_naive_bayes_classifiers.py:541-598`. -/
def aode : Cls where
  name := "AveragedOneDependentEstimator"
  save := [⟨.compile, "smoothing", .field "smoothing", none⟩, ⟨.compile, "m", .field "m", none⟩,
    ⟨.weights, "_attribute_list", .pickle "_attribute_list", none⟩]
  load := [⟨"smoothing", .compile, "smoothing", .attr, none⟩, ⟨"m", .compile, "m", .attr, none⟩,
    ⟨"_attribute_list", .weights, "_attribute_list", .unpickle, none⟩]

/-- `boosting.py:139-194`. -/
def adaBoost : Cls where
  name := "AdaBoostClassifier"
  save := [⟨.compile, "base_algorithm", .pickle "BaseLearner", none⟩,
    ⟨.weights, "estimators", .pickle "estimators", none⟩, ⟨.weights, "alpha_list", .field "alpha_list", none⟩]
  load := [⟨"BaseLearner", .compile, "base_algorithm", .unpickle, none⟩,
    ⟨"estimators", .weights, "estimators", .unpickle, none⟩, ⟨"alpha_list", .weights, "alpha_list", .attr, none⟩]

/-- `bagging.py:120-175`. -/
def bagging : Cls where
  name := "BaggingClassifier"
  save := [⟨.compile, "base_algorithm", .pickle "BaseLearner", none⟩,
    ⟨.weights, "estimators", .pickle "estimators", none⟩, ⟨.weights, "seed", .field "seed", none⟩]
  load := [⟨"BaseLearner", .compile, "base_algorithm", .unpickle, none⟩,
    ⟨"estimators", .weights, "estimators", .unpickle, none⟩, ⟨"seed", .weights, "seed", .attr, none⟩]

/-- All classes with `save_weights` and `load_weights`. -/
def classes : List Cls :=
  [spode, aode, naiveBayes, adaBoost, bagging, tree, svc, gmm, kMeans, bpnn, rbfn, lda, logReg]

end CML.Persist
