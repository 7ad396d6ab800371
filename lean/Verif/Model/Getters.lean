import Verif.Prelude
import Mathlib.Algebra.Order.Ring.Rat

/-!
# Model of `/repo/classicML/backend/training.py`: from names to backend objects

An object is its class, its `name` attribute and its other constructor arguments.
-/

namespace CML.Getters

/-- A backend object: class, `name`, other parameters. -/
structure Obj (C H : Type) where
  cls : C
  name : String
  hyper : H
  deriving DecidableEq, Repr

/-- What a user may pass to a getter: a string, an instance of the expected base class, `None`, or
anything else. -/
inductive Arg (α : Type)
  | str (s : String) | obj (a : α) | none | other
  deriving DecidableEq, Repr

/-- `backend/python/optimizers.py:123,331,494,606,737,869`. -/
inductive OptCls | gd | newton | sgd | adam | rbf | smo
  deriving DecidableEq, Repr
abbrev OptObj := Obj OptCls (List ℚ)

/-- Constructors with default arguments (`optimizers.py:131,346-351,497,609,740,898`). -/
def OptCls.default : OptCls → OptObj
  | .gd => ⟨.gd, "gradient_descent", [1/100]⟩
  | .newton => ⟨.newton, "newton_method", []⟩
  | .sgd => ⟨.sgd, "stochastic_gradient_descent", [1/100]⟩
  | .adam => ⟨.adam, "adam", [1/1000, 9/10, 999/1000, 1/10000000]⟩
  | .rbf => ⟨.rbf, "rbf", [1/100]⟩
  | .smo => ⟨.smo, "SMO", []⟩

/-- `get_optimizer`, `training.py:152-182`. -/
def getOptimizer : Arg OptObj → Except PyErr OptObj
  | .str s =>
    if s = "gd" ∨ s = "gradient_descent" then .ok OptCls.gd.default
    else if s = "newton" ∨ s = "newton_method" then .ok OptCls.newton.default
    else if s = "sgd" ∨ s = "stochastic_gradient_descent" then .ok OptCls.sgd.default
    else if s = "adam" then .ok OptCls.adam.default
    else if s = "rbf" then .ok OptCls.rbf.default
    else if s = "SMO" then .ok OptCls.smo.default
    else .error .attributeError
  | .obj o => .ok o
  | .none => .error .attributeError
  | .other => .error .attributeError

/-- `backend/python/losses.py:30,55,80,106,132`. -/
inductive LossCls | binary | categorical | crossentropy | logLikelihood | mse
  deriving DecidableEq, Repr
abbrev LossObj := Obj LossCls Unit

/-- Default constructors, `losses.py:33,58,84,109,135`. -/
def LossCls.default : LossCls → LossObj
  | .binary => ⟨.binary, "binary_crossentropy", ()⟩
  | .categorical => ⟨.categorical, "categorical_crossentropy", ()⟩
  | .crossentropy => ⟨.crossentropy, "crossentropy", ()⟩
  | .logLikelihood => ⟨.logLikelihood, "log_likelihood", ()⟩
  | .mse => ⟨.mse, "mean_squared_error", ()⟩

/-- `get_loss`, `training.py:100-125`: never raises. -/
def getLoss : Arg LossObj → Except PyErr LossObj
  | .str s =>
    if s = "mse" ∨ s = "mean_squared_error" then .ok LossCls.mse.default
    else if s = "log_likelihood" then .ok LossCls.logLikelihood.default
    else if s = "binary_crossentropy" then .ok LossCls.binary.default
    else if s = "categorical_crossentropy" then .ok LossCls.categorical.default
    else if s = "crossentropy" then .ok LossCls.crossentropy.default
    else .ok LossCls.crossentropy.default
  | .obj o => .ok o
  | .none => .ok LossCls.crossentropy.default
  | .other => .ok LossCls.crossentropy.default

/-- `backend/python/metrics.py:35,66,98`. -/
inductive MetricCls | accuracy | binary | categorical
  deriving DecidableEq, Repr
abbrev MetricObj := Obj MetricCls Unit

/-- Default constructors, `metrics.py:44,74,106`. -/
def MetricCls.default : MetricCls → MetricObj
  | .accuracy => ⟨.accuracy, "accuracy", ()⟩
  | .binary => ⟨.binary, "binary_accuracy", ()⟩
  | .categorical => ⟨.categorical, "categorical_accuracy", ()⟩

/-- `get_metric`, `training.py:128-149`.  The string branch has no `else`, so the function falls off
its end: `none` is Python's `None`. -/
def getMetric : Arg MetricObj → Except PyErr (Option MetricObj)
  | .str s =>
    if s = "binary_accuracy" then .ok (some MetricCls.binary.default)
    else if s = "categorical_accuracy" then .ok (some MetricCls.categorical.default)
    else if s = "accuracy" then .ok (some MetricCls.accuracy.default)
    else .ok none
  | .obj o => .ok (some o)
  | .none => .error .attributeError
  | .other => .error .attributeError

/-- `backend/python/kernels.py:29,50,82,111,119`. -/
inductive KernCls | linear | poly | rbf | gaussian | sigmoid
  deriving DecidableEq, Repr
/-- `hyper` is `[]` (linear), `[gamma, degree]`, `[gamma]`, or `[gamma, beta, theta]`. -/
abbrev KernObj := Obj KernCls (List ℚ)

/-- Constructors with a given gamma and otherwise default arguments (`kernels.py:32,61,91,115,132`). -/
def KernCls.default (gamma : ℚ) : KernCls → KernObj
  | .linear => ⟨.linear, "linear", []⟩
  | .poly => ⟨.poly, "poly", [gamma, 3]⟩
  | .rbf => ⟨.rbf, "rbf", [gamma]⟩
  | .gaussian => ⟨.gaussian, "gaussian", [gamma]⟩
  | .sigmoid => ⟨.sigmoid, "sigmoid", [gamma, 1, -1]⟩

/-- `get_kernel`, `training.py:68-97`. -/
def getKernel (arg : Arg KernObj) (gamma : ℚ) : Except PyErr KernObj :=
  match arg with
  | .str s =>
    if s = "linear" then .ok (KernCls.default gamma .linear)
    else if s = "rbf" then .ok (KernCls.default gamma .rbf)
    else if s = "gaussian" then .ok (KernCls.default gamma .gaussian)
    else if s = "poly" then .ok (KernCls.default gamma .poly)
    else if s = "sigmoid" then .ok (KernCls.default gamma .sigmoid)
    else .error .attributeError
  | .obj o => .ok o
  | .none => .error .attributeError
  | .other => .error .attributeError

/-- `backend/python/initializers.py:37,67,102,141,149`. -/
inductive InitCls | randomNormal | heNormal | xavierNormal | glorotNormal | rbfNormal
  deriving DecidableEq, Repr
/-- `hyper` is the seed. -/
abbrev InitObj := Obj InitCls (Option Int)

/-- Default constructors, `initializers.py:40,74,110,145,152`. -/
def InitCls.default (seed : Option Int) : InitCls → InitObj
  | .randomNormal => ⟨.randomNormal, "random_normal", seed⟩
  | .heNormal => ⟨.heNormal, "he_normal", seed⟩
  | .xavierNormal => ⟨.xavierNormal, "xavier_normal", seed⟩
  | .glorotNormal => ⟨.glorotNormal, "glorot_normal", seed⟩
  | .rbfNormal => ⟨.rbfNormal, "rbf_normal", seed⟩

/-- `get_initializer`, `training.py:36-65`. -/
def getInitializer (arg : Arg InitObj) (seed : Option Int) : Except PyErr InitObj :=
  match arg with
  | .str s =>
    if s = "random_normal" then .ok (InitCls.default seed .randomNormal)
    else if s = "he_normal" then .ok (InitCls.default seed .heNormal)
    else if s = "xavier_normal" ∨ s = "glorot_normal" then .ok (InitCls.default seed .xavierNormal)
    else if s = "rbf_normal" then .ok (InitCls.default seed .rbfNormal)
    else .error .attributeError
  | .obj o => .ok o
  | .none => .ok (InitCls.default seed .randomNormal)
  | .other => .error .attributeError

/-- `backend/python/tree/criteria.py:102,120,174,192`. -/
inductive CritCls | entropy | gain | gini | weightedGini
  deriving DecidableEq, Repr
abbrev CritObj := Obj CritCls Unit

/-- Default constructors, `criteria.py:104,122,176,194`. -/
def CritCls.default : CritCls → CritObj
  | .entropy => ⟨.entropy, "entropy", ()⟩
  | .gain => ⟨.gain, "gain", ()⟩
  | .gini => ⟨.gini, "gini", ()⟩
  | .weightedGini => ⟨.weightedGini, "weighted_gini", ()⟩

/-- `get_criterion`, `training.py:11-33`. -/
def getCriterion : Arg CritObj → Except PyErr CritObj
  | .str s =>
    if s = "gini" then .ok CritCls.gini.default
    else if s = "gain" then .ok CritCls.gain.default
    else if s = "entropy" then .ok CritCls.entropy.default
    else if s = "weighted_gini" then .ok CritCls.weightedGini.default
    else .error .attributeError
  | .obj o => .ok o
  | .none => .error .attributeError
  | .other => .error .attributeError

/-- `backend/python/tree/pruners.py:35,157`. -/
inductive PruneCls | post | pre
  deriving DecidableEq, Repr
abbrev PruneObj := Obj PruneCls Unit

/-- Default constructors, `pruners.py:38,164`. -/
def PruneCls.default : PruneCls → PruneObj
  | .post => ⟨.post, "post", ()⟩
  | .pre => ⟨.pre, "pre", ()⟩

/-- `get_pruner`, `training.py:185-203`: an instance is refused (only strings and `None` are known);
`none` is Python's `None`. -/
def getPruner : Arg PruneObj → Except PyErr (Option PruneObj)
  | .str s =>
    if s = "post" then .ok (some PruneCls.post.default)
    else if s = "pre" then .ok (some PruneCls.pre.default)
    else .error .attributeError
  | .obj _ => .error .attributeError
  | .none => .ok none
  | .other => .error .attributeError

end CML.Getters
