import Verif.Model.Getters

/-! # The documented names -/

namespace CML.Getters

/-- Documented optimizer names. -/
def optNames : List (String × OptCls) :=
  [("gd", .gd), ("gradient_descent", .gd), ("newton", .newton), ("newton_method", .newton),
   ("sgd", .sgd), ("stochastic_gradient_descent", .sgd), ("adam", .adam), ("rbf", .rbf), ("SMO", .smo)]
/-- Documented loss names. -/
def lossNames : List (String × LossCls) :=
  [("mse", .mse), ("mean_squared_error", .mse), ("log_likelihood", .logLikelihood),
   ("binary_crossentropy", .binary), ("categorical_crossentropy", .categorical), ("crossentropy", .crossentropy)]
/-- Documented metric names. -/
def metricNames : List (String × MetricCls) :=
  [("binary_accuracy", .binary), ("categorical_accuracy", .categorical), ("accuracy", .accuracy)]
/-- Documented kernel names. -/
def kernNames : List (String × KernCls) :=
  [("linear", .linear), ("rbf", .rbf), ("gaussian", .gaussian), ("poly", .poly), ("sigmoid", .sigmoid)]
/-- Documented initializer names (`glorot_normal` and `xavier_normal` name the same distribution). -/
def initNames : List (String × InitCls) :=
  [("random_normal", .randomNormal), ("he_normal", .heNormal), ("xavier_normal", .xavierNormal),
   ("glorot_normal", .xavierNormal), ("rbf_normal", .rbfNormal)]
/-- Documented criteria. -/
def critNames : List (String × CritCls) :=
  [("gini", .gini), ("gain", .gain), ("entropy", .entropy), ("weighted_gini", .weightedGini)]
/-- Documented pruning modes. -/
def pruneNames : List (String × PruneCls) := [("post", .post), ("pre", .pre)]

/-- The documented defaults of the optimizers: learning rate 0.01 for gradient descent, SGD and the RBF optimizer; 0.001, 0.9, 0.999 and 1e-7 for Adam. -/
def optDefaults : List (String × List ℚ) :=
  [("gd", [1/100]), ("newton", []), ("sgd", [1/100]), ("adam", [1/1000, 9/10, 999/1000, 1/10^7]), ("rbf", [1/100]), ("SMO", [])]
/-- The documented defaults of the kernels besides gamma: degree 3, beta 1, theta -1. -/
def kernDefaults (gamma : ℚ) : List (String × List ℚ) :=
  [("linear", []), ("poly", [gamma, 3]), ("rbf", [gamma]), ("gaussian", [gamma]), ("sigmoid", [gamma, 1, -1])]

/-- `get` accepts exactly the names of the table, yields an object of the class of the table,
and raises `AttributeError` for every other string. -/
def AcceptsExactly {C H R : Type} (get : String → Except PyErr R) (view : R → Option (Obj C H))
    (table : List (String × C)) : Prop :=
  (∀ s c, (s, c) ∈ table → ∃ r o, get s = .ok r ∧ view r = some o ∧ o.cls = c) ∧
  (∀ s, s ∉ table.map Prod.fst → get s = .error .attributeError)

end CML.Getters
