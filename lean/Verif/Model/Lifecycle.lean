import Verif.Model.Persist

/-!
# Model of the life cycle of a model: `compile`, `fit`, `save_weights`, `load_weights`, `predict`

What `compile` and `fit` compute is left open: they install arbitrary attributes; `fit` either
completes, which sets `is_trained`, or raises before that line.
-/

namespace CML.Persist
open CML.Getters CML.IO

/-- A method call (other than `predict`). -/
inductive Op
  | compile (fields : Dict String PyVal)
  | fit (fields params : Dict String PyVal) (completes : Bool)
  | save (path : String)
  | load (path : String)

/-- What a call did, as far as readiness for prediction is concerned. -/
inductive Event | fitted | loaded | other
  deriving DecidableEq

/-- The instance and the file system. -/
structure World where
  obj : PyObj
  fs : FS HVal

/-- One call.  `fit`: `self.is_trained = True` is the last statement before `return self` in
`support_vector_classifier.py:124`, `logistic_regression.py:96`, `linear_discriminant_analysis.py:55`,
`naive_bayes_classifier.py:142`, `semi_naive_bayes_classifiers.py:217,495`,
`back_propagation_neural_network.py:109`, `radial_basis_function_network.py:101`, `k_means.py:99`,
`gaussian_mixture.py:134`, `decision_tree_classifier.py:178`, `boosting.py:95`, `bagging.py:77`. -/
def step (env : Env) (pv : String → Option Version) (writable : String → Bool) (user : String) (c : Cls)
    (w : World) : Op → World × Event
  | .compile f => ({ w with obj := { w.obj with fields := f } }, .other)
  | .fit f p true => ({ w with obj := { w.obj with fields := f, params := p, isTrained := true } }, .fitted)
  | .fit f p false => ({ w with obj := { w.obj with fields := f, params := p } }, .other)
  | .save path => ({ w with fs := (save env writable user c w.fs path w.obj).1 }, .other)
  | .load path =>
    match load env pv c w.fs path w.obj with
    | (o', none) => ({ w with obj := o' }, .loaded)
    | (o', some _) => ({ w with obj := o' }, .other)

/-- A history of calls. -/
def run (env : Env) (pv : String → Option Version) (writable : String → Bool) (user : String) (c : Cls) :
    World → List Op → World × List Event
  | w, [] => (w, [])
  | w, op :: ops =>
    let r := step env pv writable user c w op
    let s := run env pv writable user c r.1 ops
    (s.1, r.2 :: s.2)

/-- The guard at the start of `predict`: `support_vector_classifier.py:140-142`,
`logistic_regression.py:112-114`, `linear_discriminant_analysis.py:71-73`,
`naive_bayes_classifier.py:161-163`, `semi_naive_bayes_classifiers.py:236-238,511-513`,
`back_propagation_neural_network.py:126-128`, `radial_basis_function_network.py:117-119`,
`k_means.py:117-119`, `gaussian_mixture.py:155-157`, `decision_tree_classifier.py:195-197`,
`boosting.py:112-114`, `bagging.py:94-96`. -/
def predictGuard (o : PyObj) : Except PyErr Unit :=
  if o.isTrained = false ∧ o.isLoaded = false then .error .valueError else .ok ()

/-- `DecisionStumpClassifier.predict` and `TwoLevelDecisionTreeClassifier.predict` have no guard
(`decision_tree_classifier.py:47-63,350-360`): they use `self.stump` / `self.tree`, which is `None` before
`fit`.  `predictWith` is the prediction with a trained stump or tree; a two-level tree is only consulted
if there is a sample. -/
def unguardedPredict {T X Y : Type} (predictWith : T → List X → List Y) (twoLevel : Bool) (tree : Option T)
    (x : List X) : Except PyErr (List Y) :=
  match tree with
  | some t => .ok (predictWith t x)
  | none => if twoLevel && x.isEmpty then .ok [] else .error .attributeError

/-- `DecisionTreeClassifier.fit`, `decision_tree_classifier.py:169-176`: the tree is generated only if no
weights were loaded; then it is pruned if there is a pruner. -/
def treeFit {D T : Type} (generate : D → T) (prune : Option (D → T → T)) (isLoaded : Bool) (tree : T) (d : D) : T :=
  let t := if isLoaded = false then generate d else tree
  match prune with
  | some p => p d t
  | none => t

/-- `LogisticRegression.fit`, `BackPropagationNeuralNetwork.fit`, `RadialBasisFunctionNetwork.fit`
(`logistic_regression.py:91-94`, `back_propagation_neural_network.py:99-107`,
`radial_basis_function_network.py:96-99`): parameters are initialised only if no weights were loaded, then
optimised on the data. -/
def netFit {D P : Type} (initP : D → P) (optimize : D → P → P) (isLoaded : Bool) (params : P) (d : D) : P :=
  optimize d (if isLoaded = false then initP d else params)

end CML.Persist
