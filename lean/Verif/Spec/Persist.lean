import Verif.Model.Persist
import Verif.Spec.Getters

/-! # Specification of saving and loading -/

namespace CML.Persist
open CML.Getters CML.IO

/-- The learned or configured values of a class that a weights file carries. -/
def savedData : List (String × List String) :=
  [("SuperParentOneDependentEstimator", ["super_parent_name", "smoothing", "_list_of_p_c"]),
   ("AveragedOneDependentEstimator", ["smoothing", "m", "_attribute_list"]),
   ("NaiveBayesClassifier", ["smoothing", "p_0", "p_1", "pi_0", "pi_1"]),
   ("AdaBoostClassifier", ["BaseLearner", "estimators", "alpha_list"]),
   ("BaggingClassifier", ["BaseLearner", "estimators", "seed"]),
   ("DecisionTreeClassifier", ["criterion", "tree"]),
   ("SupportVectorClassifier", ["C", "gamma", "tol", "support", "support_vector", "support_alpha", "support_y", "b"]),
   ("GaussianMixture", ["init", "covariances_init", "mixture_coefficient_init", "tol", "mu", "sigma", "alpha", "clusters"]),
   ("KMeans", ["init", "tol", "centroids", "clusters"]),
   ("BackPropagationNeuralNetwork", ["network_structure"]),
   ("RadialBasisFunctionNetwork", ["hidden_units"]),
   ("LinearDiscriminantAnalysis", ["w", "mu_0", "mu_1"]),
   ("LogisticRegression", ["beta"])]

/-- The attributes that hold the values of a model that its weights file carries. -/
def dataFields (name : String) : List String :=
  ((savedData.filter (fun p => p.1 == name)).map Prod.snd).flatten

/-- The backend objects of the model can be named in a file: their names are documented names. -/
def Nameable (o : PyObj) : Prop :=
  (∀ f k, o.fields.get f = some (.kernel k) → k.name ∈ kernNames.map Prod.fst) ∧
  (∀ f k, o.fields.get f = some (.optimizer k) → k.name ∈ optNames.map Prod.fst) ∧
  (∀ f k, o.fields.get f = some (.pruner k) → k.name ∈ pruneNames.map Prod.fst)

/-- The attributes that hold backend objects do hold backend objects of their kind (or not yet
anything). -/
def WellTyped (o : PyObj) : Prop :=
  (∀ v, o.fields.get "kernel" = some v → v = .none ∨ (∃ s, v = .str s) ∨ ∃ k, v = .kernel k) ∧
  (∀ v, o.fields.get "optimizer" = some v → v = .none ∨ ∃ k, v = .optimizer k) ∧
  (∀ v, o.fields.get "loss" = some v → v = .none ∨ ∃ k, v = .loss k) ∧
  (∀ v, o.fields.get "metric" = some v → v = .none ∨ ∃ k, v = .metric k) ∧
  (∀ v, o.fields.get "pruner" = some v → v = .none ∨ ∃ k, v = .pruner k)

/-- The value has an HDF5 equivalent (a number, a string or an array) that fits into an attribute. -/
def Attribute (env : Env) (v : PyVal) : Prop :=
  (∃ q, v = .num q ∧ env.fits (.num q) = true) ∨ (∃ s, v = .str s ∧ env.fits (.str s) = true) ∨
  ∃ sh xs, v = .arr sh xs ∧ env.fits (.arr sh xs) = true

/-- The object has a name attribute with value `s`. -/
def Named (v : PyVal) (s : String) : Prop :=
  (∃ o, v = .kernel o ∧ s = o.name) ∨ (∃ o, v = .optimizer o ∧ s = o.name) ∨ (∃ o, v = .loss o ∧ s = o.name) ∨
  (∃ o, v = .metric o ∧ s = o.name) ∨ ∃ o, v = .pruner o ∧ s = o.name

/-- The right-hand side of a line of `save_weights` can be evaluated and stored. -/
def Storable (env : Env) (o : PyObj) : SaveExpr → Prop
  | .field f => ∃ v, o.fields.get f = some v ∧ Attribute env v
  | .nameOf f => ∃ v s, o.fields.get f = some v ∧ Named v s ∧ env.fits (.str s) = true
  | .pickle f => ∃ v, o.fields.get f = some v ∧ env.fits (.void (env.dumps v)) = true

end CML.Persist
