import Verif.Model.Compile
import Verif.Spec.Network
import Verif.Spec.RBF
import Verif.Spec.Init

/-! # Specifications for compiling, training and predicting with any optimiser -/

namespace CML.Comp
open CML.Net (Mat Layer)
open CML.Getters

variable {σ : Type}

/-- A call of `compile` that raises changes neither the instance nor the random generator. -/
def AllOrNothing (compile : Inst → σ → Inst × σ × Option PyErr) : Prop :=
  ∀ o s e, (compile o s).2.2 = some e → (compile o s).1 = o ∧ (compile o s).2.1 = s

/-- What a call of `compile` never touches: the seed, the parameters and the marks. -/
def KeepsModel (o o' : Inst) : Prop := o'.seed = o.seed ∧ o'.params = o.params ∧ o'.trained = o.trained ∧ o'.loaded = o.loaded

/-- The three families of models. -/
inductive Family | logistic | network | rbfNetwork

/-- The optimisers made for each family (README and the class comments). -/
def MadeFor : Family → OptCls → Prop
  | .logistic, c => c = .gd ∨ c = .newton
  | .network, c => c = .sgd ∨ c = .adam
  | .rbfNetwork, c => c = .rbf

/-- There is a data set with samples and features on which `fit` completes, whatever the number of epochs and the random numbers. -/
def Trainable (fit : Inst → Mat → RBF.Labels → Nat → σ → Except PyErr (Inst × σ)) (o : Inst) : Prop :=
  ∃ x y, 0 < x.rows ∧ 0 < x.cols ∧ ∀ epochs s, ∃ r, fit o x y epochs s = .ok r

/-- `fit` raises on every data set with samples, for every positive number of epochs. -/
def Useless (fit : Inst → Mat → RBF.Labels → Nat → σ → Except PyErr (Inst × σ)) (o : Inst) : Prop :=
  ∀ x y epochs s, 0 < x.rows → 0 < epochs → ∃ e, fit o x y epochs s = .error e

/-- If the training is watched there are a loss and a metric, and the log-likelihood is used with the optimisers of the logistic regression only. -/
def Watchable (w : Watch) (c : OptCls) (loss : Option LossObj) (metric : Option MetricObj) : Prop :=
  w.on = true → ∃ l m, loss = some l ∧ metric = some m ∧ (l.cls = .logLikelihood → (c = .gd ∨ c = .newton) ∧ l.name = "log_likelihood")

/-- Computing the losses and the metrics raises nothing but what `watch` says. -/
def Watch.Clean (w : Watch) : Prop := (∀ c p, w.lossErr c p = none) ∧ ∀ c p, w.metricErr c p = none

/-- The random generator draws indices inside of the range. -/
def Gen.Sound (g : Gen σ) : Prop := ∀ s n, 0 < n → (g.randint s n).1 < n

/-- `compile` followed by `fit`. -/
def session (compile : Inst → σ → Inst × σ × Option PyErr) (fit : Inst → σ → Except PyErr (Inst × σ)) (o : Inst) (s : σ) : Except PyErr (Inst × σ) :=
  match compile o s with
  | (_, _, some e) => .error e
  | (o', s', none) => fit o' s'

/-- `f` lists the `n` labels in the order of `reshape(-1, 1)`: row by row. -/
def LabelsAre (y : RBF.Labels) (n : Nat) (f : ℕ → ℝ) : Prop :=
  match y with
  | .vec m v => m = n ∧ ∀ i < n, v i = f i
  | .mat m => m.rows * m.cols = n ∧ ∀ a < m.rows, ∀ b < m.cols, m.e a b = f (a * m.cols + b)

/-- The labels as one row for every sample: a vector is a column. -/
def RowsAre (y : RBF.Labels) (m : Mat) : Prop :=
  match y with
  | .vec n v => m.rows = n ∧ m.cols = 1 ∧ ∀ i, m.e i 0 = v i
  | .mat m' => m = m'

/-- The next `k` indices below `n` that the generator draws, and its state afterwards. -/
def indices (g : Gen σ) (n : Nat) : Nat → σ → List Nat × σ
  | 0, s => ([], s)
  | k + 1, s => ((g.randint s n).1 :: (indices g n k (g.randint s n).2).1, (indices g n k (g.randint s n).2).2)

/-- The parameters of a network of the given sizes as the initialiser `k` draws them: normal numbers times the documented scale, row by row and layer by
layer; no biases. -/
def StartsAs (g : Gen σ) (k : Init.Kind) (sizes : List Nat) (s : σ) (P : List Layer) : Prop :=
  P.length + 1 = sizes.length ∧ ∀ (l nIn nOut : Nat) (L : Layer), sizes[l]? = some nIn → sizes[l + 1]? = some nOut → P[l]? = some L →
    (L.w.rows = nOut ∧ L.w.cols = nIn ∧ ∃ c, (0 < nIn → Init.IsScale k nIn nOut c) ∧
      ∀ i < nOut, ∀ j < nIn, L.w.e i j = Init.nth g.randn s (Init.weightsBefore sizes l + i * nIn + j) * c) ∧
    L.b.rows = 1 ∧ L.b.cols = nOut ∧ ∀ j < nOut, L.b.e 0 j = 0

/-- The parameters of an RBF network with `h` units as `RBFNormal` draws them: `2 h` uniform numbers for the centres, then `h` normal numbers. -/
def StartsRBF (g : Gen σ) (h : Nat) (s sc : σ) (P : RBF.Params) : Prop :=
  (P.w.rows = 1 ∧ P.w.cols = h ∧ ∀ j < h, P.w.e 0 j = 0) ∧ (P.b.rows = 1 ∧ P.b.cols = 1 ∧ P.b.e 0 0 = 0) ∧
  (P.c.rows = h ∧ P.c.cols = 2 ∧ ∀ i < h, ∀ j < 2, P.c.e i j = Init.nth g.rand s (i * 2 + j)) ∧
  (P.beta.rows = 1 ∧ P.beta.cols = h ∧ ∀ j < h, P.beta.e 0 j = Init.nth g.randn sc j)

/-- What is raised by an optimiser that was made for another family of models. -/
def wrongOptimizer : Family → OptCls → Option PyErr
  | .logistic, .sgd => some .indexError
  | .logistic, .adam => some .indexError
  | .logistic, .rbf => some .indexError
  | .network, .gd => some .attributeError
  | .network, .newton => some .attributeError
  | .network, .rbf => some .keyError
  | .rbfNetwork, .gd => some .attributeError
  | .rbfNetwork, .newton => some .attributeError
  | .rbfNetwork, .sgd => some .keyError
  | .rbfNetwork, .adam => some .keyError
  | _, .smo => some .typeError
  | _, _ => none

/-- What `predict` raises with an optimiser that was made for another family. -/
def wrongPredictor : Family → OptCls → Option PyErr
  | _, .smo => some .attributeError
  | f, c => wrongOptimizer f c

end CML.Comp
