import Verif.Model.Plots
import Verif.Model.SVC
import Verif.Model.Ensemble

/-!
# Model of the figures that draw a decision boundary on a grid (classicML/api/plots/support_vector_machine.py, ensemble.py)

A figure is the data handed to matplotlib: the markers, and the heights over the grid of which `plt.contour(…, [0])` draws the zero level.
-/

namespace CML.PlotsGrid
open Plots

/-- `np.c_[X.ravel(), Y.ravel()]` for `X, Y = np.meshgrid(xs, ys)`: the rows run through `xs` first. -/
def meshRows (xs ys : List ℝ) : List (List ℝ) := ys.flatMap fun v => xs.map fun u => [u, v]

/-- `y_pred.reshape((r, c))`; another number of values is a `ValueError`. -/
def reshape (r c : Nat) (l : List Int) : Except PyErr (List (List Int)) :=
  if l.length ≠ r * c then .error .valueError else .ok ((List.range r).map fun i => (l.drop (i * c)).take c)

/-- bayes.py:20-29, support_vector_machine.py:36-43, ensemble.py:34-54: the predictions over the grid of 300 × 300 nodes on `[a, b] × [c, e]`. -/
noncomputable def gridOn (a b c e : ℝ) (predict : List (List ℝ) → Except PyErr (List Int)) : Except PyErr (List (List Int)) :=
  match predict (meshRows (linspace a b 300) (linspace c e 300)) with
  | .error e => .error e
  | .ok y => reshape 300 300 y

/-- support_vector_machine.py:36-43, ensemble.py:34-54: the grid on `[0, 1] × [0, top]`. -/
noncomputable def gridHeights (top : ℝ) (predict : List (List ℝ) → Except PyErr (List Int)) : Except PyErr (List (List Int)) :=
  gridOn 0 1 0 top predict

/-- The zero level drawn by `plt.contour` crosses the edge between two neighbouring nodes with these heights. (If all heights have the same sign
matplotlib warns and draws nothing.) -/
def crosses (a b : Int) : Bool := decide (0 < a) != decide (0 < b)

/-- `x[y == label]`, first two columns. -/
def shownWith {d : Nat} (h : 2 ≤ d) (x : List (Fin d → ℝ)) (y : List Int) (label : Int) : List (ℝ × ℝ) := (LDA.rowsOf x y label).map (shown h)

/-- `x[support]`, first two columns; a number that is no row is an `IndexError`. -/
def marks {d : Nat} (h : 2 ≤ d) (x : List (Fin d → ℝ)) (support : List Nat) : Except PyErr (List (ℝ × ℝ)) :=
  if support.any (fun i => decide (x.length ≤ i)) then .error .indexError
  else .ok ((support.filterMap fun i => x[i]?).map (shown h))

/-- What `plot_support_vector_classifier` draws. -/
structure SVCFigure where
  /-- support_vector_machine.py:18-21 -/
  negatives : List (ℝ × ℝ)
  positives : List (ℝ × ℝ)
  /-- support_vector_machine.py:22: the rings around the support vectors. -/
  rings : List (ℝ × ℝ)
  /-- support_vector_machine.py:41-44 -/
  heights : List (List Int)

/-- support_vector_machine.py:49-81 `plot_support_vector_classifier`, for the attributes `support` and the method `predict` of the instance. -/
noncomputable def plotSVC {d : Nat} (trained loaded : Bool) (support : List Nat) (predict : List (List ℝ) → Except PyErr (List Int))
    (x : List (Fin d → ℝ)) (y : List Int) : Except PyErr SVCFigure :=
  if trained = false ∧ loaded = false then .error .valueError
  else if x.length ≠ y.length then .error .indexError
  else if h : 2 ≤ d then
    match marks h x support with
    | .error e => .error e
    | .ok rings =>
      match gridHeights (4 / 5) predict with
      | .error e => .error e
      | .ok z => .ok ⟨shownWith h x y (-1), shownWith h x y 1, rings, z⟩
  else .error .indexError

/-- What `plot_ensemble` draws. -/
structure EnsembleFigure where
  /-- ensemble.py:19-20 -/
  negatives : List (ℝ × ℝ)
  positives : List (ℝ × ℝ)
  /-- ensemble.py:39-46: one dashed boundary for each estimator. -/
  dashed : List (List (List Int))
  /-- ensemble.py:49-53 -/
  heights : List (List Int)

/-- ensemble.py:58-90 `plot_ensemble`, for the methods `predict` of the estimators and of the instance. -/
noncomputable def plotEnsemble {d : Nat} (trained loaded : Bool) (estimators : List (List (List ℝ) → Except PyErr (List Int)))
    (predict : List (List ℝ) → Except PyErr (List Int)) (plotEstimators : Bool) (x : List (Fin d → ℝ)) (y : List Int) :
    Except PyErr EnsembleFigure :=
  if trained = false ∧ loaded = false then .error .valueError
  else if x.length ≠ y.length then .error .indexError
  else if h : 2 ≤ d then
    match (if plotEstimators then estimators else []).mapM (gridHeights 1) with
    | .error e => .error e
    | .ok dashed =>
      match gridHeights 1 predict with
      | .error e => .error e
      | .ok z => .ok ⟨shownWith h x y (-1), shownWith h x y 1, dashed, z⟩
  else .error .indexError

/-- What `plot_bayes` draws. -/
structure BayesFigure where
  /-- bayes.py:31-32: the window and the coloured background. -/
  left : ℝ
  right : ℝ
  bottom : ℝ
  top : ℝ
  background : List (List Int)
  /-- bayes.py:55-56 -/
  negatives : List (ℝ × ℝ)
  positives : List (ℝ × ℝ)

/-- `l.min()` of a non-empty array. -/
noncomputable def minOf (l : List ℝ) (h : l ≠ []) : ℝ := l.min h

/-- `l.max()` of a non-empty array. -/
noncomputable def maxOf (l : List ℝ) (h : l ≠ []) : ℝ := l.max h

/-- bayes.py:20-29: the background for samples with these two coordinates. -/
noncomputable def background (pts : List (ℝ × ℝ)) (h : pts ≠ []) (predict : List (List ℝ) → Except PyErr (List Int)) : Except PyErr (List (List Int)) :=
  gridOn (minOf (pts.map Prod.fst) (by simpa using h) - 1 / 10) (maxOf (pts.map Prod.fst) (by simpa using h) + 1 / 10)
    (minOf (pts.map Prod.snd) (by simpa using h) - 1 / 10) (maxOf (pts.map Prod.snd) (by simpa using h) + 1 / 10) predict

/-- bayes.py:62-91 `plot_bayes` for an array of `d` columns of numbers and an instance with `n` attribute names. Another number of names than columns is a
`ValueError` (83); one column an `IndexError` (22); no rows a `ValueError` of `min` (21); three or more columns a `ValueError` (28, two columns get `d`
names). Columns of texts are not modelled (`TypeError` in line 21), nor are frames. -/
noncomputable def plotBayes {d : Nat} (trained loaded : Bool) (n : Nat) (predict : List (List ℝ) → Except PyErr (List Int))
    (x : List (Fin d → ℝ)) (y : List Int) : Except PyErr BayesFigure :=
  if trained = false ∧ loaded = false then .error .valueError
  else if d ≠ n then .error .valueError
  else if h2 : 2 ≤ d then
    if h : x = [] then .error .valueError
    else if d ≠ 2 then .error .valueError
    else
      match background (x.map (shown h2)) (by simpa using h) predict with
      | .error e => .error e
      | .ok z =>
        if x.length ≠ y.length then .error .indexError
        else .ok
          { left := minOf ((x.map (shown h2)).map Prod.fst) (by simpa using h) - 1 / 10
            right := maxOf ((x.map (shown h2)).map Prod.fst) (by simpa using h) + 1 / 10
            bottom := minOf ((x.map (shown h2)).map Prod.snd) (by simpa using h) - 1 / 10
            top := maxOf ((x.map (shown h2)).map Prod.snd) (by simpa using h) + 1 / 10
            background := z
            negatives := shownWith h2 x y 0
            positives := shownWith h2 x y 1 }
  else .error .indexError

end CML.PlotsGrid
