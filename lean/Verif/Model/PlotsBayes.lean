import Verif.Model.PlotsGrid
import Verif.Model.Bayes

/-!
# The classifiers drawn by `plot_bayes`, on rows of numbers

`disc` tells for each attribute whether `fit` took it for discrete (`type_of_target` of the training column is not 'continuous').
-/

namespace CML.PlotsGrid
open Bayes

/-- A column of numbers, naive_bayes_classifier.py:91-94, semi_naive_bayes_classifiers.py:174-175. -/
def toCol (disc : Bool) (l : List ℝ) : Col ℝ := if disc then .disc l else .cont l

/-- A number of a row. -/
def toCell (disc : Bool) (v : ℝ) : Cell ℝ := if disc then .disc v else .cont v

/-- naive_bayes_classifier.py:146-188 `predict` for several rows. -/
noncomputable def nbRows (fl : ℝ → ℝ) (smoothing : Bool) (names : List String) (m : NB ℝ) (disc : List Bool) (rows : List (List ℝ)) :
    Except PyErr (List Int) :=
  rows.mapM fun r => nbObjPredict fl smoothing (some names) (some m) (List.zipWith toCell disc r)

/-- semi_naive_bayes_classifiers.py:221-267 `predict` for several rows (the rows are those of a frame with the right number of columns). -/
noncomputable def spodeRows (fl : ℝ → ℝ) (smoothing : Bool) (es : List (Entry ℝ)) (disc : List Bool) (rows : List (List ℝ)) :
    Except PyErr (List Int) :=
  rows.mapM fun r => spodePredict fl smoothing es (List.zipWith toCell disc r)

end CML.PlotsGrid
