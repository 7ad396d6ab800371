import Verif.Model.LDA
import Verif.Model.LogReg
import Verif.Model.Hull
import Mathlib.Analysis.SpecialFunctions.Sqrt

/-!
# Model of the figures (classicML/api/plots)

A figure is the data handed to matplotlib: the coordinates of the markers and of the ends of the line segments. A point with a coordinate that is
not finite (NaN or infinite) is not drawn: `none`. matplotlib itself (colours, legends, rendering) is not modelled; `Visible` are the points inside
the axes set with `plt.axis([0, 1, 0, 1])`.
-/

namespace CML.Plots
open Finset Matrix

/-- `np.linspace(a, b, n)[k]`. -/
noncomputable def linspaceAt (a b : ℝ) (n k : Nat) : ℝ := a + k * ((b - a) / ((n : ℝ) - 1))

/-- `np.linspace(a, b, n)` for `n ≥ 2`. -/
noncomputable def linspace (a b : ℝ) (n : Nat) : List ℝ := (List.range n).map (linspaceAt a b n)

/-! ## Linear discriminant analysis -/

/-- What `plot_linear_discriminant_analysis` draws. -/
structure LDAFigure where
  /-- The samples of the two classes (linear_model.py:24-25). -/
  samples0 : List (ℝ × ℝ)
  samples1 : List (ℝ × ℝ)
  /-- The points of the orange line (56-58). -/
  line : List (Option (ℝ × ℝ))
  /-- The projections of the samples (63-66). -/
  projected0 : List (Option (ℝ × ℝ))
  projected1 : List (Option (ℝ × ℝ))
  /-- The dashed segments from the samples to the projections (69-72). -/
  segments : List ((ℝ × ℝ) × Option (ℝ × ℝ))
  /-- The projections of the class means (75-78). -/
  center0 : Option (ℝ × ℝ)
  center1 : Option (ℝ × ℝ)

variable {d : Nat}

/-- The first two coordinates `X[:, 0]`, `X[:, 1]`. -/
def shown (h : 2 ≤ d) (r : Fin d → ℝ) : ℝ × ℝ := (r ⟨0, by omega⟩, r ⟨1, by omega⟩)

/-- linear_model.py:57: a point of the line; with `w[0, 0] = 0` the coordinate is NaN or infinite. -/
noncomputable def linePoint (h : 2 ≤ d) (w : Option (Fin d → ℝ)) (t : ℝ) : Option (ℝ × ℝ) :=
  match w with
  | none => none
  | some w => if (shown h w).1 = 0 then none else some (t, (shown h w).2 / (shown h w).1 * t)

/-- linear_model.py:60: `lda.w / np.linalg.norm(lda.w)`; NaN for the zero vector. -/
noncomputable def unitVector (w : Option (Fin d → ℝ)) : Option (Fin d → ℝ) :=
  match w with
  | none => none
  | some w => if Real.sqrt (w ⬝ᵥ w) = 0 then none else some fun j => w j / Real.sqrt (w ⬝ᵥ w)

/-- linear_model.py:63-64, 75-76: `np.dot(x, np.dot(unit_w.T, unit_w))` for one row. -/
noncomputable def project (u : Fin d → ℝ) (r : Fin d → ℝ) : Fin d → ℝ := fun j => ∑ k, r k * (u k * u j)

/-- The projection of a row, as far as it is drawn. -/
noncomputable def projectedPoint (h : 2 ≤ d) (w : Option (Fin d → ℝ)) (r : Fin d → ℝ) : Option (ℝ × ℝ) :=
  (unitVector w).map fun u => shown h (project u r)

/-- linear_model.py:49-78: the figure. -/
noncomputable def ldaFigure (h : 2 ≤ d) (m : LDA.Trained ℝ d) (x : List (Fin d → ℝ)) (y : List Int) : LDAFigure where
  samples0 := (LDA.rowsOf x y 0).map (shown h)
  samples1 := (LDA.rowsOf x y 1).map (shown h)
  line := (linspace 0 1 50).map (linePoint h m.w)
  projected0 := (LDA.rowsOf x y 0).map (projectedPoint h m.w)
  projected1 := (LDA.rowsOf x y 1).map (projectedPoint h m.w)
  segments := (LDA.rowsOf x y 0 ++ LDA.rowsOf x y 1).map fun r => (shown h r, projectedPoint h m.w r)
  center0 := m.mu0.bind (projectedPoint h m.w)
  center1 := m.mu1.bind (projectedPoint h m.w)

/-- linear_model.py:30-84 `plot_linear_discriminant_analysis`. The boolean index of line 22 raises `IndexError` for labels of another length, and
line 24 does if there is only one feature. -/
noncomputable def plotLDA (trained loaded : Bool) (m : LDA.Trained ℝ d) (x : List (Fin d → ℝ)) (y : List Int) : Except PyErr LDAFigure :=
  if trained = false ∧ loaded = false then .error .valueError
  else if x.length ≠ y.length then .error .indexError
  else if h : 2 ≤ d then .ok (ldaFigure h m x y)
  else .error .indexError

/-! ## Logistic regression -/

/-- What `plot_logistic_regression` draws: the samples of the two classes and the points of the orange line. -/
structure LRFigure where
  samples0 : List (ℝ × ℝ)
  samples1 : List (ℝ × ℝ)
  line : List (Option (ℝ × ℝ))

/-- linear_model.py:118: a point of the line; with `beta[1] = 0` the coordinate is NaN or infinite. -/
noncomputable def boundaryPoint (b0 b1 b2 t : ℝ) : Option (ℝ × ℝ) :=
  if b1 = 0 then none else some (t, -(b0 * t + b2) / b1)

/-- linear_model.py:112-119: the figure, for samples with two columns. -/
noncomputable def lrFigure (h : 2 ≤ d) (beta : Fin (d + 1) → ℝ) {c : Nat} (hc : c = 2) (x : List (Fin c → ℝ)) (y : List Int) : LRFigure where
  samples0 := (LDA.rowsOf x y 0).map (shown (by omega))
  samples1 := (LDA.rowsOf x y 1).map (shown (by omega))
  line := (linspace 0 1 50).map (boundaryPoint (beta ⟨0, by omega⟩) (beta ⟨1, by omega⟩) (beta ⟨2, by omega⟩))

/-- linear_model.py:87-125 `plot_logistic_regression` for a model trained on `d` features and samples with `c` columns. `beta[2]` (line 118) raises
`IndexError` when the model was trained on one feature. -/
noncomputable def plotLR (trained loaded : Bool) (beta : Fin (d + 1) → ℝ) {c : Nat} (x : List (Fin c → ℝ)) (y : List Int) :
    Except PyErr LRFigure :=
  if trained = false ∧ loaded = false then .error .valueError
  else if hc : c = 2 then
    if x.length ≠ y.length then .error .indexError
    else if h : 2 ≤ d then .ok (lrFigure h beta hc x y)
    else .error .indexError
  else .error .valueError

end CML.Plots
