import Verif.Model.Network

/-!
# Model of the RBF network: `RBFNormal` (classicML/backend/python/initializers.py), `RadialBasisFunctionOptimizer`
(classicML/backend/python/optimizers.py) and `RadialBasisFunctionNetwork`
(classicML/api/models/neural_network/radial_basis_function_network.py)

Arithmetic is exact; random numbers are parameters.
-/

namespace CML.RBF
open Finset CML.Net

/-- initializers.py:165-168: the dictionary of the parameters. -/
structure Params where
  w : Mat
  b : Mat
  c : Mat
  beta : Mat

/-- initializers.py:155-170 `RBFNormal.__call__`; `cRnd` and `bRnd` are the random draws.  The centres have two columns. -/
def init (hidden : Nat) (cRnd bRnd : ℕ → ℕ → ℝ) : Params :=
  ⟨⟨1, hidden, fun _ _ => 0⟩, ⟨1, 1, fun _ _ => 0⟩, ⟨hidden, 2, cRnd⟩, ⟨1, hidden, bRnd⟩⟩

/-- optimizers.py:833 `np.linalg.norm(x - c[[unit], ], axis=1) ** 2` for row `i` and unit `u`, with the broadcasting of numpy along
the columns (one column against several).  `none` if the widths cannot be broadcast. -/
noncomputable def sqDist (x c : Mat) : Option (ℕ → ℕ → ℝ) :=
  if x.cols = c.cols then some fun i u => ∑ l ∈ range x.cols, (x.e i l - c.e u l) ^ 2
  else if c.cols = 1 then some fun i u => ∑ l ∈ range x.cols, (x.e i l - c.e u 0) ^ 2
  else if x.cols = 1 then some fun i u => ∑ l ∈ range c.cols, (x.e i 0 - c.e u l) ^ 2
  else none

/-- optimizers.py:837: `cache = (rho, x_ci, w, beta)`. -/
structure RCache where
  rho : Mat
  xci : Mat
  w : Mat

/-- optimizers.py:814-839 `forward`.  Without hidden units the loop does not run (and no width is checked). -/
noncomputable def forward (x : Mat) (P : Params) : Except PyErr (Mat × RCache) :=
  let d? : Option (ℕ → ℕ → ℝ) := if P.c.rows = 0 then some fun _ _ => 0 else sqDist x P.c
  match d? with
  | none => .error .valueError
  | some d =>
    let rho : Mat := ⟨x.rows, P.c.rows, fun i u => Real.exp (-P.beta.e 0 u * d i u)⟩
    match matmulT rho P.w with
    | .error e => .error e
    | .ok z =>
      match addBias z P.b with
      | .error e => .error e
      | .ok y => .ok (y, ⟨rho, ⟨x.rows, P.c.rows, d⟩, P.w⟩)

/-- The labels handed to `fit`: one- or two-dimensional arrays (radial_basis_function_network.py:93 keeps the shape). -/
inductive Labels where
  | vec (n : Nat) (f : ℕ → ℝ)
  | mat (y : Mat)

/-- `y_true.shape[0]`. -/
def Labels.len : Labels → Nat
  | .vec n _ => n
  | .mat y => y.rows

/-- optimizers.py:856 `y_pred - y_true`: a vector is broadcast along the rows.  (Broadcasting of a label matrix along rows is not
modelled: it is an error here.) -/
noncomputable def error (yPred : Mat) : Labels → Except PyErr Mat
  | .vec n f =>
    if yPred.cols = n then .ok ⟨yPred.rows, n, fun i j => yPred.e i j - f j⟩
    else if n = 1 then .ok ⟨yPred.rows, yPred.cols, fun i j => yPred.e i j - f 0⟩
    else if yPred.cols = 1 then .ok ⟨yPred.rows, n, fun i j => yPred.e i 0 - f j⟩
    else .error .valueError
  | .mat y => zipWith (fun p t => p - t) yPred y

/-- The gradient dictionary (optimizers.py:862-864). -/
structure RGrad where
  dw : Mat
  db : Mat
  dbeta : Mat

/-- optimizers.py:842-866 `backward`. -/
noncomputable def backward (yPred : Mat) (y : Labels) (c : RCache) : Except PyErr RGrad :=
  match error yPred y with
  | .error e => .error e
  | .ok dy =>
    match tMatmul dy c.rho, matmul yPred c.w with
    | .ok dw, .ok drho =>
      .ok ⟨⟨dw.rows, dw.cols, fun i j => dw.e i j / (y.len : ℝ)⟩,
        ⟨1, dy.cols, fun _ j => (∑ l ∈ range dy.rows, dy.e l j) / (y.len : ℝ)⟩,
        ⟨1, c.rho.cols, fun _ u => (∑ l ∈ range c.rho.rows, drho.e l u * c.rho.e l u * (-c.xci.e l u)) / (y.len : ℝ)⟩⟩
    | _, _ => .error .valueError

/-- optimizers.py:797-811 `_update_parameters`: `c` is not updated. -/
noncomputable def update (lr : ℝ) (P : Params) (g : RGrad) : Except PyErr Params :=
  match subInPlace lr P.w g.dw with
  | .error e => .error e
  | .ok w =>
    match subInPlace lr P.b g.db with
    | .error e => .error e
    | .ok b =>
      match subInPlace lr P.beta g.dbeta with
      | .error e => .error e
      | .ok beta => .ok ⟨w, b, P.c, beta⟩

/-- optimizers.py:779-783: one epoch. -/
noncomputable def step (lr : ℝ) (x : Mat) (y : Labels) (P : Params) : Except PyErr Params :=
  match forward x P with
  | .error e => .error e
  | .ok (yp, cache) =>
    match backward yp y cache with
    | .error e => .error e
    | .ok g => update lr P g

/-- optimizers.py:751-795 `run` without the monitoring part. -/
noncomputable def run (lr : ℝ) (x : Mat) (y : Labels) : Nat → Params → Except PyErr Params
  | 0, P => .ok P
  | n + 1, P =>
    match step lr x y P with
    | .error e => .error e
    | .ok P' => run lr x y n P'

end CML.RBF
