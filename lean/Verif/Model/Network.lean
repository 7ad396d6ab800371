import Verif.Model.Activations
import Mathlib.Analysis.SpecialFunctions.Log.Basic
import Mathlib.Analysis.SpecialFunctions.Sqrt
import Mathlib.Algebra.BigOperators.Group.Finset.Basic

/-!
# Model of the back-propagation network: initialisers (classicML/backend/python/initializers.py), the optimisers
`StochasticGradientDescent` and `Adam` (classicML/backend/python/optimizers.py) and
`BackPropagationNeuralNetwork` (classicML/api/models/neural_network/back_propagation_neural_network.py)

Arithmetic is exact.  A two-dimensional `ndarray` has dynamic shape; entries outside of the shape are never read.
The dictionary `{'w1': .., 'b1': .., 'w2': ..}` is the list of the pairs `(w_i, b_i)` in the order of `i`: the key
`'w' + str(i)` determines `i`.  Random numbers are parameters.
-/

namespace CML.Net
open Finset

/-- A two-dimensional `numpy.ndarray`. -/
structure Mat where
  rows : Nat
  cols : Nat
  e : ℕ → ℕ → ℝ

/-- `np.matmul(a, b.T)`. -/
noncomputable def matmulT (a b : Mat) : Except PyErr Mat :=
  if a.cols = b.cols then .ok ⟨a.rows, b.rows, fun i j => ∑ l ∈ range a.cols, b.e j l * a.e i l⟩ else .error .valueError

/-- `np.matmul(a, b)`. -/
noncomputable def matmul (a b : Mat) : Except PyErr Mat :=
  if a.cols = b.rows then .ok ⟨a.rows, b.cols, fun i j => ∑ l ∈ range a.cols, a.e i l * b.e l j⟩ else .error .valueError

/-- `np.matmul(a.T, b)`. -/
noncomputable def tMatmul (a b : Mat) : Except PyErr Mat :=
  if a.rows = b.rows then .ok ⟨a.cols, b.cols, fun i j => ∑ l ∈ range a.rows, a.e l i * b.e l j⟩ else .error .valueError

/-- `z + b` for a bias of shape (1, m), with the broadcasting of numpy.  (A bias with another number of rows does not occur:
the initialisers make one row and the updates keep the shape; it is an error here.) -/
noncomputable def addBias (z b : Mat) : Except PyErr Mat :=
  if b.rows ≠ 1 then .error .valueError
  else if b.cols = z.cols then .ok ⟨z.rows, z.cols, fun i j => z.e i j + b.e 0 j⟩
  else if b.cols = 1 then .ok ⟨z.rows, z.cols, fun i j => z.e i j + b.e 0 0⟩
  else if z.cols = 1 then .ok ⟨z.rows, b.cols, fun i j => z.e i 0 + b.e 0 j⟩
  else .error .valueError

/-- An elementwise operation on two arrays with the same number of rows, with the broadcasting of numpy along the columns.
(Broadcasting along rows is not modelled: it is an error here.) -/
noncomputable def zipWith (f : ℝ → ℝ → ℝ) (a b : Mat) : Except PyErr Mat :=
  if a.rows ≠ b.rows then .error .valueError
  else if a.cols = b.cols then .ok ⟨a.rows, a.cols, fun i j => f (a.e i j) (b.e i j)⟩
  else if b.cols = 1 then .ok ⟨a.rows, a.cols, fun i j => f (a.e i j) (b.e i 0)⟩
  else if a.cols = 1 then .ok ⟨a.rows, b.cols, fun i j => f (a.e i 0) (b.e i j)⟩
  else .error .valueError

/-- `np.max(z)`: all entries of the array; an empty array raises `ValueError`. -/
noncomputable def entries (z : Mat) : List ℝ := (List.range z.rows).flatMap fun i => (List.range z.cols).map fun j => z.e i j

/-- activations.py:122-134 `Softmax.__call__`. -/
noncomputable def softmaxMat (z : Mat) : Except PyErr Mat :=
  match (entries z).max? with
  | none => .error .valueError
  | some M => .ok ⟨z.rows, z.cols, fun i j => Real.exp (z.e i j - M) / ∑ l ∈ range z.cols, Real.exp (z.e i l - M)⟩

/-- The pair `(parameters['w' + str(i)], parameters['b' + str(i)])`. -/
structure Layer where
  w : Mat
  b : Mat

/-- initializers.py:54-64 (RandomNormal), 89-99 (HeNormal), 128-138 (XavierNormal): the structure branch of the three
initialisers.  `rnd l` is the scaled random matrix of layer `l`. -/
def initLayers (rnd : Nat → ℕ → ℕ → ℝ) : Nat → List Nat → List Layer
  | l, d :: m :: rest => ⟨⟨m, d, rnd l⟩, ⟨1, m, fun _ _ => 0⟩⟩ :: initLayers rnd (l + 1) (m :: rest)
  | _, _ => []

/-- optimizers.py:241, 254 `cache = (x, w, a)`. -/
structure Cache where
  x : Mat
  w : Mat
  a : Mat

/-- optimizers.py:216-258 `StochasticGradientDescent.forward`: hidden layers with ReLU, the output layer with the sigmoid when
it has one unit and softmax otherwise.  Without parameters `parameters['w0']` raises `KeyError`. -/
noncomputable def forward : Mat → List Layer → Except PyErr (Mat × List Cache)
  | _, [] => .error .keyError
  | a, [L] =>
    match matmulT a L.w with
    | .error e => .error e
    | .ok z0 =>
      match addBias z0 L.b with
      | .error e => .error e
      | .ok z =>
        if L.w.rows = 1 then
          let y : Mat := ⟨z.rows, z.cols, fun i j => sigmoid (z.e i j)⟩
          .ok (y, [⟨a, L.w, y⟩])
        else
          match softmaxMat z with
          | .error e => .error e
          | .ok y => .ok (y, [⟨a, L.w, y⟩])
  | x, L :: L' :: rest =>
    match matmulT x L.w with
    | .error e => .error e
    | .ok z0 =>
      match addBias z0 L.b with
      | .error e => .error e
      | .ok z =>
        let a : Mat := ⟨z.rows, z.cols, fun i j => relu (z.e i j)⟩
        match forward a (L' :: rest) with
        | .error e => .error e
        | .ok (y, caches) => .ok (y, ⟨x, L.w, a⟩ :: caches)

/-- optimizers.py:274-286: the error at the output layer.  `y_true.shape[1] == 1` selects the branch. -/
noncomputable def outputError (yPred yTrue a : Mat) : Except PyErr Mat :=
  if yTrue.cols = 1 then
    match zipWith (fun p y => -(y / p - (1 - y) / (1 - p))) yPred yTrue with
    | .error e => .error e
    | .ok y' =>
      match zipWith (fun p y => y - p) yPred y' with
      | .error e => .error e
      | .ok err => zipWith (fun a r => a * (1 - a) * r) a err
  else zipWith (fun a y => softmaxDiff y a) a yTrue

/-- The entries `dw`, `db` of the gradient dictionary for one layer. -/
structure Grad where
  dw : Mat
  db : Mat

/-- optimizers.py:309-328 `_get_grad`: `dw`, `db` and `da_`. -/
noncomputable def getGrad (da : Mat) (batch : Nat) (c : Cache) : Except PyErr (Grad × Mat) :=
  match tMatmul da c.x, matmul da c.w with
  | .ok dw, .ok da' =>
    .ok (⟨⟨dw.rows, dw.cols, fun i j => dw.e i j / (batch : ℝ)⟩,
      ⟨1, da.cols, fun _ j => (∑ l ∈ range da.rows, da.e l j) / (batch : ℝ)⟩⟩, da')
  | _, _ => .error .valueError

/-- activations.py:56-71 `Relu.diff`: a boolean mask of another shape raises `IndexError`. -/
noncomputable def reluDiffMat (output a : Mat) : Except PyErr Mat :=
  if output.rows = a.rows ∧ output.cols = a.cols then .ok ⟨output.rows, output.cols, fun i j => reluDiff (output.e i j) (a.e i j)⟩
  else .error .indexError

/-- optimizers.py:260-307 `backward`: the loop over the caches runs from the last to the first; the result is the list of the
gradients in the order of the layers, and `da` of the first layer.  Without caches `caches[-1]` raises `IndexError`. -/
noncomputable def backward (yPred yTrue : Mat) : List Cache → Except PyErr (List Grad × Mat)
  | [] => .error .indexError
  | [c] =>
    match outputError yPred yTrue c.a with
    | .error e => .error e
    | .ok da =>
      match getGrad da yTrue.rows c with
      | .error e => .error e
      | .ok (g, da') => .ok ([g], da')
  | c :: c' :: rest =>
    match backward yPred yTrue (c' :: rest) with
    | .error e => .error e
    | .ok (gs, out) =>
      match reluDiffMat out c.a with
      | .error e => .error e
      | .ok da =>
        match getGrad da yTrue.rows c with
        | .error e => .error e
        | .ok (g, da') => .ok (g :: gs, da')

/-- `w -= lr * g`: in place, so that the result must have the shape of `w`. -/
noncomputable def subInPlace (lr : ℝ) (w g : Mat) : Except PyErr Mat :=
  if (g.rows = w.rows ∨ g.rows = 1) ∧ (g.cols = w.cols ∨ g.cols = 1) then
    .ok ⟨w.rows, w.cols, fun i j => w.e i j - lr * g.e (if g.rows = w.rows then i else 0) (if g.cols = w.cols then j else 0)⟩
  else .error .valueError

/-- optimizers.py:197-213 `_update_parameters` of SGD; a missing gradient raises `KeyError`. -/
noncomputable def update (lr : ℝ) : List Layer → List Grad → Except PyErr (List Layer)
  | [], _ => .ok []
  | _ :: _, [] => .error .keyError
  | L :: Ls, g :: gs =>
    match subInPlace lr L.w g.dw, subInPlace lr L.b g.db with
    | .ok w, .ok b =>
      match update lr Ls gs with
      | .ok rest => .ok (⟨w, b⟩ :: rest)
      | .error e => .error e
    | _, _ => .error .valueError

/-- `x[[i], :]` (optimizers.py:173) and `np.asarray([y[i]])` (line 176). -/
def rowOf (x : Mat) (i : Nat) : Mat := ⟨1, x.cols, fun _ j => x.e i j⟩

/-- optimizers.py:171-178: one epoch of SGD on the sample `i`; an index outside of the array raises `IndexError`. -/
noncomputable def sgdStep (lr : ℝ) (x y : Mat) (P : List Layer) (i : Nat) : Except PyErr (List Layer) :=
  if x.rows ≤ i ∨ y.rows ≤ i then .error .indexError
  else
    match forward (rowOf x i) P with
    | .error e => .error e
    | .ok (yp, caches) =>
      match backward yp (rowOf y i) caches with
      | .error e => .error e
      | .ok (gs, _) => update lr P gs

/-- optimizers.py:142-195 `run` without the monitoring part; the list holds the random indices of the epochs. -/
noncomputable def sgdRun (lr : ℝ) (x y : Mat) : List Nat → List Layer → Except PyErr (List Layer)
  | [], P => .ok P
  | i :: is, P =>
    match sgdStep lr x y P i with
    | .error e => .error e
    | .ok P' => sgdRun lr x y is P'

/-! ## Adam, entry by entry -/

/-- One entry of a parameter array with the entries of `moment_vector_1` and `moment_vector_2` that belong to it. -/
structure AdamEntry where
  p : ℝ
  m : ℝ
  v : ℝ

/-- optimizers.py:450-465: the update of one entry in epoch `t` with gradient entry `g` (all operations are elementwise). -/
noncomputable def adamStep (lr b1 b2 eps : ℝ) (t : Nat) (s : AdamEntry) (g : ℝ) : AdamEntry :=
  let m := b1 * s.m + (1 - b1) * g
  let v := b2 * s.v + (1 - b2) * g ^ 2
  let mh := m / (1 - b1 ^ t)
  let vh := v / (1 - b2 ^ t)
  ⟨s.p - lr * mh / (Real.sqrt vh + eps), m, v⟩

/-- optimizers.py:470-491 `_initializer` and the loop of `run` (398-411): epochs are counted from 1; `gs` are the gradients of
the entry in the epochs. -/
noncomputable def adamRun (lr b1 b2 eps : ℝ) (p0 : ℝ) (gs : List ℝ) : AdamEntry × Nat :=
  gs.foldl (fun st g => (adamStep lr b1 b2 eps (st.2 + 1) st.1 g, st.2 + 1)) (⟨p0, 0, 0⟩, 0)

end CML.Net
