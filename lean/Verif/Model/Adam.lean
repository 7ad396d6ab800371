import Verif.Model.Network

/-!
# Adam on the parameters of a network (classicML/backend/python/optimizers.py:331-491) and training in several calls of `fit`
(classicML/api/models/neural_network/back_propagation_neural_network.py:81-111)

The dictionaries `parameters`, `moment_vector_1` and `moment_vector_2` are lists in the order of the layers, as in `Verif/Model/Network.lean`.
Rounding is left out; the square root of a negative number and a division by zero are not NaN here (with `0 ≤ beta < 1` neither occurs, C52).
-/

namespace CML.Net
open Finset

/-- The length of an axis under broadcasting. -/
def bdim (a b : Nat) : Option Nat := if a = b then some a else if a = 1 then some b else if b = 1 then some a else none

/-- The index along an axis of length `a`. -/
def bidx (a i : Nat) : Nat := if a = 1 then 0 else i

/-- A binary operation on two matrices, with numpy's broadcasting on both axes. -/
def bcast (f : ℝ → ℝ → ℝ) (a b : Mat) : Except PyErr Mat :=
  match bdim a.rows b.rows, bdim a.cols b.cols with
  | some r, some c => .ok ⟨r, c, fun i j => f (a.e (bidx a.rows i) (bidx a.cols j)) (b.e (bidx b.rows i) (bidx b.cols j))⟩
  | _, _ => .error .valueError

/-- A parameter array with the two moment arrays of the same key. -/
structure AdamMat where
  p : Mat
  m : Mat
  v : Mat

/-- optimizers.py:469-491 `_initializer` for one key: two arrays of zeros of the shape of the parameter. -/
def AdamMat.init (p : Mat) : AdamMat := ⟨p, ⟨p.rows, p.cols, fun _ _ => 0⟩, ⟨p.rows, p.cols, fun _ _ => 0⟩⟩

/-- optimizers.py:450-465 for one key: the moments are new arrays, the parameter is changed in place and keeps its shape. -/
noncomputable def AdamMat.step (lr b1 b2 eps : ℝ) (t : Nat) (s : AdamMat) (g : Mat) : Except PyErr AdamMat :=
  match bcast (fun m g => b1 * m + (1 - b1) * g) s.m g, bcast (fun v g => b2 * v + (1 - b2) * g ^ 2) s.v g with
  | .ok m, .ok v =>
    match bcast (fun m v => lr * (m / (1 - b1 ^ t)) / (Real.sqrt (v / (1 - b2 ^ t)) + eps)) m v with
    | .error e => .error e
    | .ok d =>
      match subInPlace 1 s.p d with
      | .error e => .error e
      | .ok p => .ok ⟨p, m, v⟩
  | _, _ => .error .valueError

/-- The arrays of one layer. -/
structure AdamLayer where
  w : AdamMat
  b : AdamMat

/-- The parameters of the layers. -/
def layersOf (S : List AdamLayer) : List Layer := S.map fun s => ⟨s.w.p, s.b.p⟩

/-- optimizers.py:470-491 `_initializer`. -/
def adamInit (P : List Layer) : List AdamLayer := P.map fun L => ⟨.init L.w, .init L.b⟩

/-- optimizers.py:430-467 `_update_parameters` in epoch `t`; a missing gradient raises `KeyError`. -/
noncomputable def adamUpdate (lr b1 b2 eps : ℝ) (t : Nat) : List AdamLayer → List Grad → Except PyErr (List AdamLayer)
  | [], _ => .ok []
  | _ :: _, [] => .error .keyError
  | s :: ss, g :: gs =>
    match s.w.step lr b1 b2 eps t g.dw, s.b.step lr b1 b2 eps t g.db with
    | .ok w, .ok b =>
      match adamUpdate lr b1 b2 eps t ss gs with
      | .ok rest => .ok (⟨w, b⟩ :: rest)
      | .error e => .error e
    | _, _ => .error .valueError

/-- optimizers.py:171-176, 404-409: the gradients on the sample `i`. -/
noncomputable def sampleGrad (x y : Mat) (P : List Layer) (i : Nat) : Except PyErr (List Grad) :=
  if x.rows ≤ i ∨ y.rows ≤ i then .error .indexError
  else
    match forward (rowOf x i) P with
    | .error e => .error e
    | .ok (yp, caches) =>
      match backward yp (rowOf y i) caches with
      | .error e => .error e
      | .ok (gs, _) => .ok gs

/-- optimizers.py:401-411: the loop of `run` from epoch `t` on; the list holds the random indices. -/
noncomputable def adamLoop (lr b1 b2 eps : ℝ) (x y : Mat) : Nat → List Nat → List AdamLayer → Except PyErr (List AdamLayer)
  | _, [], S => .ok S
  | t, i :: is, S =>
    match sampleGrad x y (layersOf S) i with
    | .error e => .error e
    | .ok gs =>
      match adamUpdate lr b1 b2 eps t S gs with
      | .error e => .error e
      | .ok S' => adamLoop lr b1 b2 eps x y (t + 1) is S'

/-- optimizers.py:371-428 `Adam.run` without the monitoring part: epochs are counted from 1, the moments start at zero. -/
noncomputable def adamTrain (lr b1 b2 eps : ℝ) (x y : Mat) (idx : List Nat) (P : List Layer) : Except PyErr (List Layer) :=
  match adamLoop lr b1 b2 eps x y 1 idx (adamInit P) with
  | .error e => .error e
  | .ok S => .ok (layersOf S)

/-- back_propagation_neural_network.py:81-111 `fit`, with the optimiser `train`: parameters are made anew (`fresh`) unless weights were loaded. -/
def netFit (train : List Nat → List Layer → Except PyErr (List Layer)) (loaded : Bool) (fresh : List Layer) (idx : List Nat)
    (current : List Layer) : Except PyErr (List Layer) :=
  train idx (if loaded then current else fresh)

end CML.Net
