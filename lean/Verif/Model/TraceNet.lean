import Verif.Model.Trace

/-!
# Histories of calls of a BackPropagationNeuralNetwork

classicML/api/models/neural_network/back_propagation_neural_network.py with the optimiser SGD (classicML/backend/python/optimizers.py:142-258). The weights
`w1, b1, …` of the dictionary `parameters` are a list of layers. Random numbers, sampled rows and data are parts of the calls; names of initialisers
are valid (simplification), those of optimisers, losses and metrics need not be.
-/

namespace CML.Failed

/-- back_propagation_neural_network.py:51, 74, 173: `network_structure` is `None`, the list given to `compile`, or the array read from a file. -/
inductive Structure
  | missing
  | list (l : List Nat)
  | array (l : List Nat)

/-- back_propagation_neural_network.py:38-57: the instance; `lr` is the learning rate of `optimizer` (`none`: no optimiser yet). -/
structure NetObj where
  layers : Structure := .missing
  lr : Option ℝ := none
  parameters : List Net.Layer := []
  trained : Bool := false
  loaded : Bool := false

/-- A call: `compile`; `compile` with a wrong name (of the optimiser if `lr` is `none`, of the loss or the metric otherwise); `fit`; `load_weights` of a file with all
attributes; `load_weights` of a file that lacks attributes (those read before the missing one are given); of a file that `io.initialize_weights_file` refuses. -/
inductive NetCall
  | compile (layers : List Nat) (lr : ℝ)
  | badCompile (layers : List Nat) (lr : Option ℝ) (e : PyErr)
  | fit (rnd : Nat → ℕ → ℕ → ℝ) (is : List Nat) (x y : Net.Mat)
  | load (layers : List Nat) (parameters : List Net.Layer)
  | incomplete (layers : Option (List Nat)) (optimizer : Bool)
  | badFile (e : PyErr)

/-- back_propagation_neural_network.py:100-109: the structure must be a list (`None` and arrays have no `insert`: `AttributeError`), the parameters are assigned
before the optimiser is called (`None` is not callable: `TypeError`); an exception leaves the parameters as far as they were changed in place. -/
noncomputable def NetObj.optimize (o : NetObj) (is : List Nat) (x y : Net.Mat) (start : List Net.Layer) : NetObj × Option PyErr :=
  match o.lr with
  | none => ({ o with parameters := start }, some .typeError)
  | some lr =>
    match sgdLoop lr x y is start with
    | (P, none) => ({ o with parameters := P, trained := true }, none)
    | (P, some e) => ({ o with parameters := P }, some e)

/-- back_propagation_neural_network.py:81-111 `fit`. -/
noncomputable def NetObj.fit (o : NetObj) (rnd : Nat → ℕ → ℕ → ℝ) (is : List Nat) (x y : Net.Mat) : NetObj × Option PyErr :=
  if o.loaded then o.optimize is x y o.parameters
  else match o.layers with
    | .list l => o.optimize is x y (Net.initLayers rnd 0 (x.cols :: l))
    | _ => (o, some .attributeError)

/-- back_propagation_neural_network.py:178-179: the parameters of the file are written over those of the same name; others stay. -/
def overwrite (old new : List Net.Layer) : List Net.Layer := new ++ old.drop new.length

/-- back_propagation_neural_network.py:59-79, 81-111, 150-184: one call; `lr₀` is the default learning rate, of the optimiser made by `get_optimizer` for the name in a
file. -/
noncomputable def NetObj.step (lr₀ : ℝ) (o : NetObj) : NetCall → NetObj × Option PyErr
  | .compile l lr => ({ o with layers := .list l, lr := some lr }, none)
  | .badCompile l none e => ({ o with layers := .list l }, some e)
  | .badCompile l (some lr) e => ({ o with layers := .list l, lr := some lr }, some e)
  | .fit rnd is x y => o.fit rnd is x y
  | .load l ps => ({ o with layers := .array l, lr := some lr₀, parameters := overwrite o.parameters ps, loaded := true }, none)
  | .incomplete none _ => (o, some .keyError)
  | .incomplete (some l) false => ({ o with layers := .array l }, some .keyError)
  | .incomplete (some l) true => ({ o with layers := .array l, lr := some lr₀ }, some .keyError)
  | .badFile e => (o, some e)

/-- back_propagation_neural_network.py:113-136 `predict` on an array. -/
noncomputable def NetObj.predict (o : NetObj) (x : Net.Mat) : Except PyErr Net.Mat :=
  if o.trained = false ∧ o.loaded = false then .error .valueError
  else match o.lr with
    | none => .error .attributeError
    | some _ => match Net.forward x o.parameters with
      | .error e => .error e
      | .ok (y, _) => .ok y

end CML.Failed
