import Verif.Dict
import Verif.Model.Network

/-!
# Model of the initialisers (classicML/backend/python/initializers.py, classicML/backend/cc/initializers/initializers.cc and the random
matrices of classicML/backend/cc/matrix_op.cc)

Random generators are state machines.  Rounding (`astype`) is left out.  Sizes are the elements of a numpy integer array, so that a division
by the size 0 is no exception; the only matrices concerned have no entries (a layer without inputs), or belong to a logistic regression
without attributes, whose infinite entries are not modelled.
-/

namespace CML.Init
open CML.Net (Mat)

/-- The three initialisers; `GlorotNormal` (initializers.py:139-145) inherits everything but the name from `XavierNormal`. -/
inductive Kind | randomNormal | heNormal | xavierNormal
  deriving DecidableEq

/-- numpy's legacy generator, of which `np.random` is the single, process wide instance. -/
structure Rng (σ : Type) where
  seeded : Nat → σ
  randn : σ → ℝ × σ
  rand : σ → ℝ × σ

variable {σ : Type}

/-- `k` consecutive numbers. -/
def draws (next : σ → ℝ × σ) : Nat → σ → List ℝ × σ
  | 0, s => ([], s)
  | k + 1, s => ((next s).1 :: (draws next k (next s).2).1, (draws next k (next s).2).2)

/-- `np.random.randn(rows, cols)` / `np.random.rand(rows, cols)`: filled row by row. -/
def randMat (next : σ → ℝ × σ) (rows cols : Nat) (s : σ) : Mat × σ :=
  (⟨rows, cols, fun i j => (draws next (rows * cols) s).1.getD (i * cols + j) 0⟩, (draws next (rows * cols) s).2)

/-- initializers.py:30-32, the constructor: `np.random.seed(seed)`; without a seed the state comes from the operating system
(`entropy`).  The old state is lost. -/
def construct (r : Rng σ) (seed : Option Nat) (entropy : σ) (_old : σ) : σ :=
  match seed with
  | some k => r.seeded k
  | none => entropy

/-- initializers.py:58-59 (1), 93-94 (`np.sqrt(2 / N_in)`), 132-133 (`np.sqrt(2 / (N_in + N_out))`). -/
noncomputable def layerScale (k : Kind) (nIn nOut : Nat) : ℝ :=
  match k with
  | .randomNormal => 1
  | .heNormal => Real.sqrt (2 / (nIn : ℝ))
  | .xavierNormal => Real.sqrt (2 / ((nIn : ℝ) + nOut))

/-- initializers.py:52, 86-87, 125-126: the factor for a logistic regression with `d` attributes. -/
noncomputable def attrScale (k : Kind) (d : Nat) : ℝ :=
  match k with
  | .randomNormal => 1
  | .heNormal => Real.sqrt (2 / (d : ℝ))
  | .xavierNormal => Real.sqrt (d : ℝ)

/-- `m * c`. -/
noncomputable def Mat.scale (m : Mat) (c : ℝ) : Mat := ⟨m.rows, m.cols, fun i j => m.e i j * c⟩

/-- initializers.py:51-52, 85-87, 122-126: the parameters of a logistic regression. -/
noncomputable def callInt (r : Rng σ) (k : Kind) (d : Nat) (s : σ) : Mat × σ :=
  (Mat.scale (randMat r.randn (d + 1) 1 s).1 (attrScale k d), (randMat r.randn (d + 1) 1 s).2)

/-- initializers.py:57-62, 92-97, 131-136: the loop over the layers; `layer` is the loop variable, the list starts at its size. -/
noncomputable def layerLoop (r : Rng σ) (k : Kind) : Nat → List Nat → Dict String Mat × σ → Dict String Mat × σ
  | layer, nIn :: nOut :: rest, (ps, s) =>
    let w := randMat r.randn nOut nIn s
    layerLoop r k (layer + 1) (nOut :: rest)
      ((ps.set ("w" ++ toString (layer + 1)) (Mat.scale w.1 (layerScale k nIn nOut))).set ("b" ++ toString (layer + 1))
        ⟨1, nOut, fun _ _ => 0⟩, w.2)
  | _, _, st => st

/-- initializers.py:53-64, 88-99, 127-138: the parameters of a neural network. -/
noncomputable def callStructure (r : Rng σ) (k : Kind) (structure_ : List Nat) (s : σ) : Dict String Mat × σ :=
  layerLoop r k 0 structure_ ([], s)

/-- initializers.py:154-170 `RBFNormal.__call__`: the entries of the dictionary are evaluated in order, so the centres are drawn before
`beta`. -/
noncomputable def callRBF (r : Rng σ) (hidden : Nat) (s : σ) : Dict String Mat × σ :=
  let c := randMat r.rand hidden 2 s
  let beta := randMat r.randn 1 hidden c.2
  ([("w", ⟨1, hidden, fun _ _ => 0⟩), ("b", ⟨1, 1, fun _ _ => 0⟩), ("c", c.1), ("beta", beta.1)], beta.2)

/-! ## The C++ engine -/

/-- `std::default_random_engine`, and the pair of normal numbers that `std::normal_distribution` makes of its output (polar method: the
second number of the pair is kept for the next call). -/
structure Engine (ε : Type) where
  seeded : Nat → ε
  pair : ε → (ℝ × ℝ) × ε

variable {ε : Type}

/-- `_distribution(_engine)`: the saved number if there is one, else a new pair. -/
def ccNormal (g : Engine ε) (p : ε × Option ℝ) : ℝ × (ε × Option ℝ) :=
  match p.2 with
  | some v => (v, (p.1, none))
  | none => ((g.pair p.1).1.1, ((g.pair p.1).2, some (g.pair p.1).1.2))

/-- matrix_op.cc:78-93 `GenerateRandomStandardNormalDistributionMatrix`: the engine is seeded by every call, but `_distribution` is static
and its saved number (`saved`) survives from call to call.  `Matrix` is column major.  (The unseeded case takes the time of day in seconds
as the seed.) -/
def ccMatrix (g : Engine ε) (rows cols seed : Nat) (saved : Option ℝ) : Mat × Option ℝ :=
  let q := draws (ccNormal g) (rows * cols) (g.seeded seed, saved)
  (⟨rows, cols, fun i j => q.1.getD (j * rows + i) 0⟩, q.2.2)

/-- initializers.cc:57-75, 101-120, 147-166: the loop over the layers. -/
noncomputable def ccLayerLoop (g : Engine ε) (k : Kind) (seed : Nat) : Nat → List Nat → Dict String Mat × Option ℝ → Dict String Mat × Option ℝ
  | layer, nIn :: nOut :: rest, (ps, saved) =>
    let w := ccMatrix g nOut nIn seed saved
    ccLayerLoop g k seed (layer + 1) (nOut :: rest)
      ((ps.set ("w" ++ toString (layer + 1)) (Mat.scale w.1 (layerScale k nIn nOut))).set ("b" ++ toString (layer + 1))
        ⟨1, nOut, fun _ _ => 0⟩, w.2)
  | _, _, st => st

/-- initializers.cc `PyCall2` of the three initialisers. -/
noncomputable def ccCallStructure (g : Engine ε) (k : Kind) (seed : Nat) (structure_ : List Nat) (saved : Option ℝ) :
    Dict String Mat × Option ℝ :=
  ccLayerLoop g k seed 0 structure_ ([], saved)

/-- initializers.cc:46-52, 89-96, 135-142 `PyCall1` of the three initialisers. -/
noncomputable def ccCallInt (g : Engine ε) (k : Kind) (seed d : Nat) (saved : Option ℝ) : Mat × Option ℝ :=
  (Mat.scale (ccMatrix g (d + 1) 1 seed saved).1 (attrScale k d), (ccMatrix g (d + 1) 1 seed saved).2)

end CML.Init
