import Verif.Model.Init

/-!
# Model of the C++ initialiser of radial basis function networks
(classicML/backend/cc/initializers/initializers.cc:178-206, classicML/backend/cc/matrix_op.cc:95-112)

`u` is `std::uniform_real_distribution(0, 1)` on the engine: it keeps nothing between calls, so it is a
function of the engine state.  Rounding is left out.
-/

namespace CML.Init
open CML.Net (Mat)

variable {ε : Type}

/-- matrix_op.cc:97-112 `GenerateRandomUniformDistributionMatrix`: a static engine of its own, seeded
anew by every call; column major.  (The unseeded case takes the time of day as the seed.) -/
def ccUniform (g : Engine ε) (u : ε → ℝ × ε) (rows cols seed : Nat) : Mat :=
  ⟨rows, cols, fun i j => (draws u (rows * cols) (g.seeded seed)).1.getD (j * rows + i) 0⟩

/-- initializers.cc:194-206 `RBFNormal::PyCall`, with the number left over in the normal distribution.
The result is a `std::map`, which pybind11 turns into a dictionary in the order of the keys. -/
def ccCallRBF (g : Engine ε) (u : ε → ℝ × ε) (hidden seed : Nat) (saved : Option ℝ) :
    Dict String Mat × Option ℝ :=
  let c := ccUniform g u hidden 2 seed
  let beta := ccMatrix g 1 hidden seed saved
  ([("b", ⟨1, 1, fun _ _ => 0⟩), ("beta", beta.1), ("c", c), ("w", ⟨1, hidden, fun _ _ => 0⟩)],
    beta.2)

end CML.Init
