import Verif.Model.ScoreRounded
import Verif.Spec.Rounded

namespace CML.Float

variable {K : Type*} [Field K] [LinearOrder K]

/-- Every product is added exactly once. -/
def Plan.Complete {n : Nat} (p : Plan n) : Prop := p.entries.Nodup ∧ ∀ i, i ∈ p.entries

/-- The textbook bound for the error of a scalar product of `n` products of total size `S`, with `r` roundings on every way, of relative error `u` and underflow `eta`. -/
def dotError (u eta : K) (r n : Nat) (S : K) : K := ((1 + u) ^ r - 1) * S + (1 + u) ^ r * (n * eta)

end CML.Float
