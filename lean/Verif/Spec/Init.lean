import Verif.Model.Init

/-! # Specification of the initialisers -/

namespace CML.Init
open CML.Net (Mat)

variable {σ : Type}

/-- Number `k` (from 0) of the sequence that the generator `next` produces from the state `s`. -/
def nth (next : σ → ℝ × σ) (s : σ) : Nat → ℝ
  | 0 => (next s).1
  | k + 1 => nth next (next s).2 k

/-- The state after `k` numbers. -/
def stateAfter (next : σ → ℝ × σ) : Nat → σ → σ
  | 0, s => s
  | k + 1, s => stateAfter next k (next s).2

/-- The documented scale: 1; `c² = 2 / N_in`; `c² = 2 / (N_in + N_out)`. -/
def IsScale (k : Kind) (nIn nOut : Nat) (c : ℝ) : Prop :=
  0 ≤ c ∧ match k with
    | .randomNormal => c = 1
    | .heNormal => c ^ 2 * nIn = 2
    | .xavierNormal => c ^ 2 * ((nIn : ℝ) + nOut) = 2

/-- The number of weights of a network in all layers before layer `l`. -/
def weightsBefore : List Nat → Nat → Nat
  | _, 0 => 0
  | nIn :: nOut :: rest, l + 1 => nOut * nIn + weightsBefore (nOut :: rest) l
  | _, _ => 0

/-- The number of weights of a network. -/
def weightsAll (structure_ : List Nat) : Nat := weightsBefore structure_ (structure_.length - 1)

end CML.Init
