import Verif.Model.Training

/-! # Specifications for monitoring -/

namespace CML.Train

/-- The parameters after `k` epochs of a run that starts with `p` (epochs are numbered from 1). -/
def state {P : Type} (upd : Nat → P → P) (p : P) : Nat → P
  | 0 => p
  | k + 1 => upd (k + 1) (state upd p k)

/-- The loss and metric values of the epochs `1, …, n` of a run that starts with `p`, in this order. -/
def values {P L M : Type} (upd : Nat → P → P) (ev : Eval P L M) (p : P) (n : Nat) : List (L × M) :=
  (List.range n).map fun k => (ev.loss (state upd p k) (state upd p (k + 1)), ev.metric (state upd p k) (state upd p (k + 1)))

/-- The values of a sequence of runs, each of which continues with the parameters of the previous one. -/
def valuesAll {P L M : Type} (upd : Nat → P → P) (ev : Eval P L M) : List Nat → P → List (L × M)
  | [], _ => []
  | n :: ns, p => values upd ev p n ++ valuesAll upd ev ns (state upd p n)

/-- The number of `=` of a bar. -/
def filled (bar : List Char) : Nat := bar.count '='

/-- What is used of the rounding of floating-point numbers: it is monotone, does not change 1 and 25, and keeps positive
numbers positive. -/
structure Rounding (fl : ℚ → ℚ) : Prop where
  mono : Monotone fl
  one : fl 1 = 1
  twentyFive : fl 25 = 25
  pos : ∀ x, 0 < x → 0 < fl x

end CML.Train
