import Verif.Model.SMO

/-! # Specifications for SVM training by SMO -/

namespace CML.SMO
open Finset

variable {K : Type*} [Field K] [LinearOrder K] {n : Nat}

/-- Labels are `+1`/`-1` and `C ≥ 0`: what the SVC documentation asks of the caller. -/
structure Problem.Valid (p : Problem K n) : Prop where
  label : ∀ i, p.y i = 1 ∨ p.y i = -1
  C_nonneg : 0 ≤ p.C

/-- Feasibility for the SVM dual: box constraints and the equality constraint. -/
def DualFeasible (p : Problem K n) (alphas : Fin n → K) : Prop :=
  (∀ i, 0 ≤ alphas i ∧ alphas i ≤ p.C) ∧ ∑ i, alphas i * p.y i = 0

/-- The SVM dual objective `∑ αᵢ - ½ ∑∑ αᵢ αⱼ yᵢ yⱼ κ(xᵢ, xⱼ)`. -/
def dualObjective (p : Problem K n) (alphas : Fin n → K) : K :=
  ∑ i, alphas i - (1 / 2) * ∑ k, ∑ l, alphas k * alphas l * p.y k * p.y l * p.gram k l

/-- The decision value of the current model at training row `i`: `∑ αₖ yₖ κ(xₖ, xᵢ) + b`. -/
def decision (p : Problem K n) (alphas : Fin n → K) (b : K) (i : Fin n) : K :=
  ∑ k, alphas k * p.y k * p.gram k i + b

/-- The prediction error at training row `i`. -/
def trueError (p : Problem K n) (alphas : Fin n → K) (b : K) (i : Fin n) : K :=
  decision p alphas b i - p.y i

/-- The KKT test of sample `i` is passed within `tol`, for the error value `e`. -/
def KKTWithin (p : Problem K n) (alphas : Fin n → K) (e : K) (i : Fin n) : Prop :=
  (alphas i < p.C → -p.tol ≤ p.y i * e) ∧ (0 < alphas i → p.y i * e ≤ p.tol)

/-- End points of the feasible segment for `α_j` when only `α_i, α_j` move (Platt 1998). -/
def segLow (p : Problem K n) (alphas : Fin n → K) (i j : Fin n) : K :=
  if p.y i = p.y j then max 0 (alphas i + alphas j - p.C) else max 0 (alphas j - alphas i)
/-- See `segLow`. -/
def segHigh (p : Problem K n) (alphas : Fin n → K) (i j : Fin n) : K :=
  if p.y i = p.y j then min p.C (alphas i + alphas j) else min p.C (p.C + alphas j - alphas i)

/-- Optimising the pair `(i, j)` makes no progress: same sample, degenerate segment, non-positive curvature, or the
optimum on the segment (for error values `ei`, `ej`) is less than `1e-5` away. -/
def NoProgress (p : Problem K n) (alphas : Fin n → K) (i j : Fin n) (ei ej : K) : Prop :=
  i = j ∨ segLow p alphas i j = segHigh p alphas i j ∨
  p.gram i i + p.gram j j - 2 * p.gram i j ≤ 0 ∨
  ∃ a, |a - alphas j| < 1 / 100000 ∧ segLow p alphas i j ≤ a ∧ a ≤ segHigh p alphas i j ∧
    ∀ z, segLow p alphas i j ≤ z → z ≤ segHigh p alphas i j →
      |alphas j + p.y j * (ei - ej) / (p.gram i i + p.gram j j - 2 * p.gram i j) - a| ≤
      |alphas j + p.y j * (ei - ej) / (p.gram i i + p.gram j j - 2 * p.gram i j) - z|

/-- States reachable during training: the initial one, and every state produced by a call of `_update_parameters` for
any sample and any permutation, in any order (this includes all orders in which `run` makes the calls). -/
inductive Reachable (p : Problem K n) : State K n → Prop
  | init : Reachable p (State.init K n)
  | step {s s' : State K n} (i : Fin n) (perm : List (Fin n)) :
      Reachable p s → updateParameters p s i perm = some s' → Reachable p s'

/-- One sweep over a list of samples: each is examined once, in order, in the state left by the previous one, with the permutation
of its turn; the last argument counts the changes. -/
inductive Sweep (p : Problem K n) (perms : Nat → List (Fin n)) :
    List (Fin n) → State K n × Nat → State K n × Nat → Nat → Prop
  | done (s : State K n) (t : Nat) : Sweep p perms [] (s, t) (s, t) 0
  | keep {i : Fin n} {is : List (Fin n)} {s : State K n} {t : Nat} {e : State K n × Nat} {c : Nat} :
      updateParameters p s i (perms t) = none → Sweep p perms is (s, t + 1) e c → Sweep p perms (i :: is) (s, t) e c
  | change {i : Fin n} {is : List (Fin n)} {s s' : State K n} {t : Nat} {e : State K n × Nat} {c : Nat} :
      updateParameters p s i (perms t) = some s' → Sweep p perms is (s', t + 1) e c →
      Sweep p perms (i :: is) (s, t) e (c + 1)

/-- Which samples the next sweep examines, given the sweeps so far (latest first; "over all samples?" and number of changes): all of
them at the beginning and after a sweep over the non-bound samples that changed nothing. -/
def nextEntire : List (Bool × Nat) → Bool
  | [] => true
  | (false, 0) :: _ => true
  | _ => false

/-- The documented training schedule: alternate sweeps; stop after a sweep over all samples that changed nothing. -/
inductive Schedule (p : Problem K n) (perms : Nat → List (Fin n)) : State K n → Nat → List (Bool × Nat) → Prop
  | start : Schedule p perms (State.init K n) 0 []
  | sweep {s s' : State K n} {t t' c : Nat} {log : List (Bool × Nat)} :
      Schedule p perms s t log → log.head? ≠ some (true, 0) →
      Sweep p perms ((List.finRange n).filter fun i => nextEntire log || decide (0 < s.alphas i ∧ s.alphas i < p.C))
        (s, t) (s', t') c →
      Schedule p perms s' t' ((nextEntire log, c) :: log)

end CML.SMO
