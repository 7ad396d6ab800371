import Verif.Model.Ops
import Mathlib.Algebra.Order.Field.Basic
import Mathlib.Algebra.BigOperators.Group.Finset.Basic
import Mathlib.Data.Fintype.BigOperators
import Mathlib.Data.List.FinRange

/-!
# Model of `SequentialMinimalOptimization` (classicML/backend/python/optimizers.py:869-1108)

Simplifications: exact arithmetic in an ordered field (the `_cml_precision.float` casts are the identity);
the kernel enters only through its values on pairs of training rows (`gram k l` is `kernel(x[[k]], x[[l]])`, and
`kernel(valid_x, x_i)` is read as the vector of `gram k i`, `k` valid); `b`, a one-element array in the code, is a scalar.
-/

namespace CML.SMO

open Finset

/-- What `run` receives: labels `y[i, 0]`, kernel values, `C`, `tol` (optimizers.py:931). -/
structure Problem (K : Type*) (n : Nat) where
  y : Fin n → K
  gram : Fin n → Fin n → K
  C : K
  tol : K

/-- The optimiser's attributes (optimizers.py:939-944).  `non_bound_alphas` is a 0/1 float array in the code. -/
structure State (K : Type*) (n : Nat) where
  alphas : Fin n → K
  nonBound : Fin n → Bool
  cache : Fin n → K
  nonZero : Fin n → Bool
  b : K

variable {K : Type*} [Field K] [LinearOrder K] {n : Nat}

/-- Initial attributes, optimizers.py:939-944. -/
def State.init (K : Type*) [Field K] (n : Nat) : State K n :=
  { alphas := fun _ => 0, nonBound := fun _ => false, cache := fun _ => 0,
    nonZero := fun _ => false, b := 0 }

/-- ops.py:184-222 `calculate_error` (line 207: `non_zero_alphas.any()`). -/
def calculateError (p : Problem K n) (s : State K n) (i : Fin n) : K :=
  let fx :=
    if ∃ k, s.nonZero k = true then
      (∑ k, if s.nonZero k = true then s.alphas k * p.y k * p.gram k i else 0) + s.b
    else s.b
  fx - p.y i

/-- optimizers.py:1042-1047: the box `low, high` for the second multiplier. -/
def bounds (p : Problem K n) (s : State K n) (i j : Fin n) : K × K :=
  if p.y i ≠ p.y j then
    (max 0 (s.alphas j - s.alphas i), min p.C (p.C + s.alphas j - s.alphas i))
  else
    (max 0 (s.alphas i + s.alphas j - p.C), min p.C (s.alphas i + s.alphas j))

/-- optimizers.py:1060: `eta`. -/
def eta (p : Problem K n) (i j : Fin n) : K := p.gram i i + p.gram j j - 2 * p.gram i j

/-- optimizers.py:1064-1066: the new second multiplier. -/
def alphaJNew (p : Problem K n) (s : State K n) (i j : Fin n) (ei ej : K) : K :=
  Ops.clipAlpha (s.alphas j + p.y j * (ei - ej) / eta p i j) (bounds p s i j).1 (bounds p s i j).2

/-- optimizers.py:1100-1108 `_update_alpha_cache`. -/
def updateAlphaCache (p : Problem K n) (s : State K n) (alpha : K) (idx : Fin n) : State K n :=
  { s with
    nonZero := Function.update s.nonZero idx (decide (0 < alpha))
    nonBound := Function.update s.nonBound idx (decide (0 < alpha ∧ alpha < p.C)) }

/-- optimizers.py:1090-1098 `_update_error_cache`: refreshes the entries of the *currently flagged* non-bound samples,
using the *current* (not yet updated) `non_zero_alphas` mask. -/
def updateErrorCache (p : Problem K n) (s : State K n) : State K n :=
  { s with cache := fun k => if s.nonBound k = true then calculateError p s k else s.cache k }

/-- optimizers.py:1020-1088 `_update_alpha`.  `none` is `return False` (no attribute has been touched),
`some s'` is `return True`. -/
def updateAlpha (p : Problem K n) (s : State K n) (i j : Fin n) (ei ej : K) : Option (State K n) :=
  if i = j then none
  else if (bounds p s i j).1 = (bounds p s i j).2 then none
  else if eta p i j ≤ 0 then none
  else
    let aj := alphaJNew p s i j ei ej
    if |aj - s.alphas j| < 1 / 100000 then none
    else
      let ai := s.alphas i + p.y i * p.y j * (s.alphas j - aj)
      let bi := -ei - p.y i * p.gram i i * (ai - s.alphas i) - p.y j * p.gram j i * (aj - s.alphas j) + s.b
      let bj := -ej - p.y i * p.gram i j * (ai - s.alphas i) - p.y j * p.gram j j * (aj - s.alphas j) + s.b
      let s1 := { s with
        b := (bi + bj) / 2
        alphas := Function.update (Function.update s.alphas i ai) j aj }
      let s2 := updateErrorCache p s1
      let s3 := updateAlphaCache p s2 ai i
      some (updateAlphaCache p s3 aj j)

/-- `select_second_alpha` (ops.py:759-787) on the attributes; `none` iff there is no non-bound sample.
`SMO.selectSecond_eq` relates it to the list model `Ops.selectSecondAlpha`. -/
def selectSecond (s : State K n) (ei : K) : Option (Fin n × K) :=
  let idx := (List.finRange n).filter s.nonBound
  match argmax? (idx.map fun k => |ei - s.cache k|) with
  | none => none
  | some m =>
    match idx[m]? with
    | none => none
    | some j => some (j, s.cache j)

/-- optimizers.py:1013-1016: the loop over `np.random.permutation(number_of_sample)`. -/
def forcedLoop (p : Problem K n) (s : State K n) (i : Fin n) (ei : K) :
    List (Fin n) → Option (State K n)
  | [] => none
  | j :: js =>
    match updateAlpha p s i j ei (calculateError p s j) with
    | some s' => some s'
    | none => forcedLoop p s i ei js

/-- optimizers.py:998-1001: the error used for the first multiplier. -/
def errorI (p : Problem K n) (s : State K n) (i : Fin n) : K :=
  if s.nonBound i = true then s.cache i else calculateError p s i

/-- optimizers.py:1005: the KKT test that triggers an update. -/
def violates (p : Problem K n) (s : State K n) (i : Fin n) : Prop :=
  (p.y i * errorI p s i < -p.tol ∧ s.alphas i < p.C) ∨ (p.y i * errorI p s i > p.tol ∧ 0 < s.alphas i)

instance (p : Problem K n) (s : State K n) (i : Fin n) : Decidable (violates p s i) := by
  unfold violates; infer_instance

/-- optimizers.py:980-1018 `_update_parameters`; `perm` is the drawn permutation, `none` is `return 0`,
`some s'` is `return 1`. -/
def updateParameters (p : Problem K n) (s : State K n) (i : Fin n) (perm : List (Fin n)) :
    Option (State K n) :=
  let ei := errorI p s i
  if violates p s i then
    match selectSecond s ei with
    | some (j, ej) =>
      match updateAlpha p s i j ei ej with
      | some s' => some s'
      | none => forcedLoop p s i ei perm
    | none => forcedLoop p s i ei perm
  else none

/-- optimizers.py:951-956: one pass; `t` counts the calls of `_update_parameters` (the permutation a call would draw
is `perms t`), the last component is `pair_of_alpha_changed`. -/
def passLoop (p : Problem K n) (perms : Nat → List (Fin n)) :
    List (Fin n) → State K n × Nat × Nat → State K n × Nat × Nat
  | [], r => r
  | i :: is, (s, t, c) =>
    match updateParameters p s i (perms t) with
    | some s' => passLoop p perms is (s', t + 1, c + 1)
    | none => passLoop p perms is (s, t + 1, c)

/-- Loop variables of `run`. -/
structure Run (K : Type*) (n : Nat) where
  st : State K n
  t : Nat
  entire : Bool
  epoch : Nat

/-- Loop variables before the loop, optimizers.py:933-935. -/
def Run.init (K : Type*) [Field K] (n : Nat) : Run K n :=
  { st := State.init K n, t := 0, entire := true, epoch := 0 }

/-- One iteration of the `while` loop, optimizers.py:946-970.  The flag is `true` when the method returns
inside the loop (line 960-967). -/
def pass (p : Problem K n) (perms : Nat → List (Fin n)) (r : Run K n) : Run K n × Bool :=
  let idx := if r.entire then List.finRange n else (List.finRange n).filter r.st.nonBound
  let (s, t, c) := passLoop p perms idx (r.st, r.t, 0)
  if r.entire then
    if c = 0 then ({ st := s, t := t, entire := true, epoch := r.epoch + 1 }, true)
    else ({ st := s, t := t, entire := false, epoch := r.epoch + 1 }, false)
  else if c = 0 then ({ st := s, t := t, entire := true, epoch := r.epoch + 1 }, false)
  else ({ st := s, t := t, entire := false, epoch := r.epoch + 1 }, false)

/-- At most `k` iterations of the `while` loop; the flag tells whether the method returned inside the loop. -/
def loop (p : Problem K n) (perms : Nat → List (Fin n)) : Nat → Run K n → Run K n × Bool
  | 0, r => (r, false)
  | k + 1, r =>
    match pass p perms r with
    | (r', true) => (r', true)
    | (r', false) => loop p perms k r'

/-- What `run` returns besides the rows `x[support]` (optimizers.py:961-967, 972-978):
support indices, their multipliers, their labels, and the bias. -/
structure Result (K : Type*) (n : Nat) where
  support : List (Fin n)
  supportAlpha : List K
  supportY : List K
  b : K

/-- optimizers.py:961-967, 972-978. -/
def extract (p : Problem K n) (s : State K n) : Result K n :=
  let support := (List.finRange n).filter s.nonZero
  { support := support, supportAlpha := support.map s.alphas, supportY := support.map p.y, b := s.b }

/-- optimizers.py:912-978 `run`: `Returns p perms epochs s` says that the method returns with final attributes `s`
(then its value is `extract p s`).  `epochs = -1` means no limit, and any other negative number gives no pass at all
(line 946). -/
def Returns (p : Problem K n) (perms : Nat → List (Fin n)) (epochs : Int) (s : State K n) : Prop :=
  if epochs = -1 then ∃ k, (loop p perms k (Run.init K n)).2 = true ∧ (loop p perms k (Run.init K n)).1.st = s
  else (loop p perms epochs.toNat (Run.init K n)).1.st = s

end CML.SMO
