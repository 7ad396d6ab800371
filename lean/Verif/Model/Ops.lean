import Verif.Prelude
import Mathlib.Algebra.Order.Group.Abs
import Mathlib.Algebra.Order.Group.Unbundled.Abs

/-!
# Model of the small operations of `classicML/backend/python/ops.py`
(and of the C++ counterparts in `classicML/backend/cc/ops/ops.cc`)
-/

namespace CML.Ops

/-! ## bootstrap_sampling -/

/-- A numpy array as `bootstrap_sampling` sees it: 1-D, or a list of rows (2-D or more: then `α` is the
type of whatever the remaining axes hold).  ops.py:31-34. -/
inductive Arr (α : Type*)
  | d1 (l : List α)
  | d2 (rows : List (List α))

/-- `x.shape[0]`, ops.py:32. -/
def Arr.len {α : Type*} : Arr α → Nat
  | .d1 l => l.length
  | .d2 r => r.length

/-- `if x.ndim == 1: x = x.reshape(-1, 1)`, ops.py:33-34, 38-39. -/
def Arr.rows {α : Type*} : Arr α → List (List α)
  | .d1 l => l.map fun a => [a]
  | .d2 r => r

/-- `cache[idx]` (fancy indexing on the first axis); `none` is an index out of range. -/
def fancy {α : Type*} (cache : List α) (idx : List Nat) : Option (List α) :=
  idx.mapM fun i => cache[i]?

/-- ops.py:13-51 `bootstrap_sampling`.
`rng seed n` is the array drawn by `np.random.seed(seed); np.random.choice(np.arange(n), n)`
(lines 46-47): any function from the `n` positions to the `n` rows.
Result: sampled `x` and, if `y` was given, sampled `y` (lines 49-51). -/
def bootstrapSampling {α β : Type*} (rng : Option Nat → (n : Nat) → Fin n → Fin n)
    (x : Arr α) (y : Option (Arr β)) (seed : Option Nat) :
    Except PyErr (List (List α) × Option (List (List β))) :=
  let n := x.len
  let indices := (List.ofFn (rng seed n)).map Fin.val
  match y with
  | none =>
    match fancy x.rows indices with
    | some xs => .ok (xs, none)
    | none => .error .indexError
  | some ya =>
    if n ≠ ya.len then .error .valueError
    else
      match fancy x.rows indices, fancy ya.rows indices with
      | some xs, some ys => .ok (xs, some ys)
      | _, _ => .error .indexError

/-! ## clip_alpha -/

/-- ops.py:289-310 `clip_alpha`. -/
def clipAlpha {α : Type*} [LT α] [DecidableLT α] (alpha low high : α) : α :=
  if high < alpha then high
  else if alpha < low then low
  else alpha

/-- cc/ops/ops.cc:252-263 `ClipAlpha` (`clipped_alpha` is initialised to `alpha`, then overwritten). -/
def ccClipAlpha {α : Type*} [LT α] [DecidableLT α] (alpha low high : α) : α := Id.run do
  let mut clipped := alpha
  if alpha > high then
    clipped := high
  else if alpha < low then
    clipped := low
  return clipped

/-! ## type_of_target -/

/-- The dtype kinds `type_of_target` distinguishes: `object`, float (`'f'`), anything else. -/
inductive DKind
  | object | float | other
  deriving DecidableEq

/-- A target array: dtype kind, shape and flattened values. -/
structure Target (α : Type*) where
  kind : DKind
  shape : List Nat
  data : List α

/-- The five possible answers, ops.py:797-802. -/
inductive TargetType
  | binary | continuous | multiclass | multilabel | unknown
  deriving DecidableEq, Repr

/-- `len(np.unique(y))` -/
def numUnique {α : Type*} [DecidableEq α] (l : List α) : Nat := l.dedup.length

/-- ops.py:790-830 `type_of_target`.  `isInt v` is `v == v.astype(int)`, line 813.
A 0-d array falls into the `elif y.shape[1] == 1` test (line 821) and raises `IndexError`. -/
def typeOfTarget {α : Type*} [DecidableEq α] (isInt : α → Bool) (y : Target α) :
    Except PyErr TargetType :=
  if y.kind = .object ∨ y.shape.length > 2 then .ok .unknown
  else if y.kind = .float ∧ y.data.any (fun v => !isInt v) then .ok .continuous
  else
    let tail : TargetType :=
      if y.shape.length = 2 ∧ numUnique y.data ≥ 2 then .multilabel else .unknown
    if y.shape.length = 1 then
      if numUnique y.data = 2 then .ok .binary
      else if numUnique y.data > 2 then .ok .multiclass
      else .ok tail
    else
      match y.shape[1]? with
      | none => .error .indexError
      | some c =>
        if c = 1 then
          if numUnique y.data = 2 then .ok .binary
          else if numUnique y.data > 2 then .ok .multiclass
          else .ok tail
        else .ok tail

/-- cc/ops/ops.cc:575-606 `TypeOfTarget_V2` for float and int arrays (`num_unique` counts the values after
the conversion `toF32` to `float32`; `std::set<float32>`, line 587) with at least one dimension
(a 0-d array reads `request().shape[1]` out of bounds, line 592). -/
def ccTypeOfTarget {α β : Type*} [DecidableEq β] (isInt : α → Bool) (toF32 : α → β)
    (y : Target α) : TargetType :=
  if y.kind = .object ∨ y.shape.length > 2 then .unknown
  else if y.kind = .float ∧ y.data.any (fun v => !isInt v) then .continuous
  else
    let nu := numUnique (y.data.map toF32)
    let tail : TargetType := if y.shape.length = 2 ∧ nu ≥ 2 then .multilabel else .unknown
    if y.shape.length = 1 ∨ y.shape[1]? = some 1 then
      if nu = 2 then .binary
      else if nu > 2 then .multiclass
      else tail
    else tail

/-! ## select_second_alpha -/

/-- `mask.nonzero()[0]`: the increasing list of the positions holding `true`. -/
def nonzero (mask : List Bool) : List Nat :=
  (List.range mask.length).filter fun i => mask[i]? = some true

/-- ops.py:759-787 `select_second_alpha`.  An empty mask makes `np.argmax` raise `ValueError`
(line 783); a cache shorter than the mask raises `IndexError` (line 781). -/
def selectSecondAlpha {K : Type*} [Lattice K] [AddGroup K] [DecidableLT K]
    (error : K) (cache : List K) (nonBound : List Bool) : Except PyErr (Nat × K) :=
  let idx := nonzero nonBound
  match fancy cache idx with
  | none => .error .indexError
  | some es =>
    let deltaE := es.map fun e => |error - e|
    match argmax? deltaE with
    | none => .error .valueError
    | some k =>
      match idx[k]? with
      | none => .error .indexError
      | some i =>
        match cache[i]? with
        | none => .error .indexError
        | some e => .ok (i, e)

/-- Loop of cc/ops/ops.cc:486-493. State: `(index_alpha, error_alpha, delta_e)`. -/
def ccSelectLoop {K : Type*} [Lattice K] [AddGroup K] [DecidableLT K]
    (error : K) (cache : Nat → K) : List Nat → Nat × K × K → Nat × K × K
  | [], s => s
  | i :: is, (ia, ea, de) =>
    let temp := |error - cache i|
    if temp > de then ccSelectLoop error cache is (i, cache i, temp)
    else ccSelectLoop error cache is (ia, ea, de)

/-- cc/ops/ops.cc:477-496 `SelectSecondAlpha`: note `index_alpha = 0` at line 482 while `delta_e` is that of the
first non-bound index (line 484).  `none`: no non-bound index (undefined behaviour in C++). -/
def ccSelectSecondAlpha {K : Type*} [Lattice K] [AddGroup K] [DecidableLT K]
    (error : K) (cache : Nat → K) (nonBound : List Bool) : Option (Nat × K) :=
  match nonzero nonBound with
  | [] => none
  | i0 :: is =>
    let r := ccSelectLoop error cache (i0 :: is) (0, cache 0, |error - cache i0|)
    some (r.1, r.2.1)

end CML.Ops
