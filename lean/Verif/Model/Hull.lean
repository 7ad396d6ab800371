import Verif.Prelude
import Mathlib.Algebra.Order.Field.Basic
import Mathlib.Order.WithBot
import Mathlib.Data.List.Sort

/-!
# Model of `ConvexHull` (classicML/backend/python/ops.py:54-125)

Points are pairs over an ordered field.  `np.argsort` (line 82) is not a stable sort, so its result is a parameter:
any permutation of the points that is non-decreasing in x (`IsArgsort`).  `list.sort` (line 91) is stable and is modelled by
the (stable) insertion sort.  Arithmetic is exact.  `np.asarray(slopes, dtype=int32)` (line 92) converts indices and slopes; the
indices are exact, the converted slopes are not used, but the Python float `np.inf` (line 112) cannot be converted: `OverflowError`.
-/

namespace CML.Hull

variable {K : Type*} [Field K] [LinearOrder K]

/-- What `points[np.argsort(points[:, 0])]` (ops.py:82) may return. -/
def IsArgsort (points sorted : List (K × K)) : Prop :=
  sorted.Perm points ∧ sorted.Pairwise fun p q => p.1 ≤ q.1

/-- ops.py:106-116 `_get_slope`; `np.inf` is the top element. -/
def slope (p0 p1 : K × K) : WithTop K :=
  if p0.1 = p1.1 then ⊤ else ((p0.2 - p1.2) / (p0.1 - p1.1) : K)

/-- ops.py:118-125 `_get_cross_product`. -/
def crossProduct (p0 p1 p2 : K × K) : K :=
  (p1.1 - p0.1) * (p2.2 - p0.2) - (p1.2 - p0.2) * (p2.1 - p0.1)

/-- ops.py:87-94: the remaining points in increasing order of their slope seen from `start` (stable). -/
def sortBySlope (start : K × K) (pts : List (K × K)) : List (K × K) :=
  pts.insertionSort fun p q => slope start p ≤ slope start q

/-- ops.py:97-99: push `p`, then `while len(hull) > 2 and cross(hull[-3], hull[-2], hull[-1]) < 0: hull.pop(-2)`.
The stack is kept with its last element first. -/
def push (p : K × K) : List (K × K) → List (K × K)
  | b :: a :: rest => if crossProduct a b p < 0 then push p (a :: rest) else p :: b :: a :: rest
  | rest => p :: rest

/-- ops.py:96-99: the scan. -/
def scan (start : K × K) (pts : List (K × K)) : List (K × K) :=
  pts.foldl (fun stack p => push p stack) [start]

/-- ops.py:96-104: scan and closing of the chain. -/
def graham (start : K × K) (pts : List (K × K)) : List (K × K) :=
  let hull := (scan start (sortBySlope start pts)).reverse
  hull ++ hull.take 1

/-- ops.py:74-104 `compute_convex_hull`, from the result of the argsort: the returned list of vertices.  With no point
`points[0]` raises `IndexError`; with one point `np.asarray([])[:, 0]` does.  If a slope is `np.inf`, i.e. another point has the
same x as the first, line 92 raises `OverflowError`. -/
def computeHull (sorted : List (K × K)) : Except PyErr (List (K × K)) :=
  match sorted with
  | [] => .error .indexError
  | [_] => .error .indexError
  | start :: pts => if pts.any (fun p => slope start p == ⊤) then .error .overflowError else .ok (graham start pts)

end CML.Hull
