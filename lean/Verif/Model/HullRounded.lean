import Verif.Model.Hull

/-!
# `ConvexHull` in floating point (classicML/backend/python/ops.py:54-125)

As `Model/Hull.lean`, with the rounding `fl` of the format of the points after every operation.
-/

namespace CML.Hull

variable {K : Type*} [Field K] [LinearOrder K]

/-- ops.py:106-116 `_get_slope` with roundings. -/
def slopeR (fl : K → K) (p0 p1 : K × K) : WithTop K :=
  if p0.1 = p1.1 then ⊤ else (fl (fl (p0.2 - p1.2) / fl (p0.1 - p1.1)) : K)

/-- ops.py:118-125 `_get_cross_product` with roundings. -/
def crossR (fl : K → K) (p0 p1 p2 : K × K) : K :=
  fl (fl (fl (p1.1 - p0.1) * fl (p2.2 - p0.2)) - fl (fl (p1.2 - p0.2) * fl (p2.1 - p0.1)))

/-- ops.py:87-94 with roundings. -/
def sortBySlopeR (fl : K → K) (start : K × K) (pts : List (K × K)) : List (K × K) :=
  pts.insertionSort fun p q => slopeR fl start p ≤ slopeR fl start q

/-- ops.py:97-99 with roundings. -/
def pushR (fl : K → K) (p : K × K) : List (K × K) → List (K × K)
  | b :: a :: rest => if crossR fl a b p < 0 then pushR fl p (a :: rest) else p :: b :: a :: rest
  | rest => p :: rest

/-- ops.py:96-104 with roundings. -/
def grahamR (fl : K → K) (start : K × K) (pts : List (K × K)) : List (K × K) :=
  let hull := ((sortBySlopeR fl start pts).foldl (fun stack p => pushR fl p stack) [start]).reverse
  hull ++ hull.take 1

/-- ops.py:74-104 `compute_convex_hull` with roundings, from the result of the argsort. -/
def computeHullR (fl : K → K) (sorted : List (K × K)) : Except PyErr (List (K × K)) :=
  match sorted with
  | [] => .error .indexError
  | [_] => .error .indexError
  | start :: pts => if pts.any (fun p => slopeR fl start p == ⊤) then .error .overflowError else .ok (grahamR fl start pts)

end CML.Hull
