import Mathlib.Data.Int.Log
import Mathlib.Algebra.Order.Field.Basic
import Mathlib.Algebra.Order.Floor.Ring
import Mathlib.Data.Rat.Floor
import Mathlib.Algebra.Group.Int.Even

/-!
# Floating point numbers

The other specifications speak of exact arithmetic. Here `fl` is what a processor does after each operation: it replaces the exact result by a number of
the format. The numbers of the format are the fixed points of `fl`.
-/

namespace CML.Float

variable {K : Type*} [Field K] [LinearOrder K]

/-- What the properties need of a rounding: larger results are not rounded to smaller numbers; 0 and 1 are numbers of the format; signs do not matter;
numbers of the format are not changed; twice a number of the format is one (binary format); two different numbers of the format have a non-zero rounded
difference (gradual underflow). Overflow is not modelled: the formats here have no largest number. -/
structure IsRounding (fl : K → K) : Prop where
  mono : ∀ x y, x ≤ y → fl x ≤ fl y
  zero : fl 0 = 0
  one : fl 1 = 1
  neg : ∀ x, fl (-x) = -fl x
  idem : ∀ x, fl (fl x) = fl x
  twice : ∀ x, fl x = x → fl (2 * x) = 2 * x
  diff : ∀ x y, fl x = x → fl y = y → fl (x - y) = 0 → x = y

/-- The relative error of a rounding is at most `u` on a set of results (all that do not underflow). -/
def HasPrecision (fl : K → K) (u : K) (on : K → Prop) : Prop := ∀ x, on x → |fl x - x| ≤ u * |x|

/-- The integer nearest to `q`, the even one if there are two. -/
def nearest [FloorRing K] (q : K) : Int :=
  if 2 * (q - ⌊q⌋) < 1 then ⌊q⌋ else if 1 < 2 * (q - ⌊q⌋) then ⌊q⌋ + 1 else if ⌊q⌋ % 2 = 0 then ⌊q⌋ else ⌊q⌋ + 1

/-- IEEE 754 "round to nearest, ties to even" with `p` significant bits and smallest positive number `2 ^ emin` (no largest number). -/
def rne [FloorRing K] (p : Nat) (emin : Int) (x : K) : K :=
  (nearest (x / 2 ^ max (Int.log 2 |x| - p + 1) emin) : K) * 2 ^ max (Int.log 2 |x| - p + 1) emin

/-- `numpy.float32` without overflow. -/
def f32 [FloorRing K] : K → K := rne 24 (-149)

/-- `numpy.float64` without overflow. -/
def f64 [FloorRing K] : K → K := rne 53 (-1074)

end CML.Float
