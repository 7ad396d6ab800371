import Verif.Model.Tree
import Verif.Model.Rounded

/-!
# Criteria of decision trees in floating point

As in `Model/Tree.lean`, with a rounding `fl` after every operation. `value_counts(...) / len` has double precision whatever the precision of the library, so
`fl` is double precision; the dividing points are computed in the format `fc` of the column. `total` is `np.sum` of a series (in some order: since it may depend
on the list, the order of `value_counts` is not modelled separately).
-/

namespace CML.DTree

universe u w
variable {V : Type u} {K : Type w} {m : Nat} [Field K] [LinearOrder K]

/-- criteria.py:113 and 186: `pd.value_counts(D) / D.shape[0]`. -/
def freqR (fl : K → K) (y : List Int) : List K := (pyUnique y).map fun c => fl ((y.count c : K) / (y.length : K))

/-- criteria.py:174-190 `Gini.__call__`. -/
def giniR (fl : K → K) (total : List K → K) (y : List Int) : K := fl (1 - total ((freqR fl y).map fun p => fl (p * p)))

/-- criteria.py:106-116 `Entropy.__call__`; `lg` is `np.log2`. -/
def entropyR (fl lg : K → K) (total : List K → K) (y : List Int) : K := total ((freqR fl y).map fun p => fl (-p * lg p))

/-- criteria.py:60-61, 72: the impurity of one group times its share. -/
def shareR (fl : K → K) (imp : List Int → K) (y group : List Int) : K := fl (fl ((group.length : K) / (y.length : K)) * imp group)

/-- criteria.py:57-61. -/
def contValueR (fl : K → K) (imp : List Int → K) (D : List K) (y : List Int) (t : K) : K :=
  let up := ((D.zip y).filter fun p => t ≤ p.1).map Prod.snd
  let down := ((D.zip y).filter fun p => p.1 < t).map Prod.snd
  fl (shareR fl imp y up + shareR fl imp y down)

/-- criteria.py:69-74: `+=` in the order of the values. -/
def discValueR [DecidableEq V] (fl : K → K) (imp : List Int → K) (D : List V) (y : List Int) : K :=
  ((pyUnique D).map fun v => shareR fl imp y (((D.zip y).filter fun p => v = p.1).map Prod.snd)).foldl (fun s t => fl (s + t)) 0

/-- criteria.py:53-55: the sum and its half are rounded to the format of the column. -/
def midpointsR (fc : K → K) : List K → List K
  | a :: b :: l => fc (fc (a + b) / 2) :: midpointsR fc (b :: l)
  | _ => []

/-- criteria.py:33-74 `Criterion.get_value`. -/
def getValueR [DecidableEq V] (fl fc : K → K) (imp : List Int → K) (num : V → K) (continuous : Bool) (D : List V) (y : List Int) :
    WithTop K × Option (Option K) :=
  if continuous then
    let r := contBest (contValueR fl imp (D.map num) y) (midpointsR fc ((pyUnique (D.map num)).insertionSort (· ≤ ·))) (⊤, none)
    (r.1, some r.2)
  else ((discValueR fl imp D y : K), none)

/-- criteria.py:76-99 `Criterion.optimal_division`. -/
def optimalDivisionR [DecidableEq V] (fl fc : K → K) (imp : List Int → K) (num : V → K) (isCont : List V → Bool)
    (cols : List (Fin m)) (xs : List (Row V m)) (ys : List Int) : Option (Fin m) × (WithTop K × Option (Option K)) :=
  minLoop (fun a => getValueR fl fc imp num (isCont (xs.map fun r => r a)) (xs.map fun r => r a) ys) cols (none, ⊤, none)

/-- criteria.py:125-144 `Gain.get_value`: `D_entropy - entropy`. -/
def gainOfR (fl : K → K) (H : K) : WithTop K → WithBot K
  | ⊤ => ⊥
  | (v : K) => ((fl (H - v) : K) : WithBot K)

/-- criteria.py:146-172 `Gain.optimal_division`; `imp` is the entropy. -/
def gainDivisionR [DecidableEq V] (fl fc : K → K) (imp : List Int → K) (num : V → K) (isCont : List V → Bool)
    (cols : List (Fin m)) (xs : List (Row V m)) (ys : List Int) : Option (Fin m) × (WithBot K × Option (Option K)) :=
  maxLoop (fun a =>
    (gainOfR fl (imp ys) (getValueR fl fc imp num (isCont (xs.map fun r => r a)) (xs.map fun r => r a) ys).1,
      (getValueR fl fc imp num (isCont (xs.map fun r => r a)) (xs.map fun r => r a) ys).2)) cols (none, ⊥, none)

/-- generators.py:315-325: what the generator takes from the criterion's answer. -/
def choiceR {B : Type*} : Option (Fin m) × (B × Option (Option K)) → Option (Fin m × Option K)
  | (some a, _, none) => some (a, none)
  | (some a, _, some (some t)) => some (a, some t)
  | _ => none

/-- generators.py:315-325 with one of the criteria `gini`, `entropy`; `fs` is the precision of the library. -/
def criterionOracleR [DecidableEq V] (fl fc fs : K → K) (imp : List Int → K) (num : V → K) (isCont : List V → Bool)
    (maj : List Int → Option Int) : Oracle V K m where
  split cols xs ys := choiceR (optimalDivisionR fl fc imp num isCont cols xs ys)
  maj := maj
  num := num
  fl := fs

/-- generators.py:315-325 with `gain`. -/
def gainOracleR [DecidableEq V] (fl fc fs : K → K) (imp : List Int → K) (num : V → K) (isCont : List V → Bool)
    (maj : List Int → Option Int) : Oracle V K m where
  split cols xs ys := choiceR (gainDivisionR fl fc imp num isCont cols xs ys)
  maj := maj
  num := num
  fl := fs

end CML.DTree
