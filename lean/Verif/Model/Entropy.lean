import Verif.Model.Tree
import Mathlib.Analysis.SpecialFunctions.Log.Base

/-! # Model of the entropy criterion (classicML/backend/python/tree/criteria.py:102-117) -/

namespace CML.DTree

/-- criteria.py:107-117 `Entropy.__call__`: `np.sum(-pk * np.log2(pk))` over the label frequencies `pk`
(`pd.value_counts(D) / D.shape[0]`; only labels that occur are counted). -/
noncomputable def entropy (y : List Int) : ℝ :=
  ((pyUnique y).map fun c =>
    -((y.count c : ℝ) / (y.length : ℝ)) * Real.logb 2 ((y.count c : ℝ) / (y.length : ℝ))).sum

end CML.DTree
