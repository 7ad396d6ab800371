import Verif.Spec.Ensemble

namespace CML.Ada
open Finset

variable {X : Type*} {n : Nat}

/-- The margin of a sample: the share of the votes for its label minus the share of the votes against it, between -1 and 1. -/
noncomputable def margin (ms : List ((X → Int) × ℝ)) (r : X) (label : Int) : ℝ := label * weightedVote ms r / (ms.map Prod.snd).sum

open Classical in
/-- The number of samples with margin at most `θ`. -/
noncomputable def lowMargins (ms : List ((X → Int) × ℝ)) (x : Fin n → X) (y : Fin n → Int) (θ : ℝ) : Nat := (univ.filter fun i => margin ms (x i) (y i) ≤ θ).card

end CML.Ada
