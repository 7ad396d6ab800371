import Verif.Model.Bench

/-! # Specifications for the benchmark decorators -/

namespace CML.Bench

variable {W V : Type}

/-- `Calls f w vs ws w'`: called again and again from the world `w` the function returns the values `vs` one after the other, starting in the
worlds `ws`, and leaves the world `w'`. -/
inductive Calls (f : W → Except PyErr V × W) : W → List V → List W → W → Prop
  | nil (w) : Calls f w [] [] w
  | cons {w v w' vs ws w''} : f w = (.ok v, w') → Calls f w' vs ws w'' → Calls f w (v :: vs) (w :: ws) w''

/-- One unit in seconds. -/
noncomputable def TimeUnit.seconds : TimeUnit → ℝ
  | .s => 1
  | .ms => 1 / 1000
  | .us => 1 / 1000000

/-- The unit suits the duration (in seconds): seconds from one second on, milliseconds from one millisecond on, otherwise microseconds. -/
def TimeUnit.Suits (u : TimeUnit) (sec : ℝ) : Prop :=
  match u with
  | .s => 1 ≤ sec
  | .ms => 1 / 1000 ≤ sec ∧ sec < 1
  | .us => sec < 1 / 1000

end CML.Bench
