import Verif.Model.InitRBF
import Verif.Spec.Init
import Mathlib.Analysis.SpecialFunctions.Log.Basic

/-! # Specification: how normal numbers are made of uniform ones -/

namespace CML.Init

/-- A point of the unit disc other than its centre. -/
def InDisc (x y : ℝ) : Prop := 0 < x ^ 2 + y ^ 2 ∧ x ^ 2 + y ^ 2 ≤ 1

/-- The polar method of `std::normal_distribution` (libstdc++ and libc++, which differ in which of the
two numbers is handed out first): two uniform numbers of the engine, spread over [-1, 1); if the point
lies in the unit disc, it is stretched by `√(-2 log r² / r²)`; otherwise try again. -/
def Polar {ε : Type} (g : Engine ε) (u : ε → ℝ × ε) : Prop :=
  ∀ e : ε, let u₀ := (u e).1
    let u₁ := (u (u e).2).1
    let e' := (u (u e).2).2
    let x := 2 * u₀ - 1
    let y := 2 * u₁ - 1
    let m := Real.sqrt (-2 * Real.log (x ^ 2 + y ^ 2) / (x ^ 2 + y ^ 2))
    (InDisc x y → g.pair e = ((x * m, y * m), e') ∨ g.pair e = ((y * m, x * m), e')) ∧
    (¬ InDisc x y → g.pair e = g.pair e')

end CML.Init
