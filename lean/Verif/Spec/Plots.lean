import Verif.Model.Plots

/-! # Specifications for the figures: plane geometry -/

namespace CML.Plots

/-- A point inside of the axes, the unit square (`plt.axis([0, 1, 0, 1])`, classicML/api/plots/utils.py:73, 81). -/
def Visible (p : ℝ × ℝ) : Prop := 0 ≤ p.1 ∧ p.1 ≤ 1 ∧ 0 ≤ p.2 ∧ p.2 ≤ 1

/-- The scalar product of two vectors of the plane. -/
def dot2 (a b : ℝ × ℝ) : ℝ := a.1 * b.1 + a.2 * b.2

/-- The square of the distance of two points of the plane. -/
def sqDist2 (a b : ℝ × ℝ) : ℝ := (a.1 - b.1) ^ 2 + (a.2 - b.2) ^ 2

/-- The point lies on the line through the origin with direction `v`. -/
def OnLine (v p : ℝ × ℝ) : Prop := ∃ s : ℝ, p = (s * v.1, s * v.2)

/-- `q` is the foot of the perpendicular from `p` to the line through the origin with direction `v`. -/
def IsFoot (v p q : ℝ × ℝ) : Prop := OnLine v q ∧ dot2 (p.1 - q.1, p.2 - q.2) v = 0

/-- The probability of class 1 at a point of the plane for the parameters `b0, b1, b2`. -/
noncomputable def probability (b0 b1 b2 : ℝ) (p : ℝ × ℝ) : ℝ := 1 / (1 + Real.exp (-(b0 * p.1 + b1 * p.2 + b2)))

end CML.Plots
