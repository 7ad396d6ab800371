import Verif.Model.Network
import Mathlib.Analysis.Calculus.Deriv.Basic

/-! # Specifications for the back-propagation network -/

namespace CML.Net
open Finset

/-- The size of the last layer. -/
def lastSize : List Nat → Nat
  | [] => 0
  | [k] => k
  | _ :: ks => lastSize ks

/-- The layers have the shapes of a network with the given sizes: `w_l` is `(n_l, n_{l-1})` and `b_l` is `(1, n_l)`. -/
def Shaped : List Nat → List Layer → Prop
  | d :: m :: rest, L :: Ls => (L.w.rows = m ∧ L.w.cols = d ∧ L.b.rows = 1 ∧ L.b.cols = m) ∧ Shaped (m :: rest) Ls
  | [_], [] => True
  | _, _ => False

/-- A fully connected layer applied to a vector: `w x + b`. -/
noncomputable def affine (L : Layer) (x : ℕ → ℝ) : ℕ → ℝ := fun r => (∑ c ∈ range L.w.cols, L.w.e r c * x c) + L.b.e 0 r

/-- The textbook network: affine layers, `max(0, ·)` between them.  The result are the logits. -/
noncomputable def logits : List Layer → (ℕ → ℝ) → (ℕ → ℝ)
  | [], x => x
  | [L], x => affine L x
  | L :: L' :: Ls, x => logits (L' :: Ls) fun r => max 0 (affine L x r)

/-- No hidden unit is exactly at the kink of its activation function. -/
def NoKink : List Layer → (ℕ → ℝ) → Prop
  | [], _ => True
  | [_], _ => True
  | L :: L' :: Ls, x => (∀ r < L.w.rows, affine L x r ≠ 0) ∧ NoKink (L' :: Ls) fun r => max 0 (affine L x r)

/-- Softmax of the first `k` entries. -/
noncomputable def softmaxRow (k : Nat) (z : ℕ → ℝ) (j : ℕ) : ℝ := Real.exp (z j) / ∑ l ∈ range k, Real.exp (z l)

/-- Cross-entropy of the softmax of the logits with a label row. -/
noncomputable def softmaxLoss (k : Nat) (y z : ℕ → ℝ) : ℝ := -∑ j ∈ range k, y j * Real.log (softmaxRow k z j)

/-- Binary cross-entropy of the logistic function of the first logit. -/
noncomputable def sigmoidLoss (y z : ℕ → ℝ) : ℝ :=
  -(y 0 * Real.log (1 / (1 + Real.exp (-z 0))) + (1 - y 0) * Real.log (1 - 1 / (1 + Real.exp (-z 0))))

/-- The mean over the `n` samples of a loss of the logits of the network. -/
noncomputable def meanLoss (loss : (ℕ → ℝ) → (ℕ → ℝ) → ℝ) (n : Nat) (P : List Layer) (x y : ℕ → ℕ → ℝ) : ℝ :=
  (∑ i ∈ range n, loss (y i) (logits P (x i))) / (n : ℝ)

/-- The parameters moved by `t` in direction `D`. -/
def moved (t : ℝ) : List Layer → List Layer → List Layer
  | L :: Ls, D :: Ds => ⟨⟨L.w.rows, L.w.cols, fun i j => L.w.e i j + t * D.w.e i j⟩,
      ⟨L.b.rows, L.b.cols, fun i j => L.b.e i j + t * D.b.e i j⟩⟩ :: moved t Ls Ds
  | Ls, _ => Ls

/-- The inner product of a gradient with a direction, over all weights and biases of the network. -/
noncomputable def inner : List Layer → List Grad → List Layer → ℝ
  | L :: Ls, g :: gs, D :: Ds => (∑ r ∈ range L.w.rows, ((∑ c ∈ range L.w.cols, g.dw.e r c * D.w.e r c) + g.db.e 0 r * D.b.e 0 r)) +
      inner Ls gs Ds
  | _, _, _ => 0

/-- A gradient as a direction in the space of the parameters. -/
def asLayers (gs : List Grad) : List Layer := gs.map fun g => ⟨g.dw, g.db⟩

/-- `gs` is the gradient at `P` of `f` with respect to all weights and biases: the derivative of `f` along every direction is
the inner product of the direction with `gs`. -/
def IsGradientAt (f : List Layer → ℝ) (P : List Layer) (gs : List Grad) : Prop :=
  ∀ D : List Layer, D.length = P.length → HasDerivAt (fun t => f (moved t P D)) (inner P gs D) 0

/-- The rule of numpy for the sum of a matrix and a row: the widths are equal or one of them is 1 (and is repeated); otherwise `ValueError`. -/
def BroadcastSum (z b : Mat) (r : Except PyErr Mat) : Prop :=
  (¬ (z.cols = b.cols ∨ z.cols = 1 ∨ b.cols = 1) ∧ r = .error .valueError) ∨
  ((z.cols = b.cols ∨ z.cols = 1 ∨ b.cols = 1) ∧ ∃ y, r = .ok y ∧ y.rows = z.rows ∧ y.cols = (if z.cols = 1 then b.cols else z.cols) ∧
    ∀ i, ∀ j < y.cols, y.e i j = z.e i (if z.cols = 1 then 0 else j) + b.e 0 (if b.cols = 1 then 0 else j))

end CML.Net
