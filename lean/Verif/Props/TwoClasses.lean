import Verif.Props.Losses

set_option linter.unusedSectionVars false

/-! # Property C333 (two classes: softmax and sigmoid, the three logarithmic losses)

activations.py:80-134, losses.py:36-129.
-/

namespace CML
open Finset

variable {n : Nat}

/-- **C333** (activations). With two classes, softmax gives class 1 the sigmoid of the difference of the two inputs, and class 0 the rest. -/
theorem C333_softmax (z : Fin (n + 1) → Fin 2 → ℝ) (i : Fin (n + 1)) :
    softmax z i 1 = sigmoid (z i 1 - z i 0) ∧ softmax z i 0 = 1 - sigmoid (z i 1 - z i 0) ∧ softmax z i 0 = sigmoid (z i 0 - z i 1) := by
  have h0 := C50_value z i 0
  have h1 := C50_value z i 1
  rw [Fin.sum_univ_two] at h0 h1
  have e0 := Real.exp_pos (z i 0)
  have e1 := Real.exp_pos (z i 1)
  have s1 : sigmoid (z i 1 - z i 0) = Real.exp (z i 1) / (Real.exp (z i 0) + Real.exp (z i 1)) := by
    unfold sigmoid
    rw [show -(z i 1 - z i 0) = z i 0 - z i 1 by ring, Real.exp_sub]
    field_simp
    ring
  have s0 : sigmoid (z i 0 - z i 1) = Real.exp (z i 0) / (Real.exp (z i 0) + Real.exp (z i 1)) := by
    unfold sigmoid
    rw [show -(z i 0 - z i 1) = z i 1 - z i 0 by ring, Real.exp_sub]
    field_simp
  refine ⟨h1.trans s1.symm, ?_, h0.trans s0.symm⟩
  rw [h0, s1]
  field_simp
  ring

/-- The logarithms of the sigmoid. -/
lemma log_sigmoid (t : ℝ) : Real.log (sigmoid t) = t - Real.log (1 + Real.exp t) ∧ Real.log (1 - sigmoid t) = -Real.log (1 + Real.exp t) := by
  have e := Real.exp_pos t
  have h1 : sigmoid t = Real.exp t / (1 + Real.exp t) := by
    unfold sigmoid
    rw [Real.exp_neg]
    field_simp
    ring
  have h2 : 1 - sigmoid t = (1 + Real.exp t)⁻¹ := by
    rw [h1]; field_simp; ring
  constructor
  · rw [h1, Real.log_div e.ne' (by positivity), Real.log_exp]
  · rw [h2, Real.log_inv]

/-- **C333** (losses). The binary cross-entropy of the sigmoids of `s` is the negative log-likelihood that logistic regression reports, divided by the number of samples; with labels written as the
rows `(1 - y, y)`, the categorical cross-entropy of a two-class softmax is the binary cross-entropy of the sigmoids of the differences. -/
theorem C333_losses (z : Fin (n + 1) → Fin 2 → ℝ) (y s : Fin (n + 1) → ℝ) :
    binaryCrossentropy (fun i => sigmoid (s i)) y = logLikelihoodOf y s / ((n + 1 : Nat) : ℝ) ∧
    categoricalCrossentropy (softmax z) (fun i => ![1 - y i, y i]) = binaryCrossentropy (fun i => sigmoid (z i 1 - z i 0)) y ∧
    crossentropy (softmax z) (fun i => ![1 - y i, y i]) = logLikelihoodOf y (fun i => z i 1 - z i 0) / ((n + 1 : Nat) : ℝ) := by
  have h1 : ∀ s : Fin (n + 1) → ℝ, binaryCrossentropy (fun i => sigmoid (s i)) y = logLikelihoodOf y s / ((n + 1 : Nat) : ℝ) := by
    intro s
    unfold binaryCrossentropy logLikelihoodOf
    congr 1
    rw [← sum_add_distrib, ← sum_neg_distrib]
    refine sum_congr rfl fun i _ => ?_
    simp only [(log_sigmoid (s i)).1, (log_sigmoid (s i)).2]
    ring
  have h2 : categoricalCrossentropy (softmax z) (fun i => ![1 - y i, y i]) = binaryCrossentropy (fun i => sigmoid (z i 1 - z i 0)) y := by
    unfold binaryCrossentropy categoricalCrossentropy
    congr 2
    rw [← sum_add_distrib]
    refine sum_congr rfl fun i _ => ?_
    rw [Fin.sum_univ_two, (C333_softmax z i).1, (C333_softmax z i).2.1]
    simp
    ring
  refine ⟨h1 s, h2, ?_⟩
  unfold crossentropy
  rw [dif_neg (by norm_num), h2, h1]

/-- **C333** (decisions). The two descriptions decide alike: softmax puts class 1 strictly first exactly if the sigmoid of the difference exceeds 1/2. -/
theorem C333_decision (z : Fin (n + 1) → Fin 2 → ℝ) (i : Fin (n + 1)) : softmax z i 0 < softmax z i 1 ↔ 1 / 2 < sigmoid (z i 1 - z i 0) := by
  rw [(C333_softmax z i).1, (C333_softmax z i).2.1]
  constructor <;> intro h <;> linarith

example : softmax (n := 0) (fun _ => ![0, 0]) 0 1 = 1 / 2 := by
  rw [(C333_softmax _ 0).1]; norm_num [sigmoid]

end CML
