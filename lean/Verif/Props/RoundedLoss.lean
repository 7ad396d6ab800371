import Verif.Props.RoundedExp
import Verif.Props.Engines

set_option linter.unusedSectionVars false

/-! # Property C295: the reported binary loss of a confident network, with the outputs of single precision -/

namespace CML.Float
open Real CML.Eng

/-- C277: a matrix without entries is refused. -/
theorem C277_empty {K : Type*} [Field K] [LinearOrder K] [IsStrictOrderedRing K] {m n : Nat} (fl ex : K → K) (o : Order n) (z : Fin m → Fin n → K)
    (h : m = 0 ∨ n = 0) : softmax fl ex o z = .error .valueError := by
  have : (List.ofFn fun i => List.ofFn (z i)).flatten = [] := by
    rcases h with h | h <;> subst h <;> simp
  unfold softmax
  rw [this]
  rfl

example : softmax f32 (fun x : ℚ => if x < 0 then 0 else 1) (Order.entry 0) (fun i : Fin 0 => i.elim0 : Fin 0 → Fin 2 → ℚ) = .error .valueError :=
  C277_empty _ _ _ _ (.inl rfl)

/-- C279: a list with another number of coefficients than components is refused. -/
theorem C279_count {K : Type*} [Field K] [LinearOrder K] [IsStrictOrderedRing K] (fl wide : K → K) (n : Nat) (init : List K) (h : init.length ≠ n) :
    initCoefficients fl wide n init = .error .valueError := by
  unfold initCoefficients
  exact if_pos h

example : initCoefficients f32 f64 3 [1 / 2, (1 / 2 : ℚ)] = .error .valueError := C279_count _ _ _ _ (by decide)

/-- C281, C295: between -16 and 16 the sigmoid of single precision lies strictly between 0 and 1. -/
theorem C281_inside_partial (z : ℝ) (h1 : -16 ≤ z) (h2 : z ≤ 16) : ∃ w, sigmoid f32 exp32 z = some w ∧ 0 < w ∧ w < 1 := by
  have lo : (1 / 2 ^ 24 + 1 / 2 ^ 25 : ℝ) ≤ exp32 (-z) := by
    have h3 : (1 / 2 ^ 24 + 1 / 2 ^ 25 : ℝ) ≤ exp (-z) := by
      have e1 : exp (-16 : ℝ) = (exp 1)⁻¹ ^ 16 := by rw [← exp_neg, ← exp_nat_mul]; norm_num
      have e2 : exp (1 : ℝ) < 2.7182818286 := Real.exp_one_lt_d9
      have e3 : (1 / 2.7182818286 : ℝ) ≤ (exp 1)⁻¹ := by
        rw [← one_div]; exact one_div_le_one_div_of_le (exp_pos 1) e2.le
      have e4 : (1 / 2.7182818286 : ℝ) ^ 16 ≤ (exp 1)⁻¹ ^ 16 := pow_le_pow_left₀ (by norm_num) e3 16
      have e5 : exp (-16 : ℝ) ≤ exp (-z) := exp_le_exp.2 (by linarith)
      have e6 : (1 / 2 ^ 24 + 1 / 2 ^ 25 : ℝ) ≤ (1 / 2.7182818286 : ℝ) ^ 16 := by norm_num
      rw [e1] at e5
      linarith
    have h4 := f32_isRounding.mono _ _ h3
    have h5 : f32 (1 / 2 ^ 24 + 1 / 2 ^ 25 : ℝ) = 1 / 2 ^ 24 + 1 / 2 ^ 25 := by
      have h := f32_real (1 / 2 ^ 24 + 1 / 2 ^ 25) (1 / 2 ^ 24 + 1 / 2 ^ 25) (by decide +kernel); push_cast at h; exact h
    rw [h5] at h4
    exact h4
  have hi : exp32 (-z) ≤ 2 ^ 24 := by
    have h3 : exp (-z) ≤ 2 ^ 24 := by
      have e1 : exp (16 : ℝ) = exp 1 ^ 16 := by rw [← exp_nat_mul]; norm_num
      have e2 : exp (1 : ℝ) < 2.7182818286 := Real.exp_one_lt_d9
      have e4 : exp (1 : ℝ) ^ 16 ≤ 2.7182818286 ^ 16 := pow_le_pow_left₀ (exp_pos 1).le e2.le 16
      have e5 : exp (-z) ≤ exp 16 := exp_le_exp.2 (by linarith)
      have e6 : (2.7182818286 : ℝ) ^ 16 ≤ 2 ^ 24 := by norm_num
      rw [e1] at e5
      linarith
    have h4 := f32_isRounding.mono _ _ h3
    have h5 : f32 (2 ^ 24 : ℝ) = 2 ^ 24 := by have h := f32_real (2 ^ 24) (2 ^ 24) (by decide +kernel); push_cast at h; exact h
    rw [h5] at h4
    exact h4
  have dlo : (1 + 1 / 2 ^ 23 : ℝ) ≤ f32 (1 + exp32 (-z)) := by
    have h4 := f32_isRounding.mono (1 + (1 / 2 ^ 24 + 1 / 2 ^ 25)) (1 + exp32 (-z)) (by linarith)
    have h5 : f32 (1 + (1 / 2 ^ 24 + 1 / 2 ^ 25) : ℝ) = 1 + 1 / 2 ^ 23 := by
      have h := f32_real (1 + (1 / 2 ^ 24 + 1 / 2 ^ 25)) (1 + 1 / 2 ^ 23) (by decide +kernel); push_cast at h; exact h
    rw [h5] at h4
    exact h4
  have dhi : f32 (1 + exp32 (-z)) ≤ 2 ^ 25 := by
    have h4 := f32_isRounding.mono (1 + exp32 (-z)) (2 ^ 25) (by linarith)
    have h5 : f32 (2 ^ 25 : ℝ) = 2 ^ 25 := by have h := f32_real (2 ^ 25) (2 ^ 25) (by decide +kernel); push_cast at h; exact h
    rw [h5] at h4
    exact h4
  have dpos : 0 < f32 (1 + exp32 (-z)) := lt_of_lt_of_le (by norm_num) dlo
  refine ⟨f32 (1 / f32 (1 + exp32 (-z))), if_neg dpos.ne', ?_, ?_⟩
  · have h4 := f32_isRounding.mono (1 / 2 ^ 25) (1 / f32 (1 + exp32 (-z))) (one_div_le_one_div_of_le dpos dhi)
    have h5 : f32 (1 / 2 ^ 25 : ℝ) = 1 / 2 ^ 25 := by have h := f32_real (1 / 2 ^ 25) (1 / 2 ^ 25) (by decide +kernel); push_cast at h; exact h
    rw [h5] at h4
    exact lt_of_lt_of_le (by norm_num) h4
  · have h3 : 1 / f32 (1 + exp32 (-z)) ≤ 1 - 1 / 2 ^ 24 := by
      rw [div_le_iff₀ dpos]
      have : (1 : ℝ) ≤ (1 - 1 / 2 ^ 24) * (1 + 1 / 2 ^ 23) := by norm_num
      refine this.trans (mul_le_mul_of_nonneg_left dlo (by norm_num))
    have h4 := f32_isRounding.mono _ _ h3
    have h5 : f32 (1 - 1 / 2 ^ 24 : ℝ) = 1 - 1 / 2 ^ 24 := by have h := f32_real (1 - 1 / 2 ^ 24) (1 - 1 / 2 ^ 24) (by decide +kernel); push_cast at h; exact h
    rw [h5] at h4
    exact lt_of_le_of_lt h4 (by norm_num)

/-- C295 fails: a binary network that is right about a positive sample, with a logit of 18 or more before the sigmoid of single precision, has the loss
NaN, in both engines, whatever the other samples are. -/
theorem C295_confident_nan (n : Nat) (z y : ℕ → ℝ) (p : ℕ → ℕ → ℝ) (hp : ∀ i < n, sigmoid f32 exp32 (z i) = some (p i 0)) (Y : Arr ℝ) (hY : IsLabels n y Y)
    (i : Nat) (hi : i < n) (hy : y i = 1) (hz : 18 ≤ z i) : bcePy (.mat n 1 p) Y = .ok (.scalar .nan) ∧ bceCC (.mat n 1 p) Y = some .nan := by
  have h := hp i hi
  rw [C281_saturates _ hz] at h
  exact C143_binary_nan n p y Y hY i hi ⟨.inr hy, by rw [hy]; exact (Option.some.inj h).symm⟩

/-- C295 fails: if it is wrong about a negative sample with such a logit, the loss of that sample is infinite (its exact value is about the logit). -/
theorem C295_confident_infinite (z : ℝ) (hz : 18 ≤ z) (p : ℕ → ℕ → ℝ) (hp : sigmoid f32 exp32 z = some (p 0 0)) (y : ℕ → ℝ) (hy : y 0 = 0) :
    bcePy (.mat 1 1 p) (.vec 1 y) = .ok (.scalar .pinf) := by
  rw [C281_saturates _ hz] at hp
  exact C143_wrong_infinite p y (.inl ⟨hy, (Option.some.inj hp).symm⟩)

/-- C295, the part that holds: with labels 0 and 1 and every logit between -16 and 16 the loss of both engines is a finite non-negative number. -/
theorem C295_moderate_partial (n : Nat) (hn : 0 < n) (z y : ℕ → ℝ) (p : ℕ → ℕ → ℝ) (hp : ∀ i < n, sigmoid f32 exp32 (z i) = some (p i 0)) (Y : Arr ℝ)
    (hY : IsLabels n y Y) (h01 : ∀ i < n, y i = 0 ∨ y i = 1) (hz : ∀ i < n, |z i| ≤ 16) :
    ∃ x, 0 < x ∧ bcePy (.mat n 1 p) Y = .ok (.scalar (.fin x)) ∧ bceCC (.mat n 1 p) Y = some (.fin x) := by
  have hin : ∀ i < n, 0 < p i 0 ∧ p i 0 < 1 := fun i hi => by
    obtain ⟨w, hw, h0, h1⟩ := C281_inside_partial (z i) (abs_le.1 (hz i hi)).1 (abs_le.1 (hz i hi)).2
    rw [hp i hi] at hw
    cases hw
    exact ⟨h0, h1⟩
  have hb := (C143_binary_finite_partial n hn p y Y hY h01).2 hin
  refine ⟨_, ?_, hb, ?_⟩
  · rw [neg_div]
    refine neg_pos.2 (div_neg_of_neg_of_pos (Finset.sum_neg (fun i hi => ?_) ⟨0, Finset.mem_range.2 hn⟩) (by exact_mod_cast hn))
    have h := hin i (Finset.mem_range.1 hi)
    split_ifs
    · exact Real.log_neg h.1 h.2
    · exact Real.log_neg (by linarith) (by linarith)
  · have hv := bce_value n p y Y hY
    rw [hb] at hv
    have h1 := hv.1
    rw [hv.2]
    injection h1 with h1
    injection h1 with h1
    rw [h1]

/-- A training set of one confident and one doubtful sample. -/
example : ∃ p : ℕ → ℕ → ℝ, (∀ i < 2, sigmoid f32 exp32 ((fun i => if i = 0 then 20 else -1 : ℕ → ℝ) i) = some (p i 0)) ∧
    bcePy (.mat 2 1 p) (.vec 2 fun i => if i = 0 then 1 else 0) = .ok (.scalar .nan) := by
  obtain ⟨w, hw, -⟩ := C281_inside_partial (-1) (by norm_num) (by norm_num)
  have hp : ∀ i < 2, sigmoid f32 exp32 ((fun i => if i = 0 then 20 else -1 : ℕ → ℝ) i) = some ((fun i _ => if i = 0 then 1 else w : ℕ → ℕ → ℝ) i 0) := by
    intro i hi
    match i, hi with
    | 0, _ => exact C281_saturates 20 (by norm_num)
    | 1, _ => exact hw
  exact ⟨_, hp, (C295_confident_nan 2 (fun i => if i = 0 then 20 else -1) _ (fun i _ => if i = 0 then 1 else w) hp _ .vec 0 (by norm_num) (by simp) (by norm_num)).1⟩

example : ∃ p : ℕ → ℕ → ℝ, ∃ x, 0 < x ∧ bcePy (.mat 2 1 p) (.vec 2 fun i => if i = 0 then 1 else 0) = .ok (.scalar (.fin x)) := by
  obtain ⟨w, hw, -⟩ := C281_inside_partial (-1) (by norm_num) (by norm_num)
  obtain ⟨x, h0, h, -⟩ := C295_moderate_partial 2 (by norm_num) (fun _ => -1) (fun i => if i = 0 then 1 else 0) (fun _ _ => w) (fun _ _ => hw) (.vec 2 _) .vec
    (fun i _ => by by_cases h : i = 0 <;> simp [h]) (fun _ _ => by norm_num)
  exact ⟨_, x, h0, h⟩

end CML.Float
