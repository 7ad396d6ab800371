import Verif.Model.SVC
import Verif.Props.SMO
import Mathlib.Algebra.Order.Ring.Rat
import Mathlib.Algebra.Field.Rat

/-! # The support vector classifier as an object (C124 to C126) -/

set_option linter.unusedSectionVars false

namespace CML.SVC
open SMO Finset

variable {K N : Type*} [Field K] [LinearOrder K] [IsStrictOrderedRing K] {n : Nat}

/-- The decision function of multipliers for all the training samples, at row `r`. -/
def fullDecision (k : List K → List K → K) (x : Fin n → List K) (y alphas : Fin n → K) (b : K) (r : List K) : K :=
  ∑ i, alphas i * y i * k r (x i) + b

theorem zip_support (l : List (Fin n)) (α y : Fin n → K) (x : Fin n → List K) (k : List K → List K → K) (r : List K) :
    List.zipWith (fun ay v => ay * k r v) (List.zipWith (· * ·) (l.map α) (l.map y)) (l.map x) =
      l.map fun i => α i * y i * k r (x i) := by
  induction l with
  | nil => rfl
  | cons a l ih => simp [ih]

/-- C124: a trained classifier labels a row -1 exactly if the decision function of *all* the training samples is negative there,
and +1 otherwise; the multipliers are feasible for the dual problem. -/
theorem C124_decision (make : N → K → List K → List K → K) (perms : Nat → List (Fin n)) (o o' : Obj K N) (x : Fin n → List K)
    (y : Fin n → K) (hy : ∀ i, y i = 1 ∨ y i = -1) (hC : 0 ≤ o.C) (d : Nat) (epochs : Int)
    (h : Fit make perms o x y d epochs o') :
    ∃ (g : K) (alphas : Fin n → K) (b : K), o.gamma.value (List.ofFn x) d = some g ∧
      (∀ i, 0 ≤ alphas i ∧ alphas i ≤ o.C) ∧ ∑ i, alphas i * y i = 0 ∧
      ∀ rows, o'.predict rows = .ok (rows.map fun r =>
        if fullDecision (getKernel make g o.kernel) x y alphas b r < 0 then -1 else 1) := by
  obtain ⟨g, s, hg, hs, rfl⟩ := h
  have hv : (problem (getKernel make g o.kernel) o.C o.tol x y).Valid := ⟨hy, hC⟩
  have hf := C06_feasible_result _ hv perms epochs s hs
  refine ⟨g, s.alphas, s.b, hg, hf.1, hf.2, fun rows => ?_⟩
  unfold Obj.predict
  rw [if_neg (by simp)]
  simp only
  congr 1
  refine List.map_congr_left fun r _ => ?_
  have hd := C07_support_decision _ hv perms epochs s hs (fun i => getKernel make g o.kernel r (x i))
  have e : ∀ o'' : Obj K N, o''.supportAlpha = (extract (problem (getKernel make g o.kernel) o.C o.tol x y) s).support.map s.alphas →
      o''.supportY = (extract (problem (getKernel make g o.kernel) o.C o.tol x y) s).support.map y →
      o''.supportVector = (extract (problem (getKernel make g o.kernel) o.C o.tol x y) s).support.map x → o''.b = s.b →
      decisionValue (getKernel make g o.kernel) o'' r = fullDecision (getKernel make g o.kernel) x y s.alphas s.b r := by
    intro o'' h1 h2 h3 h4
    unfold decisionValue fullDecision
    rw [h1, h2, h3, h4, zip_support]
    congr 1
  rw [e _ rfl rfl rfl rfl]

/-- C124: an untrained classifier refuses to predict. -/
theorem C124_untrained (o : Obj K N) (h1 : o.trained = false) (h2 : o.loaded = false) (rows : List (List K)) :
    o.predict rows = .error .valueError := by
  unfold Obj.predict; rw [if_pos ⟨h1, h2⟩]

/-- C124: compiling a trained classifier again with a kernel name makes it useless until the next `fit`: every prediction of at least
one row raises `TypeError`. -/
theorem C124_recompiled (o : Obj K N) (ht : o.trained = true) (C tol : K) (s : N) (gamma : Gamma K) (r : List K) (rows : List (List K)) :
    (o.compile C (.name s) gamma tol).predict (r :: rows) = .error .typeError := by
  simp [Obj.predict, Obj.compile, ht]

/-- C124: `compile` sets the four hyperparameters to its arguments and leaves what was learned; a training after it does not depend on what the object
was compiled with, trained on or loaded with before (only the mark of a loaded model remains); its multipliers lie between 0 and the `C` of the call. -/
theorem C124_compile (make : N → K → List K → List K → K) (perms : Nat → List (Fin n)) (o : Obj K N) (x : Fin n → List K) (y : Fin n → K) (d : Nat)
    (epochs : Int) (C tol : K) (kernel : KernelAttr K N) (gamma : Gamma K) :
    ((o.compile C kernel gamma tol).C = C ∧ (o.compile C kernel gamma tol).tol = tol ∧ (o.compile C kernel gamma tol).kernel = kernel ∧
      (o.compile C kernel gamma tol).gamma = gamma ∧ (o.compile C kernel gamma tol).supportVector = o.supportVector ∧
      (o.compile C kernel gamma tol).supportAlpha = o.supportAlpha ∧ (o.compile C kernel gamma tol).supportY = o.supportY ∧
      (o.compile C kernel gamma tol).b = o.b ∧ (o.compile C kernel gamma tol).trained = o.trained ∧ (o.compile C kernel gamma tol).loaded = o.loaded) ∧
    (∀ o2 r : Obj K N, Fit make perms (o.compile C kernel gamma tol) x y d epochs r →
      Fit make perms (o2.compile C kernel gamma tol) x y d epochs { r with loaded := o2.loaded }) ∧
    (∀ r : Obj K N, 0 ≤ C → (∀ i, y i = 1 ∨ y i = -1) → Fit make perms (o.compile C kernel gamma tol) x y d epochs r → ∀ a ∈ r.supportAlpha, 0 < a ∧ a ≤ C) := by
  refine ⟨⟨rfl, rfl, rfl, rfl, rfl, rfl, rfl, rfl, rfl, rfl⟩, fun o2 r h => ?_, fun r hC hy h => ?_⟩
  · obtain ⟨g, s, hg, hs, rfl⟩ := h
    exact ⟨g, s, hg, hs, rfl⟩
  · obtain ⟨g, s, hg, hs, rfl⟩ := h
    exact (SMO.C07_support_exact _ ⟨hy, hC⟩ perms epochs s hs).2.2.2.2.1

/-! ## C125: gamma -/

/-- `v` is the variance of the entries `l`: the mean of the squared distances from the mean. -/
def IsVariance (l : List K) (v : K) : Prop :=
  ∃ m : K, (l.length : K) * m = l.sum ∧ (l.length : K) * v = (l.map fun e => (e - m) * (e - m)).sum

/-- The variance computed is the variance, for any data with at least one entry. -/
theorem var_spec (x : List (List K)) (h : x.flatten ≠ []) : IsVariance x.flatten (var x) := by
  have hl : (x.flatten.length : K) ≠ 0 := by
    have : x.flatten.length ≠ 0 := fun h' => h (List.length_eq_zero_iff.1 h')
    exact_mod_cast this
  refine ⟨x.flatten.sum / x.flatten.length, by field_simp, ?_⟩
  simp only [var, pow_two]
  field_simp

/-- C125: the first training uses the documented value of `gamma`: `1 / features` for `'auto'`, `1 / (features * variance)` for
`'scale'`, the number itself otherwise; and the kernel built from it. -/
theorem C125_first_fit_partial (make : N → K → List K → List K → K) (perms : Nat → List (Fin n)) (o o' : Obj K N) (x : Fin n → List K)
    (y : Fin n → K) (d : Nat) (epochs : Int) (s : N) (hk : o.kernel = .name s) (h : Fit make perms o x y d epochs o') :
    (o.gamma = .auto → o'.kernel = .inst (make s (1 / (d : K)))) ∧
    (o.gamma = .scale → (List.ofFn x).flatten ≠ [] → ∃ v, IsVariance (List.ofFn x).flatten v ∧ (d : K) * v ≠ 0 ∧
      o'.kernel = .inst (make s (1 / ((d : K) * v)))) ∧
    (∀ g, o.gamma = .num g → o'.kernel = .inst (make s g)) := by
  obtain ⟨g, st, hg, _, rfl⟩ := h
  simp only [hk]
  refine ⟨fun h => ?_, fun h hne => ⟨var (List.ofFn x), var_spec _ hne, ?_⟩, fun g' h => ?_⟩
  · rw [h] at hg
    simp only [Gamma.value] at hg
    split at hg
    · simp at hg
    · injection hg with hg; rw [← hg]; rfl
  · rw [h] at hg
    simp only [Gamma.value] at hg
    split at hg
    · simp at hg
    · rename_i h0
      injection hg with hg; rw [← hg]; exact ⟨h0, rfl⟩
  · rw [h] at hg
    simp only [Gamma.value] at hg
    injection hg with hg; rw [← hg]; rfl

theorem sum_sq_eq_zero (m : K) : ∀ l : List K, (l.map fun e => (e - m) ^ 2).sum = 0 → ∀ e ∈ l, e = m
  | [], _, e, he => by simp at he
  | a :: l, h, e, he => by
    have h0 : ∀ l : List K, 0 ≤ (l.map fun e => (e - m) ^ 2).sum := fun l => by
      apply List.sum_nonneg
      intro v hv
      obtain ⟨w, _, rfl⟩ := List.mem_map.1 hv
      exact sq_nonneg _
    rw [List.map_cons, List.sum_cons] at h
    have h1 : (a - m) ^ 2 = 0 := le_antisymm (by have := h0 l; linarith) (sq_nonneg _)
    have h2 : (l.map fun e => (e - m) ^ 2).sum = 0 := by rw [h1, zero_add] at h; exact h
    rcases List.mem_cons.1 he with rfl | he
    · exact sub_eq_zero.1 (pow_eq_zero_iff (two_ne_zero) |>.1 h1)
    · exact sum_sq_eq_zero m l h2 e he

/-- C125: for which data `gamma` has a value: `'auto'` needs a feature; `'scale'` needs a feature and two different entries, and is then
positive. Otherwise the division by zero makes the training fail. -/
theorem C125_gamma_defined (x : List (List K)) (d : Nat) (hne : x.flatten ≠ []) :
    ((∃ g, (Gamma.auto : Gamma K).value x d = some g) ↔ 0 < d) ∧
    ((∃ g, (Gamma.scale : Gamma K).value x d = some g) ↔ 0 < d ∧ ∃ a ∈ x.flatten, ∃ b ∈ x.flatten, a ≠ b) ∧
    (∀ g, (Gamma.scale : Gamma K).value x d = some g → 0 < g) := by
  have hl : (0 : K) < (x.flatten.length : K) := by
    have : 0 < x.flatten.length := List.length_pos_iff.2 hne
    exact_mod_cast this
  have hv0 : 0 ≤ var x := by
    simp only [var]
    refine div_nonneg (List.sum_nonneg ?_) hl.le
    intro v hv
    obtain ⟨w, _, rfl⟩ := List.mem_map.1 hv
    exact sq_nonneg _
  have hv : var x = 0 ↔ ∀ a ∈ x.flatten, ∀ b ∈ x.flatten, a = b := by
    constructor
    · intro h a ha b hb
      simp only [var] at h
      rw [div_eq_zero_iff] at h
      have h := sum_sq_eq_zero _ _ (h.resolve_right hl.ne')
      rw [h a ha, h b hb]
    · intro h
      obtain ⟨c, hc⟩ : ∃ c, c ∈ x.flatten := List.exists_mem_of_ne_nil _ hne
      have he : x.flatten = List.replicate x.flatten.length c := List.eq_replicate_iff.2 ⟨rfl, fun b hb => h b hb c hc⟩
      simp only [var]
      rw [div_eq_zero_iff]
      left
      apply List.sum_eq_zero
      intro v hv
      obtain ⟨w, hw, rfl⟩ := List.mem_map.1 hv
      have hs : x.flatten.sum = x.flatten.length * c := by
        rw [he]; simp
      rw [h w hw c hc, hs, mul_div_cancel_left₀ _ hl.ne', sub_self, zero_pow two_ne_zero]
  refine ⟨?_, ?_, ?_⟩
  · simp only [Gamma.value]
    by_cases h : d = 0
    · simp [h]
    · simp [h, Nat.pos_of_ne_zero h]
  · have e : (d : K) * var x = 0 ↔ ¬(0 < d ∧ ∃ a ∈ x.flatten, ∃ b ∈ x.flatten, a ≠ b) := by
      rw [mul_eq_zero, hv, Nat.cast_eq_zero]
      push Not
      constructor
      · rintro (h | h) h'
        · omega
        · exact h
      · intro h
        by_cases h0 : d = 0
        · exact .inl h0
        · exact .inr (h (Nat.pos_of_ne_zero h0))
    simp only [Gamma.value]
    by_cases h : (d : K) * var x = 0
    · rw [if_pos h]
      exact ⟨fun ⟨g, hg⟩ => by simp at hg, fun h' => absurd h' (e.1 h)⟩
    · rw [if_neg h]
      exact ⟨fun _ => not_not.1 (mt e.2 h), fun _ => ⟨_, rfl⟩⟩
  · intro g hg
    simp only [Gamma.value] at hg
    split at hg
    · simp at hg
    · rename_i h
      injection hg with hg
      rw [← hg]
      have : 0 ≤ (d : K) * var x := mul_nonneg (Nat.cast_nonneg d) hv0
      exact one_div_pos.2 (lt_of_le_of_ne this (Ne.symm h))

example : (Gamma.scale : Gamma ℚ).value [[1, 3]] 2 = some (1 / 2) ∧ (Gamma.scale : Gamma ℚ).value [[1, 1]] 2 = none := by decide +kernel

/-- C125 fails on the second training: whatever the new data (with any number of features and any variance), the kernel of the first
training is used again, `gamma` is not recomputed. -/
theorem C125_refit_stale {n' : Nat} (make : N → K → List K → List K → K) (perms : Nat → List (Fin n)) (perms' : Nat → List (Fin n'))
    (o o' o'' : Obj K N) (x : Fin n → List K) (y : Fin n → K) (x' : Fin n' → List K) (y' : Fin n' → K) (d d' : Nat) (epochs epochs' : Int)
    (h : Fit make perms o x y d epochs o') (h' : Fit make perms' o' x' y' d' epochs' o'') :
    o''.kernel = o'.kernel ∧ o''.gamma = o'.gamma := by
  obtain ⟨g, s, hg, _, rfl⟩ := h
  obtain ⟨g', s', hg', _, rfl⟩ := h'
  simp only [Gamma.value] at hg'
  injection hg' with hg'
  exact ⟨rfl, by simp [hg']⟩

/-- C125: `gamma` is ignored for a `Kernel` instance. -/
theorem C125_instance (make : N → K → List K → List K → K) (perms : Nat → List (Fin n)) (o o' : Obj K N) (x : Fin n → List K)
    (y : Fin n → K) (d : Nat) (epochs : Int) (k : List K → List K → K) (hk : o.kernel = .inst k) (h : Fit make perms o x y d epochs o') :
    o'.kernel = .inst k := by
  obtain ⟨g, s, _, _, rfl⟩ := h
  simp [hk, getKernel]

/-! ## C126: one class -/

/-- With a single class nothing can be updated. -/
theorem one_class_none (p : Problem K n) (hp : p.Valid) (c : K) (hc : ∀ i, p.y i = c) (s : State K n) (hs : s = State.init K n) (i j : Fin n)
    (ei ej : K) : updateAlpha p s i j ei ej = none := by
  subst hs
  unfold updateAlpha
  split
  · rfl
  · rw [if_pos]
    unfold bounds
    rw [if_neg (by simp [hc])]
    have := hp.C_nonneg
    simp [State.init, this]

/-- C126: trained on samples of one class, the classifier has no support vectors and bias 0, so that it answers +1 to every row:
right for the class +1 … -/
theorem one_class (make : N → K → List K → List K → K) (perms : Nat → List (Fin n)) (o o' : Obj K N) (x : Fin n → List K)
    (y : Fin n → K) (c : K) (hc : c = 1 ∨ c = -1) (hy : ∀ i, y i = c) (hC : 0 ≤ o.C) (d : Nat) (epochs : Int)
    (h : Fit make perms o x y d epochs o') (rows : List (List K)) : o'.predict rows = .ok (rows.map fun _ => 1) := by
  obtain ⟨g, s, hg, hs, rfl⟩ := h
  have hv : (problem (getKernel make g o.kernel) o.C o.tol x y).Valid := ⟨fun i => by simp only [problem]; rw [hy]; exact hc, hC⟩
  have key : ∀ s, Reachable (problem (getKernel make g o.kernel) o.C o.tol x y) s → s = State.init K n := by
    intro s hr
    induction hr with
    | init => rfl
    | step i perm _ h1 ih =>
      rcases (updateParameters_some h1).2 with ⟨j, ej, _, h2⟩ | ⟨j, _, h2⟩ <;>
        · rw [one_class_none _ hv c (fun i => hy i) _ ih] at h2; simp at h2
  have hs0 := key s (reachable_returns hs)
  unfold Obj.predict
  rw [if_neg (by simp)]
  simp only
  congr 1
  refine List.map_congr_left fun r _ => ?_
  rw [if_neg]
  rw [not_lt]
  unfold decisionValue
  rw [hs0]
  simp [extract, State.init]

/-- C126, the part that holds: trained on samples of class +1 only, the classifier answers +1 everywhere.  Missing: class -1, see
`C126_negative_class_lost`. -/
theorem C126_positive_class_partial (make : N → K → List K → List K → K) (perms : Nat → List (Fin n)) (o o' : Obj K N) (x : Fin n → List K)
    (y : Fin n → K) (hy : ∀ i, y i = 1) (hC : 0 ≤ o.C) (d : Nat) (epochs : Int)
    (h : Fit make perms o x y d epochs o') (rows : List (List K)) : o'.predict rows = .ok (rows.map fun _ => 1) :=
  one_class make perms o o' x y 1 (.inl rfl) hy hC d epochs h rows

/-- C126 fails for the class -1: trained on samples of class -1 only, whatever the data, kernel and parameters, the classifier answers
+1 to every row, so that it misclassifies every training sample. -/
theorem C126_negative_class_lost (make : N → K → List K → List K → K) (perms : Nat → List (Fin n)) (o o' : Obj K N) (x : Fin n → List K)
    (y : Fin n → K) (hy : ∀ i, y i = -1) (hC : 0 ≤ o.C) (d : Nat) (epochs : Int)
    (h : Fit make perms o x y d epochs o') : o'.predict (List.ofFn x) = .ok (List.replicate n 1) := by
  rw [one_class make perms o o' x y (-1) (.inr rfl) hy hC d epochs h]
  congr 1
  rw [List.map_const', List.length_ofFn]

/-- The linear kernel on lists. -/
def lin (a b : List ℚ) : ℚ := (List.zipWith (· * ·) a b).sum

/-- A compiled, untrained classifier with the linear kernel. -/
def exObj : Obj ℚ Unit :=
  { supportVector := [], supportAlpha := [], supportY := [], b := 0, C := 1, kernel := .name (), gamma := .auto, tol := 1 / 1000,
    trained := false, loaded := false }

/-- Training with a limit on the epochs always ends, so `Fit` holds of some object (non-vacuity of the theorems above); here with
both classes present. -/
example : ∃ o' : Obj ℚ Unit, Fit (n := 2) (fun _ _ => lin) (fun _ => [0, 1]) exObj ![[1], [-1]] ![1, -1] 1 10 o' ∧
    o'.predict [[2], [-2]] = .ok [1, -1] := by
  refine ⟨_, ⟨1, _, by decide +kernel, rfl, rfl⟩, ?_⟩
  decide +kernel

example : ∃ o' : Obj ℚ Unit, Fit (n := 2) (fun _ _ => lin) (fun _ => [0, 1]) exObj ![[1], [-1]] ![-1, -1] 1 10 o' :=
  ⟨_, ⟨1, _, by decide +kernel, rfl, rfl⟩⟩

end CML.SVC
