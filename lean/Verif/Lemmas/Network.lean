import Verif.Spec.Network
import Verif.Props.LogReg
import Mathlib.Algebra.BigOperators.Ring.Finset
import Mathlib.Algebra.BigOperators.Field
import Mathlib.Analysis.Calculus.Deriv.Add
import Mathlib.Analysis.Calculus.Deriv.Mul
import Mathlib.Analysis.Calculus.Deriv.Comp
import Mathlib.Tactic.Ring
import Mathlib.Tactic.Linarith
import Mathlib.Tactic.FieldSimp

set_option linter.unusedSectionVars false

/-! # Lemmas on the back-propagation network -/

namespace CML.Net
open Finset

/-! ## The code without shapes -/

/-- The gradient of one layer. -/
noncomputable def gradOf (n : Nat) (L : Layer) (da A : ℕ → ℕ → ℝ) : Grad :=
  ⟨⟨L.w.rows, L.w.cols, fun r c => (∑ l ∈ range n, da l r * A l c) / (n : ℝ)⟩,
   ⟨1, L.w.rows, fun _ j => (∑ l ∈ range n, da l j) / (n : ℝ)⟩⟩

/-- Back-propagation on functions. -/
noncomputable def bwd (n : Nat) (G : (ℕ → ℕ → ℝ) → ℕ → ℕ → ℝ) : List Layer → (ℕ → ℕ → ℝ) → List Grad × (ℕ → ℕ → ℝ)
  | [], A => ([], A)
  | [L], A =>
    let da := G fun i => affine L (A i)
    ([gradOf n L da A], fun i c => ∑ r ∈ range L.w.rows, da i r * L.w.e r c)
  | L :: L' :: Ls, A =>
    let A' : ℕ → ℕ → ℝ := fun i r => max 0 (affine L (A i) r)
    let res := bwd n G (L' :: Ls) A'
    let da : ℕ → ℕ → ℝ := fun i r => reluDiff (res.2 i r) (A' i r)
    (gradOf n L da A :: res.1, fun i c => ∑ r ∈ range L.w.rows, da i r * L.w.e r c)

theorem affine_eq {x L : Mat} {b : Mat} (hc : x.cols = L.cols) (hb : b.rows = 1 ∧ b.cols = L.rows) :
    ∃ z0 z, matmulT x L = .ok z0 ∧ addBias z0 b = .ok z ∧ z = ⟨x.rows, L.rows, fun i => affine ⟨L, b⟩ (x.e i)⟩ := by
  refine ⟨_, _, by rw [matmulT, if_pos hc], ?_, rfl⟩
  rw [addBias, if_neg (by simp [hb.1]), if_pos hb.2, hc]
  rfl

theorem softmax_max (k : Nat) (z : ℕ → ℝ) (M : ℝ) (j : ℕ) :
    Real.exp (z j - M) / ∑ l ∈ range k, Real.exp (z l - M) = softmaxRow k z j := by
  unfold softmaxRow
  simp only [sub_eq_add_neg, Real.exp_add]
  rw [← Finset.sum_mul, mul_div_mul_right _ _ (Real.exp_ne_zero _)]

theorem softmaxMat_ok (z : Mat) (hr : 0 < z.rows) (hc : 0 < z.cols) :
    softmaxMat z = .ok ⟨z.rows, z.cols, fun i => softmaxRow z.cols (z.e i)⟩ := by
  unfold softmaxMat
  cases h : (entries z).max? with
  | none =>
    rw [List.max?_eq_none_iff] at h
    exfalso
    have : z.e 0 0 ∈ entries z := by
      simp only [entries, List.mem_flatMap, List.mem_map, List.mem_range]
      exact ⟨0, hr, 0, hc, rfl⟩
    rw [h] at this
    simp at this
  | some M =>
    simp only [softmax_max]

/-- The output of the network on functions, with the activation of the output layer. -/
noncomputable def outAct (k : Nat) (Z : ℕ → ℕ → ℝ) : ℕ → ℕ → ℝ :=
  if k = 1 then fun i j => sigmoid (Z i j) else fun i => softmaxRow k (Z i)

/-- The error of the output layer in the code, for `k` outputs and label rows of width `w`. -/
noncomputable def outErr (k w : Nat) (y : ℕ → ℕ → ℝ) (Z : ℕ → ℕ → ℝ) : ℕ → ℕ → ℝ :=
  if w = 1 then fun i j =>
    outAct k Z i j * (1 - outAct k Z i j) *
      (-(y i (if k = 1 then j else 0) / outAct k Z i j - (1 - y i (if k = 1 then j else 0)) / (1 - outAct k Z i j)) - outAct k Z i j)
  else fun i j => softmaxRow k (Z i) j - y i j

theorem forward_backward (P : List Layer) : ∀ (sizes : List Nat) (x : Mat), Shaped sizes P → P ≠ [] → sizes.head? = some x.cols →
    0 < x.rows → 0 < lastSize sizes → ∃ yp caches, forward x P = .ok (yp, caches) ∧
      yp = ⟨x.rows, lastSize sizes, outAct (lastSize sizes) fun i => logits P (x.e i)⟩ ∧ caches ≠ [] ∧
      ∀ y : Mat, y.rows = x.rows → (y.cols = lastSize sizes ∨ y.cols = 1) →
        backward yp y caches = .ok ((bwd x.rows (outErr (lastSize sizes) y.cols y.e) P x.e).1,
          ⟨x.rows, x.cols, (bwd x.rows (outErr (lastSize sizes) y.cols y.e) P x.e).2⟩) := by
  induction P with
  | nil => intro _ _ _ h; exact absurd rfl h
  | cons L Ls ih =>
    intro sizes x hS _ hx hn hk
    match sizes, hS with
    | d :: m :: rest, hS =>
      obtain ⟨⟨h1, h2, h3, h4⟩, hS'⟩ := hS
      have hxd : x.cols = d := by simpa using hx.symm
      obtain ⟨z0, z, hz0, hz, hzz⟩ := affine_eq (x := x) (L := L.w) (b := L.b) (by rw [hxd, h2]) ⟨h3, by rw [h4, h1]⟩
      match Ls, rest, hS', ih with
      | [], rest, hS', _ =>
        have hrest : rest = [] := by
          cases rest with
          | nil => rfl
          | cons a b => exact absurd hS' (by simp [Shaped])
        subst hrest
        have hlast : lastSize [d, m] = m := rfl
        rw [hlast] at hk
        rw [hlast]
        by_cases hm : m = 1
        · have hyp : forward x [L] = .ok (⟨x.rows, m, outAct m fun i => logits [L] (x.e i)⟩,
              [⟨x, L.w, ⟨x.rows, m, outAct m fun i => logits [L] (x.e i)⟩⟩]) := by
            rw [forward, hz0]
            simp only [hz, hzz, h1, hm, if_true, outAct, logits]
          refine ⟨_, _, hyp, rfl, by simp, fun y hyr hyc => ?_⟩
          have hE : outputError ⟨x.rows, m, outAct m fun i => logits [L] (x.e i)⟩ y ⟨x.rows, m, outAct m fun i => logits [L] (x.e i)⟩ =
              .ok ⟨x.rows, m, outErr m y.cols y.e fun i => affine L (x.e i)⟩ := by
            have hyc : y.cols = 1 := by omega
            simp [outputError, zipWith, hyr, hyc, hm, outAct, outErr, logits]
          rw [backward]
          simp only [hE, getGrad, tMatmul, matmul, h1, if_true]
          simp [bwd, gradOf, hyr, h1, h2, hxd]
        · have hyp : forward x [L] = .ok (⟨x.rows, m, outAct m fun i => logits [L] (x.e i)⟩,
              [⟨x, L.w, ⟨x.rows, m, outAct m fun i => logits [L] (x.e i)⟩⟩]) := by
            rw [forward, hz0]
            simp only [hz, hzz, h1, hm, if_false]
            rw [softmaxMat_ok ⟨x.rows, m, fun i => affine ⟨L.w, L.b⟩ (x.e i)⟩ hn hk]
            simp only [outAct, hm, if_false, logits]
          refine ⟨_, _, hyp, rfl, by simp, fun y hyr hyc => ?_⟩
          have hE : outputError ⟨x.rows, m, outAct m fun i => logits [L] (x.e i)⟩ y ⟨x.rows, m, outAct m fun i => logits [L] (x.e i)⟩ =
              .ok ⟨x.rows, m, outErr m y.cols y.e fun i => affine L (x.e i)⟩ := by
            rcases hyc with hyc | hyc
            · simp [outputError, zipWith, hyr, hyc, hm, outAct, outErr, logits, softmaxDiff]
            · simp [outputError, zipWith, hyr, hyc, hm, outAct, outErr, logits]
          rw [backward]
          simp only [hE, getGrad, tMatmul, matmul, h1, if_true]
          simp [bwd, gradOf, hyr, h1, h2, hxd]
      | L' :: Ls', rest, hS', ih =>
        have hlast : lastSize (d :: m :: rest) = lastSize (m :: rest) := rfl
        rw [hlast] at hk ⊢
        obtain ⟨yp, caches, hf, hyp, hcn, hb⟩ := ih (m :: rest) ⟨x.rows, m, fun i r => relu (affine L (x.e i) r)⟩ hS' (by simp) rfl hn hk
        have hF : forward x (L :: L' :: Ls') = .ok (yp, ⟨x, L.w, ⟨x.rows, m, fun i r => relu (affine L (x.e i) r)⟩⟩ :: caches) := by
          rw [forward, hz0]
          simp only [hz, hzz, h1, hf]
        refine ⟨_, _, hF, hyp, by simp, fun y hyr hyc => ?_⟩
        have hb' := hb y hyr hyc
        obtain ⟨c, cs, rfl⟩ := List.exists_cons_of_ne_nil hcn
        rw [backward, hb']
        simp only [reluDiffMat, and_self, if_true, getGrad, tMatmul, matmul, h1]
        simp [bwd, gradOf, hyr, h1, h2, hxd, relu]

/-! ## Derivatives -/

theorem moved_zero (P : List Layer) : ∀ D, moved 0 P D = P := by
  induction P with
  | nil => intro D; cases D <;> rfl
  | cons L Ls ih =>
    intro D
    cases D with
    | nil => rfl
    | cons D Ds => simp [moved, ih]

/-- The sum over a layer, rearranged into the gradients and the error handed to the previous layer. -/
theorem layer_sum (n m d : Nat) (hn : 0 < n) (da A A' : ℕ → ℕ → ℝ) (W Dw : ℕ → ℕ → ℝ) (Db : ℕ → ℝ) :
    ∑ i ∈ range n, ∑ r ∈ range m, da i r * ((∑ c ∈ range d, (Dw r c * A i c + W r c * A' i c)) + Db r) =
    (n : ℝ) * ∑ r ∈ range m, ((∑ c ∈ range d, (∑ l ∈ range n, da l r * A l c) / (n : ℝ) * Dw r c) + (∑ l ∈ range n, da l r) / (n : ℝ) * Db r) +
      ∑ i ∈ range n, ∑ c ∈ range d, (∑ r ∈ range m, da i r * W r c) * A' i c := by
  have hn' : (n : ℝ) ≠ 0 := by exact_mod_cast hn.ne'
  have e1 : (n : ℝ) * ∑ r ∈ range m, ((∑ c ∈ range d, (∑ l ∈ range n, da l r * A l c) / (n : ℝ) * Dw r c) + (∑ l ∈ range n, da l r) / (n : ℝ) * Db r) =
      ∑ i ∈ range n, ∑ r ∈ range m, da i r * ((∑ c ∈ range d, Dw r c * A i c) + Db r) := by
    rw [Finset.mul_sum, Finset.sum_comm (s := range n)]
    refine Finset.sum_congr rfl fun r _ => ?_
    have h1 : (n : ℝ) * ∑ c ∈ range d, (∑ l ∈ range n, da l r * A l c) / (n : ℝ) * Dw r c =
        ∑ i ∈ range n, da i r * ∑ c ∈ range d, Dw r c * A i c := by
      rw [Finset.mul_sum]
      simp only [Finset.mul_sum]
      rw [Finset.sum_comm]
      refine Finset.sum_congr rfl fun c _ => ?_
      rw [div_mul_eq_mul_div, mul_div_cancel₀ _ hn', Finset.sum_mul]
      exact Finset.sum_congr rfl fun l _ => by ring
    have h2 : (n : ℝ) * ((∑ l ∈ range n, da l r) / (n : ℝ) * Db r) = ∑ i ∈ range n, da i r * Db r := by
      rw [div_mul_eq_mul_div, mul_div_cancel₀ _ hn', Finset.sum_mul]
    rw [mul_add, h1, h2, ← Finset.sum_add_distrib]
    exact Finset.sum_congr rfl fun i _ => by ring
  rw [e1, ← Finset.sum_add_distrib]
  refine Finset.sum_congr rfl fun i _ => ?_
  have e2 : ∑ c ∈ range d, (∑ r ∈ range m, da i r * W r c) * A' i c = ∑ r ∈ range m, da i r * ∑ c ∈ range d, W r c * A' i c := by
    simp only [Finset.sum_mul, Finset.mul_sum]
    rw [Finset.sum_comm]
    exact Finset.sum_congr rfl fun r _ => Finset.sum_congr rfl fun c _ => by ring
  rw [e2, ← Finset.sum_add_distrib]
  refine Finset.sum_congr rfl fun r _ => ?_
  rw [Finset.sum_add_distrib]
  ring

/-- `G` is the derivative of the summed loss with respect to the logits. -/
def HeadOK (loss : (ℕ → ℝ) → (ℕ → ℝ) → ℝ) (n k : Nat) (y : ℕ → ℕ → ℝ) (G : (ℕ → ℕ → ℝ) → ℕ → ℕ → ℝ) : Prop :=
  ∀ (Z : ℝ → ℕ → ℕ → ℝ) (Z' : ℕ → ℕ → ℝ), (∀ i < n, ∀ j < k, HasDerivAt (fun t => Z t i j) (Z' i j) 0) →
    HasDerivAt (fun t => ∑ i ∈ range n, loss (y i) (Z t i)) (∑ i ∈ range n, ∑ j ∈ range k, G (Z 0) i j * Z' i j) 0

/-- The derivative of an affine layer along a direction. -/
theorem affine_deriv (L D : Layer) (n d : Nat) (hd : L.w.cols = d) (A : ℝ → ℕ → ℕ → ℝ) (A' : ℕ → ℕ → ℝ)
    (hA : ∀ i < n, ∀ c < d, HasDerivAt (fun t => A t i c) (A' i c) 0) (i : Nat) (hi : i < n) (r : Nat) :
    HasDerivAt (fun t => affine ⟨⟨L.w.rows, L.w.cols, fun i j => L.w.e i j + t * D.w.e i j⟩,
        ⟨L.b.rows, L.b.cols, fun i j => L.b.e i j + t * D.b.e i j⟩⟩ (A t i) r)
      ((∑ c ∈ range d, (D.w.e r c * A 0 i c + L.w.e r c * A' i c)) + D.b.e 0 r) 0 := by
  unfold affine
  simp only [hd]
  have lin : ∀ a b : ℝ, HasDerivAt (fun t : ℝ => a + t * b) b 0 := by
    intro a b
    simpa using ((hasDerivAt_id (0 : ℝ)).mul_const b).const_add a
  refine HasDerivAt.add (HasDerivAt.fun_sum fun c hc => ?_) (lin _ _)
  have := (lin (L.w.e r c) (D.w.e r c)).fun_mul (hA i hi c (Finset.mem_range.1 hc))
  simpa using this

theorem relu_deriv {f : ℝ → ℝ} {f' : ℝ} (h : HasDerivAt f f' 0) (h0 : f 0 ≠ 0) :
    HasDerivAt (fun t => max 0 (f t)) (if max 0 (f 0) ≤ 0 then 0 else f') 0 := by
  rcases lt_or_gt_of_ne h0 with hl | hg
  · rw [if_pos (by rw [max_eq_left hl.le])]
    have : (fun t => max 0 (f t)) =ᶠ[nhds 0] fun _ => 0 := by
      filter_upwards [h.continuousAt.eventually (gt_mem_nhds hl)] with t ht
      exact max_eq_left (le_of_lt ht)
    exact (hasDerivAt_const (0 : ℝ) (0 : ℝ)).congr_of_eventuallyEq this
  · rw [if_neg (by rw [max_eq_right hg.le]; exact not_le.2 hg)]
    have : (fun t => max 0 (f t)) =ᶠ[nhds 0] f := by
      filter_upwards [h.continuousAt.eventually (lt_mem_nhds hg)] with t ht
      exact max_eq_right (le_of_lt ht)
    exact h.congr_of_eventuallyEq this

/-- Back-propagation is the derivative of the summed loss, along every direction of the parameters and every motion of the input. -/
theorem bwd_deriv (loss : (ℕ → ℝ) → (ℕ → ℝ) → ℝ) (n : Nat) (hn : 0 < n) (y : ℕ → ℕ → ℝ) (G : (ℕ → ℕ → ℝ) → ℕ → ℕ → ℝ)
    (P : List Layer) : ∀ (sizes : List Nat) (d : Nat), Shaped sizes P → P ≠ [] → sizes.head? = some d →
    HeadOK loss n (lastSize sizes) y G → ∀ (D : List Layer), D.length = P.length →
    ∀ (A : ℝ → ℕ → ℕ → ℝ) (A' : ℕ → ℕ → ℝ), (∀ i < n, ∀ c < d, HasDerivAt (fun t => A t i c) (A' i c) 0) →
    (∀ i < n, NoKink P (A 0 i)) →
    HasDerivAt (fun t => ∑ i ∈ range n, loss (y i) (logits (moved t P D) (A t i)))
      ((n : ℝ) * inner P (bwd n G P (A 0)).1 D + ∑ i ∈ range n, ∑ c ∈ range d, (bwd n G P (A 0)).2 i c * A' i c) 0 := by
  induction P with
  | nil => intro _ _ _ h; exact absurd rfl h
  | cons L Ls ih =>
    intro sizes d hS _ hd hG D hD A A' hA hK
    match sizes, hS with
    | d' :: m :: rest, hS =>
      obtain ⟨⟨h1, h2, h3, h4⟩, hS'⟩ := hS
      have hdd : d' = d := by simpa using hd
      subst hdd
      match D, hD with
      | D :: Ds, hD =>
        have hz := affine_deriv L D n d' h2 A A' hA
        match Ls, rest, hS', ih with
        | [], rest, hS', _ =>
          have hrest : rest = [] := by
            cases rest with
            | nil => rfl
            | cons a b => exact absurd hS' (by simp [Shaped])
          subst hrest
          have hDs : Ds = [] := List.eq_nil_of_length_eq_zero (by simpa using hD)
          subst hDs
          have := hG (fun t i r => affine ⟨⟨L.w.rows, L.w.cols, fun i j => L.w.e i j + t * D.w.e i j⟩,
            ⟨L.b.rows, L.b.cols, fun i j => L.b.e i j + t * D.b.e i j⟩⟩ (A t i) r) _ fun i hi r _ => hz i hi r
          simp only [lastSize] at this
          rw [layer_sum n m d' hn] at this
          have e0 : (fun i r => affine ⟨⟨L.w.rows, L.w.cols, fun i j => L.w.e i j + 0 * D.w.e i j⟩,
            ⟨L.b.rows, L.b.cols, fun i j => L.b.e i j + 0 * D.b.e i j⟩⟩ (A 0 i) r) = fun i => affine L (A 0 i) := by
            simp
          rw [e0] at this
          simpa [bwd, inner, gradOf, moved, logits, h1, h2] using this
        | L' :: Ls', rest, hS', ih =>
          have hlen : Ds.length = (L' :: Ls').length := by simpa using hD
          have hk0 : ∀ i < n, ∀ r < m, affine L (A 0 i) r ≠ 0 := by
            intro i hi r hr
            exact (hK i hi).1 r (by rw [h1]; exact hr)
          have hstep := ih (m :: rest) m hS' (by simp) rfl hG Ds hlen
            (fun t i r => max 0 (affine ⟨⟨L.w.rows, L.w.cols, fun i j => L.w.e i j + t * D.w.e i j⟩,
              ⟨L.b.rows, L.b.cols, fun i j => L.b.e i j + t * D.b.e i j⟩⟩ (A t i) r))
            (fun i r => if max 0 (affine L (A 0 i) r) ≤ 0 then 0 else
              (∑ c ∈ range d', (D.w.e r c * A 0 i c + L.w.e r c * A' i c)) + D.b.e 0 r)
            (fun i hi r hr => by
              have h0 := hk0 i hi r hr
              have := relu_deriv (hz i hi r) (by simpa using h0)
              simpa using this)
            (fun i hi => by simpa using (hK i hi).2)
          have e0 : (fun i r => max 0 (affine ⟨⟨L.w.rows, L.w.cols, fun i j => L.w.e i j + 0 * D.w.e i j⟩,
            ⟨L.b.rows, L.b.cols, fun i j => L.b.e i j + 0 * D.b.e i j⟩⟩ (A 0 i) r)) = fun i r => max 0 (affine L (A 0 i) r) := by
            simp
          simp only [e0] at hstep
          set A2 : ℕ → ℕ → ℝ := fun i r => max 0 (affine L (A 0 i) r) with hA2
          have e1 : ∑ i ∈ range n, ∑ r ∈ range m, (bwd n G (L' :: Ls') A2).2 i r * (if A2 i r ≤ 0 then 0 else
              (∑ c ∈ range d', (D.w.e r c * A 0 i c + L.w.e r c * A' i c)) + D.b.e 0 r) =
              ∑ i ∈ range n, ∑ r ∈ range m, reluDiff ((bwd n G (L' :: Ls') A2).2 i r) (A2 i r) *
                ((∑ c ∈ range d', (D.w.e r c * A 0 i c + L.w.e r c * A' i c)) + D.b.e 0 r) := by
            refine Finset.sum_congr rfl fun i _ => Finset.sum_congr rfl fun r _ => ?_
            unfold reluDiff
            split <;> simp
          rw [e1, layer_sum n m d' hn] at hstep
          have hv : (n : ℝ) * inner (L :: L' :: Ls') (bwd n G (L :: L' :: Ls') (A 0)).1 (D :: Ds) +
              ∑ i ∈ range n, ∑ c ∈ range d', (bwd n G (L :: L' :: Ls') (A 0)).2 i c * A' i c =
              (n : ℝ) * inner (L' :: Ls') (bwd n G (L' :: Ls') A2).1 Ds +
              ((n : ℝ) * ∑ r ∈ range m, ((∑ c ∈ range d', (∑ l ∈ range n, reluDiff ((bwd n G (L' :: Ls') A2).2 l r) (A2 l r) * A 0 l c) / (n : ℝ) *
                  D.w.e r c) + (∑ l ∈ range n, reluDiff ((bwd n G (L' :: Ls') A2).2 l r) (A2 l r)) / (n : ℝ) * D.b.e 0 r) +
                ∑ i ∈ range n, ∑ c ∈ range d', (∑ r ∈ range m, reluDiff ((bwd n G (L' :: Ls') A2).2 i r) (A2 i r) * L.w.e r c) * A' i c) := by
            simp only [bwd, inner, gradOf, h1, h2]
            ring
          rw [hv]
          match Ds, hlen with
          | D' :: Ds', _ => exact hstep

/-! ## The two heads -/

theorem head_softmax (n k : Nat) (hk : 0 < k) (y : ℕ → ℕ → ℝ) (hy : ∀ i < n, ∑ j ∈ range k, y i j = 1) :
    HeadOK (softmaxLoss k) n k y (fun Z i j => softmaxRow k (Z i) j - y i j) := by
  intro Z Z' hZ
  refine HasDerivAt.fun_sum fun i hi => ?_
  have hi' := Finset.mem_range.1 hi
  have hS : ∀ z : ℕ → ℝ, 0 < ∑ l ∈ range k, Real.exp (z l) := fun z =>
    Finset.sum_pos (fun l _ => Real.exp_pos _) ⟨0, Finset.mem_range.2 hk⟩
  have eq : ∀ t, softmaxLoss k (y i) (Z t i) = Real.log (∑ l ∈ range k, Real.exp (Z t i l)) - ∑ j ∈ range k, y i j * Z t i j := by
    intro t
    unfold softmaxLoss softmaxRow
    have : ∑ j ∈ range k, y i j * Real.log (Real.exp (Z t i j) / ∑ l ∈ range k, Real.exp (Z t i l)) =
        ∑ j ∈ range k, y i j * Z t i j - (∑ j ∈ range k, y i j) * Real.log (∑ l ∈ range k, Real.exp (Z t i l)) := by
      rw [Finset.sum_mul, ← Finset.sum_sub_distrib]
      refine Finset.sum_congr rfl fun j _ => ?_
      rw [Real.log_div (Real.exp_ne_zero _) (hS _).ne', Real.log_exp]
      ring
    rw [this, hy i hi']
    ring
  simp only [eq]
  have h1 : HasDerivAt (fun t => ∑ l ∈ range k, Real.exp (Z t i l)) (∑ l ∈ range k, Real.exp (Z 0 i l) * Z' i l) 0 :=
    HasDerivAt.fun_sum fun l hl => (hZ i hi' l (Finset.mem_range.1 hl)).exp
  have h2 := h1.log (hS _).ne'
  have h3 : HasDerivAt (fun t => ∑ j ∈ range k, y i j * Z t i j) (∑ j ∈ range k, y i j * Z' i j) 0 :=
    HasDerivAt.fun_sum fun j hj => (hZ i hi' j (Finset.mem_range.1 hj)).const_mul (y i j)
  refine (h2.fun_sub h3).congr_deriv ?_
  rw [Finset.sum_div, ← Finset.sum_sub_distrib]
  refine Finset.sum_congr rfl fun j _ => ?_
  unfold softmaxRow
  ring

theorem sigmoidLoss_eq (y z : ℕ → ℝ) : sigmoidLoss y z = LogReg.softplus (z 0) - y 0 * z 0 := by
  have h1 : Real.log (sigmoid (z 0)) = z 0 - LogReg.softplus (z 0) := by
    rw [LogReg.sigmoid_eq_exp, Real.log_div (Real.exp_ne_zero _) (by positivity), Real.log_exp]; rfl
  have h2 : Real.log (1 - sigmoid (z 0)) = -LogReg.softplus (z 0) := by
    rw [LogReg.one_sub_sigmoid]
    unfold sigmoid LogReg.softplus
    rw [neg_neg, one_div, Real.log_inv]
  have : sigmoidLoss y z = -(y 0 * Real.log (sigmoid (z 0)) + (1 - y 0) * Real.log (1 - sigmoid (z 0))) := rfl
  rw [this, h1, h2]; ring

theorem head_sigmoid (n : Nat) (y : ℕ → ℕ → ℝ) : HeadOK sigmoidLoss n 1 y (fun Z i j => sigmoid (Z i j) - y i j) := by
  intro Z Z' hZ
  refine HasDerivAt.fun_sum fun i hi => ?_
  have hi' := Finset.mem_range.1 hi
  simp only [sigmoidLoss_eq]
  have h := hZ i hi' 0 one_pos
  have h1 := (LogReg.softplus_deriv (Z 0 i 0)).comp (0 : ℝ) h
  have h2 := h1.fun_sub (h.const_mul (y i 0))
  refine h2.congr_deriv ?_
  rw [Finset.sum_range_one]
  ring

/-- Back-propagation is linear in the output error. -/
theorem bwd_smul (n : Nat) (G G' : (ℕ → ℕ → ℝ) → ℕ → ℕ → ℝ) (s : ℝ) (P : List Layer) : ∀ (A : ℕ → ℕ → ℝ), P ≠ [] →
    (∀ i < n, ∀ j, (∀ L ∈ P.getLast?, j < L.w.rows) → G' (fun i => logits P (A i)) i j = s * G (fun i => logits P (A i)) i j) →
    (∀ D, inner P (bwd n G' P A).1 D = s * inner P (bwd n G P A).1 D) ∧ ∀ i < n, ∀ c, (bwd n G' P A).2 i c = s * (bwd n G P A).2 i c := by
  have hinner : ∀ (L : Layer) (da da' A : ℕ → ℕ → ℝ) (hda : ∀ i < n, ∀ r < L.w.rows, da' i r = s * da i r) (D : Layer),
      ∑ r ∈ range L.w.rows, ((∑ c ∈ range L.w.cols, (gradOf n L da' A).dw.e r c * D.w.e r c) + (gradOf n L da' A).db.e 0 r * D.b.e 0 r) =
      s * ∑ r ∈ range L.w.rows, ((∑ c ∈ range L.w.cols, (gradOf n L da A).dw.e r c * D.w.e r c) + (gradOf n L da A).db.e 0 r * D.b.e 0 r) := by
    intro L da da' A hda D
    rw [Finset.mul_sum]
    refine Finset.sum_congr rfl fun r hr => ?_
    have hr' := Finset.mem_range.1 hr
    simp only [gradOf]
    have h1 : ∀ c, ∑ l ∈ range n, da' l r * A l c = s * ∑ l ∈ range n, da l r * A l c := by
      intro c; rw [Finset.mul_sum]; exact Finset.sum_congr rfl fun l hl => by rw [hda l (Finset.mem_range.1 hl) r hr']; ring
    have h2 : ∑ l ∈ range n, da' l r = s * ∑ l ∈ range n, da l r := by
      rw [Finset.mul_sum]; exact Finset.sum_congr rfl fun l hl => hda l (Finset.mem_range.1 hl) r hr'
    have h3 : ∑ c ∈ range L.w.cols, (∑ l ∈ range n, da' l r * A l c) / (n : ℝ) * D.w.e r c =
        s * ∑ c ∈ range L.w.cols, (∑ l ∈ range n, da l r * A l c) / (n : ℝ) * D.w.e r c := by
      rw [Finset.mul_sum]; exact Finset.sum_congr rfl fun c _ => by rw [h1]; ring
    rw [h3, h2]; ring
  have hda2 : ∀ (L : Layer) (da da' : ℕ → ℕ → ℝ) (hda : ∀ i < n, ∀ r < L.w.rows, da' i r = s * da i r), ∀ i < n, ∀ c : ℕ,
      ∑ r ∈ range L.w.rows, da' i r * L.w.e r c = s * ∑ r ∈ range L.w.rows, da i r * L.w.e r c := by
    intro L da da' hda i hi c
    rw [Finset.mul_sum]
    exact Finset.sum_congr rfl fun r hr => by rw [hda i hi r (Finset.mem_range.1 hr)]; ring
  induction P with
  | nil => intro _ h; exact absurd rfl h
  | cons L Ls ih =>
    intro A _ hG
    cases Ls with
    | nil =>
      have hG' : ∀ i < n, ∀ r < L.w.rows, G' (fun i => affine L (A i)) i r = s * G (fun i => affine L (A i)) i r :=
        fun i hi r hr => hG i hi r (by simpa using hr)
      refine ⟨fun D => ?_, hda2 L _ _ hG'⟩
      cases D with
      | nil => simp [inner]
      | cons D Ds =>
        simp only [bwd, inner]
        have := hinner L _ _ A hG' D
        cases Ds <;> simp only [inner, add_zero] <;> exact this
    | cons L' Ls' =>
      obtain ⟨i1, i2⟩ := ih (fun i r => max 0 (affine L (A i) r)) (by simp)
        (fun i hi j hj => hG i hi j (by simpa using hj))
      have hd : ∀ i < n, ∀ r < L.w.rows, reluDiff ((bwd n G' (L' :: Ls') (fun i r => max 0 (affine L (A i) r))).2 i r) (max 0 (affine L (A i) r)) =
          s * reluDiff ((bwd n G (L' :: Ls') (fun i r => max 0 (affine L (A i) r))).2 i r) (max 0 (affine L (A i) r)) := by
        intro i hi r _
        unfold reluDiff
        rw [i2 i hi]
        split <;> ring
      refine ⟨fun D => ?_, hda2 L _ _ hd⟩
      cases D with
      | nil => simp [inner]
      | cons D Ds =>
        simp only [bwd, inner]
        rw [i1, hinner L _ _ A hd D]
        ring

end CML.Net
