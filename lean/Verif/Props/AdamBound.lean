import Verif.Props.Adam

/-! # The steps of Adam are bounded (C236) -/

set_option linter.unusedSectionVars false

namespace CML.Net
open Finset

/-- The second moment is nonnegative. -/
theorem adam_v_nonneg (lr b1 b2 eps p0 : ℝ) (h2 : 0 ≤ b2) (h2' : b2 < 1) (gs : List ℝ) : 0 ≤ (adamRun lr b1 b2 eps p0 gs).1.v := by
  induction gs using List.reverseRecOn with
  | nil => exact le_refl _
  | append_singleton gs g ih =>
    rw [adamRun_append]
    show 0 ≤ b2 * _ + (1 - b2) * g ^ 2
    have : 0 ≤ 1 - b2 := by linarith
    positivity

/-- The first moment is dominated by the second. -/
theorem adam_dominated (lr b1 b2 eps p0 : ℝ) (h1 : 0 ≤ b1) (h12 : b1 ≤ b2) (h2 : b2 < 1) (gs : List ℝ) :
    (1 - b2) * (adamRun lr b1 b2 eps p0 gs).1.m ^ 2 ≤
      (1 - b1 ^ gs.length) * ((1 - b1) * (adamRun lr b1 b2 eps p0 gs).1.v) := by
  induction gs using List.reverseRecOn with
  | nil => simp [adamRun]
  | append_singleton gs g ih =>
    rw [adamRun_append]
    have hS : 0 ≤ 1 - b1 ^ gs.length := by
      have := pow_le_one₀ (n := gs.length) h1 (h12.trans h2.le); linarith
    have hv' := adam_v_nonneg lr b1 b2 eps p0 (h1.trans h12) h2 gs
    set M := (adamRun lr b1 b2 eps p0 gs).1.m
    set W := (adamRun lr b1 b2 eps p0 gs).1.v
    set S := 1 - b1 ^ gs.length with hSd
    show (1 - b2) * (b1 * M + (1 - b1) * g) ^ 2 ≤ (1 - b1 ^ (gs ++ [g]).length) * ((1 - b1) * (b2 * W + (1 - b2) * g ^ 2))
    have hS' : 1 - b1 ^ (gs ++ [g]).length = b1 * S + (1 - b1) := by
      rw [List.length_append, List.length_singleton, pow_succ, hSd]; ring
    rw [hS']
    have hb1 : 0 ≤ 1 - b1 := by linarith
    have hb2 : 0 ≤ 1 - b2 := by linarith
    rcases eq_or_lt_of_le hS with h0 | h0
    · rw [← h0] at ih ⊢
      have hM : (1 - b2) * M ^ 2 = 0 := le_antisymm (by simpa using ih) (by positivity)
      have hM0 : M = 0 := by
        rcases mul_eq_zero.1 hM with h | h
        · linarith
        · exact pow_eq_zero_iff two_ne_zero |>.1 h
      rw [hM0]
      have : 0 ≤ (1 - b1) * ((1 - b1) * (b2 * W)) := mul_nonneg hb1 (mul_nonneg hb1 (mul_nonneg (h1.trans h12) hv'))
      nlinarith
    · have hJ : S * (b1 * M + (1 - b1) * g) ^ 2 ≤ (b1 * S + (1 - b1)) * (b1 * M ^ 2 + (1 - b1) * S * g ^ 2) := by
        have : (b1 * S + (1 - b1)) * (b1 * M ^ 2 + (1 - b1) * S * g ^ 2) - S * (b1 * M + (1 - b1) * g) ^ 2 =
            b1 * (1 - b1) * (M - S * g) ^ 2 := by ring
        have : 0 ≤ b1 * (1 - b1) * (M - S * g) ^ 2 := by positivity
        linarith
      have hT : 0 ≤ b1 * S + (1 - b1) := by positivity
      refine le_of_mul_le_mul_left ?_ h0
      calc S * ((1 - b2) * (b1 * M + (1 - b1) * g) ^ 2) = (1 - b2) * (S * (b1 * M + (1 - b1) * g) ^ 2) := by ring
        _ ≤ (1 - b2) * ((b1 * S + (1 - b1)) * (b1 * M ^ 2 + (1 - b1) * S * g ^ 2)) := mul_le_mul_of_nonneg_left hJ hb2
        _ = (b1 * S + (1 - b1)) * (b1 * ((1 - b2) * M ^ 2) + (1 - b2) * ((1 - b1) * S * g ^ 2)) := by ring
        _ ≤ (b1 * S + (1 - b1)) * (b1 * (S * ((1 - b1) * W)) + (1 - b2) * ((1 - b1) * S * g ^ 2)) := by
          refine mul_le_mul_of_nonneg_left ?_ hT
          have := mul_le_mul_of_nonneg_left ih h1
          linarith
        _ ≤ (b1 * S + (1 - b1)) * (b2 * (S * ((1 - b1) * W)) + (1 - b2) * ((1 - b1) * S * g ^ 2)) := by
          refine mul_le_mul_of_nonneg_left ?_ hT
          have := mul_le_mul_of_nonneg_right h12 (mul_nonneg hS (mul_nonneg hb1 hv'))
          linarith
        _ = S * ((b1 * S + (1 - b1)) * ((1 - b1) * (b2 * W + (1 - b2) * g ^ 2))) := by ring

/-- One step of one parameter. -/
theorem adam_step_bound (lr b1 b2 eps p0 : ℝ) (hlr : 0 ≤ lr) (h1 : 0 ≤ b1) (h12 : b1 ≤ b2) (h2 : b2 < 1) (heps : 0 < eps)
    (gs : List ℝ) (g : ℝ) :
    |(adamRun lr b1 b2 eps p0 (gs ++ [g])).1.p - (adamRun lr b1 b2 eps p0 gs).1.p| ≤ lr * Real.sqrt ((1 - b1) / (1 - b2)) := by
  have hd := adam_dominated lr b1 b2 eps p0 h1 h12 h2 (gs ++ [g])
  have hv := adam_v_nonneg lr b1 b2 eps p0 (h1.trans h12) h2 (gs ++ [g])
  have hlen : (gs ++ [g]).length = (adamRun lr b1 b2 eps p0 gs).2 + 1 := by rw [adamRun_count]; simp
  rw [hlen] at hd
  set t := (adamRun lr b1 b2 eps p0 gs).2 + 1 with ht
  have hp : (adamRun lr b1 b2 eps p0 (gs ++ [g])).1.p = (adamRun lr b1 b2 eps p0 gs).1.p -
      lr * ((adamRun lr b1 b2 eps p0 (gs ++ [g])).1.m / (1 - b1 ^ t)) /
        (Real.sqrt ((adamRun lr b1 b2 eps p0 (gs ++ [g])).1.v / (1 - b2 ^ t)) + eps) := by
    rw [adamRun_append]; rfl
  set M := (adamRun lr b1 b2 eps p0 (gs ++ [g])).1.m
  set W := (adamRun lr b1 b2 eps p0 (gs ++ [g])).1.v
  have hb1 : b1 < 1 := lt_of_le_of_lt h12 h2
  have hS : 0 < 1 - b1 ^ t := by have := pow_lt_one₀ h1 hb1 (n := t) (by omega); linarith
  have hT : 0 < 1 - b2 ^ t := by have := pow_lt_one₀ (h1.trans h12) h2 (n := t) (by omega); linarith
  have hST : 1 - b2 ^ t ≤ 1 - b1 ^ t := by have := pow_le_pow_left₀ h1 h12 t; linarith
  have hb1' : 0 < 1 - b1 := by linarith
  have hb2' : 0 < 1 - b2 := by linarith
  have key : |M / (1 - b1 ^ t)| ≤ Real.sqrt ((1 - b1) / (1 - b2)) * Real.sqrt (W / (1 - b2 ^ t)) := by
    rw [← Real.sqrt_mul (by positivity)]
    apply Real.abs_le_sqrt
    rw [div_pow, div_mul_div_comm, div_le_div_iff₀ (by positivity) (by positivity)]
    calc M ^ 2 * ((1 - b2) * (1 - b2 ^ t)) = ((1 - b2) * M ^ 2) * (1 - b2 ^ t) := by ring
      _ ≤ ((1 - b1 ^ t) * ((1 - b1) * W)) * (1 - b2 ^ t) := mul_le_mul_of_nonneg_right hd hT.le
      _ ≤ ((1 - b1 ^ t) * ((1 - b1) * W)) * (1 - b1 ^ t) := mul_le_mul_of_nonneg_left hST (by positivity)
      _ = _ := by ring
  rw [hp]
  set sq := Real.sqrt (W / (1 - b2 ^ t))
  have hsq : 0 ≤ sq := Real.sqrt_nonneg _
  have : (adamRun lr b1 b2 eps p0 gs).1.p - lr * (M / (1 - b1 ^ t)) / (sq + eps) - (adamRun lr b1 b2 eps p0 gs).1.p =
      -(lr * (M / (1 - b1 ^ t)) / (sq + eps)) := by ring
  rw [this, abs_neg, abs_div, abs_mul, abs_of_nonneg hlr, abs_of_pos (by positivity : 0 < sq + eps), div_le_iff₀ (by positivity), mul_assoc]
  refine mul_le_mul_of_nonneg_left (le_trans key ?_) hlr
  have := Real.sqrt_nonneg ((1 - b1) / (1 - b2))
  nlinarith

/-- The gradients of an initial segment of the training. -/
theorem grads_unique {lr b1 b2 eps : ℝ} {x y : Mat} {P : List Layer} {idx : List Nat} {i : Nat} {G G' : List (List Grad)}
    (hG : G.length = idx.length) (hG' : G'.length = (idx ++ [i]).length)
    (h : ∀ (t k : Nat), idx[t]? = some k → ∃ Pt gs, adamTrain lr b1 b2 eps x y (idx.take t) P = .ok Pt ∧ G[t]? = some gs ∧ sampleGrad x y Pt k = .ok gs)
    (h' : ∀ (t k : Nat), (idx ++ [i])[t]? = some k → ∃ Pt gs, adamTrain lr b1 b2 eps x y ((idx ++ [i]).take t) P = .ok Pt ∧ G'[t]? = some gs ∧
      sampleGrad x y Pt k = .ok gs) : ∃ g, G' = G ++ [g] := by
  have hlen : G'.length = G.length + 1 := by rw [hG', hG]; simp
  refine ⟨G'[G.length]'(by omega), List.ext_getElem? fun t => ?_⟩
  rcases lt_trichotomy t G.length with hlt | rfl | hgt
  · rw [List.getElem?_append_left hlt]
    have hti : t < idx.length := by omega
    obtain ⟨Pt, gs, a1, a2, a3⟩ := h t idx[t] (List.getElem?_eq_getElem hti)
    obtain ⟨Pt', gs', b1', b2', b3'⟩ := h' t idx[t] (by rw [List.getElem?_append_left hti, List.getElem?_eq_getElem hti])
    rw [List.take_append_of_le_length hti.le] at b1'
    rw [a1] at b1'; cases b1'
    rw [a3] at b3'; cases b3'
    rw [a2, b2']
  · rw [List.getElem?_append_right (le_refl _)]
    simp
  · rw [List.getElem?_eq_none (by omega), List.getElem?_eq_none (by simp; omega)]

theorem shaped_length : ∀ (sizes : List Nat) (P : List Layer), Shaped sizes P → P.length + 1 = sizes.length
  | [], P, h => by cases P <;> exact h.elim
  | [_], [], _ => rfl
  | [_], _ :: _, h => h.elim
  | _ :: _ :: _, [], h => h.elim
  | _ :: m :: rest, _ :: Ls, h => by
    have := shaped_length (m :: rest) Ls h.2
    simp only [List.length_cons] at this ⊢
    omega

theorem shaped_shape : ∀ (sizes : List Nat) (P Q : List Layer), Shaped sizes P → Shaped sizes Q → ∀ (l : Nat) (L A : Layer),
    P[l]? = some L → Q[l]? = some A → (A.w.rows = L.w.rows ∧ A.w.cols = L.w.cols) ∧ A.b.rows = L.b.rows ∧ A.b.cols = L.b.cols
  | _ :: _ :: _, L :: Ls, A :: As, h, h', 0, _, _, e, e' => by
    cases e; cases e'
    obtain ⟨⟨a, b, c, d⟩, _⟩ := h
    obtain ⟨⟨a', b', c', d'⟩, _⟩ := h'
    exact ⟨⟨a'.trans a.symm, b'.trans b.symm⟩, c'.trans c.symm, d'.trans d.symm⟩
  | _ :: m :: rest, _ :: Ls, _ :: As, h, h', l + 1, L, A, e, e' =>
    shaped_shape (m :: rest) Ls As h.2 h'.2 l L A (by simpa using e) (by simpa using e')
  | [], [], _, h, _, _, _, _, _, _ => h.elim
  | [], _ :: _, _, h, _, _, _, _, _, _ => h.elim
  | [_], [], _, _, _, _, _, _, e, _ => by simp at e
  | [_], _ :: _, _, h, _, _, _, _, _, _ => h.elim
  | _ :: _ :: _, [], _, h, _, _, _, _, _, _ => h.elim
  | _ :: _ :: _, _ :: _, [], _, h', _, _, _, _, _ => h'.elim

/-- C236: in a network of any depth trained with Adam (`0 ≤ β₁ ≤ β₂ < 1`), no epoch moves a weight or a bias by more than
`learning_rate * sqrt((1 - β₁)/(1 - β₂))`, whatever the data. -/
theorem C236_step_bound (lr b1 b2 eps : ℝ) (hlr : 0 ≤ lr) (h1 : 0 ≤ b1) (h12 : b1 ≤ b2) (h2 : b2 < 1) (heps : 0 < eps)
    {d m : Nat} {rest : List Nat} {P : List Layer} (x y : Mat) (hS : Shaped (d :: m :: rest) P) (hx : x.cols = d)
    (hk : 0 < lastSize (d :: m :: rest)) (hy : y.cols = lastSize (d :: m :: rest) ∨ y.cols = 1) (idx : List Nat) (i : Nat)
    (hidx : ∀ k ∈ idx ++ [i], k < x.rows ∧ k < y.rows) :
    ∃ Q R : List Layer, adamTrain lr b1 b2 eps x y idx P = .ok Q ∧ adamTrain lr b1 b2 eps x y (idx ++ [i]) P = .ok R ∧
      Q.length = P.length ∧ R.length = P.length ∧
      ∀ (l : Nat) (A B : Layer), Q[l]? = some A → R[l]? = some B →
        (∀ r < A.w.rows, ∀ c < A.w.cols, |B.w.e r c - A.w.e r c| ≤ lr * Real.sqrt ((1 - b1) / (1 - b2))) ∧
        (∀ r < A.b.rows, ∀ c < A.b.cols, |B.b.e r c - A.b.e r c| ≤ lr * Real.sqrt ((1 - b1) / (1 - b2))) := by
  obtain ⟨Q, G, q1, q2, q3, q4, q5⟩ := C52_network lr b1 b2 eps x y hS hx hk hy idx fun k hk => hidx k (List.mem_append_left _ hk)
  obtain ⟨R, G', r1, r2, r3, r4, r5⟩ := C52_network lr b1 b2 eps x y hS hx hk hy (idx ++ [i]) hidx
  obtain ⟨g, rfl⟩ := grads_unique q3 r3 q4 r4
  have lP := shaped_length _ P hS
  have lQ := shaped_length _ Q q2
  have lR := shaped_length _ R r2
  refine ⟨Q, R, q1, r1, by omega, by omega, fun l A B hA hB => ?_⟩
  have hl : l < P.length := by
    have := (List.getElem?_eq_some_iff.1 hA).1
    omega
  have hL := List.getElem?_eq_getElem hl
  obtain ⟨⟨s1, s2⟩, s3, s4⟩ := shaped_shape _ P Q hS q2 l _ A hL hA
  obtain ⟨a1, a2⟩ := q5 l _ A hL hA
  obtain ⟨b1', b2'⟩ := r5 l _ B hL hB
  refine ⟨fun r hr c hc => ?_, fun r hr c hc => ?_⟩
  · rw [s1] at hr; rw [s2] at hc
    rw [a1 r hr c hc, b1' r hr c hc, List.map_append, List.map_singleton]
    exact adam_step_bound lr b1 b2 eps _ hlr h1 h12 h2 heps _ _
  · rw [s3] at hr; rw [s4] at hc
    rw [a2 r hr c hc, b2' r hr c hc, List.map_append, List.map_singleton]
    exact adam_step_bound lr b1 b2 eps _ hlr h1 h12 h2 heps _ _

/-- The library's defaults meet the hypotheses, and for them the bound is ten times the learning rate. -/
example : (0 : ℝ) ≤ 0.001 ∧ (0 : ℝ) ≤ 0.9 ∧ (0.9 : ℝ) ≤ 0.999 ∧ (0.999 : ℝ) < 1 ∧ (0 : ℝ) < 0.0000001 ∧
    Real.sqrt ((1 - 0.9) / (1 - 0.999)) = 10 := by
  refine ⟨by norm_num, by norm_num, by norm_num, by norm_num, by norm_num, ?_⟩
  rw [show ((1 - 0.9) / (1 - 0.999) : ℝ) = 10 ^ 2 by norm_num]
  exact Real.sqrt_sq (by norm_num)

/-- C236: over a whole training of `idx.length` epochs no weight and no bias moves by more than
`idx.length * learning_rate * sqrt((1 - β₁)/(1 - β₂))`: however large the data, the trained network stays in a fixed box around the
initial one. -/
theorem C236_total_drift (lr b1 b2 eps : ℝ) (hlr : 0 ≤ lr) (h1 : 0 ≤ b1) (h12 : b1 ≤ b2) (h2 : b2 < 1) (heps : 0 < eps)
    {d m : Nat} {rest : List Nat} {P : List Layer} (x y : Mat) (hS : Shaped (d :: m :: rest) P) (hx : x.cols = d)
    (hk : 0 < lastSize (d :: m :: rest)) (hy : y.cols = lastSize (d :: m :: rest) ∨ y.cols = 1) (idx : List Nat)
    (hidx : ∀ k ∈ idx, k < x.rows ∧ k < y.rows) :
    ∃ Q : List Layer, adamTrain lr b1 b2 eps x y idx P = .ok Q ∧ Q.length = P.length ∧
      ∀ (l : Nat) (L A : Layer), P[l]? = some L → Q[l]? = some A →
        (∀ r < L.w.rows, ∀ c < L.w.cols, |A.w.e r c - L.w.e r c| ≤ idx.length * (lr * Real.sqrt ((1 - b1) / (1 - b2)))) ∧
        (∀ r < L.b.rows, ∀ c < L.b.cols, |A.b.e r c - L.b.e r c| ≤ idx.length * (lr * Real.sqrt ((1 - b1) / (1 - b2)))) := by
  obtain ⟨Q, G, q1, q2, q3, q4, q5⟩ := C52_network lr b1 b2 eps x y hS hx hk hy idx hidx
  have lP := shaped_length _ P hS
  have lQ := shaped_length _ Q q2
  have key : ∀ (p0 : ℝ) (gs : List ℝ), |(adamRun lr b1 b2 eps p0 gs).1.p - p0| ≤ gs.length * (lr * Real.sqrt ((1 - b1) / (1 - b2))) := by
    intro p0 gs
    induction gs using List.reverseRecOn with
    | nil => simp [adamRun]
    | append_singleton gs g ih =>
      have hs := adam_step_bound lr b1 b2 eps p0 hlr h1 h12 h2 heps gs g
      have ht := abs_sub_le (adamRun lr b1 b2 eps p0 (gs ++ [g])).1.p (adamRun lr b1 b2 eps p0 gs).1.p p0
      rw [List.length_append, List.length_singleton]
      push_cast
      linarith
  refine ⟨Q, q1, by omega, fun l L A hL hA => ?_⟩
  obtain ⟨a1, a2⟩ := q5 l L A hL hA
  refine ⟨fun r hr c hc => ?_, fun r hr c hc => ?_⟩
  · rw [a1 r hr c hc, ← q3, ← List.length_map (f := weightGrad l r c)]
    exact key _ _
  · rw [a2 r hr c hc, ← q3, ← List.length_map (f := biasGrad l r c)]
    exact key _ _

end CML.Net
