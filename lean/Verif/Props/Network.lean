import Verif.Lemmas.Network
import Mathlib.Tactic.NormNum
import Mathlib.Tactic.Positivity
import Mathlib.Analysis.Calculus.Deriv.Inv
import Mathlib.Data.Fin.VecNotation

set_option linter.unusedSectionVars false

/-! # Properties C49, C51, C52, C88–C91 of the back-propagation network -/

namespace CML.Net
open Finset

/-! ## C49 shapes -/

theorem shaped_ne_nil {d m : Nat} {rest : List Nat} {P : List Layer} (h : Shaped (d :: m :: rest) P) : P ≠ [] := by
  rintro rfl
  exact h

/-- Every initialiser produces, for every structure, weights of shape `(n_l, n_{l-1})` and biases of shape `(1, n_l)`, and the
biases are zero. -/
theorem C49_init_shapes (rnd : Nat → ℕ → ℕ → ℝ) : ∀ (sizes : List Nat) (l : Nat), sizes ≠ [] →
    Shaped sizes (initLayers rnd l sizes) ∧ ∀ L ∈ initLayers rnd l sizes, ∀ i j, L.b.e i j = 0 := by
  intro sizes
  induction sizes with
  | nil => intro _ h; exact absurd rfl h
  | cons d rest ih =>
    intro l _
    cases rest with
    | nil => exact ⟨trivial, fun L hL => by simp [initLayers] at hL⟩
    | cons m rest =>
      obtain ⟨h1, h2⟩ := ih (l + 1) (by simp)
      refine ⟨⟨⟨rfl, rfl, rfl, rfl⟩, h1⟩, ?_⟩
      intro L hL
      rw [initLayers, List.mem_cons] at hL
      rcases hL with rfl | hL
      · intro i j; rfl
      · exact h2 L hL

/-- Forward propagation through a network of any depth, on a batch of any positive size, never meets incompatible shapes and
gives one row of `n_L` values per sample; those values are the output activation of the textbook network. -/
theorem C49_forward {d m : Nat} {rest : List Nat} {P : List Layer} (x : Mat) (hS : Shaped (d :: m :: rest) P) (hx : x.cols = d)
    (hn : 0 < x.rows) (hk : 0 < (d :: m :: rest).getLast (by simp)) :
    ∃ yp caches, forward x P = .ok (yp, caches) ∧ yp.rows = x.rows ∧ yp.cols = (d :: m :: rest).getLast (by simp) ∧
      ∀ i j, yp.e i j = if yp.cols = 1 then 1 / (1 + Real.exp (-logits P (x.e i) j)) else softmaxRow yp.cols (logits P (x.e i)) j := by
  have hl : ∀ (l : List Nat) (h : l ≠ []), l.getLast h = lastSize l := by
    intro l
    induction l with
    | nil => intro h; exact absurd rfl h
    | cons a l ih =>
      intro _
      cases l with
      | nil => rfl
      | cons b l => rw [List.getLast_cons (by simp)]; exact ih (by simp)
  rw [hl] at hk
  obtain ⟨yp, caches, h1, h2, -⟩ := forward_backward P _ x hS (shaped_ne_nil hS) (by simp [hx]) hn hk
  refine ⟨yp, caches, h1, by rw [h2], by rw [h2, hl], fun i j => ?_⟩
  subst h2
  dsimp only [outAct]
  split <;> rfl

/-- A batch with another number of features is refused with `ValueError`, whatever the depth. -/
theorem C49_wrong_width {d m : Nat} {rest : List Nat} {P : List Layer} (x : Mat) (hS : Shaped (d :: m :: rest) P) (hx : x.cols ≠ d) :
    forward x P = .error .valueError := by
  cases P with
  | nil => exact absurd rfl (shaped_ne_nil hS)
  | cons L Ls =>
    obtain ⟨⟨-, h2, -, -⟩, -⟩ := hS
    have : matmulT x L.w = .error .valueError := by rw [matmulT, if_neg (by rw [h2]; exact hx)]
    cases Ls <;> simp only [forward, this]

theorem bwd_update (lr : ℝ) (n : Nat) (G : (ℕ → ℕ → ℝ) → ℕ → ℕ → ℝ) (P : List Layer) : ∀ (sizes : List Nat) (A : ℕ → ℕ → ℝ),
    Shaped sizes P → update lr P (bwd n G P A).1 = .ok (moved (-lr) P (asLayers (bwd n G P A).1)) ∧
      Shaped sizes (moved (-lr) P (asLayers (bwd n G P A).1)) := by
  have step : ∀ (L : Layer) (da A : ℕ → ℕ → ℝ) (d m : Nat), (L.w.rows = m ∧ L.w.cols = d ∧ L.b.rows = 1 ∧ L.b.cols = m) →
      subInPlace lr L.w (gradOf n L da A).dw = .ok ⟨L.w.rows, L.w.cols, fun i j => L.w.e i j + -lr * (gradOf n L da A).dw.e i j⟩ ∧
      subInPlace lr L.b (gradOf n L da A).db = .ok ⟨L.b.rows, L.b.cols, fun i j => L.b.e i j + -lr * (gradOf n L da A).db.e i j⟩ := by
    intro L da A d m ⟨h1, h2, h3, h4⟩
    refine ⟨by rw [subInPlace, if_pos (by simp [gradOf])]; simp [gradOf, sub_eq_add_neg],
      by rw [subInPlace, if_pos (by simp [gradOf, h4, h1])]; simp [gradOf, sub_eq_add_neg, h3, h4, h1]⟩
  induction P with
  | nil => intro sizes A hS; exact ⟨rfl, hS⟩
  | cons L Ls ih =>
    intro sizes A hS
    match sizes, hS with
    | d :: m :: rest, ⟨h, hS'⟩ =>
      cases Ls with
      | nil =>
        obtain ⟨e1, e2⟩ := step L (G fun i => affine L (A i)) A d m h
        refine ⟨?_, h, hS'⟩
        simp only [bwd, update, e1, e2, moved, asLayers, List.map]
      | cons L' Ls' =>
        obtain ⟨e, hP'⟩ := ih _ (fun i r => max 0 (affine L (A i) r)) hS'
        obtain ⟨e1, e2⟩ := step L (fun i r => reluDiff ((bwd n G (L' :: Ls') (fun i r => max 0 (affine L (A i) r))).2 i r)
          (max 0 (affine L (A i) r))) A d m h
        refine ⟨?_, h, hP'⟩
        rw [bwd, update]
        simp only [e1, e2, e]
        rfl

/-- Training keeps every shape: from parameters of the right shapes, with labels as wide as the output layer and random indices
inside the data, stochastic gradient descent never raises, for any number of epochs, and the parameters keep their shapes. -/
theorem C49_training_keeps_shapes (lr : ℝ) (x y : Mat) {d m : Nat} {rest : List Nat} (hx : x.cols = d) (hk : 0 < lastSize (d :: m :: rest))
    (hy : y.cols = lastSize (d :: m :: rest)) (idx : List Nat) (hidx : ∀ i ∈ idx, i < x.rows ∧ i < y.rows) :
    ∀ P, Shaped (d :: m :: rest) P → ∃ P', sgdRun lr x y idx P = .ok P' ∧ Shaped (d :: m :: rest) P' := by
  induction idx with
  | nil => intro P hP; exact ⟨P, rfl, hP⟩
  | cons i is ih =>
    intro P hP
    have hi := hidx i (List.mem_cons_self ..)
    obtain ⟨yp, caches, h1, -, -, h4⟩ := forward_backward P _ (rowOf x i) hP (shaped_ne_nil hP) (by simp [rowOf, hx]) (by simp [rowOf]) hk
    have h5 := h4 (rowOf y i) rfl (Or.inl hy)
    obtain ⟨h6, h7⟩ := bwd_update lr 1 (outErr (lastSize (d :: m :: rest)) (rowOf y i).cols (rowOf y i).e) P _ (rowOf x i).e hP
    rw [sgdRun, sgdStep, if_neg (by omega), h1]
    simp only [h5]
    rw [show (rowOf x i).rows = 1 from rfl, h6]
    exact ih (fun j hj => hidx j (List.mem_cons_of_mem _ hj)) _ h7

/-! ## C51 the gradient of a multi-class network -/

theorem meanLoss_deriv {loss : (ℕ → ℝ) → (ℕ → ℝ) → ℝ} {n : Nat} (hn : 0 < n) {x y : ℕ → ℕ → ℝ} {G : (ℕ → ℕ → ℝ) → ℕ → ℕ → ℝ}
    {P : List Layer} {d : Nat} {sizes : List Nat} (hS : Shaped sizes P) (hP : P ≠ []) (hd : sizes.head? = some d)
    (hG : HeadOK loss n (lastSize sizes) y G) (hK : ∀ i < n, NoKink P (x i)) :
    IsGradientAt (fun Q => meanLoss loss n Q x y) P (bwd n G P x).1 := by
  intro D hD
  have h := bwd_deriv loss n hn y G P sizes d hS hP hd hG D hD (fun _ => x) (fun _ _ => 0)
    (fun i _ c _ => hasDerivAt_const _ _) hK
  have h' := h.div_const (n : ℝ)
  have hn' : (n : ℝ) ≠ 0 := by exact_mod_cast hn.ne'
  refine h'.congr_deriv ?_
  simp only [mul_zero, Finset.sum_const_zero, add_zero]
  field_simp

/-- For a network of any depth and any batch, with `k ≥ 2` outputs, label rows that sum to one (one-hot rows in particular) and
no hidden unit exactly at the kink of ReLU: the code's forward pass computes the softmax of the logits of the textbook network,
and its backward pass computes exactly the gradient, with respect to all weights and biases, of the mean categorical cross-entropy. -/
theorem C51_gradient {d m : Nat} {rest : List Nat} {P : List Layer} (x y : Mat) (hS : Shaped (d :: m :: rest) P) (hx : x.cols = d)
    (hn : 0 < x.rows) (hk : 2 ≤ lastSize (d :: m :: rest)) (hyr : y.rows = x.rows) (hyc : y.cols = lastSize (d :: m :: rest))
    (hy : ∀ i < x.rows, ∑ j ∈ range y.cols, y.e i j = 1) (hK : ∀ i < x.rows, NoKink P (x.e i)) :
    ∃ yp caches gs out, forward x P = .ok (yp, caches) ∧ (∀ i j, yp.e i j = softmaxRow y.cols (logits P (x.e i)) j) ∧
      backward yp y caches = .ok (gs, out) ∧
      IsGradientAt (fun Q => meanLoss (softmaxLoss y.cols) x.rows Q x.e y.e) P gs := by
  obtain ⟨yp, caches, h1, h2, -, h4⟩ := forward_backward P _ x hS (shaped_ne_nil hS) (by simp [hx]) hn (by omega)
  refine ⟨yp, caches, _, _, h1, ?_, h4 y hyr (Or.inl hyc), ?_⟩
  · intro i j
    rw [h2, hyc]
    dsimp only [outAct]
    rw [if_neg (by omega)]
  · have hE : outErr (lastSize (d :: m :: rest)) y.cols y.e = fun Z i j => softmaxRow y.cols (Z i) j - y.e i j := by
      funext Z
      unfold outErr
      rw [if_neg (by omega), hyc]
    rw [hE]
    refine meanLoss_deriv (d := d) hn hS (shaped_ne_nil hS) rfl ?_ hK
    rw [← hyc]
    exact head_softmax _ _ (by omega) _ hy

/-- The squared length of a gradient is not negative. -/
theorem inner_self_nonneg : ∀ (P : List Layer) (gs : List Grad), 0 ≤ inner P gs (asLayers gs)
  | [], _ => by simp [inner]
  | _ :: _, [] => by simp [inner]
  | L :: Ls, g :: gs => by
    have h := inner_self_nonneg Ls gs
    simp only [asLayers, List.map_cons, inner]
    refine add_nonneg (Finset.sum_nonneg fun r _ => add_nonneg (Finset.sum_nonneg fun c _ => mul_self_nonneg _) (mul_self_nonneg _)) h

theorem bwd_length (n : Nat) (G : (ℕ → ℕ → ℝ) → ℕ → ℕ → ℝ) (P : List Layer) : ∀ A, P ≠ [] → (bwd n G P A).1.length = P.length := by
  induction P with
  | nil => intro _ h; exact absurd rfl h
  | cons L Ls ih =>
    intro A _
    cases Ls with
    | nil => rfl
    | cons L' Ls' => rw [bwd, List.length_cons, ih _ (by simp)]; rfl

/-- One epoch of stochastic gradient descent on sample `i`: the parameters move by `-lr` times the gradient of the loss of the
sample, every entry of every weight and bias; the derivative of the loss along this movement is minus the squared length of
the gradient, so that it is never positive. -/
theorem C51_sgd_step (lr : ℝ) {d m : Nat} {rest : List Nat} {P : List Layer} (x y : Mat) (i : Nat) (hS : Shaped (d :: m :: rest) P)
    (hx : x.cols = d) (hk : 2 ≤ lastSize (d :: m :: rest)) (hyc : y.cols = lastSize (d :: m :: rest)) (hi : i < x.rows) (hi' : i < y.rows)
    (hy : ∑ j ∈ range y.cols, y.e i j = 1) (hK : NoKink P (x.e i)) :
    ∃ gs : List Grad, IsGradientAt (fun Q => softmaxLoss y.cols (y.e i) (logits Q (x.e i))) P gs ∧
      sgdStep lr x y P i = .ok (moved (-lr) P (asLayers gs)) ∧
      HasDerivAt (fun t => softmaxLoss y.cols (y.e i) (logits (moved t P (asLayers gs)) (x.e i))) (inner P gs (asLayers gs)) 0 ∧
      0 ≤ inner P gs (asLayers gs) := by
  obtain ⟨yp, caches, h1, -, -, h4⟩ := forward_backward P _ (rowOf x i) hS (shaped_ne_nil hS) (by simp [rowOf, hx]) (by simp [rowOf]) (by omega)
  have h5 := h4 (rowOf y i) rfl (Or.inl hyc)
  have h6 := (bwd_update lr 1 (outErr (lastSize (d :: m :: rest)) (rowOf y i).cols (rowOf y i).e) P _ (rowOf x i).e hS).1
  have hE : outErr (lastSize (d :: m :: rest)) (rowOf y i).cols (rowOf y i).e = fun Z l j => softmaxRow y.cols (Z l) j - (rowOf y i).e l j := by
    funext Z
    unfold outErr
    rw [if_neg (by show ¬ y.cols = 1; omega), hyc]
  have hg : IsGradientAt (fun Q => softmaxLoss y.cols (y.e i) (logits Q (x.e i))) P
      (bwd 1 (outErr (lastSize (d :: m :: rest)) (rowOf y i).cols (rowOf y i).e) P (rowOf x i).e).1 := by
    rw [hE]
    have := meanLoss_deriv (loss := softmaxLoss y.cols) (n := 1) one_pos (x := (rowOf x i).e) (y := (rowOf y i).e) (d := d) hS (shaped_ne_nil hS) rfl
      (by rw [← hyc]; exact head_softmax 1 y.cols (by omega) _ (fun _ _ => hy)) (fun _ _ => hK)
    simp only [meanLoss, Finset.sum_range_one, Nat.cast_one, div_one] at this
    exact this
  refine ⟨_, hg, ?_, hg _ ?_, inner_self_nonneg _ _⟩
  · rw [sgdStep, if_neg (by omega), h1]
    simp only [h5]
    exact h6
  · rw [asLayers, List.length_map, bwd_length _ _ _ _ (shaped_ne_nil hS)]

/-- The hypotheses are met: two features, two hidden units, three classes. -/
example : ∃ (P : List Layer) (x y : Mat), Shaped [2, 2, 3] P ∧ x.cols = 2 ∧ 0 < x.rows ∧ y.rows = x.rows ∧ y.cols = 3 ∧
    (∀ i < x.rows, ∑ j ∈ range y.cols, y.e i j = 1) ∧ (∀ i < x.rows, NoKink P (x.e i)) := by
  refine ⟨[⟨⟨2, 2, fun r c => if r = c then 1 else 0⟩, ⟨1, 2, fun _ _ => 0⟩⟩, ⟨⟨3, 2, fun _ _ => 1⟩, ⟨1, 3, fun _ _ => 0⟩⟩],
    ⟨1, 2, fun _ c => if c = 0 then 1 else -1⟩, ⟨1, 3, fun _ j => if j = 1 then 1 else 0⟩, ?_, rfl, by simp, rfl, rfl, ?_, ?_⟩
  · simp [Shaped]
  · intro i _; simp
  · intro i _
    refine ⟨?_, trivial⟩
    intro r hr
    simp only [affine, Finset.sum_range_succ, Finset.sum_range_zero]
    have : r = 0 ∨ r = 1 := by simp only at hr; omega
    rcases this with rfl | rfl <;> norm_num

/-! ## C88 the gradient of a binary network -/

/-- The factor between the code's output error and the true one. -/
theorem outErr_binary {p y : ℝ} (h0 : 0 < p) (h1 : p < 1) (hy : y = 0 ∨ y = 1) :
    p * (1 - p) * (-(y / p - (1 - y) / (1 - p)) - p) = (if y = 0 then 1 - p + p ^ 2 else 1 + p ^ 2) * (p - y) := by
  have h2 : (1 - p) ≠ 0 := by linarith
  have h3 : p ≠ 0 := h0.ne'
  rcases hy with rfl | rfl
  · rw [if_pos rfl]; field_simp; ring
  · rw [if_neg one_ne_zero]; field_simp; ring

/-- What does hold: for one sample — the case of stochastic gradient descent — with a label in `{0, 1}` the gradient of the
code is the true gradient of the binary cross-entropy times a factor between 3/4 and 2: each step goes against the gradient. -/
theorem C88_binary_direction_partial {d m : Nat} {rest : List Nat} {P : List Layer} (x y : Mat) (i : Nat) (hS : Shaped (d :: m :: rest) P)
    (hx : x.cols = d) (hk : lastSize (d :: m :: rest) = 1) (hyc : y.cols = 1) (hy : y.e i 0 = 0 ∨ y.e i 0 = 1) (hK : NoKink P (x.e i)) :
    ∃ yp caches gs out, forward (rowOf x i) P = .ok (yp, caches) ∧ backward yp (rowOf y i) caches = .ok (gs, out) ∧
      ∃ s : ℝ, 3 / 4 ≤ s ∧ s ≤ 2 ∧ ∃ gTrue, IsGradientAt (fun Q => sigmoidLoss (y.e i) (logits Q (x.e i))) P gTrue ∧
        ∀ D, inner P gs D = s * inner P gTrue D := by
  obtain ⟨yp, caches, h1, h2, -, h4⟩ := forward_backward P _ (rowOf x i) hS (shaped_ne_nil hS) (by simp [rowOf, hx]) (by simp [rowOf]) (by omega)
  set p := sigmoid (logits P (x.e i) 0) with hp
  have p0 : 0 < p := LogReg.sigmoid_pos _
  have p1 : p < 1 := LogReg.sigmoid_lt_one _
  refine ⟨yp, caches, _, _, h1, h4 (rowOf y i) rfl (Or.inr hyc), if y.e i 0 = 0 then 1 - p + p ^ 2 else 1 + p ^ 2, ?_, ?_,
    (bwd 1 (fun Z l j => sigmoid (Z l j) - (rowOf y i).e l j) P (rowOf x i).e).1, ?_, ?_⟩
  · split <;> nlinarith [sq_nonneg (p - 1 / 2)]
  · split <;> nlinarith
  · have := meanLoss_deriv (loss := sigmoidLoss) (n := 1) one_pos (x := (rowOf x i).e) (y := (rowOf y i).e) (d := d) hS (shaped_ne_nil hS) rfl
      (by rw [hk]; exact head_sigmoid 1 _) (fun _ _ => hK)
    simp only [meanLoss, Finset.sum_range_one, Nat.cast_one, div_one] at this
    exact this
  · refine (bwd_smul 1 _ _ _ P (rowOf x i).e (shaped_ne_nil hS) ?_).1
    intro l hl j hj
    have hl0 : l = 0 := by omega
    subst hl0
    have hlast : ∀ (Q : List Layer) (sz : List Nat), Shaped sz Q → Q ≠ [] → ∀ L ∈ Q.getLast?, L.w.rows = lastSize sz := by
      intro Q
      induction Q with
      | nil => intro _ _ h; exact absurd rfl h
      | cons L Ls ih =>
        intro sz hSz _
        match sz, hSz with
        | d :: m :: rest, ⟨h, hS'⟩ =>
          cases Ls with
          | nil =>
            intro L' hL'
            have : L = L' := by simpa using hL'
            subst this
            match rest, hS' with
            | [], _ => exact h.1
          | cons L2 Ls2 =>
            intro L' hL'
            have := ih (m :: rest) hS' (by simp) L' (by simpa using hL')
            exact this
    have hj0 : j = 0 := by
      obtain ⟨L, hL⟩ : ∃ L, P.getLast? = some L := by
        cases P with
        | nil => exact absurd rfl (shaped_ne_nil hS)
        | cons a l => exact ⟨_, List.getLast?_eq_some_getLast (by simp)⟩
      have h1 := hj L hL
      rw [hlast P _ hS (shaped_ne_nil hS) L hL, hk] at h1
      omega
    subst hj0
    simp only [hk, outErr, show (rowOf y i).cols = 1 from hyc, if_true, outAct]
    exact outErr_binary p0 p1 hy

/-- C88 fails as it stands: the gradient of the code is not a gradient of the binary cross-entropy.  One feature `x = 1`, label
0, one unit with zero weights: the code gives 3/8 for the bias, the derivative is 1/2. -/
theorem C88_not_the_gradient : ∃ (P : List Layer) (x y : Mat), Shaped [1, 1] P ∧ x.rows = 1 ∧ x.cols = 1 ∧ y.rows = 1 ∧ y.cols = 1 ∧
    y.e 0 0 = 0 ∧ NoKink P (x.e 0) ∧
    ∃ yp caches gs out, forward x P = .ok (yp, caches) ∧ backward yp y caches = .ok (gs, out) ∧
      ¬ IsGradientAt (fun Q => meanLoss sigmoidLoss 1 Q x.e y.e) P gs := by
  let L : Layer := ⟨⟨1, 1, fun _ _ => 0⟩, ⟨1, 1, fun _ _ => 0⟩⟩
  have hS : Shaped [1, 1] [L] := by simp [Shaped, L]
  have half : sigmoid 0 = 1 / 2 := by unfold sigmoid; norm_num
  obtain ⟨yp, caches, h1, h2, -, h4⟩ := forward_backward [L] [1, 1] ⟨1, 1, fun _ _ => 1⟩ hS (by simp) rfl (by simp) (by simp [lastSize])
  refine ⟨[L], ⟨1, 1, fun _ _ => 1⟩, ⟨1, 1, fun _ _ => 0⟩, hS, rfl, rfl, rfl, rfl, rfl, trivial, yp, caches, _, _, h1,
    h4 ⟨1, 1, fun _ _ => 0⟩ rfl (Or.inl rfl), ?_⟩
  intro hgrad
  have htrue := meanLoss_deriv (loss := sigmoidLoss) (n := 1) one_pos (x := fun _ _ => 1) (y := fun _ _ => 0) (P := [L]) (d := 1) hS (by simp) rfl
    (head_sigmoid 1 _) (fun _ _ => trivial)
  let D : Layer := ⟨⟨1, 1, fun _ _ => 0⟩, ⟨1, 1, fun _ _ => 1⟩⟩
  have := (hgrad [D] rfl).unique (htrue [D] rfl)
  simp [inner, bwd, gradOf, outErr, outAct, lastSize, L, D, affine, half] at this
  norm_num at this

/-! ## C89 integer labels for a multi-class network -/

/-- All biases of the last layer move together. -/
def lastOnes : List Layer → List Layer
  | [] => []
  | [_] => [⟨⟨0, 0, fun _ _ => 0⟩, ⟨0, 0, fun _ _ => 1⟩⟩]
  | _ :: L :: Ls => ⟨⟨0, 0, fun _ _ => 0⟩, ⟨0, 0, fun _ _ => 0⟩⟩ :: lastOnes (L :: Ls)

theorem lastOnes_length : ∀ P : List Layer, (lastOnes P).length = P.length
  | [] => rfl
  | [_] => rfl
  | _ :: L :: Ls => by rw [lastOnes, List.length_cons, lastOnes_length (L :: Ls), List.length_cons (as := L :: Ls)]

theorem logits_lastOnes (t : ℝ) : ∀ (P : List Layer) (x : ℕ → ℝ), P ≠ [] → ∀ j, logits (moved t P (lastOnes P)) x j = logits P x j + t
  | [], _, h, _ => absurd rfl h
  | [L], x, _, j => by simp [lastOnes, moved, logits, affine]; ring
  | L :: L' :: Ls, x, _, j => by
    have ih := logits_lastOnes t (L' :: Ls) (fun r => max 0 (affine L x r)) (by simp) j
    rw [logits, ← ih]
    cases Ls <;> simp [lastOnes, moved, logits, affine]

theorem inner_lastOnes (n : Nat) (G : (ℕ → ℕ → ℝ) → ℕ → ℕ → ℝ) (P : List Layer) : ∀ (sizes : List Nat) (A : ℕ → ℕ → ℝ), P ≠ [] → Shaped sizes P →
    inner P (bwd n G P A).1 (lastOnes P) = ∑ r ∈ range (lastSize sizes), (∑ l ∈ range n, G (fun i => logits P (A i)) l r) / (n : ℝ) := by
  induction P with
  | nil => intro _ _ h; exact absurd rfl h
  | cons L Ls ih =>
    intro sizes A _ hS
    match sizes, hS with
    | d :: m :: rest, ⟨h, hS'⟩ =>
      cases Ls with
      | nil =>
        match rest, hS' with
        | [], _ => simp [bwd, inner, lastOnes, gradOf, logits, lastSize, h.1]
      | cons L' Ls' =>
        have := ih _ (fun i r => max 0 (affine L (A i) r)) (by simp) hS'
        rw [show lastSize (d :: m :: rest) = lastSize (m :: rest) from rfl, bwd, lastOnes, inner]
        simp only [mul_zero, Finset.sum_const_zero, add_zero, zero_add]
        exact this

theorem softmaxRow_pos {k : Nat} (hk : 0 < k) (z : ℕ → ℝ) (j : ℕ) : 0 < softmaxRow k z j :=
  div_pos (Real.exp_pos _) (Finset.sum_pos (fun _ _ => Real.exp_pos _) ⟨0, Finset.mem_range.2 hk⟩)

theorem softmaxRow_lt_one {k : Nat} (hk : 2 ≤ k) (z : ℕ → ℝ) (j : ℕ) (hj : j < k) : softmaxRow k z j < 1 := by
  unfold softmaxRow
  rw [div_lt_one (Finset.sum_pos (fun _ _ => Real.exp_pos _) ⟨0, Finset.mem_range.2 (by omega)⟩)]
  obtain ⟨l, hl, hne⟩ : ∃ l, l < k ∧ l ≠ j := by
    by_cases h : j = 0
    · exact ⟨1, by omega, by omega⟩
    · exact ⟨0, by omega, by omega⟩
  exact Finset.single_lt_sum (Ne.symm (Ne.symm hne)) (Finset.mem_range.2 hj) (Finset.mem_range.2 hl) (Real.exp_pos _) (fun _ _ _ => (Real.exp_pos _).le)

/-- A multi-class network fitted with a column of class numbers: no error is raised, and whatever the network (any depth, any
parameters), the sample and the class number, the gradient of the code is *not* the gradient of the categorical cross-entropy
for any label distribution `t` — not even for the class meant by the label. -/
theorem C89_integer_labels_accepted (lr : ℝ) {d m : Nat} {rest : List Nat} {P : List Layer} (x y : Mat) (i : Nat) (hS : Shaped (d :: m :: rest) P)
    (hx : x.cols = d) (hk : 2 ≤ lastSize (d :: m :: rest)) (hyc : y.cols = 1) (c : ℤ) (hy : y.e i 0 = (c : ℝ)) (hi : i < x.rows) (hi' : i < y.rows) :
    ∃ yp caches gs out P', forward (rowOf x i) P = .ok (yp, caches) ∧ backward yp (rowOf y i) caches = .ok (gs, out) ∧
      sgdStep lr x y P i = .ok P' ∧
      ∀ t : ℕ → ℝ, ¬ IsGradientAt (fun Q => softmaxLoss (lastSize (d :: m :: rest)) t (logits Q (x.e i))) P gs := by
  obtain ⟨yp, caches, h1, -, -, h4⟩ := forward_backward P _ (rowOf x i) hS (shaped_ne_nil hS) (by simp [rowOf, hx]) (by simp [rowOf]) (by omega)
  have h5 := h4 (rowOf y i) rfl (Or.inr hyc)
  have h6 := (bwd_update lr 1 (outErr (lastSize (d :: m :: rest)) (rowOf y i).cols (rowOf y i).e) P _ (rowOf x i).e hS).1
  have h7 : sgdStep lr x y P i = update lr P (bwd 1 (outErr (lastSize (d :: m :: rest)) (rowOf y i).cols (rowOf y i).e) P (rowOf x i).e).1 := by
    rw [sgdStep, if_neg (by omega), h1]
    simp only [h5]
    rfl
  refine ⟨yp, caches, _, _, _, h1, h5, h7.trans h6, ?_⟩
  · intro t hgrad
    have hd := hgrad (lastOnes P) (lastOnes_length P)
    have hconst : (fun s => softmaxLoss (lastSize (d :: m :: rest)) t (logits (moved s P (lastOnes P)) (x.e i))) =
        fun _ => softmaxLoss (lastSize (d :: m :: rest)) t (logits P (x.e i)) := by
      funext s
      unfold softmaxLoss
      congr 1
      refine Finset.sum_congr rfl fun j _ => ?_
      congr 2
      rw [show logits (moved s P (lastOnes P)) (x.e i) = fun j => logits P (x.e i) j + s from funext (logits_lastOnes s P _ (shaped_ne_nil hS))]
      have := softmax_max (lastSize (d :: m :: rest)) (logits P (x.e i)) (-s) j
      simp only [sub_neg_eq_add] at this
      exact this
    rw [hconst] at hd
    have h0 := hd.unique (hasDerivAt_const _ _)
    rw [show (rowOf x i).rows = 1 from rfl, inner_lastOnes 1 _ P _ (rowOf x i).e (shaped_ne_nil hS) hS] at h0
    simp only [Finset.sum_range_one, Nat.cast_one, div_one, outErr, show (rowOf y i).cols = 1 from hyc, if_true, outAct,
      if_neg (show ¬ lastSize (d :: m :: rest) = 1 by omega)] at h0
    have hy' : (rowOf y i).e 0 0 = (c : ℝ) := hy
    rw [hy'] at h0
    have hne : (range (lastSize (d :: m :: rest))).Nonempty := ⟨0, Finset.mem_range.2 (by omega)⟩
    have hp0 := fun j => softmaxRow_pos (show 0 < lastSize (d :: m :: rest) by omega) (logits P ((rowOf x i).e 0)) j
    have hp1 := fun j => softmaxRow_lt_one hk (logits P ((rowOf x i).e 0)) j
    rcases le_or_gt c 0 with hc | hc
    · have hc' : (c : ℝ) ≤ 0 := by exact_mod_cast hc
      have : 0 < ∑ j ∈ range (lastSize (d :: m :: rest)), softmaxRow (lastSize (d :: m :: rest)) (logits P ((rowOf x i).e 0)) j *
          (1 - softmaxRow (lastSize (d :: m :: rest)) (logits P ((rowOf x i).e 0)) j) *
          (-((c : ℝ) / softmaxRow (lastSize (d :: m :: rest)) (logits P ((rowOf x i).e 0)) j -
            (1 - (c : ℝ)) / (1 - softmaxRow (lastSize (d :: m :: rest)) (logits P ((rowOf x i).e 0)) j)) -
            softmaxRow (lastSize (d :: m :: rest)) (logits P ((rowOf x i).e 0)) j) := by
        refine Finset.sum_pos (fun j hj => ?_) hne
        have a0 := hp0 j
        have a1 := hp1 j (Finset.mem_range.1 hj)
        generalize softmaxRow (lastSize (d :: m :: rest)) (logits P ((rowOf x i).e 0)) j = p at a0 a1
        have hq : 0 < 1 - p := by linarith
        refine mul_pos (mul_pos a0 hq) ?_
        have b1 : (c : ℝ) / p ≤ 0 := div_nonpos_of_nonpos_of_nonneg hc' a0.le
        have b2 : 1 ≤ (1 - (c : ℝ)) / (1 - p) := by rw [le_div_iff₀ hq]; linarith
        linarith
      exact absurd h0 this.ne'
    · have hc' : (1 : ℝ) ≤ (c : ℝ) := by exact_mod_cast hc
      have : ∑ j ∈ range (lastSize (d :: m :: rest)), softmaxRow (lastSize (d :: m :: rest)) (logits P ((rowOf x i).e 0)) j *
          (1 - softmaxRow (lastSize (d :: m :: rest)) (logits P ((rowOf x i).e 0)) j) *
          (-((c : ℝ) / softmaxRow (lastSize (d :: m :: rest)) (logits P ((rowOf x i).e 0)) j -
            (1 - (c : ℝ)) / (1 - softmaxRow (lastSize (d :: m :: rest)) (logits P ((rowOf x i).e 0)) j)) -
            softmaxRow (lastSize (d :: m :: rest)) (logits P ((rowOf x i).e 0)) j) < 0 := by
        refine Finset.sum_neg (fun j hj => ?_) hne
        have a0 := hp0 j
        have a1 := hp1 j (Finset.mem_range.1 hj)
        generalize softmaxRow (lastSize (d :: m :: rest)) (logits P ((rowOf x i).e 0)) j = p at a0 a1
        have hq : 0 < 1 - p := by linarith
        refine mul_neg_of_pos_of_neg (mul_pos a0 hq) ?_
        have b1 : 0 < (c : ℝ) / p := div_pos (by linarith) a0
        have b2 : (1 - (c : ℝ)) / (1 - p) ≤ 0 := div_nonpos_of_nonpos_of_nonneg (by linarith) hq.le
        linarith
      exact absurd h0 this.ne

/-- What does hold: label rows whose width is neither 1 nor the number of outputs are refused with `ValueError`, and for label
rows of the right width the gradient is the true one (`C51_gradient`). -/
theorem C89_wrong_label_width_partial {d m : Nat} {rest : List Nat} {P : List Layer} (x y : Mat) (hS : Shaped (d :: m :: rest) P)
    (hx : x.cols = d) (hn : 0 < x.rows) (hk : 2 ≤ lastSize (d :: m :: rest)) (hyr : y.rows = x.rows) (hyc : y.cols ≠ 1)
    (hyc' : y.cols ≠ lastSize (d :: m :: rest)) :
    ∃ yp caches, forward x P = .ok (yp, caches) ∧ backward yp y caches = .error .valueError := by
  obtain ⟨yp, caches, h1, h2, h3, -⟩ := forward_backward P _ x hS (shaped_ne_nil hS) (by simp [hx]) hn (by omega)
  refine ⟨yp, caches, h1, ?_⟩
  have hE : outputError yp y yp = .error .valueError := by
    rw [outputError, if_neg hyc, zipWith, h2]
    simp only [hyr, ne_eq, not_true_eq_false, if_false]
    rw [if_neg (Ne.symm hyc'), if_neg hyc, if_neg (by omega)]
  have hlast : ∀ (P : List Layer) (x yp : Mat) (cs : List Cache), forward x P = .ok (yp, cs) → ∀ c ∈ cs.getLast?, c.a = yp := by
    intro P
    induction P with
    | nil => intro x yp cs h; simp [forward] at h
    | cons L Ls ih =>
      intro x yp cs h
      cases Ls with
      | nil =>
        simp only [forward] at h
        split at h
        · simp at h
        · split at h
          · simp at h
          · split at h
            · simp only [Except.ok.injEq, Prod.mk.injEq] at h
              obtain ⟨rfl, rfl⟩ := h
              simp
            · split at h
              · simp at h
              · simp only [Except.ok.injEq, Prod.mk.injEq] at h
                obtain ⟨rfl, rfl⟩ := h
                simp
      | cons L' Ls' =>
        rw [forward] at h
        split at h
        · simp at h
        · split at h
          · simp at h
          · dsimp only at h
            split at h
            · simp at h
            · rename_i yp' cs' hf
              simp only [Except.ok.injEq, Prod.mk.injEq] at h
              obtain ⟨rfl, rfl⟩ := h
              have := ih _ _ _ hf
              cases cs' with
              | nil => intro c hc; exfalso; obtain ⟨_, _⟩ := Ls' <;> simp only [forward] at hf <;> (repeat' split at hf) <;> simp at hf
              | cons c' cs'' => simpa using this
  have hback : ∀ cs : List Cache, cs ≠ [] → (∀ c ∈ cs.getLast?, c.a = yp) → backward yp y cs = .error .valueError := by
    intro cs
    induction cs with
    | nil => intro h; exact absurd rfl h
    | cons c cs ih =>
      intro _ hc
      cases cs with
      | nil => rw [backward, hc c (by simp), hE]
      | cons c' cs' => rw [backward, ih (by simp) (by simpa using hc)]
  exact hback caches h3 (hlast P x yp caches h1)

/-- With fewer labels than samples the training stops with `IndexError` as soon as a sample without a label is drawn, and an
index is valid if and only if there is a sample and a label. -/
theorem C89_missing_labels (lr : ℝ) {d m : Nat} {rest : List Nat} {P : List Layer} (x y : Mat) (i : Nat) (hS : Shaped (d :: m :: rest) P)
    (hx : x.cols = d) (hk : 0 < lastSize (d :: m :: rest)) (hyc : y.cols = lastSize (d :: m :: rest)) :
    (sgdStep lr x y P i = .error .indexError ↔ x.rows ≤ i ∨ y.rows ≤ i) ∧
    ((∃ P', sgdStep lr x y P i = .ok P') ↔ i < x.rows ∧ i < y.rows) := by
  have h1 : x.rows ≤ i ∨ y.rows ≤ i → sgdStep lr x y P i = .error .indexError := fun h => by rw [sgdStep, if_pos h]
  have h2 : i < x.rows ∧ i < y.rows → ∃ P', sgdStep lr x y P i = .ok P' := by
    intro h
    obtain ⟨P', hP, -⟩ := C49_training_keeps_shapes lr x y hx hk hyc [i] (by simpa using h) P hS
    rw [sgdRun] at hP
    cases hs : sgdStep lr x y P i with
    | error e => rw [hs] at hP; simp at hP
    | ok Q => exact ⟨Q, rfl⟩
  by_cases h : x.rows ≤ i ∨ y.rows ≤ i
  · have e := h1 h
    exact ⟨⟨fun _ => h, fun _ => e⟩, ⟨fun ⟨P', hP⟩ => (by rw [e] at hP; simp at hP), fun h' => (by omega)⟩⟩
  · obtain ⟨Q, hQ⟩ := h2 (by omega)
    exact ⟨⟨fun h' => (by rw [hQ] at h'; simp at h'), fun h' => absurd h' h⟩, ⟨fun _ => (by omega), fun _ => ⟨Q, hQ⟩⟩⟩

/-! ## C90 predictions are row by row -/

/-- The prediction for a row depends on that row only, not on the other rows of the batch (although `np.max` in softmax ranges over
the whole batch): the prediction of the one-row batch is the row of the prediction of the batch. -/
theorem C90_rowwise {d m : Nat} {rest : List Nat} {P : List Layer} (x : Mat) (hS : Shaped (d :: m :: rest) P) (hx : x.cols = d)
    (hk : 0 < lastSize (d :: m :: rest)) (i : Nat) (hi : i < x.rows) :
    ∃ yp c yp' c', forward x P = .ok (yp, c) ∧ forward (rowOf x i) P = .ok (yp', c') ∧ yp'.cols = yp.cols ∧ ∀ j, yp'.e 0 j = yp.e i j := by
  obtain ⟨yp, c, h1, h2, -⟩ := forward_backward P _ x hS (shaped_ne_nil hS) (by simp [hx]) (by omega) hk
  obtain ⟨yp', c', h1', h2', -⟩ := forward_backward P _ (rowOf x i) hS (shaped_ne_nil hS) (by simp [rowOf, hx]) (by simp [rowOf]) hk
  refine ⟨yp, c, yp', c', h1, h1', by rw [h2, h2'], fun j => ?_⟩
  rw [h2, h2']
  dsimp only [outAct]
  split <;> rfl

/-- Every output of a network is strictly between 0 and 1, and the outputs of a row of a multi-class network sum to 1. -/
theorem C90_probabilities {d m : Nat} {rest : List Nat} {P : List Layer} (x : Mat) (hS : Shaped (d :: m :: rest) P) (hx : x.cols = d)
    (hn : 0 < x.rows) (hk : 0 < lastSize (d :: m :: rest)) :
    ∃ yp c, forward x P = .ok (yp, c) ∧ (∀ i, ∀ j < yp.cols, 0 < yp.e i j ∧ yp.e i j < 1) ∧
      (2 ≤ lastSize (d :: m :: rest) → ∀ i, ∑ j ∈ range yp.cols, yp.e i j = 1) := by
  obtain ⟨yp, c, h1, h2, -⟩ := forward_backward P _ x hS (shaped_ne_nil hS) (by simp [hx]) hn hk
  refine ⟨yp, c, h1, ?_, ?_⟩
  · intro i j hj
    rw [h2] at hj ⊢
    dsimp only [outAct] at hj ⊢
    split
    · exact ⟨LogReg.sigmoid_pos _, LogReg.sigmoid_lt_one _⟩
    · exact ⟨softmaxRow_pos hk _ _, softmaxRow_lt_one (by omega) _ _ hj⟩
  · intro h i
    rw [h2]
    dsimp only [outAct]
    rw [if_neg (by omega)]
    unfold softmaxRow
    rw [← Finset.sum_div, div_self]
    exact (Finset.sum_pos (fun _ _ => Real.exp_pos _) ⟨0, Finset.mem_range.2 hk⟩).ne'

/-! ## C52 Adam -/

/-- The state after `t` epochs. -/
theorem adamRun_append (lr b1 b2 eps p0 : ℝ) (gs : List ℝ) (g : ℝ) :
    adamRun lr b1 b2 eps p0 (gs ++ [g]) = (adamStep lr b1 b2 eps ((adamRun lr b1 b2 eps p0 gs).2 + 1) (adamRun lr b1 b2 eps p0 gs).1 g,
      (adamRun lr b1 b2 eps p0 gs).2 + 1) := by
  unfold adamRun
  rw [List.foldl_append]
  rfl

theorem adamRun_count (lr b1 b2 eps p0 : ℝ) (gs : List ℝ) : (adamRun lr b1 b2 eps p0 gs).2 = gs.length := by
  induction gs using List.reverseRecOn with
  | nil => rfl
  | append_singleton gs g ih => rw [adamRun_append, ih]; simp

/-- At every epoch the second moment is non-negative, the bias correction `1 - β₂^t` is positive and the denominator of the
step is positive: the step is always defined. -/
theorem C52_denominator_pos (lr b1 b2 eps p0 : ℝ) (h2 : 0 ≤ b2) (h2' : b2 < 1) (heps : 0 < eps) (gs : List ℝ) :
    0 ≤ (adamRun lr b1 b2 eps p0 gs).1.v ∧
    (gs ≠ [] → 0 < 1 - b2 ^ gs.length ∧ 0 < Real.sqrt ((adamRun lr b1 b2 eps p0 gs).1.v / (1 - b2 ^ gs.length)) + eps) := by
  refine ⟨?_, fun hne => ⟨?_, by positivity⟩⟩
  · induction gs using List.reverseRecOn with
    | nil => exact le_refl _
    | append_singleton gs g ih =>
      rw [adamRun_append]
      show 0 ≤ b2 * _ + (1 - b2) * g ^ 2
      have : 0 ≤ 1 - b2 := by linarith
      positivity
  · have := pow_lt_one₀ h2 h2' (n := gs.length) (by simpa using hne)
    linarith

/-- The bias-corrected first and second moments are convex combinations of the gradients seen so far and of their squares: there
are non-negative weights that sum to one. -/
theorem C52_moments_convex (lr b1 b2 eps p0 : ℝ) (h1 : 0 ≤ b1) (h1' : b1 < 1) (h2 : 0 ≤ b2) (h2' : b2 < 1) (gs : List ℝ) (hne : gs ≠ []) :
    (∃ w : Fin gs.length → ℝ, (∀ i, 0 ≤ w i) ∧ ∑ i, w i = 1 ∧
      (adamRun lr b1 b2 eps p0 gs).1.m / (1 - b1 ^ gs.length) = ∑ i, w i * gs[i]) ∧
    (∃ w : Fin gs.length → ℝ, (∀ i, 0 ≤ w i) ∧ ∑ i, w i = 1 ∧
      (adamRun lr b1 b2 eps p0 gs).1.v / (1 - b2 ^ gs.length) = ∑ i, w i * gs[i] ^ 2) := by
  have key : ∀ (b : ℝ) (h : 0 ≤ b) (h' : b < 1) (f : ℝ → ℝ) (S : List ℝ → ℝ), S [] = 0 → (∀ gs g, S (gs ++ [g]) = b * S gs + (1 - b) * f g) →
      ∀ gs : List ℝ, S gs = ∑ i : Fin gs.length, (1 - b) * b ^ (gs.length - 1 - i.1) * f gs[i] := by
    intro b h h' f S h0 hs gs
    induction gs using List.reverseRecOn with
    | nil => simpa using h0
    | append_singleton gs g ih =>
      have e : (gs ++ [g]).length = gs.length + 1 := by simp
      rw [hs, ih, Finset.mul_sum]
      rw [← Fin.sum_congr' _ e.symm, Fin.sum_univ_castSucc]
      congr 1
      · refine Finset.sum_congr rfl fun i _ => ?_
        have hlt := i.2
        have : (gs ++ [g]).length - 1 - i.1 = (gs.length - 1 - i.1) + 1 := by rw [e]; omega
        simp only [Fin.getElem_fin, Fin.val_cast, Fin.val_castSucc, this, pow_succ]
        rw [List.getElem_append_left hlt]
        ring
      · simp
  have geo : ∀ (b : ℝ) (h : 0 ≤ b) (h' : b < 1) (n : Nat), ∑ i : Fin n, (1 - b) * b ^ (n - 1 - i.1) = 1 - b ^ n := by
    intro b h h' n
    rw [Fin.sum_univ_eq_sum_range (fun i => (1 - b) * b ^ (n - 1 - i)) n, Finset.sum_range_reflect (fun i => (1 - b) * b ^ i) n, ← Finset.mul_sum,
      mul_neg_geom_sum]
  have fin : ∀ (b : ℝ) (h : 0 ≤ b) (h' : b < 1) (f : ℝ → ℝ) (S : List ℝ → ℝ), S [] = 0 → (∀ gs g, S (gs ++ [g]) = b * S gs + (1 - b) * f g) →
      ∃ w : Fin gs.length → ℝ, (∀ i, 0 ≤ w i) ∧ ∑ i, w i = 1 ∧ S gs / (1 - b ^ gs.length) = ∑ i, w i * f gs[i] := by
    intro b h h' f S h0 hs
    have hpos : 0 < 1 - b ^ gs.length := by
      have := pow_lt_one₀ h h' (n := gs.length) (by simpa using hne)
      linarith
    have hb : 0 ≤ 1 - b := by linarith
    refine ⟨fun i => (1 - b) * b ^ (gs.length - 1 - i.1) / (1 - b ^ gs.length), fun i => by positivity, ?_, ?_⟩
    · rw [← Finset.sum_div, geo b h h', div_self hpos.ne']
    · rw [key b h h' f S h0 hs gs, Finset.sum_div]
      exact Finset.sum_congr rfl fun i _ => by ring
  refine ⟨fin b1 h1 h1' id (fun gs => (adamRun lr b1 b2 eps p0 gs).1.m) rfl ?_, fin b2 h2 h2' (· ^ 2) (fun gs => (adamRun lr b1 b2 eps p0 gs).1.v) rfl ?_⟩
  all_goals intro gs g; rw [adamRun_append]; rfl

/-- The first step of Adam does not depend on the size of the gradient up to `eps`: it moves by less than the learning rate
against the sign of the gradient. -/
theorem C52_first_step (lr b1 b2 eps p0 g : ℝ) (h1 : b1 < 1) (h2 : b2 < 1) :
    (adamRun lr b1 b2 eps p0 [g]).1.p = p0 - lr * g / (|g| + eps) := by
  have e1 : 1 - b1 ≠ 0 := by linarith
  have e2 : 1 - b2 ≠ 0 := by linarith
  show p0 - lr * ((b1 * 0 + (1 - b1) * g) / (1 - b1 ^ (0 + 1))) / (Real.sqrt ((b2 * 0 + (1 - b2) * g ^ 2) / (1 - b2 ^ (0 + 1))) + eps) = _
  rw [mul_zero, mul_zero, zero_add, zero_add, zero_add, pow_one, pow_one, mul_div_cancel_left₀ _ e1, mul_div_cancel_left₀ _ e2, Real.sqrt_sq_eq_abs]

example : (0 : ℝ) ≤ 9 / 10 ∧ (9 / 10 : ℝ) < 1 ∧ (0 : ℝ) ≤ 999 / 1000 ∧ (999 / 1000 : ℝ) < 1 ∧ ([1, -2] : List ℝ) ≠ [] := by
  refine ⟨by norm_num, by norm_num, by norm_num, by norm_num, by simp⟩

/-- **C49.** Parameters of any other shape (from a weights file): adding the bias follows numpy's broadcasting rule, and a product of matrices
whose inner sizes differ raises `ValueError`, as does a bias that is not a row. -/
theorem C49_array_rules (x w z b : Mat) :
    (b.rows = 1 → BroadcastSum z b (addBias z b)) ∧ (b.rows ≠ 1 → addBias z b = .error .valueError) ∧
    (x.cols ≠ w.cols → matmulT x w = .error .valueError) ∧ (x.cols ≠ w.rows → matmul x w = .error .valueError) ∧
    (x.rows ≠ w.rows → tMatmul x w = .error .valueError) := by
  refine ⟨fun hb => ?_, fun hb => by simp [addBias, hb], fun h => by simp [matmulT, h], fun h => by simp [matmul, h], fun h => by simp [tMatmul, h]⟩
  unfold BroadcastSum addBias
  simp only [hb, ne_eq, not_true_eq_false, if_false]
  by_cases h1 : b.cols = z.cols
  · refine Or.inr ⟨Or.inl h1.symm, ⟨z.rows, z.cols, fun i j => z.e i j + b.e 0 j⟩, by rw [if_pos h1], rfl, ?_, ?_⟩
    · simp [h1]
    · intro i j hj
      simp only at hj ⊢
      by_cases h2 : z.cols = 1
      · have : j = 0 := by omega
        subst this; simp
      · simp [h1, h2]
  · rw [if_neg h1]
    by_cases h2 : b.cols = 1
    · have h3 : ¬ z.cols = 1 := fun h => h1 (h2.trans h.symm)
      exact Or.inr ⟨Or.inr (Or.inr h2), ⟨z.rows, z.cols, fun i j => z.e i j + b.e 0 0⟩, by rw [if_pos h2], rfl, by simp [h3], fun i j hj => by simp [h2, h3]⟩
    · rw [if_neg h2]
      by_cases h3 : z.cols = 1
      · exact Or.inr ⟨Or.inr (Or.inl h3), ⟨z.rows, b.cols, fun i j => z.e i 0 + b.e 0 j⟩, by rw [if_pos h3], rfl, by simp [h3], fun i j hj => by simp [h2, h3]⟩
      · rw [if_neg h3]
        exact Or.inl ⟨by rintro (h | h | h); exacts [h1 h.symm, h3 h, h2 h], rfl⟩

end CML.Net
