import Verif.Spec.Descent
import Verif.Props.Adam
import Mathlib.Analysis.Calculus.Deriv.Slope

set_option linter.unusedSectionVars false

/-! # Property C293: with a small enough learning rate a training step lowers the loss of the drawn sample -/

namespace CML.Net
open Finset Filter Topology

lemma lower_of_deriv {f : ℝ → ℝ} {c : ℝ} (h : HasDerivAt f c 0) (hc : 0 < c) : ∃ bound > 0, ∀ t, 0 < t → t < bound → f (-t) < f 0 := by
  rw [hasDerivAt_iff_tendsto_slope_zero] at h
  have h2 := h.eventually (lt_mem_nhds hc)
  rw [eventually_nhdsWithin_iff, Metric.eventually_nhds_iff] at h2
  obtain ⟨e, he, h3⟩ := h2
  refine ⟨e, he, fun t ht hte => ?_⟩
  have := h3 (y := -t) (by rw [Real.dist_eq, sub_zero, abs_neg, abs_of_pos ht]; exact hte) (by simp; linarith)
  rw [smul_eq_mul, zero_add] at this
  have hneg : (-t)⁻¹ < 0 := inv_lt_zero.2 (by linarith)
  by_contra hcon
  nlinarith

lemma lower_along {f : List Layer → ℝ} {P : List Layer} {gs : List Grad} (hg : IsGradientAt f P gs) {D : List Layer} (hD : D.length = P.length)
    (h : 0 < inner P gs D) : ∃ bound > 0, ∀ t, 0 < t → t < bound → f (moved (-t) P D) < f P := by
  obtain ⟨b, hb, h2⟩ := lower_of_deriv (hg D hD) h
  refine ⟨b, hb, fun t h0 h1 => ?_⟩
  have := h2 t h0 h1
  rwa [moved_zero] at this

/-- Two networks with the same shapes and the same weights and biases. -/
def Agree (P P' : List Layer) : Prop :=
  List.Forall₂ (fun L L' => (L'.w.rows = L.w.rows ∧ L'.w.cols = L.w.cols ∧ ∀ r < L.w.rows, ∀ c < L.w.cols, L'.w.e r c = L.w.e r c) ∧
    (L'.b.rows = L.b.rows ∧ L'.b.cols = L.b.cols ∧ ∀ r < L.b.rows, ∀ c < L.b.cols, L'.b.e r c = L.b.e r c)) P P'

/-- The gradient has the shapes of the network. -/
abbrev Fits (P : List Layer) (gs : List Grad) : Prop := List.Forall₂ (fun L g => SameShape g.dw L.w ∧ SameShape g.db L.b) P gs

/-- All derivatives are zero. -/
def Zero (P : List Layer) (gs : List Grad) : Prop :=
  List.Forall₂ (fun L g => (∀ r < L.w.rows, ∀ c < L.w.cols, g.dw.e r c = 0) ∧ ∀ r < L.w.rows, g.db.e 0 r = 0) P gs

/-- A positive definite diagonal form of the gradient. -/
lemma inner_pos {P : List Layer} {gs : List Grad} (φ : ℝ → ℝ) (hφ : ∀ g, g ≠ 0 → 0 < g * φ g) (hl : Fits P gs) :
    0 ≤ inner P gs (gs.map fun g => ⟨⟨g.dw.rows, g.dw.cols, fun i j => φ (g.dw.e i j)⟩, ⟨g.db.rows, g.db.cols, fun i j => φ (g.db.e i j)⟩⟩) ∧
    (inner P gs (gs.map fun g => ⟨⟨g.dw.rows, g.dw.cols, fun i j => φ (g.dw.e i j)⟩, ⟨g.db.rows, g.db.cols, fun i j => φ (g.db.e i j)⟩⟩) = 0 →
      Zero P gs) := by
  have hn : ∀ g, 0 ≤ g * φ g := fun g => by
    by_cases h : g = 0
    · rw [h, zero_mul]
    · exact (hφ g h).le
  have hz : ∀ g, g * φ g = 0 → g = 0 := fun g h => by
    by_contra h'
    exact (hφ g h').ne' h
  induction hl with
  | nil => exact ⟨le_rfl, fun _ => .nil⟩
  | @cons L g Ls gs hr _ ih =>
    simp only [List.map_cons, inner]
    have hrow : ∀ r ∈ range L.w.rows, 0 ≤ (∑ c ∈ range L.w.cols, g.dw.e r c * φ (g.dw.e r c)) + g.db.e 0 r * φ (g.db.e 0 r) := fun r _ =>
      add_nonneg (Finset.sum_nonneg fun c _ => hn _) (hn _)
    have hsum := Finset.sum_nonneg hrow
    refine ⟨add_nonneg hsum ih.1, fun h => ?_⟩
    have h1 : ∑ r ∈ range L.w.rows, ((∑ c ∈ range L.w.cols, g.dw.e r c * φ (g.dw.e r c)) + g.db.e 0 r * φ (g.db.e 0 r)) = 0 := by
      have := ih.1; linarith
    rw [Finset.sum_eq_zero_iff_of_nonneg hrow] at h1
    refine .cons ⟨fun r hr c hc => hz _ ?_, fun r hr => hz _ ?_⟩ (ih.2 (by have := ih.1; linarith))
    · have h2 := h1 r (Finset.mem_range.2 hr)
      have h3 := Finset.sum_nonneg fun c (_ : c ∈ range L.w.cols) => hn (g.dw.e r c)
      have h4 : ∑ c ∈ range L.w.cols, g.dw.e r c * φ (g.dw.e r c) = 0 := by have := hn (g.db.e 0 r); linarith
      rw [Finset.sum_eq_zero_iff_of_nonneg fun c _ => hn _] at h4
      exact h4 c (Finset.mem_range.2 hc)
    · have h2 := h1 r (Finset.mem_range.2 hr)
      have h3 := Finset.sum_nonneg fun c (_ : c ∈ range L.w.cols) => hn (g.dw.e r c)
      have := hn (g.db.e 0 r)
      linarith

lemma shaped_bias {P : List Layer} : ∀ {sizes : List Nat}, Shaped sizes P → ∀ L ∈ P, L.b.rows = 1 ∧ L.b.cols = L.w.rows := by
  induction P with
  | nil => intro _ _ L hL; cases hL
  | cons L Ls ih =>
    intro sizes hS
    match sizes, hS with
    | d :: m :: rest, ⟨⟨h1, h2, h3, h4⟩, hS'⟩ =>
      intro L' hL'
      rcases List.mem_cons.1 hL' with rfl | h
      · exact ⟨h3, by rw [h4, h1]⟩
      · exact ih hS' L' h

/-- If all derivatives are zero, so are the errors of the output units (the derivatives with respect to their biases). -/
lemma zero_bwd (G : (ℕ → ℕ → ℝ) → ℕ → ℕ → ℝ) : ∀ (P : List Layer) (d m : Nat) (rest : List Nat) (A : ℕ → ℕ → ℝ), Shaped (d :: m :: rest) P →
    Zero P (bwd 1 G P A).1 → ∀ r < lastSize (d :: m :: rest), G (fun i => logits P (A i)) 0 r = 0
  | [], _, _, _, _, hS, _ => hS.elim
  | [L], d, m, rest, A, ⟨h, hS⟩, hz => by
    intro r hr
    match rest, hS with
    | [], _ =>
      have hz' : Zero [L] [gradOf 1 L (G fun i => affine L (A i)) A] := hz
      cases hz' with
      | cons h1 _ =>
        have := h1.2 r (by rw [h.1]; exact hr)
        simpa [gradOf, logits] using this
  | L :: L' :: Ls, d, m, [], A, ⟨_, hS⟩, _ => hS.elim
  | L :: L' :: Ls, d, m, e :: rest, A, ⟨_, hS⟩, hz => by
    cases hz with
    | cons _ h2 => exact zero_bwd G (L' :: Ls) m e rest (fun i r => max 0 (affine L (A i) r)) hS h2

lemma map_id_grad (gs : List Grad) :
    (gs.map fun g => (⟨⟨g.dw.rows, g.dw.cols, fun i j => id (g.dw.e i j)⟩, ⟨g.db.rows, g.db.cols, fun i j => id (g.db.e i j)⟩⟩ : Layer)) = asLayers gs := rfl

/-- What SGD does, for all learning rates. -/
lemma sgd_moved {d m : Nat} {rest : List Nat} {P : List Layer} (x y : Mat) (i : Nat) (hS : Shaped (d :: m :: rest) P) (hx : x.cols = d)
    (hk : 0 < lastSize (d :: m :: rest)) (hyc : y.cols = lastSize (d :: m :: rest) ∨ y.cols = 1) (hi : i < x.rows) (hi' : i < y.rows) :
    ∃ yp caches gs out, forward (rowOf x i) P = .ok (yp, caches) ∧ backward yp (rowOf y i) caches = .ok (gs, out) ∧ Fits P gs ∧ sampleGrad x y P i = .ok gs ∧
      (Zero P gs → ∀ r < lastSize (d :: m :: rest), outErr (lastSize (d :: m :: rest)) y.cols (rowOf y i).e (fun _ => logits P (x.e i)) 0 r = 0) ∧
      ∀ lr, sgdStep lr x y P i = .ok (moved (-lr) P (asLayers gs)) := by
  obtain ⟨yp, caches, h1, -, -, h4⟩ := forward_backward P _ (rowOf x i) hS (shaped_ne_nil hS) (by simp [rowOf, hx]) (by simp [rowOf]) hk
  have h5 := h4 (rowOf y i) rfl hyc
  refine ⟨yp, caches, _, _, h1, h5, bwd_shapes _ _ P _ _ hS, ?_, fun hz => zero_bwd _ P d m rest (rowOf x i).e hS hz, fun lr => ?_⟩
  · rw [sampleGrad, if_neg (by omega), h1]
    simp only [h5]
  · rw [sgdStep, if_neg (by omega), h1]
    simp only [h5]
    exact (bwd_update lr 1 (outErr (lastSize (d :: m :: rest)) (rowOf y i).cols (rowOf y i).e) P _ (rowOf x i).e hS).1

lemma fits_length {P : List Layer} {gs : List Grad} (h : Fits P gs) : (asLayers gs).length = P.length := by
  rw [asLayers, List.length_map]; exact h.length_eq.symm

lemma sgd_descends {f : List Layer → ℝ} {P : List Layer} {gs gTrue : List Grad} {step : ℝ → Except PyErr (List Layer)} {s : ℝ} (hs : 0 < s)
    (hf : Fits P gs) (hg : IsGradientAt f P gTrue) (he : ∀ D, inner P gs D = s * inner P gTrue D) (hz : ¬ Zero P gs)
    (hstep : ∀ lr, step lr = .ok (moved (-lr) P (asLayers gs))) : Lowers f step P := by
  obtain ⟨h1, h2⟩ := inner_pos id (fun g hg => by rw [id]; exact mul_self_pos.2 hg) hf
  rw [map_id_grad] at h1 h2
  rcases h1.eq_or_lt with h | h
  · exact absurd (h2 h.symm) hz
  · rw [he] at h
    obtain ⟨b, hb, h3⟩ := lower_along hg (fits_length hf) (pos_of_mul_pos_right h hs.le)
    exact ⟨b, hb, fun lr h0 h1 => ⟨_, hstep lr, h3 lr h0 h1⟩⟩

lemma OneHot.sum {k : Nat} {y : ℕ → ℝ} (h : OneHot k y) : ∑ j ∈ range k, y j = 1 := by
  obtain ⟨c, hc, h⟩ := h
  rw [Finset.sum_congr rfl fun j hj => h j (Finset.mem_range.1 hj), Finset.sum_ite_eq' , if_pos (Finset.mem_range.2 hc)]

/-- The softmax of two or more numbers is never one-hot. -/
lemma softmax_lt_one {k : Nat} (hk : 2 ≤ k) (z : ℕ → ℝ) {c : Nat} (hc : c < k) : softmaxRow k z c < 1 := by
  unfold softmaxRow
  obtain ⟨c', hc', hne⟩ : ∃ c' < k, c' ≠ c := by
    by_cases h : c = 0
    · exact ⟨1, by omega, by omega⟩
    · exact ⟨0, by omega, fun h' => h h'.symm⟩
  have h1 : 0 < ∑ l ∈ range k, Real.exp (z l) := Finset.sum_pos (fun _ _ => Real.exp_pos _) ⟨c, Finset.mem_range.2 hc⟩
  rw [div_lt_one h1]
  exact Finset.single_lt_sum hne (Finset.mem_range.2 hc) (Finset.mem_range.2 hc') (Real.exp_pos _) fun _ _ _ => (Real.exp_pos _).le

lemma softmax_not_zero {k : Nat} (hk : 2 ≤ k) {y : ℕ → ℕ → ℝ} (hy : OneHot k (y 0)) (z : ℕ → ℝ) :
    ¬ ∀ r < k, outErr k k y (fun _ => z) 0 r = 0 := by
  intro h
  obtain ⟨c, hc, hy⟩ := hy
  have := h c hc
  unfold outErr at this
  rw [if_neg (by omega), hy c hc, if_pos rfl] at this
  have := softmax_lt_one hk z hc
  linarith

lemma sigmoid_not_zero {y : ℕ → ℕ → ℝ} (hy : y 0 0 = 0 ∨ y 0 0 = 1) (z : ℕ → ℝ) : ¬ ∀ r < 1, outErr 1 1 y (fun _ => z) 0 r = 0 := by
  intro h
  have := h 0 one_pos
  have p0 : 0 < sigmoid (z 0) := LogReg.sigmoid_pos _
  have p1 : sigmoid (z 0) < 1 := LogReg.sigmoid_lt_one _
  simp only [outErr, outAct, if_true] at this
  rw [outErr_binary p0 p1 hy] at this
  rcases hy with hy | hy
  · rw [hy, if_pos rfl] at this
    nlinarith
  · rw [hy, if_neg one_ne_zero] at this
    nlinarith

/-- C293: in a network of any depth with two or more outputs, a one-hot label row and no hidden unit exactly at the kink of ReLU, an epoch of SGD with a small
enough learning rate lowers the cross-entropy of the drawn sample. -/
theorem C293_sgd {d m : Nat} {rest : List Nat} {P : List Layer} (x y : Mat) (i : Nat) (hS : Shaped (d :: m :: rest) P) (hx : x.cols = d)
    (hk : 2 ≤ lastSize (d :: m :: rest)) (hyc : y.cols = lastSize (d :: m :: rest)) (hi : i < x.rows) (hi' : i < y.rows)
    (hy : OneHot y.cols (y.e i)) (hK : NoKink P (x.e i)) :
    Lowers (fun Q => softmaxLoss y.cols (y.e i) (logits Q (x.e i))) (fun lr => sgdStep lr x y P i) P := by
  obtain ⟨yp, caches, gs, out, h1, h2, h3, -, hz, h4⟩ := sgd_moved x y i hS hx (by omega) (.inl hyc) hi hi'
  obtain ⟨yp', caches', gs', out', e1, -, e2, hg⟩ := C51_gradient (rowOf x i) (rowOf y i) hS hx one_pos hk rfl hyc
    (fun _ _ => hy.sum) (fun _ _ => hK)
  rw [h1] at e1
  obtain ⟨rfl, rfl⟩ := Prod.mk.inj (Except.ok.inj e1)
  rw [h2] at e2
  obtain ⟨rfl, rfl⟩ := Prod.mk.inj (Except.ok.inj e2)
  refine sgd_descends one_pos h3 (gTrue := gs) ?_ (fun D => (one_mul _).symm)
    (fun hzero => softmax_not_zero hk (y := (rowOf y i).e) (by rw [← hyc]; exact hy) _ (by rw [← hyc] at hz; rw [← hyc]; exact hz hzero)) h4
  have e : (fun Q => meanLoss (softmaxLoss (rowOf y i).cols) (rowOf x i).rows Q (rowOf x i).e (rowOf y i).e) =
      fun Q => softmaxLoss y.cols (y.e i) (logits Q (x.e i)) := by
    funext Q
    simp [meanLoss, rowOf]
  rwa [e] at hg

/-- C293 for one output unit, although the gradient of the code is not that of the loss (C88). -/
theorem C293_sgd_binary {d m : Nat} {rest : List Nat} {P : List Layer} (x y : Mat) (i : Nat) (hS : Shaped (d :: m :: rest) P) (hx : x.cols = d)
    (hk : lastSize (d :: m :: rest) = 1) (hyc : y.cols = 1) (hi : i < x.rows) (hi' : i < y.rows)
    (hy : y.e i 0 = 0 ∨ y.e i 0 = 1) (hK : NoKink P (x.e i)) :
    Lowers (fun Q => sigmoidLoss (y.e i) (logits Q (x.e i))) (fun lr => sgdStep lr x y P i) P := by
  obtain ⟨yp, caches, gs, out, h1, h2, h3, -, hz, h4⟩ := sgd_moved x y i hS hx (by omega) (.inr hyc) hi hi'
  obtain ⟨yp', caches', gs', out', e1, e2, s, hs, -, gTrue, hg, he⟩ := C88_binary_direction_partial x y i hS hx hk hyc hy hK
  rw [h1] at e1
  obtain ⟨rfl, rfl⟩ := Prod.mk.inj (Except.ok.inj e1)
  rw [h2] at e2
  obtain ⟨rfl, rfl⟩ := Prod.mk.inj (Except.ok.inj e2)
  exact sgd_descends (by linarith) h3 hg he
    (fun hzero => sigmoid_not_zero (y := (rowOf y i).e) hy _ (by rw [hk, hyc] at hz; exact hz hzero)) h4

/-! ## The first epoch of Adam -/

lemma affine_congr {L L' : Layer} (hw : L'.w.rows = L.w.rows ∧ L'.w.cols = L.w.cols ∧ ∀ r < L.w.rows, ∀ c < L.w.cols, L'.w.e r c = L.w.e r c)
    (hb : L'.b.rows = L.b.rows ∧ L'.b.cols = L.b.cols ∧ ∀ r < L.b.rows, ∀ c < L.b.cols, L'.b.e r c = L.b.e r c)
    (h1 : L.b.rows = 1) (h2 : L.b.cols = L.w.rows) {u v : ℕ → ℝ} (huv : ∀ j < L.w.cols, u j = v j) :
    ∀ r < L.w.rows, affine L' u r = affine L v r := by
  intro r hr
  unfold affine
  rw [hw.2.1, hb.2.2 0 (by omega) r (by omega)]
  congr 1
  exact Finset.sum_congr rfl fun c hc => by rw [hw.2.2 r hr c (Finset.mem_range.1 hc), huv c (Finset.mem_range.1 hc)]

lemma logits_agree : ∀ (P P' : List Layer) (d m : Nat) (rest : List Nat), Shaped (d :: m :: rest) P → Agree P P' → ∀ (u v : ℕ → ℝ), (∀ j < d, u j = v j) →
    ∀ j < lastSize (d :: m :: rest), logits P' u j = logits P v j
  | [], _, _, _, _, hS, _, _, _, _ => hS.elim
  | L :: Ls, P', d, m, rest, ⟨⟨s1, s2, s3, s4⟩, hS'⟩, h, u, v, huv => by
    cases h with
    | @cons _ L' _ Ls' hr hrest =>
      have ha := affine_congr hr.1 hr.2 s3 (by rw [s4, s1]) (u := u) (v := v) (by rw [s2]; exact huv)
      rw [s1] at ha
      match Ls, rest, hS', hrest with
      | [], [], _, .nil => exact ha
      | L2 :: Ls2, e :: rest, hS', .cons (b := M2) (l₂ := Ms2) hr2 hrest2 =>
        exact logits_agree (L2 :: Ls2) (M2 :: Ms2) m e rest hS' (.cons hr2 hrest2) _ _ fun j hj => by rw [ha j hj]

lemma softmaxLoss_congr {k : Nat} {y z z' : ℕ → ℝ} (h : ∀ j < k, z j = z' j) : softmaxLoss k y z = softmaxLoss k y z' := by
  have hs : ∑ l ∈ range k, Real.exp (z l) = ∑ l ∈ range k, Real.exp (z' l) :=
    Finset.sum_congr rfl fun l hl => by rw [h l (Finset.mem_range.1 hl)]
  unfold softmaxLoss softmaxRow
  rw [hs]
  congr 1
  exact Finset.sum_congr rfl fun l hl => by rw [h l (Finset.mem_range.1 hl)]

/-- The direction of the first epoch of Adam, entry by entry. -/
noncomputable def adamDir (eps g : ℝ) : ℝ := g / (|g| + eps)

lemma adamStep_first (lr b1 b2 eps p g : ℝ) (h1 : b1 ≠ 1) (h2 : b2 ≠ 1) :
    (adamStep lr b1 b2 eps 1 ⟨p, 0, 0⟩ g).p = p + -lr * adamDir eps g := by
  have h1' : 1 - b1 ≠ 0 := sub_ne_zero.2 (Ne.symm h1)
  have h2' : 1 - b2 ≠ 0 := sub_ne_zero.2 (Ne.symm h2)
  simp only [adamStep, mul_zero, zero_add, pow_one]
  rw [mul_div_cancel_left₀ _ h1', mul_div_cancel_left₀ _ h2', Real.sqrt_sq_eq_abs, adamDir]
  ring

/-- A network moved along the first step of Adam. -/
noncomputable def adamDirs (eps : ℝ) (gs : List Grad) : List Layer :=
  gs.map fun g => ⟨⟨g.dw.rows, g.dw.cols, fun i j => adamDir eps (g.dw.e i j)⟩, ⟨g.db.rows, g.db.cols, fun i j => adamDir eps (g.db.e i j)⟩⟩

lemma adamUpdate_first (lr b1 b2 eps : ℝ) (h1 : b1 ≠ 1) (h2 : b2 ≠ 1) {P : List Layer} {gs : List Grad} (hf : Fits P gs) :
    ∃ S, adamUpdate lr b1 b2 eps 1 (adamInit P) gs = .ok S ∧ Agree (moved (-lr) P (adamDirs eps gs)) (layersOf S) := by
  induction hf with
  | nil => exact ⟨[], rfl, .nil⟩
  | @cons L g Ls gs hr _ ih =>
    obtain ⟨S, e, hS⟩ := ih
    obtain ⟨w', ew, ⟨kw, kw'⟩, kw2⟩ := adamMat_step lr b1 b2 eps 1 (.init L.w) _ (entries_init L.w) g.dw hr.1
    obtain ⟨b', eb, ⟨kb, kb'⟩, kb2⟩ := adamMat_step lr b1 b2 eps 1 (.init L.b) _ (entries_init L.b) g.db hr.2
    refine ⟨⟨w', b'⟩ :: S, by simp only [adamInit, List.map_cons, adamUpdate, ew, eb]; rw [show Ls.map _ = adamInit Ls from rfl, e], .cons ⟨?_, ?_⟩ hS⟩
    · refine ⟨kw, kw', fun r hr' c hc => ?_⟩
      have := ((kw2 _ (entries_init L.w)).2.2 r (by rw [kw]; exact hr') c (by rw [kw']; exact hc)).1
      dsimp only at this ⊢
      rw [this, adamStep_first _ _ _ _ _ _ h1 h2]
    · refine ⟨kb, kb', fun r hr' c hc => ?_⟩
      have := ((kb2 _ (entries_init L.b)).2.2 r (by rw [kb]; exact hr') c (by rw [kb']; exact hc)).1
      dsimp only at this ⊢
      rw [this, adamStep_first _ _ _ _ _ _ h1 h2]

lemma moved_shaped (t : ℝ) : ∀ (P D : List Layer) (sizes : List Nat), Shaped sizes P → Shaped sizes (moved t P D)
  | [], D, _, h => by cases D <;> exact h
  | _ :: _, [], _, h => h
  | L :: Ls, D :: Ds, d :: m :: rest, ⟨h, hS⟩ => ⟨h, moved_shaped t Ls Ds (m :: rest) hS⟩

lemma adam_descends {f : List Layer → ℝ} {d m : Nat} {rest : List Nat} {P : List Layer} {gs gTrue : List Grad} {s b1 b2 eps : ℝ} {x y : Mat} {i : Nat}
    (hs : 0 < s) (hz : ¬ Zero P gs) (h1 : b1 ≠ 1) (h2 : b2 ≠ 1) (h3 : 0 < eps) (hS : Shaped (d :: m :: rest) P) (hf : Fits P gs) (hg : IsGradientAt f P gTrue)
    (he : ∀ D, inner P gs D = s * inner P gTrue D) (hgs : sampleGrad x y P i = .ok gs)
    (hcongr : ∀ Q Q', Shaped (d :: m :: rest) Q → Agree Q Q' → f Q' = f Q) :
    Lowers f (fun lr => adamTrain lr b1 b2 eps x y [i] P) P := by
  have hφ : ∀ g : ℝ, g ≠ 0 → 0 < g * adamDir eps g := fun g hg => by
    unfold adamDir
    have : 0 < |g| := abs_pos.2 hg
    rw [mul_div_assoc']
    exact div_pos (mul_self_pos.2 hg) (by linarith)
  have hlay : ∀ Q : List Layer, layersOf (adamInit Q) = Q := fun Q => by
    simp [layersOf, adamInit, List.map_map, Function.comp_def, AdamMat.init]
  have hrun : ∀ lr, ∃ S, adamTrain lr b1 b2 eps x y [i] P = .ok (layersOf S) ∧ Agree (moved (-lr) P (adamDirs eps gs)) (layersOf S) := fun lr => by
    obtain ⟨S, e, hA⟩ := adamUpdate_first lr b1 b2 eps h1 h2 hf
    refine ⟨S, ?_, hA⟩
    unfold adamTrain
    simp only [adamLoop]
    rw [hlay, hgs]
    dsimp only
    rw [e]
  obtain ⟨k1, k2⟩ := inner_pos (adamDir eps) hφ hf
  rcases k1.eq_or_lt with h | h
  · exact absurd (k2 h.symm) hz
  · rw [he] at h
    obtain ⟨b, hb, h3⟩ := lower_along hg (D := adamDirs eps gs) (by rw [adamDirs, List.length_map]; exact hf.length_eq.symm) (pos_of_mul_pos_right h hs.le)
    refine ⟨b, hb, fun lr l0 l1 => ?_⟩
    obtain ⟨S, e, hA⟩ := hrun lr
    refine ⟨_, e, ?_⟩
    rw [hcongr _ _ (moved_shaped (-lr) P _ _ hS) hA]
    exact h3 lr l0 l1

/-- C293 for the first epoch of Adam. -/
theorem C293_adam {d m : Nat} {rest : List Nat} {P : List Layer} (x y : Mat) (i : Nat) (b1 b2 eps : ℝ) (h1 : b1 ≠ 1) (h2 : b2 ≠ 1) (h3 : 0 < eps)
    (hS : Shaped (d :: m :: rest) P) (hx : x.cols = d) (hk : 2 ≤ lastSize (d :: m :: rest)) (hyc : y.cols = lastSize (d :: m :: rest)) (hi : i < x.rows)
    (hi' : i < y.rows) (hy : OneHot y.cols (y.e i)) (hK : NoKink P (x.e i)) :
    Lowers (fun Q => softmaxLoss y.cols (y.e i) (logits Q (x.e i))) (fun lr => adamTrain lr b1 b2 eps x y [i] P) P := by
  obtain ⟨yp, caches, gs, out, k1, k2, k3, k4, hz, -⟩ := sgd_moved x y i hS hx (by omega) (.inl hyc) hi hi'
  obtain ⟨yp', caches', gs', out', e1, -, e2, hg⟩ := C51_gradient (rowOf x i) (rowOf y i) hS hx one_pos hk rfl hyc
    (fun _ _ => hy.sum) (fun _ _ => hK)
  rw [k1] at e1
  obtain ⟨rfl, rfl⟩ := Prod.mk.inj (Except.ok.inj e1)
  rw [k2] at e2
  obtain ⟨rfl, rfl⟩ := Prod.mk.inj (Except.ok.inj e2)
  have e : (fun Q => meanLoss (softmaxLoss (rowOf y i).cols) (rowOf x i).rows Q (rowOf x i).e (rowOf y i).e) =
      fun Q => softmaxLoss y.cols (y.e i) (logits Q (x.e i)) := by
    funext Q
    simp [meanLoss, rowOf]
  rw [e] at hg
  refine adam_descends one_pos
    (fun hzero => softmax_not_zero hk (y := (rowOf y i).e) (by rw [← hyc]; exact hy) _ (by rw [← hyc] at hz; rw [← hyc]; exact hz hzero)) h1 h2 h3 hS k3 hg (fun D => (one_mul _).symm) k4 fun Q Q' hQ hA => ?_
  exact softmaxLoss_congr fun j hj => logits_agree Q Q' d m rest hQ hA _ _ (fun _ _ => rfl) j (by rw [← hyc]; exact hj)

/-- C293 for the first epoch of Adam and one output unit. -/
theorem C293_adam_binary {d m : Nat} {rest : List Nat} {P : List Layer} (x y : Mat) (i : Nat) (b1 b2 eps : ℝ) (h1 : b1 ≠ 1) (h2 : b2 ≠ 1) (h3 : 0 < eps)
    (hS : Shaped (d :: m :: rest) P) (hx : x.cols = d) (hk : lastSize (d :: m :: rest) = 1) (hyc : y.cols = 1) (hi : i < x.rows) (hi' : i < y.rows)
    (hy : y.e i 0 = 0 ∨ y.e i 0 = 1) (hK : NoKink P (x.e i)) :
    Lowers (fun Q => sigmoidLoss (y.e i) (logits Q (x.e i))) (fun lr => adamTrain lr b1 b2 eps x y [i] P) P := by
  obtain ⟨yp, caches, gs, out, k1, k2, k3, k4, hz, -⟩ := sgd_moved x y i hS hx (by omega) (.inr hyc) hi hi'
  obtain ⟨yp', caches', gs', out', e1, e2, s, hs, -, gTrue, hg, he⟩ := C88_binary_direction_partial x y i hS hx hk hyc hy hK
  rw [k1] at e1
  obtain ⟨rfl, rfl⟩ := Prod.mk.inj (Except.ok.inj e1)
  rw [k2] at e2
  obtain ⟨rfl, rfl⟩ := Prod.mk.inj (Except.ok.inj e2)
  refine adam_descends (by linarith) (fun hzero => sigmoid_not_zero (y := (rowOf y i).e) hy _ (by rw [hk, hyc] at hz; exact hz hzero)) h1 h2 h3 hS k3 hg he k4 fun Q Q' hQ hA => ?_
  have := logits_agree Q Q' d m rest hQ hA (x.e i) (x.e i) (fun _ _ => rfl) 0 (by omega)
  unfold sigmoidLoss
  rw [this]

/-- The hypotheses are met: two features, two hidden units, three classes (and any learning rate below some bound lowers the loss). -/
example : ∃ (P : List Layer) (x y : Mat), Shaped [2, 2, 3] P ∧
    Lowers (fun Q => softmaxLoss y.cols (y.e 0) (logits Q (x.e 0))) (fun lr => sgdStep lr x y P 0) P := by
  refine ⟨[⟨⟨2, 2, fun r c => if r = c then 1 else 0⟩, ⟨1, 2, fun _ _ => 0⟩⟩, ⟨⟨3, 2, fun _ _ => 1⟩, ⟨1, 3, fun _ _ => 0⟩⟩],
    ⟨1, 2, fun _ c => if c = 0 then 1 else -1⟩, ⟨1, 3, fun _ j => if j = 1 then 1 else 0⟩, by simp [Shaped],
    C293_sgd (d := 2) (m := 2) (rest := [3]) _ _ 0 (by simp [Shaped]) rfl (by decide) rfl one_pos one_pos ⟨1, by norm_num, fun j _ => rfl⟩ ⟨?_, trivial⟩⟩
  intro r hr
  simp only [affine, Finset.sum_range_succ, Finset.sum_range_zero]
  have : r = 0 ∨ r = 1 := by simp only at hr; omega
  rcases this with rfl | rfl <;> norm_num

end CML.Net
