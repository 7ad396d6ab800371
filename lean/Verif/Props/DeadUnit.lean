import Verif.Spec.DeadUnit
import Verif.Props.Adam

set_option linter.unusedSectionVars false

/-! # Property C253 (hidden units that are not active on the training set) -/

namespace CML.Net
open Finset

/-- The derivatives that belong to a silent unit are 0, on every sample. -/
theorem silent_grad {d m : Nat} {rest : List Nat} {P : List Layer} (x y : Mat) (i : Nat) (hS : Shaped (d :: m :: rest) P) (hx : x.cols = d)
    (hk : 0 < lastSize (d :: m :: rest)) (hy : y.cols = lastSize (d :: m :: rest) ∨ y.cols = 1) (hi : i < x.rows) (hi' : i < y.rows) {u : Nat} (hu : Silent u P x) :
    ∃ g g' gs, sampleGrad x y P i = .ok (g :: g' :: gs) ∧ (∀ c, g.dw.e u c = 0) ∧ (∀ k, g.db.e k u = 0) ∧ ∀ r, g'.dw.e r u = 0 := by
  obtain ⟨yp, caches, h1, -, -, h4⟩ := forward_backward P _ (rowOf x i) hS (shaped_ne_nil hS) (by simp [rowOf, hx]) (by simp [rowOf]) hk
  have h5 := h4 (rowOf y i) rfl hy
  have hg : sampleGrad x y P i = .ok (bwd 1 (outErr (lastSize (d :: m :: rest)) (rowOf y i).cols (rowOf y i).e) P (rowOf x i).e).1 := by
    rw [sampleGrad, if_neg (by omega), h1]
    simp only [h5]
    rfl
  obtain ⟨L, L', Ls, rfl, hul, hneg⟩ := hu
  have hcols : L.w.cols = x.cols := by
    obtain ⟨⟨-, h, -⟩, -⟩ := hS
    rw [h, hx]
  have hz : ∀ l, max 0 (affine L ((rowOf x i).e l) u) = 0 := by
    intro l
    refine max_eq_left ?_
    unfold affine
    rw [hcols]
    exact hneg i hi
  rw [hg]
  generalize outErr (lastSize (d :: m :: rest)) (rowOf y i).cols (rowOf y i).e = G
  have hda : ∀ (o : ℕ → ℕ → ℝ) (l : ℕ), reluDiff (o l u) (max 0 (affine L ((rowOf x i).e l) u)) = 0 := by
    intro o l
    rw [hz, reluDiff, if_pos le_rfl]
  cases Ls with
  | nil =>
    refine ⟨_, _, _, rfl, ?_, ?_, ?_⟩
    · intro c
      simp only [gradOf, hda, zero_mul, sum_const_zero, zero_div]
    · intro k
      simp only [gradOf, hda, sum_const_zero, zero_div]
    · intro r
      simp only [gradOf, hz, mul_zero, sum_const_zero, zero_div]
  | cons L'' Ls =>
    refine ⟨_, _, _, rfl, ?_, ?_, ?_⟩
    · intro c
      simp only [gradOf, hda, zero_mul, sum_const_zero, zero_div]
    · intro k
      simp only [gradOf, hda, sum_const_zero, zero_div]
    · intro r
      simp only [gradOf, hz, mul_zero, sum_const_zero, zero_div]

theorem kept_silent {d m : Nat} {rest : List Nat} {P Q : List Layer} {u : Nat} {x : Mat} (hx : x.cols = d) (hS : Shaped (d :: m :: rest) P) (hQ : Shaped (d :: m :: rest) Q)
    (hu : Silent u P x) (hk : UnitKept u P Q) : Silent u Q x := by
  obtain ⟨L, L', Ls, M, M', Ms, rfl, rfl, h1, h2, -⟩ := hk
  obtain ⟨_, _, _, e, h3, h4⟩ := hu
  cases e
  obtain ⟨⟨a1, a2, -, -⟩, -⟩ := hS
  obtain ⟨⟨b1, b2, -, -⟩, -⟩ := hQ
  refine ⟨M, M', Ms, rfl, by omega, ?_⟩
  intro i hi
  have h := h4 i hi
  rw [h2]
  have : ∑ c ∈ range x.cols, M.w.e u c * x.e i c = ∑ c ∈ range x.cols, L.w.e u c * x.e i c := by
    refine sum_congr rfl fun c hc => ?_
    rw [h1 c (by rw [a2, ← hx]; exact mem_range.1 hc)]
  rw [this]
  exact h

theorem kept_trans {P Q R : List Layer} {u : Nat} (h1 : UnitKept u P Q) (h2 : UnitKept u Q R) {d m : Nat} {rest : List Nat} (hS : Shaped (d :: m :: rest) P)
    (hQ : Shaped (d :: m :: rest) Q) : UnitKept u P R := by
  obtain ⟨L, L', Ls, M, M', Ms, rfl, rfl, a1, a2, a3⟩ := h1
  obtain ⟨_, _, _, N, N', Ns, e, rfl, b1, b2, b3⟩ := h2
  cases e
  match rest, hS, hQ with
  | k :: rest, ⟨⟨s1, s2, _, _⟩, ⟨s3, _⟩, _⟩, ⟨⟨q1, q2, _, _⟩, ⟨q3, _⟩, _⟩ =>
    exact ⟨L, L', Ls, N, N', Ns, rfl, rfl, fun c hc => by rw [b1 c (by omega), a1 c hc], by rw [b2, a2], fun r hr => by rw [b3 r (by omega), a3 r hr]⟩

/-- **C253**, stochastic gradient descent: a unit of the first hidden layer that is not active on any training row keeps its incoming weights, its bias and its outgoing
weights, whatever samples are drawn and however long the training lasts, and stays inactive. -/
theorem C253_sgd (lr : ℝ) {d m : Nat} {rest : List Nat} (x y : Mat) (hx : x.cols = d) (hk : 0 < lastSize (d :: m :: rest))
    (hy : y.cols = lastSize (d :: m :: rest) ∨ y.cols = 1) (u : Nat) (idx : List Nat) : ∀ P, Shaped (d :: m :: rest) P → Silent u P x →
    (∀ i ∈ idx, i < x.rows ∧ i < y.rows) → ∃ Q, sgdRun lr x y idx P = .ok Q ∧ Shaped (d :: m :: rest) Q ∧ UnitKept u P Q ∧ Silent u Q x := by
  induction idx with
  | nil =>
    intro P hS hu _
    refine ⟨P, rfl, hS, ?_, hu⟩
    obtain ⟨L, L', Ls, rfl, -⟩ := hu
    exact ⟨L, L', Ls, L, L', Ls, rfl, rfl, fun _ _ => rfl, rfl, fun _ _ => rfl⟩
  | cons i is ih =>
    intro P hS hu hidx
    have hi := hidx i (List.mem_cons_self ..)
    obtain ⟨g, g', gs, hg, z1, z2, z3⟩ := silent_grad x y i hS hx hk hy hi.1 hi.2 hu
    obtain ⟨yp, caches, h1, -, -, h4⟩ := forward_backward P _ (rowOf x i) hS (shaped_ne_nil hS) (by simp [rowOf, hx]) (by simp [rowOf]) hk
    have h5 := h4 (rowOf y i) rfl hy
    obtain ⟨h6, h7⟩ := bwd_update lr 1 (outErr (lastSize (d :: m :: rest)) (rowOf y i).cols (rowOf y i).e) P _ (rowOf x i).e hS
    have hgs : (bwd 1 (outErr (lastSize (d :: m :: rest)) (rowOf y i).cols (rowOf y i).e) P (rowOf x i).e).1 = g :: g' :: gs := by
      rw [sampleGrad, if_neg (by omega), h1] at hg
      simp only [h5] at hg
      injection hg
    rw [hgs] at h6 h7
    have hkept : UnitKept u P (moved (-lr) P (asLayers (g :: g' :: gs))) := by
      obtain ⟨L, L', Ls, rfl, -⟩ := hu
      refine ⟨L, L', Ls, _, _, _, rfl, rfl, ?_, ?_, ?_⟩
      · intro c _
        simp only [z1, mul_zero, add_zero]
      · simp only [z2, mul_zero, add_zero]
      · intro r _
        simp only [z3, mul_zero, add_zero]
    have hsil := kept_silent hx hS h7 hu hkept
    obtain ⟨Q, q1, q2, q3, q4⟩ := ih _ h7 hsil fun j hj => hidx j (List.mem_cons_of_mem _ hj)
    refine ⟨Q, ?_, q2, kept_trans hkept q3 hS h7, q4⟩
    rw [sgdRun, sgdStep, if_neg (by omega), h1]
    simp only [h5]
    rw [show (rowOf x i).rows = 1 from rfl, hgs, h6]
    exact q1

theorem adamRun_still (lr b1 b2 eps p0 : ℝ) (gs : List ℝ) (h : ∀ g ∈ gs, g = 0) : (adamRun lr b1 b2 eps p0 gs).1 = ⟨p0, 0, 0⟩ := by
  induction gs using List.reverseRecOn with
  | nil => rfl
  | append_singleton gs g ih =>
    have hg : g = 0 := h g (by simp)
    rw [adamRun_append, ih fun g hg => h g (by simp [hg]), hg]
    simp [adamStep]

/-- **C253**, Adam. -/
theorem C253_adam (lr b1 b2 eps : ℝ) {d m : Nat} {rest : List Nat} {P : List Layer} (x y : Mat) (hS : Shaped (d :: m :: rest) P) (hx : x.cols = d)
    (hk : 0 < lastSize (d :: m :: rest)) (hy : y.cols = lastSize (d :: m :: rest) ∨ y.cols = 1) (u : Nat) (hu : Silent u P x) (idx : List Nat)
    (hidx : ∀ i ∈ idx, i < x.rows ∧ i < y.rows) : ∃ Q, adamTrain lr b1 b2 eps x y idx P = .ok Q ∧ Shaped (d :: m :: rest) Q ∧ UnitKept u P Q ∧ Silent u Q x := by
  induction hn : idx.length using Nat.strong_induction_on generalizing idx with
  | _ n ih =>
  subst hn
  obtain ⟨Q, grads, h1, h2, h3, h4, h5⟩ := C52_network lr b1 b2 eps x y hS hx hk hy idx hidx
  have hzero : ∀ gs ∈ grads, (∀ c, weightGrad 0 u c gs = 0) ∧ (biasGrad 0 0 u gs = 0) ∧ ∀ r, weightGrad 1 r u gs = 0 := by
    intro gs hgs
    obtain ⟨t, ht, rfl⟩ := List.mem_iff_getElem.1 hgs
    have ht' : t < idx.length := by omega
    obtain ⟨Pt, gs', e1, e2, e3⟩ := h4 t idx[t] (List.getElem?_eq_getElem ht')
    rw [List.getElem?_eq_getElem ht, Option.some.injEq] at e2
    obtain ⟨Pt', k1, k2, -, k4⟩ := ih (idx.take t).length (by simp; omega) (idx.take t) (fun i hi => hidx i (List.mem_of_mem_take hi)) rfl
    rw [e1] at k1
    injection k1 with k1
    subst k1
    have hi := hidx idx[t] (List.getElem_mem ht')
    obtain ⟨g, g', gs1, hg, z1, z2, z3⟩ := silent_grad x y idx[t] k2 hx hk hy hi.1 hi.2 k4
    rw [hg] at e3
    injection e3 with e3
    rw [e2, ← e3]
    exact ⟨fun c => z1 c, z2 0, fun r => z3 r⟩
  obtain ⟨L, L', Ls, rfl, hul, hneg⟩ := id hu
  match rest, Q, hS, h2, h5 with
  | k :: rest, M :: M' :: Ms, hS, h2, h5 =>
    have hL := h5 0 L M rfl rfl
    have hL' := h5 1 L' M' rfl rfl
    obtain ⟨⟨s1, s2, s3, s4⟩, ⟨s5, s6, -, -⟩, -⟩ := id hS
    have hkept : UnitKept u (L :: L' :: Ls) (M :: M' :: Ms) := by
      refine ⟨L, L', Ls, M, M', Ms, rfl, rfl, ?_, ?_, ?_⟩
      · intro c hc
        rw [hL.1 u hul c hc, adamRun_still]
        intro g hg
        obtain ⟨gs, hgs, rfl⟩ := List.mem_map.1 hg
        exact (hzero gs hgs).1 c
      · rw [hL.2 0 (by omega) u (by omega), adamRun_still]
        intro g hg
        obtain ⟨gs, hgs, rfl⟩ := List.mem_map.1 hg
        exact (hzero gs hgs).2.1
      · intro r hr
        rw [hL'.1 r hr u (by omega), adamRun_still]
        intro g hg
        obtain ⟨gs, hgs, rfl⟩ := List.mem_map.1 hg
        exact (hzero gs hgs).2.2 r
    exact ⟨_, h1, h2, hkept, kept_silent hx hS h2 hu hkept⟩

theorem logits_congr (P : List Layer) : ∀ (sizes : List Nat) (d : Nat) (a b : ℕ → ℝ), Shaped (d :: sizes) P → P ≠ [] → (∀ c < d, a c = b c) → logits P a = logits P b := by
  have aff : ∀ (L : Layer) (d : Nat) (a b : ℕ → ℝ), L.w.cols = d → (∀ c < d, a c = b c) → affine L a = affine L b := by
    intro L d a b hd h
    funext r
    unfold affine
    congr 1
    exact sum_congr rfl fun c hc => by rw [h c (by rw [← hd]; exact mem_range.1 hc)]
  cases P with
  | nil => intro _ _ _ _ _ h; exact absurd rfl h
  | cons L Ls =>
    intro sizes d a b hS _ h
    match sizes, hS with
    | m :: rest, ⟨⟨_, h2, _⟩, _⟩ =>
      cases Ls with
      | nil => exact aff L d a b h2 h
      | cons L' Ls =>
        simp only [logits]
        rw [aff L d a b h2 h]

/-- **C253**, if no unit of the first hidden layer is active on the training set: after any training the network gives all training rows the same answer. -/
theorem C253_all_silent (lr b1 b2 eps : ℝ) {d m : Nat} {rest : List Nat} {P : List Layer} (x y : Mat) (hS : Shaped (d :: m :: rest) P) (hx : x.cols = d) (hr : 0 < x.rows)
    (hk : 0 < lastSize (d :: m :: rest)) (hy : y.cols = lastSize (d :: m :: rest) ∨ y.cols = 1) (h2 : rest ≠ []) (hm : 0 < m) (hu : ∀ u < m, Silent u P x) (idx : List Nat)
    (hidx : ∀ i ∈ idx, i < x.rows ∧ i < y.rows) (Q : List Layer) (hQ : sgdRun lr x y idx P = .ok Q ∨ adamTrain lr b1 b2 eps x y idx P = .ok Q) :
    ∃ z c, forward x Q = .ok (z, c) ∧ z.rows = x.rows ∧ z.cols = lastSize (d :: m :: rest) ∧ ∀ i < x.rows, ∀ j < x.rows, ∀ k, z.e i k = z.e j k := by
  have hQ' : Shaped (d :: m :: rest) Q ∧ ∀ u < m, Silent u Q x := by
    rcases hQ with hQ | hQ
    · refine ⟨?_, fun u hum => ?_⟩
      · obtain ⟨R, r1, r2, -⟩ := C253_sgd lr x y hx hk hy 0 idx P hS (hu 0 hm) hidx
        rw [hQ] at r1; injection r1 with r1; subst r1; exact r2
      · obtain ⟨R, r1, -, -, r4⟩ := C253_sgd lr x y hx hk hy u idx P hS (hu u hum) hidx
        rw [hQ] at r1; injection r1 with r1; subst r1; exact r4
    · refine ⟨?_, fun u hum => ?_⟩
      · obtain ⟨R, _, r1, r2, -⟩ := C52_network lr b1 b2 eps x y hS hx hk hy idx hidx
        rw [hQ] at r1; injection r1 with r1; subst r1; exact r2
      · obtain ⟨R, r1, -, -, r4⟩ := C253_adam lr b1 b2 eps x y hS hx hk hy u (hu u hum) idx hidx
        rw [hQ] at r1; injection r1 with r1; subst r1; exact r4
  obtain ⟨hSQ, hsil⟩ := hQ'
  obtain ⟨yp, caches, f1, f2, -, -⟩ := forward_backward Q _ x hSQ (shaped_ne_nil hSQ) (by simp [hx]) hr hk
  refine ⟨yp, caches, f1, by rw [f2], by rw [f2], ?_⟩
  intro i hi j hj k
  have hlog : ∀ i < x.rows, ∀ j < x.rows, logits Q (x.e i) = logits Q (x.e j) := by
    intro i hi j hj
    match rest, Q, h2, hSQ with
    | l :: rest, L :: L' :: Ls, _, ⟨⟨q1, q2, _, _⟩, hS'⟩ =>
      simp only [logits]
      refine logits_congr _ _ m _ _ hS' (by simp) ?_
      intro c hc
      obtain ⟨_, _, _, e, -, hneg⟩ := hsil c hc
      cases e
      have hz : ∀ i < x.rows, max 0 (affine L (x.e i) c) = 0 := by
        intro i hi
        refine max_eq_left ?_
        unfold affine
        rw [q2, ← hx]
        exact hneg i hi
      rw [hz i hi, hz j hj]
  rw [f2]
  dsimp only
  unfold outAct
  split
  · dsimp only; rw [hlog i hi j hj]
  · dsimp only; rw [hlog i hi j hj]

/-- Features that are not negative and a unit whose initial weights are not positive (the initial bias is 0): the hypotheses are met. -/
theorem C253_initial (rnd : Nat → ℕ → ℕ → ℝ) (d m k : Nat) (x : Mat) (hx : x.cols = d) (hpos : ∀ i j, 0 ≤ x.e i j) (u : Nat) (hu : u < m) (hneg : ∀ c < d, rnd 0 u c ≤ 0) :
    Silent u (initLayers rnd 0 [d, m, k]) x := by
  refine ⟨_, _, _, rfl, hu, ?_⟩
  intro i _
  dsimp only
  rw [add_zero]
  refine sum_nonpos fun c hc => mul_nonpos_of_nonpos_of_nonneg (hneg c (by rw [← hx]; exact mem_range.1 hc)) (hpos i c)

end CML.Net
