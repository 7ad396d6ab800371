import Verif.Props.Network
import Verif.Props.Adam
import Verif.Props.RBF
import Verif.Spec.NetworkSym

set_option linter.unusedSectionVars false

/-! # Properties C211-C213: networks and the numbering of samples, features, hidden units and outputs, and motions of the plane -/

namespace CML.Net
open Finset

theorem sum_renumber {σ : ℕ → ℕ} {n : Nat} (h : Renumbers σ n) (f : ℕ → ℝ) : ∑ i ∈ range n, f (σ i) = ∑ i ∈ range n, f i :=
  Finset.sum_nbij σ (fun i hi => Finset.mem_coe.2 (by simpa using h.1 (by simpa using hi)))
    (fun i hi j hj hij => h.2.1 (by simpa using hi) (by simpa using hj) hij)
    (fun j hj => by
      obtain ⟨i, hi, rfl⟩ := h.2.2 (show j ∈ Set.Iio n by simpa using hj)
      exact ⟨i, by simpa using hi, rfl⟩) fun _ _ => rfl

theorem renumbers_lt {σ : ℕ → ℕ} {n : Nat} (h : Renumbers σ n) {i : ℕ} (hi : i < n) : σ i < n := h.1 hi

theorem renumbers_id (n : Nat) : Renumbers id n := Set.bijOn_id _

theorem affine_renumber {σ τ : ℕ → ℕ} {L L' : Layer} (hw : MatRel τ σ L.w L'.w) (hb : MatRel id τ L.b L'.b) (hσ : Renumbers σ L.w.cols)
    (hb1 : L.b.rows = 1) (hb2 : L.b.cols = L.w.rows) {x x' : ℕ → ℝ} (hx : ∀ c < L.w.cols, x' c = x (σ c)) (r : ℕ) (hr : r < L.w.rows) :
    affine L' x' r = affine L x (τ r) := by
  unfold affine
  rw [hw.2.1, hb.2.2 0 (by omega) r (by omega), ← sum_renumber hσ fun c => L.w.e (τ r) c * x c]
  congr 1
  refine Finset.sum_congr rfl fun c hc => ?_
  have hc := Finset.mem_range.1 hc
  rw [hw.2.2 r hr c hc, hx c hc]

/-- Network and renumbered network, on functions: the logits. -/
theorem logits_renumber (P : List Layer) : ∀ (sizes : List Nat) (σs : List (ℕ → ℕ)) (P' : List Layer) (d : Nat) (σ : ℕ → ℕ) (x x' : ℕ → ℝ),
    Shaped sizes P → List.Forall₂ Renumbers σs sizes → NetRel σs P P' → sizes.head? = some d → σs.head? = some σ → (∀ c < d, x' c = x (σ c)) →
    ∀ r < lastSize sizes, logits P' x' r = logits P x (lastNum σs r) := by
  induction P with
  | nil =>
    intro sizes σs P' d σ x x' hS hσ hR hd hs hx r hr
    match sizes, hS, σs, hσ, P', hR with
    | [k], _, [τ], _, [], _ =>
      simp only [List.head?_cons, Option.some.injEq] at hd hs
      subst hd hs
      exact hx r hr
  | cons L Ls ih =>
    intro sizes σs P' d σ x x' hS hσ hR hd hs hx r hr
    match sizes, hS, σs, hσ, P', hR with
    | d' :: m :: rest, ⟨⟨h1, h2, h3, h4⟩, hS'⟩, σ' :: τ :: σs, .cons k1 (.cons k2 k3), L' :: Ls', ⟨r1, r2, r3⟩ =>
      simp only [List.head?_cons, Option.some.injEq] at hd hs
      subst hd hs
      have ha : ∀ q < m, affine L' x' q = affine L x (τ q) := fun q hq =>
        affine_renumber r1 r2 (by rw [h2]; exact k1) h3 (by rw [h4, h1]) (by rw [h2]; exact hx) q (by omega)
      match Ls, Ls', rest, σs, hS', k3, r3 with
      | [], [], [], [], _, _, _ => exact ha r hr
      | [], _ :: _, _, _ :: _, _, _, r3 => exact r3.elim
      | [], _ :: _, _, [], _, _, r3 => exact r3.elim
      | _ :: _, [], _, _ :: _, _, _, r3 => exact r3.elim
      | _ :: _, [], _, [], _, _, r3 => exact r3.elim
      | A :: As, B :: Bs, _, _, hS', k3, r3 =>
        exact ih (m :: _) (τ :: _) (B :: Bs) m τ _ _ hS' (.cons k2 k3) r3 rfl rfl (fun c hc => by rw [ha c hc]) r hr

theorem netRel_ne_nil {σs : List (ℕ → ℕ)} {P P' : List Layer} (h : NetRel σs P P') (hP : P ≠ []) : P' ≠ [] := by
  cases P with
  | nil => exact absurd rfl hP
  | cons L Ls => cases P' with
    | nil => cases σs with
      | nil => exact h.elim
      | cons σ σs => cases σs <;> exact h.elim
    | cons _ _ => simp

theorem netRel_shaped (P : List Layer) : ∀ (sizes : List Nat) (σs : List (ℕ → ℕ)) (P' : List Layer), Shaped sizes P →
    NetRel σs P P' → Shaped sizes P' := by
  induction P with
  | nil =>
    intro sizes σs P' hS hR
    match sizes, hS, σs, P', hR with
    | [k], _, [τ], [], _ => trivial
  | cons L Ls ih =>
    intro sizes σs P' hS hR
    match sizes, hS, σs, P', hR with
    | d' :: m :: rest, ⟨⟨h1, h2, h3, h4⟩, hS'⟩, σ' :: τ :: σs, L' :: Ls', ⟨r1, r2, r3⟩ =>
      exact ⟨⟨by rw [r1.1, h1], by rw [r1.2.1, h2], by rw [r2.1, h3], by rw [r2.2.1, h4]⟩, ih _ _ _ hS' r3⟩

theorem softmaxRow_renumber {σ : ℕ → ℕ} {k : Nat} (h : Renumbers σ k) {z z' : ℕ → ℝ} (hz : ∀ j < k, z' j = z (σ j)) (j : ℕ) (hj : j < k) :
    softmaxRow k z' j = softmaxRow k z (σ j) := by
  unfold softmaxRow
  rw [hz j hj, ← sum_renumber h fun l => Real.exp (z l)]
  congr 1
  exact Finset.sum_congr rfl fun l hl => by rw [hz l (Finset.mem_range.1 hl)]

theorem outAct_renumber {σ : ℕ → ℕ} {k : Nat} (h : Renumbers σ k) {Z Z' : ℕ → ℕ → ℝ} {ρ : ℕ → ℕ} {n : Nat} (hz : ∀ i < n, ∀ j < k, Z' i j = Z (ρ i) (σ j)) (i : ℕ)
    (hi : i < n) (j : ℕ) (hj : j < k) : outAct k Z' i j = outAct k Z (ρ i) (σ j) := by
  unfold outAct
  by_cases hk : k = 1
  · rw [if_pos hk, if_pos hk, hz i hi j hj]
  · rw [if_neg hk, if_neg hk]; exact softmaxRow_renumber h (hz i hi) j hj

theorem lastNum_renumbers : ∀ {σs : List (ℕ → ℕ)} {sizes : List Nat}, List.Forall₂ Renumbers σs sizes → Renumbers (lastNum σs) (lastSize sizes)
  | [], [], _ => renumbers_id 0
  | [_], [_], .cons h _ => h
  | _ :: b :: l, _ :: b' :: l', .cons _ h => lastNum_renumbers (σs := b :: l) (sizes := b' :: l') h

/-- **C211.** Predictions: renumbering the features, the hidden units and the outputs of a network, and the features and the rows of the data, renumbers the rows and the columns of the
predictions and changes nothing else. -/
theorem C211_predictions {d m : Nat} {rest : List Nat} {P P' : List Layer} {σ : ℕ → ℕ} {σs : List (ℕ → ℕ)} {ρ : ℕ → ℕ} {x x' : Mat}
    (hS : Shaped (d :: m :: rest) P) (hσ : List.Forall₂ Renumbers (σ :: σs) (d :: m :: rest)) (hP : NetRel (σ :: σs) P P') (hx : x.cols = d)
    (hn : 0 < x.rows) (hk : 0 < lastSize (d :: m :: rest)) (hxx : MatRel ρ σ x x') :
    ∃ y y' c c', forward x P = .ok (y, c) ∧ forward x' P' = .ok (y', c') ∧ MatRel ρ (lastNum (σ :: σs)) y y' := by
  obtain ⟨y, c, h1, h2, -⟩ := forward_backward P _ x hS (shaped_ne_nil hS) (by simp [hx]) hn hk
  have hS' := netRel_shaped P _ _ P' hS hP
  obtain ⟨y', c', h1', h2', -⟩ := forward_backward P' _ x' hS' (shaped_ne_nil hS') (by simp [hx, hxx.2.1]) (by rw [hxx.1]; exact hn) hk
  refine ⟨y, y', c, c', h1, h1', ?_⟩
  subst h2 h2'
  refine ⟨hxx.1, rfl, fun i hi j hj => ?_⟩
  exact outAct_renumber (lastNum_renumbers hσ) (n := x.rows)
    (fun i hi j hj => logits_renumber P _ _ P' d σ _ _ hS hσ hP rfl rfl (fun c hc => hxx.2.2 i hi c (by omega)) j hj) i hi j hj

/-- Gradients and renumbered gradients. -/
def GradRel : List (ℕ → ℕ) → List Layer → List Grad → List Grad → Prop
  | σ :: τ :: rest, L :: Ls, g :: gs, g' :: gs' => (g.dw.rows = L.w.rows ∧ g.dw.cols = L.w.cols ∧ g.db.rows = 1 ∧ g.db.cols = L.w.rows) ∧
      MatRel τ σ g.dw g'.dw ∧ MatRel id τ g.db g'.db ∧ GradRel (τ :: rest) Ls gs gs'
  | [_], [], [], [] => True
  | _, _, _, _ => False

theorem gradOf_renumber {σ τ : ℕ → ℕ} {L L' : Layer} (hw : MatRel τ σ L.w L'.w) {da da' A A' : ℕ → ℕ → ℝ} {n : Nat} {ρ : ℕ → ℕ} (hρ : Renumbers ρ n)
    (hA : ∀ i < n, ∀ c < L.w.cols, A' i c = A (ρ i) (σ c)) (hd : ∀ i < n, ∀ r < L.w.rows, da' i r = da (ρ i) (τ r)) :
    MatRel τ σ (gradOf n L da A).dw (gradOf n L' da' A').dw ∧ MatRel id τ (gradOf n L da A).db (gradOf n L' da' A').db := by
  refine ⟨⟨hw.1, hw.2.1, fun r hr c hc => ?_⟩, ⟨rfl, hw.1, fun i hi r hr => ?_⟩⟩
  · show (∑ l ∈ range n, da' l r * A' l c) / (n : ℝ) = (∑ l ∈ range n, da l (τ r) * A l (σ c)) / (n : ℝ)
    rw [← sum_renumber hρ fun l => da l (τ r) * A l (σ c)]
    congr 1
    refine Finset.sum_congr rfl fun l hl => ?_
    have hl := Finset.mem_range.1 hl
    rw [hd l hl r hr, hA l hl c hc]
  · show (∑ l ∈ range n, da' l r) / (n : ℝ) = (∑ l ∈ range n, da l (τ r)) / (n : ℝ)
    rw [← sum_renumber hρ fun l => da l (τ r)]
    congr 1
    exact Finset.sum_congr rfl fun l hl => hd l (Finset.mem_range.1 hl) r hr

theorem out_renumber {σ τ : ℕ → ℕ} {L L' : Layer} (hw : MatRel τ σ L.w L'.w) (hτ : Renumbers τ L.w.rows) {da da' : ℕ → ℕ → ℝ} {n : Nat} {ρ : ℕ → ℕ}
    (hd : ∀ i < n, ∀ r < L.w.rows, da' i r = da (ρ i) (τ r)) (i : ℕ) (hi : i < n) (c : ℕ) (hc : c < L.w.cols) :
    ∑ r ∈ range L'.w.rows, da' i r * L'.w.e r c = ∑ r ∈ range L.w.rows, da (ρ i) r * L.w.e r (σ c) := by
  rw [hw.1, ← sum_renumber hτ fun r => da (ρ i) r * L.w.e r (σ c)]
  refine Finset.sum_congr rfl fun r hr => ?_
  have hr := Finset.mem_range.1 hr
  rw [hd i hi r hr, hw.2.2 r hr c hc]

theorem bwd_renumber (n : Nat) {ρ : ℕ → ℕ} (hρ : Renumbers ρ n) (G G' : (ℕ → ℕ → ℝ) → ℕ → ℕ → ℝ) (P : List Layer) :
    ∀ (sizes : List Nat) (σs : List (ℕ → ℕ)) (P' : List Layer) (d : Nat) (σ : ℕ → ℕ) (A A' : ℕ → ℕ → ℝ),
    P ≠ [] → Shaped sizes P → List.Forall₂ Renumbers σs sizes → NetRel σs P P' → sizes.head? = some d → σs.head? = some σ →
    (∀ i < n, ∀ c < d, A' i c = A (ρ i) (σ c)) →
    (∀ Z Z' : ℕ → ℕ → ℝ, (∀ i < n, ∀ j < lastSize sizes, Z' i j = Z (ρ i) (lastNum σs j)) → ∀ i < n, ∀ j < lastSize sizes, G' Z' i j = G Z (ρ i) (lastNum σs j)) →
    GradRel σs P (bwd n G P A).1 (bwd n G' P' A').1 ∧ ∀ i < n, ∀ c < d, (bwd n G' P' A').2 i c = (bwd n G P A).2 (ρ i) (σ c) := by
  induction P with
  | nil => intro _ _ _ _ _ _ _ h; exact absurd rfl h
  | cons L Ls ih =>
    intro sizes σs P' d σ A A' _ hS hσ hR hd hs hA hG
    match sizes, hS, σs, hσ, P', hR with
    | d' :: m :: rest, ⟨⟨h1, h2, h3, h4⟩, hS'⟩, σ' :: τ :: σs, .cons k1 (.cons k2 k3), L' :: Ls', ⟨r1, r2, r3⟩ =>
      simp only [List.head?_cons, Option.some.injEq] at hd hs
      subst hd hs
      have ha : ∀ i < n, ∀ q < m, affine L' (A' i) q = affine L (A (ρ i)) (τ q) := fun i hi q hq =>
        affine_renumber r1 r2 (by rw [h2]; exact k1) h3 (by rw [h4, h1]) (by rw [h2]; exact hA i hi) q (by omega)
      match Ls, Ls', rest, σs, hS', k3, r3 with
      | [], [], [], [], _, _, _ =>
        have hda : ∀ i < n, ∀ r < L.w.rows, G' (fun i => affine L' (A' i)) i r = G (fun i => affine L (A i)) (ρ i) (τ r) := by
          rw [h1]; exact hG _ _ ha
        obtain ⟨g1, g2⟩ := gradOf_renumber r1 hρ (by rw [h2]; exact hA) hda
        refine ⟨⟨⟨rfl, rfl, rfl, rfl⟩, g1, g2, trivial⟩, ?_⟩
        intro i hi c hc
        exact out_renumber r1 (by rw [h1]; exact k2) hda i hi c (by rw [h2]; exact hc)
      | [], _ :: _, _, _ :: _, _, _, r3 => exact r3.elim
      | [], _ :: _, _, [], _, _, r3 => exact r3.elim
      | _ :: _, [], _, _ :: _, _, _, r3 => exact r3.elim
      | _ :: _, [], _, [], _, _, r3 => exact r3.elim
      | B :: Bs, B' :: Bs', _, _, hS', k3, r3 =>
        have hA' : ∀ i < n, ∀ c < m, max 0 (affine L' (A' i) c) = max 0 (affine L (A (ρ i)) (τ c)) := fun i hi c hc => by rw [ha i hi c hc]
        obtain ⟨e1, e2⟩ := ih (m :: _) (τ :: _) (B' :: Bs') m τ (fun i r => max 0 (affine L (A i) r)) (fun i r => max 0 (affine L' (A' i) r)) (by simp) hS'
          (.cons k2 k3) r3 rfl rfl hA' hG
        have hda : ∀ i < n, ∀ r < L.w.rows,
            reluDiff ((bwd n G' (B' :: Bs') fun i r => max 0 (affine L' (A' i) r)).2 i r) (max 0 (affine L' (A' i) r)) =
            reluDiff ((bwd n G (B :: Bs) fun i r => max 0 (affine L (A i) r)).2 (ρ i) (τ r)) (max 0 (affine L (A (ρ i)) (τ r))) := by
          intro i hi r hr
          rw [e2 i hi r (by omega), hA' i hi r (by omega)]
        obtain ⟨g1, g2⟩ := gradOf_renumber r1 hρ (by rw [h2]; exact hA) (da := fun i r => reluDiff ((bwd n G (B :: Bs) fun i r => max 0 (affine L (A i) r)).2 i r)
          (max 0 (affine L (A i) r))) (da' := fun i r => reluDiff ((bwd n G' (B' :: Bs') fun i r => max 0 (affine L' (A' i) r)).2 i r) (max 0 (affine L' (A' i) r))) hda
        refine ⟨⟨⟨rfl, rfl, rfl, rfl⟩, g1, g2, e1⟩, ?_⟩
        intro i hi c hc
        exact out_renumber r1 (by rw [h1]; exact k2) (da := fun i r => reluDiff ((bwd n G (B :: Bs) fun i r => max 0 (affine L (A i) r)).2 i r)
          (max 0 (affine L (A i) r))) (da' := fun i r => reluDiff ((bwd n G' (B' :: Bs') fun i r => max 0 (affine L' (A' i) r)).2 i r) (max 0 (affine L' (A' i) r)))
          hda i hi c (by rw [h2]; exact hc)

theorem outErr_renumber {k : Nat} {σ ρ : ℕ → ℕ} (h : Renumbers σ k) {n : Nat} {y y' : ℕ → ℕ → ℝ} (hy : ∀ i < n, ∀ j < k, y' i j = y (ρ i) (σ j))
    (Z Z' : ℕ → ℕ → ℝ) (hZ : ∀ i < n, ∀ j < k, Z' i j = Z (ρ i) (σ j)) : ∀ i < n, ∀ j < k, outErr k k y' Z' i j = outErr k k y Z (ρ i) (σ j) := by
  intro i hi j hj
  unfold outErr
  by_cases hk : k = 1
  · rw [if_pos hk, if_pos hk]
    simp only [if_pos hk]
    rw [outAct_renumber h hZ i hi j hj, hy i hi j hj]
  · rw [if_neg hk, if_neg hk, softmaxRow_renumber h (hZ i hi) j hj, hy i hi j hj]

/-- The gradients on one sample. -/
theorem sampleGrad_renumber {d m : Nat} {rest : List Nat} {P P' : List Layer} {σ : ℕ → ℕ} {σs : List (ℕ → ℕ)} {ρ : ℕ → ℕ} {x x' y y' : Mat}
    (hS : Shaped (d :: m :: rest) P) (hσ : List.Forall₂ Renumbers (σ :: σs) (d :: m :: rest)) (hP : NetRel (σ :: σs) P P') (hx : x.cols = d)
    (hk : 0 < lastSize (d :: m :: rest)) (hy : y.cols = lastSize (d :: m :: rest)) (hxx : MatRel ρ σ x x') (hyy : MatRel ρ (lastNum (σ :: σs)) y y')
    (i : Nat) (hi : i < x.rows ∧ i < y.rows) (hi' : ρ i < x.rows ∧ ρ i < y.rows) :
    ∃ gs gs', sampleGrad x y P (ρ i) = .ok gs ∧ sampleGrad x' y' P' i = .ok gs' ∧ GradRel (σ :: σs) P gs gs' := by
  have hS' := netRel_shaped P _ _ P' hS hP
  obtain ⟨yp, cs, h1, -, -, h4⟩ := forward_backward P _ (rowOf x (ρ i)) hS (shaped_ne_nil hS) (by simp [rowOf, hx]) (by simp [rowOf]) hk
  obtain ⟨yp', cs', h1', -, -, h4'⟩ := forward_backward P' _ (rowOf x' i) hS' (shaped_ne_nil hS') (by simp [rowOf, hx, hxx.2.1]) (by simp [rowOf]) hk
  have h5 := h4 (rowOf y (ρ i)) rfl (.inl hy)
  have h5' := h4' (rowOf y' i) rfl (.inl (hyy.2.1.trans hy))
  refine ⟨_, _, (by rw [sampleGrad, if_neg (by omega), h1]; dsimp only; rw [h5] : sampleGrad x y P (ρ i) = .ok _), (by
    rw [sampleGrad, if_neg (by rw [hxx.1, hyy.1]; omega), h1']; dsimp only; rw [h5'] : sampleGrad x' y' P' i = .ok _), ?_⟩
  refine (bwd_renumber 1 (ρ := id) (renumbers_id 1) _ _ P _ _ P' d σ _ _ (shaped_ne_nil hS) hS hσ hP rfl rfl ?_ ?_).1
  · intro l _ c hc
    exact hxx.2.2 i hi.1 c (by omega)
  · rw [show (rowOf y (ρ i)).cols = lastSize (d :: m :: rest) from hy, show (rowOf y' i).cols = lastSize (d :: m :: rest) from hyy.2.1.trans hy]
    exact fun Z Z' hZ => outErr_renumber (ρ := id) (n := 1) (y := (rowOf y (ρ i)).e) (y' := (rowOf y' i).e) (lastNum_renumbers hσ)
      (fun l _ j hj => hyy.2.2 i hi.2 j (by omega)) Z Z' hZ

theorem sub_renumber (lr : ℝ) {ρ τ : ℕ → ℕ} {w w' g g' : Mat} (hw : MatRel ρ τ w w') (hg : MatRel ρ τ g g') (h1 : g.rows = w.rows) (h2 : g.cols = w.cols) :
    ∃ r r', subInPlace lr w g = .ok r ∧ subInPlace lr w' g' = .ok r' ∧ MatRel ρ τ r r' ∧ r.rows = w.rows ∧ r.cols = w.cols := by
  refine ⟨⟨w.rows, w.cols, fun i j => w.e i j - lr * g.e (if g.rows = w.rows then i else 0) (if g.cols = w.cols then j else 0)⟩,
    ⟨w'.rows, w'.cols, fun i j => w'.e i j - lr * g'.e (if g'.rows = w'.rows then i else 0) (if g'.cols = w'.cols then j else 0)⟩,
    by rw [subInPlace, if_pos ⟨.inl h1, .inl h2⟩],
    by rw [subInPlace, if_pos ⟨.inl (by rw [hg.1, hw.1, h1]), .inl (by rw [hg.2.1, hw.2.1, h2])⟩], ⟨hw.1, hw.2.1, fun i hi j hj => ?_⟩, rfl, rfl⟩
  simp only [if_pos h1, if_pos h2, if_pos (show g'.rows = w'.rows by rw [hg.1, hw.1, h1]), if_pos (show g'.cols = w'.cols by rw [hg.2.1, hw.2.1, h2])]
  rw [hw.2.2 i hi j hj, hg.2.2 i (by rw [h1]; exact hi) j (by rw [h2]; exact hj)]

theorem update_renumber (lr : ℝ) (P : List Layer) : ∀ (sizes : List Nat) (σs : List (ℕ → ℕ)) (P' : List Layer) (gs gs' : List Grad), Shaped sizes P →
    NetRel σs P P' → GradRel σs P gs gs' → ∃ Q Q', update lr P gs = .ok Q ∧ update lr P' gs' = .ok Q' ∧ Shaped sizes Q ∧ NetRel σs Q Q' := by
  induction P with
  | nil =>
    intro sizes σs P' gs gs' hS hR hg
    match sizes, hS, σs, P', hR with
    | [k], _, [τ], [], _ => exact ⟨[], [], rfl, rfl, trivial, trivial⟩
  | cons L Ls ih =>
    intro sizes σs P' gs gs' hS hR hg
    match sizes, hS, σs, P', hR, gs, gs', hg with
    | d' :: m :: rest, ⟨⟨h1, h2, h3, h4⟩, hS'⟩, σ' :: τ :: σs, L' :: Ls', ⟨r1, r2, r3⟩, g :: gs, g' :: gs', ⟨⟨a1, a2, a3, a4⟩, b1, b2, b3⟩ =>
      obtain ⟨Q, Q', q1, q2, q3, q4⟩ := ih _ _ _ _ _ hS' r3 b3
      obtain ⟨w, w', e1, e2, e3, e4, e5⟩ := sub_renumber lr r1 b1 a1 a2
      obtain ⟨b, b', f1, f2, f3, f4, f5⟩ := sub_renumber lr r2 b2 (by rw [a3, h3]) (by rw [a4, h4, h1])
      refine ⟨⟨w, b⟩ :: Q, ⟨w', b'⟩ :: Q', ?_, ?_, ⟨⟨by rw [e4, h1], by rw [e5, h2], by rw [f4, h3], by rw [f5, h4]⟩, q3⟩, e3, f3, q4⟩
      · simp only [update, e1, f1, q1]
      · simp only [update, e2, f2, q2]

/-- **C211.** Training with stochastic gradient descent: renumbering the features, the hidden units and the outputs of the initial network, the features and the label columns of the data
and the samples (with the drawn indices) renumbers the trained network in the same way and changes nothing else, for any depth, widths, learning rate, data and sequence of draws. -/
theorem C211_sgd (lr : ℝ) {d m : Nat} {rest : List Nat} {σ : ℕ → ℕ} {σs : List (ℕ → ℕ)} {ρ : ℕ → ℕ} {x x' y y' : Mat}
    (hσ : List.Forall₂ Renumbers (σ :: σs) (d :: m :: rest)) (hx : x.cols = d) (hk : 0 < lastSize (d :: m :: rest)) (hy : y.cols = lastSize (d :: m :: rest))
    (hxx : MatRel ρ σ x x') (hyy : MatRel ρ (lastNum (σ :: σs)) y y') (idx : List Nat)
    (hidx : ∀ i ∈ idx, (i < x.rows ∧ i < y.rows) ∧ ρ i < x.rows ∧ ρ i < y.rows) :
    ∀ P P', Shaped (d :: m :: rest) P → NetRel (σ :: σs) P P' →
    ∃ Q Q', sgdRun lr x y (idx.map ρ) P = .ok Q ∧ sgdRun lr x' y' idx P' = .ok Q' ∧ Shaped (d :: m :: rest) Q ∧ NetRel (σ :: σs) Q Q' := by
  have hstep : ∀ (x y : Mat) (P : List Layer) (i : Nat), sgdStep lr x y P i = match sampleGrad x y P i with
      | .error e => .error e
      | .ok gs => update lr P gs := by
    intro x y P i
    unfold sgdStep sampleGrad
    by_cases hc : x.rows ≤ i ∨ y.rows ≤ i
    · rw [if_pos hc, if_pos hc]
    · rw [if_neg hc, if_neg hc]
      rcases forward (rowOf x i) P with _ | ⟨yp, cs⟩
      · rfl
      · dsimp only
        rcases backward yp (rowOf y i) cs with _ | ⟨gs, _⟩ <;> rfl
  induction idx with
  | nil => intro P P' hS hP; exact ⟨P, P', rfl, rfl, hS, hP⟩
  | cons i is ih =>
    intro P P' hS hP
    obtain ⟨gs, gs', h1, h2, h3⟩ := sampleGrad_renumber hS hσ hP hx hk hy hxx hyy i (hidx i (by simp)).1 (hidx i (by simp)).2
    obtain ⟨Q, Q', h4, h5, h6, h7⟩ := update_renumber lr P _ _ P' gs gs' hS hP h3
    obtain ⟨R, R', h8, h9, h10⟩ := ih (fun j hj => hidx j (by simp [hj])) Q Q' h6 h7
    refine ⟨R, R', ?_, ?_, h10⟩
    · rw [List.map_cons, sgdRun, hstep, h1]; dsimp only; rw [h4]; exact h8
    · rw [sgdRun, hstep, h2]; dsimp only; rw [h5]; exact h9

/-- The arrays of a key and the renumbered arrays. -/
def AdamMatRel (ρ τ : ℕ → ℕ) (s s' : AdamMat) : Prop :=
  SameShape s.m s.p ∧ SameShape s.v s.p ∧ MatRel ρ τ s.p s'.p ∧ MatRel ρ τ s.m s'.m ∧ MatRel ρ τ s.v s'.v

/-- The state of the optimiser and the renumbered state. -/
def AdamRel : List (ℕ → ℕ) → List AdamLayer → List AdamLayer → Prop
  | σ :: τ :: rest, s :: ss, s' :: ss' => AdamMatRel τ σ s.w s'.w ∧ AdamMatRel id τ s.b s'.b ∧ AdamRel (τ :: rest) ss ss'
  | [_], [], [] => True
  | _, _, _ => False

theorem adamMat_renumber (lr b1 b2 eps : ℝ) (t : Nat) {ρ τ : ℕ → ℕ} {s s' : AdamMat} {g g' : Mat} (hs : AdamMatRel ρ τ s s') (hg : MatRel ρ τ g g')
    (hgs : SameShape g s.p) (hρ : Renumbers ρ s.p.rows) (hτ : Renumbers τ s.p.cols) :
    ∃ r r', s.step lr b1 b2 eps t g = .ok r ∧ s'.step lr b1 b2 eps t g' = .ok r' ∧ AdamMatRel ρ τ r r' ∧ r.p.rows = s.p.rows ∧ r.p.cols = s.p.cols := by
  obtain ⟨⟨r, c, pe⟩, ⟨mr, mc, me⟩, ⟨vr, vc, ve⟩⟩ := s
  obtain ⟨⟨r', c', pe'⟩, ⟨mr', mc', me'⟩, ⟨vr', vc', ve'⟩⟩ := s'
  obtain ⟨gr, gc, ge⟩ := g
  obtain ⟨gr', gc', ge'⟩ := g'
  obtain ⟨⟨a1, a2⟩, ⟨a3, a4⟩, ⟨p1, p2, p3⟩, ⟨m1, m2, m3⟩, ⟨v1, v2, v3⟩⟩ := hs
  obtain ⟨g1, g2, g3⟩ := hg
  obtain ⟨k1, k2⟩ := hgs
  dsimp only at a1 a2 a3 a4 p1 p2 p3 m1 m2 m3 v1 v2 v3 g1 g2 g3 k1 k2 hρ hτ
  subst a1 a2 a3 a4 p1 p2 m1 m2 v1 v2 g1 g2 k1 k2
  simp only [AdamMat.step, bcast_same, subInPlace]
  simp only [true_or, and_self, if_true]
  refine ⟨_, _, rfl, rfl, ?_⟩
  refine ⟨⟨⟨rfl, rfl⟩, ⟨rfl, rfl⟩, ⟨rfl, rfl, ?_⟩, ⟨rfl, rfl, ?_⟩, rfl, rfl, ?_⟩, rfl, rfl⟩ <;>
  · intro i hi j hj
    dsimp only at hi hj ⊢
    simp only [bidx_lt hi, bidx_lt hj, bidx_lt (renumbers_lt hρ hi), bidx_lt (renumbers_lt hτ hj), p3 i hi j hj, m3 i hi j hj, v3 i hi j hj, g3 i hi j hj]

theorem adamRel_netRel (S : List AdamLayer) : ∀ (σs : List (ℕ → ℕ)) (S' : List AdamLayer), AdamRel σs S S' → NetRel σs (layersOf S) (layersOf S') := by
  induction S with
  | nil =>
    intro σs S' h
    match σs, S', h with
    | [_], [], _ => trivial
  | cons s ss ih =>
    intro σs S' h
    match σs, S', h with
    | _ :: _ :: _, s' :: ss', ⟨h1, h2, h3⟩ => exact ⟨h1.2.2.1, h2.2.2.1, ih _ _ h3⟩

theorem adamInit_renumber (P : List Layer) : ∀ (σs : List (ℕ → ℕ)) (P' : List Layer), NetRel σs P P' → AdamRel σs (adamInit P) (adamInit P') := by
  induction P with
  | nil =>
    intro σs P' h
    match σs, P', h with
    | [_], [], _ => trivial
  | cons L Ls ih =>
    intro σs P' h
    match σs, P', h with
    | _ :: _ :: _, L' :: Ls', ⟨h1, h2, h3⟩ =>
      exact ⟨⟨⟨rfl, rfl⟩, ⟨rfl, rfl⟩, h1, ⟨h1.1, h1.2.1, fun _ _ _ _ => rfl⟩, ⟨h1.1, h1.2.1, fun _ _ _ _ => rfl⟩⟩,
        ⟨⟨rfl, rfl⟩, ⟨rfl, rfl⟩, h2, ⟨h2.1, h2.2.1, fun _ _ _ _ => rfl⟩, ⟨h2.1, h2.2.1, fun _ _ _ _ => rfl⟩⟩, ih _ _ h3⟩

theorem adamUpdate_renumber (lr b1 b2 eps : ℝ) (t : Nat) (S : List AdamLayer) : ∀ (sizes : List Nat) (σs : List (ℕ → ℕ)) (S' : List AdamLayer) (gs gs' : List Grad),
    Shaped sizes (layersOf S) → List.Forall₂ Renumbers σs sizes → AdamRel σs S S' → GradRel σs (layersOf S) gs gs' →
    ∃ Q Q', adamUpdate lr b1 b2 eps t S gs = .ok Q ∧ adamUpdate lr b1 b2 eps t S' gs' = .ok Q' ∧ Shaped sizes (layersOf Q) ∧ AdamRel σs Q Q' := by
  induction S with
  | nil =>
    intro sizes σs S' gs gs' hS hσ hR hg
    match sizes, hS, σs, S', hR with
    | [k], _, [τ], [], _ => exact ⟨[], [], rfl, rfl, trivial, trivial⟩
  | cons s ss ih =>
    intro sizes σs S' gs gs' hS hσ hR hg
    match sizes, hS, σs, hσ, S', hR, gs, gs', hg with
    | d' :: m :: rest, ⟨⟨h1, h2, h3, h4⟩, hS'⟩, σ' :: τ :: σs, .cons c1 (.cons c2 c3), s' :: ss', ⟨r1, r2, r3⟩, g :: gs, g' :: gs', ⟨⟨a1, a2, a3, a4⟩, v1, v2, v3⟩ =>
      dsimp only at h1 h2 h3 h4 a1 a2 a3 a4
      obtain ⟨Q, Q', q1, q2, q3, q4⟩ := ih _ _ _ _ _ hS' (.cons c2 c3) r3 v3
      obtain ⟨w, w', e1, e2, e3, e4, e5⟩ := adamMat_renumber lr b1 b2 eps t r1 v1 ⟨a1, a2⟩ (by rw [h1]; exact c2) (by rw [h2]; exact c1)
      obtain ⟨b, b', f1, f2, f3, f4, f5⟩ := adamMat_renumber lr b1 b2 eps t r2 v2 ⟨by rw [a3, h3], by rw [a4, h4, h1]⟩ (renumbers_id _) (by rw [h4]; exact c2)
      refine ⟨⟨w, b⟩ :: Q, ⟨w', b'⟩ :: Q', ?_, ?_, ⟨⟨by rw [← h1]; exact e4, by rw [← h2]; exact e5, by rw [← h3]; exact f4, by rw [← h4]; exact f5⟩, q3⟩, e3, f3, q4⟩
      · simp only [adamUpdate, e1, f1, q1]
      · simp only [adamUpdate, e2, f2, q2]

theorem adamLoop_renumber (lr b1 b2 eps : ℝ) {d m : Nat} {rest : List Nat} {σ : ℕ → ℕ} {σs : List (ℕ → ℕ)} {ρ : ℕ → ℕ} {x x' y y' : Mat}
    (hσ : List.Forall₂ Renumbers (σ :: σs) (d :: m :: rest)) (hx : x.cols = d) (hk : 0 < lastSize (d :: m :: rest)) (hy : y.cols = lastSize (d :: m :: rest))
    (hxx : MatRel ρ σ x x') (hyy : MatRel ρ (lastNum (σ :: σs)) y y') (idx : List Nat)
    (hidx : ∀ i ∈ idx, (i < x.rows ∧ i < y.rows) ∧ ρ i < x.rows ∧ ρ i < y.rows) :
    ∀ t S S', Shaped (d :: m :: rest) (layersOf S) → AdamRel (σ :: σs) S S' →
    ∃ Q Q', adamLoop lr b1 b2 eps x y t (idx.map ρ) S = .ok Q ∧ adamLoop lr b1 b2 eps x' y' t idx S' = .ok Q' ∧ Shaped (d :: m :: rest) (layersOf Q) ∧
      AdamRel (σ :: σs) Q Q' := by
  induction idx with
  | nil => intro t S S' hS hR; exact ⟨S, S', rfl, rfl, hS, hR⟩
  | cons i is ih =>
    intro t S S' hS hR
    obtain ⟨gs, gs', h1, h2, h3⟩ := sampleGrad_renumber hS hσ (adamRel_netRel S _ _ hR) hx hk hy hxx hyy i (hidx i (by simp)).1 (hidx i (by simp)).2
    obtain ⟨Q, Q', h4, h5, h6, h7⟩ := adamUpdate_renumber lr b1 b2 eps t S _ _ S' gs gs' hS hσ hR h3
    obtain ⟨R, R', h8, h9, h10⟩ := ih (fun j hj => hidx j (by simp [hj])) (t + 1) Q Q' h6 h7
    refine ⟨R, R', ?_, ?_, h10⟩
    · rw [List.map_cons, adamLoop, h1]; dsimp only; rw [h4]; exact h8
    · rw [adamLoop, h2]; dsimp only; rw [h5]; exact h9

/-- **C211.** Training with Adam: the same statement as for stochastic gradient descent. -/
theorem C211_adam (lr b1 b2 eps : ℝ) {d m : Nat} {rest : List Nat} {σ : ℕ → ℕ} {σs : List (ℕ → ℕ)} {ρ : ℕ → ℕ} {x x' y y' : Mat}
    (hσ : List.Forall₂ Renumbers (σ :: σs) (d :: m :: rest)) (hx : x.cols = d) (hk : 0 < lastSize (d :: m :: rest)) (hy : y.cols = lastSize (d :: m :: rest))
    (hxx : MatRel ρ σ x x') (hyy : MatRel ρ (lastNum (σ :: σs)) y y') (idx : List Nat)
    (hidx : ∀ i ∈ idx, (i < x.rows ∧ i < y.rows) ∧ ρ i < x.rows ∧ ρ i < y.rows)
    (P P' : List Layer) (hS : Shaped (d :: m :: rest) P) (hP : NetRel (σ :: σs) P P') :
    ∃ Q Q', adamTrain lr b1 b2 eps x y (idx.map ρ) P = .ok Q ∧ adamTrain lr b1 b2 eps x' y' idx P' = .ok Q' ∧ Shaped (d :: m :: rest) Q ∧ NetRel (σ :: σs) Q Q' := by
  have hl : layersOf (adamInit P) = P := by simp [layersOf, adamInit, AdamMat.init, Function.comp_def]
  obtain ⟨Q, Q', h1, h2, h3, h4⟩ := adamLoop_renumber lr b1 b2 eps hσ hx hk hy hxx hyy idx hidx 1 (adamInit P) (adamInit P') (by rw [hl]; exact hS) (adamInit_renumber P _ _ hP)
  exact ⟨layersOf Q, layersOf Q', by rw [adamTrain, h1], by rw [adamTrain, h2], h3, adamRel_netRel Q _ _ h4⟩

/-- **C211.** The numbering of the hidden units does not matter: when only hidden units are renumbered, the networks trained on the same samples with the same draws answer every query
in the same way. -/
theorem C211_hidden (lr b1 b2 eps : ℝ) {d m : Nat} {rest : List Nat} {σs : List (ℕ → ℕ)} {x y q : Mat}
    (hσ : List.Forall₂ Renumbers (id :: σs) (d :: m :: rest)) (hlast : lastNum (id :: σs) = id) (hx : x.cols = d) (hq : q.cols = d) (hq' : 0 < q.rows)
    (hk : 0 < lastSize (d :: m :: rest)) (hy : y.cols = lastSize (d :: m :: rest)) (idx : List Nat) (hidx : ∀ i ∈ idx, i < x.rows ∧ i < y.rows)
    (P P' : List Layer) (hS : Shaped (d :: m :: rest) P) (hP : NetRel (id :: σs) P P') :
    (∃ Q Q' z z' c c', sgdRun lr x y idx P = .ok Q ∧ sgdRun lr x y idx P' = .ok Q' ∧ forward q Q = .ok (z, c) ∧ forward q Q' = .ok (z', c') ∧ MatRel id id z z') ∧
    ∃ Q Q' z z' c c', adamTrain lr b1 b2 eps x y idx P = .ok Q ∧ adamTrain lr b1 b2 eps x y idx P' = .ok Q' ∧ forward q Q = .ok (z, c) ∧
      forward q Q' = .ok (z', c') ∧ MatRel id id z z' := by
  have hid : ∀ A : Mat, MatRel id id A A := fun A => ⟨rfl, rfl, fun _ _ _ _ => rfl⟩
  constructor
  · obtain ⟨Q, Q', h1, h2, h3, h4⟩ := C211_sgd lr hσ hx hk hy (hid x) (by rw [hlast]; exact hid y) idx (fun i hi => ⟨hidx i hi, hidx i hi⟩) P P' hS hP
    obtain ⟨z, z', c, c', k1, k2, k3⟩ := C211_predictions h3 hσ h4 hq hq' hk (hid q)
    exact ⟨Q, Q', z, z', c, c', by simpa using h1, h2, k1, k2, by rw [hlast] at k3; exact k3⟩
  · obtain ⟨Q, Q', h1, h2, h3, h4⟩ := C211_adam lr b1 b2 eps hσ hx hk hy (hid x) (by rw [hlast]; exact hid y) idx (fun i hi => ⟨hidx i hi, hidx i hi⟩) P P' hS hP
    obtain ⟨z, z', c, c', k1, k2, k3⟩ := C211_predictions h3 hσ h4 hq hq' hk (hid q)
    exact ⟨Q, Q', z, z', c, c', by simpa using h1, h2, k1, k2, by rw [hlast] at k3; exact k3⟩

/-- The renumberings that exchange the units `u` and `v` of one layer. -/
def swapAt (u v : Nat) : Nat → List Nat → List (ℕ → ℕ)
  | _, [] => []
  | 0, _ :: rest => (Equiv.swap u v : ℕ → ℕ) :: rest.map fun _ => id
  | l + 1, _ :: rest => id :: swapAt u v l rest

theorem renumbers_swap {u v n : Nat} (hu : u < n) (hv : v < n) : Renumbers (Equiv.swap u v) n := by
  have hm : ∀ i < n, Equiv.swap u v i < n := fun i hi => by
    by_cases h1 : i = u
    · rw [h1, Equiv.swap_apply_left]; exact hv
    · by_cases h2 : i = v
      · rw [h2, Equiv.swap_apply_right]; exact hu
      · rw [Equiv.swap_apply_of_ne_of_ne h1 h2]; exact hi
  exact ⟨hm, (Equiv.swap u v).injective.injOn, fun j hj => ⟨Equiv.swap u v j, hm j hj, Equiv.swap_apply_self u v j⟩⟩

theorem ids_renumber : ∀ sizes : List Nat, List.Forall₂ Renumbers (sizes.map fun _ => id) sizes
  | [] => .nil
  | _ :: rest => .cons (renumbers_id _) (ids_renumber rest)

theorem ids_netRel (P : List Layer) : ∀ sizes, Shaped sizes P → NetRel (sizes.map fun _ => id) P P := by
  induction P with
  | nil => intro sizes hS; match sizes, hS with
    | [_], _ => trivial
  | cons L Ls ih => intro sizes hS; match sizes, hS with
    | _ :: _ :: _, ⟨_, hS'⟩ => exact ⟨⟨rfl, rfl, fun _ _ _ _ => rfl⟩, ⟨rfl, rfl, fun _ _ _ _ => rfl⟩, ih _ hS'⟩

theorem swap_eq {f : ℕ → ℝ} {u v : Nat} (h : f u = f v) (i : ℕ) : f i = f (Equiv.swap u v i) := by
  by_cases h1 : i = u
  · rw [h1, Equiv.swap_apply_left]; exact h
  · by_cases h2 : i = v
    · rw [h2, Equiv.swap_apply_right]; exact h.symm
    · rw [Equiv.swap_apply_of_ne_of_ne h1 h2]

theorem twins_iff (u v : Nat) (l : Nat) : ∀ (sizes : List Nat) (P : List Layer), Shaped sizes P →
    (Twins l u v P ↔ ∃ n, sizes[l + 1]? = some n ∧ u < n ∧ v < n ∧ l + 2 < sizes.length ∧ NetRel (swapAt u v (l + 1) sizes) P P) := by
  induction l with
  | zero =>
    intro sizes P hS
    match sizes, P, hS with
    | [k], [], _ => simp [Twins]
    | [d, m], [L], _ => simp [Twins]
    | d :: m :: k :: rest, L :: L' :: Ls, ⟨⟨h1, h2, h3, h4⟩, ⟨h5, h6, h7, h8⟩, hS'⟩ =>
      constructor
      · rintro ⟨A, B, e1, e2, e3, e4, e5, e6, e7⟩
        simp only [List.getElem?_cons_zero, Option.some.injEq, List.getElem?_cons_succ] at e1 e2
        subst e1 e2
        refine ⟨m, rfl, by omega, by omega, by simp, ⟨rfl, rfl, fun i hi j hj => swap_eq (f := fun i => L.w.e i j) (e5 j hj) i⟩, ⟨rfl, rfl, fun i hi j hj => ?_⟩,
          ⟨rfl, rfl, fun i hi j hj => swap_eq (f := fun j => L'.w.e i j) (e7 i hi) j⟩, ⟨rfl, rfl, fun _ _ _ _ => rfl⟩, ids_netRel Ls _ hS'⟩
        have : i = 0 := by omega
        subst this
        exact swap_eq (f := fun j => L.b.e 0 j) e6 j
      · rintro ⟨n, hn, hu, hv, -, r1, r2, r3, -⟩
        simp only [List.getElem?_cons_succ, List.getElem?_cons_zero, Option.some.injEq] at hn
        subst hn
        refine ⟨L, L', rfl, rfl, by omega, by omega, fun j hj => ?_, ?_, fun i hi => ?_⟩
        · have := r1.2.2 u (by omega) j hj; rwa [Equiv.swap_apply_left] at this
        · have := r2.2.2 0 (by omega) u (by omega); rwa [Equiv.swap_apply_left] at this
        · have := r3.2.2 i hi u (by omega); rwa [Equiv.swap_apply_left] at this
  | succ l ih =>
    intro sizes P hS
    match sizes, P, hS with
    | [k], [], _ => simp [Twins]
    | d :: m :: rest, L :: Ls, ⟨⟨h1, h2, h3, h4⟩, hS'⟩ =>
      have : Twins (l + 1) u v (L :: Ls) ↔ Twins l u v Ls := Iff.rfl
      rw [this, ih (m :: rest) Ls hS']
      constructor
      · rintro ⟨n, hn, hu, hv, hl, hR⟩
        refine ⟨n, hn, hu, hv, by simpa using hl, ⟨rfl, rfl, fun _ _ _ _ => rfl⟩, ⟨rfl, rfl, fun _ _ _ _ => rfl⟩, hR⟩
      · rintro ⟨n, hn, hu, hv, hl, -, -, hR⟩
        exact ⟨n, hn, hu, hv, by simpa using hl, hR⟩

theorem swapAt_renumbers {u v n : Nat} (hu : u < n) (hv : v < n) : ∀ (l : Nat) (sizes : List Nat), sizes[l]? = some n → List.Forall₂ Renumbers (swapAt u v l sizes) sizes
  | 0, k :: rest, h => by
    simp only [List.getElem?_cons_zero, Option.some.injEq] at h
    subst h
    exact .cons (renumbers_swap hu hv) (ids_renumber rest)
  | l + 1, k :: rest, h => .cons (renumbers_id _) (swapAt_renumbers hu hv l rest (by simpa using h))

theorem lastNum_ids : ∀ sizes : List Nat, lastNum (sizes.map fun _ => id) = id
  | [] => rfl
  | [_] => rfl
  | _ :: b :: l => lastNum_ids (b :: l)

theorem lastNum_swapAt (u v : Nat) : ∀ (l : Nat) (sizes : List Nat), l + 1 < sizes.length → lastNum (swapAt u v l sizes) = id
  | 0, _ :: b :: l, _ => lastNum_ids (b :: l)
  | n + 1, _ :: b :: rest, h => by
    cases n with
    | zero => exact lastNum_swapAt u v 0 (b :: rest) (by simpa using h)
    | succ n => exact lastNum_swapAt u v (n + 1) (b :: rest) (by simpa using h)

/-- **C212.** Two units of a hidden layer that start with the same weights, the same bias and the same outgoing weights are the same after any training, with either optimiser, any data,
learning rate, number of epochs and draws: such a network never uses its second unit. -/
theorem C212_twins (lr b1 b2 eps : ℝ) {d m : Nat} {rest : List Nat} {x y : Mat} (hx : x.cols = d) (hk : 0 < lastSize (d :: m :: rest))
    (hy : y.cols = lastSize (d :: m :: rest)) (idx : List Nat) (hidx : ∀ i ∈ idx, i < x.rows ∧ i < y.rows) (P : List Layer) (hS : Shaped (d :: m :: rest) P)
    (l u v : Nat) (hT : Twins l u v P) :
    (∃ Q, sgdRun lr x y idx P = .ok Q ∧ Twins l u v Q) ∧ ∃ Q, adamTrain lr b1 b2 eps x y idx P = .ok Q ∧ Twins l u v Q := by
  have hid : ∀ A : Mat, MatRel id id A A := fun A => ⟨rfl, rfl, fun _ _ _ _ => rfl⟩
  obtain ⟨n, hn, hu, hv, hl, hR⟩ := (twins_iff u v l _ P hS).1 hT
  have hlast := lastNum_swapAt u v (l + 1) _ hl
  have hσ := swapAt_renumbers hu hv (l + 1) _ hn
  have he : swapAt u v (l + 1) (d :: m :: rest) = id :: swapAt u v l (m :: rest) := rfl
  rw [he] at hR hlast hσ
  constructor
  · obtain ⟨Q, Q', h1, h2, h3, h4⟩ := C211_sgd lr hσ hx hk hy (hid x) (by rw [hlast]; exact hid y) idx (fun i hi => ⟨hidx i hi, hidx i hi⟩) P P hS hR
    rw [List.map_id, h2] at h1
    cases h1
    exact ⟨Q, h2, (twins_iff u v l _ Q h3).2 ⟨n, hn, hu, hv, hl, h4⟩⟩
  · obtain ⟨Q, Q', h1, h2, h3, h4⟩ := C211_adam lr b1 b2 eps hσ hx hk hy (hid x) (by rw [hlast]; exact hid y) idx (fun i hi => ⟨hidx i hi, hidx i hi⟩) P P hS hR
    rw [List.map_id, h2] at h1
    cases h1
    exact ⟨Q, h2, (twins_iff u v l _ Q h3).2 ⟨n, hn, hu, hv, hl, h4⟩⟩

/-- The hypotheses of the theorems above are met: a network with two features, three hidden units and two outputs, two of the hidden units exchanged, and a network two of whose hidden units
are twins. -/
example : Shaped [2, 3, 2] (initLayers (fun _ i j => i + 2 * j) 0 [2, 3, 2]) ∧
    List.Forall₂ Renumbers [id, (Equiv.swap 0 2 : ℕ → ℕ), id] [2, 3, 2] ∧
    NetRel [id, (Equiv.swap 0 2 : ℕ → ℕ), id] (initLayers (fun _ i j => i + 2 * j) 0 [2, 3, 2])
      [⟨⟨3, 2, fun i j => (Equiv.swap 0 2 i : ℕ) + 2 * j⟩, ⟨1, 3, fun _ _ => 0⟩⟩, ⟨⟨2, 3, fun i j => i + 2 * (Equiv.swap 0 2 j : ℕ)⟩, ⟨1, 2, fun _ _ => 0⟩⟩] ∧
    Twins 0 0 1 (initLayers (fun l i j => if l = 0 then j else i) 0 [2, 3, 2]) := by
  refine ⟨⟨⟨rfl, rfl, rfl, rfl⟩, ⟨rfl, rfl, rfl, rfl⟩, trivial⟩, .cons (renumbers_id _) (.cons (renumbers_swap (by decide) (by decide)) (.cons (renumbers_id _) .nil)),
    ⟨⟨rfl, rfl, fun _ _ _ _ => rfl⟩, ⟨rfl, rfl, fun _ _ _ _ => rfl⟩, ⟨rfl, rfl, fun _ _ _ _ => rfl⟩, ⟨rfl, rfl, fun _ _ _ _ => rfl⟩, trivial⟩, ?_⟩
  exact ⟨_, _, rfl, rfl, by decide, by decide, by simp, rfl, by simp⟩

end CML.Net

namespace CML.RBF
open Finset CML.Net

theorem motion_dist (M : Motion) (a b : ℕ → ℝ) : ∑ l ∈ range 2, (M.at a l - M.at b l) ^ 2 = ∑ l ∈ range 2, (a l - b l) ^ 2 := by
  simp only [Finset.sum_range_succ, Finset.sum_range_zero, zero_add, Motion.at]
  linear_combination (a 0 - b 0) ^ 2 * M.pp + (a 1 - b 1) ^ 2 * M.qq + 2 * (a 0 - b 0) * (a 1 - b 1) * M.pq

theorem sq_moved (M : Motion) {x x' c c' : ℕ → ℝ} (hx : ∀ l < 2, x' l = M.at x l) (hc : ∀ l < 2, c' l = M.at c l) :
    ∑ l ∈ range 2, (x' l - c' l) ^ 2 = ∑ l ∈ range 2, (x l - c l) ^ 2 := by
  rw [← motion_dist M x c]
  exact Finset.sum_congr rfl fun l hl => by rw [hx l (Finset.mem_range.1 hl), hc l (Finset.mem_range.1 hl)]

theorem paramsRel_shaped {M : Motion} {η : ℕ → ℕ} {h : Nat} {P P' : Params} (hP : Shaped h P) (hR : ParamsRel M η P P') : Shaped h P' := by
  obtain ⟨⟨a1, a2⟩, ⟨a3, a4⟩, ⟨a5, a6⟩, a7, a8⟩ := hP
  obtain ⟨⟨b1, b2, -⟩, ⟨b3, b4, -⟩, ⟨b5, b6, -⟩, b7, b8, -⟩ := hR
  exact ⟨⟨b1.trans a1, b2.trans a2⟩, ⟨b3.trans a3, b4.trans a4⟩, ⟨b5.trans a5, b6.trans a6⟩, b7.trans a7, b8.trans a8⟩

theorem output_moved {M : Motion} {η : ℕ → ℕ} {h : Nat} {P P' : Params} (hP : Shaped h P) (hη : Renumbers η h) (hR : ParamsRel M η P P') {x x' : ℕ → ℝ}
    (hx : ∀ l < 2, x' l = M.at x l) :
    output h 2 (P'.w.e 0) (P'.beta.e 0) (P'.b.e 0 0) P'.c.e x' = output h 2 (P.w.e 0) (P.beta.e 0) (P.b.e 0 0) P.c.e x := by
  obtain ⟨⟨a1, a2⟩, ⟨a3, a4⟩, ⟨a5, a6⟩, a7, a8⟩ := hP
  obtain ⟨⟨-, -, b1⟩, ⟨-, -, b2⟩, ⟨-, -, b3⟩, -, -, b4⟩ := hR
  unfold output
  rw [b2 0 (by omega) 0 (by omega), ← sum_renumber hη fun u => P.w.e 0 u * Real.exp (-P.beta.e 0 u * ∑ l ∈ range 2, (x l - P.c.e u l) ^ 2)]
  congr 1
  refine Finset.sum_congr rfl fun u hu => ?_
  have hu := Finset.mem_range.1 hu
  rw [b1 0 (by omega) u (by omega), b4 0 (by omega) u (by omega), sq_moved M hx (b3 u (by omega))]
  rfl

/-- **C213.** Predictions: moving the plane (rotation, reflection, translation) together with the centres, renumbering the hidden units and reordering the queries reorders the predictions and
changes nothing else. -/
theorem C213_predictions {M : Motion} {η ρ : ℕ → ℕ} {h : Nat} {P P' : Params} (hP : Shaped h P) (hη : Renumbers η h) (hR : ParamsRel M η P P') {x x' : Mat}
    (hx : x.cols = 2) (hxx : Moved M ρ x x') :
    ∃ y y' c c', forward x P = .ok (y, c) ∧ forward x' P' = .ok (y', c') ∧ MatRel ρ id y y' := by
  obtain ⟨y, c, h1, h2, h3, h4, -⟩ := forward_eq hP x hx
  obtain ⟨y', c', h1', h2', h3', h4', -⟩ := forward_eq (paramsRel_shaped hP hR) x' (hxx.2.1.trans hx)
  refine ⟨y, y', c, c', h1, h1', by rw [h2', h2, hxx.1], by rw [h3', h3], fun i hi j hj => ?_⟩
  have : j = 0 := by omega
  subst this
  rw [h4' i]
  exact (output_moved hP hη hR (hxx.2.2 i (by omega))).trans (h4 (ρ i)).symm

theorem step_moved (lr : ℝ) {M : Motion} {η ρ : ℕ → ℕ} {h : Nat} {P P' : Params} (hP : Shaped h P) (hη : Renumbers η h) (hR : ParamsRel M η P P') {x x' y y' : Mat}
    (hρ : Renumbers ρ x.rows) (hx : x.cols = 2) (hyr : y.rows = x.rows) (hyc : y.cols = 1) (hxx : Moved M ρ x x') (hyy : MatRel ρ id y y') :
    ∃ Q Q', step lr x (.mat y) P = .ok Q ∧ step lr x' (.mat y') P' = .ok Q' ∧ Shaped h Q ∧ ParamsRel M η Q Q' := by
  have hP' := paramsRel_shaped hP hR
  obtain ⟨yp, c, g, f1, f2, d1, d2, d3, d4, d5, d6, e1, e2, e3⟩ := backward_eq hP x y hx hyr hyc
  obtain ⟨yp', c', g', f1', f2', d1', d2', d3', d4', d5', d6', e1', e2', e3'⟩ := backward_eq hP' x' y' (hxx.2.1.trans hx) (by rw [hyy.1, hxx.1, hyr]) (by rw [hyy.2.1, hyc])
  have hout : ∀ i < x.rows, output h 2 (P'.w.e 0) (P'.beta.e 0) (P'.b.e 0 0) P'.c.e (x'.e i) = output h 2 (P.w.e 0) (P.beta.e 0) (P.b.e 0 0) P.c.e (x.e (ρ i)) :=
    fun i hi => output_moved hP hη hR (hxx.2.2 i hi)
  obtain ⟨⟨a1, a2⟩, ⟨a3, a4⟩, ⟨a5, a6⟩, a7, a8⟩ := hP
  obtain ⟨rw, rb, rc, rbeta⟩ := hR
  have hsq : ∀ i < x.rows, ∀ u < h, ∑ l ∈ range 2, (x'.e i l - P'.c.e u l) ^ 2 = ∑ l ∈ range 2, (x.e (ρ i) l - P.c.e (η u) l) ^ 2 :=
    fun i hi u hu => sq_moved M (hxx.2.2 i hi) (rc.2.2 u (by omega))
  have hbe : ∀ u < h, P'.beta.e 0 u = P.beta.e 0 (η u) := fun u hu => rbeta.2.2 0 (by omega) u (by omega)
  have hww : ∀ u < h, P'.w.e 0 u = P.w.e 0 (η u) := fun u hu => rw.2.2 0 (by omega) u (by omega)
  have hy0 : ∀ i < x.rows, y'.e i 0 = y.e (ρ i) 0 := fun i hi => hyy.2.2 i (by omega) 0 (by omega)
  have gw : MatRel id η g.dw g'.dw := by
    refine ⟨by rw [d1', d1], by rw [d2', d2], fun i hi u hu => ?_⟩
    have : i = 0 := by omega
    subst this
    show g'.dw.e 0 u = g.dw.e 0 (η u)
    have hu' : u < h := by omega
    rw [e1' u hu', e1 (η u) (renumbers_lt hη hu'), hxx.1, ← sum_renumber hρ fun i => (output h 2 (P.w.e 0) (P.beta.e 0) (P.b.e 0 0) P.c.e (x.e i) - y.e i 0) *
      Real.exp (-P.beta.e 0 (η u) * ∑ l ∈ range 2, (x.e i l - P.c.e (η u) l) ^ 2)]
    congr 1
    refine Finset.sum_congr rfl fun i hi => ?_
    have hi := Finset.mem_range.1 hi
    rw [hout i hi, hsq i hi u hu', hbe u hu', hy0 i hi]
  have gb : MatRel id id g.db g'.db := by
    refine ⟨by rw [d3', d3], by rw [d4', d4], fun i hi u hu => ?_⟩
    have h0 : i = 0 := by omega
    have h1 : u = 0 := by omega
    subst h0 h1
    show g'.db.e 0 0 = g.db.e 0 0
    rw [e2', e2, hxx.1, ← sum_renumber hρ fun i => output h 2 (P.w.e 0) (P.beta.e 0) (P.b.e 0 0) P.c.e (x.e i) - y.e i 0]
    congr 1
    refine Finset.sum_congr rfl fun i hi => ?_
    have hi := Finset.mem_range.1 hi
    rw [hout i hi, hy0 i hi]
  have gbeta : MatRel id η g.dbeta g'.dbeta := by
    refine ⟨by rw [d5', d5], by rw [d6', d6], fun i hi u hu => ?_⟩
    have : i = 0 := by omega
    subst this
    show g'.dbeta.e 0 u = g.dbeta.e 0 (η u)
    have hu' : u < h := by omega
    rw [e3' u hu', e3 (η u) (renumbers_lt hη hu'), hxx.1, ← sum_renumber hρ fun i => output h 2 (P.w.e 0) (P.beta.e 0) (P.b.e 0 0) P.c.e (x.e i) * P.w.e 0 (η u) *
      Real.exp (-P.beta.e 0 (η u) * ∑ l ∈ range 2, (x.e i l - P.c.e (η u) l) ^ 2) * (-∑ l ∈ range 2, (x.e i l - P.c.e (η u) l) ^ 2)]
    congr 1
    refine Finset.sum_congr rfl fun i hi => ?_
    have hi := Finset.mem_range.1 hi
    rw [hout i hi, hsq i hi u hu', hbe u hu', hww u hu']
  obtain ⟨w1, w1', k1, k2, k3, k4, k5⟩ := sub_renumber lr rw gw (by omega) (by omega)
  obtain ⟨b1, b1', l1, l2, l3, l4, l5⟩ := sub_renumber lr rb gb (by omega) (by omega)
  obtain ⟨t1, t1', m1, m2, m3, m4, m5⟩ := sub_renumber lr rbeta gbeta (by omega) (by omega)
  refine ⟨⟨w1, b1, P.c, t1⟩, ⟨w1', b1', P'.c, t1'⟩, ?_, ?_, ⟨⟨k4.trans a1, k5.trans a2⟩, ⟨l4.trans a3, l5.trans a4⟩, ⟨a5, a6⟩, m4.trans a7, m5.trans a8⟩, k3, l3, rc, m3⟩
  · simp only [step, f1, f2, update, k1, l1, m1]
  · simp only [step, f1', f2', update, k2, l2, m2]

/-- **C213.** Training: moving the plane together with the data and the centres, renumbering the hidden units and reordering the samples gives the network that is moved and renumbered in the
same way, for any number of hidden units, epochs and samples and any learning rate. -/
theorem C213_training (lr : ℝ) {M : Motion} {η ρ : ℕ → ℕ} {h : Nat} (hη : Renumbers η h) {x x' y y' : Mat} (hρ : Renumbers ρ x.rows) (hx : x.cols = 2) (hyr : y.rows = x.rows)
    (hyc : y.cols = 1) (hxx : Moved M ρ x x') (hyy : MatRel ρ id y y') (epochs : Nat) : ∀ P P', Shaped h P → ParamsRel M η P P' →
    ∃ Q Q', run lr x (.mat y) epochs P = .ok Q ∧ run lr x' (.mat y') epochs P' = .ok Q' ∧ Shaped h Q ∧ ParamsRel M η Q Q' := by
  induction epochs with
  | zero => intro P P' hP hR; exact ⟨P, P', rfl, rfl, hP, hR⟩
  | succ n ih =>
    intro P P' hP hR
    obtain ⟨Q, Q', h1, h2, h3, h4⟩ := step_moved lr hP hη hR hρ hx hyr hyc hxx hyy
    obtain ⟨R, R', h5, h6, h7⟩ := ih Q Q' h3 h4
    exact ⟨R, R', by rw [run, h1]; exact h5, by rw [run, h2]; exact h6, h7⟩

/-- **C213.** So the order of the training samples and the numbering of the hidden units do not change any prediction, and a motion of the plane changes no prediction at a moved query. -/
theorem C213_moved_queries (lr : ℝ) {M : Motion} {η ρ ρ' : ℕ → ℕ} {h : Nat} (hη : Renumbers η h) {x x' y y' q q' : Mat} (hρ : Renumbers ρ x.rows) (hx : x.cols = 2)
    (hyr : y.rows = x.rows) (hyc : y.cols = 1) (hxx : Moved M ρ x x') (hyy : MatRel ρ id y y') (hq : q.cols = 2) (hqq : Moved M ρ' q q') (epochs : Nat) (P P' : Params)
    (hP : Shaped h P) (hR : ParamsRel M η P P') :
    ∃ Q Q' z z' c c', run lr x (.mat y) epochs P = .ok Q ∧ run lr x' (.mat y') epochs P' = .ok Q' ∧ forward q Q = .ok (z, c) ∧ forward q' Q' = .ok (z', c') ∧
      MatRel ρ' id z z' := by
  obtain ⟨Q, Q', h1, h2, h3, h4⟩ := C213_training lr hη hρ hx hyr hyc hxx hyy epochs P P' hP hR
  obtain ⟨z, z', c, c', h5, h6, h7⟩ := C213_predictions h3 hη h4 hq hqq
  exact ⟨Q, Q', z, z', c, c', h1, h2, h5, h6, h7⟩

/-- The quarter turn with a translation. -/
def quarter : Motion := ⟨fun l => if l = 0 then 0 else -1, fun l => if l = 0 then 1 else 0, fun l => l + 1, by norm_num, by norm_num, by norm_num⟩

/-- The hypotheses of the theorems above are met: two samples and two hidden units exchanged, the plane turned and translated. -/
example : Renumbers (Equiv.swap 0 1) 2 ∧ Moved quarter (Equiv.swap 0 1) ⟨2, 2, fun i j => i + 3 * j⟩ ⟨2, 2, fun i j => quarter.at (fun j => (Equiv.swap 0 1 i : ℕ) + 3 * j) j⟩ ∧
    ParamsRel quarter (Equiv.swap 0 1) (init 2 (fun i j => i + j) fun _ j => j)
      ⟨⟨1, 2, fun _ _ => 0⟩, ⟨1, 1, fun _ _ => 0⟩, ⟨2, 2, fun i j => quarter.at (fun j => (Equiv.swap 0 1 i : ℕ) + j) j⟩, ⟨1, 2, fun _ j => (Equiv.swap 0 1 j : ℕ)⟩⟩ :=
  ⟨renumbers_swap (by decide) (by decide), ⟨rfl, rfl, fun _ _ _ _ => rfl⟩, ⟨rfl, rfl, fun _ _ _ _ => rfl⟩, ⟨rfl, rfl, fun _ _ _ _ => rfl⟩, ⟨rfl, rfl, fun _ _ _ _ => rfl⟩,
    rfl, rfl, fun _ _ _ _ => rfl⟩

end CML.RBF
