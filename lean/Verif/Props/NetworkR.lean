import Verif.Props.Network

set_option linter.unusedSectionVars false

/-! # C49 and C89, further theorems: the array arithmetic of the networks, and what it refuses -/

namespace CML.Net
open Finset

/-- C49: `z + b` with a bias of one row: entry (i, j) is the sum of the two, an axis of length one standing for all its copies; without such a match `ValueError`. -/
theorem C49_bias (z b : Mat) (hb : b.rows = 1) :
    (b.cols = z.cols ∨ b.cols = 1 ∨ z.cols = 1 → ∃ m, addBias z b = .ok m ∧ m.rows = z.rows ∧ m.cols = (if z.cols = 1 then b.cols else z.cols) ∧
      ∀ i j, i < m.rows → j < m.cols → m.e i j = z.e i (if z.cols = 1 then 0 else j) + b.e 0 (if b.cols = 1 then 0 else j)) ∧
    (¬ (b.cols = z.cols ∨ b.cols = 1 ∨ z.cols = 1) → addBias z b = .error .valueError) := by
  unfold addBias
  rw [if_neg (by omega)]
  constructor
  · intro h
    by_cases h1 : b.cols = z.cols
    · rw [if_pos h1]
      refine ⟨_, rfl, rfl, by rw [h1]; simp, ?_⟩
      intro i j _ hj
      dsimp only at hj ⊢
      by_cases h2 : z.cols = 1
      · rw [if_pos h2, if_pos (h1.trans h2)]
        have : j = 0 := by omega
        rw [this]
      · rw [if_neg h2, if_neg (fun h => h2 (h1.symm.trans h))]
    · rw [if_neg h1]
      by_cases h2 : b.cols = 1
      · rw [if_pos h2]
        have h3 : ¬ z.cols = 1 := fun h => h1 (h2.trans h.symm)
        refine ⟨_, rfl, rfl, by rw [if_neg h3], ?_⟩
        intro i j _ hj
        dsimp only
        rw [if_neg h3, if_pos h2]
      · rw [if_neg h2]
        have h3 : z.cols = 1 := by omega
        rw [if_pos h3]
        refine ⟨_, rfl, rfl, by rw [if_pos h3], ?_⟩
        intro i j _ hj
        dsimp only
        rw [if_pos h3, if_neg h2]
  · intro h
    rw [if_neg (by omega), if_neg (by omega), if_neg (by omega)]

/-- C49: a bias of several rows is refused. -/
theorem C49_bias_rows (z b : Mat) (hb : b.rows ≠ 1) : addBias z b = .error .valueError := if_pos hb

/-- C89: an elementwise operation between two arrays with the same number of rows: defined exactly when the columns agree or one of the arrays has one column. -/
theorem C89_elementwise (f : ℝ → ℝ → ℝ) (a b : Mat) :
    (a.rows = b.rows ∧ (a.cols = b.cols ∨ a.cols = 1 ∨ b.cols = 1) → ∃ m, zipWith f a b = .ok m ∧ m.rows = a.rows ∧
      m.cols = (if a.cols = 1 then b.cols else a.cols) ∧
      ∀ i j, i < m.rows → j < m.cols → m.e i j = f (a.e i (if a.cols = 1 then 0 else j)) (b.e i (if b.cols = 1 then 0 else j))) ∧
    (¬ (a.rows = b.rows ∧ (a.cols = b.cols ∨ a.cols = 1 ∨ b.cols = 1)) → zipWith f a b = .error .valueError) := by
  unfold zipWith
  by_cases hr : a.rows = b.rows
  · rw [if_neg (not_not.2 hr)]
    constructor
    · rintro ⟨-, h⟩
      by_cases h1 : a.cols = b.cols
      · rw [if_pos h1]
        refine ⟨_, rfl, rfl, by rw [← h1]; simp, ?_⟩
        intro i j _ hj
        dsimp only at hj ⊢
        by_cases h2 : a.cols = 1
        · rw [if_pos h2, if_pos (h1.symm.trans h2)]
          have : j = 0 := by omega
          rw [this]
        · rw [if_neg h2, if_neg (fun h => h2 (h1.trans h))]
      · rw [if_neg h1]
        by_cases h2 : b.cols = 1
        · rw [if_pos h2]
          have h3 : ¬ a.cols = 1 := fun h => h1 (h.trans h2.symm)
          refine ⟨_, rfl, rfl, by rw [if_neg h3], ?_⟩
          intro i j _ hj
          dsimp only
          rw [if_neg h3, if_pos h2]
        · rw [if_neg h2]
          have h3 : a.cols = 1 := by omega
          rw [if_pos h3]
          refine ⟨_, rfl, rfl, by rw [if_pos h3], ?_⟩
          intro i j _ hj
          dsimp only
          rw [if_pos h3, if_neg h2]
    · intro h
      rw [if_neg (by omega), if_neg (by omega), if_neg (by omega)]
  · rw [if_pos hr]
    exact ⟨fun h => absurd h.1 hr, fun _ => rfl⟩

/-- C49: `w -= lr * g` in place: the gradient may be one row or one column, the shape of `w` is kept; anything else raises `ValueError`. -/
theorem C49_update_in_place (lr : ℝ) (w g : Mat) :
    ((g.rows = w.rows ∨ g.rows = 1) ∧ (g.cols = w.cols ∨ g.cols = 1) → ∃ m, subInPlace lr w g = .ok m ∧ m.rows = w.rows ∧ m.cols = w.cols ∧
      ∀ i j, i < w.rows → j < w.cols → m.e i j = w.e i j - lr * g.e (if g.rows = 1 then 0 else i) (if g.cols = 1 then 0 else j)) ∧
    (¬ ((g.rows = w.rows ∨ g.rows = 1) ∧ (g.cols = w.cols ∨ g.cols = 1)) → subInPlace lr w g = .error .valueError) := by
  unfold subInPlace
  constructor
  · intro h
    rw [if_pos h]
    refine ⟨_, rfl, rfl, rfl, ?_⟩
    intro i j hi hj
    dsimp only
    congr 3
    · split <;> split <;> omega
    · split <;> split <;> omega
  · intro h
    rw [if_neg h]

/-- C49: products of matrices whose inner sizes differ raise `ValueError`. -/
theorem C49_products (a b : Mat) :
    (a.cols ≠ b.cols → matmulT a b = .error .valueError) ∧ (a.cols ≠ b.rows → matmul a b = .error .valueError) ∧
    (a.rows ≠ b.rows → tMatmul a b = .error .valueError) := ⟨fun h => if_neg h, fun h => if_neg h, fun h => if_neg h⟩

/-- C49: samples with another number of features than the first layer of the network make the forward pass, and so `predict`, raise `ValueError`; a network without
layers raises `KeyError`; an output layer of several units and an empty batch raise `ValueError` (the maximum of an empty array). -/
theorem C49_refused (x : Mat) (L : Layer) (rest : List Layer) :
    (x.cols ≠ L.w.cols → forward x (L :: rest) = .error .valueError) ∧ forward x [] = .error .keyError ∧
    (x.rows = 0 → x.cols = L.w.cols → L.w.rows ≠ 1 → L.b.rows = 1 → L.b.cols = L.w.rows → forward x [L] = .error .valueError) := by
  refine ⟨fun h => ?_, rfl, fun h0 h1 h2 h3 h4 => ?_⟩
  · have e : matmulT x L.w = .error .valueError := if_neg h
    cases rest with
    | nil => simp only [forward, e]
    | cons L' rest => simp only [forward, e]
  · have e1 : matmulT x L.w = .ok ⟨x.rows, L.w.rows, fun i j => ∑ l ∈ range x.cols, L.w.e j l * x.e i l⟩ := if_pos h1
    simp only [forward, e1, addBias]
    rw [if_neg (not_not.2 h3), if_pos h4]
    dsimp only
    rw [if_neg h2]
    simp only [softmaxMat, entries, h0]
    rfl

/-- C49: the masks and dictionaries of the backward pass. A mask of another shape is an `IndexError`, no cache an `IndexError`, gradients that do not fit the cached
input a `ValueError`, a layer without gradient a `KeyError`, a gradient that does not fit its layer a `ValueError`, a sample number outside of the data an `IndexError`. -/
theorem C49_backward_refused (lr : ℝ) :
    (∀ out a : Mat, ¬ (out.rows = a.rows ∧ out.cols = a.cols) → reluDiffMat out a = .error .indexError) ∧
    (∀ yp yt : Mat, backward yp yt [] = .error .indexError) ∧
    (∀ (da : Mat) (n : Nat) (c : Cache), da.rows ≠ c.x.rows ∨ da.cols ≠ c.w.rows → getGrad da n c = .error .valueError) ∧
    (∀ (L : Layer) (Ls : List Layer), update lr (L :: Ls) [] = .error .keyError) ∧
    (∀ (L : Layer) (Ls : List Layer) (g : Grad) (gs : List Grad),
      ¬ ((g.dw.rows = L.w.rows ∨ g.dw.rows = 1) ∧ (g.dw.cols = L.w.cols ∨ g.dw.cols = 1)) ∨ ¬ ((g.db.rows = L.b.rows ∨ g.db.rows = 1) ∧ (g.db.cols = L.b.cols ∨ g.db.cols = 1)) →
      update lr (L :: Ls) (g :: gs) = .error .valueError) ∧
    (∀ (x y : Mat) (P : List Layer) (i : Nat), x.rows ≤ i ∨ y.rows ≤ i → sgdStep lr x y P i = .error .indexError) := by
  refine ⟨fun out a h => if_neg h, fun _ _ => rfl, fun da n c h => ?_, fun _ _ => rfl, fun L Ls g gs h => ?_, fun x y P i h => if_pos h⟩
  · rcases h with h | h
    · simp only [getGrad, (C49_products da c.x).2.2 h]
    · simp only [getGrad, (C49_products da c.w).2.1 h]
      cases tMatmul da c.x <;> rfl
  · rcases h with h | h
    · simp only [update, (C49_update_in_place lr L.w g.dw).2 h]
    · simp only [update, (C49_update_in_place lr L.b g.db).2 h]
      cases subInPlace lr L.w g.dw <;> rfl

/-- C49, the exact condition for an epoch of SGD on a network whose shapes fit: it succeeds exactly when the sample number is a row of both arrays. -/
theorem C49_epoch_iff (lr : ℝ) {d m : Nat} {rest : List Nat} {P : List Layer} (x y : Mat) (i : Nat) (hS : Shaped (d :: m :: rest) P) (hx : x.cols = d)
    (hk : 0 < lastSize (d :: m :: rest)) (hy : y.cols = lastSize (d :: m :: rest) ∨ y.cols = 1) :
    (sgdStep lr x y P i = .error .indexError ↔ x.rows ≤ i ∨ y.rows ≤ i) := by
  by_cases h : x.rows ≤ i ∨ y.rows ≤ i
  · exact ⟨fun _ => h, fun _ => if_pos h⟩
  · refine ⟨fun h' => ?_, fun h' => absurd h' h⟩
    obtain ⟨yp, caches, h1, -, -, h4⟩ := forward_backward P _ (rowOf x i) hS (shaped_ne_nil hS) (by simp [rowOf, hx]) (by simp [rowOf]) hk
    have h5 := h4 (rowOf y i) rfl hy
    rw [sgdStep, if_neg h, h1] at h'
    simp only [h5] at h'
    exfalso
    have : ∀ (P : List Layer) (gs : List Grad), gs.length = P.length → update lr P gs ≠ .error .indexError := by
      intro P
      induction P with
      | nil => intro gs _; simp [update]
      | cons L P ih =>
        intro gs hg
        cases gs with
        | nil => simp at hg
        | cons g gs =>
          have := ih gs (by simpa using hg)
          rw [update]
          split
          · split
            · simp
            · next e he => intro hh; rw [he] at this; exact this hh
          · simp
    refine this _ _ ?_ h'
    have hl : ∀ (P : List Layer) (sizes : List Nat) (A : ℕ → ℕ → ℝ) (G : (ℕ → ℕ → ℝ) → ℕ → ℕ → ℝ), (bwd 1 G P A).1.length = P.length := by
      intro P
      induction P with
      | nil => intros; rfl
      | cons L P ih =>
        intro sizes A G
        cases P with
        | nil => rfl
        | cons L' P => simp only [bwd, List.length_cons]; rw [ih sizes]; rfl
    exact hl _ [] _ _

/-- Two rows of three values and a bias of one value: broadcast; a bias of two values: refused. -/
example : (∃ m, addBias ⟨2, 3, fun i j => i + j⟩ ⟨1, 1, fun _ _ => 5⟩ = .ok m ∧ m.cols = 3) ∧
    addBias ⟨2, 3, fun i j => i + j⟩ ⟨1, 2, fun _ _ => 5⟩ = .error .valueError := by
  obtain ⟨m, h1, -, h3, -⟩ := (C49_bias ⟨2, 3, fun i j => i + j⟩ ⟨1, 1, fun _ _ => 5⟩ rfl).1 (.inr (.inl rfl))
  exact ⟨⟨m, h1, by simpa using h3⟩, (C49_bias ⟨2, 3, fun i j => i + j⟩ ⟨1, 2, fun _ _ => 5⟩ rfl).2 (by simp)⟩

end CML.Net
