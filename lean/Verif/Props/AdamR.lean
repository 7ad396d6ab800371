import Verif.Props.Adam

set_option linter.unusedSectionVars false

/-! # C52, further theorems: broadcasting, and what Adam refuses -/

namespace CML.Net
open Finset

/-- numpy's rule for one axis: the lengths agree, or one of them is 1 and the other is the length of the result. -/
def BroadcastTo (a b n : Nat) : Prop := (a = b ∧ n = a) ∨ (a = 1 ∧ n = b) ∨ (b = 1 ∧ n = a)

theorem bdim_iff (a b n : Nat) : bdim a b = some n ↔ BroadcastTo a b n := by
  unfold bdim BroadcastTo
  by_cases h1 : a = b
  · rw [if_pos h1]; simp only [Option.some.injEq]; omega
  · rw [if_neg h1]
    by_cases h2 : a = 1
    · rw [if_pos h2]; simp only [Option.some.injEq]; omega
    · rw [if_neg h2]
      by_cases h3 : b = 1
      · rw [if_pos h3]; simp only [Option.some.injEq]; omega
      · rw [if_neg h3]
        simp only [reduceCtorEq, false_iff]
        omega

theorem bdim_none (a b : Nat) : bdim a b = none ↔ ∀ n, ¬ BroadcastTo a b n := by
  constructor
  · intro h n hn
    rw [(bdim_iff a b n).2 hn] at h
    cases h
  · intro h
    cases hb : bdim a b with
    | none => rfl
    | some n => exact absurd ((bdim_iff a b n).1 hb) (h n)

/-- C52, the arithmetic between parameters, moments and gradients: two arrays combine exactly when numpy can broadcast both axes, into an array of the
broadcast shape in which an axis of length one stands for all its copies; otherwise the operation raises `ValueError`. -/
theorem C52_broadcast (f : ℝ → ℝ → ℝ) (a b : Mat) :
    (∀ r c, BroadcastTo a.rows b.rows r → BroadcastTo a.cols b.cols c →
      ∃ m, bcast f a b = .ok m ∧ m.rows = r ∧ m.cols = c ∧
        ∀ i j, i < r → j < c →
          m.e i j = f (a.e (if a.rows = 1 then 0 else i) (if a.cols = 1 then 0 else j)) (b.e (if b.rows = 1 then 0 else i) (if b.cols = 1 then 0 else j))) ∧
    ((∀ r, ¬ BroadcastTo a.rows b.rows r) ∨ (∀ c, ¬ BroadcastTo a.cols b.cols c) → bcast f a b = .error .valueError) := by
  constructor
  · intro r c hr hc
    refine ⟨_, by rw [bcast, (bdim_iff _ _ _).2 hr, (bdim_iff _ _ _).2 hc], rfl, rfl, ?_⟩
    intro i j _ _
    rfl
  · rintro (h | h)
    · rw [bcast, (bdim_none _ _).2 h]
    · rw [bcast, (bdim_none _ _).2 h]
      cases bdim a.rows b.rows <;> rfl

/-- A bias row and a matrix of three rows combine to three rows; two rows and three rows do not combine. -/
example : (∃ m, bcast (· + ·) ⟨1, 2, fun _ j => j⟩ ⟨3, 2, fun i _ => i⟩ = .ok m ∧ m.rows = 3 ∧ m.cols = 2) ∧
    bcast (· + ·) ⟨2, 2, fun _ j => j⟩ ⟨3, 2, fun i _ => i⟩ = .error .valueError := by
  obtain ⟨h1, -⟩ := C52_broadcast (· + ·) ⟨1, 2, fun _ j => j⟩ ⟨3, 2, fun i _ => i⟩
  obtain ⟨m, h, hr, hc, -⟩ := h1 3 2 (.inr (.inl ⟨rfl, rfl⟩)) (.inl ⟨rfl, rfl⟩)
  refine ⟨⟨m, h, hr, hc⟩, (C52_broadcast (· + ·) ⟨2, 2, fun _ j => j⟩ ⟨3, 2, fun i _ => i⟩).2 (.inl ?_)⟩
  rintro r (h | h | h) <;> simp at h

/-- C52: gradients that do not broadcast against the parameter make the step raise `ValueError`; so do gradients that broadcast only by widening the
parameter (the update is in place). -/
theorem C52_step_refused (lr b1 b2 eps : ℝ) (t : Nat) (p g : Mat)
    (h : ¬ ((g.rows = p.rows ∨ g.rows = 1) ∧ (g.cols = p.cols ∨ g.cols = 1))) : (AdamMat.init p).step lr b1 b2 eps t g = .error .valueError := by
  unfold AdamMat.step AdamMat.init
  dsimp only
  cases hr : bdim p.rows g.rows with
  | none => simp only [bcast, hr]
  | some r =>
    cases hc : bdim p.cols g.cols with
    | none => simp only [bcast, hr, hc]
    | some c =>
      have h1 := (bdim_iff _ _ _).1 hr
      have h2 := (bdim_iff _ _ _).1 hc
      simp only [bcast, hr, hc, bdim_self]
      unfold subInPlace
      rw [if_neg]
      dsimp only
      unfold BroadcastTo at h1 h2
      omega

/-- C52: a layer for which there is no gradient is a `KeyError`. -/
theorem C52_missing_gradient (lr b1 b2 eps : ℝ) (t : Nat) (s : AdamLayer) (ss : List AdamLayer) :
    adamUpdate lr b1 b2 eps t (s :: ss) [] = .error .keyError := rfl

/-- C52: a gradient of the wrong shape for the weights or the bias of the first layer is a `ValueError`. -/
theorem C52_wrong_gradient (lr b1 b2 eps : ℝ) (t : Nat) (L : Layer) (ss : List AdamLayer) (g : Grad) (gs : List Grad)
    (h : ¬ ((g.dw.rows = L.w.rows ∨ g.dw.rows = 1) ∧ (g.dw.cols = L.w.cols ∨ g.dw.cols = 1)) ∨
      ¬ ((g.db.rows = L.b.rows ∨ g.db.rows = 1) ∧ (g.db.cols = L.b.cols ∨ g.db.cols = 1))) :
    adamUpdate lr b1 b2 eps t (⟨.init L.w, .init L.b⟩ :: ss) (g :: gs) = .error .valueError := by
  rw [adamUpdate]
  dsimp only
  rcases h with h | h
  · rw [C52_step_refused lr b1 b2 eps t _ _ h]
  · rw [C52_step_refused lr b1 b2 eps t _ _ h]
    cases (AdamMat.init L.w).step lr b1 b2 eps t g.dw <;> rfl

/-- C52, C90: in a network of any depth an epoch on sample `i` computes gradients exactly when `i` is the number of a row of `x` and of `y`; otherwise it
raises `IndexError`. -/
theorem C52_sample_iff {d m : Nat} {rest : List Nat} {P : List Layer} (x y : Mat) (i : Nat) (hS : Shaped (d :: m :: rest) P) (hx : x.cols = d)
    (hk : 0 < lastSize (d :: m :: rest)) (hy : y.cols = lastSize (d :: m :: rest) ∨ y.cols = 1) :
    ((∃ gs, sampleGrad x y P i = .ok gs) ↔ i < x.rows ∧ i < y.rows) ∧ (sampleGrad x y P i = .error .indexError ↔ x.rows ≤ i ∨ y.rows ≤ i) := by
  by_cases h : x.rows ≤ i ∨ y.rows ≤ i
  · have e : sampleGrad x y P i = .error .indexError := if_pos h
    refine ⟨⟨fun ⟨gs, hg⟩ => (by rw [e] at hg; cases hg), fun h' => absurd h (by omega)⟩, fun _ => h, fun _ => e⟩
  · obtain ⟨gs, hg, -⟩ := sampleGrad_ok x y i hS hx hk hy (by omega) (by omega)
    exact ⟨⟨fun _ => by omega, fun _ => ⟨gs, hg⟩⟩, fun h' => (by rw [hg] at h'; cases h'), fun h' => absurd h' h⟩

/-- The same for an epoch of SGD. -/
theorem C52_sgd_sample (lr : ℝ) (x y : Mat) (P : List Layer) (i : Nat) (h : x.rows ≤ i ∨ y.rows ≤ i) : sgdStep lr x y P i = .error .indexError := if_pos h

end CML.Net
