import Verif.Props.Ensemble
import Mathlib.Tactic.FinCases
import Mathlib.Tactic.Linarith

set_option linter.unusedSectionVars false

/-! # Property C263: a larger ensemble begins with the smaller one -/

namespace CML.Ada

variable {X : Type*} {n : Nat}

theorem loop_take (learn : (Fin n → ℝ) → Except PyErr (X → Int)) (x : Fin n → X) (y : Fin n → Int) (j : Nat) : ∀ (k : Nat) (D : Option (Fin n → ℝ)),
    match loop learn x y k D with
    | .error e => loop learn x y (k + j) D = .error e
    | .ok rs => (rs.length < k → loop learn x y (k + j) D = .ok rs) ∧ ∀ rs', loop learn x y (k + j) D = .ok rs' → rs = rs'.take k
  | 0, D => by simp [loop]
  | k + 1, none => by rw [Nat.succ_add_eq_add_succ, show k + (j + 1) = (k + j) + 1 by omega]; simp [loop]
  | k + 1, some D => by
    rw [show k + 1 + j = (k + j) + 1 by omega]
    simp only [loop]
    cases learn D with
    | error e => rfl
    | ok h =>
      dsimp only
      by_cases hs : errorOf D (fun i => h (x i)) y > 1 / 2 ∨ errorOf D (fun i => h (x i)) y < EPS
      · rw [if_pos hs, if_pos hs]
        refine ⟨fun _ => rfl, fun rs' h' => ?_⟩
        cases h'; simp
      · rw [if_neg hs, if_neg hs]
        have ih := loop_take learn x y j k (reweight D (fun i => h (x i)) y (alphaOf (errorOf D (fun i => h (x i)) y)))
        revert ih
        generalize loop learn x y k (reweight D (fun i => h (x i)) y (alphaOf (errorOf D (fun i => h (x i)) y))) = a
        generalize loop learn x y (k + j) (reweight D (fun i => h (x i)) y (alphaOf (errorOf D (fun i => h (x i)) y))) = b
        intro ih
        cases a with
        | error e => simp only at ih ⊢; rw [ih]
        | ok rs =>
          obtain ⟨h1, h2⟩ := ih
          refine ⟨fun hl => ?_, fun rs' h' => ?_⟩
          · rw [h1 (by simpa using hl)]
          · cases b with
            | error e => cases h'
            | ok b => cases h'; rw [List.take_succ_cons, h2 b rfl]

/-- C263: training AdaBoost with `k + j` estimators begins with exactly the rounds (distributions, estimators, errors, coefficients) of a training
with `k` estimators; a training that raises with `k` raises the same with more, and one that stopped before the limit `k` gives the same ensemble
with every larger limit. -/
theorem C263_ada (learn : (Fin n → ℝ) → Except PyErr (X → Int)) (x : Fin n → X) (y : Fin n → Int) (k j : Nat) :
    (∀ rs, fit learn x y (k + j) = .ok rs → fit learn x y k = .ok (rs.take k)) ∧
    (∀ e, fit learn x y k = .error e → fit learn x y (k + j) = .error e) ∧
    (∀ rs, fit learn x y k = .ok rs → rs.length < k → fit learn x y (k + j) = .ok rs) := by
  have h := loop_take learn x y j k (some fun _ => 1 / (n : ℝ))
  simp only [fit] at *
  generalize loop learn x y k (some fun _ => 1 / (n : ℝ)) = a at *
  cases a with
  | error e => simp only at h; exact ⟨fun rs h' => (by rw [h] at h'; cases h'), fun e' h' => (by cases h'; exact h), fun rs h' => (by cases h')⟩
  | ok rs => exact ⟨fun rs' h' => (by rw [h.2 rs' h']), fun e h' => (by cases h'), fun rs' h' => (by cases h'; exact h.1)⟩

end CML.Ada

namespace CML.Bagging

variable {K : Type*} {E : Type*}

theorem steps_add (rng : Option Nat → (n : Nat) → Fin n → Fin n) (learn : List (List K) → List (List Int) → Except PyErr E)
    (x : List (List K)) (y : List Int) (j : Nat) : ∀ (k : Nat) (o : Obj E),
    steps rng learn x y (k + j) o = match steps rng learn x y k o with
      | .ok o' => steps rng learn x y j o'
      | .error e => .error e
  | 0, o => by simp [steps]
  | k + 1, o => by
    rw [show k + 1 + j = (k + j) + 1 by omega]
    simp only [steps]
    cases step rng learn x y o with
    | error e => rfl
    | ok o' => exact steps_add rng learn x y j k o'

theorem steps_members (rng : Option Nat → (n : Nat) → Fin n → Fin n) (learn : List (List K) → List (List Int) → Except PyErr E)
    (x : List (List K)) (y : List Int) : ∀ (k : Nat) (o o' : Obj E), steps rng learn x y k o = .ok o' →
    ∃ l, o'.members = o.members ++ l ∧ l.length = k ∧ o'.seed = o.seed + k
  | 0, o, o', h => by cases h; exact ⟨[], by simp⟩
  | k + 1, o, o', h => by
    simp only [steps] at h
    revert h
    generalize hst : step rng learn x y o = s
    intro h
    cases s with
    | error e => cases h
    | ok o1 =>
      obtain ⟨l, h1, h2, h3⟩ := steps_members rng learn x y k o1 o' h
      have : ∃ e, o1.members = o.members ++ [e] ∧ o1.seed = o.seed + 1 := by
        simp only [step] at hst
        split at hst
        · split at hst
          · cases hst; exact ⟨_, rfl, rfl⟩
          · cases hst
        · cases hst
        · cases hst
      obtain ⟨e, he, hse⟩ := this
      exact ⟨e :: l, by rw [h1, he]; simp, by simp [h2], by rw [h3, hse]; omega⟩

/-- C263: a bagging ensemble trained with `k + j` estimators begins with the `k` estimators of an ensemble trained with `k`; a training that raises
with `k` estimators raises the same with more. -/
theorem C263_bagging (o : Obj E) (rng : Option Nat → (n : Nat) → Fin n → Fin n) (learn : List (List K) → List (List Int) → Except PyErr E)
    (x : List (List K)) (y : List Int) (k j : Nat) :
    (∀ o', o.fit rng learn x y (k + j) = .ok o' → ∃ o'', o.fit rng learn x y k = .ok o'' ∧ o''.members = o'.members.take (o.members.length + k) ∧
      o'.members.length = o.members.length + k + j) ∧
    (∀ e, o.fit rng learn x y k = .error e → o.fit rng learn x y (k + j) = .error e) := by
  have h := steps_add rng learn x y j k o
  simp only [Obj.fit]
  rw [h]
  generalize hk : steps rng learn x y k o = a
  cases a with
  | error e => exact ⟨fun o' h' => (by cases h'), fun e' h' => (by cases h'; rfl)⟩
  | ok o1 =>
    dsimp only
    refine ⟨fun o' h' => ⟨_, rfl, ?_⟩, fun e h' => by cases h'⟩
    obtain ⟨l, h1, h2, _⟩ := steps_members rng learn x y k o o1 hk
    generalize hj : steps rng learn x y j o1 = b at h'
    cases b with
    | error e => cases h'
    | ok o2 =>
      obtain ⟨l', g1, g2, _⟩ := steps_members rng learn x y j o1 o2 hj
      cases h'
      simp only [h1, g1, List.length_append, h2, g2, and_true]
      rw [List.take_left']; simp [h2]

/-- Two estimators from two samples: the ensemble of one estimator is its beginning. -/
example : ({ seed := 7 } : Obj (List Int)).fit (fun _ n i => i) (fun (_ : List (List Int)) ys => .ok ys.flatten) [[1], [2]] [1, -1] (1 + 1) =
    .ok { members := [[1, -1], [1, -1]], seed := 9, trained := true } := by rfl

end CML.Bagging

namespace CML.Ada

/-- Three two-level trees can be trained on two different samples of two classes, so that the statement is not empty. -/
example : ∃ rs, fit (treeLearner (fun i : Fin 2 => fun _ : Fin 1 => (i : ℝ)) ![1, -1]) (fun i : Fin 2 => fun _ : Fin 1 => (i : ℝ)) ![1, -1] (1 + 2) = .ok rs :=
  (C32_two_level_trees (by norm_num) (by norm_num) _ _ (fun i => by fin_cases i <;> simp) 3).imp fun _ h => h.1

end CML.Ada
