import Verif.Spec.SVMOpt
import Verif.Props.SVC
import Mathlib.Tactic.FinCases
import Mathlib.Tactic.NormNum
import Mathlib.Algebra.BigOperators.Fin

set_option linter.unusedSectionVars false

/-! # Properties C227, C228 (optimality of a trained support vector machine; data on which training does nothing) -/

namespace CML.SMO
open Finset

variable {K : Type*} [Field K] [LinearOrder K] [IsStrictOrderedRing K] {n : Nat}

/-- The dual objective is concave. -/
theorem dual_tangent (p : Problem K n) (hy : ∀ i, p.y i * p.y i = 1) (hK : GramPSD p) (a c : Fin n → K) (b : K)
    (ha : ∑ i, a i * p.y i = 0) (hc : ∑ i, c i * p.y i = 0) :
    dualObjective p c ≤ dualObjective p a - ∑ i, (c i - a i) * (p.y i * trueError p a b i) := by
  set G : (Fin n → K) → (Fin n → K) → K := fun u v => ∑ k, ∑ l, u k * v l * p.y k * p.y l * p.gram k l with hG
  have hsymm : ∀ u v, G u v = G v u := by
    intro u v
    simp only [hG]
    rw [sum_comm]
    refine sum_congr rfl fun k _ => sum_congr rfl fun l _ => ?_
    rw [hK.1 l k]; ring
  have hsub : ∀ u v w, G (fun i => u i - v i) w = G u w - G v w := by
    intro u v w
    simp only [hG, ← sum_sub_distrib]
    refine sum_congr rfl fun k _ => sum_congr rfl fun l _ => by ring
  have hpos : 0 ≤ G (fun i => c i - a i) (fun i => c i - a i) := by
    refine (hK.2 fun i => (c i - a i) * p.y i).trans_eq ?_
    simp only [hG]
    refine sum_congr rfl fun k _ => sum_congr rfl fun l _ => by ring
  have hq : G c c = G a a + 2 * G (fun i => c i - a i) a + G (fun i => c i - a i) (fun i => c i - a i) := by
    rw [hsub, hsub, hsymm c fun i => c i - a i, hsymm a fun i => c i - a i, hsub, hsub, hsymm a c]
    ring
  have herr : ∑ i, (c i - a i) * (p.y i * trueError p a b i) = G (fun i => c i - a i) a - (∑ i, c i - ∑ i, a i) := by
    have e1 : ∀ i, (c i - a i) * (p.y i * trueError p a b i) =
        (∑ k, (c i - a i) * a k * p.y i * p.y k * p.gram i k) + b * (c i * p.y i) - b * (a i * p.y i) - (c i - a i) := by
      intro i
      unfold trueError decision
      have : ∑ k, (c i - a i) * a k * p.y i * p.y k * p.gram i k = (c i - a i) * p.y i * ∑ k, a k * p.y k * p.gram k i := by
        rw [mul_sum]
        refine sum_congr rfl fun k _ => ?_
        rw [hK.1 k i]; ring
      rw [this]
      linear_combination (-(c i - a i)) * hy i
    simp only [e1, sum_sub_distrib, sum_add_distrib, ← mul_sum, hc, ha, hG]
    ring
  have hD : ∀ u, dualObjective p u = ∑ i, u i - 1 / 2 * G u u := fun u => rfl
  rw [hD, hD, herr, hq]
  linarith

/-- C227, the part that holds: multipliers whose samples all pass the KKT test of the optimiser (with their true errors) are optimal up to the tolerance, for
every positive semidefinite kernel and every bias.  Missing: training also stops when the remaining violations cannot be repaired by a step of at least `1e-5`, and
uses stale errors; there the claim is false (`C227_violated`). -/
theorem C227_optimal_partial (p : Problem K n) (hp : p.Valid) (hK : GramPSD p) (alphas : Fin n → K) (b : K) (hf : DualFeasible p alphas)
    (hkkt : ∀ i, KKTWithin p alphas (trueError p alphas b i) i) : NearOptimal p alphas := by
  refine ⟨hf, fun betas hb => ?_⟩
  have h := dual_tangent p (fun i => sq_label (hp.label i)) hK alphas betas b hf.2 hb.2
  refine h.trans ?_
  have : -∑ i, (betas i - alphas i) * (p.y i * trueError p alphas b i) ≤ p.tol * ∑ i, |betas i - alphas i| := by
    rw [mul_sum, ← sum_neg_distrib]
    refine sum_le_sum fun i _ => ?_
    obtain ⟨h1, h2⟩ := hkkt i
    rcases lt_trichotomy (alphas i) (betas i) with hlt | heq | hgt
    · have := h1 (hlt.trans_le (hb.1 i).2)
      rw [abs_of_pos (sub_pos.2 hlt)]
      nlinarith [sub_pos.2 hlt]
    · simp [heq]
    · have := h2 ((hb.1 i).1.trans_lt hgt)
      rw [abs_of_neg (sub_neg.2 hgt)]
      nlinarith [sub_neg.2 hgt]
  linarith

/-- C227: in particular they are within `n * C * tol` of the optimum, and an optimum when the tolerance is 0. -/
theorem C227_gap (p : Problem K n) (htol : 0 ≤ p.tol) (alphas : Fin n → K) (h : NearOptimal p alphas) (betas : Fin n → K) (hb : DualFeasible p betas) :
    dualObjective p betas ≤ dualObjective p alphas + n * p.C * p.tol := by
  have h1 : ∑ i, |betas i - alphas i| ≤ n * p.C := by
    have : ∀ i ∈ (univ : Finset (Fin n)), |betas i - alphas i| ≤ p.C := by
      intro i _
      rw [abs_le]
      constructor <;> linarith [(hb.1 i).1, (hb.1 i).2, (h.1.1 i).1, (h.1.1 i).2]
    have := sum_le_card_nsmul _ _ _ this
    simpa using this
  have h2 := h.2 betas hb
  have := mul_le_mul_of_nonneg_left h1 htol
  linarith [mul_comm p.tol (n * p.C)]

/-- C227 at the end of training: when training stops by itself, the cached errors of the samples strictly inside the box are up to date, and every sample has
some partner with which it could still make progress if it violated its test, the result is optimal up to the tolerance. -/
theorem C227_early_stop_partial (p : Problem K n) (hp : p.Valid) (hK : GramPSD p) (perms : Nat → List (Fin n)) (hperm : ∀ t j, j ∈ perms t) (k : Nat)
    (hearly : (loop p perms k (Run.init K n)).2 = true) :
    let s := (loop p perms k (Run.init K n)).1.st
    (∀ i, 0 < s.alphas i → s.alphas i < p.C → s.cache i = trueError p s.alphas s.b i) →
    (∀ i, ∃ j, ¬ NoProgress p s.alphas i j (trueError p s.alphas s.b i) (trueError p s.alphas s.b j)) → NearOptimal p s.alphas := by
  intro s hc hprog
  refine C227_optimal_partial p hp hK s.alphas s.b (inv_reachable hp (reachable_loop perms k _ Reachable.init)).feas fun i => ?_
  have h := C08_early_stop p hp perms hperm k hearly i
  dsimp only at h
  have e : (if 0 < s.alphas i ∧ s.alphas i < p.C then s.cache i else trueError p s.alphas s.b i) = trueError p s.alphas s.b i := by
    split
    · rename_i hh; exact hc i hh.1 hh.2
    · rfl
  rw [e] at h
  rcases h with h | h
  · exact h
  · obtain ⟨j, hj⟩ := hprog i
    exact absurd (h j) hj

/-! ## When training does nothing -/

theorem errorI_init (p : Problem K n) (i : Fin n) : errorI p (State.init K n) i = -p.y i := by
  simp [errorI, calculateError, State.init]

theorem calculateError_init (p : Problem K n) (i : Fin n) : calculateError p (State.init K n) i = -p.y i := by
  simp [calculateError, State.init]

theorem selectSecond_init (e : K) : selectSecond (State.init K n) e = none := by
  have : (List.finRange n).filter (State.init K n).nonBound = [] := by simp [State.init]
  simp only [selectSecond, this]
  rfl

/-- The first step from the initial state. -/
theorem updateAlpha_init (p : Problem K n) (hp : p.Valid) (i j : Fin n) :
    updateAlpha p (State.init K n) i j (-p.y i) (-p.y j) = none ↔
      (p.y i ≠ p.y j → featDist p i j ≤ 0 ∨ 200000 < featDist p i j ∨ p.C < 1 / 100000) := by
  have hC := hp.C_nonneg
  by_cases hy : p.y i = p.y j
  · have hb : bounds p (State.init K n) i j = (0, 0) := by
      unfold bounds
      rw [if_neg (by simpa using hy)]
      simp [State.init, hC]
    refine ⟨fun _ h => absurd hy h, fun _ => ?_⟩
    unfold updateAlpha
    split
    · rfl
    · rw [if_pos (by rw [hb])]
  · have hij : i ≠ j := fun h => hy (by rw [h])
    have hb : bounds p (State.init K n) i j = (0, p.C) := by
      unfold bounds
      rw [if_pos hy]
      simp [State.init]
    have hstep : p.y j * (-p.y i - -p.y j) = 2 := by
      rcases hp.label i with h | h <;> rcases hp.label j with h' | h' <;> first | exact absurd (h.trans h'.symm) hy | (rw [h, h']; norm_num)
    unfold updateAlpha
    rw [if_neg hij, hb]
    dsimp only
    by_cases hC0 : 0 = p.C
    · rw [if_pos hC0]
      simp only [true_iff]
      intro _
      right; right; rw [← hC0]; norm_num
    · rw [if_neg hC0]
      have hCpos : 0 < p.C := lt_of_le_of_ne hC hC0
      by_cases he : eta p i j ≤ 0
      · rw [if_pos he]
        simp only [true_iff]
        exact fun _ => Or.inl he
      · rw [if_neg he]
        have hepos : 0 < eta p i j := not_le.1 he
        have haj : alphaJNew p (State.init K n) i j (-p.y i) (-p.y j) = if p.C < 2 / eta p i j then p.C else 2 / eta p i j := by
          unfold alphaJNew
          rw [hb, hstep]
          simp only [State.init, zero_add, Ops.clipAlpha]
          split
          · rfl
          · rw [if_neg (not_lt.2 (by positivity))]
        rw [haj]
        have h0 : (State.init K n).alphas j = 0 := rfl
        have hlarge : 2 / eta p i j < 1 / 100000 ↔ 200000 < eta p i j := by
          rw [div_lt_div_iff₀ hepos (by norm_num)]
          constructor <;> intro h <;> linarith
        rw [h0, sub_zero]
        have hfe : featDist p i j = eta p i j := rfl
        rw [hfe]
        by_cases hcl : p.C < 2 / eta p i j
        · rw [if_pos hcl, abs_of_pos hCpos]
          by_cases hs : p.C < 1 / 100000
          · rw [if_pos hs]
            simp only [true_iff]
            exact fun _ => Or.inr (Or.inr hs)
          · rw [if_neg hs]
            simp only [reduceCtorEq, false_iff]
            intro h
            rcases h hy with h | h | h
            · exact he h
            · have := hlarge.2 h; linarith
            · exact hs h
        · rw [if_neg hcl, abs_of_pos (by positivity)]
          by_cases hs : 2 / eta p i j < 1 / 100000
          · rw [if_pos hs]
            simp only [true_iff]
            exact fun _ => Or.inr (Or.inl (hlarge.1 hs))
          · rw [if_neg hs]
            simp only [reduceCtorEq, false_iff]
            intro h
            rcases h hy with h | h | h
            · exact he h
            · exact hs (hlarge.2 h)
            · have := not_lt.1 hcl; linarith

theorem violates_init (p : Problem K n) (hp : p.Valid) (hC : 0 < p.C) (i : Fin n) : violates p (State.init K n) i ↔ p.tol < 1 := by
  have hy := sq_label (hp.label i)
  unfold violates
  rw [errorI_init]
  have e : p.y i * -p.y i = -1 := by linear_combination -hy
  rw [e]
  have h0 : (State.init K n).alphas i = 0 := rfl
  rw [h0]
  simp [hC]

theorem forcedLoop_all_none {p : Problem K n} {s : State K n} {i : Fin n} {ei : K} {js : List (Fin n)}
    (h : ∀ j ∈ js, updateAlpha p s i j ei (calculateError p s j) = none) : forcedLoop p s i ei js = none := by
  induction js with
  | nil => rfl
  | cons j js ih =>
    unfold forcedLoop
    rw [h j (by simp)]
    exact ih fun j' hj' => h j' (by simp [hj'])

theorem updateParameters_init (p : Problem K n) (hp : p.Valid) (i : Fin n) (perm : List (Fin n)) :
    updateParameters p (State.init K n) i perm = none ↔
      (1 ≤ p.tol ∨ ∀ j ∈ perm, p.y i ≠ p.y j → featDist p i j ≤ 0 ∨ 200000 < featDist p i j ∨ p.C < 1 / 100000) := by
  unfold updateParameters
  dsimp only
  rw [selectSecond_init, errorI_init]
  dsimp only
  rcases hp.C_nonneg.eq_or_lt with hC | hC
  · have hv : ¬ violates p (State.init K n) i := by
      unfold violates
      have h0 : (State.init K n).alphas i = 0 := rfl
      rw [h0, ← hC]; simp
    rw [if_neg hv]
    simp only [true_iff]
    right; intro j _ _; right; right; rw [← hC]; norm_num
  · by_cases hv : violates p (State.init K n) i
    · rw [if_pos hv]
      have ht := (violates_init p hp hC i).1 hv
      constructor
      · intro h
        right
        intro j hj
        have := forcedLoop_none h j hj
        rw [calculateError_init] at this
        exact (updateAlpha_init p hp i j).1 this
      · rintro (h | h)
        · exact absurd h (not_le.2 ht)
        · refine forcedLoop_all_none fun j hj => ?_
          rw [calculateError_init]
          exact (updateAlpha_init p hp i j).2 (h j hj)
    · rw [if_neg hv]
      simp only [true_iff]
      left
      by_contra h
      exact hv ((violates_init p hp hC i).2 (not_le.1 h))

/-- C228: on coarse data, or with a tolerance of at least 1, no sequence of updates ever changes anything. -/
theorem idle_reachable (p : Problem K n) (hp : p.Valid) (h : 1 ≤ p.tol ∨ Coarse p) (s : State K n) (hr : Reachable p s) : s = State.init K n := by
  induction hr with
  | init => rfl
  | step i perm _ h1 ih =>
    subst ih
    have := (updateParameters_init p hp i perm).2 (h.imp id fun h j _ => h i j)
    rw [this] at h1
    simp at h1

/-- C228: training that runs at least one pass does nothing at all - no multiplier is ever changed, the bias stays 0, and the method returns after its first
pass - EXACTLY when the tolerance is at least 1 or the data are coarse (which includes: one class only, and `C < 1e-5`). -/
theorem C228_idle_exact (p : Problem K n) (hp : p.Valid) (perms : Nat → List (Fin n)) (hperm : ∀ t j, j ∈ perms t) (k : Nat) :
    ((loop p perms (k + 1) (Run.init K n)).2 = true ∧ (loop p perms (k + 1) (Run.init K n)).1.st = State.init K n ∧
      (loop p perms (k + 1) (Run.init K n)).1.epoch = 1) ↔ (1 ≤ p.tol ∨ Coarse p) := by
  constructor
  · rintro ⟨h1, h2, _⟩
    by_contra hcon
    push Not at hcon
    obtain ⟨ht, hco⟩ := hcon
    unfold Coarse at hco
    push Not at hco
    obtain ⟨i, j, hy, hd⟩ := hco
    obtain ⟨t, hu⟩ := loop_early p perms (k + 1) _ h1 i
    rw [h2] at hu
    rcases (updateParameters_init p hp i (perms t)).1 hu with h | h
    · exact absurd h (not_le.2 ht)
    · rcases h j (hperm t j) hy with h | h | h
      · exact absurd h (not_le.2 hd.1)
      · exact absurd h (not_lt.2 hd.2.1)
      · exact absurd h (not_lt.2 hd.2.2)
  · intro h
    have hu : ∀ i perm, updateParameters p (State.init K n) i perm = none :=
      fun i perm => (updateParameters_init p hp i perm).2 (h.imp id fun h j _ => h i j)
    have hpl : ∀ (is : List (Fin n)) (t c : Nat), passLoop p perms is (State.init K n, t, c) = (State.init K n, t + is.length, c) := by
      intro is
      induction is with
      | nil => intro t c; simp [passLoop]
      | cons i is ih =>
        intro t c
        unfold passLoop
        rw [hu]
        dsimp only
        rw [ih]
        simp; omega
    have hpass : pass p perms (Run.init K n) = ({ st := State.init K n, t := 0 + (List.finRange n).length, entire := true, epoch := 0 + 1 }, true) := by
      unfold pass
      simp only [Run.init, if_true, hpl]
    unfold loop
    rw [hpass]
    exact ⟨rfl, rfl, rfl⟩

/-- C227 is false whenever training does nothing: for EVERY data set with both labels (some two samples of different labels at a positive distance), `C > 0` and a
tolerance below 1, if the data are coarse then training stops by itself with all multipliers 0, and that is not optimal up to the tolerance. -/
theorem C227_violated (p : Problem K n) (hp : p.Valid) (hK : GramPSD p) (hC : 0 < p.C) (htol : p.tol < 1) (hco : Coarse p) (i j : Fin n) (hy : p.y i ≠ p.y j)
    (perms : Nat → List (Fin n)) (hperm : ∀ t j, j ∈ perms t) (k : Nat) :
    (loop p perms (k + 1) (Run.init K n)).2 = true ∧ ¬ NearOptimal p (loop p perms (k + 1) (Run.init K n)).1.st.alphas := by
  obtain ⟨h1, h2, _⟩ := (C228_idle_exact p hp perms hperm k).2 (Or.inr hco)
  refine ⟨h1, ?_⟩
  rw [h2]
  rintro ⟨_, hopt⟩
  have hij : i ≠ j := fun h => hy (by rw [h])
  have hyy : p.y i + p.y j = 0 := by
    rcases hp.label i with h | h <;> rcases hp.label j with h' | h' <;> first | exact absurd (h.trans h'.symm) hy | (rw [h, h']; norm_num)
  have hprod : p.y i * p.y j = -1 := by
    have := sq_label (hp.label i)
    have e : p.y j = -p.y i := by linarith
    rw [e]; linarith
  set q := featDist p i j with hq
  have hq0 : 0 ≤ q := by
    have := hK.2 (Function.update (Function.update 0 i 1) j (-1))
    have e := quad_update2 (K := K) (0 : Fin n → K) i j hij 1 (-1) p.gram
    have e' : ∑ k, ∑ l, Function.update (Function.update (0 : Fin n → K) i 1) j (-1) k * Function.update (Function.update (0 : Fin n → K) i 1) j (-1) l * p.gram k l = q := by
      rw [e, hq, featDist, hK.1 j i]
      simp
      ring
    rwa [e'] at this
  set δ := min p.C ((1 - p.tol) / (q + 1)) with hδ
  have hδ0 : 0 < δ := lt_min hC (div_pos (by linarith) (by linarith))
  have hδC : δ ≤ p.C := min_le_left _ _
  have hδq : δ * q < 2 * (1 - p.tol) := by
    have h3 : δ ≤ (1 - p.tol) / (q + 1) := min_le_right _ _
    have h4 : δ * (q + 1) ≤ 1 - p.tol := by rwa [le_div_iff₀ (by linarith)] at h3
    nlinarith
  set β : Fin n → K := Function.update (Function.update 0 i δ) j δ with hβ
  have hβf : DualFeasible p β := by
    refine ⟨fun l => ?_, ?_⟩
    · rw [hβ]
      by_cases hl : l = j
      · subst hl; simp [hδ0.le, hδC]
      · rw [Function.update_of_ne hl]
        by_cases hl' : l = i
        · subst hl'; simp [hδ0.le, hδC]
        · rw [Function.update_of_ne hl']; simp [hC.le]
    · have := sum_update2 (0 : Fin n → K) i j hij δ δ p.y
      rw [← hβ] at this
      rw [this]
      simp
      linear_combination δ * hyy
  have h5 := hopt β hβf
  have hD0 : dualObjective p (State.init K n).alphas = 0 := by simp [dualObjective, State.init]
  have hsum : ∑ l, β l = 2 * δ := by
    have := sum_update2 (0 : Fin n → K) i j hij δ δ fun _ => 1
    rw [← hβ] at this
    simp at this
    linarith
  have habs : ∑ l, |β l - (State.init K n).alphas l| = 2 * δ := by
    rw [← hsum]
    refine sum_congr rfl fun l _ => ?_
    have : (State.init K n).alphas l = 0 := rfl
    rw [this, sub_zero, abs_of_nonneg (hβf.1 l).1]
  have hDβ : dualObjective p β = 2 * δ - δ * δ * q / 2 := by
    have e := quad_update2 (K := K) (0 : Fin n → K) i j hij δ δ fun k l => p.y k * p.y l * p.gram k l
    rw [← hβ] at e
    have e2 : ∑ k, ∑ l, β k * β l * p.y k * p.y l * p.gram k l = ∑ k, ∑ l, β k * β l * (p.y k * p.y l * p.gram k l) :=
      sum_congr rfl fun k _ => sum_congr rfl fun l _ => by ring
    unfold dualObjective
    rw [hsum, e2, e, hq, featDist]
    have s1 := sq_label (hp.label i)
    have s2 := sq_label (hp.label j)
    simp
    rw [hK.1 j i]
    linear_combination ((1 / 2) * δ * δ * p.gram i i) * s1 + ((1 / 2) * δ * δ * p.gram j j) * s2 + (δ * δ * p.gram i j) * hprod
  rw [hD0, habs, hDβ] at h5
  have : δ * (δ * q) < δ * (2 * (1 - p.tol)) := mul_lt_mul_of_pos_left hδq hδ0
  nlinarith

/-! ## Non-vacuity -/

/-- Two samples with unscaled features: the linear kernel on the rows `[0]` and `[1000]`. -/
def exFar : Problem ℚ 2 := { y := ![1, -1], gram := ![![0, 0], ![0, 1000000]], C := 1, tol := 1 / 1000 }

example : exFar.Valid ∧ GramPSD exFar ∧ Coarse exFar := by
  refine ⟨⟨by intro i; fin_cases i <;> simp [exFar], by simp [exFar]⟩, ⟨by intro k l; fin_cases k <;> fin_cases l <;> simp [exFar], ?_⟩, ?_⟩
  · intro v
    simp only [Fin.sum_univ_two]
    simp [exFar]
    nlinarith [mul_self_nonneg (v 1)]
  · intro i j hij
    fin_cases i <;> fin_cases j <;> simp [exFar, featDist] at hij ⊢ <;> norm_num

/-- The hypotheses of `C227_optimal_partial` are met by the result of a real run (two points, the optimum is inside the box). -/
example : exQ.Valid ∧ GramPSD exQ ∧ DualFeasible exQ ![1 / 2, 1 / 2] ∧
    ∀ i, KKTWithin exQ ![1 / 2, 1 / 2] (trueError exQ ![1 / 2, 1 / 2] 0 i) i := by
  refine ⟨⟨by intro i; fin_cases i <;> simp [exQ], by simp [exQ]⟩, ⟨by intro k l; fin_cases k <;> fin_cases l <;> simp [exQ], ?_⟩, ?_, ?_⟩
  · intro v
    simp only [Fin.sum_univ_two]
    simp [exQ]
    nlinarith [mul_self_nonneg (v 0 - v 1)]
  · exact ⟨by decide +kernel, by decide +kernel⟩
  · intro i
    have : ∀ i : Fin 2, trueError exQ ![1 / 2, 1 / 2] 0 i = 0 := by decide +kernel
    rw [this]
    constructor <;> intro _ <;> simp [exQ]

/-- All the hypotheses of `C227_early_stop_partial` are met by that run: it stops early, the errors are up to date, and no sample is stuck. -/
example : (loop exQ (fun _ => [0, 1]) 5 (Run.init ℚ 2)).2 = true ∧ (loop exQ (fun _ => [0, 1]) 5 (Run.init ℚ 2)).1.st.alphas = ![1 / 2, 1 / 2] ∧
    (loop exQ (fun _ => [0, 1]) 5 (Run.init ℚ 2)).1.st.b = 0 := by
  decide +kernel

end CML.SMO

namespace CML.SVC
open SMO Finset

variable {K N : Type} [Field K] [LinearOrder K] [IsStrictOrderedRing K] {n : Nat}

/-- C228 is false of a classifier on unscaled data: for EVERY data set in which samples of different labels are further apart than `sqrt 200000 = 447` in the
feature space of the kernel (with the linear kernel: in the features themselves), for every `C`, tolerance, number of epochs and sequence of permutations,
`fit` finds no support vector, and the trained classifier answers +1 to every row. -/
theorem C228_unscaled_violated (make : N → K → List K → List K → K) (perms : Nat → List (Fin n)) (o o' : Obj K N) (x : Fin n → List K)
    (y : Fin n → K) (hy : ∀ i, y i = 1 ∨ y i = -1) (hC : 0 ≤ o.C) (d : Nat) (epochs : Int) (h : Fit make perms o x y d epochs o')
    (k : List K → List K → K) (hk : o.kernel = .inst k)
    (hfar : ∀ i j, y i ≠ y j → 200000 < k (x i) (x i) + k (x j) (x j) - 2 * k (x i) (x j)) :
    o'.supportVector = [] ∧ ∀ rows, o'.predict rows = .ok (rows.map fun _ => 1) := by
  obtain ⟨g, s, hg, hs, rfl⟩ := h
  have hv : (problem (getKernel make g o.kernel) o.C o.tol x y).Valid := ⟨hy, hC⟩
  have hs0 : s = State.init K n := by
    refine idle_reachable _ hv (Or.inr fun i j hij => Or.inr (Or.inl ?_)) s (reachable_returns hs)
    rw [hk]
    exact hfar i j hij
  subst hs0
  refine ⟨by simp [extract, State.init], fun rows => ?_⟩
  unfold Obj.predict
  rw [if_neg (by simp)]
  simp only
  congr 1
  refine List.map_congr_left fun r _ => ?_
  rw [if_neg]
  rw [not_lt]
  unfold decisionValue
  simp [extract, State.init]

/-- C228 is false for a small `C`: below the step width of the optimiser, whatever the data, kernel and labels, `fit` finds no support vector. -/
theorem C228_small_C_violated (make : N → K → List K → List K → K) (perms : Nat → List (Fin n)) (o o' : Obj K N) (x : Fin n → List K)
    (y : Fin n → K) (hy : ∀ i, y i = 1 ∨ y i = -1) (hC : 0 ≤ o.C) (hsmall : o.C < 1 / 100000) (d : Nat) (epochs : Int)
    (h : Fit make perms o x y d epochs o') :
    o'.supportVector = [] ∧ ∀ rows, o'.predict rows = .ok (rows.map fun _ => 1) := by
  obtain ⟨g, s, hg, hs, rfl⟩ := h
  have hv : (problem (getKernel make g o.kernel) o.C o.tol x y).Valid := ⟨hy, hC⟩
  have hs0 : s = State.init K n :=
    idle_reachable _ hv (Or.inr fun i j hij => Or.inr (Or.inr hsmall)) s (reachable_returns hs)
  subst hs0
  refine ⟨by simp [extract, State.init], fun rows => ?_⟩
  unfold Obj.predict
  rw [if_neg (by simp)]
  simp only
  congr 1
  refine List.map_congr_left fun r _ => ?_
  rw [if_neg]
  rw [not_lt]
  unfold decisionValue
  simp [extract, State.init]

/-- C228, the part that holds: when some two samples of different labels are at a positive distance of at most `sqrt 200000`, `C` is at least `1e-5`, and the
tolerance is below 1, training does not stop after its first pass, and the first pass changes some multiplier. -/
theorem C228_learns_partial (p : Problem K n) (hp : p.Valid) (perms : Nat → List (Fin n)) (hperm : ∀ t j, j ∈ perms t) (htol : p.tol < 1)
    (hC : 1 / 100000 ≤ p.C) (i j : Fin n) (hy : p.y i ≠ p.y j) (h0 : 0 < featDist p i j) (h1 : featDist p i j ≤ 200000) :
    (loop p perms 1 (Run.init K n)).2 = false ∧ ∃ (l : Fin n) (s' : State K n) (m : Fin n),
      updateParameters p (State.init K n) l (perms 0) = some s' ∧ s'.alphas m ≠ 0 := by
  have hn : ¬ (1 ≤ p.tol ∨ Coarse p) := by
    rintro (h | h)
    · exact absurd h (not_le.2 htol)
    · rcases h i j hy with h | h | h
      · exact absurd h (not_le.2 h0)
      · exact absurd h (not_lt.2 h1)
      · exact absurd h (not_lt.2 hC)
  constructor
  · by_contra hcon
    have hcon : (loop p perms 1 (Run.init K n)).2 = true := by simpa using hcon
    obtain ⟨idx, c, e1, e2, e3⟩ := pass_cases p perms (Run.init K n)
    apply hn
    refine (C228_idle_exact p hp perms hperm 0).1 ⟨hcon, ?_, ?_⟩
    · unfold loop at hcon ⊢
      split
      · rename_i r' e
        rw [e] at e1 e3
        obtain ⟨_, rfl, rfl⟩ := e3 rfl
        have := passLoop_zero p perms (List.finRange n) (Run.init K n).st (Run.init K n).t (by rw [e1])
        rw [e1] at this
        exact this.1
      · rename_i r' e
        rw [e] at hcon
        simp [loop] at hcon
    · have hb := C08_passes_bounded p perms 1
      have hne : (loop p perms 1 (Run.init K n)).1.epoch ≠ 0 := by
        unfold loop
        unfold pass
        dsimp only
        split
        · rename_i r' e
          split at e <;> split at e <;> simp only [Prod.mk.injEq] at e <;> obtain ⟨rfl, _⟩ := e <;> simp
        · rename_i r' e
          split at e <;> split at e <;> simp only [Prod.mk.injEq] at e <;> obtain ⟨rfl, _⟩ := e <;> simp [loop]
      exact le_antisymm hb (Nat.one_le_iff_ne_zero.2 hne)
  · have hu : updateParameters p (State.init K n) i (perms 0) ≠ none := by
      intro h
      rcases (updateParameters_init p hp i (perms 0)).1 h with h | h
      · exact absurd h (not_le.2 htol)
      · rcases h j (hperm 0 j) hy with h | h | h
        · exact absurd h (not_le.2 h0)
        · exact absurd h (not_lt.2 h1)
        · exact absurd h (not_lt.2 hC)
    obtain ⟨s', hs'⟩ := Option.ne_none_iff_exists'.1 hu
    rcases (updateParameters_some hs').2 with ⟨m, ej, _, h2⟩ | ⟨m, _, h2⟩ <;>
    · obtain ⟨hij, _, _, hch, ha, _, _⟩ := updateAlpha_some h2
      refine ⟨i, s', m, hs', ?_⟩
      rw [ha]
      simp only [Function.update_self]
      intro hz
      rw [hz] at hch
      simp [State.init] at hch
      try linarith

example : ∃ o' : Obj ℚ Unit, Fit (n := 2) (fun _ _ => lin) (fun _ => [0, 1]) { exObj with kernel := .inst lin } ![[0], [1000]] ![1, -1] 1 10 o' ∧
    o'.predict [[0], [1000]] = .ok [1, 1] := by
  refine ⟨_, ⟨1, _, by decide +kernel, rfl, rfl⟩, ?_⟩
  decide +kernel

end CML.SVC
