import Verif.Spec.Convex
import Verif.Lemmas.KMeans
import Verif.Model.LDA
import Verif.Model.LogReg
import Verif.Model.SVC
import Verif.Model.SVCKernel
import Verif.Model.SmallTrees
import Verif.Props.TreeSym
import Mathlib.Tactic.Linarith
import Mathlib.Tactic.Ring
import Mathlib.Tactic.LinearCombination

set_option linter.unusedSectionVars false

/-! # Property C262: the classes of linear models, stumps and k-means are convex -/

namespace CML

variable {K : Type} [Field K] [LinearOrder K] [IsStrictOrderedRing K] {d : Nat}

theorem mix_neg {t a b : K} (h0 : 0 ≤ t) (h1 : t ≤ 1) (ha : a < 0) (hb : b < 0) : (1 - t) * a + t * b < 0 := by
  rcases h0.lt_or_eq with h | h
  · have := mul_neg_of_pos_of_neg h hb
    have := mul_nonpos_of_nonneg_of_nonpos (sub_nonneg.2 h1) ha.le
    linarith
  · subst h; simpa using ha

theorem mix_nonpos {t a b : K} (h0 : 0 ≤ t) (h1 : t ≤ 1) (ha : a ≤ 0) (hb : b ≤ 0) : (1 - t) * a + t * b ≤ 0 := by
  have := mul_nonpos_of_nonneg_of_nonpos h0 hb
  have := mul_nonpos_of_nonneg_of_nonpos (sub_nonneg.2 h1) ha
  linarith

namespace KMeans

theorem sqDist_mix {x y z : Fin d → K} {t : K} (hz : ∀ i, z i = (1 - t) * x i + t * y i) (u v : Fin d → K) :
    sqDist z u - sqDist z v = (1 - t) * (sqDist x u - sqDist x v) + t * (sqDist y u - sqDist y v) := by
  simp only [sqDist, ← Finset.sum_sub_distrib, Finset.mul_sum, ← Finset.sum_add_distrib]
  refine Finset.sum_congr rfl fun i _ => ?_
  rw [hz i]; ring

theorem predict_one (root : K → K) (cs : List (Fin d → K)) (x : Fin d → K) (c : Nat) :
    predict root (cs.map some) [x] = some [c] ↔ argmin? (cs.map fun v => root (sqDist x v)) = some c := by
  rw [predict, getCluster]
  simp only [List.mapM_cons, List.mapM_nil, Option.bind_eq_bind, Option.pure_def]
  rw [distances_some, show (cs.map fun v => some (root (sqDist x v))) = (cs.map fun v => root (sqDist x v)).map some by simp, argminNaN_some]
  cases argmin? (cs.map fun v => root (sqDist x v)) <;> simp

/-- C262: the cells of k-means are convex, including their borders (a tie goes to the cluster with the smallest number). -/
theorem C262_kmeans {root : K → K} (hr : RootOK root) (cs : List (Fin d → K)) {x y z : Fin d → K} {c : Nat} (hz : Between x y z)
    (hx : predict root (cs.map some) [x] = some [c]) (hy : predict root (cs.map some) [y] = some [c]) :
    predict root (cs.map some) [z] = some [c] := by
  obtain ⟨t, h0, h1, hz⟩ := hz
  rw [predict_one] at *
  have hlt : ∀ (w u v : Fin d → K), root (sqDist w u) < root (sqDist w v) ↔ sqDist w u < sqDist w v := fun w u v =>
    hr _ _ (Finset.sum_nonneg fun _ _ => mul_self_nonneg _) (Finset.sum_nonneg fun _ _ => mul_self_nonneg _)
  obtain ⟨a, ha, ha1, ha2⟩ := argmin?_spec hx
  obtain ⟨b, hb, hb1, hb2⟩ := argmin?_spec hy
  obtain ⟨v, hv, rfl⟩ : ∃ v, cs[c]? = some v ∧ root (sqDist x v) = a := by simpa using ha
  obtain ⟨v', hv', rfl⟩ : ∃ v, cs[c]? = some v ∧ root (sqDist y v) = b := by simpa using hb
  obtain rfl : v = v' := by rw [hv] at hv'; simpa using hv'
  have hmin : IsFirstMin (cs.map fun v => root (sqDist z v)) c := by
    refine ⟨root (sqDist z v), by simp [hv], fun w hw => ?_, fun j hj w hw => ?_⟩
    · obtain ⟨u, hu, rfl⟩ := List.mem_map.1 hw
      have e1 := ha1 _ (List.mem_map.2 ⟨u, hu, rfl⟩)
      have e2 := hb1 _ (List.mem_map.2 ⟨u, hu, rfl⟩)
      rw [← not_lt, hlt, not_lt] at *
      have := mix_nonpos h0 h1 (sub_nonpos.2 e1) (sub_nonpos.2 e2)
      rw [← sqDist_mix hz] at this
      exact sub_nonpos.1 this
    · obtain ⟨u, hu, rfl⟩ : ∃ u, cs[j]? = some u ∧ root (sqDist z u) = w := by simpa using hw
      have e1 := ha2 j hj (root (sqDist x u)) (by simp [hu])
      have e2 := hb2 j hj (root (sqDist y u)) (by simp [hu])
      rw [hlt] at *
      have := mix_neg h0 h1 (sub_neg.2 e1) (sub_neg.2 e2)
      rw [← sqDist_mix hz] at this
      exact sub_neg.1 this
  obtain ⟨i, hi⟩ := argmin?_isSome (l := cs.map fun v => root (sqDist z v)) (by rintro e; rw [List.map_eq_nil_iff] at e; subst e; simp at hv)
  rw [hi, (argmin?_spec hi).unique hmin]

example : Between (![0, 0] : Fin 2 → ℚ) ![2, 4] ![1, 2] ∧ predict (fun v : ℚ => v) ([![0, 1], ![9, 9]].map some) [![0, 0]] = some [0] ∧
    predict (fun v : ℚ => v) ([![0, 1], ![9, 9]].map some) [![2, 4]] = some [0] := by
  refine ⟨⟨1/2, by norm_num, by norm_num, fun i => ?_⟩, by decide +kernel, by decide +kernel⟩
  fin_cases i <;> norm_num

end KMeans

namespace LDA
open Matrix

theorem dot_mix {x y z : Fin d → K} {t : K} (hz : ∀ i, z i = (1 - t) * x i + t * y i) (w : Fin d → K) :
    z ⬝ᵥ w = (1 - t) * (x ⬝ᵥ w) + t * (y ⬝ᵥ w) := by
  simp only [dotProduct, Finset.mul_sum, ← Finset.sum_add_distrib]
  exact Finset.sum_congr rfl fun i _ => by rw [hz i]; ring

theorem predictRow_one (w mu0 mu1 r : Fin d → K) :
    predictRow w mu0 mu1 r = if (r ⬝ᵥ w - w ⬝ᵥ mu1) ^ 2 - (r ⬝ᵥ w - w ⬝ᵥ mu0) ^ 2 < 0 then 1 else 0 := by
  simp only [predictRow, gt_iff_lt, ← sq_lt_sq, sub_neg]

/-- C262: the two classes of a trained linear discriminant analysis are convex. -/
theorem C262_lda (m : Trained K d) {x y z : Fin d → K} {c : Int} (hz : Between x y z) (hx : predict m [x] = [c]) (hy : predict m [y] = [c]) :
    predict m [z] = [c] := by
  obtain ⟨t, h0, h1, hz⟩ := hz
  simp only [predict, List.map_cons, List.map_nil] at *
  obtain ⟨w, mu0, mu1⟩ := m
  cases w <;> cases mu0 <;> cases mu1 <;> try exact hx
  rename_i w mu0 mu1
  simp only [predictRow_one] at *
  have e : (z ⬝ᵥ w - w ⬝ᵥ mu1) ^ 2 - (z ⬝ᵥ w - w ⬝ᵥ mu0) ^ 2 = (1 - t) * ((x ⬝ᵥ w - w ⬝ᵥ mu1) ^ 2 - (x ⬝ᵥ w - w ⬝ᵥ mu0) ^ 2) +
      t * ((y ⬝ᵥ w - w ⬝ᵥ mu1) ^ 2 - (y ⬝ᵥ w - w ⬝ᵥ mu0) ^ 2) := by
    rw [dot_mix hz]; ring
  rw [e]
  split at hx
  · split at hy
    · rename_i a b
      rw [if_pos (mix_neg h0 h1 a b)]; exact hx
    · rw [← hx] at hy; simp at hy
  · split at hy
    · rw [← hx] at hy; simp at hy
    · rename_i a b
      rw [if_neg]; · exact hx
      rw [not_lt] at *
      have := add_nonneg (mul_nonneg (sub_nonneg.2 h1) a) (mul_nonneg h0 b)
      exact this

example : Between (![0, 0] : Fin 2 → ℚ) ![2, 4] ![1, 2] ∧ predict { w := some ![(1 : ℚ), 1], mu0 := some ![9, 9], mu1 := some ![1, 1] } [![0, 0]] = [1] ∧
    predict { w := some ![(1 : ℚ), 1], mu0 := some ![9, 9], mu1 := some ![1, 1] } [![2, 4]] = [1] := by
  refine ⟨⟨1/2, by norm_num, by norm_num, fun i => ?_⟩, by decide +kernel, by decide +kernel⟩
  fin_cases i <;> norm_num

end LDA

namespace LogReg

/-- C262: between two rows the predicted probability lies between the two predictions, so that the rows with a probability above (below) any
threshold form a convex set. -/
theorem C262_logreg (beta : Fin (d + 1) → ℝ) {x y z : Fin d → ℝ} (hz : Between x y z) :
    min (forward (fun _ : Fin 1 => x) beta 0) (forward (fun _ : Fin 1 => y) beta 0) ≤ forward (fun _ : Fin 1 => z) beta 0 ∧
    forward (fun _ : Fin 1 => z) beta 0 ≤ max (forward (fun _ : Fin 1 => x) beta 0) (forward (fun _ : Fin 1 => y) beta 0) := by
  obtain ⟨t, h0, h1, hz⟩ := hz
  have e : scores (fun _ : Fin 1 => z) beta 0 = (1 - t) * scores (fun _ : Fin 1 => x) beta 0 + t * scores (fun _ : Fin 1 => y) beta 0 := by
    simp only [scores, hat, Fin.sum_univ_castSucc, Fin.snoc_castSucc, Fin.snoc_last, mul_add, Finset.mul_sum]
    have : ∑ i : Fin d, z i * beta i.castSucc = ∑ i : Fin d, (1 - t) * (x i * beta i.castSucc) + ∑ i : Fin d, t * (y i * beta i.castSucc) := by
      rw [← Finset.sum_add_distrib]; exact Finset.sum_congr rfl fun i _ => by rw [hz i]; ring
    rw [this]; ring
  have hm : ∀ a b : ℝ, a ≤ b → sigmoid a ≤ sigmoid b := fun a b h => by
    simp only [sigmoid]
    have := Real.exp_le_exp.2 (neg_le_neg h)
    have := Real.exp_pos (-b)
    gcongr
  simp only [forward, e]
  rcases le_total (scores (fun _ : Fin 1 => x) beta 0) (scores (fun _ : Fin 1 => y) beta 0) with h | h
  · rw [min_eq_left (hm _ _ h), max_eq_right (hm _ _ h)]
    exact ⟨hm _ _ (by nlinarith), hm _ _ (by nlinarith)⟩
  · rw [min_eq_right (hm _ _ h), max_eq_left (hm _ _ h)]
    exact ⟨hm _ _ (by nlinarith), hm _ _ (by nlinarith)⟩

end LogReg

namespace SVC

theorem linear_mix (t : K) : ∀ (x y v : List K), x.length = y.length →
    linearList (List.zipWith (fun a b => (1 - t) * a + t * b) x y) v = (1 - t) * linearList x v + t * linearList y v
  | [], [], _, _ => by simp [linearList]
  | [], _ :: _, _, h => by simp at h
  | _ :: _, [], _, h => by simp at h
  | a :: x, b :: y, [], _ => by simp [linearList]
  | a :: x, b :: y, c :: v, h => by
    have ih := linear_mix t x y v (by simpa using h)
    simp only [linearList, List.zipWith_cons_cons, List.sum_cons] at *
    rw [ih]; ring

theorem decision_mix {N : Type} (o : Obj K N) {x y : List K} (t : K) (h : x.length = y.length) :
    decisionValue linearList o (List.zipWith (fun a b => (1 - t) * a + t * b) x y) =
      (1 - t) * decisionValue linearList o x + t * decisionValue linearList o y := by
  have key : ∀ (l : List K) (vs : List (List K)),
      (List.zipWith (fun ay v => ay * linearList (List.zipWith (fun a b => (1 - t) * a + t * b) x y) v) l vs).sum =
      (1 - t) * (List.zipWith (fun ay v => ay * linearList x v) l vs).sum + t * (List.zipWith (fun ay v => ay * linearList y v) l vs).sum := by
    intro l
    induction l with
    | nil => intro vs; simp
    | cons a l ih =>
      intro vs
      cases vs with
      | nil => simp
      | cons v vs => simp only [List.zipWith_cons_cons, List.sum_cons, ih, linear_mix t x y v h]; ring
  simp only [decisionValue, key]; ring

/-- C262: the two classes of a support vector classifier with the linear kernel are convex. -/
theorem C262_svc {N : Type} (o : Obj K N) (hk : o.kernel = .inst linearList) {x y z : List K} {c : Int} (hz : BetweenRows x y z)
    (hx : o.predict [x] = .ok [c]) (hy : o.predict [y] = .ok [c]) : o.predict [z] = .ok [c] := by
  obtain ⟨hl, t, h0, h1, rfl⟩ := hz
  simp only [Obj.predict, hk, List.map_cons, List.map_nil, decision_mix o t hl] at *
  split at hx
  · cases hx
  · rename_i ht
    rw [if_neg ht] at hy ⊢
    simp only [Except.ok.injEq, List.cons.injEq, and_true] at *
    split at hx
    · split at hy
      · rename_i a b
        rw [if_pos (mix_neg h0 h1 a b)]; exact hx
      · rw [← hx] at hy; simp at hy
    · split at hy
      · rw [← hx] at hy; simp at hy
      · rename_i a b
        rw [if_neg]; · exact hx
        rw [not_lt] at *
        exact add_nonneg (mul_nonneg (sub_nonneg.2 h1) a) (mul_nonneg h0 b)

example : BetweenRows [(0 : ℚ), 0] [2, 4] [1, 2] ∧
    (Obj.mk (N := String) [[(1 : ℚ), 1]] [1] [1] (-7) 1 (.inst linearList) (.num 1) 1 true false).predict [[0, 0]] = .ok [-1] ∧
    (Obj.mk (N := String) [[(1 : ℚ), 1]] [1] [1] (-7) 1 (.inst linearList) (.num 1) 1 true false).predict [[2, 4]] = .ok [-1] :=
  ⟨⟨rfl, 1/2, by norm_num, by norm_num, by norm_num⟩, by decide +kernel, by decide +kernel⟩

end SVC

namespace Small

/-- C262: the two classes of a decision stump are convex. -/
theorem C262_stump (s : Stump K d) {x y z : Fin d → K} {c : Int} (hz : Between x y z) (hx : s.predict x = c) (hy : s.predict y = c) :
    s.predict z = c := by
  obtain ⟨t, h0, h1, hz⟩ := hz
  have e : z s.feature - s.point = (1 - t) * (x s.feature - s.point) + t * (y s.feature - s.point) := by rw [hz]; ring
  have key : (x s.feature < s.point ∧ y s.feature < s.point → z s.feature < s.point) ∧ (s.point ≤ x s.feature ∧ s.point ≤ y s.feature → s.point ≤ z s.feature) := by
    constructor
    · rintro ⟨a, b⟩; have := mix_neg h0 h1 (sub_neg.2 a) (sub_neg.2 b); rw [← e] at this; exact sub_neg.1 this
    · rintro ⟨a, b⟩
      have := add_nonneg (mul_nonneg (sub_nonneg.2 h1) (sub_nonneg.2 a)) (mul_nonneg h0 (sub_nonneg.2 b))
      rw [← e] at this; exact sub_nonneg.1 this
  simp only [Stump.predict] at *
  cases hm : s.mode <;> simp only [hm] at * <;> grind

example : Between (![0, 0] : Fin 2 → ℚ) ![2, 4] ![1, 2] ∧ (Stump.mk (K := ℚ) (m := 2) 1 5 .le).predict ![0, 0] = -1 ∧
    (Stump.mk (K := ℚ) (m := 2) 1 5 .le).predict ![2, 4] = -1 := by
  refine ⟨⟨1/2, by norm_num, by norm_num, fun i => ?_⟩, by decide +kernel, by decide +kernel⟩
  fin_cases i <;> norm_num

end Small

namespace DTree

/-- The classes of a full decision tree need not be convex. -/
theorem C262_tree_not_convex : ∃ (xs : List (Row ℚ 1)) (ys : List Int) (x y z : Row ℚ 1), Between x y z ∧
    (fit (criterionOracle gini id (fun _ => true) (fun ys => ys.head?) id) 10 xs ys).map (fun T => (predict id x T, predict id y T, predict id z T)) =
      .ok (.ok 0, .ok 0, .ok 1) := by
  refine ⟨[![1/2], ![3/2], ![5/2]], [0, 1, 0], ![1/2], ![5/2], ![3/2], ⟨1/2, by norm_num, by norm_num, fun i => ?_⟩, by decide +kernel⟩
  fin_cases i; norm_num

end DTree
end CML
