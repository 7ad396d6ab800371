import Verif.Props.DensityFloor
import Mathlib.Analysis.Complex.ExponentialBounds

set_option linter.unusedSectionVars false

/-!
# Property C299: a sample that is learned keeps its answer

naive_bayes_classifier.py:60-144, 191-232 with continuous attributes, without rounding.
-/

namespace CML.Bayes

open Real CML.Float

variable {V : Type} [DecidableEq V]

/-- mean -/
noncomputable def mu (l : List ℝ) : ℝ := l.sum / l.length
/-- variance -/
noncomputable def va (l : List ℝ) : ℝ := (l.map fun v => (v - mu l) ^ 2).sum / l.length

lemma isMeanVar_mu {l : List ℝ} (h : l ≠ []) : IsMeanVar l (mu l) (va l) := by
  have hl : (l.length : ℝ) ≠ 0 := by
    have := List.length_pos_of_ne_nil h
    exact_mod_cast this.ne'
  refine ⟨h, by unfold mu; field_simp, ?_⟩
  unfold va
  rw [mul_div_cancel₀ _ hl]
  simp only [pow_two]

lemma meanVar_unique {l : List ℝ} {m v m' v' : ℝ} (h : IsMeanVar l m v) (h' : IsMeanVar l m' v') : m = m' ∧ v = v' := by
  have := (meanVar_of h).symm.trans (meanVar_of h')
  simpa using this

lemma sum_sq (l : List ℝ) (a b : ℝ) : (l.map fun x => (x - a) * (x - a)).sum =
    (l.map fun x => (x - b) * (x - b)).sum + 2 * (b - a) * (l.sum - l.length * b) + l.length * (b - a) ^ 2 := by
  induction l with
  | nil => simp
  | cons x l ih => simp only [List.map_cons, List.sum_cons, ih, List.length_cons]; push_cast; ring

/-- Mean and variance after one more number. -/
lemma isMeanVar_append {l : List ℝ} {m v : ℝ} (h : IsMeanVar l m v) (x : ℝ) :
    IsMeanVar (l ++ [x]) (m + (x - m) / (l.length + 1)) ((l.length : ℝ) / (l.length + 1) * (v + (x - m) ^ 2 / (l.length + 1))) := by
  have hn : (l.length : ℝ) + 1 ≠ 0 := by positivity
  obtain ⟨h0, h1, h2⟩ := h
  refine ⟨by simp, ?_, ?_⟩
  · rw [List.length_append, List.sum_append, ← h1]
    simp only [List.length_singleton, List.sum_singleton]
    push_cast
    field_simp
    ring
  · rw [List.length_append, List.map_append, List.sum_append, sum_sq l _ m, ← h2, ← h1]
    simp only [List.length_singleton, List.map_singleton, List.sum_singleton]
    push_cast
    field_simp
    ring

lemma classValues_learn (l : List ℝ) (y : List Int) (hl : l.length = y.length) (r : ℝ) (c d : Int) :
    classValues (l ++ [r]) (y ++ [c]) d = classValues l y d ++ (if c = d then [r] else []) := by
  unfold classValues
  rw [List.zip_append hl, List.filter_append, List.map_append]
  by_cases h : c = d <;> simp [h]

lemma classSize_learn (y : List Int) (c d : Int) : classSize (y ++ [c]) d = classSize y d + if c = d then 1 else 0 := by
  unfold classSize
  rw [List.filter_append, List.length_append]
  by_cases h : c = d <;> simp [h]

lemma classValues_length (l : List ℝ) (y : List Int) (hl : l.length = y.length) (c : Int) : (classValues l y c).length = classSize y c := by
  unfold classValues classSize
  rw [List.length_map]
  induction l generalizing y with
  | nil => cases y with
    | nil => rfl
    | cons _ _ => simp at hl
  | cons a l ih => cases y with
    | nil => simp at hl
    | cons b y =>
      have := ih y (by simpa using hl)
      rw [List.zip_cons_cons, List.filter_cons, List.filter_cons]
      by_cases hb : b = c <;> simp [hb] at this ⊢ <;> exact this

/-- The weight that smoothing adds to a class. -/
def extra (smoothing : Bool) : ℝ := if smoothing then 1 else 0

lemma extra_nonneg (smoothing : Bool) : 0 ≤ extra smoothing := by cases smoothing <;> simp [extra]

/-- The product of the densities of a row. -/
noncomputable def dens (y : List Int) (c : Int) (ls : List (List ℝ)) (x : List ℝ) : ℝ :=
  (List.zipWith (fun l r => raw r (mu (classValues l y c)) (va (classValues l y c))) ls x).prod

lemma factors_cont (smoothing : Bool) (y : List Int) (c : Int) : ∀ (ls : List (List ℝ)) (x : List ℝ), x.length = ls.length →
    (∀ l ∈ ls, classValues l y c ≠ [] ∧ 0 < va (classValues l y c)) →
    factors (V := V) id smoothing (ls.map fun l => .cont (meanVar (classValues l y c))) (x.map .cont) =
      .ok ((List.zipWith (fun l r => raw r (mu (classValues l y c)) (va (classValues l y c))) ls x).map some)
  | [], _, _, _ => rfl
  | l :: ls, [], h, _ => by simp at h
  | l :: ls, r :: x, h, hl => by
    have h1 := hl l (by simp)
    have ih := factors_cont smoothing y c ls x (by simpa using h) fun l hl' => hl l (by simp [hl'])
    simp only [List.map_cons, factors, List.zipWith_cons_cons]
    rw [ih, meanVar_of (isMeanVar_mu h1.1)]
    simp only [factor]
    rw [density_raw _ _ _ h1.2, id, if_neg (raw_pos _ _ h1.2).ne']

lemma dens_pos (y : List Int) (c : Int) (ls : List (List ℝ)) (x : List ℝ) (h : ∀ l ∈ ls, 0 < va (classValues l y c)) : 0 < dens y c ls x := by
  unfold dens
  induction ls generalizing x with
  | nil => simp
  | cons l ls ih => cases x with
    | nil => simp
    | cons r x =>
      rw [List.zipWith_cons_cons, List.prod_cons]
      exact mul_pos (raw_pos _ _ (h l (by simp))) (ih x fun l hl => h l (by simp [hl]))

lemma columns_cont (order : List V → List V) (y : List Int) (c : Int) (ls : List (List ℝ)) :
    (ls.map Col.cont).mapM (nbColumn order y c) = (.ok (ls.map fun l => .cont (meanVar (classValues l y c))) : Except PyErr (List (Stored V))) := by
  induction ls with
  | nil => rfl
  | cons l ls ih =>
    rw [List.map_cons, List.mapM_cons, ih]
    rfl

/-- Training and prediction on continuous attributes. -/
lemma fit_predict (order : List V → List V) (ls : List (List ℝ)) (y : List Int) (x : List ℝ) (smoothing : Bool) (hy : ∀ c ∈ y, c = 0 ∨ c = 1)
    (hc : ∀ c, c = 0 ∨ c = 1 → c ∈ y) (hx : x.length = ls.length)
    (hv : ∀ l ∈ ls, ∀ c, c = 0 ∨ c = 1 → classValues l y c ≠ [] ∧ 0 < va (classValues l y c)) :
    ∃ m, nbFit order (ls.map Col.cont) y smoothing = .ok m ∧ nbPredict id smoothing m (x.map .cont) =
      .ok (if (classSize y 1 + extra smoothing) * dens y 1 ls x < (classSize y 0 + extra smoothing) * dens y 0 ls x then 0 else 1) := by
  have hne : y ≠ [] := List.ne_nil_of_mem (hc 0 (.inl rfl))
  have hN : 0 < (y.length : ℝ) + 2 * extra smoothing := by
    have h1 : 0 < (y.length : ℝ) := by exact_mod_cast List.length_pos_of_ne_nil hne
    have := extra_nonneg smoothing
    positivity
  have hprior : prior y.length y smoothing = .ok ((classSize y 0 + extra smoothing) / (y.length + 2 * extra smoothing),
      (classSize y 1 + extra smoothing) / (y.length + 2 * extra smoothing)) := by
    cases smoothing
    · rw [C37_frequencies y hne hy]; simp [extra]
    · rw [C37_laplace_partial y hy (hc 0 (.inl rfl)) (hc 1 (.inr rfl))]; simp [extra]
  refine ⟨⟨(classSize y 0 + extra smoothing) / (y.length + 2 * extra smoothing), (classSize y 1 + extra smoothing) / (y.length + 2 * extra smoothing),
    ls.map fun l => .cont (meanVar (classValues l y 0)), ls.map fun l => .cont (meanVar (classValues l y 1))⟩,
    by unfold nbFit; rw [hprior]; simp only [columns_cont], ?_⟩
  unfold nbPredict
  simp only
  rw [factors_cont smoothing y 0 ls x hx fun l hl => hv l hl 0 (.inl rfl), factors_cont smoothing y 1 ls x hx fun l hl => hv l hl 1 (.inr rfl)]
  simp only
  rw [score_prod, score_prod]
  have d0 := dens_pos y 0 ls x fun l hl => (hv l hl 0 (.inl rfl)).2
  have d1 := dens_pos y 1 ls x fun l hl => (hv l hl 1 (.inr rfl)).2
  have he := extra_nonneg smoothing
  change Except.ok (label (some (logB (_ * dens y 0 ls x))) (some (logB (_ * dens y 1 ls x)))) = _
  rw [label_prod (by positivity) (by positivity)]
  congr 2
  rw [div_mul_eq_mul_div, div_mul_eq_mul_div, div_lt_div_iff_of_pos_right hN]

lemma raw_learn {x m v n : ℝ} (hn : 0 < n) (hv : 0 < v) (h : n * (x - m) ^ 2 ≤ (n + 1) * v) :
    raw x m v ≤ raw x (m + (x - m) / (n + 1)) (n / (n + 1) * (v + (x - m) ^ 2 / (n + 1))) := by
  set w := n / (n + 1) * (v + (x - m) ^ 2 / (n + 1)) with hw
  have w1 : n / (n + 1) * v ≤ w := by
    have : 0 ≤ (x - m) ^ 2 / (n + 1) := by positivity
    exact mul_le_mul_of_nonneg_left (by linarith) (by positivity)
  have w0 : 0 < w := lt_of_lt_of_le (by positivity) w1
  have w2 : w ≤ v := by
    rw [hw, div_mul_eq_mul_div, div_le_iff₀ (by positivity)]
    have : n * ((x - m) ^ 2 / (n + 1)) ≤ v := by
      rw [← mul_div_assoc, div_le_iff₀ (by positivity)]; linarith
    linarith
  have hs : 0 < √(2 * π) := sqrt_pos.2 (by positivity)
  unfold raw
  refine mul_le_mul (one_div_le_one_div_of_le (by positivity) (mul_le_mul_of_nonneg_left w2 hs.le)) (exp_le_exp.2 ?_) (exp_pos _).le (by positivity)
  rw [neg_div, neg_div, neg_le_neg_iff]
  have e : x - (m + (x - m) / (n + 1)) = n / (n + 1) * (x - m) := by field_simp; ring
  rw [e, div_le_div_iff₀ (by positivity) (by positivity)]
  have : (n / (n + 1) * v) ^ 2 ≤ w ^ 2 := by gcongr
  have := mul_le_mul_of_nonneg_left this (sq_nonneg (x - m))
  nlinarith

/-- The columns after one more row. -/
def withRow (ls : List (List ℝ)) (x : List ℝ) : List (List ℝ) := List.zipWith (fun l r => l ++ [r]) ls x

lemma withRow_other (y : List Int) {c d : Int} (hcd : c ≠ d) : ∀ (ls : List (List ℝ)) (x z : List ℝ), x.length = ls.length →
    (∀ l ∈ ls, l.length = y.length) → dens (y ++ [c]) d (withRow ls x) z = dens y d ls z
  | [], _, _, _, _ => rfl
  | _ :: _, [], _, h, _ => by simp at h
  | _ :: _, _ :: _, [], _, _ => by simp [dens, withRow]
  | l :: ls, r :: x, s :: z, h, hl => by
    have ih := withRow_other y hcd ls x z (by simpa using h) fun l hl' => hl l (by simp [hl'])
    unfold dens withRow at ih ⊢
    rw [List.zipWith_cons_cons, List.zipWith_cons_cons, List.zipWith_cons_cons, List.prod_cons, List.prod_cons, ih,
      classValues_learn l y (hl l (by simp)), if_neg hcd, List.append_nil]

/-- What one more number does to mean and variance. -/
lemma column_learn (l : List ℝ) (y : List Int) (hl : l.length = y.length) (r : ℝ) (c : Int) (h : classValues l y c ≠ []) :
    mu (classValues (l ++ [r]) (y ++ [c]) c) = mu (classValues l y c) + (r - mu (classValues l y c)) / (classSize y c + 1) ∧
    va (classValues (l ++ [r]) (y ++ [c]) c) =
      (classSize y c : ℝ) / (classSize y c + 1) * (va (classValues l y c) + (r - mu (classValues l y c)) ^ 2 / (classSize y c + 1)) := by
  have e := classValues_learn l y hl r c c
  rw [if_pos rfl] at e
  have h1 := isMeanVar_append (isMeanVar_mu h) r
  rw [← e, classValues_length l y hl c] at h1
  exact meanVar_unique (isMeanVar_mu h1.1) h1

lemma withRow_same (y : List Int) (c : Int) (hn : 0 < classSize y c) : ∀ (ls : List (List ℝ)) (x : List ℝ), x.length = ls.length →
    (∀ l ∈ ls, l.length = y.length) → (∀ l ∈ ls, classValues l y c ≠ [] ∧ 0 < va (classValues l y c)) →
    (∀ p ∈ ls.zip x, classSize y c * (p.2 - mu (classValues p.1 y c)) ^ 2 ≤ (classSize y c + 1) * va (classValues p.1 y c)) →
    dens y c ls x ≤ dens (y ++ [c]) c (withRow ls x) x
  | [], _, _, _, _, _ => by simp [dens, withRow]
  | _ :: _, [], h, _, _, _ => by simp at h
  | l :: ls, r :: x, h, hl, hv, hp => by
    have ih := withRow_same y c hn ls x (by simpa using h) (fun l hl' => hl l (by simp [hl'])) (fun l hl' => hv l (by simp [hl']))
      (fun p hp' => hp p (by simp [hp']))
    obtain ⟨v1, v2⟩ := hv l (by simp)
    obtain ⟨e1, e2⟩ := column_learn l y (hl l (by simp)) r c v1
    have hn' : (0 : ℝ) < classSize y c := by exact_mod_cast hn
    have key := raw_learn hn' v2 (hp (l, r) (by simp))
    have d0 := dens_pos y c ls x fun l hl => (hv l (by simp [hl])).2
    unfold dens at ih d0 ⊢
    unfold withRow at ih ⊢
    rw [List.zipWith_cons_cons, List.zipWith_cons_cons, List.zipWith_cons_cons, List.prod_cons, List.prod_cons, e1, e2]
    exact mul_le_mul key ih d0.le ((raw_pos _ _ v2).le.trans key)

lemma withRow_spread (y : List Int) (c : Int) (hn : 0 < classSize y c) : ∀ (ls : List (List ℝ)) (x : List ℝ),
    (∀ l ∈ ls, l.length = y.length) → (∀ l ∈ ls, ∀ d, d = 0 ∨ d = 1 → classValues l y d ≠ [] ∧ 0 < va (classValues l y d)) →
    ∀ l ∈ withRow ls x, ∀ d, d = 0 ∨ d = 1 → classValues l (y ++ [c]) d ≠ [] ∧ 0 < va (classValues l (y ++ [c]) d)
  | [], _, _, _ => by simp [withRow]
  | _ :: _, [], _, _ => by simp [withRow]
  | l :: ls, r :: x, hl, hv => by
    have ih := withRow_spread y c hn ls x (fun l hl' => hl l (by simp [hl'])) (fun l hl' => hv l (by simp [hl']))
    intro l' hl'
    unfold withRow at hl'
    rw [List.zipWith_cons_cons, List.mem_cons] at hl'
    rcases hl' with rfl | hl'
    · intro d hd
      obtain ⟨v1, v2⟩ := hv l (by simp) d hd
      by_cases hcd : c = d
      · subst hcd
        refine ⟨by rw [classValues_learn l y (hl l (by simp)), if_pos rfl]; simp, ?_⟩
        rw [(column_learn l y (hl l (by simp)) r c v1).2]
        have hn' : (0 : ℝ) < classSize y c := by exact_mod_cast hn
        positivity
      · rw [classValues_learn l y (hl l (by simp)), if_neg hcd, List.append_nil]
        exact ⟨v1, v2⟩
    · exact ih l' hl'

lemma withRow_length (ls : List (List ℝ)) (x : List ℝ) (h : x.length = ls.length) : x.length = (withRow ls x).length := by
  simp [withRow, h]

/-- C299 (part): continuous attributes that vary in both classes. A row that is answered with `c` and lies, in every attribute, not far from the mean of the
class, `n (x - m)² ≤ (n + 1) v`, is still answered with `c` after it has been added to the training data with label `c`. -/
theorem C299_near_partial (order : List V → List V) (ls : List (List ℝ)) (y : List Int) (x : List ℝ) (c : Int) (smoothing : Bool)
    (hy : ∀ d ∈ y, d = 0 ∨ d = 1) (hcs : 0 ∈ y ∧ 1 ∈ y) (hc : c = 0 ∨ c = 1) (hx : x.length = ls.length) (hl : ∀ l ∈ ls, l.length = y.length)
    (hv : ∀ l ∈ ls, ∀ d, d = 0 ∨ d = 1 → ∃ m v, IsMeanVar (classValues l y d) m v ∧ 0 < v)
    (hnear : ∀ p ∈ ls.zip x, ∀ m v, IsMeanVar (classValues p.1 y c) m v → classSize y c * (p.2 - m) ^ 2 ≤ (classSize y c + 1) * v) :
    ∃ model model', nbFit order (ls.map Col.cont) y smoothing = .ok model ∧
      nbFit order ((List.zipWith (fun l r => l ++ [r]) ls x).map Col.cont) (y ++ [c]) smoothing = .ok model' ∧
      (nbPredict id smoothing model (x.map .cont) = .ok c → nbPredict id smoothing model' (x.map .cont) = .ok c) := by
  have hmem : ∀ d, d = 0 ∨ d = 1 → d ∈ y := by rintro d (rfl | rfl); exacts [hcs.1, hcs.2]
  have hv' : ∀ l ∈ ls, ∀ d, d = 0 ∨ d = 1 → classValues l y d ≠ [] ∧ 0 < va (classValues l y d) := by
    intro l hl' d hd
    obtain ⟨m, v, h1, h2⟩ := hv l hl' d hd
    exact ⟨h1.1, (meanVar_unique h1 (isMeanVar_mu h1.1)).2 ▸ h2⟩
  have hn : ∀ d, d = 0 ∨ d = 1 → 0 < classSize y d := fun d hd => by
    rw [classSize_count]; exact List.count_pos_iff.2 (hmem d hd)
  obtain ⟨m, f1, f2⟩ := fit_predict order ls y x smoothing hy hmem hx hv'
  obtain ⟨m', g1, g2⟩ := fit_predict order (withRow ls x) (y ++ [c]) x smoothing
    (by intro d hd; rcases List.mem_append.1 hd with h | h
        · exact hy d h
        · rw [List.mem_singleton.1 h]; exact hc)
    (fun d hd => List.mem_append_left _ (hmem d hd)) (withRow_length ls x hx) (withRow_spread y c (hn c hc) ls x hl hv')
  refine ⟨m, m', f1, g1, fun h => ?_⟩
  rw [f2] at h
  rw [g2]
  have he := extra_nonneg smoothing
  have same := withRow_same y c (hn c hc) ls x hx hl (fun l hl' => hv' l hl' c hc) fun p hp =>
    hnear p hp _ _ (isMeanVar_mu (hv' p.1 (List.of_mem_zip hp).1 c hc).1)
  have d0 := dens_pos y c ls x fun l hl => (hv' l hl c hc).2
  rcases hc with rfl | rfl
  · have h1 : (classSize y 1 + extra smoothing) * dens y 1 ls x < (classSize y 0 + extra smoothing) * dens y 0 ls x := by
      by_contra hcon; rw [if_neg hcon] at h; cases h
    rw [if_pos]
    rw [withRow_other y (by decide) ls x x hx hl, classSize_learn, classSize_learn, if_pos rfl, if_neg (by decide)]
    push_cast
    refine lt_of_lt_of_le (by simpa using h1) (mul_le_mul (by linarith) same d0.le (by positivity))
  · have h1 : ¬ (classSize y 1 + extra smoothing) * dens y 1 ls x < (classSize y 0 + extra smoothing) * dens y 0 ls x := by
      intro hcon; rw [if_pos hcon] at h; cases h
    rw [if_neg]
    rw [withRow_other y (show (1 : Int) ≠ 0 by decide) ls x x hx hl, classSize_learn, classSize_learn, if_pos rfl, if_neg (by decide)]
    push_cast
    refine not_lt.2 (le_trans (by simpa using not_lt.1 h1) (mul_le_mul (by linarith) same d0.le (by positivity)))

/-- C299 is false: two classes of `n ≥ 2` samples with the same variance `v` whose means lie `2 D` apart, `4 (n + 1) v ≤ D² ≤ v²`.  The value half way is
answered with 1; after it has been learned as a sample of class 1 it is answered with 0. -/
theorem C299_turned_away (order : List V → List V) (l : List ℝ) (y : List Int) (m0 m1 v : ℝ) (smoothing : Bool) (hl : l.length = y.length)
    (h0 : IsMeanVar (classValues l y 0) m0 v) (h1 : IsMeanVar (classValues l y 1) m1 v) (hv : 0 < v) (hy : ∀ d ∈ y, d = 0 ∨ d = 1)
    (hc : classSize y 0 = classSize y 1) (hn : 2 ≤ classSize y 1) (hfar : 4 * (classSize y 1 + 1) * v ≤ ((m1 - m0) / 2) ^ 2) (hbound : ((m1 - m0) / 2) ^ 2 ≤ v ^ 2) :
    ∃ model model', nbFit order [.cont l] y smoothing = .ok model ∧ nbPredict id smoothing model [.cont ((m0 + m1) / 2)] = .ok 1 ∧
      nbFit order [.cont (l ++ [(m0 + m1) / 2])] (y ++ [1]) smoothing = .ok model' ∧
      nbPredict id smoothing model' [.cont ((m0 + m1) / 2)] = .ok 0 := by
  have hmem : ∀ d, d = 0 ∨ d = 1 → d ∈ y := by
    rw [classSize_count] at hc hn
    rw [classSize_count] at hc
    rintro d (rfl | rfl) <;> exact List.count_pos_iff.1 (by omega)
  have e0 := meanVar_unique h0 (isMeanVar_mu h0.1)
  have e1 := meanVar_unique h1 (isMeanVar_mu h1.1)
  have hv' : ∀ k ∈ [l], ∀ d, d = 0 ∨ d = 1 → classValues k y d ≠ [] ∧ 0 < va (classValues k y d) := by
    simp only [List.mem_singleton, forall_eq]
    rintro d (rfl | rfl)
    · exact ⟨h0.1, e0.2 ▸ hv⟩
    · exact ⟨h1.1, e1.2 ▸ hv⟩
  set x := (m0 + m1) / 2 with hxdef
  obtain ⟨m, f1, f2⟩ := fit_predict order [l] y [x] smoothing hy hmem rfl hv'
  obtain ⟨m', g1, g2⟩ := fit_predict order (withRow [l] [x]) (y ++ [1]) [x] smoothing
    (by intro d hd; rcases List.mem_append.1 hd with h | h
        · exact hy d h
        · rw [List.mem_singleton.1 h]; exact .inr rfl)
    (fun d hd => List.mem_append_left _ (hmem d hd)) rfl (withRow_spread y 1 (by omega) [l] [x] (by simpa using hl) hv')
  refine ⟨m, m', f1, ?_, g1, ?_⟩
  · change nbPredict id smoothing m ([x].map .cont) = _
    rw [f2, if_neg]
    have e : dens y 0 [l] [x] = dens y 1 [l] [x] := by
      simp only [dens, List.zipWith_cons_cons, List.zipWith_nil_left, List.prod_cons, List.prod_nil, ← e0.1, ← e0.2, ← e1.1, ← e1.2]
      have ex : |x - m0| = |x - m1| := by rw [hxdef, abs_sub_comm ((m0 + m1) / 2) m1]; congr 1; ring
      rw [le_antisymm (raw_anti hv ex.ge) (raw_anti hv ex.le)]
    rw [hc, e]; exact lt_irrefl _
  · change nbPredict id smoothing m' ([x].map .cont) = _
    rw [g2, if_pos]
    rw [withRow_other y (show (1 : Int) ≠ 0 by decide) [l] [x] [x] rfl (by simpa using hl), classSize_learn, classSize_learn, if_pos rfl, if_neg (by decide), hc]
    obtain ⟨k1, k2⟩ := column_learn l y hl x 1 h1.1
    simp only [dens, withRow, List.zipWith_cons_cons, List.zipWith_nil_left, List.prod_cons, List.prod_nil, mul_one]
    rw [k1, k2, ← e0.1, ← e0.2, ← e1.1, ← e1.2]
    have hn' : (2 : ℝ) ≤ classSize y 1 := by exact_mod_cast hn
    push_cast
    generalize (classSize y 1 : ℝ) = n at *
    have he := extra_nonneg smoothing
    generalize extra smoothing = e at *
    have ed : (x - m1) ^ 2 = ((m1 - m0) / 2) ^ 2 := by rw [hxdef]; ring
    have ed' : (x - m0) ^ 2 = ((m1 - m0) / 2) ^ 2 := by rw [hxdef]; ring
    have hs : 0 < √(2 * π) := sqrt_pos.2 (by positivity)
    have w1 : 5 * n * v / (n + 1) ≤ n / (n + 1) * (v + (x - m1) ^ 2 / (n + 1)) := by
      have : 4 * v ≤ (x - m1) ^ 2 / (n + 1) := by rw [ed, le_div_iff₀ (by linarith)]; linarith
      rw [div_mul_eq_mul_div, div_le_div_iff_of_pos_right (by linarith)]
      nlinarith
    generalize n / (n + 1) * (v + (x - m1) ^ 2 / (n + 1)) = w at *
    have w0 : 0 < w := lt_of_lt_of_le (by positivity) w1
    have r1 : raw x (m1 + (x - m1) / (n + 1)) w ≤ 1 / (√(2 * π) * w) := by
      unfold raw
      refine mul_le_of_le_one_right (by positivity) (exp_le_one_iff.2 ?_)
      rw [neg_div, neg_nonpos]; positivity
    have r0 : 1 / (√(2 * π) * v) * (1 / 2) ≤ raw x m0 v := by
      unfold raw
      refine mul_le_mul_of_nonneg_left ?_ (by positivity)
      have : (x - m0) ^ 2 / (2 * v ^ 2) ≤ 1 / 2 := by rw [ed', div_le_iff₀ (by positivity)]; linarith
      have h2 := add_one_le_exp (-(x - m0) ^ 2 / (2 * v ^ 2))
      rw [neg_div] at h2 ⊢
      linarith
    refine lt_of_le_of_lt (mul_le_mul_of_nonneg_left r1 (by linarith)) (lt_of_lt_of_le ?_ (mul_le_mul_of_nonneg_left r0 (by linarith)))
    have w2 : (n + 1 + e) / w < (n + e) / v * (1 / 2) := by
      rw [div_le_iff₀ (by linarith)] at w1
      rw [div_mul_div_comm, mul_one, div_lt_div_iff₀ w0 (by positivity)]
      have k : 2 * (n + 1 + e) * (n + 1) < 5 * n * (n + e) := by nlinarith
      have k2 : (n + e) * (5 * n * v) ≤ (n + e) * (w * (n + 1)) := mul_le_mul_of_nonneg_left w1 (by linarith)
      have k3 : (n + 1 + e) * (v * 2) * (n + 1) < (n + e) * w * (n + 1) := by nlinarith
      exact lt_of_mul_lt_mul_right k3 (by linarith)
    have := mul_lt_mul_of_pos_left w2 (one_div_pos.2 hs)
    rw [one_div_mul_eq_div, div_div, ] at this
    calc (n + 1 + e) * (1 / (√(2 * π) * w)) = (n + 1 + e) / (w * √(2 * π)) := by rw [mul_one_div, mul_comm w]
      _ < 1 / √(2 * π) * ((n + e) / v * (1 / 2)) := this
      _ = (n + 0 + e) * (1 / (√(2 * π) * v) * (1 / 2)) := by rw [add_zero]; field_simp

lemma isMeanVar_two (a s : ℝ) : IsMeanVar [a - s, a + s] a (s * s) := by
  refine ⟨by simp, ?_, ?_⟩ <;> simp <;> ring

/-- The values 85, 115 (class 0) and 201, 231 (class 1) have the variance 225 in both classes: 158, half way between the means, is answered with 1, and with 0 once it is
known to belong to class 1. -/
example : ∃ model model', nbFit (V := String) (fun l => pyUnique l) [.cont [100 - 15, 100 + 15, 216 - 15, 216 + 15]] [0, 0, 1, 1] true = .ok model ∧
    nbPredict id true model [.cont ((100 + 216) / 2)] = .ok 1 ∧
    nbFit (V := String) (fun l => pyUnique l) [.cont ([100 - 15, 100 + 15, 216 - 15, 216 + 15] ++ [(100 + 216) / 2])] ([0, 0, 1, 1] ++ [1]) true = .ok model' ∧
    nbPredict id true model' [.cont ((100 + 216) / 2)] = .ok 0 := by
  refine C299_turned_away (fun l => pyUnique l) [100 - 15, 100 + 15, 216 - 15, 216 + 15] [0, 0, 1, 1] 100 216 (15 * 15) true rfl (isMeanVar_two 100 15) (isMeanVar_two 216 15)
    (by norm_num) (by decide) (by decide) (by decide) ?_ (by norm_num)
  have : classSize [0, 0, 1, 1] 1 = 2 := by decide
  rw [this]; norm_num

/-- The same data: 205 is answered with 1 before and after. -/
example : ∃ model model', nbFit (V := String) (fun l => pyUnique l) ([[100 - 15, 100 + 15, 216 - 15, 216 + 15]].map Col.cont) [0, 0, 1, 1] true = .ok model ∧
    nbFit (V := String) (fun l => pyUnique l) ((List.zipWith (fun l r => l ++ [r]) [[100 - 15, 100 + 15, 216 - 15, 216 + 15]] [205]).map Col.cont) ([0, 0, 1, 1] ++ [1]) true = .ok model' ∧
    (nbPredict id true model ([205].map .cont) = .ok 1 → nbPredict id true model' ([205].map .cont) = .ok 1) := by
  have hs : ∀ d : Int, d = 0 ∨ d = 1 → ∃ m v, IsMeanVar (classValues [100 - 15, 100 + 15, 216 - 15, 216 + 15] [0, 0, 1, 1] d) m v ∧ 0 < v := by
    rintro d (rfl | rfl)
    · exact ⟨_, _, isMeanVar_two 100 15, by norm_num⟩
    · exact ⟨_, _, isMeanVar_two 216 15, by norm_num⟩
  refine C299_near_partial (fun l => pyUnique l) [[100 - 15, 100 + 15, 216 - 15, 216 + 15]] [0, 0, 1, 1] [205] 1 true (by decide) (by decide) (.inr rfl) rfl (by simp)
    (by simpa using hs) ?_
  intro p hp m v hm
  obtain rfl : p = ([100 - 15, 100 + 15, 216 - 15, 216 + 15], 205) := by simpa using hp
  obtain ⟨rfl, rfl⟩ := meanVar_unique hm (show IsMeanVar (classValues _ [0, 0, 1, 1] 1) _ _ from isMeanVar_two 216 15)
  have : classSize [0, 0, 1, 1] 1 = 2 := by decide
  rw [this]; norm_num

end CML.Bayes
