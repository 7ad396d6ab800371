import Verif.Lemmas.Ensemble
import Verif.Props.SmallTrees
import Verif.Props.Ops

set_option linter.unusedSectionVars false

/-!
# Ensembles: C32 - C36, C75, C76
-/

namespace CML.Ada

open Finset

variable {X : Type*} {n : Nat}

/-! ## C32 -/

lemma loop_inv {learn : (Fin n → ℝ) → Except PyErr (X → Int)} {x : Fin n → X} {y : Fin n → Int} :
    ∀ (k : Nat) (D : Fin n → ℝ) (rs : List (Round X n)), IsDistribution D → loop learn x y k (some D) = .ok rs →
      (∀ r ∈ rs, IsDistribution r.dist ∧ learn r.dist = .ok r.h ∧ r.err = weightedError r.dist x y r.h ∧ r.alpha = alphaOf r.err) ∧
      rs.length ≤ k ∧ (0 < k → rs ≠ []) ∧ (∀ r, rs.head? = some r → r.dist = D)
  | 0, D, rs, hD, h => by
    simp only [loop, Except.ok.injEq] at h; subst h; simp
  | k + 1, D, rs, hD, h => by
    obtain ⟨f, hf, tl, rfl, hc⟩ := loop_succ hD h
    rcases hc with ⟨-, rfl⟩ | ⟨-, -, D', hD', -, hl⟩
    · simp [hD, hf]
    · obtain ⟨h1, h2, -⟩ := loop_inv k D' tl hD' hl
      refine ⟨?_, by simpa using h2, by simp, by simp⟩
      intro r hr
      rcases List.mem_cons.1 hr with rfl | hr
      · exact ⟨hD, hf, rfl, rfl⟩
      · exact h1 r hr

/-- C32: every distribution handed to a base learner is strictly positive and sums to one, the first one is uniform, every learner is
the one trained on its distribution, and the recorded error is its probability of error; at most `maxEstimators` rounds are made, and at
least one if `maxEstimators` is not zero. -/
theorem C32_distributions (hn : 0 < n) (learn : (Fin n → ℝ) → Except PyErr (X → Int)) (x : Fin n → X) (y : Fin n → Int) (k : Nat)
    (rs : List (Round X n)) (h : fit learn x y k = .ok rs) :
    (∀ r ∈ rs, IsDistribution r.dist ∧ learn r.dist = .ok r.h ∧ r.err = weightedError r.dist x y r.h) ∧
      (∀ r, rs.head? = some r → r.dist = fun _ => 1 / (n : ℝ)) ∧ rs.length ≤ k ∧ (0 < k → rs ≠ []) := by
  obtain ⟨h1, h2, h3, h4⟩ := loop_inv k _ rs (uniform_dist hn) h
  exact ⟨fun r hr => ⟨(h1 r hr).1, (h1 r hr).2.1, (h1 r hr).2.2.1⟩, h4, h2, h3⟩

/-- C32: a classifier object that has been trained once holds as many coefficients as estimators, at least one and at most
`maxEstimators`; if the learner never fails, training never fails. -/
theorem C32_lengths (hn : 0 < n) (learn : (Fin n → ℝ) → Except PyErr (X → Int)) (x : Fin n → X) (y : Fin n → Int) (k : Nat)
    (o' : Obj X) (h : Obj.fit {} learn x y k = .ok o') :
    o'.estimators.length = o'.alphas.length ∧ o'.alphas.length ≤ k ∧ (0 < k → 0 < o'.alphas.length) ∧ o'.trained = true := by
  simp only [Obj.fit, Bool.false_eq_true, false_and, if_false] at h
  split at h
  · simp at h
  · next rs hrs =>
    simp only [Except.ok.injEq] at h; subst h
    obtain ⟨-, -, h2, h3⟩ := C32_distributions hn learn x y k rs hrs
    simp only [List.nil_append, List.length_map, true_and, and_true]
    exact ⟨h2, fun hk => List.length_pos_of_ne_nil (h3 hk)⟩

lemma loop_total {learn : (Fin n → ℝ) → Except PyErr (X → Int)} {x : Fin n → X} {y : Fin n → Int}
    (hl : ∀ D, IsDistribution D → ∃ f, learn D = .ok f) :
    ∀ (k : Nat) (D : Fin n → ℝ), IsDistribution D → ∃ rs, loop learn x y k (some D) = .ok rs
  | 0, D, hD => ⟨[], rfl⟩
  | k + 1, D, hD => by
    obtain ⟨f, hf⟩ := hl D hD
    unfold loop
    rw [hf]
    simp only
    by_cases hc : errorOf D (fun i => f (x i)) y > 1 / 2 ∨ errorOf D (fun i => f (x i)) y < EPS
    · exact ⟨_, if_pos hc⟩
    · rw [if_neg hc]
      push Not at hc
      rw [alphaOf_lt (by linarith [hc.1])]
      obtain ⟨rs, hrs⟩ := loop_total hl k _ (reweight_dist hD (fun i => f (x i)) y _)
      simp only [reweight]
      rw [hrs]
      exact ⟨_, rfl⟩

/-- C32: training fails only if the base learner fails on some distribution. -/
theorem C32_completes (hn : 0 < n) (learn : (Fin n → ℝ) → Except PyErr (X → Int)) (x : Fin n → X) (y : Fin n → Int) (k : Nat)
    (hl : ∀ D, IsDistribution D → ∃ f, learn D = .ok f) : ∃ rs, fit learn x y k = .ok rs :=
  loop_total hl k _ (uniform_dist hn)

/-! ## C33 -/

lemma loop_half {learn : (Fin n → ℝ) → Except PyErr (X → Int)} {x : Fin n → X} {y : Fin n → Int} :
    ∀ (k : Nat) (D : Fin n → ℝ) (rs : List (Round X n)), IsDistribution D → loop learn x y k (some D) = .ok rs →
      ∀ (i : Nat) (r r' : Round X n), rs[i]? = some r → rs[i + 1]? = some r' → weightedError r'.dist x y r.h = 1 / 2
  | 0, D, rs, hD, h => by
    simp only [loop, Except.ok.injEq] at h; subst h; simp
  | k + 1, D, rs, hD, h => by
    obtain ⟨f, hf, tl, rfl, hc⟩ := loop_succ hD h
    rcases hc with ⟨-, rfl⟩ | ⟨h0, h1, D', hD', hDe, hl⟩
    · intro i r r' _ h'; simp at h'
    · intro i r r' hr hr'
      rcases i with _ | i
      · simp only [List.getElem?_cons_zero, Option.some.injEq] at hr
        simp only [List.getElem?_cons_succ] at hr'
        subst hr
        have := (loop_inv k D' tl hD' hl).2.2.2 r' (by rw [List.head?_eq_getElem?]; exact hr')
        rw [this, hDe, ← errorOf_eq]
        have e := errorOf_eq D x y f
        rw [← e] at h0 h1 ⊢
        exact reweight_half hD _ y h0 (by linarith)
      · exact loop_half k D' tl hD' hl i r r' (by simpa using hr) (by simpa using hr')

/-- C33: for any two consecutive rounds, the earlier learner is wrong with probability exactly one half under the later distribution. -/
theorem C33_half (hn : 0 < n) (learn : (Fin n → ℝ) → Except PyErr (X → Int)) (x : Fin n → X) (y : Fin n → Int) (k : Nat)
    (rs : List (Round X n)) (h : fit learn x y k = .ok rs) (i : Nat) (r r' : Round X n) (hi : rs[i]? = some r)
    (hi' : rs[i + 1]? = some r') : weightedError r'.dist x y r.h = 1 / 2 :=
  loop_half k _ rs (uniform_dist hn) h i r r' hi hi'

lemma loop_continues {learn : (Fin n → ℝ) → Except PyErr (X → Int)} {x : Fin n → X} {y : Fin n → Int} :
    ∀ (k : Nat) (D : Fin n → ℝ) (rs : List (Round X n)), IsDistribution D → loop learn x y k (some D) = .ok rs →
      ∀ (i : Nat) (r : Round X n), rs[i]? = some r →
        ((i + 1 < rs.length → EPS ≤ r.err ∧ r.err ≤ 1 / 2) ∧
        (i + 1 = rs.length → i + 1 < k → 1 / 2 < r.err ∨ r.err < EPS))
  | 0, D, rs, hD, h => by
    simp only [loop, Except.ok.injEq] at h; subst h; simp
  | k + 1, D, rs, hD, h => by
    obtain ⟨f, hf, tl, rfl, hc⟩ := loop_succ hD h
    rcases hc with ⟨hs, rfl⟩ | ⟨h0, h1, D', hD', hDe, hl⟩
    · intro i r hr
      rcases i with _ | i
      · simp only [List.getElem?_cons_zero, Option.some.injEq] at hr
        subst hr; simpa using fun _ => hs
      · simp at hr
    · intro i r hr
      rcases i with _ | i
      · simp only [List.getElem?_cons_zero, Option.some.injEq] at hr
        subst hr
        refine ⟨fun _ => ⟨h0, h1⟩, fun hlen hk => ?_⟩
        have hne := (loop_inv k D' tl hD' hl).2.2.1 (by omega)
        simp only [List.length_cons] at hlen
        exact absurd (List.length_eq_zero_iff.1 (by omega)) hne
      · obtain ⟨ha, hb⟩ := loop_continues k D' tl hD' hl i r (by simpa using hr)
        exact ⟨fun hh => ha (by simpa using hh), fun hh hk => hb (by simpa using hh) (by omega)⟩

/-- C33: a round is followed by another one only if its error lies between `1e-36` and one half; training stops before
`maxEstimators` rounds only after an error above one half or below `1e-36`. -/
theorem C33_stopping (hn : 0 < n) (learn : (Fin n → ℝ) → Except PyErr (X → Int)) (x : Fin n → X) (y : Fin n → Int) (k : Nat)
    (rs : List (Round X n)) (h : fit learn x y k = .ok rs) (i : Nat) (r : Round X n) (hi : rs[i]? = some r) :
    (i + 1 < rs.length → 1 / 10 ^ 36 ≤ r.err ∧ r.err ≤ 1 / 2) ∧
    (i + 1 = rs.length → i + 1 < k → 1 / 2 < r.err ∨ r.err < 1 / 10 ^ 36) :=
  loop_continues k _ rs (uniform_dist hn) h i r hi

/-! ## C35 -/

lemma reals_coe (l : List ℝ) : reals (l.map fun a : ℝ => (a : WithBot ℝ)) = some l := by
  induction l with
  | nil => rfl
  | cons a l ih => simp [reals, ih]

lemma decideRow_pos {v s : ℝ} (hs : 0 < s) : decideRow v s = some (if 0 ≤ v then 1 else -1) := by
  unfold decideRow
  rw [if_neg hs.ne']
  by_cases h : 0 ≤ v
  · rw [if_pos (div_nonneg h hs.le), if_pos h]
  · rw [if_neg, if_neg h]
    rw [not_le] at h ⊢; exact div_neg_of_neg_of_pos h hs

lemma predictRow_eq (ms : List ((X → Int) × ℝ)) (r : X) :
    predictRow (ms.map Prod.fst) (ms.map fun q => ((q.2 : ℝ) : WithBot ℝ)) r =
      decideRow (weightedVote ms r) (ms.map Prod.snd).sum := by
  have hz : (ms.map Prod.fst).zip (ms.map Prod.snd) = ms := by
    rw [List.zip_map']; exact List.map_id ms
  have : (ms.map fun q => ((q.2 : ℝ) : WithBot ℝ)) = (ms.map Prod.snd).map fun a : ℝ => (a : WithBot ℝ) := by
    rw [List.map_map]; rfl
  unfold predictRow
  rw [this, reals_coe]
  show decideRow (vote ((ms.map Prod.fst).zip (ms.map Prod.snd)) r) _ = _
  rw [hz]; rfl

/-- C35: with coefficients of positive sum (and as many estimators), `predict` answers every row with the sign of the weighted vote, +1
for a tie. -/
theorem C35_sign (ms : List ((X → Int) × ℝ)) (hs : 0 < (ms.map Prod.snd).sum) (o : Obj X) (ho : o.trained = true ∨ o.loaded = true)
    (he : o.estimators = ms.map Prod.fst) (ha : o.alphas = ms.map fun q => ((q.2 : ℝ) : WithBot ℝ)) (rows : List X) :
    o.predict rows = .ok (rows.map fun r => some (if 0 ≤ weightedVote ms r then 1 else -1)) := by
  unfold Obj.predict
  rw [if_neg (by rcases ho with h | h <;> simp [h])]
  congr 1
  apply List.map_congr_left
  intro r _
  rw [he, ha, predictRow_eq, decideRow_pos hs]

/-- C35: a model with loaded weights votes with the estimators and coefficients of the file, whatever it held before. -/
theorem C35_after_load (ms : List ((X → Int) × ℝ)) (hs : 0 < (ms.map Prod.snd).sum) (o : Obj X) (rows : List X) :
    (o.load (ms.map Prod.fst) (ms.map fun q => ((q.2 : ℝ) : WithBot ℝ))).predict rows =
      .ok (rows.map fun r => some (if 0 ≤ weightedVote ms r then 1 else -1)) :=
  C35_sign ms hs _ (.inr rfl) rfl rfl rows

/-- C35: a new model refuses to predict (`ValueError`). -/
theorem C35_untrained_refused (rows : List X) : ({} : Obj X).predict rows = .error .valueError := rfl

/-- C35: with coefficients of sum zero, a row with tied votes gets no label (NaN). -/
theorem C35_zero_sum_nan (ms : List ((X → Int) × ℝ)) (hs : (ms.map Prod.snd).sum = 0) (o : Obj X) (ho : o.trained = true)
    (he : o.estimators = ms.map Prod.fst) (ha : o.alphas = ms.map fun q => ((q.2 : ℝ) : WithBot ℝ)) (r : X)
    (hv : weightedVote ms r = 0) : o.predict [r] = .ok [none] := by
  simp [Obj.predict, ho, he, ha, predictRow_eq, hv, hs, decideRow]

/-- C35: with coefficients of sum zero, the other rows still get the sign of the vote (a division by zero gives an infinity of that sign). -/
theorem C35_zero_sum_sign (ms : List ((X → Int) × ℝ)) (hs : (ms.map Prod.snd).sum = 0) (o : Obj X) (ho : o.trained = true)
    (he : o.estimators = ms.map Prod.fst) (ha : o.alphas = ms.map fun q => ((q.2 : ℝ) : WithBot ℝ)) (r : X) :
    (0 < weightedVote ms r → o.predict [r] = .ok [some 1]) ∧ (weightedVote ms r < 0 → o.predict [r] = .ok [some (-1)]) := by
  refine ⟨fun hv => ?_, fun hv => ?_⟩
  · simp [Obj.predict, ho, he, ha, predictRow_eq, hv, hs, decideRow]
  · simp [Obj.predict, ho, he, ha, predictRow_eq, hv, not_lt.2 hv.le, hs, decideRow]

example : ∃ ms : List ((ℝ → Int) × ℝ), (ms.map Prod.snd).sum = 0 ∧ 0 < weightedVote ms 0 :=
  ⟨[(fun _ => -1, -2), (fun _ => 1, 2)], by norm_num, by norm_num [weightedVote]⟩

/-- C35: with coefficients of negative sum, a row with a non-zero vote gets the opposite sign. -/
theorem C35_negative_sum_flips (ms : List ((X → Int) × ℝ)) (hs : (ms.map Prod.snd).sum < 0) (o : Obj X) (ho : o.trained = true)
    (he : o.estimators = ms.map Prod.fst) (ha : o.alphas = ms.map fun q => ((q.2 : ℝ) : WithBot ℝ)) (r : X)
    (hv : 0 < weightedVote ms r) : o.predict [r] = .ok [some (-1)] := by
  have hq : ¬ 0 ≤ weightedVote ms r / (ms.map Prod.snd).sum := by rw [not_le]; exact div_neg_of_pos_of_neg hv hs
  simp [Obj.predict, ho, he, ha, predictRow_eq, hs.ne, hq, decideRow]

example : ∃ ms : List ((ℝ → Int) × ℝ), 0 < (ms.map Prod.snd).sum ∧ weightedVote ms 0 < 0 :=
  ⟨[(fun _ => -1, 2), (fun _ => 1, 1)], by norm_num, by norm_num [weightedVote]⟩

/-! ## C34 -/

lemma loop_bound {learn : (Fin n → ℝ) → Except PyErr (X → Int)} {x : Fin n → X} {y : Fin n → Int}
    (hy : ∀ i, y i = 1 ∨ y i = -1) :
    ∀ (k : Nat) (D : Fin n → ℝ) (rs : List (Round X n)) (l : List ℝ), IsDistribution D → loop learn x y k (some D) = .ok rs →
      (∀ r ∈ rs, ∀ i, r.h (x i) = 1 ∨ r.h (x i) = -1) → rs.map Round.alpha = l.map (fun a : ℝ => (a : WithBot ℝ)) →
      ∑ i, D i * Real.exp (-((y i : ℝ) * weightedVote ((rs.map Round.h).zip l) (x i))) ≤
        (rs.map fun r => 2 * √(max r.err EPS * (1 - r.err))).prod
  | 0, D, rs, l, hD, h, _, hl => by
    simp only [loop, Except.ok.injEq] at h; subst h
    simp [weightedVote, hD.2]
  | k + 1, D, rs, l, hD, h, hpm, hl => by
    obtain ⟨f, hf, tl, rfl, hc⟩ := loop_succ hD h
    rcases l with _ | ⟨a, l⟩
    · simp at hl
    simp only [List.map_cons, List.cons.injEq] at hl
    obtain ⟨ha, hl⟩ := hl
    have he1 : weightedError D x y f < 1 := by
      rcases lt_or_eq_of_le (errorOf_le_one hD (fun i => f (x i)) y) with h1 | h1
      · rwa [errorOf_eq] at h1
      · rw [errorOf_eq] at h1
        rw [h1] at ha; simp [alphaOf] at ha
    rw [alphaOf_lt he1, WithBot.coe_inj] at ha
    have hsc : ∀ (i : Fin n) (v : ℝ), D i * Real.exp (-((y i : ℝ) * (a * ((f (x i) : Int) : ℝ) + v))) =
        scaled D (fun i => f (x i)) y a i * Real.exp (-((y i : ℝ) * v)) := by
      intro i v
      unfold scaled
      have hfi := hpm _ List.mem_cons_self i
      simp only at hfi
      have : -((y i : ℝ) * (a * ((f (x i) : Int) : ℝ) + v)) = (if f (x i) = y i then -1 else 1) * a + -((y i : ℝ) * v) := by
        rcases hy i with e1 | e1 <;> rcases hfi with e2 | e2 <;> rw [e1, e2] <;> simp <;> ring
      rw [this, mul_assoc, ← Real.exp_add]
    have hZ : ∑ i, scaled D (fun i => f (x i)) y a i ≤ 2 * √(max (weightedError D x y f) EPS * (1 - weightedError D x y f)) := by
      have := normaliser_le hD (fun i => f (x i)) y (by rw [errorOf_eq]; exact he1)
      rw [errorOf_eq, ha] at this
      exact this
    have hv : ∀ i, weightedVote ((f :: tl.map Round.h).zip (a :: l)) (x i) =
        a * ((f (x i) : Int) : ℝ) + weightedVote ((tl.map Round.h).zip l) (x i) := by
      intro i; simp [weightedVote]
    simp only [List.map_cons, hv, hsc, List.prod_cons]
    rcases hc with ⟨-, rfl⟩ | ⟨h0, h1, D', hD', hDe, hlp⟩
    · simpa [weightedVote] using hZ
    · have ih := loop_bound hy k D' tl l hD' hlp (fun r hr => hpm r (List.mem_cons_of_mem _ hr)) hl
      have hZ0 := sum_scaled_pos hD (fun i => f (x i)) y a
      rw [ha] at hDe
      have hD'i : ∀ i, scaled D (fun i => f (x i)) y a i = (∑ j, scaled D (fun i => f (x i)) y a j) * D' i := by
        intro i; rw [hDe]; field_simp
      have : ∑ i, scaled D (fun i => f (x i)) y a i * Real.exp (-((y i : ℝ) * weightedVote ((tl.map Round.h).zip l) (x i))) =
          (∑ j, scaled D (fun i => f (x i)) y a j) *
            ∑ i, D' i * Real.exp (-((y i : ℝ) * weightedVote ((tl.map Round.h).zip l) (x i))) := by
        rw [Finset.mul_sum]
        apply Finset.sum_congr rfl; intro i _
        rw [hD'i i]; ring
      rw [this]
      apply mul_le_mul hZ ih
      · exact Finset.sum_nonneg fun i _ => mul_nonneg (hD'.1 i).le (Real.exp_pos _).le
      · positivity

/-- C34: if learners and labels take the values -1 and +1 and the coefficients have a positive sum, the fraction of training samples on
which the trained classifier is wrong is at most the product over all rounds of `2 √(max ε EPS · (1 - ε))`, `ε` being the error of the
round. -/
theorem C34_training_error (hn : 0 < n) (learn : (Fin n → ℝ) → Except PyErr (X → Int)) (x : Fin n → X) (y : Fin n → Int) (k : Nat)
    (hy : ∀ i, y i = 1 ∨ y i = -1) (hlearn : ∀ D f, learn D = .ok f → ∀ i, f (x i) = 1 ∨ f (x i) = -1)
    (rs : List (Round X n)) (h : fit learn x y k = .ok rs) (l : List ℝ)
    (hl : rs.map Round.alpha = l.map fun a : ℝ => (a : WithBot ℝ)) (hs : 0 < l.sum) :
    (mistakes (predictRow (rs.map Round.h) (rs.map Round.alpha)) x y : ℝ) / n ≤
      (rs.map fun r => 2 * √(max r.err EPS * (1 - r.err))).prod := by
  obtain ⟨h1, -⟩ := loop_inv k _ rs (uniform_dist hn) h
  have hb := loop_bound hy k _ rs l (uniform_dist hn) h (fun r hr i => hlearn r.dist r.h (h1 r hr).2.1 i) hl
  refine le_trans ?_ hb
  rw [← Finset.mul_sum, one_div, inv_mul_eq_div]
  apply div_le_div_of_nonneg_right _ (Nat.cast_nonneg n)
  unfold mistakes
  rw [Finset.card_filter]
  push_cast
  apply Finset.sum_le_sum
  intro i _
  split
  · next hne =>
    rw [Real.one_le_exp_iff]
    unfold predictRow at hne
    rw [hl, reals_coe] at hne
    simp only [decideRow_pos hs] at hne
    have hv : vote ((rs.map Round.h).zip l) (x i) = weightedVote ((rs.map Round.h).zip l) (x i) := rfl
    rw [hv] at hne
    rcases hy i with e | e <;> rw [e] at hne ⊢
    · have : ¬ 0 ≤ weightedVote ((rs.map Round.h).zip l) (x i) := by
        intro h0; rw [if_pos h0] at hne; exact hne rfl
      push_cast; linarith
    · have : 0 ≤ weightedVote ((rs.map Round.h).zip l) (x i) := by
        by_contra h0; rw [if_neg h0] at hne; exact hne rfl
      push_cast; linarith
  · exact (Real.exp_pos _).le

/-- The theorems above apply to real training runs: a learner that always answers +1, labels +1, +1, -1 and two rounds. -/
example : ∃ rs : List (Round Unit 3), fit (fun _ => .ok fun _ => 1) (fun _ => ()) ![1, 1, -1] 2 = .ok rs ∧ rs.length = 2 := by
  obtain ⟨rs, h⟩ := C32_completes (n := 3) (by norm_num) (fun _ => .ok fun _ => 1) (fun _ => ()) ![1, 1, -1] 2 (fun _ _ => ⟨_, rfl⟩)
  obtain ⟨h1, h2, h3, h4⟩ := C32_distributions (by norm_num) _ _ _ _ rs h
  refine ⟨rs, h, ?_⟩
  rcases rs with _ | ⟨r, rs⟩
  · exact absurd rfl (h4 (by norm_num))
  rcases rs with _ | ⟨r', rs⟩
  · exfalso
    have hs := (C33_stopping (by norm_num) _ _ _ _ _ h 0 r rfl).2 rfl (by norm_num)
    obtain ⟨-, hh, he⟩ := h1 r (by simp)
    have hd := h2 r rfl
    simp only [Except.ok.injEq] at hh
    rw [hd, ← hh] at he
    have : r.err = 1 / 3 := by rw [he]; unfold weightedError; rw [Finset.sum_filter]; simp [Fin.sum_univ_three]
    rw [this] at hs
    rcases hs with hs | hs
    · norm_num at hs
    · norm_num at hs
  · simp only [List.length_cons] at h3 ⊢; omega

/-! ## AdaBoost with its default learner -/

section tree

variable {m : Nat}

lemma sum_filter_map {α : Type*} (p : α → Bool) (w : α → ℝ) (l : List α) :
    ((l.filter p).map w).sum = (l.map fun a => if p a then w a else 0).sum := by
  induction l with
  | nil => rfl
  | cons a l ih => by_cases h : p a <;> simp [h, ih]

lemma treeLearner_spec (x : Fin n → (Fin m → ℝ)) (y : Fin n → Int) (hm : 0 < m) (hy : ∀ i, y i = 1 ∨ y i = -1) (D : Fin n → ℝ)
    (hD : IsDistribution D) :
    ∃ f, treeLearner x y D = .ok f ∧ (∀ r, f r = 1 ∨ f r = -1) ∧ weightedError D x y f ≤ 1 / 2 := by
  obtain ⟨t, ht, -, -, hp, -⟩ := Small.C30_two_levels (List.ofFn fun i => (⟨x i, y i, D i⟩ : Small.Sample ℝ m)) hm
  refine ⟨fun r => t.predict r, by unfold treeLearner; rw [ht], hp, ?_⟩
  have h := Small.C31_half _ t ht (by
    intro s hs
    obtain ⟨i, rfl⟩ := (List.mem_ofFn' _ _).1 hs
    exact hy i)
  simp only [Small.weightWhere, sum_filter_map, List.map_ofFn, List.sum_ofFn, Function.comp_def, if_true, hD.2] at h
  unfold weightedError
  rw [Finset.sum_filter]
  simpa using h

lemma treeLearner_pm (x : Fin n → (Fin m → ℝ)) (y : Fin n → Int) (hm : 0 < m) (D : Fin n → ℝ) (f : (Fin m → ℝ) → Int)
    (h : treeLearner x y D = .ok f) (r : Fin m → ℝ) : f r = 1 ∨ f r = -1 := by
  obtain ⟨t, ht, -, -, hp, -⟩ := Small.C30_two_levels (List.ofFn fun i => (⟨x i, y i, D i⟩ : Small.Sample ℝ m)) hm
  unfold treeLearner at h
  rw [ht] at h
  simp only [Except.ok.injEq] at h
  rw [← h]; exact hp r

/-- The coefficient of an error of at most one half is a non-negative number, positive below one half. -/
lemma alphaOf_nonneg {e : ℝ} (h : e ≤ 1 / 2) : ∃ a : ℝ, alphaOf e = (a : WithBot ℝ) ∧ 0 ≤ a ∧ (e < 1 / 2 → 0 < a) := by
  refine ⟨_, alphaOf_lt (by linarith), ?_, ?_⟩
  · have hm : 0 < max e EPS := lt_max_of_lt_right EPS_pos
    have : (1 : ℝ) ≤ (1 - e) / max e EPS := by
      rw [le_div_iff₀ hm, one_mul]
      exact max_le (by linarith) (by linarith [EPS_lt_half])
    linarith [Real.log_nonneg this]
  · intro h'
    have hm : 0 < max e EPS := lt_max_of_lt_right EPS_pos
    have : (1 : ℝ) < (1 - e) / max e EPS := by
      rw [lt_div_iff₀ hm, one_mul]
      exact max_lt (by linarith) (by linarith [EPS_lt_half])
    linarith [Real.log_pos this]

lemma reals_of_le {rs : List (Round X n)} (h : ∀ r ∈ rs, r.alpha = alphaOf r.err ∧ r.err ≤ 1 / 2) :
    ∃ l : List ℝ, rs.map Round.alpha = l.map (fun a : ℝ => (a : WithBot ℝ)) ∧ (∀ a ∈ l, 0 ≤ a) ∧
      ((∃ r ∈ rs, r.err < 1 / 2) → 0 < l.sum) := by
  induction rs with
  | nil => exact ⟨[], rfl, by simp, by simp⟩
  | cons r rs ih =>
    obtain ⟨l, h1, h2, h3⟩ := ih fun r' hr' => h r' (List.mem_cons_of_mem _ hr')
    obtain ⟨ha, he⟩ := h r List.mem_cons_self
    obtain ⟨a, h4, h5, h6⟩ := alphaOf_nonneg he
    refine ⟨a :: l, by simp [h1, ha, h4], ?_, ?_⟩
    · intro b hb
      rcases List.mem_cons.1 hb with rfl | hb
      · exact h5
      · exact h2 b hb
    · rintro ⟨r', hr', hlt⟩
      have hl0 : 0 ≤ l.sum := List.sum_nonneg h2
      rw [List.sum_cons]
      rcases List.mem_cons.1 hr' with rfl | hr'
      · linarith [h6 hlt]
      · linarith [h3 ⟨r', hr', hlt⟩]

/-- C32, C35: with two-level trees, at least one feature and labels -1/+1, training never fails, no round has an error above one half
and no coefficient is negative. -/
theorem C32_two_level_trees (hn : 0 < n) (hm : 0 < m) (x : Fin n → (Fin m → ℝ)) (y : Fin n → Int) (hy : ∀ i, y i = 1 ∨ y i = -1)
    (k : Nat) : ∃ rs, fit (treeLearner x y) x y k = .ok rs ∧
      ∀ r ∈ rs, r.err ≤ 1 / 2 ∧ ∃ a : ℝ, r.alpha = (a : WithBot ℝ) ∧ 0 ≤ a := by
  obtain ⟨rs, h⟩ := C32_completes hn (treeLearner x y) x y k fun D hD =>
    let ⟨f, hf, _⟩ := treeLearner_spec x y hm hy D hD; ⟨f, hf⟩
  refine ⟨rs, h, fun r hr => ?_⟩
  obtain ⟨h1, h2, h3, h4⟩ := (loop_inv k _ rs (uniform_dist hn) h).1 r hr
  obtain ⟨f, hf, -, he⟩ := treeLearner_spec x y hm hy r.dist h1
  rw [h2] at hf
  simp only [Except.ok.injEq] at hf
  rw [← hf, ← h3] at he
  obtain ⟨a, ha, h0, -⟩ := alphaOf_nonneg he
  exact ⟨he, a, h4.trans ha, h0⟩

/-- C34 for the default learner: as soon as one round has an error below one half, the training error of the classifier is at most
the product of the `2 √(max ε EPS · (1 - ε))`. -/
theorem C34_two_level_trees (hn : 0 < n) (hm : 0 < m) (x : Fin n → (Fin m → ℝ)) (y : Fin n → Int) (hy : ∀ i, y i = 1 ∨ y i = -1)
    (k : Nat) (rs : List (Round (Fin m → ℝ) n)) (h : fit (treeLearner x y) x y k = .ok rs) (hlt : ∃ r ∈ rs, r.err < 1 / 2) :
    (mistakes (predictRow (rs.map Round.h) (rs.map Round.alpha)) x y : ℝ) / n ≤
      (rs.map fun r => 2 * √(max r.err EPS * (1 - r.err))).prod := by
  obtain ⟨rs', h', hb⟩ := C32_two_level_trees hn hm x y hy k
  rw [h] at h'
  simp only [Except.ok.injEq] at h'
  subst h'
  have hi := (loop_inv k _ rs (uniform_dist hn) h).1
  obtain ⟨l, h1, -, h3⟩ := reals_of_le (rs := rs) fun r hr => ⟨(hi r hr).2.2.2, (hb r hr).1⟩
  exact C34_training_error hn _ x y k hy (fun D f hf i => treeLearner_pm x y hm D f hf _) rs h l h1 (h3 hlt)

/-- C76 (part): with the default learner, every row gets the label +1 or -1 as soon as one round has an error below one half. -/
theorem C76_labels_partial (hn : 0 < n) (hm : 0 < m) (x : Fin n → (Fin m → ℝ)) (y : Fin n → Int) (hy : ∀ i, y i = 1 ∨ y i = -1)
    (k : Nat) (rs : List (Round (Fin m → ℝ) n)) (h : fit (treeLearner x y) x y k = .ok rs) (hlt : ∃ r ∈ rs, r.err < 1 / 2)
    (r : Fin m → ℝ) : predictRow (rs.map Round.h) (rs.map Round.alpha) r = some 1 ∨
      predictRow (rs.map Round.h) (rs.map Round.alpha) r = some (-1) := by
  obtain ⟨rs', h', hb⟩ := C32_two_level_trees hn hm x y hy k
  rw [h] at h'
  simp only [Except.ok.injEq] at h'
  subst h'
  have hi := (loop_inv k _ rs (uniform_dist hn) h).1
  obtain ⟨l, h1, -, h3⟩ := reals_of_le (rs := rs) fun r hr => ⟨(hi r hr).2.2.2, (hb r hr).1⟩
  unfold predictRow
  rw [h1, reals_coe]
  simp only [decideRow_pos (h3 hlt)]
  split <;> simp

end tree

/-! ## C76: rows without label -/

lemma alphaOf_half : alphaOf (1 / 2) = ((0 : ℝ) : WithBot ℝ) := by
  rw [alphaOf_lt (by norm_num), max_eq_left EPS_lt_half.le]; norm_num

lemma loop_constant {learn : (Fin n → ℝ) → Except PyErr (X → Int)} {x : Fin n → X} {y : Fin n → Int} (D : Fin n → ℝ)
    (hD : IsDistribution D) (hhalf : ∀ f, learn D = .ok f → weightedError D x y f = 1 / 2) :
    ∀ (k : Nat) (rs : List (Round X n)), loop learn x y k (some D) = .ok rs → ∀ r ∈ rs, r.alpha = ((0 : ℝ) : WithBot ℝ)
  | 0, rs, h => by simp only [loop, Except.ok.injEq] at h; subst h; simp
  | k + 1, rs, h => by
    obtain ⟨f, hf, tl, rfl, hc⟩ := loop_succ hD h
    have he := hhalf f hf
    rw [he, alphaOf_half]
    rcases hc with ⟨hc, -⟩ | ⟨-, -, D', hD', hDe, hl⟩
    · rw [he] at hc; exact absurd hc (by push Not; exact ⟨le_rfl, EPS_lt_half.le⟩)
    · have hDD : D' = D := by
        rw [hDe, he]
        have h0 : Real.log ((1 - 1 / 2) / max (1 / 2) EPS) / 2 = 0 := by
          rw [max_eq_left EPS_lt_half.le]; norm_num
        rw [h0]
        funext i
        simp [scaled, hD.2]
      subst hDD
      intro r hr
      rcases List.mem_cons.1 hr with rfl | hr
      · rfl
      · exact loop_constant D' hD hhalf k tl hl r hr

/-- C76 fails: if all training rows are equal and half of the labels are +1, half -1, then whatever -1/+1 classifiers the base learner
produces, all coefficients are zero and the trained classifier labels no row at all: every prediction is 0/0. -/
theorem C76_equal_rows_nan (hn : 0 < n) (learn : (Fin n → ℝ) → Except PyErr (X → Int)) (x : Fin n → X) (y : Fin n → Int) (k : Nat)
    (hx : ∀ i j, x i = x j) (hy : ∀ i, y i = 1 ∨ y i = -1)
    (hbal : 2 * (univ.filter fun i => y i = 1).card = n) (hlearn : ∀ D f, learn D = .ok f → ∀ r, f r = 1 ∨ f r = -1)
    (rs : List (Round X n)) (h : fit learn x y k = .ok rs) (r : X) :
    predictRow (rs.map Round.h) (rs.map Round.alpha) r = none := by
  have hnp : (0 : ℝ) < n := by exact_mod_cast hn
  have hcard : 2 * (univ.filter fun i => y i = -1).card = n := by
    have := Finset.card_filter_add_card_filter_not (s := (univ : Finset (Fin n))) (fun i => y i = 1)
    rw [Finset.card_univ, Fintype.card_fin] at this
    have h2 : (univ.filter fun i => ¬ y i = 1) = univ.filter fun i => y i = -1 := by
      apply Finset.filter_congr; intro i _
      rcases hy i with e | e <;> simp [e]
    rw [h2] at this; omega
  have hhalf : ∀ f, learn (fun _ => 1 / (n : ℝ)) = .ok f → weightedError (fun _ : Fin n => 1 / (n : ℝ)) x y f = 1 / 2 := by
    intro f hf
    have hf' := hlearn _ f hf (x ⟨0, hn⟩)
    unfold weightedError
    rw [Finset.sum_const, nsmul_eq_mul]
    have hxx : ∀ i, x i = x ⟨0, hn⟩ := fun i => hx i _
    rcases hf' with e | e
    · have : (univ.filter fun i => f (x i) ≠ y i) = univ.filter fun i => y i = -1 := by
        apply Finset.filter_congr; intro i _
        rw [hxx i, e]
        rcases hy i with e | e <;> simp [e]
      rw [this]
      have : ((univ.filter fun i => y i = -1).card : ℝ) = n / 2 := by
        have : ((2 * (univ.filter fun i => y i = -1).card : ℕ) : ℝ) = n := by rw [hcard]
        push_cast at this; linarith
      rw [this]; field_simp
    · have : (univ.filter fun i => f (x i) ≠ y i) = univ.filter fun i => y i = 1 := by
        apply Finset.filter_congr; intro i _
        rw [hxx i, e]
        rcases hy i with e | e <;> simp [e]
      rw [this]
      have : ((univ.filter fun i => y i = 1).card : ℝ) = n / 2 := by
        have : ((2 * (univ.filter fun i => y i = 1).card : ℕ) : ℝ) = n := by rw [hbal]
        push_cast at this; linarith
      rw [this]; field_simp
  have ha := loop_constant _ (uniform_dist hn) hhalf k rs h
  have h1 : rs.map Round.alpha = (rs.map fun _ => (0 : ℝ)).map fun a : ℝ => (a : WithBot ℝ) := by
    rw [List.map_map]; apply List.map_congr_left; intro r hr; exact ha r hr
  unfold predictRow
  rw [h1, reals_coe]
  simp only
  have hv : vote ((rs.map Round.h).zip (rs.map fun _ => (0 : ℝ))) r = 0 := by
    unfold vote
    apply List.sum_eq_zero
    intro v hv
    obtain ⟨q, hq, rfl⟩ := List.mem_map.1 hv
    have := (List.of_mem_zip hq).2
    obtain ⟨_, -, h0⟩ := List.mem_map.1 this
    rw [← h0, zero_mul]
  rw [hv]
  simp [decideRow]

/-- The witness of C76 with the default learner: two equal rows with different labels. -/
theorem C76_witness (k : Nat) : ∃ rs, fit (treeLearner (fun _ : Fin 2 => fun _ : Fin 1 => (0 : ℝ)) ![1, -1])
      (fun _ : Fin 2 => fun _ : Fin 1 => (0 : ℝ)) ![1, -1] k = .ok rs ∧
    ∀ r, predictRow (rs.map Round.h) (rs.map Round.alpha) r = none := by
  have hy : ∀ i, (![1, -1] : Fin 2 → Int) i = 1 ∨ (![1, -1] : Fin 2 → Int) i = -1 := by decide
  obtain ⟨rs, h, -⟩ := C32_two_level_trees (n := 2) (m := 1) (by norm_num) (by norm_num) (fun _ => fun _ => (0 : ℝ)) ![1, -1] hy k
  exact ⟨rs, h, C76_equal_rows_nan (by norm_num) _ _ _ k (fun _ _ => rfl) hy (by decide)
    (fun D f hf r => treeLearner_pm _ _ (by norm_num) D f hf r) rs h⟩

/-! ## C75: a second training -/

/-- C75 fails: a classifier that has been trained, or has loaded weights, cannot be trained again: whatever the data and the learner,
the call raises. -/
theorem C75_adaboost_refit_fails (o o' : Obj X) (learn : (Fin n → ℝ) → Except PyErr (X → Int)) (x : Fin n → X) (y : Fin n → Int)
    (k : Nat) (h : o.fit learn x y k = .ok o') {n' : Nat} (learn' : (Fin n' → ℝ) → Except PyErr (X → Int)) (x' : Fin n' → X)
    (y' : Fin n' → Int) (k' : Nat) (hk : 0 < k') (f : X → Int) (hl : learn' (fun _ => 1 / (n' : ℝ)) = .ok f) :
    o'.fit learn' x' y' k' = .error .attributeError := by
  have : o'.asArray = true := by
    unfold Obj.fit at h
    split at h
    · split at h <;> simp at h
    · split at h
      · simp at h
      · simp only [Except.ok.injEq] at h; subst h; rfl
  unfold Obj.fit
  rw [if_pos ⟨this, hk⟩, hl]

/-- C75: the same after `load_weights`. -/
theorem C75_adaboost_fit_after_load_fails (o : Obj X) (es : List (X → Int)) (as : List (WithBot ℝ))
    (learn' : (Fin n → ℝ) → Except PyErr (X → Int)) (x' : Fin n → X) (y' : Fin n → Int) (k' : Nat) (hk : 0 < k') (f : X → Int)
    (hl : learn' (fun _ => 1 / (n : ℝ)) = .ok f) : (o.load es as).fit learn' x' y' k' = .error .attributeError := by
  unfold Obj.fit
  rw [if_pos ⟨rfl, hk⟩, hl]

/-- C75 (part): the first training of a new object succeeds if the learner does, and stores exactly its own rounds. -/
theorem C75_first_fit_partial (hn : 0 < n) (learn : (Fin n → ℝ) → Except PyErr (X → Int)) (x : Fin n → X) (y : Fin n → Int) (k : Nat)
    (hl : ∀ D, IsDistribution D → ∃ f, learn D = .ok f) :
    ∃ rs, fit learn x y k = .ok rs ∧ ∃ o', Obj.fit {} learn x y k = .ok o' ∧ o'.estimators = rs.map Round.h ∧
      o'.alphas = rs.map Round.alpha ∧ o'.trained = true := by
  obtain ⟨rs, h⟩ := C32_completes hn learn x y k hl
  refine ⟨rs, h, ?_⟩
  unfold Obj.fit
  rw [if_neg (by simp), h]
  exact ⟨_, rfl, by simp, by simp, rfl⟩

end CML.Ada

namespace CML.Bagging

variable {K : Type*} {X E : Type*}

/-! ## C36 -/

/-- C36: a new model refuses to predict (`ValueError`). -/
theorem C36_untrained_refused (seed : Nat) (pred : E → X → Int) (rows : List X) :
    ({ seed := seed } : Obj E).predict pred rows = .error .valueError := rfl

/-- C36: `predict` answers +1 exactly if at least as many estimators vote +1 as -1, and -1 otherwise. -/
theorem C36_majority (o : Obj E) (ho : o.trained = true ∨ o.loaded = true) (pred : E → X → Int) (rows : List X)
    (hp : ∀ e ∈ o.members, ∀ r ∈ rows, pred e r = 1 ∨ pred e r = -1) :
    o.predict pred rows = .ok (rows.map fun r =>
      if o.members.countP (fun e => pred e r = -1) ≤ o.members.countP (fun e => pred e r = 1) then 1 else -1) := by
  unfold Obj.predict
  rw [if_neg (by rcases ho with h | h <;> simp [h])]
  congr 1
  apply List.map_congr_left
  intro r hr
  unfold decideRow
  have key : ∀ l : List E, (∀ e ∈ l, pred e r = 1 ∨ pred e r = -1) →
      (l.map fun e => pred e r).sum = (l.countP (fun e => pred e r = 1) : Int) - (l.countP (fun e => pred e r = -1) : Int) := by
    intro l hl
    induction l with
    | nil => rfl
    | cons e l ih =>
      have h1 := ih fun e' he' => hl e' (List.mem_cons_of_mem _ he')
      rw [List.map_cons, List.sum_cons, h1, List.countP_cons, List.countP_cons]
      rcases hl e List.mem_cons_self with h | h <;> rw [h] <;> simp <;> ring
  rw [key o.members fun e he => hp e he r hr]
  split <;> split <;> first | rfl | (exfalso; omega)

lemma steps_spec {rng : Option Nat → (n : Nat) → Fin n → Fin n} {learn : List (List K) → List (List Int) → Except PyErr E}
    {x : List (List K)} {y : List Int} :
    ∀ (n : Nat) (o o' : Obj E), steps rng learn x y n o = .ok o' →
      ∃ es : List E, o'.members = o.members ++ es ∧ es.length = n ∧ o'.seed = o.seed + n ∧
        ∀ (i : Nat) (e : E), es[i]? = some e → ∃ xs ys,
          Ops.bootstrapSampling rng (.d2 x) (some (.d1 y)) (some (o.seed + i)) = .ok (xs, some ys) ∧ learn xs ys = .ok e
  | 0, o, o', h => by
    simp only [steps, Except.ok.injEq] at h; subst h; exact ⟨[], by simp, rfl, rfl, by simp⟩
  | n + 1, o, o', h => by
    unfold steps at h
    split at h
    · next o1 h1 =>
      unfold step at h1
      split at h1
      · next xs ys hb =>
        split at h1
        · next e he =>
          simp only [Except.ok.injEq] at h1
          obtain ⟨es, h2, h3, h4, h5⟩ := steps_spec n o1 o' h
          subst h1
          refine ⟨e :: es, by rw [h2]; simp, by simp [h3], by rw [h4]; simp only; omega, ?_⟩
          intro i e' hi
          rcases i with _ | i
          · simp only [List.getElem?_cons_zero, Option.some.injEq] at hi
            subst hi; exact ⟨xs, ys, by simpa using hb, he⟩
          · obtain ⟨xs', ys', hb', he'⟩ := h5 i e' (by simpa using hi)
            refine ⟨xs', ys', ?_, he'⟩
            simp only at hb'
            rwa [show o.seed + (i + 1) = o.seed + 1 + i by omega]
        · simp at h1
      · simp at h1
      · simp at h1
    · simp at h

/-- C36: `fit` keeps the estimators it finds and appends exactly `n` new ones; the `i`-th new one is trained on the bootstrap sample drawn
with seed `s + i`, `s` being the stored seed, which advances by `n`. -/
theorem C36_fit (rng : Option Nat → (n : Nat) → Fin n → Fin n) (learn : List (List K) → List (List Int) → Except PyErr E)
    (x : List (List K)) (y : List Int) (n : Nat) (o o' : Obj E) (h : o.fit rng learn x y n = .ok o') :
    o'.trained = true ∧ o'.seed = o.seed + n ∧ ∃ es : List E, o'.members = o.members ++ es ∧ es.length = n ∧
      ∀ (i : Nat) (e : E), es[i]? = some e → ∃ xs ys,
        Ops.bootstrapSampling rng (.d2 x) (some (.d1 y)) (some (o.seed + i)) = .ok (xs, some ys) ∧ learn xs ys = .ok e := by
  unfold Obj.fit at h
  split at h
  · next o1 h1 =>
    simp only [Except.ok.injEq] at h
    obtain ⟨es, h2, h3, h4, h5⟩ := steps_spec n o o1 h1
    subst h
    exact ⟨rfl, h4, es, h2, h3, h5⟩
  · simp at h

/-- C36: `fit` completes whenever rows and labels have the same length and the learner does not fail on samples of that size. -/
theorem C36_completes (rng : Option Nat → (n : Nat) → Fin n → Fin n) (learn : List (List K) → List (List Int) → Except PyErr E)
    (x : List (List K)) (y : List Int) (hxy : x.length = y.length)
    (hl : ∀ xs ys, xs.length = x.length → ys.length = x.length → ∃ e, learn xs ys = .ok e) (n : Nat) (o : Obj E) :
    ∃ o', o.fit rng learn x y n = .ok o' := by
  have hst : ∀ (n : Nat) (o : Obj E), ∃ o', steps rng learn x y n o = .ok o' := by
    intro n
    induction n with
    | zero => exact fun o => ⟨o, rfl⟩
    | succ n ih =>
      intro o
      obtain ⟨xs, ys, hb, h1, h2, -⟩ := Ops.C01_bootstrap_pairs rng (.d2 x) (.d1 y) (some o.seed) hxy
      obtain ⟨e, he⟩ := hl xs ys h1 h2
      unfold steps step
      rw [hb]
      simp only [he]
      exact ih _
  obtain ⟨o', h⟩ := hst n o
  unfold Obj.fit
  rw [h]; exact ⟨_, rfl⟩

/-- C75 fails for bagging: a second `fit` keeps all estimators of the first one, so predictions still depend on the old data. -/
theorem C75_bagging_accumulates (rng : Option Nat → (n : Nat) → Fin n → Fin n) (learn : List (List K) → List (List Int) → Except PyErr E)
    (x x' : List (List K)) (y y' : List Int) (n n' : Nat) (s : Nat) (o1 o2 : Obj E)
    (h1 : Obj.fit { seed := s } rng learn x y n = .ok o1) (h2 : o1.fit rng learn x' y' n' = .ok o2) :
    o2.members.take n = o1.members ∧ o2.members.length = n + n' := by
  obtain ⟨-, -, es, he, hl, -⟩ := C36_fit rng learn x y n _ o1 h1
  obtain ⟨-, -, es', he', hl', -⟩ := C36_fit rng learn x' y' n' _ o2 h2
  simp only [List.nil_append] at he
  rw [he', he, List.length_append, hl, hl']
  exact ⟨by rw [← hl]; simp, rfl⟩

example : (Obj.fit { seed := 7 } (fun s n i => ⟨(i.val + s.getD 0) % n, Nat.mod_lt _ (Nat.lt_of_le_of_lt (Nat.zero_le _) i.isLt)⟩)
    (fun xs ys => .ok (xs, ys)) [[1], [2], [3]] [1, -1, 1] 2 : Except PyErr (Obj (List (List Int) × List (List Int)))).map
      (fun o => (o.members, o.seed)) =
    .ok ([([[2], [3], [1]], [[-1], [1], [1]]), ([[3], [1], [2]], [[1], [1], [-1]])], 9) := by decide +kernel

end CML.Bagging
