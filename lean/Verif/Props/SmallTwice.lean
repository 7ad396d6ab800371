import Verif.Spec.SmallTwice
import Verif.Props.SmallTreesSym
import Verif.Props.TreeDrop

set_option linter.unusedSectionVars false

/-! # Property C322: a repeated attribute of stumps, two-level trees and AdaBoost -/

namespace CML.Small

variable {K : Type*} [Field K] [LinearOrder K] {m m' : Nat}

/-! ## Two-level trees -/

theorem chooseLoop_skip {d : List (Sample K m)} {b : Fin m} : ∀ (l : List (Fin m)) (best : WithTop K × Option K × Option (Fin m)), best.1 ≤ (wValue d b).1 →
    chooseLoop d l best = chooseLoop d (l.filter fun c => c ≠ b) best
  | [], _, _ => rfl
  | c :: l, best, h => by
    by_cases e : c = b
    · subst e
      rw [List.filter_cons, if_neg (by simp), chooseLoop]
      rw [if_neg (not_lt.2 h)]
      exact chooseLoop_skip l best h
    · rw [List.filter_cons, if_pos (by simpa using e), chooseLoop, chooseLoop]
      by_cases hc : (wValue d c).1 < best.1
      · rw [if_pos hc]; exact chooseLoop_skip l _ (hc.le.trans h)
      · rw [if_neg hc]; exact chooseLoop_skip l _ h

theorem chooseLoop_twice {d : List (Sample K m)} {a b : Fin m} (hab : a < b) (hv : wValue d a = wValue d b) : ∀ (l : List (Fin m)) (best : WithTop K × Option K × Option (Fin m)),
    l.Pairwise (· < ·) → a ∈ l → chooseLoop d l best = chooseLoop d (l.filter fun c => c ≠ b) best
  | [], _, _, h => by cases h
  | c :: l, best, hp, h => by
    have hcb : c ≠ b := by
      rintro rfl
      rcases List.mem_cons.1 h with h | h
      · exact hab.ne h
      · exact lt_asymm hab ((List.pairwise_cons.1 hp).1 a h)
    rw [List.filter_cons, if_pos (by simpa using hcb), chooseLoop, chooseLoop]
    by_cases e : c = a
    · subst e
      by_cases hc : (wValue d c).1 < best.1
      · rw [if_pos hc]; exact chooseLoop_skip l _ (by rw [hv])
      · rw [if_neg hc]; exact chooseLoop_skip l _ (by rw [← hv]; exact not_lt.1 hc)
    · have ha : a ∈ l := by simpa [Ne.symm e] using h
      exact chooseLoop_twice hab hv l _ (List.pairwise_cons.1 hp).2 ha

theorem weight_keep (σ : Fin m' → Fin m) (d : List (Sample K m)) : weight (d.map (Sample.keep σ)) = weight d := by
  simp [weight, Function.comp_def, Sample.keep]

theorem filter_y_keep (σ : Fin m' → Fin m) (p : Int → Bool) (d : List (Sample K m)) :
    ((d.map (Sample.keep σ)).filter fun s => p s.y) = (d.filter fun s => p s.y).map (Sample.keep σ) := by
  rw [List.filter_map]; rfl

theorem leafCat_keep (σ : Fin m' → Fin m) (d : List (Sample K m)) : leafCat (d.map (Sample.keep σ)) = leafCat d := by
  unfold leafCat
  rw [filter_y_keep σ (fun y => decide (y = -1)), filter_y_keep σ (fun y => decide (y = 1)), weight_keep, weight_keep]

theorem wgini_keep (σ : Fin m' → Fin m) (d : List (Sample K m)) : wgini (d.map (Sample.keep σ)) = wgini d := by
  unfold wgini
  have : (d.map (Sample.keep σ)).map Sample.y = d.map Sample.y := by simp [Function.comp_def, Sample.keep]
  rw [this, weight_keep]
  congr 3
  funext c
  rw [filter_y_keep σ (fun y => decide (y = c)), weight_keep]

theorem upper_keep (σ : Fin m' → Fin m) (k : Fin m') (p : K) (d : List (Sample K m)) :
    ((d.map (Sample.keep σ)).filter fun s => p ≤ s.x k) = (d.filter fun s => p ≤ s.x (σ k)).map (Sample.keep σ) := by
  rw [List.filter_map]; rfl

theorem lower_keep (σ : Fin m' → Fin m) (k : Fin m') (p : K) (d : List (Sample K m)) :
    ((d.map (Sample.keep σ)).filter fun s => s.x k < p) = (d.filter fun s => s.x (σ k) < p).map (Sample.keep σ) := by
  rw [List.filter_map]; rfl

theorem wCost_keep (σ : Fin m' → Fin m) (k : Fin m') (p : K) (d : List (Sample K m)) : wCost (d.map (Sample.keep σ)) k p = wCost d (σ k) p := by
  simp only [wCost, upper_keep, lower_keep, weight_keep, wgini_keep]

theorem wValue_keep (σ : Fin m' → Fin m) (k : Fin m') (d : List (Sample K m)) : wValue (d.map (Sample.keep σ)) k = wValue d (σ k) := by
  unfold wValue
  have : ((d.map (Sample.keep σ)).map fun s => s.x k) = d.map fun s => s.x (σ k) := by simp [Function.comp_def, Sample.keep]
  rw [this]
  congr 1
  funext p
  exact wCost_keep σ k p d

theorem chooseLoop_keep (σ : Fin m' → Fin m) (d : List (Sample K m)) : ∀ (l : List (Fin m')) (v : WithTop K) (p : Option K) (k : Option (Fin m')),
    chooseLoop d (l.map σ) (v, p, k.map σ) = ((chooseLoop (d.map (Sample.keep σ)) l (v, p, k)).1, (chooseLoop (d.map (Sample.keep σ)) l (v, p, k)).2.map σ)
  | [], _, _, _ => rfl
  | c :: l, v, p, k => by
    simp only [List.map_cons, chooseLoop, wValue_keep]
    by_cases hc : (wValue d (σ c)).1 < v
    · rw [if_pos hc, if_pos hc]; exact chooseLoop_keep σ d l _ _ (some c)
    · rw [if_neg hc, if_neg hc]; exact chooseLoop_keep σ d l v p k

/-- Two columns that are equal in all rows have the same best dividing point. -/
theorem wValue_equal {d : List (Sample K m)} {a b : Fin m} (he : ∀ s ∈ d, s.x a = s.x b) : wValue d a = wValue d b := by
  unfold wValue
  have h1 : (d.map fun s => s.x a) = d.map fun s => s.x b := List.map_congr_left he
  have h2 : wCost d a = wCost d b := by
    funext p
    unfold wCost
    have e1 : (d.filter fun s => p ≤ s.x a) = d.filter fun s => p ≤ s.x b := List.filter_congr fun s hs => by rw [he s hs]
    have e2 : (d.filter fun s => s.x a < p) = d.filter fun s => s.x b < p := List.filter_congr fun s hs => by rw [he s hs]
    rw [e1, e2]
  rw [h1, h2]

theorem finRange_without {n : Nat} (b : Fin (n + 1)) : ((List.finRange (n + 1)).filter fun c => c ≠ b) = (List.finRange n).map b.succAbove := by
  rw [DTree.finRange_kept (Fin.strictMono_succAbove b)]
  refine List.filter_congr fun c _ => ?_
  have : (∃ a', b.succAbove a' = c) ↔ c ≠ b := ⟨fun ⟨a', e⟩ => e ▸ Fin.succAbove_ne b a', fun h => Fin.exists_succAbove_eq h⟩
  simp [this]

theorem chooseFeature_twice {n : Nat} {a b : Fin (n + 1)} (hab : a < b) {d : List (Sample K (n + 1))} (he : ∀ s ∈ d, s.x a = s.x b) :
    chooseFeature d = ((chooseFeature (d.map (Sample.keep b.succAbove))).1, (chooseFeature (d.map (Sample.keep b.succAbove))).2.map b.succAbove) := by
  unfold chooseFeature
  rw [chooseLoop_twice hab (wValue_equal he) _ _ (List.pairwise_lt_finRange _) (List.mem_finRange a), finRange_without b]
  exact chooseLoop_keep b.succAbove d (List.finRange n) ⊤ none none

theorem gen2_twice {n : Nat} {a b : Fin (n + 1)} (hab : a < b) : ∀ (k : Nat) (d : List (Sample K (n + 1))), (∀ s ∈ d, s.x a = s.x b) →
    gen2 k d = (gen2 k (d.map (Sample.keep b.succAbove))).map (T2.renumber b.succAbove) := by
  intro k
  induction k with
  | zero => intro d _; simp only [gen2, leafCat_keep]; rfl
  | succ k ih =>
    intro d he
    simp only [gen2, leafCat_keep, List.length_map]
    by_cases hl : d.length ≤ 2
    · rw [if_pos hl, if_pos hl]; rfl
    · rw [if_neg hl, if_neg hl, chooseFeature_twice hab he]
      obtain ⟨p, c⟩ := chooseFeature (d.map (Sample.keep b.succAbove))
      cases c with
      | none => cases p <;> rfl
      | some c =>
        cases p with
        | none => rfl
        | some p =>
          simp only [Option.map_some]
          rw [ih _ fun s hs => he s (List.mem_of_mem_filter hs), ih _ fun s hs => he s (List.mem_of_mem_filter hs), upper_keep, lower_keep]
          cases gen2 k ((d.filter fun s => p ≤ s.x (b.succAbove c)).map (Sample.keep b.succAbove)) with
          | error e => rfl
          | ok u =>
            cases gen2 k ((d.filter fun s => s.x (b.succAbove c) < p).map (Sample.keep b.succAbove)) with
            | error e => rfl
            | ok l => rfl

theorem t2_renumber (σ : Fin m' → Fin m) (r : Fin m → K) : ∀ T : T2 K m', (T.renumber σ).predict r = T.predict fun j => r (σ j)
  | .leaf c => rfl
  | .node a t u l => by simp only [T2.renumber, T2.predict, t2_renumber σ r u, t2_renumber σ r l]

/-- C322: a two-level tree trained on a table whose column `b` repeats the earlier column `a` is the tree of the table without column `b`; it gives every row - whatever it has in column `b` -
the label that the other tree gives the row without it. -/
theorem C322_two_levels {n : Nat} {a b : Fin (n + 1)} (hab : a < b) (d : List (Sample K (n + 1))) (he : ∀ s ∈ d, s.x a = s.x b) :
    (∃ e, fit2 d = .error e ∧ fit2 (d.map (Sample.keep b.succAbove)) = .error e) ∨
    ∃ T T', fit2 d = .ok T ∧ fit2 (d.map (Sample.keep b.succAbove)) = .ok T' ∧ ∀ r : Fin (n + 1) → K, T.predict r = T'.predict fun j => r (b.succAbove j) := by
  have h := gen2_twice hab 2 d he
  unfold fit2
  rw [h]
  cases gen2 2 (d.map (Sample.keep b.succAbove)) with
  | error e => exact .inl ⟨e, rfl, rfl⟩
  | ok T => exact .inr ⟨_, T, rfl, rfl, fun r => t2_renumber b.succAbove r T⟩

/-! ## Stumps -/

/-- The state of the search after a part of the candidates. -/
def scan (err : Stump K m → WithTop K) : List (Stump K m) → WithTop K × Option (Stump K m) → WithTop K × Option (Stump K m)
  | [], best => best
  | s :: l, best => scan err l (if err s < best.1 then (err s, some s) else best)

theorem bestStump_append (err : Stump K m → WithTop K) (l₂ : List (Stump K m)) : ∀ (l₁ : List (Stump K m)) (best : WithTop K × Option (Stump K m)),
    bestStump err (l₁ ++ l₂) best = bestStump err l₂ (scan err l₁ best)
  | [], _ => rfl
  | s :: l₁, best => by simp only [List.cons_append, bestStump, scan]; exact bestStump_append err l₂ l₁ _

theorem scan_le (err : Stump K m → WithTop K) : ∀ (l : List (Stump K m)) (best : WithTop K × Option (Stump K m)),
    (scan err l best).1 ≤ best.1 ∧ ∀ s ∈ l, (scan err l best).1 ≤ err s
  | [], best => ⟨le_rfl, by simp⟩
  | s :: l, best => by
    simp only [scan]
    by_cases hc : err s < best.1
    · rw [if_pos hc]
      obtain ⟨h1, h2⟩ := scan_le err l (err s, some s)
      refine ⟨h1.trans hc.le, fun s' hs' => ?_⟩
      rcases List.mem_cons.1 hs' with rfl | hs'
      · exact h1
      · exact h2 s' hs'
    · rw [if_neg hc]
      obtain ⟨h1, h2⟩ := scan_le err l best
      refine ⟨h1, fun s' hs' => ?_⟩
      rcases List.mem_cons.1 hs' with rfl | hs'
      · exact h1.trans (not_lt.1 hc)
      · exact h2 s' hs'

theorem scan_skip (err : Stump K m → WithTop K) : ∀ (l : List (Stump K m)) (best : WithTop K × Option (Stump K m)), (∀ s ∈ l, best.1 ≤ err s) → scan err l best = best
  | [], _, _ => rfl
  | s :: l, best, h => by
    simp only [scan, if_neg (not_lt.2 (h s (by simp)))]
    exact scan_skip err l best fun s' hs' => h s' (by simp [hs'])

/-- The candidates of one column. -/
def block (data : List ((Fin m → K) × Int)) (i : Fin m) : List (Stump K m) :=
  [Mode.gte, Mode.le].flatMap fun md => (candidatePoints (data.map fun q => q.1 i)).map fun t => ⟨i, t, md⟩

theorem flat_skip (err : Stump K m → WithTop K) (data : List ((Fin m → K) × Int)) {b : Fin m} : ∀ (l : List (Fin m)) (best : WithTop K × Option (Stump K m)),
    (∀ s ∈ block data b, best.1 ≤ err s) → bestStump err (l.flatMap (block data)) best = bestStump err ((l.filter fun c => c ≠ b).flatMap (block data)) best
  | [], _, _ => rfl
  | c :: l, best, h => by
    rw [List.flatMap_cons, bestStump_append]
    by_cases e : c = b
    · subst e
      rw [List.filter_cons, if_neg (by simp), scan_skip err _ best h]
      exact flat_skip err data l best h
    · rw [List.filter_cons, if_pos (by simpa using e), List.flatMap_cons, bestStump_append]
      exact flat_skip err data l _ fun s hs => (scan_le err (block data c) best).1.trans (h s hs)

theorem flat_twice (err : Stump K m → WithTop K) (data : List ((Fin m → K) × Int)) {a b : Fin m} (hab : a < b)
    (hv : ∀ s ∈ block data b, ∃ s' ∈ block data a, err s' = err s) : ∀ (l : List (Fin m)) (best : WithTop K × Option (Stump K m)), l.Pairwise (· < ·) → a ∈ l →
    bestStump err (l.flatMap (block data)) best = bestStump err ((l.filter fun c => c ≠ b).flatMap (block data)) best
  | [], _, _, h => by cases h
  | c :: l, best, hp, h => by
    have hcb : c ≠ b := by
      rintro rfl
      rcases List.mem_cons.1 h with h | h
      · exact hab.ne h
      · exact lt_asymm hab ((List.pairwise_cons.1 hp).1 a h)
    rw [List.flatMap_cons, bestStump_append, List.filter_cons, if_pos (by simpa using hcb), List.flatMap_cons, bestStump_append]
    by_cases e : c = a
    · subst e
      exact flat_skip err data l _ fun s hs => by
        obtain ⟨s', hs', e⟩ := hv s hs
        rw [← e]
        exact (scan_le err (block data c) best).2 s' hs'
    · exact flat_twice err data hab hv l _ (List.pairwise_cons.1 hp).2 (by simpa [Ne.symm e] using h)

theorem stump_renumber (σ : Fin m' → Fin m) (s : Stump K m') (r : Fin m → K) : (s.renumber σ).predict r = s.predict fun j => r (σ j) := by
  cases s with
  | mk f p md => cases md <;> rfl

theorem bestStump_renumber (err : Stump K m → WithTop K) (err' : Stump K m' → WithTop K) (f : Stump K m' → Stump K m) (h : ∀ s, err (f s) = err' s) :
    ∀ (l : List (Stump K m')) (best : WithTop K × Option (Stump K m')), bestStump err (l.map f) (best.1, best.2.map f) = (bestStump err' l best).map f
  | [], _ => rfl
  | s :: l, best => by
    simp only [List.map_cons, bestStump, h]
    by_cases hc : err' s < best.1
    · rw [if_pos hc, if_pos hc]; exact bestStump_renumber err err' f h l (err' s, some s)
    · rw [if_neg hc, if_neg hc]; exact bestStump_renumber err err' f h l best

theorem stump_twice {n : Nat} {a b : Fin (n + 1)} (hab : a < b) (data : List ((Fin (n + 1) → K) × Int)) (he : ∀ q ∈ data, q.1 a = q.1 b) :
    stumpGenerate data = (stumpGenerate (data.map fun q => ((fun j => q.1 (b.succAbove j)), q.2))).map (Stump.renumber b.succAbove) := by
  have hc : ∀ data : List ((Fin (n + 1) → K) × Int), stumpCandidates data = (List.finRange (n + 1)).flatMap (block data) := fun _ => rfl
  unfold stumpGenerate
  rw [hc, flat_twice (fun s => s.error data) data hab ?_ _ _ (List.pairwise_lt_finRange _) (List.mem_finRange a), finRange_without b]
  · have hm : ((List.finRange n).map b.succAbove).flatMap (block data) =
        (stumpCandidates (data.map fun q => ((fun j => q.1 (b.succAbove j)), q.2))).map (Stump.renumber b.succAbove) := by
      unfold stumpCandidates
      rw [List.map_flatMap, List.flatMap_map]
      refine List.flatMap_congr fun i _ => ?_
      rw [block, List.map_flatMap]
      refine List.flatMap_congr fun md _ => ?_
      rw [List.map_map, List.map_map]
      rfl
    rw [hm]
    refine bestStump_renumber _ (fun s => s.error (data.map fun q => ((fun j => q.1 (b.succAbove j)), q.2))) _ (fun s => ?_) _ (⊤, none)
    simp only [Stump.error, List.map_map, Function.comp_def, stump_renumber]
  · intro s hs
    have hcol : (data.map fun q => q.1 b) = data.map fun q => q.1 a := List.map_congr_left fun q hq => (he q hq).symm
    simp only [block, hcol] at hs
    obtain ⟨md, hmd, hs⟩ := List.mem_flatMap.1 hs
    obtain ⟨t, ht, rfl⟩ := List.mem_map.1 hs
    refine ⟨⟨a, t, md⟩, List.mem_flatMap.2 ⟨md, hmd, List.mem_map.2 ⟨t, ht, rfl⟩⟩, ?_⟩
    simp only [Stump.error]
    have : (data.map fun q => (((⟨a, t, md⟩ : Stump K (n + 1)).predict q.1 : Int) : K)) = data.map fun q => (((⟨b, t, md⟩ : Stump K (n + 1)).predict q.1 : Int) : K) :=
      List.map_congr_left fun q hq => by
        cases md <;> simp only [Stump.predict, he q hq]
    rw [this]

/-- C322: a stump trained on a table whose column `b` repeats the earlier column `a` labels all rows as the stump of the table without column `b`. -/
theorem C322_stump {n : Nat} {a b : Fin (n + 1)} (hab : a < b) (data : List ((Fin (n + 1) → K) × Int)) (he : ∀ q ∈ data, q.1 a = q.1 b) (xs : List (Fin (n + 1) → K)) :
    stumpPredict (stumpGenerate data) xs =
      stumpPredict (stumpGenerate (data.map fun q => ((fun j => q.1 (b.succAbove j)), q.2))) (xs.map fun r j => r (b.succAbove j)) := by
  rw [stump_twice hab data he]
  cases stumpGenerate (data.map fun q => ((fun j => q.1 (b.succAbove j)), q.2)) with
  | none => rfl
  | some s => simp [stumpPredict, Function.comp_def, stump_renumber]

/-- Four rows with a repeated first column and another one: the tree and the stump answer as without the copy. -/
example : (fit2 [⟨![0, 5, 0], -1, 1⟩, ⟨![1, 3, 1], -1, 1⟩, ⟨![2, 4, 2], 1, 1⟩, ⟨![3, 6, 3], 1, (1 : ℚ)⟩]).map (fun T => T.predict ![2, 0, -7]) = .ok 1 ∧
    (fit2 ([⟨![0, 5, 0], -1, 1⟩, ⟨![1, 3, 1], -1, 1⟩, ⟨![2, 4, 2], 1, 1⟩, ⟨![3, 6, 3], 1, (1 : ℚ)⟩].map (Sample.keep (2 : Fin 3).succAbove))).map (fun T => T.predict ![2, 0]) = .ok 1 ∧
    stumpPredict (stumpGenerate [(![0, 5, (0 : ℚ)], -1), (![1, 3, 1], -1), (![2, 4, 2], 1), (![3, 6, 3], 1)]) [![2, 0, -7]] = .ok [1] := by
  decide +kernel

end CML.Small

namespace CML.Ada

variable {n m : Nat}

theorem treeLearner_twice {a b : Fin (m + 1)} (hab : a < b) (x : Fin n → (Fin (m + 1) → ℝ)) (y : Fin n → Int) (he : ∀ i, x i a = x i b) :
    Alike (fun (r : Fin (m + 1) → ℝ) j => r (b.succAbove j)) (treeLearner x y) (treeLearner (fun i j => x i (b.succAbove j)) y) := by
  intro D
  have hm : (List.ofFn fun i => (⟨fun j => x i (b.succAbove j), y i, D i⟩ : Small.Sample ℝ m)) =
      (List.ofFn fun i => (⟨x i, y i, D i⟩ : Small.Sample ℝ (m + 1))).map (Small.Sample.keep b.succAbove) := by
    rw [List.map_ofFn]; rfl
  unfold treeLearner
  rw [hm]
  rcases Small.C322_two_levels hab (List.ofFn fun i => (⟨x i, y i, D i⟩ : Small.Sample ℝ (m + 1))) (by
    intro s hs
    obtain ⟨i, rfl⟩ := (List.mem_ofFn' _ _).1 hs
    exact he i) with ⟨e, h1, h2⟩ | ⟨T, T', h1, h2, h3⟩
  · rw [h1, h2]; exact .inl ⟨e, rfl, rfl⟩
  · rw [h1, h2]; exact .inr ⟨_, _, rfl, rfl, fun r => (h3 r).symm⟩

/-- C322: AdaBoost with its default learner on a table whose column `b` repeats the earlier column `a`: the same coefficients and the same predictions as without column `b`. -/
theorem C322_adaboost {a b : Fin (m + 1)} (hab : a < b) (x : Fin n → (Fin (m + 1) → ℝ)) (y : Fin n → Int) (he : ∀ i, x i a = x i b) (k : Nat) :
    (∃ e, fit (treeLearner x y) x y k = .error e ∧ fit (treeLearner (fun i j => x i (b.succAbove j)) y) (fun i j => x i (b.succAbove j)) y k = .error e) ∨
    ∃ rs rs', fit (treeLearner x y) x y k = .ok rs ∧ fit (treeLearner (fun i j => x i (b.succAbove j)) y) (fun i j => x i (b.succAbove j)) y k = .ok rs' ∧
      rs'.map Round.alpha = rs.map Round.alpha ∧
      ∀ q : Fin (m + 1) → ℝ, predictRow (rs'.map Round.h) (rs'.map Round.alpha) (fun j => q (b.succAbove j)) = predictRow (rs.map Round.h) (rs.map Round.alpha) q := by
  rcases loop_alike _ (treeLearner_twice hab x y he) x y k (some fun _ => 1 / (n : ℝ)) with h | ⟨rs, rs', h1, h2, h3⟩
  · exact .inl h
  · refine .inr ⟨rs, rs', h1, h2, ?_, predictRow_same h3⟩
    clear h1 h2
    induction h3 with
    | nil => rfl
    | cons a _ ih => simp only [List.map_cons, ih, a.2.2.1]

end CML.Ada
