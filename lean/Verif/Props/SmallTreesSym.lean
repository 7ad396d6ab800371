import Verif.Props.Ensemble
import Verif.Lemmas.Sym
import Verif.Spec.SmallTreesSym
import Mathlib.Analysis.Complex.ExponentialBounds

set_option linter.unusedSectionVars false

/-! # Properties C186, C187: stumps, two-level trees and AdaBoost do not depend on the units or on the order of the samples -/

namespace CML.Small

variable {K : Type*} [Field K] [LinearOrder K] [IsStrictOrderedRing K] {m : Nat}

section units
variable {a t : Fin m → K}

theorem affine_le {a t : K} (ha : 0 < a) (u v : K) : a * u + t ≤ a * v + t ↔ u ≤ v := by
  rw [add_le_add_iff_right]; exact mul_le_mul_iff_right₀ ha

theorem affine_lt {a t : K} (ha : 0 < a) (u v : K) : a * u + t < a * v + t ↔ u < v := by
  rw [add_lt_add_iff_right]; exact mul_lt_mul_iff_right₀ ha

theorem midpoints_affine (a t : K) (l : List K) : DTree.midpoints (l.map fun v => a * v + t) = (DTree.midpoints l).map fun v => a * v + t := by
  induction l with
  | nil => rfl
  | cons u l ih =>
    cases l with
    | nil => rfl
    | cons v l =>
      simp only [List.map_cons, DTree.midpoints] at ih ⊢
      rw [ih]
      congr 1
      field_simp
      ring

theorem candidatePoints_affine {a t : K} (ha : 0 < a) (l : List K) :
    candidatePoints (l.map fun v => a * v + t) = (candidatePoints l).map fun v => a * v + t := by
  unfold candidatePoints
  rw [← List.map_insertionSort (r := (· ≤ ·)) (s := (· ≤ ·)) (fun v => a * v + t) l (fun u _ v _ => (affine_le ha u v).symm), midpoints_affine]

theorem stump_predict (ha : ∀ k, 0 < a k) (s : Stump K m) (r : Fin m → K) : (s.rescale a t).predict (CML.rescale a t r) = s.predict r := by
  unfold Stump.predict
  cases hm : s.mode with
  | gte =>
    rw [show (s.rescale a t).mode = .gte from hm]
    dsimp only [Stump.rescale, CML.rescale]
    simp only [affine_le (ha s.feature)]
  | le =>
    rw [show (s.rescale a t).mode = .le from hm]
    dsimp only [Stump.rescale, CML.rescale]
    simp only [affine_lt (ha s.feature)]

theorem bestStump_map (err err' : Stump K m → WithTop K) (f : Stump K m → Stump K m) (h : ∀ s, err' (f s) = err s) (l : List (Stump K m)) :
    ∀ best : WithTop K × Option (Stump K m), bestStump err' (l.map f) (best.1, best.2.map f) = (bestStump err l best).map f := by
  induction l with
  | nil => intro best; rfl
  | cons s l ih =>
    intro best
    simp only [List.map_cons, bestStump, h]
    by_cases hc : err s < best.1
    · rw [if_pos hc, if_pos hc]; exact ih (err s, some s)
    · rw [if_neg hc, if_neg hc]; exact ih best

/-- **C186.** A stump: new units and origins for the features (a positive factor and an offset each) change the dividing point accordingly and nothing else; every row gets the label it
had. -/
theorem C186_stump (ha : ∀ k, 0 < a k) (data : List ((Fin m → K) × Int)) :
    stumpGenerate (data.map fun q => (CML.rescale a t q.1, q.2)) = (stumpGenerate data).map (Stump.rescale a t) ∧
    ∀ xs : List (Fin m → K), stumpPredict (stumpGenerate (data.map fun q => (CML.rescale a t q.1, q.2))) (xs.map (CML.rescale a t)) =
      stumpPredict (stumpGenerate data) xs := by
  have hg : stumpGenerate (data.map fun q => (CML.rescale a t q.1, q.2)) = (stumpGenerate data).map (Stump.rescale a t) := by
    unfold stumpGenerate
    have hc : stumpCandidates (data.map fun q => (CML.rescale a t q.1, q.2)) = (stumpCandidates data).map (Stump.rescale a t) := by
      unfold stumpCandidates
      rw [List.map_flatMap]
      refine List.flatMap_congr fun i _ => ?_
      rw [List.map_flatMap]
      refine List.flatMap_congr fun md _ => ?_
      have : ((data.map fun q => (CML.rescale a t q.1, q.2)).map fun q => q.1 i) = (data.map fun q => q.1 i).map fun v => a i * v + t i := by
        simp [Function.comp_def, CML.rescale]
      rw [this, candidatePoints_affine (ha i), List.map_map, List.map_map]
      rfl
    rw [hc]
    refine bestStump_map (fun s => s.error data) _ _ (fun s => ?_) _ (⊤, none)
    simp only [Stump.error, List.map_map, Function.comp_def, stump_predict ha]
  refine ⟨hg, fun xs => ?_⟩
  rw [hg]
  cases stumpGenerate data with
  | none => rfl
  | some s => simp [stumpPredict, Function.comp_def, stump_predict ha]

theorem t2_predict (ha : ∀ k, 0 < a k) (T : T2 K m) (r : Fin m → K) : (T.rescale a t).predict (CML.rescale a t r) = T.predict r := by
  induction T with
  | leaf c => rfl
  | node k p u l ihu ihl =>
    simp only [T2.rescale, T2.predict, ihu, ihl]
    have : a k * p + t k ≤ CML.rescale a t r k ↔ p ≤ r k := affine_le (ha k) p (r k)
    by_cases h : p ≤ r k
    · rw [if_pos h, if_pos (this.2 h)]
    · rw [if_neg h, if_neg (fun hc => h (this.1 hc))]

theorem weight_rescale (d : List (Sample K m)) : weight (d.map (Sample.rescale a t)) = weight d := by
  unfold weight; rw [List.map_map]; rfl

theorem filter_y_rescale (p : Int → Bool) (d : List (Sample K m)) :
    (d.map (Sample.rescale a t)).filter (fun s => p s.y) = (d.filter fun s => p s.y).map (Sample.rescale a t) := by
  rw [List.filter_map]; rfl

theorem leafCat_rescale (d : List (Sample K m)) : leafCat (d.map (Sample.rescale a t)) = leafCat d := by
  unfold leafCat
  rw [filter_y_rescale (fun y => decide (y = -1)), filter_y_rescale (fun y => decide (y = 1)), weight_rescale, weight_rescale]

theorem wgini_rescale (d : List (Sample K m)) : wgini (d.map (Sample.rescale a t)) = wgini d := by
  unfold wgini
  rw [List.map_map, weight_rescale]
  congr 2
  refine List.map_congr_left fun c _ => ?_
  rw [filter_y_rescale (fun y => decide (y = c)), weight_rescale]

theorem upper_rescale (ha : ∀ k, 0 < a k) (k : Fin m) (p : K) (d : List (Sample K m)) :
    ((d.map (Sample.rescale a t)).filter fun s => a k * p + t k ≤ s.x k) = (d.filter fun s => p ≤ s.x k).map (Sample.rescale a t) := by
  rw [List.filter_map]
  congr 1
  refine List.filter_congr fun s _ => ?_
  simp only [Function.comp_apply, decide_eq_decide]
  exact affine_le (ha k) p (s.x k)

theorem lower_rescale (ha : ∀ k, 0 < a k) (k : Fin m) (p : K) (d : List (Sample K m)) :
    ((d.map (Sample.rescale a t)).filter fun s => s.x k < a k * p + t k) = (d.filter fun s => s.x k < p).map (Sample.rescale a t) := by
  rw [List.filter_map]
  congr 1
  refine List.filter_congr fun s _ => ?_
  simp only [Function.comp_apply, decide_eq_decide]
  exact affine_lt (ha k) (s.x k) p

theorem wCost_rescale (ha : ∀ k, 0 < a k) (k : Fin m) (p : K) (d : List (Sample K m)) :
    wCost (d.map (Sample.rescale a t)) k (a k * p + t k) = wCost d k p := by
  unfold wCost
  simp only [upper_rescale ha, lower_rescale ha, weight_rescale, wgini_rescale]

theorem contBest_map (v v' : K → K) (f : K → K) (h : ∀ p, v' (f p) = v p) (ts : List K) :
    ∀ b : WithTop K × Option K, DTree.contBest v' (ts.map f) (b.1, b.2.map f) = ((DTree.contBest v ts b).1, (DTree.contBest v ts b).2.map f) := by
  induction ts with
  | nil => intro b; rfl
  | cons p ts ih =>
    intro b
    simp only [List.map_cons, DTree.contBest, h]
    by_cases hc : ((v p : K) : WithTop K) < b.1
    · rw [if_pos hc, if_pos hc]; exact ih (v p, some p)
    · rw [if_neg hc, if_neg hc]; exact ih b

theorem wValue_rescale (ha : ∀ k, 0 < a k) (k : Fin m) (d : List (Sample K m)) :
    wValue (d.map (Sample.rescale a t)) k = ((wValue d k).1, (wValue d k).2.map fun p => a k * p + t k) := by
  unfold wValue
  have : ((d.map (Sample.rescale a t)).map fun s => s.x k) = (d.map fun s => s.x k).map fun v => a k * v + t k := by
    simp [Function.comp_def, Sample.rescale, CML.rescale]
  rw [this, candidatePoints_affine (ha k)]
  exact contBest_map _ _ _ (fun p => wCost_rescale ha k p d) _ (⊤, none)

/-- The chosen feature and its point in the new units. -/
def moved (a t : Fin m → K) : Option K × Option (Fin m) → Option K × Option (Fin m)
  | (p, some k) => (p.map fun p => a k * p + t k, some k)
  | (p, none) => (p, none)

theorem chooseLoop_rescale (ha : ∀ k, 0 < a k) (d : List (Sample K m)) (l : List (Fin m)) :
    ∀ best : WithTop K × Option K × Option (Fin m),
      chooseLoop (d.map (Sample.rescale a t)) l (best.1, moved a t best.2) = moved a t (chooseLoop d l best) := by
  induction l with
  | nil => intro best; rfl
  | cons k l ih =>
    intro best
    simp only [chooseLoop, wValue_rescale ha]
    by_cases hc : (wValue d k).1 < best.1
    · rw [if_pos hc, if_pos hc]; exact ih ((wValue d k).1, (wValue d k).2, some k)
    · rw [if_neg hc, if_neg hc]; exact ih best

theorem gen2_rescale (ha : ∀ k, 0 < a k) (n : Nat) : ∀ d : List (Sample K m), gen2 n (d.map (Sample.rescale a t)) = (gen2 n d).map (T2.rescale a t) := by
  induction n with
  | zero => intro d; simp only [gen2, leafCat_rescale]; rfl
  | succ n ih =>
    intro d
    simp only [gen2, leafCat_rescale, List.length_map]
    by_cases hl : d.length ≤ 2
    · rw [if_pos hl, if_pos hl]; rfl
    · rw [if_neg hl, if_neg hl]
      have hch : chooseFeature (d.map (Sample.rescale a t)) = moved a t (chooseFeature d) := chooseLoop_rescale ha d _ (⊤, none, none)
      rw [hch]
      obtain ⟨p, k⟩ := chooseFeature d
      cases k with
      | none => cases p <;> rfl
      | some k =>
        cases p with
        | none => rfl
        | some p =>
          simp only [moved, Option.map_some]
          rw [upper_rescale ha, lower_rescale ha, ih, ih]
          cases gen2 n (d.filter fun s => p ≤ s.x k) with
          | error e => rfl
          | ok u =>
            cases gen2 n (d.filter fun s => s.x k < p) with
            | error e => rfl
            | ok l => rfl

/-- **C186.** A two-level tree: new units and origins for the features change the dividing points accordingly and nothing else; every row gets the label it had. -/
theorem C186_two_levels (ha : ∀ k, 0 < a k) (d : List (Sample K m)) :
    fit2 (d.map (Sample.rescale a t)) = (fit2 d).map (T2.rescale a t) ∧ ∀ (T : T2 K m) (r : Fin m → K), (T.rescale a t).predict (CML.rescale a t r) = T.predict r :=
  ⟨gen2_rescale ha 2 d, fun T r => t2_predict ha T r⟩

end units

/-- A tree on four rows, in two units. -/
example : (fit2 [⟨![0], -1, 1⟩, ⟨![1], -1, 1⟩, ⟨![2], 1, 1⟩, ⟨![3], 1, (1 : ℚ)⟩]).map (fun T => (T.rescale ![100] ![7]).predict ![207]) = .ok 1 := by decide +kernel

/-! ## The order of the samples -/

theorem sort_perm {l l' : List K} (h : l.Perm l') : l.insertionSort (· ≤ ·) = l'.insertionSort (· ≤ ·) :=
  List.Perm.eq_of_sortedLE List.sortedLE_insertionSort List.sortedLE_insertionSort
    (((List.perm_insertionSort _ l).trans h).trans (List.perm_insertionSort _ l').symm)

theorem candidatePoints_perm {l l' : List K} (h : l.Perm l') : candidatePoints l = candidatePoints l' := by
  unfold candidatePoints; rw [sort_perm h]

theorem weight_perm {d d' : List (Sample K m)} (h : d.Perm d') : weight d = weight d' := (h.map _).sum_eq

theorem leafCat_perm {d d' : List (Sample K m)} (h : d.Perm d') : leafCat d = leafCat d' := by
  unfold leafCat; rw [weight_perm (h.filter _), weight_perm (h.filter _)]

theorem pyUnique_perm {α : Type*} [DecidableEq α] {l l' : List α} (h : l.Perm l') : (pyUnique l).Perm (pyUnique l') :=
  (List.perm_ext_iff_of_nodup (nodup_pyUnique l) (nodup_pyUnique l')).2 fun a => by rw [mem_pyUnique, mem_pyUnique, h.mem_iff]

theorem wgini_perm {d d' : List (Sample K m)} (h : d.Perm d') : wgini d = wgini d' := by
  unfold wgini
  rw [((pyUnique_perm (h.map Sample.y)).map fun c => (weight (d.filter fun s => s.y = c) / weight d) ^ 2).sum_eq, weight_perm h]
  congr 2
  refine List.map_congr_left fun c _ => ?_
  rw [weight_perm (h.filter _)]

theorem wCost_perm {d d' : List (Sample K m)} (h : d.Perm d') (k : Fin m) (p : K) : wCost d k p = wCost d' k p := by
  unfold wCost
  dsimp only
  rw [weight_perm h, weight_perm (h.filter _), weight_perm (h.filter _), wgini_perm (h.filter _), wgini_perm (h.filter _)]

theorem wValue_perm {d d' : List (Sample K m)} (h : d.Perm d') (k : Fin m) : wValue d k = wValue d' k := by
  unfold wValue
  rw [candidatePoints_perm (h.map fun s => s.x k), show wCost d k = wCost d' k from funext fun p => wCost_perm h k p]

theorem chooseLoop_perm {d d' : List (Sample K m)} (h : d.Perm d') (l : List (Fin m)) : ∀ best, chooseLoop d l best = chooseLoop d' l best := by
  induction l with
  | nil => intro best; rfl
  | cons k l ih => intro best; simp only [chooseLoop, wValue_perm h]; exact ih _

theorem gen2_perm (n : Nat) : ∀ d d' : List (Sample K m), d.Perm d' → gen2 n d = gen2 n d' := by
  induction n with
  | zero => intro d d' h; simp only [gen2, leafCat_perm h]
  | succ n ih =>
    intro d d' h
    simp only [gen2, leafCat_perm h, h.length_eq]
    have hch : chooseFeature d = chooseFeature d' := chooseLoop_perm h _ _
    rw [hch]
    by_cases hl : d'.length ≤ 2
    · rw [if_pos hl, if_pos hl]
    · rw [if_neg hl, if_neg hl]
      obtain ⟨p, k⟩ := chooseFeature d'
      cases k with
      | none => cases p <;> rfl
      | some k =>
        cases p with
        | none => rfl
        | some p =>
          dsimp only
          rw [ih _ _ (h.filter fun s => decide (p ≤ s.x k)), ih _ _ (h.filter fun s => decide (s.x k < p))]

/-- **C187.** A two-level tree does not depend on the order of the samples. -/
theorem C187_two_levels (d d' : List (Sample K m)) (h : d.Perm d') : fit2 d = fit2 d' := gen2_perm 2 d d' h

/-- **C187.** A stump does not depend on the order of the samples. -/
theorem C187_stump (data data' : List ((Fin m → K) × Int)) (h : data.Perm data') : stumpGenerate data = stumpGenerate data' := by
  unfold stumpGenerate
  have hc : stumpCandidates data = stumpCandidates data' := by
    unfold stumpCandidates
    refine List.flatMap_congr fun i _ => List.flatMap_congr fun md _ => ?_
    rw [candidatePoints_perm (h.map fun q => q.1 i)]
  have he : (fun s : Stump K m => s.error data) = fun s => s.error data' := by
    funext s
    unfold Stump.error
    have : Metrics.binaryAccuracy (data.map fun q => ((s.predict q.1 : Int) : K)) (data.map Prod.snd) =
        Metrics.binaryAccuracy (data'.map fun q => ((s.predict q.1 : Int) : K)) (data'.map Prod.snd) := by
      unfold Metrics.binaryAccuracy
      simp only [List.length_map, h.length_eq, List.zip_map']
      rw [(h.map fun q : (Fin m → K) × Int => (((s.predict q.1 : Int) : K), q.2)).countP_eq]
    rw [this]
  rw [hc, he]

end CML.Small

namespace CML.Ada
open Finset

variable {X X' : Type*} {n m : Nat}

/-- Two learners that answer alike, up to the change `φ` of the rows. -/
def Alike (φ : X → X') (learn : (Fin n → ℝ) → Except PyErr (X → Int)) (learn' : (Fin n → ℝ) → Except PyErr (X' → Int)) : Prop :=
  ∀ D, (∃ e, learn D = .error e ∧ learn' D = .error e) ∨ ∃ f f', learn D = .ok f ∧ learn' D = .ok f' ∧ ∀ r, f' (φ r) = f r

/-- The rounds of two trainings that correspond to each other. -/
def SameRounds (φ : X → X') : List (Round X n) → List (Round X' n) → Prop :=
  List.Forall₂ fun r r' => r'.dist = r.dist ∧ r'.err = r.err ∧ r'.alpha = r.alpha ∧ ∀ q, r'.h (φ q) = r.h q

theorem loop_alike (φ : X → X') {learn : (Fin n → ℝ) → Except PyErr (X → Int)} {learn' : (Fin n → ℝ) → Except PyErr (X' → Int)} (hl : Alike φ learn learn')
    (x : Fin n → X) (y : Fin n → Int) (k : Nat) : ∀ D,
    (∃ e, loop learn x y k D = .error e ∧ loop learn' (fun i => φ (x i)) y k D = .error e) ∨
    ∃ rs rs', loop learn x y k D = .ok rs ∧ loop learn' (fun i => φ (x i)) y k D = .ok rs' ∧ SameRounds φ rs rs' := by
  induction k with
  | zero => intro D; exact .inr ⟨[], [], by cases D <;> rfl, by cases D <;> rfl, List.Forall₂.nil⟩
  | succ k ih =>
    intro D
    cases D with
    | none => exact .inl ⟨_, rfl, rfl⟩
    | some D =>
      simp only [loop]
      rcases hl D with ⟨e, h1, h2⟩ | ⟨f, f', h1, h2, h3⟩
      · rw [h1, h2]; exact .inl ⟨e, rfl, rfl⟩
      · rw [h1, h2]
        dsimp only
        have hp : (fun i => f' (φ (x i))) = fun i => f (x i) := funext fun i => h3 (x i)
        rw [hp]
        by_cases hc : errorOf D (fun i => f (x i)) y > 1 / 2 ∨ errorOf D (fun i => f (x i)) y < EPS
        · rw [if_pos hc, if_pos hc]
          exact .inr ⟨_, _, rfl, rfl, .cons ⟨rfl, rfl, rfl, h3⟩ .nil⟩
        · rw [if_neg hc, if_neg hc]
          rcases ih (reweight D (fun i => f (x i)) y (alphaOf (errorOf D (fun i => f (x i)) y))) with ⟨e, g1, g2⟩ | ⟨rs, rs', g1, g2, g3⟩
          · rw [g1, g2]; exact .inl ⟨e, rfl, rfl⟩
          · rw [g1, g2]; exact .inr ⟨_, _, rfl, rfl, .cons ⟨rfl, rfl, rfl, h3⟩ g3⟩

theorem predictRow_same {φ : X → X'} {rs : List (Round X n)} {rs' : List (Round X' n)} (h : SameRounds φ rs rs') (q : X) :
    predictRow (rs'.map Round.h) (rs'.map Round.alpha) (φ q) = predictRow (rs.map Round.h) (rs.map Round.alpha) q := by
  have h1 : rs'.map Round.alpha = rs.map Round.alpha := by
    induction h with
    | nil => rfl
    | cons a _ ih => simp only [List.map_cons, ih, a.2.2.1]
  have h2 : ∀ l : List ℝ, vote ((rs'.map Round.h).zip l) (φ q) = vote ((rs.map Round.h).zip l) q := by
    induction h with
    | nil => intro l; simp [vote]
    | cons a _ ih =>
      intro l
      cases l with
      | nil => simp [vote]
      | cons c l =>
        have := ih (by simp only [List.map_cons, List.cons.injEq] at h1; exact h1.2) l
        simp only [vote, List.map_cons, List.zip_cons_cons, List.sum_cons] at this ⊢
        rw [this, a.2.2.2 q]
  unfold predictRow
  rw [h1]
  cases reals (rs.map Round.alpha) with
  | none => rfl
  | some l => dsimp only; rw [h2]

theorem treeLearner_rescale (a t : Fin m → ℝ) (ha : ∀ k, 0 < a k) (x : Fin n → (Fin m → ℝ)) (y : Fin n → Int) :
    Alike (CML.rescale a t) (treeLearner x y) (treeLearner (fun i => CML.rescale a t (x i)) y) := by
  intro D
  have hm : (List.ofFn fun i => (⟨CML.rescale a t (x i), y i, D i⟩ : Small.Sample ℝ m)) =
      (List.ofFn fun i => (⟨x i, y i, D i⟩ : Small.Sample ℝ m)).map (Small.Sample.rescale a t) := by
    rw [List.map_ofFn]; rfl
  have hf := (Small.C186_two_levels (a := a) (t := t) ha (List.ofFn fun i => (⟨x i, y i, D i⟩ : Small.Sample ℝ m))).1
  unfold treeLearner
  rw [hm, hf]
  cases Small.fit2 (List.ofFn fun i => (⟨x i, y i, D i⟩ : Small.Sample ℝ m)) with
  | error e => exact .inl ⟨e, rfl, rfl⟩
  | ok T => exact .inr ⟨_, _, rfl, rfl, fun r => Small.t2_predict ha T r⟩

/-- **C186.** AdaBoost with its default learner: new units and origins for the features change no coefficient, no weight and no prediction. -/
theorem C186_adaboost (a t : Fin m → ℝ) (ha : ∀ k, 0 < a k) (x : Fin n → (Fin m → ℝ)) (y : Fin n → Int) (k : Nat) :
    (∃ e, fit (treeLearner x y) x y k = .error e ∧ fit (treeLearner (fun i => CML.rescale a t (x i)) y) (fun i => CML.rescale a t (x i)) y k = .error e) ∨
    ∃ rs rs', fit (treeLearner x y) x y k = .ok rs ∧ fit (treeLearner (fun i => CML.rescale a t (x i)) y) (fun i => CML.rescale a t (x i)) y k = .ok rs' ∧
      rs'.map Round.alpha = rs.map Round.alpha ∧ rs'.map Round.dist = rs.map Round.dist ∧
      ∀ q, predictRow (rs'.map Round.h) (rs'.map Round.alpha) (CML.rescale a t q) = predictRow (rs.map Round.h) (rs.map Round.alpha) q := by
  rcases loop_alike (CML.rescale a t) (treeLearner_rescale a t ha x y) x y k (some fun _ => 1 / (n : ℝ)) with h | ⟨rs, rs', h1, h2, h3⟩
  · exact .inl h
  · refine .inr ⟨rs, rs', h1, h2, ?_, ?_, predictRow_same h3⟩
    · clear h1 h2
      induction h3 with
      | nil => rfl
      | cons a _ ih => simp only [List.map_cons, ih, a.2.2.1]
    · clear h1 h2
      induction h3 with
      | nil => rfl
      | cons a _ ih => simp only [List.map_cons, ih, a.1]

/-! ## The order of the samples -/

theorem treeLearner_perm (σ : Equiv.Perm (Fin n)) (x : Fin n → (Fin m → ℝ)) (y : Fin n → Int) (D : Fin n → ℝ) :
    treeLearner (x ∘ σ) (y ∘ σ) (D ∘ σ) = treeLearner x y D := by
  unfold treeLearner
  have hp : (List.ofFn fun i => (⟨(x ∘ σ) i, (y ∘ σ) i, (D ∘ σ) i⟩ : Small.Sample ℝ m)).Perm (List.ofFn fun i => (⟨x i, y i, D i⟩ : Small.Sample ℝ m)) :=
    Equiv.Perm.ofFn_comp_perm σ fun i => (⟨x i, y i, D i⟩ : Small.Sample ℝ m)
  rw [Small.C187_two_levels _ _ hp]

theorem errorOf_perm (σ : Equiv.Perm (Fin n)) (D : Fin n → ℝ) (p y : Fin n → Int) : errorOf (D ∘ σ) (p ∘ σ) (y ∘ σ) = errorOf D p y :=
  Equiv.sum_comp σ fun i => if p i ≠ y i then D i else 0

theorem reweight_perm (σ : Equiv.Perm (Fin n)) (D : Fin n → ℝ) (p y : Fin n → Int) (a : WithBot ℝ) :
    reweight (D ∘ σ) (p ∘ σ) (y ∘ σ) a = (reweight D p y a).map (· ∘ σ) := by
  cases a with
  | bot => rfl
  | coe a =>
    simp only [reweight, Option.map_some, Option.some.injEq]
    funext i
    have : ∑ j, scaled (D ∘ σ) (p ∘ σ) (y ∘ σ) a j = ∑ j, scaled D p y a j := Equiv.sum_comp σ fun j => scaled D p y a j
    rw [this]
    rfl

/-- **C187.** AdaBoost with its default learner does not depend on the order of the samples: the same trees, the same coefficients (hence the same predictions), and every sample has
the weights it had. -/
theorem C187_adaboost (σ : Equiv.Perm (Fin n)) (x : Fin n → (Fin m → ℝ)) (y : Fin n → Int) (k : Nat) :
    fit (treeLearner (x ∘ σ) (y ∘ σ)) (x ∘ σ) (y ∘ σ) k = (fit (treeLearner x y) x y k).map fun rs => rs.map fun r => { r with dist := r.dist ∘ σ } := by
  have key : ∀ (k : Nat) (D : Option (Fin n → ℝ)), loop (treeLearner (x ∘ σ) (y ∘ σ)) (x ∘ σ) (y ∘ σ) k (D.map (· ∘ σ)) =
      (loop (treeLearner x y) x y k D).map fun rs => rs.map fun r => { r with dist := r.dist ∘ σ } := by
    intro k
    induction k with
    | zero => intro D; cases D <;> rfl
    | succ k ih =>
      intro D
      cases D with
      | none => rfl
      | some D =>
        simp only [loop, Option.map_some, treeLearner_perm]
        cases treeLearner x y D with
        | error e => rfl
        | ok f =>
          dsimp only
          have he : errorOf (D ∘ σ) (fun i => f ((x ∘ σ) i)) (y ∘ σ) = errorOf D (fun i => f (x i)) y := errorOf_perm σ D (fun i => f (x i)) y
          have hr : ∀ a, reweight (D ∘ σ) (fun i => f ((x ∘ σ) i)) (y ∘ σ) a = (reweight D (fun i => f (x i)) y a).map (· ∘ σ) :=
            fun a => reweight_perm σ D (fun i => f (x i)) y a
          rw [he, hr, ih]
          by_cases hc : errorOf D (fun i => f (x i)) y > 1 / 2 ∨ errorOf D (fun i => f (x i)) y < EPS
          · rw [if_pos hc, if_pos hc]; rfl
          · rw [if_neg hc, if_neg hc]
            cases loop (treeLearner x y) x y k (reweight D (fun i => f (x i)) y (alphaOf (errorOf D (fun i => f (x i)) y))) <;> rfl
  exact key k (some fun _ => 1 / (n : ℝ))

/-! ## C188: how fast boosting learns -/

theorem factor_le {e g : ℝ} (h0 : 0 ≤ e) (hg : 0 ≤ g) (he : e ≤ 1 / 2 - g) : 2 * √(max e EPS * (1 - e)) ≤ Real.exp (-2 * g ^ 2) := by
  have hE : EPS ≤ 1 / 100 := by unfold EPS; norm_num
  have hE0 := EPS_pos
  have hg2 : g ≤ 1 / 2 := by linarith
  have h1 : 4 * (max e EPS * (1 - e)) ≤ Real.exp (-4 * g ^ 2) := by
    rcases le_total e EPS with h | h
    · rw [max_eq_right h]
      have h2 : Real.exp (-1) ≤ Real.exp (-4 * g ^ 2) := Real.exp_le_exp.2 (by nlinarith)
      have h3 : (1 : ℝ) / 3 ≤ Real.exp (-1) := by
        rw [Real.exp_neg, ← one_div]
        exact one_div_le_one_div_of_le (Real.exp_pos 1) (by linarith [Real.exp_one_lt_d9])
      nlinarith
    · rw [max_eq_left h]
      have h2 := Real.add_one_le_exp (-4 * g ^ 2)
      nlinarith
  have h2 : (0 : ℝ) ≤ max e EPS * (1 - e) := mul_nonneg (le_max_of_le_left h0) (by linarith)
  have h3 : Real.exp (-4 * g ^ 2) = Real.exp (-2 * g ^ 2) ^ 2 := by rw [← Real.exp_nat_mul]; congr 1; push_cast; ring
  have h4 : (2 * √(max e EPS * (1 - e))) ^ 2 ≤ Real.exp (-2 * g ^ 2) ^ 2 := by
    rw [mul_pow, Real.sq_sqrt h2, ← h3]; linarith
  exact (pow_le_pow_iff_left₀ (by positivity) (Real.exp_pos _).le (by norm_num)).1 h4

/-- **C188.** The training error falls exponentially: if every tree that was trained has a weighted error of at most `1/2 - g` (`g > 0`), then after `T` rounds the fraction of wrongly
labelled training samples is at most `exp (-2 g² T)`. -/
theorem C188_rate (hn : 0 < n) (hm : 0 < m) (x : Fin n → (Fin m → ℝ)) (y : Fin n → Int) (hy : ∀ i, y i = 1 ∨ y i = -1) (k : Nat) (rs : List (Round (Fin m → ℝ) n))
    (h : fit (treeLearner x y) x y k = .ok rs) (hk : 0 < k) (g : ℝ) (hg : 0 < g) (hw : ∀ r ∈ rs, weightedError r.dist x y r.h ≤ 1 / 2 - g) :
    (mistakes (predictRow (rs.map Round.h) (rs.map Round.alpha)) x y : ℝ) / n ≤ Real.exp (-2 * g ^ 2 * rs.length) := by
  obtain ⟨h1, -, -, h4⟩ := C32_distributions hn _ x y k rs h
  have he : ∀ r ∈ rs, 0 ≤ r.err ∧ r.err ≤ 1 / 2 - g := by
    intro r hr
    obtain ⟨hd, -, h3⟩ := h1 r hr
    rw [h3]
    exact ⟨Finset.sum_nonneg fun i _ => (hd.1 i).le, hw r hr⟩
  have hlt : ∃ r ∈ rs, r.err < 1 / 2 := by
    obtain ⟨r, hr⟩ := List.exists_mem_of_ne_nil rs (h4 hk)
    exact ⟨r, hr, by linarith [(he r hr).2]⟩
  refine (C34_two_level_trees hn hm x y hy k rs h hlt).trans ?_
  clear h h1 h4 hlt hw
  induction rs with
  | nil => simp
  | cons r rs ih =>
    rw [List.map_cons, List.prod_cons, List.length_cons]
    have h1 := factor_le (he r (by simp)).1 hg.le (he r (by simp)).2
    have h2 := ih fun r' hr' => he r' (by simp [hr'])
    have h3 : Real.exp (-2 * g ^ 2 * ((rs.length + 1 : ℕ) : ℝ)) = Real.exp (-2 * g ^ 2) * Real.exp (-2 * g ^ 2 * rs.length) := by
      rw [← Real.exp_add]; congr 1; push_cast; ring
    rw [h3]
    have h0 : 0 ≤ (rs.map fun r => 2 * √(max r.err EPS * (1 - r.err))).prod := List.prod_nonneg (by
      intro v hv
      obtain ⟨r', -, rfl⟩ := List.mem_map.1 hv
      positivity)
    exact mul_le_mul h1 h2 h0 (Real.exp_pos _).le

/-- **C188.** Enough rounds learn the training data by heart: if every tree has a weighted error of at most `1/2 - g`, then with more than `ln n / (2 g²)` rounds (and fewer than `10 ^ 17`
samples, because of the constant `EPSILON`) every training sample is labelled correctly. -/
theorem C188_perfect (hn : 0 < n) (hn' : n < 10 ^ 17) (hm : 0 < m) (x : Fin n → (Fin m → ℝ)) (y : Fin n → Int) (hy : ∀ i, y i = 1 ∨ y i = -1) (k : Nat)
    (rs : List (Round (Fin m → ℝ) n)) (h : fit (treeLearner x y) x y k = .ok rs) (g : ℝ) (hg : 0 < g) (hw : ∀ r ∈ rs, weightedError r.dist x y r.h ≤ 1 / 2 - g)
    (hk : 0 < k) (hkn : Real.log n / (2 * g ^ 2) < k) :
    ∀ i, predictRow (rs.map Round.h) (rs.map Round.alpha) (x i) = some (y i) := by
  have hnR : (0 : ℝ) < n := by exact_mod_cast hn
  suffices hmis : (mistakes (predictRow (rs.map Round.h) (rs.map Round.alpha)) x y : ℝ) / n < 1 / n by
    rw [div_lt_div_iff_of_pos_right hnR] at hmis
    have h0 : mistakes (predictRow (rs.map Round.h) (rs.map Round.alpha)) x y = 0 := by
      have : mistakes (predictRow (rs.map Round.h) (rs.map Round.alpha)) x y < 1 := by exact_mod_cast hmis
      omega
    unfold mistakes at h0
    rw [Finset.card_eq_zero, Finset.filter_eq_empty_iff] at h0
    intro i
    have := h0 (Finset.mem_univ i)
    simpa using this
  obtain ⟨h1, -, h3, h4⟩ := C32_distributions hn _ x y k rs h
  rcases Nat.lt_or_ge rs.length k with hlen | hlen
  · -- training was left early: the last tree is (almost) perfect
    have hne := h4 hk
    have hpos := List.length_pos_of_ne_nil hne
    have he : ∀ r ∈ rs, 0 ≤ r.err ∧ r.err ≤ 1 / 2 - g := by
      intro r hr
      obtain ⟨hd, -, h3⟩ := h1 r hr
      rw [h3]
      exact ⟨Finset.sum_nonneg fun i _ => (hd.1 i).le, hw r hr⟩
    have hlast : rs[rs.length - 1]? = some (rs.getLast hne) := by rw [List.getLast_eq_getElem]; exact List.getElem?_eq_getElem _
    have hst := (C33_stopping hn _ x y k rs h (rs.length - 1) _ hlast).2 (by omega) (by omega)
    have hel := he _ (List.getLast_mem hne)
    have hE : (rs.getLast hne).err < EPS := by
      rcases hst with hst | hst
      · linarith [hel.2]
      · exact hst
    refine lt_of_le_of_lt (C34_two_level_trees hn hm x y hy k rs h ⟨_, List.getLast_mem hne, by linarith [hel.2]⟩) ?_
    have hfac : ∀ r ∈ rs, 2 * √(max r.err EPS * (1 - r.err)) ≤ 1 := by
      intro r hr
      refine (factor_le (he r hr).1 hg.le (he r hr).2).trans ?_
      rw [← Real.exp_zero]
      exact Real.exp_le_exp.2 (by nlinarith)
    have hl2 : 2 * √(max (rs.getLast hne).err EPS * (1 - (rs.getLast hne).err)) ≤ 2 / 10 ^ 18 := by
      rw [max_eq_right hE.le]
      have : √(EPS * (1 - (rs.getLast hne).err)) ≤ 1 / 10 ^ 18 := by
        rw [Real.sqrt_le_left (by positivity)]
        have : EPS = (1 / 10 ^ 18) ^ 2 := by unfold EPS; norm_num
        nlinarith [EPS_pos, hel.1]
      linarith
    have hprod : (rs.map fun r => 2 * √(max r.err EPS * (1 - r.err))).prod ≤ 2 / 10 ^ 18 := by
      conv_lhs => rw [← List.dropLast_append_getLast hne]
      rw [List.map_append, List.prod_append, List.map_singleton, List.prod_singleton]
      have h0 : (rs.dropLast.map fun r => 2 * √(max r.err EPS * (1 - r.err))).prod ≤ 1 := by
        have : ∀ l : List (Round (Fin m → ℝ) n), (∀ r ∈ l, r ∈ rs) →
            0 ≤ (l.map fun r => 2 * √(max r.err EPS * (1 - r.err))).prod ∧ (l.map fun r => 2 * √(max r.err EPS * (1 - r.err))).prod ≤ 1 := by
          intro l hl
          induction l with
          | nil => simp
          | cons r l ih =>
            obtain ⟨i1, i2⟩ := ih fun r' hr' => hl r' (by simp [hr'])
            rw [List.map_cons, List.prod_cons]
            have := hfac r (hl r (by simp))
            exact ⟨mul_nonneg (by positivity) i1, mul_le_one₀ this i1 i2⟩
        exact (this _ fun r hr => List.mem_of_mem_dropLast hr).2
      calc _ ≤ 1 * (2 / 10 ^ 18) := mul_le_mul h0 hl2 (by positivity) (by norm_num)
        _ = 2 / 10 ^ 18 := one_mul _
    refine lt_of_le_of_lt hprod ?_
    have : (n : ℝ) < 10 ^ 17 := by exact_mod_cast hn'
    rw [lt_div_iff₀ hnR]
    linarith
  · have hlk : rs.length = k := le_antisymm h3 hlen
    refine lt_of_le_of_lt (C188_rate hn hm x y hy k rs h hk g hg hw) ?_
    have hinv : 1 / (n : ℝ) = Real.exp (-Real.log n) := by rw [Real.exp_neg, Real.exp_log hnR, one_div]
    rw [hlk, hinv]
    apply Real.exp_lt_exp.2
    rw [div_lt_iff₀ (by positivity)] at hkn
    linarith

/-- Two samples of the same class: the hypotheses of `C188_perfect` hold with `g = 1/4` and six rounds. -/
example : ∃ rs : List (Round (Fin 1 → ℝ) 2), fit (treeLearner ![![0], ![1]] ![1, 1]) ![![0], ![1]] ![1, 1] 6 = .ok rs ∧
    (∀ r ∈ rs, weightedError r.dist ![![0], ![1]] ![1, 1] r.h ≤ 1 / 2 - 1 / 4) ∧ Real.log (2 : ℕ) / (2 * (1 / 4) ^ 2) < (6 : ℕ) := by
  have hl : ∀ D : Fin 2 → ℝ, IsDistribution D → treeLearner ![![0], ![1]] ![1, 1] D = .ok fun _ => 1 := by
    intro D hD
    have h2 := hD.2
    rw [Fin.sum_univ_two] at h2
    simp [treeLearner, Small.fit2, Small.gen2, Small.leafCat, Small.weight, List.ofFn_succ, Small.T2.predict, h2]
  obtain ⟨rs, h⟩ := C32_completes (n := 2) (by norm_num) (treeLearner ![![0], ![1]] ![1, 1]) ![![0], ![1]] ![1, 1] 6 (fun D hD => ⟨_, hl D hD⟩)
  obtain ⟨h1, -⟩ := C32_distributions (by norm_num) _ _ _ _ rs h
  refine ⟨rs, h, fun r hr => ?_, ?_⟩
  · obtain ⟨hd, he, -⟩ := h1 r hr
    rw [hl _ hd] at he
    simp only [Except.ok.injEq] at he
    rw [← he]
    have : (Finset.univ.filter fun i : Fin 2 => (1 : Int) ≠ ![1, 1] i) = ∅ := by decide
    unfold weightedError
    rw [this]
    norm_num
  · have := Real.log_two_lt_d9
    rw [div_lt_iff₀ (by norm_num)]
    push_cast
    linarith

end CML.Ada
