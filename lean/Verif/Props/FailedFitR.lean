import Verif.Props.FailedFit2
import Verif.Props.FailedFit3

set_option linter.unusedSectionVars false

/-! # C70 after a call of `fit` that raised, and C171 for instances with loaded weights -/

namespace CML.Failed
open LogReg Bayes

variable {n d : Nat}

/-- C70 on the instances: whatever the parameters, `predict` of an instance that was neither trained nor loaded raises `ValueError`. -/
theorem C70_untrained {K V : Type} [Field K] [LinearOrder K] [DecidableEq V] :
    (∀ (o : LR) (q : Samples ℝ), o.trained = false → o.loaded = false → o.answer q = .error .valueError) ∧
    (∀ (o : LDAObj K) (q : Samples K), o.trained = false → o.loaded = false → o.answer q = .error .valueError) ∧
    (∀ (d : Nat) (root : K → K) (o : KMObj K d) (x : List (Fin d → K)), o.trained = false → o.loaded = false → o.predict root x = .error .valueError) ∧
    (∀ (fl : ℝ → ℝ) (smoothing : Bool) (names : List String) (o : NBObj V) (x : List (Cell V)), o.trained = false → o.loaded = false →
      o.predict fl smoothing names x = .error .valueError) ∧
    (∀ (o : BPObj) (x : Net.Mat), o.trained = false → o.loaded = false → o.predict x = .error .valueError) := by
  refine ⟨fun o q h1 h2 => ?_, fun o q h1 h2 => ?_, fun d root o x h1 h2 => ?_, fun fl s names o x h1 h2 => ?_, fun o x h1 h2 => ?_⟩
  · rw [LR.answer, LR.predict, if_pos ⟨h1, h2⟩]
  · rw [LDAObj.answer, LDAObj.predict, if_pos ⟨h1, h2⟩]
  · rw [KMObj.predict, if_pos ⟨h1, h2⟩]
  · rw [NBObj.predict, if_pos ⟨h1, h2⟩]
  · rw [BPObj.predict, if_pos ⟨h1, h2⟩]

/-- The flags of an instance are not changed by a call of `fit` that raises. -/
theorem lr_flags (draw : Fin (d + 1) → ℝ) (o : LR) (x : Fin n → Fin d → ℝ) (y : Fin n → ℝ) (epochs : Nat) (h : Raised (o.fit draw x y epochs)) :
    (o.fit draw x y epochs).1.trained = o.trained ∧ (o.fit draw x y epochs).1.loaded = o.loaded := by
  have ht : ∀ b, Raised (o.train x y epochs b) → (o.train x y epochs b).1.trained = o.trained ∧ (o.train x y epochs b).1.loaded = o.loaded := by
    intro b hb
    unfold LR.train at hb ⊢
    split
    · next b' e => rw [e] at hb; simp [Raised] at hb
    · exact ⟨rfl, rfl⟩
  obtain ⟨be, tr, lo⟩ := o
  cases lo with
  | false => exact ht _ h
  | true =>
    cases be with
    | none =>
      simp only [LR.fit] at h ⊢
      by_cases h0 : epochs = 0
      · simp [h0, Raised] at h
      · rw [if_neg h0]; exact ⟨rfl, rfl⟩
    | some p =>
      obtain ⟨d', b⟩ := p
      simp only [LR.fit] at h ⊢
      by_cases hd : d' = d
      · rw [dif_pos hd] at h ⊢
        exact ht _ h
      · rw [dif_neg hd] at h ⊢
        by_cases h0 : epochs = 0
        · simp [h0, Raised] at h
        · rw [if_neg h0]; exact ⟨rfl, rfl⟩

/-- C70 after a call of `fit` that raised: a new instance is still untrained, and every call of `predict` raises `ValueError`. -/
theorem C70_after_failed_fit {K V : Type} [Field K] [LinearOrder K] [DecidableEq V] :
    (∀ (n d : Nat) (draw : Fin (d + 1) → ℝ) (x : Fin n → Fin d → ℝ) (y : Fin n → ℝ) (epochs : Nat), Raised (LR.fit draw {} x y epochs) →
      ∀ q, (LR.fit draw {} x y epochs).1.answer q = .error .valueError) ∧
    (∀ (d : Nat) (gw : Matrix (Fin d) (Fin d) K → (Fin d → K) → (Fin d → K) → Except PyErr (Fin d → K)) (x : List (Fin d → K)) (y : List Int),
      Raised (LDAObj.fit gw {} x y) → ∀ q, (LDAObj.fit gw {} x y).1.answer q = .error .valueError) ∧
    (∀ (d : Nat) (root : K → K) (x : List (Fin d → K)) (tol : K) (epochs : Nat) (start : Except PyErr (List (Fin d → K))),
      Raised (KMObj.fit root x tol epochs start {}) → ∀ q, (KMObj.fit root x tol epochs start {}).1.predict root q = .error .valueError) ∧
    (∀ (fl : ℝ → ℝ) (order : List V → List V) (smoothing : Bool) (names : List String) (table : List (String × Col V)) (y : List Int),
      Raised (NBObj.fit order smoothing {} table y) → ∀ q, (NBObj.fit order smoothing {} table y).1.predict fl smoothing names q = .error .valueError) ∧
    (∀ (lr : ℝ) (rnd : Nat → ℕ → ℕ → ℝ) (layers is : List Nat) (x y : Net.Mat), Raised (BPObj.fit lr rnd layers is {} x y) →
      ∀ q, (BPObj.fit lr rnd layers is {} x y).1.predict q = .error .valueError) := by
  refine ⟨fun n d draw x y epochs h q => ?_, fun d gw x y h q => ?_, fun d root x tol epochs start h q => ?_,
    fun fl order s names table y h q => ?_, fun lr rnd layers is x y h q => ?_⟩
  · have hf := lr_flags draw {} x y epochs h
    exact (C70_untrained (K := K) (V := V)).1 _ q hf.1 hf.2
  · refine (C70_untrained (K := K) (V := V)).2.1 _ q ?_ ?_ <;>
    · unfold LDAObj.fit at h ⊢
      split
      · rfl
      · next hl =>
        rw [if_neg hl] at h
        dsimp only at h ⊢
        split
        · rfl
        · next w e => simp [e, Raised] at h
  · have hloop : ∀ (e : Nat) (cs : List (Option (Fin d → K))) (o : KMObj K d), (KMObj.loop root x tol e cs o).1.trained = o.trained ∧
        (KMObj.loop root x tol e cs o).1.loaded = o.loaded := by
      intro e
      induction e with
      | zero => intro cs o; exact ⟨rfl, rfl⟩
      | succ e ih =>
        intro cs o
        rw [KMObj.loop]
        split
        · exact ⟨rfl, rfl⟩
        · split
          · exact ⟨rfl, rfl⟩
          · split
            · exact ih _ _
            · exact ⟨rfl, rfl⟩
    cases start with
    | error e => exact (C70_untrained (K := K) (V := V)).2.2.1 d root _ q rfl rfl
    | ok init =>
      have hl := hloop epochs (init.map some) {}
      unfold KMObj.fit at h ⊢
      dsimp only at h ⊢
      split
      · next o' e => rw [e] at h; simp [Raised] at h
      · next o' er e =>
        rw [e] at hl
        exact (C70_untrained (K := K) (V := V)).2.2.1 d root _ q hl.1 hl.2
  · have hloop : ∀ (t : List (String × Col V)) (o : NBObj V), (NBObj.loop order y t o).1.trained = o.trained ∧
        (NBObj.loop order y t o).1.loaded = o.loaded := by
      intro t
      induction t with
      | nil => intro o; exact ⟨rfl, rfl⟩
      | cons c t ih =>
        intro o
        rw [NBObj.loop]
        split
        · exact ih _
        · exact ⟨rfl, rfl⟩
        · exact ⟨rfl, rfl⟩
    unfold NBObj.fit at h ⊢
    split
    · exact (C70_untrained (K := K) (V := V)).2.2.2.1 fl s names _ q rfl rfl
    · next p hp =>
      rw [hp] at h
      have hl := hloop table { prior := some p }
      dsimp only at h ⊢
      split
      · next o' e => rw [e] at h; simp [Raised] at h
      · next o' er e =>
        rw [e] at hl
        exact (C70_untrained (K := K) (V := V)).2.2.2.1 fl s names _ q hl.1 hl.2
  · unfold BPObj.fit at h ⊢
    dsimp only at h ⊢
    split
    · next P e => rw [e] at h; simp [Raised] at h
    · exact (C70_untrained (K := K) (V := V)).2.2.2.2 _ q rfl rfl

/-- LDA without samples of length: a new instance whose `fit` raised. -/
example : Raised (LDAObj.fit (K := ℚ) (d := 1) (fun _ _ _ => .ok 0) {} [fun _ => 1] []) := by
  simp [Raised, LDAObj.fit]

/-- C70: an instance that is marked as trained or loaded but has no parameters. `predict` raises `AttributeError` (logistic regression, LDA, k-means, networks) or
`TypeError` (naive Bayes without prior probabilities). -/
theorem C70_no_parameters {K V : Type} [Field K] [LinearOrder K] [DecidableEq V] :
    (∀ (o : LR) (q : Samples ℝ), (o.trained = true ∨ o.loaded = true) → o.beta = none → o.answer q = .error .attributeError) ∧
    (∀ (o : LDAObj K) (q : Samples K), (o.trained = true ∨ o.loaded = true) → (o.w = none ∨ o.mu0 = none ∨ o.mu1 = none) → o.answer q = .error .attributeError) ∧
    (∀ (d : Nat) (root : K → K) (o : KMObj K d) (x : List (Fin d → K)), (o.trained = true ∨ o.loaded = true) → o.centroids = none →
      o.predict root x = .error .attributeError) ∧
    (∀ (fl : ℝ → ℝ) (smoothing : Bool) (names : List String) (o : NBObj V) (x : List (Cell V)), (o.trained = true ∨ o.loaded = true) → o.prior = none →
      o.predict fl smoothing names x = .error .typeError) ∧
    (∀ (o : BPObj) (x : Net.Mat), (o.trained = true ∨ o.loaded = true) → o.parameters = none → o.predict x = .error .attributeError) := by
  have hg : ∀ t l : Bool, (t = true ∨ l = true) → ¬ (t = false ∧ l = false) := by decide
  refine ⟨fun o q h1 h2 => ?_, fun o q h1 h2 => ?_, fun d root o x h1 h2 => ?_, fun fl s names o x h1 h2 => ?_, fun o x h1 h2 => ?_⟩
  · rw [LR.answer, LR.predict, if_neg (hg _ _ h1), h2]
  · rw [LDAObj.answer, LDAObj.predict, if_neg (hg _ _ h1)]
    rcases h2 with h | h | h
    · rw [h]
    · rw [h]; cases o.w <;> rfl
    · rw [h]; cases o.w <;> cases o.mu0 <;> rfl
  · rw [KMObj.predict, if_neg (hg _ _ h1), h2]
  · rw [NBObj.predict, if_neg (hg _ _ h1), h2]
  · rw [BPObj.predict, if_neg (hg _ _ h1), h2]

/-- C70: k-means with parameters but without centroids (`n_clusters = 0`) raises `ValueError` for every sample. -/
theorem C70_kmeans_empty {K : Type} [Field K] [LinearOrder K] (root : K → K) (o : KMObj K d) (ht : o.trained = true ∨ o.loaded = true)
    (hc : o.centroids = some []) (x : List (Fin d → K)) (hx : x ≠ []) : o.predict root x = .error .valueError := by
  have hg : ¬ (o.trained = false ∧ o.loaded = false) := by rcases ht with h | h <;> simp [h]
  rw [KMObj.predict, if_neg hg, hc]
  cases x with
  | nil => exact absurd rfl hx
  | cons a x =>
    dsimp only
    have : KMeans.getCluster root (a :: x) ([] : List (Option (Fin d → K))) = none := by
      simp [KMeans.getCluster, KMeans.distances, KMeans.argminNaN, argmin?]
    rw [this]

/-- C171 for logistic regression with loaded weights for another number of features: with at least one epoch `fit` raises `ValueError` and changes
nothing; without epochs it completes, and the parameters still do not fit the data. -/
theorem C171_logistic_loaded_other (draw : Fin (d + 1) → ℝ) (o : LR) (ho : o.loaded = true) (d' : Nat) (b : Fin (d' + 1) → ℝ) (hb : o.beta = some ⟨d', b⟩)
    (hd : d' ≠ d) (x : Fin n → Fin d → ℝ) (y : Fin n → ℝ) (epochs : Nat) :
    (0 < epochs → o.fit draw x y epochs = (o, some .valueError)) ∧
    o.fit draw x y 0 = ({ o with trained := true }, none) ∧
    ∀ q : Fin n → Fin d → ℝ, (o.fit draw x y 0).1.predict q = .error .valueError := by
  obtain ⟨be, tr, lo⟩ := o
  simp only at ho hb
  subst ho hb
  refine ⟨fun he => ?_, ?_, fun q => ?_⟩
  · simp only [LR.fit, dif_neg hd, if_neg (show ¬ epochs = 0 by omega)]
  · simp only [LR.fit, dif_neg hd, if_true]
  · simp only [LR.fit, dif_neg hd, if_true, LR.predict]
    simp

/-- A loaded instance whose file held no parameters: `fit` with epochs raises `AttributeError`. -/
theorem C171_logistic_loaded_empty (draw : Fin (d + 1) → ℝ) (o : LR) (ho : o.loaded = true) (hb : o.beta = none) (x : Fin n → Fin d → ℝ) (y : Fin n → ℝ)
    (epochs : Nat) :
    (0 < epochs → o.fit draw x y epochs = (o, some .attributeError)) ∧ o.fit draw x y 0 = ({ o with trained := true }, none) := by
  obtain ⟨be, tr, lo⟩ := o
  simp only at ho hb
  subst ho hb
  refine ⟨fun he => ?_, ?_⟩
  · simp only [LR.fit, if_neg (show ¬ epochs = 0 by omega)]
  · simp only [LR.fit, if_true]

example : ∃ (o : LR), o.loaded = true ∧ o.beta = some ⟨3, fun _ => 1⟩ := ⟨{ loaded := true, beta := some ⟨3, fun _ => 1⟩ }, rfl, rfl⟩

/-- C70: asking naive Bayes for an attribute it has not seen raises `KeyError`. -/
theorem C70_bayes_unknown_attribute {V : Type} [DecidableEq V] (fl : ℝ → ℝ) (smoothing : Bool) (o : NBObj V) (ht : o.trained = true ∨ o.loaded = true)
    (p : ℝ × ℝ) (hp : o.prior = some p) (seen : List String) (name : String) (rest : List String) (h : ∀ s ∈ seen, Dict.get o.pi0 s ≠ none)
    (hn : Dict.get o.pi0 name = none) (x : List (Cell V)) : o.predict fl smoothing (seen ++ name :: rest) x = .error .keyError := by
  have hg : ¬ (o.trained = false ∧ o.loaded = false) := by rcases ht with h | h <;> simp [h]
  have hl : lookAll o.pi0 (seen ++ name :: rest) = .error .keyError := by
    induction seen with
    | nil => simp only [List.nil_append, lookAll, hn]
    | cons s seen ih =>
      have := ih fun s hs => h s (List.mem_cons_of_mem _ hs)
      simp only [List.cons_append, lookAll]
      rw [this]
      cases hs : Dict.get o.pi0 s with
      | none => exact absurd hs (h s (List.mem_cons_self))
      | some v => rfl
  obtain ⟨p0, p1⟩ := p
  rw [NBObj.predict, if_neg hg, hp]
  dsimp only
  rw [hl]

/-- C171: why AdaBoost cannot be trained twice: the second call of `fit` (one round or more, the weak learner having been trained) raises `AttributeError`. -/
theorem C171_adaboost_twice {X : Type*} (learn : (Fin n → ℝ) → Except PyErr (X → Int)) (x : Fin n → X) (y : Fin n → Int) (k : Nat) (hk : 0 < k)
    (o : Ada.Obj X) (ho : o.asArray = true) (h : X → Int) (hl : learn (fun _ => 1 / (n : ℝ)) = .ok h) :
    adaFit learn x y k o = (o, some .attributeError) := by
  cases k with
  | zero => omega
  | succ k => simp only [adaFit, adaLoop, hl, ho, if_true]

end CML.Failed
