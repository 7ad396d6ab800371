import Verif.Props.SVC
import Verif.Lemmas.Sym
import Verif.Model.SVCKernel

set_option linter.unusedSectionVars false

/-! # Properties C182, C183: symmetries of the support vector classifier -/

namespace CML.SMO
open Finset

variable {K : Type*} [Field K] [LinearOrder K] [IsStrictOrderedRing K] {n : Nat}

/-- The problem with the two labels swapped. -/
def Problem.swap (p : Problem K n) : Problem K n := { p with y := fun i => -p.y i }

/-- The state of the optimiser for the swapped problem. -/
def State.swap (s : State K n) : State K n := { s with cache := fun i => -s.cache i, b := -s.b }

theorem swap_error (p : Problem K n) (s : State K n) (i : Fin n) : calculateError p.swap s.swap i = -calculateError p s i := by
  unfold calculateError
  dsimp only
  by_cases h : ∃ k, s.nonZero k = true
  · rw [if_pos h, if_pos (show ∃ k, s.swap.nonZero k = true from h)]
    have : ∀ k, (if s.swap.nonZero k = true then s.swap.alphas k * p.swap.y k * p.swap.gram k i else 0) =
        -(if s.nonZero k = true then s.alphas k * p.y k * p.gram k i else 0) := by
      intro k
      by_cases hk : s.nonZero k = true
      · rw [if_pos hk, if_pos (show s.swap.nonZero k = true from hk)]
        simp only [State.swap, Problem.swap]; ring
      · rw [if_neg hk, if_neg (show ¬ s.swap.nonZero k = true from hk)]; simp
    rw [sum_congr rfl fun k _ => this k, sum_neg_distrib]
    simp only [State.swap, Problem.swap]; ring
  · rw [if_neg h, if_neg (show ¬ ∃ k, s.swap.nonZero k = true from h)]
    simp only [State.swap, Problem.swap]; ring

theorem swap_bounds (p : Problem K n) (s : State K n) (i j : Fin n) : bounds p.swap s.swap i j = bounds p s i j := by
  simp only [bounds, Problem.swap, State.swap, ne_eq, neg_inj]

theorem swap_alphaJ (p : Problem K n) (s : State K n) (i j : Fin n) (ei ej : K) : alphaJNew p.swap s.swap i j (-ei) (-ej) = alphaJNew p s i j ei ej := by
  simp only [alphaJNew, swap_bounds]
  have h : s.swap.alphas j + p.swap.y j * (-ei - -ej) / eta p.swap i j = s.alphas j + p.y j * (ei - ej) / eta p i j := by
    have : p.swap.y j * (-ei - -ej) = p.y j * (ei - ej) := by simp only [Problem.swap]; ring
    rw [this]; rfl
  rw [h]

theorem swap_errorCache (p : Problem K n) (s : State K n) : updateErrorCache p.swap s.swap = (updateErrorCache p s).swap := by
  have hc : (fun k => if s.swap.nonBound k = true then calculateError p.swap s.swap k else s.swap.cache k) =
      fun k => -(if s.nonBound k = true then calculateError p s k else s.cache k) := by
    funext k
    by_cases h : s.nonBound k = true
    · rw [if_pos h, if_pos (show s.swap.nonBound k = true from h)]; exact swap_error p s k
    · rw [if_neg h, if_neg (show ¬ s.swap.nonBound k = true from h)]; rfl
  unfold updateErrorCache
  rw [hc]
  rfl

theorem swap_alphaCache (p : Problem K n) (s : State K n) (a : K) (i : Fin n) : updateAlphaCache p.swap s.swap a i = (updateAlphaCache p s a i).swap := rfl

theorem swap_updateAlpha (p : Problem K n) (s : State K n) (i j : Fin n) (ei ej : K) :
    updateAlpha p.swap s.swap i j (-ei) (-ej) = (updateAlpha p s i j ei ej).map State.swap := by
  unfold updateAlpha
  rw [swap_bounds, swap_alphaJ]
  by_cases h1 : i = j
  · rw [if_pos h1, if_pos h1]; rfl
  rw [if_neg h1, if_neg h1]
  by_cases h2 : (bounds p s i j).1 = (bounds p s i j).2
  · rw [if_pos h2, if_pos h2]; rfl
  rw [if_neg h2, if_neg h2]
  by_cases h3 : eta p i j ≤ 0
  · rw [if_pos h3, if_pos (show eta p.swap i j ≤ 0 from h3)]; rfl
  rw [if_neg h3, if_neg (show ¬ eta p.swap i j ≤ 0 from h3)]
  dsimp only
  by_cases h4 : |alphaJNew p s i j ei ej - s.alphas j| < 1 / 100000
  · rw [if_pos h4, if_pos (show |alphaJNew p s i j ei ej - s.swap.alphas j| < 1 / 100000 from h4)]; rfl
  rw [if_neg h4, if_neg (show ¬ |alphaJNew p s i j ei ej - s.swap.alphas j| < 1 / 100000 from h4)]
  simp only [Option.map_some, Option.some.injEq]
  rw [← swap_alphaCache, ← swap_alphaCache, ← swap_errorCache]
  have ha : s.swap.alphas i + p.swap.y i * p.swap.y j * (s.swap.alphas j - alphaJNew p s i j ei ej) =
      s.alphas i + p.y i * p.y j * (s.alphas j - alphaJNew p s i j ei ej) := by simp only [Problem.swap, State.swap]; ring
  rw [ha]
  congr 3
  simp only [State.swap, Problem.swap]
  congr 1
  ring

theorem swap_selectSecond (s : State K n) (ei : K) : selectSecond s.swap (-ei) = (selectSecond s ei).map fun r => (r.1, -r.2) := by
  unfold selectSecond
  have h : ∀ k, |-ei - s.swap.cache k| = |ei - s.cache k| := by
    intro k
    rw [← abs_neg]
    simp only [State.swap]
    congr 1
    ring
  simp only [h, show s.swap.nonBound = s.nonBound from rfl]
  cases argmax? (((List.finRange n).filter s.nonBound).map fun k => |ei - s.cache k|) with
  | none => rfl
  | some m =>
    dsimp only
    cases ((List.finRange n).filter s.nonBound)[m]? <;> rfl

theorem swap_forced (p : Problem K n) (s : State K n) (i : Fin n) (ei : K) (l : List (Fin n)) :
    forcedLoop p.swap s.swap i (-ei) l = (forcedLoop p s i ei l).map State.swap := by
  induction l with
  | nil => rfl
  | cons j l ih =>
    simp only [forcedLoop, swap_error, swap_updateAlpha]
    cases updateAlpha p s i j ei (calculateError p s j) with
    | some s' => rfl
    | none => exact ih

theorem swap_errorI (p : Problem K n) (s : State K n) (i : Fin n) : errorI p.swap s.swap i = -errorI p s i := by
  unfold errorI
  by_cases h : s.nonBound i = true
  · rw [if_pos h, if_pos (show s.swap.nonBound i = true from h)]; rfl
  · rw [if_neg h, if_neg (show ¬ s.swap.nonBound i = true from h)]; exact swap_error p s i

theorem swap_violates (p : Problem K n) (s : State K n) (i : Fin n) : violates p.swap s.swap i ↔ violates p s i := by
  unfold violates
  rw [swap_errorI]
  have : p.swap.y i * -errorI p s i = p.y i * errorI p s i := by simp only [Problem.swap]; ring
  rw [this]
  rfl

theorem swap_updateParameters (p : Problem K n) (s : State K n) (i : Fin n) (perm : List (Fin n)) :
    updateParameters p.swap s.swap i perm = (updateParameters p s i perm).map State.swap := by
  unfold updateParameters
  dsimp only
  by_cases h : violates p s i
  · rw [if_pos h, if_pos ((swap_violates p s i).2 h), swap_errorI, swap_selectSecond]
    cases selectSecond s (errorI p s i) with
    | none => exact swap_forced p s i _ perm
    | some r =>
      obtain ⟨j, ej⟩ := r
      simp only [Option.map_some]
      rw [swap_updateAlpha]
      cases updateAlpha p s i j (errorI p s i) ej with
      | some s' => rfl
      | none => exact swap_forced p s i _ perm
  · rw [if_neg h, if_neg (fun hc => h ((swap_violates p s i).1 hc))]; rfl

theorem swap_passLoop (p : Problem K n) (perms : Nat → List (Fin n)) (is : List (Fin n)) : ∀ (s : State K n) (t c : Nat),
    passLoop p.swap perms is (s.swap, t, c) = ((passLoop p perms is (s, t, c)).1.swap, (passLoop p perms is (s, t, c)).2) := by
  induction is with
  | nil => intro s t c; rfl
  | cons i is ih =>
    intro s t c
    simp only [passLoop, swap_updateParameters]
    cases updateParameters p s i (perms t) with
    | some s' => exact ih s' _ _
    | none => exact ih s _ _

theorem swap_pass (p : Problem K n) (perms : Nat → List (Fin n)) (r : Run K n) :
    pass p.swap perms { r with st := r.st.swap } = ({ (pass p perms r).1 with st := (pass p perms r).1.st.swap }, (pass p perms r).2) := by
  unfold pass
  dsimp only
  have hi : (if r.entire then List.finRange n else (List.finRange n).filter r.st.swap.nonBound) =
      (if r.entire then List.finRange n else (List.finRange n).filter r.st.nonBound) := rfl
  rw [hi, swap_passLoop]
  obtain ⟨s, t, c⟩ := passLoop p perms (if r.entire then List.finRange n else (List.finRange n).filter r.st.nonBound) (r.st, r.t, 0)
  dsimp only
  by_cases h1 : r.entire = true
  · rw [if_pos h1, if_pos h1]
    by_cases h2 : c = 0
    · rw [if_pos h2, if_pos h2]
    · rw [if_neg h2, if_neg h2]
  · rw [if_neg h1, if_neg h1]
    by_cases h2 : c = 0
    · rw [if_pos h2, if_pos h2]
    · rw [if_neg h2, if_neg h2]

theorem swap_loop (p : Problem K n) (perms : Nat → List (Fin n)) (k : Nat) : ∀ r : Run K n,
    loop p.swap perms k { r with st := r.st.swap } = ({ (loop p perms k r).1 with st := (loop p perms k r).1.st.swap }, (loop p perms k r).2) := by
  induction k with
  | zero => intro r; rfl
  | succ k ih =>
    intro r
    simp only [loop, swap_pass]
    obtain ⟨r', b⟩ := pass p perms r
    cases b with
    | true => rfl
    | false => exact ih r'

theorem swap_init : (State.init K n).swap = State.init K n := by simp [State.swap, State.init]

theorem swap_returns (p : Problem K n) (perms : Nat → List (Fin n)) (epochs : Int) (s : State K n) (h : Returns p perms epochs s) :
    Returns p.swap perms epochs s.swap := by
  have hl : ∀ k, loop p.swap perms k (Run.init K n) =
      ({ (loop p perms k (Run.init K n)).1 with st := (loop p perms k (Run.init K n)).1.st.swap }, (loop p perms k (Run.init K n)).2) := by
    intro k
    have := swap_loop p perms k (Run.init K n)
    simp only [Run.init, swap_init] at this ⊢
    exact this
  unfold Returns at h ⊢
  by_cases he : epochs = -1
  · rw [if_pos he] at h ⊢
    obtain ⟨k, h1, h2⟩ := h
    exact ⟨k, by rw [hl]; exact h1, by rw [hl, ← h2]⟩
  · rw [if_neg he] at h ⊢
    rw [hl, ← h]

end CML.SMO

namespace CML.SVC
open SMO

variable {K N : Type*} [Field K] [LinearOrder K] [IsStrictOrderedRing K] {n : Nat}

/-- **C182.** Swapping the two labels: a training that ends also ends with the labels swapped (the same kernel, `C`, tolerance, number of epochs and random
permutations), with the same support vectors and multipliers, the opposite labels and the opposite bias; the decision value of every sample is the opposite. -/
theorem C182_label_swap (make : N → K → List K → List K → K) (perms : Nat → List (Fin n)) (o o' : Obj K N) (x : Fin n → List K) (y : Fin n → K) (d : Nat)
    (epochs : Int) (h : Fit make perms o x y d epochs o') :
    ∃ o'', Fit make perms o x (fun i => -y i) d epochs o'' ∧
      o''.supportVector = o'.supportVector ∧ o''.supportAlpha = o'.supportAlpha ∧ o''.supportY = o'.supportY.map (fun v => -v) ∧ o''.b = -o'.b ∧
      ∀ (k : List K → List K → K) (r : List K), decisionValue k o'' r = -decisionValue k o' r := by
  obtain ⟨g, s, h1, h2, h3⟩ := h
  have hs := swap_returns _ _ _ _ h2
  refine ⟨_, ⟨g, s.swap, h1, hs, rfl⟩, ?_, ?_, ?_, ?_, ?_⟩
  · rw [h3]; rfl
  · rw [h3]; rfl
  · rw [h3]
    simp only [extract, problem, State.swap, List.map_map]
    rfl
  · rw [h3]; rfl
  · intro k r
    rw [h3]
    simp only [decisionValue, extract, problem, State.swap]
    have key : ∀ l : List (Fin n), (List.zipWith (fun ay v => ay * k r v) (List.zipWith (· * ·) (l.map s.alphas) (l.map fun i => -y i)) (l.map x)).sum =
        -(List.zipWith (fun ay v => ay * k r v) (List.zipWith (· * ·) (l.map s.alphas) (l.map y)) (l.map x)).sum := by
      intro l
      induction l with
      | nil => simp
      | cons i l ih => simp only [List.map_cons, List.zipWith_cons_cons, List.sum_cons, ih]; ring
    rw [key]
    ring

/-- …so every prediction is the opposite one, except on the decision boundary itself, where both models answer 1. -/
theorem C182_predictions (make : N → K → List K → List K → K) (perms : Nat → List (Fin n)) (o o' : Obj K N) (x : Fin n → List K) (y : Fin n → K) (d : Nat)
    (epochs : Int) (h : Fit make perms o x y d epochs o') :
    ∃ (o'' : Obj K N) (k : List K → List K → K), Fit make perms o x (fun i => -y i) d epochs o'' ∧ ∀ r : List K,
      (decisionValue k o' r ≠ 0 → ∃ v : Int, (v = 1 ∨ v = -1) ∧ o'.predict [r] = .ok [v] ∧ o''.predict [r] = .ok [-v]) ∧
      (decisionValue k o' r = 0 → o'.predict [r] = .ok [1] ∧ o''.predict [r] = .ok [1]) := by
  obtain ⟨o'', hf, -, -, -, -, hd⟩ := C182_label_swap make perms o o' x y d epochs h
  obtain ⟨g, s, h1, -, h3⟩ := h
  obtain ⟨g', s', h1', -, h3'⟩ := id hf
  have hg : g' = g := by rw [h1] at h1'; injection h1' with h; exact h.symm
  subst hg
  have hk' : o'.kernel = .inst (getKernel make g' o.kernel) := by rw [h3]
  have ht' : o'.trained = true := by rw [h3]
  have hk'' : o''.kernel = .inst (getKernel make g' o.kernel) := by rw [h3']
  have ht'' : o''.trained = true := by rw [h3']
  have hp' : ∀ r, o'.predict [r] = .ok [if decisionValue (getKernel make g' o.kernel) o' r < 0 then -1 else 1] := by
    intro r
    unfold Obj.predict
    rw [if_neg (by simp [ht']), hk']
    rfl
  have hp'' : ∀ r, o''.predict [r] = .ok [if -decisionValue (getKernel make g' o.kernel) o' r < 0 then -1 else 1] := by
    intro r
    unfold Obj.predict
    rw [if_neg (by simp [ht'']), hk'']
    simp only [List.map_cons, List.map_nil, hd]
  refine ⟨o'', getKernel make g' o.kernel, hf, fun r => ⟨fun hne => ?_, fun he => ?_⟩⟩
  · rcases lt_or_gt_of_ne hne with hlt | hgt
    · exact ⟨-1, .inr rfl, by rw [hp', if_pos hlt], by rw [hp'', if_neg (by linarith)]; rfl⟩
    · exact ⟨1, .inl rfl, by rw [hp', if_neg (by linarith)], by rw [hp'', if_pos (by linarith)]⟩
  · exact ⟨by rw [hp', he]; simp, by rw [hp'', he]; simp⟩

/-- Two samples, linear kernel, one epoch: the two trainings end with opposite biases and multipliers 1/2. -/
example : ∃ s : State ℚ 2, Returns (problem (fun u v => (List.zipWith (· * ·) u v).sum) 1 (1/1000) ![[1], [-1]] ![1, -1]) (fun _ => [0, 1]) 1 s ∧
    s.alphas = ![1/2, 1/2] ∧ s.b = 0 := by
  refine ⟨_, rfl, ?_, ?_⟩ <;> decide +kernel

/-! ## C183 -/

/-- The optimiser sees the data through the kernel values only: two trainings whose data have the same kernel values go the same way. -/
theorem fit_transport (make : N → K → List K → List K → K) (perms : Nat → List (Fin n)) (o o' : Obj K N) (x : Fin n → List K) (y : Fin n → K) (d : Nat)
    (epochs : Int) (φ : List K → List K) (g g' : K) (hg : o.gamma.value (List.ofFn x) d = some g) (hg' : o.gamma.value (List.ofFn fun i => φ (x i)) d = some g')
    (hk : ∀ i j, getKernel make g' o.kernel (φ (x i)) (φ (x j)) = getKernel make g o.kernel (x i) (x j))
    (h : Fit make perms o x y d epochs o') :
    ∃ o'', Fit make perms o (fun i => φ (x i)) y d epochs o'' ∧ ∀ r : List K,
      (∀ i, getKernel make g' o.kernel (φ r) (φ (x i)) = getKernel make g o.kernel r (x i)) → o''.predict [φ r] = o'.predict [r] := by
  obtain ⟨g0, s, h1, h2, h3⟩ := h
  have : g0 = g := by rw [hg] at h1; injection h1 with h; exact h.symm
  subst this
  have hp : problem (getKernel make g' o.kernel) o.C o.tol (fun i => φ (x i)) y = problem (getKernel make g0 o.kernel) o.C o.tol x y := by
    simp only [problem]
    congr 1
    funext i j
    exact hk i j
  have e1 : ∀ (q : Obj K N) (k : List K → List K → K) (r : List K), q.trained = true → q.kernel = .inst k →
      q.predict [r] = .ok [if decisionValue k q r < 0 then -1 else 1] := by
    intro q k r hq hk
    unfold Obj.predict
    rw [if_neg (by simp [hq]), hk]
    rfl
  refine ⟨_, ⟨g', s, hg', by rw [hp]; exact h2, rfl⟩, fun r hr => ?_⟩
  rw [e1 _ _ _ rfl rfl, e1 o' (getKernel make g0 o.kernel) r (by rw [h3]) (by rw [h3])]
  have key : ∀ l : List (Fin n), ∀ ay : List K,
      List.zipWith (fun a v => a * getKernel make g' o.kernel (φ r) v) ay ((l.map fun i => φ (x i))) =
        List.zipWith (fun a v => a * getKernel make g0 o.kernel r v) ay (l.map x) := by
    intro l
    induction l with
    | nil => intro ay; simp
    | cons i l ih =>
      intro ay
      cases ay with
      | nil => rfl
      | cons a ay => simp only [List.map_cons, List.zipWith_cons_cons, hr i, ih]
  congr 3
  rw [h3]
  simp only [decisionValue, hp, extract, key]

theorem sum_translate (u v t : List ℝ) (h1 : u.length = t.length) (h2 : v.length = t.length) :
    List.zipWith (fun a b => (b - a) ^ 2) (List.zipWith (· + ·) u t) (List.zipWith (· + ·) v t) = List.zipWith (fun a b : ℝ => (b - a) ^ 2) u v := by
  induction t generalizing u v with
  | nil => simp_all
  | cons c t ih =>
    cases u with
    | nil => simp at h1
    | cons a u =>
      cases v with
      | nil => simp at h2
      | cons b v =>
        simp only [List.zipWith_cons_cons]
        rw [ih u v (by simpa using h1) (by simpa using h2)]
        congr 1
        ring

/-- **C183.** With the RBF kernel and a number or `'auto'` for gamma, moving the origin of the features (by any offsets) changes no prediction. -/
theorem C183_origin (make : N → ℝ → List ℝ → List ℝ → ℝ) (perms : Nat → List (Fin n)) (o o' : Obj ℝ N) (s : N) (hs : o.kernel = .name s)
    (hm : ∀ g, make s g = rbfList g) (hg : o.gamma ≠ .scale) (x : Fin n → List ℝ) (y : Fin n → ℝ) (d : Nat) (hx : ∀ i, (x i).length = d)
    (t : List ℝ) (ht : t.length = d) (epochs : Int) (h : Fit make perms o x y d epochs o') :
    ∃ o'', Fit make perms o (fun i => List.zipWith (· + ·) (x i) t) y d epochs o'' ∧
      ∀ r : List ℝ, r.length = d → o''.predict [List.zipWith (· + ·) r t] = o'.predict [r] := by
  obtain ⟨g, hg1⟩ : ∃ g, o.gamma.value (List.ofFn x) d = some g := by obtain ⟨g, _, h1, _⟩ := h; exact ⟨g, h1⟩
  have hg2 : o.gamma.value (List.ofFn fun i => List.zipWith (· + ·) (x i) t) d = some g := by
    cases hgg : o.gamma with
    | auto => rw [hgg] at hg1; exact hg1
    | scale => exact absurd hgg hg
    | num a => rw [hgg] at hg1; exact hg1
  have hk : ∀ u v : List ℝ, u.length = d → v.length = d →
      getKernel make g o.kernel (List.zipWith (· + ·) u t) (List.zipWith (· + ·) v t) = getKernel make g o.kernel u v := by
    intro u v hu hv
    rw [hs]
    simp only [getKernel, hm, rbfList]
    rw [sum_translate u v t (hu.trans ht.symm) (hv.trans ht.symm)]
  obtain ⟨o'', h1, h2⟩ := fit_transport make perms o o' x y d epochs (fun r => List.zipWith (· + ·) r t) g g hg1 hg2 (fun i j => hk _ _ (hx i) (hx j)) h
  exact ⟨o'', h1, fun r hr => h2 r fun i => hk _ _ hr (hx i)⟩

theorem var_affine (a b : K) (x : List (List K)) (hx : x.flatten ≠ []) : var (x.map fun r => r.map fun v => a * v + b) = a ^ 2 * var x := by
  have hn : (x.flatten.length : K) ≠ 0 := by exact_mod_cast (List.length_pos_of_ne_nil hx).ne'
  unfold var
  dsimp only
  have hf : (x.map fun r => r.map fun v => a * v + b).flatten = x.flatten.map fun v => a * v + b := by rw [List.map_flatten]
  rw [hf]
  generalize x.flatten = l at hn ⊢
  have hsum : (l.map fun v => a * v + b).sum = a * l.sum + l.length * b := by
    clear hn
    induction l with
    | nil => simp
    | cons r l ih => simp only [List.map_cons, List.sum_cons, ih, List.length_cons]; push_cast; ring
  rw [List.length_map, hsum, List.map_map]
  have hm : (a * l.sum + l.length * b) / (l.length : K) = a * (l.sum / l.length) + b := by field_simp
  rw [hm]
  have key : ∀ (m : K) (l : List K), (l.map ((fun v => (v - (a * m + b)) ^ 2) ∘ fun v => a * v + b)).sum = a ^ 2 * (l.map fun v => (v - m) ^ 2).sum := by
    intro m l
    induction l with
    | nil => simp
    | cons v l ih => simp only [List.map_cons, List.sum_cons, ih, Function.comp_apply]; ring
  rw [key, mul_div_assoc]

theorem sum_scale (a b : ℝ) (u v : List ℝ) :
    (List.zipWith (fun p q => (q - p) ^ 2) (u.map fun v => a * v + b) (v.map fun v => a * v + b)).sum = a ^ 2 * (List.zipWith (fun p q : ℝ => (q - p) ^ 2) u v).sum := by
  induction u generalizing v with
  | nil => simp
  | cons p u ih =>
    cases v with
    | nil => simp
    | cons q v => simp only [List.map_cons, List.zipWith_cons_cons, List.sum_cons, ih]; ring

/-- **C183.** With the RBF kernel and `gamma='scale'`, measuring all features in another unit and from another origin (`v ↦ a * v + b`, `a ≠ 0`) changes no prediction. -/
theorem C183_units (make : N → ℝ → List ℝ → List ℝ → ℝ) (perms : Nat → List (Fin n)) (o o' : Obj ℝ N) (s : N) (hs : o.kernel = .name s)
    (hm : ∀ g, make s g = rbfList g) (hg : o.gamma = .scale) (x : Fin n → List ℝ) (y : Fin n → ℝ) (d : Nat)
    (a b : ℝ) (ha : a ≠ 0) (epochs : Int) (h : Fit make perms o x y d epochs o') :
    ∃ o'', Fit make perms o (fun i => (x i).map fun v => a * v + b) y d epochs o'' ∧
      ∀ r : List ℝ, o''.predict [r.map fun v => a * v + b] = o'.predict [r] := by
  obtain ⟨g, hg1⟩ : ∃ g, o.gamma.value (List.ofFn x) d = some g := by obtain ⟨g, _, h1, _⟩ := h; exact ⟨g, h1⟩
  have hg1' := hg1
  rw [hg] at hg1'
  simp only [Gamma.value] at hg1'
  have hv0 : (d : ℝ) * var (List.ofFn x) ≠ 0 := by
    intro h0; rw [if_pos h0] at hg1'; simp at hg1'
  rw [if_neg hv0, Option.some.injEq] at hg1'
  have hne : (List.ofFn x).flatten ≠ [] := by
    intro he
    apply hv0
    unfold var
    rw [he]
    simp
  have hvar : var (List.ofFn fun i => (x i).map fun v => a * v + b) = a ^ 2 * var (List.ofFn x) := by
    have : (List.ofFn fun i => (x i).map fun v => a * v + b) = (List.ofFn x).map fun r => r.map fun v => a * v + b := by
      rw [List.map_ofFn]; rfl
    rw [this, var_affine a b _ hne]
  have ha2 : a ^ 2 ≠ 0 := pow_ne_zero 2 ha
  have hg2 : o.gamma.value (List.ofFn fun i => (x i).map fun v => a * v + b) d = some (g / a ^ 2) := by
    rw [hg]
    simp only [Gamma.value, hvar]
    rw [if_neg (by rw [mul_left_comm]; exact mul_ne_zero ha2 hv0), ← hg1']
    congr 1
    have h1 := left_ne_zero_of_mul hv0
    have h2 := right_ne_zero_of_mul hv0
    field_simp
  have hk : ∀ u v : List ℝ, getKernel make (g / a ^ 2) o.kernel (u.map fun v => a * v + b) (v.map fun v => a * v + b) = getKernel make g o.kernel u v := by
    intro u v
    rw [hs]
    simp only [getKernel, hm, rbfList]
    rw [sum_scale]
    congr 1
    field_simp
  obtain ⟨o'', h1, h2⟩ := fit_transport make perms o o' x y d epochs (fun r => r.map fun v => a * v + b) g (g / a ^ 2) hg1 hg2 (fun i j => hk _ _) h
  exact ⟨o'', h1, fun r => h2 r fun i => hk _ _⟩

/-- With `gamma='scale'` the offsets must be the same for all features: gamma is computed from the variance of *all* entries of `x`, so moving the origin of one
feature alone changes the kernel. -/
theorem C183_one_origin : (Gamma.scale : Gamma ℚ).value [[0, 0], [1, 1]] 2 = some 2 ∧ (Gamma.scale : Gamma ℚ).value [[0, 10], [1, 11]] 2 = some (2 / 101) := by
  decide +kernel

end CML.SVC
