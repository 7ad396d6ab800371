import Verif.Spec.TraceSVC
import Verif.Props.SVC

set_option linter.unusedSectionVars false

/-! # Properties C296 and C297: histories of calls of a support vector classifier -/

namespace CML.SVC
open SMO

variable {K N : Type} [Field K] [LinearOrder K] [IsStrictOrderedRing K] {known : N → Bool} {make : N → K → List K → List K → K}

theorem runs_append {o o2 : Obj K N} {h h' : List (Call K N × Option PyErr)} :
    Runs known make o (h ++ h') o2 ↔ ∃ o1, Runs known make o h o1 ∧ Runs known make o1 h' o2 := by
  induction h generalizing o with
  | nil => exact ⟨fun hr => ⟨o, .nil o, hr⟩, fun ⟨o1, h1, h2⟩ => by cases h1; exact h2⟩
  | cons p h ih =>
    constructor
    · intro hr
      cases hr with
      | cons hs hr =>
        obtain ⟨o1, h1, h2⟩ := ih.1 hr
        exact ⟨o1, .cons hs h1, h2⟩
    · rintro ⟨o1, h1, h2⟩
      cases h1 with
      | cons hs h1 => exact .cons hs (ih.2 ⟨o1, h1, h2⟩)

theorem loadWeights_cases (o : Obj K N) (f : File K N) :
    ((o.loadWeights f).2 = some .keyError ∧ (o.loadWeights f).1.trained = o.trained ∧ (o.loadWeights f).1.loaded = o.loaded ∧
      (o.loadWeights f).1.kernel = o.kernel ∧ (o.loadWeights f).1.C = o.C ∧ (o.loadWeights f).1.gamma = o.gamma ∧ (o.loadWeights f).1.tol = o.tol) ∨
    ∃ u v a y b, f.support = some u ∧ f.supportVector = some v ∧ f.supportAlpha = some a ∧ f.supportY = some y ∧ f.b = some b ∧
      o.loadWeights f = ({ o with supportVector := v, supportAlpha := a, supportY := y, b := b, loaded := true }, none) := by
  obtain ⟨C, g, s, t, u, v, a, y, b⟩ := f
  unfold Obj.loadWeights
  cases u with
  | none => exact .inl ⟨rfl, rfl, rfl, rfl, rfl, rfl, rfl⟩
  | some u =>
    cases v with
    | none => exact .inl ⟨rfl, rfl, rfl, rfl, rfl, rfl, rfl⟩
    | some v =>
      cases a with
      | none => exact .inl ⟨rfl, rfl, rfl, rfl, rfl, rfl, rfl⟩
      | some a =>
        cases y with
        | none => exact .inl ⟨rfl, rfl, rfl, rfl, rfl, rfl, rfl⟩
        | some y =>
          cases b with
          | none => exact .inl ⟨rfl, rfl, rfl, rfl, rfl, rfl, rfl⟩
          | some b => exact .inr ⟨u, v, a, y, b, rfl, rfl, rfl, rfl, rfl, rfl⟩

/-- A load either completes and then replaces everything that predictions and trainings depend on, or leaves the marks. -/
theorem load_cases (o : Obj K N) (f : File K N) :
    ((o.load known make f).2 ≠ none ∧ (o.load known make f).1.trained = o.trained ∧ (o.load known make f).1.loaded = o.loaded ∧
      (∀ k, o.kernel = .inst k → ∃ k', (o.load known make f).1.kernel = .inst k')) ∨
    ∃ C g s t v a y b, f.C = some C ∧ f.gamma = some g ∧ f.kernel = some s ∧ known s = true ∧ f.tol = some t ∧ f.supportVector = some v ∧
      f.supportAlpha = some a ∧ f.supportY = some y ∧ f.b = some b ∧
      o.load known make f = (⟨v, a, y, b, C, .inst (make s g), .num g, t, o.trained, true⟩, none) := by
  obtain ⟨C, g, s, t, u, v, a, y, b⟩ := f
  unfold Obj.load
  cases C with
  | none => exact .inl ⟨by simp, rfl, rfl, fun k hk => ⟨k, hk⟩⟩
  | some C =>
    cases g with
    | none => exact .inl ⟨by simp, rfl, rfl, fun k hk => ⟨k, hk⟩⟩
    | some g =>
      cases s with
      | none => exact .inl ⟨by simp, rfl, rfl, fun k hk => ⟨k, hk⟩⟩
      | some s =>
        dsimp only
        by_cases hk : known s = false
        · rw [if_pos hk]; exact .inl ⟨by simp, rfl, rfl, fun k hk => ⟨k, hk⟩⟩
        · rw [if_neg hk]
          cases t with
          | none => exact .inl ⟨by simp, rfl, rfl, fun k _ => ⟨_, rfl⟩⟩
          | some t =>
            dsimp only
            rcases loadWeights_cases (Obj.mk o.supportVector o.supportAlpha o.supportY o.b C (.inst (make s g)) (.num g) t o.trained o.loaded)
              ⟨some C, some g, some s, some t, u, v, a, y, b⟩ with ⟨h1, h2, h3, h4, -⟩ | ⟨u', v', a', y', b', hu, hv, ha, hy, hb, h⟩
            · exact .inl ⟨by rw [h1]; simp, h2, h3, fun k _ => ⟨_, h4⟩⟩
            · exact .inr ⟨C, g, s, t, v', a', y', b', rfl, rfl, rfl, by simpa using hk, rfl, hv, ha, hy, hb, h⟩

/-- What a completed load leaves does not depend on the instance, except for the mark of a training. -/
theorem load_again (o o2 : Obj K N) (f : File K N) (h : (o.load known make f).2 = none) :
    o2.load known make f = ({ (o.load known make f).1 with trained := o2.trained }, none) := by
  rcases load_cases (known := known) (make := make) o f with ⟨h1, -⟩ | ⟨C, g, s, t, v, a, y, b, h1, h2, h3, h4, h5, h6, h7, h8, h9, he⟩
  · exact absurd h h1
  · rw [he]
    obtain ⟨fC, fg, fs, ft, fu, fv, fa, fy, fb⟩ := f
    dsimp only at h1 h2 h3 h5 h6 h7 h8 h9
    subst h1 h2 h3 h5 h6 h7 h8 h9
    unfold Obj.load Obj.loadWeights at he ⊢
    dsimp only at he ⊢
    rw [if_neg (by simp [h4])] at he ⊢
    cases fu with
    | none => simp at he
    | some u => rfl

theorem load_loaded (o : Obj K N) (f : File K N) (h : (o.load known make f).2 = none) : (o.load known make f).1.loaded = true := by
  rcases load_cases (known := known) (make := make) o f with ⟨h1, -⟩ | ⟨C, g, s, t, v, a, y, b, -, -, -, -, -, -, -, -, -, he⟩
  · exact absurd h h1
  · rw [he]

/-- What one call does to the marks and to the kernel. -/
theorem step_marks {o o' : Obj K N} {c : Call K N} {e : Option PyErr} (h : Step known make o c o' e) :
    (Learned (c, e) → (o'.trained = true ∨ o'.loaded = true) ∧ ∃ k, o'.kernel = .inst k) ∧
    (¬ Learned (c, e) → o'.trained = o.trained ∧ o'.loaded = o.loaded) ∧
    ((o.trained = true ∨ o.loaded = true) → o'.trained = true ∨ o'.loaded = true) := by
  cases h with
  | compile => exact ⟨fun h => h.elim, fun _ => ⟨rfl, rfl⟩, fun h => h⟩
  | fit _ _ _ _ _ _ _ _ h =>
    obtain ⟨g, s, _, _, rfl⟩ := h
    exact ⟨fun _ => ⟨.inl rfl, _, rfl⟩, fun h => absurd trivial h, fun _ => .inl rfl⟩
  | fitData => exact ⟨fun h => h.elim, fun _ => ⟨rfl, rfl⟩, fun h => h⟩
  | fitKernel => exact ⟨fun h => h.elim, fun _ => ⟨rfl, rfl⟩, fun h => h⟩
  | fitTrain => exact ⟨fun h => h.elim, fun _ => ⟨rfl, rfl⟩, fun h => h⟩
  | badFile => exact ⟨fun h => h.elim, fun _ => ⟨rfl, rfl⟩, fun h => h⟩
  | load f =>
    rcases load_cases (known := known) (make := make) o f with ⟨h1, h2, h3, -⟩ | ⟨C, g, s, t, v, a, y, b, -, -, -, -, -, -, -, -, -, he⟩
    · refine ⟨fun hl => ?_, fun _ => ⟨h2, h3⟩, fun h => by rw [h2, h3]; exact h⟩
      generalize (o.load known make f).2 = e at *
      cases e with
      | none => exact absurd rfl h1
      | some e => exact hl.elim
    · rw [he]
      exact ⟨fun _ => ⟨.inr rfl, _, rfl⟩, fun h => absurd trivial h, fun _ => .inr rfl⟩

theorem runs_ready {o o' : Obj K N} {h : List (Call K N × Option PyErr)} (hr : Runs known make o h o') :
    (o'.trained = true ∨ o'.loaded = true) ↔ (o.trained = true ∨ o.loaded = true) ∨ ∃ p ∈ h, Learned p := by
  induction hr with
  | nil o => simp
  | @cons o o1 o2 c e h hs hr ih =>
    obtain ⟨h1, h2, h3⟩ := step_marks hs
    rw [ih]
    by_cases hl : Learned (c, e)
    · exact ⟨fun _ => .inr ⟨_, List.mem_cons_self, hl⟩, fun _ => .inl (h1 hl).1⟩
    · obtain ⟨e1, e2⟩ := h2 hl
      rw [e1, e2]
      simp [hl]

/-- C296: an instance refuses (`ValueError`) exactly until the first `fit` or `load_weights` completes. -/
theorem C296_refuses (s0 : N) (h : List (Call K N × Option PyErr)) (o : Obj K N) (hr : Runs known make (Obj.new s0) h o) (rows : List (List K)) :
    o.predict rows = .error .valueError ↔ ¬ ∃ p ∈ h, Learned p := by
  have key := runs_ready hr
  simp only [Obj.new, Bool.false_eq_true, or_self, false_or] at key
  rw [← key]
  unfold Obj.predict
  constructor
  · intro hp
    split at hp
    · rename_i hf; simp [hf.1, hf.2]
    · split at hp
      · cases hp
      · split at hp <;> cases hp
  · intro hn
    rw [if_pos (by simpa using hn)]

/-- C296: right after a completed `fit` or `load_weights` every table is answered, with one label 1 or -1 per row. -/
theorem C296_answers (s0 : N) (h : List (Call K N × Option PyErr)) (c : Call K N) (hc : Learned (c, (none : Option PyErr))) (o : Obj K N)
    (hr : Runs known make (Obj.new s0) (h ++ [(c, none)]) o) (rows : List (List K)) :
    ∃ a, o.predict rows = .ok a ∧ a.length = rows.length ∧ ∀ l ∈ a, l = 1 ∨ l = -1 := by
  obtain ⟨o1, -, h2⟩ := runs_append.1 hr
  cases h2 with
  | cons hs h2 =>
    cases h2
    obtain ⟨h1, k, hk⟩ := (step_marks hs).1 hc
    refine ⟨_, ?_, List.length_map (fun r => if decisionValue k o r < 0 then (-1 : Int) else 1), ?_⟩
    · unfold Obj.predict
      rw [if_neg (by rcases h1 with h | h <;> simp [h]), hk]
    · intro l hl
      obtain ⟨r, -, rfl⟩ := List.mem_map.1 hl
      split
      · exact .inr rfl
      · exact .inl rfl

/-- C296: after `compile` and a `fit` that completes, the instance answers every table like a new instance that was compiled and trained so, whatever had been
called on it, completed or not. -/
theorem C296_as_new (s0 : N) (h : List (Call K N × Option PyErr)) (o : Obj K N) (C tol : K) (kernel : KernelAttr K N) (gamma : Gamma K) (n : Nat)
    (perms : Nat → List (Fin n)) (x : Fin n → List K) (y : Fin n → K) (d : Nat) (epochs : Int)
    (hr : Runs known make (Obj.new s0) (h ++ [(.compile C kernel gamma tol, none), (.fit n perms x y d epochs, none)]) o) :
    ∃ o', Runs known make (Obj.new s0) [(.compile C kernel gamma tol, none), (.fit n perms x y d epochs, none)] o' ∧ Alike o' o := by
  obtain ⟨o1, -, h2⟩ := runs_append.1 hr
  cases h2 with
  | cons hs h2 =>
    cases hs
    cases h2 with
    | cons hs h2 =>
      cases h2
      cases hs with
      | fit _ _ _ _ _ _ _ hk hf =>
        obtain ⟨g, s, hg, hs, rfl⟩ := hf
        refine ⟨_, .cons (.compile _ C kernel gamma tol) (.cons (.fit _ _ n perms x y d epochs hk ⟨g, s, hg, hs, rfl⟩) (.nil _)), fun rows => ?_⟩
        rfl

/-- C296: after a `load_weights` that completes, the instance answers every table like a new instance that loaded the file, whatever had been called on it. -/
theorem C296_load (s0 : N) (h : List (Call K N × Option PyErr)) (o : Obj K N) (f : File K N)
    (hr : Runs known make (Obj.new s0) (h ++ [(.load f, none)]) o) :
    ∃ o', Runs known make (Obj.new s0) [(.load f, none)] o' ∧ Alike o' o := by
  obtain ⟨o1, -, h2⟩ := runs_append.1 hr
  cases h2 with
  | cons hs h2 =>
    cases h2
    generalize he : (none : Option PyErr) = e at hs
    cases hs with
    | load =>
      have e2 := load_again (known := known) (make := make) o1 (Obj.new s0) f he.symm
      refine ⟨{ (o1.load known make f).1 with trained := false }, .cons ?_ (.nil _), fun rows => ?_⟩
      · have := Step.load (known := known) (make := make) (Obj.new s0 : Obj K N) f
        rw [e2] at this
        rw [← he]
        exact this
      · have hl := load_loaded (known := known) (make := make) o1 f he.symm
        generalize (o1.load known make f).1 = o at hl
        obtain ⟨v, a, y, b, C, k, g, t, tr, l⟩ := o
        dsimp only at hl
        subst hl
        simp only [Obj.predict, Bool.true_eq_false, and_false, if_false]
        rfl

/-! ## C297: which parameters a training uses -/

theorem fits_keep {o o' : Obj K N} {h : List (Call K N × Option PyErr)} (hf : OnlyFits h) (hr : Runs known make o h o') : o'.C = o.C ∧ o'.tol = o.tol := by
  induction hr with
  | nil o => exact ⟨rfl, rfl⟩
  | @cons o o1 o2 c e h hs hr ih =>
    obtain ⟨h1, h2⟩ := ih fun p hp => hf p (List.mem_cons_of_mem _ hp)
    obtain ⟨n, perms, x, y, d, epochs, hc⟩ := hf (c, e) List.mem_cons_self
    dsimp only at hc
    subst hc
    rw [h1, h2]
    cases hs with
    | fit _ _ _ _ _ _ _ _ h => obtain ⟨g, s, -, -, rfl⟩ := h; exact ⟨rfl, rfl⟩
    | fitData => exact ⟨rfl, rfl⟩
    | fitKernel => exact ⟨rfl, rfl⟩
    | fitTrain => exact ⟨rfl, rfl⟩

/-- C297, the part that holds: after `compile` and any number of trainings (completed or not) without `load_weights`, a completed training keeps the multipliers
within the compiled `C`; and the first training after `compile` uses the compiled kernel. -/
theorem C297_compiled_partial (s0 : N) (h h' : List (Call K N × Option PyErr)) (hf : OnlyFits h') (o : Obj K N) (C tol : K) (hC : 0 ≤ C)
    (kernel : KernelAttr K N) (gamma : Gamma K) (n : Nat) (perms : Nat → List (Fin n)) (x : Fin n → List K) (y : Fin n → K) (hy : ∀ i, y i = 1 ∨ y i = -1)
    (d : Nat) (epochs : Int)
    (hr : Runs known make (Obj.new s0) (h ++ (.compile C kernel gamma tol, none) :: (h' ++ [(.fit n perms x y d epochs, none)])) o) :
    o.C = C ∧ o.tol = tol ∧ (∀ a ∈ o.supportAlpha, 0 < a ∧ a ≤ C) ∧
    (h' = [] → ∃ g, gamma.value (List.ofFn x) d = some g ∧ o.kernel = .inst (getKernel make g kernel)) := by
  obtain ⟨o1, -, h2⟩ := runs_append.1 hr
  cases h2 with
  | cons hs h2 =>
    cases hs
    obtain ⟨o3, h3, h4⟩ := runs_append.1 h2
    obtain ⟨e1, e2⟩ := fits_keep hf h3
    cases h4 with
    | cons hs h4 =>
      cases h4
      cases hs with
      | fit _ _ _ _ _ _ _ _ h =>
        obtain ⟨g, s, hg, hs, rfl⟩ := h
        have e1' : o3.C = C := e1
        refine ⟨e1', e2, fun a ha => ?_, fun hn => ?_⟩
        · have := (SMO.C07_support_exact (problem (getKernel make g o3.kernel) o3.C o3.tol x y) ⟨hy, by rw [show (problem (getKernel make g o3.kernel) o3.C o3.tol x y).C = C from e1']; exact hC⟩
            perms epochs s hs).2.2.2.2.1 a ha
          rwa [show (problem (getKernel make g o3.kernel) o3.C o3.tol x y).C = C from e1'] at this
        · subst hn
          cases h3
          exact ⟨g, hg, rfl⟩

/-- C297 fails: a training after `load_weights` uses the file's parameters, not the compiled ones: it gives what a new instance compiled with the parameters
of the file would give, for every `compile` before it. -/
theorem C297_file_parameters (s0 : N) (h : List (Call K N × Option PyErr)) (o : Obj K N) (f : File K N) (n : Nat)
    (perms : Nat → List (Fin n)) (x : Fin n → List K) (y : Fin n → K) (d : Nat) (epochs : Int)
    (hr : Runs known make (Obj.new s0) (h ++ [(.load f, none), (.fit n perms x y d epochs, none)]) o) :
    ∃ C g s t o', f.C = some C ∧ f.gamma = some g ∧ f.kernel = some s ∧ f.tol = some t ∧
      Runs known make (Obj.new s0) [(.compile C (.name s) (.num g) t, none), (.fit n perms x y d epochs, none)] o' ∧ Alike o' o := by
  obtain ⟨o1, -, h2⟩ := runs_append.1 hr
  cases h2 with
  | cons hs h2 =>
    generalize he : (none : Option PyErr) = e at hs
    cases hs with
    | load =>
      rcases load_cases (known := known) (make := make) o1 f with ⟨h1, -⟩ | ⟨C, g, s, t, v, a, y', b, hC, hg, hs, hkn, ht, -, -, -, -, hl⟩
      · exact absurd he.symm h1
      · rw [hl] at h2
        cases h2 with
        | cons hs2 h2 =>
          cases h2
          cases hs2 with
          | fit _ _ _ _ _ _ _ hk hf =>
            obtain ⟨g', st, hg', hst, rfl⟩ := hf
            simp only [Gamma.value] at hg'
            injection hg' with hg'
            subst hg'
            have hfit : ∃ o', Fit make perms ((Obj.new s0 : Obj K N).compile C (.name s) (.num g) t) x y d epochs o' ∧
                Alike o' { (⟨v, a, y', b, C, .inst (make s g), .num g, t, o1.trained, true⟩ : Obj K N) with
                  gamma := .num g
                  kernel := .inst (make s g)
                  supportVector := (extract (problem (make s g) C t x y) st).support.map x
                  supportAlpha := (extract (problem (make s g) C t x y) st).supportAlpha
                  supportY := (extract (problem (make s g) C t x y) st).supportY
                  b := (extract (problem (make s g) C t x y) st).b
                  trained := true } := ⟨_, ⟨g, st, rfl, hst, rfl⟩, fun rows => rfl⟩
            obtain ⟨o', h1, h2⟩ := hfit
            rw [← he]
            refine ⟨C, g, s, t, o', hC, hg, hs, ht, .cons (.compile _ C (.name s) (.num g) t)
              (.cons (.fit _ _ n perms x y d epochs (fun s' hs' => ?_) h1) (.nil _)), h2⟩
            have : KernelAttr.name s = (KernelAttr.name s' : KernelAttr K N) := hs'
            injection this with this
            rw [← this]; exact hkn

/-- The kernels used in the example: `true` is the linear one, `false` the polynomial one of degree 3. -/
def twoKernels (s : Bool) (g : ℚ) (a b : List ℚ) : ℚ := if s then (List.zipWith (· * ·) a b).sum else g * (List.zipWith (· * ·) a b).sum ^ 3

/-- A complete weights file, with a polynomial kernel of coefficient 0. -/
def flatFile : File ℚ Bool :=
  { C := some 1, gamma := some 0, kernel := some false, tol := some (1 / 1000), support := some [], supportVector := some [], supportAlpha := some [], supportY := some [],
    b := some 0 }

/-- C297 fails: compiled with the linear kernel, then a file is loaded, then trained on two samples: the answers differ from those of the same calls without the load,
and the training samples are no longer answered by their labels. -/
theorem C297_violated : ∃ o o' : Obj ℚ Bool,
    Runs (fun _ => true) twoKernels (Obj.new true) [(.compile 1 (.name true) .auto (1 / 1000), none), (.load flatFile, none),
      (.fit 2 (fun _ => [0, 1]) ![[1], [-1]] ![1, -1] 1 10, none)] o ∧
    Runs (fun _ => true) twoKernels (Obj.new true) [(.compile 1 (.name true) .auto (1 / 1000), none), (.fit 2 (fun _ => [0, 1]) ![[1], [-1]] ![1, -1] 1 10, none)] o' ∧
    o.predict [[1], [-1]] = .ok [1, 1] ∧ o'.predict [[1], [-1]] = .ok [1, -1] := by
  refine ⟨_, _, .cons (.compile _ _ _ _ _) (.cons (.load _ flatFile) (.cons (.fit _ _ 2 _ _ _ 1 10 (fun _ _ => rfl) ⟨0, _, by decide +kernel, rfl, rfl⟩) (.nil _))),
    .cons (.compile _ _ _ _ _) (.cons (.fit _ _ 2 _ _ _ 1 10 (fun _ _ => rfl) ⟨1, _, by decide +kernel, rfl, rfl⟩) (.nil _)), ?_, ?_⟩
  · decide +kernel
  · decide +kernel

/-- A history with a failed load, a failed and a completed training: the hypotheses of C296 are met. -/
example : ∃ o : Obj ℚ Bool, Runs (fun _ => true) twoKernels (Obj.new true)
    ([(.badFile .ioError, some .ioError), (.compile 2 (.name false) .auto (1 / 1000), none), (.fit 2 (fun _ => [0, 1]) ![[1], [2]] ![1, -1] 1 10, some .valueError)] ++
      [(.compile 1 (.name true) .auto (1 / 1000), none), (.fit 2 (fun _ => [0, 1]) ![[1], [-1]] ![1, -1] 1 10, none)]) o ∧ o.predict [[1], [-1]] = .ok [1, -1] := by
  refine ⟨_, .cons (.badFile _ _) (.cons (.compile _ _ _ _ _) (.cons (.fitTrain _ 2 _ _ _ 1 10 1 .valueError (by decide +kernel) fun _ _ => rfl)
    (.cons (.compile _ _ _ _ _) (.cons (.fit _ _ 2 _ _ _ 1 10 (fun _ _ => rfl) ⟨1, _, by decide +kernel, rfl, rfl⟩) (.nil _))))), ?_⟩
  decide +kernel

end CML.SVC
