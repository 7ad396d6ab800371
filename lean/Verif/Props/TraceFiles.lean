import Verif.Spec.TraceFiles
import Verif.Props.TraceSpode
import Verif.Props.TraceTree
import Verif.Props.TraceNet
import Verif.Props.TraceNB
import Verif.Props.TraceSVC

set_option linter.unusedSectionVars false
set_option linter.unusedSimpArgs false

/-!
# Properties C330, C331: incomplete weights files and misuse, after any history

The `load_weights` methods of all models read the attributes of the file in a fixed order and assign them one after the other. The theorems speak of every state of the instance, hence
of the state after every history.
-/

namespace CML.Failed
open Bayes

/-! ## C330: incomplete files -/

section lda
variable {K : Type} [Field K] [LinearOrder K]

/-- **C330** (LinearDiscriminantAnalysis). `load_weights` completes exactly if the file has all attributes and raises `KeyError` otherwise; it has then replaced exactly the attributes that
come before the first missing one. -/
theorem C330_lda (o : LDAObj K) (w m0 m1 : Option (RowVec K)) :
    (o.load w m0 m1).2 = (if w.isSome ∧ m0.isSome ∧ m1.isSome then none else some .keyError) ∧
    (o.load w m0 m1).1.w = readAfter True w o.w ∧ (o.load w m0 m1).1.mu0 = readAfter w.isSome m0 o.mu0 ∧ (o.load w m0 m1).1.mu1 = readAfter (w.isSome ∧ m0.isSome) m1 o.mu1 ∧
    ((o.load w m0 m1).1.loaded = true ↔ o.loaded = true ∨ (w.isSome ∧ m0.isSome ∧ m1.isSome)) := by
  rcases w with _ | w <;> rcases m0 with _ | m0 <;> rcases m1 with _ | m1 <;> simp [LDAObj.load, readAfter]

/-- **C330** (KMeans). -/
theorem C330_kmeans {d : Nat} (o : KMObj K d) (c : Option (List (Option (Fin d → K)))) (l : Option (List Nat)) :
    (o.load c l).2 = (if c.isSome ∧ l.isSome then none else some .keyError) ∧
    (o.load c l).1.centroids = readAfter True c o.centroids ∧ (o.load c l).1.clusters = readAfter c.isSome l o.clusters ∧
    ((o.load c l).1.loaded = true ↔ o.loaded = true ∨ (c.isSome ∧ l.isSome)) := by
  rcases c with _ | c <;> rcases l with _ | l <;> simp [KMObj.load, readAfter]

end lda

/-- **C330** (GaussianMixture). -/
theorem C330_mixture {I M S A X C : Type} (ops : GMOps I M S A X C) (o : GMState I M S A C) (i : I) (m : Option M) (s : Option S) (a : Option A) (c : Option C) :
    (o.step ops (.load i m s a c)).2 = (if m.isSome ∧ s.isSome ∧ a.isSome ∧ c.isSome then none else some .keyError) ∧
    (o.step ops (.load i m s a c)).1.settings = some i ∧ (o.step ops (.load i m s a c)).1.mu = readAfter True m o.mu ∧
    (o.step ops (.load i m s a c)).1.sigma = readAfter m.isSome s o.sigma ∧ (o.step ops (.load i m s a c)).1.alpha = readAfter (m.isSome ∧ s.isSome) a o.alpha ∧
    (o.step ops (.load i m s a c)).1.clusters = readAfter (m.isSome ∧ s.isSome ∧ a.isSome) c o.clusters ∧
    ((o.step ops (.load i m s a c)).1.loaded = true ↔ o.loaded = true ∨ (m.isSome ∧ s.isSome ∧ a.isSome ∧ c.isSome)) ∧
    (o.step ops (.load i m s a c)).1.trained = o.trained ∧
    (o.step ops (.halfCompile i)).2 = some .keyError ∧ (o.step ops (.halfCompile i)).1 = { o with settings := some i } := by
  rcases m with _ | m <;> rcases s with _ | s <;> rcases a with _ | a <;> rcases c with _ | c <;> simp [GMState.step, GMState.load, readAfter]

/-- **C330** (RadialBasisFunctionNetwork). -/
theorem C330_rbf {R D P L : Type} (init : Nat → R → P) (train : L → D → P → P × Option PyErr) (o : RBState P L) (h : Option Nat) (lr : Option L) :
    (o.step init train (.incomplete h lr)).2 = some .keyError ∧
    (o.step init train (.incomplete h lr)).1.hidden = readAfter True h o.hidden ∧ (o.step init train (.incomplete h lr)).1.opt = readAfter h.isSome lr o.opt ∧
    (o.step init train (.incomplete h lr)).1.params = o.params ∧ (o.step init train (.incomplete h lr)).1.trained = o.trained ∧
    (o.step init train (.incomplete h lr)).1.loaded = o.loaded := by
  rcases h with _ | h <;> rcases lr with _ | lr <;> simp [RBState.step, readAfter]

/-- **C330** (BackPropagationNeuralNetwork): the parameters and both marks are untouched by an incomplete file. -/
theorem C330_network (lr₀ : ℝ) (o : NetObj) (l : Option (List Nat)) (b : Bool) :
    (o.step lr₀ (.incomplete l b)).2 = some .keyError ∧ (o.step lr₀ (.incomplete l b)).1.parameters = o.parameters ∧
    (o.step lr₀ (.incomplete l b)).1.layers = (match l with | some l => .array l | none => o.layers) ∧
    (o.step lr₀ (.incomplete l b)).1.lr = readAfter l.isSome (if b then some lr₀ else none) o.lr ∧
    (o.step lr₀ (.incomplete l b)).1.trained = o.trained ∧ (o.step lr₀ (.incomplete l b)).1.loaded = o.loaded := by
  rcases l with _ | l <;> cases b <;> simp [NetObj.step, readAfter]

/-- **C330** (NaiveBayesClassifier). The stored information on class 1 is read last and is untouched. -/
theorem C330_nb {V : Type} [DecidableEq V] (order : List V → List V) (names : List String) (o : NBState V) (s : Option Bool) (p : Option (ℝ × ℝ)) (d : Option (Dict String (Stored V))) :
    (o.step order names (.incomplete s p d)).2 = some .keyError ∧
    some (o.step order names (.incomplete s p d)).1.smoothing = readAfter True s (some o.smoothing) ∧
    (o.step order names (.incomplete s p d)).1.obj.prior = readAfter s.isSome p o.obj.prior ∧
    some (o.step order names (.incomplete s p d)).1.obj.pi0 = readAfter (s.isSome ∧ p.isSome) d (some o.obj.pi0) ∧
    (o.step order names (.incomplete s p d)).1.obj.pi1 = o.obj.pi1 ∧ (o.step order names (.incomplete s p d)).1.obj.trained = o.obj.trained ∧
    (o.step order names (.incomplete s p d)).1.obj.loaded = o.obj.loaded := by
  rcases s with _ | s <;> rcases p with _ | p <;> rcases d with _ | d <;> simp [NBState.step, NBState.incomplete, readAfter]

/-- **C330** (SuperParentOneDependentEstimator). -/
theorem C330_spode {V : Type} [DecidableEq V] (emb : List ℝ → List V) (names : List String) (o : SPState V) (n : Option String) (s : Option Bool) (es : Option (List (Flagged V))) :
    (o.step emb names (.load n s es)).2 = (if n.isSome ∧ s.isSome ∧ es.isSome then none else some .keyError) ∧
    (o.step emb names (.load n s es)).1.superName = readAfter True n o.superName ∧
    some (o.step emb names (.load n s es)).1.smoothing = readAfter n.isSome s (some o.smoothing) ∧
    some (o.step emb names (.load n s es)).1.entries = readAfter (n.isSome ∧ s.isSome) es (some o.entries) ∧
    ((o.step emb names (.load n s es)).1.loaded = true ↔ o.loaded = true ∨ (n.isSome ∧ s.isSome ∧ es.isSome)) ∧ (o.step emb names (.load n s es)).1.trained = o.trained := by
  rcases n with _ | n <;> rcases s with _ | s <;> rcases es with _ | es <;> simp [SPState.step, SPState.load, readAfter]

/-- **C330** (AveragedOneDependentEstimator). -/
theorem C330_aode {V : Type} [DecidableEq V] (names : List String) (o : AOState V) (s : Option Bool) (m : Option Nat) (a : Option (List (List (Flagged V)))) :
    (o.step names (.load s m a)).2 = (if s.isSome ∧ m.isSome ∧ a.isSome then none else some .keyError) ∧
    some (o.step names (.load s m a)).1.smoothing = readAfter True s (some o.smoothing) ∧ some (o.step names (.load s m a)).1.m = readAfter s.isSome m (some o.m) ∧
    some (o.step names (.load s m a)).1.attr = readAfter (s.isSome ∧ m.isSome) a (some o.attr) ∧
    ((o.step names (.load s m a)).1.loaded = true ↔ o.loaded = true ∨ (s.isSome ∧ m.isSome ∧ a.isSome)) ∧ (o.step names (.load s m a)).1.trained = o.trained ∧
    (o.step names (.load s m a)).1.pool = o.pool := by
  rcases s with _ | s <;> rcases m with _ | m <;> rcases a with _ | a <;> simp [AOState.step, AOState.load, readAfter]

/-- **C330** (DecisionTreeClassifier). An instance without pruner wants the criterion and the tree; one with a pruner wants the pruning, too. The tree is replaced only if the load completes. -/
theorem C330_tree {D T : Type} (gen : String → D → Except PyErr T) (prune : Pruning → D → D → T → T × Option PyErr) (o : TreeState T) (c p : Option String) (t : Option T)
    (hp : ∀ q, p = some q → q = "pre" ∨ q = "post") :
    (o.step gen prune (.load c p t)).2 = (if c.isSome ∧ (o.pruner.isSome → p.isSome) ∧ t.isSome then none else some .keyError) ∧
    (o.step gen prune (.load c p t)).1.criterion = readAfter True c o.criterion ∧
    (o.step gen prune (.load c p t)).1.tree = readAfter (c.isSome ∧ (o.pruner.isSome → p.isSome)) t o.tree ∧
    ((o.step gen prune (.load c p t)).1.loaded = true ↔ o.loaded = true ∨ (c.isSome ∧ (o.pruner.isSome → p.isSome) ∧ t.isSome)) ∧
    (o.step gen prune (.load c p t)).1.trained = o.trained ∧ (o.step gen prune (.load c p t)).1.generator = o.generator ∧
    ((o.step gen prune (.load c p t)).1.pruner = if c.isSome ∧ o.pruner.isSome ∧ p.isSome then (if p = some "pre" then some .pre else some .post) else o.pruner) := by
  obtain ⟨tree, crit, g, pr, tr, ld⟩ := o
  rcases c with _ | c
  · simp [TreeState.step, TreeState.load, readAfter]
  · rcases pr with _ | pr
    · rcases t with _ | t <;> simp [TreeState.step, TreeState.load, readAfter]
    · rcases p with _ | p
      · simp [TreeState.step, TreeState.load, readAfter]
      · rcases hp p rfl with rfl | rfl <;> rcases t with _ | t <;> simp [TreeState.step, TreeState.load, readAfter, getPrunerName]

/-- **C330** (DecisionTreeClassifier, a file with an unknown pruning, read by an instance with a pruner): `AttributeError`; only the criterion was replaced. -/
theorem C330_tree_unknown {D T : Type} (gen : String → D → Except PyErr T) (prune : Pruning → D → D → T → T × Option PyErr) (o : TreeState T) (c q : String) (t : Option T)
    (ho : o.pruner.isSome) (h1 : q ≠ "pre") (h2 : q ≠ "post") :
    (o.step gen prune (.load (some c) (some q) t)) = ({ o with criterion := some c }, some .attributeError) := by
  obtain ⟨tree, crit, g, pr, tr, ld⟩ := o
  rcases pr with _ | pr
  · simp at ho
  · have : getPrunerName q = .error .attributeError := by
      unfold getPrunerName
      split
      · exact absurd rfl h2
      · exact absurd rfl h1
      · rfl
    simp only [TreeState.step, TreeState.load, this]

end CML.Failed

namespace CML.SVC
open CML.Failed (readAfter)

variable {K N : Type} [Field K] [LinearOrder K]

/-- **C330** (SVC, a file with a known kernel or none). -/
theorem C330_svc (known : N → Bool) (make : N → K → List K → List K → K) (o : Obj K N) (f : File K N) (hk : ∀ s, f.kernel = some s → known s = true) :
    (o.load known make f).2 = (if f.C.isSome ∧ f.gamma.isSome ∧ f.kernel.isSome ∧ f.tol.isSome ∧ f.support.isSome ∧ f.supportVector.isSome ∧ f.supportAlpha.isSome ∧ f.supportY.isSome ∧ f.b.isSome
      then none else some .keyError) ∧
    some (o.load known make f).1.C = readAfter True f.C (some o.C) ∧
    (o.load known make f).1.gamma = (match f.C, f.gamma with | some _, some g => .num g | _, _ => o.gamma) ∧
    (o.load known make f).1.kernel = (match f.C, f.gamma, f.kernel with | some _, some g, some s => .inst (make s g) | _, _, _ => o.kernel) ∧
    some (o.load known make f).1.tol = readAfter (f.C.isSome ∧ f.gamma.isSome ∧ f.kernel.isSome) f.tol (some o.tol) ∧
    some (o.load known make f).1.supportVector = readAfter (f.C.isSome ∧ f.gamma.isSome ∧ f.kernel.isSome ∧ f.tol.isSome ∧ f.support.isSome) f.supportVector (some o.supportVector) ∧
    some (o.load known make f).1.supportAlpha = readAfter (f.C.isSome ∧ f.gamma.isSome ∧ f.kernel.isSome ∧ f.tol.isSome ∧ f.support.isSome ∧ f.supportVector.isSome) f.supportAlpha
      (some o.supportAlpha) ∧
    some (o.load known make f).1.supportY = readAfter (f.C.isSome ∧ f.gamma.isSome ∧ f.kernel.isSome ∧ f.tol.isSome ∧ f.support.isSome ∧ f.supportVector.isSome ∧ f.supportAlpha.isSome)
      f.supportY (some o.supportY) ∧
    some (o.load known make f).1.b = readAfter (f.C.isSome ∧ f.gamma.isSome ∧ f.kernel.isSome ∧ f.tol.isSome ∧ f.support.isSome ∧ f.supportVector.isSome ∧ f.supportAlpha.isSome ∧
      f.supportY.isSome) f.b (some o.b) ∧ (o.load known make f).1.trained = o.trained := by
  obtain ⟨C, g, k, t, su, sv, sa, sy, b⟩ := f
  simp only at hk
  rcases C with _ | C
  · simp [Obj.load, readAfter]
  rcases g with _ | g
  · simp [Obj.load, readAfter]
  rcases k with _ | k
  · simp [Obj.load, readAfter]
  have hk' := hk k rfl
  rcases t with _ | t
  · simp [Obj.load, readAfter, hk']
  rcases su with _ | su
  · simp [Obj.load, Obj.loadWeights, readAfter, hk']
  rcases sv with _ | sv
  · simp [Obj.load, Obj.loadWeights, readAfter, hk']
  rcases sa with _ | sa
  · simp [Obj.load, Obj.loadWeights, readAfter, hk']
  rcases sy with _ | sy
  · simp [Obj.load, Obj.loadWeights, readAfter, hk']
  rcases b with _ | b <;> simp [Obj.load, Obj.loadWeights, readAfter, hk']

/-- **C330** (SVC, a file with an unknown kernel): `AttributeError`; the new `C` and `gamma` stay, everything else is as it was. -/
theorem C330_svc_unknown (known : N → Bool) (make : N → K → List K → List K → K) (o : Obj K N) (f : File K N) (C g : K) (s : N) (hC : f.C = some C) (hg : f.gamma = some g)
    (hs : f.kernel = some s) (hk : known s = false) : o.load known make f = ({ o with C := C, gamma := .num g }, some .attributeError) := by
  obtain ⟨C', g', k, t, su, sv, sa, sy, b⟩ := f
  simp only at hC hg hs
  subst hC hg hs
  simp [Obj.load, hk]

end CML.SVC

/-! ## C331: misuse -/

namespace CML.Failed
open Bayes

/-- **C331** (NaiveBayesClassifier, SuperParentOneDependentEstimator). A table with another number of columns than attribute names is refused with `ValueError` and changes nothing. -/
theorem C331_columns {V : Type} [DecidableEq V] (order : List V → List V) (emb : List ℝ → List V) (names : List String) (o : NBState V) (o' : SPState V) (cols : List (Col V)) (y : List Int)
    (h : cols.length ≠ names.length) :
    o.step order names (.fit cols y) = (o, some .valueError) ∧ o'.step emb names (.fit cols y) = (o', some .valueError) := by
  simp [NBState.step, SPState.step, SPState.fit, h]

/-- **C331** (one-dependent estimator). Before anything was compiled or loaded there is no super-parent: `fit` on labelled rows raises `ValueError` and the instance stays untrained. -/
theorem C331_no_super_parent {V : Type} [DecidableEq V] (emb : List ℝ → List V) (names : List String) (cols : List (Col V)) (y : List Int) (h : cols.length = names.length) (hy : y ≠ []) :
    (({} : SPState V).step emb names (.fit cols y)).2 = some .valueError ∧ (({} : SPState V).step emb names (.fit cols y)).1.trained = false := by
  have : findIndex none none names 0 = none := findIndex_not_mem none names none 0 (by simp)
  simp [SPState.step, SPState.fit, h, hy, this]

/-- **C331** (DecisionTreeClassifier). `compile` completes exactly for the three criteria and the two prunings (or none) and raises `AttributeError` without any effect otherwise; a `fit`
with a pruner and without validation set raises `AttributeError` without any effect; so does a `fit` before `compile`. -/
theorem C331_tree {D T : Type} (gen : String → D → Except PyErr T) (prune : Pruning → D → D → T → T × Option PyErr) (o : TreeState T) (c : String) (p : Option String) (d : D) (v : Option D) :
    ((o.step gen prune (.compile c p)).2 = none ↔ (c = "gain" ∨ c = "gini" ∨ c = "entropy") ∧ (p = none ∨ p = some "pre" ∨ p = some "post")) ∧
    ((o.step gen prune (.compile c p)).2 ≠ none → o.step gen prune (.compile c p) = (o, some .attributeError)) ∧
    (o.pruner.isSome → o.step gen prune (.fit d none) = (o, some .attributeError)) ∧
    (o.generator = none → o.step gen prune (.fit d v) = (o, some .attributeError)) := by
  have key : ∀ q : String, getPrunerName q = (if q = "post" then .ok .post else if q = "pre" then .ok .pre else .error .attributeError) := by
    intro q
    unfold getPrunerName
    split
    · rfl
    · rfl
    · rename_i h1 h2
      rw [if_neg h1, if_neg h2]
  refine ⟨?_, ?_, ?_, ?_⟩
  · simp only [TreeState.step, TreeState.compile]
    by_cases hc : c ∈ ["gain", "gini", "entropy"]
    · rw [if_pos hc]
      simp only [List.mem_cons, List.not_mem_nil, or_false] at hc
      rcases p with _ | q
      · simp [hc]
      · simp only [key, hc]
        by_cases h1 : q = "post"
        · simp [h1]
        · by_cases h2 : q = "pre"
          · simp [h2]
          · simp [h1, h2]
    · rw [if_neg hc]
      simp only [List.mem_cons, List.not_mem_nil, or_false] at hc
      simp [hc]
  · simp only [TreeState.step, TreeState.compile]
    by_cases hc : c ∈ ["gain", "gini", "entropy"]
    · rw [if_pos hc]
      rcases p with _ | q
      · simp
      · simp only [key]
        by_cases h1 : q = "post"
        · simp [h1]
        · by_cases h2 : q = "pre"
          · simp [h2]
          · simp [h1, h2]
    · rw [if_neg hc]
      simp
  · intro h
    simp [TreeState.step, TreeState.fit, h]
  · intro h
    simp only [TreeState.step, TreeState.fit, TreeState.grow]
    split
    · rfl
    · split
      · rename_i h1
        split at h1
        · cases h1
        · rename_i h2; rw [h] at h2; cases h2
      · rename_i h1
        split at h1
        · cases h1; rfl
        · rename_i h2; rw [h] at h2; cases h2

/-- **C331** (RadialBasisFunctionNetwork, BackPropagationNeuralNetwork). `fit` of a new instance raises `TypeError`, respectively `AttributeError`, and changes nothing. -/
theorem C331_networks {R D P L : Type} (init : Nat → R → P) (train : L → D → P → P × Option PyErr) (r : R) (d : D) (lr₀ : ℝ) (rnd : Nat → ℕ → ℕ → ℝ) (is : List Nat) (x y : Net.Mat) :
    ({} : RBState P L).step init train (.fit r d) = ({}, some .typeError) ∧ ({} : NetObj).step lr₀ (.fit rnd is x y) = ({}, some .attributeError) := by
  simp [RBState.step, RBState.fit, NetObj.step, NetObj.fit]

/-- Non-vacuity: a file without covariances replaces the means of a mixture that was trained, and raises. -/
example : ((⟨some (), some 1, some 1, some 1, some (), true, false⟩ : GMState Unit Nat Nat Nat Unit).load () (some 5) none (some 3) none).2 = some .keyError ∧
    ((⟨some (), some 1, some 1, some 1, some (), true, false⟩ : GMState Unit Nat Nat Nat Unit).load () (some 5) none (some 3) none).1.mu = some 5 := ⟨rfl, rfl⟩

end CML.Failed
