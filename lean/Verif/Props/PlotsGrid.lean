import Verif.Spec.PlotsGrid
import Verif.Props.SVC
import Mathlib.Topology.Order.IntermediateValue
import Mathlib.Topology.Algebra.Order.Field
import Mathlib.Topology.Instances.Real.Lemmas
import Mathlib.Tactic.FieldSimp
import Mathlib.Tactic.NormNum

set_option linter.unusedSectionVars false

/-! # Properties C157 (support-vector figure), C158 (ensemble figure) -/

namespace CML.PlotsGrid
open Plots

theorem linspace_get (a b : ℝ) (k : Nat) (hk : k < 300) : (linspace a b 300)[k]? = some (a + (b - a) * k / 299) := by
  simp only [linspace, List.getElem?_map, List.getElem?_range hk, Option.map_some, linspaceAt]
  congr 1
  push_cast
  ring

theorem linspace_length (a b : ℝ) (n : Nat) : (linspace a b n).length = n := by simp [linspace]

/-- A block of a flattened list of equally long lists. -/
theorem flatMap_block {α β : Type} (c : Nat) (f : α → List β) (l : List α) (hf : ∀ a ∈ l, (f a).length = c) (i : Nat) (a : α)
    (hi : l[i]? = some a) : ((l.flatMap f).drop (i * c)).take c = f a := by
  induction l generalizing i with
  | nil => simp at hi
  | cons b l ih =>
    rw [List.flatMap_cons]
    have hb : (f b).length = c := hf b (by simp)
    cases i with
    | zero =>
      simp only [List.getElem?_cons_zero, Option.some.injEq] at hi
      subst hi
      rw [Nat.zero_mul, List.drop_zero, List.take_append_of_le_length (by omega), ← hb, List.take_length]
    | succ i =>
      rw [List.getElem?_cons_succ] at hi
      rw [← ih (fun a ha => hf a (by simp [ha])) i hi, Nat.succ_mul, List.drop_append, hb, List.drop_eq_nil_of_le (by omega), List.nil_append]
      congr 2
      omega

theorem flatMap_length {α β : Type} (c : Nat) (f : α → List β) (l : List α) (hf : ∀ a ∈ l, (f a).length = c) :
    (l.flatMap f).length = l.length * c := by
  induction l with
  | nil => simp
  | cons b l ih =>
    rw [List.flatMap_cons, List.length_append, ih fun a ha => hf a (by simp [ha]), hf b (by simp), List.length_cons]
    ring

theorem rasterOn (a b c e : ℝ) (predict : List (List ℝ) → Except PyErr (List Int)) (g : List ℝ → Int) 
    (hg : predict (meshRows (linspace a b 300) (linspace c e 300)) = .ok ((meshRows (linspace a b 300) (linspace c e 300)).map g)) :
    ∃ z, gridOn a b c e predict = .ok z ∧ z.length = 300 ∧ (∀ r ∈ z, r.length = 300) ∧
      ∀ i j : Nat, i < 300 → j < 300 → ∃ r, z[i]? = some r ∧ r[j]? = some (g [a + (b - a) * j / 299, c + (e - c) * i / 299]) := by
  have eq : (meshRows (linspace a b 300) (linspace c e 300)).map g =
      (linspace c e 300).flatMap fun v => (linspace a b 300).map fun u => g [u, v] := by
    simp [meshRows, List.map_flatMap, Function.comp_def]
  have hlen : ∀ v ∈ linspace c e 300, ((linspace a b 300).map fun u => g [u, v]).length = 300 := by
    intro v _; rw [List.length_map, linspace_length]
  have hl := flatMap_length 300 (fun v => (linspace a b 300).map fun u => g [u, v]) _ hlen
  rw [linspace_length] at hl
  refine ⟨_, by simp only [gridOn]; rw [hg, eq]; simp only [reshape]; rw [if_neg (by rw [hl]; simp)], by simp, ?_, ?_⟩
  · intro r hr
    obtain ⟨i, hi, rfl⟩ := List.mem_map.1 hr
    have hi' : i < 300 := by simpa using hi
    rw [flatMap_block 300 _ _ hlen i _ (linspace_get c e i hi')]
    simp [linspace_length]
  · intro i j hi hj
    refine ⟨(linspace a b 300).map fun u => g [u, c + (e - c) * i / 299], ?_, ?_⟩
    · rw [List.getElem?_map, List.getElem?_range hi, Option.map_some, flatMap_block 300 _ _ hlen i _ (linspace_get c e i hi)]
    · rw [List.getElem?_map, linspace_get a b j hj, Option.map_some]

theorem raster (top : ℝ) (predict : List (List ℝ) → Except PyErr (List Int)) (g : List ℝ → Int) (hg : RowWise predict g) :
    ∃ z, gridHeights top predict = .ok z ∧ IsRaster top g z := by
  obtain ⟨z, h1, h2, h3, h4⟩ := rasterOn 0 1 0 top predict g (hg _)
  refine ⟨z, h1, h2, h3, fun i j hi hj => ?_⟩
  simpa only [zero_add, sub_zero, one_mul] using h4 i j hi hj

theorem boundary_iff {top : ℝ} {g : List ℝ → Int} {z : List (List Int)} (hz : IsRaster top g z) (i j i' j' : Nat) (hi : i < 300) (hj : j < 300)
    (hi' : i' < 300) (hj' : j' < 300) :
    Boundary z i j i' j' ↔ ¬(0 < g [(j : ℝ) / 299, top * i / 299] ↔ 0 < g [(j' : ℝ) / 299, top * i' / 299]) := by
  obtain ⟨r, h1, h2⟩ := hz.2.2 i j hi hj
  obtain ⟨r', h3, h4⟩ := hz.2.2 i' j' hi' hj'
  have hc : ∀ a b : Int, crosses a b = true ↔ ¬(0 < a ↔ 0 < b) := by
    intro a b
    unfold crosses
    by_cases ha : 0 < a <;> by_cases hb : 0 < b <;> simp [ha, hb]
  constructor
  · rintro ⟨s, s', a, a', e1, e2, e3, e4, e5⟩
    rw [h1] at e1; injection e1 with e1; subst e1
    rw [h2] at e2; injection e2 with e2; subst e2
    rw [h3] at e3; injection e3 with e3; subst e3
    rw [h4] at e4; injection e4 with e4; subst e4
    exact (hc _ _).1 e5
  · intro h
    exact ⟨r, r', _, _, h1, h2, h3, h4, (hc _ _).2 h⟩

theorem svc_ok {d : Nat} {trained loaded : Bool} {support : List Nat} {predict : List (List ℝ) → Except PyErr (List Int)}
    {x : List (Fin d → ℝ)} {y : List Int} {f : SVCFigure} (hf : plotSVC trained loaded support predict x y = .ok f) :
    ∃ h : 2 ≤ d, x.length = y.length ∧ marks h x support = .ok f.rings ∧ gridHeights (4 / 5) predict = .ok f.heights ∧
      f.negatives = shownWith h x y (-1) ∧ f.positives = shownWith h x y 1 := by
  unfold plotSVC at hf
  split_ifs at hf with h1 h2 h3
  split at hf
  · cases hf
  · rename_i rings hr
    split at hf
    · cases hf
    · rename_i z hz
      injection hf with hf
      subst hf
      exact ⟨h3, by simpa using h2, hr, hz, rfl, rfl⟩

/-- C157: an instance without training or weights is refused. -/
theorem C157_refused {d : Nat} (support : List Nat) (predict : List (List ℝ) → Except PyErr (List Int)) (x : List (Fin d → ℝ)) (y : List Int) :
    plotSVC false false support predict x y = .error .valueError := by simp [plotSVC]

/-- C157: the figure is drawn if there is a label for every sample, there are two features and the support vectors are samples (as they are for the
training data): … -/
theorem C157_drawn {d : Nat} {trained loaded : Bool} (ht : trained = true ∨ loaded = true) (hd : 2 ≤ d) (support : List Nat)
    (predict : List (List ℝ) → Except PyErr (List Int)) (g : List ℝ → Int) (hg : RowWise predict g) (x : List (Fin d → ℝ)) (y : List Int)
    (hl : x.length = y.length) (hs : ∀ i ∈ support, i < x.length) : ∃ f, plotSVC trained loaded support predict x y = .ok f := by
  have hne : ¬(trained = false ∧ loaded = false) := by rintro ⟨rfl, rfl⟩; simp at ht
  obtain ⟨z, hz, _⟩ := raster (4 / 5) predict g hg
  have hm : marks hd x support = .ok ((support.filterMap fun i => x[i]?).map (shown hd)) := by
    unfold marks
    rw [if_neg]
    simp only [List.any_eq_true, decide_eq_true_eq, not_exists, not_and, not_le]
    exact hs
  exact ⟨_, by simp only [plotSVC]; rw [if_neg hne, if_neg (by simp [hl]), dif_pos hd, hm, hz]⟩

/-- …the height over every node of the grid is the class predicted there, the boundary passes between two nodes exactly if they are predicted
differently, … -/
theorem C157_raster {d : Nat} {trained loaded : Bool} {support : List Nat} {predict : List (List ℝ) → Except PyErr (List Int)} {g : List ℝ → Int}
    (hg : RowWise predict g) {x : List (Fin d → ℝ)} {y : List Int} {f : SVCFigure} (hf : plotSVC trained loaded support predict x y = .ok f) :
    IsRaster (4 / 5) g f.heights ∧
    ∀ i j i' j' : Nat, i < 300 → j < 300 → i' < 300 → j' < 300 → (Boundary f.heights i j i' j' ↔
      ¬(0 < g [(j : ℝ) / 299, 4 / 5 * i / 299] ↔ 0 < g [(j' : ℝ) / 299, 4 / 5 * i' / 299])) := by
  obtain ⟨_, _, _, hz, _⟩ := svc_ok hf
  obtain ⟨z, h1, h2⟩ := raster (4 / 5) predict g hg
  rw [hz] at h1
  injection h1 with h1
  subst h1
  exact ⟨h2, fun i j i' j' hi hj hi' hj' => boundary_iff h2 i j i' j' hi hj hi' hj'⟩

/-- …so that for a classifier of a continuous decision function there is a point of the decision boundary between any two nodes between which the
line is drawn. -/
theorem C157_boundary_near {d : Nat} {N : Type} (o : SVC.Obj ℝ N) (k : List ℝ → List ℝ → ℝ) (hk : o.kernel = .inst k)
    (hcont : Continuous fun p : ℝ × ℝ => SVC.decisionValue k o [p.1, p.2]) {support : List Nat}
    {x : List (Fin d → ℝ)} {y : List Int} {f : SVCFigure} (hf : plotSVC o.trained o.loaded support o.predict x y = .ok f)
    (i j i' j' : Nat) (hi : i < 300) (hj : j < 300) (hi' : i' < 300) (hj' : j' < 300) (hb : Boundary f.heights i j i' j') :
    ∃ t : ℝ, 0 ≤ t ∧ t ≤ 1 ∧ SVC.decisionValue k o [(1 - t) * (j / 299) + t * (j' / 299), (1 - t) * (4 / 5 * i / 299) + t * (4 / 5 * i' / 299)] = 0 := by
  have hne : ¬(o.trained = false ∧ o.loaded = false) := by
    intro h
    rw [h.1, h.2, C157_refused] at hf
    cases hf
  have hg : RowWise o.predict fun r => if SVC.decisionValue k o r < 0 then -1 else 1 := by
    intro rows
    simp only [SVC.Obj.predict]
    rw [if_neg hne, hk]
  obtain ⟨_, hall⟩ := C157_raster hg hf
  have hb := (hall i j i' j' hi hj hi' hj').1 hb
  have hsgn : ∀ r, (0 : Int) < (if SVC.decisionValue k o r < 0 then -1 else 1) ↔ 0 ≤ SVC.decisionValue k o r := by
    intro r
    split_ifs with h
    · exact ⟨fun h0 => absurd h0 (by norm_num), fun h0 => absurd h (not_lt.2 h0)⟩
    · exact ⟨fun _ => not_lt.1 h, fun _ => by norm_num⟩
  rw [hsgn, hsgn] at hb
  set φ : ℝ → ℝ := fun t => SVC.decisionValue k o [(1 - t) * (j / 299) + t * (j' / 299), (1 - t) * (4 / 5 * i / 299) + t * (4 / 5 * i' / 299)] with hφ
  have hc : Continuous φ := by
    have : Continuous fun t : ℝ => ((1 - t) * ((j : ℝ) / 299) + t * (j' / 299), (1 - t) * (4 / 5 * (i : ℝ) / 299) + t * (4 / 5 * i' / 299)) := by
      fun_prop
    exact hcont.comp this
  have h0 : φ 0 = SVC.decisionValue k o [(j : ℝ) / 299, 4 / 5 * i / 299] := by simp [hφ]
  have h1 : φ 1 = SVC.decisionValue k o [(j' : ℝ) / 299, 4 / 5 * i' / 299] := by simp [hφ]
  rw [← h0, ← h1] at hb
  by_cases hp : 0 ≤ φ 0
  · have hn : φ 1 ≤ 0 := by
      by_contra hn
      exact hb ⟨fun _ => (not_le.1 hn).le, fun _ => hp⟩
    obtain ⟨t, ht, e⟩ := intermediate_value_Icc' (zero_le_one) hc.continuousOn ⟨hn, hp⟩
    exact ⟨t, ht.1, ht.2, e⟩
  · have hn : 0 ≤ φ 1 := by
      by_contra hn
      exact hb ⟨fun h => absurd h hp, fun h => absurd h hn⟩
    obtain ⟨t, ht, e⟩ := intermediate_value_Icc (zero_le_one) hc.continuousOn ⟨(not_le.1 hp).le, hn⟩
    exact ⟨t, ht.1, ht.2, e⟩

/-- C157: the rings are drawn around the support vectors: for the training data, where `support_vector = x[support]`, at their first two
coordinates. -/
theorem C157_rings {d : Nat} {trained loaded : Bool} {support : List Nat} {predict : List (List ℝ) → Except PyErr (List Int)}
    {x : List (Fin d → ℝ)} {y : List Int} {f : SVCFigure} (hf : plotSVC trained loaded support predict x y = .ok f) (h : 2 ≤ d) :
    f.rings.length = support.length ∧
    ∀ (k i : Nat), support[k]? = some i → ∃ r, x[i]? = some r ∧ f.rings[k]? = some (shown h r) := by
  obtain ⟨_, _, hm, _⟩ := svc_ok hf
  simp only [marks] at hm
  split_ifs at hm with hany
  injection hm with hm
  simp only [List.any_eq_true, decide_eq_true_eq, not_exists, not_and, not_le] at hany
  rw [← hm]
  clear hm hf
  induction support with
  | nil => simp
  | cons s support ih =>
    obtain ⟨ih1, ih2⟩ := ih fun i hi => hany i (by simp [hi])
    have hs : x[s]? = some (x[s]'(hany s (by simp))) := List.getElem?_eq_getElem _
    simp only [List.filterMap_cons, hs]
    refine ⟨by simpa using ih1, ?_⟩
    intro k i hk
    cases k with
    | zero =>
      simp only [List.getElem?_cons_zero, Option.some.injEq] at hk
      subst hk
      exact ⟨_, hs, by simp⟩
    | succ k => simpa using ih2 k i (by simpa using hk)

theorem mem_rowsOf {d : Nat} (h : 2 ≤ d) (x : List (Fin d → ℝ)) (y : List Int) (label : Int) (p : ℝ × ℝ) :
    p ∈ shownWith h x y label ↔ ∃ (i : Nat) (r : Fin d → ℝ), x[i]? = some r ∧ y[i]? = some label ∧ p = shown h r := by
  simp only [shownWith, LDA.rowsOf, List.mem_map, List.mem_filter, beq_iff_eq]
  constructor
  · rintro ⟨r, ⟨⟨r', l⟩, ⟨hz, rfl⟩, rfl⟩, rfl⟩
    obtain ⟨i, hi⟩ := List.mem_iff_getElem?.1 hz
    obtain ⟨h1, h2⟩ := List.getElem?_zip_eq_some.1 hi
    exact ⟨i, r', h1, h2, rfl⟩
  · rintro ⟨i, r, h1, h2, rfl⟩
    exact ⟨r, ⟨(r, label), ⟨List.mem_iff_getElem?.2 ⟨i, List.getElem?_zip_eq_some.2 ⟨h1, h2⟩⟩, rfl⟩, rfl⟩, rfl⟩

/-- C157: the samples labelled -1 and 1 are drawn as negative and positive examples; samples with another label (for instance the negative examples of
0/1 labels) are not drawn. -/
theorem C157_samples {d : Nat} {trained loaded : Bool} {support : List Nat} {predict : List (List ℝ) → Except PyErr (List Int)}
    {x : List (Fin d → ℝ)} {y : List Int} {f : SVCFigure} (hf : plotSVC trained loaded support predict x y = .ok f) (h : 2 ≤ d) (p : ℝ × ℝ) :
    (p ∈ f.negatives ↔ ∃ (i : Nat) (r : Fin d → ℝ), x[i]? = some r ∧ y[i]? = some (-1) ∧ p = shown h r) ∧
    (p ∈ f.positives ↔ ∃ (i : Nat) (r : Fin d → ℝ), x[i]? = some r ∧ y[i]? = some 1 ∧ p = shown h r) := by
  obtain ⟨_, _, _, _, h1, h2⟩ := svc_ok hf
  rw [h1, h2]
  exact ⟨mem_rowsOf h x y (-1) p, mem_rowsOf h x y 1 p⟩

/-- C157 fails outside of the fixed window: if the classifier is constant on `[0, 1] × [0, 0.8]`, there is no boundary in the figure, even if the samples
and the true boundary lie elsewhere. -/
theorem C157_window {d : Nat} {trained loaded : Bool} {support : List Nat} {predict : List (List ℝ) → Except PyErr (List Int)} {g : List ℝ → Int}
    (hg : RowWise predict g) {x : List (Fin d → ℝ)} {y : List Int} {f : SVCFigure} (hf : plotSVC trained loaded support predict x y = .ok f)
    (c : Int) (hc : ∀ u v : ℝ, 0 ≤ u → u ≤ 1 → 0 ≤ v → v ≤ 4 / 5 → g [u, v] = c) (i j i' j' : Nat) : ¬Boundary f.heights i j i' j' := by
  obtain ⟨hz, hall⟩ := C157_raster hg hf
  have key : ∀ a b : Nat, a < 300 → b < 300 → g [(b : ℝ) / 299, 4 / 5 * a / 299] = c := by
    intro a b ha hb
    have ha' : (a : ℝ) ≤ 299 := by exact_mod_cast (by omega : a ≤ 299)
    have hb' : (b : ℝ) ≤ 299 := by exact_mod_cast (by omega : b ≤ 299)
    refine hc _ _ (by positivity) ?_ (by positivity) ?_
    · rw [div_le_one (by norm_num)]; exact hb'
    · rw [div_le_iff₀ (by norm_num)]; linarith
  rintro ⟨r, r', a, a', h1, h2, h3, h4, h5⟩
  have bnd : ∀ (i j : Nat) (r : List Int) (a : Int), f.heights[i]? = some r → r[j]? = some a → i < 300 ∧ j < 300 := by
    intro i j r a e1 e2
    have l1 := (List.getElem?_eq_some_iff.1 e1).1
    have l2 := (List.getElem?_eq_some_iff.1 e2).1
    have := hz.2.1 r (List.mem_iff_getElem?.2 ⟨i, e1⟩)
    exact ⟨by rw [← hz.1]; exact l1, by omega⟩
  obtain ⟨hi, hj⟩ := bnd i j r a h1 h2
  obtain ⟨hi', hj'⟩ := bnd i' j' r' a' h3 h4
  have := (hall i j i' j' hi hj hi' hj').1 ⟨r, r', a, a', h1, h2, h3, h4, h5⟩
  rw [key i j hi hj, key i' j' hi' hj'] at this
  exact this Iff.rfl

/-- Such a classifier: the linear one with boundary `x = 5`, which separates its two support vectors (4, 0) and (6, 0). -/
noncomputable def farObj : SVC.Obj ℝ Unit :=
  { supportVector := [[4, 0], [6, 0]], supportAlpha := [1 / 2, 1 / 2], supportY := [-1, 1], b := -5, C := 1,
    kernel := .inst fun a b => (List.zipWith (· * ·) a b).sum, gamma := .auto, tol := 0, trained := true, loaded := false }

theorem farObj_decision (r : List ℝ) (u v : ℝ) (hr : r = [u, v]) :
    SVC.decisionValue (fun a b => (List.zipWith (· * ·) a b).sum) farObj r = u - 5 := by
  subst hr
  simp only [SVC.decisionValue, farObj, List.zipWith_cons_cons, List.zipWith_nil_right, List.sum_cons, List.sum_nil]
  ring

theorem farObj_predict (rows : List (List ℝ)) : farObj.predict rows =
    .ok (rows.map fun r => if SVC.decisionValue (fun a b => (List.zipWith (· * ·) a b).sum) farObj r < 0 then -1 else 1) := by
  simp [SVC.Obj.predict, farObj]

theorem C157_window_witness :
    farObj.predict [[4, 0], [6, 0]] = .ok [-1, 1] ∧
    ∃ f, plotSVC farObj.trained farObj.loaded [0, 1] farObj.predict [![4, 0], ![6, 0]] [-1, 1] = .ok f ∧
      f.negatives = [(4, 0)] ∧ f.positives = [(6, 0)] ∧ ∀ i j i' j', ¬Boundary f.heights i j i' j' := by
  refine ⟨?_, ?_⟩
  · rw [farObj_predict]
    simp only [List.map_cons, List.map_nil, farObj_decision [4, 0] 4 0 rfl, farObj_decision [6, 0] 6 0 rfl]
    norm_num
  · obtain ⟨f, hf⟩ := C157_drawn (d := 2) (.inl (rfl : farObj.trained = true)) (loaded := farObj.loaded) (le_refl 2) [0, 1] farObj.predict _
      farObj_predict [![4, 0], ![6, 0]] [-1, 1] rfl (by simp)
    refine ⟨f, hf, ?_, ?_, ?_⟩
    · obtain ⟨h, _, _, _, h1, _⟩ := svc_ok hf
      rw [h1]
      simp [shownWith, LDA.rowsOf, shown]
    · obtain ⟨h, _, _, _, _, h1⟩ := svc_ok hf
      rw [h1]
      simp [shownWith, LDA.rowsOf, shown]
    · refine C157_window farObj_predict hf (-1) ?_
      intro u v _ hu _ _
      show (if _ < 0 then (-1 : Int) else 1) = -1
      rw [farObj_decision [u, v] u v rfl, if_pos (by linarith)]

/-- C157 fails for other samples than the training samples: a number of a support vector that is no row is an `IndexError`. -/
theorem C157_other_samples {d : Nat} {trained loaded : Bool} (ht : trained = true ∨ loaded = true) (hd : 2 ≤ d) (support : List Nat)
    (predict : List (List ℝ) → Except PyErr (List Int)) (x : List (Fin d → ℝ)) (y : List Int)
    (hl : x.length = y.length) (i : Nat) (hi : i ∈ support) (hs : x.length ≤ i) : plotSVC trained loaded support predict x y = .error .indexError := by
  have hne : ¬(trained = false ∧ loaded = false) := by rintro ⟨rfl, rfl⟩; simp at ht
  have hm : marks hd x support = .error .indexError := by
    unfold marks
    rw [if_pos]
    simp only [List.any_eq_true, decide_eq_true_eq]
    exact ⟨i, hi, hs⟩
  simp only [plotSVC]
  rw [if_neg hne, if_neg (by simp [hl]), dif_pos hd, hm]

/-! ## Ensembles -/

theorem mapM_grid (es : List (List (List ℝ) → Except PyErr (List Int))) (gs : List (List ℝ → Int)) (h : List.Forall₂ RowWise es gs) :
    ∃ zs, es.mapM (gridHeights 1) = .ok zs ∧ List.Forall₂ (IsRaster 1) gs zs := by
  induction h with
  | nil => exact ⟨[], rfl, List.Forall₂.nil⟩
  | cons hg _ ih =>
    obtain ⟨zs, h1, h2⟩ := ih
    obtain ⟨z, h3, h4⟩ := raster 1 _ _ hg
    exact ⟨z :: zs, by rw [List.mapM_cons, h3, h1]; rfl, List.Forall₂.cons h4 h2⟩

/-- C158: an instance without training or weights is refused. -/
theorem C158_refused {d : Nat} (es : List (List (List ℝ) → Except PyErr (List Int))) (predict : List (List ℝ) → Except PyErr (List Int)) (b : Bool)
    (x : List (Fin d → ℝ)) (y : List Int) : plotEnsemble false false es predict b x y = .error .valueError := by simp [plotEnsemble]

/-- C158: otherwise the heights are the classes predicted by the ensemble over the grid, the boundary passes between two nodes exactly if they are
predicted differently, and, if asked for, there is one dashed boundary for each estimator, in order, from its own predictions. -/
theorem C158_drawn {d : Nat} {trained loaded : Bool} (ht : trained = true ∨ loaded = true) (hd : 2 ≤ d)
    (es : List (List (List ℝ) → Except PyErr (List Int))) (gs : List (List ℝ → Int)) (hes : List.Forall₂ RowWise es gs)
    (predict : List (List ℝ) → Except PyErr (List Int)) (g : List ℝ → Int) (hg : RowWise predict g) (b : Bool) (x : List (Fin d → ℝ)) (y : List Int)
    (hl : x.length = y.length) :
    ∃ f, plotEnsemble trained loaded es predict b x y = .ok f ∧ IsRaster 1 g f.heights ∧
      List.Forall₂ (IsRaster 1) (if b then gs else []) f.dashed ∧
      (∀ i j i' j' : Nat, i < 300 → j < 300 → i' < 300 → j' < 300 → (Boundary f.heights i j i' j' ↔
        ¬(0 < g [(j : ℝ) / 299, 1 * i / 299] ↔ 0 < g [(j' : ℝ) / 299, 1 * i' / 299]))) ∧
      ∀ p, (p ∈ f.negatives ↔ ∃ (i : Nat) (r : Fin d → ℝ), x[i]? = some r ∧ y[i]? = some (-1) ∧ p = shown hd r) ∧
        (p ∈ f.positives ↔ ∃ (i : Nat) (r : Fin d → ℝ), x[i]? = some r ∧ y[i]? = some 1 ∧ p = shown hd r) := by
  have hne : ¬(trained = false ∧ loaded = false) := by rintro ⟨rfl, rfl⟩; simp at ht
  obtain ⟨z, hz, hr⟩ := raster 1 predict g hg
  have hm : ∃ zs, (if b then es else []).mapM (gridHeights 1) = .ok zs ∧ List.Forall₂ (IsRaster 1) (if b then gs else []) zs := by
    cases b
    · exact ⟨[], rfl, List.Forall₂.nil⟩
    · exact mapM_grid es gs hes
  obtain ⟨zs, h1, h2⟩ := hm
  refine ⟨⟨shownWith hd x y (-1), shownWith hd x y 1, zs, z⟩, ?_, hr, h2, fun i j i' j' hi hj hi' hj' => boundary_iff hr i j i' j' hi hj hi' hj',
    fun p => ⟨mem_rowsOf hd x y (-1) p, mem_rowsOf hd x y 1 p⟩⟩
  simp only [plotEnsemble]
  rw [if_neg hne, if_neg (by simp [hl]), dif_pos hd, h1]
  simp only [hz]

/-- The predictions of a trained bagging classifier go row by row, so the claim applies to it. -/
theorem C158_bagging {E : Type} (o : Bagging.Obj E) (ht : o.trained = true) (pred : E → List ℝ → Int) :
    RowWise (o.predict pred) (Bagging.decideRow pred o.members) := by
  intro rows
  simp [Bagging.Obj.predict, ht]

/-- Those of a trained AdaBoost classifier with finite positive weights too. -/
theorem C158_adaboost (o : Ada.Obj (List ℝ)) (ht : o.trained = true) (g : List ℝ → Int)
    (hw : ∀ r, Ada.predictRow o.estimators o.alphas r = some (g r)) (rows : List (List ℝ)) : o.predict rows = .ok ((rows.map g).map some) := by
  simp only [Ada.Obj.predict]
  rw [if_neg (by simp [ht])]
  congr 1
  rw [List.map_map]
  exact List.map_congr_left fun r _ => hw r

/-- C158 fails outside of the fixed window: if the ensemble is constant on the unit square, there is no boundary in the figure. -/
theorem C158_window {d : Nat} {trained loaded : Bool} {es : List (List (List ℝ) → Except PyErr (List Int))}
    {predict : List (List ℝ) → Except PyErr (List Int)} {g : List ℝ → Int}
    (hg : RowWise predict g) {b : Bool} {x : List (Fin d → ℝ)} {y : List Int} {f : EnsembleFigure}
    (hf : plotEnsemble trained loaded es predict b x y = .ok f)
    (c : Int) (hc : ∀ u v : ℝ, 0 ≤ u → u ≤ 1 → 0 ≤ v → v ≤ 1 → g [u, v] = c) (i j i' j' : Nat) : ¬Boundary f.heights i j i' j' := by
  have hgrid : gridHeights 1 predict = .ok f.heights := by
    simp only [plotEnsemble] at hf
    split at hf
    · cases hf
    split at hf
    · cases hf
    split at hf
    · split at hf
      · cases hf
      · split at hf
        · cases hf
        · rename_i hz
          injection hf with hf
          subst hf
          exact hz
    · cases hf
  obtain ⟨z, h1, hz⟩ := raster 1 predict g hg
  rw [hgrid] at h1
  injection h1 with h1
  rw [← h1] at hz
  have key : ∀ a b : Nat, a < 300 → b < 300 → g [(b : ℝ) / 299, 1 * a / 299] = c := by
    intro a b ha hb
    have ha' : (a : ℝ) ≤ 299 := by exact_mod_cast (by omega : a ≤ 299)
    have hb' : (b : ℝ) ≤ 299 := by exact_mod_cast (by omega : b ≤ 299)
    refine hc _ _ (by positivity) ?_ (by positivity) ?_
    · rw [div_le_one (by norm_num)]; exact hb'
    · rw [div_le_iff₀ (by norm_num)]; linarith
  rintro ⟨r, r', a, a', h1, h2, h3, h4, h5⟩
  have bnd : ∀ (i j : Nat) (r : List Int) (a : Int), f.heights[i]? = some r → r[j]? = some a → i < 300 ∧ j < 300 := by
    intro i j r a e1 e2
    have l1 := (List.getElem?_eq_some_iff.1 e1).1
    have l2 := (List.getElem?_eq_some_iff.1 e2).1
    have := hz.2.1 r (List.mem_iff_getElem?.2 ⟨i, e1⟩)
    exact ⟨by rw [← hz.1]; exact l1, by omega⟩
  obtain ⟨hi, hj⟩ := bnd i j r a h1 h2
  obtain ⟨hi', hj'⟩ := bnd i' j' r' a' h3 h4
  have := (boundary_iff hz i j i' j' hi hj hi' hj').1 ⟨r, r', a, a', h1, h2, h3, h4, h5⟩
  rw [key i j hi hj, key i' j' hi' hj'] at this
  exact this Iff.rfl

end CML.PlotsGrid
