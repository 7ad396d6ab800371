import Verif.Props.BayesSym
import Verif.Spec.BayesRecode

set_option linter.unusedSectionVars false

/-! # Properties C245, C246 (Bayes classifiers: names of values, origin and unit of continuous attributes) -/

namespace CML.Bayes

variable {V W : Type} [DecidableEq V] [DecidableEq W]

theorem pyUnique_map (φ : V → W) (h : Function.Injective φ) : ∀ l : List V, pyUnique (l.map φ) = (pyUnique l).map φ
  | [] => rfl
  | a :: l => by
    simp only [List.map_cons, pyUnique, pyUnique_map φ h l, List.filter_map]
    congr 2
    apply List.filter_congr
    intro b _
    simp [h.eq_iff]

theorem select_map {α β : Type*} (f : α → β) (y : List Int) (c : Int) (l : List α) : select y c (l.map f) = (select y c l).map f := by
  unfold select
  rw [List.zip_map_left, List.filter_map, List.map_map, List.map_map]
  rfl

theorem select2_map {α β : Type*} (ψ : V → W) (h : Function.Injective ψ) (f : α → β) (sp : List V) (y : List Int) (v : V) (c : Int) (l : List α) :
    select2 (sp.map ψ) y (ψ v) c (l.map f) = (select2 sp y v c l).map f := by
  unfold select2
  have e : (l.map f).zip ((sp.map ψ).zip y) = (l.zip (sp.zip y)).map fun q => (f q.1, ψ q.2.1, q.2.2) := by
    rw [List.zip_map_left (f := ψ), List.zip_map]; rfl
  rw [e, List.filter_map, List.map_map, List.map_map]
  congr 1
  apply List.filter_congr
  intro q _
  simp [h.eq_iff]

theorem meanVar_shift (b : ℝ) (l : List ℝ) : meanVar (l.map fun r => r + b) = (meanVar l).map fun p => (p.1 + b, p.2) := by
  unfold meanVar
  by_cases hl : l = []
  · simp [hl]
  · have hne : (l.map fun r => r + b) ≠ [] := by simpa using hl
    have hp : (l.length : ℝ) ≠ 0 := by exact_mod_cast (List.length_pos_of_ne_nil hl).ne'
    have hs : ∀ k : List ℝ, (k.map fun r => r + b).sum = k.sum + k.length * b := by
      intro k
      induction k with
      | nil => simp
      | cons a k ih => simp only [List.map_cons, List.sum_cons, ih, List.length_cons, Nat.cast_add, Nat.cast_one]; ring
    rw [if_neg hl, if_neg hne]
    dsimp only
    rw [Option.map_some, hs, List.length_map, List.map_map]
    have e : (l.sum + l.length * b) / l.length = l.sum / l.length + b := by field_simp
    rw [e]
    congr 3
    congr 1
    apply List.map_congr_left
    intro r _
    simp only [Function.comp]
    ring

/-- What is stored in the other coding. -/
def Stored.recode (k : Coding V W) : Stored V → Stored W
  | .cont mv => .cont (mv.map fun p => (p.1 + k.origin, p.2))
  | .disc counts t n => .disc (counts.map fun q => (k.name q.1, q.2)) t n

theorem lookup_rename (φ : V → W) (h : Function.Injective φ) (v : V) : ∀ l : List (V × Nat), (l.map fun q => (φ q.1, q.2)).lookup (φ v) = l.lookup v
  | [] => rfl
  | q :: l => by
    obtain ⟨u, n⟩ := q
    simp only [List.map_cons, List.lookup_cons, lookup_rename φ h v l]
    by_cases hv : v = u
    · subst hv; simp
    · have h1 : (v == u) = false := by simpa using hv
      have h2 : (φ v == φ u) = false := by simpa using fun e => hv (h e)
      rw [h1, h2]

theorem factor_recode (fl : ℝ → ℝ) (sm : Bool) (k : Coding V W) (h : Function.Injective k.name) (s : Stored V) (x : Cell V) :
    factor fl sm (s.recode k) (x.recode k) = factor fl sm s x := by
  cases s with
  | cont mv =>
    cases x with
    | disc v => cases mv <;> rfl
    | cont r =>
      cases mv with
      | none => rfl
      | some p =>
        obtain ⟨m, v⟩ := p
        simp only [Stored.recode, Cell.recode, factor, Option.map_some, density]
        have e : r + k.origin - (m + k.origin) = r - m := by ring
        rw [e]
  | disc c t n =>
    cases x with
    | disc v => simp only [Stored.recode, Cell.recode, factor, lookup_rename k.name h]
    | cont r => rfl

theorem factors_recode (fl : ℝ → ℝ) (sm : Bool) (f : Attr V W → Stored V) : ∀ l : List (Attr V W), (∀ t ∈ l, Function.Injective t.code.name) →
    factors fl sm (l.map fun t => (f t).recode t.code) (l.map fun t => t.cell.recode t.code) = factors fl sm (l.map f) (l.map Attr.cell)
  | [], _ => rfl
  | t :: l, h => by
    have ih := factors_recode fl sm f l fun u hu => h u (by simp [hu])
    simp only [List.map_cons, factors, ih, factor_recode fl sm t.code (h t (by simp))]

/-! ## Naive Bayes -/

theorem nbColumn_recode (orderV : List V → List V) (orderW : List W → List W) (y : List Int) (c : Int) (k : Coding V W) (h : Function.Injective k.name)
    (q : Col V) (ho : ∀ l, q = .disc l → orderW (l.map k.name) = (orderV l).map k.name) :
    nbColumn orderW y c (q.recode k) = (nbColumn orderV y c q).map (Stored.recode k) := by
  cases q with
  | cont l =>
    simp only [Col.recode, nbColumn, select_map, meanVar_shift]
    rfl
  | disc l =>
    simp only [Col.recode, nbColumn, select_map, pyUnique_map k.name h, List.length_map]
    by_cases hu : (pyUnique l).length = 1
    · rw [if_pos hu, if_pos hu]; rfl
    · rw [if_neg hu, if_neg hu]
      simp only [Except.map, Stored.recode, nbCounts, ho l rfl, pyUnique_map k.name h, List.map_map]
      congr 2
      rw [List.zip_map_left]
      have : (fun v => List.count v (List.map k.name (select y c l))) ∘ k.name = fun v => (select y c l).count v := by
        funext v
        exact List.count_map_of_injective _ _ h v
      rw [this]
      rfl

theorem mapM_recode (f : Attr V W → Except PyErr (Stored V)) (g : Attr V W → Except PyErr (Stored W)) : ∀ l : List (Attr V W),
    (∀ t ∈ l, g t = (f t).map (Stored.recode t.code)) →
    (∃ e, l.mapM f = .error e ∧ l.mapM g = .error e) ∨
      ∃ s : List (Stored V), s.length = l.length ∧ l.mapM f = .ok s ∧ l.mapM g = .ok ((l.zip s).map fun q => q.2.recode q.1.code)
  | [], _ => .inr ⟨[], rfl, rfl, rfl⟩
  | t :: l, h => by
    rw [List.mapM_cons, List.mapM_cons, h t (by simp)]
    cases hf : f t with
    | error e => exact .inl ⟨e, rfl, rfl⟩
    | ok s0 =>
      rcases mapM_recode f g l fun u hu => h u (by simp [hu]) with ⟨e, h1, h2⟩ | ⟨s, h0, h1, h2⟩
      · exact .inl ⟨e, by rw [h1]; rfl, by rw [h2]; rfl⟩
      · exact .inr ⟨s0 :: s, by simp [h0], by rw [h1]; rfl, by rw [h2]; rfl⟩

theorem factors_recode_zip (fl : ℝ → ℝ) (sm : Bool) : ∀ (l : List (Attr V W)) (s : List (Stored V)), s.length = l.length → (∀ t ∈ l, Function.Injective t.code.name) →
    factors fl sm ((l.zip s).map fun q => q.2.recode q.1.code) (l.map fun t => t.cell.recode t.code) = factors fl sm s (l.map Attr.cell)
  | [], [], _, _ => rfl
  | t :: l, [], hs, _ => by simp at hs
  | [], _ :: _, hs, _ => by simp at hs
  | t :: l, s0 :: s, hs, h => by
    have ih := factors_recode_zip fl sm l s (by simpa using hs) fun u hu => h u (by simp [hu])
    simp only [List.map_cons, List.zip_cons_cons, factors, ih, factor_recode fl sm t.code (h t (by simp))]

theorem nb_recode (orderV : List V → List V) (orderW : List W → List W) (fl : ℝ → ℝ) (sm : Bool) (y : List Int) (l : List (Attr V W))
    (hinj : ∀ t ∈ l, Function.Injective t.code.name) (ho : ∀ t ∈ l, ∀ vals, t.col = .disc vals → orderW (vals.map t.code.name) = (orderV vals).map t.code.name) :
    nbAnswer orderW fl sm (l.map fun t => t.col.recode t.code) y (l.map fun t => t.cell.recode t.code) =
      nbAnswer orderV fl sm (l.map Attr.col) y (l.map Attr.cell) := by
  have em : ∀ c, (∃ e, (l.map Attr.col).mapM (nbColumn orderV y c) = .error e ∧ (l.map fun t => t.col.recode t.code).mapM (nbColumn orderW y c) = .error e) ∨
      ∃ s : List (Stored V), s.length = l.length ∧ (l.map Attr.col).mapM (nbColumn orderV y c) = .ok s ∧
        (l.map fun t => t.col.recode t.code).mapM (nbColumn orderW y c) = .ok ((l.zip s).map fun q => q.2.recode q.1.code) := by
    intro c
    rw [List.mapM_map, List.mapM_map]
    exact mapM_recode _ _ l fun t ht => nbColumn_recode orderV orderW y c t.code (hinj t ht) t.col (ho t ht)
  unfold nbAnswer nbFit
  cases prior y.length y sm with
  | error e => rfl
  | ok p =>
    obtain ⟨p0, p1⟩ := p
    dsimp only
    rcases em 0 with ⟨e, h1, h2⟩ | ⟨s, hs, h1, h2⟩
    · rw [h1, h2]
    · rcases em 1 with ⟨e, h3, h4⟩ | ⟨s', hs', h3, h4⟩
      · rw [h1, h2, h3, h4]
      · rw [h1, h2, h3, h4]
        dsimp only [nbPredict]
        rw [factors_recode_zip fl sm l s hs hinj, factors_recode_zip fl sm l s' hs' hinj]

/-- **C245** for naive Bayes: if the values of every discrete attribute get other names (different names for different values, each attribute its own names;
continuous attributes may get another origin too),
every row gets the same answer, or the same exception. `orderV`, `orderW` list the values by frequency; the order must not depend on the names. -/
theorem C245_naive_bayes_partial (orderV : List V → List V) (orderW : List W → List W) (fl : ℝ → ℝ) (sm : Bool) (y : List Int) (l : List (Attr V W))
    (hinj : ∀ t ∈ l, Function.Injective t.code.name)
    (ho : ∀ t ∈ l, ∀ vals, t.col = .disc vals → orderW (vals.map t.code.name) = (orderV vals).map t.code.name) :
    nbAnswer orderW fl sm (l.map fun t => t.col.recode t.code) y (l.map fun t => t.cell.recode t.code) =
      nbAnswer orderV fl sm (l.map Attr.col) y (l.map Attr.cell) := nb_recode orderV orderW fl sm y l hinj ho

/-- The hypotheses are met, e.g. by the order of first appearance and the names 0, 1, ... replaced by strings of that length; a discrete and a continuous column. -/
example : ∃ l : List (Attr Nat (List Bool)), l.length = 2 ∧ (∀ t ∈ l, Function.Injective t.code.name) ∧
    (∀ t ∈ l, ∀ vals, t.col = .disc vals → pyUnique (vals.map t.code.name) = (pyUnique vals).map t.code.name) ∧
    l.map (fun t => t.col.recode t.code) = [.disc [[], [true], [true]], .cont [1 + 1, 2 + 1, 3 + 1]] := by
  have h : Function.Injective fun n => List.replicate n true := fun a b hab => by simpa using congrArg List.length hab
  refine ⟨[⟨⟨fun n => List.replicate n true, 0⟩, .disc [0, 1, 1], .disc 1⟩, ⟨⟨fun n => List.replicate n true, 1⟩, .cont [1, 2, 3], .cont 2⟩], rfl, ?_, ?_, rfl⟩
  · intro t ht
    simp only [List.mem_cons, List.not_mem_nil, or_false] at ht
    rcases ht with rfl | rfl <;> exact h
  · intro t ht vals _
    simp only [List.mem_cons, List.not_mem_nil, or_false] at ht
    rcases ht with rfl | rfl <;> exact pyUnique_map _ h vals

/-! ## One-dependent estimators -/

theorem spodeColumn_recode (ψ : V → W) (hψ : Function.Injective ψ) (sp : List V) (y : List Int) (v : V) (c : Int) (k : Coding V W) (h : Function.Injective k.name)
    (q : Col V) : spodeColumn (sp.map ψ) y (ψ v) c (q.recode k) = (spodeColumn sp y v c q).recode k := by
  cases q with
  | cont l =>
    simp only [Col.recode, spodeColumn, select_map, select2_map ψ hψ, meanVar_shift, List.length_map]
    split <;> rfl
  | disc l =>
    simp only [Col.recode, spodeColumn, select2_map ψ hψ, pyUnique_map k.name h, List.length_map, Stored.recode, List.map_map]
    congr 1
    apply List.map_congr_left
    intro u _
    simp only [Function.comp]
    rw [List.count_map_of_injective _ _ h u]

/-- An element in the other coding. -/
def Entry.recode (ψ : V → W) (codes : List (Coding V W)) (e : Entry V) : Entry W :=
  ⟨e.cat, ψ e.value, e.prior, (codes.zip e.params).map fun q => q.2.recode q.1⟩

theorem zip_map_map {α β γ : Type*} (f : α → β) (g : α → γ) : ∀ l : List α, (l.map f).zip (l.map g) = l.map fun a => (f a, g a)
  | [] => rfl
  | a :: l => by simp only [List.map_cons, List.zip_cons_cons, zip_map_map f g l]

theorem spodeEntries_recode (ψ : V → W) (hψ : Function.Injective ψ) (sp : List V) (y : List Int) (sm : Bool) (l : List (Attr V W))
    (hinj : ∀ t ∈ l, Function.Injective t.code.name) :
    spodeEntries (l.map fun t => t.col.recode t.code) (sp.map ψ) y sm =
      (spodeEntries (l.map Attr.col) sp y sm).map (Entry.recode ψ (l.map Attr.code)) := by
  unfold spodeEntries
  rw [List.map_flatMap]
  congr 1
  funext c
  rw [pyUnique_map ψ hψ, List.map_map, List.map_map]
  apply List.map_congr_left
  intro v _
  simp only [Function.comp, Entry.recode, Entry.mk.injEq, true_and]
  refine ⟨?_, ?_⟩
  · rw [select2_map ψ hψ, List.length_map, List.length_map]
  · rw [List.map_map, List.map_map, zip_map_map, List.map_map]
    apply List.map_congr_left
    intro t ht
    exact spodeColumn_recode ψ hψ sp y v c t.code (hinj t ht) t.col

theorem factors_entry (fl : ℝ → ℝ) (sm : Bool) : ∀ (l : List (Attr V W)) (s : List (Stored V)), s.length = l.length → (∀ t ∈ l, Function.Injective t.code.name) →
    factors fl sm (((l.map Attr.code).zip s).map fun q => q.2.recode q.1) (l.map fun t => t.cell.recode t.code) = factors fl sm s (l.map Attr.cell) := by
  intro l s hs h
  rw [List.zip_map_left, List.map_map]
  exact factors_recode_zip fl sm l s hs h

theorem allFactors_recode (fl : ℝ → ℝ) (sm : Bool) (c : Int) (ψ : Entry V → V → W) (l : List (Attr V W)) (hinj : ∀ t ∈ l, Function.Injective t.code.name) :
    ∀ es : List (Entry V), (∀ e ∈ es, e.params.length = l.length) →
    allFactors fl sm c (l.map fun t => t.cell.recode t.code) (es.map fun e => e.recode (ψ e) (l.map Attr.code)) = allFactors fl sm c (l.map Attr.cell) es
  | [], _ => rfl
  | e :: es, h => by
    have ih := allFactors_recode fl sm c ψ l hinj es fun u hu => h u (by simp [hu])
    have he : factors fl sm (e.recode (ψ e) (l.map Attr.code)).params (l.map fun t => t.cell.recode t.code) = factors fl sm e.params (l.map Attr.cell) :=
      factors_entry fl sm l e.params (h e (by simp)) hinj
    simp only [List.map_cons, allFactors, entryFactors, ih, he]
    rfl

theorem entries_params (cols : List (Col V)) (sp : List V) (y : List Int) (sm : Bool) : ∀ e ∈ spodeEntries cols sp y sm, e.params.length = cols.length := by
  intro e he
  simp only [spodeEntries, List.mem_flatMap, List.mem_map] at he
  obtain ⟨c, -, v, -, rfl⟩ := he
  simp

theorem spode_recode (fl : ℝ → ℝ) (sm : Bool) (ψ : V → W) (hψ : Function.Injective ψ) (sp : List V) (y : List Int) (l : List (Attr V W))
    (hinj : ∀ t ∈ l, Function.Injective t.code.name) :
    spodePredict fl sm (spodeFit [] (l.map fun t => t.col.recode t.code) (sp.map ψ) y sm) (l.map fun t => t.cell.recode t.code) =
      spodePredict fl sm (spodeFit [] (l.map Attr.col) sp y sm) (l.map Attr.cell) := by
  simp only [spodeFit, List.nil_append, spodeEntries_recode ψ hψ sp y sm l hinj]
  unfold spodePredict
  have hp := entries_params (l.map Attr.col) sp y sm
  rw [List.length_map] at hp
  rw [allFactors_recode fl sm 0 (fun _ => ψ) l hinj _ hp, allFactors_recode fl sm 1 (fun _ => ψ) l hinj _ hp]

/-- **C245** for a one-dependent estimator: the values of the super-parent and of the other discrete attributes may have any (distinct) names, continuous attributes any origin. -/
theorem C245_one_dependent_partial (fl : ℝ → ℝ) (sm : Bool) (ψ : V → W) (hψ : Function.Injective ψ) (sp : List V) (y : List Int) (l : List (Attr V W))
    (hinj : ∀ t ∈ l, Function.Injective t.code.name) :
    spodePredict fl sm (spodeFit [] (l.map fun t => t.col.recode t.code) (sp.map ψ) y sm) (l.map fun t => t.cell.recode t.code) =
      spodePredict fl sm (spodeFit [] (l.map Attr.col) sp y sm) (l.map Attr.cell) := spode_recode fl sm ψ hψ sp y l hinj

/-! ## The averaged estimator -/

theorem supers_recode (m : Nat) (φ : V → W) (hφ : Function.Injective φ) : ∀ l : List (Attr V W), (∀ t ∈ l, t.code.name = φ) →
    superParents m (l.map fun t => t.col.recode t.code) = (superParents m (l.map Attr.col)).map (List.map φ)
  | [], _ => rfl
  | t :: l, h => by
    have ih := supers_recode m φ hφ l fun u hu => h u (by simp [hu])
    have ht := h t (by simp)
    unfold superParents at ih ⊢
    simp only [List.map_cons, List.filterMap_cons]
    cases hc : t.col with
    | cont vals => simpa only [Col.recode] using ih
    | disc vals =>
      have e : ((pyUnique (vals.map t.code.name)).all fun v => decide (m < (vals.map t.code.name).count v)) = (pyUnique vals).all fun v => decide (m < vals.count v) := by
        rw [ht, pyUnique_map φ hφ, List.all_map]
        congr 1
        funext v
        simp only [Function.comp]
        rw [List.count_map_of_injective _ _ hφ v]
      have e' : (Col.disc vals).recode t.code = .disc (vals.map t.code.name) := rfl
      rw [e']
      dsimp only
      rw [e]
      by_cases hv : ((pyUnique vals).all fun v => decide (m < vals.count v)) = true
      · rw [if_pos hv, if_pos hv]
        dsimp only
        rw [ih, List.map_cons, ht]
      · rw [if_neg hv, if_neg hv]
        exact ih

theorem aode_recode (fl : ℝ → ℝ) (numV : V → Option ℝ) (numW : W → Option ℝ) (sm : Bool) (m : Nat) (y : List Int) (φ : V → W) (hφ : Function.Injective φ)
    (l : List (Attr V W)) (hname : ∀ t ∈ l, t.code.name = φ) (hnum : ∀ t ∈ l, ∀ v r, numW (φ v) = some (r + t.code.origin) ↔ numV v = some r) :
    aodePredict fl numW sm (aodeFit [] m (l.map fun t => t.col.recode t.code) y sm).2 (l.map fun t => t.cell.recode t.code) =
      aodePredict fl numV sm (aodeFit [] m (l.map Attr.col) y sm).2 (l.map Attr.cell) := by
  have hinj : ∀ t ∈ l, Function.Injective t.code.name := fun t ht => by rw [hname t ht]; exact hφ
  unfold aodePredict aodeFit
  dsimp only
  rw [aodeFit_final, aodeFit_final, List.nil_append, List.nil_append, supers_recode m φ hφ l hname]
  simp only [List.length_map, List.length_replicate, List.flatMap_map]
  have hfin : ((superParents m (l.map Attr.col)).flatMap fun sp => spodeEntries (l.map fun t => t.col.recode t.code) (sp.map φ) y sm) =
      ((superParents m (l.map Attr.col)).flatMap fun sp => spodeEntries (l.map Attr.col) sp y sm).map (Entry.recode φ (l.map Attr.code)) := by
    rw [List.map_flatMap]
    congr 1
    funext sp
    exact spodeEntries_recode φ hφ sp y sm l hinj
  rw [hfin]
  have hpar : ∀ e ∈ (superParents m (l.map Attr.col)).flatMap fun sp => spodeEntries (l.map Attr.col) sp y sm, e.params.length = l.length := by
    intro e he
    obtain ⟨sp, -, h⟩ := List.mem_flatMap.1 he
    have := entries_params _ _ _ _ e h
    rwa [List.length_map] at this
  generalize ((superParents m (l.map Attr.col)).flatMap fun sp => spodeEntries (l.map Attr.col) sp y sm) = es at hpar ⊢
  generalize (superParents m (l.map Attr.col)).length = k
  have hused : ∀ i, aodeUsed numW (List.replicate k (es.map (Entry.recode φ (l.map Attr.code)))) (l.map fun t => t.cell.recode t.code) i =
      (aodeUsed numV (List.replicate k es) (l.map Attr.cell) i).map (Entry.recode φ (l.map Attr.code)) := by
    intro i
    unfold aodeUsed
    rw [List.getElem?_replicate, List.getElem?_replicate, List.getElem?_map, List.getElem?_map]
    by_cases hi : i < k
    · rw [if_pos hi, if_pos hi]
      cases ht : l[i]? with
      | none => rfl
      | some t =>
        have htm : t ∈ l := List.mem_of_getElem? ht
        dsimp only [Option.map_some]
        rw [List.filter_map]
        congr 1
        apply List.filter_congr
        intro e _
        simp only [Function.comp, Entry.recode]
        cases hc : t.cell with
        | disc u => simp only [Cell.recode, Cell.is, hname t htm, hφ.eq_iff]
        | cont r => simp only [Cell.recode, Cell.is, hnum t htm]
    · rw [if_neg hi, if_neg hi]; rfl
  have hall : (List.range k).flatMap (aodeUsed numW (List.replicate k (es.map (Entry.recode φ (l.map Attr.code)))) (l.map fun t => t.cell.recode t.code)) =
      ((List.range k).flatMap (aodeUsed numV (List.replicate k es) (l.map Attr.cell))).map (Entry.recode φ (l.map Attr.code)) := by
    rw [List.map_flatMap]
    congr 1
    funext i
    exact hused i
  rw [hall]
  have hpar' : ∀ e ∈ (List.range k).flatMap (aodeUsed numV (List.replicate k es) (l.map Attr.cell)), e.params.length = l.length := by
    intro e he
    obtain ⟨i, -, h⟩ := List.mem_flatMap.1 he
    unfold aodeUsed at h
    rw [List.getElem?_replicate] at h
    by_cases hi : i < k
    · rw [if_pos hi] at h
      cases hx : (l.map Attr.cell)[i]? with
      | none => rw [hx] at h; cases h
      | some c => rw [hx] at h; exact hpar e (List.mem_filter.1 h).1
    · rw [if_neg hi] at h; cases h
  unfold spodePredict
  have e0 := fun c => allFactors_recode fl sm c (fun _ => φ) l hinj _ hpar'
  rw [e0 0, e0 1]

/-- **C245** for the averaged estimator, if ALL attributes use the same new names (and the new names are the same numbers as the old ones, if they are numbers). -/
theorem C245_averaged_partial (fl : ℝ → ℝ) (numV : V → Option ℝ) (numW : W → Option ℝ) (sm : Bool) (m : Nat) (y : List Int) (φ : V → W) (hφ : Function.Injective φ)
    (hnum : ∀ v, numW (φ v) = numV v) (cols : List (Col V × Cell V)) :
    aodePredict fl numW sm (aodeFit [] m (cols.map fun q => q.1.recode ⟨φ, 0⟩) y sm).2 (cols.map fun q => q.2.recode ⟨φ, 0⟩) =
      aodePredict fl numV sm (aodeFit [] m (cols.map Prod.fst) y sm).2 (cols.map Prod.snd) := by
  have h := aode_recode fl numV numW sm m y φ hφ (cols.map fun q => ⟨⟨φ, 0⟩, q.1, q.2⟩) (by
    intro t ht
    obtain ⟨q, -, rfl⟩ := List.mem_map.1 ht
    rfl) (by
    intro t ht v r
    obtain ⟨q, -, rfl⟩ := List.mem_map.1 ht
    simp [hnum])
  simpa only [List.map_map, Function.comp_def] using h

/-- **C245 is false** for the averaged estimator: with the columns b, b, b, c and p, p, q, q (labels 0, 0, 1, 0, smoothing, `m = 0`) it answers 1 for the row (b, q);
when the values p, q of the second attribute are called b, c instead, it answers 0 for the same row (b, c). -/
theorem C245_witness (fl : ℝ → ℝ) (num : String → Option ℝ) :
    aodePredict fl num true (aodeFit [] 0 [.disc ["b", "b", "b", "c"], .disc ["p", "p", "q", "q"]] [0, 0, 1, 0] true).2 [.disc "b", .disc "q"] = .ok 1 ∧
    aodePredict fl num true (aodeFit [] 0 [.disc ["b", "b", "b", "c"], .disc ["b", "b", "c", "c"]] [0, 0, 1, 0] true).2 [.disc "b", .disc "c"] = .ok 0 := by
  constructor
  · unfold aodePredict
    rw [spode_label fl true _ _ [ratio 3 8, ratio 3 4, ratio 1 4, ratio 2 8, ratio 1 3, ratio 2 3] [ratio 2 8, ratio 2 3, ratio 2 3, ratio 2 8, ratio 2 3, ratio 2 3] rfl rfl
      (by simp [ratio_nonneg]) (by simp [ratio_nonneg]), if_neg]
    norm_num [ratio]
  · unfold aodePredict
    rw [spode_label fl true _ _
      [ratio 3 8, ratio 3 4, ratio 1 4, ratio 3 8, ratio 3 4, ratio 1 4, ratio 2 8, ratio 1 3, ratio 2 3, ratio 2 8, ratio 1 3, ratio 2 3]
      [ratio 2 8, ratio 2 3, ratio 2 3, ratio 1 8, ratio 1 2, ratio 1 2, ratio 1 8, ratio 1 2, ratio 1 2, ratio 2 8, ratio 2 3, ratio 2 3] rfl rfl
      (by simp [ratio_nonneg]) (by simp [ratio_nonneg]), if_pos]
    norm_num [ratio]

/-! ## C246: origin and unit of continuous attributes -/

/-- **C246**, the part that holds: another origin of the continuous attributes changes no answer of naive Bayes and of the one-dependent estimators; nor of the
averaged estimator, if the values of the discrete attributes are not numbers. -/
theorem C246_origin_partial (order : List V → List V) (fl : ℝ → ℝ) (num : V → Option ℝ) (hnum : ∀ v, num v = none) (sm : Bool) (m : Nat) (sp : List V) (y : List Int)
    (l : List (ℝ × Col V × Cell V)) :
    nbAnswer order fl sm (l.map fun t => t.2.1.recode ⟨id, t.1⟩) y (l.map fun t => t.2.2.recode ⟨id, t.1⟩) =
      nbAnswer order fl sm (l.map fun t => t.2.1) y (l.map fun t => t.2.2) ∧
    spodePredict fl sm (spodeFit [] (l.map fun t => t.2.1.recode ⟨id, t.1⟩) sp y sm) (l.map fun t => t.2.2.recode ⟨id, t.1⟩) =
      spodePredict fl sm (spodeFit [] (l.map fun t => t.2.1) sp y sm) (l.map fun t => t.2.2) ∧
    aodePredict fl num sm (aodeFit [] m (l.map fun t => t.2.1.recode ⟨id, t.1⟩) y sm).2 (l.map fun t => t.2.2.recode ⟨id, t.1⟩) =
      aodePredict fl num sm (aodeFit [] m (l.map fun t => t.2.1) y sm).2 (l.map fun t => t.2.2) := by
  have hi : ∀ t ∈ l.map (fun t => (⟨⟨id, t.1⟩, t.2.1, t.2.2⟩ : Attr V V)), t.code.name = id := by
    intro t ht
    obtain ⟨q, -, rfl⟩ := List.mem_map.1 ht
    rfl
  have hinj : ∀ t ∈ l.map (fun t => (⟨⟨id, t.1⟩, t.2.1, t.2.2⟩ : Attr V V)), Function.Injective t.code.name := by
    intro t ht; rw [hi t ht]; exact Function.injective_id
  have h1 := nb_recode order order fl sm y (l.map fun t => ⟨⟨id, t.1⟩, t.2.1, t.2.2⟩) hinj (by
    intro t ht vals _
    rw [hi t ht, List.map_id, List.map_id])
  have h2 := spode_recode fl sm id Function.injective_id sp y (l.map fun t => ⟨⟨id, t.1⟩, t.2.1, t.2.2⟩) hinj
  have h3 := aode_recode fl num num sm m y id Function.injective_id (l.map fun t => ⟨⟨id, t.1⟩, t.2.1, t.2.2⟩) hi (by
    intro t _ v r; simp [hnum])
  rw [List.map_id] at h2
  simp only [List.map_map, Function.comp_def] at h1 h2 h3
  exact ⟨h1, h2, h3⟩

theorem meanVar_moments {l : List ℝ} {m v : ℝ} (h : HasMoments l m v) (a : ℝ) : meanVar (l.map fun r => a * r) = some (a * m, a ^ 2 * v) := by
  obtain ⟨hl, hm, hv⟩ := h
  have hne : (l.map fun r => a * r) ≠ [] := by simpa using hl
  have hp : (l.length : ℝ) ≠ 0 := by exact_mod_cast (List.length_pos_of_ne_nil hl).ne'
  have hs : (l.map fun r => a * r).sum = a * l.sum := by
    have := List.sum_map_mul_left l (fun r => r) a
    rwa [List.map_id'] at this
  unfold meanVar
  rw [if_neg hne]
  dsimp only
  rw [hs, List.length_map, ← hm]
  have e : a * (m * l.length) / l.length = a * m := by field_simp
  rw [e, List.map_map]
  have e2 : (l.map ((fun r => (r - a * m) ^ 2) ∘ fun r => a * r)).sum = a ^ 2 * (l.map fun r => (r - m) ^ 2).sum := by
    rw [← List.sum_map_mul_left]
    congr 1
    apply List.map_congr_left
    intro r _
    simp only [Function.comp]
    ring
  rw [e2, ← hv]
  congr 2
  field_simp

theorem density_scaled (a x m v : ℝ) (ha : a ≠ 0) (hv : 0 < v) :
    density id (a * x) (a * m) (a ^ 2 * v) = some (1 / (√(2 * Real.pi) * (a ^ 2)) * (Real.exp (-(exponentAt x m v / a ^ 2)) / v)) := by
  have h2 : a ^ 2 * v ≠ 0 := by positivity
  have hpi : 0 < √(2 * Real.pi) := Real.sqrt_pos.2 (by positivity)
  unfold density
  rw [if_neg h2]
  dsimp only [id]
  have hpos : 0 < 1 / (√(2 * Real.pi) * (a ^ 2 * v)) * Real.exp (-(a * x - a * m) ^ 2 / (2 * (a ^ 2 * v) ^ 2)) := by positivity
  rw [if_neg hpos.ne']
  congr 1
  have e : -(a * x - a * m) ^ 2 / (2 * (a ^ 2 * v) ^ 2) = -(exponentAt x m v / a ^ 2) := by
    unfold exponentAt; field_simp
  rw [e]
  field_simp

/-- The answer of naive Bayes on one continuous attribute, in the unit `a`. -/
theorem C246_answer (order : List V → List V) (sm : Bool) (l : List ℝ) (y : List Int) (h01 : ∀ c ∈ y, c = 0 ∨ c = 1) (h0 : 0 ∈ y) (h1 : 1 ∈ y) (m0 v0 m1 v1 : ℝ)
    (hc0 : HasMoments (classPart y 0 l) m0 v0) (hc1 : HasMoments (classPart y 1 l) m1 v1) (hv0 : 0 < v0) (hv1 : 0 < v1) (x a : ℝ) (ha : 0 < a) :
    nbAnswer order id sm [(Col.cont l).scale a] y [(Cell.cont x).scale a] =
      .ok (if (exponentAt x m0 v0 - exponentAt x m1 v1) / a ^ 2 < weightOf sm (y.count 0) v0 - weightOf sm (y.count 1) v1 then 0 else 1) := by
  have hy : y ≠ [] := List.ne_nil_of_mem h0
  have hn : (0 : ℝ) < y.length := by exact_mod_cast List.length_pos_of_ne_nil hy
  have hcnt := count_add y h01
  have hn0 : 0 < y.count 0 := List.count_pos_iff.2 h0
  have hn1 : 0 < y.count 1 := List.count_pos_iff.2 h1
  set s : ℝ := if sm then 1 else 0 with hs
  have hs0 : 0 ≤ s := by rw [hs]; split <;> norm_num
  have hk0 : 0 < (y.count 0 : ℝ) + s := by have : (0 : ℝ) < y.count 0 := by exact_mod_cast hn0
                                           linarith
  have hk1 : 0 < (y.count 1 : ℝ) + s := by have : (0 : ℝ) < y.count 1 := by exact_mod_cast hn1
                                           linarith
  have hN : 0 < (y.length : ℝ) + 2 * s := by linarith
  have hcr : (y.length : ℝ) = y.count 0 + y.count 1 := by exact_mod_cast hcnt.symm
  have hpr : prior y.length y sm = .ok (((y.count 0 : ℝ) + s) / (y.length + 2 * s), ((y.count 1 : ℝ) + s) / (y.length + 2 * s)) := by
    unfold prior
    cases sm with
    | true =>
      simp only [if_true] at hs
      simp only [if_true, unique_two h01 h0 h1]
      rw [if_neg (by omega)]
      have e1 : ratio (y.count 0 + 1) (y.length + 2) = ((y.count 0 : ℝ) + s) / (y.length + 2 * s) := by rw [hs]; unfold ratio; push_cast; ring
      rw [e1]
      congr 2
      rw [eq_div_iff hN.ne', sub_mul, div_mul_cancel₀ _ hN.ne', hcr]; ring
    | false =>
      simp only [Bool.false_eq_true, if_false] at hs
      simp only [Bool.false_eq_true, if_false]
      rw [if_neg (by have := List.length_pos_of_ne_nil hy; omega)]
      have e1 : ratio (y.count 0) y.length = ((y.count 0 : ℝ) + s) / (y.length + 2 * s) := by rw [hs]; unfold ratio; simp
      rw [e1]
      congr 2
      rw [eq_div_iff hN.ne', sub_mul, div_mul_cancel₀ _ hN.ne', hcr]; ring
  have hsel : ∀ c, select y c (l.map fun r => a * r) = (classPart y c l).map fun r => a * r := fun c => select_map _ y c l
  have hcol : ∀ c m v, HasMoments (classPart y c l) m v → [(Col.cont l : Col V).scale a].mapM (nbColumn order y c) = .ok [Stored.cont (some (a * m, a ^ 2 * v))] := by
    intro c m v h
    have : nbColumn order y c ((Col.cont l).scale a) = .ok (Stored.cont (some (a * m, a ^ 2 * v))) := by
      simp only [Col.scale, nbColumn, hsel, meanVar_moments h a]
    rw [List.mapM_cons, this]; rfl
  have hfit : nbFit order [(Col.cont l : Col V).scale a] y sm = .ok ⟨((y.count 0 : ℝ) + s) / (y.length + 2 * s), ((y.count 1 : ℝ) + s) / (y.length + 2 * s),
      [.cont (some (a * m0, a ^ 2 * v0))], [.cont (some (a * m1, a ^ 2 * v1))]⟩ := by
    unfold nbFit
    rw [hpr, hcol 0 m0 v0 hc0, hcol 1 m1 v1 hc1]
  unfold nbAnswer
  rw [hfit]
  dsimp only
  have hpi : 0 < √(2 * Real.pi) := Real.sqrt_pos.2 (by positivity)
  rw [C42_label_partial id sm _ _ [1 / (√(2 * Real.pi) * (a ^ 2)) * (Real.exp (-(exponentAt x m0 v0 / a ^ 2)) / v0)]
    [1 / (√(2 * Real.pi) * (a ^ 2)) * (Real.exp (-(exponentAt x m1 v1 / a ^ 2)) / v1)]
    (by simp only [factors, factor, Cell.scale, density_scaled a x m0 v0 ha.ne' hv0]; rfl) (by simp only [factors, factor, Cell.scale, density_scaled a x m1 v1 ha.ne' hv1]; rfl)
    (by dsimp only; positivity) (by dsimp only; positivity) (by simp; positivity) (by simp; positivity)]
  congr 1
  have key : ((y.count 1 : ℝ) + s) / (y.length + 2 * s) * (1 / (√(2 * Real.pi) * (a ^ 2)) * (Real.exp (-(exponentAt x m1 v1 / a ^ 2)) / v1)) <
      ((y.count 0 : ℝ) + s) / (y.length + 2 * s) * (1 / (√(2 * Real.pi) * (a ^ 2)) * (Real.exp (-(exponentAt x m0 v0 / a ^ 2)) / v0)) ↔
      (exponentAt x m0 v0 - exponentAt x m1 v1) / a ^ 2 < weightOf sm (y.count 0) v0 - weightOf sm (y.count 1) v1 := by
    have e : ∀ k E v : ℝ, 0 < k → 0 < v → k / (y.length + 2 * s) * (1 / (√(2 * Real.pi) * (a ^ 2)) * (Real.exp (-(E / a ^ 2)) / v)) =
        1 / ((y.length + 2 * s) * (√(2 * Real.pi) * (a ^ 2))) * Real.exp (Real.log (k / v) - E / a ^ 2) := by
      intro k E v hk hv
      rw [Real.exp_sub, Real.exp_log (by positivity), Real.exp_neg]
      field_simp
    rw [e _ _ _ hk1 hv1, e _ _ _ hk0 hv0, mul_lt_mul_iff_right₀ (by positivity), Real.exp_lt_exp]
    unfold weightOf
    rw [← hs, sub_div]
    constructor <;> intro h <;> linarith
  simp only [List.prod_cons, List.prod_nil, mul_one]
  by_cases h : (exponentAt x m0 v0 - exponentAt x m1 v1) / a ^ 2 < weightOf sm (y.count 0) v0 - weightOf sm (y.count 1) v1
  · rw [if_pos h, if_pos (key.2 h)]
  · rw [if_neg h, if_neg fun hh => h (key.1 hh)]

/-- **C246 is false** for naive Bayes: on one continuous attribute the answer for the value `x` depends on the unit EXACTLY when the class that is closer (in the exponent
of the code's density, which divides by the squared variance) is not the class with the larger weight. -/
theorem C246_violated_iff (order : List V → List V) (sm : Bool) (l : List ℝ) (y : List Int) (h01 : ∀ c ∈ y, c = 0 ∨ c = 1) (h0 : 0 ∈ y) (h1 : 1 ∈ y) (m0 v0 m1 v1 : ℝ)
    (hc0 : HasMoments (classPart y 0 l) m0 v0) (hc1 : HasMoments (classPart y 1 l) m1 v1) (hv0 : 0 < v0) (hv1 : 0 < v1) (x : ℝ) :
    (∃ a b : ℝ, 0 < a ∧ 0 < b ∧ nbAnswer order id sm [(Col.cont l).scale a] y [(Cell.cont x).scale a] ≠
        nbAnswer order id sm [(Col.cont l).scale b] y [(Cell.cont x).scale b]) ↔
      0 < (exponentAt x m0 v0 - exponentAt x m1 v1) * (weightOf sm (y.count 0) v0 - weightOf sm (y.count 1) v1) := by
  have ans := fun a ha => C246_answer order sm l y h01 h0 h1 m0 v0 m1 v1 hc0 hc1 hv0 hv1 x a ha
  generalize exponentAt x m0 v0 - exponentAt x m1 v1 = D at ans ⊢
  generalize weightOf sm (y.count 0) v0 - weightOf sm (y.count 1) v1 = L at ans ⊢
  constructor
  · rintro ⟨a, b, ha, hb, hne⟩
    rw [ans a ha, ans b hb] at hne
    by_contra hle
    push Not at hle
    have same : ∀ c : ℝ, 0 < c → (D / c ^ 2 < L ↔ D < L ∨ (D < 0 ∧ L = 0) ∨ (D ≤ 0 ∧ 0 < L) ∨ (D < 0 ∧ 0 ≤ L)) := by
      intro c hc
      have hc2 : 0 < c ^ 2 := by positivity
      rw [div_lt_iff₀ hc2]
      rcases lt_trichotomy D 0 with hD | hD | hD
      · have hL : 0 ≤ L := by
          by_contra h; push Not at h
          exact absurd (mul_pos_of_neg_of_neg hD h) (not_lt.2 hle)
        exact ⟨fun _ => .inr (.inr (.inr ⟨hD, hL⟩)), fun _ => lt_of_lt_of_le hD (mul_nonneg hL hc2.le)⟩
      · subst hD
        constructor
        · intro h
          exact .inl (pos_of_mul_pos_left h hc2.le)
        · rintro (h | ⟨h, -⟩ | ⟨-, h⟩ | ⟨h, -⟩)
          · exact mul_pos h hc2
          · exact absurd h (lt_irrefl _)
          · exact mul_pos h hc2
          · exact absurd h (lt_irrefl _)
      · have hL : L ≤ 0 := by
          by_contra h; push Not at h
          exact absurd (mul_pos hD h) (not_lt.2 hle)
        constructor
        · intro h
          have := mul_nonpos_of_nonpos_of_nonneg hL hc2.le
          linarith
        · rintro (h | ⟨h, -⟩ | ⟨h, -⟩ | ⟨h, -⟩) <;> linarith
    have e1 := same a ha
    have e2 := same b hb
    apply hne
    by_cases h : D / a ^ 2 < L
    · rw [if_pos h, if_pos (e2.2 (e1.1 h))]
    · rw [if_neg h, if_neg fun hh => h (e1.2 (e2.1 hh))]
  · intro hpos
    have hL0 : L ≠ 0 := by rintro rfl; simp at hpos
    have hq : 0 < D / L := by
      rcases lt_or_gt_of_ne hL0 with h | h
      · have : D < 0 := by by_contra hh; push Not at hh; exact absurd hpos (not_lt.2 (mul_nonpos_of_nonneg_of_nonpos hh h.le))
        exact div_pos_of_neg_of_neg this h
      · have : 0 < D := by by_contra hh; push Not at hh; exact absurd hpos (not_lt.2 (mul_nonpos_of_nonpos_of_nonneg hh h.le))
        exact div_pos this h
    have eL : D = D / L * L := (div_mul_cancel₀ D hL0).symm
    have s1 : √(D / L * 2) ^ 2 = D / L * 2 := Real.sq_sqrt (by positivity)
    have s2 : √(D / L / 2) ^ 2 = D / L / 2 := Real.sq_sqrt (by positivity)
    refine ⟨√(D / L * 2), √(D / L / 2), Real.sqrt_pos.2 (by positivity), Real.sqrt_pos.2 (by positivity), ?_⟩
    rw [ans _ (Real.sqrt_pos.2 (by positivity)), ans _ (Real.sqrt_pos.2 (by positivity)), s1, s2]
    have e1 : D / (D / L * 2) = L / 2 := by
      have hD : D ≠ 0 := by rintro rfl; simp at hpos
      field_simp
    have e2 : D / (D / L / 2) = L * 2 := by
      have hD : D ≠ 0 := by rintro rfl; simp at hpos
      field_simp
    rw [e1, e2]
    rcases lt_or_gt_of_ne hL0 with h | h
    · rw [if_neg (by linarith), if_pos (by linarith)]; simp
    · rw [if_pos (by linarith), if_neg (by linarith)]; simp

/-- Data that meet the hypotheses, and for which the answer depends on the unit: class 0 has the values 0, 2 (mean 1, variance 1), class 1 the values 2, 6 (mean 4, variance 4);
the value asked for is 4. -/
example (order : List V → List V) : ∃ a b : ℝ, 0 < a ∧ 0 < b ∧ nbAnswer order id false [(Col.cont [0, 2, 2, 6]).scale a] [0, 0, 1, 1] [(Cell.cont 4).scale a] ≠
    nbAnswer order id false [(Col.cont [0, 2, 2, 6]).scale b] [0, 0, 1, 1] [(Cell.cont 4).scale b] := by
  rw [C246_violated_iff order false [0, 2, 2, 6] [0, 0, 1, 1] (by decide) (by decide) (by decide) 1 1 4 4
    (by refine ⟨by simp [classPart], ?_, ?_⟩ <;> norm_num [classPart]) (by refine ⟨by simp [classPart], ?_, ?_⟩ <;> norm_num [classPart]) (by norm_num) (by norm_num)]
  have h0 : ([0, 0, 1, 1] : List Int).count 0 = 2 := rfl
  have h1 : ([0, 0, 1, 1] : List Int).count 1 = 2 := rfl
  rw [h0, h1]
  have e1 : weightOf false 2 1 = Real.log 2 := by unfold weightOf; norm_num
  have e2 : weightOf false 2 4 = - Real.log 2 := by
    unfold weightOf
    rw [← Real.log_inv]; norm_num
  have hl : 0 < Real.log 2 := Real.log_pos (by norm_num)
  rw [e1, e2]
  apply mul_pos
  · unfold exponentAt; norm_num
  · linarith

end CML.Bayes
