import Verif.Props.PreprocessSym

set_option linter.unusedSectionVars false

/-! # Property C244 (pre-processing data that were already pre-processed) -/

namespace CML.Prep

section Scalers
variable {K : Type*} [Field K] [LinearOrder K] [IsStrictOrderedRing K]

/-- C244 for the min-max scaler: on data with at least two different values, scaling the scaled data returns them unchanged (with the
statistics 0 and 1). -/
theorem C244_minmax_partial (x : List K) (a b : K) (ha : a ∈ x) (hb : b ∈ x) (hab : a ≠ b) :
    ∃ (st : K × K) (z : List K), minMaxCall x = .ok (st, z.map some) ∧ minMaxCall z = .ok ((0, 1), z.map some) := by
  obtain ⟨st, z, h1, -, h2, h3, h4, -⟩ := C61_minmax x a b ha hb hab
  refine ⟨st, z, h1, ?_⟩
  have e0 : z.min? = some 0 := List.min?_eq_some_iff.2 ⟨h3, fun v hv => (h2 v hv).1⟩
  have e1 : z.max? = some 1 := List.max?_eq_some_iff.2 ⟨h4, fun v hv => (h2 v hv).2⟩
  simp [minMaxCall, e0, e1, npDiv]

example : minMaxCall ([1, 0, 1/2] : List ℚ) = .ok ((0, 1), [some 1, some 0, some (1/2)]) := by decide +kernel

/-- The second call of the standard scaler returns the deviations from the mean: the division of the first call is undone. -/
theorem standard_twice (x : List K) (m s : K) (hm : IsMean x m) (hs : IsVar x s) (h0 : 0 < s) :
    ∃ (st st' : Option K × Option K) (z : List K), standardCall x = (st, z.map some) ∧ z = x.map (fun v => (v - m) / s) ∧
      standardCall z = (st', (x.map fun v => v - m).map some) := by
  have e := standard_eq ((isMean_iff m).1 hm) ((isVar_iff s).1 hs) h0.ne'
  have hz : (x.map fun v => (v - m) / s) = x.map fun v => s⁻¹ * v + (-(m / s)) := by
    apply List.map_congr_left; intro v _; field_simp; ring
  have m0 : mean (x.map fun v => (v - m) / s) = some 0 := by
    rw [hz, mean_affine, (isMean_iff m).1 hm, Option.map_some, Option.some.injEq]; field_simp; ring
  have v0 : var (x.map fun v => (v - m) / s) = some (1 / s) := by
    rw [hz, var_affine, (isVar_iff s).1 hs, Option.map_some, Option.some.injEq]; field_simp
  refine ⟨_, (some 0, some (1 / s)), _, e, rfl, ?_⟩
  rw [standard_eq m0 v0 (one_div_ne_zero h0.ne'), List.map_map, List.map_map]
  rw [List.map_map]
  congr 1
  apply List.map_congr_left
  intro v _
  simp only [Function.comp, Option.some.injEq]
  field_simp
  ring

/-- C244 is false for the standard scaler: scaling the scaled data returns the deviations from the mean (the division by the variance is
undone), so the result changes unless the variance was 1. -/
theorem C244_standard_violated (x : List K) (m s : K) (hm : IsMean x m) (hs : IsVar x s) (h0 : 0 < s) :
    ∃ (st st' : Option K × Option K) (z z' : List K), standardCall x = (st, z.map some) ∧ standardCall z = (st', z'.map some) ∧
      z' = x.map (fun v => v - m) ∧ (z' = z ↔ s = 1) := by
  obtain ⟨st, st', z, h1, hz, h2⟩ := standard_twice x m s hm hs h0
  refine ⟨st, st', z, _, h1, h2, rfl, ?_⟩
  constructor
  · intro h
    by_contra hne
    rw [hz] at h
    have hall : ∀ v ∈ x, v = m := by
      intro v hv
      have e := (List.map_inj_left.1 h) v hv
      have e1 : (v - m) * (s - 1) = 0 := by
        have e2 : (v - m) * s = v - m := by
          rw [eq_div_iff h0.ne'] at e; exact e
        linear_combination e2
      rcases mul_eq_zero.1 e1 with h3 | h3
      · linarith
      · exact absurd (by linarith) hne
    obtain ⟨m', hm', hv'⟩ := hs
    have e1 := (isMean_iff m).1 hm
    rw [(isMean_iff m').1 hm', Option.some.injEq] at e1
    subst e1
    have e2 : x.map (fun v => (v - m') ^ 2) = x.map fun _ => (0 : K) := List.map_congr_left fun v hv => by
      have := hall v hv
      rw [this]; simp
    have e3 := hv'.2
    rw [e2] at e3
    have hl : (0 : K) < x.length := by exact_mod_cast List.length_pos_of_ne_nil hm'.1
    simp at e3
    rcases e3 with h | h
    · exact h0.ne' h
    · exact hm'.1 h
  · rintro rfl
    rw [hz]
    apply List.map_congr_left
    intro v _
    simp

example : standardCall ([0, 4] : List ℚ) = ((some 2, some 4), [some (-1/2), some (1/2)]) ∧
    standardCall ([-1/2, 1/2] : List ℚ) = ((some 0, some (1/4)), [some (-2), some 2]) := by decide +kernel

end Scalers

section Imputer
variable {K : Type*} [Field K] [LinearOrder K] [IsStrictOrderedRing K]

/-- The conversion of a column without unreadable strings, and what is written back. -/
theorem fill_ok (fl store : K → K) (parse : String → Option K) (mode : List (Cell K) → Cell K) (col : List (Cell K)) (vs : List (Option K))
    (h : col.mapM (Cell.toFloat fl parse) = .ok vs) : ∃ ws : List (Option K), fillColumn fl store parse mode col = numericColumn ws ∧
      ((∃ v, some v ∈ vs) → ∀ w ∈ ws, ∃ v, w = some (store v) ∧ (some v ∈ vs ∨ ∃ m, v = fl m)) ∧ ((∀ v, some v ∉ vs) → ∀ w ∈ ws, w = none) := by
  unfold fillColumn
  rw [h]
  refine ⟨vs.map fun v => (match v with | some v => some v | none => (mean (vs.filterMap id)).map fl).map store, ?_, ?_, ?_⟩
  · simp only [numericColumn, List.map_map]
    apply List.map_congr_left
    intro v _
    cases v with
    | some v => rfl
    | none =>
      simp only [Function.comp]
      cases (mean (vs.filterMap id)) <;> rfl
  · rintro ⟨v, hv⟩ w hw
    obtain ⟨u, hu, rfl⟩ := List.mem_map.1 hw
    cases u with
    | some u => exact ⟨u, rfl, .inl hu⟩
    | none =>
      have hne : vs.filterMap id ≠ [] := List.ne_nil_of_mem (List.mem_filterMap.2 ⟨some v, hv, rfl⟩)
      rw [mean_some hne]
      exact ⟨_, rfl, .inr ⟨_, rfl⟩⟩
  · intro hn w hw
    obtain ⟨u, hu, rfl⟩ := List.mem_map.1 hw
    cases u with
    | some u => exact absurd hu (hn u)
    | none =>
      have hne : vs.filterMap id = [] := by
        rw [List.filterMap_eq_nil_iff]
        intro a ha
        cases a with
        | none => rfl
        | some a => exact absurd ha (hn a)
      rw [hne]; simp [mean, npDiv]

/-- The values read are conversions. -/
theorem read_fl (fl : K → K) (parse : String → Option K) : ∀ (col : List (Cell K)) (vs : List (Option K)),
    col.mapM (Cell.toFloat fl parse) = .ok vs → ∀ v, some v ∈ vs → ∃ u, v = fl u := by
  intro col
  induction col with
  | nil => intro vs h v hv; cases h; cases hv
  | cons c col ih =>
    intro vs h v hv
    rw [List.mapM_cons] at h
    cases hc : c.toFloat fl parse with
    | error e => rw [hc] at h; cases h
    | ok w =>
      cases hl : col.mapM (Cell.toFloat fl parse) with
      | error e => rw [hc, hl] at h; cases h
      | ok ws =>
        rw [hc, hl] at h
        cases h
        rcases List.mem_cons.1 hv with h1 | h1
        · cases c with
          | num u => cases hc; cases h1; exact ⟨_, rfl⟩
          | missing => cases hc; cases h1
          | str s =>
            simp only [Cell.toFloat] at hc
            cases hp : parse s with
            | none => rw [hp] at hc; cases hc
            | some u => rw [hp] at hc; cases hc; cases h1; exact ⟨_, rfl⟩
        · exact ih ws hl v h1

/-- C244 for the imputer: filling a filled table changes nothing, for every table (numbers, strings, missing values, columns without a
value), provided that converting a converted number changes nothing and the most frequent cell is one of the cells. -/
theorem C244_imputer_partial (fl store : K → K) (parse : String → Option K) (mode : List (Cell K) → Cell K)
    (hst : ∀ v, store (fl (store (fl v))) = store (fl v)) (hmode : ∀ l : List (Cell K), l ≠ [] → mode l ∈ l)
    (table : List (List (Cell K))) :
    impute fl store parse mode (impute fl store parse mode table) = impute fl store parse mode table := by
  unfold impute
  rw [List.map_map]
  apply List.map_congr_left
  intro col _
  simp only [Function.comp]
  rcases mapM_toFloat fl parse col with ⟨vs, hvs⟩ | ⟨⟨s, hs, hp⟩, e, he⟩
  · obtain ⟨ws, h1, h2, h3⟩ := fill_ok fl store parse mode col vs hvs
    rw [h1]
    by_cases hv : ∃ v, some v ∈ vs
    · have hw := h2 hv
      cases hl : ws with
      | nil => rfl
      | cons w0 ws0 =>
        rw [← hl]
        obtain ⟨v1, e1, -⟩ := hw w0 (by simp [hl])
        obtain ⟨m, -, h5⟩ := C65_numeric fl store parse mode ws ⟨store v1, by rw [hl, ← e1]; simp⟩
        rw [h5]
        unfold numericColumn
        apply List.map_congr_left
        intro w hww
        obtain ⟨v, rfl, h6⟩ := hw w hww
        have h7 : ∃ u, v = fl u := by
          rcases h6 with h6 | ⟨m, rfl⟩
          · exact read_fl fl parse col vs hvs v h6
          · exact ⟨m, rfl⟩
        obtain ⟨u, rfl⟩ := h7
        simp only [hst]
    · push Not at hv
      have : numericColumn ws = List.replicate ws.length .missing := by
        rw [List.eq_replicate_iff]
        refine ⟨by simp [numericColumn], ?_⟩
        intro c hc
        obtain ⟨w, hw, rfl⟩ := List.mem_map.1 hc
        rw [h3 hv w hw]
      rw [this, C65_all_missing]
  · have e1 : fillColumn fl store parse mode col = col.map fun c => if c = .missing then mode (col.filter fun c => decide (c ≠ .missing)) else c := by
      unfold fillColumn; rw [he]
    have hmem : (Cell.str s : Cell K) ∈ col.filter fun c => decide (c ≠ .missing) := by simp [hs]
    have hm := hmode _ (List.ne_nil_of_mem hmem)
    have hm2 : mode (col.filter fun c => decide (c ≠ .missing)) ≠ .missing := by simpa using (List.mem_filter.1 hm).2
    have hs2 : Cell.str s ∈ fillColumn fl store parse mode col := by
      rw [e1]; exact List.mem_map.2 ⟨_, hs, by simp⟩
    have hno : ∀ c ∈ fillColumn fl store parse mode col, c ≠ .missing := by
      rw [e1]; intro c hc
      obtain ⟨a, -, rfl⟩ := List.mem_map.1 hc
      by_cases h : a = .missing
      · rw [if_pos h]; exact hm2
      · rw [if_neg h]; exact h
    generalize fillColumn fl store parse mode col = col' at hs2 hno ⊢
    have he' : ∃ e, col'.mapM (Cell.toFloat fl parse) = .error e := by
      clear e1 hno hmem hm hm2 he hs
      induction col' with
      | nil => cases hs2
      | cons c col' ih =>
        rw [List.mapM_cons]
        rcases toFloat_isOk fl parse c with ⟨v, hv⟩ | ⟨s', -, -, he⟩
        · rcases List.mem_cons.1 hs2 with h | h
          · subst h; simp [Cell.toFloat, hp] at hv
          · obtain ⟨e, he⟩ := ih h
            exact ⟨e, by rw [hv, he]; rfl⟩
        · exact ⟨_, by rw [he]; rfl⟩
    obtain ⟨e', he'⟩ := he'
    unfold fillColumn
    rw [he']
    dsimp only
    conv_rhs => rw [← List.map_id col']
    apply List.map_congr_left
    intro c hc
    rw [if_neg (hno c hc)]; rfl

example : (∀ v : ℚ, id (id (id (id v))) = id (id v)) ∧
    impute (id : ℚ → ℚ) id (fun _ => none) (fun l => l.headD .missing) [[.num 1, .missing], [.str "a", .missing]] = [[.num 1, .num 1], [.str "a", .str "a"]] :=
  ⟨fun _ => rfl, by decide +kernel⟩

end Imputer
end CML.Prep
