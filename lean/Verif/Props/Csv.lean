import Verif.Spec.Csv
import Verif.Props.Features
import Verif.Props.Preprocess
import Verif.Lemmas.Sym

set_option linter.unusedSectionVars false

/-! # Properties C199–C201: loading a CSV file -/

namespace CML.Csv
open CML.Prep CML.Data

variable {bits : Nat} {garbage : ℚ} {o : Opts ℚ}

theorem isWhole_iff (q : ℚ) : isWhole q = true ↔ (∃ k : Int, q = k) ∧ -(2 : ℚ) ^ 63 ≤ q ∧ q < (2 : ℚ) ^ 63 := by
  unfold isWhole
  rw [decide_eq_true_iff]
  refine and_congr ⟨fun h => ⟨q.num, ((Rat.den_eq_one_iff q).1 h).symm⟩, ?_⟩ Iff.rfl
  rintro ⟨k, rfl⟩
  exact Rat.den_intCast k

theorem takenForInts_iff (v : List (Option ℚ)) : takenForInts v = true ↔ ∀ q, some q ∈ v → isWhole q = true := by
  unfold takenForInts
  rw [List.all_eq_true]
  constructor
  · intro h q hq; simpa using h _ hq
  · intro h o ho
    cases o with
    | none => rfl
    | some q => simpa using h q ho

theorem convert_error_iff (fl : ℚ → ℚ) (c : Col) : (∃ e, convertColumn bits fl c = .error e) ↔ WholeWithGap c := by
  cases c with
  | ints v => simp [convertColumn, WholeWithGap]
  | texts v => simp [convertColumn, WholeWithGap]
  | floats v =>
    simp only [convertColumn, WholeWithGap, Col.floats.injEq, exists_eq_left']
    by_cases h : takenForInts v = true
    · rw [if_pos h]
      have h' := (takenForInts_iff v).1 h
      by_cases hs : v.all Option.isSome = true
      · rw [if_pos hs]
        constructor
        · rintro ⟨e, he⟩; exact absurd he (by simp)
        · rintro ⟨hn, -⟩
          have := List.all_eq_true.1 hs _ hn
          simp at this
      · rw [if_neg hs]
        refine ⟨fun _ => ⟨?_, fun q hq => (isWhole_iff q).1 (h' q hq)⟩, fun _ => ⟨_, rfl⟩⟩
        by_contra hn
        apply hs
        rw [List.all_eq_true]
        intro o ho
        cases o with
        | none => exact absurd ho hn
        | some q => rfl
    · rw [if_neg h]
      constructor
      · rintro ⟨e, he⟩; exact absurd he (by simp)
      · rintro ⟨-, hq⟩
        exact absurd ((takenForInts_iff v).2 fun q h1 => (isWhole_iff q).2 (hq q h1)) h

theorem convert_error (fl : ℚ → ℚ) (c : Col) (e : PyErr) (h : convertColumn bits fl c = .error e) : e = .valueError := by
  cases c with
  | ints v => simp [convertColumn] at h
  | texts v => simp [convertColumn] at h
  | floats v =>
    simp only [convertColumn] at h
    split at h
    · split at h
      · simp at h
      · simpa using h.symm
    · simp at h

theorem mapM_convert (fl : ℚ → ℚ) (cols : List Col) :
    (cols.mapM (convertColumn bits fl) = .error .valueError ∧ ∃ c ∈ cols, WholeWithGap c) ∨
    ∃ cs, cols.mapM (convertColumn bits fl) = .ok cs ∧ (∀ c ∈ cols, ¬ WholeWithGap c) ∧ List.Forall₂ (fun c x => convertColumn bits fl c = .ok x) cols cs := by
  induction cols with
  | nil => exact .inr ⟨[], rfl, by simp, .nil⟩
  | cons c cols ih =>
    rw [List.mapM_cons]
    cases hc : convertColumn bits fl c with
    | error e =>
      obtain rfl := convert_error fl c e hc
      exact .inl ⟨rfl, c, by simp, (convert_error_iff fl c).1 ⟨_, hc⟩⟩
    | ok x =>
      have hg : ¬ WholeWithGap c := by
        intro h
        obtain ⟨e, he⟩ := (convert_error_iff (bits := bits) fl c).2 h
        rw [hc] at he; simp at he
      rcases ih with ⟨h1, c', h2, h3⟩ | ⟨cs, h1, h2, h3⟩
      · refine .inl ⟨?_, c', List.mem_cons_of_mem _ h2, h3⟩
        rw [h1]; rfl
      · refine .inr ⟨x :: cs, by rw [h1]; rfl, ?_, .cons hc h3⟩
        intro c' hc'
        rcases List.mem_cons.1 hc' with rfl | h
        · exact hg
        · exact h2 c' h

theorem naFirst_text (parse : String → Option ℚ) (v : List (Option String)) :
    naFirst parse (v.map fun o => match o with | some s => CsvCell.str s | none => .na) = true ↔ GapFirst parse (.texts v) := by
  induction v with
  | nil =>
    simp only [List.map_nil, naFirst, Bool.false_eq_true, false_iff]
    rintro ⟨pre, post, h, -⟩
    simp at h
  | cons o v ih =>
    cases o with
    | none =>
      simp only [List.map_cons, naFirst, true_iff]
      exact ⟨[], v, rfl, by simp⟩
    | some s =>
      simp only [List.map_cons, naFirst]
      by_cases hs : parse s = none
      · rw [if_pos hs]
        simp only [Bool.false_eq_true, false_iff]
        rintro ⟨pre, post, h, hp⟩
        simp only [Col.texts.injEq] at h
        cases pre with
        | nil => simp at h
        | cons p pre =>
          simp only [List.cons_append, List.cons.injEq] at h
          obtain ⟨s', hs', hne⟩ := hp p (by simp)
          rw [← h.1] at hs'
          simp only [Option.some.injEq] at hs'
          exact hne (hs' ▸ hs)
      · rw [if_neg hs, ih]
        constructor
        · rintro ⟨pre, post, h, hp⟩
          simp only [Col.texts.injEq] at h
          refine ⟨some s :: pre, post, by rw [h]; rfl, ?_⟩
          intro p hp'
          rcases List.mem_cons.1 hp' with rfl | h'
          · exact ⟨s, rfl, hs⟩
          · exact hp p h'
        · rintro ⟨pre, post, h, hp⟩
          simp only [Col.texts.injEq] at h
          cases pre with
          | nil => simp at h
          | cons p pre =>
            simp only [List.cons_append, List.cons.injEq] at h
            exact ⟨pre, post, by rw [h.2], fun p' hp' => hp p' (List.mem_cons_of_mem _ hp')⟩

theorem naFirst_numbers (parse : String → Option ℚ) (l : List CsvCell) (h : ∀ x ∈ l, (∃ q, x = .num q) ∨ x = .nan) : naFirst parse l = false := by
  induction l with
  | nil => rfl
  | cons x l ih =>
    have := ih fun y hy => h y (List.mem_cons_of_mem _ hy)
    rcases h x (by simp) with ⟨q, rfl⟩ | rfl <;> simpa [naFirst] using this

theorem naFirst_iff (parse : String → Option ℚ) (fl : ℚ → ℚ) (c : Col) (x : List CsvCell) (h : convertColumn bits fl c = .ok x) : naFirst parse x = true ↔ GapFirst parse c := by
  have hn : (∀ y ∈ x, (∃ q, y = .num q) ∨ y = .nan) → (∀ v, c ≠ .texts v) → (naFirst parse x = true ↔ GapFirst parse c) := by
    intro h1 h2
    rw [naFirst_numbers parse x h1]
    simp only [Bool.false_eq_true, false_iff]
    rintro ⟨pre, post, h, -⟩
    exact h2 _ h
  cases c with
  | ints v =>
    simp only [convertColumn, Except.ok.injEq] at h
    subst h
    exact hn (by intro y hy; obtain ⟨k, -, rfl⟩ := List.mem_map.1 hy; exact .inl ⟨_, rfl⟩) (by simp)
  | texts v =>
    simp only [convertColumn, Except.ok.injEq] at h
    subst h
    exact naFirst_text parse v
  | floats v =>
    simp only [convertColumn] at h
    split at h
    · split at h
      · simp only [Except.ok.injEq] at h
        subst h
        exact hn (by intro y hy; obtain ⟨k, -, rfl⟩ := List.mem_map.1 hy; exact .inl ⟨_, rfl⟩) (by simp)
      · simp at h
    · simp only [Except.ok.injEq] at h
      subst h
      refine hn ?_ (by simp)
      intro y hy
      obtain ⟨k, -, rfl⟩ := List.mem_map.1 hy
      cases k with
      | none => exact .inr rfl
      | some q => exact .inl ⟨_, rfl⟩

/-- **C199** fails: a file with a column of whole numbers (the label column included) in which an entry is missing cannot be loaded at all, whether or not missing values are to be filled. -/
theorem C199_whole_numbers (cols : List Col) (label : Col) (h : ∃ c ∈ label :: cols, WholeWithGap c) : fromCsv bits garbage o cols label = .error .valueError := by
  unfold fromCsv
  rcases mapM_convert (bits := bits) o.fl cols with ⟨h1, -⟩ | ⟨cs, h1, h2, -⟩
  · rw [h1]; rfl
  · rw [h1]
    obtain ⟨c, hc, hw⟩ := h
    rcases List.mem_cons.1 hc with rfl | hc
    · obtain ⟨e, he⟩ := (convert_error_iff (bits := bits) o.fl c).2 hw
      rw [convert_error o.fl c e he] at he
      simp only [Except.bind, he]
    · exact absurd hw (h2 c hc)

theorem any_naFirst (cols : List Col) (cs : List (List CsvCell)) (h : List.Forall₂ (fun c x => convertColumn bits o.fl c = .ok x) cols cs) :
    cs.any (naFirst o.parse) = true ↔ ∃ c ∈ cols, GapFirst o.parse c := by
  induction h with
  | nil => simp
  | cons hc _ ih => simp [naFirst_iff o.parse o.fl _ _ hc, ih]

/-- **C199** fails: a file with a text column in which an entry is missing before the first word (for example in the first row) cannot be loaded either. -/
theorem C199_text_gap_first (cols : List Col) (label : Col) (h0 : ∀ c ∈ label :: cols, ¬ WholeWithGap c) (h : ∃ c ∈ cols, GapFirst o.parse c) :
    fromCsv bits garbage o cols label = .error .typeError := by
  unfold fromCsv
  rcases mapM_convert (bits := bits) o.fl cols with ⟨-, c, h1, h2⟩ | ⟨cs, h1, h2, h3⟩
  · exact absurd h2 (h0 c (List.mem_cons_of_mem _ h1))
  · rw [h1]
    cases hl : convertColumn bits o.fl label with
    | error e => exact absurd ((convert_error_iff (bits := bits) o.fl label).1 ⟨e, hl⟩) (h0 label (by simp))
    | ok y =>
      simp only [Except.bind]
      rw [if_pos ((any_naFirst cols cs h3).2 h)]

theorem first_gap {α : Type} (v : List (Option α)) (h : none ∈ v) : ∃ pre post, v = pre ++ none :: post ∧ ∀ o ∈ pre, o.isSome = true := by
  induction v with
  | nil => simp at h
  | cons o v ih =>
    cases o with
    | none => exact ⟨[], v, rfl, by simp⟩
    | some s =>
      obtain ⟨pre, post, e, hp⟩ := ih (by simpa using h)
      refine ⟨some s :: pre, post, by rw [e]; rfl, ?_⟩
      intro o ho
      rcases List.mem_cons.1 ho with rfl | ho
      · rfl
      · exact hp o ho

theorem features_fill (o : Opts ℚ) (hf : o.fillna = true) (cols : List (List (Cell ℚ))) :
    features o cols = features { o with fillna := false } (impute o.fl o.fillStore o.parse o.mode cols) := by
  unfold features
  rw [hf]
  rfl

theorem features_default (o : Opts ℚ) (hf : o.fillna = true) (hd : o.digitization = false) (hn : o.normalization = false) (hs : o.standardization = false) (cols : List (List (Cell ℚ))) :
    features o cols = .ok (impute o.fl o.fillStore o.parse o.mode cols) := by
  rw [features_fill o hf, C106_in_place { o with fillna := false } rfl hd]
  congr 1
  conv_rhs => rw [← List.map_id (impute o.fl o.fillStore o.parse o.mode cols)]
  apply List.map_congr_left
  intro c _
  unfold scaled scaleColumn
  simp only [hn, hs, Bool.false_eq_true, if_false, id]
  cases c.mapM (Cell.toFloat o.fl o.parse) <;> rfl

/-- **C199.** Every other file loads: with the default settings (fill missing values, no scaling) the result has no missing entry. -/
theorem C199_loads_partial (hf : o.fillna = true) (hd : o.digitization = false) (hn : o.normalization = false) (hs : o.standardization = false)
    (hmode : ∀ l : List (Cell ℚ), l ≠ [] → MostFrequent l (o.mode l)) (cols : List Col) (label : Col)
    (h0 : ∀ c ∈ label :: cols, ¬ WholeWithGap c) (h1 : ∀ c ∈ cols, ¬ GapFirst o.parse c) :
    ∃ t, fromCsv bits garbage o cols label = .ok t ∧ t.length = cols.length ∧ Complete t := by
  unfold fromCsv
  rcases mapM_convert (bits := bits) o.fl cols with ⟨-, c, h2, h3⟩ | ⟨cs, h2, h3, h4⟩
  · exact absurd h3 (h0 c (List.mem_cons_of_mem _ h2))
  · rw [h2]
    cases hl : convertColumn bits o.fl label with
    | error e => exact absurd ((convert_error_iff (bits := bits) o.fl label).1 ⟨e, hl⟩) (h0 label (by simp))
    | ok y =>
      simp only [Except.bind]
      rw [if_neg (by rw [any_naFirst cols cs h4]; rintro ⟨c, hc, hg⟩; exact h1 c hc hg)]
      rw [features_default _ (by exact hf) (by exact hd) (by exact hn) (by exact hs)]
      refine ⟨_, rfl, by simp [impute, h4.length_eq], ?_⟩
      intro c hc
      unfold impute at hc
      simp only [List.map_map] at hc
      obtain ⟨x, hx, rfl⟩ := List.mem_map.1 hc
      obtain ⟨col, hcol, hconv⟩ : ∃ col ∈ cols, convertColumn bits o.fl col = .ok x := by
        clear hc h2 h3 h0 h1 hl
        induction h4 with
        | nil => simp at hx
        | cons h _ ih =>
          rcases List.mem_cons.1 hx with rfl | hx
          · exact ⟨_, List.mem_cons_self, h⟩
          · obtain ⟨c, hc, h'⟩ := ih hx
            exact ⟨c, List.mem_cons_of_mem _ hc, h'⟩
      have hng := h1 col hcol
      dsimp only [Function.comp]
      -- numeric columns and text columns
      have numeric : ∀ vals : List (Option ℚ), x.map CsvCell.cell = numericColumn vals → ((∃ v, some v ∈ vals) ∨ vals = []) →
          ∀ y ∈ fillColumn o.fl o.fillStore o.parse o.mode (x.map CsvCell.cell), y ≠ .missing := by
        intro vals he hp y hy
        rw [he] at hy
        rcases hp with hp | rfl
        · obtain ⟨m, -, h⟩ := C65_numeric o.fl o.fillStore o.parse o.mode vals hp
          rw [h] at hy
          obtain ⟨v, -, rfl⟩ := List.mem_map.1 hy
          cases v <;> simp
        · have : numericColumn ([] : List (Option ℚ)) = [] := rfl
          rw [this] at hy
          simp [fillColumn, pure, Except.pure] at hy
      cases col with
      | ints v =>
        simp only [convertColumn, Except.ok.injEq] at hconv
        subst hconv
        refine numeric (v.map fun k => some ((wrap bits k : Int) : ℚ)) ?_ ?_
        · simp [numericColumn, CsvCell.cell, List.map_map, Function.comp_def]
        · cases v with
          | nil => exact .inr rfl
          | cons k v => exact .inl ⟨_, List.mem_cons_self⟩
      | floats v =>
        simp only [convertColumn] at hconv
        split at hconv
        · split at hconv
          · simp only [Except.ok.injEq] at hconv
            subst hconv
            refine numeric (v.map fun o => some ((wrap bits ((o.map Rat.floor).getD 0) : Int) : ℚ)) ?_ ?_
            · simp [numericColumn, CsvCell.cell, List.map_map, Function.comp_def]
            · cases v with
              | nil => exact .inr rfl
              | cons k v => exact .inl ⟨_, List.mem_cons_self⟩
          · simp at hconv
        · rename_i ht
          simp only [Except.ok.injEq] at hconv
          subst hconv
          refine numeric (v.map (Option.map o.fl)) ?_ (.inl ?_)
          · simp only [numericColumn, List.map_map]
            apply List.map_congr_left
            intro a _
            cases a <;> rfl
          · by_contra hc
            apply ht
            rw [takenForInts_iff]
            intro q hq
            exact absurd ⟨o.fl q, List.mem_map.2 ⟨_, hq, rfl⟩⟩ hc
      | texts v =>
        have hx' : x = v.map fun o => match o with | some s => CsvCell.str s | none => .na := by
          simp only [convertColumn, Except.ok.injEq] at hconv
          exact hconv.symm
        by_cases hm : none ∈ v
        · -- a word exists
          have : ∃ s, some s ∈ v ∧ o.parse s = none := by
            by_contra hc
            push Not at hc
            obtain ⟨pre, post, rfl, hp⟩ := first_gap v hm
            apply hng
            refine ⟨pre, post, rfl, fun p hp' => ?_⟩
            obtain ⟨s, rfl⟩ := Option.isSome_iff_exists.1 (hp p hp')
            exact ⟨s, rfl, hc s (List.mem_append_left _ hp')⟩
          obtain ⟨s, hs1, hs2⟩ := this
          have hmem : Cell.str s ∈ x.map CsvCell.cell := by
            rw [hx']
            exact List.mem_map.2 ⟨.str s, List.mem_map.2 ⟨some s, hs1, rfl⟩, rfl⟩
          obtain ⟨c, -, hc, h⟩ := C65_categorical o.fl o.fillStore o.parse o.mode (x.map CsvCell.cell) hmode s hmem hs2
          intro y hy
          rw [h] at hy
          obtain ⟨a, -, rfl⟩ := List.mem_map.1 hy
          by_cases ha : a = .missing
          · rw [if_pos ha]; exact hc
          · rw [if_neg ha]; exact ha
        · -- no gap: nothing is missing
          have hall : ∀ a ∈ x.map CsvCell.cell, ∃ s, a = .str s := by
            intro a ha
            rw [hx'] at ha
            obtain ⟨z, hz, rfl⟩ := List.mem_map.1 ha
            obtain ⟨w, hw, rfl⟩ := List.mem_map.1 hz
            cases w with
            | none => exact absurd hw hm
            | some s => exact ⟨s, rfl⟩
          generalize x.map CsvCell.cell = col at hall
          intro y hy
          unfold fillColumn at hy
          rcases mapM_toFloat o.fl o.parse col with ⟨vs, hvs⟩ | ⟨-, e, he⟩
          · rw [hvs] at hy
            simp only [List.mem_map] at hy
            obtain ⟨v', hv', rfl⟩ := hy
            cases v' with
            | some w => simp
            | none =>
              exfalso
              obtain ⟨i, hi⟩ := List.mem_iff_getElem?.1 hv'
              obtain ⟨hlen, hget⟩ := CML.Data.mapM_inv hvs
              have hil : i < col.length := by
                rw [← hlen]; exact (List.getElem?_eq_some_iff.1 hi).1
              obtain ⟨s, hs'⟩ := hall _ (List.getElem_mem hil)
              obtain ⟨b, hb1, hb2⟩ := hget i _ (List.getElem?_eq_getElem hil)
              rw [hs'] at hb1
              rw [hi] at hb2
              simp only [Option.some.injEq] at hb2
              subst hb2
              simp only [Cell.toFloat] at hb1
              cases hps : o.parse s with
              | none => rw [hps] at hb1; simp at hb1
              | some w => rw [hps] at hb1; simp at hb1
          · rw [he] at hy
            simp only [List.mem_map] at hy
            obtain ⟨a, ha, rfl⟩ := hy
            obtain ⟨s, rfl⟩ := hall a ha
            simp

/-- A column 1, (missing), 3 and a text column with the gap in the first row. -/
example : WholeWithGap (.floats [some 1, none, some 3]) ∧ GapFirst (fun _ => none) (.texts [none, some "a"]) ∧ ¬ WholeWithGap (.floats [some (1/2), none]) ∧
    fromCsv 32 0 (exampleOpts false false false true storeFloat) [.floats [some 1, none, some 3]] (.ints [0, 1, 1]) = .error .valueError ∧
    fromCsv 32 0 (exampleOpts false false false true storeFloat) [.texts [none, some "a"]] (.ints [0, 1]) = .error .typeError ∧
    fromCsv 32 0 (exampleOpts false false false true storeFloat) [.texts [some "a", none], .floats [some (1/2), none]] (.ints [0, 1]) =
      .ok [[.str "a", .str "a"], [.num (1/2), .num (1/2)]] := by
  refine ⟨⟨_, rfl, by simp, ?_⟩, ⟨[], [some "a"], rfl, by simp⟩, ?_, by decide +kernel, by decide +kernel, by decide +kernel⟩
  · intro q hq
    have : q = 1 ∨ q = 3 := by simpa using hq
    rcases this with rfl | rfl
    · exact ⟨⟨1, by norm_num⟩, by norm_num, by norm_num⟩
    · exact ⟨⟨3, by norm_num⟩, by norm_num, by norm_num⟩
  · rintro ⟨v, h, -, hq⟩
    simp only [Col.floats.injEq] at h
    subst h
    obtain ⟨⟨k, hk⟩, -⟩ := hq (1/2) (by simp)
    have : (2 : ℚ) * k = 1 := by rw [← hk]; norm_num
    have : 2 * k = 1 := by exact_mod_cast this
    omega

/-! ## C200: the numbers of the file -/

theorem wrap_eq_iff {bits : Nat} (hb : 1 ≤ bits) (v : Int) : wrap bits v = v ↔ -2 ^ (bits - 1) ≤ v ∧ v < 2 ^ (bits - 1) := by
  obtain ⟨b, rfl⟩ : ∃ b, bits = b + 1 := ⟨bits - 1, by omega⟩
  have h2 : (2 : Int) ^ (b + 1) = 2 * 2 ^ b := by rw [pow_succ]; ring
  have hp : (0 : Int) < 2 ^ b := by positivity
  unfold wrap
  simp only [Nat.add_sub_cancel]
  rw [h2]
  constructor
  · intro h
    have h1 := Int.emod_nonneg (v + 2 ^ b) (show (2 * 2 ^ b : Int) ≠ 0 by omega)
    have h3 := Int.emod_lt_of_pos (v + 2 ^ b) (show (0 : Int) < 2 * 2 ^ b by omega)
    constructor <;> omega
  · rintro ⟨h, h'⟩
    rw [Int.emod_eq_of_lt (by omega) (by omega)]
    omega

/-- **C200.** A column of whole numbers arrives as it is in the file if and only if all of them have at most `bits` bits (32 by default; the others are reduced modulo `2 ^ bits`). -/
theorem C200_whole_iff (hb : 1 ≤ bits) (fl : ℚ → ℚ) (v : List Int) :
    convertColumn bits fl (.ints v) = .ok (v.map fun k : Int => .num (k : ℚ)) ↔ ∀ k ∈ v, -2 ^ (bits - 1) ≤ k ∧ k < 2 ^ (bits - 1) := by
  simp only [convertColumn, Except.ok.injEq, List.map_inj_left, CsvCell.num.injEq, Int.cast_inj]
  exact forall₂_congr fun k _ => wrap_eq_iff hb k

theorem wholeNumbers_floats {v : List (Option ℚ)} {z : List Int} (h : wholeNumbers (.floats v) = some z) : v = z.map (fun k : Int => some (k : ℚ)) ∧ takenForInts v = true := by
  simp only [wholeNumbers] at h
  induction v generalizing z with
  | nil =>
    simp only [List.mapM_nil, pure, Option.some.injEq] at h
    subst h; exact ⟨rfl, rfl⟩
  | cons o v ih =>
    rw [List.mapM_cons] at h
    cases o with
    | none => simp at h
    | some q =>
      simp only [Option.bind_some] at h
      by_cases hq : q.den = 1 ∧ -(2 : ℚ) ^ 63 ≤ q ∧ q < (2 : ℚ) ^ 63
      · rw [if_pos hq] at h
        cases hr : v.mapM (fun o => o.bind fun q => if q.den = 1 ∧ -(2 : ℚ) ^ 63 ≤ q ∧ q < (2 : ℚ) ^ 63 then some q.num else none) with
        | none => rw [hr] at h; simp at h
        | some z' =>
          rw [hr] at h
          simp only [bind, Option.bind_some, pure, Option.some.injEq] at h
          subst h
          obtain ⟨h1, h2⟩ := ih hr
          refine ⟨by rw [List.map_cons, ← h1, (Rat.den_eq_one_iff q).1 hq.1], ?_⟩
          rw [takenForInts_iff] at h2 ⊢
          intro q' hq'
          rcases List.mem_cons.1 hq' with e | e
          · simp only [Option.some.injEq] at e
            subst e
            unfold isWhole; simpa using hq
          · exact h2 q' e
      · rw [if_neg hq] at h; simp at h

theorem convert_whole (fl : ℚ → ℚ) (c : Col) (z : List Int) (h : wholeNumbers c = some z) :
    convertColumn bits fl c = .ok (z.map fun k => .num (wrap bits k)) ∧ intColumn c = true := by
  cases c with
  | ints v =>
    simp only [wholeNumbers, Option.some.injEq] at h
    subst h; exact ⟨rfl, rfl⟩
  | texts v => simp [wholeNumbers] at h
  | floats v =>
    obtain ⟨h1, h2⟩ := wholeNumbers_floats h
    refine ⟨?_, h2⟩
    simp only [convertColumn]
    rw [if_pos h2, if_pos (by rw [h1]; simp), h1]
    simp only [List.map_map, Except.ok.injEq]
    apply List.map_congr_left
    intro k _
    have : Rat.floor (k : ℚ) = k := by
      have := Int.floor_intCast (R := ℚ) k
      simpa using this
    simp [Function.comp, this]

/-- **C200** fails silently for larger numbers, also in a column that is written with decimal points (3000000000.0): every entry out of the range is replaced by another number. -/
theorem C200_violated (hb : 1 ≤ bits) (fl : ℚ → ℚ) (c : Col) (z : List Int) (h : wholeNumbers c = some z) (i : Nat) (k : Int) (hk : z[i]? = some k)
    (hout : k < -2 ^ (bits - 1) ∨ 2 ^ (bits - 1) ≤ k) :
    ∃ x, convertColumn bits fl c = .ok x ∧ ∃ k' : Int, x[i]? = some (.num k') ∧ k' ≠ k ∧ (2 ^ bits : Int) ∣ k' - k := by
  refine ⟨_, (convert_whole fl c z h).1, wrap bits k, by simp [hk], ?_, ?_⟩
  · rw [ne_eq, wrap_eq_iff hb]; omega
  · unfold wrap
    have := Int.emod_add_mul_ediv (k + 2 ^ (bits - 1)) (2 ^ bits)
    refine ⟨-((k + 2 ^ (bits - 1)) / 2 ^ bits), ?_⟩
    rw [mul_neg]
    omega

example : wholeNumbers (.floats [some 1, some 3000000000]) = some [1, 3000000000] ∧ convertColumn 32 id (.floats [some 1, some 3000000000]) = .ok [.num 1, .num (-1294967296)] := by
  decide +kernel

/-! ## C201: scaling a file -/

theorem storeInto_true : storeInto garbage true = storeInt garbage := by
  funext v
  cases v with
  | none => rfl
  | some v =>
    simp only [storeInto, storeInt, if_true]
    by_cases h : v < 0
    · rw [if_pos h, if_neg (not_le.2 h)]
    · rw [if_neg h, if_pos (not_lt.1 h)]

theorem storeInto_false : storeInto garbage false = storeFloat := by
  funext v
  cases v <;> rfl

theorem fill_nums (o : Opts ℚ) (hfl : o.fl = id) (hst : o.fillStore = id) (z : List ℚ) : fillColumn o.fl o.fillStore o.parse o.mode (z.map .num) = z.map .num := by
  unfold fillColumn
  rw [mapM_nums, hfl, hst]
  simp [List.map_map, Function.comp_def]

/-- The columns of the file that hold whole numbers, in the range of the working precision. -/
theorem fromCsv_whole (hb : 1 ≤ bits) (hfl : o.fl = id) (hst : o.fillStore = id) (hd : o.digitization = false) (cols : List Col) (label : Col) (zs : List (List Int)) (zl : List Int)
    (h : List.Forall₂ (fun c z => wholeNumbers c = some z) cols zs) (hr : ∀ z ∈ zs, ∀ k ∈ z, -2 ^ (bits - 1) ≤ k ∧ k < 2 ^ (bits - 1)) (hl : wholeNumbers label = some zl) :
    fromCsv bits garbage o cols label = .ok (zs.map fun z => scaled { o with store := storeInt garbage, fillna := false } (z.map fun k : Int => .num (k : ℚ))) := by
  have h1 : cols.mapM (convertColumn bits o.fl) = .ok (zs.map fun z => z.map fun k : Int => .num (k : ℚ)) ∧ cols.all intColumn = true := by
    induction h with
    | nil => exact ⟨rfl, rfl⟩
    | @cons c z cols zs hc _ ih =>
      obtain ⟨i1, i2⟩ := ih fun z' hz' => hr z' (List.mem_cons_of_mem _ hz')
      obtain ⟨c1, c2⟩ := convert_whole (bits := bits) o.fl c z hc
      refine ⟨?_, by simp [c2, i2]⟩
      rw [List.mapM_cons, c1, i1]
      simp only [bind, Except.bind, pure, Except.pure, List.map_cons, Except.ok.injEq, List.cons.injEq, and_true]
      apply List.map_congr_left
      intro k hk
      rw [(wrap_eq_iff hb k).2 (hr z (by simp) k hk)]
  unfold fromCsv
  rw [h1.1, h1.2, storeInto_true]
  simp only [Except.bind, (convert_whole o.fl label zl hl).1]
  have hna : ¬ (zs.map fun z => z.map fun k : Int => CsvCell.num (k : ℚ)).any (naFirst o.parse) = true := by
    rw [List.any_eq_true]
    rintro ⟨x, hx, hn⟩
    obtain ⟨z, -, rfl⟩ := List.mem_map.1 hx
    rw [naFirst_numbers o.parse _ (by intro y hy; obtain ⟨k, -, rfl⟩ := List.mem_map.1 hy; exact .inl ⟨_, rfl⟩)] at hn
    simp at hn
  rw [if_neg hna]
  have hcell : ((zs.map fun z => z.map fun k : Int => CsvCell.num (k : ℚ)).map fun c => c.map CsvCell.cell) = zs.map fun z => z.map fun k : Int => Cell.num (k : ℚ) := by
    simp [List.map_map, Function.comp_def, CsvCell.cell]
  rw [hcell]
  rcases Bool.eq_false_or_eq_true o.fillna with hf | hf
  rotate_left
  · rw [C106_in_place _ (by exact hf) (by exact hd)]
    have : ({ o with store := storeInt garbage } : Opts ℚ) = { o with store := storeInt garbage, fillna := false } := by
      cases o; simp_all
    rw [this]
    simp [List.map_map, Function.comp_def]
  · rw [features_fill _ (by exact hf), C106_in_place _ rfl (by exact hd)]
    simp only [Except.ok.injEq, impute, List.map_map]
    apply List.map_congr_left
    intro z _
    simp only [Function.comp]
    congr 1
    have := fill_nums o hfl hst (z.map fun k : Int => (k : ℚ))
    simpa [List.map_map, Function.comp_def] using this

/-- **C201** fails for every file of whole numbers (also written 1.0, 2.0, …): with `normalization=True` every column that is not constant becomes 1 where it is largest and 0 everywhere else. -/
theorem C201_violated (hb : 1 ≤ bits) (hfl : o.fl = id) (hst : o.fillStore = id) (hd : o.digitization = false) (hn : o.normalization = true) (cols : List Col) (label : Col) (zs : List (List Int))
    (zl : List Int) (h : List.Forall₂ (fun c z => wholeNumbers c = some z) cols zs) (hr : ∀ z ∈ zs, ∀ k ∈ z, -2 ^ (bits - 1) ≤ k ∧ k < 2 ^ (bits - 1)) (hl : wholeNumbers label = some zl)
    (top : List Int → Int) (ht : ∀ z ∈ zs, top z ∈ z ∧ (∀ k ∈ z, k ≤ top z) ∧ ∃ k ∈ z, k ≠ top z) :
    fromCsv bits garbage o cols label = .ok (zs.map fun z => z.map fun k => .num (if k = top z then 1 else 0)) := by
  rw [fromCsv_whole hb hfl hst hd cols label zs zl h hr hl]
  congr 1
  apply List.map_congr_left
  intro z hz
  obtain ⟨h1, h2, k, h3, h4⟩ := ht z hz
  have := C104_integer_table { o with store := storeInt garbage, fillna := false } garbage hfl rfl hn (z.map fun k : Int => (k : ℚ)) (k : ℚ) (top z : ℚ)
    (List.mem_map.2 ⟨k, h3, rfl⟩) (List.mem_map.2 ⟨_, h1, rfl⟩) (by exact_mod_cast h4) (top z : ℚ)
    ⟨List.mem_map.2 ⟨_, h1, rfl⟩, by intro v hv; obtain ⟨k', hk', rfl⟩ := List.mem_map.1 hv; exact_mod_cast h2 k' hk'⟩
  simp only [List.map_map] at this
  unfold scaled
  have e : (Cell.num ∘ fun k : Int => (k : ℚ)) = fun k : Int => Cell.num (k : ℚ) := rfl
  rw [e] at this
  rw [this]
  simp only [Function.comp_def, Int.cast_inj]

/-- One decimal number anywhere in the file, and the same column is scaled as it should be. -/
example : fromCsv 32 0 (exampleOpts true false false true storeFloat) [.ints [0, 5, 10]] (.ints [0, 1, 1]) = .ok [[.num 0, .num 0, .num 1]] ∧
    fromCsv 32 0 (exampleOpts true false false true storeFloat) [.ints [0, 5, 10], .floats [some 0, some (1/2), some 1]] (.ints [0, 1, 1]) =
      .ok [[.num 0, .num (1/2), .num 1], [.num 0, .num (1/2), .num 1]] ∧
    wholeNumbers (.ints [0, 5, 10]) = some [0, 5, 10] := by decide +kernel

theorem mapM_none {α β : Type} (f : α → Option β) (l : List α) (h : l.mapM f = none) : ∃ a ∈ l, f a = none := by
  induction l with
  | nil => simp at h
  | cons a l ih =>
    cases hf : f a with
    | none => exact ⟨a, List.mem_cons_self, hf⟩
    | some b =>
      cases hm : l.mapM f with
      | none =>
        obtain ⟨a', h1, h2⟩ := ih hm
        exact ⟨a', List.mem_cons_of_mem _ h1, h2⟩
      | some bs => simp [List.mapM_cons, hf, hm] at h

/-- A column that is not one of whole numbers, and is converted, is not of an integer type. -/
theorem not_whole_int (fl : ℚ → ℚ) (c : Col) (h : wholeNumbers c = none) (cs : List CsvCell) (hc : convertColumn bits fl c = .ok cs) : intColumn c = false := by
  cases c with
  | ints v => simp [wholeNumbers] at h
  | texts v => rfl
  | floats v =>
    by_contra ht
    have ht' : takenForInts v = true := by simpa [intColumn] using ht
    simp only [convertColumn, ht', if_true] at hc
    by_cases ha : v.all Option.isSome = true
    · obtain ⟨o, h1, h2⟩ := mapM_none _ v h
      cases o with
      | none => exact absurd (List.all_eq_true.1 ha _ h1) (by simp)
      | some q =>
        have := (takenForInts_iff v).1 ht' q h1
        unfold isWhole at this
        rw [decide_eq_true_iff] at this
        simp [this] at h2
    · rw [if_neg ha] at hc; cases hc

/-- **C201.** A file with a column that is not one of whole numbers: the table is one of floats (or objects), every column is scaled as `scaleColumn` does with a float array. -/
theorem C201_mixed_partial (cols : List Col) (label : Col) (hc : ∃ c ∈ cols, wholeNumbers c = none) (cs : List (List CsvCell)) (h : cols.mapM (convertColumn bits o.fl) = .ok cs)
    (hl : ¬ WholeWithGap label) (hg : ∀ c ∈ cols, ¬ GapFirst o.parse c) :
    fromCsv bits garbage o cols label = features { o with store := storeFloat } (cs.map fun c => c.map CsvCell.cell) := by
  have hall : cols.all intColumn = false := by
    obtain ⟨c, h1, h2⟩ := hc
    rw [List.all_eq_false]
    obtain ⟨c', hc'⟩ : ∃ c', convertColumn bits o.fl c = .ok c' := by
      cases hx : convertColumn bits o.fl c with
      | ok c' => exact ⟨c', rfl⟩
      | error e =>
        exfalso
        rcases mapM_convert (bits := bits) o.fl cols with ⟨he, -⟩ | ⟨_, -, hg', -⟩
        · rw [h] at he; cases he
        · exact hg' c h1 ((convert_error_iff (bits := bits) o.fl c).1 ⟨e, hx⟩)
    exact ⟨c, h1, by rw [not_whole_int o.fl c h2 c' hc']; simp⟩
  unfold fromCsv
  rw [h, hall, storeInto_false]
  cases hy : convertColumn bits o.fl label with
  | error e => exact absurd ((convert_error_iff (bits := bits) o.fl label).1 ⟨e, hy⟩) hl
  | ok y =>
    simp only [Except.bind]
    rcases mapM_convert (bits := bits) o.fl cols with ⟨h1, -⟩ | ⟨cs', h1, -, h3⟩
    · rw [h] at h1; simp at h1
    · rw [h] at h1
      simp only [Except.ok.injEq] at h1
      subst h1
      rw [if_neg]
      rw [any_naFirst cols cs h3]
      rintro ⟨c, h1, h2⟩
      exact hg c h1 h2

end CML.Csv
