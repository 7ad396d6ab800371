import Verif.Props.Calls
import Verif.Props.Score
import Verif.Props.Spode

set_option linter.unusedSectionVars false

/-! # Which exception is raised (C160, C161, C163, C165, C166), what `attribute_name = None` does (C162) -/

namespace CML.Calls
open CML.DTree

variable {K α : Type}

/-- C160, C161: what the ensembles answer to anything but a 2-D array is determined by the container alone. -/
theorem C161_ensemble_errors (parse : String → Option K) (g : List K → Except PyErr α) (idx : Nat) (r : List (Cell K)) (hne : r ≠ []) :
    baggingPredict parse g (.list r) = .error .attributeError ∧ adaPredict parse idx g (.list r) = .error .attributeError ∧
    baggingPredict parse g (.array1 r) = .error .indexError ∧ adaPredict parse idx g (.array1 r) = .error .indexError ∧
    baggingPredict parse g (.series r) = .error .keyError ∧ adaPredict parse idx g (.series r) = .error .indexError ∧
    adaPredict parse idx g (.array1 []) = .ok (.vec []) ∧ adaPredict parse idx g (.series []) = .ok (.vec []) := by
  have he : r.isEmpty = false := by
    cases r with
    | nil => exact absurd rfl hne
    | cons _ _ => rfl
  simp only [baggingPredict, adaPredict, he]
  simp

/-- C160: AdaBoost on a table compares a character of the first column NAME: `TypeError` when the name is long enough for the index of the first tree,
`IndexError` when it is too short, `ValueError` (no largest key) without columns. -/
theorem C160_ada_table (parse : String → Option K) (g : List K → Except PyErr α) (idx : Nat) (c : String) (cols : List String)
    (rows : List (List (Cell K))) :
    (idx < c.length → adaPredict parse idx g (.frame (c :: cols) rows) = .error .typeError) ∧
    (c.length ≤ idx → adaPredict parse idx g (.frame (c :: cols) rows) = .error .indexError) ∧
    adaPredict parse idx g (.frame [] rows) = .error .valueError := by
  refine ⟨fun h => ?_, fun h => ?_, rfl⟩
  · simp only [adaPredict, if_pos h]
  · simp only [adaPredict, if_neg (Nat.not_lt.2 h)]

/-- C160: rows of different widths, and entries that are no numbers, raise `ValueError` in every model that converts to floats. -/
theorem C160_unsuitable_entries (parse : String → Option K) (g : List K → Except PyErr α) (gaussian : Bool) (d : Nat) :
    (∀ (a : List (Cell K)) (rows : List (List (Cell K))), (∃ r ∈ rows, r.length ≠ a.length) →
      clusterPredict parse g (.lists (a :: rows)) = .error .valueError ∧ ldaPredict parse g (.lists (a :: rows)) = .error .valueError ∧
      svcPredict parse gaussian d g (.lists (a :: rows)) = .error .valueError ∧ rbfPredict parse g (.lists (a :: rows)) = .error .valueError) ∧
    (∀ (r : List (Cell K)) (x : Input K), HoldsRow x r → (∃ s, .str s ∈ r ∧ parse s = none) →
      clusterPredict parse g x = .error .valueError ∧ ldaPredict parse g x = .error .valueError ∧
      svcPredict parse gaussian d g x = .error .valueError ∧ rbfPredict parse g x = .error .valueError) := by
  have hrow : ∀ r : List (Cell K), (∃ s, .str s ∈ r ∧ parse s = none) → rowNum parse r = .error .valueError := by
    intro r
    unfold rowNum
    induction r with
    | nil => rintro ⟨s, hs, _⟩; simp at hs
    | cons c r ih =>
      rintro ⟨s, hs, hp⟩
      rw [List.mapM_cons]
      rcases List.mem_cons.1 hs with h | h
      · subst h
        simp only [toNum, hp]
        rfl
      · rw [ih ⟨s, h, hp⟩]
        cases c with
        | num v => rfl
        | str t =>
          cases ht : parse t with
          | none => simp only [toNum, ht]; rfl
          | some v => simp only [toNum, ht]; rfl
  constructor
  · rintro a rows ⟨r, hr, hne⟩
    have h1 : rect (a :: rows) = false := by
      cases hrect : rect (a :: rows) with
      | false => rfl
      | true =>
        unfold rect at hrect
        rw [List.all_eq_true] at hrect
        have := hrect r (List.mem_cons_of_mem _ hr)
        simp only [List.headD_cons, beq_iff_eq] at this
        exact absurd this hne
    have h2 : asFloat parse (.lists (a :: rows)) = .error .valueError := by
      simp only [asFloat, h1]
      rfl
    simp only [clusterPredict, ldaPredict, svcPredict, rbfPredict, h2, Except.bind, and_self]
  · intro r x hx hs
    have h2 : asFloat parse x = .error .valueError := by
      cases hx <;> simp only [asFloat, hrow r hs, Except.map]
    simp only [clusterPredict, ldaPredict, svcPredict, rbfPredict, h2, Except.bind, and_self]

section Trees
variable [LinearOrder K] {m : Nat}

/-- C160: which error a decision tree raises for a list of rows: with a split on a discrete attribute `TypeError`, unless there are fewer rows
than the index of the attribute (`IndexError`); with a split on a numeric attribute `IndexError` when there are too few rows, `ValueError` when every entry
is a number and the rows have two entries or more, `TypeError` when one entry ANYWHERE in the list is a string (numpy makes strings of all of them). -/
theorem C160_tree_lists_kinds (repr : K → String) (a : Fin m) (nl ht : Int) (p : K) (ge lt : Tree (Cell K) K m) (br : Forest (Cell K) K m)
    (rows : List (List (Cell K))) :
    (a.val < rows.length → treePredict repr (.disc a nl ht br) (.lists rows) = .error .typeError) ∧
    (rows.length ≤ a.val → treePredict repr (.disc a nl ht br) (.lists rows) = .error .indexError ∧
      treePredict repr (.cont a p nl ht ge lt) (.lists rows) = .error .indexError) ∧
    ((∀ r ∈ rows, ∀ c ∈ r, ∃ v, c = .num v) → (∀ r ∈ rows, 2 ≤ r.length) → a.val < rows.length →
      treePredict repr (.cont a p nl ht ge lt) (.lists rows) = .error .valueError) ∧
    ((∃ r ∈ rows, ∃ c ∈ r, ∃ t, c = .str t) → (∀ r ∈ rows, r ≠ []) → a.val < rows.length →
      treePredict repr (.cont a p nl ht ge lt) (.lists rows) = .error .typeError) := by
  have hlen : (npLists repr rows).length = rows.length := by
    unfold npLists; split <;> simp
  refine ⟨fun h => ?_, fun h => ⟨?_, ?_⟩, fun hn hw h => ?_, fun hs hw h => ?_⟩
  · simp only [treePredict, treeRows, treeBlock, hlen, if_pos h, Except.map]
  · simp only [treePredict, treeRows, treeBlock, hlen, if_neg (Nat.not_lt.2 h), Except.map]
  · simp only [treePredict, treeRows, treeBlock]
    rw [List.getElem?_eq_none (by rw [hlen]; exact h)]
    rfl
  · have hn' : ∀ r ∈ rows, ∀ c ∈ r, c.isNum = true := fun r hr c hc => by obtain ⟨v, rfl⟩ := hn r hr c hc; rfl
    have e : npLists repr rows = rows := by
      unfold npLists
      rw [if_pos]
      rw [List.all_eq_true]
      intro r hr
      rw [List.all_eq_true]
      exact hn' r hr
    simp only [treePredict, treeRows, treeBlock, e]
    rw [List.getElem?_eq_getElem h]
    have hr := List.getElem_mem h
    generalize rows[a.val] = r at hr
    have h1 := hw r hr
    have h2 : r.all Cell.isNum = true := by rw [List.all_eq_true]; exact hn' r hr
    match r, h1, h2 with
    | [], h1, _ => simp at h1
    | [_], h1, _ => simp at h1
    | .num _ :: _ :: _, _, h2 => simp only [h2]; rfl
    | .str _ :: _ :: _, _, h2 => simp only [h2]; rfl
  · have e : npLists repr rows = rows.map fun r => r.map fun c => .str (c.text repr) := by
      unfold npLists
      rw [if_neg]
      intro hall
      obtain ⟨r, hr, c, hc, t, rfl⟩ := hs
      rw [List.all_eq_true] at hall
      have := hall r hr
      rw [List.all_eq_true] at this
      exact absurd (this _ hc) (by simp [Cell.isNum])
    simp only [treePredict, treeRows, treeBlock, e, List.getElem?_map]
    rw [List.getElem?_eq_getElem h]
    have hr := List.getElem_mem h
    generalize rows[a.val] = r at hr
    have h1 := hw r hr
    match r, h1 with
    | [], h1 => simp at h1
    | [c], _ => simp [Cell.isNum, Except.map]
    | _ :: _ :: _, _ => simp [Cell.isNum, Except.map]

/-- C160: a list of rows of one number each is answered like ONE sample whose attributes are the rows: a list of columns passes for a sample. -/
theorem C160_tree_lists_transposed (repr : K → String) (a : Fin m) (nl ht : Int) (p : K) (c d : Int) (v : List K) (w : K) (h : v[a.val]? = some w) :
    treePredict repr (.cont a p nl ht (.leaf c) (.leaf d) : Tree (Cell K) K m) (.lists (v.map fun x => [.num x])) = .ok [if p ≤ w then c else d] ∧
    treePredict repr (.cont a p nl ht (.leaf c) (.leaf d) : Tree (Cell K) K m) (.array1 (v.map .num)) = .ok [if p ≤ w then c else d] := by
  have e : npLists repr (v.map fun x => [Cell.num x]) = v.map fun x => [Cell.num x] := by
    unfold npLists
    rw [if_pos]
    rw [List.all_eq_true]
    intro r hr
    obtain ⟨x, -, rfl⟩ := List.mem_map.1 hr
    rfl
  constructor
  · simp only [treePredict, treeRows, treeBlock, e, List.getElem?_map, h, Option.map_some]
    split_ifs <;> rfl
  · simp only [treePredict, treeRows, List.mapM_cons, List.mapM_nil, treeRow, List.getElem?_map, h, Option.map_some]
    split_ifs <;> rfl

/-- C161: a sample with too few entries raises `IndexError` at the first split it cannot answer. -/
theorem C161_short_row (repr : K → String) (a : Fin m) (nl ht : Int) (p : K) (ge lt : Tree (Cell K) K m) (br : Forest (Cell K) K m)
    (r : List (Cell K)) (hr : r.length ≤ a.val) :
    treePredict repr (.cont a p nl ht ge lt) (.array1 r) = .error .indexError ∧
    treePredict repr (.disc a nl ht br) (.array1 r) = .error .indexError := by
  constructor
  · simp only [treePredict, treeRows, List.mapM_cons]
    unfold treeRow
    rw [List.getElem?_eq_none hr]
    rfl
  · simp only [treePredict, treeRows, List.mapM_cons]
    unfold treeRow
    rw [List.getElem?_eq_none hr]
    rfl

end Trees

/-- C162: without `attribute_name` the names of the columns are ignored and every container of rows is taken as it is. -/
theorem C162_no_names (rows : List (List (Cell K))) (x : Input K) (hx : HoldsRows x rows) :
    treeFitRows none x = .ok (rows.map fun r => r.map some) ∧
    (∀ g : List (Option (Cell K)) → Except PyErr α, spodeCallPredict none g x = (rows.map fun r => r.map some).mapM g) := by
  cases hx <;> exact ⟨rfl, fun _ => rfl⟩

end CML.Calls

namespace CML.Score
open CML.Metrics

variable {K : Type} [Field K] [LinearOrder K] [IsStrictOrderedRing K]

/-- C163: labels with several columns raise `ValueError` with a model that returns a vector (one-hot labels with a two-class model); with no rows of labels at all
the score is 1. -/
theorem C163_wide_labels (pred : List K) (hne : pred ≠ []) (w : Nat) (hw : w ≠ 1) (rows : List (List K)) :
    (rows ≠ [] → scoreCall (.one pred) (.array2 w rows) = .error .valueError) ∧
    scoreCall (.one pred) (.array2 w []) = .ok 1 := by
  have h : pred.length ≠ 0 := by simpa using hne
  constructor
  · intro hr
    have h' : rows.length ≠ 0 := by simpa using hr
    simp only [scoreCall, binaryCall, binaryColumns, if_neg h, if_neg hw, if_neg h']
  · simp only [scoreCall, binaryCall, binaryColumns, if_neg h, if_neg hw]
    rfl

/-- C163: a model that returns a matrix with one column is scored like the vector of its entries, whatever the labels. -/
theorem C163_one_column (p : List K) (y : Labels K) : scoreCall (.two 1 (p.map fun a => [a])) y = scoreCall (.one p) y := by
  simp only [scoreCall, List.map_map]
  conv_rhs => rw [← List.map_id p]
  rfl

end CML.Score

namespace CML.Bayes

variable {V : Type} [DecidableEq V]

/-- C165: fitted with a kept position beyond the last column, the estimator raises `IndexError` and stays as it was. -/
theorem C165_kept_position_beyond (emb : List ℝ → List V) (o : Spode V) (i : Nat) (hold : o.superIndex = some i) (table : List (String × Col V))
    (hno : ∀ c ∈ table, o.superName ≠ some c.1) (hi : table.length ≤ i) (y : List Int) (hy : y ≠ []) :
    (o.fit emb table y).1 = .error .indexError ∧ (o.fit emb table y).2 = o := by
  have hf : findIndex o.superName o.superIndex (table.map Prod.fst) 0 = some i := by
    rw [findIndex_not_mem _ _ _ _ (by
      intro c hc
      obtain ⟨p, hp, rfl⟩ := List.mem_map.1 hc
      exact hno p hp), hold]
  unfold Spode.fit
  simp only [hf, if_neg hy, List.getElem?_eq_none hi]
  exact ⟨trivial, by rw [← hold]⟩

/-- C165: a fresh object is not trained, holds no entries, and is not smoothed until compiled so; with no labels `fit` learns nothing but counts as training. -/
theorem C165_fresh_and_empty (emb : List ℝ → List V) (o : Spode V) (table : List (String × Col V)) :
    (Spode.new : Spode V).trained = false ∧ (Spode.new : Spode V).smoothing = false ∧ (Spode.new : Spode V).entries = [] ∧
    (o.fit emb table []).1 = .ok () ∧ (o.fit emb table []).2.trained = true ∧ (o.fit emb table []).2.entries = o.entries := by
  refine ⟨rfl, rfl, rfl, ?_, ?_, ?_⟩ <;> simp [Spode.fit]

end CML.Bayes
