import Verif.Spec.Calls
import Mathlib.Algebra.Order.Ring.Rat
import Mathlib.Algebra.Field.Rat
import Mathlib.Tactic.Linarith

set_option linter.unusedSectionVars false

/-! # Properties C160-C162 (containers and column names) -/

namespace CML.Calls
open CML.DTree

variable {K α : Type}

/-! ## Lemmas -/

theorem mapM_rowNum (parse : String → Option K) (r : List K) : rowNum parse (r.map .num) = .ok r := by
  unfold rowNum
  induction r with
  | nil => rfl
  | cons a r ih =>
    rw [List.map_cons, List.mapM_cons, ih]
    rfl

theorem mapM_rows (parse : String → Option K) (rows : List (List K)) : (cells rows).mapM (rowNum parse) = .ok rows := by
  unfold cells
  induction rows with
  | nil => rfl
  | cons a r ih =>
    rw [List.map_cons, List.mapM_cons, ih, mapM_rowNum]
    rfl

theorem mapM_rowThen (parse : String → Option K) (g : List K → Except PyErr α) (rows : List (List K)) :
    (cells rows).mapM (rowThen parse g) = rows.mapM g := by
  unfold cells
  induction rows with
  | nil => rfl
  | cons a r ih =>
    rw [List.map_cons, List.mapM_cons, List.mapM_cons, ih]
    unfold rowThen
    rw [mapM_rowNum]
    rfl

theorem mapM_ok_iff {ρ : Type} (g : ρ → Except PyErr α) (rows : List ρ) (l : List α) : rows.mapM g = .ok l ↔ OnePerRow g rows l := by
  unfold OnePerRow
  induction rows generalizing l with
  | nil =>
    rw [List.forall₂_nil_left_iff]
    constructor
    · intro h
      have : (Except.ok [] : Except PyErr (List α)) = .ok l := h
      injection this with h; exact h.symm
    · rintro rfl; rfl
  | cons a r ih =>
    rw [List.mapM_cons, List.forall₂_cons_left_iff]
    constructor
    · intro h
      cases ha : g a with
      | error e => rw [ha] at h; exact absurd h (by intro h; cases h)
      | ok b =>
        rw [ha] at h
        cases hr : r.mapM g with
        | error e => rw [hr] at h; exact absurd h (by intro h; cases h)
        | ok l' =>
          rw [hr] at h
          have h' : (Except.ok (b :: l') : Except PyErr (List α)) = .ok l := h
          injection h' with h'
          exact ⟨b, l', rfl, (ih l').1 hr, h'.symm⟩
    · rintro ⟨b, l', hb, hl, rfl⟩
      rw [hb, (ih l').2 hl]
      rfl

theorem rect_cells {d : Nat} {rows : List (List K)} (h : Rectangular d rows) : rect (cells rows) = true := by
  unfold rect cells
  rw [List.all_eq_true]
  intro r hr
  obtain ⟨s, hs, rfl⟩ := List.mem_map.1 hr
  cases rows with
  | nil => simp at hs
  | cons a rest =>
    simp [h s hs, h a List.mem_cons_self]

theorem asFloat_rows (parse : String → Option K) {d : Nat} {rows : List (List K)} (hne : rows ≠ []) (h : Rectangular d rows) {x : Input K}
    (hx : HoldsRows x (cells rows)) : asFloat parse x = .ok (.two rows) := by
  cases hx with
  | lists =>
    have h1 : (cells rows).isEmpty = false := by
      cases rows with
      | nil => exact absurd rfl hne
      | cons a r => rfl
    simp only [asFloat, h1, rect_cells h, mapM_rows]
    rfl
  | array => simp only [asFloat, mapM_rows]; rfl
  | frame => simp only [asFloat, mapM_rows]; rfl

theorem asFloat_row (parse : String → Option K) (r : List K) {x : Input K} (hx : HoldsRow x (r.map .num)) :
    asFloat parse x = .ok (.one r) := by
  cases hx <;> simp only [asFloat, mapM_rowNum] <;> rfl

/-! ## C160 rows in any container -/

/-- C160 for the models that convert their argument to floats: k-means and the Gaussian mixture, the support vector classifier, the RBF network
answer with one value per row, the same for a list of lists, a 2-D array and a table. -/
theorem C160_float_models_partial (parse : String → Option K) (g : List K → Except PyErr α) (gaussian : Bool) (d : Nat)
    (rows : List (List K)) (hne : rows ≠ []) (hr : Rectangular d rows) (answers : List α) (hg : OnePerRow g rows answers)
    (x : Input K) (hx : HoldsRows x (cells rows)) :
    clusterPredict parse g x = .ok (.vec answers) ∧ svcPredict parse gaussian d g x = .ok (.vec answers) ∧
    rbfPredict parse g x = .ok (.vec answers) := by
  have h := (mapM_ok_iff g rows answers).2 hg
  simp only [clusterPredict, svcPredict, rbfPredict, asFloat_rows parse hne hr hx, Except.bind, clusterArr, svcArr, rbfArr, h, Except.map,
    and_self]

/-- C160 for linear discriminant analysis: one value per row of any container with two rows or more. -/
theorem C160_lda_partial (parse : String → Option K) (g : List K → Except PyErr α) (d : Nat)
    (rows : List (List K)) (h2 : 2 ≤ rows.length) (hr : Rectangular d rows) (answers : List α) (hg : OnePerRow g rows answers)
    (x : Input K) (hx : HoldsRows x (cells rows)) : ldaPredict parse g x = .ok (.vec answers) := by
  have h := (mapM_ok_iff g rows answers).2 hg
  have hne : rows ≠ [] := by rintro rfl; simp at h2
  have hl : answers.length = rows.length := (List.Forall₂.length_eq hg).symm
  simp only [ldaPredict, asFloat_rows parse hne hr hx, Except.bind, ldaArr, h, Except.map]
  congr 1
  match answers, hl with
  | [], _ => rfl
  | [_], hl => simp at hl; omega
  | _ :: _ :: _, _ => rfl

/-- C160 is false for a single row: linear discriminant analysis and logistic regression return a number, not an array of one number. -/
theorem C160_one_row [Semiring K] (parse : String → Option K) (g : List K → Except PyErr α) (sig : K → α) (beta r : List K) (a : α)
    (hga : g r = .ok a) (hb : beta.length = r.length + 1) (x : Input K) (hx : HoldsRows x (cells [r])) :
    ldaPredict parse g x = .ok (.scalar a) ∧ ∃ b, lrPredict parse sig beta x = .ok (.scalar b) := by
  have hr : Rectangular r.length [r] := by intro s hs; rw [List.mem_singleton.1 hs]
  have hf := asFloat_rows parse (by simp) hr hx
  have hm : [r].mapM g = .ok [a] := (mapM_ok_iff g [r] [a]).2 (List.Forall₂.cons hga List.Forall₂.nil)
  refine ⟨by simp only [ldaPredict, hf, Except.bind, ldaArr, hm, Except.map, squeeze], ?_⟩
  have h1 : lrRow sig beta (r ++ [1]) = .ok (sig ((((r ++ [(1 : K)]).zip beta).map fun p => p.1 * p.2).sum)) := by
    unfold lrRow; rw [if_neg]; simp [hb]
  have hm2 : (hatRows (.two [r])).mapM (lrRow sig beta) = .ok [sig ((((r ++ [(1 : K)]).zip beta).map fun p => p.1 * p.2).sum)] :=
    (mapM_ok_iff _ _ _).2 (List.Forall₂.cons h1 List.Forall₂.nil)
  exact ⟨_, by simp only [lrPredict, hf, Except.bind, hm2, Except.map, squeeze]; rfl⟩

/-- C160 for logistic regression: with two rows or more of the right width, one probability per row: the value of `sig` at the
linear score of the row, whatever the container. -/
theorem C160_logistic_partial [Semiring K] (parse : String → Option K) (sig : K → α) (w : List K) (c : K) (rows : List (List K))
    (h2 : 2 ≤ rows.length) (hr : Rectangular w.length rows) (x : Input K) (hx : HoldsRows x (cells rows)) :
    lrPredict parse sig (w ++ [c]) x = .ok (.vec (rows.map fun r => sig (((r.zip w).map fun p => p.1 * p.2).sum + c))) := by
  have hne : rows ≠ [] := by rintro rfl; simp at h2
  have hm : (hatRows (.two rows)).mapM (lrRow sig (w ++ [c])) = .ok (rows.map fun r => sig (((r.zip w).map fun p => p.1 * p.2).sum + c)) := by
    rw [mapM_ok_iff]
    unfold OnePerRow hatRows
    rw [List.forall₂_map_left_iff, List.forall₂_map_right_iff, List.forall₂_same]
    intro r hrm
    have hl := hr r hrm
    unfold lrRow
    rw [if_neg (by simp [hl]), List.zip_append hl]
    simp
  simp only [lrPredict, asFloat_rows parse hne hr hx, Except.bind, hm, Except.map]
  congr 1
  generalize hL : (rows.map fun r => sig (((r.zip w).map fun p => p.1 * p.2).sum + c)) = L
  have hl : L.length = rows.length := by rw [← hL]; simp
  match L, hl with
  | [], _ => rfl
  | [_], hl => simp at hl; omega
  | _ :: _ :: _, _ => rfl

/-- C160 for the neural network and the ensembles: one value per row of a 2-D array. -/
theorem C160_array_models_partial (parse : String → Option K) (g : List K → Except PyErr α) (idx : Nat) (rows : List (List K))
    (answers : List α) (hg : OnePerRow g rows answers) :
    bpnnPredict parse g (.array2 (cells rows)) = .ok (.vec answers) ∧ baggingPredict parse g (.array2 (cells rows)) = .ok (.vec answers) ∧
    adaPredict parse idx g (.array2 (cells rows)) = .ok (.vec answers) := by
  have h := (mapM_ok_iff g rows answers).2 hg
  simp only [bpnnPredict, baggingPredict, adaPredict, mapM_rowThen, h, Except.map, and_self]

/-- C160 is false for lists and tables handed to the network and the ensembles: every such call raises, although `fit` of the ensembles accepts
the same containers. -/
theorem C160_array_models_refuse (parse : String → Option K) (g : List K → Except PyErr α) (idx : Nat) (rows : List (List (Cell K)))
    (cols : List String) :
    bpnnPredict parse g (.lists rows) = .error .typeError ∧ bpnnPredict parse g (.frame cols rows) = .error .typeError ∧
    baggingPredict parse g (.lists rows) = .error .attributeError ∧ baggingPredict parse g (.frame cols rows) = .error .typeError ∧
    adaPredict parse idx g (.lists rows) = .error .attributeError ∧ ∃ e, adaPredict parse idx g (.frame cols rows) = .error e := by
  refine ⟨rfl, rfl, rfl, rfl, rfl, ?_⟩
  cases cols with
  | nil => exact ⟨_, rfl⟩
  | cons c cs =>
    unfold adaPredict
    dsimp only
    split <;> exact ⟨_, rfl⟩

section Trees
variable [LinearOrder K] {m : Nat}

/-- C160 for decision trees: a 2-D array and a table get the answer of the tree for every row. -/
theorem C160_tree_partial (repr : K → String) (t : Tree (Cell K) K m) (cols : List String) (rows : List (List (Cell K))) (answers : List Int) :
    (treePredict repr t (.array2 rows) = .ok answers ↔ OnePerRow (fun r => treeRow r t) rows answers) ∧
    (treePredict repr t (.frame cols rows) = .ok answers ↔ OnePerRow (fun r => treeRow r t) rows answers) :=
  ⟨mapM_ok_iff _ _ _, mapM_ok_iff _ _ _⟩

/-- C160 is false for a list of rows handed to a decision tree, whatever the tree: the answer is never one label per row, unless there is one row. -/
theorem C160_tree_lists (repr : K → String) (t : Tree (Cell K) K m) (rows : List (List (Cell K))) (answers : List Int)
    (h : treePredict repr t (.lists rows) = .ok answers) : answers.length = 1 := by
  unfold treePredict treeRows at h
  dsimp only at h
  cases hb : treeBlock (npLists repr rows) t with
  | error e => rw [hb] at h; cases h
  | ok c =>
    rw [hb] at h
    have h' : (Except.ok [c] : Except PyErr (List Int)) = .ok answers := h
    injection h' with h'
    rw [← h']; rfl

/-- C160 for a tree that splits: a list of rows (one or many) is refused when the tree splits on a discrete attribute, or on a numeric one while
the rows have two entries or more. -/
theorem C160_tree_lists_raise (repr : K → String) (a : Fin m) (nl ht : Int) (p : K) (ge lt : Tree (Cell K) K m) (br : Forest (Cell K) K m)
    (rows : List (List (Cell K))) :
    (∃ e, treePredict repr (.disc a nl ht br) (.lists rows) = .error e) ∧
    ((∀ r ∈ rows, 2 ≤ r.length) → ∃ e, treePredict repr (.cont a p nl ht ge lt) (.lists rows) = .error e) := by
  constructor
  · unfold treePredict treeRows
    dsimp only
    unfold treeBlock
    split <;> exact ⟨_, rfl⟩
  · intro hw
    have hw' : ∀ r ∈ npLists repr rows, 2 ≤ r.length := by
      intro r hr
      unfold npLists at hr
      split at hr
      · exact hw r hr
      · obtain ⟨s, hs, rfl⟩ := List.mem_map.1 hr
        simpa using hw s hs
    unfold treePredict treeRows
    dsimp only
    unfold treeBlock
    generalize hq : (npLists repr rows)[a.val]? = q
    match q, hq with
    | none, _ => exact ⟨_, rfl⟩
    | some [], hq => exact absurd (hw' _ (List.mem_of_getElem? hq)) (by simp)
    | some [_], hq => exact absurd (hw' _ (List.mem_of_getElem? hq)) (by simp)
    | some (.num _ :: _ :: _), _ => simp only; split <;> exact ⟨_, rfl⟩
    | some (.str _ :: _ :: _), _ => simp only; split <;> exact ⟨_, rfl⟩

mutual
/-- The tree asks for numbers only where the row has numbers. -/
def asksNumbers (row : Fin m → Cell K) : Tree (Cell K) K m → Prop
  | .leaf _ => True
  | .cont a _ _ _ ge lt => (∃ r, row a = .num r) ∧ asksNumbers row ge ∧ asksNumbers row lt
  | .disc _ _ _ br => asksNumbersIn row br
/-- All subtrees of a dictionary ask for numbers only where the row has numbers. -/
def asksNumbersIn (row : Fin m → Cell K) : Forest (Cell K) K m → Prop
  | .nil => True
  | .cons _ t rest => asksNumbers row t ∧ asksNumbersIn row rest
end

mutual
/-- C160, the row of a table is the row of the tree model: on rows of the right width with numbers where the tree asks for numbers, the answer for a row
is the prediction of the tree model (of which C21-C23 speak). -/
theorem C160_row_is_model_row (num : Cell K → K) (hnum : ∀ r, num (.num r) = r) (row : Fin m → Cell K)
    (t : Tree (Cell K) K m) (ht : asksNumbers row t) : treeRow (List.ofFn row) t = DTree.predict num row t := by
  match t, ht with
  | .leaf c, _ => unfold treeRow DTree.predict; rfl
  | .cont a p nl h ge lt, ht =>
    unfold asksNumbers at ht
    obtain ⟨⟨r, hr⟩, h1, h2⟩ := ht
    unfold treeRow DTree.predict
    rw [List.getElem?_ofFn, dif_pos a.isLt, hr, hnum]
    dsimp only
    rw [C160_row_is_model_row num hnum row ge h1, C160_row_is_model_row num hnum row lt h2]
  | .disc a nl h br, ht =>
    unfold asksNumbers at ht
    unfold treeRow DTree.predict
    rw [List.getElem?_ofFn, dif_pos a.isLt]
    exact treeRowIn_eq num hnum row (row a) br ht
theorem treeRowIn_eq (num : Cell K → K) (hnum : ∀ r, num (.num r) = r) (row : Fin m → Cell K)
    (v : Cell K) (br : Forest (Cell K) K m) (hb : asksNumbersIn row br) : treeRowIn (List.ofFn row) v br = DTree.predictIn num row v br := by
  match br, hb with
  | .nil, _ => unfold treeRowIn DTree.predictIn; rfl
  | .cons w t rest, hb =>
    unfold asksNumbersIn at hb
    unfold treeRowIn DTree.predictIn
    rw [C160_row_is_model_row num hnum row t hb.1, treeRowIn_eq num hnum row v rest hb.2]
end

end Trees

/-- C160 for the Bayesian classifiers: the one-dependent estimator answers with one value per row of every container; naive Bayes does so for arrays and
tables of rows, and refuses every list of rows. -/
theorem C160_bayes_partial (repr : K → String) (ns : List String) (g : List (Option (Cell K)) → Except PyErr α) (rows : List (List (Cell K)))
    (hw : ∀ r ∈ rows, r.length = ns.length) (answers : List α) (hg : OnePerRow g (rows.map fun r => r.map some) answers) :
    spodeCallPredict (some ns) g (.lists rows) = .ok answers ∧ spodeCallPredict (some ns) g (.array2 rows) = .ok answers ∧
    nbCallPredict repr (some ns) g (.array2 rows) = .ok answers ∧ nbCallPredict repr (some ns) g (.lists rows) = .error .valueError := by
  have h := (mapM_ok_iff g _ answers).2 hg
  have hp : byPosition (some ns) rows = .ok (rows.map fun r => r.map some) := by
    unfold byPosition
    dsimp only
    rw [if_neg]
    simpa using hw
  simp only [spodeCallPredict, nbCallPredict, nbRows, pdFrame, hp, Except.bind, h, and_self]

/-! ## C161 one sample as a flat vector -/

/-- C161 for k-means, the Gaussian mixture and linear discriminant analysis: a flat vector is one sample. -/
theorem C161_flat_float_partial (parse : String → Option K) (g : List K → Except PyErr α) (r : List K) (a : α) (hg : g r = .ok a)
    (x : Input K) (hx : HoldsRow x (r.map .num)) :
    clusterPredict parse g x = .ok (.vec [a]) ∧ ldaPredict parse g x = .ok (.scalar a) := by
  simp only [clusterPredict, ldaPredict, asFloat_row parse r hx, Except.bind, clusterArr, ldaArr, hg, Except.map, and_self]

/-- C161 for the neural network: a 1-D array is one sample. -/
theorem C161_flat_network_partial (parse : String → Option K) (g : List K → Except PyErr α) (r : List K) (a : α) (hg : g r = .ok a) :
    bpnnPredict parse g (.array1 (r.map .num)) = .ok (.vec [a]) := by
  simp only [bpnnPredict, rowThen, mapM_rowNum, Except.bind, hg, Except.map]

/-- C161 is false for logistic regression on two features or more: every flat vector raises. -/
theorem C161_flat_logistic [Semiring K] (parse : String → Option K) (sig : K → α) (beta r : List K) (hb : beta.length ≠ 2) (hne : r ≠ [])
    (x : Input K) (hx : HoldsRow x (r.map .num)) : lrPredict parse sig beta x = .error .valueError := by
  have hm : (hatRows (.one r)).mapM (lrRow sig beta) = .error .valueError := by
    cases r with
    | nil => exact absurd rfl hne
    | cons v r =>
      have h1 : lrRow sig beta [v, 1] = .error .valueError := by
        unfold lrRow
        rw [if_pos (by simpa using Ne.symm hb)]
      simp only [hatRows, List.map_cons, List.mapM_cons, h1]
      rfl
  simp only [lrPredict, asFloat_row parse r hx, Except.bind, hm, Except.map]

/-- C161 is false for the support vector classifier: with the Gaussian kernel a flat vector gets one answer per ENTRY, the answer for the sample all of whose
entries are that number; with every other kernel it raises. -/
theorem C161_flat_svc (parse : String → Option K) (g : List K → Except PyErr α) (d : Nat) (r : List K) (hne : r ≠ [])
    (x : Input K) (hx : HoldsRow x (r.map .num)) :
    svcPredict parse false d g x = .error .valueError ∧
    ∀ answers, svcPredict parse true d g x = .ok (.vec answers) ↔ OnePerRow (fun v => g (List.replicate d v)) r answers := by
  constructor
  · have hm : r.mapM (svcNumber false d g) = .error .valueError := by
      cases r with
      | nil => exact absurd rfl hne
      | cons v r => rw [List.mapM_cons]; rfl
    simp only [svcPredict, asFloat_row parse r hx, Except.bind, svcArr, hm, Except.map]
  · intro answers
    have e : (svcNumber true d g) = fun v => g (List.replicate d v) := by
      funext v; unfold svcNumber; rw [if_pos rfl]
    simp only [svcPredict, asFloat_row parse r hx, Except.bind, svcArr, e]
    rw [← mapM_ok_iff]
    cases hq : r.mapM (fun v => g (List.replicate d v)) with
    | error e => simp [Except.map]
    | ok l => simp [Except.map]

/-- C161 is false for the RBF network: a flat vector of `d` numbers gets `d` copies of its answer. -/
theorem C161_flat_rbf (parse : String → Option K) (g : List K → Except PyErr α) (r : List K) (a : α) (hg : g r = .ok a)
    (x : Input K) (hx : HoldsRow x (r.map .num)) : rbfPredict parse g x = .ok (.vec (List.replicate r.length a)) := by
  simp only [rbfPredict, asFloat_row parse r hx, Except.bind, rbfArr, hg, Except.map]

/-- C161 is false for the ensembles and for the one-dependent estimator on two attributes or more: every flat vector raises. -/
theorem C161_flat_refused (parse : String → Option K) (g : List K → Except PyErr α) (g' : List (Option (Cell K)) → Except PyErr α)
    (idx : Nat) (ns : List String) (hns : ns.length ≠ 1) (r : List (Cell K)) (hne : r ≠ []) (x : Input K) (hx : HoldsRow x r) :
    (∃ e, baggingPredict parse g x = .error e) ∧ (∃ e, adaPredict parse idx g x = .error e) ∧
    spodeCallPredict (some ns) g' x = .error .valueError := by
  have he : r.isEmpty = false := by cases r with
    | nil => exact absurd rfl hne
    | cons _ _ => rfl
  have hp : byPosition (some ns) (r.map fun c => [c]) = .error .valueError := by
    unfold byPosition
    dsimp only
    rw [if_pos]
    cases r with
    | nil => exact absurd rfl hne
    | cons c r => simp [Ne.symm hns]
  cases hx <;> simp only [baggingPredict, adaPredict, he, spodeCallPredict, pdFrame, hp, Except.bind] <;> simp

/-- C161 for decision trees and naive Bayes: a flat vector of numbers is one sample, in each of the three containers; so is a 1-D array or a
`Series` of any values. -/
theorem C161_flat_tree_partial [LinearOrder K] {m : Nat} (repr : K → String) (t : Tree (Cell K) K m) (ns : List String)
    (g : List (Option (Cell K)) → Except PyErr α) (r : List (Cell K)) (x : Input K) (hx : HoldsRow x r)
    (hn : (∀ c ∈ r, c.isNum = true) ∨ x ≠ .list r) (hw : r.length = ns.length) :
    treePredict repr t x = (treeRow r t).map (fun c => [c]) ∧
    nbCallPredict repr (some ns) g x = (g (r.map some)).map (fun c => [c]) := by
  have e1 : ∀ s : List (Cell K), [s].mapM (fun r => treeRow r t) = (treeRow s t).map (fun c => [c]) := by
    intro s
    rw [List.mapM_cons, List.mapM_nil]
    cases treeRow s t <;> rfl
  have e2 : (pdFrame (some ns) (.array2 [r])).bind (fun rows => rows.mapM g) = (g (r.map some)).map (fun c => [c]) := by
    simp only [pdFrame, byPosition]
    rw [if_neg (by simpa using hw)]
    simp only [Except.bind, List.map_cons, List.map_nil, List.mapM_cons, List.mapM_nil]
    cases g (r.map some) <;> rfl
  cases hx with
  | list =>
    have hn : ∀ c ∈ r, c.isNum = true := by
      rcases hn with hn | hn
      · exact hn
      · exact absurd rfl hn
    have e : npList repr r = r := by
      unfold npList; rw [if_pos]; rw [List.all_eq_true]; exact hn
    refine ⟨?_, ?_⟩
    · simp only [treePredict, treeRows, e, e1]
    · simp only [nbCallPredict, nbRows, e, e2]
  | array => exact ⟨by simp only [treePredict, treeRows, e1], by simp only [nbCallPredict, nbRows, e2]⟩
  | series => exact ⟨by simp only [treePredict, treeRows, e1], by simp only [nbCallPredict, nbRows, e2]⟩

/-- C161 is false for a list that mixes numbers and strings: numpy turns the numbers into strings, and a tree that first splits on a number raises `TypeError`
for every such list, while the same values in an object array are answered. -/
theorem C161_flat_mixed [LinearOrder K] {m : Nat} (repr : K → String) (a : Fin m) (p : K) (nl ht : Int) (ge lt : Tree (Cell K) K m)
    (r : List (Cell K)) (ha : a.val < r.length) (hs : ∃ c ∈ r, c.isNum = false) :
    treePredict repr (.cont a p nl ht ge lt) (.list r) = .error .typeError := by
  have e : npList repr r = r.map fun c => .str (c.text repr) := by
    unfold npList
    rw [if_neg]
    obtain ⟨c, hc, hcn⟩ := hs
    intro h
    rw [List.all_eq_true] at h
    rw [h c hc] at hcn
    cases hcn
  simp only [treePredict, treeRows, e, List.mapM_cons]
  unfold treeRow
  rw [List.getElem?_map, List.getElem?_eq_getElem ha]
  rfl

/-! ## C162 attributes by name -/

/-- C162 for naive Bayes and the one-dependent estimator: only the named columns count, wherever they stand in the table. -/
theorem C162_by_name_partial (repr : K → String) (ns : List String) (g : List (Option (Cell K)) → Except PyErr α) (cols cols' : List String)
    (rows rows' : List (List (Cell K))) (h : SameTable ns cols cols' rows rows') :
    nbCallPredict repr (some ns) g (.frame cols rows) = nbCallPredict repr (some ns) g (.frame cols' rows') ∧
    spodeCallPredict (some ns) g (.frame cols rows) = spodeCallPredict (some ns) g (.frame cols' rows') ∧
    treeFitRows (some ns) (.frame cols rows) = treeFitRows (some ns) (.frame cols' rows') := by
  have e : rows.map (byName cols ns) = rows'.map (byName cols' ns) := by
    unfold SameTable at h
    induction h with
    | nil => rfl
    | @cons r r' rs rs' hr _ ih =>
      rw [List.map_cons, List.map_cons, ih]
      congr 1
      unfold byName
      apply List.map_congr_left
      intro n hn
      have := hr n hn
      unfold byName at this
      simpa using this
  simp only [nbCallPredict, spodeCallPredict, treeFitRows, nbRows, pdFrame, e, and_self]

/-- Looking a name up finds the value in its column, when the names of the columns are distinct. -/
theorem byName_get (cols : List String) (hd : cols.Nodup) (r : List (Cell K)) (hl : r.length = cols.length) (j : Nat) (hj : j < cols.length) :
    byName cols [cols[j]] r = [some (r[j]'(hl ▸ hj))] := by
  unfold byName
  simp only [List.map_cons, List.map_nil]
  congr 1
  induction cols generalizing r j with
  | nil => simp at hj
  | cons c cs ih =>
    cases r with
    | nil => simp at hl
    | cons v vs =>
      rw [List.zip_cons_cons, List.find?_cons]
      cases j with
      | zero => simp
      | succ j =>
        have hj' : j < cs.length := by simpa using hj
        have hne : c ≠ cs[j] := fun h => (List.nodup_cons.1 hd).1 (h ▸ List.getElem_mem hj')
        simp only [List.getElem_cons_succ]
        rw [show (c == cs[j]) = false from by simpa using hne]
        exact ih (List.nodup_cons.1 hd).2 vs (by simpa using hl) j hj'

/-- C162, what `fit` sees of a table: a row of the named columns in the order of the names. A table whose columns are exactly the names is taken as it is. -/
theorem C162_same_columns_partial [LinearOrder K] {m : Nat} (repr : K → String) (t : Tree (Cell K) K m) (ns : List String) (hd : ns.Nodup)
    (rows : List (List (Cell K))) (hw : ∀ r ∈ rows, r.length = ns.length) :
    treeFitRows (some ns) (.frame ns rows) = .ok (rows.map fun r => r.map some) ∧
    treePredict repr t (.frame ns rows) = rows.mapM fun r => treeRow r t := by
  refine ⟨?_, rfl⟩
  simp only [treeFitRows, pdFrame]
  congr 1
  apply List.map_congr_left
  intro r hr
  have hl := hw r hr
  apply List.ext_getElem
  · simp [byName, hl]
  · intro j h1 h2
    have hj : j < ns.length := by simpa [byName] using h1
    have := byName_get ns hd r hl j hj
    simpa [byName] using this

/-- C162 is false for decision trees: `predict` takes the columns of a table by position. For EVERY tree that splits on its first attribute into leaves with
labels `c` and `c'` there are two tables with the same data under the same names, which `fit` does not distinguish, and which `predict` answers `c` and `c'`. -/
theorem C162_tree_by_position [Field K] [LinearOrder K] [IsStrictOrderedRing K] (repr : K → String) (p : K) (nl ht c c' : Int) :
    ∃ (ns cols : List String) (rows rows' : List (List (Cell K))), cols.Perm ns ∧ SameTable ns ns cols rows rows' ∧
      treeFitRows (some ns) (.frame ns rows) = treeFitRows (some ns) (.frame cols rows') ∧
      treePredict repr (.cont (0 : Fin 2) p nl ht (.leaf c) (.leaf c')) (.frame ns rows) = .ok [c] ∧
      treePredict repr (.cont (0 : Fin 2) p nl ht (.leaf c) (.leaf c')) (.frame cols rows') = .ok [c'] := by
  have hs : SameTable ["a", "b"] ["a", "b"] ["b", "a"] [[.num (p + 1), .num (p - 1)]] [[Cell.num (p - 1), .num (p + 1)]] := by
    refine List.Forall₂.cons ?_ List.Forall₂.nil
    intro n hn
    simp only [List.mem_cons, List.not_mem_nil, or_false] at hn
    rcases hn with rfl | rfl <;> rfl
  refine ⟨["a", "b"], ["b", "a"], [[.num (p + 1), .num (p - 1)]], [[.num (p - 1), .num (p + 1)]], List.Perm.swap .., hs, ?_, ?_, ?_⟩
  · exact (C162_by_name_partial (α := Int) repr _ (fun _ => .error .valueError) _ _ _ _ hs).2.2
  · have : p ≤ p + 1 := by linarith
    simp only [treePredict, treeRows, treeRow, List.mapM_cons, List.mapM_nil, Fin.val_zero, List.getElem?_cons_zero, if_pos this]
    rfl
  · have : ¬p ≤ p - 1 := by linarith
    simp only [treePredict, treeRows, treeRow, List.mapM_cons, List.mapM_nil, Fin.val_zero, List.getElem?_cons_zero, if_neg this]
    rfl

/-! ## Non-vacuity -/

example : clusterPredict (K := ℚ) (fun _ => none) (fun r => .ok r.sum) (.lists (cells [[1, 2], [3, 4]])) = .ok (.vec [3, 7]) ∧
    ldaPredict (K := ℚ) (fun _ => none) (fun r => .ok r.sum) (.frame ["a", "b"] (cells [[1, 2]])) = .ok (.scalar 3) ∧
    lrPredict (K := ℚ) (fun _ => none) id [2, 3, 1] (.lists (cells [[1, 2], [3, 4]])) = .ok (.vec [9, 19]) ∧
    lrPredict (K := ℚ) (fun _ => none) id [2, 3, 1] (.list [.num 1, .num 2]) = .error .valueError ∧
    lrPredict (K := ℚ) (fun _ => none) id [2, 1] (.list [.num 1, .num 2]) = .ok (.vec [3, 5]) ∧
    svcPredict (K := ℚ) (fun _ => none) true 2 (fun r => .ok r.sum) (.list [.num 1, .num 5]) = .ok (.vec [2, 10]) := by
  decide +kernel

/-- A list of two rows gets one label from a tree that is a leaf, and raises with a tree that splits; the array of the same rows is answered row by row. -/
example : treePredict (K := ℚ) (m := 2) (fun _ => "") (.leaf 1) (.lists (cells [[1, 2], [3, 4]])) = .ok [1] ∧
    treePredict (K := ℚ) (m := 2) (fun _ => "") (.cont 0 2 2 1 (.leaf 1) (.leaf 0)) (.lists (cells [[1, 2], [3, 4]])) = .error .valueError ∧
    treePredict (K := ℚ) (m := 2) (fun _ => "") (.cont 0 2 2 1 (.leaf 1) (.leaf 0)) (.array2 (cells [[1, 2], [3, 4]])) = .ok [0, 1] ∧
    treePredict (K := ℚ) (m := 2) (fun _ => "") (.cont 0 2 2 1 (.leaf 1) (.leaf 0)) (.list [.num 1, .str "x"]) = .error .typeError ∧
    treePredict (K := ℚ) (m := 2) (fun _ => "") (.cont 0 2 2 1 (.leaf 1) (.leaf 0)) (.array1 [.num 1, .str "x"]) = .ok [0] := by
  refine ⟨?_, ?_, ?_, ?_, ?_⟩ <;> decide +kernel

end CML.Calls
