import Mathlib.Data.List.Nodup
import Verif.Props.Frames

set_option linter.unusedSectionVars false

/-! # C170, further theorems: the table `fit` works on, and the arguments it refuses -/

namespace CML.Frames

variable {V : Type}

/-- C170, what is *not* the caller's: `fit` and `predict` with names work on a new table (number `next`), and exactly one is made for `x`. An array gets the names
as its columns and keeps its values. -/
theorem C170_new_table (na : V) (ns : List String) (h : Heap V) (t : Table V) (hl : t.cols.length = ns.length) :
    ∃ h', asFrame na (some ns) h (.plain t) = .ok (h', h.next) ∧ h'.next = h.next + 1 ∧ h'.tab h.next = { t with cols := ns } ∧ Untouched h h' := by
  refine ⟨(h.alloc { t with cols := ns }).1, ?_, rfl, ?_, fun i hi => alloc_tab hi⟩
  · simp only [asFrame, if_pos hl]; rfl
  · simp [Heap.alloc]

/-- …a frame gets the columns of these names, in this order, also in a new table. -/
theorem C170_new_table_frame (na : V) (ns : List String) (h : Heap V) (i : Nat) (hn : (h.tab i).cols.Nodup) :
    ∃ h', asFrame na (some ns) h (.frame i) = .ok (h', h.next) ∧ h'.next = h.next + 1 ∧ (h'.tab h.next).cols = ns ∧
      (h'.tab h.next).index = (h.tab i).index ∧ Untouched h h' := by
  by_cases hc : (h.tab i).cols = ns
  · refine ⟨(h.alloc (h.tab i)).1, ?_, rfl, ?_, ?_, fun i hi => alloc_tab hi⟩
    · simp only [asFrame, if_pos hc]; rfl
    · simp [Heap.alloc, hc]
    · simp [Heap.alloc]
  · refine ⟨(h.alloc (selectCols na ns (h.tab i))).1, ?_, rfl, ?_, ?_, fun i hi => alloc_tab hi⟩
    · simp only [asFrame, if_neg hc, if_pos hn]; rfl
    · simp [Heap.alloc, selectCols]
    · simp [Heap.alloc, selectCols]

theorem lookup_zip_nodup (cols : List String) (r : List V) (hc : cols.Nodup) (hl : r.length = cols.length) (k : Nat) (c : String) (hk : cols[k]? = some c) :
    (cols.zip r).lookup c = r[k]? := by
  induction cols generalizing r k with
  | nil => simp at hk
  | cons d ds ih =>
    cases r with
    | nil => simp at hl
    | cons v vs =>
      rw [List.nodup_cons] at hc
      cases k with
      | zero =>
        simp only [List.getElem?_cons_zero, Option.some.injEq] at hk
        subst hk
        simp
      | succ k =>
        simp only [List.getElem?_cons_succ] at hk ⊢
        have hne : (c == d) = false := by
          rw [beq_eq_false_iff_ne]
          rintro rfl
          exact hc.1 (List.mem_of_getElem? hk)
        rw [List.zip_cons_cons, List.lookup_cons, hne]
        exact ih vs hc.2 (by simpa using hl) k hk

theorem lookup_zip_absent (cols : List String) (r : List V) (c : String) (hc : c ∉ cols) : (cols.zip r).lookup c = none := by
  induction cols generalizing r with
  | nil => simp
  | cons d ds ih =>
    cases r with
    | nil => simp
    | cons v vs =>
      simp only [List.mem_cons, not_or] at hc
      rw [List.zip_cons_cons, List.lookup_cons, beq_eq_false_iff_ne.2 hc.1]
      exact ih vs hc.2

/-- …and every value of the new table is the value of the caller's table in the same row and in the column of that name; a name that is no column gives missing
values. -/
theorem C170_new_table_values (na : V) (ns : List String) (h h' : Heap V) (i t : Nat) (hn : (h.tab i).cols.Nodup)
    (hw : ∀ r ∈ (h.tab i).rows, r.length = (h.tab i).cols.length) (hf : asFrame na (some ns) h (.frame i) = .ok (h', t)) :
    (h'.tab t).rows.length = (h.tab i).rows.length ∧
    ∀ (q : Nat) (r r' : List V), (h.tab i).rows[q]? = some r → (h'.tab t).rows[q]? = some r' → r'.length = ns.length ∧ ∀ (j : Nat) (c : String), ns[j]? = some c →
      (∀ k : Nat, (h.tab i).cols[k]? = some c → r'[j]? = r[k]?) ∧ (c ∉ (h.tab i).cols → r'[j]? = some na) := by
  by_cases hc : (h.tab i).cols = ns
  · simp only [asFrame, if_pos hc, Except.ok.injEq] at hf
    have e1 : h' = (h.alloc (h.tab i)).1 := (congrArg Prod.fst hf).symm
    have e2 : t = h.next := (congrArg Prod.snd hf).symm
    have e : h'.tab t = h.tab i := by rw [e1, e2]; simp [Heap.alloc]
    rw [e]
    refine ⟨rfl, fun q r r' h1 h2 => ?_⟩
    rw [h1] at h2
    cases h2
    refine ⟨by rw [hw r (List.mem_of_getElem? h1), hc], fun j c hj => ⟨fun k hk => ?_, fun hnot => absurd (List.mem_of_getElem? hj) (hc ▸ hnot)⟩⟩
    rw [← hc] at hj
    obtain ⟨l1, a1⟩ := List.getElem?_eq_some_iff.1 hj
    obtain ⟨l2, a2⟩ := List.getElem?_eq_some_iff.1 hk
    rw [(List.Nodup.getElem_inj_iff hn).1 (a1.trans a2.symm)]
  · simp only [asFrame, if_neg hc, if_pos hn, Except.ok.injEq] at hf
    have e1 : h' = (h.alloc (selectCols na ns (h.tab i))).1 := (congrArg Prod.fst hf).symm
    have e2 : t = h.next := (congrArg Prod.snd hf).symm
    have e : h'.tab t = selectCols na ns (h.tab i) := by rw [e1, e2]; simp [Heap.alloc]
    rw [e]
    refine ⟨by simp [selectCols], fun q r r' h1 h2 => ?_⟩
    simp only [selectCols, List.getElem?_map, h1, Option.map_some, Option.some.injEq] at h2
    subst h2
    refine ⟨by simp, fun j c hj => ⟨fun k hk => ?_, fun hnot => ?_⟩⟩
    · rw [List.getElem?_map, hj, Option.map_some, lookup_zip_nodup _ r hn (hw r (List.mem_of_getElem? h1)) k c hk]
      have hlt : k < r.length := by
        rw [hw r (List.mem_of_getElem? h1)]
        exact (List.getElem?_eq_some_iff.1 hk).1
      rw [List.getElem?_eq_getElem hlt]
      rfl
    · rw [List.getElem?_map, hj, Option.map_some, lookup_zip_absent _ r c hnot]
      rfl

/-- Such a frame: the columns are found by their names. -/
example : ∃ h' t, asFrame 0 (some ["b", "z", "a"]) (⟨fun _ => ⟨[.int 7], ["a", "b"], [[1, 2]]⟩, 1⟩ : Heap Nat) (.frame 0) = .ok (h', t) ∧ (h'.tab t).rows = [[2, 0, 1]] :=
  ⟨_, _, rfl, by decide⟩

/-- C170: an array with another number of columns than there are names makes `fit` and `predict` raise `ValueError`, and no table is made or changed. -/
theorem C170_wrong_width (na : V) (conv : List V → Option (List V)) (c : Cls) (ns : List String) (h : Heap V) (t : Table V) (hl : t.cols.length ≠ ns.length) (y : YArg V) :
    fit na conv c (some ns) false none h (.plain t) y = (h, some .valueError) ∧
    (c ≠ .decisionTree → predict na c (some ns) h (.plain t) = (h, some .valueError)) := by
  have e : asFrame na (some ns) h (.plain t) = .error .valueError := by simp only [asFrame, if_neg hl]
  constructor
  · cases c <;> simp only [fit, prepare, e]
  · intro hc
    cases c <;> first | exact absurd rfl hc | simp only [predict, e]

/-- C170: a frame with repeated column names, other than the names asked for, is refused with `ValueError`. -/
theorem C170_repeated_columns (na : V) (conv : List V → Option (List V)) (c : Cls) (ns : List String) (h : Heap V) (i : Nat) (hc : (h.tab i).cols ≠ ns)
    (hd : ¬ (h.tab i).cols.Nodup) (y : YArg V) :
    fit na conv c (some ns) false none h (.frame i) y = (h, some .valueError) ∧
    (c ≠ .decisionTree → predict na c (some ns) h (.frame i) = (h, some .valueError)) := by
  have e : asFrame na (some ns) h (.frame i) = .error .valueError := by simp only [asFrame, if_neg hc, if_neg hd]
  constructor
  · cases c <;> simp only [fit, prepare, e]
  · intro hc
    cases c <;> first | exact absurd rfl hc | simp only [predict, e]

/-- C170: a list of labels that cannot be converted to integers makes `fit` of naive Bayes and of the decision tree raise `ValueError`; the frame has been relabelled
by then. -/
theorem C170_unconvertible_labels (na : V) (conv : List V → Option (List V)) (c : Cls) (hc : c = .naiveBayes ∨ c = .decisionTree) (h : Heap V) (i : Nat)
    (l : List V) (hl : (l.map fun v => [v]).mapM conv = none) :
    (fit na conv c none false none h (.frame i) (.plain l)).2 = some .valueError ∧
    Numbered ((fit na conv c none false none h (.frame i) (.plain l)).1.tab i) := by
  have e : asSeries conv true (h.reset i) (.plain l) = .error .valueError := by simp only [asSeries, if_true, hl]
  have key : fit na conv c none false none h (.frame i) (.plain l) = (h.reset i, some .valueError) := by
    rcases hc with rfl | rfl <;> simp only [fit, prepare, asFrame, Cls.typed, e]
  rw [key]
  refine ⟨rfl, ?_⟩
  simp only [reset_self]
  exact numbered_default _

/-- Labels "yes", "no" that are no numbers; and an array of one column with two names. -/
example : (([1, 2].map fun v => [v]).mapM fun _ => (none : Option (List Nat))) = none ∧
    (fit 0 some .naiveBayes (some ["a", "b"]) false none ⟨fun _ => ⟨[], [], []⟩, 0⟩ (.plain ⟨[], ["p"], [[1]]⟩) (.plain [1])).2 = some .valueError := by
  decide +kernel

/-- C170: every table that `prepare` makes is numbered from `next` on, so two arguments that are copied never share a table: with names and plain labels the two
new tables are `next` and `next + 1`. -/
theorem C170_two_tables (na : V) (conv : List V → Option (List V)) (ns : List String) (h : Heap V) (t : Table V) (hl : t.cols.length = ns.length) (l : List V) :
    let h' := (prepare na conv false (some ns) h (.plain t) (.plain l)).1
    h'.next = h.next + 2 ∧ (h'.tab h.next).rows = t.rows ∧ (h'.tab (h.next + 1)).rows = l.map fun v => [v] := by
  simp only [prepare, asFrame, if_pos hl, Heap.alloc, Heap.reset, asSeries]
  simp

end CML.Frames
