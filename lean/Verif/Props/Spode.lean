import Verif.Model.Spode
import Mathlib.Data.List.Nodup

set_option linter.unusedSectionVars false

/-! # Properties C165, C166 (names in the one-dependent estimators) -/

namespace CML.Bayes

variable {V : Type} [DecidableEq V]

/-! ## C165 the super-parent -/

theorem findIndex_not_mem (name : Option String) : ∀ (cols : List String) (old : Option Nat) (k : Nat), (∀ c ∈ cols, name ≠ some c) →
    findIndex name old cols k = old
  | [], _, _, _ => rfl
  | c :: cs, old, k, h => by
    unfold findIndex
    rw [if_neg (h c List.mem_cons_self)]
    exact findIndex_not_mem name cs old (k + 1) fun c' hc' => h c' (List.mem_cons_of_mem _ hc')

theorem findIndex_mem (n : String) : ∀ (cols : List String) (old : Option Nat) (k i : Nat), cols.Nodup → cols[i]? = some n →
    findIndex (some n) old cols k = some (k + i)
  | [], _, _, _, _, h => by simp at h
  | c :: cs, old, k, i, hd, h => by
    unfold findIndex
    cases i with
    | zero =>
      have hc : c = n := by simpa using h
      subst hc
      rw [if_pos rfl, findIndex_not_mem]
      · rfl
      · intro c' hc' he
        injection he with he
        subst he
        exact (List.nodup_cons.1 hd).1 hc'
    | succ i =>
      have h' : cs[i]? = some n := by simpa using h
      rw [findIndex_mem n cs _ (k + 1) i (List.nodup_cons.1 hd).2 h']
      congr 1
      omega

/-- The position `findIndex` returns is the old one, or a position of that name. -/
theorem findIndex_cases (name : Option String) : ∀ (cols : List String) (old : Option Nat) (k : Nat) (i : Nat), findIndex name old cols k = some i →
    old = some i ∨ ∃ n j, name = some n ∧ i = k + j ∧ cols[j]? = some n
  | [], _, _, _, h => Or.inl h
  | c :: cs, old, k, i, h => by
    unfold findIndex at h
    rcases findIndex_cases name cs _ (k + 1) i h with h1 | ⟨n, j, hn, hi, hj⟩
    · split at h1
      · rename_i hc
        injection h1 with h1
        exact Or.inr ⟨c, 0, hc, by omega, rfl⟩
      · exact Or.inl h1
    · exact Or.inr ⟨n, j + 1, hn, by omega, by simpa using hj⟩

/-- C165: when the table has a column of the compiled name, the estimates added by `fit` are those with exactly that column as super-parent, whatever
happened to the object before. -/
theorem C165_named_super_parent_partial (emb : List ℝ → List V) (o : Spode V) (n : String) (hn : o.superName = some n) (table : List (String × Col V))
    (hd : (table.map Prod.fst).Nodup) (i : Nat) (c : Col V) (hi : table[i]? = some (n, c)) (y : List Int) (hy : y ≠ []) :
    (o.fit emb table y).1 = .ok () ∧
    (o.fit emb table y).2.entries = o.entries ++ spodeEntries (table.map Prod.snd) (superValues emb c) y o.smoothing ∧
    (o.fit emb table y).2.trained = true := by
  have hf : findIndex o.superName o.superIndex (table.map Prod.fst) 0 = some i := by
    rw [hn, findIndex_mem n _ _ 0 i hd (by rw [List.getElem?_map, hi]; rfl), Nat.zero_add]
  unfold Spode.fit
  simp only [hf, if_neg hy, hi]
  exact ⟨trivial, rfl, trivial⟩

/-- C165, first fit: a name that is no column is refused with `ValueError`, and nothing is added. -/
theorem C165_unknown_name_partial (emb : List ℝ → List V) (o : Spode V) (hfresh : o.superIndex = none) (table : List (String × Col V))
    (hno : ∀ c ∈ table, o.superName ≠ some c.1) (y : List Int) (hy : y ≠ []) :
    (o.fit emb table y).1 = .error .valueError ∧ (o.fit emb table y).2 = o := by
  have hf : findIndex o.superName o.superIndex (table.map Prod.fst) 0 = none := by
    rw [findIndex_not_mem _ _ _ _ (by
      intro c hc
      obtain ⟨p, hp, rfl⟩ := List.mem_map.1 hc
      exact hno p hp), hfresh]
  unfold Spode.fit
  simp only [hf, if_neg hy]
  refine ⟨trivial, ?_⟩
  cases o
  simp_all

/-- C165 is false on a second fit: a name that is no column is accepted, and the column at the position of the FORMER super-parent is used, for every object, table and
labels. -/
theorem C165_unknown_name_accepted (emb : List ℝ → List V) (o : Spode V) (i : Nat) (hold : o.superIndex = some i) (table : List (String × Col V))
    (hno : ∀ c ∈ table, o.superName ≠ some c.1) (m : String) (c : Col V) (hi : table[i]? = some (m, c)) (y : List Int) (hy : y ≠ []) :
    (o.fit emb table y).1 = .ok () ∧
    (o.fit emb table y).2.entries = o.entries ++ spodeEntries (table.map Prod.snd) (superValues emb c) y o.smoothing := by
  have hf : findIndex o.superName o.superIndex (table.map Prod.fst) 0 = some i := by
    rw [findIndex_not_mem _ _ _ _ (by
      intro c hc
      obtain ⟨p, hp, rfl⟩ := List.mem_map.1 hc
      exact hno p hp), hold]
  unfold Spode.fit
  simp only [hf, if_neg hy, hi]
  exact ⟨trivial, rfl⟩

/-- The position is never an invention: after any sequence of calls, it is the position at which some earlier `fit` found the name compiled at that time. -/
theorem C165_position_has_a_reason (emb : List ℝ → List V) (calls : List (SpodeCall V)) (i : Nat)
    (h : (calls.foldl (Spode.call emb) Spode.new).superIndex = some i) :
    ∃ (before after : List (SpodeCall V)) (table : List (String × Col V)) (y : List Int) (n : String) (c : Col V),
      calls = before ++ .fit table y :: after ∧ (before.foldl (Spode.call emb) Spode.new).superName = some n ∧ table[i]? = some (n, c) := by
  induction calls using List.reverseRecOn with
  | nil => exact absurd h (by simp [Spode.new])
  | append_singleton calls call ih =>
    rw [List.foldl_append, List.foldl_cons, List.foldl_nil] at h
    have extend : (calls.foldl (Spode.call emb) Spode.new).superIndex = some i →
        ∃ (before after : List (SpodeCall V)) (table : List (String × Col V)) (y : List Int) (n : String) (c : Col V),
          calls ++ [call] = before ++ .fit table y :: after ∧ (before.foldl (Spode.call emb) Spode.new).superName = some n ∧ table[i]? = some (n, c) := fun h' => by
      obtain ⟨b, a, t, y, n, c, h1, h2, h3⟩ := ih h'
      exact ⟨b, a ++ [call], t, y, n, c, by rw [h1]; simp, h2, h3⟩
    cases call with
    | compile n s => exact extend h
    | fit table y =>
      have hq : ∀ o : Spode V, (o.fit emb table y).2.superIndex = findIndex o.superName o.superIndex (table.map Prod.fst) 0 := by
        intro o
        simp only [Spode.fit]
        split
        · rfl
        · split
          · rfl
          · split <;> rfl
      have h' : findIndex (calls.foldl (Spode.call emb) Spode.new).superName (calls.foldl (Spode.call emb) Spode.new).superIndex
          (table.map Prod.fst) 0 = some i := by rw [← hq]; exact h
      rcases findIndex_cases _ _ _ _ _ h' with h1 | ⟨n, j, hn, hi, hj⟩
      · exact extend h1
      · rw [Nat.zero_add] at hi
        subst hi
        rw [List.getElem?_map] at hj
        cases hg : table[i]? with
        | none => rw [hg] at hj; cases hj
        | some p =>
          rw [hg] at hj
          have : p.1 = n := by simpa using hj
          exact ⟨calls, [], table, y, n, p.2, by simp, hn, by rw [hg, ← this]⟩

/-- Without `compile` the first `fit` always fails. -/
theorem C165_not_compiled (emb : List ℝ → List V) (table : List (String × Col V)) (y : List Int) (hy : y ≠ []) :
    ((Spode.new : Spode V).fit emb table y).1 = .error .valueError :=
  (C165_unknown_name_partial emb _ rfl table (fun _ _ => by simp [Spode.new]) y hy).1

/-- C165: `compile` followed by `fit`: the column of the compiled name is the super-parent and the compiled smoothing is used, whatever was compiled or fitted before. -/
theorem C165_compiled (emb : List ℝ → List V) (o : Spode V) (n : String) (sm : Bool) (table : List (String × Col V))
    (hd : (table.map Prod.fst).Nodup) (i : Nat) (c : Col V) (hi : table[i]? = some (n, c)) (y : List Int) (hy : y ≠ []) :
    ((o.compile n sm).fit emb table y).1 = .ok () ∧
    ((o.compile n sm).fit emb table y).2.entries = o.entries ++ spodeEntries (table.map Prod.snd) (superValues emb c) y sm ∧
    ((o.compile n sm).fit emb table y).2.trained = true :=
  C165_named_super_parent_partial emb (o.compile n sm) n rfl table hd i c hi y hy

/-- Non-vacuity: compiled with "b", fitted on columns a, b; compiled with "z", fitted again: the second fit is accepted. -/
example (emb : List ℝ → List String) :
    let o1 := ((Spode.new : Spode String).compile "b" true).fit emb [("a", .disc ["u", "v"]), ("b", .disc ["p", "q"])] [0, 1]
    let o2 := (o1.2.compile "z" true).fit emb [("c", .disc ["u", "v"]), ("d", .disc ["p", "q"])] [0, 1]
    o1.1 = .ok () ∧ o1.2.superIndex = some 1 ∧ o2.1 = .ok () := by
  simp [Spode.fit, Spode.compile, Spode.new, findIndex]

/-! ## C166 names do not matter -/

theorem set_append_new (d : Dict String (Payload V)) (k : String) (p : Payload V) (h : k ∉ d.map Prod.fst) : d.set k p = d ++ [(k, p)] := by
  induction d with
  | nil => rfl
  | cons q d ih =>
    obtain ⟨a, b⟩ := q
    simp only [List.map_cons, List.mem_cons, not_or] at h
    unfold Dict.set
    rw [if_neg (Ne.symm h.1), ih h.2]
    rfl

/-- The dictionary lists the prior, then the attributes in their order, when the names are distinct and none is `'p_c_xi'`. -/
theorem pcDict_eq (prior : ℝ) (cols : List (String × Stored V)) (hd : (cols.map Prod.fst).Nodup) (hp : "p_c_xi" ∉ cols.map Prod.fst) :
    pcDict prior cols = ("p_c_xi", .prior prior) :: cols.map fun c => (c.1, .attr c.2) := by
  have key : ∀ (cols : List (String × Stored V)) (d : Dict String (Payload V)), (cols.map Prod.fst).Nodup →
      (∀ c ∈ cols, c.1 ∉ d.map Prod.fst) →
      cols.foldl (fun d c => d.set c.1 (.attr c.2)) d = d ++ cols.map fun c => (c.1, .attr c.2) := by
    intro cols
    induction cols with
    | nil => intro d _ _; simp
    | cons c cols ih =>
      intro d hd hn
      rw [List.map_cons, List.nodup_cons] at hd
      rw [List.foldl_cons, set_append_new d c.1 _ (hn c List.mem_cons_self), ih _ hd.2]
      · simp
      · intro c' hc'
        rw [List.map_append, List.mem_append, not_or]
        refine ⟨hn c' (List.mem_cons_of_mem _ hc'), ?_⟩
        simp only [List.map_cons, List.map_nil, List.mem_singleton]
        intro he
        exact hd.1 (he ▸ List.mem_map.2 ⟨c', hc', rfl⟩)
  unfold pcDict
  rw [key cols _ hd]
  · rfl
  · intro c hc he
    simp only [List.map_cons, List.map_nil, List.mem_singleton] at he
    exact hp (he ▸ List.mem_map.2 ⟨c, hc, rfl⟩)

theorem pcLoop_attrs (fl : ℝ → ℝ) (smoothing : Bool) (pre x : List (Cell V)) (cols : List (String × Stored V)) (hp : "p_c_xi" ∉ cols.map Prod.fst) :
    pcLoop fl smoothing (pre ++ x) (cols.map fun c => (c.1, .attr c.2)) (pre.length + 1) = factors fl smoothing (cols.map Prod.snd) x := by
  induction cols generalizing pre x with
  | nil => simp [pcLoop, factors]
  | cons c cols ih =>
    simp only [List.map_cons, List.mem_cons, not_or] at hp
    simp only [List.map_cons, pcLoop]
    rw [if_neg (Ne.symm hp.1), Nat.add_sub_cancel]
    cases x with
    | nil =>
      rw [List.append_nil, List.getElem?_eq_none (le_refl _)]
      rfl
    | cons v x =>
      have hg : (pre ++ v :: x)[pre.length]? = some v := by simp
      rw [hg]
      unfold factors
      dsimp only
      have := ih (pre ++ [v]) x hp.2
      rw [List.append_assoc, List.length_append, List.length_singleton] at this
      simp only [List.singleton_append] at this
      rw [this]
      cases factor fl smoothing c.2 v <;> rfl

/-- C166: with distinct names, none of them `'p_c_xi'`, the factors of a row do not depend on the names: they are the prior and the factor of each attribute at the value
of the row in the SAME position (what the model of C39, C43, C79 computes). -/
theorem C166_names_do_not_matter_partial (fl : ℝ → ℝ) (smoothing : Bool) (cat : Int) (v : V) (prior : ℝ) (names : List String) (stored : List (Stored V))
    (hl : names.length = stored.length) (hd : names.Nodup) (hp : "p_c_xi" ∉ names) (x : List (Cell V)) :
    namedFactors fl smoothing prior (names.zip stored) x = entryFactors fl smoothing ⟨cat, v, prior, stored⟩ x := by
  have h1 : (names.zip stored).map Prod.fst = names := List.map_fst_zip (by omega)
  have h2 : (names.zip stored).map Prod.snd = stored := List.map_snd_zip (by omega)
  unfold namedFactors entryFactors
  rw [pcDict_eq prior _ (by rw [h1]; exact hd) (by rw [h1]; exact hp), pcLoop, if_pos rfl]
  have := pcLoop_attrs fl smoothing [] x (names.zip stored) (by rw [h1]; exact hp)
  simp only [List.nil_append, List.length_nil, h2] at this
  simp only [this]
  cases factors fl smoothing stored x <;> rfl

/-- Renaming the attributes does not change the factors. -/
theorem C166_renaming_partial (fl : ℝ → ℝ) (smoothing : Bool) (prior : ℝ) (names names' : List String) (stored : List (Stored V))
    (hl : names.length = stored.length) (hl' : names'.length = stored.length) (hd : names.Nodup) (hd' : names'.Nodup)
    (hp : "p_c_xi" ∉ names) (hp' : "p_c_xi" ∉ names') (x : List (Cell V)) :
    namedFactors fl smoothing prior (names.zip stored) x = namedFactors fl smoothing prior (names'.zip stored) x := by
  by_cases hx : Nonempty V
  · obtain ⟨v⟩ := hx
    rw [C166_names_do_not_matter_partial fl smoothing 0 v prior names stored hl hd hp,
      C166_names_do_not_matter_partial fl smoothing 0 v prior names' stored hl' hd' hp']
  · have h1 : (names.zip stored).map Prod.fst = names := List.map_fst_zip (by omega)
    have h2 : (names.zip stored).map Prod.snd = stored := List.map_snd_zip (by omega)
    have h1' : (names'.zip stored).map Prod.fst = names' := List.map_fst_zip (by omega)
    have h2' : (names'.zip stored).map Prod.snd = stored := List.map_snd_zip (by omega)
    unfold namedFactors
    rw [pcDict_eq prior _ (by rw [h1]; exact hd) (by rw [h1]; exact hp), pcDict_eq prior _ (by rw [h1']; exact hd') (by rw [h1']; exact hp'),
      pcLoop, pcLoop, if_pos rfl, if_pos rfl]
    have e1 := pcLoop_attrs fl smoothing [] x (names.zip stored) (by rw [h1]; exact hp)
    have e2 := pcLoop_attrs fl smoothing [] x (names'.zip stored) (by rw [h1']; exact hp')
    simp only [List.nil_append, List.length_nil, h2, h2'] at e1 e2
    simp only [e1, e2]

/-- C166 is false for an attribute called `'p_c_xi'`: every prediction raises `TypeError`. -/
theorem C166_reserved_name (fl : ℝ → ℝ) (smoothing : Bool) (prior : ℝ) (cols : List (String × Stored V)) (hp : "p_c_xi" ∈ cols.map Prod.fst)
    (x : List (Cell V)) : namedFactors fl smoothing prior cols x = .error .typeError := by
  have key : ∀ (cols : List (String × Stored V)) (p : Payload V) (rest : Dict String (Payload V)),
      ("p_c_xi" ∈ cols.map Prod.fst ∨ ∃ s, p = .attr s) →
      ∃ (s : Stored V) (rest' : Dict String (Payload V)), cols.foldl (fun (d : Dict String (Payload V)) (c : String × Stored V) => d.set c.1 (.attr c.2)) (("p_c_xi", p) :: rest) = ("p_c_xi", .attr s) :: rest' := by
    intro cols
    induction cols with
    | nil =>
      intro p rest h
      rcases h with h | ⟨s, rfl⟩
      · simp at h
      · exact ⟨s, rest, rfl⟩
    | cons c cols ih =>
      intro p rest h
      rw [List.foldl_cons]
      by_cases hc : "p_c_xi" = c.1
      · simp only [Dict.set, if_pos hc]
        exact ih _ _ (Or.inr ⟨c.2, rfl⟩)
      · simp only [Dict.set, if_neg hc]
        refine ih _ _ ?_
        rcases h with h | h
        · rw [List.map_cons, List.mem_cons] at h
          exact Or.inl (h.resolve_left hc)
        · exact Or.inr h
  obtain ⟨s, rest, h⟩ := key cols (.prior prior) [] (Or.inl hp)
  unfold namedFactors pcDict
  rw [h, pcLoop, if_pos rfl]

/-- C166 is false for two attributes of the same name: the second overwrites the first, and its table is read at the value of the FIRST attribute; the second value of the row does
not matter. -/
theorem C166_equal_names (fl : ℝ → ℝ) (smoothing : Bool) (prior : ℝ) (n : String) (hn : n ≠ "p_c_xi") (s1 s2 : Stored V) (c1 c2 : Cell V) :
    namedFactors fl smoothing prior [(n, s1), (n, s2)] [c1, c2] = (factor fl smoothing s2 c1).map fun f => [some prior, f] := by
  have hd : pcDict prior [(n, s1), (n, s2)] = [("p_c_xi", .prior prior), (n, .attr s2)] := by
    simp [pcDict, Dict.set, Ne.symm hn]
  unfold namedFactors
  rw [hd, pcLoop, if_pos rfl, pcLoop, if_neg hn, pcLoop]
  simp only [Nat.zero_add, Nat.sub_self, List.getElem?_cons_zero]
  cases factor fl smoothing s2 c1 <;> rfl

/-- Non-vacuity: two attributes with distinct names. -/
example : (["colour", "shape"] : List String).Nodup ∧ "p_c_xi" ∉ (["colour", "shape"] : List String) := by decide

end CML.Bayes
