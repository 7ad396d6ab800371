import Verif.Lemmas.Bayes

set_option linter.unusedSectionVars false

/-!
# Bayes classifiers: C37 - C43, C77 - C80
-/

namespace CML.Bayes

variable {V : Type*} [DecidableEq V]

/-! ## C37 -/

lemma length_unique_pos {y : List Int} (h : y ≠ []) : 0 < (pyUnique y).length := by
  obtain ⟨a, ha⟩ := List.exists_mem_of_ne_nil y h
  exact List.length_pos_of_mem (mem_pyUnique.2 ha)

/-- C37: for every non-empty label vector the two priors lie in [0, 1] and sum to one. -/
theorem C37_distribution (y : List Int) (hy : y ≠ []) (smoothing : Bool) :
    ∃ p0 p1, prior y.length y smoothing = .ok (p0, p1) ∧ 0 ≤ p0 ∧ 0 ≤ p1 ∧ p0 + p1 = 1 := by
  have hl := List.length_pos_of_ne_nil hy
  have hu := length_unique_pos hy
  have hc : y.count 0 ≤ y.length := List.count_le_length
  cases smoothing
  · refine ⟨_, _, by unfold prior; simp only [Bool.false_eq_true, if_false]; rw [if_neg (by omega)], ratio_nonneg _ _, ?_, by ring⟩
    linarith [ratio_le_one hc]
  · refine ⟨_, _, by unfold prior; simp only [if_true]; rw [if_neg (by omega)], ratio_nonneg _ _, ?_, by ring⟩
    have : y.count 0 + 1 ≤ y.length + (pyUnique y).length := by omega
    linarith [ratio_le_one this]

lemma count_add (y : List Int) (hy : ∀ c ∈ y, c = 0 ∨ c = 1) : y.count 0 + y.count 1 = y.length := by
  induction y with
  | nil => rfl
  | cons a y ih =>
    have := ih fun c hc => hy c (List.mem_cons_of_mem _ hc)
    rcases hy a List.mem_cons_self with rfl | rfl <;> simp <;> omega

/-- C37: without smoothing the priors of 0/1 labels are the frequencies of the classes. -/
theorem C37_frequencies (y : List Int) (hy : y ≠ []) (h01 : ∀ c ∈ y, c = 0 ∨ c = 1) :
    prior y.length y false = .ok ((classSize y 0 : ℝ) / y.length, (classSize y 1 : ℝ) / y.length) := by
  have hl := List.length_pos_of_ne_nil hy
  have h := count_add y h01
  have hc : ∀ c, classSize y c = y.count c := by
    intro c; unfold classSize; rw [List.count_eq_length_filter]; congr 1
  unfold prior
  simp only [Bool.false_eq_true, if_false]
  rw [if_neg (by omega), hc, hc]
  congr 2
  have hl' : (y.length : ℝ) ≠ 0 := by exact_mod_cast hl.ne'
  have : (y.count 1 : ℝ) = y.length - y.count 0 := by rw [← h]; push_cast; ring
  rw [this]; unfold ratio; field_simp

lemma unique_two {y : List Int} (h01 : ∀ c ∈ y, c = 0 ∨ c = 1) (h0 : 0 ∈ y) (h1 : 1 ∈ y) : (pyUnique y).length = 2 := by
  have hp : (pyUnique y).Perm [0, 1] := by
    rw [List.perm_ext_iff_of_nodup (nodup_pyUnique y) (by decide)]
    intro a
    rw [mem_pyUnique]
    simp only [List.mem_cons, List.not_mem_nil, or_false]
    exact ⟨h01 a, by rintro (rfl | rfl) <;> assumption⟩
  exact hp.length_eq

/-- C37: with smoothing, if both classes occur, the priors are the Laplace-corrected frequencies. -/
theorem C37_laplace_partial (y : List Int) (h01 : ∀ c ∈ y, c = 0 ∨ c = 1) (h0 : 0 ∈ y) (h1 : 1 ∈ y) :
    prior y.length y true = .ok ((classSize y 0 + 1 : ℝ) / (y.length + 2), (classSize y 1 + 1 : ℝ) / (y.length + 2)) := by
  have h := count_add y h01
  have hc : ∀ c, classSize y c = y.count c := by
    intro c; unfold classSize; rw [List.count_eq_length_filter]; congr 1
  unfold prior
  simp only [if_true]
  rw [unique_two h01 h0 h1, if_neg (by omega), hc, hc]
  have hl' : (y.length : ℝ) + 2 ≠ 0 := by positivity
  have : (y.count 1 : ℝ) = y.length - y.count 0 := by rw [← h]; push_cast; ring
  rw [this]; unfold ratio
  congr 2
  · push_cast; rfl
  · push_cast; field_simp; ring

/-- C37: the C++ implementation returns the same priors without smoothing, and with smoothing if both classes occur. -/
theorem C37_cc_partial (y : List Int) (hy : y ≠ []) (smoothing : Bool)
    (h : smoothing = true → (∀ c ∈ y, c = 0 ∨ c = 1) ∧ 0 ∈ y ∧ 1 ∈ y) :
    prior y.length y smoothing = .ok (priorCC y.length y smoothing) := by
  have hl := List.length_pos_of_ne_nil hy
  have hc : y.length - y.countP (· ≠ 0) = y.count 0 := by
    have := List.length_eq_countP_add_countP (fun c : Int => decide (c ≠ 0)) (l := y)
    have h2 : y.count 0 = y.countP (fun c => ¬ decide (c ≠ 0) = true) := by
      rw [List.count]; apply List.countP_congr; intro c _; simp
    rw [h2]; omega
  unfold prior priorCC
  rw [hc]
  cases smoothing
  · simp only [Bool.false_eq_true, if_false]; rw [if_neg (by omega)]
  · obtain ⟨h1, h2, h3⟩ := h rfl
    simp only [if_true]; rw [unique_two h1 h2 h3, if_neg (by omega)]

/-- C37 fails with smoothing if only one class occurs: the Python implementation gives the missing class probability zero, the C++ one
gives it `1 / (n + 2)`. -/
theorem C37_one_class (n : Nat) (hn : 0 < n) :
    prior n (List.replicate n 0) true = .ok (1, 0) ∧ (priorCC n (List.replicate n 0) true).2 = 1 / (n + 2) := by
  have hu : (pyUnique (List.replicate n (0 : Int))).length = 1 := by
    have : (pyUnique (List.replicate n (0 : Int))).Perm [0] := by
      rw [List.perm_ext_iff_of_nodup (nodup_pyUnique _) (by decide)]
      intro a; rw [mem_pyUnique]; simp [List.mem_replicate]; intro _; omega
    exact this.length_eq
  have hn' : (n : ℝ) + 1 ≠ 0 := by positivity
  constructor
  · unfold prior ratio
    simp only [if_true, hu, List.count_replicate_self]
    rw [if_neg (by omega)]
    push_cast
    rw [div_self hn']; simp
  · have h0 : (List.replicate n (0 : Int)).countP (fun c => decide (c ≠ 0)) = 0 := by
      rw [List.countP_eq_zero]; intro a ha; rw [List.mem_replicate] at ha; simp [ha.2]
    unfold priorCC ratio
    simp only [if_true, h0, List.length_replicate, Nat.sub_zero]
    push_cast
    field_simp; ring

example : prior 3 [1, 0, 1] true = .ok (2 / 5, 3 / 5) := by
  have := C37_laplace_partial [1, 0, 1] (by decide) (by decide) (by decide)
  refine this.trans ?_
  norm_num [classSize]

/-! ## C38 -/

lemma condProb_smooth {a c num : Nat} (h : 0 < num) : condProb a c num true = some (ratio (a + 1) (c + num)) := by
  unfold condProb; rw [if_pos rfl, if_neg (by omega)]

/-- Laplace-smoothed probabilities computed from counts sum to one. -/
lemma laplace_sum (s : Finset V) (hs : s.Nonempty) (cnt : V → Nat) (total : Nat) (h : ∑ v ∈ s, cnt v = total) :
    (∀ v ∈ s, 0 < ratio (cnt v + 1) (total + s.card)) ∧ ∑ v ∈ s, ratio (cnt v + 1) (total + s.card) = 1 := by
  have hc : 0 < s.card := Finset.card_pos.2 hs
  refine ⟨fun v _ => ratio_pos (Nat.succ_pos _) (by omega), ?_⟩
  unfold ratio
  rw [← Finset.sum_div]
  have : ∑ v ∈ s, ((cnt v + 1 : ℕ) : ℝ) = ((total + s.card : ℕ) : ℝ) := by
    rw [← Nat.cast_sum, Finset.sum_add_distrib, h]; simp
  rw [this]
  exact div_self (by exact_mod_cast (by omega))

lemma card_unique (l : List V) : l.toFinset.card = (pyUnique l).length := by
  have : l.toFinset = (pyUnique l).toFinset := by ext v; simp [mem_pyUnique]
  rw [this, List.toFinset_card_of_nodup (nodup_pyUnique l)]

/-- What is stored for a discrete attribute: a number for each of its values, the sum of which is the size of the class. -/
lemma nbColumn_counts (order : List V → List V) (ho : IsValueCounts order) (xi : List V) (y : List Int) (c : Int)
    (s : Stored V) (h : nbColumn order y c (.disc xi) = .ok s) :
    ∃ (cnt : V → Nat) (counts : List (V × Nat)), s = .disc counts (select y c xi).length (pyUnique xi).length ∧
      (∀ v ∈ xi, counts.lookup v = some (cnt v)) ∧ ∑ v ∈ xi.toFinset, cnt v = (select y c xi).length := by
  simp only [nbColumn] at h
  split at h
  · simp at h
  simp only [Except.ok.injEq] at h
  subst h
  set xc := select y c xi
  obtain ⟨hperm, -⟩ := ho xi
  have hnd : (order xi).Nodup := hperm.nodup_iff.2 (nodup_pyUnique xi)
  have hlen : (order xi).length = ((pyUnique xi).map fun v => xc.count v).length := by rw [List.length_map]; exact hperm.length_eq
  -- the counts as a function of the value
  let cnt : V → Nat := fun v => ((nbCounts order xi xc).lookup v).getD 0
  have hlook : ∀ v ∈ xi, (nbCounts order xi xc).lookup v = some (cnt v) := by
    intro v hv
    obtain ⟨i, hi⟩ := List.mem_iff_getElem?.1 (hperm.mem_iff.2 (mem_pyUnique.2 hv))
    have := lookup_zip _ _ hnd hlen i v hi
    have hlt : i < ((pyUnique xi).map fun v => xc.count v).length := by
      rw [← hlen]; exact (List.getElem?_eq_some_iff.1 hi).1
    show _ = some (((nbCounts order xi xc).lookup v).getD 0)
    unfold nbCounts
    rw [this, List.getElem?_eq_getElem hlt]; rfl
  have hsum : ∑ v ∈ xi.toFinset, cnt v = xc.length := by
    have hset : xi.toFinset = (order xi).toFinset := by ext v; simp [hperm.mem_iff, mem_pyUnique]
    rw [hset, List.sum_toFinset _ hnd]
    have : (order xi).map cnt = (pyUnique xi).map fun v => xc.count v := by
      apply List.ext_getElem (by simpa using hlen)
      intro i h1 h2
      rw [List.getElem_map]
      have hi : i < (order xi).length := by simpa using h1
      have := lookup_zip _ _ hnd hlen i (order xi)[i] (List.getElem?_eq_getElem hi)
      show ((nbCounts order xi xc).lookup _).getD 0 = _
      unfold nbCounts
      rw [this, List.getElem?_eq_getElem h2]; rfl
    rw [this, ← List.sum_toFinset _ (nodup_pyUnique xi)]
    apply sum_count
    intro v hv
    rw [List.mem_toFinset, mem_pyUnique]
    exact (select_eq xi).2 v hv
  exact ⟨cnt, _, rfl, hlook, hsum⟩

/-- C38: after fitting a naive Bayes classifier with smoothing, the conditional probabilities, given a class, of the values of a discrete
attribute are positive and sum to one. -/
theorem C38_naive_bayes (order : List V → List V) (ho : IsValueCounts order) (fl : ℝ → ℝ) (xi : List V) (y : List Int) (c : Int)
    (hne : xi ≠ []) (s : Stored V) (h : nbColumn order y c (.disc xi) = .ok s) :
    ∃ P : V → ℝ, (∀ v ∈ xi, factor fl true s (.disc v) = .ok (some (P v)) ∧ 0 < P v) ∧ ∑ v ∈ xi.toFinset, P v = 1 := by
  obtain ⟨cnt, counts, rfl, hlook, hsum⟩ := nbColumn_counts order ho xi y c s h
  have hS : xi.toFinset.Nonempty := by
    obtain ⟨a, ha⟩ := List.exists_mem_of_ne_nil xi hne
    exact ⟨a, by simpa using ha⟩
  obtain ⟨hp, hs⟩ := laplace_sum xi.toFinset hS cnt _ hsum
  refine ⟨_, fun v hv => ⟨?_, hp v (by simpa using hv)⟩, hs⟩
  unfold factor
  simp only [hlook v hv]
  rw [condProb_smooth (by rw [← card_unique]; exact Finset.card_pos.2 hS), card_unique]

/-- Relative frequencies sum to one. -/
lemma ratio_sum (s : Finset V) (cnt : V → Nat) (total : Nat) (ht : total ≠ 0) (h : ∑ v ∈ s, cnt v = total) :
    (∀ v ∈ s, 0 ≤ ratio (cnt v) total) ∧ ∑ v ∈ s, ratio (cnt v) total = 1 := by
  refine ⟨fun v _ => by unfold ratio; positivity, ?_⟩
  unfold ratio
  rw [← Finset.sum_div, ← Nat.cast_sum, h]
  exact div_self (by exact_mod_cast ht)

/-- C38: without smoothing they are non-negative and sum to one if the class occurs; otherwise all of them are NaN. -/
theorem C38_unsmoothed (order : List V → List V) (ho : IsValueCounts order) (fl : ℝ → ℝ) (xi : List V) (y : List Int) (c : Int)
    (hl : xi.length = y.length) (s : Stored V) (h : nbColumn order y c (.disc xi) = .ok s) :
    (c ∈ y → ∃ P : V → ℝ, (∀ v ∈ xi, factor fl false s (.disc v) = .ok (some (P v)) ∧ 0 ≤ P v) ∧ ∑ v ∈ xi.toFinset, P v = 1) ∧
    (c ∉ y → ∀ v ∈ xi, factor fl false s (.disc v) = .ok none) := by
  obtain ⟨cnt, counts, rfl, hlook, hsum⟩ := nbColumn_counts order ho xi y c s h
  have hlen : (select y c xi).length = y.count c := by
    unfold select
    rw [List.length_map]
    clear h hlook hsum
    induction xi generalizing y with
    | nil => cases y with
      | nil => rfl
      | cons b y => simp at hl
    | cons a xi ih =>
      cases y with
      | nil => simp at hl
      | cons b y =>
        have := ih y (by simpa using hl)
        by_cases hb : b = c
        · simp [hb, this]
        · simp [hb, this]
  constructor
  · intro hc
    have ht : (select y c xi).length ≠ 0 := by rw [hlen]; exact (List.count_pos_iff.2 hc).ne'
    obtain ⟨hp, hs⟩ := ratio_sum xi.toFinset cnt _ ht hsum
    refine ⟨_, fun v hv => ⟨?_, hp v (by simpa using hv)⟩, hs⟩
    unfold factor
    simp only [hlook v hv, condProb]
    rw [if_neg (by simp), if_neg ht]
  · intro hc v hv
    unfold factor
    simp only [hlook v hv, condProb]
    rw [if_neg (by simp), if_pos (by rw [hlen]; exact List.count_eq_zero_of_not_mem hc)]

lemma select2_mem {α : Type*} {sp : List V} {y : List Int} {v : V} {c : Int} {l : List α} {u : α} (h : u ∈ select2 sp y v c l) : u ∈ l := by
  obtain ⟨q, hq, rfl⟩ := List.mem_map.1 h
  exact (List.of_mem_zip (a := q.1) (b := q.2) (List.mem_filter.1 hq).1).1

/-- C38: the same for one-dependent estimators, given a class and a value of the super-parent. -/
theorem C38_one_dependent (fl : ℝ → ℝ) (sp : List V) (y : List Int) (v : V) (c : Int) (xj : List V) (hne : xj ≠ []) :
    ∃ P : V → ℝ, (∀ u ∈ xj, factor fl true (spodeColumn sp y v c (.disc xj)) (.disc u) = .ok (some (P u)) ∧ 0 < P u) ∧
      ∑ u ∈ xj.toFinset, P u = 1 := by
  have hS : xj.toFinset.Nonempty := by
    obtain ⟨a, ha⟩ := List.exists_mem_of_ne_nil xj hne
    exact ⟨a, by simpa using ha⟩
  have hsum := sum_count xj.toFinset (select2 sp y v c xj) (fun u hu => by simpa using select2_mem hu)
  obtain ⟨hp, hs⟩ := laplace_sum xj.toFinset hS (fun u => (select2 sp y v c xj).count u) _ hsum
  refine ⟨_, fun u hu => ⟨?_, hp u (by simpa using hu)⟩, hs⟩
  unfold factor spodeColumn
  simp only [lookup_map _ _ u (mem_pyUnique.2 hu)]
  rw [condProb_smooth (by rw [← card_unique]; exact Finset.card_pos.2 hS), card_unique]

/-! ## C39 -/

lemma select2_length (sp : List V) (y : List Int) (v : V) (c : Int) : (select2 sp y v c sp).length = countIn sp y c v := by
  unfold select2 countIn
  rw [List.length_map]
  induction sp generalizing y with
  | nil => simp
  | cons a sp ih =>
    cases y with
    | nil => simp
    | cons b y =>
      simp only [List.zip_cons_cons, List.filter_cons]
      have := ih y
      by_cases h : a = v ∧ b = c
      · rw [if_pos (by simpa using h), if_pos (by simpa using h), List.length_cons, List.length_cons, this]
      · rw [if_neg (by simpa using h), if_neg (by simpa using h)]; exact this

lemma countIn_add (v : V) : ∀ (sp : List V) (y : List Int), sp.length = y.length → (∀ c ∈ y, c = 0 ∨ c = 1) →
    countIn sp y 0 v + countIn sp y 1 v = sp.count v
  | [], _, _, _ => by simp [countIn]
  | a :: sp, [], hl, _ => by simp at hl
  | a :: sp, b :: y, hl, h01 => by
    have := countIn_add v sp y (by simpa using hl) (fun c hc => h01 c (List.mem_cons_of_mem _ hc))
    simp only [countIn, List.zip_cons_cons, List.filter_cons, List.count_cons] at this ⊢
    by_cases ha : a = v <;> rcases h01 b List.mem_cons_self with rfl | rfl <;> simp [ha] at this ⊢ <;> omega

lemma sum_countIn (sp : List V) (y : List Int) (hl : sp.length = y.length) (h01 : ∀ c ∈ y, c = 0 ∨ c = 1) :
    ∑ v ∈ sp.toFinset, (countIn sp y 0 v + countIn sp y 1 v) = y.length := by
  rw [← hl, ← sum_count sp.toFinset sp (by simp)]
  exact Finset.sum_congr rfl fun v _ => countIn_add v sp y hl h01

/-- C39: for 0/1 labels the joint priors of class and super-parent value, computed from the numbers of samples, sum to one over both classes
and all values; with smoothing each of them is positive. -/
theorem C39_joint_priors (sp : List V) (y : List Int) (hl : sp.length = y.length) (hne : y ≠ []) (h01 : ∀ c ∈ y, c = 0 ∨ c = 1)
    (smoothing : Bool) :
    ∑ v ∈ sp.toFinset, (depPrior (countIn sp y 0 v) y.length sp.toFinset.card smoothing +
        depPrior (countIn sp y 1 v) y.length sp.toFinset.card smoothing) = 1 ∧
      ∀ c v, 0 < depPrior (countIn sp y c v) y.length sp.toFinset.card true := by
  have hpos := List.length_pos_of_ne_nil hne
  have h := sum_countIn sp y hl h01
  constructor
  · cases smoothing
    · simp only [depPrior, Bool.false_eq_true, if_false, ratio, ← add_div]
      rw [← Finset.sum_div]
      have : ∑ v ∈ sp.toFinset, ((countIn sp y 0 v : ℝ) + (countIn sp y 1 v : ℝ)) = (y.length : ℝ) := by
        rw [← h]; push_cast; rfl
      rw [this]
      exact div_self (by exact_mod_cast hpos.ne')
    · simp only [depPrior, if_true, ratio, ← add_div]
      rw [← Finset.sum_div]
      have : ∑ v ∈ sp.toFinset, (((countIn sp y 0 v + 1 : ℕ) : ℝ) + ((countIn sp y 1 v + 1 : ℕ) : ℝ)) =
          ((y.length + 2 * sp.toFinset.card : ℕ) : ℝ) := by
        rw [← h]; push_cast
        rw [← Finset.sum_add_distrib.symm]
        simp only [Finset.sum_add_distrib, Finset.sum_const, nsmul_eq_mul]
        ring
      rw [this]
      exact div_self (by exact_mod_cast (by omega))
  · intro c v
    simp only [depPrior, if_true]
    exact ratio_pos (Nat.succ_pos _) (by omega)

lemma sort_two {y : List Int} (h01 : ∀ c ∈ y, c = 0 ∨ c = 1) (h0 : 0 ∈ y) (h1 : 1 ∈ y) :
    (pyUnique y).insertionSort (· ≤ ·) = [0, 1] := by
  have hp : (pyUnique y).Perm [0, 1] := by
    rw [List.perm_ext_iff_of_nodup (nodup_pyUnique y) (by decide)]
    intro a
    rw [mem_pyUnique]
    simp only [List.mem_cons, List.not_mem_nil, or_false]
    exact ⟨h01 a, by rintro (rfl | rfl) <;> assumption⟩
  exact List.Perm.eq_of_pairwise (fun a b _ _ h1 h2 => le_antisymm h1 h2) (List.pairwise_insertionSort _ _) (by decide)
    ((List.perm_insertionSort _ _).trans hp)

/-- C39: the priors stored by one `fit` of a one-dependent estimator on data with both classes sum to one. -/
theorem C39_stored_priors (cols : List (Col V)) (sp : List V) (y : List Int) (hl : sp.length = y.length)
    (h01 : ∀ c ∈ y, c = 0 ∨ c = 1) (h0 : 0 ∈ y) (h1 : 1 ∈ y) (smoothing : Bool) :
    ((spodeFit [] cols sp y smoothing).map Entry.prior).sum = 1 := by
  have hne : y ≠ [] := List.ne_nil_of_mem h0
  obtain ⟨h, -⟩ := C39_joint_priors sp y hl hne h01 smoothing
  have hset : sp.toFinset = (pyUnique sp).toFinset := by ext v; simp [mem_pyUnique]
  rw [Finset.sum_add_distrib, hset, List.sum_toFinset _ (nodup_pyUnique sp), List.sum_toFinset _ (nodup_pyUnique sp),
    List.toFinset_card_of_nodup (nodup_pyUnique sp)] at h
  rw [← h]
  simp [spodeFit, spodeEntries, sort_two h01 h0 h1, List.map_map, Function.comp_def, select2_length]

/-! ## C40, C77 -/

/-- C40: whatever the rounding, as long as it does not turn a positive number into a negative one, the density for a positive variance is a
positive number. -/
theorem C40_positive (fl : ℝ → ℝ) (hfl : ∀ p, 0 < p → 0 ≤ fl p) (sample mean var : ℝ) (hv : 0 < var) :
    ∃ p, density fl sample mean var = some p ∧ 0 < p := by
  unfold density
  rw [if_neg hv.ne']
  have hp : 0 < 1 / (√(2 * Real.pi) * var) * Real.exp (-(sample - mean) ^ 2 / (2 * var ^ 2)) := by
    have : 0 < √(2 * Real.pi) := Real.sqrt_pos.2 (by positivity)
    positivity
  have := hfl _ hp
  simp only
  split
  · exact ⟨_, rfl, by positivity⟩
  · next h => exact ⟨_, rfl, lt_of_le_of_ne this (Ne.symm h)⟩

/-- C40: a density that underflows is replaced by `1e-36`; any other is returned as rounded. -/
theorem C40_underflow (fl : ℝ → ℝ) (sample mean var : ℝ) (hv : 0 < var) :
    density fl sample mean var = some
      (if fl (1 / (√(2 * Real.pi) * var) * Real.exp (-(sample - mean) ^ 2 / (2 * var ^ 2))) = 0 then 1 / 10 ^ 36
       else fl (1 / (√(2 * Real.pi) * var) * Real.exp (-(sample - mean) ^ 2 / (2 * var ^ 2)))) := by
  unfold density
  rw [if_neg hv.ne']
  simp only
  split <;> simp_all

/-- C40: for variance zero the result is NaN. -/
theorem C40_zero_variance (fl : ℝ → ℝ) (sample mean : ℝ) : density fl sample mean 0 = none := by simp [density]

/-- C77: without rounding the density is the normal density whose standard deviation is the argument `var`. -/
theorem C77_density_partial (sample mean var : ℝ) (hv : 0 < var) :
    density id sample mean var = some (normalPdf mean var sample) := by
  have hs : 0 < √(2 * Real.pi) := Real.sqrt_pos.2 (by positivity)
  unfold density normalPdf
  rw [if_neg hv.ne']
  have hp : 0 < 1 / (√(2 * Real.pi) * var) * Real.exp (-(sample - mean) ^ 2 / (2 * var ^ 2)) := by positivity
  simp only [id]
  rw [if_neg hp.ne']
  congr 2
  · rw [mul_comm]
  · congr 1; field_simp

/-- C77 fails: `fit` hands over the variance, not the standard deviation; at the mean, the result is the normal density with that variance
only for variance 1. -/
theorem C77_variance_as_deviation (mean var : ℝ) (hv : 0 < var) :
    density id mean mean var = some (normalPdf mean (√var) mean) ↔ var = 1 := by
  have hs : 0 < √(2 * Real.pi) := Real.sqrt_pos.2 (by positivity)
  have hsv : 0 < √var := Real.sqrt_pos.2 hv
  rw [C77_density_partial mean mean var hv]
  unfold normalPdf
  simp only [sub_self, zero_div, Option.some.injEq]
  rw [mul_left_inj' (Real.exp_pos _).ne', div_eq_div_iff (by positivity) (by positivity), one_mul, one_mul, mul_left_inj' hs.ne']
  constructor
  · intro h
    have h2 := Real.sq_sqrt hv.le
    rw [h] at h2
    nlinarith
  · rintro rfl; simp

/-! ## C41 -/

/-- C41 (part): if the distinct values appear in the order of their frequencies, the count attached to a value is the number of samples of the
class with that value. -/
theorem C41_counts_partial (order : List V → List V) (xi : List V) (y : List Int) (c : Int) (ho : order xi = pyUnique xi) (v : V)
    (hv : v ∈ xi) : (nbCounts order xi (select y c xi)).lookup v = some (countIn xi y c v) := by
  unfold nbCounts
  rw [ho]
  have : (pyUnique xi).zip ((pyUnique xi).map fun v => (select y c xi).count v) =
      (pyUnique xi).map fun u => (u, (select y c xi).count u) := by
    conv_lhs => rw [← List.map_id (pyUnique xi), List.map_map, List.zip_map']
    rfl
  rw [this, lookup_map _ _ v (mem_pyUnique.2 hv), count_select]

/-- C41: the counts of one-dependent estimators are right: value `u` of an attribute gets the number of samples with class `c`,
super-parent value `v` and attribute value `u`. -/
theorem C41_one_dependent (sp : List V) (y : List Int) (v : V) (c : Int) (xj : List V) (u : V) (hu : u ∈ xj) :
    ∃ counts total num, spodeColumn sp y v c (.disc xj) = .disc counts total num ∧
      counts.lookup u = some ((xj.zip (sp.zip y)).filter fun q => q.1 = u ∧ q.2.1 = v ∧ q.2.2 = c).length := by
  refine ⟨_, _, _, rfl, ?_⟩
  rw [lookup_map _ _ u (mem_pyUnique.2 hu)]
  unfold select2
  rw [List.count_eq_length_filter, List.filter_map, List.length_map, List.filter_filter]
  congr 2
  apply List.filter_congr
  intro q _
  rw [Bool.eq_iff_iff]; simp

/-- C41 fails: in the column a, b, b with labels 0, 1, 1, every naive Bayes fit records no sample of class 0 with value a and one with value b,
although it is the other way round. -/
theorem C41_swapped (order : List String → List String) (ho : IsValueCounts order) :
    (nbCounts order ["a", "b", "b"] (select [0, 1, 1] 0 ["a", "b", "b"])).lookup "a" = some 0 ∧
    (nbCounts order ["a", "b", "b"] (select [0, 1, 1] 0 ["a", "b", "b"])).lookup "b" = some 1 ∧
    countIn ["a", "b", "b"] [0, 1, 1] 0 "a" = 1 ∧ countIn ["a", "b", "b"] [0, 1, 1] 0 "b" = 0 := by
  obtain ⟨h1, h2⟩ := ho ["a", "b", "b"]
  have hu : pyUnique ["a", "b", "b"] = ["a", "b"] := by decide
  rw [hu] at h1
  have : order ["a", "b", "b"] = ["b", "a"] := by
    have hl := h1.length_eq
    match ho' : order ["a", "b", "b"] with
    | [] => rw [ho'] at hl; simp at hl
    | [_] => rw [ho'] at hl; simp at hl
    | [p, q] =>
      rw [ho'] at h1 h2
      have hp : p = "a" ∨ p = "b" := by simpa using h1.mem_iff.1 (show p ∈ [p, q] by simp)
      have hq : q = "a" ∨ q = "b" := by simpa using h1.mem_iff.1 (show q ∈ [p, q] by simp)
      have hn := h1.nodup_iff.2 (by decide)
      rcases hp with rfl | rfl <;> rcases hq with rfl | rfl
      · simp at hn
      · exact absurd h2 (by decide)
      · rfl
      · simp at hn
    | _ :: _ :: _ :: _ => rw [ho'] at hl; simp at hl
  unfold nbCounts
  rw [this]
  decide

/-! ## C80 -/

/-- C80 fails: a discrete column with a single distinct value makes `NaiveBayesClassifier.fit` raise `IndexError`. -/
theorem C80_single_value (order : List V → List V) (v : V) (n : Nat) (hn : 0 < n) (y : List Int) (hy : y ≠ []) (smoothing : Bool) :
    nbFit order [.disc (List.replicate n v)] y smoothing = .error .indexError := by
  have hu : (pyUnique (List.replicate n v)).length = 1 := by
    have : (pyUnique (List.replicate n v)).Perm [v] := by
      rw [List.perm_ext_iff_of_nodup (nodup_pyUnique _) (by simp)]
      intro a; rw [mem_pyUnique]; simp [List.mem_replicate]; intro _; omega
    exact this.length_eq
  obtain ⟨p0, p1, h, -⟩ := C37_distribution y hy smoothing
  have hc : ∀ c, [Col.disc (List.replicate n v)].mapM (nbColumn order y c) = (.error .indexError : Except PyErr (List (Stored V))) := by
    intro c
    have : nbColumn order y c (.disc (List.replicate n v)) = .error .indexError := by simp only [nbColumn]; rw [if_pos hu]
    rw [List.mapM_cons, this]; rfl
  unfold nbFit
  rw [h, hc]

lemma mapM_ok {α β : Type*} (f : α → Except PyErr β) : ∀ l : List α, (∀ a ∈ l, ∃ b, f a = .ok b) → ∃ bs, l.mapM f = .ok bs
  | [], _ => ⟨[], rfl⟩
  | a :: l, h => by
    obtain ⟨b, hb⟩ := h a List.mem_cons_self
    obtain ⟨bs, hbs⟩ := mapM_ok f l fun a' ha' => h a' (List.mem_cons_of_mem _ ha')
    exact ⟨b :: bs, by rw [List.mapM_cons, hb, hbs]; rfl⟩

/-- C80 (part): `fit` completes on non-empty data if no discrete column has exactly one distinct value. -/
theorem C80_fit_partial (order : List V → List V) (cols : List (Col V)) (y : List Int) (hy : y ≠ []) (smoothing : Bool)
    (h : ∀ l, Col.disc l ∈ cols → (pyUnique l).length ≠ 1) : ∃ m, nbFit order cols y smoothing = .ok m := by
  obtain ⟨p0, p1, hp, -⟩ := C37_distribution y hy smoothing
  have hc : ∀ c, ∃ bs, cols.mapM (nbColumn order y c) = .ok bs := fun c => mapM_ok _ cols fun a ha => by
    cases a with
    | cont l => exact ⟨_, rfl⟩
    | disc l => exact ⟨_, by simp only [nbColumn]; rw [if_neg (h l ha)]⟩
  obtain ⟨a, ha⟩ := hc 0
  obtain ⟨b, hb⟩ := hc 1
  exact ⟨⟨p0, p1, a, b⟩, by unfold nbFit; rw [hp]; simp only [ha, hb]⟩

/-! ## C42 -/

/-- C42: for all priors and factors that are non-negative numbers, `predict` returns class 0 exactly if the product of prior and
factors of class 0 exceeds that of class 1, and class 1 otherwise. -/
theorem C42_label_partial (fl : ℝ → ℝ) (smoothing : Bool) (m : NB V) (x : List (Cell V)) (l0 l1 : List ℝ)
    (h0 : factors fl smoothing m.pi0 x = .ok (l0.map some)) (h1 : factors fl smoothing m.pi1 x = .ok (l1.map some))
    (hp0 : 0 ≤ m.p0) (hp1 : 0 ≤ m.p1) (hl0 : ∀ p ∈ l0, 0 ≤ p) (hl1 : ∀ p ∈ l1, 0 ≤ p) :
    nbPredict fl smoothing m x = .ok (if m.p1 * l1.prod < m.p0 * l0.prod then 0 else 1) := by
  unfold nbPredict
  rw [h0, h1]
  simp only [score_prod]
  rw [label_prod (mul_nonneg hp0 (prod_nonneg hl0)) (mul_nonneg hp1 (prod_nonneg hl1))]

lemma score_none (ps : List (Option ℝ)) : score none ps = none := by
  induction ps with
  | nil => rfl
  | cons p ps ih => simp only [score, List.foldl_cons] at ih ⊢; simpa [addLog] using ih

lemma score_nan (init : Option (WithBot ℝ)) (ps : List (Option ℝ)) (h : none ∈ ps) : score init ps = none := by
  induction ps generalizing init with
  | nil => simp at h
  | cons p ps ih =>
    simp only [score, List.foldl_cons] at ih ⊢
    rcases List.mem_cons.1 h with h | h
    · subst h
      have : addLog init none = none := by unfold addLog; cases init <;> rfl
      rw [this]; exact score_none ps
    · exact ih _ h

/-- C42, missing above: if one of the factors of a class is NaN (a class without samples, a constant column), the answer is class 1,
whatever the other class. -/
theorem C42_nan_is_one (fl : ℝ → ℝ) (smoothing : Bool) (m : NB V) (x : List (Cell V)) (l0 l1 : List (Option ℝ))
    (h0 : factors fl smoothing m.pi0 x = .ok l0) (h1 : factors fl smoothing m.pi1 x = .ok l1) (h : none ∈ l0 ∨ none ∈ l1) :
    nbPredict fl smoothing m x = .ok 1 := by
  unfold nbPredict
  rw [h0, h1]
  simp only
  rcases h with h | h
  · rw [score_nan _ _ h]; rfl
  · rw [score_nan _ l1 h]
    unfold label
    cases score (some (logB m.p0)) l0 <;> rfl

/-- C42 fails for probabilities: they are quotients of logarithms; if both logarithms are negative (as for probabilities below one), the more
probable class gets the smaller number. -/
theorem C42_probability_inverted (s0 s1 : ℝ) (h : s1 < s0) (h0 : s0 < 0) :
    (probabilities s0 s1).1 < (probabilities s0 s1).2 ∧ label (some (s0 : WithBot ℝ)) (some (s1 : WithBot ℝ)) = 0 := by
  constructor
  · unfold probabilities
    exact div_lt_div_of_neg_of_lt (by linarith) h
  · simp [label, h]

/-- C42: the two numbers sum to one. -/
theorem C42_probability_sum (s0 s1 : ℝ) (h : s0 + s1 ≠ 0) : (probabilities s0 s1).1 + (probabilities s0 s1).2 = 1 := by
  unfold probabilities; rw [← add_div]; exact div_self h

/-! ## C43 -/

/-- A one-dependent estimator decides by the products of all factors. -/
lemma spode_label (fl : ℝ → ℝ) (smoothing : Bool) (es : List (Entry V)) (x : List (Cell V)) (l0 l1 : List ℝ)
    (h0 : allFactors fl smoothing 0 x es = .ok (l0.map some)) (h1 : allFactors fl smoothing 1 x es = .ok (l1.map some))
    (hl0 : ∀ p ∈ l0, 0 ≤ p) (hl1 : ∀ p ∈ l1, 0 ≤ p) :
    spodePredict fl smoothing es x = .ok (if l1.prod < l0.prod then 0 else 1) := by
  unfold spodePredict
  rw [h0, h1]
  simp only [← logB_one, score_prod, one_mul]
  rw [label_prod (prod_nonneg hl0) (prod_nonneg hl1)]

lemma allFactors_append (fl : ℝ → ℝ) (smoothing : Bool) (c : Int) (x : List (Cell V)) (es es' : List (Entry V)) (f f' : List (Option ℝ))
    (h : allFactors fl smoothing c x es = .ok f) (h' : allFactors fl smoothing c x es' = .ok f') :
    allFactors fl smoothing c x (es ++ es') = .ok (f ++ f') := by
  induction es generalizing f with
  | nil => simp only [allFactors, Except.ok.injEq] at h; subst h; simpa using h'
  | cons e es ih =>
    simp only [allFactors, List.cons_append] at h ⊢
    by_cases hc : e.cat = c
    · rw [if_pos hc] at h ⊢
      split at h
      · simp at h
      · next ps hps =>
        split at h
        · simp at h
        · next qs hqs =>
          simp only [Except.ok.injEq] at h
          subst h
          rw [ih qs hqs]
          simp
    · rw [if_neg hc] at h ⊢
      exact ih f h

/-- C43 fails: after fitting data set A and then data set B, the score of a class is the sum of its scores for A and for B (the label is
decided by the products over both), so the old data are never forgotten. -/
theorem C43_refit_accumulates (fl : ℝ → ℝ) (smoothing : Bool) (colsA colsB : List (Col V)) (spA spB : List V) (yA yB : List Int)
    (x : List (Cell V)) (a0 a1 b0 b1 : List ℝ)
    (ha0 : allFactors fl smoothing 0 x (spodeFit [] colsA spA yA smoothing) = .ok (a0.map some))
    (ha1 : allFactors fl smoothing 1 x (spodeFit [] colsA spA yA smoothing) = .ok (a1.map some))
    (hb0 : allFactors fl smoothing 0 x (spodeFit [] colsB spB yB smoothing) = .ok (b0.map some))
    (hb1 : allFactors fl smoothing 1 x (spodeFit [] colsB spB yB smoothing) = .ok (b1.map some))
    (hn : ∀ p ∈ a0 ++ a1 ++ b0 ++ b1, 0 ≤ p) :
    spodePredict fl smoothing (spodeFit (spodeFit [] colsA spA yA smoothing) colsB spB yB smoothing) x =
      .ok (if a1.prod * b1.prod < a0.prod * b0.prod then 0 else 1) := by
  have e : spodeFit (spodeFit [] colsA spA yA smoothing) colsB spB yB smoothing =
      spodeFit [] colsA spA yA smoothing ++ spodeFit [] colsB spB yB smoothing := by simp [spodeFit]
  rw [e, ← List.prod_append, ← List.prod_append]
  apply spode_label
  · rw [List.map_append]; exact allFactors_append _ _ _ _ _ _ _ _ ha0 hb0
  · rw [List.map_append]; exact allFactors_append _ _ _ _ _ _ _ _ ha1 hb1
  · intro p hp; apply hn; simp only [List.mem_append] at hp ⊢; tauto
  · intro p hp; apply hn; simp only [List.mem_append] at hp ⊢; tauto

/-- C43 fails, a witness: fitted on the rows a, a with labels 0, 1 the prediction for a is 1; fitted on the rows a, a, a with labels
0, 0, 1 before, it is 0. -/
theorem C43_witness (fl : ℝ → ℝ) :
    spodePredict fl true (spodeFit [] [.disc ["a", "a"]] ["a", "a"] [0, 1] true) [.disc "a"] = .ok 1 ∧
    spodePredict fl true (spodeFit (spodeFit [] [.disc ["a", "a", "a"]] ["a", "a", "a"] [0, 0, 1] true)
      [.disc ["a", "a"]] ["a", "a"] [0, 1] true) [.disc "a"] = .ok 0 := by
  have hb0 : allFactors fl true 0 [.disc "a"] (spodeFit [] [.disc ["a", "a"]] ["a", "a"] [0, 1] true) =
      .ok ([ratio 2 4, ratio 2 2].map some) := rfl
  have hb1 : allFactors fl true 1 [.disc "a"] (spodeFit [] [.disc ["a", "a"]] ["a", "a"] [0, 1] true) =
      .ok ([ratio 2 4, ratio 2 2].map some) := rfl
  have ha0 : allFactors fl true 0 [.disc "a"] (spodeFit [] [.disc ["a", "a", "a"]] ["a", "a", "a"] [0, 0, 1] true) =
      .ok ([ratio 3 5, ratio 3 3].map some) := rfl
  have ha1 : allFactors fl true 1 [.disc "a"] (spodeFit [] [.disc ["a", "a", "a"]] ["a", "a", "a"] [0, 0, 1] true) =
      .ok ([ratio 2 5, ratio 2 2].map some) := rfl
  constructor
  · rw [spode_label fl true _ _ _ _ hb0 hb1 (by simp [ratio_nonneg]) (by simp [ratio_nonneg]), if_neg (lt_irrefl _)]
  · rw [C43_refit_accumulates fl true _ _ _ _ _ _ _ _ _ _ _ ha0 ha1 hb0 hb1 (by simp [ratio_nonneg]), if_pos]
    norm_num [ratio]

/-- C43 (part): the first `fit` of a new estimator stores exactly the elements computed from its data. -/
theorem C43_first_fit_partial (cols : List (Col V)) (sp : List V) (y : List Int) (smoothing : Bool) :
    ∀ e ∈ spodeFit [] cols sp y smoothing, e.cat ∈ y ∧ e.value ∈ sp ∧
      e.prior = depPrior (countIn sp y e.cat e.value) y.length (pyUnique sp).length smoothing ∧
      e.params = cols.map (spodeColumn sp y e.value e.cat) := by
  intro e he
  simp only [spodeFit, List.nil_append, spodeEntries, List.mem_flatMap, List.mem_map, List.mem_insertionSort, mem_pyUnique] at he
  obtain ⟨c, hc, v, hv, rfl⟩ := he
  exact ⟨hc, hv, by rw [← select2_length], rfl⟩

/-! ## C79: what a one-dependent estimator maximises -/

/-- C79 fails: a one-dependent estimator multiplies the estimates for all values of the super-parent, not only for the value of the row.
With the rows a, a, a, b, b, b, b, b and labels 0, 0, 1, 1, 1, 1, 1, 1 it predicts 1 for a, although the estimates for the
super-parent value a favour class 0. -/
theorem C79_all_values (fl : ℝ → ℝ) :
    let sp := ["a", "a", "a", "b", "b", "b", "b", "b"]
    let es := spodeFit [] [.disc sp] sp [0, 0, 1, 1, 1, 1, 1, 1] true
    spodePredict fl true es [.disc "a"] = .ok 1 ∧
      spodePredict fl true (es.filter fun e => e.value = "a") [.disc "a"] = .ok 0 := by
  intro sp es
  have h0 : allFactors fl true 0 [.disc "a"] es = .ok ([ratio 3 12, ratio 3 4, ratio 1 12, ratio 1 2].map some) := rfl
  have h1 : allFactors fl true 1 [.disc "a"] es = .ok ([ratio 2 12, ratio 2 3, ratio 6 12, ratio 1 7].map some) := rfl
  have g0 : allFactors fl true 0 [.disc "a"] (es.filter fun e => e.value = "a") = .ok ([ratio 3 12, ratio 3 4].map some) := rfl
  have g1 : allFactors fl true 1 [.disc "a"] (es.filter fun e => e.value = "a") = .ok ([ratio 2 12, ratio 2 3].map some) := rfl
  constructor
  · rw [spode_label fl true _ _ _ _ h0 h1 (by simp [ratio_nonneg]) (by simp [ratio_nonneg]), if_neg]
    norm_num [ratio]
  · rw [spode_label fl true _ _ _ _ g0 g1 (by simp [ratio_nonneg]) (by simp [ratio_nonneg]), if_pos]
    norm_num [ratio]

/-- C79 (part): if the super-parent has a single value, which is that of the row, all stored elements belong to it, and the label is
decided by the products of prior and factors. -/
theorem C79_single_value_partial (fl : ℝ → ℝ) (cols : List (Col V)) (sp : List V) (y : List Int) (smoothing : Bool) (v : V)
    (hsp : ∀ u ∈ sp, u = v) (x : List (Cell V)) :
    spodePredict fl smoothing (spodeFit [] cols sp y smoothing) x =
      spodePredict fl smoothing ((spodeFit [] cols sp y smoothing).filter fun e => e.value = v) x := by
  rw [List.filter_eq_self.2]
  intro e he
  simpa using hsp _ (C43_first_fit_partial cols sp y smoothing e he).2.1

/-! ## C78: averaged one-dependent estimators -/

lemma flatMap_range {α β : Type*} (l : List α) (f : α → List β) :
    l.flatMap f = (List.range l.length).flatMap fun i => match l[i]? with
      | some a => f a
      | none => [] := by
  induction l with
  | nil => rfl
  | cons a l ih =>
    rw [List.flatMap_cons, ih, List.length_cons, List.range_succ_eq_map, List.flatMap_cons, List.flatMap_map]
    simp

lemma aodeFit_final (cols : List (Col V)) (y : List Int) (smoothing : Bool) (old : List (Entry V)) (sps : List (List V)) :
    sps.foldl (fun acc sp => spodeFit acc cols sp y smoothing) old = old ++ sps.flatMap fun sp => spodeEntries cols sp y smoothing := by
  induction sps generalizing old with
  | nil => simp
  | cons sp sps ih => rw [List.foldl_cons, ih]; simp [spodeFit]

/-- C78 fails: the `i`-th super-parent is looked up in the `i`-th cell of the row, whatever column it comes from. If the first cells of the
row, as many as there are super-parents, are continuous and not equal to a whole number that is a value of a discrete column, no stored element is ever
used and the answer is always 1. -/
theorem C78_always_one (fl : ℝ → ℝ) (num : V → Option ℝ) (smoothing : Bool) (m : Nat) (cols : List (Col V)) (y : List Int) (old : List (Entry V))
    (x : List (Cell V)) (hx : ∀ (i : Nat), i < (superParents m cols).length → ∃ r, x[i]? = some (.cont r) ∧ ∀ v, num v ≠ some r) :
    aodePredict fl num smoothing (aodeFit old m cols y smoothing).2 x = .ok 1 := by
  have h : (List.range (aodeFit old m cols y smoothing).2.length).flatMap (aodeUsed num (aodeFit old m cols y smoothing).2 x) = [] := by
    rw [List.flatMap_eq_nil_iff]
    intro i hi
    rw [List.mem_range] at hi
    have hi' : i < (superParents m cols).length := by simpa [aodeFit] using hi
    obtain ⟨r, hr, hnum⟩ := hx i hi'
    unfold aodeUsed
    rw [hr]
    split
    · next es c _ hc =>
      simp only [Option.some.injEq] at hc
      subst hc
      simp [Cell.is, hnum]
    · rfl
  unfold aodePredict
  rw [h]
  simp [spodePredict, allFactors, score, label]

/-- A data set of this kind: a continuous column, then a discrete one that determines the label. -/
example : superParents 0 [Col.cont [0, 1, 2, 3], .disc ["a", "a", "b", "b"]] = [["a", "a", "b", "b"]] := by
  simp [superParents]; decide

/-- C78 (part): if all columns are discrete super-parents without common values, and every cell of the row is a value of its column, a newly
fitted estimator uses for every super-parent exactly its elements for the value of the row. -/
theorem C78_disjoint_columns_partial (fl : ℝ → ℝ) (num : V → Option ℝ) (smoothing : Bool) (m : Nat) (cols : List (List V)) (y : List Int)
    (hm : ∀ l ∈ cols, ∀ v ∈ l, m < l.count v)
    (hd : ∀ (i j : Nat) (l l' : List V) (v : V), cols[i]? = some l → cols[j]? = some l' → v ∈ l → v ∈ l' → i = j)
    (row : List V) (hlen : row.length = cols.length)
    (hrow : ∀ (i : Nat) (l : List V) (v : V), cols[i]? = some l → row[i]? = some v → v ∈ l) :
    aodePredict fl num smoothing (aodeFit [] m (cols.map Col.disc) y smoothing).2 (row.map Cell.disc) =
      spodePredict fl smoothing ((cols.zip row).flatMap fun q =>
        (spodeEntries (cols.map Col.disc) q.1 y smoothing).filter fun e => e.value = q.2) (row.map Cell.disc) := by
  have hsp : superParents m (cols.map Col.disc) = cols := by
    unfold superParents
    rw [List.filterMap_map]
    conv_rhs => rw [← List.filterMap_some (l := cols)]
    apply List.filterMap_congr
    intro l hl
    simp only [Function.comp]
    rw [if_pos]
    rw [List.all_eq_true]
    intro v hv
    simpa using hm l hl v (mem_pyUnique.1 hv)
  unfold aodePredict
  congr 1
  simp only [aodeFit, hsp, List.length_replicate, aodeFit_final, List.nil_append]
  rw [flatMap_range (cols.zip row), show (cols.zip row).length = cols.length by rw [List.length_zip, hlen, min_self]]
  apply List.flatMap_congr
  intro i hi
  rw [List.mem_range] at hi
  have hri : i < row.length := by omega
  obtain ⟨l, hl⟩ : ∃ l, cols[i]? = some l := ⟨_, List.getElem?_eq_getElem hi⟩
  obtain ⟨v, hv⟩ : ∃ v, row[i]? = some v := ⟨_, List.getElem?_eq_getElem hri⟩
  have hzi : (cols.zip row)[i]? = some (l, v) := by rw [List.getElem?_zip_eq_some]; exact ⟨hl, hv⟩
  rw [hzi]
  unfold aodeUsed
  rw [List.getElem?_replicate, if_pos hi, List.getElem?_map, hv]
  simp only [Option.map_some, Cell.is]
  rw [List.filter_flatMap]
  -- only the elements of column `i` have the value `v`
  have key : ∀ (pre : Nat) (ls : List (List V)), (∀ (j : Nat) (l' : List V), ls[j]? = some l' → cols[pre + j]? = some l') →
      (ls.flatMap fun sp => (spodeEntries (cols.map Col.disc) sp y smoothing).filter fun e => decide (v = e.value)) =
        (if pre ≤ i ∧ i < pre + ls.length then (spodeEntries (cols.map Col.disc) l y smoothing).filter fun e => decide (e.value = v) else []) := by
    intro pre ls
    induction ls generalizing pre with
    | nil => intro _; rw [if_neg (by simp)]; rfl
    | cons a ls ih =>
      intro hh
      have ha := hh 0 a rfl
      rw [Nat.add_zero] at ha
      rw [List.flatMap_cons, ih (pre + 1) (fun j l' hj => by
        have := hh (j + 1) l' (by simpa using hj); rwa [show pre + 1 + j = pre + (j + 1) by omega])]
      by_cases hpi : pre = i
      · subst hpi
        rw [hl] at ha
        simp only [Option.some.injEq] at ha
        subst ha
        rw [if_neg (by omega), if_pos (by simp), List.append_nil]
        apply List.filter_congr
        intro e _
        rw [Bool.eq_iff_iff]; simp [eq_comm]
      · have hnil : (spodeEntries (cols.map Col.disc) a y smoothing).filter (fun e => decide (v = e.value)) = [] := by
          rw [List.filter_eq_nil_iff]
          intro e he
          have hva := (C43_first_fit_partial (cols.map Col.disc) a y smoothing e (by simpa [spodeFit] using he)).2.1
          simp only [decide_eq_true_eq]
          intro hve
          rw [← hve] at hva
          exact hpi (hd pre i a l v ha hl hva (hrow i l v hl hv))
        rw [hnil, List.nil_append]
        by_cases hc : pre + 1 ≤ i ∧ i < pre + 1 + ls.length
        · rw [if_pos hc, if_pos (by rw [List.length_cons]; omega)]
        · rw [if_neg hc, if_neg (by rw [List.length_cons]; omega)]
  have := key 0 cols (fun j l' hj => by simpa using hj)
  rw [if_pos (by omega)] at this
  exact this

/-- A data set that meets the hypotheses of `C78_disjoint_columns_partial`. -/
example : (∀ l ∈ [["a", "b", "a"], ["c", "c", "d"]], ∀ v ∈ l, 0 < l.count v) ∧
    (∀ (i j : Nat) (l l' : List String) (v : String), [["a", "b", "a"], ["c", "c", "d"]][i]? = some l →
      [["a", "b", "a"], ["c", "c", "d"]][j]? = some l' → v ∈ l → v ∈ l' → i = j) ∧
    (∀ (i : Nat) (l : List String) (v : String), [["a", "b", "a"], ["c", "c", "d"]][i]? = some l → ["b", "c"][i]? = some v → v ∈ l) := by
  refine ⟨by decide, ?_, ?_⟩
  · intro i j l l' v h1 h2 hv hv'
    rcases i with _ | _ | i <;> rcases j with _ | _ | j <;> simp at h1 h2 <;> subst h1 <;> subst h2 <;> simp at hv hv' ⊢
    · rcases hv with rfl | rfl | rfl <;> simp at hv'
    · rcases hv with rfl | rfl | rfl <;> simp at hv'
  · intro i l v h1 h2
    rcases i with _ | _ | i <;> simp at h1 h2 <;> subst h1 <;> subst h2 <;> decide

/-- A fitted classifier and a row that meet the hypotheses of `C42_label_partial`. -/
example (order : List String → List String) (fl : ℝ → ℝ) (ho : order ["a", "b", "b", "a"] = ["a", "b"]) :
    ∃ m, nbFit order [.disc ["a", "b", "b", "a"]] [0, 1, 1, 0] true = .ok m ∧
      factors fl true m.pi0 [.disc "a"] = .ok ([ratio 3 4].map some) ∧ factors fl true m.pi1 [.disc "a"] = .ok ([ratio 1 4].map some) ∧
      nbPredict fl true m [.disc "a"] = .ok 0 := by
  have hc : ∀ c, [Col.disc ["a", "b", "b", "a"]].mapM (nbColumn order [0, 1, 1, 0] c) =
      .ok [Stored.disc (nbCounts order ["a", "b", "b", "a"] (select [0, 1, 1, 0] c ["a", "b", "b", "a"]))
        (select [0, 1, 1, 0] c ["a", "b", "b", "a"]).length 2] := fun c => rfl
  have hp := C37_laplace_partial [0, 1, 1, 0] (by decide) (by decide) (by decide)
  refine ⟨_, by unfold nbFit; rw [hp, hc, hc], ?_, ?_, ?_⟩
  · simp only [nbCounts, ho]; rfl
  · simp only [nbCounts, ho]; rfl
  · rw [C42_label_partial fl true _ _ [ratio 3 4] [ratio 1 4] (by simp only [nbCounts, ho]; rfl) (by simp only [nbCounts, ho]; rfl)
      (by norm_num [classSize]) (by norm_num [classSize]) (by simp [ratio_nonneg]) (by simp [ratio_nonneg]), if_pos]
    norm_num [classSize, ratio]

end CML.Bayes
