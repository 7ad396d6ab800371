import Verif.Props.Ensemble

set_option linter.unusedSectionVars false

/-! # Property C306: an ensemble against its members -/

namespace CML.Bagging

variable {X E : Type}

lemma sum_votes (pred : E → X → Int) (r : X) (c : Int) (hc : c = 1 ∨ c = -1) : ∀ es : List E, (∀ e ∈ es, pred e r = 1 ∨ pred e r = -1) →
    c * (es.map fun e => pred e r).sum = es.length - 2 * (es.countP fun e => pred e r ≠ c)
  | [], _ => by simp
  | e :: es, h => by
    have ih := sum_votes pred r c hc es fun e' he' => h e' (List.mem_cons_of_mem _ he')
    have he := h e List.mem_cons_self
    rw [List.map_cons, List.sum_cons, mul_add, ih, List.countP_cons, List.length_cons]
    push_cast
    rcases hc with rfl | rfl <;> rcases he with he | he <;> simp [he] <;> ring

/-- A row that the ensemble gets wrong is wrong for at least half of the members. -/
lemma half_wrong (pred : E → X → Int) (es : List E) (r : X) (c : Int) (hc : c = 1 ∨ c = -1) (h : ∀ e ∈ es, pred e r = 1 ∨ pred e r = -1)
    (hw : decideRow pred es r ≠ c) : es.length ≤ 2 * (es.countP fun e => pred e r ≠ c) := by
  have hs := sum_votes pred r c hc es h
  unfold decideRow at hw
  rcases hc with rfl | rfl
  · split at hw
    · exact absurd rfl hw
    · next h0 => omega
  · split at hw
    · next h0 => omega
    · exact absurd rfl hw

lemma countP_swap (pred : E → X → Int) (data : List (X × Int)) : ∀ es : List E,
    (data.map fun q => es.countP fun e => pred e q.1 ≠ q.2).sum = (es.map fun e => data.countP fun q => pred e q.1 ≠ q.2).sum
  | [] => by simp
  | e :: es => by
    rw [List.map_cons, List.sum_cons, ← countP_swap pred data es]
    induction data with
    | nil => simp
    | cons q data ih =>
      simp only [List.map_cons, List.sum_cons, List.countP_cons] at ih ⊢
      rw [ih]
      omega

/-- **C306.** On every set of rows labelled -1 and +1, a bagging ensemble makes at most twice as many mistakes as its members on average. -/
theorem C306_bagging (o : Obj E) (ho : o.trained = true) (pred : E → X → Int) (data : List (X × Int)) (hy : ∀ q ∈ data, q.2 = 1 ∨ q.2 = -1)
    (h : ∀ e ∈ o.members, ∀ q ∈ data, pred e q.1 = 1 ∨ pred e q.1 = -1) :
    ∃ answers, o.predict pred (data.map Prod.fst) = .ok answers ∧
      o.members.length * ((answers.zip (data.map Prod.snd)).countP fun q => q.1 ≠ q.2) ≤ 2 * (o.members.map fun e => data.countP fun q => pred e q.1 ≠ q.2).sum := by
  refine ⟨(data.map Prod.fst).map (decideRow pred o.members), if_neg (by simp [ho]), ?_⟩
  have e : ((data.map Prod.fst).map (decideRow pred o.members)).zip (data.map Prod.snd) = data.map fun q => (decideRow pred o.members q.1, q.2) := by
    rw [List.map_map, List.zip_map']
    rfl
  rw [e, List.countP_map, ← countP_swap]
  induction data with
  | nil => simp
  | cons q data ih =>
    have ih := ih (fun q' hq' => hy q' (List.mem_cons_of_mem _ hq')) (fun e he q' hq' => h e he q' (List.mem_cons_of_mem _ hq'))
      (by rw [List.map_map, List.zip_map']; rfl)
    rw [List.countP_cons, List.map_cons, List.sum_cons, mul_add, mul_add]
    have hq : o.members.length * (if ((fun q : Int × Int => decide (q.1 ≠ q.2)) ∘ fun q : X × Int => (decideRow pred o.members q.1, q.2)) q = true then 1 else 0) ≤
        2 * (o.members.countP fun e => pred e q.1 ≠ q.2) := by
      split
      · next hw =>
        rw [mul_one]
        exact half_wrong pred o.members q.1 q.2 (hy q List.mem_cons_self) (fun e he => h e he q List.mem_cons_self) (by simpa using hw)
      · simp
    rw [add_comm]
    exact add_le_add hq ih

/-- C306: in particular the ensemble is right wherever all its members are. -/
theorem C306_bagging_perfect (o : Obj E) (ho : o.trained = true) (hne : o.members ≠ []) (pred : E → X → Int) (rows : List X) (label : X → Int)
    (hy : ∀ r ∈ rows, label r = 1 ∨ label r = -1) (h : ∀ e ∈ o.members, ∀ r ∈ rows, pred e r = label r) :
    o.predict pred rows = .ok (rows.map label) := by
  have : o.predict pred rows = .ok (rows.map (decideRow pred o.members)) := if_neg (by simp [ho])
  rw [this]
  congr 1
  refine List.map_congr_left fun r hr => ?_
  by_contra hw
  have := half_wrong pred o.members r (label r) (hy r hr) (fun e he => by rw [h e he r hr]; exact hy r hr) hw
  have h0 : (o.members.countP fun e => pred e r ≠ label r) = 0 := by
    rw [List.countP_eq_zero]
    intro e he
    simp [h e he r hr]
  rw [h0] at this
  have := List.length_pos_iff.2 hne
  omega

/-- C306: an ensemble may be worse than each of its members: three members that are each right on one of three rows are together wrong on all. -/
theorem C306_worse_than_all : (Obj.predict { members := [0, 1, 2], seed := 0, trained := true } (fun (e r : Nat) => if e = r then 1 else -1) [0, 1, 2] : Except PyErr (List Int)) = .ok [-1, -1, -1] ∧
    ∀ e ∈ [0, 1, 2], ([0, 1, 2].countP fun r => (if e = r then (1 : Int) else -1) ≠ 1) = 2 := by decide

/-- The hypotheses of the theorems are met by an ensemble of stumps on the line. -/
example : (∀ q ∈ [((0 : Int), (-1 : Int)), (1, 1), (2, 1)], q.2 = 1 ∨ q.2 = -1) ∧
    ∀ e ∈ [(0 : Int), 1, 1], ∀ q ∈ [((0 : Int), (-1 : Int)), (1, 1), (2, 1)], (if q.1 < e then (-1 : Int) else 1) = 1 ∨ (if q.1 < e then (-1 : Int) else 1) = -1 := by decide

end CML.Bagging

namespace CML.Ada

variable {X : Type}

/-- A row that the weighted vote gets wrong is wrong for members with at least half of the coefficients. -/
lemma half_weight (r : X) (c : Int) (hc : c = 1 ∨ c = -1) : ∀ ms : List ((X → Int) × ℝ), (∀ q ∈ ms, q.1 r = 1 ∨ q.1 r = -1) →
    (c : ℝ) * weightedVote ms r = (ms.map Prod.snd).sum - 2 * (ms.map fun q => if q.1 r ≠ c then q.2 else 0).sum
  | [], _ => by simp [weightedVote]
  | q :: ms, h => by
    have ih := half_weight r c hc ms fun q' hq' => h q' (List.mem_cons_of_mem _ hq')
    have hq := h q List.mem_cons_self
    have e : weightedVote (q :: ms) r = q.2 * ((q.1 r : Int) : ℝ) + weightedVote ms r := by simp [weightedVote]
    rw [e, mul_add, ih, List.map_cons, List.sum_cons, List.map_cons, List.sum_cons]
    rcases hc with rfl | rfl <;> rcases hq with hq | hq <;> rw [hq] <;> norm_num <;> ring

/-- C306 for AdaBoost: with non-negative coefficients of positive sum, the classifier makes at most twice as many mistakes as its members on average, weighted by the coefficients. -/
theorem C306_boosting (ms : List ((X → Int) × ℝ)) (hpos : ∀ q ∈ ms, 0 ≤ q.2) (hs : 0 < (ms.map Prod.snd).sum) (o : Obj X) (ho : o.trained = true)
    (he : o.estimators = ms.map Prod.fst) (ha : o.alphas = ms.map fun q => ((q.2 : ℝ) : WithBot ℝ)) (data : List (X × Int)) (hy : ∀ q ∈ data, q.2 = 1 ∨ q.2 = -1)
    (h : ∀ f ∈ ms, ∀ q ∈ data, f.1 q.1 = 1 ∨ f.1 q.1 = -1) :
    ∃ answers, o.predict (data.map Prod.fst) = .ok answers ∧
      (ms.map Prod.snd).sum * ((answers.zip (data.map Prod.snd)).countP fun q => q.1 ≠ some q.2 : Nat) ≤
        2 * (ms.map fun f => f.2 * ((data.countP fun q => f.1 q.1 ≠ q.2 : Nat) : ℝ)).sum := by
  refine ⟨_, C35_sign ms hs o (.inl ho) he ha (data.map Prod.fst), ?_⟩
  have e : ((data.map Prod.fst).map fun r => (some (if 0 ≤ weightedVote ms r then (1 : Int) else -1))).zip (data.map Prod.snd) =
      data.map fun q => (some (if 0 ≤ weightedVote ms q.1 then (1 : Int) else -1), q.2) := by
    rw [List.map_map, List.zip_map']
    rfl
  rw [e, List.countP_map]
  clear e
  induction data with
  | nil => simp
  | cons q data ih =>
    have ih := ih (fun q' hq' => hy q' (List.mem_cons_of_mem _ hq')) (fun e he q' hq' => h e he q' (List.mem_cons_of_mem _ hq'))
    have e2 : (ms.map fun f => f.2 * (((q :: data).countP fun q => f.1 q.1 ≠ q.2 : Nat) : ℝ)).sum =
        (ms.map fun f => f.2 * ((data.countP fun q => f.1 q.1 ≠ q.2 : Nat) : ℝ)).sum + (ms.map fun f => if f.1 q.1 ≠ q.2 then f.2 else 0).sum := by
      rw [← List.sum_map_add]
      congr 1
      refine List.map_congr_left fun f _ => ?_
      rw [List.countP_cons]
      by_cases hf : f.1 q.1 = q.2
      · simp [hf]
      · simp [hf]; ring
    have hw0 : 0 ≤ (ms.map fun f => if f.1 q.1 ≠ q.2 then f.2 else 0).sum := by
      refine List.sum_nonneg fun a haa => ?_
      obtain ⟨f, hf, rfl⟩ := List.mem_map.1 haa
      split
      · exact hpos f hf
      · exact le_rfl
    have hv := half_weight q.1 q.2 (hy q List.mem_cons_self) ms fun f hf => h f hf q List.mem_cons_self
    rw [e2, mul_add, List.countP_cons]
    push_cast
    rw [mul_add]
    refine add_le_add ih ?_
    split
    · next hwr =>
      rw [mul_one]
      simp only [Function.comp, ne_eq, Option.some.injEq, decide_eq_true_eq] at hwr
      rcases hy q List.mem_cons_self with hc | hc
      · rw [hc] at hwr hv ⊢
        split at hwr
        · exact absurd rfl hwr
        · next hneg => push_cast at hv; linarith
      · rw [hc] at hwr hv ⊢
        split at hwr
        · next hneg => push_cast at hv; linarith
        · exact absurd rfl hwr
    · rw [mul_zero]; linarith

/-- The hypotheses are met: two members on the line. -/
example : ∃ ms : List ((ℝ → Int) × ℝ), (∀ q ∈ ms, 0 ≤ q.2) ∧ 0 < (ms.map Prod.snd).sum ∧ ∀ f ∈ ms, ∀ r, f.1 r = 1 ∨ f.1 r = -1 :=
  ⟨[(fun _ => 1, 1), (fun _ => -1, 2)], by simp, by norm_num, by simp⟩

end CML.Ada
