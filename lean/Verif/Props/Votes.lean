import Verif.Props.Ensemble

set_option linter.unusedSectionVars false

/-! # Properties C272, C273: seeds of ensembles, votes -/

namespace CML.Bagging

variable {K : Type*} {X E : Type*}

/-! ## C272: seeds -/

/-- C272 is false for neighbouring seeds: two ensembles trained on the same data with seeds `s` and `s + j` share all members but `j`: the second is the first one
without its first `j` members, continued. -/
theorem C272_neighbours_violated (rng : Option Nat → (n : Nat) → Fin n → Fin n) (learn : List (List K) → List (List Int) → Except PyErr E)
    (x : List (List K)) (y : List Int) (k j s : Nat) (hj : j ≤ k) (o1 o2 : Obj E)
    (h1 : (Obj.fit { seed := s } rng learn x y k : Except PyErr (Obj E)) = .ok o1)
    (h2 : (Obj.fit { seed := s + j } rng learn x y k : Except PyErr (Obj E)) = .ok o2) :
    o1.members.drop j = o2.members.take (k - j) ∧ (o1.members.drop j).length = k - j := by
  obtain ⟨-, -, es1, e1, l1, f1⟩ := C36_fit rng learn x y k _ o1 h1
  obtain ⟨-, -, es2, e2, l2, f2⟩ := C36_fit rng learn x y k _ o2 h2
  simp only [List.nil_append] at e1 e2
  rw [e1, e2]
  refine ⟨?_, by simp [l1]⟩
  apply List.ext_getElem
  · simp [l1, l2]
  · intro i hi1 hi2
    rw [List.getElem_drop, List.getElem_take]
    simp only [List.length_drop] at hi1
    obtain ⟨xs, ys, a1, a2⟩ := f1 (j + i) _ (List.getElem?_eq_getElem (by omega))
    obtain ⟨xs', ys', b1, b2⟩ := f2 i _ (List.getElem?_eq_getElem (by omega))
    simp only [show s + (j + i) = s + j + i by omega] at a1
    rw [a1] at b1
    injection b1 with b1
    injection b1 with c1 c2
    injection c2 with c2
    subst c1 c2
    rw [a2] at b2
    injection b2

/-- C272, the part that holds: when the seeds are at least as far apart as the ensembles are large, every member of either ensemble is trained on a bootstrap sample
of its own seed, and no seed is used twice. -/
theorem C272_apart_partial (rng : Option Nat → (n : Nat) → Fin n → Fin n) (learn : List (List K) → List (List Int) → Except PyErr E)
    (x : List (List K)) (y : List Int) (k s t : Nat) (hst : s + k ≤ t) (o1 o2 : Obj E)
    (h1 : (Obj.fit { seed := s } rng learn x y k : Except PyErr (Obj E)) = .ok o1)
    (h2 : (Obj.fit { seed := t } rng learn x y k : Except PyErr (Obj E)) = .ok o2) :
    ∃ f : Nat → Nat, (∀ i j, f i = f j → i = j) ∧ ∀ (i : Nat) (e : E), (o1.members ++ o2.members)[i]? = some e →
      ∃ xs ys, Ops.bootstrapSampling rng (.d2 x) (some (.d1 y)) (some (f i)) = .ok (xs, some ys) ∧ learn xs ys = .ok e := by
  obtain ⟨-, -, es1, e1, l1, f1⟩ := C36_fit rng learn x y k _ o1 h1
  obtain ⟨-, -, es2, e2, l2, f2⟩ := C36_fit rng learn x y k _ o2 h2
  simp only [List.nil_append] at e1 e2
  rw [e1, e2]
  refine ⟨fun i => if i < k then s + i else t + (i - k), fun i j h => ?_, fun i e h => ?_⟩
  · dsimp only at h
    split at h <;> split at h <;> omega
  · by_cases hi : i < k
    · rw [List.getElem?_append_left (by omega)] at h
      simp only [if_pos hi]
      exact f1 i e h
    · rw [List.getElem?_append_right (by omega), l1] at h
      simp only [if_neg hi]
      exact f2 (i - k) e h

/-! ## C273: votes -/

/-- C273 (bagging): the order of the members does not matter. -/
theorem C273_bagging_order (pred : E → X → Int) (es es' : List E) (h : es.Perm es') (o : Obj E) (rows : List X) :
    ({ o with members := es }).predict pred rows = ({ o with members := es' }).predict pred rows := by
  have : ∀ r, decideRow pred es r = decideRow pred es' r := fun r => by unfold decideRow; rw [(h.map _).sum_eq]
  simp only [Obj.predict]
  congr 2
  exact List.map_congr_left fun r _ => this r

/-- C273 (bagging): one more member that votes for the present answer keeps it; and an answer only changes to the label that the new member voted for. -/
theorem C273_bagging_monotone (pred : E → X → Int) (es : List E) (e : E) (r : X) (he : pred e r = 1 ∨ pred e r = -1) :
    decideRow pred (e :: es) r = decideRow pred es r ∨ decideRow pred (e :: es) r = pred e r := by
  unfold decideRow
  rw [List.map_cons, List.sum_cons]
  rcases he with h | h <;> rw [h] <;> split <;> split <;> first | (left; rfl) | (right; rfl) | omega

/-- C273 (bagging): two ensembles that agree on a row also agree when they are put together. -/
theorem C273_bagging_union (pred : E → X → Int) (es es' : List E) (r : X) (h : decideRow pred es r = decideRow pred es' r) :
    decideRow pred (es ++ es') r = decideRow pred es r := by
  unfold decideRow at *
  rw [List.map_append, List.sum_append]
  split at h <;> split at h <;> split <;> first | rfl | omega | (simp at h)

example : decideRow (fun (e : Int) (_ : Unit) => e) [1, -1, -1] () = -1 ∧ decideRow (fun (e : Int) (_ : Unit) => e) [1, 1, -1, -1] () = 1 := by decide

end CML.Bagging

namespace CML.Ada

variable {X : Type*}

/-- The vote and the total of the coefficients, if all are finite. -/
noncomputable def tally (ms : List ((X → Int) × WithBot ℝ)) (r : X) : Option (ℝ × ℝ) :=
  (reals (ms.map Prod.snd)).map fun l => (vote ((ms.map Prod.fst).zip l) r, l.sum)

theorem predictRow_tally (ms : List ((X → Int) × WithBot ℝ)) (r : X) :
    predictRow (ms.map Prod.fst) (ms.map Prod.snd) r = (tally ms r).bind fun p => decideRow p.1 p.2 := by
  unfold predictRow tally
  cases reals (ms.map Prod.snd) <;> rfl

theorem tally_cons (h : X → Int) (a : WithBot ℝ) (ms : List ((X → Int) × WithBot ℝ)) (r : X) :
    tally ((h, a) :: ms) r = a.recBotCoe none (fun a => (tally ms r).map fun p => (a * (h r : ℝ) + p.1, a + p.2)) := by
  cases a with
  | bot => rfl
  | coe a =>
    simp only [tally, List.map_cons, reals]
    cases reals (ms.map Prod.snd) with
    | none => rfl
    | some l => simp [vote]

/-- C273 (AdaBoost): the order of the members (with their coefficients) does not matter. -/
theorem C273_ada_order (ms ms' : List ((X → Int) × WithBot ℝ)) (h : ms.Perm ms') (o : Obj X) (rows : List X) :
    ({ o with estimators := ms.map Prod.fst, alphas := ms.map Prod.snd }).predict rows =
      ({ o with estimators := ms'.map Prod.fst, alphas := ms'.map Prod.snd }).predict rows := by
  have ht : ∀ r, tally ms r = tally ms' r := by
    intro r
    induction h with
    | nil => rfl
    | cons q _ ih => obtain ⟨h, a⟩ := q; rw [tally_cons, tally_cons, ih]
    | swap q q' l =>
      obtain ⟨h, a⟩ := q
      obtain ⟨h', a'⟩ := q'
      rw [tally_cons, tally_cons, tally_cons, tally_cons]
      cases a with
      | bot => cases a' <;> rfl
      | coe a =>
        cases a' with
        | bot => rfl
        | coe a' =>
          simp only [WithBot.recBotCoe_coe]
          cases tally l r with
          | none => rfl
          | some p => simp only [Option.map_some, Option.some.injEq, Prod.mk.injEq]; exact ⟨by ring, by ring⟩
    | trans _ _ ih1 ih2 => exact ih1.trans ih2
  simp only [Obj.predict]
  congr 2
  exact List.map_congr_left fun r _ => by rw [predictRow_tally, predictRow_tally, ht]

end CML.Ada
