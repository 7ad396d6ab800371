import Verif.Props.FailedFit
import Verif.Props.Ensemble
import Verif.Props.NBObject
import Verif.Props.GMMInit

set_option linter.unusedSectionVars false

/-! # Properties C171 and C172: a call of `fit` that raises (mixtures, naive Bayes, ensembles, networks) -/

namespace CML.Failed
open Bayes

/-! ## GaussianMixture -/

variable {K : Type} [Field K] [LinearOrder K]

/-- C171 (part): refused means leave the instance as it was. -/
theorem C171_mixture_means_partial {M A C : Type} (e : PyErr) (d k : Nat) (cov : GMM.CovInit K) (coefs : Except PyErr A) (o : GMObj (K := K) M A C) :
    o.start (.error e) d k cov coefs = (o, some e) := rfl

/-- C171 fails for mixtures: covariances that are refused leave the new means beside the old covariances and coefficients. An array of covariances fits one
number of components and features only (axes of length one aside), so that every call with another number of features ends here. -/
theorem C171_mixture_failed {M A C : Type} (m : M) (d k : Nat) (a : GMM.Arr K) (ha : a.shape.filter (fun l => l ≠ 1) ≠ [k, d, d]) (coefs : Except PyErr A)
    (o : GMObj (K := K) M A C) : o.start (.ok m) d k (.array a) coefs = ({ o with mu := some m }, some .valueError) := by
  unfold GMObj.start
  have : GMM.initCovariances d k (.array a) = .error .valueError := by
    simp only [GMM.initCovariances]
    exact if_neg ha
  rw [this]

/-- C171 fails for mixtures: refused coefficients leave the new means and covariances beside the old coefficients. -/
theorem C171_mixture_coefficients {M A C : Type} (m : M) (d k : Nat) (e : PyErr) (o : GMObj (K := K) M A C) :
    ∃ s, o.start (.ok m) d k .none (.error e) = ({ o with mu := some m, sigma := some s }, some e) ∧ s.shape = [k, d, d] := ⟨_, rfl, rfl⟩

/-- C171: an initialisation that succeeds leaves nothing of the earlier means, covariances and coefficients. -/
theorem C171_mixture_replaced {M A C : Type} (means : Except PyErr M) (d k : Nat) (cov : GMM.CovInit K) (coefs : Except PyErr A) (o o' : GMObj (K := K) M A C)
    (h : o.start means d k cov coefs = (o', none)) :
    ∃ m s a, means = .ok m ∧ GMM.initCovariances d k cov = .ok s ∧ coefs = .ok a ∧ o'.mu = some m ∧ o'.sigma = some s ∧ o'.alpha = some a ∧
      o'.clusters = o.clusters ∧ o'.trained = o.trained ∧ o'.loaded = o.loaded := by
  unfold GMObj.start at h
  cases means with
  | error e => simp at h
  | ok m =>
    cases hc : GMM.initCovariances d k cov with
    | error e => rw [hc] at h; simp at h
    | ok s =>
      rw [hc] at h
      cases coefs with
      | error e => simp at h
      | ok a =>
        simp at h
        subst h
        exact ⟨m, s, a, rfl, rfl, rfl, rfl, rfl, rfl, rfl, rfl, rfl⟩

example : (⟨[2, 3, 3], fun _ => 0⟩ : GMM.Arr ℚ).shape.filter (fun l => l ≠ 1) ≠ [2, 4, 4] := by decide

/-! ## NaiveBayesClassifier -/

variable {V : Type} [DecidableEq V]

theorem nbColumn_both (order : List V → List V) (y : List Int) (c : Col V) :
    (∃ a b, nbColumn order y 0 c = .ok a ∧ nbColumn order y 1 c = .ok b) ∨
      (nbColumn order y 0 c = .error .indexError ∧ nbColumn order y 1 c = .error .indexError) := by
  cases c with
  | cont l => exact .inl ⟨_, _, rfl, rfl⟩
  | disc l =>
    by_cases h : (pyUnique l).length = 1
    · exact .inr ⟨by simp [nbColumn, h], by simp [nbColumn, h]⟩
    · exact .inl ⟨_, _, if_neg h, if_neg h⟩

/-- A column with a single distinct value. -/
def Constant : Col V → Prop
  | .cont _ => False
  | .disc l => (pyUnique l).length = 1

theorem nbColumn_const (order : List V → List V) (y : List Int) (k : Int) (c : Col V) :
    (Constant c → nbColumn order y k c = .error .indexError) ∧ (¬ Constant c → ∃ a, nbColumn order y k c = .ok a) := by
  cases c with
  | cont l => exact ⟨fun h => h.elim, fun _ => ⟨_, rfl⟩⟩
  | disc l =>
    refine ⟨fun h => by simp only [Constant] at h; simp [nbColumn, h], fun h => ?_⟩
    simp only [Constant] at h
    exact ⟨_, if_neg h⟩

/-- What the loop does to a table. -/
theorem nbLoop_spec (order : List V → List V) (y : List Int) (table : List (String × Col V)) (hn : (table.map Prod.fst).Nodup) (o : NBObj V) :
    (∀ c ∈ table, ¬ Constant c.2) →
    ∃ o', NBObj.loop order y table o = (o', none) ∧ o'.prior = o.prior ∧ o'.trained = o.trained ∧ o'.loaded = o.loaded ∧
      (∀ c ∈ table, ∃ a b, nbColumn order y 0 c.2 = .ok a ∧ nbColumn order y 1 c.2 = .ok b ∧ Dict.get o'.pi0 c.1 = some a ∧ Dict.get o'.pi1 c.1 = some b) ∧
      ∀ m, m ∉ table.map Prod.fst → Dict.get o'.pi0 m = Dict.get o.pi0 m ∧ Dict.get o'.pi1 m = Dict.get o.pi1 m := by
  induction table generalizing o with
  | nil => intro _; exact ⟨o, rfl, rfl, rfl, rfl, by simp, by simp⟩
  | cons p table ih =>
    obtain ⟨name, col⟩ := p
    intro hc
    rw [List.map_cons, List.nodup_cons] at hn
    obtain ⟨a, ha⟩ := (nbColumn_const order y 0 col).2 (hc (name, col) (by simp))
    obtain ⟨b, hb⟩ := (nbColumn_const order y 1 col).2 (hc (name, col) (by simp))
    obtain ⟨o', h1, h2, h3, h4, h5, h6⟩ := ih hn.2 { o with pi0 := Dict.set o.pi0 name a, pi1 := Dict.set o.pi1 name b }
      (fun c hcm => hc c (List.mem_cons_of_mem _ hcm))
    refine ⟨o', ?_, h2, h3, h4, ?_, ?_⟩
    · simp only [NBObj.loop, ha, hb]; exact h1
    · intro c hcm
      rcases List.mem_cons.1 hcm with rfl | hcm
      · obtain ⟨e1, e2⟩ := h6 name hn.1
        exact ⟨a, b, ha, hb, by rw [e1]; simp [Dict.get_set], by rw [e2]; simp [Dict.get_set]⟩
      · exact h5 c hcm
    · intro m hm
      simp only [List.map_cons, List.mem_cons, not_or] at hm
      obtain ⟨e1, e2⟩ := h6 m hm.2
      exact ⟨by rw [e1]; simp [Dict.get_set, Ne.symm hm.1], by rw [e2]; simp [Dict.get_set, Ne.symm hm.1]⟩

theorem nbLoop_append (order : List V → List V) (y : List Int) (pre post : List (String × Col V)) (o o' : NBObj V)
    (h : NBObj.loop order y pre o = (o', none)) : NBObj.loop order y (pre ++ post) o = NBObj.loop order y post o' := by
  induction pre generalizing o with
  | nil => simp only [NBObj.loop, Prod.mk.injEq, and_true] at h; subst h; rfl
  | cons p pre ih =>
    obtain ⟨name, col⟩ := p
    simp only [List.cons_append, NBObj.loop] at h ⊢
    rcases nbColumn_both order y col with ⟨a, b, ha, hb⟩ | ⟨ha, hb⟩
    · simp only [ha, hb] at h ⊢; exact ih _ h
    · simp [ha, hb] at h

theorem prior_ok (y : List Int) (s : Bool) (h : y ≠ []) : ∃ p, Bayes.prior y.length y s = .ok p := by
  unfold Bayes.prior
  have hl : 0 < y.length := List.length_pos_of_ne_nil h
  simp only
  rw [if_neg (by split_ifs <;> omega)]
  exact ⟨_, rfl⟩

theorem lookAll_ok (d : Dict String (Stored V)) (names : List String) (ss : List (Stored V)) (h : List.Forall₂ (fun n s => Dict.get d n = some s) names ss) :
    lookAll d names = .ok ss := by
  induction h with
  | nil => rfl
  | cons h1 _ ih => simp [lookAll, h1, ih]

theorem look_table (d : Dict String (Stored V)) (f : Col V → Except PyErr (Stored V)) (table : List (String × Col V)) (ss : List (Stored V))
    (h : List.Forall₂ (fun col s => f col = .ok s) (table.map Prod.snd) ss) (g : ∀ c ∈ table, ∃ a, f c.2 = .ok a ∧ Dict.get d c.1 = some a) :
    lookAll d (table.map Prod.fst) = .ok ss := by
  apply lookAll_ok
  induction table generalizing ss with
  | nil => cases h; exact .nil
  | cons c table ih =>
    rw [List.map_cons] at h ⊢
    cases h with
    | cons e h =>
      refine .cons ?_ (ih _ h fun c hc => g c (List.mem_cons_of_mem _ hc))
      obtain ⟨a, ha, hga⟩ := g c (by simp)
      rw [e] at ha
      rw [hga]; injection ha with ha; rw [ha]

theorem mapM_forall₂ (order : List V → List V) (y : List Int) (c : Int) (cols : List (Col V)) (ss : List (Stored V))
    (h : cols.mapM (nbColumn order y c) = .ok ss) : List.Forall₂ (fun col s => nbColumn order y c col = .ok s) cols ss := by
  induction cols generalizing ss with
  | nil =>
    have : ss = [] := by
      simp only [List.mapM_nil, pure, Except.pure, Except.ok.injEq] at h
      exact h.symm
    subst this; exact .nil
  | cons col cols ih =>
    rw [List.mapM_cons] at h
    cases hc : nbColumn order y c col with
    | error e => rw [hc] at h; cases h
    | ok s =>
      cases hss : cols.mapM (nbColumn order y c) with
      | error e => rw [hc, hss] at h; cases h
      | ok t =>
        rw [hc, hss] at h
        have : ss = s :: t := by
          simp only [bind, Except.bind, pure, Except.pure, Except.ok.injEq] at h
          exact h.symm
        subst this
        exact .cons hc (ih t hss)

/-- C171, C172: a call of `fit` that completes gives, for the names of the new table, the answers of the classifier of `Model.Bayes`, whatever the instance held
before. -/
theorem C172_bayes_partial (fl : ℝ → ℝ) (order : List V → List V) (smoothing : Bool) (o : NBObj V) (table : List (String × Col V))
    (hn : (table.map Prod.fst).Nodup) (y : List Int) (m : NB V) (h : nbFit order (table.map Prod.snd) y smoothing = .ok m) :
    (o.fit order smoothing table y).2 = none ∧
      ∀ x, NBObj.predict fl smoothing (table.map Prod.fst) (o.fit order smoothing table y).1 x = nbPredict fl smoothing m x := by
  unfold nbFit at h
  cases hp : Bayes.prior y.length y smoothing with
  | error e => rw [hp] at h; cases h
  | ok p =>
    obtain ⟨p0, p1⟩ := p
    rw [hp] at h
    simp only at h
    cases h0 : (table.map Prod.snd).mapM (nbColumn order y 0) with
    | error e => rw [h0] at h; cases h
    | ok s0 =>
      cases h1 : (table.map Prod.snd).mapM (nbColumn order y 1) with
      | error e => rw [h0, h1] at h; cases h
      | ok s1 =>
        rw [h0, h1] at h
        simp only [Except.ok.injEq] at h
        have f0 := mapM_forall₂ order y 0 _ _ h0
        have f1 := mapM_forall₂ order y 1 _ _ h1
        have hnc : ∀ c ∈ table, ¬ Constant c.2 := by
          intro c hc hcon
          have : ∃ s, nbColumn order y 0 c.2 = .ok s := by
            have hmem : c.2 ∈ table.map Prod.snd := List.mem_map_of_mem hc
            clear h h0 h1 f1
            revert hmem
            generalize table.map Prod.snd = l at f0
            intro hmem
            induction f0 with
            | nil => simp at hmem
            | cons e _ ih =>
              rcases List.mem_cons.1 hmem with e1 | hm
              · exact ⟨_, e1 ▸ e⟩
              · exact ih hm
          obtain ⟨s, hs⟩ := this
          rw [(nbColumn_const order y 0 c.2).1 hcon] at hs
          cases hs
        obtain ⟨o', g1, g2, -, -, g5, -⟩ := nbLoop_spec order y table hn { o with prior := some (p0, p1) } hnc
        have hfit : o.fit order smoothing table y = ({ o' with trained := true }, none) := by
          unfold NBObj.fit
          rw [hp]
          simp only [g1]
        rw [hfit]
        refine ⟨rfl, fun x => ?_⟩
        have l0 : lookAll o'.pi0 (table.map Prod.fst) = .ok s0 :=
          look_table _ _ table s0 f0 fun c hc => by
            obtain ⟨a, b, ha, -, hga, -⟩ := g5 c hc
            exact ⟨a, ha, hga⟩
        have l1 : lookAll o'.pi1 (table.map Prod.fst) = .ok s1 :=
          look_table _ _ table s1 f1 fun c hc => by
            obtain ⟨a, b, -, hb, -, hgb⟩ := g5 c hc
            exact ⟨b, hb, hgb⟩
        simp only [NBObj.predict, g2, l0, l1]
        rw [← h]
        simp

/-- C171 fails for naive Bayes: at the first constant discrete column `fit` raises `IndexError`; the class probabilities and the columns before it are then those of
the new data, that column and the later ones those of the old. -/
theorem C171_bayes_failed (order : List V → List V) (smoothing : Bool) (o : NBObj V) (pre post : List (String × Col V)) (c : String × Col V)
    (hn : ((pre ++ c :: post).map Prod.fst).Nodup) (hpre : ∀ c ∈ pre, ¬ Constant c.2) (hc : Constant c.2) (y : List Int) (p : ℝ × ℝ)
    (hp : Bayes.prior y.length y smoothing = .ok p) :
    ∃ o', o.fit order smoothing (pre ++ c :: post) y = (o', some .indexError) ∧ o'.prior = some p ∧ o'.trained = o.trained ∧ o'.loaded = o.loaded ∧
      (∀ q ∈ pre, ∃ a b, nbColumn order y 0 q.2 = .ok a ∧ nbColumn order y 1 q.2 = .ok b ∧ Dict.get o'.pi0 q.1 = some a ∧ Dict.get o'.pi1 q.1 = some b) ∧
      ∀ m, m ∉ pre.map Prod.fst → Dict.get o'.pi0 m = Dict.get o.pi0 m ∧ Dict.get o'.pi1 m = Dict.get o.pi1 m := by
  have hn1 : (pre.map Prod.fst).Nodup := by
    rw [List.map_append] at hn
    exact (List.nodup_append.1 hn).1
  obtain ⟨o', h1, h2, h3, h4, h5, h6⟩ := nbLoop_spec order y pre hn1 { o with prior := some p } hpre
  refine ⟨o', ?_, h2, h3, h4, h5, h6⟩
  unfold NBObj.fit
  rw [hp]
  simp only [nbLoop_append order y pre (c :: post) _ o' h1, NBObj.loop, (nbColumn_const order y 0 c.2).1 hc]

/-- C171 fails for naive Bayes: on a table that begins with a constant discrete column only the class probabilities change, and with them the answers. Here the
attribute tells nothing and the answer is the more frequent class. -/
theorem C171_bayes_changed (fl : ℝ → ℝ) (order : List Bool → List Bool) :
    let even : Stored Bool := .disc [(true, 1), (false, 1)] 2 2
    let o : NBObj Bool := { prior := some (3 / 4, 1 / 4), pi0 := [("a", even)], pi1 := [("a", even)], trained := true }
    Raised (o.fit order false [("a", .disc [true, true, true])] [1, 1, 0]) ∧
      ¬ SameAnswers (NBObj.predict fl false ["a"]) o (o.fit order false [("a", .disc [true, true, true])] [1, 1, 0]).1 := by
  intro even o
  have hcon : Constant (Col.disc [true, true, true]) := by show (pyUnique [true, true, true]).length = 1; decide
  obtain ⟨p, hp⟩ := prior_ok [1, 1, 0] false (by simp)
  have hpv : p = (1 / 3, 2 / 3) := by
    unfold Bayes.prior at hp
    simp [Bayes.ratio] at hp
    rw [← hp]; norm_num
  obtain ⟨o', h1, h2, h3, -, -, h6⟩ := C171_bayes_failed order false o [] [] ("a", .disc [true, true, true]) (by simp) (by simp) hcon [1, 1, 0] p hp
  rw [List.nil_append] at h1
  rw [h1]
  refine ⟨by simp [Raised], fun h => ?_⟩
  have hq := h [.disc true]
  obtain ⟨e0, e1⟩ := h6 "a" (by simp)
  have g0 : Dict.get o.pi0 "a" = some even := rfl
  have g1 : Dict.get o.pi1 "a" = some even := rfl
  rw [g0] at e0
  rw [g1] at e1
  have ht : o'.trained = true := h3
  have key : ∀ (O : NBObj Bool) (p0 p1 : ℝ), O.trained = true → O.prior = some (p0, p1) → Dict.get O.pi0 "a" = some even → Dict.get O.pi1 "a" = some even →
      0 < p0 → 0 < p1 → NBObj.predict fl false ["a"] O [.disc true] = .ok (if p1 < p0 then 0 else 1) := by
    intro O p0 p1 t1 t2 t3 t4 hp0 hp1
    have hf : factors fl false [even] [.disc true] = .ok [some (1 / 2)] := by
      simp [factors, factor, even, List.lookup, condProb, ratio]
    simp only [NBObj.predict, t1, t2, lookAll, t3, t4, nbPredict, hf]
    simp only [Bool.true_eq_false, false_and, if_false]
    congr 1
    simp only [score, List.foldl, addLog, logB, hp0.ne', hp1.ne', if_false, label]
    have h2 : (1 / 2 : ℝ) ≠ 0 := by norm_num
    simp only [h2, if_false]
    norm_cast
    have := Real.log_lt_log_iff hp1 hp0
    by_cases hlt : p1 < p0
    · have h' := this.2 hlt
      simp [hlt, h']
    · have h' : ¬ Real.log p1 < Real.log p0 := fun hh => hlt (this.1 hh)
      simp [hlt, h']
  rw [key o' (1 / 3) (2 / 3) ht (by rw [h2, hpv]) e0 e1 (by norm_num) (by norm_num), key o (3 / 4) (1 / 4) rfl rfl rfl rfl (by norm_num) (by norm_num)] at hq
  norm_num at hq

end CML.Failed
