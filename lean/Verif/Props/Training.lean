import Verif.Spec.Training
import Mathlib.Tactic.Ring
import Mathlib.Tactic.Linarith
import Mathlib.Tactic.FieldSimp
import Mathlib.Tactic.NormNum
import Mathlib.Tactic.Positivity
import Mathlib.Algebra.Order.Floor.Ring

set_option linter.unusedSectionVars false

/-! # Properties C54, C55, C94–C97 of monitoring -/

namespace CML.Train

/-! ## C54 histories -/

section
variable {P L M : Type} (upd : Nat → P → P) (ev : Eval P L M)

theorem record_spec (cbs : List Callback) (l : L) (m : M) : ∀ (h : Nat → List (L × M)) (id : Nat),
    record cbs l m h id = h id ++ List.replicate (cbs.count (.history id)) (l, m) := by
  induction cbs with
  | nil => intro h id; simp [record]
  | cons c cs ih =>
    intro h id
    have : record (c :: cs) l m h = record cs l m (record [c] l m h) := rfl
    rw [this, ih]
    cases c with
    | other => simp [record]
    | history j =>
      by_cases hj : id = j
      · subst hj
        simp [record, List.count_cons, List.replicate_succ]
      · have : ¬ (j = id) := fun h => hj h.symm
        simp [record, List.count_cons, hj, this]

/-- The state of the parameters seen from epoch `e` on. -/
def stateFrom (p : P) (e : Nat) : Nat → P
  | 0 => p
  | k + 1 => upd (e + k) (stateFrom p e k)

theorem stateFrom_succ (p : P) (e k : Nat) : stateFrom upd p e (k + 1) = stateFrom upd (upd e p) (e + 1) k := by
  induction k with
  | zero => rfl
  | succ k ih => rw [stateFrom, ih, stateFrom]; congr 1; omega

theorem stateFrom_one (p : P) (k : Nat) : stateFrom upd p 1 k = state upd p k := by
  induction k with
  | zero => rfl
  | succ k ih => rw [stateFrom, ih, state, Nat.add_comm]

def valuesFrom (p : P) (e n : Nat) : List (L × M) :=
  (List.range n).map fun k => (ev.loss (stateFrom upd p e k) (stateFrom upd p e (k + 1)), ev.metric (stateFrom upd p e k) (stateFrom upd p e (k + 1)))

theorem valuesFrom_succ (p : P) (e n : Nat) : valuesFrom upd ev p e (n + 1) = (ev.loss p (upd e p), ev.metric p (upd e p)) :: valuesFrom upd ev (upd e p) (e + 1) n := by
  unfold valuesFrom
  rw [List.range_succ_eq_map, List.map_cons, List.map_map]
  congr 1
  refine List.map_congr_left fun k _ => ?_
  simp only [Function.comp, Nat.succ_eq_add_one]
  rw [stateFrom_succ upd p e (k + 1), stateFrom_succ upd p e k]

theorem valuesFrom_one (p : P) (n : Nat) : valuesFrom upd ev p 1 n = values upd ev p n := by
  unfold valuesFrom values
  simp only [stateFrom_one]

theorem loop_spec (bar : Option Nat) (cbs : Option (List Callback)) (n : Nat) : ∀ (e : Nat) (p : P) (w : World L M),
    (loop upd ev bar cbs e n p w).1 = stateFrom upd p e n ∧
    (∀ id, (loop upd ev bar cbs e n p w).2.hist id = w.hist id ++ (valuesFrom upd ev p e n).flatMap fun r =>
      List.replicate ((cbs.getD []).count (.history id)) r) ∧
    (loop upd ev bar cbs e n p w).2.drawn = w.drawn ++ match bar with
      | some t => (valuesFrom upd ev p e n).zipIdx.map fun r => (e + r.2, t, r.1.1, r.1.2)
      | none => [] := by
  induction n with
  | zero => intro e p w; refine ⟨rfl, fun id => by simp [loop, valuesFrom], ?_⟩; cases bar <;> simp [loop, valuesFrom]
  | succ n ih =>
    intro e p w
    rw [loop, stateFrom_succ, valuesFrom_succ]
    obtain ⟨h1, h2, h3⟩ := ih (e + 1) (upd e p) (monitor ev bar cbs e p (upd e p) w)
    refine ⟨h1, fun id => ?_, ?_⟩
    · refine (h2 id).trans ?_
      rw [List.flatMap_cons, ← List.append_assoc]
      congr 1
      cases bar <;> cases cbs <;> simp [monitor, record_spec]
    · refine h3.trans ?_
      cases bar with
      | none => cases cbs <;> simp [monitor]
      | some t =>
        simp only [List.zipIdx_cons, List.map_cons, Nat.add_zero]
        have hz : ∀ (l : List (L × M)), l.zipIdx.map (fun r => (e + 1 + r.2, t, r.1.1, r.1.2)) =
            (l.zipIdx (0 + 1)).map (fun r => (e + r.2, t, r.1.1, r.1.2)) := by
          intro l
          rw [List.zipIdx_succ, List.map_map]
          refine List.map_congr_left fun r _ => ?_
          simp only [Function.comp]
          rw [show e + 1 + r.2 = e + (r.2 + 1) by omega]
        rw [hz]
        cases cbs <;> simp [monitor]

/-- One fit: a `History` that occurs `c` times in the list of the callbacks gets the loss and metric of every epoch, in order, each
`c` times; with one occurrence it gets exactly one record per epoch, and nothing without callbacks. -/
theorem C54_one_fit (o : Opt) (verbose : Bool) (cbs : Option (List Callback)) (n : Nat) (p : P) (w : World L M) (id : Nat) :
    (run upd ev o verbose cbs n p w).2.1.hist id = w.hist id ++ (values upd ev p n).flatMap fun r =>
      List.replicate ((cbs.getD []).count (.history id)) r := by
  rw [← valuesFrom_one]
  exact (loop_spec upd ev _ cbs n 1 p w).2.1 id

/-- Any sequence of fits: a `History` that occurs once in the callbacks of every fit holds, after its former content, one record per
trained epoch in the order of training: `e₁ + … + e_k` records. -/
theorem C54_all_fits (id : Nat) (calls : List Call) : ∀ (o : Opt) (p : P) (w : World L M),
    (∀ c ∈ calls, ∃ cbs, c.cbs = some cbs ∧ cbs.count (.history id) = 1) →
    (runAll upd ev calls o p w).2.1.hist id = w.hist id ++ valuesAll upd ev (calls.map Call.epochs) p ∧
    (valuesAll upd ev (calls.map Call.epochs) p).length = (calls.map Call.epochs).sum := by
  induction calls with
  | nil => intro o p w _; simp [runAll, valuesAll]
  | cons c cs ih =>
    intro o p w hc
    obtain ⟨cbs, e1, e2⟩ := hc c (List.mem_cons_self ..)
    have hp : (run upd ev o c.verbose c.cbs c.epochs p w).1 = state upd p c.epochs := by
      rw [← stateFrom_one]
      exact (loop_spec upd ev _ c.cbs c.epochs 1 p w).1
    obtain ⟨i1, i2⟩ := ih (run upd ev o c.verbose c.cbs c.epochs p w).2.2 (run upd ev o c.verbose c.cbs c.epochs p w).1
      (run upd ev o c.verbose c.cbs c.epochs p w).2.1 (fun c' h => hc c' (List.mem_cons_of_mem _ h))
    rw [hp] at i1 i2
    refine ⟨?_, ?_⟩
    · rw [runAll]
      rw [hp, i1, C54_one_fit, e1, Option.getD_some, e2, List.map_cons, valuesAll, List.append_assoc]
      congr 2
      simp
    · rw [List.map_cons, valuesAll, List.length_append, i2, List.sum_cons]
      simp [values]

/-- A `History` that is in no list of callbacks is never changed. -/
theorem C54_other_histories (o : Opt) (verbose : Bool) (cbs : Option (List Callback)) (n : Nat) (p : P) (w : World L M) (id : Nat)
    (h : ∀ l ∈ cbs, Callback.history id ∉ l) : (run upd ev o verbose cbs n p w).2.1.hist id = w.hist id := by
  rw [C54_one_fit]
  have : (cbs.getD []).count (.history id) = 0 := by
    cases cbs with
    | none => rfl
    | some l => exact List.count_eq_zero.2 (h l rfl)
  rw [this]
  simp

/-- The hypotheses are met by two fits with two callbacks. -/
example : ∀ c ∈ [(⟨true, some [.other, .history 3], 2⟩ : Call), ⟨false, some [.history 3], 5⟩], ∃ cbs, c.cbs = some cbs ∧ cbs.count (.history 3) = 1 := by
  simp

/-! ## C94 monitoring does not change training -/

/-- The trained parameters do not depend on `verbose`, on the callbacks or on what the optimiser was used for before. -/
theorem C94_monitoring_is_pure (o : Opt) (verbose : Bool) (cbs : Option (List Callback)) (n : Nat) (p : P) (w : World L M) :
    (run upd ev o verbose cbs n p w).1 = state upd p n := by
  rw [← stateFrom_one]
  exact (loop_spec upd ev _ cbs n 1 p w).1

end

/-! ## C95 the last record describes the trained model -/

section
variable {P L M : Type} (upd : Nat → P → P) (loss : P → L) (metric : P → M)

theorem values_getLast (ev : Eval P L M) (p : P) (n : Nat) :
    (values upd ev p (n + 1)).getLast? = some (ev.loss (state upd p n) (state upd p (n + 1)), ev.metric (state upd p n) (state upd p (n + 1))) := by
  unfold values
  rw [List.range_succ, List.map_append]
  simp

/-- SGD and Adam: the last record of a `History` is the loss and the metric of the returned parameters. -/
theorem C95_sgd_partial (o : Opt) (verbose : Bool) (cbs : List Callback) (id : Nat) (hc : cbs.count (.history id) = 1) (n : Nat) (p : P) (w : World L M) :
    let r := run upd (evalSGD loss metric) o verbose (some cbs) (n + 1) p w
    (r.2.1.hist id).getLast? = some (loss r.1, metric r.1) := by
  intro r
  show ((run upd (evalSGD loss metric) o verbose (some cbs) (n + 1) p w).2.1.hist id).getLast? = _
  rw [C54_one_fit, Option.getD_some, hc]
  have hv := values_getLast upd (evalSGD loss metric) p n
  have : ((values upd (evalSGD loss metric) p (n + 1)).flatMap fun r => List.replicate 1 r) = values upd (evalSGD loss metric) p (n + 1) := by simp
  rw [this, List.getLast?_append, hv]
  simp only [Option.some_or, evalSGD]
  rw [show r.1 = state upd p (n + 1) from C94_monitoring_is_pure upd _ o verbose (some cbs) (n + 1) p w]

/-- Logistic regression: the last record is the loss of the returned parameters with the metric of the parameters one epoch before.
RBF networks: both belong to the parameters one epoch before. -/
theorem C95_one_epoch_behind (o : Opt) (verbose : Bool) (cbs : List Callback) (id : Nat) (hc : cbs.count (.history id) = 1) (n : Nat) (p : P)
    (w : World L M) :
    ((run upd (evalLogistic loss metric) o verbose (some cbs) (n + 1) p w).2.1.hist id).getLast? =
      some (loss (state upd p (n + 1)), metric (state upd p n)) ∧
    ((run upd (evalBefore loss metric) o verbose (some cbs) (n + 1) p w).2.1.hist id).getLast? =
      some (loss (state upd p n), metric (state upd p n)) := by
  have flat1 : ∀ l : List (L × M), (l.flatMap fun r => List.replicate 1 r) = l := fun l => by simp
  constructor
  all_goals
    rw [C54_one_fit, Option.getD_some, hc, flat1, List.getLast?_append, values_getLast]
    rfl

/-- So C95 fails for logistic regression and RBF networks whenever the last epoch changes the metric. -/
theorem C95_violated (o : Opt) (verbose : Bool) (cbs : List Callback) (id : Nat) (hc : cbs.count (.history id) = 1) (n : Nat) (p : P)
    (w : World L M) (hm : metric (state upd p n) ≠ metric (state upd p (n + 1))) :
    (let r := run upd (evalLogistic loss metric) o verbose (some cbs) (n + 1) p w;
      (r.2.1.hist id).getLast? ≠ some (loss r.1, metric r.1)) ∧
    (let r := run upd (evalBefore loss metric) o verbose (some cbs) (n + 1) p w;
      (r.2.1.hist id).getLast? ≠ some (loss r.1, metric r.1)) := by
  obtain ⟨h1, h2⟩ := C95_one_epoch_behind upd loss metric o verbose cbs id hc n p w
  constructor
  · dsimp only
    rw [h1, C94_monitoring_is_pure]
    intro h
    simp only [Option.some.injEq, Prod.mk.injEq] at h
    exact hm h.2
  · dsimp only
    rw [h2, C94_monitoring_is_pure]
    intro h
    simp only [Option.some.injEq, Prod.mk.injEq] at h
    exact hm h.2

/-- The hypothesis is met, for example if an epoch counts the parameter up and the metric is the parameter. -/
example : (id : Nat → Nat) (state (fun _ p => p + 1) 0 2) ≠ id (state (fun _ p => p + 1) 0 3) := by decide

end

/-! ## C96 silence -/

section
variable {P L M : Type} (upd : Nat → P → P) (ev : Eval P L M)

/-- With `verbose=True` every epoch writes one line, numbered `1, …, n` of `n`. -/
theorem C96_verbose (o : Opt) (cbs : Option (List Callback)) (n : Nat) (p : P) (w : World L M) :
    (run upd ev o true cbs n p w).2.1.drawn = w.drawn ++ (values upd ev p n).zipIdx.map fun r => (1 + r.2, n, r.1.1, r.1.2) := by
  rw [← valuesFrom_one]
  exact (loop_spec upd ev (some n) cbs n 1 p w).2.2

/-- What does hold: an optimiser that never was used with `verbose=True` writes nothing in any sequence of silent fits. -/
theorem C96_silent_partial (calls : List Call) : ∀ (p : P) (w : World L M), (∀ c ∈ calls, c.verbose = false) →
    (runAll upd ev calls ⟨none⟩ p w).2.1.drawn = w.drawn := by
  induction calls with
  | nil => intro p w _; rfl
  | cons c cs ih =>
    intro p w hc
    have h1 := hc c (List.mem_cons_self ..)
    rw [runAll]
    have hb : (run upd ev ⟨none⟩ c.verbose c.cbs c.epochs p w).2.2 = ⟨none⟩ := by rw [h1]; rfl
    rw [hb, ih _ _ (fun c' h => hc c' (List.mem_cons_of_mem _ h))]
    have := (loop_spec upd ev none c.cbs c.epochs 1 p w).2.2
    rw [List.append_nil] at this
    rw [h1]
    exact this

/-- C96 fails after one verbose fit: each later fit with `verbose=False` still writes one line per epoch, and shows the number of
epochs of the *old* fit as the total. -/
theorem C96_violated (o : Opt) (cbs cbs' : Option (List Callback)) (n n' : Nat) (p : P) (w : World L M) :
    let r := run upd ev o true cbs n p w
    (run upd ev r.2.2 false cbs' n' r.1 r.2.1).2.1.drawn =
      r.2.1.drawn ++ (values upd ev r.1 n').zipIdx.map fun r => (1 + r.2, n, r.1.1, r.1.2) := by
  intro r
  rw [← valuesFrom_one]
  exact (loop_spec upd ev (some n) cbs' n' 1 r.1 r.2.1).2.2

end

/-! ## C55 the progress bar -/

theorem rounding_id : Rounding id := ⟨fun _ _ h => h, rfl, rfl, fun _ h => h⟩

theorem arrow_range {fl : ℚ → ℚ} (hf : Rounding fl) {n e : Nat} (he : 1 ≤ e) (hn : e ≤ n) :
    1 ≤ ⌈fl (fl ((e : ℚ) / n) * 25)⌉ ∧ ⌈fl (fl ((e : ℚ) / n) * 25)⌉ ≤ 25 := by
  have e0 : (0 : ℚ) < e := by exact_mod_cast he
  have n0 : (0 : ℚ) < n := lt_of_lt_of_le e0 (by exact_mod_cast hn)
  have h1 : 0 < fl (fl ((e : ℚ) / n) * 25) := hf.pos _ (mul_pos (hf.pos _ (div_pos e0 n0)) (by norm_num))
  have h2 : fl ((e : ℚ) / n) ≤ 1 := by
    have := hf.mono (show (e : ℚ) / n ≤ 1 by rw [div_le_one n0]; exact_mod_cast hn)
    rwa [hf.one] at this
  have h3 : fl (fl ((e : ℚ) / n) * 25) ≤ 25 := by
    have := hf.mono (show fl ((e : ℚ) / n) * 25 ≤ 25 by linarith)
    rwa [hf.twentyFive] at this
  exact ⟨Int.one_le_ceil_iff.2 h1, Int.ceil_le.2 (by exact_mod_cast h3)⟩

/-- The Python bar has exactly 25 cells for every epoch `1 ≤ e ≤ n`, whatever the rounding errors. -/
theorem C55_width {fl : ℚ → ℚ} (hf : Rounding fl) {n e : Nat} (he : 1 ≤ e) (hn : e ≤ n) : (drawBar fl n e).length = 25 := by
  unfold drawBar
  obtain ⟨h1, h2⟩ := arrow_range hf he hn
  split
  · simp
  · simp only [List.length_append, List.length_replicate, List.length_cons, List.length_nil]
    omega

theorem drawBar_filled (fl : ℚ → ℚ) (n e : Nat) : filled (drawBar fl n e) =
    if fl (n - fl (n / 25)) < (e : ℚ) then 25 else (⌈fl (fl ((e : ℚ) / n) * 25)⌉ - 1).toNat := by
  unfold drawBar filled
  split
  · simp
  · simp [List.count_append, List.count_replicate]

/-- The bar fills monotonically, whatever the rounding errors. -/
theorem C55_monotone {fl : ℚ → ℚ} (hf : Rounding fl) {n e e' : Nat} (he : 1 ≤ e) (hee : e ≤ e') (hn : e' ≤ n) :
    filled (drawBar fl n e) ≤ filled (drawBar fl n e') := by
  rw [drawBar_filled, drawBar_filled]
  have hq : (e : ℚ) ≤ e' := by exact_mod_cast hee
  have n0 : (0 : ℚ) ≤ n := Nat.cast_nonneg _
  obtain ⟨h1, h2⟩ := arrow_range hf he (hee.trans hn)
  split
  · rename_i h
    rw [if_pos (lt_of_lt_of_le h hq)]
  · split
    · omega
    · have h3 : fl ((e : ℚ) / n) ≤ fl ((e' : ℚ) / n) := hf.mono (div_le_div_of_nonneg_right hq n0)
      have h4 : fl (fl ((e : ℚ) / n) * 25) ≤ fl (fl ((e' : ℚ) / n) * 25) := hf.mono (mul_le_mul_of_nonneg_right h3 (by norm_num))
      have := Int.ceil_le_ceil h4
      omega

/-- In exact arithmetic the bar is full iff at most the last 25th of the epochs is left: `25 (n - e) < n`. -/
theorem C55_full_iff {n e : Nat} (he : 1 ≤ e) (hn : e ≤ n) : drawBar id n e = List.replicate 25 '=' ↔ 25 * (n - e) < n := by
  have key : ((id ((n : ℚ) - id ((n : ℚ) / 25))) < (e : ℚ)) ↔ 25 * (n - e) < n := by
    simp only [id]
    have : ((25 * (n - e) : ℕ) : ℚ) = 25 * ((n : ℚ) - e) := by rw [Nat.cast_mul, Nat.cast_sub hn]; norm_num
    rw [← Nat.cast_lt (α := ℚ), this]
    constructor <;> intro h <;> linarith
  rw [← key]
  constructor
  · intro h
    by_contra hc
    have h2 := drawBar_filled id n e
    rw [if_neg hc, h] at h2
    obtain ⟨h3, h4⟩ := arrow_range rounding_id he hn
    simp only [filled, List.count_replicate_self] at h2
    omega
  · intro h
    unfold drawBar
    rw [if_pos h]

/-- The bar of the last epoch is full. -/
theorem C55_last_full_partial {n : Nat} (hn : 1 ≤ n) : drawBar id n n = List.replicate 25 '=' :=
  (C55_full_iff hn le_rfl).2 (by omega)

/-- C55 fails in one point: with 26 or more epochs the bar is full already before the last epoch. -/
theorem C55_full_too_early {n : Nat} (hn : 26 ≤ n) : drawBar id n (n - 1) = List.replicate 25 '=' :=
  (C55_full_iff (by omega) (by omega)).2 (by omega)

/-- With at most 25 epochs the bar is full exactly at the last epoch. -/
theorem C55_full_exactly_last_partial {n e : Nat} (hn : n ≤ 25) (he : 1 ≤ e) (h : e ≤ n) :
    drawBar id n e = List.replicate 25 '=' ↔ e = n := by
  rw [C55_full_iff he h]
  omega

/-- The C++ bar does not move: for every epoch that is not among the last `n / 25` (and not the last) it is the same text of *26* cells. -/
theorem C55_cc_violated {n e : Nat} (he : e < n) (h : e ≤ n - n / 25) :
    drawBarCC n e = '>' :: List.replicate 25 '.' ∧ (drawBarCC n e).length = 26 := by
  have : drawBarCC n e = '>' :: List.replicate 25 '.' := by
    unfold drawBarCC
    rw [if_neg (by omega), Nat.div_eq_of_lt he]
    rfl
  exact ⟨this, by rw [this]; rfl⟩

/-- With fewer than 25 epochs the C++ bar is not full even at the last epoch. -/
theorem C55_cc_never_full {n : Nat} (h0 : 1 ≤ n) (hn : n < 25) : drawBarCC n n = List.replicate 24 '=' ++ ['>'] := by
  unfold drawBarCC
  rw [if_neg (by omega), Nat.div_self (by omega)]
  rfl

example : (1 : Nat) ≤ 7 ∧ 7 ≤ 25 ∧ drawBar id 25 7 = "======>..................".toList := by decide +kernel

/-! ## C97 the extra arguments of an optimiser -/

/-- No value is a string equal to one of the four parameter names. -/
def Plain {α : Type} (v : Val α) : Prop := ∀ s ∈ names, v ≠ .str s

theorem kwargs_foldl {α : Type} [DecidableEq α] (kwargs : List (String × Val α)) : ∀ (v : Val α),
    (∀ kv ∈ kwargs, kv.1 ∈ names ∧ Plain kv.2) → 
    (Plain v → kwargs.foldl (fun v kv => if v = .str kv.1 then kv.2 else v) v = v) ∧
    ∀ s ∈ names, v = .str s → kwargs.foldl (fun v kv => if v = .str kv.1 then kv.2 else v) v = (kwargs.lookup s).getD (.str s) := by
  induction kwargs with
  | nil => intro v _; exact ⟨fun _ => rfl, fun s _ h => h⟩
  | cons kv kvs ih =>
    intro v hp
    obtain ⟨k1, k2⟩ := hp kv (List.mem_cons_self ..)
    have hp' := fun kv h => hp kv (List.mem_cons_of_mem _ h)
    refine ⟨fun hv => ?_, fun s hs hv => ?_⟩
    · rw [List.foldl_cons, if_neg (hv _ k1)]
      exact (ih v hp').1 hv
    · subst hv
      rw [List.foldl_cons, List.lookup_cons]
      by_cases h : s = kv.1
      · subst h
        rw [if_pos rfl, (ih kv.2 hp').1 k2]
        simp
      · rw [if_neg (by simpa using h), (ih (.str s) hp').2 s hs rfl, show (s == kv.1) = false by simpa using h]

theorem foldl_map {α β : Type} (f : α → β → α) (ks : List β) : ∀ l : List α,
    ks.foldl (fun l k => l.map fun v => f v k) l = l.map fun v => ks.foldl f v := by
  induction ks with
  | nil => intro l; simp
  | cons k ks ih => intro l; rw [List.foldl_cons, ih, List.map_map]; rfl

/-- The four extra arguments are bound as in an ordinary Python call: a positional value goes to its slot, a keyword value to the
slot of its name — provided that only the four keywords are used and no value is itself a string that is one of the four names. -/
theorem C97_binding {α : Type} [DecidableEq α] (args : List (Val α)) (kwargs : List (String × Val α)) (hl : args.length ≤ 4)
    (ha : ∀ v ∈ args, Plain v) (hk : ∀ kv ∈ kwargs, kv.1 ∈ names ∧ Plain kv.2) :
    ∃ r, getParams args kwargs = .ok r ∧ r.length = 4 ∧ ∀ (i : Nat) (s : String), names[i]? = some s →
      r[i]? = some (match args[i]? with
        | some v => v
        | none => (kwargs.lookup s).getD (.str s)) := by
  refine ⟨_, by rw [getParams, if_neg (by omega)], ?_, ?_⟩
  · rw [foldl_map]
    simp [names]
    omega
  · intro i s hs
    have hi : i < 4 := by
      have := (List.getElem?_eq_some_iff.1 hs).1
      simpa [names] using this
    rw [foldl_map (fun (v : Val α) (kv : String × Val α) => if v = .str kv.1 then kv.2 else v), List.getElem?_map]
    by_cases h : i < args.length
    · rw [List.getElem?_append_left h, List.getElem?_eq_getElem h]
      simp only [Option.map_some]
      rw [(kwargs_foldl kwargs _ hk).1 (ha _ (List.getElem_mem h))]
    · rw [List.getElem?_append_right (by omega), List.getElem?_map, List.getElem?_drop, show args.length + (i - args.length) = i by omega, hs,
        List.getElem?_eq_none (by omega)]
      simp only [Option.map_some]
      rw [(kwargs_foldl kwargs _ hk).2 s (List.mem_of_getElem? hs) rfl]

/-- C97 fails for omitted arguments: instead of a default (`callbacks=None`, …) the slot holds the *name* of the parameter as a string.
In particular an optimiser called without `callbacks` takes the branch of line 184, `callbacks is not None`, in every epoch. -/
theorem C97_omitted {α : Type} [DecidableEq α] (args : List (Val α)) (hl : args.length ≤ 4) (i : Nat) (hi : args.length ≤ i) (s : String)
    (hs : names[i]? = some s) : ∃ r, getParams args [] = .ok r ∧ r[i]? = some (.str s) := by
  refine ⟨_, by rw [getParams, if_neg (by omega)], ?_⟩
  rw [List.foldl_nil, List.getElem?_append_right hi, List.getElem?_map, List.getElem?_drop, show args.length + (i - args.length) = i by omega, hs]
  rfl

/-- A positional value that is the string `'loss'` is overwritten by the keyword argument `loss`. -/
theorem C97_string_overwritten {α : Type} [DecidableEq α] (a : α) :
    getParams [Val.str "loss"] [("loss", .obj a)] = .ok [.obj a, .obj a, .str "metric", .str "callbacks"] := by
  simp [getParams, names]

/-- The call made by the models (four positional values) meets the hypotheses. -/
example : ∀ v ∈ [(Val.obj 1 : Val Nat), .str "mse", .obj 3, .obj 4], Plain v := by
  intro v hv
  simp only [List.mem_cons, List.not_mem_nil, or_false] at hv
  rcases hv with rfl | rfl | rfl | rfl <;> intro s hs <;> simp [names] at hs ⊢ <;> rcases hs with rfl | rfl | rfl | rfl <;> decide

/-- C97: more than four positional values raise `IndexError`. -/
theorem C97_too_many {α : Type} [DecidableEq α] (args : List (Val α)) (kwargs : List (String × Val α)) (h : 4 < args.length) :
    getParams args kwargs = .error .indexError := if_pos h

/-- The C++ bar is full exactly during the last `n / 25` epochs (integer division). -/
theorem C55_cc_full_iff {n e : Nat} (he : 1 ≤ e) (h : e ≤ n) : drawBarCC n e = List.replicate 25 '=' ↔ n - n / 25 < e := by
  constructor
  · intro hd
    by_contra hc
    unfold drawBarCC at hd
    rw [if_neg hc] at hd
    have : '>' ∈ List.replicate 25 '=' := by rw [← hd]; simp
    exact absurd (List.eq_of_mem_replicate this) (by decide)
  · intro hc
    unfold drawBarCC
    rw [if_pos hc]

end CML.Train
