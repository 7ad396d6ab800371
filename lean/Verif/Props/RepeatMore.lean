import Verif.Props.Repeat
import Verif.Props.SmallTrees
import Verif.Model.Bayes
import Verif.Model.Metrics
import Verif.Model.Preprocess
import Verif.Props.Bayes

set_option linter.unusedSectionVars false

/-! # Properties C258-C260: a training set given several times over, stumps, naive Bayes, metrics and scalers -/

namespace CML.Repeat

/-! ## Decision stumps -/

section stump
open CML.Small
variable {K : Type} [Field K] [LinearOrder K] [IsStrictOrderedRing K] {m : Nat}

theorem mistakes_times (r : Nat) (rule : (Fin m → K) → Int) (data : List ((Fin m → K) × Int)) : mistakes rule (times r data) = r * mistakes rule data := by
  unfold mistakes; rw [times_filter, times_length]

theorem twice_candidate : ∀ (l : List K), l.Pairwise (· ≤ ·) → ∀ a, 2 ≤ l.count a → a ∈ DTree.midpoints l
  | [], _, a, h => by simp at h
  | [c], _, a, h => by
    have : [c].count a ≤ 1 := List.count_le_length
    omega
  | c :: b :: l, hs, a, h => by
    have hp := List.pairwise_cons.1 hs
    have hp2 := List.pairwise_cons.1 hp.2
    rw [DTree.midpoints]
    by_cases hc : c = a
    · subst hc
      rw [List.count_cons_self] at h
      have hm : c ∈ b :: l := List.count_pos_iff.1 (by omega)
      have hb : b ≤ c := by
        rcases List.mem_cons.1 hm with h1 | h1
        · exact h1.ge
        · exact hp2.1 _ h1
      have : b = c := le_antisymm hb (hp.1 b (by simp))
      rw [this]; simp
    · rw [List.count_cons_of_ne hc] at h
      exact List.mem_cons_of_mem _ (twice_candidate (b :: l) hp.2 a h)

theorem value_candidate (r : Nat) (hr : 2 ≤ r) (col : List K) (a : K) (ha : a ∈ col) : a ∈ candidatePoints (times r col) := by
  refine twice_candidate _ (List.pairwise_insertionSort (· ≤ ·) _) a ?_
  rw [(List.perm_insertionSort (· ≤ ·) _).count_eq, times_count]
  exact Nat.le_trans hr (Nat.le_mul_of_pos_right _ (List.count_pos_iff.2 ha))

theorem exists_least (l : List K) (h : l ≠ []) : ∃ a ∈ l, ∀ b ∈ l, a ≤ b := by
  obtain ⟨a, ha, hmin⟩ := Finset.exists_min_image l.toFinset id (by obtain ⟨b, hb⟩ := List.exists_mem_of_ne_nil l h; exact ⟨b, by simpa using hb⟩)
  exact ⟨a, by simpa using ha, fun b hb => hmin b (by simpa using hb)⟩

/-- C258 (part): trained on two or more copies of a non-empty training set, a stump makes at most as many mistakes on it as any threshold
rule whatsoever - also those that put all samples on one side, which a stump trained on a single copy cannot express in general
(`C29_beats_every_threshold`). -/
theorem C258_copies_beat_every_rule_partial (r : Nat) (hr : 2 ≤ r) (data : List ((Fin m → K) × Int)) (hne : data ≠ []) (hm : 0 < m)
    (hy : ∀ q ∈ data, q.2 = 1 ∨ q.2 = -1) :
    ∃ s, stumpGenerate (times r data) = some s ∧ ∀ i t md, mistakes s.predict data ≤ mistakes (thresholdRule i t md) data := by
  have hr0 : r ≠ 0 := by omega
  have hyt : ∀ q ∈ times r data, q.2 = 1 ∨ q.2 = -1 := fun q hq => hy q ((mem_times r hr0 data q).1 hq)
  have hnet : times r data ≠ [] := fun h => hne ((times_eq_nil r hr0 _).1 h)
  have hlen : 2 ≤ (times r data).length := by
    rw [times_length]; exact Nat.le_trans hr (Nat.le_mul_of_pos_right _ (List.length_pos_of_ne_nil hne))
  obtain ⟨s, hs, hbeat⟩ := C29_beats_every_threshold (times r data) hlen hm hyt
  refine ⟨s, hs, fun i t md => ?_⟩
  have hscale : ∀ rule : (Fin m → K) → Int, mistakes s.predict (times r data) ≤ mistakes rule (times r data) → mistakes s.predict data ≤ mistakes rule data := by
    intro rule h
    rw [mistakes_times, mistakes_times] at h
    exact Nat.le_of_mul_le_mul_left h (by omega)
  -- the rules that put everything on one side
  have hconst : ∀ md, ∃ a, (∀ q ∈ data, a ≤ q.1 i) ∧ mistakes s.predict data ≤ mistakes (thresholdRule i a md) data := by
    intro md
    obtain ⟨a, ha, hmin⟩ := exists_least (data.map fun q => q.1 i) (by simpa using hne)
    refine ⟨a, fun q hq => hmin _ (List.mem_map.2 ⟨q, hq, rfl⟩), hscale _ ?_⟩
    have hcand : (⟨i, a, md⟩ : Stump K m) ∈ stumpCandidates (times r data) := by
      refine mem_stumpCandidates.2 ?_
      show a ∈ candidatePoints ((times r data).map fun q => q.1 i)
      rw [times_map]; exact value_candidate r hr _ a ha
    have hpos : (0 : K) < (times r data).length := by exact_mod_cast List.length_pos_of_ne_nil hnet
    unfold stumpGenerate at hs
    rcases bestStump_spec (fun s => s.error (times r data)) (stumpCandidates (times r data)) (⊤, none) with ⟨h', -⟩ | ⟨s', -, h', -, hmin'⟩
    · rw [h'] at hs; simp at hs
    · rw [h'] at hs
      obtain rfl := Option.some.inj hs
      have := hmin' _ hcand
      rw [stump_error _ _ hnet hyt, stump_error _ _ hnet hyt, WithTop.coe_le_coe, div_le_div_iff_of_pos_right hpos] at this
      have h3 : mistakes (thresholdRule i a md) (times r data) = mistakes (Stump.predict ⟨i, a, md⟩) (times r data) := by
        congr 1; funext r; exact (predict_eq_rule ⟨i, a, md⟩ r).symm
      rw [h3]
      exact_mod_cast this
  by_cases h1 : ∃ q ∈ data, q.1 i < t
  · by_cases h2 : ∃ q ∈ data, t ≤ q.1 i
    · refine hscale _ (hbeat i t md ?_ ?_)
      · obtain ⟨q, hq, h⟩ := h1; exact ⟨q, (mem_times r hr0 data q).2 hq, h⟩
      · obtain ⟨q, hq, h⟩ := h2; exact ⟨q, (mem_times r hr0 data q).2 hq, h⟩
    · push Not at h2
      obtain ⟨a, ha, h⟩ := hconst (match md with | .gte => .le | .le => .gte)
      refine h.trans (le_of_eq ?_)
      unfold mistakes
      congr 1
      refine List.filter_congr fun q hq => ?_
      have e1 := h2 q hq; have e2 := ha q hq
      cases md <;> simp [thresholdRule, e1, e2, not_le.2 e1, not_lt.2 e2]
  · push Not at h1
    obtain ⟨a, ha, h⟩ := hconst md
    refine h.trans (le_of_eq ?_)
    unfold mistakes
    congr 1
    refine List.filter_congr fun q hq => ?_
    have e1 := h1 q hq; have e2 := ha q hq
    cases md <;> simp [thresholdRule, e1, e2, not_lt.2 e1, not_lt.2 e2]

/-- C258 (part): hence the copies never make the stump worse on the training set. -/
theorem C258_never_worse_partial (r : Nat) (hr : 2 ≤ r) (data : List ((Fin m → K) × Int)) (hy : ∀ q ∈ data, q.2 = 1 ∨ q.2 = -1) (s : Stump K m)
    (hs : stumpGenerate data = some s) :
    ∃ s', stumpGenerate (times r data) = some s' ∧ mistakes s'.predict data ≤ mistakes s.predict data := by
  have hne : data ≠ [] := by
    rintro rfl
    have h : stumpCandidates ([] : List ((Fin m → K) × Int)) = [] := by
      rw [List.eq_nil_iff_forall_not_mem]; intro s hs
      have := mem_stumpCandidates.1 hs
      simp [candidatePoints, DTree.midpoints] at this
    simp [stumpGenerate, h, bestStump] at hs
  obtain ⟨s', h1, h2⟩ := C258_copies_beat_every_rule_partial r hr data hne s.feature.pos hy
  refine ⟨s', h1, ?_⟩
  rw [show s.predict = thresholdRule s.feature s.point s.mode from funext fun q => predict_eq_rule s q]
  exact h2 _ _ _

deriving instance DecidableEq for CML.Small.Stump

/-- C258 is false: two samples of the same class.  From one copy the stump gets one of them wrong; from two copies it gets both right.  And
a single sample trains nothing, while two copies of it train a stump. -/
theorem C258_stump_false :
    (∃ s s', stumpGenerate ([(fun _ => 0, -1), (fun _ => 1, -1)] : List ((Fin 1 → ℚ) × Int)) = some s ∧
      stumpGenerate (times 2 ([(fun _ => 0, -1), (fun _ => 1, -1)] : List ((Fin 1 → ℚ) × Int))) = some s' ∧
      s.predict (fun _ => 0) = 1 ∧ s'.predict (fun _ => 0) = -1) ∧
    stumpGenerate ([(fun _ => 0, -1)] : List ((Fin 1 → ℚ) × Int)) = none ∧
    ∃ s', stumpGenerate (times 2 ([(fun _ => 0, -1)] : List ((Fin 1 → ℚ) × Int))) = some s' := by
  refine ⟨⟨⟨0, 1 / 2, .gte⟩, ⟨0, 0, .gte⟩, ?_, ?_, by decide +kernel, by decide +kernel⟩, ?_, ⟨0, 0, .gte⟩, ?_⟩
  all_goals decide +kernel

example : (∀ q ∈ ([(fun _ => 0, -1), (fun _ => 1, 1), (fun _ => 3, -1)] : List ((Fin 1 → ℚ) × Int)), q.2 = 1 ∨ q.2 = -1) ∧
    (stumpGenerate ([(fun _ => 0, -1), (fun _ => 1, 1), (fun _ => 3, -1)] : List ((Fin 1 → ℚ) × Int))).isSome = true := by
  refine ⟨?_, by decide +kernel⟩
  intro q hq; simp at hq; rcases hq with rfl | rfl | rfl <;> simp

end stump

/-! ## Metrics and scalers -/

section metrics
open CML.Metrics CML.Prep
variable {K : Type} [Field K] [LinearOrder K] [IsStrictOrderedRing K]

theorem countP_times {α : Type*} (r : Nat) (p : α → Bool) (l : List α) : (times r l).countP p = r * l.countP p := by
  rw [List.countP_eq_length_filter, times_filter, times_length, List.countP_eq_length_filter]

/-- C260: an accuracy is the same on `r ≥ 1` copies of the predictions and labels... -/
theorem C260_binary_accuracy (r : Nat) (hr : r ≠ 0) (pred : List K) (y : List Int) (h : pred.length = y.length) :
    binaryAccuracy (times r pred) (times r y) = binaryAccuracy pred y := by
  have hr' : (r : K) ≠ 0 := by exact_mod_cast hr
  unfold binaryAccuracy
  rw [times_zip r pred y h, countP_times, times_length]
  by_cases h0 : pred.length = 0
  · rw [if_pos h0, if_pos (by rw [h0, mul_zero])]
  · rw [if_neg h0, if_neg (Nat.mul_ne_zero hr h0)]
    push_cast
    rw [← mul_sub, mul_div_mul_left _ _ hr']

theorem mapM_times {α β : Type} (r : Nat) (hr : r ≠ 0) (f : α → Option β) (l : List α) : (times r l).mapM f = (l.mapM f).map (times r) := by
  obtain ⟨r, rfl⟩ := Nat.exists_eq_succ_of_ne_zero hr
  clear hr
  induction r with
  | zero =>
    rw [show times (0 + 1) l = l from by simp [times]]
    cases l.mapM f with
    | none => rfl
    | some k => show some k = some (times 1 k); simp [times]
  | succ r ih =>
    rw [times_succ (r + 1) l, List.mapM_append, ih]
    cases l.mapM f with
    | none => rfl
    | some k => show some (k ++ times (r + 1) k) = some (times (r + 1 + 1) k); rw [← times_succ]

theorem C260_categorical_accuracy (r : Nat) (hr : r ≠ 0) (pred tr : List (List K)) (h : pred.length = tr.length) :
    categoricalAccuracy (times r pred) (times r tr) = categoricalAccuracy pred tr := by
  have hr' : (r : K) ≠ 0 := by exact_mod_cast hr
  unfold categoricalAccuracy argmaxRows
  rw [mapM_times r hr, mapM_times r hr]
  cases hp : pred.mapM argmax? with
  | none => rfl
  | some p =>
    cases ht : tr.mapM argmax? with
    | none => rfl
    | some t =>
      have e : p.length = t.length := by rw [(KMeans.mapM_some _ _ hp).1, (KMeans.mapM_some _ _ ht).1, h]
      simp only [Option.map_some, times_length, e, if_true]
      rw [times_zip r p t e, times_length, countP_times]
      by_cases h0 : (p.zip t).length = 0
      · rw [if_pos h0, if_pos (by rw [h0, mul_zero])]
      · rw [if_neg h0, if_neg (Nat.mul_ne_zero hr h0)]
        push_cast
        rw [mul_div_mul_left _ _ hr']

theorem mean_times (r : Nat) (hr : r ≠ 0) (x : List K) : Prep.mean (times r x) = Prep.mean x := by
  have hr' : (r : K) ≠ 0 := by exact_mod_cast hr
  unfold Prep.mean npDiv
  rw [times_sum, times_length]
  push_cast
  by_cases h0 : (x.length : K) = 0
  · rw [if_pos h0, if_pos (by rw [h0, mul_zero])]
  · rw [if_neg h0, if_neg (mul_ne_zero hr' h0), mul_div_mul_left _ _ hr']

theorem var_times (r : Nat) (hr : r ≠ 0) (x : List K) : Prep.var (times r x) = Prep.var x := by
  unfold Prep.var
  rw [mean_times r hr]
  cases Prep.mean x with
  | none => rfl
  | some m => simp only [Option.bind_some, times_map, mean_times r hr]

/-- ... and a scaler applied to `r ≥ 1` copies of a column stores the same statistics and gives `r` copies of the scaled column. -/
theorem C260_standard (r : Nat) (hr : r ≠ 0) (x : List K) :
    standardCall (times r x) = ((standardCall x).1, times r (standardCall x).2) := by
  unfold standardCall
  rw [mean_times r hr, var_times r hr, times_map]

theorem min?_times (r : Nat) (hr : r ≠ 0) (x : List K) : (times r x).min? = x.min? := by
  cases h : x.min? with
  | none => rw [List.min?_eq_none_iff] at h; subst h; rw [(times_eq_nil r hr _).2 rfl]; rfl
  | some a =>
    rw [List.min?_eq_some_iff] at h ⊢
    exact ⟨(mem_times r hr x a).2 h.1, fun b hb => h.2 b ((mem_times r hr x b).1 hb)⟩

theorem max?_times (r : Nat) (hr : r ≠ 0) (x : List K) : (times r x).max? = x.max? := by
  cases h : x.max? with
  | none => rw [List.max?_eq_none_iff] at h; subst h; rw [(times_eq_nil r hr _).2 rfl]; rfl
  | some a =>
    rw [List.max?_eq_some_iff] at h ⊢
    exact ⟨(mem_times r hr x a).2 h.1, fun b hb => h.2 b ((mem_times r hr x b).1 hb)⟩

theorem C260_min_max (r : Nat) (hr : r ≠ 0) (x : List K) :
    minMaxCall (times r x) = (minMaxCall x).map fun p => (p.1, times r p.2) := by
  unfold minMaxCall
  rw [min?_times r hr, max?_times r hr]
  cases x.min? <;> cases x.max? <;> simp [times_map, Except.map]

end metrics

/-! ## Naive Bayes -/

section bayes
open CML.Bayes
variable {V : Type} [DecidableEq V]

/-- A column given `r` times. -/
def colTimes (r : Nat) : Col V → Col V
  | .disc l => .disc (times r l)
  | .cont l => .cont (times r l)

/-- The number of entries of a column. -/
def colLen : Col V → Nat
  | .disc l => l.length
  | .cont l => l.length

/-- Stored information with `r` times the counts. -/
def storedTimes (r : Nat) : Stored V → Stored V
  | .cont mv => .cont mv
  | .disc counts total num => .disc (counts.map fun q => (q.1, r * q.2)) (r * total) num

theorem select_times {α : Type*} (r : Nat) (y : List Int) (c : Int) (l : List α) (h : l.length = y.length) :
    select (times r y) c (times r l) = times r (select y c l) := by
  unfold select; rw [times_zip r l y h, times_filter, times_map]

theorem meanVar_times (r : Nat) (hr : r ≠ 0) (l : List ℝ) : meanVar (times r l) = meanVar l := by
  have hr' : (r : ℝ) ≠ 0 := by exact_mod_cast hr
  have e : ∀ k : List ℝ, (times r k).sum / ((r * l.length : Nat) : ℝ) = k.sum / l.length := fun k => by
    rw [times_sum]; push_cast; exact mul_div_mul_left _ _ hr'
  unfold meanVar
  by_cases h : l = []
  · rw [if_pos h, if_pos ((times_eq_nil r hr l).2 h)]
  · rw [if_neg h, if_neg (fun h' => h ((times_eq_nil r hr l).1 h'))]
    simp only [times_length, e, times_map]

theorem zip_scale {α : Type*} (r : Nat) (a : List V) (b : List α) (f : α → Nat) :
    a.zip (b.map fun v => r * f v) = (a.zip (b.map f)).map fun q => (q.1, r * q.2) := by
  rw [List.zip_map_right, List.zip_map_right, List.map_map]
  exact List.map_congr_left fun q _ => rfl

theorem nbColumn_times (r : Nat) (hr : r ≠ 0) (order : List V → List V) (ho : ∀ l, order (times r l) = order l) (y : List Int) (c : Int)
    (col : Col V) (h : colLen col = y.length) : nbColumn order (times r y) c (colTimes r col) = (nbColumn order y c col).map (storedTimes r) := by
  cases col with
  | cont l =>
    show Except.ok _ = Except.ok _
    rw [select_times r y c l h, meanVar_times r hr]; rfl
  | disc l =>
    simp only [nbColumn, colTimes, pyUnique_times r hr]
    by_cases h1 : (pyUnique l).length = 1
    · rw [if_pos h1, if_pos h1]; rfl
    · rw [if_neg h1, if_neg h1, select_times r y c l h]
      simp only [nbCounts, Except.map, storedTimes, ho, pyUnique_times r hr, times_count, times_length]
      congr 2
      exact zip_scale r (order l) (pyUnique l) _

theorem lookup_scale (r : Nat) (v : V) : ∀ l : List (V × Nat), (l.map fun q => (q.1, r * q.2)).lookup v = (l.lookup v).map (r * ·)
  | [] => rfl
  | (a, b) :: l => by
    simp only [List.map_cons, List.lookup_cons]
    cases v == a with
    | true => rfl
    | false => exact lookup_scale r v l

theorem ratioN (r : Nat) (hr : r ≠ 0) (a b : Nat) : ratio (r * a) (r * b) = ratio a b := by
  unfold ratio; push_cast; exact mul_div_mul_left _ _ (by exact_mod_cast hr)

theorem factor_times (r : Nat) (hr : r ≠ 0) (fl : ℝ → ℝ) (s : Stored V) (x : Cell V) : factor fl false (storedTimes r s) x = factor fl false s x := by
  rcases s with mv | ⟨counts, total, num⟩
  · rfl
  · cases x with
    | cont _ => rfl
    | disc v =>
      simp only [storedTimes, factor, lookup_scale]
      cases counts.lookup v with
      | none => rfl
      | some a =>
        simp only [Option.map_some, condProb, Bool.false_eq_true, if_false]
        by_cases h : total = 0
        · rw [if_pos h, if_pos (by rw [h, mul_zero])]
        · rw [if_neg h, if_neg (Nat.mul_ne_zero hr h), ratioN r hr]

theorem factors_times (r : Nat) (hr : r ≠ 0) (fl : ℝ → ℝ) : ∀ (ss : List (Stored V)) (xs : List (Cell V)),
    factors fl false (ss.map (storedTimes r)) xs = factors fl false ss xs
  | [], _ => rfl
  | _ :: _, [] => rfl
  | s :: ss, x :: xs => by simp only [List.map_cons, factors, factor_times r hr, factors_times r hr fl ss xs]

theorem mapM_columns (r : Nat) (hr : r ≠ 0) (order : List V → List V) (ho : ∀ l, order (times r l) = order l) (y : List Int) (c : Int) :
    ∀ cols : List (Col V), (∀ col ∈ cols, colLen col = y.length) →
      (cols.map (colTimes r)).mapM (nbColumn order (times r y) c) = (cols.mapM (nbColumn order y c)).map (List.map (storedTimes r))
  | [], _ => rfl
  | col :: cols, h => by
    rw [List.map_cons, List.mapM_cons, List.mapM_cons, nbColumn_times r hr order ho y c col (h col (by simp)),
      mapM_columns r hr order ho y c cols fun k hk => h k (by simp [hk])]
    cases nbColumn order y c col with
    | error _ => rfl
    | ok s => cases cols.mapM (nbColumn order y c) <;> rfl

theorem prior_times (r : Nat) (hr : r ≠ 0) (y : List Int) : prior (times r y).length (times r y) false = prior y.length y false := by
  simp only [prior, Bool.false_eq_true, if_false, times_length, times_count]
  by_cases h : y.length = 0
  · rw [if_pos h, if_pos (by rw [h, mul_zero])]
  · rw [if_neg h, if_neg (Nat.mul_ne_zero hr h), ratioN r hr]

/-- C259 (without smoothing): `r ≥ 1` copies of the training set give a classifier that answers every row as the one trained on a single
copy does, or the same exception.  `order` is the order in which `pd.value_counts` lists the values. -/
theorem C259_unsmoothed_partial (r : Nat) (hr : r ≠ 0) (order : List V → List V) (ho : ∀ l, order (times r l) = order l) (fl : ℝ → ℝ)
    (cols : List (Col V)) (y : List Int) (h : ∀ col ∈ cols, colLen col = y.length) :
    (nbFit order (cols.map (colTimes r)) (times r y) false).map (nbPredict fl false) = (nbFit order cols y false).map (nbPredict fl false) := by
  simp only [nbFit, prior_times r hr, mapM_columns r hr order ho y _ cols h]
  cases prior y.length y false with
  | error _ => rfl
  | ok p =>
    cases h0 : cols.mapM (nbColumn order y 0) with
    | error _ => cases cols.mapM (nbColumn order y 1) <;> rfl
    | ok a =>
      cases h1 : cols.mapM (nbColumn order y 1) with
      | error _ => rfl
      | ok b =>
        simp only [Except.map]
        congr 1
        funext x
        simp only [nbPredict, factors_times r hr]

/-- C259: with smoothing, the estimate of a conditional probability is the same for several copies exactly when the value has the uniform
share of its class: with `num` possible values, `a · num = c`. -/
theorem C259_smoothed_iff (r : Nat) (hr : 2 ≤ r) (a c num : Nat) (hn : 0 < num) :
    condProb (r * a) (r * c) num true = condProb a c num true ↔ a * num = c := by
  simp only [condProb, if_true]
  rw [if_neg (by omega), if_neg (by omega), Option.some.injEq]
  unfold ratio
  have h1 : ((r * c + num : Nat) : ℝ) ≠ 0 := by exact_mod_cast (by omega : r * c + num ≠ 0)
  have h2 : ((c + num : Nat) : ℝ) ≠ 0 := by exact_mod_cast (by omega : c + num ≠ 0)
  have hr1 : (r : ℝ) - 1 ≠ 0 := by
    have : (2 : ℝ) ≤ r := by exact_mod_cast hr
    linarith
  rw [div_eq_div_iff h1 h2]
  push_cast
  constructor
  · intro h
    have : ((r : ℝ) - 1) * ((a : ℝ) * num - c) = 0 := by linear_combination h
    have := (mul_eq_zero.1 this).resolve_left hr1
    exact_mod_cast (by linarith : (a : ℝ) * num = c)
  · intro h
    have : (a : ℝ) * num = c := by exact_mod_cast h
    linear_combination ((r : ℝ) - 1) * this

/-- C259 is false with smoothing: five samples with two attributes.  Trained on them the classifier answers 1 for the row ("t", "t"); trained on
four copies it answers 0. -/
theorem C259_smoothed_false (fl : ℝ → ℝ) (order : List String → List String)
    (ho : ∀ r ∈ [1, 4], order (times r ["f", "t", "t", "f", "f"]) = ["f", "t"] ∧ order (times r ["t", "t", "t", "t", "f"]) = ["t", "f"]) :
    ∃ m m', nbFit order [.disc ["f", "t", "t", "f", "f"], .disc ["t", "t", "t", "t", "f"]] [1, 0, 1, 1, 1] true = .ok m ∧
      nbFit order [.disc (times 4 ["f", "t", "t", "f", "f"]), .disc (times 4 ["t", "t", "t", "t", "f"])] (times 4 [1, 0, 1, 1, 1]) true = .ok m' ∧
      nbPredict fl true m [.disc "t", .disc "t"] = .ok 1 ∧ nbPredict fl true m' [.disc "t", .disc "t"] = .ok 0 := by
  have hc : ∀ c, [Col.disc ["f", "t", "t", "f", "f"], .disc ["t", "t", "t", "t", "f"]].mapM (nbColumn order [1, 0, 1, 1, 1] c) =
      .ok [Stored.disc (nbCounts order ["f", "t", "t", "f", "f"] (select [1, 0, 1, 1, 1] c ["f", "t", "t", "f", "f"]))
        (select [1, 0, 1, 1, 1] c ["f", "t", "t", "f", "f"]).length 2, Stored.disc (nbCounts order ["t", "t", "t", "t", "f"] (select [1, 0, 1, 1, 1] c ["t", "t", "t", "t", "f"]))
        (select [1, 0, 1, 1, 1] c ["t", "t", "t", "t", "f"]).length 2] := fun c => rfl
  have hc' : ∀ c, [Col.disc (times 4 ["f", "t", "t", "f", "f"]), .disc (times 4 ["t", "t", "t", "t", "f"])].mapM (nbColumn order (times 4 [1, 0, 1, 1, 1]) c) =
      .ok [Stored.disc (nbCounts order (times 4 ["f", "t", "t", "f", "f"]) (select (times 4 [1, 0, 1, 1, 1]) c (times 4 ["f", "t", "t", "f", "f"])))
        (select (times 4 [1, 0, 1, 1, 1]) c (times 4 ["f", "t", "t", "f", "f"])).length 2, Stored.disc (nbCounts order (times 4 ["t", "t", "t", "t", "f"]) (select (times 4 [1, 0, 1, 1, 1]) c (times 4 ["t", "t", "t", "t", "f"])))
        (select (times 4 [1, 0, 1, 1, 1]) c (times 4 ["t", "t", "t", "t", "f"])).length 2] := fun c => rfl
  obtain ⟨ho1, ho2⟩ := ho 1 (by simp)
  obtain ⟨ho3, ho4⟩ := ho 4 (by simp)
  rw [show times 1 ["f", "t", "t", "f", "f"] = ["f", "t", "t", "f", "f"] from rfl] at ho1
  rw [show times 1 ["t", "t", "t", "t", "f"] = ["t", "t", "t", "t", "f"] from rfl] at ho2
  have hp := C37_laplace_partial [1, 0, 1, 1, 1] (by decide) (by decide) (by decide)
  have hp' := C37_laplace_partial (times 4 [1, 0, 1, 1, 1]) (by decide) (by decide) (by decide)
  refine ⟨_, _, by unfold nbFit; rw [hp, hc, hc], by unfold nbFit; rw [hp', hc', hc'], ?_, ?_⟩
  · rw [C42_label_partial fl true _ _ [ratio 2 3, ratio 2 3] [ratio 2 6, ratio 4 6] (by simp only [nbCounts, ho1, ho2]; rfl) (by simp only [nbCounts, ho1, ho2]; rfl)
      (by norm_num [classSize]) (by norm_num [classSize]) (by simp [ratio_nonneg]) (by simp [ratio_nonneg]), if_neg]
    norm_num [classSize, ratio]
  · rw [C42_label_partial fl true _ _ [ratio 5 6, ratio 5 6] [ratio 5 18, ratio 13 18] (by simp only [nbCounts, ho3, ho4]; rfl) (by simp only [nbCounts, ho3, ho4]; rfl)
      (by norm_num [classSize, times]) (by norm_num [classSize, times]) (by simp [ratio_nonneg]) (by simp [ratio_nonneg]), if_pos]
    norm_num [classSize, ratio, times]

/-- An order of the values that does not see the copies. -/
example (r : Nat) (hr : r ≠ 0) : ∀ l : List V, pyUnique (times r l) = pyUnique l := fun l => pyUnique_times r hr l

end bayes

end CML.Repeat
