import Verif.Props.Dispatch
import Verif.Model.Ops

/-!
# C216-C219: clipping, bootstrap, Bayes prediction and NumPy integers on the C++ engine
-/

set_option linter.unusedSectionVars false
set_option linter.unusedSimpArgs false

namespace CML.Disp

/-! ### C216: clipping in single precision -/

section Clip
variable {K : Type} [LinearOrder K]

theorem clipThrough_eq (rnd : K → K) (alpha low high : K) :
    clipThrough rnd alpha low high =
      if rnd high < rnd alpha then rnd high
      else if rnd alpha < rnd low then rnd low
      else rnd alpha := by
  unfold clipThrough Ops.ccClipAlpha
  simp only [gt_iff_lt]
  split_ifs <;> rfl

/-- **C216** (what the C++ engine computes).  For a non-empty interval, clipping through an overload
that rounds is the Python result rounded. -/
theorem C216_rounded (rnd : K → K) (hm : Monotone rnd) (alpha low high : K) (h : low ≤ high) :
    clipThrough rnd alpha low high = rnd (Ops.clipAlpha alpha low high) := by
  rw [clipThrough_eq]
  unfold Ops.clipAlpha
  by_cases h1 : high < alpha
  · rw [if_pos h1]
    by_cases h2 : rnd high < rnd alpha
    · rw [if_pos h2]
    · have h3 : rnd alpha = rnd high := le_antisymm (not_lt.mp h2) (hm h1.le)
      have h4 : ¬ rnd alpha < rnd low := by rw [h3]; exact not_lt.mpr (hm h)
      rw [if_neg h2, if_neg h4, h3]
  · rw [if_neg h1, if_neg (not_lt.mpr (hm (not_lt.mp h1)))]
    by_cases h2 : alpha < low
    · rw [if_pos h2]
      by_cases h3 : rnd alpha < rnd low
      · rw [if_pos h3]
      · rw [if_neg h3]; exact le_antisymm (hm h2.le) (not_lt.mp h3)
    · rw [if_neg h2, if_neg (not_lt.mpr (hm (not_lt.mp h2)))]

/-- **C216** (exactly when the box holds).  Whatever multiplier comes in, the clipped multiplier lies
in `[low, high]` if and only if rounding moves neither bound outwards. -/
theorem C216_box_iff (rnd : K → K) (hm : Monotone rnd) (low high : K) (h : low ≤ high) :
    (∀ alpha, low ≤ clipThrough rnd alpha low high ∧ clipThrough rnd alpha low high ≤ high) ↔
      low ≤ rnd low ∧ rnd high ≤ high := by
  constructor
  · intro H
    have a := (H low).1
    have b := (H high).2
    rw [C216_rounded rnd hm _ _ _ h] at a b
    have e1 : Ops.clipAlpha low low high = low := by
      unfold Ops.clipAlpha; rw [if_neg (not_lt.mpr h), if_neg (lt_irrefl _)]
    have e2 : Ops.clipAlpha high low high = high := by
      unfold Ops.clipAlpha; rw [if_neg (lt_irrefl _), if_neg (not_lt.mpr h)]
    rw [e1] at a
    rw [e2] at b
    exact ⟨a, b⟩
  · rintro ⟨hl, hh⟩ alpha
    rw [C216_rounded rnd hm _ _ _ h]
    have h1 : low ≤ Ops.clipAlpha alpha low high := by
      unfold Ops.clipAlpha
      split_ifs with p q
      · exact h
      · exact le_rfl
      · exact not_lt.mp q
    have h2 : Ops.clipAlpha alpha low high ≤ high := by
      unfold Ops.clipAlpha
      split_ifs with p q
      · exact le_rfl
      · exact h
      · exact not_lt.mp p
    exact ⟨hl.trans (hm h1), (hm h2).trans hh⟩

/-- **C216** (partial: bounds that single precision represents).  Then the clipped multiplier is in the
box. -/
theorem C216_box_partial (rnd : K → K) (hm : Monotone rnd) (alpha low high : K) (h : low ≤ high)
    (hl : rnd low = low) (hh : rnd high = high) :
    low ≤ clipThrough rnd alpha low high ∧ clipThrough rnd alpha low high ≤ high :=
  (C216_box_iff rnd hm low high h).mpr ⟨hl.ge, hh.le⟩ alpha

end Clip

/-- Rounding to the nearest multiple of 2⁻²⁷, which on [1/16, 1/8) is rounding to single precision. -/
def toSingle (x : ℚ) : ℚ := ⌊x * 134217728 + 1 / 2⌋ / 134217728

theorem toSingle_mono : Monotone toSingle := by
  intro x y h
  unfold toSingle
  have : ⌊x * 134217728 + 1 / 2⌋ ≤ ⌊y * 134217728 + 1 / 2⌋ := Int.floor_le_floor (by linarith)
  have h' : ((⌊x * 134217728 + 1 / 2⌋ : ℤ) : ℚ) ≤ ((⌊y * 134217728 + 1 / 2⌋ : ℤ) : ℚ) := by
    exact_mod_cast this
  exact div_le_div_of_nonneg_right h' (by norm_num)

/-- **C216** fails for '64-bit': with `C = 0.1` every multiplier of at least `C` comes out of the
clipping call as 13421773/2²⁷ > 0.1, above the upper bound of the box. -/
theorem C216_violated (idx : Bool) (at' : DT) (alpha : ℚ) (ha : 1 / 10 ≤ alpha) :
    Runs ((Site.smoClip at').run idx .double) .single ∧
    clipThrough toSingle alpha 0 (1 / 10) = 13421773 / 134217728 ∧
    (1 / 10 : ℚ) < clipThrough toSingle alpha 0 (1 / 10) := by
  have e : clipThrough toSingle alpha 0 (1 / 10) = 13421773 / 134217728 := by
    rw [C216_rounded _ toSingle_mono _ _ _ (by norm_num)]
    have : Ops.clipAlpha alpha 0 (1 / 10 : ℚ) = 1 / 10 := by
      unfold Ops.clipAlpha
      split_ifs with p q
      · rfl
      · linarith
      · linarith
    rw [this]
    unfold toSingle
    norm_num
  refine ⟨C214_rest_single idx _ trivial id id, e, ?_⟩
  rw [e]; norm_num

/-- `C = 1` is represented. -/
example : toSingle 0 = 0 ∧ toSingle 1 = 1 := by unfold toSingle; norm_num

/-! ### C217: the labels of a bootstrap sample -/

/-- **C217** (exactly when the labels come back).  For float data of width `w` and a documented seed,
`bootstrap_sampling` runs in the precision of the data, and returns the labels along with them if and
only if the labels are an array of floats or integers of the same width. -/
theorem C217_labels_iff (idx : Bool) (w : Width) (shape : List Nat) (z : Int) (y seed : Arg)
    (hx : OneOrTwoAxes shape) (hs : seed.IsSeed) :
    ∃ o, dispatch idx bootstrapSampling [.array w.float shape z, y, seed] = .ok o ∧
      o.width = w ∧ (o.labels = true ↔ y.IsLabels w) := by
  have hseed : ∀ c, accepts idx c .optUint32 seed = true := by
    intro c
    cases seed <;> simp_all [Arg.IsSeed, accepts, integer, inRange_unsigned]
  by_cases hy : ∃ dt sh v, y = .array dt sh v
  · obtain ⟨dt, sh, v, rfl⟩ := hy
    rcases shape_cases hx with ⟨p, rfl⟩ | ⟨p, q, rfl⟩ <;>
      rcases sh with _ | ⟨r, _ | ⟨c, _ | ⟨e, l⟩⟩⟩ <;> cases w <;> cases dt <;>
        simp [dispatch, bootstrapSampling, List.find?, Overload.takes, fits, r_mat_arr, Width.float,
          Width.int, hseed, shapeFits, r_object, Arg.IsLabels, OneOrTwoAxes]
  · have hm : ∀ dt, accepts idx false (.mat dt) y = false := by
      intro dt
      cases y <;> first | rfl | exact absurd ⟨_, _, _, rfl⟩ hy
    have hl : ¬ y.IsLabels w := by
      intro h
      cases y <;> first | exact h | exact hy ⟨_, _, _, rfl⟩
    rcases shape_cases hx with ⟨p, rfl⟩ | ⟨p, q, rfl⟩ <;> cases w <;>
      simp [dispatch, bootstrapSampling, List.find?, Overload.takes, fits, r_mat_arr, Width.float,
        hseed, shapeFits, r_object, hm, hl]

/-- **C217** (the call of the bagging classifier).  Data and labels at the configured types: the
labels come back, in both precisions. -/
theorem C217_bagging (idx : Bool) (w : Width) (n d seed : Nat) (hs : seed < 4294967296) :
    ∃ o, (Site.bagging n d seed).run idx w = .ok o ∧ o.width = w ∧ o.labels = true := by
  obtain ⟨o, h1, h2, h3⟩ := C217_labels_iff idx w [n, d] 0 (.array w.int [n] 0) (.pyInt seed)
    (Or.inr rfl) ⟨by omega, by omega⟩
  exact ⟨o, h1, h2, h3.mpr ⟨Or.inr rfl, Or.inl rfl⟩⟩

/-- **C217** fails: labels as a list, as integers of the other width or as floats of the other width
are silently dropped, whatever their number. -/
theorem C217_violated (idx : Bool) (n d k : Nat) (seed : Arg) (hs : seed.IsSeed) :
    (∃ o, dispatch idx bootstrapSampling [.array .f64 [n, d] 0, .list k [], seed] = .ok o ∧
      o.labels = false) ∧
    (∃ o, dispatch idx bootstrapSampling [.array .f64 [n, d] 0, .array .i32 [k] 0, seed] = .ok o ∧
      o.labels = false) ∧
    (∃ o, dispatch idx bootstrapSampling [.array .f32 [n, d] 0, .array .i64 [k] 0, seed] = .ok o ∧
      o.labels = false) ∧
    (∃ o, dispatch idx bootstrapSampling [.array .f32 [n, d] 0, .array .f64 [k] 0, seed] = .ok o ∧
      o.labels = false) := by
  refine ⟨?_, ?_, ?_, ?_⟩
  · obtain ⟨o, h, _, h'⟩ := C217_labels_iff idx .double [n, d] 0 (.list k []) seed (Or.inr rfl) hs
    exact ⟨o, h, by rw [← Bool.not_eq_true, h']; exact id⟩
  · obtain ⟨o, h, _, h'⟩ :=
      C217_labels_iff idx .double [n, d] 0 (.array .i32 [k] 0) seed (Or.inr rfl) hs
    exact ⟨o, h, by rw [← Bool.not_eq_true, h']; simp [Arg.IsLabels, Width.float, Width.int]⟩
  · obtain ⟨o, h, _, h'⟩ :=
      C217_labels_iff idx .single [n, d] 0 (.array .i64 [k] 0) seed (Or.inr rfl) hs
    exact ⟨o, h, by rw [← Bool.not_eq_true, h']; simp [Arg.IsLabels, Width.float, Width.int]⟩
  · obtain ⟨o, h, _, h'⟩ :=
      C217_labels_iff idx .single [n, d] 0 (.array .f64 [k] 0) seed (Or.inr rfl) hs
    exact ⟨o, h, by rw [← Bool.not_eq_true, h']; simp [Arg.IsLabels, Width.float, Width.int]⟩

example : (Arg.pyInt 7).IsSeed ∧ Arg.none.IsSeed := ⟨⟨by norm_num, by norm_num⟩, trivial⟩

/-! ### C218: predicting with discrete attributes -/

/-- **C218** fails for '64-bit': the call that scores a discrete attribute for the naive Bayes
classifier is a `TypeError`, whatever the counts and the Python version. -/
theorem C218_violated (idx : Bool) (dcx dc n : Nat) :
    (Site.nbConditional dcx dc n).run idx .double = .error .typeError := by
  simp [Site.run, Site.table, Site.args, dispatch, threeCounts, List.find?, Overload.takes, fits,
    Width.float, r_np_sc, r_np_int, r_u32_f64]

/-- **C218** (partial: '32-bit', and the one-dependent estimators in both precisions).  These calls
run. -/
theorem C218_partial (idx : Bool) (w : Width) (dcx dc n : Nat) (h1 : dcx < 4294967296)
    (h2 : dc < 4294967296) (h3 : n < 4294967296) :
    Runs ((Site.nbConditional dcx dc n).run idx .single) .single ∧
    Runs ((Site.spodePrior dcx dc n).run idx w) .single ∧
    Runs ((Site.spodeConditional dcx dc n).run idx w) .single := by
  have hu : dcx < 4294967296 ∧ dc < 4294967296 ∧ n < 4294967296 := ⟨h1, h2, h3⟩
  refine ⟨C214_single_everywhere idx _ hu, ?_, ?_⟩
  · cases w
    · exact C214_single_everywhere idx _ hu
    · exact C214_rest_single idx _ hu id id
  · cases w
    · exact C214_single_everywhere idx _ hu
    · exact C214_rest_single idx _ hu id id

/-! ### C219: NumPy integers -/

theorem accepts_version (c : Bool) (f : Formal) (a : Arg) (h : a.NoNumpyInteger) :
    accepts true c f a = accepts false c f a := by
  have key : ∀ lo hi, integer true c lo hi a = integer false c lo hi a := by
    intro lo hi
    cases a with
    | npScalar dt z =>
        rcases h with h | h <;> subst h <;> rfl
    | array dt shape z =>
        cases shape with
        | nil => exact absurd rfl h
        | cons n l => simp [integer]
    | _ => rfl
  cases f with
  | np dt => cases a <;> rfl
  | float => rfl
  | uint32 => exact key _ _
  | uint64 => exact key _ _
  | int32 => rfl
  | mat dt => rfl
  | vec dt => rfl
  | row dt => rfl
  | tensor dt => rfl
  | boolean => rfl
  | string => cases a <;> rfl
  | object => rfl
  | optUint32 =>
      cases a with
      | none => rfl
      | _ => simp only [accepts]; exact key _ _

/-- **C219** (partial: no NumPy integers).  Which overload runs does not depend on the version of
Python. -/
theorem C219_version_partial (t : List Overload) (args : List Arg)
    (h : ∀ a ∈ args, a.NoNumpyInteger) : dispatch true t args = dispatch false t args := by
  have key : ∀ (c v : Bool) (fs : List Formal) (args : List Arg),
      (∀ a ∈ args, a.NoNumpyInteger) → fits true c v fs args = fits false c v fs args := by
    intro c v fs
    induction fs with
    | nil => intro args _; cases args <;> rfl
    | cons f fs ih =>
        intro args h
        cases args with
        | nil => rfl
        | cons a as =>
            simp only [fits]
            rw [accepts_version c f a (h a (by simp)), ih as (fun b hb => h b (by simp [hb]))]
  have hk : ∀ c, Overload.takes true c args = Overload.takes false c args := by
    intro c; funext o; exact key c o.variadic o.formals args h
  unfold dispatch
  rw [hk, hk]

/-- **C219** fails for a NumPy number of clusters: on float64 data, k-means starts in double precision
for a Python integer; for the same number as `np.int64` it starts in double precision on Python 3.7
and in single precision from Python 3.8 on. -/
theorem C219_violated_clusters (n d k : Nat) (hk : k < 4294967296) :
    Runs (dispatch false initCentroids [.array .f64 [n, d] 0, .pyInt k, .str]) .double ∧
    Runs (dispatch true initCentroids [.array .f64 [n, d] 0, .npScalar .i64 k, .str]) .double ∧
    Runs (dispatch false initCentroids [.array .f64 [n, d] 0, .npScalar .i64 k, .str]) .single := by
  refine ⟨?_, ?_, ?_⟩ <;>
    simp [dispatch, initCentroids, List.find?, Overload.takes, fits, r_mat_arr, shapeFits,
      r_str_str, r_mat_str, Runs, r_u64_int _ _ hk, r_u32_int _ _ hk, r_u64_i64 _ _ hk,
      r_u32_i64 _ _ hk]

/-- **C219** fails for a NumPy seed: from Python 3.8 on, bagging with `np.int64` as its seed samples
float64 data and int64 labels into single precision, labels included. -/
theorem C219_violated_seed (n d : Nat) (seed : Nat) (hs : seed < 4294967296) :
    dispatch false bootstrapSampling
        [.array .f64 [n, d] 0, .array .i64 [n] 0, .npScalar .i64 seed] =
      .ok ⟨[.mat .f32, .mat .f32, .optUint32], false, .single, true⟩ ∧
    dispatch true bootstrapSampling
        [.array .f64 [n, d] 0, .array .i64 [n] 0, .npScalar .i64 seed] =
      .ok ⟨[.mat .f64, .mat .i64, .optUint32], false, .double, true⟩ ∧
    dispatch false bootstrapSampling [.array .f64 [n, d] 0, .array .i64 [n] 0, .pyInt seed] =
      .ok ⟨[.mat .f64, .mat .i64, .optUint32], false, .double, true⟩ := by
  refine ⟨?_, ?_, ?_⟩ <;>
    simp [dispatch, bootstrapSampling, List.find?, Overload.takes, fits, r_mat_arr, shapeFits,
      r_object, r_opt_int _ _ hs, r_opt_i64 _ _ hs]

/-- **C219** fails for initialisers: the number of attributes as a Python integer, or the network
structure as a list, gives single-precision weights; as `np.int64` or an int64 array, double. -/
theorem C219_violated_initializers (idx : Bool) (d n : Nat) (hd : d < 2147483648) :
    Runs (dispatch idx initializerCall [.pyInt d]) .single ∧
    Runs (dispatch idx initializerCall [.npScalar .i64 d]) .double ∧
    Runs (dispatch idx initializerCall [.list n []]) .single ∧
    Runs (dispatch idx initializerCall [.array .i64 [n] 0]) .double := by
  refine ⟨?_, ?_, ?_, ?_⟩ <;>
    simp [dispatch, initializerCall, List.find?, Overload.takes, fits, r_row_arr, shapeFits, Runs,
      r_np_sc, r_np_int, r_np_arr, r_i32_int _ _ hd, r_i32_arr, r_row_list,
      r_i32_list, r_np_list]

example : (Arg.array .f64 [3] 0).NoNumpyInteger ∧ (Arg.pyInt 3).NoNumpyInteger ∧
    ¬ (Arg.npScalar .i64 3).NoNumpyInteger := by
  simp [Arg.NoNumpyInteger]

end CML.Disp
