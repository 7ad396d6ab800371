import Verif.Spec.Dispatch
import Mathlib.Tactic

/-!
# C214, C215: which precision a call of the C++ engine runs in
-/

set_option linter.unusedSectionVars false
set_option linter.unusedSimpArgs false

namespace CML.Disp

/-! ### General facts about the casters -/

theorem eigen_mono {dt : DT} {r c : Bool} {a : Arg} (h : eigen false dt r c a = true) :
    eigen true dt r c a = true := by
  cases a <;> simp [eigen] at h ⊢
  exact h.2

theorem integer_mono {i : Bool} {lo hi : Nat} {a : Arg} (h : integer i false lo hi a = true) :
    integer i true lo hi a = true := by
  cases a with
  | npScalar dt z => cases dt <;> simp_all [integer]
  | array dt shape z =>
      simp [integer] at h ⊢
      right; exact h
  | _ => simp_all [integer]

/-- Whatever a parameter takes as it is, it also takes after conversion. -/
theorem accepts_mono {idx : Bool} {f : Formal} {a : Arg} (h : accepts idx false f a = true) :
    accepts idx true f a = true := by
  cases f with
  | np dt => cases a <;> simp_all [accepts]
  | float =>
      cases a with
      | npScalar dt z => cases dt <;> simp_all [accepts, floating]
      | _ => simp_all [accepts, floating]
  | uint32 => exact integer_mono h
  | uint64 => exact integer_mono h
  | int32 => exact integer_mono h
  | mat dt => exact eigen_mono h
  | vec dt => exact eigen_mono h
  | row dt => exact eigen_mono h
  | tensor dt => cases a <;> simp_all [accepts, tensor]
  | boolean =>
      cases a with
      | npScalar dt z => cases dt <;> simp_all [accepts, boolean]
      | _ => simp_all [accepts, boolean]
  | string => cases a <;> simp_all [accepts]
  | object => cases a <;> simp_all [accepts]
  | optUint32 =>
      cases a with
      | none => rfl
      | _ => exact integer_mono (i := idx) (by simpa only [accepts] using h)

theorem fits_mono {idx v : Bool} {fs : List Formal} {as : List Arg}
    (h : fits idx false v fs as = true) : fits idx true v fs as = true := by
  induction fs generalizing as with
  | nil => cases as <;> simp_all [fits]
  | cons f fs ih =>
      cases as with
      | nil => simp [fits] at h
      | cons a as =>
          simp only [fits, Bool.and_eq_true] at h ⊢
          exact ⟨accepts_mono h.1, ih h.2⟩

/-- For a function with one overload the two passes are one pass with conversion, which is what
pybind11 does there. -/
theorem dispatch_single (idx : Bool) (o : Overload) (args : List Arg) :
    dispatch idx [o] args =
      if o.takes idx true args then .ok o else .error .typeError := by
  unfold dispatch
  by_cases h : o.takes idx false args = true
  · have h' : o.takes idx true args = true := fits_mono h
    simp [List.find?, h, h']
  · rw [Bool.not_eq_true] at h
    by_cases h' : o.takes idx true args = true
    · simp [List.find?, h, h']
    · rw [Bool.not_eq_true] at h'
      simp [List.find?, h, h']

theorem inRange_iff (lo hi : Nat) (z : Int) :
    inRange lo hi z = true ↔ -(lo : Int) ≤ z ∧ z < hi := by
  cases z with
  | ofNat n => simp only [inRange, decide_eq_true_eq, Int.ofNat_eq_natCast]; omega
  | negSucc n => simp only [inRange, decide_eq_true_eq]; omega

theorem inRange_unsigned (z : Int) :
    inRange 0 4294967296 z = true ↔ 0 ≤ z ∧ z < 4294967296 := by
  rw [inRange_iff]; omega

theorem dispatch_error {idx : Bool} {t : List Overload} {args : List Arg} {e : PyErr}
    (h : dispatch idx t args = .error e) : e = .typeError := by
  unfold dispatch at h
  split at h
  · cases h
  · split at h
    · cases h
    · cases h; rfl

theorem mat_conv (idx : Bool) (dt : DT) (a : Arg) :
    accepts idx true (.mat dt) a = true ↔ a.IsMatrix := by
  cases a with
  | array dt' shape z =>
      rcases shape with _ | ⟨r, _ | ⟨c, _ | ⟨e, l⟩⟩⟩ <;>
        simp [accepts, eigen, shapeFits, Arg.IsMatrix]
  | list n rest =>
      rcases rest with _ | ⟨c, _ | ⟨e, l⟩⟩ <;> simp [accepts, eigen, shapeFits, Arg.IsMatrix]
  | _ => simp [accepts, eigen, Arg.IsMatrix]

theorem mat_double (idx : Bool) (a : Arg) :
    accepts idx false (.mat .f64) a = true ↔ a.IsDoubleMatrix := by
  cases a with
  | array dt' shape z =>
      rcases shape with _ | ⟨r, _ | ⟨c, _ | ⟨e, l⟩⟩⟩ <;> cases dt' <;>
        simp [accepts, eigen, shapeFits, Arg.IsDoubleMatrix]
  | _ => simp [accepts, eigen, Arg.IsDoubleMatrix]

theorem not_both (idx : Bool) (a : Arg) (h : accepts idx false (.mat .f32) a = true) :
    ¬ a.IsDoubleMatrix := by
  cases a with
  | array dt' shape z =>
      rcases shape with _ | ⟨r, _ | ⟨c, _ | ⟨e, l⟩⟩⟩ <;> cases dt' <;>
        simp [accepts, eigen, shapeFits, Arg.IsDoubleMatrix] at h ⊢
  | _ => simp [accepts, eigen, Arg.IsDoubleMatrix] at h ⊢

theorem double_isMatrix {a : Arg} (h : a.IsDoubleMatrix) : a.IsMatrix := by
  rw [← mat_double false] at h
  exact (mat_conv false .f64 a).mp (accepts_mono h)

theorem float_conv (idx : Bool) (a : Arg) :
    accepts idx true .float a = true ↔ a.IsNumber := by
  cases a with
  | npScalar dt z => cases dt <;> simp [accepts, floating, Arg.IsNumber]
  | _ => simp [accepts, floating, Arg.IsNumber, size]

theorem np_iff (idx c : Bool) (dt : DT) (a : Arg) :
    accepts idx c (.np dt) a = true ↔ a.IsScalar dt := by
  cases a with
  | npScalar dt' z => simp [accepts, Arg.IsScalar]; exact eq_comm
  | _ => simp [accepts, Arg.IsScalar]

theorem uint_conv (idx : Bool) (a : Arg) :
    accepts idx true (.uint32) a = true ↔ a.IsCount := by
  cases a with
  | npScalar dt z => cases dt <;> simp [accepts, integer, Arg.IsCount, inRange_unsigned]
  | array dt shape z =>
      cases shape with
      | nil => simp [accepts, integer, Arg.IsCount, inRange_unsigned, size]
      | cons n l => simp [accepts, integer, Arg.IsCount, inRange_unsigned, size, and_assoc]
  | _ => simp [accepts, integer, Arg.IsCount, inRange_unsigned]

theorem bool_conv (idx : Bool) (a : Arg) :
    accepts idx true .boolean a = true ↔ a.IsFlag := by
  cases a with
  | npScalar dt z => cases dt <;> simp [accepts, boolean, Arg.IsFlag]
  | array dt shape z =>
      simp only [accepts, boolean, Arg.IsFlag, size, Bool.true_and]
      exact decide_eq_true_iff
  | _ => simp [accepts, boolean, Arg.IsFlag]

theorem fits_replicate (idx c : Bool) (f : Formal) (args : List Arg) :
    fits idx c false (List.replicate args.length f) args = true ↔
      ∀ a ∈ args, accepts idx c f a = true := by
  induction args with
  | nil => simp [fits]
  | cons a as ih => simp [fits, List.replicate_succ, ih]

theorem runs_ok (o : Overload) (w : Width) : Runs (.ok o) w ↔ o.width = w :=
  ⟨fun ⟨_, h, h'⟩ => by cases h; exact h', fun h => ⟨o, rfl, h⟩⟩

theorem runs_error (e : PyErr) (w : Width) : ¬ Runs (.error e) w :=
  fun ⟨_, h, _⟩ => by cases h

theorem outcome_single {o : Overload} (h : o.width = .single) {P Q : Prop} (hq : Q) (hp : ¬ P) :
    Outcome (.ok o) P Q := by
  refine ⟨?_, ?_, ?_⟩
  · rw [runs_ok, h]; simp [hp]
  · rw [runs_ok, h]; simp [hp, hq]
  · simp [hq]

theorem outcome_double {o : Overload} (h : o.width = .double) {P Q : Prop} (hp : P) :
    Outcome (.ok o) P Q := by
  refine ⟨?_, ?_, ?_⟩
  · rw [runs_ok, h]; simp [hp]
  · rw [runs_ok, h]; simp [hp]
  · simp [hp]

theorem outcome_error {P Q : Prop} (hp : ¬ P) (hq : ¬ Q) :
    Outcome (.error .typeError) P Q := by
  refine ⟨?_, ?_, ?_⟩
  · simp [runs_error, hp]
  · simp [runs_error, hq]
  · simp [hp, hq]

/-- Two overloads, single then double precision. -/
theorem two_overloads {idx : Bool} {s d : Overload} {args : List Arg} {P Q : Prop}
    (hs : s.width = .single) (hd : d.width = .double)
    (s0 : s.takes idx false args = true → Q ∧ ¬ P) (d0 : d.takes idx false args = true ↔ P)
    (s1 : s.takes idx true args = true ↔ Q) (d1 : d.takes idx true args = true → Q) :
    Outcome (dispatch idx [s, d] args) P Q := by
  unfold dispatch
  by_cases h1 : s.takes idx false args = true
  · simp only [List.find?, h1]
    exact outcome_single hs (s0 h1).1 (s0 h1).2
  rw [Bool.not_eq_true] at h1
  by_cases h2 : d.takes idx false args = true
  · simp only [List.find?, h1, h2]
    exact outcome_double hd (d0.mp h2)
  have hp : ¬ P := fun h => h2 (d0.mpr h)
  rw [Bool.not_eq_true] at h2
  by_cases h3 : s.takes idx true args = true
  · simp only [List.find?, h1, h2, h3]
    exact outcome_single hs (s1.mp h3) hp
  have hq : ¬ Q := fun h => h3 (s1.mpr h)
  rw [Bool.not_eq_true] at h3
  have h4 : d.takes idx true args = false := by
    rw [← Bool.not_eq_true]; exact fun h => hq (d1 h)
  simp only [List.find?, h1, h2, h3, h4]
  exact outcome_error hp hq

/-- Three overloads: exact single, exact double, anything convertible in single precision. -/
theorem three_overloads {idx : Bool} {s d t : Overload} {args : List Arg} {P Q : Prop}
    (hs : s.width = .single) (hd : d.width = .double) (ht : t.width = .single)
    (sc : ∀ c, s.takes idx c args = true → Q ∧ ¬ P)
    (d0 : d.takes idx false args = true → P) (d1 : d.takes idx true args = true ↔ P)
    (t0 : t.takes idx false args = true → P → d.takes idx false args = true)
    (tq : t.takes idx true args = true → Q)
    (qt : Q → s.takes idx true args = true ∨ t.takes idx true args = true) :
    Outcome (dispatch idx [s, d, t] args) P Q := by
  unfold dispatch
  by_cases h1 : s.takes idx false args = true
  · simp only [List.find?, h1]
    exact outcome_single hs (sc _ h1).1 (sc _ h1).2
  rw [Bool.not_eq_true] at h1
  by_cases h2 : d.takes idx false args = true
  · simp only [List.find?, h1, h2]
    exact outcome_double hd (d0 h2)
  by_cases h3 : t.takes idx false args = true
  · have hp : ¬ P := fun h => h2 (t0 h3 h)
    rw [Bool.not_eq_true] at h2
    simp only [List.find?, h1, h2, h3]
    exact outcome_single ht (tq (fits_mono h3)) hp
  rw [Bool.not_eq_true] at h2 h3
  by_cases h4 : s.takes idx true args = true
  · simp only [List.find?, h1, h2, h3, h4]
    exact outcome_single hs (sc _ h4).1 (sc _ h4).2
  rw [Bool.not_eq_true] at h4
  by_cases h5 : d.takes idx true args = true
  · simp only [List.find?, h1, h2, h3, h4, h5]
    exact outcome_double hd (d1.mp h5)
  have hp : ¬ P := fun h => h5 (d1.mpr h)
  rw [Bool.not_eq_true] at h5
  by_cases h6 : t.takes idx true args = true
  · simp only [List.find?, h1, h2, h3, h4, h5, h6]
    exact outcome_single ht (tq h6) hp
  have hq : ¬ Q := by
    intro h
    rcases qt h with h | h
    · rw [h] at h4; cases h4
    · exact h6 h
  rw [Bool.not_eq_true] at h6
  simp only [List.find?, h1, h2, h3, h4, h5, h6]
  exact outcome_error hp hq

/-! ### C215: functions of matrices -/

/-- **C215** (functions of `n ≥ 1` matrices: distances, means, clusters, scatter, projection,
activations, kernels).  The double-precision overload runs exactly when every argument is a float64
array with one or two axes; single precision runs for all other numeric arrays and lists with one or
two axes; anything else is a `TypeError`. -/
theorem C215_matrices (idx : Bool) (args : List Arg) (hne : args ≠ []) :
    (Runs (dispatch idx (matrices args.length) args) .double ↔ ∀ a ∈ args, a.IsDoubleMatrix) ∧
    (Runs (dispatch idx (matrices args.length) args) .single ↔
      (∀ a ∈ args, a.IsMatrix) ∧ ¬ ∀ a ∈ args, a.IsDoubleMatrix) ∧
    (dispatch idx (matrices args.length) args = .error .typeError ↔ ∃ a ∈ args, ¬ a.IsMatrix) := by
  have e1 := fits_replicate idx false (.mat .f32) args
  have e2 := fits_replicate idx false (.mat .f64) args
  have e3 := fits_replicate idx true (.mat .f32) args
  have e4 := fits_replicate idx true (.mat .f64) args
  simp only [mat_double] at e2
  simp only [mat_conv] at e3 e4
  have hd : (∀ a ∈ args, a.IsDoubleMatrix) → ∀ a ∈ args, a.IsMatrix :=
    fun h a ha => double_isMatrix (h a ha)
  have key : Outcome (dispatch idx (matrices args.length) args) (∀ a ∈ args, a.IsDoubleMatrix)
      (∀ a ∈ args, a.IsMatrix) := by
    refine two_overloads rfl rfl ?_ e2 e3 e4.mp
    intro h
    have h := e1.mp h
    refine ⟨fun a ha => (mat_conv idx .f32 a).mp (accepts_mono (h a ha)), fun h' => ?_⟩
    obtain ⟨a, ha⟩ := List.exists_mem_of_ne_nil args hne
    exact not_both idx a (h a ha) (h' a ha)
  refine ⟨key.1, key.2.1, key.2.2.trans ⟨fun h => ?_, fun ⟨a, ha, h⟩ => ?_⟩⟩
  · have := h.2; push Not at this; exact this
  · exact ⟨fun h' => h (hd h' a ha), fun h' => h (h' a ha)⟩

/-- A wrong number of arguments is a `TypeError`. -/
theorem C215_wrong_number (idx : Bool) (n : Nat) (args : List Arg) (h : args.length ≠ n) :
    dispatch idx (matrices n) args = .error .typeError := by
  have key : ∀ (c : Bool) (f : Formal) (n : Nat) (args : List Arg), args.length ≠ n →
      fits idx c false (List.replicate n f) args = false := by
    intro c f n
    induction n with
    | zero => intro args h; cases args <;> simp_all [fits]
    | succ n ih =>
        intro args h
        cases args with
        | nil => rfl
        | cons a as =>
            simp only [List.replicate_succ, fits, ih as (by simpa using h), Bool.and_false]
  simp [dispatch, matrices, List.find?, Overload.takes, key _ _ n args h]

/-- Two float64 matrices; one float64 and one int64 matrix; a tensor. -/
example : Runs (dispatch false (matrices 2) [.array .f64 [3, 2] 0, .array .f64 [4] 0]) .double ∧
    Runs (dispatch false (matrices 2) [.array .f64 [3, 2] 0, .array .i64 [4] 0]) .single ∧
    dispatch false (matrices 2) [.array .f64 [3, 2] 0, .array .f64 [4, 1, 1] 0] =
      .error .typeError :=
  ⟨⟨⟨[.mat .f64, .mat .f64], false, .double, true⟩, by decide, rfl⟩,
   ⟨⟨[.mat .f32, .mat .f32], false, .single, true⟩, by decide, rfl⟩, by decide⟩

/-- **C215** (losses, metrics, derivatives of activations: two matrices and whatever follows). -/
theorem C215_two_matrices (idx : Bool) (a b : Arg) (more : List Arg) :
    (Runs (dispatch idx twoMatricesArgs (a :: b :: more)) .double ↔
      a.IsDoubleMatrix ∧ b.IsDoubleMatrix) ∧
    (Runs (dispatch idx twoMatricesArgs (a :: b :: more)) .single ↔
      (a.IsMatrix ∧ b.IsMatrix) ∧ ¬ (a.IsDoubleMatrix ∧ b.IsDoubleMatrix)) ∧
    (dispatch idx twoMatricesArgs (a :: b :: more) = .error .typeError ↔
      ¬ (a.IsMatrix ∧ b.IsMatrix)) := by
  have hv : ∀ c, fits idx c true [] more = true := by intro c; cases more <;> rfl
  have key : Outcome (dispatch idx twoMatricesArgs (a :: b :: more))
      (a.IsDoubleMatrix ∧ b.IsDoubleMatrix) (a.IsMatrix ∧ b.IsMatrix) := by
    refine two_overloads rfl rfl ?_ ?_ ?_ ?_ <;>
      simp only [Overload.takes, fits, hv, Bool.and_true, Bool.and_eq_true, mat_conv, mat_double]
    · exact fun h => ⟨⟨(mat_conv idx .f32 a).mp (accepts_mono h.1),
        (mat_conv idx .f32 b).mp (accepts_mono h.2)⟩, fun h' => not_both idx a h.1 h'.1⟩
    · exact id
  refine ⟨key.1, key.2.1, key.2.2.trans ⟨fun h => h.2, fun h => ⟨fun h' => ?_, h⟩⟩⟩
  exact h ⟨double_isMatrix h'.1, double_isMatrix h'.2⟩

theorem scalar_isNumber {a : Arg} {dt : DT} (h : a.IsScalar dt) : a.IsNumber := by
  cases a <;> simp_all [Arg.IsScalar, Arg.IsNumber]

theorem scalar_unique {a : Arg} {dt dt' : DT} (h : a.IsScalar dt) (h' : a.IsScalar dt') :
    dt = dt' := by
  cases a <;> simp_all [Arg.IsScalar]

/-- **C215** (`clip_alpha`, `get_probability_density`): double precision exactly for three
`np.float64`, single precision for any other three numbers, `TypeError` otherwise. -/
theorem C215_three_floats (idx : Bool) (a b c : Arg) :
    (Runs (dispatch idx threeFloats [a, b, c]) .double ↔
      a.IsScalar .f64 ∧ b.IsScalar .f64 ∧ c.IsScalar .f64) ∧
    (Runs (dispatch idx threeFloats [a, b, c]) .single ↔
      (a.IsNumber ∧ b.IsNumber ∧ c.IsNumber) ∧
        ¬ (a.IsScalar .f64 ∧ b.IsScalar .f64 ∧ c.IsScalar .f64)) ∧
    (dispatch idx threeFloats [a, b, c] = .error .typeError ↔
      ¬ (a.IsNumber ∧ b.IsNumber ∧ c.IsNumber)) := by
  have key : Outcome (dispatch idx threeFloats [a, b, c])
      (a.IsScalar .f64 ∧ b.IsScalar .f64 ∧ c.IsScalar .f64)
      (a.IsNumber ∧ b.IsNumber ∧ c.IsNumber) := by
    refine three_overloads rfl rfl rfl ?_ ?_ ?_ ?_ ?_ ?_ <;>
      simp only [Overload.takes, fits, Bool.and_true, Bool.and_eq_true, np_iff, float_conv]
    · intro _ h
      exact ⟨⟨scalar_isNumber h.1, scalar_isNumber h.2.1, scalar_isNumber h.2.2⟩,
        fun h' => by cases scalar_unique h.1 h'.1⟩
    · exact id
    · exact fun _ h => h
    · exact id
    · exact Or.inr
  refine ⟨key.1, key.2.1, key.2.2.trans ⟨fun h => h.2, fun h => ⟨fun h' => ?_, h⟩⟩⟩
  exact h ⟨scalar_isNumber h'.1, scalar_isNumber h'.2.1, scalar_isNumber h'.2.2⟩

/-- **C215** (`get_conditional_probability`, `get_dependent_prior_probability`): double precision
exactly for three `np.uint64`; single precision for three `np.uint32` or any other three counts that
fit 32 bits; otherwise `TypeError`. -/
theorem C215_three_counts (idx : Bool) (a b c flag : Arg) (hf : flag.IsFlag) :
    Outcome (dispatch idx threeCounts [a, b, c, flag])
      (a.IsScalar .u64 ∧ b.IsScalar .u64 ∧ c.IsScalar .u64)
      ((a.IsScalar .u32 ∧ b.IsScalar .u32 ∧ c.IsScalar .u32) ∨
        (a.IsCount ∧ b.IsCount ∧ c.IsCount)) := by
  refine three_overloads rfl rfl rfl ?_ ?_ ?_ ?_ ?_ ?_ <;>
    simp only [Overload.takes, fits, Bool.and_true, Bool.and_eq_true, np_iff, uint_conv, bool_conv]
  · intro _ h
    exact ⟨Or.inl ⟨h.1, h.2.1, h.2.2.1⟩, fun h' => by cases scalar_unique h.1 h'.1⟩
  · exact fun h => ⟨h.1, h.2.1, h.2.2.1⟩
  · exact ⟨fun h => ⟨h.1, h.2.1, h.2.2.1⟩, fun h => ⟨h.1, h.2.1, h.2.2, hf⟩⟩
  · exact fun h h' => ⟨h'.1, h'.2.1, h'.2.2, h.2.2.2⟩
  · exact fun h => Or.inr ⟨h.1, h.2.1, h.2.2.1⟩
  · rintro (h | h)
    · exact Or.inl ⟨h.1, h.2.1, h.2.2, hf⟩
    · exact Or.inr ⟨h.1, h.2.1, h.2.2, hf⟩

example : Runs (dispatch false threeCounts [.npScalar .u64 3, .npScalar .u64 5, .npScalar .u64 2,
    .pyBool]) .double ∧
    Runs (dispatch false threeCounts [.npScalar .i64 3, .pyInt 5, .pyInt 2, .pyBool]) .single ∧
    dispatch false threeCounts [.npScalar .f64 3, .pyInt 5, .pyInt 2, .pyBool] =
      .error .typeError ∧
    dispatch false threeCounts [.pyInt (-1), .pyInt 5, .pyInt 2, .pyBool] = .error .typeError :=
  ⟨⟨⟨[.np .u64, .np .u64, .np .u64, .boolean], false, .double, true⟩, by decide, rfl⟩,
   ⟨⟨[.uint32, .uint32, .uint32, .boolean], false, .single, true⟩, by decide, rfl⟩,
   by decide, by decide⟩

/-! ### C214: the configured precision at the call sites of the trainers -/

theorem shape_cases {shape : List Nat} (h : OneOrTwoAxes shape) :
    (∃ r, shape = [r]) ∨ ∃ r c, shape = [r, c] := by
  rcases shape with _ | ⟨r, _ | ⟨c, _ | ⟨e, l⟩⟩⟩
  · simp [OneOrTwoAxes] at h
  · exact Or.inl ⟨r, rfl⟩
  · exact Or.inr ⟨r, c, rfl⟩
  · simp [OneOrTwoAxes] at h

theorem runs_iff {r : Except PyErr Overload} {o : Overload} (h : r = .ok o) (w : Width) :
    Runs r w ↔ o.width = w := by
  rw [h]; exact runs_ok o w

theorem dt_beq (a b : DT) : (a == b) = decide (a = b) := by
  rw [Bool.eq_iff_iff]; simp

theorem inRange_nat {n : Nat} (h : n < 4294967296) : inRange 0 4294967296 (n : Int) = true := by
  rw [inRange_iff]; omega

theorem inRange_nat64 {n : Nat} (h : n < 4294967296) :
    inRange 0 18446744073709551616 (n : Int) = true := by
  rw [inRange_iff]; omega

theorem inRange_nat31 {n : Nat} (h : n < 2147483648) :
    inRange 2147483648 2147483648 (n : Int) = true := by
  rw [inRange_iff]; omega

/-! Rewriting rules: a parameter against the arguments of the call sites. -/

section Rules
variable (idx c : Bool) (dt dt' : DT) (shape : List Nat) (z : Int)

theorem r_mat_arr : accepts idx c (.mat dt) (.array dt' shape z) =
    ((c || decide (dt = dt')) && shapeFits false false shape) := by
  simp only [accepts, eigen, dt_beq]

theorem r_vec_arr : accepts idx c (.vec dt) (.array dt' shape z) =
    ((c || decide (dt = dt')) && shapeFits false true shape) := by
  simp only [accepts, eigen, dt_beq]

theorem r_row_arr : accepts idx c (.row dt) (.array dt' shape z) =
    ((c || decide (dt = dt')) && shapeFits true false shape) := by
  simp only [accepts, eigen, dt_beq]

theorem r_tensor_arr : accepts idx c (.tensor dt) (.array dt' shape z) =
    (c || decide (dt = dt')) := by
  simp only [accepts, tensor, dt_beq]

theorem r_mat_list (n : Nat) (rest : List Nat) : accepts idx c (.mat dt) (.list n rest) =
    (c && shapeFits false false (n :: rest)) := rfl

theorem r_mat_str : accepts idx c (.mat dt) .str = false := rfl
theorem r_mat_none : accepts idx c (.mat dt) .none = false := rfl

theorem r_np_sc : accepts idx c (.np dt) (.npScalar dt' z) = decide (dt = dt') := by
  simp only [accepts, dt_beq]

theorem r_np_arr : accepts idx c (.np dt) (.array dt' shape z) = false := rfl
theorem r_np_int : accepts idx c (.np dt) (.pyInt z) = false := rfl
theorem r_np_flt : accepts idx c (.np dt) .pyFloat = false := rfl

theorem r_float_flt : accepts idx c .float .pyFloat = true := rfl
theorem r_float_arr : accepts idx c .float (.array dt shape z) = (c && decide (shape.prod = 1)) := by
  rw [Bool.eq_iff_iff]; simp [accepts, floating, size]

theorem r_float_f64 : accepts idx c .float (.npScalar .f64 z) = true := rfl
theorem r_float_f32 : accepts idx c .float (.npScalar .f32 z) = c := rfl

theorem r_object (a : Arg) : accepts idx c .object a = true := rfl
theorem r_str_str : accepts idx c .string .str = true := rfl
theorem r_str_arr : accepts idx c .string (.array dt shape z) = false := rfl
theorem r_str_list (n : Nat) (rest : List Nat) : accepts idx c .string (.list n rest) = false := rfl
theorem r_bool : accepts idx c .boolean .pyBool = true := rfl

theorem r_u32_int {n : Nat} (h : n < 4294967296) : accepts idx c .uint32 (.pyInt n) = true := by
  simp only [accepts, integer]; exact inRange_nat h
theorem r_u64_int {n : Nat} (h : n < 4294967296) : accepts idx c .uint64 (.pyInt n) = true := by
  simp only [accepts, integer]; exact inRange_nat64 h
theorem r_opt_int {n : Nat} (h : n < 4294967296) : accepts idx c .optUint32 (.pyInt n) = true := by
  simp only [accepts, integer]; exact inRange_nat h
theorem r_i32_int {n : Nat} (h : n < 2147483648) : accepts idx c .int32 (.pyInt n) = true := by
  simp only [accepts, integer]; exact inRange_nat31 h
theorem r_u32_f64 : accepts idx c .uint32 (.npScalar .f64 z) = false := rfl
theorem r_u32_f32 {n : Nat} (h : n < 4294967296) :
    accepts idx c .uint32 (.npScalar .f32 n) = c := by
  show (c && inRange _ _ _) = c
  rw [inRange_nat h, Bool.and_true]
theorem r_u32_i64 {n : Nat} (h : n < 4294967296) :
    accepts idx c .uint32 (.npScalar .i64 n) = (c || idx) := by
  show ((c || idx) && inRange _ _ _) = _
  rw [inRange_nat h, Bool.and_true]
theorem r_u32_i32 {n : Nat} (h : n < 4294967296) :
    accepts idx c .uint32 (.npScalar .i32 n) = (c || idx) := by
  show ((c || idx) && inRange _ _ _) = _
  rw [inRange_nat h, Bool.and_true]
theorem r_u64_i64 {n : Nat} (h : n < 4294967296) :
    accepts idx c .uint64 (.npScalar .i64 n) = (c || idx) := by
  show ((c || idx) && inRange _ _ _) = _
  rw [inRange_nat64 h, Bool.and_true]
theorem r_opt_i64 {n : Nat} (h : n < 4294967296) :
    accepts idx c .optUint32 (.npScalar .i64 n) = (c || idx) := by
  show ((c || idx) && inRange _ _ _) = _
  rw [inRange_nat h, Bool.and_true]
theorem r_row_list (n : Nat) (rest : List Nat) : accepts idx c (.row dt) (.list n rest) =
    (c && shapeFits true false (n :: rest)) := rfl
theorem r_i32_list (n : Nat) (rest : List Nat) : accepts idx c .int32 (.list n rest) = false := rfl
theorem r_np_list (n : Nat) (rest : List Nat) : accepts idx c (.np dt) (.list n rest) = false := rfl
/-- Without conversion an array with an axis is not an integer. -/
theorem r_i32_arr (n : Nat) (l : List Nat) :
    accepts idx false .int32 (.array dt (n :: l) z) = false := by
  simp [accepts, integer]

end Rules


/-- `simp` with the call sites, the overload tables and the rules above. -/
local macro "sites" "[" ts:Lean.Parser.Tactic.simpLemma,* "]" : tactic =>
  `(tactic| simp [Site.run, Site.table, Site.args, dispatch, List.find?, Overload.takes, fits, shapeFits,
      Width.float, Width.int, Site.InDouble, Runs, r_mat_arr, r_vec_arr, r_row_arr,
      r_tensor_arr, r_mat_list, r_mat_str, r_np_sc, r_np_arr, r_np_int, r_np_flt,
      r_float_flt, r_float_arr, r_float_f64, r_float_f32, r_object, r_str_str, r_str_arr,
      r_str_list, r_bool, calculateError, selectSecondAlpha, threeFloats, kernelCall,
      initCentroids, calculateEuclideanDistance, getCluster, calculateCentroids,
      compareDifferences, calculateMeans, getWithinClassScatterMatrix, getW,
      bootstrapSampling, getPriorProbability, threeCounts, initializerCall,
      rbfInitializerCall, activationCall, twoMatricesArgs, matrices, List.replicate,
      r_i32_arr, $ts,*])

set_option maxHeartbeats 1000000 in
/-- **C214** ('64-bit' on the C++ engine, exactly).  Of the calls the trainers make, double precision
is used at the call sites listed in `Site.InDouble` and at no other. -/
theorem C214_double_iff (idx : Bool) (s : Site) (hs : s.Usual .double) :
    Runs (s.run idx .double) .double ↔ s.InDouble := by
  cases s with
  | density x mean var => exact (C215_three_floats idx x mean var).1
  | smoError n d i ni bt bs =>
      obtain ⟨hi, hb⟩ := hs
      rcases shape_cases hb with ⟨r, rfl⟩ | ⟨r, c, rfl⟩ <;> cases ni <;> cases bt <;>
        sites [r_u32_int _ _ hi, r_u32_i64 _ _ hi]
  | smoSelectFresh n e => cases e <;> sites []
  | smoSelectCached n => sites []
  | smoClip a => cases a <;> sites []
  | smoKernel d => sites []
  | svcPredict d m => sites []
  | kmeansInit n d k => sites [r_u32_int _ _ hs, r_u64_int _ _ hs]
  | kmeansInitArray n d k dt shape =>
      obtain ⟨hk, hb⟩ := hs
      rcases shape_cases hb with ⟨r, rfl⟩ | ⟨r, c, rfl⟩ <;> cases dt <;>
        sites [r_u32_int _ _ hk, r_u64_int _ _ hk]
  | kmeansInitList n d k m rest =>
      obtain ⟨hk, hb⟩ := hs
      rcases rest with _ | ⟨c, _ | ⟨e, l⟩⟩
      · sites [r_u32_int _ _ hk, r_u64_int _ _ hk]
      · sites [r_u32_int _ _ hk, r_u64_int _ _ hk]
      · simp [OneOrTwoAxes] at hb
  | kmeansDistance n d k ct => cases ct <;> sites []
  | kmeansCluster n k t => cases t <;> sites [] <;> simp [Site.Usual] at hs
  | kmeansCentroids n d => sites []
  | compareMatrices s₀ s₁ t₀ t₁ =>
      rcases shape_cases hs.1 with ⟨r, rfl⟩ | ⟨r, c, rfl⟩ <;>
        rcases shape_cases hs.2 with ⟨r', rfl⟩ | ⟨r', c', rfl⟩ <;> cases t₀ <;> cases t₁ <;>
          sites []
  | compareTensors k d t₀ t₁ => cases t₀ <;> cases t₁ <;> sites []
  | gmmMeans n d k t => cases t <;> sites []
  | ldaScatter n₀ n₁ d => sites []
  | ldaW d t => cases t <;> sites []
  | bagging n d seed => sites [r_opt_int _ _ hs]
  | nbPrior n => sites [r_u32_int _ _ hs]
  | nbConditional a b n =>
      obtain ⟨h1, h2, h3⟩ := hs
      sites [r_u32_int _ _ h2, r_u32_int _ _ h3, r_u32_f64, r_u32_f32 _ _ h1]
  | spodePrior a b n =>
      obtain ⟨h1, h2, h3⟩ := hs
      sites [r_u32_int _ _ h1, r_u32_int _ _ h2, r_u32_int _ _ h3]
  | spodeConditional a b n =>
      obtain ⟨h1, h2, h3⟩ := hs
      cases idx <;>
        sites [r_u32_i64 _ _ h1, r_u32_i32 _ _ h1, r_u32_int _ _ h2, r_u32_int _ _ h3]
  | logregInit d => sites []
  | bpnnInit n => sites []
  | rbfInit h => sites [r_i32_int _ _ hs]
  | activation n m t => cases t <;> sites [] <;> simp [Site.Usual] at hs
  | sigmoidDiff n => sites []
  | softmaxDiff n m => sites []
  | reluDiff n m t₀ t₁ => cases t₀ <;> cases t₁ <;> sites [] <;> simp [Site.Usual] at hs
  | lossOrMetric t s₀ s₁ =>
      rcases shape_cases hs.1 with ⟨r, rfl⟩ | ⟨r, c, rfl⟩ <;>
        rcases shape_cases hs.2 with ⟨r', rfl⟩ | ⟨r', c', rfl⟩ <;> cases t <;> sites []

set_option maxHeartbeats 1000000 in
/-- **C214** ('64-bit', refused calls).  Exactly one call site is refused: the discrete
attributes of the naive Bayes classifier. -/
theorem C214_refused_iff (idx : Bool) (s : Site) (hs : s.Usual .double) :
    s.run idx .double = .error .typeError ↔ s.Refused := by
  cases s with
  | density x mean var => 
      rw [show (Site.density x mean var).run idx .double = dispatch idx threeFloats [x, mean, var]
        from rfl, (C215_three_floats idx x mean var).2.2]
      simp only [Site.Refused, iff_false, not_not]
      exact hs.1
  | smoError n d i ni bt bs =>
      obtain ⟨hi, hb⟩ := hs
      rcases shape_cases hb with ⟨r, rfl⟩ | ⟨r, c, rfl⟩ <;> cases ni <;> cases bt <;>
        sites [Site.Refused, r_u32_int _ _ hi, r_u32_i64 _ _ hi]
  | smoSelectFresh n e => cases e <;> sites [Site.Refused]
  | smoSelectCached n => sites [Site.Refused]
  | smoClip a => cases a <;> sites [Site.Refused]
  | smoKernel d => sites [Site.Refused]
  | svcPredict d m => sites [Site.Refused]
  | kmeansInit n d k => sites [Site.Refused, r_u32_int _ _ hs, r_u64_int _ _ hs]
  | kmeansInitArray n d k dt shape =>
      obtain ⟨hk, hb⟩ := hs
      rcases shape_cases hb with ⟨r, rfl⟩ | ⟨r, c, rfl⟩ <;> cases dt <;>
        sites [Site.Refused, r_u32_int _ _ hk, r_u64_int _ _ hk]
  | kmeansInitList n d k m rest =>
      obtain ⟨hk, hb⟩ := hs
      rcases rest with _ | ⟨c, _ | ⟨e, l⟩⟩
      · sites [Site.Refused, r_u32_int _ _ hk, r_u64_int _ _ hk]
      · sites [Site.Refused, r_u32_int _ _ hk, r_u64_int _ _ hk]
      · simp [OneOrTwoAxes] at hb
  | kmeansDistance n d k ct => cases ct <;> sites [Site.Refused]
  | kmeansCluster n k t => cases t <;> sites [Site.Refused] <;> simp [Site.Usual] at hs
  | kmeansCentroids n d => sites [Site.Refused]
  | compareMatrices s₀ s₁ t₀ t₁ =>
      rcases shape_cases hs.1 with ⟨r, rfl⟩ | ⟨r, c, rfl⟩ <;>
        rcases shape_cases hs.2 with ⟨r', rfl⟩ | ⟨r', c', rfl⟩ <;> cases t₀ <;> cases t₁ <;>
          sites [Site.Refused]
  | compareTensors k d t₀ t₁ => cases t₀ <;> cases t₁ <;> sites [Site.Refused]
  | gmmMeans n d k t => cases t <;> sites [Site.Refused]
  | ldaScatter n₀ n₁ d => sites [Site.Refused]
  | ldaW d t => cases t <;> sites [Site.Refused]
  | bagging n d seed => sites [Site.Refused, r_opt_int _ _ hs]
  | nbPrior n => sites [Site.Refused, r_u32_int _ _ hs]
  | nbConditional a b n =>
      obtain ⟨h1, h2, h3⟩ := hs
      sites [Site.Refused, r_u32_int _ _ h2, r_u32_int _ _ h3, r_u32_f64, r_u32_f32 _ _ h1]
  | spodePrior a b n =>
      obtain ⟨h1, h2, h3⟩ := hs
      sites [Site.Refused, r_u32_int _ _ h1, r_u32_int _ _ h2, r_u32_int _ _ h3]
  | spodeConditional a b n =>
      obtain ⟨h1, h2, h3⟩ := hs
      cases idx <;>
        sites [Site.Refused, r_u32_i64 _ _ h1, r_u32_i32 _ _ h1, r_u32_int _ _ h2, r_u32_int _ _ h3]
  | logregInit d => sites [Site.Refused]
  | bpnnInit n => sites [Site.Refused]
  | rbfInit h => sites [Site.Refused, r_i32_int _ _ hs]
  | activation n m t => cases t <;> sites [Site.Refused] <;> simp [Site.Usual] at hs
  | sigmoidDiff n => sites [Site.Refused]
  | softmaxDiff n m => sites [Site.Refused]
  | reluDiff n m t₀ t₁ => cases t₀ <;> cases t₁ <;> sites [Site.Refused] <;> simp [Site.Usual] at hs
  | lossOrMetric t s₀ s₁ =>
      rcases shape_cases hs.1 with ⟨r, rfl⟩ | ⟨r, c, rfl⟩ <;>
        rcases shape_cases hs.2 with ⟨r', rfl⟩ | ⟨r', c', rfl⟩ <;> cases t <;> sites [Site.Refused]

set_option maxHeartbeats 1000000 in
/-- **C214** ('32-bit' on the C++ engine).  Every call runs, in single precision. -/
theorem C214_single_everywhere (idx : Bool) (s : Site) (hs : s.Usual .single) :
    Runs (s.run idx .single) .single := by
  cases s with
  | density x mean var => 
      exact (C215_three_floats idx x mean var).2.1.mpr ⟨hs.1, hs.2 rfl⟩
  | smoError n d i ni bt bs =>
      obtain ⟨hi, hb⟩ := hs
      rcases shape_cases hb with ⟨r, rfl⟩ | ⟨r, c, rfl⟩ <;> cases ni <;> cases bt <;>
        sites [r_u32_int _ _ hi, r_u32_i64 _ _ hi]
  | smoSelectFresh n e => cases e <;> sites []
  | smoSelectCached n => sites []
  | smoClip a => cases a <;> sites []
  | smoKernel d => sites []
  | svcPredict d m => sites []
  | kmeansInit n d k => sites [r_u32_int _ _ hs, r_u64_int _ _ hs]
  | kmeansInitArray n d k dt shape =>
      obtain ⟨hk, hb⟩ := hs
      rcases shape_cases hb with ⟨r, rfl⟩ | ⟨r, c, rfl⟩ <;> cases dt <;>
        sites [r_u32_int _ _ hk, r_u64_int _ _ hk]
  | kmeansInitList n d k m rest =>
      obtain ⟨hk, hb⟩ := hs
      rcases rest with _ | ⟨c, _ | ⟨e, l⟩⟩
      · sites [r_u32_int _ _ hk, r_u64_int _ _ hk]
      · sites [r_u32_int _ _ hk, r_u64_int _ _ hk]
      · simp [OneOrTwoAxes] at hb
  | kmeansDistance n d k ct => cases ct <;> sites []
  | kmeansCluster n k t => cases t <;> sites [] <;> simp [Site.Usual] at hs
  | kmeansCentroids n d => sites []
  | compareMatrices s₀ s₁ t₀ t₁ =>
      rcases shape_cases hs.1 with ⟨r, rfl⟩ | ⟨r, c, rfl⟩ <;>
        rcases shape_cases hs.2 with ⟨r', rfl⟩ | ⟨r', c', rfl⟩ <;> cases t₀ <;> cases t₁ <;>
          sites []
  | compareTensors k d t₀ t₁ => cases t₀ <;> cases t₁ <;> sites []
  | gmmMeans n d k t => cases t <;> sites []
  | ldaScatter n₀ n₁ d => sites []
  | ldaW d t => cases t <;> sites []
  | bagging n d seed => sites [r_opt_int _ _ hs]
  | nbPrior n => sites [r_u32_int _ _ hs]
  | nbConditional a b n =>
      obtain ⟨h1, h2, h3⟩ := hs
      sites [r_u32_int _ _ h2, r_u32_int _ _ h3, r_u32_f64, r_u32_f32 _ _ h1]
  | spodePrior a b n =>
      obtain ⟨h1, h2, h3⟩ := hs
      sites [r_u32_int _ _ h1, r_u32_int _ _ h2, r_u32_int _ _ h3]
  | spodeConditional a b n =>
      obtain ⟨h1, h2, h3⟩ := hs
      cases idx <;>
        sites [r_u32_i64 _ _ h1, r_u32_i32 _ _ h1, r_u32_int _ _ h2, r_u32_int _ _ h3]
  | logregInit d => sites []
  | bpnnInit n => sites []
  | rbfInit h => sites [r_i32_int _ _ hs]
  | activation n m t => cases t <;> sites [] <;> simp [Site.Usual] at hs
  | sigmoidDiff n => sites []
  | softmaxDiff n m => sites []
  | reluDiff n m t₀ t₁ => cases t₀ <;> cases t₁ <;> sites [] <;> simp [Site.Usual] at hs
  | lossOrMetric t s₀ s₁ =>
      rcases shape_cases hs.1 with ⟨r, rfl⟩ | ⟨r, c, rfl⟩ <;>
        rcases shape_cases hs.2 with ⟨r', rfl⟩ | ⟨r', c', rfl⟩ <;> cases t <;> sites []

/-- **C214**.  '64-bit': whatever is neither in double precision nor refused runs in single
precision. -/
theorem C214_rest_single (idx : Bool) (s : Site) (hs : s.Usual .double) (hd : ¬ s.InDouble)
    (hr : ¬ s.Refused) : Runs (s.run idx .double) .single := by
  have h1 := (C214_double_iff idx s hs).not.mpr hd
  have h2 := (C214_refused_iff idx s hs).not.mpr hr
  cases hrun : s.run idx .double with
  | error e => rw [hrun, dispatch_error hrun] at h2; exact absurd rfl h2
  | ok o =>
      refine ⟨o, rfl, ?_⟩
      rw [hrun, runs_ok] at h1
      cases hw : o.width with
      | single => rfl
      | double => exact absurd hw h1

/-- **C214** fails for '64-bit': training a support vector classifier computes every violation, and
clips every multiplier, in single precision, whatever the data. -/
theorem C214_violated_svc (idx : Bool) (n d i : Nat) (hi : i < 4294967296) (ni : Bool) (bt at' : DT) :
    Runs ((Site.smoError n d i ni bt [1, 1]).run idx .double) .single ∧
    Runs ((Site.smoError n d i ni bt [1]).run idx .double) .single ∧
    Runs ((Site.smoClip at').run idx .double) .single :=
  ⟨C214_rest_single idx _ ⟨hi, Or.inr rfl⟩ id id, C214_rest_single idx _ ⟨hi, Or.inl rfl⟩ id id,
   C214_rest_single idx _ trivial id id⟩

/-- **C214** fails for '64-bit': the stopping tests of both clusterings, every loss and metric, the
gradient of a multi-class network and the initial weights of a radial basis function network are in
single precision. -/
theorem C214_violated_others (idx : Bool) (k d n m : Nat) (hid : Nat) (hh : hid < 2147483648) (p : DT) :
    Runs ((Site.compareMatrices [k, d] [k, d] .f64 .f64).run idx .double) .single ∧
    Runs ((Site.compareTensors k d .f64 .f64).run idx .double) .single ∧
    Runs ((Site.lossOrMetric p [n, 1] [n]).run idx .double) .single ∧
    Runs ((Site.softmaxDiff n m).run idx .double) .single ∧
    Runs ((Site.rbfInit hid).run idx .double) .single :=
  ⟨C214_rest_single idx _ ⟨Or.inr rfl, Or.inr rfl⟩ id id, C214_rest_single idx _ trivial id id,
   C214_rest_single idx _ ⟨Or.inr rfl, Or.inl rfl⟩ id id, C214_rest_single idx _ trivial id id,
   C214_rest_single idx _ hh id id⟩

/-- The environment variable: '64-bit' and nothing else gives double precision. -/
theorem C214_setting (env : String) : setPrecision env = .double ↔ env = "64-bit" := by
  unfold setPrecision
  by_cases h : env = "32-bit"
  · subst h; simp
  · by_cases h' : env = "64-bit" <;> simp [h, h']

/-- A usual call of each kind. -/
example : (Site.kmeansDistance 100 2 3 .f64).Usual .double ∧ (Site.smoError 100 2 7 true .f64 [1]).Usual .double ∧
    (Site.nbConditional 3 8 2).Usual .double ∧
    (Site.density (.npScalar .f64 0) (.npScalar .f64 0) (.npScalar .f64 0)).Usual .double :=
  ⟨trivial, ⟨by norm_num, Or.inl rfl⟩, ⟨by norm_num, by norm_num, by norm_num⟩,
   ⟨⟨trivial, trivial, trivial⟩, nofun⟩⟩

end CML.Disp
