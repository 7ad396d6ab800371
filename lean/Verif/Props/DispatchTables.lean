import Verif.Props.Dispatch

/-!
# C220: the bindings whose overloads mix kinds of arguments

For every other binding of the C++ engine (`C215` treats those of one kind of argument), exactly
which arguments run in double precision, which in single precision, and which are refused.
-/

set_option linter.unusedSectionVars false

namespace CML.Disp

/-! ### The parameters, in words -/

theorem uint64_conv (idx : Bool) (a : Arg) :
    accepts idx true .uint64 a = true ↔ a.IsLongCount := by
  have key : ∀ z : Int, inRange 0 18446744073709551616 z = true ↔
      0 ≤ z ∧ z < 18446744073709551616 := by intro z; rw [inRange_iff]; omega
  cases a with
  | npScalar dt z => cases dt <;> simp [accepts, integer, Arg.IsLongCount, key]
  | array dt shape z =>
      cases shape with
      | nil => simp [accepts, integer, Arg.IsLongCount, key, size]
      | cons n l => simp [accepts, integer, Arg.IsLongCount, key, size, and_assoc]
  | _ => simp [accepts, integer, Arg.IsLongCount, key]

theorem int32_conv (idx : Bool) (a : Arg) :
    accepts idx true .int32 a = true ↔ a.IsInteger := by
  have key : ∀ z : Int, inRange 2147483648 2147483648 z = true ↔
      -2147483648 ≤ z ∧ z < 2147483648 := by intro z; rw [inRange_iff]; omega
  cases a with
  | npScalar dt z => cases dt <;> simp [accepts, integer, Arg.IsInteger, key]
  | array dt shape z =>
      cases shape with
      | nil =>
          simp [accepts, integer, Arg.IsInteger, key, size]
      | cons n l => simp [accepts, integer, Arg.IsInteger, key, size, and_assoc]
  | _ => simp [accepts, integer, Arg.IsInteger, key]

theorem integer_plain (idx : Bool) (hi : Nat) (a : Arg) :
    integer idx false 0 hi a = true ↔ a.IsPlainCount idx hi := by
  have key : ∀ z : Int, inRange 0 hi z = true ↔ 0 ≤ z ∧ z < hi := by
    intro z; rw [inRange_iff]; omega
  cases a with
  | npScalar dt z => cases dt <;> simp [integer, Arg.IsPlainCount, key]
  | array dt shape z =>
      cases shape <;> cases dt <;> simp [integer, Arg.IsPlainCount, key, DT.isFloat]
  | _ => simp [integer, Arg.IsPlainCount, key]

theorem uint32_plain (idx : Bool) (a : Arg) :
    accepts idx false .uint32 a = true ↔ a.IsPlainCount idx 4294967296 := integer_plain idx _ a

theorem uint64_plain (idx : Bool) (a : Arg) :
    accepts idx false .uint64 a = true ↔ a.IsPlainCount idx 18446744073709551616 :=
  integer_plain idx _ a

theorem bool_plain (idx : Bool) (a : Arg) : accepts idx false .boolean a = true ↔ a.IsBool := by
  cases a with
  | npScalar dt z => cases dt <;> simp [accepts, boolean, Arg.IsBool]
  | _ => simp [accepts, boolean, Arg.IsBool]

theorem float_plain (idx : Bool) (a : Arg) :
    accepts idx false .float a = true ↔ a = .pyFloat ∨ a.IsScalar .f64 := by
  cases a with
  | npScalar dt z => cases dt <;> simp [accepts, floating, Arg.IsScalar]
  | _ => simp [accepts, floating, Arg.IsScalar]

theorem str_iff (idx c : Bool) (a : Arg) : accepts idx c .string a = true ↔ a.IsStr := by
  cases a <;> simp [accepts, Arg.IsStr]

theorem row_conv (idx : Bool) (dt : DT) (a : Arg) :
    accepts idx true (.row dt) a = true ↔ a.IsRow := by
  cases a with
  | array dt' shape z =>
      rcases shape with _ | ⟨r, _ | ⟨c, _ | ⟨e, l⟩⟩⟩ <;> simp [accepts, eigen, shapeFits, Arg.IsRow]
  | list n rest =>
      rcases rest with _ | ⟨c, _ | ⟨e, l⟩⟩ <;> simp [accepts, eigen, shapeFits, Arg.IsRow]
  | _ => simp [accepts, eigen, Arg.IsRow]

theorem row_plain (idx : Bool) (dt : DT) (a : Arg) :
    accepts idx false (.row dt) a = true ↔ a.IsRowOf dt := by
  cases a with
  | array dt' shape z =>
      rcases shape with _ | ⟨r, _ | ⟨c, _ | ⟨e, l⟩⟩⟩ <;> cases dt <;> cases dt' <;>
        simp [accepts, eigen, shapeFits, Arg.IsRowOf]
  | _ => simp [accepts, eigen, Arg.IsRowOf]

theorem vec_conv (idx : Bool) (dt : DT) (a : Arg) :
    accepts idx true (.vec dt) a = true ↔ a.IsColumn := by
  cases a with
  | array dt' shape z =>
      rcases shape with _ | ⟨r, _ | ⟨c, _ | ⟨e, l⟩⟩⟩ <;>
        simp [accepts, eigen, shapeFits, Arg.IsColumn]
  | list n rest =>
      rcases rest with _ | ⟨c, _ | ⟨e, l⟩⟩ <;> simp [accepts, eigen, shapeFits, Arg.IsColumn]
  | _ => simp [accepts, eigen, Arg.IsColumn]

theorem vec_plain (idx : Bool) (dt : DT) (a : Arg) :
    accepts idx false (.vec dt) a = true ↔ a.IsColumnOf dt := by
  cases a with
  | array dt' shape z =>
      rcases shape with _ | ⟨r, _ | ⟨c, _ | ⟨e, l⟩⟩⟩ <;> cases dt <;> cases dt' <;>
        simp [accepts, eigen, shapeFits, Arg.IsColumnOf]
  | _ => simp [accepts, eigen, Arg.IsColumnOf]

theorem tensor_conv (idx : Bool) (dt : DT) (a : Arg) :
    accepts idx true (.tensor dt) a = true ↔ a.IsArrayLike := by
  cases a <;> simp [accepts, tensor, Arg.IsArrayLike]

theorem tensor_plain (idx : Bool) (dt : DT) (a : Arg) :
    accepts idx false (.tensor dt) a = true ↔ a.IsArrayOf dt := by
  cases a with
  | array dt' shape z => cases dt <;> cases dt' <;> simp [accepts, tensor, Arg.IsArrayOf]
  | _ => simp [accepts, tensor, Arg.IsArrayOf]

theorem row_unique {a : Arg} {dt dt' : DT} (h : a.IsRowOf dt) (h' : a.IsRowOf dt') : dt = dt' := by
  cases a with
  | array t shape z =>
      rcases shape with _ | ⟨r, _ | ⟨c, _ | ⟨e, l⟩⟩⟩ <;> simp_all [Arg.IsRowOf]
  | _ => simp_all [Arg.IsRowOf]

theorem column_unique {a : Arg} {dt dt' : DT} (h : a.IsColumnOf dt) (h' : a.IsColumnOf dt') :
    dt = dt' := by
  cases a with
  | array t shape z =>
      rcases shape with _ | ⟨r, _ | ⟨c, _ | ⟨e, l⟩⟩⟩ <;> simp_all [Arg.IsColumnOf]
  | _ => simp_all [Arg.IsColumnOf]

theorem array_unique {a : Arg} {dt dt' : DT} (h : a.IsArrayOf dt) (h' : a.IsArrayOf dt') :
    dt = dt' := by
  cases a <;> simp_all [Arg.IsArrayOf]

theorem rowOf_isRow {a : Arg} {dt : DT} (h : a.IsRowOf dt) : a.IsRow :=
  (row_conv false dt a).mp (accepts_mono ((row_plain false dt a).mpr h))

theorem columnOf_isColumn {a : Arg} {dt : DT} (h : a.IsColumnOf dt) : a.IsColumn :=
  (vec_conv false dt a).mp (accepts_mono ((vec_plain false dt a).mpr h))

theorem arrayOf_isArrayLike {a : Arg} {dt : DT} (h : a.IsArrayOf dt) : a.IsArrayLike :=
  (tensor_conv false dt a).mp (accepts_mono ((tensor_plain false dt a).mpr h))

theorem bool_isFlag {a : Arg} (h : a.IsBool) : a.IsFlag :=
  (bool_conv false a).mp (accepts_mono ((bool_plain false a).mpr h))

theorem plain_isCount {idx : Bool} {a : Arg} (h : a.IsPlainCount idx 4294967296) : a.IsCount :=
  (uint_conv idx a).mp (accepts_mono ((uint32_plain idx a).mpr h))

theorem plain_isLongCount {idx : Bool} {a : Arg} (h : a.IsPlainCount idx 18446744073709551616) :
    a.IsLongCount :=
  (uint64_conv idx a).mp (accepts_mono ((uint64_plain idx a).mpr h))

theorem matrix_isArrayLike {a : Arg} (h : a.IsMatrix) : a.IsArrayLike := by
  cases a <;> simp_all [Arg.IsMatrix, Arg.IsArrayLike]

/-! ### The bindings -/

/-- **C220** (`convex_hull`): only single precision exists. -/
theorem C220_convex_hull (idx : Bool) (a : Arg) :
    (Runs (dispatch idx convexHull [a]) .single ↔ a.IsMatrix) ∧
    ¬ Runs (dispatch idx convexHull [a]) .double ∧
    (dispatch idx convexHull [a] = .error .typeError ↔ ¬ a.IsMatrix) := by
  rw [convexHull, dispatch_single]
  by_cases h : a.IsMatrix
  · have h' := (mat_conv idx .f32 a).mpr h
    simp [Overload.takes, fits, h', h, runs_ok]
  · have h' : accepts idx true (.mat .f32) a = false := by
      rw [← Bool.not_eq_true, mat_conv]; exact h
    simp [Overload.takes, fits, h', h, runs_error]

/-- **C220** (`get_w_v1`): only double precision exists. -/
theorem C220_get_w_v1 (idx : Bool) (a b c : Arg) :
    (Runs (dispatch idx getWV1 [a, b, c]) .double ↔ a.IsMatrix ∧ b.IsMatrix ∧ c.IsMatrix) ∧
    ¬ Runs (dispatch idx getWV1 [a, b, c]) .single ∧
    (dispatch idx getWV1 [a, b, c] = .error .typeError ↔
      ¬ (a.IsMatrix ∧ b.IsMatrix ∧ c.IsMatrix)) := by
  have e : (Overload.takes idx true [a, b, c] ⟨[.mat .f64, .mat .f64, .mat .f64], false, .double,
      true⟩) = true ↔ a.IsMatrix ∧ b.IsMatrix ∧ c.IsMatrix := by
    simp only [Overload.takes, fits, Bool.and_true, Bool.and_eq_true, mat_conv]
  rw [getWV1, dispatch_single]
  by_cases h : a.IsMatrix ∧ b.IsMatrix ∧ c.IsMatrix
  · rw [if_pos (e.mpr h)]
    simp [h, runs_ok]
  · rw [if_neg (mt e.mp h)]
    refine ⟨?_, runs_error _ _, ?_⟩
    · exact iff_of_false (runs_error _ _) h
    · exact iff_of_true rfl h

/-- **C220** (`calculate_centroids`): double precision for float64 data with an int32 row of
clusters; with clusters of any other type single precision. -/
theorem C220_calculate_centroids (idx : Bool) (x c : Arg) :
    Outcome (dispatch idx calculateCentroids [x, c])
      (x.IsDoubleMatrix ∧ c.IsRowOf .i32) (x.IsMatrix ∧ c.IsRow) := by
  refine two_overloads rfl rfl ?_ ?_ ?_ ?_ <;>
    simp only [Overload.takes, fits, Bool.and_true, Bool.and_eq_true, mat_conv, mat_double, row_conv,
      row_plain]
  · exact fun h => ⟨⟨(mat_conv idx .f32 x).mp (accepts_mono h.1), rowOf_isRow h.2⟩,
      fun h' => not_both idx x h.1 h'.1⟩
  · exact id

/-- **C220** (`get_prior_probability`): double precision for an int64 row of labels with a count and
a flag that need no conversion. -/
theorem C220_get_prior_probability (idx : Bool) (n y flag : Arg) :
    Outcome (dispatch idx getPriorProbability [n, y, flag])
      (n.IsPlainCount idx 4294967296 ∧ y.IsRowOf .i64 ∧ flag.IsBool)
      (n.IsCount ∧ y.IsRow ∧ flag.IsFlag) := by
  refine two_overloads rfl rfl ?_ ?_ ?_ ?_ <;>
    simp only [Overload.takes, fits, Bool.and_true, Bool.and_eq_true, row_conv, row_plain,
      uint_conv, uint32_plain, bool_plain, bool_conv]
  · exact fun h => ⟨⟨plain_isCount h.1, rowOf_isRow h.2.1, bool_isFlag h.2.2⟩,
      fun h' => by cases row_unique h.2.1 h'.2.1⟩
  · exact id

/-- **C220** (`calculate_error`): double precision when the data, the labels, the two columns of
multipliers and the threshold are all of double precision and the index needs no conversion; the
kernel plays no part. -/
theorem C220_calculate_error (idx : Bool) (x y i kernel alphas nz b : Arg) :
    Outcome (dispatch idx calculateError [x, y, i, kernel, alphas, nz, b])
      (x.IsDoubleMatrix ∧ y.IsColumnOf .f64 ∧ i.IsPlainCount idx 4294967296 ∧
        alphas.IsColumnOf .f64 ∧ nz.IsColumnOf .f64 ∧ b.IsDoubleMatrix)
      (x.IsMatrix ∧ y.IsColumn ∧ i.IsCount ∧ alphas.IsColumn ∧ nz.IsColumn ∧ b.IsMatrix) := by
  refine two_overloads rfl rfl ?_ ?_ ?_ ?_ <;>
    simp only [Overload.takes, fits, Bool.and_true, Bool.and_eq_true, mat_conv, mat_double, vec_conv,
      vec_plain, uint_conv, uint32_plain, r_object, true_and]
  · exact fun h => ⟨⟨(mat_conv idx .f32 x).mp (accepts_mono h.1), columnOf_isColumn h.2.1,
      plain_isCount h.2.2.1, columnOf_isColumn h.2.2.2.1, columnOf_isColumn h.2.2.2.2.1,
      (mat_conv idx .f32 b).mp (accepts_mono h.2.2.2.2.2)⟩, fun h' => not_both idx x h.1 h'.1⟩
  · exact id

/-- The cases of the dispatcher: the first condition that holds decides. -/
def Chain (P Q : Prop) : List (Prop × Width) → Prop
  | [] => ¬ P ∧ ¬ Q
  | (p, .single) :: l => (p → Q ∧ ¬ P) ∧ (¬ p → Chain P Q l)
  | (p, .double) :: l => (p → P) ∧ (¬ p → Chain P Q l)

theorem outcome_chain {idx : Bool} {t : List Overload} {args : List Arg} {P Q : Prop}
    (h : Chain P Q (t.map (fun o => (o.takes idx false args = true, o.width)) ++
      t.map (fun o => (o.takes idx true args = true, o.width)))) :
    Outcome (dispatch idx t args) P Q := by
  have second : ∀ u : List Overload,
      Chain P Q (u.map (fun o => (o.takes idx true args = true, o.width))) →
      Outcome (match u.find? (Overload.takes idx true args) with
        | some o => .ok o
        | none => .error .typeError) P Q := by
    intro u
    induction u with
    | nil => intro h; exact outcome_error h.1 h.2
    | cons o u ih =>
        intro h
        by_cases ho : o.takes idx true args = true
        · simp only [List.find?, ho]
          cases hw : o.width <;> rw [List.map_cons, hw] at h
          · exact outcome_single hw (h.1 ho).1 (h.1 ho).2
          · exact outcome_double hw (h.1 ho)
        · simp only [List.find?, ho]
          cases hw : o.width <;> rw [List.map_cons, hw] at h <;> exact ih (h.2 ho)
  have first : ∀ u : List Overload,
      Chain P Q (u.map (fun o => (o.takes idx false args = true, o.width)) ++
        t.map (fun o => (o.takes idx true args = true, o.width))) →
      Outcome (match u.find? (Overload.takes idx false args) with
        | some o => .ok o
        | none =>
            match t.find? (Overload.takes idx true args) with
            | some o => .ok o
            | none => .error .typeError) P Q := by
    intro u
    induction u with
    | nil => intro h; exact second t h
    | cons o u ih =>
        intro h
        by_cases ho : o.takes idx false args = true
        · simp only [List.find?, ho]
          cases hw : o.width <;> rw [List.map_cons, hw] at h
          · exact outcome_single hw (h.1 ho).1 (h.1 ho).2
          · exact outcome_double hw (h.1 ho)
        · simp only [List.find?, ho]
          cases hw : o.width <;> rw [List.map_cons, hw] at h <;> exact ih (h.2 ho)
  exact first t h

/-- **C220** (`select_second_alpha`): double precision when the violation is an `np.float64` and the
two rows are not both of single precision already. -/
theorem C220_select_second_alpha (idx : Bool) (e E a : Arg) :
    Outcome (dispatch idx selectSecondAlpha [e, E, a])
      (e.IsScalar .f64 ∧ E.IsRow ∧ a.IsRow ∧ ¬ (E.IsRowOf .f32 ∧ a.IsRowOf .f32))
      (e.IsNumber ∧ E.IsRow ∧ a.IsRow) := by
  have u1 := fun h h' => (by simpa using @scalar_unique e .f32 .f64 h h' : False)
  have u2 := fun h h' => (by simpa using @row_unique E .f32 .f64 h h' : False)
  have m1 := @rowOf_isRow E .f32
  have m2 := @rowOf_isRow E .f64
  have m3 := @rowOf_isRow a .f32
  have m4 := @rowOf_isRow a .f64
  have m5 := @scalar_isNumber e .f32
  have m6 := @scalar_isNumber e .f64
  have m7 : e = .pyFloat → e.IsNumber := by rintro rfl; trivial
  apply outcome_chain
  simp only [selectSecondAlpha, List.map_cons, List.map_nil, List.cons_append, List.nil_append, Chain, Overload.takes,
    fits, Bool.and_true,
    Bool.and_eq_true, np_iff, float_conv, float_plain, row_conv, row_plain]
  refine ⟨fun h1 => ?_, fun h1 => ?_⟩
  all_goals try refine ⟨fun h2 => ?_, fun h2 => ?_⟩
  all_goals try refine ⟨fun h3 => ?_, fun h3 => ?_⟩
  all_goals try refine ⟨fun h4 => ?_, fun h4 => ?_⟩
  all_goals try refine ⟨fun h5 => ?_, fun h5 => ?_⟩
  all_goals try refine ⟨fun h6 => ?_, fun h6 => ?_⟩
  all_goals grind

/-- **C220** (`compare_differences`): double precision when the tolerance is an `np.float64` and the
two arrays are not both of single precision already; a Python tolerance always means single
precision. -/
theorem C220_compare_differences (idx : Bool) (x₀ x₁ tol : Arg) :
    Outcome (dispatch idx compareDifferences [x₀, x₁, tol])
      (tol.IsScalar .f64 ∧ x₀.IsArrayLike ∧ x₁.IsArrayLike ∧
        ¬ (x₀.IsArrayOf .f32 ∧ x₁.IsArrayOf .f32))
      (tol.IsNumber ∧ x₀.IsArrayLike ∧ x₁.IsArrayLike) := by
  have u1 := fun h h' => (by simpa using @scalar_unique tol .f32 .f64 h h' : False)
  have u2 := fun h h' => (by simpa using @array_unique x₀ .f32 .f64 h h' : False)
  have m1 := @arrayOf_isArrayLike x₀ .f32
  have m2 := @arrayOf_isArrayLike x₀ .f64
  have m3 := @arrayOf_isArrayLike x₁ .f32
  have m4 := @arrayOf_isArrayLike x₁ .f64
  have m5 := @scalar_isNumber tol .f32
  have m6 := @scalar_isNumber tol .f64
  have m7 : tol = .pyFloat → tol.IsNumber := by rintro rfl; trivial
  have m8 := @matrix_isArrayLike x₀
  have m9 := @matrix_isArrayLike x₁
  have n : ∀ x : Arg, accepts idx false (.mat .f32) x = true → x.IsArrayOf .f32 := by
    intro x h
    cases x <;> simp_all [accepts, eigen, Arg.IsArrayOf]
  have n64 : ∀ x : Arg, x.IsDoubleMatrix → x.IsArrayOf .f64 := by
    intro x h
    rw [← mat_double false] at h
    cases x <;> simp_all [accepts, eigen, Arg.IsArrayOf]
  have n0 := n x₀
  have n1 := n x₁
  have n2 := n64 x₀
  have n3 := n64 x₁
  clear n n64
  apply outcome_chain
  simp only [compareDifferences, List.map_cons, List.map_nil, List.cons_append, List.nil_append, Chain, Overload.takes,
    fits, Bool.and_true,
    Bool.and_eq_true, np_iff, float_conv, float_plain, mat_conv, mat_double, tensor_conv,
    tensor_plain]
  refine ⟨fun h1 => ?_, fun h1 => ?_⟩
  all_goals try refine ⟨fun h2 => ?_, fun h2 => ?_⟩
  all_goals try refine ⟨fun h3 => ?_, fun h3 => ?_⟩
  all_goals try refine ⟨fun h4 => ?_, fun h4 => ?_⟩
  all_goals try refine ⟨fun h5 => ?_, fun h5 => ?_⟩
  all_goals try refine ⟨fun h6 => ?_, fun h6 => ?_⟩
  all_goals try refine ⟨fun h7 => ?_, fun h7 => ?_⟩
  all_goals try refine ⟨fun h8 => ?_, fun h8 => ?_⟩
  all_goals try refine ⟨fun h9 => ?_, fun h9 => ?_⟩
  all_goals try refine ⟨fun h10 => ?_, fun h10 => ?_⟩
  all_goals try refine ⟨fun h11 => ?_, fun h11 => ?_⟩
  all_goals grind

/-- **C220** (`init_centroids`): double precision when the data (and the initial vectors, if given) are
of double precision and the number of clusters needs no conversion — and, absurdly, for whatever data
when the number of clusters does not fit 32 bits. -/
theorem C220_init_centroids (idx : Bool) (x k init : Arg) :
    Outcome (dispatch idx initCentroids [x, k, init])
      ((init.IsStr ∨ init.IsMatrix) ∧ x.IsMatrix ∧ k.IsLongCount ∧
        (¬ k.IsCount ∨ x.IsDoubleMatrix ∧ k.IsPlainCount idx 18446744073709551616 ∧
          (init.IsStr ∨ init.IsDoubleMatrix)))
      ((init.IsStr ∨ init.IsMatrix) ∧ x.IsMatrix ∧ k.IsCount) := by
  have u1 := not_both idx x
  have u2 := not_both idx init
  have m1 := @double_isMatrix x
  have m2 := @double_isMatrix init
  have m3 := @plain_isCount idx k
  have m4 := @plain_isLongCount idx k
  have m5 : accepts idx false (.mat .f32) x = true → x.IsMatrix :=
    fun h => (mat_conv idx .f32 x).mp (accepts_mono h)
  have m6 : accepts idx false (.mat .f32) init = true → init.IsMatrix :=
    fun h => (mat_conv idx .f32 init).mp (accepts_mono h)
  have m7 : init.IsStr → ¬ init.IsMatrix := by
    cases init <;> simp [Arg.IsStr, Arg.IsMatrix]
  have m8 : k.IsCount → k.IsLongCount := by
    cases k with
    | npScalar dt z => cases dt <;> simp [Arg.IsCount, Arg.IsLongCount] <;> omega
    | array dt sh z => simp only [Arg.IsCount, Arg.IsLongCount]; omega
    | pyInt z => simp only [Arg.IsCount, Arg.IsLongCount]; omega
    | _ => simp [Arg.IsCount, Arg.IsLongCount]
  apply outcome_chain
  simp only [initCentroids, List.map_cons, List.map_nil, List.cons_append, List.nil_append, Chain,
    Overload.takes, fits, Bool.and_true, Bool.and_eq_true, mat_conv, mat_double, uint_conv,
    uint32_plain, uint64_conv, uint64_plain, str_iff]
  refine ⟨fun h1 => ?_, fun h1 => ?_⟩
  all_goals try refine ⟨fun h2 => ?_, fun h2 => ?_⟩
  all_goals try refine ⟨fun h3 => ?_, fun h3 => ?_⟩
  all_goals try refine ⟨fun h4 => ?_, fun h4 => ?_⟩
  all_goals try refine ⟨fun h5 => ?_, fun h5 => ?_⟩
  all_goals try refine ⟨fun h6 => ?_, fun h6 => ?_⟩
  all_goals try refine ⟨fun h7 => ?_, fun h7 => ?_⟩
  all_goals try refine ⟨fun h8 => ?_, fun h8 => ?_⟩
  all_goals grind

/-- **C220** (initialisers of regression and networks): double precision for an `np.int64` or a row of
int64; single precision for any other integer (a one-element array counts as the integer) or row. -/
theorem C220_initializers (idx : Bool) (a : Arg) :
    Outcome (dispatch idx initializerCall [a])
      (a.IsScalar .i64 ∨ a.IsRowOf .i64) (a.IsScalar .i32 ∨ a.IsInteger ∨ a.IsRow) := by
  have u1 := fun h h' => (by simpa using @scalar_unique a .i32 .i64 h h' : False)
  have u2 := fun h h' => (by simpa using @row_unique a .i32 .i64 h h' : False)
  have m1 := @rowOf_isRow a .i32
  have m2 := @rowOf_isRow a .i64
  have m3 : ∀ dt, a.IsScalar dt → ¬ a.IsRow := by
    intro dt; cases a <;> simp [Arg.IsScalar, Arg.IsRow]
  have m4 := m3 .i32
  have m5 := m3 .i64
  have m6 : accepts idx false .int32 a = true → a.IsInteger := fun h =>
    (int32_conv idx a).mp (accepts_mono h)
  have m7 : accepts idx false .int32 a = true → ¬ a.IsRow := by
    cases a with
    | array dt sh z =>
        rcases sh with _ | ⟨r, _ | ⟨c, _ | ⟨e, l⟩⟩⟩ <;> simp [accepts, integer, Arg.IsRow]
    | _ => simp [accepts, integer, Arg.IsRow]
  clear m3
  apply outcome_chain
  simp only [initializerCall, List.map_cons, List.map_nil, List.cons_append, List.nil_append, Chain,
    Overload.takes, fits, Bool.and_true, np_iff, int32_conv, row_conv, row_plain]
  refine ⟨fun h1 => ?_, fun h1 => ?_⟩
  all_goals try refine ⟨fun h2 => ?_, fun h2 => ?_⟩
  all_goals try refine ⟨fun h3 => ?_, fun h3 => ?_⟩
  all_goals try refine ⟨fun h4 => ?_, fun h4 => ?_⟩
  all_goals try refine ⟨fun h5 => ?_, fun h5 => ?_⟩
  all_goals try refine ⟨fun h6 => ?_, fun h6 => ?_⟩
  all_goals try refine ⟨fun h7 => ?_, fun h7 => ?_⟩
  all_goals try refine ⟨fun h8 => ?_, fun h8 => ?_⟩
  all_goals try refine ⟨fun h9 => ?_, fun h9 => ?_⟩
  all_goals try refine ⟨fun h10 => ?_, fun h10 => ?_⟩
  all_goals grind

/-- **C220** (initialiser of radial basis function networks): double precision for an `np.int64`
alone. -/
theorem C220_rbf_initializer (idx : Bool) (a : Arg) :
    Outcome (dispatch idx rbfInitializerCall [a])
      (a.IsScalar .i64) (a.IsScalar .i32 ∨ a.IsInteger) := by
  have u1 := fun h h' => (by simpa using @scalar_unique a .i32 .i64 h h' : False)
  have m6 : accepts idx false .int32 a = true → a.IsInteger := fun h =>
    (int32_conv idx a).mp (accepts_mono h)
  apply outcome_chain
  simp only [rbfInitializerCall, List.map_cons, List.map_nil, List.cons_append, List.nil_append,
    Chain, Overload.takes, fits, Bool.and_true, np_iff, int32_conv]
  refine ⟨fun h1 => ?_, fun h1 => ?_⟩
  all_goals try refine ⟨fun h2 => ?_, fun h2 => ?_⟩
  all_goals try refine ⟨fun h3 => ?_, fun h3 => ?_⟩
  all_goals try refine ⟨fun h4 => ?_, fun h4 => ?_⟩
  all_goals try refine ⟨fun h5 => ?_, fun h5 => ?_⟩
  all_goals try refine ⟨fun h6 => ?_, fun h6 => ?_⟩
  all_goals grind

example : Runs (dispatch false compareDifferences [.none, .none, .pyFloat]) .single ∧
    Runs (dispatch false compareDifferences [.array .f64 [2, 3] 0, .array .f64 [2, 3] 0, .pyFloat])
      .single ∧
    Runs (dispatch false compareDifferences
      [.array .f64 [2, 3] 0, .array .f32 [2, 3] 0, .npScalar .f64 0]) .double ∧
    Runs (dispatch false selectSecondAlpha [.npScalar .f64 0, .array .f32 [4] 0, .array .f32 [4] 0])
      .single ∧
    dispatch false getPriorProbability [.pyInt (-1), .array .i64 [4] 0, .pyBool] =
      .error .typeError := by
  refine ⟨?_, ?_, ?_, ?_, ?_⟩
  · rw [(C220_compare_differences _ _ _ _).2.1]; simp [Arg.IsNumber, Arg.IsArrayLike, Arg.IsScalar]
  · rw [(C220_compare_differences _ _ _ _).2.1]; simp [Arg.IsNumber, Arg.IsArrayLike, Arg.IsScalar]
  · rw [(C220_compare_differences _ _ _ _).1]
    simp [Arg.IsArrayLike, Arg.IsScalar, Arg.IsArrayOf]
  · rw [(C220_select_second_alpha _ _ _ _).2.1]
    simp [Arg.IsNumber, Arg.IsRow, Arg.IsScalar, Arg.IsRowOf]
  · rw [(C220_get_prior_probability _ _ _ _).2.2]
    simp [Arg.IsPlainCount, Arg.IsCount]

example : Runs (dispatch false initCentroids [.array .f32 [5, 2] 0, .pyInt 4294967296, .str])
      .double ∧
    Runs (dispatch false initCentroids [.array .f64 [5, 2] 0, .npScalar .i64 2, .str]) .single ∧
    Runs (dispatch false initializerCall [.array .f64 [1] 3]) .single ∧
    Runs (dispatch false rbfInitializerCall [.npScalar .i64 3]) .double ∧
    dispatch false rbfInitializerCall [.pyFloat] = .error .typeError ∧
    Runs (dispatch false calculateCentroids [.array .f64 [5, 2] 0, .array .i64 [5] 0]) .single := by
  refine ⟨?_, ?_, ?_, ?_, ?_, ?_⟩
  · rw [(C220_init_centroids _ _ _ _).1]
    simp [Arg.IsStr, Arg.IsMatrix, Arg.IsLongCount, Arg.IsCount]
  · rw [(C220_init_centroids _ _ _ _).2.1]
    simp [Arg.IsStr, Arg.IsMatrix, Arg.IsLongCount, Arg.IsCount, Arg.IsPlainCount]
  · rw [(C220_initializers _ _).2.1]; simp [Arg.IsInteger, Arg.IsScalar, Arg.IsRowOf, Arg.IsRow]
  · rw [(C220_rbf_initializer _ _).1]; simp [Arg.IsScalar]
  · rw [(C220_rbf_initializer _ _).2.2]; simp [Arg.IsInteger, Arg.IsScalar]
  · rw [(C220_calculate_centroids _ _ _).2.1]
    simp [Arg.IsDoubleMatrix, Arg.IsRowOf, Arg.IsRow, Arg.IsMatrix]

/-- **C220** (number of arguments).  Calling any of these bindings with too few or too many arguments is a `TypeError`; the losses, metrics and
derivatives refuse fewer than two. -/
theorem C220_wrong_number (idx : Bool) (args : List Arg) :
    (∀ t n, (t, n) ∈ [(bootstrapSampling, 3), (convexHull, 1), (calculateCentroids, 2), (calculateError, 7), (threeFloats, 3), (compareDifferences, 3),
        (threeCounts, 4), (getPriorProbability, 3), (getWV1, 3), (initCentroids, 3), (selectSecondAlpha, 3), (initializerCall, 1), (rbfInitializerCall, 1)] →
      args.length ≠ n → dispatch idx t args = .error .typeError) ∧
    (args.length < 2 → dispatch idx twoMatricesArgs args = .error .typeError) := by
  have key : ∀ (c : Bool) (fs : List Formal) (args : List Arg), args.length ≠ fs.length → fits idx c false fs args = false := by
    intro c fs
    induction fs with
    | nil => intro args h; cases args <;> simp_all [fits]
    | cons f fs ih =>
      intro args h
      cases args with
      | nil => rfl
      | cons a as => simp only [fits, ih as (by simpa using h), Bool.and_false]
  have all : ∀ (t : List Overload) (n : Nat), (∀ o ∈ t, o.variadic = false ∧ o.formals.length = n) → args.length ≠ n →
      dispatch idx t args = .error .typeError := by
    intro t n ht hn
    have h : ∀ c, t.find? (Overload.takes idx c args) = none := fun c => List.find?_eq_none.2 fun o ho => by
      simp [Overload.takes, (ht o ho).1, key c o.formals args (by rw [(ht o ho).2]; exact hn)]
    simp only [dispatch, h]
  refine ⟨fun t n h hn => ?_, fun h => ?_⟩
  · simp only [List.mem_cons, Prod.mk.injEq, List.not_mem_nil, or_false] at h
    refine all t n ?_ hn
    rcases h with ⟨rfl, rfl⟩ | ⟨rfl, rfl⟩ | ⟨rfl, rfl⟩ | ⟨rfl, rfl⟩ | ⟨rfl, rfl⟩ | ⟨rfl, rfl⟩ | ⟨rfl, rfl⟩ | ⟨rfl, rfl⟩ | ⟨rfl, rfl⟩ | ⟨rfl, rfl⟩ | ⟨rfl, rfl⟩ |
      ⟨rfl, rfl⟩ | ⟨rfl, rfl⟩ <;> decide
  · match args, h with
    | [], _ => rfl
    | [a], _ => simp [dispatch, twoMatricesArgs, List.find?, Overload.takes, fits]

end CML.Disp
