import Verif.Spec.Bench
import Mathlib.Tactic.Ring
import Mathlib.Tactic.Linarith
import Mathlib.Tactic.FieldSimp
import Mathlib.Tactic.NormNum
import Mathlib.Tactic.Positivity
import Mathlib.Algebra.Order.BigOperators.Group.List

/-! # Benchmark decorators (C151, C152) -/

set_option linter.unusedSectionVars false

namespace CML.Bench

variable {W V : Type}

/-! ## C151: the decorators do not change what is measured -/

/-- C151: a function under `timer` is called once: same outcome (value or exception), same effect; one line is logged if and only if it
returns. -/
theorem C151_timer (now : W → ℝ) (f : W → Except PyErr V × W) (w : W) :
    (timer now f w).1 = (f w).1 ∧ (timer now f w).2.1 = (f w).2 ∧
    ((timer now f w).2.2.length = if (f w).1.isOk then 1 else 0) := by
  unfold timer
  rcases h : f w with ⟨_ | _, w'⟩ <;> simp [Except.isOk, Except.toBool]

/-- C151: the same for `memory_monitor`; the line gives the memory after the call in units of 2^20 bytes. -/
theorem C151_memory_monitor (uss : W → ℝ) (f : W → Except PyErr V × W) (w : W) :
    (memoryMonitor uss f w).1 = (f w).1 ∧ (memoryMonitor uss f w).2.1 = (f w).2 ∧
    ((memoryMonitor uss f w).2.2.length = if (f w).1.isOk then 1 else 0) ∧
    ∀ mb, Line.memory mb ∈ (memoryMonitor uss f w).2.2 → mb * 2 ^ 20 = uss (f w).2 := by
  unfold memoryMonitor
  rcases h : f w with ⟨_ | _, w'⟩
  · simp [Except.isOk, Except.toBool]
  · simp only [Except.isOk, Except.toBool, List.length_singleton, if_true, List.mem_singleton, true_and, Line.memory.injEq]
    intro mb hmb
    rw [hmb]; norm_num; ring

theorem loop_calls (now : W → ℝ) (f : W → Except PyErr V × W) {w : W} {vs : List V} {ws : List W} {w' : W} (h : Calls f w vs ws w') :
    ∀ (last : Option V) (acc : List ℝ) (m : Nat), ∃ spent, spent.length = vs.length ∧
      (∀ (i : Nat) (a b : W), ws[i]? = some a → (ws ++ [w'])[i + 1]? = some b → spent[i]? = some (now b - now a)) ∧
      loop now f (vs.length + m) last acc w = loop now f m (vs.getLast?.or last) (acc ++ spent) w' := by
  induction h with
  | nil w => intro last acc m; exact ⟨[], rfl, by simp, by simp⟩
  | @cons w v w1 vs ws w2 hf hc ih =>
    intro last acc m
    obtain ⟨spent, h1, h2, h3⟩ := ih (some v) (acc ++ [now w1 - now w]) m
    refine ⟨(now w1 - now w) :: spent, by simp [h1], ?_, ?_⟩
    · intro i a b ha hb
      cases i with
      | zero =>
        have hw1 : (ws ++ [w2])[0]? = some w1 := by cases hc <;> simp
        simp only [List.cons_append, List.getElem?_cons_succ, zero_add] at hb
        rw [hw1] at hb
        simp at ha hb
        simp [ha, hb]
      | succ i =>
        simp only [List.cons_append, List.getElem?_cons_succ] at ha hb ⊢
        exact h2 i a b ha hb
    · have e : (v :: vs).length + m = (vs.length + m) + 1 := by simp; omega
      rw [e, loop, hf]
      dsimp only
      rw [h3]
      congr 1
      · cases vs with
        | nil => simp
        | cons a l => simp [List.getLast?_cons]
      · simp

theorem reportMany_ok (spent : List ℝ) (h : spent ≠ []) (n : Int) : ∃ line, reportMany spent n = .ok line := by
  cases spent with
  | nil => exact absurd rfl h
  | cons a l =>
    simp only [reportMany, List.map_cons, List.min?_cons, List.max?_cons]
    split
    · exact ⟨_, rfl⟩
    · split <;> exact ⟨_, rfl⟩

/-- C151 (part): under `average_timer(repeat)` with `repeat ≥ 1` the function is called `repeat` times, each call in the world the call before
has left; the last value is returned, and one line is logged. -/
theorem C151_average_timer_partial (now : W → ℝ) (f : W → Except PyErr V × W) {w : W} {vs : List V} {ws : List W} {w' : W} (h : Calls f w vs ws w')
    (v : V) (hv : vs.getLast? = some v) :
    ∃ line, averageTimer now vs.length f w = (.ok (some v), w', [line]) := by
  obtain ⟨spent, h1, -, h3⟩ := loop_calls now f h none [] 0
  have hne : spent ≠ [] := by
    intro h0; rw [h0] at h1
    have := List.length_eq_zero_iff.1 h1.symm
    rw [this] at hv; simp at hv
  obtain ⟨line, hl⟩ := reportMany_ok spent hne (vs.length : Int)
  refine ⟨line, ?_⟩
  rw [averageTimer, Int.toNat_natCast, show vs.length = vs.length + 0 from rfl, h3, loop]
  simp only [List.nil_append, hv, Option.some_or, add_zero, hl]

/-- C151: the first exception ends the measurement; it is passed on, with the world the failing call has left, and nothing is logged. -/
theorem C151_average_timer_exception (now : W → ℝ) (f : W → Except PyErr V × W) {w : W} {vs : List V} {ws : List W} {w1 w2 : W}
    (h : Calls f w vs ws w1) (e : PyErr) (hf : f w1 = (.error e, w2)) (n : Nat) (hn : vs.length < n) :
    averageTimer now n f w = (.error e, w2, []) := by
  obtain ⟨m, rfl⟩ : ∃ m, n = vs.length + (m + 1) := ⟨n - vs.length - 1, by omega⟩
  obtain ⟨spent, -, -, h3⟩ := loop_calls now f h none [] (m + 1)
  rw [averageTimer, Int.toNat_natCast, h3, loop, hf]

/-- C151: a function that depends on nothing and changes nothing returns the same value as without the decorator. -/
theorem C151_average_timer_pure (now : W → ℝ) (f : W → Except PyErr V × W) (w : W) (v : V) (hf : f w = (.ok v, w)) (n : Nat) (hn : 0 < n) :
    (averageTimer now n f w).1 = .ok (some v) ∧ (averageTimer now n f w).2.1 = w := by
  have hc : ∀ n : Nat, Calls f w (List.replicate n v) (List.replicate n w) w := by
    intro n
    induction n with
    | zero => exact .nil w
    | succ n ih => exact .cons hf ih
  obtain ⟨line, h⟩ := C151_average_timer_partial now f (hc n) v (by
    cases n with
    | zero => omega
    | succ n => simp [List.getLast?_replicate])
  rw [List.length_replicate] at h
  rw [h]
  exact ⟨rfl, rfl⟩

/-- C151 fails for `average_timer(0)` (and negative numbers): the function is not called at all and `ValueError` is raised. -/
theorem C151_never_called (now : W → ℝ) (f : W → Except PyErr V × W) (w : W) (n : Int) (hn : n ≤ 0) :
    averageTimer now n f w = (.error .valueError, w, []) := by
  rw [averageTimer, Int.toNat_of_nonpos hn, loop]
  simp [reportMany]

/-- C151 fails for functions with an effect: a counter that is incremented once without the decorator (or with `timer`) is incremented
`repeat` times, and the value is another one. -/
theorem C151_effects_repeated (now : Nat → ℝ) (n : Nat) (hn : 0 < n) (c : Nat) :
    (averageTimer now n (fun c : Nat => (.ok c, c + 1)) c).1 = .ok (some (c + n - 1)) ∧
    (averageTimer now n (fun c : Nat => (.ok c, c + 1)) c).2.1 = c + n := by
  have hc : ∀ n c : Nat, ∃ ws, Calls (fun c : Nat => ((.ok c : Except PyErr Nat), c + 1)) c (List.range' c n) ws (c + n) := by
    intro n
    induction n with
    | zero => intro c; exact ⟨[], .nil c⟩
    | succ n ih =>
      intro c
      obtain ⟨ws, h⟩ := ih (c + 1)
      refine ⟨c :: ws, ?_⟩
      rw [List.range'_succ]
      have := Calls.cons (f := fun c : Nat => ((.ok c : Except PyErr Nat), c + 1)) (w := c) rfl h
      rwa [show c + 1 + n = c + (n + 1) by omega] at this
  obtain ⟨ws, h⟩ := hc n c
  obtain ⟨line, h⟩ := C151_average_timer_partial now _ h (c + n - 1) (by
    rw [List.getLast?_range', if_neg (by omega)])
  rw [List.length_range'] at h
  rw [h]
  exact ⟨rfl, rfl⟩

/-! ## C152: the reported times -/

theorem trunc_div (t : ℝ) (m : Nat) (hm : 0 < m) : 0 < trunc t / (m : Int) ↔ (m : ℝ) ≤ t := by
  have hm' : (0 : Int) < m := by exact_mod_cast hm
  rw [show (0 : Int) < trunc t / m ↔ 1 ≤ trunc t / m from Iff.rfl, Int.le_ediv_iff_mul_le hm', one_mul]
  unfold trunc
  split
  · rw [Int.le_floor]; norm_cast
  · rename_i h
    constructor
    · intro h1
      have h2 : ⌈t⌉ ≤ 0 := Int.ceil_le.2 (by push_cast; linarith)
      omega
    · intro h1
      have : (0 : ℝ) < m := by exact_mod_cast hm
      linarith

theorem trunc_div2 (t : ℝ) : 0 < trunc t / 1000 / 1000 ↔ (1000000 : ℝ) ≤ t := by
  rw [Int.ediv_ediv_of_nonneg (by norm_num)]
  have := trunc_div t 1000000 (by norm_num)
  push_cast at this
  simpa using this

theorem trunc_div1 (t : ℝ) : 0 < trunc t / 1000 ↔ (1000 : ℝ) ≤ t := by
  have := trunc_div t 1000 (by norm_num)
  push_cast at this
  simpa using this

/-- C152: the line logged by `timer` states the duration, in the unit that suits it. -/
theorem C152_timer (start stop : ℝ) :
    ∃ value unit, reportOne start stop = .time value unit ∧ value * unit.seconds = stop - start ∧ unit.Suits (stop - start) := by
  simp only [reportOne, gt_iff_lt, trunc_div2, trunc_div1]
  split
  · exact ⟨_, _, rfl, by simp only [TimeUnit.seconds]; ring, by simp only [TimeUnit.Suits]; linarith⟩
  · split
    · exact ⟨_, _, rfl, by simp only [TimeUnit.seconds]; ring, by simp only [TimeUnit.Suits]; constructor <;> linarith⟩
    · exact ⟨_, _, rfl, by simp only [TimeUnit.seconds]; ring, by simp only [TimeUnit.Suits]; linarith⟩

/-- C152: what is printed is at least 1 for seconds, between 1 and 1000 for milliseconds and below 1000 for microseconds. -/
theorem C152_timer_range (start stop value : ℝ) (unit : TimeUnit) (h : reportOne start stop = .time value unit) :
    (unit = .s → 1 ≤ value) ∧ (unit = .ms → 1 ≤ value ∧ value < 1000) ∧ (unit = .us → value < 1000) := by
  obtain ⟨v, u, h1, h2, h3⟩ := C152_timer start stop
  rw [h] at h1
  injection h1 with hv hu
  subst hv; subst hu
  refine ⟨?_, ?_, ?_⟩ <;> rintro rfl <;> simp only [TimeUnit.seconds, TimeUnit.Suits] at h2 h3
  · linarith
  · constructor <;> linarith
  · linarith

theorem min?_spec (l : List ℝ) (m : ℝ) (h : l.min? = some m) : m ∈ l ∧ ∀ a ∈ l, m ≤ a := List.min?_eq_some_iff.1 h

theorem max?_spec (l : List ℝ) (m : ℝ) (h : l.max? = some m) : m ∈ l ∧ ∀ a ∈ l, a ≤ m := List.max?_eq_some_iff.1 h

/-- C152: the line logged by `average_timer` for the durations `spent` (in seconds) states: their mean; their standard deviation; the longest
and the shortest of them; and the number of repetitions. The unit of mean, longest and shortest suits the longest one. -/
theorem C152_average (spent : List ℝ) (n : Int) (line : Line) (h : reportMany spent n = .ok line) :
    ∃ avg u1 sd u2 mx mn, line = .average avg u1 sd u2 mx mn n ∧
      spent.length * (avg * u1.seconds) = spent.sum ∧
      0 ≤ sd ∧ spent.length * (sd * u2.seconds) ^ 2 = (spent.map fun t => (t - avg * u1.seconds) ^ 2).sum ∧
      (mx * u1.seconds ∈ spent ∧ ∀ t ∈ spent, t ≤ mx * u1.seconds) ∧
      (mn * u1.seconds ∈ spent ∧ ∀ t ∈ spent, mn * u1.seconds ≤ t) ∧
      u1.Suits (mx * u1.seconds) := by
  have hne : spent ≠ [] := by rintro rfl; simp [reportMany] at h
  have hl : (spent.length : ℝ) ≠ 0 := by
    have : spent.length ≠ 0 := fun h' => hne (List.length_eq_zero_iff.1 h')
    exact_mod_cast this
  have hl0 : (0 : ℝ) ≤ spent.length := Nat.cast_nonneg _
  set l := spent.map fun t => t * 1000 * 1000 with hdef
  have hlen : l.length = spent.length := by simp [hdef]
  have hsum : l.sum = spent.sum * 1000000 := by
    rw [show spent.sum = (spent.map id).sum by simp, ← List.sum_map_mul_right, hdef]
    congr 1
    refine List.map_congr_left fun t _ => by simp only [id]; ring
  have hmean : mean l * (1 / 1000000) * spent.length = spent.sum := by
    rw [mean, hlen, hsum]; field_simp
  have hstd0 : 0 ≤ std l := Real.sqrt_nonneg _
  have hstd : spent.length * (std l * (1 / 1000000)) ^ 2 = (spent.map fun t => (t - mean l * (1 / 1000000)) ^ 2).sum := by
    have hpos : (0 : ℝ) ≤ (l.map fun t => (t - mean l) ^ 2).sum / (l.length : ℝ) := by
      refine div_nonneg (List.sum_nonneg ?_) (Nat.cast_nonneg _)
      intro v hv
      obtain ⟨w, _, rfl⟩ := List.mem_map.1 hv
      exact sq_nonneg _
    rw [mul_pow, std, Real.sq_sqrt hpos, hlen]
    have : (l.map fun t => (t - mean l) ^ 2).sum = (spent.map fun t => (t - mean l * (1 / 1000000)) ^ 2).sum * 1000000 ^ 2 := by
      rw [← List.sum_map_mul_right, hdef, List.map_map]
      congr 1
      refine List.map_congr_left fun t _ => ?_
      simp only [Function.comp]
      ring
    rw [this]
    generalize (spent.map fun t => (t - mean l * (1 / 1000000)) ^ 2).sum = S
    field_simp
  have hin : ∀ a, a ∈ l ↔ a * (1 / 1000000) ∈ spent := by
    intro a
    rw [hdef, List.mem_map]
    constructor
    · rintro ⟨t, ht, rfl⟩
      rwa [show t * 1000 * 1000 * (1 / 1000000) = t by ring]
    · intro ha
      exact ⟨_, ha, by ring⟩
  simp only [reportMany, ← hdef] at h
  split at h
  · rename_i mn mx hmn hmx
    obtain ⟨hmn1, hmn2⟩ := min?_spec l mn hmn
    obtain ⟨hmx1, hmx2⟩ := max?_spec l mx hmx
    have hmn2' : ∀ t ∈ spent, mn * (1 / 1000000) ≤ t := by
      intro t ht
      have := hmn2 (t * 1000 * 1000) (List.mem_map_of_mem (f := fun t : ℝ => t * 1000 * 1000) ht)
      linarith
    have hmx2' : ∀ t ∈ spent, t ≤ mx * (1 / 1000000) := by
      intro t ht
      have := hmx2 (t * 1000 * 1000) (List.mem_map_of_mem (f := fun t : ℝ => t * 1000 * 1000) ht)
      linarith
    rw [hin] at hmn1 hmx1
    simp only [gt_iff_lt, trunc_div2, trunc_div1] at h
    split at h
    · injection h with h
      refine ⟨_, _, _, _, _, _, h.symm, ?_, by positivity, ?_, ⟨?_, ?_⟩, ⟨?_, ?_⟩, ?_⟩ <;>
        simp only [TimeUnit.seconds, TimeUnit.Suits, mul_one]
      · rw [← hmean]; ring
      · rw [show mean l / (1000 * 1000) = mean l * (1 / 1000000) by ring, ← hstd]; ring
      · rwa [show mx / (1000 * 1000) = mx * (1 / 1000000) by ring]
      · rwa [show mx / (1000 * 1000) = mx * (1 / 1000000) by ring]
      · rwa [show mn / (1000 * 1000) = mn * (1 / 1000000) by ring]
      · rwa [show mn / (1000 * 1000) = mn * (1 / 1000000) by ring]
      · linarith
    · split at h
      · injection h with h
        refine ⟨_, _, _, _, _, _, h.symm, ?_, by positivity, ?_, ⟨?_, ?_⟩, ⟨?_, ?_⟩, ?_⟩ <;>
          simp only [TimeUnit.seconds, TimeUnit.Suits]
        · rw [← hmean]; ring
        · rw [show mean l / 1000 * (1 / 1000) = mean l * (1 / 1000000) by ring, ← hstd]
        · rwa [show mx / 1000 * (1 / 1000) = mx * (1 / 1000000) by ring]
        · rwa [show mx / 1000 * (1 / 1000) = mx * (1 / 1000000) by ring]
        · rwa [show mn / 1000 * (1 / 1000) = mn * (1 / 1000000) by ring]
        · rwa [show mn / 1000 * (1 / 1000) = mn * (1 / 1000000) by ring]
        · constructor <;> linarith
      · injection h with h
        refine ⟨_, _, _, _, _, _, h.symm, ?_, by positivity, ?_, ⟨?_, ?_⟩, ⟨?_, ?_⟩, ?_⟩ <;>
          simp only [TimeUnit.seconds, TimeUnit.Suits]
        · rw [← hmean]; ring
        · exact hstd
        · exact hmx1
        · exact hmx2'
        · exact hmn1
        · exact hmn2'
        · linarith
  · simp at h

/-- C152: the line logged by `average_timer` is about the durations of the calls, in their order: the `i`-th is the time that passes between
the world in which the `i`-th call starts and the one it leaves. -/
theorem C152_durations (now : W → ℝ) (f : W → Except PyErr V × W) {w : W} {vs : List V} {ws : List W} {w' : W} (h : Calls f w vs ws w')
    (hne : vs ≠ []) :
    ∃ spent line, (averageTimer now vs.length f w).2.2 = [line] ∧ reportMany spent vs.length = .ok line ∧ spent.length = vs.length ∧
      ∀ (i : Nat) (a b : W), ws[i]? = some a → (ws ++ [w'])[i + 1]? = some b → spent[i]? = some (now b - now a) := by
  obtain ⟨spent, h1, h2, h3⟩ := loop_calls now f h none [] 0
  have hs : spent ≠ [] := by
    intro h0; rw [h0] at h1
    exact hne (List.length_eq_zero_iff.1 h1.symm)
  obtain ⟨line, hl⟩ := reportMany_ok spent hs (vs.length : Int)
  refine ⟨spent, line, ?_, hl, h1, h2⟩
  rw [averageTimer, Int.toNat_natCast, show vs.length = vs.length + 0 from rfl, h3, loop]
  simp only [List.nil_append, add_zero, hl]

/-- A call that takes a hundredth of a second more each time. -/
example : ∃ line, averageTimer (fun w : Nat => (w : ℝ) ^ 2 / 100) 3 (fun w => (.ok w, w + 1)) 0 = (.ok (some 2), 3, [line]) :=
  C151_average_timer_partial (f := fun w : Nat => ((.ok w : Except PyErr Nat), w + 1)) (vs := [0, 1, 2]) (ws := [0, 1, 2]) (w' := 3) _
    (.cons rfl (.cons rfl (.cons rfl (.nil _)))) 2 rfl

example : Calls (fun w : Nat => ((.ok w : Except PyErr Nat), w + 1)) 0 [0, 1, 2] [0, 1, 2] 3 := .cons rfl (.cons rfl (.cons rfl (.nil _)))

end CML.Bench
