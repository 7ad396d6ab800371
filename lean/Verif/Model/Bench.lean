import Verif.Prelude
import Mathlib.Analysis.SpecialFunctions.Sqrt
import Mathlib.Algebra.Order.Floor.Ring
import Mathlib.Algebra.Order.Archimedean.Real.Basic

/-!
# Model of the benchmark decorators (classicML/benchmarks/wrapper_utils.py)

`W` is the state of the world (everything the decorated call can read or change); a call is a function from the world to its outcome and the
world it leaves. `now w` is what `time.perf_counter()` reads in the world `w` (in seconds), `uss w` the memory of the process in bytes. The lines
written to the log are returned. The numbers in a line are given before they are rounded for printing.
-/

namespace CML.Bench

/-- The units used in the log. -/
inductive TimeUnit
  | s | ms | us
deriving DecidableEq

/-- One line of the log. -/
inductive Line
  | time (value : ℝ) (unit : TimeUnit)
  | average (mean : ℝ) (unit1 : TimeUnit) (std : ℝ) (unit2 : TimeUnit) (max min : ℝ) (repeats : Int)
  | memory (mb : ℝ)

/-- `int(v)`: truncation towards zero. -/
noncomputable def trunc (v : ℝ) : Int := if 0 ≤ v then ⌊v⌋ else ⌈v⌉

/-- wrapper_utils.py:23-31: the report on one duration. -/
noncomputable def reportOne (start stop : ℝ) : Line :=
  let t := (stop - start) * 1000 * 1000
  if trunc t / 1000 / 1000 > 0 then .time (t / 1000 / 1000) .s
  else if trunc t / 1000 > 0 then .time (t / 1000) .ms
  else .time t .us

/-- `np.mean`. -/
noncomputable def mean (l : List ℝ) : ℝ := l.sum / l.length

/-- `np.std`. -/
noncomputable def std (l : List ℝ) : ℝ := Real.sqrt ((l.map fun t => (t - mean l) ^ 2).sum / l.length)

/-- wrapper_utils.py:32-56: the report on several durations. `np.min` of an empty array raises `ValueError` (line 37). -/
noncomputable def reportMany (spent : List ℝ) (repeats : Int) : Except PyErr Line :=
  let l := spent.map fun t => t * 1000 * 1000
  match l.min?, l.max? with
  | some mn, some mx =>
    if trunc mx / 1000 / 1000 > 0 then
      .ok (.average (mean l / (1000 * 1000)) .s (std l / 1000) .ms (mx / (1000 * 1000)) (mn / (1000 * 1000)) repeats)
    else if trunc mx / 1000 > 0 then .ok (.average (mean l / 1000) .ms (std l) .us (mx / 1000) (mn / 1000) repeats)
    else .ok (.average (mean l) .us (std l) .us mx mn repeats)
  | _, _ => .error .valueError

variable {W V : Type}

/-- wrapper_utils.py:112-124 `timer`. -/
noncomputable def timer (now : W → ℝ) (f : W → Except PyErr V × W) (w : W) : Except PyErr V × W × List Line :=
  match f w with
  | (.error e, w') => (.error e, w', [])
  | (.ok v, w') => (.ok v, w', [reportOne (now w) (now w')])

/-- wrapper_utils.py:93-109 `memory_monitor`. -/
noncomputable def memoryMonitor (uss : W → ℝ) (f : W → Except PyErr V × W) (w : W) : Except PyErr V × W × List Line :=
  match f w with
  | (.error e, w') => (.error e, w', [])
  | (.ok v, w') => (.ok v, w', [.memory (uss w' / 1024 / 1024)])

/-- wrapper_utils.py:76-81: the loop; `last` is `return_values`, `acc` is `time_spent_list`. -/
noncomputable def loop (now : W → ℝ) (f : W → Except PyErr V × W) : Nat → Option V → List ℝ → W → Except PyErr (Option V × List ℝ) × W
  | 0, last, acc, w => (.ok (last, acc), w)
  | n + 1, _, acc, w =>
    match f w with
    | (.error e, w') => (.error e, w')
    | (.ok v, w') => loop now f n (some v) (acc ++ [now w' - now w]) w'

/-- wrapper_utils.py:60-90 `average_timer(repeat)`; a value `none` is Python's `None`. -/
noncomputable def averageTimer (now : W → ℝ) (repeats : Int) (f : W → Except PyErr V × W) (w : W) :
    Except PyErr (Option V) × W × List Line :=
  match loop now f repeats.toNat none [] w with
  | (.error e, w') => (.error e, w', [])
  | (.ok (last, acc), w') =>
    match reportMany acc repeats with
    | .error e => (.error e, w', [])
    | .ok line => (.ok last, w', [line])

end CML.Bench
