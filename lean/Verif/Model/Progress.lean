import Verif.Model.Training

/-!
# Model of the text of the progress bar and of the terminal it is written to
(classicML/backend/python/_utils.py, classicML/backend/cc/_utils/_utils.cc)

Simplifications: times and values are exact rational numbers (rounding only where the decision between bar styles is made, as in
`Train.drawBar`); times do not run backwards (a duration that is formatted is not negative); the value shown is a finite number.
-/

namespace CML.Progress

/-! ## Decimal numbers as Python's `format` and C++'s `std::to_string` write them -/

/-- One decimal digit. -/
def digit (k : Nat) : Char := Char.ofNat (48 + k % 10)

/-- The decimal digits of `k`, at most `f` of them. -/
def decAux : Nat → Nat → List Char
  | 0, _ => []
  | f + 1, k => if k < 10 then [digit k] else decAux f (k / 10) ++ [digit k]

/-- `'{:d}'.format(k)`, `std::to_string(k)`. -/
def dec (k : Nat) : List Char := decAux (k + 1) k

/-- The last `w` digits of `k`, with leading zeros. -/
def pad : Nat → Nat → List Char
  | 0, _ => []
  | w + 1, k => pad w (k / 10) ++ [digit k]

/-- `'{:02d}'.format(k)`. -/
def pad2 (k : Nat) : List Char := if k < 100 then pad 2 k else dec k

/-- The nearest integer, ties to the even one: how `printf`-style formatting rounds an exact number. -/
def nearest (q : ℚ) : Int :=
  if 2 * (q - ⌊q⌋) < 1 then ⌊q⌋ else if 1 < 2 * (q - ⌊q⌋) then ⌊q⌋ + 1 else if ⌊q⌋ % 2 = 0 then ⌊q⌋ else ⌊q⌋ + 1

/-- `'{:.0f}'.format(q)` for `q ≥ 0`. -/
def fmt0 (q : ℚ) : List Char := dec (nearest q).toNat

/-- `'{:.wf}'.format(q)` for `q ≥ 0`. -/
def fixed (w : Nat) (q : ℚ) : List Char :=
  dec ((nearest (q * 10 ^ w)).toNat / 10 ^ w) ++ ['.'] ++ pad w (nearest (q * 10 ^ w)).toNat

/-- `'{:.4f}'.format(q)`, with the sign. -/
def fmt4 (q : ℚ) : List Char := if q < 0 then '-' :: fixed 4 (-q) else fixed 4 q

/-- cc/_utils/_utils.cc:94-95, 98-99: `std::to_string(q)` (six decimals) cut after the fourth. -/
def fmt4CC (q : ℚ) : List Char :=
  let s := if q < 0 then '-' :: fixed 6 (-q) else fixed 6 q
  s.take (s.idxOf '.' + 4 + 1)

/-! ## The line -/

/-- python/_utils.py:98-112, the information about the time in `_draw_detail` at epoch `e` of `n`; `etd` is the time the bar was made,
`current` the start of the epoch, `now` the present time. -/
def timeText (fl : ℚ → ℚ) (n e : Nat) (etd current now : ℚ) : List Char :=
  if e = 0 then " ETA: 00:00".toList
  else if fl (n - fl (n / 25)) < (e : ℚ) then [' '] ++ fmt0 (now - etd) ++ "s ".toList ++ fmt0 ((now - etd) * 1000 / n) ++ "ms/step".toList
  else if (now - current) * ((n : ℚ) - e) < 60 then " ETA: ".toList ++ fmt0 ((now - current) * ((n : ℚ) - e)) ++ "s".toList
  else " ETA: ".toList ++ pad2 (⌊(now - current) * ((n : ℚ) - e)⌋.toNat / 60) ++ ":".toList ++ pad2 (⌊(now - current) * ((n : ℚ) - e)⌋.toNat % 60)

/-- What an epoch passes to the bar (python/_utils.py:37-46) and the names of the loss and the metric. -/
structure Report where
  etd : ℚ
  current : ℚ
  now : ℚ
  lossName : List Char
  lossText : List Char
  metricName : List Char
  metricText : List Char

/-- python/_utils.py:68-118 `_draw_bar` and `_draw_detail`: the line without the final newline. -/
def line (fl : ℚ → ℚ) (n e : Nat) (r : Report) : List Char :=
  "Epoch ".toList ++ dec e ++ "/".toList ++ dec n ++ " [".toList ++ Train.drawBar fl n e ++ "]".toList ++ timeText fl n e r.etd r.current r.now ++
    " - ".toList ++ r.lossName ++ ": ".toList ++ r.lossText ++ " - ".toList ++ r.metricName ++ ": ".toList ++ r.metricText

/-- python/_utils.py:49-66, 117-118: what an epoch writes to standard output. -/
def written (fl : ℚ → ℚ) (n e : Nat) (r : Report) : List Char := ['\r'] ++ line fl n e r ++ (if e = n then ['\n'] else [])

/-! ## The terminal (not part of the repository): lines without end, `\r` moves the cursor to the first column, `\n` begins a new line,
every other character replaces the one under the cursor -/

/-- Finished lines, the current line, the column of the cursor. -/
structure Term where
  done : List (List Char)
  cur : List Char
  col : Nat

/-- One character. -/
def Term.put (t : Term) (c : Char) : Term :=
  if c = '\r' then { t with col := 0 }
  else if c = '\n' then ⟨t.done ++ [t.cur], [], 0⟩
  else ⟨t.done, t.cur.take t.col ++ [c] ++ t.cur.drop (t.col + 1), t.col + 1⟩

/-- A text. -/
def Term.write (t : Term) (s : List Char) : Term := s.foldl Term.put t

/-- The epochs `1 … e` of a training with `n` epochs write to the terminal `t` (python/optimizers.py:174-190 and the other loops). -/
def after (fl : ℚ → ℚ) (n : Nat) (r : Nat → Report) (t : Term) : Nat → Term
  | 0 => t
  | e + 1 => (after fl n r t e).write (written fl n (e + 1) (r (e + 1)))

/-! ## The C++ bar -/

/-- cc/_utils/_utils.cc:69-86: the information about the time; `time(nullptr)` and the conversion of `current` are whole seconds. -/
def timeTextCC (n e : Nat) (etd current now : ℚ) : List Char :=
  if e = 0 then " ETA: 00:00".toList
  else if n - n / 25 < e then [' '] ++ dec (⌊now⌋ - ⌊etd⌋).toNat ++ "s ".toList ++ dec ((⌊now⌋ - ⌊etd⌋).toNat * 1000 / n) ++ "ms/step".toList
  else if (⌊now⌋ - ⌊current⌋).toNat * (n - e) < 60 then "ETA: ".toList ++ dec ((⌊now⌋ - ⌊current⌋).toNat * (n - e)) ++ "s".toList
  else "ETA: ".toList ++ dec ((⌊now⌋ - ⌊current⌋).toNat * (n - e) / 60) ++ ":".toList ++ dec ((⌊now⌋ - ⌊current⌋).toNat * (n - e) % 60)

end CML.Progress
