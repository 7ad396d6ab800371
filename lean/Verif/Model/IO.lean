import Verif.Dict

/-!
# Model of the weights-file header (`/repo/classicML/backend/io.py`)

HDF5 files are modelled as two groups of attributes.  The PEP 440 parser of `packaging` applied to
the free text `cml_version` is a parameter `pv`; the regular expression applied to `io_version` and
the comparison of versions are modelled concretely.
-/

namespace CML.IO

/-- `packaging.version.Version` (simplification: no local part, it never makes a version smaller
than one without).  `pre` is (phase, number) with phase 0 = a, 1 = b, 2 = rc. -/
structure Version where
  epoch : Nat
  release : List Nat
  pre : Option (Fin 3 × Nat)
  post : Option Nat
  dev : Option Nat
  deriving DecidableEq, Repr

/-- A final release. -/
def Version.final (r : List Nat) : Version := ⟨0, r, none, none, none⟩

/-- `packaging` compares releases without their trailing zeros. -/
def stripZeros (l : List Nat) : List Nat := (l.reverse.dropWhile (· == 0)).reverse

/-- `<` of Python tuples. -/
def tupleLt : List Nat → List Nat → Bool
  | _, [] => false
  | [], _ :: _ => true
  | a :: as, b :: bs => if a = b then tupleLt as bs else decide (a < b)

/-- `packaging._cmpkey`, the part after the release: pre-release (−∞ for a pure development
release, +∞ for none), post-release (−∞ for none), development release (+∞ for none). -/
def Version.tailKey (v : Version) : List Nat :=
  let pre := match v.pre with
    | some (p, n) => [p.val + 1, n]
    | none => if v.post = none ∧ v.dev ≠ none then [0, 0] else [4, 0]
  let post := match v.post with
    | some n => [n + 1]
    | none => [0]
  let dev := match v.dev with
    | some n => [0, n]
    | none => [1, 0]
  pre ++ post ++ dev

/-- `Version.__lt__`. -/
def Version.lt (a b : Version) : Bool :=
  if a.epoch = b.epoch then
    if stripZeros a.release = stripZeros b.release then tupleLt a.tailKey b.tailKey
    else tupleLt (stripZeros a.release) (stripZeros b.release)
  else decide (a.epoch < b.epoch)

/-- `\d` (simplification: ASCII digits only). -/
def isDigit (c : Char) : Bool := '0' ≤ c && c ≤ '9'

/-- `int` of a string of digits. -/
def natOf (l : List Char) : Nat := l.foldl (fun n c => 10 * n + (c.toNat - 48)) 0

/-- The greedy repetition `(?:\.\d+)*` (and the compulsory first `\.\d+`): the blocks of digits
that follow. -/
def blocks (s : List Char) : List (List Char) :=
  match s with
  | '.' :: c :: cs =>
    if isDigit c then (c :: cs.takeWhile isDigit) :: blocks (cs.dropWhile isDigit) else []
  | _ => []
  termination_by s.length
  decreasing_by
    have := (List.dropWhile_sublist (l := cs) isDigit).length_le
    simp; omega

/-- The regular expression `\d+\.\d+(?:\.\d+)*` anchored at the start of `s`: the blocks of digits
of the match. -/
def matchAt (s : List Char) : Option (List (List Char)) :=
  if s.takeWhile isDigit = [] then none
  else match blocks (s.dropWhile isDigit) with
    | [] => none
    | b :: bs => some (s.takeWhile isDigit :: b :: bs)

/-- `re.findall('\\d+\\.\\d+(?:\\.\\d+)*', s)[0]`, `io.py:30`: the leftmost match; `none` is the
`IndexError` of an empty list. -/
def firstMatch : List Char → Option (List (List Char))
  | [] => none
  | c :: cs =>
    match matchAt (c :: cs) with
    | some m => some m
    | none => firstMatch cs

/-- The two data sets of the `parameters` group (`io.py:87-89`): only their attributes are used. -/
structure Params (V : Type) where
  compile : Option (Dict String V)
  weights : Option (Dict String V)

/-- A weights file: the attributes of `description` (simplification: all strings; the time stamp is
left out) and the group `parameters`. -/
structure HFile (V : Type) where
  description : Option (Dict String String)
  parameters : Option (Params V)

/-- The file system: `none` = no HDF5 file at that path. -/
abbrev FS (V : Type) := String → Option (HFile V)

/-- `classicML.__version__`, `classicML/__init__.py:2`. -/
def cmlVersion : String := "0.9.1a3"
/-- `io.__version__`, `io.py:13`. -/
def ioVersion : String := "backend.io.0.7"
/-- `min_support_model_version`, `io.py:15`. -/
def minModel : Version := .final [0, 5]
/-- `min_support_io_version`, `io.py:16`. -/
def minIo : Version := .final [0, 7]

/-- `group[key]` / `attrs[key]`: `KeyError` if absent. -/
def key {α : Type*} (o : Option α) : Except PyErr α :=
  match o with
  | some a => .ok a
  | none => .error .keyError

/-- `_parse`, `io.py:19-37`. -/
def parse {V : Type} (pv : String → Option Version) (modelName : String) (f : HFile V) :
    Except PyErr Unit := do
  let d ← key f.description
  let cml ← key (d.get "cml_version")
  match pv cml with
  | none => .error .valueError
  | some v => do
    let io ← key (d.get "io_version")
    match firstMatch io.toList with
    | none => .error .indexError
    | some m => do
      if v.lt minModel || (Version.final (m.map natOf)).lt minIo then .error .valueError
      else do
        let name ← key (d.get "model_name")
        if name ≠ modelName then .error .valueError else .ok ()

/-- `initialize_weights_file` with `mode='r'`, `io.py:75-76, 90-99`. -/
def initRead {V : Type} (pv : String → Option Version) (fs : FS V) (path modelName : String) :
    Except PyErr (Params V) :=
  match fs path with
  | none => .error .ioError
  | some f => do
    parse pv modelName f
    key f.parameters

/-- The file just created by `initialize_weights_file` with `mode='w'`, `io.py:76-89`. -/
def freshFile {V : Type} (user modelName : String) : HFile V where
  description := some [("cml_version", cmlVersion), ("io_version", ioVersion), ("author", user),
    ("model_name", modelName)]
  parameters := some ⟨some [], some []⟩

/-- `initialize_weights_file` with `mode='w'`: `h5py.File(path, 'w')` truncates an existing file
(`io.py:75-89`).  `writable` says whether the file can be opened. -/
def initWrite {V : Type} (writable : String → Bool) (user : String) (fs : FS V)
    (path modelName : String) : FS V × Option PyErr :=
  if writable path then (fun p => if p = path then some (freshFile user modelName) else fs p, none)
  else (fs, some .ioError)

end CML.IO
