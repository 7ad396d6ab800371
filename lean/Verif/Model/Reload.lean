import Verif.Model.Dataset
import Verif.Model.Ensemble

/-!
# What `from_dataframe` leaves behind in the caller's frame, and the default seed of `BaggingClassifier`

`dataframe.iloc[:, -1].values` (dataset.py:97-100) is the caller's own column when its element type is `object` or a numpy number type (pandas without
copy-on-write, the versions `setup.py` admits); the loops of dataset.py:223-227 and 241-243 assign into it.
-/

namespace CML.Data
open CML.Prep

/-- dataset.py:96-100, 212-245: the label column of the caller's frame after `from_dataframe`, a column of strings; `supervised` is
`dataset_type != 'test' and label_mode != 'unsupervised'`. The assignments have been made also when the conversion of line 229 or 245 raises. -/
def stringsAfter (supervised : Bool) (labels : List String) : List String :=
  if supervised then
    if (npUnique labels).length = 2 then replaceWords negativeKeyWords "0" (replaceWords positiveKeyWords "1" labels)
    else relabel (fun k => toString k) (npUnique labels) labels
  else labels

/-- dataset.py:96-100, 212-245: the same for a numpy integer column; in the two-class case no entry equals a key word. -/
def intsAfter (supervised : Bool) (labels : List Int) : List Int :=
  if supervised then
    if (npUnique labels).length = 2 then labels else relabel (fun k => (k : Int)) (npUnique labels) labels
  else labels

section
variable {K : Type*} [Field K] [LinearOrder K]

/-- dataset.py:79-104: a new data set loads the frame, then another new data set loads the same frame: what the second one gets (its `x` aside). -/
def secondStrings (toInt : String → Option Int) (mode : Mode) (labels : List String) : Except PyErr (Encoded K × Dict String (Code K)) :=
  frameStrings toInt mode [] (stringsAfter true labels)

/-- The same for a numpy integer column. -/
def secondInts (mode : Mode) (labels : List Int) : Except PyErr (Encoded K × Dict Int (Code K)) :=
  frameInts mode [] (intsAfter true labels)

end

end CML.Data

namespace CML.Bagging

/-- What a program may do after it has imported the library. -/
inductive Event
  /-- any other use of numpy's global generator -/
  | draw
  /-- `BaggingClassifier().compile()` -/
  | compileDefault
  /-- `BaggingClassifier().compile(seed=s)` -/
  | compileSeed (s : Nat)
  deriving DecidableEq

/-- bagging.py:40: the default value of `seed` was computed when the class was defined; `stream p` is the number numpy's generator gives at
position `p`. -/
structure Process where
  pos : Nat
  defaultSeed : Nat

/-- bagging.py:40 `import`: the generator is asked once. -/
def Process.start (stream : Nat → Nat) (p : Nat) : Process := ⟨p + 1, stream p⟩

/-- bagging.py:40-52 `compile`: the new object of an event, and the process after it. -/
def Process.step {E : Type*} (s : Process) : Event → Process × Option (Obj E)
  | .draw => ({ s with pos := s.pos + 1 }, none)
  | .compileDefault => (s, some { seed := s.defaultSeed })
  | .compileSeed v => (s, some { seed := v })

/-- The objects made by a sequence of events. -/
def Process.run {E : Type*} (s : Process) : List Event → List (Option (Obj E))
  | [] => []
  | e :: es => (s.step e).2 :: (s.step (E := E) e).1.run es

end CML.Bagging
