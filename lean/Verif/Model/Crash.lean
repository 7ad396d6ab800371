import Verif.Model.Persist

/-!
# An interrupted `save_weights`

`save_weights` as the sequence of its writes to the HDF5 file: classicML/backend/io.py:76-89 (the header), then one attribute after the other. If the program is interrupted
(an exception, Ctrl-C, a full disk) the file is closed with the writes made so far. Simplification: nothing is said of files that the HDF5 library itself leaves
unreadable after the loss of the machine; opening them is an error.
-/

namespace CML.Persist
open CML.Getters CML.IO

/-- A write to the file: create the group `description`, set one of its attributes, create the group `parameters`, create one of the two data sets, set an attribute of a
data set. -/
inductive Write
  | description
  | describe (k v : String)
  | parameters
  | dataset (d : DS)
  | put (d : DS) (k : String) (v : HVal)

/-- The effect of a write. -/
def Write.apply (f : HFile HVal) : Write → HFile HVal
  | .description => { f with description := some [] }
  | .describe k v => { f with description := f.description.map fun d => d.set k v }
  | .parameters => { f with parameters := some ⟨none, none⟩ }
  | .dataset .compile => { f with parameters := f.parameters.map fun p => { p with compile := some [] } }
  | .dataset .weights => { f with parameters := f.parameters.map fun p => { p with weights := some [] } }
  | .put d k v => { f with parameters := f.parameters.map fun p => Params.put p d k v }

/-- io.py:76-89: the writes of `initialize_weights_file` (the time stamp is left out, as in `HFile`). -/
def headerWrites (user name : String) : List Write :=
  [.description, .describe "cml_version" cmlVersion, .describe "io_version" ioVersion, .describe "author" user, .describe "model_name" name,
    .parameters, .dataset .compile, .dataset .weights]

/-- One line `ds.attrs[key] = …` of a `save_weights` (for instance logistic_regression.py:183-188), if it is executed and its value can be stored. -/
def lineWrite (env : Env) (o : PyObj) (l : SaveLine) : Option Write :=
  if active o l.cond then
    match evalSave env o l.expr with
    | .ok v => some (.put l.ds l.key v)
    | .error _ => none
  else none

/-- One turn of the loop `weights_ds.attrs[parameter] = self.parameters[parameter]` (back_propagation_neural_network.py:207-208, radial_basis_function_network.py:195-196). -/
def paramWrite (env : Env) (kv : String × PyVal) : Option Write :=
  match toH env kv.2 with
  | .ok v => some (.put .weights kv.1 v)
  | .error _ => none

/-- The writes of a `save_weights` of class `c` that completes, without those of the loop over `self.parameters`. -/
def lineWrites (env : Env) (user : String) (c : Cls) (o : PyObj) : List Write :=
  headerWrites user c.name ++ c.save.filterMap (lineWrite env o)

/-- The writes of a `save_weights` that completes. -/
def saveWrites (env : Env) (user : String) (c : Cls) (o : PyObj) : List Write :=
  lineWrites env user c o ++ if c.loop then o.params.filterMap (paramWrite env) else []

/-- `h5py.File(path, 'w')` (io.py:75) empties the file; then the writes are made one after the other. -/
def fileAfter (ws : List Write) : HFile HVal := ws.foldl Write.apply ⟨none, none⟩

/-- The file system if `save_weights` is interrupted after `j` writes. -/
def interrupted (env : Env) (user : String) (c : Cls) (fs : FS HVal) (path : String) (o : PyObj) (j : Nat) : FS HVal :=
  fun p => if p = path then some (fileAfter ((saveWrites env user c o).take j)) else fs p

end CML.Persist
