import Verif.Model.SVC

/-!
# Histories of calls of a support vector classifier

`compile`, `fit` and `load_weights` of one `SupportVectorClassifier` in any order; the caller goes on after exceptions. Because `fit` need not return
(`epochs=-1`), histories are a relation. `known` tells which kernel names `get_kernel` accepts.
-/

namespace CML.SVC
open SMO

variable {K N : Type} [Field K] [LinearOrder K]

/-- The attributes of a weights file that passed the checks of `io.initialize_weights_file`, in the order in which they are read
(support_vector_classifier.py:189-203); `none` is a missing attribute. `support` is only read, not used. -/
structure File (K N : Type) where
  C : Option K
  gamma : Option K
  kernel : Option N
  tol : Option K
  support : Option (List Nat)
  supportVector : Option (List (List K))
  supportAlpha : Option (List K)
  supportY : Option (List K)
  b : Option K

/-- support_vector_classifier.py:55-73: a new instance (`None` attributes are written as empty lists, 0 and an unknown kernel `s0`; they are never read). -/
def Obj.new (s0 : N) : Obj K N :=
  { supportVector := [], supportAlpha := [], supportY := [], b := 0, C := 0, kernel := .name s0, gamma := .num 0, tol := 0, trained := false, loaded := false }

/-- support_vector_classifier.py:198-205: the learned attributes, one after the other. -/
def Obj.loadWeights (o : Obj K N) (f : File K N) : Obj K N × Option PyErr :=
  match f.support, f.supportVector, f.supportAlpha, f.supportY, f.b with
  | none, _, _, _, _ => (o, some .keyError)
  | some _, none, _, _, _ => (o, some .keyError)
  | some _, some v, none, _, _ => ({ o with supportVector := v }, some .keyError)
  | some _, some v, some a, none, _ => ({ o with supportVector := v, supportAlpha := a }, some .keyError)
  | some _, some v, some a, some y, none => ({ o with supportVector := v, supportAlpha := a, supportY := y }, some .keyError)
  | some _, some v, some a, some y, some b => ({ o with supportVector := v, supportAlpha := a, supportY := y, b := b, loaded := true }, none)

/-- support_vector_classifier.py:188-208 `load_weights` after the checks of the file: the compiled parameters first; `get_kernel` raises
`AttributeError` for an unknown name (not caught by `except KeyError`). -/
def Obj.load (known : N → Bool) (make : N → K → List K → List K → K) (o : Obj K N) (f : File K N) : Obj K N × Option PyErr :=
  match f.C, f.gamma, f.kernel, f.tol with
  | none, _, _, _ => (o, some .keyError)
  | some C, none, _, _ => ({ o with C := C }, some .keyError)
  | some C, some g, none, _ => ({ o with C := C, gamma := .num g }, some .keyError)
  | some C, some g, some s, t =>
    if known s = false then ({ o with C := C, gamma := .num g }, some .attributeError)
    else
      match t with
      | none => ({ o with C := C, gamma := .num g, kernel := .inst (make s g) }, some .keyError)
      | some t => Obj.loadWeights { o with C := C, gamma := .num g, kernel := .inst (make s g), tol := t } f

/-- A call. `fit` carries the permutations its optimiser draws and the number `d` of features. -/
inductive Call (K N : Type)
  | compile (C : K) (kernel : KernelAttr K N) (gamma : Gamma K) (tol : K)
  | fit (n : Nat) (perms : Nat → List (Fin n)) (x : Fin n → List K) (y : Fin n → K) (d : Nat) (epochs : Int)
  | load (f : File K N)
  | badFile (e : PyErr)

/-- One call, the instance after it and the exception it raised, if any (support_vector_classifier.py:75-126, 173-208). `fit` can raise
while it reads the data or computes `gamma` (nothing has changed), in `get_kernel` (`gamma` is a number already), or in the optimiser (the kernel is an
instance already). -/
inductive Step (known : N → Bool) (make : N → K → List K → List K → K) : Obj K N → Call K N → Obj K N → Option PyErr → Prop
  | compile (o : Obj K N) (C : K) (kernel : KernelAttr K N) (gamma : Gamma K) (tol : K) :
      Step known make o (.compile C kernel gamma tol) (o.compile C kernel gamma tol) none
  | fit (o o' : Obj K N) (n : Nat) (perms : Nat → List (Fin n)) (x : Fin n → List K) (y : Fin n → K) (d : Nat) (epochs : Int)
      (hk : ∀ s, o.kernel = .name s → known s = true) (h : Fit make perms o x y d epochs o') : Step known make o (.fit n perms x y d epochs) o' none
  | fitData (o : Obj K N) (n : Nat) (perms : Nat → List (Fin n)) (x : Fin n → List K) (y : Fin n → K) (d : Nat) (epochs : Int) (e : PyErr) :
      Step known make o (.fit n perms x y d epochs) o (some e)
  | fitKernel (o : Obj K N) (n : Nat) (perms : Nat → List (Fin n)) (x : Fin n → List K) (y : Fin n → K) (d : Nat) (epochs : Int) (g : K) (s : N)
      (hg : o.gamma.value (List.ofFn x) d = some g) (hs : o.kernel = .name s) (hk : known s = false) :
      Step known make o (.fit n perms x y d epochs) { o with gamma := .num g } (some .attributeError)
  | fitTrain (o : Obj K N) (n : Nat) (perms : Nat → List (Fin n)) (x : Fin n → List K) (y : Fin n → K) (d : Nat) (epochs : Int) (g : K) (e : PyErr)
      (hg : o.gamma.value (List.ofFn x) d = some g) (hk : ∀ s, o.kernel = .name s → known s = true) :
      Step known make o (.fit n perms x y d epochs) { o with gamma := .num g, kernel := .inst (getKernel make g o.kernel) } (some e)
  | load (o : Obj K N) (f : File K N) : Step known make o (.load f) (o.load known make f).1 (o.load known make f).2
  | badFile (o : Obj K N) (e : PyErr) : Step known make o (.badFile e) o (some e)

/-- A history: calls with what they raised, from the first to the last (support_vector_classifier.py:75-126, 173-208). -/
inductive Runs (known : N → Bool) (make : N → K → List K → List K → K) : Obj K N → List (Call K N × Option PyErr) → Obj K N → Prop
  | nil (o : Obj K N) : Runs known make o [] o
  | cons {o o1 o2 : Obj K N} {c : Call K N} {e : Option PyErr} {h : List (Call K N × Option PyErr)} (hs : Step known make o c o1 e)
      (hr : Runs known make o1 h o2) : Runs known make o ((c, e) :: h) o2

end CML.SVC
