import Verif.Prelude

/-!
# Model of `History` as a program sees it, on both engines
(classicML/backend/python/callbacks.py:6-47, classicML/backend/cc/callbacks/callbacks.cc:12-29,
classicML/backend/cc/callbacks/callbacks_wrapper.cc:40-65)

Lists have an identity: `heap` holds their contents, a variable of the program (`vars`) refers to one of
them.  `V` are the Python values; `num v` is what pybind11 makes of `v` for a parameter `float64`
(`none`: `TypeError`), `py` what it makes of a `float64`.  Left out: the names of the history, values
above the range of a C++ `double`, and the length limit of `std::vector`.
-/

namespace CML.Hist

/-- Which of the two lists. -/
inductive Which
  | loss | metric
  deriving DecidableEq, Repr

/-- What a program does with a history `h` and its variables. -/
inductive Op (V : Type)
  /-- `h(l, m)` (optimizers.py:58-70 calls it so) -/
  | call (l m : V)
  /-- `h(loss_value=l, key=m)` -/
  | named (key : String) (l m : V)
  /-- `x = h.loss` or `x = h.metric`, `x` a new variable -/
  | read (w : Which)
  /-- `x.append(v)`, `x` the variable of that number (nothing happens when there is none) -/
  | append (x : Nat) (v : V)
  /-- `h.loss = x` or `h.metric = x` -/
  | assign (w : Which) (x : Nat)
  deriving DecidableEq, Repr

variable {V K : Type}

/-- The history on the Python engine: two references (callbacks.py:36-37). -/
structure Py (V : Type) where
  heap : List (List V)
  vars : List Nat
  loss : Nat
  metric : Nat
  deriving DecidableEq, Repr

/-- The history on the C++ engine: two vectors of doubles (callbacks.h:27-28). -/
structure CC (V K : Type) where
  heap : List (List V)
  vars : List Nat
  loss : List K
  metric : List K
  deriving DecidableEq, Repr

/-- Python's `list.append` on the list with identity `r`. -/
def push (heap : List (List V)) (r : Nat) (v : V) : List (List V) :=
  heap.modify r (fun l => l ++ [v])

/-- callbacks.py:36-37: two new empty lists. -/
def Py.new : Py V := ⟨[[], []], [], 0, 1⟩

/-- callbacks.cc:12-16: two empty vectors. -/
def CC.new : CC V K := ⟨[], [], [], []⟩

def Py.ref (s : Py V) : Which → Nat
  | .loss => s.loss
  | .metric => s.metric

/-- callbacks.py:46-47 `__call__`. -/
def Py.record (s : Py V) (l m : V) : Py V :=
  { s with heap := push (push s.heap s.loss l) s.metric m }

/-- One step on the Python engine.  Reading an attribute hands out the list itself; the parameters of
`__call__` are named `loss_value` and `metric_value` (callbacks.py:39). -/
def Py.step (s : Py V) : Op V → Py V × Option PyErr
  | .call l m => (s.record l m, none)
  | .named key l m => if key = "metric_value" then (s.record l m, none) else (s, some .typeError)
  | .read w => ({ s with vars := s.vars ++ [s.ref w] }, none)
  | .append x v =>
      match s.vars[x]? with
      | some r => ({ s with heap := push s.heap r v }, none)
      | none => (s, none)
  | .assign w x =>
      match s.vars[x]? with
      | some r =>
          match w with
          | .loss => ({ s with loss := r }, none)
          | .metric => ({ s with metric := r }, none)
      | none => (s, none)

/-- callbacks.cc:26-29 `PyCall` behind the conversion of its two arguments. -/
def CC.record (num : V → Option K) (s : CC V K) (l m : V) : CC V K × Option PyErr :=
  match num l, num m with
  | some a, some b => ({ s with loss := s.loss ++ [a], metric := s.metric ++ [b] }, none)
  | _, _ => (s, some .typeError)

def CC.vector (s : CC V K) : Which → List K
  | .loss => s.loss
  | .metric => s.metric

/-- One step on the C++ engine.  Reading an attribute makes a new list of the vector; the attributes are
read-only (callbacks_wrapper.cc:56-57); the second parameter of `__call__` is named `metric_name`
(callbacks_wrapper.cc:64). -/
def CC.step (num : V → Option K) (py : K → V) (s : CC V K) : Op V → CC V K × Option PyErr
  | .call l m => s.record num l m
  | .named key l m => if key = "metric_name" then s.record num l m else (s, some .typeError)
  | .read w =>
      ({ s with heap := s.heap ++ [(s.vector w).map py], vars := s.vars ++ [s.heap.length] }, none)
  | .append x v =>
      match s.vars[x]? with
      | some r => ({ s with heap := push s.heap r v }, none)
      | none => (s, none)
  | .assign _ x =>
      match s.vars[x]? with
      | some _ => (s, some .attributeError)
      | none => (s, none)

/-- A program, with the exceptions (all of them caught) in order. -/
def Py.run (s : Py V) : List (Op V) → Py V × List (Option PyErr)
  | [] => (s, [])
  | o :: os => (((s.step o).1.run os).1, (s.step o).2 :: ((s.step o).1.run os).2)

def CC.run (num : V → Option K) (py : K → V) (s : CC V K) : List (Op V) → CC V K × List (Option PyErr)
  | [] => (s, [])
  | o :: os =>
      (((s.step num py o).1.run num py os).1, (s.step num py o).2 :: ((s.step num py o).1.run num py os).2)

/-- What `h.loss` or `h.metric` shows. -/
def Py.shows (s : Py V) (w : Which) : List V := s.heap.getD (s.ref w) []

def CC.shows (py : K → V) (s : CC V K) (w : Which) : List V := (s.vector w).map py

/-- What the variable number `x` shows. -/
def Py.var (s : Py V) (x : Nat) : Option (List V) := (s.vars[x]?).bind (fun r => s.heap[r]?)

def CC.var (s : CC V K) (x : Nat) : Option (List V) := (s.vars[x]?).bind (fun r => s.heap[r]?)

end CML.Hist
