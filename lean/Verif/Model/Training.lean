import Verif.Prelude
import Mathlib.Data.Rat.Floor

/-!
# Model of the monitoring part of training: `_get_optimizer_parameters`, `_record_callbacks` and the loops of the optimisers
(classicML/backend/python/optimizers.py), `History` (classicML/backend/python/callbacks.py, classicML/backend/cc/callbacks/callbacks.cc)
and `ProgressBar` (classicML/backend/python/_utils.py, classicML/backend/cc/_utils/_utils.cc)
-/

namespace CML.Train

/-! ## The progress bar -/

/-- python/_utils.py:68-88 `_draw_bar`: the text between `[` and `]` for epoch `e` of `n ≥ 1`.  `fl` is the rounding of floating-point
operations. -/
def drawBar (fl : ℚ → ℚ) (n e : Nat) : List Char :=
  if fl (n - fl (n / 25)) < (e : ℚ) then List.replicate 25 '='
  else
    let arrow : Int := ⌈fl (fl (e / n) * 25)⌉
    List.replicate (arrow - 1).toNat '=' ++ ['>'] ++ List.replicate (25 - arrow).toNat '.'

/-- cc/_utils/_utils.cc:43-63 `ProgressBar::_draw_bar`: all divisions are divisions of integers. -/
def drawBarCC (n e : Nat) : List Char :=
  if n - n / 25 < e then List.replicate 25 '='
  else
    let arrow : Int := (e / n * 25 : Nat)
    List.replicate (arrow - 1).toNat '=' ++ ['>'] ++ List.replicate (25 - arrow).toNat '.'

/-! ## The training loops -/

/-- A member of the list `callbacks`: a `History` object (given by its identity) or something else. -/
inductive Callback where
  | history (id : Nat)
  | other
  deriving DecidableEq

/-- What training leaves behind apart from the parameters: the lines written by progress bars (epoch, total number of epochs
shown, loss, metric) and the contents of all `History` objects. -/
structure World (L M : Type) where
  drawn : List (Nat × Nat × L × M)
  hist : Nat → List (L × M)

/-- optimizers.py:58-70 `_record_callbacks`; callbacks.py:40-47 `History.__call__`. -/
def record {L M : Type} (cbs : List Callback) (l : L) (m : M) (h : Nat → List (L × M)) : Nat → List (L × M) :=
  cbs.foldl (fun h c => match c with
    | .history id => fun i => if i = id then h i ++ [(l, m)] else h i
    | .other => h) h

/-- An optimiser object: the field `_progressbar` (optimizers.py:89), `some n` for a bar made for `n` epochs. -/
structure Opt where
  bar : Option Nat

/-- The values the loss and the metric are computed from at the end of an epoch, from the parameters before and after the update. -/
structure Eval (P L M : Type) where
  loss : P → P → L
  metric : P → P → M

/-- optimizers.py:183-186 (SGD), 416-419 (Adam): a new forward pass with the updated parameters. -/
def evalSGD {P L M : Type} (loss : P → L) (metric : P → M) : Eval P L M := ⟨fun _ a => loss a, fun _ a => metric a⟩

/-- optimizers.py:540-544 (gradient descent), 652-656 (Newton) with the log-likelihood: the loss of the updated parameters, the metric of
the predictions made before the update. -/
def evalLogistic {P L M : Type} (loss : P → L) (metric : P → M) : Eval P L M := ⟨fun _ a => loss a, fun b _ => metric b⟩

/-- optimizers.py:786-787 (RBF), and 543 (gradient descent with another loss): both from the predictions made before the update. -/
def evalBefore {P L M : Type} (loss : P → L) (metric : P → M) : Eval P L M := ⟨fun b _ => loss b, fun b _ => metric b⟩

/-- optimizers.py:180-193 (and 413-426, 539-551, 651-663, 785-793): the monitoring at the end of epoch `e` that changed the parameters
from `p` to `p'`.  (`if callbacks:` is false for an empty list, for which `record` does nothing.) -/
def monitor {P L M : Type} (ev : Eval P L M) (bar : Option Nat) (cbs : Option (List Callback)) (e : Nat) (p p' : P) (w : World L M) : World L M :=
  match bar, cbs with
  | none, none => w
  | some n, none => ⟨w.drawn ++ [(e, n, ev.loss p p', ev.metric p p')], w.hist⟩
  | none, some c => ⟨w.drawn, record c (ev.loss p p') (ev.metric p p') w.hist⟩
  | some n, some c => ⟨w.drawn ++ [(e, n, ev.loss p p', ev.metric p p')], record c (ev.loss p p') (ev.metric p p') w.hist⟩

/-- The epochs `e, e+1, …, e+k-1` of a training loop.  `upd` is the update of the parameters in an epoch (it may depend on the
epoch: random index, moments of Adam). -/
def loop {P L M : Type} (upd : Nat → P → P) (ev : Eval P L M) (bar : Option Nat) (cbs : Option (List Callback)) :
    Nat → Nat → P → World L M → P × World L M
  | _, 0, p, w => (p, w)
  | e, k + 1, p, w => loop upd ev bar cbs (e + 1) k (upd e p) (monitor ev bar cbs e p (upd e p) w)

/-- optimizers.py:142-195 and the other `run` methods: the bar is made if `verbose` is true and kept in the object. -/
def run {P L M : Type} (upd : Nat → P → P) (ev : Eval P L M) (o : Opt) (verbose : Bool) (cbs : Option (List Callback)) (epochs : Nat) (p : P)
    (w : World L M) : P × World L M × Opt :=
  let bar := if verbose then some epochs else o.bar
  let r := loop upd ev bar cbs 1 epochs p w
  (r.1, r.2, ⟨bar⟩)

/-- A call of `fit`. -/
structure Call where
  verbose : Bool
  cbs : Option (List Callback)
  epochs : Nat

/-- A sequence of fits of one model that continues from its parameters (`is_loaded`, back_propagation_neural_network.py:107) with one
optimiser object. -/
def runAll {P L M : Type} (upd : Nat → P → P) (ev : Eval P L M) : List Call → Opt → P → World L M → P × World L M × Opt
  | [], o, p, w => (p, w, o)
  | c :: cs, o, p, w =>
    let r := run upd ev o c.verbose c.cbs c.epochs p w
    runAll upd ev cs r.2.2 r.1 r.2.1

/-! ## The extra arguments of an optimiser -/

/-- Values of the extra arguments: strings, and everything else. -/
inductive Val (α : Type) where
  | str (s : String)
  | obj (a : α)
  deriving DecidableEq

/-- optimizers.py:46 the initial list. -/
def names : List String := ["verbose", "loss", "metric", "callbacks"]

/-- optimizers.py:36-55 `_get_optimizer_parameters`: more than four positional values raise `IndexError`.  Keyword arguments are compared
with the current entries of the list. -/
def getParams {α : Type} [DecidableEq α] (args : List (Val α)) (kwargs : List (String × Val α)) : Except PyErr (List (Val α)) :=
  if 4 < args.length then .error .indexError
  else
    let l0 : List (Val α) := args ++ (names.drop args.length).map Val.str
    .ok (kwargs.foldl (fun l kv => l.map fun v => if v = .str kv.1 then kv.2 else v) l0)

end CML.Train
