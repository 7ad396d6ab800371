import Verif.Spec.History
import Mathlib.Data.List.Basic

/-! # C223–C225: the history of a training run as a program sees it -/

set_option linter.unusedSectionVars false

namespace CML.Hist

variable {V K : Type}

theorem recorded_cons (key : String) (w : Which) (o : Op V) (os : List (Op V)) :
    recorded key w (o :: os) = (o.recorded key w).toList ++ recorded key w os := by
  unfold recorded
  cases h : o.recorded key w <;> simp [List.filterMap_cons, h]

theorem recorded_append (key : String) (w : Which) (a b : List (Op V)) :
    recorded key w (a ++ b) = recorded key w a ++ recorded key w b := by
  simp [recorded, List.filterMap_append]

theorem Py.run_append (s : Py V) (a b : List (Op V)) :
    (s.run (a ++ b)).1 = ((s.run a).1.run b).1 := by
  induction a generalizing s with
  | nil => rfl
  | cons o a ih => simp only [List.cons_append, Py.run, ih]

theorem CC.run_append (num : V → Option K) (py : K → V) (s : CC V K) (a b : List (Op V)) :
    (s.run num py (a ++ b)).1 = ((s.run num py a).1.run num py b).1 := by
  induction a generalizing s with
  | nil => rfl
  | cons o a ih => simp only [List.cons_append, CC.run, ih]

/-! ### The C++ engine -/

theorem cc_step (num : V → Option K) (py : K → V) (s : CC V K) (o : Op V) (w : Which)
    (hn : ∀ l m, o.values = some (l, m) → (∃ a, num l = some a) ∧ ∃ b, num m = some b) :
    (((s.step num py o).1.vector w).map some) =
      (s.vector w).map some ++ ((o.recorded "metric_name" w).toList.map num) := by
  cases o with
  | call l m =>
      obtain ⟨⟨a, ha⟩, b, hb⟩ := hn l m rfl
      cases w <;> simp [CC.step, CC.record, ha, hb, CC.vector, Op.recorded]
  | named k l m =>
      obtain ⟨⟨a, ha⟩, b, hb⟩ := hn l m rfl
      by_cases hk : k = "metric_name" <;> cases w <;>
        simp [CC.step, CC.record, ha, hb, CC.vector, Op.recorded, hk]
  | read w' => cases w <;> simp [CC.step, CC.vector, Op.recorded]
  | append x v =>
      cases h : s.vars[x]? <;> cases w <;> simp [CC.step, CC.vector, Op.recorded, h]
  | assign w' x =>
      cases h : s.vars[x]? <;> cases w <;> simp [CC.step, CC.vector, Op.recorded, h]

theorem cc_run (num : V → Option K) (py : K → V) (s : CC V K) (ops : List (Op V)) (w : Which)
    (hn : Numeric num ops) :
    (((s.run num py ops).1.vector w).map some) =
      (s.vector w).map some ++ ((recorded "metric_name" w ops).map num) := by
  induction ops generalizing s with
  | nil => simp [CC.run, recorded]
  | cons o os ih =>
      rw [CC.run, ih _ (fun o' h => hn o' (List.mem_cons_of_mem _ h)),
        cc_step num py s o w (hn o List.mem_cons_self), recorded_cons, List.map_append,
        List.append_assoc]

/-- **C223** (C++ engine): whatever the program does with the lists it reads — appending to them, trying to
assign them back — the history shows the values of the calls, in order, and nothing else. -/
theorem C223_cc (num : V → Option K) (py : K → V) (ops : List (Op V)) (w : Which)
    (hn : Numeric num ops) :
    (((CC.new.run num py ops).1.shows py w).map some) =
      (recorded "metric_name" w ops).map (fun v => (num v).map py) := by
  have h := cc_run num py CC.new ops w hn
  have e : (CC.new : CC V K).vector w = [] := by cases w <;> rfl
  rw [e, List.map_nil, List.nil_append] at h
  have h' := congrArg (List.map (Option.map py)) h
  simp only [List.map_map] at h'
  unfold CC.shows
  rw [List.map_map]
  exact h'

/-- **C223** (C++ engine): a call with a value that is no number raises `TypeError` and records neither
value. -/
theorem C223_cc_refused (num : V → Option K) (py : K → V) (s : CC V K) (l m : V)
    (h : num l = none ∨ num m = none) : s.step num py (.call l m) = (s, some .typeError) := by
  rcases h with h | h
  · simp [CC.step, CC.record, h]
  · cases hl : num l <;> simp [CC.step, CC.record, h, hl]

/-! ### The Python engine -/

/-- Untouched: the history still has its own two lists, and every variable refers to one of them. -/
def Own (s : Py V) : Prop :=
  s.loss = 0 ∧ s.metric = 1 ∧ s.heap.length = 2 ∧ ∀ r ∈ s.vars, r = 0 ∨ r = 1

theorem py_step (s : Py V) (o : Op V) (w : Which) (hs : Own s) (ho : o.HandsOff) :
    Own (s.step o).1 ∧ (s.step o).1.shows w = s.shows w ++ (o.recorded "metric_value" w).toList ∧
      ∀ x r : Nat, s.vars[x]? = some r → (s.step o).1.vars[x]? = some r := by
  obtain ⟨heap, vars, loss, metric⟩ := s
  obtain ⟨h0, h1, h2, h3⟩ := hs
  simp only at h0 h1 h2 h3
  subst h0; subst h1
  rcases heap with _ | ⟨a, _ | ⟨b, _ | ⟨c, heap⟩⟩⟩ <;> simp at h2
  cases o with
  | call l m =>
      refine ⟨⟨rfl, rfl, rfl, h3⟩, ?_, fun x r h => h⟩
      cases w <;> rfl
  | named k l m =>
      by_cases hk : k = "metric_value"
      · subst hk
        refine ⟨⟨rfl, rfl, rfl, h3⟩, ?_, fun x r h => h⟩
        cases w <;> rfl
      · simp only [Py.step, if_neg hk, Op.recorded]
        refine ⟨⟨rfl, rfl, rfl, h3⟩, ?_, fun x r h => h⟩
        simp
  | read w' =>
      refine ⟨⟨rfl, rfl, rfl, ?_⟩, ?_, ?_⟩
      · intro r hr
        simp only [Py.step, List.mem_append, List.mem_singleton] at hr
        rcases hr with hr | hr
        · exact h3 r hr
        · cases w' <;> simp [Py.ref] at hr <;> omega
      · cases w <;> simp [Py.step, Py.shows, Py.ref, Op.recorded]
      · intro x r h
        simp only [Py.step] at h ⊢
        have hx : x < vars.length := by
          by_contra hc
          rw [List.getElem?_eq_none (by omega)] at h
          cases h
        rw [List.getElem?_append_left hx]; exact h
  | append x v => exact ho.elim
  | assign w' x => exact ho.elim

theorem py_run (s : Py V) (ops : List (Op V)) (w : Which) (hs : Own s)
    (ho : ∀ o ∈ ops, o.HandsOff) :
    Own (s.run ops).1 ∧ (s.run ops).1.shows w = s.shows w ++ recorded "metric_value" w ops ∧
      ∀ x r : Nat, s.vars[x]? = some r → (s.run ops).1.vars[x]? = some r := by
  induction ops generalizing s with
  | nil => simp [Py.run, recorded, hs]
  | cons o os ih =>
      obtain ⟨a, b, c⟩ := py_step s o w hs (ho o List.mem_cons_self)
      obtain ⟨a', b', c'⟩ := ih _ a (fun o' h => ho o' (List.mem_cons_of_mem _ h))
      refine ⟨a', ?_, fun x r h => c' x r (c x r h)⟩
      rw [Py.run, b', b, recorded_cons, List.append_assoc]

theorem own_new : Own (Py.new : Py V) := ⟨rfl, rfl, rfl, fun r h => by cases h⟩

/-- **C223** (partial: Python engine, programs that leave the lists they read alone): the history shows the
values of the calls, in order, numbers or not. -/
theorem C223_python_partial (ops : List (Op V)) (w : Which) (ho : ∀ o ∈ ops, o.HandsOff) :
    ((Py.new.run ops).1.shows w) = recorded "metric_value" w ops := by
  have h := (py_run Py.new ops w own_new ho).2.1
  rw [h]
  cases w <;> rfl

/-- **C223** fails on the Python engine: after any such program, `x = h.loss; x.append(v)` enters a value
into the history that no training produced. -/
theorem C223_violated (ops : List (Op V)) (w : Which) (ho : ∀ o ∈ ops, o.HandsOff) (v : V) :
    (Py.new.run (ops ++ [.read w, .append (Py.new.run ops).1.vars.length v])).1.shows w =
      recorded "metric_value" w ops ++ [v] := by
  rw [Py.run_append]
  have ⟨⟨h0, h1, h2, h3⟩, hv, _⟩ := py_run Py.new ops w own_new ho
  have hv' := C223_python_partial ops w ho
  generalize (Py.new.run ops).1 = s at *
  obtain ⟨heap, vars, loss, metric⟩ := s
  simp only at h0 h1 h2 h3
  subst h0; subst h1
  rcases heap with _ | ⟨a, _ | ⟨b, _ | ⟨c, heap⟩⟩⟩ <;> simp at h2
  rw [← hv']
  cases w <;> simp [Py.run, Py.step, Py.ref, Py.shows, push]

/-! ### C224: a list that was read -/

theorem py_vars (s : Py V) (ops : List (Op V)) (hs : Own s) (ho : ∀ o ∈ ops, o.HandsOff) :
    ∀ x r : Nat, s.vars[x]? = some r → (s.run ops).1.vars[x]? = some r :=
  (py_run s ops .loss hs ho).2.2

/-- **C224** fails on the Python engine: a list read before further training (`xs = h.loss`) grows with
it. -/
theorem C224_violated (before after : List (Op V)) (w : Which) (hb : ∀ o ∈ before, o.HandsOff)
    (ha : ∀ o ∈ after, o.HandsOff) :
    (Py.new.run (before ++ .read w :: after)).1.var (Py.new.run before).1.vars.length =
      some (recorded "metric_value" w before ++ recorded "metric_value" w after) := by
  have hall : ∀ o ∈ before ++ .read w :: after, o.HandsOff := by
    intro o h
    rw [List.mem_append, List.mem_cons] at h
    rcases h with h | h | h
    · exact hb o h
    · subst h; trivial
    · exact ha o h
  have hs := (py_run Py.new (before ++ .read w :: after) w own_new hall).1
  have hv := C223_python_partial (before ++ .read w :: after) w hall
  have h1 := (py_run Py.new before w own_new hb).1
  have h2 := (py_step (Py.new.run before).1 (.read w) w h1 trivial).1
  have hx : (Py.new.run (before ++ .read w :: after)).1.vars[(Py.new.run before).1.vars.length]? =
      some ((Py.new.run before).1.ref w) := by
    rw [Py.run_append, Py.run]
    refine py_vars _ after h2 ha _ _ ?_
    simp [Py.step]
  have hr : (Py.new.run before).1.ref w = (Py.new.run (before ++ .read w :: after)).1.ref w := by
    obtain ⟨a, b, _⟩ := hs
    obtain ⟨a', b', _⟩ := h1
    cases w <;> simp [Py.ref, a, b, a', b']
  rw [Py.var, hx, Option.bind_some, hr]
  rw [recorded_append, recorded_cons] at hv
  simp only [Op.recorded, Option.toList_none, List.nil_append] at hv
  rw [← hv, Py.shows]
  have hl : (Py.new.run (before ++ .read w :: after)).1.ref w <
      (Py.new.run (before ++ .read w :: after)).1.heap.length := by
    obtain ⟨a, b, c, _⟩ := hs
    cases w <;> simp [Py.ref, a, b, c]
  rw [List.getElem?_eq_getElem hl, List.getD_eq_getElem?_getD, List.getElem?_eq_getElem hl]
  rfl

/-- Steps that leave the variables alone keep every list that a variable refers to. -/
theorem cc_keeps (num : V → Option K) (py : K → V) (s : CC V K) (ops : List (Op V)) (x r : Nat)
    (l : List V) (ho : ∀ o ∈ ops, o.HandsOff) (hx : s.vars[x]? = some r) (hl : s.heap[r]? = some l) :
    (s.run num py ops).1.vars[x]? = some r ∧ (s.run num py ops).1.heap[r]? = some l := by
  induction ops generalizing s with
  | nil => exact ⟨hx, hl⟩
  | cons o os ih =>
      rw [CC.run]
      have h := ho o List.mem_cons_self
      refine ih _ (fun o' h => ho o' (List.mem_cons_of_mem _ h)) ?_ ?_ <;> cases o with
      | call l m => 
          simp only [CC.step, CC.record]
          cases num l <;> cases num m <;> assumption
      | named k l m =>
          simp only [CC.step, CC.record]
          by_cases hk : k = "metric_name"
          · rw [if_pos hk]
            cases num l <;> cases num m <;> assumption
          · rw [if_neg hk]; assumption
      | read w =>
          simp only [CC.step]
          first
            | (rw [List.getElem?_append_left (by
                by_contra hc
                rw [List.getElem?_eq_none (by omega)] at hx
                cases hx)]; exact hx)
            | (rw [List.getElem?_append_left (by
                by_contra hc
                rw [List.getElem?_eq_none (by omega)] at hl
                cases hl)]; exact hl)
      | append x v => exact h.elim
      | assign w x => exact h.elim

/-- **C224** (partial: C++ engine): a list read from the history is a snapshot; whatever was done before,
later training does not change it. -/
theorem C224_cc_partial (num : V → Option K) (py : K → V) (before after : List (Op V)) (w : Which)
    (ha : ∀ o ∈ after, o.HandsOff) :
    (CC.new.run num py (before ++ .read w :: after)).1.var (CC.new.run num py before).1.vars.length =
      some ((CC.new.run num py before).1.shows py w) := by
  rw [CC.run_append, CC.run]
  generalize (CC.new.run num py before).1 = s
  obtain ⟨h1, h2⟩ := cc_keeps num py (s.step num py (.read w)).1 after s.vars.length s.heap.length
    (s.shows py w) ha (by simp [CC.step]) (by simp [CC.step, CC.shows])
  rw [CC.var, h1, Option.bind_some, h2]

/-! ### C225: the two engines -/

theorem py_errors (s : Py V) (ops : List (Op V)) (ho : ∀ o ∈ ops, o.Positional) :
    (s.run ops).2 = ops.map (fun _ => none) := by
  induction ops generalizing s with
  | nil => rfl
  | cons o os ih =>
      have h := ho o List.mem_cons_self
      rw [Py.run, List.map_cons, ih _ (fun o' h => ho o' (List.mem_cons_of_mem _ h))]
      cases o <;> first | rfl | exact h.elim

theorem cc_errors (num : V → Option K) (py : K → V) (s : CC V K) (ops : List (Op V))
    (hn : Numeric num ops) (ho : ∀ o ∈ ops, o.Positional) :
    (s.run num py ops).2 = ops.map (fun _ => none) := by
  induction ops generalizing s with
  | nil => rfl
  | cons o os ih =>
      have h := ho o List.mem_cons_self
      have hv := hn o List.mem_cons_self
      rw [CC.run, List.map_cons, ih _ (fun o' h => hn o' (List.mem_cons_of_mem _ h))
        (fun o' h => ho o' (List.mem_cons_of_mem _ h))]
      cases o with
      | call l m =>
          obtain ⟨⟨a, ha⟩, b, hb⟩ := hv l m rfl
          simp [CC.step, CC.record, ha, hb]
      | _ => exact h.elim

/-- **C225** (partial: what the optimisers do, calls by position with numbers): both engines raise nothing
and show the same values, up to the conversion of the number to a Python `float`. -/
theorem C225_engines_partial (num : V → Option K) (py : K → V) (ops : List (Op V)) (w : Which)
    (hn : Numeric num ops) (ho : ∀ o ∈ ops, o.Positional) :
    (CC.new.run num py ops).2 = (Py.new.run ops).2 ∧
    ((CC.new.run num py ops).1.shows py w).map some =
      ((Py.new.run ops).1.shows w).map (fun v => (num v).map py) := by
  refine ⟨?_, ?_⟩
  · rw [py_errors _ _ ho, cc_errors _ _ _ _ hn ho]
  · rw [C223_cc num py ops w hn, C223_python_partial ops w (fun o h => by
      have := ho o h; cases o <;> first | trivial | exact this.elim)]
    congr 1
    unfold recorded
    refine List.filterMap_congr (fun o h => ?_)
    have := ho o h
    cases o <;> first | rfl | exact this.elim

/-- **C225** fails: the documented names of the arguments work on the Python engine only, the name that
works on the C++ engine fails on the Python engine, and the lists can be replaced on the Python engine
only. -/
theorem C225_violated (num : V → Option K) (py : K → V) (s : CC V K) (p : Py V) (l m : V) (a b : K)
    (ha : num l = some a) (hb : num m = some b) (w : Which) (x : Nat) (hx : x < s.vars.length)
    (hx' : x < p.vars.length) :
    (p.step (.named "metric_value" l m)).2 = none ∧
    s.step num py (.named "metric_value" l m) = (s, some .typeError) ∧
    p.step (.named "metric_name" l m) = (p, some .typeError) ∧
    (s.step num py (.named "metric_name" l m)).2 = none ∧
    (p.step (.assign w x)).2 = none ∧
    s.step num py (.assign w x) = (s, some .attributeError) := by
  refine ⟨by simp [Py.step], by simp [CC.step], by simp [Py.step], by simp [CC.step, CC.record, ha, hb],
    ?_, ?_⟩
  · cases w <;> simp [Py.step, List.getElem?_eq_getElem hx']
  · simp [CC.step, List.getElem?_eq_getElem hx]

/-- Non-vacuity: two epochs, a list read in between, a value appended to it. -/
example :
    ((Py.new.run [.call 5 1, .read .loss, .call 4 2, .append 0 (9 : Int)]).1.shows .loss) = [5, 4, 9] ∧
    ((CC.new.run some id [.call 5 1, .read .loss, .call 4 2, .append 0 (9 : Int)]).1.shows id .loss) =
      [5, 4] ∧
    ((Py.new.run [.call 5 1, .read .loss, .call 4 (2 : Int)]).1.var 0) = some [5, 4] ∧
    ((CC.new.run some id [.call 5 1, .read .loss, .call 4 (2 : Int)]).1.var 0) = some [5] := by
  decide

example : Numeric (some : Int → Option Int) [.call 5 1, .read .loss, .call 4 2] ∧
    ∀ o ∈ [Op.call 5 1, .read .loss, .call 4 (2 : Int)], o.HandsOff :=
  ⟨fun _ _ l m _ => ⟨⟨l, rfl⟩, m, rfl⟩, by simp [Op.HandsOff]⟩

end CML.Hist
