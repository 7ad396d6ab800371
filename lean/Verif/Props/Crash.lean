import Verif.Model.Crash
import Verif.Props.Persist

set_option linter.unusedSectionVars false

/-!
# Property C320: interrupted saves

io.py:40-99 and the `save_weights`, `load_weights` of all models.
-/

namespace CML.Persist
open CML.Getters CML.IO

variable (env : Env) (user : String)

lemma fold_lines (o : PyObj) : ∀ (ls : List SaveLine) (p p' : Params HVal) (f : HFile HVal), f.parameters = some p → execSave env o ls p = (p', none) →
    (ls.filterMap (lineWrite env o)).foldl Write.apply f = { f with parameters := some p' }
  | [], p, p', f, hf, h => by
    simp only [execSave, Prod.mk.injEq, and_true] at h
    subst h
    simp [← hf]
  | l :: ls, p, p', f, hf, h => by
    simp only [execSave] at h
    split at h
    · rename_i ha
      split at h
      · rename_i v hv
        have e : lineWrite env o l = some (.put l.ds l.key v) := by simp [lineWrite, ha, hv]
        rw [List.filterMap_cons_some e, List.foldl_cons, fold_lines o ls (Params.put p l.ds l.key v) p' _ (by simp [Write.apply, hf]) h]
        rfl
      · simp at h
    · rename_i ha
      have e : lineWrite env o l = none := by simp [lineWrite, ha]
      rw [List.filterMap_cons_none e]
      exact fold_lines o ls p p' f hf h

lemma fold_params : ∀ (d : Dict String PyVal) (p p' : Params HVal) (f : HFile HVal), f.parameters = some p → execSaveLoop env d p = (p', none) →
    (d.filterMap (paramWrite env)).foldl Write.apply f = { f with parameters := some p' }
  | [], p, p', f, hf, h => by
    simp only [execSaveLoop, Prod.mk.injEq, and_true] at h
    subst h
    simp [← hf]
  | (k, v) :: d, p, p', f, hf, h => by
    simp only [execSaveLoop] at h
    split at h
    · rename_i w hw
      have e : paramWrite env (k, v) = some (.put .weights k w) := by simp [paramWrite, hw]
      rw [List.filterMap_cons_some e, List.foldl_cons, fold_params d (Params.put p .weights k w) p' _ (by simp [Write.apply, hf]) h]
      rfl
    · simp at h

lemma header_file (name : String) : fileAfter (headerWrites user name) = freshFile user name := by
  simp [fileAfter, headerWrites, Write.apply, freshFile, Dict.set]

/-- A save that completes, taken apart. -/
lemma save_parts {writable : String → Bool} {c : Cls} {fs fs' : FS HVal} {path : String} {o : PyObj} (h : save env writable user c fs path o = (fs', none)) :
    writable path = true ∧ ∃ p, execSave env o c.save ⟨some [], some []⟩ = (p, none) ∧
      ∃ p', (if c.loop then execSaveLoop env o.params p else (p, none)) = (p', none) ∧
        fs' = fun q => if q = path then some { (freshFile user c.name : HFile HVal) with parameters := some p' } else fs q := by
  simp only [save, initWrite] at h
  by_cases hw : writable path = true
  · refine ⟨hw, ?_⟩
    simp only [hw, if_true] at h
    rcases hr : execSave env o c.save ⟨some [], some []⟩ with ⟨p, _ | e⟩
    · rw [hr] at h
      dsimp only at h
      refine ⟨p, rfl, ?_⟩
      rcases hq : (if c.loop then execSaveLoop env o.params p else (p, none)) with ⟨p', _ | e⟩
      · rw [hq] at h
        refine ⟨p', rfl, ?_⟩
        rw [← (Prod.mk.inj h).1]
        funext q
        by_cases hqp : q = path <;> simp [hqp]
      · rw [hq] at h
        simp at h
    · rw [hr] at h
      simp at h
  · simp [hw] at h

/-- C320: the writes are those of `save_weights`: after all of them the file is the saved one. -/
theorem C320_all_writes (writable : String → Bool) (c : Cls) (fs fs' : FS HVal) (path : String) (o : PyObj) (h : save env writable user c fs path o = (fs', none)) :
    interrupted env user c fs path o (saveWrites env user c o).length = fs' := by
  obtain ⟨-, p, h1, p', h2, rfl⟩ := save_parts env user h
  funext q
  simp only [interrupted, List.take_length]
  congr 2
  rw [saveWrites, lineWrites, fileAfter, List.foldl_append, List.foldl_append]
  have hh := header_file user c.name
  rw [fileAfter] at hh
  rw [hh, fold_lines env o c.save ⟨some [], some []⟩ p (freshFile user c.name) rfl h1]
  by_cases hl : c.loop = true
  · rw [if_pos hl] at h2 ⊢
    rw [fold_params env o.params p p' _ rfl h2]
  · rw [if_neg hl] at h2 ⊢
    simp only [Prod.mk.injEq, and_true] at h2
    rw [h2]
    rfl

/-- The file has no such attribute. -/
def Lacks (d : DS) (k : String) (f : HFile HVal) : Prop := ∀ p, f.parameters = some p → stored p d k = none

lemma lacks_apply (d : DS) (k : String) (f : HFile HVal) (w : Write) (hw : ∀ v, w ≠ .put d k v) (h : Lacks d k f) : Lacks d k (w.apply f) := by
  intro p hp
  cases w with
  | description => exact h p hp
  | describe a b => exact h p hp
  | parameters =>
    simp only [Write.apply, Option.some.injEq] at hp
    subst hp
    cases d <;> rfl
  | dataset d' =>
    cases d' <;> simp only [Write.apply, Option.map_eq_some_iff] at hp <;> obtain ⟨q, hq, rfl⟩ := hp <;> have := h q hq <;>
      cases d <;> first | exact this | rfl
  | put d' k' v =>
    simp only [Write.apply, Option.map_eq_some_iff] at hp
    obtain ⟨q, hq, rfl⟩ := hp
    have hs := h q hq
    by_cases hd : d' = d
    · subst hd
      have hk : k' ≠ k := fun e => hw v (by rw [e])
      cases d' <;> simp only [stored, Params.put, Params.ds] at hs ⊢
      · cases hc : q.compile with
        | none => rfl
        | some a => rw [hc] at hs; simpa [Dict.get_set, hk] using hs
      · cases hc : q.weights with
        | none => rfl
        | some a => rw [hc] at hs; simpa [Dict.get_set, hk] using hs
    · cases d' <;> cases d <;> first | exact absurd rfl hd | exact hs

lemma lacks_file (d : DS) (k : String) : ∀ (ws : List Write) (f : HFile HVal), (∀ w ∈ ws, ∀ v, w ≠ .put d k v) → Lacks d k f → Lacks d k (ws.foldl Write.apply f)
  | [], _, _, h => h
  | w :: ws, f, hw, h => lacks_file d k ws _ (fun w' hw' => hw w' (List.mem_cons_of_mem _ hw')) (lacks_apply d k f w (hw w List.mem_cons_self) h)

/-- The last line of every `save_weights` is unconditional, and `load_weights` reads it. -/
lemma last_line : ∀ c ∈ classes, ∃ s, c.save.getLast? = some s ∧ s.cond = none ∧ ∃ l ∈ c.load, l.cond = none ∧ l.ds = s.ds ∧ l.key = s.key := by
  intro c hc
  have : ∀ c ∈ classes, (match c.save.getLast? with
      | some s => decide (s.cond = none) && c.load.any fun l => decide (l.cond = none ∧ l.ds = s.ds ∧ l.key = s.key)
      | none => false) = true := by decide +kernel
  have h := this c hc
  split at h
  · rename_i s hs
    simp only [Bool.and_eq_true, decide_eq_true_eq, List.any_eq_true] at h
    exact ⟨s, hs, h.1, h.2⟩
  · simp at h

/-- C320, for every model class: a save interrupted anywhere before the last attribute of its list of attributes is written leaves a file that `load_weights` of no instance
accepts: it raises, and the instance does not count as loaded. For all models but the neural networks this is every interruption. -/
theorem C320_refused_partial (pv : String → Option Version) (writable : String → Bool) (c : Cls) (hc : c ∈ classes) (fs fs' : FS HVal) (path : String) (o o₀ : PyObj)
    (hs : save env writable user c fs path o = (fs', none)) (j : Nat) (hj : j < (lineWrites env user c o).length) :
    (∃ e, (load env pv c (interrupted env user c fs path o j) path o₀).2 = some e) ∧
    (load env pv c (interrupted env user c fs path o j) path o₀).1.isLoaded = o₀.isLoaded ∧
    (c.loop = false → (saveWrites env user c o).length = (lineWrites env user c o).length) := by
  have key : ∃ e, (load env pv c (interrupted env user c fs path o j) path o₀).2 = some e := by
    by_contra hno
    rcases hl : load env pv c (interrupted env user c fs path o j) path o₀ with ⟨o', _ | e⟩
    swap
    · exact hno ⟨e, by rw [hl]⟩
    obtain ⟨p, w, o1, hr, hw, hex, -⟩ := load_ok hl
    obtain ⟨s, hlast, hsc, l, hlm, hlc, hld, hlk⟩ := last_line c hc
    obtain ⟨hn1, hn2, -, -⟩ := fit_parts hc
    obtain ⟨om, h, v, hst, -, -⟩ := execLoad_ok env p c.load o₀ o1 hex hn2 l hlm hlc
    obtain ⟨init, hinit⟩ : ∃ init, c.save = init ++ [s] := by
      rw [List.getLast?_eq_some_iff] at hlast
      exact hlast
    have hp : (fileAfter ((saveWrites env user c o).take j)).parameters = some p := by
      simp only [initRead, interrupted, if_true] at hr
      rcases hpar : parse pv c.name (fileAfter ((saveWrites env user c o).take j)) with e | u <;> rw [hpar] at hr <;> simp only [bind, Except.bind] at hr
      · simp at hr
      · unfold key at hr
        split at hr
        · rename_i a ha
          injection hr with hr
          rw [ha, hr]
        · simp at hr
    have hex2 : ∃ v, lineWrite env o s = some (.put s.ds s.key v) := by
      obtain ⟨-, q, h1, -⟩ := save_parts env user hs
      obtain ⟨-, -, h3, -⟩ := execSave_ok env o c.save _ _ full_empty h1 hn1
      obtain ⟨v, hv, -⟩ := h3 s (by rw [hinit]; simp) (by simp [hsc, active])
      exact ⟨v, by simp [lineWrite, hsc, active, hv]⟩
    obtain ⟨v', hv'⟩ := hex2
    have hbody : lineWrites env user c o = (headerWrites user c.name ++ init.filterMap (lineWrite env o)) ++ [.put s.ds s.key v'] := by
      rw [lineWrites, hinit, List.filterMap_append]
      simp [hv', List.filterMap_cons]
    have htake : (saveWrites env user c o).take j = (headerWrites user c.name ++ init.filterMap (lineWrite env o)).take j := by
      rw [saveWrites, List.take_append_of_le_length (by omega), hbody, List.take_append_of_le_length]
      rw [hbody, List.length_append] at hj
      simp at hj
      simp
      omega
    have hlack : Lacks s.ds s.key (fileAfter ((saveWrites env user c o).take j)) := by
      rw [htake]
      refine lacks_file s.ds s.key _ _ ?_ (by intro p hp; simp at hp)
      intro w hw v'' he
      have hw := List.mem_of_mem_take hw
      subst he
      rcases List.mem_append.1 hw with hw | hw
      · simp [headerWrites] at hw
      · obtain ⟨l', hl', he⟩ := List.mem_filterMap.1 hw
        simp only [lineWrite] at he
        split at he
        · split at he
          · simp only [Option.some.injEq, Write.put.injEq] at he
            rw [hinit, List.map_append, List.nodup_append] at hn1
            exact hn1.2.2 (l'.ds, l'.key) (List.mem_map.2 ⟨l', hl', rfl⟩) (s.ds, s.key) (by simp) (by rw [he.1, he.2.1])
          · simp at he
        · simp at he
    have := hlack p hp
    rw [← hld, ← hlk, hst] at this
    simp at this
  refine ⟨key, ?_, fun hl => by simp [saveWrites, hl]⟩
  obtain ⟨e, he⟩ := key
  rcases hl : load env pv c (interrupted env user c fs path o j) path o₀ with ⟨o', e'⟩
  rw [hl] at he
  dsimp only at he
  rw [he] at hl
  exact (C111_failed_load_partial env pv c _ path o₀ o' e hl).2.1

/-- C320 fails as to the old model: whatever file was at the path, after the interruption it can no longer be loaded, nor the new one; files at other paths are untouched. -/
theorem C320_neither_old_nor_new (pv : String → Option Version) (writable : String → Bool) (c c' : Cls) (hc : c ∈ classes) (fs fs' : FS HVal) (path : String) (o o₀ o₁ : PyObj)
    (hs : save env writable user c fs path o = (fs', none)) (_hold : (load env pv c fs path o₀).2 = none) (j : Nat) (hj : j < (lineWrites env user c o).length) :
    (∃ e, (load env pv c (interrupted env user c fs path o j) path o₀).2 = some e) ∧
    ∀ q, q ≠ path → load env pv c' (interrupted env user c fs path o j) q o₁ = load env pv c' fs q o₁ := by
  refine ⟨(C320_refused_partial env user pv writable c hc fs fs' path o o₀ hs j hj).1, fun q hq => ?_⟩
  simp only [load, initRead, interrupted, if_neg hq]

lemma take_filterMap {α β : Type} (f : α → Option β) : ∀ (d : List α), (∀ x ∈ d, (f x).isSome) → ∀ m, (d.filterMap f).take m = (d.take m).filterMap f
  | [], _, m => by simp
  | x :: d, h, 0 => by simp
  | x :: d, h, m + 1 => by
    obtain ⟨y, hy⟩ := Option.isSome_iff_exists.1 (h x List.mem_cons_self)
    rw [List.filterMap_cons_some hy, List.take_succ_cons, List.take_succ_cons, List.filterMap_cons_some hy,
      take_filterMap f d (fun x' hx' => h x' (List.mem_cons_of_mem _ hx')) m]

lemma loop_prefix : ∀ (d : Dict String PyVal) (p p' : Params HVal), execSaveLoop env d p = (p', none) →
    (∀ kv ∈ d, (paramWrite env kv).isSome) ∧ ∀ m, ∃ p'', execSaveLoop env (d.take m) p = (p'', none)
  | [], p, p', h => ⟨by simp, fun m => ⟨p, by simp [execSaveLoop]⟩⟩
  | (k, v) :: d, p, p', h => by
    simp only [execSaveLoop] at h
    split at h
    · rename_i w hw
      obtain ⟨h1, h2⟩ := loop_prefix d _ p' h
      refine ⟨fun kv hkv => ?_, fun m => ?_⟩
      · rcases List.mem_cons.1 hkv with rfl | hkv
        · simp [paramWrite, hw]
        · exact h1 kv hkv
      · cases m with
        | zero => exact ⟨p, by simp [execSaveLoop]⟩
        | succ m =>
          obtain ⟨p'', hp⟩ := h2 m
          exact ⟨p'', by simp only [List.take_succ_cons, execSaveLoop, hw, hp]⟩
    · simp at h

lemma execSave_params (o : PyObj) (d : Dict String PyVal) : ∀ (ls : List SaveLine) (p : Params HVal), execSave env { o with params := d } ls p = execSave env o ls p
  | [], _ => rfl
  | l :: ls, p => by
    have e1 : active { o with params := d } l.cond = active o l.cond := rfl
    have e2 : evalSave env { o with params := d } l.expr = evalSave env o l.expr := by cases l.expr <;> rfl
    simp only [execSave, e1, e2, execSave_params o d ls]

lemma lineWrites_params (c : Cls) (o : PyObj) (d : Dict String PyVal) : lineWrites env user c { o with params := d } = lineWrites env user c o := by
  have : lineWrite env { o with params := d } = lineWrite env o := by
    funext l
    have e1 : active { o with params := d } l.cond = active o l.cond := rfl
    have e2 : evalSave env { o with params := d } l.expr = evalSave env o l.expr := by cases l.expr <;> rfl
    simp only [lineWrite, e1, e2]
  simp only [lineWrites, this]

/-- C320 fails for the neural networks: a save interrupted among the weights cannot be told from a completed save of a network that has the first `m` parameters only. -/
theorem C320_network_indistinguishable (writable : String → Bool) (c : Cls) (hl : c.loop = true) (fs fs' : FS HVal) (path : String) (o : PyObj)
    (hs : save env writable user c fs path o = (fs', none)) (m : Nat) :
    save env writable user c fs path { o with params := o.params.take m } =
      (interrupted env user c fs path o ((lineWrites env user c o).length + m), none) ∧
    (saveWrites env user c o).length = (lineWrites env user c o).length + o.params.length := by
  obtain ⟨hw, p, h1, p', h2, -⟩ := save_parts env user hs
  rw [if_pos hl] at h2
  obtain ⟨h3, h4⟩ := loop_prefix env o.params p p' h2
  obtain ⟨p'', h5⟩ := h4 m
  have hsv : ∃ fs'', save env writable user c fs path { o with params := o.params.take m } = (fs'', none) := by
    simp only [save, initWrite, hw, if_true, execSave_params, h1, hl, h5]
    exact ⟨_, rfl⟩
  obtain ⟨fs'', hsv⟩ := hsv
  constructor
  · rw [hsv, ← C320_all_writes env user writable c fs fs'' path _ hsv]
    congr 1
    have : (saveWrites env user c o).take ((lineWrites env user c o).length + m) = saveWrites env user c { o with params := o.params.take m } := by
      rw [saveWrites, saveWrites, if_pos hl, if_pos hl, List.take_append, List.take_of_length_le (by omega), Nat.add_sub_cancel_left,
        take_filterMap _ _ h3]
      exact congrArg (· ++ _) (lineWrites_params env user c o (o.params.take m)).symm
    funext q
    simp only [interrupted, List.take_length, this]
  · rw [saveWrites, if_pos hl, List.length_append]
    congr 1
    clear hsv h5 h4 h2 hs h1
    generalize o.params = d at h3 ⊢
    induction d with
    | nil => rfl
    | cons kv d ih =>
      obtain ⟨y, hy⟩ := Option.isSome_iff_exists.1 (h3 kv List.mem_cons_self)
      rw [List.filterMap_cons_some hy, List.length_cons, List.length_cons, ih fun kv' h' => h3 kv' (List.mem_cons_of_mem _ h')]

/-- C320 fails for the neural networks: a new instance loads such a file without complaint and counts as loaded, with the first `m` parameters and no others - without any,
if the save was interrupted before the first. -/
theorem C320_network_accepted (hpk : env.Pickles) (pv : String → Option Version) (v : Version) (hpv : pv cmlVersion = some v) (hv : AtLeast v [0, 5])
    (writable : String → Bool) (c : Cls) (hc : c = bpnn ∨ c = rbfn) (fs fs' : FS HVal) (path : String) (o o₀ : PyObj) (hnd : (o.params.map Prod.fst).Nodup) (hname : Nameable o)
    (hty : WellTyped o) (hprune : o.fields.get "pruner" = some .none → o₀.fields.get "pruner" = some .none) (hnew : o₀.params = [])
    (hs : save env writable user c fs path o = (fs', none)) (m : Nat) :
    ∃ o', load env pv c (interrupted env user c fs path o ((lineWrites env user c o).length + m)) path o₀ = (o', none) ∧ o'.isLoaded = true ∧
      ∀ k, o'.params.get k = Dict.get (o.params.take m) k := by
  have hcm : c ∈ classes := by rcases hc with rfl | rfl <;> simp [classes]
  have hcl : c.loop = true := by rcases hc with rfl | rfl <;> rfl
  have h1 := (C320_network_indistinguishable env user writable c hcl fs fs' path o hs m).1
  have hnd' : (({ o with params := o.params.take m } : PyObj).params.map Prod.fst).Nodup := by
    show ((o.params.take m).map Prod.fst).Nodup
    rw [List.map_take]
    exact hnd.sublist (List.take_sublist _ _)
  obtain ⟨o', ho'⟩ := C109_load_succeeds env hpk pv v hpv hv writable user c hcm fs _ path { o with params := o.params.take m } o₀ hnd' hname hty hprune h1
  refine ⟨o', ho', ?_, fun k => ?_⟩
  · obtain ⟨-, w, o1, -, -, -, rfl⟩ := load_ok ho'
    rfl
  · have := C114_fresh_instance_partial env pv v hpv hv writable user c hc fs _ path _ o₀ o' hnd' h1 ho' k
    rw [this, hnew]
    cases Dict.get (o.params.take m) k <;> rfl

/-- The hypotheses are met: a network with two parameters is saved completely. -/
example : (save ⟨fun _ => [], fun _ => none, fun _ => true⟩ (fun _ => true) "me" rbfn (fun _ => none) "f"
      ⟨[("hidden_units", .num 1), ("optimizer", .optimizer OptCls.rbf.default), ("loss", .loss LossCls.mse.default), ("metric", .metric MetricCls.accuracy.default)],
        [("w", .arr [1, 1] [1]), ("b", .arr [1, 1] [0])], true, false⟩).2 = none := by decide +kernel

end CML.Persist
