import Verif.Spec.Persist
import Verif.Lemmas.IO

/-! # Lemmas about saving and loading -/

set_option linter.unusedSectionVars false

namespace CML.Persist
open CML.Getters CML.IO

/-- The value of an attribute of a data set. -/
def stored (p : Params HVal) (d : DS) (k : String) : Option HVal := (Params.ds p d).bind (fun a => Dict.get a k)

/-- Both data sets exist and have no duplicate attributes. -/
def Full (p : Params HVal) : Prop :=
  ∃ a b, p.compile = some a ∧ p.weights = some b ∧ (a.map Prod.fst).Nodup ∧ (b.map Prod.fst).Nodup

theorem full_put {p : Params HVal} (h : Full p) (d : DS) (k : String) (v : HVal) : Full (Params.put p d k v) := by
  obtain ⟨a, b, ha, hb, hna, hnb⟩ := h
  cases d with
  | compile => exact ⟨a.set k v, b, by simp [Params.put, ha], hb, Dict.nodup_set hna _ _, hnb⟩
  | weights => exact ⟨a, b.set k v, ha, by simp [Params.put, hb], hna, Dict.nodup_set hnb _ _⟩

theorem stored_put {p : Params HVal} (h : Full p) (d d' : DS) (k k' : String) (v : HVal) :
    stored (Params.put p d k v) d' k' = if d = d' ∧ k = k' then some v else stored p d' k' := by
  obtain ⟨a, b, ha, hb, -, -⟩ := h
  cases d <;> cases d' <;> simp [stored, Params.put, Params.ds, ha, hb, Dict.get_set]

theorem execSave_ok (env : Env) (o : PyObj) (ls : List SaveLine) : ∀ (p p' : Params HVal), Full p →
    execSave env o ls p = (p', none) → (ls.map (fun l => (l.ds, l.key))).Nodup →
    Full p' ∧ (∀ d k, (d, k) ∉ ls.map (fun l => (l.ds, l.key)) → stored p' d k = stored p d k) ∧
    (∀ l ∈ ls, active o l.cond = true → ∃ h, evalSave env o l.expr = .ok h ∧ stored p' l.ds l.key = some h) ∧
    (∀ l ∈ ls, active o l.cond = false → stored p' l.ds l.key = stored p l.ds l.key) := by
  induction ls with
  | nil =>
    intro p p' hf h _
    simp only [execSave, Prod.mk.injEq, and_true] at h
    subst h
    exact ⟨hf, fun _ _ _ => rfl, by simp, by simp⟩
  | cons l ls ih =>
    intro p p' hf h hn
    simp only [List.map_cons, List.nodup_cons] at hn
    obtain ⟨hl, hn⟩ := hn
    simp only [execSave] at h
    split at h
    · rename_i hact
      split at h
      · rename_i v hv
        obtain ⟨h1, h2, h3, h4⟩ := ih _ _ (full_put hf l.ds l.key v) h hn
        refine ⟨h1, ?_, ?_, ?_⟩
        · intro d k hk
          simp only [List.map_cons, List.mem_cons, not_or] at hk
          rw [h2 d k hk.2, stored_put hf, if_neg]
          rintro ⟨rfl, rfl⟩; exact hk.1 rfl
        · intro m hm ha
          rcases List.mem_cons.1 hm with rfl | hm
          · refine ⟨v, hv, ?_⟩
            rw [h2 _ _ hl, stored_put hf]; simp
          · exact h3 m hm ha
        · intro m hm ha
          rcases List.mem_cons.1 hm with rfl | hm
          · rw [hact] at ha; simp at ha
          · rw [h4 m hm ha, stored_put hf, if_neg]
            rintro ⟨e1, e2⟩
            exact hl (List.mem_map.2 ⟨m, hm, by rw [e1, e2]⟩)
      · simp at h
    · rename_i hact
      obtain ⟨h1, h2, h3, h4⟩ := ih _ _ hf h hn
      refine ⟨h1, ?_, ?_, ?_⟩
      · intro d k hk
        simp only [List.map_cons, List.mem_cons, not_or] at hk
        exact h2 d k hk.2
      · intro m hm ha
        rcases List.mem_cons.1 hm with rfl | hm
        · exact absurd ha hact
        · exact h3 m hm ha
      · intro m hm ha
        rcases List.mem_cons.1 hm with rfl | hm
        · exact h2 _ _ hl
        · exact h4 m hm ha

theorem execSaveLoop_ok (env : Env) (d : Dict String PyVal) : ∀ (p p' : Params HVal), Full p →
    execSaveLoop env d p = (p', none) → (d.map Prod.fst).Nodup →
    Full p' ∧ (∀ k, stored p' .compile k = stored p .compile k) ∧
    (∀ k, d.get k = none → stored p' .weights k = stored p .weights k) ∧
    (∀ k v, d.get k = some v → ∃ h, toH env v = .ok h ∧ stored p' .weights k = some h) := by
  induction d with
  | nil =>
    intro p p' hf h _
    simp only [execSaveLoop, Prod.mk.injEq, and_true] at h
    subst h
    exact ⟨hf, fun _ => rfl, fun _ _ => rfl, by simp [Dict.get]⟩
  | cons kv d ih =>
    obtain ⟨k0, v0⟩ := kv
    intro p p' hf h hn
    simp only [List.map_cons, List.nodup_cons] at hn
    simp only [execSaveLoop] at h
    split at h
    · rename_i h0 hh
      obtain ⟨h1, h2, h3, h4⟩ := ih _ _ (full_put hf .weights k0 h0) h hn.2
      refine ⟨h1, ?_, ?_, ?_⟩
      · intro k; rw [h2 k, stored_put hf]; simp
      · intro k hk
        simp only [Dict.get] at hk
        split at hk
        · simp at hk
        · rename_i hne
          rw [h3 k hk, stored_put hf]; simp [hne]
      · intro k v hk
        simp only [Dict.get] at hk
        split at hk
        · rename_i heq
          subst heq
          injection hk with hk; subst hk
          refine ⟨h0, hh, ?_⟩
          rw [h3 k0 ((Dict.get_eq_none d k0).2 hn.1), stored_put hf]; simp
        · exact h4 k v hk
    · simp at h

theorem stored_ds {p : Params HVal} {d : DS} {k : String} {h : HVal} (hs : stored p d k = some h) :
    ∃ a, Params.ds p d = some a ∧ Dict.get a k = some h := by
  simp only [stored] at hs
  exact Option.bind_eq_some_iff.1 hs

theorem loadLine_ok {env : Env} {p : Params HVal} {o o' : PyObj} {l : LoadLine}
    (h : loadLine env p o l = .ok o') :
    (active o l.cond = true ∧ ∃ hv v, stored p l.ds l.key = some hv ∧ evalLoad env o l.expr hv = .ok v ∧
      o' = setField o l.field v) ∨ (active o l.cond = false ∧ o' = o) := by
  simp only [loadLine] at h
  split at h
  · rename_i ha
    left
    refine ⟨ha, ?_⟩
    cases hd : Params.ds p l.ds with
    | none => simp [hd, key, bind, Except.bind] at h
    | some a =>
      cases hg : Dict.get a l.key with
      | none => simp [hd, hg, key, bind, Except.bind] at h
      | some hv =>
        cases hv' : evalLoad env o l.expr hv with
        | error e => simp [hd, hg, hv', key, bind, Except.bind] at h
        | ok v =>
          simp only [hd, hg, hv', key, bind, Except.bind, Except.ok.injEq] at h
          exact ⟨hv, v, by simp [stored, hd, hg], hv', h.symm⟩
  · rename_i ha
    right
    simp only [Except.ok.injEq] at h
    exact ⟨by simpa using ha, h.symm⟩

theorem loadLine_stored {env : Env} {p : Params HVal} {o : PyObj} {l : LoadLine} {h : HVal} {v : PyVal}
    (hs : stored p l.ds l.key = some h) (hv : evalLoad env o l.expr h = .ok v) :
    ∃ o', loadLine env p o l = .ok o' := by
  simp only [loadLine]
  split
  · obtain ⟨a, ha, hk⟩ := stored_ds hs
    exact ⟨setField o l.field v, by simp [ha, hk, hv, key, bind, Except.bind]⟩
  · exact ⟨o, rfl⟩

theorem setField_get (o : PyObj) (f g : String) (v : PyVal) :
    (setField o f v).fields.get g = if f = g then some v else o.fields.get g := by
  simp [setField, Dict.get_set]

/-- A line only changes its own attribute. -/
theorem loadLine_frame {env : Env} {p : Params HVal} {o o' : PyObj} {l : LoadLine}
    (h : loadLine env p o l = .ok o') : (∀ f, f ≠ l.field → o'.fields.get f = o.fields.get f) ∧
    o'.params = o.params ∧ o'.isTrained = o.isTrained ∧ o'.isLoaded = o.isLoaded := by
  rcases loadLine_ok h with ⟨-, hv, v, -, -, rfl⟩ | ⟨-, rfl⟩
  · refine ⟨fun f hf => ?_, rfl, rfl, rfl⟩
    rw [setField_get, if_neg (Ne.symm hf)]
  · exact ⟨fun _ _ => rfl, rfl, rfl, rfl⟩

theorem execLoad_frame (env : Env) (p : Params HVal) (ls : List LoadLine) : ∀ (o : PyObj),
    (∀ f, f ∉ ls.map LoadLine.field → (execLoad env p ls o).1.fields.get f = o.fields.get f) ∧
    (execLoad env p ls o).1.params = o.params ∧ (execLoad env p ls o).1.isTrained = o.isTrained ∧
    (execLoad env p ls o).1.isLoaded = o.isLoaded := by
  induction ls with
  | nil => intro o; exact ⟨fun _ _ => rfl, rfl, rfl, rfl⟩
  | cons l ls ih =>
    intro o
    simp only [execLoad]
    split
    · rename_i o1 h1
      obtain ⟨f1, f2, f3, f4⟩ := loadLine_frame h1
      obtain ⟨g1, g2, g3, g4⟩ := ih o1
      refine ⟨?_, g2.trans f2, g3.trans f3, g4.trans f4⟩
      intro f hf
      simp only [List.map_cons, List.mem_cons, not_or] at hf
      rw [g1 f hf.2, f1 f hf.1]
    · exact ⟨fun _ _ => rfl, rfl, rfl, rfl⟩

theorem execLoad_ok (env : Env) (p : Params HVal) (ls : List LoadLine) : ∀ (o o' : PyObj),
    execLoad env p ls o = (o', none) → (ls.map LoadLine.field).Nodup →
    ∀ l ∈ ls, l.cond = none → ∃ om h v, stored p l.ds l.key = some h ∧ evalLoad env om l.expr h = .ok v ∧
      o'.fields.get l.field = some v := by
  induction ls with
  | nil => intro o o' _ _ l hl; simp at hl
  | cons l ls ih =>
    intro o o' h hn m hm hc
    simp only [List.map_cons, List.nodup_cons] at hn
    simp only [execLoad] at h
    split at h
    · rename_i o1 h1
      rcases List.mem_cons.1 hm with rfl | hm
      · rcases loadLine_ok h1 with ⟨-, hv, v, hs, he, rfl⟩ | ⟨ha, -⟩
        · refine ⟨o, hv, v, hs, he, ?_⟩
          have hfr := (execLoad_frame env p ls (setField o m.field v)).1 m.field hn.1
          rw [h] at hfr
          rw [hfr, setField_get]; simp
        · rw [hc] at ha; simp [active] at ha
      · exact ih o1 o' h hn.2 m hm hc
    · simp at h

/-- The program runs through if every line does in every state that agrees with the start on the
attribute of that line. -/
theorem execLoad_succeeds (env : Env) (p : Params HVal) (ls : List LoadLine) : ∀ (o : PyObj),
    (ls.map LoadLine.field).Nodup →
    (∀ l ∈ ls, ∀ om : PyObj, om.fields.get l.field = o.fields.get l.field → ∃ o', loadLine env p om l = .ok o') →
    ∃ o', execLoad env p ls o = (o', none) := by
  induction ls with
  | nil => intro o _ _; exact ⟨o, rfl⟩
  | cons l ls ih =>
    intro o hn h
    simp only [List.map_cons, List.nodup_cons] at hn
    obtain ⟨o1, h1⟩ := h l (by simp) o rfl
    obtain ⟨o2, h2⟩ := ih o1 hn.2 (by
      intro m hm om hom
      refine h m (by simp [hm]) om ?_
      rw [hom, (loadLine_frame h1).1]
      rintro he
      exact hn.1 (he ▸ List.mem_map_of_mem hm))
    exact ⟨o2, by simp only [execLoad, h1, h2]⟩

theorem execLoad_append (env : Env) (p : Params HVal) (l1 l2 : List LoadLine) : ∀ (o o' : PyObj),
    execLoad env p (l1 ++ l2) o = (o', none) →
    ∃ om, execLoad env p l1 o = (om, none) ∧ execLoad env p l2 om = (o', none) := by
  induction l1 with
  | nil => intro o o' h; exact ⟨o, rfl, h⟩
  | cons l l1 ih =>
    intro o o' h
    simp only [List.cons_append, execLoad] at h ⊢
    split at h
    · rename_i o1 h1; exact ih o1 o' h
    · simp at h

theorem execLoadLoop_params (w : Dict String HVal) : ∀ (o : PyObj), (w.map Prod.fst).Nodup →
    (∀ k, (execLoadLoop w o).params.get k =
      match w.get k with
      | some h => some (ofH h)
      | none => o.params.get k) ∧
    (execLoadLoop w o).fields = o.fields ∧ (execLoadLoop w o).isTrained = o.isTrained := by
  induction w with
  | nil => intro o _; exact ⟨fun _ => rfl, rfl, rfl⟩
  | cons kh w ih =>
    obtain ⟨k0, h0⟩ := kh
    intro o hn
    simp only [List.map_cons, List.nodup_cons] at hn
    obtain ⟨i1, i2, i3⟩ := ih { o with params := o.params.set k0 (ofH h0) } hn.2
    refine ⟨?_, i2, i3⟩
    intro k
    simp only [execLoadLoop, i1 k, Dict.get]
    by_cases hk : k0 = k
    · subst hk
      simp [(Dict.get_eq_none w k0).2 hn.1, Dict.get_set]
    · simp only [hk, if_false, Dict.get_set]

theorem toH_ok {env : Env} {v : PyVal} {h : HVal} (hh : toH env v = .ok h) : ofH h = v := by
  cases v <;> simp only [toH] at hh <;> (try split at hh) <;> cases hh <;> rfl

theorem full_empty : Full ⟨some [], some []⟩ := ⟨[], [], rfl, rfl, by simp, by simp⟩

/-- The save and load programs of a class fit together: every data attribute is loaded from the place
it was saved to; places and attributes are not used twice; the loop owns the data set `weights`. -/
def fitsTogether (c : Cls) : Bool :=
  decide ((c.save.map (fun l => (l.ds, l.key))).Nodup) &&
  decide ((c.load.map LoadLine.field).Nodup) &&
  (!c.loop || c.save.all (fun l => decide (l.ds = .compile))) &&
  (dataFields c.name).all (fun f =>
    c.save.any (fun s => c.load.any (fun l => decide (l.field = f ∧ l.cond = none ∧ s.cond = none ∧
      s.ds = l.ds ∧ s.key = l.key ∧
      ((s.expr = .field f ∧ l.expr = .attr) ∨ (s.expr = .pickle f ∧ l.expr = .unpickle))))))

/-- Every line of the load program reads something the save program wrote, in a compatible way. -/
def linesFit (c : Cls) : Bool :=
  c.load.all (fun l => c.save.any (fun s => decide (s.ds = l.ds ∧ s.key = l.key ∧ s.cond = l.cond ∧
    (l.cond = none ∨ (l.cond = some "pruner" ∧ l.field = "pruner")) ∧
    ((s.expr = .field l.field ∧ l.expr = .attr) ∨ (s.expr = .pickle l.field ∧ l.expr = .unpickle) ∨
     (s.expr = .nameOf "kernel" ∧ l.expr = .kernel) ∨ (s.expr = .nameOf "optimizer" ∧ l.expr = .optimizer) ∨
     (s.expr = .nameOf "loss" ∧ l.expr = .loss) ∨ (s.expr = .nameOf "metric" ∧ l.expr = .metric) ∨
     (s.expr = .nameOf "pruner" ∧ l.expr = .pruner)))))

theorem classes_lines_fit : ∀ c ∈ classes, linesFit c = true := by decide +kernel

theorem classes_fit : ∀ c ∈ classes, fitsTogether c = true := by decide +kernel

/-- What a successful `save_weights` leaves on disk. -/
theorem save_ok {env : Env} {writable : String → Bool} {user : String} {c : Cls} {fs fs' : FS HVal}
    {path : String} {o : PyObj} (hn1 : (c.save.map (fun l => (l.ds, l.key))).Nodup)
    (hloop : c.loop = true → ∀ l ∈ c.save, l.ds = .compile) (hn2 : (o.params.map Prod.fst).Nodup)
    (h : save env writable user c fs path o = (fs', none)) :
    ∃ p, fs' path = some { (freshFile user c.name : HFile HVal) with parameters := some p } ∧ Full p ∧
      (∀ q, q ≠ path → fs' q = fs q) ∧
      (∀ l ∈ c.save, active o l.cond = true → ∃ h, evalSave env o l.expr = .ok h ∧ stored p l.ds l.key = some h) ∧
      (∀ l ∈ c.save, active o l.cond = false → stored p l.ds l.key = none) ∧
      (c.loop = true → ∀ k, match o.params.get k with
        | some v => ∃ h, toH env v = .ok h ∧ stored p .weights k = some h
        | none => stored p .weights k = none) := by
  simp only [save, initWrite] at h
  by_cases hw : writable path = true
  · simp only [hw, if_true] at h
    cases hr : execSave env o c.save ⟨some [], some []⟩ with
    | mk p1 e1 =>
      rw [hr] at h
      cases e1 with
      | some e => simp at h
      | none =>
        obtain ⟨s1, s2, s3, s4⟩ := execSave_ok env o c.save _ _ full_empty hr hn1
        have hemp : ∀ d k, stored ⟨some [], some []⟩ d k = none := by
          intro d k; cases d <;> rfl
        simp only at h
        by_cases hl : c.loop = true
        · simp only [hl, if_true] at h
          cases hq : execSaveLoop env o.params p1 with
          | mk p2 e2 =>
            rw [hq] at h
            simp only [Prod.mk.injEq] at h
            obtain ⟨h, he⟩ := h
            subst he
            obtain ⟨t1, t2, t3, t4⟩ := execSaveLoop_ok env o.params _ _ s1 hq hn2
            refine ⟨p2, by rw [← h]; simp, t1, ?_, ?_, ?_, ?_⟩
            · intro q hq; rw [← h]; simp [hq]
            · intro l hls ha
              obtain ⟨hh, e1, e2⟩ := s3 l hls ha
              refine ⟨hh, e1, ?_⟩
              have := hloop hl l hls
              rw [this] at e2 ⊢
              rw [t2, e2]
            · intro l hls ha
              have h4 := s4 l hls ha
              have := hloop hl l hls
              rw [this] at h4 ⊢
              rw [t2, h4, hemp]
            · intro _ k
              split
              · rename_i v hv; exact t4 k v hv
              · rename_i hv
                rw [t3 k hv, s2, hemp]
                intro hm
                obtain ⟨l, hl1, hl2⟩ := List.mem_map.1 hm
                have := hloop hl l hl1
                simp [this] at hl2
        · simp only [hl] at h
          simp only [Bool.false_eq_true, if_false, Prod.mk.injEq, and_true] at h
          refine ⟨p1, by rw [← h]; simp, s1, ?_, s3, ?_, fun h' => absurd h' hl⟩
          · intro q hq; rw [← h]; simp [hq]
          · intro l hls ha; rw [s4 l hls ha, hemp]
  · simp [hw] at h

/-- Reading back the header just written. -/
theorem initRead_saved {pv : String → Option Version} {v : Version} (hpv : pv cmlVersion = some v)
    (hv : AtLeast v [0, 5]) {fs : FS HVal} {path user name : String} {p : Params HVal}
    (h : fs path = some { (freshFile user name : HFile HVal) with parameters := some p }) :
    initRead pv fs path name = .ok p := by
  have h1 : v.lt minModel = false := by
    rw [← Bool.not_eq_true]
    exact fun h => (lt_final_iff v [0, 5]).1 h hv
  have h2 : firstMatch ioVersion.toList = some [['0'], ['7']] := by
    simp [ioVersion, firstMatch, matchAt, blocks, isDigit]
  have h3 : (Version.final ([['0'], ['7']].map natOf)).lt minIo = false := by decide
  simp only [List.map_cons, List.map_nil] at h3
  simp [initRead, h, parse, freshFile, key, bind, Except.bind, Dict.get, hpv, h1, h2, h3]

end CML.Persist
