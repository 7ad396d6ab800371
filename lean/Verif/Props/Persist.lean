import Verif.Lemmas.Persist

/-! # C109–C115: saving and loading -/

set_option linter.unusedSectionVars false

namespace CML.Persist
open CML.Getters CML.IO

theorem fit_parts {c : Cls} (hc : c ∈ classes) :
    (c.save.map (fun l => (l.ds, l.key))).Nodup ∧ (c.load.map LoadLine.field).Nodup ∧
    (c.loop = true → ∀ l ∈ c.save, l.ds = .compile) ∧
    (∀ f ∈ dataFields c.name, ∃ s ∈ c.save, ∃ l ∈ c.load, l.field = f ∧ l.cond = none ∧ s.cond = none ∧
      s.ds = l.ds ∧ s.key = l.key ∧
      ((s.expr = .field f ∧ l.expr = .attr) ∨ (s.expr = .pickle f ∧ l.expr = .unpickle))) := by
  have h := classes_fit c hc
  simp only [fitsTogether, Bool.and_eq_true, decide_eq_true_eq, Bool.or_eq_true, Bool.not_eq_true',
    List.all_eq_true, List.any_eq_true] at h
  obtain ⟨⟨⟨h1, h2⟩, h3⟩, h4⟩ := h
  refine ⟨h1, h2, ?_, ?_⟩
  · intro hl l hls
    rcases h3 with h3 | h3
    · rw [hl] at h3; simp at h3
    · exact h3 l hls
  · intro f hf
    obtain ⟨s, hs, l, hl, h⟩ := h4 f hf
    exact ⟨s, hs, l, hl, h⟩

/-- Every load line has its save line. -/
theorem lines_parts {c : Cls} (hc : c ∈ classes) : ∀ l ∈ c.load, ∃ s ∈ c.save, s.ds = l.ds ∧ s.key = l.key ∧
    s.cond = l.cond ∧ (l.cond = none ∨ (l.cond = some "pruner" ∧ l.field = "pruner")) ∧
    ((s.expr = .field l.field ∧ l.expr = .attr) ∨ (s.expr = .pickle l.field ∧ l.expr = .unpickle) ∨
     (s.expr = .nameOf "kernel" ∧ l.expr = .kernel) ∨ (s.expr = .nameOf "optimizer" ∧ l.expr = .optimizer) ∨
     (s.expr = .nameOf "loss" ∧ l.expr = .loss) ∨ (s.expr = .nameOf "metric" ∧ l.expr = .metric) ∨
     (s.expr = .nameOf "pruner" ∧ l.expr = .pruner)) := by
  have h := classes_lines_fit c hc
  simp only [linesFit, List.all_eq_true, List.any_eq_true, decide_eq_true_eq] at h
  exact h

/-- Decomposition of a successful `load_weights`. -/
theorem load_ok {env : Env} {pv : String → Option Version} {c : Cls} {fs : FS HVal} {path : String}
    {o o' : PyObj} (h : load env pv c fs path o = (o', none)) :
    ∃ p w o1, initRead pv fs path c.name = .ok p ∧ p.weights = some w ∧ execLoad env p c.load o = (o1, none) ∧
      o' = { (if c.loop then execLoadLoop w o1 else o1) with isLoaded := true } := by
  simp only [load] at h
  split at h
  · simp at h
  · rename_i p hp
    split at h
    · simp at h
    · split at h
      · simp at h
      · rename_i w hw
        split at h
        · simp at h
        · rename_i o1 h1
          simp only [Prod.mk.injEq, and_true] at h
          exact ⟨p, w, o1, hp, hw, h1, h.symm⟩

/-- A stored value, its file and its save line. -/
theorem evalSave_field {env : Env} {o : PyObj} {f : String} {h : HVal}
    (he : evalSave env o (.field f) = .ok h) : ∃ v, o.fields.get f = some v ∧ toH env v = .ok h := by
  simp only [evalSave, getField, bind, Except.bind] at he
  cases hf : o.fields.get f with
  | none => simp [hf] at he
  | some v => exact ⟨v, rfl, by simpa [hf] using he⟩

theorem evalSave_pickle {env : Env} {o : PyObj} {f : String} {h : HVal}
    (he : evalSave env o (.pickle f) = .ok h) : ∃ v, o.fields.get f = some v ∧ h = .void (env.dumps v) := by
  simp only [evalSave, getField, bind, Except.bind] at he
  cases hf : o.fields.get f with
  | none => simp [hf] at he
  | some v =>
    refine ⟨v, rfl, ?_⟩
    simp only [hf] at he
    split at he
    · injection he with he; exact he.symm
    · simp at he

theorem evalSave_name {env : Env} {o : PyObj} {f : String} {h : HVal}
    (he : evalSave env o (.nameOf f) = .ok h) :
    ∃ v s, o.fields.get f = some v ∧ pyName v = .ok s ∧ h = .str s := by
  simp only [evalSave, getField, bind, Except.bind] at he
  cases hf : o.fields.get f with
  | none => simp [hf] at he
  | some v =>
    simp only [hf] at he
    cases hn : pyName v with
    | error e => simp [hn] at he
    | ok s =>
      simp only [hn, toH] at he
      refine ⟨v, s, rfl, hn, ?_⟩
      split at he
      · injection he with he; exact he.symm
      · simp at he

/-- **C109.** For every class: if `save_weights` succeeded and `load_weights` of that file, into any
instance of the class, succeeded, then every data attribute has the saved value, every entry of
`parameters` is restored, `is_loaded` is set and `is_trained` is as before. -/
theorem C109_data_restored (env : Env) (hpk : env.Pickles) (pv : String → Option Version) (v : Version)
    (hpv : pv cmlVersion = some v) (hv : AtLeast v [0, 5]) (writable : String → Bool) (user : String)
    (c : Cls) (hc : c ∈ classes) (fs fs' : FS HVal) (path : String) (o o₀ o' : PyObj)
    (hnd : (o.params.map Prod.fst).Nodup)
    (hs : save env writable user c fs path o = (fs', none))
    (hl : load env pv c fs' path o₀ = (o', none)) :
    (∀ f ∈ dataFields c.name, o'.fields.get f = o.fields.get f ∧ (o.fields.get f).isSome = true) ∧
    (c.loop = true → ∀ k w, o.params.get k = some w → o'.params.get k = some w) ∧
    o'.isLoaded = true ∧ o'.isTrained = o₀.isTrained := by
  obtain ⟨hn1, hn2, hloop, hdata⟩ := fit_parts hc
  obtain ⟨p, hp, hfull, -, hst, -, hlp⟩ := save_ok hn1 hloop hnd hs
  obtain ⟨p', w, o1, hr, hw, hex, rfl⟩ := load_ok hl
  rw [initRead_saved hpv hv hp] at hr
  injection hr with hr; subst hr
  obtain ⟨a, b, hpa, hpb, hna, hnb⟩ := hfull
  rw [hpb] at hw; injection hw with hw; subst hw
  have hfields : ∀ f, ({ (if c.loop then execLoadLoop b o1 else o1) with isLoaded := true } : PyObj).fields.get f
      = o1.fields.get f := by
    intro f
    by_cases hcl : c.loop = true
    · simp only [hcl, if_true]; rw [(execLoadLoop_params b o1 hnb).2.1]
    · simp [hcl]
  refine ⟨?_, ?_, rfl, ?_⟩
  · intro f hf
    rw [hfields]
    obtain ⟨s, hsm, l, hlm, rfl, hlc, hsc, hds, hk, hexp⟩ := hdata f hf
    obtain ⟨hh, he, hstored⟩ := hst s hsm (by rw [hsc]; rfl)
    obtain ⟨om, h2, val, hs2, hev, hget⟩ := execLoad_ok env p c.load o₀ o1 hex hn2 l hlm hlc
    rw [hds, hk] at hstored
    rw [hstored] at hs2; injection hs2 with hs2; subst hs2
    rcases hexp with ⟨e1, e2⟩ | ⟨e1, e2⟩
    · rw [e1] at he; rw [e2] at hev
      obtain ⟨x, hx, htx⟩ := evalSave_field he
      simp only [evalLoad, toH_ok htx, Except.ok.injEq] at hev
      rw [hget, ← hev, hx]; simp
    · rw [e1] at he; rw [e2] at hev
      obtain ⟨x, hx, rfl⟩ := evalSave_pickle he
      simp only [evalLoad, hpk x, Except.ok.injEq] at hev
      rw [hget, ← hev, hx]; simp
  · intro hcl k x hx
    have hthis := hlp hcl k
    rw [hx] at hthis
    obtain ⟨hh, ht, hstw⟩ := hthis
    simp only [hcl, if_true]
    rw [(execLoadLoop_params b o1 hnb).1 k]
    obtain ⟨b', hb', hg⟩ := stored_ds hstw
    rw [show Params.ds p DS.weights = p.weights from rfl, hpb] at hb'
    injection hb' with hb'; subst hb'
    rw [hg]
    simp [toH_ok ht]
  · have := (execLoad_frame env p c.load o₀).2.2.1
    rw [hex] at this
    by_cases hcl : c.loop = true
    · simp only [hcl, if_true]; rw [(execLoadLoop_params b o1 hnb).2.2]; exact this
    · simp only [hcl]; exact this

/-- **C109.** …and that `load_weights` does succeed, whenever the backend objects have documented names
and the loading tree classifier was not configured for pruning when the saved one was not. -/
theorem C109_load_succeeds (env : Env) (hpk : env.Pickles) (pv : String → Option Version) (v : Version)
    (hpv : pv cmlVersion = some v) (hv : AtLeast v [0, 5]) (writable : String → Bool) (user : String)
    (c : Cls) (hc : c ∈ classes) (fs fs' : FS HVal) (path : String) (o o₀ : PyObj)
    (hnd : (o.params.map Prod.fst).Nodup) (hname : Nameable o) (hty : WellTyped o)
    (hprune : o.fields.get "pruner" = some .none → o₀.fields.get "pruner" = some .none)
    (hs : save env writable user c fs path o = (fs', none)) :
    ∃ o', load env pv c fs' path o₀ = (o', none) := by
  obtain ⟨hn1, hn2, hloop, -⟩ := fit_parts hc
  obtain ⟨p, hp, hfull, -, hst, -, -⟩ := save_ok hn1 hloop hnd hs
  obtain ⟨a, b, hpa, hpb, hna, hnb⟩ := hfull
  have hex : ∃ o1, execLoad env p c.load o₀ = (o1, none) := by
    refine execLoad_succeeds env p c.load o₀ hn2 ?_
    intro l hlm om hom
    obtain ⟨s, hsm, hds, hk, hcond, hcc, hexp⟩ := lines_parts hc l hlm
    by_cases hact : active om l.cond = true
    · have hao : active o s.cond = true := by
        rw [hcond]
        rcases hcc with h | ⟨h, hf⟩
        · rw [h]; rfl
        · rw [h] at hact ⊢
          rw [hf] at hom
          simp only [active, decide_eq_true_eq] at hact ⊢
          rw [hom] at hact
          exact fun h => hact (hprune h)
      obtain ⟨hh, he, hstored⟩ := hst s hsm hao
      rw [hds, hk] at hstored
      have hev : ∃ val, evalLoad env om l.expr hh = .ok val := by
        rcases hexp with ⟨e1, e2⟩ | ⟨e1, e2⟩ | ⟨e1, e2⟩ | ⟨e1, e2⟩ | ⟨e1, e2⟩ | ⟨e1, e2⟩ | ⟨e1, e2⟩ <;>
          rw [e1] at he <;> rw [e2]
        · exact ⟨ofH hh, rfl⟩
        · obtain ⟨x, -, rfl⟩ := evalSave_pickle he
          exact ⟨x, by simp [evalLoad, hpk x]⟩
        · obtain ⟨x, str, hx, hn, rfl⟩ := evalSave_name he
          rcases hty.1 x hx with rfl | ⟨_, rfl⟩ | ⟨k, rfl⟩
          · simp [pyName] at hn
          · simp [pyName] at hn
          · simp only [pyName, Except.ok.injEq] at hn
            subst hn
            have hmem := hname.1 _ _ hx
            have hk : ∀ g, ∃ r, getKernel (.str k.name) g = .ok r := by
              intro g
              simp only [kernNames, List.map_cons, List.map_nil, List.mem_cons, List.not_mem_nil, or_false] at hmem
              rcases hmem with h | h | h | h | h <;> rw [h] <;> exact ⟨_, rfl⟩
            simp only [evalLoad]
            split
            · rename_i s' g hs' _
              injection hs' with hs'
              obtain ⟨r, hr⟩ := hk g
              exact ⟨.kernel r, by rw [← hs', hr]; rfl⟩
            · rename_i s' hs' _
              injection hs' with hs'
              obtain ⟨r, hr⟩ := hk 0
              exact ⟨.kernel r, by rw [← hs', hr]; rfl⟩
            · rename_i h1 h2
              exact (h1 k.name rfl).elim
        · obtain ⟨x, str, hx, hn, rfl⟩ := evalSave_name he
          rcases hty.2.1 x hx with rfl | ⟨k, rfl⟩
          · simp [pyName] at hn
          · simp only [pyName, Except.ok.injEq] at hn
            subst hn
            have hmem := hname.2.1 _ _ hx
            simp only [optNames, List.map_cons, List.map_nil, List.mem_cons, List.not_mem_nil, or_false] at hmem
            simp only [evalLoad]
            rcases hmem with h | h | h | h | h | h | h | h | h <;> rw [h] <;> exact ⟨_, rfl⟩
        · obtain ⟨x, str, hx, hn, rfl⟩ := evalSave_name he
          simp only [evalLoad, getLoss]
          split_ifs <;> exact ⟨_, rfl⟩
        · obtain ⟨x, str, hx, hn, rfl⟩ := evalSave_name he
          simp only [evalLoad, getMetric]
          split_ifs <;> exact ⟨_, rfl⟩
        · obtain ⟨x, str, hx, hn, rfl⟩ := evalSave_name he
          rcases hty.2.2.2.2 x hx with rfl | ⟨k, rfl⟩
          · simp [pyName] at hn
          · simp only [pyName, Except.ok.injEq] at hn
            subst hn
            have hmem := hname.2.2 _ _ hx
            simp only [pruneNames, List.map_cons, List.map_nil, List.mem_cons, List.not_mem_nil, or_false] at hmem
            simp only [evalLoad]
            rcases hmem with h | h <;> rw [h] <;> exact ⟨_, rfl⟩
      obtain ⟨val, hval⟩ := hev
      exact loadLine_stored hstored hval
    · exact ⟨om, by simp [loadLine, hact]⟩
  obtain ⟨o1, hex⟩ := hex
  refine ⟨{ (if c.loop then execLoadLoop b o1 else o1) with isLoaded := true }, ?_⟩
  simp [load, initRead_saved hpv hv hp, hpa, hpb, hex]


/-- A saved support vector classifier: what its kernel becomes. -/
theorem svc_kernel (env : Env) (hpk : env.Pickles) (pv : String → Option Version) (v : Version)
    (hpv : pv cmlVersion = some v) (hv : AtLeast v [0, 5]) (writable : String → Bool) (user : String)
    (fs fs' : FS HVal) (path : String) (o o₀ o' : PyObj) (g : ℚ) (k : KernObj)
    (hnd : (o.params.map Prod.fst).Nodup) (hg : o.fields.get "gamma" = some (.num g))
    (hk : o.fields.get "kernel" = some (.kernel k))
    (hs : save env writable user svc fs path o = (fs', none))
    (hl : load env pv svc fs' path o₀ = (o', none)) :
    ∃ r, getKernel (.str k.name) g = .ok r ∧ o'.fields.get "kernel" = some (.kernel r) := by
  have hc : svc ∈ classes := by simp [classes]
  obtain ⟨hn1, hn2, hloop, -⟩ := fit_parts hc
  obtain ⟨p, hp, hfull, -, hst, -, -⟩ := save_ok hn1 hloop hnd hs
  obtain ⟨p', w, o1, hr, hw, hex, rfl⟩ := load_ok hl
  rw [initRead_saved hpv hv hp] at hr
  injection hr with hr; subst hr
  have hsplit : svc.load = svc.load.take 2 ++ svc.load.drop 2 := (List.take_append_drop 2 _).symm
  have hex2 := hex
  rw [hsplit] at hex2
  obtain ⟨om, h1, h2⟩ := execLoad_append env p _ _ _ _ hex2
  have hgm : om.fields.get "gamma" = some (.num g) := by
    obtain ⟨om', h, x, hsx, hex', hget⟩ := execLoad_ok env p _ o₀ om h1 (by decide)
      ⟨"gamma", .compile, "gamma", .attr, none⟩ (by simp [svc]) rfl
    obtain ⟨hh, he, hstored⟩ := hst ⟨.compile, "gamma", .field "gamma", none⟩ (by simp [svc]) rfl
    dsimp only at hsx hstored hex' hget he
    rw [hstored] at hsx; injection hsx with hsx; subst hsx
    obtain ⟨y, hy, hty⟩ := evalSave_field he
    rw [hg] at hy; injection hy with hy; subst hy
    simp only [evalLoad, toH_ok hty, Except.ok.injEq] at hex'
    rw [hget, ← hex']
  obtain ⟨hh, he, hstored⟩ := hst ⟨.compile, "kernel", .nameOf "kernel", none⟩ (by simp [svc]) rfl
  obtain ⟨x, str, hx, hn, rfl⟩ := evalSave_name he
  rw [hk] at hx; injection hx with hx; subst hx
  simp only [pyName, Except.ok.injEq] at hn
  subst hn
  simp only [svc, List.drop, execLoad] at h2
  split at h2
  · rename_i o2 hl2
    rcases loadLine_ok hl2 with ⟨-, hv2, x2, hs2, he2, rfl⟩ | ⟨ha, -⟩
    · dsimp only at hs2 he2 hstored
      rw [hstored] at hs2; injection hs2 with hs2; subst hs2
      simp only [evalLoad, hgm] at he2
      cases hgk : getKernel (.str k.name) g with
      | error e => rw [hgk] at he2; simp [Except.map] at he2
      | ok r =>
        rw [hgk] at he2
        simp only [Except.map, Except.ok.injEq] at he2
        refine ⟨r, rfl, ?_⟩
        have hfr := (execLoad_frame env p (svc.load.drop 3) (setField om "kernel" x2)).1 "kernel" (by decide)
        have e : execLoad env p (svc.load.drop 3) (setField om "kernel" x2) = (o1, none) := h2
        rw [e] at hfr
        simp only [svc, Bool.false_eq_true, if_false]
        rw [hfr, setField_get, ← he2]; simp
    · simp [active] at ha
  · simp at h2

/-- **C110** (part).  A kernel whose parameters other than `gamma` are the defaults, and whose `gamma`
is that of the classifier, is restored exactly. -/
theorem C110_default_kernel_partial (env : Env) (hpk : env.Pickles) (pv : String → Option Version) (v : Version)
    (hpv : pv cmlVersion = some v) (hv : AtLeast v [0, 5]) (writable : String → Bool) (user : String)
    (fs fs' : FS HVal) (path : String) (o o₀ o' : PyObj) (g : ℚ) (c : KernCls)
    (hnd : (o.params.map Prod.fst).Nodup) (hg : o.fields.get "gamma" = some (.num g))
    (hk : o.fields.get "kernel" = some (.kernel (c.default g)))
    (hs : save env writable user svc fs path o = (fs', none))
    (hl : load env pv svc fs' path o₀ = (o', none)) :
    o'.fields.get "kernel" = o.fields.get "kernel" := by
  obtain ⟨r, h1, h2⟩ := svc_kernel env hpk pv v hpv hv writable user fs fs' path o o₀ o' g _ hnd hg hk hs hl
  rw [h2, hk]
  have : getKernel (.str (c.default g).name) g = .ok (c.default g) := by cases c <;> rfl
  rw [this] at h1; injection h1 with h1; rw [h1]

/-- The claim is false for every polynomial kernel of another degree than 3: after saving and loading the
degree is 3. -/
theorem C110_degree_lost (env : Env) (hpk : env.Pickles) (pv : String → Option Version) (v : Version)
    (hpv : pv cmlVersion = some v) (hv : AtLeast v [0, 5]) (writable : String → Bool) (user : String)
    (fs fs' : FS HVal) (path : String) (o o₀ o' : PyObj) (g degree : ℚ) (hdeg : degree ≠ 3)
    (hnd : (o.params.map Prod.fst).Nodup) (hg : o.fields.get "gamma" = some (.num g))
    (hk : o.fields.get "kernel" = some (.kernel ⟨.poly, "poly", [g, degree]⟩))
    (hs : save env writable user svc fs path o = (fs', none))
    (hl : load env pv svc fs' path o₀ = (o', none)) :
    o'.fields.get "kernel" = some (.kernel ⟨.poly, "poly", [g, 3]⟩) ∧
    o'.fields.get "kernel" ≠ o.fields.get "kernel" := by
  obtain ⟨r, h1, h2⟩ := svc_kernel env hpk pv v hpv hv writable user fs fs' path o o₀ o' g _ hnd hg hk hs hl
  have : getKernel (.str "poly") g = .ok ⟨.poly, "poly", [g, 3]⟩ := rfl
  rw [this] at h1; injection h1 with h1; subst h1
  refine ⟨h2, ?_⟩
  rw [h2, hk]
  simp [Ne.symm hdeg]

/-- …and a kernel with another `gamma` than the classifier's (an instance passed to `compile`) gets the
classifier's. -/
theorem C110_gamma_replaced (env : Env) (hpk : env.Pickles) (pv : String → Option Version) (v : Version)
    (hpv : pv cmlVersion = some v) (hv : AtLeast v [0, 5]) (writable : String → Bool) (user : String)
    (fs fs' : FS HVal) (path : String) (o o₀ o' : PyObj) (g g' : ℚ)
    (hnd : (o.params.map Prod.fst).Nodup) (hg : o.fields.get "gamma" = some (.num g))
    (hk : o.fields.get "kernel" = some (.kernel ⟨.rbf, "rbf", [g']⟩))
    (hs : save env writable user svc fs path o = (fs', none))
    (hl : load env pv svc fs' path o₀ = (o', none)) :
    o'.fields.get "kernel" = some (.kernel ⟨.rbf, "rbf", [g]⟩) := by
  obtain ⟨r, h1, h2⟩ := svc_kernel env hpk pv v hpv hv writable user fs fs' path o o₀ o' g _ hnd hg hk hs hl
  have : getKernel (.str "rbf") g = .ok ⟨.rbf, "rbf", [g]⟩ := rfl
  rw [this] at h1; injection h1 with h1; subst h1
  exact h2

/-- **C110** for the optimizer of the models that save its name: the loaded optimizer is the default
optimizer of that name; hyper-parameters such as the learning rate are the defaults (the code's
documentation announces this). -/
theorem C110_optimizer (env : Env) (pv : String → Option Version) (v : Version)
    (hpv : pv cmlVersion = some v) (hv : AtLeast v [0, 5]) (writable : String → Bool) (user : String)
    (cls : Cls) (hcls : cls = logReg ∨ cls = bpnn ∨ cls = rbfn)
    (fs fs' : FS HVal) (path : String) (o o₀ o' : PyObj) (k : OptObj) (c : OptCls)
    (hnd : (o.params.map Prod.fst).Nodup) (hk : o.fields.get "optimizer" = some (.optimizer k))
    (hkn : k.name = c.default.name)
    (hs : save env writable user cls fs path o = (fs', none))
    (hl : load env pv cls fs' path o₀ = (o', none)) :
    o'.fields.get "optimizer" = some (.optimizer c.default) := by
  have hc : cls ∈ classes := by rcases hcls with rfl | rfl | rfl <;> simp [classes]
  obtain ⟨hn1, hn2, hloop, -⟩ := fit_parts hc
  obtain ⟨p, hp, hfull, -, hst, -, -⟩ := save_ok hn1 hloop hnd hs
  obtain ⟨p', w, o1, hr, hw, hex, rfl⟩ := load_ok hl
  rw [initRead_saved hpv hv hp] at hr
  injection hr with hr; subst hr
  obtain ⟨a, b, hpa, hpb, hna, hnb⟩ := hfull
  rw [hpb] at hw; injection hw with hw; subst hw
  obtain ⟨hh, he, hstored⟩ := hst ⟨.compile, "optimizer", .nameOf "optimizer", none⟩
    (by rcases hcls with rfl | rfl | rfl <;> simp [logReg, bpnn, rbfn]) rfl
  obtain ⟨x, str, hx, hn, rfl⟩ := evalSave_name he
  rw [hk] at hx; injection hx with hx; subst hx
  simp only [pyName, Except.ok.injEq] at hn
  subst hn
  obtain ⟨om, h, y, hsx, hev, hget⟩ := execLoad_ok env p _ o₀ o1 hex hn2
    ⟨"optimizer", .compile, "optimizer", .optimizer, none⟩
    (by rcases hcls with rfl | rfl | rfl <;> simp [logReg, bpnn, rbfn]) rfl
  dsimp only at hsx hev hget hstored
  rw [hstored] at hsx; injection hsx with hsx; subst hsx
  have hgo : getOptimizer (.str k.name) = .ok c.default := by rw [hkn]; cases c <;> rfl
  simp only [evalLoad, hgo, Except.map, Except.ok.injEq] at hev
  have : ({ (if cls.loop then execLoadLoop b o1 else o1) with isLoaded := true } : PyObj).fields.get "optimizer"
      = o1.fields.get "optimizer" := by
    by_cases hcl : cls.loop = true
    · simp only [hcl, if_true]; rw [(execLoadLoop_params b o1 hnb).2.1]
    · simp [hcl]
  rw [this, hget, hev]

/-- A custom metric name silently becomes `None` on loading. -/
theorem C110_metric_lost (s : String) (h : s ∉ metricNames.map Prod.fst) (env : Env) (o : PyObj) :
    evalLoad env o .metric (.str s) = .ok .none := by
  simp only [metricNames, List.map_cons, List.map_nil, List.mem_cons, List.not_mem_nil, or_false, not_or] at h
  simp [evalLoad, getMetric, h, Except.map]

/-- **C111** (part).  If the header check fails, or the data set `weights` is missing, a failed load leaves
the model unchanged; and no failed load marks the model as loaded or touches an attribute outside the
program of the class. -/
theorem C111_failed_load_partial (env : Env) (pv : String → Option Version) (c : Cls) (fs : FS HVal)
    (path : String) (o o' : PyObj) (e : PyErr) (h : load env pv c fs path o = (o', some e)) :
    (initRead pv fs path c.name = .error e → o' = o) ∧
    o'.isLoaded = o.isLoaded ∧ o'.isTrained = o.isTrained ∧ o'.params = o.params ∧
    (∀ f, f ∉ c.load.map LoadLine.field → o'.fields.get f = o.fields.get f) := by
  simp only [load] at h
  split at h
  · rename_i e' he
    simp only [Prod.mk.injEq, Option.some.injEq] at h
    obtain ⟨rfl, rfl⟩ := h
    exact ⟨fun _ => rfl, rfl, rfl, rfl, fun _ _ => rfl⟩
  · rename_i p hp
    refine ⟨fun h' => by rw [hp] at h'; simp at h', ?_⟩
    split at h
    · simp only [Prod.mk.injEq] at h; obtain ⟨rfl, -⟩ := h; exact ⟨rfl, rfl, rfl, fun _ _ => rfl⟩
    · split at h
      · simp only [Prod.mk.injEq] at h; obtain ⟨rfl, -⟩ := h; exact ⟨rfl, rfl, rfl, fun _ _ => rfl⟩
      · have hfr := execLoad_frame env p c.load o
        split at h
        · rename_i o1 e1 he1
          rw [he1] at hfr
          simp only [Prod.mk.injEq] at h
          obtain ⟨rfl, -⟩ := h
          exact ⟨hfr.2.2.2, hfr.2.2.1, hfr.2.1, hfr.1⟩
        · simp at h

/-- The claim is false: for every class whose program has two unconditional plain lines — here a k-means
model — and every value, there is a file whose loading fails with `KeyError` after having overwritten
the model. -/
theorem C111_half_loaded (env : Env) (pv : String → Option Version) (v : Version)
    (hpv : pv cmlVersion = some v) (hv : AtLeast v [0, 5]) (o : PyObj) (s : String) (user : String) :
    ∃ fs : FS HVal, ∃ o', load env pv kMeans fs "f" o = (o', some .keyError) ∧
      o'.fields.get "init" = some (.str s) := by
  refine ⟨fun _ => some { (freshFile user "KMeans" : HFile HVal) with
    parameters := some ⟨some [("init", .str s)], some []⟩ }, setField o "init" (.str s), ?_, ?_⟩
  · have hr := initRead_saved (fs := fun _ => some { (freshFile user "KMeans" : HFile HVal) with
      parameters := some ⟨some [("init", .str s)], some []⟩ }) (path := "f") hpv hv rfl
    simp only [load]
    rw [show kMeans.name = "KMeans" from rfl, hr]
    simp [kMeans, execLoad, loadLine, active, Params.ds, key, Dict.get, bind, Except.bind, evalLoad, ofH]
  · rw [setField_get]; simp

/-- A trained support vector classifier is left with the hyper-parameters of the file and its own
support vectors when a custom kernel name in the file is refused. -/
theorem C111_svc_mixed (env : Env) (pv : String → Option Version) (v : Version)
    (hpv : pv cmlVersion = some v) (hv : AtLeast v [0, 5]) (o : PyObj) (name user : String)
    (hname : name ∉ kernNames.map Prod.fst) (g C : ℚ) (d : Dict String HVal) :
    ∃ fs : FS HVal, ∃ o', load env pv svc fs "f" o = (o', some .attributeError) ∧
      o'.fields.get "gamma" = some (.num g) ∧ o'.fields.get "C" = some (.num C) ∧
      o'.fields.get "kernel" = o.fields.get "kernel" ∧
      o'.fields.get "support_vector" = o.fields.get "support_vector" := by
  refine ⟨fun _ => some { (freshFile user "SupportVectorClassifier" : HFile HVal) with
    parameters := some ⟨some [("C", .num C), ("kernel", .str name), ("gamma", .num g), ("tol", .num 1)], some d⟩ },
    setField (setField o "C" (.num C)) "gamma" (.num g), ?_, ?_, ?_, ?_, ?_⟩
  · have hr := initRead_saved (fs := fun _ => some { (freshFile user "SupportVectorClassifier" : HFile HVal) with
      parameters := some ⟨some [("C", .num C), ("kernel", .str name), ("gamma", .num g), ("tol", .num 1)], some d⟩ })
      (path := "f") hpv hv rfl
    simp only [kernNames, List.map_cons, List.map_nil, List.mem_cons, List.not_mem_nil, or_false, not_or] at hname
    simp only [load]
    rw [show svc.name = "SupportVectorClassifier" from rfl, hr]
    simp [svc, execLoad, loadLine, active, Params.ds, key, Dict.get, bind, Except.bind, evalLoad, ofH, setField,
      Dict.get_set, getKernel, hname, Except.map]
  all_goals simp [setField_get]

/-- **C112** (part).  Saving never touches another path, and a path that cannot be opened keeps its
contents. -/
theorem C112_other_paths_partial (env : Env) (writable : String → Bool) (user : String) (c : Cls)
    (fs : FS HVal) (path : String) (o : PyObj) :
    (∀ q, q ≠ path → (save env writable user c fs path o).1 q = fs q) ∧
    (writable path = false → save env writable user c fs path o = (fs, some .ioError)) := by
  refine ⟨?_, ?_⟩
  · intro q hq
    simp only [save, initWrite]
    by_cases hw : writable path = true
    · simp [hw, hq]
    · simp [hw]
  · intro hw; simp [save, initWrite, hw]

/-- The claim is false: once the path can be opened nothing of the old file survives, whether or not the
save succeeds: the new content does not depend on the old one. -/
theorem C112_old_content_lost (env : Env) (writable : String → Bool) (user : String) (c : Cls)
    (fs₁ fs₂ : FS HVal) (path : String) (o : PyObj) (hw : writable path = true) :
    (save env writable user c fs₁ path o).1 path = (save env writable user c fs₂ path o).1 path ∧
    (save env writable user c fs₁ path o).2 = (save env writable user c fs₂ path o).2 := by
  simp [save, initWrite, hw]

/-- …for instance saving a support vector classifier that was compiled but not trained (its kernel is
still a string) raises `AttributeError`, and the file that was there can no longer be loaded. -/
theorem C112_violated (env : Env) (pv : String → Option Version) (v : Version)
    (hpv : pv cmlVersion = some v) (hv : AtLeast v [0, 5]) (writable : String → Bool) (user : String)
    (fs : FS HVal) (path : String) (o o₀ : PyObj) (C : ℚ) (k : String) (hw : writable path = true)
    (hfit : env.fits (.num C) = true)
    (h1 : o.fields.get "C" = some (.num C)) (h2 : o.fields.get "kernel" = some (.str k)) :
    (save env writable user svc fs path o).2 = some .attributeError ∧
    (load env pv svc (save env writable user svc fs path o).1 path o₀).2 = some .keyError := by
  have e : execSave env o svc.save ⟨some [], some []⟩ = (⟨some [("C", .num C)], some []⟩, some .attributeError) := by
    simp [svc, execSave, active, evalSave, getField, h1, h2, toH, hfit, pyName, bind, Except.bind, Params.put, Dict.set]
  have hsv : save env writable user svc fs path o = (fun p => if p = path then
      some { (freshFile user svc.name : HFile HVal) with parameters := some ⟨some [("C", .num C)], some []⟩ } else fs p,
      some .attributeError) := by
    simp only [save, initWrite, hw, if_true, e]
    congr 1
    funext p
    by_cases hp : p = path <;> simp [hp]
  refine ⟨by rw [hsv], ?_⟩
  rw [hsv]
  have hr := initRead_saved (fs := fun p => if p = path then
      some { (freshFile user svc.name : HFile HVal) with parameters := some ⟨some [("C", .num C)], some []⟩ } else fs p)
      (path := path) (user := user) (name := svc.name)
      (p := ⟨some [("C", .num C)], some []⟩) hpv hv (by simp)
  simp only [load, hr]
  simp [svc, execLoad, loadLine, active, Params.ds, key, Dict.get, bind, Except.bind, evalLoad, ofH]

/-- **C113** (part).  A k-means model with initialisation, tolerance, centroids and clusters that each fit
into an HDF5 attribute can be saved. -/
theorem C113_kmeans_saves_partial (env : Env) (writable : String → Bool) (user : String) (fs : FS HVal)
    (path : String) (o : PyObj) (i t c l : PyVal) (hw : writable path = true)
    (h1 : o.fields.get "init" = some i) (h2 : o.fields.get "tol" = some t)
    (h3 : o.fields.get "centroids" = some c) (h4 : o.fields.get "clusters" = some l)
    (ha : ∀ x ∈ [i, t, c, l], ∃ h, toH env x = .ok h) :
    (save env writable user kMeans fs path o).2 = none := by
  obtain ⟨hi, ei⟩ := ha i (by simp)
  obtain ⟨ht, et⟩ := ha t (by simp)
  obtain ⟨hc, ec⟩ := ha c (by simp)
  obtain ⟨hl, el⟩ := ha l (by simp)
  simp [save, initWrite, hw, kMeans, execSave, active, evalSave, getField, h1, h2, h3, h4, bind, Except.bind, ei, et, ec, el]

/-- The claim is false: whatever the size limit of an attribute, a trained k-means or Gaussian mixture model
fitted on more samples than the limit cannot be saved (the cluster of every training sample is stored in one
attribute), and the file is left unloadable. -/
theorem C113_too_many_samples (env : Env) (limit : Nat)
    (hlim : ∀ sh xs, limit < xs.length → env.fits (.arr sh xs) = false)
    (writable : String → Bool) (user : String) (fs : FS HVal) (path : String) (o : PyObj)
    (cls : Cls) (hcls : cls = kMeans ∨ cls = gmm) (sh : List Nat) (xs : List ℚ) (hxs : limit < xs.length)
    (h4 : o.fields.get "clusters" = some (.arr sh xs)) :
    (save env writable user cls fs path o).2 ≠ none := by
  intro hnone
  have hc : cls ∈ classes := by rcases hcls with rfl | rfl <;> simp [classes]
  have hloop : cls.loop = false := by rcases hcls with rfl | rfl <;> rfl
  have hs : save env writable user cls fs path o = ((save env writable user cls fs path o).1, none) := by
    rw [← hnone]
  simp only [save, initWrite] at hs
  by_cases hw : writable path = true
  · simp only [hw, if_true, hloop] at hs
    cases hr : execSave env o cls.save ⟨some [], some []⟩ with
    | mk p1 e1 =>
      rw [hr] at hs
      cases e1 with
      | some e => simp at hs
      | none =>
        obtain ⟨-, -, h3, -⟩ := execSave_ok env o cls.save _ _ full_empty hr (fit_parts hc).1
        obtain ⟨h, he, -⟩ := h3 ⟨.weights, "clusters", .field "clusters", none⟩
          (by rcases hcls with rfl | rfl <;> simp [kMeans, gmm]) rfl
        obtain ⟨y, hy, hty⟩ := evalSave_field he
        rw [h4] at hy; injection hy with hy; subst hy
        simp [toH, hlim sh xs hxs] at hty
  · simp [hw] at hs

/-- Likewise for a support vector classifier with many support vectors. -/
theorem C113_too_many_support_vectors (env : Env) (limit : Nat)
    (hlim : ∀ sh xs, limit < xs.length → env.fits (.arr sh xs) = false)
    (writable : String → Bool) (user : String) (fs : FS HVal) (path : String) (o : PyObj)
    (sh : List Nat) (xs : List ℚ) (hxs : limit < xs.length)
    (h4 : o.fields.get "support_vector" = some (.arr sh xs)) :
    (save env writable user svc fs path o).2 ≠ none := by
  intro hnone
  have hc : svc ∈ classes := by simp [classes]
  have hs : save env writable user svc fs path o = ((save env writable user svc fs path o).1, none) := by
    rw [← hnone]
  simp only [save, initWrite] at hs
  by_cases hw : writable path = true
  · simp only [hw, if_true, show svc.loop = false from rfl] at hs
    cases hr : execSave env o svc.save ⟨some [], some []⟩ with
    | mk p1 e1 =>
      rw [hr] at hs
      cases e1 with
      | some e => simp at hs
      | none =>
        obtain ⟨-, -, h3, -⟩ := execSave_ok env o svc.save _ _ full_empty hr (fit_parts hc).1
        obtain ⟨h, he, -⟩ := h3 ⟨.weights, "support_vector", .field "support_vector", none⟩ (by simp [svc]) rfl
        obtain ⟨y, hy, hty⟩ := evalSave_field he
        rw [h4] at hy; injection hy with hy; subst hy
        simp [toH, hlim sh xs hxs] at hty
  · simp [hw] at hs

/-- **C114** (part).  After loading, a network has the saved parameters, and of its own those the file does
not have; so loaded into an instance with empty `parameters` it has exactly the saved ones. -/
theorem C114_fresh_instance_partial (env : Env) (pv : String → Option Version) (v : Version)
    (hpv : pv cmlVersion = some v) (hv : AtLeast v [0, 5]) (writable : String → Bool) (user : String)
    (c : Cls) (hc : c = bpnn ∨ c = rbfn) (fs fs' : FS HVal) (path : String) (o o₀ o' : PyObj)
    (hnd : (o.params.map Prod.fst).Nodup) (hs : save env writable user c fs path o = (fs', none))
    (hl : load env pv c fs' path o₀ = (o', none)) (k : String) :
    o'.params.get k = (o.params.get k).or (o₀.params.get k) := by
  have hcm : c ∈ classes := by rcases hc with rfl | rfl <;> simp [classes]
  have hcl : c.loop = true := by rcases hc with rfl | rfl <;> rfl
  obtain ⟨hn1, hn2, hloop, -⟩ := fit_parts hcm
  obtain ⟨p, hp, hfull, -, hst, -, hlp⟩ := save_ok hn1 hloop hnd hs
  obtain ⟨p', w, o1, hr, hw, hex, rfl⟩ := load_ok hl
  rw [initRead_saved hpv hv hp] at hr
  injection hr with hr; subst hr
  obtain ⟨a, b, hpa, hpb, hna, hnb⟩ := hfull
  rw [hpb] at hw; injection hw with hw; subst hw
  simp only [hcl, if_true]
  rw [(execLoadLoop_params b o1 hnb).1 k]
  have hfr := (execLoad_frame env p c.load o₀).2.1
  rw [hex] at hfr
  have hthis := hlp hcl k
  have hsb : stored p .weights k = b.get k := by simp [stored, Params.ds, hpb]
  rw [hsb] at hthis
  cases hx : o.params.get k with
  | none => rw [hx] at hthis; rw [hthis, hfr]; rfl
  | some x =>
    rw [hx] at hthis
    obtain ⟨hh, ht, hstw⟩ := hthis
    rw [hstw]; simp [toH_ok ht]

/-- The claim is false for a network that already has parameters: parameters that are not in the file
survive the load, so a deeper network keeps its surplus layers. -/
theorem C114_stale_layers (env : Env) (pv : String → Option Version) (v : Version)
    (hpv : pv cmlVersion = some v) (hv : AtLeast v [0, 5]) (writable : String → Bool) (user : String)
    (c : Cls) (hc : c = bpnn ∨ c = rbfn) (fs fs' : FS HVal) (path : String) (o o₀ o' : PyObj)
    (hnd : (o.params.map Prod.fst).Nodup) (hs : save env writable user c fs path o = (fs', none))
    (hl : load env pv c fs' path o₀ = (o', none)) (k : String) (x : PyVal)
    (hk : o.params.get k = none) (hk₀ : o₀.params.get k = some x) :
    o'.params.get k = some x ∧ o'.params.get k ≠ o.params.get k := by
  have := C114_fresh_instance_partial env pv v hpv hv writable user c hc fs fs' path o o₀ o' hnd hs hl k
  rw [hk, hk₀] at this
  refine ⟨by simpa using this, by rw [this, hk]; simp⟩

/-- …nor is the number of components of a Gaussian mixture, or the number of clusters of a k-means model,
restored: it stays that of the loading instance, whatever the file. -/
theorem C114_number_of_components (env : Env) (pv : String → Option Version) (fs : FS HVal) (path : String)
    (o : PyObj) :
    (load env pv gmm fs path o).1.fields.get "n_components" = o.fields.get "n_components" ∧
    (load env pv kMeans fs path o).1.fields.get "n_clusters" = o.fields.get "n_clusters" := by
  have key : ∀ (c : Cls) (f : String), c.loop = false → f ∉ c.load.map LoadLine.field →
      (load env pv c fs path o).1.fields.get f = o.fields.get f := by
    intro c f hcl hf
    simp only [load, hcl]
    split
    · rfl
    · rename_i p hp
      split
      · rfl
      · split
        · rfl
        · have hfr := (execLoad_frame env p c.load o).1 f hf
          split
          · rename_i o1 e h; rw [h] at hfr; exact hfr
          · rename_i o1 h; rw [h] at hfr; exact hfr
  exact ⟨key gmm _ rfl (by decide), key kMeans _ rfl (by decide)⟩

/-- …and a tree classifier compiled with pruning cannot load the file of one without: `KeyError`, after its
criterion has been replaced. -/
theorem C114_tree_pruning (env : Env) (pv : String → Option Version) (v : Version)
    (hpv : pv cmlVersion = some v) (hv : AtLeast v [0, 5]) (writable : String → Bool) (user : String)
    (fs fs' : FS HVal) (path : String) (o o₀ : PyObj) (hnd : (o.params.map Prod.fst).Nodup)
    (hs : save env writable user tree fs path o = (fs', none))
    (hp : o.fields.get "pruner" = some .none) (k : PruneObj) (hp₀ : o₀.fields.get "pruner" = some (.pruner k)) :
    (load env pv tree fs' path o₀).2 = some .keyError := by
  have hc : tree ∈ classes := by simp [classes]
  obtain ⟨hn1, hn2, hloop, -⟩ := fit_parts hc
  obtain ⟨p, hpf, hfull, -, hst, hin, -⟩ := save_ok hn1 hloop hnd hs
  obtain ⟨a, b, hpa, hpb, hna, hnb⟩ := hfull
  obtain ⟨hh, he, hstored⟩ := hst ⟨.compile, "criterion", .field "criterion", none⟩ (by simp [tree]) rfl
  have hno := hin ⟨.compile, "pruning", .nameOf "pruner", some "pruner"⟩ (by simp [tree]) (by simp [active, hp])
  dsimp only at hstored hno
  have hca : a.get "criterion" = some hh := by simpa [stored, Params.ds, hpa] using hstored
  have hpr : a.get "pruning" = none := by simpa [stored, Params.ds, hpa] using hno
  have hr := initRead_saved hpv hv hpf
  simp only [load, hr]
  simp [tree, execLoad, loadLine, active, Params.ds, hpa, hpb, key, hca, hpr, bind, Except.bind, evalLoad,
    setField_get, hp₀]

theorem toH_iff (env : Env) (v : PyVal) : (∃ h, toH env v = .ok h) ↔ Attribute env v := by
  cases v <;> simp [toH, Attribute] <;> split <;> simp_all

theorem evalSave_iff (env : Env) (o : PyObj) (e : SaveExpr) : (∃ h, evalSave env o e = .ok h) ↔ Storable env o e := by
  cases e with
  | field f =>
    simp only [evalSave, getField, Storable, bind, Except.bind]
    cases o.fields.get f with
    | none => simp
    | some v => simp [toH_iff]
  | nameOf f =>
    simp only [evalSave, getField, Storable, bind, Except.bind]
    cases o.fields.get f with
    | none => simp
    | some v => cases v <;> simp [pyName, Named, toH_iff, Attribute]
  | pickle f =>
    simp only [evalSave, getField, Storable, bind, Except.bind]
    cases o.fields.get f with
    | none => simp
    | some v => simp; split <;> simp_all

theorem execSave_iff (env : Env) (o : PyObj) (ls : List SaveLine) : ∀ p,
    (execSave env o ls p).2 = none ↔ ∀ l ∈ ls, active o l.cond = true → Storable env o l.expr := by
  induction ls with
  | nil => intro p; simp [execSave]
  | cons l ls ih =>
    intro p
    simp only [execSave, List.forall_mem_cons]
    by_cases ha : active o l.cond = true
    · rw [if_pos ha]
      have := evalSave_iff env o l.expr
      cases h : evalSave env o l.expr with
      | ok v => simp only [ih]; rw [h] at this; simp [ha, this.1 ⟨v, rfl⟩]
      | error e =>
        rw [h] at this
        have hns : ¬Storable env o l.expr := fun hs => by obtain ⟨_, hh⟩ := this.2 hs; simp at hh
        simp [ha, hns]
    · rw [if_neg ha, ih]; simp [ha]

theorem execSaveLoop_iff (env : Env) (d : Dict String PyVal) : ∀ p,
    (execSaveLoop env d p).2 = none ↔ ∀ kv ∈ d, Attribute env kv.2 := by
  induction d with
  | nil => intro p; simp [execSaveLoop]
  | cons kv d ih =>
    intro p
    obtain ⟨k, v⟩ := kv
    have := toH_iff env v
    simp only [execSaveLoop, List.forall_mem_cons]
    cases h : toH env v with
    | ok x => simp only [ih]; rw [h] at this; simp [this.1 ⟨x, rfl⟩]
    | error e =>
      rw [h] at this
      have hns : ¬Attribute env v := fun hs => by obtain ⟨_, hh⟩ := this.2 hs; simp at hh
      simp [hns]

/-- **C109.** `save_weights` succeeds exactly when the file can be written and every value it stores exists and has an HDF5 equivalent that fits into
an attribute: the plain attributes, the names of the backend objects, the pickles, and (neural networks) every entry of `parameters`. -/
theorem C109_save_succeeds (env : Env) (writable : String → Bool) (user : String) (c : Cls) (fs : FS HVal) (path : String) (o : PyObj) :
    (save env writable user c fs path o).2 = none ↔
      writable path = true ∧ (∀ l ∈ c.save, active o l.cond = true → Storable env o l.expr) ∧
        (c.loop = true → ∀ kv ∈ o.params, Attribute env kv.2) := by
  rw [← execSave_iff env o c.save ⟨some [], some []⟩]
  simp only [save, initWrite]
  by_cases hw : writable path = true
  · simp only [if_pos hw, hw, true_and]
    cases h1 : (execSave env o c.save ⟨some [], some []⟩).2 with
    | some e => simp
    | none =>
      simp only [true_and]
      by_cases hl : c.loop = true
      · simp only [hl, if_true, true_implies]; exact execSaveLoop_iff env o.params _
      · simp [hl]
  · simp [hw]

theorem execSave_error (env : Env) (o : PyObj) (l : SaveLine) (post : List SaveLine) (e : PyErr) (ha : active o l.cond = true)
    (he : evalSave env o l.expr = .error e) (pre : List SaveLine) : ∀ p, (∀ m ∈ pre, active o m.cond = true → Storable env o m.expr) →
    (execSave env o (pre ++ l :: post) p).2 = some e := by
  induction pre with
  | nil => intro p _; simp [execSave, ha, he]
  | cons m pre ih =>
    intro p hp
    simp only [List.cons_append, execSave]
    have hrest := fun q hq => hp q (List.mem_cons_of_mem _ hq)
    split
    · rename_i hm
      obtain ⟨h, hh⟩ := (evalSave_iff env o m.expr).2 (hp m List.mem_cons_self hm)
      rw [hh]
      exact ih _ hrest
    · exact ih _ hrest

/-- **C109.** The first value that cannot be stored decides the exception: an attribute that does not exist raises `AttributeError`, `None` or an
object stored as it is raises `TypeError`, an object without a name where the name is stored raises `AttributeError`, a value that is too large raises
the error of the HDF5 library. -/
theorem C109_save_errors (env : Env) (writable : String → Bool) (user : String) (c : Cls) (fs : FS HVal) (path : String) (o : PyObj)
    (hw : writable path = true) (pre post : List SaveLine) (l : SaveLine) (hc : c.save = pre ++ l :: post)
    (hpre : ∀ m ∈ pre, active o m.cond = true → Storable env o m.expr) (ha : active o l.cond = true) :
    (∀ f, (l.expr = .field f ∨ l.expr = .nameOf f ∨ l.expr = .pickle f) → o.fields.get f = none →
      (save env writable user c fs path o).2 = some .attributeError) ∧
    (∀ f v, l.expr = .field f → o.fields.get f = some v → (∀ q, v ≠ .num q) → (∀ s, v ≠ .str s) → (∀ sh xs, v ≠ .arr sh xs) →
      (save env writable user c fs path o).2 = some .typeError) ∧
    (∀ f v, l.expr = .nameOf f → o.fields.get f = some v → (∀ s, ¬Named v s) → (save env writable user c fs path o).2 = some .attributeError) ∧
    (∀ f v, l.expr = .pickle f → o.fields.get f = some v → env.fits (.void (env.dumps v)) = false →
      (save env writable user c fs path o).2 = some .h5Error) ∧
    (∀ f sh xs, l.expr = .field f → o.fields.get f = some (.arr sh xs) → env.fits (.arr sh xs) = false →
      (save env writable user c fs path o).2 = some .h5Error) ∧
    (∀ f s, l.expr = .field f → o.fields.get f = some (.str s) → env.fits (.str s) = false →
      (save env writable user c fs path o).2 = some .h5Error) ∧
    (∀ f q, l.expr = .field f → o.fields.get f = some (.num q) → env.fits (.num q) = false →
      (save env writable user c fs path o).2 = some .h5Error) := by
  have main : ∀ e, evalSave env o l.expr = .error e → (save env writable user c fs path o).2 = some e := by
    intro e he
    have := execSave_error env o l post e ha he pre ⟨some [], some []⟩ hpre
    simp only [save, initWrite, if_pos hw, hc, this]
  refine ⟨fun f h hf => main _ ?_, fun f v h hf h1 h2 h3 => main _ ?_, fun f v h hf h1 => main _ ?_, fun f v h hf h1 => main _ ?_,
    fun f sh xs h hf h1 => main _ ?_, fun f s h hf h1 => main _ ?_, fun f q h hf h1 => main _ ?_⟩
  · rcases h with h | h | h <;> simp [h, evalSave, getField, hf, bind, Except.bind]
  · rw [h]
    simp only [evalSave, getField, hf, bind, Except.bind]
    cases v <;> simp [toH] <;> simp_all
  · rw [h]
    simp only [evalSave, getField, hf, bind, Except.bind]
    cases v <;> simp [pyName] <;> simp_all [Named]
  · rw [h]; simp [evalSave, getField, hf, bind, Except.bind, h1]
  · rw [h]; simp [evalSave, getField, hf, bind, Except.bind, toH, h1]
  · rw [h]; simp [evalSave, getField, hf, bind, Except.bind, toH, h1]
  · rw [h]; simp [evalSave, getField, hf, bind, Except.bind, toH, h1]

/-- Non-vacuity: saving an untrained k-means model: the first line is fine, the centroids are `None`. -/
example : (save ⟨fun _ => [], fun _ => none, fun _ => true⟩ (fun _ => true) "me" kMeans (fun _ => none) "f"
    ⟨[("init", .str "random"), ("tol", .num 1), ("centroids", .none), ("clusters", .none)], [], false, false⟩).2 = some .typeError := by
  decide +kernel

/-- **C109.** A file without the data set `weights`, or without the data set `compile` for a class that reads it, is refused with
`KeyError` and the instance is left as it was. -/
theorem C109_missing_data_set (env : Env) (pv : String → Option Version) (c : Cls) (fs : FS HVal) (path : String) (o : PyObj)
    (p : Params HVal) (hr : initRead pv fs path c.name = .ok p)
    (hm : p.weights = none ∨ (p.compile = none ∧ c ∈ classes ∧ c.name ≠ "LinearDiscriminantAnalysis")) :
    load env pv c fs path o = (o, some .keyError) := by
  simp only [load, hr]
  rcases hm with h | ⟨h, hc, hn⟩
  · rw [h]
    split <;> rfl
  · have hop : c.opensCompile = true := by
      simp only [classes, List.mem_cons, List.not_mem_nil, or_false] at hc
      rcases hc with rfl | rfl | rfl | rfl | rfl | rfl | rfl | rfl | rfl | rfl | rfl | rfl | rfl <;> first | rfl | exact (hn rfl).elim
    simp [hop, h]

/-- **C109.** Linear discriminant analysis reads the data set `weights` only: it loads whatever the data set `compile` is, even if there
is none. -/
theorem C109_lda_reads_weights_only (env : Env) (pv : String → Option Version) (fs : FS HVal) (path : String) (o : PyObj)
    (p : Params HVal) (hr : initRead pv fs path lda.name = .ok p) (d : Dict String HVal) (hw : p.weights = some d) (w m0 m1 : HVal)
    (h1 : d.get "w" = some w) (h2 : d.get "mu_0" = some m0) (h3 : d.get "mu_1" = some m1) :
    (load env pv lda fs path o).2 = none ∧ (load env pv lda fs path o).1.fields.get "w" = some (ofH w) := by
  simp only [load, hr]
  have hl : ∀ o, execLoad env p lda.load o = (setField (setField (setField o "w" (ofH w)) "mu_0" (ofH m0)) "mu_1" (ofH m1), none) := by
    intro o
    simp [lda, execLoad, loadLine, active, Params.ds, hw, key, h1, h2, h3, bind, Except.bind, evalLoad]
  simp only [hl, hw]
  simp [lda, setField_get]

/-- **C109.** The first line of `load_weights` that meets a value of the wrong kind decides the exception: a backend name that is not a
string, and a string where a pickle is expected, raise `AttributeError`; bytes that are no pickle raise `UnpicklingError` (a `ValueError`
here).  The lines before it have been carried out. -/
theorem C109_malformed_values (env : Env) (pv : String → Option Version) (c : Cls) (fs : FS HVal) (path : String) (o o1 : PyObj)
    (p : Params HVal) (hr : initRead pv fs path c.name = .ok p) (hcp : p.compile ≠ none) (hwt : p.weights ≠ none)
    (pre post : List LoadLine) (l : LoadLine) (hc : c.load = pre ++ l :: post) (hpre : execLoad env p pre o = (o1, none))
    (hcond : l.cond = none) (ds : Dict String HVal) (hds : Params.ds p l.ds = some ds) (h : HVal) (hh : ds.get l.key = some h) :
    ((l.expr = .kernel ∨ l.expr = .optimizer ∨ l.expr = .metric ∨ l.expr = .pruner) → (∀ s, h ≠ .str s) →
      load env pv c fs path o = (o1, some .attributeError)) ∧
    (l.expr = .unpickle → (∃ s, h = .str s) → load env pv c fs path o = (o1, some .attributeError)) ∧
    (l.expr = .unpickle → (∃ b, h = .void b ∧ env.loads b = none) → load env pv c fs path o = (o1, some .valueError)) := by
  have main : ∀ e, evalLoad env o1 l.expr h = .error e → load env pv c fs path o = (o1, some e) := by
    intro e he
    have hap : ∀ (pre : List LoadLine) (o : PyObj), execLoad env p pre o = (o1, none) → execLoad env p (pre ++ l :: post) o = (o1, some e) := by
      intro pre
      induction pre with
      | nil =>
        intro o ho
        simp only [execLoad, Prod.mk.injEq, and_true] at ho
        subst ho
        simp [execLoad, loadLine, active, hcond, hds, key, hh, he, bind, Except.bind]
      | cons m pre ih =>
        intro o ho
        simp only [List.cons_append, execLoad] at ho ⊢
        cases hm : loadLine env p o m with
        | ok o' => rw [hm] at ho; exact ih o' ho
        | error e' => rw [hm] at ho; simp at ho
    cases hw : p.weights with
    | none => exact (hwt hw).elim
    | some w =>
      have hci : p.compile.isNone = false := by cases hcc : p.compile <;> simp_all
      simp [load, hr, hci, hw, hc, hap pre o hpre]
  refine ⟨fun hx hs => main _ ?_, fun hx hs => main _ ?_, fun hx hs => main _ ?_⟩
  · rcases hx with hx | hx | hx | hx <;> rw [hx] <;> cases h <;> simp_all [evalLoad]
  · obtain ⟨s, rfl⟩ := hs; rw [hx]; rfl
  · obtain ⟨b, rfl, hb⟩ := hs; rw [hx]; simp [evalLoad, hb]

end CML.Persist
