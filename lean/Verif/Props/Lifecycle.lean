import Verif.Model.Lifecycle
import Verif.Props.Persist
import Mathlib.Tactic.DeriveCountable
import Mathlib.Data.Countable.Basic
import Mathlib.Data.Rat.Encodable
import Mathlib.Logic.Equiv.List

/-! # C70, C115: life cycle -/

set_option linter.unusedSectionVars false

namespace CML.Persist
open CML.Getters CML.IO

theorem load_flags (env : Env) (pv : String → Option Version) (c : Cls) (fs : FS HVal) (path : String) (o : PyObj) :
    (load env pv c fs path o).1.isTrained = o.isTrained ∧
    (load env pv c fs path o).1.isLoaded = (o.isLoaded || (load env pv c fs path o).2.isNone) := by
  cases h : load env pv c fs path o with
  | mk o' e =>
    cases e with
    | some e =>
      have := C111_failed_load_partial env pv c fs path o o' e h
      exact ⟨this.2.2.1, by simpa using this.2.1⟩
    | none =>
      obtain ⟨p, w, o1, -, -, hex, rfl⟩ := load_ok h
      have hfr := (execLoad_frame env p c.load o).2.2.1
      rw [hex] at hfr
      refine ⟨?_, by simp⟩
      have hloop : ∀ (w : Dict String HVal) (o : PyObj), (execLoadLoop w o).isTrained = o.isTrained := by
        intro w
        induction w with
        | nil => intro o; rfl
        | cons a w ih => intro o; obtain ⟨k, h⟩ := a; simp only [execLoadLoop, ih]
      by_cases hcl : c.loop = true
      · simp only [hcl, if_true, hloop]; exact hfr
      · simp only [hcl]; exact hfr

theorem run_flags (env : Env) (pv : String → Option Version) (writable : String → Bool) (user : String) (c : Cls)
    (ops : List Op) : ∀ w : World,
    ((run env pv writable user c w ops).1.obj.isTrained = true ↔
      w.obj.isTrained = true ∨ Event.fitted ∈ (run env pv writable user c w ops).2) ∧
    ((run env pv writable user c w ops).1.obj.isLoaded = true ↔
      w.obj.isLoaded = true ∨ Event.loaded ∈ (run env pv writable user c w ops).2) := by
  induction ops with
  | nil => intro w; simp [run]
  | cons op ops ih =>
    intro w
    simp only [run]
    obtain ⟨i1, i2⟩ := ih (step env pv writable user c w op).1
    rw [i1, i2]
    cases op with
    | compile f => simp [step]
    | fit f p b => cases b <;> simp [step]
    | save path => simp [step]
    | load path =>
      have hf := load_flags env pv c w.fs path w.obj
      cases h : load env pv c w.fs path w.obj with
      | mk o' e =>
        rw [h] at hf
        cases e with
        | none =>
          have h1 : o'.isTrained = w.obj.isTrained := hf.1
          have h2 : o'.isLoaded = true := by simpa using hf.2
          simp [step, h, h1, h2]
        | some e =>
          have h1 : o'.isTrained = w.obj.isTrained := hf.1
          have h2 : o'.isLoaded = w.obj.isLoaded := by simpa using hf.2
          simp [step, h, h1, h2]

/-- **C70.** For every class with a guard, every file system and every history of calls on a new instance:
`predict` raises `ValueError('你必须先进行训练')` exactly if no `fit` of the history completed and no
`load_weights` of the history succeeded. -/
theorem C70_guard_iff_partial (env : Env) (pv : String → Option Version) (writable : String → Bool) (user : String)
    (c : Cls) (w : World) (hnew : w.obj.isTrained = false ∧ w.obj.isLoaded = false) (ops : List Op) :
    (predictGuard (run env pv writable user c w ops).1.obj = .error .valueError ↔
      ∀ e ∈ (run env pv writable user c w ops).2, e = .other) ∧
    (predictGuard (run env pv writable user c w ops).1.obj = .ok () ↔
      ∃ e ∈ (run env pv writable user c w ops).2, e = .fitted ∨ e = .loaded) := by
  obtain ⟨h1, h2⟩ := run_flags env pv writable user c ops w
  rw [hnew.1] at h1; rw [hnew.2] at h2
  simp only [Bool.false_eq_true, false_or] at h1 h2
  have key : (∃ e ∈ (run env pv writable user c w ops).2, e = .fitted ∨ e = .loaded) ↔
      ((run env pv writable user c w ops).1.obj.isTrained = true ∨ (run env pv writable user c w ops).1.obj.isLoaded = true) := by
    rw [h1, h2]
    constructor
    · rintro ⟨e, he, rfl | rfl⟩
      · left; exact he
      · right; exact he
    · rintro (h | h)
      · exact ⟨_, h, .inl rfl⟩
      · exact ⟨_, h, .inr rfl⟩
  have key2 : (∀ e ∈ (run env pv writable user c w ops).2, e = .other) ↔
      ¬ ∃ e ∈ (run env pv writable user c w ops).2, e = .fitted ∨ e = .loaded := by
    push Not
    refine forall₂_congr (fun e _ => ?_)
    cases e <;> simp
  rw [key2, key]
  unfold predictGuard
  cases ht : (run env pv writable user c w ops).1.obj.isTrained <;>
    cases hl : (run env pv writable user c w ops).1.obj.isLoaded <;> simp

/-- The claim is false for the decision stump and the two-level tree: an untrained instance raises
`AttributeError`, for every input (with at least one sample). -/
theorem C70_stump_unguarded {T X Y : Type} (predictWith : T → List X → List Y) (twoLevel : Bool) (x : List X)
    (hx : x ≠ []) : unguardedPredict predictWith twoLevel none x = .error .attributeError := by
  cases x with
  | nil => exact absurd rfl hx
  | cons a x => simp [unguardedPredict]

/-- …and an untrained two-level tree accepts an empty batch. -/
theorem C70_two_level_empty {T X Y : Type} (predictWith : T → List X → List Y) :
    unguardedPredict predictWith true none ([] : List X) = .ok [] := rfl

/-- **C115** (part).  A tree classifier without loaded weights is regenerated from the data by every `fit`,
whatever it held before; the neural networks and the logistic regression always optimise on the data of
the call, starting from the loaded weights if there are any. -/
theorem C115_refit_partial {D T P : Type} (generate : D → T) (prune : Option (D → T → T)) (t t' : T) (d : D)
    (initP : D → P) (optimize : D → P → P) (params : P) :
    treeFit generate prune false t d = treeFit generate prune false t' d ∧
    treeFit generate none false t d = generate d ∧
    netFit initP optimize false params d = optimize d (initP d) ∧
    netFit initP optimize true params d = optimize d params := by
  simp [treeFit, netFit]

/-- C115: after a call of `fit`, later calls of `save_weights` (successful or not) leave the instance with the fields and weights of that fit. -/
theorem C115_fit_then_saves (env : Env) (pv : String → Option Version) (writable : String → Bool) (user : String) (c : Cls) (w : World)
    (f p : Dict String PyVal) (completes : Bool) (before : List Op) (paths : List String) :
    (run env pv writable user c w (before ++ .fit f p completes :: paths.map .save)).1.obj.fields = f ∧
    (run env pv writable user c w (before ++ .fit f p completes :: paths.map .save)).1.obj.params = p := by
  have saves : ∀ (paths : List String) (w : World), (run env pv writable user c w (paths.map .save)).1.obj = w.obj := by
    intro paths
    induction paths with
    | nil => intro w; rfl
    | cons q paths ih => intro w; simp only [List.map_cons, run]; rw [ih]; rfl
  induction before generalizing w with
  | nil =>
    simp only [List.nil_append, run]
    rw [saves]
    cases completes <;> exact ⟨rfl, rfl⟩
  | cons op before ih =>
    simp only [List.cons_append, run]
    exact ih _

/-- The claim is false for a tree classifier with loaded weights: `fit` ignores the data, for all data. -/
theorem C115_loaded_tree_not_trained {D T : Type} (generate : D → T) (t : T) (d : D) :
    treeFit generate none true t d = t := by simp [treeFit]

/-- …so on data on which training would give another tree, the fitted model is not the trained one. -/
theorem C115_violated : ∃ (generate : List Nat → Nat) (t : Nat) (d : List Nat),
    treeFit generate none true t d ≠ generate d := ⟨List.length, 0, [7], by decide⟩

/-! ## Non-vacuity -/

section nonvacuity
instance : Countable Char := (show Function.Injective Char.toNat from fun a b h => Char.ext (UInt32.toNat_inj.1 h)).countable
instance : Countable String := (show Function.Injective String.toList from fun a b h => String.ext h).countable
deriving instance Countable for OptCls, LossCls, MetricCls, KernCls, PruneCls
deriving instance Countable for Obj
deriving instance Countable for PyVal

/-- There is a faithful `pickle`. -/
theorem exists_env : ∃ env : Env, env.Pickles ∧ ∀ h, env.fits h = true := by
  classical
  obtain ⟨f, hf⟩ := exists_injective_nat PyVal
  refine ⟨⟨fun v => [f v], fun b => if h : ∃ v, [f v] = b then some h.choose else none, fun _ => true⟩, ?_, fun _ => rfl⟩
  intro v
  have hex : ∃ w, [f w] = [f v] := ⟨v, rfl⟩
  simp only [hex, dif_pos]
  congr 1
  have := hex.choose_spec
  injection this with h _
  exact hf h

/-- A k-means model is saved and loaded into a new instance; prediction is then allowed. -/
example : ∃ (env : Env) (pv : String → Option Version) (fs' : FS HVal) (o o' : PyObj),
    save env (fun _ => true) "me" kMeans (fun _ => none) "f" o = (fs', none) ∧
    load env pv kMeans fs' "f" ⟨[], [], false, false⟩ = (o', none) ∧
    o'.fields.get "centroids" = some (.arr [2, 1] [1, 5]) ∧ predictGuard o' = .ok () := by
  obtain ⟨env, hpk, hfit⟩ := exists_env
  let o : PyObj := ⟨[("init", .str "random"), ("tol", .num (1/1000)), ("centroids", .arr [2, 1] [1, 5]),
    ("clusters", .arr [3] [0, 0, 1])], [], true, false⟩
  let pv : String → Option Version := fun _ => some (.final [0, 9])
  have hv : AtLeast (.final [0, 9]) [0, 5] := .inr (.inl ⟨1, by simp [Version.final], by simp [Version.final]⟩)
  have hs0 : (save env (fun _ => true) "me" kMeans (fun _ => none) "f" o).2 = none :=
    C113_kmeans_saves_partial env (fun _ => true) "me" (fun _ => none) "f" o (.str "random") (.num (1/1000))
      (.arr [2, 1] [1, 5]) (.arr [3] [0, 0, 1]) rfl rfl rfl rfl rfl (by
        intro x hx
        simp only [List.mem_cons, List.not_mem_nil, or_false] at hx
        rcases hx with rfl | rfl | rfl | rfl <;> simp [toH, hfit])
  have hs : save env (fun _ => true) "me" kMeans (fun _ => none) "f" o =
      ((save env (fun _ => true) "me" kMeans (fun _ => none) "f" o).1, none) := by rw [← hs0]
  obtain ⟨o', hl⟩ := C109_load_succeeds env hpk pv _ rfl hv (fun _ => true) "me" kMeans (by simp [classes])
    (fun _ => none) _ "f" o ⟨[], [], false, false⟩ (by simp [o])
    ⟨by intro f k h; simp [o, Dict.get] at h; 
         split_ifs at h <;> simp at h,
     by intro f k h; simp [o, Dict.get] at h; 
         split_ifs at h <;> simp at h,
     by intro f k h; simp [o, Dict.get] at h; 
         split_ifs at h <;> simp at h⟩
    ⟨by intro v h; simp [o, Dict.get] at h, by intro v h; simp [o, Dict.get] at h,
     by intro v h; simp [o, Dict.get] at h, by intro v h; simp [o, Dict.get] at h,
     by intro v h; simp [o, Dict.get] at h⟩ (by simp [o, Dict.get]) hs
  obtain ⟨hd, -, hld, -⟩ := C109_data_restored env hpk pv _ rfl hv (fun _ => true) "me" kMeans (by simp [classes])
    (fun _ => none) _ "f" o ⟨[], [], false, false⟩ o' (by simp [o]) hs hl
  exact ⟨env, pv, _, o, o', hs, hl, (hd "centroids" (by decide)).1, by simp [predictGuard, hld]⟩

/-- An instance that failed to load and failed to fit refuses to predict. -/
example (env : Env) : predictGuard (run env (fun _ => none) (fun _ => true) "me" kMeans
    ⟨⟨[], [], false, false⟩, fun _ => none⟩ [.compile [("init", .str "random")], .load "missing", .fit [] [] false]).1.obj
    = .error .valueError := by
  simp [run, step, load, initRead, predictGuard]

end nonvacuity

end CML.Persist
