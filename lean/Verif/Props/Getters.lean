import Mathlib.Tactic.NormNum
import Verif.Spec.Getters

/-! # C69, C108: getters -/

namespace CML.Getters

/-- **C69.** `get_optimizer`. -/
theorem C69_optimizer : AcceptsExactly (fun s => getOptimizer (.str s)) some optNames := by
  refine ⟨?_, ?_⟩
  · intro s c h
    simp only [optNames, List.mem_cons, Prod.mk.injEq, List.not_mem_nil, or_false] at h
    rcases h with ⟨rfl, rfl⟩ | ⟨rfl, rfl⟩ | ⟨rfl, rfl⟩ | ⟨rfl, rfl⟩ | ⟨rfl, rfl⟩ | ⟨rfl, rfl⟩ | ⟨rfl, rfl⟩ | ⟨rfl, rfl⟩ | ⟨rfl, rfl⟩ <;>
      exact ⟨_, _, rfl, rfl, rfl⟩
  · intro s h
    simp only [optNames, List.map_cons, List.map_nil, List.mem_cons, List.not_mem_nil, or_false, not_or] at h
    simp [getOptimizer, h]

/-- **C69.** `get_kernel`, for every coefficient, which the kernels that have one receive. -/
theorem C69_kernel (gamma : ℚ) : AcceptsExactly (fun s => getKernel (.str s) gamma) some kernNames ∧
    ∀ s o, getKernel (.str s) gamma = .ok o → o.cls = .linear ∨ o.hyper.head? = some gamma := by
  refine ⟨⟨?_, ?_⟩, ?_⟩
  · intro s c h
    simp only [kernNames, List.mem_cons, Prod.mk.injEq, List.not_mem_nil, or_false] at h
    rcases h with ⟨rfl, rfl⟩ | ⟨rfl, rfl⟩ | ⟨rfl, rfl⟩ | ⟨rfl, rfl⟩ | ⟨rfl, rfl⟩ <;>
      exact ⟨_, _, rfl, rfl, rfl⟩
  · intro s h
    simp only [kernNames, List.map_cons, List.map_nil, List.mem_cons, List.not_mem_nil, or_false, not_or] at h
    simp [getKernel, h]
  · intro s o h
    simp only [getKernel] at h
    split at h
    · cases h; left; rfl
    split at h
    · cases h; right; rfl
    split at h
    · cases h; right; rfl
    split at h
    · cases h; right; rfl
    split at h
    · cases h; right; rfl
    · cases h

/-- **C69.** `get_initializer`, for every seed, which the initializer receives. -/
theorem C69_initializer (seed : Option Int) :
    AcceptsExactly (fun s => getInitializer (.str s) seed) some initNames ∧
    ∀ s o, getInitializer (.str s) seed = .ok o → o.hyper = seed := by
  refine ⟨⟨?_, ?_⟩, ?_⟩
  · intro s c h
    simp only [initNames, List.mem_cons, Prod.mk.injEq, List.not_mem_nil, or_false] at h
    rcases h with ⟨rfl, rfl⟩ | ⟨rfl, rfl⟩ | ⟨rfl, rfl⟩ | ⟨rfl, rfl⟩ | ⟨rfl, rfl⟩ <;>
      exact ⟨_, _, rfl, rfl, rfl⟩
  · intro s h
    simp only [initNames, List.map_cons, List.map_nil, List.mem_cons, List.not_mem_nil, or_false, not_or] at h
    simp [getInitializer, h]
  · intro s o h
    simp only [getInitializer] at h
    split at h
    · cases h; rfl
    split at h
    · cases h; rfl
    split at h
    · cases h; rfl
    split at h
    · cases h; rfl
    · cases h

/-- **C69.** `get_criterion`. -/
theorem C69_criterion : AcceptsExactly (fun s => getCriterion (.str s)) some critNames := by
  refine ⟨?_, ?_⟩
  · intro s c h
    simp only [critNames, List.mem_cons, Prod.mk.injEq, List.not_mem_nil, or_false] at h
    rcases h with ⟨rfl, rfl⟩ | ⟨rfl, rfl⟩ | ⟨rfl, rfl⟩ | ⟨rfl, rfl⟩ <;> exact ⟨_, _, rfl, rfl, rfl⟩
  · intro s h
    simp only [critNames, List.map_cons, List.map_nil, List.mem_cons, List.not_mem_nil, or_false, not_or] at h
    simp [getCriterion, h]

/-- **C69.** `get_pruner`; `None` means no pruning. -/
theorem C69_pruner : AcceptsExactly (fun s => getPruner (.str s)) id pruneNames ∧
    getPruner .none = .ok none := by
  refine ⟨⟨?_, ?_⟩, rfl⟩
  · intro s c h
    simp only [pruneNames, List.mem_cons, Prod.mk.injEq, List.not_mem_nil, or_false] at h
    rcases h with ⟨rfl, rfl⟩ | ⟨rfl, rfl⟩ <;> exact ⟨_, _, rfl, rfl, rfl⟩
  · intro s h
    simp only [pruneNames, List.map_cons, List.map_nil, List.mem_cons, List.not_mem_nil, or_false, not_or] at h
    simp [getPruner, h]

/-- **C69** for `get_loss` and `get_metric`: the documented names give the documented classes
(the claim about other strings is false, see `C69_loss_accepts_anything`, `C69_metric_none`). -/
theorem C69_loss_metric_partial :
    (∀ s c, (s, c) ∈ lossNames → getLoss (.str s) = .ok c.default) ∧
    (∀ s c, (s, c) ∈ metricNames → getMetric (.str s) = .ok (some c.default)) := by
  constructor
  · intro s c h
    simp only [lossNames, List.mem_cons, Prod.mk.injEq, List.not_mem_nil, or_false] at h
    rcases h with ⟨rfl, rfl⟩ | ⟨rfl, rfl⟩ | ⟨rfl, rfl⟩ | ⟨rfl, rfl⟩ | ⟨rfl, rfl⟩ | ⟨rfl, rfl⟩ <;> rfl
  · intro s c h
    simp only [metricNames, List.mem_cons, Prod.mk.injEq, List.not_mem_nil, or_false] at h
    rcases h with ⟨rfl, rfl⟩ | ⟨rfl, rfl⟩ | ⟨rfl, rfl⟩ <;> rfl

/-- `get_loss` never raises: every string that is not a documented name silently selects
`Crossentropy`. -/
theorem C69_loss_accepts_anything (s : String) (h : s ∉ lossNames.map Prod.fst) :
    getLoss (.str s) = .ok LossCls.crossentropy.default := by
  simp only [lossNames, List.map_cons, List.map_nil, List.mem_cons, List.not_mem_nil, or_false, not_or] at h
  simp [getLoss, h]

/-- `get_metric` returns `None` for every string that is not a documented name, contrary to its
documentation (`AttributeError`). -/
theorem C69_metric_none (s : String) (h : s ∉ metricNames.map Prod.fst) :
    getMetric (.str s) = .ok none := by
  simp only [metricNames, List.map_cons, List.map_nil, List.mem_cons, List.not_mem_nil, or_false, not_or] at h
  simp [getMetric, h]

/-- The claim is false for `get_loss` and `get_metric`. -/
theorem C69_violated :
    ¬ AcceptsExactly (fun s => getLoss (.str s)) some lossNames ∧
    ¬ AcceptsExactly (fun s => getMetric (.str s)) id metricNames := by
  constructor
  · rintro ⟨-, h⟩; have := h "hinge" (by decide); simp [C69_loss_accepts_anything "hinge" (by decide)] at this
  · rintro ⟨-, h⟩; have := h "f1" (by decide); simp [C69_metric_none "f1" (by decide)] at this

/-- **C69.** Instances are passed through unchanged, except by `get_pruner`, which refuses them;
`None` selects a default loss and initializer and is refused elsewhere. -/
theorem C69_instances :
    (∀ o, getOptimizer (.obj o) = .ok o) ∧ (∀ o, getLoss (.obj o) = .ok o) ∧
    (∀ o, getMetric (.obj o) = .ok (some o)) ∧ (∀ o g, getKernel (.obj o) g = .ok o) ∧
    (∀ o s, getInitializer (.obj o) s = .ok o) ∧ (∀ o, getCriterion (.obj o) = .ok o) ∧
    (∀ o, getPruner (.obj o) = .error .attributeError) ∧
    getOptimizer .none = .error .attributeError ∧ getMetric .none = .error .attributeError ∧
    (∀ s, getInitializer .none s = .ok (InitCls.default s .randomNormal)) ∧
    (∀ g, getKernel .none g = .error .attributeError) :=
  ⟨fun _ => rfl, fun _ => rfl, fun _ => rfl, fun _ _ => rfl, fun _ _ => rfl, fun _ => rfl, fun _ => rfl,
    rfl, rfl, fun _ => rfl, fun _ => rfl⟩

/-- **C108.** The default name of every optimizer, loss, metric, kernel, criterion and pruner selects
an object equal to the default object of that class: this is what makes saved names loadable. -/
theorem C108_names_round_trip :
    (∀ c : OptCls, getOptimizer (.str c.default.name) = .ok c.default) ∧
    (∀ c : LossCls, getLoss (.str c.default.name) = .ok c.default) ∧
    (∀ c : MetricCls, getMetric (.str c.default.name) = .ok (some c.default)) ∧
    (∀ (g g' : ℚ) (c : KernCls), getKernel (.str (c.default g').name) g = .ok (c.default g)) ∧
    (∀ c : CritCls, getCriterion (.str c.default.name) = .ok c.default) ∧
    (∀ c : PruneCls, getPruner (.str c.default.name) = .ok (some c.default)) := by
  refine ⟨?_, ?_, ?_, ?_, ?_, ?_⟩
  · intro c; cases c <;> rfl
  · intro c; cases c <;> rfl
  · intro c; cases c <;> rfl
  · intro g g' c; cases c <;> rfl
  · intro c; cases c <;> rfl
  · intro c; cases c <;> rfl

/-- **C108.** Initializers: all default names come back to their class, except that `glorot_normal`
yields an object of the class `XavierNormal` whose name is `xavier_normal`. -/
theorem C108_initializers (seed seed' : Option Int) (c : InitCls) :
    getInitializer (.str (c.default seed').name) seed =
      .ok (InitCls.default seed (if c = .glorotNormal then .xavierNormal else c)) := by
  cases c <;> rfl

/-- The class is determined by the name: two documented names of different classes differ. -/
theorem C108_tables_functional :
    (optNames.map Prod.fst).Nodup ∧ (lossNames.map Prod.fst).Nodup ∧ (metricNames.map Prod.fst).Nodup ∧
    (kernNames.map Prod.fst).Nodup ∧ (initNames.map Prod.fst).Nodup ∧ (critNames.map Prod.fst).Nodup ∧
    (pruneNames.map Prod.fst).Nodup := by decide

/-- **C69.** The objects made from a name have the documented default hyperparameters. -/
theorem C69_defaults (gamma : ℚ) :
    (∀ s h, (s, h) ∈ optDefaults → ∃ o, getOptimizer (.str s) = .ok o ∧ o.hyper = h) ∧
    (∀ s h, (s, h) ∈ kernDefaults gamma → ∃ o, getKernel (.str s) gamma = .ok o ∧ o.hyper = h) := by
  constructor
  · intro s h hm
    simp only [optDefaults, List.mem_cons, Prod.mk.injEq, List.not_mem_nil, or_false] at hm
    rcases hm with ⟨rfl, rfl⟩ | ⟨rfl, rfl⟩ | ⟨rfl, rfl⟩ | ⟨rfl, rfl⟩ | ⟨rfl, rfl⟩ | ⟨rfl, rfl⟩
    · exact ⟨OptCls.gd.default, rfl, rfl⟩
    · exact ⟨OptCls.newton.default, rfl, rfl⟩
    · exact ⟨OptCls.sgd.default, rfl, rfl⟩
    · exact ⟨OptCls.adam.default, rfl, by simp only [OptCls.default]; norm_num⟩
    · exact ⟨OptCls.rbf.default, rfl, rfl⟩
    · exact ⟨OptCls.smo.default, rfl, rfl⟩
  · intro s h hm
    simp only [kernDefaults, List.mem_cons, Prod.mk.injEq, List.not_mem_nil, or_false] at hm
    rcases hm with ⟨rfl, rfl⟩ | ⟨rfl, rfl⟩ | ⟨rfl, rfl⟩ | ⟨rfl, rfl⟩ | ⟨rfl, rfl⟩
    · exact ⟨KernCls.linear.default gamma, rfl, rfl⟩
    · exact ⟨KernCls.poly.default gamma, rfl, rfl⟩
    · exact ⟨KernCls.rbf.default gamma, rfl, rfl⟩
    · exact ⟨KernCls.gaussian.default gamma, rfl, rfl⟩
    · exact ⟨KernCls.sigmoid.default gamma, rfl, rfl⟩

/-- **C69.** Anything that is neither a string, an instance nor `None` raises `AttributeError`, except as a loss, where it gives the
cross entropy; `None` is refused as a criterion. -/
theorem C69_other_refused (g : ℚ) (s : Option Int) :
    getOptimizer .other = .error .attributeError ∧ getMetric .other = .error .attributeError ∧ getKernel .other g = .error .attributeError ∧
    getInitializer .other s = .error .attributeError ∧ getCriterion .other = .error .attributeError ∧ getCriterion .none = .error .attributeError ∧
    getPruner .other = .error .attributeError ∧ getLoss .other = .ok LossCls.crossentropy.default ∧ getLoss .none = .ok LossCls.crossentropy.default :=
  ⟨rfl, rfl, rfl, rfl, rfl, rfl, rfl, rfl, rfl⟩

end CML.Getters
