import Verif.Spec.SMO
import Verif.Props.Ops
import Mathlib.Algebra.Order.BigOperators.Group.Finset
import Mathlib.Algebra.BigOperators.Ring.Finset
import Mathlib.Tactic.Ring
import Mathlib.Tactic.Linarith
import Mathlib.Tactic.FieldSimp
import Mathlib.Tactic.LinearCombination

namespace CML.SMO
open Finset

variable {K : Type*} [Field K] [LinearOrder K] {n : Nat}

/-- Bookkeeping invariant: feasibility plus coherent masks. -/
structure Inv (p : Problem K n) (s : State K n) : Prop where
  feas : DualFeasible p s.alphas
  nz : ∀ i, s.nonZero i = decide (0 < s.alphas i)
  nb : ∀ i, s.nonBound i = decide (0 < s.alphas i ∧ s.alphas i < p.C)

variable [IsStrictOrderedRing K]

omit [IsStrictOrderedRing K] in
theorem inv_init (p : Problem K n) (hp : p.Valid) : Inv p (State.init K n) := by
  refine ⟨⟨fun i => ⟨le_refl _, hp.C_nonneg⟩, by simp [State.init]⟩, ?_, ?_⟩ <;> simp [State.init]

omit [LinearOrder K] [IsStrictOrderedRing K] in
theorem sum_update2 (f : Fin n → K) (i j : Fin n) (hij : i ≠ j) (a b : K) (g : Fin n → K) :
    ∑ k, Function.update (Function.update f i a) j b k * g k =
      ∑ k, f k * g k + (a - f i) * g i + (b - f j) * g j := by
  have h : ∀ k, Function.update (Function.update f i a) j b k * g k =
      f k * g k + (if k = i then (a - f i) * g i else 0) + (if k = j then (b - f j) * g j else 0) := by
    intro k
    by_cases hj : k = j
    · subst hj
      simp [Ne.symm hij]; ring
    · by_cases hi : k = i
      · subst hi; simp [hj]; ring
      · simp [hi, hj]
  simp only [h, sum_add_distrib, sum_ite_eq', mem_univ, if_true]

omit [IsStrictOrderedRing K] in
/-- unfolding of a successful update -/
theorem updateAlpha_some {p : Problem K n} {s s' : State K n} {i j : Fin n} {ei ej : K}
    (h : updateAlpha p s i j ei ej = some s') :
    i ≠ j ∧ (bounds p s i j).1 ≠ (bounds p s i j).2 ∧ 0 < eta p i j ∧
    1 / 100000 ≤ |alphaJNew p s i j ei ej - s.alphas j| ∧
    s'.alphas = Function.update (Function.update s.alphas i
      (s.alphas i + p.y i * p.y j * (s.alphas j - alphaJNew p s i j ei ej))) j (alphaJNew p s i j ei ej) ∧
    s'.nonZero = Function.update (Function.update s.nonZero i (decide (0 < s.alphas i + p.y i * p.y j *
      (s.alphas j - alphaJNew p s i j ei ej)))) j (decide (0 < alphaJNew p s i j ei ej)) ∧
    s'.nonBound = Function.update (Function.update s.nonBound i
      (decide (0 < s.alphas i + p.y i * p.y j * (s.alphas j - alphaJNew p s i j ei ej) ∧
        s.alphas i + p.y i * p.y j * (s.alphas j - alphaJNew p s i j ei ej) < p.C))) j
      (decide (0 < alphaJNew p s i j ei ej ∧ alphaJNew p s i j ei ej < p.C)) := by
  unfold updateAlpha at h
  split at h; · simp at h
  split at h; · simp at h
  split at h; · simp at h
  rename_i h1 h2 h3
  dsimp only at h
  split at h; · simp at h
  rename_i h4
  injection h with h
  subst h
  exact ⟨h1, h2, not_le.1 h3, not_lt.1 h4, rfl, rfl, rfl⟩

omit [IsStrictOrderedRing K] in
theorem bounds_eq (p : Problem K n) (s : State K n) (i j : Fin n) :
    bounds p s i j = (segLow p s.alphas i j, segHigh p s.alphas i j) := by
  unfold bounds segLow segHigh
  by_cases h : p.y i = p.y j <;> simp [h]

theorem bounds_props {p : Problem K n} {s : State K n} (hs : DualFeasible p s.alphas)
    (i j : Fin n) :
    (bounds p s i j).1 ≤ s.alphas j ∧ s.alphas j ≤ (bounds p s i j).2 ∧
    0 ≤ (bounds p s i j).1 ∧ (bounds p s i j).2 ≤ p.C := by
  have hi := hs.1 i
  have hj := hs.1 j
  unfold bounds
  split
  · simp only [max_le_iff, le_min_iff, le_max_iff, min_le_iff]
    refine ⟨⟨by linarith, by linarith⟩, ⟨by linarith, by linarith⟩, ?_, ?_⟩ <;> simp
  · simp only [max_le_iff, le_min_iff, le_max_iff, min_le_iff]
    refine ⟨⟨by linarith, by linarith⟩, ⟨by linarith, by linarith⟩, ?_, ?_⟩ <;> simp

theorem alphaJNew_mem {p : Problem K n} {s : State K n} (hs : DualFeasible p s.alphas)
    (i j : Fin n) (ei ej : K) :
    (bounds p s i j).1 ≤ alphaJNew p s i j ei ej ∧ alphaJNew p s i j ei ej ≤ (bounds p s i j).2 := by
  have h := bounds_props hs i j
  exact Ops.C04_clip_mem _ _ _ (h.1.trans h.2.1)

theorem alphaINew_mem {p : Problem K n} (hp : p.Valid) {s : State K n} (hs : DualFeasible p s.alphas)
    (i j : Fin n) (ei ej : K) :
    0 ≤ s.alphas i + p.y i * p.y j * (s.alphas j - alphaJNew p s i j ei ej) ∧
    s.alphas i + p.y i * p.y j * (s.alphas j - alphaJNew p s i j ei ej) ≤ p.C := by
  have h1 := alphaJNew_mem hs i j ei ej
  revert h1
  generalize alphaJNew p s i j ei ej = a
  unfold bounds
  rcases hp.label i with hi | hi <;> rcases hp.label j with hj | hj
  · simp only [hi, hj, ne_eq, not_true_eq_false, if_false, max_le_iff, le_min_iff]
    rintro ⟨⟨_, h1⟩, _, h2⟩; constructor <;> linarith
  · rw [if_pos (by rw [hi, hj]; norm_num)]
    simp only [max_le_iff, le_min_iff]
    rintro ⟨⟨_, h1⟩, _, h2⟩; rw [hi, hj]; constructor <;> linarith
  · rw [if_pos (by rw [hi, hj]; norm_num)]
    simp only [max_le_iff, le_min_iff]
    rintro ⟨⟨_, h1⟩, _, h2⟩; rw [hi, hj]; constructor <;> linarith
  · simp only [hi, hj, ne_eq, not_true_eq_false, if_false, max_le_iff, le_min_iff]
    rintro ⟨⟨_, h1⟩, _, h2⟩; constructor <;> linarith

omit [LinearOrder K] [IsStrictOrderedRing K] in
theorem sq_label {a : K} (h : a = 1 ∨ a = -1) : a * a = 1 := by
  rcases h with rfl | rfl <;> ring

theorem inv_updateAlpha {p : Problem K n} (hp : p.Valid) {s s' : State K n} (hs : Inv p s)
    {i j : Fin n} {ei ej : K} (h : updateAlpha p s i j ei ej = some s') : Inv p s' := by
  obtain ⟨hij, _, _, _, ha, hnz, hnb⟩ := updateAlpha_some h
  have hb := bounds_props hs.feas i j
  have hj := alphaJNew_mem hs.feas i j ei ej
  have hi := alphaINew_mem hp hs.feas i j ei ej
  refine ⟨⟨?_, ?_⟩, ?_, ?_⟩
  · intro k
    rw [ha]
    by_cases hkj : k = j
    · subst hkj; simp only [Function.update_self]
      exact ⟨hb.2.2.1.trans hj.1, hj.2.trans hb.2.2.2⟩
    · by_cases hki : k = i
      · subst hki; simpa [Function.update_of_ne hkj] using hi
      · simpa [Function.update_of_ne hkj, Function.update_of_ne hki] using hs.feas.1 k
  · rw [ha, sum_update2 _ _ _ hij, hs.feas.2]
    have := sq_label (hp.label i)
    linear_combination (p.y j * (s.alphas j - alphaJNew p s i j ei ej)) * this
  · intro k
    rw [ha, hnz]
    by_cases hkj : k = j
    · subst hkj; simp
    · by_cases hki : k = i
      · subst hki; simp [Function.update_of_ne hkj]
      · simpa [Function.update_of_ne hkj, Function.update_of_ne hki] using hs.nz k
  · intro k
    rw [ha, hnb]
    by_cases hkj : k = j
    · subst hkj; simp
    · by_cases hki : k = i
      · subst hki; simp [Function.update_of_ne hkj]
      · simpa [Function.update_of_ne hkj, Function.update_of_ne hki] using hs.nb k

omit [IsStrictOrderedRing K] in
theorem forcedLoop_some {p : Problem K n} {s s' : State K n} {i : Fin n} {ei : K}
    {js : List (Fin n)} (h : forcedLoop p s i ei js = some s') :
    ∃ j ∈ js, updateAlpha p s i j ei (calculateError p s j) = some s' := by
  induction js with
  | nil => simp [forcedLoop] at h
  | cons j js ih =>
    unfold forcedLoop at h
    split at h
    · rename_i s1 h1
      injection h with h; subst h
      exact ⟨j, by simp, h1⟩
    · obtain ⟨j', hj', h'⟩ := ih h
      exact ⟨j', by simp [hj'], h'⟩

omit [IsStrictOrderedRing K] in
theorem forcedLoop_none {p : Problem K n} {s : State K n} {i : Fin n} {ei : K}
    {js : List (Fin n)} (h : forcedLoop p s i ei js = none) :
    ∀ j ∈ js, updateAlpha p s i j ei (calculateError p s j) = none := by
  induction js with
  | nil => simp
  | cons j js ih =>
    unfold forcedLoop at h
    split at h
    · simp at h
    · rename_i h1
      intro j' hj'
      rcases List.mem_cons.1 hj' with rfl | hj'
      · exact h1
      · exact ih h j' hj'

omit [IsStrictOrderedRing K] in
/-- a successful `_update_parameters` is one successful `_update_alpha` -/
theorem updateParameters_some {p : Problem K n} {s s' : State K n} {i : Fin n}
    {perm : List (Fin n)} (h : updateParameters p s i perm = some s') :
    violates p s i ∧
    ((∃ j ej, selectSecond s (errorI p s i) = some (j, ej) ∧
        updateAlpha p s i j (errorI p s i) ej = some s') ∨
     ∃ j ∈ perm, updateAlpha p s i j (errorI p s i) (calculateError p s j) = some s') := by
  unfold updateParameters at h
  dsimp only at h
  split at h
  · rename_i hv
    refine ⟨hv, ?_⟩
    split at h
    · rename_i j ej hsel
      split at h
      · rename_i s1 h1
        injection h with h; subst h
        exact Or.inl ⟨j, ej, hsel, h1⟩
      · exact Or.inr (forcedLoop_some h)
    · exact Or.inr (forcedLoop_some h)
  · simp at h

omit [IsStrictOrderedRing K] in
theorem updateParameters_none {p : Problem K n} {s : State K n} {i : Fin n}
    {perm : List (Fin n)} (h : updateParameters p s i perm = none) :
    ¬ violates p s i ∨ ∀ j ∈ perm, updateAlpha p s i j (errorI p s i) (calculateError p s j) = none := by
  unfold updateParameters at h
  dsimp only at h
  split at h
  · right
    split at h
    · split at h
      · simp at h
      · exact forcedLoop_none h
    · exact forcedLoop_none h
  · left; assumption

theorem inv_updateParameters {p : Problem K n} (hp : p.Valid) {s s' : State K n} (hs : Inv p s)
    {i : Fin n} {perm : List (Fin n)} (h : updateParameters p s i perm = some s') : Inv p s' := by
  rcases (updateParameters_some h).2 with ⟨j, ej, _, h1⟩ | ⟨j, _, h1⟩
  · exact inv_updateAlpha hp hs h1
  · exact inv_updateAlpha hp hs h1

theorem inv_reachable {p : Problem K n} (hp : p.Valid) {s : State K n} (h : Reachable p s) :
    Inv p s := by
  induction h with
  | init => exact inv_init p hp
  | step i perm _ h1 ih => exact inv_updateParameters hp ih h1

omit [IsStrictOrderedRing K] in
theorem reachable_passLoop {p : Problem K n} (perms : Nat → List (Fin n)) (is : List (Fin n)) :
    ∀ (s : State K n) (t c : Nat), Reachable p s → Reachable p (passLoop p perms is (s, t, c)).1 := by
  induction is with
  | nil => intro s t c h; exact h
  | cons i is ih =>
    intro s t c h
    unfold passLoop
    split
    · rename_i s' h1
      exact ih s' _ _ (Reachable.step i _ h h1)
    · exact ih s _ _ h

omit [IsStrictOrderedRing K] in
theorem pass_cases (p : Problem K n) (perms : Nat → List (Fin n)) (r : Run K n) :
    ∃ idx c, passLoop p perms idx (r.st, r.t, 0) = ((pass p perms r).1.st, (pass p perms r).1.t, c) ∧
      (pass p perms r).1.epoch = r.epoch + 1 ∧
      ((pass p perms r).2 = true → r.entire = true ∧ idx = List.finRange n ∧ c = 0) := by
  refine ⟨if r.entire then List.finRange n else (List.finRange n).filter r.st.nonBound,
    (passLoop p perms (if r.entire then List.finRange n else (List.finRange n).filter r.st.nonBound)
      (r.st, r.t, 0)).2.2, ?_⟩
  unfold pass
  dsimp only
  split
  · split
    · rename_i h1 h2; exact ⟨rfl, rfl, fun _ => ⟨h1, by simp, h2⟩⟩
    · rename_i h1 h2; simp [h1]
  · split
    · rename_i h1 h2; simp [h1]
    · rename_i h1 h2; simp [h1]

omit [IsStrictOrderedRing K] in
theorem reachable_loop {p : Problem K n} (perms : Nat → List (Fin n)) (k : Nat) :
    ∀ r : Run K n, Reachable p r.st → Reachable p (loop p perms k r).1.st := by
  induction k with
  | zero => intro r h; exact h
  | succ k ih =>
    intro r h
    obtain ⟨idx, c, h1, h2, h3⟩ := pass_cases p perms r
    have hr : Reachable p (pass p perms r).1.st := by
      have := reachable_passLoop (p := p) perms idx r.st r.t 0 h
      rw [h1] at this; exact this
    unfold loop
    split
    · rename_i r' e; rw [e] at hr; exact hr
    · rename_i r' e; rw [e] at hr; exact ih r' hr

omit [IsStrictOrderedRing K] in
theorem reachable_returns {p : Problem K n} {perms : Nat → List (Fin n)} {epochs : Int}
    {s : State K n} (h : Returns p perms epochs s) : Reachable p s := by
  unfold Returns at h
  split at h
  · obtain ⟨k, _, h2⟩ := h
    rw [← h2]; exact reachable_loop perms k _ Reachable.init
  · rw [← h]; exact reachable_loop perms _ _ Reachable.init

omit [IsStrictOrderedRing K] in
theorem loop_epoch (p : Problem K n) (perms : Nat → List (Fin n)) (k : Nat) :
    ∀ r : Run K n, (loop p perms k r).1.epoch ≤ r.epoch + k := by
  induction k with
  | zero => intro r; simp [loop]
  | succ k ih =>
    intro r
    obtain ⟨idx, c, h1, h2, h3⟩ := pass_cases p perms r
    unfold loop
    split
    · rename_i r' e; rw [e] at h2; simp only at h2 ⊢; omega
    · rename_i r' e; rw [e] at h2; simp only at h2 ⊢; have := ih r'; omega

omit [IsStrictOrderedRing K] in
theorem passLoop_ge (p : Problem K n) (perms : Nat → List (Fin n)) (is : List (Fin n)) :
    ∀ (s : State K n) (t c : Nat), c ≤ (passLoop p perms is (s, t, c)).2.2 := by
  induction is with
  | nil => intro s t c; simp [passLoop]
  | cons i is ih =>
    intro s t c
    unfold passLoop
    split
    · exact le_trans (Nat.le_succ c) (ih _ _ _)
    · exact ih _ _ _

omit [IsStrictOrderedRing K] in
/-- a pass that changes nothing leaves the state and every call returned 0 in that state -/
theorem passLoop_zero (p : Problem K n) (perms : Nat → List (Fin n)) (is : List (Fin n)) :
    ∀ (s : State K n) (t : Nat), (passLoop p perms is (s, t, 0)).2.2 = 0 →
      (passLoop p perms is (s, t, 0)).1 = s ∧
      ∀ i ∈ is, ∃ t', updateParameters p s i (perms t') = none := by
  induction is with
  | nil => intro s t _; simp [passLoop]
  | cons i is ih =>
    intro s t h
    unfold passLoop at h ⊢
    split at h
    · rename_i s' h1
      have := passLoop_ge p perms is s' (t + 1) (0 + 1)
      omega
    · rename_i h1
      have := ih s (t + 1) h
      refine ⟨this.1, ?_⟩
      intro i' hi'
      rcases List.mem_cons.1 hi' with rfl | hi'
      · exact ⟨t, h1⟩
      · exact this.2 i' hi'

omit [IsStrictOrderedRing K] in
/-- early return: nothing could be updated in the final state -/
theorem loop_early (p : Problem K n) (perms : Nat → List (Fin n)) (k : Nat) :
    ∀ r : Run K n, (loop p perms k r).2 = true →
      ∀ i, ∃ t, updateParameters p (loop p perms k r).1.st i (perms t) = none := by
  induction k with
  | zero => intro r h; simp [loop] at h
  | succ k ih =>
    intro r
    obtain ⟨idx, c, h1, h2, h3⟩ := pass_cases p perms r
    unfold loop
    split
    · rename_i r' e
      intro _ i
      rw [e] at h1 h3
      obtain ⟨_, rfl, rfl⟩ := h3 rfl
      have := passLoop_zero p perms (List.finRange n) r.st r.t (by rw [h1])
      rw [h1] at this
      simp only at this ⊢
      rw [this.1]
      exact this.2 i (List.mem_finRange i)
    · rename_i r' e
      exact ih r'

/-! ### errors and the dual objective -/

omit [IsStrictOrderedRing K] in
/-- with coherent masks `calculate_error` is the true error -/
theorem calculateError_eq {p : Problem K n} {s : State K n} (hs : Inv p s) (i : Fin n) :
    calculateError p s i = trueError p s.alphas s.b i := by
  have hz : ∀ k, s.nonZero k = false → s.alphas k = 0 := by
    intro k hk
    rw [hs.nz k] at hk
    exact le_antisymm (not_lt.1 (by simpa using hk)) (hs.feas.1 k).1
  unfold calculateError trueError decision
  have hsum : (∑ k, if s.nonZero k = true then s.alphas k * p.y k * p.gram k i else 0) =
      ∑ k, s.alphas k * p.y k * p.gram k i := by
    refine sum_congr rfl fun k _ => ?_
    by_cases hk : s.nonZero k = true
    · simp [hk]
    · simp [hk, hz k (by simpa using hk)]
  dsimp only
  split
  · rw [hsum]
  · rename_i hne
    rw [← hsum]
    have : ∀ k, ¬ s.nonZero k = true := fun k hk => hne ⟨k, hk⟩
    simp [this]

omit [LinearOrder K] [IsStrictOrderedRing K] in
theorem quad_update2 (f : Fin n → K) (i j : Fin n) (hij : i ≠ j) (a b : K) (Q : Fin n → Fin n → K) :
    ∑ k, ∑ l, Function.update (Function.update f i a) j b k *
        Function.update (Function.update f i a) j b l * Q k l =
      ∑ k, ∑ l, f k * f l * Q k l
      + (a - f i) * (∑ k, f k * Q k i + ∑ l, f l * Q i l)
      + (b - f j) * (∑ k, f k * Q k j + ∑ l, f l * Q j l)
      + (a - f i) * (a - f i) * Q i i + (b - f j) * (b - f j) * Q j j
      + (a - f i) * (b - f j) * (Q i j + Q j i) := by
  have inner : ∀ k, ∑ l, Function.update (Function.update f i a) j b k *
        Function.update (Function.update f i a) j b l * Q k l =
      Function.update (Function.update f i a) j b k *
        (∑ l, f l * Q k l + (a - f i) * Q k i + (b - f j) * Q k j) := by
    intro k
    rw [← sum_update2 f i j hij a b (Q k), mul_sum]
    exact sum_congr rfl fun l _ => by ring
  simp only [inner]
  rw [sum_update2 f i j hij a b]
  simp only [mul_add, sum_add_distrib]
  have e1 : ∑ k, f k * ∑ l, f l * Q k l = ∑ k, ∑ l, f k * f l * Q k l := by
    refine sum_congr rfl fun k _ => ?_
    rw [mul_sum]; exact sum_congr rfl fun l _ => by ring
  have e2 : ∀ (c : K) (m : Fin n), ∑ k, f k * (c * Q k m) = c * ∑ k, f k * Q k m := by
    intro c m; rw [mul_sum]; exact sum_congr rfl fun l _ => by ring
  rw [e1, e2, e2]
  ring

/-- change of the dual objective along the pair direction -/
theorem dual_change (p : Problem K n) (hp : p.Valid)
    (hsym : ∀ k l, p.gram k l = p.gram l k) (f : Fin n → K) (bias : K) (i j : Fin n) (hij : i ≠ j) (aj : K) :
    dualObjective p (Function.update (Function.update f i (f i + p.y i * p.y j * (f j - aj))) j aj)
      - dualObjective p f =
    (p.y j * (aj - f j)) * (trueError p f bias i - trueError p f bias j)
      - (1 / 2) * ((p.y j * (aj - f j)) * (p.y j * (aj - f j))) *
        (p.gram i i + p.gram j j - 2 * p.gram i j) := by
  unfold dualObjective trueError decision
  have hl := sum_update2 f i j hij (f i + p.y i * p.y j * (f j - aj)) aj (fun _ => (1 : K))
  simp only [mul_one] at hl
  have hq := quad_update2 f i j hij (f i + p.y i * p.y j * (f j - aj)) aj
    (fun k l => p.y k * p.y l * p.gram k l)
  have hre : ∀ g : Fin n → K, ∑ k, ∑ l, g k * g l * p.y k * p.y l * p.gram k l =
      ∑ k, ∑ l, g k * g l * (p.y k * p.y l * p.gram k l) := by
    intro g; exact sum_congr rfl fun k _ => sum_congr rfl fun l _ => by ring
  rw [hre, hre, hl, hq]
  have c1 : ∀ m, ∑ k, f k * (p.y k * p.y m * p.gram k m) = p.y m * ∑ k, f k * p.y k * p.gram k m := by
    intro m; rw [mul_sum]; exact sum_congr rfl fun l _ => by ring
  have c2 : ∀ m, ∑ l, f l * (p.y m * p.y l * p.gram m l) = p.y m * ∑ k, f k * p.y k * p.gram k m := by
    intro m; rw [mul_sum]; exact sum_congr rfl fun l _ => by rw [hsym m l]; ring
  simp only [c1, c2]
  rw [hsym j i]
  have yi := sq_label (hp.label i)
  have yj := sq_label (hp.label j)
  generalize ∑ k, f k * p.y k * p.gram k i = Fi
  generalize ∑ k, f k * p.y k * p.gram k j = Fj
  generalize p.y i = u at *
  generalize p.y j = v at *
  have hu : u ^ 2 = 1 := by rw [pow_two]; exact yi
  have hv : v ^ 2 = 1 := by rw [pow_two]; exact yj
  have h2 : (2 : K) ≠ 0 := two_ne_zero
  field_simp
  ring_nf
  simp only [show u ^ 4 = 1 by rw [show u ^ 4 = (u ^ 2) ^ 2 by ring, hu]; ring, hu, hv]
  ring

/-- the objective gain of a clipped Newton step on the segment -/
theorem gain_of_clip {a low high t eta e : K} (_h1 : low ≤ a) (_h2 : a ≤ high) (he : 0 < eta)
    (ht : t = e / eta) :
    (1 / 2) * eta * ((Ops.clipAlpha (a + t) low high - a) ^ 2) ≤
      (Ops.clipAlpha (a + t) low high - a) * e - (1 / 2) * (Ops.clipAlpha (a + t) low high - a) ^ 2 * eta := by
  have hee : e = t * eta := by rw [ht]; field_simp
  subst hee
  suffices h : (Ops.clipAlpha (a + t) low high - a) ^ 2 ≤ (Ops.clipAlpha (a + t) low high - a) * t by
    nlinarith
  unfold Ops.clipAlpha
  split
  · rename_i h
    nlinarith [mul_nonneg (sub_nonneg.2 _h2) (sub_nonneg.2 h.le)]
  · split
    · rename_i h
      nlinarith [mul_nonneg (sub_nonneg.2 _h1) (sub_nonneg.2 h.le)]
    · nlinarith

omit [IsStrictOrderedRing K] in
theorem selectSecond_some {s : State K n} {e : K} {j : Fin n} {ej : K}
    (h : selectSecond s e = some (j, ej)) : s.nonBound j = true ∧ ej = s.cache j := by
  unfold selectSecond at h
  dsimp only at h
  split at h
  · simp at h
  · split at h
    · simp at h
    · rename_i m hm j' hj'
      simp only [Option.some.injEq, Prod.mk.injEq] at h
      obtain ⟨rfl, rfl⟩ := h
      have := List.mem_of_getElem? hj'
      exact ⟨(List.mem_filter.1 this).2, rfl⟩

theorem cache_refreshed {p : Problem K n} (hp : p.Valid) {s s' : State K n} (hs : Inv p s)
    {i j : Fin n} {ei ej : K} (h : updateAlpha p s i j ei ej = some s')
    (hi0 : 0 < s.alphas i) (hj0 : 0 < s.alphas j) {k : Fin n}
    (hk : 0 < s.alphas k ∧ s.alphas k < p.C) :
    s'.cache k = trueError p s'.alphas s'.b k := by
  have hinv := inv_updateAlpha hp hs h
  unfold updateAlpha at h
  split at h; · simp at h
  split at h; · simp at h
  split at h; · simp at h
  dsimp only at h
  split at h; · simp at h
  injection h with h
  subst h
  have hnb : s.nonBound k = true := by rw [hs.nb k]; simpa using hk
  simp only [updateAlphaCache, updateErrorCache, hnb, if_true]
  rename_i hij _ _ _
  set aj := alphaJNew p s i j ei ej with haj
  set ai := s.alphas i + p.y i * p.y j * (s.alphas j - aj) with hai
  set f := Function.update (Function.update s.alphas i ai) j aj with hf
  have hz : ∀ m, s.nonZero m = false → f m = 0 := by
    intro m hm
    rw [hs.nz m] at hm
    have hm' : ¬ 0 < s.alphas m := by simpa using hm
    have hmj : m ≠ j := by rintro rfl; exact hm' hj0
    have hmi : m ≠ i := by rintro rfl; exact hm' hi0
    rw [hf, Function.update_of_ne hmj, Function.update_of_ne hmi]
    exact le_antisymm (not_lt.1 hm') (hs.feas.1 m).1
  unfold calculateError trueError decision
  dsimp only
  have hsum : (∑ m, if s.nonZero m = true then f m * p.y m * p.gram m k else 0) =
      ∑ m, f m * p.y m * p.gram m k := by
    refine sum_congr rfl fun m _ => ?_
    by_cases hm : s.nonZero m = true
    · simp [hm]
    · simp [hm, hz m (by simpa using hm)]
  rw [if_pos ⟨i, by rw [hs.nz i]; simpa using hi0⟩, hsum]

theorem nonzero_ofFn (mask : Fin n → Bool) :
    Ops.nonzero (List.ofFn mask) = ((List.finRange n).filter mask).map Fin.val := by
  unfold Ops.nonzero
  rw [List.length_ofFn, ← List.map_coe_finRange_eq_range, List.filter_map]
  congr 1
  apply List.filter_congr
  intro i _
  simp

theorem fancy_ofFn {β : Type*} (cache : Fin n → β) (l : List (Fin n)) :
    Ops.fancy (List.ofFn cache) (l.map Fin.val) = some (l.map cache) := by
  unfold Ops.fancy
  induction l with
  | nil => simp
  | cons a l ih =>
    rw [List.map_cons, List.mapM_cons, ih]
    simp

omit [IsStrictOrderedRing K] in
/-- the `Fin`-indexed selection used in the training model is the list function of `Model/Ops.lean` -/
theorem selectSecond_eq (s : State K n) (e : K) (j : Fin n) (ej : K) :
    selectSecond s e = some (j, ej) ↔
      Ops.selectSecondAlpha e (List.ofFn s.cache) (List.ofFn s.nonBound) = .ok (j.1, ej) := by
  unfold selectSecond Ops.selectSecondAlpha
  simp only [nonzero_ofFn, fancy_ofFn, List.map_map]
  change _ ↔ (match argmax? (List.map (fun k => |e - s.cache k|) _) with | none => _ | some k => _) = _
  cases argmax? (List.map (fun k => |e - s.cache k|) ((List.finRange n).filter s.nonBound)) with
  | none => simp
  | some m =>
    simp only [List.getElem?_map]
    cases ((List.finRange n).filter s.nonBound)[m]? with
    | none => simp
    | some i =>
      simp only [Option.map_some, List.getElem?_ofFn, i.2, dif_pos]
      simp [Fin.ext_iff]

end CML.SMO
