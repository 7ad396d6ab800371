import Verif.Props.CriteriaRounded
import Verif.Props.Tree

set_option linter.unusedSectionVars false

/-! # Property C290: data that one attribute separates -/

namespace CML.DTree
open CML.Float

universe u w
variable {V : Type u} {m : Nat} [DecidableEq V]
variable {K : Type w} [Field K] [LinearOrder K] [IsStrictOrderedRing K]

theorem generate_leaf (o : Oracle V K m) (full : List (Row V m)) (fuel : Nat) (cols : List (Fin m)) (xs : List (Row V m)) {ys : List Int}
    (hne : ys ≠ []) (hp : Pure ys) : ∃ c, generate o full (fuel + 1) cols xs ys = .ok (.leaf c) := by
  cases ys with
  | nil => exact absurd rfl hne
  | cons c l =>
    refine ⟨c, ?_⟩
    rw [generate, if_pos (pyUnique_length_of_const hne hp)]

theorem selY_labels (a : Fin m) (p : V → Bool) (xs : List (Row V m)) (ys : List Int) :
    selY (fun r => p (r a)) xs ys = labelsWhere p (xs.map fun r => r a) ys := by
  unfold selY labelsWhere
  induction xs generalizing ys with
  | nil => simp
  | cons x xs ih =>
    cases ys with
    | nil => simp
    | cons c ys =>
      simp only [List.map_cons, List.zip_cons_cons, List.filter_cons]
      split_ifs <;> simp [ih ys]

theorem height1_leaves : ∀ br : Forest V K m, (∀ t ∈ br.trees, t.isLeaf = true) → br.height1 ≤ 1 ∧ (br.keys ≠ [] → br.height1 = 1)
  | .nil, _ => ⟨by simp [Forest.height1], fun h => absurd rfl h⟩
  | .cons v t r, h => by
    have ht : t.depth = 0 := depth_leaf (h t (by simp [Forest.trees]))
    obtain ⟨h1, -⟩ := height1_leaves r fun s hs => h s (by simp [Forest.trees, hs])
    have e : (Forest.cons v t r).height1 = max (t.depth + 1) r.height1 := by simp [Forest.height1]
    rw [e, ht]
    exact ⟨by omega, fun _ => by omega⟩

/-- If the criterion chooses a test after which all groups are pure, the tree has one question. -/
theorem one_question (o : Oracle V K m) (limit : Nat) (hl : 2 ≤ limit) (xs : List (Row V m)) (ys : List Int) (hlen : xs.length = ys.length)
    (hys : ¬ Pure ys) {a : Fin m} {s : Option K} (hsp : o.split (List.finRange m) xs ys = some (a, s)) (hs : ∀ t, s = some t → o.fl t = t)
    (hp : Perfect o.num (xs.map fun r => r a) ys s) :
    ∃ t, fit o limit xs ys = .ok t ∧ t.depth = 1 ∧ ∀ q ∈ xs.zip ys, predict o.num q.1 t = .ok q.2 := by
  obtain ⟨k, rfl⟩ := Nat.exists_eq_add_of_le hl
  have hcons : Consistent (xs.zip ys) := by
    intro p hp1 q hq1 hpq
    have mem : ∀ (f : V → Bool) (z : Row V m × Int), z ∈ xs.zip ys → f (z.1 a) = true → z.2 ∈ labelsWhere f (xs.map fun r => r a) ys := by
      intro f z hz hf
      rw [← selY_labels]
      exact List.mem_map.2 ⟨z, List.mem_filter.2 ⟨hz, hf⟩, rfl⟩
    cases s with
    | none => exact hp (p.1 a) _ (mem _ p hp1 (by simp)) _ (mem _ q hq1 (by simp [hpq]))
    | some t =>
      rcases le_or_gt t (o.num (p.1 a)) with h | h
      · exact hp.1 _ (mem (fun v => decide (t ≤ o.num v)) p hp1 (by simpa using h)) _ (mem (fun v => decide (t ≤ o.num v)) q hq1 (by rw [← hpq]; simpa using h))
      · exact hp.2 _ (mem (fun v => decide (o.num v < t)) p hp1 (by simpa using h)) _ (mem (fun v => decide (o.num v < t)) q hq1 (by rw [← hpq]; simpa using h))
  suffices h : ∃ t, fit o (2 + k) xs ys = .ok t ∧ t.depth = 1 by
    obtain ⟨t, h1, h2⟩ := h
    exact ⟨t, h1, h2, C23_training_exact o _ xs ys t hlen hcons h1⟩
  have huniq : (pyUnique ys).length ≠ 1 := fun h => hys (pyUnique_length_eq_one h)
  have hyne : ys ≠ [] := by rintro rfl; exact hys fun a ha => by cases ha
  have hxne : xs ≠ [] := by rintro rfl; exact hyne (List.length_eq_zero_iff.1 hlen.symm)
  have hcols : List.finRange m ≠ [] := fun h => by
    have := List.mem_finRange a
    rw [h] at this
    cases this
  have hf : fit o (2 + k) xs ys = generate o xs (k + 1 + 1) (List.finRange m) xs ys := by unfold fit; congr 1; omega
  rw [hf]
  unfold generate
  rw [if_neg huniq, if_neg (by rintro (h | h); exacts [hxne h, hcols h]), hsp]
  cases s with
  | some t =>
    have ht := hs t rfl
    dsimp only
    rw [ht]
    have e1 := selY_labels a (fun v => decide (t ≤ o.num v)) xs ys
    have e2 := selY_labels a (fun v => decide (o.num v < t)) xs ys
    have n1 : labelsWhere (fun v => decide (t ≤ o.num v)) (xs.map fun r => r a) ys ≠ [] := by
      intro h0
      apply hys
      have : labelsWhere (fun v => decide (o.num v < t)) (xs.map fun r => r a) ys = ys := by
        rw [← e2]
        unfold selY
        rw [List.filter_eq_self.2, map_snd_zip hlen]
        intro q hq
        rw [← e1] at h0
        unfold selY at h0
        rw [List.map_eq_nil_iff, List.filter_eq_nil_iff] at h0
        have := h0 q hq
        simpa using this
      rw [← this]
      exact hp.2
    have n2 : labelsWhere (fun v => decide (o.num v < t)) (xs.map fun r => r a) ys ≠ [] := by
      intro h0
      apply hys
      have : labelsWhere (fun v => decide (t ≤ o.num v)) (xs.map fun r => r a) ys = ys := by
        rw [← e1]
        unfold selY
        rw [List.filter_eq_self.2, map_snd_zip hlen]
        intro q hq
        rw [← e2] at h0
        unfold selY at h0
        rw [List.map_eq_nil_iff, List.filter_eq_nil_iff] at h0
        have := h0 q hq
        simpa using this
      rw [← this]
      exact hp.1
    rw [e1, e2]
    obtain ⟨c1, g1⟩ := generate_leaf o xs k (List.finRange m) (xs.filter fun r => decide (t ≤ o.num (r a))) n1 hp.1
    obtain ⟨c2, g2⟩ := generate_leaf o xs k (List.finRange m) (xs.filter fun r => decide (o.num (r a) < t)) n2 hp.2
    rw [g1, g2]
    exact ⟨_, rfl, by simp [Tree.depth]⟩
  | none =>
    dsimp only
    have hgen : ∀ v ∈ pyUnique (xs.map fun r => r a), ∃ c,
        (if selY (fun r => decide (r a = v)) xs ys = [] then generate o xs (k + 1) ((List.finRange m).filter fun c => c ≠ a) (xs.filter fun r => decide (r a = v)) ys
          else generate o xs (k + 1) ((List.finRange m).filter fun c => c ≠ a) (xs.filter fun r => decide (r a = v)) (selY (fun r => decide (r a = v)) xs ys)) = .ok (.leaf c) := by
      intro v hv
      have e := selY_labels a (fun w => decide (w = v)) xs ys
      have hne : selY (fun r => decide (r a = v)) xs ys ≠ [] := by
        rw [mem_pyUnique] at hv
        obtain ⟨r, hr, rfl⟩ := List.mem_map.1 hv
        obtain ⟨i, hi, rfl⟩ := List.getElem_of_mem hr
        have hi' : i < ys.length := hlen ▸ hi
        have hz : (xs[i], ys[i]) ∈ xs.zip ys := List.mem_iff_getElem.2 ⟨i, by simp [hi, hi'], by simp⟩
        exact List.ne_nil_of_mem (List.mem_map.2 ⟨(xs[i], ys[i]), List.mem_filter.2 ⟨hz, by simp⟩, rfl⟩)
      rw [if_neg hne]
      exact generate_leaf o xs k _ _ hne (by rw [e]; exact hp v)
    obtain ⟨br, hbr⟩ := genForest_ok (fun v => if selY (fun r => decide (r a = v)) xs ys = [] then generate o xs (k + 1) ((List.finRange m).filter fun c => c ≠ a) (xs.filter fun r => decide (r a = v)) ys
          else generate o xs (k + 1) ((List.finRange m).filter fun c => c ≠ a) (xs.filter fun r => decide (r a = v)) (selY (fun r => decide (r a = v)) xs ys)) (pyUnique (xs.map fun r => r a)) fun v hv => ⟨_, (hgen v hv).choose_spec⟩
    have hall := genForest_trees _ (fun t => t.isLeaf = true) _ _ (fun v hv t ht => by
      obtain ⟨c, hc⟩ := hgen v hv
      rw [hc] at ht
      injection ht with ht
      subst ht
      rfl) hbr
    have hkeys := genForest_keys _ _ _ hbr
    obtain ⟨r, hr⟩ := List.exists_mem_of_ne_nil xs hxne
    have hk : br.keys ≠ [] := by
      rw [hkeys]
      exact List.ne_nil_of_mem (mem_pyUnique.2 (List.mem_map.2 ⟨r, hr, rfl⟩))
    rw [hbr]
    exact ⟨_, rfl, by simpa [Tree.depth] using (height1_leaves br hall).2 hk⟩

/-- C290 (part) for `gini`: if the dividing points are stored unchanged and some attribute has a test that separates the classes, the tree has one question and
predicts all training samples correctly. -/
theorem C290_gini_partial [FloorRing K] {total : List K → K} (ht : IsTotal f64 total) (fc fs : K → K) (hst : ∀ x, fs (fc x) = fc x) (num : V → K)
    (isCont : List V → Bool) (maj : List Int → Option Int) (limit : Nat) (hl : 2 ≤ limit) (xs : List (Row V m)) (ys : List Int) (hlen : xs.length = ys.length)
    (hy : ys.length ≤ 2 ^ 20) (hys : ¬ Pure ys)
    (h : ∃ a s, Offers fc num (isCont (xs.map fun r => r a)) (xs.map fun r => r a) s ∧ Perfect num (xs.map fun r => r a) ys s) :
    ∃ t, fit (criterionOracleR f64 fc fs (giniR f64 total) num isCont maj) limit xs ys = .ok t ∧ t.depth = 1 ∧
      ∀ q ∈ xs.zip ys, predict num q.1 t = .ok q.2 := by
  obtain ⟨a₀, s₀, h₀⟩ := h
  obtain ⟨pre, a, post, s, -, e, ho, hp, -⟩ := C289_gini ht fc num isCont (List.finRange m) xs ys hy ⟨a₀, List.mem_finRange _, s₀, h₀⟩
  refine one_question (criterionOracleR f64 fc fs (giniR f64 total) num isCont maj) limit hl xs ys hlen hys (a := a) (s := s) ?_ ?_ hp
  · show choiceR _ = _
    rw [e]
    cases s <;> rfl
  · rintro t rfl
    obtain ⟨-, x, -, y, -, -, -, rfl⟩ := ho
    exact hst _

/-- C290 (part) for `entropy`. -/
theorem C290_entropy_partial [FloorRing K] {total : List K → K} (ht : IsTotal f64 total) {lg : K → K} (hlg : IsLog2 lg) (fc fs : K → K) (hst : ∀ x, fs (fc x) = fc x) (num : V → K)
    (isCont : List V → Bool) (maj : List Int → Option Int) (limit : Nat) (hl : 2 ≤ limit) (xs : List (Row V m)) (ys : List Int) (hlen : xs.length = ys.length)
    (hy : ys.length ≤ 2 ^ 20) (hys : ¬ Pure ys)
    (h : ∃ a s, Offers fc num (isCont (xs.map fun r => r a)) (xs.map fun r => r a) s ∧ Perfect num (xs.map fun r => r a) ys s) :
    ∃ t, fit (criterionOracleR f64 fc fs (entropyR f64 lg total) num isCont maj) limit xs ys = .ok t ∧ t.depth = 1 ∧
      ∀ q ∈ xs.zip ys, predict num q.1 t = .ok q.2 := by
  obtain ⟨a₀, s₀, h₀⟩ := h
  obtain ⟨pre, a, post, s, -, e, ho, hp, -⟩ := C289_entropy ht hlg fc num isCont (List.finRange m) xs ys hy ⟨a₀, List.mem_finRange _, s₀, h₀⟩
  refine one_question (criterionOracleR f64 fc fs (entropyR f64 lg total) num isCont maj) limit hl xs ys hlen hys (a := a) (s := s) ?_ ?_ hp
  · show choiceR _ = _
    rw [e]
    cases s <;> rfl
  · rintro t rfl
    obtain ⟨-, x, -, y, -, -, -, rfl⟩ := ho
    exact hst _

/-- C290 (part) for `gain`. -/
theorem C290_gain_partial [FloorRing K] {total : List K → K} (ht : IsTotal f64 total) {lg : K → K} (hlg : IsLog2 lg) (fc fs : K → K) (hst : ∀ x, fs (fc x) = fc x) (num : V → K)
    (isCont : List V → Bool) (maj : List Int → Option Int) (limit : Nat) (hl : 2 ≤ limit) (xs : List (Row V m)) (ys : List Int) (hlen : xs.length = ys.length)
    (hy : ys.length ≤ 2 ^ 20) (hys : ¬ Pure ys)
    (h : ∃ a s, Offers fc num (isCont (xs.map fun r => r a)) (xs.map fun r => r a) s ∧ Perfect num (xs.map fun r => r a) ys s) :
    ∃ t, fit (gainOracleR f64 fc fs (entropyR f64 lg total) num isCont maj) limit xs ys = .ok t ∧ t.depth = 1 ∧
      ∀ q ∈ xs.zip ys, predict num q.1 t = .ok q.2 := by
  obtain ⟨a₀, s₀, h₀⟩ := h
  obtain ⟨pre, a, post, s, -, e, ho, hp, -⟩ := C289_gain ht hlg fc num isCont (List.finRange m) xs ys hy ⟨a₀, List.mem_finRange _, s₀, h₀⟩
  refine one_question (gainOracleR f64 fc fs (entropyR f64 lg total) num isCont maj) limit hl xs ys hlen hys (a := a) (s := s) ?_ ?_ hp
  · show choiceR _ = _
    rw [e]
    cases s <;> rfl
  · rintro t rfl
    obtain ⟨-, x, -, y, -, -, -, rfl⟩ := ho
    exact hst _

/-- Sums from left to right. -/
abbrev leftSum (fl : K → K) : List K → K := fun l => match l with | [] => 0 | a :: l => l.foldl (fun s t => fl (s + t)) a

/-- Three samples with two attributes. -/
example : ∃ t, fit (m := 2) (criterionOracleR f64 f64 f64 (giniR f64 (leftSum f64)) id (fun _ => true) majFirst) 10 [![1, 1], ![2, 3], ![(3 : ℚ), 2]] [0, 1, 0] = .ok t ∧ t.depth = 1 ∧
    ∀ q ∈ [![1, 1], ![2, 3], ![(3 : ℚ), 2]].zip [0, 1, 0], predict id q.1 t = .ok q.2 :=
  C290_gini_partial (K := ℚ) (leftTotal f64) f64 f64 (f64_isRounding (K := ℚ)).idem id (fun _ => true) majFirst 10 (by norm_num) _ _ rfl (by decide) (by unfold Pure; decide)
    ⟨1, some (5 / 2), ⟨rfl, 2, by simp, 3, by simp, by norm_num, by decide +kernel, by decide +kernel⟩, by unfold Perfect Pure; decide +kernel⟩

/-- C290 fails in 32-bit precision: the classes are separated by the value 1 + 2^-31 of the only attribute, but the stored dividing point is 1; fitting exceeds the
recursion limit, whatever it is. -/
theorem C290_lost (limit : Nat) : fit (m := 1) (criterionOracleR f64 f64 f32 (giniR f64 (leftSum f64)) id (fun _ => true) majFirst) limit
      [![1], ![(1 + 1 / 2 ^ 30 : ℚ)]] [0, 1] = .error .recursionError ∧
    Offers f64 id true [1, (1 + 1 / 2 ^ 30 : ℚ)] (some (1 + 1 / 2 ^ 31)) ∧ Perfect id [1, (1 + 1 / 2 ^ 30 : ℚ)] [0, 1] (some (1 + 1 / 2 ^ 31)) := by
  refine ⟨?_, ⟨rfl, 1, by decide, 1 + 1 / 2 ^ 30, by simp, by norm_num, by decide +kernel, by decide +kernel⟩, by unfold Perfect Pure; decide +kernel⟩
  unfold fit
  induction limit with
  | zero => rfl
  | succ n ih =>
    have hsp : (criterionOracleR (m := 1) f64 f64 f32 (giniR f64 (leftSum f64)) id (fun _ => true) majFirst).split (List.finRange 1) [![1], ![(1 + 1 / 2 ^ 30 : ℚ)]] [0, 1] =
        some (0, some (1 + 1 / 2 ^ 31)) := by decide +kernel
    have hfl : (criterionOracleR (m := 1) f64 f64 f32 (giniR f64 (leftSum f64)) id (fun _ => true) majFirst).fl (1 + 1 / 2 ^ 31 : ℚ) = 1 := by decide +kernel
    unfold generate
    rw [if_neg (by decide), if_neg (by simp), hsp]
    dsimp only
    rw [hfl]
    have h0 : ([![1], ![(1 + 1 / 2 ^ 30 : ℚ)]] : List (Row ℚ 1)).filter (fun r => decide (1 ≤ id (r 0))) = [![1], ![(1 + 1 / 2 ^ 30 : ℚ)]] := by decide +kernel
    have h1 : selY (m := 1) (fun r => decide (1 ≤ id (r 0))) [![1], ![(1 + 1 / 2 ^ 30 : ℚ)]] [0, 1] = [0, 1] := by decide +kernel
    have h2 : (criterionOracleR (K := ℚ) (m := 1) f64 f64 f32 (giniR f64 (leftSum f64)) id (fun _ => true) majFirst).num = id := rfl
    rw [h2, h0, h1, ih]

end CML.DTree
