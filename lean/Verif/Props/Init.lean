import Verif.Spec.Init

/-! # Properties C137–C141 of the initialisers -/

set_option linter.unusedSectionVars false

namespace CML.Init
open CML.Net (Mat)

variable {σ ε : Type}

/-! ## Sequences of random numbers -/

theorem draws_state (next : σ → ℝ × σ) (k : Nat) (s : σ) : (draws next k s).2 = stateAfter next k s := by
  induction k generalizing s with
  | zero => rfl
  | succ k ih => simp [draws, stateAfter, ih]

theorem draws_length (next : σ → ℝ × σ) (k : Nat) (s : σ) : (draws next k s).1.length = k := by
  induction k generalizing s with
  | zero => rfl
  | succ k ih => simp [draws, ih]

theorem draws_getD (next : σ → ℝ × σ) (k i : Nat) (hi : i < k) (s : σ) : (draws next k s).1.getD i 0 = nth next s i := by
  induction k generalizing s i with
  | zero => omega
  | succ k ih =>
    cases i with
    | zero => simp [draws, nth]
    | succ i => simpa [draws, nth] using ih i (by omega) (next s).2

theorem stateAfter_add (next : σ → ℝ × σ) (a b : Nat) (s : σ) : stateAfter next (a + b) s = stateAfter next b (stateAfter next a s) := by
  induction a generalizing s with
  | zero => simp [stateAfter]
  | succ a ih => rw [Nat.succ_add]; simp [stateAfter, ih]

theorem nth_add (next : σ → ℝ × σ) (a b : Nat) (s : σ) : nth next (stateAfter next a s) b = nth next s (a + b) := by
  induction a generalizing s with
  | zero => simp [stateAfter]
  | succ a ih => rw [Nat.succ_add]; simp [stateAfter, nth, ih]

theorem pos_lt {i j rows cols : Nat} (hi : i < rows) (hj : j < cols) : i * cols + j < rows * cols := by
  calc i * cols + j < i * cols + cols := by omega
    _ = (i + 1) * cols := by ring
    _ ≤ rows * cols := Nat.mul_le_mul_right _ hi

theorem randMat_e (next : σ → ℝ × σ) (rows cols : Nat) (s : σ) (i j : Nat) (hi : i < rows) (hj : j < cols) :
    (randMat next rows cols s).1.e i j = nth next s (i * cols + j) := draws_getD _ _ _ (pos_lt hi hj) _

/-! ## Keys -/

theorem toString_inj {a b : Nat} (h : toString a = toString b) : a = b := by
  have : (Nat.repr a).toList = (Nat.repr b).toList := congrArg String.toList h
  rw [Nat.toList_repr, Nat.toList_repr] at this
  rw [← Nat.ofDigitChars_ten_toDigits (n := a), this, Nat.ofDigitChars_ten_toDigits]

theorem wKey_inj {a b : Nat} (h : "w" ++ toString a = "w" ++ toString b) : a = b := by
  refine toString_inj (String.toList_inj.1 ?_)
  have := congrArg String.toList h
  simpa using this

theorem bKey_inj {a b : Nat} (h : "b" ++ toString a = "b" ++ toString b) : a = b := by
  refine toString_inj (String.toList_inj.1 ?_)
  have := congrArg String.toList h
  simpa using this

theorem wb_ne (a b : Nat) : "w" ++ toString a ≠ "b" ++ toString b := by
  intro h
  have := congrArg String.toList h
  simp at this

/-! ## The loop over the layers, for any maker of random matrices -/

section Loop
variable {τ : Type} (mk : Nat → Nat → τ → Mat × τ) (k : Kind)

/-- Both loops. -/
noncomputable def loop : Nat → List Nat → Dict String Mat × τ → Dict String Mat × τ
  | layer, nIn :: nOut :: rest, (ps, s) =>
    loop (layer + 1) (nOut :: rest)
      ((ps.set ("w" ++ toString (layer + 1)) (Mat.scale (mk nOut nIn s).1 (layerScale k nIn nOut))).set ("b" ++ toString (layer + 1))
        ⟨1, nOut, fun _ _ => 0⟩, (mk nOut nIn s).2)
  | _, _, st => st

/-- The state before layer `l`. -/
def before : List Nat → Nat → τ → τ
  | nIn :: nOut :: rest, l + 1, s => before (nOut :: rest) l (mk nOut nIn s).2
  | _, _, s => s

theorem layerLoop_eq (r : Rng σ) (L : List Nat) : ∀ layer st, layerLoop r k layer L st = loop (randMat r.randn) k layer L st := by
  induction L with
  | nil => intro layer st; simp [layerLoop, loop]
  | cons a L ih =>
    intro layer st
    cases L with
    | nil => simp [layerLoop, loop]
    | cons b L => obtain ⟨ps, s⟩ := st; simp only [layerLoop, loop]; exact ih _ _

theorem ccLayerLoop_eq (g : Engine ε) (seed : Nat) (L : List Nat) : ∀ layer st,
    ccLayerLoop g k seed layer L st = loop (fun rows cols saved => ccMatrix g rows cols seed saved) k layer L st := by
  induction L with
  | nil => intro layer st; simp [ccLayerLoop, loop]
  | cons a L ih =>
    intro layer st
    cases L with
    | nil => simp [ccLayerLoop, loop]
    | cons b L => obtain ⟨ps, s⟩ := st; simp only [ccLayerLoop, loop]; exact ih _ _

theorem loop_keep (L : List Nat) : ∀ layer ps s m, m ≤ layer →
    (loop mk k layer L (ps, s)).1.get ("w" ++ toString m) = ps.get ("w" ++ toString m) ∧
    (loop mk k layer L (ps, s)).1.get ("b" ++ toString m) = ps.get ("b" ++ toString m) := by
  induction L with
  | nil => intro layer ps s m _; simp [loop]
  | cons a L ih =>
    intro layer ps s m hm
    cases L with
    | nil => simp [loop]
    | cons b L =>
      simp only [loop]
      obtain ⟨h1, h2⟩ := ih (layer + 1) _ (mk b a s).2 m (by omega)
      rw [h1, h2]
      have e1 : ¬ ("w" ++ toString (layer + 1) = "w" ++ toString m) := fun h => by have := wKey_inj h; omega
      have e2 : ¬ ("b" ++ toString (layer + 1) = "b" ++ toString m) := fun h => by have := bKey_inj h; omega
      simp only [Dict.get_set, if_neg e1, if_neg e2, if_neg (wb_ne (layer + 1) m), if_neg (Ne.symm (wb_ne m (layer + 1)))]
      exact ⟨trivial, trivial⟩

theorem loop_get (L : List Nat) : ∀ layer ps s l nIn nOut, L[l]? = some nIn → L[l + 1]? = some nOut →
    (loop mk k layer L (ps, s)).1.get ("w" ++ toString (layer + l + 1)) =
      some (Mat.scale (mk nOut nIn (before mk L l s)).1 (layerScale k nIn nOut)) ∧
    (loop mk k layer L (ps, s)).1.get ("b" ++ toString (layer + l + 1)) = some ⟨1, nOut, fun _ _ => 0⟩ := by
  induction L with
  | nil => intro layer ps s l nIn nOut h; simp at h
  | cons a L ih =>
    intro layer ps s l nIn nOut h1 h2
    cases L with
    | nil => simp at h2
    | cons b L =>
      simp only [loop]
      cases l with
      | zero =>
        simp only [List.getElem?_cons_zero, Option.some.injEq, Nat.zero_add, List.getElem?_cons_succ] at h1 h2
        subst h1; subst h2
        obtain ⟨e1, e2⟩ := loop_keep mk k (b :: L) (layer + 1)
          ((ps.set ("w" ++ toString (layer + 1)) (Mat.scale (mk b a s).1 (layerScale k a b))).set ("b" ++ toString (layer + 1))
            ⟨1, b, fun _ _ => 0⟩) (mk b a s).2 (layer + 1) le_rfl
        rw [Nat.add_zero, e1, e2]
        simp only [Dict.get_set, if_neg (Ne.symm (wb_ne (layer + 1) (layer + 1))), if_true, before]
        exact ⟨trivial, trivial⟩
      | succ l =>
        have := ih (layer + 1) ((ps.set ("w" ++ toString (layer + 1)) (Mat.scale (mk b a s).1 (layerScale k a b))).set
          ("b" ++ toString (layer + 1)) ⟨1, b, fun _ _ => 0⟩) (mk b a s).2 l nIn nOut (by simpa using h1) (by simpa using h2)
        rw [show layer + (l + 1) + 1 = layer + 1 + l + 1 by omega]
        exact this

theorem loop_keys (L : List Nat) : ∀ layer ps s key, key ∈ (loop mk k layer L (ps, s)).1.map Prod.fst ↔
    key ∈ ps.map Prod.fst ∨ ∃ l, l + 1 < L.length ∧ (key = "w" ++ toString (layer + l + 1) ∨ key = "b" ++ toString (layer + l + 1)) := by
  induction L with
  | nil => intro layer ps s key; simp [loop]
  | cons a L ih =>
    intro layer ps s key
    cases L with
    | nil => simp [loop]
    | cons b L =>
      simp only [loop]
      rw [ih]
      simp only [Dict.mem_keys_set]
      constructor
      · rintro ((rfl | rfl | h) | ⟨l, hl, h⟩)
        · exact Or.inr ⟨0, by simp, by simp⟩
        · exact Or.inr ⟨0, by simp, by simp⟩
        · exact Or.inl h
        · refine Or.inr ⟨l + 1, by simpa using hl, ?_⟩
          rw [show layer + (l + 1) + 1 = layer + 1 + l + 1 by omega]; exact h
      · rintro (h | ⟨l, hl, h⟩)
        · exact Or.inl (Or.inr (Or.inr h))
        · cases l with
          | zero =>
            rw [Nat.add_zero] at h
            rcases h with h | h
            · exact Or.inl (Or.inr (Or.inl h))
            · exact Or.inl (Or.inl h)
          | succ l =>
            refine Or.inr ⟨l, by simpa using hl, ?_⟩
            rw [show layer + 1 + l + 1 = layer + (l + 1) + 1 by omega]; exact h

theorem loop_state (L : List Nat) : ∀ layer ps s, (loop mk k layer L (ps, s)).2 = before mk L (L.length - 1) s := by
  induction L with
  | nil => intro layer ps s; simp [loop, before]
  | cons a L ih =>
    intro layer ps s
    cases L with
    | nil => simp [loop, before]
    | cons b L => simp only [loop, List.length_cons, Nat.add_sub_cancel, before]; rw [ih]; simp

end Loop

theorem before_randMat (next : σ → ℝ × σ) (L : List Nat) : ∀ l s, before (randMat next) L l s = stateAfter next (weightsBefore L l) s := by
  induction L with
  | nil => intro l s; cases l <;> simp [before, weightsBefore, stateAfter]
  | cons a L ih =>
    intro l s
    cases L with
    | nil => cases l <;> simp [before, weightsBefore, stateAfter]
    | cons b L =>
      cases l with
      | zero => simp [before, weightsBefore, stateAfter]
      | succ l => simp only [before, weightsBefore, ih, stateAfter_add, randMat, draws_state]

theorem layerScale_spec (k : Kind) (nIn nOut : Nat) (h : 0 < nIn) : IsScale k nIn nOut (layerScale k nIn nOut) := by
  have h1 : (0 : ℝ) < nIn := by exact_mod_cast h
  have h2 : (0 : ℝ) ≤ nOut := by positivity
  cases k with
  | randomNormal => exact ⟨zero_le_one, rfl⟩
  | heNormal =>
    refine ⟨Real.sqrt_nonneg _, ?_⟩
    simp only [layerScale]
    rw [Real.sq_sqrt (by positivity)]
    field_simp
  | xavierNormal =>
    refine ⟨Real.sqrt_nonneg _, ?_⟩
    simp only [layerScale]
    rw [Real.sq_sqrt (by positivity)]
    field_simp

/-! ## C137 parameters of a neural network -/

/-- **C137.** For every initialiser and every network structure: the result has exactly the entries `w1, b1, …` for the consecutive pairs of
sizes; the weights of layer `l` have the shape (outputs, inputs) and are the next numbers of the generator, row by row, times the documented
factor; the biases are a row of zeros. -/
theorem C137_network (r : Rng σ) (k : Kind) (L : List Nat) (s : σ) :
    (∀ key, key ∈ (callStructure r k L s).1.map Prod.fst ↔
      ∃ l, l + 1 < L.length ∧ (key = "w" ++ toString (l + 1) ∨ key = "b" ++ toString (l + 1))) ∧
    ∀ l nIn nOut, L[l]? = some nIn → L[l + 1]? = some nOut →
      ∃ w b, (callStructure r k L s).1.get ("w" ++ toString (l + 1)) = some w ∧
        (callStructure r k L s).1.get ("b" ++ toString (l + 1)) = some b ∧
        w.rows = nOut ∧ w.cols = nIn ∧ b.rows = 1 ∧ b.cols = nOut ∧ (∀ i j, b.e i j = 0) ∧
        (0 < nIn → ∃ c, IsScale k nIn nOut c ∧
          ∀ i < nOut, ∀ j < nIn, w.e i j = nth r.randn s (weightsBefore L l + (i * nIn + j)) * c) := by
  unfold callStructure
  rw [layerLoop_eq]
  refine ⟨fun key => by rw [loop_keys]; simp, fun l nIn nOut h1 h2 => ?_⟩
  obtain ⟨hw, hb⟩ := loop_get (randMat r.randn) k L 0 [] s l nIn nOut h1 h2
  rw [Nat.zero_add] at hw hb
  refine ⟨_, _, hw, hb, rfl, rfl, rfl, rfl, fun _ _ => rfl, fun h0 => ⟨_, layerScale_spec k nIn nOut h0, fun i hi j hj => ?_⟩⟩
  simp only [Mat.scale]
  rw [randMat_e _ _ _ _ _ _ hi hj, before_randMat, nth_add]

/-- **C137.** The parameters of a logistic regression with `d` attributes are a column of `d + 1` numbers of the generator times a common
factor, for `HeNormal` with `c² = 2 / d`. -/
theorem C137_regression (r : Rng σ) (k : Kind) (d : Nat) (hd : 0 < d) (s : σ) :
    ∃ c : ℝ, (k = .randomNormal → c = 1) ∧ (k = .heNormal → 0 ≤ c ∧ c ^ 2 * d = 2) ∧
      (callInt r k d s).1.rows = d + 1 ∧ (callInt r k d s).1.cols = 1 ∧
      ∀ i < d + 1, (callInt r k d s).1.e i 0 = nth r.randn s i * c := by
  have h1 : (0 : ℝ) < d := by exact_mod_cast hd
  refine ⟨attrScale k d, ?_, ?_, rfl, rfl, fun i hi => ?_⟩
  · rintro rfl; rfl
  · rintro rfl
    refine ⟨Real.sqrt_nonneg _, ?_⟩
    simp only [attrScale]
    rw [Real.sq_sqrt (by positivity)]
    field_simp
  · have := randMat_e r.randn (d + 1) 1 s i 0 hi one_pos
    simp only [callInt, Mat.scale, this]
    simp

/-- **C137.** The RBF network starts with zero weights and bias; the centres are the first `2 h` uniform numbers, row by row, and `beta` the
normal numbers after them. -/
theorem C137_rbf (r : Rng σ) (h : Nat) (s : σ) :
    ∃ w b c beta, (callRBF r h s).1.get "w" = some w ∧ (callRBF r h s).1.get "b" = some b ∧ (callRBF r h s).1.get "c" = some c ∧
      (callRBF r h s).1.get "beta" = some beta ∧ (callRBF r h s).1.length = 4 ∧
      (w.rows = 1 ∧ w.cols = h ∧ ∀ i j, w.e i j = 0) ∧ (b.rows = 1 ∧ b.cols = 1 ∧ ∀ i j, b.e i j = 0) ∧
      (c.rows = h ∧ c.cols = 2 ∧ ∀ i < h, ∀ j < 2, c.e i j = nth r.rand s (i * 2 + j)) ∧
      (beta.rows = 1 ∧ beta.cols = h ∧ ∃ s', s' = stateAfter r.rand (h * 2) s ∧ ∀ j < h, beta.e 0 j = nth r.randn s' j) := by
  refine ⟨_, _, _, _, rfl, rfl, rfl, rfl, rfl, ⟨rfl, rfl, fun _ _ => rfl⟩, ⟨rfl, rfl, fun _ _ => rfl⟩,
    ⟨rfl, rfl, fun i hi j hj => randMat_e _ _ _ _ _ _ hi hj⟩, rfl, rfl, _, rfl, fun j hj => ?_⟩
  rw [randMat_e _ _ _ _ _ _ one_pos hj]
  simp [randMat, draws_state]

/-- Non-vacuity: a 2-3-1 network; its second layer starts at number 6 of the generator. -/
example : weightsBefore [2, 3, 1] 1 = 6 ∧ weightsAll [2, 3, 1] = 9 := by decide

/-! ## C138 the scale of `XavierNormal` -/

/-- The claim is false for a logistic regression: the weights are multiplied by `√d` instead of a factor with `c² = 2 / (N_in + N_out)`; the
two agree for no number of outputs unless there is one attribute and one output. -/
theorem C138_violated (r : Rng σ) (d nOut : Nat) (hd : 0 < d) (s : σ) :
    ∃ c : ℝ, 0 ≤ c ∧ c ^ 2 = d ∧ (∀ i < d + 1, (callInt r .xavierNormal d s).1.e i 0 = nth r.randn s i * c) ∧
      (IsScale .xavierNormal d nOut c ↔ d * (d + nOut) = 2) := by
  refine ⟨Real.sqrt d, Real.sqrt_nonneg _, Real.sq_sqrt (by positivity), fun i hi => ?_, ⟨fun h => ?_, fun h => ⟨Real.sqrt_nonneg _, ?_⟩⟩⟩
  · have := randMat_e r.randn (d + 1) 1 s i 0 hi one_pos
    simp only [callInt, Mat.scale, this, attrScale]
    simp
  · obtain ⟨-, h⟩ := h
    simp only at h
    rw [Real.sq_sqrt (by positivity)] at h
    exact_mod_cast h
  · simp only
    rw [Real.sq_sqrt (by positivity)]
    exact_mod_cast h

/-- In particular it grows with the number of attributes, where it should shrink: for two or more attributes it is larger than 1, while the
documented factor is at most 1. -/
theorem C138_grows (d nOut : Nat) (hd : 2 ≤ d) (c : ℝ) (hc : IsScale .xavierNormal d nOut c) : c ≤ 1 ∧ 1 < attrScale .xavierNormal d := by
  have h2 : (2 : ℝ) ≤ d := by exact_mod_cast hd
  have h3 : (0 : ℝ) ≤ nOut := by positivity
  obtain ⟨h0, h⟩ := hc
  simp only at h
  constructor
  · by_contra hlt
    push Not at hlt
    have : 1 < c ^ 2 := by nlinarith
    nlinarith
  · simp only [attrScale]
    rw [Real.lt_sqrt (by norm_num)]
    linarith

/-- What does hold: for neural networks the factor is the documented one. -/
theorem C138_network_partial (r : Rng σ) (L : List Nat) (s : σ) (l nIn nOut : Nat) (h0 : 0 < nIn) (h1 : L[l]? = some nIn) (h2 : L[l + 1]? = some nOut) :
    ∃ w c, (callStructure r .xavierNormal L s).1.get ("w" ++ toString (l + 1)) = some w ∧ 0 ≤ c ∧ c ^ 2 * ((nIn : ℝ) + nOut) = 2 ∧
      ∀ i < nOut, ∀ j < nIn, ∃ z, w.e i j = z * c ∧ z = nth r.randn s (weightsBefore L l + (i * nIn + j)) := by
  obtain ⟨w, b, hw, -, -, -, -, -, -, h⟩ := (C137_network r .xavierNormal L s).2 l nIn nOut h1 h2
  obtain ⟨c, hc, he⟩ := h h0
  exact ⟨w, c, hw, hc.1, hc.2, fun i hi j hj => ⟨_, he i hi j hj, rfl⟩⟩

/-! ## C139 reproducibility, Python engine -/

/-- What does hold: parameters made directly after the initialiser was constructed with a seed do not depend on anything that happened before. -/
theorem C139_direct_partial (r : Rng σ) (seed : Nat) (k : Kind) (L : List Nat) (e e' s s' : σ) :
    (callStructure r k L (construct r (some seed) e s)).1 = (callStructure r k L (construct r (some seed) e' s')).1 := rfl

/-- The claim is false: the last initialiser constructed decides.  A model compiled with seed `a` and fitted after another model was compiled
with seed `b` starts with the parameters of seed `b`. -/
theorem C139_last_seed_wins (r : Rng σ) (a b : Nat) (k : Kind) (L : List Nat) (e e' e'' s s' : σ) :
    (callStructure r k L (construct r (some b) e' (construct r (some a) e s))).1 = (callStructure r k L (construct r (some b) e'' s')).1 := rfl

/-- …so with generators that tell the seeds apart, the seed of the model itself is without effect: its first weight is not the one of its
seed. -/
theorem C139_violated (r : Rng σ) (a b : Nat) (k : Kind) (nIn nOut : Nat) (rest : List Nat) (hIn : 0 < nIn) (hOut : 0 < nOut) (e e' s : σ)
    (hab : nth r.randn (r.seeded a) 0 ≠ nth r.randn (r.seeded b) 0) :
    (callStructure r k (nIn :: nOut :: rest) (construct r (some b) e' (construct r (some a) e s))).1 ≠
      (callStructure r k (nIn :: nOut :: rest) (construct r (some a) e s)).1 := by
  intro h
  obtain ⟨w, -, hw, -, -, -, -, -, -, hc⟩ := (C137_network r k (nIn :: nOut :: rest) (r.seeded b)).2 0 nIn nOut rfl rfl
  obtain ⟨w', -, hw', -, -, -, -, -, -, hc'⟩ := (C137_network r k (nIn :: nOut :: rest) (r.seeded a)).2 0 nIn nOut rfl rfl
  obtain ⟨c, hs, he⟩ := hc hIn
  obtain ⟨c', hs', he'⟩ := hc' hIn
  have hww : w = w' := by
    have e1 : (callStructure r k (nIn :: nOut :: rest) (r.seeded b)).1 = (callStructure r k (nIn :: nOut :: rest) (r.seeded a)).1 := h
    rw [e1, hw'] at hw; injection hw with hw; exact hw.symm
  have p1 := he 0 hOut 0 hIn
  have p2 := he' 0 hOut 0 hIn
  subst hww
  simp only [weightsBefore, Nat.zero_mul, Nat.zero_add] at p1 p2
  have hpos : ∀ {x : ℝ}, IsScale k nIn nOut x → x ≠ 0 := by
    rintro x ⟨-, hx⟩ rfl
    cases k <;> simp at hx
  have hcc : c = c' := by
    have n1 : (0 : ℝ) < nIn := by exact_mod_cast hIn
    have n2 : (0 : ℝ) ≤ nOut := by positivity
    obtain ⟨q1, q2⟩ := hs
    obtain ⟨q3, q4⟩ := hs'
    cases k with
    | randomNormal => simp only at q2 q4; rw [q2, q4]
    | heNormal =>
      simp only at q2 q4
      have : c ^ 2 = c' ^ 2 := mul_right_cancel₀ n1.ne' (q2.trans q4.symm)
      exact (pow_left_inj₀ q1 q3 two_ne_zero).1 this
    | xavierNormal =>
      simp only at q2 q4
      have : c ^ 2 = c' ^ 2 := mul_right_cancel₀ (by positivity) (q2.trans q4.symm)
      exact (pow_left_inj₀ q1 q3 two_ne_zero).1 this
  rw [p1, ← hcc] at p2
  exact hab (mul_right_cancel₀ (hpos hs) p2.symm)

/-- …and calling the same initialiser twice continues the sequence: the second network starts with the number that follows the last weight of
the first. -/
theorem C139_second_call (r : Rng σ) (k : Kind) (L : List Nat) (s : σ) (nIn nOut : Nat) (rest : List Nat) (hL : L = nIn :: nOut :: rest)
    (hIn : 0 < nIn) (hOut : 0 < nOut) :
    ∃ w c, (callStructure r k L (callStructure r k L s).2).1.get "w1" = some w ∧ IsScale k nIn nOut c ∧
      w.e 0 0 = nth r.randn s (weightsAll L) * c := by
  obtain ⟨w, -, hw, -, -, -, -, -, -, hc⟩ := (C137_network r k L (callStructure r k L s).2).2 0 nIn nOut (by rw [hL]; rfl) (by rw [hL]; rfl)
  obtain ⟨c, hs, he⟩ := hc hIn
  refine ⟨w, c, hw, hs, ?_⟩
  have := he 0 hOut 0 hIn
  rw [this]
  have hst : (callStructure r k L s).2 = stateAfter r.randn (weightsAll L) s := by
    unfold callStructure
    rw [layerLoop_eq, loop_state, before_randMat]
    rfl
  rw [hst, nth_add]
  simp [hL, weightsBefore]

/-! ## C140 reproducibility, C++ engine -/

theorem nth_stateAfter (next : σ → ℝ × σ) (k : Nat) (s : σ) : nth next s k = (next (stateAfter next k s)).1 := by
  have := nth_add next k 0 s
  rw [Nat.add_zero] at this
  rw [← this]; rfl

theorem nth_saved (g : Engine ε) (e : ε) (v : ℝ) (k : Nat) :
    nth (ccNormal g) (e, some v) 0 = v ∧ nth (ccNormal g) (e, some v) (k + 1) = nth (ccNormal g) (e, none) k := ⟨rfl, rfl⟩

theorem saved_even (g : Engine ε) (m : Nat) : ∀ e, (stateAfter (ccNormal g) (2 * m) (e, none)).2 = none := by
  induction m with
  | zero => intro e; rfl
  | succ m ih =>
    intro e
    rw [show 2 * (m + 1) = 2 * m + 1 + 1 by ring]
    simp only [stateAfter]
    exact ih _

theorem saved_odd (g : Engine ε) (m : Nat) (e : ε) :
    (stateAfter (ccNormal g) (2 * m + 1) (e, none)).2 = some (nth (ccNormal g) (e, none) (2 * m + 1)) := by
  rw [nth_stateAfter]
  have h := saved_even g m e
  rw [stateAfter_add]
  generalize stateAfter (ccNormal g) (2 * m) (e, none) = q at h ⊢
  obtain ⟨e', sv⟩ := q
  simp only at h
  subst h
  rfl

theorem ccMatrix_e (g : Engine ε) (rows cols seed : Nat) (saved : Option ℝ) (i j : Nat) (hi : i < rows) (hj : j < cols) :
    (ccMatrix g rows cols seed saved).1.e i j = nth (ccNormal g) (g.seeded seed, saved) (j * rows + i) := by
  refine draws_getD _ _ _ ?_ _
  rw [Nat.mul_comm rows cols]
  exact pos_lt hj hi

theorem ccMatrix_saved (g : Engine ε) (rows cols seed : Nat) (saved : Option ℝ) :
    (ccMatrix g rows cols seed saved).2 = (stateAfter (ccNormal g) (rows * cols) (g.seeded seed, saved)).2 := by
  simp [ccMatrix, draws_state]

/-- Every layer has an even number of weights. -/
def EvenLayers (L : List Nat) : Prop := ∀ l nIn nOut, L[l]? = some nIn → L[l + 1]? = some nOut → Even (nOut * nIn)

theorem before_even (g : Engine ε) (seed : Nat) (L : List Nat) (hL : EvenLayers L) : ∀ l,
    before (fun rows cols saved => ccMatrix g rows cols seed saved) L l none = none := by
  induction L with
  | nil => intro l; simp [before]
  | cons a L ih =>
    intro l
    cases L with
    | nil => simp [before]
    | cons b L =>
      cases l with
      | zero => simp [before]
      | succ l =>
        simp only [before]
        obtain ⟨m, hm⟩ := hL 0 a b rfl rfl
        rw [ccMatrix_saved, hm, ← Nat.two_mul, saved_even]
        exact ih (fun l x y h1 h2 => hL (l + 1) x y (by simpa using h1) (by simpa using h2)) l

/-- What does hold: after networks with an even number of weights in every layer (and from the start of the process) the parameters are
determined by the seed. -/
theorem C140_even_partial (g : Engine ε) (k k' : Kind) (seed seed' : Nat) (L L' : List Nat) (hL : EvenLayers L') :
    (ccCallStructure g k seed L (ccCallStructure g k' seed' L' none).2).1 = (ccCallStructure g k seed L none).1 := by
  have : (ccCallStructure g k' seed' L' none).2 = none := by
    unfold ccCallStructure
    rw [ccLayerLoop_eq, loop_state, before_even g seed' L' hL]
  rw [this]

/-- The claim is false: for a logistic regression with an even number of attributes, the same initialiser with the same seed gives, called
twice, two different vectors (the second one is shifted: it starts with the number that was left over), and only the third call repeats the
first. -/
theorem C140_violated (g : Engine ε) (k : Kind) (seed d : Nat) (hd : Even d) :
    ∃ c z, (ccCallInt g k seed d none).2 = some z ∧ z = nth (ccNormal g) (g.seeded seed, none) (d + 1) ∧ (0 < d → 0 < c) ∧
      (∀ i < d + 1, (ccCallInt g k seed d none).1.e i 0 = nth (ccNormal g) (g.seeded seed, none) i * c) ∧
      (ccCallInt g k seed d (some z)).1.e 0 0 = z * c ∧
      (∀ i < d, (ccCallInt g k seed d (some z)).1.e (i + 1) 0 = nth (ccNormal g) (g.seeded seed, none) i * c) ∧
      (ccCallInt g k seed d (some z)).2 = none := by
  obtain ⟨m, rfl⟩ := hd
  refine ⟨attrScale k (m + m), nth (ccNormal g) (g.seeded seed, none) (m + m + 1), ?_, rfl, ?_, ?_, ?_, ?_, ?_⟩
  · simp only [ccCallInt]
    rw [ccMatrix_saved, Nat.mul_one, ← Nat.two_mul, saved_odd]
  · intro h
    have : (0 : ℝ) < ((m + m : ℕ) : ℝ) := by exact_mod_cast h
    cases k with
    | randomNormal => exact one_pos
    | heNormal => exact Real.sqrt_pos.2 (by positivity)
    | xavierNormal => exact Real.sqrt_pos.2 this
  · intro i hi
    simp only [ccCallInt, Mat.scale]
    rw [ccMatrix_e g _ _ _ _ _ _ hi one_pos]
    simp
  · simp only [ccCallInt, Mat.scale]
    rw [ccMatrix_e g _ _ _ _ _ _ (by omega) one_pos]
    simp [nth, ccNormal]
  · intro i hi
    simp only [ccCallInt, Mat.scale]
    rw [ccMatrix_e g _ _ _ _ _ _ (by omega) one_pos, show 0 * (m + m + 1) + (i + 1) = i + 1 by ring]
    rw [(nth_saved g _ _ i).2]
  · simp only [ccCallInt]
    rw [ccMatrix_saved, Nat.mul_one]
    simp only [stateAfter, ccNormal]
    rw [← Nat.two_mul]
    exact saved_even g m _

/-- …hence two calls differ whenever the numbers do. -/
theorem C140_not_reproducible (g : Engine ε) (k : Kind) (seed d : Nat) (hd : Even d) (h0 : 0 < d)
    (hz : nth (ccNormal g) (g.seeded seed, none) 0 ≠ nth (ccNormal g) (g.seeded seed, none) (d + 1)) :
    (ccCallInt g k seed d (ccCallInt g k seed d none).2).1 ≠ (ccCallInt g k seed d none).1 := by
  obtain ⟨c, z, h1, h2, h3, h4, h5, -, -⟩ := C140_violated g k seed d hd
  rw [h1]
  intro h
  have := h4 0 (by omega)
  rw [← h, h5, h2] at this
  exact hz (mul_right_cancel₀ (h3 h0).ne' this).symm

/-- Non-vacuity: a counting engine. -/
example : nth (ccNormal (⟨fun s => s, fun e => (((2 * e : ℕ), (2 * e + 1 : ℕ)), e + 1)⟩ : Engine ℕ)) (0, none) 0 ≠
    nth (ccNormal ⟨fun s => s, fun e => (((2 * e : ℕ), (2 * e + 1 : ℕ)), e + 1)⟩) (0, none) 3 := by
  simp [nth, ccNormal]

/-! ## C141 different weights use different random numbers -/

theorem weightsBefore_step (L : List Nat) : ∀ l nIn nOut, L[l]? = some nIn → L[l + 1]? = some nOut →
    weightsBefore L (l + 1) = weightsBefore L l + nOut * nIn := by
  induction L with
  | nil => intro l nIn nOut h; simp at h
  | cons a L ih =>
    intro l nIn nOut h1 h2
    cases L with
    | nil => simp at h2
    | cons b L =>
      cases l with
      | zero =>
        simp only [List.getElem?_cons_zero, Option.some.injEq, Nat.zero_add, List.getElem?_cons_succ] at h1 h2
        subst h1; subst h2
        simp [weightsBefore]
      | succ l =>
        have := ih l nIn nOut (by simpa using h1) (by simpa using h2)
        rw [weightsBefore, this, weightsBefore]
        ring

theorem weightsBefore_mono (L : List Nat) (l : Nat) : ∀ m, l ≤ m → m < L.length → weightsBefore L l ≤ weightsBefore L m := by
  intro m hlm
  induction m, hlm using Nat.le_induction with
  | base => intro _; exact le_rfl
  | succ m hm ih =>
    intro hlt
    rw [weightsBefore_step L m _ _ (List.getElem?_eq_getElem (by omega)) (List.getElem?_eq_getElem hlt)]
    exact (ih (by omega)).trans (Nat.le_add_right _ _)

/-- **C141** (Python engine).  Different weights of a network are made of different numbers of the generator: there is an injective numbering
of the weights such that each weight is its number of the sequence times the factor of its layer. -/
theorem C141_python_partial (r : Rng σ) (k : Kind) (L : List Nat) (s : σ) :
    ∃ pos : Nat → Nat → Nat → Nat,
      (∀ l nIn nOut, 0 < nIn → L[l]? = some nIn → L[l + 1]? = some nOut → ∃ w c, (callStructure r k L s).1.get ("w" ++ toString (l + 1)) = some w ∧
        IsScale k nIn nOut c ∧ ∀ i < nOut, ∀ j < nIn, w.e i j = nth r.randn s (pos l i j) * c) ∧
      ∀ l nIn nOut l' nIn' nOut' i j i' j', L[l]? = some nIn → L[l + 1]? = some nOut → L[l']? = some nIn' → L[l' + 1]? = some nOut' →
        i < nOut → j < nIn → i' < nOut' → j' < nIn' → pos l i j = pos l' i' j' → l = l' ∧ i = i' ∧ j = j' := by
  refine ⟨fun l i j => weightsBefore L l + (i * (L[l]?).getD 0 + j), fun l nIn nOut h0 h1 h2 => ?_, ?_⟩
  · obtain ⟨w, b, hw, -, -, -, -, -, -, h⟩ := (C137_network r k L s).2 l nIn nOut h1 h2
    obtain ⟨c, hc, he⟩ := h h0
    exact ⟨w, c, hw, hc, fun i hi j hj => by rw [he i hi j hj]; simp only [h1, Option.getD_some]⟩
  · intro l nIn nOut l' nIn' nOut' i j i' j' h1 h2 h1' h2' hi hj hi' hj' h
    simp only [h1, h1', Option.getD_some] at h
    have b1 := pos_lt hi hj
    have b2 := pos_lt hi' hj'
    have s1 := weightsBefore_step L l nIn nOut h1 h2
    have s2 := weightsBefore_step L l' nIn' nOut' h1' h2'
    have len1 : l + 1 < L.length := (List.getElem?_eq_some_iff.1 h2).1
    have len2 : l' + 1 < L.length := (List.getElem?_eq_some_iff.1 h2').1
    have hll : l = l' := by
      rcases lt_trichotomy l l' with hlt | heq | hgt
      · have := weightsBefore_mono L (l + 1) l' hlt (by omega); omega
      · exact heq
      · have := weightsBefore_mono L (l' + 1) l hgt (by omega); omega
    subst hll
    rw [h1] at h1'; injection h1' with h1'; subst h1'
    have h' : i * nIn + j = i' * nIn + j' := by omega
    have hn : 0 < nIn := by omega
    have hi2 : i = i' := by
      have := congrArg (· / nIn) h'
      simpa [Nat.mul_comm, Nat.mul_add_div hn, Nat.div_eq_of_lt hj, Nat.div_eq_of_lt hj'] using this
    subst hi2
    exact ⟨rfl, rfl, by omega⟩

/-- It is false for the C++ engine: all layers of a network reuse the same numbers from the start of the sequence; in particular two layers of
the same shape start with identical weights (here for networks with an even number of weights per layer). -/
theorem C141_cc_violated (g : Engine ε) (k : Kind) (seed : Nat) (L : List Nat) (hL : EvenLayers L) (l l' nIn nOut : Nat)
    (h1 : L[l]? = some nIn) (h2 : L[l + 1]? = some nOut) (h1' : L[l']? = some nIn) (h2' : L[l' + 1]? = some nOut) :
    ∃ w w', (ccCallStructure g k seed L none).1.get ("w" ++ toString (l + 1)) = some w ∧
      (ccCallStructure g k seed L none).1.get ("w" ++ toString (l' + 1)) = some w' ∧ w = w' := by
  unfold ccCallStructure
  rw [ccLayerLoop_eq]
  obtain ⟨hw, -⟩ := loop_get (fun rows cols saved => ccMatrix g rows cols seed saved) k L 0 [] none l nIn nOut h1 h2
  obtain ⟨hw', -⟩ := loop_get (fun rows cols saved => ccMatrix g rows cols seed saved) k L 0 [] none l' nIn nOut h1' h2'
  rw [Nat.zero_add] at hw hw'
  refine ⟨_, _, hw, hw', ?_⟩
  rw [before_even g seed L hL, before_even g seed L hL]

/-- …and of layers of different shapes: entry `(i, j)` of every layer is number `j · N_out + i` of the sequence of the seed (the C++ matrices are
filled column by column), with the shapes, keys and factors of the Python engine. -/
theorem C141_cc_layers (g : Engine ε) (k : Kind) (seed : Nat) (L : List Nat) (hL : EvenLayers L) (l nIn nOut : Nat) (h0 : 0 < nIn)
    (h1 : L[l]? = some nIn) (h2 : L[l + 1]? = some nOut) :
    ∃ w b c, (ccCallStructure g k seed L none).1.get ("w" ++ toString (l + 1)) = some w ∧
      (ccCallStructure g k seed L none).1.get ("b" ++ toString (l + 1)) = some b ∧ w.rows = nOut ∧ w.cols = nIn ∧ b.rows = 1 ∧ b.cols = nOut ∧
      (∀ i j, b.e i j = 0) ∧ IsScale k nIn nOut c ∧
      ∀ i < nOut, ∀ j < nIn, w.e i j = nth (ccNormal g) (g.seeded seed, none) (j * nOut + i) * c := by
  unfold ccCallStructure
  rw [ccLayerLoop_eq]
  obtain ⟨hw, hb⟩ := loop_get (fun rows cols saved => ccMatrix g rows cols seed saved) k L 0 [] none l nIn nOut h1 h2
  rw [Nat.zero_add] at hw hb
  refine ⟨_, _, _, hw, hb, rfl, rfl, rfl, rfl, fun _ _ => rfl, layerScale_spec k nIn nOut h0, fun i hi j hj => ?_⟩
  simp only [Mat.scale]
  rw [before_even g seed L hL, ccMatrix_e g _ _ _ _ _ _ hi hj]

/-- Non-vacuity: 2-2-2. -/
example : EvenLayers [2, 2, 2] ∧ ([2, 2, 2] : List Nat)[0]? = some 2 ∧ ([2, 2, 2] : List Nat)[1 + 1]? = some 2 := by
  refine ⟨?_, rfl, rfl⟩
  intro l nIn nOut h1 h2
  have hlt : l + 1 < 3 := (List.getElem?_eq_some_iff.1 h2).1
  have e1 : nIn = 2 := by
    rcases l with _ | _ | l
    · simpa using h1.symm
    · simpa using h1.symm
    · omega
  subst e1
  exact ⟨nOut, by ring⟩

end CML.Init
