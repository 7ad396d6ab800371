import Verif.Spec.InitRBF
import Verif.Props.Init

/-! # C221, C222: initial parameters of radial basis function networks -/

set_option linter.unusedSectionVars false

namespace CML.Init
open CML.Net (Mat)

variable {σ ε : Type}

theorem ccUniform_e (g : Engine ε) (u : ε → ℝ × ε) (rows cols seed i j : Nat) (hi : i < rows)
    (hj : j < cols) : (ccUniform g u rows cols seed).e i j = nth u (g.seeded seed) (j * rows + i) := by
  refine draws_getD _ _ _ ?_ _
  rw [Nat.mul_comm rows cols]
  exact pos_lt hj hi

/-- **C221** (C++ engine): the dictionary has the four entries of the Python engine, of the same shapes;
the weights and the threshold are zero, the centres are the uniform numbers and `beta` the normal numbers
of the seed. -/
theorem C221_parameters (g : Engine ε) (u : ε → ℝ × ε) (h seed : Nat) (saved : Option ℝ) :
    ∃ w b c beta, (ccCallRBF g u h seed saved).1.get "w" = some w ∧
      (ccCallRBF g u h seed saved).1.get "b" = some b ∧
      (ccCallRBF g u h seed saved).1.get "c" = some c ∧
      (ccCallRBF g u h seed saved).1.get "beta" = some beta ∧
      (ccCallRBF g u h seed saved).1.length = 4 ∧
      (w.rows = 1 ∧ w.cols = h ∧ ∀ i j, w.e i j = 0) ∧
      (b.rows = 1 ∧ b.cols = 1 ∧ ∀ i j, b.e i j = 0) ∧
      (c.rows = h ∧ c.cols = 2 ∧
        ∀ i < h, ∀ j < 2, c.e i j = nth u (g.seeded seed) (j * h + i)) ∧
      (beta.rows = 1 ∧ beta.cols = h ∧
        ∀ j < h, beta.e 0 j = nth (ccNormal g) (g.seeded seed, saved) j) := by
  refine ⟨_, _, _, _, rfl, rfl, rfl, rfl, rfl, ⟨rfl, rfl, fun _ _ => rfl⟩, ⟨rfl, rfl, fun _ _ => rfl⟩,
    ⟨rfl, rfl, fun i hi j hj => ccUniform_e g u h 2 seed i j hi hj⟩, rfl, rfl, fun j hj => ?_⟩
  rw [ccMatrix_e _ _ _ _ _ _ _ one_pos hj, Nat.mul_one, Nat.add_zero]

/-- **C221** (partial: everything but `beta`): weights, threshold and centres depend on the seed and the
number of hidden units alone, whatever the process did before. -/
theorem C221_centres_partial (g : Engine ε) (u : ε → ℝ × ε) (h seed : Nat) (saved saved' : Option ℝ)
    (key : String) (hk : key ≠ "beta") :
    (ccCallRBF g u h seed saved).1.get key = (ccCallRBF g u h seed saved').1.get key := by
  by_cases h1 : key = "b"
  · subst h1; rfl
  · by_cases h2 : key = "c"
    · subst h2; rfl
    · by_cases h3 : key = "w"
      · subst h3; rfl
      · simp [ccCallRBF, Dict.get, hk, h1, h2, h3, Ne.symm hk, Ne.symm h1, Ne.symm h2, Ne.symm h3]

/-- **C221** (partial: an even number of hidden units): after such a call the next one with the same seed
repeats it. -/
theorem C221_even_partial (g : Engine ε) (u : ε → ℝ × ε) (h seed h' seed' : Nat) (he : Even h') :
    (ccCallRBF g u h seed (ccCallRBF g u h' seed' none).2).1 = (ccCallRBF g u h seed none).1 := by
  have : (ccCallRBF g u h' seed' none).2 = none := by
    obtain ⟨m, rfl⟩ := he
    show (ccMatrix g 1 (m + m) seed' none).2 = none
    rw [ccMatrix_saved, Nat.one_mul, ← Nat.two_mul, saved_even]
  rw [this]

/-- **C221** fails: with an odd number of hidden units the second network of the same seed gets the `beta`
of the first shifted by one place, behind the number that was left over; the third repeats the first. -/
theorem C221_violated (g : Engine ε) (u : ε → ℝ × ε) (h seed : Nat) (ho : Odd h) :
    ∃ z, z = nth (ccNormal g) (g.seeded seed, none) h ∧ (ccCallRBF g u h seed none).2 = some z ∧
      (ccCallRBF g u h seed (some z)).2 = none ∧
      ∃ beta beta', (ccCallRBF g u h seed none).1.get "beta" = some beta ∧
        (ccCallRBF g u h seed (some z)).1.get "beta" = some beta' ∧
        beta'.e 0 0 = z ∧ ∀ j, j + 1 < h → beta'.e 0 (j + 1) = beta.e 0 j := by
  obtain ⟨m, rfl⟩ := ho
  refine ⟨_, rfl, ?_, ?_, _, _, rfl, rfl, ?_, ?_⟩
  · show (ccMatrix g 1 (2 * m + 1) seed none).2 = _
    rw [ccMatrix_saved, Nat.one_mul, saved_odd]
  · show (ccMatrix g 1 (2 * m + 1) seed (some _)).2 = _
    rw [ccMatrix_saved, Nat.one_mul]
    exact saved_even g m _
  · rw [ccMatrix_e _ _ _ _ _ _ _ one_pos (by omega)]; rfl
  · intro j hj
    rw [ccMatrix_e _ _ _ _ _ _ _ one_pos hj, ccMatrix_e _ _ _ _ _ _ _ one_pos (by omega)]
    simp only [Nat.mul_one, Nat.add_zero]
    exact (nth_saved g _ _ j).2

/-- …so two networks of the same seed differ as soon as the two numbers do. -/
theorem C221_not_reproducible (g : Engine ε) (u : ε → ℝ × ε) (h seed : Nat) (ho : Odd h)
    (hz : nth (ccNormal g) (g.seeded seed, none) 0 ≠ nth (ccNormal g) (g.seeded seed, none) h) :
    (ccCallRBF g u h seed (ccCallRBF g u h seed none).2).1 ≠ (ccCallRBF g u h seed none).1 := by
  obtain ⟨z, hz', h1, -, beta, beta', h2, h3, h4, -⟩ := C221_violated g u h seed ho
  rw [h1]
  intro e
  rw [e, h2] at h3
  cases h3
  obtain ⟨_, _, _, b, _, _, _, hb, _, _, _, _, _, _, he⟩ := C221_parameters g u h seed none
  rw [h2] at hb
  cases hb
  have h0 := he 0 ho.pos
  rw [h4, hz'] at h0
  exact hz h0.symm

/-! ### C222 independence of centres and `beta` -/

/-- A generator that hands out a prepared sequence of numbers, whatever it is asked for. -/
def scripted : Rng (Nat → ℝ) := ⟨fun _ _ => 0, fun s => (s 0, fun k => s (k + 1)),
  fun s => (s 0, fun k => s (k + 1))⟩

theorem nth_scripted (s : Nat → ℝ) (k : Nat) :
    nth (fun s : Nat → ℝ => (s 0, fun k => s (k + 1))) s k = s k := by
  induction k generalizing s with
  | zero => rfl
  | succ k ih => rw [nth, ih]

/-- **C222** (Python engine): the initialiser puts no relation between centres and `beta`; every choice
of the former goes with every choice of the latter. -/
theorem C222_python_partial (h : Nat) (C : Nat → Nat → ℝ) (B : Nat → ℝ) :
    ∃ (σ : Type) (r : Rng σ) (s : σ) (c beta : Mat), (callRBF r h s).1.get "c" = some c ∧
      (callRBF r h s).1.get "beta" = some beta ∧
      (∀ i < h, ∀ j < 2, c.e i j = C i j) ∧ ∀ j < h, beta.e 0 j = B j := by
  refine ⟨_, scripted, fun k => if k < h * 2 then C (k / 2) (k % 2) else B (k - h * 2), ?_⟩
  generalize hs : (fun k => if k < h * 2 then C (k / 2) (k % 2) else B (k - h * 2)) = s
  obtain ⟨_, _, c, beta, _, _, hc, hb, _, _, _, ⟨_, _, ec⟩, _, _, s', hs', eb⟩ := C137_rbf scripted h s
  refine ⟨c, beta, hc, hb, fun i hi j hj => ?_, fun j hj => ?_⟩
  · rw [ec i hi j hj]
    show nth (fun s : Nat → ℝ => (s 0, fun k => s (k + 1))) s _ = _
    rw [nth_scripted, ← hs]
    dsimp only
    rw [if_pos (by omega)]
    congr 1 <;> omega
  · rw [eb j hj, hs', show scripted.randn = scripted.rand from rfl, nth_add]
    show nth (fun s : Nat → ℝ => (s 0, fun k => s (k + 1))) s _ = _
    rw [nth_scripted, ← hs]
    dsimp only
    rw [if_neg (by omega)]
    congr 1; omega

theorem normal_pairs (g : Engine ε) (u : ε → ℝ × ε) (hp : Polar g u) (e : ε) (k : Nat)
    (ha : ∀ l ≤ k, InDisc (2 * nth u e (2 * l) - 1) (2 * nth u e (2 * l + 1) - 1)) :
    let x := 2 * nth u e (2 * k) - 1
    let y := 2 * nth u e (2 * k + 1) - 1
    let m := Real.sqrt (-2 * Real.log (x ^ 2 + y ^ 2) / (x ^ 2 + y ^ 2))
    (nth (ccNormal g) (e, none) (2 * k) = x * m ∧ nth (ccNormal g) (e, none) (2 * k + 1) = y * m) ∨
    (nth (ccNormal g) (e, none) (2 * k) = y * m ∧ nth (ccNormal g) (e, none) (2 * k + 1) = x * m) := by
  induction k generalizing e with
  | zero =>
      have h0 := (hp e).1 (by simpa [nth] using ha 0 le_rfl)
      rcases h0 with h0 | h0
      · left
        simp [nth, ccNormal, h0]
      · right
        simp [nth, ccNormal, h0]
  | succ k ih =>
      have h0 := (hp e).1 (by simpa [nth] using ha 0 (Nat.zero_le _))
      have he : (g.pair e).2 = (u (u e).2).2 := by rcases h0 with h0 | h0 <;> rw [h0]
      have := ih (u (u e).2).2 (fun l hl => by simpa [nth, Nat.mul_add] using ha (l + 1) (by omega))
      have step : ∀ n, nth u e (n + 2) = nth u (u (u e).2).2 n := fun n => rfl
      have step' : ∀ n, nth (ccNormal g) (e, none) (n + 2) =
          nth (ccNormal g) ((u (u e).2).2, none) n := by
        intro n
        rw [← he]; rfl
      rw [show 2 * (k + 1) = 2 * k + 2 by ring, step, show 2 * k + 2 + 1 = (2 * k + 1) + 2 by ring,
        step, step', step']
      exact this

/-- **C222** fails on the C++ engine: both generators are seeded with the same number, so `beta` is made of
the very numbers that are the centres.  As long as the pairs of first coordinates `c₀ c₁`, `c₂ c₃`, …
fall into the unit disc (after `t ↦ 2 t - 1`), the pairs of `beta` are these points, stretched — up
to the order of the two. -/
theorem C222_violated (g : Engine ε) (u : ε → ℝ × ε) (hp : Polar g u) (h seed : Nat) :
    ∃ c beta, (ccCallRBF g u h seed none).1.get "c" = some c ∧
      (ccCallRBF g u h seed none).1.get "beta" = some beta ∧
      ∀ k, 2 * k + 1 < h →
        (∀ l ≤ k, InDisc (2 * c.e (2 * l) 0 - 1) (2 * c.e (2 * l + 1) 0 - 1)) →
        ∃ m : ℝ, m = Real.sqrt (-2 * Real.log ((2 * c.e (2 * k) 0 - 1) ^ 2 +
            (2 * c.e (2 * k + 1) 0 - 1) ^ 2) / ((2 * c.e (2 * k) 0 - 1) ^ 2 +
            (2 * c.e (2 * k + 1) 0 - 1) ^ 2)) ∧
          (beta.e 0 (2 * k) = (2 * c.e (2 * k) 0 - 1) * m ∧
              beta.e 0 (2 * k + 1) = (2 * c.e (2 * k + 1) 0 - 1) * m ∨
            beta.e 0 (2 * k) = (2 * c.e (2 * k + 1) 0 - 1) * m ∧
              beta.e 0 (2 * k + 1) = (2 * c.e (2 * k) 0 - 1) * m) := by
  obtain ⟨_, _, c, beta, _, _, hc, hb, _, _, _, ⟨_, _, ec⟩, _, _, eb⟩ := C221_parameters g u h seed none
  refine ⟨c, beta, hc, hb, fun k hk ha => ⟨_, rfl, ?_⟩⟩
  have ec' : ∀ i < h, c.e i 0 = nth u (g.seeded seed) i := by
    intro i hi
    rw [ec i hi 0 (by omega), Nat.zero_mul, Nat.zero_add]
  have ha' : ∀ l ≤ k, InDisc (2 * nth u (g.seeded seed) (2 * l) - 1)
      (2 * nth u (g.seeded seed) (2 * l + 1) - 1) := by
    intro l hl
    have := ha l hl
    rwa [ec' _ (by omega), ec' _ (by omega)] at this
  rw [ec' _ (by omega), ec' _ hk, eb _ (by omega), eb _ hk]
  exact normal_pairs g u hp _ k ha'

/-- Non-vacuity: a generator of which every number is 3/4. -/
example : Polar (⟨fun _ => (), fun _ =>
    (((1 / 2 : ℝ) * Real.sqrt (-2 * Real.log (1 / 2) / (1 / 2)),
      (1 / 2 : ℝ) * Real.sqrt (-2 * Real.log (1 / 2) / (1 / 2))), ())⟩ : Engine Unit)
    (fun _ => (3 / 4, ())) ∧ InDisc (2 * (3 / 4) - 1) (2 * (3 / 4) - 1) := by
  have h : InDisc (2 * (3 / 4) - 1) (2 * (3 / 4) - 1) := by norm_num [InDisc]
  refine ⟨fun e => ⟨fun _ => Or.inl ?_, fun hn => absurd h hn⟩, h⟩
  norm_num

end CML.Init
