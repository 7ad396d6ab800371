import Verif.Props.SMO

/-! # Properties C118, C119 (SVM training: the bias, the schedule) and more about C11 -/

namespace CML.SMO
open Finset

variable {K : Type*} [Field K] [LinearOrder K] [IsStrictOrderedRing K] {n : Nat}

/-! ## C118 the bias after an update -/

omit [IsStrictOrderedRing K] in
theorem updateAlpha_b {p : Problem K n} {s s' : State K n} {i j : Fin n} {ei ej : K}
    (h : updateAlpha p s i j ei ej = some s') :
    s'.b = ((-ei - p.y i * p.gram i i * (s'.alphas i - s.alphas i) - p.y j * p.gram j i * (s'.alphas j - s.alphas j) + s.b) +
      (-ej - p.y i * p.gram i j * (s'.alphas i - s.alphas i) - p.y j * p.gram j j * (s'.alphas j - s.alphas j) + s.b)) / 2 := by
  unfold updateAlpha at h
  split at h; · simp at h
  split at h; · simp at h
  split at h; · simp at h
  rename_i h1 h2 h3
  dsimp only at h
  split at h; · simp at h
  injection h with h
  subst h
  simp [updateAlphaCache, updateErrorCache, h1]

omit [LinearOrder K] [IsStrictOrderedRing K] in
theorem trueError_update2 (p : Problem K n) (f : Fin n → K) (b b' : K) (i j : Fin n) (hij : i ≠ j) (x z : K) (k : Fin n) :
    trueError p (Function.update (Function.update f i x) j z) b' k =
      trueError p f b k + (x - f i) * p.y i * p.gram i k + (z - f j) * p.y j * p.gram j k + (b' - b) := by
  have h := sum_update2 f i j hij x z fun l => p.y l * p.gram l k
  have e : ∀ g : Fin n → K, ∑ l, g l * p.y l * p.gram l k = ∑ l, g l * (p.y l * p.gram l k) :=
    fun g => Finset.sum_congr rfl fun l _ => mul_assoc _ _ _
  unfold trueError decision
  rw [e, e, h]
  ring

/-- C118 (the errors cancel): after a successful update of a pair from its true errors, the new errors of the two samples are
opposite to each other. No assumption on the kernel values. -/
theorem C118_errors_cancel (p : Problem K n) (s s' : State K n) (i j : Fin n)
    (h : updateAlpha p s i j (trueError p s.alphas s.b i) (trueError p s.alphas s.b j) = some s') :
    trueError p s'.alphas s'.b i = -trueError p s'.alphas s'.b j := by
  obtain ⟨hij, _, _, _, ha, _, _⟩ := updateAlpha_some h
  have hb := updateAlpha_b h
  have hi := trueError_update2 p s.alphas s.b s'.b i j hij
    (s.alphas i + p.y i * p.y j * (s.alphas j - alphaJNew p s i j (trueError p s.alphas s.b i) (trueError p s.alphas s.b j)))
    (alphaJNew p s i j (trueError p s.alphas s.b i) (trueError p s.alphas s.b j))
  rw [← ha] at hi
  have aj : alphaJNew p s i j (trueError p s.alphas s.b i) (trueError p s.alphas s.b j) = s'.alphas j := by rw [ha]; simp
  rw [aj] at ha hi
  have ai : s.alphas i + p.y i * p.y j * (s.alphas j - s'.alphas j) = s'.alphas i := by
    rw [ha]; simp [Function.update_of_ne hij]
  rw [ai] at hi
  rw [hi i, hi j, hb]
  field_simp
  ring

/-- A multiplier pair that ends strictly inside the box was not clipped. -/
theorem unclipped {p : Problem K n} (hp : p.Valid) {s s' : State K n} {i j : Fin n} {ei ej : K}
    (h : updateAlpha p s i j ei ej = some s') (hi : 0 < s'.alphas i ∧ s'.alphas i < p.C)
    (hj : 0 < s'.alphas j ∧ s'.alphas j < p.C) :
    s'.alphas j = s.alphas j + p.y j * (ei - ej) / eta p i j := by
  obtain ⟨hij, _, _, _, ha, _, _⟩ := updateAlpha_some h
  have ai : s'.alphas i = s.alphas i + p.y i * p.y j * (s.alphas j - s'.alphas j) := by
    rw [ha]; simp [Function.update_of_ne hij]
  have aj : s'.alphas j = Ops.clipAlpha (s.alphas j + p.y j * (ei - ej) / eta p i j) (bounds p s i j).1 (bounds p s i j).2 := by
    rw [ha]; simp [alphaJNew]
  have hlo : s'.alphas j ≠ (bounds p s i j).1 := by
    intro e
    unfold bounds at e
    rcases hp.label i with li | li <;> rcases hp.label j with lj | lj <;> rw [li, lj] at ai e <;>
      norm_num at e <;> rcases max_choice 0 (s.alphas j - s.alphas i) with m | m <;>
      rcases max_choice 0 (s.alphas i + s.alphas j - p.C) with m' | m' <;> rw [e] at hj ai <;>
      simp only [m, m'] at hj ai <;> linarith [hj.1, hj.2, hi.1, hi.2]
  have hhi : s'.alphas j ≠ (bounds p s i j).2 := by
    intro e
    unfold bounds at e
    rcases hp.label i with li | li <;> rcases hp.label j with lj | lj <;> rw [li, lj] at ai e <;>
      norm_num at e <;> rcases min_choice p.C (p.C + s.alphas j - s.alphas i) with m | m <;>
      rcases min_choice p.C (s.alphas i + s.alphas j) with m' | m' <;> rw [e] at hj ai <;>
      simp only [m, m'] at hj ai <;> linarith [hj.1, hj.2, hi.1, hi.2]
  unfold Ops.clipAlpha at aj
  split at aj
  · exact absurd aj hhi
  · split at aj
    · exact absurd aj hlo
    · exact aj

/-- C118, partial: after a successful update of a pair from its true errors, if both multipliers end strictly inside the box, both
samples lie exactly on their margins. Missing: only one of them ends inside the box, see `C118_off_margin`. -/
theorem C118_on_margin_partial (p : Problem K n) (hp : p.Valid) (hsym : ∀ k l, p.gram k l = p.gram l k) (s s' : State K n)
    (i j : Fin n) (h : updateAlpha p s i j (trueError p s.alphas s.b i) (trueError p s.alphas s.b j) = some s')
    (hi : 0 < s'.alphas i ∧ s'.alphas i < p.C) (hj : 0 < s'.alphas j ∧ s'.alphas j < p.C) :
    p.y i * decision p s'.alphas s'.b i = 1 ∧ p.y j * decision p s'.alphas s'.b j = 1 := by
  have hc := C118_errors_cancel p s s' i j h
  have hu := unclipped hp h hi hj
  obtain ⟨hij, _, heta, _, ha, _, _⟩ := updateAlpha_some h
  have hE := trueError_update2 p s.alphas s.b s'.b i j hij
    (s.alphas i + p.y i * p.y j * (s.alphas j - alphaJNew p s i j (trueError p s.alphas s.b i) (trueError p s.alphas s.b j)))
    (alphaJNew p s i j (trueError p s.alphas s.b i) (trueError p s.alphas s.b j))
  rw [← ha] at hE
  have aj : alphaJNew p s i j (trueError p s.alphas s.b i) (trueError p s.alphas s.b j) = s'.alphas j := by rw [ha]; simp
  rw [aj, hu] at hE
  have yi := sq_label (hp.label i)
  have yj := sq_label (hp.label j)
  have heta' : eta p i j ≠ 0 := ne_of_gt heta
  have hd : trueError p s'.alphas s'.b i = trueError p s'.alphas s'.b j := by
    have e1 := hE i
    have e2 := hE j
    generalize trueError p s.alphas s.b i = Ei at *
    generalize trueError p s.alphas s.b j = Ej at *
    generalize trueError p s'.alphas s'.b i = Fi at *
    generalize trueError p s'.alphas s'.b j = Fj at *
    rw [e1, e2]
    have hx : (Ei - Ej) / eta p i j * (p.gram i i + p.gram j j - 2 * p.gram i j) = Ei - Ej := by
      rw [show p.gram i i + p.gram j j - 2 * p.gram i j = eta p i j from rfl]; field_simp
    have hs := hsym j i
    rw [hs]
    have hx' : p.y j * (Ei - Ej) / eta p i j = p.y j * ((Ei - Ej) / eta p i j) := by ring
    rw [hx']
    generalize (Ei - Ej) / eta p i j = q at *
    linear_combination (-1) * hx - q * (p.gram i i - p.gram i j) * (p.y j * p.y j * yi + yj) - q * (p.gram j j - p.gram i j) * yj
  have h0 : trueError p s'.alphas s'.b j = 0 := by linarith
  have h1 : trueError p s'.alphas s'.b i = 0 := by rw [hd]; exact h0
  unfold trueError at h0 h1
  rw [sub_eq_zero.1 h0, sub_eq_zero.1 h1]
  exact ⟨yi, yj⟩

/-- Witness data for C118: rows (-1,-1), (0,-1), (1,2), labels -1, -1, 1, linear kernel, C = 1/4. -/
def exR : Problem ℚ 3 :=
  { y := ![-1, -1, 1], gram := ![![2, 1, -3], ![1, 1, -2], ![-3, -2, 5]], C := 1 / 4, tol := 1 / 1000 }

/-- C118 is false in general (the bias is always the mean of the two candidates): the second update on these data, from right errors,
leaves a sample strictly inside the box, and off its margin. -/
theorem C118_off_margin : ∃ (p : Problem ℚ 3) (s s' : State ℚ 3) (i j : Fin 3), p.Valid ∧ (∀ k l, p.gram k l = p.gram l k) ∧
    Reachable p s ∧ updateParameters p s i [0, 1, 2] = some s' ∧
    updateAlpha p s i j (trueError p s.alphas s.b i) (trueError p s.alphas s.b j) = some s' ∧
    0 < s'.alphas i ∧ s'.alphas i < p.C ∧ p.y i * decision p s'.alphas s'.b i ≠ 1 := by
  have h : ((updateParameters exR (State.init ℚ 3) 0 [0, 1, 2]).bind fun s => (updateParameters exR s 1 [0, 1, 2]).bind fun s' =>
      (updateAlpha exR s 1 0 (trueError exR s.alphas s.b 1) (trueError exR s.alphas s.b 0)).map fun s'' =>
      decide (s''.alphas = s'.alphas ∧ s''.nonBound = s'.nonBound ∧ s''.cache = s'.cache ∧ s''.nonZero = s'.nonZero ∧ s''.b = s'.b ∧
        0 < s'.alphas 1 ∧ s'.alphas 1 < exR.C ∧ exR.y 1 * decision exR s'.alphas s'.b 1 ≠ 1)) = some true := by
    decide +kernel
  obtain ⟨s, hs, h1⟩ := Option.bind_eq_some_iff.1 h
  obtain ⟨s', hs', h2⟩ := Option.bind_eq_some_iff.1 h1
  obtain ⟨s'', hs'', h3⟩ := Option.map_eq_some_iff.1 h2
  obtain ⟨e1, e2, e3, e4, e5, e6⟩ := of_decide_eq_true h3
  have : s'' = s' := by
    cases s''; cases s'; simp only at e1 e2 e3 e4 e5; subst e1 e2 e3 e4 e5; rfl
  rw [this] at hs''
  exact ⟨exR, s, s', 1, 0, ⟨by decide, by decide +kernel⟩, by decide +kernel, Reachable.step 0 _ Reachable.init hs, hs', hs'', e6⟩

/-- The hypotheses of `C118_on_margin_partial` are met: the first update on `exQ` ends with both multipliers inside the box. -/
example : ((updateAlpha exQ (State.init ℚ 2) 0 1 (trueError exQ (fun _ => 0) 0 0) (trueError exQ (fun _ => 0) 0 1)).map fun s' =>
    decide (∀ k, 0 < s'.alphas k ∧ s'.alphas k < exQ.C)) = some true := by decide +kernel

/-! ## C119 the schedule -/

omit [IsStrictOrderedRing K] in
theorem sweep_passLoop (p : Problem K n) (perms : Nat → List (Fin n)) : ∀ (is : List (Fin n)) (s : State K n) (t c : Nat),
    ∃ d, (passLoop p perms is (s, t, c)).2.2 = c + d ∧
      Sweep p perms is (s, t) ((passLoop p perms is (s, t, c)).1, (passLoop p perms is (s, t, c)).2.1) d
  | [], s, t, c => ⟨0, by simp [passLoop], by simpa [passLoop] using Sweep.done s t⟩
  | i :: is, s, t, c => by
    unfold passLoop
    cases h : updateParameters p s i (perms t) with
    | none =>
      obtain ⟨d, h1, h2⟩ := sweep_passLoop p perms is s (t + 1) c
      exact ⟨d, h1, Sweep.keep h h2⟩
    | some s' =>
      obtain ⟨d, h1, h2⟩ := sweep_passLoop p perms is s' (t + 1) (c + 1)
      exact ⟨d + 1, by simp only [h1]; omega, Sweep.change h h2⟩

/-- What the loop state has to do with the schedule. -/
theorem schedule_pass (p : Problem K n) (hp : p.Valid) (perms : Nat → List (Fin n)) (r : Run K n) (log : List (Bool × Nat))
    (h : Schedule p perms r.st r.t log) (hl : log.head? ≠ some (true, 0)) (he : r.entire = nextEntire log)
    (hr : Reachable p r.st) :
    ∃ c, Schedule p perms (pass p perms r).1.st (pass p perms r).1.t ((nextEntire log, c) :: log) ∧
      ((pass p perms r).2 = true ↔ (nextEntire log, c) = (true, 0)) ∧
      ((pass p perms r).2 = false → (pass p perms r).1.entire = nextEntire ((nextEntire log, c) :: log)) ∧
      (pass p perms r).1.epoch = r.epoch + 1 := by
  have hi := inv_reachable hp hr
  have hidx : (if r.entire then List.finRange n else (List.finRange n).filter r.st.nonBound) =
      (List.finRange n).filter fun i => nextEntire log || decide (0 < r.st.alphas i ∧ r.st.alphas i < p.C) := by
    rw [he]
    cases nextEntire log with
    | true => simp
    | false =>
      simp only [Bool.false_eq_true, if_false, Bool.false_or]
      apply List.filter_congr
      intro i _
      exact hi.nb i
  obtain ⟨d, h1, h2⟩ := sweep_passLoop p perms
    ((List.finRange n).filter fun i => nextEntire log || decide (0 < r.st.alphas i ∧ r.st.alphas i < p.C)) r.st r.t 0
  have hs := Schedule.sweep h hl h2
  refine ⟨d, ?_⟩
  rw [Nat.zero_add] at h1
  simp only [pass, hidx, h1]
  clear h2 h1 hidx
  generalize passLoop p perms _ (r.st, r.t, 0) = q at hs ⊢
  rw [← he] at hs ⊢
  cases hent : r.entire with
  | true =>
    rw [hent] at hs
    by_cases hd : d = 0
    · subst hd; simp only [if_true]; exact ⟨hs, by simp, by simp, by simp⟩
    · simp only [hd, if_false, if_true]
      exact ⟨hs, by simp [hd], fun _ => by simp [nextEntire], by simp⟩
  | false =>
    rw [hent] at hs
    by_cases hd : d = 0
    · subst hd; simp only [if_true, Bool.false_eq_true, if_false]; exact ⟨hs, by simp, by simp [nextEntire], by simp⟩
    · simp only [hd, Bool.false_eq_true, if_false]
      refine ⟨hs, by simp, fun _ => ?_, by simp⟩
      obtain ⟨d', rfl⟩ := Nat.exists_eq_succ_of_ne_zero hd
      simp [nextEntire]

theorem schedule_loop (p : Problem K n) (hp : p.Valid) (perms : Nat → List (Fin n)) : ∀ (k : Nat) (r : Run K n)
    (log : List (Bool × Nat)), Schedule p perms r.st r.t log → log.head? ≠ some (true, 0) → r.entire = nextEntire log →
    Reachable p r.st → r.epoch = log.length →
    ∃ log', Schedule p perms (loop p perms k r).1.st (loop p perms k r).1.t log' ∧
      (loop p perms k r).1.epoch = log'.length ∧
      ((loop p perms k r).2 = true ↔ log'.head? = some (true, 0)) ∧
      ((loop p perms k r).2 = false → log'.length = log.length + k)
  | 0, r, log, h, hl, he, hr, hn => ⟨log, h, hn, by simp [loop, hl], by simp [loop]⟩
  | k + 1, r, log, h, hl, he, hr, hn => by
    obtain ⟨c, h1, h2, h3, h4⟩ := schedule_pass p hp perms r log h hl he hr
    unfold loop
    obtain ⟨idx, c', g1, _, _⟩ := pass_cases p perms r
    have hr' : Reachable p (pass p perms r).1.st := by
      have := reachable_passLoop (p := p) perms idx r.st r.t 0 hr
      rw [g1] at this
      exact this
    cases hp2 : pass p perms r with
    | mk r' f =>
      rw [hp2] at h1 h2 h3 h4 hr'
      have h5 : r'.epoch = log.length + 1 := by rw [← hn]; exact h4
      cases f with
      | true =>
        refine ⟨(nextEntire log, c) :: log, h1, by simpa using h5, ?_, by simp⟩
        simp only [true_iff] at h2
        simp [h2]
      | false =>
        simp only [Bool.false_eq_true, false_iff] at h2
        obtain ⟨log', k1, k2, k3, k4⟩ := schedule_loop p hp perms k r' _ h1 (by simpa using h2) (h3 rfl) hr' (by simpa using h5)
        refine ⟨log', k1, k2, k3, fun hf => ?_⟩
        have := k4 hf
        simp at this
        omega

/-- C119: what `fit` does with a limit of `k` passes is the documented schedule: it stops early exactly after a sweep over all samples
that changed nothing, and otherwise makes exactly `k` sweeps. -/
theorem C119_schedule (p : Problem K n) (hp : p.Valid) (perms : Nat → List (Fin n)) (k : Nat) :
    ∃ log, Schedule p perms (loop p perms k (Run.init K n)).1.st (loop p perms k (Run.init K n)).1.t log ∧
      (loop p perms k (Run.init K n)).1.epoch = log.length ∧
      ((loop p perms k (Run.init K n)).2 = true ↔ log.head? = some (true, 0)) ∧
      ((loop p perms k (Run.init K n)).2 = false → log.length = k) := by
  obtain ⟨log, h1, h2, h3, h4⟩ := schedule_loop p hp perms k (Run.init K n) [] Schedule.start (by simp) rfl Reachable.init rfl
  exact ⟨log, h1, h2, h3, fun h => by simpa using h4 h⟩

/-- C119 for the result of training: with `epochs` at least 0 the schedule is followed for at most `epochs` sweeps, and for fewer only
if the last sweep was over all samples and changed nothing; with `epochs = -1` the last sweep was such a one. -/
theorem C119_returns (p : Problem K n) (hp : p.Valid) (perms : Nat → List (Fin n)) (epochs : Int) (s : State K n)
    (h : Returns p perms epochs s) :
    ∃ t log, Schedule p perms s t log ∧
      (epochs = -1 → log.head? = some (true, 0)) ∧
      (0 ≤ epochs → (log.length : Int) ≤ epochs ∧ ((log.length : Int) < epochs → log.head? = some (true, 0))) ∧
      (epochs < -1 → log = []) := by
  unfold Returns at h
  split at h
  · rename_i he
    obtain ⟨k, h1, h2⟩ := h
    obtain ⟨log, g1, _, g3, _⟩ := C119_schedule p hp perms k
    rw [h2] at g1
    exact ⟨_, log, g1, fun _ => g3.1 h1, fun h0 => by omega, fun h0 => by omega⟩
  · rename_i he
    obtain ⟨log, g1, g2, g3, g4⟩ := C119_schedule p hp perms epochs.toNat
    rw [h] at g1
    have hb := C08_passes_bounded p perms epochs.toNat
    refine ⟨_, log, g1, fun h0 => absurd h0 he, fun h0 => ⟨by omega, fun hlt => ?_⟩, fun h0 => ?_⟩
    · by_contra hne
      cases hf : (loop p perms epochs.toNat (Run.init K n)).2 with
      | true => exact hne (g3.1 hf)
      | false => have := g4 hf; omega
    · have : epochs.toNat = 0 := by omega
      rw [this] at hb g2
      have : log.length = 0 := by omega
      exact List.eq_nil_of_length_eq_zero this

/-- A sweep over all samples is a sweep over each of them once, in order. -/
example (s : State ℚ 3) : (List.finRange 3).filter (fun i => nextEntire [] || decide (0 < s.alphas i ∧ s.alphas i < 1)) = [0, 1, 2] := by
  simp [nextEntire]; decide

/-- A real run: sweep over all samples (2 changes), over the inner ones (none), over all (none), stop. -/
example : (loop exQ (fun _ => [0, 1]) 5 (Run.init ℚ 2)).1.epoch = 3 := by decide +kernel

/-! ## C11: the first update -/

/-- C11 fails in every training run: after the first successful update the cached error of every sample is still the initial 0,
although the two updated samples may be strictly inside the box. -/
theorem C11_first_update (p : Problem K n) (s' : State K n) (i : Fin n) (perm : List (Fin n))
    (h : updateParameters p (State.init K n) i perm = some s') (k : Fin n) : s'.cache k = 0 := by
  have key : ∀ j ei ej, updateAlpha p (State.init K n) i j ei ej = some s' → s'.cache k = 0 := by
    intro j ei ej h
    unfold updateAlpha at h
    split at h; · simp at h
    split at h; · simp at h
    split at h; · simp at h
    dsimp only at h
    split at h; · simp at h
    injection h with h
    subst h
    simp [updateAlphaCache, updateErrorCache, State.init]
  rcases (updateParameters_some h).2 with ⟨j, ej, _, h2⟩ | ⟨j, _, h1⟩
  · exact key j _ _ h2
  · exact key j _ _ h1

end CML.SMO
