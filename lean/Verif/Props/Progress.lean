import Verif.Spec.Progress
import Verif.Props.Training
import Mathlib.Tactic.Linarith
import Mathlib.Tactic.NormNum
import Mathlib.Tactic.FieldSimp
import Mathlib.Tactic.Push
import Mathlib.Tactic.IntervalCases

set_option linter.unusedSectionVars false

/-! # Properties C196–C198 of the progress bar: the time, the line on the terminal, the numbers -/

namespace CML.Progress

/-! ## Decimal numbers -/

theorem digit_toNat (k : Nat) : (digit k).toNat - 48 = k % 10 := by
  unfold digit
  have : k % 10 < 10 := Nat.mod_lt _ (by norm_num)
  generalize k % 10 = j at this
  interval_cases j <;> decide

theorem digit_range (k : Nat) : '0' ≤ digit k ∧ digit k ≤ '9' := by
  unfold digit
  have : k % 10 < 10 := Nat.mod_lt _ (by norm_num)
  generalize k % 10 = j at this
  interval_cases j <;> decide

theorem value_append (s : List Char) (c : Char) : value (s ++ [c]) = 10 * value s + (c.toNat - 48) := by
  unfold value; rw [List.foldl_append]; rfl

theorem Digits.append {s t : List Char} (hs : Digits s) (ht : Digits t) : Digits (s ++ t) := by
  intro c hc
  rcases List.mem_append.1 hc with h | h
  · exact hs c h
  · exact ht c h

theorem digits_one (k : Nat) : Digits [digit k] := by
  intro c hc
  rw [List.mem_singleton.1 hc]; exact digit_range k

theorem decAux_spec (f : Nat) : ∀ k, k < f → value (decAux f k) = k ∧ Digits (decAux f k) ∧ decAux f k ≠ [] := by
  induction f with
  | zero => intro k h; omega
  | succ f ih =>
    intro k h
    unfold decAux
    split
    · rename_i hk
      refine ⟨?_, digits_one k, by simp⟩
      have := value_append [] (digit k)
      rw [List.nil_append] at this
      rw [this, digit_toNat]
      show 10 * 0 + k % 10 = k
      omega
    · rename_i hk
      obtain ⟨h1, h2, h3⟩ := ih (k / 10) (by omega)
      refine ⟨?_, h2.append (digits_one k), by simp⟩
      rw [value_append, h1, digit_toNat]; omega

theorem dec_value (k : Nat) : value (dec k) = k := (decAux_spec _ k (Nat.lt_succ_self k)).1
theorem dec_digits (k : Nat) : Digits (dec k) := (decAux_spec _ k (Nat.lt_succ_self k)).2.1
theorem dec_ne (k : Nat) : dec k ≠ [] := (decAux_spec _ k (Nat.lt_succ_self k)).2.2

theorem pad_length (w k : Nat) : (pad w k).length = w := by
  induction w generalizing k with
  | zero => rfl
  | succ w ih => simp [pad, ih]

theorem pad_digits (w k : Nat) : Digits (pad w k) := by
  induction w generalizing k with
  | zero => intro c hc; simp [pad] at hc
  | succ w ih => exact (ih _).append (digits_one k)

theorem pad_value (w k : Nat) : value (pad w k) = k % 10 ^ w := by
  induction w generalizing k with
  | zero => simp [pad, value, Nat.mod_one]
  | succ w ih =>
    rw [pad, value_append, ih, digit_toNat, Nat.pow_succ, Nat.mul_comm (10 ^ w), Nat.mod_mul]
    omega

theorem decAux_length (f : Nat) : ∀ k, k < f → 100 ≤ k → 3 ≤ (decAux f k).length := by
  intro k h hk
  obtain ⟨f, rfl⟩ : ∃ g, f = g + 3 := ⟨f - 3, by omega⟩
  unfold decAux
  rw [if_neg (by omega), List.length_append, List.length_singleton]
  unfold decAux
  rw [if_neg (by omega), List.length_append, List.length_singleton]
  have := List.length_pos_of_ne_nil (decAux_spec (f + 1) (k / 10 / 10) (by omega)).2.2
  omega

theorem pad2_spec (k : Nat) : value (pad2 k) = k ∧ Digits (pad2 k) ∧ 2 ≤ (pad2 k).length := by
  unfold pad2
  split
  · rename_i h
    exact ⟨by rw [pad_value]; exact Nat.mod_eq_of_lt h, pad_digits _ _, (pad_length _ _).ge⟩
  · rename_i h
    exact ⟨dec_value k, dec_digits k, by have := decAux_length (k + 1) k (by omega) (by omega); unfold dec; omega⟩

theorem nearest_spec (q : ℚ) : |(nearest q : ℚ) - q| ≤ 1 / 2 := by
  have h1 := Int.floor_le q
  have h2 := Int.lt_floor_add_one q
  unfold nearest
  rw [abs_le]
  split
  · constructor <;> linarith
  · split
    · push_cast; constructor <;> linarith
    · split
      · constructor <;> linarith
      · push_cast; constructor <;> linarith

theorem nearest_even (q : ℚ) (h : |(nearest q : ℚ) - q| = 1 / 2) : nearest q % 2 = 0 := by
  have h1 := Int.floor_le q
  have h2 := Int.lt_floor_add_one q
  unfold nearest at h ⊢
  split_ifs at h ⊢ with a b c
  · rw [abs_of_nonpos (by linarith)] at h
    linarith
  · push_cast at h
    rw [abs_of_nonneg (by linarith)] at h
    linarith
  · exact c
  · omega

theorem nearest_nonneg {q : ℚ} (h : 0 ≤ q) : 0 ≤ nearest q := by
  have : 0 ≤ ⌊q⌋ := Int.floor_nonneg.2 h
  unfold nearest
  split
  · exact this
  · split
    · omega
    · split <;> omega

theorem fmt0_spec {q : ℚ} (h : 0 ≤ q) : Digits (fmt0 q) ∧ |(value (fmt0 q) : ℚ) - q| ≤ 1 / 2 := by
  refine ⟨dec_digits _, ?_⟩
  unfold fmt0
  rw [dec_value]
  have : (((nearest q).toNat : Int) : ℚ) = (nearest q : ℚ) := by rw [Int.toNat_of_nonneg (nearest_nonneg h)]
  rw [Int.cast_natCast] at this
  rw [this]; exact nearest_spec q

/-! ## C196: the time -/

section time
variable {fl : ℚ → ℚ} {n e : Nat} {etd current now : ℚ}

/-- **C196.** From a minute on the remaining time (the time of the last epoch times the number of remaining epochs) is shown as minutes and two digits of seconds below 60, cut to a whole second. -/
theorem C196_minutes_partial (he : e ≠ 0) (hl : ¬ fl (n - fl (n / 25)) < (e : ℚ)) (h : 60 ≤ (now - current) * ((n : ℚ) - e)) :
    ∃ mm ss, timeText fl n e etd current now = " ETA: ".toList ++ mm ++ ":".toList ++ ss ∧ Digits mm ∧ Digits ss ∧ 2 ≤ mm.length ∧ ss.length = 2 ∧ value ss < 60 ∧
      ((value mm * 60 + value ss : Nat) : ℚ) ≤ (now - current) * ((n : ℚ) - e) ∧ (now - current) * ((n : ℚ) - e) < ((value mm * 60 + value ss : Nat) : ℚ) + 1 := by
  unfold timeText
  rw [if_neg he, if_neg hl, if_neg (not_lt.2 h)]
  generalize (now - current) * ((n : ℚ) - e) = eta at h ⊢
  obtain ⟨m1, m2, m3⟩ := pad2_spec (⌊eta⌋.toNat / 60)
  obtain ⟨s1, s2, s3⟩ := pad2_spec (⌊eta⌋.toNat % 60)
  have hlt : ⌊eta⌋.toNat % 60 < 60 := Nat.mod_lt _ (by norm_num)
  have hlen : (pad2 (⌊eta⌋.toNat % 60)).length = 2 := by
    unfold pad2; rw [if_pos (by omega)]; exact pad_length _ _
  refine ⟨_, _, rfl, m2, s2, m3, hlen, by rw [s1]; exact hlt, ?_⟩
  rw [m1, s1]
  have e1 : ⌊eta⌋.toNat / 60 * 60 + ⌊eta⌋.toNat % 60 = ⌊eta⌋.toNat := by omega
  rw [e1]
  have e2 : (⌊eta⌋.toNat : ℚ) = (⌊eta⌋ : ℚ) := by
    have : ((⌊eta⌋.toNat : Int) : ℚ) = (⌊eta⌋ : ℚ) := by rw [Int.toNat_of_nonneg (Int.floor_nonneg.2 (by linarith))]
    rwa [Int.cast_natCast] at this
  rw [e2]
  exact ⟨Int.floor_le _, Int.lt_floor_add_one _⟩

/-- **C196.** Below a minute it is shown in seconds, rounded to the nearest. -/
theorem C196_seconds_partial (he : e ≠ 0) (hl : ¬ fl (n - fl (n / 25)) < (e : ℚ)) (h0 : 0 ≤ (now - current) * ((n : ℚ) - e)) (h : (now - current) * ((n : ℚ) - e) < 60) :
    ∃ s, timeText fl n e etd current now = " ETA: ".toList ++ s ++ "s".toList ∧ Digits s ∧ |(value s : ℚ) - (now - current) * ((n : ℚ) - e)| ≤ 1 / 2 := by
  unfold timeText
  rw [if_neg he, if_neg hl, if_pos h]
  exact ⟨_, rfl, (fmt0_spec h0).1, (fmt0_spec h0).2⟩

/-- **C196.** Half a second is rounded to the even number of seconds. -/
theorem C196_half_second (he : e ≠ 0) (hl : ¬ fl (n - fl (n / 25)) < (e : ℚ)) (h0 : 0 ≤ (now - current) * ((n : ℚ) - e)) (h : (now - current) * ((n : ℚ) - e) < 60) :
    ∃ s, timeText fl n e etd current now = " ETA: ".toList ++ s ++ "s".toList ∧ (|(value s : ℚ) - (now - current) * ((n : ℚ) - e)| = 1 / 2 → value s % 2 = 0) := by
  unfold timeText
  rw [if_neg he, if_neg hl, if_pos h]
  refine ⟨_, rfl, fun hh => ?_⟩
  generalize (now - current) * ((n : ℚ) - e) = q at h0 hh ⊢
  unfold fmt0 at hh ⊢
  rw [dec_value] at hh ⊢
  have e1 : (((nearest q).toNat : Int)) = nearest q := Int.toNat_of_nonneg (nearest_nonneg h0)
  have e2 : (((nearest q).toNat : Nat) : ℚ) = (nearest q : ℚ) := by rw [← Int.cast_natCast, e1]
  rw [e2] at hh
  have := nearest_even q hh
  omega

/-- C196 fails: the decision between the two forms is made before rounding, so the last half second before a minute reads `60s`. -/
theorem C196_sixty (he : e ≠ 0) (hl : ¬ fl (n - fl (n / 25)) < (e : ℚ)) (h0 : 119 / 2 ≤ (now - current) * ((n : ℚ) - e)) (h : (now - current) * ((n : ℚ) - e) < 60) :
    timeText fl n e etd current now = " ETA: 60s".toList := by
  unfold timeText
  rw [if_neg he, if_neg hl, if_pos h]
  generalize (now - current) * ((n : ℚ) - e) = eta at h0 h ⊢
  have hf : ⌊eta⌋ = 59 := Int.floor_eq_iff.2 ⟨by push_cast; linarith, by push_cast; linarith⟩
  have : nearest eta = 60 := by
    unfold nearest
    rw [hf]
    rw [if_neg (by push_cast; linarith)]
    split
    · rfl
    · rfl
  unfold fmt0
  rw [this]
  decide

/-- **C196.** In the last twenty-fifth of the epochs the elapsed time is shown, and the elapsed time divided by the number of ALL epochs. -/
theorem C196_total_partial (he : e ≠ 0) (hl : fl (n - fl (n / 25)) < (e : ℚ)) (h0 : etd ≤ now) :
    ∃ s p, timeText fl n e etd current now = [' '] ++ s ++ "s ".toList ++ p ++ "ms/step".toList ∧ Digits s ∧ Digits p ∧ |(value s : ℚ) - (now - etd)| ≤ 1 / 2 ∧
      |(value p : ℚ) - (now - etd) * 1000 / n| ≤ 1 / 2 := by
  unfold timeText
  rw [if_neg he, if_pos hl]
  have h1 : 0 ≤ now - etd := by linarith
  have h2 : 0 ≤ (now - etd) * 1000 / n := div_nonneg (by linarith) (Nat.cast_nonneg _)
  exact ⟨_, _, rfl, (fmt0_spec h1).1, (fmt0_spec h2).1, (fmt0_spec h1).2, (fmt0_spec h2).2⟩

/-- C196 fails: the time per epoch that is shown before the last epoch is too small by the factor `e / n` (up to the rounding to a millisecond). -/
theorem C196_per_step (he : e ≠ 0) (hn : e < n) (hl : fl (n - fl (n / 25)) < (e : ℚ)) (h0 : etd ≤ now) :
    ∃ s p, timeText fl n e etd current now = [' '] ++ s ++ "s ".toList ++ p ++ "ms/step".toList ∧
      (value p : ℚ) ≤ (e : ℚ) / n * ((now - etd) * 1000 / e) + 1 / 2 := by
  obtain ⟨s, p, h, -, -, -, hp⟩ := C196_total_partial (current := current) he hl h0
  refine ⟨s, p, h, ?_⟩
  have e0 : (0 : ℚ) < e := by exact_mod_cast Nat.pos_of_ne_zero he
  have n0 : (0 : ℚ) < n := by exact_mod_cast (Nat.zero_lt_of_lt hn)
  have : (e : ℚ) / n * ((now - etd) * 1000 / e) = (now - etd) * 1000 / n := by field_simp
  rw [this]
  linarith [(abs_le.1 hp).2]

/-- C196 fails in the C++ engine: times are whole seconds, so an epoch shorter than a second counts as nothing or as a whole second, whatever its length. -/
theorem C196_cc_whole_seconds (he : e ≠ 0) (hl : ¬ n - n / 25 < e) :
    (⌊now⌋ = ⌊current⌋ → timeTextCC n e etd current now = "ETA: 0s".toList) ∧
    (⌊now⌋ = ⌊current⌋ + 1 → n - e < 60 → timeTextCC n e etd current now = "ETA: ".toList ++ dec (n - e) ++ "s".toList) := by
  constructor
  · intro h
    unfold timeTextCC
    rw [if_neg he, if_neg hl, h, sub_self]
    simp only [Int.toNat_zero, Nat.zero_mul]
    rw [if_pos (by norm_num)]
    decide
  · intro h hs
    unfold timeTextCC
    have : (⌊current⌋ + 1 - ⌊current⌋).toNat = 1 := by
      rw [show ⌊current⌋ + 1 - ⌊current⌋ = 1 by ring]; rfl
    rw [if_neg he, if_neg hl, h, this, Nat.one_mul, if_pos hs]

/-- ... and the seconds have no leading zero: one digit when fewer than ten. -/
theorem C196_cc_no_leading_zero (he : e ≠ 0) (hl : ¬ n - n / 25 < e) (h : 60 ≤ (⌊now⌋ - ⌊current⌋).toNat * (n - e)) (hs : (⌊now⌋ - ⌊current⌋).toNat * (n - e) % 60 < 10) :
    ∃ mm ss, timeTextCC n e etd current now = "ETA: ".toList ++ mm ++ ":".toList ++ ss ∧ ss.length = 1 := by
  unfold timeTextCC
  rw [if_neg he, if_neg hl, if_neg (by omega)]
  refine ⟨_, _, rfl, ?_⟩
  unfold dec decAux
  rw [if_pos hs]; rfl

/-- **C196** (C++ engine): minutes and seconds together are the time, in whole seconds, of the last epoch times the number of remaining epochs. -/
theorem C196_cc_minutes_partial (he : e ≠ 0) (hl : ¬ n - n / 25 < e) (h : 60 ≤ (⌊now⌋ - ⌊current⌋).toNat * (n - e)) :
    ∃ mm ss, timeTextCC n e etd current now = "ETA: ".toList ++ mm ++ ":".toList ++ ss ∧ Digits mm ∧ Digits ss ∧ value ss < 60 ∧
      value mm * 60 + value ss = (⌊now⌋ - ⌊current⌋).toNat * (n - e) := by
  unfold timeTextCC
  rw [if_neg he, if_neg hl, if_neg (by omega)]
  refine ⟨_, _, rfl, dec_digits _, dec_digits _, ?_, ?_⟩
  · rw [dec_value]; exact Nat.mod_lt _ (by norm_num)
  · rw [dec_value, dec_value]; omega

/-- **C196** (C++ engine): in the last epochs, the whole seconds since the start and the milliseconds per epoch, counting all epochs. -/
theorem C196_cc_total_partial (he : e ≠ 0) (hl : n - n / 25 < e) (h0 : ⌊etd⌋ ≤ ⌊now⌋) :
    ∃ s p, timeTextCC n e etd current now = [' '] ++ s ++ "s ".toList ++ p ++ "ms/step".toList ∧ Digits s ∧ Digits p ∧ (value s : Int) = ⌊now⌋ - ⌊etd⌋ ∧
      value p = value s * 1000 / n := by
  unfold timeTextCC
  rw [if_neg he, if_pos hl]
  refine ⟨_, _, rfl, dec_digits _, dec_digits _, ?_, ?_⟩
  · rw [dec_value]; omega
  · rw [dec_value, dec_value]

/-- Epoch 914 of 1000 at 0.7 seconds an epoch; epoch 915; epoch 970. -/
example : timeText id 1000 914 0 0 (7/10) = " ETA: 01:00".toList ∧ timeText id 1000 915 0 0 (7/10) = " ETA: 60s".toList ∧
    timeText id 1000 970 0 678 679 = " 679s 679ms/step".toList ∧ timeTextCC 1000 935 0 0 1 = "ETA: 1:5".toList := by decide +kernel

end time

/-! ## C197: the line on the terminal -/

theorem put_plain (t : Term) {c : Char} (h1 : c ≠ '\r') (h2 : c ≠ '\n') : t.put c = ⟨t.done, t.cur.take t.col ++ [c] ++ t.cur.drop (t.col + 1), t.col + 1⟩ := by
  unfold Term.put; rw [if_neg h1, if_neg h2]

theorem write_plain (s : List Char) (hs : Plain s) : ∀ t : Term, t.col ≤ t.cur.length →
    t.write s = ⟨t.done, t.cur.take t.col ++ s ++ t.cur.drop (t.col + s.length), t.col + s.length⟩ := by
  induction s with
  | nil => intro t _; simp [Term.write]
  | cons c s ih =>
    intro t ht
    have hc1 : c ≠ '\r' := fun h => hs.1 (by simp [h])
    have hc2 : c ≠ '\n' := fun h => hs.2 (by simp [h])
    have h' : Plain s := ⟨fun h => hs.1 (List.mem_cons_of_mem _ h), fun h => hs.2 (List.mem_cons_of_mem _ h)⟩
    have : t.write (c :: s) = (t.put c).write s := rfl
    rw [this, put_plain t hc1 hc2, ih h' _ (by simp; omega)]
    have hl : (t.cur.take t.col ++ [c]).length = t.col + 1 := by simp; omega
    dsimp only
    congr 1
    · rw [List.take_append_of_le_length hl.ge, List.take_of_length_le hl.le]
      rw [List.drop_append, hl, List.drop_of_length_le (by omega : (t.cur.take t.col ++ [c]).length ≤ _)]
      simp only [List.nil_append, List.drop_drop, List.append_assoc, List.cons_append, List.length_cons]
      congr 4
      omega
    · simp only [List.length_cons]; omega

theorem plain_append {s t : List Char} (hs : Plain s) (ht : Plain t) : Plain (s ++ t) := by
  constructor
  · intro h; rcases List.mem_append.1 h with h | h
    · exact hs.1 h
    · exact ht.1 h
  · intro h; rcases List.mem_append.1 h with h | h
    · exact hs.2 h
    · exact ht.2 h

theorem Digits.plain {s : List Char} (h : Digits s) : Plain s := by
  constructor
  · intro hc; exact absurd (h _ hc).1 (by decide)
  · intro hc; exact absurd (h _ hc).1 (by decide)

theorem drawBar_plain (fl : ℚ → ℚ) (n e : Nat) : Plain (Train.drawBar fl n e) := by
  have hr : ∀ k (c : Char), c ≠ '\r' → c ≠ '\n' → Plain (List.replicate k c) := fun k c h1 h2 =>
    ⟨fun h => h1 (List.eq_of_mem_replicate h).symm, fun h => h2 (List.eq_of_mem_replicate h).symm⟩
  unfold Train.drawBar
  split
  · exact hr _ _ (by decide) (by decide)
  · exact plain_append (plain_append (hr _ _ (by decide) (by decide)) ⟨by decide, by decide⟩) (hr _ _ (by decide) (by decide))

theorem timeText_plain (fl : ℚ → ℚ) (n e : Nat) (etd current now : ℚ) : Plain (timeText fl n e etd current now) := by
  have hl : Plain " ETA: ".toList := ⟨by decide, by decide⟩
  unfold timeText
  split
  · exact ⟨by decide, by decide⟩
  · split
    · exact plain_append (plain_append (plain_append (plain_append ⟨by decide, by decide⟩ (dec_digits _).plain) ⟨by decide, by decide⟩) (dec_digits _).plain) ⟨by decide, by decide⟩
    · split
      · exact plain_append (plain_append hl (dec_digits _).plain) ⟨by decide, by decide⟩
      · exact plain_append (plain_append (plain_append hl (pad2_spec _).2.1.plain) ⟨by decide, by decide⟩) (pad2_spec _).2.1.plain

theorem line_plain (fl : ℚ → ℚ) (n e : Nat) {r : Report} (hr : r.Plain) : Plain (line fl n e r) := by
  unfold line
  refine plain_append (plain_append (plain_append (plain_append (plain_append (plain_append (plain_append (plain_append (plain_append (plain_append (plain_append (plain_append (plain_append
    (plain_append (plain_append ?_ (dec_digits e).plain) ?_) (dec_digits n).plain) ?_) (drawBar_plain fl n e)) ?_) (timeText_plain fl n e _ _ _)) ?_) hr.1) ?_) hr.2.1) ?_) hr.2.2.1) ?_) hr.2.2.2 <;>
    exact ⟨by decide, by decide⟩

theorem write_append (t : Term) (a b : List Char) : t.write (a ++ b) = (t.write a).write b := List.foldl_append ..

theorem write_line (fl : ℚ → ℚ) (n e : Nat) {r : Report} (hr : r.Plain) (t : Term) :
    t.write (['\r'] ++ line fl n e r) = ⟨t.done, line fl n e r ++ t.cur.drop (line fl n e r).length, (line fl n e r).length⟩ := by
  rw [write_append]
  have : t.write ['\r'] = ⟨t.done, t.cur, 0⟩ := rfl
  rw [this, write_plain _ (line_plain fl n e hr) _ (Nat.zero_le _)]
  simp

theorem append_drop_eq {a b : List Char} : a ++ b.drop a.length = a ↔ b.length ≤ a.length := by
  rw [List.append_right_eq_self, List.drop_eq_nil_iff]

section
variable (fl : ℚ → ℚ) (n : Nat) (r : Nat → Report) (hr : ∀ e, (r e).Plain) (t : Term) (ht : t.cur = [])
include hr ht

theorem after_succ (e : Nat) (he : e + 1 < n) : after fl n r t (e + 1) =
    ⟨(after fl n r t e).done, line fl n (e + 1) (r (e + 1)) ++ (after fl n r t e).cur.drop (line fl n (e + 1) (r (e + 1))).length, (line fl n (e + 1) (r (e + 1))).length⟩ := by
  have hw : after fl n r t (e + 1) = (after fl n r t e).write (written fl n (e + 1) (r (e + 1))) := rfl
  rw [hw]
  unfold written
  rw [if_neg (by omega), List.append_nil, write_line fl n (e + 1) (hr _)]

theorem after_done (e : Nat) (he : e < n) : (after fl n r t e).done = t.done := by
  induction e with
  | zero => rfl
  | succ e ih => rw [after_succ fl n r hr t ht e he]; exact ih (by omega)

/-- The visible line is as long as the longest line written so far. -/
theorem after_length (e : Nat) (he : e < n) (b : Nat) : (after fl n r t e).cur.length ≤ b ↔ ∀ i, 1 ≤ i → i ≤ e → (line fl n i (r i)).length ≤ b := by
  induction e with
  | zero =>
    have : (after fl n r t 0).cur = [] := ht
    rw [this]
    simp only [List.length_nil, Nat.zero_le, true_iff]
    intro i h1 h2; omega
  | succ e ih =>
    rw [after_succ fl n r hr t ht e he]
    simp only [List.length_append, List.length_drop]
    constructor
    · intro h i h1 h2
      rcases Nat.lt_or_ge e i with hc | hc
      · have : i = e + 1 := by omega
        subst this; omega
      · exact (ih (by omega)).1 (by omega) i h1 hc
    · intro h
      have h1 := (ih (by omega)).2 fun i h1 h2 => h i h1 (by omega)
      have h2 := h (e + 1) (by omega) le_rfl
      omega

/-- **C197.** After every epoch but the last the terminal shows the line of that epoch if and only if no earlier line was longer. -/
theorem C197_line_iff (e : Nat) (h1 : 1 ≤ e) (he : e < n) :
    (after fl n r t e).done = t.done ∧ ((after fl n r t e).cur = line fl n e (r e) ↔ ∀ i, 1 ≤ i → i < e → (line fl n i (r i)).length ≤ (line fl n e (r e)).length) := by
  refine ⟨after_done fl n r hr t ht e he, ?_⟩
  obtain ⟨e, rfl⟩ : ∃ k, e = k + 1 := ⟨e - 1, by omega⟩
  rw [after_succ fl n r hr t ht e he]
  dsimp only
  rw [append_drop_eq, after_length fl n r hr t ht e (by omega)]
  exact ⟨fun h i a b => h i a (by omega), fun h i a b => h i a (by omega)⟩

/-- **C197.** What is left after training: one finished line, which begins with the line of the last epoch and is that line if and only if no earlier one was longer; the cursor is at the beginning
of an empty line. -/
theorem C197_finished (hn : 1 ≤ n) :
    ∃ s, after fl n r t n = ⟨t.done ++ [line fl n n (r n) ++ s], [], 0⟩ ∧ (s = [] ↔ ∀ i, 1 ≤ i → i < n → (line fl n i (r i)).length ≤ (line fl n n (r n)).length) := by
  obtain ⟨e, rfl⟩ : ∃ k, n = k + 1 := ⟨n - 1, by omega⟩
  refine ⟨(after fl (e + 1) r t e).cur.drop (line fl (e + 1) (e + 1) (r (e + 1))).length, ?_, ?_⟩
  · have hw : after fl (e + 1) r t (e + 1) = (after fl (e + 1) r t e).write (written fl (e + 1) (e + 1) (r (e + 1))) := rfl
    rw [hw]
    unfold written
    rw [if_pos rfl, write_append, write_line fl (e + 1) (e + 1) (hr _), after_done fl (e + 1) r hr t ht e (by omega)]
    rfl
  · rw [List.drop_eq_nil_iff, after_length fl (e + 1) r hr t ht e (by omega)]
    exact ⟨fun h i a b => h i a (by omega), fun h i a b => h i a (by omega)⟩

/-- **C197** fails whenever the remaining time falls below a minute: if the other texts keep their lengths, the line of epoch `e` is longer than that of epoch `e + 1`, and its end stays on the
terminal behind the new line. -/
theorem C197_violated (hf : Train.Rounding fl) (e : Nat) (h1 : 1 ≤ e) (hen : e + 1 < n) (hl : ¬ fl (n - fl (n / 25)) < ((e + 1 : Nat) : ℚ)) (hl' : ¬ fl (n - fl (n / 25)) < (e : ℚ))
    (hd : (dec e).length = (dec (e + 1)).length)
    (hs : (r e).lossName.length = (r (e + 1)).lossName.length ∧ (r e).lossText.length = (r (e + 1)).lossText.length ∧
      (r e).metricName.length = (r (e + 1)).metricName.length ∧ (r e).metricText.length = (r (e + 1)).metricText.length)
    (hm : 60 ≤ ((r e).now - (r e).current) * ((n : ℚ) - e))
    (h0 : 0 ≤ ((r (e + 1)).now - (r (e + 1)).current) * ((n : ℚ) - (e + 1 : Nat))) (hs' : ((r (e + 1)).now - (r (e + 1)).current) * ((n : ℚ) - (e + 1 : Nat)) < 60) :
    (after fl n r t (e + 1)).cur ≠ line fl n (e + 1) (r (e + 1)) ∧ line fl n (e + 1) (r (e + 1)) <+: (after fl n r t (e + 1)).cur := by
  constructor
  · intro hc
    have := ((C197_line_iff fl n r hr t ht (e + 1) (by omega) hen).2.1 hc) e h1 (by omega)
    obtain ⟨mm, ss, ht1, -, -, hmm, hss, -⟩ := C196_minutes_partial (etd := (r e).etd) (by omega) hl' hm
    obtain ⟨s, ht2, -, hsv⟩ := C196_seconds_partial (etd := (r (e + 1)).etd) (by omega) hl h0 hs'
    have hb1 := Train.C55_width hf h1 (show e ≤ n by omega)
    have hb2 := Train.C55_width hf (show 1 ≤ e + 1 by omega) (show e + 1 ≤ n by omega)
    have hslen : s.length ≤ 2 := by
      have e1 : timeText fl n (e + 1) (r (e + 1)).etd (r (e + 1)).current (r (e + 1)).now = " ETA: ".toList ++ fmt0 (((r (e + 1)).now - (r (e + 1)).current) * ((n : ℚ) - (e + 1 : Nat))) ++ "s".toList := by
        unfold timeText
        rw [if_neg (by omega), if_neg hl, if_pos hs']
      rw [e1] at ht2
      have e2 : s = fmt0 (((r (e + 1)).now - (r (e + 1)).current) * ((n : ℚ) - (e + 1 : Nat))) :=
        (List.append_cancel_left (List.append_cancel_right ht2)).symm
      rw [e2] at hsv ⊢
      unfold fmt0 at hsv ⊢
      rw [dec_value] at hsv
      have : (nearest (((r (e + 1)).now - (r (e + 1)).current) * ((n : ℚ) - (e + 1 : Nat)))).toNat < 61 := by
        have h2 := (abs_le.1 hsv).2
        have : ((nearest (((r (e + 1)).now - (r (e + 1)).current) * ((n : ℚ) - (e + 1 : Nat)))).toNat : ℚ) < (61 : Nat) := by push_cast at *; linarith
        exact_mod_cast this
      generalize (nearest (((r (e + 1)).now - (r (e + 1)).current) * ((n : ℚ) - (e + 1 : Nat)))).toNat = k at this
      interval_cases k <;> decide
    unfold line at this
    rw [ht1, ht2] at this
    simp only [List.length_append, hb1, hb2, hd, hs.1, hs.2.1, hs.2.2.1, hs.2.2.2, hss] at this
    have l1 : ":".toList.length = 1 := rfl
    have l2 : "s".toList.length = 1 := rfl
    rw [l1, l2] at this
    omega
  · rw [after_succ fl n r hr t ht e (by omega)]
    exact List.prefix_append _ _

end

/-- 1000 epochs of 0.7 seconds.  After epoch 915 the terminal shows the metric 0.9500 as 0.950099, with the last two digits of the metric of epoch 914. -/
def exR (e : Nat) : Report := ⟨0, 0, 7/10, "loss".toList, "0.1234".toList, "accuracy".toList, if e = 914 then "0.9499".toList else "0.9500".toList⟩

example : (∀ e, (exR e).Plain) ∧ ((Term.mk [] (line id 1000 914 (exR 914)) 0).write (written id 1000 915 (exR 915))).cur = line id 1000 915 (exR 915) ++ "99".toList ∧
    line id 1000 915 (exR 915) = "Epoch 915/1000 [======================>..] ETA: 60s - loss: 0.1234 - accuracy: 0.9500".toList := by
  refine ⟨fun e => ?_, by decide +kernel, by decide +kernel⟩
  have h : ∀ s ∈ ["loss", "0.1234", "accuracy", "0.9499", "0.9500"], Plain s.toList := by
    intro s hs
    simp only [List.mem_cons, List.not_mem_nil, or_false] at hs
    rcases hs with rfl | rfl | rfl | rfl | rfl <;> exact ⟨by decide, by decide⟩
  refine ⟨h "loss" (by simp), h "0.1234" (by simp), h "accuracy" (by simp), ?_⟩
  show Plain (if e = 914 then "0.9499".toList else "0.9500".toList)
  split
  · exact h "0.9499" (by simp)
  · exact h "0.9500" (by simp)

/-! ## C198: the numbers -/

theorem fixed_reads (w : Nat) {q : ℚ} (h : 0 ≤ q) : |((value (dec ((nearest (q * 10 ^ w)).toNat / 10 ^ w)) : ℚ) + value (pad w (nearest (q * 10 ^ w)).toNat) / 10 ^ w) - q| ≤ 1 / 2 / 10 ^ w := by
  rw [dec_value, pad_value]
  have h10 : (0 : ℚ) < 10 ^ w := by positivity
  have hq : 0 ≤ q * 10 ^ w := mul_nonneg h h10.le
  have h1 := nearest_spec (q * 10 ^ w)
  have h2 := nearest_nonneg hq
  generalize nearest (q * 10 ^ w) = m at h1 h2
  obtain ⟨k, rfl⟩ := Int.eq_ofNat_of_zero_le h2
  simp only [Int.toNat_natCast, Int.cast_natCast] at h1 ⊢
  have : ((k / 10 ^ w : Nat) : ℚ) + ((k % 10 ^ w : Nat) : ℚ) / 10 ^ w = k / 10 ^ w := by
    have := Nat.div_add_mod k (10 ^ w)
    have h3 : (k : ℚ) = 10 ^ w * ((k / 10 ^ w : Nat) : ℚ) + ((k % 10 ^ w : Nat) : ℚ) := by exact_mod_cast this.symm
    rw [eq_div_iff h10.ne', add_mul, div_mul_cancel₀ _ h10.ne']
    linarith
  rw [this]
  have e : (k : ℚ) / 10 ^ w - q = (k - q * 10 ^ w) / 10 ^ w := by field_simp
  rw [e, abs_div, abs_of_pos h10]
  exact div_le_div_of_nonneg_right h1 h10.le

/-- **C198.** A loss or metric is shown with four decimals and is off by at most half a unit of the last one. -/
theorem C198_python (q : ℚ) : Reads (fmt4 q) q (1 / 2 / 10 ^ 4) := by
  unfold fmt4
  split
  · rename_i h
    have := fixed_reads 4 (show (0 : ℚ) ≤ -q by linarith)
    refine ⟨true, dec ((nearest (-q * 10 ^ 4)).toNat / 10 ^ 4), pad 4 (nearest (-q * 10 ^ 4)).toNat, rfl, dec_ne _, pad_length _ _, dec_digits _, pad_digits _ _, ?_⟩
    rw [if_pos rfl]
    rw [← abs_neg] at this
    refine le_trans (le_of_eq ?_) this
    generalize (value (dec _) : ℚ) = a
    generalize (value (pad _ _) : ℚ) = b
    congr 1; ring
  · rename_i h
    refine ⟨false, dec ((nearest (q * 10 ^ 4)).toNat / 10 ^ 4), pad 4 (nearest (q * 10 ^ 4)).toNat, rfl, dec_ne _, pad_length _ _, dec_digits _, pad_digits _ _, ?_⟩
    rw [if_neg (by decide), one_mul]
    exact fixed_reads 4 (not_lt.1 h)

theorem idxOf_point {a b : List Char} (ha : Digits a) : (a ++ ['.'] ++ b).idxOf '.' = a.length := by
  rw [List.append_assoc, List.idxOf_append_of_notMem (fun h => absurd (ha _ h).1 (by decide))]
  simp

theorem idxOf_point_neg {a b : List Char} (ha : Digits a) : ('-' :: (a ++ ['.'] ++ b)).idxOf '.' = a.length + 1 := by
  rw [List.idxOf_cons_ne _ (by decide), idxOf_point ha]

theorem cut_reads {q : ℚ} (h : 0 ≤ q) : ∃ b, pad 6 (nearest (q * 10 ^ 6)).toNat = b ++ (pad 6 (nearest (q * 10 ^ 6)).toNat).drop 4 ∧ b.length = 4 ∧ Digits b ∧
    |((value (dec ((nearest (q * 10 ^ 6)).toNat / 10 ^ 6)) : ℚ) + value b / 10 ^ 4) - q| ≤ 1 / 10 ^ 4 := by
  have h1 := fixed_reads 6 h
  generalize (nearest (q * 10 ^ 6)).toNat = k at h1
  have hb : pad 6 k = pad 4 (k / 100) ++ [digit (k / 10), digit k] := by
    show pad 4 (k / 10 / 10) ++ [digit (k / 10)] ++ [digit k] = _
    rw [Nat.div_div_eq_div_mul, List.append_assoc]; rfl
  refine ⟨pad 4 (k / 100), ?_, pad_length _ _, pad_digits _ _, ?_⟩
  · rw [hb, List.drop_append_of_le_length (pad_length _ _).ge, List.drop_of_length_le (pad_length _ _).le]; rfl
  · rw [pad_value] at h1 ⊢
    have e1 : k % 10 ^ 6 = 100 * (k / 100 % 10 ^ 4) + k % 100 := by omega
    have e2 : k % 100 ≤ 99 := by omega
    rw [e1] at h1
    push_cast at h1
    have e3 : ((k % 100 : Nat) : ℚ) ≤ 99 := by exact_mod_cast e2
    have e4 : (0 : ℚ) ≤ ((k % 100 : Nat) : ℚ) := Nat.cast_nonneg _
    rw [abs_le] at h1 ⊢
    constructor <;> linarith [h1.1, h1.2]

/-- **C198** in the C++ engine: the error is at most a whole unit of the last decimal. -/
theorem C198_cc_partial (q : ℚ) : Reads (fmt4CC q) q (1 / 10 ^ 4) := by
  unfold fmt4CC
  by_cases h : q < 0
  · rw [if_pos h]
    obtain ⟨b, hb1, hb2, hb3, hb4⟩ := cut_reads (show (0 : ℚ) ≤ -q by linarith)
    refine ⟨true, dec ((nearest (-q * 10 ^ 6)).toNat / 10 ^ 6), b, ?_, dec_ne _, hb2, dec_digits _, hb3, ?_⟩
    rotate_left
    · rw [if_pos rfl]
      rw [← abs_neg] at hb4
      refine le_trans (le_of_eq ?_) hb4
      generalize (value (dec _) : ℚ) = u
      congr 1; ring
    · dsimp only [fixed]
      rw [idxOf_point_neg (dec_digits _), hb1]
      generalize (pad 6 (nearest (-q * 10 ^ 6)).toNat).drop 4 = c
      generalize dec ((nearest (-q * 10 ^ 6)).toNat / 10 ^ 6) = a
      rw [if_pos rfl]
      have : '-' :: (a ++ ['.'] ++ (b ++ c)) = (['-'] ++ a ++ ['.'] ++ b) ++ c := by simp
      rw [this]
      exact List.take_left' (by simp [hb2])
  · rw [if_neg h]
    obtain ⟨b, hb1, hb2, hb3, hb4⟩ := cut_reads (not_lt.1 h)
    refine ⟨false, dec ((nearest (q * 10 ^ 6)).toNat / 10 ^ 6), b, ?_, dec_ne _, hb2, dec_digits _, hb3, ?_⟩
    rotate_left
    · rw [if_neg (by decide), one_mul]; exact hb4
    · dsimp only [fixed]
      rw [idxOf_point (dec_digits _), hb1]
      generalize (pad 6 (nearest (q * 10 ^ 6)).toNat).drop 4 = c
      generalize dec ((nearest (q * 10 ^ 6)).toNat / 10 ^ 6) = a
      rw [if_neg (by decide)]
      have : a ++ ['.'] ++ (b ++ c) = ([] ++ a ++ ['.'] ++ b) ++ c := by simp
      rw [this]
      exact List.take_left' (by simp [hb2])

theorem notDigit_point {a : List Char} (h : Digits a) : '.' ∉ a := fun hc => absurd (h _ hc).1 (by decide)

/-- **C198** fails in the C++ engine: 0.99996 is shown as 0.9999 (the Python engine shows 1.0000). -/
theorem C198_violated : fmt4CC (99996 / 100000) = "0.9999".toList ∧ fmt4 (99996 / 100000) = "1.0000".toList ∧ ¬ Reads (fmt4CC (99996 / 100000)) (99996 / 100000) (1 / 2 / 10 ^ 4) := by
  have h1 : fmt4CC (99996 / 100000) = "0.9999".toList := by decide +kernel
  refine ⟨h1, by decide +kernel, ?_⟩
  rw [h1]
  rintro ⟨neg, a, b, hs, ha, hb, hda, hdb, he⟩
  cases neg with
  | true =>
    simp only [if_true, List.cons_append, List.nil_append] at hs
    have := congrArg List.head? hs
    simp at this
  | false =>
    have hl := congrArg List.length hs
    have hl' : a.length = 1 := by
      have : "0.9999".toList.length = 6 := rfl
      rw [this] at hl
      simp [hb] at hl
      omega
    obtain ⟨c, rfl⟩ := List.length_eq_one_iff.1 hl'
    obtain ⟨rfl, rfl⟩ : c = '0' ∧ b = ['9', '9', '9', '9'] := by
      have : ['0', '.', '9', '9', '9', '9'] = c :: '.' :: b := by simpa using hs
      simp only [List.cons.injEq] at this
      exact ⟨this.1.symm, this.2.2.symm⟩
    have v1 : value ['0'] = 0 := by decide
    have v2 : value ['9', '9', '9', '9'] = 9999 := by decide
    rw [v1, v2, abs_le] at he
    have := he.1
    norm_num at this

end CML.Progress
