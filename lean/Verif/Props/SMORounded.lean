import Verif.Lemmas.Rounded
import Verif.Model.SMO
import Mathlib.Data.Fin.VecNotation

set_option linter.unusedSectionVars false

/-! # Property C282: a step of SMO in floating point -/

namespace CML.Float

variable {K : Type*} [Field K] [LinearOrder K] [IsStrictOrderedRing K] {fl wide : K → K}

/-- Without rounding the bounds and the new multipliers are those of the exact model. -/
theorem smoBounds_id {n : Nat} (p : SMO.Problem K n) (s : SMO.State K n) (i j : Fin n) :
    smoBounds id id p.C (decide (p.y i ≠ p.y j)) (s.alphas i) (s.alphas j) = SMO.bounds p s i j := by
  unfold smoBounds SMO.bounds
  by_cases h : p.y i = p.y j <;> simp [h]

theorem clip_mem {v low high : K} (h : low ≤ high) : low ≤ Ops.clipAlpha v low high ∧ Ops.clipAlpha v low high ≤ high := by
  unfold Ops.clipAlpha
  split_ifs with h1 h2
  · exact ⟨h, le_rfl⟩
  · exact ⟨le_rfl, h⟩
  · exact ⟨not_lt.1 h2, not_lt.1 h1⟩

theorem smoPair_some {C ai aj v : K} {opp : Bool} {r : K × K} (h : smoPair fl wide C opp ai aj v = some r) :
    r = (fl (wide (ai + (if opp then -1 else 1) * wide (aj - Ops.clipAlpha v (smoBounds fl wide C opp ai aj).1 (smoBounds fl wide C opp ai aj).2))),
      fl (Ops.clipAlpha v (smoBounds fl wide C opp ai aj).1 (smoBounds fl wide C opp ai aj).2)) := by
  unfold smoPair at h
  by_cases h1 : (smoBounds fl wide C opp ai aj).1 = (smoBounds fl wide C opp ai aj).2
  · rw [if_pos h1] at h; cases h
  rw [if_neg h1] at h
  by_cases h2 : |Ops.clipAlpha v (smoBounds fl wide C opp ai aj).1 (smoBounds fl wide C opp ai aj).2 - aj| < 1 / 100000
  · rw [if_pos h2] at h; cases h
  rw [if_neg h2] at h
  exact (Option.some.inj h).symm

theorem smoBounds_box (hfl : IsRounding fl) (C : K) (opp : Bool) (ai aj : K) :
    0 ≤ (smoBounds fl wide C opp ai aj).1 ∧ (smoBounds fl wide C opp ai aj).2 ≤ fl C ∧
    fl (smoBounds fl wide C opp ai aj).1 = (smoBounds fl wide C opp ai aj).1 ∧ fl (smoBounds fl wide C opp ai aj).2 = (smoBounds fl wide C opp ai aj).2 := by
  unfold smoBounds
  split_ifs
  · exact ⟨hfl.nonneg (le_max_left _ _), hfl.mono _ _ (min_le_left _ _), hfl.idem _, hfl.idem _⟩
  · exact ⟨hfl.nonneg (le_max_left _ _), hfl.mono _ _ (min_le_left _ _), hfl.idem _, hfl.idem _⟩

/-- C282 (part): unless the computed bounds cross, the second multiplier of a step is between 0 and the rounded `C`, whatever the roundings and whatever the
multipliers before. -/
theorem C282_second_partial (hfl : IsRounding fl) {C ai aj v : K} {opp : Bool} {r : K × K} (h : smoPair fl wide C opp ai aj v = some r)
    (hb : (smoBounds fl wide C opp ai aj).1 ≤ (smoBounds fl wide C opp ai aj).2) : 0 ≤ r.2 ∧ r.2 ≤ fl C := by
  rw [smoPair_some h]
  obtain ⟨h1, h2, h3, h4⟩ := smoBounds_box (wide := wide) hfl C opp ai aj
  obtain ⟨c1, c2⟩ := clip_mem (v := v) hb
  constructor
  · exact hfl.nonneg (h1.trans c1)
  · have := hfl.mono _ _ c2
    rw [h4] at this
    exact this.trans h2

/-- C282 (part): the first multiplier leaves the interval from 0 to `C` by at most six rounding errors, and the signed sum of the two multipliers
changes by at most four. -/
theorem C282_first_partial (hfl : IsRounding fl) {B eps : K} (hfe : HasAbsError fl (4 * B) eps) (hwe : HasAbsError wide (4 * B) eps)
    (heps : 4 * eps ≤ B) {C ai aj v : K} {opp : Bool} (hC : 0 ≤ C) (hCB : C ≤ B) (hai : |ai| ≤ B) (haj : |aj| ≤ B) {r : K × K}
    (h : smoPair fl wide C opp ai aj v = some r) (hb : (smoBounds fl wide C opp ai aj).1 ≤ (smoBounds fl wide C opp ai aj).2) :
    -(4 * eps) ≤ r.1 ∧ r.1 ≤ C + 6 * eps ∧
    |(r.1 + (if opp then -1 else 1) * r.2) - (ai + (if opp then -1 else 1) * aj)| ≤ 4 * eps := by
  rw [smoPair_some h]
  have hB : 0 ≤ B := hC.trans hCB
  have he0 : 0 ≤ eps := (abs_nonneg _).trans (hfe 0 (by rw [abs_zero]; linarith))
  obtain ⟨h1, h2, h3, h4⟩ := smoBounds_box (wide := wide) hfl C opp ai aj
  obtain ⟨c1, c2⟩ := clip_mem (v := v) hb
  rw [abs_le] at hai haj
  have hflC := abs_le.1 (hfe C (by rw [abs_of_nonneg hC]; linarith))
  generalize hx : Ops.clipAlpha v (smoBounds fl wide C opp ai aj).1 (smoBounds fl wide C opp ai aj).2 = x at *
  have fe : ∀ x, -(4 * B) ≤ x → x ≤ 4 * B → -eps ≤ fl x - x ∧ fl x - x ≤ eps := fun x a b => abs_le.1 (hfe x (abs_le.2 ⟨a, b⟩))
  have we : ∀ x, -(4 * B) ≤ x → x ≤ 4 * B → -eps ≤ wide x - x ∧ wide x - x ≤ eps := fun x a b => abs_le.1 (hwe x (abs_le.2 ⟨a, b⟩))
  have hx0 : 0 ≤ x := h1.trans c1
  have hxB : x ≤ B + eps := by linarith
  obtain ⟨d1, d2⟩ := we (aj - x) (by linarith) (by linarith)
  obtain ⟨x1, x2⟩ := fe x (by linarith) (by linarith)
  cases opp
  · -- equal labels
    simp only [smoBounds, Bool.false_eq_true, if_false, one_mul] at *
    obtain ⟨s1, s2⟩ := fe (ai + aj) (by linarith) (by linarith)
    obtain ⟨t1, t2⟩ := we (fl (ai + aj) - C) (by linarith) (by linarith)
    obtain ⟨q1, q2⟩ := fe (wide (fl (ai + aj) - C)) (by linarith) (by linarith)
    have low := (hfl.mono _ _ (le_max_right 0 (wide (fl (ai + aj) - C)))).trans c1
    have high := c2.trans (hfl.mono _ _ (min_le_right C (fl (ai + aj))))
    rw [hfl.idem] at high
    obtain ⟨w1, w2⟩ := we (ai + wide (aj - x)) (by linarith) (by linarith)
    obtain ⟨z1, z2⟩ := fe (wide (ai + wide (aj - x))) (by linarith) (by linarith)
    refine ⟨by linarith, by linarith, abs_le.2 ⟨by linarith, by linarith⟩⟩
  · simp only [smoBounds, if_true, neg_one_mul] at *
    obtain ⟨s1, s2⟩ := fe (aj - ai) (by linarith) (by linarith)
    obtain ⟨t1, t2⟩ := we (C + aj) (by linarith) (by linarith)
    obtain ⟨q1, q2⟩ := we (wide (C + aj) - ai) (by linarith) (by linarith)
    obtain ⟨p1, p2⟩ := fe (wide (wide (C + aj) - ai)) (by linarith) (by linarith)
    have low := (hfl.mono _ _ (le_max_right 0 (fl (aj - ai)))).trans c1
    rw [hfl.idem] at low
    have high := c2.trans (hfl.mono _ _ (min_le_right C (wide (wide (C + aj) - ai))))
    obtain ⟨w1, w2⟩ := we (ai + -wide (aj - x)) (by linarith) (by linarith)
    obtain ⟨z1, z2⟩ := fe (wide (ai + -wide (aj - x))) (by linarith) (by linarith)
    refine ⟨by linarith, by linarith, abs_le.2 ⟨by linarith, by linarith⟩⟩

/-- The absolute errors of rounding to nearest. -/
theorem hasAbsError_of {u eta B : K} (h : HasError fl u eta) (hu : 0 ≤ u) : HasAbsError fl B (u * B + eta) := fun x hx =>
  (h.any x).trans (by have := mul_le_mul_of_nonneg_left hx hu; linarith)

/-- A step in 32-bit precision. -/
example : smoPair f32 f64 1 true 0 0 (1 / 3 : ℚ) = some (f32 (f64 (f64 (1 / 3))), f32 (1 / 3)) ∧
    (smoBounds f32 f64 1 true 0 (0 : ℚ)).1 ≤ (smoBounds f32 f64 1 true 0 0).2 := by decide +kernel

/-- C282 fails: the first multiplier may become negative. With multipliers 100 and 1.75·2⁻¹⁷ of single precision, different labels and `C = 101`, a step that lowers the
second multiplier as far as possible leaves -2⁻¹⁹ for the first. -/
theorem C282_negative : smoPair f32 f64 101 true (7 / 2 ^ 19) 100 (50 : ℚ) = some (-(1 / 2 ^ 19), 100 - 1 / 2 ^ 16) ∧
    f32 (7 / 2 ^ 19 : ℚ) = 7 / 2 ^ 19 := by decide +kernel

/-- C282 fails: for `C = 1000.2` (of double precision), whose rounding to single precision is larger, the computed bounds cross when the first multiplier is at the rounded
bound and the second is 0: the second multiplier becomes negative, and the first does not change. -/
theorem C282_crossed :
    smoPair f32 f64 (f64 (10002 / 10)) true (f32 (f64 (10002 / 10))) 0 (5 : ℚ) =
      some (f32 (f64 (10002 / 10)), f32 (f64 (10002 / 10) - f32 (f64 (10002 / 10)))) ∧
    f32 (f64 (10002 / 10) - f32 (f64 (10002 / 10 : ℚ))) < 0 ∧ f64 (10002 / 10 : ℚ) < f32 (f64 (10002 / 10)) := by decide +kernel

end CML.Float
