import Verif.Model.HullRounded
import Verif.Spec.HullRounded
import Verif.Props.Hull
import Verif.Lemmas.Rounded

set_option linter.unusedSectionVars false

/-! # Property C285: convex hulls in floating point -/

namespace CML.Hull
open CML.Float

variable {K : Type*} [Field K] [LinearOrder K] [IsStrictOrderedRing K] {fl : K → K}

theorem f_exact [FloorRing K] {p : Nat} (hp : 1 ≤ p) {emin : Int} (he : emin + 2 * p ≤ 0) {N : Int} (h0 : 0 ≤ N) (hN : N < 2 ^ p) :
    ExactUpTo (rne p emin : K → K) N where
  int m hm := by
    have := rne_exact (K := K) hp (emin := emin) (k := 0) (by omega) m (by omega)
    simpa using this
  ratio a b ha hb hbN := by
    have hb' : (0 : K) < |(b : K)| := abs_pos.2 (Int.cast_ne_zero.2 hb)
    have ha1 : (1 : K) ≤ |(a : K)| := by
      have : (1 : Int) ≤ |a| := Int.one_le_abs ha
      exact_mod_cast this
    have hpos : 0 < |(a : K) / b| := abs_pos.2 (div_ne_zero (Int.cast_ne_zero.2 ha) (Int.cast_ne_zero.2 hb))
    have hbp : |(b : K)| ≤ 2 ^ p := by
      have : |b| ≤ (2 : Int) ^ p := by omega
      exact_mod_cast this
    have hlow : (2 : K) ^ (emin + p - 1) ≤ |(a : K) / b| := by
      rw [abs_div, le_div_iff₀ hb']
      have h1 : (2 : K) ^ (emin + p - 1) * 2 ^ p = 2 ^ (emin + p - 1 + p) := by rw [← zpow_natCast, ← zpow_add₀ (by norm_num)]
      have h2 : (2 : K) ^ (emin + p - 1 + p) ≤ 1 := zpow_le_one_of_nonpos₀ (by norm_num) (by omega)
      have h3 := mul_le_mul_of_nonneg_left hbp (two_zpow_pos (K := K) (emin + p - 1)).le
      linarith
    have := rne_precision p emin ((a : K) / b) (Or.inr hlow)
    have hN' : (N : K) < 2 ^ p := by exact_mod_cast hN
    have hN0 : (0 : K) ≤ N := by exact_mod_cast h0
    calc (N : K) * |rne p emin ((a : K) / b) - (a : K) / b| ≤ N * (1 / 2 ^ p * |(a : K) / b|) := mul_le_mul_of_nonneg_left this hN0
      _ = N / 2 ^ p * |(a : K) / b| := by ring
      _ < 1 * |(a : K) / b| := mul_lt_mul_of_pos_right ((div_lt_one (by positivity)).2 hN') hpos
      _ = _ := one_mul _

/-- Two different fractions with small terms have different rounded values, in the same order. -/
theorem ratio_lt {N : Int} (h : ExactUpTo fl N) (hz : fl 0 = 0) {a b c d : Int} (hb : b ≠ 0) (hd : d ≠ 0) (hbN : |b| ≤ N) (hdN : |d| ≤ N)
    (hN : |a * d| + |c * b| ≤ N) (hlt : (a : K) / b < (c : K) / d) : fl ((a : K) / b) < fl ((c : K) / d) := by
  have hb' : (b : K) ≠ 0 := Int.cast_ne_zero.2 hb
  have hd' : (d : K) ≠ 0 := Int.cast_ne_zero.2 hd
  have hbd : (0 : K) < |(b : K) * d| := abs_pos.2 (mul_ne_zero hb' hd')
  -- errors
  have e1 : (N : K) * |fl ((a : K) / b) - (a : K) / b| ≤ |(a : K) / b| := by
    rcases eq_or_ne a 0 with rfl | ha
    · simp [hz]
    · exact (h.ratio a b ha hb hbN).le
  have e2 : (N : K) * |fl ((c : K) / d) - (c : K) / d| ≤ |(c : K) / d| := by
    rcases eq_or_ne c 0 with rfl | hc
    · simp [hz]
    · exact (h.ratio c d hc hd hdN).le
  have estrict : (N : K) * |fl ((a : K) / b) - (a : K) / b| + N * |fl ((c : K) / d) - (c : K) / d| < |(a : K) / b| + |(c : K) / d| := by
    rcases eq_or_ne a 0 with rfl | ha
    · rcases eq_or_ne c 0 with rfl | hc
      · simp at hlt
      · exact add_lt_add_of_le_of_lt e1 (h.ratio c d hc hd hdN)
    · exact add_lt_add_of_lt_of_le (h.ratio a b ha hb hbN) e2
  -- the gap
  have gap : (1 : K) ≤ ((c : K) / d - (a : K) / b) * |(b : K) * d| := by
    have hpos : 0 < (c : K) / d - (a : K) / b := by linarith
    have e : |((c * b - a * d : Int) : K)| = ((c : K) / d - (a : K) / b) * |(b : K) * d| := by
      rw [← abs_of_pos hpos, ← abs_mul]
      congr 1
      push_cast
      field_simp
    have hne : c * b - a * d ≠ 0 := by
      intro h0
      rw [h0] at e
      simp only [Int.cast_zero, abs_zero] at e
      have := mul_pos hpos hbd
      linarith
    rw [← e]
    exact_mod_cast Int.one_le_abs hne
  -- the sum of the absolute values
  have sum : (|(a : K) / b| + |(c : K) / d|) * |(b : K) * d| ≤ N := by
    have e : (|(a : K) / b| + |(c : K) / d|) * |(b : K) * d| = |(a : K) * d| + |(c : K) * b| := by
      rw [add_mul, ← abs_mul, ← abs_mul]
      congr 1
      · congr 1; field_simp
      · congr 1; field_simp
    rw [e]
    exact_mod_cast hN
  by_contra hge
  rw [not_lt] at hge
  have hx := neg_abs_le (fl ((c : K) / d) - (c : K) / d)
  have hy := le_abs_self (fl ((a : K) / b) - (a : K) / b)
  have h1 : (c : K) / d - (a : K) / b ≤ |fl ((a : K) / b) - (a : K) / b| + |fl ((c : K) / d) - (c : K) / d| := by linarith
  have hN0 : (0 : K) < N := by
    have h2 := mul_pos (show (0 : K) < |(a : K) / b| + |(c : K) / d| by
      have := abs_nonneg ((a : K) / b); have := abs_nonneg ((c : K) / d)
      by_contra h0
      have za : |(a : K) / b| = 0 := by linarith
      have zc : |(c : K) / d| = 0 := by linarith
      rw [abs_eq_zero] at za zc
      rw [za, zc] at hlt
      exact lt_irrefl _ hlt) hbd
    linarith
  have h2 : (N : K) * ((c : K) / d - (a : K) / b) < |(a : K) / b| + |(c : K) / d| := by
    have := mul_le_mul_of_nonneg_left h1 hN0.le
    linarith
  have h3 := mul_lt_mul_of_pos_right h2 hbd
  have h4 : (N : K) * 1 ≤ N * (((c : K) / d - (a : K) / b) * |(b : K) * d|) := mul_le_mul_of_nonneg_left gap hN0.le
  linarith

/-! ## The operations of the hull on grid points -/

theorem ExactUpTo.zero {N : Int} (h : ExactUpTo fl N) (h0 : 0 ≤ N) : fl 0 = 0 := by
  simpa using h.int 0 (by simpa using h0)

theorem abs_sub_le_two {a b B : Int} (ha : |a| ≤ B) (hb : |b| ≤ B) : |a - b| ≤ 2 * B := by
  have := abs_sub a b
  omega

theorem abs_mul_le_four {a b B : Int} (ha : |a| ≤ 2 * B) (hb : |b| ≤ 2 * B) : |a * b| ≤ 4 * B ^ 2 := by
  rw [abs_mul]
  have h0 := abs_nonneg a
  calc |a| * |b| ≤ (2 * B) * (2 * B) := mul_le_mul ha hb (abs_nonneg b) (by omega)
    _ = _ := by ring

theorem two_le {B N : Int} (hB : 0 ≤ B) (hN : 8 * B ^ 2 ≤ N) : 2 * B ≤ N := by
  rcases Int.lt_or_eq_of_le hB with h | h
  · nlinarith
  · rw [← h] at hN ⊢; simpa using hN

theorem grid_nonneg {B : Int} {p : K × K} (hp : IsGrid B p) : 0 ≤ B := by
  obtain ⟨x, _, hx, _, _⟩ := hp
  exact (abs_nonneg x).trans hx

theorem crossR_grid {B N : Int} (h : ExactUpTo fl N) (hN : 8 * B ^ 2 ≤ N) {a b c : K × K} (ha : IsGrid B a) (hb : IsGrid B b) (hc : IsGrid B c) :
    crossR fl a b c = crossProduct a b c := by
  have hB := grid_nonneg ha
  obtain ⟨x0, y0, hx0, hy0, rfl⟩ := ha
  obtain ⟨x1, y1, hx1, hy1, rfl⟩ := hb
  obtain ⟨x2, y2, hx2, hy2, rfl⟩ := hc
  have h2 := two_le hB hN
  have d1 := abs_sub_le_two hx1 hx0
  have d2 := abs_sub_le_two hy2 hy0
  have d3 := abs_sub_le_two hy1 hy0
  have d4 := abs_sub_le_two hx2 hx0
  have m1 := abs_mul_le_four d1 d2
  have m2 := abs_mul_le_four d3 d4
  have m3 := abs_sub ((x1 - x0) * (y2 - y0)) ((y1 - y0) * (x2 - x0))
  have sq : (0 : Int) ≤ B ^ 2 := sq_nonneg B
  have e1 : fl ((x1 : K) - x0) = ((x1 - x0 : Int) : K) := by rw [← Int.cast_sub]; exact h.int _ (by omega)
  have e2 : fl ((y2 : K) - y0) = ((y2 - y0 : Int) : K) := by rw [← Int.cast_sub]; exact h.int _ (by omega)
  have e3 : fl ((y1 : K) - y0) = ((y1 - y0 : Int) : K) := by rw [← Int.cast_sub]; exact h.int _ (by omega)
  have e4 : fl ((x2 : K) - x0) = ((x2 - x0 : Int) : K) := by rw [← Int.cast_sub]; exact h.int _ (by omega)
  simp only [crossR, crossProduct, e1, e2, e3, e4]
  rw [← Int.cast_mul, ← Int.cast_mul, h.int _ (by omega), h.int _ (by omega), ← Int.cast_sub, h.int _ (by omega)]
  push_cast
  ring

theorem slopeR_top {p0 p1 : K × K} : slopeR fl p0 p1 = ⊤ ↔ slope p0 p1 = ⊤ := by
  unfold slopeR slope
  split_ifs <;> simp

theorem slopeR_le {B N : Int} (h : ExactUpTo fl N) (hN : 8 * B ^ 2 ≤ N) {s p q : K × K} (hs : IsGrid B s) (hp : IsGrid B p) (hq : IsGrid B q) :
    slopeR fl s p ≤ slopeR fl s q ↔ slope s p ≤ slope s q := by
  have hB := grid_nonneg hs
  obtain ⟨x0, y0, hx0, hy0, rfl⟩ := hs
  obtain ⟨x1, y1, hx1, hy1, rfl⟩ := hp
  obtain ⟨x2, y2, hx2, hy2, rfl⟩ := hq
  have h2 := two_le hB hN
  have sq : (0 : Int) ≤ B ^ 2 := sq_nonneg B
  have d1 := abs_sub_le_two hx0 hx1
  have d2 := abs_sub_le_two hy0 hy1
  have d3 := abs_sub_le_two hx0 hx2
  have d4 := abs_sub_le_two hy0 hy2
  have m1 := abs_mul_le_four d2 d3
  have m2 := abs_mul_le_four d4 d1
  have e1 : fl ((x0 : K) - x1) = ((x0 - x1 : Int) : K) := by rw [← Int.cast_sub]; exact h.int _ (by omega)
  have e2 : fl ((y0 : K) - y1) = ((y0 - y1 : Int) : K) := by rw [← Int.cast_sub]; exact h.int _ (by omega)
  have e3 : fl ((x0 : K) - x2) = ((x0 - x2 : Int) : K) := by rw [← Int.cast_sub]; exact h.int _ (by omega)
  have e4 : fl ((y0 : K) - y2) = ((y0 - y2 : Int) : K) := by rw [← Int.cast_sub]; exact h.int _ (by omega)
  by_cases c1 : (x0 : K) = x1
  · by_cases c2 : (x0 : K) = x2
    · simp only [slopeR, slope, if_pos c1, if_pos c2]
    · simp only [slopeR, slope, if_pos c1, if_neg c2, top_le_iff, WithTop.coe_ne_top]
  · by_cases c2 : (x0 : K) = x2
    · simp only [slopeR, slope, if_neg c1, if_pos c2, le_top]
    · simp only [slopeR, slope, if_neg c1, if_neg c2, WithTop.coe_le_coe, e1, e2, e3, e4]
      rw [← Int.cast_sub x0 x1, ← Int.cast_sub y0 y1, ← Int.cast_sub x0 x2, ← Int.cast_sub y0 y2]
      have n1 : x0 - x1 ≠ 0 := fun e => c1 (by rw [show x0 = x1 by omega])
      have n2 : x0 - x2 ≠ 0 := fun e => c2 (by rw [show x0 = x2 by omega])
      have hz := h.zero (by omega)
      constructor
      · intro hle
        by_contra hgt
        rw [not_le] at hgt
        exact absurd (ratio_lt h hz n2 n1 (by omega) (by omega) (by omega) hgt) (not_lt.2 hle)
      · intro hle
        rcases hle.lt_or_eq with hlt | heq
        · exact (ratio_lt h hz n1 n2 (by omega) (by omega) (by omega) hlt).le
        · rw [heq]

theorem orderedInsert_congr' {α : Type*} (r r' : α → α → Prop) [DecidableRel r] [DecidableRel r'] (a : α) :
    ∀ l : List α, (∀ b ∈ l, r a b ↔ r' a b) → l.orderedInsert r a = l.orderedInsert r' a
  | [], _ => rfl
  | b :: l, h => by
    simp only [List.orderedInsert]
    rw [orderedInsert_congr' r r' a l fun c hc => h c (List.mem_cons_of_mem _ hc)]
    exact if_congr (h b List.mem_cons_self) rfl rfl

theorem insertionSort_congr' {α : Type*} (r r' : α → α → Prop) [DecidableRel r] [DecidableRel r'] :
    ∀ l : List α, (∀ a ∈ l, ∀ b ∈ l, r a b ↔ r' a b) → l.insertionSort r = l.insertionSort r'
  | [], _ => rfl
  | a :: l, h => by
    rw [List.insertionSort_cons, List.insertionSort_cons]
    rw [insertionSort_congr' r r' l fun c hc d hd => h c (List.mem_cons_of_mem _ hc) d (List.mem_cons_of_mem _ hd)]
    refine orderedInsert_congr' r r' a _ fun b hb => h a List.mem_cons_self b (List.mem_cons_of_mem _ ?_)
    exact (List.perm_insertionSort r' l).mem_iff.1 hb

theorem pushR_grid {B N : Int} (h : ExactUpTo fl N) (hN : 8 * B ^ 2 ≤ N) {p : K × K} (hp : IsGrid B p) :
    ∀ l : List (K × K), (∀ q ∈ l, IsGrid B q) → pushR fl p l = push p l
  | [], _ => rfl
  | [_], _ => rfl
  | b :: a :: rest, hl => by
    simp only [pushR, push]
    rw [crossR_grid h hN (hl a (by simp)) (hl b (by simp)) hp, pushR_grid h hN hp (a :: rest) fun q hq => hl q (List.mem_cons_of_mem _ hq)]

theorem scanR_grid {B N : Int} (h : ExactUpTo fl N) (hN : 8 * B ^ 2 ≤ N) :
    ∀ (pts st : List (K × K)), (∀ p ∈ pts, IsGrid B p) → (∀ p ∈ st, IsGrid B p) →
      pts.foldl (fun stack p => pushR fl p stack) st = pts.foldl (fun stack p => push p stack) st
  | [], _, _, _ => rfl
  | p :: pts, st, hp, hst => by
    simp only [List.foldl_cons]
    rw [pushR_grid h hN (hp p (by simp)) st hst]
    refine scanR_grid h hN pts _ (fun q hq => hp q (List.mem_cons_of_mem _ hq)) fun q hq => ?_
    rcases List.mem_cons.1 ((push_sublist p st).subset hq) with rfl | hq
    · exact hp _ (by simp)
    · exact hst q hq

/-- **C285.** On integer coordinates of absolute value at most `B`, in a format that is exact for the integers up to `8 B²`, the
hull computed in floating point is the hull computed exactly. -/
theorem C285_same_partial {B N : Int} (h : ExactUpTo fl N) (hN : 8 * B ^ 2 ≤ N) (sorted : List (K × K)) (hg : ∀ p ∈ sorted, IsGrid B p) :
    computeHullR fl sorted = computeHull sorted := by
  match sorted, hg with
  | [], _ => rfl
  | [_], _ => rfl
  | start :: p :: pts, hg =>
    have hs : IsGrid B start := hg start (by simp)
    have hp : ∀ q ∈ p :: pts, IsGrid B q := fun q hq => hg q (List.mem_cons_of_mem _ hq)
    have e1 : ((p :: pts).any fun q => slopeR fl start q == ⊤) = (p :: pts).any fun q => slope start q == ⊤ := by
      congr 1
      funext q
      rw [Bool.eq_iff_iff]
      simp only [beq_iff_eq]
      exact slopeR_top
    have e2 : sortBySlopeR fl start (p :: pts) = sortBySlope start (p :: pts) :=
      insertionSort_congr' _ _ _ fun a ha b hb => slopeR_le h hN hs (hp a ha) (hp b hb)
    have e3 : grahamR fl start (p :: pts) = graham start (p :: pts) := by
      simp only [grahamR, graham, scan, e2]
      rw [scanR_grid h hN]
      · exact fun q hq => hp q ((List.perm_insertionSort _ _).mem_iff.1 hq)
      · intro q hq
        rw [List.mem_singleton.1 hq]
        exact hs
    show (if _ then _ else _) = if _ then _ else _
    rw [e1, e3]

/-- C285 for `numpy.float32` and `numpy.float64`. -/
theorem C285_formats_partial [FloorRing K] (sorted : List (K × K)) :
    ((∀ p ∈ sorted, IsGrid 1448 p) → computeHullR f32 sorted = computeHull sorted) ∧
    ((∀ p ∈ sorted, IsGrid 33554431 p) → computeHullR f64 sorted = computeHull sorted) :=
  ⟨fun h => C285_same_partial (f_exact (N := 2 ^ 24 - 1) (by norm_num) (by norm_num) (by norm_num) (by norm_num)) (by norm_num) sorted h,
   fun h => C285_same_partial (f_exact (N := 2 ^ 53 - 1) (by norm_num) (by norm_num) (by norm_num) (by norm_num)) (by norm_num) sorted h⟩

/-- C285, spelled out: distinct integer points of absolute value at most 1448 in single precision have a closed hull of input points without right turn, and to the
left of whose edges all of them are. -/
theorem C285_hull_partial [FloorRing K] (points sorted hull : List (K × K)) (hs : IsArgsort points sorted) (hg : ∀ p ∈ points, IsGrid 1448 p)
    (hh : computeHullR f32 sorted = .ok hull) :
    (∃ start body, hull = start :: body ++ [start] ∧ (∀ v ∈ start :: body, v ∈ points) ∧ NoRightTurn (start :: body)) ∧
    (points.Nodup → ∀ q ∈ points, LeftOfEdges hull q) := by
  rw [(C285_formats_partial sorted).1 fun p hp => hg p (hs.1.mem_iff.1 hp)] at hh
  refine ⟨?_, fun hnd => C03_encloses_partial points sorted hull hs hnd hh⟩
  obtain ⟨start, body, h1, -, h2, -, -, h3⟩ := C02_closed_left_turning_partial points sorted hull hs hh
  exact ⟨start, body, h1, h2, h3⟩

/-- Such points, with a collinear and an interior one. -/
example : IsGrid 1448 ((-1448, 7) : ℚ × ℚ) ∧ IsGrid 1448 ((0, 0) : ℚ × ℚ) ∧
    computeHullR f32 ([(-1448, 7), (0, 0), (1, 1), (2, 0), (1448, -7)] : List (ℚ × ℚ)) =
      computeHull ([(-1448, 7), (0, 0), (1, 1), (2, 0), (1448, -7)] : List (ℚ × ℚ)) := by
  refine ⟨⟨-1448, 7, by norm_num, by norm_num, by norm_num⟩, ⟨0, 0, by norm_num, by norm_num, by norm_num⟩, by decide +kernel⟩

/-- C285: whatever the rounding, the hull is computed for the same sets of points, and is a closed chain of input points, starting at the leftmost. -/
theorem C285_closed (fl : K → K) (points sorted : List (K × K)) (hs : IsArgsort points sorted) :
    ((∃ hull, computeHullR fl sorted = .ok hull) ↔ 2 ≤ points.length ∧ UniqueLeftmost points) ∧
    ∀ hull, computeHullR fl sorted = .ok hull → ∃ start body, hull = start :: body ++ [start] ∧
      (∀ q ∈ points, start.1 ≤ q.1) ∧ (start :: body).Subperm points ∧ body ≠ [] := by
  have any_eq : ∀ (start : K × K) (l : List (K × K)), (l.any fun q => slopeR fl start q == ⊤) = l.any fun q => slope start q == ⊤ := by
    intro start l
    congr 1
    funext q
    rw [Bool.eq_iff_iff]
    simp only [beq_iff_eq]
    exact slopeR_top
  have pushSub : ∀ (p : K × K) (l : List (K × K)), (pushR fl p l).Sublist (p :: l) ∧ ∃ t, pushR fl p l = p :: t ∧ (l ≠ [] → t ≠ [] ∧ t.getLast? = l.getLast?) := by
    intro p l
    induction l with
    | nil => exact ⟨List.Sublist.refl _, [], rfl, fun h => absurd rfl h⟩
    | cons b l ih =>
      cases l with
      | nil => exact ⟨List.Sublist.refl _, [b], rfl, fun _ => ⟨by simp, rfl⟩⟩
      | cons a rest =>
        simp only [pushR]
        split_ifs
        · refine ⟨ih.1.trans ((List.sublist_cons_self b _).cons_cons p), ?_⟩
          obtain ⟨t, e, ht⟩ := ih.2
          exact ⟨t, e, fun _ => ⟨(ht (by simp)).1, by rw [(ht (by simp)).2]; simp [List.getLast?_cons]⟩⟩
        · exact ⟨List.Sublist.refl _, b :: a :: rest, rfl, fun _ => ⟨by simp, rfl⟩⟩
  have scanSub : ∀ (pts st : List (K × K)) (start : K × K), st.getLast? = some start →
      (pts.foldl (fun stack p => pushR fl p stack) st).Sublist (pts.reverse ++ st) ∧
      (pts.foldl (fun stack p => pushR fl p stack) st).getLast? = some start ∧
      (pts ≠ [] → ∃ x y t, pts.foldl (fun stack p => pushR fl p stack) st = x :: y :: t) := by
    intro pts
    induction pts with
    | nil => exact fun st start h => ⟨by simp, h, fun h => absurd rfl h⟩
    | cons p pts ih =>
      intro st start h
      have hne : st ≠ [] := by rintro rfl; simp at h
      obtain ⟨hsub, t, e, ht⟩ := pushSub p st
      obtain ⟨ht0, htl⟩ := ht hne
      have hl : (pushR fl p st).getLast? = some start := by
        rw [e, List.getLast?_cons, htl, h]; rfl
      obtain ⟨i1, i2, i3⟩ := ih (pushR fl p st) start hl
      simp only [List.foldl_cons]
      refine ⟨i1.trans ?_, i2, fun _ => ?_⟩
      · simp only [List.reverse_cons, List.append_assoc, List.singleton_append]
        exact List.Sublist.append_left hsub _
      · rcases pts with _ | ⟨q, pts⟩
        · obtain ⟨y, t', rfl⟩ := List.exists_cons_of_ne_nil ht0
          exact ⟨p, y, t', e⟩
        · exact i3 (by simp)
  constructor
  · rw [← C02_returns_iff points sorted hs]
    match sorted with
    | [] => exact Iff.rfl
    | [_] => exact Iff.rfl
    | start :: p :: pts =>
      simp only [computeHullR, computeHull, any_eq]
      by_cases hc : ((p :: pts).any fun q => slope start q == ⊤) = true
      · rw [if_pos hc, if_pos hc]
      · rw [if_neg hc, if_neg hc]
        exact ⟨fun _ => ⟨_, rfl⟩, fun _ => ⟨_, rfl⟩⟩
  · intro hull hh
    match sorted, hs, hh with
    | [], _, hh => cases hh
    | [_], _, hh => cases hh
    | start :: p :: pts, hs, hh =>
      simp only [computeHullR] at hh
      by_cases hc : ((p :: pts).any fun q => slopeR fl start q == ⊤) = true
      · rw [if_pos hc] at hh; cases hh
      · rw [if_neg hc] at hh
        have hperm : (sortBySlopeR fl start (p :: pts)).Perm (p :: pts) := List.perm_insertionSort _ _
        have hne : sortBySlopeR fl start (p :: pts) ≠ [] := fun e => by rw [e] at hperm; simpa using hperm.length_eq
        obtain ⟨s1, s2, s3⟩ := scanSub (sortBySlopeR fl start (p :: pts)) [start] start rfl
        obtain ⟨x, y, t, e⟩ := s3 hne
        obtain ⟨init, hinit⟩ : ∃ init, (sortBySlopeR fl start (p :: pts)).foldl (fun stack p => pushR fl p stack) [start] = init ++ [start] := by
          rw [List.getLast?_eq_some_iff] at s2
          exact s2
        have hi : init ≠ [] := by
          rintro rfl
          rw [e] at hinit
          simp at hinit
        have hull_eq : hull = start :: init.reverse ++ [start] := by
          simp only [grahamR, hinit, Except.ok.injEq] at hh
          rw [← hh]
          simp
        refine ⟨start, init.reverse, hull_eq, fun q hq => ?_, ?_, by simpa using hi⟩
        · rcases List.mem_cons.1 (hs.1.mem_iff.2 hq) with rfl | hq
          · exact le_rfl
          · exact (List.pairwise_cons.1 hs.2).1 q hq
        · have h1 : (start :: init.reverse) = (init ++ [start]).reverse := by simp
          rw [h1]
          refine (List.reverse_perm _).subperm.trans ?_
          rw [← hinit]
          refine s1.subperm.trans (List.Perm.subperm ?_)
          refine (List.Perm.trans ?_ hs.1)
          refine (List.perm_append_comm (l₁ := (sortBySlopeR fl start (p :: pts)).reverse) (l₂ := [start])).trans ?_
          exact ((List.reverse_perm _).trans hperm).cons start

/-- C285 fails in single precision beyond: the cross product of (0, 0), (4096, 4097), (4097, 4098) is -1 but rounds to 0, and a vertex with a right turn is kept… -/
theorem C285_right_turn :
    computeHullR f32 ([(0, 0), (1, 100), (4096, 4097), (4097, 4098)] : List (ℚ × ℚ)) = .ok [(0, 0), (4096, 4097), (4097, 4098), (1, 100), (0, 0)] ∧
    area (0, 0) (4096, 4097) ((4097, 4098) : ℚ × ℚ) < 0 := by decide +kernel

/-- …and an extreme point may be lost: (4096, 4097) is to the right of the edge from (4097, 4098) to (0, 0). The exact hull has it as a vertex. -/
theorem C285_outside :
    computeHullR f32 ([(0, 0), (1, -100), (4096, 4097), (4097, 4098)] : List (ℚ × ℚ)) = .ok [(0, 0), (1, -100), (4097, 4098), (0, 0)] ∧
    area (4097, 4098) (0, 0) ((4096, 4097) : ℚ × ℚ) < 0 ∧
    computeHull ([(0, 0), (1, -100), (4096, 4097), (4097, 4098)] : List (ℚ × ℚ)) = .ok [(0, 0), (1, -100), (4097, 4098), (4096, 4097), (0, 0)] := by decide +kernel

end CML.Hull
