import Verif.Model.CriteriaRounded
import Verif.Spec.CriteriaRounded
import Verif.Lemmas.Criteria
import Verif.Props.Rounded
import Verif.Props.BoostRounded
import Mathlib.Algebra.Order.Ring.Pow

set_option linter.unusedSectionVars false

/-! # Lemmas about the criteria in floating point -/

namespace CML.DTree
open CML.Float

universe u w
variable {V : Type u} {m : Nat} [DecidableEq V]
variable {K : Type w} [Field K] [LinearOrder K] [IsStrictOrderedRing K] {fl : K → K}

/-! ## Candidate dividing points -/

theorem mem_midpointsR (fc : K → K) : ∀ (l : List K), l.Pairwise (· < ·) → ∀ t, t ∈ midpointsR fc l ↔
    ∃ a ∈ l, ∃ b ∈ l, a < b ∧ (∀ c ∈ l, c ≤ a ∨ b ≤ c) ∧ t = fc (fc (a + b) / 2)
  | [], _, t => by simp [midpointsR]
  | [a], _, t => by
    simp only [midpointsR, List.not_mem_nil, false_iff]
    rintro ⟨x, hx, y, hy, hlt, -⟩
    simp at hx hy; subst hx; subst hy; exact lt_irrefl _ hlt
  | a :: b :: l, h, t => by
    have hs := (List.pairwise_cons.1 h)
    have hs2 := (List.pairwise_cons.1 hs.2)
    have ih := mem_midpointsR fc (b :: l) hs.2 t
    rw [midpointsR, List.mem_cons, ih]
    constructor
    · rintro (rfl | ⟨x, hx, y, hy, hlt, hn, rfl⟩)
      · refine ⟨a, by simp, b, by simp, hs.1 b (by simp), ?_, rfl⟩
        intro c hc
        rcases List.mem_cons.1 hc with rfl | hc
        · exact .inl (le_refl _)
        · rcases List.mem_cons.1 hc with rfl | hc
          · exact .inr (le_refl _)
          · exact .inr (hs2.1 c hc).le
      · refine ⟨x, List.mem_cons_of_mem _ hx, y, List.mem_cons_of_mem _ hy, hlt, ?_, rfl⟩
        intro c hc
        rcases List.mem_cons.1 hc with rfl | hc
        · exact .inl (hs.1 x hx).le
        · exact hn c hc
    · rintro ⟨x, hx, y, hy, hlt, hn, rfl⟩
      have hya : y ≠ a := by
        rintro rfl
        rcases List.mem_cons.1 hx with rfl | hx
        · exact lt_irrefl _ hlt
        · exact lt_asymm hlt (hs.1 x hx)
      have hy' := (List.mem_cons.1 hy).resolve_left hya
      rcases List.mem_cons.1 hx with rfl | hx
      · have hyb : y = b := by
          rcases hn b (by simp) with h' | h'
          · exact absurd (hs.1 b (by simp)) (not_lt.2 h')
          · rcases List.mem_cons.1 hy' with h'' | h''
            · exact h''
            · exact absurd (hs2.1 y h'') (not_lt.2 h')
        subst hyb
        exact .inl rfl
      · exact .inr ⟨x, hx, y, hy', hlt, fun c hc => hn c (List.mem_cons_of_mem _ hc), rfl⟩

theorem mem_candidatesR (fc : K → K) (col : List K) (t : K) :
    t ∈ midpointsR fc ((pyUnique col).insertionSort (· ≤ ·)) ↔
    ∃ a ∈ col, ∃ b ∈ col, a < b ∧ (∀ c ∈ col, c ≤ a ∨ b ≤ c) ∧ t = fc (fc (a + b) / 2) := by
  rw [mem_midpointsR fc _ (sorted_unique col)]
  have : ∀ a, a ∈ (pyUnique col).insertionSort (· ≤ ·) ↔ a ∈ col := fun a => by
    rw [(List.perm_insertionSort (· ≤ ·) (pyUnique col)).mem_iff, mem_pyUnique]
  simp only [this]

/-! ## One group -/

theorem shareR_spec (hfl : IsRounding fl) {imp : List Int → K} {N : Nat} {delta top r : K} (hi : IsImpurity imp N delta top)
    (hr0 : 0 ≤ r) (hr : IsNumber fl r) (hrN : r * N ≤ 1) (hd : 0 ≤ delta) (hv : IsNumber fl (r * delta)) {y g : List Int}
    (hy : y.length ≤ N) (hg : g.length ≤ y.length) :
    IsNumber fl (shareR fl imp y g) ∧ (Pure g → shareR fl imp y g = 0) ∧ (¬ Pure g → r * delta ≤ shareR fl imp y g) := by
  refine ⟨hfl.idem _, fun hp => ?_, fun hp => ?_⟩
  · unfold shareR
    by_cases he : g = []
    · subst he; simp [hfl.zero]
    · rw [hi.pure g he hp, mul_zero, hfl.zero]
  · obtain ⟨h1, -⟩ := hi.impure g hp (hg.trans hy)
    have hgpos : 0 < g.length := by
      rcases Nat.eq_zero_or_pos g.length with h | h
      · rw [List.length_eq_zero_iff] at h
        subst h
        exact absurd (fun a ha => by cases ha) hp
      · exact h
    have hypos : (0 : K) < y.length := by exact_mod_cast hgpos.trans_le hg
    have hq : r ≤ (g.length : K) / (y.length : K) := by
      rw [le_div_iff₀ hypos]
      have a1 : r * (y.length : K) ≤ r * N := mul_le_mul_of_nonneg_left (by exact_mod_cast hy) hr0
      have a2 : (1 : K) ≤ g.length := by exact_mod_cast hgpos
      linarith
    have h2 := hfl.mono _ _ hq
    have e : fl r = r := hr
    rw [e] at h2
    have h3 := hfl.mono _ _ (mul_le_mul h2 h1 hd (hr0.trans h2))
    have e2 : fl (r * delta) = r * delta := hv
    rwa [e2] at h3

theorem share_nonneg (hfl : IsRounding fl) {imp : List Int → K} {N : Nat} {delta top r : K} (hi : IsImpurity imp N delta top)
    (hr0 : 0 ≤ r) (hr : IsNumber fl r) (hrN : r * N ≤ 1) (hd : 0 ≤ delta) (hv : IsNumber fl (r * delta)) {y g : List Int}
    (hy : y.length ≤ N) (hg : g.length ≤ y.length) : 0 ≤ shareR fl imp y g := by
  obtain ⟨-, h1, h2⟩ := shareR_spec hfl hi hr0 hr hrN hd hv hy hg
  by_cases h : Pure g
  · exact (h1 h).ge
  · exact (mul_nonneg hr0 hd).trans (h2 h)

theorem le_add_round (hfl : IsRounding fl) {a b : K} (ha : IsNumber fl a) (hb : 0 ≤ b) : a ≤ fl (a + b) := by
  have := hfl.mono a (a + b) (by linarith)
  have e : fl a = a := ha
  rwa [e] at this

theorem labels_length {U : Type*} (p : U → Bool) (D : List U) (y : List Int) : (labelsWhere p D y).length ≤ y.length := by
  unfold labelsWhere
  rw [List.length_map]
  exact (List.length_filter_le _ _).trans (by rw [List.length_zip]; exact Nat.min_le_right _ _)

theorem labelsWhere_map {U : Type*} (f : V → U) (p : U → Bool) (D : List V) (y : List Int) :
    labelsWhere p (D.map f) y = labelsWhere (fun v => p (f v)) D y := by
  unfold labelsWhere
  induction D generalizing y with
  | nil => simp
  | cons a D ih =>
    cases y with
    | nil => simp
    | cons c y =>
      simp only [List.map_cons, List.zip_cons_cons, List.filter_cons]
      split_ifs <;> simp [ih y]

theorem contValueR_spec (hfl : IsRounding fl) {imp : List Int → K} {N : Nat} {delta top r : K} (hi : IsImpurity imp N delta top)
    (hr0 : 0 ≤ r) (hr : IsNumber fl r) (hrN : r * N ≤ 1) (hd : 0 ≤ delta) (hv : IsNumber fl (r * delta)) {y : List Int}
    (hy : y.length ≤ N) (num : V → K) (D : List V) (t : K) :
    (Perfect num D y (some t) → contValueR fl imp (D.map num) y t = 0) ∧
    (¬ Perfect num D y (some t) → r * delta ≤ contValueR fl imp (D.map num) y t) := by
  have e : contValueR fl imp (D.map num) y t = fl (shareR fl imp y (labelsWhere (fun v => decide (t ≤ num v)) D y) +
      shareR fl imp y (labelsWhere (fun v => decide (num v < t)) D y)) := by
    rw [← labelsWhere_map num (fun v => decide (t ≤ v)), ← labelsWhere_map num (fun v => decide (v < t))]
    rfl
  obtain ⟨n1, p1, q1⟩ := shareR_spec hfl hi hr0 hr hrN hd hv hy (labels_length (fun v => decide (t ≤ num v)) D y)
  obtain ⟨n2, p2, q2⟩ := shareR_spec hfl hi hr0 hr hrN hd hv hy (labels_length (fun v => decide (num v < t)) D y)
  have s1 := share_nonneg hfl hi hr0 hr hrN hd hv hy (labels_length (fun v => decide (t ≤ num v)) D y)
  have s2 := share_nonneg hfl hi hr0 hr hrN hd hv hy (labels_length (fun v => decide (num v < t)) D y)
  rw [e]
  constructor
  · rintro ⟨h1, h2⟩
    rw [p1 h1, p2 h2, add_zero, hfl.zero]
  · intro h
    by_cases h1 : Pure (labelsWhere (fun v => decide (t ≤ num v)) D y)
    · have h2 : ¬ Pure (labelsWhere (fun v => decide (num v < t)) D y) := fun h2 => h ⟨h1, h2⟩
      have := le_add_round hfl n2 s1
      rw [add_comm] at this
      exact (q2 h2).trans this
    · exact (q1 h1).trans (le_add_round hfl n1 s2)

theorem foldl_ge (hfl : IsRounding fl) : ∀ (l : List K) (s : K), (∀ t ∈ l, 0 ≤ t ∧ IsNumber fl t) → IsNumber fl s →
    s ≤ l.foldl (fun s t => fl (s + t)) s ∧ (0 ≤ s → ∀ t ∈ l, t ≤ l.foldl (fun s t => fl (s + t)) s)
  | [], s, _, _ => ⟨le_rfl, by simp⟩
  | a :: l, s, h, hs => by
    obtain ⟨ha, hna⟩ := h a (by simp)
    obtain ⟨h1, h2⟩ := foldl_ge hfl l (fl (s + a)) (fun t ht => h t (by simp [ht])) (hfl.idem _)
    have hsa := le_add_round hfl hs ha
    rw [List.foldl_cons]
    refine ⟨hsa.trans h1, fun h0 t ht => ?_⟩
    rcases List.mem_cons.1 ht with rfl | ht
    · have := le_add_round hfl hna h0
      rw [add_comm] at this
      exact this.trans h1
    · exact h2 (h0.trans hsa) t ht

theorem foldl_zero (hfl : IsRounding fl) : ∀ l : List K, (∀ t ∈ l, t = 0) → l.foldl (fun s t => fl (s + t)) 0 = 0
  | [], _ => rfl
  | a :: l, h => by
    rw [List.foldl_cons, h a (by simp), add_zero, hfl.zero]
    exact foldl_zero hfl l fun t ht => h t (by simp [ht])

theorem labelsWhere_swap (D : List V) (y : List Int) (v : V) :
    ((D.zip y).filter fun p => v = p.1).map Prod.snd = labelsWhere (fun w => decide (w = v)) D y := by
  unfold labelsWhere
  congr 1
  apply List.filter_congr
  intro p _
  exact decide_eq_decide.2 eq_comm

theorem discValueR_spec (hfl : IsRounding fl) {imp : List Int → K} {N : Nat} {delta top r : K} (hi : IsImpurity imp N delta top)
    (hr0 : 0 ≤ r) (hr : IsNumber fl r) (hrN : r * N ≤ 1) (hd : 0 ≤ delta) (hv : IsNumber fl (r * delta)) {y : List Int}
    (hy : y.length ≤ N) (num : V → K) (D : List V) :
    (Perfect num D y none → discValueR fl imp D y = 0) ∧ (¬ Perfect num D y none → r * delta ≤ discValueR fl imp D y) := by
  have hs : ∀ v, _ := fun v => shareR_spec hfl hi hr0 hr hrN hd hv hy (labels_length (fun w => decide (w = v)) D y)
  have hn : ∀ v, _ := fun v => share_nonneg hfl hi hr0 hr hrN hd hv hy (labels_length (fun w => decide (w = v)) D y)
  have e : discValueR fl imp D y = ((pyUnique D).map fun v => shareR fl imp y (labelsWhere (fun w => decide (w = v)) D y)).foldl (fun s t => fl (s + t)) 0 := by
    unfold discValueR
    congr 2
    funext v
    rw [labelsWhere_swap]
  rw [e]
  constructor
  · intro h
    apply foldl_zero hfl
    intro t ht
    obtain ⟨v, -, rfl⟩ := List.mem_map.1 ht
    exact (hs v).2.1 (h v)
  · intro h
    obtain ⟨v, hv'⟩ := not_forall.1 h
    have hvD : v ∈ pyUnique D := by
      rw [mem_pyUnique]
      by_contra hne
      apply hv'
      have : labelsWhere (fun w => decide (w = v)) D y = [] := by
        unfold labelsWhere
        rw [List.map_eq_nil_iff, List.filter_eq_nil_iff]
        intro p hp hd'
        have h1 := (List.of_mem_zip (a := p.1) (b := p.2) hp).1
        rw [of_decide_eq_true hd'] at h1
        exact hne h1
      rw [this]
      intro a ha
      cases ha
    refine ((hs v).2.2 hv').trans ((foldl_ge hfl _ 0 ?_ hfl.zero).2 le_rfl _ (List.mem_map.2 ⟨v, hvD, rfl⟩))
    intro t ht
    obtain ⟨w, -, rfl⟩ := List.mem_map.1 ht
    exact ⟨hn w, (hs w).1⟩

/-- The criterion of one attribute: 0 with a perfect test if there is one, otherwise at least `r * delta`. -/
theorem getValueR_spec (hfl : IsRounding fl) (fc : K → K) {imp : List Int → K} {N : Nat} {delta top r : K} (hi : IsImpurity imp N delta top)
    (hr0 : 0 < r) (hr : IsNumber fl r) (hrN : r * N ≤ 1) (hd : 0 < delta) (hv : IsNumber fl (r * delta)) {y : List Int}
    (hy : y.length ≤ N) (num : V → K) (continuous : Bool) (D : List V) :
    (∃ s, getValueR fl fc imp num continuous D y = (((0 : K) : WithTop K), s.map some) ∧ Offers fc num continuous D s ∧ Perfect num D y s) ∨
    ((∀ s, Offers fc num continuous D s → ¬ Perfect num D y s) ∧ ((r * delta : K) : WithTop K) ≤ (getValueR fl fc imp num continuous D y).1 ∧
      ((getValueR fl fc imp num continuous D y).1 = ⊤ ∨ ∃ v : K, r * delta ≤ v ∧ ∃ s, Offers fc num continuous D s ∧ getValueR fl fc imp num continuous D y = ((v : WithTop K), s.map some))) := by
  have hpos : 0 < r * delta := mul_pos hr0 hd
  cases continuous with
  | false =>
    obtain ⟨h1, h2⟩ := discValueR_spec hfl hi hr0.le hr hrN hd.le hv hy num D
    by_cases hp : Perfect num D y none
    · left
      refine ⟨none, ?_, rfl, hp⟩
      rw [← h1 hp]
      rfl
    · right
      refine ⟨fun s hs => ?_, ?_, .inr ⟨_, h2 hp, none, rfl, rfl⟩⟩
      · cases s with
        | none => exact hp
        | some t => exact absurd hs.1 (by simp)
      · exact WithTop.coe_le_coe.2 (h2 hp)
  | true =>
    have hval := fun t => contValueR_spec hfl hi hr0.le hr hrN hd.le hv hy num D t
    have e : getValueR fl fc imp num true D y =
        ((contBest (contValueR fl imp (D.map num) y) (midpointsR fc ((pyUnique (D.map num)).insertionSort (· ≤ ·))) (⊤, none)).1,
          some (contBest (contValueR fl imp (D.map num) y) (midpointsR fc ((pyUnique (D.map num)).insertionSort (· ≤ ·))) (⊤, none)).2) := rfl
    have hmem := mem_candidatesR fc (D.map num)
    rw [e]
    rcases contBest_spec (contValueR fl imp (D.map num) y) (midpointsR fc ((pyUnique (D.map num)).insertionSort (· ≤ ·))) (⊤, none) with
      ⟨hb, hn⟩ | ⟨pre, t, post, hl, hb, -, h1, h2⟩
    · right
      rw [hb]
      refine ⟨fun s hs => ?_, le_top, .inl rfl⟩
      cases s with
      | none => cases hs
      | some t =>
        have := hn t ((hmem t).2 hs.2)
        simp at this
    · rw [hb]
      have ht : Offers fc num true D (some t) := ⟨rfl, (hmem t).1 (by rw [hl]; simp)⟩
      have hbest : ∀ s ∈ midpointsR fc ((pyUnique (D.map num)).insertionSort (· ≤ ·)), contValueR fl imp (D.map num) y t ≤ contValueR fl imp (D.map num) y s := by
        intro s hs
        rw [hl, List.mem_append, List.mem_cons] at hs
        rcases hs with hs | rfl | hs
        · exact (h1 s hs).le
        · exact le_rfl
        · exact h2 s hs
      by_cases hp : Perfect num D y (some t)
      · left
        refine ⟨some t, ?_, ht, hp⟩
        rw [(hval t).1 hp]
        rfl
      · right
        refine ⟨fun s hs hps => ?_, WithTop.coe_le_coe.2 ((hval t).2 hp), .inr ⟨_, (hval t).2 hp, some t, ht, rfl⟩⟩
        cases s with
        | none => cases hs
        | some s =>
          have h3 := hbest s ((hmem s).2 hs.2)
          rw [(hval s).1 hps] at h3
          linarith [(hval t).2 hp]

/-! ## Sums of lists -/

theorem total_ge {total : List K → K} (hfl : IsRounding fl) (ht : IsTotal fl total) {l : List K} (hl : ∀ x ∈ l, 0 ≤ x ∧ IsNumber fl x) {x : K} (hx : x ∈ l) :
    x ≤ total l := by
  obtain ⟨o, ho, e⟩ := ht.2 l (fun h => by rw [h] at hx; cases hx)
  obtain ⟨i, rfl⟩ := List.mem_iff_get.1 hx
  rw [e]
  exact entry_le_sum hfl l.get (fun i => (hl _ (List.get_mem l i)).2) (fun i => (hl _ (List.get_mem l i)).1) o i (ho.2 i)

theorem total_number {total : List K → K} (hfl : IsRounding fl) (ht : IsTotal fl total) {l : List K} (hl : ∀ x ∈ l, IsNumber fl x) : IsNumber fl (total l) := by
  by_cases h : l = []
  · subst h; rw [ht.1]; exact hfl.zero
  · obtain ⟨o, ho, e⟩ := ht.2 l h
    rw [e]
    exact sum_number hfl _ (fun i => hl _ (List.get_mem l i)) o

theorem total_single {total : List K → K} (ht : IsTotal fl total) (x : K) : total [x] = x := by
  obtain ⟨o, ho, e⟩ := ht.2 [x] (by simp)
  rw [e]
  cases o with
  | entry i => simp [Order.sum]
  | add a b =>
    exfalso
    have h1 := depth_lt a
    have h2 := depth_lt b
    have h3 := ho.1.length_le_card
    rw [Order.entries, List.length_append] at h3
    simp at h3
    omega

theorem sum_get_eq (l : List K) : ∑ i, l.get i = l.sum := by
  rw [← List.sum_ofFn, List.ofFn_get]

theorem total_le {total : List K → K} {u eta : K} (hfl : IsRounding fl) (he : HasError fl u eta) (hu0 : 0 ≤ u) (hu1 : u ≤ 1) (ht : IsTotal fl total)
    {l : List K} (hl : ∀ x ∈ l, 0 ≤ x ∧ IsNumber fl x) : total l ≤ (1 + u) ^ l.length * l.sum := by
  have hs : 0 ≤ l.sum := List.sum_nonneg fun x hx => (hl x hx).1
  by_cases h : l = []
  · subst h; simp [ht.1]
  · obtain ⟨o, ho, e⟩ := ht.2 l h
    have b := (sum_bounds hfl he hu0 hu1 l.get (fun i => (hl _ (List.get_mem l i)).2) (fun i => (hl _ (List.get_mem l i)).1) o).2
    rw [sum_complete _ o ho, sum_get_eq] at b
    rw [e]
    exact b.trans (mul_le_mul_of_nonneg_right (pow_le_pow_right₀ (by linarith) (depth_le ho)) hs)

theorem pow_le_of {u : K} (hu0 : 0 ≤ u) {k : Nat} (h : 2 * (k * u) ≤ 1) : (1 + u) ^ k ≤ 1 + 2 * (k * u) := by
  induction k with
  | zero => simp
  | succ k ih =>
    have hk : 0 ≤ (k : K) * u := mul_nonneg (Nat.cast_nonneg k) hu0
    push_cast at h ⊢
    have h1 := ih (by linarith)
    rw [pow_succ]
    have h2 : (1 + u) ^ k * (1 + u) ≤ (1 + 2 * (k * u)) * (1 + u) := mul_le_mul_of_nonneg_right h1 (by linarith)
    have h3 : 2 * (k * u) * u ≤ u := by
      have : 2 * (k * u) ≤ 1 := by linarith
      have := mul_le_mul_of_nonneg_right this hu0
      linarith
    have : (1 + 2 * ((k : K) * u)) * (1 + u) = 1 + 2 * (k * u) + u + 2 * (k * u) * u := by ring
    have e : 1 + 2 * (((k : K) + 1) * u) = 1 + 2 * (k * u) + 2 * u := by ring
    linarith

end CML.DTree
