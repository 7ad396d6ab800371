import Verif.Spec.IO
import Mathlib.Data.List.Induction
import Mathlib.Data.List.TakeWhile
import Mathlib.Tactic.Ring

/-! # Lemmas about versions and the regular expression -/

namespace CML.IO

theorem stripZeros_getD (l : List Nat) (i : Nat) : (stripZeros l).getD i 0 = l.getD i 0 := by
  induction l using List.reverseRecOn with
  | nil => rfl
  | append_singleton l a ih =>
    by_cases ha : a = 0
    · subst ha
      have h : stripZeros (l ++ [0]) = stripZeros l := by simp [stripZeros]
      rw [h, ih]
      by_cases hi : i < l.length
      · simp [List.getD_eq_getElem?_getD, List.getElem?_append_left hi]
      · rw [List.getD_eq_getElem?_getD, List.getElem?_eq_none (by omega)]
        rw [List.getD_eq_getElem?_getD, List.getElem?_append_right (by omega)]
        rcases Nat.eq_zero_or_pos (i - l.length) with h | h
        · simp [h]
        · rw [List.getElem?_eq_none (by simp; omega)]
    · have h : stripZeros (l ++ [a]) = l ++ [a] := by simp [stripZeros, ha]
      rw [h]

/-- No trailing zero. -/
def Norm (l : List Nat) : Prop := ∀ a, l.getLast? = some a → a ≠ 0

theorem norm_stripZeros (l : List Nat) : Norm (stripZeros l) := by
  intro a h
  have h' : (l.reverse.dropWhile (· == 0)).head? = some a := by
    rw [← h, stripZeros, List.getLast?_reverse]
  have := List.head?_dropWhile_not (· == 0) l.reverse
  rw [h'] at this
  simpa using this

theorem norm_cons {b : Nat} {bs : List Nat} (h : Norm (b :: bs)) : Norm bs := by
  intro a ha
  refine h a ?_
  cases bs with
  | nil => simp at ha
  | cons c cs => simpa [List.getLast?_cons] using ha

theorem not_relLt_nil (a : List Nat) : ¬ RelLt a [] := by
  rintro ⟨k, -, h⟩; simp at h

theorem relLt_cons (a b : Nat) (as bs : List Nat) :
    RelLt (a :: as) (b :: bs) ↔ a < b ∨ (a = b ∧ RelLt as bs) := by
  constructor
  · rintro ⟨k, h1, h2⟩
    cases k with
    | zero => left; simpa using h2
    | succ k =>
      right
      refine ⟨by simpa using h1 0 (by omega), k, fun i hi => by simpa using h1 (i + 1) (by omega), by simpa using h2⟩
  · rintro (h | ⟨rfl, k, h1, h2⟩)
    · exact ⟨0, by simp, by simpa using h⟩
    · refine ⟨k + 1, ?_, by simpa using h2⟩
      intro i hi
      cases i with
      | zero => simp
      | succ i => simpa using h1 i (by omega)

theorem relLt_nil_of_norm {b : Nat} {bs : List Nat} (h : Norm (b :: bs)) : RelLt [] (b :: bs) := by
  induction bs generalizing b with
  | nil => exact ⟨0, by simp, by have := h b (by simp); simp; omega⟩
  | cons c cs ih =>
    obtain ⟨k, h1, h2⟩ := ih (norm_cons h)
    by_cases hb : b = 0
    · subst hb
      refine ⟨k + 1, ?_, by simpa using h2⟩
      intro i hi
      cases i with
      | zero => simp
      | succ i => simpa using h1 i (by omega)
    · exact ⟨0, by simp, by simp; omega⟩

theorem tupleLt_iff (a b : List Nat) (h : Norm b) : tupleLt a b = true ↔ RelLt a b := by
  induction b generalizing a with
  | nil => simp [tupleLt, not_relLt_nil]
  | cons b bs ih =>
    cases a with
    | nil => simp [tupleLt, relLt_nil_of_norm h]
    | cons a as =>
      rw [relLt_cons, tupleLt]
      split
      · rename_i hab; rw [ih as (norm_cons h)]; simp [hab]
      · rename_i hab; simp [hab]

theorem tupleLt_irrefl (a : List Nat) : tupleLt a a = false := by
  induction a with
  | nil => rfl
  | cons a as ih => simp [tupleLt, ih]

theorem tupleLt_total (a b : List Nat) (h : a ≠ b) : tupleLt a b = true ∨ tupleLt b a = true := by
  induction a generalizing b with
  | nil => cases b with
    | nil => exact absurd rfl h
    | cons b bs => left; rfl
  | cons a as ih => cases b with
    | nil => right; rfl
    | cons b bs =>
      simp only [tupleLt]
      by_cases hab : a = b
      · subst hab
        simpa using ih bs (by intro e; exact h (by rw [e]))
      · have : a < b ∨ b < a := by omega
        simpa [hab, Ne.symm hab] using this

theorem relLt_congr {a a' b b' : List Nat} (ha : ∀ i, a.getD i 0 = a'.getD i 0)
    (hb : ∀ i, b.getD i 0 = b'.getD i 0) : RelLt a b ↔ RelLt a' b' := by
  unfold RelLt; simp only [ha, hb]

theorem strip_lt_iff (a b : List Nat) : tupleLt (stripZeros a) (stripZeros b) = true ↔ RelLt a b := by
  rw [tupleLt_iff _ _ (norm_stripZeros b)]
  exact relLt_congr (stripZeros_getD a) (stripZeros_getD b)

theorem relEq_not_lt {a b : List Nat} (h : RelEq a b) : ¬ RelLt a b := by
  rintro ⟨k, -, h2⟩; have := h k; omega

theorem strip_eq_iff (a b : List Nat) : stripZeros a = stripZeros b ↔ RelEq a b := by
  constructor
  · intro h i; rw [← stripZeros_getD a, ← stripZeros_getD b, h]
  · intro h
    by_contra hne
    rcases tupleLt_total _ _ hne with h' | h'
    · exact relEq_not_lt h ((strip_lt_iff _ _).1 h')
    · exact relEq_not_lt (fun i => (h i).symm) ((strip_lt_iff _ _).1 h')

theorem relLt_asymm {a b : List Nat} (h : RelLt a b) : ¬ RelLt b a := by
  rintro ⟨k, h1, h2⟩
  obtain ⟨l, h3, h4⟩ := h
  rcases lt_trichotomy k l with hk | hk | hk
  · have := h3 k hk; omega
  · subst hk; omega
  · have := h1 l hk; omega

theorem relLt_trichotomy (a b : List Nat) : RelLt a b ∨ RelEq a b ∨ RelLt b a := by
  by_cases h : stripZeros a = stripZeros b
  · right; left; exact (strip_eq_iff a b).1 h
  · rcases tupleLt_total _ _ h with h | h
    · left; exact (strip_lt_iff _ _).1 h
    · right; right; exact (strip_lt_iff _ _).1 h

theorem tail_lt (v : Version) (r : List Nat) :
    tupleLt v.tailKey (Version.final r).tailKey = true ↔ v.isPre := by
  obtain ⟨e, rel, pre, post, dev⟩ := v
  rcases pre with _ | ⟨p, n⟩
  · rcases post with _ | q <;> rcases dev with _ | d <;>
      simp [Version.tailKey, Version.final, Version.isPre, tupleLt]
  · have hp : (p : Nat) < 3 := p.2
    rcases post with _ | q <;> rcases dev with _ | d <;>
      simp [Version.tailKey, Version.final, Version.isPre, tupleLt, show (p : Nat) ≠ 3 by omega] <;> omega

theorem lt_final_iff (v : Version) (r : List Nat) : v.lt (.final r) = true ↔ ¬ AtLeast v r := by
  unfold Version.lt AtLeast
  have h0 : (Version.final r).epoch = 0 := rfl
  have h1 : (Version.final r).release = r := rfl
  rw [h0, h1]
  by_cases he : v.epoch = 0
  · rw [if_pos he]
    have hs := strip_eq_iff v.release r
    by_cases hr : stripZeros v.release = stripZeros r
    · rw [if_pos hr, tail_lt]
      have heq := hs.1 hr
      have heq' : RelEq r v.release := fun i => (heq i).symm
      have := relEq_not_lt heq'
      simp [he, heq', this]
    · rw [if_neg hr, strip_lt_iff]
      have hne : ¬ RelEq v.release r := fun h => hr (hs.2 h)
      have hne' : ¬ RelEq r v.release := fun h => hne (fun i => (h i).symm)
      rcases relLt_trichotomy v.release r with h | h | h
      · simp [he, hne', h, relLt_asymm h]
      · exact absurd h hne
      · simp [he, h, relLt_asymm h]
  · rw [if_neg he]
    simp; omega

theorem lt_final_final (a b : List Nat) : (Version.final a).lt (.final b) = true ↔ RelLt a b := by
  rw [lt_final_iff]
  have : ¬ (Version.final a).isPre := by simp [Version.isPre, Version.final]
  simp only [AtLeast, this, not_false_eq_true, and_true]
  rw [show (Version.final a).release = a from rfl, show (Version.final a).epoch = 0 from rfl]
  rcases relLt_trichotomy a b with h | h | h
  · have h2 : ¬ RelEq b a := fun e => relEq_not_lt (fun i => (e i).symm) h
    simp [h, h2, relLt_asymm h]
  · have h' : RelEq b a := fun i => (h i).symm
    simp [h', relEq_not_lt h]
  · simp [h, relLt_asymm h]

/-! ## Regular expression -/

/-- A block of digits. -/
def Block (p : List Char) : Prop := p ≠ [] ∧ ∀ c ∈ p, isDigit c = true

theorem isDigit_iff (c : Char) : isDigit c = true ↔ c ∈ digitChars := by
  unfold isDigit digitChars
  simp only [Bool.and_eq_true, decide_eq_true_eq, List.mem_cons, List.not_mem_nil, or_false, Char.le_def, UInt32.le_iff_toNat_le, Char.ext_iff,
    ← UInt32.toNat_inj]
  have e0 : ('0' : Char).val.toNat = 48 := rfl
  have e1 : ('1' : Char).val.toNat = 49 := rfl
  have e2 : ('2' : Char).val.toNat = 50 := rfl
  have e3 : ('3' : Char).val.toNat = 51 := rfl
  have e4 : ('4' : Char).val.toNat = 52 := rfl
  have e5 : ('5' : Char).val.toNat = 53 := rfl
  have e6 : ('6' : Char).val.toNat = 54 := rfl
  have e7 : ('7' : Char).val.toNat = 55 := rfl
  have e8 : ('8' : Char).val.toNat = 56 := rfl
  have e9 : ('9' : Char).val.toNat = 57 := rfl
  omega

theorem natOf_eq {p : List Char} (h : ∀ c ∈ p, c ∈ digitChars) : natOf p = decimal p := by
  have hd : ∀ c ∈ digitChars, c.toNat - 48 = digitChars.idxOf c := by decide
  have key : ∀ (q : List Char) (n : Nat), (∀ c ∈ q, c ∈ digitChars) →
      q.foldl (fun n c => 10 * n + (c.toNat - 48)) n = n * 10 ^ q.length + decimal q := by
    intro q
    induction q with
    | nil => intro n _; simp [decimal]
    | cons c q ih =>
      intro n hq
      rw [List.foldl_cons, ih _ fun d hd => hq d (List.mem_cons_of_mem _ hd), hd c (hq c List.mem_cons_self), decimal, List.length_cons, pow_succ]
      ring
  have := key p 0 h
  simp only [zero_mul, zero_add] at this
  exact this

theorem isDotted_iff {ps : List (List Char)} : IsDotted ps ↔ 2 ≤ ps.length ∧ ∀ p ∈ ps, Block p := by
  simp only [IsDotted, Block, isDigit_iff]

theorem map_natOf {ps : List (List Char)} (h : IsDotted ps) : ps.map natOf = ps.map decimal :=
  List.map_congr_left fun p hp => natOf_eq (h.2 p hp).2

/-- `.b1.b2…` -/
def tailText (bs : List (List Char)) : List Char := bs.flatMap (fun b => '.' :: b)

theorem dotted_cons (p : List Char) (ps : List (List Char)) : dotted (p :: ps) = p ++ tailText ps := by
  induction ps generalizing p with
  | nil => simp [dotted, tailText]
  | cons q ps ih => rw [dotted, ih]; simp [tailText]

theorem dot_not_digit : isDigit '.' = false := by decide

theorem takeWhile_digits (q r : List Char) (hq : ∀ c ∈ q, isDigit c = true) :
    (q ++ r).takeWhile isDigit = q ++ r.takeWhile isDigit ∧
    (q ++ r).dropWhile isDigit = r.dropWhile isDigit := by
  induction q with
  | nil => simp
  | cons c q ih =>
    have hc := hq c (by simp)
    obtain ⟨h1, h2⟩ := ih (fun d hd => hq d (by simp [hd]))
    simp [hc, h1, h2]

theorem tailText_start (bs : List (List Char)) (hbs : bs ≠ []) (r : List Char) :
    (tailText bs ++ r).takeWhile isDigit = [] ∧ (tailText bs ++ r).dropWhile isDigit = tailText bs ++ r := by
  cases bs with
  | nil => exact absurd rfl hbs
  | cons b bs => simp [tailText, dot_not_digit]

theorem mem_takeWhile_digit (s : List Char) : ∀ c ∈ s.takeWhile isDigit, isDigit c = true := by
  intro c hc; exact List.mem_takeWhile_imp hc

theorem blocks_spec (s : List Char) : (∀ b ∈ blocks s, Block b) ∧
    (∃ post, s = tailText (blocks s) ++ post) ∧
    (∀ qs post, (∀ q ∈ qs, Block q) → s = tailText qs ++ post →
      (tailText qs).length ≤ (tailText (blocks s)).length) := by
  induction s using blocks.induct with
  | case1 c cs hc ih =>
    obtain ⟨ih1, ⟨post, ih2⟩, ih3⟩ := ih
    have hb : blocks ('.' :: c :: cs) = (c :: cs.takeWhile isDigit) :: blocks (cs.dropWhile isDigit) := by
      rw [blocks, if_pos hc]
    rw [hb]
    refine ⟨?_, ⟨post, ?_⟩, ?_⟩
    · intro b hb
      rcases List.mem_cons.1 hb with rfl | hb
      · refine ⟨by simp, ?_⟩
        intro d hd
        rcases List.mem_cons.1 hd with rfl | hd
        · exact hc
        · exact mem_takeWhile_digit _ _ hd
      · exact ih1 b hb
    · have : cs = cs.takeWhile isDigit ++ cs.dropWhile isDigit := List.takeWhile_append_dropWhile.symm
      conv_lhs => rw [this, ih2]
      simp [tailText]
    · intro qs post' hq hs
      cases qs with
      | nil => simp [tailText]
      | cons q qs =>
        obtain ⟨hq1, hq2⟩ := hq q (by simp)
        cases q with
        | nil => exact absurd rfl hq1
        | cons d q' =>
          have hs' : c :: cs = d :: (q' ++ (tailText qs ++ post')) := by
            simpa [tailText] using hs
          injection hs' with h1 h2
          subst h1
          have hd := takeWhile_digits q' (tailText qs ++ post') (fun x hx => hq2 x (by simp [hx]))
          rw [← h2] at hd
          by_cases hne : qs = []
          · subst hne
            rw [hd.1]
            simp [tailText]
          · have ht := tailText_start qs hne post'
            rw [ht.1, ht.2] at hd
            have := ih3 qs post' (fun x hx => hq x (by simp [hx])) hd.2
            simp [tailText] at this ⊢
            rw [hd.1]; simp; omega
  | case2 c cs hc =>
    have hb : blocks ('.' :: c :: cs) = [] := by rw [blocks, if_neg hc]
    rw [hb]
    refine ⟨by simp, ⟨_, by simp [tailText]; rfl⟩, ?_⟩
    intro qs post' hq hs
    cases qs with
    | nil => simp
    | cons q qs =>
      obtain ⟨hq1, hq2⟩ := hq q (by simp)
      cases q with
      | nil => exact absurd rfl hq1
      | cons d q' =>
        have hs' : c :: cs = d :: (q' ++ (tailText qs ++ post')) := by simpa [tailText] using hs
        injection hs' with h1 h2
        subst h1
        exact absurd (hq2 c (by simp)) hc
  | case3 t ht =>
    have hb : blocks t = [] := by
      rw [blocks]
      intro c cs e; exact ht c cs e
    rw [hb]
    refine ⟨by simp, ⟨t, by simp [tailText]⟩, ?_⟩
    intro qs post' hq hs
    cases qs with
    | nil => simp
    | cons q qs =>
      obtain ⟨hq1, hq2⟩ := hq q (by simp)
      cases q with
      | nil => exact absurd rfl hq1
      | cons d q' =>
        exact absurd (by simpa [tailText] using hs) (ht d (q' ++ (tailText qs ++ post')))

/-- `matchAt` succeeds with the longest dotted number at the start. -/
theorem matchAt_some {s : List Char} {ps : List (List Char)} (h : matchAt s = some ps) :
    IsDotted ps ∧ (∃ post, s = dotted ps ++ post) ∧
    ∀ qs post, IsDotted qs → s = dotted qs ++ post → (dotted qs).length ≤ (dotted ps).length := by
  unfold matchAt at h
  split at h
  · simp at h
  · rename_i hne
    obtain ⟨h1, ⟨post, h2⟩, h3⟩ := blocks_spec (s.dropWhile isDigit)
    split at h
    · simp at h
    · rename_i b bs hb
      rw [hb] at h1 h2 h3
      injection h with h
      subst h
      refine ⟨isDotted_iff.2 ⟨by simp, ?_⟩, ⟨post, ?_⟩, ?_⟩
      · intro p hp
        rcases List.mem_cons.1 hp with rfl | hp
        · exact ⟨hne, mem_takeWhile_digit _⟩
        · exact h1 p hp
      · rw [dotted_cons, List.append_assoc, ← h2, List.takeWhile_append_dropWhile]
      · intro qs post' hq hs
        obtain ⟨hl, hq⟩ := isDotted_iff.1 hq
        cases qs with
        | nil => simp at hl
        | cons q qs =>
          have hqs : qs ≠ [] := by rintro rfl; simp at hl
          rw [dotted_cons] at hs ⊢
          rw [dotted_cons]
          have hd := takeWhile_digits q (tailText qs ++ post') (hq q (by simp)).2
          have ht := tailText_start qs hqs post'
          rw [ht.1, ht.2, ← List.append_assoc, ← hs] at hd
          have := h3 qs post' (fun x hx => hq x (by simp [hx])) hd.2
          rw [hd.1]
          simp; omega

theorem matchAt_none {s : List Char} (h : matchAt s = none) :
    ∀ qs post, IsDotted qs → s ≠ dotted qs ++ post := by
  intro qs post hq hs
  obtain ⟨hl, hq⟩ := isDotted_iff.1 hq
  cases qs with
  | nil => simp at hl
  | cons q qs =>
    have hqs : qs ≠ [] := by rintro rfl; simp at hl
    rw [dotted_cons] at hs
    have hd := takeWhile_digits q (tailText qs ++ post) (hq q (by simp)).2
    have ht := tailText_start qs hqs post
    rw [ht.1, ht.2, ← List.append_assoc, ← hs] at hd
    unfold matchAt at h
    rw [if_neg (by rw [hd.1]; simpa using (hq q (by simp)).1)] at h
    obtain ⟨h1, ⟨post', h2⟩, h3⟩ := blocks_spec (s.dropWhile isDigit)
    have := h3 qs post (fun x hx => hq x (by simp [hx])) hd.2
    split at h
    · rename_i hb
      rw [hb] at this
      cases qs with
      | nil => exact hqs rfl
      | cons b bs => simp [tailText] at this
    · simp at h

theorem firstMatch_some {s : List Char} {ps : List (List Char)} (h : firstMatch s = some ps) :
    IsFirstDotted s ps := by
  induction s with
  | nil => simp [firstMatch] at h
  | cons c cs ih =>
    unfold firstMatch at h
    split at h
    · rename_i m hm
      injection h with h; subst h
      obtain ⟨h1, ⟨post, h2⟩, h3⟩ := matchAt_some hm
      exact ⟨h1, [], post, by simpa using h2, by simp, fun qs post' hq hs => h3 qs post' hq (by simpa using hs)⟩
    · rename_i hm
      obtain ⟨h1, pre, post, h2, h3, h4⟩ := ih h
      refine ⟨h1, c :: pre, post, by simp [h2], ?_, ?_⟩
      · intro qs pre' post' hq hs
        cases pre' with
        | nil => exact absurd (by simpa using hs) (matchAt_none hm qs post' hq)
        | cons d pre' =>
          have : cs = pre' ++ dotted qs ++ post' := by simp at hs; simp [hs.2]
          have := h3 qs pre' post' hq this
          simpa using this
      · intro qs post' hq hs
        exact h4 qs post' hq (by simpa using hs)

theorem firstMatch_none {s : List Char} (h : firstMatch s = none) :
    ∀ qs pre post, IsDotted qs → s ≠ pre ++ dotted qs ++ post := by
  induction s with
  | nil =>
    intro qs pre post hq hs
    obtain ⟨hl, hq⟩ := hq
    cases qs with
    | nil => simp at hl
    | cons q qs =>
      have := (hq q (by simp)).1
      rw [dotted_cons] at hs
      simp at hs; exact this hs.2.1
  | cons c cs ih =>
    unfold firstMatch at h
    split at h
    · simp at h
    · rename_i hm
      intro qs pre post hq hs
      cases pre with
      | nil => exact matchAt_none hm qs post hq (by simpa using hs)
      | cons d pre => exact ih h qs pre post hq (by simp at hs; simp [hs.2])

/-- A list of blocks is determined by its text. -/
theorem tailText_inj (ps qs : List (List Char)) (hp : ∀ p ∈ ps, Block p) (hq : ∀ q ∈ qs, Block q)
    (h : tailText ps = tailText qs) : ps = qs := by
  induction ps generalizing qs with
  | nil => cases qs with
    | nil => rfl
    | cons q qs => simp [tailText] at h
  | cons p ps ih => cases qs with
    | nil => simp [tailText] at h
    | cons q qs =>
      have h' : p ++ tailText ps = q ++ tailText qs := by simpa [tailText] using h
      have hp' := takeWhile_digits p (tailText ps) (hp p (by simp)).2
      have hq' := takeWhile_digits q (tailText qs) (hq q (by simp)).2
      have e : ∀ l : List (List Char), (tailText l).takeWhile isDigit = [] := by
        intro l
        cases l with
        | nil => rfl
        | cons b l => simp [tailText, dot_not_digit]
      rw [e, List.append_nil] at hp' hq'
      have hpq : p = q := by rw [← hp'.1, ← hq'.1, h']
      subst hpq
      rw [ih qs (fun x hx => hp x (by simp [hx])) (fun x hx => hq x (by simp [hx]))
        (List.append_cancel_left h')]

theorem dotted_inj {ps qs : List (List Char)} (hp : IsDotted ps) (hq : IsDotted qs)
    (h : dotted ps = dotted qs) : ps = qs := by
  obtain ⟨hl, hp⟩ := isDotted_iff.1 hp
  obtain ⟨hl', hq⟩ := isDotted_iff.1 hq
  cases ps with
  | nil => simp at hl
  | cons p ps => cases qs with
    | nil => simp at hl'
    | cons q qs =>
      refine tailText_inj _ _ hp hq ?_
      rw [dotted_cons, dotted_cons] at h
      simp [tailText] at h ⊢
      exact h

theorem firstMatch_iff (s : List Char) (ps : List (List Char)) :
    firstMatch s = some ps ↔ IsFirstDotted s ps := by
  constructor
  · exact firstMatch_some
  · rintro ⟨h1, pre, post, h2, h3, h4⟩
    cases hm : firstMatch s with
    | none => exact absurd h2 (firstMatch_none hm ps pre post h1)
    | some qs =>
      obtain ⟨g1, pre', post', g2, g3, g4⟩ := firstMatch_some hm
      have hle := h3 qs pre' post' g1 g2
      have hge := g3 ps pre post h1 h2
      have hpre : pre = pre' := by
        have e : pre ++ (dotted ps ++ post) = pre' ++ (dotted qs ++ post') := by
          rw [← List.append_assoc, ← List.append_assoc, ← h2, ← g2]
        exact (List.append_inj e (by omega)).1
      subst hpre
      have l1 := h4 qs post' g1 g2
      have l2 := g4 ps post h1 h2
      have e : dotted ps ++ post = dotted qs ++ post' := by
        apply List.append_cancel_left (as := pre)
        rw [← List.append_assoc, ← List.append_assoc, ← h2, ← g2]
      have := (List.append_inj e (by omega)).1
      rw [dotted_inj h1 g1 this]

end CML.IO
