import Verif.Model.Dataset
import Verif.Spec.Dataset
import Verif.Props.Preprocess
import Mathlib.Data.Rat.Floor

set_option linter.unusedSectionVars false

/-! # Properties C66, C67, C101-C107 (data sets) -/

namespace CML.Data
open CML.Prep

/-! ## C66 binary labels -/

theorem replaceWords_eq (kws : List String) (v : String) (hv : v ∉ kws) (labels : List String) :
    replaceWords kws v labels = labels.map fun l => if l ∈ kws then v else l := by
  unfold replaceWords
  induction kws generalizing labels with
  | nil => simp
  | cons k kws ih =>
    simp only [List.mem_cons, not_or] at hv
    rw [List.foldl_cons, ih hv.2, List.map_map]
    apply List.map_congr_left
    intro l _
    simp only [Function.comp, List.mem_cons]
    by_cases h : l = k
    · simp [h, hv.2]
    · simp [h]

/-- What a label string is replaced by before it is parsed. -/
theorem replaced_eq (labels : List String) : replaceWords negativeKeyWords "0" (replaceWords positiveKeyWords "1" labels) =
    labels.map fun l => if l ∈ positiveKeyWords then "1" else if l ∈ negativeKeyWords then "0" else l := by
  rw [replaceWords_eq _ _ (by decide +kernel), replaceWords_eq _ _ (by decide +kernel), List.map_map]
  apply List.map_congr_left
  intro l _
  simp only [Function.comp]
  by_cases h : l ∈ positiveKeyWords
  · simp only [h, if_true]
    rw [if_neg (by decide +kernel)]
  · simp [h]

theorem npUnique_two {α : Type*} [LinearOrder α] {labels : List α} {a b : α} (h : TwoClasses labels a b) : npUnique labels = [a, b] := by
  have hs := sorted_npUnique labels
  have hm : ∀ c, c ∈ npUnique labels ↔ c = a ∨ c = b := fun c => by rw [mem_npUnique, h.2]
  have ha := (hm a).2 (Or.inl rfl)
  have hb := (hm b).2 (Or.inr rfl)
  match hq : npUnique labels with
  | [] => rw [hq] at ha; simp at ha
  | [c] =>
    rw [hq] at ha hb
    simp at ha hb
    exact absurd (ha.trans hb.symm) h.1.ne
  | c :: c' :: rest =>
    rw [hq] at hs hm
    have h1 := (hm c).1 (by simp)
    have h2 := (hm c').1 (by simp)
    simp only [List.pairwise_cons, List.mem_cons] at hs
    have hlt : c < c' := hs.1 c' (Or.inl rfl)
    have hab := h.1
    obtain ⟨rfl, rfl⟩ : c = a ∧ c' = b := by
      rcases h1 with rfl | rfl <;> rcases h2 with rfl | rfl
      · exact absurd hlt (lt_irrefl _)
      · exact ⟨rfl, rfl⟩
      · exact absurd hlt (lt_asymm hab)
      · exact absurd hlt (lt_irrefl _)
    cases rest with
    | nil => rfl
    | cons c'' rest =>
      exfalso
      have h3 := (hm c'').1 (by simp)
      have h4 : c < c'' := hs.1 c'' (by simp)
      have h5 : c' < c'' := hs.2.1 c'' (by simp)
      rcases h3 with rfl | rfl
      · exact lt_irrefl _ h4
      · exact lt_irrefl _ h5

theorem binaryIndices_two {α : Type*} [LinearOrder α] {labels : List α} {a b : α} (h : TwoClasses labels a b) :
    binaryIndices labels = .ok [(a, 0), (b, 1)] := by
  simp [binaryIndices, npUnique_two h]

theorem get_pair {α : Type*} [LinearOrder α] {a b : α} (h : a < b) (l : α) (hl : l = a ∨ l = b) :
    Dict.get [(a, (0 : Int)), (b, 1)] l = some (if l = a then 0 else 1) := by
  rcases hl with rfl | rfl
  · simp [Dict.get]
  · simp [Dict.get, h.ne, h.ne']

theorem mapM_inv {β γ : Type*} {f : β → Except PyErr γ} {l : List β} {ys : List γ} (h : l.mapM f = .ok ys) :
    ys.length = l.length ∧ ∀ (i : Nat) a, l[i]? = some a → ∃ b, f a = .ok b ∧ ys[i]? = some b := by
  induction l generalizing ys with
  | nil =>
    simp only [List.mapM_nil, pure, Except.pure, Except.ok.injEq] at h
    subst h; simp
  | cons a l ih =>
    rw [List.mapM_cons] at h
    cases hs : f a with
    | error e => rw [hs] at h; simp [bind, Except.bind] at h
    | ok n =>
      rw [hs] at h
      cases hq : l.mapM f with
      | error e => rw [hq] at h; simp [bind, Except.bind] at h
      | ok w =>
        rw [hq] at h
        simp only [bind, Except.bind, pure, Except.pure, Except.ok.injEq] at h
        subst h
        obtain ⟨h1, h2⟩ := ih hq
        refine ⟨by simp [h1], ?_⟩
        intro i t hi
        cases i with
        | zero => simp at hi; subst hi; exact ⟨n, hs, by simp⟩
        | succ i => simp at hi; simpa using h2 i t hi

theorem astypeInt_ok {toInt : String → Option Int} {ss : List String} {ys : List Int} (h : astypeInt toInt ss = .ok ys) :
    ys.length = ss.length ∧ ∀ (i : Nat) s, ss[i]? = some s → ∃ n, toInt s = some n ∧ ys[i]? = some n := by
  obtain ⟨h1, h2⟩ := mapM_inv h
  refine ⟨h1, ?_⟩
  intro i s hi
  obtain ⟨n, e1, e2⟩ := h2 i s hi
  refine ⟨n, ?_, e2⟩
  unfold parseLabel at e1
  split at e1
  · rename_i m hm; simp at e1; subst e1; exact hm
  · simp at e1

/-- C66, exact condition for strings: on a two-class column `a < b` that is accepted, the encoded labels agree with `class_indices` iff the
smaller class is read as 0 and the larger one as 1. -/
theorem C66_strings_iff (toInt : String → Option Int) (labels : List String) (a b : String) (hab : TwoClasses labels a b) (y : List Int)
    (d : Dict String Int) (h : binaryStrings toInt labels = .ok (y, d)) :
    Agrees labels y d ↔
      toInt (if a ∈ positiveKeyWords then "1" else if a ∈ negativeKeyWords then "0" else a) = some 0 ∧
      toInt (if b ∈ positiveKeyWords then "1" else if b ∈ negativeKeyWords then "0" else b) = some 1 := by
  unfold binaryStrings at h
  rw [replaced_eq, binaryIndices_two hab] at h
  cases hq : astypeInt toInt (labels.map fun l => if l ∈ positiveKeyWords then "1" else if l ∈ negativeKeyWords then "0" else l) with
  | error e => rw [hq] at h; simp [Except.bind] at h
  | ok w =>
    rw [hq] at h
    simp only [Except.bind, Except.map, Except.ok.injEq, Prod.mk.injEq] at h
    obtain ⟨rfl, rfl⟩ := h
    obtain ⟨h1, h2⟩ := astypeInt_ok hq
    rw [List.length_map] at h1
    obtain ⟨ia, hia⟩ := List.getElem?_of_mem ((hab.2 a).2 (Or.inl rfl))
    obtain ⟨ib, hib⟩ := List.getElem?_of_mem ((hab.2 b).2 (Or.inr rfl))
    constructor
    · rintro ⟨-, hA⟩
      constructor
      · obtain ⟨v, p, q⟩ := hA ia a hia
        rw [get_pair hab.1 a (Or.inl rfl)] at q
        simp at q; subst q
        obtain ⟨n, e1, e2⟩ := h2 ia _ (by rw [List.getElem?_map, hia]; rfl)
        rw [e2] at p; simp at p; subst p; exact e1
      · obtain ⟨v, p, q⟩ := hA ib b hib
        rw [get_pair hab.1 b (Or.inr rfl), if_neg hab.1.ne'] at q
        simp at q; subst q
        obtain ⟨n, e1, e2⟩ := h2 ib _ (by rw [List.getElem?_map, hib]; rfl)
        rw [e2] at p; simp at p; subst p; exact e1
    · rintro ⟨ha, hb⟩
      refine ⟨h1, ?_⟩
      intro i l hi
      have hl := (hab.2 l).1 (List.mem_of_getElem? hi)
      obtain ⟨n, e1, e2⟩ := h2 i _ (by rw [List.getElem?_map, hi]; rfl)
      refine ⟨n, e2, ?_⟩
      rw [get_pair hab.1 l hl]
      rcases hl with rfl | rfl
      · rw [ha] at e1; simp at e1; simp [e1]
      · rw [hb] at e1; simp at e1; simp [e1, hab.1.ne']

/-- Words are accepted. -/
theorem binary_words_ok (toInt : String → Option Int) (h0 : toInt "0" = some 0) (h1 : toInt "1" = some 1) (labels : List String) (a b : String)
    (hab : TwoClasses labels a b) (ha : Positive a ∨ Negative a) (hb : Positive b ∨ Negative b) :
    ∃ y d, binaryStrings toInt labels = .ok (y, d) := by
  unfold binaryStrings
  rw [replaced_eq, binaryIndices_two hab]
  have : astypeInt toInt (labels.map fun l => if l ∈ positiveKeyWords then "1" else if l ∈ negativeKeyWords then "0" else l) =
      .ok ((labels.map fun l => if l ∈ positiveKeyWords then "1" else if l ∈ negativeKeyWords then "0" else l).map
        fun s => (toInt s).getD 0) := by
    apply mapM_ok
    intro s hs
    obtain ⟨l, hl, rfl⟩ := List.mem_map.1 hs
    have hp : l ∈ positiveKeyWords ∨ l ∈ negativeKeyWords := by
      rcases (hab.2 l).1 hl with rfl | rfl
      · exact ha
      · exact hb
    by_cases hq : l ∈ positiveKeyWords
    · simp [hq, h1, parseLabel]
    · simp [hq, hp.resolve_left hq, h0, parseLabel]
  rw [this]
  exact ⟨_, _, rfl⟩

/-- C66 for the documented words, one positive and one negative: encoded labels agree with `class_indices` iff the negative word comes
first in the order of strings (it does not for `Y`/`n`, `Yes`/`no`, `y`/`否`, ...). -/
theorem C66_words_iff (toInt : String → Option Int) (h0 : toInt "0" = some 0) (h1 : toInt "1" = some 1) (labels : List String)
    (pos neg : String) (hp : Positive pos) (hn : Negative neg)
    (h2 : TwoClasses labels (min pos neg) (max pos neg)) :
    ∃ y d, binaryStrings toInt labels = .ok (y, d) ∧ (Agrees labels y d ↔ neg < pos) := by
  have hdis : neg ∉ positiveKeyWords := by
    have : ∀ s ∈ negativeKeyWords, s ∉ positiveKeyWords := by decide +kernel
    exact this neg hn
  have hp' : pos ∈ positiveKeyWords := hp
  have hn' : neg ∈ negativeKeyWords := hn
  obtain ⟨y, d, h⟩ := binary_words_ok toInt h0 h1 labels _ _ h2
    (by rcases le_total pos neg with h | h <;> simp [h, hp, hn]) (by rcases le_total pos neg with h | h <;> simp [h, hp, hn])
  refine ⟨y, d, h, ?_⟩
  rw [C66_strings_iff toInt labels _ _ h2 y d h]
  rcases lt_or_ge neg pos with hlt | hge
  · rw [min_eq_right hlt.le, max_eq_left hlt.le]
    simp [hp', hdis, hn', h0, h1, hlt]
  · rw [min_eq_left hge, max_eq_right hge]
    simp [hp', h1, not_lt.2 hge]

/-- C66 is false for the documented words `Yes` and `no`: the samples labelled `no` are encoded 0, `class_indices` says 1. -/
theorem C66_violated (toInt : String → Option Int) (h0 : toInt "0" = some 0) (h1 : toInt "1" = some 1) :
    binaryStrings toInt ["Yes", "no"] = .ok ([1, 0], [("Yes", 0), ("no", 1)]) := by
  have h2 : TwoClasses ["Yes", "no"] "Yes" "no" := ⟨by decide +kernel, by simp⟩
  unfold binaryStrings
  rw [replaced_eq, binaryIndices_two h2]
  have e : (["Yes", "no"].map fun l => if l ∈ positiveKeyWords then "1" else if l ∈ negativeKeyWords then "0" else l) = ["1", "0"] := by
    decide +kernel
  rw [e]
  simp [astypeInt, parseLabel, h0, h1, Except.bind, Except.map, bind, pure, Except.pure]

/-- C66, the words of one language and spelling: they are encoded consistently. -/
theorem C66_words_partial (toInt : String → Option Int) (h0 : toInt "0" = some 0) (h1 : toInt "1" = some 1) (labels : List String)
    (pos neg : String) (hw : (neg, pos) ∈ [("否", "是"), ("n", "y"), ("no", "yes"), ("No", "Yes"), ("NO", "YES"), ("N", "Y")])
    (h2 : ∀ l, l ∈ labels ↔ l = neg ∨ l = pos) :
    ∃ y d, binaryStrings toInt labels = .ok (y, d) ∧ Agrees labels y d := by
  have hall : ∀ p ∈ [("否", "是"), ("n", "y"), ("no", "yes"), ("No", "Yes"), ("NO", "YES"), ("N", "Y")],
      p.1 < p.2 ∧ p.1 ∈ ["否", "n", "no", "No", "NO", "N"] ∧ p.2 ∈ ["是", "y", "yes", "Yes", "YES", "Y"] := by decide +kernel
  obtain ⟨hlt, hn, hp⟩ := hall _ hw
  obtain ⟨y, d, h, hiff⟩ := C66_words_iff toInt h0 h1 labels pos neg hp hn (by
    rw [min_eq_right hlt.le, max_eq_left hlt.le]; exact ⟨hlt, h2⟩)
  exact ⟨y, d, h, hiff.2 hlt⟩

theorem astypeInt_error {toInt : String → Option Int} {ss : List String} {e : PyErr} (h : astypeInt toInt ss = .error e) : e = .valueError := by
  unfold astypeInt at h
  induction ss with
  | nil => simp [pure, Except.pure] at h
  | cons s ss ih =>
    simp only [List.mapM_cons, bind, Except.bind, pure, Except.pure] at h
    split at h
    · rename_i e' he
      injection h with h
      subst h
      unfold parseLabel at he
      split at he
      · simp at he
      · injection he with he; exact he.symm
    · split at h
      · rename_i e' he
        injection h with h
        subst h
        exact ih he
      · simp at h

/-- C66: two strings that are no answers and no integers are refused with `ValueError` (labels must be one of the documented words). -/
theorem C66_other_words_refused (toInt : String → Option Int) (labels : List String) (s : String) (hs : s ∈ labels) (hp : ¬ Positive s)
    (hn : ¬ Negative s) (hi : toInt s = none) : binaryStrings toInt labels = .error .valueError := by
  unfold binaryStrings
  rw [replaced_eq]
  cases hq : astypeInt toInt (labels.map fun l => if l ∈ positiveKeyWords then "1" else if l ∈ negativeKeyWords then "0" else l) with
  | error e => rw [astypeInt_error hq]; rfl
  | ok w =>
    exfalso
    obtain ⟨i, hi'⟩ := List.getElem?_of_mem hs
    obtain ⟨n, e1, -⟩ := (astypeInt_ok hq).2 i _ (by rw [List.getElem?_map, hi']; rfl)
    have h1 : s ∉ positiveKeyWords := hp
    have h2 : s ∉ negativeKeyWords := hn
    simp [h1, h2, hi] at e1

/-- C66 for integer columns: encoded labels agree with `class_indices` iff the classes already are 0 and 1. -/
theorem C66_ints_iff (labels : List Int) (a b : Int) (hab : TwoClasses labels a b) :
    ∃ d, binaryInts labels = .ok (labels, d) ∧ (Agrees labels labels d ↔ a = 0 ∧ b = 1) := by
  refine ⟨[(a, 0), (b, 1)], by simp [binaryInts, binaryIndices_two hab, Except.map], ?_⟩
  obtain ⟨ia, hia⟩ := List.getElem?_of_mem ((hab.2 a).2 (Or.inl rfl))
  obtain ⟨ib, hib⟩ := List.getElem?_of_mem ((hab.2 b).2 (Or.inr rfl))
  constructor
  · rintro ⟨-, hA⟩
    obtain ⟨v, p, q⟩ := hA ia a hia
    obtain ⟨v', p', q'⟩ := hA ib b hib
    rw [get_pair hab.1 a (Or.inl rfl)] at q
    rw [get_pair hab.1 b (Or.inr rfl), if_neg hab.1.ne'] at q'
    rw [hia] at p; rw [hib] at p'
    simp at p q p' q'
    omega
  · rintro ⟨rfl, rfl⟩
    refine ⟨rfl, ?_⟩
    intro i l hi
    refine ⟨l, hi, ?_⟩
    have hl := (hab.2 l).1 (List.mem_of_getElem? hi)
    rw [get_pair hab.1 l hl]
    rcases hl with rfl | rfl <;> simp

example : TwoClasses ([1, 2, 1] : List Int) 1 2 := ⟨by decide, by intro l; simp; omega⟩
example : TwoClasses ["Yes", "no", "no"] "Yes" "no" := ⟨by decide +kernel, by intro l; simp⟩

/-! ## C67 categorical labels -/

section Relabel
variable {α : Type*} [LinearOrder α]

/-- The relabelling loop acts on every label separately. -/
theorem relabel_map (code : Nat → α) (ps : List (α × Nat)) (labels : List α) :
    ps.foldl (fun ls p => ls.map fun l => if l = p.1 then code p.2 else l) labels =
      labels.map fun l => ps.foldl (fun l p => if l = p.1 then code p.2 else l) l := by
  induction ps generalizing labels with
  | nil => simp
  | cons p ps ih => rw [List.foldl_cons, ih, List.map_map]; rfl

theorem pt_fixed (code : Nat → α) (ps : List (α × Nat)) (x : α) (h : ∀ p ∈ ps, x ≠ p.1) :
    ps.foldl (fun l p => if l = p.1 then code p.2 else l) x = x := by
  induction ps with
  | nil => rfl
  | cons p ps ih =>
    rw [List.foldl_cons, if_neg (h p (by simp))]
    exact ih fun q hq => h q (List.mem_cons_of_mem _ hq)

theorem fst_mem_zipIdx {l : List α} {k : Nat} {p : α × Nat} (h : p ∈ l.zipIdx k) : p.1 ∈ l := by
  obtain ⟨a, n⟩ := p
  have := List.mem_zipIdx h
  rw [this.2.2]; exact List.getElem_mem _

theorem pt_code (code : Nat → α) (raws : List α) (hn : raws.Nodup) (k m : Nat) (x : α) (hx : raws[m]? = some x)
    (h : ∀ (j : Nat) c, m < j → raws[j]? = some c → c ≠ code (k + m)) :
    (raws.zipIdx k).foldl (fun l p => if l = p.1 then code p.2 else l) x = code (k + m) := by
  induction raws generalizing k m with
  | nil => simp at hx
  | cons r raws ih =>
    rw [List.nodup_cons] at hn
    rw [List.zipIdx_cons, List.foldl_cons]
    cases m with
    | zero =>
      simp at hx; subst hx
      simp only [if_true]
      apply pt_fixed
      intro p hp
      obtain ⟨j, hj⟩ := List.getElem?_of_mem (fst_mem_zipIdx hp)
      exact (h (j + 1) p.1 (by omega) (by simpa using hj)).symm
    | succ m =>
      simp only [List.getElem?_cons_succ] at hx
      have hne : x ≠ r := fun e => hn.1 (e ▸ List.mem_of_getElem? hx)
      simp only [if_neg hne]
      rw [ih hn.2 (k + 1) m hx]
      · congr 1; omega
      · intro j c hj hc
        have := h (j + 1) c (by omega) (by simpa using hc)
        rwa [show k + (m + 1) = k + 1 + m by omega] at this

theorem pt_clash (code : Nat → α) (r1 r2 r3 : List α) (x : α) (hn : (r1 ++ x :: r2 ++ code r1.length :: r3).Nodup) :
    ((r1 ++ x :: r2 ++ code r1.length :: r3).zipIdx 0).foldl (fun l p => if l = p.1 then code p.2 else l) x =
    ((r1 ++ x :: r2 ++ code r1.length :: r3).zipIdx 0).foldl (fun l p => if l = p.1 then code p.2 else l) (code r1.length) := by
  have hn' := hn
  simp only [List.nodup_append, List.nodup_cons, List.mem_append, List.mem_cons] at hn
  have hx1 : x ∉ r1 := fun h => hn.1.2.2 x h x (Or.inl rfl) rfl
  have hc1 : code r1.length ∉ r1 := fun h => hn.2.2 _ (Or.inl h) _ (Or.inl rfl) rfl
  have hcx : code r1.length ≠ x := fun h => hn.2.2 x (Or.inr (Or.inl rfl)) _ (Or.inl rfl) h.symm
  have hc2 : code r1.length ∉ r2 := fun h => hn.2.2 _ (Or.inr (Or.inr h)) _ (Or.inl rfl) rfl
  rw [List.zipIdx_append, List.zipIdx_append, List.foldl_append, List.foldl_append, List.foldl_append, List.foldl_append]
  congr 1
  rw [pt_fixed code _ x (fun p hp e => hx1 (e ▸ fst_mem_zipIdx hp)), pt_fixed code (r1.zipIdx 0) (code r1.length) (fun p hp e => hc1 (e ▸ fst_mem_zipIdx hp))]
  simp only [List.zipIdx_cons, List.foldl_cons, if_true, Nat.zero_add, if_neg hcx]

theorem npUnique_rank {labels : List α} {a : α} (h : a ∈ labels) : (npUnique labels)[rank labels a]? = some a := by
  obtain ⟨i, hi⟩ := List.getElem?_of_mem (mem_npUnique.2 h)
  have h1 := countP_lt_of_sorted (sorted_npUnique labels) i a hi
  have h2 : (npUnique labels).countP (· < a) = rank labels a := by
    unfold rank
    rw [List.countP_eq_length_filter, ← List.toFinset_card_of_nodup ((nodup_npUnique labels).filter _)]
    congr 1
    ext b
    simp [mem_npUnique]
  rw [← h2, h1, hi]

theorem rank_of_npUnique {labels : List α} {a : α} {i : Nat} (h : (npUnique labels)[i]? = some a) : a ∈ labels ∧ rank labels a = i := by
  have hm : a ∈ labels := mem_npUnique.1 (List.mem_of_getElem? h)
  refine ⟨hm, ?_⟩
  have h1 := npUnique_rank hm
  have hl : rank labels a < (npUnique labels).length := by rw [length_npUnique]; exact rank_lt hm
  rw [← h] at h1
  exact (List.getElem?_inj hl (nodup_npUnique labels)).1 h1

/-- Without clashes every label becomes the code of its rank. -/
theorem relabel_rank (code : Nat → α) (labels : List α) (h : ∀ l ∈ labels, ∀ i < rank labels l, l ≠ code i) :
    relabel code (npUnique labels) labels = labels.map fun l => code (rank labels l) := by
  unfold relabel
  rw [relabel_map]
  apply List.map_congr_left
  intro l hl
  have := pt_code code (npUnique labels) (nodup_npUnique labels) 0 (rank labels l) l (npUnique_rank hl) (by
    intro j c hj hc
    obtain ⟨h1, h2⟩ := rank_of_npUnique hc
    rw [Nat.zero_add]
    exact h c h1 _ (by omega))
  rwa [Nat.zero_add] at this

/-- C67, exact condition: relabelling (with distinct codes) keeps the classes apart iff no class equals the code given to a smaller
class. -/
theorem C67_iff (code : Nat → α) (hcode : Function.Injective code) (labels : List α) :
    Separates labels (relabel code (npUnique labels) labels) ↔ ∀ l ∈ labels, ∀ i < rank labels l, l ≠ code i := by
  constructor
  · intro hS l hl i hi heq
    have hlen : rank labels l < (npUnique labels).length := by rw [length_npUnique]; exact rank_lt hl
    obtain ⟨x, hx⟩ : ∃ x, (npUnique labels)[i]? = some x := ⟨_, List.getElem?_eq_getElem (by omega)⟩
    obtain ⟨hxm, hxr⟩ := rank_of_npUnique hx
    obtain ⟨p, hp⟩ := List.getElem?_of_mem hxm
    obtain ⟨q, hq⟩ := List.getElem?_of_mem hl
    have hne : x ≠ l := by rintro rfl; omega
    apply hne
    rw [← hS p q x l hp hq]
    unfold relabel
    rw [relabel_map, List.getElem?_map, List.getElem?_map, hp, hq]
    simp only [Option.map_some]
    congr 1
    have hpl := npUnique_rank hl
    obtain ⟨r1, r', e1, e2⟩ : ∃ r1 r', npUnique labels = r1 ++ x :: r' ∧ r1.length = i := by
      refine ⟨(npUnique labels).take i, (npUnique labels).drop (i + 1), ?_, by rw [List.length_take]; omega⟩
      have hx' := (List.getElem?_eq_some_iff.1 hx).2
      rw [← hx', List.getElem_cons_drop, List.take_append_drop]
    have hl' : r'[rank labels l - i - 1]? = some l := by
      rw [e1, List.getElem?_append_right (by omega), e2] at hpl
      rw [show rank labels l - i = rank labels l - i - 1 + 1 by omega] at hpl
      simpa using hpl
    obtain ⟨r2, r3, e3⟩ := List.append_of_mem (List.mem_of_getElem? hl')
    have e4 : npUnique labels = r1 ++ x :: r2 ++ code r1.length :: r3 := by rw [e1, e3, e2, ← heq]; simp
    have hnd := nodup_npUnique labels
    rw [e4] at hnd ⊢
    rw [pt_clash code r1 r2 r3 x hnd, e2, heq]
  · intro h i j l l' hi hj
    rw [relabel_rank code labels h, List.getElem?_map, List.getElem?_map, hi, hj]
    simp only [Option.map_some, Option.some.injEq]
    rw [hcode.eq_iff, rank_inj (List.mem_of_getElem? hi) (List.mem_of_getElem? hj)]

theorem updateIndices_get (d : Dict α Int) (labels : List α) (a : α) :
    (updateIndices d (npUnique labels)).get a = if a ∈ labels then some ((rank labels a : Nat) : Int) else d.get a :=
  fillIndices_get d (fun k => (k : Int)) labels a

end Relabel

/-- A non-negative class is at least its rank. -/
theorem rank_le_of_nonneg {labels : List Int} (h : ∀ l ∈ labels, 0 ≤ l) {l : Int} (_hl : l ∈ labels) : (rank labels l : Int) ≤ l ∨ l < 0 := by
  rcases lt_or_ge l 0 with h0 | h0
  · exact .inr h0
  · left
    have : rank labels l ≤ l.toNat := by
      unfold rank
      have hsub : (labels.toFinset.filter (· < l)) ⊆ (Finset.range l.toNat).image (fun n : Nat => (n : Int)) := by
        intro c hc
        simp only [Finset.mem_filter, List.mem_toFinset] at hc
        simp only [Finset.mem_image, Finset.mem_range]
        exact ⟨c.toNat, by have := h c hc.1; omega, by have := h c hc.1; omega⟩
      calc _ ≤ _ := Finset.card_le_card hsub
        _ ≤ _ := Finset.card_image_le
        _ = l.toNat := by simp
    omega

/-- C67 for non-negative integer labels: every class is replaced by its index, classes stay apart and agree with `class_indices`, whatever
the data set had loaded before. Missing: negative labels, where it is false (`C67_violated`). -/
theorem C67_ints_partial (d : Dict Int Int) (labels : List Int) (h : ∀ l ∈ labels, 0 ≤ l) :
    Separates labels (categoricalInts d labels).1 ∧ Agrees labels (categoricalInts d labels).1 (categoricalInts d labels).2 ∧
    (categoricalInts d labels).1 = labels.map fun l => (rank labels l : Int) := by
  have hno : ∀ l ∈ labels, ∀ i < rank labels l, l ≠ ((i : Nat) : Int) := by
    intro l hl i hi
    rcases rank_le_of_nonneg h hl with h1 | h1
    · omega
    · omega
  have hy := relabel_rank (fun k : Nat => (k : Int)) labels hno
  refine ⟨(C67_iff _ (fun a b => by simp) labels).2 hno, ⟨?_, ?_⟩, hy⟩
  · simp only [categoricalInts, hy]; simp
  · intro i l hi
    refine ⟨(rank labels l : Int), ?_, ?_⟩
    · simp only [categoricalInts, hy]; rw [List.getElem?_map, hi]; rfl
    · simp only [categoricalInts]; rw [updateIndices_get, if_pos (List.mem_of_getElem? hi)]

example : categoricalInts [] [7, 0, 3, 7] = ([2, 0, 1, 2], [(0, 0), (3, 1), (7, 2)]) := by decide +kernel

/-- C67 is false for negative labels: the three classes -1, 0, 1 are merged into one. -/
theorem C67_violated : categoricalInts [] [-1, 0, 1] = ([2, 2, 2], [(-1, 0), (0, 1), (1, 2)]) := by decide +kernel

/-- C67 for string labels none of which is a decimal numeral (`int(str(k)) == k`): accepted, classes stay apart, agreement with
`class_indices`. -/
theorem C67_strings_partial (toInt : String → Option Int) (ht : ∀ k : Nat, toInt (toString k) = some (k : Int)) (d : Dict String Int)
    (labels : List String) (h : ∀ l ∈ labels, ∀ k : Nat, l ≠ toString k) :
    ∃ y d', categoricalStrings toInt d labels = .ok (y, d') ∧ Separates labels y ∧ Agrees labels y d' := by
  have hy := relabel_rank (fun k : Nat => toString k) labels fun l hl i _ => h l hl i
  refine ⟨labels.map fun l => (rank labels l : Int), updateIndices d (npUnique labels), ?_, ?_, ?_, ?_⟩
  · unfold categoricalStrings
    rw [hy]
    have : astypeInt toInt (labels.map fun l => toString (rank labels l)) =
        .ok ((labels.map fun l => toString (rank labels l)).map fun s => (toInt s).getD 0) := by
      apply mapM_ok
      intro s hs
      obtain ⟨l, -, rfl⟩ := List.mem_map.1 hs
      simp only [parseLabel, ht]; rfl
    rw [this]
    simp only [Except.map, List.map_map, Except.ok.injEq, Prod.mk.injEq, and_true]
    apply List.map_congr_left
    intro l _
    simp only [Function.comp, ht]; rfl
  · intro i j l l' hi hj
    rw [List.getElem?_map, List.getElem?_map, hi, hj]
    simp only [Option.map_some, Option.some.injEq, Nat.cast_inj]
    exact rank_inj (List.mem_of_getElem? hi) (List.mem_of_getElem? hj)
  · simp
  · intro i l hi
    exact ⟨_, by rw [List.getElem?_map, hi]; rfl, by rw [updateIndices_get, if_pos (List.mem_of_getElem? hi)]⟩

/-- C67 is false for strings too: the classes `'!'`, `'0'`, `'1'` are merged. -/
theorem C67_strings_violated : relabel (fun k : Nat => toString k) (npUnique ["!", "0", "1"]) ["!", "0", "1"] = ["2", "2", "2"] := by
  decide +kernel

/-! ## C101: encoded labels agree with `class_indices` -/

section Encode
variable {K : Type*} [Field K] [LinearOrder K] [IsStrictOrderedRing K]

theorem setReal_fold {α β : Type*} [DecidableEq α] (enc : Dict Int β) (pre : Dict α Int) (acc : Dict α β)
    (hn : (pre.map Prod.fst).Nodup) (h : ∀ p ∈ pre, enc.get p.2 ≠ none) :
    ∃ d, pre.foldlM (setRealStep enc) acc = .ok d ∧
      ∀ a, d.get a = match pre.get a with | some v => enc.get v | none => acc.get a := by
  induction pre generalizing acc with
  | nil => exact ⟨acc, rfl, fun a => rfl⟩
  | cons p pre ih =>
    obtain ⟨k, v⟩ := p
    simp only [List.map_cons, List.nodup_cons] at hn
    rw [List.foldlM_cons]
    cases hv : enc.get v with
    | none => exact absurd hv (h (k, v) (by simp))
    | some w =>
      simp only [setRealStep, hv]
      obtain ⟨d, h1, h2⟩ := ih (acc.set k w) hn.2 fun q hq => h q (List.mem_cons_of_mem _ hq)
      refine ⟨d, h1, ?_⟩
      intro a
      rw [h2 a]
      by_cases hka : k = a
      · subst hka
        have : Dict.get pre k = none := (Dict.get_eq_none pre k).2 hn.1
        rw [this]
        simp [Dict.get, Dict.get_set, hv]
      · simp only [Dict.get, if_neg hka, Dict.get_set]

theorem get_map_snd {α β γ : Type*} [DecidableEq α] (f : β → γ) (d : Dict α β) (a : α) :
    Dict.get (d.map fun p => (p.1, f p.2)) a = (d.get a).map f := by
  induction d with
  | nil => rfl
  | cons p d ih => simp only [List.map_cons, Dict.get, ih]; split <;> rfl

theorem setReal_keyError {α β : Type*} [DecidableEq α] (enc : Dict Int β) (pre : Dict α Int) (acc : Dict α β)
    (h : ∃ p ∈ pre, enc.get p.2 = none) :
    pre.foldlM (setRealStep enc) acc = .error .keyError := by
  induction pre generalizing acc with
  | nil => simp at h
  | cons p pre ih =>
    rw [List.foldlM_cons]
    unfold setRealStep
    cases hv : enc.get p.2 with
    | none => rfl
    | some w =>
      obtain ⟨q, hq, hq2⟩ := h
      rcases List.mem_cons.1 hq with rfl | hq
      · rw [hv] at hq2; simp at hq2
      · exact ih _ ⟨q, hq, hq2⟩

/-- The codes of an encoded label list, one per sample. -/
def Encoded.codes : Encoded K → List (Code K)
  | .ints y => y.map .int
  | .rows y => y.map .row
  | .signs y => y.map .sign

/-- C101: if the integer labels `y` agree with a dictionary whose keys are exactly the original labels, then for every label mode the
encoded labels agree with the resulting `class_indices`. -/
theorem C101_encode {α : Type*} [LinearOrder α] (mode : Mode) (labels : List α) (y : List Int) (d : Dict α Int) (hA : Agrees labels y d)
    (hn : (d.map Prod.fst).Nodup) (hk : ∀ a ∈ d.map Prod.fst, a ∈ labels) :
    ∃ (e : Encoded K) (d' : Dict α (Code K)), encodeLabel mode y d = .ok (e, d') ∧ Agrees labels e.codes d' := by
  have hval : ∀ p ∈ d, p.2 ∈ y := by
    rintro ⟨k, v⟩ hp
    obtain ⟨i, hi⟩ := List.getElem?_of_mem (hk k (List.mem_map.2 ⟨(k, v), hp, rfl⟩))
    obtain ⟨w, h1, h2⟩ := hA.2 i k hi
    have : v = w := by
      have h3 : d.get k = some v := by
        clear h2 h1 hA hk
        induction d with
        | nil => simp at hp
        | cons q d ih =>
          simp only [List.map_cons, List.nodup_cons] at hn
          rcases List.mem_cons.1 hp with rfl | hp'
          · simp [Dict.get]
          · have : q.1 ≠ k := fun e => hn.1 (e ▸ List.mem_map.2 ⟨(k, v), hp', rfl⟩)
            obtain ⟨q1, q2⟩ := q
            simp only [Dict.get, if_neg this]
            exact ih hn.2 hp'
      rw [h3] at h2; simpa using h2
    subst this
    exact List.mem_of_getElem? h1
  have plain : Agrees labels (y.map (Code.int (K := K))) (d.map fun p => (p.1, Code.int p.2)) := by
    refine ⟨by simp [hA.1], ?_⟩
    intro i l hi
    obtain ⟨v, h1, h2⟩ := hA.2 i l hi
    exact ⟨.int v, by simp [h1], by rw [get_map_snd, h2]; rfl⟩
  cases mode with
  | none => exact ⟨.ints y, _, rfl, plain⟩
  | unsupervised => exact ⟨.ints y, _, rfl, plain⟩
  | oneHot =>
    obtain ⟨rows, c, h1, h2, h3⟩ := C63_one_hot (K := K) [] y
    have hen : ∀ p ∈ d, c.get p.2 ≠ none := by
      intro p hp
      obtain ⟨i, hi⟩ := List.getElem?_of_mem (hval p hp)
      obtain ⟨r, -, -, hr⟩ := h3 i _ hi
      rw [hr]; simp
    obtain ⟨d', e1, e2⟩ := setReal_fold c d [] hn hen
    refine ⟨.rows rows, d'.map fun p => (p.1, .row p.2), ?_, ?_, ?_⟩
    · simp only [encodeLabel, h1, Except.bind]; unfold setReal; rw [e1]; rfl
    · simp [Encoded.codes, h2, hA.1]
    · intro i l hi
      obtain ⟨v, p1, p2⟩ := hA.2 i l hi
      obtain ⟨r, q1, -, q3⟩ := h3 i v p1
      exact ⟨.row r, by simp [Encoded.codes, q1], by rw [get_map_snd, e2, p2]; simp [q3]⟩
  | maxMargin =>
    obtain ⟨ys, c, h1, h2, h3⟩ := C64_max_margin (K := K) [] y
    have hen : ∀ p ∈ d, c.get p.2 ≠ none := by
      intro p hp
      obtain ⟨i, hi⟩ := List.getElem?_of_mem (hval p hp)
      obtain ⟨r, -, hr, -⟩ := h3 i _ hi
      rw [hr]; simp
    obtain ⟨d', e1, e2⟩ := setReal_fold c d [] hn hen
    refine ⟨.signs ys, d'.map fun p => (p.1, .sign p.2), ?_, ?_, ?_⟩
    · simp only [encodeLabel, h1, Except.bind]; unfold setReal; rw [e1]; rfl
    · simp [Encoded.codes, h2, hA.1]
    · intro i l hi
      obtain ⟨v, p1, p2⟩ := hA.2 i l hi
      obtain ⟨r, q1, q3, -⟩ := h3 i v p1
      exact ⟨.sign r, by simp [Encoded.codes, q1], by rw [get_map_snd, e2, p2]; simp [q3]⟩

theorem nodup_updateIndices {α : Type*} [LinearOrder α] (d : Dict α Int) (hd : (d.map Prod.fst).Nodup) (ps : List (α × Nat)) :
    ((ps.foldl (fun (d : Dict α Int) p => d.set p.1 (p.2 : Int)) d).map Prod.fst).Nodup := by
  induction ps generalizing d with
  | nil => exact hd
  | cons p ps ih => exact ih _ (Dict.nodup_set hd _ _)

/-- C101 for a fresh data set loaded from a frame whose label column holds at least three (or fewer than two) non-negative integer
classes: loading succeeds in every label mode and the labels agree with `class_indices`. -/
theorem C101_ints_partial (mode : Mode) (labels : List Int) (h : ∀ l ∈ labels, 0 ≤ l) (h2 : numClasses labels ≠ 2) :
    ∃ (e : Encoded K) (d' : Dict Int (Code K)), frameInts mode [] labels = .ok (e, d') ∧ Agrees labels e.codes d' := by
  obtain ⟨-, hA, -⟩ := C67_ints_partial [] labels h
  obtain ⟨e, d', h1, h3⟩ := C101_encode (K := K) mode labels _ _ hA
    (nodup_updateIndices [] (by simp) _) (by
      intro a ha
      by_contra hna
      have := updateIndices_get [] labels a
      rw [if_neg hna] at this
      exact (Dict.get_eq_none _ a).1 (by simpa [categoricalInts, Dict.get] using this) ha)
  refine ⟨e, d', ?_, h3⟩
  unfold frameInts
  rw [length_npUnique, if_neg h2]
  exact h1

example : ∃ e d', (frameInts .oneHot [] [4, 2, 9, 2] : Except PyErr (Encoded ℚ × Dict Int (Code ℚ))) = .ok (e, d') :=
  let ⟨e, d', h, _⟩ := C101_ints_partial (K := ℚ) .oneHot [4, 2, 9, 2] (by decide) (by decide)
  ⟨e, d', h⟩

/-- C101 is false for two integer classes other than 0 and 1 (for example 1 and 2, or -1 and 1): with `label_mode` one-hot or max-margin
every such column makes loading fail with `KeyError`. -/
theorem C101_ints_refused (mode : Mode) (hm : mode = .oneHot ∨ mode = .maxMargin) (d : Dict Int Int) (labels : List Int) (a b : Int)
    (hab : TwoClasses labels a b) (hne : ¬ (a = 0 ∧ b = 1)) :
    (frameInts mode d labels : Except PyErr (Encoded K × Dict Int (Code K))) = .error .keyError := by
  have hmiss : ∃ p ∈ ([(a, (0 : Int)), (b, 1)] : Dict Int Int), p.2 ∉ labels := by
    by_cases h0 : (0 : Int) ∈ labels
    · by_cases h1 : (1 : Int) ∈ labels
      · exfalso
        have e0 := (hab.2 0).1 h0
        have e1 := (hab.2 1).1 h1
        have := hab.1
        omega
      · exact ⟨(b, 1), by simp, h1⟩
    · exact ⟨(a, 0), by simp, h0⟩
  unfold frameInts
  rw [npUnique_two hab, if_pos (by rfl)]
  unfold binaryInts
  rw [binaryIndices_two hab]
  obtain ⟨p, hp, hp2⟩ := hmiss
  rcases hm with rfl | rfl
  · simp only [Except.map, Except.bind, encodeLabel, oneHot_eq]
    unfold setReal
    rw [setReal_keyError _ _ _ ⟨p, hp, by rw [fillIndices_get, if_neg hp2]; rfl⟩]
  · obtain ⟨ys, c, h1, h2, h3⟩ := C64_max_margin (K := K) [] labels
    have hc : c = fillIndices [] (fun j => if j = 0 then (-1 : K) else 1) (npUnique labels) := by
      simp only [maxMarginCall] at h1
      cases hq : labels.mapM (look (fillIndices [] (fun j => if j = 0 then (-1 : K) else 1) (npUnique labels))) with
      | error e => rw [hq] at h1; simp [Except.map] at h1
      | ok v => rw [hq] at h1; simp only [Except.map, Except.ok.injEq, Prod.mk.injEq] at h1; exact h1.2.symm
    simp only [Except.map, Except.bind, encodeLabel, h1]
    unfold setReal
    rw [setReal_keyError _ _ _ ⟨p, hp, by rw [hc, fillIndices_get, if_neg hp2]; rfl⟩]

/-- C101 for two classes of documented words, negative word first: every label mode works. -/
theorem C101_words_partial (toInt : String → Option Int) (h0 : toInt "0" = some 0) (h1 : toInt "1" = some 1) (mode : Mode)
    (d : Dict String Int) (labels : List String) (pos neg : String) (hp : Positive pos) (hn : Negative neg) (hlt : neg < pos)
    (h2 : TwoClasses labels neg pos) :
    ∃ (e : Encoded K) (d' : Dict String (Code K)), frameStrings toInt mode d labels = .ok (e, d') ∧ Agrees labels e.codes d' := by
  obtain ⟨y, c, hy, hiff⟩ := C66_words_iff toInt h0 h1 labels pos neg hp hn (by
    rw [min_eq_right hlt.le, max_eq_left hlt.le]; exact h2)
  have hA := hiff.2 hlt
  have hc : c = [(neg, 0), (pos, 1)] := by
    unfold binaryStrings at hy
    rw [binaryIndices_two h2] at hy
    cases hq : astypeInt toInt (replaceWords negativeKeyWords "0" (replaceWords positiveKeyWords "1" labels)) with
    | error e => rw [hq] at hy; simp [Except.bind] at hy
    | ok w => rw [hq] at hy; simp only [Except.bind, Except.map, Except.ok.injEq, Prod.mk.injEq] at hy; exact hy.2.symm
  obtain ⟨e, d', e1, e2⟩ := C101_encode (K := K) mode labels y c hA (by rw [hc]; simp [hlt.ne]) (by
    rw [hc]; intro a ha; simp at ha; exact (h2.2 a).2 ha)
  refine ⟨e, d', ?_, e2⟩
  unfold frameStrings
  rw [npUnique_two h2, if_pos (by rfl), hy]
  exact e1

end Encode

/-! ## C102: loading tensors -/

/-- C102 is false: with `label_mode` one-hot or max-margin, `from_tensor_slices` fails for every non-empty label array (for a data set that
is not a test set): with `TypeError` as soon as the labels take two values. -/
theorem C102_tensor_modes (mode : Mode) (hm : mode = .oneHot ∨ mode = .maxMargin) (cols : Nat) (rows : List (List Int)) (hne : rows ≠ [])
    (h2 : 2 ≤ (npUnique rows.flatten).length) : tensorLabels mode false cols (some rows) = .error .typeError := by
  simp only [tensorLabels, Bool.false_eq_true, if_false]
  split
  · simp only [Except.bind]
  · match hq : npUnique rows.flatten, h2 with
    | a :: b :: _, _ => simp only [binaryIndices, hq, Except.map, Except.bind]

example : tensorLabels .oneHot false 1 (some [[0], [1], [1]]) = .error .typeError := by decide +kernel

/-- C102 is false: unsupervised data without labels cannot be loaded by `from_tensor_slices`; nor can a training or validation set whose
labels are left out (documented as allowed). -/
theorem C102_no_labels (mode : Mode) (cols : Nat) : tensorLabels mode false cols none = .error .attributeError := rfl

theorem flatten_singletons (y : List Int) : (y.map fun v => [v]).flatten = y := by
  induction y with
  | nil => rfl
  | cons v y ih => simpa using ih

/-- C102, the part that holds: without an encoding and with at least two values in a label vector, the labels are kept as a column;
test sets never look at the labels. `class_indices` maps the smallest value to 0 and the next one to 1. -/
theorem C102_plain_partial (mode : Mode) (hm : mode ≠ .oneHot ∧ mode ≠ .maxMargin) (y : List Int) (a b : Int) (rest : List Int)
    (h : npUnique y = a :: b :: rest) :
    tensorLabels mode false 1 (some (y.map fun v => [v])) = .ok (some (y.map fun v => [v]), [(a, 0), (b, 1)]) ∧
    ∀ m c r, tensorLabels m true c r = .ok (none, []) := by
  have hf := flatten_singletons y
  refine ⟨?_, fun m c r => by simp [tensorLabels]⟩
  simp only [tensorLabels, Bool.false_eq_true, if_false, hf]
  rw [if_neg (by omega)]
  simp [binaryIndices, h, Except.map, Except.bind, hm]

/-- C102 is false for three or more classes in a label vector: `class_indices` only knows the two smallest. -/
theorem C102_classes_forgotten (mode : Mode) (y : List Int) (a b c : Int) (rest : List Int) (h : npUnique y = a :: b :: c :: rest)
    (r : Option (List (List Int))) (d : Dict Int Int) (hr : tensorLabels mode false 1 (some (y.map fun v => [v])) = .ok (r, d)) :
    c ∈ y ∧ d.get c = none := by
  have hf := flatten_singletons y
  have hs := sorted_npUnique y
  rw [h] at hs
  simp only [List.pairwise_cons, List.mem_cons] at hs
  have hac : a ≠ c := (hs.1 c (by simp)).ne
  have hbc : b ≠ c := (hs.2.1 c (by simp)).ne
  refine ⟨mem_npUnique.1 (by rw [h]; simp), ?_⟩
  simp only [tensorLabels, Bool.false_eq_true, if_false, hf, show ¬ (2 < 1) by omega, binaryIndices, h, Except.map, Except.bind] at hr
  split at hr
  · split at hr
    · simp only [Except.ok.injEq, Prod.mk.injEq] at hr; rw [← hr.2]; rfl
    · simp at hr
  · simp only [Except.ok.injEq, Prod.mk.injEq] at hr
    rw [← hr.2]
    simp [Dict.get, hac, hbc]

/-! ## C103: reusing a data set -/

/-- C103 is false: loading a second frame with three or more classes keeps the classes of the first one in `class_indices` (label mode
None), so a class that does not occur any more has the index of one that does. For all label columns. -/
theorem C103_stale (d : Dict Int Int) (labels : List Int) (a : Int) (ha : a ∉ labels) : (categoricalInts d labels).2.get a = d.get a := by
  simp only [categoricalInts]; rw [updateIndices_get, if_neg ha]

/-- C103 violated on concrete data: after loading the classes 10, 11, 12 and then 20, 21, 22, class 10 and class 20 both have index 0. -/
theorem C103_violated : ∃ d, (categoricalInts [] [10, 11, 12]).2 = d ∧ (categoricalInts d [20, 21, 22]).2.get 10 = some 0 ∧
    (categoricalInts d [20, 21, 22]).2.get 20 = some 0 := ⟨_, rfl, by decide +kernel⟩

/-- C103, the part that holds: a two-class column replaces the dictionary, and a fresh data set has exactly the classes of the data. -/
theorem C103_fresh_partial (labels : List Int) (a : Int) : (categoricalInts [] labels).2.get a ≠ none ↔ a ∈ labels := by
  simp only [categoricalInts]; rw [updateIndices_get]
  split
  · rename_i h; simp [h]
  · rename_i h; simp [h, Dict.get]

end CML.Data
