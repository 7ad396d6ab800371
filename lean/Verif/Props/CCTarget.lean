import Verif.Model.CCOps
import Verif.Lemmas.Ops
import Mathlib.Algebra.Order.Ring.Rat
import Mathlib.Algebra.Field.Rat
import Mathlib.Tactic.NormNum

set_option linter.unusedSectionVars false

/-! # Property C148 (`type_of_target` with the C++ engine) -/

namespace CML.CC

/-- The dtype kind as the Python function sees it. -/
def Kind.py : Kind → Ops.DKind
  | .object => .object
  | .float => .float
  | _ => .other

/-- The Python function on the same numbers. -/
def pyNumbers (kind : Kind) (shape : List Nat) (l : List ℚ) : Except PyErr Ops.TargetType :=
  Ops.typeOfTarget (fun v : ℚ => v.den = 1) ⟨kind.py, shape, l⟩

/-- The Python function on the same strings. -/
def pyStrings (shape : List Nat) (l : List (List Nat)) : Except PyErr Ops.TargetType :=
  Ops.typeOfTarget (fun _ => true) ⟨.other, shape, l⟩

theorem anyDiscreteInteger_ok (rnd : ℚ → ℚ) (l : List ℚ) (hr : ∀ v ∈ l, -2 ^ 31 - 1 < rnd v ∧ rnd v < 2 ^ 31) :
    anyDiscreteInteger rnd l = some (l.all fun v => (rnd v).den = 1) := by
  induction l with
  | nil => rfl
  | cons v l ih =>
    have h := hr v (by simp)
    rw [anyDiscreteInteger, if_neg (by push Not; exact h), ih fun w hw => hr w (by simp [hw])]
    by_cases hd : (rnd v).den = 1 <;> simp [hd]

theorem answer_py {α : Type*} [DecidableEq α] (isInt : α → Bool) (k : Ops.DKind) (shape : List Nat) (l : List α) (hs : shape ≠ [])
    (ho : ¬(k = .object ∨ shape.length > 2)) (hc : ¬(k = .float ∧ l.any (fun v => !isInt v) = true)) :
    ∃ t, answer shape (Ops.numUnique l) = some t ∧ Ops.typeOfTarget isInt ⟨k, shape, l⟩ = .ok t := by
  rw [Ops.typeOfTarget, if_neg ho, if_neg hc]
  match shape, hs with
  | [n], _ =>
    simp only [answer, List.length_cons, List.length_nil]
    refine ⟨_, by simp; rfl, ?_⟩
    simp
    (repeat' split) <;> rfl
  | n :: c :: r, _ =>
    simp only [answer, List.length_cons]
    refine ⟨_, by simp; rfl, ?_⟩
    simp
    (repeat' split) <;> simp_all

/-- C148, the part that holds for numbers: if every number of a signed integer or floating point array is represented exactly in single precision and,
for floating point arrays, within the range of 32-bit integers, both engines give the same answer. -/
theorem C148_numbers_partial (rnd : ℚ → ℚ) (kind : Kind) (hk : kind = .float ∨ kind = .int) (shape : List Nat) (hs : shape ≠ [])
    (l : List ℚ) (hx : ∀ v ∈ l, rnd v = v) (hr : kind = .float → ∀ v ∈ l, |v| < 2 ^ 31) :
    ∃ t, typeOfTarget rnd kind shape (.num l) = some t ∧ pyNumbers kind shape l = .ok t := by
  have hm : l.map rnd = l := by
    conv_rhs => rw [← List.map_id l]
    exact List.map_congr_left hx
  by_cases hsh : shape.length > 2
  · exact ⟨.unknown, by simp [typeOfTarget, hsh], by simp [pyNumbers, Ops.typeOfTarget, hsh]⟩
  rcases hk with rfl | rfl
  · have hd : anyDiscreteInteger rnd l = some (l.all fun v => v.den = 1) := by
      rw [anyDiscreteInteger_ok]
      · congr 1
        rw [Bool.eq_iff_iff]
        simp only [List.all_eq_true]
        exact forall₂_congr fun v hv => by rw [hx v hv]
      · intro v hv
        rw [hx v hv]
        have := abs_lt.1 (hr rfl v hv)
        exact ⟨by linarith [this.1], this.2⟩
    rw [typeOfTarget, if_neg (by simpa using hsh)]
    simp only [discrete, hd, numUnique, hm]
    cases hall : l.all fun v => v.den = 1 with
    | false =>
      refine ⟨.continuous, rfl, ?_⟩
      rw [pyNumbers, Ops.typeOfTarget, if_neg (by simpa [Kind.py] using hsh), if_pos]
      refine ⟨rfl, ?_⟩
      rw [List.all_eq_false] at hall
      obtain ⟨v, hv, h⟩ := hall
      exact List.any_eq_true.2 ⟨v, hv, by simpa using h⟩
    | true =>
      exact answer_py _ _ shape l hs (by simpa [Kind.py] using hsh) (by
        rintro ⟨_, h⟩
        obtain ⟨v, hv, h⟩ := List.any_eq_true.1 h
        have := List.all_eq_true.1 hall v hv
        simp_all)
  · rw [typeOfTarget, if_neg (by simpa using hsh)]
    simp only [discrete, numUnique, hm]
    exact answer_py _ _ shape l hs (by simpa [Kind.py] using hsh) (by simp [Kind.py])

example : typeOfTarget id .float [4] (.num [0, 1, 1, 2]) = some .multiclass ∧ typeOfTarget id .float [2] (.num [0, 1 / 2]) = some .continuous ∧
    typeOfTarget id .int [2, 2] (.num [0, 1, 1, 0]) = some .multilabel := by decide +kernel

/-- C148, the part that holds for strings: if different strings of the array have first characters with different low bytes, both engines give the same
answer. -/
theorem C148_strings_partial (rnd : ℚ → ℚ) (shape : List Nat) (hs : shape ≠ []) (l : List (List Nat))
    (hinj : ∀ a ∈ l, ∀ b ∈ l, strKey a = strKey b → a = b) :
    ∃ t, typeOfTarget rnd .str shape (.str l) = some t ∧ pyStrings shape l = .ok t := by
  by_cases hsh : shape.length > 2
  · exact ⟨.unknown, by simp [typeOfTarget, hsh], by simp [pyStrings, Ops.typeOfTarget, hsh]⟩
  rw [typeOfTarget, if_neg (by simpa using hsh)]
  simp only [discrete, numUnique, Ops.numUnique_map_of_injOn strKey l hinj]
  exact answer_py _ _ shape l hs (by simpa using hsh) (by simp)

/-- C148: in particular for labels of one character of the first 256. -/
theorem C148_one_letter (rnd : ℚ → ℚ) (shape : List Nat) (hs : shape ≠ []) (l : List Nat) (hl : ∀ c ∈ l, c < 256) :
    ∃ t, typeOfTarget rnd .str shape (.str (l.map fun c => [c])) = some t ∧ pyStrings shape (l.map fun c => [c]) = .ok t := by
  refine C148_strings_partial rnd shape hs _ ?_
  intro a ha b hb h
  obtain ⟨c, hc, rfl⟩ := List.mem_map.1 ha
  obtain ⟨e, he, rfl⟩ := List.mem_map.1 hb
  simp only [strKey, Nat.mod_eq_of_lt (hl c hc), Nat.mod_eq_of_lt (hl e he)] at h
  rw [h]

theorem numUnique_const {α β : Type*} [DecidableEq β] (f : α → β) (l : List α) (k : β) (h : ∀ a ∈ l, f a = k) :
    Ops.numUnique (l.map f) ≤ 1 := by
  have : l.map f = List.replicate l.length k := by
    rw [List.eq_replicate_iff]
    simpa using h
  rw [Ops.numUnique, this]
  have hs : (List.replicate l.length k).dedup.Nodup := List.nodup_dedup _
  have hm : ∀ x ∈ (List.replicate l.length k).dedup, x = k := fun x hx => by
    rw [List.mem_dedup] at hx; exact List.eq_of_mem_replicate hx
  match hd : (List.replicate l.length k).dedup, hs, hm with
  | [], _, _ => simp
  | [_], _, _ => simp
  | a :: b :: r, hs, hm =>
    exfalso
    rw [hm a (by simp), hm b (by simp)] at hs
    simp at hs

/-- C148 is false of the C++ engine: strings that begin with the same character are all one value to it, so that any number of different labels is
answered "unknown". -/
theorem C148_first_character (rnd : ℚ → ℚ) (shape : List Nat) (hs : shape ≠ []) (c : Nat) (l : List (List Nat)) (h : ∀ s ∈ l, s.head? = some c) :
    typeOfTarget rnd .str shape (.str l) = some .unknown := by
  by_cases hsh : shape.length > 2
  · simp [typeOfTarget, hsh]
  rw [typeOfTarget, if_neg (by simpa using hsh)]
  have hu := numUnique_const strKey l (c % 256) (fun s hm => by
    have := h s hm
    match s, this with
    | c' :: _, e => simp at e; simp [strKey, e])
  simp only [discrete, numUnique]
  generalize Ops.numUnique (l.map strKey) = u at hu
  match shape, hs with
  | [n], _ =>
    have h1 : u ≠ 2 := by omega
    have h2 : ¬2 < u := by omega
    simp [answer, h1, h2]
  | n :: c :: r, _ =>
    have h1 : u ≠ 2 := by omega
    have h2 : ¬2 < u := by omega
    have h3 : ¬2 ≤ u := by omega
    simp [answer, h1, h2, h3]

/-- C148: the Python engine calls the labels "no" and "nope" binary, the C++ engine unknown. -/
theorem C148_words : pyStrings [4] [[110, 111], [110, 111, 112, 101], [110, 111], [110, 111]] = .ok .binary ∧
    ∀ rnd, typeOfTarget rnd .str [4] (.str [[110, 111], [110, 111, 112, 101], [110, 111], [110, 111]]) = some .unknown :=
  ⟨by decide, fun rnd => C148_first_character rnd [4] (by simp) 110 _ (by simp)⟩

/-- C148 is false of the C++ engine: numbers that become integers by rounding to single precision are not called continuous. -/
theorem C148_continuous_lost (rnd : ℚ → ℚ) (shape : List Nat) (l : List ℚ)
    (hr : ∀ v ∈ l, (rnd v).den = 1 ∧ |rnd v| < 2 ^ 31) : typeOfTarget rnd .float shape (.num l) ≠ some .continuous := by
  by_cases hsh : shape.length > 2
  · simp [typeOfTarget, hsh]
  rw [typeOfTarget, if_neg (by simpa using hsh)]
  have hd : anyDiscreteInteger rnd l = some true := by
    rw [anyDiscreteInteger_ok]
    · congr 1
      rw [List.all_eq_true]
      intro v hv
      simpa using (hr v hv).1
    · intro v hv
      have := abs_lt.1 (hr v hv).2
      exact ⟨by linarith [this.1], this.2⟩
  simp only [discrete, hd, numUnique]
  match shape with
  | [] => simp [answer]
  | [n] => simp [answer]; (repeat' split) <;> simp
  | n :: c :: r => simp [answer]; (repeat' split) <;> simp

/-- C148: with the rounding of single precision (24 bits), 16777216.5 is such a number, and continuous to the Python engine. -/
theorem C148_continuous_witness (rnd : ℚ → ℚ) (h : rnd (33554433 / 2) = 16777216) :
    pyNumbers .float [1] [33554433 / 2] = .ok .continuous ∧ typeOfTarget rnd .float [1] (.num [33554433 / 2]) = some .unknown := by
  refine ⟨by decide +kernel, ?_⟩
  have h1 : ¬((16777216 : ℚ) ≤ -2 ^ 31 - 1 ∨ (2 : ℚ) ^ 31 ≤ 16777216) := by decide +kernel
  have h2 : (16777216 : ℚ).den = 1 := by decide +kernel
  have h3 : answer [1] (Ops.numUnique [(16777216 : ℚ)]) = some .unknown := by decide +kernel
  have hd : anyDiscreteInteger rnd [33554433 / 2] = some true := by
    simp only [anyDiscreteInteger, h, if_neg h1, h2, ne_eq, not_true_eq_false, if_false]
  rw [typeOfTarget, if_neg (by simp)]
  simp only [discrete, hd, numUnique, List.map_cons, List.map_nil, h, h3]

/-- C148: a floating point array with a number outside of the range of 32-bit integers before its first non-integer leaves defined behaviour; the
Python engine answers. -/
theorem C148_out_of_range (rnd : ℚ → ℚ) (shape : List Nat) (hsh : shape.length ≤ 2) (v : ℚ) (l : List ℚ) (hv : 2 ^ 31 ≤ rnd v) :
    typeOfTarget rnd .float shape (.num (v :: l)) = none := by
  rw [typeOfTarget, if_neg (by simp; omega)]
  simp only [discrete, anyDiscreteInteger, if_pos (Or.inr hv)]

/-- C148: for boolean and unsigned arrays of one or two axes the answer depends on a variable that was never assigned. -/
theorem C148_other_kinds (rnd : ℚ → ℚ) (shape : List Nat) (hsh : shape.length ≤ 2) (data : Data) :
    typeOfTarget rnd .other shape data = none := by
  rw [typeOfTarget, if_neg (by simp; omega)]
  cases data <;> rfl

/-- C148: whether a column is continuous, which is all that the Bayes classifiers and the decision tree ask, is answered alike for integers and strings:
never. -/
theorem C148_never_continuous (rnd : ℚ → ℚ) (shape : List Nat) (l : List ℚ) (s : List (List Nat)) :
    typeOfTarget rnd .int shape (.num l) ≠ some .continuous ∧ typeOfTarget rnd .str shape (.str s) ≠ some .continuous ∧
    pyNumbers .int shape l ≠ .ok .continuous ∧ pyStrings shape s ≠ .ok .continuous := by
  have ha : ∀ u, answer shape u ≠ some .continuous := by
    intro u
    match shape with
    | [] => simp [answer]
    | [n] => simp [answer]; (repeat' split) <;> simp
    | n :: c :: r => simp [answer]; (repeat' split) <;> simp
  have hp : ∀ {α : Type} [DecidableEq α] (isInt : α → Bool) (l : List α), Ops.typeOfTarget isInt ⟨.other, shape, l⟩ ≠ .ok .continuous := by
    intro α _ isInt l
    match shape with
    | [] => simp [Ops.typeOfTarget]
    | [n] => simp [Ops.typeOfTarget]; (repeat' split) <;> simp
    | n :: c :: r => simp [Ops.typeOfTarget]; (repeat' split) <;> simp
  refine ⟨?_, ?_, hp _ _, hp _ _⟩
  · by_cases hsh : shape.length > 2
    · simp [typeOfTarget, hsh]
    · rw [typeOfTarget, if_neg (by simpa using hsh)]; exact ha _
  · by_cases hsh : shape.length > 2
    · simp [typeOfTarget, hsh]
    · rw [typeOfTarget, if_neg (by simpa using hsh)]; exact ha _

end CML.CC
