import Verif.Spec.Hull
import Mathlib.Tactic.Ring
import Mathlib.Tactic.Linarith
import Mathlib.Tactic.FieldSimp
import Mathlib.Tactic.LinearCombination

set_option linter.unusedSectionVars false

namespace CML.Hull

variable {K : Type*} [Field K] [LinearOrder K] [IsStrictOrderedRing K]

theorem cross_eq (a b c : K × K) : crossProduct a b c = area a b c := by
  unfold crossProduct area; ring

/-- Chain form: consecutive triples of a stack (top first). -/
def Turns : List (K × K) → Prop
  | c :: b :: a :: rest => 0 ≤ area a b c ∧ Turns (b :: a :: rest)
  | _ => True

/-- All edges of a stack (top first) have `q` on their left. -/
def EdgesLeft (q : K × K) : List (K × K) → Prop
  | b :: a :: rest => 0 ≤ area a b q ∧ EdgesLeft q (a :: rest)
  | _ => True

theorem push_ne_nil (p : K × K) (l : List (K × K)) : push p l ≠ [] := by
  induction l with
  | nil => simp [push]
  | cons b l ih =>
    cases l with
    | nil => simp [push]
    | cons a r => simp only [push]; split; · exact ih
                  · simp

/-- The result of a push: a suffix of the stack with `p` on top. -/
theorem push_spec (p : K × K) (l : List (K × K)) (hl : l ≠ []) :
    ∃ pre b r, l = pre ++ b :: r ∧ push p l = p :: b :: r ∧
      (∀ a r', r = a :: r' → 0 ≤ area a b p) ∧
      (pre = [] ∨ ∃ pre' c, pre = pre' ++ [c] ∧ area b c p < 0) := by
  induction l with
  | nil => exact absurd rfl hl
  | cons b l ih =>
    cases l with
    | nil => exact ⟨[], b, [], rfl, rfl, by simp, Or.inl rfl⟩
    | cons a r =>
      by_cases hc : crossProduct a b p < 0
      · obtain ⟨pre, b', r', h1, h2, h3, h4⟩ := ih (by simp)
        refine ⟨b :: pre, b', r', by rw [h1]; rfl, by simp only [push, if_pos hc]; exact h2, h3, Or.inr ?_⟩
        rcases h4 with rfl | ⟨pre', c, rfl, h⟩
        · simp only [List.nil_append, List.cons.injEq] at h1
          obtain ⟨rfl, rfl⟩ := h1
          exact ⟨[], b, rfl, by rw [← cross_eq]; exact hc⟩
        · exact ⟨b :: pre', c, rfl, h⟩
      · refine ⟨[], b, a :: r, rfl, by simp only [push, if_neg hc], ?_, Or.inl rfl⟩
        intro a' r' h
        simp only [List.cons.injEq] at h
        obtain ⟨rfl, rfl⟩ := h
        rw [← cross_eq]; exact not_lt.1 hc

theorem Turns.suffix : ∀ (pre l : List (K × K)), Turns (pre ++ l) → Turns l
  | [], _, h => h
  | [_], [], _ => trivial
  | [_], [_], _ => trivial
  | [_], _ :: _ :: _, h => h.2
  | [_, _], [], _ => trivial
  | [_, y], b :: l, h => Turns.suffix [y] (b :: l) h.2
  | _ :: y :: z :: pre, l, h => Turns.suffix (y :: z :: pre) l h.2

theorem EdgesLeft.suffix (q : K × K) : ∀ (pre l : List (K × K)), EdgesLeft q (pre ++ l) → EdgesLeft q l
  | [], _, h => h
  | [_], [], _ => trivial
  | [_], _ :: _, h => h.2
  | _ :: y :: pre, l, h => EdgesLeft.suffix q (y :: pre) l h.2

theorem push_turns (p : K × K) (l : List (K × K)) (h : Turns l) : Turns (push p l) := by
  by_cases hl : l = []
  · subst hl; trivial
  · obtain ⟨pre, b, r, h1, h2, h3, _⟩ := push_spec p l hl
    rw [h2]
    cases r with
    | nil => trivial
    | cons a r' => exact ⟨h3 a r' rfl, Turns.suffix pre _ (h1 ▸ h)⟩

theorem push_sublist (p : K × K) (l : List (K × K)) : (push p l).Sublist (p :: l) := by
  by_cases hl : l = []
  · subst hl; simp [push]
  · obtain ⟨pre, b, r, h1, h2, _⟩ := push_spec p l hl
    rw [h2, h1]
    exact (List.sublist_append_right pre _).cons_cons p

/-- Invariant rule for the scan. -/
theorem scan_ind {start : K × K} (P : List (K × K) → List (K × K) → Prop) (h0 : P [] [start])
    (hs : ∀ done p stack, P done stack → P (done ++ [p]) (push p stack)) (pts : List (K × K)) :
    P pts (scan start pts) := by
  have key : ∀ (pts done stack : List (K × K)), P done stack →
      P (done ++ pts) (pts.foldl (fun stack p => push p stack) stack) := by
    intro pts
    induction pts with
    | nil => intro done stack h; simpa using h
    | cons p pts ih =>
      intro done stack h
      have := ih (done ++ [p]) (push p stack) (hs done p stack h)
      simpa using this
  simpa [scan] using key pts [] [start] h0

theorem scan_turns (start : K × K) (pts : List (K × K)) : Turns (scan start pts) :=
  scan_ind (fun _ s => Turns s) trivial (fun _ p s h => push_turns p s h) pts

theorem scan_sublist (start : K × K) (pts : List (K × K)) : (scan start pts).Sublist (pts.reverse ++ [start]) :=
  scan_ind (fun done s => s.Sublist (done.reverse ++ [start])) (by simp)
    (fun done p s h => by
      simp only [List.reverse_append, List.reverse_singleton, List.singleton_append, List.cons_append]
      exact (push_sublist p s).trans (h.cons_cons p)) pts

theorem push_last (p : K × K) (l : List (K × K)) (hl : l ≠ []) (s : K × K) (h : l.getLast? = some s) :
    (push p l).getLast? = some s := by
  obtain ⟨pre, b, r, h1, h2, _⟩ := push_spec p l hl
  rw [h2]
  rw [h1, List.getLast?_append] at h
  have e : (b :: r).getLast? = some s := by
    cases hb : (b :: r).getLast? with
    | none => simp at hb
    | some t => rw [hb] at h; simpa using h
  rw [List.getLast?_cons_cons]; exact e

theorem scan_last (start : K × K) (pts : List (K × K)) :
    scan start pts ≠ [] ∧ (scan start pts).getLast? = some start :=
  scan_ind (fun _ s => s ≠ [] ∧ s.getLast? = some start) (by simp)
    (fun _ p s h => ⟨push_ne_nil p s, push_last p s h.1 start h.2⟩) pts

theorem scan_top (start : K × K) (pts : List (K × K)) :
    (scan start pts).head? = (pts.reverse ++ [start]).head? :=
  (scan_ind (fun done s => s ≠ [] ∧ s.head? = (done.reverse ++ [start]).head?) (by simp)
    (fun _ p s h => ⟨push_ne_nil p s, by
      obtain ⟨pre, b, r, _, h2, _⟩ := push_spec p s h.1
      rw [h2]; simp⟩) pts).2

/-! ### from stacks to polygonal lines -/

theorem noRightTurn_of_turns {l : List (K × K)} (h : Turns l) : NoRightTurn l.reverse := by
  intro l₁ u v w l₂ e
  have : l = l₂.reverse ++ w :: v :: u :: l₁.reverse := by
    have := congrArg List.reverse e
    simpa using this
  rw [this] at h
  exact (Turns.suffix _ _ h).1

theorem leftOfEdges_of_edgesLeft {l : List (K × K)} {q : K × K} (h : EdgesLeft q l) : LeftOfEdges l.reverse q := by
  intro l₁ u v l₂ e
  have : l = l₂.reverse ++ v :: u :: l₁.reverse := by
    have := congrArg List.reverse e
    simpa using this
  rw [this] at h
  exact (EdgesLeft.suffix _ _ _ h).1

/-! ### the angular order around the start -/

/-- Points right of the start, or above it. -/
def InHalf (s p : K × K) : Prop := s.1 < p.1 ∨ (s.1 = p.1 ∧ s.2 < p.2)

/-- `q` comes after `p`: at a larger angle, or farther at the same angle. -/
def After (s p q : K × K) : Prop :=
  0 < area s p q ∨ (area s p q = 0 ∧ (p.1 < q.1 ∨ (p.1 = q.1 ∧ p.2 < q.2)))

theorem After.nonneg {s p q : K × K} (h : After s p q) : 0 ≤ area s p q := by
  rcases h with h | h
  · exact h.le
  · exact h.1.ge

/-- Same ray: the farther point is a multiple `t > 1`. -/
theorem After.ray {s p q : K × K} (hp : InHalf s p) (h : After s p q) (h0 : area s p q = 0) :
    ∃ t, 1 < t ∧ q.1 - s.1 = t * (p.1 - s.1) ∧ q.2 - s.2 = t * (p.2 - s.2) := by
  have hx : p.1 < q.1 ∨ (p.1 = q.1 ∧ p.2 < q.2) := (h.resolve_left (by rw [h0]; exact lt_irrefl _)).2
  have h1 : (p.1 - s.1) * (q.2 - s.2) = (q.1 - s.1) * (p.2 - s.2) := by unfold area at h0; linarith
  rcases hp with hp | ⟨hp, hp2⟩
  · have hd : 0 < p.1 - s.1 := by linarith
    have e1 : q.1 - s.1 = (q.1 - s.1) / (p.1 - s.1) * (p.1 - s.1) := by field_simp
    have e2 : q.2 - s.2 = (q.1 - s.1) / (p.1 - s.1) * (p.2 - s.2) := by
      rw [div_mul_eq_mul_div, eq_div_iff hd.ne']; linarith
    rcases hx with hx | ⟨hx, hx2⟩
    · exact ⟨_, by rw [one_lt_div hd]; linarith, e1, e2⟩
    · exfalso
      rw [hx, div_self (by rw [← hx]; exact hd.ne')] at e2
      linarith
  · have hd : 0 < p.2 - s.2 := by linarith
    have hq : q.1 = s.1 := by
      rw [hp] at h1
      simp only [sub_self, zero_mul] at h1
      have := (mul_eq_zero.1 h1.symm).resolve_right hd.ne'
      linarith
    rcases hx with hx | ⟨hx, hx2⟩
    · exfalso; linarith
    · refine ⟨(q.2 - s.2) / (p.2 - s.2), by rw [one_lt_div hd]; linarith, ?_, by field_simp⟩
      rw [hq, hp]; simp

/-- Three points `a`, `b`, `c` of which `b`, `c` are on one ray: no left turn unless `a` is on it too. -/
theorem ray_right_turn {s a b c : K × K} {t : K} (ht : 1 < t) (h1 : c.1 - s.1 = t * (b.1 - s.1))
    (h2 : c.2 - s.2 = t * (b.2 - s.2)) : area a b c = -((t - 1) * area s a b) := by
  unfold area
  have e1 : c.1 = s.1 + t * (b.1 - s.1) := by linarith
  have e2 : c.2 = s.2 + t * (b.2 - s.2) := by linarith
  rw [e1, e2]; ring

theorem ray_edge {s b c p : K × K} {t : K} (h1 : c.1 - s.1 = t * (b.1 - s.1))
    (h2 : c.2 - s.2 = t * (b.2 - s.2)) : area b c p = (t - 1) * area s b p := by
  unfold area
  have e1 : c.1 = s.1 + t * (b.1 - s.1) := by linarith
  have e2 : c.2 = s.2 + t * (b.2 - s.2) := by linarith
  rw [e1, e2]; ring

/-- A stack seen from the start: points of the half plane in angular order, the start at the bottom. -/
def Stack (s : K × K) : List (K × K) → Prop
  | [b] => b = s
  | b :: a :: rest => InHalf s b ∧ (∀ x ∈ a :: rest, x = s ∨ After s x b) ∧ Stack s (a :: rest)
  | [] => False

theorem Stack.suffix (s : K × K) : ∀ (pre l : List (K × K)), l ≠ [] → Stack s (pre ++ l) → Stack s l
  | [], _, _, h => h
  | [_], _ :: _, _, h => h.2.2
  | [_], [], hl, _ => absurd rfl hl
  | _ :: y :: pre, l, hl, h => Stack.suffix s (y :: pre) l hl h.2.2

theorem InHalf.ne {s p : K × K} (h : InHalf s p) : p ≠ s := by
  rintro rfl
  rcases h with h | h
  · exact lt_irrefl _ h
  · exact lt_irrefl _ h.2

/-- In a left-turning stack two neighbours on one ray force everything below on that ray. -/
theorem stack_ray {s a b c : K × K} {rest : List (K × K)} (hs : Stack s (c :: b :: a :: rest))
    (ht : Turns (c :: b :: a :: rest)) (h0 : area s b c = 0) : area s a b = 0 := by
  have hb : InHalf s b := hs.2.2.1
  have hbc : After s b c := (hs.2.1 b (by simp)).resolve_left hb.ne
  obtain ⟨t, ht1, e1, e2⟩ := hbc.ray hb h0
  have h1 := ray_right_turn (a := a) ht1 e1 e2
  have h2 : 0 ≤ area a b c := ht.1
  have h3 : 0 ≤ area s a b := by
    rcases hs.2.2.2.1 a (by simp) with rfl | h
    · simp [area]
    · exact h.nonneg
  nlinarith

theorem area_self_left (s p : K × K) : area s s p = 0 := by unfold area; ring
theorem area_self_right (s p : K × K) : area s p s = 0 := by unfold area; ring
theorem area_self_mid (s p : K × K) : area s p p = 0 := by unfold area; ring

/-- (2) A new point left of the top edge is left of all edges. -/
theorem new_left_all {s p : K × K} : ∀ (l : List (K × K)), Stack s l → Turns l →
    (∀ x ∈ l, x = s ∨ After s x p) → (∀ b a r, l = b :: a :: r → 0 ≤ area a b p) → EdgesLeft p l
  | [], _, _, _, _ => trivial
  | [_], _, _, _, _ => trivial
  | [b, a], _, _, _, h => ⟨h b a [] rfl, trivial⟩
  | c :: b :: a :: r, hs, ht, hp, h => by
    have htop : 0 ≤ area b c p := h c b (a :: r) rfl
    refine ⟨htop, new_left_all (b :: a :: r) hs.2.2 ht.2 (fun x hx => hp x (by simp [hx])) ?_⟩
    intro b' a' r' e
    simp only [List.cons.injEq] at e
    obtain ⟨rfl, rfl, rfl⟩ := e
    have hb : InHalf s b := hs.2.2.1
    have hsbp : 0 ≤ area s b p := ((hp b (by simp)).resolve_left hb.ne).nonneg
    have hsbc : 0 ≤ area s b c := ((hs.2.1 b (by simp)).resolve_left hb.ne).nonneg
    have hsab : 0 ≤ area s a b := by
      rcases hs.2.2.2.1 a (by simp) with rfl | h
      · rw [area_self_left]
      · exact h.nonneg
    have habc : 0 ≤ area a b c := ht.1
    rcases hsbc.lt_or_eq with hlt | heq
    · have pl : area a b p * area s b c = area a b c * area s b p + area s a b * area b c p := by
        unfold area; ring
      have : 0 ≤ area a b p * area s b c := by
        rw [pl]; exact add_nonneg (mul_nonneg habc hsbp) (mul_nonneg hsab htop)
      exact nonneg_of_mul_nonneg_left this hlt
    · have h0 := stack_ray hs ht heq.symm
      rcases hs.2.2.2.1 a (by simp) with rfl | haft
      · exact hsbp
      · by_cases has : a = s
        · rw [has]; exact hsbp
        · have ha : InHalf s a := by
            cases r with
            | nil => exact absurd hs.2.2.2.2 has
            | cons _ _ => exact hs.2.2.2.2.1
          obtain ⟨t, ht1, e1, e2⟩ := haft.ray ha h0
          rw [ray_edge (p := p) e1 e2]
          have hsap : 0 ≤ area s a p := ((hp a (by simp)).resolve_left has).nonneg
          exact mul_nonneg (by linarith) hsap

/-- (1) case 1: old points at or after the surviving top. -/
theorem old_left_after {s b c p q : K × K} (hb : InHalf s b) (hbc : After s b c) (hsbp : 0 ≤ area s b p)
    (hpop : area b c p < 0) (hq : 0 ≤ area b c q) (hsbq : 0 ≤ area s b q) : 0 ≤ area b p q := by
  rcases hbc.nonneg.lt_or_eq with hlt | heq
  · have pl : area s b c * area b p q = area b c q * area s b p - area b c p * area s b q := by
      unfold area; ring
    have : 0 ≤ area s b c * area b p q := by
      rw [pl]
      have := mul_nonneg hq hsbp
      have h2 : 0 ≤ -area b c p * area s b q := mul_nonneg (by linarith) hsbq
      linarith
    exact nonneg_of_mul_nonneg_right this hlt
  · exfalso
    obtain ⟨t, ht1, e1, e2⟩ := hbc.ray hb heq.symm
    rw [ray_edge (p := p) e1 e2] at hpop
    have : 0 ≤ (t - 1) * area s b p := mul_nonneg (by linarith) hsbp
    linarith

/-- (1) case 2: old points strictly before the surviving top. -/
theorem old_left_before {s a b p q : K × K} (hsab : a = s ∨ (InHalf s a ∧ After s a b)) (hsbp : 0 ≤ area s b p)
    (habp : 0 ≤ area a b p) (habq : 0 ≤ area a b q) (hsbq : area s b q < 0) : 0 ≤ area b p q := by
  rcases hsab with rfl | ⟨ha, hab⟩
  · linarith
  · rcases hab.nonneg.lt_or_eq with hlt | heq
    · have pl : area s a b * area b p q = area a b q * area s b p - area a b p * area s b q := by
        unfold area; ring
      have : 0 ≤ area s a b * area b p q := by
        rw [pl]
        have := mul_nonneg habq hsbp
        have h2 : 0 ≤ area a b p * -area s b q := mul_nonneg habp (by linarith)
        linarith
      exact nonneg_of_mul_nonneg_right this hlt
    · exfalso
      obtain ⟨t, ht1, e1, e2⟩ := hab.ray ha heq.symm
      rw [ray_edge (p := q) e1 e2] at habq
      have hq' : area s b q = t * area s a q := by
        unfold area
        have f1 : b.1 = s.1 + t * (a.1 - s.1) := by linarith
        have f2 : b.2 = s.2 + t * (a.2 - s.2) := by linarith
        rw [f1, f2]; ring
      have : 0 ≤ area s a q := nonneg_of_mul_nonneg_right habq (by linarith)
      have : 0 ≤ area s b q := by rw [hq']; exact mul_nonneg (by linarith) this
      linarith

theorem old_left_ray {s b p q : K × K} (hq : InHalf s q) (hqb : After s q b) (h0 : area s q b = 0)
    (hsbp : 0 ≤ area s b p) : 0 ≤ area b p q := by
  obtain ⟨t, ht1, e1, e2⟩ := hqb.ray hq h0
  have f1 : q.1 = s.1 + t⁻¹ * (b.1 - s.1) := by rw [e1]; field_simp; ring
  have f2 : q.2 = s.2 + t⁻¹ * (b.2 - s.2) := by rw [e2]; field_simp; ring
  have : area b p q = (1 - t⁻¹) * area s b p := by
    unfold area; rw [f1, f2]; ring
  rw [this]
  have : t⁻¹ < 1 := inv_lt_one_of_one_lt₀ ht1
  exact mul_nonneg (by linarith) hsbp

/-- The invariant of the scan. -/
structure Inv (s : K × K) (done stack : List (K × K)) : Prop where
  stk : Stack s stack
  turns : Turns stack
  left : ∀ q ∈ s :: done, EdgesLeft q stack
  top : ∃ b r, stack = b :: r ∧ ∀ q ∈ s :: done, q = b ∨ q = s ∨ After s q b
  sub : ∀ x ∈ stack, x = s ∨ x ∈ done

theorem inv_step {s p : K × K} {done stack : List (K × K)} (h : Inv s done stack) (hp : InHalf s p)
    (hdone : ∀ q ∈ done, InHalf s q ∧ After s q p) : Inv s (done ++ [p]) (push p stack) := by
  obtain ⟨tb, tr, hstk, htop⟩ := h.top
  have hne : stack ≠ [] := by rw [hstk]; simp
  obtain ⟨pre, b, r, h1, h2, h3, h4⟩ := push_spec p stack hne
  have hsuf : Stack s (b :: r) := Stack.suffix s pre _ (by simp) (h1 ▸ h.stk)
  have htsuf : Turns (b :: r) := Turns.suffix pre _ (h1 ▸ h.turns)
  have hbef : ∀ x ∈ b :: r, x = s ∨ After s x p := by
    intro x hx
    rcases h.sub x (by rw [h1]; simp at hx ⊢; tauto) with hx' | hx'
    · exact Or.inl hx'
    · exact Or.inr (hdone x hx').2
  have hsbp : 0 ≤ area s b p := by
    rcases hbef b (by simp) with hb | hb
    · rw [hb, area_self_left]
    · exact hb.nonneg
  have hnew : EdgesLeft p (b :: r) := new_left_all (b :: r) hsuf htsuf hbef (by
    intro b' a' r' e
    simp only [List.cons.injEq] at e
    obtain ⟨rfl, rfl⟩ := e
    exact h3 a' r' rfl)
  have hold : ∀ q ∈ s :: done, EdgesLeft q (b :: r) := fun q hq => EdgesLeft.suffix q pre _ (h1 ▸ h.left q hq)
  have hdone' : ∀ q ∈ s :: done, q = s ∨ (InHalf s q ∧ After s q p) := by
    intro q hq
    rcases List.mem_cons.1 hq with hq | hq
    · exact Or.inl hq
    · exact Or.inr (hdone q hq)
  have hb' : b = s ∨ InHalf s b := by
    cases r with
    | nil => exact Or.inl hsuf
    | cons _ _ => exact Or.inr hsuf.1
  -- every processed point is left of the new edge
  have hedge : ∀ q ∈ s :: done, 0 ≤ area b p q := by
    intro q hq
    -- q strictly before b
    have before : area s b q < 0 → 0 ≤ area b p q := by
      intro hlt
      cases r with
      | nil =>
        have hbs : b = s := hsuf
        rw [hbs, area_self_left] at hlt
        exact absurd hlt (lt_irrefl _)
      | cons a r' =>
        have hab : a = s ∨ (InHalf s a ∧ After s a b) := by
          rcases hsuf.2.1 a (by simp) with ha | ha
          · exact Or.inl ha
          · cases r' with
            | nil => exact Or.inl hsuf.2.2
            | cons _ _ => exact Or.inr ⟨hsuf.2.2.1, ha⟩
        exact old_left_before hab hsbp (h3 a r' rfl) (hold q hq).1 hlt
    rcases h4 with hpre | ⟨pre', c, hpre, hc⟩
    · -- nothing popped: b is the old top
      subst hpre
      simp only [List.nil_append] at h1
      have hbt : b = tb := by
        have := h1.symm.trans hstk
        exact (List.cons.inj this).1
      rcases htop q hq with hqb | hqs | hqb
      · rw [hqb, ← hbt, area_self_right]
      · rw [hqs]
        have : area b p s = area s b p := by unfold area; ring
        rw [this]; exact hsbp
      · rw [← hbt] at hqb
        rcases hdone' q hq with hqs | ⟨hqh, _⟩
        · rw [hqs]
          have : area b p s = area s b p := by unfold area; ring
          rw [this]; exact hsbp
        · have e : area s b q = - area s q b := by unfold area; ring
          rcases hqb.nonneg.lt_or_eq with hlt | heq
          · exact before (by rw [e]; linarith)
          · exact old_left_ray hqh hqb heq.symm hsbp
    · -- something popped
      by_cases hlt : area s b q < 0
      · exact before hlt
      · have hcb : Stack s (c :: b :: r) := by
          apply Stack.suffix s pre' _ (by simp)
          have := h.stk
          rw [h1, hpre] at this
          simpa using this
        have hqc : 0 ≤ area b c q := by
          have := h.left q hq
          rw [h1, hpre] at this
          simp only [List.append_assoc, List.singleton_append] at this
          exact (EdgesLeft.suffix q pre' _ this).1
        rcases hb' with hbs | hbh
        · -- b = s: then c would be strictly after p
          exfalso
          rcases h.sub c (by rw [h1, hpre]; simp) with hcs | hcd
          · rw [hbs, hcs, area_self_left] at hc; exact lt_irrefl _ hc
          · have := (hdone c hcd).2.nonneg
            rw [hbs] at hc; linarith
        · have hbc : After s b c := (hcb.2.1 b (by simp)).resolve_left hbh.ne
          exact old_left_after hbh hbc hsbp hc hqc (not_lt.1 hlt)
  rw [h2] 
  refine ⟨⟨hp, fun x hx => hbef x hx, hsuf⟩, ?_, ?_, ?_, ?_⟩
  · have := push_turns p stack h.turns
    rw [h2] at this; exact this
  · intro q hq
    rw [← List.cons_append] at hq
    rcases List.mem_append.1 hq with hq | hq
    · exact ⟨hedge q hq, hold q hq⟩
    · rw [List.mem_singleton.1 hq]
      exact ⟨by rw [area_self_mid], hnew⟩
  · refine ⟨p, b :: r, rfl, ?_⟩
    intro q hq
    rw [← List.cons_append] at hq
    rcases List.mem_append.1 hq with hq | hq
    · rcases hdone' q hq with hqs | hqs
      · exact Or.inr (Or.inl hqs)
      · exact Or.inr (Or.inr hqs.2)
    · exact Or.inl (List.mem_singleton.1 hq)
  · intro x hx
    rcases List.mem_cons.1 hx with rfl | hx
    · exact Or.inr (by simp)
    · rcases h.sub x (by rw [h1]; simp at hx ⊢; tauto) with hx' | hx'
      · exact Or.inl hx'
      · exact Or.inr (by simp [hx'])

theorem inv_scan {s : K × K} (pts : List (K × K)) (hh : ∀ p ∈ pts, InHalf s p) (ho : pts.Pairwise (After s)) :
    Inv s pts (scan s pts) := by
  have key : ∀ (pts done stack : List (K × K)), (∀ p ∈ done ++ pts, InHalf s p) → (done ++ pts).Pairwise (After s) →
      Inv s done stack → Inv s (done ++ pts) (pts.foldl (fun stack p => push p stack) stack) := by
    intro pts
    induction pts with
    | nil => intro done stack _ _ h; simpa using h
    | cons p pts ih =>
      intro done stack hh ho h
      have hstep : Inv s (done ++ [p]) (push p stack) := by
        refine inv_step h (hh p (by simp)) fun q hq => ⟨hh q (by simp [hq]), ?_⟩
        exact (List.pairwise_append.1 ho).2.2 q hq p (by simp)
      have := ih (done ++ [p]) (push p stack) (by simpa using hh) (by simpa using ho) hstep
      simpa using this
  refine key pts [] [s] (by simpa using hh) (by simpa using ho) ⟨rfl, trivial, ?_, ?_, ?_⟩
  · intro q _; trivial
  · exact ⟨s, [], rfl, by simp⟩
  · simp

/-! ### the two sorts give the angular order -/

theorem slope_le_iff {s p q : K × K} (hp : InHalf s p) (hq : InHalf s q) :
    slope s p ≤ slope s q ↔ 0 ≤ area s p q := by
  unfold slope area
  rcases hp with hp | ⟨hp, hp2⟩ <;> rcases hq with hq | ⟨hq, hq2⟩
  · rw [if_neg hp.ne, if_neg hq.ne, WithTop.coe_le_coe]
    have e1 : (s.2 - p.2) / (s.1 - p.1) = (p.2 - s.2) / (p.1 - s.1) := by
      rw [← neg_sub p.2, ← neg_sub p.1, neg_div_neg_eq]
    have e2 : (s.2 - q.2) / (s.1 - q.1) = (q.2 - s.2) / (q.1 - s.1) := by
      rw [← neg_sub q.2, ← neg_sub q.1, neg_div_neg_eq]
    rw [e1, e2, div_le_div_iff₀ (by linarith) (by linarith)]
    constructor <;> intro h <;> linarith
  · rw [if_neg hp.ne, if_pos hq]
    simp only [le_top, true_iff]
    rw [← hq, sub_self, zero_mul, sub_zero]
    exact mul_nonneg (by linarith) (by linarith)
  · rw [if_pos hp, if_neg hq.ne, top_le_iff]
    simp only [WithTop.coe_ne_top, false_iff, not_le]
    rw [← hp, sub_self, zero_mul, zero_sub, neg_lt_zero]
    exact mul_pos (by linarith) (by linarith)
  · rw [if_pos hp, if_pos hq, ← hp, ← hq]; simp

theorem orderedInsert_after {s a : K × K} (ha : InHalf s a) : ∀ (l : List (K × K)), (∀ p ∈ l, InHalf s p) →
    l.Pairwise (After s) → (∀ p ∈ l, a.1 < p.1 ∨ (a.1 = p.1 ∧ (a.1 = s.1 → a.2 < p.2)) ) → (∀ p ∈ l, a ≠ p) →
    (l.orderedInsert (fun p q => slope s p ≤ slope s q) a).Pairwise (After s)
  | [], _, _, _, _ => by simp
  | b :: l, hl, hpw, hx, hne => by
    have hb := hl b (by simp)
    have total : ∀ p ∈ b :: l, 0 ≤ area s a p → After s a p := by
      intro p hp h0
      rcases h0.lt_or_eq with h | h
      · exact Or.inl h
      · refine Or.inr ⟨h.symm, ?_⟩
        rcases hx p hp with hx' | ⟨hx', hx2⟩
        · exact Or.inl hx'
        · rcases ha with ha' | ⟨ha', _⟩
          · -- same x right of s and collinear: equal points
            exfalso
            have : area s a p = (a.1 - s.1) * (p.2 - a.2) := by unfold area; rw [← hx']; ring
            rw [this] at h
            have : p.2 - a.2 = 0 := (mul_eq_zero.1 h.symm).resolve_left (by linarith)
            exact hne p hp (Prod.ext hx' (by linarith))
          · exact Or.inr ⟨hx', hx2 ha'.symm⟩
    simp only [List.orderedInsert]
    split
    · rename_i hle
      refine List.pairwise_cons.2 ⟨?_, hpw⟩
      have hab : 0 ≤ area s a b := (slope_le_iff ha hb).1 hle
      intro p hp
      apply total p hp
      rcases List.mem_cons.1 hp with rfl | hp'
      · exact hab
      · have hbp : 0 ≤ area s b p := ((List.pairwise_cons.1 hpw).1 p hp').nonneg
        rw [← slope_le_iff ha (hl p hp)]
        exact hle.trans ((slope_le_iff hb (hl p hp)).2 hbp)
    · rename_i hle
      have ih := orderedInsert_after ha l (fun p hp => hl p (by simp [hp])) (List.pairwise_cons.1 hpw).2
        (fun p hp => hx p (by simp [hp])) (fun p hp => hne p (by simp [hp]))
      refine List.pairwise_cons.2 ⟨?_, ih⟩
      intro p hp
      rw [List.mem_orderedInsert] at hp
      rcases hp with rfl | hp
      · left
        have := (slope_le_iff ha hb).not.1 hle
        have e : area s b p = - area s p b := by unfold area; ring
        rw [e]; linarith
      · exact (List.pairwise_cons.1 hpw).1 p hp

theorem sortBySlope_after {s : K × K} (l : List (K × K)) (hl : ∀ p ∈ l, InHalf s p)
    (hx : l.Pairwise fun a p => a.1 < p.1 ∨ (a.1 = p.1 ∧ (a.1 = s.1 → a.2 < p.2))) (hnd : l.Nodup) :
    (sortBySlope s l).Pairwise (After s) := by
  unfold sortBySlope
  induction l with
  | nil => simp
  | cons a l ih =>
    rw [List.insertionSort_cons]
    have hmem : ∀ p, p ∈ l.insertionSort (fun p q => slope s p ≤ slope s q) ↔ p ∈ l := fun p =>
      (List.perm_insertionSort _ l).mem_iff
    have hnd' := List.nodup_cons.1 hnd
    have hx' := List.pairwise_cons.1 hx
    refine orderedInsert_after (hl a (by simp)) _ (fun p hp => hl p (by simp [(hmem p).1 hp]))
      (ih (fun p hp => hl p (by simp [hp])) hx'.2 hnd'.2) (fun p hp => hx'.1 p ((hmem p).1 hp)) ?_
    rintro p hp rfl
    exact hnd'.1 ((hmem a).1 hp)

end CML.Hull
