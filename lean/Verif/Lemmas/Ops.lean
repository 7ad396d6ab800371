import Verif.Spec.Ops
import Mathlib.Data.List.Dedup
import Mathlib.Tactic.Common
import Mathlib.Algebra.Order.Group.Defs

namespace CML.Ops

theorem rows_length {α : Type*} (x : Arr α) : x.rows.length = x.len := by
  cases x <;> simp [Arr.rows, Arr.len]

theorem rows_getElem? {α : Type*} (x : Arr α) (i : Nat) : x.rows[i]? = x.row? i := by
  cases x <;> simp [Arr.rows, Arr.row?]

theorem fancy_some {α : Type*} {cache : List α} {idx : List Nat} (h : ∀ i ∈ idx, i < cache.length) :
    ∃ es, fancy cache idx = some es ∧ es.length = idx.length ∧
      ∀ k : Nat, ∀ i, idx[k]? = some i → es[k]? = cache[i]? := by
  induction idx with
  | nil => exact ⟨[], by simp [fancy]⟩
  | cons i is ih =>
    obtain ⟨es, h1, h2, h3⟩ := ih (fun j hj => h j (by simp [hj]))
    have hi := h i (by simp)
    refine ⟨cache[i] :: es, ?_, by simp [h2], ?_⟩
    · unfold fancy at *
      simp [List.mapM_cons, h1, hi]
    · intro k j hk
      cases k with
      | zero => simp at hk; subst hk; simp [hi]
      | succ k => simp at hk; simpa using h3 k j hk

theorem fancy_draw {ρ : Type*} (rows : List ρ) (n : Nat) (hn : n = rows.length)
    (d : Fin n → Fin n) : ∃ xs, fancy rows ((List.ofFn d).map Fin.val) = some xs ∧ xs.length = n ∧
      ∀ k (hk : k < n), (xs[k]?).isSome ∧ xs[k]? = rows[(d ⟨k, hk⟩).1]? := by
  obtain ⟨xs, h1, h2, h3⟩ := fancy_some (cache := rows) (idx := (List.ofFn d).map Fin.val) (by
    intro i hi
    simp only [List.mem_map, List.mem_ofFn] at hi
    obtain ⟨a, ⟨b, rfl⟩, rfl⟩ := hi
    have := (d b).2; omega)
  refine ⟨xs, h1, by simpa using h2, fun k hk => ?_⟩
  have hk' := h3 k (d ⟨k, hk⟩).1 (by simp [hk])
  refine ⟨?_, hk'⟩
  have := (d ⟨k, hk⟩).2
  rw [hk']; simp; omega

section unique
variable {α : Type*} [DecidableEq α]

theorem atLeastTwo_iff (l : List α) : AtLeastTwo l ↔ 2 ≤ numUnique l := by
  unfold AtLeastTwo numUnique
  have hn := List.nodup_dedup l
  have hm : ∀ a, a ∈ l ↔ a ∈ l.dedup := fun a => List.mem_dedup.symm
  simp only [hm]
  generalize l.dedup = d at hn
  match d, hn with
  | [], _ => simp
  | [a], _ => simp
  | a :: b :: d, hn =>
    simp only [List.length_cons]
    constructor
    · omega
    · intro _; exact ⟨a, by simp, b, by simp, by simp at hn; tauto⟩

theorem moreThanTwo_iff (l : List α) : MoreThanTwo l ↔ 2 < numUnique l := by
  unfold MoreThanTwo numUnique
  have hn := List.nodup_dedup l
  have hm : ∀ a, a ∈ l ↔ a ∈ l.dedup := fun a => List.mem_dedup.symm
  simp only [hm]
  generalize l.dedup = d at hn
  match d, hn with
  | [], _ => simp
  | [a], _ => simp
  | [a, b], _ =>
    simp only [List.mem_cons, List.not_mem_nil, or_false]
    constructor
    · rintro ⟨x, hx, y, hy, z, hz, h⟩; rcases hx with rfl | rfl <;> rcases hy with rfl | rfl <;>
        rcases hz with rfl | rfl <;> simp_all
    · simp
  | a :: b :: c :: d, hn =>
    simp only [List.length_cons]
    constructor
    · omega
    · intro _; exact ⟨a, by simp, b, by simp, c, by simp, by simp at hn; tauto⟩

theorem exactlyTwo_iff (l : List α) : ExactlyTwo l ↔ numUnique l = 2 := by
  unfold ExactlyTwo numUnique
  have hn := List.nodup_dedup l
  have hm : ∀ a, a ∈ l ↔ a ∈ l.dedup := fun a => List.mem_dedup.symm
  simp only [hm]
  generalize l.dedup = d at hn
  match d, hn with
  | [], _ => simp
  | [a], _ => simp
  | [a, b], hn =>
    simp only [List.length_cons]
    constructor
    · simp
    · intro _; exact ⟨a, by simp, b, by simp, by simp at hn; tauto, by simp⟩
  | a :: b :: c :: d, hn =>
    simp only [List.length_cons]
    constructor
    · rintro ⟨x, hx, y, hy, hxy, h⟩
      exfalso
      have h1 := h a (by simp); have h2 := h b (by simp); have h3 := h c (by simp)
      simp at hn
      grind
    · omega

theorem numUnique_map_of_injOn {β : Type*} [DecidableEq β] (f : α → β) (l : List α)
    (h : ∀ a ∈ l, ∀ b ∈ l, f a = f b → a = b) : numUnique (l.map f) = numUnique l := by
  unfold numUnique
  have e : (l.map f).dedup.Perm (l.dedup.map f) := by
    apply (List.perm_ext_iff_of_nodup (List.nodup_dedup _) ?_).2
    · intro b; simp
    · apply List.Nodup.map_on _ (List.nodup_dedup l)
      intro a ha b hb; exact h a (List.mem_dedup.1 ha) b (List.mem_dedup.1 hb)
  simpa using e.length_eq

end unique

theorem typeOfTarget_spec {α : Type*} [DecidableEq α] (isInt : α → Bool) (y : Target α)
    (hd : 1 ≤ y.shape.length) (t : TargetType) :
    typeOfTarget isInt y = .ok t ↔ TargetSpec isInt y t := by
  obtain ⟨kind, shape, data⟩ := y
  unfold typeOfTarget TargetSpec
  simp only [atLeastTwo_iff, moreThanTwo_iff, exactlyTwo_iff] at *
  have hany : (data.any fun v => !isInt v) = true ↔ ∃ v ∈ data, isInt v = false := by simp
  by_cases h1 : kind = .object ∨ 2 < shape.length
  · simp only [gt_iff_lt, h1, if_true]
    cases t <;> simp
  · rw [if_neg (by simpa using h1)]
    by_cases h2 : kind = .float ∧ ∃ v ∈ data, isInt v = false
    · rw [if_pos (by rw [hany]; exact h2)]
      have h4 : shape.length ≤ 2 := by by_contra h; exact h1 (Or.inr (by omega))
      cases t <;> simp [h2, h4]
    · rw [if_neg (by rw [hany]; exact h2)]
      have hk : ¬ kind = .object := fun h => h1 (Or.inl h)
      match shape, hd, h1 with
      | [n], _, h1 =>
        rcases lt_trichotomy (numUnique data) 2 with ha | ha | ha
        · have e1 : ¬ numUnique data = 2 := by omega
          have e2 : ¬ 2 < numUnique data := by omega
          have e3 : ¬ 2 ≤ numUnique data := by omega
          cases t <;> simp [h2, hk, e1, e2, e3]
        · cases t <;> simp [h2, hk, ha]
        · have e1 : ¬ numUnique data = 2 := by omega
          have e3 : 2 ≤ numUnique data := by omega
          cases t <;> simp [h2, hk, e1, ha, e3]
      | [n, c], _, h1 =>
        rcases lt_trichotomy (numUnique data) 2 with ha | ha | ha
        · have e1 : ¬ numUnique data = 2 := by omega
          have e2 : ¬ 2 < numUnique data := by omega
          have e3 : ¬ 2 ≤ numUnique data := by omega
          by_cases hc : c = 1 <;> cases t <;> simp [h2, hk, e1, e2, e3, hc]
        · by_cases hc : c = 1 <;> cases t <;> simp [h2, hk, ha, hc]
        · have e1 : ¬ numUnique data = 2 := by omega
          have e3 : 2 ≤ numUnique data := by omega
          by_cases hc : c = 1 <;> cases t <;> simp [h2, hk, e1, ha, e3, hc]
      | _ :: _ :: _ :: _, _, h1 => simp at h1

/-! ### select_second_alpha -/

theorem mem_nonzero {mask : List Bool} {i : Nat} : i ∈ nonzero mask ↔ mask[i]? = some true := by
  simp only [nonzero, List.mem_filter, List.mem_range, decide_eq_true_eq]
  constructor
  · exact fun h => h.2
  · intro h; exact ⟨(List.getElem?_eq_some_iff.1 h).1, h⟩

theorem nonzero_sorted (mask : List Bool) : (nonzero mask).Pairwise (· < ·) :=
  List.Pairwise.filter _ List.pairwise_lt_range

theorem selectSecondAlpha_spec {K : Type*} [LinearOrder K] [AddGroup K] (error : K) (cache : List K)
    (nonBound : List Bool) (hlen : cache.length = nonBound.length) (hne : true ∈ nonBound) :
    ∃ i e, selectSecondAlpha error cache nonBound = .ok (i, e) ∧
      IsSecondChoice error cache nonBound i e := by
  obtain ⟨p, hp, hpt⟩ := List.mem_iff_getElem.1 hne
  have hmem : p ∈ nonzero nonBound := mem_nonzero.2 (by simp [hp, hpt])
  have hin : ∀ i ∈ nonzero nonBound, i < cache.length := by
    intro i hi
    have := (List.getElem?_eq_some_iff.1 (mem_nonzero.1 hi)).1
    omega
  obtain ⟨es, h1, h2, h3⟩ := fancy_some hin
  have hpos : 0 < es.length := by rw [h2]; exact List.length_pos_of_mem hmem
  have hne' : (es.map fun e => |error - e|) ≠ [] := by
    intro hc
    have := congrArg List.length hc
    simp at this; subst this; simp at hpos
  obtain ⟨k, hk⟩ := argmax?_isSome hne'
  obtain ⟨v, hv, hmax, hfirst⟩ := argmax?_spec hk
  rw [List.getElem?_map] at hv
  obtain ⟨e, he, rfl⟩ := Option.map_eq_some_iff.1 hv
  have hkl : k < (nonzero nonBound).length := by
    have := (List.getElem?_eq_some_iff.1 he).1; omega
  have hik : (nonzero nonBound)[k]? = some ((nonzero nonBound)[k]) := by simp [hkl]
  set i := (nonzero nonBound)[k] with hi
  have hce : cache[i]? = some e := by rw [← h3 k i hik]; exact he
  refine ⟨i, e, ?_, ?_, hce, ?_⟩
  · simp [selectSecondAlpha, h1, hk, hik, hce]
  · exact mem_nonzero.1 (List.getElem_mem hkl)
  · intro j e' hj hje
    obtain ⟨m, hm, hmj⟩ := List.mem_iff_getElem.1 (mem_nonzero.2 hj)
    have hmj' : (nonzero nonBound)[m]? = some j := by simp [hm, hmj]
    have hes : es[m]? = some e' := by rw [h3 m j hmj']; exact hje
    refine ⟨hmax _ (List.mem_map.2 ⟨e', List.mem_of_getElem? hes, rfl⟩), ?_⟩
    intro hji
    have hmk : m < k := by
      by_contra hc
      rcases Nat.lt_or_ge k m with h | h
      · have := List.pairwise_iff_getElem.1 (nonzero_sorted nonBound) k m hkl hm h
        omega
      · have : m = k := by omega
        subst this; omega
    exact hfirst m hmk _ (by simp [List.getElem?_map, hes])

end CML.Ops

namespace CML.Ops

/-! ### C++ `SelectSecondAlpha` -/

theorem ccSelectLoop_spec {K : Type*} [LinearOrder K] [AddGroup K] (error : K) (cache : Nat → K)
    (is : List Nat) : ∀ s : Nat × K × K,
    let r := ccSelectLoop error cache is s
    (r = s ∧ ∀ i ∈ is, |error - cache i| ≤ s.2.2) ∨
    (∃ k : Nat, ∃ _ : k < is.length, r = (is[k], cache is[k], |error - cache is[k]|) ∧
      s.2.2 < |error - cache is[k]| ∧
      (∀ i ∈ is, |error - cache i| ≤ |error - cache is[k]|) ∧
      ∀ m (hm : m < is.length), m < k → |error - cache is[m]| < |error - cache is[k]|) := by
  induction is with
  | nil => intro s; left; simp [ccSelectLoop]
  | cons i is ih =>
    rintro ⟨ia, ea, de⟩
    simp only [ccSelectLoop]
    split
    · rename_i hgt
      rcases ih (i, cache i, |error - cache i|) with ⟨h1, h2⟩ | ⟨k, hk, h1, h2, h3, h4⟩
      · right
        refine ⟨0, by simp, by simpa using h1, by simpa using hgt, ?_, by simp⟩
        intro j hj
        rcases List.mem_cons.1 hj with rfl | hj
        · simp
        · simpa using h2 j hj
      · right
        refine ⟨k + 1, by simpa using hk, by simpa using h1, ?_, ?_, ?_⟩
        · simpa using lt_trans hgt h2
        · intro j hj
          rcases List.mem_cons.1 hj with rfl | hj
          · simpa using h2.le
          · simpa using h3 j hj
        · intro m hm hmk
          cases m with
          | zero => simpa using h2
          | succ m => simpa using h4 m (by simpa using hm) (by omega)
    · rename_i hgt
      rcases ih (ia, ea, de) with ⟨h1, h2⟩ | ⟨k, hk, h1, h2, h3, h4⟩
      · left
        refine ⟨h1, ?_⟩
        intro j hj
        rcases List.mem_cons.1 hj with rfl | hj
        · exact not_lt.1 hgt
        · exact h2 j hj
      · right
        refine ⟨k + 1, by simpa using hk, by simpa using h1, by simpa using h2, ?_, ?_⟩
        · intro j hj
          rcases List.mem_cons.1 hj with rfl | hj
          · simpa using le_trans (not_lt.1 hgt) h2.le
          · simpa using h3 j hj
        · intro m hm hmk
          cases m with
          | zero => simpa using lt_of_le_of_lt (not_lt.1 hgt) h2
          | succ m => simpa using h4 m (by simpa using hm) (by omega)

end CML.Ops
