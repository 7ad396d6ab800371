import Verif.Prelude
import Mathlib.Data.List.OfFn
import Mathlib.Data.Fintype.EquivFin
import Mathlib.Data.List.FinRange
import Mathlib.Logic.Equiv.Fin.Basic

/-! # Lemmas about symmetries: `argmin`/`argmax` depend on the order only; permuted lists -/

namespace CML

variable {α β γ : Type*}

theorem argminAux_congr [LinearOrder β] [LinearOrder γ] (f : α → β) (g : α → γ) (l : List α) :
    ∀ (b : α) (bi i : Nat), (∀ u ∈ b :: l, ∀ v ∈ b :: l, (f u < f v ↔ g u < g v)) →
      argminAux bi (f b) i (l.map f) = argminAux bi (g b) i (l.map g) := by
  induction l with
  | nil => intro b bi i _; rfl
  | cons a l ih =>
    intro b bi i h
    simp only [List.map_cons, argminAux]
    by_cases hab : f a < f b
    · rw [if_pos hab, if_pos ((h a (by simp) b (by simp)).1 hab)]
      exact ih a _ _ fun u hu v hv => h u (List.mem_cons_of_mem _ hu) v (List.mem_cons_of_mem _ hv)
    · rw [if_neg hab, if_neg (fun hc => hab ((h a (by simp) b (by simp)).2 hc))]
      refine ih b _ _ fun u hu v hv => h u ?_ v ?_
      · rcases List.mem_cons.1 hu with rfl | hu <;> simp [*]
      · rcases List.mem_cons.1 hv with rfl | hv <;> simp [*]

theorem argmin?_congr [LinearOrder β] [LinearOrder γ] (f : α → β) (g : α → γ) (l : List α)
    (h : ∀ u ∈ l, ∀ v ∈ l, (f u < f v ↔ g u < g v)) : argmin? (l.map f) = argmin? (l.map g) := by
  cases l with
  | nil => rfl
  | cons a l =>
    simp only [List.map_cons, argmin?, Option.some.injEq]
    exact argminAux_congr f g l a 0 1 h

theorem argmaxAux_congr [LinearOrder β] [LinearOrder γ] (f : α → β) (g : α → γ) (l : List α) :
    ∀ (b : α) (bi i : Nat), (∀ u ∈ b :: l, ∀ v ∈ b :: l, (f u < f v ↔ g u < g v)) →
      argmaxAux bi (f b) i (l.map f) = argmaxAux bi (g b) i (l.map g) := by
  induction l with
  | nil => intro b bi i _; rfl
  | cons a l ih =>
    intro b bi i h
    simp only [List.map_cons, argmaxAux]
    by_cases hab : f b < f a
    · rw [if_pos hab, if_pos ((h b (by simp) a (by simp)).1 hab)]
      exact ih a _ _ fun u hu v hv => h u (List.mem_cons_of_mem _ hu) v (List.mem_cons_of_mem _ hv)
    · rw [if_neg hab, if_neg (fun hc => hab ((h b (by simp) a (by simp)).2 hc))]
      refine ih b _ _ fun u hu v hv => h u ?_ v ?_
      · rcases List.mem_cons.1 hu with rfl | hu <;> simp [*]
      · rcases List.mem_cons.1 hv with rfl | hv <;> simp [*]

theorem argmax?_congr [LinearOrder β] [LinearOrder γ] (f : α → β) (g : α → γ) (l : List α)
    (h : ∀ u ∈ l, ∀ v ∈ l, (f u < f v ↔ g u < g v)) : argmax? (l.map f) = argmax? (l.map g) := by
  cases l with
  | nil => rfl
  | cons a l =>
    simp only [List.map_cons, argmax?, Option.some.injEq]
    exact argmaxAux_congr f g l a 0 1 h

theorem mapM_map_option (φ : α → β) (f : β → Option γ) (l : List α) : (l.map φ).mapM f = l.mapM fun a => f (φ a) := by
  induction l with
  | nil => rfl
  | cons a l ih => simp [List.mapM_cons, ih]

theorem mapM_congr_option (f g : α → Option γ) (l : List α) (h : ∀ a ∈ l, f a = g a) : l.mapM f = l.mapM g := by
  induction l with
  | nil => rfl
  | cons a l ih => simp [List.mapM_cons, ih fun b hb => h b (by simp [hb]), h a (by simp)]

theorem mapM_eq_some_map (f : α → Option γ) (g : α → γ) (l : List α) (h : ∀ a ∈ l, f a = some (g a)) : l.mapM f = some (l.map g) := by
  induction l with
  | nil => rfl
  | cons a l ih => simp [List.mapM_cons, ih fun b hb => h b (by simp [hb]), h a (by simp)]

theorem mapM_eq_none (f : α → Option γ) (l : List α) (a : α) (ha : a ∈ l) (h : f a = none) : l.mapM f = none := by
  induction l with
  | nil => simp at ha
  | cons b l ih =>
    rcases List.mem_cons.1 ha with rfl | ha
    · simp [List.mapM_cons, h]
    · simp only [List.mapM_cons, ih ha]
      cases f b <;> rfl

theorem zip_ofFn {n : Nat} (f : Fin n → α) (g : Fin n → β) : (List.ofFn f).zip (List.ofFn g) = List.ofFn fun i => (f i, g i) := by
  refine List.ext_getElem (by simp) fun i h1 h2 => ?_
  simp

end CML
