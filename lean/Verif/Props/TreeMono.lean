import Verif.Spec.TreeMono
import Verif.Props.TreeSym

set_option linter.unusedSectionVars false

/-! # Property C261: increasing transformations of the attributes do not change what a tree answers on its training set -/

namespace CML.DTree

universe w
variable {K : Type w} {m : Nat} [Field K] [LinearOrder K] [IsStrictOrderedRing K]

theorem pyUnique_map_on {α β : Type*} [DecidableEq α] [DecidableEq β] (f : α → β) : ∀ l : List α, (∀ a ∈ l, ∀ b ∈ l, f a = f b → a = b) →
    pyUnique (l.map f) = (pyUnique l).map f
  | [], _ => rfl
  | a :: l, h => by
    simp only [List.map_cons, pyUnique, pyUnique_map_on f l fun a ha b hb => h a (by simp [ha]) b (by simp [hb]), List.filter_map]
    congr 2
    refine List.filter_congr fun b hb => ?_
    have hb' : b ∈ l := mem_pyUnique.1 hb
    have : f b = f a ↔ b = a := ⟨h b (by simp [hb']) a (by simp), fun e => by rw [e]⟩
    simp [this]

theorem zip_filter_on {α α' β : Type*} (f : α → α') (p' : α' → Bool) (p : α → Bool) : ∀ (xs : List α) (ys : List β), (∀ a ∈ xs, p' (f a) = p a) →
    (((xs.map f).zip ys).filter fun q => p' q.1).map Prod.snd = (((xs.zip ys).filter fun q => p q.1).map Prod.snd)
  | [], _, _ => by simp
  | _ :: _, [], _ => by simp
  | a :: xs, b :: ys, h => by
    have ih := zip_filter_on f p' p xs ys fun a ha => h a (by simp [ha])
    simp only [List.map_cons, List.zip_cons_cons, List.filter_cons, h a (by simp)]
    cases p a <;> simp [ih]

theorem filter_map_on {α α' : Type*} (f : α → α') (p' : α' → Bool) (p : α → Bool) (xs : List α) (h : ∀ a ∈ xs, p' (f a) = p a) :
    (xs.map f).filter p' = (xs.filter p).map f := by
  rw [List.filter_map]; congr 1; exact List.filter_congr h

/-- The pairs of neighbours of a list. -/
def pairs : List K → List (K × K)
  | a :: b :: l => (a, b) :: pairs (b :: l)
  | _ => []

theorem midpoints_pairs : ∀ l : List K, midpoints l = (pairs l).map fun p => (p.1 + p.2) / 2
  | [] => rfl
  | [_] => rfl
  | a :: b :: l => by simp [midpoints, pairs, midpoints_pairs (b :: l)]

theorem pairs_map (f : K → K) : ∀ l : List K, pairs (l.map f) = (pairs l).map fun p => (f p.1, f p.2)
  | [] => rfl
  | [_] => rfl
  | a :: b :: l => by
    have := pairs_map f (b :: l)
    simp only [List.map_cons] at this
    simp [pairs, this]

/-- Neighbours in a strictly increasing list: nothing in between. -/
theorem pairs_spec : ∀ l : List K, l.Pairwise (· < ·) → ∀ p ∈ pairs l, p.1 ∈ l ∧ p.2 ∈ l ∧ p.1 < p.2 ∧ ∀ v ∈ l, v ≤ p.1 ∨ p.2 ≤ v
  | [], _, p, h => by simp [pairs] at h
  | [_], _, p, h => by simp [pairs] at h
  | a :: b :: l, hs, p, h => by
    have h1 := List.pairwise_cons.1 hs
    have h2 := List.pairwise_cons.1 h1.2
    rcases List.mem_cons.1 h with rfl | h
    · refine ⟨by simp, by simp, h1.1 b (by simp), fun v hv => ?_⟩
      rcases List.mem_cons.1 hv with rfl | hv
      · exact .inl le_rfl
      · rcases List.mem_cons.1 hv with rfl | hv
        · exact .inr le_rfl
        · exact .inr (h2.1 v hv).le
    · obtain ⟨e1, e2, e3, e4⟩ := pairs_spec (b :: l) h1.2 p h
      refine ⟨List.mem_cons_of_mem _ e1, List.mem_cons_of_mem _ e2, e3, fun v hv => ?_⟩
      rcases List.mem_cons.1 hv with rfl | hv
      · exact .inl (h1.1 _ e1).le
      · exact e4 v hv

theorem mid_iff {a b v : K} (hab : a < b) (hv : v ≤ a ∨ b ≤ v) : (a + b) / 2 ≤ v ↔ b ≤ v := by
  constructor
  · intro h
    rcases hv with h' | h'
    · linarith
    · exact h'
  · intro h; linarith

section column
variable {f : K → K} {D : List K}

/-- `f` keeps the order of the entries of `D`. -/
def Keeps (f : K → K) (D : List K) : Prop := ∀ u ∈ D, ∀ v ∈ D, u < v → f u < f v

theorem Keeps.lt (h : Keeps f D) {u v : K} (hu : u ∈ D) (hv : v ∈ D) : f u < f v ↔ u < v := by
  refine ⟨fun hl => ?_, h u hu v hv⟩
  rcases lt_trichotomy u v with h1 | h1 | h1
  · exact h1
  · rw [h1] at hl; exact absurd hl (lt_irrefl _)
  · exact absurd (h v hv u hu h1) (asymm hl)

theorem Keeps.le (h : Keeps f D) {u v : K} (hu : u ∈ D) (hv : v ∈ D) : f u ≤ f v ↔ u ≤ v := by
  rw [← not_lt, ← not_lt, h.lt hv hu]

theorem Keeps.inj (h : Keeps f D) : ∀ u ∈ D, ∀ v ∈ D, f u = f v → u = v := fun u hu v hv e => by
  rcases lt_trichotomy u v with h1 | h1 | h1
  · exact absurd (h u hu v hv h1) (by rw [e]; exact lt_irrefl _)
  · exact h1
  · exact absurd (h v hv u hu h1) (by rw [e]; exact lt_irrefl _)

theorem feats_keeps (h : Keeps f D) : (pyUnique (D.map f)).insertionSort (· ≤ ·) = ((pyUnique D).insertionSort (· ≤ ·)).map f := by
  rw [pyUnique_map_on f D h.inj]
  exact (List.map_insertionSort (r := (· ≤ ·)) (s := (· ≤ ·)) f _ fun u hu v hv => (h.le (mem_pyUnique.1 hu) (mem_pyUnique.1 hv)).symm).symm

theorem feats_sorted (D : List K) : ((pyUnique D).insertionSort (· ≤ ·)).Pairwise (· < ·) := by
  have h1 := List.pairwise_insertionSort (· ≤ ·) (pyUnique D)
  have h2 : ((pyUnique D).insertionSort (· ≤ ·)).Nodup := (List.perm_insertionSort (· ≤ ·) _).nodup_iff.2 (nodup_pyUnique D)
  exact (h1.and h2).imp fun h => lt_of_le_of_ne h.1 h.2

theorem mem_feats {v : K} : v ∈ (pyUnique D).insertionSort (· ≤ ·) ↔ v ∈ D := by
  rw [(List.perm_insertionSort (· ≤ ·) _).mem_iff, mem_pyUnique]

/-- Two dividing points that separate the entries in the same way. -/
def SameSide (f : K → K) (D : List K) (t t' : K) : Prop := ∀ v ∈ D, t' ≤ f v ↔ t ≤ v

theorem sameSide_pair (h : Keeps f D) {p : K × K} (hp : p ∈ pairs ((pyUnique D).insertionSort (· ≤ ·))) :
    SameSide f D ((p.1 + p.2) / 2) ((f p.1 + f p.2) / 2) := by
  obtain ⟨h1, h2, h3, h4⟩ := pairs_spec _ (feats_sorted D) p hp
  rw [mem_feats] at h1 h2
  intro v hv
  have h5 := h4 v (mem_feats.2 hv)
  rw [mid_iff h3 h5, mid_iff ((h.lt h1 h2).2 h3) (h5.imp (h.le hv h1).2 (h.le h2 hv).2), h.le h2 hv]

theorem contValue_same (imp : List Int → K) (y : List Int) {t t' : K} (h : SameSide f D t t') :
    contValue imp (D.map f) y t' = contValue imp D y t := by
  simp only [contValue]
  rw [zip_filter_on f (fun v => decide (t' ≤ v)) (fun v => decide (t ≤ v)) D y (fun v hv => by rw [decide_eq_decide]; exact h v hv),
    zip_filter_on f (fun v => decide (v < t')) (fun v => decide (v < t)) D y (fun v hv => by
      rw [decide_eq_decide, ← not_le, ← not_le, h v hv])]

theorem contBest_pairs (value value' : K → K) (g g' : K × K → K) : ∀ (l : List (K × K)) (w : WithTop K) (b b' : Option K),
    (∀ p ∈ l, value' (g' p) = value (g p)) →
    (contBest value' (l.map g') (w, b')).1 = (contBest value (l.map g) (w, b)).1 ∧
    (((contBest value' (l.map g') (w, b')).2 = b' ∧ (contBest value (l.map g) (w, b)).2 = b) ∨
      ∃ p ∈ l, (contBest value' (l.map g') (w, b')).2 = some (g' p) ∧ (contBest value (l.map g) (w, b)).2 = some (g p))
  | [], w, b, b', _ => ⟨rfl, .inl ⟨rfl, rfl⟩⟩
  | p :: l, w, b, b', h => by
    have hl := fun q hq => h q (List.mem_cons_of_mem p hq)
    simp only [List.map_cons, contBest, h p (by simp)]
    by_cases hc : ((value (g p) : K) : WithTop K) < w
    · rw [if_pos hc, if_pos hc]
      obtain ⟨e1, e2⟩ := contBest_pairs value value' g g' l _ (some (g p)) (some (g' p)) hl
      refine ⟨e1, .inr ?_⟩
      rcases e2 with ⟨e3, e4⟩ | ⟨q, hq, e⟩
      · exact ⟨p, by simp, e3, e4⟩
      · exact ⟨q, by simp [hq], e⟩
    · rw [if_neg hc, if_neg hc]
      obtain ⟨e1, e2⟩ := contBest_pairs value value' g g' l w b b' hl
      refine ⟨e1, e2.imp_right ?_⟩
      rintro ⟨q, hq, e⟩
      exact ⟨q, by simp [hq], e⟩

theorem discValue_keeps (imp : List Int → K) (h : Keeps f D) (y : List Int) : discValue imp (D.map f) y = discValue imp D y := by
  simp only [discValue]
  rw [pyUnique_map_on f D h.inj, List.map_map]
  congr 1
  refine List.map_congr_left fun v hv => ?_
  have hv' := mem_pyUnique.1 hv
  simp only [Function.comp_apply]
  rw [zip_filter_on f (fun u => decide (f v = u)) (fun u => decide (v = u)) D y (fun u hu => by
    rw [decide_eq_decide]; exact ⟨h.inj v hv' u hu, fun e => by rw [e]⟩)]

/-- The answers of the criterion for a column and for the transformed column. -/
def SameAnswer (f : K → K) (D : List K) (o o' : Option (Option K)) : Prop :=
  (o = none ∧ o' = none) ∨ (o = some none ∧ o' = some none) ∨ ∃ t t', o = some (some t) ∧ o' = some (some t') ∧ SameSide f D t t'

theorem getValue_keeps (imp : List Int → K) (h : Keeps f D) (c : Bool) (y : List Int) :
    (getValue imp id c (D.map f) y).1 = (getValue imp id c D y).1 ∧ SameAnswer f D (getValue imp id c D y).2 (getValue imp id c (D.map f) y).2 := by
  unfold getValue
  cases c with
  | false =>
    simp only [Bool.false_eq_true, if_false]
    rw [discValue_keeps imp h]
    exact ⟨rfl, .inl ⟨rfl, rfl⟩⟩
  | true =>
    simp only [if_true, List.map_id]
    rw [feats_keeps h, midpoints_pairs, midpoints_pairs, pairs_map, List.map_map]
    obtain ⟨e1, e2⟩ := contBest_pairs (contValue imp D y) (contValue imp (D.map f) y) (fun p => (p.1 + p.2) / 2) (fun p => (f p.1 + f p.2) / 2)
      (pairs ((pyUnique D).insertionSort (· ≤ ·))) ⊤ none none (fun p hp => contValue_same imp y (sameSide_pair h hp))
    refine ⟨e1, .inr ?_⟩
    rcases e2 with ⟨e3, e4⟩ | ⟨p, hp, e3, e4⟩
    · exact .inl ⟨congrArg some e4, congrArg some e3⟩
    · exact .inr ⟨_, _, congrArg some e4, congrArg some e3, sameSide_pair h hp⟩

end column

/-- The two loops over the attributes stop at the same attribute. -/
theorem minLoop_same (value value' : Fin m → WithTop K × Option (Option K)) (R : Fin m → Option (Option K) → Option (Option K) → Prop)
    (h : ∀ a, (value' a).1 = (value a).1 ∧ R a (value a).2 (value' a).2) : ∀ (cols : List (Fin m)) (b b' : Option (Fin m) × (WithTop K × Option (Option K))),
    (b'.1 = b.1 ∧ b'.2.1 = b.2.1 ∧ ∀ a, b.1 = some a → R a b.2.2 b'.2.2) →
    (minLoop value' cols b').1 = (minLoop value cols b).1 ∧ (minLoop value' cols b').2.1 = (minLoop value cols b).2.1 ∧
      ∀ a, (minLoop value cols b).1 = some a → R a (minLoop value cols b).2.2 (minLoop value' cols b').2.2
  | [], b, b', hb => hb
  | c :: cols, b, b', hb => by
    simp only [minLoop, (h c).1, hb.2.1]
    by_cases hc : (value c).1 < b.2.1
    · rw [if_pos hc, if_pos hc]
      exact minLoop_same value value' R h cols _ _ ⟨rfl, (h c).1, fun a ha => by obtain rfl := Option.some.inj ha; exact (h _).2⟩
    · rw [if_neg hc, if_neg hc]
      exact minLoop_same value value' R h cols _ _ hb

theorem maxLoop_same (value value' : Fin m → WithBot K × Option (Option K)) (R : Fin m → Option (Option K) → Option (Option K) → Prop)
    (h : ∀ a, (value' a).1 = (value a).1 ∧ R a (value a).2 (value' a).2) : ∀ (cols : List (Fin m)) (b b' : Option (Fin m) × (WithBot K × Option (Option K))),
    (b'.1 = b.1 ∧ b'.2.1 = b.2.1 ∧ ∀ a, b.1 = some a → R a b.2.2 b'.2.2) →
    (maxLoop value' cols b').1 = (maxLoop value cols b).1 ∧ (maxLoop value' cols b').2.1 = (maxLoop value cols b).2.1 ∧
      ∀ a, (maxLoop value cols b).1 = some a → R a (maxLoop value cols b).2.2 (maxLoop value' cols b').2.2
  | [], b, b', hb => hb
  | c :: cols, b, b', hb => by
    simp only [maxLoop, (h c).1, hb.2.1]
    by_cases hc : b.2.1 < (value c).1
    · rw [if_pos hc, if_pos hc]
      exact maxLoop_same value value' R h cols _ _ ⟨rfl, (h c).1, fun a ha => by obtain rfl := Option.some.inj ha; exact (h _).2⟩
    · rw [if_neg hc, if_neg hc]
      exact maxLoop_same value value' R h cols _ _ hb

variable {φ : Fin m → K → K}

/-- The criterion's choices on the rows and on the transformed rows. -/
def SameSplit (φ : Fin m → K → K) (xs : List (Row K m)) (s s' : Option (Fin m × Option K)) : Prop :=
  (s = none ∧ s' = none) ∨ (∃ a, s = some (a, none) ∧ s' = some (a, none)) ∨
    ∃ a t t', s = some (a, some t) ∧ s' = some (a, some t') ∧ ∀ r ∈ xs, t' ≤ φ a (r a) ↔ t ≤ r a

theorem column_moved (xs : List (Row K m)) (a : Fin m) : ((xs.map (moved φ)).map fun r => r a) = (xs.map fun r => r a).map (φ a) := by
  rw [List.map_map, List.map_map]; rfl

theorem keeps_column {X xs : List (Row K m)} (h : Increasing φ X) (hx : ∀ r ∈ xs, r ∈ X) (a : Fin m) : Keeps (φ a) (xs.map fun r => r a) := by
  intro u hu v hv
  obtain ⟨x, hx', rfl⟩ := List.mem_map.1 hu
  obtain ⟨y, hy', rfl⟩ := List.mem_map.1 hv
  exact h a x (hx x hx') y (hx y hy')

/-- What training may depend on. -/
structure OracleMono (φ : Fin m → K → K) (X : List (Row K m)) (o : Oracle K K m) : Prop where
  split : ∀ cols xs ys, (∀ r ∈ xs, r ∈ X) → SameSplit φ xs (o.split cols xs ys) (o.split cols (xs.map (moved φ)) ys)
  num : o.num = id
  fl : o.fl = id

theorem criterion_mono {X : List (Row K m)} (h : Increasing φ X) (imp : List Int → K) (isCont : List K → Bool)
    (hc : ∀ a D, (∀ v ∈ D, ∃ r ∈ X, v = r a) → isCont (D.map (φ a)) = isCont D) (maj : List Int → Option Int) :
    OracleMono φ X (criterionOracle imp id isCont maj id) := by
  refine ⟨fun cols xs ys hX => ?_, rfl, rfl⟩
  have hcont : ∀ a, isCont ((xs.map fun r => r a).map (φ a)) = isCont (xs.map fun r => r a) := fun a =>
    hc a _ fun v hv => by obtain ⟨r, hr, rfl⟩ := List.mem_map.1 hv; exact ⟨r, hX r hr, rfl⟩
  have key := minLoop_same (fun a => getValue imp id (isCont (xs.map fun r => r a)) (xs.map fun r => r a) ys)
    (fun a => getValue imp id (isCont ((xs.map (moved φ)).map fun r => r a)) ((xs.map (moved φ)).map fun r => r a) ys)
    (fun a => SameAnswer (φ a) (xs.map fun r => r a)) (fun a => by
      rw [column_moved, hcont a]; exact getValue_keeps imp (keeps_column h hX a) _ ys) cols (none, ⊤, none) (none, ⊤, none) ⟨rfl, rfl, by simp⟩
  simp only [criterionOracle, optimalDivision]
  generalize minLoop (fun a => getValue imp id (isCont (xs.map fun r => r a)) (xs.map fun r => r a) ys) cols (none, ⊤, none) = b at key
  generalize minLoop (fun a => getValue imp id (isCont ((xs.map (moved φ)).map fun r => r a)) ((xs.map (moved φ)).map fun r => r a) ys) cols (none, ⊤, none) = b' at key
  obtain ⟨b1, b2, b3⟩ := b
  obtain ⟨c1, c2, c3⟩ := b'
  obtain ⟨k1, k2, k3⟩ := key
  simp only at k1 k2 k3
  subst k1
  cases c1 with
  | none => exact .inl ⟨rfl, rfl⟩
  | some a =>
    rcases k3 a rfl with ⟨e, e'⟩ | ⟨e, e'⟩ | ⟨t, t', e, e', hs⟩
    · subst e e'; exact .inr (.inl ⟨a, rfl, rfl⟩)
    · subst e e'; exact .inl ⟨rfl, rfl⟩
    · subst e e'; exact .inr (.inr ⟨a, t, t', rfl, rfl, fun r hr => hs _ (List.mem_map.2 ⟨r, hr, rfl⟩)⟩)

theorem gain_mono {X : List (Row K m)} (h : Increasing φ X) (imp : List Int → K) (isCont : List K → Bool)
    (hc : ∀ a D, (∀ v ∈ D, ∃ r ∈ X, v = r a) → isCont (D.map (φ a)) = isCont D) (maj : List Int → Option Int) :
    OracleMono φ X (gainOracle imp id isCont maj id) := by
  refine ⟨fun cols xs ys hX => ?_, rfl, rfl⟩
  have hcont : ∀ a, isCont ((xs.map fun r => r a).map (φ a)) = isCont (xs.map fun r => r a) := fun a =>
    hc a _ fun v hv => by obtain ⟨r, hr, rfl⟩ := List.mem_map.1 hv; exact ⟨r, hX r hr, rfl⟩
  have key := maxLoop_same
    (fun a => (gainOf (imp ys) (getValue imp id (isCont (xs.map fun r => r a)) (xs.map fun r => r a) ys).1, (getValue imp id (isCont (xs.map fun r => r a)) (xs.map fun r => r a) ys).2))
    (fun a => (gainOf (imp ys) (getValue imp id (isCont ((xs.map (moved φ)).map fun r => r a)) ((xs.map (moved φ)).map fun r => r a) ys).1,
      (getValue imp id (isCont ((xs.map (moved φ)).map fun r => r a)) ((xs.map (moved φ)).map fun r => r a) ys).2))
    (fun a => SameAnswer (φ a) (xs.map fun r => r a)) (fun a => by
      simp only [column_moved, hcont a]
      obtain ⟨e1, e2⟩ := getValue_keeps imp (keeps_column h hX a) (isCont (xs.map fun r => r a)) ys
      exact ⟨by rw [e1], e2⟩) cols (none, ⊥, none) (none, ⊥, none) ⟨rfl, rfl, by simp⟩
  simp only [gainOracle, gainDivision]
  generalize maxLoop (fun a => (gainOf (imp ys) (getValue imp id (isCont (xs.map fun r => r a)) (xs.map fun r => r a) ys).1, (getValue imp id (isCont (xs.map fun r => r a)) (xs.map fun r => r a) ys).2)) cols (none, ⊥, none) = b at key
  generalize maxLoop (fun a => (gainOf (imp ys) (getValue imp id (isCont ((xs.map (moved φ)).map fun r => r a)) ((xs.map (moved φ)).map fun r => r a) ys).1,
      (getValue imp id (isCont ((xs.map (moved φ)).map fun r => r a)) ((xs.map (moved φ)).map fun r => r a) ys).2)) cols (none, ⊥, none) = b' at key
  obtain ⟨b1, b2, b3⟩ := b
  obtain ⟨c1, c2, c3⟩ := b'
  obtain ⟨k1, k2, k3⟩ := key
  simp only at k1 k2 k3
  subst k1
  cases c1 with
  | none => exact .inl ⟨rfl, rfl⟩
  | some a =>
    rcases k3 a rfl with ⟨e, e'⟩ | ⟨e, e'⟩ | ⟨t, t', e, e', hs⟩
    · subst e e'; exact .inr (.inl ⟨a, rfl, rfl⟩)
    · subst e e'; exact .inl ⟨rfl, rfl⟩
    · subst e e'; exact .inr (.inr ⟨a, t, t', rfl, rfl, fun r hr => hs _ (List.mem_map.2 ⟨r, hr, rfl⟩)⟩)

theorem selY_moved (p' p : Row K m → Bool) (xs : List (Row K m)) (ys : List Int) (h : ∀ r ∈ xs, p' (moved φ r) = p r) :
    selY p' (xs.map (moved φ)) ys = selY p xs ys := zip_filter_on (moved φ) p' p xs ys h

/-- The branches of a node tested by value. -/
inductive SameForest (φ : Fin m → K → K) (a : Fin m) (xs : List (Row K m)) : Forest K K m → Forest K K m → Prop
  | nil : SameForest φ a xs .nil .nil
  | cons (v : K) (T T' : Tree K K m) (f f' : Forest K K m) : (∀ r ∈ xs, r a = v → predict id (moved φ r) T' = predict id r T) → T.nl = T'.nl → T.ht = T'.ht →
      (∀ r ∈ xs, φ a (r a) = φ a v → r a = v) → SameForest φ a xs f f' → SameForest φ a xs (.cons v T f) (.cons (φ a v) T' f')

theorem SameForest.leaves {a : Fin m} {xs : List (Row K m)} {f f' : Forest K K m} (h : SameForest φ a xs f f') : sumLeaves f = sumLeaves f' := by
  induction h with
  | nil => rfl
  | cons v T T' f f' _ hn _ _ _ ih => simp only [sumLeaves, hn, ih]

theorem SameForest.height {a : Fin m} {xs : List (Row K m)} {f f' : Forest K K m} (h : SameForest φ a xs f f') : ∀ acc, maxHeight acc f = maxHeight acc f' := by
  induction h with
  | nil => intro acc; rfl
  | cons v T T' f f' _ _ hh _ _ ih => intro acc; simp only [maxHeight, hh, ih]

theorem SameForest.predict {a : Fin m} {xs : List (Row K m)} {f f' : Forest K K m} (h : SameForest φ a xs f f') (r : Row K m) (hr : r ∈ xs) :
    predictIn id (moved φ r) (φ a (r a)) f' = predictIn id r (r a) f := by
  induction h with
  | nil => simp only [predictIn]
  | cons v T T' f f' hp _ _ hi _ ih =>
    simp only [predictIn]
    by_cases hv : r a = v
    · rw [if_pos hv, if_pos (by rw [hv]), hp r hr hv]
    · rw [if_neg hv, if_neg (fun e => hv (hi r hr e)), ih]

theorem genForest_moved (a : Fin m) (xs : List (Row K m)) (gen gen' : K → Except PyErr (Tree K K m)) : ∀ vs : List K,
    (∀ v ∈ vs, SameOnTraining φ (xs.filter fun r => decide (r a = v)) (gen v) (gen' (φ a v))) → (∀ v ∈ vs, ∀ r ∈ xs, φ a (r a) = φ a v → r a = v) →
    (∃ e, genForest gen vs = .error e ∧ genForest gen' (vs.map (φ a)) = .error e) ∨
      ∃ f f', genForest gen vs = .ok f ∧ genForest gen' (vs.map (φ a)) = .ok f' ∧ SameForest φ a xs f f'
  | [], _, _ => .inr ⟨_, _, rfl, rfl, .nil⟩
  | v :: vs, h, hi => by
    have ih := genForest_moved a xs gen gen' vs (fun u hu => h u (by simp [hu])) (fun u hu => hi u (by simp [hu]))
    simp only [List.map_cons, genForest]
    rcases h v (by simp) with ⟨e, h1, h2⟩ | ⟨T, T', h1, h2, h3, h4, h5⟩
    · rw [h1, h2]; exact .inl ⟨e, rfl, rfl⟩
    · rw [h1, h2]
      rcases ih with ⟨e, h6, h7⟩ | ⟨f, f', h6, h7, h8⟩
      · rw [h6, h7]; exact .inl ⟨e, rfl, rfl⟩
      · rw [h6, h7]
        refine .inr ⟨_, _, rfl, rfl, .cons v T T' f f' (fun r hr hv => h3 r ?_) h4 h5 (hi v (by simp)) h8⟩
        simp [hr, hv]

theorem generate_mono {X : List (Row K m)} (h : Increasing φ X) {o : Oracle K K m} (ho : OracleMono φ X o) (fuel : Nat) :
    ∀ (cols : List (Fin m)) (xs : List (Row K m)) (ys : List Int), (∀ r ∈ xs, r ∈ X) →
    SameOnTraining φ xs (generate o X fuel cols xs ys) (generate o (X.map (moved φ)) fuel cols (xs.map (moved φ)) ys) := by
  induction fuel with
  | zero => intro cols xs ys _; exact .inl ⟨_, rfl, rfl⟩
  | succ fuel ih =>
    intro cols xs ys hX
    simp only [generate, List.map_eq_nil_iff]
    by_cases h1 : (pyUnique ys).length = 1
    · rw [if_pos h1, if_pos h1]
      cases ys with
      | nil => exact .inl ⟨_, rfl, rfl⟩
      | cons c l => exact .inr ⟨_, _, rfl, rfl, fun _ _ => by simp only [predict], rfl, rfl⟩
    · rw [if_neg h1, if_neg h1]
      by_cases h2 : xs = [] ∨ cols = []
      · rw [if_pos h2, if_pos h2]
        cases o.maj ys with
        | none => exact .inl ⟨_, rfl, rfl⟩
        | some c => exact .inr ⟨_, _, rfl, rfl, fun _ _ => by simp only [predict], rfl, rfl⟩
      · rw [if_neg h2, if_neg h2]
        rcases ho.split cols xs ys hX with ⟨e, e'⟩ | ⟨a, e, e'⟩ | ⟨a, t, t', e, e', hs⟩
        · rw [e, e']; exact .inl ⟨_, rfl, rfl⟩
        · rw [e, e']
          dsimp only
          have hk := keeps_column h (fun r hr => hr) a
          have hxk : ∀ r ∈ xs, r a ∈ X.map fun r => r a := fun r hr => List.mem_map.2 ⟨r, hX r hr, rfl⟩
          rw [column_moved, pyUnique_map_on (φ a) _ hk.inj]
          have key := genForest_moved (φ := φ) a xs (fun v => if selY (fun r => decide (r a = v)) xs ys = [] then
              generate o X fuel (cols.filter fun c => c ≠ a) (xs.filter fun r => decide (r a = v)) ys
            else generate o X fuel (cols.filter fun c => c ≠ a) (xs.filter fun r => decide (r a = v)) (selY (fun r => decide (r a = v)) xs ys))
            (fun v => if selY (fun r => decide (r a = v)) (xs.map (moved φ)) ys = [] then
              generate o (X.map (moved φ)) fuel (cols.filter fun c => c ≠ a) ((xs.map (moved φ)).filter fun r => decide (r a = v)) ys
            else generate o (X.map (moved φ)) fuel (cols.filter fun c => c ≠ a) ((xs.map (moved φ)).filter fun r => decide (r a = v)) (selY (fun r => decide (r a = v)) (xs.map (moved φ)) ys))
            (pyUnique (X.map fun r => r a)) (fun v hv => by
              have hp : ∀ r ∈ xs, decide ((moved φ r) a = φ a v) = decide (r a = v) := fun r hr => by
                rw [decide_eq_decide]; exact ⟨fun e => hk.inj _ (hxk r hr) _ (mem_pyUnique.1 hv) e, fun e => by rw [moved, e]⟩
              rw [selY_moved (φ := φ) (fun r => decide (r a = φ a v)) (fun r => decide (r a = v)) xs ys hp, filter_map_on (moved φ) (fun r => decide (r a = φ a v)) (fun r => decide (r a = v)) xs hp]
              by_cases he : selY (fun r => decide (r a = v)) xs ys = []
              · rw [if_pos he, if_pos he]; exact ih _ _ _ fun r hr => hX r (List.mem_of_mem_filter hr)
              · rw [if_neg he, if_neg he]; exact ih _ _ _ fun r hr => hX r (List.mem_of_mem_filter hr))
            (fun v hv r hr e => hk.inj _ (hxk r hr) _ (mem_pyUnique.1 hv) e)
          rcases key with ⟨e, k1, k2⟩ | ⟨f, f', k1, k2, k3⟩
          · rw [k1, k2]; exact .inl ⟨e, rfl, rfl⟩
          · rw [k1, k2]
            exact .inr ⟨_, _, rfl, rfl, fun r hr => by simp only [predict]; exact k3.predict r hr, k3.leaves, by simp only [Tree.ht, k3.height]⟩
        · rw [e, e']
          simp only [ho.num, ho.fl, id]
          have hu : ∀ r ∈ xs, decide (t' ≤ (moved φ r) a) = decide (t ≤ r a) := fun r hr => by rw [decide_eq_decide]; exact hs r hr
          have hd : ∀ r ∈ xs, decide ((moved φ r) a < t') = decide (r a < t) := fun r hr => by
            rw [decide_eq_decide, ← not_le, ← not_le]; exact not_congr (hs r hr)
          rw [selY_moved (φ := φ) _ _ xs ys hu, selY_moved (φ := φ) _ _ xs ys hd, filter_map_on (moved φ) _ _ xs hu, filter_map_on (moved φ) _ _ xs hd]
          have i1 := ih cols (xs.filter fun r => decide (t ≤ r a)) (selY (fun r => decide (t ≤ r a)) xs ys) fun r hr => hX r (List.mem_of_mem_filter hr)
          have i2 := ih cols (xs.filter fun r => decide (r a < t)) (selY (fun r => decide (r a < t)) xs ys) fun r hr => hX r (List.mem_of_mem_filter hr)
          rcases i1 with ⟨e, k1, k2⟩ | ⟨T, T', k1, k2, k3, k4, k5⟩
          · rw [k1, k2]
            rcases i2 with ⟨e, l1, l2⟩ | ⟨S, S', l1, l2, l3, l4, l5⟩ <;> rw [l1, l2] <;> exact .inl ⟨_, rfl, rfl⟩
          · rw [k1, k2]
            rcases i2 with ⟨e, l1, l2⟩ | ⟨S, S', l1, l2, l3, l4, l5⟩
            · rw [l1, l2]; exact .inl ⟨_, rfl, rfl⟩
            · rw [l1, l2]
              refine .inr ⟨_, _, rfl, rfl, fun r hr => ?_, by simp only [Tree.nl] at *; rw [k4, l4], by simp only [Tree.ht] at *; rw [k5, l5]⟩
              simp only [predict, id]
              by_cases hc : t ≤ r a
              · rw [if_pos hc, if_pos (show t' ≤ moved φ r a from (hs r hr).2 hc)]
                exact k3 r (List.mem_filter.2 ⟨hr, by simpa using hc⟩)
              · rw [if_neg hc, if_neg (show ¬ t' ≤ moved φ r a from fun h' => hc ((hs r hr).1 h'))]
                exact l3 r (List.mem_filter.2 ⟨hr, by simpa using hc⟩)

/-- C261: transforming every attribute by a function that increases on the values in the table gives the same exception or a tree with as many
leaves and the same height that answers every (transformed) training row as the original tree does. With the Gini criterion... -/
theorem C261_gini (xs : List (Row K m)) (ys : List Int) (h : Increasing φ xs) (isCont : List K → Bool)
    (hc : ∀ a D, (∀ v ∈ D, ∃ r ∈ xs, v = r a) → isCont (D.map (φ a)) = isCont D) (maj : List Int → Option Int) (limit : Nat) :
    SameOnTraining φ xs (fit (criterionOracle gini id isCont maj id) limit xs ys) (fit (criterionOracle gini id isCont maj id) limit (xs.map (moved φ)) ys) :=
  generate_mono h (criterion_mono h gini isCont hc maj) limit _ xs ys fun _ hr => hr

/-- ... with the entropy and with the information gain. -/
theorem C261_entropy_gain {φ : Fin m → ℝ → ℝ} (xs : List (Row ℝ m)) (ys : List Int) (h : Increasing φ xs) (isCont : List ℝ → Bool)
    (hc : ∀ a D, (∀ v ∈ D, ∃ r ∈ xs, v = r a) → isCont (D.map (φ a)) = isCont D) (maj : List Int → Option Int) (limit : Nat) :
    SameOnTraining φ xs (fit (criterionOracle entropy id isCont maj id) limit xs ys) (fit (criterionOracle entropy id isCont maj id) limit (xs.map (moved φ)) ys) ∧
    SameOnTraining φ xs (fit (gainOracle entropy id isCont maj id) limit xs ys) (fit (gainOracle entropy id isCont maj id) limit (xs.map (moved φ)) ys) :=
  ⟨generate_mono h (criterion_mono h entropy isCont hc maj) limit _ xs ys fun _ hr => hr,
    generate_mono h (gain_mono h entropy isCont hc maj) limit _ xs ys fun _ hr => hr⟩

/-- Squaring a positive column: the hypotheses hold, and the trees are those of a split in the middle of a gap. -/
example : Increasing (fun _ v => v * v) [(![1/2] : Row ℚ 1), ![3/2], ![5/2]] ∧
    (fit (criterionOracle gini id (fun _ => true) (fun ys => ys.head?) id) 10 [(![1/2] : Row ℚ 1), ![3/2], ![5/2]] [0, 0, 1]).map (fun T => [![1/2], ![3/2], ![5/2]].map fun r => predict id r T) =
      .ok [.ok 0, .ok 0, .ok 1] := by
  refine ⟨fun a x hx y hy => ?_, by decide +kernel⟩
  obtain rfl : a = 0 := Subsingleton.elim _ _
  simp only [List.mem_cons, List.not_mem_nil, or_false] at hx hy
  rcases hx with rfl | rfl | rfl <;> rcases hy with rfl | rfl | rfl <;> norm_num

/-- The restriction to training rows is needed: the split stays in the middle of the gap in the new unit, so that a row inside a gap may be
answered differently. -/
theorem C261_new_row : ∃ (xs : List (Row ℚ 1)) (ys : List Int) (r : Row ℚ 1), Increasing (fun _ v => v * v) xs ∧
    (fit (criterionOracle gini id (fun _ => true) (fun ys => ys.head?) id) 10 xs ys).map (predict id r) = .ok (.ok 1) ∧
    (fit (criterionOracle gini id (fun _ => true) (fun ys => ys.head?) id) 10 (xs.map (moved fun _ v => v * v)) ys).map (predict id (moved (fun _ v => v * v) r)) = .ok (.ok 0) := by
  refine ⟨[![1/2], ![3/2], ![5/2]], [0, 0, 1], ![203/100], fun a x hx y hy => ?_, by decide +kernel, by decide +kernel⟩
  obtain rfl : a = 0 := Subsingleton.elim _ _
  simp only [List.mem_cons, List.not_mem_nil, or_false] at hx hy
  rcases hx with rfl | rfl | rfl <;> rcases hy with rfl | rfl | rfl <;> norm_num

end CML.DTree
