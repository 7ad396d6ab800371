import Verif.Spec.TreeSym
import Verif.Lemmas.Tree
import Verif.Model.Entropy
import Verif.Props.SmallTreesSym

set_option linter.unusedSectionVars false

/-! # Properties C189-C191: decision trees do not depend on units, on the names of values and classes, or on the order of the samples -/

namespace CML.DTree

universe u u' w
variable {V : Type u} {V' : Type u'} {K : Type w} {m : Nat} [DecidableEq V] [DecidableEq V'] [Field K] [LinearOrder K] [IsStrictOrderedRing K]

theorem pyUnique_map {α β : Type*} [DecidableEq α] [DecidableEq β] {f : α → β} (hf : Function.Injective f) (l : List α) : pyUnique (l.map f) = (pyUnique l).map f := by
  induction l with
  | nil => rfl
  | cons a l ih =>
    simp only [List.map_cons, pyUnique, ih, List.filter_map]
    congr 2
    refine List.filter_congr fun b _ => ?_
    simp [hf.eq_iff]

section recode
variable {ρ : Recoding V V' K m} {X : List (Row V m)} {num : V → K} {num' : V' → K} {isCont : List V → Bool} {isCont' : List V' → Bool}

theorem zip_map_filter {α α' β β' : Type*} (f : α → α') (g : β → β') (p' : α' → Bool) (p : α → Bool) (h : ∀ a, p' (f a) = p a) : ∀ (xs : List α) (ys : List β),
    (((xs.map f).zip (ys.map g)).filter fun q => p' q.1).map Prod.snd = (((xs.zip ys).filter fun q => p q.1).map Prod.snd).map g
  | [], _ => by simp
  | _ :: _, [] => by simp
  | a :: xs, b :: ys => by
    have ih := zip_map_filter f g p' p h xs ys
    simp only [List.map_cons, List.zip_cons_cons, List.filter_cons, h]
    cases p a <;> simp [ih]

theorem selY_recode (p' : Row V' m → Bool) (p : Row V m → Bool) (h : ∀ r, p' (ρ.row r) = p r) (xs : List (Row V m)) (ys : List Int) :
    selY p' (xs.map ρ.row) (ys.map ρ.label) = (selY p xs ys).map ρ.label := zip_map_filter ρ.row ρ.label p' p h xs ys

theorem contValue_recode (imp : List Int → K) (hi : ∀ ys : List Int, imp (ys.map ρ.label) = imp ys) (a : Fin m) (ha : 0 < ρ.factor a) (D : List K) (y : List Int) (t : K) :
    contValue imp (D.map (ρ.point a)) (y.map ρ.label) (ρ.point a t) = contValue imp D y t := by
  simp only [contValue]
  rw [zip_map_filter (ρ.point a) ρ.label (fun v => decide (ρ.point a t ≤ v)) (fun v => decide (t ≤ v))
      (fun v => by rw [decide_eq_decide]; exact Small.affine_le ha t v),
    zip_map_filter (ρ.point a) ρ.label (fun v => decide (v < ρ.point a t)) (fun v => decide (v < t))
      (fun v => by rw [decide_eq_decide]; exact Small.affine_lt ha v t)]
  simp only [List.length_map, hi]

theorem discValue_recode (imp : List Int → K) (hi : ∀ ys : List Int, imp (ys.map ρ.label) = imp ys) (φ : V → V') (hφ : Function.Injective φ) (D : List V) (y : List Int) :
    discValue imp (D.map φ) (y.map ρ.label) = discValue imp D y := by
  simp only [discValue]
  rw [pyUnique_map hφ, List.map_map]
  congr 1
  refine List.map_congr_left fun v _ => ?_
  simp only [Function.comp_apply]
  rw [zip_map_filter φ ρ.label (fun u => decide (φ v = u)) (fun u => decide (v = u)) (fun u => by rw [decide_eq_decide]; exact hφ.eq_iff)]
  simp only [List.length_map, hi]

theorem getValue_recode (h : ρ.Faithful X num num' isCont isCont') (imp : List Int → K) (hi : ∀ ys : List Int, imp (ys.map ρ.label) = imp ys) (a : Fin m) (c : Bool)
    (D : List V) (y : List Int) :
    getValue imp num' c (D.map (ρ.val a)) (y.map ρ.label) =
      ((getValue imp num c D y).1, (getValue imp num c D y).2.map fun p => p.map (ρ.point a)) := by
  unfold getValue
  cases c with
  | false =>
    simp only [Bool.false_eq_true, if_false, Option.map_none]
    rw [discValue_recode imp hi _ (h.val a)]
  | true =>
    simp only [if_true, Option.map_some]
    have hn : (D.map (ρ.val a)).map num' = (D.map num).map (ρ.point a) := by
      rw [List.map_map, List.map_map]; exact List.map_congr_left fun v _ => h.num a v
    have hinj : Function.Injective (ρ.point a) := by
      intro u v huv
      have := add_right_cancel (show ρ.factor a * u + ρ.offset a = ρ.factor a * v + ρ.offset a from huv)
      exact mul_left_cancel₀ (h.factor a).ne' this
    rw [hn, pyUnique_map hinj, ← List.map_insertionSort (r := (· ≤ ·)) (s := (· ≤ ·)) (ρ.point a) _ (fun u _ v _ => (Small.affine_le (h.factor a) u v).symm)]
    have hmid : midpoints (((pyUnique (D.map num)).insertionSort (· ≤ ·)).map (ρ.point a)) = (midpoints ((pyUnique (D.map num)).insertionSort (· ≤ ·))).map (ρ.point a) :=
      Small.midpoints_affine (ρ.factor a) (ρ.offset a) _
    rw [hmid]
    have := Small.contBest_map (contValue imp (D.map num) y) (contValue imp ((D.map num).map (ρ.point a)) (y.map ρ.label)) (ρ.point a)
      (contValue_recode imp hi a (h.factor a) (D.map num) y) (midpoints ((pyUnique (D.map num)).insertionSort (· ≤ ·))) (⊤, none)
    simp only [Option.map_none] at this
    rw [this]

/-- The best attribute so far with its recoded dividing point. -/
def movedBest {L : Type*} (ρ : Recoding V V' K m) : Option (Fin m) × (L × Option (Option K)) → Option (Fin m) × (L × Option (Option K))
  | (some a, v, p) => (some a, v, p.map fun p => p.map (ρ.point a))
  | (none, v, p) => (none, v, p)

theorem movedBest_value {L : Type*} (b : Option (Fin m) × (L × Option (Option K))) : (movedBest ρ b).2.1 = b.2.1 := by
  rcases b with ⟨_ | a, v, p⟩ <;> rfl

theorem minLoop_recode (value value' : Fin m → WithTop K × Option (Option K)) (h : ∀ a, value' a = ((value a).1, (value a).2.map fun p => p.map (ρ.point a)))
    (cols : List (Fin m)) : ∀ best, minLoop value' cols (movedBest ρ best) = movedBest ρ (minLoop value cols best) := by
  induction cols with
  | nil => intro best; rfl
  | cons a cols ih =>
    intro best
    simp only [minLoop, movedBest_value, h]
    rw [← ih]
    by_cases hc : (value a).1 < best.2.1
    · rw [if_pos hc, if_pos hc]; rfl
    · rw [if_neg hc, if_neg hc]

theorem maxLoop_recode (value value' : Fin m → WithBot K × Option (Option K)) (h : ∀ a, value' a = ((value a).1, (value a).2.map fun p => p.map (ρ.point a)))
    (cols : List (Fin m)) : ∀ best, maxLoop value' cols (movedBest ρ best) = movedBest ρ (maxLoop value cols best) := by
  induction cols with
  | nil => intro best; rfl
  | cons a cols ih =>
    intro best
    simp only [maxLoop, movedBest_value, h]
    rw [← ih]
    by_cases hc : best.2.1 < (value a).1
    · rw [if_pos hc, if_pos hc]; rfl
    · rw [if_neg hc, if_neg hc]

theorem column_recode (xs : List (Row V m)) (a : Fin m) : ((xs.map ρ.row).map fun r => r a) = (xs.map fun r => r a).map (ρ.val a) := by
  rw [List.map_map, List.map_map]; rfl

/-- The two oracles correspond to each other. -/
structure OracleRecode (ρ : Recoding V V' K m) (X : List (Row V m)) (o : Oracle V K m) (o' : Oracle V' K m) : Prop where
  split : ∀ cols xs ys, (∀ r ∈ xs, r ∈ X) → o'.split cols (xs.map ρ.row) (ys.map ρ.label) = (o.split cols xs ys).map fun s => (s.1, s.2.map (ρ.point s.1))
  maj : ∀ ys, o'.maj (ys.map ρ.label) = (o.maj ys).map ρ.label
  num : ∀ a v, o'.num (ρ.val a v) = ρ.point a (o.num v)
  fl : ∀ a t, o'.fl (ρ.point a t) = ρ.point a (o.fl t)

theorem criterion_recode (h : ρ.Faithful X num num' isCont isCont') (imp : List Int → K) (hi : ∀ ys : List Int, imp (ys.map ρ.label) = imp ys)
    (maj maj' : List Int → Option Int) (hm : ∀ ys, maj' (ys.map ρ.label) = (maj ys).map ρ.label) :
    OracleRecode ρ X (criterionOracle imp num isCont maj id) (criterionOracle imp num' isCont' maj' id) := by
  refine ⟨fun cols xs ys hX => ?_, hm, h.num, fun _ _ => rfl⟩
  have hc : ∀ a, isCont' ((xs.map fun r => r a).map (ρ.val a)) = isCont (xs.map fun r => r a) := fun a =>
    h.cont a _ fun v hv => by obtain ⟨r, hr, rfl⟩ := List.mem_map.1 hv; exact ⟨r, hX r hr, rfl⟩
  simp only [criterionOracle, optimalDivision]
  rw [show (none, (⊤ : WithTop K), none) = movedBest ρ (none, (⊤ : WithTop K), none) from rfl,
    minLoop_recode (fun a => getValue imp num (isCont (xs.map fun r => r a)) (xs.map fun r => r a) ys) _ (fun a => by
      simp only [column_recode, hc a, getValue_recode h imp hi a])]
  rw [show movedBest ρ (none, (⊤ : WithTop K), none) = (none, (⊤ : WithTop K), none) from rfl]
  generalize minLoop (K := K) _ cols _ = b
  rcases b with ⟨_ | a, v, _ | _ | p⟩ <;> rfl

theorem gain_recode (h : ρ.Faithful X num num' isCont isCont') (imp : List Int → K) (hi : ∀ ys : List Int, imp (ys.map ρ.label) = imp ys)
    (maj maj' : List Int → Option Int) (hm : ∀ ys, maj' (ys.map ρ.label) = (maj ys).map ρ.label) :
    OracleRecode ρ X (gainOracle imp num isCont maj id) (gainOracle imp num' isCont' maj' id) := by
  refine ⟨fun cols xs ys hX => ?_, hm, h.num, fun _ _ => rfl⟩
  have hc : ∀ a, isCont' ((xs.map fun r => r a).map (ρ.val a)) = isCont (xs.map fun r => r a) := fun a =>
    h.cont a _ fun v hv => by obtain ⟨r, hr, rfl⟩ := List.mem_map.1 hv; exact ⟨r, hX r hr, rfl⟩
  simp only [gainOracle, gainDivision]
  rw [show (none, (⊥ : WithBot K), none) = movedBest ρ (none, (⊥ : WithBot K), none) from rfl,
    maxLoop_recode (fun a => (gainOf (imp ys) (getValue imp num (isCont (xs.map fun r => r a)) (xs.map fun r => r a) ys).1,
      (getValue imp num (isCont (xs.map fun r => r a)) (xs.map fun r => r a) ys).2)) _ (fun a => by
      simp only [column_recode, hc a, getValue_recode h imp hi a, hi])]
  rw [show movedBest ρ (none, (⊥ : WithBot K), none) = (none, (⊥ : WithBot K), none) from rfl]
  generalize maxLoop (K := K) _ cols _ = b
  rcases b with ⟨_ | a, v, _ | _ | p⟩ <;> rfl

theorem recode_nl (T : Tree V K m) : (T.recode ρ).nl = T.nl := by cases T <;> simp [Tree.recode, Tree.nl]
theorem recode_ht (T : Tree V K m) : (T.recode ρ).ht = T.ht := by cases T <;> simp [Tree.recode, Tree.ht]
theorem recode_isLeaf (T : Tree V K m) : (T.recode ρ).isLeaf = T.isLeaf := by cases T <;> simp [Tree.recode, Tree.isLeaf]

theorem sumLeaves_recode (a : Fin m) : ∀ f : Forest V K m, sumLeaves (f.recode ρ a) = sumLeaves f
  | .nil => rfl
  | .cons v t r => by simp [Forest.recode, sumLeaves, recode_nl, sumLeaves_recode a r]

theorem maxHeight_recode (a : Fin m) : ∀ (f : Forest V K m) (acc : Int), maxHeight acc (f.recode ρ a) = maxHeight acc f
  | .nil, _ => rfl
  | .cons v t r, acc => by simp [Forest.recode, maxHeight, recode_ht, maxHeight_recode a r]

theorem genForest_recode (a : Fin m) (gen : V → Except PyErr (Tree V K m)) (gen' : V' → Except PyErr (Tree V' K m)) (h : ∀ v, gen' (ρ.val a v) = (gen v).map (Tree.recode ρ)) :
    ∀ vs, genForest gen' (vs.map (ρ.val a)) = (genForest gen vs).map (Forest.recode ρ a)
  | [] => rfl
  | v :: vs => by
    simp only [List.map_cons, genForest, h, genForest_recode a gen gen' h vs]
    cases gen v with
    | error e => rfl
    | ok t =>
      cases genForest gen vs with
      | error e => rfl
      | ok f => rfl

theorem generate_recode {o : Oracle V K m} {o' : Oracle V' K m} (h : OracleRecode ρ X o o') (hv : ∀ a, Function.Injective (ρ.val a)) (hl : Function.Injective ρ.label)
    (hf : ∀ a, 0 < ρ.factor a) (full : List (Row V m)) (fuel : Nat) : ∀ (cols : List (Fin m)) (xs : List (Row V m)) (ys : List Int), (∀ r ∈ xs, r ∈ X) →
    generate o' (full.map ρ.row) fuel cols (xs.map ρ.row) (ys.map ρ.label) = (generate o full fuel cols xs ys).map (Tree.recode ρ) := by
  induction fuel with
  | zero => intro cols xs ys _; rfl
  | succ fuel ih =>
    intro cols xs ys hX
    have hsub : ∀ p : Row V m → Bool, ∀ r ∈ xs.filter p, r ∈ X := fun p r hr => hX r (List.mem_of_mem_filter hr)
    simp only [generate, pyUnique_map hl, List.length_map, List.map_eq_nil_iff]
    by_cases h1 : (pyUnique ys).length = 1
    · rw [if_pos h1, if_pos h1]
      cases ys <;> rfl
    · rw [if_neg h1, if_neg h1]
      by_cases h2 : xs = [] ∨ cols = []
      · rw [if_pos h2, if_pos h2, h.maj]
        cases o.maj ys <;> rfl
      · rw [if_neg h2, if_neg h2, h.split cols xs ys hX]
        rcases o.split cols xs ys with _ | ⟨a, _ | t₀⟩
        · rfl
        · simp only [Option.map_some, Option.map_none]
          rw [column_recode, pyUnique_map (hv a)]
          have hp : ∀ v : V, ∀ r : Row V m, decide ((ρ.row r) a = ρ.val a v) = decide (r a = v) := fun v r => by
            rw [decide_eq_decide]; exact (hv a).eq_iff
          rw [genForest_recode a (fun v => if selY (fun r => decide (r a = v)) xs ys = [] then
              generate o full fuel (cols.filter fun c => c ≠ a) (xs.filter fun r => decide (r a = v)) ys
            else generate o full fuel (cols.filter fun c => c ≠ a) (xs.filter fun r => decide (r a = v))
              (selY (fun r => decide (r a = v)) xs ys))]
          · generalize genForest (V := V) (K := K) (m := m) _ _ = g
            cases g with
            | error e => rfl
            | ok br =>
              simp only [Except.map, Tree.recode, sumLeaves_recode, maxHeight_recode]
          · intro v
            rw [selY_recode (fun r => decide (r a = ρ.val a v)) (fun r => decide (r a = v)) (hp v)]
            have hx : (xs.map ρ.row).filter (fun r => decide (r a = ρ.val a v)) = (xs.filter fun r => decide (r a = v)).map ρ.row := by
              rw [List.filter_map]; congr 1; exact List.filter_congr fun r _ => hp v r
            simp only [List.map_eq_nil_iff]
            by_cases he : selY (fun r => decide (r a = v)) xs ys = []
            · rw [if_pos he, if_pos he, hx, ih _ _ _ (hsub _)]
            · rw [if_neg he, if_neg he, hx, ih _ _ _ (hsub _)]
        · simp only [Option.map_some, h.fl]
          have hu : ∀ r : Row V m, decide (ρ.point a (o.fl t₀) ≤ o'.num ((ρ.row r) a)) = decide (o.fl t₀ ≤ o.num (r a)) := fun r => by
            rw [decide_eq_decide]
            show ρ.point a (o.fl t₀) ≤ o'.num (ρ.val a (r a)) ↔ _
            rw [h.num]; exact Small.affine_le (hf a) _ _
          have hd : ∀ r : Row V m, decide (o'.num ((ρ.row r) a) < ρ.point a (o.fl t₀)) = decide (o.num (r a) < o.fl t₀) := fun r => by
            rw [decide_eq_decide]
            show o'.num (ρ.val a (r a)) < ρ.point a (o.fl t₀) ↔ _
            rw [h.num]; exact Small.affine_lt (hf a) _ _
          have hxu : (xs.map ρ.row).filter (fun r => decide (ρ.point a (o.fl t₀) ≤ o'.num (r a))) = (xs.filter fun r => decide (o.fl t₀ ≤ o.num (r a))).map ρ.row := by
            rw [List.filter_map]; congr 1; exact List.filter_congr fun r _ => hu r
          have hxd : (xs.map ρ.row).filter (fun r => decide (o'.num (r a) < ρ.point a (o.fl t₀))) = (xs.filter fun r => decide (o.num (r a) < o.fl t₀)).map ρ.row := by
            rw [List.filter_map]; congr 1; exact List.filter_congr fun r _ => hd r
          rw [hxu, hxd, selY_recode _ (fun r => decide (o.fl t₀ ≤ o.num (r a))) hu, selY_recode _ (fun r => decide (o.num (r a) < o.fl t₀)) hd, ih _ _ _ (hsub _), ih _ _ _ (hsub _)]
          generalize generate o full fuel cols (xs.filter fun r => decide (o.fl t₀ ≤ o.num (r a))) (selY (fun r => decide (o.fl t₀ ≤ o.num (r a))) xs ys) = g
          generalize generate o full fuel cols (xs.filter fun r => decide (o.num (r a) < o.fl t₀)) (selY (fun r => decide (o.num (r a) < o.fl t₀)) xs ys) = l
          cases g <;> cases l <;> simp [Except.map, Tree.recode, recode_nl, recode_ht]

mutual
theorem predict_recode (hv : ∀ a, Function.Injective (ρ.val a)) (hf : ∀ a, 0 < ρ.factor a) (hn : ∀ a v, num' (ρ.val a v) = ρ.point a (num v)) (r : Row V m) :
    ∀ T : Tree V K m, predict num' (ρ.row r) (T.recode ρ) = (predict num r T).map ρ.label
  | .leaf c => by simp [Tree.recode, predict, Except.map]
  | .cont a t _ _ g l => by
    have h : ρ.point a t ≤ num' ((ρ.row r) a) ↔ t ≤ num (r a) := by
      show ρ.point a t ≤ num' (ρ.val a (r a)) ↔ _
      rw [hn]; exact Small.affine_le (hf a) _ _
    simp only [Tree.recode, predict, predict_recode hv hf hn r g, predict_recode hv hf hn r l, h]
    by_cases hc : t ≤ num (r a)
    · rw [if_pos hc, if_pos hc]
    · rw [if_neg hc, if_neg hc]
  | .disc a _ _ br => by
    simp only [Tree.recode, predict]
    exact predictIn_recode hv hf hn r a (r a) br
theorem predictIn_recode (hv : ∀ a, Function.Injective (ρ.val a)) (hf : ∀ a, 0 < ρ.factor a) (hn : ∀ a v, num' (ρ.val a v) = ρ.point a (num v)) (r : Row V m) (a : Fin m) (v : V) :
    ∀ f : Forest V K m, predictIn num' (ρ.row r) (ρ.val a v) (f.recode ρ a) = (predictIn num r v f).map ρ.label
  | .nil => by simp [Forest.recode, predictIn, Except.map]
  | .cons w t rest => by
    simp only [Forest.recode, predictIn, predict_recode hv hf hn r t, predictIn_recode hv hf hn r a v rest, (hv a).eq_iff]
    by_cases hc : v = w
    · rw [if_pos hc, if_pos hc]
    · rw [if_neg hc, if_neg hc]
end

theorem filter_sample (p' : Row V' m × Int → Bool) (p : Row V m × Int → Bool) (h : ∀ q, p' (ρ.sample q) = p q) (d : List (Row V m × Int)) :
    (d.map ρ.sample).filter p' = (d.filter p).map ρ.sample := by
  rw [List.filter_map]; congr 1; exact List.filter_congr fun q _ => h q

theorem countP_sample (p' : Row V' m × Int → Bool) (p : Row V m × Int → Bool) (h : ∀ q, p' (ρ.sample q) = p q) (d : List (Row V m × Int)) :
    countP p' (d.map ρ.sample) = countP p d := by
  unfold countP; rw [filter_sample p' p h, List.length_map]

theorem leafOf_recode (hv : ∀ a, Function.Injective (ρ.val a)) (a : Fin m) (v : V) : ∀ f : Forest V K m, leafOf (ρ.val a v) (f.recode ρ a) = (leafOf v f).map ρ.label
  | .nil => by simp [Forest.recode, leafOf]
  | .cons w t rest => by
    simp only [Forest.recode, leafOf, leafOf_recode hv a v rest, (hv a).eq_iff]
    by_cases hc : v = w
    · rw [if_pos hc, if_pos hc]; cases t <;> simp [Tree.recode]
    · rw [if_neg hc, if_neg hc]

theorem allLeaves_recode (a : Fin m) : ∀ f : Forest V K m, allLeaves (f.recode ρ a) = allLeaves f
  | .nil => by simp [Forest.recode, allLeaves]
  | .cons w t rest => by simp [Forest.recode, allLeaves, recode_isLeaf, allLeaves_recode a rest]

theorem buggyMax_recode (a : Fin m) : ∀ (f : Forest V K m) (acc : Int), buggyMax acc (f.recode ρ a) = buggyMax acc f
  | .nil, _ => by simp [Forest.recode, buggyMax]
  | .cons w t rest, acc => by simp [Forest.recode, buggyMax, recode_ht, buggyMax_recode a rest]

mutual
theorem postPrune_recode (hv : ∀ a, Function.Injective (ρ.val a)) (hl : Function.Injective ρ.label) (hf : ∀ a, 0 < ρ.factor a)
    (hn : ∀ a v, num' (ρ.val a v) = ρ.point a (num v)) {maj maj' : List Int → Option Int} (hm : ∀ ys, maj' (ys.map ρ.label) = (maj ys).map ρ.label) :
    ∀ (T : Tree V K m) (train val : List (Row V m × Int)),
      postPrune num' maj' (T.recode ρ) (train.map ρ.sample) (val.map ρ.sample) = (postPrune num maj T train val).map (Tree.recode ρ)
  | .leaf c, train, val => by simp [Tree.recode, postPrune, Except.map]
  | .cont a t nl ht ge lt, train, val => by
    have hu : ∀ q : Row V m × Int, decide (ρ.point a t ≤ num' ((ρ.sample q).1 a)) = decide (t ≤ num (q.1 a)) := fun q => by
      rw [decide_eq_decide]
      show ρ.point a t ≤ num' (ρ.val a (q.1 a)) ↔ _
      rw [hn]; exact Small.affine_le (hf a) _ _
    have hd : ∀ q : Row V m × Int, decide (num' ((ρ.sample q).1 a) < ρ.point a t) = decide (num (q.1 a) < t) := fun q => by
      rw [decide_eq_decide]
      show num' (ρ.val a (q.1 a)) < ρ.point a t ↔ _
      rw [hn]; exact Small.affine_lt (hf a) _ _
    have hsnd : (train.map ρ.sample).map Prod.snd = (train.map Prod.snd).map ρ.label := by
      rw [List.map_map, List.map_map]; rfl
    simp only [Tree.recode, postPrune, List.map_eq_nil_iff, hsnd, hm]
    by_cases hval : val = []
    · rw [if_pos hval, if_pos hval]; rfl
    rw [if_neg hval, if_neg hval]
    cases maj (train.map Prod.snd) with
    | none => rfl
    | some c =>
      dsimp only [Option.map_some]
      rw [filter_sample _ _ hu, filter_sample _ _ hu, filter_sample _ _ hd, filter_sample _ _ hd,
        postPrune_recode hv hl hf hn hm ge, postPrune_recode hv hl hf hn hm lt]
      cases postPrune num maj ge (train.filter fun q => decide (t ≤ num (q.1 a))) (val.filter fun q => decide (t ≤ num (q.1 a))) with
      | error e => rfl
      | ok g =>
        cases postPrune num maj lt (train.filter fun q => decide (num (q.1 a) < t)) (val.filter fun q => decide (num (q.1 a) < t)) with
        | error e => rfl
        | ok l =>
          dsimp only [Except.map]
          cases g with
          | cont => cases l <;> simp [Tree.recode, Tree.nl, Tree.ht]
          | disc => cases l <;> simp [Tree.recode, Tree.nl, Tree.ht]
          | leaf cg =>
            cases l with
            | cont => simp [Tree.recode, Tree.nl, Tree.ht]
            | disc => simp [Tree.recode, Tree.nl, Tree.ht]
            | leaf cl =>
              simp only [Tree.recode]
              rw [countP_sample (fun q => decide ((if ρ.point a t ≤ num' (q.1 a) then ρ.label cg else ρ.label cl) = q.2))
                  (fun q => decide ((if t ≤ num (q.1 a) then cg else cl) = q.2)) (fun q => by
                    have h1 := hu q
                    rw [decide_eq_decide] at h1 ⊢
                    by_cases hc : t ≤ num (q.1 a)
                    · rw [if_pos hc, if_pos (h1.2 hc)]; exact hl.eq_iff
                    · rw [if_neg hc, if_neg (fun h => hc (h1.1 h))]; exact hl.eq_iff),
                countP_sample (fun q => decide (q.2 = ρ.label c)) (fun q => decide (q.2 = c)) (fun q => by
                    rw [decide_eq_decide]; exact hl.eq_iff)]
              split <;> simp [Tree.recode, Tree.nl, Tree.ht]
  | .disc a nl ht br, train, val => by
    have hsnd : (train.map ρ.sample).map Prod.snd = (train.map Prod.snd).map ρ.label := by
      rw [List.map_map, List.map_map]; rfl
    simp only [Tree.recode, postPrune, List.map_eq_nil_iff, hsnd, hm]
    by_cases hval : val = []
    · rw [if_pos hval, if_pos hval]; rfl
    rw [if_neg hval, if_neg hval]
    cases maj (train.map Prod.snd) with
    | none => rfl
    | some c =>
      dsimp only [Option.map_some]
      rw [postPruneIn_recode hv hl hf hn hm a br train val]
      cases postPruneIn num maj a br train val with
      | error e => rfl
      | ok br' =>
        dsimp only [Except.map]
        have hall : ((val.map ρ.sample).all fun q => (leafOf (q.1 a) (br'.recode ρ a)).isSome) = val.all fun q => (leafOf (q.1 a) br').isSome := by
          rw [List.all_map]
          congr 1
          funext q
          show (leafOf (ρ.val a (q.1 a)) (br'.recode ρ a)).isSome = _
          rw [leafOf_recode hv]; simp
        rw [allLeaves_recode, hall, sumLeaves_recode, buggyMax_recode,
          countP_sample (fun q => decide (leafOf (q.1 a) (br'.recode ρ a) = some q.2)) (fun q => decide (leafOf (q.1 a) br' = some q.2)) (fun q => by
            rw [decide_eq_decide]
            show leafOf (ρ.val a (q.1 a)) (br'.recode ρ a) = some (ρ.label q.2) ↔ _
            rw [leafOf_recode hv]
            cases leafOf (q.1 a) br' with
            | none => simp
            | some v => simp [hl.eq_iff]),
          countP_sample (fun q => decide (q.2 = ρ.label c)) (fun q => decide (q.2 = c)) (fun q => by
            rw [decide_eq_decide]; exact hl.eq_iff)]
        by_cases h1 : allLeaves br' = true
        · rw [if_pos h1, if_pos h1]
          by_cases h2 : (val.all fun q => (leafOf (q.1 a) br').isSome) = true
          · rw [if_pos h2, if_pos h2]
            split <;> simp [Tree.recode]
          · rw [if_neg h2, if_neg h2]
        · rw [if_neg h1, if_neg h1]; simp [Tree.recode]
theorem postPruneIn_recode (hv : ∀ a, Function.Injective (ρ.val a)) (hl : Function.Injective ρ.label) (hf : ∀ a, 0 < ρ.factor a)
    (hn : ∀ a v, num' (ρ.val a v) = ρ.point a (num v)) {maj maj' : List Int → Option Int} (hm : ∀ ys, maj' (ys.map ρ.label) = (maj ys).map ρ.label) (a : Fin m) :
    ∀ (f : Forest V K m) (train val : List (Row V m × Int)),
      postPruneIn num' maj' a (f.recode ρ a) (train.map ρ.sample) (val.map ρ.sample) = (postPruneIn num maj a f train val).map (Forest.recode ρ a)
  | .nil, _, _ => by simp [Forest.recode, postPruneIn, Except.map]
  | .cons v t rest, train, val => by
    have hp : ∀ q : Row V m × Int, decide ((ρ.sample q).1 a = ρ.val a v) = decide (q.1 a = v) := fun q => by
      rw [decide_eq_decide]; exact (hv a).eq_iff
    simp only [Forest.recode, postPruneIn]
    rw [filter_sample _ _ hp, filter_sample _ _ hp, postPrune_recode hv hl hf hn hm t, postPruneIn_recode hv hl hf hn hm a rest]
    cases postPrune num maj t (train.filter fun q => decide (q.1 a = v)) (val.filter fun q => decide (q.1 a = v)) with
    | error e => rfl
    | ok t' =>
      cases postPruneIn num maj a rest train val with
      | error e => rfl
      | ok r => simp [Except.map, Forest.recode]
end

theorem gini_recode (hl : Function.Injective ρ.label) (ys : List Int) : gini (K := K) (ys.map ρ.label) = gini ys := by
  simp only [gini, pyUnique_map hl, List.length_map, List.map_map]
  congr 2
  refine List.map_congr_left fun c _ => ?_
  simp only [Function.comp_apply, List.count_map_of_injective _ _ hl]

end recode

theorem entropy_recode {ρ : Recoding V V' ℝ m} (hl : Function.Injective ρ.label) (ys : List Int) : entropy (ys.map ρ.label) = entropy ys := by
  simp only [entropy, pyUnique_map hl, List.length_map, List.map_map]
  congr 1
  refine List.map_congr_left fun c _ => ?_
  simp only [Function.comp_apply, List.count_map_of_injective _ _ hl]

/-! ## C189: units -/

theorem units_faithful {X : List (Row K m)} {c s : Fin m → K} (hc : ∀ a, 0 < c a) {isCont : List K → Bool} (hk : ColumnsKept isCont c s X) :
    (units c s).Faithful X id id isCont isCont where
  val a u v huv := mul_left_cancel₀ (hc a).ne' (add_right_cancel (show c a * u + s a = c a * v + s a from huv))
  label := Function.injective_id
  factor := hc
  num _ _ := rfl
  cont := hk

theorem map_units_label (c s : Fin m → K) (ys : List Int) : ys.map (units c s).label = ys := by simp [units]

theorem units_predict {c s : Fin m → K} (hc : ∀ a, 0 < c a) (T : Tree K K m) (r : Row K m) :
    predict id ((units c s).row r) (T.recode (units c s)) = predict id r T := by
  have hi : ∀ a, Function.Injective ((units c s).val a) := fun a u v huv => mul_left_cancel₀ (hc a).ne' (add_right_cancel (show c a * u + s a = c a * v + s a from huv))
  rw [predict_recode (num := id) (num' := id) hi hc (fun _ _ => rfl)]
  show (predict id r T).map (fun x => x) = _
  cases predict id r T <;> rfl

/-- **C189.** Decision trees with the Gini index do not depend on the units of the attributes: a positive factor and an offset per attribute, as long as they do not change which columns
count as continuous. -/
theorem C189_gini (c s : Fin m → K) (hc : ∀ a, 0 < c a) (isCont : List K → Bool) (maj : List Int → Option Int)
    (limit : Nat) : UnitFree isCont (fit (criterionOracle gini id isCont maj id) limit) c s := by
  refine ⟨fun xs ys hk => ?_, fun T r => units_predict hc T r⟩
  have hf := units_faithful (c := c) (s := s) hc hk
  have := generate_recode (criterion_recode hf gini (gini_recode hf.label) maj maj (fun ys => by simp [units])) hf.val hf.label hf.factor xs limit (List.finRange m) xs ys (fun _ h => h)
  rwa [map_units_label] at this

/-- **C189.** The same with the entropy. -/
theorem C189_entropy (c s : Fin m → ℝ) (hc : ∀ a, 0 < c a) (isCont : List ℝ → Bool) (maj : List Int → Option Int)
    (limit : Nat) : UnitFree isCont (fit (criterionOracle entropy id isCont maj id) limit) c s := by
  refine ⟨fun xs ys hk => ?_, fun T r => units_predict hc T r⟩
  have hf := units_faithful (c := c) (s := s) hc hk
  have := generate_recode (criterion_recode hf entropy (entropy_recode hf.label) maj maj (fun ys => by simp [units])) hf.val hf.label hf.factor xs limit (List.finRange m) xs ys (fun _ h => h)
  rwa [map_units_label] at this

/-- **C189.** The same with the information gain. -/
theorem C189_gain (c s : Fin m → ℝ) (hc : ∀ a, 0 < c a) (isCont : List ℝ → Bool) (maj : List Int → Option Int)
    (limit : Nat) : UnitFree isCont (fit (gainOracle entropy id isCont maj id) limit) c s := by
  refine ⟨fun xs ys hk => ?_, fun T r => units_predict hc T r⟩
  have hf := units_faithful (c := c) (s := s) hc hk
  have := generate_recode (gain_recode hf entropy (entropy_recode hf.label) maj maj (fun ys => by simp [units])) hf.val hf.label hf.factor xs limit (List.finRange m) xs ys (fun _ h => h)
  rwa [map_units_label] at this

/-- **C189.** Post-pruning does not depend on the units either. -/
theorem C189_post_pruning (c s : Fin m → K) (hc : ∀ a, 0 < c a) (maj : List Int → Option Int) (T : Tree K K m) (train val : List (Row K m × Int)) :
    postPrune id maj (T.recode (units c s)) (train.map (units c s).sample) (val.map (units c s).sample) = (postPrune id maj T train val).map (Tree.recode (units c s)) :=
  postPrune_recode (fun a u v huv => mul_left_cancel₀ (hc a).ne' (add_right_cancel (show c a * u + s a = c a * v + s a from huv))) Function.injective_id hc (fun _ _ => rfl)
    (fun ys => by simp [units]) T train val

/-- A tree with most frequent labels. -/
def firstMax (ys : List Int) : Option Int := (pyUnique ys).find? fun c => (pyUnique ys).all fun d => ys.count d ≤ ys.count c

theorem floatColumn_eq {α : Type*} [DecidableEq α] (isInt : α → Bool) (D : List α) : floatColumn isInt D = D.any fun v => !isInt v := by
  unfold floatColumn Ops.typeOfTarget
  by_cases h : D.any (fun v => !isInt v) = true
  · simp [h]
  · simp only [Bool.not_eq_true] at h
    simp only [h]
    simp
    repeat' split
    all_goals simp

/-- Half-integers, before and after tripling. -/
example : ColumnsKept (floatColumn fun v : ℚ => decide (v.den = 1)) ![3] ![0] [![1/2], ![3/2], ![5/2]] ∧
    (fit (criterionOracle gini id (floatColumn fun v : ℚ => decide (v.den = 1)) firstMax id) 10 [![1/2], ![3/2], ![5/2]] [0, 0, 1]).map (predict id ![2]) = .ok (.ok 1) := by
  constructor
  · intro a D hD
    obtain rfl : a = 0 := Subsingleton.elim _ _
    simp only [floatColumn_eq, List.any_map]
    rw [Bool.eq_iff_iff, List.any_eq_true, List.any_eq_true]
    refine exists_congr fun v => and_congr_right fun hv => ?_
    obtain ⟨r, hr, rfl⟩ := hD v hv
    simp only [List.mem_cons, List.not_mem_nil, or_false] at hr
    rcases hr with rfl | rfl | rfl <;> decide +kernel
  · decide +kernel

/-- **C189.** The condition on the columns is needed: with whole numbers of centimetres the attribute is split by value and a new value raises `KeyError`; the same data in half the unit
have a dividing point and every value gets a label. -/
theorem C189_whole_numbers : ∃ (xs : List (Row ℚ 1)) (ys : List Int),
    (fit (criterionOracle gini id (floatColumn fun v : ℚ => decide (v.den = 1)) firstMax id) 10 xs ys).map (predict id ![4]) = .ok (.error .keyError) ∧
    (fit (criterionOracle gini id (floatColumn fun v : ℚ => decide (v.den = 1)) firstMax id) 10 (xs.map (units ![1/2] ![0]).row) ys).map
      (predict id ((units ![1/2] ![0]).row ![4])) = .ok (.ok 1) :=
  ⟨[![1], ![2], ![3]], [0, 0, 1], by decide +kernel, by decide +kernel⟩

/-! ## C190: the names of values and classes -/

section names
variable {ρ : Recoding V V' K m} {num : V → K} {num' : V' → K} {isCont : List V → Bool} {isCont' : List V' → Bool}

/-- **C190.** Renaming the values of the attributes and the classes (one to one) renames the tree and its predictions and does nothing else, as long as the choice among equally frequent classes
is made in the same way. -/
theorem C190_gini (xs : List (Row V m)) (h : ρ.Faithful xs num num' isCont isCont') (maj maj' : List Int → Option Int) (hm : ∀ ys, maj' (ys.map ρ.label) = (maj ys).map ρ.label)
    (limit : Nat) (ys : List Int) :
    fit (criterionOracle gini num' isCont' maj' id) limit (xs.map ρ.row) (ys.map ρ.label) = (fit (criterionOracle gini num isCont maj id) limit xs ys).map (Tree.recode ρ) ∧
    ∀ (T : Tree V K m) (r : Row V m), predict num' (ρ.row r) (T.recode ρ) = (predict num r T).map ρ.label :=
  ⟨generate_recode (criterion_recode h gini (gini_recode h.label) maj maj' hm) h.val h.label h.factor xs limit (List.finRange m) xs ys fun _ h => h,
    fun T r => predict_recode h.val h.factor h.num r T⟩

/-- **C190.** Post-pruning does not depend on the names either. -/
theorem C190_post_pruning (xs : List (Row V m)) (h : ρ.Faithful xs num num' isCont isCont') (maj maj' : List Int → Option Int) (hm : ∀ ys, maj' (ys.map ρ.label) = (maj ys).map ρ.label)
    (T : Tree V K m) (train val : List (Row V m × Int)) :
    postPrune num' maj' (T.recode ρ) (train.map ρ.sample) (val.map ρ.sample) = (postPrune num maj T train val).map (Tree.recode ρ) :=
  postPrune_recode h.val h.label h.factor h.num hm T train val

end names

/-- **C190.** The same with the entropy and with the information gain. -/
theorem C190_entropy_gain {ρ : Recoding V V' ℝ m} {num : V → ℝ} {num' : V' → ℝ} {isCont : List V → Bool} {isCont' : List V' → Bool} (xs : List (Row V m))
    (h : ρ.Faithful xs num num' isCont isCont') (maj maj' : List Int → Option Int) (hm : ∀ ys, maj' (ys.map ρ.label) = (maj ys).map ρ.label) (limit : Nat) (ys : List Int) :
    fit (criterionOracle entropy num' isCont' maj' id) limit (xs.map ρ.row) (ys.map ρ.label) = (fit (criterionOracle entropy num isCont maj id) limit xs ys).map (Tree.recode ρ) ∧
    fit (gainOracle entropy num' isCont' maj' id) limit (xs.map ρ.row) (ys.map ρ.label) = (fit (gainOracle entropy num isCont maj id) limit xs ys).map (Tree.recode ρ) ∧
    ∀ (T : Tree V ℝ m) (r : Row V m), predict num' (ρ.row r) (T.recode ρ) = (predict num r T).map ρ.label :=
  ⟨generate_recode (criterion_recode h entropy (entropy_recode h.label) maj maj' hm) h.val h.label h.factor xs limit (List.finRange m) xs ys fun _ h => h,
    generate_recode (gain_recode h entropy (entropy_recode h.label) maj maj' hm) h.val h.label h.factor xs limit (List.finRange m) xs ys fun _ h => h,
    fun T r => predict_recode h.val h.factor h.num r T⟩

/-- Two truth values swapped and the classes 0 and 1 swapped. -/
example (xs : List (Row Bool m)) (maj : List Int → Option Int) :
    (Recoding.mk (V := Bool) (V' := Bool) (K := ℚ) (m := m) (fun _ v => !v) (fun _ => 1) (fun _ => 0) (fun c => 1 - c)).Faithful xs (fun _ => 0) (fun _ => 0) (fun _ => false)
      (fun _ => false) ∧
    ∀ ys : List Int, (fun zs : List Int => (maj (zs.map fun c => 1 - c)).map fun c => 1 - c) (ys.map fun c => 1 - c) = (maj ys).map fun c => 1 - c := by
  refine ⟨⟨fun _ u v h => by simpa using h, fun u v h => by simpa using h, fun _ => by norm_num, fun _ _ => by simp [Recoding.point], fun _ _ _ => rfl⟩, fun ys => ?_⟩
  simp

/-! ## C191: the order of the samples -/

section order
variable {num : V → K}

/-- The dictionary with a tree for every value of the list. -/
def mkForest (T : V → Tree V K m) : List V → Forest V K m
  | [] => .nil
  | v :: vs => .cons v (T v) (mkForest T vs)

theorem genForest_eq (gen : V → Except PyErr (Tree V K m)) (T : V → Tree V K m) : ∀ vs, (∀ v ∈ vs, gen v = .ok (T v)) → genForest gen vs = .ok (mkForest T vs)
  | [], _ => rfl
  | v :: vs, h => by
    simp only [genForest, h v (by simp), genForest_eq gen T vs fun w hw => h w (by simp [hw]), mkForest]

theorem genForest_error (gen : V → Except PyErr (Tree V K m)) : ∀ vs, (∃ v ∈ vs, ∃ e, gen v = .error e) → ∃ e, genForest gen vs = .error e
  | [], h => by simp at h
  | v :: vs, h => by
    simp only [genForest]
    cases hv : gen v with
    | error e => exact ⟨e, rfl⟩
    | ok t =>
      obtain ⟨w, hw, e, he⟩ := h
      rcases List.mem_cons.1 hw with rfl | hw
      · rw [hv] at he; simp at he
      · obtain ⟨e', he'⟩ := genForest_error gen vs ⟨w, hw, e, he⟩
        exact ⟨e', by rw [he']⟩

theorem predictIn_mk (T : V → Tree V K m) (r : Row V m) (v : V) : ∀ vs, predictIn num r v (mkForest T vs) = if v ∈ vs then predict num r (T v) else .error .keyError
  | [] => by simp [mkForest, predictIn]
  | w :: vs => by
    simp only [mkForest, predictIn, predictIn_mk T r v vs, List.mem_cons]
    by_cases h : v = w
    · subst h; simp
    · simp [h]

theorem sumLeaves_mk (T : V → Tree V K m) : ∀ vs, sumLeaves (mkForest T vs) = (vs.map fun v => (T v).nl).sum
  | [] => rfl
  | w :: vs => by simp [mkForest, sumLeaves, sumLeaves_mk T vs]

theorem maxHeight_mk (T : V → Tree V K m) : ∀ vs acc, maxHeight acc (mkForest T vs) = (vs.map fun v => (T v).ht).foldl max acc
  | [], _ => rfl
  | w :: vs, acc => by
    simp only [mkForest, maxHeight, List.map_cons, List.foldl_cons, maxHeight_mk T vs]
    congr 1
    by_cases h : acc < (T w).ht
    · rw [if_pos h, max_eq_right h.le]
    · rw [if_neg h, max_eq_left (not_lt.1 h)]

theorem genForest_same (gen gen' : V → Except PyErr (Tree V K m)) (h : ∀ v, SameOutcome num (gen v) (gen' v)) {vs vs' : List V} (hp : vs.Perm vs') (a : Fin m) :
    SameOutcome num ((genForest gen vs).map fun br => .disc a (sumLeaves br) (maxHeight (-1) br + 1) br)
      ((genForest gen' vs').map fun br => .disc a (sumLeaves br) (maxHeight (-1) br + 1) br) := by
  by_cases he : ∃ v ∈ vs, ∃ e, gen v = .error e
  · obtain ⟨v, hv, e, hve⟩ := he
    have he' : ∃ e, gen' v = .error e := by
      rcases h v with ⟨_, e', _, h2⟩ | ⟨T, _, h1, _⟩
      · exact ⟨e', h2⟩
      · rw [h1] at hve; simp at hve
    obtain ⟨e1, h1⟩ := genForest_error gen vs ⟨v, hv, e, hve⟩
    obtain ⟨e2, h2⟩ := genForest_error gen' vs' ⟨v, hp.mem_iff.1 hv, he'⟩
    exact .inl ⟨e1, e2, by rw [h1]; rfl, by rw [h2]; rfl⟩
  · have hok : ∀ v, ∃ p : Tree V K m × Tree V K m, v ∈ vs → gen v = .ok p.1 ∧ gen' v = .ok p.2 ∧ (∀ r, predict num r p.1 = predict num r p.2) ∧ p.1.nl = p.2.nl ∧ p.1.ht = p.2.ht := by
      intro v
      by_cases hv : v ∈ vs
      · rcases h v with ⟨e, _, h1, _⟩ | ⟨T, T', h1⟩
        · exact absurd ⟨v, hv, e, h1⟩ he
        · exact ⟨(T, T'), fun _ => h1⟩
      · exact ⟨(.leaf 0, .leaf 0), fun h => absurd h hv⟩
    choose p hp' using hok
    rw [genForest_eq gen (fun v => (p v).1) vs fun v hv => (hp' v hv).1,
      genForest_eq gen' (fun v => (p v).2) vs' fun v hv => (hp' v (hp.mem_iff.2 hv)).2.1]
    refine .inr ⟨_, _, rfl, rfl, fun r => ?_, ?_, ?_⟩
    · simp only [predict, predictIn_mk, hp.mem_iff]
      by_cases hv : r a ∈ vs'
      · rw [if_pos hv, if_pos hv]; exact (hp' _ (hp.mem_iff.2 hv)).2.2.1 r
      · rw [if_neg hv, if_neg hv]
    · show sumLeaves (mkForest (fun v => (p v).1) vs) = sumLeaves (mkForest (fun v => (p v).2) vs')
      rw [sumLeaves_mk, sumLeaves_mk]
      rw [← (hp.map fun v => (p v).2.nl).sum_eq]
      congr 1
      exact List.map_congr_left fun v hv => (hp' v hv).2.2.2.1
    · show maxHeight (-1) (mkForest (fun v => (p v).1) vs) + 1 = maxHeight (-1) (mkForest (fun v => (p v).2) vs') + 1
      rw [maxHeight_mk, maxHeight_mk]
      congr 1
      rw [show (vs.map fun v => (p v).1.ht) = vs.map fun v => (p v).2.ht from List.map_congr_left fun v hv => (hp' v hv).2.2.2.2]
      exact (hp.map fun v => (p v).2.ht).foldl_eq' (fun _ _ _ _ _ => max_right_comm _ _ _) _

/-- Two orders of the same samples. -/
structure SameSamples (xs xs' : List (Row V m)) (ys ys' : List Int) : Prop where
  rows : xs.Perm xs'
  labels : ys.Perm ys'
  pairs : (xs.zip ys).Perm (xs'.zip ys')
  len : xs.length = ys.length ∨ xs = []

theorem selY_perm {xs xs' : List (Row V m)} {ys ys' : List Int} (h : SameSamples xs xs' ys ys') (p : Row V m → Bool) : (selY p xs ys).Perm (selY p xs' ys') :=
  (h.pairs.filter _).map _

theorem SameSamples.sel {xs xs' : List (Row V m)} {ys ys' : List Int} (h : SameSamples xs xs' ys ys') (p : Row V m → Bool) :
    SameSamples (xs.filter p) (xs'.filter p) (selY p xs ys) (selY p xs' ys') := by
  rcases h.len with hl | hl
  · have hl' : xs'.length = ys'.length := by rw [← h.rows.length_eq, ← h.labels.length_eq, hl]
    refine ⟨h.rows.filter _, selY_perm h p, ?_, .inl ?_⟩
    · rw [zip_filter_selY p xs ys hl, zip_filter_selY p xs' ys' hl']
      exact h.pairs.filter _
    · exact length_selY p xs ys hl
  · have hl' : xs' = [] := by rw [hl] at h; exact h.rows.nil_eq.symm
    subst hl hl'
    exact ⟨by simp, by simp [selY], by simp, .inr rfl⟩

/-- What the outside must not depend on the order of the samples. -/
structure OrderFree (o : Oracle V K m) : Prop where
  split : ∀ cols (xs xs' : List (Row V m)) (ys ys' : List Int), SameSamples xs xs' ys ys' → o.split cols xs ys = o.split cols xs' ys'
  maj : ∀ ys ys' : List Int, ys.Perm ys' → o.maj ys = o.maj ys'

theorem pyUnique_length_perm {α : Type*} [DecidableEq α] {l l' : List α} (h : l.Perm l') : (pyUnique l).length = (pyUnique l').length :=
  (Small.pyUnique_perm h).length_eq

theorem generate_order {o : Oracle V K m} (ho : OrderFree o) {full full' : List (Row V m)} (hfull : full.Perm full') (fuel : Nat) :
    ∀ (cols : List (Fin m)) (xs xs' : List (Row V m)) (ys ys' : List Int), SameSamples xs xs' ys ys' →
      SameOutcome o.num (generate o full fuel cols xs ys) (generate o full' fuel cols xs' ys') := by
  induction fuel with
  | zero => intro cols xs xs' ys ys' _; exact .inl ⟨_, _, rfl, rfl⟩
  | succ fuel ih =>
    intro cols xs xs' ys ys' h
    simp only [generate, pyUnique_length_perm h.labels]
    by_cases h1 : (pyUnique ys').length = 1
    · rw [if_pos h1, if_pos h1]
      cases hy : ys with
      | nil =>
        rw [hy] at h
        have : ys' = [] := h.labels.nil_eq.symm
        subst this
        exact .inl ⟨_, _, rfl, rfl⟩
      | cons c l =>
        cases hy' : ys' with
        | nil => rw [hy, hy'] at h; exact absurd h.labels.length_eq (by simp)
        | cons c' l' =>
          obtain ⟨d, hd⟩ := List.length_eq_one_iff.1 h1
          have e1 : ∀ v ∈ ys', v = d := fun v hv => by
            have := mem_pyUnique.2 hv
            rw [hd] at this; simpa using this
          have hc' : c' = d := e1 c' (by rw [hy']; simp)
          have hc : c = d := e1 c (h.labels.mem_iff.1 (by rw [hy]; simp))
          subst hc; subst hc'
          exact .inr ⟨_, _, rfl, rfl, fun _ => rfl, rfl, rfl⟩
    · rw [if_neg h1, if_neg h1]
      have hnil : (xs = [] ∨ cols = []) ↔ (xs' = [] ∨ cols = []) := by
        rw [← List.length_eq_zero_iff, ← List.length_eq_zero_iff (l := xs'), h.rows.length_eq]
      by_cases h2 : xs = [] ∨ cols = []
      · rw [if_pos h2, if_pos (hnil.1 h2), ho.maj _ _ h.labels]
        cases o.maj ys' with
        | none => exact .inl ⟨_, _, rfl, rfl⟩
        | some c => exact .inr ⟨_, _, rfl, rfl, fun _ => rfl, rfl, rfl⟩
      · rw [if_neg h2, if_neg (fun hc => h2 (hnil.2 hc)), ho.split cols _ _ _ _ h]
        rcases o.split cols xs' ys' with _ | ⟨a, _ | t₀⟩
        · exact .inl ⟨_, _, rfl, rfl⟩
        · dsimp only
          have key := genForest_same (num := o.num) (fun v => if selY (fun r => decide (r a = v)) xs ys = [] then
              generate o full fuel (cols.filter fun c => c ≠ a) (xs.filter fun r => decide (r a = v)) ys
            else generate o full fuel (cols.filter fun c => c ≠ a) (xs.filter fun r => decide (r a = v)) (selY (fun r => decide (r a = v)) xs ys))
            (fun v => if selY (fun r => decide (r a = v)) xs' ys' = [] then
              generate o full' fuel (cols.filter fun c => c ≠ a) (xs'.filter fun r => decide (r a = v)) ys'
            else generate o full' fuel (cols.filter fun c => c ≠ a) (xs'.filter fun r => decide (r a = v)) (selY (fun r => decide (r a = v)) xs' ys'))
            (fun v => by
              have hs := h.sel fun r => decide (r a = v)
              have he : selY (fun r => decide (r a = v)) xs ys = [] ↔ selY (fun r => decide (r a = v)) xs' ys' = [] := by
                rw [← List.length_eq_zero_iff, ← List.length_eq_zero_iff, hs.labels.length_eq]
              by_cases hc : selY (fun r => decide (r a = v)) xs ys = []
              · rw [if_pos hc, if_pos (he.1 hc)]
                refine ih _ _ _ _ _ ?_
                have hx : xs.filter (fun r => decide (r a = v)) = [] := by
                  rcases hs.len with hl | hl
                  · rw [hc] at hl; exact List.length_eq_zero_iff.1 hl
                  · exact hl
                have hx' : xs'.filter (fun r => decide (r a = v)) = [] := by
                  have := hs.rows; rw [hx] at this; exact this.nil_eq.symm
                rw [hx, hx']
                exact ⟨by simp, h.labels, by simp, .inr rfl⟩
              · rw [if_neg hc, if_neg (fun hh => hc (he.2 hh))]
                exact ih _ _ _ _ _ hs)
            (Small.pyUnique_perm (hfull.map fun r => r a)) a
          revert key
          generalize genForest (V := V) (K := K) (m := m) _ (pyUnique (full.map fun r => r a)) = g
          generalize genForest (V := V) (K := K) (m := m) _ (pyUnique (full'.map fun r => r a)) = g'
          intro key
          cases g <;> cases g' <;> exact key
        · dsimp only
          have hu := ih cols _ _ _ _ (h.sel fun r => decide (o.fl t₀ ≤ o.num (r a)))
          have hd := ih cols _ _ _ _ (h.sel fun r => decide (o.num (r a) < o.fl t₀))
          rcases hu with ⟨e, e', hu1, hu2⟩ | ⟨T, T', hu1, hu2, hu3, hu4, hu5⟩
          · rw [hu1, hu2]; exact .inl ⟨_, _, rfl, rfl⟩
          · rw [hu1, hu2]
            rcases hd with ⟨e, e', hd1, hd2⟩ | ⟨S, S', hd1, hd2, hd3, hd4, hd5⟩
            · rw [hd1, hd2]; exact .inl ⟨_, _, rfl, rfl⟩
            · rw [hd1, hd2]
              refine .inr ⟨_, _, rfl, rfl, fun r => ?_, ?_, ?_⟩
              · simp only [predict, hu3, hd3]
              · show T.nl + S.nl = T'.nl + S'.nl
                rw [hu4, hd4]
              · show T.ht + S.ht + 1 = T'.ht + S'.ht + 1
                rw [hu5, hd5]

theorem zip_map_fst {α β γ : Type*} (f : α → γ) : ∀ (xs : List α) (ys : List β), (xs.map f).zip ys = (xs.zip ys).map fun q => (f q.1, q.2)
  | [], _ => by simp
  | _ :: _, [] => by simp
  | a :: xs, b :: ys => by simp [zip_map_fst f xs ys]

theorem contValue_perm (imp : List Int → K) (hi : ∀ ys ys' : List Int, ys.Perm ys' → imp ys = imp ys') {D D' : List K} {y y' : List Int} (hy : y.Perm y')
    (h : (D.zip y).Perm (D'.zip y')) (t : K) : contValue imp D y t = contValue imp D' y' t := by
  have hu := (h.filter fun p => decide (t ≤ p.1)).map Prod.snd
  have hd := (h.filter fun p => decide (p.1 < t)).map Prod.snd
  simp only [contValue, hi _ _ hu, hi _ _ hd, hu.length_eq, hd.length_eq, hy.length_eq]

theorem discValue_perm (imp : List Int → K) (hi : ∀ ys ys' : List Int, ys.Perm ys' → imp ys = imp ys') {D D' : List V} {y y' : List Int} (hD : D.Perm D') (hy : y.Perm y')
    (h : (D.zip y).Perm (D'.zip y')) : discValue imp D y = discValue imp D' y' := by
  simp only [discValue]
  rw [← ((Small.pyUnique_perm hD).map _).sum_eq]
  congr 1
  refine List.map_congr_left fun v _ => ?_
  have hu := (h.filter fun p => decide (v = p.1)).map Prod.snd
  rw [hi _ _ hu, hu.length_eq, hy.length_eq]

theorem getValue_perm (imp : List Int → K) (hi : ∀ ys ys' : List Int, ys.Perm ys' → imp ys = imp ys') (c : Bool) {xs xs' : List (Row V m)} {ys ys' : List Int}
    (h : SameSamples xs xs' ys ys') (a : Fin m) : getValue imp num c (xs.map fun r => r a) ys = getValue imp num c (xs'.map fun r => r a) ys' := by
  unfold getValue
  cases c with
  | false =>
    simp only [Bool.false_eq_true, if_false]
    rw [discValue_perm imp hi (h.rows.map _) h.labels (by rw [zip_map_fst, zip_map_fst]; exact h.pairs.map _)]
  | true =>
    simp only [if_true, List.map_map]
    have hs : (pyUnique (xs.map (num ∘ fun r => r a))).insertionSort (· ≤ ·) = (pyUnique (xs'.map (num ∘ fun r => r a))).insertionSort (· ≤ ·) :=
      Small.sort_perm (Small.pyUnique_perm (h.rows.map _))
    have hv : contValue imp (xs.map (num ∘ fun r => r a)) ys = contValue imp (xs'.map (num ∘ fun r => r a)) ys' :=
      funext fun t => contValue_perm imp hi h.labels (by rw [zip_map_fst, zip_map_fst]; exact h.pairs.map _) t
    rw [hs, hv]

theorem minLoop_congr {A : Type*} {v v' : A → WithTop K × Option (Option K)} (h : ∀ a, v a = v' a) : minLoop v = minLoop v' := by
  rw [funext h]

theorem criterion_order (imp : List Int → K) (hi : ∀ ys ys' : List Int, ys.Perm ys' → imp ys = imp ys') (isCont : List V → Bool) (hc : ∀ D D' : List V, D.Perm D' → isCont D = isCont D')
    (maj : List Int → Option Int) (hm : ∀ ys ys' : List Int, ys.Perm ys' → maj ys = maj ys') (fl : K → K) : OrderFree (m := m) (criterionOracle imp num isCont maj fl) := by
  refine ⟨fun cols xs xs' ys ys' h => ?_, hm⟩
  have : (fun a => getValue imp num (isCont (xs.map fun r => r a)) (xs.map fun r => r a) ys) = fun a => getValue imp num (isCont (xs'.map fun r => r a)) (xs'.map fun r => r a) ys' :=
    funext fun a => by rw [hc _ _ (h.rows.map fun r => r a), getValue_perm imp hi _ h a]
  simp only [criterionOracle, optimalDivision, this]

theorem gain_order (imp : List Int → K) (hi : ∀ ys ys' : List Int, ys.Perm ys' → imp ys = imp ys') (isCont : List V → Bool) (hc : ∀ D D' : List V, D.Perm D' → isCont D = isCont D')
    (maj : List Int → Option Int) (hm : ∀ ys ys' : List Int, ys.Perm ys' → maj ys = maj ys') (fl : K → K) : OrderFree (m := m) (gainOracle imp num isCont maj fl) := by
  refine ⟨fun cols xs xs' ys ys' h => ?_, hm⟩
  have : (fun a => (gainOf (imp ys) (getValue imp num (isCont (xs.map fun r => r a)) (xs.map fun r => r a) ys).1, (getValue imp num (isCont (xs.map fun r => r a)) (xs.map fun r => r a) ys).2)) =
      fun a => (gainOf (imp ys') (getValue imp num (isCont (xs'.map fun r => r a)) (xs'.map fun r => r a) ys').1,
        (getValue imp num (isCont (xs'.map fun r => r a)) (xs'.map fun r => r a) ys').2) :=
    funext fun a => by rw [hc _ _ (h.rows.map fun r => r a), getValue_perm imp hi _ h a, hi _ _ h.labels]
  simp only [gainOracle, gainDivision, this]

theorem gini_perm (ys ys' : List Int) (h : ys.Perm ys') : gini (K := K) ys = gini ys' := by
  simp only [gini, h.length_eq, h.count_eq]
  rw [((Small.pyUnique_perm h).map _).sum_eq]

theorem samples_of_perm {xs xs' : List (Row V m)} {ys ys' : List Int} (hl : xs.length = ys.length) (hl' : xs'.length = ys'.length) (h : (xs.zip ys).Perm (xs'.zip ys')) :
    SameSamples xs xs' ys ys' :=
  ⟨by simpa [List.map_fst_zip, hl, hl'] using h.map Prod.fst, by simpa [List.map_snd_zip, hl, hl'] using h.map Prod.snd, h, .inl hl⟩

/-- **C191.** Training a decision tree (Gini index) on the same labelled rows in another order has the same outcome: it raises, or the tree answers every row alike and has the same recorded size.
(`value_counts` is assumed to choose among equally frequent labels independently of their order.) -/
theorem C191_gini (isCont : List V → Bool) (hc : ∀ D D' : List V, D.Perm D' → isCont D = isCont D') (maj : List Int → Option Int)
    (hm : ∀ ys ys' : List Int, ys.Perm ys' → maj ys = maj ys') (fl : K → K) (limit : Nat) (xs xs' : List (Row V m)) (ys ys' : List Int)
    (hl : xs.length = ys.length) (hl' : xs'.length = ys'.length) (h : (xs.zip ys).Perm (xs'.zip ys')) :
    SameOutcome num (fit (criterionOracle gini num isCont maj fl) limit xs ys) (fit (criterionOracle gini num isCont maj fl) limit xs' ys') :=
  have hs := samples_of_perm hl hl' h
  generate_order (criterion_order gini gini_perm isCont hc maj hm fl) hs.rows limit (List.finRange m) xs xs' ys ys' hs

end order

theorem entropy_perm (ys ys' : List Int) (h : ys.Perm ys') : entropy ys = entropy ys' := by
  simp only [entropy, h.length_eq, h.count_eq]
  rw [((Small.pyUnique_perm h).map _).sum_eq]

/-- **C191.** The same with the entropy and with the information gain. -/
theorem C191_entropy_gain {num : V → ℝ} (isCont : List V → Bool) (hc : ∀ D D' : List V, D.Perm D' → isCont D = isCont D') (maj : List Int → Option Int)
    (hm : ∀ ys ys' : List Int, ys.Perm ys' → maj ys = maj ys') (fl : ℝ → ℝ) (limit : Nat) (xs xs' : List (Row V m)) (ys ys' : List Int)
    (hl : xs.length = ys.length) (hl' : xs'.length = ys'.length) (h : (xs.zip ys).Perm (xs'.zip ys')) :
    SameOutcome num (fit (criterionOracle entropy num isCont maj fl) limit xs ys) (fit (criterionOracle entropy num isCont maj fl) limit xs' ys') ∧
    SameOutcome num (fit (gainOracle entropy num isCont maj fl) limit xs ys) (fit (gainOracle entropy num isCont maj fl) limit xs' ys') :=
  have hs := samples_of_perm hl hl' h
  ⟨generate_order (criterion_order entropy entropy_perm isCont hc maj hm fl) hs.rows limit (List.finRange m) xs xs' ys ys' hs,
    generate_order (gain_order entropy entropy_perm isCont hc maj hm fl) hs.rows limit (List.finRange m) xs xs' ys ys' hs⟩

/-- The smallest of the most frequent labels does not depend on the order, and neither does `type_of_target`. -/
example : (∀ ys ys' : List Int, ys.Perm ys' → ((ys.filter fun c => ys.all fun d => ys.count d ≤ ys.count c).insertionSort (· ≤ ·)).head? =
      ((ys'.filter fun c => ys'.all fun d => ys'.count d ≤ ys'.count c).insertionSort (· ≤ ·)).head?) ∧
    (∀ D D' : List ℚ, D.Perm D' → floatColumn (fun v : ℚ => decide (v.den = 1)) D = floatColumn (fun v : ℚ => decide (v.den = 1)) D') := by
  constructor
  · intro ys ys' h
    have : (ys.filter fun c => ys.all fun d => ys.count d ≤ ys.count c).Perm (ys'.filter fun c => ys'.all fun d => ys'.count d ≤ ys'.count c) := by
      have e : (fun c => ys.all fun d => decide (ys.count d ≤ ys.count c)) = fun c => ys'.all fun d => decide (ys'.count d ≤ ys'.count c) := by
        funext c; simp only [h.count_eq]; exact h.all_eq
      rw [e]; exact h.filter _
    rw [List.Perm.eq_of_sortedLE List.sortedLE_insertionSort List.sortedLE_insertionSort ((List.perm_insertionSort _ _).trans (this.trans (List.perm_insertionSort _ _).symm))]
  · intro D D' h
    rw [floatColumn_eq, floatColumn_eq]; exact h.any_eq

end CML.DTree
