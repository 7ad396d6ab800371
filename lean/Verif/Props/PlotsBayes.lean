import Verif.Props.PlotsGrid
import Verif.Props.NBObject
import Verif.Model.PlotsBayes

set_option linter.unusedSectionVars false

/-! # Property C159 (the figure of the Bayesian classifiers) -/

namespace CML.PlotsGrid
open Plots Bayes

theorem mesh_pairs (xs ys : List ℝ) : ∀ r ∈ meshRows xs ys, r.length = 2 := by
  intro r hr
  simp only [meshRows, List.mem_flatMap, List.mem_map] at hr
  obtain ⟨v, _, u, _, rfl⟩ := hr
  rfl

/-- C159: an instance without training or weights is refused; so is every array whose number of columns is not the number of attribute names, or not two. -/
theorem C159_refused {d : Nat} (trained loaded : Bool) (n : Nat) (predict : List (List ℝ) → Except PyErr (List Int)) (x : List (Fin d → ℝ))
    (y : List Int) :
    plotBayes false false n predict x y = .error .valueError ∧ (d ≠ n → plotBayes trained loaded n predict x y = .error .valueError) ∧
    (d ≠ 2 → ∃ e, plotBayes trained loaded n predict x y = .error e) := by
  refine ⟨by simp [plotBayes], fun h => ?_, fun h => ?_⟩
  · simp only [plotBayes]
    split_ifs <;> rfl
  · simp only [plotBayes]
    split_ifs <;> exact ⟨_, rfl⟩

theorem bayes_ok {d : Nat} {trained loaded : Bool} {n : Nat} {predict : List (List ℝ) → Except PyErr (List Int)} {x : List (Fin d → ℝ)}
    {y : List Int} {f : BayesFigure} (hf : plotBayes trained loaded n predict x y = .ok f) :
    ∃ (h2 : 2 ≤ d) (h : x.map (shown h2) ≠ []), d = 2 ∧ x.length = y.length ∧
      f.left = minOf ((x.map (shown h2)).map Prod.fst) (by simpa using h) - 1 / 10 ∧
      f.right = maxOf ((x.map (shown h2)).map Prod.fst) (by simpa using h) + 1 / 10 ∧
      f.bottom = minOf ((x.map (shown h2)).map Prod.snd) (by simpa using h) - 1 / 10 ∧
      f.top = maxOf ((x.map (shown h2)).map Prod.snd) (by simpa using h) + 1 / 10 ∧
      gridOn f.left f.right f.bottom f.top predict = .ok f.background ∧
      f.negatives = shownWith h2 x y 0 ∧ f.positives = shownWith h2 x y 1 := by
  simp only [plotBayes] at hf
  split at hf
  · cases hf
  split at hf
  · cases hf
  split at hf
  · rename_i h2
    split at hf
    · cases hf
    · rename_i hx
      split at hf
      · cases hf
      · rename_i hd
        split at hf
        · cases hf
        · rename_i z hz
          split at hf
          · cases hf
          · rename_i hl
            injection hf with hf
            subst hf
            exact ⟨h2, by simpa using hx, not_not.1 hd, not_not.1 hl, rfl, rfl, rfl, rfl, hz, rfl, rfl⟩
  · cases hf

/-- C159: the window contains every sample with a margin of a tenth. -/
theorem C159_window {d : Nat} {trained loaded : Bool} {n : Nat} {predict : List (List ℝ) → Except PyErr (List Int)} {x : List (Fin d → ℝ)}
    {y : List Int} {f : BayesFigure} (hf : plotBayes trained loaded n predict x y = .ok f) (h2 : 2 ≤ d) (r : Fin d → ℝ) (hr : r ∈ x) :
    f.left + 1 / 10 ≤ (shown h2 r).1 ∧ (shown h2 r).1 ≤ f.right - 1 / 10 ∧ f.bottom + 1 / 10 ≤ (shown h2 r).2 ∧
      (shown h2 r).2 ≤ f.top - 1 / 10 := by
  obtain ⟨_, h, _, _, e1, e2, e3, e4, _⟩ := bayes_ok hf
  have m1 : (shown h2 r).1 ∈ (x.map (shown h2)).map Prod.fst := List.mem_map.2 ⟨_, List.mem_map.2 ⟨r, hr, rfl⟩, rfl⟩
  have m2 : (shown h2 r).2 ∈ (x.map (shown h2)).map Prod.snd := List.mem_map.2 ⟨_, List.mem_map.2 ⟨r, hr, rfl⟩, rfl⟩
  rw [e1, e2, e3, e4]
  simp only [minOf, maxOf]
  have a1 := List.min_le_of_mem m1
  have a2 := List.le_max_of_mem m1
  have a3 := List.min_le_of_mem m2
  have a4 := List.le_max_of_mem m2
  refine ⟨by linarith, by linarith, by linarith, by linarith⟩

/-- C159: the samples labelled 0 and 1 are drawn as negative and positive examples. -/
theorem C159_samples {d : Nat} {trained loaded : Bool} {n : Nat} {predict : List (List ℝ) → Except PyErr (List Int)} {x : List (Fin d → ℝ)}
    {y : List Int} {f : BayesFigure} (hf : plotBayes trained loaded n predict x y = .ok f) (h : 2 ≤ d) (p : ℝ × ℝ) :
    (p ∈ f.negatives ↔ ∃ (i : Nat) (r : Fin d → ℝ), x[i]? = some r ∧ y[i]? = some 0 ∧ p = shown h r) ∧
    (p ∈ f.positives ↔ ∃ (i : Nat) (r : Fin d → ℝ), x[i]? = some r ∧ y[i]? = some 1 ∧ p = shown h r) := by
  obtain ⟨_, _, _, _, _, _, _, _, _, h1, h2⟩ := bayes_ok hf
  rw [h1, h2]
  exact ⟨mem_rowsOf h x y 0 p, mem_rowsOf h x y 1 p⟩

/-- A classifier that answers on pairs of numbers is drawn, and the background shows its answers. -/
theorem drawn_of_answers {trained loaded : Bool} (ht : trained = true ∨ loaded = true) (predict : List (List ℝ) → Except PyErr (List Int))
    (g : List ℝ → Int) (hg : AnswersPairs predict g) (x : List (Fin 2 → ℝ)) (hx : x ≠ []) (y : List Int) (hl : x.length = y.length) :
    ∃ f, plotBayes trained loaded 2 predict x y = .ok f ∧ Shows f g := by
  have hne : ¬(trained = false ∧ loaded = false) := by rintro ⟨rfl, rfl⟩; simp at ht
  have hp : x.map (shown (le_refl 2)) ≠ [] := by simpa using hx
  obtain ⟨z, h1, h2, h3, h4⟩ := rasterOn (minOf ((x.map (shown (le_refl 2))).map Prod.fst) (by simpa using hp) - 1 / 10)
    (maxOf ((x.map (shown (le_refl 2))).map Prod.fst) (by simpa using hp) + 1 / 10)
    (minOf ((x.map (shown (le_refl 2))).map Prod.snd) (by simpa using hp) - 1 / 10)
    (maxOf ((x.map (shown (le_refl 2))).map Prod.snd) (by simpa using hp) + 1 / 10) predict g (hg _ (mesh_pairs _ _))
  refine ⟨{ left := minOf ((x.map (shown (le_refl 2))).map Prod.fst) (by simpa using hp) - 1 / 10
            right := maxOf ((x.map (shown (le_refl 2))).map Prod.fst) (by simpa using hp) + 1 / 10
            bottom := minOf ((x.map (shown (le_refl 2))).map Prod.snd) (by simpa using hp) - 1 / 10
            top := maxOf ((x.map (shown (le_refl 2))).map Prod.snd) (by simpa using hp) + 1 / 10
            background := z
            negatives := shownWith (le_refl 2) x y 0
            positives := shownWith (le_refl 2) x y 1 }, ?_, h2, h3, h4⟩
  simp only [plotBayes]
  rw [if_neg hne, if_neg (by simp), dif_pos (le_refl 2), dif_neg hx, if_neg (by simp)]
  simp only [background, h1]
  rw [if_neg (by simp [hl])]

theorem mapM_answers {f : List ℝ → Except PyErr Int} (hf : ∀ r : List ℝ, r.length = 2 → ∃ a, f r = .ok a) :
    ∃ g : List ℝ → Int, (∀ r : List ℝ, r.length = 2 → f r = .ok (g r)) ∧ AnswersPairs (fun rows => rows.mapM f) g := by
  refine ⟨fun r => match f r with | .ok a => a | .error _ => 0, ?_, ?_⟩
  · intro r hr
    obtain ⟨a, ha⟩ := hf r hr
    simp only [ha]
  · intro rows hrows
    induction rows with
    | nil => rfl
    | cons r rows ih =>
      obtain ⟨a, ha⟩ := hf r (hrows r (by simp))
      have ih := ih fun r' hr' => hrows r' (by simp [hr'])
      simp only [List.mapM_cons, List.map_cons] at ih ⊢
      rw [ha]
      simp only [] at ih ⊢
      rw [ih]
      rfl

/-- C159: which error: without samples `ValueError` (of the minimum) if there are at least two columns, else `IndexError`; for three or more columns
`ValueError`; with two columns, a background and another number of labels than samples, `IndexError`, whatever the predictions. -/
theorem C159_errors {d : Nat} {trained loaded : Bool} (ht : trained = true ∨ loaded = true) (predict : List (List ℝ) → Except PyErr (List Int))
    (x : List (Fin d → ℝ)) (y : List Int) :
    (2 ≤ d → x = [] → plotBayes trained loaded d predict x y = .error .valueError) ∧
    (3 ≤ d → plotBayes trained loaded d predict x y = .error .valueError) ∧
    (d < 2 → plotBayes trained loaded d predict x y = .error .indexError) ∧
    (d = 2 → x ≠ [] → x.length ≠ y.length → (∃ g, AnswersPairs predict g) → plotBayes trained loaded d predict x y = .error .indexError) := by
  have hne : ¬(trained = false ∧ loaded = false) := by rintro ⟨rfl, rfl⟩; simp at ht
  refine ⟨fun h hx => ?_, fun h => ?_, fun h => ?_, fun h hx hl ⟨g, hg⟩ => ?_⟩
  · simp only [plotBayes]
    rw [if_neg hne, if_neg (by simp), dif_pos h, dif_pos hx]
  · simp only [plotBayes]
    rw [if_neg hne, if_neg (by simp), dif_pos (by omega)]
    by_cases hx : x = []
    · rw [dif_pos hx]
    · rw [dif_neg hx, if_pos (by omega)]
  · simp only [plotBayes]
    rw [if_neg hne, if_neg (by simp), dif_neg (by omega)]
  · subst h
    have hp : x.map (shown (le_refl 2)) ≠ [] := by simpa using hx
    obtain ⟨z, h1, -⟩ := rasterOn (minOf ((x.map (shown (le_refl 2))).map Prod.fst) (by simpa using hp) - 1 / 10)
      (maxOf ((x.map (shown (le_refl 2))).map Prod.fst) (by simpa using hp) + 1 / 10)
      (minOf ((x.map (shown (le_refl 2))).map Prod.snd) (by simpa using hp) - 1 / 10)
      (maxOf ((x.map (shown (le_refl 2))).map Prod.snd) (by simpa using hp) + 1 / 10) predict g (hg _ (mesh_pairs _ _))
    simp only [plotBayes]
    rw [if_neg hne, if_neg (by simp), dif_pos (le_refl 2), dif_neg hx, if_neg (by simp)]
    simp only [background]
    rw [h1]
    exact if_pos hl

/-- C159, the part that holds: a naive Bayes classifier trained on two continuous attributes is drawn with any samples, and the colour at each node is the
class it predicts there. -/
theorem C159_naive_bayes_partial (fl : ℝ → ℝ) (order : List ℝ → List ℝ) (ho : IsValueCounts order) (ns : List String) (l0 l1 : List ℝ)
    (y : List Int) (smoothing : Bool) (m : NB ℝ) (hm : nbObjFit order (some ns) [toCol false l0, toCol false l1] y smoothing = .ok m)
    (x : List (Fin 2 → ℝ)) (hx : x ≠ []) (y' : List Int) (hl : x.length = y'.length) :
    ∃ f g, plotBayes true false ns.length (nbRows fl smoothing ns m [false, false]) x y' = .ok f ∧ Shows f g ∧
      ∀ u v : ℝ, nbObjPredict fl smoothing (some ns) (some m) [.cont u, .cont v] = .ok (g [u, v]) := by
  have hn : ns.length = 2 := by
    by_contra h
    simp only [nbObjFit] at hm
    rw [if_pos (by simpa using h)] at hm
    cases hm
  obtain ⟨g, g1, g2⟩ := mapM_answers (f := fun r => nbObjPredict fl smoothing (some ns) (some m) (List.zipWith toCell [false, false] r)) (by
    intro r hr
    obtain ⟨u, v, rfl⟩ : ∃ u v, r = [u, v] := by
      match r, hr with
      | [u, v], _ => exact ⟨u, v, rfl⟩
    obtain ⟨a, ha, _⟩ := ((C131_answers fl order ho ns _ y smoothing m hm [.cont u, .cont v]).2 (by
      refine List.Forall₂.cons ?_ (List.Forall₂.cons ?_ List.Forall₂.nil) <;> simp [toCol, SameKind])).1 (by
      simp [toCol, Seen])
    exact ⟨a, by simpa [toCell] using ha⟩)
  obtain ⟨f, hf, hs⟩ := drawn_of_answers (.inl rfl) (loaded := false) _ g g2 x hx y' hl
  refine ⟨f, g, by rw [hn]; exact hf, hs, fun u v => ?_⟩
  simpa [toCell] using g1 [u, v] rfl

theorem factors_cont (fl : ℝ → ℝ) (smoothing : Bool) (m0 m1 : Option (ℝ × ℝ)) (u v : ℝ) :
    ∃ ps, factors fl smoothing [Stored.cont m0, Stored.cont m1] [(.cont u : Cell ℝ), .cont v] = .ok ps := by
  have h : ∀ (m : Option (ℝ × ℝ)) (u : ℝ), ∃ p, factor fl smoothing (Stored.cont m : Stored ℝ) (.cont u) = .ok p := by
    intro m u
    cases m with
    | none => exact ⟨none, rfl⟩
    | some mv => exact ⟨_, rfl⟩
  obtain ⟨p, hp⟩ := h m0 u
  obtain ⟨q, hq⟩ := h m1 v
  exact ⟨[p, q], by simp [factors, hp, hq]⟩

/-- C159, the part that holds: the same for a super-parent one-dependence estimator with two continuous attributes, whatever the super-parent. -/
theorem C159_spode_partial (fl : ℝ → ℝ) (l0 l1 sp : List ℝ) (y : List Int) (smoothing : Bool) (x : List (Fin 2 → ℝ)) (hx : x ≠ []) (y' : List Int)
    (hl : x.length = y'.length) :
    ∃ f g, plotBayes true false 2 (spodeRows fl smoothing (spodeFit [] [toCol false l0, toCol false l1] sp y smoothing) [false, false]) x y' = .ok f ∧
      Shows f g ∧ ∀ u v : ℝ, spodePredict fl smoothing (spodeFit [] [toCol false l0, toCol false l1] sp y smoothing) [.cont u, .cont v] =
        .ok (g [u, v]) := by
  have hE : ∀ e ∈ spodeFit [] [toCol false l0, toCol false l1] sp y smoothing, ∃ m0 m1, e.params = [Stored.cont m0, Stored.cont m1] := by
    intro e he
    simp only [spodeFit, List.nil_append, spodeEntries, List.mem_flatMap, List.mem_map] at he
    obtain ⟨c, _, v, _, rfl⟩ := he
    have hc : ∀ l : List ℝ, ∃ m, spodeColumn sp y v c (toCol false l) = .cont m := by
      intro l
      simp only [toCol, spodeColumn]
      exact ⟨_, (apply_ite Stored.cont _ _ _).symm⟩
    obtain ⟨m0, h0⟩ := hc l0
    obtain ⟨m1, h1⟩ := hc l1
    exact ⟨m0, m1, by simp [h0, h1]⟩
  generalize spodeFit [] [toCol false l0, toCol false l1] sp y smoothing = es at hE
  have hall : ∀ (c : Int) (u v : ℝ) (es : List (Entry ℝ)), (∀ e ∈ es, ∃ m0 m1, e.params = [Stored.cont m0, Stored.cont m1]) →
      ∃ ps, allFactors fl smoothing c [.cont u, .cont v] es = .ok ps := by
    intro c u v es
    induction es with
    | nil => exact fun _ => ⟨[], rfl⟩
    | cons e es ih =>
      intro h
      obtain ⟨qs, hqs⟩ := ih fun e' he' => h e' (by simp [he'])
      obtain ⟨m0, m1, hm⟩ := h e (by simp)
      obtain ⟨ps, hps⟩ := factors_cont fl smoothing m0 m1 u v
      simp only [allFactors, entryFactors, hm, hps, hqs]
      split <;> exact ⟨_, rfl⟩
  obtain ⟨g, g1, g2⟩ := mapM_answers (f := fun r => spodePredict fl smoothing es (List.zipWith toCell [false, false] r)) (by
    intro r hr
    obtain ⟨u, v, rfl⟩ : ∃ u v, r = [u, v] := by
      match r, hr with
      | [u, v], _ => exact ⟨u, v, rfl⟩
    obtain ⟨f0, h0⟩ := hall 0 u v es hE
    obtain ⟨f1, h1⟩ := hall 1 u v es hE
    refine ⟨label (score (some 0) f0) (score (some 0) f1), ?_⟩
    simp only [spodePredict, toCell, List.zipWith_cons_cons, List.zipWith_nil_right, Bool.false_eq_true, if_false, h0, h1])
  obtain ⟨f, hf, hs⟩ := drawn_of_answers (.inl rfl) (loaded := false) _ g g2 x hx y' hl
  exact ⟨f, g, hf, hs, fun u v => by simpa [toCell] using g1 [u, v] rfl⟩

/-- C159 fails whenever an attribute was taken for discrete, for instance a column of whole numbers: with its own training data the naive Bayes classifier
cannot be drawn, the left or lower edge of the window being a value it has not seen: `KeyError`. -/
theorem C159_discrete (fl : ℝ → ℝ) (order : List ℝ → List ℝ) (ho : IsValueCounts order) (ns : List String) (x : List (Fin 2 → ℝ)) (hx : x ≠ [])
    (disc : Fin 2 → Bool) (hd : disc 0 = true ∨ disc 1 = true) (y : List Int) (smoothing : Bool) (m : NB ℝ)
    (hm : nbObjFit order (some ns) [toCol (disc 0) (x.map fun r => r 0), toCol (disc 1) (x.map fun r => r 1)] y smoothing = .ok m) (y' : List Int) :
    plotBayes true false ns.length (nbRows fl smoothing ns m [disc 0, disc 1]) x y' = .error .keyError := by
  have hn : ns.length = 2 := by
    by_contra h
    simp only [nbObjFit] at hm
    rw [if_pos (by simpa using h)] at hm
    cases hm
  have hp : x.map (shown (le_refl 2)) ≠ [] := by simpa using hx
  have hfst : (x.map (shown (le_refl 2))).map Prod.fst = x.map fun r => r 0 := by simp [shown, Function.comp_def]
  have hsnd : (x.map (shown (le_refl 2))).map Prod.snd = x.map fun r => r 1 := by simp [shown, Function.comp_def]
  set a := minOf ((x.map (shown (le_refl 2))).map Prod.fst) (by simpa using hp) - 1 / 10 with ha
  set c := minOf ((x.map (shown (le_refl 2))).map Prod.snd) (by simpa using hp) - 1 / 10 with hc
  have ha' : a ∉ x.map fun r => r 0 := by
    rw [← hfst]
    intro h
    have := List.min_le_of_mem h
    simp only [ha, minOf] at this
    linarith
  have hc' : c ∉ x.map fun r => r 1 := by
    rw [← hsnd]
    intro h
    have := List.min_le_of_mem h
    simp only [hc, minOf] at this
    linarith
  have hfirst : nbObjPredict fl smoothing (some ns) (some m) (List.zipWith toCell [disc 0, disc 1] [a, c]) = .error .keyError := by
    refine ((C131_answers fl order ho ns _ y smoothing m hm _).2 ?_).2 ?_
    · simp only [List.zipWith_cons_cons, List.zipWith_nil_right]
      refine List.Forall₂.cons ?_ (List.Forall₂.cons ?_ List.Forall₂.nil)
      · cases disc 0 <;> simp [toCol, toCell, SameKind]
      · cases disc 1 <;> simp [toCol, toCell, SameKind]
    · rcases hd with hd | hd
      · refine ⟨(toCol (disc 0) (x.map fun r => r 0), toCell (disc 0) a), by simp, ?_⟩
        simpa [hd, toCol, toCell, Seen] using ha'
      · refine ⟨(toCol (disc 1) (x.map fun r => r 1), toCell (disc 1) c), by simp, ?_⟩
        simpa [hd, toCol, toCell, Seen] using hc'
  have hmesh : ∀ b e : ℝ, ∃ rest, meshRows (linspace a b 300) (linspace c e 300) = [a, c] :: rest := by
    intro b e
    have h0 : ∀ a b : ℝ, ∃ rest, linspace a b 300 = a :: rest := by
      intro a b
      have := linspace_get a b 0 (by norm_num)
      cases hl : linspace a b 300 with
      | nil => rw [hl] at this; simp at this
      | cons t rest => rw [hl] at this; simp at this; exact ⟨rest, by rw [this]⟩
    obtain ⟨r1, h1⟩ := h0 a b
    obtain ⟨r2, h2⟩ := h0 c e
    rw [h1, h2]
    exact ⟨_, rfl⟩
  simp only [plotBayes]
  rw [if_neg (by simp), if_neg (by simp [hn]), dif_pos (le_refl 2), dif_neg hx, if_neg (by simp)]
  have hb : background (x.map (shown (le_refl 2))) hp (nbRows fl smoothing ns m [disc 0, disc 1]) = .error .keyError := by
    simp only [background, gridOn]
    obtain ⟨rest, hr⟩ := hmesh (maxOf ((x.map (shown (le_refl 2))).map Prod.fst) (by simpa using hp) + 1 / 10)
      (maxOf ((x.map (shown (le_refl 2))).map Prod.snd) (by simpa using hp) + 1 / 10)
    rw [hr]
    simp only [nbRows, List.mapM_cons, hfirst]
    rfl
  rw [hb]

/-- Non-vacuity: whole numbers in the first column, measurements in the second; the classifier can be trained, and answers on its own samples. -/
example (order : List ℝ → List ℝ) : ∃ m, nbObjFit order (some ["rooms", "size"]) [toCol true [1, 2, 1], toCol false [0.5, 0.25, 0.75]] [0, 1, 1] true = .ok m := by
  obtain ⟨m, hm⟩ := C80_fit_partial order [.disc [1, 2, 1], .cont [0.5, 0.25, 0.75]] [0, 1, 1] (by simp) true (by
    intro l hl
    simp only [List.mem_cons, Col.disc.injEq, reduceCtorEq, List.not_mem_nil, or_false] at hl
    subst hl
    have h2 : (2 : ℝ) ∈ pyUnique [1, 2, 1] := mem_pyUnique.2 (by simp)
    have h1 : (1 : ℝ) ∈ pyUnique [1, 2, 1] := mem_pyUnique.2 (by simp)
    intro hl
    obtain ⟨a, ha⟩ := List.length_eq_one_iff.1 hl
    rw [ha] at h1 h2
    simp at h1 h2
    linarith)
  exact ⟨m, by simpa [nbObjFit, toCol] using hm⟩

end CML.PlotsGrid
