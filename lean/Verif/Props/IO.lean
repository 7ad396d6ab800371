import Verif.Lemmas.IO

/-! # C68: which weights files are accepted -/

namespace CML.IO

variable {V : Type}

theorem key_ok {α : Type} {o : Option α} {a : α} : key o = .ok a ↔ o = some a := by
  cases o <;> simp [key]

theorem parse_ok_iff (pv : String → Option Version) (name : String) (f : HFile V) :
    parse pv name f = .ok () ↔ ∃ d, f.description = some d ∧ Acceptable pv name d := by
  obtain ⟨desc, ps⟩ := f
  cases desc with
  | none => simp [parse, key, bind, Except.bind]
  | some d =>
    simp only [Acceptable, Option.some.injEq, exists_eq_left']
    cases hc : d.get "cml_version" with
    | none => simp [parse, key, bind, Except.bind, hc]
    | some cs =>
      cases hv : pv cs with
      | none => simp [parse, key, bind, Except.bind, hc, hv]
      | some v =>
        cases hi : d.get "io_version" with
        | none => simp [parse, key, bind, Except.bind, hc, hv, hi]
        | some is =>
          cases hm : firstMatch is.toList with
          | none =>
            have : ∀ ps, ¬ IsFirstDotted is.toList ps := by
              intro ps h; rw [← firstMatch_iff, hm] at h; simp at h
            simp [parse, key, bind, Except.bind, hc, hv, hi, hm, this]
          | some m =>
            have hfd : ∀ ps, IsFirstDotted is.toList ps ↔ ps = m := by
              intro ps; rw [← firstMatch_iff, hm]; simp [eq_comm]
            have hv2 : v.lt minModel = true ↔ ¬ AtLeast v [0, 5] := lt_final_iff v _
            have hi2 : (Version.final (m.map natOf)).lt minIo = true ↔ RelLt (m.map natOf) [0, 7] :=
              lt_final_final _ _
            have hs : (∃ s v, some cs = some s ∧ pv s = some v ∧ AtLeast v [0, 5]) ↔ AtLeast v [0, 5] := by
              constructor
              · rintro ⟨s, v', h1, h2, h3⟩
                injection h1 with h1; subst h1; rw [hv] at h2; injection h2 with h2; subst h2; exact h3
              · intro h; exact ⟨cs, v, rfl, hv, h⟩
            have hmn : m.map natOf = m.map decimal := map_natOf ((hfd m).2 rfl).1
            have hp : (∃ s ps, some is = some s ∧ IsFirstDotted s.toList ps ∧ ¬ RelLt (ps.map decimal) [0, 7]) ↔
                ¬ RelLt (m.map natOf) [0, 7] := by
              constructor
              · rintro ⟨s, ps, h1, h2, h3⟩
                injection h1 with h1; subst h1; rw [hfd] at h2; subst h2; rw [hmn]; exact h3
              · intro h; exact ⟨is, m, rfl, (hfd m).2 rfl, by rw [← hmn]; exact h⟩
            rw [hs, hp]
            have hv3 : AtLeast v [0, 5] ↔ v.lt minModel = false := by
              rw [← Bool.not_eq_true, hv2, not_not]
            have hi3 : ¬ RelLt (m.map natOf) [0, 7] ↔ (Version.final (m.map natOf)).lt minIo = false := by
              rw [← Bool.not_eq_true, hi2]
            rw [hv3, hi3]
            cases hx : v.lt minModel <;> cases hy : (Version.final (m.map natOf)).lt minIo <;>
              cases hn : d.get "model_name" <;>
              simp [parse, key, bind, Except.bind, hc, hv, hi, hm, hx, hy, hn]

/-- **C68.** Opening a weights file for reading succeeds exactly when it exists, has a parameters
group, and its header names the same model, a classicML version of at least 0.5 and an I/O version
whose first dotted number is at least 0.7. -/
theorem C68_accept_iff (pv : String → Option Version) (fs : FS V) (path name : String) (p : Params V) :
    initRead pv fs path name = .ok p ↔
      ∃ f d, fs path = some f ∧ f.description = some d ∧ f.parameters = some p ∧ Acceptable pv name d := by
  unfold initRead
  cases hf : fs path with
  | none => simp
  | some f =>
    simp only [Option.some.injEq, bind, Except.bind]
    have h := parse_ok_iff pv name f
    cases hp : parse pv name f with
    | error e =>
      simp only [reduceCtorEq, false_iff]
      rintro ⟨f', d, rfl, hd, -, ha⟩
      rw [hp] at h; simpa using h.2 ⟨d, hd, ha⟩
    | ok u =>
      obtain ⟨d, hd, ha⟩ := h.1 hp
      simp only [key_ok]
      constructor
      · intro h'; exact ⟨f, d, rfl, hd, h', ha⟩
      · rintro ⟨f', d', rfl, -, hp', -⟩; exact hp'

/-- The PEP 440 reading of this version's own version string `0.9.1a3`. -/
def thisVersion : Version := ⟨0, [0, 9, 1], some (0, 3), none, none⟩

/-- The first dotted number of `backend.io.0.7` is `0.7`. -/
theorem own_io : firstMatch ioVersion.toList = some [['0'], ['7']] := by
  simp [ioVersion, firstMatch, matchAt, blocks, isDigit]

/-- **C68.** A file freshly written by this version is accepted by the same model — provided
`packaging` reads `0.9.1a3` as alpha 3 of 0.9.1 — and its data sets are empty. -/
theorem C68_own_file (pv : String → Option Version) (hpv : pv cmlVersion = some thisVersion)
    (writable : String → Bool) (user : String) (fs : FS V) (path name : String)
    (hw : writable path = true) :
    initRead pv (initWrite writable user fs path name).1 path name = .ok ⟨some [], some []⟩ := by
  rw [C68_accept_iff]
  refine ⟨freshFile user name, _, ?_, rfl, rfl, ?_⟩
  · simp [initWrite, hw]
  · refine ⟨by simp [Dict.get], ⟨cmlVersion, thisVersion, by simp [Dict.get], hpv, ?_⟩,
      ⟨ioVersion, [['0'], ['7']], by simp [Dict.get], (firstMatch_iff _ _).1 own_io, ?_⟩⟩
    · exact .inr (.inl ⟨1, by simp [thisVersion], by simp [thisVersion]⟩)
    · rintro ⟨k, h1, h2⟩
      match k with
      | 0 => simp [decimal, digitChars] at h2
      | 1 => simp [decimal, digitChars] at h2
      | k + 2 => simp at h2

/-- **C68.** …and it is rejected by every other model, with `ValueError`. -/
theorem C68_other_model (pv : String → Option Version) (hpv : pv cmlVersion = some thisVersion)
    (writable : String → Bool) (user : String) (fs : FS V) (path name other : String)
    (hw : writable path = true) (hne : other ≠ name) :
    initRead pv (initWrite writable user fs path name).1 path other = .error .valueError := by
  have h1 : thisVersion.lt minModel = false := by decide
  have h2 : (Version.final ([['0'], ['7']].map natOf)).lt minIo = false := by decide
  simp [initRead, initWrite, hw, parse, freshFile, key, bind, Except.bind, Dict.get, hpv, own_io,
    h1, h2, Ne.symm hne]

/-- **C68.** Every newer final release of classicML keeps being accepted (no upper bound), and every
release below 0.5 and every pre-release of 0.5 is refused. -/
theorem C68_version_bound (r : List Nat) :
    ((Version.final r).lt minModel = false ↔ ¬ RelLt r [0, 5]) ∧
    (∀ v : Version, v.epoch = 0 → RelEq [0, 5] v.release → (v.lt minModel = true ↔ v.isPre)) := by
  constructor
  · rw [← Bool.not_eq_true, not_iff_not]; exact lt_final_final r [0, 5]
  · intro v he hr
    have := lt_final_iff v [0, 5]
    rw [show minModel = .final [0, 5] from rfl, this]
    simp [AtLeast, he, hr, relEq_not_lt hr]

/-- **C68.** The comparison is the componentwise one: for all releases. -/
theorem C68_release_order (a b : List Nat) :
    (Version.final a).lt (.final b) = true ↔ RelLt a b := lt_final_final a b

/-- **C68.** Missing pieces are reported as `KeyError`, a missing file as `IOError`, an I/O version
without a dotted number as `IndexError`. -/
theorem C68_errors (pv : String → Option Version) (fs : FS V) (path name : String) :
    (fs path = none → initRead pv fs path name = .error .ioError) ∧
    (∀ f, fs path = some f → f.description = none → initRead pv fs path name = .error .keyError) ∧
    (∀ f d s v i, fs path = some f → f.description = some d → d.get "cml_version" = some s →
      pv s = some v → d.get "io_version" = some i →
      (∀ qs pre post, IsDotted qs → i.toList ≠ pre ++ dotted qs ++ post) →
      initRead pv fs path name = .error .indexError) := by
  refine ⟨fun h => by simp [initRead, h], fun f h h2 => by
    simp [initRead, h, parse, h2, key, bind, Except.bind], ?_⟩
  intro f d s v i h h2 h3 h4 h5 h6
  have h7 : firstMatch i.toList = none := by
    cases hm : firstMatch i.toList with
    | none => rfl
    | some ps =>
      obtain ⟨g1, pre, post, g2, -⟩ := firstMatch_some hm
      exact absurd g2 (h6 ps pre post g1)
  simp [initRead, h, parse, h2, h3, h4, h5, h7, key, bind, Except.bind]

/-- The suffix of the I/O version is not looked at: `backend.io.0.7a1`, a pre-release of 0.7, counts
as 0.7. -/
theorem C68_suffix_ignored :
    firstMatch "backend.io.0.7a1".toList = some [['0'], ['7']] ∧
    (⟨0, [0, 7], some (0, 1), none, none⟩ : Version).lt minIo = true := by
  refine ⟨?_, by decide⟩
  simp [firstMatch, matchAt, blocks, isDigit]

/-- The model names used by the classes of the package, in the order of their `save_weights`
methods (see the citations in `Model/Persist`). -/
def modelNames : List String :=
  ["SuperParentOneDependentEstimator", "AveragedOneDependentEstimator", "NaiveBayesClassifier",
   "AdaBoostClassifier", "BaggingClassifier", "DecisionTreeClassifier", "SupportVectorClassifier",
   "GaussianMixture", "KMeans", "BackPropagationNeuralNetwork", "RadialBasisFunctionNetwork",
   "LinearDiscriminantAnalysis", "LogisticRegression"]

/-- **C68.** No two classes share a model name, so a file of one class is never accepted by another. -/
theorem C68_names_distinct : modelNames.Nodup := by decide

/-- Non-vacuity: a file system in which one path holds an old file and another a fresh one. -/
example : let pv : String → Option Version := fun s => if s = "0.9.1a3" then some thisVersion else
      if s = "0.4" then some (.final [0, 4]) else none
    let fs : FS Nat := fun p => if p = "old" then
      some ⟨some [("cml_version", "0.4"), ("io_version", "io.0.7"), ("model_name", "M")], some ⟨some [], some []⟩⟩
      else if p = "new" then some (freshFile "me" "M") else none
    (initRead pv fs "old" "M").isOk = false ∧ (initRead pv fs "new" "M").isOk = true ∧
    (initRead pv fs "new" "N").isOk = false := by
  refine ⟨?_, ?_, ?_⟩ <;>
  simp [initRead, parse, freshFile, key, bind, Except.bind, Dict.get, cmlVersion, own_io, firstMatch, matchAt, blocks, isDigit,
    show (Version.final [0, 4]).lt minModel = true by decide, show thisVersion.lt minModel = false by decide,
    show (Version.final [0, 7]).lt minIo = false by decide, natOf, Except.isOk, Except.toBool]

/-- **C68.** A `cml_version` that is not a version raises `ValueError` (`InvalidVersion`), as do a version of classicML that is too old and an I/O
version that is too old. -/
theorem C68_value_errors (pv : String → Option Version) (fs : FS V) (path name : String) (f : HFile V) (d : Dict String String) (s i : String)
    (hf : fs path = some f) (hd : f.description = some d) (hs : d.get "cml_version" = some s) (hi : d.get "io_version" = some i) :
    (pv s = none → initRead pv fs path name = .error .valueError) ∧
    (∀ v ps, pv s = some v → IsFirstDotted i.toList ps → (¬ AtLeast v [0, 5] ∨ RelLt (ps.map decimal) [0, 7]) →
      initRead pv fs path name = .error .valueError) := by
  constructor
  · intro h
    simp [initRead, hf, parse, hd, hs, h, key, bind, Except.bind]
  · intro v ps hv hps h
    have hm := (firstMatch_iff _ _).2 hps
    have hb : (v.lt minModel || (Version.final (ps.map natOf)).lt minIo) = true := by
      rw [Bool.or_eq_true, map_natOf hps.1]
      rcases h with h | h
      · exact .inl ((lt_final_iff v [0, 5]).2 h)
      · exact .inr ((lt_final_final _ [0, 7]).2 h)
    simp only [initRead, hf, parse, hd, hs, hi, hv, hm, key, bind, Except.bind, hb, if_true]

/-- **C68.** The order of versions of one release follows PEP 440: development versions of the release, then alpha, beta and candidate
releases (each after its own development versions and before its own post-releases), the release itself, and its post-releases; a higher epoch
beats every release. -/
theorem C68_pep440 (e : Nat) (r : List Nat) (p q : Fin 3) (k l m n : Nat) :
    (Version.mk e r none none (some n)).lt ⟨e, r, some (p, k), none, some m⟩ = true ∧
    (Version.mk e r (some (p, k)) none (some n)).lt ⟨e, r, some (p, k), none, none⟩ = true ∧
    (Version.mk e r (some (p, k)) none none).lt ⟨e, r, some (p, k), some m, some n⟩ = true ∧
    (Version.mk e r (some (p, k)) (some m) (some n)).lt ⟨e, r, some (p, k), some m, none⟩ = true ∧
    (p < q → (Version.mk e r (some (p, k)) (some m) none).lt ⟨e, r, some (q, l), none, some n⟩ = true) ∧
    (k < l → (Version.mk e r (some (p, k)) (some m) none).lt ⟨e, r, some (p, l), none, some n⟩ = true) ∧
    (Version.mk e r (some (p, k)) (some m) none).lt ⟨e, r, none, none, none⟩ = true ∧
    (Version.mk e r none none none).lt ⟨e, r, none, some m, some n⟩ = true ∧
    (Version.mk e r none (some m) (some n)).lt ⟨e, r, none, some m, none⟩ = true ∧
    (m < n → (Version.mk e r none (some m) none).lt ⟨e, r, none, some n, some k⟩ = true) ∧
    (m < n → (Version.mk e r none none (some m)).lt ⟨e, r, none, none, some n⟩ = true) ∧
    (∀ (a b : Version), a.epoch < b.epoch → a.lt b = true ∧ b.lt a = false) ∧
    (∀ a : Version, a.lt a = false) := by
  have hp := p.isLt
  have hpq : p < q → ¬(p : Nat) = q ∧ (p : Nat) < q := fun h => ⟨by have := Fin.lt_def.1 h; omega, Fin.lt_def.1 h⟩
  refine ⟨?_, ?_, ?_, ?_, ?_, ?_, ?_, ?_, ?_, ?_, ?_, ?_, ?_⟩
  · simp [Version.lt, Version.tailKey, tupleLt]
  · simp [Version.lt, Version.tailKey, tupleLt]
  · simp [Version.lt, Version.tailKey, tupleLt]
  · simp [Version.lt, Version.tailKey, tupleLt]
  · intro h; simp [Version.lt, Version.tailKey, tupleLt, (hpq h).1, (hpq h).2]
  · intro h; simp [Version.lt, Version.tailKey, tupleLt, h.ne, h]
  · have h3 : ¬(p : Nat) + 1 = 4 := by omega
    have h4 : (p : Nat) + 1 < 4 := by omega
    simp [Version.lt, Version.tailKey, tupleLt, h3, h4]
  · simp [Version.lt, Version.tailKey, tupleLt]
  · simp [Version.lt, Version.tailKey, tupleLt]
  · intro h; simp [Version.lt, Version.tailKey, tupleLt, h.ne, h]
  · intro h; simp [Version.lt, Version.tailKey, tupleLt, h.ne, h]
  · intro a b h
    simp only [Version.lt]
    rw [if_neg (by omega), if_neg (by omega)]
    simp; omega
  · intro a
    simp [Version.lt, tupleLt_irrefl]

end CML.IO
