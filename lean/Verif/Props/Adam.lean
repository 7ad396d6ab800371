import Verif.Spec.Adam
import Verif.Props.Network

set_option linter.unusedSectionVars false

/-! # C52 on the parameters of a network, C167 training in several calls of `fit` -/

namespace CML.Net
open Finset

theorem bdim_self (n : Nat) : bdim n n = some n := by simp [bdim]
theorem bidx_lt {n i : Nat} (h : i < n) : bidx n i = i := by unfold bidx; split <;> omega

theorem bcast_same (f : ℝ → ℝ → ℝ) (r c : Nat) (a b : ℕ → ℕ → ℝ) :
    bcast f ⟨r, c, a⟩ ⟨r, c, b⟩ = .ok ⟨r, c, fun i j => f (a (bidx r i) (bidx c j)) (b (bidx r i) (bidx c j))⟩ := by
  simp only [bcast, bdim_self]

/-- Two arrays of the same shape. -/
def SameShape (a b : Mat) : Prop := a.rows = b.rows ∧ a.cols = b.cols

/-- The three arrays of a key have one shape and, inside of it, the entries of `E`. -/
def Entries (s : AdamMat) (E : ℕ → ℕ → AdamEntry) : Prop :=
  SameShape s.m s.p ∧ SameShape s.v s.p ∧
  ∀ i < s.p.rows, ∀ j < s.p.cols, s.p.e i j = (E i j).p ∧ s.m.e i j = (E i j).m ∧ s.v.e i j = (E i j).v

theorem adamMat_step (lr b1 b2 eps : ℝ) (t : Nat) (s : AdamMat) (E₀ : ℕ → ℕ → AdamEntry) (hE : Entries s E₀) (g : Mat) (hg : SameShape g s.p) :
    ∃ s', s.step lr b1 b2 eps t g = .ok s' ∧ SameShape s'.p s.p ∧
      ∀ E, Entries s E → Entries s' (fun i j => adamStep lr b1 b2 eps t (E i j) (g.e i j)) := by
  obtain ⟨⟨r, c, pe⟩, ⟨mr, mc, me⟩, ⟨vr, vc, ve⟩⟩ := s
  obtain ⟨gr, gc, ge⟩ := g
  obtain ⟨⟨h1, h2⟩, ⟨h3, h4⟩, -⟩ := hE
  obtain ⟨h6, h7⟩ := hg
  dsimp only at h1 h2 h3 h4 h6 h7
  subst h1 h2 h3 h4 h6 h7
  simp only [AdamMat.step, bcast_same, subInPlace]
  refine ⟨_, by simp only [true_or, and_self, if_true]; rfl, ⟨rfl, rfl⟩, fun E hE => ⟨⟨rfl, rfl⟩, ⟨rfl, rfl⟩, ?_⟩⟩
  intro i hi j hj
  obtain ⟨e1, e2, e3⟩ := hE.2.2 i hi j hj
  dsimp only at hi hj e1 e2 e3 ⊢
  simp only [bidx_lt hi, bidx_lt hj, e1, e2, e3, adamStep, one_mul, and_self]

theorem entries_init (p : Mat) : Entries (.init p) fun i j => ⟨p.e i j, 0, 0⟩ :=
  ⟨⟨rfl, rfl⟩, ⟨rfl, rfl⟩, fun _ _ _ _ => ⟨rfl, rfl, rfl⟩⟩

/-- A layer whose arrays can be updated with the gradient `g`. -/
def Ready (s : AdamLayer) (g : Grad) : Prop :=
  (∃ E, Entries s.w E) ∧ (∃ E, Entries s.b E) ∧ SameShape g.dw s.w.p ∧ SameShape g.db s.b.p

/-- `s'` is the layer `s` after the update with `g` in epoch `t`. -/
def Stepped (lr b1 b2 eps : ℝ) (t : Nat) (s : AdamLayer) (g : Grad) (s' : AdamLayer) : Prop :=
  (SameShape s'.w.p s.w.p ∧ ∀ E, Entries s.w E → Entries s'.w (fun i j => adamStep lr b1 b2 eps t (E i j) (g.dw.e i j))) ∧
  (SameShape s'.b.p s.b.p ∧ ∀ E, Entries s.b E → Entries s'.b (fun i j => adamStep lr b1 b2 eps t (E i j) (g.db.e i j)))

theorem adamUpdate_ok (lr b1 b2 eps : ℝ) (t : Nat) {S : List AdamLayer} {gs : List Grad} (h : List.Forall₂ Ready S gs) :
    ∃ S', adamUpdate lr b1 b2 eps t S gs = .ok S' ∧ S'.length = S.length ∧
      ∀ (l : Nat) s g s', S[l]? = some s → gs[l]? = some g → S'[l]? = some s' → Stepped lr b1 b2 eps t s g s' := by
  induction h with
  | nil => exact ⟨[], rfl, rfl, by simp⟩
  | @cons s g S gs hr hrest ih =>
    obtain ⟨S', e, hl, hS⟩ := ih
    obtain ⟨⟨Ew, hw⟩, ⟨Eb, hb⟩, gw, gb⟩ := hr
    obtain ⟨w', ew, kw⟩ := adamMat_step lr b1 b2 eps t s.w Ew hw g.dw gw
    obtain ⟨b', eb, kb⟩ := adamMat_step lr b1 b2 eps t s.b Eb hb g.db gb
    refine ⟨⟨w', b'⟩ :: S', by simp only [adamUpdate, ew, eb, e], by simp [hl], ?_⟩
    intro l s1 g1 s1' h1 h2 h3
    cases l with
    | zero =>
      simp only [List.getElem?_cons_zero, Option.some.injEq] at h1 h2 h3
      subst h1 h2 h3
      exact ⟨kw, kb⟩
    | succ l =>
      simp only [List.getElem?_cons_succ] at h1 h2 h3
      exact hS l s1 g1 s1' h1 h2 h3

theorem bwd_shapes (n : Nat) (G : (ℕ → ℕ → ℝ) → ℕ → ℕ → ℝ) (P : List Layer) : ∀ (sizes : List Nat) (A : ℕ → ℕ → ℝ), Shaped sizes P →
    List.Forall₂ (fun L g => SameShape g.dw L.w ∧ SameShape g.db L.b) P (bwd n G P A).1 := by
  have one : ∀ (L : Layer) (d m : Nat) (da A : ℕ → ℕ → ℝ), (L.w.rows = m ∧ L.w.cols = d ∧ L.b.rows = 1 ∧ L.b.cols = m) →
      SameShape (gradOf n L da A).dw L.w ∧ SameShape (gradOf n L da A).db L.b := by
    intro L d m da A ⟨h1, h2, h3, h4⟩
    exact ⟨⟨rfl, rfl⟩, h3.symm, by rw [h4, ← h1]; rfl⟩
  induction P with
  | nil => intro sizes A _; exact .nil
  | cons L Ls ih =>
    intro sizes A hS
    match sizes, hS with
    | d :: m :: rest, ⟨h, hS'⟩ =>
      cases Ls with
      | nil => exact .cons (one L d m _ A h) .nil
      | cons L' Ls' => exact .cons (one L d m _ A h) (ih _ _ hS')

theorem forall₂_of_getElem {α β : Type} {R : α → β → Prop} : ∀ (a : List α) (b : List β), a.length = b.length →
    (∀ (l : Nat) x y, a[l]? = some x → b[l]? = some y → R x y) → List.Forall₂ R a b
  | [], [], _, _ => .nil
  | x :: a, y :: b, hl, h => .cons (h 0 x y rfl rfl) (forall₂_of_getElem a b (by simpa using hl) fun l x' y' h1 h2 => h (l + 1) x' y' (by simpa using h1) (by simpa using h2))

theorem forall₂_getElem {α β : Type} {R : α → β → Prop} {a : List α} {b : List β} (h : List.Forall₂ R a b) :
    ∀ (l : Nat) x y, a[l]? = some x → b[l]? = some y → R x y := by
  induction h with
  | nil => intro l x y h1; simp at h1
  | cons hr _ ih =>
    intro l x y h1 h2
    cases l with
    | zero =>
      simp only [List.getElem?_cons_zero, Option.some.injEq] at h1 h2
      subst h1 h2; exact hr
    | succ l => exact ih l x y (by simpa using h1) (by simpa using h2)

/-- Parameters of the same shapes layer by layer. -/
theorem shaped_congr (P : List Layer) : ∀ (sizes : List Nat) (Q : List Layer), Shaped sizes P →
    List.Forall₂ (fun L M => SameShape M.w L.w ∧ SameShape M.b L.b) P Q → Shaped sizes Q := by
  induction P with
  | nil => intro sizes Q hS h; cases h; exact hS
  | cons L Ls ih =>
    intro sizes Q hS h
    cases h with
    | @cons _ M _ Ms hr hrest =>
      match sizes, hS with
      | d :: m :: rest, ⟨⟨h1, h2, h3, h4⟩, hS'⟩ =>
        exact ⟨⟨hr.1.1.trans h1, hr.1.2.trans h2, hr.2.1.trans h3, hr.2.2.trans h4⟩, ih _ _ hS' hrest⟩

theorem sampleGrad_ok {d m : Nat} {rest : List Nat} {P : List Layer} (x y : Mat) (i : Nat) (hS : Shaped (d :: m :: rest) P) (hx : x.cols = d)
    (hk : 0 < lastSize (d :: m :: rest)) (hy : y.cols = lastSize (d :: m :: rest) ∨ y.cols = 1) (hi : i < x.rows) (hi' : i < y.rows) :
    ∃ gs, sampleGrad x y P i = .ok gs ∧ List.Forall₂ (fun L g => SameShape g.dw L.w ∧ SameShape g.db L.b) P gs := by
  obtain ⟨yp, caches, h1, -, -, h4⟩ := forward_backward P _ (rowOf x i) hS (shaped_ne_nil hS) (by simp [rowOf, hx]) (by simp [rowOf]) hk
  have h5 := h4 (rowOf y i) rfl hy
  refine ⟨_, ?_, bwd_shapes 1 (outErr (lastSize (d :: m :: rest)) (rowOf y i).cols (rowOf y i).e) P _ (rowOf x i).e hS⟩
  rw [sampleGrad, if_neg (by omega), h1]
  simp only [h5]
  rfl

theorem adamLoop_append (lr b1 b2 eps : ℝ) (x y : Mat) (i : Nat) : ∀ (is : List Nat) (t : Nat) (S S' : List AdamLayer),
    adamLoop lr b1 b2 eps x y t is S = .ok S' →
    adamLoop lr b1 b2 eps x y t (is ++ [i]) S = adamLoop lr b1 b2 eps x y (t + is.length) [i] S'
  | [], t, S, S', h => by
    simp only [adamLoop, Except.ok.injEq] at h
    subst h; rfl
  | j :: is, t, S, S', h => by
    rw [adamLoop] at h
    rw [List.cons_append, adamLoop]
    cases hg : sampleGrad x y (layersOf S) j with
    | error e => rw [hg] at h; cases h
    | ok gs =>
      rw [hg] at h
      dsimp only at h ⊢
      cases hu : adamUpdate lr b1 b2 eps t S gs with
      | error e => rw [hu] at h; cases h
      | ok S1 =>
        rw [hu] at h
        dsimp only at h ⊢
        rw [adamLoop_append lr b1 b2 eps x y i is (t + 1) S1 S' h, List.length_cons, show t + 1 + is.length = t + (is.length + 1) by omega]

/-- **C52**, on the whole network: for a network of any depth and any number of epochs, `Adam` never raises, the parameters keep their shapes, and every
entry of every weight matrix and bias moves by the update rule of Adam (`adamRun`, of which the other theorems of C52 speak) driven by its own
sequence of derivatives: those the backward pass computes in epoch `t` on the drawn sample at the parameters reached before that epoch. -/
theorem C52_network (lr b1 b2 eps : ℝ) {d m : Nat} {rest : List Nat} {P : List Layer} (x y : Mat) (hS : Shaped (d :: m :: rest) P) (hx : x.cols = d)
    (hk : 0 < lastSize (d :: m :: rest)) (hy : y.cols = lastSize (d :: m :: rest) ∨ y.cols = 1) (idx : List Nat)
    (hidx : ∀ i ∈ idx, i < x.rows ∧ i < y.rows) :
    ∃ (P' : List Layer) (grads : List (List Grad)), adamTrain lr b1 b2 eps x y idx P = .ok P' ∧ Shaped (d :: m :: rest) P' ∧ grads.length = idx.length ∧
      (∀ (t i : Nat), idx[t]? = some i → ∃ Pt gs, adamTrain lr b1 b2 eps x y (idx.take t) P = .ok Pt ∧ grads[t]? = some gs ∧ sampleGrad x y Pt i = .ok gs) ∧
      ∀ (l : Nat) (L L' : Layer), P[l]? = some L → P'[l]? = some L' →
        (∀ r < L.w.rows, ∀ c < L.w.cols, L'.w.e r c = (adamRun lr b1 b2 eps (L.w.e r c) (grads.map (weightGrad l r c))).1.p) ∧
        (∀ r < L.b.rows, ∀ c < L.b.cols, L'.b.e r c = (adamRun lr b1 b2 eps (L.b.e r c) (grads.map (biasGrad l r c))).1.p) := by
  suffices H : ∃ (S' : List AdamLayer) (grads : List (List Grad)), adamLoop lr b1 b2 eps x y 1 idx (adamInit P) = .ok S' ∧ grads.length = idx.length ∧
      S'.length = P.length ∧
      (∀ (t i : Nat), idx[t]? = some i → ∃ Pt gs, adamTrain lr b1 b2 eps x y (idx.take t) P = .ok Pt ∧ grads[t]? = some gs ∧ sampleGrad x y Pt i = .ok gs) ∧
      ∀ (l : Nat) (L : Layer) (s' : AdamLayer), P[l]? = some L → S'[l]? = some s' →
        (SameShape s'.w.p L.w ∧ Entries s'.w fun r c => (adamRun lr b1 b2 eps (L.w.e r c) (grads.map (weightGrad l r c))).1) ∧
        (SameShape s'.b.p L.b ∧ Entries s'.b fun r c => (adamRun lr b1 b2 eps (L.b.e r c) (grads.map (biasGrad l r c))).1) by
    obtain ⟨S', grads, e1, e2, e3, e4, e5⟩ := H
    have hF : List.Forall₂ (fun L M => SameShape M.w L.w ∧ SameShape M.b L.b) P (layersOf S') := by
      refine forall₂_of_getElem _ _ (by simp [layersOf, e3]) ?_
      intro l L M h1 h2
      simp only [layersOf, List.getElem?_map, Option.map_eq_some_iff] at h2
      obtain ⟨s', h2, rfl⟩ := h2
      exact ⟨(e5 l L s' h1 h2).1.1, (e5 l L s' h1 h2).2.1⟩
    refine ⟨layersOf S', grads, by rw [adamTrain, e1], shaped_congr P _ _ hS hF, e2, e4, ?_⟩
    intro l L L' h1 h2
    simp only [layersOf, List.getElem?_map, Option.map_eq_some_iff] at h2
    obtain ⟨s', h2, rfl⟩ := h2
    obtain ⟨⟨k1, k2⟩, k3, k4⟩ := e5 l L s' h1 h2
    refine ⟨fun r hr c hc => (k2.2.2 r (by rw [k1.1]; exact hr) c (by rw [k1.2]; exact hc)).1,
      fun r hr c hc => (k4.2.2 r (by rw [k3.1]; exact hr) c (by rw [k3.2]; exact hc)).1⟩
  induction idx using List.reverseRecOn with
  | nil =>
    refine ⟨adamInit P, [], rfl, rfl, by simp [adamInit], by simp, ?_⟩
    intro l L s' h1 h2
    simp only [adamInit, List.getElem?_map, h1, Option.map_some, Option.some.injEq] at h2
    subst h2
    exact ⟨⟨⟨rfl, rfl⟩, entries_init L.w⟩, ⟨rfl, rfl⟩, entries_init L.b⟩
  | append_singleton idx i ih =>
    obtain ⟨S, grads, e1, e2, e3, e4, e5⟩ := ih fun j hj => hidx j (by simp [hj])
    have hi := hidx i (by simp)
    have hF : List.Forall₂ (fun L M => SameShape M.w L.w ∧ SameShape M.b L.b) P (layersOf S) := by
      refine forall₂_of_getElem _ _ (by simp [layersOf, e3]) ?_
      intro l L M h1 h2
      simp only [layersOf, List.getElem?_map, Option.map_eq_some_iff] at h2
      obtain ⟨s', h2, rfl⟩ := h2
      exact ⟨(e5 l L s' h1 h2).1.1, (e5 l L s' h1 h2).2.1⟩
    have hSt := shaped_congr P _ _ hS hF
    obtain ⟨gs, hgs, hsh⟩ := sampleGrad_ok x y i hSt hx hk hy hi.1 hi.2
    have hlen : gs.length = S.length := by rw [← hsh.length_eq]; simp [layersOf]
    have hready : List.Forall₂ Ready S gs := by
      refine forall₂_of_getElem _ _ hlen.symm ?_
      intro l s g h1 h2
      have hl : l < P.length := by rw [← e3]; exact (List.getElem?_eq_some_iff.1 h1).1
      have hL : P[l]? = some P[l] := List.getElem?_eq_getElem hl
      obtain ⟨⟨k1, k2⟩, k3, k4⟩ := e5 l _ s hL h1
      have hg := forall₂_getElem hsh l ⟨s.w.p, s.b.p⟩ g (by simp [layersOf, h1]) h2
      exact ⟨⟨_, k2⟩, ⟨_, k4⟩, hg.1, hg.2⟩
    obtain ⟨S', hu, hl', hst⟩ := adamUpdate_ok lr b1 b2 eps (1 + idx.length) hready
    have hloop : adamLoop lr b1 b2 eps x y 1 (idx ++ [i]) (adamInit P) = .ok S' := by
      rw [adamLoop_append lr b1 b2 eps x y i idx 1 _ S e1, adamLoop, hgs]
      simp only [hu, adamLoop]
    refine ⟨S', grads ++ [gs], hloop, by simp [e2], by rw [hl', e3], ?_, ?_⟩
    · intro t j ht
      by_cases hlt : t < idx.length
      · rw [List.getElem?_append_left hlt] at ht
        obtain ⟨Pt, g, h1, h2, h3⟩ := e4 t j ht
        refine ⟨Pt, g, by rw [List.take_append_of_le_length hlt.le]; exact h1, ?_, h3⟩
        rw [List.getElem?_append_left (by rw [e2]; exact hlt)]; exact h2
      · have htl : t = idx.length := by
          have := (List.getElem?_eq_some_iff.1 ht).1
          simp at this; omega
        subst htl
        simp only [List.getElem?_concat_length, Option.some.injEq] at ht
        subst ht
        refine ⟨layersOf S, gs, by rw [List.take_left, adamTrain, e1], ?_, hgs⟩
        rw [← e2]; simp
    · intro l L s' h1 h2
      have hl : l < S.length := by rw [← hl']; exact (List.getElem?_eq_some_iff.1 h2).1
      have hs : S[l]? = some S[l] := List.getElem?_eq_getElem hl
      have hg : gs[l]? = some (gs[l]'(by omega)) := List.getElem?_eq_getElem (by omega)
      obtain ⟨⟨k1, k2⟩, k3, k4⟩ := e5 l L _ h1 hs
      obtain ⟨⟨m1, m2⟩, m3, m4⟩ := hst l _ _ s' hs hg h2
      refine ⟨⟨⟨m1.1.trans k1.1, m1.2.trans k1.2⟩, ?_⟩, ⟨m3.1.trans k3.1, m3.2.trans k3.2⟩, ?_⟩
      · have := m2 _ k2
        refine cast (congrArg _ ?_) this
        funext r c
        rw [List.map_append, List.map_singleton, adamRun_append, adamRun_count, List.length_map, e2, Nat.add_comm idx.length 1]
        simp only [weightGrad, hg, Option.map_some, Option.getD_some]
      · have := m4 _ k4
        refine cast (congrArg _ ?_) this
        funext r c
        rw [List.map_append, List.map_singleton, adamRun_append, adamRun_count, List.length_map, e2, Nat.add_comm idx.length 1]
        simp only [biasGrad, hg, Option.map_some, Option.getD_some]

/-- The hypotheses are met: two features, two hidden units, three classes, one sample drawn twice. -/
example : ∃ (P : List Layer) (x y : Mat), Shaped [2, 2, 3] P ∧ x.cols = 2 ∧ 0 < lastSize [2, 2, 3] ∧ y.cols = lastSize [2, 2, 3] ∧
    ∀ i ∈ [0, 0], i < x.rows ∧ i < y.rows :=
  ⟨[⟨⟨2, 2, fun r c => if r = c then 1 else 0⟩, ⟨1, 2, fun _ _ => 0⟩⟩, ⟨⟨3, 2, fun _ _ => 1⟩, ⟨1, 3, fun _ _ => 0⟩⟩],
    ⟨1, 2, fun _ c => if c = 0 then 1 else -1⟩, ⟨1, 3, fun _ j => if j = 1 then 1 else 0⟩, by simp [Shaped], rfl, by decide, rfl, by simp⟩

/-! ## C167 training in several calls -/

/-- C167, the part that holds: on a loaded network, stochastic gradient descent for some epochs and then for some more is training for all of them. -/
theorem C167_sgd_loaded_partial (lr : ℝ) (x y : Mat) (fresh fresh' : List Layer) (idx2 : List Nat) : ∀ (idx1 : List Nat) (P P1 : List Layer),
    netFit (sgdRun lr x y) true fresh idx1 P = .ok P1 →
    netFit (sgdRun lr x y) true fresh' idx2 P1 = netFit (sgdRun lr x y) true fresh (idx1 ++ idx2) P
  | [], P, P1, h => by
    simp only [netFit, if_true, sgdRun, Except.ok.injEq] at h
    subst h; rfl
  | i :: is, P, P1, h => by
    simp only [netFit, if_true, sgdRun] at h
    simp only [netFit, if_true, List.cons_append, sgdRun]
    cases hs : sgdStep lr x y P i with
    | error e => rw [hs] at h; cases h
    | ok P' =>
      rw [hs] at h
      dsimp only at h ⊢
      exact C167_sgd_loaded_partial lr x y fresh fresh' idx2 is P' P1 h

/-- C167 is false of a network that was not loaded: `fit` begins anew whatever the earlier calls had reached. -/
theorem C167_fit_restarts (train : List Nat → List Layer → Except PyErr (List Layer)) (fresh : List Layer) (idx : List Nat) (P Q : List Layer) :
    netFit train false fresh idx P = netFit train false fresh idx Q ∧ netFit train false fresh idx P = train idx fresh := ⟨rfl, rfl⟩

theorem sampleGrad_eq {d m : Nat} {rest : List Nat} {P : List Layer} (x y : Mat) (i : Nat) (hS : Shaped (d :: m :: rest) P) (hx : x.cols = d)
    (hk : 0 < lastSize (d :: m :: rest)) (hy : y.cols = lastSize (d :: m :: rest) ∨ y.cols = 1) (hi : i < x.rows) (hi' : i < y.rows) :
    sampleGrad x y P i = .ok (bwd 1 (outErr (lastSize (d :: m :: rest)) y.cols (rowOf y i).e) P (rowOf x i).e).1 := by
  obtain ⟨yp, caches, h1, -, -, h4⟩ := forward_backward P _ (rowOf x i) hS (shaped_ne_nil hS) (by simp [rowOf, hx]) (by simp [rowOf]) hk
  have h5 := h4 (rowOf y i) rfl hy
  rw [sampleGrad, if_neg (by omega), h1]
  simp only [h5]
  rfl

/-- The derivative of a weight of a network with one layer of `k ≥ 2` units, on one sample. -/
theorem one_layer_grad {d k : Nat} (hk : 2 ≤ k) {P : List Layer} (x y : Mat) (i : Nat) (hS : Shaped [d, k] P) (hx : x.cols = d) (hy : y.cols = k)
    (hi : i < x.rows) (hi' : i < y.rows) :
    ∃ gs, sampleGrad x y P i = .ok gs ∧ ∀ r c, weightGrad 0 r c gs = (softmaxRow k (logits P (x.e i)) r - y.e i r) * x.e i c := by
  refine ⟨_, sampleGrad_eq x y i hS hx (by show 0 < k; omega) (Or.inl hy) hi hi', ?_⟩
  intro r c
  match P, hS with
  | [L], _ =>
    have : y.cols ≠ 1 := by omega
    simp only [bwd, weightGrad, List.getElem?_cons_zero, Option.map_some, Option.getD_some, gradOf, Finset.sum_range_one, Nat.cast_one, div_one,
      outErr, if_neg this, logits, rowOf]
    rfl

theorem adamRun_two (lr b1 b2 eps p g : ℝ) (hb : b1 ≠ 1) (hb' : b1 ≠ -1) :
    (adamRun lr b1 b2 eps p [g, 0]).1.p = (adamRun lr b1 b2 eps p [g]).1.p -
      lr * (b1 / (1 + b1) * g) / (Real.sqrt (b2 * ((1 - b2) * g ^ 2) / (1 - b2 ^ 2)) + eps) := by
  have h1 : (1 : ℝ) - b1 ≠ 0 := sub_ne_zero.2 (Ne.symm hb)
  have h2 : (1 : ℝ) + b1 ≠ 0 := fun h => hb' (by linarith)
  have e : b1 * ((1 - b1) * g) / (1 - b1 ^ 2) = b1 / (1 + b1) * g := by
    have : (1 : ℝ) - b1 ^ 2 = (1 - b1) * (1 + b1) := by ring
    rw [this]; field_simp
  simp only [adamRun, List.foldl_cons, List.foldl_nil, adamStep]
  norm_num
  rw [e]

theorem adamRun_zero (lr b1 b2 eps p : ℝ) : (adamRun lr b1 b2 eps p [0]).1.p = p := by
  simp [adamRun, adamStep]

/-- C167 is false of Adam, for EVERY network with one layer of `k ≥ 2` units: after an epoch on a sample with a feature that is not zero, an epoch on a
sample at the origin of the feature space moves the weights of that feature if both epochs belong to one call of `fit`, and leaves them if they
belong to two, because every call of `fit` starts with moments of zero and counts its epochs from 1. -/
theorem C167_adam_violated (lr b1 b2 eps : ℝ) (hlr : lr ≠ 0) (h1 : 0 < b1) (h1' : b1 < 1) (heps : 0 < eps) {d k : Nat} (hk : 2 ≤ k) {P : List Layer}
    (x y : Mat) (hS : Shaped [d, k] P) (hx : x.cols = d) (hy : y.cols = k) (i j : Nat) (hi : i < x.rows ∧ i < y.rows) (hj : j < x.rows ∧ j < y.rows)
    (r c : Nat) (hr : r < k) (hc : c < d) (hyr : y.e i r = 0 ∨ y.e i r = 1) (hxi : x.e i c ≠ 0) (hxj : x.e j c = 0) (fresh : List Layer) :
    ∃ P1 P12 P2 L12 L2, netFit (adamTrain lr b1 b2 eps x y) true fresh [i] P = .ok P1 ∧ netFit (adamTrain lr b1 b2 eps x y) true fresh [j] P1 = .ok P12 ∧
      netFit (adamTrain lr b1 b2 eps x y) true fresh [i, j] P = .ok P2 ∧ P12 = [L12] ∧ P2 = [L2] ∧ L12.w.e r c ≠ L2.w.e r c := by
  have one : ∀ Q : List Layer, Shaped [d, k] Q → ∃ L, Q = [L] ∧ L.w.rows = k ∧ L.w.cols = d := by
    intro Q hQ
    match Q, hQ with
    | [L], ⟨⟨h1, h2, _⟩, _⟩ => exact ⟨L, rfl, h1, h2⟩
  have hlast : lastSize [d, k] = k := rfl
  obtain ⟨P1, G1, a1, a2, a3, a4, a5⟩ := C52_network lr b1 b2 eps x y hS hx (by rw [hlast]; omega) (Or.inl hy) [i] (by simpa using hi)
  obtain ⟨P12, G2, b1', b2', b3', b4', b5'⟩ := C52_network lr b1 b2 eps x y a2 hx (by rw [hlast]; omega) (Or.inl hy) [j] (by simpa using hj)
  obtain ⟨P2, G3, c1, c2, c3, c4, c5⟩ := C52_network lr b1 b2 eps x y hS hx (by rw [hlast]; omega) (Or.inl hy) [i, j] (by simp [hi, hj])
  obtain ⟨L, rfl, hLr, hLc⟩ := one P hS
  obtain ⟨L1, rfl, hL1r, hL1c⟩ := one P1 a2
  obtain ⟨L12, rfl, -, -⟩ := one P12 b2'
  obtain ⟨L2, rfl, -, -⟩ := one P2 c2
  refine ⟨_, _, _, L12, L2, a1, b1', c1, rfl, rfl, ?_⟩
  set g := (softmaxRow k (logits [L] (x.e i)) r - y.e i r) * x.e i c with hg
  -- the gradients
  have e0 : adamTrain lr b1 b2 eps x y (List.take 0 [i]) [L] = .ok [L] := by
    simp [adamTrain, adamLoop, layersOf, adamInit, AdamMat.init]
  have e0' : adamTrain lr b1 b2 eps x y (List.take 0 [j]) [L1] = .ok [L1] := by
    simp [adamTrain, adamLoop, layersOf, adamInit, AdamMat.init]
  have e0'' : adamTrain lr b1 b2 eps x y (List.take 0 [i, j]) [L] = .ok [L] := by
    simp [adamTrain, adamLoop, layersOf, adamInit, AdamMat.init]
  have k1 : G1.map (weightGrad 0 r c) = [g] := by
    obtain ⟨Pt, gs, q1, q2, q3⟩ := a4 0 i rfl
    rw [e0] at q1; cases q1
    obtain ⟨gs', q4, q5⟩ := one_layer_grad hk x y i hS hx hy hi.1 hi.2
    rw [q3] at q4; cases q4
    match G1, a3, q2 with
    | [_], _, q2 =>
      simp only [List.getElem?_cons_zero, Option.some.injEq] at q2
      subst q2
      simp [q5, hg]
  have k2 : G2.map (weightGrad 0 r c) = [0] := by
    obtain ⟨Pt, gs, q1, q2, q3⟩ := b4' 0 j rfl
    rw [e0'] at q1; cases q1
    obtain ⟨gs', q4, q5⟩ := one_layer_grad hk x y j a2 hx hy hj.1 hj.2
    rw [q3] at q4; cases q4
    match G2, b3', q2 with
    | [_], _, q2 =>
      simp only [List.getElem?_cons_zero, Option.some.injEq] at q2
      subst q2
      simp [q5, hxj]
  have k3 : G3.map (weightGrad 0 r c) = [g, 0] := by
    obtain ⟨Pt, gs, q1, q2, q3⟩ := c4 0 i rfl
    rw [e0''] at q1; cases q1
    obtain ⟨gs', q4, q5⟩ := one_layer_grad hk x y i hS hx hy hi.1 hi.2
    rw [q3] at q4; cases q4
    obtain ⟨Pu, hs, u1, u2, u3⟩ := c4 1 j rfl
    have : adamTrain lr b1 b2 eps x y (List.take 1 [i, j]) [L] = .ok [L1] := a1
    rw [this] at u1; cases u1
    obtain ⟨hs', u4, u5⟩ := one_layer_grad hk x y j a2 hx hy hj.1 hj.2
    rw [u3] at u4; cases u4
    match G3, c3, q2, u2 with
    | [_, _], _, q2, u2 =>
      simp only [List.getElem?_cons_zero, List.getElem?_cons_succ, Option.some.injEq] at q2 u2
      subst q2 u2
      simp [q5, u5, hxj, hg]
  have w1 := (a5 0 L L1 rfl rfl).1 r (by omega) c (by omega)
  have w12 := (b5' 0 L1 L12 rfl rfl).1 r (by omega) c (by omega)
  have w2 := (c5 0 L L2 rfl rfl).1 r (by omega) c (by omega)
  rw [k1] at w1
  rw [k2, adamRun_zero, w1] at w12
  rw [k3, adamRun_two _ _ _ _ _ _ h1'.ne (by linarith)] at w2
  rw [w12, w2]
  have hsm : 0 < softmaxRow k (logits [L] (x.e i)) r ∧ softmaxRow k (logits [L] (x.e i)) r < 1 := by
    have hpos : ∀ z : ℕ → ℝ, 0 < ∑ l ∈ range k, Real.exp (z l) := fun z => Finset.sum_pos (fun _ _ => Real.exp_pos _) ⟨0, Finset.mem_range.2 (by omega)⟩
    refine ⟨div_pos (Real.exp_pos _) (hpos _), (div_lt_one (hpos _)).2 ?_⟩
    obtain ⟨r', hr', hne⟩ : ∃ r' < k, r' ≠ r := by
      by_cases h0 : r = 0
      · exact ⟨1, by omega, by omega⟩
      · exact ⟨0, by omega, fun h => h0 h.symm⟩
    exact Finset.single_lt_sum (f := fun l => Real.exp (logits [L] (x.e i) l)) hne (Finset.mem_range.2 hr) (Finset.mem_range.2 hr') (Real.exp_pos _) fun _ _ _ => (Real.exp_pos _).le
  have hg0 : g ≠ 0 := by
    refine mul_ne_zero ?_ hxi
    rcases hyr with h | h <;> rw [h] <;> intro hz <;> linarith [hsm.1, hsm.2]
  intro he
  have hden : 0 < Real.sqrt (b2 * ((1 - b2) * g ^ 2) / (1 - b2 ^ 2)) + eps := by positivity
  have hz : lr * (b1 / (1 + b1) * g) / (Real.sqrt (b2 * ((1 - b2) * g ^ 2) / (1 - b2 ^ 2)) + eps) = 0 := by linarith
  have hpos : b1 / (1 + b1) ≠ 0 := by positivity
  exact (div_ne_zero (mul_ne_zero hlr (mul_ne_zero hpos hg0)) hden.ne') hz

/-- The hypotheses are met: one feature, two classes, the samples 1 and 0. -/
example : ∃ (P : List Layer) (x y : Mat), Shaped [1, 2] P ∧ x.cols = 1 ∧ y.cols = 2 ∧ x.rows = 2 ∧ y.rows = 2 ∧
    (y.e 0 0 = 0 ∨ y.e 0 0 = 1) ∧ x.e 0 0 ≠ 0 ∧ x.e 1 0 = 0 :=
  ⟨[⟨⟨2, 1, fun _ _ => 1⟩, ⟨1, 2, fun _ _ => 0⟩⟩], ⟨2, 1, fun i _ => if i = 0 then 1 else 0⟩, ⟨2, 2, fun i j => if i = j then 1 else 0⟩,
    by simp [Shaped], rfl, rfl, rfl, rfl, by simp, by simp, by simp⟩

end CML.Net
