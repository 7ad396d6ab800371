import Verif.Model.FailedFit

/-! # Specifications for calls of `fit` that raise -/

namespace CML.Failed

/-- The call raised. -/
def Raised {O : Type*} (r : O × Option PyErr) : Prop := r.2 ≠ none

/-- All answers of the instance are what they were. -/
def SameAnswers {O Q A : Type*} (predict : O → Q → A) (before after : O) : Prop := ∀ q, predict after q = predict before q

/-- A question to logistic regression or LDA: any number of samples with any number of features. -/
structure Samples (K : Type) where
  n : Nat
  d : Nat
  rows : Fin n → Fin d → K

/-- `predict` of logistic regression as a function of one argument. -/
noncomputable def LR.answer (o : LR) (q : Samples ℝ) : Except PyErr (List ℝ) :=
  match o.predict q.rows with
  | .ok p => .ok (List.ofFn p)
  | .error e => .error e

/-- `predict` of LDA as a function of one argument. -/
def LDAObj.answer {K : Type} [Field K] [LinearOrder K] (o : LDAObj K) (q : Samples K) : Except PyErr (List Int) := o.predict (List.ofFn q.rows)

end CML.Failed
