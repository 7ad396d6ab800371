import Verif.Spec.SVMOpt
import Verif.Model.SVC

/-! # Specification: changes of coordinates for inner-product kernels -/

namespace CML.SVC

/-- The kernel looks at two rows only through their inner product (linear, polynomial and sigmoid kernels). -/
def InnerProductKernel {K : Type*} [Field K] (d : Nat) (k : List K → List K → K) : Prop :=
  ∃ f : K → K, ∀ u v : Fin d → K, k (List.ofFn u) (List.ofFn v) = f (∑ l, u l * v l)

/-- A change of coordinates that keeps all inner products: a rotation or reflection. -/
def Orthogonal {K : Type*} [Field K] {d : Nat} (φ : (Fin d → K) → Fin d → K) : Prop := ∀ u v, ∑ l, φ u l * φ v l = ∑ l, u l * v l

end CML.SVC
