import Verif.Prelude

/-! # Specification for C330: reading a file attribute by attribute -/

namespace CML.Failed

/-- What an attribute is after reading a file: the file's value if the file has it and everything that is read before it, else what it was. -/
def readAfter {α : Type} (before : Prop) [Decidable before] (file old : Option α) : Option α := if before ∧ file.isSome then file else old

end CML.Failed
