/-
What it means that a text blinds.
-/
import Verif.Model.Matter

namespace Keride.Spec

/-- The text is read as a 128-bit salt (code `0A`) with the given bytes. -/
def SaltOf (t : Str) (b : Bytes) : Prop := ∃ m, Matter.newWithQb64 t = .ok m ∧ m.code = str% "0A" ∧ m.raw = b

end Keride.Spec
