/-
What it is for names to be names of codes.
-/
import Verif.Model.Basic

namespace Keride.Spec

/-- Two names are the same but for underscores: JavaScript says Ed25519Seed for Ed25519_Seed. -/
def SameName (a b : Str) : Prop := a.filter (· ≠ '_') = b.filter (· ≠ '_')

/-- The name is one of those for NIST P-256 (secp256r1). -/
def OfP256 (a : Str) : Prop := str% "256r1" <:+: a

instance (a b : Str) : Decidable (SameName a b) := inferInstanceAs (Decidable (_ = _))
instance (a : Str) : Decidable (OfP256 a) := inferInstanceAs (Decidable (_ <:+: _))

/-- `code` gives each name the code of the constant of the same name, and different names different codes. -/
def Faithful (code : Str → Option Str) (constants : List (Str × Str)) : Prop :=
  (∀ name c, code name = some c → ∃ k, (k, c) ∈ constants ∧ SameName name k) ∧
  ∀ name name' c, code name = some c → code name' = some c → name = name'

end Keride.Spec
