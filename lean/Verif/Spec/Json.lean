/-
What the JSON properties talk about: which `Value`s exist in a running program, and how deeply they nest.
-/
import Verif.Model.Value

namespace Keride.Spec

mutual

/-- A `Value` as the program can hold it: integers are `i64`, the keys of an object are distinct, and the texts
of floats satisfy `F`. -/
def Proper (F : Str → Prop) : Value → Prop
  | .null => True
  | .bool _ => True
  | .int i => -2 ^ 63 ≤ i ∧ i < 2 ^ 63
  | .float t => F t
  | .str _ => True
  | .arr a => ProperArr F a
  | .obj o => (o.map Prod.fst).Nodup ∧ ProperObj F o

/-- All elements are proper. -/
def ProperArr (F : Str → Prop) : List Value → Prop
  | [] => True
  | v :: l => Proper F v ∧ ProperArr F l

/-- All entries are proper. -/
def ProperObj (F : Str → Prop) : List (Str × Value) → Prop
  | [] => True
  | (_, v) :: l => Proper F v ∧ ProperObj F l

end

/-- A value without floats. -/
abbrev Plain : Value → Prop := Proper fun _ => False

mutual

/-- How many arrays and objects are nested in each other. -/
def nesting : Value → Nat
  | .arr a => nestingArr a + 1
  | .obj o => nestingObj o + 1
  | _ => 0

/-- The largest nesting of the elements. -/
def nestingArr : List Value → Nat
  | [] => 0
  | v :: l => max (nesting v) (nestingArr l)

/-- The largest nesting of the entries. -/
def nestingObj : List (Str × Value) → Nat
  | [] => 0
  | (_, v) :: l => max (nesting v) (nestingObj l)

end

/-- A decimal number with a fraction and no exponent, such as `-12.50`: an optional minus sign, digits without
superfluous leading zero, a point, digits. -/
def IsDecimal (t : Str) : Prop :=
  ∃ (neg : Bool) (a b : Str), t = (if neg then ['-'] else []) ++ a ++ '.' :: b ∧
    (∀ c ∈ a ++ b, c ∈ str% "0123456789") ∧ a ≠ [] ∧ b ≠ [] ∧ (a.head? = some '0' → a = ['0'])

end Keride.Spec
