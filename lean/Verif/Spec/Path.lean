/-
Paths into documents ("SAD paths").
-/
import Verif.Spec.Cesr
import Verif.Spec.Said

namespace Keride.Spec

/-- A path component that can be written in a path text, where components are separated by `-`. -/
def IsComponent (s : Str) : Prop := s ≠ [] ∧ IsBase64 s ∧ '-' ∉ s

/-- The components of a path are texts, or natural numbers, which stand for their decimal text. -/
inductive Names : Value → Str → Prop
  | text (s : Str) : Names (.str s) s
  | number (n : Nat) : Names (.int n) (Nat.toDigits 10 n)

/-- The number of characters of a path text is at most this. -/
def pathSize (ps : List Str) : Nat := 1 + (ps.map fun p => p.length + 1).sum

/-- `s` is a decimal number, and it is `i`. -/
def IsIndex (s : Str) (i : Nat) : Prop :=
  s ≠ [] ∧ (∀ c ∈ s, c ∈ str% "0123456789") ∧ s.foldl (fun a c => a * 10 + (c.toNat - 48)) 0 = i ∧ i < 2 ^ 64

/-- Where a path leads: a number selects an item of a list, or a field of an object by its position; any other
component selects the field of that name. -/
inductive Leads : List Str → Value → Value → Prop
  | here (v : Value) : Leads [] v v
  | item {s : Str} {i : Nat} {p : List Str} {l : List Value} {v w : Value} :
      IsIndex s i → l[i]? = some v → Leads p v w → Leads (s :: p) (.arr l) w
  | nth {s : Str} {i : Nat} {p : List Str} {o : List (Str × Value)} {k : Str} {v w : Value} :
      IsIndex s i → o[i]? = some (k, v) → Leads p v w → Leads (s :: p) (.obj o) w
  | name {s : Str} {p : List Str} {o : List (Str × Value)} {v w : Value} :
      (∀ i, ¬ IsIndex s i) → field s (.obj o) = some v → Leads p v w → Leads (s :: p) (.obj o) w

/-- What a path that was read leads to. An empty component, which no path of names and numbers has, is answered with the
object it stands at, and what follows it is not looked at. -/
inductive Resolves : List Str → Value → Value → Prop
  | leads {ps : List Str} {v w : Value} : (∀ p ∈ ps, p ≠ []) → Leads ps v w → Resolves ps v w
  | stops {ps qs : List Str} {v : Value} {o : List (Str × Value)} :
      (∀ p ∈ ps, p ≠ []) → Leads ps v (.obj o) → Resolves (ps ++ [] :: qs) v (.obj o)

end Keride.Spec
