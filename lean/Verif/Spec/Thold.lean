/-
Specification vocabulary for signing thresholds: weights as rational numbers, and when a set of signer
positions satisfies a list of weighted clauses. It does not refer to the model of the code except for the
type of values the interface takes.
-/
import Verif.Model.Value
import Mathlib.Data.Rat.Defs
import Mathlib.Algebra.Order.Field.Rat

namespace Keride.Spec

/-- A weight text and the number it stands for: `0`, `1`, or a fraction `a/b` between zero and one in
decimal digits. -/
def IsWeight (s : Str) (q : ℚ) : Prop :=
  (s = str% "0" ∧ q = 0) ∨ (s = str% "1" ∧ q = 1) ∨
  ∃ a b : Nat, s = Nat.toDigits 10 a ++ '/' :: Nat.toDigits 10 b ∧ 0 < b ∧ a ≤ b ∧ b < 2 ^ 31 ∧
    q = (a : ℚ) / (b : ℚ)

/-- A list of weight texts. -/
def IsClause (v : Value) (qs : List ℚ) : Prop :=
  ∃ ws, v = .arr ws ∧ List.Forall₂ (fun w q => ∃ s, w = .str s ∧ IsWeight s q) ws qs

/-- A list of lists of weight texts. -/
def IsWeights (v : Value) (qss : List (List ℚ)) : Prop :=
  ∃ cs, v = .arr cs ∧ List.Forall₂ IsClause cs qss

/-- The number of positions, all clauses together. -/
def positions (qss : List (List ℚ)) : Nat := (qss.map List.length).sum

/-- The sum of the weights of one clause at the signed positions; its first weight is at position `off`. -/
def signedWeight (indices : List Nat) : Nat → List ℚ → ℚ
  | _, [] => 0
  | off, q :: qs => (if off ∈ indices then q else 0) + signedWeight indices (off + 1) qs

/-- In every clause the signed weights add up to at least one; positions run through all clauses. -/
def Satisfied (indices : List Nat) : Nat → List (List ℚ) → Prop
  | _, [] => True
  | off, c :: cs => 1 ≤ signedWeight indices off c ∧ Satisfied indices (off + c.length) cs

/-- A text that reads as the number zero: an optional sign and zeros. -/
def ZeroText (s : Str) : Prop := ∃ k, s = List.replicate (k + 1) '0' ∨ s = '+' :: List.replicate (k + 1) '0' ∨
  s = '-' :: List.replicate (k + 1) '0'

/-- A weight text with a zero denominator. -/
def ZeroOver (s : Str) : Prop := ∃ x y, s = x ++ '/' :: y ∧ ZeroText x ∧ ZeroText y

/-- No weight text of the value has a zero denominator. -/
def NoZeroOver (v : Value) : Prop := ∀ cs ws s, v = .arr cs → .arr ws ∈ cs → .str s ∈ ws → ¬ ZeroOver s

/-- The weights of each clause have a common denominator small enough for 32-bit arithmetic. -/
def Small (qss : List (List ℚ)) : Prop :=
  ∀ c ∈ qss, ∃ D : Nat, 0 < D ∧ D < 2 ^ 31 ∧ (∀ q ∈ c, q.den ∣ D) ∧ c.sum * D < 2 ^ 31

instance (indices : List Nat) : ∀ off qss, Decidable (Satisfied indices off qss)
  | _, [] => isTrue trivial
  | off, c :: cs =>
    have := instDecidableSatisfied indices (off + c.length) cs
    inferInstanceAs (Decidable (_ ∧ _))

end Keride.Spec
