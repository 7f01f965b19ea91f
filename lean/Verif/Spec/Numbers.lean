/-
What the conversions of numbers should be.
-/
import Verif.Model.Numbers

namespace Keride.Spec

/-- A number with at most 53 significant bits. -/
def IsF64 (q : ℚ) : Prop := ∃ (m : ℤ) (e : ℤ), |m| ≤ 2 ^ 53 ∧ q = m * 2 ^ e

/-- Of all numbers with at most 53 significant bits, none is nearer. If another one is as near, the last of the 53 bits is zero. -/
def NearestF64 (x q : ℚ) : Prop :=
  IsF64 q ∧ (∀ y, IsF64 y → |x - q| ≤ |x - y|) ∧
    ((∃ y, IsF64 y ∧ y ≠ q ∧ |x - q| = |x - y|) → ∃ (m : ℤ) (e : ℤ), |m| ≤ 2 ^ 52 ∧ q = m * 2 ^ e)

/-- The whole part of a number: not farther from zero, on the same side, and less than one away. -/
def WholePart (q : ℚ) (t : ℤ) : Prop := |(t : ℚ)| ≤ |q| ∧ 0 ≤ t * q ∧ |q - t| < 1

end Keride.Spec
