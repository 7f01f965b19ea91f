/-
What is asked of `f32` arithmetic.
-/
import Verif.Model.Float

namespace Keride.Spec

/-- Rounding keeps the order of numbers, and keeps the numbers that are a float as they are: among these are the integers up to 2^24 and the powers of
two. The logarithm keeps the order of positive numbers, and that of a power of two is its exponent. Nothing is asked about how large errors are. -/
structure F32Ok (F : F32) : Prop where
  order : ∀ a b, a ≤ b → F.round a ≤ F.round b
  integers : ∀ k : Nat, k ≤ 2 ^ 24 → F.round (k : ℚ) = k
  powers : ∀ k : Nat, k ≤ 66 → F.round (2 ^ k : ℚ) = 2 ^ k
  log_order : ∀ a b : ℚ, 0 < a → a ≤ b → F.log2 a ≤ F.log2 b
  log_powers : ∀ k : Nat, k ≤ 66 → F.log2 (2 ^ k : ℚ) = k

end Keride.Spec
