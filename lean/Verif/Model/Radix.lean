/-
Positional notation, most significant digit first. Shared by the models of integer/Base64 conversion
(`from_be_bytes`, `to_be_bytes`, `b64_to_u32`, ...) and by the specifications.
-/
namespace Keride

/-- The value of a big-endian digit list. -/
def ofBase (b : Nat) (ds : List Nat) : Nat := ds.foldl (fun acc d => acc * b + d) 0

/-- The last `len` digits of `n`, most significant first. -/
def toBase (b : Nat) : Nat → Nat → List Nat
  | 0, _ => []
  | len + 1, n => toBase b len (n / b) ++ [n % b]

end Keride
