/-
Model of /repo/src/cesr/core/util.rs: the conversions of integers to Base64, with their `f32` arithmetic.
-/
import Verif.Model.Util
import Mathlib.Data.Rat.Floor

namespace Keride

/-- What the two conversions use of `f32`: how a number is rounded to one (`as f32`, and the results of `-`, `/`, `+`), and `log2`. Both are arbitrary
here; infinities and NaN do not occur for the numbers from 1 on, for which the comparison is made. -/
structure F32 where
  round : ℚ → ℚ
  log2 : ℚ → ℚ

/-- `length as f32 - (n as f32).log2() / 64f32.log2()` (util.rs:173, 198). -/
def F32.overflow (F : F32) (n length : Nat) : ℚ :=
  F.round (F.round (length : ℚ) - F.round (F.log2 (F.round (n : ℚ)) / F.log2 (F.round 64)))

/-- The `while x > 0` loop of `u32_to_b64` and `u64_to_b64` (util.rs:174-181, 199-206), with the float. `fuel` bounds the iterations. -/
def F32.loop (F : F32) : Nat → ℚ → Nat → Str → Res Str
  | 0, _, _, out => .ok out
  | fuel + 1, overflow, x, out =>
    if x = 0 then .ok out
    else if 0 ≤ overflow then do
      let c ← b64IndexToChar (x % 64)
      F.loop fuel overflow (x / 64) (c :: out)
    else F.loop fuel (F.round (overflow + F.round 1)) (x / 64) out

/-- `u32_to_b64` and `u64_to_b64` (util.rs:165-213), with the float. -/
def F32.toB64 (F : F32) (n length : Nat) : Res Str :=
  if length = 0 then .ok []
  else do
    let out ← F.loop 11 (F.overflow n length) n []
    .ok (List.replicate (length - out.length) 'A' ++ out)

end Keride
