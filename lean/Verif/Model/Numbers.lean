/-
Model of the numbers of /repo/src/data.rs and their conversions.
-/
import Verif.Model.Basic
import Mathlib.Data.Rat.Floor

namespace Keride

/-- An `f64` (data.rs:18), as the number it stands for: any rational, of which only some are floats. Negative zero is not told from zero. -/
inductive F64 where
  | finite (q : ℚ)
  | inf (negative : Bool)
  | nan

/-- `n as f64` (data.rs:360) for an integer that is not negative: of the 53 leading bits, rounded to the nearest, ties to even. -/
def F64.round (n : Nat) : Nat :=
  let k := Nat.log2 n + 1 - 53
  let q := n / 2 ^ k
  let r := n % 2 ^ k
  if 2 ^ k < 2 * r ∨ (2 * r = 2 ^ k ∧ q % 2 = 1) then (q + 1) * 2 ^ k else q * 2 ^ k

/-- `i as f64` (data.rs:360). -/
def F64.ofInt (i : Int) : F64 := .finite (if i < 0 then -(F64.round i.natAbs : ℚ) else (F64.round i.natAbs : ℚ))

/-- `f as i64` (data.rs:343): towards zero, to the nearest `i64`; not a number is zero. -/
def F64.toInt : F64 → Int
  | .finite q => max (-2 ^ 63) (min (2 ^ 63 - 1) (if q < 0 then ⌈q⌉ else ⌊q⌋))
  | .inf true => -2 ^ 63
  | .inf false => 2 ^ 63 - 1
  | .nan => 0

/-- `data::Number` (data.rs:16-21). -/
structure Num where
  f : F64
  i : Int
  float : Bool

/-- `From<f64>` (data.rs:23-27). -/
def Num.ofF64 (f : F64) : Num := ⟨f, 0, true⟩

/-- `From<i64>` (data.rs:29-33), and of the other integers (data.rs:205-245), which are cast to an `i64` first. -/
def Num.ofI64 (i : Int) : Num := ⟨.finite 0, i, false⟩

/-- `to_i64` (data.rs:61-74) of a number. -/
def Num.toI64 (n : Num) : Res Int := if n.float then .err .conversion else .ok n.i

/-- `to_f64` (data.rs:76-89) of a number. -/
def Num.toF64 (n : Num) : Res F64 := if !n.float then .err .conversion else .ok n.f

/-- `i64::try_from` (data.rs:334-349) of a number. -/
def Num.tryI64 (n : Num) : Res Int := if !n.float then .ok n.i else .ok n.f.toInt

/-- `f64::try_from` (data.rs:351-366) of a number. -/
def Num.tryF64 (n : Num) : Res F64 := if n.float then .ok n.f else .ok (F64.ofInt n.i)

end Keride
