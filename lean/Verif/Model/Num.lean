/-
Model of the integer formatting and parsing of the Rust standard library used by the crate.
-/
import Verif.Model.Basic

namespace Keride

/-- The character of a digit below 16, as written by `{:x}` and `{}`. -/
def digitChr (d : Nat) : Char := (str% "0123456789abcdef").getD d '0'

/-- The digits of `n` in base `b`, most significant first, without leading zeros; `fuel` bounds the
number of digits. -/
def fmtAux (b : Nat) : Nat → Nat → Str → Str
  | 0, _, out => out
  | fuel + 1, n, out =>
    if n < b then digitChr n :: out else fmtAux b fuel (n / b) (digitChr (n % b) :: out)

/-- `format!("{n:x}")` for `b = 16` and `format!("{n}")` for `b = 10`. -/
def fmtNat (b n : Nat) : Str := fmtAux b (n + 1) n []

/-- `format!("{n:0w$x}")`: padded with zeros to at least `w` characters. -/
def fmtPad (b w n : Nat) : Str :=
  List.replicate (w - (fmtNat b n).length) '0' ++ fmtNat b n

/-- `char::to_digit(radix)` for radix at most 16. -/
def toDigit (b : Nat) (c : Char) : Option Nat :=
  let v := c.toNat
  let d := if 48 ≤ v ∧ v ≤ 57 then v - 48
    else if 97 ≤ v ∧ v ≤ 102 then v - 87
    else if 65 ≤ v ∧ v ≤ 70 then v - 55
    else 16
  if d < b then some d else none

/-- The value of a digit string. -/
def radixVal (b : Nat) : Nat → Str → Option Nat
  | a, [] => some a
  | a, c :: cs =>
    match toDigit b c with
    | some d => radixVal b (a * b + d) cs
    | none => none

/-- The digits after an optional `+`. -/
def stripPlus : Str → Str
  | [] => []
  | c :: s => if c = '+' then s else c :: s

/-- `from_str_radix` (and `str::parse`) of an unsigned type with maximum `max`: an optional `+`, at least
one digit, no overflow. (Rust stops at the first overflowing digit; the outcome, an error, is the same.) -/
def parseUnsigned (b max : Nat) (s : Str) : Res Nat :=
  if stripPlus s = [] then .err .parseInt
  else match radixVal b 0 (stripPlus s) with
    | some n => if n ≤ max then .ok n else .err .parseInt
    | none => .err .parseInt

/-- `from_str_radix` (and `str::parse`) of a signed type: an optional sign, at least one digit, in range.
(Rust stops at the first overflowing digit; the outcome, an error, is the same.) -/
def parseSigned (b : Nat) (lo hi : Int) (s : Str) : Option Int :=
  let neg : Bool := decide (s.head? = some '-')
  let ds := if s.head? = some '+' ∨ s.head? = some '-' then s.tail else s
  if ds = [] then none
  else (radixVal b 0 ds).bind fun n =>
    let v : Int := if neg then -(n : Int) else n
    if lo ≤ v ∧ v ≤ hi then some v else none

/-- `u128::MAX`. -/
def u128Max : Nat := 2 ^ 128 - 1

end Keride
