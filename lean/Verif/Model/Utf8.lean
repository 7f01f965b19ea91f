/-
UTF-8, as used by `String::from_utf8`, `str::as_bytes`.
-/
import Verif.Model.Basic

namespace Keride

/-- The UTF-8 bytes of one scalar value. -/
def utf8Char (c : Char) : Bytes :=
  let n := c.toNat
  if n < 0x80 then [UInt8.ofNat n]
  else if n < 0x800 then [UInt8.ofNat (0xC0 + n / 64), UInt8.ofNat (0x80 + n % 64)]
  else if n < 0x10000 then
    [UInt8.ofNat (0xE0 + n / 4096), UInt8.ofNat (0x80 + n / 64 % 64), UInt8.ofNat (0x80 + n % 64)]
  else
    [UInt8.ofNat (0xF0 + n / 262144), UInt8.ofNat (0x80 + n / 4096 % 64),
      UInt8.ofNat (0x80 + n / 64 % 64), UInt8.ofNat (0x80 + n % 64)]

/-- `str::as_bytes`. -/
def toUtf8 : Str → Bytes
  | [] => []
  | c :: cs => utf8Char c ++ toUtf8 cs

/-- UTF-8 decoder: `need` continuation bytes are outstanding, `acc` is the value so far, `min` the
smallest value that may use this length (no overlong forms); surrogates and values above 0x10FFFF are
not scalar values. -/
def utf8Go : Nat → Nat → Nat → Bytes → Option Str
  | 0, _, _, [] => some []
  | _ + 1, _, _, [] => none
  | 0, _, _, b :: bs =>
    let n := b.toNat
    if n < 0x80 then (utf8Go 0 0 0 bs).map (Char.ofNat n :: ·)
    else if n < 0xC0 then none
    else if n < 0xE0 then utf8Go 1 (n - 0xC0) 0x80 bs
    else if n < 0xF0 then utf8Go 2 (n - 0xE0) 0x800 bs
    else if n < 0xF8 then utf8Go 3 (n - 0xF0) 0x10000 bs
    else none
  | k + 1, acc, min, b :: bs =>
    let n := b.toNat
    if 0x80 ≤ n ∧ n < 0xC0 then
      let acc' := acc * 64 + (n - 0x80)
      match k with
      | 0 => if min ≤ acc' ∧ acc'.isValidChar then (utf8Go 0 0 0 bs).map (Char.ofNat acc' :: ·) else none
      | k' + 1 => utf8Go (k' + 1) acc' min bs
    else none

/-- `String::from_utf8`. -/
def fromUtf8 (b : Bytes) : Res Str := Res.ofOption .utf8 (utf8Go 0 0 0 b)

end Keride
