/-
Model of /repo/src/cesr/core/number.rs and /repo/src/cesr/core/seqner.rs.
-/
import Verif.Model.Matter
import Verif.Model.Num

namespace Keride

namespace Number

open Matter

/-- `number::tables::Codex` (number.rs:17-25): Short, Long, Big, Huge. -/
def codex : List Str := [str% "M", str% "0H", str% "N", str% "0A"]

/-- `validate_code` (number.rs:35-41). -/
def validateCode (code : Str) : Res Unit := if codex.contains code then .ok () else .err .unexpectedCode

/-- The arm of `Number::new` for a plain number (number.rs:67-86). `as u16` etc. keep the low bytes. -/
def ofNum (num : Nat) : Res M :=
  if num < 256 ^ 2 then newWithCodeAndRaw (str% "M") (beBytes 2 num)
  else if num < 256 ^ 4 then newWithCodeAndRaw (str% "0H") (beBytes 4 num)
  else if num < 256 ^ 8 then newWithCodeAndRaw (str% "N") (beBytes 8 num)
  else newWithCodeAndRaw (str% "0A") (beBytes 16 num)

/-- `Number::new` (number.rs:44-94); `num` is a `u128`. -/
def new (num : Option Nat) (numh code : Option Str) (raw qb64b : Option Bytes) (qb64 : Option Str)
    (qb2 : Option Bytes) : Res M :=
  if raw.isNone ∧ qb64b.isNone ∧ qb64.isNone ∧ qb2.isNone then do
    let n ← (match num with
      | some n => .ok n
      | none =>
        match numh with
        | some h => if h = [] then .ok 0 else parseUnsigned 16 u128Max h
        | none => .ok 0 : Res Nat)
    ofNum n
  else
    let code := code.getD (str% "M")
    do
      validateCode code
      Matter.new (some code) raw qb64b qb64 qb2

/-- `new_with_num` (number.rs:96-98). -/
def newWithNum (n : Nat) : Res M := new (some n) none none none none none none

/-- `new_with_numh` (number.rs:100-102). -/
def newWithNumh (h : Str) : Res M := new none (some h) none none none none none

/-- `new_with_raw` (number.rs:104-106). -/
def newWithRaw (raw : Bytes) (code : Option Str) : Res M := new none none code (some raw) none none none

/-- `new_with_qb64b` (number.rs:108-110). -/
def newWithQb64b (b : Bytes) : Res M := new none none none none (some b) none none

/-- `new_with_qb64` (number.rs:112-114). -/
def newWithQb64 (s : Str) : Res M := new none none none none none (some s) none

/-- `new_with_qb2` (number.rs:116-118). -/
def newWithQb2 (b : Bytes) : Res M := new none none none none none none (some b)

/-- `bytes.copy_from_slice(raw)` into an array of `k` bytes, then `from_be_bytes`: panics when the
lengths differ. -/
def readBe (k : Nat) (raw : Bytes) : Res Nat := if raw.length = k then .ok (beVal raw) else .panic

/-- `num` (number.rs:120-147). -/
def num (m : M) : Res Nat :=
  if m.code = str% "M" then readBe 2 m.raw
  else if m.code = str% "0H" then readBe 4 m.raw
  else if m.code = str% "N" then readBe 8 m.raw
  else if m.code = str% "0A" then readBe 16 m.raw
  else .err .unexpectedCode

/-- `numh` (number.rs:149-152). -/
def numh (m : M) : Res Str := do
  let n ← num m
  .ok (fmtNat 16 n)

/-- `positive` (number.rs:154-156). -/
def positive (m : M) : Res Bool := do
  let n ← num m
  .ok (decide (0 < n))

end Number

namespace Seqner

open Matter

/-- `validate_code` (seqner.rs:17-23). -/
def validateCode (code : Str) : Res Unit := if code = str% "0A" then .ok () else .err .unexpectedCode

/-- `Seqner::new` (seqner.rs:26-55); `sn` is a `u128`. -/
def new (sn : Option Nat) (snh code : Option Str) (raw qb64b : Option Bytes) (qb64 : Option Str)
    (qb2 : Option Bytes) : Res M :=
  let code := code.getD (str% "0A")
  do
    let raw ← (if raw.isNone ∧ qb64b.isNone ∧ qb64.isNone ∧ qb2.isNone then do
        let n ← (match sn with
          | some n => .ok n
          | none =>
            match snh with
            | some h => parseUnsigned 16 u128Max h
            | none => .ok 0 : Res Nat)
        .ok (some (beBytes 16 n))
      else .ok raw : Res (Option Bytes))
    let m ← Matter.new (some code) raw qb64b qb64 qb2
    validateCode m.code
    .ok m

/-- `new_with_sn` (seqner.rs:57-59). -/
def newWithSn (n : Nat) : Res M := new (some n) none none none none none none

/-- `new_with_snh` (seqner.rs:61-63). -/
def newWithSnh (h : Str) : Res M := new none (some h) none none none none none

/-- `new_with_raw` (seqner.rs:65-67). -/
def newWithRaw (raw : Bytes) (code : Option Str) : Res M := new none none code (some raw) none none none

/-- `new_with_qb64b` (seqner.rs:69-71). -/
def newWithQb64b (b : Bytes) : Res M := new none none none none (some b) none none

/-- `new_with_qb64` (seqner.rs:73-75). -/
def newWithQb64 (s : Str) : Res M := new none none none none none (some s) none

/-- `new_with_qb2` (seqner.rs:77-79). -/
def newWithQb2 (b : Bytes) : Res M := new none none none none none none (some b)

/-- `sn` (seqner.rs:81-83): `raw[0..16]` panics when `raw` is shorter. -/
def sn (m : M) : Res Nat := if 16 ≤ m.raw.length then .ok (beVal (m.raw.take 16)) else .panic

/-- `snh` (seqner.rs:85-87). -/
def snh (m : M) : Res Str := do
  let n ← sn m
  .ok (fmtNat 16 n)

end Seqner

end Keride
