/-
Model of /repo/src/cesr/core/dater.rs and /repo/src/cesr/core/bexter.rs.
-/
import Verif.Model.Matter

namespace Keride

/-- `str::replace` of one character by another. -/
def replaceChar (a b : Char) (s : Str) : Str := s.map fun c => if c = a then b else c

namespace Dater

open Matter

/-- `iso_8601_to_b64` (dater.rs:25-27). -/
def isoToB64 (dts : Str) : Str := replaceChar '+' 'p' (replaceChar '.' 'd' (replaceChar ':' 'c' dts))

/-- `b64_to_iso_8601` (dater.rs:29-31). -/
def b64ToIso (s : Str) : Str := replaceChar 'p' '+' (replaceChar 'd' '.' (replaceChar 'c' ':' s))

/-- `validate_code` (dater.rs:17-23). -/
def validateCode (code : Str) : Res Unit := if code = str% "1AAG" then .ok () else .err .unexpectedCode

/-- `Dater::new` (dater.rs:44-64). `now` is the text of the current time, the result of
`now_as_iso8601` (dater.rs:33-36): the clock is not modelled. -/
def new (now : Str) (dts code : Option Str) (raw qb64b : Option Bytes) (qb64 : Option Str)
    (qb2 : Option Bytes) : Res M :=
  let code := code.getD (str% "1AAG")
  do
    let m ← (if raw.isNone ∧ qb64b.isNone ∧ qb64.isNone ∧ qb2.isNone then
        Matter.new (some code) raw qb64b (some (str% "1AAG" ++ isoToB64 (dts.getD now))) qb2
      else Matter.new (some code) raw qb64b qb64 qb2 : Res M)
    validateCode m.code
    .ok m

/-- `new_with_dts` (dater.rs:66-68). The current time is not used. -/
def newWithDts (dts : Str) (code : Option Str) : Res M := new [] (some dts) code none none none none

/-- `new_with_raw` (dater.rs:70-72). -/
def newWithRaw (raw : Bytes) (code : Option Str) : Res M := new [] none code (some raw) none none none

/-- `new_with_qb64b` (dater.rs:74-76). -/
def newWithQb64b (b : Bytes) : Res M := new [] none none none (some b) none none

/-- `new_with_qb64` (dater.rs:78-80). -/
def newWithQb64 (s : Str) : Res M := new [] none none none none (some s) none

/-- `new_with_qb2` (dater.rs:82-84). -/
def newWithQb2 (b : Bytes) : Res M := new [] none none none none none (some b)

/-- `dts` (dater.rs:86-90). -/
def dts (chk : Bool) (m : M) : Res Str := do
  let z ← sizage m.code
  let s ← qb64 chk m
  let t ← Str.sliceFrom s z.hs
  .ok (b64ToIso t)

/-- `dtsb` (dater.rs:92-94). -/
def dtsb (chk : Bool) (m : M) : Res Bytes := do
  let t ← dts chk m
  .ok (toUtf8 t)

end Dater

/-- The character class of `REB64_STRING` (util.rs:3). -/
def reB64Char (c : Char) : Bool :=
  let n := c.toNat
  (65 ≤ n && n ≤ 90) || (97 ≤ n && n ≤ 122) || (48 ≤ n && n ≤ 57) || c == '-' || c == '_'

/-- `REB64.is_match` (util.rs:3): the whole text is in the class. -/
def reB64 (s : Str) : Bool := s.all reB64Char

namespace Bexter

open Matter

/-- `Bext::bext` (bexter.rs:14-28). -/
def bext (m : M) : Res Str := do
  let z ← sizage m.code
  let b := b64Encode (List.replicate z.ls 0 ++ m.raw)
  let ws := if z.ls = 0 then (if b.head? = some 'A' then 1 else 0) else (z.ls + 1) % 4
  Str.sliceFrom b ws

/-- `tables::Codex` (bexter.rs:50-62). -/
def codex : List Str := [str% "4A", str% "5A", str% "6A", str% "7AAA", str% "8AAA", str% "9AAA"]

/-- `validate_code` (bexter.rs:66-72). -/
def validateCode (code : Str) : Res Unit := if codex.contains code then .ok () else .err .unexpectedCode

/-- `rawify` (bexter.rs:74-80). -/
def rawify (t : Str) : Res Bytes := do
  let ts := Str.len t % 4
  let ws := (4 - ts) % 4
  let ls := (3 - ts) % 3
  let b ← b64Decode (List.replicate ws 'A' ++ t)
  Bytes.sliceFrom b ls

/-- `Bexter::new` (bexter.rs:83-119). -/
def new (bext code : Option Str) (raw qb64b : Option Bytes) (qb64 : Option Str) (qb2 : Option Bytes) :
    Res M :=
  let code := code.getD (str% "4A")
  if bext.isNone ∧ raw.isNone ∧ qb64b.isNone ∧ qb64.isNone ∧ qb2.isNone then .err .emptyMaterial
  else do
    let m ← (match bext with
      | some t =>
        if reB64 t = false then .err .value
        else do
          let raw ← rawify t
          Matter.new (some code) (some raw) none none none
      | none => Matter.new (some code) raw qb64b qb64 qb2 : Res M)
    validateCode m.code
    .ok m

/-- `new_with_bext` (bexter.rs:121-123). -/
def newWithBext (t : Str) : Res M := new (some t) none none none none none

/-- `new_with_raw` (bexter.rs:125-127). -/
def newWithRaw (raw : Bytes) (code : Option Str) : Res M := new none code (some raw) none none none

/-- `new_with_qb64b` (bexter.rs:129-131). -/
def newWithQb64b (b : Bytes) : Res M := new none none none (some b) none none

/-- `new_with_qb64` (bexter.rs:133-135). -/
def newWithQb64 (s : Str) : Res M := new none none none none (some s) none

/-- `new_with_qb2` (bexter.rs:137-139). -/
def newWithQb2 (b : Bytes) : Res M := new none none none none none (some b)

end Bexter

end Keride
