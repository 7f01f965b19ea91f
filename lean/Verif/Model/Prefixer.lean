/-
Model of /repo/src/prefexing/prefixer.rs.
-/
import Verif.Model.Signing

namespace Keride.Prefixer

open Matter

/-- The non-transferable, transferable and digest codes (prefixer.rs:30-47). -/
def nontrans : List Str := [str% "B", str% "1AAA", str% "1AAI"]
def trans : List Str := [str% "D", str% "1AAB", str% "1AAJ"]

/-- `validate_code` (prefixer.rs:28-55). -/
def validateCode (code : Str) : Res Unit :=
  if nontrans.contains code || trans.contains code || digestCodes.contains code then .ok () else .err .unexpectedCode

/-- The inception types (prefixer.rs:58, 331). -/
def ilks : List Str := [str% "icp", str% "dip", str% "vcp"]

/-- The single key of the event (prefixer.rs:94-110, 136-152). -/
def keyOf (ked : Value) (map : List (Str × Value)) (code : Str) : Res M :=
  if Value.hasKey (str% "k") map then do
    let k ← ked.index (str% "k")
    let keys ← k.toVec
    if keys.length ≠ 1 then .err .derivation
    else do
      let x ← Res.orPanic keys.head?
      let s ← x.toStr
      let verfer ← Verfer.new none none none (some s) none
      if verfer.code ≠ code then .err .derivation else .ok verfer
  else .err .derivation

/-- A field that must be absent or the empty text (prefixer.rs:114-127). -/
def emptyField (ked : Value) (map : List (Str × Value)) (label : Str) : Res Unit :=
  if Value.hasKey label map then do
    let x ← ked.index label
    let s ← x.toStr
    if s ≠ [] then .err .derivation else .ok ()
  else .ok ()

/-- `derive_nontransferable` (prefixer.rs:90-130). -/
def deriveNontransferable (ked : Value) (code : Str) : Res (Bytes × Str) := do
  let map ← ked.toMap
  let verfer ← keyOf ked map code
  emptyField ked map (str% "n")
  emptyField ked map (str% "b")
  emptyField ked map (str% "a")
  .ok (verfer.raw, verfer.code)

/-- `derive_transferable` (prefixer.rs:132-157). -/
def deriveTransferable (ked : Value) (code : Str) : Res (Bytes × Str) := do
  let map ← ked.toMap
  let verfer ← keyOf ked map code
  .ok (verfer.raw, verfer.code)

/-- `derive_digest` (prefixer.rs:159-174). -/
def deriveDigest (H : Hash) (ked : Value) (code : Str) : Res (Bytes × Str) := do
  let szg ← sizage code
  let ked ← ked.setIndex (str% "i") (.str (Saider.dummy szg.fs))
  let ked ← ked.setIndex (str% "d") (.str (Saider.dummy szg.fs))
  let r ← sizeify ked none
  let dig ← hashDigest H code r.raw
  .ok (dig, code)

/-- `derive` (prefixer.rs:57-88). -/
def derive (H : Hash) (ked : Value) (code : Str) : Res (Bytes × Str) := do
  let t ← ked.index (str% "t")
  let ilk ← t.toStr
  if !ilks.contains ilk then .err .value
  else if nontrans.contains code then deriveNontransferable ked code
  else if trans.contains code then deriveTransferable ked code
  else if digestCodes.contains code then deriveDigest H ked code
  else .err .unexpectedCode

/-- The code of a derivation (prefixer.rs:272-295): given, or that of the prefix in the event. -/
def codeOf (ked : Value) (code : Option Str) : Res Str :=
  match code with
  | some c => .ok c
  | none => do
    let map ← ked.toMap
    if !Value.hasKey (str% "i") map then .err .validation
    else
      let x ← ked.index (str% "i")
      let s ← x.toStr
      let m ← Matter.new none none none (some s) none
      .ok m.code

/-- `Prefixer::new` (prefixer.rs:256-308): given material, only the code argument is validated, not the code of the
parsed text. -/
def new (H : Hash) (ked : Option Value) (allows : Option (List Str)) (code : Option Str) (raw qb64b : Option Bytes)
    (qb64 : Option Str) (qb2 : Option Bytes) : Res M :=
  if raw.isSome ∨ qb64b.isSome ∨ qb64.isSome ∨ qb2.isSome then do
    validateCode (code.getD (str% "B"))
    Matter.new code raw qb64b qb64 qb2
  else
    match ked with
    | none => .err .validation
    | some ked => do
      let code ← codeOf ked code
      validateCode code
      let allows := allows.getD []
      if allows ≠ [] ∧ !allows.contains code then .err .unexpectedCode
      else
        let p ← derive H ked code
        Matter.new (some p.2) (some p.1) none none none

/-- `new_with_ked` (prefixer.rs:310-312). -/
def newWithKed (H : Hash) (ked : Value) (allows : Option (List Str)) (code : Option Str) : Res M :=
  new H (some ked) allows code none none none none

/-- `new_with_raw` (prefixer.rs:314-316). -/
def newWithRaw (H : Hash) (raw : Bytes) (code : Option Str) : Res M := new H none none code (some raw) none none none

/-- `new_with_qb64b` (prefixer.rs:318-320). -/
def newWithQb64b (H : Hash) (b : Bytes) : Res M := new H none none none none (some b) none none

/-- `new_with_qb64` (prefixer.rs:322-324). -/
def newWithQb64 (H : Hash) (s : Str) : Res M := new H none none none none none (some s) none

/-- `new_with_qb2` (prefixer.rs:326-328). -/
def newWithQb2 (H : Hash) (b : Bytes) : Res M := new H none none none none none none (some b)

/-- `prefixed && (!map.contains_key("i") || ked["i"].to_string()? != *pre)` (prefixer.rs:194-197, 231-234,
247-251). -/
def badPrefix (ked : Value) (map : List (Str × Value)) (pre : Str) (prefixed : Bool) : Res Bool :=
  if prefixed then
    if !Value.hasKey (str% "i") map then .ok true
    else do
      let x ← ked.index (str% "i")
      let s ← x.toStr
      .ok (decide (s ≠ pre))
  else .ok false

/-- The key comparison shared by `verify_nontransferable` and `verify_transferable` (prefixer.rs:177-197,
214-234): `true` when the checks pass. -/
def keyCheck (ked : Value) (map : List (Str × Value)) (pre : Str) (prefixed : Bool) : Res Bool :=
  if !Value.hasKey (str% "k") map then .ok false
  else do
    let k ← ked.index (str% "k")
    let keys ← k.toVec
    if keys.length ≠ 1 then .ok false
    else do
      let x ← Res.orPanic keys.head?
      let s ← x.toStr
      if s ≠ pre then .ok false
      else do
        let bad ← badPrefix ked map pre prefixed
        .ok (!bad)

/-- `verify_nontransferable` (prefixer.rs:176-211). -/
def verifyNontransferable (ked : Value) (pre : Str) (prefixed : Bool) : Res Bool := do
  let map ← ked.toMap
  let good ← keyCheck ked map pre prefixed
  if !good then .ok false
  else if Value.hasKey (str% "n") map then do
    let n ← ked.index (str% "n")
    match n with
    | .arr a => .ok a.isEmpty
    | .str s => .ok (decide (s = []))
    | _ => .ok true
  else .ok true

/-- `verify_transferable` (prefixer.rs:213-236). -/
def verifyTransferable (ked : Value) (pre : Str) (prefixed : Bool) : Res Bool := do
  let map ← ked.toMap
  keyCheck ked map pre prefixed

/-- `verify_digest` (prefixer.rs:238-253). -/
def verifyDigest (H : Hash) (chk : Bool) (ked : Value) (pre : Str) (prefixed : Bool) (code : Str) : Res Bool := do
  let p ← deriveDigest H ked code
  let crymat ← Diger.new H none (some p.2) (some p.1) none none none
  let q ← qb64 chk crymat
  if q ≠ pre then .ok false
  else do
    let map ← ked.toMap
    let bad ← badPrefix ked map pre prefixed
    .ok (!bad)

/-- `verify` (prefixer.rs:330-364). -/
def verify (H : Hash) (chk : Bool) (m : M) (ked : Value) (prefixed : Option Bool) : Res Bool := do
  let prefixed := prefixed.getD false
  let t ← ked.index (str% "t")
  let ilk ← t.toStr
  if !ilks.contains ilk then .err .value
  else if nontrans.contains m.code then do
    let pre ← qb64 chk m
    verifyNontransferable ked pre prefixed
  else if trans.contains m.code then do
    let pre ← qb64 chk m
    verifyTransferable ked pre prefixed
  else if digestCodes.contains m.code then do
    let pre ← qb64 chk m
    verifyDigest H chk ked pre prefixed m.code
  else .err .unexpectedCode

end Keride.Prefixer
