/-
Model of /repo/src/cesr/core/matter/mod.rs and tables.rs.
-/
import Verif.Model.Base64
import Verif.Model.Utf8

namespace Keride.Matter

/-- `Sizage` (matter/tables.rs:8-14). `fs = u32Max` marks a variable-size code. -/
structure Sizage where
  hs : Nat
  ss : Nat
  fs : Nat
  ls : Nat
deriving DecidableEq, Repr

/-- The arms of `sizage` (matter/tables.rs:17-67), in order. -/
def sizageTable : List (Str × Sizage) := [
    (str% "A", ⟨1, 0, 44, 0⟩),
    (str% "B", ⟨1, 0, 44, 0⟩),
    (str% "C", ⟨1, 0, 44, 0⟩),
    (str% "D", ⟨1, 0, 44, 0⟩),
    (str% "E", ⟨1, 0, 44, 0⟩),
    (str% "F", ⟨1, 0, 44, 0⟩),
    (str% "G", ⟨1, 0, 44, 0⟩),
    (str% "H", ⟨1, 0, 44, 0⟩),
    (str% "I", ⟨1, 0, 44, 0⟩),
    (str% "J", ⟨1, 0, 44, 0⟩),
    (str% "K", ⟨1, 0, 76, 0⟩),
    (str% "L", ⟨1, 0, 76, 0⟩),
    (str% "M", ⟨1, 0, 4, 0⟩),
    (str% "N", ⟨1, 0, 12, 0⟩),
    (str% "O", ⟨1, 0, 44, 0⟩),
    (str% "P", ⟨1, 0, 124, 0⟩),
    (str% "Q", ⟨1, 0, 44, 0⟩),
    (str% "0A", ⟨2, 0, 24, 0⟩),
    (str% "0B", ⟨2, 0, 88, 0⟩),
    (str% "0C", ⟨2, 0, 88, 0⟩),
    (str% "0D", ⟨2, 0, 88, 0⟩),
    (str% "0E", ⟨2, 0, 88, 0⟩),
    (str% "0F", ⟨2, 0, 88, 0⟩),
    (str% "0G", ⟨2, 0, 88, 0⟩),
    (str% "0H", ⟨2, 0, 8, 0⟩),
    (str% "0I", ⟨2, 0, 88, 0⟩),
    (str% "1AAA", ⟨4, 0, 48, 0⟩),
    (str% "1AAB", ⟨4, 0, 48, 0⟩),
    (str% "1AAC", ⟨4, 0, 80, 0⟩),
    (str% "1AAD", ⟨4, 0, 80, 0⟩),
    (str% "1AAE", ⟨4, 0, 56, 0⟩),
    (str% "1AAF", ⟨4, 0, 8, 0⟩),
    (str% "1AAG", ⟨4, 0, 36, 0⟩),
    (str% "1AAH", ⟨4, 0, 100, 0⟩),
    (str% "1AAI", ⟨4, 0, 48, 0⟩),
    (str% "1AAJ", ⟨4, 0, 48, 0⟩),
    (str% "2AAA", ⟨4, 0, 8, 1⟩),
    (str% "3AAA", ⟨4, 0, 8, 2⟩),
    (str% "4A", ⟨2, 2, u32Max, 0⟩),
    (str% "5A", ⟨2, 2, u32Max, 1⟩),
    (str% "6A", ⟨2, 2, u32Max, 2⟩),
    (str% "7AAA", ⟨4, 4, u32Max, 0⟩),
    (str% "8AAA", ⟨4, 4, u32Max, 1⟩),
    (str% "9AAA", ⟨4, 4, u32Max, 2⟩),
    (str% "4B", ⟨2, 2, u32Max, 0⟩),
    (str% "5B", ⟨2, 2, u32Max, 1⟩),
    (str% "6B", ⟨2, 2, u32Max, 2⟩),
    (str% "7AAB", ⟨4, 4, u32Max, 0⟩),
    (str% "8AAB", ⟨4, 4, u32Max, 1⟩),
    (str% "9AAB", ⟨4, 4, u32Max, 2⟩)]

/-- `sizage` (matter/tables.rs:16-70). -/
def sizage (s : Str) : Res Sizage := Res.ofOption .unknownSizage (sizageTable.lookup s)

/-- `hardage` (matter/tables.rs:72-81). -/
def hardage (c : Char) : Res Nat :=
  if ('A' ≤ c ∧ c ≤ 'Z') ∨ ('a' ≤ c ∧ c ≤ 'z') then .ok 1
  else if c = '0' ∨ c = '4' ∨ c = '5' ∨ c = '6' then .ok 2
  else if c = '1' ∨ c = '2' ∨ c = '3' ∨ c = '7' ∨ c = '8' ∨ c = '9' then .ok 4
  else if c = '-' then .err .unexpectedCode
  else if c = '_' then .err .unexpectedCode
  else .err .unknownHardage

/-- `bardage` (matter/tables.rs:83-92). -/
def bardage (b : Nat) : Res Nat :=
  if b ≤ 0x33 then .ok 1
  else if b = 0x34 ∨ (0x38 ≤ b ∧ b ≤ 0x3a) then .ok 2
  else if (0x35 ≤ b ∧ b ≤ 0x37) ∨ (0x3b ≤ b ∧ b ≤ 0x3d) then .ok 4
  else if b = 0x3e then .err .unexpectedCode
  else if b = 0x3f then .err .unexpectedCode
  else .err .unknownBardage

/-- `raw_size` (matter/tables.rs:94-102). For every row of the table `cs <= fs` and
`ls <= (fs - cs) * 3 / 4`, so the `u32` subtractions do not underflow (`rawSize_no_underflow`). -/
def rawSize (code : Str) : Res Nat := do
  let szg ← sizage code
  if szg.fs = u32Max then .err .unexpectedCode
  else .ok ((szg.fs - (szg.hs + szg.ss)) * 3 / 4 - szg.ls)

/-- `SMALL_VRZ_DEX` (matter/tables.rs:3). -/
def smallVrzDex : List Char := ['4', '5', '6']

/-- `LARGE_VRZ_DEX` (matter/tables.rs:4). -/
def largeVrzDex : List Char := ['7', '8', '9']

/-- The data of a type implementing the `Matter` trait: code, size, raw (matter/mod.rs:9-15). All
implementations store the three fields unchanged. -/
structure M where
  code : Str
  size : Nat
  raw : Bytes
deriving DecidableEq, Repr

/-- `Matter::new_with_code_and_raw` (matter/mod.rs:43-114). `raw.len() as u32` truncates. `rize + ls`
is at most `u32::MAX` and does not overflow. -/
def newWithCodeAndRaw (code : Str) (raw : Bytes) : Res M :=
  match code with
  | [] => .err .emptyMaterial
  | first :: _ =>
    if first ∈ smallVrzDex ∨ first ∈ largeVrzDex then
      let rize := raw.length % 2 ^ 32
      let ls := (3 - rize % 3) % 3
      let size := (rize + ls) / 3
      do
        let code' ← (
          if first ∈ smallVrzDex then
            if size < 64 ^ 2 then do
              let t ← Str.slice code 1 2
              pure (smallVrzDex.getD ls '4' :: t)
            else if size < 64 ^ 4 then do
              let t ← Str.slice code 1 2
              pure (largeVrzDex.getD ls '7' :: (['A', 'A'] ++ t))
            else .err .invalidVarRawSize
          else
            if size < 64 ^ 4 then do
              let t ← Str.slice code 1 4
              pure (largeVrzDex.getD ls '7' :: t)
            else .err .invalidVarRawSize : Res Str)
        if raw.length < rize then .err .shortage
        else .ok { code := code', size := size, raw := raw.take rize }
    else do
      let rize ← rawSize code
      if raw.length < rize then .err .shortage
      else .ok { code := code, size := 0, raw := raw.take rize }

/-- `Matter::infil` (matter/mod.rs:180-243). `chk`: overflow checks. Clearing buffers (`zeroize`) is
not modelled. `64_u32.pow(ss) - 1` cannot overflow for the table's `ss <= 4`. -/
def infil (chk : Bool) (m : M) : Res Str := do
  let ps := (3 - m.raw.length % 3) % 3
  let szg ← sizage m.code
  if szg.fs = u32Max then
    let cs := szg.hs + szg.ss
    if cs % 4 ≠ 0 then .err .invalidCodeSize
    else if 64 ^ szg.ss - 1 < m.size then .err .invalidVarSize
    else do
      let soft ← u32ToB64 m.size szg.ss
      let both := m.code ++ soft
      if (ps ≥ szg.ls ∧ Str.len both % 4 ≠ ps - szg.ls) ∨ (ps < szg.ls ∧ Str.len both % 4 ≠ szg.ls - ps) then
        .err .invalidCodeSize
      else do
        let b64 ← b64EncodeSlice (List.replicate szg.ls 0 ++ m.raw)
        .ok (both ++ b64)
  else
    let cs := Str.len m.code
    do
      let d ← subU32 chk ps szg.ls
      if cs % 4 ≠ d then .err .invalidCodeSize
      else do
        let b64 ← b64EncodeSlice (List.replicate ps 0 ++ m.raw)
        let t ← Str.sliceFrom b64 (cs % 4)
        .ok (m.code ++ t)

/-- `Matter::binfil` (matter/mod.rs:245-314). The `unreachable` arms of the source are kept. `size * 4`
does not overflow since `size < 64^4`. -/
def binfil (m : M) : Res Bytes := do
  let szg ← sizage m.code
  let cs := szg.hs + szg.ss
  let (fs, both) ← (if szg.fs = u32Max then
      if cs % 4 ≠ 0 then .err .invalidCodeSize
      else if 64 ^ szg.ss - 1 < m.size then .err .invalidVarSize
      else do
        let soft ← u32ToB64 m.size szg.ss
        .ok (cs + m.size * 4, m.code ++ soft)
    else .ok (szg.fs, m.code) : Res (Nat × Str))
  if Str.len both ≠ cs then .err .invalidCodeSize
  else
    let n := ((cs + 1) * 3) / 4
    do
      let full ← (if n ≤ 3 then do
          let v ← b64ToU32 both
          .ok (beBytes 4 (v <<< (2 * (cs % 4))))
        else if n ≤ 6 then do
          let v ← b64ToU64 both
          .ok (beBytes 8 (v <<< (2 * (cs % 4))))
        else .err .invalidCodeSize : Res Bytes)
      let buffer := full.drop (full.length - n) ++ List.replicate szg.ls 0 ++ m.raw
      let bfs := buffer.length
      if bfs % 3 ≠ 0 ∨ bfs * 4 / 3 ≠ fs then .err .invalidCodeSize
      else .ok buffer

/-- `Matter::exfil` (matter/mod.rs:316-417), returning the parsed object instead of mutating `self`.
`pi`/`li` are computed over at most two bytes and do not overflow. -/
def exfil (qb64 : Str) : Res M :=
  match qb64 with
  | [] => .err .emptyMaterial
  | first :: _ => do
    let hs ← hardage first
    if Str.len qb64 < hs then .err .shortage
    else do
      let hard ← Str.sliceTo qb64 hs
      let szg ← sizage hard
      let cs := szg.hs + szg.ss
      let (fs, size) ← (if szg.fs = u32Max then
          if cs % 4 ≠ 0 then .err .invalidCodeSize
          else if Str.len qb64 < cs then .err .shortage
          else do
            let soft ← Str.slice qb64 szg.hs cs
            let size ← b64ToU32 soft
            .ok (size * 4 + cs, size)
        else .ok (szg.fs, 0) : Res (Nat × Nat))
      if Str.len qb64 < fs then .err .shortage
      else do
        let trim ← Str.sliceTo qb64 fs
        let ps := cs % 4
        let pbs := 2 * (if ps ≠ 0 then ps else szg.ls)
        let body ← Str.sliceFrom trim cs
        let raw ← (if ps ≠ 0 then do
            let paw ← b64Decode (List.replicate ps 'A' ++ body)
            let pre ← Bytes.sliceTo paw ps
            let pi := beVal pre
            if pi &&& (2 ^ pbs - 1) ≠ 0 then .err .prepad
            else Bytes.sliceFrom paw ps
          else do
            let paw ← b64Decode body
            let lead ← Bytes.sliceTo paw szg.ls
            let li := beVal lead
            if li ≠ 0 then
              if szg.ls = 1 then .err .nonZeroedLeadByte else .err .nonZeroedLeadBytes
            else Bytes.sliceFrom paw szg.ls : Res Bytes)
        .ok { code := hard, size := size, raw := raw }

/-- `Matter::bexfil` (matter/mod.rs:419-505), returning the parsed object. -/
def bexfil (qb2 : Bytes) : Res M :=
  if qb2 = [] then .err .emptyMaterial
  else do
    let sx ← nabSextets qb2 1
    let first ← Res.orPanic sx.head?
    let hs ← bardage first
    let bhs := (hs * 3 + 3) / 4
    if qb2.length < bhs then .err .shortage
    else do
      let hard ← codeB2ToB64 qb2 hs
      let szg ← sizage hard
      let cs := szg.hs + szg.ss
      let bcs := ((cs + 1) * 3) / 4
      let (fs, size) ← (if szg.fs = u32Max then
          if cs % 4 ≠ 0 then .err .parseQb2
          else if qb2.length < bcs then .err .shortage
          else do
            let both ← codeB2ToB64 qb2 cs
            let soft ← Str.slice both szg.hs cs
            let size ← b64ToU32 soft
            .ok (size * 4 + cs, size)
        else .ok (szg.fs, 0) : Res (Nat × Nat))
      let bfs := ((fs + 1) * 3) / 4
      if qb2.length < bfs then .err .shortage
      else do
        let trim ← Bytes.sliceTo qb2 bfs
        let ps := cs % 4
        let pbs := 2 * (if ps ≠ 0 then ps else szg.ls)
        let _ ← (if ps ≠ 0 then do
            let b ← Res.orPanic trim[bcs - 1]?
            if b.toNat &&& (2 ^ pbs - 1) ≠ 0 then .err .nonZeroedPadBits else .ok ()
          else if ((trim.take (bcs + szg.ls)).drop bcs).any (fun b => b ≠ 0) then
            if szg.ls = 1 then .err .nonZeroedLeadByte else .err .nonZeroedLeadBytes
          else .ok () : Res Unit)
        let raw ← Bytes.sliceFrom trim (bcs + szg.ls)
        if raw.length ≠ trim.length - bcs - szg.ls then .err .conversion
        else .ok { code := hard, size := size, raw := raw }

/-- `Matter::full_size` (matter/mod.rs:507-514). -/
def fullSize (m : M) : Res Nat := do
  let szg ← sizage m.code
  if szg.fs ≠ u32Max then .ok szg.fs else .ok (szg.hs + szg.ss + m.size * 4)

/-- `Matter::new_with_qb64` (matter/mod.rs:116-123). -/
def newWithQb64 (qb64 : Str) : Res M := exfil qb64

/-- `Matter::new_with_qb64b` (matter/mod.rs:125-134). -/
def newWithQb64b (qb64b : Bytes) : Res M := do
  let qb64 ← fromUtf8 qb64b
  exfil qb64

/-- `Matter::new_with_qb2` (matter/mod.rs:136-143). -/
def newWithQb2 (qb2 : Bytes) : Res M := bexfil qb2

/-- `Matter::new` (matter/mod.rs:17-41). -/
def new (code : Option Str) (raw qb64b : Option Bytes) (qb64 : Option Str) (qb2 : Option Bytes) : Res M :=
  match raw with
  | some raw =>
    match code with
    | some code => newWithCodeAndRaw code raw
    | none => .err .emptyMaterial
  | none =>
    match qb64b with
    | some b => newWithQb64b b
    | none =>
      match qb64 with
      | some s => newWithQb64 s
      | none =>
        match qb2 with
        | some b => newWithQb2 b
        | none => .err .validation

/-- `Matter::qb64` (matter/mod.rs:145-147). -/
def qb64 (chk : Bool) (m : M) : Res Str := infil chk m

/-- `Matter::qb64b` (matter/mod.rs:149-151). -/
def qb64b (chk : Bool) (m : M) : Res Bytes := do
  let s ← qb64 chk m
  .ok (toUtf8 s)

/-- `Matter::qb2` (matter/mod.rs:153-155). -/
def qb2 (m : M) : Res Bytes := binfil m

/-- `Matter::digestive` (matter/mod.rs:157-171) with the codes of `tables::Codex`. -/
def digestive (m : M) : Bool :=
  [str% "E", str% "0D", str% "F", str% "0E", str% "G", str% "H", str% "0F", str% "I", str% "0G"].contains m.code

/-- `Matter::transferable` (matter/mod.rs:173-178) with the codes of `tables::Codex`. -/
def transferable (m : M) : Bool :=
  !([str% "B", str% "1AAA", str% "1AAC"].contains m.code)

end Keride.Matter
