/-
Model of /repo/src/cesr/core/indexer/mod.rs and /repo/src/cesr/core/indexer/tables.rs.
-/
import Verif.Model.Util
import Verif.Model.Base64
import Verif.Model.Utf8

namespace Keride.Indexer

/-- `indexer::tables::Sizage` (indexer/tables.rs:130-137). -/
structure Sizage where
  hs : Nat
  ss : Nat
  os : Nat
  fs : Nat
  ls : Nat
deriving DecidableEq, Repr

/-- The arms of `sizage` (indexer/tables.rs:139-162). -/
def sizageTable : List (Str × Sizage) :=
  [(str% "A", ⟨1, 1, 0, 88, 0⟩), (str% "B", ⟨1, 1, 0, 88, 0⟩), (str% "C", ⟨1, 1, 0, 88, 0⟩),
   (str% "D", ⟨1, 1, 0, 88, 0⟩), (str% "E", ⟨1, 1, 0, 88, 0⟩), (str% "F", ⟨1, 1, 0, 88, 0⟩),
   (str% "0A", ⟨2, 2, 1, 156, 0⟩), (str% "0B", ⟨2, 2, 1, 156, 0⟩),
   (str% "2A", ⟨2, 4, 2, 92, 0⟩), (str% "2B", ⟨2, 4, 2, 92, 0⟩), (str% "2C", ⟨2, 4, 2, 92, 0⟩),
   (str% "2D", ⟨2, 4, 2, 92, 0⟩), (str% "2E", ⟨2, 4, 2, 92, 0⟩), (str% "2F", ⟨2, 4, 2, 92, 0⟩),
   (str% "3A", ⟨2, 6, 3, 160, 0⟩), (str% "3B", ⟨2, 6, 3, 160, 0⟩),
   (str% "0z", ⟨2, 2, 0, u32Max, 0⟩), (str% "1z", ⟨2, 2, 1, 76, 1⟩), (str% "4z", ⟨2, 6, 3, 80, 1⟩)]

/-- `sizage` (indexer/tables.rs:139-162). -/
def sizage (s : Str) : Res Sizage := Res.ofOption .unknownSizage (sizageTable.lookup s)

/-- `hardage` (indexer/tables.rs:164-172). -/
def hardage (c : Char) : Res Nat :=
  let n := c.toNat
  if (65 ≤ n ∧ n ≤ 90) ∨ (97 ≤ n ∧ n ≤ 122) then .ok 1
  else if 48 ≤ n ∧ n ≤ 52 then .ok 2
  else if c = '-' then .err .unexpectedCode
  else if c = '_' then .err .unexpectedCode
  else .err .unknownHardage

/-- `bardage` (indexer/tables.rs:174-182). -/
def bardage (b : Nat) : Res Nat :=
  if b ≤ 0x33 then .ok 1
  else if b ≤ 0x38 then .ok 2
  else if b = 0x3e then .err .unexpectedCode
  else if b = 0x3f then .err .unexpectedCode
  else .err .unknownBardage

/-- `CurrentSigCodex::has_code` (indexer/tables.rs:71-95). -/
def current (code : Str) : Bool :=
  [str% "B", str% "D", str% "F", str% "0B", str% "2B", str% "2D", str% "2F", str% "3B"].contains code

/-- `BothSigCodex::has_code` (indexer/tables.rs:99-123). -/
def both (code : Str) : Bool :=
  [str% "A", str% "C", str% "E", str% "0A", str% "2A", str% "2C", str% "2E", str% "3A"].contains code

/-- The state behind the accessors of trait `Indexer` (indexer/mod.rs:16-28); `index` and `ondex` are
`u32`. -/
structure I where
  code : Str
  raw : Bytes
  index : Nat
  ondex : Nat
deriving DecidableEq, Repr

/-- `new_with_code_and_raw` (indexer/mod.rs:61-149). `64_u32.pow` of `ms`, `os` (at most 3) does not
overflow, and neither does `index * 4 + cs` after the index check. -/
def newWithCodeAndRaw (code : Str) (raw : Bytes) (index : Nat) (ondex : Option Nat) : Res I :=
  if code = [] then .err .emptyMaterial
  else do
    let z ← sizage code
    let cs := z.hs + z.ss
    let ms := z.ss - z.os
    if 64 ^ ms - 1 < index then .err .invalidVarIndex
    else if 0 < z.os ∧ (ondex.any fun o => 64 ^ z.os - 1 < o) then .err .invalidVarIndex
    else if current code ∧ ondex.isSome then .err .invalidVarIndex
    else
      let ondex' : Option Nat := if both code ∧ ondex.isNone then some index else ondex
      if both code = false ∧ z.os = 0 ∧ (ondex.any fun o => o ≠ index) then .err .invalidVarIndex
      else do
        let fs ← (if z.fs = u32Max then
            if cs % 4 ≠ 0 then .err .invalidCodeSize
            else if z.os ≠ 0 then .err .invalidCodeSize
            else .ok (index * 4 + cs)
          else .ok z.fs : Res Nat)
        let rize := (fs - cs) * 3 / 4
        if raw.length < rize then .err .shortage
        else .ok { code := code, raw := raw.take rize, index := index, ondex := ondex'.getD 0 }

/-- The full size computed in `infil`, `binfil`, `exfil`, `bexfil` (indexer/mod.rs:213-230, 309-328,
433-452, 568-586); the error variants differ between them and are passed as `e`. `index * 4 + cs` is
`u32` arithmetic. -/
def sizeOf (chk : Bool) (e1 e2 : Err) (z : Sizage) (index : Nat) : Res Nat :=
  if z.fs = u32Max then
    if (z.hs + z.ss) % 4 ≠ 0 then .err e1
    else if z.os ≠ 0 then .err e2
    else do
      let x ← mulU32 chk index 4
      addU32 chk x (z.hs + z.ss)
  else .ok z.fs

/-- `infil` (indexer/mod.rs:202-280). -/
def infil (chk : Bool) (m : I) : Res Str := do
  let ps := (3 - m.raw.length % 3) % 3
  let z ← sizage m.code
  let cs := z.hs + z.ss
  let ms := z.ss - z.os
  let fs ← sizeOf chk .invalidCodeSize .invalidCodeSize z m.index
  if 64 ^ ms - 1 < m.index then .err .invalidVarIndex
  else if 0 < z.os ∧ 64 ^ z.os - 1 < m.ondex then .err .invalidVarIndex
  else do
    let i ← u32ToB64 m.index ms
    let o ← u32ToB64 m.ondex z.os
    let both := m.code ++ i ++ o
    if Str.len both ≠ cs then .err .invalidCodeSize
    else do
      let d ← subU32 chk ps z.ls
      if cs % 4 ≠ d then .err .invalidCodeSize
      else do
        let b64 := b64Encode (List.replicate ps 0 ++ m.raw)
        -- `ps - szg.ls as usize`: here `ps ≥ ls`, or the previous line has failed
        let t ← Str.sliceFrom b64 (ps - z.ls)
        let full := both ++ t
        if Str.len full ≠ fs then .err .invalidCodeSize
        else .ok full

/-- `binfil` (indexer/mod.rs:285-377). `64_u32.pow(szg.ss)` overflows for `ss = 6`, in a debug build it
panics, in a release build it wraps to 0 and `0 - 1` wraps to `u32::MAX`. -/
def binfil (chk : Bool) (m : I) : Res Bytes := do
  let ps := (3 - m.raw.length % 3) % 3
  let z ← sizage m.code
  let cs := z.hs + z.ss
  let ms := z.ss - z.os
  let p ← powU32 chk 64 z.ss
  let maxIndex ← subU32 chk p 1
  if maxIndex < m.index then .err .invalidVarIndex
  else if z.os = 1 ∧ 64 ^ z.os - 1 < m.ondex then .err .invalidVarIndex
  else do
    let fs ← sizeOf chk .invalidCodeSize .invalidCodeSize z m.index
    let i ← u32ToB64 m.index ms
    let o ← u32ToB64 m.ondex z.os
    let both := m.code ++ i ++ o
    if Str.len both ≠ cs then .err .invalidCodeSize
    else do
      let d ← subU32 chk ps z.ls
      if cs % 4 ≠ d then .err .invalidCodeSize
      else
        let n := ((cs + 1) * 3) / 4
        do
          let full ← (if n ≤ 3 then do
              let v ← b64ToU32 both
              .ok (beBytes 4 (v <<< (2 * (cs % 4))))
            else if n ≤ 6 then do
              let v ← b64ToU64 both
              .ok (beBytes 8 (v <<< (2 * (cs % 4))))
            else .err .invalidCodeSize : Res Bytes)
          let buffer := full.drop (full.length - n) ++ List.replicate z.ls 0 ++ m.raw
          let bfs := buffer.length
          if bfs % 3 ≠ 0 ∨ bfs * 4 / 3 ≠ fs then .err .invalidCodeSize
          else .ok buffer

/-- The ondex read by `exfil` and `bexfil` (indexer/mod.rs:414-430, 547-566), after
`unwrap_or_default`; both agree because a current-only code passes only with ondex 0. -/
def readOndex (z : Sizage) (hard odx : Str) (index : Nat) : Res Nat :=
  if current hard then
    if z.os ≠ 0 then do
      let o ← b64ToU32 odx
      if o ≠ 0 then .err .value else .ok 0
    else .ok 0
  else if z.os ≠ 0 then b64ToU32 odx
  else .ok index

/-- `exfil` (indexer/mod.rs:383-509). In the branch without pad characters the lead byte is not
stripped: the source returns `paw[ps..]` with `ps = 0`. -/
def exfil (chk : Bool) (qb64 : Str) : Res I :=
  match qb64 with
  | [] => .err .emptyMaterial
  | first :: _ => do
    let hs ← hardage first
    if Str.len qb64 < hs then .err .shortage
    else do
      let hard ← Str.sliceTo qb64 hs
      let z ← sizage hard
      let cs := z.hs + z.ss
      let ms := z.ss - z.os
      if Str.len qb64 < cs then .err .shortage
      else do
        let idx ← Str.slice qb64 hs (hs + ms)
        let index ← b64ToU32 idx
        let odx ← Str.slice qb64 (hs + ms) (hs + (ms + z.os))
        let ondex ← readOndex z hard odx index
        let fs ← sizeOf chk .validation .validation z index
        if Str.len qb64 < fs then .err .shortage
        else do
          let trim ← Str.sliceTo qb64 fs
          let ps := cs % 4
          let pbs := 2 * (if ps ≠ 0 then ps else z.ls)
          let body ← Str.sliceFrom trim cs
          let raw ← (if ps ≠ 0 then do
              let paw ← b64Decode (List.replicate ps 'A' ++ body)
              let pre ← Bytes.sliceTo paw ps
              if beVal pre &&& (2 ^ pbs - 1) ≠ 0 then .err .prepad
              else Bytes.sliceFrom paw ps
            else do
              let paw ← b64Decode body
              let lead ← Bytes.sliceTo paw z.ls
              if beVal lead ≠ 0 then
                if z.ls = 1 then .err .nonZeroedLeadByte else .err .nonZeroedLeadBytes
              else Bytes.sliceFrom paw ps : Res Bytes)
          .ok { code := hard, raw := raw, index := index, ondex := ondex }

/-- `bexfil` (indexer/mod.rs:515-632). -/
def bexfil (chk : Bool) (qb2 : Bytes) : Res I :=
  if qb2 = [] then .err .emptyMaterial
  else do
    let sx ← nabSextets qb2 1
    let first ← Res.orPanic sx.head?
    let hs ← bardage first
    let bhs := (hs * 3 + 3) / 4
    if qb2.length < bhs then .err .shortage
    else do
      let hard ← codeB2ToB64 qb2 hs
      let z ← sizage hard
      let cs := z.hs + z.ss
      let ms := z.ss - z.os
      let bcs := ((cs + 1) * 3) / 4
      if qb2.length < bcs then .err .shortage
      else do
        let both ← codeB2ToB64 qb2 cs
        let idx ← Str.slice both hs (hs + ms)
        let index ← b64ToU32 idx
        let odx ← Str.slice both (hs + ms) (hs + (ms + z.os))
        let ondex ← readOndex z hard odx index
        let fs ← sizeOf chk .parseQb2 .validation z index
        let bfs := ((fs + 1) * 3) / 4
        if qb2.length < bfs then .err .shortage
        else do
          let trim ← Bytes.sliceTo qb2 bfs
          let ps := cs % 4
          let pbs := 2 * (if ps ≠ 0 then ps else z.ls)
          let _ ← (if ps ≠ 0 then do
              let b ← Res.orPanic trim[bcs - 1]?
              if b.toNat &&& (2 ^ pbs - 1) ≠ 0 then .err .nonZeroedPadBits else .ok ()
            else if ((trim.take (bcs + z.ls)).drop bcs).any (fun b => b ≠ 0) then
              if z.ls = 1 then .err .nonZeroedLeadByte else .err .nonZeroedLeadBytes
            else .ok () : Res Unit)
          let raw ← Bytes.sliceFrom trim (bcs + z.ls)
          if raw.length ≠ trim.length - bcs - z.ls then .err .conversion
          else .ok { code := hard, raw := raw, index := index, ondex := ondex }

/-- `full_size` (indexer/mod.rs:634-642). -/
def fullSize (chk : Bool) (m : I) : Res Nat := do
  let z ← sizage m.code
  if z.fs ≠ u32Max then .ok z.fs
  else do
    let x ← mulU32 chk m.index 4
    addU32 chk x (z.hs + z.ss)

/-- `qb64` (indexer/mod.rs:182-184). -/
def qb64 (chk : Bool) (m : I) : Res Str := infil chk m

/-- `qb64b` (indexer/mod.rs:188-190). -/
def qb64b (chk : Bool) (m : I) : Res Bytes := do
  let s ← qb64 chk m
  .ok (toUtf8 s)

/-- `qb2` (indexer/mod.rs:193-195). -/
def qb2 (chk : Bool) (m : I) : Res Bytes := binfil chk m

/-- `new_with_qb64` (indexer/mod.rs:151-158). -/
def newWithQb64 (chk : Bool) (s : Str) : Res I := exfil chk s

/-- `new_with_qb64b` (indexer/mod.rs:160-169). -/
def newWithQb64b (chk : Bool) (b : Bytes) : Res I := do
  let s ← fromUtf8 b
  exfil chk s

/-- `new_with_qb2` (indexer/mod.rs:171-178). -/
def newWithQb2 (chk : Bool) (b : Bytes) : Res I := bexfil chk b

/-- `Indexer::new` (indexer/mod.rs:31-59). -/
def new (chk : Bool) (index ondex : Option Nat) (code : Option Str) (raw qb64b : Option Bytes)
    (qb64 : Option Str) (qb2 : Option Bytes) : Res I :=
  let index := index.getD 0
  match raw with
  | some raw =>
    match code with
    | some code => newWithCodeAndRaw code raw index ondex
    | none => .err .emptyMaterial
  | none =>
    match qb64b with
    | some b => newWithQb64b chk b
    | none =>
      match qb64 with
      | some s => newWithQb64 chk s
      | none =>
        match qb2 with
        | some b => newWithQb2 chk b
        | none => .err .validation

end Keride.Indexer
