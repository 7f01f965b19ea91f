/-
Model of /repo/src/cesr/core/counter/mod.rs and /repo/src/cesr/core/counter/tables.rs.
-/
import Verif.Model.Util
import Verif.Model.Utf8
import Verif.Model.Num

namespace Keride

/-- `str::split(char)`: the pieces between occurrences of `d`; always at least one piece. -/
def splitChar (d : Char) : Str → List Str
  | [] => [[]]
  | c :: cs =>
    if c = d then [] :: splitChar d cs
    else
      match splitChar d cs with
      | [] => [[c]]
      | h :: t => (c :: h) :: t

namespace Counter

/-- `counter::tables::Sizage` (counter/tables.rs:3-9). -/
structure Sizage where
  hs : Nat
  ss : Nat
  fs : Nat
  ls : Nat
deriving DecidableEq, Repr

/-- The arms of `sizage` (counter/tables.rs:11-30). -/
def sizageTable : List (Str × Sizage) :=
  [(str% "-A", ⟨2, 2, 4, 0⟩), (str% "-B", ⟨2, 2, 4, 0⟩), (str% "-C", ⟨2, 2, 4, 0⟩),
   (str% "-D", ⟨2, 2, 4, 0⟩), (str% "-E", ⟨2, 2, 4, 0⟩), (str% "-F", ⟨2, 2, 4, 0⟩),
   (str% "-G", ⟨2, 2, 4, 0⟩), (str% "-H", ⟨2, 2, 4, 0⟩), (str% "-I", ⟨2, 2, 4, 0⟩),
   (str% "-J", ⟨2, 2, 4, 0⟩), (str% "-K", ⟨2, 2, 4, 0⟩), (str% "-L", ⟨2, 2, 4, 0⟩),
   (str% "-V", ⟨2, 2, 4, 0⟩), (str% "-0V", ⟨3, 5, 8, 0⟩), (str% "--AAA", ⟨5, 3, 8, 0⟩)]

/-- `sizage` (counter/tables.rs:11-30). -/
def sizage (s : Str) : Res Sizage := Res.ofOption .unknownSizage (sizageTable.lookup s)

/-- The arms of `hardage` (counter/tables.rs:32-40). -/
def hardageTable : List (Str × Nat) :=
  [(str% "-A", 2), (str% "-B", 2), (str% "-C", 2), (str% "-D", 2), (str% "-E", 2), (str% "-F", 2),
   (str% "-G", 2), (str% "-H", 2), (str% "-I", 2), (str% "-J", 2), (str% "-K", 2), (str% "-L", 2),
   (str% "-V", 2), (str% "-0", 3), (str% "--", 5)]

/-- `hardage` (counter/tables.rs:32-40). -/
def hardage (s : Str) : Res Nat := Res.ofOption .unknownHardage (hardageTable.lookup s)

/-- The arms of `bardage` (counter/tables.rs:42-50); `>` is byte 62, `4` is byte 52. -/
def bardageTable : List (List Nat × Nat) :=
  [([62, 0], 2), ([62, 1], 2), ([62, 2], 2), ([62, 3], 2), ([62, 4], 2), ([62, 5], 2), ([62, 6], 2),
   ([62, 7], 2), ([62, 8], 2), ([62, 9], 2), ([62, 10], 2), ([62, 11], 2), ([62, 21], 2),
   ([62, 52], 3), ([62, 62], 5)]

/-- `bardage` (counter/tables.rs:42-50). -/
def bardage (b : List Nat) : Res Nat := Res.ofOption .unknownBardage (bardageTable.lookup b)

/-- `Counter` (counter/mod.rs:6-10). `count` is a `u32`. -/
structure C where
  code : Str
  count : Nat
deriving DecidableEq, Repr

/-- `new_with_code_and_count` (counter/mod.rs:109-132). `64_u32.pow(ss)` fits because `ss ≤ 5`. -/
def newWithCodeAndCount (code : Str) (count : Nat) : Res C :=
  if code = [] then .err .emptyMaterial
  else do
    let z ← sizage code
    let cs := z.hs + z.ss
    if z.fs ≠ cs ∨ cs % 4 ≠ 0 then .err .invalidCodeSize
    else if 64 ^ z.ss - 1 < count then .err .invalidVarIndex
    else .ok ⟨code, count⟩

/-- `infil` (counter/mod.rs:175-208). -/
def infil (c : C) : Res Str := do
  let z ← sizage c.code
  let cs := z.hs + z.ss
  if z.fs ≠ cs ∨ cs % 4 ≠ 0 then .err .invalidCodeSize
  else if 64 ^ z.ss - 1 < c.count then .err .invalidVarIndex
  else do
    let soft ← u32ToB64 c.count z.ss
    let both := c.code ++ soft
    if Str.len both ≠ cs then .err .invalidCodeSize
    else .ok both

/-- `qb64` (counter/mod.rs:55-57). -/
def qb64 (c : C) : Res Str := infil c

/-- `qb64b` (counter/mod.rs:59-61). -/
def qb64b (c : C) : Res Bytes := do
  let s ← qb64 c
  .ok (toUtf8 s)

/-- `binfil`, `qb2` (counter/mod.rs:63-65, 210-213). -/
def qb2 (c : C) : Res Bytes := do
  let both ← infil c
  codeB64ToB2 both

/-- `exfil` (counter/mod.rs:215-250). The cast `as u32` is kept. -/
def exfil (s : Str) : Res C :=
  if s = [] then .err .emptyMaterial
  else do
    let first ← Str.sliceTo s 2
    let hs ← hardage first
    if Str.len s < hs then .err .shortage
    else do
      let hard ← Str.sliceTo s hs
      let z ← sizage hard
      let cs := z.hs + z.ss
      if Str.len s < cs then .err .shortage
      else do
        let countB64 ← Str.slice s z.hs cs
        let count ← b64ToU64 countB64
        .ok ⟨hard, count % 2 ^ 32⟩

/-- `bexfil` (counter/mod.rs:252-304). The loop over the characters of the count is that of
`b64_to_u32`. -/
def bexfil (q : Bytes) : Res C :=
  if q = [] then .err .emptyMaterial
  else do
    let first ← nabSextets q 2
    let f0 ← Res.orPanic first[0]?
    if 0x3e < f0 then
      if f0 = 0x3f then .err .unexpectedOpCode else .err .unexpectedCode
    else do
      let hs ← bardage first
      if q.length < ((hs + 1) * 3) / 4 then .err .shortage
      else do
        let hard ← codeB2ToB64 q hs
        let z ← sizage hard
        let cs := z.hs + z.ss
        if q.length < ((cs + 1) * 3) / 4 then .err .shortage
        else do
          let both ← codeB2ToB64 q cs
          let soft ← Str.slice both hs cs
          let count ← b64ToU32 soft
          .ok ⟨hard, count⟩

/-- `new_with_qb64` (counter/mod.rs:134-138). -/
def newWithQb64 (s : Str) : Res C := exfil s

/-- `new_with_qb64b` (counter/mod.rs:140-146). -/
def newWithQb64b (b : Bytes) : Res C := do
  let s ← fromUtf8 b
  exfil s

/-- `new_with_qb2` (counter/mod.rs:148-152). -/
def newWithQb2 (q : Bytes) : Res C := bexfil q

/-- `Counter::new` (counter/mod.rs:13-40). -/
def new (count : Option Nat) (countB64 : Option Str) (code : Option Str) (qb64b : Option Bytes)
    (qb64 : Option Str) (qb2 : Option Bytes) : Res C :=
  match code with
  | some code => do
    let count ← (match count with
      | some n => .ok n
      | none =>
        match countB64 with
        | some s => b64ToU32 s
        | none => .ok 1 : Res Nat)
    newWithCodeAndCount code count
  | none =>
    match qb64b with
    | some b => newWithQb64b b
    | none =>
      match qb64 with
      | some s => newWithQb64 s
      | none =>
        match qb2 with
        | some b => newWithQb2 b
        | none => .err .validation

/-- `full_size` (counter/mod.rs:306-308). -/
def fullSize (c : C) : Res Nat := do
  let z ← sizage c.code
  .ok z.fs

/-- `count_as_b64` (counter/mod.rs:50-53). -/
def countAsB64 (c : C) (length : Nat) : Res Str := do
  let length ← (if length = 0 then do
      let z ← sizage c.code
      .ok z.ss
    else .ok length : Res Nat)
  u32ToB64 c.count length

/-- `sem_ver_parts_to_b64` (counter/mod.rs:154-173). The inner error is `unreachable!()`. -/
def semVerPartsToB64 (parts : List Nat) : Res Str :=
  if ∃ p ∈ parts, 63 < p then .err .parsing
  else
    let rec go : List Nat → Res Str
      | [] => .ok []
      | p :: ps => do
        let s ← (if (u32ToB64 p 1).isErr then .panic else u32ToB64 p 1 : Res Str)
        let t ← go ps
        .ok (s ++ t)
    go parts

/-- `sem_ver_to_b64` (counter/mod.rs:104-107); the arguments are `u8`. -/
def semVerToB64 (major minor patch : Nat) : Res Str := semVerPartsToB64 [major, minor, patch]

/-- One iteration of the loop of `sem_ver_str_to_b64` (counter/mod.rs:77-97). -/
def semVerPart (s : Str) : Res Nat :=
  match parseSigned 10 (-128) 127 s with
  | some n => if n < 0 then .err .conversion else .ok n.toNat
  | none => if s = [] then .ok 0 else .err .conversion

/-- `sem_ver_str_to_b64` (counter/mod.rs:67-102). Missing parts stay 0. -/
def semVerStrToB64 (version : Str) : Res Str :=
  let strings := splitChar '.' version
  if 3 < strings.length then .err .conversion
  else
    let rec go : List Str → Res (List Nat)
      | [] => .ok []
      | s :: ss => do
        let n ← semVerPart s
        let ns ← go ss
        .ok (n :: ns)
    do
      let ns ← go strings
      semVerPartsToB64 (ns ++ List.replicate (3 - strings.length) 0)

end Counter
end Keride
