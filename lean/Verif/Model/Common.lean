/-
Model of /repo/src/cesr/core/common.rs: version strings, sizes, reading and writing documents.
-/
import Verif.Model.Json
import Verif.Model.Utf8

namespace Keride

/-- `Version` (common.rs:32-36). -/
structure Version where
  major : Nat
  minor : Nat
deriving DecidableEq, Repr

/-- `CURRENT_VERSION` (common.rs:128). -/
def currentVersion : Version := ⟨1, 0⟩

/-- `IDENTS` (common.rs:100). -/
def idents : List Str := [str% "ACDC", str% "KERI"]

/-- `SERIALS` (common.rs:101). -/
def serials : List Str := [str% "JSON"]

/-- `[A-Z]`. -/
def isUpper (c : Char) : Bool := decide (65 ≤ c.toNat ∧ c.toNat ≤ 90)

/-- `[0-9a-f]`. -/
def isHexLow (c : Char) : Bool := decide ((48 ≤ c.toNat ∧ c.toNat ≤ 57) ∨ (97 ≤ c.toNat ∧ c.toNat ≤ 102))

/-- The regular expression `REVER_STRING` (common.rs:99) matches at the start of the text. -/
def vsAt (s : Str) : Bool :=
  decide (17 ≤ s.length) && (s.take 4).all isUpper && ((s.drop 4).take 2).all isHexLow &&
    ((s.drop 6).take 4).all isUpper && ((s.drop 10).take 6).all isHexLow && decide (s[16]? = some '_')

/-- The leftmost match of `REVER_STRING`: the text before it, and the text from it on. Every match has 17
characters of one byte each, so `Regex::shortest_match`, minus 17, is the byte offset of the leftmost match. -/
def findVs : Str → Option (Str × Str)
  | [] => none
  | c :: s => if vsAt (c :: s) then some ([], c :: s) else (findVs s).map fun (a, b) => (c :: a, b)

/-- `REVER.replace_all(vs, "$group")`: every match replaced by its group, left to right; `skip` characters of the
current match remain. -/
def replaceVs (group : Str → Str) : Nat → Str → Str
  | _, [] => []
  | skip + 1, _ :: s => replaceVs group skip s
  | 0, c :: s => if vsAt (c :: s) then group (c :: s) ++ replaceVs group 16 s else c :: replaceVs group 0 s

/-- The groups of `REVER_STRING` in a match. -/
def vsIdent (s : Str) : Str := s.take 4
def vsMajor (s : Str) : Str := (s.drop 4).take 1
def vsMinor (s : Str) : Str := (s.drop 5).take 1
def vsKind (s : Str) : Str := (s.drop 6).take 4
def vsSize (s : Str) : Str := (s.drop 10).take 6

/-- `DeversifyResult`, `SniffResult` (common.rs:16-30). -/
structure VersionInfo where
  ident : Str
  kind : Str
  version : Version
  size : Nat
deriving DecidableEq, Repr

/-- `deversify` (common.rs:134-158). -/
def deversify (vs : Str) : Res VersionInfo :=
  if (findVs vs).isSome then do
    let ident := replaceVs vsIdent 0 vs
    let major ← parseUnsigned 16 255 (replaceVs vsMajor 0 vs)
    let minor ← parseUnsigned 16 255 (replaceVs vsMinor 0 vs)
    let kind := replaceVs vsKind 0 vs
    let size ← parseUnsigned 16 u32Max (replaceVs vsSize 0 vs)
    if !idents.contains ident then .err .validation
    else if !serials.contains kind then .err .validation
    else .ok ⟨ident, kind, ⟨major, minor⟩, size⟩
  else .err .validation

/-- `versify` (common.rs:217-241). -/
def versify (ident : Option Str) (version : Option Version) (kind : Option Str) (size : Option Nat) : Res Str :=
  let ident := ident.getD (str% "KERI")
  let version := version.getD currentVersion
  let kind := kind.getD (str% "JSON")
  let size := size.getD 0
  if !idents.contains ident then .err .validation
  else if !serials.contains kind then .err .validation
  else .ok (ident ++ fmtPad 16 1 version.major ++ fmtPad 16 1 version.minor ++ kind ++ fmtPad 16 6 size ++ ['_'])

/-- `dumps` (common.rs:266-272). -/
def dumps (ked : Value) (kind : Option Str) : Res Bytes :=
  if kind.getD (str% "JSON") = str% "JSON" then .ok (toUtf8 ked.toJson) else .err .value

/-- `loads` (common.rs:243-264): `raw[..size]` panics when `raw` is shorter. -/
def loads (fl : Str → Option Str) (raw : Bytes) (size : Option Nat) (kind : Option Str) : Res Value :=
  if kind.getD (str% "JSON") = str% "JSON" then do
    let b ← (match size with
      | some n => Bytes.sliceTo raw n
      | none => .ok raw : Res Bytes)
    let s ← fromUtf8 b
    jsonRead fl s
  else .err .validation

/-- `SizeifyResult` (common.rs:7-14). -/
structure Sizeified where
  raw : Bytes
  ident : Str
  kind : Str
  ked : Value
  version : Version

/-- `sizeify` (common.rs:160-215). `raw.len() as u32` keeps the low 32 bits. -/
def sizeify (ked : Value) (kind : Option Str) : Res Sizeified := do
  let map ← ked.toMap
  if !Value.hasKey (str% "v") map then .err .value
  else
    let v ← ked.index (str% "v")
    let vs ← v.toStr
    let info ← deversify vs
    if info.version ≠ currentVersion then .err .value
    else
      let kind := kind.getD info.kind
      if !serials.contains kind then .err .value
      else
        let raw ← dumps ked (some kind)
        let size := raw.length
        let text ← fromUtf8 raw
        match findVs text with
        | none => .err .value
        | some (before, _) =>
          let start := before.len
          if 12 < start then .err .value
          else
            let fore ← Bytes.sliceTo raw start
            let back ← Bytes.sliceFrom raw (start + 17)
            let vs ← versify (some info.ident) (some info.version) (some kind) (some (size % 2 ^ 32))
            let raw := fore ++ toUtf8 vs ++ back
            if raw.length ≠ size then .err .value
            else
              let ked ← ked.setIndex (str% "v") (.str vs)
              .ok ⟨raw, info.ident, kind, ked, info.version⟩

/-- `sniff` (common.rs:274-312). The slice `raw[start..start + 17]` is the matched text. -/
def sniff (raw : Bytes) : Res VersionInfo :=
  if raw.length < 29 then .err .value
  else do
    let text ← fromUtf8 raw
    match findVs text with
    | none => .err .value
    | some (before, rest) =>
      if 12 < before.len then .err .value
      else
        let vs := rest.take 17
        let ident := replaceVs vsIdent 0 vs
        let major ← parseUnsigned 16 255 (replaceVs vsMajor 0 vs)
        let minor ← parseUnsigned 16 255 (replaceVs vsMinor 0 vs)
        let kind := replaceVs vsKind 0 vs
        let size ← parseUnsigned 16 u32Max (replaceVs vsSize 0 vs)
        if !serials.contains kind then .err .validation
        else .ok ⟨ident, kind, ⟨major, minor⟩, size⟩

end Keride
