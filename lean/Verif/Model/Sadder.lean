/-
Model of /repo/src/cesr/core/{sadder,serder,creder}.rs.
-/
import Verif.Model.Signing
import Verif.Model.Tholder

namespace Keride

/-- The data of `Serder` (serder.rs:17-27) and `Creder` (creder.rs:12-22). -/
structure Sad where
  code : Str
  raw : Bytes
  ked : Value
  ident : Str
  kind : Str
  size : Nat
  version : Version
  saider : Matter.M

namespace Sadder

/-- `inhale` (sadder.rs:27-46). -/
def inhale (fl : Str → Option Str) (raw : Bytes) : Res (Value × VersionInfo) := do
  let r ← sniff raw
  if r.version ≠ currentVersion then .err .value
  else
    let ked ← loads fl raw (some r.size) (some r.kind)
    .ok (ked, r)

/-- `Saider::new` given a text only (sadder.rs:109-119). The hash functions are not used by it. -/
def saiderOf (s : Str) : Res Matter.M := Saider.newWithQb64 (fun _ _ => []) s

/-- The end of `populate_from_raw`, `populate_from_ked` and `populate_from_kind_and_self` (sadder.rs:109-127,
139-157, 169-187). -/
def finish (code : Str) (raw : Bytes) (ked : Value) (ident kind : Str) (size : Nat) (version : Version) : Res Sad := do
  let d ← ked.index (str% "d")
  let s ← d.toStr
  let saider ← saiderOf s
  if code ≠ saider.code then .err .validation
  else .ok ⟨code, raw, ked, ident, kind, size, version, saider⟩

/-- `populate_from_raw` (sadder.rs:100-128). -/
def populateFromRaw (fl : Str → Option Str) (code : Str) (raw : Bytes) : Res Sad := do
  let r ← inhale fl raw
  let b ← Bytes.sliceTo raw r.2.size
  finish code b r.1 r.2.ident r.2.kind r.2.size r.2.version

/-- `populate_from_ked` (sadder.rs:130-158) with `exhale` (sadder.rs:48-57). `raw.len() as u32` keeps the low
32 bits. -/
def populateFromKed (code : Str) (ked : Value) (kind : Option Str) : Res Sad := do
  let r ← sizeify ked kind
  finish code r.raw r.ked r.ident r.kind (r.raw.length % 2 ^ 32) r.version

/-- `Sadder::new` (sadder.rs:78-98). -/
def new (fl : Str → Option Str) (code : Option Str) (raw : Option Bytes) (kind : Option Str) (ked : Option Value)
    (sad : Option Sad) : Res Sad :=
  let code := code.getD (str% "E")
  match raw with
  | some raw => populateFromRaw fl code raw
  | none =>
    match ked with
    | some ked => populateFromKed code ked kind
    | none =>
      match sad with
      | some sad => .ok sad
      | none => .err .value

/-- `said` (sadder.rs:190-192). -/
def said (chk : Bool) (s : Sad) : Res Str := Matter.qb64 chk s.saider

end Sadder

namespace Serder

/-- `Serder::new` (serder.rs:37-49) with `validate_ident` (serder.rs:28-34). -/
def new (fl : Str → Option Str) (code : Option Str) (raw : Option Bytes) (kind : Option Str) (ked : Option Value)
    (sad : Option Sad) : Res Sad := do
  let s ← Sadder.new fl (some (code.getD (str% "E"))) raw kind ked sad
  if s.ident ≠ str% "KERI" then .err .validation else .ok s

/-- `new_with_ked` (serder.rs:51-53). -/
def newWithKed (fl : Str → Option Str) (ked : Value) (code kind : Option Str) : Res Sad := new fl code none kind (some ked) none

/-- `new_with_raw` (serder.rs:55-57). -/
def newWithRaw (fl : Str → Option Str) (raw : Bytes) : Res Sad := new fl none (some raw) none none none

/-- Read each text of a list with a constructor (serder.rs:66-68). -/
def readAll (f : Str → Res Matter.M) (l : List Value) : Res (List Matter.M) :=
  Res.mapList (fun v => do
    let s ← v.toStr
    f s) l

/-- `verfers` (serder.rs:59-74): a `k` that is not a list gives no keys. -/
def verfers (s : Sad) : Res (List Matter.M) := do
  let map ← s.ked.toMap
  if Value.hasKey (str% "k") map then do
    let k ← s.ked.index (str% "k")
    match k with
    | .arr l => readAll (fun t => Verfer.new none none none (some t) none) l
    | _ => .ok []
  else .ok []

/-- `digers` (serder.rs:76-91). -/
def digers (s : Sad) : Res (List Matter.M) := do
  let map ← s.ked.toMap
  if Value.hasKey (str% "n") map then do
    let n ← s.ked.index (str% "n")
    match n with
    | .arr l => readAll (fun t => Diger.new (fun _ _ => []) none none none none (some t) none) l
    | _ => .ok []
  else .ok []

/-- `werfers` (serder.rs:93-105): a `b` that is not a list is an error. -/
def werfers (s : Sad) : Res (List Matter.M) := do
  let map ← s.ked.toMap
  if Value.hasKey (str% "b") map then do
    let b ← s.ked.index (str% "b")
    let l ← b.toVec
    readAll (fun t => Verfer.new none none none (some t) none) l
  else .ok []

/-- `tholder` and `ntholder` (serder.rs:107-131), for the labels `kt` and `nt`. -/
def tholderAt (chk : Bool) (fl : Str → Option Str) (label : Str) (s : Sad) : Res (Option Tholder) := do
  let map ← s.ked.toMap
  if Value.hasKey label map then do
    let v ← s.ked.index label
    let t ← Tholder.new chk (jsonRead fl) none none (some v)
    .ok (some t)
  else .ok none

def tholder (chk : Bool) (fl : Str → Option Str) (s : Sad) : Res (Option Tholder) := tholderAt chk fl (str% "kt") s
def ntholder (chk : Bool) (fl : Str → Option Str) (s : Sad) : Res (Option Tholder) := tholderAt chk fl (str% "nt") s

/-- `sner` (serder.rs:133-137). -/
def sner (s : Sad) : Res Matter.M := do
  let v ← s.ked.index (str% "s")
  let t ← v.toStr
  Number.new none (some t) none none none none none

/-- `sn` (serder.rs:139-141). -/
def sn (s : Sad) : Res Nat := do
  let n ← sner s
  Number.num n

/-- `fner` (serder.rs:143-162): the text is read as qb64, not as hexadecimal. -/
def fner (s : Sad) : Res (Option Matter.M) := do
  let map ← s.ked.toMap
  if Value.hasKey (str% "f") map then do
    let v ← s.ked.index (str% "f")
    let t ← v.toStr
    let n ← Number.new none none none none none (some t) none
    .ok (some n)
  else .ok none

/-- `_fn` (serder.rs:164-172). -/
def fn (s : Sad) : Res Nat := do
  let n ← fner s
  match n with
  | some n => Number.num n
  | none => .err .validation

/-- `pre` (serder.rs:174-177). -/
def pre (s : Sad) : Res Str := do
  let v ← s.ked.index (str% "i")
  v.toStr

/-- `est` (serder.rs:183-190). -/
def est (s : Sad) : Res Bool := do
  let v ← s.ked.index (str% "t")
  let t ← v.toStr
  .ok ([str% "icp", str% "rot", str% "dip", str% "drt"].contains t)

end Serder

namespace Creder

/-- `Creder::new` (creder.rs:33-45) with `validate_ident` (creder.rs:24-30). -/
def new (fl : Str → Option Str) (code : Option Str) (raw : Option Bytes) (kind : Option Str) (ked : Option Value)
    (sad : Option Sad) : Res Sad := do
  let s ← Sadder.new fl (some (code.getD (str% "E"))) raw kind ked sad
  if s.ident ≠ str% "ACDC" then .err .value else .ok s

/-- `new_with_ked` (creder.rs:47-49). -/
def newWithKed (fl : Str → Option Str) (ked : Value) (code kind : Option Str) : Res Sad := new fl code none kind (some ked) none

/-- `new_with_raw` (creder.rs:51-53). -/
def newWithRaw (fl : Str → Option Str) (raw : Bytes) : Res Sad := new fl none (some raw) none none none

/-- `issuer`, `schema` (creder.rs:59-65). -/
def issuer (s : Sad) : Res Str := do
  let v ← s.ked.index (str% "i")
  v.toStr

def schema (s : Sad) : Res Str := do
  let v ← s.ked.index (str% "s")
  v.toStr

/-- `subject` (creder.rs:67-69). -/
def subject (s : Sad) : Res Value := s.ked.index (str% "a")

/-- `status` (creder.rs:71-79). -/
def status (s : Sad) : Res (Option Str) := do
  let map ← s.ked.toMap
  match Value.find (str% "ri") map with
  | some v => do
    let t ← v.toStr
    .ok (some t)
  | none => .ok none

/-- `chains` (creder.rs:81-89). -/
def chains (s : Sad) : Res Value := do
  let map ← s.ked.toMap
  .ok ((Value.find (str% "e") map).getD (.obj []))

end Creder

end Keride
