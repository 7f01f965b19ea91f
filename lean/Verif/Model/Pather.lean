/-
Model of /repo/src/pathing/pather.rs.
-/
import Verif.Model.Sadder

namespace Keride.Pather

open Matter

/-- `pather_from_bext` (pather.rs:38-50). -/
def fromBext (bext code : Str) : Res M :=
  if reB64 bext = false then .err .value
  else do
    let raw ← Bexter.rawify bext
    Matter.new (some code) (some raw) none none none

/-- The text of a path component (pather.rs:186-187): a text, or an integer in decimal. -/
def component (e : Value) : Res Str :=
  match e with
  | .str s => .ok s
  | .int i => .ok (Tholder.fmtInt i)
  | _ => .err .conversion

/-- `bextify` (pather.rs:178-197). -/
def bextify (path : Value) : Res Str := do
  let l ← path.toVec
  let vath ← Res.mapList (fun e => do
    let p ← component e
    if reB64 p = false then .err .value else .ok p) l
  .ok ('-' :: joinWith '-' vath)

/-- `Pather::new` (pather.rs:53-84). -/
def new (path : Option Value) (bext code : Option Str) (raw qb64b : Option Bytes) (qb64 : Option Str)
    (qb2 : Option Bytes) : Res M := do
  let code := code.getD (str% "4A")
  let m ← (if bext.isNone ∧ raw.isNone ∧ qb64b.isNone ∧ qb64.isNone ∧ qb2.isNone then
      match path with
      | some path => do
        let b ← bextify path
        fromBext b code
      | none => .err .emptyMaterial
    else
      match bext with
      | some b => fromBext b code
      | none => Matter.new (some code) raw qb64b qb64 qb2 : Res M)
  Bexter.validateCode m.code
  .ok m

/-- `new_with_path` (pather.rs:86-88). -/
def newWithPath (path : Value) : Res M := new (some path) none none none none none none

/-- `new_with_bext` (pather.rs:90-92). -/
def newWithBext (b : Str) : Res M := new none (some b) none none none none none

/-- `new_with_qb64` (pather.rs:102-104). -/
def newWithQb64 (s : Str) : Res M := new none none none none none (some s) none

/-- `new_with_qb2` (pather.rs:106-108). -/
def newWithQb2 (b : Bytes) : Res M := new none none none none none none (some b)

/-- `path` (pather.rs:110-124), as the list of its components. -/
def path (m : M) : Res (List Str) := do
  let b ← Bexter.bext m
  match b with
  | '-' :: rest =>
    let parts := splitChar '-' rest
    if parts.head? = some [] then .ok [] else .ok parts
  | _ => .err .value

/-- `root` (pather.rs:126-134). -/
def root (m r : M) : Res M := do
  let a ← path r
  let b ← path m
  newWithPath (.arr ((a ++ b).map .str))

/-- `hashmap[p]` of the map from components to positions (pather.rs:140-141): the position of the last
occurrence. -/
def lastIndex (p : Str) (l : List Str) : Option Nat :=
  (l.zipIdx.reverse.find? fun e => e.1 = p).map Prod.snd

/-- `path.remove(i)` (pather.rs:149): a panic when out of range. -/
def removeAt (i : Nat) (l : List Str) : Res (List Str) := if i < l.length then .ok (l.eraseIdx i) else .panic

/-- The loop of `strip` (pather.rs:148-150). `hashmap[..]` panics when the component is missing. -/
def stripLoop (orig : List Str) : List Str → List Str → Res (List Str)
  | [], l => .ok l
  | p :: ps, l => do
    let i ← Res.orPanic (lastIndex p orig)
    let l ← removeAt i l
    stripLoop orig ps l

/-- `strip` (pather.rs:136-153). -/
def strip (m r : M) : Res M := do
  let rp ← path r
  let p ← path m
  if p.length < rp.length then .ok m
  else do
    let l ← stripLoop p rp.reverse p
    newWithPath (.arr (l.map .str))

/-- `starts_with` (pather.rs:155-157). -/
def startsWith (m p : M) : Res Bool := do
  let a ← Bexter.bext m
  let b ← Bexter.bext p
  .ok (b.isPrefixOf a)

/-- `usize::MAX` on 64-bit targets. -/
def usizeMax : Nat := 2 ^ 64 - 1

/-- One step of `_resolve` (pather.rs:205-233): the value it goes on with, or `none` for the early return of an
object at an empty component. -/
def step (val : Value) (idx : Str) : Res (Option Value) :=
  match val with
  | .obj o =>
    match parseUnsigned 10 usizeMax idx with
    | .ok i => do
      let e ← Res.ofOption .value o[i]?
      .ok (some e.2)
    | _ =>
      if idx = [] then .ok none
      else do
        let e ← Res.ofOption .value (Value.find idx o)
        .ok (some e)
  | .arr l => do
    let i ← parseUnsigned 10 usizeMax idx
    let e ← Res.ofOption .value l[i]?
    .ok (some e)
  | _ => .err .value

/-- `_resolve` (pather.rs:199-236). -/
def resolveAt : List Str → Value → Res Value
  | [], v => .ok v
  | idx :: ptr, v =>
    match step v idx with
    | .ok (some v') => resolveAt ptr v'
    | .ok none => .ok v
    | .err e => .err e
    | .panic => .panic

/-- `resolve` (pather.rs:159-161). -/
def resolve (m : M) (sad : Value) : Res Value := do
  let p ← path m
  resolveAt p sad

/-- `tail` (pather.rs:163-176). -/
def tail (m : M) (serder : Sad) : Res Str := do
  let v ← resolve m serder.ked
  match v with
  | .str s => do
    let _ ← Sadder.saiderOf s
    .ok s
  | .obj _ => .ok v.toJson
  | .arr _ => .ok v.toJson
  | _ => .err .value

end Keride.Pather
