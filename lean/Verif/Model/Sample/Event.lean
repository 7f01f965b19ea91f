/-
Model of /repo/sample/keri/kmi/event.rs: building inception, rotation and interaction events.
-/
import Verif.Model.Sample.Store

namespace Keride.Sample

open Matter

/-- A `u128` result: outside the range a panic with overflow checks, else the low 128 bits. -/
def u128 (chk : Bool) (x : Int) : Res Nat :=
  if 0 ≤ x ∧ x < 2 ^ 128 then .ok x.toNat else if chk then .panic else .ok (x % 2 ^ 128).toNat

/-- `ample` (event.rs:409-445). -/
def ample (chk : Bool) (n : Nat) (f : Option Nat) (weak : Option Bool) : Res Nat :=
  let weak := weak.getD true
  match f with
  | some f => do
    let a ← u128 chk ((n : Int) + f)
    let a ← u128 chk ((a : Int) + 2)
    let m1 := a / 2
    let m2 ← u128 chk ((n : Int) - f)
    if m2 < m1 ∧ 0 < n then .err .value
    else if weak then .ok (min n (min m1 m2)) else .ok (min n (max m1 m2))
  | none => do
    let p ← u128 chk ((n : Int) - 1)
    let f1 := max 1 (p / 3)
    let p' ← u128 chk ((n : Int) - 1)
    let a ← u128 chk ((p' : Int) + 2)
    let f2 := max 1 (a / 3)
    if weak then do
      let b ← u128 chk ((n : Int) + f1)
      let b ← u128 chk ((b : Int) + 3)
      let c ← u128 chk ((n : Int) + f2)
      let c ← u128 chk ((c : Int) + 3)
      .ok (min n (min (b / 2) (c / 2)))
    else do
      let d ← u128 chk ((n : Int) - f1)
      let b ← u128 chk ((n : Int) + f1)
      let b ← u128 chk ((b : Int) + 3)
      .ok (min n (max 0 (max d (b / 2))))

/-- The threshold used when none is given: half of the keys, rounded up, at least `least` (event.rs:37-39, 55-57,
213-215, 234-236). -/
def majority (least count : Nat) : Value := .int (if least < (count + 1) / 2 then ((count + 1) / 2 : Nat) else least)

/-- `unique.sort_unstable(); unique.dedup(); wits.len() != unique.len()` (event.rs:66-71, 251-256, 259-264, 267-272): is
there a repeated text? -/
def repeats (l : List Str) : Bool := l.eraseDups.length != l.length

/-- How a threshold is written into an event (event.rs:93-111, 319-337). -/
def tholdField (t : Tholder) (intive : Bool) : Res Value := do
  let n ← t.num
  match n with
  | some k => if intive ∧ k < u32Max then .ok (.int k) else t.sith
  | none => t.sith

/-- How the witness threshold is written into an event (event.rs:113-117, 339-343). -/
def toadField (m : M) (intive : Bool) : Res Value := do
  let n ← Number.num m
  if intive ∧ n < u32Max then .ok (.int n)
  else do
    let h ← Number.numh m
    .ok (.str h)

/-- `keys.iter().map(|key| dat!(key)).collect()` as an array. -/
def texts (l : List Str) : Value := .arr (l.map .str)

/-- The witness threshold of an inception (event.rs:73-88). -/
def inceptToader (chk : Bool) (toad : Option Nat) (wits : List Str) : Res M := do
  let m ← (match toad with
    | some n => Number.newWithNum n
    | none =>
      if wits.isEmpty then Number.newWithNum 0
      else do
        let n ← ample chk wits.length none none
        Number.newWithNum n : Res M)
  let n ← Number.num m
  if !wits.isEmpty then if n < 1 ∨ wits.length < n then .err .value else .ok m
  else if n ≠ 0 then .err .value
  else .ok m

/-- `incept` (event.rs:11-174). The arguments `cnfg`, `data` are the texts and the values of the seals. -/
def incept (E : Env) (keys : List Str) (sith : Option Value) (ndigs : Option (List Str)) (nsith : Option Value) (toad : Option Nat)
    (wits : Option (List Str)) (cnfg : Option (List Str)) (data : Option (List Value)) (version : Option Version)
    (kind code : Option Str) (intive : Option Bool) (delpre : Option Str) : Res Sad := do
  let intive := intive.getD false
  let vs ← versify none (some (version.getD currentVersion)) (some (kind.getD (str% "JSON"))) (some 0)
  let ilk := if delpre.isNone then str% "icp" else str% "dip"
  let sner ← Number.newWithNum 0
  let tholder ← Tholder.newWithSith E.chk (jsonRead E.fl) (sith.getD (majority 1 keys.length))
  let n ← tholder.num
  if n.getD 1 < 1 then .err .value
  else if keys.length < tholder.size then .err .value
  else do
    let ndigs := ndigs.getD []
    let ntholder ← Tholder.newWithSith E.chk (jsonRead E.fl) (nsith.getD (majority 0 ndigs.length))
    if ndigs.length < ntholder.size then .err .value
    else do
      let wits := wits.getD []
      if repeats wits then .err .value
      else do
        let toader ← inceptToader E.chk toad wits
        let kt ← tholdField tholder intive
        let nt ← tholdField ntholder intive
        let bt ← toadField toader intive
        let s ← Number.numh sner
        let ked : List (Str × Value) :=
          [(str% "v", .str vs), (str% "t", .str ilk), (str% "d", .str []), (str% "i", .str []), (str% "s", .str s), (str% "kt", kt), (str% "k", texts keys),
           (str% "nt", nt), (str% "n", texts ndigs), (str% "bt", bt), (str% "b", texts wits), (str% "c", texts (cnfg.getD [])), (str% "a", .arr (data.getD []))]
        let ked := match delpre with
          | some d => Value.insert (str% "di") (.str d) ked
          | none => ked
        let code := if delpre.isSome then some (code.getD (str% "E")) else code
        let prefixer ← (if delpre.isNone ∧ code.isNone ∧ keys.length = 1 then do
            let k ← Res.orPanic keys.head?
            let p ← Prefixer.newWithQb64 E.H k
            if digestive p then .err .value else .ok p
          else do
            let p ← Prefixer.newWithKed E.H (.obj ked) none code
            if delpre.isSome ∧ !digestive p then .err .value else .ok p : Res M)
        let q ← qb64 E.chk prefixer
        let ked := Value.insert (str% "i") (.str q) ked
        let ked ← (if digestive prefixer then .ok (.obj (Value.insert (str% "d") (.str q) ked))
          else do
            let r ← Saider.saidify E.H E.chk (.obj ked) none none none none
            .ok r.2 : Res Value)
        Serder.newWithKed E.fl ked none none

/-- `to_remove.iter().for_each(|index| { newits.remove(*index); })` (event.rs:293-295): a panic when an index is too
large. -/
def removeEach : List Nat → List Str → Res (List Str)
  | [], l => .ok l
  | i :: is, l => if i < l.length then removeEach is (l.eraseIdx i) else .panic

/-- The positions of the witnesses to cut (event.rs:287-292). -/
def cutPositions (wits cuts : List Str) : List Nat := (wits.zipIdx.filter fun e => cuts.contains e.1).map Prod.snd

/-- The witnesses after a rotation (event.rs:286-299). -/
def newWits (wits cuts adds : List Str) : Res (List Str) := do
  let l ← removeEach (cutPositions wits cuts) wits
  .ok (l ++ adds)

/-- The witness threshold of a rotation (event.rs:301-315). -/
def rotateToader (chk : Bool) (toad : Option Nat) (newits : List Str) : Res M := do
  let m ← (match toad with
    | some n => Number.newWithNum n
    | none => do
      let n ← (if newits.isEmpty then .ok 0 else ample chk newits.length none none : Res Nat)
      Number.newWithNum n : Res M)
  let n ← Number.num m
  if newits.isEmpty then if n ≠ 0 then .err .value else .ok m
  else if n < 1 ∨ newits.length < n then .err .value
  else .ok m

/-- `rotate` (event.rs:177-368). -/
def rotate (E : Env) (pre : Str) (keys : List Str) (dig : Str) (ilk : Option Str) (sn : Nat) (sith : Option Value) (ndigs : Option (List Str))
    (nsith : Option Value) (toad : Option Nat) (wits cuts adds : Option (List Str)) (data : Option (List Value)) (version : Option Version)
    (kind : Option Str) (intive : Option Bool) : Res Sad := do
  let ilk := ilk.getD (str% "rot")
  let intive := intive.getD false
  let vs ← versify none (some (version.getD currentVersion)) (some (kind.getD (str% "JSON"))) none
  if ![str% "rot", str% "drt"].contains ilk then .err .value
  else do
    let sner ← Number.newWithNum sn
    let k ← Number.num sner
    if k < 1 then .err .value
    else do
      let tholder ← Tholder.newWithSith E.chk (jsonRead E.fl) (sith.getD (majority 1 keys.length))
      let n ← tholder.num
      if n.getD 1 < 1 then .err .value
      else if keys.length < tholder.size then .err .value
      else do
        let ndigs := ndigs.getD []
        let ntholder ← Tholder.newWithSith E.chk (jsonRead E.fl) (nsith.getD (majority 0 ndigs.length))
        let n ← ntholder.num
        if n.getD 1 < 1 then .err .value
        else if ndigs.length < ntholder.size then .err .value
        else
          let wits := wits.getD []
          let cuts := cuts.getD []
          let adds := adds.getD []
          if repeats wits then .err .value
          else if repeats cuts then .err .value
          else if repeats adds then .err .value
          else if cuts.any (fun c => adds.contains c) then .err .value
          else if wits.any (fun w => adds.contains w) then .err .value
          else do
            let newits ← newWits wits cuts adds
            let toader ← rotateToader E.chk toad newits
            let kt ← tholdField tholder intive
            let nt ← tholdField ntholder intive
            let bt ← toadField toader intive
            let s ← Number.numh sner
            let ked : Value := .obj
              [(str% "v", .str vs), (str% "t", .str ilk), (str% "d", .str []), (str% "i", .str pre), (str% "s", .str s), (str% "p", .str dig), (str% "kt", kt),
               (str% "k", texts keys), (str% "nt", nt), (str% "n", texts ndigs), (str% "bt", bt), (str% "br", texts cuts), (str% "ba", texts adds),
               (str% "a", .arr (data.getD []))]
            let r ← Saider.saidify E.H E.chk ked none none none none
            Serder.newWithKed E.fl r.2 none none

/-- `interact` (event.rs:371-407). -/
def interact (E : Env) (pre dig : Str) (sn : Option Nat) (data : Option Value) (version : Option Version) (kind : Option Str) : Res Sad := do
  let sn := sn.getD 1
  let vs ← versify none (some (version.getD currentVersion)) (some (kind.getD (str% "JSON"))) (some 0)
  let sner ← Number.newWithNum sn
  let k ← Number.num sner
  if k < 1 then .err .value
  else do
    let s ← Number.numh sner
    let ked : Value := .obj
      [(str% "v", .str vs), (str% "t", .str (str% "ixn")), (str% "d", .str []), (str% "i", .str pre), (str% "s", .str s), (str% "p", .str dig),
       (str% "a", data.getD (.arr []))]
    let r ← Saider.saidify E.H E.chk ked none none none none
    Serder.newWithKed E.fl r.2 none none

end Keride.Sample
