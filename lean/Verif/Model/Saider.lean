/-
Model of /repo/src/cesr/core/saider.rs and /repo/src/cesr/crypto/hash.rs.
-/
import Verif.Model.Common
import Verif.Model.Matter

namespace Keride

/-- The digest codes of `hash::digest` (hash.rs:8-59), of `validate_code` in saider.rs (20-38) and in diger.rs
(38-56). -/
def digestCodes : List Str :=
  [str% "E", str% "F", str% "G", str% "H", str% "I", str% "0D", str% "0E", str% "0F", str% "0G"]

/-- The hash functions: `H code ser` is the digest of `ser` under the algorithm of a digest code. The algorithms
are not modelled; where a theorem needs it, it assumes the length of their output. -/
abbrev Hash := Str → Bytes → Bytes

/-- `hash::digest` (hash.rs:8-62). -/
def hashDigest (H : Hash) (code : Str) (ser : Bytes) : Res Bytes :=
  if digestCodes.contains code then .ok (H code ser) else .err .unexpectedCode

namespace Saider

open Matter

/-- `validate_code` (saider.rs:20-38). -/
def validateCode (code : Str) : Res Unit := if digestCodes.contains code then .ok () else .err .unexpectedCode

/-- `serialize` (saider.rs:40-49). -/
def serialize (sad : Value) (kind : Option Str) : Res Bytes := do
  let map ← sad.toMap
  let knd ← (if Value.hasKey (str% "v") map then do
      let v ← sad.index (str% "v")
      let s ← v.toStr
      let info ← deversify s
      .ok info.kind
    else .ok (str% "JSON") : Res Str)
  dumps sad (some (kind.getD knd))

/-- The loop over the ignored keys (saider.rs:78-82). -/
def removeAll : List Str → List (Str × Value) → List (Str × Value)
  | [], o => o
  | k :: ks, o => removeAll ks (if Value.hasKey k o then Value.remove k o else o)

/-- The text of `n` dummy characters (common.rs:126, saider.rs:66). -/
def dummy (n : Nat) : Str := List.replicate n '#'

/-- `derive` (saider.rs:51-89). -/
def derive (H : Hash) (sad : Value) (code kind label : Option Str) (ignore : Option (List Str)) : Res (Bytes × Value) := do
  let label := label.getD (str% "d")
  let code := code.getD (str% "E")
  validateCode code
  let szg ← sizage code
  let sad ← sad.setIndex label (.str (dummy szg.fs))
  let map ← sad.toMap
  let p ← (if Value.hasKey (str% "v") map then do
      let r ← sizeify sad kind
      .ok (some r.kind, r.ked)
    else .ok (kind, sad) : Res (Option Str × Value))
  let map ← p.2.toMap
  let ser := Value.obj (removeAll (ignore.getD []) map)
  let cpa ← serialize ser p.1
  let digest ← hashDigest H code cpa
  .ok (digest, p.2)

/-- The code `Saider::new` uses when it derives the digest (saider.rs:107-137). -/
def deriveCode (sad : Option Value) (label : Str) (code : Option Str) : Res Str :=
  match sad with
  | none => .err .validation
  | some sad => do
    let map ← sad.toMap
    if !Value.hasKey label map then .err .value
    else
      match code with
      | some c => .ok c
      | none =>
        let x ← sad.index label
        match x with
        | .str s =>
          if s = [] then .ok (str% "E")
          else do
            let m ← Matter.new none none none (some s) none
            .ok m.code
        | _ => .err .validation

/-- `Saider::new` (saider.rs:93-165). -/
def new (H : Hash) (sad : Option Value) (label kind : Option Str) (ignore : Option (List Str)) (code : Option Str)
    (raw qb64b : Option Bytes) (qb64 : Option Str) (qb2 : Option Bytes) : Res M :=
  if raw.isSome ∨ sad.isSome then do
    let label := label.getD (str% "d")
    let p ← (match code, raw with
      | some c, some r => do
        validateCode c
        .ok (c, r)
      | _, _ => do
        let c ← deriveCode sad label code
        validateCode c
        let d ← derive H (sad.getD (.obj [])) (some c) kind (some label) ignore
        .ok (c, d.1) : Res (Str × Bytes))
    Matter.new (some p.1) (some p.2) none none none
  else do
    let m ← Matter.new code raw qb64b qb64 qb2
    validateCode m.code
    .ok m

/-- `saidify` (saider.rs:167-188). -/
def saidify (H : Hash) (chk : Bool) (sad : Value) (code kind label : Option Str) (ignore : Option (List Str)) :
    Res (M × Value) := do
  let code := code.getD (str% "E")
  let label := label.getD (str% "d")
  let map ← sad.toMap
  if !Value.hasKey label map then .err .validation
  else
    let d ← derive H sad (some code) kind (some label) ignore
    let saider ← new H (some d.2) (some label) kind ignore (some code) none none none none
    let q ← qb64 chk saider
    let sad ← d.2.setIndex label (.str q)
    .ok (saider, sad)

/-- The comparisons at the end of `verify` (saider.rs:222-240). -/
def verifyCompare (chk : Bool) (m saider : M) (sad dsad : Value) (prefixed versioned : Bool) (label : Str) : Res Bool := do
  let a ← qb64 chk m
  let b ← qb64 chk saider
  if a ≠ b then .ok false
  else
    let same ← (if versioned then do
        let map ← sad.toMap
        if Value.hasKey (str% "v") map then do
          let v ← sad.index (str% "v")
          let v ← v.toStr
          let w ← dsad.index (str% "v")
          let w ← w.toStr
          .ok (decide (v = w))
        else .ok true
      else .ok true : Res Bool)
    if !same then .ok false
    else
      if prefixed then do
        let x ← sad.index label
        let x ← x.toStr
        let q ← qb64 chk m
        .ok (decide (x = q))
      else .ok true

/-- `verify` (saider.rs:191-241): errors of `derive` and of the constructor are answered with `false`. -/
def verify (H : Hash) (chk : Bool) (m : M) (sad : Value) (prefixed versioned : Option Bool) (kind label : Option Str)
    (ignore : Option (List Str)) : Res Bool :=
  let label := label.getD (str% "d")
  let prefixed := prefixed.getD false
  let versioned := versioned.getD true
  match derive H sad (some m.code) kind (some label) ignore with
  | .panic => .panic
  | .err _ => .ok false
  | .ok d =>
    match new H none none none none (some m.code) (some d.1) none none none with
    | .panic => .panic
    | .err _ => .ok false
    | .ok saider => verifyCompare chk m saider sad d.2 prefixed versioned label

/-- `new_with_sad` (saider.rs:243-251). -/
def newWithSad (H : Hash) (sad : Value) (label kind : Option Str) (ignore : Option (List Str)) (code : Option Str) : Res M :=
  new H (some sad) label kind ignore code none none none none

/-- `new_with_raw`, `new_with_qb64b`, `new_with_qb64`, `new_with_qb2` (saider.rs:253-267). -/
def newWithRaw (H : Hash) (raw : Bytes) (code : Option Str) : Res M := new H none none none none code (some raw) none none none
def newWithQb64b (H : Hash) (b : Bytes) : Res M := new H none none none none none none (some b) none none
def newWithQb64 (H : Hash) (s : Str) : Res M := new H none none none none none none none (some s) none
def newWithQb2 (H : Hash) (b : Bytes) : Res M := new H none none none none none none none none (some b)

end Saider

end Keride
