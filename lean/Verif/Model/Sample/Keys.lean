/-
Model of the type `KeySet` of /repo/sample/keri/mod.rs, of /repo/sample/keri/kmi/endorsement.rs,
/repo/sample/keri/kmi/message.rs, /repo/sample/keri/acdc/endorsement.rs, /repo/sample/keri/acdc/message.rs, and of the functions of
/repo/sample/keri/kmi/mod.rs.
-/
import Verif.Model.Sample.Event
import Verif.Model.Salter
import Verif.Model.Pather

namespace Keride.Sample

open Matter

/-- `KeySet` (mod.rs:13-17): the texts of the seeds. -/
structure KeySet where
  keys : List Str
  offset : Nat
  transferable : Bool

namespace KeySet

/-- `KeySet::generate` (mod.rs:20-37). The signers are made with `Some(true)`; only their seeds are kept. -/
def generate (E : Env) (S : Stretch) (rnd : Nat) (code : Option Str) (count : Option Nat) (offset : Nat) (transferable : Option Bool) (path : Str)
    (tier : Option Str) (temp : Option Bool) : Res KeySet := do
  let salter ← Salter.new S rnd tier none none none none none
  let signers ← Salter.signers E.C S salter count none (some path) code (some true) none temp
  let keys ← Res.mapList (fun s : Signer => qb64 E.chk s.m) signers
  .ok ⟨keys, offset, transferable.getD false⟩

/-- `KeySet::generate_from_salt` (mod.rs:40-60). -/
def generateFromSalt (E : Env) (S : Stretch) (salt : Bytes) (code : Option Str) (count : Option Nat) (offset : Nat) (transferable : Option Bool)
    (path : Str) (tier : Option Str) (temp : Option Bool) : Res KeySet := do
  let salter ← Salter.new S 0 tier none (some salt) none none none
  let signers ← Salter.signers E.C S salter count none (some path) code (some (transferable.getD false)) none temp
  let keys ← Res.mapList (fun s : Signer => qb64 E.chk s.m) signers
  .ok ⟨keys, offset, transferable.getD false⟩

/-- `signers` (mod.rs:66-73). -/
def signers (E : Env) (k : KeySet) : Res (List Signer) := Res.mapList (fun s => Signer.newWithQb64 E.C s (some k.transferable)) k.keys

/-- `verfers` (mod.rs:75-83). -/
def verfers (E : Env) (k : KeySet) : Res (List M) := do
  let l ← signers E k
  .ok (l.map fun s => s.verfer)

/-- `verfers_qb64` (mod.rs:85-93). -/
def verfersQb64 (E : Env) (k : KeySet) : Res (List Str) := do
  let l ← verfers E k
  Res.mapList (fun v => qb64 E.chk v) l

/-- `digers_qb64` (mod.rs:95-113) with `digers`. -/
def digersQb64 (E : Env) (k : KeySet) : Res (List Str) := do
  let l ← verfers E k
  let ds ← Res.mapList (fun v => do
    let q ← qb64b E.chk v
    Diger.newWithSer E.H q none) l
  Res.mapList (fun d => qb64 E.chk d) ds

/-- The first digest a key matches (mod.rs:124-132). -/
def matching (E : Env) (v : M) : Nat → List M → Res (Option Nat)
  | _, [] => .ok none
  | i, d :: ds => do
    let q ← qb64b E.chk v
    let good ← Diger.verify E.H d q
    if good then .ok (some i) else matching E v (i + 1) ds

/-- The loop of `sign` (mod.rs:123-139): the signatures and the number of digests matched. -/
def signLoop (E : Env) (rnd : Nat) (ser : Bytes) (digers : Option (List M)) : Nat → List Signer → Res (List Siger × Nat)
  | _, [] => .ok ([], 0)
  | index, s :: l => do
    let ondex ← (match digers with
      | some ds => matching E s.verfer 0 ds
      | none => .ok none : Res (Option Nat))
    let siger ← Signer.signIndexed E.C E.chk rnd s ser false index (ondex.map fun i => i % 2 ^ 32)
    let next ← addU32 E.chk index 1
    let r ← signLoop E rnd ser digers next l
    .ok (siger :: r.1, r.2 + if ondex.isSome then 1 else 0)

/-- `sign` (mod.rs:117-146). -/
def sign (E : Env) (rnd : Nat) (k : KeySet) (ser : Bytes) (digers : Option (List M)) : Res (List Siger) := do
  let l ← signers E k
  let r ← signLoop E rnd ser digers (k.offset % 2 ^ 32) l
  if digers.isSome ∧ k.keys.length ≠ r.2 then .err .validation else .ok r.1

end KeySet

/-- `Seal` (kmi/endorsement.rs:4-23). -/
structure Seal where
  value : Value
  last : Bool

/-- The part naming the signer (kmi/endorsement.rs:38-50). -/
def sealPart (chk : Bool) : Option Seal → Res Str
  | none => .ok []
  | some sl =>
    if sl.last then do
      let c ← Messaging.counterText (str% "-H") 1
      let i ← sl.value.index (str% "i")
      let i ← i.toStr
      .ok (c ++ i)
    else do
      let c ← Messaging.counterText (str% "-F") 1
      let i ← sl.value.index (str% "i")
      let i ← i.toStr
      let s ← sl.value.index (str% "s")
      let s ← s.toStr
      let n ← Seqner.newWithSnh s
      let n ← qb64 chk n
      let d ← sl.value.index (str% "d")
      let d ← d.toStr
      .ok (c ++ i ++ n ++ d)

/-- The texts of witness signatures, each by a non-transferable key (kmi/endorsement.rs:66-72). -/
def wigerTexts (chk : Bool) : List Siger → Res Str
  | [] => .ok []
  | w :: l =>
    if Matter.transferable w.verfer then .err .encoding
    else do
      let t ← Indexer.qb64 chk w.i
      let r ← wigerTexts chk l
      .ok (t ++ r)

/-- The texts of unindexed signatures, each by a non-transferable key (kmi/endorsement.rs:81-87). The key is left out. -/
def cigarTexts (chk : Bool) : List Cigar → Res Str
  | [] => .ok []
  | c :: l =>
    if Matter.transferable c.verfer then .err .encoding
    else do
      let t ← qb64 chk c.m
      let r ← cigarTexts chk l
      .ok (t ++ r)

/-- `endorse_serder` (kmi/endorsement.rs:25-91). -/
def endorseSerder (chk : Bool) (sigers : Option (List Siger)) (sl : Option Seal) (wigers : Option (List Siger)) (cigars : Option (List Cigar)) : Res Str :=
  if sigers.isNone ∧ wigers.isNone ∧ cigars.isNone then .err .value
  else do
    let a ← (match sigers with
      | some l => do
        let h ← sealPart chk sl
        let c ← Messaging.counterText (str% "-A") l.length
        let t ← Messaging.sigTexts chk l
        .ok (h ++ c ++ t)
      | none => .ok [] : Res Str)
    let b ← (match wigers with
      | some l => do
        let c ← Messaging.counterText (str% "-B") l.length
        let t ← wigerTexts chk l
        .ok (c ++ t)
      | none => .ok [] : Res Str)
    let d ← (match cigars with
      | some l => do
        let c ← Messaging.counterText (str% "-C") l.length
        let t ← cigarTexts chk l
        .ok (c ++ t)
      | none => .ok [] : Res Str)
    .ok (a ++ b ++ d)

/-- `messagize_serder` (kmi/message.rs:9-31). -/
def messagizeSerder (serder : Sad) (endorsement : Str) (pipelined : Option Bool) : Res Str := do
  let message ← fromUtf8 serder.raw
  let glue ← (if pipelined.getD false then
      if endorsement.len % 4 ≠ 0 then .err .value else Messaging.counterText (str% "-V") (endorsement.len / 4)
    else .ok [] : Res Str)
  .ok (message ++ glue ++ endorsement)

/-- `ratify_creder` (acdc/endorsement.rs:4-32). -/
def ratifyCreder (chk : Bool) (pre : Str) (seqner : M) (said : Str) (sigers : List Siger) : Res Str := do
  let a ← Counter.newWithCodeAndCount (str% "-J") 1
  let pather ← Pather.newWithPath (.arr [])
  let a ← Counter.qb64 a
  let p ← qb64 chk pather
  let b ← Messaging.counterText (str% "-F") 1
  let n ← qb64 chk seqner
  let c ← Messaging.counterText (str% "-A") sigers.length
  let t ← Messaging.sigTexts chk sigers
  .ok (a ++ p ++ b ++ pre ++ n ++ said ++ c ++ t)

/-- `messagize_creder` (acdc/message.rs:4-18): `as u32` before the division. -/
def messagizeCreder (creder : Sad) (proof : Str) : Res Str := do
  let message ← fromUtf8 creder.raw
  if proof.len % 4 ≠ 0 then .err .value
  else do
    let c ← Messaging.counterText (str% "-V") (proof.len % 2 ^ 32 / 4)
    .ok (message ++ c ++ proof)

/-- Sign an event with a set of keys, and put the message together (kmi/mod.rs:112-114, 164-166, 354-356, 369-371). -/
def signedMessage (E : Env) (rnd : Nat) (keys : KeySet) (serder : Sad) : Res Str := do
  let sigers ← keys.sign E rnd serder.raw none
  let e ← endorseSerder E.chk (some sigers) none none none
  messagizeSerder serder e (some true)

/-- `incept` (kmi/mod.rs:120-174), outside of tests: identifier, key sets, message. `rnd` stands for the system's randomness. -/
def kmiIncept (E : Env) (S : Stretch) (rnd : Nat → Nat) (code : Option Str) (count : Option Nat) (sith : Option Value) (ncode : Option Str) (ncount : Option Nat)
    (nsith : Option Value) (wcount : Option Nat) (transferable : Option Bool) (pcode tier : Option Str) : Res (Str × List KeySet × Str) := do
  let ckeys ← KeySet.generate E S (rnd 0) code count 0 transferable (str% "0") tier none
  let keys ← ckeys.verfersQb64 E
  let next ← (if transferable.getD false then do
      let nkeys ← KeySet.generate E S (rnd 1) ncode ncount 0 transferable (str% "0") tier none
      let d ← nkeys.digersQb64 E
      .ok (d, [nkeys])
    else .ok ([], []) : Res (List Str × List KeySet))
  let serder ← incept E keys sith (some next.1) nsith wcount none none none none none pcode none none
  let event ← signedMessage E (rnd 2) ckeys serder
  let pre ← Serder.pre serder
  .ok (pre, ckeys :: next.2, event)

/-- `rotate` (kmi/mod.rs:312-359), outside of tests: SAID, next keys, message. -/
def kmiRotate (E : Env) (S : Stretch) (rnd : Nat → Nat) (pre : Str) (ckeys : KeySet) (dig : Str) (sn : Nat) (sith : Option Value) (ncode : Option Str)
    (ncount : Option Nat) (nsith : Option Value) (wcount : Option Nat) (tier : Option Str) : Res (Str × KeySet × Str) := do
  let nkeys ← KeySet.generate E S (rnd 0) ncode ncount 0 (some true) (fmtNat 10 sn) tier none
  let ndigs ← nkeys.digersQb64 E
  let keys ← ckeys.verfersQb64 E
  let serder ← rotate E pre keys dig none sn sith (some ndigs) nsith wcount none none none none none none none
  let event ← signedMessage E (rnd 1) ckeys serder
  let said ← Sadder.said E.chk serder
  .ok (said, nkeys, event)

/-- `interact` (kmi/mod.rs:361-374). -/
def kmiInteract (E : Env) (rnd : Nat) (keys : KeySet) (pre dig : Str) (sn : Nat) (data : Value) : Res (Str × Str) := do
  let serder ← interact E pre dig (some sn) (some data) none none
  let event ← signedMessage E rnd keys serder
  let said ← Sadder.said E.chk serder
  .ok (said, event)

end Keride.Sample
