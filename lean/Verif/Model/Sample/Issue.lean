/-
Model of /repo/sample/keri/acdc/tel/management.rs, /repo/sample/keri/acdc/tel/vc.rs, /repo/sample/keri/acdc/event.rs,
/repo/sample/keri/acdc/mod.rs, of the functions `incept_partial` and `rotate_partial` of /repo/sample/keri/kmi/mod.rs and of `receipt` of
/repo/sample/keri/kmi/message.rs. `now` stands for the text of the clock.
-/
import Verif.Model.Sample.Keys

namespace Keride.Sample

open Matter

/-- `incept` (acdc/tel/management.rs:8-31): the event of a registry. The code returns its identifier and its text; here the
identifier and the event. -/
def registryIncept (E : Env) (issuer : Str) : Res (Str × Sad) := do
  let vs ← versify none (some currentVersion) (some (str% "JSON")) (some 0)
  let ted : List (Str × Value) :=
    [(str% "v", .str vs), (str% "t", .str (str% "vcp")), (str% "d", .str []), (str% "i", .str []), (str% "ii", .str issuer), (str% "s", .str (str% "0")),
     (str% "c", .arr [.str (str% "NB")]), (str% "bt", .str (str% "0")), (str% "b", .arr [])]
  let prefixer ← Prefixer.newWithKed E.H (.obj ted) none (some (str% "E"))
  let q ← qb64 E.chk prefixer
  let ted := Value.insert (str% "d") (.str q) (Value.insert (str% "i") (.str q) ted)
  let serder ← Serder.newWithKed E.fl (.obj ted) none none
  .ok (q, serder)

/-- The nonce of an issuance or revocation (acdc/tel/vc.rs:11, 32): a seed derived from a random salt. -/
def nonceText (E : Env) (S : Stretch) (rnd : Nat) : Res Str := do
  let salter ← Salter.new S rnd none none none none none none
  let s ← Salter.signer E.C S salter none (some false) none none none
  qb64 E.chk s.m

/-- `issue` (acdc/tel/vc.rs:8-27): SAID and event. -/
def vcIssue (E : Env) (S : Stretch) (rnd : Nat) (now said ri : Str) : Res (Str × Sad) := do
  let vs ← versify none (some currentVersion) (some (str% "JSON")) (some 0)
  let nonce ← nonceText E S rnd
  let ted : Value := .obj
    [(str% "v", .str vs), (str% "t", .str (str% "iss")), (str% "d", .str []), (str% "i", .str said), (str% "s", .str (str% "0")), (str% "ri", .str ri),
     (str% "dt", .str now), (str% "n", .str nonce)]
  let r ← Saider.saidify E.H E.chk ted none none none none
  let serder ← Serder.newWithKed E.fl r.2 none none
  let q ← Sadder.said E.chk serder
  .ok (q, serder)

/-- `revoke` (acdc/tel/vc.rs:29-49): SAID and event. -/
def vcRevoke (E : Env) (S : Stretch) (rnd : Nat) (now said ri prior : Str) : Res (Str × Sad) := do
  let vs ← versify none (some currentVersion) (some (str% "JSON")) (some 0)
  let nonce ← nonceText E S rnd
  let ted : Value := .obj
    [(str% "v", .str vs), (str% "t", .str (str% "rev")), (str% "d", .str []), (str% "i", .str said), (str% "s", .str (str% "1")), (str% "ri", .str ri),
     (str% "p", .str prior), (str% "dt", .str now), (str% "n", .str nonce)]
  let r ← Saider.saidify E.H E.chk ted none none none none
  let serder ← Serder.newWithKed E.fl r.2 none none
  let q ← Sadder.said E.chk serder
  .ok (q, serder)

/-- The text of `u` (acdc/event.rs:38-50): the salt given, or a random one. -/
def blinding (E : Env) (S : Stretch) (rnd : Nat) (salt : Option Str) : Res Str :=
  match salt with
  | some s => .ok s
  | none => do
    let m ← Salter.new S rnd (some (str% "low")) none none none none none
    qb64 E.chk m.m

/-- `create` (acdc/event.rs:10-90): a credential. -/
def createAcdc (E : Env) (S : Stretch) (rnd : Nat → Nat) (now schema issuer : Str) (data : Value) (recipient : Option Str) (priv : Option Bool)
    (salt status : Option Str) (source rules : Option Value) (version : Option Version) (kind : Option Str) : Res Sad := do
  let kind := kind.getD (str% "JSON")
  let vs ← versify (some (str% "ACDC")) (some (version.getD currentVersion)) (some kind) (some 0)
  let blinds ← (if priv.getD false then do
      let a ← blinding E S (rnd 0) salt
      let b ← blinding E S (rnd 1) salt
      .ok (some (a, b))
    else .ok none : Res (Option (Str × Str)))
  let vc : List (Str × Value) := [(str% "v", .str vs), (str% "d", .str [])]
  let subject : List (Str × Value) := [(str% "d", .str [])]
  let vc := match blinds with
    | some b => Value.insert (str% "u") (.str b.1) vc
    | none => vc
  let subject := match blinds with
    | some b => Value.insert (str% "u") (.str b.2) subject
    | none => subject
  let subject := match recipient with
    | some r => Value.insert (str% "i") (.str r) subject
    | none => subject
  let map ← data.toMap
  let subject := Value.insert (str% "dt") ((Value.find (str% "dt") map).getD (.str now)) subject
  let subject := map.foldl (fun s e => Value.insert e.1 e.2 s) subject
  let vc := Value.insert (str% "i") (.str issuer) vc
  let vc := match status with
    | some s => Value.insert (str% "ri") (.str s) vc
    | none => vc
  let vc := Value.insert (str% "s") (.str schema) vc
  let vc := Value.insert (str% "a") (.obj []) vc
  let vc := match source with
    | some s => Value.insert (str% "e") s vc
    | none => vc
  let vc := match rules with
    | some r => Value.insert (str% "r") r vc
    | none => vc
  let a ← Saider.saidify E.H E.chk (.obj subject) none (some kind) (some (str% "d")) none
  let vc := Value.insert (str% "a") a.2 vc
  let r ← Saider.saidify E.H E.chk (.obj vc) none none none none
  Creder.newWithKed E.fl r.2 none none

/-- `get_latest_key_event_said` (mod.rs:170): the SAID of the last key event. -/
def Store.latestSaid (E : Env) (st : Store) (pre : Str) : Res Str := do
  let t ← Res.ofOption .storage (st.kels pre).getLast?
  let s ← Serder.newWithRaw E.fl (toUtf8 t)
  Sadder.said E.chk s

/-- `get_latest_establishment_event_said` (mod.rs:171): SAID and sequence number of the last establishment event. -/
def Store.latestEstSaid (E : Env) (st : Store) (pre : Str) : Res (Str × Nat) := do
  let t ← st.getLatestEst E.fl pre (st.kels pre).length
  let s ← Serder.newWithRaw E.fl (toUtf8 t)
  let q ← Sadder.said E.chk s
  let n ← Serder.sn s
  .ok (q, n)

/-- The text of the couple naming the anchor (acdc/mod.rs:124-126, 161-163). -/
def coupleText (E : Env) (sn : Nat) (said : Str) : Res Str := do
  let c ← Messaging.counterText (str% "-G") 1
  let n ← Seqner.newWithSn sn
  let n ← qb64 E.chk n
  .ok (c ++ n ++ said)

/-- The seal of a transaction event (acdc/mod.rs:111-115, 152-156). -/
def sealOf (i s d : Str) : Value := .arr [.obj [(str% "i", .str i), (str% "s", .str s), (str% "d", .str d)]]

/-- An optional JSON argument (acdc/mod.rs:31-92). -/
def readOption (E : Env) : Option Str → Res (Option Value)
  | some t => do
    let v ← jsonRead E.fl t
    .ok (some v)
  | none => .ok none

/-- `issue_acdc` (acdc/mod.rs:17-134): the SAID of the credential, the messages of the anchoring event, of the issuance and of
the credential. `keys` is what `get_current_keys` returns. -/
def issueAcdc (E : Env) (S : Stretch) (rnd : Nat → Nat) (now : Str) (st : Store) (keys : KeySet) (status issuer schema data : Str)
    (recipient : Option Str) (priv : Option Bool) (source rules : Option Str) : Res (Str × Str × Str × Str) := do
  let data ← jsonRead E.fl data
  let source ← readOption E source
  let rules ← readOption E rules
  let acdc ← createAcdc E S rnd now schema issuer data recipient priv none (some status) source rules none none
  let acdcSaid ← Sadder.said E.chk acdc
  let iss ← vcIssue E S (rnd 2) now acdcSaid status
  let issText ← fromUtf8 iss.2.raw
  let sn := (st.kels issuer).length
  let dig ← st.latestSaid E issuer
  let _ ← keys.verfersQb64 E
  let sigers ← keys.sign E (rnd 3) acdc.raw none
  let ixn ← kmiInteract E (rnd 4) keys issuer dig sn (sealOf acdcSaid (str% "0") iss.1)
  let couple ← coupleText E sn ixn.1
  let est ← st.latestEstSaid E issuer
  let seqner ← Seqner.newWithSn est.2
  let proof ← ratifyCreder E.chk issuer seqner est.1 sigers
  let signed ← messagizeCreder acdc proof
  .ok (acdcSaid, ixn.2, issText ++ couple, signed)

/-- `revoke_acdc` (acdc/mod.rs:136-166): the messages of the anchoring event and of the revocation. -/
def revokeAcdc (E : Env) (S : Stretch) (rnd : Nat → Nat) (now : Str) (st : Store) (keys : KeySet) (status issuer said : Str) : Res (Str × Str) := do
  let priors := st.tels said
  if priors.length ≠ 1 then .err .value
  else do
    let prior ← Res.orPanic priors.head?
    let serder ← Serder.newWithRaw E.fl (toUtf8 prior)
    let psaid ← Sadder.said E.chk serder
    let rev ← vcRevoke E S (rnd 0) now said status psaid
    let revText ← fromUtf8 rev.2.raw
    let sn := (st.kels issuer).length
    let dig ← st.latestSaid E issuer
    let ixn ← kmiInteract E (rnd 1) keys issuer dig sn (sealOf said (str% "1") rev.1)
    let couple ← coupleText E sn ixn.1
    .ok (ixn.2, revText ++ couple)

/-- `count` times the weight `1/count` (kmi/mod.rs:79-83, 89-93, 260-263, 269-273). -/
def evenWeights (count : Nat) : List Value := List.replicate count (.str (str% "1/" ++ fmtNat 10 count))

/-- `incept_partial` (kmi/mod.rs:32-117), outside of tests: identifier, keys, message. -/
def kmiInceptPartial (E : Env) (S : Stretch) (rnd : Nat → Nat) (code : Option Str) (scount rcount : Option Nat) (transferable : Option Bool) (pcode tier : Option Str)
    (salt : Option Bytes) (nextKeys : Option (List Str)) (nextSith : Option Str) : Res (Str × KeySet × Str) := do
  let scount := scount.getD 2
  let ckeys ← KeySet.generate E S (rnd 0) code (some scount) 0 transferable (str% "0") tier none
  let keys ← ckeys.verfersQb64 E
  let next ← (match nextKeys with
    | some l => .ok (l, l.length)
    | none =>
      match salt with
      | some salt =>
        if transferable.getD false then do
          let nkeys ← KeySet.generateFromSalt E S salt code (some (rcount.getD 3)) 0 transferable (str% "1") tier none
          let d ← nkeys.digersQb64 E
          .ok (d, rcount.getD 3)
        else .ok ([], rcount.getD 3)
      | none => .err .programmer : Res (List Str × Nat))
  let nsith ← (match nextSith with
    | some t => jsonRead E.fl t
    | none => .ok (.arr [.arr (evenWeights next.2)]) : Res Value)
  let serder ← incept E keys (some (.arr [.arr (evenWeights scount)])) (some next.1) (some nsith) (some 0) none none none none none pcode none none
  let event ← signedMessage E (rnd 1) ckeys serder
  let pre ← Serder.pre serder
  .ok (pre, ckeys, event)

/-- The keys of a partial rotation (kmi/mod.rs:196-250): the current keys, the next digests, their numbers, and the key set when
made from salts. -/
def partialKeys (E : Env) (S : Stretch) (keySn : Nat) (code : Option Str) (rcount : Nat) (tier : Option Str) (salt nextSalt : Option Bytes)
    (current next : Option (List Str)) (nextSith : Option Str) : Res (List Str × List Str × Nat × Nat × Option KeySet) :=
  match salt with
  | some salt =>
    if current.isSome ∨ next.isSome ∨ nextSith.isSome then .err .value
    else
      match nextSalt with
      | none => .err .value
      | some nextSalt => do
        let ckeys ← KeySet.generateFromSalt E S salt code (some rcount) 0 (some true) (fmtNat 10 keySn) tier none
        let k ← u128 E.chk ((keySn : Int) + 1)
        let rkeys ← KeySet.generateFromSalt E S nextSalt code (some rcount) 0 (some true) (fmtNat 10 k) tier none
        let a ← ckeys.verfersQb64 E
        let b ← rkeys.digersQb64 E
        .ok (a, b, rcount, rcount, some ckeys)
  | none =>
    match current, next, nextSith with
    | some a, some b, some _ => if nextSalt.isSome then .err .value else .ok (a, b, a.length, b.length, none)
    | _, _, _ => .err .value

/-- `rotate_partial` (kmi/mod.rs:177-309), outside of tests: SAID, signing keys, message. -/
def kmiRotatePartial (E : Env) (S : Stretch) (rnd : Nat → Nat) (pre dig : Str) (sn keySn : Nat) (code : Option Str) (scount rcount : Option Nat) (tier : Option Str)
    (salt nextSalt : Option Bytes) (current next : Option (List Str)) (nextSith : Option Str) : Res (Str × KeySet × Str) := do
  let scount := scount.getD 2
  let p ← partialKeys E S keySn code (rcount.getD 3) tier salt nextSalt current next nextSith
  let skeys ← KeySet.generate E S (rnd 0) code (some scount) p.2.2.1 (some true) (fmtNat 10 keySn) tier none
  let more ← skeys.verfersQb64 E
  let sith : Value := .arr [.arr (List.replicate p.2.2.1 (.str (str% "0")) ++ evenWeights scount)]
  let nsith ← (match nextSith with
    | some t => jsonRead E.fl t
    | none => .ok (.arr [.arr (evenWeights p.2.2.2.1)]) : Res Value)
  let serder ← rotate E pre (p.1 ++ more) dig none sn (some sith) (some p.2.1) (some nsith) (some 0) none none none none none none none
  if nextSith.isSome then do
    let said ← Sadder.said E.chk serder
    let t ← fromUtf8 serder.raw
    .ok (said, skeys, t)
  else
    match p.2.2.2.2 with
    | none => .err .programmer
    | some ckeys => do
      let a ← ckeys.sign E (rnd 1) serder.raw none
      let b ← skeys.sign E (rnd 2) serder.raw none
      let e ← endorseSerder E.chk (some (a ++ b)) none none none
      let event ← messagizeSerder serder e (some true)
      let said ← Sadder.said E.chk serder
      .ok (said, skeys, event)

/-- `receipt` (kmi/message.rs:34-58). -/
def kmiReceipt (E : Env) (pre : Str) (sn : Nat) (said : Str) (version : Option Version) (kind : Option Str) : Res Sad := do
  let vs ← versify none (some (version.getD currentVersion)) (some (kind.getD (str% "JSON"))) (some 0)
  let sner ← Number.newWithNum sn
  let h ← Number.numh sner
  Serder.newWithKed E.fl
    (.obj [(str% "v", .str vs), (str% "t", .str (str% "rct")), (str% "d", .str said), (str% "i", .str pre), (str% "s", .str h)]) none none

end Keride.Sample
