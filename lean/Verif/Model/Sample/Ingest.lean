/-
Model of /repo/sample/keri/parsing.rs.
-/
import Verif.Model.Sample.Acdc

namespace Keride.Sample

open Matter

/-- `store.insert_…(…)?`: the store may refuse. -/
def tryInsert (E : Env) (st : Store) (text : Str) (st' : Store) : Store × Res Unit :=
  if E.refuses st text then (st, .err .storage) else (st', .ok ())

/-- What the loop body decides about one message and its group: insert a key event, a transaction event or a credential,
or nothing; and the set `verifying`. -/
inductive Action where
  | keyEvent (pre text : Str)
  | transactionEvent (pre text : Str)
  | acdc (text : Str)
  | nothing

/-- `if verify.unwrap_or(true) && !verifying.contains(&said) { … } else { seen_said(store, &said) }` (parsing.rs:49-62, 77-90,
116-128) with `seen_said` (parsing.rs:13-15). -/
def verifyOrSeen (E : Env) (st : Store) (verify : Option Bool) (said : Str) (verifying : List Str)
    (f : List Str → Res (Bool × List Str)) : Res (Bool × List Str) :=
  if verify.getD true && !verifying.contains said then f (said :: verifying) else .ok (E.seen st said, verifying)

/-- The text stored (parsing.rs:65-69, 93-97, 131-132): the event and its attachments. -/
def storedText (raw : Bytes) (group : Res Str) : Res Str := do
  let event ← fromUtf8 raw
  let g ← group
  .ok (event ++ g)

/-- The loop body for a message with the protocol `KERI` (parsing.rs:38-106). -/
def ingestSerder (E : Env) (st : Store) (fuel : Nat) (deep verify : Option Bool) (raw : Bytes) (next : Option Msg)
    (verifying : List Str) : Res (Action × List Str) := do
  let serder ← Serder.newWithRaw E.fl raw
  let said ← Sadder.said E.chk serder
  match next with
  | none => .err .decoding
  | some m => do
    let g ← m.cesrGroup
    let t ← serder.ked.index (str% "t")
    let ilk ← t.toStr
    if ilk = str% "icp" ∨ ilk = str% "rot" ∨ ilk = str% "ixn" then
      match g.1 with
      | .quadlets l => do
        let r ← verifyOrSeen E st verify said verifying (verifyKeyEvent E st deep fuel serder l)
        if r.1 then .ok (.nothing, r.2)
        else do
          let pre ← Serder.pre serder
          let text ← storedText serder.raw g.2
          .ok (.keyEvent pre text, r.2)
      | _ => .err .decoding
    else if ilk = str% "vcp" ∨ ilk = str% "iss" ∨ ilk = str% "rev" then
      match g.1 with
      | .couples l => do
        let r ← verifyOrSeen E st verify said verifying (verifyTransactionEvent E st deep fuel serder l)
        if r.1 then .ok (.nothing, r.2)
        else do
          let pre ← Serder.pre serder
          let text ← storedText serder.raw g.2
          .ok (.transactionEvent pre text, r.2)
      | _ => .err .decoding
    else .err .decoding

/-- The loop body for a message with the protocol `ACDC` (parsing.rs:107-139). -/
def ingestCreder (E : Env) (st : Store) (fuel : Nat) (deep verify : Option Bool) (raw : Bytes) (next : Option Msg)
    (verifying : List Str) : Res (Action × List Str) := do
  let creder ← Creder.newWithRaw E.fl raw
  let said ← Sadder.said E.chk creder
  match next with
  | none => .err .decoding
  | some m => do
    let g ← m.cesrGroup
    match g.1 with
    | .quadlets l => do
      let r ← verifyOrSeen E st verify said verifying (verifyAcdc E st deep fuel creder l)
      if r.1 then .ok (.nothing, r.2)
      else do
        let text ← storedText creder.raw g.2
        .ok (.acdc text, r.2)
    | _ => .err .decoding

/-- The loop body (parsing.rs:31-142). -/
def ingestOne (E : Env) (st : Store) (fuel : Nat) (deep verify : Option Bool) (m : Msg) (next : Option Msg)
    (verifying : List Str) : Res (Action × List Str) := do
  let text ← m.payloadText
  let raw := toUtf8 text
  let r ← sniff raw
  if r.ident = str% "KERI" then ingestSerder E st fuel deep verify raw next verifying
  else if r.ident = str% "ACDC" then ingestCreder E st fuel deep verify raw next verifying
  else .err .decoding

/-- Carry out an insertion. -/
def perform (E : Env) (st : Store) : Action → Store × Res Unit
  | .keyEvent pre text => tryInsert E st text (st.insertKeyEvent pre text)
  | .transactionEvent pre text => tryInsert E st text (st.insertTransactionEvent pre text)
  | .acdc text => tryInsert E st text (st.insertAcdc text)
  | .nothing => (st, .ok ())

/-- The loop (parsing.rs:28-146): a message and its group are taken from the list. The store with what was inserted so
far, and the outcome. -/
def ingestLoop (E : Env) (fuel : Nat) (deep verify : Option Bool) : Store → List Msg → List Str → Store × Res Unit
  | st, [], _ => (st, .ok ())
  | st, [m], verifying =>
    match ingestOne E st fuel deep verify m none verifying with
    | .ok _ => (st, .ok ())
    | .err e => (st, .err e)
    | .panic => (st, .panic)
  | st, m :: g :: rest, verifying =>
    match ingestOne E st fuel deep verify m (some g) verifying with
    | .err e => (st, .err e)
    | .panic => (st, .panic)
    | .ok (a, v) =>
      match perform E st a with
      | (st, .ok ()) => ingestLoop E fuel deep verify st rest v
      | (st, r) => (st, r)

/-- `ingest_messages` (parsing.rs:17-149). -/
def ingest (E : Env) (fuel : Nat) (st : Store) (messages : Str) (deep verify : Option Bool) : Store × Res Unit :=
  match E.parse (toUtf8 messages) with
  | .ok msgs => ingestLoop E fuel deep verify st msgs []
  | .err e => (st, .err e)
  | .panic => (st, .panic)

end Keride.Sample
