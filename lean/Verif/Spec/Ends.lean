/-
What it means for verification to come to an end.

The functions of `Verif/Model/Sample` that call each other carry the depth `fuel` to which they may, and panic at depth nothing. Here they are once more, word for word but
for one thing: what happens at depth nothing is `z`, an error of one's choice (or a panic). A verification that ends does not get there, and so is the same whatever `z` is.
-/
import Verif.Model.Sample.Ingest

namespace Keride.Spec

open Sample Matter

/-- What happens at depth nothing. -/
def atBottom {α : Type} : Option Err → Res α
  | some e => .err e
  | none => .panic

section

variable (E : Env) (z : Option Err) (st : Store) (deep : Option Bool)

/-- As `verifyKeyEvent` (kmi/verification.rs:10-195). -/
def verifyKeyEventOr : Nat → Sad → List SigGroup → List Str → Res (Bool × List Str)
  | 0, _, _, _ => atBottom z
  | fuel + 1, serder, quadlets, verifying => do
    let c ← checkKeyEvent E st serder quadlets
    let v ← (match c.prior with
      | none => .ok verifying
      | some (event, p) =>
        if deep.getD false then do
          let q ← Sadder.said E.chk p
          if verifying.contains q then .ok verifying
          else do
            let g ← attachedQuadlets E event p
            let r ← verifyKeyEventOr fuel p g (q :: verifying)
            .ok r.2
        else .ok verifying : Res (List Str))
    confirm E st c
    .ok (c.existing, v)

/-- As `verifyAnchor` (verification.rs:28-86). -/
def verifyAnchorOr (fuel : Nat) (anchorPre : Str) (seqner saider : M) (serder : Sad) (verifying : List Str) : Res (Bool × List Str) := do
  let n ← Seqner.sn seqner
  let event ← st.getKeyEvent anchorPre (n % 2 ^ 32)
  let aserder ← Serder.newWithRaw E.fl (toUtf8 event)
  let asaid ← Sadder.said E.chk aserder
  let q ← qb64 E.chk saider
  if asaid ≠ q then .ok (false, verifying)
  else do
    let sl ← onlySeal aserder
    match sl with
    | none => .ok (false, verifying)
    | some (spre, ssn, sdig) => do
      let v ← (if deep.getD false then
          if verifying.contains asaid then .ok verifying
          else do
            let g ← attachedQuadlets E event aserder
            let r ← verifyKeyEventOr E z st deep fuel aserder g (asaid :: verifying)
            .ok r.2
        else .ok verifying : Res (List Str))
      let x ← serder.ked.index (str% "s")
      let x ← x.toStr
      if ssn ≠ x then .ok (false, v)
      else do
        let p ← Serder.pre serder
        if spre ≠ p then .ok (false, v)
        else do
          let d ← Sadder.said E.chk serder
          .ok (decide (sdig = d), v)

/-- As `verifyTransactionEvent` (tel/verification.rs:10-159). -/
def verifyTransactionEventOr : Nat → Sad → List (M × M) → List Str → Res (Bool × List Str)
  | 0, _, _, _ => atBottom z
  | fuel + 1, serder, couples, verifying => do
    let pre ← Serder.pre serder
    let prefixer ← Prefixer.newWithQb64 E.H pre
    let sn ← Serder.sn serder
    let t ← serder.ked.index (str% "t")
    let ilk ← t.toStr
    let said ← Sadder.said E.chk serder
    let ri ← registryOf ilk serder
    if couples.length ≠ 1 then .err .decoding
    else do
      let source ← Res.orPanic couples.head?
      let labels ← telLabels ilk
      let has ← verifyKedLabels serder.ked labels
      if !has then .err .validation
      else do
        let count := (st.tels pre).length
        let apre ← anchorOf E st serder prefixer ilk ri
        let a ← verifyAnchorOr E z st deep fuel apre source.1 source.2 serder verifying
        if !a.1 then .err .verification
        else do
          let r ← (if ilk = str% "vcp" ∨ ilk = str% "iss" then
              if sn ≠ 0 then .err .decoding else .ok (decide (count ≠ 0), a.2)
            else if sn < 1 then .err .validation
            else if count < sn then .err .outOfOrder
            else do
              let i ← subU32 E.chk (sn % 2 ^ 32) 1
              let event ← st.getTransactionEvent pre i
              let p ← Serder.newWithRaw E.fl (toUtf8 event)
              let psaid ← Sadder.said E.chk p
              let v ← (if deep.getD true then
                  if a.2.contains psaid then .ok a.2
                  else do
                    let g ← attachedCouples E event p
                    let r ← verifyTransactionEventOr fuel p g (psaid :: a.2)
                    .ok r.2
                else .ok a.2 : Res (List Str))
              let x ← serder.ked.index (str% "p")
              let x ← x.toStr
              if psaid ≠ x then .err .verification else .ok (decide (sn ≠ count), v) : Res (Bool × List Str))
          if r.1 then do
            let event ← st.getTransactionEvent pre (sn % 2 ^ 32)
            let s ← Serder.newWithRaw E.fl (toUtf8 event)
            let q ← Sadder.said E.chk s
            if said ≠ q then .err .programmer else .ok r
          else .ok r

/-- As `verifyPathSig` (acdc/verification.rs:92-149). -/
def verifyPathSigOr (fuel : Nat) (creder : Sad) (sig : SadPathSig) (verifying : List Str) : Res (List Str) := do
  let pre ← qb64 E.chk sig.prefixer
  let n ← Seqner.sn sig.seqner
  let event ← st.getKeyEvent pre (n % 2 ^ 32)
  let serder ← Serder.newWithRaw E.fl (toUtf8 event)
  let said ← Sadder.said E.chk serder
  let q ← qb64 E.chk sig.saider
  if said ≠ q then .err .verification
  else do
    let v ← (if deep.getD true then
        if verifying.contains said then .ok verifying
        else do
          let g ← attachedQuadlets E event serder
          let r ← verifyKeyEventOr E z st deep fuel serder g (said :: verifying)
          .ok r.2
      else .ok verifying : Res (List Str))
    let verfers ← Serder.verfers serder
    let verified ← verifySigers E.C verfers creder.raw (distinctSigers [] sig.sigers)
    let t ← Serder.tholder E.chk E.fl serder
    match t with
    | none => .err .verification
    | some t => do
      let good ← t.satisfy E.chk (verified.map Prod.fst)
      if !good then .err .verification else .ok v

/-- As `verifyPathSigs` (acdc/verification.rs:85-150). -/
def verifyPathSigsOr (fuel : Nat) (creder : Sad) : List SadPathSig → Bool → List Str → Res (Bool × List Str)
  | [], rooted, v => .ok (rooted, v)
  | sig :: l, rooted, v => do
    let b ← Bexter.bext sig.pather
    if b ≠ str% "-" then verifyPathSigsOr fuel creder l rooted v
    else do
      let v ← verifyPathSigOr E z st deep fuel creder sig v
      verifyPathSigsOr fuel creder l true v

/-- As `verifyProof` (acdc/verification.rs:82-154). -/
def verifyProofOr (fuel : Nat) (creder : Sad) : List SigGroup → Bool → List Str → Res (Bool × List Str)
  | [], rooted, v => .ok (rooted, v)
  | .sadPath l :: gs, rooted, v => do
    let r ← verifyPathSigsOr E z st deep fuel creder l rooted v
    verifyProofOr fuel creder gs r.1 r.2
  | _ :: _, _, _ => .err .decoding

/-- As `checkState` (acdc/verification.rs:40-74). -/
def checkStateOr (fuel : Nat) (vcid : Str) (verifying : List Str) : Res (List Str) := do
  let event ← st.getLatestTransactionEvent vcid
  let state ← Serder.newWithRaw E.fl (toUtf8 event)
  let x ← state.ked.index (str% "dt")
  let dt ← x.toStr
  let old ← E.expired dt
  if old then .err .validation
  else do
    let v ← (if deep.getD true then do
        let q ← Sadder.said E.chk state
        if verifying.contains q then .ok verifying
        else do
          let g ← attachedCouples E event state
          let r ← verifyTransactionEventOr E z st deep fuel state g (q :: verifying)
          .ok r.2
      else .ok verifying : Res (List Str))
    let t ← state.ked.index (str% "t")
    let t ← t.toStr
    if t = str% "rev" ∨ t = str% "brv" then .err .validation else .ok v

mutual

/-- As `verifyAcdc` (acdc/verification.rs:16-275). -/
def verifyAcdcOr : Nat → Sad → List SigGroup → List Str → Res (Bool × List Str)
  | 0, _, _, _ => atBottom z
  | fuel + 1, creder, quadlets, verifying => do
    let status ← Creder.status creder
    if status.isNone then .err .validation
    else do
      let vcid ← Sadder.said E.chk creder
      let schema ← Creder.schema creder
      let prov ← Creder.chains creder
      let saider ← Saider.newWithQb64 E.H vcid
      let good ← Saider.verify E.H E.chk saider creder.ked (some false) (some true) (some (str% "JSON")) none none
      if !good then .err .verification
      else do
        let v ← checkStateOr E z st deep fuel vcid verifying
        let text ← fromUtf8 creder.raw
        let fits ← E.schema schema text
        if !fits then .err .validation
        else do
          let r ← verifyProofOr E z st deep fuel creder quadlets false v
          if !r.1 then .err .verification
          else do
            let nodes ← edgeNodes prov
            let v ← verifyEdgesOr fuel creder nodes r.2
            match st.getAcdc E vcid with
            | .ok message => do
              let e ← Creder.newWithRaw E.fl (toUtf8 message)
              let q ← Sadder.said E.chk e
              if vcid ≠ q then .err .programmer else .ok (true, v)
            | _ => .ok (false, v)

/-- As `verifyEdges` (acdc/verification.rs:168-257). -/
def verifyEdgesOr : Nat → Sad → List (Res Value) → List Str → Res (List Str)
  | 0, _, _, _ => atBottom z
  | _ + 1, _, [], v => .ok v
  | fuel + 1, creder, node :: nodes, v => do
    let node ← node
    let e ← checkEdge E st creder node
    let v ← (if deep.getD true then
        if v.contains e.1 then .ok v
        else do
          let g ← attachedQuadlets E e.2.1 e.2.2
          let r ← verifyAcdcOr fuel e.2.2 g (e.1 :: v)
          .ok r.2
      else .ok v : Res (List Str))
    verifyEdgesOr fuel creder nodes v

end

/-- As `ingestSerder` (parsing.rs:38-106). -/
def ingestSerderOr (fuel : Nat) (verify : Option Bool) (raw : Bytes) (next : Option Msg) (verifying : List Str) : Res (Action × List Str) := do
  let serder ← Serder.newWithRaw E.fl raw
  let said ← Sadder.said E.chk serder
  match next with
  | none => .err .decoding
  | some m => do
    let g ← m.cesrGroup
    let t ← serder.ked.index (str% "t")
    let ilk ← t.toStr
    if ilk = str% "icp" ∨ ilk = str% "rot" ∨ ilk = str% "ixn" then
      match g.1 with
      | .quadlets l => do
        let r ← verifyOrSeen E st verify said verifying (verifyKeyEventOr E z st deep fuel serder l)
        if r.1 then .ok (.nothing, r.2)
        else do
          let pre ← Serder.pre serder
          let text ← storedText serder.raw g.2
          .ok (.keyEvent pre text, r.2)
      | _ => .err .decoding
    else if ilk = str% "vcp" ∨ ilk = str% "iss" ∨ ilk = str% "rev" then
      match g.1 with
      | .couples l => do
        let r ← verifyOrSeen E st verify said verifying (verifyTransactionEventOr E z st deep fuel serder l)
        if r.1 then .ok (.nothing, r.2)
        else do
          let pre ← Serder.pre serder
          let text ← storedText serder.raw g.2
          .ok (.transactionEvent pre text, r.2)
      | _ => .err .decoding
    else .err .decoding

/-- As `ingestCreder` (parsing.rs:107-139). -/
def ingestCrederOr (fuel : Nat) (verify : Option Bool) (raw : Bytes) (next : Option Msg) (verifying : List Str) : Res (Action × List Str) := do
  let creder ← Creder.newWithRaw E.fl raw
  let said ← Sadder.said E.chk creder
  match next with
  | none => .err .decoding
  | some m => do
    let g ← m.cesrGroup
    match g.1 with
    | .quadlets l => do
      let r ← verifyOrSeen E st verify said verifying (verifyAcdcOr E z st deep fuel creder l)
      if r.1 then .ok (.nothing, r.2)
      else do
        let text ← storedText creder.raw g.2
        .ok (.acdc text, r.2)
    | _ => .err .decoding

/-- As `ingestOne` (parsing.rs:31-142). -/
def ingestOneOr (fuel : Nat) (verify : Option Bool) (m : Msg) (next : Option Msg) (verifying : List Str) : Res (Action × List Str) := do
  let text ← m.payloadText
  let raw := toUtf8 text
  let r ← sniff raw
  if r.ident = str% "KERI" then ingestSerderOr E z st deep fuel verify raw next verifying
  else if r.ident = str% "ACDC" then ingestCrederOr E z st deep fuel verify raw next verifying
  else .err .decoding

end

/-- As `ingestLoop` (parsing.rs:28-146). -/
def ingestLoopOr (E : Env) (z : Option Err) (fuel : Nat) (deep verify : Option Bool) : Store → List Msg → List Str → Store × Res Unit
  | st, [], _ => (st, .ok ())
  | st, [m], verifying =>
    match ingestOneOr E z st deep fuel verify m none verifying with
    | .ok _ => (st, .ok ())
    | .err e => (st, .err e)
    | .panic => (st, .panic)
  | st, m :: g :: rest, verifying =>
    match ingestOneOr E z st deep fuel verify m (some g) verifying with
    | .err e => (st, .err e)
    | .panic => (st, .panic)
    | .ok (a, v) =>
      match perform E st a with
      | (st, .ok ()) => ingestLoopOr E z fuel deep verify st rest v
      | (st, r) => (st, r)

end Keride.Spec
