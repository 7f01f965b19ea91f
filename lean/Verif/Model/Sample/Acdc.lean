/-
Model of /repo/sample/keri/acdc/verification.rs.
-/
import Verif.Model.Sample.Tel
import Verif.Model.Pather

namespace Keride.Sample

open Matter

/-- Keep the first of equal signatures (acdc/verification.rs:124-130). -/
def distinctSigers : List Siger → List Siger → List Siger
  | seen, [] => seen
  | seen, s :: l => if seen.contains s then distinctSigers seen l else distinctSigers (seen ++ [s]) l

/-- The check of one root path signature (acdc/verification.rs:92-149): the set `verifying`. -/
def verifyPathSig (E : Env) (st : Store) (deep : Option Bool) (fuel : Nat) (creder : Sad) (sig : SadPathSig)
    (verifying : List Str) : Res (List Str) := do
  let pre ← qb64 E.chk sig.prefixer
  let n ← Seqner.sn sig.seqner
  let event ← st.getKeyEvent pre (n % 2 ^ 32)
  let serder ← Serder.newWithRaw E.fl (toUtf8 event)
  let said ← Sadder.said E.chk serder
  let q ← qb64 E.chk sig.saider
  if said ≠ q then .err .verification
  else do
    let v ← (if deep.getD true then
        if verifying.contains said then .ok verifying
        else do
          let g ← attachedQuadlets E event serder
          let r ← verifyKeyEvent E st deep fuel serder g (said :: verifying)
          .ok r.2
      else .ok verifying : Res (List Str))
    let verfers ← Serder.verfers serder
    let verified ← verifySigers E.C verfers creder.raw (distinctSigers [] sig.sigers)
    let t ← Serder.tholder E.chk E.fl serder
    match t with
    | none => .err .verification
    | some t => do
      let good ← t.satisfy E.chk (verified.map Prod.fst)
      if !good then .err .verification else .ok v

/-- The loop over the path signatures of a group (acdc/verification.rs:85-150): whether a root signature was seen, and
the set `verifying`. -/
def verifyPathSigs (E : Env) (st : Store) (deep : Option Bool) (fuel : Nat) (creder : Sad) :
    List SadPathSig → Bool → List Str → Res (Bool × List Str)
  | [], rooted, v => .ok (rooted, v)
  | sig :: l, rooted, v => do
    let b ← Bexter.bext sig.pather
    if b ≠ str% "-" then verifyPathSigs E st deep fuel creder l rooted v
    else do
      let v ← verifyPathSig E st deep fuel creder sig v
      verifyPathSigs E st deep fuel creder l true v

/-- The loop over the groups (acdc/verification.rs:82-154). -/
def verifyProof (E : Env) (st : Store) (deep : Option Bool) (fuel : Nat) (creder : Sad) :
    List SigGroup → Bool → List Str → Res (Bool × List Str)
  | [], rooted, v => .ok (rooted, v)
  | .sadPath l :: gs, rooted, v => do
    let r ← verifyPathSigs E st deep fuel creder l rooted v
    verifyProof E st deep fuel creder gs r.1 r.2
  | _ :: _, _, _ => .err .decoding

/-- The operators named by an edge (acdc/verification.rs:187-196): `unwrap` panics on an operator that is not a text. -/
def operatorsOf (map : List (Str × Value)) : Res (List Str) :=
  match Value.find (str% "o") map with
  | none => .ok []
  | some v =>
    match v with
    | .str s => .ok [s]
    | .arr l => Res.mapList (fun o => o.toStr.unwrap) l
    | _ => .err .conversion

/-- The unary operators (acdc/verification.rs:205). -/
def unary : List Str := [str% "I2I", str% "NI2I", str% "DI2I"]

/-- The operator in force (acdc/verification.rs:199-227). -/
def operatorOf (ops : List Str) (subject : List (Str × Value)) : Res Str :=
  if ops.contains (str% "NOT") then .err .value
  else
    let ops := ops.filter fun o => unary.contains o
    let ops := if ops.isEmpty then (if Value.hasKey (str% "i") subject then [str% "I2I"] else [str% "NI2I"]) else ops
    if ops.length ≠ 1 then .err .validation else Res.orPanic ops.head?

/-- The check of the operator (acdc/verification.rs:230-239): `map["i"]` panics when absent, and so does `DI2I`. -/
def applyOperator (op : Str) (creder : Sad) (subject : List (Str × Value)) : Res Unit :=
  if op = str% "I2I" then do
    let v ← Res.orPanic (Value.find (str% "i") subject)
    let s ← v.toStr
    let issuer ← Creder.issuer creder
    if s ≠ issuer then .err .validation else .ok ()
  else if op = str% "NI2I" then .ok ()
  else if op = str% "DI2I" then .panic
  else .err .validation

/-- The check of one edge up to the verification of the other credential (acdc/verification.rs:174-239): the SAID, the
text and the document of that credential. -/
def checkEdge (E : Env) (st : Store) (creder : Sad) (node : Value) : Res (Str × Str × Sad) := do
  let map ← node.toMap
  let n ← Res.orPanic (Value.find (str% "n") map)
  let said ← n.toStr
  let message ← st.getAcdc E said
  let p ← Creder.newWithRaw E.fl (toUtf8 message)
  let okSchema ← (match Value.find (str% "s") map with
    | some v => do
      let s ← v.toStr
      let t ← fromUtf8 p.raw
      E.schema s t
    | none => .ok true : Res Bool)
  if !okSchema then .err .validation
  else do
    let ops ← operatorsOf map
    if ops.contains (str% "NOT") then .err .value
    else do
      let a ← Creder.subject p
      let subject ← a.toMap
      let op ← operatorOf ops subject
      applyOperator op creder subject
      .ok (said, message, p)

/-- The nodes of an edge, without the labels `d` and `o` (acdc/verification.rs:169-172). An edge that is not a map is an
error when the loop reaches it. -/
def nodesOf (edge : Value) : List (Res Value) :=
  match edge.toMap with
  | .ok m => (m.filter fun p => !([str% "d", str% "o"].contains p.1)).map fun p => .ok p.2
  | .err e => [.err e]
  | .panic => [.panic]

/-- The edges of a credential (acdc/verification.rs:160-166), and their nodes in order. -/
def edgeNodes (prov : Value) : Res (List (Res Value)) := do
  let edges ← (match prov with
    | .obj o => .ok [.obj o]
    | .arr l => .ok l
    | _ => .err .verification : Res (List Value))
  .ok (edges.flatMap nodesOf)

/-- The state of a credential in its transaction log (acdc/verification.rs:40-74): it must not be too old or revoked. -/
def checkState (E : Env) (st : Store) (deep : Option Bool) (fuel : Nat) (vcid : Str) (verifying : List Str) : Res (List Str) := do
  let event ← st.getLatestTransactionEvent vcid
  let state ← Serder.newWithRaw E.fl (toUtf8 event)
  let x ← state.ked.index (str% "dt")
  let dt ← x.toStr
  let old ← E.expired dt
  if old then .err .validation
  else do
    let v ← (if deep.getD true then do
        let q ← Sadder.said E.chk state
        if verifying.contains q then .ok verifying
        else do
          let g ← attachedCouples E event state
          let r ← verifyTransactionEvent E st deep fuel state g (q :: verifying)
          .ok r.2
      else .ok verifying : Res (List Str))
    let t ← state.ked.index (str% "t")
    let t ← t.toStr
    if t = str% "rev" ∨ t = str% "brv" then .err .validation else .ok v

mutual

/-- `verify_acdc` (acdc/verification.rs:16-275). -/
def verifyAcdc (E : Env) (st : Store) (deep : Option Bool) : Nat → Sad → List SigGroup → List Str → Res (Bool × List Str)
  | 0, _, _, _ => .panic
  | fuel + 1, creder, quadlets, verifying => do
    let status ← Creder.status creder
    if status.isNone then .err .validation
    else do
      let vcid ← Sadder.said E.chk creder
      let schema ← Creder.schema creder
      let prov ← Creder.chains creder
      let saider ← Saider.newWithQb64 E.H vcid
      let good ← Saider.verify E.H E.chk saider creder.ked (some false) (some true) (some (str% "JSON")) none none
      if !good then .err .verification
      else do
        let v ← checkState E st deep fuel vcid verifying
        let text ← fromUtf8 creder.raw
        let fits ← E.schema schema text
        if !fits then .err .validation
        else do
          let r ← verifyProof E st deep fuel creder quadlets false v
          if !r.1 then .err .verification
          else do
            let nodes ← edgeNodes prov
            let v ← verifyEdges E st deep fuel creder nodes r.2
            match st.getAcdc E vcid with
            | .ok message => do
              let e ← Creder.newWithRaw E.fl (toUtf8 message)
              let q ← Sadder.said E.chk e
              if vcid ≠ q then .err .programmer else .ok (true, v)
            | _ => .ok (false, v)

/-- The loop over the edges (acdc/verification.rs:168-257). -/
def verifyEdges (E : Env) (st : Store) (deep : Option Bool) : Nat → Sad → List (Res Value) → List Str → Res (List Str)
  | 0, _, _, _ => .panic
  | _ + 1, _, [], v => .ok v
  | fuel + 1, creder, node :: nodes, v => do
    let node ← node
    let e ← checkEdge E st creder node
    let v ← (if deep.getD true then
        if v.contains e.1 then .ok v
        else do
          let g ← attachedQuadlets E e.2.1 e.2.2
          let r ← verifyAcdc E st deep fuel e.2.2 g (e.1 :: v)
          .ok r.2
      else .ok v : Res (List Str))
    verifyEdges E st deep fuel creder nodes v

end

end Keride.Sample
