/-
Model of /repo/sample/keri/verification.rs and /repo/sample/keri/acdc/tel/verification.rs.
-/
import Verif.Model.Sample.Kel

namespace Keride.Sample

open Matter

/-- `extract_registry_from_serder` (verification.rs:9-15). -/
def registryOf (ilk : Str) (s : Sad) : Res Str :=
  if ilk = str% "vcp" then Serder.pre s
  else if ilk = str% "iss" ∨ ilk = str% "rev" then do
    let v ← s.ked.index (str% "ri")
    v.toStr
  else .err .decoding

/-- The fields of the only seal of an anchoring event (verification.rs:48-57): identifier, sequence number, SAID; or
nothing when there is not exactly one seal. -/
def onlySeal (s : Sad) : Res (Option (Str × Str × Str)) := do
  let a ← s.ked.index (str% "a")
  let seals ← a.toVec
  if seals.length ≠ 1 then .ok none
  else do
    let sl ← Res.orPanic seals.head?
    let i ← sl.index (str% "i")
    let i ← i.toStr
    let n ← sl.index (str% "s")
    let n ← n.toStr
    let d ← sl.index (str% "d")
    let d ← d.toStr
    .ok (some (i, n, d))

/-- `verify_anchor` (verification.rs:28-86): the answer and the set `verifying`. -/
def verifyAnchor (E : Env) (st : Store) (deep : Option Bool) (fuel : Nat) (anchorPre : Str) (seqner saider : M) (serder : Sad)
    (verifying : List Str) : Res (Bool × List Str) := do
  let n ← Seqner.sn seqner
  let event ← st.getKeyEvent anchorPre (n % 2 ^ 32)
  let aserder ← Serder.newWithRaw E.fl (toUtf8 event)
  let asaid ← Sadder.said E.chk aserder
  let q ← qb64 E.chk saider
  if asaid ≠ q then .ok (false, verifying)
  else do
    let sl ← onlySeal aserder
    match sl with
    | none => .ok (false, verifying)
    | some (spre, ssn, sdig) => do
      let v ← (if deep.getD false then
          if verifying.contains asaid then .ok verifying
          else do
            let g ← attachedQuadlets E event aserder
            let r ← verifyKeyEvent E st deep fuel aserder g (asaid :: verifying)
            .ok r.2
        else .ok verifying : Res (List Str))
      let x ← serder.ked.index (str% "s")
      let x ← x.toStr
      if ssn ≠ x then .ok (false, v)
      else do
        let p ← Serder.pre serder
        if spre ≠ p then .ok (false, v)
        else do
          let d ← Sadder.said E.chk serder
          .ok (decide (sdig = d), v)

/-- The labels a transaction event must have (tel/verification.rs:42-47). -/
def telLabels (ilk : Str) : Res (List Str) :=
  if ilk = str% "vcp" then .ok vcpLabels
  else if ilk = str% "iss" then .ok issLabels
  else if ilk = str% "rev" then .ok revLabels
  else .err .decoding

/-- The identifier that must anchor the event (tel/verification.rs:55-74). -/
def anchorOf (E : Env) (st : Store) (serder : Sad) (prefixer : M) (ilk ri : Str) : Res Str :=
  if ilk = str% "vcp" then do
    let good ← Prefixer.verify E.H E.chk prefixer serder.ked (some true)
    if !good then .err .verification
    else do
      let v ← serder.ked.index (str% "ii")
      v.toStr
  else if ilk = str% "iss" ∨ ilk = str% "rev" then do
    let good ← Saider.verify E.H E.chk serder.saider serder.ked (some false) (some true) none none none
    if !good then .err .verification
    else do
      let event ← st.getTransactionEvent ri 0
      let s ← Serder.newWithRaw E.fl (toUtf8 event)
      let v ← s.ked.index (str% "ii")
      v.toStr
  else .err .decoding

/-- `verify_transaction_event` (tel/verification.rs:10-159). -/
def verifyTransactionEvent (E : Env) (st : Store) (deep : Option Bool) : Nat → Sad → List (M × M) → List Str → Res (Bool × List Str)
  | 0, _, _, _ => .panic
  | fuel + 1, serder, couples, verifying => do
    let pre ← Serder.pre serder
    let prefixer ← Prefixer.newWithQb64 E.H pre
    let sn ← Serder.sn serder
    let t ← serder.ked.index (str% "t")
    let ilk ← t.toStr
    let said ← Sadder.said E.chk serder
    let ri ← registryOf ilk serder
    if couples.length ≠ 1 then .err .decoding
    else do
      let source ← Res.orPanic couples.head?
      let labels ← telLabels ilk
      let has ← verifyKedLabels serder.ked labels
      if !has then .err .validation
      else do
        let count := (st.tels pre).length
        let apre ← anchorOf E st serder prefixer ilk ri
        let a ← verifyAnchor E st deep fuel apre source.1 source.2 serder verifying
        if !a.1 then .err .verification
        else do
          let r ← (if ilk = str% "vcp" ∨ ilk = str% "iss" then
              if sn ≠ 0 then .err .decoding else .ok (decide (count ≠ 0), a.2)
            else if sn < 1 then .err .validation
            else if count < sn then .err .outOfOrder
            else do
              let i ← subU32 E.chk (sn % 2 ^ 32) 1
              let event ← st.getTransactionEvent pre i
              let p ← Serder.newWithRaw E.fl (toUtf8 event)
              let psaid ← Sadder.said E.chk p
              let v ← (if deep.getD true then
                  if a.2.contains psaid then .ok a.2
                  else do
                    let g ← attachedCouples E event p
                    let r ← verifyTransactionEvent E st deep fuel p g (psaid :: a.2)
                    .ok r.2
                else .ok a.2 : Res (List Str))
              let x ← serder.ked.index (str% "p")
              let x ← x.toStr
              if psaid ≠ x then .err .verification else .ok (decide (sn ≠ count), v) : Res (Bool × List Str))
          if r.1 then do
            let event ← st.getTransactionEvent pre (sn % 2 ^ 32)
            let s ← Serder.newWithRaw E.fl (toUtf8 event)
            let q ← Sadder.said E.chk s
            if said ≠ q then .err .programmer else .ok r
          else .ok r

end Keride.Sample
