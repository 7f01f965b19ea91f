/-
Model of /repo/sample/keri/kmi/verification.rs.
-/
import Verif.Model.Sample.Store

namespace Keride.Sample

open Matter

/-- The checks on type, prefix or SAID, and place in the log (kmi/verification.rs:35-73); tells whether the log already
has an event at this place. -/
def place (E : Env) (st : Store) (serder : Sad) (prefixer : M) (pre : Str) (sn : Nat) (ilk said : Str) : Res Bool :=
  let count := (st.kels pre).length
  if ilk = str% "icp" then do
    let good ← Prefixer.verify E.H E.chk prefixer serder.ked (some true)
    if !good then .err .verification
    else if sn ≠ 0 then .err .decoding
    else do
      let p ← Serder.pre serder
      if said ≠ p then .err .verification else .ok (decide (count ≠ 0))
  else do
    let good ← Saider.verify E.H E.chk serder.saider serder.ked (some false) (some true) none none none
    if !good then .err .verification
    else if sn < 1 then .err .validation
    else if count < sn then .err .outOfOrder
    else .ok (decide (sn ≠ count))

/-- The keys and the threshold of an establishment event (kmi/verification.rs:76-82, 87-93). -/
def keysOf (E : Env) (s : Sad) : Res (List M × Tholder) := do
  let t ← Serder.tholder E.chk E.fl s
  match t with
  | none => .err .decoding
  | some t => do
    let v ← Serder.verfers s
    .ok (v, t)

/-- The keys and the threshold in force (kmi/verification.rs:75-94). -/
def keysInForce (E : Env) (st : Store) (serder : Sad) (pre : Str) (sn : Nat) : Res (List M × Tholder) := do
  let est ← Serder.est serder
  if est then keysOf E serder
  else do
    let i ← subU32 E.chk (sn % 2 ^ 32) 1
    let raw ← st.getLatestEst E.fl pre i
    let s ← Serder.newWithRaw E.fl (toUtf8 raw)
    keysOf E s

/-- The loop over the signatures of a group (kmi/verification.rs:101-112). The vectors `verified_indices` and
`verified_prior_next_indices` are one list of pairs. An index equal to the number of keys passes the test and panics. -/
def verifySigers (C : Crypto) (verfers : List M) (ser : Bytes) : List Siger → Res (List (Nat × Nat))
  | [] => .ok []
  | s :: l =>
    if verfers.length < s.i.index then .err .verification
    else do
      let v ← Res.orPanic verfers[s.i.index]?
      let good ← Verfer.verify C v s.i.raw ser
      let r ← verifySigers C verfers ser l
      .ok (if good then (s.i.index, s.i.ondex) :: r else r)

/-- The loop over the groups (kmi/verification.rs:98-116). -/
def verifyGroups (C : Crypto) (verfers : List M) (ser : Bytes) : List SigGroup → Res (List (Nat × Nat))
  | [] => .ok []
  | .controller l :: gs => do
    let a ← verifySigers C verfers ser l
    let r ← verifyGroups C verfers ser gs
    .ok (a ++ r)
  | _ :: _ => .err .decoding

/-- The labels an event of the type must have (kmi/verification.rs:122-127). -/
def labelsOf (ilk : Str) : Res (List Str) :=
  if ilk = str% "icp" then .ok icpLabels
  else if ilk = str% "rot" then .ok rotLabels
  else if ilk = str% "ixn" then .ok ixnLabels
  else .err .decoding

/-- The loop selecting the signatures by keys the prior establishment event committed to (kmi/verification.rs:150-160). -/
def priorIndices (E : Env) (digers verfers : List M) : List (Nat × Nat) → Res (List Nat)
  | [] => .ok []
  | (i, j) :: l => do
    let a ← (if j < digers.length then do
        let v ← Res.orPanic verfers[i]?
        let q ← qb64b E.chk v
        let d ← Diger.newWithSer E.H q none
        let t ← qb64 E.chk d
        let n ← Res.orPanic digers[j]?
        let u ← qb64 E.chk n
        .ok (if t = u then [j] else [])
      else .ok [] : Res (List Nat))
    let r ← priorIndices E digers verfers l
    .ok (a ++ r)

/-- The next keys and threshold of an establishment event (kmi/verification.rs:142, 147). -/
def nextOf (E : Env) (s : Sad) : Res (List M × Tholder) := do
  let d ← Serder.digers s
  let t ← Serder.ntholder E.chk E.fl s
  .ok (d, t.getD Tholder.default)

/-- The event before in the log, that this one continues it, and for a rotation that it is by the committed keys
(kmi/verification.rs:134-166). -/
def checkPrior (E : Env) (st : Store) (serder : Sad) (pre : Str) (sn : Nat) (verfers : List M) (verified : List (Nat × Nat)) :
    Res (Str × Sad) := do
  let i ← subU32 E.chk (sn % 2 ^ 32) 1
  let event ← st.getKeyEvent pre i
  let pserder ← Serder.newWithRaw E.fl (toUtf8 event)
  let psaid ← Sadder.said E.chk pserder
  let x ← serder.ked.index (str% "p")
  let p ← x.toStr
  if psaid ≠ p then .err .validation
  else do
    let est ← Serder.est serder
    if est then do
      let pest ← Serder.est pserder
      let next ← (if pest then nextOf E pserder
        else do
          let j ← subU32 E.chk (sn % 2 ^ 32) 1
          let raw ← st.getLatestEst E.fl pre j
          let s ← Serder.newWithRaw E.fl (toUtf8 raw)
          nextOf E s : Res (List M × Tholder))
      let idx ← priorIndices E next.1 verfers verified
      let good ← next.2.satisfy E.chk idx
      if !good then .err .validation else .ok (event, pserder)
    else .ok (event, pserder)

/-- What `verify_key_event` knows before it looks at earlier events: identifier, sequence number, SAID, whether the
place in the log is taken, and the event before. -/
structure Checked where
  pre : Str
  sn : Nat
  said : Str
  existing : Bool
  prior : Option (Str × Sad)

/-- `verify_key_event` up to the deep verification (kmi/verification.rs:23-166). -/
def checkKeyEvent (E : Env) (st : Store) (serder : Sad) (quadlets : List SigGroup) : Res Checked := do
  let pre ← Serder.pre serder
  let prefixer ← Prefixer.newWithQb64 E.H pre
  let sn ← Serder.sn serder
  let t ← serder.ked.index (str% "t")
  let ilk ← t.toStr
  let said ← Sadder.said E.chk serder
  let existing ← place E st serder prefixer pre sn ilk said
  let keys ← keysInForce E st serder pre sn
  let verified ← verifyGroups E.C keys.1 serder.raw quadlets
  let good ← keys.2.satisfy E.chk (verified.map Prod.fst)
  if !good then .err .verification
  else do
    let labels ← labelsOf ilk
    let has ← verifyKedLabels serder.ked labels
    if !has then .err .validation
    else if ilk = str% "icp" then .ok ⟨pre, sn, said, existing, none⟩
    else do
      let p ← checkPrior E st serder pre sn keys.1 verified
      .ok ⟨pre, sn, said, existing, some p⟩

/-- The last check (kmi/verification.rs:184-192): a taken place must hold the same event. -/
def confirm (E : Env) (st : Store) (c : Checked) : Res Unit :=
  if c.existing then do
    let event ← st.getKeyEvent c.pre (c.sn % 2 ^ 32)
    let s ← Serder.newWithRaw E.fl (toUtf8 event)
    let q ← Sadder.said E.chk s
    if c.said ≠ q then .err .programmer else .ok ()
  else .ok ()

/-- `verify_key_event` (kmi/verification.rs:10-195). The set `verifying` is a list that is passed on and returned.
`fuel` bounds the recursion into earlier events; running out of it stands for a stack overflow. -/
def verifyKeyEvent (E : Env) (st : Store) (deep : Option Bool) : Nat → Sad → List SigGroup → List Str → Res (Bool × List Str)
  | 0, _, _, _ => .panic
  | fuel + 1, serder, quadlets, verifying => do
    let c ← checkKeyEvent E st serder quadlets
    let v ← (match c.prior with
      | none => .ok verifying
      | some (event, p) =>
        if deep.getD false then do
          let q ← Sadder.said E.chk p
          if verifying.contains q then .ok verifying
          else do
            let g ← attachedQuadlets E event p
            let r ← verifyKeyEvent E st deep fuel p g (q :: verifying)
            .ok r.2
        else .ok verifying : Res (List Str))
    confirm E st c
    .ok (c.existing, v)

end Keride.Sample
