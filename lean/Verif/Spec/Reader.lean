/-
Streams: what a verifier may expect of the parser it reads them with, and a reader that meets it. The parser is the crate
parside, which is not part of /repo.
-/
import Verif.Spec.Office

namespace Keride.Spec

open Sample Matter

/-- A parser of streams that takes one message after the other. A stream that starts with a message, or with what is attached to one, is
read as that and whatever the rest of the stream is read as. -/
structure ReadsStreams (E : Env) : Prop where
  nothing : E.parse [] = .ok []
  message : ∀ (x : Piece) (rest : Str) (l : List Msg), x.Wellformed E.chk → E.parse (toUtf8 rest) = .ok l →
    E.parse (toUtf8 (x.whole ++ rest)) = .ok (x.parsed ++ l)
  attachment : ∀ (x : Piece) (rest : Str) (l : List Msg), x.Wellformed E.chk → E.parse (toUtf8 rest) = .ok l →
    E.parse (toUtf8 (x.attached ++ rest)) = .ok (.group x.group (.ok x.attached) :: l)

/-- A verifier calls `ingest_messages` with one text after the other, and each time it succeeds. -/
inductive Ingests (E : Env) (fuel : Nat) (deep verify : Option Bool) : Store → List Str → Store → Prop
  | none (st : Store) : Ingests E fuel deep verify st [] st
  | one (st st' st'' : Store) (ms : List Str) (m : Str) (before : Ingests E fuel deep verify st ms st')
      (next : ingest E fuel st' m deep verify = (st'', .ok ())) : Ingests E fuel deep verify st (ms ++ [m]) st''

/-! ## A reader -/

/-- A primitive, and what follows it. -/
def readItem (t : Str) : Res (M × Str) := do
  let m ← Matter.newWithQb64 t
  let k ← Matter.fullSize m
  .ok (m, t.drop k)

/-- A counter, and what follows it. -/
def readCount (t : Str) : Res (Counter.C × Str) := do
  let c ← Counter.newWithQb64 t
  let k ← Counter.fullSize c
  .ok (c, t.drop k)

/-- So many signatures, and what follows them. -/
def readSigers (chk : Bool) : Nat → Str → Res (List Siger × Str)
  | 0, t => .ok ([], t)
  | n + 1, t => do
    let g ← Siger.newWithQb64 chk t none
    let k ← Indexer.fullSize chk g.i
    let r ← readSigers chk n (t.drop k)
    .ok (g :: r.1, r.2)

/-- So many couples of a sequence number and a digest, and what follows them. -/
def readCouples : Nat → Str → Res (List (M × M) × Str)
  | 0, t => .ok ([], t)
  | n + 1, t => do
    let a ← readItem t
    let b ← readItem a.2
    let r ← readCouples n b.2
    .ok ((a.1, b.1) :: r.1, r.2)

/-- So many signatures of parts of a credential, each by one signer, and what follows them. -/
def readProofs (chk : Bool) : Nat → Str → Res (List SadPathSig × Str)
  | 0, t => .ok ([], t)
  | n + 1, t => do
    let p ← readItem t
    let f ← readCount p.2
    if f.1 ≠ ⟨str% "-F", 1⟩ then .err .external
    else do
      let i ← readItem f.2
      let s ← readItem i.2
      let d ← readItem s.2
      let a ← readCount d.2
      if a.1.code ≠ str% "-A" then .err .external
      else do
        let g ← readSigers chk a.1.count a.2
        let r ← readProofs chk n g.2
        .ok (⟨p.1, i.1, s.1, d.1, g.1⟩ :: r.1, r.2)

/-- The groups inside a frame. -/
def readGroups (chk : Bool) : Nat → Str → Res (List SigGroup)
  | _, [] => .ok []
  | 0, _ => .err .external
  | fuel + 1, t => do
    let c ← readCount t
    if c.1.code = str% "-A" then do
      let r ← readSigers chk c.1.count c.2
      let l ← readGroups chk fuel r.2
      .ok (.controller r.1 :: l)
    else if c.1.code = str% "-J" then do
      let r ← readProofs chk c.1.count c.2
      let l ← readGroups chk fuel r.2
      .ok (.sadPath r.1 :: l)
    else .err .external

/-- A group after a message: framed groups, or couples. And what follows it. -/
def readAttachment (chk : Bool) (t : Str) : Res (Group × Str) := do
  let c ← readCount t
  if c.1.code = str% "-V" then do
    let body ← fromUtf8 ((toUtf8 c.2).take (4 * c.1.count))
    let l ← readGroups chk body.length body
    let rest ← fromUtf8 ((toUtf8 c.2).drop (4 * c.1.count))
    .ok (.quadlets l, rest)
  else if c.1.code = str% "-G" then do
    let r ← readCouples c.1.count c.2
    .ok (.couples r.1, r.2)
  else .err .external

/-- One message after the other: an object in JSON, written again without superfluous spaces, or a group. -/
def readMessages (chk : Bool) (fl : Str → Option Str) : Nat → Str → Res (List Msg)
  | _, [] => .ok []
  | 0, _ => .err .external
  | fuel + 1, t =>
    if t.head? = some '{' then
      match parseVal fl (t.length + 1) jsonDepth t with
      | none => .err .external
      | some (v, rest) => do
        let l ← readMessages chk fl fuel rest
        .ok (.payload v.toJson :: l)
    else do
      let g ← readAttachment chk t
      let l ← readMessages chk fl fuel g.2
      .ok (.group g.1 (.ok (t.take (t.length - g.2.length))) :: l)

/-- The reader. -/
def readStream (chk : Bool) (fl : Str → Option Str) (b : Bytes) : Res (List Msg) := do
  let t ← fromUtf8 b
  readMessages chk fl t.length t

end Keride.Spec
