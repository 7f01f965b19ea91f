/-
Model of /repo/src/messaging.rs, /repo/src/receipting.rs and /repo/src/seal.rs.
-/
import Verif.Model.Sadder

namespace Keride

/-- `Seal` (seal.rs:6-12) with `Seal::new` (seal.rs:15-19). -/
structure Seal where
  i : Str
  s : Str
  d : Str
  last : Bool
deriving DecidableEq, Repr

/-- `Seal::s` (seal.rs:25-27). -/
def Seal.sText (chk : Bool) (s : Seal) : Res Str := do
  let m ← Seqner.newWithSnh s.s
  Matter.qb64 chk m

namespace Messaging

/-- `Counter::new_with_code_and_count(code, count)?.qb64()?`; `as u32` keeps the low 32 bits. -/
def counterText (code : Str) (count : Nat) : Res Str := do
  let c ← Counter.newWithCodeAndCount code (count % 2 ^ 32)
  Counter.qb64 c

/-- The loop appending the texts of signatures (messaging.rs:49-51, 58-61). -/
def sigTexts (chk : Bool) : List Siger → Res Str
  | [] => .ok []
  | s :: l => do
    let t ← Indexer.qb64 chk s.i
    let r ← sigTexts chk l
    .ok (t ++ r)

/-- The part naming the signer of an attached group (messaging.rs:29-42). -/
def sealText (chk : Bool) : Option Seal → Res Str
  | none => .ok []
  | some sl =>
    if sl.last then do
      let c ← counterText (str% "-H") 1
      .ok (c ++ sl.i)
    else do
      let c ← counterText (str% "-F") 1
      let s ← sl.sText chk
      .ok (c ++ sl.i ++ s ++ sl.d)

/-- The part for the controller's signatures (messaging.rs:28-52). -/
def sigersText (chk : Bool) (sl : Option Seal) : Option (List Siger) → Res Str
  | none => .ok []
  | some sigers => do
    let h ← sealText chk sl
    let c ← counterText (str% "-A") sigers.length
    let t ← sigTexts chk sigers
    .ok (h ++ c ++ t)

/-- The part for the witnesses' signatures (messaging.rs:54-62). -/
def wigersText (chk : Bool) : Option (List Siger) → Res Str
  | none => .ok []
  | some wigers => do
    let c ← counterText (str% "-B") wigers.length
    let t ← sigTexts chk wigers
    .ok (c ++ t)

/-- `messagize` (messaging.rs:14-67). The signatures `cigars` are only tested for presence. -/
def messagize (chk : Bool) (serder : Sad) (sigers : Option (List Siger)) (sl : Option Seal)
    (wigers : Option (List Siger)) (cigars : Option (List Cigar)) : Res Str := do
  let message ← fromUtf8 serder.raw
  if sigers.isNone ∧ wigers.isNone ∧ cigars.isNone then .err .value
  else do
    let a ← sigersText chk sl sigers
    let b ← wigersText chk wigers
    .ok (message ++ (a ++ b))

/-- `receipt` (receipting.rs:11-35). -/
def receipt (fl : Str → Option Str) (pre : Str) (sn : Nat) (said : Str) (version : Option Version) (kind : Option Str) :
    Res Sad := do
  let version := version.getD currentVersion
  let kind := kind.getD (str% "JSON")
  let vs ← versify none (some version) (some kind) (some 0)
  let sner ← Number.newWithNum sn
  let s ← Number.numh sner
  Serder.newWithKed fl (.obj [(str% "v", .str vs), (str% "t", .str (str% "rct")), (str% "d", .str said),
    (str% "i", .str pre), (str% "s", .str s)]) none none

end Messaging

end Keride
