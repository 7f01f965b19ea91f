/-
Model of /repo/sample/keri/mod.rs (the trait `KeriStore`), and of what the code under /repo/sample/keri takes from
outside: the stream parser `parside`, the JSON schema library, the clock.

/repo contains no implementation of `KeriStore`. The store is modelled by the contents its method names promise: for
each identifier the texts inserted for it, in order.
-/
import Verif.Model.Sadder
import Verif.Model.Prefixer
import Verif.Model.Messaging

namespace Keride.Sample

open Matter

/-- A path signature group of parside (`SadPathSig`): the path, who signed with which establishment event, and the
signatures. -/
structure SadPathSig where
  pather : M
  prefixer : M
  seqner : M
  saider : M
  sigers : List Siger

/-- The groups inside attached material that sample/keri distinguishes. -/
inductive SigGroup where
  | controller (sigers : List Siger)
  | sadPath (sigs : List SadPathSig)
  | other

/-- The groups following a message that sample/keri distinguishes: attached material, couples of a sequence number and
a digest, anything else. -/
inductive Group where
  | quadlets (l : List SigGroup)
  | couples (l : List (M × M))
  | other

/-- An element of the list `MessageList::from_stream_bytes` returns: the text of a JSON payload, or a group and its
text. -/
inductive Msg where
  | payload (text : Str)
  | group (g : Group) (text : Res Str)

/-- `message.payload()?.value.to_string()`. -/
def Msg.payloadText : Msg → Res Str
  | .payload t => .ok t
  | .group _ _ => .err .external

/-- `message.cesr_group()?`, with the result of its `qb64()`. -/
def Msg.cesrGroup : Msg → Res (Group × Res Str)
  | .payload _ => .err .external
  | .group g t => .ok (g, t)

/-- The contents of a `KeriStore` (mod.rs:149-184): key events and transaction events by identifier, credentials. -/
structure Store where
  kels : Str → List Str
  tels : Str → List Str
  acdcs : List Str

/-- Nothing stored. -/
def Store.empty : Store := ⟨fun _ => [], fun _ => [], []⟩

/-- What is not modelled further. `parse` is `parside::MessageList::from_stream_bytes`; `seen` tells whether
`KeriStore::get_sad` finds a SAID; `refuses` whether the store refuses to insert a text; `schema` is the verdict of the
schema cache on a text; `expired` reads a date and says whether it is too long ago. -/
structure Env where
  chk : Bool
  fl : Str → Option Str
  H : Hash
  C : Crypto
  parse : Bytes → Res (List Msg)
  seen : Store → Str → Bool
  refuses : Store → Str → Bool
  schema : Str → Str → Res Bool
  expired : Str → Res Bool

/-- Append a text to the log of an identifier. -/
def append (logs : Str → List Str) (pre event : Str) : Str → List Str :=
  fun p => if p = pre then logs p ++ [event] else logs p

/-- `insert_key_event` (mod.rs:155). -/
def Store.insertKeyEvent (st : Store) (pre event : Str) : Store := { st with kels := append st.kels pre event }

/-- `insert_transaction_event` (mod.rs:156). -/
def Store.insertTransactionEvent (st : Store) (pre event : Str) : Store := { st with tels := append st.tels pre event }

/-- `insert_acdc` (mod.rs:154). -/
def Store.insertAcdc (st : Store) (acdc : Str) : Store := { st with acdcs := st.acdcs ++ [acdc] }

/-- `get_key_event` (mod.rs:163). -/
def Store.getKeyEvent (st : Store) (pre : Str) (n : Nat) : Res Str := Res.ofOption .storage (st.kels pre)[n]?

/-- `get_transaction_event` (mod.rs:164). -/
def Store.getTransactionEvent (st : Store) (pre : Str) (n : Nat) : Res Str := Res.ofOption .storage (st.tels pre)[n]?

/-- `get_latest_transaction_event` (mod.rs:168). -/
def Store.getLatestTransactionEvent (st : Store) (pre : Str) : Res Str := Res.ofOption .storage (st.tels pre).getLast?

/-- Is a stored text an establishment event? -/
def isEst (fl : Str → Option Str) (t : Str) : Bool :=
  match (do
    let s ← Serder.newWithRaw fl (toUtf8 t)
    Serder.est s) with
  | .ok b => b
  | _ => false

/-- The last establishment event among the first `n + 1` of a log. -/
def latestEst (fl : Str → Option Str) (log : List Str) (n : Nat) : Option Str := (log.take (n + 1)).reverse.find? (isEst fl)

/-- `get_latest_establishment_event_as_of_sn` (mod.rs:166-167); only the event is used. -/
def Store.getLatestEst (fl : Str → Option Str) (st : Store) (pre : Str) (n : Nat) : Res Str :=
  Res.ofOption .storage (latestEst fl (st.kels pre) n)

/-- Does a stored credential have the SAID? -/
def hasSaid (E : Env) (said t : Str) : Bool :=
  match (do
    let s ← Creder.newWithRaw E.fl (toUtf8 t)
    Sadder.said E.chk s) with
  | .ok q => decide (q = said)
  | _ => false

/-- `get_acdc` (mod.rs:162). -/
def Store.getAcdc (E : Env) (st : Store) (said : Str) : Res Str := Res.ofOption .storage (st.acdcs.find? (hasSaid E said))

/-- `MessageList::from_stream_bytes(event[serder.raw().len()..].as_bytes())?`, then `messages[0].cesr_group()?`, as in
kmi/verification.rs:171-173, tel/verification.rs:121-123, acdc/verification.rs:52-54, 245-247, verification.rs:62-64. -/
def attached (E : Env) (event : Str) (s : Sad) : Res Group := do
  let rest ← Str.sliceFrom event s.raw.length
  let msgs ← E.parse (toUtf8 rest)
  let m ← Res.orPanic msgs.head?
  let g ← m.cesrGroup
  .ok g.1

/-- The attached material of a stored event, anything else is an error (kmi/verification.rs:175-180). -/
def attachedQuadlets (E : Env) (event : Str) (s : Sad) : Res (List SigGroup) := do
  let g ← attached E event s
  match g with
  | .quadlets l => .ok l
  | _ => .err .decoding

/-- The couples attached to a stored event, anything else is an error (tel/verification.rs:125-137). -/
def attachedCouples (E : Env) (event : Str) (s : Sad) : Res (List (M × M)) := do
  let g ← attached E event s
  match g with
  | .couples l => .ok l
  | _ => .err .decoding

/-- `verify_ked_labels` (verification.rs:17-26). -/
def verifyKedLabels (ked : Value) (labels : List Str) : Res Bool := do
  let map ← ked.toMap
  .ok (labels.all fun l => Value.hasKey l map)

/-- `ICP_LABELS`, `ROT_LABELS`, `IXN_LABELS` (labels.rs:3-4, 7-8, 12). -/
def icpLabels : List Str :=
  [str% "v", str% "t", str% "d", str% "i", str% "s", str% "kt", str% "k", str% "nt", str% "n", str% "bt", str% "b", str% "c", str% "a"]
def rotLabels : List Str :=
  [str% "v", str% "d", str% "i", str% "s", str% "t", str% "p", str% "kt", str% "k", str% "nt", str% "n", str% "bt", str% "br", str% "ba", str% "a"]
def ixnLabels : List Str := [str% "v", str% "d", str% "i", str% "s", str% "t", str% "p", str% "a"]

/-- `VCP_LABELS`, `ISS_LABELS`, `REV_LABELS` (labels.rs:19, 22, 25). -/
def vcpLabels : List Str := [str% "v", str% "d", str% "i", str% "s", str% "t", str% "bt", str% "b", str% "c"]
def issLabels : List Str := [str% "v", str% "i", str% "s", str% "t", str% "ri", str% "dt"]
def revLabels : List Str := [str% "v", str% "i", str% "s", str% "t", str% "p", str% "dt"]

end Keride.Sample
