/-
Vocabulary for C102: calls of `ingest_messages` that share a store.
-/
import Verif.Spec.Kel

namespace Keride.Spec

open Matter Sample

/-- A call of `ingest_messages` under way: what it was given, the messages it has not yet taken up, and the SAIDs it has noted as verified. -/
structure Call where
  env : Env
  fuel : Nat
  deep : Option Bool
  verify : Option Bool
  left : List Msg
  noted : List Str

/-- The stores that several calls of `ingest_messages` can lead to, started empty, when none is told not to verify, and each has the store to itself
from the check of a message to its insertion. Between messages any other call may go on, new calls may begin, and a call may end, fail or be killed.
`hist` are the messages ever received, and the calls are those under way. -/
inductive Together (E : Env) : List (Msg × Msg) → Store → List Call → Prop
  | empty : Together E [] Store.empty []
  | begins {hist : List (Msg × Msg)} {st : Store} {calls : List Call} (E' : Env) (fuel : Nat) (stream : Bytes) (msgs : List Msg) (deep verify : Option Bool) :
      Together E hist st calls → SameCode E E' → Remembers E' → E'.parse stream = .ok msgs → verify ≠ some false →
      Together E (hist ++ pairs msgs) st (⟨E', fuel, deep, verify, msgs, []⟩ :: calls)
  | message {hist : List (Msg × Msg)} {st st' : Store} {before after : List Call} {c : Call} (m g : Msg) (rest : List Msg) (a : Action) (noted : List Str) :
      Together E hist st (before ++ c :: after) → c.left = m :: g :: rest →
      ingestOne c.env st c.fuel c.deep c.verify m (some g) c.noted = .ok (a, noted) → perform c.env st a = (st', .ok ()) →
      Together E hist st' (before ++ { c with left := rest, noted := noted } :: after)
  | ends {hist : List (Msg × Msg)} {st : Store} {before after : List Call} {c : Call} :
      Together E hist st (before ++ c :: after) → Together E hist st (before ++ after)

/-- The same, but other calls may go on between the check of a message and its insertion. With each call is what it is about to insert. -/
inductive Racing (E : Env) : List (Msg × Msg) → Store → List (Call × Option Action) → Prop
  | empty : Racing E [] Store.empty []
  | begins {hist : List (Msg × Msg)} {st : Store} {calls : List (Call × Option Action)} (E' : Env) (fuel : Nat) (stream : Bytes) (msgs : List Msg) (deep verify : Option Bool) :
      Racing E hist st calls → SameCode E E' → Remembers E' → E'.parse stream = .ok msgs → verify ≠ some false →
      Racing E (hist ++ pairs msgs) st ((⟨E', fuel, deep, verify, msgs, []⟩, none) :: calls)
  | checks {hist : List (Msg × Msg)} {st : Store} {before after : List (Call × Option Action)} {c : Call} (m g : Msg) (rest : List Msg) (a : Action) (noted : List Str) :
      Racing E hist st (before ++ (c, none) :: after) → c.left = m :: g :: rest →
      ingestOne c.env st c.fuel c.deep c.verify m (some g) c.noted = .ok (a, noted) →
      Racing E hist st (before ++ ({ c with left := rest, noted := noted }, some a) :: after)
  | inserts {hist : List (Msg × Msg)} {st st' : Store} {before after : List (Call × Option Action)} {c : Call} (a : Action) :
      Racing E hist st (before ++ (c, some a) :: after) → perform c.env st a = (st', .ok ()) → Racing E hist st' (before ++ (c, none) :: after)
  | ends {hist : List (Msg × Msg)} {st : Store} {before after : List (Call × Option Action)} {c : Call × Option Action} :
      Racing E hist st (before ++ c :: after) → Racing E hist st (before ++ after)

/-- The log, or the list of credentials, that an insertion makes longer. -/
def addsTo (st : Store) : Action → List Str
  | .keyEvent pre _ => st.kels pre
  | .transactionEvent pre _ => st.tels pre
  | .acdc _ => st.acdcs
  | .nothing => []

/-- The same, but an insertion is refused if what it makes longer is not as it was at the check. With each call is what it is about to insert, and
what that makes longer as it was at the check. -/
inductive Guarded (E : Env) : List (Msg × Msg) → Store → List (Call × Option (Action × List Str)) → Prop
  | empty : Guarded E [] Store.empty []
  | begins {hist : List (Msg × Msg)} {st : Store} {calls : List (Call × Option (Action × List Str))} (E' : Env) (fuel : Nat) (stream : Bytes) (msgs : List Msg)
      (deep verify : Option Bool) :
      Guarded E hist st calls → SameCode E E' → Remembers E' → E'.parse stream = .ok msgs → verify ≠ some false →
      Guarded E (hist ++ pairs msgs) st ((⟨E', fuel, deep, verify, msgs, []⟩, none) :: calls)
  | checks {hist : List (Msg × Msg)} {st : Store} {before after : List (Call × Option (Action × List Str))} {c : Call} (m g : Msg) (rest : List Msg) (a : Action)
      (noted : List Str) :
      Guarded E hist st (before ++ (c, none) :: after) → c.left = m :: g :: rest →
      ingestOne c.env st c.fuel c.deep c.verify m (some g) c.noted = .ok (a, noted) →
      Guarded E hist st (before ++ ({ c with left := rest, noted := noted }, some (a, addsTo st a)) :: after)
  | inserts {hist : List (Msg × Msg)} {st st' : Store} {before after : List (Call × Option (Action × List Str))} {c : Call} (a : Action) (log : List Str) :
      Guarded E hist st (before ++ (c, some (a, log)) :: after) → addsTo st a = log → perform c.env st a = (st', .ok ()) →
      Guarded E hist st' (before ++ (c, none) :: after)
  | ends {hist : List (Msg × Msg)} {st : Store} {before after : List (Call × Option (Action × List Str))} {c : Call × Option (Action × List Str)} :
      Guarded E hist st (before ++ c :: after) → Guarded E hist st (before ++ after)

end Keride.Spec
