/-
What a credential rests on, written on the credential and what a verifier has stored.
-/
import Verif.Spec.Acdc

namespace Keride.Spec

open Sample

/-- An edge of the credential names the SAID of another. -/
def SourceNamed (cred : Sad) (q : Str) : Prop :=
  ∃ edge o label node, Edge cred edge ∧ edge = .obj o ∧ (label, node) ∈ o ∧ label ≠ str% "d" ∧ label ≠ str% "o" ∧ field (str% "n") node = some (.str q)

/-- The stored credential with a SAID, the one the store finds, and its text. -/
def Found (E : Env) (st : Store) (q text : Str) (cred : Sad) : Prop :=
  st.getAcdc E q = .ok text ∧ Creder.newWithRaw E.fl (toUtf8 text) = .ok cred ∧ Sadder.said E.chk cred = .ok q

/-- The credential rests on another, directly or through stored credentials. -/
inductive RestsOn (E : Env) (st : Store) : Sad → Str → Prop
  | direct (cred : Sad) (q : Str) (names : SourceNamed cred q) : RestsOn E st cred q
  | through (cred c : Sad) (q text r : Str) (names : SourceNamed cred q) (found : Found E st q text c) (on : RestsOn E st c r) : RestsOn E st cred r

/-- The last event stored for the credential is neither a revocation nor too old. -/
def StillValid (E : Env) (st : Store) (q : Str) : Prop :=
  ∃ t e dt, (st.tels q).getLast? = some t ∧ Serder.newWithRaw E.fl (toUtf8 t) = .ok e ∧ ¬ HasText (str% "t") (str% "rev") e ∧ HasText (str% "dt") dt e ∧
    E.expired dt = .ok false

/-- A stored key event or transaction event reports the SAID. -/
def EventSaid (E : Env) (st : Store) (q : Str) : Prop :=
  ∃ pre t s, (t ∈ st.kels pre ∨ t ∈ st.tels pre) ∧ Serder.newWithRaw E.fl (toUtf8 t) = .ok s ∧ Sadder.said E.chk s = .ok q

/-- No stored event reports the SAID of a stored credential. -/
def Apart (E : Env) (st : Store) : Prop := ∀ q, EventSaid E st q → ∀ text, st.getAcdc E q ≠ .ok text

/-- Credentials of the stream that are addressed by their content and have the SAID of a stored one have its edges. -/
def SameEdges (E : Env) (msgs : List Msg) (st : Store) : Prop :=
  ∀ p c t c' q, Msg.payload p ∈ msgs → Creder.newWithRaw E.fl (toUtf8 p) = .ok c → SelfAddressed E.H E.chk c → t ∈ st.acdcs → Creder.newWithRaw E.fl (toUtf8 t) = .ok c' →
    Sadder.said E.chk c = .ok q → Sadder.said E.chk c' = .ok q → field (str% "e") c.ked = field (str% "e") c'.ked

/-- The texts that are digested for the credentials of a stream. -/
def StreamText (fl : Str → Option Str) (msgs : List Msg) (text : Str) : Prop :=
  ∃ p c, Msg.payload p ∈ msgs ∧ Creder.newWithRaw fl (toUtf8 p) = .ok c ∧ EventText c text

/-- The version string is the first field of the credentials of a stream. -/
def OrdinaryStream (E : Env) (msgs : List Msg) : Prop := ∀ p c, Msg.payload p ∈ msgs → Creder.newWithRaw E.fl (toUtf8 p) = .ok c → Ordinary c

end Keride.Spec
