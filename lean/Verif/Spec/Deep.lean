/-
What deep verification is about: a store that is not trusted.
-/
import Verif.Spec.Tel

namespace Keride.Spec

open Sample

/-- The texts kept for an identifier are events of that identifier, and none has the SAID of another. -/
structure Filed (chk : Bool) (fl : Str → Option Str) (pre : Str) (texts : List Str) : Prop where
  own : ∀ t ∈ texts, ∀ s, Serder.newWithRaw fl (toUtf8 t) = .ok s → HasText (str% "i") pre s
  once : ∀ (i j : Nat) t u s r q, texts[i]? = some t → texts[j]? = some u → Serder.newWithRaw fl (toUtf8 t) = .ok s → Serder.newWithRaw fl (toUtf8 u) = .ok r →
    Sadder.said chk s = .ok q → Sadder.said chk r = .ok q → i = j

/-- The same for all identifiers, and no SAID is in the logs of two. -/
structure FiledStore (chk : Bool) (fl : Str → Option Str) (st : Store) : Prop where
  log : ∀ pre, Filed chk fl pre (st.kels pre)
  apart : ∀ pre pre' t u s r q, t ∈ st.kels pre → u ∈ st.kels pre' → Serder.newWithRaw fl (toUtf8 t) = .ok s → Serder.newWithRaw fl (toUtf8 u) = .ok r →
    Sadder.said chk s = .ok q → Sadder.said chk r = .ok q → pre = pre'

/-- None of the events that come in has the SAID of a key event of the store. -/
def NewTo (chk : Bool) (fl : Str → Option Str) (st : Store) (msgs : List Msg) : Prop :=
  ∀ p s q, Msg.payload p ∈ msgs → Serder.newWithRaw fl (toUtf8 p) = .ok s → Sadder.said chk s = .ok q →
    ∀ pre, ∀ t ∈ st.kels pre, ∀ r, Serder.newWithRaw fl (toUtf8 t) = .ok r → Sadder.said chk r ≠ .ok q

/-- A stored text and the event and signatures that are read from it. -/
def Kept (E : Env) (text : Str) (e : Entry) : Prop :=
  Serder.newWithRaw E.fl (toUtf8 text) = .ok e.sad ∧ attachedQuadlets E text e.sad = .ok e.groups

/-- Each event names the SAID of the next one as its prior event. -/
def Chained (chk : Bool) : List Sad → Prop
  | a :: b :: l => (∃ q, Sadder.said chk b = .ok q ∧ HasText (str% "p") q a) ∧ Chained chk (b :: l)
  | _ => True

/-- Events in a circle: each is addressed by the digest of its content, and its content has the SAID of the next. The
events are some of those given: without this, digests of finitely many lengths would always leave a circle somewhere. -/
def Circular (H : Hash) (chk : Bool) (among : Sad → Prop) : Prop :=
  ∃ l a z, l.head? = some a ∧ l.getLast? = some z ∧ (∀ s ∈ l, among s ∧ SelfAddressed H chk s) ∧ Chained chk l ∧
    ∃ q, Sadder.said chk a = .ok q ∧ HasText (str% "p") q z

/-- The event is kept for some identifier. -/
def KeptIn (fl : Str → Option Str) (st : Store) (s : Sad) : Prop :=
  ∃ pre, ∃ text ∈ st.kels pre, Serder.newWithRaw fl (toUtf8 text) = .ok s

/-- The event is kept in the transaction log of the identifier. -/
def KeptFor (fl : Str → Option Str) (st : Store) (id : Str) (s : Sad) : Prop :=
  ∃ text ∈ st.tels id, Serder.newWithRaw fl (toUtf8 text) = .ok s

/-- What can be relied on in a store of which nothing was verified: key events up to which the log of their identifier is
valid from its beginning. Of a registry it is only known what is stored as its first event. -/
def reliable (E : Env) (st : Store) : Known where
  keys p a := ∃ (i : Nat) (text : Str) (log : List Entry), (st.kels p)[i]? = some text ∧ Serder.newWithRaw E.fl (toUtf8 text) = .ok a ∧
    List.Forall₂ (Kept E) ((st.kels p).take (i + 1)) log ∧ ValidLog E.H E.C E.chk E.fl p log
  first r e := ∃ text, (st.tels r)[0]? = some text ∧ Serder.newWithRaw E.fl (toUtf8 text) = .ok e

end Keride.Spec
