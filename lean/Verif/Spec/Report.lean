/-
Messages and the SAIDs they report.
-/
import Verif.Spec.Market
import Verif.Spec.Reader

namespace Keride.Spec

open Sample

/-- A text that starts with an event or a credential, and the SAID it reports. -/
def Reports (E : Env) (t q : Str) : Prop :=
  (∃ s, Serder.newWithRaw E.fl (toUtf8 t) = .ok s ∧ Sadder.said E.chk s = .ok q) ∨ ∃ c, Creder.newWithRaw E.fl (toUtf8 t) = .ok c ∧ Sadder.said E.chk c = .ok q

/-- Nothing in the store reports a SAID that one of the messages reports. -/
def Unmet (E : Env) (st : Store) (ms : List Str) : Prop :=
  ∀ m ∈ ms, ∀ q, Reports E m q → ∀ t, (t ∈ st.acdcs ∨ ∃ p, t ∈ st.kels p ∨ t ∈ st.tels p) → ¬ Reports E t q

/-- A text is in the store. -/
def InStore (st : Store) (t : Str) : Prop := t ∈ st.acdcs ∨ ∃ p, t ∈ st.kels p ∨ t ∈ st.tels p

/-- The texts that are digested for what is in the store. -/
def StoreText (fl : Str → Option Str) (st : Store) (text : Str) : Prop :=
  ∃ t, InStore st t ∧ ∃ s, (Serder.newWithRaw fl (toUtf8 t) = .ok s ∨ Creder.newWithRaw fl (toUtf8 t) = .ok s) ∧ EventText s text

/-- What a verifier stored is in the form that the library gives it: the version string is the first field of every document, credentials have no event type, and the
SAID of the inception of a registry is the identifier of the registry. The verifier checks none of this. -/
structure Orderly (E : Env) (st : Store) : Prop where
  events : ∀ p t s, t ∈ st.kels p ∨ t ∈ st.tels p → Serder.newWithRaw E.fl (toUtf8 t) = .ok s → Ordinary s
  credentials : ∀ t c, t ∈ st.acdcs → Creder.newWithRaw E.fl (toUtf8 t) = .ok c → Ordinary c ∧ field (str% "t") c.ked = none
  registries : ∀ q t s, t ∈ st.tels q → Serder.newWithRaw E.fl (toUtf8 t) = .ok s → HasText (str% "t") (str% "vcp") s → Sadder.said E.chk s = .ok q

end Keride.Spec
