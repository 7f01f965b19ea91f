/-
Vocabulary for C107: the transaction events a controller sealed.
-/
import Verif.Spec.Acdc

namespace Keride.Spec

open Sample

/-- The events of a key event log never seal two transaction events with one identifier and one sequence number but different SAIDs. -/
def SealsOnce (chk : Bool) (log : List Entry) : Prop :=
  ∀ x ∈ log, ∀ y ∈ log, ∀ e e' id n, Seals chk x.sad e → Seals chk y.sad e' → HasText (str% "i") id e → HasText (str% "i") id e' →
    Serder.sn e = .ok n → Serder.sn e' = .ok n → Sadder.said chk e = Sadder.said chk e'

/-- The same content but for the text of the SAID. -/
def SameButSaid (s s' : Sad) : Prop := ∀ l, l ≠ str% "d" → field l s.ked = field l s'.ked

/-- The texts digested to derive the identifier of a registry. -/
def RegistryText (code : Str) (s : Sad) (text : Str) : Prop :=
  ∃ o, s.ked = .obj o ∧ Resized (blanked code (str% "d") (blanked code (str% "i") o)) text

/-- A transaction event kept in a registry of a controller, at a place of the log of an identifier. -/
structure KeptUnder (E : Env) (st : Store) (pre id : Str) (n : Nat) (e : Sad) : Prop where
  kept : ∃ t, (st.tels id)[n]? = some t ∧ Serder.newWithRaw E.fl (toUtf8 t) = .ok e
  type : HasText (str% "t") (str% "iss") e ∨ HasText (str% "t") (str% "rev") e
  registry : ∃ ri, HasText (str% "ri") ri e ∧ RegistryOf E st ri pre

end Keride.Spec
