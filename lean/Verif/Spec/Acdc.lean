/-
What the acceptance of a credential (ACDC) means, written on the credential, its proof and what a verifier has stored.
-/
import Verif.Spec.Tel

namespace Keride.Spec

open Sample

/-- The operators an edge names: none, one, or a list. -/
def Operators (node : Value) (ops : List Str) : Prop :=
  (field (str% "o") node = none ∧ ops = []) ∨ (∃ o, field (str% "o") node = some (.str o) ∧ ops = [o]) ∨ field (str% "o") node = some (.arr (ops.map .str))

/-- The operators that relate the two credentials of an edge. -/
def relations (ops : List Str) : List Str := ops.filter fun o => decide (o ∈ [str% "I2I", str% "NI2I", str% "DI2I"])

/-- The credential `p` was issued to the issuer of `cred`. -/
def IssueeIssues (p cred : Sad) : Prop :=
  ∃ sub who, field (str% "a") p.ked = some sub ∧ field (str% "i") sub = some (.str who) ∧ HasText (str% "i") who cred

/-- An edge to another credential: a stored one with the SAID the edge names, of the schema the edge names. Unless the
edge says otherwise, a credential issued to somebody is used by them. -/
def EdgeOk (E : Env) (st : Store) (cred : Sad) (node : Value) : Prop :=
  ∃ said t p sub ops, field (str% "n") node = some (.str said) ∧ t ∈ st.acdcs ∧ Creder.newWithRaw E.fl (toUtf8 t) = .ok p ∧
    Sadder.said E.chk p = .ok said ∧ field (str% "a") p.ked = some sub ∧
    (∀ v, field (str% "s") node = some v → ∃ s text, v = .str s ∧ p.raw = toUtf8 text ∧ E.schema s text = .ok true) ∧
    Operators node ops ∧ str% "NOT" ∉ ops ∧
    (relations ops = [str% "NI2I"] ∨ (relations ops = [] ∧ field (str% "i") sub = none) ∨
      ((relations ops = [str% "I2I"] ∨ relations ops = []) ∧ IssueeIssues p cred))

/-- The edges of a credential: one map, or a list of maps. -/
def Edge (cred : Sad) (edge : Value) : Prop :=
  ∃ e, field (str% "e") cred.ked = some e ∧ ((∃ o, e = .obj o ∧ edge = e) ∨ ∃ l, e = .arr l ∧ edge ∈ l)

/-- A proof by signatures over the whole credential. -/
def IsRoot (sig : SadPathSig) : Prop := Bexter.bext sig.pather = .ok (str% "-")

/-- Signatures over the bytes of the credential by keys of a stored key event of the signer the proof names, different
signatures, that meet the threshold of that event. -/
def RootSigned (E : Env) (st : Store) (cred : Sad) (sig : SadPathSig) : Prop :=
  ∃ (pre text : Str) (e : Sad) (q : Str) (keys : List Matter.M) (t : Tholder) (sigs : List Siger), Matter.qb64 E.chk sig.prefixer = .ok pre ∧ text ∈ st.kels pre ∧ Serder.newWithRaw E.fl (toUtf8 text) = .ok e ∧
    Sadder.said E.chk e = .ok q ∧ Matter.qb64 E.chk sig.saider = .ok q ∧ Serder.verfers e = .ok keys ∧ Serder.tholder E.chk E.fl e = .ok (some t) ∧
    sigs.Sublist sig.sigers ∧ sigs.Nodup ∧ (∀ g ∈ sigs, ∃ k, keys[g.i.index]? = some k ∧ Verfer.verify E.C k g.i.raw cred.raw = .ok true) ∧
    Meets t (sigs.map fun g => g.i.index)

/-- What the acceptance of a credential with its proof establishes, but for the state of the credential. -/
structure Proven (E : Env) (st : Store) (cred : Sad) (groups : List SigGroup) : Prop where
  status : ∃ ri, HasText (str% "ri") ri cred
  digest : SelfAddressed E.H E.chk cred
  schema : ∃ s text, HasText (str% "s") s cred ∧ cred.raw = toUtf8 text ∧ E.schema s text = .ok true
  proofs : ∀ g ∈ groups, ∃ l, g = .sadPath l
  rooted : ∃ l sig, .sadPath l ∈ groups ∧ sig ∈ l ∧ IsRoot sig
  signed : ∀ l sig, .sadPath l ∈ groups → sig ∈ l → IsRoot sig → RootSigned E st cred sig
  edges : ∀ edge, Edge cred edge → ∃ o, edge = .obj o ∧ ∀ label node, (label, node) ∈ o → label ≠ str% "d" → label ≠ str% "o" → EdgeOk E st cred node

/-- A stored credential: received, with its proof. -/
def StoredCred (fl : Str → Option Str) (hist : List (Msg × Msg)) (text : Str) (c : Sad) (groups : List SigGroup) : Prop :=
  ∃ payload t g, (Msg.payload payload, Msg.group (.quadlets groups) (.ok g)) ∈ hist ∧ Creder.newWithRaw fl (toUtf8 payload) = .ok c ∧
    c.raw = toUtf8 t ∧ text = t ++ g ∧ Creder.newWithRaw fl (toUtf8 text) = .ok c

/-- The controller of a registry: the one its first stored event names. -/
def RegistryOf (E : Env) (st : Store) (ri ii : Str) : Prop :=
  ∃ f reg, (st.tels ri).head? = some f ∧ Serder.newWithRaw E.fl (toUtf8 f) = .ok reg ∧ HasText (str% "ii") ii reg

end Keride.Spec
