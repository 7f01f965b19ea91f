/-
What a transaction event log must satisfy: registries, issuances and revocations of credentials, written on the events
themselves.
-/
import Verif.Spec.Kel

namespace Keride.Spec

open Sample

/-- The fields every transaction event of a type has. -/
def vcpFields : List Str := [str% "v", str% "d", str% "i", str% "s", str% "t", str% "bt", str% "b", str% "c"]
def issFields : List Str := [str% "v", str% "i", str% "s", str% "t", str% "ri", str% "dt"]
def revFields : List Str := [str% "v", str% "i", str% "s", str% "t", str% "p", str% "dt"]

/-- The only seal of the key event `a` names the transaction event `e`: its identifier, sequence number and SAID. -/
def Seals (chk : Bool) (a e : Sad) : Prop :=
  ∃ sl i n d, field (str% "a") a.ked = some (.arr [sl]) ∧ field (str% "i") sl = some (.str i) ∧ field (str% "s") sl = some (.str n) ∧
    field (str% "d") sl = some (.str d) ∧ HasText (str% "i") i e ∧ HasText (str% "s") n e ∧ Sadder.said chk e = .ok d

/-- An identifier is derived from an event: it is the digest of the event's content with `i` and `d` filled with `#` and
the size of that, or a primitive that is not a digest, and the event's only key. -/
def Derived (H : Hash) (id : Str) (s : Sad) : Prop :=
  (∃ o text, ∃ code ∈ digests, s.ked = .obj o ∧ Resized (blanked code (str% "d") (blanked code (str% "i") o)) text ∧
    Matter.newWithQb64 id = .ok ⟨code, 0, H code (toUtf8 text)⟩) ∨
  ((∃ m, Matter.newWithQb64 id = .ok m ∧ m.code ∉ digests) ∧ field (str% "k") s.ked = some (.arr [.str id]))

/-- `keys p a`: `a` is an event of the key event log of the identifier `p`. `first r e`: the transaction event log of `r`
starts with `e`. -/
structure Known where
  keys : Str → Sad → Prop
  first : Str → Sad → Prop

/-- Anchored by the controller of a registry: the first event of the registry's log names the controller, and an event
in the controller's key event log seals `e`. -/
def AnchoredIn (W : Known) (chk : Bool) (ri : Str) (e : Sad) : Prop :=
  ∃ r ii a, W.first ri r ∧ HasText (str% "ii") ii r ∧ W.keys ii a ∧ Seals chk a e

/-- A transaction event log of an identifier: the inception of a registry or the issuance of a credential, then
revocations. Every event has the identifier, the next sequence number and, after the first, the SAID of the event
before. The controller of the registry an event names anchored it in their key event log. -/
inductive ValidTel (H : Hash) (chk : Bool) (W : Known) (id : Str) : List Sad → Prop
  | incept (e a : Sad) (ii : Str) (type : HasText (str% "t") (str% "vcp") e) (ident : HasText (str% "i") id e) (sn : Serder.sn e = .ok 0)
      (fields : Has vcpFields e) (derived : Derived H id e) (controller : HasText (str% "ii") ii e) (known : W.keys ii a)
      (sealed_ : Seals chk a e) : ValidTel H chk W id [e]
  | issue (e : Sad) (ri : Str) (type : HasText (str% "t") (str% "iss") e) (ident : HasText (str% "i") id e) (sn : Serder.sn e = .ok 0)
      (fields : Has issFields e) (digest : SelfAddressed H chk e) (registry : HasText (str% "ri") ri e) (anchored : AnchoredIn W chk ri e) :
      ValidTel H chk W id [e]
  | revoke (log : List Sad) (prev e : Sad) (ri psaid : Str) (before : ValidTel H chk W id log)
      (type : HasText (str% "t") (str% "rev") e) (ident : HasText (str% "i") id e) (sn : Serder.sn e = .ok log.length)
      (fields : Has revFields e) (digest : SelfAddressed H chk e) (last : log.getLast? = some prev) (prior : Sadder.said chk prev = .ok psaid)
      (chained : HasText (str% "p") psaid e) (registry : HasText (str% "ri") ri e) (anchored : AnchoredIn W chk ri e) :
      ValidTel H chk W id (log ++ [e])

/-- A stored transaction event: received, with the couple that names its anchor. -/
def StoredTx (fl : Str → Option Str) (hist : List (Msg × Msg)) (text : Str) (e : Sad) : Prop :=
  ∃ payload t g l, (Msg.payload payload, Msg.group (.couples l) (.ok g)) ∈ hist ∧ Serder.newWithRaw fl (toUtf8 payload) = .ok e ∧
    e.raw = toUtf8 t ∧ text = t ++ g ∧ Serder.newWithRaw fl (toUtf8 text) = .ok e

end Keride.Spec
