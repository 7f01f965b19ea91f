/-
The messages of an issuer: what is attached to a transaction event and to a credential, and what a verifier keeps.
-/
import Verif.Spec.Message
import Verif.Spec.Issue

namespace Keride.Spec

open Sample

/-- A text that is one primitive: it is read from it whatever follows, and its size is that of the text. -/
def Item (m : Matter.M) (t : Str) : Prop := (∀ r, Matter.newWithQb64 (t ++ r) = .ok m) ∧ Matter.fullSize m = .ok t.length

/-- A text that is one counter. -/
def CountItem (code : Str) (n : Nat) (t : Str) : Prop := t.length = 4 ∧ ∀ r, Counter.newWithQb64 (t ++ r) = .ok ⟨code, n⟩

/-- The text saying which key event seals a transaction event: the counter `-G` of one couple, the sequence number and the SAID. -/
def CoupleText (t : Str) (c : Matter.M × Matter.M) : Prop := ∃ k a b, t = k ++ (a ++ b) ∧ CountItem (str% "-G") 1 k ∧ Item c.1 a ∧ Item c.2 b

/-- The text of a proof: framed, the counter `-J` of one signature of a part of the credential, the path of the part, the counter `-F`
of one signer, their identifier, the sequence number and SAID of the event with their keys, and the group of signatures, here as they are read. -/
def ProofText (chk : Bool) (t : Str) (sig : SadPathSig) : Prop :=
  (∀ g ∈ sig.sigers, FromText g) ∧ ∃ body k p k' i n d g, Framed body t ∧ body = k ++ (p ++ (k' ++ (i ++ (n ++ (d ++ g))))) ∧ CountItem (str% "-J") 1 k ∧ Item sig.pather p ∧
    CountItem (str% "-F") 1 k' ∧ Item sig.prefixer i ∧ Item sig.seqner n ∧ Item sig.saider d ∧
    ∀ rest, StartsWithGroup chk (str% "-A") (sig.sigers.map Siger.i) (g ++ rest) rest

/-- What a store keeps for a log: each text is the bytes of an event and attached text. Unless earlier verification is never
repeated (`deep` given as false), the stream parser reads the attached text as the signatures of the event. -/
def KeepsLog (E : Env) (deep : Option Bool) (texts : List Str) (log : List Entry) : Prop :=
  List.Forall₂ (fun x e => ∃ t g, x = t ++ g ∧ e.sad.raw = toUtf8 t ∧ (deep ≠ some false → ReadsAs E g (.quadlets e.groups))) texts log

/-- A text of a store is the credential with the SAID. -/
def IsCredential (E : Env) (id text : Str) : Prop := ∃ c, Creder.newWithRaw E.fl (toUtf8 text) = .ok c ∧ Sadder.said E.chk c = .ok id

end Keride.Spec
