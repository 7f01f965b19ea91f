/-
Messages as the sample code sends them: an event or credential followed by attached material.
-/
import Verif.Spec.Stream
import Verif.Spec.Control

namespace Keride.Spec

open Sample

/-- Attached material that says how long it is: the counter `-V` with the number of quadlets (groups of four bytes), then the material. -/
def Framed (body text : Str) : Prop :=
  ∃ c, text = c ++ body ∧ c.length = 4 ∧ 4 ∣ (toUtf8 body).length ∧ ∀ r, Counter.newWithQb64 (c ++ r) = .ok ⟨str% "-V", (toUtf8 body).length / 4⟩

/-- A text that is the JSON of an object, without superfluous spaces and not nested too deeply to be read. Its first field is the version string, which
says the protocol and how many bytes the text has. -/
def Document (proto t : Str) : Prop :=
  ∃ o, t = (Value.obj ((str% "v", .str (versionText proto ⟨1, 0⟩ (str% "JSON") (toUtf8 t).length)) :: o)).toJson ∧
    Plain (.obj ((str% "v", .str (versionText proto ⟨1, 0⟩ (str% "JSON") (toUtf8 t).length)) :: o)) ∧
    nesting (.obj ((str% "v", .str (versionText proto ⟨1, 0⟩ (str% "JSON") (toUtf8 t).length)) :: o)) ≤ 127

/-- The message of an event with the controller's signatures: the bytes of the event as text, then framed the group `-A` of
exactly these signatures in order. -/
def SignedMessage (chk : Bool) (s : Sad) (sigs : List Siger) (m : Str) : Prop :=
  ∃ event att body, s.raw = toUtf8 event ∧ m = event ++ att ∧ Framed body att ∧
    ∀ rest, StartsWithGroup chk (str% "-A") (sigs.map Siger.i) (body ++ rest) rest

/-- A threshold one may ask of `n` keys: the default one, a number, or weights (in clauses, or a single clause) for exactly
`n` positions. -/
def Askable (sith : Option Value) (n : Nat) : Prop :=
  sith = none ∨ (∃ i, sith = some (.int i)) ∨ (∃ v qss, sith = some v ∧ IsWeights v qss ∧ qss ≠ [] ∧ positions qss = n) ∨
    ∃ v qs, sith = some v ∧ IsClause v qs ∧ qs ≠ [] ∧ qs.length = n

/-- What a controller does with the key management functions: it creates an identifier that is a digest, then interacts
and rotates, each time passing on what the calls before returned: the identifier, the SAID of the last event, the number
of events so far, and the current or next keys. `ms` are the messages it got, in order. -/
inductive Session (E : Env) (S : Stretch) : (pre said : Str) → (ks nks : KeySet) → (ms : List Str) → Prop
  | incept (rnd : Nat → Nat) (code ncode tier : Option Str) (count ncount wcount : Option Nat) (sith nsith : Option Value) (pre m : Str) (ks nks : KeySet)
      (hsith : Askable sith (count.getD 1)) (hnsith : Askable nsith (ncount.getD 1)) (hzero : nsith ≠ some (.int 0))
      (call : Sample.kmiIncept E S rnd code count sith ncode ncount nsith wcount (some true) (some (str% "E")) tier = .ok (pre, [ks, nks], m)) :
      Session E S pre pre ks nks [m]
  | interact (rnd : Nat) (data : Value) (pre said said' m : Str) (ks nks : KeySet) (ms : List Str) (before : Session E S pre said ks nks ms)
      (hdata : Plain data ∧ nesting data ≤ 126)
      (call : Sample.kmiInteract E rnd ks pre said ms.length data = .ok (said', m)) : Session E S pre said' ks nks (ms ++ [m])
  | rotate (rnd : Nat → Nat) (ncode tier : Option Str) (ncount wcount : Option Nat) (sith nsith : Option Value) (pre said said' m : Str) (ks nks nnks : KeySet)
      (ms : List Str) (before : Session E S pre said ks nks ms) (hsith : Askable sith nks.keys.length) (hnsith : Askable nsith (ncount.getD 1))
      (call : Sample.kmiRotate E S rnd pre nks said ms.length sith ncode ncount nsith wcount tier = .ok (said', nnks, m)) :
      Session E S pre said' nks nnks (ms ++ [m])

/-- A message taken apart: the text of the event, the attached text, the signatures in it. -/
structure Parts where
  event : Str
  attached : Str
  sigs : List Siger

/-- The whole message. -/
def Parts.text (p : Parts) : Str := p.event ++ p.attached

/-- A signature as it is read from its text: of a kind that signatures have, and without the key it was made with. -/
def FromText (g : Siger) : Prop := g.i.code ∈ Siger.codes ∧ g.verfer = Verfer.default

/-- The attached text is framed, and what it frames is the group of the controller's signatures, here as they are read. -/
def Parts.Wellformed (chk : Bool) (p : Parts) : Prop :=
  (∀ g ∈ p.sigs, FromText g) ∧ ∃ body, Framed body p.attached ∧ ∀ rest, StartsWithGroup chk (str% "-A") (p.sigs.map Siger.i) (body ++ rest) rest

/-- What the stream parser makes of the message. -/
def Parts.parsed (p : Parts) : List Sample.Msg := [.payload p.event, .group (.quadlets [.controller p.sigs]) (.ok p.attached)]

/-- The header of the sample code for a seal given as a value: as in `SealHead`, with the texts in its fields. -/
def SampleSealHead : Option Sample.Seal → Str → Prop
  | none, t => t = []
  | some s, t => ∃ sl : Keride.Seal, sl.last = s.last ∧ field (str% "i") s.value = some (.str sl.i) ∧
      (s.last = false → field (str% "s") s.value = some (.str sl.s) ∧ field (str% "d") s.value = some (.str sl.d)) ∧ SealHead (some sl) t

end Keride.Spec
