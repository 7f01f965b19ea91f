/-
A controller whose keys for rotations are kept elsewhere, by someone who gives out their digests, later the keys, and signatures.
-/
import Verif.Spec.Message
import Verif.Model.Sample.Issue

namespace Keride.Spec

open Sample

/-- A text of a threshold that one may ask of the keys of a set: JSON for a number, or for weights for exactly these keys. -/
def AskedOf (E : Env) (text : Str) (keys : KeySet) : Prop :=
  ∃ v, jsonRead E.fl text = .ok v ∧ v ≠ .int 0 ∧ Askable (some v) keys.keys.length

/-- What a controller does with `incept_partial` and `rotate_partial`, given digests and keys in place of salts, and interactions in between. The
digests are those of the keys of a set `away` that is kept elsewhere. The rotation lists the keys of that set, and the digests of the keys of the next one;
`rotate_partial` returns its text without signatures. Those who have it sign it with the keys that were away and with the new signing keys, and make a message of it.
Each time the controller passes on what the calls before returned (the identifier, the SAID of the last event, the number of events so far, the
signing keys). Kind and tier of keys, the numbers, and the unused parameters are arbitrary. `ms` are the messages, in order. -/
inductive AwaySession (E : Env) (S : Stretch) : (pre said : Str) → (ks away : KeySet) → (ms : List Str) → Prop
  | incept (rnd : Nat → Nat) (code tier : Option Str) (scount rcount : Option Nat) (salt : Option Bytes) (digests : List Str) (sith pre m : Str) (ks away : KeySet)
      (usable : Usable away) (some_key : away.keys ≠ []) (digested : away.digersQb64 E = .ok digests) (asked : AskedOf E sith away)
      (call : Sample.kmiInceptPartial E S rnd code scount rcount (some true) (some (str% "E")) tier salt (some digests) (some sith) = .ok (pre, ks, m)) :
      AwaySession E S pre pre ks away [m]
  | interact (rnd : Nat) (data : Value) (pre said said' m : Str) (ks away : KeySet) (ms : List Str)
      (before : AwaySession E S pre said ks away ms) (hdata : Plain data ∧ nesting data ≤ 126)
      (call : Sample.kmiInteract E rnd ks pre said ms.length data = .ok (said', m)) :
      AwaySession E S pre said' ks away (ms ++ [m])
  | rotate (rnd : Nat → Nat) (code tier : Option Str) (scount rcount : Option Nat) (keySn r1 r2 : Nat) (keys digests : List Str) (sith text pre said said' m : Str)
      (ks away ks' away' : KeySet) (s : Sad) (sa sb : List Siger) (e : Str) (ms : List Str)
      (before : AwaySession E S pre said ks away ms)
      (given : away.verfersQb64 E = .ok keys) (usable : Usable away') (some_key : away'.keys ≠ []) (digested : away'.digersQb64 E = .ok digests)
      (asked : AskedOf E sith away')
      (call : Sample.kmiRotatePartial E S rnd pre said ms.length keySn code scount rcount tier none none (some keys) (some digests) (some sith) = .ok (said', ks', text))
      (same : s.raw = toUtf8 text) (theirs : away.sign E r1 s.raw none = .ok sa) (ours : ks'.sign E r2 s.raw none = .ok sb)
      (endorsed : endorseSerder E.chk (some (sa ++ sb)) none none none = .ok e) (message : messagizeSerder s e (some true) = .ok m) :
      AwaySession E S pre said' ks' away' (ms ++ [m])

end Keride.Spec
