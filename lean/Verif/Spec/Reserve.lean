/-
A controller that keeps the keys it will rotate with apart, in reserve, and signs with others.
-/
import Verif.Spec.Message
import Verif.Model.Sample.Issue

namespace Keride.Spec

open Sample

/-- What a controller does with `incept_partial` and `rotate_partial`, made from salts, and interactions in between: each time it passes on
what the calls before returned (the identifier, the SAID of the last event, the number of events so far, the signing keys), the salt it gave
for the next keys, and the number of establishment events so far. The kind of keys and the tier stay the same. The number of keys in reserve, `r`,
may grow but not become smaller. `ms` are the messages it got, in order. -/
inductive ReserveSession (E : Env) (S : Stretch) (code tier : Option Str) :
    (pre said : Str) → (ks : KeySet) → (salt : Bytes) → (r keySn : Nat) → (ms : List Str) → Prop
  | incept (rnd : Nat → Nat) (scount rcount : Option Nat) (salt : Bytes) (pre m : Str) (ks : KeySet)
      (call : Sample.kmiInceptPartial E S rnd code scount rcount (some true) (some (str% "E")) tier (some salt) none none = .ok (pre, ks, m)) :
      ReserveSession E S code tier pre pre ks salt (rcount.getD 3) 1 [m]
  | interact (rnd : Nat) (data : Value) (pre said said' m : Str) (ks : KeySet) (salt : Bytes) (r keySn : Nat) (ms : List Str)
      (before : ReserveSession E S code tier pre said ks salt r keySn ms) (hdata : Plain data ∧ nesting data ≤ 126)
      (call : Sample.kmiInteract E rnd ks pre said ms.length data = .ok (said', m)) :
      ReserveSession E S code tier pre said' ks salt r keySn (ms ++ [m])
  | rotate (rnd : Nat → Nat) (scount rcount : Option Nat) (pre said said' m : Str) (ks ks' : KeySet) (salt nextSalt : Bytes) (r keySn : Nat) (ms : List Str)
      (before : ReserveSession E S code tier pre said ks salt r keySn ms) (more : r ≤ rcount.getD 3)
      (call : Sample.kmiRotatePartial E S rnd pre said ms.length keySn code scount rcount tier (some salt) (some nextSalt) none none none = .ok (said', ks', m)) :
      ReserveSession E S code tier pre said' ks' nextSalt (rcount.getD 3) (keySn + 1) (ms ++ [m])

end Keride.Spec
