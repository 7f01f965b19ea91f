/-
An issuer at work: everything it does with the library, and what a verifier has in the end.
-/
import Verif.Spec.Send

namespace Keride.Spec

open Sample

/-- A message: a text, what is attached to it, and what the stream parser makes of the attachment. -/
structure Piece where
  text : Str
  attached : Str
  group : Group

/-- The whole message. -/
def Piece.whole (x : Piece) : Str := x.text ++ x.attached

/-- What the stream parser makes of the message. -/
def Piece.parsed (x : Piece) : List Msg := [.payload x.text, .group x.group (.ok x.attached)]

/-- The message is what readers of the stream format expect: a document that says how long it is, and attached the signatures of a key event, the couple naming the key
event that seals a transaction event, or the proof of a credential. -/
inductive Piece.Wellformed (chk : Bool) : Piece → Prop
  | event (p : Parts) (d : Document (str% "KERI") p.event) (h : p.Wellformed chk) : Piece.Wellformed chk ⟨p.event, p.attached, .quadlets [.controller p.sigs]⟩
  | transaction (t g : Str) (c : Matter.M × Matter.M) (d : Document (str% "KERI") t) (h : CoupleText g c) : Piece.Wellformed chk ⟨t, g, .couples [c]⟩
  | credential (t g : Str) (sig : SadPathSig) (d : Document (str% "ACDC") t) (h : ProofText chk g sig) : Piece.Wellformed chk ⟨t, g, .quadlets [.sadPath [sig]]⟩

/-- A verifier is sent messages one after the other, and accepts each. -/
inductive Takes (E : Env) (fuel : Nat) (deep verify : Option Bool) : Store → List Piece → Store → Prop
  | none (st : Store) : Takes E fuel deep verify st [] st
  | one (st st' st'' : Store) (xs : List Piece) (x : Piece) (before : Takes E fuel deep verify st xs st')
      (next : ingestLoop E fuel deep verify st' x.parsed [] = (st'', .ok ())) : Takes E fuel deep verify st (xs ++ [x]) st''

/-- What an issuer does with the functions of the library: it creates an identifier, interacts, rotates, creates its
registry, issues credentials and revokes them. It passes on what the calls before returned, and keeps in its own store what they return. `ri`
is the registry when there is one, `ks` and `nks` are the current and next keys, `own` is the store, `ms` are the messages in order. -/
inductive Office (E : Env) (S : Stretch) : (issuer : Str) → (ri : Option Str) → (ks nks : KeySet) → (own : Store) → (ms : List Str) → Prop
  | incept (rnd : Nat → Nat) (code ncode tier : Option Str) (count ncount wcount : Option Nat) (sith nsith : Option Value) (pre m : Str) (ks nks : KeySet)
      (hsith : Askable sith (count.getD 1)) (hnsith : Askable nsith (ncount.getD 1)) (hzero : nsith ≠ some (.int 0))
      (call : kmiIncept E S rnd code count sith ncode ncount nsith wcount (some true) (some (str% "E")) tier = .ok (pre, [ks, nks], m)) :
      Office E S pre none ks nks (Store.empty.insertKeyEvent pre m) [m]
  | interact (rnd : Nat) (data : Value) (issuer dig said m : Str) (ri : Option Str) (ks nks : KeySet) (own : Store) (ms : List Str)
      (before : Office E S issuer ri ks nks own ms) (hdata : Plain data ∧ nesting data ≤ 126) (last : own.latestSaid E issuer = .ok dig)
      (call : kmiInteract E rnd ks issuer dig (own.kels issuer).length data = .ok (said, m)) :
      Office E S issuer ri ks nks (own.insertKeyEvent issuer m) (ms ++ [m])
  | rotate (rnd : Nat → Nat) (ncode tier : Option Str) (ncount wcount : Option Nat) (sith nsith : Option Value) (issuer dig said m : Str) (ri : Option Str)
      (ks nks nnks : KeySet) (own : Store) (ms : List Str) (before : Office E S issuer ri ks nks own ms) (hsith : Askable sith nks.keys.length)
      (hnsith : Askable nsith (ncount.getD 1)) (last : own.latestSaid E issuer = .ok dig)
      (call : kmiRotate E S rnd issuer nks dig (own.kels issuer).length sith ncode ncount nsith wcount tier = .ok (said, nnks, m)) :
      Office E S issuer ri nks nnks (own.insertKeyEvent issuer m) (ms ++ [m])
  | registry (rnd : Nat) (issuer ri dig said m t g : Str) (s : Sad) (ks nks : KeySet) (own : Store) (ms : List Str)
      (before : Office E S issuer none ks nks own ms) (built : registryIncept E issuer = .ok (ri, s)) (text : s.raw = toUtf8 t)
      (last : own.latestSaid E issuer = .ok dig)
      (call : kmiInteract E rnd ks issuer dig (own.kels issuer).length (sealOf ri (str% "0") ri) = .ok (said, m))
      (couple : coupleText E (own.kels issuer).length said = .ok g) :
      Office E S issuer (some ri) ks nks ((own.insertKeyEvent issuer m).insertTransactionEvent ri (t ++ g)) (ms ++ [m, t ++ g])
  | issue (rnd : Nat → Nat) (now issuer ri schema data : Str) (recipient : Option Str) (priv : Option Bool) (rules : Option Str) (id m1 m2 m3 : Str)
      (ks nks : KeySet) (own : Store) (ms : List Str) (before : Office E S issuer (some ri) ks nks own ms)
      (hdata : ∀ v, jsonRead E.fl data = .ok v → Plain v ∧ nesting v ≤ 126)
      (hrules : ∀ t v, rules = some t → jsonRead E.fl t = .ok v → Plain v ∧ nesting v ≤ 126)
      (call : issueAcdc E S rnd now own ks ri issuer schema data recipient priv none rules = .ok (id, m1, m2, m3))
      (new : own.tels id = [])
      (fits : ∀ c t, Creder.newWithRaw E.fl (toUtf8 m3) = .ok c → c.raw = toUtf8 t → E.schema schema t = .ok true)
      (recent : E.expired now = .ok false) :
      Office E S issuer (some ri) ks nks (((own.insertKeyEvent issuer m1).insertTransactionEvent id m2).insertAcdc m3) (ms ++ [m1, m2, m3])
  | revoke (rnd : Nat → Nat) (now issuer ri id m1 m2 : Str) (ks nks : KeySet) (own : Store) (ms : List Str)
      (before : Office E S issuer (some ri) ks nks own ms) (credential : id ≠ ri)
      (call : revokeAcdc E S rnd now own ks ri issuer id = .ok (m1, m2)) :
      Office E S issuer (some ri) ks nks ((own.insertKeyEvent issuer m1).insertTransactionEvent id m2) (ms ++ [m1, m2])

/-- `st'` is `st` and what the issuer has. -/
structure Joined (issuer : Str) (st own st' : Store) : Prop where
  kels : st'.kels issuer = own.kels issuer
  otherKels : ∀ p, p ≠ issuer → st'.kels p = st.kels p
  tels : ∀ q, own.tels q ≠ [] → st'.tels q = own.tels q
  otherTels : ∀ q, own.tels q = [] → st'.tels q = st.tels q
  acdcs : st'.acdcs = st.acdcs ++ own.acdcs

/-- A verifier knows nothing of the issuer, of its registry and of its credentials. -/
structure Unknown (E : Env) (issuer : Str) (own st : Store) : Prop where
  kels : st.kels issuer = []
  tels : ∀ q, own.tels q ≠ [] → st.tels q = []
  acdcs : ∀ q, own.tels q ≠ [] → ∀ t ∈ st.acdcs, ¬ IsCredential E q t

end Keride.Spec
