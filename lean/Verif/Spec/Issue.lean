/-
What a verifier must have to accept what an issuer sends.
-/
import Verif.Spec.Control
import Verif.Spec.Tel
import Verif.Model.Sample.Issue

namespace Keride.Spec

open Sample

/-- A couple names the key event `a` of the log that a verifier has for an identifier: by its place and its SAID. -/
def AnchorNamed (E : Env) (st : Store) (pre : Str) (couple : Matter.M × Matter.M) (a : Sad) : Prop :=
  ∃ n t q, n < 2 ^ 32 ∧ Seqner.sn couple.1 = .ok n ∧ (st.kels pre)[n]? = some t ∧ Serder.newWithRaw E.fl (toUtf8 t) = .ok a ∧
    Sadder.said E.chk a = .ok q ∧ Matter.qb64 E.chk couple.2 = .ok q

/-- The controller of a registry that a verifier knows: the first event of the log of the registry names them. -/
def Controller (E : Env) (st : Store) (ri issuer : Str) : Prop :=
  ∃ t r, (st.tels ri)[0]? = some t ∧ Serder.newWithRaw E.fl (toUtf8 t) = .ok r ∧ HasText (str% "ii") issuer r

/-- The stream parser reads a text as a group, perhaps followed by more. -/
def ReadsAs (E : Env) (text : Str) (g : Group) : Prop := ∃ x rest, E.parse (toUtf8 text) = .ok (.group g x :: rest)

/-- If all earlier verification is to be repeated (`deep` given as true), the stored events of an identifier verify again, with the
signatures that were kept with them, on a stack of the depth or a deeper one. -/
def Deepens (E : Env) (st : Store) (deep : Option Bool) (fuel : Nat) (pre : Str) : Prop :=
  deep = some true → ∀ n, fuel ≤ n → ∀ (k : Nat) (text : Str) (s : Sad), (st.kels pre)[k]? = some text → Serder.newWithRaw E.fl (toUtf8 text) = .ok s →
    ∃ g, attachedQuadlets E text s = .ok g ∧ ∀ v, ∃ w, verifyKeyEvent E st (some true) n s g v = .ok (true, w)

/-- `st'` is `st` with one more transaction event of an identifier. -/
structure OneMore (st st' : Store) (id text : Str) : Prop where
  log : st'.tels id = st.tels id ++ [text]
  others : ∀ p, p ≠ id → st'.tels p = st.tels p
  kels : st'.kels = st.kels
  acdcs : st'.acdcs = st.acdcs

/-- A field that is present when asked for. -/
def whenever (k : Str) (present : Prop) [Decidable present] : List Str := if present then [k] else []

/-- The fields of a credential, in order: it is blinded, has a registry, rests on other credentials, has rules, or not. -/
def credOrder (blinded registry edges rules : Bool) : List Str :=
  [str% "v", str% "d"] ++ whenever (str% "u") (blinded = true) ++ [str% "i"] ++ whenever (str% "ri") (registry = true) ++ [str% "s", str% "a"] ++
    whenever (str% "e") (edges = true) ++ whenever (str% "r") (rules = true)

/-- What the proof of a credential names: the signer by its identifier, and the establishment event at place `n` with the
SAID `q` whose keys signed the whole credential. -/
structure ProofBy (chk : Bool) (sig : SadPathSig) (pre : Str) (n : Nat) (q : Str) : Prop where
  root : Pather.newWithPath (.arr []) = .ok sig.pather
  signer : Matter.qb64 chk sig.prefixer = .ok pre
  sn : Seqner.sn sig.seqner = .ok n
  said : Matter.qb64 chk sig.saider = .ok q

end Keride.Spec
