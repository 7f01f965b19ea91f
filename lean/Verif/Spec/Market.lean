/-
Any number of issuers at work, whose credentials may rest on credentials of each other.
-/
import Verif.Spec.Office

namespace Keride.Spec

open Sample

/-- What an issuer has: the registries it created, its current and its next keys. -/
structure Agent where
  registries : List Str
  ks : KeySet
  nks : KeySet

/-- The issuers, with one changed or added. -/
def put (A : Str → Option Agent) (p : Str) (a : Agent) : Str → Option Agent := fun q => if q = p then some a else A q

/-- The source of a credential is an edge or a list of edges. -/
def Edges (source : Value) : Prop := (∃ m, source = .obj m) ∨ ∃ l, source = .arr l ∧ ∀ x ∈ l, ∃ m, x = .obj m

/-- An entry of an edge, other than its own SAID `d` and operator `o`. -/
def Node (source node : Value) : Prop :=
  ∃ m k, (source = .obj m ∨ ∃ l, source = .arr l ∧ .obj m ∈ l) ∧ (k, node) ∈ m ∧ k ≠ str% "d" ∧ k ≠ str% "o"

/-- A store has the credential with the SAID. -/
def Holds (E : Env) (st : Store) (id : Str) (c : Sad) : Prop :=
  ∃ t ∈ st.acdcs, Creder.newWithRaw E.fl (toUtf8 t) = .ok c ∧ Sadder.said E.chk c = .ok id

/-- An entry of an edge in a credential of an issuer is met: the credential it names is in the store, and is of the schema it names, if any. With the
operator `NI2I` this is all. With the operator `I2I` the subject of the credential is the issuer. Without an operator it is, if the credential
has a subject with an identifier. -/
structure Points (E : Env) (st : Store) (issuer : Str) (node : Value) (id : Str) : Prop where
  name : field (str% "n") node = some (.str id)
  target : ∃ c sub text, Holds E st id c ∧ field (str% "a") c.ked = some (.obj sub) ∧ c.raw = toUtf8 text ∧
    (field (str% "s") node = none ∨ ∃ s, field (str% "s") node = some (.str s) ∧ E.schema s text = .ok true) ∧
    (field (str% "o") node = some (.str (str% "NI2I")) ∨ (field (str% "o") node = none ∧ field (str% "i") (.obj sub) = none) ∨
      ((field (str% "o") node = none ∨ field (str% "o") node = some (.str (str% "I2I"))) ∧ field (str% "i") (.obj sub) = some (.str issuer)))

/-- A credential is issued and not revoked, and neither is any credential it rests on. -/
inductive Standing (E : Env) (st : Store) : Str → Prop
  | intro (id : Str) (c : Sad) (kept : Holds E st id c) (issued : (st.tels id).length = 1)
      (sources : ∀ source node q, field (str% "e") c.ked = some source → Node source node → field (str% "n") node = some (.str q) → Standing E st q) :
      Standing E st id

/-- What issuers do with the functions of the library, in any order: they create identifiers, interact, rotate, create registries, issue
credentials, which may rest on others that stand, and revoke those they issued. They pass on what the calls before returned, and keep what they
return. `own` is all they keep, and `ms` are the messages in order. -/
inductive Market (E : Env) (S : Stretch) : (A : Str → Option Agent) → (own : Store) → (ms : List Str) → Prop
  | start : Market E S (fun _ => none) Store.empty []
  | incept (rnd : Nat → Nat) (code ncode tier : Option Str) (count ncount wcount : Option Nat) (sith nsith : Option Value) (pre m : Str) (ks nks : KeySet)
      (A : Str → Option Agent) (own : Store) (ms : List Str) (before : Market E S A own ms)
      (hsith : Askable sith (count.getD 1)) (hnsith : Askable nsith (ncount.getD 1)) (hzero : nsith ≠ some (.int 0))
      (call : kmiIncept E S rnd code count sith ncode ncount nsith wcount (some true) (some (str% "E")) tier = .ok (pre, [ks, nks], m)) (new : A pre = none) :
      Market E S (put A pre ⟨[], ks, nks⟩) (own.insertKeyEvent pre m) (ms ++ [m])
  | interact (rnd : Nat) (data : Value) (issuer dig said m : Str) (a : Agent) (A : Str → Option Agent) (own : Store) (ms : List Str)
      (before : Market E S A own ms) (agent : A issuer = some a) (hdata : Plain data ∧ nesting data ≤ 126) (last : own.latestSaid E issuer = .ok dig)
      (call : kmiInteract E rnd a.ks issuer dig (own.kels issuer).length data = .ok (said, m)) :
      Market E S A (own.insertKeyEvent issuer m) (ms ++ [m])
  | rotate (rnd : Nat → Nat) (ncode tier : Option Str) (ncount wcount : Option Nat) (sith nsith : Option Value) (issuer dig said m : Str) (a : Agent)
      (nnks : KeySet) (A : Str → Option Agent) (own : Store) (ms : List Str) (before : Market E S A own ms) (agent : A issuer = some a)
      (hsith : Askable sith a.nks.keys.length) (hnsith : Askable nsith (ncount.getD 1)) (last : own.latestSaid E issuer = .ok dig)
      (call : kmiRotate E S rnd issuer a.nks dig (own.kels issuer).length sith ncode ncount nsith wcount tier = .ok (said, nnks, m)) :
      Market E S (put A issuer ⟨a.registries, a.nks, nnks⟩) (own.insertKeyEvent issuer m) (ms ++ [m])
  | registry (rnd : Nat) (issuer ri dig said m t g : Str) (s : Sad) (a : Agent) (A : Str → Option Agent) (own : Store) (ms : List Str)
      (before : Market E S A own ms) (agent : A issuer = some a) (built : registryIncept E issuer = .ok (ri, s)) (text : s.raw = toUtf8 t)
      (new : own.tels ri = []) (last : own.latestSaid E issuer = .ok dig)
      (call : kmiInteract E rnd a.ks issuer dig (own.kels issuer).length (sealOf ri (str% "0") ri) = .ok (said, m))
      (couple : coupleText E (own.kels issuer).length said = .ok g) :
      Market E S (put A issuer ⟨ri :: a.registries, a.ks, a.nks⟩) ((own.insertKeyEvent issuer m).insertTransactionEvent ri (t ++ g)) (ms ++ [m, t ++ g])
  | issue (rnd : Nat → Nat) (now issuer ri schema data : Str) (recipient : Option Str) (priv : Option Bool) (source rules : Option Str) (id m1 m2 m3 : Str)
      (a : Agent) (A : Str → Option Agent) (own : Store) (ms : List Str) (before : Market E S A own ms) (agent : A issuer = some a) (registry : ri ∈ a.registries)
      (hdata : ∀ v, jsonRead E.fl data = .ok v → Plain v ∧ nesting v ≤ 126)
      (hsource : ∀ t v, source = some t → jsonRead E.fl t = .ok v → Plain v ∧ nesting v ≤ 126 ∧ Edges v ∧
        ∀ node, Node v node → ∃ q, Points E own issuer node q ∧ Standing E own q)
      (hrules : ∀ t v, rules = some t → jsonRead E.fl t = .ok v → Plain v ∧ nesting v ≤ 126)
      (call : issueAcdc E S rnd now own a.ks ri issuer schema data recipient priv source rules = .ok (id, m1, m2, m3))
      (new : own.tels id = [])
      (fits : ∀ c t, Creder.newWithRaw E.fl (toUtf8 m3) = .ok c → c.raw = toUtf8 t → E.schema schema t = .ok true)
      (recent : E.expired now = .ok false) :
      Market E S A (((own.insertKeyEvent issuer m1).insertTransactionEvent id m2).insertAcdc m3) (ms ++ [m1, m2, m3])
  | revoke (rnd : Nat → Nat) (now issuer ri id m1 m2 : Str) (c : Sad) (a : Agent) (A : Str → Option Agent) (own : Store) (ms : List Str)
      (before : Market E S A own ms) (agent : A issuer = some a) (kept : Holds E own id c) (theirs : HasText (str% "i") issuer c)
      (registry : HasText (str% "ri") ri c) (call : revokeAcdc E S rnd now own a.ks ri issuer id = .ok (m1, m2)) :
      Market E S A ((own.insertKeyEvent issuer m1).insertTransactionEvent id m2) (ms ++ [m1, m2])

/-- `st'` is `st` and what the issuers have. -/
structure Merged (st own st' : Store) : Prop where
  kels : ∀ p, own.kels p ≠ [] → st'.kels p = own.kels p
  otherKels : ∀ p, own.kels p = [] → st'.kels p = st.kels p
  tels : ∀ q, own.tels q ≠ [] → st'.tels q = own.tels q
  otherTels : ∀ q, own.tels q = [] → st'.tels q = st.tels q
  acdcs : st'.acdcs = st.acdcs ++ own.acdcs

/-- A verifier knows nothing of the issuers, of their registries and of their credentials. -/
structure Ignorant (E : Env) (own st : Store) : Prop where
  kels : ∀ p, own.kels p ≠ [] → st.kels p = []
  tels : ∀ q, own.tels q ≠ [] → st.tels q = []
  acdcs : ∀ q, own.tels q ≠ [] → ∀ t ∈ st.acdcs, ¬ IsCredential E q t

end Keride.Spec
