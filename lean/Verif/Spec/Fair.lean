/-
What a stream must avoid so that it cannot crash a verifier: the known ways to make the library panic.
-/
import Verif.Spec.Said
import Verif.Spec.Cesr
import Verif.Spec.Thold
import Verif.Spec.Json
import Verif.Spec.Acdc

namespace Keride.Spec

open Sample

/-- ASCII text without `=` that does not begin with the digits of the codes with lead bytes. All keys, digests and
identifiers are of this kind. -/
def Tame (s : Str) : Prop := IsAscii s ∧ '=' ∉ s ∧ ∀ c, s.head? = some c → c ∉ ['5', '6', '8', '9']

/-- The texts in a list are tame. -/
def TameList (v : Option Value) : Prop := ∀ l s, v = some (.arr l) → Value.str s ∈ l → Tame s

/-- The number of entries of a list. -/
def entries : Option Value → Nat
  | some (.arr l) => l.length
  | _ => 0

/-- A list of `k` weights, or a list of lists that have `k` weights together. -/
def HasWeights (cs : List Value) (k : Nat) : Prop :=
  ((∀ c ∈ cs, ∃ s, c = .str s) ∧ k = cs.length) ∨ ∃ css : List (List Value), cs = css.map Value.arr ∧ k = css.flatten.length

/-- A threshold for `n` keys: not JSON inside a text; no weight `0/0`; as a list of weights, with a weight for each key;
and in debug builds with weights that have a small common denominator. -/
structure FairThold (chk : Bool) (v : Option Value) (n : Nat) : Prop where
  text : ∀ s, v = some (.str s) → s.head? ≠ some '['
  zero : ∀ cs s, v = some (.arr cs) → (Value.str s ∈ cs ∨ ∃ ws, Value.arr ws ∈ cs ∧ Value.str s ∈ ws) → ¬ ZeroOver s
  enough : ∀ cs k, v = some (.arr cs) → HasWeights cs k → n ≤ k ∧ k < 2 ^ 32
  small : chk = true → ∀ cs, v = some (.arr cs) → ∃ qss, (IsWeights (.arr cs) qss ∨ IsWeights (.arr [.arr cs]) qss) ∧ Small qss

/-- The document has one of the types. -/
def HasType (types : List Str) (ked : Value) : Prop := ∃ t ∈ types, field (str% "t") ked = some (.str t)

/-- The types of key events and of transaction events. -/
def keyTypes : List Str := [str% "icp", str% "rot", str% "ixn"]
def telTypes : List Str := [str% "vcp", str% "iss", str% "rev"]

/-- What the documents in play have in common: the numbers of keys of establishment events, the names of registries, the
SAIDs of interactions, the SAIDs of credentials that have a recipient, and a bound on the branches of a credential. A SAID
is the first 44 characters of `d`. -/
structure Scene where
  keys : Nat → Prop
  registry : Str → Prop
  interaction : Str → Prop
  recipient : Str → Prop
  branches : Nat

/-- An event that is fair: SAID, identifier, sequence number and type are there; the primitives are tame; there are enough
weights; the number of keys is one of those of the scene for an establishment event; a key event has a list of anchors, or
something else that is not a list, and a single anchor in it has identifier, sequence number and SAID; a registry has an
issuer and its name is that of a registry; and an issuance or revocation has a date, names a registry, and is itself not by
the name of a registry. In debug builds the sequence number has at most eight digits. -/
structure FairDoc (chk : Bool) (S : Scene) (ked : Value) : Prop where
  there : ∀ l ∈ [str% "d", str% "i", str% "s", str% "t"], field l ked ≠ none
  tame : ∀ l ∈ [str% "d", str% "i"], ∀ s, field l ked = some (.str s) → Tame s
  keys : TameList (field (str% "k") ked)
  next : TameList (field (str% "n") ked)
  thold : FairThold chk (field (str% "kt") ked) (entries (field (str% "k") ked))
  nthold : FairThold chk (field (str% "nt") ked) (entries (field (str% "n") ked))
  count : HasType [str% "icp", str% "rot", str% "dip", str% "drt"] ked → S.keys (entries (field (str% "k") ked))
  interaction : HasType [str% "ixn"] ked → ∀ d, field (str% "d") ked = some (.str d) → S.interaction (d.take 44)
  anchor : HasType keyTypes ked → field (str% "a") ked ≠ none ∧ ∀ x, field (str% "a") ked = some (.arr [x]) →
    ∀ l ∈ [str% "i", str% "s", str% "d"], field l x ≠ none
  issuer : HasType [str% "vcp"] ked → field (str% "ii") ked ≠ none ∧ ∀ i, field (str% "i") ked = some (.str i) → S.registry i
  registry : HasType [str% "iss", str% "rev"] ked → field (str% "ri") ked ≠ none ∧ (∀ r, field (str% "ri") ked = some (.str r) → S.registry r) ∧
    (∀ i, field (str% "i") ked = some (.str i) → ¬ S.registry i) ∧ field (str% "dt") ked ≠ none
  short : chk = true → ∀ t, field (str% "s") ked = some (.str t) → t.length ≤ 8

/-- A schema the verifier knows. -/
def KnownSchema (E : Env) (s : Str) : Prop := ∀ text, E.schema s text ≠ .panic

/-- The node names the operator, alone or in a list. -/
def Named (op : Str) (node : Value) : Prop :=
  field (str% "o") node = some (.str op) ∨ ∃ l, field (str% "o") node = some (.arr l) ∧ Value.str op ∈ l

/-- A node of an edge that is fair: it names another credential; a schema it names is known; operators are texts; not the
operator `DI2I`; and with the operator `I2I` the other credential has a recipient. -/
structure FairNode (E : Env) (S : Scene) (node : Value) : Prop where
  there : field (str% "n") node ≠ none
  schema : ∀ s, field (str% "s") node = some (.str s) → KnownSchema E s
  texts : ∀ l, field (str% "o") node = some (.arr l) → ∀ o ∈ l, ∃ s, o = .str s
  delegated : ¬ Named (str% "DI2I") node
  issuee : Named (str% "I2I") node → ∀ n, field (str% "n") node = some (.str n) → S.recipient n

/-- The number of branches of a credential: the entries of its edges. -/
def branches (ked : Value) : Nat :=
  match field (str% "e") ked with
  | some (.obj o) => o.length
  | some (.arr l) => (l.map fun x => match x with
    | .obj o => o.length
    | _ => 1).sum
  | _ => 0

/-- A credential that is fair: SAID, issuer, schema and subject are there; the SAID is tame and is not the name of a
registry; the schema is known; it has a recipient if its SAID is one of those; and the nodes of its edges are fair and not
more than those of the scene. -/
structure FairCred (E : Env) (S : Scene) (c : Sad) : Prop where
  there : ∀ l ∈ [str% "d", str% "i", str% "s", str% "a"], field l c.ked ≠ none
  said : ∀ d, field (str% "d") c.ked = some (.str d) → Tame d ∧ ¬ S.registry (d.take 44)
  schema : ∀ s, field (str% "s") c.ked = some (.str s) → KnownSchema E s
  recipient : ∀ d a, field (str% "d") c.ked = some (.str d) → S.recipient (d.take 44) → field (str% "a") c.ked = some a → field (str% "i") a ≠ none
  edges : ∀ edge o label node, Edge c edge → edge = .obj o → (label, node) ∈ o → label ≠ str% "d" → label ≠ str% "o" →
    ∀ m, node = .obj m → FairNode E S node
  few : branches c.ked ≤ S.branches

/-- A proof of a credential that is fair: its parts can be read and written; it does not name an interaction; and no
signature has as index the number of keys of an establishment event. -/
structure FairPath (chk : Bool) (S : Scene) (p : SadPathSig) : Prop where
  path : Bexter.bext p.pather ≠ .panic
  signer : Matter.qb64 chk p.prefixer ≠ .panic
  number : Seqner.sn p.seqner ≠ .panic
  digest : Matter.qb64 chk p.saider ≠ .panic
  est : ∀ q, Matter.qb64 chk p.saider = .ok q → ¬ S.interaction q
  sigs : ∀ s ∈ p.sigers, ¬ S.keys s.i.index

/-- A group that is fair: no signature has as index the number of keys of an establishment event; proofs are fair; and
couples of a sequence number and a digest can be read and written. -/
def FairGroup (chk : Bool) (S : Scene) : Group → Prop
  | .quadlets l => (∀ sigs, SigGroup.controller sigs ∈ l → ∀ s ∈ sigs, ¬ S.keys s.i.index) ∧ ∀ ps, SigGroup.sadPath ps ∈ l → ∀ p ∈ ps, FairPath chk S p
  | .couples l => ∀ c ∈ l, Seqner.sn c.1 ≠ .panic ∧ Matter.qb64 chk c.2 ≠ .panic
  | .other => True

/-- The text of a group reads as a fair group, when it is read again. -/
def FairAttached (E : Env) (S : Scene) (text : Str) : Prop :=
  E.parse (toUtf8 text) ≠ .panic ∧ ∀ msgs, E.parse (toUtf8 text) = .ok msgs → ∃ m ms, msgs = m :: ms ∧ ∀ g t, m = .group g t → FairGroup E.chk S g

/-- A payload that is fair: when it has a version string, this does not promise more bytes than there are; and when the
text it delimits is JSON, then the numbers fit 64 bits and are written without exponent, and it is a fair event or a fair
credential. -/
structure FairText (E : Env) (S : Scene) (text : Str) : Prop where
  sized : ∀ info, sniff (toUtf8 text) = .ok info → info.size ≤ text.len
  proper : ∀ info part rest v, sniff (toUtf8 text) = .ok info → text = part ++ rest → part.len = info.size →
    jsonParse E.fl jsonDepth part = .ok v → Proper (fun t => '.' ∈ t) v ∧ ∀ d, field (str% "d") v = some (.str d) → Tame d
  there : ∀ info part rest v, sniff (toUtf8 text) = .ok info → text = part ++ rest → part.len = info.size →
    jsonParse E.fl jsonDepth part = .ok v → field (str% "d") v ≠ none
  event : ∀ s, Serder.newWithRaw E.fl (toUtf8 text) = .ok s → FairDoc E.chk S s.ked
  cred : ∀ c, Creder.newWithRaw E.fl (toUtf8 text) = .ok c → FairCred E S c

/-- A message that is fair: a fair payload, or a fair group with a text that reads as a fair group. -/
def FairMsg (E : Env) (S : Scene) : Msg → Prop
  | .payload text => FairText E S text
  | .group g text => FairGroup E.chk S g ∧ text ≠ .panic ∧ ∀ t, text = .ok t → FairAttached E S t

/-- A stored event that reads as a fair document of one of the types, with a fair group. -/
def FairEvent (E : Env) (S : Scene) (types : List Str) (pre text : Str) : Prop :=
  ∃ s part rest, text = part ++ rest ∧ Serder.newWithRaw E.fl (toUtf8 text) = .ok s ∧ s.raw = toUtf8 part ∧ FairDoc E.chk S s.ked ∧
    HasType types s.ked ∧ field (str% "i") s.ked = some (.str pre) ∧ FairAttached E S rest

/-- A stored credential that is fair, with a fair group. -/
def FairStored (E : Env) (S : Scene) (text : Str) : Prop :=
  ∃ c part rest, text = part ++ rest ∧ Creder.newWithRaw E.fl (toUtf8 text) = .ok c ∧ c.raw = toUtf8 part ∧ FairCred E S c ∧ FairAttached E S rest

/-- What is stored is fair. -/
structure FairStore (E : Env) (S : Scene) (st : Store) : Prop where
  kels : ∀ pre, ∀ text ∈ st.kels pre, FairEvent E S keyTypes pre text
  tels : ∀ pre, ∀ text ∈ st.tels pre, FairEvent E S telTypes pre text
  acdcs : ∀ text ∈ st.acdcs, FairStored E S text

/-- No log has more than `b` events, and there are not more than `b` credentials. -/
def Sized (b : Nat) (st : Store) : Prop := (∀ pre, (st.kels pre).length ≤ b ∧ (st.tels pre).length ≤ b) ∧ st.acdcs.length ≤ b

end Keride.Spec
