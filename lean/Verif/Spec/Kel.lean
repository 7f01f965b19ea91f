/-
What a key event log must satisfy (KERI): written on the events themselves, their fields and what the accessors of an
event report, not on the verification code.
-/
import Verif.Model.Sample.Ingest
import Verif.Spec.Said
import Verif.Spec.Thold
import Verif.Spec.Json
import Verif.Spec.Version

namespace Keride.Spec

open Sample

/-- A key event and the signature groups that came with it. -/
structure Entry where
  sad : Sad
  groups : List SigGroup

/-- The controller signatures among groups. -/
def sigersOf : List SigGroup → List Siger
  | [] => []
  | .controller l :: gs => l ++ sigersOf gs
  | _ :: gs => sigersOf gs

/-- A field that is a text. -/
def HasText (k t : Str) (s : Sad) : Prop := field k s.ked = some (.str t)

/-- An inception or a rotation. -/
def Establishes (s : Sad) : Prop := HasText (str% "t") (str% "icp") s ∨ HasText (str% "t") (str% "rot") s

/-- The last establishment event of a log. -/
def LatestEst (log : List Entry) (e : Entry) : Prop :=
  ∃ a b, log = a ++ e :: b ∧ Establishes e.sad ∧ ∀ x ∈ b, ¬ Establishes x.sad

/-- Positions meet a threshold: a number is reached by their count; weights are reached in every clause by the weights at
the positions. (Positions beyond 32 bits are not covered.) -/
def Meets (t : Tholder) (idx : List Nat) : Prop :=
  (∃ n, t.num = .ok (some n) ∧ 0 < n ∧ n ≤ idx.length) ∨
  (∃ qss, IsWeights t.thold qss ∧ qss ≠ [] ∧ (positions qss < 2 ^ 32 → Satisfied idx 0 qss))

/-- The fields every event of a type has. -/
def icpFields : List Str := [str% "v", str% "t", str% "d", str% "i", str% "s", str% "kt", str% "k", str% "nt", str% "n", str% "bt", str% "b", str% "c", str% "a"]
def rotFields : List Str :=
  [str% "v", str% "t", str% "d", str% "i", str% "s", str% "p", str% "kt", str% "k", str% "nt", str% "n", str% "bt", str% "br", str% "ba", str% "a"]
def ixnFields : List Str := [str% "v", str% "t", str% "d", str% "i", str% "s", str% "p", str% "a"]

/-- Every one of the fields is there. -/
def Has (fields : List Str) (s : Sad) : Prop := ∀ l ∈ fields, ∃ v, field l s.ked = some v

/-- The SAID an event reports is the Blake3 digest of a text. -/
def Addressed (H : Hash) (chk : Bool) (s : Sad) (text : Str) : Prop :=
  ∃ q, Sadder.said chk s = .ok q ∧ Matter.newWithQb64 q = .ok ⟨str% "E", 0, H (str% "E") (toUtf8 text)⟩

/-- The document with its size, the number of bytes of its text, written into its version string: in the text, and when the version string comes first, as
it should, in the field `v`. -/
def Resized (o : List (Str × Value)) (text : Str) : Prop :=
  ∃ vs : Str, (∃ ident ∈ protocols, vs = versionText ident ⟨1, 0⟩ (str% "JSON") (toUtf8 (Value.obj o).toJson).length) ∧
    (∃ p old r : Str, (Value.obj o).toJson = p ++ old ++ r ∧ old.length = 17 ∧ text = p ++ vs ++ r) ∧
    (o.head?.map Prod.fst = some (str% "v") → text = (Value.obj (o.map fun e => if e.1 = str% "v" then (e.1, .str vs) else e)).toJson)

/-- A rotation or interaction event is addressed by its content with `d` filled with `#`. -/
def SelfAddressed (H : Hash) (chk : Bool) (s : Sad) : Prop :=
  ∃ o, s.ked = .obj o ∧ Addressed H chk s (Value.obj (blanked (str% "E") (str% "d") o)).toJson

/-- An inception event is addressed by its content with `i` and `d` filled with `#`, and the size of that. -/
def InceptionAddressed (H : Hash) (chk : Bool) (s : Sad) : Prop :=
  ∃ o text, s.ked = .obj o ∧ Resized (blanked (str% "E") (str% "d") (blanked (str% "E") (str% "i") o)) text ∧ Addressed H chk s text

/-- The texts that are digested for an event or a credential. -/
def EventText (s : Sad) (text : Str) : Prop :=
  ∃ o, s.ked = .obj o ∧ (text = (Value.obj (blanked (str% "E") (str% "d") o)).toJson ∨
    Resized (blanked (str% "E") (str% "d") (blanked (str% "E") (str% "i") o)) text)

/-- The texts that are digested for the events of a log. -/
def LogText (log : List Entry) (text : Str) : Prop := ∃ e ∈ log, EventText e.sad text

/-- The texts that are digested for messages, each of which starts with an event or a credential. -/
def MessageText (fl : Str → Option Str) (ms : List Str) (text : Str) : Prop :=
  ∃ m ∈ ms, ∃ s, (Serder.newWithRaw fl (toUtf8 m) = .ok s ∨ Creder.newWithRaw fl (toUtf8 m) = .ok s) ∧ EventText s text

/-- `sigs` are signatures that came with the event, each made over the bytes of the event by the key at its index, and
together they meet the threshold. -/
structure SignedBy (C : Crypto) (e : Entry) (keys : List Matter.M) (t : Tholder) (sigs : List Siger) : Prop where
  attached : sigs.Sublist (sigersOf e.groups)
  verified : ∀ g ∈ sigs, ∃ k, keys[g.i.index]? = some k ∧ Verfer.verify C k g.i.raw e.sad.raw = .ok true
  enough : Meets t (sigs.map fun g => g.i.index)

/-- Among the signatures, those by keys whose digest the earlier event committed to, at their other index, meet the
threshold it committed to. -/
def Committed (H : Hash) (chk : Bool) (keys digests : List Matter.M) (t : Tholder) (sigs : List Siger) : Prop :=
  ∃ by_ : List Siger, by_.Sublist sigs ∧ Meets t (by_.map fun g => g.i.ondex) ∧
    ∀ g ∈ by_, ∃ k q d u, keys[g.i.index]? = some k ∧ Matter.qb64 chk k = .ok q ∧ digests[g.i.ondex]? = some d ∧
      Matter.qb64 chk d = .ok u ∧ Matter.newWithQb64 u = .ok ⟨str% "E", 0, H (str% "E") (toUtf8 q)⟩

/-- A key event log of an identifier. It starts with an inception whose SAID is the identifier. Every event has the
identifier, the next sequence number and the SAID of the event before. It is signed by the keys of the latest
establishment event, itself included. The keys of a rotation were committed to by the establishment event before. -/
inductive ValidLog (H : Hash) (C : Crypto) (chk : Bool) (fl : Str → Option Str) (pre : Str) : List Entry → Prop
  | incept (e : Entry) (keys : List Matter.M) (t : Tholder) (sigs : List Siger)
      (type : HasText (str% "t") (str% "icp") e.sad) (ident : HasText (str% "i") pre e.sad) (sn : Serder.sn e.sad = .ok 0)
      (said : Sadder.said chk e.sad = .ok pre) (fields : Has icpFields e.sad) (digest : InceptionAddressed H chk e.sad)
      (own : Serder.verfers e.sad = .ok keys) (threshold : Serder.tholder chk fl e.sad = .ok (some t)) (signed : SignedBy C e keys t sigs) :
      ValidLog H C chk fl pre [e]
  | rotate (log : List Entry) (e prev est : Entry) (psaid : Str) (keys digests : List Matter.M) (t n : Tholder) (sigs : List Siger)
      (before : ValidLog H C chk fl pre log)
      (type : HasText (str% "t") (str% "rot") e.sad) (ident : HasText (str% "i") pre e.sad) (sn : Serder.sn e.sad = .ok log.length)
      (fields : Has rotFields e.sad) (digest : SelfAddressed H chk e.sad)
      (last : log.getLast? = some prev) (prior : Sadder.said chk prev.sad = .ok psaid) (chained : HasText (str% "p") psaid e.sad)
      (own : Serder.verfers e.sad = .ok keys) (threshold : Serder.tholder chk fl e.sad = .ok (some t)) (signed : SignedBy C e keys t sigs)
      (latest : LatestEst log est) (next : Serder.digers est.sad = .ok digests) (nextThreshold : Serder.ntholder chk fl est.sad = .ok (some n))
      (committed : Committed H chk keys digests n sigs) :
      ValidLog H C chk fl pre (log ++ [e])
  | interact (log : List Entry) (e prev est : Entry) (psaid : Str) (keys : List Matter.M) (t : Tholder) (sigs : List Siger)
      (before : ValidLog H C chk fl pre log)
      (type : HasText (str% "t") (str% "ixn") e.sad) (ident : HasText (str% "i") pre e.sad) (sn : Serder.sn e.sad = .ok log.length)
      (fields : Has ixnFields e.sad) (digest : SelfAddressed H chk e.sad)
      (last : log.getLast? = some prev) (prior : Sadder.said chk prev.sad = .ok psaid) (chained : HasText (str% "p") psaid e.sad)
      (latest : LatestEst log est) (own : Serder.verfers est.sad = .ok keys) (threshold : Serder.tholder chk fl est.sad = .ok (some t))
      (signed : SignedBy C e keys t sigs) :
      ValidLog H C chk fl pre (log ++ [e])

/-- The same event but for the text of its own SAID, and of the version string. -/
def SameEvent (e e' : Entry) : Prop := ∀ l, l ≠ str% "d" → l ≠ str% "v" → field l e.sad.ked = field l e'.sad.ked

/-- A document whose first field is the version string, and whose numbers are integers or decimals. -/
def Ordinary (s : Sad) : Prop := ∃ o, s.ked = .obj o ∧ o.head?.map Prod.fst = some (str% "v") ∧ Proper IsDecimal (.obj o)

/-- A document read and stored before is found by its SAID. -/
structure Remembers (E : Env) : Prop where
  keyEvents : ∀ st pre t s q, t ∈ st.kels pre → Serder.newWithRaw E.fl (toUtf8 t) = .ok s → Sadder.said E.chk s = .ok q → E.seen st q = true
  transactions : ∀ st pre t s q, t ∈ st.tels pre → Serder.newWithRaw E.fl (toUtf8 t) = .ok s → Sadder.said E.chk s = .ok q → E.seen st q = true
  credentials : ∀ st t s q, t ∈ st.acdcs → Creder.newWithRaw E.fl (toUtf8 t) = .ok s → Sadder.said E.chk s = .ok q → E.seen st q = true

/-- `st'` has all that `st` has, at the same places, and perhaps more after it. -/
structure Extends (st st' : Store) : Prop where
  kels : ∀ pre, st.kels pre <+: st'.kels pre
  tels : ∀ pre, st.tels pre <+: st'.tels pre
  acdcs : st.acdcs <+: st'.acdcs

/-- The messages of a stream with the group after each. -/
def pairs : List Msg → List (Msg × Msg)
  | m :: g :: rest => (m, g) :: pairs rest
  | _ => []

/-- A stream without credentials. -/
def EventsOnly (msgs : List Msg) : Prop :=
  ∀ p, Msg.payload p ∈ msgs → ∀ r, sniff (toUtf8 p) = .ok r → r.ident = str% "KERI"

/-- A stream in which all events are key events. -/
def KeyEventsOnly (fl : Str → Option Str) (msgs : List Msg) : Prop :=
  ∀ p, Msg.payload p ∈ msgs → ∀ s, Serder.newWithRaw fl (toUtf8 p) = .ok s →
    HasText (str% "t") (str% "icp") s ∨ HasText (str% "t") (str% "rot") s ∨ HasText (str% "t") (str% "ixn") s

/-- Two environments with the same build, hash functions, signature functions and float printing. The store, the stream
parser, the clock and the schemas may differ. -/
structure SameCode (E E' : Env) : Prop where
  chk : E'.chk = E.chk
  fl : E'.fl = E.fl
  H : E'.H = E.H
  C : E'.C = E.C

/-- The stores that `ingest_messages` can lead to, started empty, when it is never told not to verify: any streams, any
outcome, and the process may be killed after any number of messages. `hist` are the messages ever received. -/
inductive Reach (E : Env) : List (Msg × Msg) → Store → Prop
  | empty : Reach E [] Store.empty
  | ingest {hist : List (Msg × Msg)} {st : Store} (E' : Env) (fuel n : Nat) (stream : Bytes) (msgs : List Msg) (deep verify : Option Bool) :
      Reach E hist st → SameCode E E' → Remembers E' → E'.parse stream = .ok msgs → verify ≠ some false →
      Reach E (hist ++ pairs msgs) (ingestLoop E' fuel deep verify st (msgs.take n) []).1

/-- Of no stored credential there is more in its transaction log than its issuance. -/
def Unrevoked (E : Env) (st : Store) : Prop :=
  ∀ t ∈ st.acdcs, ∀ c q, Creder.newWithRaw E.fl (toUtf8 t) = .ok c → Sadder.said E.chk c = .ok q → (st.tels q).length ≤ 1

/-- A stored text: the bytes of an event that was received, followed by the text of the signature groups received with
it; reading it gives that event. -/
def Stored (fl : Str → Option Str) (hist : List (Msg × Msg)) (text : Str) (e : Entry) : Prop :=
  ∃ payload t g, (Msg.payload payload, Msg.group (.quadlets e.groups) (.ok g)) ∈ hist ∧ Serder.newWithRaw fl (toUtf8 payload) = .ok e.sad ∧
    e.sad.raw = toUtf8 t ∧ text = t ++ g ∧ Serder.newWithRaw fl (toUtf8 text) = .ok e.sad

end Keride.Spec
