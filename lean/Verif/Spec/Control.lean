/-
What a controller has: keys, and a log of its own events.
-/
import Verif.Spec.Kel
import Verif.Spec.Crypto
import Verif.Model.Sample.Keys

namespace Keride.Spec

open Sample

/-- A threshold that `n` keys meet together: a number from one to `n`, or weights for exactly `n` positions. -/
def Covers (t : Tholder) (n : Nat) : Prop :=
  (∃ k, t.num = .ok (some k) ∧ 0 < k ∧ k ≤ n) ∨ ∃ qss, IsWeights t.thold qss ∧ positions qss = n

/-- A set of keys as the code generates it: it numbers its signatures from zero, and its seeds are texts without
padding. -/
structure Usable (ks : KeySet) : Prop where
  start : ks.offset = 0
  seeds : ∀ t ∈ ks.keys, '=' ∉ t

/-- The keys are those an establishment event lists, in order, and all together meet its threshold. -/
structure Controls (E : Env) (ks : KeySet) (est : Sad) : Prop where
  keys : ∃ ts, ks.verfersQb64 E = .ok ts ∧ field (str% "k") est.ked = some (.arr (ts.map .str))
  threshold : ∃ t, Serder.tholder E.chk E.fl est = .ok (some t) ∧ Covers t ks.keys.length

/-- The keys are those whose digests an establishment event lists, in order, and all together meet its threshold for
the next keys. -/
structure Pledged (E : Env) (ks : KeySet) (est : Sad) : Prop where
  digests : ∃ ts, ks.digersQb64 E = .ok ts ∧ field (str% "n") est.ked = some (.arr (ts.map .str))
  threshold : ∃ t, Serder.ntholder E.chk E.fl est = .ok (some t) ∧ Covers t ks.keys.length

/-- A document that can be read back from its bytes: its numbers are integers of 64 bits, it is not nested deeper than
the parser goes, and it is shorter than four gigabytes. -/
structure Sendable (s : Sad) : Prop where
  plain : Plain s.ked
  depth : nesting s.ked ≤ 127
  small : s.raw.length < 2 ^ 32

/-- The fields of an event, in order. -/
def Fields (l : List Str) (s : Sad) : Prop := ∃ o, s.ked = .obj o ∧ o.map Prod.fst = l

/-- The bytes of an event are its document as JSON text, and its version string says how many they are. -/
structure Serialized (s : Sad) : Prop where
  bytes : s.raw = toUtf8 s.ked.toJson
  version : HasText (str% "v") (versionText (str% "KERI") ⟨1, 0⟩ (str% "JSON") s.raw.length) s

/-- A field that is a list of texts. -/
def HasTexts (k : Str) (l : List Str) (s : Sad) : Prop := field k s.ked = some (.arr (l.map .str))

/-- The witness threshold of an event, as a number or as its hexadecimal text. -/
def WitnessThreshold (n : Nat) (s : Sad) : Prop := field (str% "bt") s.ked = some (.int n) ∨ HasText (str% "bt") (Nat.toDigits 16 n) s

/-- A threshold that `n` keys can be asked for: a number from one to `n`, or weights for at most `n` positions. -/
def Sensible (t : Tholder) (n : Nat) : Prop :=
  (∀ k, t.num = .ok (some k) → 1 ≤ k ∧ k ≤ n) ∧ ∀ qss, IsWeights t.thold qss → positions qss < 2 ^ 32 → positions qss ≤ n

/-- The threshold for `n` keys when none is given: more than half, or at least half, of them, and at least one. -/
def half (n : Nat) : Value := .int (max 1 ((n + 1) / 2) : Nat)

/-- The same for the next keys; no keys need nothing. -/
def halfNext (n : Nat) : Value := .int ((n + 1) / 2 : Nat)

/-- The witnesses after some are cut and others added. -/
def remaining (wits cuts adds : List Str) : List Str := (wits.filter fun w => w ∉ cuts) ++ adds

/-- The number of witnesses that may fail among `n`: less than a third of them. -/
def faults (n : Nat) : Nat := (n - 1) / 3

/-- A threshold an event reports, and that `n` keys meet together. -/
def Reaches (t : Res (Option Tholder)) (n : Nat) : Prop := ∃ th, t = .ok (some th) ∧ Covers th n

/-- Signatures that a key set made of a text, with `rnd` its randomness, as someone has them who may have read them from their texts: indices and
bytes are those that were made, the key that a signature in memory refers to need not be. -/
def MadeBy (E : Env) (ks : KeySet) (rnd : Nat) (ser : Bytes) (sigs : List Siger) : Prop :=
  ∃ l, ks.sign E rnd ser none = .ok l ∧ sigs.map Siger.i = l.map Siger.i

/-- What a controller does: create an identifier, interact, rotate to its next keys. Each event is built by the library
from the last one, signed with the keys then in force, and added to the controller's own log. `ks` are the keys in force,
`nks` the next ones. -/
inductive History (E : Env) : Str → List Entry → KeySet → KeySet → Prop
  | incept (ks nks : KeySet) (keys ndigs : List Str) (sith nsith : Option Value) (toad : Option Nat) (wits cnfg : Option (List Str))
      (data : Option (List Value)) (version : Option Version) (kind : Option Str) (intive : Option Bool) (s : Sad) (pre : Str) (rnd : Nat)
      (sigs : List Siger) (usable : Usable ks) (own : ks.verfersQb64 E = .ok keys) (next : nks.digersQb64 E = .ok ndigs)
      (built : Sample.incept E keys sith (some ndigs) nsith toad wits cnfg data version kind (some (str% "E")) intive none = .ok s)
      (names : Serder.pre s = .ok pre) (reached : Reaches (Serder.tholder E.chk E.fl s) ks.keys.length)
      (signed : MadeBy E ks rnd s.raw sigs) (sendable : Sendable s) :
      History E pre [⟨s, [.controller sigs]⟩] ks nks
  | interact (pre : Str) (log : List Entry) (ks nks : KeySet) (prev : Entry) (dig : Str) (data : Option Value) (version : Option Version)
      (kind : Option Str) (s : Sad) (rnd : Nat) (sigs : List Siger) (before : History E pre log ks nks) (last : log.getLast? = some prev)
      (prior : Sadder.said E.chk prev.sad = .ok dig) (built : Sample.interact E pre dig (some log.length) data version kind = .ok s)
      (signed : MadeBy E ks rnd s.raw sigs) (sendable : Sendable s) :
      History E pre (log ++ [⟨s, [.controller sigs]⟩]) ks nks
  | rotate (pre : Str) (log : List Entry) (ks nks nnks : KeySet) (prev est : Entry) (dig : Str) (keys ndigs : List Str)
      (sith nsith : Option Value) (toad : Option Nat) (wits cuts adds : Option (List Str)) (data : Option (List Value))
      (version : Option Version) (kind : Option Str) (intive : Option Bool) (s : Sad) (rnd : Nat) (sigs : List Siger)
      (before : History E pre log ks nks) (last : log.getLast? = some prev) (prior : Sadder.said E.chk prev.sad = .ok dig)
      (usable : Usable nks) (own : nks.verfersQb64 E = .ok keys) (next : nnks.digersQb64 E = .ok ndigs)
      (built : Sample.rotate E pre keys dig none log.length sith (some ndigs) nsith toad wits cuts adds data version kind intive = .ok s)
      (reached : Reaches (Serder.tholder E.chk E.fl s) nks.keys.length)
      (latest : LatestEst log est) (pledged : Reaches (Serder.ntholder E.chk E.fl est.sad) nks.keys.length)
      (signed : MadeBy E nks rnd s.raw sigs) (sendable : Sendable s) :
      History E pre (log ++ [⟨s, [.controller sigs]⟩]) nks nnks

/-- Events as they are sent: the text of each event, then its signatures, whose text is `g`. -/
def Transmits (log : List Entry) (msgs : List Msg) (stored : List Str) : Prop :=
  ∃ l : List (Entry × Str × Str), log = l.map Prod.fst ∧ (∀ x ∈ l, x.1.sad.raw = toUtf8 x.2.1) ∧
    msgs = l.flatMap (fun x => [.payload x.2.1, .group (.quadlets x.1.groups) (.ok x.2.2)]) ∧
    stored = l.map fun x => x.2.1 ++ x.2.2

end Keride.Spec
