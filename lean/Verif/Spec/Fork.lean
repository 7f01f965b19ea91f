/-
Vocabulary for C104 and C105: what may come after an establishment event, and whose signatures an identifier stands for.
-/
import Verif.Spec.Kel

namespace Keride.Spec

open Matter Sample

/-- The event `e` is one that the establishment event `est` allows: an interaction signed by its keys, or a rotation signed by keys it committed to. -/
def AllowedBy (H : Hash) (C : Crypto) (chk : Bool) (fl : Str → Option Str) (est e : Entry) : Prop :=
  (HasText (str% "t") (str% "ixn") e.sad ∧ ∃ keys t sigs, Serder.verfers est.sad = .ok keys ∧ Serder.tholder chk fl est.sad = .ok (some t) ∧
    SignedBy C e keys t sigs) ∨
  (HasText (str% "t") (str% "rot") e.sad ∧ ∃ keys digests t n sigs, Serder.verfers e.sad = .ok keys ∧ Serder.tholder chk fl e.sad = .ok (some t) ∧
    SignedBy C e keys t sigs ∧ Serder.digers est.sad = .ok digests ∧ Serder.ntholder chk fl est.sad = .ok (some n) ∧ Committed H chk keys digests n sigs)

/-- A key of a log: one that an event of it lists, or one whose digest an event of it lists as that of a next key. -/
def KeyOf (H : Hash) (chk : Bool) (log : List Entry) (k : M) : Prop :=
  ∃ x ∈ log, (∃ keys, Serder.verfers x.sad = .ok keys ∧ k ∈ keys) ∨
    ∃ digests d q u, Serder.digers x.sad = .ok digests ∧ d ∈ digests ∧ Matter.qb64 chk k = .ok q ∧ Matter.qb64 chk d = .ok u ∧
      Matter.newWithQb64 u = .ok ⟨str% "E", 0, H (str% "E") (toUtf8 q)⟩

/-- Of all messages received, those with a signature by a key of the log are events of the log. -/
def SignsOnly (E : Env) (log : List Entry) (hist : List (Msg × Msg)) : Prop :=
  ∀ payload groups text s, (Msg.payload payload, Msg.group (.quadlets groups) text) ∈ hist → Serder.newWithRaw E.fl (toUtf8 payload) = .ok s →
    ∀ g ∈ sigersOf groups, ∀ k, KeyOf E.H E.chk log k → Verfer.verify E.C k g.i.raw s.raw = .ok true → ∃ x ∈ log, x.sad.raw = s.raw

/-- A key that an establishment event committed to: the event lists its digest as that of a next key. -/
def CommittedKey (H : Hash) (chk : Bool) (est : Entry) (k : M) : Prop :=
  ∃ digests d q u, Serder.digers est.sad = .ok digests ∧ d ∈ digests ∧ Matter.qb64 chk k = .ok q ∧ Matter.qb64 chk d = .ok u ∧
    Matter.newWithQb64 u = .ok ⟨str% "E", 0, H (str% "E") (toUtf8 q)⟩

/-- Of all rotations received, those with a signature by a key that an event of the log committed to are events of the log. -/
def RotatesOnly (E : Env) (log : List Entry) (hist : List (Msg × Msg)) : Prop :=
  ∀ payload groups text s, (Msg.payload payload, Msg.group (.quadlets groups) text) ∈ hist → Serder.newWithRaw E.fl (toUtf8 payload) = .ok s →
    HasText (str% "t") (str% "rot") s → ∀ g ∈ sigersOf groups, ∀ est ∈ log, ∀ k, CommittedKey E.H E.chk est k →
      Verfer.verify E.C k g.i.raw s.raw = .ok true → ∃ x ∈ log, x.sad.raw = s.raw

/-- Thresholds with fewer than 2^32 weights. -/
def FewWeights (t : Tholder) : Prop := ∀ qss, IsWeights t.thold qss → positions qss < 2 ^ 32

end Keride.Spec
