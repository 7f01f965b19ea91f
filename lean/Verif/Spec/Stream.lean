/-
Specification vocabulary for texts with attached signatures: what a reader sees that takes one element after the
other, each by its own size.
-/
import Verif.Model.Messaging
import Verif.Spec.Cesr

namespace Keride.Spec

/-- Reading `n` indexed signatures one after the other from a text gives the list, and leaves `rest`. -/
inductive ReadSigs (chk : Bool) : Nat → Str → List Indexer.I → Str → Prop
  | nil (t : Str) : ReadSigs chk 0 t [] t
  | cons {n k : Nat} {t : Str} {g : Indexer.I} {l : List Indexer.I} {rest : Str}
      (hg : Indexer.newWithQb64 chk t = .ok g) (hk : Indexer.fullSize chk g = .ok k) (hl : ReadSigs chk n (t.drop k) l rest) :
      ReadSigs chk (n + 1) t (g :: l) rest

/-- A text that starts with a group of indexed signatures: a counter with the code and the number, then the
signatures. -/
def StartsWithGroup (chk : Bool) (code : Str) (l : List Indexer.I) (text rest : Str) : Prop :=
  Counter.newWithQb64 text = .ok ⟨code, l.length⟩ ∧ ∃ k, Counter.fullSize ⟨code, l.length⟩ = .ok k ∧
    ReadSigs chk l.length (text.drop k) l rest

/-- An indexed signature made from its parts, with an ondex its code can write. -/
def Written (g : Indexer.I) : Prop :=
  ∃ e ∈ sigCodes, ∃ raw index ondex, (ondex = none ∨ e.ondexChars ≠ 0 ∨ ondex = some index) ∧
    Indexer.newWithCodeAndRaw e.code raw index ondex = .ok g

/-- The header naming who signed: nothing without a seal, the counter `-H` and the identifier for the latest keys, the
counter `-F` and identifier, sequence number and digest of an event otherwise. -/
def SealHead : Option Seal → Str → Prop
  | none, t => t = []
  | some s, t =>
    if s.last then ∃ c, t = c ++ s.i ∧ (∀ r, Counter.newWithQb64 (c ++ r) = .ok ⟨str% "-H", 1⟩) ∧ c.length = 4
    else ∃ c q m n, t = c ++ (s.i ++ (q ++ s.d)) ∧ (∀ r, Counter.newWithQb64 (c ++ r) = .ok ⟨str% "-F", 1⟩) ∧ c.length = 4 ∧
      Seqner.newWithQb64 q = .ok m ∧ Seqner.sn m = .ok n ∧ parseUnsigned 16 u128Max s.s = .ok n

end Keride.Spec
