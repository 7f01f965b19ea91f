/-
Specification of where the parts of an indexed signature end in a text.
-/
import Verif.Spec.Cesr

namespace Keride.Spec

/-- A code of the Indexer table: how many Base64 characters hold the index and the ondex, whether it has no ondex other
than 0, and how many characters an encoding has; `none` when that depends on the index. -/
structure IndexCode where
  code : Str
  indexChars : Nat
  ondexChars : Nat
  currentOnly : Bool
  chars : Option Nat
deriving DecidableEq, Repr

/-- Every code of the Indexer table: the signatures, and three codes kept for tests and for what is to come. -/
def indexCodes : List IndexCode :=
  sigCodes.map (fun e => ⟨e.code, e.indexChars, e.ondexChars, e.currentOnly, some (e.code.length + e.indexChars + e.ondexChars + (8 * e.bytes + 5) / 6)⟩) ++
  [⟨str% "0z", 2, 0, false, none⟩, ⟨str% "1z", 1, 1, false, some 76⟩, ⟨str% "4z", 3, 3, false, some 80⟩]

/-- The places, counted in bytes, where a part of the indexed primitive ends that a text begins with: its code, when the
first character is a digit from 0 to 4; the index; the ondex; and all of it. -/
inductive IndexEnds (s : Str) : Nat → Prop
  | code (c : Char) (rest : Str) : s = c :: rest → c ∈ str% "01234" → IndexEnds s 2
  | index (e : IndexCode) : e ∈ indexCodes → e.code <+: s → e.code.length + e.indexChars + e.ondexChars ≤ Str.len s →
      IndexEnds s (e.code.length + e.indexChars)
  | ondex (e : IndexCode) (idx : Str) : e ∈ indexCodes → idx.length = e.indexChars → IsBase64 idx → e.code ++ idx <+: s →
      IndexEnds s (e.code.length + e.indexChars + e.ondexChars)
  | all (e : IndexCode) (idx odx : Str) : e ∈ indexCodes → idx.length = e.indexChars → IsBase64 idx → odx.length = e.ondexChars → IsBase64 odx →
      (e.currentOnly = true → b64Number odx = 0) → e.code ++ idx ++ odx <+: s →
      IndexEnds s (e.chars.getD (e.code.length + e.indexChars + e.ondexChars + 4 * b64Number idx))

end Keride.Spec
