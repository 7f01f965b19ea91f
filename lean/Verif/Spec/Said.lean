/-
Self-addressing identifiers (SAIDs): a document is digested with its SAID field filled with `#`.
-/
import Verif.Model.Saider
import Verif.Spec.Cesr
import Verif.Spec.Version

namespace Keride.Spec

/-- The hash functions return digests of the size of their code: 32 bytes, or 64 for `0D`, `0E`, `0F` and `0G`. -/
def HashOk (H : Hash) : Prop := ∀ code ∈ digests, ∀ n, (code, n) ∈ fixedCodes → ∀ ser, (H code ser).length = n

/-- The number of characters of a SAID. -/
def saidChars (code : Str) : Nat := if code.length = 1 then 44 else 88

/-- The document with the field `label` filled with `#` characters, as many as the SAID has. -/
def blanked (code label : Str) (o : List (Str × Value)) : List (Str × Value) :=
  o.map fun e => if e.1 = label then (e.1, .str (List.replicate (saidChars code) '#')) else e

/-- The fields other than `label`. -/
def otherFields (label : Str) (o : List (Str × Value)) : List (Str × Value) := o.filter fun e => e.1 ≠ label

/-- The same, for a document that may not have the field: then it comes last. -/
def filled (code label : Str) (o : List (Str × Value)) : List (Str × Value) :=
  if label ∈ o.map Prod.fst then blanked code label o else o ++ [(label, .str (List.replicate (saidChars code) '#'))]

/-- The document with its size in the version string. -/
def sized (ident : Str) (o : List (Str × Value)) : List (Str × Value) :=
  o.map fun e => if e.1 = str% "v" then (e.1, .str (versionText ident ⟨1, 0⟩ (str% "JSON") (toUtf8 (Value.obj o).toJson).length)) else e

/-- Two different texts with the same digest. Digests are shorter than most texts, so there are always such texts: where a theorem
says that there may be a collision, it names the texts. -/
def Collide (H : Hash) (code a b : Str) : Prop := a ≠ b ∧ H code (toUtf8 a) = H code (toUtf8 b)

/-- A text of one kind and another text of another kind with the same digest. -/
def Collision (H : Hash) (code : Str) (A B : Str → Prop) : Prop := ∃ a b, A a ∧ B b ∧ Collide H code a b

/-- What is digested for a document when fields are ignored: the document with `label` filled with `#`, its own version string or one with
its size, without the ignored fields. (Removing a field may change the order of the others.) -/
def Draft (code label : Str) (ignore : List Str) (o : List (Str × Value)) (text : Str) : Prop :=
  ∃ w l, (w = filled code label o ∨ ∃ ident ∈ protocols, w = sized ident (filled code label o)) ∧ l.Perm (w.filter fun e => e.1 ∉ ignore) ∧ text = (Value.obj l).toJson

/-- The field `k` of a document. -/
def field (k : Str) (v : Value) : Option Value :=
  match v with
  | .obj o => (o.find? fun e => e.1 = k).map Prod.snd
  | _ => none

end Keride.Spec
