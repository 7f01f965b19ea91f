/-
JSON schemas identified by their content.
-/
import Verif.Model.Sample.Schemer
import Verif.Spec.Json
import Verif.Spec.Said

namespace Keride.Spec

open Sample

/-- The text of a fraction that the reader gives back as written, such as `0.01`. -/
def Fraction (fl : Str → Option Str) (t : Str) : Prop := IsDecimal t ∧ fl t = some t

/-- A schema document that reads back as written: an object nested at most 127 deep, with fractions that read back as written, and
without a version field `v`, which JSON schemas do not have. -/
structure SchemaDoc (fl : Str → Option Str) (v : Value) : Prop where
  proper : Proper (Fraction fl) v
  depth : nesting v ≤ 127
  unversioned : field (str% "v") v = none

/-- Some schemers were made one after the other in one process, successfully, and the compiled documents are now `cache`. -/
inductive Loaded {γ : Type} (H : Hash) (chk : Bool) (fl : Str → Option Str) (B : Boon γ) : List Schemer → SchemaCache γ → Prop
  | none : Loaded H chk fl B [] []
  | load {l : List Schemer} {cache cache' : SchemaCache γ} {raw : Option Bytes} {sed : Option Value} {kind code : Option Str} {s : Schemer} :
      Loaded H chk fl B l cache → Schemer.new H chk fl B cache raw sed kind code = .ok (s, cache') → SchemaDoc fl s.sed →
      Loaded H chk fl B (s :: l) cache'

/-- What is digested for a schema: its document with `$id` filled with `#`. -/
def SchemaText (s : Schemer) (text : Str) : Prop := ∃ o, s.sed = .obj o ∧ text = (Value.obj (blanked s.saider.code (str% "$id") o)).toJson

end Keride.Spec
