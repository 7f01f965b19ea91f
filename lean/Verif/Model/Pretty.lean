/-
Model of the indented print of documents, /repo/src/cesr/core/sadder.rs, and of the writer of serde_json that it relies on.
-/
import Verif.Model.Sadder

namespace Keride

namespace Pretty

/-- The indentation `PrettyFormatter` of serde_json writes after a line break: two spaces for every level. -/
def indent : Nat → Str
  | 0 => []
  | n + 1 => ' ' :: ' ' :: indent n

mutual

/-- `serde_json::to_string_pretty` (called in sadder.rs:200) of a value that stands `n` levels deep. Nothing is written between the brackets of
empty arrays and objects. It cannot fail, so the last arm (sadder.rs:210) is not taken. -/
def text : Nat → Value → Str
  | _, .null => str% "null"
  | _, .bool b => if b then str% "true" else str% "false"
  | _, .int i => jsonInt i
  | _, .float t => t
  | _, .str s => jsonStr s
  | n, .arr a => '[' :: (items (n + 1) true a ++ ((if a.isEmpty then [] else '\n' :: indent n) ++ [']']))
  | n, .obj o => '{' :: (entries (n + 1) true o ++ ((if o.isEmpty then [] else '\n' :: indent n) ++ ['}']))

/-- The elements: each on its own line, with a comma before all but the first (`begin_array_value`, `SerializeSeq`). -/
def items : Nat → Bool → List Value → Str
  | _, _, [] => []
  | n, first, v :: l => (if first then ['\n'] else [',', '\n']) ++ (indent n ++ (text n v ++ items n false l))

/-- The entries: each on its own line, the key, a colon, a space and the value (`begin_object_key`, `begin_object_value`). -/
def entries : Nat → Bool → List (Str × Value) → Str
  | _, _, [] => []
  | n, first, (k, v) :: l =>
    (if first then ['\n'] else [',', '\n']) ++ (indent n ++ (jsonStr k ++ (':' :: ' ' :: (text n v ++ entries n false l))))

end

/-- `Sadder::pretty` (sadder.rs:198-212), the same for `Serder` and `Creder`: the text is read as a `serde_json::Value` (not as a `Value` of data.rs),
written with indentation, and cut at a number of bytes. -/
def pretty (fl : Str → Option Str) (s : Sad) (size : Option Nat) : Res Str := do
  let v ← jsonParse fl jsonDepth s.ked.toJson
  let t := text 0 v
  if size.getD 1024 < t.len then t.sliceTo (size.getD 1024) else .ok t

end Pretty

end Keride
