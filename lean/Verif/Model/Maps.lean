/-
Model of the parts of /repo/src/data.rs that make documents from maps and change them in place.
-/
import Verif.Model.Json

namespace Keride.Value

/-- `Value::from(&HashMap)` (data.rs:265-273). The argument lists the entries in the order in which the loop meets them,
which is not determined by the map: it is any order of its entries, whose keys are distinct. -/
def ofHashMap (entries : List (Str × Value)) : Value :=
  .obj (entries.foldl (fun map e => insert e.1 e.2 map) [])

/-- `Value::from(&IndexMap)` (data.rs:275-279). -/
def ofIndexMap (entries : List (Str × Value)) : Value := .obj entries

/-- `&value[i]` with a number (data.rs:146-155): an element, or the value of an entry; a panic when there is none. -/
def indexAt (v : Value) (i : Nat) : Res Value :=
  match v with
  | .arr a => Res.orPanic a[i]?
  | .obj o => Res.orPanic (o[i]?.map Prod.snd)
  | _ => .panic

/-- `value[i] = x` with a number (data.rs:167-175). -/
def setIndexAt (v : Value) (i : Nat) (x : Value) : Res Value :=
  match v with
  | .arr a => if i < a.length then .ok (.arr (a.set i x)) else .panic
  | .obj o => (match o[i]? with
    | some e => .ok (.obj (o.set i (e.1, x)))
    | none => .panic)
  | _ => .panic

end Keride.Value
