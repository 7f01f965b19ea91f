/-
Model of the `Value` type of /repo/src/data.rs and its conversions.
-/
import Verif.Model.Basic

namespace Keride

/-- `data::Value` (data.rs:16-43). Integers are `i64`. A float is represented by the text serde_json
prints for it; floating point arithmetic is not modelled. An object is the list of its entries in
insertion order, as in `IndexMap`. -/
inductive Value where
  | null
  | bool (b : Bool)
  | int (i : Int)
  | float (text : Str)
  | str (s : Str)
  | arr (a : List Value)
  | obj (o : List (Str × Value))
deriving Repr

namespace Value

/-- `to_bool` (data.rs:46-51). -/
def toBool : Value → Res Bool
  | bool b => .ok b
  | _ => .err .conversion

/-- `to_string` (data.rs:54-59). -/
def toStr : Value → Res Str
  | str s => .ok s
  | _ => .err .conversion

/-- `to_i64` (data.rs:61-74). -/
def toI64 : Value → Res Int
  | int i => .ok i
  | _ => .err .conversion

/-- `to_vec` (data.rs:91-96). -/
def toVec : Value → Res (List Value)
  | arr a => .ok a
  | _ => .err .conversion

/-- `to_map` (data.rs:98-103). -/
def toMap : Value → Res (List (Str × Value))
  | obj o => .ok o
  | _ => .err .conversion

end Value

/-- A loop `for x in l { v.push(f(x)?) }`. -/
def Res.mapList {α : Type u} {β : Type v} (f : α → Res β) : List α → Res (List β)
  | [] => .ok []
  | a :: as =>
    match f a with
    | .ok b =>
      match Res.mapList f as with
      | .ok bs => .ok (b :: bs)
      | .err e => .err e
      | .panic => .panic
    | .err e => .err e
    | .panic => .panic

/-- `Vec<String>::join` with a one-character separator. -/
def joinWith (sep : Char) : List Str → Str
  | [] => []
  | [s] => s
  | s :: ss => s ++ sep :: joinWith sep ss

end Keride
