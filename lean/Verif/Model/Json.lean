/-
Model of the JSON writer of /repo/src/data.rs and of the JSON reader it relies on (`serde_json::from_str`).
-/
import Verif.Model.Value
import Verif.Model.Num

namespace Keride

/-- The escape serde_json writes for one character of a string: `"`, `\\`, and the control characters
below 0x20, the five short ones with a letter and the others as `\\u00xx`. Everything else is
written as it is. -/
def escChar (c : Char) : Str :=
  if c = '"' then ['\\', '"']
  else if c = '\\' then ['\\', '\\']
  else if c.toNat = 8 then ['\\', 'b']
  else if c.toNat = 9 then ['\\', 't']
  else if c.toNat = 10 then ['\\', 'n']
  else if c.toNat = 12 then ['\\', 'f']
  else if c.toNat = 13 then ['\\', 'r']
  else if c.toNat < 32 then ['\\', 'u', '0', '0', digitChr (c.toNat / 16), digitChr (c.toNat % 16)]
  else [c]

/-- The body of a JSON string. -/
def escStr : Str → Str
  | [] => []
  | c :: cs => escChar c ++ escStr cs

/-- `json!(s).to_string()` of a string. -/
def jsonStr (s : Str) : Str := '"' :: (escStr s ++ ['"'])

/-- `json!(i).to_string()` of an `i64`. -/
def jsonInt (i : Int) : Str := if i < 0 then '-' :: fmtNat 10 i.natAbs else fmtNat 10 i.natAbs

mutual

/-- `to_json` (data.rs:105-132). It cannot fail. A float is written as its text. -/
def Value.toJson : Value → Str
  | .null => str% "null"
  | .bool b => if b then str% "true" else str% "false"
  | .int i => jsonInt i
  | .float t => t
  | .str s => jsonStr s
  | .arr a => '[' :: (joinWith ',' (Value.jsonArr a) ++ [']'])
  | .obj o => '{' :: (joinWith ',' (Value.jsonObj o) ++ ['}'])

/-- The loop over the elements of an array (data.rs:117-119). -/
def Value.jsonArr : List Value → List Str
  | [] => []
  | v :: l => v.toJson :: Value.jsonArr l

/-- The loop over the entries of an object (data.rs:124-126). -/
def Value.jsonObj : List (Str × Value) → List Str
  | [] => []
  | (k, v) :: l => (jsonStr k ++ ':' :: v.toJson) :: Value.jsonObj l

end

/-! ## Objects: `IndexMap<String, Value>` with its insertion order -/

namespace Value

/-- `map.get(key)`. -/
def find (k : Str) : List (Str × Value) → Option Value
  | [] => none
  | (k', v) :: l => if k' = k then some v else find k l

/-- `map.contains_key(key)`. -/
def hasKey (k : Str) (o : List (Str × Value)) : Bool := (find k o).isSome

/-- `map.insert(key, value)`: replaces the value in place, or appends. -/
def insert (k : Str) (x : Value) : List (Str × Value) → List (Str × Value)
  | [] => [(k, x)]
  | (k', v) :: l => if k' = k then (k', x) :: l else (k', v) :: insert k x l

/-- `map.remove(key)` of indexmap 1, which is `swap_remove`: the last entry takes the place of the
removed one. -/
def remove (k : Str) : List (Str × Value) → List (Str × Value)
  | [] => []
  | (k', v) :: l =>
    if k' = k then
      match l.getLast? with
      | none => []
      | some e => e :: l.dropLast
    else (k', v) :: remove k l

/-- `&value[key]` (data.rs:157-165): a panic unless the value is an object that has the key. -/
def index (v : Value) (k : Str) : Res Value :=
  match v with
  | .obj o => Res.orPanic (find k o)
  | _ => .panic

/-- `value[key] = x` (data.rs:178-191): a panic unless the value is an object. -/
def setIndex (v : Value) (k : Str) (x : Value) : Res Value :=
  match v with
  | .obj o => .ok (.obj (insert k x o))
  | _ => .panic

end Value

/-! ## The JSON reader -/

/-- JSON white space. -/
def skipWs : Str → Str
  | [] => []
  | c :: s => if c = ' ' ∨ c = '\n' ∨ c = '\t' ∨ c = '\r' then skipWs s else c :: s

/-- The value of four hexadecimal digits, and what follows. -/
def hex4 : Str → Option (Nat × Str)
  | a :: b :: c :: d :: s =>
    match toDigit 16 a, toDigit 16 b, toDigit 16 c, toDigit 16 d with
    | some w, some x, some y, some z => some (((w * 16 + x) * 16 + y) * 16 + z, s)
    | _, _, _, _ => none
  | _ => none

/-- The character of a `\\u` escape, after the `\\u`: a high surrogate must be followed by a low one,
a lone surrogate is an error. -/
def uEscape (s : Str) : Option (Char × Str) :=
  match hex4 s with
  | none => none
  | some (n, r) =>
    if 0xD800 ≤ n ∧ n ≤ 0xDBFF then
      match r with
      | '\\' :: 'u' :: r' =>
        match hex4 r' with
        | none => none
        | some (m, r'') =>
          if 0xDC00 ≤ m ∧ m ≤ 0xDFFF then
            some (Char.ofNat (0x10000 + (n - 0xD800) * 1024 + (m - 0xDC00)), r'')
          else none
      | _ => none
    else if 0xDC00 ≤ n ∧ n ≤ 0xDFFF then none
    else some (Char.ofNat n, r)

/-- The rest of a string after its opening quote, and what follows the closing quote. Characters below
0x20 must be escaped. `fuel` bounds the number of characters. -/
def parseStrBody : Nat → Str → Option (Str × Str)
  | 0, _ => none
  | _ + 1, [] => none
  | fuel + 1, c :: s =>
    if c = '"' then some ([], s)
    else if c = '\\' then
      match s with
      | [] => none
      | e :: s =>
        if e = 'u' then
          match uEscape s with
          | none => none
          | some (x, r) => (parseStrBody fuel r).map fun (t, r) => (x :: t, r)
        else
          match (if e = '"' then some '"' else if e = '\\' then some '\\' else if e = '/' then some '/'
            else if e = 'b' then some (Char.ofNat 8) else if e = 'f' then some (Char.ofNat 12)
            else if e = 'n' then some (Char.ofNat 10) else if e = 'r' then some (Char.ofNat 13)
            else if e = 't' then some (Char.ofNat 9) else none : Option Char) with
          | none => none
          | some x => (parseStrBody fuel s).map fun (t, r) => (x :: t, r)
    else if c.toNat < 32 then none
    else (parseStrBody fuel s).map fun (t, r) => (c :: t, r)

/-- A decimal digit. -/
def isDec (c : Char) : Bool := decide (48 ≤ c.toNat ∧ c.toNat ≤ 57)

/-- The leading decimal digits, and what follows. -/
def spanDec (s : Str) : Str × Str := (s.takeWhile isDec, s.dropWhile isDec)

/-- The fraction of a number: `.` and at least one digit. -/
def numFrac (s : Str) : Option (Str × Str) :=
  match s with
  | [] => some ([], s)
  | c :: r =>
    if c = '.' then
      if (spanDec r).1 = [] then none else some ('.' :: (spanDec r).1, (spanDec r).2)
    else some ([], s)

/-- The exponent of a number: `e` or `E`, an optional sign and at least one digit. -/
def numExp (s : Str) : Option (Str × Str) :=
  match s with
  | [] => some ([], s)
  | c :: r =>
    if c = 'e' ∨ c = 'E' then
      let sg := if r.head? = some '+' ∨ r.head? = some '-' then r.take 1 else []
      let r := r.drop sg.length
      if (spanDec r).1 = [] then none else some (c :: sg ++ (spanDec r).1, (spanDec r).2)
    else some ([], s)

/-- The value of a number without fraction and exponent: an integer from the minimum of `i64` to the maximum of
`u64`, but not minus zero; anything else is a float. -/
def intOf (neg : Bool) (digits : Str) : Option Int :=
  match radixVal 10 0 digits with
  | none => none
  | some n =>
    if neg then if 0 < n ∧ n ≤ 2 ^ 63 then some (-(n : Int)) else none
    else if n < 2 ^ 64 then some n else none

/-- A number at the start of the text. `fl` gives, for a number that is not kept as an integer, the text that
serde_json prints for the double nearest to it, or nothing when it is out of range; floating point is not
modelled. -/
def parseNum (fl : Str → Option Str) (s : Str) : Option (Value × Str) :=
  let neg : Bool := decide (s.head? = some '-')
  let s := if neg then s.drop 1 else s
  let ds := (spanDec s).1
  if ds = [] then none
  else if ds.head? = some '0' ∧ ds.length ≠ 1 then none
  else
    match numFrac (spanDec s).2 with
    | none => none
    | some (f, r) =>
      match numExp r with
      | none => none
      | some (e, r) =>
        let tok := (if neg then ['-'] else []) ++ ds ++ f ++ e
        match (if f = [] ∧ e = [] then intOf neg ds else none : Option Int) with
        | some i => some (.int i, r)
        | none => (fl tok).map fun t => (.float t, r)

/-- `pre` at the start of the text, and what follows. -/
def dropPrefix : Str → Str → Option Str
  | [], s => some s
  | c :: p, d :: s => if c = d then dropPrefix p s else none
  | _ :: _, [] => none

mutual

/-- A JSON value at the start of the text, and what follows it. `depth` is serde_json's remaining depth: an array
or object is an error when it would reach zero. `fuel` bounds the number of steps. -/
def parseVal (fl : Str → Option Str) : Nat → Nat → Str → Option (Value × Str)
  | 0, _, _ => none
  | fuel + 1, depth, s =>
    match skipWs s with
    | [] => none
    | c :: t =>
      if c = 'n' then (dropPrefix (str% "ull") t).map fun r => (.null, r)
      else if c = 't' then (dropPrefix (str% "rue") t).map fun r => (.bool true, r)
      else if c = 'f' then (dropPrefix (str% "alse") t).map fun r => (.bool false, r)
      else if c = '"' then (parseStrBody (t.length + 1) t).map fun (u, r) => (.str u, r)
      else if c = '[' then
        if depth ≤ 1 then none
        else if (skipWs t).head? = some ']' then some (.arr [], (skipWs t).drop 1)
        else (parseElems fl fuel (depth - 1) t).map fun (l, r) => (.arr l, r)
      else if c = '{' then
        if depth ≤ 1 then none
        else if (skipWs t).head? = some '}' then some (.obj [], (skipWs t).drop 1)
        else (parseEntries fl fuel (depth - 1) [] t).map fun (l, r) => (.obj l, r)
      else parseNum fl (c :: t)

/-- The elements of an array up to its closing bracket. -/
def parseElems (fl : Str → Option Str) : Nat → Nat → Str → Option (List Value × Str)
  | 0, _, _ => none
  | fuel + 1, depth, s =>
    match parseVal fl fuel depth s with
    | none => none
    | some (v, r) =>
      match skipWs r with
      | [] => none
      | c :: r =>
        if c = ',' then (parseElems fl fuel depth r).map fun (l, r) => (v :: l, r)
        else if c = ']' then some ([v], r)
        else none

/-- The entries of an object up to its closing brace, inserted one after the other into `o`. -/
def parseEntries (fl : Str → Option Str) : Nat → Nat → List (Str × Value) → Str → Option (List (Str × Value) × Str)
  | 0, _, _, _ => none
  | fuel + 1, depth, o, s =>
    match skipWs s with
    | [] => none
    | q :: s =>
      if q = '"' then
        match parseStrBody (s.length + 1) s with
        | none => none
        | some (k, r) =>
          match skipWs r with
          | [] => none
          | c :: r =>
            if c = ':' then
              match parseVal fl fuel depth r with
              | none => none
              | some (v, r) =>
                match skipWs r with
                | [] => none
                | c :: r =>
                  if c = ',' then parseEntries fl fuel depth (Value.insert k v o) r
                  else if c = '}' then some (Value.insert k v o, r)
                  else none
            else none
      else none

end

/-- `serde_json::from_str` with the given remaining depth. The value it returns is represented by a `Value` whose
integers may be up to the maximum of `u64`. -/
def jsonParse (fl : Str → Option Str) (depth : Nat) (s : Str) : Res Value :=
  match parseVal fl (s.length + 1) depth s with
  | none => .err .json
  | some (v, r) => if skipWs r = [] then .ok v else .err .json

/-- The recursion limit of serde_json. -/
def jsonDepth : Nat := 128

mutual

/-- `From<&JsonValue>` (data.rs:281-310): `as_i64().unwrap()` panics on an integer above the maximum of `i64`
(data.rs:290), and on a float whose text has no `.` (data.rs:287-290). -/
def Value.ofJson : Value → Res Value
  | .null => .ok .null
  | .bool b => .ok (.bool b)
  | .int i => if i < 2 ^ 63 then .ok (.int i) else .panic
  | .float t => if '.' ∈ t then .ok (.float t) else .panic
  | .str s => .ok (.str s)
  | .arr a => do
    let l ← Value.ofJsonArr a
    .ok (.arr l)
  | .obj o => do
    let l ← Value.ofJsonObj o []
    .ok (.obj l)

/-- The loop over an array (data.rs:295-298). -/
def Value.ofJsonArr : List Value → Res (List Value)
  | [] => .ok []
  | v :: l => do
    let x ← v.ofJson
    let xs ← Value.ofJsonArr l
    .ok (x :: xs)

/-- The loop over an object (data.rs:302-305). -/
def Value.ofJsonObj : List (Str × Value) → List (Str × Value) → Res (List (Str × Value))
  | [], m => .ok m
  | (k, v) :: l, m => do
    let x ← v.ofJson
    Value.ofJsonObj l (Value.insert k x m)

end

/-- `serde_json::from_str` followed by `Value::from`, as in `loads` (common.rs:249-252) and tholder.rs. -/
def jsonRead (fl : Str → Option Str) (s : Str) : Res Value := do
  let v ← jsonParse fl jsonDepth s
  v.ofJson

end Keride
