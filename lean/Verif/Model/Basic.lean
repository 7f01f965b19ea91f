/-
Basic vocabulary of the model: results, strings, slices, machine integers.

Nothing here models a function of /repo by itself; it fixes how Rust values are represented.
-/
namespace Keride

/-- The variants of `crate::error::Error` (src/error.rs:3-69), without their message texts, plus the
external errors the crate converts into its boxed error type with `?`. -/
inductive Err where
  | matter | emptyMaterial | decode | unexpectedCode | unexpectedCountCode | unexpectedOpCode
  | invalidVarSize | invalidVarRawSize | invalidVarIndex | invalidCodeSize
  | invalidBase64Character | invalidBase64Index | shortage | emptyQb64
  | unknownSizage | unknownHardage | unknownBardage | unsupportedSize | tooSmall
  | prepad | nonZeroedPrepad | nonFixedSizeCode | nonZeroedLeadByte | nonZeroedLeadBytes
  | nonZeroedPadBits | parsing | parseQb64 | parseQb2 | conversion | value | validation | derivation
  /-- `base64::DecodeError` -/
  | base64Decode
  /-- `base64::EncodeSliceError` -/
  | base64Encode
  /-- `std::str::Utf8Error` / `std::string::FromUtf8Error` -/
  | utf8
  /-- `std::num::ParseIntError` / `TryFromIntError` -/
  | parseInt
  /-- `serde_json::Error` -/
  | json
  /-- errors of the cryptographic crates -/
  | crypto
  /-- errors that only the code under /repo/sample has (its `crate::error::Error`) -/
  | verification | outOfOrder | programmer | decoding | encoding
  /-- errors of the store, of the external parser `parside`, and of the date and schema libraries -/
  | storage | external
deriving DecidableEq, Repr

/-- The outcome of a Rust call: `Ok`, `Err`, or a panic. -/
inductive Res (α : Type _) where
  | ok (a : α)
  | err (e : Err)
  | panic
deriving DecidableEq, Repr

namespace Res

/-- The `?` operator: errors and panics propagate. -/
def bind {α : Type u} {β : Type v} : Res α → (α → Res β) → Res β
  | ok a, f => f a
  | err e, _ => err e
  | panic, _ => panic

instance : Monad Res where
  pure := ok
  bind := bind

@[simp] theorem pure_eq {α : Type u} (a : α) : (pure a : Res α) = ok a := rfl
@[simp] theorem ok_bind {α β : Type u} (a : α) (f : α → Res β) : (ok a >>= f) = f a := rfl
@[simp] theorem err_bind {α β : Type u} (e : Err) (f : α → Res β) : (err e >>= f) = err e := rfl
@[simp] theorem panic_bind {α β : Type u} (f : α → Res β) : ((panic : Res α) >>= f) = panic := rfl
@[simp] theorem map_ok {α β : Type u} (a : α) (f : α → β) : f <$> (ok a) = ok (f a) := rfl

theorem bind_eq_ok {α β : Type u} {x : Res α} {f : α → Res β} {b : β} :
    (x >>= f) = ok b ↔ ∃ a, x = ok a ∧ f a = ok b := by
  cases x <;> simp

theorem bind_eq_panic {α β : Type u} {x : Res α} {f : α → Res β} :
    (x >>= f) = panic ↔ x = panic ∨ ∃ a, x = ok a ∧ f a = panic := by
  cases x <;> simp

theorem bind_eq_err {α β : Type u} {x : Res α} {f : α → Res β} {e : Err} :
    (x >>= f) = err e ↔ x = err e ∨ ∃ a, x = ok a ∧ f a = err e := by
  cases x <;> simp

/-- The call returned `Ok`. -/
def isOk {α : Type u} : Res α → Bool
  | ok _ => true
  | _ => false

/-- The call returned `Err` (in particular it neither succeeded nor panicked). -/
def isErr {α : Type u} : Res α → Bool
  | err _ => true
  | _ => false

theorem isOk_iff {α : Type u} {x : Res α} : x.isOk = true ↔ ∃ a, x = ok a := by
  cases x <;> simp [isOk]

theorem isErr_iff {α : Type u} {x : Res α} : x.isErr = true ↔ ∃ e, x = err e := by
  cases x <;> simp [isErr]

/-- `Option` to `Result` with a fixed error. -/
def ofOption {α : Type u} (e : Err) : Option α → Res α
  | some a => ok a
  | none => err e

@[simp] theorem ofOption_some {α : Type u} (e : Err) (a : α) : ofOption e (some a) = ok a := rfl
@[simp] theorem ofOption_none {α : Type u} (e : Err) : ofOption e (none : Option α) = err e := rfl

/-- Indexing or `unwrap`: a panic when there is no value. -/
def orPanic {α : Type u} : Option α → Res α
  | some a => ok a
  | none => panic

@[simp] theorem orPanic_some {α : Type u} (a : α) : orPanic (some a) = ok a := rfl
@[simp] theorem orPanic_none {α : Type u} : orPanic (none : Option α) = panic := rfl

theorem ofOption_eq_ok {α : Type u} {e : Err} {o : Option α} {a : α} :
    ofOption e o = ok a ↔ o = some a := by
  cases o <;> simp [ofOption]

theorem ofOption_ne_panic {α : Type u} {e : Err} {o : Option α} : ofOption e o ≠ panic := by
  cases o <;> simp [ofOption]

end Res

/-- A Rust `&str`/`String`: its sequence of Unicode scalar values. -/
abbrev Str := List Char

/-- `str% "abc"` is the explicit list `['a', 'b', 'c']`. -/
syntax (name := strLit) "str% " str : term

open Lean in
macro_rules
  | `(str% $s:str) => do
    let cs := s.getString.toList
    let elems := cs.map (fun c => Syntax.mkCharLit c)
    let arr : Array (TSyntax `term) := (elems.map (fun e => (⟨e.raw⟩ : TSyntax `term))).toArray
    `([$arr,*])

namespace Str

/-- `str::len`: the number of UTF-8 bytes. -/
def len : Str → Nat
  | [] => 0
  | c :: cs => c.utf8Size + len cs

/-- `&s[..n]`: panics if `n` is past the end or not on a character boundary. -/
def sliceTo : Str → Nat → Res Str
  | _, 0 => .ok []
  | [], _ + 1 => .panic
  | c :: cs, n + 1 =>
    if c.utf8Size ≤ n + 1 then
      match sliceTo cs (n + 1 - c.utf8Size) with
      | .ok r => .ok (c :: r)
      | .err e => .err e
      | .panic => .panic
    else .panic

/-- `&s[n..]`: panics if `n` is past the end or not on a character boundary. -/
def sliceFrom : Str → Nat → Res Str
  | s, 0 => .ok s
  | [], _ + 1 => .panic
  | c :: cs, n + 1 => if c.utf8Size ≤ n + 1 then sliceFrom cs (n + 1 - c.utf8Size) else .panic

/-- `&s[a..b]`. -/
def slice (s : Str) (a b : Nat) : Res Str := do
  if b < a then .panic else
  let t ← sliceTo s b
  sliceFrom t a

end Str

/-- A byte string. -/
abbrev Bytes := List UInt8

namespace Bytes

/-- `&b[..n]` on a byte slice: panics if out of range. -/
def sliceTo (b : Bytes) (n : Nat) : Res Bytes := if n ≤ b.length then .ok (b.take n) else .panic

/-- `&b[n..]` on a byte slice: panics if out of range. -/
def sliceFrom (b : Bytes) (n : Nat) : Res Bytes := if n ≤ b.length then .ok (b.drop n) else .panic

end Bytes

/-- `u32::MAX`. -/
def u32Max : Nat := 4294967295

/-- `a - b` on `u32`. With overflow checks (`chk`, debug builds) it panics below zero, otherwise it wraps. -/
def subU32 (chk : Bool) (a b : Nat) : Res Nat :=
  if b ≤ a then .ok (a - b) else if chk then .panic else .ok (a + 2 ^ 32 - b)

/-- `a.pow(k)` on `u32`. With overflow checks it panics when the result does not fit, otherwise it wraps. -/
def powU32 (chk : Bool) (a k : Nat) : Res Nat :=
  if a ^ k < 2 ^ 32 then .ok (a ^ k) else if chk then .panic else .ok (a ^ k % 2 ^ 32)

/-- `a + b` on `u32`. -/
def addU32 (chk : Bool) (a b : Nat) : Res Nat :=
  if a + b < 2 ^ 32 then .ok (a + b) else if chk then .panic else .ok ((a + b) % 2 ^ 32)

/-- `a * b` on `u32`. -/
def mulU32 (chk : Bool) (a b : Nat) : Res Nat :=
  if a * b < 2 ^ 32 then .ok (a * b) else if chk then .panic else .ok (a * b % 2 ^ 32)

end Keride
