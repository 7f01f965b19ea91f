/-
What a JSON text means (RFC 8259), without reference to a reader: the grammar as a relation between texts and values.
Numbers that are not 64-bit integers are given by `fl`, and objects with equal keys as serde_json reads them.
-/
import Verif.Model.Value

namespace Keride.Spec

/-- JSON white space. -/
def Blank (t : Str) : Prop := ∀ c ∈ t, c = ' ' ∨ c = '\t' ∨ c = '\n' ∨ c = '\r'

/-- A hexadecimal digit and its value. -/
def HexDigit (c : Char) (n : Nat) : Prop := (str% "0123456789abcdef")[n]? = some c ∨ (str% "0123456789ABCDEF")[n]? = some c

/-- Four hexadecimal digits and their value. -/
def Hex4 (t : Str) (n : Nat) : Prop :=
  ∃ a b c d w x y z, t = [a, b, c, d] ∧ HexDigit a w ∧ HexDigit b x ∧ HexDigit c y ∧ HexDigit d z ∧
    n = 4096 * w + 256 * x + 16 * y + z

/-- The short escapes: the character after the backslash, and the code it stands for. -/
def shortEscapes : List (Char × Nat) :=
  [('"', 34), ('\\', 92), ('/', 47), ('b', 8), ('f', 12), ('n', 10), ('r', 13), ('t', 9)]

/-- The first text, between quotes, is a JSON string for the second. -/
inductive Spells : Str → Str → Prop
  | done : Spells [] []
  | plain (c : Char) {t s : Str} : c ≠ '"' → c ≠ '\\' → 32 ≤ c.toNat → Spells t s → Spells (c :: t) (c :: s)
  | short (e c : Char) {t s : Str} : (e, c.toNat) ∈ shortEscapes → Spells t s → Spells ('\\' :: e :: t) (c :: s)
  | code (h : Str) (c : Char) {t s : Str} : Hex4 h c.toNat → Spells t s → Spells ('\\' :: 'u' :: (h ++ t)) (c :: s)
  | pair (h l : Str) (n m : Nat) (c : Char) {t s : Str} : Hex4 h n → Hex4 l m → 0xD800 ≤ n → n < 0xDC00 → 0xDC00 ≤ m → m < 0xE000 →
      c.toNat = 0x10000 + (n - 0xD800) * 0x400 + (m - 0xDC00) → Spells t s →
      Spells ('\\' :: 'u' :: (h ++ '\\' :: 'u' :: (l ++ t))) (c :: s)

/-- One or more decimal digits. -/
def Digits (t : Str) : Prop := t ≠ [] ∧ ∀ c ∈ t, c ∈ str% "0123456789"

/-- The value of decimal digits. -/
def decimal (t : Str) : Nat := t.foldl (fun n c => 10 * n + (c.toNat - 48)) 0

/-- A number: sign, digits without superfluous zero, fraction and exponent. -/
structure IsNumber (sign a f e : Str) : Prop where
  sign : sign = [] ∨ sign = ['-']
  int : Digits a ∧ (a.head? = some '0' → a = ['0'])
  frac : f = [] ∨ ∃ b, f = '.' :: b ∧ Digits b
  exp : e = [] ∨ ∃ x g b, e = x :: (g ++ b) ∧ (x = 'e' ∨ x = 'E') ∧ (g = [] ∨ g = ['+'] ∨ g = ['-']) ∧ Digits b

/-- The numbers that are kept as integers: those without fraction and exponent from the minimum of `i64` to the maximum of
`u64`, but not minus zero. -/
def IsInteger (sign a f e : Str) (i : Int) : Prop :=
  f = [] ∧ e = [] ∧ ((sign = [] ∧ decimal a < 2 ^ 64 ∧ i = decimal a) ∨
    (sign = ['-'] ∧ 0 < decimal a ∧ decimal a ≤ 2 ^ 63 ∧ i = -(decimal a : Int)))

/-- The value of a number. -/
def NumberIs (fl : Str → Option Str) (t : Str) (v : Value) : Prop :=
  ∃ sign a f e, t = sign ++ a ++ f ++ e ∧ IsNumber sign a f e ∧
    ((∃ i, IsInteger sign a f e i ∧ v = .int i) ∨ ((∀ i, ¬ IsInteger sign a f e i) ∧ ∃ u, fl t = some u ∧ v = .float u))

/-- The keys in the order in which they first occur. -/
def firstKeys : List Str → List Str
  | [] => []
  | k :: l => k :: (firstKeys l).filter (· ≠ k)

/-- The object with the given entries: every key where it first occurs, with the value it is last given. -/
def ObjectOf (entries o : List (Str × Value)) : Prop :=
  o.map Prod.fst = firstKeys (entries.map Prod.fst) ∧
    ∀ k v, (k, v) ∈ o → ∃ a b, entries = a ++ (k, v) :: b ∧ k ∉ b.map Prod.fst

mutual

/-- The text is JSON for the value, with arrays and objects nested at most `d` deep. -/
inductive Denotes (fl : Str → Option Str) : Nat → Str → Value → Prop
  | null (d : Nat) : Denotes fl d (str% "null") .null
  | true (d : Nat) : Denotes fl d (str% "true") (.bool true)
  | false (d : Nat) : Denotes fl d (str% "false") (.bool false)
  | number (d : Nat) {t : Str} {v : Value} : NumberIs fl t v → Denotes fl d t v
  | string (d : Nat) {t s : Str} : Spells t s → Denotes fl d ('"' :: (t ++ ['"'])) (.str s)
  | noItems (d : Nat) {w : Str} : Blank w → Denotes fl (d + 1) ('[' :: (w ++ [']'])) (.arr [])
  | items (d : Nat) {t : Str} {l : List Value} : Items fl d t l → Denotes fl (d + 1) ('[' :: (t ++ [']'])) (.arr l)
  | noEntries (d : Nat) {w : Str} : Blank w → Denotes fl (d + 1) ('{' :: (w ++ ['}'])) (.obj [])
  | entries (d : Nat) {t : Str} {l o : List (Str × Value)} : Entries fl d t l → ObjectOf l o →
      Denotes fl (d + 1) ('{' :: (t ++ ['}'])) (.obj o)

/-- One or more values between commas. -/
inductive Items (fl : Str → Option Str) : Nat → Str → List Value → Prop
  | last (d : Nat) {w t w' : Str} {v : Value} : Blank w → Denotes fl d t v → Blank w' → Items fl d (w ++ (t ++ w')) [v]
  | more (d : Nat) {w t w' u : Str} {v : Value} {l : List Value} : Blank w → Denotes fl d t v → Blank w' → Items fl d u l →
      Items fl d (w ++ (t ++ (w' ++ ',' :: u))) (v :: l)

/-- One or more entries between commas. -/
inductive Entries (fl : Str → Option Str) : Nat → Str → List (Str × Value) → Prop
  | last (d : Nat) {w k w₁ w₂ t w₃ s : Str} {v : Value} : Blank w → Spells k s → Blank w₁ → Blank w₂ → Denotes fl d t v → Blank w₃ →
      Entries fl d (w ++ '"' :: (k ++ '"' :: (w₁ ++ ':' :: (w₂ ++ (t ++ w₃))))) [(s, v)]
  | more (d : Nat) {w k w₁ w₂ t w₃ s u : Str} {v : Value} {l : List (Str × Value)} : Blank w → Spells k s → Blank w₁ → Blank w₂ →
      Denotes fl d t v → Blank w₃ → Entries fl d u l →
      Entries fl d (w ++ '"' :: (k ++ '"' :: (w₁ ++ ':' :: (w₂ ++ (t ++ (w₃ ++ ',' :: u)))))) ((s, v) :: l)

end

/-- A JSON document: a value with white space around it. -/
def JsonText (fl : Str → Option Str) (d : Nat) (text : Str) (v : Value) : Prop :=
  ∃ w t w', text = w ++ (t ++ w') ∧ Blank w ∧ Denotes fl d t v ∧ Blank w'

/-- A float written with a point that is printed, when read, as it was written. -/
def FloatText (fl : Str → Option Str) (t : Str) : Prop := '.' ∈ t ∧ NumberIs fl t (.float t)

/-- What is printed for a float is, when read, printed the same. -/
def Settled (fl : Str → Option Str) : Prop := ∀ t u, fl t = some u → NumberIs fl u (.float u)

end Keride.Spec
