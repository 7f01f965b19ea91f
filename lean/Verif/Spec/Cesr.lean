/-
Specification vocabulary for the CESR primitives, written from the CESR tables and RFC 4648, not from
the model's functions.
-/
import Verif.Model.Basic

namespace Keride.Spec

/-- The URL-safe Base64 alphabet, RFC 4648 section 5. -/
def base64url : List Char :=
  str% "ABCDEFGHIJKLMNOPQRSTUVWXYZabcdefghijklmnopqrstuvwxyz0123456789-_"

/-- Text over that alphabet. -/
def IsBase64 (s : Str) : Prop := ∀ c ∈ s, c ∈ base64url

/-- ASCII text. -/
def IsAscii (s : Str) : Prop := ∀ c ∈ s, c.toNat < 128

/-- Every fixed-size Matter code with the number of raw bytes it carries. -/
def fixedCodes : List (Str × Nat) := [
  (str% "A", 32), (str% "B", 32), (str% "C", 32), (str% "D", 32), (str% "E", 32), (str% "F", 32),
  (str% "G", 32), (str% "H", 32), (str% "I", 32), (str% "J", 32), (str% "K", 56), (str% "L", 56),
  (str% "M", 2), (str% "N", 8), (str% "O", 32), (str% "P", 92), (str% "Q", 32),
  (str% "0A", 16), (str% "0B", 64), (str% "0C", 64), (str% "0D", 64), (str% "0E", 64), (str% "0F", 64),
  (str% "0G", 64), (str% "0H", 4), (str% "0I", 64),
  (str% "1AAA", 33), (str% "1AAB", 33), (str% "1AAC", 57), (str% "1AAD", 57), (str% "1AAE", 39),
  (str% "1AAF", 3), (str% "1AAG", 24), (str% "1AAH", 72), (str% "1AAI", 33), (str% "1AAJ", 33),
  (str% "2AAA", 2), (str% "3AAA", 1)]

/-- A variable-size code: its first character says how many lead bytes precede the raw bytes, its last
character names the type. -/
structure VarCode where
  code : Str
  large : Bool
  lead : Nat
  type : Char
deriving DecidableEq, Repr

/-- Every variable-size Matter code. -/
def varCodes : List VarCode := [
  ⟨str% "4A", false, 0, 'A'⟩, ⟨str% "5A", false, 1, 'A'⟩, ⟨str% "6A", false, 2, 'A'⟩,
  ⟨str% "4B", false, 0, 'B'⟩, ⟨str% "5B", false, 1, 'B'⟩, ⟨str% "6B", false, 2, 'B'⟩,
  ⟨str% "7AAA", true, 0, 'A'⟩, ⟨str% "8AAA", true, 1, 'A'⟩, ⟨str% "9AAA", true, 2, 'A'⟩,
  ⟨str% "7AAB", true, 0, 'B'⟩, ⟨str% "8AAB", true, 1, 'B'⟩, ⟨str% "9AAB", true, 2, 'B'⟩]

/-- The Matter code table. -/
def matterCodes : List Str := fixedCodes.map Prod.fst ++ varCodes.map VarCode.code

/-- Non-transferable verification key codes: Ed25519N, ECDSA_256k1N, Ed448N, ECDSA_256r1N. -/
def nonTransferable : List Str := [str% "B", str% "1AAA", str% "1AAC", str% "1AAI"]

/-- Digest codes: Blake3-256/512, Blake2b-256/512, Blake2s-256, SHA3-256/512, SHA2-256/512. -/
def digests : List Str :=
  [str% "E", str% "0D", str% "F", str% "0E", str% "G", str% "H", str% "0F", str% "I", str% "0G"]

/-- Number of quadlets a raw value of `n` bytes needs. -/
def quadlets (n : Nat) : Nat := (n + 2) / 3

/-- The number a Base64 text stands for, most significant digit first. -/
def b64Number (s : Str) : Nat := s.foldl (fun n c => 64 * n + base64url.idxOf c) 0

/-- How many characters a code has, by its first character. -/
def codeChars (c : Char) : Option Nat :=
  if c ∈ str% "ABCDEFGHIJKLMNOPQRSTUVWXYZabcdefghijklmnopqrstuvwxyz" then some 1
  else if c ∈ str% "0456" then some 2
  else if c ∈ str% "123789" then some 4
  else none

/-- The places, counted in bytes, where a part of the primitive ends that a text begins with: its code by the first
character, the size that follows a variable-size code, and all of the primitive. -/
inductive Ends (s : Str) : Nat → Prop
  | code (c : Char) (rest : Str) (n : Nat) : s = c :: rest → codeChars c = some n → Ends s n
  | size (v : VarCode) : v ∈ varCodes → v.code <+: s → Ends s (2 * v.code.length)
  | fixed (c : Str) (n : Nat) : (c, n) ∈ fixedCodes → c <+: s → Ends s (c.length / 4 * 4 + 4 * quadlets (c.length % 4 + n))
  | variable (v : VarCode) (size : Str) : v ∈ varCodes → size.length = v.code.length → IsBase64 size → v.code ++ size <+: s →
      Ends s (2 * v.code.length + 4 * b64Number size)

/-- The byte offset `n` lies inside a character of the text. -/
def Splits (s : Str) (n : Nat) : Prop :=
  ∃ a c b, s = a ++ c :: b ∧ Str.len a < n ∧ n < Str.len a + c.utf8Size

/-- The counter codes with the number of Base64 characters of their count. -/
def counterCodes : List (Str × Nat) :=
  [(str% "-A", 2), (str% "-B", 2), (str% "-C", 2), (str% "-D", 2), (str% "-E", 2), (str% "-F", 2),
   (str% "-G", 2), (str% "-H", 2), (str% "-I", 2), (str% "-J", 2), (str% "-K", 2), (str% "-L", 2),
   (str% "-V", 2), (str% "-0V", 5), (str% "--AAA", 3)]

/-- An indexed signature code: how many Base64 characters hold the index and the ondex (other index),
whether it only refers to the current key list, and the size of the signature. -/
structure SigCode where
  code : Str
  indexChars : Nat
  ondexChars : Nat
  currentOnly : Bool
  bytes : Nat
deriving DecidableEq, Repr

/-- Every indexed signature code. -/
def sigCodes : List SigCode := [
  ⟨str% "A", 1, 0, false, 64⟩, ⟨str% "B", 1, 0, true, 64⟩, ⟨str% "C", 1, 0, false, 64⟩,
  ⟨str% "D", 1, 0, true, 64⟩, ⟨str% "E", 1, 0, false, 64⟩, ⟨str% "F", 1, 0, true, 64⟩,
  ⟨str% "0A", 1, 1, false, 114⟩, ⟨str% "0B", 1, 1, true, 114⟩,
  ⟨str% "2A", 2, 2, false, 64⟩, ⟨str% "2B", 2, 2, true, 64⟩, ⟨str% "2C", 2, 2, false, 64⟩,
  ⟨str% "2D", 2, 2, true, 64⟩, ⟨str% "2E", 2, 2, false, 64⟩, ⟨str% "2F", 2, 2, true, 64⟩,
  ⟨str% "3A", 3, 3, false, 114⟩, ⟨str% "3B", 3, 3, true, 114⟩]

/-- The ondex an indexed signature reports when constructed with `ondex`: a current-only code has none
(reported as 0), otherwise it defaults to the index. -/
def SigCode.ondexOf (e : SigCode) (index : Nat) (ondex : Option Nat) : Nat :=
  if e.currentOnly then 0 else ondex.getD index

end Keride.Spec
