/-
Model of the external crate `base64` 0.21, engine `URL_SAFE` (alphabet URL-safe, padding written and
required, non-zero trailing bits rejected). Used at src/cesr/core/matter/mod.rs:220,239,375,393,
indexer/mod.rs, bexter.rs.
-/
import Verif.Model.Util

namespace Keride

/-- The alphabet character of a sextet. -/
def b64Chr (i : Nat) : Char := b64Alphabet.getD i 'A'

/-- `Engine::encode`: RFC 4648 section 5 with padding. -/
def b64Encode : Bytes → Str
  | a :: b :: c :: rest =>
    b64Chr (a.toNat / 4) :: b64Chr (a.toNat % 4 * 16 + b.toNat / 16) ::
      b64Chr (b.toNat % 16 * 4 + c.toNat / 64) :: b64Chr (c.toNat % 64) :: b64Encode rest
  | [a, b] =>
    [b64Chr (a.toNat / 4), b64Chr (a.toNat % 4 * 16 + b.toNat / 16), b64Chr (b.toNat % 16 * 4), '=']
  | [a] => [b64Chr (a.toNat / 4), b64Chr (a.toNat % 4 * 16), '=', '=']
  | [] => []

/-- `Engine::encode_slice` into a buffer of `len * 4 / 3` bytes: fails when the output does not fit. -/
def b64EncodeSlice (b : Bytes) : Res Str :=
  if (b64Encode b).length ≤ b.length * 4 / 3 then .ok (b64Encode b) else .err .base64Encode

/-- Four sextets to three bytes. -/
def b64Quad (a b c d : Nat) : Bytes :=
  [UInt8.ofNat (a * 4 + b / 16), UInt8.ofNat (b % 16 * 16 + c / 4), UInt8.ofNat (c % 4 * 64 + d)]

/-- The last quad of the input, the only place where `=` may stand; trailing bits must be zero. -/
def b64DecodeLast (a b c d : Char) : Res Bytes :=
  match b64Alphabet.idxOf? a, b64Alphabet.idxOf? b with
  | some i, some j =>
    if c = '=' then
      if d = '=' ∧ j % 16 = 0 then .ok [UInt8.ofNat (i * 4 + j / 16)] else .err .base64Decode
    else match b64Alphabet.idxOf? c with
      | none => .err .base64Decode
      | some k =>
        if d = '=' then
          if k % 4 = 0 then .ok [UInt8.ofNat (i * 4 + j / 16), UInt8.ofNat (j % 16 * 16 + k / 4)]
          else .err .base64Decode
        else match b64Alphabet.idxOf? d with
          | none => .err .base64Decode
          | some l => .ok (b64Quad i j k l)
  | _, _ => .err .base64Decode

/-- `Engine::decode` / `decode_vec`. -/
def b64Decode : Str → Res Bytes
  | [] => .ok []
  | a :: b :: c :: d :: rest =>
    if rest.isEmpty then b64DecodeLast a b c d
    else match b64Alphabet.idxOf? a, b64Alphabet.idxOf? b, b64Alphabet.idxOf? c, b64Alphabet.idxOf? d with
      | some i, some j, some k, some l => do
        let r ← b64Decode rest
        .ok (b64Quad i j k l ++ r)
      | _, _, _, _ => .err .base64Decode
  | _ => .err .base64Decode

end Keride
