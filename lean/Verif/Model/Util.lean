/-
Model of /repo/src/cesr/core/util.rs.
-/
import Verif.Model.Basic
import Verif.Model.Radix

namespace Keride

/-- The 64 characters in the order of the match arms of `b64_index_to_char` (util.rs:75-143). -/
def b64Alphabet : List Char :=
  str% "ABCDEFGHIJKLMNOPQRSTUVWXYZabcdefghijklmnopqrstuvwxyz0123456789-_"

/-- `b64_char_to_index` (util.rs:5-73). -/
def b64CharToIndex (c : Char) : Res Nat := Res.ofOption .invalidBase64Character (b64Alphabet.idxOf? c)

/-- `b64_index_to_char` (util.rs:75-143). -/
def b64IndexToChar (i : Nat) : Res Char := Res.ofOption .invalidBase64Index b64Alphabet[i]?

/-- The loop shared by `b64_to_u32` and `b64_to_u64` (util.rs:148-150, 158-160) on a `w`-bit integer:
`out << 6` drops the bits above `w`; the addition cannot overflow because the low six bits are zero. -/
def b64ToUAux (w : Nat) : Nat → Str → Res Nat
  | out, [] => .ok out
  | out, c :: cs => do
    let i ← b64CharToIndex c
    b64ToUAux w (out * 64 % 2 ^ w + i) cs

/-- `b64_to_u32` (util.rs:145-153). -/
def b64ToU32 (s : Str) : Res Nat := b64ToUAux 32 0 s

/-- `b64_to_u64` (util.rs:155-163). -/
def b64ToU64 (s : Str) : Res Nat := b64ToUAux 64 0 s

/-- The `while x > 0` loop of `u32_to_b64`/`u64_to_b64` (util.rs:174-181, 199-206).
`j` counts the iterations done. The source keeps a float `overflow = length - log64 n`, and while it is
negative adds one and drops the digit; so iteration `j` keeps its digit exactly when
`length + j >= log64 n`, i.e. `n <= 64^(length+j)`. Simplification: the float is replaced by this exact
comparison. `fuel` bounds the iterations; 11 suffices for 64-bit values (64^11 > 2^64). -/
def uToB64Loop (n length : Nat) : Nat → Nat → Nat → Str → Res Str
  | 0, _, _, out => .ok out
  | fuel + 1, j, x, out =>
    if x = 0 then .ok out
    else if n ≤ 64 ^ (length + j) then do
      let c ← b64IndexToChar (x % 64)
      uToB64Loop n length fuel (j + 1) (x / 64) (c :: out)
    else uToB64Loop n length fuel (j + 1) (x / 64) out

/-- `u32_to_b64` and `u64_to_b64` (util.rs:165-213), which have the same body. -/
def uToB64 (n length : Nat) : Res Str :=
  if length = 0 then .ok []
  else do
    let out ← uToB64Loop n length 11 0 n []
    -- `while out.len() < length { out.insert(0, 'A') }`; `out` is ASCII so bytes are characters
    .ok (List.replicate (length - out.length) 'A' ++ out)

/-- `u32_to_b64` (util.rs:165-188); the argument is a `u32`. -/
def u32ToB64 (n length : Nat) : Res Str := uToB64 n length

/-- `u64_to_b64` (util.rs:190-213); the argument is a `u64`. -/
def u64ToB64 (n length : Nat) : Res Str := uToB64 n length

/-- The big-endian value of bytes, `from_be_bytes`. -/
def beVal (b : Bytes) : Nat := ofBase 256 (b.map UInt8.toNat)

/-- The `len` low bytes of `n`, most significant first: `to_be_bytes` and its tails. -/
def beBytes (len n : Nat) : Bytes := (toBase 256 len n).map UInt8.ofNat

/-- `code_b2_to_b64` (util.rs:215-243). -/
def codeB2ToB64 (b2 : Bytes) (length : Nat) : Res Str :=
  if length = 0 then .ok []
  else
    let n := ((length + 1) * 3) / 4
    if n > b2.length then .err .matter
    else if length ≤ 4 then
      let i := beVal (b2.take n ++ List.replicate (4 - n) 0)
      let tbs := 2 * (length % 4) + (4 - n) * 8
      u32ToB64 (i >>> tbs) length
    else if length ≤ 8 then
      let i := beVal (b2.take n ++ List.replicate (8 - n) 0)
      let tbs := 2 * (length % 4) + (8 - n) * 8
      u64ToB64 (i >>> tbs) length
    else .err .matter

/-- `code_b64_to_b2` (util.rs:245-250). `i <<= k` drops high bits. `8 - n` underflows for `n > 8`: that
panics with overflow checks, and without them the wrapped slice start is out of range and panics too. -/
def codeB64ToB2 (code : Str) : Res Bytes := do
  let i ← b64ToU64 code
  let i := (i <<< (2 * (Str.len code % 4))) % 2 ^ 64
  let n := ((Str.len code + 1) * 3) / 4
  if 8 < n then .panic else .ok ((beBytes 8 i).drop (8 - n))

/-- The loop of `nab_sextets` (util.rs:266-279): four sextets from every three bytes. -/
def sextetLoop : Bytes → List Nat
  | a :: b :: c :: rest =>
    let n := (a.toNat <<< 16) + (b.toNat <<< 8) + c.toNat
    ((n &&& 0xfc0000) >>> 18) :: ((n &&& 0x03f000) >>> 12) :: ((n &&& 0x000fc0) >>> 6) :: (n &&& 0x00003f)
      :: sextetLoop rest
  | _ => []

/-- `nab_sextets` (util.rs:252-282). -/
def nabSextets (binary : Bytes) (count : Nat) : Res (List Nat) :=
  let n := ((count + 1) * 3) / 4
  if n > binary.length then .err .tooSmall
  else
    let bps := 3 - binary.length % 3
    let padded := binary ++ List.replicate bps 0
    let out := sextetLoop padded
    if count ≤ out.length then .ok (out.take count) else .panic

end Keride
