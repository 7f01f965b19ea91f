/-
C03-C15: the Matter primitive (matter/mod.rs, matter/tables.rs).
-/
import Verif.Lemmas.Base64Pad
import Verif.Lemmas.MatterNew
import Verif.Lemmas.MatterPanic3

namespace Keride.Props

open Spec
open Keride.Matter

/-- The model's code table has exactly the codes of the specification. -/
theorem code_table (c : Str) : c ∈ matterCodes ↔ ∃ z, sizage c = .ok z :=
  ⟨sizage_of_code, fun ⟨_, h⟩ => sizage_codes _ (sizage_mem h)⟩

/-- C03: text round-trip, as a string and as UTF-8 bytes. -/
theorem C03_qb64_roundtrip (chk : Bool) (code : Str) (raw : Bytes) (m : M) (hc : code ∈ matterCodes)
    (h : newWithCodeAndRaw code raw = .ok m) :
    ∃ s, qb64 chk m = .ok s ∧ newWithQb64 s = .ok m ∧
      ∃ b, qb64b chk m = .ok b ∧ newWithQb64b b = .ok m := by
  obtain ⟨z, hw⟩ := new_table hc h
  have h1 := infil_wf chk hw
  have h2 := exfil_text hw []
  rw [List.append_nil] at h2
  refine ⟨_, h1, h2, _, by rw [qb64b, qb64, h1, Res.ok_bind], ?_⟩
  rw [newWithQb64b, fromUtf8_toUtf8, Res.ok_bind, h2]

/-- C04: binary round-trip. -/
theorem C04_qb2_roundtrip (code : Str) (raw : Bytes) (m : M) (hc : code ∈ matterCodes)
    (h : newWithCodeAndRaw code raw = .ok m) :
    ∃ b, qb2 m = .ok b ∧ newWithQb2 b = .ok m := by
  obtain ⟨z, hw⟩ := new_table hc h
  have h2 := bexfil_bytes hw []
  rw [List.append_nil] at h2
  exact ⟨_, binfil_wf hw, h2⟩

/-- C05: the binary form is the Base64 decoding of the text form. -/
theorem C05_text_binary_agree (chk : Bool) (code : Str) (raw : Bytes) (m : M) (hc : code ∈ matterCodes)
    (h : newWithCodeAndRaw code raw = .ok m) :
    ∃ s b, qb64 chk m = .ok s ∧ qb2 m = .ok b ∧ b64Decode s = .ok b ∧ b64Encode b = s := by
  obtain ⟨z, hw⟩ := new_table hc h
  obtain ⟨hm, -⟩ := fsz_facts hw
  have hl := sx_length hw
  refine ⟨_, _, infil_wf chk hw, binfil_wf hw, ?_, ?_⟩
  · exact b64Decode_text _ _ (sx_sextets hw) (by omega)
  · rw [b64Encode_eq (fsz m z / 4) _ (by simp), beVal_beBytes, Nat.mod_eq_of_lt]
    · rw [show 4 * (fsz m z / 4) = (sx m z).length by omega, toBase_ofBase _ (sx_sextets hw)]
    · rw [← pow_64_4]; exact ofBase_sextets_lt (sx_sextets hw) (by omega)

/-- C05 for streams: decoding a concatenation of text primitives is the concatenation of their binary
forms. -/
theorem C05_composable (chk : Bool) (ms : List (Str × Bytes × M))
    (h : ∀ e ∈ ms, e.1 ∈ matterCodes ∧ newWithCodeAndRaw e.1 e.2.1 = .ok e.2.2) :
    ∃ (ss : List Str) (bs : List Bytes), ms.map (fun e => qb64 chk e.2.2) = ss.map Res.ok ∧ ms.map (fun e => qb2 e.2.2) = bs.map Res.ok ∧
      b64Decode ss.flatten = .ok bs.flatten := by
  suffices ∃ ds : List (List Nat), ∃ bs : List Bytes, ms.map (fun e => qb64 chk e.2.2) =
      (ds.map b64Text).map Res.ok ∧ ms.map (fun e => qb2 e.2.2) = bs.map Res.ok ∧ Sextets ds.flatten ∧
      ∃ k, ds.flatten.length = 4 * k ∧ bs.flatten = beBytes (3 * k) (ofBase 64 ds.flatten) by
    obtain ⟨ds, bs, h1, h2, h3, k, h4, h5⟩ := this
    refine ⟨_, bs, h1, h2, ?_⟩
    have : (ds.map b64Text).flatten = b64Text ds.flatten := by
      unfold b64Text; rw [List.map_flatten]
    rw [this, b64Decode_text k _ h3 h4, h5]
  induction ms with
  | nil => exact ⟨[], [], rfl, rfl, Sextets.nil, 0, rfl, rfl⟩
  | cons e ms ih =>
    obtain ⟨ds, bs, h1, h2, h3, k, h4, h5⟩ := ih (fun x hx => h x (List.mem_cons_of_mem _ hx))
    obtain ⟨hc, hn⟩ := h e List.mem_cons_self
    obtain ⟨z, hw⟩ := new_table hc hn
    obtain ⟨hm, -⟩ := fsz_facts hw
    have hl := sx_length hw
    refine ⟨sx e.2.2 z :: ds, beBytes (3 * (fsz e.2.2 z / 4)) (ofBase 64 (sx e.2.2 z)) :: bs, ?_, ?_, ?_,
      fsz e.2.2 z / 4 + k, ?_, ?_⟩
    · rw [List.map_cons, h1, qb64, infil_wf chk hw]; rfl
    · rw [List.map_cons, h2, qb2, binfil_wf hw]; rfl
    · rw [List.flatten_cons, Sextets.append]; exact ⟨sx_sextets hw, h3⟩
    · rw [List.flatten_cons, List.length_append]; omega
    · rw [List.flatten_cons, List.flatten_cons, h5, ofBase_append, Nat.mul_add, h4, pow_64_4]
      rw [beBytes_mul_add]
      rw [← pow_64_4]; exact ofBase_sextets_lt h3 (by omega)

/-- C06: `full_size` is the length of the text, a multiple of four, and 4/3 of the binary length. -/
theorem C06_full_size (chk : Bool) (code : Str) (raw : Bytes) (m : M) (hc : code ∈ matterCodes)
    (h : newWithCodeAndRaw code raw = .ok m) :
    ∃ n s b, fullSize m = .ok n ∧ qb64 chk m = .ok s ∧ qb2 m = .ok b ∧
      s.length = n ∧ 4 ∣ n ∧ 0 < n ∧ 4 * b.length = 3 * n ∧ IsBase64 s := by
  obtain ⟨z, hw⟩ := new_table hc h
  obtain ⟨hm, -, h4, -⟩ := fsz_facts hw
  refine ⟨_, _, _, fullSize_wf hw, infil_wf chk hw, binfil_wf hw, ?_, Nat.dvd_of_mod_eq_zero hm, by omega, ?_,
    isB64_sx hw⟩
  · rw [b64Text_length, sx_length hw]
  · rw [beBytes_length]; omega

/-- C07: whatever follows a primitive does not change what is parsed. -/
theorem C07_self_framing (chk : Bool) (code : Str) (raw : Bytes) (m : M) (hc : code ∈ matterCodes)
    (h : newWithCodeAndRaw code raw = .ok m) (s : Str) (b : Bytes) (hs : qb64 chk m = .ok s)
    (hb : qb2 m = .ok b) :
    (∀ t : Str, newWithQb64 (s ++ t) = .ok m) ∧ (∀ t : Str, newWithQb64b (toUtf8 (s ++ t)) = .ok m) ∧
      (∀ t : Bytes, newWithQb2 (b ++ t) = .ok m) := by
  obtain ⟨z, hw⟩ := new_table hc h
  rw [qb64, infil_wf chk hw] at hs
  rw [qb2, binfil_wf hw] at hb
  rw [← Res.ok.inj hs, ← Res.ok.inj hb]
  refine ⟨exfil_text hw, fun t => ?_, bexfil_bytes hw⟩
  rw [newWithQb64b, fromUtf8_toUtf8, Res.ok_bind]; exact exfil_text hw t

/-- C08: if one encoding is a prefix of another the primitives are equal, in both domains. -/
theorem C08_prefix_free (chk : Bool) (code code' : Str) (raw raw' : Bytes) (m m' : M)
    (hc : code ∈ matterCodes) (hc' : code' ∈ matterCodes)
    (h : newWithCodeAndRaw code raw = .ok m) (h' : newWithCodeAndRaw code' raw' = .ok m') :
    (∀ s s', qb64 chk m = .ok s → qb64 chk m' = .ok s' → s <+: s' → m = m') ∧
    (∀ b b', qb2 m = .ok b → qb2 m' = .ok b' → b <+: b' → m = m') := by
  obtain ⟨z, hw⟩ := new_table hc h
  obtain ⟨z', hw'⟩ := new_table hc' h'
  constructor
  · rintro s s' hs hs' ⟨t, rfl⟩
    rw [qb64, infil_wf chk hw] at hs
    rw [qb64, infil_wf chk hw'] at hs'
    have h1 := exfil_text hw t
    have h2 := exfil_text hw' []
    rw [List.append_nil, Res.ok.inj hs', ← Res.ok.inj hs, h1] at h2
    exact Res.ok.inj h2
  · rintro s s' hs hs' ⟨t, rfl⟩
    rw [qb2, binfil_wf hw] at hs
    rw [qb2, binfil_wf hw'] at hs'
    have h1 := bexfil_bytes hw t
    have h2 := bexfil_bytes hw' []
    rw [List.append_nil, Res.ok.inj hs', ← Res.ok.inj hs, h1] at h2
    exact Res.ok.inj h2

/-- A concrete primitive meeting the hypotheses of C03-C08 and C10: a variable-size code that switches
from `4B` to `6B` because one raw byte needs two lead bytes. -/
example : (str% "4B") ∈ matterCodes ∧ newWithCodeAndRaw (str% "4B") [255] = .ok ⟨str% "6B", 1, [255]⟩ ∧
    qb64 true ⟨str% "6B", 1, [255]⟩ = .ok (str% "6BABAAD_") ∧
    qb2 ⟨str% "6B", 1, [255]⟩ = .ok [232, 16, 1, 0, 0, 255] := by decide +kernel

/-- C09, binary domain: the bytes accepted are exactly the encoding of the result. -/
theorem C09_binary_canonical (q : Bytes) (m : M) (h : newWithQb2 q = .ok m) :
    ∃ b, qb2 m = .ok b ∧ b <+: q ∧ newWithCodeAndRaw m.code m.raw = .ok m ∧
      ∃ n, fullSize m = .ok n ∧ q.take (3 * n / 4) = b := by
  obtain ⟨z, rest, hw, hq⟩ := bexfil_ok h
  obtain ⟨hm, -⟩ := fsz_facts hw
  refine ⟨_, binfil_wf hw, ⟨rest, hq.symm⟩, wf_new hw, _, fullSize_wf hw, ?_⟩
  have : 3 * fsz m z / 4 = 3 * (fsz m z / 4) := by omega
  rw [this]
  conv_lhs => rw [hq]
  rw [List.take_left' (by simp)]

/-- C09, text domain, partial: when the material read holds no `=`, the text accepted is exactly the
encoding of the result. Missing: texts with `=` inside the material, see `C09_text_false`. -/
theorem C09_text_canonical_partial (chk : Bool) (s : Str) (m : M) (h : newWithQb64 s = .ok m) (n : Nat)
    (hn : fullSize m = .ok n) (hne : '=' ∉ s.take n) :
    qb64 chk m = .ok (s.take n) ∧ newWithCodeAndRaw m.code m.raw = .ok m := by
  obtain ⟨p⟩ := exfil_ok h
  have hF := fullSize_parsed p
  rw [hn] at hF
  obtain rfl := Res.ok.inj hF
  obtain ⟨hw, hs⟩ := exfil_canonical p (fun hb => hne (body_mem_take p hb))
  have hF := fullSize_wf hw
  rw [fullSize_parsed p] at hF
  refine ⟨?_, wf_new hw⟩
  rw [qb64, infil_wf chk hw]
  have h2 := congrArg (List.take p.F) hs
  rw [List.take_left' (by rw [b64Text_length, sx_length hw]; exact (Res.ok.inj hF).symm)] at h2
  rw [h2]

example : newWithQb64 (str% "MAAB rest") = .ok ⟨str% "M", 0, [0, 1]⟩ ∧
    fullSize ⟨str% "M", 0, [0, 1]⟩ = .ok 4 ∧ '=' ∉ (str% "MAAB rest").take 4 := by decide

/-- C09: the texts that stand for bytes in Base64 are exactly those that encoding gives, so that no two stand for the same. -/
theorem C09_base64 (s : Str) (bs : Bytes) : b64Decode s = .ok bs ↔ s = b64Encode bs :=
  ⟨b64Encode_decode, fun h => h ▸ b64Decode_encode bs⟩

example : b64Encode [1, 2, 3, 255] = str% "AQID_w==" ∧ b64Decode (str% "AQID_w==") = .ok [1, 2, 3, 255] ∧
    (b64Decode (str% "AQID_x==")).isErr = true := by decide

/-- C09 is false in the text domain: `MAA=` is accepted, as a number code with a single raw byte. The
result cannot be re-encoded at all, and no constructor call from code and raw yields it. -/
theorem C09_text_false : newWithQb64 (str% "MAA=") = .ok ⟨str% "M", 0, [0]⟩ ∧
    (qb64 true ⟨str% "M", 0, [0]⟩).isOk = false ∧ (qb64 false ⟨str% "M", 0, [0]⟩).isOk = false ∧
    (qb2 ⟨str% "M", 0, [0]⟩).isOk = false ∧ (newWithCodeAndRaw (str% "M") [0]).isOk = false := by decide

/-- C10: every proper prefix of an encoding is an error: not accepted and no panic. -/
theorem C10_truncation (chk : Bool) (code : Str) (raw : Bytes) (m : M) (hc : code ∈ matterCodes)
    (h : newWithCodeAndRaw code raw = .ok m) (s : Str) (b : Bytes) (hs : qb64 chk m = .ok s)
    (hb : qb2 m = .ok b) :
    (∀ k < s.length, (newWithQb64 (s.take k)).isErr = true) ∧
    (∀ k < (toUtf8 s).length, (newWithQb64b ((toUtf8 s).take k)).isErr = true) ∧
    (∀ k < b.length, (newWithQb2 (b.take k)).isErr = true) := by
  obtain ⟨z, hw⟩ := new_table hc h
  rw [qb64, infil_wf chk hw] at hs
  rw [qb2, binfil_wf hw] at hb
  rw [← Res.ok.inj hs, ← Res.ok.inj hb]
  have hA := (isB64_sx hw).ascii
  have hl : (b64Text (sx m z)).length = fsz m z := by rw [b64Text_length, sx_length hw]
  refine ⟨fun k hk => exfil_truncated hw (by omega), fun k hk => ?_, fun k hk => ?_⟩
  · rw [toUtf8_length, hA.len, hl] at hk
    rw [newWithQb64b, toUtf8_take hA, fromUtf8_toUtf8, Res.ok_bind]
    exact exfil_truncated hw hk
  · rw [beBytes_length] at hk
    exact bexfil_truncated hw hk

/-- C11 is false: parsing can panic. A code with lead bytes and size zero, one with a padded quadlet,
a multi-byte character across a slice point, and the binary form. -/
theorem C11_false : newWithQb64 (str% "5AAA") = .panic ∧ newWithQb64 (str% "3AAAAA==") = .panic ∧
    newWithQb64 (str% "0é") = .panic ∧ newWithQb64b [0x35, 0x41, 0x41, 0x41] = .panic ∧
    newWithQb2 [0xe4, 0, 0] = .panic := by decide

/-- C11, binary domain, exact: parsing panics on precisely the inputs that begin with one of eight
codes, those with lead bytes and size zero; on all others it returns `Ok` or `Err`. -/
theorem C11_binary_partial (q : Bytes) : newWithQb2 q = .panic ↔
    ∃ p ∈ [str% "5AAA", str% "6AAA", str% "5BAA", str% "6BAA",
      str% "8AAAAAAA", str% "9AAAAAAA", str% "8AABAAAA", str% "9AABAAAA"],
      ∃ b, b64Decode p = .ok b ∧ b <+: q := bexfil_panic_iff

/-- C11, text domain, exact: the same eight codes, or one of five codes with two lead bytes followed by a single
padded quadlet, or a character of several bytes that lies across the end of the code, of its size or of the primitive. -/
theorem C11_text_partial (s : Str) : newWithQb64 s = .panic ↔
    ((∃ p ∈ [str% "5AAA", str% "6AAA", str% "5BAA", str% "6BAA",
      str% "8AAAAAAA", str% "9AAAAAAA", str% "8AABAAAA", str% "9AABAAAA"], p <+: s) ∨
    (∃ p ∈ [str% "3AAA", str% "6AAB", str% "6BAB", str% "9AAAAAAB", str% "9AABAAAB"],
      ∃ x ∈ base64url, ∃ y ∈ ['A', 'Q', 'g', 'w'], p ++ [x, y, '=', '='] <+: s)) ∨
    ∃ n, Ends s n ∧ Splits s n :=
  exfil_panic_all

/-- C11, for ASCII text: only the codes are left. -/
theorem C11_ascii_partial (s : Str) (hA : IsAscii s) : newWithQb64 s = .panic ↔
    (∃ p ∈ [str% "5AAA", str% "6AAA", str% "5BAA", str% "6BAA",
      str% "8AAAAAAA", str% "9AAAAAAA", str% "8AABAAAA", str% "9AABAAAA"], p <+: s) ∨
    (∃ p ∈ [str% "3AAA", str% "6AAB", str% "6BAB", str% "9AAAAAAB", str% "9AABAAAB"],
      ∃ x ∈ base64url, ∃ y ∈ ['A', 'Q', 'g', 'w'], p ++ [x, y, '=', '='] <+: s) :=
  exfil_panic_iff (ascii_iff.mp hA)

/-- The third kind: `M` announces four characters, and `é` covers the bytes 3 and 4. -/
example : Ends (str% "MAAé") 4 ∧ Splits (str% "MAAé") 4 :=
  ⟨.fixed (str% "M") 2 (by decide) ⟨str% "AAé", rfl⟩, str% "MAA", 'é', [], rfl, by decide, by decide⟩

/-- C11, bytes of text: panics exactly when the bytes are UTF-8 of a text on which `new_with_qb64`
panics. -/
theorem C11_text_bytes_partial (b : Bytes) : newWithQb64b b = .panic ↔
    ∃ s, fromUtf8 b = .ok s ∧ newWithQb64 s = .panic := by
  rw [newWithQb64b, Res.bind_eq_panic]
  exact ⟨fun h => h.resolve_left (fromUtf8_ne_panic b), .inr⟩

/-- C12: argument priority of `Matter::new`. -/
theorem C12_priority (code : Option Str) (raw qb64b : Option Bytes) (qb64 : Option Str)
    (qb2 : Option Bytes) :
    (∀ c r, code = some c → raw = some r → new code raw qb64b qb64 qb2 = newWithCodeAndRaw c r) ∧
    (∀ r, code = none → raw = some r → (new code raw qb64b qb64 qb2).isErr = true) ∧
    (∀ b, raw = none → qb64b = some b → new code raw qb64b qb64 qb2 = newWithQb64b b) ∧
    (∀ s, raw = none → qb64b = none → qb64 = some s → new code raw qb64b qb64 qb2 = newWithQb64 s) ∧
    (∀ b, raw = none → qb64b = none → qb64 = none → qb2 = some b →
      new code raw qb64b qb64 qb2 = newWithQb2 b) ∧
    (raw = none → qb64b = none → qb64 = none → qb2 = none →
      (new code raw qb64b qb64 qb2).isErr = true) := by
  refine ⟨?_, ?_, ?_, ?_, ?_, ?_⟩ <;> intros <;> subst_vars <;> rfl

/-- C13: for raw below 4 GiB the constructor keeps raw intact and chooses the code of the same type whose
lead bytes fill up the last quadlet; small form exactly when asked for a small code and below 4096
quadlets; and it rejects exactly the values needing 64^4 quadlets or more. Partial: raw of 4 GiB or
more is not rejected but cut, see `C13_false`. -/
theorem C13_variable_partial (v : VarCode) (hv : v ∈ varCodes) (raw : Bytes) (h32 : raw.length < 2 ^ 32) :
    (64 ^ 4 ≤ quadlets raw.length → (newWithCodeAndRaw v.code raw).isErr = true) ∧
    (quadlets raw.length < 64 ^ 4 → ∃ w ∈ varCodes,
      newWithCodeAndRaw v.code raw = .ok ⟨w.code, quadlets raw.length, raw⟩ ∧
      w.type = v.type ∧ w.lead + raw.length = 3 * quadlets raw.length ∧
      (w.large = false ↔ v.large = false ∧ quadlets raw.length < 4096)) := by
  rw [new_var hv h32]
  constructor
  · intro h
    rw [if_neg (by omega)]; rfl
  · intro h
    rw [if_pos h]
    set l := 3 * quadlets raw.length - raw.length with hl
    have hl3 : l ∈ [0, 1, 2] := by
      have : l = 0 ∨ l = 1 ∨ l = 2 := by rw [hl, quadlets]; omega
      rcases this with e | e | e <;> rw [e] <;> decide
    obtain ⟨w1, w2⟩ := var_lookup v hv l hl3
    have hsum : l + raw.length = 3 * quadlets raw.length := by rw [hl, quadlets]; omega
    have h4096 : (64 : Nat) ^ 2 = 4096 := by decide
    by_cases hs : v.large = false ∧ quadlets raw.length < 64 ^ 2
    · refine ⟨_, w1, by rw [if_pos hs], rfl, hsum, ?_⟩
      rw [h4096] at hs
      simp [hs]
    · refine ⟨_, w2, by rw [if_neg hs], rfl, hsum, ?_⟩
      rw [h4096] at hs
      simp only [Bool.true_eq_false, false_iff]
      exact hs

example : (⟨str% "5A", false, 1, 'A'⟩ : VarCode) ∈ varCodes ∧ ([1, 2, 3, 4] : Bytes).length < 2 ^ 32 ∧
    quadlets ([1, 2, 3, 4] : Bytes).length < 64 ^ 4 ∧
    newWithCodeAndRaw (str% "5A") [1, 2, 3, 4] = .ok ⟨str% "6A", 2, [1, 2, 3, 4]⟩ := by decide +kernel

/-- C13 is false at 4 GiB: the length is truncated to 32 bits, so a raw value of 2^32 + 3 bytes is
accepted and only its first three bytes are kept. -/
theorem C13_false (raw : Bytes) (h : raw.length = 2 ^ 32 + 3) :
    newWithCodeAndRaw (str% "4B") raw = .ok ⟨str% "4B", 1, raw.take 3⟩ := by
  have e : raw.length % 2 ^ 32 = 3 := by rw [h]; decide
  unfold newWithCodeAndRaw
  simp only [e]
  rw [if_pos (by decide)]
  have hs : Str.slice (str% "4B") 1 2 = .ok ['B'] := by decide
  rw [if_pos (by decide), if_pos (by decide), hs, Res.ok_bind, Res.pure_eq, Res.ok_bind,
    if_neg (by rw [h]; decide)]
  rfl

example : ∃ raw : Bytes, raw.length = 2 ^ 32 + 3 := ⟨List.replicate (2 ^ 32 + 3) 0, List.length_replicate⟩

/-- C14: a fixed-size code takes exactly its number of raw bytes from the front, and rejects fewer. -/
theorem C14_fixed (code : Str) (n : Nat) (hc : (code, n) ∈ fixedCodes) (raw : Bytes) :
    (raw.length < n → (newWithCodeAndRaw code raw).isErr = true) ∧
    (n ≤ raw.length → newWithCodeAndRaw code raw = .ok ⟨code, 0, raw.take n⟩) := by
  obtain ⟨h1, h2, h3, h4⟩ := fixed_rows _ hc
  simp only at h1 h2 h3 h4
  unfold newWithCodeAndRaw
  split
  · exact absurd rfl h4
  · rename_i f t
    rw [List.headD_cons] at h2 h3
    rw [if_neg (by rintro (h | h); exacts [h2 h, h3 h]), h1, Res.ok_bind]
    exact ⟨fun h => by rw [if_pos h]; rfl, fun h => by rw [if_neg (by omega)]⟩

example : (str% "M", 2) ∈ fixedCodes ∧ newWithCodeAndRaw (str% "M") [1, 2, 3] = .ok ⟨str% "M", 0, [1, 2]⟩ := by
  decide +kernel

/-- C15: `digestive` holds exactly for the digest codes. -/
theorem C15_digestive (m : M) : digestive m = true ↔ m.code ∈ digests := by
  simp only [digestive, digests, List.contains_iff_mem]

/-- C15 is false for `transferable`: the non-transferable ECDSA-256r1 key code `1AAI` is reported as
transferable. -/
theorem C15_transferable_false (size : Nat) (raw : Bytes) :
    (str% "1AAI") ∈ nonTransferable ∧ transferable ⟨str% "1AAI", size, raw⟩ = true := by
  refine ⟨by decide, ?_⟩
  rw [transferable]; rfl

/-- C15, partial: for every other code `transferable` is false exactly for the non-transferable codes.
Missing: `1AAI`. -/
theorem C15_transferable_partial (m : M) (h : m.code ≠ str% "1AAI") :
    transferable m = false ↔ m.code ∈ nonTransferable := by
  simp only [transferable, nonTransferable, Bool.not_eq_false', List.contains_iff_mem, List.mem_cons,
    List.not_mem_nil, or_false]
  constructor
  · rintro (h | h | h) <;> simp [h]
  · rintro (h | h | h | h')
    · simp [h]
    · simp [h]
    · simp [h]
    · exact absurd h' h

example : (⟨str% "B", 0, []⟩ : M).code ≠ str% "1AAI" ∧ transferable ⟨str% "B", 0, []⟩ = false ∧
    transferable ⟨str% "D", 0, []⟩ = true := by decide

end Keride.Props
