/-
Base64 with padding: decoding accepts exactly what encoding gives.
-/
import Verif.Lemmas.Base64

namespace Keride

theorem ofNat_toNat8 {n : Nat} (h : n < 256) : (UInt8.ofNat n).toNat = n := by
  rw [UInt8.toNat_ofNat', Nat.mod_eq_of_lt h]

theorem quad_bytes (a b c : UInt8) :
    b64Quad (a.toNat / 4) (a.toNat % 4 * 16 + b.toNat / 16) (b.toNat % 16 * 4 + c.toNat / 64) (c.toNat % 64) = [a, b, c] := by
  have ha := a.toNat_lt
  have hb := b.toNat_lt
  have hc := c.toNat_lt
  have e1 : a.toNat / 4 * 4 + (a.toNat % 4 * 16 + b.toNat / 16) / 16 = a.toNat := by omega
  have e2 : (a.toNat % 4 * 16 + b.toNat / 16) % 16 * 16 + (b.toNat % 16 * 4 + c.toNat / 64) / 4 = b.toNat := by omega
  have e3 : (b.toNat % 16 * 4 + c.toNat / 64) % 4 * 64 + c.toNat % 64 = c.toNat := by omega
  rw [b64Quad, e1, e2, e3, UInt8.ofNat_toNat, UInt8.ofNat_toNat, UInt8.ofNat_toNat]

theorem encode_quad {i j k l : Nat} (hi : i < 64) (hj : j < 64) (hk : k < 64) (hl : l < 64) (r : Bytes) :
    b64Encode (b64Quad i j k l ++ r) = b64Chr i :: b64Chr j :: b64Chr k :: b64Chr l :: b64Encode r := by
  rw [b64Quad, List.cons_append, List.cons_append, List.cons_append, List.nil_append, b64Encode, ofNat_toNat8 (by omega),
    ofNat_toNat8 (by omega), ofNat_toNat8 (by omega)]
  have e1 : (i * 4 + j / 16) / 4 = i := by omega
  have e2 : (i * 4 + j / 16) % 4 * 16 + (j % 16 * 16 + k / 4) / 16 = j := by omega
  have e3 : (j % 16 * 16 + k / 4) % 16 * 4 + (k % 4 * 64 + l) / 64 = k := by omega
  have e4 : (k % 4 * 64 + l) % 64 = l := by omega
  rw [e1, e2, e3, e4]

theorem b64Decode_encode (bs : Bytes) : b64Decode (b64Encode bs) = .ok bs := by
  induction bs using b64Encode.induct with
  | case1 a b c rest ih =>
    have ha := a.toNat_lt
    have hb := b.toNat_lt
    have hc := c.toNat_lt
    rw [b64Encode, b64Decode]
    have h1 : a.toNat / 4 < 64 := by omega
    have h2 : a.toNat % 4 * 16 + b.toNat / 16 < 64 := by omega
    have h3 : b.toNat % 16 * 4 + c.toNat / 64 < 64 := by omega
    have h4 : c.toNat % 64 < 64 := by omega
    cases rest with
    | nil =>
      rw [if_pos (by rfl), b64DecodeLast_chr h1 h2 h3 h4, quad_bytes]
    | cons d rest =>
      have : (b64Encode (d :: rest)).isEmpty = false := by
        match rest with
        | [] => rfl
        | [_] => rfl
        | _ :: _ :: _ => rfl
      rw [this, if_neg (by simp), idxOf_chr h1, idxOf_chr h2, idxOf_chr h3, idxOf_chr h4]
      dsimp only
      rw [ih, Res.ok_bind, quad_bytes]
      rfl
  | case2 a b =>
    have ha := a.toNat_lt
    have hb := b.toNat_lt
    have h1 : a.toNat / 4 < 64 := by omega
    have h2 : a.toNat % 4 * 16 + b.toNat / 16 < 64 := by omega
    have h3 : b.toNat % 16 * 4 < 64 := by omega
    rw [b64Encode, b64Decode, if_pos (by rfl), b64DecodeLast, idxOf_chr h1, idxOf_chr h2]
    dsimp only
    rw [if_neg (chr_ne_eq h3), idxOf_chr h3]
    dsimp only
    have e1 : a.toNat / 4 * 4 + (a.toNat % 4 * 16 + b.toNat / 16) / 16 = a.toNat := by omega
    have e2 : (a.toNat % 4 * 16 + b.toNat / 16) % 16 * 16 + b.toNat % 16 * 4 / 4 = b.toNat := by omega
    rw [if_pos rfl, if_pos (by omega), e1, e2, UInt8.ofNat_toNat, UInt8.ofNat_toNat]
  | case3 a =>
    have ha := a.toNat_lt
    have h1 : a.toNat / 4 < 64 := by omega
    have h2 : a.toNat % 4 * 16 < 64 := by omega
    rw [b64Encode, b64Decode, if_pos (by rfl), b64DecodeLast, idxOf_chr h1, idxOf_chr h2]
    dsimp only
    have e1 : a.toNat / 4 * 4 + a.toNat % 4 * 16 / 16 = a.toNat := by omega
    rw [if_pos rfl, if_pos ⟨rfl, by omega⟩, e1, UInt8.ofNat_toNat]
  | case4 => rfl

theorem b64Encode_decode {s : Str} {bs : Bytes} (h : b64Decode s = .ok bs) : s = b64Encode bs := by
  induction s using b64Decode.induct generalizing bs with
  | case1 => rw [b64Decode] at h; cases h; rfl
  | case2 a b c d rest hr =>
    rw [b64Decode, if_pos hr, b64DecodeLast] at h
    have : rest = [] := by simpa using hr
    subst this
    split at h
    case h_2 => cases h
    rename_i i j hi hj
    obtain ⟨hi1, rfl⟩ := idxOf?_some hi
    obtain ⟨hj1, rfl⟩ := idxOf?_some hj
    split at h
    · rename_i hc
      subst hc
      split at h
      case isFalse => cases h
      rename_i hd
      obtain ⟨rfl, h16⟩ := hd
      cases h
      rw [b64Encode, ofNat_toNat8 (by omega)]
      have e1 : (i * 4 + j / 16) / 4 = i := by omega
      have e2 : (i * 4 + j / 16) % 4 * 16 = j := by omega
      rw [e1, e2]
    · split at h
      · cases h
      rename_i k hk
      obtain ⟨hk1, rfl⟩ := idxOf?_some hk
      split at h
      · rename_i hd
        subst hd
        split at h
        case isFalse => cases h
        rename_i h4
        cases h
        rw [b64Encode, ofNat_toNat8 (by omega), ofNat_toNat8 (by omega)]
        have e1 : (i * 4 + j / 16) / 4 = i := by omega
        have e2 : (i * 4 + j / 16) % 4 * 16 + (j % 16 * 16 + k / 4) / 16 = j := by omega
        have e3 : (j % 16 * 16 + k / 4) % 16 * 4 = k := by omega
        rw [e1, e2, e3]
      · split at h
        · cases h
        rename_i l hl
        obtain ⟨hl1, rfl⟩ := idxOf?_some hl
        cases h
        have := encode_quad hi1 hj1 hk1 hl1 []
        rw [List.append_nil] at this
        exact this.symm
  | case3 a b c d rest h' i j k l h1 h2 h3 h4 ih =>
    rw [b64Decode, if_neg h', h1, h2, h3, h4] at h
    obtain ⟨r, hr, h⟩ := Res.bind_eq_ok.mp h
    cases h
    obtain ⟨hi1, rfl⟩ := idxOf?_some h1
    obtain ⟨hj1, rfl⟩ := idxOf?_some h2
    obtain ⟨hk1, rfl⟩ := idxOf?_some h3
    obtain ⟨hl1, rfl⟩ := idxOf?_some h4
    rw [encode_quad (by assumption) (by assumption) (by assumption) (by assumption), ← ih hr]
  | case4 a b c d rest h1 h' =>
    rw [b64Decode, if_neg h1] at h
    split at h
    · rename_i h1 h2 h3 h4
      exact absurd h4 (by intro h4; exact h' _ _ _ _ h1 h2 h3 h4)
    · cases h
  | case5 s h1 h2 =>
    rw [b64Decode] at h
    · cases h
    · exact h1
    · exact h2

end Keride
