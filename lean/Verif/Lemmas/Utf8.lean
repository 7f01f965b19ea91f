import Verif.Model.Utf8
import Mathlib.Tactic.NormNum

namespace Keride

theorem ofNat_toNat_lt {n : Nat} (h : n < 256) : (UInt8.ofNat n).toNat = n := by
  rw [UInt8.toNat_ofNat']; omega

theorem utf8Go_char (c : Char) (bs : Bytes) :
    utf8Go 0 0 0 (utf8Char c ++ bs) = (utf8Go 0 0 0 bs).map (c :: ·) := by
  have hv : c.toNat.isValidChar := c.valid
  have hlt : c.toNat < 0x110000 := by
    rcases hv with h | h <;> omega
  have hc : Char.ofNat c.toNat = c := Char.ofNat_toNat c
  unfold utf8Char
  simp only
  split
  · rename_i h
    rw [List.singleton_append, utf8Go]
    simp only [ofNat_toNat_lt (by omega : c.toNat < 256), h, if_true, hc]
  · rename_i h1
    split
    · rename_i h2
      simp only [List.cons_append, List.nil_append]
      rw [utf8Go]
      simp only [ofNat_toNat_lt (by omega : 0xC0 + c.toNat / 64 < 256)]
      rw [if_neg (by omega), if_neg (by omega), if_pos (by omega), utf8Go]
      simp only [ofNat_toNat_lt (by omega : 0x80 + c.toNat % 64 < 256)]
      rw [if_pos (by omega)]
      have : (0xC0 + c.toNat / 64 - 0xC0) * 64 + (0x80 + c.toNat % 64 - 0x80) = c.toNat := by omega
      rw [this, if_pos ⟨by omega, hv⟩, hc]
    · rename_i h2
      split
      · rename_i h3
        simp only [List.cons_append, List.nil_append]
        rw [utf8Go]
        simp only [ofNat_toNat_lt (by omega : 0xE0 + c.toNat / 4096 < 256)]
        rw [if_neg (by omega), if_neg (by omega), if_neg (by omega), if_pos (by omega), utf8Go]
        simp only [ofNat_toNat_lt (by omega : 0x80 + c.toNat / 64 % 64 < 256)]
        rw [if_pos (by omega), utf8Go]
        simp only [ofNat_toNat_lt (by omega : 0x80 + c.toNat % 64 < 256)]
        rw [if_pos (by omega)]
        have : ((0xE0 + c.toNat / 4096 - 0xE0) * 64 + (0x80 + c.toNat / 64 % 64 - 0x80)) * 64 +
            (0x80 + c.toNat % 64 - 0x80) = c.toNat := by omega
        rw [this, if_pos ⟨by omega, hv⟩, hc]
      · rename_i h3
        simp only [List.cons_append, List.nil_append]
        rw [utf8Go]
        simp only [ofNat_toNat_lt (by omega : 0xF0 + c.toNat / 262144 < 256)]
        rw [if_neg (by omega), if_neg (by omega), if_neg (by omega), if_neg (by omega), if_pos (by omega),
          utf8Go]
        simp only [ofNat_toNat_lt (by omega : 0x80 + c.toNat / 4096 % 64 < 256)]
        rw [if_pos (by omega), utf8Go]
        simp only [ofNat_toNat_lt (by omega : 0x80 + c.toNat / 64 % 64 < 256)]
        rw [if_pos (by omega), utf8Go]
        simp only [ofNat_toNat_lt (by omega : 0x80 + c.toNat % 64 < 256)]
        rw [if_pos (by omega)]
        have : (((0xF0 + c.toNat / 262144 - 0xF0) * 64 + (0x80 + c.toNat / 4096 % 64 - 0x80)) * 64 +
            (0x80 + c.toNat / 64 % 64 - 0x80)) * 64 + (0x80 + c.toNat % 64 - 0x80) = c.toNat := by omega
        rw [this, if_pos ⟨by omega, hv⟩, hc]

theorem utf8Go_toUtf8 (s : Str) : utf8Go 0 0 0 (toUtf8 s) = some s := by
  induction s with
  | nil => rfl
  | cons c s ih => rw [toUtf8, utf8Go_char, ih]; rfl

/-- Decoding the UTF-8 bytes of a text gives the text. -/
theorem fromUtf8_toUtf8 (s : Str) : fromUtf8 (toUtf8 s) = .ok s := by
  rw [fromUtf8, utf8Go_toUtf8]; rfl

theorem fromUtf8_ne_panic (b : Bytes) : fromUtf8 b ≠ .panic := Res.ofOption_ne_panic

theorem toUtf8_append (s t : Str) : toUtf8 (s ++ t) = toUtf8 s ++ toUtf8 t := by
  induction s with
  | nil => rfl
  | cons c s ih => simp [toUtf8, ih]

theorem toUtf8_inj {s t : Str} (h : toUtf8 s = toUtf8 t) : s = t := by
  have := fromUtf8_toUtf8 s
  rw [h, fromUtf8_toUtf8] at this
  exact (Res.ok.inj this).symm

theorem utf8Char_length (c : Char) : (utf8Char c).length = c.utf8Size := by
  have e1 : c.val ≤ UInt32.ofNatLT 0x7F (by decide) ↔ c.toNat ≤ 127 := UInt32.le_iff_toNat_le
  have e2 : c.val ≤ UInt32.ofNatLT 0x7FF (by decide) ↔ c.toNat ≤ 2047 := UInt32.le_iff_toNat_le
  have e3 : c.val ≤ UInt32.ofNatLT 0xFFFF (by decide) ↔ c.toNat ≤ 65535 := UInt32.le_iff_toNat_le
  unfold utf8Char Char.utf8Size
  simp only [e1, e2, e3]
  by_cases h1 : c.toNat < 128
  · rw [if_pos h1, if_pos (by omega)]; rfl
  by_cases h2 : c.toNat < 2048
  · rw [if_neg h1, if_pos h2, if_neg (by omega), if_pos (by omega)]; rfl
  by_cases h3 : c.toNat < 65536
  · rw [if_neg h1, if_neg h2, if_pos h3, if_neg (by omega), if_neg (by omega), if_pos (by omega)]; rfl
  · rw [if_neg h1, if_neg h2, if_neg h3, if_neg (by omega), if_neg (by omega), if_neg (by omega)]; rfl

theorem toUtf8_length (s : Str) : (toUtf8 s).length = Str.len s := by
  induction s with
  | nil => rfl
  | cons c s ih => simp [toUtf8, Str.len, utf8Char_length, ih]

end Keride
