/-
Strict UTF-8 decoding is the inverse of encoding.
-/
import Verif.Lemmas.Utf8

namespace Keride

theorem utf8Go_last {acc min : Nat} {bs : Bytes} {s : Str} (h : utf8Go 1 acc min bs = some s) :
    ∃ b bs' s', bs = b :: bs' ∧ s = Char.ofNat (acc * 64 + (b.toNat - 0x80)) :: s' ∧
      0x80 ≤ b.toNat ∧ b.toNat < 0xC0 ∧ min ≤ acc * 64 + (b.toNat - 0x80) ∧
      (acc * 64 + (b.toNat - 0x80)).isValidChar ∧ utf8Go 0 0 0 bs' = some s' := by
  cases bs with
  | nil => simp [utf8Go] at h
  | cons b bs =>
    rw [utf8Go] at h
    simp only at h
    split at h
    · rename_i hr
      split at h
      · rename_i hv
        obtain ⟨s', h1, h2⟩ := Option.map_eq_some_iff.mp h
        exact ⟨b, bs, s', rfl, h2.symm, hr.1, hr.2, hv.1, hv.2, h1⟩
      · simp at h
    · simp at h

theorem utf8Go_cont {k acc min : Nat} {bs : Bytes} {s : Str} (h : utf8Go (k + 2) acc min bs = some s) :
    ∃ b bs', bs = b :: bs' ∧ 0x80 ≤ b.toNat ∧ b.toNat < 0xC0 ∧
      utf8Go (k + 1) (acc * 64 + (b.toNat - 0x80)) min bs' = some s := by
  cases bs with
  | nil => simp [utf8Go] at h
  | cons b bs =>
    rw [utf8Go] at h
    simp only at h
    split at h
    · rename_i hr
      exact ⟨b, bs, rfl, hr.1, hr.2, h⟩
    · simp at h

theorem toNat_ofNat_valid {n : Nat} (h : n.isValidChar) : (Char.ofNat n).toNat = n := by
  rw [Char.ofNat, dif_pos h]
  change (Char.ofNatAux n h).val.toNat = n
  rw [Char.ofNatAux]; rfl

theorem ofNat_eq_of {n : Nat} {b : UInt8} (h : n = b.toNat) : UInt8.ofNat n = b := by
  rw [h]; exact UInt8.ofNat_toNat

theorem utf8Go_inv {bs : Bytes} {s : Str} (h : utf8Go 0 0 0 bs = some s) : bs = toUtf8 s := by
  induction hn : bs.length using Nat.strongRecOn generalizing bs s with
  | ind n ih =>
    cases bs with
    | nil =>
      rw [utf8Go] at h
      rw [← Option.some.inj h]; rfl
    | cons b bs =>
      have hb : b.toNat < 256 := b.toNat_lt
      rw [utf8Go] at h
      split at h
      · rename_i h1
        obtain ⟨s', h2, rfl⟩ := Option.map_eq_some_iff.mp h
        have hv : b.toNat.isValidChar := Or.inl (by omega)
        rw [toUtf8, utf8Char]
        simp only [toNat_ofNat_valid hv]
        rw [if_pos h1, UInt8.ofNat_toNat, ih bs.length (by simp at hn; omega) h2 rfl]
        rfl
      · split at h
        · simp at h
        · split at h
          · obtain ⟨b1, bs1, s', rfl, rfl, r1, r2, m1, v1, h2⟩ := utf8Go_last h
            rw [toUtf8, utf8Char]
            simp only [toNat_ofNat_valid v1]
            rw [if_neg (by omega), if_pos (by omega), ih bs1.length (by simp at hn; omega) h2 rfl]
            simp only [List.cons_append, List.nil_append, List.cons.injEq, and_true]
            exact ⟨(ofNat_eq_of (by omega)).symm, (ofNat_eq_of (by omega)).symm⟩
          · split at h
            · obtain ⟨b1, bs1, rfl, r1, r2, h⟩ := utf8Go_cont h
              obtain ⟨b2, bs2, s', rfl, rfl, r3, r4, m1, v1, h2⟩ := utf8Go_last h
              rw [toUtf8, utf8Char]
              simp only [toNat_ofNat_valid v1]
              rw [if_neg (by omega), if_neg (by omega), if_pos (by omega),
                ih bs2.length (by simp at hn; omega) h2 rfl]
              simp only [List.cons_append, List.nil_append, List.cons.injEq, and_true]
              exact ⟨(ofNat_eq_of (by omega)).symm, (ofNat_eq_of (by omega)).symm,
                (ofNat_eq_of (by omega)).symm⟩
            · split at h
              · obtain ⟨b1, bs1, rfl, r1, r2, h⟩ := utf8Go_cont h
                obtain ⟨b2, bs2, rfl, r3, r4, h⟩ := utf8Go_cont h
                obtain ⟨b3, bs3, s', rfl, rfl, r5, r6, m1, v1, h2⟩ := utf8Go_last h
                rw [toUtf8, utf8Char]
                simp only [toNat_ofNat_valid v1]
                rw [if_neg (by omega), if_neg (by omega), if_neg (by omega),
                  ih bs3.length (by simp at hn; omega) h2 rfl]
                simp only [List.cons_append, List.nil_append, List.cons.injEq, and_true]
                exact ⟨(ofNat_eq_of (by omega)).symm, (ofNat_eq_of (by omega)).symm,
                  (ofNat_eq_of (by omega)).symm, (ofNat_eq_of (by omega)).symm⟩
              · simp at h

theorem fromUtf8_ok {b : Bytes} {s : Str} (h : fromUtf8 b = .ok s) : b = toUtf8 s :=
  utf8Go_inv (Res.ofOption_eq_ok.mp h)

theorem toUtf8_mem {s : Str} {c : Char} (h : c ∈ s) {x : UInt8} (hx : x ∈ utf8Char c) : x ∈ toUtf8 s := by
  induction s with
  | nil => simp at h
  | cons d s ih =>
    rw [toUtf8, List.mem_append]
    rcases List.mem_cons.mp h with rfl | h
    · exact Or.inl hx
    · exact Or.inr (ih h)

/-- `=` occurs in the text only if its byte occurs in the bytes. -/
theorem eq_mem_utf8 {b : Bytes} {s : Str} (h : fromUtf8 b = .ok s) (he : '=' ∈ s) : (61 : UInt8) ∈ b := by
  rw [fromUtf8_ok h]
  exact toUtf8_mem he (by decide)

end Keride
