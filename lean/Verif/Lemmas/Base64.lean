import Verif.Lemmas.Util
import Mathlib.Tactic.IntervalCases

namespace Keride

/-! ### Three bytes and four sextets are the same number -/

theorem toBase_four (g : Nat) :
    toBase 64 4 g = [g / 262144 % 64, g / 4096 % 64, g / 64 % 64, g % 64] := by
  simp [toBase, Nat.div_div_eq_div_mul]

theorem beVal_three (a b c : UInt8) : beVal [a, b, c] = a.toNat * 65536 + b.toNat * 256 + c.toNat := by
  simp [beVal, ofBase]; omega

theorem pow_64_4 (k : Nat) : 64 ^ (4 * k) = 256 ^ (3 * k) := by
  rw [Nat.pow_mul, Nat.pow_mul]

theorem toBase_group (a b c : UInt8) (rest : Bytes) (k : Nat) (hk : rest.length = 3 * k) :
    toBase 64 (4 * (k + 1)) (beVal (a :: b :: c :: rest)) =
      toBase 64 4 (beVal [a, b, c]) ++ toBase 64 (4 * k) (beVal rest) := by
  have h1 : a :: b :: c :: rest = [a, b, c] ++ rest := rfl
  have h2 : 4 * (k + 1) = 4 + 4 * k := by ring
  rw [h1, beVal_append, hk, ← pow_64_4, h2, toBase_mul_add (by decide)]
  rw [pow_64_4, ← hk]; exact beVal_lt rest

theorem b64Encode_eq (k : Nat) (bs : Bytes) (h : bs.length = 3 * k) :
    b64Encode bs = b64Text (toBase 64 (4 * k) (beVal bs)) := by
  induction k generalizing bs with
  | zero =>
    have : bs = [] := List.length_eq_zero_iff.mp (by omega)
    subst this; rfl
  | succ k ih =>
    match bs, h with
    | a :: b :: c :: rest, h =>
      have hr : rest.length = 3 * k := by simp only [List.length_cons] at h; omega
      rw [toBase_group a b c rest k hr, b64Text_append, b64Encode, ih rest hr, beVal_three, toBase_four]
      have ha := a.toNat_lt; have hb := b.toNat_lt; have hc := c.toNat_lt
      generalize a.toNat = x at *; generalize b.toNat = y at *; generalize c.toNat = z at *
      simp only [b64Text, List.map_cons, List.map_nil, List.cons_append, List.nil_append]
      have e1 : (x * 65536 + y * 256 + z) / 262144 % 64 = x / 4 := by omega
      have e2 : (x * 65536 + y * 256 + z) / 4096 % 64 = x % 4 * 16 + y / 16 := by omega
      have e3 : (x * 65536 + y * 256 + z) / 64 % 64 = y % 16 * 4 + z / 64 := by omega
      have e4 : (x * 65536 + y * 256 + z) % 64 = z % 64 := by omega
      rw [e1, e2, e3, e4]

theorem b64EncodeSlice_eq (k : Nat) (bs : Bytes) (h : bs.length = 3 * k) :
    b64EncodeSlice bs = .ok (b64Text (toBase 64 (4 * k) (beVal bs))) := by
  rw [b64EncodeSlice, b64Encode_eq k bs h, if_pos]
  simp only [b64Text_length, toBase_length, h]
  omega

theorem b64Quad_eq {i j k l : Nat} (hi : i < 64) (hj : j < 64) (hk : k < 64) (hl : l < 64) :
    b64Quad i j k l = beBytes 3 (ofBase 64 [i, j, k, l]) := by
  have h : ofBase 64 [i, j, k, l] = i * 262144 + j * 4096 + k * 64 + l := by simp [ofBase]; omega
  rw [h, b64Quad]
  simp only [beBytes, toBase, List.nil_append, List.map_cons, List.map_nil,
    List.cons_append]
  have e1 : (i * 262144 + j * 4096 + k * 64 + l) / 256 / 256 % 256 = i * 4 + j / 16 := by omega
  have e2 : (i * 262144 + j * 4096 + k * 64 + l) / 256 % 256 = j % 16 * 16 + k / 4 := by omega
  have e3 : (i * 262144 + j * 4096 + k * 64 + l) % 256 = k % 4 * 64 + l := by omega
  rw [e1, e2, e3]

theorem b64DecodeLast_chr {i j k l : Nat} (hi : i < 64) (hj : j < 64) (hk : k < 64) (hl : l < 64) :
    b64DecodeLast (b64Chr i) (b64Chr j) (b64Chr k) (b64Chr l) = .ok (b64Quad i j k l) := by
  simp [b64DecodeLast, idxOf_chr hi, idxOf_chr hj, idxOf_chr hk, idxOf_chr hl, chr_ne_eq hk, chr_ne_eq hl]

theorem b64Decode_text (k : Nat) (ds : List Nat) (hs : Sextets ds) (h : ds.length = 4 * k) :
    b64Decode (b64Text ds) = .ok (beBytes (3 * k) (ofBase 64 ds)) := by
  induction k generalizing ds with
  | zero =>
    have : ds = [] := List.length_eq_zero_iff.mp (by omega)
    subst this; rfl
  | succ k ih =>
    match ds, h, hs with
    | i :: j :: m :: l :: rest, h, hs =>
      simp only [Sextets.cons] at hs
      obtain ⟨hi, hj, hm, hl, hr⟩ := hs
      have hlen : rest.length = 4 * k := by simp only [List.length_cons] at h; omega
      have e0 : i :: j :: m :: l :: rest = [i, j, m, l] ++ rest := rfl
      have hv : ofBase 64 rest < 256 ^ (3 * k) := by
        rw [← pow_64_4, ← hlen]; exact ofBase_lt 64 rest hr
      have e1 : beBytes (3 * (k + 1)) (ofBase 64 (i :: j :: m :: l :: rest)) =
          b64Quad i j m l ++ beBytes (3 * k) (ofBase 64 rest) := by
        have e2 : 3 * (k + 1) = 3 + 3 * k := by ring
        rw [e0, ofBase_append, hlen, pow_64_4, e2, beBytes_mul_add _ _ _ _ hv, b64Quad_eq hi hj hm hl]
      rw [e1]
      show (if (b64Text rest).isEmpty then b64DecodeLast (b64Chr i) (b64Chr j) (b64Chr m) (b64Chr l)
        else _) = _
      by_cases hrest : rest = []
      · subst hrest
        have hk0 : k = 0 := by simp at hlen; omega
        subst hk0
        simp [b64DecodeLast_chr hi hj hm hl, beBytes, toBase]
      · have : (b64Text rest).isEmpty = false := by
          cases rest with
          | nil => exact absurd rfl hrest
          | cons => rfl
        simp only [this, Bool.false_eq_true, if_false, idxOf_chr hi, idxOf_chr hj, idxOf_chr hm,
          idxOf_chr hl]
        rw [show List.map b64Chr rest = b64Text rest from rfl, ih rest hr hlen, Res.ok_bind]

theorem b64Decode_ne_panic (s : Str) : b64Decode s ≠ .panic := by
  induction s using b64Decode.induct with
  | case1 => simp [b64Decode]
  | case2 a b c d rest h =>
    rw [b64Decode, if_pos h, b64DecodeLast]
    repeat' split
    all_goals simp
  | case3 a b c d rest h i j k l h1 h2 h3 h4 ih =>
    rw [b64Decode, if_neg h, h1, h2, h3, h4]
    simp only
    rw [Ne, Res.bind_eq_panic]
    simp [ih]
  | case4 a b c d rest h h' =>
    rw [b64Decode, if_neg h]
    split
    · rename_i h1 h2 h3 h4
      exact absurd h4 (by intro h4; exact h' _ _ _ _ h1 h2 h3 h4)
    · simp
  | case5 s h1 h2 =>
    rw [b64Decode]
    · simp
    · exact h1
    · exact h2

/-- What an accepted Base64 text looks like: a whole number of quads, all alphabet characters except
that the last quad may end in `=` or `==`. -/
theorem b64Decode_ok {s : Str} {bs : Bytes} (h : b64Decode s = .ok bs) :
    s.length % 4 = 0 ∧
    ((IsB64 s ∧ 4 * bs.length = 3 * s.length) ∨
     (∃ t, s = t ++ ['='] ∧ IsB64 t ∧ 4 * (bs.length + 1) = 3 * s.length) ∨
     (∃ t, s = t ++ ['=', '='] ∧ IsB64 t ∧ 4 * (bs.length + 2) = 3 * s.length)) := by
  induction s using b64Decode.induct generalizing bs with
  | case1 => simp [b64Decode] at h; subst h; simp [IsB64]
  | case2 a b c d rest hr =>
    rw [b64Decode, if_pos hr, b64DecodeLast] at h
    have : rest = [] := by simpa using hr
    subst this
    split at h
    · rename_i i j hi hj
      obtain ⟨hi1, rfl⟩ := idxOf?_some hi
      obtain ⟨hj1, rfl⟩ := idxOf?_some hj
      split at h
      · rename_i hc
        subst hc
        split at h
        · rename_i hd
          obtain ⟨rfl, -⟩ := hd
          simp only [Res.ok.injEq] at h; subst h
          refine ⟨by simp, .inr (.inr ⟨[b64Chr i, b64Chr j], rfl, ?_, rfl⟩)⟩
          simp [IsB64, chr_mem hi1, chr_mem hj1]
        · simp at h
      · split at h
        · simp at h
        · rename_i k hk
          obtain ⟨hk1, rfl⟩ := idxOf?_some hk
          split at h
          · rename_i hd
            subst hd
            split at h
            · simp only [Res.ok.injEq] at h; subst h
              refine ⟨by simp, .inr (.inl ⟨[b64Chr i, b64Chr j, b64Chr k], rfl, ?_, rfl⟩)⟩
              simp [IsB64, chr_mem hi1, chr_mem hj1, chr_mem hk1]
            · simp at h
          · split at h
            · simp at h
            · rename_i l hl
              obtain ⟨hl1, rfl⟩ := idxOf?_some hl
              simp only [Res.ok.injEq] at h; subst h
              refine ⟨by simp, .inl ⟨?_, rfl⟩⟩
              simp [IsB64, chr_mem hi1, chr_mem hj1, chr_mem hk1, chr_mem hl1]
    · simp at h
  | case3 a b c d rest hr i j k l h4 h3 h2 h1 ih =>
    rw [b64Decode, if_neg hr, h1, h2, h3, h4] at h
    simp only [Res.bind_eq_ok, Res.ok.injEq] at h
    obtain ⟨r, hr2, rfl⟩ := h
    obtain ⟨hi1, rfl⟩ := idxOf?_some h1
    obtain ⟨hj1, rfl⟩ := idxOf?_some h2
    obtain ⟨hk1, rfl⟩ := idxOf?_some h3
    obtain ⟨hl1, rfl⟩ := idxOf?_some h4
    have hq : (b64Quad i j k l).length = 3 := rfl
    obtain ⟨hm, ih⟩ := ih hr2
    refine ⟨by simp only [List.length_cons]; omega, ?_⟩
    have hB : ∀ {t : Str}, IsB64 t → IsB64 (b64Chr i :: b64Chr j :: b64Chr k :: b64Chr l :: t) := by
      intro t ht x hx
      simp only [List.mem_cons] at hx
      rcases hx with rfl | rfl | rfl | rfl | hx
      · exact chr_mem hi1
      · exact chr_mem hj1
      · exact chr_mem hk1
      · exact chr_mem hl1
      · exact ht x hx
    rcases ih with ⟨hb, hl⟩ | ⟨t, rfl, hb, hl⟩ | ⟨t, rfl, hb, hl⟩
    · refine .inl ⟨hB hb, ?_⟩
      simp only [List.length_cons, List.length_append, hq]; omega
    · refine .inr (.inl ⟨b64Chr i :: b64Chr j :: b64Chr k :: b64Chr l :: t, rfl, hB hb, ?_⟩)
      simp only [List.length_cons, List.length_append, hq] at hl ⊢; omega
    · refine .inr (.inr ⟨b64Chr i :: b64Chr j :: b64Chr k :: b64Chr l :: t, rfl, hB hb, ?_⟩)
      simp only [List.length_cons, List.length_append, hq] at hl ⊢; omega
  | case4 a b c d rest hr h' =>
    rw [b64Decode, if_neg hr] at h
    split at h
    · rename_i h1 h2 h3 h4
      exact absurd h4 (by intro h4; exact h' _ _ _ _ h1 h2 h3 h4)
    · simp at h
  | case5 s h1 h2 =>
    rw [b64Decode] at h
    · simp at h
    · exact h1
    · exact h2

theorem eq_not_mem_alphabet : '=' ∉ b64Alphabet := by decide

/-- Without padding, an accepted text is a whole number of alphabet quads and the bytes are its number. -/
theorem b64Decode_ok_noeq {s : Str} {bs : Bytes} (h : b64Decode s = .ok bs) (hne : '=' ∉ s) :
    ∃ k ds, Sextets ds ∧ s = b64Text ds ∧ ds.length = 4 * k ∧ bs = beBytes (3 * k) (ofBase 64 ds) := by
  obtain ⟨hm, hb⟩ := b64Decode_ok h
  have hB : IsB64 s := by
    rcases hb with ⟨hb, -⟩ | ⟨t, rfl, -, -⟩ | ⟨t, rfl, -, -⟩
    · exact hb
    · simp at hne
    · simp at hne
  obtain ⟨ds, hds, rfl⟩ := isB64_iff.mp hB
  refine ⟨ds.length / 4, ds, hds, rfl, ?_, ?_⟩
  · simp only [b64Text_length] at hm; omega
  · rw [b64Decode_text (ds.length / 4) ds hds (by simp only [b64Text_length] at hm; omega)] at h
    simpa using h.symm

/-! ### Codes in binary -/

theorem and_shift (n k m : Nat) (h : m = 63 * 2 ^ k) : (n &&& m) >>> k = n / 2 ^ k % 64 := by
  rw [Nat.shiftRight_and_distrib, Nat.shiftRight_eq_div_pow, Nat.shiftRight_eq_div_pow, h,
    Nat.mul_div_cancel _ (Nat.pow_pos (by decide))]
  exact Nat.and_two_pow_sub_one_eq_mod _ 6

theorem sextetLoop_eq (k : Nat) (bs : Bytes) (h : bs.length = 3 * k) :
    sextetLoop bs = toBase 64 (4 * k) (beVal bs) := by
  induction k generalizing bs with
  | zero =>
    have : bs = [] := List.length_eq_zero_iff.mp (by omega)
    subst this; rfl
  | succ k ih =>
    match bs, h with
    | a :: b :: c :: rest, h =>
      have hr : rest.length = 3 * k := by simp only [List.length_cons] at h; omega
      rw [toBase_group a b c rest k hr, sextetLoop, ih rest hr, beVal_three, toBase_four]
      simp only [Nat.shiftLeft_eq]
      have hg : a.toNat * 2 ^ 16 + b.toNat * 2 ^ 8 + c.toNat =
        a.toNat * 65536 + b.toNat * 256 + c.toNat := by norm_num
      rw [hg, and_shift _ 18 _ (by norm_num), and_shift _ 12 _ (by norm_num),
        and_shift _ 6 _ (by norm_num)]
      have h63 := and_shift (a.toNat * 65536 + b.toNat * 256 + c.toNat) 0 63 (by norm_num)
      simp only [Nat.shiftRight_zero, Nat.pow_zero, Nat.div_one] at h63
      rw [h63]
      rfl

/-- The first `count` sextets of a byte string, in terms of the bytes that hold them. -/
theorem first_sextets {bs : Bytes} {count k : Nat} (hk : bs.length = 3 * k)
    (hn : ((count + 1) * 3) / 4 ≤ bs.length) :
    (toBase 64 (4 * k) (beVal bs)).take count =
      toBase 64 count (beVal (bs.take (((count + 1) * 3) / 4)) / 4 ^ (count % 4)) := by
  set n := ((count + 1) * 3) / 4 with hndef
  have hc : count ≤ 4 * k := by omega
  have h1 : 4 * k = count + (4 * k - count) := by omega
  conv_lhs => rw [h1]
  rw [toBase_take, beVal_take, Nat.div_div_eq_div_mul]
  congr 2
  have h2 : 256 ^ (bs.length - n) * 4 ^ (count % 4) = 2 ^ (8 * (bs.length - n) + 2 * (count % 4)) := by
    rw [Nat.pow_add, Nat.pow_mul, Nat.pow_mul]
  have h3 : 64 ^ (4 * k - count) = 2 ^ (6 * (4 * k - count)) := by rw [Nat.pow_mul]
  rw [h2, h3]
  congr 1
  omega

theorem nabSextets_eq {bs : Bytes} {count : Nat} (hn : ((count + 1) * 3) / 4 ≤ bs.length) :
    nabSextets bs count =
      .ok (toBase 64 count (beVal (bs.take (((count + 1) * 3) / 4)) / 4 ^ (count % 4))) := by
  have hlen : (bs ++ List.replicate (3 - bs.length % 3) 0).length = 3 * (bs.length / 3 + 1) := by
    simp only [List.length_append, List.length_replicate]; omega
  rw [nabSextets]
  simp only
  rw [if_neg (by omega), sextetLoop_eq _ _ hlen, toBase_length, if_pos (by omega)]
  rw [first_sextets hlen (by simp only [List.length_append]; omega)]
  rw [List.take_append_of_le_length hn]

theorem nabSextets_short {bs : Bytes} {count : Nat} (hn : bs.length < ((count + 1) * 3) / 4) :
    nabSextets bs count = .err .tooSmall := by
  rw [nabSextets]; simp only; rw [if_pos hn]

theorem codeB2ToB64_eq {bs : Bytes} {L : Nat} (h0 : 0 < L) (h8 : L ≤ 8)
    (hn : ((L + 1) * 3) / 4 ≤ bs.length) :
    codeB2ToB64 bs L =
      .ok (b64Text (toBase 64 L (beVal (bs.take (((L + 1) * 3) / 4)) / 4 ^ (L % 4)))) := by
  set n := ((L + 1) * 3) / 4 with hndef
  have hlen : (bs.take n).length = n := by simp [hn]
  have hlt : beVal (bs.take n) < 256 ^ n := by have := beVal_lt (bs.take n); rwa [hlen] at this
  have hpow : 256 ^ n = 64 ^ L * 4 ^ (L % 4) := by
    have h2 : 64 ^ L * 4 ^ (L % 4) = 2 ^ (6 * L + 2 * (L % 4)) := by
      rw [Nat.pow_add, Nat.pow_mul, Nat.pow_mul]
    have h3 : 256 ^ n = 2 ^ (8 * n) := by rw [Nat.pow_mul]
    rw [h2, h3]; congr 1; omega
  have hq : beVal (bs.take n) / 4 ^ (L % 4) < 64 ^ L := by
    rw [Nat.div_lt_iff_lt_mul (Nat.pow_pos (by decide)), ← hpow]; exact hlt
  have hq64 : beVal (bs.take n) / 4 ^ (L % 4) < 2 ^ 64 :=
    Nat.lt_of_lt_of_le hq (Nat.le_trans (Nat.pow_le_pow_right (by decide) h8) (by decide))
  have key : ∀ w, n ≤ w →
      beVal (bs.take n ++ List.replicate (w - n) 0) >>> (2 * (L % 4) + (w - n) * 8) =
        beVal (bs.take n) / 4 ^ (L % 4) := by
    intro w hw
    rw [beVal_append, beVal_replicate_zero, List.length_replicate, Nat.add_zero,
      Nat.shiftRight_eq_div_pow, Nat.add_comm, Nat.pow_add, Nat.mul_comm (w - n) 8, Nat.pow_mul,
      Nat.pow_mul, ← Nat.div_div_eq_div_mul]
    congr 1
    exact Nat.mul_div_cancel _ (Nat.pow_pos (by decide))
  rw [codeB2ToB64]
  simp only
  rw [if_neg (by omega), if_neg (by omega)]
  by_cases h4 : L ≤ 4
  · rw [if_pos h4, ← hndef, key 4 (by omega), u32ToB64, uToB64_eq h0 hq hq64]
  · rw [if_neg h4, if_pos h8, ← hndef, key 8 (by omega), u64ToB64, uToB64_eq h0 hq hq64]

theorem codeB2ToB64_short {bs : Bytes} {L : Nat} (h0 : 0 < L) (hn : bs.length < ((L + 1) * 3) / 4) :
    codeB2ToB64 bs L = .err .matter := by
  rw [codeB2ToB64]; simp only; rw [if_neg (by omega), if_pos hn]

/-- `code_b64_to_b2` on a Base64 code of at most eight characters. -/
theorem codeB64ToB2_text {ds : List Nat} (hs : Sextets ds) (h8 : ds.length ≤ 8) :
    codeB64ToB2 (b64Text ds) =
      .ok (beBytes (((ds.length + 1) * 3) / 4) (ofBase 64 ds * 4 ^ (ds.length % 4))) := by
  set n := ((ds.length + 1) * 3) / 4 with hndef
  have hlt : ofBase 64 ds < 64 ^ ds.length := ofBase_lt 64 ds hs
  have hpow : 256 ^ n = 64 ^ ds.length * 4 ^ (ds.length % 4) := by
    have h2 : 64 ^ ds.length * 4 ^ (ds.length % 4) = 2 ^ (6 * ds.length + 2 * (ds.length % 4)) := by
      rw [Nat.pow_add, Nat.pow_mul, Nat.pow_mul]
    have h3 : 256 ^ n = 2 ^ (8 * n) := by rw [Nat.pow_mul]
    rw [h2, h3]; congr 1; omega
  have hv64 : ofBase 64 ds < 2 ^ 64 :=
    Nat.lt_of_lt_of_le hlt (Nat.le_trans (Nat.pow_le_pow_right (by decide) h8) (by decide))
  have hsh : ofBase 64 ds <<< (2 * (ds.length % 4)) = ofBase 64 ds * 4 ^ (ds.length % 4) := by
    rw [Nat.shiftLeft_eq, Nat.pow_mul]
  have hlt2 : ofBase 64 ds * 4 ^ (ds.length % 4) < 256 ^ n := by
    rw [hpow]; exact Nat.mul_lt_mul_of_pos_right hlt (Nat.pow_pos (by decide))
  have hn8 : n ≤ 8 := by omega
  have hlt3 : ofBase 64 ds * 4 ^ (ds.length % 4) < 2 ^ 64 :=
    Nat.lt_of_lt_of_le hlt2 (Nat.le_trans (Nat.pow_le_pow_right (by decide) hn8) (by decide))
  have hl : Str.len (b64Text ds) = ds.length := by rw [(isB64_text hs).ascii.len, b64Text_length]
  rw [codeB64ToB2, b64ToU64_text hs hv64, Res.ok_bind]
  simp only [hl, hsh]
  rw [if_neg (by omega), Nat.mod_eq_of_lt hlt3, ← hndef]
  congr 1
  have : 8 = (8 - n) + n := by omega
  conv_lhs => rw [this]
  simp only [Nat.add_sub_cancel]
  exact beBytes_drop _ _ _

end Keride
