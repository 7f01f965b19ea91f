/-
Lemmas shared by the codecs: a frame is a list of code sextets followed by the sextets of the raw bytes,
right aligned.
-/
import Verif.Lemmas.MatterSpec

namespace Keride

open Matter (sxs sxs_take sxs_sextets sxs_length pow_ncs lead_bytes div_four_pow beVal_mod_last
  beVal_drop_zero and_mask_eq_zero)

/-- Sizes of a frame: `cs` code characters, `F` characters in all, `raw` bytes. -/
structure Frame (cs F : Nat) (raw : Bytes) : Prop where
  mod : F % 4 = 0
  le : cs ≤ F
  bits : 8 * raw.length + 2 * (cs % 4) = 6 * (F - cs)

/-- The sextets of a frame. -/
def frameSx (cd : List Nat) (F : Nat) (raw : Bytes) : List Nat := cd ++ toBase 64 (F - cd.length) (beVal raw)

theorem frameSx_sextets {cd : List Nat} {F : Nat} {raw : Bytes} (h : Sextets cd) : Sextets (frameSx cd F raw) :=
  Sextets.append.mpr ⟨h, Sextets.toBase _ _⟩

theorem frameSx_length {cd : List Nat} {F : Nat} {raw : Bytes} (h : Frame cd.length F raw) :
    (frameSx cd F raw).length = F := by
  have := h.le
  rw [frameSx, List.length_append, toBase_length]; omega

theorem Frame.pow {cs F : Nat} {raw : Bytes} (h : Frame cs F raw) :
    64 ^ (F - cs) = 4 ^ (cs % 4) * 256 ^ raw.length := by
  have h2 : 4 ^ (cs % 4) * 256 ^ raw.length = 2 ^ (8 * raw.length + 2 * (cs % 4)) := by
    rw [Nat.pow_add 2, Nat.pow_mul, Nat.pow_mul, Nat.mul_comm]
  rw [h2, h.bits, Nat.pow_mul]

theorem Frame.val_lt {cs F : Nat} {raw : Bytes} (h : Frame cs F raw) : beVal raw < 64 ^ (F - cs) := by
  rw [h.pow]
  calc beVal raw < 256 ^ raw.length := beVal_lt _
    _ = 1 * 256 ^ raw.length := (Nat.one_mul _).symm
    _ ≤ _ := Nat.mul_le_mul_right _ (Nat.pow_pos (by decide))

theorem frame_bytes {cd : List Nat} {F : Nat} {raw : Bytes} (h : Frame cd.length F raw) :
    beBytes (3 * (F / 4)) (ofBase 64 (frameSx cd F raw)) =
      beBytes (((cd.length + 1) * 3) / 4) (ofBase 64 cd * 4 ^ (cd.length % 4)) ++ raw := by
  have hb := h.bits; have hm := h.mod; have hl := h.le
  have e : 3 * (F / 4) = ((cd.length + 1) * 3) / 4 + raw.length := by omega
  rw [frameSx, ofBase_append, toBase_length, ofBase_toBase_of_lt h.val_lt, h.pow, ← Nat.mul_assoc, e,
    beBytes_mul_add _ _ _ _ (beVal_lt _), beBytes_beVal]

theorem frame_code_lt {cd : List Nat} (hs : Sextets cd) :
    ofBase 64 cd * 4 ^ (cd.length % 4) < 256 ^ (((cd.length + 1) * 3) / 4) := by
  rw [pow_ncs]
  exact Nat.mul_lt_mul_of_pos_right (ofBase_lt _ _ hs) (Nat.pow_pos (by decide))

/-- The leading sextets of the code bytes are the leading code sextets. -/
theorem frame_sxs {cd : List Nat} (hs : Sextets cd) (t : Bytes) {L : Nat} (hL : L ≤ cd.length) :
    sxs (beBytes (((cd.length + 1) * 3) / 4) (ofBase 64 cd * 4 ^ (cd.length % 4)) ++ t) L = cd.take L := by
  have hfull : sxs (beBytes (((cd.length + 1) * 3) / 4) (ofBase 64 cd * 4 ^ (cd.length % 4)) ++ t) cd.length = cd := by
    rw [sxs, List.take_left' (by simp), beVal_beBytes, Nat.mod_eq_of_lt (frame_code_lt hs), div_four_pow,
      toBase_ofBase _ hs]
  have h := sxs_take hL (q := beBytes (((cd.length + 1) * 3) / 4) (ofBase 64 cd * 4 ^ (cd.length % 4)) ++ t)
    (by rw [List.length_append, beBytes_length]; omega)
  rw [hfull] at h
  exact h.symm

theorem text_zeros (k : Nat) : List.replicate k 'A' = b64Text (List.replicate k 0) := by
  simp [b64Text, show b64Chr 0 = 'A' by decide]

/-- Decoding the body of a frame, with pad characters in front. -/
theorem frame_decode_pre {cs F : Nat} {raw : Bytes} (h : Frame cs F raw) :
    b64Decode (List.replicate (cs % 4) 'A' ++ b64Text (toBase 64 (F - cs) (beVal raw))) =
      .ok (List.replicate (cs % 4) 0 ++ raw) := by
  have hb := h.bits; have hm := h.mod; have hl := h.le
  have hdec := b64Decode_text ((cs % 4 + (F - cs)) / 4)
    (List.replicate (cs % 4) 0 ++ toBase 64 (F - cs) (beVal raw))
    (Sextets.append.mpr ⟨Sextets.replicate_zero _, Sextets.toBase _ _⟩)
    (by simp only [List.length_append, List.length_replicate, toBase_length]; omega)
  rw [text_zeros, ← b64Text_append, hdec, ofBase_append, ofBase_replicate_zero,
    Nat.zero_mul, Nat.zero_add, ofBase_toBase_of_lt h.val_lt]
  have e : 3 * ((cs % 4 + (F - cs)) / 4) = cs % 4 + raw.length := by omega
  rw [e, lead_bytes]

/-- Encoding the padded raw and dropping the pad characters gives the body of the frame. -/
theorem frame_encode {cs F : Nat} {raw : Bytes} (h : Frame cs F raw) :
    b64Encode (List.replicate (cs % 4) 0 ++ raw) =
      b64Text (List.replicate (cs % 4) 0) ++ b64Text (toBase 64 (F - cs) (beVal raw)) := by
  have hb := h.bits; have hm := h.mod; have hl := h.le
  rw [b64Encode_eq ((cs % 4 + (F - cs)) / 4) _ (by simp only [List.length_append, List.length_replicate]; omega),
    Matter.beVal_lead, ← b64Text_append]
  have e : 4 * ((cs % 4 + (F - cs)) / 4) = cs % 4 + (F - cs) := by omega
  rw [e, toBase_add, Nat.div_eq_of_lt h.val_lt, toBase_zero]

/-- Inversion of the body: text without `=`, decoded with pad characters in front whose bits are zero, is
the body of the frame of the decoded raw bytes. -/
theorem frame_decode_inv {cs F : Nat} {body : Str} {paw : Bytes} (hlen : Str.len body = F - cs)
    (hF : F % 4 = 0) (hle : cs ≤ F) (hne : '=' ∉ body)
    (hd : b64Decode (List.replicate (cs % 4) 'A' ++ body) = .ok paw) (hp : cs % 4 ≤ paw.length)
    (hz : beVal (paw.take (cs % 4)) % 4 ^ (cs % 4) = 0) :
    Frame cs F (paw.drop (cs % 4)) ∧ body = b64Text (toBase 64 (F - cs) (beVal (paw.drop (cs % 4)))) := by
  have hbodyB : IsB64 body := by
    obtain ⟨k, ds, hds, hb, -, -⟩ := b64Decode_ok_noeq hd (by
      simp only [List.mem_append, not_or]
      exact ⟨fun h => by simp [List.mem_replicate] at h, hne⟩)
    have := isB64_text hds
    rw [← hb] at this
    exact (IsB64.append.mp this).2
  obtain ⟨bs, hbs, hbtext⟩ := isB64_iff.mp hbodyB
  have hbl : bs.length = F - cs := by
    rw [hbodyB.ascii.len, hbtext, b64Text_length] at hlen
    exact hlen
  have hsx : Sextets (List.replicate (cs % 4) 0 ++ bs) :=
    Sextets.append.mpr ⟨Sextets.replicate_zero _, hbs⟩
  have hmod : (cs % 4 + bs.length) % 4 = 0 := by omega
  rw [hbtext, text_zeros, ← b64Text_append, b64Decode_text ((cs % 4 + bs.length) / 4) _ hsx (by
    simp only [List.length_append, List.length_replicate]; omega)] at hd
  have hpaw := (Res.ok.inj hd).symm
  have hpl : paw.length = 3 * ((cs % 4 + bs.length) / 4) := by rw [hpaw]; simp
  rw [ofBase_append, ofBase_replicate_zero, Nat.zero_mul, Nat.zero_add] at hpaw
  have hpv : beVal paw = ofBase 64 bs := by
    rw [hpaw, beVal_beBytes, Nat.mod_eq_of_lt]
    rw [← pow_64_4]
    exact ofBase_sextets_lt hbs (by omega)
  have hbsv : ofBase 64 bs < 64 ^ bs.length := ofBase_lt _ _ hbs
  have hlow : beVal (paw.take (cs % 4)) = 0 := by
    rw [beVal_take, hpv] at hz ⊢
    have hbound : ofBase 64 bs / 256 ^ (paw.length - cs % 4) < 4 ^ (cs % 4) := by
      rw [Nat.div_lt_iff_lt_mul (Nat.pow_pos (by decide))]
      refine Nat.lt_of_lt_of_eq hbsv ?_
      have e1 : 64 ^ bs.length = 2 ^ (6 * bs.length) := by rw [Nat.pow_mul]
      have e2 : 4 ^ (cs % 4) * 256 ^ (paw.length - cs % 4) = 2 ^ (2 * (cs % 4) + 8 * (paw.length - cs % 4)) := by
        rw [Nat.pow_add, Nat.pow_mul, Nat.pow_mul]
      rw [e1, e2]; congr 1; omega
    rwa [Nat.mod_eq_of_lt hbound] at hz
  have hv : beVal (paw.drop (cs % 4)) = ofBase 64 bs := by rw [beVal_drop_zero hlow, hpv]
  refine ⟨⟨hF, hle, ?_⟩, ?_⟩
  · rw [List.length_drop]; omega
  · rw [hbtext, hv, ← hbl, toBase_ofBase _ hbs]

/-- Inversion of the binary code part: zero pad bits mean the bytes are those of the code sextets. -/
theorem frame_code_inv {q : Bytes} {cs : Nat} (hq : ((cs + 1) * 3) / 4 ≤ q.length)
    (hlow : beVal (q.take (((cs + 1) * 3) / 4)) % 4 ^ (cs % 4) = 0) :
    beBytes (((cs + 1) * 3) / 4) (ofBase 64 (sxs q cs) * 4 ^ (cs % 4)) = q.take (((cs + 1) * 3) / 4) := by
  have hl : (q.take (((cs + 1) * 3) / 4)).length = ((cs + 1) * 3) / 4 := by
    rw [List.length_take]; omega
  have hlt := beVal_lt (q.take (((cs + 1) * 3) / 4))
  rw [hl, pow_ncs] at hlt
  rw [sxs, ofBase_toBase_of_lt, Nat.div_mul_cancel (Nat.dvd_of_mod_eq_zero hlow)]
  · exact beBytes_beVal' hl
  · rwa [Nat.div_lt_iff_lt_mul (Nat.pow_pos (by decide))]

/-- The pad-bit check on the last code byte. -/
theorem frame_low_bits {q : Bytes} {n cs : Nat} {b : UInt8} (hn : n = ((cs + 1) * 3) / 4) (h0 : 0 < n)
    (hq : n ≤ q.length) (hb : q[n - 1]? = some b) (hmask : b.toNat &&& (2 ^ (2 * (cs % 4)) - 1) = 0) :
    beVal (q.take n) % 4 ^ (cs % 4) = 0 := by
  rw [and_mask_eq_zero, Nat.pow_mul] at hmask
  have hb' : (q.take n)[n - 1]? = some b := by
    rw [List.getElem?_take, if_pos (by omega), hb]
  rw [beVal_mod_last hb' (by rw [List.length_take]; omega)]
  · exact hmask
  · have : cs % 4 = 0 ∨ cs % 4 = 1 ∨ cs % 4 = 2 ∨ cs % 4 = 3 := by omega
    rcases this with e | e | e | e <;> rw [e] <;> decide

theorem utf8Size_ofNat : ∀ n < 128, (Char.ofNat n).utf8Size = 1 := by decide +kernel

/-- Bytes below 128 decode to ASCII text. -/
theorem fromUtf8_ascii {b : Bytes} (hb : ∀ x ∈ b, x < 128) {s : Str} (h : fromUtf8 b = .ok s) : Ascii s := by
  have h := Res.ofOption_eq_ok.mp h
  induction b generalizing s with
  | nil =>
    rw [utf8Go] at h
    rw [← Option.some.inj h]
    intro c hc
    cases hc
  | cons x b ih =>
    have hx : x.toNat < 128 := hb x List.mem_cons_self
    rw [utf8Go] at h
    rw [if_pos hx] at h
    obtain ⟨t, ht, rfl⟩ := Option.map_eq_some_iff.mp h
    intro c hc
    rcases List.mem_cons.mp hc with rfl | hc
    · exact utf8Size_ofNat _ hx
    · have hf : fromUtf8 b = .ok t := by rw [fromUtf8, ht]; rfl
      exact ih (fun y hy => hb y (List.mem_cons_of_mem _ hy)) hf ht c hc

end Keride
