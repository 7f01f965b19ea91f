import Verif.Lemmas.Matter

namespace Keride.Matter

theorem lead_bytes (j : Nat) (raw : Bytes) :
    beBytes (j + raw.length) (beVal raw) = List.replicate j 0 ++ raw := by
  have := beBytes_beVal' (bs := List.replicate j 0 ++ raw) (k := j + raw.length) (by simp)
  rwa [beVal_lead] at this

theorem body_val {m : M} {z : Sizage} (h : Wf m z) : beVal m.raw < 64 ^ (fsz m z - (z.hs + z.ss)) := by
  obtain ⟨-, -, -, hbits⟩ := fsz_facts h
  have h64 : 64 ^ (fsz m z - (z.hs + z.ss)) = 2 ^ (6 * (fsz m z - (z.hs + z.ss))) := by rw [Nat.pow_mul]
  have h256 : 256 ^ m.raw.length = 2 ^ (8 * m.raw.length) := by rw [Nat.pow_mul]
  rw [h64, ← hbits]
  refine Nat.lt_of_lt_of_le (beVal_lt _) ?_
  rw [h256]
  exact Nat.pow_le_pow_right (by decide) (by omega)

theorem slice_mid {a b t : Str} (ha : Ascii a) (hb : Ascii b) {i j : Nat} (hi : i = a.length)
    (hj : j = a.length + b.length) : Str.slice (a ++ b ++ t) i j = .ok b := by
  have hab : Ascii (a ++ b) := Ascii.append.mpr ⟨ha, hb⟩
  rw [Str.slice, if_neg (by omega), sliceTo_of_prefix hab (by simp [hj]), Res.ok_bind]
  exact sliceFrom_of_prefix ha hi

theorem exfil_text {m : M} {z : Sizage} (h : Wf m z) (t : Str) :
    exfil (b64Text (sx m z) ++ t) = .ok m := by
  obtain ⟨hm, hle, h4, hbits⟩ := fsz_facts h
  have hcs := cs_le h
  obtain ⟨hr, hfv⟩ := sizage_row h.row
  obtain ⟨f, ct, hcode, hhard⟩ := hr.hard
  set F := fsz m z with hF
  set cs := z.hs + z.ss with hcsdef
  have hsoft : Sextets (toBase 64 z.ss m.size) := Sextets.toBase _ _
  have hbody : Sextets (toBase 64 (F - cs) (beVal m.raw)) := Sextets.toBase _ _
  have hcodeA : Ascii m.code := hr.code_b64.ascii
  have hsoftA : Ascii (b64Text (toBase 64 z.ss m.size)) := (isB64_text hsoft).ascii
  have hbodyA : Ascii (b64Text (toBase 64 (F - cs) (beVal m.raw))) := (isB64_text hbody).ascii
  have hsx : b64Text (sx m z) =
      m.code ++ b64Text (toBase 64 z.ss m.size) ++ b64Text (toBase 64 (F - cs) (beVal m.raw)) := by
    rw [sx, b64Text_append, b64Text_append, text_idxs hr.code_b64]
  have hlen : Str.len (b64Text (sx m z) ++ t) = F + Str.len t := by
    rw [Str.len_append, text_len (sx_sextets h), sx_length h]
  have hcl : (m.code ++ b64Text (toBase 64 z.ss m.size)).length = cs := by
    simp [hr.code_len, hcsdef]
  have hto : Str.sliceTo (b64Text (sx m z) ++ t) z.hs = .ok m.code := by
    rw [hsx, List.append_assoc, List.append_assoc]
    exact sliceTo_of_prefix hcodeA hr.code_len.symm
  have htrim : Str.sliceTo (b64Text (sx m z) ++ t) F = .ok (b64Text (sx m z)) :=
    sliceTo_of_prefix (isB64_text (sx_sextets h)).ascii (by rw [b64Text_length, sx_length h])
  have hfrom : Str.sliceFrom (b64Text (sx m z)) cs =
      .ok (b64Text (toBase 64 (F - cs) (beVal m.raw))) := by
    rw [hsx]
    exact sliceFrom_of_prefix (Ascii.append.mpr ⟨hcodeA, hsoftA⟩) hcl.symm
  have hfs : (if z.fs = u32Max then
          if cs % 4 ≠ 0 then .err .invalidCodeSize
          else if Str.len (b64Text (sx m z) ++ t) < cs then .err .shortage
          else do
            let soft ← Str.slice (b64Text (sx m z) ++ t) z.hs cs
            let size ← b64ToU32 soft
            .ok (size * 4 + cs, size)
        else .ok (z.fs, 0) : Res (Nat × Nat)) = .ok (F, m.size) := by
    rcases hfv with hf | hv
    · rw [if_neg hf.fs_ne, (h.fixed hf.fs_ne).1, hF]
      simp [fsz, hf.fs_ne]
    · obtain ⟨-, hsz⟩ := h.var hv.fs_eq
      have hcs0 : cs % 4 = 0 := by rcases hv.hs_cases with ⟨a, b⟩ | ⟨a, b⟩ <;> omega
      have hss : 0 < z.ss ∧ z.ss ≤ 4 := by rcases hv.hs_cases with ⟨a, b⟩ | ⟨a, b⟩ <;> omega
      have hv1 : ofBase 64 (toBase 64 z.ss m.size) = m.size := ofBase_toBase_of_lt hsz
      rw [if_pos hv.fs_eq, if_neg (by omega), if_neg (by rw [hlen]; omega)]
      rw [hsx, List.append_assoc, slice_mid hcodeA hsoftA hr.code_len.symm (by simp [hr.code_len, hcsdef]),
        Res.ok_bind, b64ToU32_text hsoft, Res.ok_bind, hv1]
      · have : F = cs + m.size * 4 := by rw [hF, fsz]; simp [hv.fs_eq, hcsdef]
        rw [this, Nat.add_comm]
      · rw [hv1]
        exact Nat.lt_of_lt_of_le hsz (Nat.le_trans (Nat.pow_le_pow_right (by decide) hss.2) (by decide))
  have hhead : b64Text (sx m z) ++ t = f :: (ct ++ b64Text (toBase 64 z.ss m.size) ++
      b64Text (toBase 64 (F - cs) (beVal m.raw)) ++ t) := by
    rw [hsx, hcode]; simp
  have hraw : (if cs % 4 ≠ 0 then do
            let paw ← b64Decode (List.replicate (cs % 4) 'A' ++ b64Text (toBase 64 (F - cs) (beVal m.raw)))
            let pre ← Bytes.sliceTo paw (cs % 4)
            if beVal pre &&& (2 ^ (2 * (if cs % 4 ≠ 0 then cs % 4 else z.ls)) - 1) ≠ 0 then .err .prepad
            else Bytes.sliceFrom paw (cs % 4)
          else do
            let paw ← b64Decode (b64Text (toBase 64 (F - cs) (beVal m.raw)))
            let lead ← Bytes.sliceTo paw z.ls
            if beVal lead ≠ 0 then
              if z.ls = 1 then .err .nonZeroedLeadByte else .err .nonZeroedLeadBytes
            else Bytes.sliceFrom paw z.ls : Res Bytes) = .ok m.raw := by
    have hbv := body_val h
    by_cases hps : cs % 4 = 0
    · rw [if_neg (by omega)]
      have hdec := b64Decode_text ((F - cs) / 4) _ hbody (by rw [toBase_length]; omega)
      rw [hdec, Res.ok_bind, ofBase_toBase_of_lt hbv]
      have e : 3 * ((F - cs) / 4) = z.ls + m.raw.length := by omega
      rw [e, lead_bytes, Bytes.sliceTo, if_pos (by simp), Res.ok_bind]
      rw [List.take_left' (by simp), beVal_replicate_zero, if_neg (by simp), Bytes.sliceFrom,
        if_pos (by simp), List.drop_left' (by simp)]
    · rw [if_pos hps]
      have hls : z.ls = 0 := by
        by_contra hls; exact hps (hr.ls_cs hls)
      have hA : List.replicate (cs % 4) 'A' = b64Text (List.replicate (cs % 4) 0) := by
        simp [b64Text, show b64Chr 0 = 'A' by decide]
      have hdec := b64Decode_text ((cs % 4 + (F - cs)) / 4)
        (List.replicate (cs % 4) 0 ++ toBase 64 (F - cs) (beVal m.raw))
        (Sextets.append.mpr ⟨Sextets.replicate_zero _, hbody⟩)
        (by simp only [List.length_append, List.length_replicate, toBase_length]; omega)
      rw [hA, ← b64Text_append, hdec, Res.ok_bind, ofBase_append, ofBase_replicate_zero,
        Nat.zero_mul, Nat.zero_add, ofBase_toBase_of_lt hbv]
      have e : 3 * ((cs % 4 + (F - cs)) / 4) = cs % 4 + m.raw.length := by omega
      rw [e, lead_bytes, Bytes.sliceTo, if_pos (by simp), Res.ok_bind]
      rw [List.take_left' (by simp), beVal_replicate_zero, if_neg (by simp), Bytes.sliceFrom,
        if_pos (by simp), List.drop_left' (by simp)]
  have hhs : z.hs ≤ F := by omega
  unfold exfil
  split
  · rename_i heq; rw [hhead] at heq; simp at heq
  · rename_i first rest heq
    have : first = f := by rw [hhead] at heq; simp at heq; exact heq.1.symm
    subst this
    rw [hhard, Res.ok_bind]
    rw [if_neg (by rw [hlen]; omega), hto, Res.ok_bind, h.row, Res.ok_bind]
    simp only [← hcsdef]
    rw [hfs, Res.ok_bind]
    simp only
    rw [if_neg (by rw [hlen]; omega), htrim, Res.ok_bind, hfrom, Res.ok_bind, hraw, Res.ok_bind]

theorem div_four_pow {a k : Nat} : a * 4 ^ k / 4 ^ k = a := Nat.mul_div_cancel _ (Nat.pow_pos (by decide))

theorem ncs_eq (L : Nat) : ((L + 1) * 3) / 4 = L - L / 4 := by omega

/-- The leading sextets of the binary form are the leading sextets of the text. -/
theorem bcode_take {m : M} {z : Sizage} (h : Wf m z) {L : Nat} (hL : L ≤ z.hs + z.ss) (t : Bytes) :
    toBase 64 L (beVal ((bcode m z ++ t).take (((L + 1) * 3) / 4)) / 4 ^ (L % 4)) =
      (idxs m.code ++ toBase 64 z.ss m.size).take L := by
  obtain ⟨h1, h2⟩ := code_sextets h
  set cs := z.hs + z.ss with hcs
  set D := idxs m.code ++ toBase 64 z.ss m.size with hD
  have hn : ((L + 1) * 3) / 4 ≤ ((cs + 1) * 3) / 4 := by omega
  rw [List.take_append_of_le_length (by rw [bcode_length]; exact hn), beVal_take, bcode_length, bcode,
    beVal_beBytes, Nat.mod_eq_of_lt (bcode_val h), ← hcs, ← hD, Nat.div_div_eq_div_mul]
  have hpow : 256 ^ (((cs + 1) * 3) / 4 - ((L + 1) * 3) / 4) * 4 ^ (L % 4) =
      4 ^ (cs % 4) * 64 ^ (cs - L) := by
    have e1 : 256 ^ (((cs + 1) * 3) / 4 - ((L + 1) * 3) / 4) * 4 ^ (L % 4) =
        2 ^ (8 * (((cs + 1) * 3) / 4 - ((L + 1) * 3) / 4) + 2 * (L % 4)) := by
      rw [Nat.pow_add, Nat.pow_mul, Nat.pow_mul]
    have e2 : 4 ^ (cs % 4) * 64 ^ (cs - L) = 2 ^ (2 * (cs % 4) + 6 * (cs - L)) := by
      rw [Nat.pow_add, Nat.pow_mul, Nat.pow_mul]
    rw [e1, e2]; congr 1
    rw [ncs_eq, ncs_eq]; omega
  rw [hpow, ← Nat.div_div_eq_div_mul, div_four_pow]
  have : cs = L + (cs - L) := by omega
  conv_rhs => rw [← toBase_ofBase D h1, h2, this, toBase_take]

theorem bexfil_bytes {m : M} {z : Sizage} (h : Wf m z) (t : Bytes) :
    bexfil (beBytes (3 * (fsz m z / 4)) (ofBase 64 (sx m z)) ++ t) = .ok m := by
  obtain ⟨hm, hle, h4, hbits⟩ := fsz_facts h
  have hcs := cs_le h
  obtain ⟨hr, hfv⟩ := sizage_row h.row
  obtain ⟨f, ct, hcode, hf64, hbard⟩ := hr.bard
  obtain ⟨hcsx, hcsl⟩ := code_sextets h
  have hhs : z.hs = 1 ∨ z.hs = 2 ∨ z.hs = 4 := hr.hs_cases
  set F := fsz m z with hF
  set q := beBytes (3 * (F / 4)) (ofBase 64 (sx m z)) ++ t with hq
  have hqlen : q.length = 3 * (F / 4) + t.length := by simp [hq]
  have hq2 : q = bcode m z ++ (List.replicate z.ls 0 ++ m.raw ++ t) := by
    rw [hq, hF, bytes_sx h]; simp
  have hnab : nabSextets q 1 = .ok [f] := by
    rw [nabSextets_eq (by rw [hqlen]; omega), hq2, bcode_take h (by omega)]
    have : idxs m.code = f :: idxs ct := by
      rw [hcode]; simp [idxs, idxOf_chr hf64]
    rw [this]; rfl
  have hhard : codeB2ToB64 q z.hs = .ok m.code := by
    rw [codeB2ToB64_eq (by omega) (by omega) (by rw [hqlen]; omega), hq2, bcode_take h (by omega)]
    rw [List.take_left' (by simp [hr.code_len]), text_idxs hr.code_b64]
  set cs := z.hs + z.ss with hcsdef
  have hfs : (if z.fs = u32Max then
          if cs % 4 ≠ 0 then .err .parseQb2
          else if q.length < ((cs + 1) * 3) / 4 then .err .shortage
          else do
            let both ← codeB2ToB64 q cs
            let soft ← Str.slice both z.hs cs
            let size ← b64ToU32 soft
            .ok (size * 4 + cs, size)
        else .ok (z.fs, 0) : Res (Nat × Nat)) = .ok (F, m.size) := by
    rcases hfv with hf | hv
    · rw [if_neg hf.fs_ne, (h.fixed hf.fs_ne).1, hF]
      simp [fsz, hf.fs_ne]
    · obtain ⟨-, hsz⟩ := h.var hv.fs_eq
      have hcs0 : cs % 4 = 0 := by rcases hv.hs_cases with ⟨a, b⟩ | ⟨a, b⟩ <;> omega
      have hss : 0 < z.ss ∧ z.ss ≤ 4 := by rcases hv.hs_cases with ⟨a, b⟩ | ⟨a, b⟩ <;> omega
      have hv1 : ofBase 64 (toBase 64 z.ss m.size) = m.size := ofBase_toBase_of_lt hsz
      rw [if_pos hv.fs_eq, if_neg (by omega), if_neg (by rw [hqlen]; omega),
        codeB2ToB64_eq (by omega) (by omega) (by rw [hqlen]; omega), hq2, bcode_take h (by omega),
        Res.ok_bind]
      rw [List.take_of_length_le (by rw [hcsl]), b64Text_append, text_idxs hr.code_b64]
      have := slice_mid (t := []) hr.code_b64.ascii (isB64_text (Sextets.toBase z.ss m.size)).ascii
        hr.code_len.symm (show cs = _ by simp [hr.code_len, hcsdef])
      rw [List.append_nil] at this
      rw [this, Res.ok_bind, b64ToU32_text (Sextets.toBase _ _), Res.ok_bind, hv1]
      · have : F = cs + m.size * 4 := by rw [hF, fsz]; simp [hv.fs_eq, hcsdef]
        rw [this, Nat.add_comm]
      · rw [hv1]
        exact Nat.lt_of_lt_of_le hsz (Nat.le_trans (Nat.pow_le_pow_right (by decide) hss.2) (by decide))
  have hbfs : ((F + 1) * 3) / 4 = 3 * (F / 4) := by omega
  have htrim : Bytes.sliceTo q (3 * (F / 4)) = .ok (bcode m z ++ List.replicate z.ls 0 ++ m.raw) := by
    rw [Bytes.sliceTo, if_pos (by rw [hqlen]; omega), hq, List.take_left' (by simp), hF, bytes_sx h]
  have hbl := bcode_length m z
  rw [← hcsdef] at hbl
  have hbclen : ((cs + 1) * 3) / 4 + z.ls + m.raw.length = 3 * (F / 4) := by omega
  have hchk : (if cs % 4 ≠ 0 then do
            let b ← Res.orPanic (bcode m z ++ List.replicate z.ls 0 ++ m.raw)[((cs + 1) * 3) / 4 - 1]?
            if b.toNat &&& (2 ^ (2 * (if cs % 4 ≠ 0 then cs % 4 else z.ls)) - 1) ≠ 0 then
                .err .nonZeroedPadBits else .ok ()
          else if (((bcode m z ++ List.replicate z.ls 0 ++ m.raw).take (((cs + 1) * 3) / 4 + z.ls)).drop
              (((cs + 1) * 3) / 4)).any (fun b => b ≠ 0) then
            if z.ls = 1 then .err .nonZeroedLeadByte else .err .nonZeroedLeadBytes
          else .ok () : Res Unit) = .ok () := by
    by_cases hps : cs % 4 = 0
    · rw [if_neg (by omega), List.take_left' (by simp [hbl]), List.drop_left' hbl, if_neg]
      simp
    · rw [if_pos hps, if_pos hps]
      have hlt : ((cs + 1) * 3) / 4 - 1 < (bcode m z).length := by rw [hbl]; omega
      rw [List.append_assoc, List.getElem?_append_left hlt, bcode, ← hcsdef]
      obtain ⟨n, hn⟩ : ∃ n, ((cs + 1) * 3) / 4 = n + 1 := ⟨((cs + 1) * 3) / 4 - 1, by omega⟩
      rw [hn, Nat.add_sub_cancel, beBytes, toBase, List.map_append, List.getElem?_append_right (by simp)]
      simp only [List.length_map, toBase_length, Nat.sub_self, List.map_cons, List.map_nil,
        List.getElem?_cons_zero, Res.orPanic_some, Res.ok_bind]
      rw [if_neg]
      simp only [ne_eq, not_not, Nat.and_two_pow_sub_one_eq_mod, UInt8.toNat_ofNat']
      have h2 : (2 : Nat) ^ (2 * (cs % 4)) = 4 ^ (cs % 4) := by rw [Nat.pow_mul]
      rw [h2]
      have hdvd : (4 : Nat) ^ (cs % 4) ∣ 256 := by
        have : cs % 4 = 1 ∨ cs % 4 = 2 ∨ cs % 4 = 3 := by omega
        rcases this with e | e | e <;> rw [e] <;> decide
      have h256 : (2 : Nat) ^ 8 = 256 := by decide
      rw [h256, Nat.mod_mod, Nat.mod_mod_of_dvd _ hdvd, Nat.mul_mod_left]
  have hraw : Bytes.sliceFrom (bcode m z ++ List.replicate z.ls 0 ++ m.raw) (((cs + 1) * 3) / 4 + z.ls) =
      .ok m.raw := by
    rw [Bytes.sliceFrom, if_pos (by simp [hbl]), List.drop_left' (by simp [hbl])]
  unfold bexfil
  have hne : q ≠ [] := by
    intro h0; rw [h0] at hqlen; simp only [List.length_nil] at hqlen; omega
  rw [if_neg hne, hnab, Res.ok_bind]
  simp only [List.head?_cons, Res.orPanic_some, Res.ok_bind]
  rw [hbard, Res.ok_bind, if_neg (by rw [hqlen]; omega), hhard, Res.ok_bind, h.row, Res.ok_bind]
  simp only [← hcsdef]
  rw [hfs, Res.ok_bind]
  simp only
  rw [hbfs, if_neg (by rw [hqlen]; omega), htrim, Res.ok_bind, hchk, Res.ok_bind, hraw, Res.ok_bind,
    if_neg]
  simp only [List.length_append, hbl, List.length_replicate]
  omega

end Keride.Matter
