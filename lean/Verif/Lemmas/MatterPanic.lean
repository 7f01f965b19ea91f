import Verif.Lemmas.MatterReject

namespace Keride.Matter

/-- A variable-size code with lead bytes and size zero, in text. -/
def zeroLead (c : Str) (z : Sizage) : Str := c ++ List.replicate z.ss 'A'

theorem b64ToU32_ne_panic (s : Str) : b64ToU32 s ≠ .panic := by
  unfold b64ToU32
  generalize (0 : Nat) = o
  induction s generalizing o with
  | nil => simp [b64ToUAux]
  | cons c s ih =>
    rw [b64ToUAux]
    intro h
    rw [Res.bind_eq_panic] at h
    rcases h with h | ⟨i, -, h⟩
    · exact Res.ofOption_ne_panic h
    · exact ih _ h

theorem slice_ascii {s : Str} {a b : Nat} (hs : Ascii s) (hab : a ≤ b) (hb : b ≤ s.length) :
    Str.slice s a b = .ok ((s.take b).drop a) := by
  rw [Str.slice, if_neg (by omega), sliceTo_ascii hs hb, Res.ok_bind,
    sliceFrom_ascii (hs.take b) (by simp; omega)]

theorem soft_text {soft : Str} (hB : IsB64 soft) (h4 : soft.length ≤ 4) :
    soft = b64Text (toBase 64 soft.length (ofBase 64 (idxs soft))) ∧
    b64ToU32 soft = .ok (ofBase 64 (idxs soft)) := by
  have h1 := idxs_sextets hB
  have h2 : toBase 64 soft.length (ofBase 64 (idxs soft)) = idxs soft := by
    have := toBase_ofBase _ h1
    rwa [idxs_length] at this
  refine ⟨by rw [h2, text_idxs hB], ?_⟩
  have := b64ToU32_text h1 (Nat.lt_of_lt_of_le (ofBase_lt 64 _ h1) (by
    rw [idxs_length]
    exact Nat.le_trans (Nat.pow_le_pow_right (by decide) h4) (by decide)))
  rwa [text_idxs hB] at this

theorem b64ToU32_ok_soft {soft : Str} {n : Nat} (h4 : soft.length ≤ 4) (h : b64ToU32 soft = .ok n) :
    soft = b64Text (toBase 64 soft.length n) := by
  have hB : IsB64 soft := b64ToUAux_ok h
  obtain ⟨h1, h2⟩ := soft_text hB h4
  rw [h] at h2
  rw [← Res.ok.inj h2] at h1
  exact h1

/-- Why a parse of ASCII text panics: the decoded material is shorter than the lead bytes. -/
theorem exfil_panic_ascii {s : Str} (hA : Ascii s) (h : exfil s = .panic) :
    ∃ c z size body rest paw, sizage c = .ok z ∧ z.ls ≠ 0 ∧ (z.fs ≠ u32Max → size = 0) ∧
      s = c ++ b64Text (toBase 64 z.ss size) ++ body ++ rest ∧
      body.length = (if z.fs = u32Max then size * 4 else z.fs - z.hs) ∧
      (z.fs = u32Max → size < 64 ^ z.ss) ∧
      b64Decode body = .ok paw ∧ paw.length < z.ls := by
  unfold exfil at h
  split at h
  · simp at h
  rename_i first tl
  set s := first :: tl with hs
  rw [Res.bind_eq_panic] at h
  rcases h with h | ⟨hs', hhs, h⟩
  · exact absurd h (hardage_ne_panic _)
  rw [hA.len] at h
  split at h
  · simp at h
  rename_i h1
  rw [sliceTo_ascii hA (by omega), Res.ok_bind, Res.bind_eq_panic] at h
  rcases h with h | ⟨z, hz, h⟩
  · exact absurd h (sizage_ne_panic _)
  obtain ⟨hr, hfv⟩ := sizage_row hz
  have hhs_eq : hs' = z.hs := by
    have := hr.code_len
    rw [List.length_take] at this; omega
  subst hhs_eq
  simp only at h
  have hcl : (s.take z.hs).length = z.hs := hr.code_len
  have hF : ∃ F size, (if z.fs = u32Max then
          if (z.hs + z.ss) % 4 ≠ 0 then .err .invalidCodeSize
          else if s.length < z.hs + z.ss then .err .shortage
          else do
            let soft ← Str.slice s z.hs (z.hs + z.ss)
            let size ← b64ToU32 soft
            .ok (size * 4 + (z.hs + z.ss), size)
        else .ok (z.fs, 0) : Res (Nat × Nat)) = .ok (F, size) ∧
        (z.fs ≠ u32Max → F = z.fs ∧ size = 0) ∧
        (z.fs = u32Max → z.hs + z.ss ≤ s.length ∧ size < 64 ^ z.ss ∧ F = size * 4 + (z.hs + z.ss) ∧
          (s.take (z.hs + z.ss)).drop z.hs = b64Text (toBase 64 z.ss size)) := by
    rw [Res.bind_eq_panic] at h
    rcases hfv with hf | hv
    · exact ⟨z.fs, 0, by rw [if_neg hf.fs_ne], fun _ => ⟨rfl, rfl⟩, fun e => absurd e hf.fs_ne⟩
    · have hss : z.ss ≤ 4 := by rcases hv.hs_cases with ⟨a, b⟩ | ⟨a, b⟩ <;> omega
      have hcs0 : (z.hs + z.ss) % 4 = 0 := by rcases hv.hs_cases with ⟨a, b⟩ | ⟨a, b⟩ <;> omega
      rw [if_pos hv.fs_eq, if_neg (by omega)] at h ⊢
      by_cases h2 : s.length < z.hs + z.ss
      · rw [if_pos h2] at h; simp at h
      · rw [if_neg h2] at h ⊢
        rw [slice_ascii hA (by omega) (by omega), Res.ok_bind] at h ⊢
        have hl : ((s.take (z.hs + z.ss)).drop z.hs).length = z.ss := by
          rw [List.length_drop, List.length_take]; omega
        cases hsz : b64ToU32 ((s.take (z.hs + z.ss)).drop z.hs) with
        | panic => exact absurd hsz (b64ToU32_ne_panic _)
        | err e => rw [hsz] at h; simp at h
        | ok n =>
          refine ⟨_, n, by rw [Res.ok_bind], fun e => absurd hv.fs_eq e, fun _ => ⟨by omega, ?_, rfl, ?_⟩⟩
          · have hB : IsB64 ((s.take (z.hs + z.ss)).drop z.hs) := b64ToUAux_ok hsz
            have := (b64ToU32_soft hB (by omega) hsz).1
            rwa [hl] at this
          · have := b64ToU32_ok_soft (by omega) hsz
            rwa [hl] at this
  obtain ⟨F, size, hF, hfix, hvar⟩ := hF
  rw [hF, Res.ok_bind] at h
  simp only at h
  split at h
  · simp at h
  rename_i h2
  have hcsF : z.hs + z.ss ≤ F := by
    rcases hfv with hf | hv
    · have := hf.fs_gt; have := hf.ss_zero; have := (hfix hf.fs_ne).1; omega
    · have := (hvar hv.fs_eq).2.2.1; omega
  rw [sliceTo_ascii hA (by omega), Res.ok_bind, sliceFrom_ascii (hA.take F) (by simp; omega), Res.ok_bind] at h
  set body := (s.take F).drop (z.hs + z.ss) with hbody
  have hbl : body.length = F - (z.hs + z.ss) := by
    rw [hbody, List.length_drop, List.length_take]; omega
  rw [Res.bind_eq_panic] at h
  rcases h with h | ⟨_, -, h⟩
  swap; · simp at h
  split at h
  · -- pre-pad: never short
    rename_i hps
    exfalso
    have hls : z.ls = 0 := by by_contra hls; exact hps (hr.ls_cs hls)
    have hf : FixedOk z := hfv.resolve_right (fun hv => by
      rcases hv.hs_cases with ⟨a, b⟩ | ⟨a, b⟩ <;> rw [a, b] at hps <;> exact hps rfl)
    rw [Res.bind_eq_panic] at h
    rcases h with h | ⟨paw, hpaw, h⟩
    · exact b64Decode_ne_panic _ h
    obtain ⟨hmod, hshape⟩ := b64Decode_ok hpaw
    have hlen : z.hs % 4 ≤ paw.length := by
      have h3 := hf.ss_zero; have h4 := hf.fs_mod; have h5 := hf.bits; have h6 := hf.raw_pos
      have h7 := (hfix hf.fs_ne).1; have h8 := hf.fs_gt; have h9 := hf.fs_hs
      have h10 := hf.fs_pos
      have hl : (List.replicate ((z.hs + z.ss) % 4) 'A' ++ body).length = z.hs % 4 + (z.fs - z.hs) := by
        rw [List.length_append, List.length_replicate, hbl, h3, h7]; rfl
      rw [h3, Nat.add_zero] at hps
      rw [hl] at hshape
      have := hr.hs_cases
      rcases hshape with ⟨-, e⟩ | ⟨t, -, -, e⟩ | ⟨t, -, -, e⟩ <;> omega
    rw [hf.ss_zero, Nat.add_zero] at h
    rw [Bytes.sliceTo, if_pos hlen, Res.ok_bind] at h
    split at h
    · simp at h
    · rw [Bytes.sliceFrom, if_pos hlen] at h; simp at h
  · rename_i hps
    rw [Res.bind_eq_panic] at h
    rcases h with h | ⟨paw, hpaw, h⟩
    · exact absurd h (b64Decode_ne_panic _)
    by_cases hlen : z.ls ≤ paw.length
    · rw [Bytes.sliceTo, if_pos hlen, Res.ok_bind] at h
      split at h
      · split at h <;> simp at h
      · rw [Bytes.sliceFrom, if_pos hlen] at h; simp at h
    · refine ⟨s.take z.hs, z, size, body, s.drop F, paw, hz, by omega, fun e => (hfix e).2, ?_, ?_,
        fun e => (hvar e).2.1, hpaw, by omega⟩
      · have e1 : s.take z.hs ++ b64Text (toBase 64 z.ss size) = s.take (z.hs + z.ss) := by
          rcases hfv with hf | hv
          · rw [hf.ss_zero]; simp [toBase]
          · rw [← (hvar hv.fs_eq).2.2.2]
            conv_rhs => rw [← List.take_append_drop z.hs (s.take (z.hs + z.ss))]
            rw [List.take_take, Nat.min_eq_left (by omega)]
        have e2 : s.take (z.hs + z.ss) = (s.take F).take (z.hs + z.ss) := by
          rw [List.take_take, Nat.min_eq_left (by omega)]
        rw [e1, e2, hbody, List.take_append_drop, List.take_append_drop]
      · rcases hfv with hf | hv
        · rw [if_neg hf.fs_ne, hbl, (hfix hf.fs_ne).1, hf.ss_zero]; rfl
        · rw [if_pos hv.fs_eq, hbl, (hvar hv.fs_eq).2.2.1]; omega

/-- Conversely such text panics, whatever characters follow. -/
theorem exfil_panic_of {c : Str} {z : Sizage} {size : Nat} {body rest : Str} {paw : Bytes}
    (hz : sizage c = .ok z) (hfix : z.fs ≠ u32Max → size = 0)
    (hls : z.ls ≠ 0)
    (hbl : body.length = (if z.fs = u32Max then size * 4 else z.fs - z.hs))
    (hsz : z.fs = u32Max → size < 64 ^ z.ss) (hbA : Ascii body)
    (hd : b64Decode body = .ok paw) (hshort : paw.length < z.ls) :
    exfil (c ++ b64Text (toBase 64 z.ss size) ++ body ++ rest) = .panic := by
  obtain ⟨hr, hfv⟩ := sizage_row hz
  obtain ⟨f, ct, hcode, hhard⟩ := hr.hard
  have hcA := hr.code_b64.ascii
  have hsA : Ascii (b64Text (toBase 64 z.ss size)) := (isB64_text (Sextets.toBase _ _)).ascii
  have hps := hr.ls_cs hls
  have hcs : Ascii (c ++ b64Text (toBase 64 z.ss size)) := Ascii.append.mpr ⟨hcA, hsA⟩
  have hall : Ascii (c ++ b64Text (toBase 64 z.ss size) ++ body) := Ascii.append.mpr ⟨hcs, hbA⟩
  set s := c ++ b64Text (toBase 64 z.ss size) ++ body ++ rest with hs
  have hlen : Str.len s = z.hs + z.ss + body.length + Str.len rest := by
    rw [hs, Str.len_append, hall.len]; simp [hr.code_len, Nat.add_assoc]
  have hhead : s = f :: (ct ++ b64Text (toBase 64 z.ss size) ++ body ++ rest) := by
    rw [hs, hcode]; simp
  have hF : (if z.fs = u32Max then
          if (z.hs + z.ss) % 4 ≠ 0 then .err .invalidCodeSize
          else if Str.len s < z.hs + z.ss then .err .shortage
          else do
            let soft ← Str.slice s z.hs (z.hs + z.ss)
            let size ← b64ToU32 soft
            .ok (size * 4 + (z.hs + z.ss), size)
        else .ok (z.fs, 0) : Res (Nat × Nat)) = .ok (z.hs + z.ss + body.length, size) := by
    rcases hfv with hf | hv
    · rw [if_neg hf.fs_ne, hfix hf.fs_ne, hbl, if_neg hf.fs_ne, hf.ss_zero]
      have := hf.fs_gt
      congr 2; omega
    · have hss : z.ss ≤ 4 := by rcases hv.hs_cases with ⟨a, b⟩ | ⟨a, b⟩ <;> omega
      rw [if_pos hv.fs_eq, if_neg (by omega), if_neg (by omega), hs, List.append_assoc,
        slice_mid hcA hsA hr.code_len.symm (by simp [hr.code_len]), Res.ok_bind,
        b64ToU32_text (Sextets.toBase _ _), Res.ok_bind, ofBase_toBase_of_lt (hsz hv.fs_eq), hbl,
        if_pos hv.fs_eq]
      · congr 2; omega
      · rw [ofBase_toBase_of_lt (hsz hv.fs_eq)]
        exact Nat.lt_of_lt_of_le (hsz hv.fs_eq)
          (Nat.le_trans (Nat.pow_le_pow_right (by decide) hss) (by decide))
  have h1 : Str.sliceTo s z.hs = .ok c := by
    rw [hs, List.append_assoc, List.append_assoc]; exact sliceTo_of_prefix hcA hr.code_len.symm
  have h2 : Str.sliceTo s (z.hs + z.ss + body.length) =
      .ok (c ++ b64Text (toBase 64 z.ss size) ++ body) :=
    sliceTo_of_prefix hall (by simp [hr.code_len, Nat.add_assoc])
  have h3 : Str.sliceFrom (c ++ b64Text (toBase 64 z.ss size) ++ body) (z.hs + z.ss) = .ok body :=
    sliceFrom_of_prefix hcs (by simp [hr.code_len])
  clear_value s
  unfold exfil
  split
  · simp at hhead
  rename_i first rest'
  obtain ⟨rfl, -⟩ := List.cons.inj hhead
  rw [hhard, Res.ok_bind, if_neg (by omega)]
  rw [h1, Res.ok_bind, hz, Res.ok_bind]
  simp only
  rw [hF, Res.ok_bind]
  simp only
  rw [if_neg (by omega), h2, Res.ok_bind, h3, Res.ok_bind, if_neg (by omega), hd, Res.ok_bind, Bytes.sliceTo,
    if_neg (by omega)]
  rfl

end Keride.Matter
