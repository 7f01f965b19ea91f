import Verif.Lemmas.MatterTables

namespace Keride.Matter

/-- The sextet indices of a Base64 string. -/
def idxs (s : Str) : List Nat := s.map (fun c => (b64Alphabet.idxOf? c).getD 0)

theorem idxs_text {ds : List Nat} (h : Sextets ds) : idxs (b64Text ds) = ds := by
  unfold idxs b64Text
  rw [List.map_map]
  conv_rhs => rw [← List.map_id ds]
  apply List.map_congr_left
  intro d hd
  simp [idxOf_chr (h d hd)]

theorem text_idxs {s : Str} (h : IsB64 s) : b64Text (idxs s) = s := by
  obtain ⟨ds, hds, rfl⟩ := isB64_iff.mp h
  rw [idxs_text hds]

theorem idxs_sextets {s : Str} (h : IsB64 s) : Sextets (idxs s) := by
  obtain ⟨ds, hds, rfl⟩ := isB64_iff.mp h
  rw [idxs_text hds]; exact hds

@[simp] theorem idxs_length (s : Str) : (idxs s).length = s.length := by simp [idxs]

/-- Full size in characters of an object with table row `z`. -/
def fsz (m : M) (z : Sizage) : Nat := if z.fs ≠ u32Max then z.fs else z.hs + z.ss + m.size * 4

/-- The object is one that `new_with_code_and_raw` or a parser could have produced for row `z`. -/
structure Wf (m : M) (z : Sizage) : Prop where
  row : sizage m.code = .ok z
  fixed : z.fs ≠ u32Max → m.size = 0 ∧ m.raw.length = (z.fs - z.hs) * 3 / 4 - z.ls
  var : z.fs = u32Max → m.raw.length + z.ls = 3 * m.size ∧ m.size < 64 ^ z.ss

/-- The sextets of the encoding: code, size, then the raw material as one number. -/
def sx (m : M) (z : Sizage) : List Nat :=
  idxs m.code ++ toBase 64 z.ss m.size ++ toBase 64 (fsz m z - (z.hs + z.ss)) (beVal m.raw)

theorem sx_sextets {m : M} {z : Sizage} (h : Wf m z) : Sextets (sx m z) := by
  unfold sx
  rw [Sextets.append, Sextets.append]
  exact ⟨⟨idxs_sextets (sizage_row h.row).1.code_b64, Sextets.toBase _ _⟩, Sextets.toBase _ _⟩

theorem fsz_facts {m : M} {z : Sizage} (h : Wf m z) :
    fsz m z % 4 = 0 ∧ z.hs + z.ss ≤ fsz m z ∧ 4 ≤ fsz m z ∧
    8 * (z.ls + m.raw.length) + 2 * ((z.hs + z.ss) % 4) = 6 * (fsz m z - (z.hs + z.ss)) := by
  obtain ⟨hr, hf | hv⟩ := sizage_row h.row
  · obtain ⟨-, hl⟩ := h.fixed hf.fs_ne
    have e : fsz m z = z.fs := by simp [fsz, hf.fs_ne]
    rw [e, hl, hf.ss_zero]
    have := hf.fs_mod; have := hf.fs_gt; have := hf.fs_pos; have := hf.bits
    simp only [Nat.add_zero]
    omega
  · obtain ⟨hl, -⟩ := h.var hv.fs_eq
    have e : fsz m z = z.hs + z.ss + m.size * 4 := by simp [fsz, hv.fs_eq]
    rw [e]
    rcases hv.hs_cases with ⟨a, b⟩ | ⟨a, b⟩ <;> rw [a, b] <;> omega

theorem sx_length {m : M} {z : Sizage} (h : Wf m z) : (sx m z).length = fsz m z := by
  have := fsz_facts h
  have hc := (sizage_row h.row).1.code_len
  simp only [sx, List.length_append, idxs_length, toBase_length, hc]
  omega

theorem beVal_lead (k : Nat) (b : Bytes) : beVal (List.replicate k 0 ++ b) = beVal b := by
  rw [beVal_append, beVal_replicate_zero]; simp

theorem u32ToB64_soft {n k : Nat} (hk : 0 < k) (h : n < 64 ^ k) (hk4 : k ≤ 4) :
    u32ToB64 n k = .ok (b64Text (toBase 64 k n)) := by
  rw [u32ToB64, uToB64_eq hk h]
  exact Nat.lt_of_lt_of_le h (Nat.le_trans (Nat.pow_le_pow_right (by decide) hk4) (by decide))

theorem text_len {ds : List Nat} (h : Sextets ds) : Str.len (b64Text ds) = ds.length := by
  rw [(isB64_text h).ascii.len, b64Text_length]

theorem infil_wf (chk : Bool) {m : M} {z : Sizage} (h : Wf m z) :
    infil chk m = .ok (b64Text (sx m z)) := by
  obtain ⟨hr, hf | hv⟩ := sizage_row h.row
  · obtain ⟨-, hl⟩ := h.fixed hf.fs_ne
    have e : fsz m z = z.fs := by simp [fsz, hf.fs_ne]
    have hcode : Str.len m.code = z.hs := by rw [hr.code_b64.ascii.len, hr.code_len]
    have hps : (3 - m.raw.length % 3) % 3 = z.hs % 4 + z.ls := by rw [hl]; exact hf.pad
    have hb := hf.bits
    rw [← hl] at hb
    have hlen : (List.replicate (z.hs % 4 + z.ls) 0 ++ m.raw).length =
        3 * ((z.hs % 4 + z.ls + m.raw.length) / 3) := by
      simp only [List.length_append, List.length_replicate]
      have : z.hs % 4 + z.ls + m.raw.length = (3 - m.raw.length % 3) % 3 + m.raw.length := by rw [hps]
      omega
    rw [infil]
    simp only [h.row, Res.ok_bind, hps, hf.fs_ne, if_false, hcode]
    have hsub : subU32 chk (z.hs % 4 + z.ls) z.ls = .ok (z.hs % 4) := by
      simp [subU32]
    rw [hsub, Res.ok_bind]
    simp only [ne_eq, not_true_eq_false, if_false]
    rw [b64EncodeSlice_eq _ _ hlen, Res.ok_bind, beVal_lead]
    set k := (z.hs % 4 + z.ls + m.raw.length) / 3 with hk
    have hlscs := hr.ls_cs
    have hs0 := hf.ss_zero
    have hge := hf.fs_gt
    have h4k : 4 * k = z.hs % 4 + (z.fs - z.hs) := by
      simp only [List.length_append, List.length_replicate] at hlen
      by_cases hls : z.ls = 0
      · omega
      · have := hlscs hls
        rw [hs0] at this; simp only [Nat.add_zero] at this
        omega
    rw [h4k, toBase_add, b64Text_append]
    have hpre : Sextets (toBase 64 (z.hs % 4) (beVal m.raw / 64 ^ (z.fs - z.hs))) := Sextets.toBase _ _
    rw [sliceFrom_of_prefix (isB64_text hpre).ascii (by simp), Res.ok_bind]
    simp only [sx, hs0, toBase, List.append_nil, e, Nat.add_zero, b64Text_append,
      text_idxs hr.code_b64]
  · obtain ⟨hl, hsz⟩ := h.var hv.fs_eq
    have e : fsz m z = z.hs + z.ss + m.size * 4 := by simp [fsz, hv.fs_eq]
    have hss : 0 < z.ss ∧ z.ss ≤ 4 := by rcases hv.hs_cases with ⟨a, b⟩ | ⟨a, b⟩ <;> omega
    have hcs : (z.hs + z.ss) % 4 = 0 := by rcases hv.hs_cases with ⟨a, b⟩ | ⟨a, b⟩ <;> omega
    have hls := hr.ls_le
    have hps : (3 - m.raw.length % 3) % 3 = z.ls := by omega
    have hboth : Str.len (m.code ++ b64Text (toBase 64 z.ss m.size)) = z.hs + z.ss := by
      rw [Str.len_append, hr.code_b64.ascii.len, hr.code_len, text_len (Sextets.toBase _ _), toBase_length]
    have hlen : (List.replicate z.ls 0 ++ m.raw).length = 3 * m.size := by
      simp only [List.length_append, List.length_replicate]; omega
    rw [infil]
    simp only [h.row, Res.ok_bind, hps, hv.fs_eq, if_true, hcs, ne_eq, not_true_eq_false, if_false]
    have hle : ¬ (64 ^ z.ss - 1 < m.size) := by omega
    rw [if_neg hle, u32ToB64_soft hss.1 hsz hss.2, Res.ok_bind]
    simp only [hboth, hcs]
    rw [if_neg (by omega), b64EncodeSlice_eq _ _ hlen, Res.ok_bind, beVal_lead]
    have e2 : fsz m z - (z.hs + z.ss) = 4 * m.size := by omega
    simp only [sx, e2, b64Text_append, text_idxs hr.code_b64]

theorem ofBase_sx {m : M} {z : Sizage} (h : Wf m z) :
    ofBase 64 (sx m z) = ofBase 64 (idxs m.code ++ toBase 64 z.ss m.size) * 4 ^ ((z.hs + z.ss) % 4)
      * 256 ^ (z.ls + m.raw.length) + beVal m.raw := by
  obtain ⟨-, -, -, hbits⟩ := fsz_facts h
  have hpow : 64 ^ (fsz m z - (z.hs + z.ss)) = 4 ^ ((z.hs + z.ss) % 4) * 256 ^ (z.ls + m.raw.length) := by
    have h2 : 4 ^ ((z.hs + z.ss) % 4) * 256 ^ (z.ls + m.raw.length) =
        2 ^ (8 * (z.ls + m.raw.length) + 2 * ((z.hs + z.ss) % 4)) := by
      rw [Nat.pow_add 2, Nat.pow_mul, Nat.pow_mul, Nat.mul_comm]
    rw [h2, hbits, Nat.pow_mul]
  have hlt : beVal m.raw < 64 ^ (fsz m z - (z.hs + z.ss)) := by
    rw [hpow]
    calc beVal m.raw < 256 ^ m.raw.length := beVal_lt _
      _ ≤ 256 ^ (z.ls + m.raw.length) := Nat.pow_le_pow_right (by decide) (by omega)
      _ = 1 * 256 ^ (z.ls + m.raw.length) := (Nat.one_mul _).symm
      _ ≤ _ := Nat.mul_le_mul_right _ (Nat.pow_pos (by decide))
  rw [sx, ofBase_append, toBase_length, ofBase_toBase_of_lt hlt, hpow]
  ring

theorem code_sextets {m : M} {z : Sizage} (h : Wf m z) :
    Sextets (idxs m.code ++ toBase 64 z.ss m.size) ∧
    (idxs m.code ++ toBase 64 z.ss m.size).length = z.hs + z.ss := by
  have hr := (sizage_row h.row).1
  refine ⟨Sextets.append.mpr ⟨idxs_sextets hr.code_b64, Sextets.toBase _ _⟩, ?_⟩
  simp [hr.code_len]

theorem cs_le {m : M} {z : Sizage} (h : Wf m z) : z.hs + z.ss ≤ 8 ∧ 1 ≤ z.hs + z.ss := by
  obtain ⟨hr, hf | hv⟩ := sizage_row h.row
  · rcases hr.hs_cases with a | a | a <;> rw [a, hf.ss_zero] <;> decide
  · rcases hv.hs_cases with ⟨a, b⟩ | ⟨a, b⟩ <;> rw [a, b] <;> decide

/-- The binary code prefix: the code sextets left aligned in whole bytes. -/
def bcode (m : M) (z : Sizage) : Bytes :=
  beBytes (((z.hs + z.ss + 1) * 3) / 4)
    (ofBase 64 (idxs m.code ++ toBase 64 z.ss m.size) * 4 ^ ((z.hs + z.ss) % 4))

theorem pow_ncs (cs : Nat) : 256 ^ (((cs + 1) * 3) / 4) = 64 ^ cs * 4 ^ (cs % 4) := by
  have h2 : 64 ^ cs * 4 ^ (cs % 4) = 2 ^ (6 * cs + 2 * (cs % 4)) := by
    rw [Nat.pow_add, Nat.pow_mul, Nat.pow_mul]
  have h3 : 256 ^ (((cs + 1) * 3) / 4) = 2 ^ (8 * (((cs + 1) * 3) / 4)) := by rw [Nat.pow_mul]
  rw [h2, h3]; congr 1; omega

theorem bcode_val {m : M} {z : Sizage} (h : Wf m z) :
    ofBase 64 (idxs m.code ++ toBase 64 z.ss m.size) * 4 ^ ((z.hs + z.ss) % 4) <
      256 ^ (((z.hs + z.ss + 1) * 3) / 4) := by
  obtain ⟨h1, h2⟩ := code_sextets h
  rw [pow_ncs, ← h2]
  exact Nat.mul_lt_mul_of_pos_right (ofBase_lt _ _ h1) (Nat.pow_pos (by decide))

/-- The binary encoding, laid out as code, lead bytes, raw. -/
theorem bytes_sx {m : M} {z : Sizage} (h : Wf m z) :
    beBytes (3 * (fsz m z / 4)) (ofBase 64 (sx m z)) =
      bcode m z ++ List.replicate z.ls 0 ++ m.raw := by
  obtain ⟨hm, hle, -, hbits⟩ := fsz_facts h
  have hcs := cs_le h
  have e : 3 * (fsz m z / 4) = ((z.hs + z.ss + 1) * 3) / 4 + (z.ls + m.raw.length) := by omega
  have hlt : beVal m.raw < 256 ^ (z.ls + m.raw.length) :=
    Nat.lt_of_lt_of_le (beVal_lt _) (Nat.pow_le_pow_right (by decide) (by omega))
  rw [e, ofBase_sx h, beBytes_mul_add _ _ _ _ hlt, bcode, List.append_assoc]
  congr 1
  have := beBytes_beVal' (bs := List.replicate z.ls 0 ++ m.raw) (k := z.ls + m.raw.length) (by simp)
  rw [beVal_lead] at this
  exact this

theorem bcode_length (m : M) (z : Sizage) : (bcode m z).length = ((z.hs + z.ss + 1) * 3) / 4 := by
  simp [bcode]

theorem drop_be_low {k n v : Nat} (h : n ≤ k) :
    (beBytes k v).drop ((beBytes k v).length - n) = beBytes n v := by
  rw [beBytes_length]
  conv_lhs => rw [show k = (k - n) + n by omega]
  rw [Nat.add_sub_cancel, beBytes_drop]

theorem binfil_wf {m : M} {z : Sizage} (h : Wf m z) :
    binfil m = .ok (beBytes (3 * (fsz m z / 4)) (ofBase 64 (sx m z))) := by
  obtain ⟨hm, hle, h4, hbits⟩ := fsz_facts h
  obtain ⟨hcsx, hcsl⟩ := code_sextets h
  have hcs := cs_le h
  rw [bytes_sx h]
  have hr := (sizage_row h.row).1
  have hboth : ∃ f, (if z.fs = u32Max then
      if (z.hs + z.ss) % 4 ≠ 0 then Res.err .invalidCodeSize
      else if 64 ^ z.ss - 1 < m.size then .err .invalidVarSize
      else do
        let soft ← u32ToB64 m.size z.ss
        .ok (z.hs + z.ss + m.size * 4, m.code ++ soft)
    else .ok (z.fs, m.code) : Res (Nat × Str)) =
      .ok (f, b64Text (idxs m.code ++ toBase 64 z.ss m.size)) ∧ f = fsz m z := by
    obtain ⟨-, hf | hv⟩ := sizage_row h.row
    · refine ⟨z.fs, ?_, by simp [fsz, hf.fs_ne]⟩
      rw [if_neg hf.fs_ne, hf.ss_zero]
      simp [toBase, text_idxs hr.code_b64]
    · obtain ⟨hl, hsz⟩ := h.var hv.fs_eq
      have hss : 0 < z.ss ∧ z.ss ≤ 4 := by rcases hv.hs_cases with ⟨a, b⟩ | ⟨a, b⟩ <;> omega
      have hcs0 : (z.hs + z.ss) % 4 = 0 := by rcases hv.hs_cases with ⟨a, b⟩ | ⟨a, b⟩ <;> omega
      refine ⟨_, ?_, (by simp [fsz, hv.fs_eq] : z.hs + z.ss + m.size * 4 = fsz m z)⟩
      rw [if_pos hv.fs_eq, if_neg (by omega), if_neg (by omega), u32ToB64_soft hss.1 hsz hss.2,
        Res.ok_bind, b64Text_append, text_idxs hr.code_b64]
  obtain ⟨f, hboth, hfeq⟩ := hboth
  rw [binfil, h.row, Res.ok_bind]
  simp only
  rw [hboth, Res.ok_bind]
  simp only [text_len hcsx, hcsl]
  rw [if_neg (by simp)]
  set cs := z.hs + z.ss with hcsdef
  have hv := bcode_val h
  rw [← hcsdef] at hv
  have hval : ofBase 64 (idxs m.code ++ toBase 64 z.ss m.size) < 64 ^ cs := by
    rw [← hcsl]; exact ofBase_lt _ _ hcsx
  have hshift : ofBase 64 (idxs m.code ++ toBase 64 z.ss m.size) <<< (2 * (cs % 4)) =
      ofBase 64 (idxs m.code ++ toBase 64 z.ss m.size) * 4 ^ (cs % 4) := by
    rw [Nat.shiftLeft_eq, Nat.pow_mul]
  have hfull : ∃ full : Bytes, (if ((cs + 1) * 3) / 4 ≤ 3 then do
          let v ← b64ToU32 (b64Text (idxs m.code ++ toBase 64 z.ss m.size))
          .ok (beBytes 4 (v <<< (2 * (cs % 4))))
        else if ((cs + 1) * 3) / 4 ≤ 6 then do
          let v ← b64ToU64 (b64Text (idxs m.code ++ toBase 64 z.ss m.size))
          .ok (beBytes 8 (v <<< (2 * (cs % 4))))
        else .err .invalidCodeSize : Res Bytes) = .ok full ∧
        full.drop (full.length - ((cs + 1) * 3) / 4) = bcode m z := by
    by_cases h3 : ((cs + 1) * 3) / 4 ≤ 3
    · rw [if_pos h3, b64ToU32_text hcsx (Nat.lt_of_lt_of_le hval (Nat.le_trans
        (Nat.pow_le_pow_right (by decide) (by omega : cs ≤ 4)) (by decide))), Res.ok_bind, hshift]
      exact ⟨_, rfl, by rw [drop_be_low (by omega)]; rfl⟩
    · rw [if_neg h3, if_pos (by omega), b64ToU64_text hcsx (Nat.lt_of_lt_of_le hval (Nat.le_trans
        (Nat.pow_le_pow_right (by decide) (by omega : cs ≤ 8)) (by decide))), Res.ok_bind, hshift]
      exact ⟨_, rfl, by rw [drop_be_low (by omega)]; rfl⟩
  obtain ⟨full, hfull, hdrop⟩ := hfull
  rw [hfull, Res.ok_bind, hdrop]
  have hlen : (bcode m z ++ List.replicate z.ls 0 ++ m.raw).length = 3 * (fsz m z / 4) := by
    simp only [List.length_append, bcode_length, List.length_replicate, ← hcsdef]
    omega
  rw [hlen, if_neg]
  omega

theorem fullSize_wf {m : M} {z : Sizage} (h : Wf m z) : fullSize m = .ok (fsz m z) := by
  rw [fullSize, h.row, Res.ok_bind, fsz]
  split <;> rfl

end Keride.Matter
