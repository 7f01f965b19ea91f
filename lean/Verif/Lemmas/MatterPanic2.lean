import Verif.Lemmas.MatterPanic

namespace Keride.Matter

/-- Codes with lead bytes followed by a zero size. -/
def zeroSizeLead : List Str := [str% "5AAA", str% "6AAA", str% "5BAA", str% "6BAA",
  str% "8AAAAAAA", str% "9AAAAAAA", str% "8AABAAAA", str% "9AABAAAA"]

/-- Codes with two lead bytes whose material is exactly one quadlet. -/
def oneQuadLead : List Str := [str% "3AAA", str% "6AAB", str% "6BAB", str% "9AAAAAAB", str% "9AABAAAB"]

theorem lead_table : ∀ e ∈ sizageTable, e.2.ls ≠ 0 →
    (e.2.fs = u32Max → e.1 ++ b64Text (toBase 64 e.2.ss 0) ∈ zeroSizeLead) ∧
    (e.2.ls = 2 → e.2.fs = u32Max → e.1 ++ b64Text (toBase 64 e.2.ss 1) ∈ oneQuadLead) ∧
    (e.2.ls = 2 → e.2.fs ≠ u32Max → e.2.ss = 0 ∧ e.1 ∈ oneQuadLead) ∧
    (e.2.fs ≠ u32Max → e.2.hs + 4 = e.2.fs) := by decide +kernel

theorem zero_table : ∀ p ∈ zeroSizeLead, ∃ e ∈ sizageTable, e.2.ls ≠ 0 ∧ e.2.fs = u32Max ∧
    p = e.1 ++ b64Text (toBase 64 e.2.ss 0) := by decide +kernel

theorem one_table : ∀ p ∈ oneQuadLead, ∃ e ∈ sizageTable, e.2.ls = 2 ∧
    ((e.2.fs = u32Max ∧ 1 < 64 ^ e.2.ss ∧ p = e.1 ++ b64Text (toBase 64 e.2.ss 1)) ∨
     (e.2.fs ≠ u32Max ∧ e.2.ss = 0 ∧ e.2.hs + 4 = e.2.fs ∧ p = e.1)) := by decide +kernel

theorem last_quad {x y : Char} : (∃ b, b64Decode [x, y, '=', '='] = .ok [b]) ↔
    x ∈ b64Alphabet ∧ y ∈ ['A', 'Q', 'g', 'w'] := by
  have key : ∀ j < 64, (b64Chr j ∈ ['A', 'Q', 'g', 'w'] ↔ j % 16 = 0) := by decide
  have hsub : ∀ c ∈ ['A', 'Q', 'g', 'w'], c ∈ b64Alphabet := by decide
  simp only [b64Decode, b64DecodeLast, List.isEmpty_nil, if_true]
  constructor
  · rintro ⟨b, h⟩
    cases hx : b64Alphabet.idxOf? x with
    | none => rw [hx] at h; simp at h
    | some i =>
      cases hy : b64Alphabet.idxOf? y with
      | none => rw [hx, hy] at h; simp at h
      | some j =>
        rw [hx, hy] at h
        obtain ⟨hi, rfl⟩ := idxOf?_some hx
        obtain ⟨hj, rfl⟩ := idxOf?_some hy
        refine ⟨chr_mem hi, (key j hj).mpr ?_⟩
        by_contra hne
        simp [hne] at h
  · rintro ⟨hx, hy⟩
    obtain ⟨i, hi, rfl⟩ := mem_alphabet hx
    obtain ⟨j, hj, rfl⟩ := mem_alphabet (hsub y hy)
    have h0 := (key j hj).mp hy
    simp only [idxOf_chr hi, idxOf_chr hj]
    simp [h0]

/-- Material that is too short for its lead bytes has one of two shapes. -/
theorem lead_shape {s c : Str} {z : Sizage} {size : Nat} {body rest : Str} {paw : Bytes} (hz : sizage c = .ok z) (hls : z.ls ≠ 0)
    (hs : s = c ++ b64Text (toBase 64 z.ss size) ++ body ++ rest)
    (hbl : body.length = (if z.fs = u32Max then size * 4 else z.fs - z.hs)) (hd : b64Decode body = .ok paw) (hp : paw.length < z.ls) :
    (∃ p ∈ zeroSizeLead, p <+: s) ∨
    (∃ p ∈ oneQuadLead, ∃ x ∈ b64Alphabet, ∃ y ∈ ['A', 'Q', 'g', 'w'], p ++ [x, y, '=', '='] <+: s) := by
  obtain ⟨hr, hfv⟩ := sizage_row hz
  obtain ⟨t1, t2, t3, t4⟩ := lead_table _ (sizage_mem hz) hls
  simp only at t1 t2 t3 t4
  have hls2 := hr.ls_le
  obtain ⟨hmod, hshape⟩ := b64Decode_ok hd
  by_cases hb : body = []
  · left
    have hv : z.fs = u32Max := by
      by_contra hne
      rw [if_neg hne, hb] at hbl
      have := t4 hne
      simp only [List.length_nil] at hbl
      omega
    have h0 : size = 0 := by
      rw [if_pos hv, hb] at hbl
      simp only [List.length_nil] at hbl; omega
    refine ⟨_, t1 hv, ⟨rest, ?_⟩⟩
    rw [hs, hb, h0, List.append_nil]
  · right
    have hbpos : 0 < body.length := List.length_pos_iff.mpr hb
    rcases hshape with ⟨-, e⟩ | ⟨t, -, -, e⟩ | ⟨t, ht, htB, e⟩
    · omega
    · omega
    · have hb4 : body.length = 4 := by omega
      have htl : t.length = 2 := by
        rw [ht] at hb4; simp only [List.length_append, List.length_cons, List.length_nil] at hb4; omega
      match t, htl with
      | [x, y], _ =>
        have hpaw : ∃ b, paw = [b] := by
          match paw, (by omega : paw.length = 1) with
          | [b], _ => exact ⟨b, rfl⟩
        obtain ⟨b, rfl⟩ := hpaw
        simp only [List.cons_append, List.nil_append] at ht
        rw [ht] at hd
        obtain ⟨hx, hy⟩ := last_quad.mp ⟨b, hd⟩
        have hl2 : z.ls = 2 := by simp only [List.length_singleton] at hp; omega
        by_cases hv : z.fs = u32Max
        · have h1 : size = 1 := by rw [if_pos hv] at hbl; omega
          refine ⟨_, t2 hl2 hv, x, hx, y, hy, rest, ?_⟩
          rw [hs, h1, ht]
        · obtain ⟨t5, t6⟩ := t3 hl2 hv
          refine ⟨_, t6, x, hx, y, hy, rest, ?_⟩
          rw [hs, ht, t5]; simp [toBase]

theorem lead_panics {s : Str} (h : (∃ p ∈ zeroSizeLead, p <+: s) ∨
    (∃ p ∈ oneQuadLead, ∃ x ∈ b64Alphabet, ∃ y ∈ ['A', 'Q', 'g', 'w'], p ++ [x, y, '=', '='] <+: s)) : exfil s = .panic := by
  rcases h with (⟨p, hp, rest, rfl⟩ | ⟨p, hp, x, hx, y, hy, rest, rfl⟩)
  · obtain ⟨⟨c, z⟩, hm, hls, hv, rfl⟩ := zero_table p hp
    simp only at hls hv
    have hz := (row_ok hm).2.2
    have := exfil_panic_of (body := []) (rest := rest) (paw := []) (size := 0) hz (fun e => absurd hv e) hls
      (by rw [if_pos hv]; rfl) (fun _ => Nat.pow_pos (by decide)) (by intro c hc; simp at hc) rfl
      (by simp only [List.length_nil]; omega)
    rwa [List.append_nil] at this
  · obtain ⟨⟨c, z⟩, hm, hls, hv⟩ := one_table p hp
    simp only at hls hv
    have hz := (row_ok hm).2.2
    obtain ⟨b, hd⟩ := last_quad.mpr ⟨hx, hy⟩
    have hbA : Ascii [x, y, '=', '='] := by
      have hx' := IsB64.ascii (s := [x]) (by intro c hc; rw [List.mem_singleton.mp hc]; exact hx)
      have hy' : Ascii [y] := by
        have : ∀ c ∈ ['A', 'Q', 'g', 'w'], Ascii [c] := by
          intro c hc
          simp only [List.mem_cons, List.not_mem_nil, or_false] at hc
          rcases hc with rfl | rfl | rfl | rfl <;> (intro d hd; rw [List.mem_singleton.mp hd]; decide)
        exact this y hy
      have he : Ascii ['=', '='] := by
        intro d hd
        simp only [List.mem_cons, List.not_mem_nil, or_false, or_self] at hd
        rw [hd]; decide
      exact Ascii.append.mpr ⟨hx', Ascii.append.mpr ⟨hy', he⟩⟩
    rcases hv with ⟨hv, hlt, rfl⟩ | ⟨hv, hss, hfs, rfl⟩
    · exact exfil_panic_of (paw := [b]) hz (fun e => absurd hv e) (by omega)
        (by rw [if_pos hv]; rfl) (fun _ => hlt) hbA hd (by simp [hls])
    · have := exfil_panic_of (size := 0) (paw := [b]) (rest := rest) hz (fun _ => rfl) (by omega)
        (by rw [if_neg hv]; simp; omega) (fun e => absurd e hv) hbA hd (by simp [hls])
      rw [hss] at this
      simpa [toBase] using this

/-- Exactly which ASCII texts make the text parser panic. -/
theorem exfil_panic_iff {s : Str} (hA : Ascii s) : exfil s = .panic ↔
    (∃ p ∈ zeroSizeLead, p <+: s) ∨
    (∃ p ∈ oneQuadLead, ∃ x ∈ b64Alphabet, ∃ y ∈ ['A', 'Q', 'g', 'w'], p ++ [x, y, '=', '='] <+: s) := by
  refine ⟨fun h => ?_, lead_panics⟩
  obtain ⟨c, z, size, body, rest, paw, hz, hls, -, hs, hbl, -, hd, hp⟩ := exfil_panic_ascii hA h
  exact lead_shape hz hls hs hbl hd hp

/-- Exactly which byte strings make the binary parser panic. -/
theorem bexfil_panic_iff {q : Bytes} : bexfil q = .panic ↔
    ∃ p ∈ zeroSizeLead, ∃ b, b64Decode p = .ok b ∧ b <+: q := by
  constructor
  · intro h
    unfold bexfil at h
    split at h
    · simp at h
    rename_i hq0
    have hq1 : 0 < q.length := List.length_pos_iff.mpr hq0
    rw [nabSextets_eq (by omega), Res.ok_bind] at h
    simp only [toBase, List.nil_append, List.head?_cons, Res.orPanic_some, Res.ok_bind] at h
    rw [Res.bind_eq_panic] at h
    rcases h with h | ⟨hs, hhs, h⟩
    · exact absurd h (bardage_ne_panic _)
    split at h
    · simp at h
    rename_i hlen1
    have hs' := bardage_cases hhs
    rw [codeB2ToB64_eq (by omega) (by omega) (by omega), Res.ok_bind, Res.bind_eq_panic] at h
    rcases h with h | ⟨z, hz, h⟩
    · exact absurd h (sizage_ne_panic _)
    change sizage (b64Text (sxs q hs)) = _ at hz
    obtain ⟨hr, hfv⟩ := sizage_row hz
    have hhs_eq : hs = z.hs := by
      have := hr.code_len
      rwa [b64Text_length, sxs_length] at this
    subst hhs_eq
    have hcs8 : z.hs + z.ss ≤ 8 ∧ 1 ≤ z.hs + z.ss := by
      rcases hfv with hf | hv
      · have := hf.ss_zero; omega
      · rcases hv.hs_cases with ⟨a, b⟩ | ⟨a, b⟩ <;> omega
    rcases hfv with hf | hv
    · exfalso
      rw [if_neg hf.fs_ne, Res.ok_bind] at h
      simp only at h
      have hb := hf.bits; have h0 := hf.ss_zero; have h1 := hf.raw_pos; have h2 := hf.fs_mod
      have h3 := hf.fs_gt; have h5 := hf.fs_pos
      split at h
      · simp at h
      rename_i hlen2
      rw [Bytes.sliceTo, if_pos (by omega), Res.ok_bind] at h
      have htlen : (q.take (((z.fs + 1) * 3) / 4)).length = ((z.fs + 1) * 3) / 4 := by
        rw [List.length_take, Nat.min_eq_left (by omega)]
      have hbcs : ((z.hs + z.ss + 1) * 3) / 4 + z.ls ≤ ((z.fs + 1) * 3) / 4 := by
        rw [h0]; omega
      rw [Res.bind_eq_panic] at h
      rcases h with h | ⟨_, -, h⟩
      · split at h
        · have hx : ((z.hs + z.ss + 1) * 3) / 4 - 1 < (q.take (((z.fs + 1) * 3) / 4)).length := by
            rw [htlen]; omega
          rw [List.getElem?_eq_getElem hx, Res.orPanic_some, Res.ok_bind] at h
          split at h <;> simp at h
        · split at h
          · split at h <;> simp at h
          · simp at h
      · rw [Bytes.sliceFrom, if_pos (by rw [htlen]; exact hbcs), Res.ok_bind] at h
        split at h <;> simp at h
    · have hcs0 : (z.hs + z.ss) % 4 = 0 := by rcases hv.hs_cases with ⟨a, b⟩ | ⟨a, b⟩ <;> omega
      rw [if_pos hv.fs_eq, if_neg (by omega)] at h
      by_cases hlen3 : q.length < ((z.hs + z.ss + 1) * 3) / 4
      · rw [if_pos hlen3] at h; simp at h
      rw [if_neg hlen3, codeB2ToB64_eq (by omega) (by omega) (by omega), Res.ok_bind] at h
      have hsl := slice_ascii (a := z.hs) (b := z.hs + z.ss) (isB64_text (sxs_sextets q (z.hs + z.ss))).ascii
        (by omega) (by simp [sxs_length])
      rw [List.take_of_length_le (by simp [sxs_length]), b64Text_drop] at hsl
      rw [sxs] at hsl
      rw [hsl, Res.ok_bind] at h
      change ((b64ToU32 (b64Text ((sxs q (z.hs + z.ss)).drop z.hs)) >>= _) >>= _) = _ at h
      have hsx : Sextets ((sxs q (z.hs + z.ss)).drop z.hs) := (sxs_sextets q _).drop _
      have hsl' : ((sxs q (z.hs + z.ss)).drop z.hs).length = z.ss := by
        rw [List.length_drop, sxs_length]; omega
      have hss : z.ss ≤ 4 := by rcases hv.hs_cases with ⟨a, b⟩ | ⟨a, b⟩ <;> omega
      have hlt := ofBase_lt 64 _ hsx
      rw [hsl'] at hlt
      rw [b64ToU32_text hsx (Nat.lt_of_lt_of_le hlt (Nat.le_trans
        (Nat.pow_le_pow_right (by decide) hss) (by decide))), Res.ok_bind, Res.ok_bind] at h
      simp only at h
      set size := ofBase 64 ((sxs q (z.hs + z.ss)).drop z.hs) with hsize
      set F := size * 4 + (z.hs + z.ss) with hF
      split at h
      · simp at h
      rename_i hlen2
      rw [Bytes.sliceTo, if_pos (by omega), Res.ok_bind] at h
      have htlen : (q.take (((F + 1) * 3) / 4)).length = ((F + 1) * 3) / 4 := by
        rw [List.length_take, Nat.min_eq_left (by omega)]
      rw [if_neg (by omega), Res.bind_eq_panic] at h
      rcases h with h | ⟨_, -, h⟩
      · split at h
        · split at h <;> simp at h
        · simp at h
      · by_cases hbcs : ((z.hs + z.ss + 1) * 3) / 4 + z.ls ≤ ((F + 1) * 3) / 4
        · rw [Bytes.sliceFrom, if_pos (by rw [htlen]; exact hbcs), Res.ok_bind] at h
          split at h <;> simp at h
        · have hls := hr.ls_le
          have hs0 : size = 0 := by
            rcases hv.hs_cases with ⟨a, b⟩ | ⟨a, b⟩ <;> (rw [a, b] at hF hbcs; omega)
          obtain ⟨t1, -, -, -⟩ := lead_table _ (sizage_mem hz) (by
            simp only; intro e; rw [hs0] at hF; rw [e, hF] at hbcs; omega)
          have hsoft : (sxs q (z.hs + z.ss)).drop z.hs = toBase 64 z.ss 0 := by
            have := toBase_ofBase _ hsx
            rwa [hsl', ← hsize, hs0, eq_comm] at this
          have hT : b64Text (sxs q z.hs) ++ b64Text (toBase 64 z.ss 0) = b64Text (sxs q (z.hs + z.ss)) := by
            rw [← hsoft, ← sxs_take (by omega : z.hs ≤ z.hs + z.ss) (by omega), ← b64Text_append,
              List.take_append_drop]
          refine ⟨_, t1 hv.fs_eq, q.take (((z.hs + z.ss + 1) * 3) / 4), ?_, List.take_prefix _ _⟩
          simp only
          rw [hT, b64Decode_text ((z.hs + z.ss) / 4) _ (sxs_sextets _ _) (by rw [sxs_length]; omega)]
          congr 1
          have hl : (q.take (((z.hs + z.ss + 1) * 3) / 4)).length = ((z.hs + z.ss + 1) * 3) / 4 := by
            rw [List.length_take]; omega
          have hlt' := beVal_lt (q.take (((z.hs + z.ss + 1) * 3) / 4))
          rw [hl, pow_ncs, hcs0, Nat.pow_zero, Nat.mul_one] at hlt'
          rw [sxs, hcs0, Nat.pow_zero, Nat.div_one, ofBase_toBase_of_lt hlt']
          exact beBytes_beVal' (by omega)
  · rintro ⟨p, hp, b, hd, rest, rfl⟩
    obtain ⟨⟨c, z⟩, hm, hls, hv, rfl⟩ := zero_table p hp
    simp only at hls hv hd
    have hz := (row_ok hm).2.2
    obtain ⟨hr, hfv⟩ := sizage_row hz
    have hv' := hfv.resolve_left (fun hf => hf.fs_ne hv)
    obtain ⟨f, ct, hcode, hf64, hbard⟩ := hr.bard
    -- reuse the layout lemmas with the (ill-formed) object of size zero and empty raw
    have hcs0 : (z.hs + z.ss) % 4 = 0 := by rcases hv'.hs_cases with ⟨a, b⟩ | ⟨a, b⟩ <;> omega
    have hcs8 : z.hs + z.ss ≤ 8 ∧ 1 ≤ z.hs + z.ss := by
      rcases hv'.hs_cases with ⟨a, b⟩ | ⟨a, b⟩ <;> omega
    have hhs := hr.hs_cases
    set D := idxs c ++ toBase 64 z.ss 0 with hD
    have hDs : Sextets D := Sextets.append.mpr ⟨idxs_sextets hr.code_b64, Sextets.toBase _ _⟩
    have hDl : D.length = z.hs + z.ss := by simp [hD, hr.code_len]
    have hDt : c ++ b64Text (toBase 64 z.ss 0) = b64Text D := by
      rw [hD, b64Text_append, text_idxs hr.code_b64]
    rw [hDt, b64Decode_text ((z.hs + z.ss) / 4) D hDs (by omega)] at hd
    have hb := (Res.ok.inj hd).symm
    have hbl : b.length = 3 * ((z.hs + z.ss) / 4) := by rw [hb]; simp
    have hn : ((z.hs + z.ss + 1) * 3) / 4 = 3 * ((z.hs + z.ss) / 4) := by omega
    have hfull : sxs (b ++ rest) (z.hs + z.ss) = D := by
      rw [sxs, hn, List.take_left' hbl, hcs0, Nat.pow_zero, Nat.div_one, hb, beVal_beBytes,
        Nat.mod_eq_of_lt, ← hDl, toBase_ofBase D hDs]
      rw [← pow_64_4]
      exact ofBase_sextets_lt hDs (by omega)
    have hpre : ∀ L, L ≤ z.hs + z.ss → sxs (b ++ rest) L = D.take L := by
      intro L hL
      rw [← hfull, sxs_take hL]
      rw [List.length_append]; omega
    have hql : (b ++ rest).length = 3 * ((z.hs + z.ss) / 4) + rest.length := by
      rw [List.length_append, hbl]
    unfold bexfil
    rw [if_neg (by intro e; rw [e] at hql; simp only [List.length_nil] at hql; omega),
      nabSextets_eq (by omega)]
    have h1 := hpre 1 (by omega)
    rw [sxs] at h1
    rw [h1]
    have : idxs c = f :: idxs ct := by
      rw [hcode]; simp [idxs, idxOf_chr hf64]
    rw [hD, this]
    simp only [List.cons_append, List.take_succ_cons, List.take_zero, Res.ok_bind, List.head?_cons,
      Res.orPanic_some, hbard]
    rw [if_neg (by omega), codeB2ToB64_eq (by omega) (by omega) (by omega)]
    have h2 := hpre z.hs (by omega)
    rw [sxs] at h2
    rw [h2, hD, List.take_left' (by simp [hr.code_len]), text_idxs hr.code_b64, Res.ok_bind, hz, Res.ok_bind]
    rw [if_pos hv, if_neg (by omega), if_neg (by omega), codeB2ToB64_eq (by omega) (by omega) (by omega)]
    have h3 := hpre (z.hs + z.ss) (by omega)
    rw [sxs] at h3
    rw [h3, List.take_of_length_le (by omega), hD, b64Text_append, text_idxs hr.code_b64, Res.ok_bind]
    have := slice_mid (t := []) hr.code_b64.ascii (isB64_text (Sextets.toBase z.ss 0)).ascii
        hr.code_len.symm (show z.hs + z.ss = _ by simp [hr.code_len])
    rw [List.append_nil] at this
    have hz0 : ofBase 64 (toBase 64 z.ss 0) = 0 := ofBase_toBase_of_lt (Nat.pow_pos (by decide))
    rw [this, Res.ok_bind, b64ToU32_text (Sextets.toBase _ _) (by rw [hz0]; decide), Res.ok_bind, hz0,
      Res.ok_bind]
    simp only [Nat.zero_mul, Nat.zero_add]
    rw [if_neg (by omega), Bytes.sliceTo, if_pos (by omega), Res.ok_bind, if_neg (by omega), if_neg]
    · rw [Res.ok_bind, Bytes.sliceFrom, if_neg]
      · rfl
      · rw [List.length_take]; omega
    · have : ((List.take (((z.hs + z.ss + 1) * 3) / 4) (b ++ rest)).take (((z.hs + z.ss + 1) * 3) / 4 + z.ls)).drop
          (((z.hs + z.ss + 1) * 3) / 4) = [] := by
        rw [List.drop_eq_nil_iff, List.length_take, List.length_take]; omega
      rw [this]; simp

end Keride.Matter
