import Verif.Lemmas.MatterInv

namespace Keride.Matter

theorem and_mask_eq_zero {n k : Nat} : n &&& (2 ^ k - 1) = 0 ↔ n % 2 ^ k = 0 := by
  rw [Nat.and_two_pow_sub_one_eq_mod]

/-- Everything a successful text parse tells about its input. -/
structure Parsed (s : Str) (m : M) where
  z : Sizage
  soft : Str
  body : Str
  rest : Str
  F : Nat
  paw : Bytes
  row : sizage m.code = .ok z
  split : s = m.code ++ soft ++ body ++ rest
  len_body : Str.len body = F - (z.hs + z.ss)
  cs_le_F : z.hs + z.ss ≤ F
  fixed : z.fs ≠ u32Max → soft = [] ∧ m.size = 0 ∧ F = z.fs
  var : z.fs = u32Max → IsB64 soft ∧ soft.length = z.ss ∧ b64ToU32 soft = .ok m.size ∧
    F = m.size * 4 + (z.hs + z.ss)
  pre : (z.hs + z.ss) % 4 ≠ 0 → b64Decode (List.replicate ((z.hs + z.ss) % 4) 'A' ++ body) = .ok paw ∧
    (z.hs + z.ss) % 4 ≤ paw.length ∧
    beVal (paw.take ((z.hs + z.ss) % 4)) % 4 ^ ((z.hs + z.ss) % 4) = 0 ∧
    m.raw = paw.drop ((z.hs + z.ss) % 4)
  lead : (z.hs + z.ss) % 4 = 0 → b64Decode body = .ok paw ∧ z.ls ≤ paw.length ∧
    beVal (paw.take z.ls) = 0 ∧ m.raw = paw.drop z.ls

theorem bytes_sliceTo_ok {b r : Bytes} {n : Nat} (h : Bytes.sliceTo b n = .ok r) :
    n ≤ b.length ∧ r = b.take n := by
  rw [Bytes.sliceTo] at h
  split at h
  · rename_i hn; exact ⟨hn, (Res.ok.inj h).symm⟩
  · simp at h

theorem bytes_sliceFrom_ok {b r : Bytes} {n : Nat} (h : Bytes.sliceFrom b n = .ok r) :
    n ≤ b.length ∧ r = b.drop n := by
  rw [Bytes.sliceFrom] at h
  split at h
  · rename_i hn; exact ⟨hn, (Res.ok.inj h).symm⟩
  · simp at h

/-- A string has at most one split at a given byte offset. -/
theorem split_unique {a b c d : Str} (h : a ++ b = c ++ d) (hl : Str.len a = Str.len c) : a = c ∧ b = d := by
  have h1 := sliceTo_len a b
  have h2 := sliceTo_len c d
  rw [h, hl, h2] at h1
  have := Res.ok.inj h1
  subst this
  exact ⟨rfl, List.append_cancel_left h⟩

theorem prefix_of_len_le {a b c d : Str} (h : a ++ b = c ++ d) (hl : Str.len a ≤ Str.len c) :
    ∃ e, c = a ++ e := by
  induction a generalizing c with
  | nil => exact ⟨c, rfl⟩
  | cons x a ih =>
    cases c with
    | nil =>
      have := x.utf8Size_pos
      simp only [Str.len] at hl; omega
    | cons y c =>
      simp only [List.cons_append, List.cons.injEq] at h
      obtain ⟨rfl, h⟩ := h
      simp only [Str.len] at hl
      obtain ⟨e, rfl⟩ := ih h (by omega)
      exact ⟨e, rfl⟩

theorem exfil_ok {s : Str} {m : M} (h : exfil s = .ok m) : Nonempty (Parsed s m) := by
  unfold exfil at h
  split at h
  · simp at h
  · rename_i first tl
    rw [Res.bind_eq_ok] at h
    obtain ⟨hs, hhs, h⟩ := h
    split at h
    · simp at h
    rename_i hlen1
    rw [Res.bind_eq_ok] at h
    obtain ⟨hard, hhard, h⟩ := h
    rw [Res.bind_eq_ok] at h
    obtain ⟨z, hz, h⟩ := h
    simp only at h
    rw [Res.bind_eq_ok] at h
    obtain ⟨⟨F, size⟩, hF, h⟩ := h
    simp only at h
    split at h
    · simp at h
    rename_i hlen2
    rw [Res.bind_eq_ok] at h
    obtain ⟨trim, htrim, h⟩ := h
    rw [Res.bind_eq_ok] at h
    obtain ⟨body, hbody, h⟩ := h
    rw [Res.bind_eq_ok] at h
    obtain ⟨raw, hraw, h⟩ := h
    simp only [Res.ok.injEq] at h
    subst h
    obtain ⟨hr, hfv⟩ := sizage_row hz
    obtain ⟨u, hu, hul⟩ := sliceTo_ok hhard
    obtain ⟨rest, hrest, htl⟩ := sliceTo_ok htrim
    obtain ⟨pre, rfl, hpl⟩ := sliceFrom_ok hbody
    have hA := hr.code_b64.ascii
    have hhard_len : Str.len hard = z.hs := by rw [hA.len, hr.code_len]
    rw [Str.len_append] at htl
    obtain ⟨soft, rfl⟩ : ∃ soft, pre = hard ++ soft := by
      apply prefix_of_len_le (b := u) (d := body ++ rest)
      · rw [← List.append_assoc, ← hrest, hu]
      · omega
    have htl' : Str.len hard + Str.len soft + Str.len body = F := by
      rw [← htl, Str.len_append]
    rw [Str.len_append] at hpl
    have hraw' : ∃ paw, ((z.hs + z.ss) % 4 ≠ 0 →
        b64Decode (List.replicate ((z.hs + z.ss) % 4) 'A' ++ body) = .ok paw ∧
        (z.hs + z.ss) % 4 ≤ paw.length ∧
        beVal (paw.take ((z.hs + z.ss) % 4)) % 4 ^ ((z.hs + z.ss) % 4) = 0 ∧
        raw = paw.drop ((z.hs + z.ss) % 4)) ∧
        ((z.hs + z.ss) % 4 = 0 → b64Decode body = .ok paw ∧ z.ls ≤ paw.length ∧
          beVal (paw.take z.ls) = 0 ∧ raw = paw.drop z.ls) := by
      split at hraw
      · rename_i hps
        simp only [Res.bind_eq_ok] at hraw
        obtain ⟨paw, hpaw, p, hp, hraw⟩ := hraw
        split at hraw
        · simp at hraw
        · rename_i hpi
          obtain ⟨h1, rfl⟩ := bytes_sliceTo_ok hp
          obtain ⟨h2, rfl⟩ := bytes_sliceFrom_ok hraw
          refine ⟨paw, fun _ => ⟨hpaw, h1, ?_, rfl⟩, fun h => absurd h hps⟩
          simp only [ne_eq, not_not] at hpi
          rw [and_mask_eq_zero, Nat.pow_mul] at hpi
          exact hpi
      · rename_i hps
        simp only [Res.bind_eq_ok] at hraw
        obtain ⟨paw, hpaw, p, hp, hraw⟩ := hraw
        split at hraw
        · split at hraw <;> simp at hraw
        · rename_i hpi
          obtain ⟨h1, rfl⟩ := bytes_sliceTo_ok hp
          obtain ⟨h2, rfl⟩ := bytes_sliceFrom_ok hraw
          exact ⟨paw, fun h => absurd h hps, fun _ => ⟨hpaw, h1, by simpa using hpi, rfl⟩⟩
    obtain ⟨paw, hp1, hp2⟩ := hraw'
    refine ⟨⟨z, soft, body, rest, F, paw, hz, ?_, by omega, by omega, ?_, ?_, hp1, hp2⟩⟩
    · simpa using hrest
    · intro hne
      rw [if_neg hne] at hF
      simp only [Res.ok.injEq, Prod.mk.injEq] at hF
      have hf := hfv.resolve_right (fun hv => hne hv.fs_eq)
      have : Str.len soft = 0 := by rw [hf.ss_zero] at hpl; omega
      refine ⟨?_, hF.2.symm, hF.1.symm⟩
      have := length_le_len soft
      exact List.length_eq_zero_iff.mp (by omega)
    · intro heq
      rw [if_pos heq] at hF
      split at hF
      · simp at hF
      split at hF
      · simp at hF
      simp only [Res.bind_eq_ok] at hF
      obtain ⟨soft', hsoft', sz, hsz, hF⟩ := hF
      simp only [Res.ok.injEq, Prod.mk.injEq] at hF
      obtain ⟨rfl, rfl⟩ := hF
      have hB : IsB64 soft' := b64ToUAux_ok hsz
      have hss : soft' = soft := by
        rw [Str.slice, if_neg (by omega), Res.bind_eq_ok] at hsoft'
        obtain ⟨t1, ht1, hsoft'⟩ := hsoft'
        obtain ⟨v, hv, hvl⟩ := sliceTo_ok ht1
        obtain ⟨w, rfl, hwl⟩ := sliceFrom_ok hsoft'
        rw [hrest, List.append_assoc, List.append_assoc, List.append_assoc] at hv
        obtain ⟨h1, h2⟩ := split_unique hv (by omega)
        rw [Str.len_append] at hvl
        obtain ⟨h3, -⟩ := split_unique h2 (by omega)
        exact h3.symm
      subst hss
      refine ⟨hB, ?_, hsz, rfl⟩
      rw [← hB.ascii.len]; omega

theorem b64ToU32_soft {soft : Str} {n : Nat} (hB : IsB64 soft) (hl : soft.length ≤ 4)
    (h : b64ToU32 soft = .ok n) : n < 64 ^ soft.length ∧ toBase 64 soft.length n = idxs soft := by
  obtain ⟨ds, hds, rfl⟩ := isB64_iff.mp hB
  rw [b64Text_length] at hl ⊢
  have hlt := ofBase_lt 64 ds hds
  rw [b64ToU32_text hds (Nat.lt_of_lt_of_le hlt (Nat.le_trans (Nat.pow_le_pow_right (by decide) hl)
    (by decide)))] at h
  obtain rfl := Res.ok.inj h
  refine ⟨hlt, ?_⟩
  rw [idxs_text hds, toBase_ofBase ds hds]

theorem beVal_drop_zero {b : Bytes} {k : Nat} (h : beVal (b.take k) = 0) : beVal (b.drop k) = beVal b := by
  have : beVal b = beVal (b.take k) * 256 ^ (b.drop k).length + beVal (b.drop k) := by
    conv_lhs => rw [← List.take_append_drop k b]
    rw [beVal_append]
  rw [h] at this; omega

/-- A parse of text whose body has no `=` gives a well-formed object, and the text read is its
encoding. -/
theorem exfil_canonical {s : Str} {m : M} (p : Parsed s m) (hne : '=' ∉ p.body) :
    Wf m p.z ∧ s = b64Text (sx m p.z) ++ p.rest := by
  obtain ⟨hr, hfv⟩ := sizage_row p.row
  set cs := p.z.hs + p.z.ss with hcs
  have hcs8 : cs ≤ 8 := by
    rcases hfv with hf | hv
    · have := hr.hs_cases; have := hf.ss_zero; omega
    · have := hv.hs_cases; omega
  -- the body is alphabet text, so its characters are its bytes
  have hbodyB : IsB64 p.body := by
    by_cases hps : cs % 4 = 0
    · obtain ⟨k, ds, hds, hb, -, -⟩ := b64Decode_ok_noeq (p.lead hps).1 hne
      rw [hb]; exact isB64_text hds
    · obtain ⟨k, ds, hds, hb, -, -⟩ := b64Decode_ok_noeq (p.pre hps).1 (by
        simp only [List.mem_append, not_or]
        exact ⟨fun h => by simp [List.mem_replicate] at h, hne⟩)
      have := isB64_text hds
      rw [← hb] at this
      exact (IsB64.append.mp this).2
  obtain ⟨bs, hbs, hbtext⟩ := isB64_iff.mp hbodyB
  have hbl : bs.length = p.F - cs := by
    have := p.len_body
    rw [hbodyB.ascii.len, hbtext, b64Text_length] at this
    exact this
  -- raw length and value
  have key : 8 * (p.z.ls + m.raw.length) + 2 * (cs % 4) = 6 * (p.F - cs) ∧ beVal m.raw = ofBase 64 bs := by
    by_cases hps : cs % 4 = 0
    · obtain ⟨hd, hl, hz, hraw⟩ := p.lead hps
      have hmod := (b64Decode_ok hd).1
      rw [hbtext, b64Text_length] at hmod
      rw [hbtext, b64Decode_text (bs.length / 4) bs hbs (by omega)] at hd
      have hpaw := (Res.ok.inj hd).symm
      have hpl : p.paw.length = 3 * (bs.length / 4) := by rw [hpaw]; simp
      constructor
      · rw [hraw, List.length_drop]; omega
      · rw [hraw, beVal_drop_zero hz, hpaw, beVal_beBytes, Nat.mod_eq_of_lt]
        rw [← pow_64_4]
        exact ofBase_sextets_lt hbs (by omega)
    · obtain ⟨hd, hl, hz, hraw⟩ := p.pre hps
      have hls : p.z.ls = 0 := by by_contra hls; exact hps (hr.ls_cs hls)
      have hA : List.replicate (cs % 4) 'A' = b64Text (List.replicate (cs % 4) 0) := by
        simp [b64Text, show b64Chr 0 = 'A' by decide]
      have hsx : Sextets (List.replicate (cs % 4) 0 ++ bs) :=
        Sextets.append.mpr ⟨Sextets.replicate_zero _, hbs⟩
      have hmod := (b64Decode_ok hd).1
      rw [hbtext, hA, ← b64Text_append, b64Text_length] at hmod
      rw [hbtext, hA, ← b64Text_append, b64Decode_text
        ((List.replicate (cs % 4) 0 ++ bs).length / 4) _ hsx (by omega)] at hd
      have hpaw := (Res.ok.inj hd).symm
      have hpl : p.paw.length = 3 * ((cs % 4 + bs.length) / 4) := by
        rw [hpaw]; simp
      simp only [List.length_append, List.length_replicate] at hmod hpaw
      rw [ofBase_append, ofBase_replicate_zero, Nat.zero_mul, Nat.zero_add] at hpaw
      -- the pre-pad bytes vanish
      have hpv : beVal p.paw = ofBase 64 bs := by
        rw [hpaw, beVal_beBytes, Nat.mod_eq_of_lt]
        rw [← pow_64_4]
        exact ofBase_sextets_lt hbs (by omega)
      have hbsv : ofBase 64 bs < 64 ^ bs.length := ofBase_lt _ _ hbs
      have hlow : beVal (p.paw.take (cs % 4)) = 0 := by
        rw [beVal_take, hpv] at hz ⊢
        have hbound : ofBase 64 bs / 256 ^ (p.paw.length - cs % 4) < 4 ^ (cs % 4) := by
          rw [Nat.div_lt_iff_lt_mul (Nat.pow_pos (by decide))]
          refine Nat.lt_of_lt_of_eq hbsv ?_
          have e1 : 64 ^ bs.length = 2 ^ (6 * bs.length) := by rw [Nat.pow_mul]
          have e2 : 4 ^ (cs % 4) * 256 ^ (p.paw.length - cs % 4) =
              2 ^ (2 * (cs % 4) + 8 * (p.paw.length - cs % 4)) := by
            rw [Nat.pow_add, Nat.pow_mul, Nat.pow_mul]
          rw [e1, e2]; congr 1; omega
        rwa [Nat.mod_eq_of_lt hbound] at hz
      constructor
      · rw [hraw, List.length_drop, hls]; omega
      · rw [hraw, beVal_drop_zero hlow, hpv]
  have hwf : Wf m p.z := by
    refine ⟨p.row, fun hne => ?_, fun heq => ?_⟩
    · obtain ⟨-, hsz, hF⟩ := p.fixed hne
      have hf := hfv.resolve_right (fun hv => hne hv.fs_eq)
      refine ⟨hsz, ?_⟩
      have hb := hf.bits; have h0 := hf.ss_zero; have := hf.raw_pos
      rw [hcs, h0, Nat.add_zero, hF] at key
      omega
    · obtain ⟨hB, hl, hsz, hF⟩ := p.var heq
      have hv := hfv.resolve_left (fun hf => hf.fs_ne heq)
      have hcs0 : cs % 4 = 0 := by rcases hv.hs_cases with ⟨a, b⟩ | ⟨a, b⟩ <;> omega
      have hss : p.z.ss ≤ 4 := by rcases hv.hs_cases with ⟨a, b⟩ | ⟨a, b⟩ <;> omega
      refine ⟨by omega, ?_⟩
      rw [← hl]
      exact (b64ToU32_soft hB (by omega) hsz).1
  refine ⟨hwf, ?_⟩
  have hF : fsz m p.z = p.F := by
    by_cases hne : p.z.fs = u32Max
    · rw [(p.var hne).2.2.2]; simp [fsz, hne]; omega
    · rw [(p.fixed hne).2.2]; simp [fsz, hne]
  have hsoft : b64Text (toBase 64 p.z.ss m.size) = p.soft := by
    by_cases hne : p.z.fs = u32Max
    · obtain ⟨hB, hl, hsz, -⟩ := p.var hne
      have hv := hfv.resolve_left (fun hf => hf.fs_ne hne)
      have hss : p.z.ss ≤ 4 := by rcases hv.hs_cases with ⟨a, b⟩ | ⟨a, b⟩ <;> omega
      have := (b64ToU32_soft hB (by omega) hsz).2
      rw [hl] at this
      rw [this, text_idxs hB]
    · obtain ⟨h1, h2, -⟩ := p.fixed hne
      have hf := hfv.resolve_right (fun hv => hne hv.fs_eq)
      rw [hf.ss_zero, h1]; rfl
  rw [sx, hF, ← hcs, key.2, ← hbl, toBase_ofBase bs hbs, b64Text_append, b64Text_append,
    text_idxs hr.code_b64, hsoft, ← hbtext]
  exact p.split

end Keride.Matter
