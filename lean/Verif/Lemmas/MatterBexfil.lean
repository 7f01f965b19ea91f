import Verif.Lemmas.MatterExfil

namespace Keride.Matter

/-- The first `L` sextets of a byte string. -/
def sxs (q : Bytes) (L : Nat) : List Nat :=
  toBase 64 L (beVal (q.take (((L + 1) * 3) / 4)) / 4 ^ (L % 4))

theorem sxs_sextets (q : Bytes) (L : Nat) : Sextets (sxs q L) := Sextets.toBase _ _

theorem sxs_length (q : Bytes) (L : Nat) : (sxs q L).length = L := by simp [sxs]

theorem pow_shift {a b : Nat} (h : a ≤ b) :
    256 ^ (((b + 1) * 3) / 4 - ((a + 1) * 3) / 4) * 4 ^ (a % 4) = 4 ^ (b % 4) * 64 ^ (b - a) := by
  have e1 : 256 ^ (((b + 1) * 3) / 4 - ((a + 1) * 3) / 4) * 4 ^ (a % 4) =
      2 ^ (8 * (((b + 1) * 3) / 4 - ((a + 1) * 3) / 4) + 2 * (a % 4)) := by
    rw [Nat.pow_add, Nat.pow_mul, Nat.pow_mul]
  have e2 : 4 ^ (b % 4) * 64 ^ (b - a) = 2 ^ (2 * (b % 4) + 6 * (b - a)) := by
    rw [Nat.pow_add, Nat.pow_mul, Nat.pow_mul]
  rw [e1, e2]; congr 1
  rw [ncs_eq, ncs_eq]; omega

theorem sxs_take {q : Bytes} {a b : Nat} (h : a ≤ b) (hq : ((b + 1) * 3) / 4 ≤ q.length) :
    (sxs q b).take a = sxs q a := by
  have hn : ((a + 1) * 3) / 4 ≤ ((b + 1) * 3) / 4 := by omega
  have e : q.take (((a + 1) * 3) / 4) = (q.take (((b + 1) * 3) / 4)).take (((a + 1) * 3) / 4) := by
    rw [List.take_take, Nat.min_eq_left hn]
  have hb : b = a + (b - a) := by omega
  have hl : (q.take (((b + 1) * 3) / 4)).length = ((b + 1) * 3) / 4 := by
    rw [List.length_take, Nat.min_eq_left hq]
  rw [sxs, sxs, e]
  generalize q.take (((b + 1) * 3) / 4) = w at hl
  rw [beVal_take w, Nat.div_div_eq_div_mul, hl]
  conv_lhs => rw [hb, toBase_take]
  rw [← hb, Nat.div_div_eq_div_mul, pow_shift h]

theorem beVal_mod_last {bs : Bytes} {n k : Nat} {b : UInt8} (hn : bs[n]? = some b) (hl : bs.length = n + 1)
    (hk : 4 ^ k ∣ 256) : beVal bs % 4 ^ k = b.toNat % 4 ^ k := by
  obtain ⟨c, hc⟩ := hk
  have : bs = bs.take n ++ [b] := by
    have h1 := List.take_append_drop n bs
    rw [List.drop_eq_getElem_cons (by omega : n < bs.length)] at h1
    rw [List.getElem?_eq_getElem (by omega)] at hn
    simp only [Option.some.injEq] at hn
    rw [hn, List.drop_of_length_le (by omega)] at h1
    exact h1.symm
  rw [this, beVal_append]
  simp only [List.length_singleton, Nat.pow_one]
  have e : beVal [b] = b.toNat := by simp [beVal, ofBase]
  rw [e, hc, Nat.mul_left_comm, Nat.mul_add_mod]

theorem slice_split {s t : Str} {a b : Nat} (hs : Ascii s) (hl : s.length = b) (ha : a ≤ b)
    (h : Str.slice s a b = .ok t) : t = s.drop a := by
  rw [Str.slice, if_neg (by omega), sliceTo_ascii hs (by omega), Res.ok_bind,
    sliceFrom_ascii (fun c hc => hs c (List.mem_of_mem_take hc)) (by simp; omega)] at h
  rw [← Res.ok.inj h, List.take_of_length_le (by omega)]

/-- A successful binary parse gives a well-formed object, and the bytes read are its encoding. -/
theorem bexfil_ok {q : Bytes} {m : M} (h : bexfil q = .ok m) :
    ∃ z rest, Wf m z ∧ q = beBytes (3 * (fsz m z / 4)) (ofBase 64 (sx m z)) ++ rest := by
  unfold bexfil at h
  split at h
  · simp at h
  rename_i hq0
  have hq1 : 0 < q.length := List.length_pos_iff.mpr hq0
  rw [nabSextets_eq (by omega), Res.ok_bind] at h
  rw [show toBase 64 1 = fun n => toBase 64 1 n from rfl] at h
  simp only [toBase, List.nil_append, List.head?_cons, Res.orPanic_some, Res.ok_bind] at h
  rw [Res.bind_eq_ok] at h
  obtain ⟨hs, hhs, h⟩ := h
  split at h
  · simp at h
  rename_i hlen1
  have hs' := bardage_cases hhs
  rw [codeB2ToB64_eq (by omega) (by omega) (by omega), Res.ok_bind, Res.bind_eq_ok] at h
  obtain ⟨z, hz, h⟩ := h
  rw [Res.bind_eq_ok] at h
  obtain ⟨⟨F, size⟩, hF, h⟩ := h
  simp only at h
  split at h
  · simp at h
  rename_i hlen2
  rw [Res.bind_eq_ok] at h
  obtain ⟨trim, htrim, h⟩ := h
  rw [Res.bind_eq_ok] at h
  obtain ⟨_, hchk, h⟩ := h
  rw [Res.bind_eq_ok] at h
  obtain ⟨raw, hraw, h⟩ := h
  split at h
  · simp at h
  simp only [Res.ok.injEq] at h
  subst h
  change sizage (b64Text (sxs q hs)) = _ at hz
  obtain ⟨hr, hfv⟩ := sizage_row hz
  have hhs_eq : hs = z.hs := by
    have := hr.code_len
    rwa [b64Text_length, sxs_length] at this
  subst hhs_eq
  set cs := z.hs + z.ss with hcs
  have hcs8 : cs ≤ 8 ∧ 1 ≤ cs := by
    rcases hfv with hf | hv
    · have := hf.ss_zero; omega
    · rcases hv.hs_cases with ⟨a, b⟩ | ⟨a, b⟩ <;> omega
  obtain ⟨htl, rfl⟩ := bytes_sliceTo_ok htrim
  obtain ⟨hrl, rfl⟩ := bytes_sliceFrom_ok hraw
  have htlen : (q.take (((F + 1) * 3) / 4)).length = ((F + 1) * 3) / 4 := by
    rw [List.length_take, Nat.min_eq_left htl]
  rw [htlen] at hrl
  set m : M := { code := b64Text (sxs q z.hs), size := size,
                 raw := (q.take (((F + 1) * 3) / 4)).drop (((cs + 1) * 3) / 4 + z.ls) } with hm
  have hrawl : m.raw.length = ((F + 1) * 3) / 4 - (((cs + 1) * 3) / 4 + z.ls) := by
    rw [hm]; simp only [List.length_drop, htlen]
  -- the code sextets
  have hD : Wf m z ∧ fsz m z = F ∧ idxs m.code ++ toBase 64 z.ss m.size = sxs q cs := by
    rcases hfv with hf | hv
    · rw [if_neg hf.fs_ne] at hF
      simp only [Res.ok.injEq, Prod.mk.injEq] at hF
      obtain ⟨rfl, rfl⟩ := hF
      have hb := hf.bits; have h0 := hf.ss_zero; have h1 := hf.raw_pos; have h2 := hf.fs_mod
      have h3 := hf.fs_gt; have h5 := hf.fs_pos
      have hcs' : cs = z.hs := by omega
      refine ⟨⟨hz, fun _ => ⟨rfl, ?_⟩, fun e => absurd e hf.fs_ne⟩, by simp [fsz, hf.fs_ne], ?_⟩
      · rw [hrawl, hcs']; rw [hcs'] at hrl; omega
      · rw [h0, hcs']
        simp only [toBase, List.append_nil, hm]
        exact idxs_text (sxs_sextets _ _)
    · rw [if_pos hv.fs_eq] at hF
      have hcs0 : cs % 4 = 0 := by rcases hv.hs_cases with ⟨a, b⟩ | ⟨a, b⟩ <;> omega
      rw [if_neg (by omega)] at hF
      split at hF
      · simp at hF
      rename_i hlen3
      rw [codeB2ToB64_eq (by omega) (by omega) (by omega), Res.ok_bind] at hF
      change (do
        let soft ← (b64Text (sxs q cs)).slice z.hs cs
        let size ← b64ToU32 soft
        Res.ok (size * 4 + cs, size)) = Res.ok (F, size) at hF
      rw [Res.bind_eq_ok] at hF
      obtain ⟨soft, hsoft, hF⟩ := hF
      have hsoft' := slice_split (isB64_text (sxs_sextets q cs)).ascii (by simp [sxs_length]) (by omega) hsoft
      rw [b64Text_drop] at hsoft'
      subst hsoft'
      have hsx : Sextets ((sxs q cs).drop z.hs) := (sxs_sextets q cs).drop _
      have hsl : ((sxs q cs).drop z.hs).length = z.ss := by
        rw [List.length_drop, sxs_length]; omega
      have hss : z.ss ≤ 4 := by rcases hv.hs_cases with ⟨a, b⟩ | ⟨a, b⟩ <;> omega
      have hlt := ofBase_lt 64 _ hsx
      rw [hsl] at hlt
      rw [b64ToU32_text hsx (Nat.lt_of_lt_of_le hlt (Nat.le_trans
        (Nat.pow_le_pow_right (by decide) hss) (by decide))), Res.ok_bind] at hF
      simp only [Res.ok.injEq, Prod.mk.injEq] at hF
      obtain ⟨hF1, hF2⟩ := hF
      rw [hF2] at hF1 hlt
      refine ⟨⟨hz, fun e => absurd hv.fs_eq e, fun _ => ⟨?_, hlt⟩⟩, ?_, ?_⟩
      · rw [hrawl]
        have : m.size = size := rfl
        omega
      · simp only [fsz, hv.fs_eq, hm]; simp; omega
      · have : m.size = size := rfl
        rw [this, ← hF2, ← hsl, toBase_ofBase _ hsx, hm]
        simp only
        rw [idxs_text (sxs_sextets _ _), ← sxs_take (by omega : z.hs ≤ cs) (by omega)]
        exact List.take_append_drop _ _
  obtain ⟨hwf, hFe, hD⟩ := hD
  refine ⟨z, q.drop (((F + 1) * 3) / 4), hwf, ?_⟩
  obtain ⟨hF4, -, -, hbits⟩ := fsz_facts hwf
  change q = beBytes (3 * (fsz m z / 4)) (ofBase 64 (sx m z)) ++ _
  rw [bytes_sx hwf]
  have hlow : beVal (q.take (((cs + 1) * 3) / 4)) % 4 ^ (cs % 4) = 0 := by
    by_cases hps : cs % 4 = 0
    · rw [hps]; exact Nat.mod_one _
    · rw [if_pos hps, Res.bind_eq_ok] at hchk
      obtain ⟨b, hb, hchk⟩ := hchk
      rw [if_pos hps] at hchk
      split at hchk
      · simp at hchk
      rename_i hmask
      simp only [ne_eq, not_not, Nat.and_two_pow_sub_one_eq_mod] at hmask
      rw [Nat.pow_mul] at hmask
      have hb' : (q.take (((cs + 1) * 3) / 4))[((cs + 1) * 3) / 4 - 1]? = some b := by
        cases hx : (q.take (((F + 1) * 3) / 4))[((cs + 1) * 3) / 4 - 1]? with
        | none => rw [hx] at hb; simp at hb
        | some c =>
          rw [hx] at hb
          simp only [Res.orPanic_some, Res.ok.injEq] at hb
          subst hb
          rw [List.getElem?_take, if_pos (by omega)] at hx
          rw [List.getElem?_take, if_pos (by omega), hx]
      rw [beVal_mod_last hb' (by rw [List.length_take]; omega)]
      · exact hmask
      · have : cs % 4 = 1 ∨ cs % 4 = 2 ∨ cs % 4 = 3 := by omega
        rcases this with e | e | e <;> rw [e] <;> decide
  have hbc : bcode m z = q.take (((cs + 1) * 3) / 4) := by
    have hl : (q.take (((cs + 1) * 3) / 4)).length = ((cs + 1) * 3) / 4 := by
      rw [List.length_take]; omega
    have hlt := beVal_lt (q.take (((cs + 1) * 3) / 4))
    rw [hl, pow_ncs] at hlt
    rw [bcode, hD, ← hcs, sxs, ofBase_toBase_of_lt, Nat.div_mul_cancel (Nat.dvd_of_mod_eq_zero hlow)]
    · exact beBytes_beVal' hl
    · rwa [Nat.div_lt_iff_lt_mul (Nat.pow_pos (by decide))]
  have hlead : List.replicate z.ls 0 = ((q.take (((F + 1) * 3) / 4)).take (((cs + 1) * 3) / 4 + z.ls)).drop
      (((cs + 1) * 3) / 4) := by
    have hl : (((q.take (((F + 1) * 3) / 4)).take (((cs + 1) * 3) / 4 + z.ls)).drop
      (((cs + 1) * 3) / 4)).length = z.ls := by
      simp only [List.length_drop, List.length_take]; omega
    by_cases hls : z.ls = 0
    · rw [hls] at hl ⊢
      exact (List.length_eq_zero_iff.mp hl).symm
    · have hps := hr.ls_cs hls
      rw [← hcs] at hps
      rw [if_neg (by omega)] at hchk
      split at hchk
      · split at hchk <;> simp at hchk
      rename_i hany
      symm
      rw [List.eq_replicate_iff]
      refine ⟨hl, fun b hb => ?_⟩
      simp only [List.any_eq_true, not_exists, not_and, decide_eq_true_eq, ne_eq, not_not] at hany
      exact hany b hb
  rw [hbc, hlead]
  have e1 : q.take (((cs + 1) * 3) / 4) = ((q.take (((F + 1) * 3) / 4)).take
      (((cs + 1) * 3) / 4 + z.ls)).take (((cs + 1) * 3) / 4) := by
    rw [List.take_take, List.take_take]; congr 1; omega
  rw [e1, List.take_append_drop, hm]
  simp only
  rw [List.take_append_drop, List.take_append_drop]

end Keride.Matter
