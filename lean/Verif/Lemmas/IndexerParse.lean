/-
Lemmas about the Indexer model: binary parsing, inversion of the parsers, absence of panics.
-/
import Verif.Lemmas.Indexer

namespace Keride.Indexer

open Matter (idxs idxs_text text_idxs idxs_sextets slice_mid slice_ascii sxs sxs_sextets sxs_length sxs_take
  ncs_eq div_four_pow u32ToB64_soft text_len b64ToU32_soft soft_text b64ToU32_ok_soft b64ToU32_ne_panic
  split_unique bytes_sliceTo_ok bytes_sliceFrom_ok and_mask_eq_zero)
open Counter (lookup_mem idxs_length isErr_of)

theorem code_take {m : I} {z : Sizage} (h : sizage m.code = .ok z) : (codeSx m z).take z.hs = idxs m.code := by
  rw [codeSx, List.append_assoc, List.take_left' (by rw [idxs_length, (row_ok h).len])]

theorem bexfil_bytes (chk : Bool) {m : I} {z : Sizage} (h : Enc m z)
    (hcur : current m.code = true → z.os ≠ 0 → m.ondex = 0) (t : Bytes) :
    bexfil chk (beBytes (3 * (fsz m z / 4)) (ofBase 64 (sx m z)) ++ t) =
      .ok { m with ondex := seenOndex m z } := by
  have r := row_ok h.row
  have hf := h.frame
  have hdl := codeSx_length h.row
  have hds := codeSx_sextets h.row
  rw [hdl] at hf
  have hb := hf.bits; have hle := hf.le; have hmod := hf.mod
  have hms := r.ms1; have hhs := r.hs1; have hcs := r.cs; have hhs2 := r.hs2
  have hlt := pow3 h.idx r.ms3
  obtain ⟨bc, hbc⟩ : ∃ bc, bc = beBytes (((z.hs + z.ss + 1) * 3) / 4)
    (ofBase 64 (codeSx m z) * 4 ^ ((z.hs + z.ss) % 4)) := ⟨_, rfl⟩
  have hbcl : bc.length = ((z.hs + z.ss + 1) * 3) / 4 := by rw [hbc, beBytes_length]
  obtain ⟨q, hq⟩ : ∃ q, q = beBytes (3 * (fsz m z / 4)) (ofBase 64 (sx m z)) ++ t := ⟨_, rfl⟩
  have hq2 : q = bc ++ (m.raw ++ t) := by rw [hq, bytes_sx h, hbc, List.append_assoc]
  have hql : q.length = 3 * (fsz m z / 4) + t.length := by rw [hq, List.length_append, beBytes_length]
  have hx : ∀ L ≤ z.hs + z.ss, sxs q L = (codeSx m z).take L := by
    intro L hL
    have := frame_sxs hds (m.raw ++ t) (L := L) (by rw [hdl]; exact hL)
    rw [hdl, ← hbc, ← hq2] at this
    exact this
  have hcode := code_take h.row
  have e1 := hx 1 (by omega)
  have e2 := hx z.hs (by omega)
  have e3 := hx (z.hs + z.ss) (Nat.le_refl _)
  rw [hcode] at e2
  rw [List.take_of_length_le (l := codeSx m z) (by rw [hdl])] at e3
  have hbound : ((z.hs + z.ss + 1) * 3) / 4 ≤ q.length := by
    rw [hq2, List.length_append, hbcl]; omega
  have hhead : ((codeSx m z).take 1).head? = (idxs m.code).head? := by
    have hl1 : (idxs m.code).length = z.hs := by rw [idxs_length, r.len]
    rw [codeSx]
    cases hi : idxs m.code with
    | nil => rw [hi] at hl1; simp at hl1; omega
    | cons a b => rfl
  obtain ⟨i0, hi0, hbard⟩ : ∃ i0, (idxs m.code).head? = some i0 ∧ bardage i0 = .ok z.hs := by
    have hb0 := r.bard
    cases hi : (idxs m.code).head? with
    | none => rw [hi] at hb0; simp at hb0
    | some a => rw [hi] at hb0; exact ⟨a, rfl, by simpa using hb0⟩
  have hcA := r.b64.ascii
  have hiA : Ascii (b64Text (toBase 64 (z.ss - z.os) m.index)) := (isB64_text (Sextets.toBase _ _)).ascii
  have hoA : Ascii (b64Text (toBase 64 z.os m.ondex)) := (isB64_text (Sextets.toBase _ _)).ascii
  have g2 : Str.slice (b64Text (codeSx m z)) z.hs (z.hs + (z.ss - z.os)) =
      .ok (b64Text (toBase 64 (z.ss - z.os) m.index)) := by
    rw [code_text h.row]; exact slice_mid hcA hiA r.len.symm (by rw [r.len, b64Text_length, toBase_length])
  have g3 : Str.slice (b64Text (codeSx m z)) (z.hs + (z.ss - z.os)) (z.hs + ((z.ss - z.os) + z.os)) =
      .ok (b64Text (toBase 64 z.os m.ondex)) := by
    have := slice_mid (t := []) (Ascii.append.mpr ⟨hcA, hiA⟩) hoA (i := z.hs + (z.ss - z.os))
      (j := z.hs + ((z.ss - z.os) + z.os))
      (by rw [List.length_append, r.len, b64Text_length, toBase_length])
      (by rw [List.length_append, r.len, b64Text_length, toBase_length, b64Text_length, toBase_length]; omega)
    rw [code_text h.row, ← this, List.append_nil]
  rw [← hq]
  unfold bexfil
  rw [if_neg (by intro e; rw [e] at hql; simp at hql; omega), nabSextets_eq (by omega)]
  rw [sxs] at e1
  rw [e1, Res.ok_bind, hhead, hi0, Res.orPanic_some, Res.ok_bind, hbard, Res.ok_bind]
  simp only
  rw [if_neg (by omega), codeB2ToB64_eq (by omega) (by omega) (by omega)]
  rw [sxs] at e2 e3
  rw [e2, text_idxs r.b64, Res.ok_bind, h.row, Res.ok_bind, if_neg (by omega),
    codeB2ToB64_eq (by omega) (by omega) hbound, e3, Res.ok_bind, g2,
    Res.ok_bind, b64ToU32_text (Sextets.toBase _ _) (by rw [ofBase_toBase_of_lt h.idx]; omega), Res.ok_bind,
    ofBase_toBase_of_lt h.idx, g3, Res.ok_bind, readOndex_ok h hcur, Res.ok_bind, sizeOf_ok chk _ _ h.row h.idx,
    Res.ok_bind]
  change (if q.length < ((fsz m z + 1) * 3) / 4 then _ else
    (do let trim ← Bytes.sliceTo q (((fsz m z + 1) * 3) / 4); _)) = _
  have hbfs : ((fsz m z + 1) * 3) / 4 = 3 * (fsz m z / 4) := by omega
  have htake : q.take (3 * (fsz m z / 4)) = bc ++ m.raw := by
    rw [hq, List.take_left' (by rw [beBytes_length]), bytes_sx h, hbc]
  rw [hbfs, if_neg (by omega), Bytes.sliceTo, if_pos (by omega), Res.ok_bind, htake, h.ls0, Nat.add_zero]
  have htail : (do
      let raw ← Bytes.sliceFrom (bc ++ m.raw) (((z.hs + z.ss + 1) * 3) / 4)
      if raw.length ≠ (bc ++ m.raw).length - ((z.hs + z.ss + 1) * 3) / 4 - 0 then .err .conversion
      else .ok ({ code := m.code, raw := raw, index := m.index, ondex := seenOndex m z } : I)) =
      .ok { m with ondex := seenOndex m z } := by
    rw [Bytes.sliceFrom, if_pos (by rw [List.length_append, hbcl]; omega), Res.ok_bind,
      List.drop_left' hbcl, if_neg (by rw [List.length_append, hbcl]; simp)]
  by_cases hp : (z.hs + z.ss) % 4 = 0
  · rw [if_neg (by simp [hp])]
    have e0 : (List.drop (((z.hs + z.ss + 1) * 3) / 4) ((bc ++ m.raw).take (((z.hs + z.ss + 1) * 3) / 4 + 0))) = [] := by
      apply List.drop_eq_nil_of_le; rw [List.length_take]; omega
    rw [e0]
    simp only [List.any_nil, Bool.false_eq_true, if_false, Res.ok_bind]
    exact htail
  · rw [if_pos hp]
    have hn0 : 0 < ((z.hs + z.ss + 1) * 3) / 4 := by omega
    have hget : (bc ++ m.raw)[((z.hs + z.ss + 1) * 3) / 4 - 1]? = bc[((z.hs + z.ss + 1) * 3) / 4 - 1]? :=
      List.getElem?_append_left (by omega)
    have hlt2 : ((z.hs + z.ss + 1) * 3) / 4 - 1 < bc.length := by omega
    rw [hget, List.getElem?_eq_getElem hlt2, Res.orPanic_some, Res.ok_bind, if_pos hp]
    have hmask : (bc[((z.hs + z.ss + 1) * 3) / 4 - 1]).toNat &&& (2 ^ (2 * ((z.hs + z.ss) % 4)) - 1) = 0 := by
      rw [and_mask_eq_zero, Nat.pow_mul]
      have hm := Matter.beVal_mod_last (bs := bc) (n := ((z.hs + z.ss + 1) * 3) / 4 - 1)
        (k := (z.hs + z.ss) % 4) (List.getElem?_eq_getElem hlt2) (by omega) (by
          have : (z.hs + z.ss) % 4 = 0 ∨ (z.hs + z.ss) % 4 = 1 ∨ (z.hs + z.ss) % 4 = 2 ∨ (z.hs + z.ss) % 4 = 3 := by
            omega
          rcases this with e | e | e | e <;> rw [e] <;> decide)
      have hc := frame_code_lt hds
      rw [hdl] at hc
      change _ % 4 ^ _ = 0
      rw [← hm, hbc, beVal_beBytes, Nat.mod_eq_of_lt hc, Nat.mul_mod_left]
    rw [hmask, if_neg (by simp), Res.ok_bind]
    exact htail

/-- What a successful parse found: the code, index and ondex characters and the body. -/
structure Seen (m : I) (z : Sizage) (o : Nat) : Prop where
  row : sizage m.code = .ok z
  idx : m.index < 64 ^ (z.ss - z.os)
  odx : o < 64 ^ z.os
  cur : current m.code = true → z.os ≠ 0 → o = 0
  ondex : m.ondex = if current m.code then 0 else if z.os = 0 then m.index else o

theorem Seen.toBase_odx {m : I} {z : Sizage} {o : Nat} (h : Seen m z o) :
    toBase 64 z.os o = toBase 64 z.os m.ondex := by
  rcases Nat.eq_zero_or_pos z.os with e | e
  · rw [e]; rfl
  · rw [h.ondex]
    split
    · rename_i hc; rw [h.cur hc (by omega)]
    · rw [if_neg (by omega)]

theorem Seen.ondex_lt {m : I} {z : Sizage} {o : Nat} (h : Seen m z o) (h0 : 0 < z.os) : m.ondex < 64 ^ z.os := by
  rw [h.ondex]
  split
  · exact Nat.pow_pos (by decide)
  · rw [if_neg (by omega)]; exact h.odx

theorem Seen.seenOndex {m : I} {z : Sizage} {o : Nat} (h : Seen m z o) : seenOndex m z = m.ondex := by
  unfold Indexer.seenOndex
  have := h.ondex
  split
  · rename_i hc; rw [if_pos hc] at this; exact this.symm
  · rename_i hc
    rw [if_neg hc] at this
    split
    · rename_i hz; rw [if_pos hz] at this; exact this.symm
    · rfl

theorem Seen.hcur {m : I} {z : Sizage} {o : Nat} (h : Seen m z o) :
    current m.code = true → z.os ≠ 0 → m.ondex = 0 := by
  intro hc _
  rw [h.ondex, if_pos hc]

theorem slice_ok {s t : Str} {a b : Nat} (h : Str.slice s a b = .ok t) :
    a ≤ b ∧ ∃ p r, s = p ++ t ++ r ∧ Str.len p = a ∧ Str.len t = b - a := by
  rw [Str.slice] at h
  split at h
  · cases h
  obtain ⟨u, hu, h6⟩ := Res.bind_eq_ok.mp h
  obtain ⟨v, hv, hvl⟩ := sliceTo_ok hu
  obtain ⟨w, hw, hwl⟩ := sliceFrom_ok h6
  refine ⟨by omega, w, v, by rw [hv, hw], hwl, ?_⟩
  rw [hw, Str.len_append] at hvl
  omega

theorem readOndex_ok_inv {z : Sizage} {hard : Str} {o index r : Nat} (hr : readOndex z hard (b64Text (toBase 64 z.os o)) index = .ok r)
    (ho : o < 64 ^ z.os) (hos : z.os ≤ 3) :
    (current hard = true → z.os ≠ 0 → o = 0) ∧ r = if current hard then 0 else if z.os = 0 then index else o := by
  have hlt := pow3 ho hos
  have e : b64ToU32 (b64Text (toBase 64 z.os o)) = .ok o := by
    rw [b64ToU32_text (Sextets.toBase _ _) (by rw [ofBase_toBase_of_lt ho]; omega), ofBase_toBase_of_lt ho]
  unfold readOndex at hr
  rw [e] at hr
  split at hr
  · rename_i hc
    rw [if_pos hc]
    split at hr
    · rename_i hz
      rw [Res.ok_bind] at hr
      split at hr
      · cases hr
      · rename_i h0
        exact ⟨fun _ _ => not_not.mp h0, (Res.ok.inj hr).symm⟩
    · rename_i hz
      exact ⟨fun _ h => absurd h hz, (Res.ok.inj hr).symm⟩
  · rename_i hc
    rw [if_neg hc]
    refine ⟨fun h => absurd h hc, ?_⟩
    split at hr
    · rename_i hz; rw [if_neg hz]; exact (Res.ok.inj hr).symm
    · rename_i hz; rw [if_pos (not_not.mp hz)]; exact (Res.ok.inj hr).symm

/-- A Base64 text of at most three characters is the text of its value. -/
theorem b64ToU32_inv {s : Str} {n k : Nat} (h : b64ToU32 s = .ok n) (hl : Str.len s = k) (hk : k ≤ 3) :
    n < 64 ^ k ∧ s = b64Text (toBase 64 k n) := by
  have hB : IsB64 s := b64ToUAux_ok h
  rw [hB.ascii.len] at hl
  subst hl
  obtain ⟨h1, h2⟩ := b64ToU32_soft hB (by omega) h
  exact ⟨h1, by rw [h2, text_idxs hB]⟩

theorem readOndex_text {z : Sizage} {hard odx : Str} {index r : Nat} (hr : readOndex z hard odx index = .ok r)
    (hl : Str.len odx = z.os) (hos : z.os ≤ 3) :
    ∃ o < 64 ^ z.os, odx = b64Text (toBase 64 z.os o) := by
  rcases Nat.eq_zero_or_pos z.os with e | e
  · refine ⟨0, Nat.pow_pos (by decide), ?_⟩
    rw [e] at hl ⊢
    cases odx with
    | nil => rfl
    | cons c cs => have := c.utf8Size_pos; rw [Str.len] at hl; omega
  · have : ∃ o, b64ToU32 odx = .ok o := by
      unfold readOndex at hr
      split at hr
      · rw [if_pos (by omega)] at hr
        obtain ⟨o, ho, -⟩ := Res.bind_eq_ok.mp hr
        exact ⟨o, ho⟩
      · rw [if_pos (by omega)] at hr
        exact ⟨r, hr⟩
    obtain ⟨o, ho⟩ := this
    exact ⟨o, b64ToU32_inv ho hl hos⟩

/-- Inversion of `exfil`. -/
structure Parsed (s : Str) (m : I) where
  z : Sizage
  o : Nat
  body : Str
  rest : Str
  paw : Bytes
  seen : Seen m z o
  split : s = b64Text (codeSx m z) ++ body ++ rest
  len_body : Str.len body = fsz m z - (z.hs + z.ss)
  pre : (z.hs + z.ss) % 4 ≠ 0 → b64Decode (List.replicate ((z.hs + z.ss) % 4) 'A' ++ body) = .ok paw ∧
    (z.hs + z.ss) % 4 ≤ paw.length ∧
    beVal (paw.take ((z.hs + z.ss) % 4)) % 4 ^ ((z.hs + z.ss) % 4) = 0 ∧
    m.raw = paw.drop ((z.hs + z.ss) % 4)
  lead : (z.hs + z.ss) % 4 = 0 → b64Decode body = .ok paw ∧ m.raw = paw

theorem fsz_le {m : I} {z : Sizage} (h : sizage m.code = .ok z) : z.hs + z.ss ≤ fsz m z := by
  unfold fsz
  split
  · omega
  · rename_i e; have := (row_ok h).fixed e; omega

theorem exfil_ok {chk : Bool} {s : Str} {m : I} (h : exfil chk s = .ok m) : Nonempty (Parsed s m) := by
  cases s with
  | nil => cases h
  | cons first s0 =>
  unfold exfil at h
  simp only at h
  obtain ⟨q, hq⟩ : ∃ q, q = first :: s0 := ⟨_, rfl⟩
  rw [← hq] at h ⊢
  obtain ⟨hs, h1, h⟩ := Res.bind_eq_ok.mp h
  split at h
  · cases h
  obtain ⟨hard, h2, h⟩ := Res.bind_eq_ok.mp h
  obtain ⟨z, hz, h⟩ := Res.bind_eq_ok.mp h
  split at h
  · cases h
  obtain ⟨idx, h3, h⟩ := Res.bind_eq_ok.mp h
  obtain ⟨index, h4, h⟩ := Res.bind_eq_ok.mp h
  obtain ⟨odx, h5, h⟩ := Res.bind_eq_ok.mp h
  obtain ⟨ondex, h6, h⟩ := Res.bind_eq_ok.mp h
  obtain ⟨fs, h7, h⟩ := Res.bind_eq_ok.mp h
  split at h
  · cases h
  obtain ⟨trim, h8, h⟩ := Res.bind_eq_ok.mp h
  obtain ⟨body, h9, h⟩ := Res.bind_eq_ok.mp h
  obtain ⟨raw, h10, hfin⟩ := Res.bind_eq_ok.mp h
  have r := row_ok hz
  have hms := r.ms1
  obtain ⟨t2, ht2, hl2⟩ := sliceTo_ok h2
  have hhs : hs = z.hs := by rw [← hl2, r.b64.ascii.len, r.len]
  subst hhs
  obtain ⟨-, p3, r3, e3, hp3, hl3⟩ := slice_ok h3
  obtain ⟨-, p5, r5, e5, hp5, hl5⟩ := slice_ok h5
  obtain ⟨hi, hidx⟩ := b64ToU32_inv h4 (k := z.ss - z.os) (by omega) r.ms3
  obtain ⟨o, ho, hodx⟩ := readOndex_text h6 (by omega) r.os3
  rw [hodx] at h6
  obtain ⟨hcur, hond⟩ := readOndex_ok_inv h6 ho r.os3
  rw [sizeOf_ok chk _ _ hz hi] at h7
  have hfs := (Res.ok.inj h7).symm
  have hm := (Res.ok.inj hfin).symm
  obtain ⟨t8, e8, hl8⟩ := sliceTo_ok h8
  obtain ⟨p9, e9, hp9⟩ := sliceFrom_ok h9
  have hp3h : p3 = hard := by
    rw [ht2, List.append_assoc] at e3
    exact (split_unique e3.symm (by rw [hp3, hl2])).1
  have hp5h : p5 = hard ++ idx := by
    rw [e3, hp3h, List.append_assoc p5] at e5
    exact (split_unique e5.symm (by rw [hp5, Str.len_append, hl3, hl2]; omega)).1
  subst hm
  have hseen : Seen ⟨hard, raw, index, ondex⟩ z o := ⟨hz, hi, ho, hcur, hond⟩
  have hcode : b64Text (codeSx ⟨hard, raw, index, ondex⟩ z) = hard ++ idx ++ odx := by
    rw [code_text hz, ← hseen.toBase_odx, ← hidx, ← hodx]
  have hp9h : p9 = hard ++ idx ++ odx := by
    rw [e9, e5, hp5h, List.append_assoc p9] at e8
    refine (split_unique e8.symm ?_).1
    rw [hp9, Str.len_append, Str.len_append, hl2, hl3, hl5]; omega
  have hcs := r.cs
  have hmain : ∃ paw : Bytes, ((z.hs + z.ss) % 4 ≠ 0 →
      b64Decode (List.replicate ((z.hs + z.ss) % 4) 'A' ++ body) = .ok paw ∧
    (z.hs + z.ss) % 4 ≤ paw.length ∧
    beVal (paw.take ((z.hs + z.ss) % 4)) % 4 ^ ((z.hs + z.ss) % 4) = 0 ∧
    raw = paw.drop ((z.hs + z.ss) % 4)) ∧ ((z.hs + z.ss) % 4 = 0 → b64Decode body = .ok paw ∧ raw = paw) := by
    split at h10
    · rename_i hp
      obtain ⟨paw, g1, h10⟩ := Res.bind_eq_ok.mp h10
      obtain ⟨pre, g2, h10⟩ := Res.bind_eq_ok.mp h10
      split at h10
      · cases h10
      rename_i hmask
      obtain ⟨g3, rfl⟩ := bytes_sliceTo_ok g2
      obtain ⟨g4, rfl⟩ := bytes_sliceFrom_ok h10
      refine ⟨paw, fun _ => ⟨g1, g3, ?_, rfl⟩, fun h0 => absurd h0 hp⟩
      rw [not_not, and_mask_eq_zero, Nat.pow_mul] at hmask
      exact hmask
    · rename_i hp
      rw [not_not] at hp
      obtain ⟨paw, g1, h10⟩ := Res.bind_eq_ok.mp h10
      obtain ⟨pre, g2, h10⟩ := Res.bind_eq_ok.mp h10
      split at h10
      · split at h10 <;> cases h10
      obtain ⟨g4, rfl⟩ := bytes_sliceFrom_ok h10
      refine ⟨paw, fun h0 => absurd hp h0, fun _ => ⟨g1, by rw [hp, List.drop_zero]⟩⟩
  obtain ⟨paw, hpre, hlead⟩ := hmain
  have hF : fsz ⟨hard, raw, index, ondex⟩ z = fs := by rw [hfs, fsz]
  refine ⟨⟨z, o, body, t8, paw, hseen, ?_, ?_, hpre, hlead⟩⟩
  · rw [hcode, ← hp9h, ← e9, ← e8]
  · rw [hF]
    rw [e9, Str.len_append, hp9] at hl8
    omega

/-- Without `=` and lead bytes an accepted text starts with the encoding of the result. -/
theorem exfil_canonical {s : Str} {m : I} (p : Parsed s m) (hne : '=' ∉ p.body) (hls : p.z.ls = 0) :
    Enc m p.z ∧ s = b64Text (sx m p.z) ++ p.rest := by
  have hz := p.seen.row
  have r := row_ok hz
  have hcs := r.cs
  have hle := fsz_le hz
  have hmod : fsz m p.z % 4 = 0 := by
    unfold fsz
    split
    · rename_i e; have := r.var e; omega
    · rename_i e; exact (r.fixed e).1
  have key : Frame (p.z.hs + p.z.ss) (fsz m p.z) m.raw ∧
      p.body = b64Text (toBase 64 (fsz m p.z - (p.z.hs + p.z.ss)) (beVal m.raw)) := by
    by_cases hp : (p.z.hs + p.z.ss) % 4 = 0
    · obtain ⟨h1, h2⟩ := p.lead hp
      have := frame_decode_inv (cs := p.z.hs + p.z.ss) (paw := p.paw) p.len_body hmod hle hne
        (by rw [hp, List.replicate_zero, List.nil_append]; exact h1) (by omega)
        (by rw [hp]; simp [beVal_nil])
      rw [hp, List.drop_zero, ← h2] at this
      exact this
    · obtain ⟨h1, h2, h3, h4⟩ := p.pre hp
      have := frame_decode_inv (cs := p.z.hs + p.z.ss) (paw := p.paw) p.len_body hmod hle hne h1 h2 h3
      rw [← h4] at this
      exact this
  have henc : Enc m p.z := ⟨hz, hls, p.seen.idx, p.seen.ondex_lt, by
    have := key.1.bits; omega⟩
  refine ⟨henc, ?_⟩
  rw [sx_text henc, ← key.2]
  exact p.split

/-- Inversion of `bexfil`, for codes without lead bytes. -/
theorem bexfil_ok {chk : Bool} {q : Bytes} {m : I} (h : bexfil chk q = .ok m) :
    ∃ z o, Seen m z o ∧ codeSx m z = sxs q (z.hs + z.ss) ∧ 3 * (fsz m z / 4) ≤ q.length ∧ (z.ls = 0 → Enc m z ∧
      ∃ rest, q = beBytes (3 * (fsz m z / 4)) (ofBase 64 (sx m z)) ++ rest) := by
  unfold bexfil at h
  split at h
  · cases h
  obtain ⟨sx0, h0, h⟩ := Res.bind_eq_ok.mp h
  obtain ⟨first, h0', h⟩ := Res.bind_eq_ok.mp h
  obtain ⟨hs, h1, h⟩ := Res.bind_eq_ok.mp h
  dsimp only at h
  split at h
  · cases h
  obtain ⟨hard, h2, h⟩ := Res.bind_eq_ok.mp h
  obtain ⟨z, hz, h⟩ := Res.bind_eq_ok.mp h
  split at h
  · cases h
  obtain ⟨both, hb, h⟩ := Res.bind_eq_ok.mp h
  obtain ⟨idx, h3, h⟩ := Res.bind_eq_ok.mp h
  obtain ⟨index, h4, h⟩ := Res.bind_eq_ok.mp h
  obtain ⟨odx, h5, h⟩ := Res.bind_eq_ok.mp h
  obtain ⟨ondex, h6, h⟩ := Res.bind_eq_ok.mp h
  obtain ⟨fs, h7, h⟩ := Res.bind_eq_ok.mp h
  split at h
  · cases h
  obtain ⟨trim, h8, h⟩ := Res.bind_eq_ok.mp h
  obtain ⟨u, h9, h⟩ := Res.bind_eq_ok.mp h
  obtain ⟨raw, h10, hfin⟩ := Res.bind_eq_ok.mp h
  split at hfin
  · cases hfin
  rename_i hl1 hl2 hl3 hl4
  have r := row_ok hz
  have hms := r.ms1; have hcs := r.cs; have hhs1 := r.hs1; have hhs2 := r.hs2
  have hhsle : 1 ≤ hs ∧ hs ≤ 2 := by
    unfold bardage at h1
    split at h1
    · cases h1; omega
    split at h1
    · cases h1; omega
    split at h1
    · cases h1
    split at h1 <;> cases h1
  rw [codeB2ToB64_eq (by omega) (by omega) (by omega)] at h2
  have hh : hard = b64Text (sxs q hs) := (Res.ok.inj h2).symm
  have hhs : hs = z.hs := by rw [← r.len, hh, b64Text_length, sxs_length]
  subst hhs
  rw [codeB2ToB64_eq (by omega) (by omega) (by omega)] at hb
  have hbo : both = b64Text (sxs q (z.hs + z.ss)) := (Res.ok.inj hb).symm
  have htk : (sxs q (z.hs + z.ss)).take z.hs = sxs q z.hs := sxs_take (by omega) (by omega)
  obtain ⟨-, p3, r3, e3, hp3, hl3'⟩ := slice_ok h3
  obtain ⟨-, p5, r5, e5, hp5, hl5⟩ := slice_ok h5
  obtain ⟨hi, hidx⟩ := b64ToU32_inv h4 (k := z.ss - z.os) (by omega) r.ms3
  obtain ⟨o, ho, hodx⟩ := readOndex_text h6 (by omega) r.os3
  rw [hodx] at h6
  obtain ⟨hcur, hond⟩ := readOndex_ok_inv h6 ho r.os3
  rw [sizeOf_ok chk _ _ hz hi] at h7
  have hfs := (Res.ok.inj h7).symm
  have hm := (Res.ok.inj hfin).symm
  have hard_len : Str.len hard = z.hs := by rw [r.b64.ascii.len, r.len]
  have e2 : both = hard ++ b64Text ((sxs q (z.hs + z.ss)).drop z.hs) := by
    rw [hbo, hh, ← htk, ← b64Text_append, List.take_append_drop]
  have hp3h : p3 = hard := by
    rw [e2, List.append_assoc] at e3
    exact (split_unique e3.symm (by rw [hp3, hard_len])).1
  have hp5h : p5 = hard ++ idx := by
    rw [e3, hp3h, List.append_assoc p5] at e5
    exact (split_unique e5.symm (by rw [hp5, Str.len_append, hl3', hard_len]; omega)).1
  subst hm
  have hseen : Seen ⟨hard, raw, index, ondex⟩ z o := ⟨hz, hi, ho, hcur, hond⟩
  have hcode : b64Text (codeSx ⟨hard, raw, index, ondex⟩ z) = hard ++ idx ++ odx := by
    rw [code_text hz, ← hseen.toBase_odx, ← hidx, ← hodx]
  have hr5 : both = b64Text (codeSx ⟨hard, raw, index, ondex⟩ z) := by
    have hlen := congrArg Str.len e5
    rw [Str.len_append, Str.len_append, hp5, hl5, hbo, text_len (sxs_sextets _ _), sxs_length] at hlen
    have : r5 = [] := by
      cases r5 with
      | nil => rfl
      | cons c cs => have := c.utf8Size_pos; rw [Str.len] at hlen; omega
    rw [hcode, e5, hp5h, this, List.append_nil]
  have hsx : codeSx ⟨hard, raw, index, ondex⟩ z = sxs q (z.hs + z.ss) := by
    rw [hbo] at hr5
    exact (b64Text_inj (sxs_sextets _ _) (codeSx_sextets hz) hr5).symm
  have hF : fs = fsz ⟨hard, raw, index, ondex⟩ z := by rw [hfs, fsz]
  refine ⟨z, o, hseen, hsx, by rw [← hF]; omega, fun hls => ?_⟩
  have hle := fsz_le (m := ⟨hard, raw, index, ondex⟩) hz
  have hmod : fsz ⟨hard, raw, index, ondex⟩ z % 4 = 0 := by
    unfold fsz
    split
    · rename_i e; have := r.var e; omega
    · rename_i e; exact (r.fixed e).1
  rw [← hF] at hle hmod
  obtain ⟨htl, rfl⟩ := bytes_sliceTo_ok h8
  obtain ⟨hrl, hraw⟩ := bytes_sliceFrom_ok h10
  rw [hls, Nat.add_zero] at hraw hrl
  have hrawlen : raw.length = 3 * (fs / 4) - ((z.hs + z.ss + 1) * 3) / 4 := by
    rw [hraw, List.length_drop, List.length_take]; omega
  have hfr : fs % 4 = 0 := hmod
  have hbits : 8 * raw.length + 2 * ((z.hs + z.ss) % 4) = 6 * (fs - (z.hs + z.ss)) := by
    rw [hrawlen]; omega
  have henc : Enc ⟨hard, raw, index, ondex⟩ z := ⟨hz, hls, hi, hseen.ondex_lt, by
    rw [← hF]; change raw.length = _; omega⟩
  refine ⟨henc, q.drop (3 * (fs / 4)), ?_⟩
  have hlow : beVal (q.take (((z.hs + z.ss + 1) * 3) / 4)) % 4 ^ ((z.hs + z.ss) % 4) = 0 := by
    by_cases hp : (z.hs + z.ss) % 4 = 0
    · rw [hp, Nat.pow_zero, Nat.mod_one]
    · rw [if_pos hp] at h9
      obtain ⟨b, hb9, h9⟩ := Res.bind_eq_ok.mp h9
      rw [if_pos hp] at h9
      split at h9
      · cases h9
      rename_i hmask
      rw [not_not] at hmask
      have hb9' : q[((z.hs + z.ss + 1) * 3) / 4 - 1]? = some b := by
        have : ((fs + 1) * 3) / 4 > ((z.hs + z.ss + 1) * 3) / 4 - 1 := by omega
        cases hg : (q.take (((fs + 1) * 3) / 4))[((z.hs + z.ss + 1) * 3) / 4 - 1]? with
        | none => rw [hg] at hb9; cases hb9
        | some x =>
          rw [hg] at hb9
          rw [List.getElem?_take, if_pos this] at hg
          rw [hg, Res.ok.inj hb9]
      exact frame_low_bits rfl (by omega) (by omega) hb9' hmask
  have hci := frame_code_inv (q := q) (cs := z.hs + z.ss) (by omega) hlow
  rw [bytes_sx henc, hsx, hci]
  change q = q.take _ ++ raw ++ _
  have e4 : ((fs + 1) * 3) / 4 = 3 * (fs / 4) := by omega
  rw [hraw, e4]
  have e5 : q.take (((z.hs + z.ss + 1) * 3) / 4) = (q.take (3 * (fs / 4))).take (((z.hs + z.ss + 1) * 3) / 4) := by
    rw [List.take_take, Nat.min_eq_left (by omega)]
  rw [e5, List.take_append_drop, List.take_append_drop]

end Keride.Indexer
