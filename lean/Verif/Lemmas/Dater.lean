import Verif.Lemmas.Number
import Verif.Model.Dater
import Verif.Lemmas.Frame

namespace Keride

open Spec Matter

/-- Text made of a fixed code of four characters and Base64 material is the encoding of a well-formed
object. -/
theorem text_fixed4 {c body : Str} {n fs : Nat} (hc : (c, n) ∈ fixedCodes) (hz : sizage c = .ok ⟨4, 0, fs, 0⟩)
    (hB : IsB64 body) (hl : 4 + body.length = fs) (hfs : fs < u32Max) :
    ∃ z, Wf ⟨c, 0, beBytes n (ofBase 64 (idxs body))⟩ z ∧ z = ⟨4, 0, fs, 0⟩ ∧
      b64Text (sx ⟨c, 0, beBytes n (ofBase 64 (idxs body))⟩ z) = c ++ body := by
  obtain ⟨z, hw⟩ := Number.wf_fixed_mk hc (raw := beBytes n (ofBase 64 (idxs body))) (by simp)
  have hz' : z = ⟨4, 0, fs, 0⟩ := by
    have := hw.row
    rw [hz] at this
    exact (Res.ok.inj this).symm
  refine ⟨z, hw, hz', ?_⟩
  obtain ⟨hm, hle, h4, hbits⟩ := fsz_facts hw
  have hF : fsz ⟨c, 0, beBytes n (ofBase 64 (idxs body))⟩ z = fs := by
    rw [hz']; simp [fsz]; omega
  have hcode := (sizage_row hz).1.code_b64
  have hcl := (sizage_row hz).1.code_len
  rw [hF] at hbits
  subst hz'
  simp only [beBytes_length] at hbits
  have hlt : ofBase 64 (idxs body) < 256 ^ n := by
    have := ofBase_sextets_lt (idxs_sextets hB) (k := body.length) (by simp)
    refine Nat.lt_of_lt_of_le this ?_
    rw [show (64 : Nat) = 2 ^ 6 by decide, show (256 : Nat) = 2 ^ 8 by decide, ← Nat.pow_mul, ← Nat.pow_mul]
    exact Nat.pow_le_pow_right (by decide) (by omega)
  rw [sx, hF]
  simp only [toBase, beVal_beBytes, Nat.mod_eq_of_lt hlt, List.append_nil]
  rw [b64Text_append, text_idxs hcode, show fs - (4 + 0) = (idxs body).length by simp; omega,
    toBase_ofBase _ (idxs_sextets hB), text_idxs hB]

namespace Dater

/-- The characters a date-time text may use so that the substitution is reversible. -/
def DateChar (c : Char) : Prop :=
  (c ∈ b64Alphabet ∧ c ≠ 'c' ∧ c ≠ 'd' ∧ c ≠ 'p') ∨ c = ':' ∨ c = '.' ∨ c = '+'

theorem isoToB64_map (t : Str) : isoToB64 t = t.map fun c =>
    if c = ':' then 'c' else if c = '.' then 'd' else if c = '+' then 'p' else c := by
  simp only [isoToB64, replaceChar, List.map_map]
  apply List.map_congr_left
  intro c _
  simp only [Function.comp]
  by_cases h1 : c = ':'
  · subst h1; rfl
  by_cases h2 : c = '.'
  · subst h2; rfl
  simp [h1, h2]

theorem b64ToIso_map (t : Str) : b64ToIso t = t.map fun c =>
    if c = 'c' then ':' else if c = 'd' then '.' else if c = 'p' then '+' else c := by
  simp only [b64ToIso, replaceChar, List.map_map]
  apply List.map_congr_left
  intro c _
  simp only [Function.comp]
  by_cases h1 : c = 'c'
  · subst h1; rfl
  by_cases h2 : c = 'd'
  · subst h2; rfl
  simp [h1, h2]

theorem isoToB64_b64 {t : Str} (h : ∀ c ∈ t, DateChar c) : IsB64 (isoToB64 t) := by
  rw [isoToB64_map]
  intro c hc
  obtain ⟨d, hd, rfl⟩ := List.mem_map.mp hc
  rcases h d hd with ⟨hm, -⟩ | rfl | rfl | rfl
  · split
    · decide
    · split
      · decide
      · split
        · decide
        · exact hm
  all_goals decide

theorem b64ToIso_isoToB64 {t : Str} (h : ∀ c ∈ t, DateChar c) : b64ToIso (isoToB64 t) = t := by
  rw [isoToB64_map, b64ToIso_map, List.map_map]
  conv_rhs => rw [← List.map_id t]
  apply List.map_congr_left
  intro c hc
  simp only [Function.comp, id]
  rcases h c hc with ⟨hm, h1, h2, h3⟩ | rfl | rfl | rfl
  · have : c ≠ ':' ∧ c ≠ '.' ∧ c ≠ '+' := by
      refine ⟨?_, ?_, ?_⟩ <;> rintro rfl <;> revert hm <;> decide
    simp [this, h1, h2, h3]
  all_goals decide

theorem isoToB64_append (t u : Str) : isoToB64 (t ++ u) = isoToB64 t ++ isoToB64 u := by
  rw [isoToB64_map, isoToB64_map, isoToB64_map, List.map_append]

theorem isoToB64_length (t : Str) : (isoToB64 t).length = t.length := by
  rw [isoToB64_map, List.length_map]

theorem newWithDts_eq (t : Str) (code : Option Str) :
    newWithDts t code = exfil (str% "1AAG" ++ isoToB64 t) >>= fun m => validateCode m.code >>= fun _ => .ok m := by
  unfold newWithDts new
  dsimp only
  rw [if_pos (by simp)]
  rfl

theorem finish {x : Res M} {raw : Bytes} (h : x = .ok ⟨str% "1AAG", 0, raw⟩) :
    (x >>= fun m => validateCode m.code >>= fun _ => .ok m) = .ok ⟨str% "1AAG", 0, raw⟩ := by
  rw [h, Res.ok_bind]; rfl

theorem newWithQb64_eq (s : Str) :
    newWithQb64 s = Matter.newWithQb64 s >>= fun m => validateCode m.code >>= fun _ => .ok m := by
  unfold newWithQb64 new
  dsimp only
  rw [if_neg (by simp)]
  rfl

theorem newWithQb64b_eq (s : Bytes) :
    newWithQb64b s = Matter.newWithQb64b s >>= fun m => validateCode m.code >>= fun _ => .ok m := by
  unfold newWithQb64b new
  dsimp only
  rw [if_neg (by simp)]
  rfl

theorem newWithQb2_eq (s : Bytes) :
    newWithQb2 s = Matter.newWithQb2 s >>= fun m => validateCode m.code >>= fun _ => .ok m := by
  unfold newWithQb2 new
  dsimp only
  rw [if_neg (by simp)]
  rfl

end Dater

theorem reB64_iff {s : Str} : reB64 s = true ↔ IsB64 s := by
  have key : ∀ c : Char, reB64Char c = true ↔ c ∈ b64Alphabet := by
    have tab : ∀ n < 128, (reB64Char (Char.ofNat n) = true ↔ Char.ofNat n ∈ b64Alphabet) := by decide +kernel
    intro c
    by_cases hn : c.toNat < 128
    · have := tab c.toNat hn
      rwa [Char.ofNat_toNat] at this
    · have h1 : c ∉ b64Alphabet := by
        intro hm
        obtain ⟨i, hi, rfl⟩ := mem_alphabet hm
        have : ∀ i < 64, (b64Chr i).toNat < 128 := by decide +kernel
        exact hn (this i hi)
      constructor
      · intro h
        rw [reB64Char] at h
        simp only [Bool.or_eq_true, Bool.and_eq_true, decide_eq_true_eq, beq_iff_eq] at h
        rcases h with (((h | h) | h) | h) | h
        · omega
        · omega
        · omega
        · subst h; exact absurd (by decide) hn
        · subst h; exact absurd (by decide) hn
      · exact fun h => absurd h h1
  rw [reB64, List.all_eq_true]
  exact ⟨fun h c hc => (key c).mp (h c hc), fun h c hc => (key c).mpr (h c hc)⟩

namespace Bexter

/-- `rawify` of Base64 text. -/
theorem rawify_eq {t : Str} (h : IsB64 t) :
    rawify t = .ok (beBytes (3 * ((t.length + 3) / 4) - (3 - t.length % 4) % 3) (ofBase 64 (idxs t))) := by
  have hl : Str.len t = t.length := h.ascii.len
  rw [rawify, hl]
  have hb : List.replicate ((4 - t.length % 4) % 4) 'A' ++ t =
      b64Text (List.replicate ((4 - t.length % 4) % 4) 0 ++ idxs t) := by
    rw [b64Text_append, text_idxs h, ← text_zeros]
  rw [hb, b64Decode_text ((t.length + 3) / 4) _ (Sextets.append.mpr ⟨Sextets.replicate_zero _, idxs_sextets h⟩)
    (by simp; omega), Res.ok_bind, Bytes.sliceFrom, if_pos (by simp; omega)]
  rw [ofBase_append, ofBase_replicate_zero, Nat.zero_mul, Nat.zero_add]
  congr 1
  have e : 3 * ((t.length + 3) / 4) = (3 - t.length % 4) % 3 +
    (3 * ((t.length + 3) / 4) - (3 - t.length % 4) % 3) := by omega
  conv_lhs => rw [e]
  exact beBytes_drop _ _ _

theorem rawify_len (L : Nat) : (3 * ((L + 3) / 4) - (3 - L % 4) % 3) +
    (3 - (3 * ((L + 3) / 4) - (3 - L % 4) % 3) % 3) % 3 = 3 * ((L + 3) / 4) ∧
    quadlets (3 * ((L + 3) / 4) - (3 - L % 4) % 3) = (L + 3) / 4 := by
  rw [quadlets]; omega

theorem sizage_small : ∀ l ∈ [0, 1, 2], sizage (smallVrzDex.getD l '4' :: ['A']) = .ok ⟨2, 2, u32Max, l⟩ ∧
    sizage (largeVrzDex.getD l '7' :: ['A', 'A', 'A']) = .ok ⟨4, 4, u32Max, l⟩ ∧
    codex.contains (smallVrzDex.getD l '4' :: ['A']) = true ∧
    codex.contains (largeVrzDex.getD l '7' :: ['A', 'A', 'A']) = true := by decide +kernel

theorem newWithBext_eq (t : Str) : newWithBext t =
    (if reB64 t = false then .err .value else rawify t >>= fun raw => newWithCodeAndRaw (str% "4A") raw) >>= fun m =>
      validateCode m.code >>= fun _ => .ok m := by
  unfold newWithBext new
  rw [if_neg (by simp)]
  rfl

/-- What `new_with_bext` makes of Base64 text. -/
theorem newWithBext_ok {t : Str} (h : IsB64 t) (hl : (t.length + 3) / 4 < 64 ^ 4) :
    ∃ m z, newWithBext t = .ok m ∧ Wf m z ∧ z.ls = (3 - t.length % 4) % 3 ∧
      m.raw = beBytes (3 * ((t.length + 3) / 4) - (3 - t.length % 4) % 3) (ofBase 64 (idxs t)) ∧
      validateCode m.code = .ok () := by
  set raw := beBytes (3 * ((t.length + 3) / 4) - (3 - t.length % 4) % 3) (ofBase 64 (idxs t)) with hraw
  have hrl : raw.length = 3 * ((t.length + 3) / 4) - (3 - t.length % 4) % 3 := by rw [hraw]; simp
  obtain ⟨hq1, hq2⟩ := rawify_len t.length
  have h64 : (64 : Nat) ^ 4 = 16777216 := by decide
  have hnv := new_var (v := ⟨str% "4A", false, 0, 'A'⟩) (by decide) (raw := raw) (by omega)
  simp only [hrl, hq2] at hnv
  rw [if_pos hl] at hnv
  have hls : 3 * ((t.length + 3) / 4) - (3 * ((t.length + 3) / 4) - (3 - t.length % 4) % 3) =
      (3 - t.length % 4) % 3 := by omega
  rw [hls] at hnv
  have hmem : (3 - t.length % 4) % 3 ∈ [0, 1, 2] := by
    have : (3 - t.length % 4) % 3 = 0 ∨ (3 - t.length % 4) % 3 = 1 ∨ (3 - t.length % 4) % 3 = 2 := by omega
    simp only [List.mem_cons, List.not_mem_nil, or_false]; exact this
  obtain ⟨s1, s2, s3, s4⟩ := sizage_small _ hmem
  have hre : reB64 t ≠ false := by rw [reB64_iff.mpr h]; decide
  rw [newWithBext_eq, if_neg hre, rawify_eq h, Res.ok_bind, ← hraw, hnv, Res.ok_bind]
  have htable := fun m (hm : newWithCodeAndRaw (str% "4A") raw = .ok m) => new_table (by decide +kernel) hm
  by_cases h2 : (t.length + 3) / 4 < 64 ^ 2
  · rw [if_pos ⟨by trivial, h2⟩] at hnv ⊢
    obtain ⟨z, hw⟩ := htable _ hnv
    have hv : validateCode (smallVrzDex.getD ((3 - t.length % 4) % 3) '4' :: ['A']) = .ok () := by
      unfold validateCode; rw [if_pos s3]
    refine ⟨_, z, by rw [hv, Res.ok_bind], hw, ?_, rfl, hv⟩
    have := hw.row
    rw [s1] at this
    rw [← Res.ok.inj this]
  · rw [if_neg (fun h => h2 h.2)] at hnv ⊢
    obtain ⟨z, hw⟩ := htable _ hnv
    have hv : validateCode (largeVrzDex.getD ((3 - t.length % 4) % 3) '7' :: ['A', 'A', 'A']) = .ok () := by
      unfold validateCode; rw [if_pos s4]
    refine ⟨_, z, by rw [hv, Res.ok_bind], hw, ?_, rfl, hv⟩
    have := hw.row
    rw [s2] at this
    rw [← Res.ok.inj this]

/-- The text read back, before the leading characters are dropped. -/
theorem bext_eq {t : Str} (h : IsB64 t) {m : M} {z : Sizage} (hw : Wf m z)
    (hls : z.ls = (3 - t.length % 4) % 3)
    (hraw : m.raw = beBytes (3 * ((t.length + 3) / 4) - (3 - t.length % 4) % 3) (ofBase 64 (idxs t))) :
    bext m = Str.sliceFrom (List.replicate ((4 - t.length % 4) % 4) 'A' ++ t)
      (if z.ls = 0 then
        (if (List.replicate ((4 - t.length % 4) % 4) 'A' ++ t).head? = some 'A' then 1 else 0)
       else (z.ls + 1) % 4) := by
  have hlt : ofBase 64 (idxs t) < 64 ^ t.length := ofBase_sextets_lt (idxs_sextets h) (by simp)
  have henc : b64Encode (List.replicate z.ls 0 ++ m.raw) = List.replicate ((4 - t.length % 4) % 4) 'A' ++ t := by
    rw [b64Encode_eq ((t.length + 3) / 4) _ (by rw [hraw, hls]; simp; omega), beVal_lead, hraw, beVal_beBytes]
    have hlt2 : ofBase 64 (idxs t) < 256 ^ (3 * ((t.length + 3) / 4) - (3 - t.length % 4) % 3) := by
      refine Nat.lt_of_lt_of_le hlt ?_
      rw [show (64 : Nat) = 2 ^ 6 by decide, show (256 : Nat) = 2 ^ 8 by decide, ← Nat.pow_mul, ← Nat.pow_mul]
      exact Nat.pow_le_pow_right (by decide) (by omega)
    rw [Nat.mod_eq_of_lt hlt2]
    have e : 4 * ((t.length + 3) / 4) = (4 - t.length % 4) % 4 + (idxs t).length := by simp; omega
    rw [e]
    have := toBase_mul_add (b := 64) (by decide) ((4 - t.length % 4) % 4) (idxs t).length 0 (ofBase 64 (idxs t))
      (by simpa using hlt)
    rw [Nat.zero_mul, Nat.zero_add] at this
    rw [this, toBase_zero, toBase_ofBase _ (idxs_sextets h), b64Text_append, text_idxs h, ← text_zeros]
  rw [bext, hw.row, Res.ok_bind]
  simp only [henc]

end Bexter

end Keride
