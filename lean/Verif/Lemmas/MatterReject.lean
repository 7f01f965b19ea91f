import Verif.Lemmas.MatterBexfil

namespace Keride.Matter

/-! ### Truncation -/

theorem isB64_sx {m : M} {z : Sizage} (h : Wf m z) : IsB64 (b64Text (sx m z)) := isB64_text (sx_sextets h)

theorem isErr_bind {α β : Type u} {x : Res α} {f : α → Res β} (h : ∀ a, x = .ok a → (f a).isErr = true)
    (hp : x ≠ .panic) : (x >>= f).isErr = true := by
  cases x with
  | ok a => exact h a rfl
  | err e => rfl
  | panic => exact absurd rfl hp

theorem exfil_truncated {m : M} {z : Sizage} (h : Wf m z) {k : Nat} (hk : k < fsz m z) :
    (exfil ((b64Text (sx m z)).take k)).isErr = true := by
  obtain ⟨hm, hle, h4, -⟩ := fsz_facts h
  obtain ⟨hr, hfv⟩ := sizage_row h.row
  obtain ⟨f, ct, hcode, hhard⟩ := hr.hard
  have hT : (b64Text (sx m z)).length = fsz m z := by rw [b64Text_length, sx_length h]
  have hsx : b64Text (sx m z) = m.code ++ (b64Text (toBase 64 z.ss m.size) ++
      b64Text (toBase 64 (fsz m z - (z.hs + z.ss)) (beVal m.raw))) := by
    rw [sx, b64Text_append, b64Text_append, text_idxs hr.code_b64, List.append_assoc]
  set T := b64Text (sx m z) with hTdef
  have hTA : Ascii (T.take k) := ((isB64_sx h).take k).ascii
  have hlen : (T.take k).length = k := by rw [List.length_take, hT]; omega
  have hslen : Str.len (T.take k) = k := by rw [hTA.len, hlen]
  by_cases hk0 : k = 0
  · subst hk0; rfl
  have hhead : ∃ tl, T.take k = f :: tl := by
    rw [hsx, hcode, List.cons_append]
    obtain ⟨j, rfl⟩ : ∃ j, k = j + 1 := ⟨k - 1, by omega⟩
    exact ⟨_, rfl⟩
  obtain ⟨tl, htl⟩ := hhead
  unfold exfil
  split
  · rfl
  rename_i first tl' heq
  rw [htl] at heq
  obtain ⟨rfl, rfl⟩ := List.cons.inj heq
  rw [hhard, Res.ok_bind, hslen]
  split
  · rfl
  rename_i h1
  have hcodeT : (T.take k).take z.hs = m.code := by
    rw [List.take_take, Nat.min_eq_left (by omega), hsx, List.take_left' hr.code_len]
  rw [sliceTo_ascii hTA (by omega), Res.ok_bind, hcodeT, h.row, Res.ok_bind]
  simp only
  rcases hfv with hf | hv
  · rw [if_neg hf.fs_ne, Res.ok_bind]
    simp only
    have : fsz m z = z.fs := by simp [fsz, hf.fs_ne]
    rw [if_pos (by omega)]; rfl
  · rw [if_pos hv.fs_eq]
    have hcs0 : (z.hs + z.ss) % 4 = 0 := by rcases hv.hs_cases with ⟨a, b⟩ | ⟨a, b⟩ <;> omega
    have hss : 0 < z.ss ∧ z.ss ≤ 4 := by rcases hv.hs_cases with ⟨a, b⟩ | ⟨a, b⟩ <;> omega
    rw [if_neg (by omega)]
    by_cases h2 : k < z.hs + z.ss
    · rw [if_pos h2]; rfl
    · rw [if_neg h2]
      obtain ⟨-, hsz⟩ := h.var hv.fs_eq
      have hv1 : ofBase 64 (toBase 64 z.ss m.size) = m.size := ofBase_toBase_of_lt hsz
      have hsl : Str.slice (T.take k) z.hs (z.hs + z.ss) = .ok (b64Text (toBase 64 z.ss m.size)) := by
        rw [Str.slice, if_neg (by omega), sliceTo_ascii hTA (by omega), Res.ok_bind, List.take_take,
          Nat.min_eq_left (by omega)]
        have : T.take (z.hs + z.ss) = m.code ++ b64Text (toBase 64 z.ss m.size) := by
          rw [hsx, ← List.append_assoc, List.take_left' (by simp [hr.code_len])]
        rw [this]
        exact sliceFrom_of_prefix hr.code_b64.ascii hr.code_len.symm
      rw [hsl, Res.ok_bind, b64ToU32_text (Sextets.toBase _ _), Res.ok_bind, hv1, Res.ok_bind]
      · simp only
        have : fsz m z = z.hs + z.ss + m.size * 4 := by simp [fsz, hv.fs_eq]
        rw [if_pos (by omega)]; rfl
      · rw [hv1]
        exact Nat.lt_of_lt_of_le hsz (Nat.le_trans (Nat.pow_le_pow_right (by decide) hss.2) (by decide))

theorem bexfil_truncated {m : M} {z : Sizage} (h : Wf m z) {k : Nat} (hk : k < 3 * (fsz m z / 4)) :
    (bexfil ((beBytes (3 * (fsz m z / 4)) (ofBase 64 (sx m z))).take k)).isErr = true := by
  obtain ⟨hm, hle, h4, hbits⟩ := fsz_facts h
  have hcs := cs_le h
  obtain ⟨hr, hfv⟩ := sizage_row h.row
  obtain ⟨f, ct, hcode, hf64, hbard⟩ := hr.bard
  obtain ⟨hcsx, hcsl⟩ := code_sextets h
  have hhs : z.hs = 1 ∨ z.hs = 2 ∨ z.hs = 4 := hr.hs_cases
  set F := fsz m z with hF
  have hq2 := bytes_sx h
  rw [← hF] at hq2
  set Q := beBytes (3 * (F / 4)) (ofBase 64 (sx m z)) with hQ
  have hQl : Q.length = 3 * (F / 4) := by simp [hQ]
  have hql : (Q.take k).length = k := by rw [List.length_take, hQl]; omega
  rw [List.append_assoc] at hq2
  have hpre : ∀ L, L ≤ z.hs + z.ss → ((L + 1) * 3) / 4 ≤ k →
      toBase 64 L (beVal ((Q.take k).take (((L + 1) * 3) / 4)) / 4 ^ (L % 4)) =
        (idxs m.code ++ toBase 64 z.ss m.size).take L := by
    intro L hL hLk
    rw [List.take_take, Nat.min_eq_left hLk, hq2, bcode_take h hL]
  by_cases hk0 : k = 0
  · subst hk0; rfl
  unfold bexfil
  rw [if_neg (by intro h0; rw [h0] at hql; simp at hql; omega),
    nabSextets_eq (by rw [hql]; omega), hpre 1 (by omega) (by omega)]
  have : idxs m.code = f :: idxs ct := by
    rw [hcode]; simp [idxs, idxOf_chr hf64]
  rw [this]
  simp only [List.cons_append, List.take_succ_cons, List.take_zero, Res.ok_bind, List.head?_cons,
    Res.orPanic_some, hbard, hql]
  split
  · rfl
  rename_i h1
  rw [codeB2ToB64_eq (by omega) (by omega) (by omega), hpre _ (by omega) (by omega),
    List.take_left' (by simp [hr.code_len]), text_idxs hr.code_b64, Res.ok_bind, h.row, Res.ok_bind]
  have hbfs : ((F + 1) * 3) / 4 = 3 * (F / 4) := by omega
  rcases hfv with hf | hv
  · rw [if_neg hf.fs_ne, Res.ok_bind]
    simp only
    have : F = z.fs := by simp [hF, fsz, hf.fs_ne]
    rw [if_pos (by omega)]; rfl
  · rw [if_pos hv.fs_eq]
    have hcs0 : (z.hs + z.ss) % 4 = 0 := by rcases hv.hs_cases with ⟨a, b⟩ | ⟨a, b⟩ <;> omega
    have hss : 0 < z.ss ∧ z.ss ≤ 4 := by rcases hv.hs_cases with ⟨a, b⟩ | ⟨a, b⟩ <;> omega
    rw [if_neg (by omega)]
    by_cases h2 : k < ((z.hs + z.ss + 1) * 3) / 4
    · rw [if_pos h2]; rfl
    · rw [if_neg h2]
      obtain ⟨-, hsz⟩ := h.var hv.fs_eq
      have hv1 : ofBase 64 (toBase 64 z.ss m.size) = m.size := ofBase_toBase_of_lt hsz
      rw [codeB2ToB64_eq (by omega) (by omega) (by omega), hpre _ (by omega) (by omega), Res.ok_bind,
        List.take_of_length_le (by rw [hcsl]), b64Text_append, text_idxs hr.code_b64]
      have := slice_mid (t := []) hr.code_b64.ascii (isB64_text (Sextets.toBase z.ss m.size)).ascii
        hr.code_len.symm (show z.hs + z.ss = _ by simp [hr.code_len])
      rw [List.append_nil] at this
      rw [this, Res.ok_bind, b64ToU32_text (Sextets.toBase _ _), Res.ok_bind, hv1, Res.ok_bind]
      · simp only
        have : F = z.hs + z.ss + m.size * 4 := by simp [hF, fsz, hv.fs_eq]
        rw [if_pos (by omega)]; rfl
      · rw [hv1]
        exact Nat.lt_of_lt_of_le hsz (Nat.le_trans (Nat.pow_le_pow_right (by decide) hss.2) (by decide))

end Keride.Matter
