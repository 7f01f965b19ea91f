import Verif.Spec.Cesr
import Verif.Lemmas.MatterPanic2
import Verif.Lemmas.Utf8

namespace Keride.Matter

theorem isBase64_iff {s : Str} : Spec.IsBase64 s ↔ IsB64 s := Iff.rfl

theorem ascii_iff {s : Str} : Spec.IsAscii s ↔ Ascii s := by
  have key : ∀ c : Char, c.toNat < 128 ↔ c.utf8Size = 1 := by
    intro c
    rw [← utf8Char_length]
    unfold utf8Char
    simp only
    split
    · simp [*]
    · split
      · simp [*]
      · split <;> simp [*]
  exact ⟨fun h c hc => (key c).mp (h c hc), fun h c hc => (key c).mpr (h c hc)⟩

theorem codes_sizage : ∀ c ∈ Spec.matterCodes, (sizage c).isOk = true := by decide +kernel

theorem sizage_codes : ∀ e ∈ sizageTable, e.1 ∈ Spec.matterCodes := by decide +kernel

theorem sizage_of_code {c : Str} (h : c ∈ Spec.matterCodes) : ∃ z, sizage c = .ok z :=
  Res.isOk_iff.mp (codes_sizage c h)

/-- The codes a variable-size constructor may switch to are in the table. -/
theorem var_family : ∀ e ∈ sizageTable, e.2.fs = u32Max → ∀ ls ∈ [0, 1, 2],
    (e.2.hs = 2 → (sizage (smallVrzDex.getD ls '4' :: e.1.drop 1)).isOk = true ∧
      (sizage (largeVrzDex.getD ls '7' :: 'A' :: 'A' :: e.1.drop 1)).isOk = true ∧
      e.1.headD 'x' ∈ smallVrzDex) ∧
    (e.2.hs = 4 → (sizage (largeVrzDex.getD ls '7' :: e.1.drop 1)).isOk = true ∧
      e.1.headD 'x' ∉ smallVrzDex) := by decide +kernel

theorem new_table {code : Str} {raw : Bytes} {m : M} (hc : code ∈ Spec.matterCodes)
    (h : newWithCodeAndRaw code raw = .ok m) : ∃ z, Wf m z := by
  obtain ⟨z0, hz0⟩ := sizage_of_code hc
  suffices ∃ z, sizage m.code = .ok z by
    obtain ⟨z, hz⟩ := this
    exact ⟨z, new_wf h hz⟩
  obtain ⟨hr, hfv⟩ := sizage_row hz0
  rcases new_cases h with ⟨f, t, -, -, -, n, -, -, rfl⟩ | ⟨f, t, ls, x, hcode, hf, hls, -, -, -, hk⟩
  · exact ⟨z0, hz0⟩
  · rcases hfv with hfix | hv
    · exfalso
      have := fixed_head _ (sizage_mem hz0) hfix.fs_ne f t hcode
      rcases hf with hf | hf
      · exact this.1 hf
      · exact this.2 hf
    · have hfam := var_family _ (sizage_mem hz0) hv.fs_eq ls (by
        have : ls = 0 ∨ ls = 1 ∨ ls = 2 := by omega
        rcases this with rfl | rfl | rfl <;> decide)
      simp only at hfam
      have hA := hr.code_b64.ascii
      have hl := hr.code_len
      rcases hv.hs_cases with ⟨a, b⟩ | ⟨a, b⟩
      · obtain ⟨h1, h2, h3⟩ := hfam.1 a
        have hfs : f ∈ smallVrzDex := by rw [hcode] at h3; exact h3
        have hx : Str.slice code 1 2 = .ok (code.drop 1) := by
          rw [slice_ascii hA (by decide) (by omega), List.take_of_length_le (by omega)]
        rcases hk with ⟨-, hx', -, e⟩ | ⟨-, hx', -, -, e⟩ | ⟨hn, -⟩
        · rw [hx] at hx'; rw [e, ← Res.ok.inj hx']; exact Res.isOk_iff.mp h1
        · rw [hx] at hx'; rw [e, ← Res.ok.inj hx']; exact Res.isOk_iff.mp h2
        · exact absurd hfs hn
      · obtain ⟨h1, h3⟩ := hfam.2 a
        have hfs : f ∉ smallVrzDex := by rw [hcode] at h3; exact h3
        have hx : Str.slice code 1 4 = .ok (code.drop 1) := by
          rw [slice_ascii hA (by decide) (by omega), List.take_of_length_le (by omega)]
        rcases hk with ⟨hn, -⟩ | ⟨hn, -⟩ | ⟨-, hx', -, e⟩
        · exact absurd hn hfs
        · exact absurd hn hfs
        · rw [hx] at hx'; rw [e, ← Res.ok.inj hx']; exact Res.isOk_iff.mp h1

theorem toUtf8_take {s : Str} (h : Ascii s) (k : Nat) : (toUtf8 s).take k = toUtf8 (s.take k) := by
  induction s generalizing k with
  | nil => simp [toUtf8]
  | cons c s ih =>
    cases k with
    | zero => simp [toUtf8]
    | succ k =>
      have hc : (utf8Char c).length = 1 := by rw [utf8Char_length]; exact h c (by simp)
      have hs : Ascii s := fun d hd => h d (List.mem_cons_of_mem _ hd)
      simp only [toUtf8, List.take_succ_cons]
      rw [List.take_append, hc, List.take_of_length_le (by omega), Nat.add_sub_cancel, ih hs]

theorem fullSize_parsed {s : Str} {m : M} (p : Parsed s m) : fullSize m = .ok p.F := by
  rw [fullSize, p.row, Res.ok_bind]
  split
  · rename_i h; rw [(p.fixed h).2.2]
  · rename_i h
    rw [(p.var (by simpa using h)).2.2.2]; congr 1; omega

theorem body_ascii {s : Str} {m : M} (p : Parsed s m) : Ascii p.body := by
  have key : ∀ {x : Str} {b : Bytes}, b64Decode x = .ok b → Ascii x := by
    intro x b h
    have he : '='.utf8Size = 1 := by decide
    rcases (b64Decode_ok h).2 with ⟨h, -⟩ | ⟨t, rfl, h, -⟩ | ⟨t, rfl, h, -⟩
    · exact h.ascii
    · exact Ascii.append.mpr ⟨h.ascii, by intro c hc; simp at hc; rw [hc]; exact he⟩
    · exact Ascii.append.mpr ⟨h.ascii, by intro c hc; simp at hc; rw [hc]; exact he⟩
  by_cases h : (p.z.hs + p.z.ss) % 4 = 0
  · exact key (p.lead h).1
  · exact (Ascii.append.mp (key (p.pre h).1)).2

theorem body_mem_take {s : Str} {m : M} (p : Parsed s m) {c : Char} (h : c ∈ p.body) : c ∈ s.take p.F := by
  have hr := (sizage_row p.row).1
  have hsl : p.soft.length = p.z.ss := by
    by_cases hv : p.z.fs = u32Max
    · exact (p.var hv).2.1
    · have hf := (sizage_row p.row).2.resolve_right (fun hv' => hv hv'.fs_eq)
      rw [(p.fixed hv).1, hf.ss_zero]; rfl
  have hbl := p.len_body
  rw [(body_ascii p).len] at hbl
  have hl : (m.code ++ p.soft ++ p.body).length = p.F := by
    have := p.cs_le_F
    simp only [List.length_append, hr.code_len, hsl, hbl]; omega
  have e : s.take p.F = m.code ++ p.soft ++ p.body := by
    have h2 := congrArg (List.take p.F) p.split
    rwa [List.take_left' hl] at h2
  rw [e]
  exact List.mem_append_right _ h

end Keride.Matter
