/-
Exactly which texts, of any characters, make the text parser of `Matter` panic.
-/
import Verif.Lemmas.MatterPanic2
import Verif.Lemmas.MatterNew

namespace Keride

open Spec (Splits)

namespace Str

theorem sliceTo_cases : ∀ {s : Str} {n : Nat}, n ≤ len s →
    (∃ a b, s = a ++ b ∧ len a = n ∧ sliceTo s n = .ok a) ∨ (Splits s n ∧ sliceTo s n = .panic)
  | s, 0, _ => .inl ⟨[], s, rfl, rfl, by cases s <;> rfl⟩
  | [], n + 1, h => by simp [len] at h
  | c :: s, n + 1, h => by
    have hc := c.utf8Size_pos
    rw [len] at h
    by_cases h1 : c.utf8Size ≤ n + 1
    · rcases sliceTo_cases (s := s) (n := n + 1 - c.utf8Size) (by omega) with ⟨a, b, h2, h3, h4⟩ | ⟨⟨a, d, b, h2, h3, h4⟩, h5⟩
      · refine .inl ⟨c :: a, b, by rw [h2]; rfl, by rw [len]; omega, ?_⟩
        rw [sliceTo, if_pos h1, h4]
      · refine .inr ⟨⟨c :: a, d, b, by rw [h2]; rfl, by rw [len]; omega, by rw [len]; omega⟩, ?_⟩
        rw [sliceTo, if_pos h1, h5]
    · exact .inr ⟨⟨[], c, s, rfl, by simp [len], by simp [len]; omega⟩, by rw [sliceTo, if_neg h1]⟩

theorem splits_lt {s : Str} {n : Nat} (h : Splits s n) : n < len s := by
  obtain ⟨a, c, b, rfl, h1, h2⟩ := h
  rw [len_append, len]
  omega

theorem splits_panic {s : Str} {n : Nat} (h : Splits s n) : sliceTo s n = .panic := by
  rcases sliceTo_cases (Nat.le_of_lt (splits_lt h)) with ⟨a, b, h1, h2, -⟩ | ⟨-, h1⟩
  · exfalso
    obtain ⟨a', c, b', h3, h4, h5⟩ := h
    rw [h1] at h3
    rcases List.append_eq_append_iff.mp h3 with ⟨l, e1, e2⟩ | ⟨l, e1, e2⟩
    · rw [e1, len_append] at h4
      omega
    · cases l with
      | nil =>
        rw [e1, List.append_nil] at h2
        omega
      | cons x l =>
        rw [List.cons_append, List.cons.injEq] at e2
        rw [e1, len_append, len, ← e2.1] at h2
        omega
  · exact h1

/-- Two beginnings of a text, the shorter one is a beginning of the longer one. -/
theorem prefix_of_len {s a b a' b' : Str} (h : s = a ++ b) (h' : s = a' ++ b') (hl : len a ≤ len a') : ∃ u, a' = a ++ u := by
  rw [h] at h'
  rcases List.append_eq_append_iff.mp h' with ⟨l, e1, -⟩ | ⟨l, e1, -⟩
  · exact ⟨l, e1⟩
  · rw [e1, len_append] at hl
    cases l with
    | nil => exact ⟨[], by rw [e1]; simp⟩
    | cons c l =>
      have := c.utf8Size_pos
      rw [len] at hl
      omega

theorem from_append {a u : Str} : sliceFrom (a ++ u) (len a) = .ok u := by
  induction a with
  | nil =>
    rw [List.nil_append, len]
    cases u <;> rfl
  | cons c a ih =>
    have hc := c.utf8Size_pos
    rw [len, List.cons_append]
    obtain ⟨k, hk⟩ : ∃ k, c.utf8Size + len a = k + 1 := ⟨c.utf8Size + len a - 1, by omega⟩
    rw [hk, sliceFrom, if_pos (by omega)]
    have : k + 1 - c.utf8Size = len a := by omega
    rw [this, ih]

theorem to_append {a u : Str} : sliceTo (a ++ u) (len a) = .ok a := by
  rcases sliceTo_cases (s := a ++ u) (n := len a) (by rw [len_append]; omega) with ⟨x, y, h1, h2, h3⟩ | ⟨h, -⟩
  · obtain ⟨v, hv⟩ := prefix_of_len rfl h1 (by omega)
    rw [hv, len_append] at h2
    cases v with
    | nil =>
      rw [List.append_nil] at hv
      rw [h3, hv]
    | cons c v =>
      have := c.utf8Size_pos
      rw [len] at h2
      omega
  · exfalso
    have hp := splits_panic h
    obtain ⟨a', c, b, h1, h2, h3⟩ := h
    rcases List.append_eq_append_iff.mp h1 with ⟨l, e1, e2⟩ | ⟨l, e1, e2⟩
    · rw [e1, len_append] at h2
      omega
    · cases l with
      | nil =>
        rw [e1, List.append_nil] at h2
        omega
      | cons x l =>
        rw [List.cons_append, List.cons.injEq] at e2
        rw [e1, len_append, len, ← e2.1] at h3
        omega

end Str

namespace Matter

open Str

/-- A place where the parser cuts the text: after the hard part of the code as its first character announces it, after a
code with a size, and after the primitive. -/
inductive Cut (s : Str) : Nat → Prop
  | hard (first : Char) (rest : Str) (n : Nat) : s = first :: rest → hardage first = .ok n → Cut s n
  | soft (c : Str) (z : Sizage) : sizage c = .ok z → z.fs = u32Max → c <+: s → Cut s (z.hs + z.ss)
  | fixed (c : Str) (z : Sizage) : sizage c = .ok z → z.fs ≠ u32Max → c <+: s → Cut s z.fs
  | variable (c soft : Str) (z : Sizage) (n : Nat) : sizage c = .ok z → z.fs = u32Max → c ++ soft <+: s → soft.length = z.ss → b64ToU32 soft = .ok n →
      Cut s (n * 4 + (z.hs + z.ss))

/-- Why a parse panics. -/
theorem exfil_panic_text {s : Str} (h : exfil s = .panic) :
    (∃ n, Cut s n ∧ Splits s n) ∨
    ∃ c z size body rest paw, sizage c = .ok z ∧ z.ls ≠ 0 ∧ (z.fs ≠ u32Max → size = 0) ∧
      s = c ++ b64Text (toBase 64 z.ss size) ++ body ++ rest ∧
      body.length = (if z.fs = u32Max then size * 4 else z.fs - z.hs) ∧
      (z.fs = u32Max → size < 64 ^ z.ss) ∧
      b64Decode body = .ok paw ∧ paw.length < z.ls := by
  unfold exfil at h
  split at h
  · simp at h
  rename_i first tl
  set s := first :: tl with hs
  rw [Res.bind_eq_panic] at h
  rcases h with h | ⟨k, hhs, h⟩
  · exact absurd h (hardage_ne_panic _)
  split at h
  · simp at h
  rename_i h1
  rcases sliceTo_cases (s := s) (n := k) (by omega) with ⟨c, t, hc, hck, hcs⟩ | ⟨hsp, -⟩
  swap
  · exact .inl ⟨k, .hard first tl k hs hhs, hsp⟩
  rw [hcs, Res.ok_bind, Res.bind_eq_panic] at h
  rcases h with h | ⟨z, hz, h⟩
  · exact absurd h (sizage_ne_panic _)
  obtain ⟨hr, hfv⟩ := sizage_row hz
  have hcl : len c = z.hs := by rw [hr.code_b64.ascii.len, hr.code_len]
  have hkz : k = z.hs := by rw [← hck, hcl]
  subst hkz
  have hpre : c <+: s := ⟨t, hc.symm⟩
  simp only at h
  -- the code with its size
  have hF : (∃ n, Cut s n ∧ Splits s n) ∨ ∃ F size u, (if z.fs = u32Max then
          if (z.hs + z.ss) % 4 ≠ 0 then .err .invalidCodeSize
          else if Str.len s < z.hs + z.ss then .err .shortage
          else do
            let soft ← Str.slice s z.hs (z.hs + z.ss)
            let size ← b64ToU32 soft
            .ok (size * 4 + (z.hs + z.ss), size)
        else .ok (z.fs, 0) : Res (Nat × Nat)) = .ok (F, size) ∧ u = b64Text (toBase 64 z.ss size) ∧ len u = z.ss ∧ c ++ u <+: s ∧
        (z.fs ≠ u32Max → F = z.fs ∧ size = 0) ∧
        (z.fs = u32Max → size < 64 ^ z.ss ∧ F = size * 4 + (z.hs + z.ss)) ∧ (len s < F ∨ Splits s F → Cut s F) := by
    rw [Res.bind_eq_panic] at h
    rcases hfv with hf | hv
    · refine .inr ⟨z.fs, 0, [], by rw [if_neg hf.fs_ne], by rw [hf.ss_zero]; rfl, by rw [hf.ss_zero]; rfl, by rwa [List.append_nil], fun _ => ⟨rfl, rfl⟩,
        fun e => absurd e hf.fs_ne, fun _ => .fixed c z hz hf.fs_ne hpre⟩
    · have hss : z.ss ≤ 4 := by rcases hv.hs_cases with ⟨a, b⟩ | ⟨a, b⟩ <;> omega
      have hcs0 : (z.hs + z.ss) % 4 = 0 := by rcases hv.hs_cases with ⟨a, b⟩ | ⟨a, b⟩ <;> omega
      rw [if_pos hv.fs_eq, if_neg (by omega)] at h ⊢
      by_cases h2 : len s < z.hs + z.ss
      · rw [if_pos h2] at h; simp at h
      · rw [if_neg h2] at h ⊢
        rcases sliceTo_cases (s := s) (n := z.hs + z.ss) (by omega) with ⟨a, b, ha, hal, has⟩ | ⟨hsp, -⟩
        swap
        · exact .inl ⟨_, .soft c z hz hv.fs_eq hpre, hsp⟩
        obtain ⟨u, rfl⟩ := prefix_of_len hc ha (by omega)
        have hsl : Str.slice s z.hs (z.hs + z.ss) = .ok u := by
          unfold Str.slice
          rw [if_neg (by omega), has, Res.ok_bind, ← hcl, from_append]
        rw [hsl, Res.ok_bind] at h ⊢
        have hul : len u = z.ss := by
          rw [len_append] at hal
          omega
        cases hsz : b64ToU32 u with
        | panic => exact absurd hsz (b64ToU32_ne_panic _)
        | err e => rw [hsz] at h; simp at h
        | ok n =>
          have hB : IsB64 u := b64ToUAux_ok hsz
          have hul' : u.length = z.ss := by rw [← hB.ascii.len, hul]
          have e1 := b64ToU32_ok_soft (by omega) hsz
          rw [hul'] at e1
          have e2 := (b64ToU32_soft hB (by omega) hsz).1
          rw [hul'] at e2
          exact .inr ⟨_, n, u, by rw [Res.ok_bind], e1, hul, ⟨b, ha.symm⟩, fun e => absurd hv.fs_eq e, fun _ => ⟨e2, rfl⟩,
            fun _ => .variable c u z n hz hv.fs_eq ⟨b, ha.symm⟩ hul' hsz⟩
  rcases hF with hF | ⟨F, size, u, hF, hu, hul, hcu, hfix, hvar, hcut⟩
  · exact .inl hF
  rw [hF, Res.ok_bind] at h
  simp only at h
  split at h
  · simp at h
  rename_i h2
  have hcsF : z.hs + z.ss ≤ F := by
    rcases hfv with hf | hv
    · have := hf.fs_gt; have := hf.ss_zero; have := (hfix hf.fs_ne).1; omega
    · have := (hvar hv.fs_eq).2; omega
  rcases sliceTo_cases (s := s) (n := F) (by omega) with ⟨trim, rest, htr, htl, hts⟩ | ⟨hsp, -⟩
  swap
  · exact .inl ⟨F, hcut (.inr hsp), hsp⟩
  right
  obtain ⟨b, hb⟩ := hcu
  have hcul : len (c ++ u) = z.hs + z.ss := by rw [len_append]; omega
  obtain ⟨body, rfl⟩ := prefix_of_len hb.symm htr (by omega)
  have hbl : len body = F - (z.hs + z.ss) := by
    rw [len_append] at htl
    omega
  have hsf : Str.sliceFrom (c ++ u ++ body) (z.hs + z.ss) = .ok body := by rw [← hcul, from_append]
  rw [hts, Res.ok_bind, hsf, Res.ok_bind, Res.bind_eq_panic] at h
  rcases h with h | ⟨_, -, h⟩
  swap; · simp at h
  have hasc : ∀ {p paw}, b64Decode (p ++ body) = .ok paw → body.length = F - (z.hs + z.ss) := by
    intro p paw hp
    rw [← hbl]
    have : Ascii (p ++ body) := by
      obtain ⟨-, hshape⟩ := b64Decode_ok hp
      have hB : ∀ {x : Str}, IsB64 x → Ascii x := fun h => h.ascii
      rcases hshape with ⟨e, -⟩ | ⟨t, e1, e2, -⟩ | ⟨t, e1, e2, -⟩
      · exact hB e
      · rw [e1]
        exact Ascii.append.mpr ⟨hB e2, by intro c hc; simp at hc; subst hc; decide⟩
      · rw [e1]
        exact Ascii.append.mpr ⟨hB e2, by intro c hc; simp at hc; subst hc; decide⟩
    exact (Ascii.append.mp this).2.len.symm
  split at h
  · -- pre-pad: never short
    rename_i hps
    exfalso
    have hls : z.ls = 0 := by by_contra hls; exact hps (hr.ls_cs hls)
    have hf : FixedOk z := hfv.resolve_right (fun hv => by
      rcases hv.hs_cases with ⟨a, b⟩ | ⟨a, b⟩ <;> rw [a, b] at hps <;> exact hps rfl)
    rw [Res.bind_eq_panic] at h
    rcases h with h | ⟨paw, hpaw, h⟩
    · exact b64Decode_ne_panic _ h
    have hbl := hasc hpaw
    obtain ⟨hmod, hshape⟩ := b64Decode_ok hpaw
    have hlen : z.hs % 4 ≤ paw.length := by
      have h3 := hf.ss_zero; have h4 := hf.fs_mod; have h5 := hf.bits; have h6 := hf.raw_pos
      have h7 := (hfix hf.fs_ne).1; have h8 := hf.fs_gt; have h9 := hf.fs_hs
      have h10 := hf.fs_pos
      have hl : (List.replicate ((z.hs + z.ss) % 4) 'A' ++ body).length = z.hs % 4 + (z.fs - z.hs) := by
        rw [List.length_append, List.length_replicate, hbl, h3, h7]; rfl
      rw [h3, Nat.add_zero] at hps
      rw [hl] at hshape
      have := hr.hs_cases
      rcases hshape with ⟨-, e⟩ | ⟨t, -, -, e⟩ | ⟨t, -, -, e⟩ <;> omega
    rw [hf.ss_zero, Nat.add_zero] at h
    rw [Bytes.sliceTo, if_pos hlen, Res.ok_bind] at h
    split at h
    · simp at h
    · rw [Bytes.sliceFrom, if_pos hlen] at h; simp at h
  · rename_i hps
    rw [Res.bind_eq_panic] at h
    rcases h with h | ⟨paw, hpaw, h⟩
    · exact absurd h (b64Decode_ne_panic _)
    have hbl := hasc (p := []) hpaw
    by_cases hlen : z.ls ≤ paw.length
    · rw [Bytes.sliceTo, if_pos hlen, Res.ok_bind] at h
      split at h
      · split at h <;> simp at h
      · rw [Bytes.sliceFrom, if_pos hlen] at h; simp at h
    · refine ⟨c, z, size, body, rest, paw, hz, by omega, fun e => (hfix e).2, by rw [← hu]; exact htr, ?_,
        fun e => (hvar e).1, hpaw, by omega⟩
      rcases hfv with hf | hv
      · rw [if_neg hf.fs_ne, hbl, (hfix hf.fs_ne).1, hf.ss_zero]; rfl
      · rw [if_pos hv.fs_eq, hbl, (hvar hv.fs_eq).2]; omega

/-- A cut inside a character panics. -/
theorem exfil_split {s : Str} {n : Nat} (hc : Cut s n) (hs : Splits s n) : exfil s = .panic := by
  have hlt := splits_lt hs
  -- the code is read
  have start : ∀ {c z}, sizage c = .ok z → c <+: s → Splits s n → exfil s = (do
      let cs := z.hs + z.ss
      let (fs, size) ← (if z.fs = u32Max then
          if cs % 4 ≠ 0 then .err .invalidCodeSize
          else if Str.len s < cs then .err .shortage
          else do
            let soft ← Str.slice s z.hs cs
            let size ← b64ToU32 soft
            .ok (size * 4 + cs, size)
        else .ok (z.fs, 0) : Res (Nat × Nat))
      if Str.len s < fs then .err .shortage
      else do
        let trim ← Str.sliceTo s fs
        let ps := cs % 4
        let pbs := 2 * (if ps ≠ 0 then ps else z.ls)
        let body ← Str.sliceFrom trim cs
        let raw ← (if ps ≠ 0 then do
            let paw ← b64Decode (List.replicate ps 'A' ++ body)
            let pre ← Bytes.sliceTo paw ps
            let pi := beVal pre
            if pi &&& (2 ^ pbs - 1) ≠ 0 then .err .prepad
            else Bytes.sliceFrom paw ps
          else do
            let paw ← b64Decode body
            let lead ← Bytes.sliceTo paw z.ls
            let li := beVal lead
            if li ≠ 0 then
              if z.ls = 1 then .err .nonZeroedLeadByte else .err .nonZeroedLeadBytes
            else Bytes.sliceFrom paw z.ls : Res Bytes)
        .ok { code := c, size := size, raw := raw }) := by
    rintro c z hz ⟨t, rfl⟩ -
    obtain ⟨hr, -⟩ := sizage_row hz
    obtain ⟨f, ct, hcode, hhard⟩ := hr.hard
    have hcl : len c = z.hs := by rw [hr.code_b64.ascii.len, hr.code_len]
    have h1 : Str.sliceTo (c ++ t) z.hs = .ok c := by rw [← hcl]; exact to_append
    have h2 : ¬ Str.len (c ++ t) < z.hs := by rw [len_append]; omega
    have hhead : c ++ t = f :: (ct ++ t) := by rw [hcode]; rfl
    clear hs hlt hc
    generalize c ++ t = s at *
    subst hhead
    unfold exfil
    dsimp only
    rw [hhard, Res.ok_bind, if_neg h2, h1, Res.ok_bind, hz, Res.ok_bind]
  cases hc with
  | hard first rest _ e hh =>
    have hp := splits_panic hs
    subst e
    unfold exfil
    dsimp only
    rw [hh, Res.ok_bind, if_neg (by omega), hp]
    rfl
  | soft c z hz hv hpre =>
    rw [start hz hpre hs]
    obtain ⟨hr, hfv⟩ := sizage_row hz
    have hv' := hfv.resolve_left (fun hf => hf.fs_ne hv)
    have hcs0 : (z.hs + z.ss) % 4 = 0 := by rcases hv'.hs_cases with ⟨a, b⟩ | ⟨a, b⟩ <;> omega
    dsimp only
    rw [if_pos hv, if_neg (by omega), if_neg (by omega)]
    unfold Str.slice
    rw [if_neg (by omega), splits_panic hs]
    rfl
  | fixed c z hz hv hpre =>
    rw [start hz hpre hs]
    dsimp only
    rw [if_neg hv, Res.ok_bind]
    dsimp only
    rw [if_neg (by omega), splits_panic hs]
    rfl
  | «variable» c soft z k hz hv hpre hl hn =>
    rw [start hz ((List.prefix_append c soft).trans hpre) hs]
    obtain ⟨hr, hfv⟩ := sizage_row hz
    have hv' := hfv.resolve_left (fun hf => hf.fs_ne hv)
    have hcs0 : (z.hs + z.ss) % 4 = 0 := by rcases hv'.hs_cases with ⟨a, b⟩ | ⟨a, b⟩ <;> omega
    have hcl : len c = z.hs := by rw [hr.code_b64.ascii.len, hr.code_len]
    have hB : IsB64 soft := b64ToUAux_ok hn
    have hsl : len soft = z.ss := by rw [hB.ascii.len, hl]
    have hslice : Str.slice s z.hs (z.hs + z.ss) = .ok soft := by
      obtain ⟨t, rfl⟩ := hpre
      unfold Str.slice
      have : z.hs + z.ss = len (c ++ soft) := by rw [len_append]; omega
      rw [if_neg (by omega), this, to_append, Res.ok_bind, ← hcl, from_append]
    dsimp only
    rw [if_pos hv, if_neg (by omega), if_neg (by omega), hslice, Res.ok_bind, hn, Res.ok_bind, Res.ok_bind]
    dsimp only
    rw [if_neg (by omega), splits_panic hs]
    rfl


/-- Each row of the code table in terms of the list of codes. -/
theorem rows_listed : ∀ e ∈ sizageTable,
    (e.2.fs ≠ u32Max → ∃ n, (e.1, n) ∈ Spec.fixedCodes ∧ e.1.length / 4 * 4 + 4 * Spec.quadlets (e.1.length % 4 + n) = e.2.fs) ∧
    (e.2.fs = u32Max → ∃ v ∈ Spec.varCodes, v.code = e.1 ∧ e.2.hs = e.1.length ∧ e.2.ss = e.1.length) := by
  have : ∀ e ∈ sizageTable,
    (e.2.fs ≠ u32Max → ∃ x ∈ Spec.fixedCodes, x.1 = e.1 ∧ e.1.length / 4 * 4 + 4 * Spec.quadlets (e.1.length % 4 + x.2) = e.2.fs) ∧
    (e.2.fs = u32Max → ∃ v ∈ Spec.varCodes, v.code = e.1 ∧ e.2.hs = e.1.length ∧ e.2.ss = e.1.length) := by decide +kernel
  intro e he
  refine ⟨fun h => ?_, (this e he).2⟩
  obtain ⟨⟨c, n⟩, hx, h1, h2⟩ := (this e he).1 h
  simp only at h1 h2
  subst h1
  exact ⟨n, hx, h2⟩

theorem fixed_row : ∀ x ∈ Spec.fixedCodes, ∃ e ∈ sizageTable, e.1 = x.1 ∧ e.2.fs ≠ u32Max ∧
    x.1.length / 4 * 4 + 4 * Spec.quadlets (x.1.length % 4 + x.2) = e.2.fs := by decide +kernel

theorem var_row : ∀ v ∈ Spec.varCodes, ∃ e ∈ sizageTable, e.1 = v.code ∧ e.2.fs = u32Max ∧ e.2.hs = v.code.length ∧ e.2.ss = v.code.length := by
  decide +kernel

theorem codeChars_iff {c : Char} {n : Nat} : Spec.codeChars c = some n ↔ hardage c = .ok n := by
  have h1 : c ∈ (str% "ABCDEFGHIJKLMNOPQRSTUVWXYZabcdefghijklmnopqrstuvwxyz") ↔ ('A' ≤ c ∧ c ≤ 'Z') ∨ ('a' ≤ c ∧ c ≤ 'z') := by
    constructor
    · intro h
      have : ∀ x ∈ (str% "ABCDEFGHIJKLMNOPQRSTUVWXYZabcdefghijklmnopqrstuvwxyz"), ('A' ≤ x ∧ x ≤ 'Z') ∨ ('a' ≤ x ∧ x ≤ 'z') := by decide
      exact this c h
    · intro h
      have hall : ∀ k < 123, 65 ≤ k ∧ k ≤ 90 ∨ 97 ≤ k → Char.ofNat k ∈ (str% "ABCDEFGHIJKLMNOPQRSTUVWXYZabcdefghijklmnopqrstuvwxyz") := by decide
      have e : ∀ {x y : Char}, x ≤ y ↔ x.toNat ≤ y.toNat := Iff.rfl
      rw [e, e, e, e] at h
      have hA : 'A'.toNat = 65 := rfl
      have hZ : 'Z'.toNat = 90 := rfl
      have ha : 'a'.toNat = 97 := rfl
      have hz : 'z'.toNat = 122 := rfl
      have := hall c.toNat (by omega) (by omega)
      rwa [Char.ofNat_toNat] at this
  unfold Spec.codeChars hardage
  simp only [h1]
  split
  · simp
  · have h2 : c ∈ (str% "0456") ↔ c = '0' ∨ c = '4' ∨ c = '5' ∨ c = '6' := by simp
    have h3 : c ∈ (str% "123789") ↔ c = '1' ∨ c = '2' ∨ c = '3' ∨ c = '7' ∨ c = '8' ∨ c = '9' := by simp
    simp only [h2, h3]
    split
    · simp
    · split
      · simp
      · split
        · simp
        · split <;> simp

theorem number_text {ds : List Nat} (h : Sextets ds) (k : Nat) :
    (b64Text ds).foldl (fun n c => 64 * n + Spec.base64url.idxOf c) k = k * 64 ^ ds.length + ofBase 64 ds := by
  induction ds generalizing k with
  | nil => simp [b64Text, ofBase]
  | cons d ds ih =>
    have hd : d < 64 := h d List.mem_cons_self
    have e : Spec.base64url.idxOf (b64Chr d) = d := by
      have : ∀ d < 64, Spec.base64url.idxOf (b64Chr d) = d := by decide +kernel
      exact this d hd
    rw [b64Text, List.map_cons, List.foldl_cons, e, ofBase_cons]
    have := ih (fun x hx => h x (List.mem_cons_of_mem _ hx)) (64 * k + d)
    rw [b64Text] at this
    rw [this, List.length_cons]
    ring

theorem number_ok {u : Str} (hB : IsB64 u) (hl : u.length ≤ 4) : b64ToU32 u = .ok (Spec.b64Number u) := by
  obtain ⟨ds, hds, rfl⟩ := isB64_iff.mp hB
  rw [b64Text_length] at hl
  have hlt := ofBase_lt 64 ds hds
  rw [b64ToU32_text hds (Nat.lt_of_lt_of_le hlt (Nat.le_trans (Nat.pow_le_pow_right (by decide) hl) (by decide))), Spec.b64Number, number_text hds]
  simp

theorem var_le : ∀ v ∈ Spec.varCodes, v.code.length ≤ 4 := by decide

theorem cut_ends {s : Str} {n : Nat} : Cut s n ↔ Spec.Ends s n := by
  constructor
  · intro h
    cases h with
    | hard first rest _ e hh => exact .code first rest n e (codeChars_iff.mpr hh)
    | soft c z hz hv hpre =>
      obtain ⟨v, hm, h1, h2, h3⟩ := (rows_listed _ (sizage_mem hz)).2 hv
      simp only at h1 h2 h3
      have := Spec.Ends.size v hm (by rw [h1]; exact hpre)
      rwa [h1, Nat.two_mul, ← show z.hs + z.ss = c.length + c.length by omega] at this
    | fixed c z hz hv hpre =>
      obtain ⟨k, hm, h1⟩ := (rows_listed _ (sizage_mem hz)).1 hv
      simp only at h1
      rw [← h1]
      exact .fixed c k hm hpre
    | «variable» c soft z k hz hv hpre hl hn =>
      obtain ⟨v, hm, h1, h2, h3⟩ := (rows_listed _ (sizage_mem hz)).2 hv
      simp only at h1 h2 h3
      have hB : IsB64 soft := b64ToUAux_ok hn
      have h4 := var_le v hm
      have := number_ok hB (by rw [hl, h3, ← h1]; exact h4)
      rw [hn] at this
      obtain rfl := Res.ok.inj this
      have := Spec.Ends.variable v soft hm (by rw [hl, h3, h1]) hB (by rw [h1]; exact hpre)
      rwa [h1, show 2 * c.length + 4 * Spec.b64Number soft = Spec.b64Number soft * 4 + (z.hs + z.ss) by omega] at this
  · intro h
    cases h with
    | code c rest _ e hh => exact .hard c rest n e (codeChars_iff.mp hh)
    | size v hm hpre =>
      obtain ⟨⟨c, z⟩, he, h1, h2, h3, h4⟩ := var_row v hm
      simp only at h1 h2 h3 h4
      have := Cut.soft c z (row_ok he).2.2 h2 (by rw [h1]; exact hpre)
      rwa [h3, h4, ← Nat.two_mul] at this
    | fixed c k hm hpre =>
      obtain ⟨⟨d, z⟩, he, h1, h2, h3⟩ := fixed_row _ hm
      simp only at h1 h2 h3
      rw [h3]
      exact .fixed d z (row_ok he).2.2 h2 (by rw [h1]; exact hpre)
    | «variable» v size hm hl hB hpre =>
      obtain ⟨⟨c, z⟩, he, h1, h2, h3, h4⟩ := var_row v hm
      simp only at h1 h2 h3 h4
      have h5 := var_le v hm
      have := Cut.variable c size z _ (row_ok he).2.2 h2 (by rw [h1]; exact hpre) (by rw [h4]; exact hl) (number_ok hB (by omega))
      rwa [h3, h4, show Spec.b64Number size * 4 + (v.code.length + v.code.length) = 2 * v.code.length + 4 * Spec.b64Number size by omega] at this

/-- Exactly which texts make the text parser panic. -/
theorem exfil_panic_all {s : Str} : exfil s = .panic ↔
    ((∃ p ∈ zeroSizeLead, p <+: s) ∨
    (∃ p ∈ oneQuadLead, ∃ x ∈ b64Alphabet, ∃ y ∈ ['A', 'Q', 'g', 'w'], p ++ [x, y, '=', '='] <+: s)) ∨
    ∃ n, Spec.Ends s n ∧ Splits s n := by
  constructor
  · intro h
    rcases exfil_panic_text h with ⟨n, h1, h2⟩ | ⟨c, z, size, body, rest, paw, hz, hls, -, hs, hbl, -, hd, hp⟩
    · exact .inr ⟨n, cut_ends.mp h1, h2⟩
    · exact .inl (lead_shape hz hls hs hbl hd hp)
  · rintro (h | ⟨n, h1, h2⟩)
    · exact lead_panics h
    · exact exfil_split (cut_ends.mpr h1) h2

end Matter

end Keride
