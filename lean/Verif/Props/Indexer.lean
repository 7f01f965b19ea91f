/-
C16-C19, C49: the Indexer primitive (indexer/mod.rs, indexer/tables.rs).

`chk` selects the build: `true` has integer overflow checks (debug), `false` has none (release).
-/
import Verif.Lemmas.IndexerPanic

namespace Keride.Props

open Spec
open Keride.Indexer

theorem sig_rows : ∀ e ∈ sigCodes, ∃ z, sizage e.code = .ok z ∧ z.ls = 0 ∧ z.fs ≠ u32Max ∧
    z.ss - z.os = e.indexChars ∧ z.os = e.ondexChars ∧ current e.code = e.currentOnly ∧
    both e.code = !e.currentOnly ∧ (z.fs - (z.hs + z.ss)) * 3 / 4 = e.bytes ∧
    (z.ss < 6 ↔ e.indexChars < 3) := by
  have h : ∀ e ∈ sigCodes, ∃ z ∈ sizageTable.map Prod.snd, sizage e.code = .ok z ∧ z.ls = 0 ∧ z.fs ≠ u32Max ∧
      z.ss - z.os = e.indexChars ∧ z.os = e.ondexChars ∧ current e.code = e.currentOnly ∧
      both e.code = (!e.currentOnly) ∧ (z.fs - (z.hs + z.ss)) * 3 / 4 = e.bytes ∧
      (z.ss < 6 ↔ e.indexChars < 3) := by decide +kernel
  intro e he
  obtain ⟨z, -, hz⟩ := h e he
  exact ⟨z, hz⟩

/-- What a construction with a signature code yields, in terms of the table of the specification. -/
theorem sig_new {e : SigCode} (he : e ∈ sigCodes) {raw : Bytes} {index : Nat} {ondex : Option Nat} {m : I} :
    newWithCodeAndRaw e.code raw index ondex = .ok m ↔
      index < 64 ^ e.indexChars ∧ (0 < e.ondexChars → ∀ o ∈ ondex, o < 64 ^ e.ondexChars) ∧
      (e.currentOnly = true → ondex = none) ∧ e.bytes ≤ raw.length ∧
      m = ⟨e.code, raw.take e.bytes, index, e.ondexOf index ondex⟩ := by
  obtain ⟨z, hz, hls, hfs, hms, hos, hcur, hboth, hb, -⟩ := sig_rows e he
  rw [new_iff]
  have hF : ∀ x, fsz ⟨e.code, raw, index, x⟩ z = z.fs := fun x => by rw [fsz, if_neg hfs]
  have hond : (e.currentOnly = true → ondex = none) →
      (if both e.code = true ∧ ondex.isNone = true then some index else ondex).getD 0 = e.ondexOf index ondex := by
    intro hc
    rw [hboth, SigCode.ondexOf]
    cases hcc : e.currentOnly with
    | true => rw [hc hcc]; simp
    | false => cases ondex <;> simp
  constructor
  · rintro ⟨z', hz', h1, h2, h3, h4, h5, rfl⟩
    rw [hz] at hz'
    obtain rfl := Res.ok.inj hz'
    rw [hF, hb] at h5
    rw [hms] at h1
    rw [hos] at h2
    have hc : e.currentOnly = true → ondex = none := by
      intro hc
      cases ondex with
      | none => rfl
      | some o => rw [hcur, hc] at h3; simp at h3
    exact ⟨h1, h2, hc, h5, by rw [hF, hb, hond hc]⟩
  · rintro ⟨h1, h2, h3, h4, rfl⟩
    refine ⟨z, hz, by rw [hms]; exact h1, by rw [hos]; exact h2, ?_, ?_, by rw [hF, hb]; exact h4,
      by rw [hF, hb, hond h3]⟩
    · rintro ⟨hc, hs⟩
      rw [h3 (by rw [← hcur]; exact hc)] at hs
      simp at hs
    · intro hbo _ o ho
      rw [hboth] at hbo
      rw [h3 (by simpa using hbo)] at ho
      simp at ho

theorem sig_parse {e : SigCode} (he : e ∈ sigCodes) {raw : Bytes} {index : Nat} {ondex : Option Nat} {m : I}
    (h : newWithCodeAndRaw e.code raw index ondex = .ok m) :
    ∃ z, Enc m z ∧ (current m.code = true → z.os ≠ 0 → m.ondex = 0) ∧ (z.ss < 6 ↔ e.indexChars < 3) ∧
      ((ondex = none ∨ e.ondexChars ≠ 0 ∨ ondex = some index) → seenOndex m z = m.ondex) := by
  obtain ⟨z, hz, hls, hfs, hms, hos, hcur, hboth, hb, h6⟩ := sig_rows e he
  obtain ⟨z', hz', h1, h2⟩ := new_enc h
  rw [hz] at hz'
  obtain rfl := Res.ok.inj hz'
  refine ⟨z, h1 hls, h2, h6, fun hc => ?_⟩
  obtain ⟨-, -, hc3, -, rfl⟩ := (sig_new he).mp h
  unfold seenOndex
  simp only [hcur, hos, SigCode.ondexOf]
  split
  · rfl
  · split
    · rename_i h0
      rcases hc with rfl | hc | rfl
      · rfl
      · exact absurd h0 hc
      · rfl
    · rfl

/-- C16, for every case in which the code can represent the requested ondex: no ondex requested, a code
with ondex characters, or an ondex equal to the index. Missing: codes A, C, E with another ondex, for
which the claim is false (`C16_false`). -/
theorem C16_roundtrip_partial (chk : Bool) (e : SigCode) (he : e ∈ sigCodes) (raw : Bytes) (index : Nat)
    (ondex : Option Nat) (hcase : ondex = none ∨ e.ondexChars ≠ 0 ∨ ondex = some index) (m : I)
    (h : newWithCodeAndRaw e.code raw index ondex = .ok m) :
    m = ⟨e.code, raw.take e.bytes, index, e.ondexOf index ondex⟩ ∧
    ∃ s, qb64 chk m = .ok s ∧ IsBase64 s ∧ e.code <+: s ∧ qb64b chk m = .ok (toUtf8 s) ∧
      ∀ chk', newWithQb64 chk' s = .ok m ∧ newWithQb64b chk' (toUtf8 s) = .ok m := by
  obtain ⟨z, henc, hcur, -, hs⟩ := sig_parse he h
  obtain ⟨-, -, -, -, hm⟩ := (sig_new he).mp h
  have hx : ∀ chk', exfil chk' (b64Text (sx m z)) = .ok m := by
    intro chk'
    have := exfil_text chk' henc hcur []
    rw [List.append_nil, hs hcase] at this
    exact this
  refine ⟨hm, _, infil_wf chk henc, isB64_text (sx_sextets henc), ?_, by rw [qb64b, qb64, infil_wf chk henc, Res.ok_bind],
    fun chk' => ⟨hx chk', by rw [newWithQb64b, fromUtf8_toUtf8, Res.ok_bind, hx]⟩⟩
  rw [sx_text henc, code_text henc.row, List.append_assoc, List.append_assoc]
  have : m.code = e.code := by rw [hm]
  rw [this]
  exact List.prefix_append _ _

example : ∃ m, newWithCodeAndRaw (str% "2A") (List.replicate 64 7) 4095 (some 64) = .ok m ∧ m.ondex = 64 ∧
    ⟨str% "2A", 2, 2, false, 64⟩ ∈ sigCodes :=
  ⟨⟨str% "2A", List.replicate 64 7, 4095, 64⟩, by decide +kernel, by decide +kernel, by decide +kernel⟩

/-- C16 is false: code A accepts ondex 5 with index 3, encodes, and parses back with ondex 3. -/
theorem C16_false : ∃ m s m', newWithCodeAndRaw (str% "A") (List.replicate 64 0) 3 (some 5) = .ok m ∧
    m.ondex = 5 ∧ qb64 true m = .ok s ∧ newWithQb64 true s = .ok m' ∧ m'.ondex = 3 ∧
    qb64 false m = .ok s ∧ newWithQb64 false s = .ok m' := by
  refine ⟨⟨str% "A", List.replicate 64 0, 3, 5⟩, 'A' :: 'D' :: List.replicate 86 'A',
    ⟨str% "A", List.replicate 64 0, 3, 3⟩, ?_⟩
  decide +kernel

/-- C17: without overflow checks (release) for every code; with them (debug) for the codes with fewer than
three index characters. `qb2` is the Base64 decoding of `qb64` and parses back. The ondex proviso is that
of C16; missing: codes 3A and 3B in a debug build, see `C17_debug_false`. -/
theorem C17_roundtrip_partial (chk : Bool) (e : SigCode) (he : e ∈ sigCodes) (hchk : chk = false ∨ e.indexChars < 3)
    (raw : Bytes) (index : Nat) (ondex : Option Nat) (m : I)
    (h : newWithCodeAndRaw e.code raw index ondex = .ok m) :
    ∃ s b, qb64 chk m = .ok s ∧ qb2 chk m = .ok b ∧ b64Decode s = .ok b ∧
      ((ondex = none ∨ e.ondexChars ≠ 0 ∨ ondex = some index) → ∀ chk', newWithQb2 chk' b = .ok m) := by
  obtain ⟨z, henc, hcur, h6, hs⟩ := sig_parse he h
  have hf := henc.frame
  refine ⟨_, _, infil_wf chk henc, binfil_wf henc (hchk.imp id h6.mpr), ?_, fun hcase chk' => ?_⟩
  · exact b64Decode_text _ _ (sx_sextets henc) (by rw [sx_length henc]; have := hf.mod; omega)
  · have := bexfil_bytes chk' henc hcur []
    rw [List.append_nil, hs hcase] at this
    exact this

example : qb2 false ⟨str% "3A", List.replicate 114 1, 262143, 5⟩ ≠ .panic ∧
    (qb2 false ⟨str% "3A", List.replicate 114 1, 262143, 5⟩).isOk = true ∧
    newWithCodeAndRaw (str% "3A") (List.replicate 114 1) 262143 (some 5) =
      .ok ⟨str% "3A", List.replicate 114 1, 262143, 5⟩ := by decide +kernel

/-- C17 is false in a debug build: `qb2()` panics for every object with code 3A or 3B. -/
theorem C17_debug_false (raw : Bytes) (index : Nat) (ondex : Option Nat) (m : I) (code : Str)
    (hc : code = str% "3A" ∨ code = str% "3B") (h : newWithCodeAndRaw code raw index ondex = .ok m) :
    qb2 true m = .panic := by
  obtain ⟨z, hz, -, -, -, -, -, rfl⟩ := new_iff.mp h
  have : z = ⟨2, 6, 3, 160, 0⟩ := by
    rcases hc with rfl | rfl
    · have e : sizage (str% "3A") = .ok ⟨2, 6, 3, 160, 0⟩ := by decide +kernel
      rw [e] at hz; exact (Res.ok.inj hz).symm
    · have e : sizage (str% "3B") = .ok ⟨2, 6, 3, 160, 0⟩ := by decide +kernel
      rw [e] at hz; exact (Res.ok.inj hz).symm
  subst this
  unfold qb2 binfil
  simp only
  rw [hz, Res.ok_bind]
  have : powU32 true 64 6 = .panic := by decide
  simp only
  rw [this, Res.panic_bind]

example : (newWithCodeAndRaw (str% "3B") (List.replicate 114 0) 1 none).isOk = true := by decide +kernel

/-- C18: exactly when an index and ondex are accepted, for codes that hold an ondex or are current-only;
nothing is changed; no panic. For the codes A, C, E (no ondex characters, not current-only) every ondex is
accepted instead of only the index itself: that part of the claim is false (`C18_false`). -/
theorem C18_bounds_partial (e : SigCode) (he : e ∈ sigCodes) (raw : Bytes) (hraw : e.bytes ≤ raw.length)
    (index : Nat) (ondex : Option Nat) :
    ((newWithCodeAndRaw e.code raw index ondex).isOk = true ↔
      index < 64 ^ e.indexChars ∧
      (∀ o, ondex = some o → e.currentOnly = false ∧ (e.ondexChars ≠ 0 → o < 64 ^ e.ondexChars))) ∧
    (∀ m, newWithCodeAndRaw e.code raw index ondex = .ok m → m.index = index ∧ m.ondex = e.ondexOf index ondex) ∧
    newWithCodeAndRaw e.code raw index ondex ≠ .panic := by
  refine ⟨?_, fun m h => ?_, ?_⟩
  · rw [Res.isOk_iff]
    constructor
    · rintro ⟨m, h⟩
      obtain ⟨h1, h2, h3, -, -⟩ := (sig_new he).mp h
      refine ⟨h1, ?_⟩
      rintro o rfl
      refine ⟨?_, fun h0 => h2 (by omega) o rfl⟩
      cases hc : e.currentOnly with
      | false => rfl
      | true => exact absurd (h3 hc) nofun
    · rintro ⟨h1, h2⟩
      refine ⟨_, (sig_new he).mpr ⟨h1, fun h0 o ho => (h2 o ho).2 (by omega), fun hc => ?_, hraw, rfl⟩⟩
      cases ondex with
      | none => rfl
      | some o => have := (h2 o rfl).1; rw [hc] at this; exact absurd this nofun
  · obtain ⟨-, -, -, -, rfl⟩ := (sig_new he).mp h
    exact ⟨rfl, rfl⟩
  · obtain ⟨z, hz, hls, hfs, -⟩ := sig_rows e he
    unfold newWithCodeAndRaw
    split
    · exact nofun
    rw [hz, Res.ok_bind]
    simp only
    rw [if_neg hfs, Res.ok_bind]
    split
    · exact nofun
    split
    · exact nofun
    split
    · exact nofun
    split
    · exact nofun
    split <;> exact nofun

example : (newWithCodeAndRaw (str% "A") (List.replicate 64 0) 63 none).isOk = true ∧
    (newWithCodeAndRaw (str% "A") (List.replicate 64 0) 64 none).isErr = true ∧
    (newWithCodeAndRaw (str% "0A") (List.replicate 114 0) 63 (some 64)).isErr = true ∧
    (newWithCodeAndRaw (str% "2B") (List.replicate 64 0) 63 (some 0)).isErr = true := by decide +kernel

/-- C18 is false for A, C and E: an ondex the code has no room for is accepted. -/
theorem C18_false : ∀ c ∈ [str% "A", str% "C", str% "E"],
    ∃ e ∈ sigCodes, e.code = c ∧ e.ondexChars = 0 ∧ e.currentOnly = false ∧
      (newWithCodeAndRaw c (List.replicate 64 0) 3 (some 4294967295)).isOk = true := by
  decide +kernel

/-- C18, `Indexer::new`: raw needs a code and uses the given index (zero if absent) and ondex; otherwise
the encodings are tried in the order text bytes, text, binary. -/
theorem C18_constructor (chk : Bool) (index ondex : Option Nat) (code : Option Str) (raw qb64b : Option Bytes)
    (qb64 : Option Str) (qb2 : Option Bytes) :
    (∀ c r i, code = some c → raw = some r → index = some i →
      new chk index ondex code raw qb64b qb64 qb2 = newWithCodeAndRaw c r i ondex) ∧
    (∀ c r, code = some c → raw = some r → index = none →
      new chk index ondex code raw qb64b qb64 qb2 = newWithCodeAndRaw c r 0 ondex) ∧
    (∀ r, code = none → raw = some r → (new chk index ondex code raw qb64b qb64 qb2).isErr = true) ∧
    (∀ b, raw = none → qb64b = some b → new chk index ondex code raw qb64b qb64 qb2 = newWithQb64b chk b) ∧
    (∀ s, raw = none → qb64b = none → qb64 = some s →
      new chk index ondex code raw qb64b qb64 qb2 = newWithQb64 chk s) ∧
    (∀ b, raw = none → qb64b = none → qb64 = none → qb2 = some b →
      new chk index ondex code raw qb64b qb64 qb2 = newWithQb2 chk b) ∧
    (raw = none → qb64b = none → qb64 = none → qb2 = none →
      (new chk index ondex code raw qb64b qb64 qb2).isErr = true) := by
  refine ⟨?_, ?_, ?_, ?_, ?_, ?_, ?_⟩ <;> intros <;> subst_vars <;> rfl

/-- C19: length, trailing data and truncation, text and binary. The parse of the encoding followed by
anything is the same as the parse of the encoding. -/
theorem C19_framing (chk : Bool) (e : SigCode) (he : e ∈ sigCodes) (raw : Bytes) (index : Nat)
    (ondex : Option Nat) (m : I) (h : newWithCodeAndRaw e.code raw index ondex = .ok m) :
    ∃ s m', qb64 chk m = .ok s ∧ fullSize chk m = .ok s.length ∧ newWithQb64 chk s = .ok m' ∧
      (∀ t, newWithQb64 chk (s ++ t) = .ok m') ∧ (∀ t, newWithQb64b chk (toUtf8 (s ++ t)) = .ok m') ∧
      (∀ k < s.length, (newWithQb64 chk (s.take k)).isErr = true) ∧
      (∀ b, b64Decode s = .ok b → b.length = 3 * (s.length / 4) ∧ newWithQb2 chk b = .ok m' ∧
        (∀ t, newWithQb2 chk (b ++ t) = .ok m') ∧
        (∀ k < b.length, (newWithQb2 chk (b.take k)).isErr = true)) := by
  obtain ⟨z, henc, hcur, -, -⟩ := sig_parse he h
  have hf := henc.frame
  have hx := exfil_text chk henc hcur
  have hsl : (b64Text (sx m z)).length = fsz m z := by rw [b64Text_length, sx_length henc]
  refine ⟨_, _, infil_wf chk henc, by rw [fullSize_wf chk henc, hsl], by rw [← hx [], List.append_nil]; rfl,
    hx, fun t => by rw [newWithQb64b, fromUtf8_toUtf8, Res.ok_bind, hx], ?_, ?_⟩
  · intro k hk
    exact exfil_truncated henc (by omega)
  · intro b hb
    rw [b64Decode_text (fsz m z / 4) _ (sx_sextets henc) (by rw [sx_length henc]; have := hf.mod; omega)] at hb
    obtain rfl := Res.ok.inj hb
    have hy := bexfil_bytes chk henc hcur
    refine ⟨by rw [beBytes_length, hsl], by rw [← hy [], List.append_nil]; rfl, hy, fun k hk => ?_⟩
    rw [beBytes_length] at hk
    exact bexfil_truncated henc hk

/-- C49, canonicity. If text is accepted and its code has no lead bytes (is not `1z`, `4z`) and no `=`
occurs in the consumed part, then the consumed part is exactly the encoding of the result; binary likewise,
for release builds (`C17_debug_false` shows the debug `qb2` of 3A/3B). Missing: texts with `=` and the two
lead-byte codes, for which it is false (`C49_canonical_false`). -/
theorem C49_canonical_partial (chk : Bool) :
    (∀ s m, newWithQb64 chk s = .ok m → m.code ≠ str% "1z" → m.code ≠ str% "4z" →
      ∃ n, fullSize chk m = .ok n ∧ ('=' ∉ s.take n → qb64 chk m = .ok (s.take n))) ∧
    (∀ q m, newWithQb2 chk q = .ok m → m.code ≠ str% "1z" → m.code ≠ str% "4z" →
      ∃ n b, fullSize chk m = .ok n ∧ qb2 false m = .ok b ∧ b = q.take (3 * (n / 4))) := by
  have hlead : ∀ e ∈ sizageTable, e.1 ≠ str% "1z" → e.1 ≠ str% "4z" → e.2.ls = 0 := by decide +kernel
  constructor
  · intro s m h h1 h2
    obtain ⟨p⟩ := exfil_ok h
    have hls := hlead _ (sizage_mem p.seen.row) h1 h2
    have r := row_ok p.seen.row
    have hcs := r.cs
    have hle := fsz_le p.seen.row
    -- full_size does not depend on the raw bytes
    have hfull : fullSize chk m = .ok (fsz m p.z) := by
      have hlt := pow3 p.seen.idx r.ms3
      unfold fullSize fsz
      rw [p.seen.row, Res.ok_bind]
      split
      · rfl
      · rename_i e
        rw [mulU32, if_pos (by omega), Res.ok_bind, addU32, if_pos (by omega), if_pos (by omega)]
    refine ⟨_, hfull, fun hne => ?_⟩
    have hcA : Ascii (b64Text (codeSx m p.z)) := (isB64_text (codeSx_sextets p.seen.row)).ascii
    have hcl : (b64Text (codeSx m p.z)).length = p.z.hs + p.z.ss := by
      rw [b64Text_length, codeSx_length p.seen.row]
    have hbody : '=' ∉ p.body := by
      intro hm
      refine hne ?_
      have hbl : p.body.length ≤ fsz m p.z - (p.z.hs + p.z.ss) := by
        rw [← p.len_body]; exact length_le_len _
      have e : s.take (fsz m p.z) = (b64Text (codeSx m p.z) ++ (p.body ++ p.rest)).take (fsz m p.z) := by
        rw [← List.append_assoc, ← p.split]
      rw [e, List.take_append, List.mem_append]
      right
      rw [List.take_append, List.mem_append]
      left
      rw [List.take_of_length_le (l := p.body) (by rw [hcl]; exact hbl)]
      exact hm
    obtain ⟨henc, hs⟩ := exfil_canonical p hbody hls
    rw [qb64, infil_wf chk henc]
    congr 1
    have hl : (b64Text (sx m p.z)).length = fsz m p.z := by rw [b64Text_length, sx_length henc]
    generalize b64Text (sx m p.z) = T at hs hl
    generalize p.rest = R at hs
    generalize fsz m p.z = F at hl
    rw [hs, List.take_left' hl]
  · intro q m h h1 h2
    obtain ⟨z, o, hseen, -, -, himp⟩ := bexfil_ok h
    have hls := hlead _ (sizage_mem hseen.row) h1 h2
    obtain ⟨henc, rest, hq⟩ := himp hls
    refine ⟨_, _, fullSize_wf chk henc, binfil_wf henc (.inl rfl), ?_⟩
    rw [hq, List.take_left' (beBytes_length _ _)]

example : ∃ m, newWithQb64 true (str% "0zAC12345678rest") = .ok m ∧ m.index = 2 ∧
    qb64 true m = .ok (str% "0zAC12345678") :=
  ⟨⟨str% "0z", [215, 109, 248, 231, 174, 252], 2, 2⟩, by decide +kernel, by decide +kernel, by decide +kernel⟩

/-- C49 is false for text: `=` inside the material is accepted although it is never produced, and a parsed
`1z` object cannot be encoded (error in release, panic in debug). -/
theorem C49_canonical_false :
    (∃ m, newWithQb64 false ('A' :: 'A' :: (List.replicate 85 'A' ++ ['='])) = .ok m ∧
      m.raw.length = 63 ∧ (qb64 false m).isErr = true) ∧
    (∃ m, newWithQb64 false (str% "1zAA" ++ List.replicate 72 'A') = .ok m ∧
      (qb64 false m).isErr = true ∧ qb64 true m = .panic) := by
  refine ⟨⟨⟨str% "A", List.replicate 63 0, 0, 0⟩, ?_⟩, ⟨⟨str% "1z", List.replicate 54 0, 0, 0⟩, ?_⟩⟩ <;>
    decide +kernel

/-- C49, no panics: on binary input, on text bytes and text that are ASCII. Other texts can panic
(`C49_panic_false`), and `C49_text_partial` says which. -/
theorem C49_no_panic_partial (chk : Bool) :
    (∀ q, newWithQb2 chk q ≠ .panic) ∧ (∀ s, IsAscii s → newWithQb64 chk s ≠ .panic) ∧
    (∀ b, (∀ x ∈ b, x < 128) → newWithQb64b chk b ≠ .panic) := by
  refine ⟨bexfil_ne_panic chk, fun s hs => exfil_ne_panic (Matter.ascii_iff.mp hs), fun b hb => ?_⟩
  rw [newWithQb64b, Ne, Res.bind_eq_panic]
  rintro (h | ⟨s, h1, h⟩)
  · exact fromUtf8_ne_panic _ h
  · exact exfil_ne_panic (fromUtf8_ascii hb h1) h

example : (newWithQb64 true (str% "0A!!")).isErr = true := by decide +kernel

/-- C49 is false for text in general: a slice in the middle of a character panics. -/
theorem C49_panic_false : newWithQb64 true ['0', 'é', 'A', 'A'] = .panic ∧
    newWithQb64 false ['0', 'é', 'A', 'A'] = .panic := by decide +kernel

/-- C49, exact: text panics precisely when a character of several bytes lies across the end of a part of the primitive
that the text begins with (Spec/Sigs.lean). -/
theorem C49_text_partial (chk : Bool) (s : Str) : newWithQb64 chk s = .panic ↔ ∃ n, IndexEnds s n ∧ Splits s n :=
  exfil_panic_iff

/-- A character across the end of the code, of the index, of the ondex, and of the whole. -/
example : (IndexEnds ['0', 'é'] 2 ∧ Splits ['0', 'é'] 2) ∧ (IndexEnds ['A', 'é'] 2 ∧ Splits ['A', 'é'] 2) ∧
    (IndexEnds (str% "2AAAAé") 6 ∧ Splits (str% "2AAAAé") 6) ∧
    IndexEnds (List.replicate 87 'A' ++ ['é']) 88 ∧ Splits (List.replicate 87 'A' ++ ['é']) 88 :=
  ⟨⟨.code '0' ['é'] rfl (by decide), ['0'], 'é', [], rfl, by decide, by decide⟩,
    ⟨.index ⟨str% "A", 1, 0, false, some 88⟩ (by decide) ⟨['é'], rfl⟩ (by decide), ['A'], 'é', [], rfl, by decide, by decide⟩,
    ⟨.ondex ⟨str% "2A", 2, 2, false, some 92⟩ (str% "AA") (by decide) rfl (by unfold IsBase64; decide) ⟨str% "Aé", rfl⟩,
      str% "2AAAA", 'é', [], rfl, by decide, by decide⟩,
    .all ⟨str% "A", 1, 0, false, some 88⟩ (str% "A") [] (by decide) rfl (by unfold IsBase64; decide) rfl (by unfold IsBase64; decide) (by decide)
      ⟨List.replicate 85 'A' ++ ['é'], rfl⟩, List.replicate 87 'A', 'é', [], rfl, by decide +kernel, by decide +kernel⟩

/-- C49, bytes of text: they panic precisely when they are UTF-8 of a text that does. -/
theorem C49_text_bytes_partial (chk : Bool) (b : Bytes) : newWithQb64b chk b = .panic ↔
    ∃ s, fromUtf8 b = .ok s ∧ newWithQb64 chk s = .panic := by
  rw [newWithQb64b, Res.bind_eq_panic]
  exact ⟨fun h => h.resolve_left (fromUtf8_ne_panic b), .inr⟩

end Keride.Props
