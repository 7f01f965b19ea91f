/-
C23-C25, C50: Number and Seqner (number.rs, seqner.rs).
-/
import Verif.Lemmas.Number

namespace Keride.Props

open Spec Matter

/-- The four number codes of CESR with the width of their unsigned integer in bytes. -/
def numberCodes : List (Str × Nat) := [(str% "M", 2), (str% "0H", 4), (str% "N", 8), (str% "0A", 16)]

/-- C23: a Number made of `n` reads back as `n`, its hex text parses back to the same Number, the code is
the narrowest one that can hold `n`, and all encodings preserve it. -/
theorem C23_lossless (chk : Bool) (n : Nat) (hn : n < 2 ^ 128) :
    ∃ m, Number.newWithNum n = .ok m ∧ Number.num m = .ok n ∧
      Number.positive m = .ok (decide (n ≠ 0)) ∧
      (∃ h, Number.numh m = .ok h ∧ Number.newWithNumh h = .ok m) ∧
      (∃ k, (m.code, k) ∈ numberCodes ∧ m.raw.length = k ∧ n < 256 ^ k ∧
        ∀ e ∈ numberCodes, n < 256 ^ e.2 → k ≤ e.2) ∧
      (∃ s, qb64 chk m = .ok s ∧ Number.newWithQb64 s = .ok m ∧ Number.newWithQb64b (toUtf8 s) = .ok m) ∧
      (∃ b, qb2 m = .ok b ∧ Number.newWithQb2 b = .ok m) := by
  obtain ⟨c, k, hck, hlt, hmin, hof⟩ := Number.ofNum_eq hn
  have hnum : Number.num ⟨c, 0, beBytes k n⟩ = .ok n := by
    rw [Number.num_of hck, if_pos (by simp), beVal_beBytes, Nat.mod_eq_of_lt hlt]
  obtain ⟨z, hw⟩ := Number.wf_fixed_mk (Number.sizes_fixed _ hck) (raw := beBytes k n) (by simp)
  obtain ⟨s, b, h1, h2, h3, h4, h5, -⟩ := Number.roundtrip chk hw
  refine ⟨_, hof, hnum, ?_, ?_, ⟨k, hck, by simp, hlt, hmin⟩, ⟨s, h1, h3, h4⟩, b, h2, h5⟩
  · rw [Number.positive, hnum, Res.ok_bind]; congr 1; simp [Nat.pos_iff_ne_zero]
  · refine ⟨_, by rw [Number.numh, hnum, Res.ok_bind], ?_⟩
    rw [Number.newWithNumh_eq (fmtNat_spec (by decide) (by decide) n).1,
      parse_fmt (by decide) (by decide) (by rw [u128Max]; omega), Res.ok_bind, hof]

example : Number.newWithNum 65536 = .ok ⟨str% "0H", 0, [0, 1, 0, 0]⟩ ∧
    Number.numh ⟨str% "0H", 0, [0, 1, 0, 0]⟩ = .ok (str% "10000") := by decide +kernel

/-- The hexadecimal digit `d` in lower or upper case. -/
def hexDigit (d : Nat × Bool) : Char :=
  (if d.2 then str% "0123456789ABCDEF" else str% "0123456789abcdef").getD d.1 '0'

/-- The number written by digits, most significant first. -/
def hexValue (ds : List (Nat × Bool)) : Nat := (ds.map Prod.fst).foldl (fun x d => x * 16 + d) 0

/-- C23, hex texts: digits in either case, with leading zeros, are read as the number they write; a number
beyond 128 bits is an error, it does not wrap. -/
theorem C23_hex (ds : List (Nat × Bool)) (hd : ∀ d ∈ ds, d.1 < 16) (hne : ds ≠ []) :
    Number.newWithNumh (ds.map hexDigit) =
      if hexValue ds < 2 ^ 128 then Number.newWithNum (hexValue ds) else .err .parseInt := by
  have htab : ∀ d < 16, ∀ u : Bool, toDigit 16 (hexDigit (d, u)) = some d ∧ hexDigit (d, u) ≠ '+' := by
    decide +kernel
  have hne' : ds.map hexDigit ≠ [] := by simpa using hne
  have hval := radixVal_map (b := 16) hexDigit Prod.fst ds (fun d h => (htab d.1 (hd d h) d.2).1) 0
  have hstrip : stripPlus (ds.map hexDigit) = ds.map hexDigit := by
    cases ds with
    | nil => rfl
    | cons d ds =>
      rw [List.map_cons, stripPlus, if_neg (htab d.1 (hd d List.mem_cons_self) d.2).2]
  rw [Number.newWithNumh_eq hne', parseUnsigned, hstrip, if_neg hne', hval]
  change (if hexValue ds ≤ u128Max then (.ok (hexValue ds) : Res Nat) else .err .parseInt) >>= Number.ofNum = _
  by_cases h : hexValue ds < 2 ^ 128
  · rw [if_pos (by rw [u128Max]; omega), if_pos h, Res.ok_bind, Number.newWithNum_eq]
  · rw [if_neg (by rw [u128Max]; omega), if_neg h, Res.err_bind]

example : Number.newWithNumh (str% "0fF") = Number.newWithNum 255 ∧
    [(0, false), (15, false), (15, true)].map hexDigit = str% "0fF" := by decide +kernel

/-- C23, hex texts: a character that is neither a hexadecimal digit nor a plus sign is an error. -/
theorem C23_hex_reject (h : Str) (c : Char) (hc : c ∈ h) (hx : c ∉ str% "0123456789abcdefABCDEF+") :
    (Number.newWithNumh h).isErr = true := by
  have h1 : c ∉ str% "0123456789abcdefABCDEF" := by
    intro hm; apply hx
    simp only [List.mem_cons, List.not_mem_nil, or_false] at hm ⊢
    tauto
  have h2 : c ≠ '+' := by rintro rfl; exact hx (by decide)
  rw [Number.newWithNumh_eq (by rintro rfl; simp at hc), parseUnsigned_bad (toDigit16_none h1) h2 hc]
  rfl

example : 'g' ∈ (str% "1g") ∧ 'g' ∉ str% "0123456789abcdefABCDEF+" := by decide

/-- C24 is false: `MAA=` is accepted as a Number, and reading it panics. -/
theorem C24_false : ∃ m, Number.newWithQb64 (str% "MAA=") = .ok m ∧ Number.num m = .panic ∧
    Number.numh m = .panic ∧ Number.positive m = .panic :=
  ⟨⟨str% "M", 0, [0]⟩, by decide, by decide, by decide, by decide⟩

/-- C24, partial: the accessors of a Number from any constructor call return without panic, provided the
text given holds no `=`. Missing: texts with `=`, see `C24_false`. -/
theorem C24_no_panic_partial (num : Option Nat) (numh code : Option Str) (raw qb64b : Option Bytes)
    (qb64 : Option Str) (qb2 : Option Bytes) (m : M)
    (hs : ∀ s, qb64 = some s → '=' ∉ s) (hb : ∀ b, qb64b = some b → (61 : UInt8) ∉ b)
    (hn : ∀ n, num = some n → n < 2 ^ 128)
    (h : Number.new num numh code raw qb64b qb64 qb2 = .ok m) :
    Number.num m ≠ .panic ∧ Number.numh m ≠ .panic ∧ Number.positive m ≠ .panic := by
  suffices Number.num m ≠ .panic by
    refine ⟨this, ?_, ?_⟩
    · rw [Number.numh, ne_eq, Res.bind_eq_panic]
      rintro (h | ⟨a, -, h⟩)
      · exact this h
      · simp at h
    · rw [Number.positive, ne_eq, Res.bind_eq_panic]
      rintro (h | ⟨a, -, h⟩)
      · exact this h
      · simp at h
  unfold Number.new at h
  split at h
  · obtain ⟨n, h1, h2⟩ := Res.bind_eq_ok.mp h
    have hlt : n < 2 ^ 128 := by
      split at h1
      · rw [← Res.ok.inj h1]; exact hn _ rfl
      · split at h1
        · split at h1
          · rw [← Res.ok.inj h1]; decide
          · have := parseUnsigned_le h1
            rw [u128Max] at this; omega
        · rw [← Res.ok.inj h1]; decide
    obtain ⟨c, k, hck, hlt, -, hof⟩ := Number.ofNum_eq hlt
    rw [hof] at h2
    rw [← Res.ok.inj h2, Number.num_of hck, if_pos (by simp)]
    simp
  · obtain ⟨u, h1, h2⟩ := Res.bind_eq_ok.mp h
    obtain ⟨z, hw⟩ := new_any_wf h2 (by
      intro c hc _
      rw [← Option.some.inj hc]
      unfold Number.validateCode at h1
      split at h1
      · rename_i hm
        have : ∀ c ∈ Number.codex, c ∈ matterCodes := by decide +kernel
        exact this _ (List.contains_iff_mem.mp hm)
      · simp at h1) hs hb
    exact Number.num_wf hw

example : Number.new none none (some (str% "N")) (some [0, 0, 0, 0, 0, 0, 1, 2, 3]) none none none =
    .ok ⟨str% "N", 0, [0, 0, 0, 0, 0, 0, 1, 2]⟩ := by decide +kernel

/-- C25: a Seqner made of `n` reads back as `n`, its hex text parses back, its text form has 24
characters, and all encodings preserve it. -/
theorem C25_lossless (chk : Bool) (n : Nat) (hn : n < 2 ^ 128) :
    ∃ m, Seqner.newWithSn n = .ok m ∧ Seqner.sn m = .ok n ∧
      (∃ h, Seqner.snh m = .ok h ∧ Seqner.newWithSnh h = .ok m) ∧
      (∃ s, qb64 chk m = .ok s ∧ s.length = 24 ∧ Seqner.newWithQb64 s = .ok m ∧
        Seqner.newWithQb64b (toUtf8 s) = .ok m) ∧
      (∃ b, qb2 m = .ok b ∧ b.length = 18 ∧ Seqner.newWithQb2 b = .ok m) := by
  have hfc : ((str% "0A"), 16) ∈ fixedCodes := by decide
  have hsn : Seqner.sn ⟨str% "0A", 0, beBytes 16 n⟩ = .ok n := by
    rw [Seqner.sn, if_pos (by simp)]
    simp only
    rw [List.take_of_length_le (by simp), beVal_beBytes,
      Nat.mod_eq_of_lt (by rw [show (256 : Nat) ^ 16 = 2 ^ 128 by decide]; exact hn)]
  obtain ⟨z, hw⟩ := Number.wf_fixed_mk hfc (raw := beBytes 16 n) (by simp)
  obtain ⟨s, b, h1, h2, h3, h4, h5, -, h6, h7⟩ := Number.roundtrip chk hw
  have hz : z = ⟨2, 0, 24, 0⟩ := by
    have := hw.row
    rw [show sizage (str% "0A") = .ok ⟨2, 0, 24, 0⟩ by decide] at this
    exact (Res.ok.inj this).symm
  refine ⟨⟨str% "0A", 0, beBytes 16 n⟩, Seqner.newWithSn_eq n, hsn, ?_, ⟨s, h1, ?_, Seqner.newWithQb64_eq h3,
    Seqner.newWithQb64b_eq h4⟩, b, h2, ?_, Seqner.newWithQb2_eq h5⟩
  · refine ⟨_, by rw [Seqner.snh, hsn, Res.ok_bind], ?_⟩
    exact Seqner.newWithSnh_eq (parse_fmt (by decide) (by decide) (by rw [u128Max]; omega))
  · rw [h6, hz]; rfl
  · rw [h7, List.length_append, List.length_append, bcode_length, hz]; simp

/-- C25: numeric order of sequence numbers is the byte order of their binary forms. -/
theorem C25_order (m n : Nat) (hm : m < 2 ^ 128) (hn : n < 2 ^ 128) (p q : M) (a b : Bytes)
    (h1 : Seqner.newWithSn m = .ok p) (h2 : Seqner.newWithSn n = .ok q) (ha : qb2 p = .ok a)
    (hb : qb2 q = .ok b) : m < n ↔ a < b := by
  have hfc : ((str% "0A"), 16) ∈ fixedCodes := by decide
  have key : ∀ (n : Nat) (q : M) (b : Bytes), n < 2 ^ 128 → Seqner.newWithSn n = .ok q → qb2 q = .ok b →
      b.length = 18 ∧ beVal b = 208 * 256 ^ 17 + n := by
    intro n q b hn hq hb
    rw [Seqner.newWithSn_eq] at hq
    have hq' : (⟨str% "0A", 0, beBytes 16 n⟩ : M) = q := Res.ok.inj hq
    obtain ⟨z, hw⟩ := Number.wf_fixed_mk hfc (raw := beBytes 16 n) (by simp)
    have hz : z = ⟨2, 0, 24, 0⟩ := by
      have := hw.row
      rw [show sizage (str% "0A") = .ok ⟨2, 0, 24, 0⟩ by decide] at this
      exact (Res.ok.inj this).symm
    have hb' := binfil_wf hw
    rw [bytes_sx hw] at hb'
    rw [qb2, ← hq'] at hb
    rw [hb] at hb'
    rw [Res.ok.inj hb', hz]
    refine ⟨by rw [List.length_append, List.length_append, bcode_length]; simp, ?_⟩
    rw [List.append_assoc, beVal_append]
    simp only [List.replicate_zero, List.nil_append, beBytes_length]
    rw [beVal_beBytes, Nat.mod_eq_of_lt (by rw [show (256 : Nat) ^ 16 = 2 ^ 128 by decide]; exact hn)]
    rw [show bcode ⟨str% "0A", 0, beBytes 16 n⟩ ⟨2, 0, 24, 0⟩ = [208, 0] by
      simp only [bcode]; decide]
    rw [show beVal [208, 0] = 208 * 256 by decide, Nat.mul_assoc]
    rw [show (256 : Nat) * 256 ^ 16 = 256 ^ 17 by decide]
  obtain ⟨l1, v1⟩ := key m p a hm h1 ha
  obtain ⟨l2, v2⟩ := key n q b hn h2 hb
  rw [lt_iff_beVal_lt (by rw [l1, l2]), v1, v2]
  omega

example : ∃ p a, Seqner.newWithSn 255 = .ok p ∧ qb2 p = .ok a ∧
    a = [208, 0, 0, 0, 0, 0, 0, 0, 0, 0, 0, 0, 0, 0, 0, 0, 0, 255] :=
  ⟨⟨str% "0A", 0, beBytes 16 255⟩, [208, 0, 0, 0, 0, 0, 0, 0, 0, 0, 0, 0, 0, 0, 0, 0, 0, 255],
    by decide +kernel, by decide +kernel, rfl⟩

/-- C50 is false: a Seqner text padded with `=` is accepted with 15 raw bytes, and reading it panics. -/
theorem C50_false : ∃ m, Seqner.newWithQb64 (str% "0AAAAAAAAAAAAAAAAAAAAAA=") = .ok m ∧
    Seqner.sn m = .panic ∧ Seqner.snh m = .panic :=
  ⟨⟨str% "0A", 0, List.replicate 15 0⟩, by decide +kernel, by decide, by decide⟩

/-- C50, partial: the accessors of a Seqner from any constructor call return without panic, provided the
text given holds no `=` and a code given together with raw is in the code table. Missing: texts with `=`, see
`C50_false`. -/
theorem C50_no_panic_partial (sn : Option Nat) (snh code : Option Str) (raw qb64b : Option Bytes)
    (qb64 : Option Str) (qb2 : Option Bytes) (m : M)
    (hs : ∀ s, qb64 = some s → '=' ∉ s) (hb : ∀ b, qb64b = some b → (61 : UInt8) ∉ b)
    (hc : ∀ c, code = some c → c ∈ matterCodes)
    (h : Seqner.new sn snh code raw qb64b qb64 qb2 = .ok m) :
    (∃ n, Seqner.sn m = .ok n ∧ n < 2 ^ 128) ∧ ∃ t, Seqner.snh m = .ok t := by
  unfold Seqner.new at h
  obtain ⟨raw', -, h1⟩ := Res.bind_eq_ok.mp h
  obtain ⟨m', h2, h3⟩ := Res.bind_eq_ok.mp h1
  obtain ⟨u, h4, h5⟩ := Res.bind_eq_ok.mp h3
  obtain rfl := Res.ok.inj h5
  obtain ⟨z, hw⟩ := new_any_wf h2 (by
    intro c hc' _
    rw [← Option.some.inj hc']
    cases code with
    | none => decide
    | some c => exact hc c rfl) hs hb
  have hcode : m'.code = str% "0A" := by
    unfold Seqner.validateCode at h4
    split at h4
    · assumption
    · simp at h4
  obtain ⟨-, hl⟩ := wf_fixed hw (n := 16) (by rw [hcode]; decide)
  have : Seqner.sn m' = .ok (beVal (m'.raw.take 16)) := by rw [Seqner.sn, if_pos (by omega)]
  refine ⟨⟨_, this, ?_⟩, _, by rw [Seqner.snh, this, Res.ok_bind]⟩
  have h6 := beVal_lt (m'.raw.take 16)
  rw [List.length_take, hl] at h6
  rw [show (2 : Nat) ^ 128 = 256 ^ 16 by decide]; exact h6

example : ∃ m, Seqner.newWithQb64 (str% "0AAAAAAAAAAAAAAAAAAAAAAB") = .ok m ∧ Seqner.sn m = .ok 1 :=
  ⟨⟨str% "0A", 0, List.replicate 15 0 ++ [1]⟩, by decide +kernel, by decide +kernel⟩

end Keride.Props
