/-
C20-C22, C48: the Counter primitive (counter/mod.rs, counter/tables.rs).
-/
import Verif.Lemmas.CounterPanic
import Verif.Lemmas.Text

namespace Keride.Props

open Spec
open Keride.Counter

theorem counter_table : ∀ c n, (c, n) ∈ counterCodes ↔ ∃ z, sizage c = .ok z ∧ z.ss = n := by
  have h1 : ∀ e ∈ counterCodes, sizage e.1 = .ok ⟨e.1.length, e.2, e.1.length + e.2, 0⟩ := by decide +kernel
  have h2 : ∀ e ∈ sizageTable, (e.1, e.2.ss) ∈ counterCodes := by decide +kernel
  intro c n
  constructor
  · intro h; exact ⟨_, h1 _ h, rfl⟩
  · rintro ⟨z, hz, rfl⟩; exact h2 _ (sizage_mem hz)

/-- C20: text, text bytes and binary all parse back to the same counter whatever follows; the binary is
the Base64 decoding of the text; `full_size` is the length of the text. -/
theorem C20_roundtrip (code : Str) (count : Nat) (c : C) (h : newWithCodeAndCount code count = .ok c) :
    c.code = code ∧ c.count = count ∧ ∃ s b, qb64 c = .ok s ∧ qb64b c = .ok (toUtf8 s) ∧ qb2 c = .ok b ∧
      (∀ t, newWithQb64 (s ++ t) = .ok c) ∧ (∀ t, newWithQb64b (toUtf8 (s ++ t)) = .ok c) ∧
      (∀ t, newWithQb2 (b ++ t) = .ok c) ∧ b64Decode s = .ok b ∧ fullSize c = .ok s.length := by
  obtain ⟨rfl, z, hw⟩ := new_iff.mp h
  have r := row_ok hw.1
  refine ⟨rfl, rfl, _, _, infil_wf hw, by rw [qb64b, qb64, infil_wf hw, Res.ok_bind], qb2_wf hw,
    exfil_text hw, fun t => ?_, bexfil_bytes hw, ?_, ?_⟩
  · rw [newWithQb64b, fromUtf8_toUtf8, Res.ok_bind]; exact exfil_text hw t
  · exact b64Decode_text _ _ (sx_sextets hw) (by rw [sx_length hw]; have := r.cs4; omega)
  · rw [fullSize, hw.1, Res.ok_bind, b64Text_length, sx_length hw, r.fs]

example : newWithCodeAndCount (str% "-0V") 1073741823 = .ok ⟨str% "-0V", 1073741823⟩ ∧
    qb64 ⟨str% "-0V", 8193⟩ = .ok (str% "-0VAACAB") ∧
    qb2 ⟨str% "-0V", 8193⟩ = .ok [251, 69, 64, 0, 32, 1] := by decide +kernel

/-- C21: accepted exactly for table codes with a count that fits; the count is stored unchanged. -/
theorem C21_range (code : Str) (count : Nat) :
    (∀ c, newWithCodeAndCount code count = .ok c → c = ⟨code, count⟩) ∧
    ((newWithCodeAndCount code count).isOk = true ↔ ∃ n, (code, n) ∈ counterCodes ∧ count < 64 ^ n) ∧
    newWithCodeAndCount code count ≠ .panic := by
  refine ⟨fun c h => (new_iff.mp h).1, ?_, ?_⟩
  · rw [Res.isOk_iff]
    constructor
    · rintro ⟨c, h⟩
      obtain ⟨-, z, hz, hc⟩ := new_iff.mp h
      exact ⟨z.ss, (counter_table _ _).mpr ⟨z, hz, rfl⟩, hc⟩
    · rintro ⟨n, h, hc⟩
      obtain ⟨z, hz, rfl⟩ := (counter_table _ _).mp h
      exact ⟨_, new_iff.mpr ⟨rfl, z, hz, hc⟩⟩
  · unfold newWithCodeAndCount
    split
    · exact nofun
    · rw [Ne, Res.bind_eq_panic]
      rintro (h | ⟨z, -, h⟩)
      · exact Res.ofOption_ne_panic h
      · dsimp only at h
        split at h
        · cases h
        · split at h <;> cases h

/-- C21 for `count_b64`: `Counter::new` with a Base64 count gives the counter with that number (at most
five characters; longer texts wrap, see `C21_count_b64_false`). -/
theorem C21_count_b64_partial (code : Str) (s : Str) (hs : IsBase64 s) (h5 : s.length ≤ 5) :
    ∃ n, b64ToU64 s = .ok n ∧ new none (some s) (some code) none none none = newWithCodeAndCount code n := by
  obtain ⟨ds, hds, rfl⟩ := isB64_iff.mp hs
  rw [b64Text_length] at h5
  have hlt : ofBase 64 ds < 64 ^ 5 := ofBase_sextets_lt hds h5
  have : (64 : Nat) ^ 5 < 2 ^ 32 := by decide
  refine ⟨_, b64ToU64_text hds (by omega), ?_⟩
  simp only [new, b64ToU32_text hds (by omega), Res.ok_bind]

/-- C21 is false for `count_b64` texts above 32 bits: `EAAAAAB` is 2^38+1 and is taken as 1. -/
theorem C21_count_b64_false : b64ToU64 (str% "EAAAAAB") = .ok (2 ^ 38 + 1) ∧
    new none (some (str% "EAAAAAB")) (some (str% "-A")) none none none = .ok ⟨str% "-A", 1⟩ := by
  decide +kernel

/-- C21, `Counter::new`: a code wins over any encoding and takes the given count, else the Base64 count,
else one; without a code the encodings are tried in the order text bytes, text, binary. -/
theorem C21_constructor (count : Option Nat) (countB64 code : Option Str) (qb64b : Option Bytes)
    (qb64 : Option Str) (qb2 : Option Bytes) :
    (∀ c n, code = some c → count = some n →
      new count countB64 code qb64b qb64 qb2 = newWithCodeAndCount c n) ∧
    (∀ c s, code = some c → count = none → countB64 = some s →
      new count countB64 code qb64b qb64 qb2 = new none (some s) (some c) none none none) ∧
    (∀ c, code = some c → count = none → countB64 = none →
      new count countB64 code qb64b qb64 qb2 = newWithCodeAndCount c 1) ∧
    (∀ b, code = none → qb64b = some b → new count countB64 code qb64b qb64 qb2 = newWithQb64b b) ∧
    (∀ s, code = none → qb64b = none → qb64 = some s →
      new count countB64 code qb64b qb64 qb2 = newWithQb64 s) ∧
    (∀ b, code = none → qb64b = none → qb64 = none → qb2 = some b →
      new count countB64 code qb64b qb64 qb2 = newWithQb2 b) ∧
    (code = none → qb64b = none → qb64 = none → qb2 = none →
      (new count countB64 code qb64b qb64 qb2).isErr = true) := by
  refine ⟨?_, ?_, ?_, ?_, ?_, ?_, ?_⟩ <;> intros <;> subst_vars <;> rfl

/-- C22: accepted exactly for parts at most 63, three characters, one per part. -/
theorem C22_semver (a b c : Nat) :
    (a ≤ 63 ∧ b ≤ 63 ∧ c ≤ 63 → ∃ s, semVerToB64 a b c = .ok s ∧ s.length = 3 ∧ IsBase64 s ∧
      s.map some = [base64url[a]?, base64url[b]?, base64url[c]?]) ∧
    (¬ (a ≤ 63 ∧ b ≤ 63 ∧ c ≤ 63) → (semVerToB64 a b c).isErr = true) := by
  rw [semVerToB64, semVer_eq]
  constructor
  · rintro ⟨ha, hb, hc⟩
    rw [if_pos (by simp [ha, hb, hc])]
    refine ⟨_, rfl, rfl, isB64_text (by
      intro d hd
      simp only [List.mem_cons, List.not_mem_nil, or_false] at hd
      omega), ?_⟩
    have e : ∀ i ≤ 63, base64url[i]? = some (b64Chr i) := fun i hi => get_chr (by omega)
    rw [e a ha, e b hb, e c hc]
    rfl
  · intro h
    rw [if_neg (by
      intro hh
      simp only [List.mem_cons, List.not_mem_nil, or_false, forall_eq_or_imp, forall_eq] at hh
      exact h hh)]
    rfl

/-- C22: injective. -/
theorem C22_injective (a b c a' b' c' : Nat) (s : Str) (h : semVerToB64 a b c = .ok s)
    (h' : semVerToB64 a' b' c' = .ok s) : a = a' ∧ b = b' ∧ c = c' := by
  rw [semVerToB64, semVer_eq] at h h'
  split at h
  · split at h'
    · rename_i h1 h2
      rw [← h'] at h
      have := b64Text_inj (fun d hd => by have := h1 d hd; omega) (fun d hd => by have := h2 d hd; omega)
        (Res.ok.inj h)
      simpa using this
    · cases h'
  · cases h

/-- C22: dotted decimal text gives the same outcome as the three numbers. -/
theorem C22_text (a b c : Nat) (ha : a < 256) (hb : b < 256) (hc : c < 256) :
    let text := Nat.toDigits 10 a ++ '.' :: (Nat.toDigits 10 b ++ '.' :: Nat.toDigits 10 c)
    (a ≤ 63 ∧ b ≤ 63 ∧ c ≤ 63 → semVerStrToB64 text = semVerToB64 a b c) ∧
    (¬ (a ≤ 63 ∧ b ≤ 63 ∧ c ≤ 63) → (semVerStrToB64 text).isErr = true) := by
  intro text
  have hsp : splitChar '.' text = [Nat.toDigits 10 a, Nat.toDigits 10 b, Nat.toDigits 10 c] := by
    rw [splitChar_append _ _ _ (parse_dec a ha).2.1, splitChar_append _ _ _ (parse_dec b hb).2.1,
      splitChar_nosep _ _ (parse_dec c hc).2.1]
  have hgo : semVerStrToB64 text = (do
      let x ← (if a < 128 then .ok a else .err .conversion : Res Nat)
      let y ← (if b < 128 then .ok b else .err .conversion : Res Nat)
      let z ← (if c < 128 then .ok c else .err .conversion : Res Nat)
      semVerPartsToB64 [x, y, z]) := by
    unfold semVerStrToB64
    rw [hsp]
    simp only [List.length_cons, List.length_nil]
    rw [if_neg (by decide)]
    simp only [semVerStrToB64.go, semVerPart_dec ha, semVerPart_dec hb, semVerPart_dec hc]
    by_cases h1 : a < 128 <;> by_cases h2 : b < 128 <;> by_cases h3 : c < 128 <;> simp [h1, h2, h3]
  rw [hgo]
  constructor
  · rintro ⟨h1, h2, h3⟩
    rw [if_pos (by omega), if_pos (by omega), if_pos (by omega)]
    rfl
  · intro h
    by_cases h1 : a < 128 <;> by_cases h2 : b < 128 <;> by_cases h3 : c < 128 <;>
      simp only [h1, h2, h3, if_true, if_false, Res.ok_bind, Res.err_bind, Res.isErr]
    have := (C22_semver a b c).2 h
    exact this

theorem semVer_go_ok : ∀ {l : List Str} {ns : List Nat}, semVerStrToB64.go l = .ok ns →
    ∀ p ∈ l, ∃ n, semVerPart p = .ok n
  | [], _, _, p, hp => by simp at hp
  | s :: l, ns, h, p, hp => by
    rw [semVerStrToB64.go, Res.bind_eq_ok] at h
    obtain ⟨n, h1, h⟩ := h
    rw [Res.bind_eq_ok] at h
    obtain ⟨m, h2, -⟩ := h
    rcases List.mem_cons.mp hp with rfl | hp
    · exact ⟨n, h1⟩
    · exact semVer_go_ok h2 p hp

theorem semVerPart_ne_panic (s : Str) : semVerPart s ≠ .panic := by
  unfold semVerPart
  cases parseSigned 10 (-128) 127 s with
  | none => dsimp only; split <;> simp
  | some n => dsimp only; split <;> simp

theorem semVer_go_ne_panic : ∀ l : List Str, semVerStrToB64.go l ≠ .panic
  | [] => by simp [semVerStrToB64.go]
  | s :: l => by
    rw [semVerStrToB64.go, Ne, Res.bind_eq_panic]
    rintro (h | ⟨n, -, h⟩)
    · exact semVerPart_ne_panic s h
    · rw [Res.bind_eq_panic] at h
      rcases h with h | ⟨m, -, h⟩
      · exact semVer_go_ne_panic l h
      · cases h

/-- C22: text with more than three parts or with a negative part is an error, wherever it stands. -/
theorem C22_text_reject (text : Str) :
    (3 ≤ text.count '.' → (semVerStrToB64 text).isErr = true) ∧
    (∀ n : Nat, 1 ≤ n → ('-' :: Nat.toDigits 10 n) ∈ splitChar '.' text → (semVerStrToB64 text).isErr = true) ∧
    semVerStrToB64 text ≠ .panic := by
  have np : ∀ parts, semVerPartsToB64 parts ≠ .panic := by
    intro parts
    rw [semVer_eq]
    split <;> simp
  have np2 : semVerStrToB64 text ≠ .panic := by
    unfold semVerStrToB64
    dsimp only
    split
    · simp
    · rw [Ne, Res.bind_eq_panic]
      rintro (h | ⟨ns, -, h⟩)
      · exact semVer_go_ne_panic _ h
      · exact np _ h
  refine ⟨fun h => ?_, fun n hn hm => ?_, np2⟩
  · unfold semVerStrToB64
    dsimp only
    rw [if_pos (by rw [splitChar_length]; omega)]
    rfl
  · cases hr : semVerStrToB64 text with
    | err e => rfl
    | panic => exact absurd hr np2
    | ok r =>
      unfold semVerStrToB64 at hr
      dsimp only at hr
      split at hr
      · cases hr
      · rw [Res.bind_eq_ok] at hr
        obtain ⟨ns, h1, -⟩ := hr
        obtain ⟨k, hk⟩ := semVer_go_ok h1 _ hm
        rw [← fmtNat_eq (by decide) (by decide)] at hk
        unfold semVerPart at hk
        rw [parseSigned_neg (by decide) (by decide)] at hk
        split at hk
        · rename_i v hv
          split at hv
          · rw [← Option.some.inj hv, if_pos (by omega)] at hk; cases hk
          · cases hv
        · rw [if_neg (by simp)] at hk; cases hk

example : 3 ≤ (str% "1.2.3.4").count '.' ∧ ('-' :: Nat.toDigits 10 1) ∈ splitChar '.' (str% "1.-1.0") := by
  decide +kernel

example : semVerStrToB64 (str% "1.2.63") = .ok (str% "BC_") ∧ semVerToB64 1 2 63 = .ok (str% "BC_") ∧
    (semVerStrToB64 (str% "1.64.0")).isErr = true ∧ (semVerStrToB64 (str% "200.0.0")).isErr = true := by
  decide +kernel

/-- C48: whatever text or binary is accepted starts with the encoding of the result, which the
constructor would also produce. -/
theorem C48_canonical (c : C) :
    (∀ s, newWithQb64 s = .ok c → newWithCodeAndCount c.code c.count = .ok c ∧ ∃ t, qb64 c = .ok t ∧ t <+: s) ∧
    (∀ q, newWithQb2 q = .ok c → newWithCodeAndCount c.code c.count = .ok c ∧ ∃ b, qb2 c = .ok b ∧ b <+: q) := by
  constructor
  · intro s h
    obtain ⟨z, rest, hw, he⟩ := exfil_ok h
    exact ⟨new_iff.mpr ⟨rfl, z, hw⟩, _, infil_wf hw, rest, he.symm⟩
  · intro q h
    obtain ⟨z, rest, hw, he⟩ := bexfil_ok h
    exact ⟨new_iff.mpr ⟨rfl, z, hw⟩, _, qb2_wf hw, rest, he.symm⟩

/-- C48: proper prefixes are errors, in binary always, in text except for the one-character prefix. -/
theorem C48_truncation_partial (code : Str) (count : Nat) (c : C) (h : newWithCodeAndCount code count = .ok c)
    (s : Str) (b : Bytes) (hs : qb64 c = .ok s) (hb : qb2 c = .ok b) :
    (∀ k < s.length, k ≠ 1 → (newWithQb64 (s.take k)).isErr = true) ∧
    (∀ k < b.length, (newWithQb2 (b.take k)).isErr = true) := by
  obtain ⟨rfl, z, hw⟩ := new_iff.mp h
  rw [qb64, infil_wf hw] at hs
  rw [qb2_wf hw] at hb
  rw [← Res.ok.inj hs, ← Res.ok.inj hb]
  constructor
  · intro k hk h1
    rw [b64Text_length, sx_length hw] at hk
    exact exfil_truncated hw hk h1
  · intro k hk
    rw [beBytes_length] at hk
    exact bexfil_truncated hw hk

/-- C48 is false for the one-character prefix of every counter: it panics. -/
theorem C48_truncation_false : newWithQb64 (str% "-") = .panic := by decide

/-- C48, exact: text panics precisely when it is one byte long, or when a character of several bytes lies across the
first two bytes, the end of the code or the end of the count; binary never. -/
theorem C48_no_panic_partial :
    (∀ s, newWithQb64 s = .panic ↔ Str.len s = 1 ∨ Splits s 2 ∨ (str% "-0" <+: s ∧ Splits s 3) ∨ (str% "--" <+: s ∧ Splits s 5) ∨
      ∃ c n, (c, n) ∈ counterCodes ∧ c <+: s ∧ Splits s (c.length + n)) ∧
    (∀ q, newWithQb2 q ≠ .panic) :=
  ⟨fun _ => exfil_panic_all, bexfil_ne_panic⟩

/-- C48, for ASCII text: only the texts of one character panic. -/
theorem C48_ascii_partial (s : Str) (h : IsAscii s) : newWithQb64 s = .panic ↔ s.length = 1 :=
  exfil_panic_iff (Matter.ascii_iff.mp h)

/-- A character across the end of the count. -/
example : (str% "-A", 2) ∈ counterCodes ∧ str% "-A" <+: str% "-AAé" ∧ Splits (str% "-AAé") 4 :=
  ⟨by decide, ⟨str% "Aé", rfl⟩, str% "-AA", 'é', [], rfl, by decide, by decide⟩

example : newWithQb64 (str% "-AABrest") = .ok ⟨str% "-A", 1⟩ ∧ (newWithQb64 (str% "-AA")).isErr = true := by
  decide +kernel

end Keride.Props
