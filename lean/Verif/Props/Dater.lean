/-
C26, C27: Dater (dater.rs) and Bexter (bexter.rs).
-/
import Verif.Lemmas.Dater

namespace Keride.Props

open Spec Matter

/-- The characters of date-time texts: Base64 characters except the three that stand for `:`, `.` and `+`
in the encoding, and these three. Digits, `-`, `T`, `Z`, `:`, `.`, `+` are among them. -/
def dateChars : List Char :=
  str% "ABCDEFGHIJKLMNOPQRSTUVWXYZabefghijklmnoqrstuvwxyz0123456789-_:.+"

example : ∀ c ∈ str% "0123456789-TZ:.+", c ∈ dateChars := by decide

theorem dateChar_of {c : Char} (h : c ∈ dateChars) : Dater.DateChar c := by
  have : ∀ c ∈ dateChars, (c ∈ b64Alphabet ∧ c ≠ 'c' ∧ c ≠ 'd' ∧ c ≠ 'p') ∨ c = ':' ∨ c = '.' ∨ c = '+' := by
    decide +kernel
  exact this c h

/-- The object a 32-character text is turned into. -/
theorem dater_of {t : Str} (hc : ∀ c ∈ t, c ∈ dateChars) (hl : t.length = 32) :
    ∃ m z, m.code = str% "1AAG" ∧ m.size = 0 ∧ Wf m z ∧ z.hs = 4 ∧ fsz m z = 36 ∧
      b64Text (sx m z) = str% "1AAG" ++ Dater.isoToB64 t := by
  have hB := Dater.isoToB64_b64 (fun c h => dateChar_of (hc c h))
  obtain ⟨z, hw, hz, htext⟩ := text_fixed4 (c := str% "1AAG") (n := 24) (fs := 36) (by decide) (by decide) hB
    (by rw [Dater.isoToB64_length, hl]) (by decide)
  refine ⟨_, z, rfl, rfl, hw, by rw [hz], ?_, htext⟩
  rw [← sx_length hw, ← b64Text_length, htext, List.length_append, Dater.isoToB64_length, hl]
  rfl

/-- C26: a 32-character date-time text reads back unchanged, also through the text and binary forms. -/
theorem C26_roundtrip (chk : Bool) (t : Str) (code : Option Str) (hc : ∀ c ∈ t, c ∈ dateChars)
    (hl : t.length = 32) :
    ∃ m, Dater.newWithDts t code = .ok m ∧ Dater.dts chk m = .ok t ∧ Dater.dtsb chk m = .ok (toUtf8 t) ∧
      (∃ s, qb64 chk m = .ok s ∧ s.length = 36 ∧ Dater.newWithQb64 s = .ok m ∧
        Dater.newWithQb64b (toUtf8 s) = .ok m) ∧
      (∃ b, qb2 m = .ok b ∧ b.length = 27 ∧ Dater.newWithQb2 b = .ok m) := by
  obtain ⟨⟨c, sz, raw⟩, z, h1, h2, hw, hz, hF, htext⟩ := dater_of hc hl
  simp only at h1 h2
  subst h1 h2
  have hA : Ascii (str% "1AAG") := by decide
  have hq := infil_wf chk hw
  rw [htext] at hq
  have hd : Dater.dts chk ⟨str% "1AAG", 0, raw⟩ = .ok t := by
    rw [Dater.dts, hw.row, Res.ok_bind, qb64, hq, Res.ok_bind, hz]
    have := sliceFrom_append (s := str% "1AAG") (t := Dater.isoToB64 t) hA
    rw [show (4 : Nat) = (str% "1AAG").length by rfl, this, Res.ok_bind,
      Dater.b64ToIso_isoToB64 (fun c h => dateChar_of (hc c h))]
  obtain ⟨s, b, r1, r2, r3, r4, r5, -, r6, r7⟩ := Number.roundtrip chk hw
  have hparse := exfil_text hw []
  rw [List.append_nil, htext] at hparse
  refine ⟨_, ?_, hd, by rw [Dater.dtsb, hd, Res.ok_bind], ⟨s, r1, by rw [r6, hF], ?_, ?_⟩, b, r2, ?_, ?_⟩
  · rw [Dater.newWithDts_eq]; exact Dater.finish hparse
  · rw [Dater.newWithQb64_eq]; exact Dater.finish r3
  · rw [Dater.newWithQb64b_eq]; exact Dater.finish r4
  · have := binfil_wf hw
    rw [qb2] at r2
    rw [r2] at this
    rw [Res.ok.inj this, beBytes_length, hF]
  · rw [Dater.newWithQb2_eq]; exact Dater.finish r5

/-- C26: different date-times have different encodings, in both domains. -/
theorem C26_injective (chk : Bool) (t u : Str) (ht : ∀ c ∈ t, c ∈ dateChars) (hu : ∀ c ∈ u, c ∈ dateChars)
    (hlt : t.length = 32) (hlu : u.length = 32) (p q : M) (h1 : Dater.newWithDts t none = .ok p)
    (h2 : Dater.newWithDts u none = .ok q) (h : p = q) : t = u := by
  obtain ⟨m, a1, a2, -⟩ := C26_roundtrip chk t none ht hlt
  obtain ⟨n, b1, b2, -⟩ := C26_roundtrip chk u none hu hlu
  rw [h1] at a1
  rw [h2] at b1
  rw [← Res.ok.inj a1, h] at a2
  rw [← Res.ok.inj b1, a2] at b2
  exact Res.ok.inj b2

example : (∀ c ∈ str% "2020-08-22T17:50:09.988921+00:00", c ∈ dateChars) ∧
    (str% "2020-08-22T17:50:09.988921+00:00").length = 32 ∧
    (∃ m, Dater.newWithDts (str% "2020-08-22T17:50:09.988921+00:00") none = .ok m ∧
      qb64 true m = .ok (str% "1AAG2020-08-22T17c50c09d988921p00c00")) :=
  ⟨by decide +kernel, by decide,
    ⟨str% "1AAG", 0, [219, 77, 180, 251, 79, 62, 219, 100, 245, 237, 206, 116, 115, 79, 93, 247, 207, 61, 219, 90, 116, 209, 205, 52]⟩,
    by decide +kernel, by decide +kernel⟩

/-- C26, texts of another length: a shorter text is an error, and whatever follows the first 32
characters is silently dropped. -/
theorem C26_length (t u : Str) (hc : ∀ c ∈ t, c ∈ dateChars) (hl : t.length = 32) :
    (∀ k < 32, (Dater.newWithDts (t.take k) none).isErr = true) ∧
    Dater.newWithDts (t ++ u) none = Dater.newWithDts t none := by
  obtain ⟨⟨c, sz, raw⟩, z, h1, h2, hw, hz, hF, htext⟩ := dater_of hc hl
  simp only at h1 h2
  subst h1 h2
  constructor
  · intro k hk
    have := exfil_truncated hw (k := 4 + k) (by omega)
    rw [htext, show (4 : Nat) = (str% "1AAG").length by rfl, List.take_length_add_append] at this
    rw [Dater.newWithDts_eq]
    have e : Dater.isoToB64 (t.take k) = (Dater.isoToB64 t).take k := by
      rw [Dater.isoToB64_map, Dater.isoToB64_map, List.map_take]
    rw [e]
    obtain ⟨e, he⟩ := Res.isErr_iff.mp this
    rw [he]; rfl
  · have p1 := exfil_text hw []
    have p2 := exfil_text hw (Dater.isoToB64 u)
    rw [List.append_nil, htext] at p1
    rw [htext, List.append_assoc] at p2
    rw [Dater.newWithDts_eq, Dater.newWithDts_eq, Dater.isoToB64_append, p1, p2]

/-- C27 is false: every text whose length is a multiple of four and that starts with `A` gives the very
same Bexter as the text without that `A`, so it cannot be read back. -/
theorem C27_false (t : Str) (ht : IsBase64 t) (hl : t.length % 4 = 3) :
    Bexter.newWithBext ('A' :: t) = Bexter.newWithBext t := by
  have hB : IsB64 t := ht
  have hB' : IsB64 ('A' :: t) := by
    intro c hc
    rcases List.mem_cons.mp hc with rfl | hc
    · decide
    · exact hB c hc
  rw [Bexter.newWithBext_eq, Bexter.newWithBext_eq, reB64_iff.mpr hB, reB64_iff.mpr hB',
    Bexter.rawify_eq hB, Bexter.rawify_eq hB']
  have e1 : idxs ('A' :: t) = 0 :: idxs t := by
    rw [idxs, List.map_cons]; rfl
  rw [e1, ofBase_cons, Nat.zero_mul, Nat.zero_add, List.length_cons]
  have e2 : 3 * ((t.length + 1 + 3) / 4) - (3 - (t.length + 1) % 4) % 3 =
      3 * ((t.length + 3) / 4) - (3 - t.length % 4) % 3 := by omega
  rw [e2]

example : IsBase64 (str% "BCD") ∧ (str% "BCD").length % 4 = 3 ∧
    Bexter.newWithBext (str% "ABCD") = .ok ⟨str% "4A", 1, [0, 16, 131]⟩ ∧
    Bexter.bext ⟨str% "4A", 1, [0, 16, 131]⟩ = .ok (str% "BCD") :=
  ⟨by unfold IsBase64; decide, by decide, by decide +kernel, by decide +kernel⟩

/-- C27, partial: every Base64 text of up to 4 * (64^4 - 1) characters reads back unchanged, also through the text
and binary forms, unless its length is a multiple of four and it starts with `A`. Missing: those texts,
see `C27_false`. -/
theorem C27_roundtrip_partial (chk : Bool) (t : Str) (ht : IsBase64 t) (hl : t.length ≤ 4 * (64 ^ 4 - 1))
    (hA : ¬ (t.length % 4 = 0 ∧ t.head? = some 'A')) :
    ∃ m, Bexter.newWithBext t = .ok m ∧ Bexter.bext m = .ok t ∧
      (∃ s, qb64 chk m = .ok s ∧ Bexter.newWithQb64 s = .ok m ∧ Bexter.newWithQb64b (toUtf8 s) = .ok m) ∧
      (∃ b, qb2 m = .ok b ∧ Bexter.newWithQb2 b = .ok m) := by
  have hB : IsB64 t := ht
  have h64 : (64 : Nat) ^ 4 = 16777216 := by decide
  obtain ⟨m, z, hm, hw, hls, hraw, hv⟩ := Bexter.newWithBext_ok hB (by omega)
  obtain ⟨s, b, r1, r2, r3, r4, r5, -⟩ := Number.roundtrip chk hw
  have fin : ∀ {x : Res M}, x = .ok m →
      (x >>= fun m => Bexter.validateCode m.code >>= fun _ => .ok m) = .ok m := by
    rintro x rfl
    rw [Res.ok_bind, hv, Res.ok_bind]
  refine ⟨m, hm, ?_, ⟨s, r1, ?_, ?_⟩, b, r2, ?_⟩
  · rw [Bexter.bext_eq hB hw hls hraw, hls]
    have hmod : t.length % 4 < 4 := Nat.mod_lt _ (by decide)
    have hrep : ∀ k, k = (4 - t.length % 4) % 4 →
        Str.sliceFrom (List.replicate ((4 - t.length % 4) % 4) 'A' ++ t) k = .ok t := by
      intro k hk
      exact sliceFrom_of_prefix (s := List.replicate ((4 - t.length % 4) % 4) 'A') (by
        intro c hc; rw [(List.mem_replicate.mp hc).2]; decide) (by simpa using hk)
    by_cases h0 : t.length % 4 = 0
    · rw [h0]
      simp only [Nat.sub_zero, Nat.mod_self, if_true, List.replicate_zero, List.nil_append]
      rw [if_neg (fun h => hA ⟨h0, h⟩)]
      cases t <;> rfl
    by_cases h3 : t.length % 4 = 3
    · have := hrep 1 (by rw [h3])
      rw [h3] at this ⊢
      exact this
    · by_cases h1 : t.length % 4 = 1
      · have := hrep 3 (by rw [h1])
        rw [h1] at this ⊢
        exact this
      · have h2 : t.length % 4 = 2 := by omega
        have := hrep 2 (by rw [h2])
        rw [h2] at this ⊢
        exact this
  · unfold Bexter.newWithQb64 Bexter.new
    dsimp only
    rw [if_neg (by simp)]
    exact fin r3
  · unfold Bexter.newWithQb64b Bexter.new
    dsimp only
    rw [if_neg (by simp)]
    exact fin r4
  · unfold Bexter.newWithQb2 Bexter.new
    dsimp only
    rw [if_neg (by simp)]
    exact fin r5

/-- C27: text outside the Base64 alphabet is an error. -/
theorem C27_reject (t : Str) (c : Char) (hc : c ∈ t) (hx : c ∉ base64url) :
    (Bexter.newWithBext t).isErr = true := by
  have : reB64 t = false := by
    rw [← Bool.not_eq_true, reB64_iff]
    exact fun h => hx (h c hc)
  rw [Bexter.newWithBext_eq, if_pos this]
  rfl

example : IsBase64 (str% "-A") ∧ Bexter.newWithBext (str% "-A") = .ok ⟨str% "5A", 1, [15, 128]⟩ ∧
    Bexter.bext ⟨str% "5A", 1, [15, 128]⟩ = .ok (str% "-A") ∧ '=' ∉ base64url :=
  ⟨by unfold IsBase64; decide, by decide +kernel, by decide +kernel, by decide⟩

end Keride.Props
