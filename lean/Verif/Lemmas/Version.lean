/-
Version strings: the regular expression, `versify` and `deversify`.
-/
import Verif.Spec.Version
import Verif.Lemmas.Num
import Mathlib.Tactic.SplitIfs
import Mathlib.Data.List.Induction

namespace Keride

open Spec

/-! ## Hexadecimal texts of fixed width -/

theorem hexFixed_len (w n : Nat) : (hexFixed w n).length = w := by
  induction w generalizing n with
  | zero => rfl
  | succ w ih => rw [hexFixed, List.length_append, ih]; rfl

theorem hexFixed_digits (w n : Nat) : IsDigits 16 (hexFixed w n) := by
  induction w generalizing n with
  | zero => intro c hc; simp [hexFixed] at hc
  | succ w ih =>
    intro c hc
    rw [hexFixed, List.mem_append, List.mem_singleton] at hc
    rcases hc with hc | hc
    · exact ih _ c hc
    · exact ⟨n % 16, Nat.mod_lt _ (by omega), hc⟩

theorem hexFixed_val (w n : Nat) : radixVal 16 0 (hexFixed w n) = some (n % 16 ^ w) := by
  induction w generalizing n with
  | zero => simp [hexFixed, radixVal, Nat.mod_one]
  | succ w ih =>
    have hd : toDigit 16 ((str% "0123456789abcdef").getD (n % 16) '0') = some (n % 16) :=
      toDigit_chr (b := 16) (d := n % 16) (by omega) (Nat.mod_lt _ (by omega))
    rw [hexFixed, radixVal_append, ih, Option.bind_some, radixVal, hd]
    simp only [radixVal, Option.some.injEq]
    rw [Nat.pow_succ, Nat.mul_comm (16 ^ w) 16, Nat.mod_mul]
    omega

theorem digit_unique : ∀ d < 16, ∀ e < 16, toDigit 16 (digitChr d) = toDigit 16 (digitChr e) → d = e := by decide

/-- A hexadecimal text is determined by its length and value. -/
theorem hex_unique (s : Str) (hs : IsDigits 16 s) : ∃ n, radixVal 16 0 s = some n ∧ n < 16 ^ s.length ∧ s = hexFixed s.length n := by
  induction s using List.reverseRecOn with
  | nil => exact ⟨0, rfl, by simp, rfl⟩
  | append_singleton s c ih =>
    obtain ⟨n, h1, h2, h3⟩ := ih (fun d hd => hs d (by simp [hd]))
    obtain ⟨d, hd, rfl⟩ := hs c (by simp)
    refine ⟨n * 16 + d, ?_, ?_, ?_⟩
    · rw [radixVal_append, h1, Option.bind_some, radixVal, toDigit_chr (by omega) hd]
      rfl
    · rw [List.length_append, List.length_singleton, Nat.pow_succ]; omega
    · rw [List.length_append, List.length_singleton, hexFixed]
      rw [show (n * 16 + d) / 16 = n by omega, show (n * 16 + d) % 16 = d by omega, ← h3]
      rfl

theorem hex_of_val {s : Str} {n : Nat} (hs : IsDigits 16 s) (h : radixVal 16 0 s = some n) :
    n < 16 ^ s.length ∧ s = hexFixed s.length n := by
  obtain ⟨m, h1, h2, h3⟩ := hex_unique s hs
  rw [h] at h1
  cases h1
  exact ⟨h2, h3⟩

theorem fmtPad_fixed {w n : Nat} (hw : 0 < w) (hn : n < 16 ^ w) : fmtPad 16 w n = hexFixed w n := by
  obtain ⟨h1, h2, -, -, h5⟩ := fmtPad_spec (b := 16) (w := w) (by omega) (by omega) n
  have h3 := hex_of_val h1 h2
  rw [h5 hw hn] at h3
  exact h3.2

theorem fmtPad_long {w n : Nat} (hn : 16 ^ w ≤ n) : w < (fmtPad 16 w n).length := by
  obtain ⟨h1, h2, h3, -⟩ := fmtPad_spec (b := 16) (w := w) (by omega) (by omega) n
  have h4 := (hex_of_val h1 h2).1
  by_contra h
  have : (fmtPad 16 w n).length = w := by omega
  rw [this] at h4
  omega

/-! ## The regular expression -/

theorem isHexLow_iff {c : Char} : isHexLow c = true ↔ ∃ d < 16, c = digitChr d := by
  constructor
  · intro h
    have key : ∀ n < 128, isHexLow (Char.ofNat n) = true → ∃ d < 16, Char.ofNat n = digitChr d := by decide +kernel
    have hn : c.toNat < 128 := by
      unfold isHexLow at h
      have := of_decide_eq_true h
      omega
    have := key c.toNat hn
    rw [Char.ofNat_toNat] at this
    exact this h
  · rintro ⟨d, hd, rfl⟩
    have : ∀ d < 16, isHexLow (digitChr d) = true := by decide +kernel
    exact this d hd

theorem vsChar_ne {c : Char} (h : isUpper c = true ∨ isHexLow c = true) : c ≠ '_' := by
  rintro rfl
  revert h
  decide

/-- The parts of a match. -/
theorem vsAt_iff (s : Str) : vsAt s = true ↔ ∃ i m n k z t, s = i ++ m :: n :: (k ++ (z ++ '_' :: t)) ∧ i.length = 4 ∧ k.length = 4 ∧
    z.length = 6 ∧ (∀ c ∈ i, isUpper c = true) ∧ isHexLow m = true ∧ isHexLow n = true ∧ (∀ c ∈ k, isUpper c = true) ∧
    (∀ c ∈ z, isHexLow c = true) := by
  constructor
  · intro h
    unfold vsAt at h
    simp only [Bool.and_eq_true, decide_eq_true_eq, List.all_eq_true] at h
    obtain ⟨⟨⟨⟨⟨h1, h2⟩, h3⟩, h4⟩, h5⟩, h6⟩ := h
    match s, h1 with
    | c0 :: c1 :: c2 :: c3 :: c4 :: c5 :: c6 :: c7 :: c8 :: c9 :: c10 :: c11 :: c12 :: c13 :: c14 :: c15 :: c16 :: t, _ =>
      simp at h2 h3 h4 h5 h6
      subst h6
      refine ⟨[c0, c1, c2, c3], c4, c5, [c6, c7, c8, c9], [c10, c11, c12, c13, c14, c15], t, rfl, rfl, rfl, rfl, ?_, h3.1, h3.2, ?_, ?_⟩
      · simpa using h2
      · simpa using h4
      · simpa using h5
  · rintro ⟨i, m, n, k, z, t, rfl, hi, hk, hz, h1, h2, h3, h4, h5⟩
    match i, k, z, hi, hk, hz with
    | [c0, c1, c2, c3], [c6, c7, c8, c9], [c10, c11, c12, c13, c14, c15], _, _, _ =>
      simp only [List.mem_cons, List.not_mem_nil, or_false, forall_eq_or_imp, forall_eq] at h1 h4 h5
      simp [vsAt, h1, h2, h3, h4, h5]

theorem vsAt_len {s : Str} (h : vsAt s = true) : 17 ≤ s.length := by
  unfold vsAt at h
  simp only [Bool.and_eq_true, decide_eq_true_eq] at h
  exact h.1.1.1.1.1

theorem vsAt_take (s : Str) : vsAt (s.take 17) = vsAt s := by
  unfold vsAt
  have e1 : decide (17 ≤ (s.take 17).length) = decide (17 ≤ s.length) := by
    rw [List.length_take]; congr 1; rw [eq_iff_iff]; omega
  have e2 : (s.take 17).take 4 = s.take 4 := by rw [List.take_take]; congr 1
  have e3 : ((s.take 17).drop 4).take 2 = (s.drop 4).take 2 := by rw [List.drop_take, List.take_take]; congr 1
  have e4 : ((s.take 17).drop 6).take 4 = (s.drop 6).take 4 := by rw [List.drop_take, List.take_take]; congr 1
  have e5 : ((s.take 17).drop 10).take 6 = (s.drop 10).take 6 := by rw [List.drop_take, List.take_take]; congr 1
  have e6 : (s.take 17)[16]? = s[16]? := by rw [List.getElem?_take]; rfl
  rw [e1, e2, e3, e4, e5, e6]

theorem vsAt_congr {s t : Str} (h : s.take 17 = t.take 17) : vsAt s = vsAt t := by
  rw [← vsAt_take s, ← vsAt_take t, h]

/-- No two matches overlap. -/
theorem vsAt_overlap {s : Str} {d : Nat} (h : vsAt s = true) (hd : 0 < d) (hd' : d < 17) : vsAt (s.drop d) = false := by
  by_contra hne
  have h2 : vsAt (s.drop d) = true := by simpa using hne
  have hus : s[16]? = some '_' := by
    unfold vsAt at h
    simp only [Bool.and_eq_true, decide_eq_true_eq] at h
    exact h.2
  obtain ⟨i, m, n, k, z, t, e, hi, hk, hz, h1, h3, h4, h5, h6⟩ := (vsAt_iff _).mp h2
  have hidx : (s.drop d)[16 - d]? = some '_' := by
    rw [List.getElem?_drop, show d + (16 - d) = 16 by omega]; exact hus
  have hcl : ∀ c ∈ i ++ m :: n :: (k ++ z), c ≠ '_' := by
    intro c hc
    simp only [List.mem_append, List.mem_cons] at hc
    rcases hc with hc | rfl | rfl | hc | hc
    · exact vsChar_ne (.inl (h1 c hc))
    · exact vsChar_ne (.inr h3)
    · exact vsChar_ne (.inr h4)
    · exact vsChar_ne (.inl (h5 c hc))
    · exact vsChar_ne (.inr (h6 c hc))
  have e2 : s.drop d = (i ++ m :: n :: (k ++ z)) ++ '_' :: t := by rw [e]; simp
  have hl : (i ++ m :: n :: (k ++ z)).length = 16 := by simp [hi, hk, hz]
  rw [e2, List.getElem?_append_left (by omega)] at hidx
  have := List.mem_of_getElem? hidx
  exact hcl _ this rfl

theorem findVs_some {s a b : Str} : findVs s = some (a, b) ↔
    s = a ++ b ∧ vsAt b = true ∧ ∀ i < a.length, vsAt (s.drop i) = false := by
  induction s generalizing a with
  | nil =>
    rw [findVs]
    constructor
    · intro h; cases h
    · rintro ⟨h1, h2, -⟩
      have := vsAt_len h2
      have h3 : b = [] := (List.append_eq_nil_iff.mp h1.symm).2
      rw [h3] at this
      simp at this
  | cons c s ih =>
    rw [findVs]
    by_cases hv : vsAt (c :: s) = true
    · rw [if_pos hv]
      constructor
      · intro h; cases h
        exact ⟨rfl, hv, by intro i hi; simp at hi⟩
      · rintro ⟨h1, h2, h3⟩
        cases a with
        | nil => rw [List.nil_append] at h1; rw [h1]
        | cons x a =>
          have := h3 0 (by simp)
          rw [List.drop_zero, hv] at this
          cases this
    · rw [if_neg hv, Option.map_eq_some_iff]
      constructor
      · rintro ⟨⟨a', b'⟩, h, e⟩
        cases e
        obtain ⟨h1, h2, h3⟩ := ih.mp h
        refine ⟨by rw [h1]; rfl, h2, ?_⟩
        intro i hi
        cases i with
        | zero => simpa using hv
        | succ i =>
          rw [List.length_cons] at hi
          rw [List.drop_succ_cons]
          exact h3 i (by omega)
      · rintro ⟨h1, h2, h3⟩
        cases a with
        | nil =>
          rw [List.nil_append] at h1
          rw [h1] at hv
          exact absurd h2 hv
        | cons x a =>
          rw [List.cons_append] at h1
          injection h1 with e1 e2
          subst e1
          refine ⟨(a, b), ih.mpr ⟨e2, h2, ?_⟩, rfl⟩
          intro i hi
          have := h3 (i + 1) (by rw [List.length_cons]; omega)
          rwa [List.drop_succ_cons] at this

theorem findVs_none {s : Str} (h : findVs s = none) : ∀ i, vsAt (s.drop i) = false := by
  induction s with
  | nil =>
    intro i
    rw [List.drop_nil]
    decide
  | cons c s ih =>
    rw [findVs] at h
    split at h
    · cases h
    · rename_i hv
      rw [Option.map_eq_none_iff] at h
      intro i
      cases i with
      | zero => simpa using hv
      | succ i => rw [List.drop_succ_cons]; exact ih h i

theorem findVs_of {s : Str} {k : Nat} (h : vsAt (s.drop k) = true) : ∃ a b, findVs s = some (a, b) ∧ a.length ≤ k := by
  cases hf : findVs s with
  | none => rw [findVs_none hf k] at h; cases h
  | some p =>
    obtain ⟨a, b⟩ := p
    refine ⟨a, b, rfl, ?_⟩
    obtain ⟨h1, h2, h3⟩ := findVs_some.mp hf
    by_contra hlt
    rw [h3 k (by omega)] at h
    cases h

/-- Replacing one match by another one moves no leftmost match. -/
theorem findVs_replace {a w w' b : Str} (hw : vsAt w = true) (hw' : vsAt w' = true) (hl : w.length = 17) (hl' : w'.length = 17) :
    ∃ p q q', findVs (a ++ (w ++ b)) = some (p, q) ∧ findVs (a ++ (w' ++ b)) = some (p, q') ∧ p.length ≤ a.length ∧
      (p.length = a.length ∨ p.length + 17 ≤ a.length) := by
  have key : ∀ u : Str, vsAt u = true → u.length = 17 → ∀ b : Str, vsAt (u ++ b) = true := by
    intro u hu hlen b
    rw [vsAt_congr (t := u)]
    · exact hu
    · rw [List.take_append_of_le_length (by omega)]
  have hm := key w hw hl b
  have hm' := key w' hw' hl' b
  have hda : ∀ u : Str, (a ++ u).drop a.length = u := fun u => by simp
  obtain ⟨p, q, hf, hp⟩ := findVs_of (s := a ++ (w ++ b)) (k := a.length) (by rw [hda]; exact hm)
  obtain ⟨h1, h2, h3⟩ := findVs_some.mp hf
  have hover : ∀ u : Str, vsAt u = true → ∀ i < a.length, a.length < i + 17 → vsAt ((a ++ u).drop i) = false := by
    intro u hu i hi hi'
    by_contra hne
    have hx : vsAt ((a ++ u).drop i) = true := by simpa using hne
    have := vsAt_overlap hx (d := a.length - i) (by omega) (by omega)
    rw [List.drop_drop, show i + (a.length - i) = a.length by omega, hda, hu] at this
    cases this
  have hsame : ∀ i, i + 17 ≤ a.length → vsAt ((a ++ (w' ++ b)).drop i) = vsAt ((a ++ (w ++ b)).drop i) := by
    intro i hi
    apply vsAt_congr
    rw [List.drop_append_of_le_length (by omega), List.drop_append_of_le_length (by omega),
      List.take_append_of_le_length (by rw [List.length_drop]; omega),
      List.take_append_of_le_length (by rw [List.length_drop]; omega)]
  have hq : vsAt ((a ++ (w ++ b)).drop p.length) = true := by
    have : (p ++ q).drop p.length = q := by simp
    rw [h1, this]; exact h2
  have hp2 : p.length = a.length ∨ p.length + 17 ≤ a.length := by
    by_contra hne
    have := hover _ hm p.length (by omega) (by omega)
    rw [hq] at this
    cases this
  have hpre : a ++ (w' ++ b) = p ++ (a ++ (w' ++ b)).drop p.length := by
    have e : (a ++ (w ++ b)).take p.length = p := by rw [h1]; simp
    rw [List.take_append_of_le_length hp] at e
    conv_lhs => rw [← List.take_append_drop p.length (a ++ (w' ++ b))]
    rw [List.take_append_of_le_length hp, e]
  refine ⟨p, q, (a ++ (w' ++ b)).drop p.length, hf, findVs_some.mpr ⟨hpre, ?_, ?_⟩, hp, hp2⟩
  · rcases hp2 with h | h
    · rw [h, hda]; exact hm'
    · rw [hsame _ h]; exact hq
  · intro i hi
    by_cases hi' : i + 17 ≤ a.length
    · rw [hsame i hi']; exact h3 i hi
    · exact hover _ hm' i (by omega) (by omega)

/-! ## Replacement -/

theorem replaceVs_skip (g : Str → Str) (k : Nat) (s : Str) : replaceVs g k s = replaceVs g 0 (s.drop k) := by
  induction s generalizing k with
  | nil => rw [List.drop_nil]; cases k <;> rfl
  | cons c s ih =>
    cases k with
    | zero => rfl
    | succ k => rw [replaceVs, List.drop_succ_cons]; exact ih k

theorem replaceVs_eq_nil {g : Str → Str} {s : Str} (hg : ∀ s, vsAt s = true → g s ≠ []) (h : replaceVs g 0 s = []) : s = [] := by
  cases s with
  | nil => rfl
  | cons c s =>
    rw [replaceVs] at h
    split at h
    · rename_i hv
      exact absurd (List.append_eq_nil_iff.mp h).1 (hg _ hv)
    · cases h

theorem replaceVs_find (g : Str → Str) {s a b : Str} (h : findVs s = some (a, b)) :
    replaceVs g 0 s = a ++ (g b ++ replaceVs g 0 (b.drop 17)) := by
  induction s generalizing a with
  | nil => rw [findVs] at h; cases h
  | cons c s ih =>
    rw [findVs] at h
    rw [replaceVs]
    split at h
    · rename_i hv
      cases h
      rw [if_pos hv, replaceVs_skip, List.drop_succ_cons]
      rfl
    · rename_i hv
      rw [if_neg hv]
      rw [Option.map_eq_some_iff] at h
      obtain ⟨⟨a', b'⟩, h1, e⟩ := h
      cases e
      rw [ih h1]
      rfl

theorem replaceVs_exact (g : Str → Str) {s : Str} (h : vsAt s = true) (hl : s.length = 17) : replaceVs g 0 s = g s := by
  have hf : findVs s = some ([], s) := findVs_some.mpr ⟨rfl, h, by intro i hi; simp at hi⟩
  rw [replaceVs_find g hf]
  have : s.drop 17 = [] := by rw [List.drop_eq_nil_iff]; omega
  rw [this]
  simp [replaceVs]

theorem vsIdent_len {s : Str} (h : vsAt s = true) : (vsIdent s).length = 4 := by
  have := vsAt_len h
  unfold vsIdent
  rw [List.length_take]; omega

/-! ## Version strings as texts -/

theorem versionText_len (ident : Str) (v : Version) (kind : Str) (size : Nat) (hi : ident.length = 4) (hk : kind.length = 4) :
    (versionText ident v kind size).length = 17 := by
  unfold versionText
  simp [hexFixed_len, hi, hk]

theorem hexFixed_one (n : Nat) : hexFixed 1 n = [digitChr (n % 16)] := rfl

theorem idents_upper : ∀ i ∈ idents, i.length = 4 ∧ ∀ c ∈ i, isUpper c = true := by decide
theorem serials_upper : ∀ i ∈ serials, i.length = 4 ∧ ∀ c ∈ i, isUpper c = true := by decide

theorem isDigits_hexLow {s : Str} (h : IsDigits 16 s) : ∀ c ∈ s, isHexLow c = true :=
  fun c hc => isHexLow_iff.mpr (h c hc)

theorem hexLow_isDigits {s : Str} (h : ∀ c ∈ s, isHexLow c = true) : IsDigits 16 s :=
  fun c hc => isHexLow_iff.mp (h c hc)

theorem versionText_vsAt {ident kind : Str} (hi : ident ∈ idents) (hk : kind ∈ serials) (v : Version) (size : Nat) :
    vsAt (versionText ident v kind size) = true := by
  obtain ⟨i1, i2⟩ := idents_upper ident hi
  obtain ⟨k1, k2⟩ := serials_upper kind hk
  rw [vsAt_iff]
  refine ⟨ident, digitChr (v.major % 16), digitChr (v.minor % 16), kind, hexFixed 6 size, [], ?_, i1, k1, hexFixed_len _ _, i2, ?_, ?_, k2,
    isDigits_hexLow (hexFixed_digits _ _)⟩
  · unfold versionText; rw [hexFixed_one, hexFixed_one]; simp
  · exact isHexLow_iff.mpr ⟨_, Nat.mod_lt _ (by omega), rfl⟩
  · exact isHexLow_iff.mpr ⟨_, Nat.mod_lt _ (by omega), rfl⟩

/-- The parts of a match are those of a version text. -/
theorem vsAt_text {s : Str} (h : vsAt s = true) : ∃ v size, VersionFits v size ∧ s.take 17 = versionText (vsIdent s) v (vsKind s) size ∧
    radixVal 16 0 (vsMajor s) = some v.major ∧ radixVal 16 0 (vsMinor s) = some v.minor ∧ radixVal 16 0 (vsSize s) = some size ∧
    IsDigits 16 (vsMajor s) ∧ IsDigits 16 (vsMinor s) ∧ IsDigits 16 (vsSize s) ∧
    vsMajor s ≠ [] ∧ vsMinor s ≠ [] ∧ vsSize s ≠ [] := by
  obtain ⟨i, m, n, k, z, t, rfl, hi, hk, hz, h1, h2, h3, h4, h5⟩ := (vsAt_iff s).mp h
  match i, k, z, hi, hk, hz with
  | [c0, c1, c2, c3], [c6, c7, c8, c9], [c10, c11, c12, c13, c14, c15], _, _, _ =>
    obtain ⟨d, hd, rfl⟩ := isHexLow_iff.mp h2
    obtain ⟨e, he, rfl⟩ := isHexLow_iff.mp h3
    have hz' := hexLow_isDigits h5
    obtain ⟨size, s1, s2, s3⟩ := hex_unique _ hz'
    refine ⟨⟨d, e⟩, size, ⟨hd, he, by simpa using s2⟩, ?_, ?_, ?_, s1, ?_, ?_, hz', by simp [vsMajor], by simp [vsMinor], by simp [vsSize]⟩
    · unfold versionText
      rw [hexFixed_one, hexFixed_one]
      have s3' : hexFixed 6 size = [c10, c11, c12, c13, c14, c15] := s3.symm
      simp only [s3', Nat.mod_eq_of_lt hd, Nat.mod_eq_of_lt he]
      rfl
    · simp [vsMajor, radixVal, toDigit_chr (b := 16) (by omega) hd]
    · simp [vsMinor, radixVal, toDigit_chr (b := 16) (by omega) he]
    · intro c hc
      simp [vsMajor] at hc
      exact ⟨d, hd, hc⟩
    · intro c hc
      simp [vsMinor] at hc
      exact ⟨e, he, hc⟩

theorem parse_part {s : Str} {n max : Nat} (hd : IsDigits 16 s) (hne : s ≠ []) (hv : radixVal 16 0 s = some n) (hn : n ≤ max) :
    parseUnsigned 16 max s = .ok n := by
  rw [parseUnsigned_of_val (by omega) hd hne hv, if_pos hn]

/-- The parts of a version text. -/
theorem versionText_parts {ident kind : Str} (hi : ident.length = 4) (hk : kind.length = 4) (v : Version) (size : Nat)
    (t : Str) :
    vsIdent (versionText ident v kind size ++ t) = ident ∧ vsKind (versionText ident v kind size ++ t) = kind ∧
    vsMajor (versionText ident v kind size ++ t) = hexFixed 1 v.major ∧ vsMinor (versionText ident v kind size ++ t) = hexFixed 1 v.minor ∧
    vsSize (versionText ident v kind size ++ t) = hexFixed 6 size := by
  have hz := hexFixed_len 6 size
  unfold versionText
  generalize hexFixed 6 size = z at hz
  match ident, kind, hi, hk with
  | [c0, c1, c2, c3], [c6, c7, c8, c9], _, _ =>
    match z, hz with
    | [c10, c11, c12, c13, c14, c15], _ =>
      refine ⟨?_, ?_, ?_, ?_, ?_⟩ <;> rfl

end Keride
