/-
The JSON reader reads exactly the JSON texts.
-/
import Verif.Lemmas.JsonRead
import Verif.Spec.JsonText
import Mathlib.Data.List.Induction

namespace Keride

open Spec

/-! ## Strings -/

theorem hexDigit_iff (c : Char) (n : Nat) : toDigit 16 c = some n ↔ HexDigit c n := by
  constructor
  · intro h
    unfold toDigit at h
    dsimp only at h
    by_cases hlt : (if 48 ≤ c.toNat ∧ c.toNat ≤ 57 then c.toNat - 48 else if 97 ≤ c.toNat ∧ c.toNat ≤ 102 then c.toNat - 87
      else if 65 ≤ c.toNat ∧ c.toNat ≤ 70 then c.toNat - 55 else 16) < 16
    case neg => rw [if_neg hlt] at h; cases h
    case pos =>
      rw [if_pos hlt] at h
      have h := Option.some.inj h
      have hn : n < 16 := h ▸ hlt
      have hc : ∀ k, c.toNat = k → c = Char.ofNat k := fun k hk => (ofNat_toNat_eq hk).symm
      unfold HexDigit
      split at h
      · have := hc (n + 48) (by omega)
        subst this
        have h10 : n < 10 := by omega
        have : ∀ n, n < 10 → ((str% "0123456789abcdef")[n]? = some (Char.ofNat (n + 48)) ∨ (str% "0123456789ABCDEF")[n]? = some (Char.ofNat (n + 48))) := by
          decide
        exact this n h10
      · split at h
        · have := hc (n + 87) (by omega)
          subst this
          have h10 : 10 ≤ n := by omega
          have : ∀ n, n < 16 → 10 ≤ n → ((str% "0123456789abcdef")[n]? = some (Char.ofNat (n + 87)) ∨ (str% "0123456789ABCDEF")[n]? = some (Char.ofNat (n + 87))) := by
            decide
          exact this n hn h10
        · split at h
          · have := hc (n + 55) (by omega)
            subst this
            have h10 : 10 ≤ n := by omega
            have : ∀ n, n < 16 → 10 ≤ n → ((str% "0123456789abcdef")[n]? = some (Char.ofNat (n + 55)) ∨ (str% "0123456789ABCDEF")[n]? = some (Char.ofNat (n + 55))) := by
              decide
            exact this n hn h10
          · omega
  · intro h
    have hn : n < 16 := by
      rcases h with h | h
      · exact (List.getElem?_eq_some_iff.mp h).1
      · exact (List.getElem?_eq_some_iff.mp h).1
    have : ∀ n < 16, ∀ c, ((str% "0123456789abcdef")[n]? = some c → toDigit 16 c = some n) ∧
        ((str% "0123456789ABCDEF")[n]? = some c → toDigit 16 c = some n) := by
      intro n hn c
      constructor
      · intro h
        have e : ((str% "0123456789abcdef")[n]?).map (toDigit 16) = some (some n) := by
          clear h
          revert n
          decide
        rw [h] at e
        exact Option.some.inj e
      · intro h
        have e : ((str% "0123456789ABCDEF")[n]?).map (toDigit 16) = some (some n) := by
          clear h
          revert n
          decide
        rw [h] at e
        exact Option.some.inj e
    rcases h with h | h
    · exact (this n hn c).1 h
    · exact (this n hn c).2 h

theorem hexDigit_lt {c : Char} {n : Nat} (h : HexDigit c n) : n < 16 := by
  rcases h with h | h
  · exact (List.getElem?_eq_some_iff.mp h).1
  · exact (List.getElem?_eq_some_iff.mp h).1

theorem hex4_iff (s : Str) (n : Nat) (r : Str) : hex4 s = some (n, r) ↔ ∃ t, s = t ++ r ∧ Hex4 t n := by
  constructor
  · intro h
    unfold hex4 at h
    split at h
    · rename_i a b c d u
      split at h
      · rename_i w x y z h1 h2 h3 h4
        cases h
        rw [hexDigit_iff] at h1 h2 h3 h4
        exact ⟨[a, b, c, d], rfl, a, b, c, d, w, x, y, z, rfl, h1, h2, h3, h4, by omega⟩
      · cases h
    · cases h
  · rintro ⟨t, rfl, a, b, c, d, w, x, y, z, rfl, h1, h2, h3, h4, rfl⟩
    rw [← hexDigit_iff] at h1 h2 h3 h4
    simp only [List.cons_append, List.nil_append, hex4, h1, h2, h3, h4, Option.some.injEq, Prod.mk.injEq, and_true]
    omega

theorem hex4_lt {t : Str} {n : Nat} (h : Hex4 t n) : n < 65536 := by
  obtain ⟨a, b, c, d, w, x, y, z, -, h1, h2, h3, h4, rfl⟩ := h
  have := hexDigit_lt h1
  have := hexDigit_lt h2
  have := hexDigit_lt h3
  have := hexDigit_lt h4
  omega

theorem hex4_len {t : Str} {n : Nat} (h : Hex4 t n) : t.length = 4 := by
  obtain ⟨a, b, c, d, w, x, y, z, rfl, -⟩ := h
  rfl

theorem ofNat_valid {n : Nat} (h : n < 0xD800 ∨ 0xDFFF < n ∧ n < 0x110000) : (Char.ofNat n).toNat = n := by
  have hv : n.isValidChar := h
  unfold Char.ofNat
  rw [dif_pos hv]
  rfl

theorem char_valid (c : Char) : c.toNat < 0xD800 ∨ 0xDFFF < c.toNat ∧ c.toNat < 0x110000 := c.valid

/-- What one `\u` escape gives. -/
theorem uEscape_iff (s : Str) (c : Char) (r : Str) : uEscape s = some (c, r) ↔
    (∃ h, s = h ++ r ∧ Hex4 h c.toNat) ∨
    (∃ h l n m, s = h ++ '\\' :: 'u' :: (l ++ r) ∧ Hex4 h n ∧ Hex4 l m ∧ 0xD800 ≤ n ∧ n < 0xDC00 ∧ 0xDC00 ≤ m ∧ m < 0xE000 ∧
      c.toNat = 0x10000 + (n - 0xD800) * 0x400 + (m - 0xDC00)) := by
  constructor
  · intro h
    unfold uEscape at h
    split at h
    · cases h
    rename_i n r₁ h1
    obtain ⟨t, rfl, ht⟩ := (hex4_iff _ _ _).mp h1
    split at h
    · rename_i hn
      split at h
      · rename_i r₂
        split at h
        · cases h
        rename_i m r₃ h2
        obtain ⟨l, rfl, hl⟩ := (hex4_iff _ _ _).mp h2
        split at h
        · rename_i hm
          simp only [Option.some.injEq, Prod.mk.injEq] at h
          obtain ⟨h, rfl⟩ := h
          refine .inr ⟨t, l, n, m, rfl, ht, hl, hn.1, by omega, hm.1, by omega, ?_⟩
          rw [← h]
          exact ofNat_valid (.inr ⟨by omega, by omega⟩)
        · cases h
      · cases h
    · split at h
      · cases h
      · simp only [Option.some.injEq, Prod.mk.injEq] at h
        obtain ⟨h, rfl⟩ := h
        have := hex4_lt ht
        refine .inl ⟨t, rfl, ?_⟩
        rw [← h, ofNat_valid (by omega)]
        exact ht
  · rintro (⟨h, rfl, hh⟩ | ⟨h, l, n, m, rfl, hh, hl, h1, h2, h3, h4, h5⟩)
    · have hv := char_valid c
      unfold uEscape
      rw [(hex4_iff _ _ _).mpr ⟨h, rfl, hh⟩]
      dsimp only
      rw [if_neg (by omega), if_neg (by omega), Char.ofNat_toNat]
    · unfold uEscape
      rw [(hex4_iff _ _ _).mpr ⟨h, rfl, hh⟩]
      dsimp only
      rw [if_pos (by omega)]
      simp only [(hex4_iff _ _ _).mpr ⟨l, rfl, hl⟩]
      rw [if_pos (by omega), show 1024 = 0x400 from rfl, ← h5, Char.ofNat_toNat]

/-- The short escapes of the reader. -/
theorem short_iff (e c : Char) :
    ((if e = '"' then some '"' else if e = '\\' then some '\\' else if e = '/' then some '/'
      else if e = 'b' then some (Char.ofNat 8) else if e = 'f' then some (Char.ofNat 12)
      else if e = 'n' then some (Char.ofNat 10) else if e = 'r' then some (Char.ofNat 13)
      else if e = 't' then some (Char.ofNat 9) else none : Option Char) = some c) ↔ (e, c.toNat) ∈ shortEscapes := by
  have hc : ∀ k : Nat, (k < 0xD800) → (Char.ofNat k = c ↔ c.toNat = k) := by
    intro k hk
    constructor
    · rintro rfl
      exact ofNat_valid (.inl hk)
    · intro h
      exact ofNat_toNat_eq h
  have h34 := hc 34 (by decide)
  have h92 := hc 92 (by decide)
  have h47 := hc 47 (by decide)
  simp only [shortEscapes, List.mem_cons, Prod.mk.injEq, List.not_mem_nil, or_false]
  repeat' split
  all_goals
    first
      | (rename_i h; subst h; simp only [Option.some.injEq]; simp [hc 8 (by decide), hc 9 (by decide), hc 10 (by decide), hc 12 (by decide), hc 13 (by decide)]; first | done | exact h34 | exact h92 | exact h47)
      | simp_all

theorem parseStr_sound : ∀ (fuel : Nat) (s x r : Str), parseStrBody fuel s = some (x, r) → ∃ t, s = t ++ '"' :: r ∧ Spells t x := by
  intro fuel
  induction fuel with
  | zero => intro s x r h; rw [parseStrBody] at h; cases h
  | succ fuel ih =>
    intro s x r h
    cases s with
    | nil => rw [parseStrBody] at h; cases h
    | cons c s =>
      rw [parseStrBody.eq_def] at h
      dsimp only at h
      split at h
      · rename_i hc
        cases h
        exact ⟨[], by rw [hc]; rfl, .done⟩
      rename_i hq
      split at h
      · rename_i hb
        subst hb
        split at h
        · cases h
        rename_i e u
        split at h
        · rename_i he
          subst he
          split at h
          · cases h
          rename_i y u' hu
          simp only [Option.map_eq_some_iff, Prod.exists, Prod.mk.injEq] at h
          obtain ⟨x', r', h, rfl, rfl⟩ := h
          obtain ⟨t, rfl, ht⟩ := ih _ _ _ h
          rcases (uEscape_iff _ _ _).mp hu with ⟨k, rfl, hk⟩ | ⟨k, l, n, m, rfl, h1, h2, h3, h4, h5, h6, h7⟩
          · exact ⟨'\\' :: 'u' :: (k ++ t), by simp, .code k y hk ht⟩
          · exact ⟨'\\' :: 'u' :: (k ++ '\\' :: 'u' :: (l ++ t)), by simp, .pair k l n m y h1 h2 h3 h4 h5 h6 h7 ht⟩
        · split at h
          · cases h
          rename_i y hy
          simp only [Option.map_eq_some_iff, Prod.exists, Prod.mk.injEq] at h
          obtain ⟨x', r', h, rfl, rfl⟩ := h
          obtain ⟨t, rfl, ht⟩ := ih _ _ _ h
          exact ⟨'\\' :: e :: t, rfl, .short e y ((short_iff e y).mp hy) ht⟩
      · rename_i hb
        split at h
        · cases h
        · rename_i hc
          simp only [Option.map_eq_some_iff, Prod.exists, Prod.mk.injEq] at h
          obtain ⟨x', r', h, rfl, rfl⟩ := h
          obtain ⟨t, rfl, ht⟩ := ih _ _ _ h
          exact ⟨c :: t, rfl, .plain c hq hb (by omega) ht⟩

theorem parseStr_complete {t x : Str} (h : Spells t x) (r : Str) : ∀ fuel, t.length < fuel → parseStrBody fuel (t ++ '"' :: r) = some (x, r) := by
  induction h with
  | done =>
    intro fuel hf
    cases fuel with
    | zero => cases hf
    | succ fuel => rw [List.nil_append, parseStrBody.eq_def]; simp
  | plain c h1 h2 h3 _ ih =>
    intro fuel hf
    cases fuel with
    | zero => cases hf
    | succ fuel =>
      rw [List.cons_append, parseStrBody.eq_def]
      dsimp only
      rw [if_neg h1, if_neg h2, if_neg (by omega), ih fuel (by simpa using hf)]
      rfl
  | short e c he _ ih =>
    intro fuel hf
    cases fuel with
    | zero => cases hf
    | succ fuel =>
      have hu : e ≠ 'u' := by
        rintro rfl
        simp [shortEscapes] at he
      rw [List.cons_append, List.cons_append, parseStrBody.eq_def]
      dsimp only
      rw [if_neg (by decide), if_pos rfl, if_neg hu, (short_iff e c).mpr he]
      dsimp only
      rw [ih fuel (by simp at hf; omega)]
      rfl
  | code k c hk _ ih =>
    intro fuel hf
    cases fuel with
    | zero => cases hf
    | succ fuel =>
      rw [List.cons_append, List.cons_append, parseStrBody.eq_def]
      dsimp only
      rw [if_neg (by decide), if_pos rfl, if_pos rfl, List.append_assoc, (uEscape_iff _ _ _).mpr (.inl ⟨k, rfl, hk⟩)]
      dsimp only
      rw [ih fuel (by simp at hf; omega)]
      rfl
  | pair k l n m c h1 h2 h3 h4 h5 h6 h7 _ ih =>
    intro fuel hf
    cases fuel with
    | zero => cases hf
    | succ fuel =>
      rw [List.cons_append, List.cons_append, parseStrBody.eq_def]
      dsimp only
      rw [if_neg (by decide), if_pos rfl, if_pos rfl, List.append_assoc, List.cons_append, List.cons_append, List.append_assoc,
        (uEscape_iff _ _ _).mpr (.inr ⟨k, l, n, m, rfl, h1, h2, h3, h4, h5, h6, h7⟩)]
      dsimp only
      rw [ih fuel (by simp at hf; omega)]
      rfl

theorem parseStr_full {t x : Str} (h : Spells t x) (r : Str) :
    parseStrBody ((t ++ '"' :: r).length + 1) (t ++ '"' :: r) = some (x, r) :=
  parseStr_complete h r _ (by simp; omega)

/-! ## White space -/

theorem skipWs_split (s : Str) : ∃ w, s = w ++ skipWs s ∧ Blank w := by
  induction s with
  | nil => exact ⟨[], rfl, by simp [Blank]⟩
  | cons c s ih =>
    rw [skipWs]
    split
    · rename_i hc
      obtain ⟨w, h1, h2⟩ := ih
      refine ⟨c :: w, by rw [List.cons_append, ← h1], ?_⟩
      intro d hd
      rcases List.mem_cons.mp hd with rfl | hd
      · tauto
      · exact h2 d hd
    · exact ⟨[], rfl, by simp [Blank]⟩

theorem skipWs_blank {w : Str} (h : Blank w) (s : Str) : skipWs (w ++ s) = skipWs s := by
  induction w with
  | nil => rfl
  | cons c w ih =>
    rw [List.cons_append, skipWs, if_pos (by have := h c (by simp); tauto)]
    exact ih fun d hd => h d (by simp [hd])

theorem skipWs_all {w : Str} (h : Blank w) : skipWs w = [] := by
  have := skipWs_blank h []
  rwa [List.append_nil] at this

theorem blank_of_skipWs {s : Str} (h : skipWs s = []) : Blank s := by
  obtain ⟨w, h1, h2⟩ := skipWs_split s
  rw [h, List.append_nil] at h1
  rwa [h1]

/-! ## Numbers -/

/-- What may follow a value: nothing, white space or a delimiter. -/
def Stop (r : Str) : Prop := ∀ c, r.head? = some c → c = ',' ∨ c = ']' ∨ c = '}' ∨ c = ' ' ∨ c = '\t' ∨ c = '\n' ∨ c = '\r'

theorem isDec_iff (c : Char) : isDec c = true ↔ c ∈ str% "0123456789" := by
  constructor
  · intro h
    unfold isDec at h
    have h := of_decide_eq_true h
    have : ∀ k, k < 58 → 48 ≤ k → Char.ofNat k ∈ str% "0123456789" := by decide
    have := this c.toNat (by omega) h.1
    rwa [Char.ofNat_toNat] at this
  · exact isDec_of_mem c

theorem spanDec_spec (s : Str) : s = (spanDec s).1 ++ (spanDec s).2 ∧ ∀ c ∈ (spanDec s).1, c ∈ str% "0123456789" := by
  refine ⟨(List.takeWhile_append_dropWhile ..).symm, ?_⟩
  intro c hc
  exact (isDec_iff c).mp (List.all_eq_true.mp (List.all_takeWhile (l := s)) c hc)

theorem radixVal_decimal : ∀ (t : Str) (a : Nat), (∀ c ∈ t, c ∈ str% "0123456789") →
    radixVal 10 a t = some (t.foldl (fun n c => 10 * n + (c.toNat - 48)) a)
  | [], a, _ => rfl
  | c :: t, a, h => by
    have hc : toDigit 10 c = some (c.toNat - 48) := by
      have : ∀ c ∈ str% "0123456789", toDigit 10 c = some (c.toNat - 48) := by decide
      exact this c (h c (by simp))
    rw [radixVal, hc, List.foldl_cons]
    dsimp only
    rw [radixVal_decimal t _ fun d hd => h d (by simp [hd]), Nat.mul_comm a 10]

theorem intOf_decimal {neg : Bool} {a : Str} (h : Digits a) (i : Int) :
    intOf neg a = some i ↔ IsInteger (if neg then ['-'] else []) a [] [] i := by
  unfold intOf
  rw [radixVal_decimal a 0 h.2, show a.foldl (fun n c => 10 * n + (c.toNat - 48)) 0 = decimal a from rfl]
  unfold IsInteger
  generalize decimal a = n
  cases neg
  · simp [eq_comm]
  · simp [eq_comm, and_assoc]

theorem frac_iff (s f r : Str) (h : numFrac s = some (f, r)) : s = f ++ r ∧ (f = [] ∨ ∃ b, f = '.' :: b ∧ Digits b) := by
  unfold numFrac at h
  split at h
  · cases h; exact ⟨rfl, .inl rfl⟩
  · rename_i c u
    split at h
    · rename_i hc
      split at h
      · cases h
      · rename_i hne
        cases h
        obtain ⟨h1, h2⟩ := spanDec_spec u
        exact ⟨by rw [hc, List.cons_append, ← h1], .inr ⟨_, rfl, hne, h2⟩⟩
    · cases h; exact ⟨rfl, .inl rfl⟩

theorem exp_iff (s e r : Str) (h : numExp s = some (e, r)) :
    s = e ++ r ∧ (e = [] ∨ ∃ x g b, e = x :: (g ++ b) ∧ (x = 'e' ∨ x = 'E') ∧ (g = [] ∨ g = ['+'] ∨ g = ['-']) ∧ Digits b) := by
  unfold numExp at h
  split at h
  · cases h; exact ⟨rfl, .inl rfl⟩
  · rename_i c u
    split at h
    · rename_i hc
      dsimp only at h
      have hg : ∃ g v, u = g ++ v ∧ (if u.head? = some '+' ∨ u.head? = some '-' then u.take 1 else []) = g ∧ (g = [] ∨ g = ['+'] ∨ g = ['-']) := by
        split
        · rename_i hs
          cases u with
          | nil => simp at hs
          | cons d v =>
            simp only [List.head?_cons, Option.some.injEq] at hs
            refine ⟨[d], v, rfl, rfl, ?_⟩
            rcases hs with rfl | rfl <;> simp
        · exact ⟨[], u, rfl, rfl, .inl rfl⟩
      obtain ⟨g, v, rfl, hg, hg'⟩ := hg
      rw [hg, List.drop_left] at h
      split at h
      · cases h
      · rename_i hne
        cases h
        obtain ⟨h1, h2⟩ := spanDec_spec v
        refine ⟨?_, .inr ⟨c, g, (spanDec v).1, rfl, hc, hg', hne, h2⟩⟩
        simp only [List.cons_append, List.append_assoc]
        rw [← h1]
    · cases h; exact ⟨rfl, .inl rfl⟩

theorem parseNum_sound {fl : Str → Option Str} {s r : Str} {v : Value} (h : parseNum fl s = some (v, r)) :
    ∃ t, s = t ++ r ∧ NumberIs fl t v := by
  unfold parseNum at h
  dsimp only at h
  have hs : ∃ neg u, decide (s.head? = some '-') = neg ∧ (if neg = true then s.drop 1 else s) = u ∧ s = (if neg then ['-'] else []) ++ u := by
    refine ⟨_, _, rfl, rfl, ?_⟩
    cases s with
    | nil => rfl
    | cons c s =>
      by_cases hc : c = '-'
      · subst hc; simp
      · simp [hc]
  obtain ⟨neg, u, h1, h2, h3⟩ := hs
  rw [h1, h2] at h
  obtain ⟨k1, k2⟩ := spanDec_spec u
  split at h
  · cases h
  rename_i hne
  split at h
  · cases h
  rename_i hz
  split at h
  · cases h
  rename_i f r₁ hf
  split at h
  · cases h
  rename_i e r₂ he
  obtain ⟨f1, f2⟩ := frac_iff _ _ _ hf
  obtain ⟨e1, e2⟩ := exp_iff _ _ _ he
  have hd : Digits (spanDec u).1 := ⟨hne, k2⟩
  have hN : IsNumber (if neg then ['-'] else []) (spanDec u).1 f e := by
    refine ⟨by cases neg <;> simp, ⟨hd, ?_⟩, f2, e2⟩
    intro h0
    have hl : (spanDec u).1.length = 1 := by
      by_contra hl
      exact hz ⟨h0, hl⟩
    generalize (spanDec u).1 = a at h0 hl
    match a, h0, hl with
    | [c], h0, _ => simpa using h0
  have hsplit : s = (if neg then ['-'] else []) ++ (spanDec u).1 ++ f ++ e ++ r₂ := by
    rw [h3]
    conv_lhs => rw [k1, f1, e1]
    simp
  split at h
  · rename_i i hi
    cases h
    split at hi
    · rename_i hfe
      obtain ⟨rfl, rfl⟩ := hfe
      exact ⟨_, hsplit, _, _, _, _, rfl, hN, .inl ⟨i, (intOf_decimal hd i).mp hi, rfl⟩⟩
    · cases hi
  · rename_i hi
    simp only [Option.map_eq_some_iff, Prod.mk.injEq] at h
    obtain ⟨x, hx, rfl, rfl⟩ := h
    refine ⟨_, hsplit, _, _, _, _, rfl, hN, .inr ⟨?_, x, hx, rfl⟩⟩
    intro i hI
    obtain ⟨rfl, rfl, hI'⟩ := id hI
    rw [if_pos ⟨rfl, rfl⟩, (intOf_decimal hd i).mpr hI] at hi
    cases hi

theorem stop_dec {r : Str} (h : Stop r) : ∀ c, r.head? = some c → isDec c = false := by
  intro c hc
  rcases h c hc with rfl | rfl | rfl | rfl | rfl | rfl | rfl <;> decide

theorem exp_complete {e r : Str} (he : e = [] ∨ ∃ x g b, e = x :: (g ++ b) ∧ (x = 'e' ∨ x = 'E') ∧ (g = [] ∨ g = ['+'] ∨ g = ['-']) ∧ Digits b)
    (hr : Stop r) : numExp (e ++ r) = some (e, r) := by
  rcases he with rfl | ⟨x, g, b, rfl, hx, hg, hb⟩
  · cases r with
    | nil => rfl
    | cons c r =>
      have : ¬ (c = 'e' ∨ c = 'E') := by rcases hr c rfl with rfl | rfl | rfl | rfl | rfl | rfl | rfl <;> decide
      rw [List.nil_append, numExp.eq_def]
      dsimp only
      rw [if_neg this]
  · have hsg : (if (g ++ (b ++ r)).head? = some '+' ∨ (g ++ (b ++ r)).head? = some '-' then (g ++ (b ++ r)).take 1 else []) = g := by
      rcases hg with rfl | rfl | rfl
      · obtain ⟨hne, hd⟩ := hb
        cases b with
        | nil => exact absurd rfl hne
        | cons d b =>
          have hd := hd d (by simp)
          have : ¬ (d = '+' ∨ d = '-') := by
            rintro (rfl | rfl)
            · exact absurd hd (by decide)
            · exact absurd hd (by decide)
          simpa using this
      · rfl
      · rfl
    rw [List.cons_append, List.append_assoc, numExp.eq_def]
    dsimp only
    rw [if_pos hx, hsg, List.drop_left, spanDec_app (fun c hc => (isDec_iff c).mpr (hb.2 c hc)) (stop_dec hr), if_neg hb.1]
    rfl

theorem frac_complete {f e r : Str} (hf : f = [] ∨ ∃ b, f = '.' :: b ∧ Digits b)
    (he : e = [] ∨ ∃ x g b, e = x :: (g ++ b) ∧ (x = 'e' ∨ x = 'E') ∧ (g = [] ∨ g = ['+'] ∨ g = ['-']) ∧ Digits b)
    (hr : Stop r) : (∀ c, (e ++ r).head? = some c → isDec c = false) ∧ numFrac (f ++ (e ++ r)) = some (f, e ++ r) := by
  have hd : ∀ c, (e ++ r).head? = some c → isDec c = false := by
    rcases he with rfl | ⟨x, g, b, rfl, hx, -⟩
    · exact stop_dec hr
    · intro c hc
      simp only [List.cons_append, List.head?_cons, Option.some.injEq] at hc
      subst hc
      rcases hx with rfl | rfl <;> decide
  refine ⟨hd, ?_⟩
  rcases hf with rfl | ⟨b, rfl, hb⟩
  · have : (e ++ r).head? ≠ some '.' := by
      rcases he with rfl | ⟨x, g, b, rfl, hx, -⟩
      · intro h
        rcases hr _ h with h | h | h | h | h | h | h <;> exact absurd h (by decide)
      · intro h
        simp only [List.cons_append, List.head?_cons, Option.some.injEq] at h
        subst h
        rcases hx with h | h <;> exact absurd h (by decide)
    rw [List.nil_append]
    cases hu : e ++ r with
    | nil => rfl
    | cons c u =>
      rw [hu] at this
      rw [numFrac.eq_def]
      dsimp only
      rw [if_neg (by simpa using this)]
  · rw [List.cons_append, numFrac.eq_def]
    dsimp only
    rw [if_pos rfl, spanDec_app (fun c hc => (isDec_iff c).mpr (hb.2 c hc)) hd, if_neg hb.1]

theorem parseNum_complete {fl : Str → Option Str} {t : Str} {v : Value} (h : NumberIs fl t v) {r : Str} (hr : Stop r) :
    parseNum fl (t ++ r) = some (v, r) := by
  obtain ⟨sign, a, f, e, rfl, hN, hv⟩ := h
  have hneg : ∃ neg : Bool, sign = (if neg then ['-'] else []) := by
    rcases hN.sign with rfl | rfl
    · exact ⟨false, rfl⟩
    · exact ⟨true, rfl⟩
  obtain ⟨neg, rfl⟩ := hneg
  obtain ⟨⟨ha, ha0⟩, hf, he⟩ := hN.2, hN.3, hN.4
  obtain ⟨k1, k2⟩ := frac_complete hf he hr
  have k3 := exp_complete he hr
  have hfd : ∀ c, (f ++ (e ++ r)).head? = some c → isDec c = false := by
    rcases hf with rfl | ⟨b, rfl, -⟩
    · exact k1
    · intro c hc
      simp only [List.cons_append, List.head?_cons, Option.some.injEq] at hc
      subst hc
      decide
  have hs := spanDec_app (b := f ++ (e ++ r)) (fun c hc => (isDec_iff c).mpr (ha.2 c hc)) hfd
  have hh : a.head? ≠ some '-' := by
    intro h
    have := ha.2 '-' (List.mem_of_head? h)
    exact absurd this (by decide)
  have hhd : (decide (((if neg = true then ['-'] else []) ++ a ++ f ++ e ++ r).head? = some '-')) = neg := by
    cases neg
    · obtain ⟨hne, -⟩ := ha
      cases a with
      | nil => exact absurd rfl hne
      | cons c a => simpa using hh
    · simp
  have hdr : (if neg = true then ((if neg = true then ['-'] else []) ++ a ++ f ++ e ++ r).drop 1
      else ((if neg = true then ['-'] else []) ++ a ++ f ++ e ++ r)) = a ++ (f ++ (e ++ r)) := by
    cases neg <;> simp
  unfold parseNum
  dsimp only
  rw [hhd, hdr, hs]
  dsimp only
  rw [if_neg ha.1, if_neg (by rintro ⟨h0, h1⟩; exact h1 (by rw [ha0 h0]; rfl)), k2]
  dsimp only
  rw [k3]
  dsimp only
  rcases hv with ⟨i, hi, rfl⟩ | ⟨hno, x, hx, rfl⟩
  · obtain ⟨rfl, rfl, hi'⟩ := id hi
    rw [if_pos ⟨rfl, rfl⟩, (intOf_decimal ha i).mpr hi]
  · have : (if f = [] ∧ e = [] then intOf neg a else none : Option Int) = none := by
      split
      · rename_i hfe
        obtain ⟨rfl, rfl⟩ := hfe
        cases hi : intOf neg a with
        | none => rfl
        | some i => exact absurd ((intOf_decimal ha i).mp hi) (hno i)
      · rfl
    rw [this, hx]
    rfl

/-! ## Objects -/

theorem firstKeys_append (l : List Str) (k : Str) : firstKeys (l ++ [k]) = if k ∈ l then firstKeys l else firstKeys l ++ [k] := by
  induction l with
  | nil => rfl
  | cons a l ih =>
    rw [List.cons_append, firstKeys, firstKeys, ih]
    by_cases h : k ∈ l
    · rw [if_pos h, if_pos (by simp [h])]
    · rw [if_neg h]
      by_cases hk : k = a
      · subst hk
        rw [if_pos (by simp), List.filter_append]
        simp
      · rw [if_neg (by simp [h, hk]), List.filter_append]
        simp [hk]

theorem mem_firstKeys (l : List Str) (k : Str) : k ∈ firstKeys l ↔ k ∈ l := by
  induction l with
  | nil => rfl
  | cons a l ih =>
    rw [firstKeys, List.mem_cons, List.mem_filter, ih, List.mem_cons]
    by_cases h : k = a <;> simp [h]

theorem firstKeys_nodup (l : List Str) : (firstKeys l).Nodup := by
  induction l with
  | nil => exact .nil
  | cons a l ih =>
    rw [firstKeys, List.nodup_cons]
    exact ⟨by simp, ih.filter _⟩

theorem mem_insert {k k' : Str} {x v : Value} {o : List (Str × Value)} (hn : (o.map Prod.fst).Nodup) (h : (k', v) ∈ Value.insert k x o) :
    (k' = k ∧ v = x) ∨ (k' ≠ k ∧ (k', v) ∈ o) := by
  induction o with
  | nil =>
    rw [Value.insert] at h
    simp only [List.mem_singleton, Prod.mk.injEq] at h
    exact .inl h
  | cons p o ih =>
    obtain ⟨q, y⟩ := p
    rw [Value.insert] at h
    rw [List.map_cons, List.nodup_cons] at hn
    split at h
    · rename_i hq
      subst hq
      rcases List.mem_cons.mp h with h | h
      · simp only [Prod.mk.injEq] at h
        exact .inl h
      · exact .inr ⟨fun e => hn.1 (e ▸ (List.mem_map_of_mem (f := Prod.fst) h : k' ∈ o.map Prod.fst)), by simp [h]⟩
    · rename_i hq
      rcases List.mem_cons.mp h with h | h
      · simp only [Prod.mk.injEq] at h
        obtain ⟨rfl, rfl⟩ := h
        exact .inr ⟨hq, by simp⟩
      · rcases ih hn.2 h with h | ⟨h1, h2⟩
        · exact .inl h
        · exact .inr ⟨h1, by simp [h2]⟩

/-- Inserting entries one after the other gives the object with them. -/
theorem objectOf_foldl (l : List (Str × Value)) : ObjectOf l (l.foldl (fun o p => Value.insert p.1 p.2 o) []) := by
  induction l using List.reverseRecOn with
  | nil => exact ⟨rfl, fun k v h => by cases h⟩
  | append_singleton l p ih =>
    obtain ⟨k, x⟩ := p
    obtain ⟨h1, h2⟩ := ih
    rw [List.foldl_append]
    simp only [List.foldl_cons, List.foldl_nil]
    generalize l.foldl (fun o p => Value.insert p.1 p.2 o) [] = o at h1 h2
    constructor
    · rw [insert_keys, List.map_append, List.map_cons, List.map_nil, firstKeys_append, h1]
      simp only [mem_firstKeys]
    · intro q v hq
      rcases mem_insert (h1 ▸ firstKeys_nodup _) hq with ⟨rfl, rfl⟩ | ⟨hne, hq⟩
      · exact ⟨l, [], rfl, by simp⟩
      · obtain ⟨a, b, rfl, hb⟩ := h2 q v hq
        refine ⟨a, b ++ [(k, x)], by simp, ?_⟩
        simp only [List.map_append, List.map_cons, List.map_nil, List.mem_append, List.mem_singleton, not_or]
        exact ⟨hb, hne⟩

theorem last_unique {a b a' b' : List (Str × Value)} {k : Str} {v v' : Value} (h : a ++ (k, v) :: b = a' ++ (k, v') :: b')
    (hb : k ∉ b.map Prod.fst) (hb' : k ∉ b'.map Prod.fst) : v = v' := by
  rw [List.append_eq_append_iff] at h
  rcases h with ⟨c, h1, h2⟩ | ⟨c, h1, h2⟩
  · cases c with
    | nil => simp at h2; exact h2.1
    | cons p c =>
      simp only [List.cons_append, List.cons.injEq] at h2
      exact absurd (by rw [h2.2]; simp) hb
  · cases c with
    | nil => simp at h2; exact h2.1.symm
    | cons p c =>
      simp only [List.cons_append, List.cons.injEq] at h2
      exact absurd (by rw [h2.2]; simp) hb'

/-- There is only one object with given entries. -/
theorem objectOf_unique {l o o' : List (Str × Value)} (h : ObjectOf l o) (h' : ObjectOf l o') : o = o' := by
  have hk : o.map Prod.fst = o'.map Prod.fst := h.1.trans h'.1.symm
  have hv : ∀ k v v', (k, v) ∈ o → (k, v') ∈ o' → v = v' := by
    intro k v v' h1 h2
    obtain ⟨a, b, e, hb⟩ := h.2 k v h1
    obtain ⟨a', b', e', hb'⟩ := h'.2 k v' h2
    exact last_unique (e.symm.trans e') hb hb'
  clear h h'
  induction o generalizing o' with
  | nil => cases o' with
    | nil => rfl
    | cons p o' => cases hk
  | cons p o ih =>
    cases o' with
    | nil => cases hk
    | cons p' o' =>
      obtain ⟨k, v⟩ := p
      obtain ⟨k', v'⟩ := p'
      simp only [List.map_cons, List.cons.injEq] at hk
      obtain ⟨rfl, hk⟩ := hk
      rw [hv k v v' (by simp) (by simp), ih hk fun q x x' h1 h2 => hv q x x' (by simp [h1]) (by simp [h2])]

/-! ## Values -/

theorem dropPrefix_iff : ∀ (p s r : Str), dropPrefix p s = some r ↔ s = p ++ r
  | [], s, r => by simp [dropPrefix]
  | c :: p, [], r => by simp [dropPrefix]
  | c :: p, d :: s, r => by
    rw [dropPrefix]
    by_cases h : c = d
    · subst h
      rw [if_pos rfl, dropPrefix_iff p s r]
      simp
    · rw [if_neg h]
      simp only [List.cons_append, List.cons.injEq, reduceCtorEq, false_iff, not_and]
      intro e
      exact absurd e.symm h

theorem skipWs_head {s : Str} {c : Char} (h : (skipWs s).head? = some c) : ∃ w, s = w ++ c :: (skipWs s).drop 1 ∧ Blank w := by
  obtain ⟨w, h1, h2⟩ := skipWs_split s
  cases hs : skipWs s with
  | nil => rw [hs] at h; cases h
  | cons d u =>
    rw [hs] at h
    cases h
    refine ⟨w, ?_, h2⟩
    rw [h1, hs]
    rfl

/-- What the reader returns is what the text means. -/
theorem parse_sound (fl : Str → Option Str) (fuel : Nat) :
    (∀ d s v r, parseVal fl fuel (d + 1) s = some (v, r) → ∃ w t, s = w ++ (t ++ r) ∧ Blank w ∧ Denotes fl d t v) ∧
    (∀ d s l r, parseElems fl fuel (d + 1) s = some (l, r) → ∃ t, s = t ++ ']' :: r ∧ Items fl d t l) ∧
    (∀ d o s l r, parseEntries fl fuel (d + 1) o s = some (l, r) →
      ∃ t e, s = t ++ '}' :: r ∧ Entries fl d t e ∧ l = e.foldl (fun o p => Value.insert p.1 p.2 o) o) := by
  induction fuel with
  | zero =>
    refine ⟨?_, ?_, ?_⟩
    · intro d s v r h; rw [parseVal] at h; cases h
    · intro d s l r h; rw [parseElems] at h; cases h
    · intro d o s l r h; rw [parseEntries] at h; cases h
  | succ fuel ih =>
    obtain ⟨ih1, ih2, ih3⟩ := ih
    refine ⟨?_, ?_, ?_⟩
    · intro d s v r h
      obtain ⟨w, hw, hb⟩ := skipWs_split s
      rw [parseVal] at h
      split at h
      · cases h
      rename_i c t hs
      rw [hs] at hw
      suffices ∃ u, c :: t = u ++ r ∧ Denotes fl d u v by
        obtain ⟨u, h1, h2⟩ := this
        exact ⟨w, u, by rw [hw, h1], hb, h2⟩
      split at h
      · rename_i hc
        subst hc
        simp only [Option.map_eq_some_iff, Prod.mk.injEq] at h
        obtain ⟨x, h, rfl, rfl⟩ := h
        rw [dropPrefix_iff] at h
        exact ⟨str% "null", by rw [h]; rfl, .null d⟩
      split at h
      · rename_i hc
        subst hc
        simp only [Option.map_eq_some_iff, Prod.mk.injEq] at h
        obtain ⟨x, h, rfl, rfl⟩ := h
        rw [dropPrefix_iff] at h
        exact ⟨str% "true", by rw [h]; rfl, .true d⟩
      split at h
      · rename_i hc
        subst hc
        simp only [Option.map_eq_some_iff, Prod.mk.injEq] at h
        obtain ⟨x, h, rfl, rfl⟩ := h
        rw [dropPrefix_iff] at h
        exact ⟨str% "false", by rw [h]; rfl, .false d⟩
      split at h
      · rename_i hc
        subst hc
        simp only [Option.map_eq_some_iff, Prod.exists, Prod.mk.injEq] at h
        obtain ⟨x, y, h, rfl, rfl⟩ := h
        obtain ⟨u, rfl, hu⟩ := parseStr_sound _ _ _ _ h
        exact ⟨'"' :: (u ++ ['"']), by simp, .string d hu⟩
      split at h
      · rename_i hc
        subst hc
        split at h
        · cases h
        rename_i hd
        obtain ⟨d, rfl⟩ : ∃ e, d = e + 1 := ⟨d - 1, by omega⟩
        split at h
        · rename_i hh
          cases h
          obtain ⟨w', h1, h2⟩ := skipWs_head hh
          exact ⟨'[' :: (w' ++ [']']), by simp only [List.cons_append, List.append_assoc, List.nil_append, List.cons.injEq, true_and]; exact h1, .noItems d h2⟩
        · simp only [Option.map_eq_some_iff, Prod.exists, Prod.mk.injEq, Nat.add_sub_cancel] at h
          obtain ⟨x, y, h, rfl, rfl⟩ := h
          obtain ⟨u, rfl, hu⟩ := ih2 _ _ _ _ h
          exact ⟨'[' :: (u ++ [']']), by simp, .items d hu⟩
      split at h
      · rename_i hc
        subst hc
        split at h
        · cases h
        rename_i hd
        obtain ⟨d, rfl⟩ : ∃ e, d = e + 1 := ⟨d - 1, by omega⟩
        split at h
        · rename_i hh
          cases h
          obtain ⟨w', h1, h2⟩ := skipWs_head hh
          exact ⟨'{' :: (w' ++ ['}']), by simp only [List.cons_append, List.append_assoc, List.nil_append, List.cons.injEq, true_and]; exact h1, .noEntries d h2⟩
        · simp only [Option.map_eq_some_iff, Prod.exists, Prod.mk.injEq, Nat.add_sub_cancel] at h
          obtain ⟨x, y, h, rfl, rfl⟩ := h
          obtain ⟨u, e, rfl, hu, rfl⟩ := ih3 _ _ _ _ _ h
          exact ⟨'{' :: (u ++ ['}']), by simp, .entries d hu (objectOf_foldl e)⟩
      · obtain ⟨u, h1, h2⟩ := parseNum_sound h
        exact ⟨u, h1, .number d h2⟩
    · intro d s l r h
      rw [parseElems] at h
      split at h
      · cases h
      rename_i v r₁ hv
      obtain ⟨w, t, rfl, hw, ht⟩ := ih1 _ _ _ _ hv
      obtain ⟨w', hr, hw'⟩ := skipWs_split r₁
      split at h
      · cases h
      rename_i c r₂ hs
      rw [hs] at hr
      subst hr
      split at h
      · rename_i hc
        subst hc
        simp only [Option.map_eq_some_iff, Prod.exists, Prod.mk.injEq] at h
        obtain ⟨x, y, h, rfl, rfl⟩ := h
        obtain ⟨u, rfl, hu⟩ := ih2 _ _ _ _ h
        exact ⟨_, by simp, .more d hw ht hw' hu⟩
      · split at h
        · rename_i hc
          subst hc
          cases h
          exact ⟨_, by simp, .last d hw ht hw'⟩
        · cases h
    · intro d o s l r h
      obtain ⟨w, hsp, hw⟩ := skipWs_split s
      rw [parseEntries] at h
      split at h
      · cases h
      rename_i q s₁ hs
      rw [hs] at hsp
      subst hsp
      split at h
      case isFalse => cases h
      rename_i hq
      subst hq
      split at h
      · cases h
      rename_i k r₁ hk
      obtain ⟨u, rfl, hu⟩ := parseStr_sound _ _ _ _ hk
      obtain ⟨w₁, hr, hw₁⟩ := skipWs_split r₁
      split at h
      · cases h
      rename_i c r₂ hs₁
      rw [hs₁] at hr
      subst hr
      split at h
      case isFalse => cases h
      rename_i hc
      subst hc
      split at h
      · cases h
      rename_i v r₃ hv
      obtain ⟨w₂, t, rfl, hw₂, ht⟩ := ih1 _ _ _ _ hv
      obtain ⟨w₃, hr, hw₃⟩ := skipWs_split r₃
      split at h
      · cases h
      rename_i c r₄ hs₂
      rw [hs₂] at hr
      subst hr
      split at h
      · rename_i hc
        subst hc
        obtain ⟨y, e, rfl, he, rfl⟩ := ih3 _ _ _ _ _ h
        exact ⟨_, _, by simp, .more d hw hu hw₁ hw₂ ht hw₃ he, rfl⟩
      · split at h
        · rename_i hc
          subst hc
          cases h
          exact ⟨_, _, by simp, .last d hw hu hw₁ hw₂ ht hw₃, rfl⟩
        · cases h

theorem stop_blank {w r : Str} (hw : Blank w) (hr : Stop r) : Stop (w ++ r) := by
  cases w with
  | nil => exact hr
  | cons c w =>
    intro d hd
    cases hd
    rcases hw c (by simp) with h | h | h | h <;> simp [h]

theorem stop_cons {c : Char} (r : Str) (h : c = ',' ∨ c = ']' ∨ c = '}') : Stop (c :: r) := by
  intro d hd
  cases hd
  tauto

/-- A number starts with a minus sign or a digit. -/
theorem number_head {fl : Str → Option Str} {t : Str} {v : Value} (h : NumberIs fl t v) : ∃ c u, t = c :: u ∧ (c = '-' ∨ isDec c = true) := by
  obtain ⟨sign, a, f, e, rfl, hN, -⟩ := h
  rcases hN.sign with rfl | rfl
  · obtain ⟨hne, hd⟩ := hN.int.1
    cases a with
    | nil => exact absurd rfl hne
    | cons c a => exact ⟨c, _, rfl, .inr ((isDec_iff c).mpr (hd c (by simp)))⟩
  · exact ⟨'-', _, rfl, .inl rfl⟩

/-- A value starts with none of the characters that close, separate or blank. -/
theorem denotes_head {fl : Str → Option Str} {d : Nat} {t : Str} {v : Value} (h : Denotes fl d t v) :
    ∃ c u, t = c :: u ∧ ¬ (c = ' ' ∨ c = '\n' ∨ c = '\t' ∨ c = '\r') ∧ c ≠ ']' ∧ c ≠ '}' := by
  cases h
  case number h =>
    obtain ⟨c, u, rfl, hc⟩ := number_head h
    refine ⟨c, u, rfl, ?_⟩
    rcases hc with rfl | hc
    · decide
    · have hc := (isDec_iff c).mp hc
      have : ∀ c ∈ str% "0123456789", ¬ (c = ' ' ∨ c = '\n' ∨ c = '\t' ∨ c = '\r') ∧ c ≠ ']' ∧ c ≠ '}' := by decide
      exact this c hc
  all_goals exact ⟨_, _, rfl, by decide, by decide, by decide⟩

/-- What the text means is what the reader returns. -/
theorem parse_complete (fl : Str → Option Str) (N : Nat) :
    (∀ d t v, t.length ≤ N → Denotes fl d t v → ∀ w r fuel, Blank w → Stop r → t.length ≤ fuel → parseVal fl fuel (d + 1) (w ++ (t ++ r)) = some (v, r)) ∧
    (∀ d t l, t.length ≤ N → Items fl d t l → ∀ r fuel, t.length < fuel → parseElems fl fuel (d + 1) (t ++ ']' :: r) = some (l, r)) ∧
    (∀ d t e, t.length ≤ N → Entries fl d t e → ∀ o r fuel, t.length < fuel →
      parseEntries fl fuel (d + 1) o (t ++ '}' :: r) = some (e.foldl (fun o p => Value.insert p.1 p.2 o) o, r)) := by
  induction N with
  | zero =>
    refine ⟨?_, ?_, ?_⟩
    · intro d t v hl h
      obtain ⟨c, u, rfl, -⟩ := denotes_head h
      simp at hl
    · intro d t l hl h
      cases h
      case last h =>
        obtain ⟨c, u, rfl, -⟩ := denotes_head h
        simp at hl
      case more => simp at hl
    · intro d t l hl h
      cases h <;> simp at hl
  | succ N ih =>
    obtain ⟨ih1, ih2, ih3⟩ := ih
    have key1 : ∀ d t v, t.length ≤ N + 1 → Denotes fl d t v → ∀ w r fuel, Blank w → Stop r → t.length ≤ fuel →
        parseVal fl fuel (d + 1) (w ++ (t ++ r)) = some (v, r) := by
      intro d t v hl h w r fuel hw hr hf
      obtain ⟨c, u, hcu, hc, -⟩ := denotes_head h
      obtain ⟨fuel, rfl⟩ : ∃ e, fuel = e + 1 := ⟨fuel - 1, by rw [hcu, List.length_cons] at hf; omega⟩
      rw [parseVal, skipWs_blank hw, show skipWs (t ++ r) = t ++ r by rw [hcu, List.cons_append, skipWs_cons hc]]
      cases h
      case number h =>
        obtain ⟨c', u', hcu', hn⟩ := number_head h
        rw [hcu] at hcu'
        cases hcu'
        obtain ⟨n1, n2, n3, n4, n5, n6⟩ : c ≠ 'n' ∧ c ≠ 't' ∧ c ≠ 'f' ∧ c ≠ '"' ∧ c ≠ '[' ∧ c ≠ '{' := by
          rcases hn with rfl | hn
          · decide
          · have hn := (isDec_iff c).mp hn
            have : ∀ c ∈ str% "0123456789", c ≠ 'n' ∧ c ≠ 't' ∧ c ≠ 'f' ∧ c ≠ '"' ∧ c ≠ '[' ∧ c ≠ '{' := by decide
            exact this c hn
        have hp := parseNum_complete h hr
        rw [hcu, List.cons_append] at hp ⊢
        dsimp only
        rw [if_neg n1, if_neg n2, if_neg n3, if_neg n4, if_neg n5, if_neg n6, hp]
      case null =>
        rw [List.cons_append]
        dsimp only
        rw [if_pos rfl, (dropPrefix_iff _ _ r).mpr rfl]
        rfl
      case true =>
        rw [List.cons_append]
        dsimp only
        rw [if_neg (by decide), if_pos rfl, (dropPrefix_iff _ _ r).mpr rfl]
        rfl
      case false =>
        rw [List.cons_append]
        dsimp only
        rw [if_neg (by decide), if_neg (by decide), if_pos rfl, (dropPrefix_iff _ _ r).mpr rfl]
        rfl
      case string t s h =>
        rw [List.cons_append]
        dsimp only
        rw [if_neg (by decide), if_neg (by decide), if_neg (by decide), if_pos rfl, List.append_assoc, List.cons_append, List.nil_append,
          parseStr_full h r]
        rfl
      case noItems d w' h =>
        rw [List.cons_append]
        dsimp only
        rw [if_neg (by decide), if_neg (by decide), if_neg (by decide), if_neg (by decide), if_pos rfl, if_neg (by omega), List.append_assoc,
          skipWs_blank h, List.cons_append, List.nil_append, skipWs_cons (by decide)]
        rfl
      case noEntries d w' h =>
        rw [List.cons_append]
        dsimp only
        rw [if_neg (by decide), if_neg (by decide), if_neg (by decide), if_neg (by decide), if_neg (by decide), if_pos rfl, if_neg (by omega),
          List.append_assoc, skipWs_blank h, List.cons_append, List.nil_append, skipWs_cons (by decide)]
        rfl
      case items d t l h =>
        have hlt : t.length ≤ N ∧ t.length < fuel := by
          rw [List.length_cons, List.length_append, List.length_singleton] at hl hf
          omega
        clear hcu hl hf
        have hhd : (skipWs (t ++ [']'] ++ r)).head? ≠ some ']' := by
          cases h
          case last w t w' v hw _ h =>
            obtain ⟨c, u, rfl, hc, hc', -⟩ := denotes_head h
            rw [List.append_assoc, List.append_assoc, skipWs_blank hw, List.append_assoc, List.cons_append, skipWs_cons hc]
            simpa using hc'
          case more w t w' u v l hw _ h _ =>
            obtain ⟨c, u, rfl, hc, hc', -⟩ := denotes_head h
            rw [List.append_assoc, List.append_assoc, skipWs_blank hw, List.append_assoc, List.cons_append, skipWs_cons hc]
            simpa using hc'
        rw [List.cons_append]
        dsimp only
        rw [if_neg (by decide), if_neg (by decide), if_neg (by decide), if_neg (by decide), if_pos rfl, if_neg (by omega), if_neg hhd,
          Nat.add_sub_cancel, List.append_assoc, List.cons_append, List.nil_append, ih2 d t l hlt.1 h r fuel hlt.2]
        rfl
      case entries d t e o h ho =>
        have hlt : t.length ≤ N ∧ t.length < fuel := by
          rw [List.length_cons, List.length_append, List.length_singleton] at hl hf
          omega
        clear hcu hl hf
        have hhd : (skipWs (t ++ ['}'] ++ r)).head? ≠ some '}' := by
          cases h
          case last =>
            rw [List.append_assoc, List.append_assoc, skipWs_blank (by assumption), List.cons_append, skipWs_cons (by decide)]
            simp
          case more =>
            rw [List.append_assoc, List.append_assoc, skipWs_blank (by assumption), List.cons_append, skipWs_cons (by decide)]
            simp
        rw [List.cons_append]
        dsimp only
        rw [if_neg (by decide), if_neg (by decide), if_neg (by decide), if_neg (by decide), if_neg (by decide), if_pos rfl, if_neg (by omega),
          if_neg hhd, Nat.add_sub_cancel, List.append_assoc, List.cons_append, List.nil_append,
          ih3 d t e hlt.1 h [] r fuel hlt.2, objectOf_unique ho (objectOf_foldl e)]
        rfl
    refine ⟨key1, ?_, ?_⟩
    · intro d t l hl h r fuel hf
      obtain ⟨fuel, rfl⟩ : ∃ e, fuel = e + 1 := ⟨fuel - 1, by omega⟩
      rw [parseElems]
      cases h
      case last w t w' v hw hw' h =>
        have : w ++ (t ++ w') ++ ']' :: r = w ++ (t ++ (w' ++ ']' :: r)) := by simp
        rw [this, key1 d t v (by simp at hl; omega) h w _ fuel hw (stop_blank hw' (stop_cons r (by simp))) (by simp at hf; omega)]
        dsimp only
        rw [skipWs_blank hw', skipWs_cons (by decide)]
        simp
      case more w t w' u v l hw hw' h hu =>
        have : w ++ (t ++ (w' ++ ',' :: u)) ++ ']' :: r = w ++ (t ++ (w' ++ ',' :: (u ++ ']' :: r))) := by simp
        rw [this, key1 d t v (by simp at hl; omega) h w _ fuel hw (stop_blank hw' (stop_cons _ (by simp))) (by simp at hf; omega)]
        dsimp only
        rw [skipWs_blank hw', skipWs_cons (by decide)]
        dsimp only
        rw [if_pos rfl, ih2 d u l (by simp at hl; omega) hu r fuel (by simp at hf; omega)]
        rfl
    · intro d t e hl h o r fuel hf
      obtain ⟨fuel, rfl⟩ : ∃ e, fuel = e + 1 := ⟨fuel - 1, by omega⟩
      rw [parseEntries]
      cases h
      case last w k w₁ w₂ t w₃ s v hw hk hw₁ hw₂ hw₃ h =>
        have : w ++ '"' :: (k ++ '"' :: (w₁ ++ ':' :: (w₂ ++ (t ++ w₃)))) ++ '}' :: r =
            w ++ '"' :: (k ++ '"' :: (w₁ ++ ':' :: (w₂ ++ (t ++ (w₃ ++ '}' :: r))))) := by simp
        rw [this, skipWs_blank hw, skipWs_cons (by decide)]
        dsimp only
        rw [if_pos rfl, parseStr_full hk]
        dsimp only
        rw [skipWs_blank hw₁, skipWs_cons (by decide)]
        dsimp only
        rw [if_pos rfl, key1 d t v (by simp at hl; omega) h w₂ _ fuel hw₂ (stop_blank hw₃ (stop_cons r (by simp))) (by simp at hf; omega)]
        dsimp only
        rw [skipWs_blank hw₃, skipWs_cons (by decide)]
        simp
      case more w k w₁ w₂ t w₃ s u v l hw hk hw₁ hw₂ hw₃ h hu =>
        have : w ++ '"' :: (k ++ '"' :: (w₁ ++ ':' :: (w₂ ++ (t ++ (w₃ ++ ',' :: u))))) ++ '}' :: r =
            w ++ '"' :: (k ++ '"' :: (w₁ ++ ':' :: (w₂ ++ (t ++ (w₃ ++ ',' :: (u ++ '}' :: r)))))) := by simp
        rw [this, skipWs_blank hw, skipWs_cons (by decide)]
        dsimp only
        rw [if_pos rfl, parseStr_full hk]
        dsimp only
        rw [skipWs_blank hw₁, skipWs_cons (by decide)]
        dsimp only
        rw [if_pos rfl, key1 d t v (by simp at hl; omega) h w₂ _ fuel hw₂ (stop_blank hw₃ (stop_cons _ (by simp))) (by simp at hf; omega)]
        dsimp only
        rw [skipWs_blank hw₃, skipWs_cons (by decide)]
        dsimp only
        rw [if_pos rfl, ih3 d u l (by simp at hl; omega) hu _ r fuel (by simp at hf; omega)]
        rfl

/-- The reader of JSON texts accepts exactly the JSON texts, and returns what they mean. -/
theorem jsonParse_iff (fl : Str → Option Str) (d : Nat) (s : Str) (v : Value) : jsonParse fl (d + 1) s = .ok v ↔ JsonText fl d s v := by
  unfold jsonParse
  constructor
  · intro h
    split at h
    · cases h
    rename_i x r hx
    split at h
    · rename_i hr
      cases h
      obtain ⟨w, t, rfl, hw, ht⟩ := (parse_sound fl _).1 _ _ _ _ hx
      exact ⟨w, t, r, rfl, hw, ht, blank_of_skipWs hr⟩
    · cases h
  · rintro ⟨w, t, w', rfl, hw, ht, hw'⟩
    have hs : Stop w' := by
      have := stop_blank (r := []) hw' (fun c h => by cases h)
      rwa [List.append_nil] at this
    rw [(parse_complete fl _).1 d t v (le_refl _) ht w w' _ hw hs (by simp; omega)]
    dsimp only
    rw [if_pos (skipWs_all hw')]

theorem jsonParse_noPanic (fl : Str → Option Str) (d : Nat) (s : Str) : jsonParse fl d s ≠ .panic := by
  unfold jsonParse
  split
  · nofun
  · split <;> nofun

/-! ## From the reader's values to the library's -/

mutual

theorem ofJson_exact : ∀ v : Value, JProper v → v.ofJson = .ok v ∨ (v.ofJson = .panic ∧ ¬ Proper (fun t => '.' ∈ t) v)
  | .null, _ => .inl (by rw [Value.ofJson])
  | .bool b, _ => .inl (by rw [Value.ofJson])
  | .int i, _ => by
    rw [Value.ofJson, Proper]
    split
    · exact .inl rfl
    · exact .inr ⟨rfl, fun h => by tauto⟩
  | .float t, _ => by
    rw [Value.ofJson, Proper]
    split
    · exact .inl rfl
    · exact .inr ⟨rfl, by assumption⟩
  | .str s, _ => .inl (by rw [Value.ofJson])
  | .arr a, hp => by
    rw [JProper] at hp
    rw [Value.ofJson, Proper]
    rcases ofJsonArr_exact a hp with h | ⟨h, h'⟩
    · rw [h]; exact .inl rfl
    · rw [h]; exact .inr ⟨rfl, h'⟩
  | .obj o, hp => by
    rw [JProper] at hp
    rw [Value.ofJson, Proper]
    rcases ofJsonObj_exact o hp.2 [] hp.1 with h | ⟨h, h'⟩
    · rw [h]; exact .inl rfl
    · rw [h]; exact .inr ⟨rfl, fun h => h' h.2⟩

theorem ofJsonArr_exact : ∀ l : List Value, JProperArr l →
    Value.ofJsonArr l = .ok l ∨ (Value.ofJsonArr l = .panic ∧ ¬ ProperArr (fun t => '.' ∈ t) l)
  | [], _ => .inl (by rw [Value.ofJsonArr])
  | v :: l, hp => by
    rw [JProperArr] at hp
    rw [Value.ofJsonArr, ProperArr]
    rcases ofJson_exact v hp.1 with h | ⟨h, h'⟩
    · rcases ofJsonArr_exact l hp.2 with k | ⟨k, k'⟩
      · rw [h, k]; exact .inl rfl
      · rw [h, k]; exact .inr ⟨rfl, fun h => k' h.2⟩
    · rw [h]; exact .inr ⟨rfl, fun h => h' h.1⟩

theorem ofJsonObj_exact : ∀ l : List (Str × Value), JProperObj l → ∀ m, ((m ++ l).map Prod.fst).Nodup →
    Value.ofJsonObj l m = .ok (m ++ l) ∨ (Value.ofJsonObj l m = .panic ∧ ¬ ProperObj (fun t => '.' ∈ t) l)
  | [], _, m, _ => .inl (by rw [Value.ofJsonObj, List.append_nil])
  | (k, v) :: l, hp, m, hn => by
    rw [JProperObj] at hp
    have hk : k ∉ m.map Prod.fst := by
      rw [List.map_append, List.nodup_append] at hn
      intro h
      exact hn.2.2 k h k (by simp) rfl
    rw [Value.ofJsonObj, ProperObj]
    rcases ofJson_exact v hp.1 with h | ⟨h, h'⟩
    · rw [h, Res.ok_bind, insert_new hk]
      rcases ofJsonObj_exact l hp.2 (m ++ [(k, v)]) (by simpa using hn) with k | ⟨k, k'⟩
      · exact .inl (by rw [k]; simp)
      · exact .inr ⟨k, fun h => k' h.2⟩
    · rw [h]; exact .inr ⟨rfl, fun h => h' h.1⟩

end

theorem jsonRead_cases (fl : Str → Option Str) (s : Str) :
    (∃ v, JsonText fl 127 s v ∧ Proper (fun t => '.' ∈ t) v ∧ jsonRead fl s = .ok v) ∨
    (∃ v, JsonText fl 127 s v ∧ ¬ Proper (fun t => '.' ∈ t) v ∧ jsonRead fl s = .panic) ∨
    ((∀ v, ¬ JsonText fl 127 s v) ∧ (jsonRead fl s).isErr = true) := by
  unfold jsonRead
  have hd : jsonDepth = 127 + 1 := rfl
  rw [hd]
  cases h : jsonParse fl (127 + 1) s with
  | panic => exact absurd h (jsonParse_noPanic fl _ s)
  | err e =>
    refine .inr (.inr ⟨fun v hv => ?_, rfl⟩)
    rw [(jsonParse_iff fl 127 s v).mpr hv] at h
    cases h
  | ok v =>
    have ht := (jsonParse_iff fl 127 s v).mp h
    rw [Res.ok_bind]
    rcases ofJson_exact v (jsonParse_jproper h) with k | ⟨k, k'⟩
    · exact .inl ⟨v, ht, ofJson_proper v v (jsonParse_jproper h) k, k⟩
    · exact .inr (.inl ⟨v, ht, k', k⟩)

theorem jsonText_unique {fl : Str → Option Str} {d : Nat} {s : Str} {v v' : Value} (h : JsonText fl d s v) (h' : JsonText fl d s v') : v = v' := by
  have h := (jsonParse_iff fl d s v).mpr h
  rw [(jsonParse_iff fl d s v').mpr h'] at h
  cases h
  rfl

end Keride
