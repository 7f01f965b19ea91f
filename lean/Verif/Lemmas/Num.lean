import Verif.Model.Num
import Mathlib.Tactic.Ring
import Mathlib.Tactic.SplitIfs

namespace Keride

/-- The digit characters of base `b`. -/
def IsDigits (b : Nat) (s : Str) : Prop := ∀ c ∈ s, ∃ d < b, c = digitChr d

theorem toDigit_table : ∀ b ∈ List.range 17, ∀ d < b, toDigit b (digitChr d) = some d := by decide +kernel

theorem toDigit_chr {b d : Nat} (hb : b ≤ 16) (hd : d < b) : toDigit b (digitChr d) = some d :=
  toDigit_table b (List.mem_range.mpr (by omega)) d hd

theorem digitChr_ne : ∀ d < 16, digitChr d ≠ '+' ∧ digitChr d ≠ '-' ∧ (digitChr d).utf8Size = 1 := by
  decide +kernel

theorem radixVal_append (b : Nat) (s t : Str) (a : Nat) :
    radixVal b a (s ++ t) = (radixVal b a s).bind fun a' => radixVal b a' t := by
  induction s generalizing a with
  | nil => rfl
  | cons c s ih =>
    rw [List.cons_append, radixVal, radixVal]
    cases toDigit b c with
    | none => rfl
    | some d => exact ih _

theorem radixVal_digits {b : Nat} (hb : b ≤ 16) (ds : List Nat) (h : ∀ d ∈ ds, d < b) (a : Nat) :
    radixVal b a (ds.map digitChr) = some (ds.foldl (fun x d => x * b + d) a) := by
  induction ds generalizing a with
  | nil => rfl
  | cons d ds ih =>
    rw [List.map_cons, radixVal, toDigit_chr hb (h d List.mem_cons_self), List.foldl_cons]
    exact ih (fun x hx => h x (List.mem_cons_of_mem _ hx)) _

theorem radixVal_map {α : Type} {b : Nat} (f : α → Char) (g : α → Nat) (l : List α)
    (h : ∀ x ∈ l, toDigit b (f x) = some (g x)) (a : Nat) :
    radixVal b a (l.map f) = some ((l.map g).foldl (fun x d => x * b + d) a) := by
  induction l generalizing a with
  | nil => rfl
  | cons x l ih =>
    rw [List.map_cons, radixVal, h x List.mem_cons_self, List.map_cons, List.foldl_cons]
    exact ih (fun y hy => h y (List.mem_cons_of_mem _ hy)) _

theorem radixVal_none {b : Nat} {c : Char} (hc : toDigit b c = none) {s : Str} (h : c ∈ s) (a : Nat) :
    radixVal b a s = none := by
  induction s generalizing a with
  | nil => simp at h
  | cons d s ih =>
    rw [radixVal]
    rcases List.mem_cons.mp h with rfl | h
    · rw [hc]
    · cases toDigit b d with
      | none => rfl
      | some v => exact ih h _

/-- A character that is neither a digit nor `+` makes the parse fail. -/
theorem parseUnsigned_bad {b max : Nat} {c : Char} (hc : toDigit b c = none) (hp : c ≠ '+') {s : Str}
    (h : c ∈ s) : parseUnsigned b max s = .err .parseInt := by
  have h' : c ∈ stripPlus s := by
    cases s with
    | nil => simp at h
    | cons d s =>
      rw [stripPlus]
      rcases List.mem_cons.mp h with rfl | h
      · rw [if_neg hp]; exact List.mem_cons_self
      · split
        · exact h
        · exact List.mem_cons_of_mem _ h
  rw [parseUnsigned, radixVal_none hc h']
  split <;> rfl

theorem toDigit16_none {c : Char} (h : c ∉ str% "0123456789abcdefABCDEF") : toDigit 16 c = none := by
  have key : ∀ n < 128, Char.ofNat n ∉ (str% "0123456789abcdefABCDEF") → toDigit 16 (Char.ofNat n) = none := by
    decide +kernel
  by_cases hn : c.toNat < 128
  · have := key c.toNat hn
    rw [Char.ofNat_toNat] at this
    exact this h
  · rw [toDigit]
    exact if_neg (by split_ifs <;> omega)

theorem fmtAux_spec {b : Nat} (h2 : 2 ≤ b) (hb : b ≤ 16) (fuel n : Nat) (hf : n < fuel) (out : Str) :
    ∃ s, fmtAux b fuel n out = s ++ out ∧ s ≠ [] ∧ IsDigits b s ∧ radixVal b 0 s = some n ∧
      ∀ k, 0 < k → n < b ^ k → s.length ≤ k := by
  induction fuel generalizing n out with
  | zero => omega
  | succ fuel ih =>
    rw [fmtAux]
    split
    · rename_i hn
      refine ⟨[digitChr n], rfl, by simp, ?_, ?_, fun k hk _ => hk⟩
      · intro c hc
        exact ⟨n, hn, by simpa using hc⟩
      · rw [radixVal, toDigit_chr hb hn]; simp [radixVal]
    · rename_i hn
      have hdiv : n / b < n := Nat.div_lt_self (by omega) (by omega)
      obtain ⟨s, h1, h2', h3, h4, h5⟩ := ih (n / b) (by omega) (digitChr (n % b) :: out)
      have hm : n % b < b := Nat.mod_lt _ (by omega)
      refine ⟨s ++ [digitChr (n % b)], by rw [h1]; simp, by simp, ?_, ?_, ?_⟩
      · intro c hc
        rcases List.mem_append.mp hc with hc | hc
        · exact h3 c hc
        · exact ⟨n % b, hm, by simpa using hc⟩
      · rw [radixVal_append, h4, Option.bind_some, radixVal, toDigit_chr hb hm]
        simp only [radixVal, Option.some.injEq]
        rw [Nat.mul_comm]; exact Nat.div_add_mod n b
      · intro k hk hlt
        rw [List.length_append, List.length_singleton]
        by_cases hk1 : k = 1
        · subst hk1; rw [Nat.pow_one] at hlt; omega
        · have := h5 (k - 1) (by omega) (by
            rw [Nat.div_lt_iff_lt_mul (by omega), ← Nat.pow_succ]
            rw [show (k - 1).succ = k by omega]; exact hlt)
          omega

theorem fmtNat_spec {b : Nat} (h2 : 2 ≤ b) (hb : b ≤ 16) (n : Nat) :
    fmtNat b n ≠ [] ∧ IsDigits b (fmtNat b n) ∧ radixVal b 0 (fmtNat b n) = some n ∧
      ∀ k, 0 < k → n < b ^ k → (fmtNat b n).length ≤ k := by
  obtain ⟨s, h1, h⟩ := fmtAux_spec h2 hb (n + 1) n (by omega) []
  rw [List.append_nil] at h1
  rw [fmtNat, h1]; exact h

/-- Text of digits parses to its value. -/
theorem parseUnsigned_of_val {b max n : Nat} {s : Str} (hb : b ≤ 16) (hs : IsDigits b s) (hne : s ≠ [])
    (hv : radixVal b 0 s = some n) :
    parseUnsigned b max s = if n ≤ max then .ok n else .err .parseInt := by
  obtain ⟨c, t, rfl⟩ := List.exists_cons_of_ne_nil hne
  obtain ⟨d, hd, rfl⟩ := hs c List.mem_cons_self
  have hp := (digitChr_ne d (by omega)).1
  rw [parseUnsigned, show stripPlus (digitChr d :: t) = digitChr d :: t by rw [stripPlus, if_neg hp],
    if_neg hne, hv]

theorem parse_fmt {b max n : Nat} (h2 : 2 ≤ b) (hb : b ≤ 16) (hn : n ≤ max) :
    parseUnsigned b max (fmtNat b n) = .ok n := by
  obtain ⟨h1, h3, h4, -⟩ := fmtNat_spec h2 hb n
  rw [parseUnsigned_of_val hb h3 h1 h4, if_pos hn]

theorem fmtNat_inj {b m n : Nat} (h2 : 2 ≤ b) (hb : b ≤ 16) (h : fmtNat b m = fmtNat b n) : m = n := by
  have h1 := (fmtNat_spec h2 hb m).2.2.1
  have h3 := (fmtNat_spec h2 hb n).2.2.1
  rw [h, h3] at h1
  exact (Option.some.inj h1).symm

theorem radixVal_zeros {b : Nat} (hb : 1 ≤ b) (hb' : b ≤ 16) (k : Nat) (s : Str) :
    radixVal b 0 (List.replicate k '0' ++ s) = radixVal b 0 s := by
  induction k with
  | zero => rfl
  | succ k ih =>
    rw [List.replicate_succ, List.cons_append, radixVal]
    have : toDigit b '0' = some 0 := toDigit_chr hb' (by omega : 0 < b)
    rw [this]; simpa using ih

theorem fmtPad_spec {b w : Nat} (h2 : 2 ≤ b) (hb : b ≤ 16) (n : Nat) :
    IsDigits b (fmtPad b w n) ∧ radixVal b 0 (fmtPad b w n) = some n ∧ w ≤ (fmtPad b w n).length ∧
      fmtPad b w n ≠ [] ∧ (0 < w → n < b ^ w → (fmtPad b w n).length = w) := by
  obtain ⟨h1, h3, h4, h5⟩ := fmtNat_spec h2 hb n
  refine ⟨?_, ?_, ?_, ?_, ?_⟩
  · intro c hc
    rcases List.mem_append.mp hc with hc | hc
    · exact ⟨0, by omega, (List.mem_replicate.mp hc).2⟩
    · exact h3 c hc
  · rw [fmtPad, radixVal_zeros (by omega) hb, h4]
  · rw [fmtPad, List.length_append, List.length_replicate]; omega
  · rw [fmtPad]; intro h; exact h1 (List.append_eq_nil_iff.mp h).2
  · intro hw hlt
    have := h5 w hw hlt
    rw [fmtPad, List.length_append, List.length_replicate]; omega

theorem parseUnsigned_ne_panic (b max : Nat) (s : Str) : parseUnsigned b max s ≠ .panic := by
  rw [parseUnsigned]
  split
  · simp
  · split
    · split <;> simp
    · simp

theorem parseUnsigned_le {b max n : Nat} {s : Str} (h : parseUnsigned b max s = .ok n) : n ≤ max := by
  rw [parseUnsigned] at h
  split at h
  · simp at h
  · split at h
    · split at h
      · rename_i hle; rw [← Res.ok.inj h]; exact hle
      · simp at h
    · simp at h

end Keride
