/-
C115: rounding of floats does not matter to Base64 integers.
-/
import Verif.Props.Util
import Verif.Spec.Float
import Mathlib.Data.Int.Log
import Mathlib.Tactic.NormNum
import Mathlib.Tactic.Linarith

namespace Keride.Props

open Spec

theorem overflow_nonneg {F : F32} (hF : F32Ok F) {n length : Nat} (h0 : 1 ≤ n) (hl : length ≤ 2 ^ 24) (hn : n ≤ 64 ^ length) (h64 : n < 2 ^ 64) :
    0 ≤ F.overflow n length := by
  have zero : F.round 0 = 0 := by simpa using hF.integers 0 (by omega)
  have six : F.log2 (F.round 64) = 6 := by
    have h1 := hF.powers 6 (by omega)
    have h2 := hF.log_powers 6 (by omega)
    norm_num at h1 h2
    rw [h1, h2]
  have one : 1 ≤ F.round (n : ℚ) := by
    have := hF.order (1 : ℕ) (n : ℚ) (by exact_mod_cast h0)
    rw [hF.integers 1 (by omega)] at this
    simpa using this
  obtain ⟨k, hk, hkl, hnk⟩ : ∃ k, k ≤ 11 ∧ k ≤ length ∧ n ≤ 2 ^ (6 * k) := by
    by_cases h : length ≤ 11
    · exact ⟨length, h, le_refl _, by rw [pow_mul]; exact hn⟩
    · exact ⟨11, le_refl _, by omega, by omega⟩
  have top : F.round (n : ℚ) ≤ 2 ^ (6 * k) := by
    rw [← hF.powers (6 * k) (by omega)]
    exact hF.order _ _ (by exact_mod_cast hnk)
  have log : F.log2 (F.round (n : ℚ)) ≤ (6 * k : ℕ) := by
    rw [← hF.log_powers (6 * k) (by omega)]
    exact hF.log_order _ _ (by linarith) top
  have quot : F.round (F.log2 (F.round (n : ℚ)) / F.log2 (F.round 64)) ≤ (length : ℚ) := by
    rw [six, ← hF.integers length hl]
    refine hF.order _ _ ?_
    have : (k : ℚ) ≤ length := by exact_mod_cast hkl
    push_cast at log
    linarith
  unfold F32.overflow
  rw [← zero]
  refine hF.order _ _ ?_
  rw [hF.integers length hl]
  linarith

theorem float_loop {F : F32} {n length : Nat} (hn : n ≤ 64 ^ length) {o : ℚ} (ho : 0 ≤ o) :
    ∀ fuel j x out, F.loop fuel o x out = uToB64Loop n length fuel j x out := by
  intro fuel
  induction fuel with
  | zero => intro j x out; rfl
  | succ fuel ih =>
    intro j x out
    unfold F32.loop uToB64Loop
    split
    · rfl
    · rw [if_pos (le_trans hn (Nat.pow_le_pow_right (by decide) (by omega)))]
      congr 1
      funext c
      exact ih _ _ _

/-- C115: for a number that fits into the number of characters, the float that the conversion computes makes no difference, however the arithmetic rounds. -/
theorem C115_float (F : F32) (hF : F32Ok F) (n length : Nat) (hl : length ≤ 2 ^ 24) (hn : n ≤ 64 ^ length) (h64 : n < 2 ^ 64) :
    F.toB64 n length = uToB64 n length := by
  unfold F32.toB64 uToB64
  split
  · rfl
  · rcases Nat.eq_zero_or_pos n with rfl | h0
    · rfl
    · rw [float_loop hn (overflow_nonneg hF h0 hl hn h64) 11 0 n []]

/-- C115: so the text has the number of characters asked for, all Base64, and reads back as the number. -/
theorem C115_back (F : F32) (hF : F32Ok F) (n length : Nat) (h1 : 1 ≤ length) (hl : length ≤ 2 ^ 24) (hn : n < 64 ^ length) (h64 : n < 2 ^ 64) :
    ∃ s, F.toB64 n length = .ok s ∧ s.length = length ∧ IsBase64 s ∧ b64ToU64 s = .ok n ∧ (n < 2 ^ 32 → b64ToU32 s = .ok n) := by
  obtain ⟨s, h2, h3, h4, h5⟩ := C01_u64 length n h1 hn h64
  refine ⟨s, by rw [C115_float F hF n length hl hn.le h64]; exact h2, h3, h4, h5, fun h32 => ?_⟩
  obtain ⟨s', k2, -, -, k5⟩ := C01_u32 length n h1 hn h32
  unfold u64ToB64 at h2
  unfold u32ToB64 at k2
  rw [h2] at k2
  cases k2
  exact k5

/-- Arithmetic that rounds down to integers. -/
def World.floor : F32 := ⟨fun q => ⌊q⌋, fun q => Int.log 2 q⟩

theorem World.floor_ok : F32Ok World.floor where
  order a b h := by
    change ((⌊a⌋ : ℤ) : ℚ) ≤ (⌊b⌋ : ℤ)
    exact_mod_cast Int.floor_le_floor h
  integers k _ := by simp [World.floor]
  powers k _ := by
    change ((⌊(2 ^ k : ℚ)⌋ : ℤ) : ℚ) = 2 ^ k
    rw [show (2 ^ k : ℚ) = ((2 ^ k : ℕ) : ℚ) by push_cast; rfl, Int.floor_natCast]
    simp
  log_order a b h0 h := by
    change ((Int.log 2 a : ℤ) : ℚ) ≤ (Int.log 2 b : ℤ)
    exact_mod_cast Int.log_mono_right h0 h
  log_powers k _ := by
    change ((Int.log 2 (2 ^ k : ℚ) : ℤ) : ℚ) = k
    have : Int.log 2 ((2 : ℕ) ^ (k : ℤ) : ℚ) = k := Int.log_zpow (by decide) _
    rw [zpow_natCast] at this
    push_cast at this
    rw [this]
    simp

/-- The hypotheses are met, and the largest numbers that fit are among those converted. -/
example : ∃ F, F32Ok F ∧ F.toB64 (2 ^ 24 - 1) 4 = .ok (str% "____") := by
  refine ⟨World.floor, World.floor_ok, ?_⟩
  rw [C115_float _ World.floor_ok _ _ (by decide) (by decide) (by decide)]
  decide

end Keride.Props
