/-
C116: numbers of documents and their conversions.
-/
import Verif.Spec.Numbers
import Mathlib.Tactic.Linarith
import Mathlib.Tactic.NormNum
import Mathlib.Tactic.Ring
import Mathlib.Tactic.Positivity
import Mathlib.Algebra.Order.Floor.Ring

namespace Keride.Props

open Spec

theorem isF64_neg {q : ℚ} (h : IsF64 q) : IsF64 (-q) := by
  obtain ⟨m, e, h1, rfl⟩ := h
  exact ⟨-m, e, by rwa [abs_neg], by push_cast; ring⟩

theorem nearest_neg {x q : ℚ} (h : NearestF64 x q) : NearestF64 (-x) (-q) := by
  have flip : ∀ z : ℚ, |-x - z| = |x - -z| := fun z => by rw [show -x - z = -(x - -z) by ring, abs_neg]
  refine ⟨isF64_neg h.1, fun y hy => ?_, ?_⟩
  · have := h.2.1 (-y) (isF64_neg hy)
    rwa [flip, flip, neg_neg]
  · rintro ⟨y, hy, hne, hd⟩
    rw [flip, flip, neg_neg] at hd
    obtain ⟨m, e, h1, h2⟩ := h.2.2 ⟨-y, isF64_neg hy, fun g => hne (by rw [← g, neg_neg]), hd⟩
    exact ⟨-m, e, by rwa [abs_neg], by rw [h2]; push_cast; ring⟩

/-- A number whose leading bits are `q` has them within 53. -/
theorem lead_lt {n : Nat} : n / 2 ^ (Nat.log2 n + 1 - 53) < 2 ^ 53 := by
  rw [Nat.div_lt_iff_lt_mul (by positivity), ← pow_add]
  exact lt_of_lt_of_le Nat.lt_log2_self (Nat.pow_le_pow_right (by decide) (by omega))

theorem nearest_round (n : Nat) : NearestF64 n (F64.round n) := by
  set k := Nat.log2 n + 1 - 53 with hk
  set q := n / 2 ^ k with hq
  set r := n % 2 ^ k with hr
  have hn : n = q * 2 ^ k + r := by rw [mul_comm]; exact (Nat.div_add_mod n (2 ^ k)).symm
  have hrk : r < 2 ^ k := Nat.mod_lt _ (by positivity)
  have hql : q < 2 ^ 53 := lead_lt
  -- the result is a multiple, and the nearest one
  obtain ⟨p, hp, hpr, hd⟩ : ∃ p : Nat, F64.round n = p * 2 ^ k ∧ p ≤ 2 ^ 53 ∧ ∀ z : ℤ, |(n : ℚ) - p * 2 ^ k| ≤ |(n : ℚ) - z * 2 ^ k| ∧
      (|(n : ℚ) - p * 2 ^ k| = |(n : ℚ) - z * 2 ^ k| → z ≠ p → p % 2 = 0) := by
    have hpos : (0 : ℚ) < 2 ^ k := by positivity
    have hnq : (n : ℚ) = q * 2 ^ k + r := by exact_mod_cast hn
    have hr0 : (0 : ℚ) ≤ r := by positivity
    have hrq : (r : ℚ) < 2 ^ k := by exact_mod_cast hrk
    have far : ∀ z : ℤ, (z = q ∨ (2 ^ k + r : ℚ) ≤ |(n : ℚ) - z * 2 ^ k|) ∧ (r : ℚ) ≤ |(n : ℚ) - z * 2 ^ k| ∨
        (z = q + 1 ∨ (2 * 2 ^ k - r : ℚ) ≤ |(n : ℚ) - z * 2 ^ k|) ∧ (2 ^ k - r : ℚ) ≤ |(n : ℚ) - z * 2 ^ k| := by
      intro z
      by_cases hz : z ≤ q
      · left
        refine ⟨?_, ?_⟩
        · by_cases hzq : z = q
          · exact .inl hzq
          · right
            have : (z : ℚ) + 1 ≤ q := by exact_mod_cast (by omega : z + 1 ≤ (q : ℤ))
            have : ((z : ℚ) + 1) * 2 ^ k ≤ q * 2 ^ k := mul_le_mul_of_nonneg_right this hpos.le
            exact le_trans (by linarith) (le_abs_self _)
        have : (z : ℚ) ≤ q := by exact_mod_cast hz
        have : (z : ℚ) * 2 ^ k ≤ q * 2 ^ k := mul_le_mul_of_nonneg_right this hpos.le
        exact le_trans (by linarith) (le_abs_self _)
      · right
        refine ⟨?_, ?_⟩
        · by_cases hzq : z = q + 1
          · exact .inl hzq
          · right
            have : (q : ℚ) + 2 ≤ z := by exact_mod_cast (by omega : (q : ℤ) + 2 ≤ z)
            have : ((q : ℚ) + 2) * 2 ^ k ≤ z * 2 ^ k := mul_le_mul_of_nonneg_right this hpos.le
            exact le_trans (by linarith) (neg_le_abs _)
        have : (q : ℚ) + 1 ≤ z := by exact_mod_cast (by omega : (q : ℤ) + 1 ≤ z)
        have : ((q : ℚ) + 1) * 2 ^ k ≤ z * 2 ^ k := mul_le_mul_of_nonneg_right this hpos.le
        exact le_trans (by linarith) (neg_le_abs _)
    unfold F64.round
    dsimp only
    rw [← hk, ← hq, ← hr]
    split
    · rename_i h
      have h2 : 2 ^ k ≤ 2 * r := by omega
      have h2 : (2 ^ k : ℚ) ≤ 2 * r := by exact_mod_cast h2
      refine ⟨q + 1, rfl, by omega, fun z => ?_⟩
      have : |(n : ℚ) - ((q + 1 : ℕ) : ℚ) * 2 ^ k| = 2 ^ k - r := by
        push_cast
        rw [abs_of_nonpos (by linarith)]
        linarith
      rw [this]
      refine ⟨by rcases far z with ⟨-, h⟩ | ⟨-, h⟩ <;> linarith, fun hd hz => ?_⟩
      -- as near only from below, halfway
      rcases far z with ⟨-, h3⟩ | ⟨h3 | h3, -⟩
      · have h4 : (2 * r : ℚ) ≤ 2 ^ k := by linarith
        have h4 : 2 * r ≤ 2 ^ k := by exact_mod_cast h4
        omega
      · exact absurd (by rw [h3]; push_cast; rfl) hz
      · linarith
    · rename_i h
      have h2 : 2 * r ≤ 2 ^ k := by omega
      have h2 : 2 * (r : ℚ) ≤ 2 ^ k := by exact_mod_cast h2
      refine ⟨q, rfl, by omega, fun z => ?_⟩
      have : |(n : ℚ) - (q : ℚ) * 2 ^ k| = r := by
        rw [abs_of_nonneg (by linarith)]
        linarith
      rw [this]
      refine ⟨by rcases far z with ⟨-, h⟩ | ⟨-, h⟩ <;> linarith, fun hd hz => ?_⟩
      -- as near only from above, halfway
      rcases far z with ⟨h3 | h3, -⟩ | ⟨-, h3⟩
      · exact absurd h3 hz
      · linarith
      · have h4 : (2 ^ k : ℚ) ≤ 2 * r := by linarith
        have h4 : 2 ^ k ≤ 2 * r := by exact_mod_cast h4
        omega
  have isF : IsF64 ((F64.round n : ℕ) : ℚ) :=
    ⟨p, k, by rw [abs_of_nonneg (by omega)]; exact_mod_cast hpr, by rw [hp]; push_cast; rw [zpow_natCast]⟩
  -- whatever float is as near is a multiple too, or the number is met exactly
  have key : ∀ y, IsF64 y → |(n : ℚ) - p * 2 ^ k| ≤ |(n : ℚ) - y| ∧
      (|(n : ℚ) - p * 2 ^ k| = |(n : ℚ) - y| → (∃ z : ℤ, y = z * 2 ^ k) ∨ (n : ℚ) = p * 2 ^ k) := by
    rintro y ⟨m, e, hm, rfl⟩
    by_cases he : (k : ℤ) ≤ e
    · obtain ⟨d, rfl⟩ : ∃ d : ℕ, e = d + k := ⟨(e - k).toNat, by omega⟩
      have := (hd (m * 2 ^ d)).1
      push_cast at this
      have hz : (m : ℚ) * 2 ^ ((d : ℤ) + k) = m * 2 ^ d * 2 ^ k := by
        rw [zpow_add₀ (by norm_num), zpow_natCast, zpow_natCast]; ring
      rw [hz]
      exact ⟨this, fun _ => .inl ⟨m * 2 ^ d, by push_cast; rfl⟩⟩
    · rcases Nat.eq_zero_or_pos k with hk0 | hk0
      · have h0 := (hd n).1
        rw [hk0] at h0 ⊢
        simp only [pow_zero, mul_one, Int.cast_natCast, sub_self, abs_zero] at h0 ⊢
        exact ⟨le_trans h0 (abs_nonneg _), fun _ => .inr (by have := abs_eq_zero.mp (le_antisymm h0 (abs_nonneg _)); linarith)⟩
      · have hlow : 2 ^ (52 + k) ≤ n := by
          have : n ≠ 0 := by
            rintro rfl
            simp at hk
            omega
          have := Nat.log2_self_le this
          rwa [show Nat.log2 n = 52 + k by omega] at this
        have hlow : (2 ^ (52 + k) : ℚ) ≤ n := by exact_mod_cast hlow
        have hy : (m : ℚ) * 2 ^ e ≤ 2 ^ (52 + k) := by
          have h1 : (m : ℚ) ≤ 2 ^ 53 := by exact_mod_cast le_trans (le_abs_self m) hm
          have h2 : (0 : ℚ) < 2 ^ e := zpow_pos (by norm_num) e
          have h3 : (2 : ℚ) ^ e ≤ 2 ^ ((k : ℤ) - 1) := zpow_le_zpow_right₀ (by norm_num) (by omega)
          calc (m : ℚ) * 2 ^ e ≤ 2 ^ 53 * 2 ^ e := mul_le_mul_of_nonneg_right h1 h2.le
            _ ≤ 2 ^ 53 * 2 ^ ((k : ℤ) - 1) := mul_le_mul_of_nonneg_left h3 (by positivity)
            _ = 2 ^ (52 + k) := by
              rw [← zpow_natCast, ← zpow_natCast, ← zpow_add₀ (by norm_num)]
              congr 1
              push_cast
              ring
        have h52 : (((2 ^ 52 : ℤ) : ℚ) * 2 ^ k) = 2 ^ (52 + k) := by rw [pow_add]; norm_num
        have := (hd (2 ^ 52)).1
        rw [h52, abs_of_nonneg (a := (n : ℚ) - 2 ^ (52 + k)) (by linarith)] at this
        have habs : |(n : ℚ) - m * 2 ^ e| = n - m * 2 ^ e := abs_of_nonneg (by linarith)
        rw [habs]
        exact ⟨by linarith, fun h => .inl ⟨2 ^ 52, by rw [h52]; linarith⟩⟩
  have hpq : ((F64.round n : ℕ) : ℚ) = p * 2 ^ k := by rw [hp]; push_cast; rfl
  refine ⟨isF, fun y hy => by rw [hpq]; exact (key y hy).1, ?_⟩
  rintro ⟨y, hy, hne, hdist⟩
  rw [hpq] at hne hdist ⊢
  rcases (key y hy).2 hdist with ⟨z, rfl⟩ | h
  · have heven := (hd z).2 hdist (fun g => hne (by rw [g]; push_cast; rfl))
    obtain ⟨p', rfl⟩ : ∃ p', p = 2 * p' := ⟨p / 2, by omega⟩
    refine ⟨p', k + 1, by rw [abs_of_nonneg (by omega)]; omega, ?_⟩
    rw [zpow_add₀ (by norm_num), zpow_natCast]
    push_cast
    ring
  · rw [← h, sub_self, abs_zero] at hdist
    have := abs_eq_zero.mp hdist.symm
    exact absurd (by linarith) hne

theorem nearest_ofInt (i : ℤ) : ∃ q, F64.ofInt i = .finite q ∧ NearestF64 i q := by
  unfold F64.ofInt
  refine ⟨_, rfl, ?_⟩
  split
  · rename_i h
    have := nearest_neg (nearest_round i.natAbs)
    rwa [show -((i.natAbs : ℕ) : ℚ) = i by
      have h' : -((i.natAbs : ℕ) : ℤ) = i := by omega
      have := congrArg (Int.cast : ℤ → ℚ) h'
      rwa [Int.cast_neg, Int.cast_natCast] at this] at this
  · rename_i h
    have := nearest_round i.natAbs
    rwa [show ((i.natAbs : ℕ) : ℚ) = i by
      have h' : ((i.natAbs : ℕ) : ℤ) = i := by omega
      have := congrArg (Int.cast : ℤ → ℚ) h'
      rwa [Int.cast_natCast] at this] at this

/-- C116: an integer in a document is returned as it is, by both conversions to an integer. It is not taken for a float by `to_f64`, and `f64::try_from`
returns the float nearest to it, of two the even one. -/
theorem C116_integer (i : ℤ) : (Num.ofI64 i).toI64 = .ok i ∧ (Num.ofI64 i).tryI64 = .ok i ∧ (Num.ofI64 i).toF64 = .err .conversion ∧
    ∃ q, (Num.ofI64 i).tryF64 = .ok (.finite q) ∧ NearestF64 i q := by
  refine ⟨rfl, rfl, rfl, ?_⟩
  obtain ⟨q, h1, h2⟩ := nearest_ofInt i
  exact ⟨q, by rw [← h1]; rfl, h2⟩

/-- C116: `f64::try_from` of an integer loses nothing exactly when the integer has at most 53 significant bits, as all up to 2^53 have. -/
theorem C116_exact_partial (i : ℤ) : ((Num.ofI64 i).tryF64 = .ok (.finite i) ↔ IsF64 i) ∧ (|i| ≤ 2 ^ 53 → IsF64 i) := by
  obtain ⟨-, -, -, q, h1, h2⟩ := C116_integer i
  refine ⟨⟨fun h => ?_, fun h => ?_⟩, fun h => ⟨i, 0, h, by simp⟩⟩
  · rw [h1] at h
    cases h
    exact h2.1
  · have := h2.2.1 i h
    rw [sub_self, abs_zero] at this
    have : (i : ℚ) - q = 0 := abs_eq_zero.mp (le_antisymm this (abs_nonneg _))
    rw [h1, show q = i by linarith]

/-- C116: a float in a document is returned as it is by both conversions to a float. `to_i64` refuses it. `i64::try_from` never does: it returns the whole part, or the nearest integer of
64 bits if that has more, and zero for what is not a number. -/
theorem C116_float_partial (f : F64) : (Num.ofF64 f).toF64 = .ok f ∧ (Num.ofF64 f).tryF64 = .ok f ∧ (Num.ofF64 f).toI64 = .err .conversion ∧
    ∃ t, (Num.ofF64 f).tryI64 = .ok t ∧
      match f with
      | .finite q => if q < -2 ^ 63 then t = -2 ^ 63 else if 2 ^ 63 ≤ q then t = 2 ^ 63 - 1 else WholePart q t
      | .inf true => t = -2 ^ 63
      | .inf false => t = 2 ^ 63 - 1
      | .nan => t = 0 := by
  refine ⟨rfl, rfl, rfl, f.toInt, rfl, ?_⟩
  cases f with
  | nan => rfl
  | inf b => cases b <;> rfl
  | finite q =>
    dsimp only [F64.toInt]
    by_cases hneg : q < 0
    · rw [if_pos hneg]
      have c1 := Int.ceil_lt_add_one q
      have c2 := Int.le_ceil q
      have c3 : ⌈q⌉ ≤ 0 := Int.ceil_le.mpr (by exact_mod_cast hneg.le)
      split
      · rename_i h
        have : ⌈q⌉ ≤ -2 ^ 63 := Int.ceil_le.mpr (by push_cast; exact h.le)
        omega
      · rename_i h
        rw [if_neg (by linarith)]
        have hge : (-2 ^ 63 : ℤ) ≤ ⌈q⌉ := by
          have : ((-2 ^ 63 : ℤ) : ℚ) ≤ ⌈q⌉ := by push_cast; linarith
          exact_mod_cast this
        rw [show max (-2 ^ 63) (min (2 ^ 63 - 1) ⌈q⌉) = ⌈q⌉ by omega]
        have c3' : (⌈q⌉ : ℚ) ≤ 0 := by exact_mod_cast c3
        refine ⟨?_, ?_, ?_⟩
        · rw [abs_of_nonpos c3', abs_of_neg hneg]; linarith
        · exact mul_nonneg_of_nonpos_of_nonpos c3' hneg.le
        · rw [abs_of_nonpos (by linarith)]; linarith
    · rw [if_neg hneg, if_neg (by linarith)]
      have c1 := Int.lt_floor_add_one q
      have c2 := Int.floor_le q
      have c3 : 0 ≤ ⌊q⌋ := Int.floor_nonneg.mpr (by linarith)
      split
      · rename_i h
        have : (2 ^ 63 : ℤ) ≤ ⌊q⌋ := Int.le_floor.mpr (by push_cast; exact h)
        omega
      · rename_i h
        have hlt : ⌊q⌋ < 2 ^ 63 := Int.floor_lt.mpr (by push_cast; linarith)
        rw [show max (-2 ^ 63) (min (2 ^ 63 - 1) ⌊q⌋) = ⌊q⌋ by omega]
        have c3' : (0 : ℚ) ≤ ⌊q⌋ := by exact_mod_cast c3
        refine ⟨?_, ?_, ?_⟩
        · rw [abs_of_nonneg c3', abs_of_nonneg (by linarith)]; exact c2
        · exact mul_nonneg c3' (by linarith)
        · rw [abs_of_nonneg (by linarith)]; linarith

/-- C116: an integer of at most 53 significant bits and of 64 bits that is converted to a float comes back as it was. -/
theorem C116_back_partial (i : ℤ) (h : IsF64 i) (h1 : -2 ^ 63 ≤ i) (h2 : i < 2 ^ 63) : ∃ f, (Num.ofI64 i).tryF64 = .ok f ∧ (Num.ofF64 f).tryI64 = .ok i := by
  refine ⟨_, (C116_exact_partial i).1.mpr h, ?_⟩
  change Res.ok (F64.toInt (.finite i)) = _
  dsimp only [F64.toInt]
  rw [show (if (i : ℚ) < 0 then ⌈(i : ℚ)⌉ else ⌊(i : ℚ)⌋) = i by split <;> simp]
  congr 1
  omega

/-- C116 is false: 2^53 + 1 is converted to a float without complaint, and comes back as 2^53; and the two conversions to an integer disagree about every float. -/
theorem C116_false : (∃ f, (Num.ofI64 (2 ^ 53 + 1)).tryF64 = .ok f ∧ (Num.ofF64 f).tryI64 = .ok (2 ^ 53)) ∧
    ∀ f, (Num.ofF64 f).toI64 ≠ (Num.ofF64 f).tryI64 := by
  refine ⟨⟨_, rfl, ?_⟩, fun f h => by cases h⟩
  change Res.ok (F64.toInt (F64.ofInt (2 ^ 53 + 1))) = _
  have : F64.round (2 ^ 53 + 1) = 2 ^ 53 := by decide +kernel
  have e : F64.ofInt (2 ^ 53 + 1) = .finite (2 ^ 53 : ℚ) := by
    have hn : ((2 : ℤ) ^ 53 + 1).natAbs = 2 ^ 53 + 1 := by rfl
    unfold F64.ofInt
    rw [if_neg (by norm_num), hn, this]
    norm_num
  rw [e]
  dsimp only [F64.toInt]
  rw [if_neg (by norm_num), show ⌊(2 ^ 53 : ℚ)⌋ = 2 ^ 53 by
    rw [show (2 ^ 53 : ℚ) = ((2 ^ 53 : ℤ) : ℚ) by norm_num, Int.floor_intCast]]
  rfl

/-- The hypotheses of `C116_back_partial` are met by a number of more than 53 bits. -/
example : IsF64 ((2 ^ 60 + 2 ^ 10 : ℤ) : ℚ) ∧ (-2 ^ 63 : ℤ) ≤ 2 ^ 60 + 2 ^ 10 ∧ (2 ^ 60 + 2 ^ 10 : ℤ) < 2 ^ 63 :=
  ⟨⟨2 ^ 50 + 1, 10, by norm_num, by norm_num⟩, by norm_num, by norm_num⟩

end Keride.Props
