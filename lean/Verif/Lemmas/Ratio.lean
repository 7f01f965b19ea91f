/-
Exactness of the `i32` rational arithmetic of the weighted thresholds.
-/
import Verif.Model.Tholder
import Mathlib.Data.Rat.Defs
import Mathlib.Algebra.Order.Field.Rat
import Mathlib.Data.Nat.GCD.Basic
import Mathlib.Data.Nat.Cast.Field
import Mathlib.Tactic.Ring
import Mathlib.Tactic.FieldSimp
import Mathlib.Tactic.Linarith
import Mathlib.Tactic.Positivity
import Mathlib.Tactic.NormNum

namespace Keride.Ratio

/-- The rational number a pair denotes. -/
def val (r : Ratio) : ℚ := (r.n : ℚ) / (r.d : ℚ)

/-- A reduced non-negative fraction that fits. -/
def Good (r : Ratio) : Prop :=
  ∃ a b : Nat, r = ⟨a, b⟩ ∧ 0 < b ∧ Nat.Coprime a b ∧ a < 2 ^ 31 ∧ b < 2 ^ 31

theorem i32_ok (chk : Bool) {x : Nat} (h : x < 2 ^ 31) : i32 chk (x : Int) = .ok (x : Int) := by
  rw [i32, if_pos ⟨by omega, by exact_mod_cast h⟩]

theorem i32_big {x : Nat} (h : ¬ x < 2 ^ 31) : i32 true (x : Int) = .panic := by
  rw [i32, if_neg (by
    intro hh; apply h; exact_mod_cast hh.2), if_pos rfl]

theorem reduce_nat (chk : Bool) (a b : Nat) (hb : 0 < b) :
    reduce chk a b = .ok ⟨(a / Nat.gcd a b : Nat), (b / Nat.gcd a b : Nat)⟩ := by
  unfold reduce
  rw [if_neg (by omega)]
  by_cases h0 : a = 0
  · subst h0
    rw [if_pos (by rfl), Nat.gcd_zero_left, Nat.zero_div, Nat.div_self hb]; rfl
  · rw [if_neg (by omega)]
    by_cases h1 : a = b
    · subst h1
      rw [if_pos rfl, Nat.gcd_self, Nat.div_self hb]; rfl
    · rw [if_neg (by omega)]
      dsimp only
      have e1 : Int.tdiv (a : Int) ((Int.gcd (a : Int) (b : Int) : Nat) : Int) = ((a / Nat.gcd a b : Nat) : Int) := by
        rw [Int.gcd_natCast_natCast, ← Int.ofNat_tdiv]
      have e2 : Int.tdiv (b : Int) ((Int.gcd (a : Int) (b : Int) : Nat) : Int) = ((b / Nat.gcd a b : Nat) : Int) := by
        rw [Int.gcd_natCast_natCast, ← Int.ofNat_tdiv]
      rw [e1, e2, if_neg (not_lt.mpr (Int.natCast_nonneg _))]

theorem good_reduced {a b : Nat} (hb : 0 < b) (ha : a < 2 ^ 31) (hb2 : b < 2 ^ 31) :
    Good ⟨(a / Nat.gcd a b : Nat), (b / Nat.gcd a b : Nat)⟩ := by
  have hg : 0 < Nat.gcd a b := Nat.gcd_pos_of_pos_right _ hb
  refine ⟨_, _, rfl, Nat.div_pos (Nat.gcd_le_right _ hb) hg, Nat.coprime_div_gcd_div_gcd hg, ?_, ?_⟩
  · exact lt_of_le_of_lt (Nat.div_le_self _ _) ha
  · exact lt_of_le_of_lt (Nat.div_le_self _ _) hb2

theorem val_reduced (a b : Nat) (hb : 0 < b) :
    val ⟨(a / Nat.gcd a b : Nat), (b / Nat.gcd a b : Nat)⟩ = (a : ℚ) / b := by
  have hg : 0 < Nat.gcd a b := Nat.gcd_pos_of_pos_right _ hb
  have hgq : ((Nat.gcd a b : Nat) : ℚ) ≠ 0 := by exact_mod_cast hg.ne'
  unfold val
  simp only [Int.cast_natCast]
  rw [Nat.cast_div (Nat.gcd_dvd_left a b) hgq, Nat.cast_div (Nat.gcd_dvd_right a b) hgq]
  exact div_div_div_cancel_right₀ hgq _ _

/-- Common denominator and summed numerator. -/
theorem add_nat (chk : Bool) (a b c d : Nat) (hb : 0 < b)
    (hL : Nat.lcm b d < 2 ^ 31) (hN : a * (Nat.lcm b d / b) + c * (Nat.lcm b d / d) < 2 ^ 31) :
    add chk ⟨a, b⟩ ⟨c, d⟩ =
      reduce chk ((a * (Nat.lcm b d / b) + c * (Nat.lcm b d / d) : Nat) : Int) (Nat.lcm b d : Nat) := by
  unfold add
  by_cases h : b = d
  · subst h
    rw [if_pos rfl]
    dsimp only
    rw [Nat.lcm_self, Nat.div_self hb, Nat.mul_one, Nat.mul_one] at *
    rw [show ((a : Int) + c) = ((a + c : Nat) : Int) by push_cast; rfl, i32_ok chk hN]
    rfl
  · rw [if_neg (by dsimp only; omega)]
    dsimp only
    have e0 : ((b : Int) * Int.tdiv (d : Int) ((Int.gcd (b : Int) (d : Int) : Nat) : Int)) =
        ((Nat.lcm b d : Nat) : Int) := by
      rw [Int.gcd_natCast_natCast, ← Int.ofNat_tdiv, ← Nat.cast_mul, ← Nat.mul_div_assoc _ (Nat.gcd_dvd_right b d)]
      rfl
    have hA : a * (Nat.lcm b d / b) < 2 ^ 31 := by omega
    have hC : c * (Nat.lcm b d / d) < 2 ^ 31 := by omega
    rw [e0, i32_ok chk hL, Res.ok_bind, Int.natAbs_natCast, i32_ok chk hL, Res.ok_bind,
      ← Int.ofNat_tdiv, ← Int.ofNat_tdiv, ← Nat.cast_mul, ← Nat.cast_mul, i32_ok chk hA, Res.ok_bind,
      i32_ok chk hC, Res.ok_bind, ← Nat.cast_add, i32_ok chk hN, Res.ok_bind]

/-- With overflow checks, no panic means that nothing overflowed. -/
theorem add_checked {a b c d : Nat} {r : Ratio} (hb : 0 < b) (hb2 : b < 2 ^ 31)
    (h : add true ⟨a, b⟩ ⟨c, d⟩ = .ok r) :
    Nat.lcm b d < 2 ^ 31 ∧ a * (Nat.lcm b d / b) + c * (Nat.lcm b d / d) < 2 ^ 31 := by
  unfold add at h
  by_cases h' : b = d
  · subst h'
    rw [if_pos rfl] at h
    dsimp only at h
    rw [Nat.lcm_self, Nat.div_self hb, Nat.mul_one, Nat.mul_one]
    refine ⟨hb2, ?_⟩
    by_contra hN
    rw [show ((a : Int) + c) = ((a + c : Nat) : Int) by push_cast; rfl, i32_big hN] at h
    cases h
  · rw [if_neg (by dsimp only; omega)] at h
    dsimp only at h
    have e0 : ((b : Int) * Int.tdiv (d : Int) ((Int.gcd (b : Int) (d : Int) : Nat) : Int)) =
        ((Nat.lcm b d : Nat) : Int) := by
      rw [Int.gcd_natCast_natCast, ← Int.ofNat_tdiv, ← Nat.cast_mul, ← Nat.mul_div_assoc _ (Nat.gcd_dvd_right b d)]
      rfl
    rw [e0] at h
    by_cases hL : Nat.lcm b d < 2 ^ 31
    · refine ⟨hL, ?_⟩
      rw [i32_ok _ hL, Res.ok_bind, Int.natAbs_natCast, i32_ok _ hL, Res.ok_bind,
        ← Int.ofNat_tdiv, ← Int.ofNat_tdiv, ← Nat.cast_mul, ← Nat.cast_mul] at h
      by_cases hA : a * (Nat.lcm b d / b) < 2 ^ 31
      · rw [i32_ok _ hA, Res.ok_bind] at h
        by_cases hC : c * (Nat.lcm b d / d) < 2 ^ 31
        · rw [i32_ok _ hC, Res.ok_bind, ← Nat.cast_add] at h
          by_contra hN
          rw [i32_big hN] at h
          cases h
        · rw [i32_big hC] at h; cases h
      · rw [i32_big hA] at h; cases h
    · rw [i32_big hL] at h; cases h

theorem sum_val {a b c d : Nat} (hb : 0 < b) (hd : 0 < d) :
    ((a * (Nat.lcm b d / b) + c * (Nat.lcm b d / d) : Nat) : ℚ) / (Nat.lcm b d : Nat) =
      (a : ℚ) / b + (c : ℚ) / d := by
  have hL : ((Nat.lcm b d : Nat) : ℚ) ≠ 0 := by
    exact_mod_cast (Nat.lcm_pos hb hd).ne'
  have hb' : (b : ℚ) ≠ 0 := by exact_mod_cast hb.ne'
  have hd' : (d : ℚ) ≠ 0 := by exact_mod_cast hd.ne'
  push_cast [Nat.cast_div (Nat.dvd_lcm_left b d) hb', Nat.cast_div (Nat.dvd_lcm_right b d) hd']
  field_simp

theorem add_exact {x y r : Ratio} (hx : Good x) (hy : Good y) (h : add true x y = .ok r) :
    (∀ chk, add chk x y = .ok r) ∧ Good r ∧ val r = val x + val y := by
  obtain ⟨a, b, rfl, hb, -, ha2, hb2⟩ := hx
  obtain ⟨c, d, rfl, hd, -, hc2, hd2⟩ := hy
  obtain ⟨hL, hN⟩ := add_checked hb hb2 h
  have hLp := Nat.lcm_pos hb hd
  have e := fun chk => add_nat chk a b c d hb hL hN
  rw [e, reduce_nat _ _ _ hLp] at h
  cases h
  refine ⟨fun chk => by rw [e, reduce_nat _ _ _ hLp], good_reduced hLp hN hL, ?_⟩
  rw [val_reduced _ _ hLp, sum_val hb hd]
  simp [val]

theorem Good.val_nonneg {x : Ratio} (hx : Good x) : 0 ≤ val x := by
  obtain ⟨a, b, rfl, hb, -⟩ := hx
  simp only [val, Int.cast_natCast]
  positivity

theorem add_bounded {x y : Ratio} {D : Nat} (hx : Good x) (hy : Good y) (hD : 0 < D) (hD2 : D < 2 ^ 31)
    (dx : x.d ∣ D) (dy : y.d ∣ D) (hs : (val x + val y) * D < 2 ^ 31) :
    ∃ r, add true x y = .ok r ∧ r.d ∣ D := by
  obtain ⟨a, b, rfl, hb, -, ha2, hb2⟩ := hx
  obtain ⟨c, d, rfl, hd, -, hc2, hd2⟩ := hy
  dsimp only at dx dy
  have dx : b ∣ D := by exact_mod_cast dx
  have dy : d ∣ D := by exact_mod_cast dy
  have hdv : Nat.lcm b d ∣ D := Nat.lcm_dvd dx dy
  have hLD : Nat.lcm b d ≤ D := Nat.le_of_dvd hD hdv
  have hLp := Nat.lcm_pos hb hd
  have hN : a * (Nat.lcm b d / b) + c * (Nat.lcm b d / d) < 2 ^ 31 := by
    have hv := sum_val (a := a) (c := c) hb hd
    simp only [val, Int.cast_natCast] at hs
    rw [← hv] at hs
    have hLq : (0 : ℚ) < (Nat.lcm b d : Nat) := by exact_mod_cast hLp
    have hDq : ((Nat.lcm b d : Nat) : ℚ) ≤ D := by exact_mod_cast hLD
    have : ((a * (Nat.lcm b d / b) + c * (Nat.lcm b d / d) : Nat) : ℚ) < 2 ^ 31 := by
      refine lt_of_le_of_lt ?_ hs
      set N : ℚ := ((a * (Nat.lcm b d / b) + c * (Nat.lcm b d / d) : Nat) : ℚ) with hNd
      have h0 : 0 ≤ N := by rw [hNd]; positivity
      have h1 : N = N / (Nat.lcm b d : Nat) * (Nat.lcm b d : Nat) := by field_simp
      calc N = N / (Nat.lcm b d : Nat) * (Nat.lcm b d : Nat) := h1
        _ ≤ N / (Nat.lcm b d : Nat) * D := mul_le_mul_of_nonneg_left hDq (by positivity)
    exact_mod_cast this
  rw [add_nat true a b c d hb (by omega) hN, reduce_nat _ _ _ hLp]
  refine ⟨_, rfl, ?_⟩
  dsimp only
  exact_mod_cast (Nat.div_dvd_of_dvd (Nat.gcd_dvd_right _ _)).trans hdv

theorem lt1_iff {x : Ratio} (hx : Good x) : x.lt1 = true ↔ val x < 1 := by
  obtain ⟨a, b, rfl, hb, -⟩ := hx
  have hbq : (0 : ℚ) < b := by exact_mod_cast hb
  simp only [lt1, decide_eq_true_eq, val, Int.cast_natCast]
  rw [div_lt_one hbq]
  norm_cast

theorem good_zero : Good ⟨0, 1⟩ := ⟨0, 1, rfl, by decide, by decide, by decide, by decide⟩
theorem good_one : Good ⟨1, 1⟩ := ⟨1, 1, rfl, by decide, by decide, by decide, by decide⟩
theorem val_zero : val ⟨0, 1⟩ = 0 := by simp [val]
theorem val_one : val ⟨1, 1⟩ = 1 := by simp [val]

theorem sum_exact {ws : List Ratio} : ∀ {acc r : Ratio}, Good acc → (∀ w ∈ ws, Good w) → sum true acc ws = .ok r →
    (∀ chk, sum chk acc ws = .ok r) ∧ Good r ∧ val r = val acc + (ws.map val).sum := by
  induction ws with
  | nil =>
    intro acc r ha _ h
    cases h
    exact ⟨fun _ => rfl, ha, by simp⟩
  | cons w ws ih =>
    intro acc r ha hw h
    rw [sum, Res.bind_eq_ok] at h
    obtain ⟨x, h1, h2⟩ := h
    obtain ⟨e1, g1, v1⟩ := add_exact ha (hw w List.mem_cons_self) h1
    obtain ⟨e2, g2, v2⟩ := ih g1 (fun y hy => hw y (List.mem_cons_of_mem _ hy)) h2
    refine ⟨fun chk => ?_, g2, ?_⟩
    · rw [sum, e1, Res.ok_bind, e2]
    · rw [v2, v1, List.map_cons, List.sum_cons]; ring

theorem sum_nonneg {ws : List Ratio} (hw : ∀ w ∈ ws, Good w) : 0 ≤ (ws.map val).sum := by
  induction ws with
  | nil => simp
  | cons w ws ih =>
    rw [List.map_cons, List.sum_cons]
    have := ih (fun y hy => hw y (List.mem_cons_of_mem _ hy))
    have := (hw w List.mem_cons_self).val_nonneg
    linarith

theorem sum_bounded {ws : List Ratio} {D : Nat} (hD : 0 < D) (hD2 : D < 2 ^ 31) : ∀ {acc : Ratio}, Good acc →
    (∀ w ∈ ws, Good w) → acc.d ∣ D → (∀ w ∈ ws, w.d ∣ D) → (val acc + (ws.map val).sum) * D < 2 ^ 31 →
    ∃ r, sum true acc ws = .ok r := by
  induction ws with
  | nil => intro acc _ _ _ _ _; exact ⟨acc, rfl⟩
  | cons w ws ih =>
    intro acc ha hw da dw hs
    have hgw := hw w List.mem_cons_self
    have hw' := fun y hy => hw y (List.mem_cons_of_mem w hy)
    rw [List.map_cons, List.sum_cons] at hs
    have hDq : (0 : ℚ) < D := by exact_mod_cast hD
    have hn := sum_nonneg hw'
    obtain ⟨x, h1, dx⟩ := add_bounded ha hgw hD hD2 da (dw w List.mem_cons_self) (by
      refine lt_of_le_of_lt ?_ hs
      apply mul_le_mul_of_nonneg_right _ hDq.le
      linarith)
    obtain ⟨-, g1, v1⟩ := add_exact ha hgw h1
    obtain ⟨r, h2⟩ := ih g1 hw' dx (fun y hy => dw y (List.mem_cons_of_mem _ hy)) (by rw [v1, add_assoc]; exact hs)
    exact ⟨r, by rw [sum, h1, Res.ok_bind, h2]⟩

end Keride.Ratio
