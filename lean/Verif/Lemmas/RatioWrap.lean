/-
What wrapping `i32` rational arithmetic still guarantees: sums never panic, and a computed sum below the
wrap never exceeds the exact one.
-/
import Verif.Lemmas.Ratio
import Mathlib.Data.Nat.Prime.Basic

namespace Keride.Ratio

/-- A weight: a reduced fraction between zero and one. -/
def IsW (w : Ratio) : Prop :=
  ∃ a b : Nat, w = ⟨a, b⟩ ∧ 0 < b ∧ a ≤ b ∧ Nat.Coprime a b ∧ b < 2 ^ 31

theorem IsW.good {w : Ratio} (h : IsW w) : Good w := by
  obtain ⟨a, b, rfl, hb, hab, hc, hb2⟩ := h
  exact ⟨a, b, rfl, hb, hc, by omega, hb2⟩

theorem IsW.val_le_one {w : Ratio} (h : IsW w) : val w ≤ 1 := by
  obtain ⟨a, b, rfl, hb, hab, hc, hb2⟩ := h
  have hbq : (0 : ℚ) < b := by exact_mod_cast hb
  simp only [val, Int.cast_natCast]
  rw [div_le_one hbq]
  exact_mod_cast hab

theorem lcm_not_dvd {b d : Nat} (hb : 0 < b) (hd : 0 < d) (hb2 : b < 2 ^ 31) (hd2 : d < 2 ^ 31) :
    ¬ 2 ^ 31 ∣ Nat.lcm b d := by
  intro h
  have hg : 0 < Nat.gcd b d := Nat.gcd_pos_of_pos_left _ hb
  have hc : Nat.Coprime (b / Nat.gcd b d) (d / Nat.gcd b d) := Nat.coprime_div_gcd_div_gcd hg
  by_cases he : 2 ∣ d / Nat.gcd b d
  · have ho : Nat.Coprime 2 (b / Nat.gcd b d) := by
      refine (Nat.Prime.coprime_iff_not_dvd Nat.prime_two).mpr fun h2 => ?_
      have := Nat.dvd_gcd h2 he
      rw [hc] at this
      omega
    have e : Nat.lcm b d = b / Nat.gcd b d * d := by
      rw [Nat.lcm, Nat.div_mul_right_comm (Nat.gcd_dvd_left b d)]
    rw [e] at h
    have := Nat.le_of_dvd hd (Nat.Coprime.dvd_of_dvd_mul_left (Nat.Coprime.pow_left 31 ho) h)
    omega
  · have ho : Nat.Coprime 2 (d / Nat.gcd b d) := by
      exact (Nat.Prime.coprime_iff_not_dvd Nat.prime_two).mpr he
    have e : Nat.lcm b d = b * (d / Nat.gcd b d) := by
      rw [Nat.lcm, Nat.mul_div_assoc _ (Nat.gcd_dvd_right b d)]
    rw [e] at h
    have := Nat.le_of_dvd hb (Nat.Coprime.dvd_of_dvd_mul_right (Nat.Coprime.pow_left 31 ho) h)
    omega

theorem i32_false (x : Int) : i32 false x = .ok (wrapI32 x) := by
  unfold i32 wrapI32
  split
  · congr 1; omega
  · rfl

theorem i32_mono {x y : Int} (h : i32 true x = .ok y) : i32 false x = .ok y := by
  unfold i32 at h ⊢
  split at h
  · rename_i hr; rw [if_pos hr]; exact h
  · cases h

/-- Reduction over a positive denominator. -/
theorem reduce_pos (chk : Bool) (n : Int) {b : Nat} (hb : 0 < b) :
    ∃ n' : Int, ∃ e : Nat, reduce chk n b = .ok ⟨n', e⟩ ∧ 0 < e ∧ e ≤ b ∧
      (0 ≤ n → 0 ≤ n' ∧ (n' : ℚ) / e = (n : ℚ) / b) := by
  by_cases hn : 0 ≤ n
  · obtain ⟨a, rfl⟩ := Int.eq_ofNat_of_zero_le hn
    have hg : 0 < Nat.gcd a b := Nat.gcd_pos_of_pos_right _ hb
    refine ⟨_, _, reduce_nat chk a b hb, Nat.div_pos (Nat.gcd_le_right _ hb) hg, Nat.div_le_self _ _, fun _ => ⟨?_, ?_⟩⟩
    · exact Int.natCast_nonneg _
    · have := val_reduced a b hb
      simp only [val, Int.cast_natCast] at this ⊢
      exact this
  · unfold reduce
    rw [if_neg (by omega), if_neg (by omega), if_neg (by omega)]
    dsimp only
    have hg : 0 < Int.gcd n b := Int.gcd_pos_of_ne_zero_right _ (by omega)
    have hle : Int.gcd n b ≤ b := by
      have := Nat.gcd_le_right n.natAbs hb
      exact this
    rw [← Int.ofNat_tdiv, if_neg (not_lt.mpr (Int.natCast_nonneg _))]
    exact ⟨_, _, rfl, Nat.div_pos hle hg, Nat.div_le_self _ _, fun h => absurd h hn⟩

/-- The wrapped common denominator is positive. -/
theorem wrap_lcm {b d : Nat} (hb : 0 < b) (hd : 0 < d) (hb2 : b < 2 ^ 31) (hd2 : d < 2 ^ 31) :
    ∃ l : Nat, 0 < l ∧ l < 2 ^ 31 ∧ (wrapI32 ((Nat.lcm b d : Nat) : Int)).natAbs = l := by
  have h := lcm_not_dvd hb hd hb2 hd2
  refine ⟨_, ?_, ?_, rfl⟩ <;> · unfold wrapI32; omega

theorem wrap_id {x : Nat} (h : x < 2 ^ 31) : wrapI32 (x : Int) = x := by unfold wrapI32; omega

/-- The computed accumulator `acc` against the exact sum `q`: a positive denominator, and either the exact
sum has already reached one or the accumulator is not above it. -/
def Inv (acc : Ratio) (q : ℚ) : Prop :=
  ∃ n : Int, ∃ b : Nat, acc = ⟨n, b⟩ ∧ 0 < b ∧ b < 2 ^ 31 ∧ (1 ≤ q ∨ (0 ≤ n ∧ (n : ℚ) / b ≤ q))

theorem inv_zero : Inv ⟨0, 1⟩ 0 := ⟨0, 1, rfl, by decide, by decide, .inr ⟨le_refl _, by simp⟩⟩

theorem inv_lt1 {r : Ratio} {q : ℚ} (h : Inv r q) (hl : r.lt1 = false) : 1 ≤ q := by
  obtain ⟨n, b, rfl, hb, -, h | ⟨hn, h⟩⟩ := h
  · exact h
  · have hbq : (0 : ℚ) < b := by exact_mod_cast hb
    have hnb : (b : Int) ≤ n := by simpa [lt1] using hl
    have : (1 : ℚ) ≤ (n : ℚ) / b := by
      rw [le_div_iff₀ hbq, one_mul]
      exact_mod_cast hnb
    linarith

theorem step_inv {n : Int} {b a d l : Nat} {q : ℚ} (hb : 0 < b) (hd : 0 < d) (had : a ≤ d) (hl : 0 < l)
    (hl2 : l < 2 ^ 31) (hq : q < 1) (hn : 0 ≤ n) (hnq : (n : ℚ) / b ≤ q) :
    ∃ A C : Nat, n * ((l / b : Nat) : Int) = (A : Int) ∧ ((a * (l / d) : Nat) : Int) = (C : Int) ∧ A < 2 ^ 31 ∧
      C < 2 ^ 31 ∧ ((A : ℚ) + C) / l ≤ q + (a : ℚ) / d := by
  obtain ⟨m, rfl⟩ := Int.eq_ofNat_of_zero_le hn
  have hbq : (0 : ℚ) < b := by exact_mod_cast hb
  have hdq : (0 : ℚ) < d := by exact_mod_cast hd
  have hlq : (0 : ℚ) < l := by exact_mod_cast hl
  have hmb : m < b := by
    have : (m : ℚ) / b < 1 := by
      refine lt_of_le_of_lt ?_ hq
      simpa using hnq
    rw [div_lt_one hbq] at this
    exact_mod_cast this
  have h1 : m * (l / b) ≤ l := by
    calc m * (l / b) ≤ b * (l / b) := Nat.mul_le_mul_right _ hmb.le
      _ ≤ l := Nat.mul_div_le l b
  have h2 : a * (l / d) ≤ l := by
    calc a * (l / d) ≤ d * (l / d) := Nat.mul_le_mul_right _ had
      _ ≤ l := Nat.mul_div_le l d
  refine ⟨m * (l / b), a * (l / d), by push_cast; rfl, rfl, by omega, by omega, ?_⟩
  have q1 : ((m * (l / b) : Nat) : ℚ) / l ≤ (m : ℚ) / b := by
    rw [div_le_div_iff₀ hlq hbq]
    have : m * (l / b) * b ≤ m * l := by
      rw [Nat.mul_assoc]
      exact Nat.mul_le_mul_left _ (Nat.div_mul_le_self l b)
    exact_mod_cast this
  have q2 : ((a * (l / d) : Nat) : ℚ) / l ≤ (a : ℚ) / d := by
    rw [div_le_div_iff₀ hlq hdq]
    have : a * (l / d) * d ≤ a * l := by
      rw [Nat.mul_assoc]
      exact Nat.mul_le_mul_left _ (Nat.div_mul_le_self l d)
    exact_mod_cast this
  rw [add_div]
  have : (m : ℚ) / b ≤ q := by simpa using hnq
  linarith

/-- From numerator `x` over `l` to the reduced, possibly wrapped, sum. -/
theorem finish_inv {x l : Nat} {q : ℚ} (hl : 0 < l) (hl2 : l < 2 ^ 31) (hx : x < 2 ^ 32)
    (hq : (x : ℚ) / l ≤ q) : ∃ r, reduce false (wrapI32 (x : Int)) (l : Nat) = .ok r ∧ Inv r q := by
  obtain ⟨n', e, h1, he, hel, h2⟩ := reduce_pos false (wrapI32 (x : Int)) hl
  refine ⟨_, h1, n', e, rfl, he, by omega, ?_⟩
  by_cases hxx : x < 2 ^ 31
  · rw [wrap_id hxx] at h2
    obtain ⟨h3, h4⟩ := h2 (Int.natCast_nonneg _)
    refine .inr ⟨h3, ?_⟩
    rw [h4]
    simpa using hq
  · left
    have hlq : (0 : ℚ) < l := by exact_mod_cast hl
    refine le_trans ?_ hq
    rw [le_div_iff₀ hlq, one_mul]
    have : l ≤ x := by omega
    exact_mod_cast this

theorem add_wrap {acc w : Ratio} {q : ℚ} (ha : Inv acc q) (hw : IsW w) :
    ∃ r, add false acc w = .ok r ∧ Inv r (q + val w) := by
  obtain ⟨n, b, rfl, hb, hb2, hor⟩ := ha
  obtain ⟨a, d, rfl, hd, had, hcop, hd2⟩ := hw
  have hdq : (0 : ℚ) < d := by exact_mod_cast hd
  have hval : val ⟨(a : Int), (d : Int)⟩ = (a : ℚ) / d := by simp [val]
  have hvn : 0 ≤ (a : ℚ) / d := by positivity
  rw [hval]
  have big : ∀ (x : Int) (l : Nat), 0 < l → l < 2 ^ 31 → 1 ≤ q →
      ∃ r, reduce false x l = .ok r ∧ Inv r (q + (a : ℚ) / d) := by
    intro x l hl hl2 h1
    obtain ⟨n', e, h, he, hel, -⟩ := reduce_pos false x hl
    exact ⟨_, h, n', e, rfl, he, by omega, .inl (by linarith)⟩
  unfold add
  by_cases h : b = d
  · subst h
    rw [if_pos rfl]
    dsimp only
    rw [i32_false, Res.ok_bind]
    by_cases h1 : 1 ≤ q
    · exact big _ _ hb hb2 h1
    · rcases hor with hor | ⟨hn, hnq⟩
      · exact absurd hor h1
      · obtain ⟨A, C, e1, e2, hA, hC, hle⟩ := step_inv hb hb had hb hb2 (not_le.mp h1) hn hnq
        rw [Nat.div_self hb] at e1 e2
        have e3 : n + (a : Int) = ((A + C : Nat) : Int) := by push_cast; rw [← e1, ← e2]; push_cast; ring
        rw [e3]
        exact finish_inv hb hb2 (by omega) (by push_cast; exact hle)
  · rw [if_neg (by dsimp only; omega)]
    dsimp only
    have e0 : ((b : Int) * Int.tdiv (d : Int) ((Int.gcd (b : Int) (d : Int) : Nat) : Int)) =
        ((Nat.lcm b d : Nat) : Int) := by
      rw [Int.gcd_natCast_natCast, ← Int.ofNat_tdiv, ← Nat.cast_mul, ← Nat.mul_div_assoc _ (Nat.gcd_dvd_right b d)]
      rfl
    obtain ⟨l, hl, hl2, hle⟩ := wrap_lcm hb hd hb2 hd2
    rw [e0, i32_false, Res.ok_bind, hle, i32_ok false hl2, Res.ok_bind, i32_false, Res.ok_bind, i32_false,
      Res.ok_bind, i32_false, Res.ok_bind, ← Int.ofNat_tdiv, ← Int.ofNat_tdiv]
    by_cases h1 : 1 ≤ q
    · exact big _ _ hl hl2 h1
    · rcases hor with hor | ⟨hn, hnq⟩
      · exact absurd hor h1
      · obtain ⟨A, C, e1, e2, hA, hC, hle⟩ := step_inv hb hd had hl hl2 (not_le.mp h1) hn hnq
        rw [e1, ← Nat.cast_mul, e2, wrap_id hA, wrap_id hC]
        have e3 : (A : Int) + (C : Int) = ((A + C : Nat) : Int) := by push_cast; rfl
        rw [e3]
        exact finish_inv hl hl2 (by omega) (by push_cast; exact hle)

theorem reduce_mono {n d : Int} {r : Ratio} (h : reduce true n d = .ok r) : reduce false n d = .ok r := by
  unfold reduce at h ⊢
  split at h
  · cases h
  · rename_i h0
    rw [if_neg h0]
    split at h
    · rename_i h1; rw [if_pos h1]; exact h
    · rename_i h1
      rw [if_neg h1]
      split at h
      · rename_i h2; rw [if_pos h2]; exact h
      · rename_i h2
        rw [if_neg h2]
        dsimp only at h ⊢
        split at h
        · rename_i hneg
          rw [if_pos hneg]
          rw [Res.bind_eq_ok] at h
          obtain ⟨x, hx, h⟩ := h
          rw [Res.bind_eq_ok] at h
          obtain ⟨y, hy, h⟩ := h
          rw [i32_mono hx, Res.ok_bind, i32_mono hy, Res.ok_bind]
          exact h
        · rename_i hneg
          rw [if_neg hneg]; exact h

theorem add_mono {x y r : Ratio} (h : add true x y = .ok r) : add false x y = .ok r := by
  unfold add at h ⊢
  split at h
  · rename_i hd
    rw [if_pos hd]
    rw [Res.bind_eq_ok] at h
    obtain ⟨n, hn, h⟩ := h
    rw [i32_mono hn, Res.ok_bind]
    exact reduce_mono h
  · rename_i hd
    rw [if_neg hd]
    rw [Res.bind_eq_ok] at h
    obtain ⟨l, hl, h⟩ := h
    rw [Res.bind_eq_ok] at h
    obtain ⟨l', hl', h⟩ := h
    rw [Res.bind_eq_ok] at h
    obtain ⟨ln, hln, h⟩ := h
    rw [Res.bind_eq_ok] at h
    obtain ⟨rn, hrn, h⟩ := h
    rw [Res.bind_eq_ok] at h
    obtain ⟨n, hn, h⟩ := h
    rw [i32_mono hl, Res.ok_bind, i32_mono hl', Res.ok_bind, i32_mono hln, Res.ok_bind, i32_mono hrn,
      Res.ok_bind, i32_mono hn, Res.ok_bind]
    exact reduce_mono h

theorem sum_mono {ws : List Ratio} : ∀ {acc r : Ratio}, sum true acc ws = .ok r → sum false acc ws = .ok r := by
  induction ws with
  | nil => intro acc r h; exact h
  | cons w ws ih =>
    intro acc r h
    rw [sum, Res.bind_eq_ok] at h ⊢
    obtain ⟨x, h1, h2⟩ := h
    exact ⟨x, add_mono h1, ih h2⟩

/-- Without overflow checks a sum of weights never panics and never overstates a sum below one. -/
theorem sum_wrap {ws : List Ratio} : ∀ {acc : Ratio} {q : ℚ}, Inv acc q → (∀ w ∈ ws, IsW w) →
    ∃ r, sum false acc ws = .ok r ∧ Inv r (q + (ws.map val).sum) := by
  induction ws with
  | nil => intro acc q h _; exact ⟨acc, rfl, by simpa using h⟩
  | cons w ws ih =>
    intro acc q h hw
    obtain ⟨x, h1, i1⟩ := add_wrap h (hw w List.mem_cons_self)
    obtain ⟨r, h2, i2⟩ := ih i1 (fun y hy => hw y (List.mem_cons_of_mem _ hy))
    refine ⟨r, by rw [sum, h1, Res.ok_bind, h2], ?_⟩
    rw [List.map_cons, List.sum_cons, ← add_assoc]
    exact i2

/-- In either mode: a computed sum of at least one is right. -/
theorem sum_sound {chk : Bool} {ws : List Ratio} (hw : ∀ w ∈ ws, IsW w) {r : Ratio}
    (h : sum chk ⟨0, 1⟩ ws = .ok r) (hl : r.lt1 = false) : 1 ≤ (ws.map val).sum := by
  obtain ⟨r', h1, h2⟩ := sum_wrap inv_zero hw
  have : sum false ⟨0, 1⟩ ws = .ok r := by
    cases chk with
    | true => exact sum_mono h
    | false => exact h
  rw [h1] at this
  rw [← Res.ok.inj this] at hl
  have := inv_lt1 h2 hl
  linarith

end Keride.Ratio
