/-
Helper lemmas for C13 and C14: `new_with_code_and_raw` on variable and fixed size codes.
-/
import Verif.Lemmas.MatterSpec

namespace Keride.Matter

open Spec

theorem var_rows : ∀ v ∈ varCodes, ∃ z, sizage v.code = .ok z ∧ z.fs = u32Max ∧
    z.hs = (if v.large then 4 else 2) ∧ v.code.headD 'x' ∈ (if v.large then largeVrzDex else smallVrzDex) ∧
    v.code.drop 1 = (if v.large then ['A', 'A', v.type] else [v.type]) := by
  have : ∀ v ∈ varCodes, ((sizage v.code).isOk = true ∧ ∀ z ∈ [(sizageTable.lookup v.code).getD ⟨0,0,0,0⟩],
    sizage v.code = .ok z ∧ z.fs = u32Max ∧
    z.hs = (if v.large then 4 else 2) ∧ v.code.headD 'x' ∈ (if v.large then largeVrzDex else smallVrzDex) ∧
    v.code.drop 1 = (if v.large then ['A', 'A', v.type] else [v.type])) := by decide +kernel
  intro v hv
  obtain ⟨-, h⟩ := this v hv
  exact ⟨_, h _ List.mem_cons_self⟩

theorem new_var {v : VarCode} (hv : v ∈ varCodes) {raw : Bytes} (h32 : raw.length < 2 ^ 32) :
    newWithCodeAndRaw v.code raw =
      if quadlets raw.length < 64 ^ 4 then
        .ok { code := (if v.large = false ∧ quadlets raw.length < 64 ^ 2
                then smallVrzDex.getD (3 * quadlets raw.length - raw.length) '4' :: [v.type]
                else largeVrzDex.getD (3 * quadlets raw.length - raw.length) '7' :: ['A', 'A', v.type]),
              size := quadlets raw.length, raw := raw }
      else .err .invalidVarRawSize := by
  obtain ⟨z, hz, hfs, hhs, hhead, hdrop⟩ := var_rows v hv
  obtain ⟨hr, -⟩ := sizage_row hz
  have hA := hr.code_b64.ascii
  have hl := hr.code_len
  have hq1 : (raw.length + (3 - raw.length % 3) % 3) / 3 = quadlets raw.length := by
    rw [quadlets]; omega
  have hq2 : (3 - raw.length % 3) % 3 = 3 * quadlets raw.length - raw.length := by rw [quadlets]; omega
  have hdis : ∀ c ∈ largeVrzDex, c ∉ smallVrzDex := by decide
  unfold newWithCodeAndRaw
  split
  · rename_i e
    rw [e] at hl
    exact absurd hl (by rw [hhs]; cases v.large <;> decide)
  rename_i f t heq
  rw [heq, List.headD_cons] at hhead
  have hmem : f ∈ smallVrzDex ∨ f ∈ largeVrzDex := by
    revert hhead; cases v.large
    · exact Or.inl
    · exact Or.inr
  rw [if_pos hmem, Nat.mod_eq_of_lt h32]
  simp only [hq1]
  rw [hq2]
  have hcap : (64 : Nat) ^ 2 < 64 ^ 4 := by decide
  by_cases hlg : v.large = true
  · rw [hlg] at hhs hhead hdrop
    simp only [if_true] at hhs hhead hdrop
    rw [if_neg (hdis f hhead), hlg]
    have hsl : Str.slice v.code 1 4 = .ok ['A', 'A', v.type] := by
      rw [slice_ascii hA (by decide) (by omega), List.take_of_length_le (by omega), hdrop]
    by_cases hq : quadlets raw.length < 64 ^ 4
    · rw [if_pos hq, if_pos hq, hsl, Res.ok_bind, Res.pure_eq, Res.ok_bind, if_neg (by omega),
        List.take_of_length_le (Nat.le_refl _)]
      simp
    · rw [if_neg hq, if_neg hq]; rfl
  · have hlg' : v.large = false := by simpa using hlg
    rw [hlg'] at hhs hhead hdrop
    simp only [Bool.false_eq_true, if_false] at hhs hhead hdrop
    rw [if_pos hhead, hlg']
    have hsl : Str.slice v.code 1 2 = .ok [v.type] := by
      rw [slice_ascii hA (by decide) (by omega), List.take_of_length_le (by omega), hdrop]
    by_cases hq2 : quadlets raw.length < 64 ^ 2
    · rw [if_pos hq2, if_pos (by omega), hsl, Res.ok_bind, Res.pure_eq, Res.ok_bind, if_neg (by omega),
        List.take_of_length_le (Nat.le_refl _)]
      rw [if_pos ⟨rfl, hq2⟩]
    · rw [if_neg hq2]
      by_cases hq : quadlets raw.length < 64 ^ 4
      · rw [if_pos hq, if_pos hq, hsl, Res.ok_bind, Res.pure_eq, Res.ok_bind, if_neg (by omega),
          List.take_of_length_le (Nat.le_refl _)]
        rw [if_neg (fun h => hq2 h.2)]
        rfl
      · rw [if_neg hq, if_neg hq]; rfl

/-- The variable codes are closed under changing lead size, and small to large. -/
theorem var_lookup : ∀ v ∈ varCodes, ∀ l ∈ [0, 1, 2],
    (⟨smallVrzDex.getD l '4' :: [v.type], false, l, v.type⟩ : VarCode) ∈ varCodes ∧
    (⟨largeVrzDex.getD l '7' :: ['A', 'A', v.type], true, l, v.type⟩ : VarCode) ∈ varCodes := by
  decide +kernel

theorem fixed_rows : ∀ e ∈ fixedCodes, rawSize e.1 = .ok e.2 ∧
    (e.1.headD 'x') ∉ smallVrzDex ∧ (e.1.headD 'x') ∉ largeVrzDex ∧ e.1 ≠ [] := by decide +kernel

end Keride.Matter
