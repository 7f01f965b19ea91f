/-
C01, C02: Base64 integers and code conversion (util.rs).
-/
import Verif.Lemmas.MatterSpec

namespace Keride.Props

open Spec

/-- C01 for `u32`: the text has the requested length, is Base64, and reads back as the number. -/
theorem C01_u32 (length n : Nat) (hl : 1 ≤ length) (hn : n < 64 ^ length) (h32 : n < 2 ^ 32) :
    ∃ s, u32ToB64 n length = .ok s ∧ s.length = length ∧ IsBase64 s ∧ b64ToU32 s = .ok n := by
  refine ⟨_, uToB64_eq hl hn (Nat.lt_of_lt_of_le h32 (by decide)), by simp,
    isB64_text (Sextets.toBase _ _), ?_⟩
  rw [b64ToU32_text (Sextets.toBase _ _), ofBase_toBase_of_lt hn]
  rwa [ofBase_toBase_of_lt hn]

/-- C01 for `u64`. -/
theorem C01_u64 (length n : Nat) (hl : 1 ≤ length) (hn : n < 64 ^ length) (h64 : n < 2 ^ 64) :
    ∃ s, u64ToB64 n length = .ok s ∧ s.length = length ∧ IsBase64 s ∧ b64ToU64 s = .ok n := by
  refine ⟨_, uToB64_eq hl hn h64, by simp, isB64_text (Sextets.toBase _ _), ?_⟩
  rw [b64ToU64_text (Sextets.toBase _ _), ofBase_toBase_of_lt hn]
  rwa [ofBase_toBase_of_lt hn]

/-- C01: distinct numbers have distinct texts. -/
theorem C01_injective (length n n' : Nat) (hl : 1 ≤ length) (hn : n < 64 ^ length) (hn' : n' < 64 ^ length)
    (h64 : n < 2 ^ 64) (h64' : n' < 2 ^ 64) (h : u64ToB64 n length = u64ToB64 n' length) : n = n' := by
  obtain ⟨s, h1, -, -, h2⟩ := C01_u64 length n hl hn h64
  obtain ⟨s', h1', -, -, h2'⟩ := C01_u64 length n' hl hn' h64'
  rw [h1, h1'] at h
  rw [Res.ok.inj h, h2'] at h2
  exact (Res.ok.inj h2).symm

/-- C01, the other direction: every Base64 text of at most ten characters is the text of its number. -/
theorem C01_surjective (s : Str) (hs : IsBase64 s) (h1 : 1 ≤ s.length) (h10 : s.length ≤ 10) :
    ∃ n, b64ToU64 s = .ok n ∧ n < 64 ^ s.length ∧ u64ToB64 n s.length = .ok s := by
  obtain ⟨ds, hds, rfl⟩ := isB64_iff.mp hs
  rw [b64Text_length] at h1 h10 ⊢
  have hlt := ofBase_lt 64 ds hds
  have h64 : ofBase 64 ds < 2 ^ 64 := Nat.lt_of_lt_of_le hlt
    (Nat.le_trans (Nat.pow_le_pow_right (by decide) h10) (by decide))
  exact ⟨_, b64ToU64_text hds h64, hlt, by rw [u64ToB64, uToB64_eq h1 hlt h64, toBase_ofBase ds hds]⟩

/-- C01: any character outside the alphabet is an error. -/
theorem C01_rejects (s : Str) (hs : ¬ IsBase64 s) :
    b64ToU32 s = .err .invalidBase64Character ∧ b64ToU64 s = .err .invalidBase64Character :=
  ⟨b64ToUAux_not hs, b64ToUAux_not hs⟩

example : u32ToB64 4095 2 = .ok (str% "__") ∧ u32ToB64 64 4 = .ok (str% "AABA") := by decide
example : (1 : Nat) ≤ 4 ∧ 16777215 < 64 ^ 4 ∧ 16777215 < 2 ^ 32 := by decide

/-- C02: text code to binary code and back, and the sextets of the binary form are the characters. -/
theorem C02_code_roundtrip (s : Str) (hs : IsBase64 s) (h1 : 1 ≤ s.length) (h8 : s.length ≤ 8) :
    ∃ b, codeB64ToB2 s = .ok b ∧ b.length = (3 * s.length + 3) / 4 ∧
      ∀ t : Bytes, codeB2ToB64 (b ++ t) s.length = .ok s ∧
        ∀ k ≤ s.length, ∃ is, nabSextets (b ++ t) k = .ok is ∧
          is.map (fun i => base64url[i]?) = (s.take k).map some := by
  obtain ⟨ds, hds, rfl⟩ := isB64_iff.mp hs
  rw [b64Text_length] at h1 h8 ⊢
  have hlt := ofBase_lt 64 ds hds
  have hv : ofBase 64 ds * 4 ^ (ds.length % 4) < 256 ^ (((ds.length + 1) * 3) / 4) := by
    rw [Matter.pow_ncs]
    exact Nat.mul_lt_mul_of_pos_right hlt (Nat.pow_pos (by decide))
  refine ⟨_, codeB64ToB2_text hds h8, by simp; omega, fun t => ?_⟩
  set b := beBytes (((ds.length + 1) * 3) / 4) (ofBase 64 ds * 4 ^ (ds.length % 4)) with hb
  have hbl : b.length = ((ds.length + 1) * 3) / 4 := by simp [hb]
  have hfull : Matter.sxs (b ++ t) ds.length = ds := by
    rw [Matter.sxs, List.take_left' hbl, hb, beVal_beBytes, Nat.mod_eq_of_lt hv, Matter.div_four_pow,
      toBase_ofBase ds hds]
  have hpre : ∀ k ≤ ds.length, Matter.sxs (b ++ t) k = ds.take k := by
    intro k hk
    have h := Matter.sxs_take (q := b ++ t) hk (by rw [List.length_append]; omega)
    rw [hfull] at h
    exact h.symm
  constructor
  · rw [codeB2ToB64_eq (by omega) h8 (by rw [List.length_append]; omega)]
    have := hfull
    rw [Matter.sxs] at this
    rw [this]
  · intro k hk
    have := hpre k hk
    rw [Matter.sxs] at this
    refine ⟨ds.take k, ?_, ?_⟩
    · rw [nabSextets_eq (by rw [List.length_append]; omega), this]
    · rw [b64Text_take, b64Text, List.map_map]
      apply List.map_congr_left
      intro d hd
      exact get_chr (hds.take k d hd)

example : codeB64ToB2 (str% "-AAB") = .ok [248, 0, 1] ∧ codeB2ToB64 [248, 0, 1, 7] 4 = .ok (str% "-AAB") := by
  decide

/-- C02: short input is an error, never a panic. -/
theorem C02_short (b : Bytes) (len : Nat) (h1 : 1 ≤ len) (hs : b.length < (3 * len + 3) / 4) :
    (codeB2ToB64 b len).isErr = true ∧ (nabSextets b len).isErr = true := by
  have : ((len + 1) * 3) / 4 = (3 * len + 3) / 4 := by omega
  constructor
  · rw [codeB2ToB64_short (by omega) (by omega)]; rfl
  · rw [nabSextets_short (by omega)]; rfl

end Keride.Props
