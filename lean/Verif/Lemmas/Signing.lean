/-
Lemmas about digests, keys and signatures.
-/
import Verif.Model.Signing
import Verif.Lemmas.SaiderVerify

namespace Keride

open Spec Matter

/-- Values with a fixed-size code made from anything but text with `=` have the size of the table. -/
theorem new_any_fixed {code : Option Str} {raw qb64b : Option Bytes} {qb64 : Option Str} {qb2 : Option Bytes} {m : M} {n : Nat}
    (h : Matter.new code raw qb64b qb64 qb2 = .ok m) (hn : (m.code, n) ∈ fixedCodes)
    (hs : ∀ s, qb64 = some s → '=' ∉ s) (hb : ∀ b, qb64b = some b → (61 : UInt8) ∉ b) : m.size = 0 ∧ m.raw.length = n := by
  cases raw with
  | some r =>
    cases code with
    | some c =>
      obtain ⟨z, hz⟩ := sizage_of_code (fixed_mem _ hn)
      exact wf_fixed (new_wf h hz) hn
    | none => simp [Matter.new] at h
  | none =>
    obtain ⟨z, hz⟩ := new_any_wf h (by intro c _ h; simp at h) hs hb
    exact wf_fixed hz hn

/-- The text of a value of the right size, and back. -/
theorem fixed_text (chk : Bool) {m : M} (hn : (m.code, m.raw.length) ∈ fixedCodes) (h0 : m.size = 0) :
    ∃ q, qb64 chk m = .ok q ∧ qb64b chk m = .ok (toUtf8 q) ∧ Matter.newWithQb64 q = .ok m ∧ Matter.newWithQb64b (toUtf8 q) = .ok m := by
  obtain ⟨c, z, r⟩ := m
  dsimp only at hn h0
  subst h0
  obtain ⟨z, hz⟩ := Number.wf_fixed_mk hn rfl
  obtain ⟨s, b, h1, -, h3, h4, -⟩ := Number.roundtrip chk hz
  refine ⟨s, h1, ?_, h3, h4⟩
  unfold qb64b
  rw [h1]
  rfl

theorem fixed_text_inj {chk : Bool} {m m' : M} (hn : (m.code, m.raw.length) ∈ fixedCodes) (h0 : m.size = 0)
    (hn' : (m'.code, m'.raw.length) ∈ fixedCodes) (h0' : m'.size = 0) (h : qb64 chk m = qb64 chk m') : m = m' := by
  obtain ⟨q, h1, -, h2, -⟩ := fixed_text chk hn h0
  obtain ⟨q', h1', -, h2', -⟩ := fixed_text chk hn' h0'
  rw [h1, h1'] at h
  cases h
  rw [h2] at h2'
  exact Res.ok.inj h2'

end Keride
