/-
Helper lemmas for the typed primitives: what `Matter::new` can return.
-/
import Verif.Lemmas.MatterNew
import Verif.Lemmas.Utf8Inv

namespace Keride.Matter

open Spec

theorem new_fixed {code : Str} {n : Nat} (hc : (code, n) ∈ fixedCodes) (raw : Bytes) :
    newWithCodeAndRaw code raw = if raw.length < n then .err .shortage else .ok ⟨code, 0, raw.take n⟩ := by
  obtain ⟨h1, h2, h3, h4⟩ := fixed_rows _ hc
  simp only at h1 h2 h3 h4
  unfold newWithCodeAndRaw
  split
  · exact absurd rfl h4
  · rename_i f t
    rw [List.headD_cons] at h2 h3
    rw [if_neg (by rintro (h | h); exacts [h2 h, h3 h]), h1, Res.ok_bind]

theorem fixed_mem : ∀ e ∈ fixedCodes, e.1 ∈ matterCodes := by decide +kernel

theorem exfil_wf {s : Str} {m : M} (h : exfil s = .ok m) (hne : '=' ∉ s) :
    ∃ z t, Wf m z ∧ s = b64Text (sx m z) ++ t := by
  obtain ⟨p⟩ := exfil_ok h
  obtain ⟨hw, hs⟩ := exfil_canonical p (fun hb => hne (by rw [p.split]; simp [hb]))
  exact ⟨p.z, p.rest, hw, hs⟩

/-- Whatever `Matter::new` returns is well formed when no `=` occurs in the text given. -/
theorem new_any_wf {code : Option Str} {raw qb64b : Option Bytes} {qb64 : Option Str} {qb2 : Option Bytes}
    {m : M} (h : new code raw qb64b qb64 qb2 = .ok m)
    (hc : ∀ c, code = some c → raw.isSome = true → c ∈ matterCodes)
    (hs : ∀ s, qb64 = some s → '=' ∉ s) (hb : ∀ b, qb64b = some b → (61 : UInt8) ∉ b) :
    ∃ z, Wf m z := by
  cases raw with
  | some r =>
    cases code with
    | some c => exact new_table (hc c rfl rfl) h
    | none => simp [new] at h
  | none =>
    cases qb64b with
    | some b =>
      change newWithQb64b b = _ at h
      rw [newWithQb64b] at h
      obtain ⟨s, h1, h2⟩ := Res.bind_eq_ok.mp h
      obtain ⟨z, t, hw, -⟩ := exfil_wf h2 (fun he => hb b rfl (eq_mem_utf8 h1 he))
      exact ⟨z, hw⟩
    | none =>
      cases qb64 with
      | some s =>
        obtain ⟨z, t, hw, -⟩ := exfil_wf h (hs s rfl)
        exact ⟨z, hw⟩
      | none =>
        cases qb2 with
        | some b =>
          obtain ⟨z, t, hw, -⟩ := bexfil_ok h
          exact ⟨z, hw⟩
        | none => simp [new] at h

/-- A well-formed object with a fixed-size code has exactly the raw size of the table. -/
theorem wf_fixed {m : M} {z : Sizage} (h : Wf m z) {n : Nat} (hc : (m.code, n) ∈ fixedCodes) :
    m.size = 0 ∧ m.raw.length = n := by
  have hn := new_fixed hc m.raw
  rw [wf_new h] at hn
  split at hn
  · simp at hn
  · rename_i hl
    have := Res.ok.inj hn
    constructor
    · rw [this]
    · have h2 := congrArg (fun x => x.raw.length) this
      simp only [List.length_take] at h2
      omega

end Keride.Matter
