/-
C41: digests (diger.rs). `H` stands for the hash functions.
-/
import Verif.Lemmas.Signing
import Verif.Props.Saider

namespace Keride.Props

open Spec Matter Saider

/-- A digest value: a digest code with as many bytes as the code table says. -/
def IsDigest (m : M) : Prop := m.code ∈ digests ∧ (m.code, m.raw.length) ∈ fixedCodes ∧ m.size = 0

theorem diger_validate {c : Str} : Diger.validateCode c = .ok () ↔ c ∈ digests := by
  unfold Diger.validateCode
  rw [mem_digests]
  split
  · rename_i h; simpa using h
  · rename_i h; simpa using h

theorem diger_verify (H : Hash) {m : M} (hc : m.code ∈ digests) (ser : Bytes) : Diger.verify H m ser = .ok (decide (H m.code ser = m.raw)) := by
  unfold Diger.verify hashDigest
  rw [if_pos (by simpa using mem_digests.mp hc)]
  rfl

/-- C41: `new_with_ser` takes exactly the digest codes, and the value holds the digest. -/
theorem C41_new (H : Hash) (hH : HashOk H) (ser : Bytes) (code : Option Str) :
    (code.getD (str% "E") ∈ digests →
      Diger.newWithSer H ser code = .ok ⟨code.getD (str% "E"), 0, H (code.getD (str% "E")) ser⟩) ∧
    (code.getD (str% "E") ∉ digests → Diger.newWithSer H ser code = .err .unexpectedCode) := by
  unfold Diger.newWithSer Diger.new
  rw [show Matter.new code none none none none = .err .validation from rfl]
  dsimp only
  constructor
  · intro hc
    rw [diger_validate.mpr hc, Res.ok_bind]
    unfold hashDigest
    rw [if_pos (by simpa using mem_digests.mp hc), Res.ok_bind]
    obtain ⟨n, hn, -⟩ := digest_rows _ (mem_digests.mp hc)
    have hl := hH _ hc n hn ser
    change newWithCodeAndRaw _ _ = _
    rw [new_fixed hn, if_neg (by omega), List.take_of_length_le (by omega)]
  · intro hc
    unfold Diger.validateCode
    rw [if_neg (by rw [mem_digests] at hc; simpa using hc)]
    rfl

/-- C41: `verify` of the digest of `ser` accepts exactly the data with the same digest. -/
theorem C41_verify (H : Hash) (hH : HashOk H) (ser : Bytes) (code : Option Str) (m : M) (h : Diger.newWithSer H ser code = .ok m) (ser' : Bytes) :
    Diger.verify H m ser' = .ok (decide (H (code.getD (str% "E")) ser' = H (code.getD (str% "E")) ser)) := by
  by_cases hc : code.getD (str% "E") ∈ digests
  · rw [(C41_new H hH ser code).1 hc] at h
    cases h
    exact diger_verify H hc ser'
  · rw [(C41_new H hH ser code).2 hc] at h
    cases h

/-- C41: every value a constructor returns is a digest value, when no `=` occurs in the text given. -/
theorem C41_constructed (H : Hash) (hH : HashOk H) (ser : Option Bytes) (code : Option Str) (raw qb64b : Option Bytes) (qb64 : Option Str)
    (qb2 : Option Bytes) (m : M) (h : Diger.new H ser code raw qb64b qb64 qb2 = .ok m)
    (hs : ∀ s, qb64 = some s → '=' ∉ s) (hb : ∀ b, qb64b = some b → (61 : UInt8) ∉ b) : IsDigest m := by
  unfold Diger.new at h
  cases hm : Matter.new code raw qb64b qb64 qb2 with
  | panic => rw [hm] at h; cases h
  | ok m' =>
    rw [hm] at h
    dsimp only at h
    obtain ⟨u, h1, h2⟩ := Res.bind_eq_ok.mp h
    cases h2
    have hc := diger_validate.mp h1
    obtain ⟨n, hn, -⟩ := digest_rows _ (mem_digests.mp hc)
    obtain ⟨e1, e2⟩ := new_any_fixed hm hn hs hb
    exact ⟨hc, by rw [e2]; exact hn, e1⟩
  | err e =>
    rw [hm] at h
    dsimp only at h
    cases ser with
    | none => cases h
    | some ser =>
      dsimp only at h
      obtain ⟨u, h1, h2⟩ := Res.bind_eq_ok.mp h
      have hc := diger_validate.mp h1
      have := (C41_new H hH ser code).1 hc
      unfold Diger.newWithSer Diger.new at this
      rw [show Matter.new code none none none none = .err .validation from rfl] at this
      dsimp only at this
      rw [h] at this
      cases this
      obtain ⟨n, hn, -⟩ := digest_rows _ (mem_digests.mp hc)
      exact ⟨hc, by dsimp only; rw [hH _ hc n hn]; exact hn, rfl⟩

theorem bothVerify_eq (H : Hash) {m d : M} (hm : m.code ∈ digests) (hd : d.code ∈ digests) (ser : Bytes) :
    Diger.bothVerify H m d ser = .ok (decide (m.raw = H m.code ser ∧ d.raw = H d.code ser)) := by
  unfold Diger.bothVerify
  rw [diger_verify H hd, Res.ok_bind, diger_verify H hm]
  by_cases h : H d.code ser = d.raw
  · simp [h, eq_comm]
  · rw [if_neg (by simpa using h)]
    congr 1
    symm
    rw [decide_eq_false_iff_not]
    rintro ⟨-, h2⟩
    exact h h2.symm

/-- C41: `compare` with another digest value accepts exactly the equal one, or two digests of the data given. -/
theorem C41_compare (H : Hash) (chk : Bool) (m d : M) (hm : IsDigest m) (hd : IsDigest d) (ser : Bytes) :
    Diger.compare H chk m ser none (some d) = .ok (decide (m = d ∨ (m.raw = H m.code ser ∧ d.raw = H d.code ser))) := by
  obtain ⟨q, h1, -, h2, -⟩ := fixed_text chk hm.2.1 hm.2.2
  obtain ⟨q', h1', -, h2', -⟩ := fixed_text chk hd.2.1 hd.2.2
  change Diger.compareDiger H chk m ser d = _
  unfold Diger.compareDiger
  rw [h1', Res.ok_bind, h1, Res.ok_bind]
  by_cases hq : q' = q
  · have : m = d := by subst hq; rw [h2] at h2'; exact Res.ok.inj h2'
    rw [if_pos hq]
    simp [this]
  · have hne : m ≠ d := by rintro rfl; rw [h1] at h1'; exact hq (Res.ok.inj h1').symm
    rw [if_neg hq]
    by_cases hc : d.code = m.code
    · rw [if_pos hc]
      congr 1
      symm
      rw [decide_eq_false_iff_not]
      rintro (h | ⟨ha, hb⟩)
      · exact hne h
      · apply hne
        obtain ⟨c, z, r⟩ := m
        obtain ⟨c', z', r'⟩ := d
        dsimp only at *
        subst hc
        have z0 := hm.2.2
        have z0' := hd.2.2
        dsimp only at z0 z0'
        rw [ha, hb, z0, z0']
    · rw [if_neg hc, bothVerify_eq H hm.1 hd.1]
      simp [hne]

/-- C41: `compare` with the text of a digest is `compare` with the digest. -/
theorem C41_compare_text (H : Hash) (chk : Bool) (m d : M) (hm : IsDigest m) (hd : IsDigest d) (ser dig : Bytes) (diger : Option M)
    (ht : qb64b chk d = .ok dig) :
    Diger.compare H chk m ser (some dig) diger = .ok (decide (m = d ∨ (m.raw = H m.code ser ∧ d.raw = H d.code ser))) := by
  rw [← C41_compare H chk m d hm hd ser]
  obtain ⟨q, h1, h1b, h2, -⟩ := fixed_text chk hm.2.1 hm.2.2
  obtain ⟨q', h1', h1b', h2', h3'⟩ := fixed_text chk hd.2.1 hd.2.2
  change Diger.compareDig H chk m ser dig = Diger.compareDiger H chk m ser d
  unfold Diger.compareDig Diger.compareDiger
  rw [ht] at h1b'
  cases h1b'
  rw [h1', Res.ok_bind, h1, Res.ok_bind, h1b, Res.ok_bind]
  by_cases hq : q' = q
  · rw [if_pos hq, if_pos (by rw [hq])]
  · rw [if_neg hq, if_neg (fun h => hq (toUtf8_inj h))]
    have e : Matter.new none none (some (toUtf8 q')) none none = .ok d := h3'
    rw [e, Res.ok_bind]

/-- Two digests of the same data under different codes compare equal, with a hash of the right sizes. -/
example : IsDigest ⟨str% "E", 0, exHash (str% "E") [1, 2]⟩ ∧ IsDigest ⟨str% "0D", 0, exHash (str% "0D") [1, 2]⟩ ∧
    Diger.compare exHash true ⟨str% "E", 0, exHash (str% "E") [1, 2]⟩ [1, 2] none (some ⟨str% "0D", 0, exHash (str% "0D") [1, 2]⟩) = .ok true ∧
    Diger.compare exHash true ⟨str% "E", 0, exHash (str% "E") [1, 2]⟩ [1] none (some ⟨str% "0D", 0, exHash (str% "0D") [1, 2]⟩) = .ok false := by
  refine ⟨⟨by decide, by decide +kernel, rfl⟩, ⟨by decide, by decide +kernel, rfl⟩, by decide +kernel, by decide +kernel⟩

end Keride.Props
