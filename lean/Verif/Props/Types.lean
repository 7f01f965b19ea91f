/-
Property C44: typed primitives hold only their own codes.
-/
import Verif.Model.Salter
import Verif.Model.Pather
import Verif.Spec.Types
import Verif.Lemmas.Number
import Verif.Lemmas.Prefixer
import Verif.Props.Saider
import Verif.Props.Signer

namespace Keride.Props

open Spec Matter

/-- A fixed-size code given with raw material is kept. -/
theorem code_kept {c : Str} {n : Nat} (hc : (c, n) ∈ fixedCodes) {raw : Bytes} {q : Option Bytes} {s : Option Str} {b : Option Bytes} {m : M}
    (h : Matter.new (some c) (some raw) q s b = .ok m) : m.code = c := by
  change newWithCodeAndRaw c raw = .ok m at h
  rw [new_fixed hc] at h
  split at h
  · cases h
  · cases h
    rfl

theorem checked {α : Type} {p : Prop} [Decidable p] {a m : α} {e : Err} (h : ((if p then .ok () else .err e : Res Unit) >>= fun _ => .ok a) = .ok m) :
    a = m ∧ p := by
  split at h
  · rename_i hp
    exact ⟨by cases h; rfl, hp⟩
  · cases h

/-- C44: public keys. -/
theorem C44_verfer (code : Option Str) (raw qb64b : Option Bytes) (qb64 : Option Str) (qb2 : Option Bytes) (m : M)
    (h : Verfer.new code raw qb64b qb64 qb2 = .ok m) : m.code ∈ fixedKeyCodes ++ rotatableKeyCodes := by
  obtain ⟨x, -, h⟩ := Res.bind_eq_ok.mp h
  obtain ⟨rfl, hp⟩ := checked h
  revert hp
  simp only [Verfer.codes, fixedKeyCodes, rotatableKeyCodes, List.contains_eq_mem, decide_eq_true_eq]
  simp only [List.mem_append, List.mem_cons, List.not_mem_nil, or_false]
  tauto

/-- C44: digests. -/
theorem C44_diger (H : Hash) (ser : Option Bytes) (code : Option Str) (raw qb64b : Option Bytes) (qb64 : Option Str) (qb2 : Option Bytes) (m : M)
    (h : Diger.new H ser code raw qb64b qb64 qb2 = .ok m) : m.code ∈ digests := by
  rw [Saider.mem_digests]
  unfold Diger.new at h
  split at h
  · cases h
  · obtain ⟨rfl, hp⟩ := checked h
    simpa using hp
  · split at h
    · dsimp only at h
      obtain ⟨u, hu, h⟩ := Res.bind_eq_ok.mp h
      obtain ⟨d, hd, h⟩ := Res.bind_eq_ok.mp h
      have hc : code.getD (str% "E") ∈ digestCodes := by
        unfold Diger.validateCode at hu
        split at hu
        · rename_i hc; simpa using hc
        · cases hu
      obtain ⟨n, hn, -⟩ := Saider.digest_rows _ hc
      rw [code_kept hn h]
      exact hc
    · cases h

/-- C44: SAIDs. -/
theorem C44_saider (H : Hash) (sad : Option Value) (label kind : Option Str) (ignore : Option (List Str)) (code : Option Str)
    (raw qb64b : Option Bytes) (qb64 : Option Str) (qb2 : Option Bytes) (m : M)
    (h : Saider.new H sad label kind ignore code raw qb64b qb64 qb2 = .ok m) : m.code ∈ digests := by
  rw [Saider.mem_digests]
  have val : ∀ c u, Saider.validateCode c = .ok u → c ∈ digestCodes := by
    intro c u hu
    unfold Saider.validateCode at hu
    split at hu
    · rename_i hc; simpa using hc
    · cases hu
  unfold Saider.new at h
  split at h
  · dsimp only at h
    obtain ⟨p, hp, h⟩ := Res.bind_eq_ok.mp h
    have hc : p.1 ∈ digestCodes := by
      split at hp
      · obtain ⟨u, hu, hp⟩ := Res.bind_eq_ok.mp hp
        cases hp
        exact val _ _ hu
      · obtain ⟨c, -, hp⟩ := Res.bind_eq_ok.mp hp
        obtain ⟨u, hu, hp⟩ := Res.bind_eq_ok.mp hp
        obtain ⟨d, -, hp⟩ := Res.bind_eq_ok.mp hp
        cases hp
        exact val _ _ hu
    obtain ⟨n, hn, -⟩ := Saider.digest_rows _ hc
    rw [code_kept hn h]
    exact hc
  · obtain ⟨x, -, h⟩ := Res.bind_eq_ok.mp h
    obtain ⟨rfl, hp⟩ := checked h
    simpa using hp

/-- C44: unindexed signatures. -/
theorem C44_cigar (verfer : Option M) (code : Option Str) (raw qb64b : Option Bytes) (qb64 : Option Str) (qb2 : Option Bytes) (c : Cigar)
    (h : Cigar.new verfer code raw qb64b qb64 qb2 = .ok c) : c.m.code ∈ plainSigCodes := by
  obtain ⟨x, -, h⟩ := Res.bind_eq_ok.mp h
  obtain ⟨rfl, hp⟩ := checked h
  simpa [Cigar.codes, plainSigCodes] using hp

/-- C44: indexed signatures. -/
theorem C44_siger (chk : Bool) (verfer : Option M) (index ondex : Option Nat) (code : Option Str) (raw qb64b : Option Bytes) (qb64 : Option Str)
    (qb2 : Option Bytes) (s : Siger) (h : Siger.new chk verfer index ondex code raw qb64b qb64 qb2 = .ok s) : s.i.code ∈ idxSigCodes := by
  obtain ⟨x, -, h⟩ := Res.bind_eq_ok.mp h
  obtain ⟨rfl, hp⟩ := checked h
  simpa [Siger.codes, idxSigCodes] using hp

/-- C44: sequence numbers. -/
theorem C44_seqner (sn : Option Nat) (snh code : Option Str) (raw qb64b : Option Bytes) (qb64 : Option Str) (qb2 : Option Bytes) (m : M)
    (h : Seqner.new sn snh code raw qb64b qb64 qb2 = .ok m) : m.code = saltCode := by
  unfold Seqner.new at h
  dsimp only at h
  obtain ⟨r, -, h⟩ := Res.bind_eq_ok.mp h
  obtain ⟨x, -, h⟩ := Res.bind_eq_ok.mp h
  obtain ⟨rfl, hp⟩ := checked h
  exact hp

/-- C44: dates. -/
theorem C44_dater (now : Str) (dts code : Option Str) (raw qb64b : Option Bytes) (qb64 : Option Str) (qb2 : Option Bytes) (m : M)
    (h : Dater.new now dts code raw qb64b qb64 qb2 = .ok m) : m.code = dateCode := by
  unfold Dater.new at h
  dsimp only at h
  obtain ⟨x, -, h⟩ := Res.bind_eq_ok.mp h
  obtain ⟨rfl, hp⟩ := checked h
  exact hp

/-- C44: Base64 texts. -/
theorem C44_bexter (bext code : Option Str) (raw qb64b : Option Bytes) (qb64 : Option Str) (qb2 : Option Bytes) (m : M)
    (h : Bexter.new bext code raw qb64b qb64 qb2 = .ok m) : m.code ∈ strB64Codes := by
  unfold Bexter.new at h
  dsimp only at h
  split at h
  · cases h
  · obtain ⟨x, -, h⟩ := Res.bind_eq_ok.mp h
    obtain ⟨rfl, hp⟩ := checked h
    simpa [Bexter.codex, strB64Codes] using hp

/-- C44: paths. -/
theorem C44_pather (path : Option Value) (bext code : Option Str) (raw qb64b : Option Bytes) (qb64 : Option Str) (qb2 : Option Bytes) (m : M)
    (h : Pather.new path bext code raw qb64b qb64 qb2 = .ok m) : m.code ∈ strB64Codes := by
  unfold Pather.new at h
  dsimp only at h
  obtain ⟨x, -, h⟩ := Res.bind_eq_ok.mp h
  obtain ⟨rfl, hp⟩ := checked h
  simpa [Bexter.codex, strB64Codes] using hp

/-- C44: signers hold a seed and a public key. -/
theorem C44_signer (C : Crypto) (rnd : Nat) (transferable : Option Bool) (code : Option Str) (raw qb64b : Option Bytes) (qb64 : Option Str)
    (qb2 : Option Bytes) (s : Signer) (h : Signer.new C rnd transferable code raw qb64b qb64 qb2 = .ok s) :
    s.m.code ∈ seedCodes ∧ s.verfer.code ∈ if transferable.getD true then rotatableKeyCodes else fixedKeyCodes := by
  have rows : ∀ c ∈ seedCodes, ∃ n, (c, n) ∈ fixedCodes := by
    have : ∀ c ∈ seedCodes, (c, 32) ∈ fixedCodes := by decide
    exact fun c h => ⟨32, this c h⟩
  have krows : ∀ c ∈ fixedKeyCodes ++ rotatableKeyCodes, ∃ n, (c, n) ∈ fixedCodes := by
    intro c hc
    exact Prefixer.basic_rows c hc
  have val : ∀ c u, Signer.validateCode c = .ok u → c ∈ seedCodes := by
    intro c u hu
    unfold Signer.validateCode at hu
    split at hu
    · rename_i hc; simpa [Signer.codes, seedCodes] using hc
    · cases hu
  unfold Signer.new at h
  obtain ⟨m, hm, h⟩ := Res.bind_eq_ok.mp h
  obtain ⟨v, hv, h⟩ := Res.bind_eq_ok.mp h
  cases h
  constructor
  · dsimp only
    split at hm
    · dsimp only at hm
      obtain ⟨u, hu, hm⟩ := Res.bind_eq_ok.mp hm
      obtain ⟨r, -, hm⟩ := Res.bind_eq_ok.mp hm
      obtain ⟨n, hn⟩ := rows _ (val _ _ hu)
      rw [code_kept hn hm]
      exact val _ _ hu
    · obtain ⟨x, -, hm⟩ := Res.bind_eq_ok.mp hm
      obtain ⟨u, hu, hm⟩ := Res.bind_eq_ok.mp hm
      cases hm
      exact val _ _ hu
  · dsimp only
    unfold Signer.deriveVerfer at hv
    obtain ⟨vc, hvc, hv⟩ := Res.bind_eq_ok.mp hv
    obtain ⟨pk, -, hv⟩ := Res.bind_eq_ok.mp hv
    obtain ⟨x, hx, hv⟩ := Res.bind_eq_ok.mp hv
    obtain ⟨rfl, -⟩ := checked hv
    have hvc' : vc ∈ (if transferable.getD true then rotatableKeyCodes else fixedKeyCodes) := by
      unfold Signer.verferCode at hvc
      split at hvc
      · rename_i ht
        rw [if_pos ht]
        split at hvc
        · cases hvc; decide
        split at hvc
        · cases hvc; decide
        split at hvc
        · cases hvc; decide
        · cases hvc
      · rename_i ht
        rw [if_neg ht]
        split at hvc
        · cases hvc; decide
        split at hvc
        · cases hvc; decide
        split at hvc
        · cases hvc; decide
        · cases hvc
    obtain ⟨n, hn⟩ := krows vc (by
      split at hvc'
      · exact List.mem_append_right _ hvc'
      · exact List.mem_append_left _ hvc')
    rw [code_kept hn (by exact hx)]
    exact hvc'

/-- C44, partial: numbers made from a number, a hexadecimal text or raw bytes. Missing: numbers read from text or
binary, for which it is false, see `C44_false`. -/
theorem C44_number_partial (num : Option Nat) (numh code : Option Str) (raw qb64b : Option Bytes) (qb64 : Option Str) (qb2 : Option Bytes) (m : M)
    (h : Number.new num numh code raw qb64b qb64 qb2 = .ok m) (hr : raw.isSome ∨ qb64b = none ∧ qb64 = none ∧ qb2 = none) :
    m.code ∈ numberCodes := by
  have rows : ∀ c ∈ numberCodes, ∃ n, (c, n) ∈ fixedCodes := by
    have : ∀ c ∈ numberCodes, ∃ e ∈ fixedCodes, e.1 = c := by decide
    intro c hc
    obtain ⟨⟨a, n⟩, h1, rfl⟩ := this c hc
    exact ⟨n, h1⟩
  unfold Number.new at h
  split at h
  · obtain ⟨n, -, h⟩ := Res.bind_eq_ok.mp h
    unfold Number.ofNum at h
    have key : ∀ c ∈ numberCodes, ∀ r, newWithCodeAndRaw c r = .ok m → m.code ∈ numberCodes := by
      intro c hc r h
      obtain ⟨n, hn⟩ := rows c hc
      rw [code_kept (q := none) (s := none) (b := none) hn h]
      exact hc
    split at h
    · exact key _ (by decide) _ h
    split at h
    · exact key _ (by decide) _ h
    split at h
    · exact key _ (by decide) _ h
    · exact key _ (by decide) _ h
  · rename_i hn
    dsimp only at h
    obtain ⟨u, hu, h⟩ := Res.bind_eq_ok.mp h
    cases raw with
    | none =>
      rcases hr with hr | ⟨rfl, rfl, rfl⟩
      · cases hr
      · exact absurd (by simp) hn
    | some r =>
      have hc : code.getD (str% "M") ∈ numberCodes := by
        unfold Number.validateCode at hu
        split at hu
        · rename_i hc; simpa [Number.codex, numberCodes] using hc
        · cases hu
      obtain ⟨n, hn⟩ := rows _ hc
      rw [code_kept hn h]
      exact hc

/-- C44, partial: salts made from raw bytes or at random. Missing: salts read from text or binary, see `C44_false`. -/
theorem C44_salter_partial (S : Stretch) (rnd : Nat) (tier code : Option Str) (raw qb64b : Option Bytes) (qb64 : Option Str) (qb2 : Option Bytes)
    (s : Salter) (h : Salter.new S rnd tier code raw qb64b qb64 qb2 = .ok s) (hr : raw.isSome ∨ qb64b = none ∧ qb64 = none ∧ qb2 = none) :
    s.m.code = saltCode := by
  unfold Salter.new at h
  dsimp only at h
  obtain ⟨u, hu, h⟩ := Res.bind_eq_ok.mp h
  obtain ⟨m, hm, h⟩ := Res.bind_eq_ok.mp h
  cases h
  have hc : code.getD (str% "0A") = saltCode := by
    unfold Salter.validateCode at hu
    split at hu
    · assumption
    · cases hu
  have row : (saltCode, 16) ∈ fixedCodes := by decide
  rw [hc] at hm
  split at hm
  · exact code_kept row hm
  · rename_i hn
    cases raw with
    | none =>
      rcases hr with hr | ⟨rfl, rfl, rfl⟩
      · cases hr
      · exact absurd (by simp) hn
    | some r => exact code_kept row hm

/-- C44, partial: prefixes derived from an event or made from raw bytes. Missing: prefixes read from text or binary,
see `C44_false`. -/
theorem C44_prefixer_partial (H : Hash) (ked : Option Value) (allows : Option (List Str)) (code : Option Str) (raw qb64b : Option Bytes) (qb64 : Option Str)
    (qb2 : Option Bytes) (m : M) (h : Prefixer.new H ked allows code raw qb64b qb64 qb2 = .ok m) (hr : raw.isSome ∨ qb64b = none ∧ qb64 = none ∧ qb2 = none) :
    m.code ∈ fixedKeyCodes ++ rotatableKeyCodes ++ digests ∧
      (raw = none → ∀ a, allows = some a → a ≠ [] → m.code ∈ a) := by
  have val : ∀ c u, Prefixer.validateCode c = .ok u → c ∈ fixedKeyCodes ++ rotatableKeyCodes ++ digests := by
    intro c u hu
    unfold Prefixer.validateCode at hu
    split at hu
    · rename_i hc
      simp only [Bool.or_eq_true, List.contains_eq_mem, decide_eq_true_eq] at hc
      rw [List.mem_append, List.mem_append, Saider.mem_digests]
      exact hc
    · cases hu
  unfold Prefixer.new at h
  cases raw with
  | some r =>
    rw [if_pos (by simp)] at h
    obtain ⟨u, hu, h⟩ := Res.bind_eq_ok.mp h
    cases code with
    | none => simp [Matter.new] at h
    | some c =>
      obtain ⟨n, hn⟩ := Prefixer.validate_row hu
      rw [code_kept hn h]
      exact ⟨val _ _ hu, fun h => by cases h⟩
  | none =>
    rcases hr with hr | ⟨rfl, rfl, rfl⟩
    · cases hr
    · rw [if_neg (by simp)] at h
      cases ked with
      | none => cases h
      | some ked =>
        obtain ⟨c, -, h⟩ := Res.bind_eq_ok.mp h
        obtain ⟨u, hu, h⟩ := Res.bind_eq_ok.mp h
        dsimp only at h
        split at h
        · cases h
        · rename_i ha
          obtain ⟨p, hp, h⟩ := Res.bind_eq_ok.mp h
          rw [Prefixer.derive_code hp] at h
          obtain ⟨n, hn⟩ := Prefixer.validate_row hu
          rw [code_kept hn h]
          refine ⟨val _ _ hu, fun _ a e hne => ?_⟩
          subst e
          by_contra hx
          exact ha ⟨hne, by simpa using hx⟩

/-- C44 is false: a number, a salt and a prefix read from text hold whatever code the text has. A public key read as
a number has no value, and a signature is taken as an identifier prefix. -/
theorem C44_false (H : Hash) (S : Stretch) (rnd : Nat) (tier : Option Str) :
    (∃ s m, Number.newWithQb64 s = .ok m ∧ m.code ∉ numberCodes ∧ Number.num m = .err .unexpectedCode) ∧
    (∃ q s, Salter.new S rnd tier none none none (some q) none = .ok s ∧ s.m.code ≠ saltCode) ∧
    (∃ s m, Prefixer.newWithQb64 H s = .ok m ∧ m.code ∉ fixedKeyCodes ++ rotatableKeyCodes ++ digests) := by
  refine ⟨⟨str% "BAAAAAAAAAAAAAAAAAAAAAAAAAAAAAAAAAAAAAAAAAAA", ⟨str% "B", 0, List.replicate 32 0⟩, by decide +kernel, by decide, by decide⟩,
    ⟨str% "MAAA", ⟨⟨str% "M", 0, [0, 0]⟩, tier.getD (str% "low")⟩, ?_, show (str% "M" : Str) ≠ saltCode by decide⟩, ⟨str% "MAAA", ⟨str% "M", 0, [0, 0]⟩, ?_, by decide⟩⟩
  · have : Matter.new (some (str% "0A")) none none (some (str% "MAAA")) none = .ok ⟨str% "M", 0, [0, 0]⟩ := by decide +kernel
    unfold Salter.new
    dsimp only [Option.getD_none]
    rw [show Salter.validateCode (str% "0A") = .ok () from rfl, Res.ok_bind, if_neg (by simp), this]
    rfl
  · have : Matter.new none none none (some (str% "MAAA")) none = .ok ⟨str% "M", 0, [0, 0]⟩ := by decide +kernel
    unfold Prefixer.newWithQb64 Prefixer.new
    rw [if_pos (by simp), show Prefixer.validateCode (Option.getD none (str% "B")) = .ok () from rfl, Res.ok_bind, this]

/-- Constructors with a result, so that the hypotheses above are met, and ones refused for their code. -/
example : (∃ m, Verfer.newWithQb64 (str% "DAAAAAAAAAAAAAAAAAAAAAAAAAAAAAAAAAAAAAAAAAAA") = .ok m) ∧
    (Verfer.newWithQb64 (str% "EAAAAAAAAAAAAAAAAAAAAAAAAAAAAAAAAAAAAAAAAAAA")).isErr = true ∧
    (∃ m, Diger.newWithQb64 exHash (str% "EAAAAAAAAAAAAAAAAAAAAAAAAAAAAAAAAAAAAAAAAAAA") = .ok m) ∧
    (∃ m, Seqner.newWithSn 5 = .ok m) ∧ (∃ m, Bexter.newWithBext (str% "abc") = .ok m) ∧ (∃ m, Number.newWithNum 5 = .ok m) := by
  refine ⟨⟨⟨str% "D", 0, List.replicate 32 0⟩, by decide +kernel⟩, by decide +kernel, ⟨⟨str% "E", 0, List.replicate 32 0⟩, by decide +kernel⟩,
    ⟨⟨str% "0A", 0, beBytes 16 5⟩, by decide +kernel⟩, ?_, ⟨⟨str% "M", 0, [0, 5]⟩, by decide +kernel⟩⟩
  have : (Bexter.newWithBext (str% "abc")).isOk = true := by decide +kernel
  cases h : Bexter.newWithBext (str% "abc") with
  | ok m => exact ⟨m, rfl⟩
  | err e => rw [h] at this; cases this
  | panic => rw [h] at this; cases this

end Keride.Props
