/-
C54 for the sample: receipts made by the sample (kmi/message.rs) are those of the library (receipting.rs).
-/
import Verif.Props.Messaging
import Verif.Model.Sample.Issue

namespace Keride.Props

open Spec Messaging

/-- C54: whatever is asked for, the sample and the library answer with the same receipt, or refuse for the same reason. -/
theorem C54_same (E : Sample.Env) (pre said : Str) (sn : Nat) (version : Option Version) (kind : Option Str) :
    Sample.kmiReceipt E pre sn said version kind = receipt E.fl pre sn said version kind := rfl

/-- C54: a receipt of the sample names exactly the identifier, the sequence number and the digest given, and is read
back from its bytes, whatever text follows. For sequence numbers of 128 bits, Blake3-256 digests and receipts under
16 MiB. -/
theorem C54_sample (E : Sample.Env) (pre said : Str) (sn : Nat) (hsn : sn < 2 ^ 128) (m : Matter.M)
    (hm : Matter.newWithQb64 said = .ok m) (hc : m.code = str% "E")
    (hl : (toUtf8 (Value.obj (receiptDoc pre said sn 0)).toJson).length < 2 ^ 24) :
    ∃ s, Sample.kmiReceipt E pre sn said none none = .ok s ∧ s.saider = m ∧ Serder.pre s = .ok pre ∧
      Serder.sn s = .ok sn ∧ Serder.est s = .ok false ∧ s.ked = .obj (receiptDoc pre said sn s.raw.length) ∧
      s.raw = toUtf8 s.ked.toJson ∧ ∀ rest, Serder.newWithRaw E.fl (s.raw ++ toUtf8 rest) = .ok s := by
  simpa only [C54_same] using C54_receipt E.fl pre said sn hsn m hm hc hl

/-- C54: the sample refuses to receipt an event whose digest is of another kind than Blake3-256, or is not a digest. -/
theorem C54_sample_reject (E : Sample.Env) (pre said : Str) (sn : Nat)
    (h : ∀ m, Matter.newWithQb64 said = .ok m → m.code ≠ str% "E") (version : Option Version) (kind : Option Str) :
    (Sample.kmiReceipt E pre sn said version kind).isOk = false := by
  rw [C54_same]
  exact C54_reject E.fl pre said sn h version kind

theorem hexFixed_one_inj {a b : Nat} (ha : a < 16) (hb : b < 16) (h : hexFixed 1 a = hexFixed 1 b) : a = b := by
  have : ∀ i : Fin 16, ∀ j : Fin 16, hexFixed 1 i = hexFixed 1 j → i = j := by decide +kernel
  exact congrArg Fin.val (this ⟨a, ha⟩ ⟨b, hb⟩ h)

/-- C54: receipts of another kind than JSON, or of another version than the current one, are refused and never written as
something else than was asked for. -/
theorem C54_kind (fl : Str → Option Str) (pre said : Str) (sn : Nat) (version : Option Version) (kind : Option Str)
    (s : Sad) (h : receipt fl pre sn said version kind = .ok s) :
    (kind = none ∨ kind = some (str% "JSON")) ∧ (version = none ∨ version = some ⟨1, 0⟩) ∧ s.kind = str% "JSON" ∧ s.version = ⟨1, 0⟩ ∧ s.ident = str% "KERI" := by
  unfold receipt at h
  obtain ⟨vs, hv, h⟩ := Res.bind_eq_ok.mp h
  obtain ⟨n, -, h⟩ := Res.bind_eq_ok.mp h
  obtain ⟨t, -, h⟩ := Res.bind_eq_ok.mp h
  obtain ⟨h, -⟩ := serder_ked.mp h
  obtain ⟨o, ident, size, p, q, d, e, -, hz, -, -, -, hs, -⟩ := populateFromKed_ok h
  obtain ⟨hi, -, hf, -⟩ := hz
  injection e with e
  subst e
  have hvs : vs = versionText ident currentVersion (str% "JSON") size := by
    simpa [Value.find] using hf
  have hk : kind.getD (str% "JSON") ∈ serials := by
    by_contra hk
    unfold versify at hv
    simp [hk, idents] at hv
  have hk' := serial_json hk
  have hI : (str% "KERI") ∈ idents := by decide
  have hv' : versify (some (str% "KERI")) (some (version.getD currentVersion)) (some (kind.getD (str% "JSON"))) (some 0) = .ok vs := hv
  have hi4 := (idents_upper ident hi).1
  have hl : vs.length = 17 := by rw [hvs]; exact versionText_len _ _ _ _ hi4 rfl
  have hfit : VersionFits (version.getD currentVersion) 0 := by
    by_contra hn
    have := versify_long hI hk hn hv'
    omega
  have ht := Res.ok.inj ((versify_text hI hk hfit).symm.trans hv')
  rw [hk', hvs] at ht
  have a := versionText_parts (ident := str% "KERI") (kind := str% "JSON") rfl rfl (version.getD currentVersion) 0 []
  have b := versionText_parts (kind := str% "JSON") hi4 rfl currentVersion size []
  rw [ht] at a
  have h1 : ident = str% "KERI" := b.1.symm.trans a.1
  have h2 := b.2.2.1.symm.trans a.2.2.1
  have h3 := b.2.2.2.1.symm.trans a.2.2.2.1
  refine ⟨?_, ?_, ?_, ?_, ?_⟩
  · cases kind with
    | none => exact .inl rfl
    | some k => exact .inr (congrArg some hk')
  · cases version with
    | none => exact .inl rfl
    | some v =>
      obtain ⟨ma, mi⟩ := v
      obtain ⟨f1, f2, -⟩ := hfit
      simp only [Option.getD_some] at f1 f2 h2 h3
      have e1 : 1 = ma := hexFixed_one_inj (by decide) f1 h2
      have e2 : 0 = mi := hexFixed_one_inj (by decide) f2 h3
      rw [← e1, ← e2]
      exact .inr rfl
  · rw [hs]
  · rw [hs]; rfl
  · rw [hs]; exact h1

/-- A concrete receipt. -/
example (E : Sample.Env) : ∃ s, Sample.kmiReceipt E exD1 31 exD0 none none = .ok s ∧ Serder.sn s = .ok 31 := by
  obtain ⟨s, h1, -, -, h4, -⟩ := C54_sample E exD1 exD0 31 (by decide) _ exD0_ok rfl (by decide +kernel)
  exact ⟨s, h1, h4⟩

example (E : Sample.Env) :
    (Sample.kmiReceipt E exD1 0 (str% "HAAAAAAAAAAAAAAAAAAAAAAAAAAAAAAAAAAAAAAAAAAA") none none).isOk = false := by
  have hm : Matter.newWithQb64 (str% "HAAAAAAAAAAAAAAAAAAAAAAAAAAAAAAAAAAAAAAAAAAA") = .ok ⟨str% "H", 0, List.replicate 32 0⟩ := by decide +kernel
  refine C54_sample_reject E _ _ _ (fun m h => ?_) _ _
  rw [hm] at h
  cases h
  decide

end Keride.Props
