/-
C42: signatures (signing/signer.rs, verfer.rs, cigar.rs, siger.rs). `C` stands for the signature crates.
-/
import Verif.Lemmas.Signing
import Verif.Spec.Crypto
import Verif.Props.Indexer

namespace Keride.Props

open Spec Matter

/-- What a constructed signer is: a 32-byte seed and its public key. -/
structure GoodSigner (C : Crypto) (tr : Bool) (s : Signer) : Prop where
  size : s.m.raw.length = 32
  key : ∃ suite vt vn pk, (s.m.code, suite, vt, vn) ∈ seedSuite ∧ C.publicKey suite s.m.raw = .ok pk ∧
    s.verfer = ⟨if tr then vt else vn, 0, pk⟩

theorem seed_codes {c : Str} : Signer.validateCode c = .ok () ↔ c = str% "A" ∨ c = str% "J" ∨ c = str% "Q" := by
  unfold Signer.validateCode Signer.codes
  split
  · rename_i h; simpa using h
  · rename_i h
    constructor
    · intro h'; cases h'
    · intro h'; exact absurd (by simpa using h') h

theorem verfer_raw {c : Str} {n : Nat} {raw : Bytes} (hc : c ∈ Verfer.codes) (hn : (c, n) ∈ fixedCodes) (hl : raw.length = n) :
    Verfer.new (some c) (some raw) none none none = .ok ⟨c, 0, raw⟩ := by
  unfold Verfer.new
  have e : Matter.new (some ((some c).getD (str% "B"))) (some raw) none none none = .ok ⟨c, 0, raw⟩ := by
    change newWithCodeAndRaw c raw = _
    rw [new_fixed hn, if_neg (by omega), List.take_of_length_le (by omega)]
  rw [e, Res.ok_bind]
  unfold Verfer.validateCode
  rw [if_pos (by simpa using hc)]
  rfl

/-- C42: the signer a constructor returns holds the seed and its public key, with the code for the requested kind of
key (transferable by default). Texts without `=`. -/
theorem C42_signer (C : Crypto) (hC : CryptoOk C) (rnd : Nat) (tr : Option Bool) (code : Option Str) (raw qb64b : Option Bytes) (qb64 : Option Str)
    (qb2 : Option Bytes) (s : Signer) (h : Signer.new C rnd tr code raw qb64b qb64 qb2 = .ok s)
    (hs : ∀ s, qb64 = some s → '=' ∉ s) (hb : ∀ b, qb64b = some b → (61 : UInt8) ∉ b) : GoodSigner C (tr.getD true) s := by
  unfold Signer.new at h
  obtain ⟨m, hm, h⟩ := Res.bind_eq_ok.mp h
  obtain ⟨v, hv, h⟩ := Res.bind_eq_ok.mp h
  cases h
  have hcode : (m.code = str% "A" ∨ m.code = str% "J" ∨ m.code = str% "Q") ∧ m.raw.length = 32 := by
    have row : ∀ c, c = str% "A" ∨ c = str% "J" ∨ c = str% "Q" → (c, 32) ∈ fixedCodes := by
      rintro c (rfl | rfl | rfl) <;> decide
    split at hm
    · obtain ⟨u, h1, hm⟩ := Res.bind_eq_ok.mp hm
      have hc := seed_codes.mp h1
      obtain ⟨r, -, hm⟩ := Res.bind_eq_ok.mp hm
      change newWithCodeAndRaw _ _ = _ at hm
      rw [new_fixed (row _ hc)] at hm
      split at hm
      · cases hm
      · cases hm
        refine ⟨hc, ?_⟩
        dsimp only
        rw [List.length_take]
        omega
    · obtain ⟨m', h1, hm⟩ := Res.bind_eq_ok.mp hm
      obtain ⟨u, h2, hm⟩ := Res.bind_eq_ok.mp hm
      cases hm
      have hc := seed_codes.mp h2
      exact ⟨hc, (new_any_fixed h1 (row _ hc) hs hb).2⟩
  obtain ⟨hc, hl⟩ := hcode
  refine ⟨hl, ?_⟩
  unfold Signer.deriveVerfer at hv
  obtain ⟨vc, hvc, hv2⟩ := Res.bind_eq_ok.mp hv
  obtain ⟨pk, hpk, hv3⟩ := Res.bind_eq_ok.mp hv2
  clear hv hv2 hm
  unfold signPublicKey at hpk
  obtain ⟨c, z, r⟩ := m
  dsimp only at *
  have key := hC.key
  rcases hc with rfl | rfl | rfl
  · have hpk' : C.publicKey .ed25519 r = .ok pk := hpk
    refine ⟨.ed25519, str% "D", str% "B", pk, by decide, hpk', ?_⟩
    have hlen := key _ _ _ hl hpk'
    cases ht : tr.getD true <;> rw [ht] at hvc <;> cases hvc
    · rw [verfer_raw (by decide) (by decide) hlen] at hv3; cases hv3; rfl
    · rw [verfer_raw (by decide) (by decide) hlen] at hv3; cases hv3; rfl
  · have hpk' : C.publicKey .k1 r = .ok pk := hpk
    refine ⟨.k1, str% "1AAB", str% "1AAA", pk, by decide, hpk', ?_⟩
    have hlen := key _ _ _ hl hpk'
    cases ht : tr.getD true <;> rw [ht] at hvc <;> cases hvc
    · rw [verfer_raw (by decide) (by decide) hlen] at hv3; cases hv3; rfl
    · rw [verfer_raw (by decide) (by decide) hlen] at hv3; cases hv3; rfl
  · have hpk' : C.publicKey .r1 r = .ok pk := hpk
    refine ⟨.r1, str% "1AAJ", str% "1AAI", pk, by decide, hpk', ?_⟩
    have hlen := key _ _ _ hl hpk'
    cases ht : tr.getD true <;> rw [ht] at hvc <;> cases hvc
    · rw [verfer_raw (by decide) (by decide) hlen] at hv3; cases hv3; rfl
    · rw [verfer_raw (by decide) (by decide) hlen] at hv3; cases hv3; rfl

/-- The signature of a good signer. -/
theorem good_sign {C : Crypto} (hC : CryptoOk C) {tr : Bool} {s : Signer} (hs : GoodSigner C tr s) (rnd : Nat) (ser : Bytes) :
    ∃ sig, signSign C rnd s.m.code s.m.raw ser = .ok sig ∧ sig.length = 64 ∧ Verfer.verify C s.verfer sig ser = .ok true := by
  obtain ⟨suite, vt, vn, pk, hmem, hpk, hv⟩ := hs.key
  obtain ⟨sig, h1, h2, h3⟩ := hC.sign suite rnd s.m.raw ser pk hs.size hpk
  refine ⟨sig, ?_, h2, ?_⟩
  · unfold signSign
    have : suiteOf s.m.code = some suite := by
      have key : ∀ e ∈ seedSuite, suiteOf e.1 = some e.2.1 := by decide
      exact key _ hmem
    rw [this]
    exact h1
  · unfold Verfer.verify signVerify
    rw [hv]
    have key : ∀ e ∈ seedSuite, ∀ tr : Bool, Verfer.validateCode (if tr then e.2.2.1 else e.2.2.2) = .ok () ∧
        suiteOf (if tr then e.2.2.1 else e.2.2.2) = some e.2.1 := by decide
    obtain ⟨k1, k2⟩ := key _ hmem tr
    dsimp only at k1 k2 ⊢
    rw [k1, Res.ok_bind, k2]
    exact h3

theorem seed_cases {C : Crypto} {tr : Bool} {s : Signer} (hs : GoodSigner C tr s) :
    s.m.code = str% "A" ∨ s.m.code = str% "J" ∨ s.m.code = str% "Q" := by
  obtain ⟨suite, vt, vn, pk, hmem, -⟩ := hs.key
  have key : ∀ e ∈ seedSuite, e.1 = str% "A" ∨ e.1 = str% "J" ∨ e.1 = str% "Q" := by decide
  exact key _ hmem

/-- The signature code of a seed code: Ed25519, ECDSA secp256k1, ECDSA secp256r1. -/
def signatureCodes : List (Str × Str) := [(str% "A", str% "0B"), (str% "J", str% "0C"), (str% "Q", str% "0I")]

/-- C42: an unindexed signature has the code of the suite and carries the signer's key, which accepts it. -/
theorem C42_unindexed (C : Crypto) (hC : CryptoOk C) (tr : Bool) (s : Signer) (hs : GoodSigner C tr s) (rnd : Nat) (ser : Bytes) :
    ∃ cig, Signer.signUnindexed C rnd s ser = .ok cig ∧ (s.m.code, cig.m.code) ∈ signatureCodes ∧ cig.verfer = s.verfer ∧
      cig.m.raw.length = 64 ∧ Verfer.verify C cig.verfer cig.m.raw ser = .ok true := by
  obtain ⟨sig, h1, h2, h3⟩ := good_sign hC hs rnd ser
  have hcode : ∃ c, Signer.sigCode s.m.code = .ok c ∧ (c, 64) ∈ fixedCodes ∧ c ∈ Cigar.codes ∧
      (s.m.code, c) ∈ signatureCodes := by
    rcases seed_cases hs with h | h | h <;> rw [h]
    exacts [⟨_, rfl, by decide, by decide, by decide⟩, ⟨_, rfl, by decide, by decide, by decide⟩, ⟨_, rfl, by decide, by decide, by decide⟩]
  obtain ⟨c, e1, e2, e3, e4⟩ := hcode
  refine ⟨⟨⟨c, 0, sig⟩, s.verfer⟩, ?_, e4, rfl, h2, h3⟩
  unfold Signer.signUnindexed
  rw [e1, Res.ok_bind, h1, Res.ok_bind]
  unfold Cigar.new
  have e : Matter.new (some c) (some sig) none none none = .ok ⟨c, 0, sig⟩ := by
    change newWithCodeAndRaw c sig = _
    rw [new_fixed e2, if_neg (by omega), List.take_of_length_le (by omega)]
  rw [e, Res.ok_bind]
  unfold Cigar.validateCode
  rw [if_pos (by simpa using e3)]
  rfl

/-- The code `sign_indexed` picks. -/
theorem indexed_code {c : Str} (hc : c = str% "A" ∨ c = str% "J" ∨ c = str% "Q") (only : Bool) (index : Nat) (ondex : Option Nat) :
    ∃ e ∈ sigCodes, e.code ∈ Siger.codes ∧ e.bytes = 64 ∧ e.currentOnly = only ∧
      Signer.indexedCode c only index ondex = .ok (e.code, if only then none else some (ondex.getD index)) ∧
      (e.indexChars = 1 ∧ e.ondexChars = 0 ∧ index < 64 ∧ (only = false → ondex.getD index = index) ∨
        e.indexChars = 2 ∧ e.ondexChars = 2) := by
  unfold Signer.indexedCode
  cases only with
  | true =>
    rw [if_pos rfl, if_pos rfl]
    by_cases h : index < 64
    · rw [if_pos h]
      rcases hc with rfl | rfl | rfl
      · exact ⟨⟨str% "B", 1, 0, true, 64⟩, by decide, by decide, rfl, rfl, rfl, .inl ⟨rfl, rfl, h, by simp⟩⟩
      · exact ⟨⟨str% "D", 1, 0, true, 64⟩, by decide, by decide, rfl, rfl, rfl, .inl ⟨rfl, rfl, h, by simp⟩⟩
      · exact ⟨⟨str% "F", 1, 0, true, 64⟩, by decide, by decide, rfl, rfl, rfl, .inl ⟨rfl, rfl, h, by simp⟩⟩
    · rw [if_neg h]
      rcases hc with rfl | rfl | rfl
      · exact ⟨⟨str% "2B", 2, 2, true, 64⟩, by decide, by decide, rfl, rfl, rfl, .inr ⟨rfl, rfl⟩⟩
      · exact ⟨⟨str% "2D", 2, 2, true, 64⟩, by decide, by decide, rfl, rfl, rfl, .inr ⟨rfl, rfl⟩⟩
      · exact ⟨⟨str% "2F", 2, 2, true, 64⟩, by decide, by decide, rfl, rfl, rfl, .inr ⟨rfl, rfl⟩⟩
  | false =>
    rw [if_neg (by decide), if_neg (by decide)]
    dsimp only
    by_cases h : index = ondex.getD index ∧ index < 64
    · rw [if_pos h]
      rcases hc with rfl | rfl | rfl
      · exact ⟨⟨str% "A", 1, 0, false, 64⟩, by decide, by decide, rfl, rfl, rfl, .inl ⟨rfl, rfl, h.2, fun _ => h.1.symm⟩⟩
      · exact ⟨⟨str% "C", 1, 0, false, 64⟩, by decide, by decide, rfl, rfl, rfl, .inl ⟨rfl, rfl, h.2, fun _ => h.1.symm⟩⟩
      · exact ⟨⟨str% "E", 1, 0, false, 64⟩, by decide, by decide, rfl, rfl, rfl, .inl ⟨rfl, rfl, h.2, fun _ => h.1.symm⟩⟩
    · rw [if_neg h]
      rcases hc with rfl | rfl | rfl
      · exact ⟨⟨str% "2A", 2, 2, false, 64⟩, by decide, by decide, rfl, rfl, rfl, .inr ⟨rfl, rfl⟩⟩
      · exact ⟨⟨str% "2C", 2, 2, false, 64⟩, by decide, by decide, rfl, rfl, rfl, .inr ⟨rfl, rfl⟩⟩
      · exact ⟨⟨str% "2E", 2, 2, false, 64⟩, by decide, by decide, rfl, rfl, rfl, .inr ⟨rfl, rfl⟩⟩

/-- C42: an indexed signature carries the signer's key, which accepts it, and its text, read back, has the index and
ondex asked for (a signature for the current list only has no ondex), for all indices below 4096. -/
theorem C42_indexed (C : Crypto) (hC : CryptoOk C) (chk : Bool) (tr : Bool) (s : Signer) (hs : GoodSigner C tr s) (rnd : Nat) (ser : Bytes)
    (only : Bool) (index : Nat) (ondex : Option Nat) (hi : index < 4096) (ho : only = true ∨ ondex.getD index < 4096) :
    ∃ sg, Signer.signIndexed C chk rnd s ser only index ondex = .ok sg ∧ sg.verfer = s.verfer ∧ sg.i.raw.length = 64 ∧
      Verfer.verify C sg.verfer sg.i.raw ser = .ok true ∧ sg.i.index = index ∧ sg.i.ondex = (if only then 0 else ondex.getD index) ∧
      ∃ t, Indexer.qb64 chk sg.i = .ok t ∧ ∀ chk', Siger.newWithQb64 chk' t (some s.verfer) = .ok sg := by
  obtain ⟨sig, h1, h2, h3⟩ := good_sign hC hs rnd ser
  obtain ⟨e, he, hcodes, hbytes, honly, hcode, hcase⟩ := indexed_code (seed_cases hs) only index ondex
  have hond : e.ondexOf index (if only then none else some (ondex.getD index)) = (if only then 0 else ondex.getD index) := by
    unfold SigCode.ondexOf
    rw [honly]
    cases only <;> rfl
  have hnew : Indexer.newWithCodeAndRaw e.code sig index (if only then none else some (ondex.getD index)) =
      .ok ⟨e.code, sig, index, if only then 0 else ondex.getD index⟩ := by
    refine (sig_new he).mpr ⟨?_, ?_, ?_, by omega, ?_⟩
    · rcases hcase with ⟨h, -, h', -⟩ | ⟨h, -⟩
      · rw [h]; omega
      · rw [h]; omega
    · intro hpos o hmem
      rcases hcase with ⟨-, h, -⟩ | ⟨-, h⟩
      · omega
      · rw [h]
        cases only with
        | true => cases hmem
        | false =>
          rcases ho with ho | ho
          · cases ho
          · have : o = ondex.getD index := by simpa using hmem.symm
            omega
    · intro h
      rw [honly] at h
      rw [if_pos h]
    · rw [hond, hbytes, List.take_of_length_le (by omega)]
  have hsig : ∀ m : Indexer.I, m.code = e.code → Siger.validateCode m.code = .ok () := by
    intro m hm
    unfold Siger.validateCode
    rw [hm, if_pos (by simpa using hcodes)]
  refine ⟨⟨⟨e.code, sig, index, if only then 0 else ondex.getD index⟩, s.verfer⟩, ?_, rfl, h2, h3, rfl, rfl, ?_⟩
  · unfold Signer.signIndexed
    rw [hcode, Res.ok_bind, h1, Res.ok_bind]
    unfold Siger.new
    have e1 : Indexer.new chk (some index) (e.code, if only then none else some (ondex.getD index)).2
        (some (e.code, if only then (none : Option Nat) else some (ondex.getD index)).1) (some sig) none none none =
        .ok ⟨e.code, sig, index, if only then 0 else ondex.getD index⟩ := hnew
    rw [e1, Res.ok_bind, hsig _ rfl]
    rfl
  · obtain ⟨-, t, ht, -, -, -, hback⟩ := C16_roundtrip_partial chk e he sig index _ (by
      cases only with
      | true => exact .inl rfl
      | false =>
        rcases hcase with ⟨-, -, -, h⟩ | ⟨-, h⟩
        · exact .inr (.inr (by rw [if_neg (by decide), h rfl]))
        · exact .inr (.inl (by omega))) _ hnew
    refine ⟨t, ht, fun chk' => ?_⟩
    unfold Siger.newWithQb64 Siger.new
    have e1 : Indexer.new chk' none none none none none (some t) none = .ok ⟨e.code, sig, index, if only then 0 else ondex.getD index⟩ := (hback chk').1
    rw [e1, Res.ok_bind, hsig _ rfl]
    rfl

/-- C42: larger indices are an error, never a signature with another index. -/
theorem C42_limits (C : Crypto) (hC : CryptoOk C) (chk : Bool) (tr : Bool) (s : Signer) (hs : GoodSigner C tr s) (rnd : Nat) (ser : Bytes)
    (only : Bool) (index : Nat) (ondex : Option Nat) (h : 4096 ≤ index ∨ (only = false ∧ 4096 ≤ ondex.getD index)) :
    (Signer.signIndexed C chk rnd s ser only index ondex).isErr = true := by
  obtain ⟨sig, h1, h2, h3⟩ := good_sign hC hs rnd ser
  obtain ⟨e, he, hcodes, hbytes, honly, hcode, hcase⟩ := indexed_code (seed_cases hs) only index ondex
  unfold Signer.signIndexed
  rw [hcode, Res.ok_bind, h1, Res.ok_bind]
  unfold Siger.new
  have e1 : Indexer.new chk (some index) (e.code, if only then none else some (ondex.getD index)).2
      (some (e.code, if only then (none : Option Nat) else some (ondex.getD index)).1) (some sig) none none none =
      Indexer.newWithCodeAndRaw e.code sig index (if only then none else some (ondex.getD index)) := rfl
  rw [e1]
  cases hn : Indexer.newWithCodeAndRaw e.code sig index (if only then none else some (ondex.getD index)) with
  | err x => rfl
  | panic => exact absurd hn (C18_bounds_partial e he sig (by omega) index _).2.2
  | ok m =>
    exfalso
    obtain ⟨g1, g2, -⟩ := (sig_new he).mp hn
    rcases hcase with ⟨a, b, c, d⟩ | ⟨a, b⟩
    · rcases h with h | ⟨h, h'⟩
      · omega
      · have := d h; omega
    · rw [a] at g1
      rcases h with h | ⟨rfl, h'⟩
      · omega
      · have := g2 (by omega) (ondex.getD index) (by simp)
        rw [b] at this
        omega

/-- A stand-in for the crates: the key is the seed (with a zero byte in front for ECDSA), signatures are constant. -/
def exCrypto : Crypto where
  generate _ _ := List.replicate 32 1
  publicKey s sk := .ok (if s = .ed25519 then sk else 0 :: sk)
  sign _ _ _ _ := .ok (List.replicate 64 2)
  verify _ _ sig _ := .ok (decide (sig.length = 64))

theorem exCrypto_ok : CryptoOk exCrypto where
  key s sk pk h h1 := by
    cases h1
    split <;> simp [h]
  sign s rnd sk ser pk _ _ := ⟨_, rfl, rfl, rfl⟩

example : ∃ s, Signer.new exCrypto 0 (some false) (some (str% "J")) none none none none = .ok s ∧ s.verfer.code = str% "1AAA" ∧
    ∃ sg, Signer.signIndexed exCrypto true 0 s [1] false 70 (some 3) = .ok sg ∧ sg.i.code = str% "2C" ∧ sg.i.ondex = 3 :=
  ⟨⟨⟨str% "J", 0, List.replicate 32 1⟩, ⟨str% "1AAA", 0, 0 :: List.replicate 32 1⟩⟩, by decide +kernel, rfl,
    ⟨⟨str% "2C", List.replicate 64 2, 70, 3⟩, ⟨str% "1AAA", 0, 0 :: List.replicate 32 1⟩⟩, by decide +kernel, rfl, rfl⟩

end Keride.Props
