/-
C103: random keys (src/signify/creating.rs).
-/
import Verif.Model.Randy
import Verif.Props.Signer
import Verif.Lemmas.World

namespace Keride.Props

open Spec Matter

/-- What is needed of the generation of keys by the signature crates: a seed of 32 bytes that has a public key. -/
def Generates (C : Crypto) : Prop := ∀ s r, (C.generate s r).length = 32 ∧ ∃ pk, C.publicKey s (C.generate s r) = .ok pk

/-- The codes of the keys that are asked for. -/
def askedCodes (codes : Option (List Str)) (count : Option Nat) (code : Option Str) : List Str :=
  match codes with
  | some (c :: l) => c :: l
  | _ => List.replicate (count.getD 1) (code.getD (str% "A"))

theorem asked_eq (codes : Option (List Str)) (count : Option Nat) (code : Option Str) :
    (if codes.getD [] = [] then List.replicate (count.getD 1) (code.getD (str% "A")) else codes.getD []) = askedCodes codes count code := by
  unfold askedCodes
  rcases codes with _ | _ | ⟨c, l⟩ <;> simp

theorem random_signer {C : Crypto} (hC : CryptoOk C) (hG : Generates C) {c : Str} {suite : Suite} {vt vn : Str} (hc : (c, suite, vt, vn) ∈ seedSuite) (rnd : Nat) (tr : Bool) :
    ∃ s, Signer.new C rnd (some tr) (some c) none none none none = .ok s ∧ s.m = ⟨c, 0, C.generate suite rnd⟩ ∧ GoodSigner C tr s := by
  have hex : ∃ s, Signer.new C rnd (some tr) (some c) none none none none = .ok s ∧ s.m = ⟨c, 0, C.generate suite rnd⟩ := by
    have key : ∀ e ∈ seedSuite, Signer.validateCode e.1 = .ok () ∧ suiteOf e.1 = some e.2.1 ∧ (e.1, 32) ∈ fixedCodes ∧ ∀ tr : Bool,
        Signer.verferCode e.1 tr = .ok (if tr then e.2.2.1 else e.2.2.2) ∧ (if tr then e.2.2.1 else e.2.2.2) ∈ Verfer.codes ∧
        ((if tr then e.2.2.1 else e.2.2.2), if e.2.1 = .ed25519 then 32 else 33) ∈ fixedCodes := by decide
    obtain ⟨k1, k2, k3, k4⟩ := key _ hc
    obtain ⟨k5, k6, k7⟩ := k4 tr
    dsimp only at k1 k2 k3 k5 k6 k7
    obtain ⟨hl, pk, hpk⟩ := hG suite rnd
    have hlen := hC.key _ _ _ hl hpk
    refine ⟨⟨⟨c, 0, C.generate suite rnd⟩, ⟨if tr then vt else vn, 0, pk⟩⟩, ?_, rfl⟩
    unfold Signer.new
    dsimp only [Option.getD_some]
    rw [if_pos (by simp), k1, Res.ok_bind]
    unfold signGenerate
    rw [k2]
    simp only [Res.ofOption, Res.ok_bind]
    have e : Matter.new (some c) (some (C.generate suite rnd)) none none none = .ok ⟨c, 0, C.generate suite rnd⟩ := by
      change newWithCodeAndRaw c _ = _
      rw [new_fixed k3, if_neg (by omega), List.take_of_length_le (by omega)]
    rw [e, Res.ok_bind]
    unfold Signer.deriveVerfer signPublicKey
    dsimp only
    rw [k5, Res.ok_bind, k2]
    simp only [Res.ofOption, Res.ok_bind]
    rw [hpk, Res.ok_bind, verfer_raw k6 k7 hlen, Res.ok_bind]
  obtain ⟨s, h1, h2⟩ := hex
  exact ⟨s, h1, h2, C42_signer C hC rnd (some tr) (some c) none none none none s h1 (fun _ h => by cases h) (fun _ h => by cases h)⟩

theorem random_other {C : Crypto} {c : Str} (hc : c ∉ seedSuite.map Prod.fst) (rnd : Nat) (tr : Bool) :
    Res.unwrap (Signer.new C rnd (some tr) (some c) none none none none) = .panic := by
  have : Signer.validateCode c = .err .unexpectedCode := by
    unfold Signer.validateCode
    rw [if_neg]
    simpa [Signer.codes, seedSuite] using hc
  unfold Signer.new
  dsimp only [Option.getD_some]
  rw [if_pos (by simp), this]
  rfl

/-- C103: random keys are as many as codes are given, or as `count` says, with the codes in order. Each is a seed of its own draw, with the public key
of the requested kind, so that its signatures verify (C42). -/
theorem C103_create (C : Crypto) (hC : CryptoOk C) (hG : Generates C) (rnd : Nat → Nat) (codes : Option (List Str)) (count : Option Nat) (code : Option Str) (tr : Option Bool)
    (hs : ∀ c ∈ askedCodes codes count code, c ∈ seedSuite.map Prod.fst) :
    ∃ l, RandyCreator.create C rnd codes count code tr = .ok l ∧ l.map (fun s => s.m.code) = askedCodes codes count code ∧
      (∀ s ∈ l, GoodSigner C (tr.getD true) s) ∧
      ∀ i s, l[i]? = some s → ∃ suite vt vn, (s.m.code, suite, vt, vn) ∈ seedSuite ∧ s.m.raw = C.generate suite (rnd i) := by
  unfold RandyCreator.create
  dsimp only
  rw [asked_eq]
  generalize askedCodes codes count code = cs at hs ⊢
  have key : ∀ (cs : List Str) (k : Nat), (∀ c ∈ cs, c ∈ seedSuite.map Prod.fst) →
      ∃ l, Res.mapList (fun e : Str × Nat => Res.unwrap (Signer.new C (rnd e.2) (some (tr.getD true)) (some e.1) none none none none)) (cs.zipIdx k) = .ok l ∧
        l.map (fun s => s.m.code) = cs ∧ (∀ s ∈ l, GoodSigner C (tr.getD true) s) ∧
        ∀ i s, l[i]? = some s → ∃ suite vt vn, (s.m.code, suite, vt, vn) ∈ seedSuite ∧ s.m.raw = C.generate suite (rnd (k + i)) := by
    intro cs
    induction cs with
    | nil => exact fun k _ => ⟨[], by rw [List.zipIdx_nil, Res.mapList], rfl, (fun s h => by cases h), (fun i s h => by cases h)⟩
    | cons c cs ih =>
      intro k hs
      obtain ⟨⟨c', suite, vt, vn⟩, hc, rfl⟩ := List.mem_map.mp (hs c (by simp))
      obtain ⟨s, h1, h2, h3⟩ := random_signer hC hG hc (rnd k) (tr.getD true)
      obtain ⟨l, k1, k2, k3, k4⟩ := ih (k + 1) fun x hx => hs x (by simp [hx])
      refine ⟨s :: l, ?_, ?_, ?_, ?_⟩
      · rw [List.zipIdx_cons, Res.mapList]
        dsimp only
        rw [h1, k1]
        rfl
      · rw [List.map_cons, k2, h2]
      · intro x hx
        rcases List.mem_cons.mp hx with rfl | hx
        · exact h3
        · exact k3 x hx
      · intro i x hx
        cases i with
        | zero =>
          cases hx
          exact ⟨suite, vt, vn, by rw [h2]; exact hc, by rw [h2]; rfl⟩
        | succ i =>
          obtain ⟨a, b, d, m1, m2⟩ := k4 i x hx
          exact ⟨a, b, d, m1, by rw [m2, Nat.add_assoc, Nat.add_comm 1 i]⟩
  obtain ⟨l, h1, h2, h3, h4⟩ := key cs 0 hs
  exact ⟨l, h1, h2, h3, fun i s h => by simpa using h4 i s h⟩

/-- C103: it panics exactly when a code that is asked for is not a seed code. -/
theorem C103_panics (C : Crypto) (hC : CryptoOk C) (hG : Generates C) (rnd : Nat → Nat) (codes : Option (List Str)) (count : Option Nat) (code : Option Str) (tr : Option Bool) :
    RandyCreator.create C rnd codes count code tr = .panic ↔ ∃ c ∈ askedCodes codes count code, c ∉ seedSuite.map Prod.fst := by
  constructor
  · intro h
    by_contra hn
    push Not at hn
    obtain ⟨l, k, -⟩ := C103_create C hC hG rnd codes count code tr hn
    rw [h] at k
    cases k
  · rintro ⟨c, hc, hn⟩
    unfold RandyCreator.create
    dsimp only
    rw [asked_eq]
    generalize askedCodes codes count code = cs at hc
    have key : ∀ (cs : List Str) (k : Nat), c ∈ cs →
        Res.mapList (fun e : Str × Nat => Res.unwrap (Signer.new C (rnd e.2) (some (tr.getD true)) (some e.1) none none none none)) (cs.zipIdx k) = .panic := by
      intro cs
      induction cs with
      | nil => intro k h; cases h
      | cons x cs ih =>
        intro k h
        rw [List.zipIdx_cons, Res.mapList]
        dsimp only
        by_cases hx : x ∈ seedSuite.map Prod.fst
        · obtain ⟨⟨c', suite, vt, vn⟩, hc', rfl⟩ := List.mem_map.mp hx
          obtain ⟨s, h1, -, -⟩ := random_signer hC hG hc' (rnd k) (tr.getD true)
          rw [h1]
          have : c ∈ cs := by
            rcases List.mem_cons.mp h with rfl | h
            · exact absurd hx hn
            · exact h
          rw [ih (k + 1) this]
          rfl
        · rw [random_other hx]
    exact key cs 0 hc

/-- The signature functions of the examples generate keys. -/
theorem World.generates : Generates World.crypto := by
  intro s r
  exact ⟨by simp [World.crypto], _, rfl⟩

/-- Three keys: the hypotheses of `C103_create` are met. -/
example : ∃ l, RandyCreator.create World.crypto id (some [str% "A", str% "J", str% "Q"]) none none (some false) = .ok l ∧
    l.map (fun s => s.m.code) = [str% "A", str% "J", str% "Q"] := by
  obtain ⟨l, h1, h2, -⟩ := C103_create World.crypto World.crypto_ok World.generates id (some [str% "A", str% "J", str% "Q"]) none none (some false) (by decide)
  exact ⟨l, h1, h2⟩

end Keride.Props
