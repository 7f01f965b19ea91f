/-
C112: what the digest codes mean. C113: generated Ed25519 keys.
-/
import Verif.Spec.Hashes
import Verif.Props.Diger

namespace Keride.Props

open Matter Spec

theorem first_range (n : Nat) (f : Nat → UInt8) : (List.range n).map f = firstBytes n f := by
  refine List.ext_getElem (by simp [firstBytes]) fun i h1 h2 => ?_
  simp [firstBytes]

/-- The digest of a code is that of the algorithm it names. -/
theorem digest_names {A : Hashes} (hA : HashesOk A) {code : Str} {a : Algorithm} (h : (code, a) ∈ digestNames) (ser : Bytes) :
    ∃ d, A.digest code ser = .ok d ∧ A.hash code ser = d ∧ IsDigestBy A a ser d ∧ d.length = a.bytes := by
  have key : ∀ d, A.digest code ser = .ok d → A.hash code ser = d := by
    intro d hd
    unfold Hashes.hash
    rw [hd]
  have hl : ∀ n, (firstBytes n (A.blake3Xof ser)).length = n := fun n => List.length_ofFn
  simp only [digestNames, List.mem_cons, List.not_mem_nil, or_false, Prod.mk.injEq] at h
  rcases h with ⟨rfl, rfl⟩ | ⟨rfl, rfl⟩ | ⟨rfl, rfl⟩ | ⟨rfl, rfl⟩ | ⟨rfl, rfl⟩ | ⟨rfl, rfl⟩ | ⟨rfl, rfl⟩ | ⟨rfl, rfl⟩ | ⟨rfl, rfl⟩
  · exact ⟨A.blake3 ser, rfl, key _ rfl, hA.blake3 ser, by rw [hA.blake3]; exact hl 32⟩
  · exact ⟨A.blake2b 32 ser, rfl, key _ rfl, rfl, hA.blake2b 32 ser⟩
  · exact ⟨A.blake2s256 ser, rfl, key _ rfl, rfl, hA.blake2s ser⟩
  · exact ⟨A.sha3_256 ser, rfl, key _ rfl, rfl, (hA.sha3 ser).1⟩
  · exact ⟨A.sha2_256 ser, rfl, key _ rfl, rfl, (hA.sha2 ser).1⟩
  · exact ⟨(List.range 64).map (A.blake3Xof ser), rfl, key _ rfl, first_range 64 _, by rw [first_range]; exact hl 64⟩
  · exact ⟨A.blake2b 64 ser, rfl, key _ rfl, rfl, hA.blake2b 64 ser⟩
  · exact ⟨A.sha3_512 ser, rfl, key _ rfl, rfl, (hA.sha3 ser).2⟩
  · exact ⟨A.sha2_512 ser, rfl, key _ rfl, rfl, (hA.sha2 ser).2⟩

theorem named_digests {code : Str} (h : code ∈ digests) : ∃ a, (code, a) ∈ digestNames := by
  have key : ∀ c ∈ digests, c ∈ digestNames.map Prod.fst := by decide
  obtain ⟨⟨c, a⟩, h1, h2⟩ := List.mem_map.mp (key code h)
  cases h2
  exact ⟨a, h1⟩

/-- C112: the digests the library computes have the sizes of their codes, which is what is assumed of them elsewhere; and the model's `hashDigest` is the
code's `digest`. -/
theorem C112_sizes (A : Hashes) (hA : HashesOk A) : HashOk A.hash ∧ ∀ code ser, hashDigest A.hash code ser = A.digest code ser := by
  constructor
  · intro code hc n hn ser
    obtain ⟨a, ha⟩ := named_digests hc
    obtain ⟨d, -, h2, -, h4⟩ := digest_names hA ha ser
    rw [h2, h4]
    have key : ∀ x ∈ digestNames, ∀ y ∈ fixedCodes, x.1 = y.1 → x.2.bytes = y.2 := by decide
    exact key _ ha _ hn rfl
  · intro code ser
    unfold hashDigest
    by_cases hc : code ∈ digests
    · obtain ⟨a, ha⟩ := named_digests hc
      obtain ⟨d, h1, h2, -, -⟩ := digest_names hA ha ser
      have key : ∀ c ∈ digests, digestCodes.contains c = true := by decide
      rw [key _ hc, if_pos rfl, h1, h2]
    · have key : ∀ c ∈ digestCodes, c ∈ digests := by decide
      rw [if_neg (fun h => hc (key _ (List.contains_iff_mem.mp h)))]
      have ne : ∀ c, c ∈ digests → code ≠ c := fun c h e => hc (e ▸ h)
      unfold Hashes.digest
      rw [if_neg (ne _ (by decide)), if_neg (ne _ (by decide)), if_neg (ne _ (by decide)), if_neg (ne _ (by decide)), if_neg (ne _ (by decide)),
        if_neg (ne _ (by decide)), if_neg (ne _ (by decide)), if_neg (ne _ (by decide)), if_neg (ne _ (by decide))]

/-- C112: a digest made with a code is the digest by the algorithm that CESR gives to the code, with all its bytes; without a code it is a Blake3-256
digest; and there is none for any other code. -/
theorem C112_algorithms (A : Hashes) (hA : HashesOk A) (ser : Bytes) (code : Option Str) :
    (∀ a, (code.getD (str% "E"), a) ∈ digestNames → ∃ m, Diger.newWithSer A.hash ser code = .ok m ∧ m.code = code.getD (str% "E") ∧
      IsDigestBy A a ser m.raw ∧ m.raw.length = a.bytes) ∧
    ((∀ a, (code.getD (str% "E"), a) ∉ digestNames) → Diger.newWithSer A.hash ser code = .err .unexpectedCode) := by
  obtain ⟨h1, h2⟩ := C41_new A.hash (C112_sizes A hA).1 ser code
  constructor
  · intro a ha
    have key : ∀ x ∈ digestNames, x.1 ∈ digests := by decide
    obtain ⟨d, -, k2, k3, k4⟩ := digest_names hA ha ser
    refine ⟨_, h1 (key _ ha), rfl, ?_, ?_⟩
    · dsimp only; rw [k2]; exact k3
    · dsimp only; rw [k2]; exact k4
  · intro h
    refine h2 fun hc => ?_
    obtain ⟨a, ha⟩ := named_digests hc
    exact h a ha

/-- C112: the Blake3-256 digest of a text is the first half of its Blake3-512 digest: who knows the one knows the other, and texts with the same
Blake3-512 digest have the same Blake3-256 digest. -/
theorem C112_halves (A : Hashes) (hA : HashesOk A) (ser : Bytes) (m m' : M) (h : Diger.newWithSer A.hash ser (some (str% "E")) = .ok m)
    (h' : Diger.newWithSer A.hash ser (some (str% "0D")) = .ok m') : m.raw = m'.raw.take 32 := by
  obtain ⟨n, h1, -, h2, -⟩ := (C112_algorithms A hA ser (some (str% "E"))).1 .blake3_256 (by decide)
  obtain ⟨n', h1', -, h2', -⟩ := (C112_algorithms A hA ser (some (str% "0D"))).1 .blake3_512 (by decide)
  rw [h] at h1
  cases h1
  rw [h'] at h1'
  cases h1'
  have h2 : m.raw = firstBytes 32 (A.blake3Xof ser) := h2
  have h2' : m'.raw = firstBytes 64 (A.blake3Xof ser) := h2'
  rw [h2, h2', ← first_range, ← first_range, ← List.map_take]
  rfl

/-- Crates as in `HashesOk`. -/
def World.hashes : Hashes where
  blake3 ser := firstBytes 32 fun i => ser.getD i 7
  blake3Xof ser := fun i => ser.getD i 7
  blake2b n ser := List.replicate n (ser.headD 1)
  blake2s256 ser := List.replicate 32 (ser.headD 2)
  sha3_256 ser := List.replicate 32 (ser.headD 3)
  sha3_512 ser := List.replicate 64 (ser.headD 4)
  sha2_256 ser := List.replicate 32 (ser.headD 5)
  sha2_512 ser := List.replicate 64 (ser.headD 6)

theorem World.hashes_ok : HashesOk World.hashes where
  blake3 _ := rfl
  blake2b n ser := by simp [World.hashes]
  blake2s ser := by simp [World.hashes]
  sha3 ser := by simp [World.hashes]
  sha2 ser := by simp [World.hashes]

/-- The hypotheses of `C112_halves` are met. -/
example : ∃ m m', Diger.newWithSer World.hashes.hash [1, 2] (some (str% "E")) = .ok m ∧ Diger.newWithSer World.hashes.hash [1, 2] (some (str% "0D")) = .ok m' := by
  obtain ⟨m, h, -⟩ := (C112_algorithms World.hashes World.hashes_ok [1, 2] (some (str% "E"))).1 .blake3_256 (by decide)
  obtain ⟨m', h', -⟩ := (C112_algorithms World.hashes World.hashes_ok [1, 2] (some (str% "0D"))).1 .blake3_512 (by decide)
  exact ⟨m, m', h, h'⟩

/-- C113: what generation returns is the first key drawn whose public key is not weak; it returns when there is such a key, and only then. -/
theorem C113_generated (draw : Nat → Bytes) (weak : Bytes → Bool) (i : Nat) :
    (∀ sk, Generates draw weak i sk ↔ ∃ j, i ≤ j ∧ sk = draw j ∧ weak (draw j) = false ∧ ∀ k, i ≤ k → k < j → weak (draw k) = true) ∧
    ((∃ sk, Generates draw weak i sk) ↔ ∃ j, i ≤ j ∧ weak (draw j) = false) ∧
    ∀ sk sk', Generates draw weak i sk → Generates draw weak i sk' → sk = sk' := by
  have fwd : ∀ sk, Generates draw weak i sk → ∃ j, i ≤ j ∧ sk = draw j ∧ weak (draw j) = false ∧ ∀ k, i ≤ k → k < j → weak (draw k) = true := by
    intro sk h
    induction h with
    | done i h => exact ⟨i, le_refl _, rfl, h, (fun k h1 h2 => by omega)⟩
    | again i sk h _ ih =>
      obtain ⟨j, h1, h2, h3, h4⟩ := ih
      refine ⟨j, by omega, h2, h3, fun k k1 k2 => ?_⟩
      rcases Nat.eq_or_lt_of_le k1 with rfl | k1
      · exact h
      · exact h4 k k1 k2
  have bwd : ∀ n i, weak (draw (i + n)) = false → (∀ k, i ≤ k → k < i + n → weak (draw k) = true) → Generates draw weak i (draw (i + n)) := by
    intro n
    induction n with
    | zero => intro i h _; exact .done i h
    | succ n ih =>
      intro i h1 h2
      refine .again i _ (h2 i (le_refl _) (by omega)) ?_
      rw [show i + (n + 1) = i + 1 + n by omega] at h1 h2 ⊢
      exact ih (i + 1) h1 fun k k1 k2 => h2 k (by omega) k2
  have iff : ∀ sk, Generates draw weak i sk ↔ ∃ j, i ≤ j ∧ sk = draw j ∧ weak (draw j) = false ∧ ∀ k, i ≤ k → k < j → weak (draw k) = true := by
    intro sk
    refine ⟨fwd sk, ?_⟩
    rintro ⟨j, h1, rfl, h2, h3⟩
    obtain ⟨n, rfl⟩ := Nat.exists_eq_add_of_le h1
    exact bwd n i h2 h3
  refine ⟨iff, ⟨fun ⟨sk, h⟩ => ?_, fun ⟨j, h1, h2⟩ => ?_⟩, fun sk sk' h h' => ?_⟩
  · obtain ⟨j, h1, -, h2, -⟩ := fwd sk h
    exact ⟨j, h1, h2⟩
  · classical
    have hex : ∃ j, i ≤ j ∧ weak (draw j) = false := ⟨j, h1, h2⟩
    refine ⟨draw (Nat.find hex), (iff _).mpr ⟨_, (Nat.find_spec hex).1, rfl, (Nat.find_spec hex).2, fun k k1 k2 => ?_⟩⟩
    have := Nat.find_min hex k2
    cases hw : weak (draw k) with
    | true => rfl
    | false => exact absurd ⟨k1, hw⟩ this
  · obtain ⟨j, h1, rfl, h2, h3⟩ := fwd sk h
    obtain ⟨j', h1', rfl, h2', h3'⟩ := fwd sk' h'
    have : j = j' := by
      rcases Nat.lt_trichotomy j j' with hlt | e | hlt
      · rw [h3' j h1 hlt] at h2; cases h2
      · exact e
      · rw [h3 j' h1' hlt] at h2'; cases h2'
    rw [this]

/-- A weak key is drawn, and then one that is not: the second is returned. -/
example : Generates (fun i => [UInt8.ofNat i]) (fun sk => decide (sk = [0])) 0 [1] :=
  .again 0 _ rfl (.done 1 rfl)

end Keride.Props
