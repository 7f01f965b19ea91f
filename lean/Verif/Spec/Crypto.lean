/-
What is assumed of the signature crates.
-/
import Verif.Model.Signing

namespace Keride.Spec

/-- From a 32-byte seed that has a public key: the key has 32 bytes (Ed25519) or 33 (compressed ECDSA point), signing
succeeds with 64 bytes whatever the randomness, and the signature verifies. -/
structure CryptoOk (C : Crypto) : Prop where
  key : ∀ s sk pk, sk.length = 32 → C.publicKey s sk = .ok pk → pk.length = if s = .ed25519 then 32 else 33
  sign : ∀ s rnd sk ser pk, sk.length = 32 → C.publicKey s sk = .ok pk →
    ∃ sig, C.sign s rnd sk ser = .ok sig ∧ sig.length = 64 ∧ C.verify s pk sig ser = .ok true

/-- The algorithm of a seed code, and the codes of its public keys. -/
def seedSuite : List (Str × Suite × Str × Str) :=
  [(str% "A", .ed25519, str% "D", str% "B"), (str% "J", .k1, str% "1AAB", str% "1AAA"), (str% "Q", .r1, str% "1AAJ", str% "1AAI")]

/-- The memory (KiB) and the iterations of Argon2id for each security tier. -/
def tierCosts : List (Str × Nat × Nat) :=
  [(str% "min", 8, 1), (str% "low", 65536, 2), (str% "med", 262144, 3), (str% "high", 1048576, 4)]

/-- A number in lower case hexadecimal. -/
def hex (n : Nat) : Str := Nat.toDigits 16 n

end Keride.Spec
