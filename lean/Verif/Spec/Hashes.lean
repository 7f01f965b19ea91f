/-
What the digest codes of CESR name, and what is assumed of the hash crates.
-/
import Verif.Model.Hashes
import Verif.Spec.Said

namespace Keride.Spec

/-- The hash algorithms. -/
inductive Algorithm where
  | blake3_256 | blake3_512 | blake2b_256 | blake2b_512 | blake2s_256 | sha3_256 | sha3_512 | sha2_256 | sha2_512
deriving DecidableEq

/-- The algorithm that each digest code names (the CESR specification, master code table). -/
def digestNames : List (Str × Algorithm) :=
  [(str% "E", .blake3_256), (str% "F", .blake2b_256), (str% "G", .blake2s_256), (str% "H", .sha3_256), (str% "I", .sha2_256),
   (str% "0D", .blake3_512), (str% "0E", .blake2b_512), (str% "0F", .sha3_512), (str% "0G", .sha2_512)]

/-- The number of bytes of a digest. -/
def Algorithm.bytes : Algorithm → Nat
  | .blake3_256 | .blake2b_256 | .blake2s_256 | .sha3_256 | .sha2_256 => 32
  | .blake3_512 | .blake2b_512 | .sha3_512 | .sha2_512 => 64

/-- The first bytes of a stream. -/
def firstBytes (n : Nat) (f : Nat → UInt8) : Bytes := List.ofFn fun i : Fin n => f i

/-- `d` is the digest of `ser` by the algorithm, as the crates compute it. The Blake3 digests are the first bytes of its extended output. -/
def IsDigestBy (A : Hashes) : Algorithm → Bytes → Bytes → Prop
  | .blake3_256, ser, d => d = firstBytes 32 (A.blake3Xof ser)
  | .blake3_512, ser, d => d = firstBytes 64 (A.blake3Xof ser)
  | .blake2b_256, ser, d => d = A.blake2b 32 ser
  | .blake2b_512, ser, d => d = A.blake2b 64 ser
  | .blake2s_256, ser, d => d = A.blake2s256 ser
  | .sha3_256, ser, d => d = A.sha3_256 ser
  | .sha3_512, ser, d => d = A.sha3_512 ser
  | .sha2_256, ser, d => d = A.sha2_256 ser
  | .sha2_512, ser, d => d = A.sha2_512 ser

/-- The crates return as many bytes as their algorithms have, and the default output of Blake3 is the start of its extended output. -/
structure HashesOk (A : Hashes) : Prop where
  blake3 : ∀ ser, A.blake3 ser = firstBytes 32 (A.blake3Xof ser)
  blake2b : ∀ n ser, (A.blake2b n ser).length = n
  blake2s : ∀ ser, (A.blake2s256 ser).length = 32
  sha3 : ∀ ser, (A.sha3_256 ser).length = 32 ∧ (A.sha3_512 ser).length = 64
  sha2 : ∀ ser, (A.sha2_256 ser).length = 32 ∧ (A.sha2_512 ser).length = 64

end Keride.Spec
