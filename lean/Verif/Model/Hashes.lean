/-
Model of /repo/src/cesr/crypto/hash.rs in terms of the hash crates, and of the loop that generates Ed25519 keys
(/repo/src/cesr/crypto/sign.rs).
-/
import Verif.Model.Saider

namespace Keride

/-- The hash crates (blake3, blake2, sha3, sha2). `blake3Xof ser i` is byte `i` of the extended output of Blake3, which has no end;
`blake2b n` is Blake2b with an output of `n` bytes. Not modelled further. -/
structure Hashes where
  blake3 : Bytes → Bytes
  blake3Xof : Bytes → Nat → UInt8
  blake2b : Nat → Bytes → Bytes
  blake2s256 : Bytes → Bytes
  sha3_256 : Bytes → Bytes
  sha3_512 : Bytes → Bytes
  sha2_256 : Bytes → Bytes
  sha2_512 : Bytes → Bytes

namespace Hashes

/-- `digest` (hash.rs:8-62), arm by arm. The 64 bytes of `Blake3_512` are filled from the extended output (hash.rs:11-17). -/
def digest (A : Hashes) (code : Str) (ser : Bytes) : Res Bytes :=
  if code = str% "E" then .ok (A.blake3 ser)
  else if code = str% "0D" then .ok ((List.range 64).map (A.blake3Xof ser))
  else if code = str% "F" then .ok (A.blake2b 32 ser)
  else if code = str% "0E" then .ok (A.blake2b 64 ser)
  else if code = str% "G" then .ok (A.blake2s256 ser)
  else if code = str% "H" then .ok (A.sha3_256 ser)
  else if code = str% "0F" then .ok (A.sha3_512 ser)
  else if code = str% "I" then .ok (A.sha2_256 ser)
  else if code = str% "0G" then .ok (A.sha2_512 ser)
  else .err .unexpectedCode

/-- The digests of hash.rs as the functions that the rest of the model takes. -/
def hash (A : Hashes) : Hash := fun code ser =>
  match A.digest code ser with
  | .ok d => d
  | _ => []

end Hashes

/-- The keys that `ed25519::generate` (sign.rs:82-96) returns when the random generator gives the private keys `draw i`, `draw (i+1)`, …: it draws
until the public key is not weak. `weak` is `verifying_key().is_weak()` of a private key. The loop has no bound, so this is a relation. -/
inductive Generates (draw : Nat → Bytes) (weak : Bytes → Bool) : Nat → Bytes → Prop
  | done (i : Nat) : weak (draw i) = false → Generates draw weak i (draw i)
  | again (i : Nat) (sk : Bytes) : weak (draw i) = true → Generates draw weak (i + 1) sk → Generates draw weak i sk

end Keride
