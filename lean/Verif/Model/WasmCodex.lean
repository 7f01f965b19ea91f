/-
Model of /repo/wasm/src/primitives/codex.rs: the names that the JavaScript bindings have for codes; and of the constants
that they stand for. A value of an enumeration is its name, as JavaScript sees it; other names do not occur there, and
have no code here.
-/
import Verif.Model.Basic

namespace Keride.Wasm

/-- The constants of `matter::Codex` (src/cesr/core/matter/tables.rs:107-156). -/
def matterConstants : List (Str × Str) := [
  (str% "Ed25519_Seed", str% "A"),
  (str% "Ed25519N", str% "B"),
  (str% "X25519", str% "C"),
  (str% "Ed25519", str% "D"),
  (str% "Blake3_256", str% "E"),
  (str% "Blake2b_256", str% "F"),
  (str% "Blake2s_256", str% "G"),
  (str% "SHA3_256", str% "H"),
  (str% "SHA2_256", str% "I"),
  (str% "ECDSA_256k1_Seed", str% "J"),
  (str% "Ed448_Seed", str% "K"),
  (str% "X448", str% "L"),
  (str% "Short", str% "M"),
  (str% "Big", str% "N"),
  (str% "X25519_Private", str% "O"),
  (str% "X25519_Cipher_Seed", str% "P"),
  (str% "ECDSA_256r1_Seed", str% "Q"),
  (str% "Salt_128", str% "0A"),
  (str% "Ed25519_Sig", str% "0B"),
  (str% "ECDSA_256k1_Sig", str% "0C"),
  (str% "Blake3_512", str% "0D"),
  (str% "Blake2b_512", str% "0E"),
  (str% "SHA3_512", str% "0F"),
  (str% "SHA2_512", str% "0G"),
  (str% "Long", str% "0H"),
  (str% "ECDSA_256r1_Sig", str% "0I"),
  (str% "ECDSA_256k1N", str% "1AAA"),
  (str% "ECDSA_256k1", str% "1AAB"),
  (str% "Ed448N", str% "1AAC"),
  (str% "Ed448", str% "1AAD"),
  (str% "Ed448_Sig", str% "1AAE"),
  (str% "Tern", str% "1AAF"),
  (str% "DateTime", str% "1AAG"),
  (str% "X25519_Cipher_Salt", str% "1AAH"),
  (str% "ECDSA_256r1N", str% "1AAI"),
  (str% "ECDSA_256r1", str% "1AAJ"),
  (str% "TBD1", str% "2AAA"),
  (str% "TBD2", str% "3AAA"),
  (str% "StrB64_L0", str% "4A"),
  (str% "StrB64_L1", str% "5A"),
  (str% "StrB64_L2", str% "6A"),
  (str% "StrB64_Big_L0", str% "7AAA"),
  (str% "StrB64_Big_L1", str% "8AAA"),
  (str% "StrB64_Big_L2", str% "9AAA"),
  (str% "Bytes_L0", str% "4B"),
  (str% "Bytes_L1", str% "5B"),
  (str% "Bytes_L2", str% "6B"),
  (str% "Bytes_Big_L0", str% "7AAB"),
  (str% "Bytes_Big_L1", str% "8AAB"),
  (str% "Bytes_Big_L2", str% "9AAB")]

/-- The constants of `indexer::Codex` (src/cesr/core/indexer/tables.rs:25-43). -/
def indexerConstants : List (Str × Str) := [
  (str% "Ed25519", str% "A"),
  (str% "Ed25519_Crt", str% "B"),
  (str% "ECDSA_256k1", str% "C"),
  (str% "ECDSA_256k1_Crt", str% "D"),
  (str% "ECDSA_256r1", str% "E"),
  (str% "ECDSA_256r1_Crt", str% "F"),
  (str% "Ed448", str% "0A"),
  (str% "Ed448_Crt", str% "0B"),
  (str% "Ed25519_Big", str% "2A"),
  (str% "Ed25519_Big_Crt", str% "2B"),
  (str% "ECDSA_256k1_Big", str% "2C"),
  (str% "ECDSA_256k1_Big_Crt", str% "2D"),
  (str% "ECDSA_256r1_Big", str% "2E"),
  (str% "ECDSA_256r1_Big_Crt", str% "2F"),
  (str% "Ed448_Big", str% "3A"),
  (str% "Ed448_Big_Crt", str% "3B"),
  (str% "TBD0", str% "0z"),
  (str% "TBD1", str% "1z"),
  (str% "TBD4", str% "4z")]

/-- The arms of `CesrideMatterCodex::code` (codex.rs:58-107): the name and the constant. -/
def matterArms : List (Str × Str) := [
  (str% "Ed25519Seed", str% "Ed25519_Seed"),
  (str% "Ed25519N", str% "Ed25519N"),
  (str% "X25519", str% "X25519"),
  (str% "Ed25519", str% "Ed25519"),
  (str% "Blake3_256", str% "Blake3_256"),
  (str% "Blake2b_256", str% "Blake2b_256"),
  (str% "Blake2s_256", str% "Blake2s_256"),
  (str% "SHA3_256", str% "SHA3_256"),
  (str% "SHA2_256", str% "SHA2_256"),
  (str% "ECDSA_256k1_Seed", str% "ECDSA_256k1_Seed"),
  (str% "Ed448_Seed", str% "Ed448_Seed"),
  (str% "X448", str% "X448"),
  (str% "Short", str% "Short"),
  (str% "Big", str% "Big"),
  (str% "X25519_Private", str% "X25519_Private"),
  (str% "X25519_Cipher_Seed", str% "X25519_Cipher_Seed"),
  (str% "Salt_128", str% "Salt_128"),
  (str% "Ed25519_Sig", str% "Ed25519_Sig"),
  (str% "ECDSA_256k1_Sig", str% "ECDSA_256k1_Sig"),
  (str% "Blake3_512", str% "Blake3_512"),
  (str% "Blake2b_512", str% "Blake2b_512"),
  (str% "SHA3_512", str% "SHA3_512"),
  (str% "SHA2_512", str% "SHA2_512"),
  (str% "Long", str% "Long"),
  (str% "ECDSA_256k1N", str% "ECDSA_256k1N"),
  (str% "ECDSA_256k1", str% "ECDSA_256k1"),
  (str% "Ed448N", str% "Ed448N"),
  (str% "Ed448", str% "Ed448"),
  (str% "Ed448_Sig", str% "Ed448_Sig"),
  (str% "Tern", str% "Tern"),
  (str% "DateTime", str% "DateTime"),
  (str% "X25519_Cipher_Salt", str% "X25519_Cipher_Salt"),
  (str% "TBD1", str% "TBD1"),
  (str% "TBD2", str% "TBD2"),
  (str% "StrB64_L0", str% "StrB64_L0"),
  (str% "StrB64_L1", str% "StrB64_L1"),
  (str% "StrB64_L2", str% "StrB64_L2"),
  (str% "StrB64_Big_L0", str% "StrB64_Big_L0"),
  (str% "StrB64_Big_L1", str% "StrB64_Big_L1"),
  (str% "StrB64_Big_L2", str% "StrB64_Big_L2"),
  (str% "Bytes_L0", str% "Bytes_L0"),
  (str% "Bytes_L1", str% "Bytes_L1"),
  (str% "Bytes_L2", str% "Bytes_L2"),
  (str% "Bytes_Big_L0", str% "Bytes_Big_L0"),
  (str% "Bytes_Big_L1", str% "Bytes_Big_L1"),
  (str% "Bytes_Big_L2", str% "Bytes_Big_L2")]

/-- The arms of `CesrideIndexerCodex::code` (codex.rs:137-155): the name and the constant. -/
def indexerArms : List (Str × Str) := [
  (str% "Ed25519", str% "Ed25519"),
  (str% "Ed25519_Crt", str% "Ed25519_Crt"),
  (str% "ECDSA_256k1", str% "ECDSA_256k1"),
  (str% "ECDSA_256k1_Crt", str% "ECDSA_256k1_Crt"),
  (str% "Ed448", str% "Ed448"),
  (str% "Ed448_Crt", str% "Ed448_Crt"),
  (str% "Ed25519_Big", str% "Ed25519_Big"),
  (str% "Ed25519_Big_Crt", str% "Ed25519_Big_Crt"),
  (str% "ECDSA_256k1_Big", str% "ECDSA_256k1_Big"),
  (str% "ECDSA_256k1_Big_Crt", str% "ECDSA_256k1_Big_Crt"),
  (str% "Ed448_Big", str% "Ed448_Big"),
  (str% "Ed448_Big_Crt", str% "Ed448_Big_Crt"),
  (str% "TBD0", str% "TBD0"),
  (str% "TBD1", str% "TBD1"),
  (str% "TBD4", str% "TBD4")]

/-- `matter_codex_code` (codex.rs:110-113). -/
def matterCodexCode (name : Str) : Option Str := (matterArms.lookup name).bind fun c => matterConstants.lookup c

/-- `indexer_codex_code` (codex.rs:158-161). -/
def indexerCodexCode (name : Str) : Option Str := (indexerArms.lookup name).bind fun c => indexerConstants.lookup c

end Keride.Wasm
