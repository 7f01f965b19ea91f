/-
The codes that belong to each typed primitive, by the names of the code table (matter.rs:12-122, indexer.rs:10-40).
-/
import Verif.Spec.Cesr

namespace Keride.Spec

/-- Public keys that cannot be rotated: Ed25519N, ECDSA_256k1N, ECDSA_256r1N. -/
def fixedKeyCodes : List Str := [str% "B", str% "1AAA", str% "1AAI"]

/-- Public keys that can be rotated: Ed25519, ECDSA_256k1, ECDSA_256r1. -/
def rotatableKeyCodes : List Str := [str% "D", str% "1AAB", str% "1AAJ"]

/-- Unindexed signatures: Ed25519_Sig, ECDSA_256k1_Sig, ECDSA_256r1_Sig. -/
def plainSigCodes : List Str := [str% "0B", str% "0C", str% "0I"]

/-- Indexed signatures: Ed25519, ECDSA_256k1, ECDSA_256r1, each in both lists, current only, and the big versions. -/
def idxSigCodes : List Str :=
  [str% "A", str% "B", str% "C", str% "D", str% "E", str% "F", str% "2A", str% "2B", str% "2C", str% "2D", str% "2E", str% "2F"]

/-- Seeds: Ed25519_Seed, ECDSA_256k1_Seed, ECDSA_256r1_Seed. -/
def seedCodes : List Str := [str% "A", str% "J", str% "Q"]

/-- Numbers: Short, Long, Big, Huge. -/
def numberCodes : List Str := [str% "M", str% "0H", str% "N", str% "0A"]

/-- Sequence numbers and salts: Salt_128. -/
def saltCode : Str := str% "0A"

/-- Dates: DateTime. -/
def dateCode : Str := str% "1AAG"

/-- Base64 texts and paths: StrB64_L0 to L2 and the big versions. -/
def strB64Codes : List Str := [str% "4A", str% "5A", str% "6A", str% "7AAA", str% "8AAA", str% "9AAA"]

end Keride.Spec
