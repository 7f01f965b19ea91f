/-
Version strings: four capital letters naming the protocol, one hexadecimal digit each for the major and minor
version, four capital letters naming the serialisation, six hexadecimal digits for the size, and an underscore.
-/
import Verif.Model.Common

namespace Keride.Spec

/-- The `w` lower case hexadecimal digits of `n`, most significant first. -/
def hexFixed : Nat → Nat → Str
  | 0, _ => []
  | w + 1, n => hexFixed w (n / 16) ++ [(str% "0123456789abcdef").getD (n % 16) '0']

/-- The version string of a protocol, version, serialisation and size. -/
def versionText (ident : Str) (version : Version) (kind : Str) (size : Nat) : Str :=
  ident ++ hexFixed 1 version.major ++ hexFixed 1 version.minor ++ kind ++ hexFixed 6 size ++ ['_']

/-- The values a version string can carry. -/
def VersionFits (version : Version) (size : Nat) : Prop := version.major < 16 ∧ version.minor < 16 ∧ size < 2 ^ 24

/-- The text has, at offset `i`, something that looks like a version string. -/
def VersionLikeAt (text : Str) (i : Nat) : Prop :=
  ∃ pre proto major minor kind size post, text = pre ++ proto ++ major ++ minor ++ kind ++ size ++ '_' :: post ∧ pre.length = i ∧
    proto.length = 4 ∧ major.length = 1 ∧ minor.length = 1 ∧ kind.length = 4 ∧ size.length = 6 ∧
    (∀ c ∈ proto ++ kind, c ∈ str% "ABCDEFGHIJKLMNOPQRSTUVWXYZ") ∧ (∀ c ∈ major ++ minor ++ size, c ∈ str% "0123456789abcdef")

/-- The protocols, and the serialisations. -/
def protocols : List Str := [str% "KERI", str% "ACDC"]
def serialisations : List Str := [str% "JSON"]

end Keride.Spec
