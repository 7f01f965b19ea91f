/-
What the code of an indexed signature says, for C110.
-/
import Mathlib.Data.List.Forall2
import Verif.Model.Sample.Store

namespace Keride.Spec

open Sample

/-- The codes of signatures that are meant for the keys of the event only, and not for the keys that an earlier event
committed to. -/
def currentOnlyCodes : List Str := [str% "B", str% "D", str% "F", str% "2B", str% "2D", str% "2F"]

/-- The codes of signatures with ECDSA, with the curves secp256k1 and secp256r1. -/
def ecdsaCodes : List Str := [str% "C", str% "D", str% "2C", str% "2D", str% "E", str% "F", str% "2E", str% "2F"]

/-- Two signatures that differ in their codes at most. -/
def SameButCode (a b : Siger) : Prop := a.i.raw = b.i.raw ∧ a.i.index = b.i.index ∧ a.i.ondex = b.i.ondex

/-- Two groups of signatures of controllers that differ in the codes of the signatures at most. -/
inductive SameButCodes : SigGroup → SigGroup → Prop
  | controller (l l' : List Siger) : List.Forall₂ SameButCode l l' → SameButCodes (.controller l) (.controller l')

end Keride.Spec
