/-
`RandyCreator` (src/signify/creating.rs): random keys.
-/
import Verif.Model.Salter

namespace Keride

namespace RandyCreator

/-- `create` (creating.rs:131-157). The creator has no state (creating.rs:127). The `i`-th key is made from the `i`-th draw of the random source. -/
def create (C : Crypto) (rnd : Nat → Nat) (codes : Option (List Str)) (count : Option Nat) (code : Option Str) (transferable : Option Bool) :
    Res (List Signer) :=
  let codes := codes.getD []
  let codes := if codes = [] then List.replicate (count.getD 1) (code.getD (str% "A")) else codes
  Res.mapList (fun e => Res.unwrap (Signer.new C (rnd e.2) (some (transferable.getD true)) (some e.1) none none none none)) codes.zipIdx

end RandyCreator

end Keride
