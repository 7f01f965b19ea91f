/-
Model of /repo/src/cesr/core/salter.rs, /repo/src/cesr/crypto/salt.rs and /repo/src/signify/creating.rs.
-/
import Verif.Model.Signing
import Verif.Model.Num

namespace Keride

/-- Argon2id of the argon2 crate with memory `m`, iterations `t`, one lane, version 0x13 and output length `len`
(crypto/salt.rs:23-34), and the random generator of crypto/csprng.rs. Not modelled further. -/
structure Stretch where
  argon2id : (m t len : Nat) → (pwd salt : Bytes) → Res Bytes
  fill : (rnd : Nat) → Bytes

/-- `params` (salt.rs:5-21): memory and iterations of a tier. -/
def tierParams (tier : Str) : Option (Nat × Nat) :=
  if tier = str% "min" then some (8, 1)
  else if tier = str% "low" then some (65536, 2)
  else if tier = str% "med" then some (262144, 3)
  else if tier = str% "high" then some (1048576, 4)
  else none

/-- `salt::stretch` (salt.rs:23-36). -/
def saltStretch (S : Stretch) (pwd salt : Bytes) (length : Nat) (tier : Str) : Res Bytes := do
  let p ← Res.ofOption .value (tierParams tier)
  S.argon2id p.1 p.2 length pwd salt

/-- `Salter` (salter.rs:14-23). -/
structure Salter where
  m : Matter.M
  tier : Str
deriving DecidableEq, Repr

namespace Salter

/-- `validate_code` (salter.rs:25-31). -/
def validateCode (code : Str) : Res Unit := if code = str% "0A" then .ok () else .err .unexpectedCode

/-- `Salter::new` (salter.rs:36-60): only the code argument is validated, not the code of the parsed text. -/
def new (S : Stretch) (rnd : Nat) (tier code : Option Str) (raw qb64b : Option Bytes) (qb64 : Option Str)
    (qb2 : Option Bytes) : Res Salter := do
  let code := code.getD (str% "0A")
  validateCode code
  let m ← (if raw.isNone ∧ qb64b.isNone ∧ qb64.isNone ∧ qb2.isNone then
      Matter.new (some code) (some (S.fill rnd)) none none none
    else Matter.new (some code) raw qb64b qb64 qb2 : Res Matter.M)
  .ok ⟨m, tier.getD (str% "low")⟩

/-- `stretch` (salter.rs:82-98). -/
def stretch (S : Stretch) (s : Salter) (size : Option Nat) (path tier : Option Str) (temp : Option Bool) : Res Bytes :=
  let tier := if temp.getD false then str% "min" else tier.getD s.tier
  saltStretch S (toUtf8 (path.getD [])) s.m.raw (size.getD 32) tier

/-- `signer` (salter.rs:104-124). -/
def signer (C : Crypto) (S : Stretch) (s : Salter) (code : Option Str) (transferable : Option Bool) (path tier : Option Str)
    (temp : Option Bool) : Res Signer := do
  let code := code.getD (str% "A")
  let size ← Matter.rawSize code
  let seed ← stretch S s (some size) (some (path.getD [])) tier (some (temp.getD false))
  Signer.new C 0 (some (transferable.getD true)) (some code) (some seed) none none none

/-- The path of the `i`-th key of `signers` (salter.rs:143). -/
def signersPath (path : Str) (start i : Nat) : Str := path ++ fmtNat 16 (i + start)

/-- `signers` (salter.rs:127-148). `i + start` is a `usize` sum; it is taken not to overflow. -/
def signers (C : Crypto) (S : Stretch) (s : Salter) (count start : Option Nat) (path code : Option Str)
    (transferable : Option Bool) (tier : Option Str) (temp : Option Bool) : Res (List Signer) :=
  Res.mapList (fun i => signer C S s code transferable (some (signersPath (path.getD []) (start.getD 0) i)) tier temp)
    (List.range (count.getD 1))

end Salter

/-- `SaltyCreator` (creating.rs:31-40). The field `salt` is never read. -/
structure SaltyCreator where
  stem : Str
  tier : Str
  salter : Salter
deriving DecidableEq, Repr

namespace SaltyCreator

/-- `SaltyCreator::new` (creating.rs:43-63) on top of `default` (creating.rs:128-137): the tier of the creator is
always `low`; `tier` only reaches the salter, which `create` does not ask. -/
def new (S : Stretch) (rnd : Nat) (salt stem tier : Option Str) (salter : Option Salter) : Res SaltyCreator := do
  let s ← (match salter with
    | some s => .ok s
    | none => Res.unwrap (Salter.new S rnd tier none none none salt none) : Res Salter)
  .ok ⟨stem.getD [], str% "low", s⟩

/-- `a + b` on `u16`. -/
def addU16 (chk : Bool) (a b : Nat) : Res Nat :=
  if a + b < 2 ^ 16 then .ok (a + b) else if chk then .panic else .ok ((a + b) % 2 ^ 16)

/-- The stem of a path (creating.rs:98-102). -/
def stemOf (c : SaltyCreator) (stem : Option Str) (pidx : Nat) : Str :=
  if c.stem ≠ [] then c.stem else stem.getD (fmtNat 16 pidx)

/-- The path of the `i`-th key (creating.rs:110). -/
def path (chk : Bool) (stem : Str) (ridx kidx i : Nat) : Res Str := do
  let k ← addU16 chk kidx (i % 2 ^ 16)
  .ok (stem ++ fmtNat 16 ridx ++ fmtNat 16 k)

/-- `create` (creating.rs:77-125). -/
def create (C : Crypto) (S : Stretch) (chk : Bool) (c : SaltyCreator) (codes : Option (List Str)) (count : Option Nat)
    (code : Option Str) (pidx ridx kidx : Option Nat) (stem : Option Str) (transferable : Option Bool) (temp : Bool) :
    Res (List Signer) :=
  let stem := stemOf c stem (pidx.getD 0)
  let codes := codes.getD []
  let codes := if codes = [] then List.replicate (count.getD 1) (code.getD (str% "A")) else codes
  Res.mapList (fun e => do
    let p ← path chk stem (ridx.getD 0) (kidx.getD 0) e.2
    Res.unwrap (Salter.signer C S c.salter (some e.1) (some (transferable.getD true)) (some p) (some c.tier) (some temp)))
    codes.zipIdx

end SaltyCreator

end Keride
