/-
Model of /repo/src/cesr/crypto/sign.rs, /repo/src/cesr/core/{diger,verfer,cigar,siger}.rs and
/repo/src/signing/signer.rs.
-/
import Verif.Model.Saider
import Verif.Model.Indexer

namespace Keride

/-- `result.unwrap()`: an error becomes a panic. -/
def Res.unwrap {α : Type u} : Res α → Res α
  | .ok a => .ok a
  | _ => .panic

/-- The three signature algorithms of crypto/sign.rs. -/
inductive Suite where
  | ed25519 | k1 | r1
deriving DecidableEq, Repr

/-- The cryptographic crates (ed25519-dalek, k256, p256): what `generate`, `public_key`, `sign` and `verify` of the
modules at sign.rs:76-197 return. They are not modelled further. `rnd` stands for the randomness drawn. -/
structure Crypto where
  generate : Suite → (rnd : Nat) → Bytes
  publicKey : Suite → (sk : Bytes) → Res Bytes
  sign : Suite → (rnd : Nat) → (sk ser : Bytes) → Res Bytes
  verify : Suite → (pk sig ser : Bytes) → Res Bool

/-- The `match code` of `generate`, `public_key`, `sign` and `verify` (sign.rs:4-74). -/
def suiteOf (code : Str) : Option Suite :=
  if [str% "D", str% "B", str% "A", str% "0B"].contains code then some .ed25519
  else if [str% "1AAB", str% "1AAA", str% "J", str% "0C"].contains code then some .k1
  else if [str% "1AAJ", str% "1AAI", str% "Q", str% "0I"].contains code then some .r1
  else none

/-- `sign::generate` (sign.rs:4-20). -/
def signGenerate (C : Crypto) (rnd : Nat) (code : Str) : Res Bytes := do
  let s ← Res.ofOption .unexpectedCode (suiteOf code)
  .ok (C.generate s rnd)

/-- `sign::public_key` (sign.rs:22-38). -/
def signPublicKey (C : Crypto) (code : Str) (sk : Bytes) : Res Bytes := do
  let s ← Res.ofOption .unexpectedCode (suiteOf code)
  C.publicKey s sk

/-- `sign::sign` (sign.rs:40-56). -/
def signSign (C : Crypto) (rnd : Nat) (code : Str) (sk ser : Bytes) : Res Bytes := do
  let s ← Res.ofOption .unexpectedCode (suiteOf code)
  C.sign s rnd sk ser

/-- `sign::verify` (sign.rs:58-74). -/
def signVerify (C : Crypto) (code : Str) (pk sig ser : Bytes) : Res Bool := do
  let s ← Res.ofOption .unexpectedCode (suiteOf code)
  C.verify s pk sig ser

namespace Diger

open Matter

/-- `validate_code` (diger.rs:38-56). -/
def validateCode (code : Str) : Res Unit := if digestCodes.contains code then .ok () else .err .unexpectedCode

/-- `Diger::new` (diger.rs:59-80). -/
def new (H : Hash) (ser : Option Bytes) (code : Option Str) (raw qb64b : Option Bytes) (qb64 : Option Str)
    (qb2 : Option Bytes) : Res M :=
  match Matter.new code raw qb64b qb64 qb2 with
  | .panic => .panic
  | .ok m => do
    validateCode m.code
    .ok m
  | .err _ =>
    match ser with
    | some ser => do
      let code := code.getD (str% "E")
      validateCode code
      let dig ← hashDigest H code ser
      Matter.new (some code) (some dig) none none none
    | none => .err .validation

/-- `new_with_ser` (diger.rs:82-84). -/
def newWithSer (H : Hash) (ser : Bytes) (code : Option Str) : Res M := new H (some ser) code none none none none

/-- `new_with_raw` (diger.rs:86-88). -/
def newWithRaw (H : Hash) (raw : Bytes) (code : Option Str) : Res M := new H none code (some raw) none none none

/-- `new_with_qb64b` (diger.rs:90-92). -/
def newWithQb64b (H : Hash) (b : Bytes) : Res M := new H none none none (some b) none none

/-- `new_with_qb64` (diger.rs:94-96). -/
def newWithQb64 (H : Hash) (s : Str) : Res M := new H none none none none (some s) none

/-- `new_with_qb2` (diger.rs:98-100). -/
def newWithQb2 (H : Hash) (b : Bytes) : Res M := new H none none none none none (some b)

/-- `verify` (diger.rs:102-105). -/
def verify (H : Hash) (m : M) (ser : Bytes) : Res Bool := do
  let dig ← hashDigest H m.code ser
  .ok (decide (dig = m.raw))

/-- The last comparison of `compare_dig` and `compare_diger` (diger.rs:128-132, 145-149). -/
def bothVerify (H : Hash) (m d : M) (ser : Bytes) : Res Bool := do
  let a ← verify H d ser
  if a then verify H m ser else .ok false

/-- `compare_dig` (diger.rs:117-133). -/
def compareDig (H : Hash) (chk : Bool) (m : M) (ser dig : Bytes) : Res Bool := do
  let q ← qb64b chk m
  if dig = q then .ok true
  else
    let d ← Matter.new none none (some dig) none none
    if d.code = m.code then .ok false else bothVerify H m d ser

/-- `compare_diger` (diger.rs:135-150). -/
def compareDiger (H : Hash) (chk : Bool) (m : M) (ser : Bytes) (d : M) : Res Bool := do
  let p ← qb64 chk d
  let q ← qb64 chk m
  if p = q then .ok true
  else if d.code = m.code then .ok false else bothVerify H m d ser

/-- `compare` (diger.rs:107-115). -/
def compare (H : Hash) (chk : Bool) (m : M) (ser : Bytes) (dig : Option Bytes) (diger : Option M) : Res Bool :=
  match dig with
  | some dig => compareDig H chk m ser dig
  | none =>
    match diger with
    | some d => compareDiger H chk m ser d
    | none => .err .value

end Diger

namespace Verfer

open Matter

/-- The codes of `validate_code` (verfer.rs:19-28). -/
def codes : List Str := [str% "B", str% "D", str% "1AAA", str% "1AAB", str% "1AAI", str% "1AAJ"]

/-- `validate_code` (verfer.rs:18-35). -/
def validateCode (code : Str) : Res Unit := if codes.contains code then .ok () else .err .unexpectedCode

/-- `Verfer::new` (verfer.rs:38-49). -/
def new (code : Option Str) (raw qb64b : Option Bytes) (qb64 : Option Str) (qb2 : Option Bytes) : Res M := do
  let m ← Matter.new (some (code.getD (str% "B"))) raw qb64b qb64 qb2
  validateCode m.code
  .ok m

/-- `new_with_raw` (verfer.rs:51-53). -/
def newWithRaw (raw : Bytes) (code : Option Str) : Res M := new code (some raw) none none none

/-- `new_with_qb64b` (verfer.rs:55-57). -/
def newWithQb64b (b : Bytes) : Res M := new none none (some b) none none

/-- `new_with_qb64` (verfer.rs:59-61). -/
def newWithQb64 (s : Str) : Res M := new none none none (some s) none

/-- `new_with_qb2` (verfer.rs:63-65). -/
def newWithQb2 (b : Bytes) : Res M := new none none none none (some b)

/-- `Verfer::default` (verfer.rs:12-16). -/
def default : M := ⟨str% "D", 0, []⟩

/-- `verify` (verfer.rs:67-70). -/
def verify (C : Crypto) (m : M) (sig ser : Bytes) : Res Bool := do
  validateCode m.code
  signVerify C m.code m.raw sig ser

end Verfer

/-- `Cigar` (cigar.rs:5-11): a signature and the key it is by. -/
structure Cigar where
  m : Matter.M
  verfer : Matter.M
deriving DecidableEq, Repr

namespace Cigar

/-- The codes of `validate_code` (cigar.rs:25-30). -/
def codes : List Str := [str% "0B", str% "0C", str% "0I"]

/-- `validate_code` (cigar.rs:24-37). -/
def validateCode (code : Str) : Res Unit := if codes.contains code then .ok () else .err .unexpectedCode

/-- `Cigar::new` (cigar.rs:40-54). -/
def new (verfer : Option Matter.M) (code : Option Str) (raw qb64b : Option Bytes) (qb64 : Option Str)
    (qb2 : Option Bytes) : Res Cigar := do
  let m ← Matter.new code raw qb64b qb64 qb2
  validateCode m.code
  .ok ⟨m, verfer.getD Verfer.default⟩

end Cigar

/-- `Siger` (siger.rs:5-12): an indexed signature and the key it is by. -/
structure Siger where
  i : Indexer.I
  verfer : Matter.M
deriving DecidableEq, Repr

namespace Siger

/-- The codes of `validate_code` (siger.rs:27-44). -/
def codes : List Str :=
  [str% "A", str% "B", str% "C", str% "D", str% "E", str% "F", str% "2A", str% "2B", str% "2C", str% "2D", str% "2E", str% "2F"]

/-- `validate_code` (siger.rs:26-51). -/
def validateCode (code : Str) : Res Unit := if codes.contains code then .ok () else .err .unexpectedCode

/-- `Siger::new` (siger.rs:55-71). -/
def new (chk : Bool) (verfer : Option Matter.M) (index ondex : Option Nat) (code : Option Str) (raw qb64b : Option Bytes)
    (qb64 : Option Str) (qb2 : Option Bytes) : Res Siger := do
  let i ← Indexer.new chk index ondex code raw qb64b qb64 qb2
  validateCode i.code
  .ok ⟨i, verfer.getD Verfer.default⟩

/-- `new_with_qb64` (siger.rs:87-89). -/
def newWithQb64 (chk : Bool) (s : Str) (verfer : Option Matter.M) : Res Siger := new chk verfer none none none none none (some s) none

end Siger

/-- `Signer` (signing/signer.rs:36-45): a seed and its public key. -/
structure Signer where
  m : Matter.M
  verfer : Matter.M
deriving DecidableEq, Repr

namespace Signer

/-- The codes of `validate_code` (signer.rs:60-65). -/
def codes : List Str := [str% "A", str% "J", str% "Q"]

/-- `validate_code` (signer.rs:59-72). -/
def validateCode (code : Str) : Res Unit := if codes.contains code then .ok () else .err .unexpectedCode

/-- The code of the public key (signer.rs:75-88). -/
def verferCode (code : Str) (transferable : Bool) : Res Str :=
  if transferable then
    if code = str% "A" then .ok (str% "D")
    else if code = str% "J" then .ok (str% "1AAB")
    else if code = str% "Q" then .ok (str% "1AAJ")
    else .err .unexpectedCode
  else
    if code = str% "A" then .ok (str% "B")
    else if code = str% "J" then .ok (str% "1AAA")
    else if code = str% "Q" then .ok (str% "1AAI")
    else .err .unexpectedCode

/-- `derive_verfer` (signer.rs:74-92). -/
def deriveVerfer (C : Crypto) (code : Str) (sk : Bytes) (transferable : Bool) : Res Matter.M := do
  let vc ← verferCode code transferable
  let raw ← signPublicKey C code sk
  Verfer.new (some vc) (some raw) none none none

/-- `Signer::new` (signer.rs:95-120). -/
def new (C : Crypto) (rnd : Nat) (transferable : Option Bool) (code : Option Str) (raw qb64b : Option Bytes)
    (qb64 : Option Str) (qb2 : Option Bytes) : Res Signer := do
  let m ← (if qb64b.isNone ∧ qb64.isNone ∧ qb2.isNone then do
      let code := code.getD (str% "A")
      validateCode code
      let raw ← (match raw with
        | some raw => .ok raw
        | none => signGenerate C rnd code : Res Bytes)
      Matter.new (some code) (some raw) none none none
    else do
      let m ← Matter.new code raw qb64b qb64 qb2
      validateCode m.code
      .ok m : Res Matter.M)
  let verfer ← deriveVerfer C m.code m.raw (transferable.getD true)
  .ok ⟨m, verfer⟩

/-- `new_with_raw` (signer.rs:126-132). -/
def newWithRaw (C : Crypto) (raw : Bytes) (transferable : Option Bool) (code : Option Str) : Res Signer :=
  new C 0 transferable code (some raw) none none none

/-- `new_with_qb64` (signer.rs:138-140). -/
def newWithQb64 (C : Crypto) (s : Str) (transferable : Option Bool) : Res Signer :=
  new C 0 transferable none none none (some s) none

/-- The signature code (signer.rs:147-152). -/
def sigCode (code : Str) : Res Str :=
  if code = str% "A" then .ok (str% "0B")
  else if code = str% "J" then .ok (str% "0C")
  else if code = str% "Q" then .ok (str% "0I")
  else .err .unexpectedCode

/-- `sign_unindexed` (signer.rs:146-156). -/
def signUnindexed (C : Crypto) (rnd : Nat) (s : Signer) (ser : Bytes) : Res Cigar := do
  let code ← sigCode s.m.code
  let sig ← signSign C rnd s.m.code s.m.raw ser
  Cigar.new (some s.verfer) (some code) (some sig) none none none

/-- Selection among the codes of the three algorithms (signer.rs:168-173 and the like). -/
def pick (code a j q : Str) : Res Str :=
  if code = str% "A" then .ok a
  else if code = str% "J" then .ok j
  else if code = str% "Q" then .ok q
  else .err .unexpectedCode

/-- The indexed signature code and the ondex passed on (signer.rs:165-204). -/
def indexedCode (code : Str) (only : Bool) (index : Nat) (ondex : Option Nat) : Res (Str × Option Nat) :=
  if only then do
    let c ← (if index < 64 then pick code (str% "B") (str% "D") (str% "F")
      else pick code (str% "2B") (str% "2D") (str% "2F") : Res Str)
    .ok (c, none)
  else do
    let ondex := ondex.getD index
    let c ← (if index = ondex ∧ index < 64 then pick code (str% "A") (str% "C") (str% "E")
      else pick code (str% "2A") (str% "2C") (str% "2E") : Res Str)
    .ok (c, some ondex)

/-- `sign_indexed` (signer.rs:158-217). -/
def signIndexed (C : Crypto) (chk : Bool) (rnd : Nat) (s : Signer) (ser : Bytes) (only : Bool) (index : Nat)
    (ondex : Option Nat) : Res Siger := do
  let p ← indexedCode s.m.code only index ondex
  let sig ← signSign C rnd s.m.code s.m.raw ser
  Siger.new chk (some s.verfer) (some index) p.2 (some p.1) (some sig) none none none

end Signer

end Keride
