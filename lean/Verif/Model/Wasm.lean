/-
Model of the JavaScript bindings /repo/wasm/src/util.rs and /repo/wasm/src/primitives/{number,seqner,saider,prefixer,serder,tholder,
signer}.rs: what the wrappers add to the functions they call. The other wrappers of these files, and the files
verfer.rs, cigar.rs, siger.rs, diger.rs, dater.rs, bexter.rs and salter.rs, pass their arguments on in order and return what
they get; they are not modelled. For codex.rs see Model/WasmCodex.lean. A panic is a trap of the WebAssembly module.
-/
import Verif.Model.Prefixer
import Verif.Model.Sadder

namespace Keride.Wasm

/-- `U128Wrapper` (util.rs:4-8): two `u64`. -/
structure U128 where
  low : Nat
  high : Nat
deriving Repr, DecidableEq

/-- `From<u128> for U128Wrapper` (util.rs:10-14). -/
def U128.ofNat (n : Nat) : U128 := ⟨n % 2 ^ 64, n / 2 ^ 64 % 2 ^ 64⟩

/-- `From<U128Wrapper> for u128` (util.rs:16-20): the high half is not shifted. -/
def U128.toNat (w : U128) : Nat := w.high ||| w.low

/-- `NumberWrapper::new_with_num` (number.rs:36-39). -/
def numberNewWithNum (w : U128) : Res Matter.M := Number.newWithNum w.toNat

/-- `NumberWrapper::num` (number.rs:66-69). -/
def numberNum (m : Matter.M) : Res U128 := do
  let n ← Number.num m
  .ok (U128.ofNat n)

/-- `SeqnerWrapper::new_with_sn` (seqner.rs:36-39). -/
def seqnerNewWithSn (w : U128) : Res Matter.M := Seqner.newWithSn w.toNat

/-- `SeqnerWrapper::sn` (seqner.rs:66-69). -/
def seqnerSn (m : Matter.M) : Res U128 := do
  let n ← Seqner.sn m
  .ok (U128.ofNat n)

/-- `SerderWrapper::sn` (serder.rs:90-93). -/
def serderSn (s : Sad) : Res U128 := do
  let n ← Serder.sn s
  .ok (U128.ofNat n)

/-- `From<ValueWrapper> for Value` (util.rs:37-42): `unwrap` of the parser's answer. -/
def readValue (fl : Str → Option Str) (text : Str) : Res Value := Res.unwrap (jsonRead fl text)

/-- An array of JavaScript values as texts (saider.rs:43-46, prefixer.rs:45-48): `none` stands for a value that is not a text. -/
def texts (l : Option (List (Option Str))) : Option (List Str) := l.map fun l => l.map fun s => s.getD []

/-- `SaiderWrapper::saidify` (saider.rs:62-85): `to_string` of the document, with `expect`. -/
def saidify (H : Hash) (chk : Bool) (fl : Str → Option Str) (sad : Str) (code kind label : Option Str) (ignore : Option (List (Option Str))) :
    Res (Matter.M × Str) := do
  let sad ← readValue fl sad
  let r ← Saider.saidify H chk sad code kind label (texts ignore)
  let t ← Res.unwrap r.2.toStr
  .ok (r.1, t)

/-- `SaiderWrapper::verify` (saider.rs:87-112). -/
def saiderVerify (H : Hash) (chk : Bool) (fl : Str → Option Str) (m : Matter.M) (sad : Str) (prefixed versioned : Option Bool) (kind label : Option Str)
    (ignore : Option (List (Option Str))) : Res Bool := do
  let sad ← readValue fl sad
  Saider.verify H chk m sad prefixed versioned kind label (texts ignore)

/-- `SaiderWrapper::new_with_sad` (saider.rs:114-134). -/
def saiderNewWithSad (H : Hash) (fl : Str → Option Str) (sad : Str) (label kind : Option Str) (ignore : Option (List (Option Str))) (code : Option Str) :
    Res Matter.M := do
  let sad ← readValue fl sad
  Saider.newWithSad H sad label kind (texts ignore) code

/-- `PrefixerWrapper::new_with_ked` (prefixer.rs:40-52). -/
def prefixerNewWithKed (H : Hash) (fl : Str → Option Str) (ked : Str) (allows : Option (List (Option Str))) (code : Option Str) : Res Matter.M := do
  let ked ← readValue fl ked
  Prefixer.newWithKed H ked (texts allows) code

/-- `PrefixerWrapper::verify` (prefixer.rs:74-76). -/
def prefixerVerify (H : Hash) (chk : Bool) (fl : Str → Option Str) (m : Matter.M) (ked : Str) (prefixed : Option Bool) : Res Bool := do
  let ked ← readValue fl ked
  Prefixer.verify H chk m ked prefixed

/-- `SerderWrapper::new_with_ked` (serder.rs:35-43). -/
def serderNewWithKed (fl : Str → Option Str) (ked : Str) (code kind : Option Str) : Res Sad := do
  let ked ← readValue fl ked
  Serder.newWithKed fl ked code kind

/-- `SerderWrapper::new` (serder.rs:17-33). -/
def serderNew (fl : Str → Option Str) (code : Option Str) (raw : Option Bytes) (kind ked : Option Str) (sad : Option Sad) : Res Sad := do
  let ked ← (match ked with
    | some t => do
      let v ← readValue fl t
      .ok (some v)
    | none => .ok none : Res (Option Value))
  Serder.new fl code raw kind ked sad

/-- `SerderWrapper::ked` (serder.rs:113-116): `to_string` of the document, with `expect`. -/
def serderKed (s : Sad) : Res Str := Res.unwrap s.ked.toStr

/-- `TholderWrapper::new_with_sith` (tholder.rs:41-44). -/
def tholderNewWithSith (chk : Bool) (fl : Str → Option Str) (sith : Str) : Res Tholder := do
  let v ← readValue fl sith
  Tholder.newWithSith chk (jsonRead fl) v

/-- `TholderWrapper::new_with_thold` (tholder.rs:31-34). -/
def tholderNewWithThold (chk : Bool) (fl : Str → Option Str) (thold : Str) : Res Tholder := do
  let v ← readValue fl thold
  Tholder.newWithThold chk v

/-- `TholderWrapper::sith` (tholder.rs:75-79). -/
def tholderSith (t : Tholder) : Res Str := do
  let v ← t.sith
  .ok v.toJson

/-- `TholderWrapper::thold` (tholder.rs:46-49). -/
def tholderThold (t : Tholder) : Str := t.thold.toJson

end Keride.Wasm
