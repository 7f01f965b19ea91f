/-
Model of /repo/src/cesr/core/tholder.rs.
-/
import Verif.Model.Value
import Verif.Model.Counter
import Verif.Model.Number
import Verif.Model.Dater

namespace Keride

/-- Reduction of an integer to the range of `i32`, as wrapping arithmetic does. -/
def wrapI32 (x : Int) : Int := (x + 2 ^ 31) % 2 ^ 32 - 2 ^ 31

/-- The outcome of an `i32` operation with exact result `x`: with overflow checks (`chk`) a panic when it
does not fit, otherwise it wraps. -/
def i32 (chk : Bool) (x : Int) : Res Int :=
  if -2 ^ 31 ≤ x ∧ x < 2 ^ 31 then .ok x else if chk then .panic else .ok (wrapI32 x)

/-- `num_rational::Rational32` (external crate num-rational 0.4): numerator and denominator. -/
structure Ratio where
  n : Int
  d : Int
deriving DecidableEq, Repr

namespace Ratio

/-- `Ratio::reduce` of num-rational, and with it `Rational32::new`. The `i32` gcd is modelled by the
mathematical one (it differs only where that would be 2^31). -/
def reduce (chk : Bool) (n d : Int) : Res Ratio :=
  if d = 0 then .panic
  else if n = 0 then .ok ⟨0, 1⟩
  else if n = d then .ok ⟨1, 1⟩
  else
    let g : Int := Int.gcd n d
    let n := Int.tdiv n g
    let d := Int.tdiv d g
    if d < 0 then do
      let n ← i32 chk (-n)
      let d ← i32 chk (-d)
      .ok ⟨n, d⟩
    else .ok ⟨n, d⟩

/-- `+=` of num-rational: over the common denominator, then reduced. -/
def add (chk : Bool) (a b : Ratio) : Res Ratio :=
  if a.d = b.d then do
    let n ← i32 chk (a.n + b.n)
    reduce chk n a.d
  else do
    let l ← i32 chk (a.d * Int.tdiv b.d (Int.gcd a.d b.d))
    let l ← i32 chk l.natAbs
    let ln ← i32 chk (a.n * Int.tdiv l a.d)
    let rn ← i32 chk (b.n * Int.tdiv l b.d)
    let n ← i32 chk (ln + rn)
    reduce chk n l

/-- `r < Rational32::new(1, 1)`: num-rational compares exactly, denominators being positive. -/
def lt1 (r : Ratio) : Bool := decide (r.n < r.d)

/-- `sum += weight` over a list. -/
def sum (chk : Bool) : Ratio → List Ratio → Res Ratio
  | acc, [] => .ok acc
  | acc, w :: ws => do
    let acc ← add chk acc w
    sum chk acc ws

end Ratio

/-- `i64::MAX`. -/
def i64Max : Int := 2 ^ 63 - 1

/-- Tholder (tholder.rs:14-21). -/
structure Tholder where
  thold : Value
  weighted : Bool
  size : Nat
  number : Option Matter.M
  bexter : Option Matter.M
deriving Repr

namespace Tholder

/-- `Default` (tholder.rs:23-27). -/
def default : Tholder := ⟨.int 1, false, 1, none, none⟩

/-- One weight of `values_to_rationals` (tholder.rs:38-59). -/
def parseWeight (chk : Bool) (w : Value) : Res Ratio := do
  let weight ← w.toStr
  let parts := splitChar '/' weight
  if parts.length ≠ 2 then
    if parts.head? = some (str% "0") then Ratio.reduce chk 0 1
    else if parts.head? = some (str% "1") then Ratio.reduce chk 1 1
    else .err .value
  else do
    let numer ← Res.ofOption .parseInt (parseSigned 10 (-2 ^ 31) (2 ^ 31 - 1) (parts.getD 0 []))
    let denom ← Res.ofOption .parseInt (parseSigned 10 (-2 ^ 31) (2 ^ 31 - 1) (parts.getD 1 []))
    if numer < 0 ∨ denom < 0 then .err .value
    else if denom < numer then .err .value
    else Ratio.reduce chk numer denom

/-- One clause of `values_to_rationals` (tholder.rs:34-62). -/
def parseClause (chk : Bool) (c : Value) : Res (List Ratio) := do
  let ws ← c.toVec
  Res.mapList (parseWeight chk) ws

/-- The second loop of `values_to_rationals` (tholder.rs:64-77). -/
def checkSums (chk : Bool) : List (List Ratio) → Res Unit
  | [] => .ok ()
  | c :: cs => do
    let zero ← Ratio.reduce chk 0 1
    let s ← Ratio.sum chk zero c
    if s.lt1 then .err .value else checkSums chk cs

/-- `values_to_rationals` (tholder.rs:29-80). -/
def valuesToRationals (chk : Bool) (v : Value) : Res (List (List Ratio)) := do
  let threshold ← v.toVec
  let clauses ← Res.mapList (parseClause chk) threshold
  checkSums chk clauses
  .ok clauses

/-- `format!("{n}")` of an `i32`. -/
def fmtInt (n : Int) : Str := if n < 0 then '-' :: fmtNat 10 n.natAbs else fmtNat 10 n.natAbs

/-- `rationals_to_bext` (tholder.rs:82-96). -/
def rationalsToBext (clauses : List (List Ratio)) : Str :=
  joinWith 'a' (clauses.map fun clause =>
    joinWith 'c' (clause.map fun w => if w.d = 1 then fmtInt w.n else fmtInt w.n ++ 's' :: fmtInt w.d))

/-- The text of a normalised weight (tholder.rs:373-377); `Display` of a ratio writes numerator, slash,
denominator. -/
def weightText (w : Ratio) : Str := if w.d = 1 then fmtInt w.n else fmtInt w.n ++ '/' :: fmtInt w.d

/-- The loop `size += clause.len() as u32` (tholder.rs:365-368). -/
def sumSizes (chk : Bool) : Nat → List (List Ratio) → Res Nat
  | acc, [] => .ok acc
  | acc, c :: cs => do
    let acc ← addU32 chk acc (c.length % 2 ^ 32)
    sumSizes chk acc cs

/-- `process_weighted` (tholder.rs:363-390); the `Tholder` it leaves behind. -/
def processWeighted (chk : Bool) (thold : Value) : Res Tholder := do
  let threshold ← valuesToRationals chk thold
  let size ← sumSizes chk 0 threshold
  let outer := threshold.map fun clause => Value.arr (clause.map fun w => .str (weightText w))
  let bexter ← Bexter.new (some (rationalsToBext threshold)) none none none none none
  .ok { thold := .arr outer, weighted := true, size := size, number := none, bexter := some bexter }

/-- `process_unweighted` (tholder.rs:349-361); the `Tholder` it leaves behind. -/
def processUnweighted (thold : Int) : Res Tholder :=
  if thold < 0 then .err .value
  else if (u32Max : Int) < thold then .err .parseInt
  else do
    let number ← Number.new (some thold.toNat) none none none none none none
    .ok { thold := .int thold, weighted := false, size := thold.toNat, number := some number, bexter := none }

/-- `process_thold` (tholder.rs:249-259). -/
def processThold (chk : Bool) (thold : Value) : Res Tholder :=
  if thold.toI64.isOk then do
    let i ← thold.toI64
    processUnweighted i
  else processWeighted chk thold

/-- `process_limen` (tholder.rs:261-295); `t` is the threshold before the call. -/
def processLimen (chk : Bool) (t : Tholder) (limen : Bytes) : Res Tholder :=
  if limen = [] then .ok t
  else do
    let s ← fromUtf8 limen
    let c ← Res.orPanic s.head?
    let hs ← Matter.hardage c
    let code ← Str.sliceTo s hs
    if Number.codex.contains code then do
      let number ← Number.new none none none none none (some s) none
      let n ← Number.num number
      if i64Max < (n : Int) then .err .parseInt
      else processUnweighted n
    else if Bexter.codex.contains code then do
      let bexter ← Bexter.new none none none none (some s) none
      let b ← Bexter.bext bexter
      let t := replaceChar 's' '/' b
      let thold := Value.arr ((splitChar 'a' t).map fun clause =>
        Value.arr ((splitChar 'c' clause).map Value.str))
      processWeighted chk thold
    else .err .unexpectedCode

/-- The check of `process_sith` that all weights are texts (tholder.rs:329-340). -/
def checkTexts : List Value → Res Unit
  | [] => .ok ()
  | clause :: cs => do
    let ws ← clause.toVec
    if ws.all (fun w => w.toStr.isOk) then checkTexts cs else .err .value

/-- The list part of `process_sith` (tholder.rs:319-346). -/
def processList (chk : Bool) (sith : Value) : Res Tholder := do
  let array ← sith.toVec
  if array.isEmpty then .err .value
  else
    let sith := if array.all (fun clause => clause.toVec.isOk) then sith else .arr [sith]
    do
      let cs ← sith.toVec
      checkTexts cs
      processWeighted chk sith

/-- `process_sith` (tholder.rs:297-347). `json` stands for `serde_json::from_str` followed by
`Value::from`; it is a parameter. -/
def processSith (chk : Bool) (json : Str → Res Value) (sith : Value) : Res Tholder :=
  if sith.toI64.isOk then do
    let i ← sith.toI64
    processUnweighted i
  else if sith.toStr.isOk then do
    let s ← sith.toStr
    if s.head? = some '[' then do
      let v ← json s
      processList chk v
    else do
      let i ← Res.ofOption .parseInt (parseSigned 16 (-2 ^ 63) i64Max s)
      processUnweighted i
  else processList chk sith

/-- `tholder == Self::default()` (tholder.rs:114). -/
def isDefault (t : Tholder) : Bool :=
  t.number.isNone && t.bexter.isNone && !t.weighted && t.size == 1 &&
    (match t.thold with
    | .int i => i == 1
    | _ => false)

/-- `Tholder::new` (tholder.rs:99-119). -/
def new (chk : Bool) (json : Str → Res Value) (thold : Option Value) (limen : Option Bytes)
    (sith : Option Value) : Res Tholder := do
  let t := default
  let t ← (match thold with
    | some v => processThold chk v
    | none => .ok t : Res Tholder)
  let t ← (match limen with
    | some b => processLimen chk t b
    | none => .ok t : Res Tholder)
  let t ← (match sith with
    | some v => processSith chk json v
    | none => .ok t : Res Tholder)
  if t.isDefault then .err .emptyMaterial else .ok t

/-- `new_with_thold` (tholder.rs:121-123). -/
def newWithThold (chk : Bool) (v : Value) : Res Tholder := new chk (fun _ => .err .json) (some v) none none

/-- `new_with_limen` (tholder.rs:125-127). -/
def newWithLimen (chk : Bool) (b : Bytes) : Res Tholder := new chk (fun _ => .err .json) none (some b) none

/-- `new_with_sith` (tholder.rs:129-131). -/
def newWithSith (chk : Bool) (json : Str → Res Value) (v : Value) : Res Tholder := new chk json none none (some v)

/-- `num` (tholder.rs:145-151). -/
def num (t : Tholder) : Res (Option Nat) :=
  if t.weighted then .ok none
  else do
    let i ← t.thold.toI64
    if 0 ≤ i ∧ i ≤ u32Max then .ok (some i.toNat) else .err .parseInt

/-- `limen` (tholder.rs:161-175). -/
def limen (chk : Bool) (t : Tholder) : Res Bytes :=
  if t.weighted then
    match t.bexter with
    | some b => Matter.qb64b chk b
    | none => .err .value
  else
    match t.number with
    | some n => Matter.qb64b chk n
    | none => .err .value

/-- `format!("{thold:x}")` of an `i64`: two's complement for negative numbers. -/
def fmtHexI64 (i : Int) : Str := if i < 0 then fmtNat 16 (i + 2 ^ 64).toNat else fmtNat 16 i.toNat

/-- `sith` (tholder.rs:177-190). -/
def sith (t : Tholder) : Res Value :=
  if t.weighted then do
    let v ← t.thold.toVec
    if v.length = 1 then Res.orPanic v.head? else .ok t.thold
  else do
    let i ← t.thold.toI64
    .ok (.str (fmtHexI64 i))

/-- `satisfy_numeric` (tholder.rs:206-214). -/
def satisfyNumeric (t : Tholder) (indices : List Nat) : Res Bool := do
  let thold ← t.thold.toI64
  .ok (decide (0 < thold ∧ thold.toNat ≤ indices.length))

/-- Insertion into a sorted list. -/
def insertNat (x : Nat) : List Nat → List Nat
  | [] => [x]
  | y :: l => if x ≤ y then x :: y :: l else y :: insertNat x l

/-- `Vec::sort` of `u32`: the sorted list; the sorting algorithm of the standard library is not modelled. -/
def sortNat : List Nat → List Nat
  | [] => []
  | x :: l => insertNat x (sortNat l)

/-- `Vec::dedup`: drops repeated neighbours. -/
def dedup : List Nat → List Nat
  | [] => []
  | [a] => [a]
  | a :: b :: l => if a = b then dedup (b :: l) else a :: dedup (b :: l)

/-- The loop `sats[index] = true` (tholder.rs:225-228). -/
def mark : List Bool → List Nat → Res (List Bool)
  | sats, [] => .ok sats
  | sats, i :: is => if i < sats.length then mark (sats.set i true) is else .panic

/-- The inner loop of `satisfy_weighted` (tholder.rs:234-240): the sum and the next position. -/
def clauseSum (chk : Bool) (sats : List Bool) : Nat → Ratio → List Ratio → Res (Ratio × Nat)
  | wio, cw, [] => .ok (cw, wio)
  | wio, cw, w :: ws => do
    let s ← Res.orPanic sats[wio]?
    let cw ← (if s then Ratio.add chk cw w else .ok cw : Res Ratio)
    clauseSum chk sats (wio + 1) cw ws

/-- The outer loop of `satisfy_weighted` (tholder.rs:232-246). -/
def clausesOk (chk : Bool) (sats : List Bool) : Nat → List (List Ratio) → Res Bool
  | _, [] => .ok true
  | wio, c :: cs => do
    let zero ← Ratio.reduce chk 0 1
    let r ← clauseSum chk sats wio zero c
    if r.1.lt1 then .ok false else clausesOk chk sats r.2 cs

/-- `satisfy_weighted` (tholder.rs:216-247). -/
def satisfyWeighted (chk : Bool) (t : Tholder) (indices : List Nat) : Res Bool := do
  let indices := dedup (sortNat indices)
  let sats ← mark (List.replicate t.size false) indices
  let clauses ← valuesToRationals chk t.thold
  clausesOk chk sats 0 clauses

/-- `satisfy` (tholder.rs:196-204). -/
def satisfy (chk : Bool) (t : Tholder) (indices : List Nat) : Res Bool :=
  if t.number.isSome then satisfyNumeric t indices
  else if t.bexter.isSome then satisfyWeighted chk t indices
  else .ok false

end Tholder

end Keride
