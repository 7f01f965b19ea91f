/-
Model of the dates of /repo/sample/keri: how chrono writes them (acdc/tel/vc.rs:19 and 41, acdc/event.rs:60), how it reads
them, and when they are too long ago (acdc/verification.rs:42-47). Years are those from 0 to 9999. Of the texts that
chrono reads those of the grammar of RFC 3339 are modelled, and others taken to be unreadable; a leap second counts as the
second after it.
-/
import Verif.Model.Basic

namespace Keride.Sample

/-- A date and time of day, as a clock shows it. -/
structure DateTime where
  year : Nat
  month : Nat
  day : Nat
  hour : Nat
  minute : Nat
  second : Nat
  nano : Nat
deriving Repr, DecidableEq

/-- Is a year a leap year? -/
def leapYear (y : Nat) : Bool := y % 4 = 0 && (y % 100 ≠ 0 || y % 400 = 0)

/-- How many days a month has. -/
def daysIn (y m : Nat) : Nat :=
  if m = 2 then (if leapYear y then 29 else 28) else if m = 4 ∨ m = 6 ∨ m = 9 ∨ m = 11 then 30 else 31

/-- How many days are before the first of a year, from the first day of the year 0 on. -/
def daysBeforeYear (y : Nat) : Nat := 365 * y + (y + 3) / 4 + (y + 399) / 400 - (y + 99) / 100

/-- How many days of a year are before the first of a month. -/
def daysBeforeMonth (y m : Nat) : Nat := ([0, 31, 59, 90, 120, 151, 181, 212, 243, 273, 304, 334][m - 1]?).getD 0 + (if 2 < m ∧ leapYear y then 1 else 0)

/-- The number of a day, from the first day of the year 0 on. -/
def dayNumber (y m d : Nat) : Nat := daysBeforeYear y + daysBeforeMonth y m + (d - 1)

/-- The nanoseconds from the beginning of the year 0. -/
def DateTime.instant (t : DateTime) : Int :=
  (((dayNumber t.year t.month t.day * 86400 + t.hour * 3600 + t.minute * 60 + t.second) * 1000000000 + t.nano : Nat) : Int)

/-- The last `k` digits of a number. -/
def writeDigits : Nat → Nat → Str
  | 0, _ => []
  | k + 1, n => Char.ofNat (48 + n / 10 ^ k % 10) :: writeDigits k n

/-- The fraction of a second: none, three, six or nine digits, as many as are needed. -/
def writeFraction (n : Nat) : Str :=
  if n = 0 then [] else if n % 1000000 = 0 then '.' :: writeDigits 3 (n / 1000000) else if n % 1000 = 0 then '.' :: writeDigits 6 (n / 1000) else '.' :: writeDigits 9 n

/-- `Utc::now().format("%+").to_string()` (acdc/tel/vc.rs:19, 41; acdc/event.rs:60), for what the clock shows. -/
def writeDate (t : DateTime) : Str :=
  writeDigits 4 t.year ++ ('-' :: (writeDigits 2 t.month ++ ('-' :: (writeDigits 2 t.day ++ ('T' :: (writeDigits 2 t.hour ++ (':' :: (writeDigits 2 t.minute ++
    (':' :: (writeDigits 2 t.second ++ (writeFraction t.nano ++ str% "+00:00")))))))))))

/-- `now_as_iso8601` (src/cesr/core/dater.rs:33-36), for what the clock shows: always six digits after the point. -/
def nowAsIso8601 (t : DateTime) : Str :=
  writeDigits 4 t.year ++ ('-' :: (writeDigits 2 t.month ++ ('-' :: (writeDigits 2 t.day ++ ('T' :: (writeDigits 2 t.hour ++ (':' :: (writeDigits 2 t.minute ++
    (':' :: (writeDigits 2 t.second ++ ('.' :: (writeDigits 6 (t.nano / 1000) ++ str% "+00:00"))))))))))))

/-- The value of a digit. -/
def digitVal (c : Char) : Option Nat := if 48 ≤ c.toNat ∧ c.toNat ≤ 57 then some (c.toNat - 48) else none

/-- Exactly `k` digits. -/
def readDigits : Nat → Nat → Str → Option (Nat × Str)
  | 0, acc, s => some (acc, s)
  | k + 1, acc, c :: s => (digitVal c).bind fun v => readDigits k (acc * 10 + v) s
  | _ + 1, _, [] => none

/-- One of some characters. -/
def readOne (l : List Char) : Str → Option Str
  | [] => none
  | c :: s => if c ∈ l then some s else none

/-- The fraction of a second, if there is one, in nanoseconds: at least one digit, of which those after the ninth do not count. -/
def readFraction (s : Str) : Option (Nat × Str) :=
  match s with
  | '.' :: t =>
    let ds := t.takeWhile fun c => (digitVal c).isSome
    if ds = [] then none
    else (readDigits (min 9 ds.length) 0 ds).bind fun r => some (r.1 * 10 ^ (9 - min 9 ds.length), t.drop ds.length)
  | _ => some (0, s)

/-- The difference to universal time, in minutes. -/
def readOffset (s : Str) : Option Int :=
  match s with
  | [c] => if c = 'Z' ∨ c = 'z' then some 0 else none
  | c :: t => do
    let (h, t) ← readDigits 2 0 t
    let t ← readOne [':'] t
    let (m, t) ← readDigits 2 0 t
    if t ≠ [] ∨ 24 ≤ h ∨ 60 ≤ m then none
    else if c = '+' then some ((h * 60 + m : Nat) : Int) else if c = '-' then some (-((h * 60 + m : Nat) : Int)) else none
  | [] => none

/-- `DateTime::parse_from_rfc3339`, `with_timezone(&Utc)` (acdc/verification.rs:43-44). -/
def readDate (s : Str) : Option Int := do
  let (year, s) ← readDigits 4 0 s
  let s ← readOne ['-'] s
  let (month, s) ← readDigits 2 0 s
  let s ← readOne ['-'] s
  let (day, s) ← readDigits 2 0 s
  let s ← readOne ['T', 't'] s
  let (hour, s) ← readDigits 2 0 s
  let s ← readOne [':'] s
  let (minute, s) ← readDigits 2 0 s
  let s ← readOne [':'] s
  let (second, s) ← readDigits 2 0 s
  let (nano, s) ← readFraction s
  let off ← readOffset s
  if 1 ≤ month ∧ month ≤ 12 ∧ 1 ≤ day ∧ day ≤ daysIn year month ∧ hour < 24 ∧ minute < 60 ∧ second ≤ 60 then
    some ((⟨year, month, day, hour, minute, second, nano⟩ : DateTime).instant - off * 60 * 1000000000)
  else none

/-- Whether a date is too long ago (acdc/verification.rs:14, 42-47): more than 36000000000 whole seconds. -/
def expiredAt (now : Int) (dt : Str) : Res Bool := do
  let t ← Res.ofOption .external (readDate dt)
  .ok (decide ((now - t).tdiv 1000000000 > 36000000000))

end Keride.Sample
