/-
What a clock may show, and the day after.
-/
import Verif.Model.Sample.Dates

namespace Keride.Spec

open Sample

/-- What a clock may show: a day that there is, and a time of day. -/
def DayAndTime (t : DateTime) : Prop :=
  t.year ≤ 9999 ∧ 1 ≤ t.month ∧ t.month ≤ 12 ∧ 1 ≤ t.day ∧ t.day ≤ daysIn t.year t.month ∧ t.hour < 24 ∧ t.minute < 60 ∧ t.second < 60 ∧ t.nano < 1000000000

instance (t : DateTime) : Decidable (DayAndTime t) := inferInstanceAs (Decidable (_ ∧ _))

/-- The day after a day: the next of the month, or the first of the next month, or the first of the next year. -/
def dayAfter (y m d : Nat) : Nat × Nat × Nat :=
  if d < daysIn y m then (y, m, d + 1) else if m < 12 then (y, m + 1, 1) else (y + 1, 1, 1)

/-- What a clock shows a second later. -/
def secondAfter (t : DateTime) : DateTime :=
  if t.second < 59 then { t with second := t.second + 1 }
  else if t.minute < 59 then { t with minute := t.minute + 1, second := 0 }
  else if t.hour < 23 then { t with hour := t.hour + 1, minute := 0, second := 0 }
  else
    let d := dayAfter t.year t.month t.day
    ⟨d.1, d.2.1, d.2.2, 0, 0, 0, t.nano⟩

/-- A date and time with nine digits after the point and a difference to universal time, as RFC 3339 has it. -/
def localDate (t : DateTime) (sign : Char) (hours minutes : Nat) : Str :=
  writeDigits 4 t.year ++ str% "-" ++ writeDigits 2 t.month ++ str% "-" ++ writeDigits 2 t.day ++ str% "T" ++ writeDigits 2 t.hour ++ str% ":" ++ writeDigits 2 t.minute ++
    str% ":" ++ writeDigits 2 t.second ++ str% "." ++ writeDigits 9 t.nano ++ [sign] ++ writeDigits 2 hours ++ str% ":" ++ writeDigits 2 minutes

end Keride.Spec
