/-
C123: dates of transaction events.
-/
import Verif.Spec.Dates
import Verif.Model.Sample.Store
import Verif.Props.Dater
import Mathlib.Tactic.Ring
import Mathlib.Tactic.IntervalCases

namespace Keride.Props

open Spec Sample

theorem digit_val : ∀ v < 10, digitVal (Char.ofNat (48 + v)) = some v := by decide

theorem digits_read (k : Nat) : ∀ (n acc : Nat) (t : Str), readDigits k acc (writeDigits k n ++ t) = some (acc * 10 ^ k + n % 10 ^ k, t) := by
  induction k with
  | zero => intro n acc t; simp [readDigits, writeDigits, Nat.mod_one]
  | succ k ih =>
    intro n acc t
    rw [writeDigits, List.cons_append, readDigits, digit_val _ (Nat.mod_lt _ (by decide)), Option.bind_some, ih, Nat.mod_pow_succ]
    congr 2
    ring

theorem digits_back {k n : Nat} (h : n < 10 ^ k) (t : Str) : readDigits k 0 (writeDigits k n ++ t) = some (n, t) := by
  rw [digits_read, Nat.mod_eq_of_lt h]
  simp

theorem digits_length (k n : Nat) : (writeDigits k n).length = k := by
  induction k with
  | zero => rfl
  | succ k ih => rw [writeDigits, List.length_cons, ih]

theorem digits_all (k n : Nat) : ∀ c ∈ writeDigits k n, (digitVal c).isSome = true := by
  induction k with
  | zero => simp [writeDigits]
  | succ k ih =>
    intro c hc
    rcases List.mem_cons.mp hc with rfl | hc
    · rw [digit_val _ (Nat.mod_lt _ (by decide))]
      rfl
    · exact ih c hc

theorem fraction_digits {k m : Nat} (hk : 0 < k) (h9 : k ≤ 9) (hm : m < 10 ^ k) {t : Str} (ht : ∀ c ∈ t.head?, digitVal c = none) :
    readFraction ('.' :: (writeDigits k m ++ t)) = some (m * 10 ^ (9 - k), t) := by
  have htw : (writeDigits k m ++ t).takeWhile (fun c => (digitVal c).isSome) = writeDigits k m := by
    rw [List.takeWhile_append_of_pos (digits_all k m)]
    cases t with
    | nil => simp
    | cons c t =>
      rw [List.takeWhile_cons_of_neg (by rw [ht c rfl]; simp), List.append_nil]
  rw [readFraction]
  simp only [htw, digits_length]
  rw [if_neg (by intro h; have := congrArg List.length h; rw [digits_length] at this; simp at this; omega), Nat.min_eq_right h9]
  have := digits_back hm []
  rw [List.append_nil] at this
  rw [this, Option.bind_some]
  congr 2
  rw [List.drop_append, digits_length]
  simp [digits_length]

theorem fraction_back {n : Nat} (h : n < 1000000000) : readFraction (writeFraction n ++ str% "+00:00") = some (n, str% "+00:00") := by
  have hh : ∀ c ∈ (str% "+00:00").head?, digitVal c = none := by decide
  unfold writeFraction
  split
  · rename_i h0
    subst h0
    rfl
  split
  · rename_i h1
    rw [List.cons_append, fraction_digits (by decide) (by decide) (by omega) hh]
    congr 2
    omega
  split
  · rw [List.cons_append, fraction_digits (by decide) (by decide) (by omega) hh]
    congr 2
    omega
  · rw [List.cons_append, fraction_digits (by decide) (by decide) (by omega) hh]
    simp

theorem one_back (c : Char) (l : List Char) (h : c ∈ l) (t : Str) : readOne l (c :: t) = some t := by
  rw [readOne, if_pos h]

theorem daysIn_le (y m : Nat) : daysIn y m ≤ 31 := by
  unfold daysIn
  split
  · split <;> omega
  · split <;> omega

/-- C123: what the library writes as the date is read, as the time that the clock showed. -/
theorem C123_read (t : DateTime) (h : DayAndTime t) : readDate (writeDate t) = some t.instant := by
  obtain ⟨h1, h2, h3, h4, h5, h6, h7, h8, h9⟩ := h
  have hd := daysIn_le t.year t.month
  unfold readDate writeDate
  have off : readOffset (str% "+00:00") = some 0 := by decide
  simp only [digits_back (show t.year < 10 ^ 4 by omega), digits_back (show t.month < 10 ^ 2 by omega), digits_back (show t.day < 10 ^ 2 by omega),
    digits_back (show t.hour < 10 ^ 2 by omega), digits_back (show t.minute < 10 ^ 2 by omega), digits_back (show t.second < 10 ^ 2 by omega), fraction_back h9, off,
    one_back '-' ['-'] (by decide), one_back 'T' ['T', 't'] (by decide), one_back ':' [':'] (by decide), Option.bind_eq_bind, Option.bind_some]
  rw [if_pos ⟨h2, h3, h4, h5, h6, h7, by omega⟩]
  simp

theorem month_le {y m : Nat} (h : 1 ≤ m) (h' : m ≤ 12) : daysBeforeMonth y m ≤ 335 := by
  unfold daysBeforeMonth
  have : (if 2 < m ∧ leapYear y then 1 else 0) ≤ 1 := by split <;> omega
  interval_cases m <;> simp_all <;> omega

theorem leap_iff (y : Nat) : leapYear y = true ↔ y % 4 = 0 ∧ (y % 100 ≠ 0 ∨ y % 400 = 0) := by
  simp [leapYear]

theorem year_step (y : Nat) : daysBeforeYear (y + 1) = daysBeforeYear y + (if leapYear y then 366 else 365) := by
  unfold daysBeforeYear
  by_cases h : leapYear y = true
  · rw [if_pos h]
    rw [leap_iff] at h
    omega
  · rw [if_neg h]
    rw [leap_iff] at h
    omega

theorem month_step {y m : Nat} (h1 : 1 ≤ m) (h2 : m < 12) : daysBeforeMonth y (m + 1) = daysBeforeMonth y m + daysIn y m := by
  unfold daysBeforeMonth daysIn
  cases leapYear y <;> interval_cases m <;> rfl

theorem year_end (y : Nat) : daysBeforeMonth y 12 + daysIn y 12 = if leapYear y then 366 else 365 := by
  unfold daysBeforeMonth daysIn
  cases leapYear y <;> rfl

theorem year_start (y : Nat) : daysBeforeMonth y 1 = 0 := by
  unfold daysBeforeMonth
  simp

/-- C123: the days are counted by one. The number of the day after is one more, so that times are the nanoseconds that
have passed since the year 0 began. -/
theorem C123_calendar (y m d : Nat) (h1 : 1 ≤ m) (h2 : m ≤ 12) (h3 : 1 ≤ d) (h4 : d ≤ daysIn y m) :
    dayNumber (dayAfter y m d).1 (dayAfter y m d).2.1 (dayAfter y m d).2.2 = dayNumber y m d + 1 ∧ dayNumber 0 1 1 = 0 := by
  refine ⟨?_, by decide⟩
  unfold dayAfter
  split
  · simp only [dayNumber]
    omega
  rename_i hlast
  have hd : d = daysIn y m := by omega
  have hpos : 1 ≤ daysIn y m := by omega
  split
  · rename_i hm
    simp only [dayNumber, hd, month_step h1 hm]
    omega
  · have hm : m = 12 := by omega
    subst hm
    have := year_end y
    simp only [dayNumber, hd, year_step, year_start]
    omega

theorem tdiv_gt (x : Int) : x.tdiv 1000000000 > 36000000000 ↔ 36000000001 * 1000000000 ≤ x := by
  by_cases h : 0 ≤ x
  · rw [Int.tdiv_eq_ediv_of_nonneg h]
    omega
  · have : x.tdiv 1000000000 = -((-x).tdiv 1000000000) := by rw [Int.neg_tdiv, Int.neg_neg]
    rw [this, Int.tdiv_eq_ediv_of_nonneg (by omega)]
    omega

theorem instant_bounds (t : DateTime) (h : DayAndTime t) :
    (daysBeforeYear t.year : Int) * 86400000000000 ≤ t.instant ∧ t.instant < ((daysBeforeYear t.year : Int) + 366) * 86400000000000 := by
  obtain ⟨h1, h2, h3, h4, h5, h6, h7, h8, h9⟩ := h
  have hd := daysIn_le t.year t.month
  have hm := month_le (y := t.year) h2 h3
  unfold DateTime.instant dayNumber
  push_cast
  omega

theorem expired_of {now t : Int} {s : Str} (h : readDate s = some t) : expiredAt now s = .ok (decide ((now - t).tdiv 1000000000 > 36000000000)) := by
  rw [expiredAt, h]
  rfl

/-- C123: for a thousand years a verifier does not find too old what the library has dated. -/
theorem C123_thousand (made now : DateTime) (h : DayAndTime made) (hn : DayAndTime now) (hy : now.year ≤ made.year + 1000) :
    expiredAt now.instant (writeDate made) = .ok false := by
  rw [expired_of (C123_read made h)]
  obtain ⟨a1, a2⟩ := instant_bounds made h
  obtain ⟨b1, b2⟩ := instant_bounds now hn
  have : (daysBeforeYear now.year : Int) ≤ daysBeforeYear made.year + 366000 := by
    unfold daysBeforeYear
    omega
  congr 1
  rw [decide_eq_false_iff_not]
  rw [tdiv_gt]
  omega

/-- C123: from 1143 years on it does. -/
theorem C123_old (made now : DateTime) (h : DayAndTime made) (hn : DayAndTime now) (hy : made.year + 1143 ≤ now.year) :
    expiredAt now.instant (writeDate made) = .ok true := by
  rw [expired_of (C123_read made h)]
  obtain ⟨a1, a2⟩ := instant_bounds made h
  obtain ⟨b1, b2⟩ := instant_bounds now hn
  have : (daysBeforeYear made.year : Int) + 417460 ≤ daysBeforeYear now.year := by
    unfold daysBeforeYear
    omega
  congr 1
  rw [decide_eq_true_eq, tdiv_gt]
  omega

/-- C123: what is dated in the future is not found too old, however far. -/
theorem C123_future (dt : Str) (t now : Int) (h : readDate dt = some t) (hf : now ≤ t) : expiredAt now dt = .ok false := by
  rw [expired_of h]
  congr 1
  rw [decide_eq_false_iff_not, tdiv_gt]
  omega

/-- C123: seconds are counted by one: what the clock shows a second later is later by 1000000000 nanoseconds. -/
theorem C123_tick (t : DateTime) (h : DayAndTime t) : (secondAfter t).instant = t.instant + 1000000000 := by
  obtain ⟨h1, h2, h3, h4, h5, h6, h7, h8, h9⟩ := h
  unfold secondAfter
  split
  · simp only [DateTime.instant]
    push_cast
    omega
  split
  · simp only [DateTime.instant]
    push_cast
    omega
  split
  · simp only [DateTime.instant]
    push_cast
    omega
  · have := (C123_calendar t.year t.month t.day h2 h3 h4 h5).1
    simp only [DateTime.instant, this]
    push_cast
    omega

/-- C123: dates with a difference to universal time are read as the time that it is there: earlier by the difference if it is
positive, later if it is negative. -/
theorem C123_offset (t : DateTime) (h : DayAndTime t) (hours minutes : Nat) (hh : hours < 24) (hm : minutes < 60) :
    readDate (localDate t '+' hours minutes) = some (t.instant - (hours * 3600 + minutes * 60 : Nat) * 1000000000) ∧
      readDate (localDate t '-' hours minutes) = some (t.instant + (hours * 3600 + minutes * 60 : Nat) * 1000000000) := by
  obtain ⟨h1, h2, h3, h4, h5, h6, h7, h8, h9⟩ := h
  have hd := daysIn_le t.year t.month
  have off : ∀ c, readOffset (c :: (writeDigits 2 hours ++ (':' :: writeDigits 2 minutes))) =
      if c = '+' then some ((hours * 60 + minutes : Nat) : Int) else if c = '-' then some (-((hours * 60 + minutes : Nat) : Int)) else none := fun c => by
    have hb := digits_back (k := 2) (n := minutes) (by omega) []
    rw [List.append_nil] at hb
    have he : ∃ x y, writeDigits 2 hours ++ (':' :: writeDigits 2 minutes) = x :: y := ⟨_, _, rfl⟩
    obtain ⟨x, y, he⟩ := he
    have hr : readDigits 2 0 (x :: y) = some (hours, ':' :: writeDigits 2 minutes) := by
      rw [← he]
      exact digits_back (by omega) _
    rw [he, readOffset]
    · simp only [hr, one_back ':' [':'] (by decide), hb, Option.bind_eq_bind, Option.bind_some]
      rw [if_neg (by simp; omega)]
    · intro hx
      cases hx
  have gen : ∀ c, digitVal c = none → readDate (localDate t c hours minutes) =
      (readOffset (c :: (writeDigits 2 hours ++ (':' :: writeDigits 2 minutes)))).bind fun o => some (t.instant - o * 60 * 1000000000) := fun c hc => by
    have hf := fraction_digits (k := 9) (m := t.nano) (by decide) (by decide) (by omega) (t := c :: (writeDigits 2 hours ++ (':' :: writeDigits 2 minutes)))
      (fun x hx => by cases hx; exact hc)
    unfold readDate localDate
    simp only [List.append_assoc, List.cons_append, List.nil_append]
    simp only [digits_back (show t.year < 10 ^ 4 by omega), digits_back (show t.month < 10 ^ 2 by omega), digits_back (show t.day < 10 ^ 2 by omega),
      digits_back (show t.hour < 10 ^ 2 by omega), digits_back (show t.minute < 10 ^ 2 by omega), digits_back (show t.second < 10 ^ 2 by omega), hf,
      one_back '-' ['-'] (by decide), one_back 'T' ['T', 't'] (by decide), one_back ':' [':'] (by decide), Option.bind_eq_bind, Option.bind_some]
    congr 1
    funext o
    rw [if_pos ⟨h2, h3, h4, h5, h6, h7, by omega⟩]
    simp
  generalize t.instant = z at gen ⊢
  constructor
  · rw [gen '+' (by decide), off, if_pos rfl, Option.bind_some]
    refine congrArg some ?_
    push_cast
    ring
  · rw [gen '-' (by decide), off, if_neg (by decide), if_pos rfl, Option.bind_some]
    refine congrArg some ?_
    push_cast
    ring

/-- C123: reading a date does not panic, whatever it is. -/
theorem C123_no_panic (now : Int) (dt : Str) : expiredAt now dt ≠ .panic := by
  unfold expiredAt
  cases readDate dt with
  | none => exact nofun
  | some t => exact nofun

theorem digit_date : ∀ v < 10, Char.ofNat (48 + v) ∈ dateChars := by decide

theorem digits_date (k n : Nat) : ∀ c ∈ writeDigits k n, c ∈ dateChars := by
  induction k with
  | zero => simp [writeDigits]
  | succ k ih =>
    intro c hc
    rcases List.mem_cons.mp hc with rfl | hc
    · exact digit_date _ (Nat.mod_lt _ (by decide))
    · exact ih c hc

/-- C123: the date primitive of the current time is one, is read back as the text that the clock gave, which is read as
the time to the microsecond. -/
theorem C123_dater (chk : Bool) (t : DateTime) (h : DayAndTime t) :
    (∃ m, Dater.new (nowAsIso8601 t) none none none none none none = .ok m ∧ Dater.dts chk m = .ok (nowAsIso8601 t)) ∧
      readDate (nowAsIso8601 t) = some (t.instant - (t.nano % 1000 : Nat)) := by
  obtain ⟨h1, h2, h3, h4, h5, h6, h7, h8, h9⟩ := h
  constructor
  · have hc : ∀ c ∈ nowAsIso8601 t, c ∈ dateChars := by
      have hx : ∀ c ∈ str% "+00:00", c ∈ dateChars := by decide
      have e1 : '-' ∈ dateChars := by decide
      have e2 : 'T' ∈ dateChars := by decide
      have e3 : ':' ∈ dateChars := by decide
      have e4 : '.' ∈ dateChars := by decide
      have app : ∀ {a b : Str}, (∀ c ∈ a, c ∈ dateChars) → (∀ c ∈ b, c ∈ dateChars) → ∀ c ∈ a ++ b, c ∈ dateChars := fun ha hb c hc =>
        (List.mem_append.mp hc).elim (ha c) (hb c)
      have con : ∀ {x : Char} {b : Str}, x ∈ dateChars → (∀ c ∈ b, c ∈ dateChars) → ∀ c ∈ x :: b, c ∈ dateChars := fun ha hb c hc =>
        (List.mem_cons.mp hc).elim (fun e => e ▸ ha) (hb c)
      unfold nowAsIso8601
      exact app (digits_date _ _) (con e1 (app (digits_date _ _) (con e1 (app (digits_date _ _) (con e2 (app (digits_date _ _) (con e3 (app (digits_date _ _)
        (con e3 (app (digits_date _ _) (con e4 (app (digits_date _ _) hx))))))))))))
    have hl : (nowAsIso8601 t).length = 32 := by
      unfold nowAsIso8601
      simp only [List.length_append, List.length_cons, digits_length, List.length_nil]
    obtain ⟨m, k1, k2, -⟩ := C26_roundtrip chk _ none hc hl
    exact ⟨m, k1, k2⟩
  · have hd := daysIn_le t.year t.month
    have off : readOffset (str% "+00:00") = some 0 := by decide
    have hh : ∀ c ∈ (str% "+00:00").head?, digitVal c = none := by decide
    unfold readDate nowAsIso8601
    simp only [digits_back (show t.year < 10 ^ 4 by omega), digits_back (show t.month < 10 ^ 2 by omega), digits_back (show t.day < 10 ^ 2 by omega),
      digits_back (show t.hour < 10 ^ 2 by omega), digits_back (show t.minute < 10 ^ 2 by omega), digits_back (show t.second < 10 ^ 2 by omega),
      fraction_digits (k := 6) (by decide) (by decide) (show t.nano / 1000 < 10 ^ 6 by omega) hh, off,
      one_back '-' ['-'] (by decide), one_back 'T' ['T', 't'] (by decide), one_back ':' [':'] (by decide), Option.bind_eq_bind, Option.bind_some]
    rw [if_pos ⟨h2, h3, h4, h5, h6, h7, by omega⟩]
    congr 1
    simp only [DateTime.instant]
    push_cast
    omega

/-- Dates: one that the library writes, one with an offset, and one of a day that there is not. -/
example : DayAndTime ⟨2024, 2, 29, 23, 59, 59, 26490000⟩ ∧ writeDate ⟨2024, 2, 29, 23, 59, 59, 26490000⟩ = str% "2024-02-29T23:59:59.026490+00:00" ∧
    readDate (str% "2024-03-01T01:29:59.02649+01:30") = some (DateTime.instant ⟨2024, 2, 29, 23, 59, 59, 26490000⟩) ∧
    readDate (str% "2023-02-29T23:59:59Z") = none ∧
    expiredAt (DateTime.instant ⟨2026, 11, 16, 0, 0, 0, 0⟩) (str% "0800-12-25T00:00:00Z") = .ok true := by decide +kernel

end Keride.Props
