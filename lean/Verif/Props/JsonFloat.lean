/-
C47 and C52 with floats.
-/
import Verif.Lemmas.JsonFloat
import Verif.Props.Sadder

namespace Keride.Props

open Spec Matter

/-- C47: reading the text of a value gives the value back, also if it has floats: those written with a point, with or without exponent, that the
reader prints as they were. Still missing: deeper values and floats without a point, see `C47_false`. -/
theorem C47_exponents_partial (fl : Str → Option Str) (v : Value) (hv : Proper (FloatText fl) v) (hd : nesting v ≤ 127) : jsonRead fl v.toJson = .ok v :=
  jsonRead_json (fun _ h => floatOk_text h) hv hd

/-- C47: different values with such floats have different texts, whatever their nesting. -/
theorem C47_injective_floats (fl : Str → Option Str) (v w : Value) (hv : Proper (FloatText fl) v) (hw : Proper (FloatText fl) w) (h : v.toJson = w.toJson) : v = w :=
  toJson_inj_floats hv hw h

/-- C47: whatever text was read, the value that came of it is written as a text from which the same value is read, if printing and reading of
floats is settled. So reading and writing again changes nothing after the first time. -/
theorem C47_reread (fl : Str → Option Str) (hfl : Settled fl) (s : Str) (v : Value) (h : jsonRead fl s = .ok v) : jsonRead fl v.toJson = .ok v :=
  have hw := jsonRead_well hfl h
  C47_exponents_partial fl v hw.1 hw.2

/-- Floats that are printed as they are written, if written with digits around a point and possibly an exponent. -/
def asWritten (t : Str) : Option Str :=
  match parseNum some t with
  | some (.float u, []) => if u = t then some t else none
  | _ => none

theorem asWritten_settled : Settled asWritten := by
  intro t u h
  unfold asWritten at h
  split at h
  case h_2 => cases h
  rename_i u' hp
  split at h
  case isFalse => cases h
  cases h
  rename_i e
  subst e
  obtain ⟨t', e, sign, a, f, x, rfl, hN, hv⟩ := parseNum_sound hp
  rw [List.append_nil] at e
  rcases hv with ⟨i, -, hv⟩ | ⟨hn, u, hu, hv⟩
  · cases hv
  cases hv
  refine ⟨sign, a, f, x, e, hN, .inr ⟨hn, _, ?_, rfl⟩⟩
  unfold asWritten
  rw [hp]
  simp

/-- A value with a float that has an exponent: the hypotheses of `C47_exponents_partial` and `C47_reread` are met. -/
example : jsonRead asWritten (str% "{ \"a\": [1.5e-7, 2.0] }") = .ok (.obj [(str% "a", .arr [.float (str% "1.5e-7"), .float (str% "2.0")])]) ∧
    jsonRead asWritten (str% "{\"a\":[1.5e-7,2.0]}") = .ok (.obj [(str% "a", .arr [.float (str% "1.5e-7"), .float (str% "2.0")])]) := by
  have h : jsonRead asWritten (str% "{ \"a\": [1.5e-7, 2.0] }") = .ok (.obj [(str% "a", .arr [.float (str% "1.5e-7"), .float (str% "2.0")])]) := by rfl
  exact ⟨h, C47_reread asWritten asWritten_settled _ _ h⟩

/-- C52 with floats: an event that `Serder::new_with_ked` wrote is read back, also if it has floats that are written with a point and are printed as
they were. -/
theorem C52_serder_floats_partial (fl : Str → Option Str) (o : List (Str × Value)) (code kind : Option Str) (s : Sad)
    (h : Serder.newWithKed fl (.obj o) code kind = .ok s) (hv : o.head?.map Prod.fst = some (str% "v")) (hp : Proper (FloatText fl) (.obj o))
    (hd : nesting (.obj o) ≤ 127) (hl : s.raw.length < 2 ^ 32) (rest : Str) :
    Serder.new fl code (some (s.raw ++ toUtf8 rest)) none none none = .ok s := by
  obtain ⟨h1, h2⟩ := serder_ked.mp h
  refine serder_raw.mpr ⟨populate_back (fun _ h => floatOk_text h) h1 hl hp hd ?_ rest, h2⟩
  obtain ⟨o', ident, size, p, q, t, e, -, hs, -, -, -, hS, -⟩ := populateFromKed_ok h1
  cases e
  have := (sizeOut_first hs hv).1
  rw [hS]
  exact this

/-- C52 with floats for credentials. -/
theorem C52_creder_floats_partial (fl : Str → Option Str) (o : List (Str × Value)) (code kind : Option Str) (s : Sad)
    (h : Creder.newWithKed fl (.obj o) code kind = .ok s) (hv : o.head?.map Prod.fst = some (str% "v")) (hp : Proper (FloatText fl) (.obj o))
    (hd : nesting (.obj o) ≤ 127) (hl : s.raw.length < 2 ^ 32) (rest : Str) :
    Creder.new fl code (some (s.raw ++ toUtf8 rest)) none none none = .ok s := by
  obtain ⟨h1, h2⟩ := creder_ked.mp h
  refine creder_raw.mpr ⟨populate_back (fun _ h => floatOk_text h) h1 hl hp hd ?_ rest, h2⟩
  obtain ⟨o', ident, size, p, q, t, e, -, hs, -, -, -, hS, -⟩ := populateFromKed_ok h1
  cases e
  have := (sizeOut_first hs hv).1
  rw [hS]
  exact this

/-- An event with a float that has an exponent meets the hypotheses of `C52_serder_floats_partial`. -/
example : ∃ s, Serder.newWithKed asWritten (.obj (exEvent "KERI" (str% "icp") exD0 ++ [(str% "x", .float (str% "1.5e-7"))])) none none = .ok s ∧
    Serder.newWithRaw asWritten (s.raw ++ toUtf8 (str% "-AABAA")) = .ok s := by
  have hl : (toUtf8 (Value.obj (exEvent "KERI" (str% "icp") exD0 ++ [(str% "x", .float (str% "1.5e-7"))])).toJson).length < 2 ^ 24 := by decide +kernel
  obtain ⟨s, h1, h2, -, h4, -, h6⟩ := C52_accepts asWritten (exEvent "KERI" (str% "icp") exD0 ++ [(str% "x", .float (str% "1.5e-7"))]) (str% "KERI") exD0 _ 0
    (by decide) (by decide) rfl (by simp [exEvent, field]) exD0_ok (by decide) hl
  rw [if_pos rfl] at h1
  have h1' : Serder.newWithKed asWritten (.obj (exEvent "KERI" (str% "icp") exD0 ++ [(str% "x", .float (str% "1.5e-7"))])) none none = .ok s := h1
  refine ⟨s, h1', C52_serder_floats_partial asWritten _ none none s h1' rfl ?_ (by simp [exEvent, nesting, nestingObj]) (by rw [h4]; omega) _⟩
  simp only [Proper, exEvent, List.cons_append, List.nil_append, ProperObj]
  exact ⟨by simp, trivial, trivial, trivial, trivial, ⟨by simp, asWritten_settled (str% "1.5e-7") _ (by rfl)⟩, trivial⟩

end Keride.Props
