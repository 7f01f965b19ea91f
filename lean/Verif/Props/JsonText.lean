/-
C101: which texts are read as JSON, and as what.
-/
import Verif.Lemmas.JsonText
import Verif.Props.Json

namespace Keride.Props

open Spec

/-- C101, the part that holds: a text is read if it is JSON for a value with integers in the range of `i64` and floats that are
written with a point, nested at most 127 deep, and it is read as that value; a text that is no JSON, or nested deeper,
is an error. Missing: other JSON texts make the reader panic, see `C101_false`. -/
theorem C101_partial (fl : Str → Option Str) (s : Str) :
    (∀ v, jsonRead fl s = .ok v ↔ JsonText fl 127 s v ∧ Proper (fun t => '.' ∈ t) v) ∧
    ((jsonRead fl s).isErr = true ↔ ∀ v, ¬ JsonText fl 127 s v) ∧
    (jsonRead fl s = .panic ↔ ∃ v, JsonText fl 127 s v ∧ ¬ Proper (fun t => '.' ∈ t) v) := by
  rcases jsonRead_cases fl s with ⟨v, h1, h2, h3⟩ | ⟨v, h1, h2, h3⟩ | ⟨h1, h3⟩
  · rw [h3]
    refine ⟨fun w => ⟨fun h => (by cases h; exact ⟨h1, h2⟩), fun h => (by rw [jsonText_unique h1 h.1])⟩,
      ⟨fun h => (by cases h), fun h => absurd h1 (h v)⟩, ⟨fun h => (by cases h), ?_⟩⟩
    rintro ⟨w, k1, k2⟩
    exact absurd (jsonText_unique h1 k1 ▸ h2) k2
  · rw [h3]
    refine ⟨fun w => ⟨fun h => (by cases h), ?_⟩, ⟨fun h => (by cases h), fun h => absurd h1 (h v)⟩, ⟨fun _ => ⟨v, h1, h2⟩, fun _ => rfl⟩⟩
    rintro ⟨k1, k2⟩
    exact absurd (jsonText_unique k1 h1 ▸ k2) h2
  · refine ⟨fun w => ⟨fun h => (by rw [h] at h3; cases h3), fun h => absurd h.1 (h1 w)⟩, ⟨fun _ => h1, fun _ => h3⟩,
      ⟨fun h => (by rw [h] at h3; cases h3), ?_⟩⟩
    rintro ⟨w, k1, -⟩
    exact absurd k1 (h1 w)

/-- C101: a JSON text means one value. -/
theorem C101_unique (fl : Str → Option Str) (d : Nat) (s : Str) (v v' : Value) (h : JsonText fl d s v) (h' : JsonText fl d s v') : v = v' :=
  jsonText_unique h h'

/-- C101: a string between quotes is read as what it spells. -/
theorem C101_string (fl : Str → Option Str) (t s : Str) (h : Spells t s) : jsonRead fl ('"' :: (t ++ ['"'])) = .ok (.str s) :=
  ((C101_partial fl _).1 _).mpr ⟨⟨[], _, [], by simp, by simp [Blank], .string 127 h, by simp [Blank]⟩, by simp [Proper]⟩

/-- C101 is false: the text of the number 2^63 is JSON and makes the reader panic. -/
theorem C101_false (fl : Str → Option Str) :
    JsonText fl 127 (str% "9223372036854775808") (.int (2 ^ 63)) ∧ jsonRead fl (str% "9223372036854775808") = .panic := by
  refine ⟨⟨[], str% "9223372036854775808", [], rfl, by simp [Blank], .number 127 ⟨[], str% "9223372036854775808", [], [], rfl, ?_, ?_⟩, by simp [Blank]⟩, C47_false.2.2 fl⟩
  · exact ⟨.inl rfl, ⟨⟨by decide, by decide⟩, by decide⟩, .inl rfl, .inl rfl⟩
  · exact .inl ⟨2 ^ 63, ⟨rfl, rfl, .inl ⟨rfl, by decide, by decide⟩⟩, rfl⟩

/-- A text with white space, escapes and a key that occurs twice, for the examples. -/
def exText : Str := str% " { \"a\" :[1, -2 ,true], \"\\u0062\" : \"\\ud83d\\uDE00\\/\" ,\"a\": null } "

example (fl : Str → Option Str) : jsonRead fl exText = .ok (.obj [(str% "a", .null), (str% "b", .str [Char.ofNat 128512, '/'])]) := by rfl

example (fl : Str → Option Str) : JsonText fl 127 exText (.obj [(str% "a", .null), (str% "b", .str [Char.ofNat 128512, '/'])]) :=
  (((C101_partial fl exText).1 _).mp (by rfl)).1

example : Spells (str% "\\u00e9\\n\\\"") [Char.ofNat 233, Char.ofNat 10, '"'] :=
  .code (str% "00e9") (Char.ofNat 233) (by rw [show (Char.ofNat 233).toNat = 233 from rfl]; exact ⟨'0', '0', 'e', '9', 0, 0, 14, 9, rfl, by (unfold HexDigit; decide), by (unfold HexDigit; decide), by (unfold HexDigit; decide), by (unfold HexDigit; decide), rfl⟩)
    (.short 'n' (Char.ofNat 10) (by decide) (.short '"' '"' (by decide) .done))

example (fl : Str → Option Str) : (jsonRead fl (str% "{\"a\":1,}")).isErr = true := by rfl

end Keride.Props
