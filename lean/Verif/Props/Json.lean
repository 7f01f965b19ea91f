/-
C47: JSON serialisation (data.rs).

`fl` stands for the floating point part of the JSON reader: the text printed for the double nearest to a number
text, or nothing when that is out of range.
-/
import Verif.Lemmas.JsonRead

namespace Keride.Props

open Spec

/-- C47, partial: reading the text of a value without floats gives the value back. Missing: values nested more
than 127 deep, see `C47_false`, and floats, see `C47_floats_partial`. -/
theorem C47_roundtrip_partial (fl : Str → Option Str) (v : Value) (hv : Plain v) (hd : nesting v ≤ 127) :
    jsonRead fl v.toJson = .ok v :=
  jsonRead_json (fun _ h => h.elim) hv hd

/-- C47, partial: the same for values whose floats are written without exponent and that the reader prints
unchanged. -/
theorem C47_floats_partial (fl : Str → Option Str) (v : Value) (hv : Proper (fun t => IsDecimal t ∧ fl t = some t) v)
    (hd : nesting v ≤ 127) : jsonRead fl v.toJson = .ok v :=
  jsonRead_json (fun _ h => floatOk_decimal h.1 h.2) hv hd

/-- C47: different values without floats have different texts, whatever their nesting. -/
theorem C47_injective (v w : Value) (hv : Plain v) (hw : Plain w) (h : v.toJson = w.toJson) : v = w :=
  toJson_inj hv hw h

/-- C47: what the reader returns has distinct keys and integers of 64 bits, and floats with a point. -/
theorem C47_reader (fl : Str → Option Str) (s : Str) (v : Value) (h : jsonRead fl s = .ok v) :
    Proper (fun t => '.' ∈ t) v :=
  jsonRead_proper h

/-- Arrays nested `n` deep. -/
def nested : Nat → Value
  | 0 => .arr []
  | n + 1 => .arr [nested n]

theorem nested_plain : ∀ n, Plain (nested n)
  | 0 => by simp [nested, Plain, Proper, ProperArr]
  | n + 1 => by
    have := nested_plain n
    simp only [nested, Plain, Proper, ProperArr] at this ⊢
    exact ⟨this, trivial⟩

/-- C47 is false: an array nested 128 deep is written but not read back; a float that is written with an exponent
and no point, and an integer above the range of `i64`, make the reader panic. -/
theorem C47_false :
    (Plain (nested 127) ∧ ∀ fl, (jsonRead fl (nested 127).toJson).isErr = true) ∧
    (∀ fl, fl (str% "1e30") = some (str% "1e30") → jsonRead fl (Value.float (str% "1e30")).toJson = .panic) ∧
    (∀ fl, jsonRead fl (str% "9223372036854775808") = .panic) := by
  refine ⟨⟨nested_plain 127, ?_⟩, ?_, ?_⟩
  · intro fl
    have : ∀ k fuel r, fl = fl → parseVal fl fuel (k + 1) ((nested k).toJson ++ r) = none := by
      intro k
      induction k with
      | zero =>
        intro fuel r _
        cases fuel with
        | zero => rw [parseVal]
        | succ fuel =>
          have e : (nested 0).toJson ++ r = '[' :: ']' :: r := by rw [nested, Value.toJson]; rfl
          rw [e, parseVal]
          rfl
      | succ k ih =>
        intro fuel r _
        cases fuel with
        | zero => rw [parseVal]
        | succ fuel =>
          have e : (nested (k + 1)).toJson ++ r = '[' :: ((nested k).toJson ++ ']' :: r) := by
            rw [nested, Value.toJson, Value.jsonArr, Value.jsonArr, joinWith]; simp
          have e2 : ∃ u, (nested k).toJson = '[' :: u := by
            cases k <;> exact ⟨_, by rw [nested, Value.toJson]⟩
          rw [e, parseVal, skipWs_cons (by decide)]
          obtain ⟨u, hu⟩ := e2
          simp only
          rw [if_neg (by decide), if_neg (by decide), if_neg (by decide), if_neg (by decide), if_pos trivial, if_neg (by omega),
            if_neg (by rw [hu, List.cons_append, skipWs_cons (by decide)]; simp)]
          cases fuel with
          | zero => simp [parseElems]
          | succ fuel =>
            rw [parseElems, Nat.add_sub_cancel, ih fuel _ rfl]
            rfl
    have h := this 127 ((nested 127).toJson.length + 1) [] rfl
    rw [List.append_nil] at h
    unfold jsonRead jsonParse
    rw [show jsonDepth = 127 + 1 from rfl, h]
    rfl
  · intro fl h
    have : parseNum fl (str% "1e30") = some (.float (str% "1e30"), []) := by
      have e : parseNum fl (str% "1e30") = (fl (str% "1e30")).map fun t => (.float t, []) := rfl
      rw [e, h]; rfl
    unfold jsonRead jsonParse
    rw [Value.toJson, parseVal_num rfl (.inr (by decide)), this]
    rfl
  · intro fl
    have : parseNum fl (str% "9223372036854775808") = some (.int 9223372036854775808, []) := by rfl
    unfold jsonRead jsonParse
    rw [parseVal_num rfl (.inr (by decide)), this]
    rfl

/-- A document with nested values, escapes and a float. -/
def exDoc : Value := .obj [(str% "a\n", .arr [.int (-5), .bool true, .null, .str (str% "x\"y\\é")]), ([], .obj [])]

example : Plain exDoc ∧ nesting exDoc = 2 ∧ exDoc.toJson = str% "{\"a\\n\":[-5,true,null,\"x\\\"y\\\\é\"],\"\":{}}" := by
  refine ⟨?_, by decide, by decide⟩
  simp [exDoc, Proper, ProperObj, ProperArr]

example : Proper (fun t => IsDecimal t ∧ (fun _ => some (str% "-12.5")) t = some t) (.arr [.float (str% "-12.5")]) := by
  rw [Proper, ProperArr, Proper]
  exact ⟨⟨⟨true, str% "12", str% "5", rfl, by decide, by decide, by decide, by decide⟩, rfl⟩, trivial⟩

end Keride.Props
