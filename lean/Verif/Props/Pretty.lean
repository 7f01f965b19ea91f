/-
C124: the indented print of documents.
-/
import Verif.Lemmas.PrettyLines
import Verif.Lemmas.Common
import Verif.Props.JsonText
import Verif.Props.JsonFloat

namespace Keride.Props

open Keride Spec

/-- C124, partial: of every document with floats as they are printed, not nested deeper than 127, there is one complete text, with the lines of the
document, which is JSON for the document. If it has at most as many bytes as asked for (1024 if nothing is said) it is returned, otherwise the beginning with exactly as many bytes.
It never fails, but panics when no beginning has as many bytes, that is when the cut is inside a character. -/
theorem C124_partial (fl : Str → Option Str) (s : Sad) (hv : Proper (FloatText fl) s.ked) (hd : nesting s.ked ≤ 127) :
    ∃ full, full = joinWith '\n' (linesOf s.ked) ∧ JsonText fl 127 full s.ked ∧ ∀ size : Option Nat,
      (full.len ≤ size.getD 1024 → Pretty.pretty fl s size = .ok full) ∧
      (size.getD 1024 < full.len → ∀ t : Str, Pretty.pretty fl s size = .ok t ↔ t <+: full ∧ t.len = size.getD 1024) ∧
      (Pretty.pretty fl s size = .panic ↔ size.getD 1024 < full.len ∧ ∀ t : Str, t <+: full → t.len ≠ size.getD 1024) ∧
      (Pretty.pretty fl s size).isErr = false := by
  refine ⟨Pretty.text 0 s.ked, Pretty.text_joined s.ked, Pretty.text_denotes s.ked 127 0 hv hd, fun size => ?_⟩
  have hp : jsonParse fl jsonDepth s.ked.toJson = .ok s.ked := jsonParse_json (fun _ h => floatOk_text h) hv (by rw [jsonDepth]; omega)
  have e : Pretty.pretty fl s size = if size.getD 1024 < (Pretty.text 0 s.ked).len then (Pretty.text 0 s.ked).sliceTo (size.getD 1024) else .ok (Pretty.text 0 s.ked) := by
    rw [Pretty.pretty, hp]
    rfl
  rw [e]
  generalize Pretty.text 0 s.ked = full
  generalize size.getD 1024 = n
  by_cases h : n < full.len
  · rw [if_pos h]
    refine ⟨fun h' => absurd h (by omega), fun _ t => Pretty.slice_iff, ?_, ?_⟩
    · refine ⟨fun hq => ⟨h, fun t ht hn => ?_⟩, fun hq => ?_⟩
      · rw [Pretty.slice_iff.mpr ⟨ht, hn⟩] at hq
        cases hq
      · cases hs : full.sliceTo n with
        | ok t => exact absurd (Pretty.slice_iff.mp hs).2 (hq.2 t (Pretty.slice_iff.mp hs).1)
        | err x => exact absurd hs sliceTo_ne_err
        | panic => rfl
    · cases hs : full.sliceTo n with
      | ok t => rfl
      | err x => exact absurd hs sliceTo_ne_err
      | panic => rfl
  · rw [if_neg h]
    exact ⟨fun _ => rfl, fun h' => absurd h' h, ⟨nofun, fun h' => absurd h'.1 h⟩, rfl⟩

/-- C124: documents whose JSON is ASCII are always printed. -/
theorem C124_ascii (fl : Str → Option Str) (s : Sad) (hv : Proper (FloatText fl) s.ked) (hd : nesting s.ked ≤ 127)
    (ha : ∀ c ∈ s.ked.toJson, c.toNat < 128) (size : Option Nat) : ∃ t, Pretty.pretty fl s size = .ok t := by
  have hp : jsonParse fl jsonDepth s.ked.toJson = .ok s.ked := jsonParse_json (fun _ h => floatOk_text h) hv (by rw [jsonDepth]; omega)
  have e : Pretty.pretty fl s size = if size.getD 1024 < (Pretty.text 0 s.ked).len then (Pretty.text 0 s.ked).sliceTo (size.getD 1024) else .ok (Pretty.text 0 s.ked) := by
    rw [Pretty.pretty, hp]
    rfl
  have hA : Ascii (Pretty.text 0 s.ked) := fun c hc => by
    have : c.toNat < 128 := (Pretty.text_chars s.ked 0 c hc).elim (ha c) id
    exact Char.utf8Size_eq_one_iff.mpr (by
      have h : c.val.toNat < 128 := this
      exact UInt32.le_iff_toNat_le.mpr (by show c.val.toNat ≤ 127; omega))
  rw [e]
  split
  · rename_i h
    exact ⟨_, sliceTo_ascii hA (by rw [← ascii_len fun c hc => (Pretty.text_chars s.ked 0 c hc).elim (ha c) id]; omega)⟩
  · exact ⟨_, rfl⟩

/-- C124: asked for enough bytes, the text that is returned is read as the document. -/
theorem C124_reread (fl : Str → Option Str) (s : Sad) (hv : Proper (FloatText fl) s.ked) (hd : nesting s.ked ≤ 127) :
    ∃ n, ∀ m ≥ n, ∃ t, Pretty.pretty fl s (some m) = .ok t ∧ jsonRead fl t = .ok s.ked := by
  obtain ⟨full, -, h1, h2⟩ := C124_partial fl s hv hd
  exact ⟨full.len, fun m hm => ⟨full, (h2 (some m)).1 hm, ((C101_partial fl full).1 _).mpr ⟨h1, Pretty.proper_imp (fun _ h => h.1) _ hv⟩⟩⟩

/-- C124: every document read from a message is one the theorems above are about, if printing and reading of floats is settled. -/
theorem C124_read (fl : Str → Option Str) (hfl : Settled fl) (raw : Bytes) (s : Sad) (h : Serder.newWithRaw fl raw = .ok s ∨ Creder.newWithRaw fl raw = .ok s) :
    Proper (FloatText fl) s.ked ∧ nesting s.ked ≤ 127 := by
  have key : Sadder.populateFromRaw fl (str% "E") raw = .ok s → Proper (FloatText fl) s.ked ∧ nesting s.ked ≤ 127 := by
    intro h
    obtain ⟨r, hr, h⟩ := Res.bind_eq_ok.mp h
    obtain ⟨b, -, h⟩ := Res.bind_eq_ok.mp h
    obtain ⟨d, -, h⟩ := Res.bind_eq_ok.mp h
    obtain ⟨t, -, h⟩ := Res.bind_eq_ok.mp h
    obtain ⟨m, -, h⟩ := Res.bind_eq_ok.mp h
    split at h
    · cases h
    · cases h
      obtain ⟨i, -, hr⟩ := Res.bind_eq_ok.mp hr
      split at hr
      · cases hr
      · obtain ⟨ked, hk, hr⟩ := Res.bind_eq_ok.mp hr
        cases hr
        unfold loads at hk
        split at hk
        · obtain ⟨b, -, hk⟩ := Res.bind_eq_ok.mp hk
          obtain ⟨u, -, hk⟩ := Res.bind_eq_ok.mp hk
          exact jsonRead_well hfl hk
        · cases hk
  rcases h with h | h
  · obtain ⟨x, hx, h⟩ := Res.bind_eq_ok.mp h
    split at h <;> cases h
    exact key hx
  · obtain ⟨x, hx, h⟩ := Res.bind_eq_ok.mp h
    split at h <;> cases h
    exact key hx

/-- A key event document with the given field `x`. -/
def shownDoc (x : Value) : Res Sad := Serder.newWithKed (fun _ => none)
  (.obj [(str% "v", .str (str% "KERI10JSON000000_")), (str% "d", .str (str% "EAAAAAAAAAAAAAAAAAAAAAAAAAAAAAAAAAAAAAAAAAAA")), (str% "x", x)]) none none

/-- Whether printing panics, and whether it fails. -/
def shownBad (x : Value) : Bool × Bool :=
  match shownDoc x with
  | .ok s => match Pretty.pretty (fun _ => none) s none with
    | .ok _ => (false, false)
    | .err _ => (false, true)
    | .panic => (true, false)
  | _ => (false, false)

/-- C124 is false of all documents: with 600 letters that take two bytes each in a field, printing without a size panics, and of a document nested
128 deep, which can be made from a map, nothing is printed. -/
theorem C124_false :
    (∃ s, shownDoc (.str (List.replicate 600 'é')) = .ok s ∧ Pretty.pretty (fun _ => none) s none = .panic) ∧
    (∃ s, shownDoc (nested 126) = .ok s ∧ (Pretty.pretty (fun _ => none) s none).isErr = true) := by
  have h1 : shownBad (.str (List.replicate 600 'é')) = (true, false) := by decide +kernel
  have h2 : shownBad (nested 126) = (false, true) := by decide +kernel
  constructor
  · unfold shownBad at h1
    cases hs : shownDoc (.str (List.replicate 600 'é')) with
    | ok s =>
      rw [hs] at h1
      refine ⟨s, rfl, ?_⟩
      dsimp only at h1
      cases hp : Pretty.pretty (fun _ => none) s none with
      | panic => rfl
      | ok t => rw [hp] at h1; cases h1
      | err e => rw [hp] at h1; cases h1
    | err e => rw [hs] at h1; cases h1
    | panic => rw [hs] at h1; cases h1
  · unfold shownBad at h2
    cases hs : shownDoc (nested 126) with
    | ok s =>
      rw [hs] at h2
      refine ⟨s, rfl, ?_⟩
      dsimp only at h2
      cases hp : Pretty.pretty (fun _ => none) s none with
      | panic => rw [hp] at h2; cases h2
      | ok t => rw [hp] at h2; cases h2
      | err e => rfl
    | err e => rw [hs] at h2; cases h2
    | panic => rw [hs] at h2; cases h2

/-- The document of the unit test (sadder.rs:397-408). -/
def shownTest : Res Sad := Serder.newWithKed (fun _ => none) (.obj [(str% "v", .str (str% "KERI10JSON00004c_")), (str% "d", .str (str% "EN5gqodYDGPSYQvdixCjfD2leqb6zhPoDYcB21hfqu8d"))]) none none

/-- Everything, and the first ten bytes, of the document of the unit test. -/
example : (shownTest >>= fun s => Pretty.pretty (fun _ => none) s none) = .ok (str% "{\n  \"v\": \"KERI10JSON00004c_\",\n  \"d\": \"EN5gqodYDGPSYQvdixCjfD2leqb6zhPoDYcB21hfqu8d\"\n}") ∧
    (shownTest >>= fun s => Pretty.pretty (fun _ => none) s (some 10)) = .ok (str% "{\n  \"v\": \"") := by
  constructor <;> decide +kernel

/-- The hypotheses are met by a document that was read, with nested arrays, an empty object, a float and a letter that takes two bytes. -/
example : ∃ raw s, Serder.newWithRaw asWritten raw = .ok s ∧ Proper (FloatText asWritten) s.ked ∧ nesting s.ked ≤ 127 ∧
    Pretty.pretty asWritten s none = .ok (str% "{\n  \"v\": \"KERI10JSON00006e_\",\n  \"d\": \"EAAAAAAAAAAAAAAAAAAAAAAAAAAAAAAAAAAAAAAAAAAA\",\n  \"x\": [\n    1.5,\n    [],\n    {\n      \"é\": null,\n      \"y\": {}\n    }\n  ]\n}") := by
  have h : (Serder.newWithRaw asWritten (toUtf8 (str% "{\"v\":\"KERI10JSON00006e_\",\"d\":\"EAAAAAAAAAAAAAAAAAAAAAAAAAAAAAAAAAAAAAAAAAAA\",\"x\":[1.5,[],{\"é\":null,\"y\":{}}]}  ")) >>=
      fun s => Pretty.pretty asWritten s none) = .ok (str% "{\n  \"v\": \"KERI10JSON00006e_\",\n  \"d\": \"EAAAAAAAAAAAAAAAAAAAAAAAAAAAAAAAAAAAAAAAAAAA\",\n  \"x\": [\n    1.5,\n    [],\n    {\n      \"é\": null,\n      \"y\": {}\n    }\n  ]\n}") := by
    decide +kernel
  obtain ⟨s, hs, hp⟩ := Res.bind_eq_ok.mp h
  have hr := C124_read asWritten asWritten_settled _ s (.inl hs)
  exact ⟨_, s, hs, hr.1, hr.2, hp⟩

/-- The document of the unit test is ASCII, so `C124_ascii` is about it when it is read: every size gives a text. -/
example (size : Option Nat) : ∃ raw s t, Serder.newWithRaw asWritten raw = .ok s ∧ (∀ c ∈ s.ked.toJson, c.toNat < 128) ∧ Pretty.pretty asWritten s size = .ok t := by
  have h : (Serder.newWithRaw asWritten (toUtf8 (str% "{\"v\":\"KERI10JSON00004c_\",\"d\":\"EN5gqodYDGPSYQvdixCjfD2leqb6zhPoDYcB21hfqu8d\"}")) >>= fun s => (.ok s.ked.toJson : Res Str)) =
      .ok (str% "{\"v\":\"KERI10JSON00004c_\",\"d\":\"EN5gqodYDGPSYQvdixCjfD2leqb6zhPoDYcB21hfqu8d\"}") := by decide +kernel
  obtain ⟨s, hs, h⟩ := Res.bind_eq_ok.mp h
  have ha : ∀ c ∈ s.ked.toJson, c.toNat < 128 := by
    rw [Res.ok.inj h]
    decide +kernel
  have hr := C124_read asWritten asWritten_settled _ s (.inl hs)
  obtain ⟨t, ht⟩ := C124_ascii asWritten s hr.1 hr.2 ha size
  exact ⟨_, s, t, hs, ha, ht⟩

end Keride.Props
