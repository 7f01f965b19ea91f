/-
C83 and C84: the JavaScript bindings (wasm/src).
-/
import Verif.Lemmas.Wasm
import Verif.Props.Sadder

namespace Keride.Props

open Spec Matter Wasm

/-! ## C83: numbers -/

/-- C83, partial: a number below 2^64 read from an object through the bindings and given to a constructor is the same number.
Missing: every larger number, for which it is false, see `C83_false`. -/
theorem C83_partial (m : M) (n : Nat) (hn : n < 2 ^ 64) :
    (Number.num m = .ok n → ∃ w, numberNum m = .ok w ∧
      (∃ m', numberNewWithNum w = .ok m' ∧ Number.num m' = .ok n) ∧ ∃ m', seqnerNewWithSn w = .ok m' ∧ Seqner.sn m' = .ok n) ∧
    (Seqner.sn m = .ok n → ∃ w, seqnerSn m = .ok w ∧
      (∃ m', numberNewWithNum w = .ok m' ∧ Number.num m' = .ok n) ∧ ∃ m', seqnerNewWithSn w = .ok m' ∧ Seqner.sn m' = .ok n) := by
  have e : (U128.ofNat n).toNat = n := (halves n (by omega)).mpr hn
  have key : (∃ m', numberNewWithNum (U128.ofNat n) = .ok m' ∧ Number.num m' = .ok n) ∧
      ∃ m', seqnerNewWithSn (U128.ofNat n) = .ok m' ∧ Seqner.sn m' = .ok n := by
    unfold numberNewWithNum seqnerNewWithSn
    rw [e]
    obtain ⟨a, a1, a2, -⟩ := C23_lossless true n (by omega)
    obtain ⟨b, b1, b2, -⟩ := C25_lossless true n (by omega)
    exact ⟨⟨a, a1, a2⟩, ⟨b, b1, b2⟩⟩
  constructor
  · intro h
    exact ⟨_, by unfold numberNum; rw [h, Res.ok_bind], key⟩
  · intro h
    exact ⟨_, by unfold seqnerSn; rw [h, Res.ok_bind], key⟩

/-- C83 is false of the code, for every number from 2^64 on: what comes back is another number, below 2^64. -/
theorem C83_false (m : M) (n : Nat) (hn : 2 ^ 64 ≤ n) :
    (Number.num m = .ok n → ∃ w m' n', numberNum m = .ok w ∧ numberNewWithNum w = .ok m' ∧ Number.num m' = .ok n' ∧ n' ≠ n ∧ n' < 2 ^ 64) ∧
    (Seqner.sn m = .ok n → ∃ w m' n', seqnerSn m = .ok w ∧ seqnerNewWithSn w = .ok m' ∧ Seqner.sn m' = .ok n' ∧ n' ≠ n ∧ n' < 2 ^ 64) := by
  have lt := low_lt n
  constructor
  · intro h
    obtain ⟨a, a1, a2, -⟩ := C23_lossless true (U128.ofNat n).toNat (by omega)
    exact ⟨_, a, _, by unfold numberNum; rw [h, Res.ok_bind], a1, a2, by omega, lt⟩
  · intro h
    obtain ⟨a, a1, a2, -⟩ := C25_lossless true (U128.ofNat n).toNat (by omega)
    exact ⟨_, a, _, by unfold seqnerSn; rw [h, Res.ok_bind], a1, a2, by omega, lt⟩

/-- C83: the sequence number of an event, read through the bindings and given to `Seqner`, is the sequence number of the event exactly when it is
below 2^64. -/
theorem C83_event (s : Sad) (n : Nat) (h : Serder.sn s = .ok n) :
    ∃ w m n', serderSn s = .ok w ∧ seqnerNewWithSn w = .ok m ∧ Seqner.sn m = .ok n' ∧ (n' = n ↔ n < 2 ^ 64) := by
  have hb : n < 2 ^ 128 := by
    unfold Serder.sn at h
    obtain ⟨m, -, h⟩ := Res.bind_eq_ok.mp h
    exact number_bound h
  obtain ⟨a, a1, a2, -⟩ := C25_lossless true (U128.ofNat n).toNat (by have := low_lt n; omega)
  exact ⟨_, a, _, by unfold serderSn; rw [h, Res.ok_bind], a1, a2, halves n hb⟩

/-- Three numbers that come back as the same one, and one that comes back as it went. -/
example : ((U128.ofNat 1).toNat = 1 ∧ (U128.ofNat (2 ^ 64)).toNat = 1 ∧ (U128.ofNat (2 ^ 64 + 1)).toNat = 1) ∧
    (∃ m, Number.newWithNum (2 ^ 64 - 1) = .ok m ∧ Number.num m = .ok (2 ^ 64 - 1)) ∧
    ∃ m, Seqner.newWithSn (2 ^ 100) = .ok m ∧ Seqner.sn m = .ok (2 ^ 100) := by
  obtain ⟨a, a1, a2, -⟩ := C23_lossless true (2 ^ 64 - 1) (by decide)
  obtain ⟨b, b1, b2, -⟩ := C25_lossless true (2 ^ 100) (by decide)
  exact ⟨by decide, ⟨a, a1, a2⟩, ⟨b, b1, b2⟩⟩

/-! ## C84: documents -/

/-- C84 is false of the code: `Serder.ked()` never returns the document of an event; it traps, for every event. -/
theorem C84_ked_false (fl : Str → Option Str) (code : Option Str) (raw : Option Bytes) (kind ked : Option Str) (s : Sad)
    (h : serderNew fl code raw kind ked none = .ok s) : serderKed s = .panic := by
  unfold serderNew at h
  obtain ⟨v, -, h⟩ := Res.bind_eq_ok.mp h
  obtain ⟨o, ho⟩ := ked_obj h
  unfold serderKed
  rw [ho]
  rfl

/-- C84 is false of the code: `Saider.saidify` through the bindings never returns; it traps on every document that the library can saidify. -/
theorem C84_saidify_false (H : Hash) (chk : Bool) (fl : Str → Option Str) (text : Str) (code kind label : Option Str) (ignore : Option (List (Option Str))) :
    (∀ r, Wasm.saidify H chk fl text code kind label ignore ≠ .ok r) ∧
    ∀ v r, jsonRead fl text = .ok v → Saider.saidify H chk v code kind label (ignore.map fun l => l.map fun s => s.getD []) = .ok r →
      Wasm.saidify H chk fl text code kind label ignore = .panic := by
  constructor
  · intro r h
    unfold Wasm.saidify at h
    obtain ⟨v, -, h⟩ := Res.bind_eq_ok.mp h
    obtain ⟨p, hp, h⟩ := Res.bind_eq_ok.mp h
    obtain ⟨t, ht, h⟩ := Res.bind_eq_ok.mp h
    obtain ⟨o, ho⟩ := saidify_obj hp
    rw [ho] at ht
    cases ht
  · intro v r hv hr
    unfold Wasm.saidify readValue
    rw [hv]
    obtain ⟨o, ho⟩ := saidify_obj hr
    change (Saider.saidify H chk v code kind label (ignore.map fun l => l.map fun s => s.getD []) >>= _) = _
    rw [hr, Res.ok_bind, ho]
    rfl

/-- C84 is false of the code: a text that is not JSON traps in every function that takes a document, where the library would return an error. -/
theorem C84_malformed_false (H : Hash) (chk : Bool) (fl : Str → Option Str) (text : Str) (hbad : ∀ v, jsonRead fl text ≠ .ok v) :
    (∀ code kind label ignore, Wasm.saidify H chk fl text code kind label ignore = .panic) ∧
    (∀ m prefixed versioned kind label ignore, saiderVerify H chk fl m text prefixed versioned kind label ignore = .panic) ∧
    (∀ label kind ignore code, saiderNewWithSad H fl text label kind ignore code = .panic) ∧
    (∀ allows code, prefixerNewWithKed H fl text allows code = .panic) ∧
    (∀ m prefixed, prefixerVerify H chk fl m text prefixed = .panic) ∧
    (∀ code kind, serderNewWithKed fl text code kind = .panic) ∧
    tholderNewWithSith chk fl text = .panic ∧ tholderNewWithThold chk fl text = .panic := by
  have e : readValue fl text = .panic := by
    unfold readValue
    cases hr : jsonRead fl text with
    | ok v => exact absurd hr (hbad v)
    | err x => rfl
    | panic => rfl
  refine ⟨?_, ?_, ?_, ?_, ?_, ?_, ?_, ?_⟩
  · intros; unfold Wasm.saidify; rw [e]; rfl
  · intros; unfold saiderVerify; rw [e]; rfl
  · intros; unfold saiderNewWithSad; rw [e]; rfl
  · intros; unfold prefixerNewWithKed; rw [e]; rfl
  · intros; unfold prefixerVerify; rw [e]; rfl
  · intros; unfold serderNewWithKed; rw [e]; rfl
  · unfold tholderNewWithSith; rw [e]; rfl
  · unfold tholderNewWithThold; rw [e]; rfl

/-- A text that meets the hypothesis of `C84_malformed_false`. -/
example (fl : Str → Option Str) : ∀ v, jsonRead fl (str% "{\"a\" 1}") ≠ .ok v := by
  intro v h
  cases h

/-- C84, partial: the JSON text of a document given to the functions that take one has the effect of the document given to the library. Missing: what
the functions return as documents (`C84_ked_false`, `C84_saidify_false`), texts that are no JSON (`C84_malformed_false`), and floats and documents
nested deeper than 127 (as in C47). Values of an array that are not texts count as the empty text. -/
theorem C84_partial (H : Hash) (chk : Bool) (fl : Str → Option Str) (v : Value) (hv : Plain v) (hd : nesting v ≤ 127) :
    (∀ m prefixed versioned kind label, saiderVerify H chk fl m v.toJson prefixed versioned kind label none =
      Saider.verify H chk m v prefixed versioned kind label none) ∧
    (∀ m prefixed versioned kind label (l : List Str), saiderVerify H chk fl m v.toJson prefixed versioned kind label (some (l.map some)) =
      Saider.verify H chk m v prefixed versioned kind label (some l)) ∧
    (∀ label kind code, saiderNewWithSad H fl v.toJson label kind none code = Saider.newWithSad H v label kind none code) ∧
    (∀ label kind code (l : List Str), saiderNewWithSad H fl v.toJson label kind (some (l.map some)) code =
      Saider.newWithSad H v label kind (some l) code) ∧
    (∀ code, prefixerNewWithKed H fl v.toJson none code = Prefixer.newWithKed H v none code) ∧
    (∀ code (l : List Str), prefixerNewWithKed H fl v.toJson (some (l.map some)) code = Prefixer.newWithKed H v (some l) code) ∧
    (∀ m prefixed, prefixerVerify H chk fl m v.toJson prefixed = Prefixer.verify H chk m v prefixed) ∧
    ∀ code kind, serderNewWithKed fl v.toJson code kind = Serder.newWithKed fl v code kind := by
  have e := read_text fl hv hd
  have hl : ∀ l : List Str, Wasm.texts (some (l.map some)) = some l := by
    intro l
    unfold Wasm.texts
    simp [List.map_map, Function.comp_def]
  refine ⟨?_, ?_, ?_, ?_, ?_, ?_, ?_, ?_⟩
  · intros; unfold saiderVerify; rw [e]; rfl
  · intros; unfold saiderVerify; rw [e, Res.ok_bind, hl]
  · intros; unfold saiderNewWithSad; rw [e]; rfl
  · intros; unfold saiderNewWithSad; rw [e, Res.ok_bind, hl]
  · intros; unfold prefixerNewWithKed; rw [e]; rfl
  · intros; unfold prefixerNewWithKed; rw [e, Res.ok_bind, hl]
  · intros; unfold prefixerVerify; rw [e]; rfl
  · intros; unfold serderNewWithKed; rw [e]; rfl

/-- C84: the texts `sith()` and `thold()` return rebuild the threshold. -/
theorem C84_threshold (chk : Bool) (fl : Str → Option Str) (json : Str → Res Value) (t : Tholder) (h : Accepted chk json t) (hne : t.thold ≠ .arr []) :
    (∃ text, tholderSith t = .ok text ∧ tholderNewWithSith chk fl text = .ok t) ∧ tholderNewWithThold chk fl (tholderThold t) = .ok t := by
  obtain ⟨⟨v, v1, v2, v3⟩, f, hn⟩ := threshold_texts (jsonRead fl) h hne
  constructor
  · refine ⟨v.toJson, by unfold tholderSith; rw [v1, Res.ok_bind], ?_⟩
    unfold tholderNewWithSith
    rw [read_text fl v2.1 (by have := v2.2; omega), Res.ok_bind, v3]
  · unfold tholderNewWithThold tholderThold
    rw [read_text fl f.1 (by have := f.2; omega), Res.ok_bind, hn]

/-- An event, a document and a threshold that meet the hypotheses. -/
example : (Plain (.obj exSad) ∧ nesting (.obj exSad) ≤ 127 ∧ jsonRead (fun _ => none) (Value.obj exSad).toJson = .ok (.obj exSad) ∧
      ∃ r, Saider.saidify exHash true (.obj exSad) (some (str% "E")) none (some (str% "d")) none = .ok r) ∧
    (∃ s, serderNew (fun _ => none) none none none (some (Value.obj (exEvent "KERI" (str% "icp") exD0)).toJson) none = .ok s) ∧
    ∃ t, Accepted true (fun _ => .err .json) t ∧ t.thold ≠ .arr [] := by
  have hp : Plain (.obj exSad) := by
    simp only [Plain, Proper, exSad, ProperObj]
    decide
  have hd : nesting (.obj exSad) ≤ 127 := by decide
  refine ⟨⟨hp, hd, C47_roundtrip_partial _ _ hp hd, ?_⟩, ?_, ⟨_, ⟨none, none, some (.int 2), by rfl⟩, by simp⟩⟩
  · obtain ⟨m, s, h, -⟩ := C37_accepts exHash exHash_ok true exSad (str% "E") (str% "d") none (by decide) (by decide) (by decide) (by decide)
      (.inr ⟨str% "ACDC", by decide, 0, by decide, rfl, by decide +kernel⟩)
    exact ⟨_, h⟩
  · obtain ⟨s, h, -⟩ := exEvent_ok (fun _ => none) exD0 _ exD0_ok rfl (by decide +kernel)
    refine ⟨s, ?_⟩
    unfold serderNew
    dsimp only
    rw [read_text _ (exEvent_plain _ _ _) (by simp [exEvent, nesting, nestingObj]), Res.ok_bind, Res.ok_bind]
    exact h

end Keride.Props
