/-
C34 to C36: version strings and message sizes.
-/
import Verif.Lemmas.Sniff

namespace Keride.Props

open Spec

/-! ## C34 -/

/-- `versify` writes the version string, for every protocol, version and size that fit. -/
theorem C34_text {ident kind : Str} {v : Version} {size : Nat} (hi : ident ∈ protocols) (hk : kind ∈ serialisations) (hf : VersionFits v size) :
    versify (some ident) (some v) (some kind) (some size) = .ok (versionText ident v kind size) :=
  versify_text (mem_protocols.mp hi) hk hf

/-- `deversify` gives back what `versify` was given. -/
theorem C34_roundtrip {ident kind : Str} {v : Version} {size : Nat} (hi : ident ∈ protocols) (hk : kind ∈ serialisations) (hf : VersionFits v size) :
    (versify (some ident) (some v) (some kind) (some size) >>= deversify) = .ok ⟨ident, kind, v, size⟩ := by
  rw [C34_text hi hk hf, Res.ok_bind]
  exact deversify_text (mem_protocols.mp hi) hk hf

example : (str% "ACDC") ∈ protocols ∧ (str% "JSON") ∈ serialisations ∧ VersionFits ⟨1, 15⟩ 16777215 ∧
    versionText (str% "ACDC") ⟨1, 15⟩ (str% "JSON") 16777215 = str% "ACDC1fJSONffffff_" := by
  refine ⟨by decide, by decide, ⟨by decide, by decide, by decide⟩, by decide⟩

/-- `deversify` accepts exactly the version strings: known protocol and serialisation, nothing before or after. -/
theorem C34_accepts {s : Str} {i : VersionInfo} : deversify s = .ok i ↔
    i.ident ∈ protocols ∧ i.kind ∈ serialisations ∧ VersionFits i.version i.size ∧ s = versionText i.ident i.version i.kind i.size := by
  rw [deversify_iff, mem_protocols, mem_serialisations]

/-- Every other string is an error, never a panic. -/
theorem C34_no_panic (s : Str) : deversify s ≠ .panic := deversify_ne_panic s

/-- What does not fit is not misread: the string `versify` then writes is not accepted. -/
theorem C34_overflow {ident kind : Str} {v : Version} {size : Nat} (hf : ¬ VersionFits v size) (i : VersionInfo) :
    (versify (some ident) (some v) (some kind) (some size) >>= deversify) ≠ .ok i := by
  intro h
  rw [Res.bind_eq_ok] at h
  obtain ⟨s, h1, h2⟩ := h
  have hid : ident ∈ idents ∧ kind ∈ serials := by
    unfold versify at h1
    simp only [Option.getD_some] at h1
    split at h1
    · cases h1
    · rename_i a
      split at h1
      · cases h1
      · rename_i b
        simp only [Bool.not_eq_true', List.contains_eq_mem, decide_eq_false_iff_not, not_not] at a b
        exact ⟨a, b⟩
  have := versify_long hid.1 hid.2 hf h1
  obtain ⟨d1, d2, -, d4⟩ := deversify_ok h2
  rw [d4, versionText_len _ _ _ _ (idents_upper _ d1).1 (serials_upper _ d2).1] at this
  omega

example : versify (some (str% "KERI")) (some ⟨16, 0⟩) (some (str% "JSON")) (some 0) = .ok (str% "KERI100JSON000000_") := by decide

/-- The defaults: KERI, version 1.0, JSON, size 0. -/
theorem C34_default : versify none none none none = .ok (str% "KERI10JSON000000_") := by decide

/-! ## C35 -/

/-- The `v` field records the length of the bytes (below 4 GiB), and nothing else of the document changes: same
keys, same order, same values. -/
theorem C35_fields_partial {ked : Value} {kind : Option Str} {r : Sizeified} (h : sizeify ked kind = .ok r) (hn : r.raw.length < 2 ^ 32) :
    ∃ o o', ked = .obj o ∧ r.ked = .obj o' ∧ o'.map Prod.fst = o.map Prod.fst ∧
      (∀ k, k ≠ str% "v" → Value.find k o' = Value.find k o) ∧
      Value.find (str% "v") o' = some (.str (versionText r.ident r.version r.kind r.raw.length)) ∧
      VersionFits r.version r.raw.length ∧ r.ident ∈ protocols ∧ r.kind ∈ serialisations ∧
      r.raw.length = ((Value.obj o).toJson.map Char.utf8Size).sum := by
  obtain ⟨o, ident, size, p, q, rfl, hk, hs, rfl⟩ := sizeify_ok h
  have hl := sizeOut_len hs
  rw [hl] at hn ⊢
  have hm : (Value.obj o).toJson.len % 2 ^ 32 = (Value.obj o).toJson.len := Nat.mod_eq_of_lt hn
  refine ⟨o, _, rfl, rfl, insert_map_fst hs.key, fun k hk => find_insert_ne hk _ _, ?_, ?_, mem_protocols.mpr hs.1, json_serial, ?_⟩
  · rw [find_insert_self]; unfold newVs; rw [hm]; rfl
  · have := hs.2.2.2.2.2; rw [hm] at this; exact fits_current this
  · generalize (Value.obj o).toJson = s
    induction s with
    | nil => rfl
    | cons c s ih => simp [Str.len, ih]

/-- If moreover the document starts with its version string, or its text holds no other text that looks like a
version string, the bytes are the JSON of the returned document. -/
theorem C35_partial {o : List (Str × Value)} {kind : Option Str} {r : Sizeified} (h : sizeify (.obj o) kind = .ok r)
    (hv : o.head?.map Prod.fst = some (str% "v") ∨
      ∀ i j, VersionLikeAt (Value.obj o).toJson i → VersionLikeAt (Value.obj o).toJson j → i = j) :
    r.raw = toUtf8 r.ked.toJson := by
  obtain ⟨o', ident, size, p, q, e, hk, hs, rfl⟩ := sizeify_ok h
  cases e
  rcases hv with hv | hv
  · exact (sizeOut_first hs hv).1
  · exact sizeOut_unique hs hv

/-- A small inception-like document, version string first. -/
def exMsg : Value := .obj [(str% "v", .str (str% "KERI10JSON000000_")), (str% "t", .str (str% "icp")), (str% "s", .str (str% "0")),
  (str% "k", .arr [.str (str% "D€")])]

theorem exMsg_sized : ∃ r, sizeify exMsg none = .ok r ∧ r.raw.length = 56 := by
  have : (sizeify exMsg none >>= fun r => .ok r.raw.length) = .ok 56 := by decide +kernel
  rw [Res.bind_eq_ok] at this
  obtain ⟨r, h1, h2⟩ := this
  exact ⟨r, h1, by simpa using h2⟩

/-- C35 fails: version-like text before the `v` field is patched instead of it, so the bytes are not the JSON of
the returned document; and a document of 4 GiB or more is recorded with its size modulo 2^32. -/
theorem C35_false :
    (∃ ked r, sizeify ked none = .ok r ∧ r.raw ≠ toUtf8 r.ked.toJson) ∧
    (∃ o o' r, sizeify (.obj o) none = .ok r ∧ r.ked = .obj o' ∧ r.raw.length = 2 ^ 32 + 32 ∧
      Value.find (str% "v") o' = some (.str (str% "KERI10JSON000020_"))) := by
  constructor
  · have : (sizeify (.obj [([], .str (str% "KERI10JSON000000_")), (str% "v", .str (str% "KERI10JSON000000_"))]) none >>= fun r =>
        .ok (decide (r.raw ≠ toUtf8 r.ked.toJson))) = .ok true := by decide +kernel
    rw [Res.bind_eq_ok] at this
    obtain ⟨r, h1, h2⟩ := this
    exact ⟨_, r, h1, by simpa using h2⟩
  · let o : List (Str × Value) := [(str% "v", .str (str% "KERI10JSON000000_")), (str% "x", .str (List.replicate (2 ^ 32) 'a'))]
    have hesc : escStr (List.replicate (2 ^ 32) 'a') = List.replicate (2 ^ 32) 'a' := by
      apply escStr_id
      intro c hc
      rw [(List.mem_replicate.mp hc).2]
      decide
    have hlen : Str.len (List.replicate (2 ^ 32) 'a') = 2 ^ 32 := by
      rw [ascii_len, List.length_replicate]
      intro c hc
      rw [(List.mem_replicate.mp hc).2]
      decide
    have htext : (Value.obj o).toJson = str% "{\"v\":\"KERI10JSON000000_\",\"x\":\"" ++ (List.replicate (2 ^ 32) 'a' ++ str% "\"}") := by
      simp only [o, Value.toJson, Value.jsonObj, joinWith, jsonStr, hesc]
      have e1 : escStr (str% "v") = str% "v" := by decide
      have e2 : escStr (str% "KERI10JSON000000_") = str% "KERI10JSON000000_" := by decide
      have e3 : escStr (str% "x") = str% "x" := by decide
      rw [e1, e2, e3]
      generalize List.replicate (2 ^ 32) 'a' = x
      simp
    have hl : (Value.obj o).toJson.len = 2 ^ 32 + 32 := by
      rw [htext, len_append, len_append, hlen]
      have a : Str.len (str% "{\"v\":\"KERI10JSON000000_\",\"x\":\"") = 30 := by decide
      have b : Str.len (str% "\"}") = 2 := by decide
      rw [a, b]
      omega
    obtain ⟨q, hs⟩ := sizable_first (o := o) (ident := str% "KERI") (size := 0) (by decide) (by decide) rfl (by rfl) (by rw [hl]; decide)
    refine ⟨o, _, _, sizeify_of rfl hs, rfl, ?_, ?_⟩
    · rw [sizeOut_len hs, hl]
    · rw [find_insert_self]
      unfold newVs
      rw [hl]
      have : versionText (str% "KERI") currentVersion (str% "JSON") ((2 ^ 32 + 32) % 2 ^ 32) = str% "KERI10JSON000020_" := by decide
      rw [this]

/-- Sizing again changes nothing. -/
theorem C35_idempotent {ked : Value} {kind : Option Str} {r : Sizeified} (h : sizeify ked kind = .ok r) :
    ∃ r', sizeify r.ked kind = .ok r' ∧ r'.ked = r.ked := by
  obtain ⟨o, ident, size, p, q, rfl, hk, hs, rfl⟩ := sizeify_ok h
  obtain ⟨q', h1, -, h3⟩ := hs.again
  exact ⟨_, sizeify_of hk h1, h3⟩

/-- `sizeify` never panics. -/
theorem C35_no_panic (ked : Value) (kind : Option Str) : sizeify ked kind ≠ .panic := sizeify_ne_panic ked kind

/-- A document that starts with a version string of the current version and is shorter than 16 MiB is always accepted. -/
theorem C35_accepts {o : List (Str × Value)} {ident : Str} {size : Nat} (hi : ident ∈ protocols) (hs : size < 2 ^ 24)
    (hw : o.head? = some (str% "v", .str (versionText ident ⟨1, 0⟩ (str% "JSON") size)))
    (hn : (toUtf8 (Value.obj o).toJson).length < 2 ^ 24) : ∃ r, sizeify (.obj o) none = .ok r ∧ r.ident = ident := by
  have h1 : o.head?.map Prod.fst = some (str% "v") := by rw [hw]; rfl
  have h2 : Value.find (str% "v") o = some (.str (versionText ident currentVersion (str% "JSON") size)) := by
    cases o with
    | nil => cases hw
    | cons e o =>
      rw [List.head?_cons, Option.some.injEq] at hw
      rw [hw, Value.find, if_pos rfl]
      rfl
  rw [toUtf8_length] at hn
  obtain ⟨q, h⟩ := sizable_first (mem_protocols.mp hi) hs h1 h2 (by omega)
  exact ⟨_, sizeify_of rfl h, rfl⟩

/-! ## C36 -/

/-- C36, partial: `sniff` of a message `sizeify` wrote, followed by anything that is valid UTF-8, gives the message's
protocol, serialisation, version and size, if there are 29 bytes or more. -/
theorem C36_partial {ked : Value} {kind : Option Str} {r : Sizeified} (h : sizeify ked kind = .ok r) (hn : r.raw.length < 2 ^ 32)
    (rest : Str) (hl : 29 ≤ (r.raw ++ toUtf8 rest).length) :
    sniff (r.raw ++ toUtf8 rest) = .ok ⟨r.ident, r.kind, r.version, r.raw.length⟩ := by
  obtain ⟨o, ident, size, p, q, rfl, hk, hs, rfl⟩ := sizeify_ok h
  rw [sniff_sizeify hs, if_pos hl, fromUtf8_toUtf8, Res.ok_bind, Nat.mod_eq_of_lt hn]
  rfl

/-- C36, exactly: in all other cases `sniff` fails: fewer than 29 bytes, or a continuation that is not UTF-8. -/
theorem C36_exact {ked : Value} {kind : Option Str} {r : Sizeified} (h : sizeify ked kind = .ok r) (rest : Bytes) :
    (∃ i, sniff (r.raw ++ rest) = .ok i) ↔ 29 ≤ (r.raw ++ rest).length ∧ ∃ t, rest = toUtf8 t := by
  obtain ⟨o, ident, size, p, q, rfl, hk, hs, rfl⟩ := sizeify_ok h
  rw [sniff_sizeify hs]
  constructor
  · rintro ⟨i, hi⟩
    split at hi
    · rename_i hl
      rw [Res.bind_eq_ok] at hi
      obtain ⟨t, ht, -⟩ := hi
      exact ⟨hl, t, fromUtf8_ok ht⟩
    · cases hi
  · rintro ⟨hl, t, rfl⟩
    rw [if_pos hl, fromUtf8_toUtf8]
    exact ⟨_, rfl⟩

example : ∃ r, sizeify exMsg none = .ok r ∧ r.raw.length < 2 ^ 32 ∧ 29 ≤ (r.raw ++ toUtf8 (str% "-AAB")).length := by
  obtain ⟨r, h1, h2⟩ := exMsg_sized
  exact ⟨r, h1, by omega, by rw [List.length_append]; omega⟩

/-- C36 fails: a message followed by a binary attachment is rejected, and so is the 25-byte message that consists of
its version string only. -/
theorem C36_false :
    (∃ r, sizeify exMsg none = .ok r ∧ sniff (r.raw ++ [0xf8, 0x20]) = .err .utf8) ∧
    (∃ r, sizeify (.obj [(str% "v", .str (str% "KERI10JSON000000_"))]) none = .ok r ∧ sniff r.raw = .err .value) := by
  constructor
  · have : (sizeify exMsg none >>= fun r => .ok (decide (sniff (r.raw ++ [0xf8, 0x20]) = .err .utf8))) = .ok true := by decide +kernel
    rw [Res.bind_eq_ok] at this
    obtain ⟨r, h1, h2⟩ := this
    exact ⟨r, h1, by simpa using h2⟩
  · have : (sizeify (.obj [(str% "v", .str (str% "KERI10JSON000000_"))]) none >>= fun r => .ok (decide (sniff r.raw = .err .value))) = .ok true := by
      decide +kernel
    rw [Res.bind_eq_ok] at this
    obtain ⟨r, h1, h2⟩ := this
    exact ⟨r, h1, by simpa using h2⟩

end Keride.Props
