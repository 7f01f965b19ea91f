/-
C39, C40 and C52: messages (sadder.rs, serder.rs, creder.rs).
-/
import Verif.Props.Saider
import Verif.Lemmas.Sadder

namespace Keride.Props

open Spec Matter Saider

theorem serder_ked {fl : Str → Option Str} {ked : Value} {code kind : Option Str} {s : Sad} :
    Serder.newWithKed fl ked code kind = .ok s ↔ Sadder.populateFromKed (code.getD (str% "E")) ked kind = .ok s ∧ s.ident = str% "KERI" := by
  unfold Serder.newWithKed Serder.new Sadder.new
  dsimp only [Option.getD_some]
  constructor
  · intro h
    obtain ⟨s', h1, h2⟩ := Res.bind_eq_ok.mp h
    split at h2
    · cases h2
    · rename_i hi
      cases h2
      exact ⟨h1, not_not.mp hi⟩
  · rintro ⟨h1, h2⟩
    rw [h1, Res.ok_bind, if_neg (by simp [h2])]

theorem creder_ked {fl : Str → Option Str} {ked : Value} {code kind : Option Str} {s : Sad} :
    Creder.newWithKed fl ked code kind = .ok s ↔ Sadder.populateFromKed (code.getD (str% "E")) ked kind = .ok s ∧ s.ident = str% "ACDC" := by
  unfold Creder.newWithKed Creder.new Sadder.new
  dsimp only [Option.getD_some]
  constructor
  · intro h
    obtain ⟨s', h1, h2⟩ := Res.bind_eq_ok.mp h
    split at h2
    · cases h2
    · rename_i hi
      cases h2
      exact ⟨h1, not_not.mp hi⟩
  · rintro ⟨h1, h2⟩
    rw [h1, Res.ok_bind, if_neg (by simp [h2])]

theorem serder_raw {fl : Str → Option Str} {code : Option Str} {raw : Bytes} {s : Sad} :
    Serder.new fl code (some raw) none none none = .ok s ↔ Sadder.populateFromRaw fl (code.getD (str% "E")) raw = .ok s ∧ s.ident = str% "KERI" := by
  unfold Serder.new Sadder.new
  dsimp only [Option.getD_some]
  constructor
  · intro h
    obtain ⟨s', h1, h2⟩ := Res.bind_eq_ok.mp h
    split at h2
    · cases h2
    · rename_i hi
      cases h2
      exact ⟨h1, not_not.mp hi⟩
  · rintro ⟨h1, h2⟩
    rw [h1, Res.ok_bind, if_neg (by simp [h2])]

theorem creder_raw {fl : Str → Option Str} {code : Option Str} {raw : Bytes} {s : Sad} :
    Creder.new fl code (some raw) none none none = .ok s ↔ Sadder.populateFromRaw fl (code.getD (str% "E")) raw = .ok s ∧ s.ident = str% "ACDC" := by
  unfold Creder.new Sadder.new
  dsimp only [Option.getD_some]
  constructor
  · intro h
    obtain ⟨s', h1, h2⟩ := Res.bind_eq_ok.mp h
    split at h2
    · cases h2
    · rename_i hi
      cases h2
      exact ⟨h1, not_not.mp hi⟩
  · rintro ⟨h1, h2⟩
    rw [h1, Res.ok_bind, if_neg (by simp [h2])]

/-! ## C52 -/

/-- C52: an event that `Serder::new_with_ked` wrote is read back by `Serder::new` from its bytes, whatever text
follows: the same document, bytes, size, SAID. Documents that start with the version string, without floats, nested
at most 127 deep, under 4 GiB; the code given must be the one it was written with. -/
theorem C52_serder_partial (fl : Str → Option Str) (o : List (Str × Value)) (code kind : Option Str) (s : Sad)
    (h : Serder.newWithKed fl (.obj o) code kind = .ok s) (hv : o.head?.map Prod.fst = some (str% "v")) (hp : Plain (.obj o))
    (hd : nesting (.obj o) ≤ 127) (hl : s.raw.length < 2 ^ 32) (rest : Str) :
    Serder.new fl code (some (s.raw ++ toUtf8 rest)) none none none = .ok s := by
  obtain ⟨h1, h2⟩ := serder_ked.mp h
  refine serder_raw.mpr ⟨populate_back (fun _ h => h.elim) h1 hl hp hd ?_ rest, h2⟩
  obtain ⟨o', ident, size, p, q, t, e, -, hs, -, -, -, hS, -⟩ := populateFromKed_ok h1
  cases e
  have := (sizeOut_first hs hv).1
  rw [hS]
  exact this

/-- C52 for credentials. -/
theorem C52_creder_partial (fl : Str → Option Str) (o : List (Str × Value)) (code kind : Option Str) (s : Sad)
    (h : Creder.newWithKed fl (.obj o) code kind = .ok s) (hv : o.head?.map Prod.fst = some (str% "v")) (hp : Plain (.obj o))
    (hd : nesting (.obj o) ≤ 127) (hl : s.raw.length < 2 ^ 32) (rest : Str) :
    Creder.new fl code (some (s.raw ++ toUtf8 rest)) none none none = .ok s := by
  obtain ⟨h1, h2⟩ := creder_ked.mp h
  refine creder_raw.mpr ⟨populate_back (fun _ h => h.elim) h1 hl hp hd ?_ rest, h2⟩
  obtain ⟨o', ident, size, p, q, t, e, -, hs, -, -, -, hS, -⟩ := populateFromKed_ok h1
  cases e
  have := (sizeOut_first hs hv).1
  rw [hS]
  exact this

/-- C52: which documents `new_with_ked` takes and what it makes of them: those with a SAID text in `d` and starting
with a version string of the protocol; only the recorded size changes, and the bytes are the JSON text. -/
theorem C52_accepts (fl : Str → Option Str) (o : List (Str × Value)) (ident d : Str) (m : M) (size : Nat) (hi : ident ∈ protocols) (hs : size < 2 ^ 24)
    (hv : o.head? = some (str% "v", .str (versionText ident ⟨1, 0⟩ (str% "JSON") size)))
    (hd : field (str% "d") (.obj o) = some (.str d)) (hm : Matter.newWithQb64 d = .ok m) (hc : m.code ∈ digests)
    (hl : (toUtf8 (Value.obj o).toJson).length < 2 ^ 24) :
    ∃ s, (if ident = str% "KERI" then Serder.newWithKed fl (.obj o) (some m.code) none else Creder.newWithKed fl (.obj o) (some m.code) none) = .ok s ∧
      s.ked = .obj ((str% "v", .str (versionText ident ⟨1, 0⟩ (str% "JSON") (toUtf8 (Value.obj o).toJson).length)) :: o.tail) ∧
      s.raw = toUtf8 s.ked.toJson ∧ s.raw.length = (toUtf8 (Value.obj o).toJson).length ∧ s.size = s.raw.length ∧ s.saider = m := by
  have hi' := mem_protocols.mp hi
  rw [toUtf8_length] at hl
  have hvf : Value.find (str% "v") o = some (.str (versionText ident currentVersion (str% "JSON") size)) := by
    cases o with
    | nil => cases hv
    | cons e o =>
      obtain ⟨k, v⟩ := e
      simp only [List.head?_cons, Option.some.injEq, Prod.mk.injEq] at hv
      obtain ⟨rfl, rfl⟩ := hv
      simp [Value.find]
      rfl
  have hh : o.head?.map Prod.fst = some (str% "v") := by rw [hv]; rfl
  obtain ⟨q, hS⟩ := sizable_first (o := o) hi' hs hh hvf (by omega)
  have hf : Value.find (str% "d") o = some (.str d) := by rw [← field_find]; exact hd
  have hp := populateFromKed_of hS hf (saiderOf_of hm (mem_digests.mp hc)) rfl
  have hone := (sizeOut_first hS hh).1
  have hlen := sizeOut_len hS
  refine ⟨⟨m.code, (sizeOut o ident (str% "{\"v\":\"") q).raw, (sizeOut o ident (str% "{\"v\":\"") q).ked, ident, str% "JSON",
    (Value.obj o).toJson.len % 2 ^ 32, currentVersion, m⟩, ?_, ?_, hone, ?_, ?_, rfl⟩
  · have hi2 : ident = str% "KERI" ∨ ident = str% "ACDC" := by simpa [protocols] using hi
    rcases hi2 with rfl | rfl
    · rw [if_pos rfl]
      exact serder_ked.mpr ⟨hp, rfl⟩
    · rw [if_neg (by decide)]
      exact creder_ked.mpr ⟨hp, rfl⟩
  · dsimp only [sizeOut]
    cases o with
    | nil => cases hv
    | cons e o =>
      obtain ⟨k, v⟩ := e
      simp only [List.head?_cons, Option.some.injEq, Prod.mk.injEq] at hv
      obtain ⟨rfl, -⟩ := hv
      rw [Value.insert, if_pos rfl]
      unfold newVs
      rw [toUtf8_length, Nat.mod_eq_of_lt (by omega)]
      rfl
  · dsimp only
    rw [hlen, toUtf8_length]
  · dsimp only
    rw [hlen, Nat.mod_eq_of_lt (by omega)]

/-- A document with the given type and SAID. -/
def exEvent (proto : String) (t d : Str) : List (Str × Value) :=
  [(str% "v", .str (versionText (proto.toList) ⟨1, 0⟩ (str% "JSON") 0)), (str% "t", .str t), (str% "d", .str d), (str% "s", .str (str% "0"))]

/-- Two digests. -/
def exD0 : Str := str% "EAAAAAAAAAAAAAAAAAAAAAAAAAAAAAAAAAAAAAAAAAAA"
def exD1 : Str := str% "EAAAAAAAAAAAAAAAAAAAAAAAAAAAAAAAAAAAAAAAAAAB"

theorem exD0_ok : Matter.newWithQb64 exD0 = .ok ⟨str% "E", 0, List.replicate 32 0⟩ := by decide +kernel
theorem exD1_ok : Matter.newWithQb64 exD1 = .ok ⟨str% "E", 0, List.replicate 31 0 ++ [1]⟩ := by decide +kernel

theorem exEvent_plain (proto : String) (t d : Str) : Plain (.obj (exEvent proto t d)) := by
  simp only [Plain, Proper, exEvent, ProperObj]
  exact ⟨by simp, trivial, trivial, trivial, trivial, trivial⟩

/-- The example is accepted, and read back with text after it. -/
theorem exEvent_ok (fl : Str → Option Str) (d : Str) (m : M) (hm : Matter.newWithQb64 d = .ok m) (hc : m.code = str% "E")
    (hl : (toUtf8 (Value.obj (exEvent "KERI" (str% "icp") d)).toJson).length < 2 ^ 24) :
    ∃ s, Serder.newWithKed fl (.obj (exEvent "KERI" (str% "icp") d)) none none = .ok s ∧ s.saider = m ∧
      s.raw.length = (toUtf8 (Value.obj (exEvent "KERI" (str% "icp") d)).toJson).length ∧
      s.ked = .obj ((str% "v", .str (versionText (str% "KERI") ⟨1, 0⟩ (str% "JSON") (toUtf8 (Value.obj (exEvent "KERI" (str% "icp") d)).toJson).length)) ::
        (exEvent "KERI" (str% "icp") d).tail) ∧
      ∀ rest, Serder.newWithRaw fl (s.raw ++ toUtf8 rest) = .ok s := by
  obtain ⟨s, h1, h2, -, h4, -, h6⟩ := C52_accepts fl (exEvent "KERI" (str% "icp") d) (str% "KERI") d m 0 (by decide) (by decide) rfl
    (by simp [exEvent, field]) hm (by rw [hc]; decide) hl
  rw [if_pos rfl, hc] at h1
  have h1' : Serder.newWithKed fl (.obj (exEvent "KERI" (str% "icp") d)) none none = .ok s := h1
  refine ⟨s, h1', h6, h4, h2, fun rest => ?_⟩
  exact C52_serder_partial fl _ none none s h1' rfl (exEvent_plain _ _ _) (by simp [exEvent, nesting, nestingObj]) (by rw [h4]; omega) rest

example (fl : Str → Option Str) : ∃ s, Serder.newWithKed fl (.obj (exEvent "KERI" (str% "icp") exD0)) none none = .ok s ∧
    Serder.newWithRaw fl (s.raw ++ toUtf8 (str% "-AABAA")) = .ok s := by
  obtain ⟨s, h, -, -, -, hr⟩ := exEvent_ok fl exD0 _ exD0_ok rfl (by decide +kernel)
  exact ⟨s, h, hr _⟩

/-- C52 in full is false: `new_with_raw` takes no code and expects `E`, so an event whose SAID uses another digest is
written by `new_with_ked` and not read back by `new_with_raw`. -/
theorem C52_false (fl : Str → Option Str) : ∃ o s, Serder.newWithKed fl (.obj o) (some (str% "H")) none = .ok s ∧
    (Serder.newWithRaw fl s.raw).isErr = true := by
  have hm : Matter.newWithQb64 (str% "HAAAAAAAAAAAAAAAAAAAAAAAAAAAAAAAAAAAAAAAAAAA") = .ok ⟨str% "H", 0, List.replicate 32 0⟩ := by decide +kernel
  generalize hdd : str% "HAAAAAAAAAAAAAAAAAAAAAAAAAAAAAAAAAAAAAAAAAAA" = d at hm
  obtain ⟨s, h1, -, -, h4, -, h6⟩ := C52_accepts fl (exEvent "KERI" (str% "icp") d) (str% "KERI") d _ 0 (by decide) (by decide) rfl
    (by simp [exEvent, field]) hm (by decide) (by rw [← hdd]; decide +kernel)
  rw [if_pos rfl] at h1
  have hb := C52_serder_partial fl _ _ none s h1 rfl (exEvent_plain _ _ _) (by simp [exEvent, nesting, nestingObj])
    (by rw [h4, ← hdd]; decide +kernel) []
  refine ⟨_, s, h1, ?_⟩
  obtain ⟨hb, -⟩ := serder_raw.mp hb
  rw [show toUtf8 [] = [] from rfl, List.append_nil] at hb
  unfold Sadder.populateFromRaw at hb
  obtain ⟨r, hr, hb⟩ := Res.bind_eq_ok.mp hb
  obtain ⟨b, hsl, hb⟩ := Res.bind_eq_ok.mp hb
  obtain ⟨o, t, m, e, hf, hms, hcm, hse⟩ := finish_sad.mp hb
  unfold Serder.newWithRaw Serder.new Sadder.new
  dsimp only [Option.getD_some, Option.getD_none]
  unfold Sadder.populateFromRaw
  rw [hr, Res.ok_bind, hsl, Res.ok_bind, e]
  unfold Sadder.finish
  rw [show (Value.obj o).index (str% "d") = .ok (.str t) by simp [Value.index, hf], Res.ok_bind,
    show (Value.str t).toStr = .ok t from rfl, Res.ok_bind, hms, Res.ok_bind, hcm, if_pos (by decide)]
  rfl

/-! ## C40 -/

theorem take_cut {fl : Str → Option Str} {code : Str} {ked : Value} {kind : Option Str} {s : Sad} (h : Sadder.populateFromKed code ked kind = .ok s)
    (hl : s.raw.length < 2 ^ 32) {k : Nat} (hk : k < s.raw.length) (code' : Str) :
    Sadder.populateFromRaw fl code' (s.raw.take k) =
      if 29 ≤ k then fromUtf8 (s.raw.take k) >>= fun _ => .panic else .err .value := by
  obtain ⟨o, ident, size, p, q, t, -, -, hs, -, -, -, hS, -⟩ := populateFromKed_ok h
  have hr : s.raw = (sizeOut o ident p q).raw := by rw [hS]
  rw [hr] at hl hk ⊢
  unfold Sadder.populateFromRaw Sadder.inhale
  rw [sniff_cut hs hk.le]
  by_cases h29 : 29 ≤ k
  · rw [if_pos h29, if_pos h29]
    cases hu : fromUtf8 ((sizeOut o ident p q).raw.take k) with
    | panic => rfl
    | err e => rfl
    | ok t =>
      rw [Res.ok_bind, Res.ok_bind, Res.ok_bind]
      dsimp only
      rw [if_neg (by simp)]
      unfold loads
      rw [if_pos (show (some (str% "JSON")).getD (str% "JSON") = str% "JSON" from rfl)]
      dsimp only
      unfold Bytes.sliceTo
      rw [if_neg]
      · rfl
      · rw [List.length_take, Nat.mod_eq_of_lt hl]
        omega
  · rw [if_neg h29, if_neg h29]
    rfl

/-- C40, partial: a message cut short is never accepted, and is an error when fewer than 29 bytes are left or the
cut falls inside a character. Missing: the other cuts panic, see `C40_exact`. -/
theorem C40_partial (fl : Str → Option Str) (ked : Value) (code kind code' : Option Str) (s : Sad)
    (h : Serder.newWithKed fl ked code kind = .ok s) (hl : s.raw.length < 2 ^ 32) (k : Nat) (hk : k < s.raw.length) :
    (Serder.new fl code' (some (s.raw.take k)) none none none).isOk = false ∧
    (k < 29 → Serder.new fl code' (some (s.raw.take k)) none none none = .err .value) ∧
    ((∀ t, s.raw.take k ≠ toUtf8 t) → (Serder.new fl code' (some (s.raw.take k)) none none none).isErr = true) := by
  obtain ⟨h1, -⟩ := serder_ked.mp h
  unfold Serder.new Sadder.new
  dsimp only [Option.getD_some]
  rw [take_cut h1 hl hk]
  refine ⟨?_, ?_, ?_⟩
  · split
    · cases fromUtf8 (s.raw.take k) <;> rfl
    · rfl
  · intro h29
    rw [if_neg (by omega)]
    rfl
  · intro ht
    split
    · cases hu : fromUtf8 (s.raw.take k) with
      | panic => exact absurd hu (fromUtf8_ne_panic _)
      | err e => rfl
      | ok t => exact absurd (fromUtf8_ok hu) (ht t)
    · rfl

/-- C40, the other cuts: whenever 29 or more bytes are left that are the encoding of a text, reading them panics. -/
theorem C40_exact (fl : Str → Option Str) (ked : Value) (code kind code' : Option Str) (s : Sad)
    (h : Serder.newWithKed fl ked code kind = .ok s) (hl : s.raw.length < 2 ^ 32) (k : Nat) (hk : k < s.raw.length) (h29 : 29 ≤ k)
    (t : Str) (ht : s.raw.take k = toUtf8 t) :
    Serder.new fl code' (some (s.raw.take k)) none none none = .panic := by
  obtain ⟨h1, -⟩ := serder_ked.mp h
  unfold Serder.new Sadder.new
  dsimp only [Option.getD_some]
  rw [take_cut h1 hl hk, if_pos h29, ht, fromUtf8_toUtf8]
  rfl

/-- The same for credentials. -/
theorem C40_creder_partial (fl : Str → Option Str) (ked : Value) (code kind code' : Option Str) (s : Sad)
    (h : Creder.newWithKed fl ked code kind = .ok s) (hl : s.raw.length < 2 ^ 32) (k : Nat) (hk : k < s.raw.length) :
    (Creder.new fl code' (some (s.raw.take k)) none none none).isOk = false ∧
    (k < 29 → Creder.new fl code' (some (s.raw.take k)) none none none = .err .value) := by
  obtain ⟨h1, -⟩ := creder_ked.mp h
  unfold Creder.new Sadder.new
  dsimp only [Option.getD_some]
  rw [take_cut h1 hl hk]
  refine ⟨?_, ?_⟩
  · split
    · cases fromUtf8 (s.raw.take k) <;> rfl
    · rfl
  · intro h29
    rw [if_neg (by omega)]
    rfl

/-- C40 is false: the inception-like event cut after 29 bytes makes the constructor panic. -/
theorem C40_false (fl : Str → Option Str) : ∃ o s, Serder.newWithKed fl (.obj o) none none = .ok s ∧ 29 < s.raw.length ∧
    Serder.newWithRaw fl (s.raw.take 29) = .panic := by
  obtain ⟨s, h, -, hl, hk, hr⟩ := exEvent_ok fl exD0 _ exD0_ok rfl (by decide +kernel)
  have hl' : s.raw.length < 2 ^ 32 ∧ 29 < s.raw.length := by rw [hl]; decide +kernel
  obtain ⟨h1, -⟩ := serder_ked.mp h
  obtain ⟨o', ident, size, p, q, t, e, -, hs, -, -, -, hS, -⟩ := populateFromKed_ok h1
  cases e
  have hone : s.raw = toUtf8 s.ked.toJson := by rw [hS]; exact (sizeOut_first hs rfl).1
  refine ⟨_, s, h, hl'.2, C40_exact fl _ none none none s h hl'.1 29 hl'.2 (Nat.le_refl _) (s.ked.toJson.take 29) ?_⟩
  rw [hone, hk]
  decide +kernel

/-! ## C39 -/

/-- C39 is false: whatever the hash functions, `new_with_raw` accepts an event whose SAID does not verify. -/
theorem C39_false (H : Hash) (chk : Bool) (fl : Str → Option Str) : ∃ raw s, Serder.newWithRaw fl raw = .ok s ∧
    verify H chk s.saider s.ked none none none none none ≠ .ok true := by
  obtain ⟨s, -, hm, hl, hk, hr⟩ := exEvent_ok fl exD0 _ exD0_ok rfl (by decide +kernel)
  obtain ⟨s', -, hm', hl', hk', hr'⟩ := exEvent_ok fl exD1 _ exD1_ok rfl (by decide +kernel)
  have r := hr []
  have r' := hr' []
  by_contra hc
  push Not at hc
  have v := hc _ _ r
  have v' := hc _ _ r'
  rw [hm, hk] at v
  rw [hm', hk'] at v'
  obtain ⟨o, d, oo, k, n, q, e, v⟩ := verify_true v
  obtain ⟨o', d', oo', k', n', q', e', v'⟩ := verify_true v'
  cases e
  cases e'
  have s1 := v.same
  have s2 := v'.same
  have hoo : oo = oo' := by
    rw [s1, s2]
    have : (toUtf8 (Value.obj (exEvent "KERI" (str% "icp") exD0)).toJson).length =
        (toUtf8 (Value.obj (exEvent "KERI" (str% "icp") exD1)).toJson).length := by decide +kernel
    rw [this]
    simp [exEvent, Value.insert]
  have d1 := v.der.digest
  have d2 := v'.der.digest
  rw [hoo] at d1
  have hd : d = d' := by rw [d1, d2]
  have hn : n = n' := fixed_unique _ _ _ v.row v'.row
  have hq : q = q' := by
    have h1 := v.qd
    have h2 := v'.qd
    rw [hd, hn] at h1
    dsimp only at h1 h2
    rw [h1] at h2
    injection h2
  have h1 := v.qm
  have h2 := v'.qm
  rw [hq, ← h2] at h1
  revert h1
  cases chk <;> decide +kernel

/-- C39, partial: what `new_with_raw` does check. The event is the JSON in the first bytes, as many as its version
string says; protocol KERI, version 1.0; the `d` field is a text of a digest with code `E`. Missing: that the digest is
that of the content, which the caller must check with `Saider::verify`, see `C39_checked`. -/
theorem C39_partial (fl : Str → Option Str) (raw : Bytes) (s : Sad) (h : Serder.newWithRaw fl raw = .ok s) :
    s.size ≤ raw.length ∧ s.raw = raw.take s.size ∧ (∃ t, s.raw = toUtf8 t ∧ jsonRead fl t = .ok s.ked) ∧
    s.ident = str% "KERI" ∧ s.version = ⟨1, 0⟩ ∧ s.kind = str% "JSON" ∧
    ∃ d, field (str% "d") s.ked = some (.str d) ∧ Matter.newWithQb64 d = .ok s.saider ∧ s.saider.code = str% "E" := by
  obtain ⟨h1, h2⟩ := serder_raw.mp (h : Serder.new fl none (some raw) none none none = .ok s)
  have := raw_fields h1
  exact ⟨this.1, this.2.1, this.2.2.1, h2, this.2.2.2.1, this.2.2.2.2.1, this.2.2.2.2.2⟩
where
  raw_fields {fl : Str → Option Str} {code : Str} {raw : Bytes} {s : Sad} (h : Sadder.populateFromRaw fl code raw = .ok s) :
      s.size ≤ raw.length ∧ s.raw = raw.take s.size ∧ (∃ t, s.raw = toUtf8 t ∧ jsonRead fl t = .ok s.ked) ∧
      s.version = ⟨1, 0⟩ ∧ s.kind = str% "JSON" ∧
      ∃ d, field (str% "d") s.ked = some (.str d) ∧ Matter.newWithQb64 d = .ok s.saider ∧ s.saider.code = code := by
    unfold Sadder.populateFromRaw Sadder.inhale at h
    obtain ⟨r, hr, h⟩ := Res.bind_eq_ok.mp h
    obtain ⟨b, hb, h⟩ := Res.bind_eq_ok.mp h
    obtain ⟨o, t, m, e, hf, hm, hc, rfl⟩ := finish_sad.mp h
    obtain ⟨r', hr', hr⟩ := Res.bind_eq_ok.mp hr
    split at hr
    · cases hr
    · rename_i hver
      obtain ⟨ked, hked, hr⟩ := Res.bind_eq_ok.mp hr
      cases hr
      dsimp only at *
      unfold Bytes.sliceTo at hb
      split at hb
      · rename_i hle
        cases hb
        unfold loads at hked
        split at hked
        · rename_i hk
          dsimp only at hked
          unfold Bytes.sliceTo at hked
          rw [if_pos hle, Res.ok_bind] at hked
          obtain ⟨t', ht, hj⟩ := Res.bind_eq_ok.mp hked
          refine ⟨hle, rfl, ⟨t', fromUtf8_ok ht, hj⟩, not_not.mp hver, hk, t, ?_, (saiderOf_ok hm).1, hc⟩
          rw [e, field_find, hf]
        · cases hked
      · cases hb

/-- C39 for credentials. -/
theorem C39_creder_partial (fl : Str → Option Str) (raw : Bytes) (s : Sad) (h : Creder.newWithRaw fl raw = .ok s) :
    s.size ≤ raw.length ∧ s.raw = raw.take s.size ∧ (∃ t, s.raw = toUtf8 t ∧ jsonRead fl t = .ok s.ked) ∧
    s.ident = str% "ACDC" ∧ s.version = ⟨1, 0⟩ ∧ s.kind = str% "JSON" ∧
    ∃ d, field (str% "d") s.ked = some (.str d) ∧ Matter.newWithQb64 d = .ok s.saider ∧ s.saider.code = str% "E" := by
  obtain ⟨h1, h2⟩ := creder_raw.mp (h : Creder.new fl none (some raw) none none none = .ok s)
  have := C39_partial.raw_fields h1
  exact ⟨this.1, this.2.1, this.2.2.1, h2, this.2.2.2.1, this.2.2.2.2.1, this.2.2.2.2.2⟩

/-- C39: with the check of the SAID added by the caller, two events with the same SAID have the same fields in the same
order, or the texts digested for them are different and have the same digest. Events without floats. -/
theorem C39_checked (H : Hash) (hH : HashOk H) (chk : Bool) (fl : Str → Option Str) (raw₁ raw₂ : Bytes) (s₁ s₂ : Sad)
    (h₁ : Serder.newWithRaw fl raw₁ = .ok s₁) (h₂ : Serder.newWithRaw fl raw₂ = .ok s₂) (hs : s₁.saider = s₂.saider)
    (v₁ : verify H chk s₁.saider s₁.ked (some true) none none none none = .ok true)
    (v₂ : verify H chk s₂.saider s₂.ked (some true) none none none none = .ok true) (p₁ : Plain s₁.ked) (p₂ : Plain s₂.ked) :
    s₁.ked = s₂.ked ∨ ∃ o₁ o₂, s₁.ked = .obj o₁ ∧ s₂.ked = .obj o₂ ∧
      Collide H (str% "E") (Value.obj (blanked (str% "E") (str% "d") o₁)).toJson (Value.obj (blanked (str% "E") (str% "d") o₂)).toJson := by
  obtain ⟨-, -, -, -, -, -, d₁, f₁, -, c₁⟩ := C39_partial fl raw₁ s₁ h₁
  obtain ⟨-, -, -, -, -, -, d₂, f₂, -, -⟩ := C39_partial fl raw₂ s₂ h₂
  rw [← hs] at v₂
  cases hk₁ : s₁.ked <;> rw [hk₁] at f₁ <;> try cases f₁
  cases hk₂ : s₂.ked <;> rw [hk₂] at f₂ <;> try cases f₂
  rename_i o₁ o₂
  rw [hk₁] at v₁ p₁
  rw [hk₂] at v₂ p₂
  rcases C38_prefixed H hH chk s₁.saider o₁ o₂ none none p₁ p₂ v₁ v₂ with h | h
  · exact .inl (by rw [h])
  · rw [c₁] at h
    have e : ∀ {o : List (Str × Value)} {d : Str}, field (str% "d") (.obj o) = some (.str d) → filled (str% "E") (str% "d") o = blanked (str% "E") (str% "d") o := by
      intro o d hf
      unfold filled
      rw [if_pos]
      rw [field_find] at hf
      rw [hasKey_mem]
      unfold Value.hasKey
      rw [hf]
      rfl
    simp only [Option.getD_none] at h
    rw [e f₁, e f₂] at h
    exact .inr ⟨_, _, rfl, rfl, h⟩

end Keride.Props
