/-
C37 and C38: self-addressing identifiers (saider.rs). `H` stands for the hash functions.
-/
import Verif.Lemmas.SaiderVerify

namespace Keride.Props

open Spec Matter Saider

/-! ## C37 -/

/-- C37: after `saidify`, the label holds the SAID, whose text is valid; `verify` accepts the result with every
choice of the `prefixed` and `versioned` checks; and `saidify` again changes nothing. -/
theorem C37_verifies (H : Hash) (chk : Bool) (sad : Value) (code kind label : Option Str) (ignore : Option (List Str)) (m : M) (sad' : Value)
    (h : saidify H chk sad code kind label ignore = .ok (m, sad')) :
    (∃ q, qb64 chk m = .ok q ∧ newWithQb64 H q = .ok m ∧ field (label.getD (str% "d")) sad' = some (.str q)) ∧
    (∀ prefixed versioned, verify H chk m sad' prefixed versioned kind label ignore = .ok true) ∧
    saidify H chk sad' code kind label ignore = .ok (m, sad') := by
  obtain ⟨o, o2, k, d, q, n, rfl, rfl, hD, hq, hn, hl, rfl, hkey⟩ := saidify_ok h
  have hD2 := hD.again (.str q)
  refine ⟨⟨q, hq, ?_, ?_⟩, ?_, ?_⟩
  · obtain ⟨q', h1, h2⟩ := qb64_digest chk hn hl
    rw [hq] at h1
    cases h1
    unfold Saider.newWithQb64 Saider.new
    rw [if_neg (by simp)]
    have e : Matter.new none none none (some q) none = .ok ⟨code.getD (str% "E"), 0, d.take n⟩ := h2
    rw [e, Res.ok_bind]
    unfold validateCode
    dsimp only
    rw [if_pos (by simpa using hD.code)]
    rfl
  · rw [field_find, find_insert_self]
  · intro pre ver
    refine verify_of (n := n) (q := q) (d := d) (k := k) (o2 := o2) ⟨hD2, hn, hl, hq, hq, ?_, ?_⟩ ?_
    · intro _ _
      rw [find_insert_ne hD.label_ne.symm]
    · intro _
      rw [find_insert_self]
    · intro hv
      have hv2 : Value.hasKey (str% "v") o2 = true := by
        unfold Value.hasKey at hv ⊢
        rwa [find_insert_ne hD.label_ne.symm] at hv
      obtain ⟨o2', e, -, -, -, hc⟩ := prep_ok hD.prep2
      cases e
      rw [find_insert_ne hD.label_ne.symm]
      rcases hc with ⟨h, -⟩ | ⟨ident, size, p, q, hs, -⟩
      · rw [hv2] at h; cases h
      · exact ⟨_, hs.2.2.1⟩
  · have := saidify_of (chk := chk) (code := code) (label := label) hD2 hn hl
      (by unfold Value.hasKey; rw [find_insert_self]; rfl) hq
    exact this

/-- C37: `saidify` keeps the keys, their order and every field but the SAID and the version string. -/
theorem C37_fields (H : Hash) (chk : Bool) (o : List (Str × Value)) (code kind label : Option Str) (ignore : Option (List Str)) (m : M)
    (sad' : Value) (h : saidify H chk (.obj o) code kind label ignore = .ok (m, sad')) :
    ∃ o', sad' = .obj o' ∧ o'.map Prod.fst = o.map Prod.fst ∧
      ∀ k, k ≠ label.getD (str% "d") → k ≠ str% "v" → field k (.obj o') = field k (.obj o) := by
  obtain ⟨o0, o2, k, d, q, n, e, rfl, hD, hq, hn, hl, rfl, hkey⟩ := saidify_ok h
  cases e
  have h2 : Value.hasKey (label.getD (str% "d")) o2 = true := by unfold Value.hasKey; rw [hD.found]; rfl
  obtain ⟨o2', e, -, hf, -, hc⟩ := prep_ok hD.prep1
  cases e
  refine ⟨_, rfl, ?_, ?_⟩
  · rw [insert_map_fst h2]
    rcases hc with ⟨-, rfl, -⟩ | ⟨ident, size, p, q, hs, -, -, rfl⟩
    · exact insert_map_fst hkey
    · rw [insert_map_fst hs.key, insert_map_fst hkey]
  · intro l h1 h2
    rw [field_find, field_find, find_insert_ne h1, hf l h2, find_insert_ne h1]

/-- C37: `saidify` succeeds on every document with distinct keys that has the label, and has no version field or
starts with one for the current version and is shorter than 16 MiB. -/
theorem C37_accepts (H : Hash) (hH : HashOk H) (chk : Bool) (o : List (Str × Value)) (code label : Str) (ignore : Option (List Str))
    (hc : code ∈ digests) (hn : (o.map Prod.fst).Nodup) (hlab : label ∈ o.map Prod.fst) (hlv : label ≠ str% "v")
    (hv : str% "v" ∉ o.map Prod.fst ∨ ∃ ident ∈ protocols, ∃ size < 2 ^ 24,
      o.head? = some (str% "v", .str (versionText ident ⟨1, 0⟩ (str% "JSON") size)) ∧
        (toUtf8 (Value.obj (blanked code label o)).toJson).length < 2 ^ 24) :
    ∃ m sad', saidify H chk (.obj o) (some code) none (some label) ignore = .ok (m, sad') ∧ m.code = code := by
  have hc' := mem_digests.mp hc
  have hl' := hasKey_mem.mp hlab
  obtain ⟨o2, k, hD⟩ := derived_of H (kind := none) (ignore := ignore) hc' hlv rfl hn (by
    rcases hv with hv | ⟨ident, hi, size, hs, hh, hlen⟩
    · left
      rw [hasKey_mem] at hv
      simpa using hv
    · right
      obtain ⟨p, q, h⟩ := sizable_blanked hn hl' hlv (mem_protocols.mp hi) hs hh hlen
      exact ⟨ident, size, p, q, h⟩)
  obtain ⟨n, hrow, -⟩ := digest_rows code hc'
  have hlen := hH code hc n hrow (toUtf8 (Value.obj (removeAll (ignore.getD []) o2)).toJson)
  obtain ⟨q, hq, -⟩ := qb64_digest chk hrow (d := H code (toUtf8 (Value.obj (removeAll (ignore.getD []) o2)).toJson)) (by omega)
  exact ⟨_, _, saidify_of (code := some code) (label := some label) hD hrow (by simpa using hlen.ge) hl' hq, rfl⟩

/-- A stand-in hash with digests of the right sizes. -/
def exHash : Hash := fun code b => List.replicate (if code.length = 1 then 32 else 64) (UInt8.ofNat b.length)

theorem exHash_ok : HashOk exHash := by
  have key : ∀ c ∈ digests, ∀ e ∈ fixedCodes, e.1 = c → e.2 = if c.length = 1 then 32 else 64 := by decide +kernel
  intro c hc n hn b
  unfold exHash
  rw [List.length_replicate]
  exact (key c hc _ hn rfl).symm

/-- A credential-like document. -/
def exSad : List (Str × Value) := [(str% "v", .str (str% "ACDC10JSON000000_")), (str% "d", .str []), (str% "i", .str (str% "EAbc")),
  (str% "a", .obj [(str% "x", .int 7)])]

example : ∃ m sad', saidify exHash true (.obj exSad) (some (str% "E")) none (some (str% "d")) none = .ok (m, sad') := by
  obtain ⟨m, s, h, -⟩ := C37_accepts exHash exHash_ok true exSad (str% "E") (str% "d") none (by decide) (by decide) (by decide) (by decide)
    (.inr ⟨str% "ACDC", by decide, 0, by decide, rfl, by decide +kernel⟩)
  exact ⟨m, s, h⟩

/-- C37: the SAID of a document, computed by `Saider::new`, is the one `saidify` fills in with the same algorithm. The
algorithm is the one asked for, else that of the SAID in the field, else, when the field is empty, Blake3-256. -/
theorem C37_new (H : Hash) (chk : Bool) (sad : Value) (label kind : Option Str) (ignore : Option (List Str)) (code : Option Str) (m : M)
    (h : Saider.new H (some sad) label kind ignore code none none none none = .ok m) :
    (∃ sad', saidify H chk sad (some m.code) kind label ignore = .ok (m, sad')) ∧
    ((∃ c, code = some c ∧ m.code = c) ∨
     code = none ∧ field (label.getD (str% "d")) sad = some (.str []) ∧ m.code = str% "E" ∨
     code = none ∧ ∃ q old, field (label.getD (str% "d")) sad = some (.str q) ∧ q ≠ [] ∧ Matter.newWithQb64 q = .ok old ∧ m.code = old.code) := by
  unfold Saider.new at h
  rw [if_pos (by simp)] at h
  dsimp only at h
  obtain ⟨p, hp, hm⟩ := Res.bind_eq_ok.mp h
  have hp' : deriveCode (some sad) (label.getD (str% "d")) code >>= (fun c => validateCode c >>= fun _ =>
      derive H sad (some c) kind (some (label.getD (str% "d"))) ignore >>= fun d => Res.ok (c, d.1)) = .ok p := by
    cases code <;> exact hp
  obtain ⟨c, hc, hp'⟩ := Res.bind_eq_ok.mp hp'
  obtain ⟨u, -, hp'⟩ := Res.bind_eq_ok.mp hp'
  obtain ⟨⟨d, x⟩, hd, hp'⟩ := Res.bind_eq_ok.mp hp'
  cases hp'
  obtain ⟨o, o2, k, rfl, rfl, hD⟩ := derive_ok hd
  obtain ⟨n, hn, -⟩ := digest_rows c hD.code
  dsimp only at hm
  rw [new_digest hn] at hm
  split at hm
  · cases hm
  cases hm
  unfold deriveCode at hc
  dsimp only at hc
  rw [show (Value.obj o).toMap = .ok o from rfl, Res.ok_bind] at hc
  split at hc
  · cases hc
  rename_i hk
  have hk' : Value.hasKey (label.getD (str% "d")) o = true := by simpa using hk
  obtain ⟨q, hq, -⟩ := qb64_digest chk hn (d := d) (by omega)
  refine ⟨⟨_, saidify_of (code := some c) (label := label) hD hn (by omega) hk' hq⟩, ?_⟩
  cases code with
  | some c' => cases hc; exact .inl ⟨_, rfl, rfl⟩
  | none =>
    right
    dsimp only at hc
    obtain ⟨y, hy, hc⟩ := Res.bind_eq_ok.mp hc
    have hf : field (label.getD (str% "d")) (.obj o) = some y := by rw [field_find]; exact index_ok hy
    cases y with
    | str s =>
      dsimp only at hc
      split at hc
      · rename_i e
        cases hc
        exact .inl ⟨rfl, by rw [hf, e], rfl⟩
      · rename_i e
        obtain ⟨old, ho, hc⟩ := Res.bind_eq_ok.mp hc
        cases hc
        exact .inr ⟨rfl, s, old, hf, e, ho, rfl⟩
    | _ => cases hc

example : ∃ m, Saider.new exHash (some (.obj exSad)) none none none none none none none none = .ok m :=
  Res.isOk_iff.mp (by decide +kernel)

/-! ## C38 -/

theorem keys_of {o : List (Str × Value)} (h : Plain (.obj o)) : Keys o := by
  simp only [Plain, Proper] at h
  exact h.1

theorem draft_of {c label : Str} {kind k : Option Str} {ignore : List Str} {o oo : List (Str × Value)} (h : Plain (.obj o)) (h' : Plain (.obj oo))
    (hp : prep kind (Value.insert label (.str (dummy (saidChars c))) o) = .ok (k, .obj oo)) : Draft c label ignore o (Value.obj (removeAll ignore oo)).toJson := by
  refine ⟨oo, _, ?_, removeAll_perm ignore (keys_of h'), rfl⟩
  have h1 : Keys (Value.insert label (.str (dummy (saidChars c))) o) := keys_of (plain_insert h)
  obtain ⟨oo', e, -, -, -, hc⟩ := prep_ok hp
  cases e
  rw [← insert_filled (keys_of h)]
  rcases hc with ⟨-, rfl, -⟩ | ⟨ident, size, p, q, hz, -, -, rfl⟩
  · exact .inl rfl
  · exact .inr ⟨ident, mem_protocols.mpr hz.1, insert_sized h1 hz.key⟩

/-- C38: the same SAID, checked with the default options, on two documents: apart from the SAID field the documents
are the same, fields and order, or the texts digested for them are different and have the same digest. Every digest code,
every label; documents without floats. -/
theorem C38_tamper (H : Hash) (hH : HashOk H) (chk : Bool) (m : M) (o₁ o₂ : List (Str × Value)) (label kind : Option Str)
    (p₁ : Plain (.obj o₁)) (p₂ : Plain (.obj o₂)) (prefixed : Option Bool)
    (h₁ : verify H chk m (.obj o₁) prefixed none kind label none = .ok true)
    (h₂ : verify H chk m (.obj o₂) prefixed none kind label none = .ok true) :
    otherFields (label.getD (str% "d")) o₁ = otherFields (label.getD (str% "d")) o₂ ∨
      Collide H m.code (Value.obj (filled m.code (label.getD (str% "d")) o₁)).toJson (Value.obj (filled m.code (label.getD (str% "d")) o₂)).toJson := by
  obtain ⟨o, d, oo, k, n, q, e, v⟩ := verify_true h₁
  obtain ⟨o', d', oo', k', n', q', e', v'⟩ := verify_true h₂
  cases e
  cases e'
  obtain ⟨hd, -⟩ := hash_of_verified hH v v'
  have s := v.same
  have s' := v'.same
  have hd1 := v.der.digest
  have hd2 := v'.der.digest
  simp only [Option.getD_none, removeAll] at hd1 hd2
  rw [← hd, hd1] at hd2
  by_cases hb : toUtf8 (Value.obj oo).toJson = toUtf8 (Value.obj oo').toJson
  · left
    have := toJson_inj (by rw [s]; exact plain_insert p₁) (by rw [s']; exact plain_insert p₂) (toUtf8_inj hb)
    have e : oo = oo' := by simpa using this
    rw [s, s'] at e
    rw [← filter_insert _ (.str (dummy (saidChars m.code))) o₁, e, filter_insert]
  · right
    rw [← insert_filled (keys_of p₁), ← insert_filled (keys_of p₂), ← s, ← s']
    exact ⟨fun e => hb (by rw [e]), hd2⟩

/-- C38: with the `prefixed` check the two documents are equal, SAID field included, or there is a collision. -/
theorem C38_prefixed (H : Hash) (hH : HashOk H) (chk : Bool) (m : M) (o₁ o₂ : List (Str × Value)) (label kind : Option Str)
    (p₁ : Plain (.obj o₁)) (p₂ : Plain (.obj o₂))
    (h₁ : verify H chk m (.obj o₁) (some true) none kind label none = .ok true)
    (h₂ : verify H chk m (.obj o₂) (some true) none kind label none = .ok true) :
    o₁ = o₂ ∨
      Collide H m.code (Value.obj (filled m.code (label.getD (str% "d")) o₁)).toJson (Value.obj (filled m.code (label.getD (str% "d")) o₂)).toJson := by
  obtain ⟨o, d, oo, k, n, q, e, v⟩ := verify_true h₁
  obtain ⟨o', d', oo', k', n', q', e', v'⟩ := verify_true h₂
  cases e
  cases e'
  obtain ⟨hd, hq⟩ := hash_of_verified hH v v'
  have s := v.same
  have s' := v'.same
  have hd1 := v.der.digest
  have hd2 := v'.der.digest
  simp only [Option.getD_none, removeAll] at hd1 hd2
  rw [← hd, hd1] at hd2
  by_cases hb : toUtf8 (Value.obj oo).toJson = toUtf8 (Value.obj oo').toJson
  · left
    have := toJson_inj (by rw [s]; exact plain_insert p₁) (by rw [s']; exact plain_insert p₂) (toUtf8_inj hb)
    have e : oo = oo' := by simpa using this
    rw [s, s'] at e
    have f1 := v.pref rfl
    have f2 := v'.pref rfl
    rw [← insert_find_self f1, ← insert_find_self f2, ← insert_insert _ (.str (dummy (saidChars m.code))), e, insert_insert, hq]
  · right
    rw [← insert_filled (keys_of p₁), ← insert_filled (keys_of p₂), ← s, ← s']
    exact ⟨fun e => hb (by rw [e]), hd2⟩

/-- Two different documents with the same SAID: only the SAID field differs. -/
theorem exTamper : ∃ m o₁ o₂, o₁ ≠ o₂ ∧ Saider.verify exHash true m (.obj o₁) none none none none none = .ok true ∧
    Saider.verify exHash true m (.obj o₂) none none none none none = .ok true := by
  have key : (Saider.saidify exHash true (.obj exSad) none none none none >>= fun r => r.2.toMap >>= fun o =>
      Saider.verify exHash true r.1 (.obj (Value.insert (str% "d") (.str (str% "other")) o)) none none none none none >>= fun b =>
      r.2.index (str% "d") >>= fun v => v.toStr >>= fun s => .ok (b, decide (s ≠ str% "other"))) = .ok (true, true) := by decide +kernel
  simp only [Res.bind_eq_ok] at key
  obtain ⟨⟨m, x⟩, h1, o, h2, b, h3, v, h4, s, h5, h6⟩ := key
  have hb : b = true ∧ s ≠ str% "other" := by simpa using h6
  cases x with
  | obj o' =>
    cases h2
    refine ⟨m, o, _, ?_, (C37_verifies _ _ _ _ _ _ _ _ _ h1).2.1 none none, by rw [h3, hb.1]⟩
    intro e
    have f1 := index_ok h4
    rw [toStr_ok h5, e, find_insert_self] at f1
    apply hb.2
    simpa using f1.symm
  | _ => cases h2

/-- C38, with ignored fields and with or without the version check: every field that is neither ignored nor the SAID
is the same (the version field only when it is checked), or there is a collision. -/
theorem C38_ignore (H : Hash) (hH : HashOk H) (chk : Bool) (m : M) (o₁ o₂ : List (Str × Value)) (label kind : Option Str)
    (p₁ : Plain (.obj o₁)) (p₂ : Plain (.obj o₂)) (prefixed versioned : Option Bool) (ignore : Option (List Str))
    (h₁ : verify H chk m (.obj o₁) prefixed versioned kind label ignore = .ok true)
    (h₂ : verify H chk m (.obj o₂) prefixed versioned kind label ignore = .ok true) :
    (∀ k, k ∉ ignore.getD [] → k ≠ label.getD (str% "d") → k ≠ str% "v" ∨ versioned.getD true = true →
      field k (.obj o₁) = field k (.obj o₂)) ∨
      Collision H m.code (Draft m.code (label.getD (str% "d")) (ignore.getD []) o₁) (Draft m.code (label.getD (str% "d")) (ignore.getD []) o₂) := by
  obtain ⟨o, d, oo, k, n, q, e, v⟩ := verify_true h₁
  obtain ⟨o', d', oo', k', n', q', e', v'⟩ := verify_true h₂
  cases e
  cases e'
  obtain ⟨hd, hq⟩ := hash_of_verified hH v v'
  have hd1 := v.der.digest
  have hd2 := v'.der.digest
  rw [← hd, hd1] at hd2
  have plain2 : ∀ {kind k : Option Str} {o oo : List (Str × Value)} {l : Str}, Plain (.obj o) →
      prep kind (Value.insert l (.str (dummy (saidChars m.code))) o) = .ok (k, .obj oo) → Plain (.obj oo) := by
    intro kind k o oo l hp h
    obtain ⟨oo', e, -, -, -, hc⟩ := prep_ok h
    cases e
    rcases hc with ⟨-, rfl, -⟩ | ⟨ident, size, p, q, -, -, -, rfl⟩
    · exact plain_insert hp
    · exact plain_insert (plain_insert hp)
  have P1 := plain2 p₁ v.der.prep1
  have P2 := plain2 p₂ v'.der.prep1
  by_cases hb : toUtf8 (Value.obj (removeAll (ignore.getD []) oo)).toJson = toUtf8 (Value.obj (removeAll (ignore.getD []) oo')).toJson
  · left
    have := toJson_inj (plain_removeAll _ P1) (plain_removeAll _ P2) (toUtf8_inj hb)
    have e : removeAll (ignore.getD []) oo = removeAll (ignore.getD []) oo' := by simpa using this
    intro l hi hl hv
    have n1 : Keys oo := by simp only [Plain, Proper] at P1; exact P1.1
    have n2 : Keys oo' := by simp only [Plain, Proper] at P2; exact P2.1
    have e2 : Value.find l oo = Value.find l oo' := by
      rw [← find_removeAll hi n1, ← find_removeAll hi n2, e]
    rw [field_find, field_find]
    by_cases hlv : l = str% "v"
    · have hver : versioned.getD true = true := by
        rcases hv with hv | hv
        · exact absurd hlv hv
        · exact hv
      rw [hver] at v v'
      have s := v.same
      have s' := v'.same
      rw [s, s', find_insert_ne hl, find_insert_ne hl] at e2
      exact e2
    · obtain ⟨_, e, -, f1, -⟩ := prep_ok v.der.prep1
      cases e
      obtain ⟨_, e, -, f2, -⟩ := prep_ok v'.der.prep1
      cases e
      rw [f1 l hlv, f2 l hlv, find_insert_ne hl, find_insert_ne hl] at e2
      exact e2
  · exact .inr ⟨_, _, draft_of p₁ P1 v.der.prep1, draft_of p₂ P2 v'.der.prep1, fun e => hb (by rw [e]), hd2⟩

/-- C38: what is digested. With the default options `verify` accepts exactly the digest of the JSON of the document
with its SAID field filled with `#`, for documents without version field and for documents that start with one that
records the size. -/
theorem C38_exact (H : Hash) (hH : HashOk H) (chk : Bool) (code : Str) (raw : Bytes) (m : M) (o : List (Str × Value)) (label : Str)
    (hc : code ∈ digests) (hm : newWithCodeAndRaw code raw = .ok m) (hn : (o.map Prod.fst).Nodup) (hlab : label ∈ o.map Prod.fst)
    (hlv : label ≠ str% "v")
    (hv : str% "v" ∉ o.map Prod.fst ∨ ∃ ident ∈ protocols, (toUtf8 (Value.obj (blanked code label o)).toJson).length < 2 ^ 24 ∧
      o.head? = some (str% "v", .str (versionText ident ⟨1, 0⟩ (str% "JSON") (toUtf8 (Value.obj (blanked code label o)).toJson).length))) :
    verify H chk m (.obj o) none none none (some label) none = .ok true ↔
      m.raw = H code (toUtf8 (Value.obj (blanked code label o)).toJson) := by
  have hc' := mem_digests.mp hc
  have hl' := hasKey_mem.mp hlab
  obtain ⟨n, hrow, -⟩ := digest_rows code hc'
  rw [new_fixed hrow] at hm
  split at hm
  · cases hm
  · rename_i hlen
    cases hm
    rw [blanked_insert hn hl'] at hv ⊢
    constructor
    · intro h
      obtain ⟨o', d, o2, k, n', q, e, v⟩ := verify_true h
      cases e
      have hn' := fixed_unique _ _ _ hrow v.row
      subst hn'
      have hdl := hH code hc n hrow (toUtf8 (Value.obj (removeAll ((none : Option (List Str)).getD []) o2)).toJson)
      have hd : d = H code (toUtf8 (Value.obj o2).toJson) := v.der.digest
      have heq := same_digest hrow (by omega : n ≤ raw.length) v.len v.qm v.qd
      have hs : o2 = Value.insert label (.str (dummy (saidChars code))) o := v.same
      rw [hs] at hd
      dsimp only
      rw [heq, hd, List.take_of_length_le]
      rw [hH code hc n hrow]
    · intro h
      dsimp only at h
      have hcases : ∃ k, prep none (Value.insert label (.str (dummy (saidChars code))) o) =
          .ok (k, .obj (Value.insert label (.str (dummy (saidChars code))) o)) ∧
          (Value.hasKey (str% "v") o = false ∨ ∃ ident size p q, Sizable (Value.insert label (.str (dummy (saidChars code))) o) ident size p q) := by
        rcases hv with hv | ⟨ident, hi, hlt, hh⟩
        · have hv' : Value.hasKey (str% "v") o = false := by
            rw [hasKey_mem] at hv
            simpa using hv
          refine ⟨none, ?_, .inl hv'⟩
          unfold prep
          rw [if_neg]
          unfold Value.hasKey at hv' ⊢
          rw [find_insert_ne hlv.symm, hv']
          simp
        · obtain ⟨p, q, hs⟩ := sizable_blanked (c := code) hn hl' hlv (mem_protocols.mp hi) hlt hh (by rw [blanked_insert hn hl']; exact hlt)
          refine ⟨some (str% "JSON"), ?_, .inr ⟨ident, _, p, q, hs⟩⟩
          unfold prep
          rw [if_pos hs.key, sizeify_of rfl hs, Res.ok_bind]
          have : (sizeOut (Value.insert label (.str (dummy (saidChars code))) o) ident p q).ked =
              .obj (Value.insert label (.str (dummy (saidChars code))) o) := by
            unfold sizeOut
            dsimp only
            rw [insert_find_self]
            rw [hs.2.2.1]
            unfold newVs
            rw [toUtf8_length] at hlt ⊢
            rw [Nat.mod_eq_of_lt (by omega)]
          rw [this]
          rfl
      obtain ⟨k, hp, hcase⟩ := hcases
      obtain ⟨o2, k', hD⟩ := derived_of H (c := code) (label := label) (kind := none) (ignore := none) hc' hlv rfl hn hcase
      have hp1 := hD.prep1
      rw [hp] at hp1
      injection hp1 with hp1
      injection hp1 with e1 e2
      injection e2 with e2
      subst e2
      have hD' : Derived H code none label none o (raw.take n) (Value.insert label (.str (dummy (saidChars code))) o) k' := by
        have := hD
        rw [show H code (toUtf8 (Value.obj (removeAll ((none : Option (List Str)).getD []) (Value.insert label (.str (dummy (saidChars code))) o))).toJson)
          = raw.take n from h.symm] at this
        exact this
      have hll : (raw.take n).length = n := by rw [List.length_take]; omega
      obtain ⟨q, hq, -⟩ := qb64_digest chk hrow (by omega : n ≤ raw.length)
      refine verify_of (label := some label) (m := ⟨code, 0, raw.take n⟩) (n := n) (q := q) ⟨hD', hrow, by omega, hq, ?_, ?_, ?_⟩ ?_
      · dsimp only; rw [List.take_take, Nat.min_self]; exact hq
      · intro _ _
        rw [find_insert_ne hlv.symm]
      · intro hh; cases hh
      · intro hk
        rcases hcase with hc | ⟨ident, size, p, q, hs⟩
        · rw [hc] at hk; cases hk
        · have := hs.2.2.1
          rw [find_insert_ne hlv.symm] at this
          exact ⟨_, this⟩

end Keride.Props
