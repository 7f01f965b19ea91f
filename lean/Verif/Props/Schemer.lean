/-
Schemas (C85, C86).
-/
import Verif.Lemmas.Schemer
import Verif.Props.Issue

namespace Keride.Props

open Matter Spec Saider Sample

/-- C85: what a schemer is. Its document carries its SAID in the field `$id`, the SAID is the digest of the document with that field
filled with `#`, and its bytes are a text of that document. -/
theorem C85_document {γ : Type} (H : Hash) (hH : HashOk H) (chk : Bool) (fl : Str → Option Str) (B : Boon γ) (cache cache' : SchemaCache γ) (raw : Option Bytes)
    (sed : Option Value) (kind code : Option Str) (s : Schemer) (h : Schemer.new H chk fl B cache raw sed kind code = .ok (s, cache')) (hd : SchemaDoc fl s.sed) :
    ∃ (o : List (Str × Value)) (q t : Str), s.sed = .obj o ∧ s.said chk = .ok q ∧ field (str% "$id") s.sed = some (.str q) ∧ Matter.newWithQb64 q = .ok s.saider ∧
      s.saider.code ∈ digests ∧ s.saider.raw = H s.saider.code (toUtf8 (Value.obj (blanked s.saider.code (str% "$id") o)).toJson) ∧
      fromUtf8 s.raw = .ok t ∧ jsonParse fl jsonDepth t = .ok s.sed ∧ s.kind = str% "JSON" := by
  obtain ⟨o, q, t, hm, -⟩ := new_ok hH h hd
  refine ⟨o, q, t, hm.sed, hm.said, ?_, hm.back, mem_digests.mpr hm.code, ?_, hm.text, hm.reads, hm.kind⟩
  · rw [hm.sed, field_find, hm.found]
  · have hn := hd.proper
    rw [hm.sed, Proper] at hn
    rw [blanked_insert hn.1 (by unfold Value.hasKey; rw [hm.found]; rfl)]
    exact hm.raw

/-- C85: a schemer made from a text has the document of the text, and the text. -/
theorem C85_text {γ : Type} (H : Hash) (chk : Bool) (fl : Str → Option Str) (B : Boon γ) (cache cache' : SchemaCache γ) (raw : Bytes)
    (sed : Option Value) (kind code : Option Str) (s : Schemer) (h : Schemer.new H chk fl B cache (some raw) sed kind code = .ok (s, cache')) :
    s.raw = raw ∧ ∃ t, fromUtf8 raw = .ok t ∧ jsonParse fl jsonDepth t = .ok s.sed := by
  unfold Schemer.new at h
  dsimp only at h
  obtain ⟨s', hs, h⟩ := Res.bind_eq_ok.mp h
  obtain ⟨q, -, h⟩ := Res.bind_eq_ok.mp h
  obtain ⟨t, -, h⟩ := Res.bind_eq_ok.mp h
  obtain ⟨c, -, h⟩ := Res.bind_eq_ok.mp h
  cases h
  obtain ⟨p, hp, hs⟩ := Res.bind_eq_ok.mp hs
  cases hs
  obtain ⟨t', o, h1, h2, -⟩ := inhale_ok hp
  exact ⟨rfl, t', h1, h2⟩

/-- C85: a schemer made from a document has that document, with nothing but the field `$id` changed, and the digest asked for. -/
theorem C85_fields {γ : Type} (H : Hash) (chk : Bool) (fl : Str → Option Str) (B : Boon γ) (cache cache' : SchemaCache γ) (sed : Value) (kind code : Option Str)
    (s : Schemer) (h : Schemer.new H chk fl B cache none (some sed) kind code = .ok (s, cache')) :
    ∃ o o', sed = .obj o ∧ s.sed = .obj o' ∧ o'.map Prod.fst = o.map Prod.fst ∧ (∀ k, k ≠ str% "$id" → field k s.sed = field k sed) ∧
      s.saider.code = code.getD (str% "E") ∧ s.raw = toUtf8 s.sed.toJson := by
  unfold Schemer.new at h
  dsimp only at h
  obtain ⟨s', hs, h⟩ := Res.bind_eq_ok.mp h
  obtain ⟨q, -, h⟩ := Res.bind_eq_ok.mp h
  obtain ⟨t, -, h⟩ := Res.bind_eq_ok.mp h
  obtain ⟨c, -, h⟩ := Res.bind_eq_ok.mp h
  cases h
  obtain ⟨p, hp, hs⟩ := Res.bind_eq_ok.mp hs
  cases hs
  obtain ⟨o, q', h1, h2, h3, h4, h5, h6, h7, -⟩ := exhale_ok hp
  refine ⟨o, _, h1, h3, insert_map_fst h2, fun k hk => ?_, h7, h4⟩
  dsimp only
  rw [h3, h1, field_find, field_find, find_insert_ne hk]

/-- C85: after any successful calls of `Schemer::new` in one process, in any order, the verdict of each schemer on a JSON text is the verdict of
its own document on it, or the texts digested for it and for another of the schemers are different and have the same digest. -/
theorem C85_verdict {γ : Type} (H : Hash) (hH : HashOk H) (chk : Bool) (fl : Str → Option Str) (B : Boon γ) (l : List Schemer) (cache : SchemaCache γ)
    (h : Loaded H chk fl B l cache) (s : Schemer) (hs : s ∈ l) (q : Str) (hq : s.said chk = .ok q) (text : Str) (w : Value) (hw : jsonParse fl jsonDepth text = .ok w) :
    (∃ c, B.compile q s.sed = some c ∧ s.verify chk fl B cache (toUtf8 text) = .ok (B.valid c w)) ∨
      ∃ s' ∈ l, Collision H s.saider.code (SchemaText s) (SchemaText s') := by
  obtain ⟨h1, h2⟩ := loaded_ok hH h
  obtain ⟨o, q', t, hm, hd, hsome⟩ := h2 s hs
  have e : q = q' := by
    have := hm.said
    unfold Schemer.said at hq
    rw [hq] at this
    exact Res.ok.inj this
  subst e
  obtain ⟨c, hc⟩ := Option.isSome_iff_exists.mp hsome
  obtain ⟨s', hs', o', t', hm', hd', hcomp⟩ := h1 q c hc
  rcases same_doc hm hm' hd hd' with e | e
  · left
    refine ⟨c, by rw [e]; exact hcomp, ?_⟩
    unfold Schemer.verify
    rw [hq, Res.ok_bind, fromUtf8_toUtf8, Res.ok_bind]
    unfold SchemaCache.validate
    rw [hc]
    dsimp only
    rw [hw, Res.ok_bind]
  · exact .inr ⟨s', hs', e⟩

/-- C85: the bytes of a schemer give the same schemer again, and nothing else changes. -/
theorem C85_again {γ : Type} (H : Hash) (hH : HashOk H) (chk : Bool) (fl : Str → Option Str) (B : Boon γ) (cache cache' : SchemaCache γ) (raw : Option Bytes)
    (sed : Option Value) (kind code : Option Str) (s : Schemer) (h : Schemer.new H chk fl B cache raw sed kind code = .ok (s, cache')) (hd : SchemaDoc fl s.sed)
    (sed' : Option Value) (kind' code' : Option Str) :
    Schemer.new H chk fl B cache' (some s.raw) sed' kind' code' = .ok (s, cache') := by
  obtain ⟨o, q, t, hm, ha⟩ := new_ok hH h hd
  have hsome : (cache'.get q).isSome := by
    rcases add_ok ha with ⟨hk, rfl⟩ | ⟨hk, v, c, hv, hc, rfl⟩
    · exact hk
    · rw [get_append hk, if_pos rfl]
      rfl
  have hin : Schemer.inhale H chk fl s.raw = .ok (s.sed, str% "JSON", s.saider) := by
    unfold Schemer.inhale
    rw [hm.text, Res.ok_bind, hm.reads, Res.ok_bind, ofJson_self (fun t h => (fraction_ok t h).1) _ hd.proper, Res.ok_bind]
    have hv := made_verifies hH hm hd (pre := some true) (ver := none) (kind := some (str% "JSON")) rfl
    rw [hm.sed] at hv ⊢
    have e1 : Value.hasKey (str% "$id") o = true := by unfold Value.hasKey; rw [hm.found]; rfl
    have e2 : (Value.obj o).index (str% "$id") = .ok (.str q) := by
      unfold Value.index
      dsimp only
      rw [hm.found]
      rfl
    rw [show (Value.obj o).toMap = .ok o from rfl, Res.ok_bind, if_pos e1, e2, Res.ok_bind, show (Value.str q).toStr = .ok q from rfl, Res.ok_bind,
      ← saiderOf_hash, saiderOf_of hm.back hm.code, Res.ok_bind, hv, Res.ok_bind]
    rfl
  unfold Schemer.new
  dsimp only
  rw [hin, Res.ok_bind, Res.ok_bind]
  dsimp only
  rw [hm.said, Res.ok_bind, hm.text, Res.ok_bind]
  unfold SchemaCache.add
  rw [if_pos hsome, Res.ok_bind, ← hm.kind]

/-- A schema library for examples, with which a document compiles to its list of fields, and an object is valid when it has the field that the document
requires. -/
def exBoon : Boon (List (Str × Value)) where
  compile := fun _ v => match v with
    | .obj o => some o
    | _ => none
  valid := fun o v => match Value.find (str% "required") o, v with
    | some (.str k), .obj o' => Value.hasKey k o'
    | _, _ => true

/-- A schema with a fraction. -/
def exSchema : Value := .obj [(str% "$id", .str []), (str% "required", .str (str% "i")), (str% "multipleOf", .float (str% "0.01"))]

/-- Another schema. -/
def exSchema' : Value := .obj [(str% "required", .str (str% "d")), (str% "$id", .str (str% "x"))]

theorem exSchema_doc : SchemaDoc (fun t => some t) exSchema := by
  refine ⟨?_, by decide, rfl⟩
  simp only [exSchema, Proper, ProperObj, and_true, true_and]
  exact ⟨by decide, ⟨false, str% "0", str% "01", rfl, by decide, by decide, by decide, by decide⟩, rfl⟩

theorem exSchema_doc' : SchemaDoc (fun t => some t) exSchema' := by
  refine ⟨?_, by decide, rfl⟩
  simp [exSchema', Proper, ProperObj]

/-- A schema is made from a document, and then another one; the verdicts of the first on two texts, and of the second on one. -/
def exLoads : Bool :=
  World.holds (Schemer.new exHash true (fun t => some t) exBoon [] none (some exSchema) none none) fun a =>
  World.holds (Schemer.new exHash true (fun t => some t) exBoon a.2 none (some exSchema') (some (str% "JSON")) (some (str% "F"))) fun c =>
  World.holds (a.1.said true) fun _ =>
  World.holds (a.1.verify true (fun t => some t) exBoon c.2 (toUtf8 (str% "{\"i\":1}"))) (fun b => b) &&
  World.holds (a.1.verify true (fun t => some t) exBoon c.2 (toUtf8 (str% "{\"d\":1}"))) (fun b => !b) &&
  World.holds (c.1.verify true (fun t => some t) exBoon c.2 (toUtf8 (str% "{\"d\":1}"))) (fun b => b)

/-- All that `C85_document`, `C85_verdict`, `C85_again` and `C86_partial` ask for is met, by three schemers: one is made from the bytes of another. -/
theorem exLoaded : ∃ (a c : Schemer) (cache : SchemaCache (List (Str × Value))) (q : Str), Loaded exHash true (fun t => some t) exBoon [c, a, a] cache ∧ a.said true = .ok q ∧
    a.verify true (fun t => some t) exBoon cache (toUtf8 (str% "{\"i\":1}")) = .ok true ∧ a.verify true (fun t => some t) exBoon cache (toUtf8 (str% "{\"d\":1}")) = .ok false ∧
    c.verify true (fun t => some t) exBoon cache (toUtf8 (str% "{\"d\":1}")) = .ok true := by
  have h : exLoads = true := by decide +kernel
  unfold exLoads at h
  obtain ⟨⟨a, ca⟩, ha, h⟩ := World.holds_ok h
  obtain ⟨⟨c, cc⟩, hc, h⟩ := World.holds_ok h
  obtain ⟨q, hq, h⟩ := World.holds_ok h
  simp only [Bool.and_eq_true] at h
  obtain ⟨x, hx, hx'⟩ := World.holds_ok h.1.1
  obtain ⟨y, hy, hy'⟩ := World.holds_ok h.1.2
  obtain ⟨z, hz, hz'⟩ := World.holds_ok h.2
  have da := doc_made ha exSchema_doc
  have hb := C85_again exHash exHash_ok true (fun t => some t) exBoon _ _ _ _ _ _ _ ha da none none none
  exact ⟨a, c, cc, q, .load (.load (.load .none ha da) hb da) hc (doc_made hc exSchema_doc'), hq, by rw [hx, hx'], by rw [hy]; simpa using hy', by rw [hz, hz']⟩

/-- A schema with a version field, that does not say the size. -/
def exVersioned : Value := .obj [(str% "v", .str (str% "KERI10JSON000000_")), (str% "$id", .str [])]

/-- C85 without the condition that a schema has no version field is false: a schemer is made from a document, and its own bytes are refused. -/
theorem C85_condition : ∃ (s : Schemer) (cache : SchemaCache (List (Str × Value))),
    Schemer.new exHash true (fun _ => none) exBoon [] none (some exVersioned) none none = .ok (s, cache) ∧
    Schemer.new exHash true (fun _ => none) exBoon cache (some s.raw) none none none = .err .validation := by
  have h : World.holds (Schemer.new exHash true (fun _ => none) exBoon [] none (some exVersioned) none none) (fun r =>
      match Schemer.new exHash true (fun _ => none) exBoon r.2 (some r.1.raw) none none none with
      | .err .validation => true
      | _ => false) = true := by decide +kernel
  obtain ⟨⟨s, cache⟩, hs, h⟩ := World.holds_ok h
  refine ⟨s, cache, hs, ?_⟩
  split at h
  · assumption
  · cases h

/-! ## C86 -/

/-- C86, for schemas that were primed: the verdict on a JSON text under a SAID is that of the document of each primed schemer with that SAID, or the
texts digested for two of the schemers are different and have the same digest. Missing: schemas that were not primed, for which `C86_unknown` shows that a verifier crashes. -/
theorem C86_partial {γ : Type} (H : Hash) (hH : HashOk H) (chk : Bool) (fl : Str → Option Str) (B : Boon γ) (l : List Schemer) (compiled : SchemaCache γ)
    (h : Loaded H chk fl B l compiled) (l' : List Schemer) (hl : ∀ s ∈ l', s ∈ l) (primed : SchemerCache) (hp : SchemerCache.prime chk [] l' = .ok primed)
    (s : Schemer) (hs : s ∈ l') (q : Str) (hq : s.said chk = .ok q) (text : Str) (w : Value) (hw : jsonParse fl jsonDepth text = .ok w) :
    (∃ c, B.compile q s.sed = some c ∧ SchemerCache.verify chk fl B compiled primed q text = .ok (B.valid c w)) ∨
      ∃ s' ∈ l, Collision H s.saider.code (SchemaText s) (SchemaText s') := by
  obtain ⟨h1, -, h3⟩ := prime_ok hp (by simp)
  rcases C85_verdict H hH chk fl B l compiled h s (hl s hs) q hq text w hw with ⟨c, hc, hv⟩ | hcol
  · left
    refine ⟨c, hc, ?_⟩
    obtain ⟨e, he, rfl⟩ := List.mem_map.mp (h3 s hs q hq)
    have hf : (primed.find? fun x => x.1 = e.1).isSome := by
      rw [List.find?_isSome]
      exact ⟨e, he, by simp⟩
    obtain ⟨x, hx⟩ := Option.isSome_iff_exists.mp hf
    have hxm := List.mem_of_find?_eq_some hx
    have hxe : x.1 = e.1 := by simpa using List.find?_some hx
    have hxs := (h1 x hxm).1
    unfold SchemerCache.verify SchemerCache.at
    rw [hx]
    rw [show Res.orPanic ((some x).map Prod.snd) = .ok x.2 from rfl, Res.ok_bind]
    unfold Schemer.verify at hv ⊢
    rw [hq] at hv
    rw [hxs, hxe]
    exact hv
  · exact .inr hcol

/-- C86: a credential that a verifier accepts crashes each verifier that has the same logs and did not prime the schema of the credential, whatever the
signatures that come with it. -/
theorem C86_unknown {γ : Type} (E : Env) (B : Boon γ) (compiled : SchemaCache γ) (primed : SchemerCache) (st : Store) (deep : Option Bool) (fuel : Nat) (c : Sad)
    (g g' : List SigGroup) (v : List Str) (r : Bool × List Str) (h : verifyAcdc E st deep fuel c g v = .ok r) (schema : Str)
    (hs : field (str% "s") c.ked = some (.str schema)) (hu : schema ∉ primed.map Prod.fst) :
    verifyAcdc { E with schema := SchemerCache.verify E.chk E.fl B compiled primed } st deep fuel c g' v = .panic := by
  change verifyAcdc (E.judging (SchemerCache.verify E.chk E.fl B compiled primed)) st deep fuel c g' v = .panic
  cases fuel with
  | zero => unfold verifyAcdc at h; cases h
  | succ n =>
    unfold verifyAcdc at h ⊢
    obtain ⟨x, hx, h⟩ := Res.bind_eq_ok.mp h
    split at h
    · cases h
    · rename_i hn
      obtain ⟨id, hid, h⟩ := Res.bind_eq_ok.mp h
      obtain ⟨sc, hsc, h⟩ := Res.bind_eq_ok.mp h
      obtain ⟨prov, hprov, h⟩ := Res.bind_eq_ok.mp h
      obtain ⟨m, hm, h⟩ := Res.bind_eq_ok.mp h
      obtain ⟨good, hgood, h⟩ := Res.bind_eq_ok.mp h
      split at h
      · cases h
      · rename_i hg
        obtain ⟨v1, hv1, h⟩ := Res.bind_eq_ok.mp h
        obtain ⟨text, htext, -⟩ := Res.bind_eq_ok.mp h
        have e : sc = schema := by
          unfold Creder.schema at hsc
          rw [text_index hs, Res.ok_bind] at hsc
          exact (Res.ok.inj hsc).symm
        subst e
        rw [judging_chk, judging_H, hx, Res.ok_bind, if_neg hn, hid, Res.ok_bind, hsc, Res.ok_bind, hprov, Res.ok_bind, hm, Res.ok_bind, hgood, Res.ok_bind, if_neg hg,
          state_judging, hv1, Res.ok_bind, htext, Res.ok_bind]
        have : (E.judging (SchemerCache.verify E.chk E.fl B compiled primed)).schema sc text = .panic := by
          show SchemerCache.verify E.chk E.fl B compiled primed sc text = .panic
          unfold SchemerCache.verify
          rw [at_unknown hu]
          rfl
        rw [this]
        rfl

/-- The credential `credA` with the proof of the controller A, for a verifier that has the logs. -/
def World.schemaCase : Bool :=
  World.holds World.credA fun c => World.holds (World.inRow World.issued) fun l => World.holds (World.proved (World.ks [1]) World.credA World.icpA) fun p =>
  World.holds p.2.cesrGroup fun g => match g.1 with
    | .quadlets gs => World.holds (verifyAcdc (World.env []) (World.kept l) (some false) 3 c gs []) (fun _ => true) &&
        World.textAt (str% "s") c.ked == some (str% "schema")
    | _ => false

/-- C86 is false: a verifier without schemas that receives a credential crashes, where it should refuse it. -/
theorem C86_false {γ : Type} (B : Boon γ) : ∃ (E : Env) (st : Store) (c : Sad) (g : List SigGroup) (r : Bool × List Str),
    verifyAcdc E st (some false) 3 c g [] = .ok r ∧
    verifyAcdc { E with schema := SchemerCache.verify E.chk E.fl B [] [] } st (some false) 3 c g [] = .panic ∧
    verifyAcdc { E with schema := SchemerCache.verify E.chk E.fl B [] [] } st (some false) 3 c [] [] = .panic := by
  have h : World.schemaCase = true := by decide +kernel
  unfold World.schemaCase at h
  obtain ⟨c, -, h⟩ := World.holds_ok h
  obtain ⟨l, -, h⟩ := World.holds_ok h
  obtain ⟨p, -, h⟩ := World.holds_ok h
  obtain ⟨g, -, h⟩ := World.holds_ok h
  split at h
  · rename_i gs _
    rw [Bool.and_eq_true] at h
    obtain ⟨r, hr, -⟩ := World.holds_ok h.1
    have hs := World.textAt_ok (beq_iff_eq.mp h.2)
    exact ⟨_, _, c, gs, r, hr, C86_unknown _ B [] [] _ _ _ _ _ _ _ _ hr _ hs (by simp), C86_unknown _ B [] [] _ _ _ _ _ _ _ _ hr _ hs (by simp)⟩
  · cases h

end Keride.Props
