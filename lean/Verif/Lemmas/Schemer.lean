/-
Schemas.
-/
import Verif.Spec.Schema
import Verif.Lemmas.Agree
import Verif.Lemmas.Tel
import Verif.Lemmas.History
import Verif.Lemmas.JsonRead
import Verif.Props.Saider
import Verif.Model.Sample.Acdc

namespace Keride.Sample

open Matter Spec Saider Props

mutual

theorem ofJson_eq : ∀ (v x : Value), JProper v → v.ofJson = .ok x → x = v
  | .null, x, _, h => by rw [Value.ofJson] at h; cases h; rfl
  | .bool b, x, _, h => by rw [Value.ofJson] at h; cases h; rfl
  | .int i, x, _, h => by
    rw [Value.ofJson] at h
    split at h
    · cases h; rfl
    · cases h
  | .float t, x, _, h => by
    rw [Value.ofJson] at h
    split at h
    · cases h; rfl
    · cases h
  | .str s, x, _, h => by rw [Value.ofJson] at h; cases h; rfl
  | .arr a, x, hp, h => by
    rw [JProper] at hp
    rw [Value.ofJson, Res.bind_eq_ok] at h
    obtain ⟨l, h1, h2⟩ := h
    cases h2
    rw [ofJsonArr_eq a l hp h1]
  | .obj o, x, hp, h => by
    rw [JProper] at hp
    rw [Value.ofJson, Res.bind_eq_ok] at h
    obtain ⟨l, h1, h2⟩ := h
    cases h2
    have := ofJsonObj_eq o [] l hp.2 (by simpa using hp.1) h1
    rw [this]
    rfl

theorem ofJsonArr_eq : ∀ (l x : List Value), JProperArr l → Value.ofJsonArr l = .ok x → x = l
  | [], x, _, h => by rw [Value.ofJsonArr] at h; cases h; rfl
  | v :: l, x, hp, h => by
    rw [JProperArr] at hp
    rw [Value.ofJsonArr, Res.bind_eq_ok] at h
    obtain ⟨y, h1, h⟩ := h
    rw [Res.bind_eq_ok] at h
    obtain ⟨ys, h2, h⟩ := h
    cases h
    rw [ofJson_eq v y hp.1 h1, ofJsonArr_eq l ys hp.2 h2]

theorem ofJsonObj_eq : ∀ (l m x : List (Str × Value)), JProperObj l → ((m ++ l).map Prod.fst).Nodup → Value.ofJsonObj l m = .ok x → x = m ++ l
  | [], m, x, _, _, h => by rw [Value.ofJsonObj] at h; cases h; simp
  | (k, v) :: l, m, x, hp, hn, h => by
    rw [JProperObj] at hp
    rw [Value.ofJsonObj, Res.bind_eq_ok] at h
    obtain ⟨y, h1, h⟩ := h
    have hk : k ∉ m.map Prod.fst := by
      simp only [List.map_append, List.map_cons, List.nodup_append] at hn
      intro h
      exact hn.2.2 k h k (by simp) rfl
    rw [ofJson_eq v y hp.1 h1, insert_new hk] at h
    have := ofJsonObj_eq l (m ++ [(k, v)]) x hp.2 (by simpa using hn) h
    rw [this]
    simp

end

/-- The field of the SAID, filled. -/
def blank (code : Str) (o : List (Str × Value)) : List (Str × Value) := Value.insert (str% "$id") (.str (dummy (saidChars code))) o

/-- What holds of a schemer. -/
structure Made (H : Hash) (chk : Bool) (fl : Str → Option Str) (s : Schemer) (o : List (Str × Value)) (q t : Str) : Prop where
  sed : s.sed = .obj o
  said : qb64 chk s.saider = .ok q
  found : Value.find (str% "$id") o = some (.str q)
  back : Matter.newWithQb64 q = .ok s.saider
  code : s.saider.code ∈ digestCodes
  whole : s.saider = ⟨s.saider.code, 0, H s.saider.code (toUtf8 (Value.obj (blank s.saider.code o)).toJson)⟩
  text : fromUtf8 s.raw = .ok t
  reads : jsonParse fl jsonDepth t = .ok s.sed
  kind : s.kind = str% "JSON"

theorem Made.raw {H : Hash} {chk : Bool} {fl : Str → Option Str} {s : Schemer} {o : List (Str × Value)} {q t : Str} (h : Made H chk fl s o q t) :
    s.saider.raw = H s.saider.code (toUtf8 (Value.obj (blank s.saider.code o)).toJson) := congrArg M.raw h.whole

theorem no_version {o : List (Str × Value)} (h : field (str% "v") (.obj o) = none) : Value.hasKey (str% "v") o = false := by
  rw [field_find] at h
  unfold Value.hasKey
  rw [h]
  rfl

/-- What a document without version field that verifies says about the digest. -/
theorem unversioned_digest {H : Hash} (hH : HashOk H) {chk : Bool} {m : M} {o : List (Str × Value)} {pre ver : Option Bool} {kind : Option Str}
    (hv : field (str% "v") (.obj o) = none) (h : Saider.verify H chk m (.obj o) pre ver kind (some (str% "$id")) none = .ok true) :
    ∃ q, qb64 chk m = .ok q ∧ m.code ∈ digestCodes ∧ (pre.getD false = true → Value.find (str% "$id") o = some (.str q)) ∧
      Matter.newWithQb64 q = .ok ⟨m.code, 0, H m.code (toUtf8 (Value.obj (blank m.code o)).toJson)⟩ := by
  obtain ⟨o', d, o2, k, n, q, e, v⟩ := verify_true h
  cases e
  have hs : o2 = blank m.code o := by
    obtain ⟨o2', e, -, -, -, h5⟩ := prep_ok v.der.prep1
    cases e
    rcases h5 with ⟨-, h5, -⟩ | ⟨ident, size, p, q, hs, -, -, h5⟩
    · exact h5
    · have := hs.key
      have h2 := no_version hv
      unfold Value.hasKey at this h2
      rw [find_insert_ne (by decide), h2] at this
      cases this
  refine ⟨q, v.qm, v.der.code, v.pref, ?_⟩
  have hd := v.der.digest
  simp only [Option.getD_none, removeAll] at hd
  rw [hs] at hd
  have := v.qd
  rw [hd] at this
  exact hash_back_any hH (mem_digests.mpr v.der.code) v.row this

theorem fraction_ok {fl : Str → Option Str} : ∀ t, Fraction fl t → FloatOk fl t := fun _ h => floatOk_decimal h.1 h.2

/-- The document of a schemer made from a document. -/
theorem exhale_ok {H : Hash} {chk : Bool} {sed : Value} {code : Str} {kind : Option Str} {r : Bytes × Value × Str × M} (h : Schemer.exhale H chk sed code kind = .ok r) :
    ∃ o q, sed = .obj o ∧ Value.hasKey (str% "$id") o = true ∧ r.2.1 = .obj (Value.insert (str% "$id") (.str q) o) ∧ r.1 = toUtf8 r.2.1.toJson ∧ r.2.2.1 = str% "JSON" ∧
      qb64 chk r.2.2.2 = .ok q ∧ r.2.2.2.code = code ∧ Matter.newWithQb64 q = .ok r.2.2.2 ∧
      (field (str% "v") (.obj o) = none → Saider.verify H chk r.2.2.2 r.2.1 (some true) none none (some (str% "$id")) none = .ok true) := by
  unfold Schemer.exhale at h
  dsimp only at h
  split at h
  · cases h
  · rename_i hk
    obtain ⟨m, hm, h⟩ := Res.bind_eq_ok.mp h
    obtain ⟨q, hq, h⟩ := Res.bind_eq_ok.mp h
    obtain ⟨x, hx, h⟩ := Res.bind_eq_ok.mp h
    cases h
    obtain ⟨⟨sad', hs⟩, hc⟩ := C37_new H chk sed _ _ _ _ _ hm
    obtain ⟨o, o2, k, d, q', n, rfl, rfl, hD, hq', hn, hl, rfl', hkey⟩ := saidify_ok hs
    rw [hq] at hq'
    cases hq'
    cases hx
    refine ⟨o, q, rfl, hkey, rfl, rfl, by simpa using hk, hq, ?_, ?_, fun hv => ?_⟩
    · rcases hc with ⟨c, e, h⟩ | ⟨e, -⟩ | ⟨e, -⟩
      · cases e
        exact h
      · cases e
      · cases e
    · obtain ⟨q', h1, h2, -⟩ := (C37_verifies _ _ _ _ _ _ _ _ _ hs).1
      rw [hq] at h1
      cases h1
      exact (saiderOf_ok h2).1
    · have h1 := (C37_verifies _ _ _ _ _ _ _ _ _ hs).2.1 (some true) none
      have hs : o2 = Value.insert (str% "$id") (.str (dummy (saidChars m.code))) o := by
        obtain ⟨o2', e, -, -, -, h5⟩ := prep_ok hD.prep1
        cases e
        rcases h5 with ⟨-, h5, -⟩ | ⟨ident, size, p, q, hs, -, -, h5⟩
        · exact h5
        · have := hs.key
          have h2 := no_version hv
          unfold Value.hasKey at this h2
          simp only [Option.getD_some] at this
          rw [find_insert_ne (by decide), h2] at this
          cases this
      rw [hs] at h1
      simp only [Option.getD_some] at h1
      rwa [insert_insert] at h1

/-- The document of a schemer made from a text. -/
theorem inhale_ok {H : Hash} {chk : Bool} {fl : Str → Option Str} {raw : Bytes} {r : Value × Str × M} (h : Schemer.inhale H chk fl raw = .ok r) :
    ∃ t o, fromUtf8 raw = .ok t ∧ jsonParse fl jsonDepth t = .ok r.1 ∧ r.1 = .obj o ∧ r.2.1 = str% "JSON" ∧
      (∃ said, Value.find (str% "$id") o = some (.str said) ∧ Matter.newWithQb64 said = .ok r.2.2) ∧
      Saider.verify H chk r.2.2 r.1 (some true) none (some (str% "JSON")) (some (str% "$id")) none = .ok true := by
  unfold Schemer.inhale at h
  obtain ⟨t, ht, h⟩ := Res.bind_eq_ok.mp h
  obtain ⟨v, hv, h⟩ := Res.bind_eq_ok.mp h
  obtain ⟨x, hx, h⟩ := Res.bind_eq_ok.mp h
  obtain ⟨o, ho, h⟩ := Res.bind_eq_ok.mp h
  split at h
  · obtain ⟨y, hy, h⟩ := Res.bind_eq_ok.mp h
    obtain ⟨said, hs, h⟩ := Res.bind_eq_ok.mp h
    obtain ⟨m, hm, h⟩ := Res.bind_eq_ok.mp h
    obtain ⟨g, hg, h⟩ := Res.bind_eq_ok.mp h
    have hxo : x = .obj o := by
      cases x <;> cases ho
      rfl
    subst hxo
    have e := ofJson_eq v _ (jsonParse_jproper hv) hx
    cases g with
    | false => cases h
    | true =>
      cases h
      refine ⟨t, o, ht, by rw [hv, e], rfl, rfl, ⟨said, ?_, ?_⟩, hg⟩
      · rw [index_ok hy, toStr_ok hs]
      · exact (saiderOf_ok hm).1
  · cases h

theorem add_ok {γ : Type} {H : Hash} {chk : Bool} {fl : Str → Option Str} {B : Boon γ} {cache cache' : SchemaCache γ} {key schema : Str} {sed : Value}
    (h : cache.add H chk fl B key schema sed = .ok cache') :
    ((cache.get key).isSome ∧ cache' = cache) ∨
      ((cache.get key) = none ∧ ∃ v c, jsonParse fl jsonDepth schema = .ok v ∧ B.compile key v = some c ∧ cache' = cache ++ [(key, c)]) := by
  unfold SchemaCache.add at h
  split at h
  · rename_i hk
    cases h
    exact .inl ⟨hk, rfl⟩
  · rename_i hk
    obtain ⟨m, -, h⟩ := Res.bind_eq_ok.mp h
    obtain ⟨g, -, h⟩ := Res.bind_eq_ok.mp h
    split at h
    · cases h
    · obtain ⟨v, hv, h⟩ := Res.bind_eq_ok.mp h
      refine .inr ⟨by simpa using hk, v, ?_⟩
      split at h
      · cases h
      · rename_i c hc
        cases h
        exact ⟨c, hv, hc, rfl⟩

theorem new_ok {γ : Type} {H : Hash} (hH : HashOk H) {chk : Bool} {fl : Str → Option Str} {B : Boon γ} {cache cache' : SchemaCache γ} {raw : Option Bytes}
    {sed : Option Value} {kind code : Option Str} {s : Schemer} (h : Schemer.new H chk fl B cache raw sed kind code = .ok (s, cache')) (hd : SchemaDoc fl s.sed) :
    ∃ o q t, Made H chk fl s o q t ∧ cache.add H chk fl B q t s.sed = .ok cache' := by
  unfold Schemer.new at h
  dsimp only at h
  obtain ⟨s', hs, h⟩ := Res.bind_eq_ok.mp h
  obtain ⟨q, hq, h⟩ := Res.bind_eq_ok.mp h
  obtain ⟨t, ht, h⟩ := Res.bind_eq_ok.mp h
  obtain ⟨c, hc, h⟩ := Res.bind_eq_ok.mp h
  cases h
  have key : ∃ o kind, s.sed = .obj o ∧ s.kind = str% "JSON" ∧ (∃ said, Value.find (str% "$id") o = some (.str said) ∧ Matter.newWithQb64 said = .ok s.saider) ∧
      Saider.verify H chk s.saider s.sed (some true) none kind (some (str% "$id")) none = .ok true ∧ jsonParse fl jsonDepth t = .ok s.sed := by
    cases raw with
    | some raw =>
      obtain ⟨p, hp, hs⟩ := Res.bind_eq_ok.mp hs
      cases hs
      obtain ⟨t', o, h1, h2, h3, h4, h5, h6⟩ := inhale_ok hp
      dsimp only at ht
      rw [h1] at ht
      cases ht
      exact ⟨o, _, h3, h4, h5, h6, h2⟩
    | none =>
      cases sed with
      | none => cases hs
      | some sed =>
        obtain ⟨p, hp, hs⟩ := Res.bind_eq_ok.mp hs
        cases hs
        obtain ⟨o, q', h1, h2, h3, h4, h5, h6, -, h7, h8⟩ := exhale_ok hp
        dsimp only at ht hd ⊢
        rw [h4, fromUtf8_toUtf8] at ht
        cases ht
        refine ⟨_, none, h3, h5, ⟨q', find_insert_self _ _ _, h7⟩, h8 ?_, ?_⟩
        · have := hd.unversioned
          rw [h3, field_find, find_insert_ne (by decide)] at this
          rw [field_find]
          exact this
        · exact jsonParse_json fraction_ok hd.proper (by have := hd.depth; unfold jsonDepth; omega)
  obtain ⟨o, kind, h1, h2, ⟨said, h3, h4⟩, h5, h6⟩ := key
  have hu := hd.unversioned
  rw [h1] at h5 hu
  obtain ⟨q', g1, g2, g3, g4⟩ := unversioned_digest hH hu h5
  rw [hq] at g1
  cases g1
  have g3 := g3 rfl
  rw [h3] at g3
  cases g3
  rw [h4] at g4
  refine ⟨o, q, t, ⟨h1, hq, h3, h4, g2, ?_, ht, h6, h2⟩, hc⟩
  exact Res.ok.inj g4

/-- The document of a schemer made from a document reads back if the document does. -/
theorem doc_made {γ : Type} {H : Hash} {chk : Bool} {fl : Str → Option Str} {B : Boon γ} {cache cache' : SchemaCache γ} {sed : Value} {kind code : Option Str} {s : Schemer}
    (h : Schemer.new H chk fl B cache none (some sed) kind code = .ok (s, cache')) (hd : SchemaDoc fl sed) : SchemaDoc fl s.sed := by
  unfold Schemer.new at h
  dsimp only at h
  obtain ⟨s', hs, h⟩ := Res.bind_eq_ok.mp h
  obtain ⟨q, -, h⟩ := Res.bind_eq_ok.mp h
  obtain ⟨t, -, h⟩ := Res.bind_eq_ok.mp h
  obtain ⟨c, -, h⟩ := Res.bind_eq_ok.mp h
  cases h
  obtain ⟨p, hp, hs⟩ := Res.bind_eq_ok.mp hs
  cases hs
  obtain ⟨o, q', h1, -, h3, -⟩ := exhale_ok hp
  subst h1
  dsimp only
  rw [h3]
  refine ⟨proper_insert hd.proper, ?_, ?_⟩
  · have := hd.depth
    have h2 := nestingObj_insert (k := str% "$id") (s := q') (o := o)
    simp only [nesting] at this ⊢
    omega
  · have := hd.unversioned
    rw [field_find] at this ⊢
    rw [find_insert_ne (by decide), this]

theorem proper_dec {fl : Str → Option Str} : ∀ {v : Value}, Proper (Fraction fl) v → Proper IsDecimal v :=
  fun h => proper_mono (fun _ h => h.1) _ h

theorem made_verifies {H : Hash} (hH : HashOk H) {chk : Bool} {fl : Str → Option Str} {s : Schemer} {o : List (Str × Value)} {q t : Str} (h : Made H chk fl s o q t)
    (hd : SchemaDoc fl s.sed) {pre ver : Option Bool} {kind : Option Str} (hk : kind.getD (str% "JSON") = str% "JSON") :
    Saider.verify H chk s.saider s.sed pre ver kind (some (str% "$id")) none = .ok true := by
  have hn := hd.proper
  rw [h.sed, Proper] at hn
  have hv := hd.unversioned
  rw [h.sed] at hv ⊢
  have hv := no_version hv
  obtain ⟨n, hrow, -⟩ := digest_rows _ h.code
  obtain ⟨o2, k, hD⟩ := derived_of H (c := s.saider.code) (label := str% "$id") (kind := kind) (ignore := none) h.code (by decide) hk hn.1 (.inl hv)
  have hs : o2 = blank s.saider.code o := by
    obtain ⟨o2', e, -, -, -, h5⟩ := prep_ok hD.prep1
    cases e
    rcases h5 with ⟨-, h5, -⟩ | ⟨ident, size, p, q, hs, -, -, h5⟩
    · exact h5
    · have := hs.key
      unfold Value.hasKey at this hv
      rw [find_insert_ne (by decide), hv] at this
      cases this
  simp only [Option.getD_none, removeAll] at hD
  rw [hs] at hD
  have hl := hH s.saider.code (mem_digests.mpr h.code) n hrow (toUtf8 (Value.obj (blank s.saider.code o)).toJson)
  apply verify_of (q := q) (n := n) (o2 := blank s.saider.code o) (k := k)
  · refine ⟨hD, hrow, by omega, h.said, ?_, ?_, fun _ => h.found⟩
    · rw [List.take_of_length_le (by omega), ← h.whole]
      exact h.said
    · intro _ hk
      rw [hv] at hk
      cases hk
  · intro hk
    rw [hv] at hk
    cases hk

/-- Two schemers with the same SAID have the same document, or there is a collision. -/
theorem same_doc {H : Hash} {chk : Bool} {fl : Str → Option Str} {s s' : Schemer} {o o' : List (Str × Value)} {q t t' : Str} (h : Made H chk fl s o q t) (h' : Made H chk fl s' o' q t')
    (hd : SchemaDoc fl s.sed) (hd' : SchemaDoc fl s'.sed) : s.sed = s'.sed ∨ Collision H s.saider.code (SchemaText s) (SchemaText s') := by
  have e : s.saider = s'.saider := by
    have := h.back
    rw [h'.back] at this
    exact (Res.ok.inj this).symm
  have hr := h.raw
  rw [e, h'.raw] at hr
  by_cases hb : toUtf8 (Value.obj (blank s'.saider.code o)).toJson = toUtf8 (Value.obj (blank s'.saider.code o')).toJson
  · left
    have p := hd.proper
    have p' := hd'.proper
    rw [h.sed] at p
    rw [h'.sed] at p'
    have := toJson_inj_dec (proper_dec (proper_insert p)) (proper_dec (proper_insert p')) (toUtf8_inj hb)
    have e : blank s'.saider.code o = blank s'.saider.code o' := by unfold blank; simpa using this
    unfold blank at e
    rw [h.sed, h'.sed, ← insert_find_self h.found, ← insert_find_self h'.found, ← insert_insert _ (.str (dummy (saidChars s'.saider.code))), e, insert_insert]
  · have text : ∀ {s : Schemer} {o : List (Str × Value)} {q t : Str}, Made H chk fl s o q t → SchemaDoc fl s.sed →
        SchemaText s (Value.obj (blank s.saider.code o)).toJson := by
      intro s o q t h hd
      refine ⟨o, h.sed, ?_⟩
      have p := hd.proper
      rw [h.sed, Proper] at p
      rw [blanked_insert p.1 (by unfold Value.hasKey; rw [h.found]; rfl)]
      rfl
    have t1 := text h hd
    have t2 := text h' hd'
    rw [e] at t1 ⊢
    exact .inr ⟨_, _, t1, t2, fun e => hb (by rw [e]), hr.symm⟩

theorem get_append {γ : Type} {cache : SchemaCache γ} {k key : Str} {c : γ} (h : cache.get k = none) :
    SchemaCache.get (cache ++ [(k, c)]) key = if key = k then some c else cache.get key := by
  unfold SchemaCache.get at h ⊢
  rw [List.find?_append]
  split
  · rename_i e
    subst e
    simp only [Option.map_eq_none_iff] at h
    rw [h]
    simp
  · rename_i e
    have : (List.find? (fun e : Str × γ => decide (e.1 = key)) [(k, c)]) = none := by
      simp
      exact fun h => e h.symm
    rw [this, Option.or_none]

/-- The compiled documents are those of schemers. -/
theorem loaded_ok {γ : Type} {H : Hash} (hH : HashOk H) {chk : Bool} {fl : Str → Option Str} {B : Boon γ} {l : List Schemer} {cache : SchemaCache γ}
    (h : Loaded H chk fl B l cache) :
    (∀ key c, cache.get key = some c → ∃ s ∈ l, ∃ o t, Made H chk fl s o key t ∧ SchemaDoc fl s.sed ∧ B.compile key s.sed = some c) ∧
    ∀ s ∈ l, ∃ o q t, Made H chk fl s o q t ∧ SchemaDoc fl s.sed ∧ (cache.get q).isSome := by
  induction h with
  | none => exact ⟨fun key c h => (nomatch h), fun s h => (nomatch h)⟩
  | @load l cache cache' raw sed kind code s _ hnew hd ih =>
    obtain ⟨o, q, t, hm, ha⟩ := new_ok hH hnew hd
    rcases add_ok ha with ⟨hk, rfl⟩ | ⟨hk, v, c, hv, hc, rfl⟩
    · refine ⟨fun key c h => ?_, fun s' hs => ?_⟩
      · obtain ⟨s', hs, r⟩ := ih.1 key c h
        exact ⟨s', List.mem_cons_of_mem _ hs, r⟩
      · rcases List.mem_cons.mp hs with rfl | hs
        · exact ⟨o, q, t, hm, hd, hk⟩
        · exact ih.2 s' hs
    · rw [hm.reads] at hv
      cases hv
      refine ⟨fun key c' h => ?_, fun s' hs => ?_⟩
      · rw [get_append hk] at h
        split at h
        · rename_i e
          cases h
          subst e
          exact ⟨s, by simp, o, t, hm, hd, hc⟩
        · obtain ⟨s', hs, r⟩ := ih.1 key c' h
          exact ⟨s', List.mem_cons_of_mem _ hs, r⟩
      · rcases List.mem_cons.mp hs with rfl | hs
        · refine ⟨o, q, t, hm, hd, ?_⟩
          rw [get_append hk, if_pos rfl]
          rfl
        · obtain ⟨o', q', t', h1, h2, h3⟩ := ih.2 s' hs
          refine ⟨o', q', t', h1, h2, ?_⟩
          rw [get_append hk]
          split
          · rfl
          · exact h3

/-! ## Other schemas -/

/-- The same environment with other schemas. -/
def Env.judging (E : Env) (f : Str → Str → Res Bool) : Env := { E with schema := f }

section
variable (E : Env) (f : Str → Str → Res Bool) (st : Store)

theorem judging_chk : (E.judging f).chk = E.chk := rfl
theorem judging_fl : (E.judging f).fl = E.fl := rfl
theorem judging_H : (E.judging f).H = E.H := rfl
theorem judging_expired : (E.judging f).expired = E.expired := rfl

theorem judging_C : (E.judging f).C = E.C := rfl
theorem place_judging : place (E.judging f) st = place E st := rfl
theorem keysOf_judging : keysOf (E.judging f) = keysOf E := rfl
theorem nextOf_judging : nextOf (E.judging f) = nextOf E := rfl

theorem keysInForce_judging (s : Sad) (pre : Str) (sn : Nat) : keysInForce (E.judging f) st s pre sn = keysInForce E st s pre sn := by
  unfold keysInForce
  simp only [keysOf_judging, judging_chk, judging_fl]

theorem priorIndices_judging (d v : List M) (l : List (Nat × Nat)) : priorIndices (E.judging f) d v l = priorIndices E d v l := by
  induction l with
  | nil => rfl
  | cons p l ih =>
    unfold priorIndices
    simp only [ih, judging_chk, judging_H]

theorem checkPrior_judging (s : Sad) (pre : Str) (sn : Nat) (v : List M) (l : List (Nat × Nat)) :
    checkPrior (E.judging f) st s pre sn v l = checkPrior E st s pre sn v l := by
  unfold checkPrior
  simp only [priorIndices_judging, nextOf_judging, judging_chk, judging_fl]

theorem check_judging (s : Sad) (g : List SigGroup) : checkKeyEvent (E.judging f) st s g = checkKeyEvent E st s g := by
  unfold checkKeyEvent
  simp only [place_judging, keysInForce_judging, checkPrior_judging, judging_chk, judging_H, judging_C]

theorem confirm_judging : confirm (E.judging f) st = confirm E st := rfl
theorem quad_judging : attachedQuadlets (E.judging f) = attachedQuadlets E := rfl
theorem couple_judging : attachedCouples (E.judging f) = attachedCouples E := rfl
theorem anchorOf_judging : anchorOf (E.judging f) st = anchorOf E st := rfl

theorem key_judging (deep : Option Bool) (fuel : Nat) :
    ∀ s g v, verifyKeyEvent (E.judging f) st deep fuel s g v = verifyKeyEvent E st deep fuel s g v := by
  induction fuel with
  | zero => intro s g v; rfl
  | succ n ih =>
    intro s g v
    unfold verifyKeyEvent
    simp only [ih, check_judging, confirm_judging, quad_judging, judging_chk]

theorem anchor_judging (deep : Option Bool) (fuel : Nat) (a : Str) (n d : M) (s : Sad) (v : List Str) :
    verifyAnchor (E.judging f) st deep fuel a n d s v = verifyAnchor E st deep fuel a n d s v := by
  unfold verifyAnchor
  simp only [key_judging, quad_judging, judging_chk, judging_fl]

theorem tel_judging (deep : Option Bool) (fuel : Nat) :
    ∀ s g v, verifyTransactionEvent (E.judging f) st deep fuel s g v = verifyTransactionEvent E st deep fuel s g v := by
  induction fuel with
  | zero => intro s g v; rfl
  | succ n ih =>
    intro s g v
    unfold verifyTransactionEvent
    simp only [ih, anchorOf_judging, anchor_judging, couple_judging, judging_chk, judging_fl, judging_H]

theorem state_judging (deep : Option Bool) (fuel : Nat) (id : Str) (v : List Str) :
   checkState (E.judging f) st deep fuel id v = checkState E st deep fuel id v := by
  unfold checkState
  simp only [tel_judging, couple_judging, judging_chk, judging_fl, judging_expired]
end

/-- `map()[said]` of a SAID that is not there. -/
theorem at_unknown {primed : SchemerCache} {said : Str} (h : said ∉ primed.map Prod.fst) : primed.at said = .panic := by
  unfold SchemerCache.at
  rw [List.find?_eq_none.mpr]
  · rfl
  · intro e he
    simp only [decide_eq_true_eq]
    intro h'
    exact h (h' ▸ List.mem_map_of_mem he)

/-- After `prime`, the schemers that were given are there. -/
theorem prime_ok {chk : Bool} : ∀ {l : List Schemer} {primed primed' : SchemerCache}, SchemerCache.prime chk primed l = .ok primed' →
    (∀ e ∈ primed, e.2.said chk = .ok e.1) →
    (∀ e ∈ primed', e.2.said chk = .ok e.1 ∧ (e ∈ primed ∨ e.2 ∈ l)) ∧ (∀ q, q ∈ primed.map Prod.fst → q ∈ primed'.map Prod.fst) ∧
      ∀ s ∈ l, ∀ q, s.said chk = .ok q → q ∈ primed'.map Prod.fst
  | [], primed, primed', h, hp => by
    rw [SchemerCache.prime] at h
    cases h
    exact ⟨fun e he => ⟨hp e he, .inl he⟩, fun q hq => hq, fun s hs => by cases hs⟩
  | s :: l, primed, primed', h, hp => by
    rw [SchemerCache.prime] at h
    obtain ⟨q, hq, h⟩ := Res.bind_eq_ok.mp h
    obtain ⟨h1, h2, h3⟩ := prime_ok h (by
      intro e he
      rcases List.mem_cons.mp he with rfl | he
      · exact hq
      · exact hp e (List.mem_filter.mp he).1)
    refine ⟨fun e he => ?_, fun q' hq' => ?_, fun s' hs q' hq' => ?_⟩
    · obtain ⟨a, b⟩ := h1 e he
      refine ⟨a, ?_⟩
      rcases b with b | b
      · rcases List.mem_cons.mp b with rfl | b
        · exact .inr (by simp)
        · exact .inl (List.mem_filter.mp b).1
      · exact .inr (List.mem_cons_of_mem _ b)
    · apply h2
      by_cases e : q' = q
      · simp [e]
      · obtain ⟨x, hx, rfl⟩ := List.mem_map.mp hq'
        exact List.mem_map_of_mem (List.mem_cons_of_mem _ (List.mem_filter.mpr ⟨hx, by simpa using e⟩))
    · rcases List.mem_cons.mp hs with rfl | hs
      · rw [hq] at hq'
        cases hq'
        exact h2 q (by simp)
      · exact h3 s' hs q' hq'

end Keride.Sample
