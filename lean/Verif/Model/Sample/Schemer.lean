/-
Model of /repo/sample/keri/acdc/schemer.rs.

The JSON Schema library (`boon`) is not modelled: `Boon` gives, as parameters, what compiling a document does and the
verdict of a compiled document on an instance. `boon` keeps the compiled documents of all schemas in one `Schemas`;
here a compiled document does not depend on the others.
-/
import Verif.Model.Saider
import Verif.Model.Json

namespace Keride.Sample

open Matter

/-- The schema library: `compile key document` for `add_resource` and `compile` (schemer.rs:55-63), `valid compiled
instance` for `validate` (schemer.rs:75). -/
structure Boon (γ : Type) where
  compile : Str → Value → Option γ
  valid : γ → Value → Bool

/-- `SchemaCache` (schemer.rs:14-17): the compiled documents by key. -/
abbrev SchemaCache (γ : Type) := List (Str × γ)

/-- `map.get` (schemer.rs:72). -/
def SchemaCache.get {γ : Type} (cache : SchemaCache γ) (key : Str) : Option γ := (cache.find? fun e => e.1 = key).map Prod.snd

/-- `SchemaCache::add` (schemer.rs:36-68): the cache afterwards. -/
def SchemaCache.add {γ : Type} (H : Hash) (chk : Bool) (fl : Str → Option Str) (B : Boon γ) (cache : SchemaCache γ) (key schema : Str) (sed : Value) :
    Res (SchemaCache γ) :=
  if (cache.get key).isSome then .ok cache
  else do
    let saider ← Saider.newWithQb64 H key
    let good ← Saider.verify H chk saider sed (some false) (some false) (some (str% "JSON")) (some (str% "$id")) none
    if !good then .err .verification
    else do
      let value ← jsonParse fl jsonDepth schema
      match B.compile key value with
      | none => .err .value
      | some c => .ok (cache ++ [(key, c)])

/-- `SchemaCache::validate` (schemer.rs:70-82). -/
def SchemaCache.validate {γ : Type} (fl : Str → Option Str) (B : Boon γ) (cache : SchemaCache γ) (uri instance' : Str) : Res Bool :=
  match cache.get uri with
  | some c => do
    let value ← jsonParse fl jsonDepth instance'
    .ok (B.valid c value)
  | none => .ok false

/-- `Schemer` (schemer.rs:150-155). -/
structure Schemer where
  raw : Bytes
  sed : Value
  kind : Str
  saider : M

/-- `inhale` (schemer.rs:181-200). `from_slice` also refuses bytes that are not UTF-8. -/
def Schemer.inhale (H : Hash) (chk : Bool) (fl : Str → Option Str) (raw : Bytes) : Res (Value × Str × M) := do
  let text ← fromUtf8 raw
  let value ← jsonParse fl jsonDepth text
  let sed ← value.ofJson
  let map ← sed.toMap
  if Value.hasKey (str% "$id") map then do
    let x ← sed.index (str% "$id")
    let said ← x.toStr
    let saider ← Saider.newWithQb64 H said
    let good ← Saider.verify H chk saider sed (some true) none (some (str% "JSON")) (some (str% "$id")) none
    if !good then .err .validation else .ok (sed, str% "JSON", saider)
  else .err .validation

/-- `exhale` (schemer.rs:202-220). -/
def Schemer.exhale (H : Hash) (chk : Bool) (sed : Value) (code : Str) (kind : Option Str) : Res (Bytes × Value × Str × M) :=
  let kind := kind.getD (str% "JSON")
  if kind ≠ str% "JSON" then .err .value
  else do
    let saider ← Saider.new H (some sed) (some (str% "$id")) none none (some code) none none none none
    let q ← qb64 chk saider
    let sed ← sed.setIndex (str% "$id") (.str q)
    .ok (toUtf8 sed.toJson, sed, kind, saider)

/-- `Schemer::new` (schemer.rs:159-179): the schemer and the cache afterwards. A call that fails leaves the cache. -/
def Schemer.new {γ : Type} (H : Hash) (chk : Bool) (fl : Str → Option Str) (B : Boon γ) (cache : SchemaCache γ) (raw : Option Bytes) (sed : Option Value)
    (kind code : Option Str) : Res (Schemer × SchemaCache γ) := do
  let code := code.getD (str% "E")
  let s ← (match raw, sed with
    | some raw, _ => do
      let p ← Schemer.inhale H chk fl raw
      .ok ⟨raw, p.1, p.2.1, p.2.2⟩
    | none, some sed => do
      let p ← Schemer.exhale H chk sed code kind
      .ok ⟨p.1, p.2.1, p.2.2.1, p.2.2.2⟩
    | none, none => .err .value : Res Schemer)
  let q ← qb64 chk s.saider
  let text ← fromUtf8 s.raw
  let cache ← cache.add H chk fl B q text s.sed
  .ok (s, cache)

/-- `said` (schemer.rs:234-236). -/
def Schemer.said (chk : Bool) (s : Schemer) : Res Str := qb64 chk s.saider

/-- `verify` (schemer.rs:242-244). -/
def Schemer.verify {γ : Type} (chk : Bool) (fl : Str → Option Str) (B : Boon γ) (cache : SchemaCache γ) (s : Schemer) (raw : Bytes) : Res Bool := do
  let q ← s.said chk
  let text ← fromUtf8 raw
  cache.validate fl B q text

/-- `SchemerCache` (schemer.rs:103-105). -/
abbrev SchemerCache := List (Str × Schemer)

/-- `map()[said]` (schemer.rs:126, 130): it panics for a SAID that is not in the map. -/
def SchemerCache.at (cache : SchemerCache) (said : Str) : Res Schemer := Res.orPanic ((cache.find? fun e => e.1 = said).map Prod.snd)

/-- `prime` (schemer.rs:117-123): a later schemer of the same SAID replaces an earlier one. -/
def SchemerCache.prime (chk : Bool) : SchemerCache → List Schemer → Res SchemerCache
  | cache, [] => .ok cache
  | cache, s :: l => do
    let q ← s.said chk
    SchemerCache.prime chk ((q, s) :: cache.filter fun e => e.1 ≠ q) l

/-- `get` (schemer.rs:125-127). -/
def SchemerCache.get (cache : SchemerCache) (said : Str) : Res Schemer := cache.at said

/-- `cache().verify` (schemer.rs:129-131), as `verify_acdc` calls it (acdc/verification.rs:76, 182). -/
def SchemerCache.verify {γ : Type} (chk : Bool) (fl : Str → Option Str) (B : Boon γ) (compiled : SchemaCache γ) (cache : SchemerCache) (said json : Str) :
    Res Bool := do
  let s ← cache.at said
  s.verify chk fl B compiled (toUtf8 json)

end Keride.Sample
