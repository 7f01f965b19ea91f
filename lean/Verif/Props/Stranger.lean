/-
C72: what a stranger can send.
-/
import Verif.Props.Deliver
import Verif.Lemmas.WorldFair
import Verif.Props.RestsOrderly

namespace Keride.Props

open Spec Sample Matter

/-- A message and its signature group, as a stranger makes them: a document with a SAID, and the signatures of a key set. -/
def World.craft (k : Res KeySet) (o : List (Str × Value)) : Res (List Msg) := do
  let k ← k
  let r ← Saider.saidify World.hash true (.obj o) none none none none
  let s ← Serder.newWithKed (fun _ => none) r.2 none none
  let m ← World.signed (.ok k) (.ok s)
  .ok [m.1, m.2]

/-- A verifier that starts empty panics on messages, in debug builds and in release builds. -/
def World.Crashes (msgs : List Msg) : Prop := ∀ chk, (ingestLoop { World.env msgs with chk := chk } 5 none none Store.empty msgs []).2 = .panic

/-- The same as a test. -/
def World.panics (msgs : List Msg) : Bool :=
  World.panicked (ingestLoop { World.env msgs with chk := true } 5 none none Store.empty msgs []).2 &&
  World.panicked (ingestLoop { World.env msgs with chk := false } 5 none none Store.empty msgs []).2

theorem World.crashes_of {msgs : List Msg} (h : World.panics msgs = true) : World.Crashes msgs := by
  unfold World.panics at h
  rw [Bool.and_eq_true] at h
  intro chk
  cases chk
  · exact World.panics_of h.2
  · exact World.panics_of h.1

/-- C72 is false: a document without a type. -/
theorem C72_type_false : ∃ msgs, World.craft (World.ks [1]) [(str% "v", .str (str% "KERI10JSON000000_")), (str% "d", .str [])] = .ok msgs ∧
    World.Crashes msgs := by
  obtain ⟨msgs, h1, h2⟩ := World.holds_ok (r := World.craft (World.ks [1]) [(str% "v", .str (str% "KERI10JSON000000_")), (str% "d", .str [])])
    (f := World.panics) (by decide +kernel)
  exact ⟨msgs, h1, World.crashes_of h2⟩

/-- The inception of the examples, signed by one key more than it has. -/
def World.over : Res (List Msg) := do
  let m ← World.signed (World.ks [1, 2, 9]) World.icp
  .ok [m.1, m.2]

/-- C72 is false: an event signed by one key more than it has. The index of the last signature is the number of keys. -/
theorem C72_index_false : ∃ msgs, World.over = .ok msgs ∧ World.Crashes msgs := by
  obtain ⟨msgs, h1, h2⟩ := World.holds_ok (r := World.over) (f := World.panics) (by decide +kernel)
  exact ⟨msgs, h1, World.crashes_of h2⟩

/-- Two keys, and a weight for the first of them only. -/
def World.light : Res (List Msg) := do
  let a ← World.ks [1, 2]
  let x ← a.verfersQb64 (World.env [])
  let s ← incept (World.env []) x (some (.arr [.str (str% "1")])) none none none none none none none none (some (str% "E")) none none
  let m ← World.signed (.ok a) (.ok s)
  .ok [m.1, m.2]

/-- C72 is false: an event with more keys than weights, signed by all of them. The library builds such events. -/
theorem C72_weight_false : ∃ msgs, World.light = .ok msgs ∧ World.Crashes msgs := by
  obtain ⟨msgs, h1, h2⟩ := World.holds_ok (r := World.light) (f := World.panics) (by decide +kernel)
  exact ⟨msgs, h1, World.crashes_of h2⟩

/-- An inception whose threshold is the weight `0/0`. -/
def World.zero : Res (List Msg) := do
  let a ← World.ks [1]
  let x ← a.verfersQb64 (World.env [])
  let o : List (Str × Value) := [(str% "v", .str (str% "KERI10JSON000000_")), (str% "t", .str (str% "icp")), (str% "d", .str []), (str% "i", .str []),
    (str% "s", .str (str% "0")), (str% "kt", .arr [.str (str% "0/0")]), (str% "k", texts x), (str% "nt", .str (str% "0")), (str% "n", .arr []),
    (str% "bt", .str (str% "0")), (str% "b", .arr []), (str% "c", .arr []), (str% "a", .arr [])]
  let p ← Prefixer.newWithKed World.hash (.obj o) none (some (str% "E"))
  let q ← qb64 true p
  let s ← Serder.newWithKed (fun _ => none) (.obj (Value.insert (str% "d") (.str q) (Value.insert (str% "i") (.str q) o))) none none
  let m ← World.signed (.ok a) (.ok s)
  .ok [m.1, m.2]

/-- C72 is false: a threshold with the weight `0/0`. -/
theorem C72_zero_false : ∃ msgs, World.zero = .ok msgs ∧ World.Crashes msgs := by
  obtain ⟨msgs, h1, h2⟩ := World.holds_ok (r := World.zero) (f := World.panics) (by decide +kernel)
  exact ⟨msgs, h1, World.crashes_of h2⟩

/-- C72 is false: an integer above the maximum of `i64`. Nothing is signed. -/
theorem C72_number_false : World.Crashes
    [.payload (str% "{\"v\":\"KERI10JSON000031_\",\"a\":9223372036854775808}")] := World.crashes_of (by decide +kernel)

/-- C72 is false: the version string promises more bytes than there are. Nothing is signed. -/
theorem C72_size_false : World.Crashes
    [.payload (str% "{\"v\":\"KERI10JSON000fff_\",\"d\":\"\"}")] := World.crashes_of (by decide +kernel)

/-- A registry without issuer, and a message that takes the inception of its issuer for the anchor. -/
def World.orphan : Res (List Msg) := do
  let r ← World.vcpA
  match r.ked with
  | .obj o => do
    let o := Value.insert (str% "d") (.str []) (Value.insert (str% "i") (.str []) (o.filter fun x => x.1 != str% "ii"))
    let p ← Prefixer.newWithKed World.hash (.obj o) none (some (str% "E"))
    let q ← qb64 true p
    let s ← Serder.newWithKed (fun _ => none) (.obj (Value.insert (str% "d") (.str q) (Value.insert (str% "i") (.str q) o))) none none
    let m ← World.coupled (.ok s) World.icpA
    .ok [m.1, m.2]
  | _ => .panic

/-- C72 is false: a registry without issuer. Nothing is signed. -/
theorem C72_issuer_false : ∃ msgs, World.orphan = .ok msgs ∧ World.Crashes msgs := by
  obtain ⟨msgs, h1, h2⟩ := World.holds_ok (r := World.orphan) (f := World.panics) (by decide +kernel)
  exact ⟨msgs, h1, World.crashes_of h2⟩

/-- An issuance, after that of a credential, that names this credential as the registry. -/
def World.sub : Res (List Msg) :=
  World.inRow (World.issued ++ [World.coupled (World.iss World.icpB World.issA) World.ixnA2])

/-- C72 is false: an issuance that names the identifier of a credential instead of a registry. Nothing of it is signed. -/
theorem C72_registry_false : ∃ msgs, World.sub = .ok msgs ∧ World.Crashes msgs := by
  obtain ⟨msgs, h1, h2⟩ := World.holds_ok (r := World.sub) (f := World.panics) (by decide +kernel)
  exact ⟨msgs, h1, World.crashes_of h2⟩

/-- An identifier, an interaction that anchors something that is no seal, and a registry that takes it for its anchor. -/
def World.note : Res (List Msg) := do
  let i ← World.icpA
  let p ← Serder.pre i
  let d ← Sadder.said true i
  let x ← Sample.interact (World.env []) p d (some 1) (some (.arr [.obj [(str% "note", .str (str% "x"))]])) none none
  World.inRow [World.signed (World.ks [1]) World.icpA, World.signed (World.ks [1]) (.ok x), World.coupled World.vcpA (.ok x)]

/-- C72 is false: an anchor that is no seal of an event. -/
theorem C72_anchor_false : ∃ msgs, World.note = .ok msgs ∧ World.Crashes msgs := by
  obtain ⟨msgs, h1, h2⟩ := World.holds_ok (r := World.note) (f := World.panics) (by decide +kernel)
  exact ⟨msgs, h1, World.crashes_of h2⟩

/-- A credential that was issued, with a proof that names an interaction of its issuer. -/
def World.misproved : Res (List Msg) := World.inRow (World.issued ++ [World.proved (World.ks [1]) World.credA World.ixnA])

/-- C72 is false: the proof of a credential that names an interaction. It has no keys, so that already the first signature is
one too many. -/
theorem C72_proof_false : ∃ msgs, World.misproved = .ok msgs ∧ ∀ chk, (ingestLoop { World.env msgs with chk := chk } 9 (some false) none Store.empty msgs []).2 = .panic := by
  obtain ⟨msgs, h1, h2⟩ := World.holds_ok (r := World.misproved) (f := fun msgs =>
    World.panicked (ingestLoop { World.env msgs with chk := true } 9 (some false) none Store.empty msgs []).2 &&
    World.panicked (ingestLoop { World.env msgs with chk := false } 9 (some false) none Store.empty msgs []).2) (by decide +kernel)
  rw [Bool.and_eq_true] at h2
  refine ⟨msgs, h1, fun chk => ?_⟩
  cases chk
  · exact World.panics_of h2.2
  · exact World.panics_of h2.1

/-- C72 (part): when the signature library and the reading of dates do not panic, a stream of key events, transaction events
and credentials that is fair does not crash a verifier that stores what is fair, given enough stack, and leaves it so; in
debug builds and in release builds, with deep verification and without. The stream may be refused. The messages are not
assumed to be well-formed otherwise: fields may be missing or of the wrong type, SAIDs and signatures wrong, events out of
order. Missing: what is not fair, see the theorems above. -/
theorem C72_partial (E : Env) (hC : ∀ c pk sig ser, E.C.verify c pk sig ser ≠ .panic) (hx : ∀ dt, E.expired dt ≠ .panic) (S : Scene)
    (b : Nat) (st : Store) (hs : FairStore E S st) (hb : Sized b st) (deep verify : Option Bool) (text : Str) (hp : E.parse (toUtf8 text) ≠ .panic)
    (hm : ∀ msgs, E.parse (toUtf8 text) = .ok msgs → ∀ m ∈ msgs, FairMsg E S m) :
    ∃ stack, ∀ fuel ≥ stack, (ingest E fuel st text deep verify).2 ≠ .panic ∧ FairStore E S (ingest E fuel st text deep verify).1 := by
  cases h : E.parse (toUtf8 text) with
  | panic => exact absurd h hp
  | err e =>
    refine ⟨0, fun fuel _ => ?_⟩
    unfold ingest
    rw [h]
    exact ⟨nofun, hs⟩
  | ok msgs =>
    refine ⟨depth S (b + msgs.length), fun fuel hf => ?_⟩
    unfold ingest
    simp only [h]
    exact ingestLoop_calm hC hx deep verify msgs b st [] hs hb hf (hm msgs h)

theorem World.empty_fair (E : Env) (S : Scene) : FairStore E S Store.empty ∧ Sized 0 Store.empty :=
  ⟨⟨fun _ _ ht => by (cases ht), fun _ _ ht => by (cases ht), fun _ ht => by (cases ht)⟩, fun _ => ⟨Nat.le_refl _, Nat.le_refl _⟩, Nat.le_refl _⟩

/-- A stream that is fair, for a verifier that knows nothing. -/
def World.Presented (chk : Bool) (n : Nat) (msgs : List Msg) : Prop :=
  let E := { World.streamReader msgs with chk := chk }
  let S := (World.castOf n msgs).scene
  (∀ c pk sig ser, E.C.verify c pk sig ser ≠ .panic) ∧ (∀ dt, E.expired dt ≠ .panic) ∧ FairStore E S Store.empty ∧ Sized 0 Store.empty ∧
    E.parse (toUtf8 []) = .ok msgs ∧ ∀ m ∈ msgs, FairMsg E S m

theorem World.presented {chk : Bool} {n : Nat} {msgs : List Msg} (h : msgs.all (World.fairMsg { World.streamReader msgs with chk := chk } (World.castOf n msgs)) = true) :
    World.Presented chk n msgs :=
  ⟨fun _ _ _ _ h => by (cases h), fun _ h => by (cases h), (World.empty_fair _ _).1, (World.empty_fair { World.streamReader msgs with chk := chk } (World.castOf n msgs).scene).2, rfl,
    fun m hm => World.fairMsg_ok rfl (fun _ _ h => by (cases h)) (List.all_eq_true.mp h m hm)⟩

/-- The stream of the examples - an inception with weights, an interaction and a rotation - is fair, in debug builds too. -/
example : ∃ msgs, World.stream = .ok msgs ∧ msgs.length = 6 ∧ World.Presented true 2 msgs := by
  obtain ⟨msgs, h1, h2⟩ := World.holds_ok (r := World.stream)
    (f := fun l => decide (l.length = 6) && l.all (World.fairMsg { World.streamReader l with chk := true } (World.castOf 2 l))) (by decide +kernel)
  rw [Bool.and_eq_true] at h2
  exact ⟨msgs, h1, of_decide_eq_true h2.1, World.presented h2.2⟩

/-- So is the stream with a registry, an issuance and a revocation. -/
example : ∃ msgs, World.inRow World.revoked = .ok msgs ∧ msgs.length = 14 ∧ World.Presented true 1 msgs := by
  obtain ⟨msgs, h1, h2⟩ := World.holds_ok (r := World.inRow World.revoked)
    (f := fun l => decide (l.length = 14) && l.all (World.fairMsg { World.streamReader l with chk := true } (World.castOf 1 l))) (by decide +kernel)
  rw [Bool.and_eq_true] at h2
  exact ⟨msgs, h1, of_decide_eq_true h2.1, World.presented h2.2⟩

/-- And so is the stream with two credentials, the second of which rests on the first; it is accepted with deep verification. -/
example : ∃ msgs st, World.inRow World.linked = .ok msgs ∧ msgs.length = 18 ∧ World.Presented true 1 msgs ∧
    ingest (World.streamReader msgs) 60 Store.empty [] (some true) none = (st, .ok ()) ∧ st.acdcs.length = 2 := by
  obtain ⟨msgs, h1, h2⟩ := World.holds_ok (r := World.inRow World.linked)
    (f := fun l => decide (l.length = 18) && l.all (World.fairMsg { World.streamReader l with chk := true } (World.castOf 1 l)) &&
      (ingestLoop (World.streamReader l) 60 (some true) none Store.empty l []).2.isOk &&
      decide ((ingestLoop (World.streamReader l) 60 (some true) none Store.empty l []).1.acdcs.length = 2)) (by decide +kernel)
  simp only [Bool.and_eq_true] at h2
  exact ⟨msgs, _, h1, of_decide_eq_true h2.1.1.1, World.presented h2.1.1.2, pair_ok h2.1.2, of_decide_eq_true h2.2⟩

end Keride.Props
