/-
C72: edges of credentials that make a verifier panic.
-/
import Verif.Props.Stranger

namespace Keride.Props

open Spec Sample Matter

/-- An edge to the credential of the examples, which has no recipient, with more fields. -/
def World.edgeWith (f : List (Str × Value)) : Res Value := do
  let c ← World.credA
  let q ← Sadder.said true c
  .ok (.obj [(str% "d", .str []), (str% "source", .obj ((str% "n", .str q) :: f))])

/-- An edge that names no credential. -/
def World.edgeBare : Res Value := .ok (.obj [(str% "d", .str []), (str% "source", .obj [])])

/-- A credential that was accepted, and another one with these edges, issued under the same registry and proven. -/
def World.resting (e : Res Value) : List (Res (Msg × Msg)) :=
  let c := World.chained World.icpA World.vcpA e
  let i := World.iss c World.vcpA
  let x := World.anchor World.ixnA2 3 i
  World.accepted ++ [World.signed (World.ks [1]) x, World.coupled i x, World.proved (World.ks [1]) c World.icpA]

/-- The answer of a verifier that starts empty. -/
def World.answer (chk : Bool) (msgs : List Msg) : Res Unit := (ingestLoop { World.env msgs with chk := chk } 9 (some false) none Store.empty msgs []).2

/-- A verifier that starts empty accepts all but the last message, which is a credential, and panics on it, in debug builds and in release builds. -/
def World.CrashesLast (msgs : List Msg) : Prop :=
  ∀ chk, (ingestLoop { World.env msgs with chk := chk } 9 (some false) none Store.empty (msgs.take 16) []).2 = .ok () ∧ msgs.length = 18 ∧ World.answer chk msgs = .panic

def World.crashesLast (msgs : List Msg) : Bool :=
  [true, false].all fun chk =>
    (ingestLoop { World.env msgs with chk := chk } 9 (some false) none Store.empty (msgs.take 16) []).2.isOk && decide (msgs.length = 18) &&
    World.panicked (World.answer chk msgs)

theorem World.crashesLast_ok {msgs : List Msg} (h : World.crashesLast msgs = true) : World.CrashesLast msgs := by
  intro chk
  unfold World.crashesLast at h
  have := List.all_eq_true.mp h chk (by cases chk <;> simp)
  simp only [Bool.and_eq_true] at this
  refine ⟨?_, of_decide_eq_true this.1.2, World.panics_of this.2⟩
  have h1 := this.1.1
  revert h1
  generalize (ingestLoop { World.env msgs with chk := chk } 9 (some false) none Store.empty (msgs.take 16) []).2 = r
  intro h1
  cases r with
  | ok u => rfl
  | err e => cases h1
  | panic => cases h1

/-- A credential with these edges, rightly issued and proven, crashes a verifier. -/
def World.EdgeCrashes (e : Res Value) : Prop := ∃ msgs, World.inRow (World.resting e) = .ok msgs ∧ World.CrashesLast msgs

theorem World.edgeCrashes_of {e : Res Value} (h : World.holds (World.inRow (World.resting e)) World.crashesLast = true) : World.EdgeCrashes e := by
  obtain ⟨msgs, h1, h2⟩ := World.holds_ok h
  exact ⟨msgs, h1, World.crashesLast_ok h2⟩

/-- C72 is false: an edge that names no credential. -/
theorem C72_bare_false : World.EdgeCrashes World.edgeBare := World.edgeCrashes_of (by decide +kernel)

/-- C72 is false: an operator that is not a text. -/
theorem C72_operator_false : World.EdgeCrashes (World.edgeWith [(str% "o", .arr [.int 1])]) := World.edgeCrashes_of (by decide +kernel)

/-- C72 is false: the operator `DI2I`. -/
theorem C72_delegated_false : World.EdgeCrashes (World.edgeWith [(str% "o", .str (str% "DI2I"))]) := World.edgeCrashes_of (by decide +kernel)

/-- C72 is false: the operator `I2I` for a credential without recipient. -/
theorem C72_recipient_false : World.EdgeCrashes (World.edgeWith [(str% "o", .str (str% "I2I"))]) := World.edgeCrashes_of (by decide +kernel)

/-- A document with a SAID that says that it is a credential, without signatures. -/
def World.claimed (o : List (Str × Value)) : Res (List Msg) := do
  let r ← Saider.saidify World.hash true (.obj ((str% "v", .str (str% "ACDC10JSON000000_")) :: (str% "d", .str []) :: o)) none none none none
  let c ← Creder.newWithKed (fun _ => none) r.2 none none
  let t ← fromUtf8 c.raw
  .ok [.payload t, .group (.quadlets []) (.ok [])]

/-- C72 is false: a credential that names no schema. Nothing is signed or issued. -/
theorem C72_schema_false : ∃ msgs, World.claimed [(str% "i", .str []), (str% "ri", .str []), (str% "a", .obj [])] = .ok msgs ∧ World.Crashes msgs := by
  obtain ⟨msgs, h1, h2⟩ := World.holds_ok (r := World.claimed [(str% "i", .str []), (str% "ri", .str []), (str% "a", .obj [])]) (f := World.panics) (by decide +kernel)
  exact ⟨msgs, h1, World.crashes_of h2⟩

/-- With a schema the same document is refused. -/
example : ∃ msgs, World.claimed [(str% "i", .str []), (str% "ri", .str []), (str% "s", .str []), (str% "a", .obj [])] = .ok msgs ∧ World.panics msgs = false := by
  obtain ⟨msgs, h1, h2⟩ := World.holds_ok (r := World.claimed [(str% "i", .str []), (str% "ri", .str []), (str% "s", .str []), (str% "a", .obj [])])
    (f := fun m => !World.panics m) (by decide +kernel)
  exact ⟨msgs, h1, by simpa using h2⟩

/-- With the operator `NI2I` the same credential is accepted: that it is an edge does not crash the verifier. -/
example : ∃ msgs, World.inRow (World.resting (World.edgeWith [(str% "o", .str (str% "NI2I"))])) = .ok msgs ∧ (World.answer true msgs).isOk = true :=
  World.holds_ok (r := World.inRow (World.resting (World.edgeWith [(str% "o", .str (str% "NI2I"))]))) (f := fun m => (World.answer true m).isOk) (by decide +kernel)

end Keride.Props
