/-
Credentials with their proofs in the small world of Lemmas/World.lean.
-/
import Verif.Lemmas.WorldTel

namespace Keride.World

open Matter Spec Sample

/-- A credential with a proof: signatures over the whole credential by a key set, naming an establishment event. -/
def proved (k : Res KeySet) (c est : Res Sad) : Res (Msg × Msg) := do
  let k ← k
  let c ← c
  let e ← est
  let t ← fromUtf8 c.raw
  let pre ← Serder.pre e
  let q ← Sadder.said true e
  let n ← Serder.sn e
  let sg ← k.sign (env []) 0 c.raw none
  let pather ← Pather.newWithPath (.arr [])
  let prefixer ← Matter.newWithQb64 pre
  let seqner ← Seqner.newWithSn n
  let saider ← Matter.newWithQb64 q
  let proof ← ratifyCreder true pre seqner q sg
  .ok (.payload t, .group (.quadlets [.sadPath [⟨pather, prefixer, seqner, saider, sg⟩]]) (.ok proof))

/-- A credential of an identifier under a registry, with edges. -/
def chained (icp vcp : Res Sad) (e : Res Value) : Res Sad := do
  let i ← icp
  let p ← Serder.pre i
  let r ← vcp
  let ri ← Serder.pre r
  let e ← e
  createAcdc (env []) stretch (fun n => n) (str% "2023-01-01T00:00:00.000000+00:00") (str% "schema") p (.obj [(str% "name", .str (str% "y"))]) none none none
    (some ri) (some e) none none none

/-- An edge to a credential, by a label. -/
def edgeTo (c : Res Sad) : Res Value := do
  let c ← c
  let q ← Sadder.said true c
  .ok (.obj [(str% "d", .str []), (str% "source", .obj [(str% "n", .str q), (str% "s", .str (str% "schema"))])])

/-- A second credential of A, that rests on the first. -/
def credA2 := chained icpA vcpA (edgeTo credA)
def issA2 := iss credA2 vcpA
def ixnA4 := anchor ixnA2 3 issA2

/-- A credential with its proof. -/
def accepted : List (Res (Msg × Msg)) := issued ++ [proved (ks [1]) credA icpA]

/-- Two credentials, the second rests on the first. -/
def linked : List (Res (Msg × Msg)) := accepted ++ [signed (ks [1]) ixnA4, coupled issA2 ixnA4, proved (ks [1]) credA2 icpA]

/-- B issues, under the registry of B, a credential that names A as its issuer and the registry of A, and signs it. -/
def issForged := iss credA vcpB
def ixnForged := anchor ixnB 2 issForged
def forged : List (Res (Msg × Msg)) :=
  [signed (ks [1]) icpA, signed (ks [1]) ixnA, coupled vcpA ixnA, signed (ks [3]) icpB, signed (ks [3]) ixnB, coupled vcpB ixnB,
   signed (ks [3]) ixnForged, coupled issForged ixnForged, proved (ks [3]) credA icpB]

/-- A check of what is received and kept. -/
def keepsFrom (l : List (Res (Msg × Msg))) (P : List (Msg × Msg) → Store → Bool) : Bool :=
  match inRow l with
  | .ok l => P (pairs l) (kept l)
  | _ => false

theorem keepsFrom_reach {l : List (Res (Msg × Msg))} {P : List (Msg × Msg) → Store → Bool} (h : keepsFrom l P = true) :
    ∃ hist st, Reach (env []) hist st ∧ P hist st = true := by
  unfold keepsFrom at h
  split at h
  case h_1 m hm =>
    refine ⟨_, _, Reach.ingest (env m) 5 m.length [] m (some false) none .empty (env_same _ _) (env_remembers m) rfl (by simp), ?_⟩
    rw [List.take_length, List.nil_append]
    exact h
  case h_2 => cases h

end Keride.World
