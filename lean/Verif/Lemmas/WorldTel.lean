/-
Registries, issuances, revocations and credentials in the small world of Lemmas/World.lean.
-/
import Verif.Lemmas.World
import Verif.Lemmas.Resend
import Verif.Model.Sample.Issue

namespace Keride.World

open Matter Spec Sample

/-- A function that stretches a path into a seed: the path, padded. -/
def stretch : Stretch where
  argon2id _ _ len pwd _ := .ok ((pwd ++ List.replicate len 0).take len)
  fill n := List.replicate 16 (UInt8.ofNat n)

/-- The inception of an identifier with one key. -/
def icp1 (a b : Nat) : Res Sad := do
  let a ← ks [a]
  let b ← ks [b]
  let x ← a.verfersQb64 (env [])
  let y ← b.digersQb64 (env [])
  Sample.incept (env []) x none (some y) none none none none none none none (some (str% "E")) none none

/-- An interaction after an event, that seals another event. -/
def anchor (prev : Res Sad) (sn : Nat) (e : Res Sad) : Res Sad := do
  let i ← prev
  let p ← Serder.pre i
  let d ← Sadder.said true i
  let e ← e
  let ei ← Serder.pre e
  let es ← e.ked.index (str% "s")
  let es ← es.toStr
  let ed ← Sadder.said true e
  Sample.interact (env []) p d (some sn) (some (sealOf ei es ed)) none none

/-- The message of a transaction event with the couple naming its anchor. -/
def coupled (e anchor : Res Sad) : Res (Msg × Msg) := do
  let s ← e
  let a ← anchor
  let n ← Serder.sn a
  let d ← Sadder.said true a
  let t ← fromUtf8 s.raw
  let q ← Seqner.newWithSn n
  let m ← Matter.newWithQb64 d
  let c ← coupleText (env []) n d
  .ok (.payload t, .group (.couples [(q, m)]) (.ok c))

/-- The registry of an identifier. -/
def vcp (icp : Res Sad) : Res Sad := do
  let i ← icp
  let p ← Serder.pre i
  let r ← registryIncept (env []) p
  .ok r.2

/-- A credential issued by an identifier under a registry. -/
def cred (icp vcp : Res Sad) : Res Sad := do
  let i ← icp
  let p ← Serder.pre i
  let r ← vcp
  let ri ← Serder.pre r
  createAcdc (env []) stretch (fun n => n) (str% "2023-01-01T00:00:00.000000+00:00") (str% "schema") p (.obj [(str% "name", .str (str% "x"))]) none none none
    (some ri) none none none none

/-- The issuance of a document under a registry. -/
def iss (doc vcp : Res Sad) : Res Sad := do
  let c ← doc
  let q ← Sadder.said true c
  let r ← vcp
  let ri ← Serder.pre r
  let x ← vcIssue (env []) stretch 3 (str% "2023-01-01T00:00:00.000000+00:00") q ri
  .ok x.2

/-- The revocation of what an event issued, naming a registry. -/
def rev (iss vcp : Res Sad) : Res Sad := do
  let e ← iss
  let p ← Serder.pre e
  let q ← Sadder.said true e
  let r ← vcp
  let ri ← Serder.pre r
  let x ← vcRevoke (env []) stretch 4 (str% "2023-01-02T00:00:00.000000+00:00") p ri q
  .ok x.2

/-- Put messages in a row. -/
def inRow : List (Res (Msg × Msg)) → Res (List Msg)
  | [] => .ok []
  | m :: l => do
    let x ← m
    let r ← inRow l
    .ok (x.1 :: x.2 :: r)

/-- Two controllers, each with a registry. -/
def icpA := icp1 1 2
def vcpA := vcp icpA
def ixnA := anchor icpA 1 vcpA
def icpB := icp1 3 4
def vcpB := vcp icpB
def ixnB := anchor icpB 1 vcpB

/-- A issues a credential. -/
def credA := cred icpA vcpA
def issA := iss credA vcpA
def ixnA2 := anchor ixnA 2 issA

/-- A revokes it. -/
def revA := rev issA vcpA
def ixnA3 := anchor ixnA2 3 revA

/-- B revokes it, naming the registry of B. -/
def revB := rev issA vcpB
def ixnB2 := anchor ixnB 2 revB

def issued : List (Res (Msg × Msg)) :=
  [signed (ks [1]) icpA, signed (ks [1]) ixnA, coupled vcpA ixnA, signed (ks [1]) ixnA2, coupled issA ixnA2]

def revoked : List (Res (Msg × Msg)) := issued ++ [signed (ks [1]) ixnA3, coupled revA ixnA3]

def hijacked : List (Res (Msg × Msg)) :=
  issued ++ [signed (ks [3]) icpB, signed (ks [3]) ixnB, coupled vcpB ixnB, signed (ks [3]) ixnB2, coupled revB ixnB2]

/-- The registry of A, with another digest in `d`. -/
def vcpOdd : Res Sad := do
  let r ← vcpA
  let i ← icpB
  let q ← Sadder.said true i
  match r.ked with
  | .obj o => Serder.newWithKed (fun _ => none) (.obj (Value.insert (str% "d") (.str q) o)) none none
  | _ => .panic
def ixnOdd := anchor icpA 1 vcpOdd

def registered : List (Res (Msg × Msg)) := [signed (ks [1]) icpA, signed (ks [1]) ixnA, coupled vcpA ixnA]
def oddly : List (Res (Msg × Msg)) := [signed (ks [1]) icpA, signed (ks [1]) ixnOdd, coupled vcpOdd ixnOdd]

/-- What a verifier that starts empty keeps after taking in messages. -/
def kept (l : List Msg) : Store := (ingestLoop (env l) 5 (some false) none Store.empty l []).1

/-- A check of what is kept. -/
def keeps (l : List (Res (Msg × Msg))) (P : Store → Bool) : Bool :=
  match inRow l with
  | .ok l => P (kept l)
  | _ => false

theorem keeps_reach {l : List (Res (Msg × Msg))} {P : Store → Bool} (h : keeps l P = true) (hl : l.length < 1000) :
    ∃ hist st, Reach (env []) hist st ∧ P st = true ∧ ∀ p, (st.kels p).length ≤ 2 ^ 32 ∧ (st.tels p).length ≤ 2 ^ 32 := by
  unfold keeps at h
  split at h
  case h_1 m hm =>
    refine ⟨_, _, Reach.ingest (env m) 5 m.length [] m (some false) none .empty (env_same _ _) (env_remembers m) rfl (by simp), ?_, ?_⟩
    · rw [List.take_length]; exact h
    · have : ∀ (l : List (Res (Msg × Msg))) (m : List Msg), inRow l = .ok m → m.length = 2 * l.length := by
        intro l
        induction l with
        | nil =>
          intro m h
          cases h
          rfl
        | cons a l ih =>
          intro m h
          unfold inRow at h
          obtain ⟨x, -, h⟩ := Res.bind_eq_ok.mp h
          obtain ⟨y, hy, h⟩ := Res.bind_eq_ok.mp h
          cases h
          have := ih y hy
          simp only [List.length_cons]
          omega
      have hm := this l m hm
      intro p
      have h := ingestLoop_length (E := env m) (fuel := 5) (deep := some false) (verify := none) Store.empty (m.take m.length) [] p
      rw [List.length_take] at h
      have h1 : (Store.empty.kels p).length = 0 := rfl
      have h2 : (Store.empty.tels p).length = 0 := rfl
      omega
  case h_2 => cases h

/-- Both succeed, and give what is checked. -/
def both (a b : Res Str) (P : Str → Str → Bool) : Bool :=
  match a, b with
  | .ok x, .ok y => P x y
  | _, _ => false

theorem both_ok {a b : Res Str} {P : Str → Str → Bool} (h : both a b P = true) : ∃ x y, a = .ok x ∧ b = .ok y ∧ P x y = true := by
  unfold both at h
  split at h
  · exact ⟨_, _, rfl, rfl, h⟩
  · cases h

end Keride.World
