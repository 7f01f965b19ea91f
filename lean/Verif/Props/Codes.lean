/-
C110: what the code of a signature says about it.
-/
import Verif.Spec.Codes
import Verif.Props.Deep

namespace Keride.Props

open Spec Sample Matter

theorem sigers_codes {C : Crypto} {vs : List M} {ser : Bytes} {l l' : List Siger} (h : List.Forall₂ SameButCode l l') :
    verifySigers C vs ser l = verifySigers C vs ser l' := by
  induction h with
  | nil => rfl
  | cons h _ ih =>
    obtain ⟨h1, h2, h3⟩ := h
    rw [verifySigers, verifySigers, h1, h2, h3, ih]

theorem groups_codes {C : Crypto} {vs : List M} {ser : Bytes} {g g' : List SigGroup} (h : List.Forall₂ SameButCodes g g') :
    verifyGroups C vs ser g = verifyGroups C vs ser g' := by
  induction h with
  | nil => rfl
  | cons h _ ih =>
    obtain ⟨l, l', h⟩ := h
    rw [verifyGroups, verifyGroups, sigers_codes h, ih]

/-- C110, what there is of it: nothing that the verification of a key event answers depends on the codes of its
signatures. -/
theorem C110_partial (E : Env) (st : Store) (deep : Option Bool) (fuel : Nat) (s : Sad) (g g' : List SigGroup) (v : List Str)
    (h : List.Forall₂ SameButCodes g g') : verifyKeyEvent E st deep fuel s g v = verifyKeyEvent E st deep fuel s g' v := by
  cases fuel with
  | zero => rfl
  | succ fuel =>
    have : checkKeyEvent E st s g = checkKeyEvent E st s g' := by
      unfold checkKeyEvent
      simp only [groups_codes h]
    rw [verifyKeyEvent, verifyKeyEvent, this]

/-- An identifier with one key, and the rotation to the one next key. -/
def World.rotating : Res ((Msg × Msg) × Str × Sad × List Siger) := do
  let a ← World.ks [1]
  let b ← World.ks [3]
  let x ← a.verfersQb64 (World.env [])
  let y ← b.digersQb64 (World.env [])
  let z ← b.verfersQb64 (World.env [])
  let c ← World.ks [5]
  let n ← c.digersQb64 (World.env [])
  let i ← Sample.incept (World.env []) x none (some y) none none none none none none none (some (str% "E")) none none
  let p ← Serder.pre i
  let d ← Sadder.said true i
  let r ← Sample.rotate (World.env []) p z d none 1 none (some n) none none none none none none none none none
  let m ← World.signed (.ok a) (.ok i)
  let sg ← b.sign (World.env []) 0 r.raw none
  .ok (m, p, r, sg)

/-- The signatures made anew with another code. -/
def World.recode (code : Str) : List Siger → Res (List Siger)
  | [] => .ok []
  | s :: l => do
    let i ← Siger.new true (some s.verfer) (some s.i.index) none (some code) (some s.i.raw) none none none
    let r ← World.recode code l
    .ok (i :: r)

/-- The one key of the rotation is an Ed25519 key, and the rotation is accepted when its signature has the code. -/
def World.recoded (code : Str) (x : (Msg × Msg) × Str × Sad × List Siger) : Bool :=
  World.holds (World.recode code x.2.2.2) fun l => World.holds (World.text x.1) fun t =>
    World.holds (verifyKeyEvent (World.reader [x.1.2]) (World.oneLog x.2.1 [t]) none 5 x.2.2.1 [.controller l] []) fun r =>
    World.holds (Serder.verfers x.2.2.1) fun vs => !r.1 && decide (l.length = 1) && decide (vs.map (fun v => v.code) = [str% "D"]) && (l.all fun s => decide (s.i.code = code))

theorem World.recoded_ok {code : Str} {x : (Msg × Msg) × Str × Sad × List Siger} (h : World.recoded code x = true) :
    ∃ (st : Store) (l : List Siger) (r : Bool × List Str) (vs : List M), verifyKeyEvent (World.reader [x.1.2]) st none 5 x.2.2.1 [.controller l] [] = .ok r ∧
      r.1 = false ∧ l.length = 1 ∧ Serder.verfers x.2.2.1 = .ok vs ∧ (∀ v ∈ vs, v.code = str% "D") ∧ ∀ s ∈ l, s.i.code = code := by
  unfold World.recoded at h
  obtain ⟨l, h1, h⟩ := World.holds_ok h
  obtain ⟨t, h2, h⟩ := World.holds_ok h
  obtain ⟨r, h3, h⟩ := World.holds_ok h
  obtain ⟨vs, h4, h⟩ := World.holds_ok h
  simp only [Bool.and_eq_true, decide_eq_true_eq, Bool.not_eq_true'] at h
  obtain ⟨⟨⟨h5, h6⟩, h7⟩, h8⟩ := h
  refine ⟨_, l, r, vs, h3, h5, h6, h4, fun v hv => ?_, fun s hs => ?_⟩
  · have := List.mem_map_of_mem (f := fun v => v.code) hv
    rw [h7] at this
    exact List.mem_singleton.mp this
  · have := List.all_eq_true.mp h8 s hs
    exact of_decide_eq_true this

/-- C110 is false: a rotation is accepted though its only signature has a code that says it is not by a key that was
committed to, and that it is made with ECDSA. The key is an Ed25519 key. -/
theorem C110_false : ∃ (E : Env) (st : Store) (s : Sad) (l : List Siger) (v : List Str) (vs : List M), HashOk E.H ∧ CryptoOk E.C ∧
    s.ked.index (str% "t") = .ok (.str (str% "rot")) ∧ Serder.verfers s = .ok vs ∧ (∀ k ∈ vs, k.code = str% "D") ∧ l.length = 1 ∧
    (∀ x ∈ l, x.i.code ∈ currentOnlyCodes ∧ x.i.code ∈ ecdsaCodes) ∧ verifyKeyEvent E st none 5 s [.controller l] [] = .ok (false, v) := by
  obtain ⟨x, hx, h⟩ := World.holds_ok (r := World.rotating) (f := fun x => World.recoded (str% "F") x && World.holds (x.2.2.1.ked.index (str% "t")) fun t =>
    match t with
    | .str t => decide (t = str% "rot")
    | _ => false) (by decide +kernel)
  rw [Bool.and_eq_true] at h
  obtain ⟨st, l, r, vs, h1, h2, h3, h4, h5, h6⟩ := World.recoded_ok h.1
  obtain ⟨t, h7, h8⟩ := World.holds_ok h.2
  obtain ⟨b, v⟩ := r
  cases h2
  refine ⟨World.reader [x.1.2], st, x.2.2.1, l, v, vs, World.hash_ok, World.crypto_ok, ?_, h4, h5, h3, fun s hs => ?_, h1⟩
  · rw [h7]
    cases t with
    | str t => rw [of_decide_eq_true h8]
    | _ => cases h8
  · rw [h6 s hs]
    exact ⟨by decide, by decide⟩

/-- The hypotheses of `C110_partial` are met: the signatures that the rotation was signed with, and signatures with another code. -/
example : ∃ (g g' : List SigGroup), List.Forall₂ SameButCodes g g' ∧ g ≠ g' := by
  obtain ⟨x, hx, h⟩ := World.holds_ok (r := World.rotating) (f := fun x => decide (x.2.2.2.map (fun s => s.i.code) = [str% "A"])) (by decide +kernel)
  replace h := of_decide_eq_true h
  refine ⟨[.controller x.2.2.2], [.controller (x.2.2.2.map fun s => { s with i := { s.i with code := str% "F" } })], .cons (.controller _ _ ?_) .nil, fun he => ?_⟩
  · rw [List.forall₂_map_right_iff]
    exact List.forall₂_same.mpr fun s _ => ⟨rfl, rfl, rfl⟩
  · injection he with he
    injection he with he
    have := congrArg (List.map fun s : Siger => s.i.code) he
    rw [h, List.map_map] at this
    have hl := congrArg List.length h
    rw [List.length_map] at hl
    obtain ⟨s, hs⟩ := List.length_eq_one_iff.mp hl
    rw [hs] at this
    have h9 : str% "A" = str% "F" := (List.cons.inj this).1
    exact absurd h9 (by decide)

end Keride.Props
