/-
C108: what deep verification refuses, and what it means to leave the choice out.
-/
import Verif.Lemmas.Depth
import Verif.Props.DeepTel

namespace Keride.Props

open Spec Sample Matter

/-! ## C108 -/

/-- C108: whatever is kept in a store, a key event, a transaction event or a credential that is accepted with deep
verification, or with the choice left out, is accepted without deep verification, with the same answer whether it is
known, and whatever SAIDs were met before. -/
theorem C108_deeper (E : Env) (st : Store) (deep : Option Bool) (fuel : Nat) (v w v' : List Str) (known : Bool) :
    (∀ s groups, verifyKeyEvent E st deep fuel s groups v = .ok (known, v') → verifyKeyEvent E st (some false) fuel s groups w = .ok (known, w)) ∧
    (∀ s couples, verifyTransactionEvent E st deep fuel s couples v = .ok (known, v') →
      verifyTransactionEvent E st (some false) fuel s couples w = .ok (known, w)) ∧
    (∀ s groups, verifyAcdc E st deep fuel s groups v = .ok (known, v') → verifyAcdc E st (some false) fuel s groups w = .ok (known, w)) :=
  ⟨fun _ _ h => depth_key h, fun _ _ h => depth_tel h, fun _ _ h => depth_acdc h⟩

/-- C108 for messages that are sent one at a time: what a store is after a message was accepted, however it was verified, it
is also after it was accepted without deep verification. -/
theorem C108_message (E : Env) (st st' : Store) (fuel : Nat) (deep verify : Option Bool) (m g : Msg)
    (h : ingestLoop E fuel deep verify st [m, g] [] = (st', .ok ())) : ingestLoop E fuel (some false) verify st [m, g] [] = (st', .ok ()) := by
  rw [ingestLoop] at h ⊢
  cases hx : ingestOne E st fuel deep verify m (some g) [] with
  | err e => rw [hx] at h; cases h
  | panic => rw [hx] at h; cases h
  | ok x =>
    obtain ⟨w, hw⟩ := depth_one hx
    obtain ⟨a, v⟩ := x
    rw [hx] at h
    rw [hw]
    dsimp only at h ⊢
    cases hp : perform E st a with
    | mk st1 r =>
      rw [hp] at h
      cases r with
      | ok u => simpa only [ingestLoop] using h
      | err e => cases h
      | panic => cases h

/-- C108: for key events, to leave the choice out is to verify without deep verification. -/
theorem C108_keys (E : Env) (st : Store) (fuel : Nat) (s : Sad) (groups : List SigGroup) (v : List Str) :
    verifyKeyEvent E st none fuel s groups v = verifyKeyEvent E st (some false) fuel s groups v := by
  cases fuel with
  | zero => rfl
  | succ fuel => rw [verifyKeyEvent, verifyKeyEvent]; rfl

/-- The store of `World.unverified`, but the interaction that seals the revocation is signed by somebody else. -/
def World.unsealed : Res World.TelCase := do
  let x ← World.unverified
  let d ← World.signed (World.ks [9]) World.ixnA3
  let td ← World.text d
  .ok { x with groups := x.groups ++ [d.2], kel := x.kel.take 3 ++ [td] }

/-- The store of `World.unverified`, but the issuance is kept with the interaction that seals the registry. -/
def World.misplaced : Res World.TelCase := do
  let x ← World.unverified
  let f ← World.coupled World.issA World.ixnA
  let tf ← World.text f
  .ok { x with groups := x.groups ++ [f.2], tel := [tf] }

/-- Whether the message of a case is accepted as new. -/
def World.TelCase.accepts (deep : Option Bool) (x : World.TelCase) : Bool :=
  match x.msg with
  | (.payload p, .group (.couples l) _) =>
    (match Serder.newWithRaw (fun _ => none) (toUtf8 p) with
      | .ok s => (match verifyTransactionEvent (World.reader x.groups) x.store deep 9 s l [] with
        | .ok (false, _) => true
        | _ => false)
      | _ => false)
  | _ => false

theorem World.TelCase.accepts_ok {deep : Option Bool} {x : World.TelCase} (h : x.accepts deep = true) :
    ∃ p l g, x.msg = (.payload p, .group (.couples l) g) ∧ ∃ s, Serder.newWithRaw (fun _ => none) (toUtf8 p) = .ok s ∧
      ∃ v, verifyTransactionEvent (World.reader x.groups) x.store deep 9 s l [] = .ok (false, v) := by
  unfold World.TelCase.accepts at h
  split at h
  · rename_i p l g hm
    split at h
    · rename_i s hs
      split at h
      · rename_i v hv
        exact ⟨p, l, g, hm, s, hs, v, hv⟩
      · cases h
    · cases h
  · cases h

/-- Whether the message of a case is refused. -/
def World.TelCase.refuses (deep : Option Bool) (x : World.TelCase) : Bool :=
  match x.msg with
  | (.payload p, .group (.couples l) _) =>
    (match Serder.newWithRaw (fun _ => none) (toUtf8 p) with
      | .ok s => World.refused (verifyTransactionEvent (World.reader x.groups) x.store deep 9 s l [])
      | _ => false)
  | _ => false

theorem World.TelCase.refuses_ok {deep : Option Bool} {x : World.TelCase} (h : x.refuses deep = true) {p : Str} {l : List (M × M)} {g : Res Str} {s : Sad}
    (hm : x.msg = (.payload p, .group (.couples l) g)) (hs : Serder.newWithRaw (fun _ => none) (toUtf8 p) = .ok s) :
    ∃ e, verifyTransactionEvent (World.reader x.groups) x.store deep 9 s l [] = .err e := by
  unfold World.TelCase.refuses at h
  rw [hm] at h
  simp only [hs] at h
  exact World.refused_ok h

/-- The hypotheses of C108 are met: a revocation is accepted with deep verification and with the choice left out. -/
example : ∃ (E : Env) (st : Store) (s : Sad) (couples : List (M × M)) (v v' : List Str), verifyTransactionEvent E st (some true) 9 s couples [] = .ok (false, v) ∧
    verifyTransactionEvent E st none 9 s couples [] = .ok (false, v') := by
  obtain ⟨x, hx, h⟩ := World.holds_ok (r := World.unverified) (f := fun x => x.accepts (some true) && x.accepts none) (by decide +kernel)
  rw [Bool.and_eq_true] at h
  obtain ⟨p, l, g, hm, s, hs, v, hv⟩ := World.TelCase.accepts_ok h.1
  obtain ⟨p', l', g', hm', s', hs', v', hv'⟩ := World.TelCase.accepts_ok h.2
  rw [hm] at hm'
  cases hm'
  rw [hs] at hs'
  cases hs'
  exact ⟨_, _, s, l, v, v', hv, hv'⟩

/-- To leave the choice out is not to verify deeply: nobody has signed the interaction that seals a revocation, and the
revocation is refused with deep verification and accepted with the choice left out. -/
theorem C108_default_deep_false : ∃ (E : Env) (st : Store) (raw : Bytes) (s : Sad) (couples : List (M × M)) (v : List Str), HashOk E.H ∧ CryptoOk E.C ∧
    Serder.newWithRaw E.fl raw = .ok s ∧ verifyTransactionEvent E st none 9 s couples [] = .ok (false, v) ∧
    ∃ e, verifyTransactionEvent E st (some true) 9 s couples [] = .err e := by
  obtain ⟨x, hx, h⟩ := World.holds_ok (r := World.unsealed) (f := fun x => x.accepts none && x.refuses (some true)) (by decide +kernel)
  rw [Bool.and_eq_true] at h
  obtain ⟨p, l, g, hm, s, hs, v, hv⟩ := World.TelCase.accepts_ok h.1
  exact ⟨World.reader x.groups, x.store, toUtf8 p, s, l, v, World.hash_ok, World.crypto_ok, hs, hv, World.TelCase.refuses_ok h.2 hm hs⟩

/-- To leave the choice out is not to verify without deep verification either: an issuance is kept that was not sealed, and
its revocation is refused with the choice left out and accepted without deep verification. -/
theorem C108_default_shallow_false : ∃ (E : Env) (st : Store) (raw : Bytes) (s : Sad) (couples : List (M × M)) (v : List Str), HashOk E.H ∧ CryptoOk E.C ∧
    Serder.newWithRaw E.fl raw = .ok s ∧ verifyTransactionEvent E st (some false) 9 s couples [] = .ok (false, v) ∧
    ∃ e, verifyTransactionEvent E st none 9 s couples [] = .err e := by
  obtain ⟨x, hx, h⟩ := World.holds_ok (r := World.misplaced) (f := fun x => x.accepts (some false) && x.refuses none) (by decide +kernel)
  rw [Bool.and_eq_true] at h
  obtain ⟨p, l, g, hm, s, hs, v, hv⟩ := World.TelCase.accepts_ok h.1
  exact ⟨World.reader x.groups, x.store, toUtf8 p, s, l, v, World.hash_ok, World.crypto_ok, hs, hv, World.TelCase.refuses_ok h.2 hm hs⟩

/-- The inception and the interaction of the examples are kept, and a stream comes in: the rotation, and the interaction
with signatures of somebody else. -/
def World.staleCase : Res (List Msg × List Msg × List Str × Str) := do
  let a ← World.signed (World.ks [1, 2]) World.icp
  let b ← World.signed (World.ks [1, 2]) World.ixn
  let c ← World.signed (World.ks [3, 4]) World.rot
  let d ← World.signed (World.ks [7, 8]) World.ixn
  let pre ← World.icp >>= Serder.pre
  let ta ← World.text a
  let tb ← World.text b
  .ok ([a.2, b.2], [c.1, c.2, d.1, d.2], [ta, tb], pre)

/-- C108 is false of streams: a stream is accepted with deep verification and refused without. Deep verification of its
first event meets the SAID of an event that is kept, and so the second message, which has this SAID, is not verified. -/
theorem C108_stream_false : ∃ (E : Env) (st st' : Store) (msgs : List Msg), HashOk E.H ∧ CryptoOk E.C ∧ Remembers E ∧ KeyEventsOnly E.fl msgs ∧
    ingestLoop E 5 (some true) none st msgs [] = (st', .ok ()) ∧ ∃ e, (ingestLoop E 5 (some false) none st msgs []).2 = .err e := by
  obtain ⟨x, hx, h⟩ := World.holds_ok (r := World.staleCase) (f := fun x => x.2.1.all isKeyEvent && (World.after x).2.isOk &&
    World.refused (ingestLoop (World.reader (x.1 ++ x.2.1)) 5 (some false) none (World.oneLog x.2.2.2 x.2.2.1) x.2.1 []).2) (by decide +kernel)
  rw [Bool.and_eq_true, Bool.and_eq_true] at h
  refine ⟨World.reader (x.1 ++ x.2.1), World.oneLog x.2.2.2 x.2.2.1, (World.after x).1, x.2.1, World.hash_ok, World.crypto_ok, World.reader_remembers _,
    (isKeyEvent_ok h.1.1).2, ?_, World.refused_ok h.2⟩
  change World.after x = _
  refine Prod.ext rfl ?_
  have h8 := h.1.2
  cases hr : (World.after x).2 with
  | ok u => rfl
  | err e => rw [hr] at h8; cases h8
  | panic => rw [hr] at h8; cases h8

end Keride.Props
