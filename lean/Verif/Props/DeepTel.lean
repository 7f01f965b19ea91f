/-
C100: deep verification of transaction events.
-/
import Verif.Lemmas.DeepTel
import Verif.Lemmas.WorldTel
import Verif.Props.Deep
import Verif.Props.Registry

namespace Keride.Props

open Spec Sample Matter

/-- C100, the part that holds: when deep verification accepts the inception of a registry, an issuance or a revocation, all
events kept before it for its identifier, none of which need have been verified, are a valid transaction log that the
event continues, and each is sealed in a key event log that is valid from its beginning up to the seal; unless some of the
events are in a circle, each addressed by a digest of a text with the digest of the next. The store must have been filled
properly, and no key event may have the SAID of the event or of those kept for its identifier. Missing: the first event of
the registry that an issuance or a revocation names is taken as it is stored, see `C100_false`. -/
theorem C100_partial (E : Env) (hH : HashOk E.H) (st : Store) (fuel : Nat) (raw : Bytes) (s : Sad) (couples : List (M × M)) (v : List Str)
    (r : Bool × List Str) (id : Str) (n : Nat) (hread : Serder.newWithRaw E.fl raw = .ok s) (hid : HasText (str% "i") id s) (hsn : Serder.sn s = .ok n)
    (hv : ∀ q ∈ v, Sadder.said E.chk s = .ok q) (hf : FiledStore E.chk E.fl st) (hft : Filed E.chk E.fl id (st.tels id))
    (hlen : ∀ p, (st.kels p).length < 2 ^ 32) (hlt : (st.tels id).length < 2 ^ 32)
    (hA : ∀ e k q, e = s ∨ KeptFor E.fl st id e → KeptIn E.fl st k → Sadder.said E.chk e = .ok q → Sadder.said E.chk k ≠ .ok q)
    (h : verifyTransactionEvent E st (some true) fuel s couples v = .ok r) :
    (∃ log, List.Forall₂ (fun t e => Serder.newWithRaw E.fl (toUtf8 t) = .ok e) ((st.tels id).take n) log ∧
      ValidTel E.H E.chk (reliable E st) id (log ++ [s])) ∨
      Circular E.H E.chk (fun x => x = s ∨ KeptIn E.fl st x ∨ KeptFor E.fl st id x) :=
  deepTel_new hH (fun _ hx => .inr (.inl hx)) (fun text ht _ he => .inr (.inr ⟨text, ht, he⟩)) hf hft hlen hlt
    (fun text ht e q he hq k hk => hA e k q (.inr ⟨text, ht, he⟩) hk hq) hread (.inl rfl) hid hsn hv
    (fun k q hk hq => hA s k q (.inl rfl) hk hq) h

/-- A store with the key event log of one identifier, the transaction log of another, and a registry. -/
def World.threeLogs (pre : Str) (kel : List Str) (id : Str) (tel : List Str) (ri : Str) (reg : List Str) : Store :=
  { Store.empty with
    kels := fun p => if p = pre then kel else []
    tels := fun p => if p = id then tel else if p = ri then reg else [] }

/-- Groups that are kept, a store, the identifiers of its logs, and the message that comes in. -/
structure World.TelCase where
  groups : List Msg
  pre : Str
  kel : List Str
  id : Str
  tel : List Str
  ri : Str
  reg : List Str
  msg : Msg × Msg

def World.TelCase.store (x : World.TelCase) : Store := World.threeLogs x.pre x.kel x.id x.tel x.ri x.reg

/-- A controller's key event log, their registry and an issuance are kept, and the revocation comes in. -/
def World.unverified : Res World.TelCase := do
  let a ← World.signed (World.ks [1]) World.icpA
  let b ← World.signed (World.ks [1]) World.ixnA
  let c ← World.signed (World.ks [1]) World.ixnA2
  let d ← World.signed (World.ks [1]) World.ixnA3
  let e ← World.coupled World.vcpA World.ixnA
  let f ← World.coupled World.issA World.ixnA2
  let m ← World.coupled World.revA World.ixnA3
  let pre ← World.icpA >>= Serder.pre
  let id ← World.issA >>= Serder.pre
  let ri ← World.vcpA >>= Serder.pre
  let ta ← World.text a
  let tb ← World.text b
  let tc ← World.text c
  let td ← World.text d
  let te ← World.text e
  let tf ← World.text f
  .ok ⟨[a.2, b.2, c.2, d.2, e.2, f.2], pre, [ta, tb, tc, td], id, [tf], ri, [te], m⟩

/-- A registry inception with the identifier of a registry and somebody else as its controller. It is not anchored, and
does not even have all fields. -/
def World.forgedReg (ri ii : Str) : Res Str := do
  let s ← Serder.newWithKed (fun _ => none) (.obj [(str% "v", .str (str% "KERI10JSON000000_")), (str% "t", .str (str% "vcp")), (str% "d", .str ri),
    (str% "i", .str ri), (str% "s", .str (str% "0")), (str% "ii", .str ii)]) none none
  fromUtf8 s.raw

/-- The registry of the first controller is kept with the second as its controller, who has sealed an issuance in it. -/
def World.forgedRegCase : Res World.TelCase := do
  let x := World.anchor World.icpB 1 World.issA
  let a ← World.signed (World.ks [3]) World.icpB
  let b ← World.signed (World.ks [3]) x
  let m ← World.coupled World.issA x
  let pre ← World.icpB >>= Serder.pre
  let id ← World.issA >>= Serder.pre
  let ri ← World.vcpA >>= Serder.pre
  let ta ← World.text a
  let tb ← World.text b
  let t ← World.forgedReg ri pre
  .ok ⟨[a.2, b.2], pre, [ta, tb], id, [], ri, [t], m⟩

/-- The tests that a case must pass: the store is filed, no key event has the SAID of a transaction event, the message is
of the identifier, has a number, is not kept and is accepted. -/
def World.TelCase.test (n : Nat) (x : World.TelCase) : Bool :=
  match x.msg with
  | (.payload p, .group (.couples l) _) =>
    World.filed x.pre x.kel && World.filed x.id x.tel && (x.kel.all fun k => (p :: x.tel).all fun t => decide (World.saidOf t ≠ World.saidOf k)) &&
    (match Serder.newWithRaw (fun _ => none) (toUtf8 p) with
      | .ok s => decide (Serder.pre s = .ok x.id) && decide (Serder.sn s = .ok n) && decide (x.tel.length = n) &&
        decide (textOf (str% "ri") p = some x.ri) &&
        (match verifyTransactionEvent (World.reader x.groups) x.store (some true) 9 s l [] with
          | .ok (false, _) => true
          | _ => false)
      | _ => false)
  | _ => false

theorem World.TelCase.test_ok {n : Nat} {x : World.TelCase} (h : x.test n = true) (hlen : x.kel.length < 2 ^ 32) :
    FiledStore true (fun _ => none) x.store ∧ Filed true (fun _ => none) x.id (x.store.tels x.id) ∧ (∀ p, (x.store.kels p).length < 2 ^ 32) ∧
      (x.store.tels x.id).length = n ∧
      ∃ raw s l v, Serder.newWithRaw (fun _ => none) raw = .ok s ∧ HasText (str% "i") x.id s ∧ HasText (str% "ri") x.ri s ∧ Serder.sn s = .ok n ∧
        (∀ e k q, e = s ∨ KeptFor (fun _ => none) x.store x.id e → KeptIn (fun _ => none) x.store k → Sadder.said true e = .ok q → Sadder.said true k ≠ .ok q) ∧
        verifyTransactionEvent (World.reader x.groups) x.store (some true) 9 s l [] = .ok (false, v) := by
  have ek : x.store.kels x.pre = x.kel := if_pos rfl
  have et : x.store.tels x.id = x.tel := if_pos rfl
  have eo : ∀ p, p ≠ x.pre → x.store.kels p = [] := fun p hp => if_neg hp
  unfold World.TelCase.test at h
  split at h
  · rename_i p l gt hm
    rw [Bool.and_eq_true, Bool.and_eq_true, Bool.and_eq_true] at h
    obtain ⟨⟨⟨h1, h2⟩, h3⟩, h4⟩ := h
    split at h4
    · rename_i s hs
      simp only [Bool.and_eq_true, decide_eq_true_eq] at h4
      obtain ⟨⟨⟨⟨k1, k2⟩, k3⟩, k4⟩, k5⟩ := h4
      split at k5
      · rename_i w hw
        obtain ⟨s', g1, g2⟩ := textOf_ok k4
        rw [hs] at g1
        cases g1
        refine ⟨World.filedStore_of (pre := x.pre) (by rw [ek]; exact h1) eo, by rw [et]; exact World.filed_ok h2, fun q => ?_, by rw [et, k3],
          toUtf8 p, s, l, w, hs, (C55_pre s _).mp k1, g2, k2, ?_, hw⟩
        · by_cases hq : q = x.pre
          · subst hq
            rw [ek]
            exact hlen
          · rw [eo q hq]
            exact Nat.two_pow_pos 32
        · rintro e k q he ⟨pre, u, hu, hk⟩ hq hq'
          have hpre : pre = x.pre := by
            by_contra hne
            rw [eo pre hne] at hu
            cases hu
          subst hpre
          rw [ek] at hu
          have hu := List.all_eq_true.mp h3 u hu
          have hx : ∃ t ∈ p :: x.tel, Serder.newWithRaw (fun _ => none) (toUtf8 t) = .ok e := by
            rcases he with rfl | ⟨t, ht, he⟩
            · exact ⟨p, List.mem_cons_self .., hs⟩
            · rw [et] at ht
              exact ⟨t, List.mem_cons_of_mem _ ht, he⟩
          obtain ⟨t, ht, he⟩ := hx
          have := of_decide_eq_true (List.all_eq_true.mp hu t ht)
          apply this
          unfold World.saidOf
          rw [he, Res.ok_bind, hk, Res.ok_bind, hq, hq']
      · cases k5
    · cases h4
  · cases h

/-- The hypotheses of C100 are met: nobody has verified a store with four key events, a registry and an issuance, and a
revocation comes in. -/
example : ∃ (E : Env) (st : Store) (raw : Bytes) (s : Sad) (couples : List (M × M)) (r : Bool × List Str) (id : Str), HashOk E.H ∧
    Serder.newWithRaw E.fl raw = .ok s ∧ HasText (str% "i") id s ∧ Serder.sn s = .ok 1 ∧ FiledStore E.chk E.fl st ∧ Filed E.chk E.fl id (st.tels id) ∧
    (∀ p, (st.kels p).length < 2 ^ 32) ∧ (st.tels id).length = 1 ∧
    (∀ e k q, e = s ∨ KeptFor E.fl st id e → KeptIn E.fl st k → Sadder.said E.chk e = .ok q → Sadder.said E.chk k ≠ .ok q) ∧
    verifyTransactionEvent E st (some true) 9 s couples [] = .ok r := by
  obtain ⟨x, hx, h⟩ := World.holds_ok (r := World.unverified) (f := fun x => x.test 1 && decide (x.kel.length = 4)) (by decide +kernel)
  rw [Bool.and_eq_true, decide_eq_true_eq] at h
  obtain ⟨f1, f2, f3, f4, raw, s, l, v, h1, h2, -, h3, h4, h5⟩ := World.TelCase.test_ok h.1 (by omega)
  exact ⟨World.reader x.groups, x.store, raw, s, l, (false, v), x.id, World.hash_ok, h1, h2, h3, f1, f2, f3, f4, h4, h5⟩

/-- The forged registry does not have the fields of a registry. -/
def World.bare (t : Str) : Bool :=
  match Serder.newWithRaw (fun _ => none) (toUtf8 t) with
  | .ok s => (field (str% "bt") s.ked).isNone && (field (str% "ri") s.ked).isNone
  | _ => false

/-- C100 is false: the first event that is kept for a registry is forged, with a controller that is not that of the
registry, and deep verification accepts an issuance in that registry that the forger has sealed. No circumstances make
what is kept for the registry a valid log. -/
theorem C100_false : ∃ (E : Env) (st : Store) (raw : Bytes) (s : Sad) (couples : List (M × M)) (v : List Str) (id ri text : Str) (reg : Sad), HashOk E.H ∧
    CryptoOk E.C ∧ Serder.newWithRaw E.fl raw = .ok s ∧ HasText (str% "i") id s ∧ HasText (str% "ri") ri s ∧ Serder.sn s = .ok 0 ∧
    FiledStore E.chk E.fl st ∧ Filed E.chk E.fl id (st.tels id) ∧ (∀ p, (st.kels p).length < 2 ^ 32) ∧ st.tels id = [] ∧
    (∀ e k q, e = s ∨ KeptFor E.fl st id e → KeptIn E.fl st k → Sadder.said E.chk e = .ok q → Sadder.said E.chk k ≠ .ok q) ∧
    st.tels ri = [text] ∧ Serder.newWithRaw E.fl (toUtf8 text) = .ok reg ∧ (∀ W, ¬ ValidTel E.H E.chk W ri [reg]) ∧
    verifyTransactionEvent E st (some true) 9 s couples [] = .ok (false, v) := by
  obtain ⟨x, hx, h⟩ := World.holds_ok (r := World.forgedRegCase) (f := fun x => x.test 0 && decide (x.kel.length = 2) && decide (x.id ≠ x.ri) &&
    (match x.reg with
      | [t] => World.bare t
      | _ => false)) (by decide +kernel)
  simp only [Bool.and_eq_true, decide_eq_true_eq] at h
  obtain ⟨⟨⟨h1, h2⟩, h3⟩, h4⟩ := h
  obtain ⟨f1, f2, f3, f4, raw, s, l, v, k1, k2, k3, k4, k5, k6⟩ := World.TelCase.test_ok h1 (by omega)
  split at h4
  · rename_i t ht
    unfold World.bare at h4
    split at h4
    · rename_i reg hreg
      have er : x.store.tels x.ri = x.reg := (if_neg (Ne.symm h3)).trans (if_pos rfl)
      refine ⟨World.reader x.groups, x.store, raw, s, l, v, x.id, x.ri, t, reg, World.hash_ok, World.crypto_ok, k1, k2, k3, k4, f1, f2, f3,
        List.length_eq_zero_iff.mp f4, k5, by rw [er, ht], hreg, fun W hW => ?_, k6⟩
      rw [Bool.and_eq_true, Option.isNone_iff_eq_none, Option.isNone_iff_eq_none] at h4
      generalize hg : [reg] = log at hW
      cases hW with
      | incept e a ii _ _ _ fields =>
        cases hg
        obtain ⟨b, hb⟩ := fields (str% "bt") (by decide)
        rw [h4.1] at hb
        cases hb
      | issue e ri _ _ _ _ _ registry =>
        cases hg
        unfold HasText at registry
        rw [h4.2] at registry
        cases registry
      | revoke log prev e ri psaid before _ _ _ _ _ last =>
        have : log = [] := by
          have := congrArg List.length hg
          rw [List.length_append, List.length_singleton, List.length_singleton] at this
          exact List.length_eq_zero_iff.mp (by omega)
        rw [this] at last
        cases last
    · cases h4
  · cases h4

end Keride.Props
