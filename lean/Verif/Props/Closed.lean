/-
C120: revoking a registry.
-/
import Verif.Spec.Closed
import Verif.Lemmas.End
import Verif.Lemmas.WorldAcdc

namespace Keride.Props

open Matter Spec Sample

section

variable {E : Env} {ri : Str} {st st' : Store} {deep : Option Bool}

theorem closed_key (h : AlikeBut ri st st') : ∀ fuel s l v, verifyKeyEvent E st' deep fuel s l v = verifyKeyEvent E st deep fuel s l v := by
  obtain ⟨k, t, a⟩ := st
  obtain ⟨k', t', a'⟩ := st'
  obtain ⟨h1, h2, -, -⟩ := h
  cases h1
  cases h2
  intro fuel
  induction fuel with
  | zero => intro s l v; rfl
  | succ fuel ih =>
    intro s l v
    rw [verifyKeyEvent, verifyKeyEvent]
    refine Res.bind_same rfl fun c hc => Res.bind_same ?_ fun _ _ => rfl
    cases c.prior with
    | none => rfl
    | some x => exact ite_same (fun _ => Res.bind_same rfl fun q hq => ite_same (fun _ => rfl) fun hv => Res.bind_same rfl fun g _ => Res.bind_same (ih _ _ _) fun _ _ => rfl) fun _ => rfl

theorem closed_anchor (h : AlikeBut ri st st') (fuel : Nat) (p : Str) (n d : M) (s : Sad) (v : List Str) :
    verifyAnchor E st' deep fuel p n d s v = verifyAnchor E st deep fuel p n d s v := by
  unfold verifyAnchor Store.getKeyEvent
  simp only [closed_key h, h.kels]

theorem closed_controller (h : AlikeBut ri st st') (s : Sad) (m : M) (ilk r : Str) : anchorOf E st' s m ilk r = anchorOf E st s m ilk r := by
  unfold anchorOf Store.getTransactionEvent
  by_cases hr : r = ri
  · subst hr
    rw [h.first]
  · rw [h.tels r hr]

theorem closed_tel (hst : Sited E st) (h : AlikeBut ri st st') : ∀ fuel s l v, Serder.pre s ≠ .ok ri →
    verifyTransactionEvent E st' deep fuel s l v = verifyTransactionEvent E st deep fuel s l v := by
  intro fuel
  induction fuel with
  | zero => intro s l v _; rfl
  | succ fuel ih =>
    intro s l v hs
    rw [verifyTransactionEvent, verifyTransactionEvent]
    refine Res.bind_same rfl fun pre hpre => ?_
    have hne : pre ≠ ri := fun e => hs (e ▸ hpre)
    unfold Store.getTransactionEvent
    simp only [closed_controller h, closed_anchor h, h.tels pre hne]
    refine Res.bind_same rfl fun _ _ => Res.bind_same rfl fun _ _ => Res.bind_same rfl fun _ _ => Res.bind_same rfl fun _ _ => Res.bind_same rfl fun _ _ =>
      Res.bind_same rfl fun _ _ => ite_same (fun _ => rfl) fun _ => Res.bind_same rfl fun _ _ => Res.bind_same rfl fun _ _ => Res.bind_same rfl fun _ _ =>
      ite_same (fun _ => rfl) fun _ => Res.bind_same rfl fun _ _ => Res.bind_same rfl fun _ _ => ite_same (fun _ => rfl) fun _ => Res.bind_same ?_ fun _ _ => rfl
    refine ite_same (fun _ => rfl) fun _ => ite_same (fun _ => rfl) fun _ => ite_same (fun _ => rfl) fun _ => Res.bind_same rfl fun i _ => Res.bind_same rfl fun t ht =>
      Res.bind_same rfl fun p hp => Res.bind_same rfl fun q _ => Res.bind_same ?_ fun _ _ => rfl
    refine ite_same (fun _ => ite_same (fun _ => rfl) fun _ => Res.bind_same rfl fun g _ => Res.bind_same (ih _ _ _ ?_) fun _ _ => rfl) fun _ => rfl
    rw [(hst.tels pre i t p (Res.ofOption_eq_ok.mp ht) hp).1]
    exact fun e => hne (Res.ok.inj e)

theorem closed_pathSig (h : AlikeBut ri st st') (fuel : Nat) (c : Sad) (sig : SadPathSig) (v : List Str) : verifyPathSig E st' deep fuel c sig v = verifyPathSig E st deep fuel c sig v := by
  unfold verifyPathSig Store.getKeyEvent
  simp only [closed_key h, h.kels]

theorem closed_pathSigs (h : AlikeBut ri st st') (fuel : Nat) (c : Sad) : ∀ (l : List SadPathSig) (r : Bool) (v : List Str), verifyPathSigs E st' deep fuel c l r v = verifyPathSigs E st deep fuel c l r v
  | [], _, _ => rfl
  | sig :: l, r, v => by
    rw [verifyPathSigs, verifyPathSigs]
    simp only [closed_pathSig h, closed_pathSigs h fuel c l]

theorem closed_proof (h : AlikeBut ri st st') (fuel : Nat) (c : Sad) : ∀ (l : List SigGroup) (r : Bool) (v : List Str), verifyProof E st' deep fuel c l r v = verifyProof E st deep fuel c l r v
  | [], _, _ => rfl
  | g :: l, r, v => by
    cases g with
    | sadPath x =>
      rw [verifyProof, verifyProof]
      simp only [closed_pathSigs h, closed_proof h fuel c l]
    | _ => rfl

theorem closed_state (hst : Sited E st) (h : AlikeBut ri st st') (fuel : Nat) {q : Str} (hq : q ≠ ri) (v : List Str) : checkState E st' deep fuel q v = checkState E st deep fuel q v := by
  unfold checkState Store.getLatestTransactionEvent
  rw [h.tels q hq]
  refine Res.bind_same rfl fun t ht => Res.bind_same rfl fun s hs => Res.bind_same rfl fun _ _ => Res.bind_same rfl fun _ _ => Res.bind_same rfl fun _ _ =>
    ite_same (fun _ => rfl) fun _ => Res.bind_same ?_ fun _ _ => rfl
  refine ite_same (fun _ => Res.bind_same rfl fun _ _ => ite_same (fun _ => rfl) fun _ => Res.bind_same rfl fun g _ => Res.bind_same (closed_tel hst h _ _ _ _ ?_) fun _ _ => rfl) fun _ => rfl
  obtain ⟨i, hi⟩ := List.getElem?_of_mem (List.mem_of_getLast? (Res.ofOption_eq_ok.mp ht))
  rw [(hst.tels q i t s hi hs).1]
  exact fun e => hq (Res.ok.inj e)

theorem closed_acdc (hst : Sited E st) (h : AlikeBut ri st st') (hc : ∀ t ∈ st.acdcs, ∀ c, Creder.newWithRaw E.fl (toUtf8 t) = .ok c → Sadder.said E.chk c ≠ .ok ri) : ∀ fuel,
    (∀ c l v, Sadder.said E.chk c ≠ .ok ri → verifyAcdc E st' deep fuel c l v = verifyAcdc E st deep fuel c l v) ∧
    ∀ c nodes v, verifyEdges E st' deep fuel c nodes v = verifyEdges E st deep fuel c nodes v := by
  have hg : ∀ q, st'.getAcdc E q = st.getAcdc E q := fun q => by unfold Store.getAcdc; rw [h.acdcs]
  intro fuel
  induction fuel with
  | zero => exact ⟨fun c l v _ => by rw [verifyAcdc, verifyAcdc], fun c l v => by rw [verifyEdges, verifyEdges]⟩
  | succ fuel ih =>
    obtain ⟨ih1, ih2⟩ := ih
    refine ⟨fun c l v hs => ?_, fun c l v => ?_⟩
    · rw [verifyAcdc, verifyAcdc]
      refine Res.bind_same rfl fun _ _ => ite_same (fun _ => rfl) fun _ => Res.bind_same rfl fun vcid hv => Res.bind_same rfl fun _ _ => Res.bind_same rfl fun prov hprov =>
        Res.bind_same rfl fun _ _ => Res.bind_same rfl fun _ _ => ite_same (fun _ => rfl) fun _ => Res.bind_same (closed_state hst h _ (fun e => hs (e ▸ hv)) _) fun v1 h1 =>
        Res.bind_same rfl fun _ _ => Res.bind_same rfl fun _ _ => ite_same (fun _ => rfl) fun _ =>
        Res.bind_same (closed_proof h _ _ _ _ _) fun r hr => ite_same (fun _ => rfl) fun _ => Res.bind_same rfl fun nodes hnodes =>
        Res.bind_same (ih2 _ _ _) fun _ _ => by rw [hg]
    · cases l with
      | nil => rw [verifyEdges, verifyEdges]
      | cons x l =>
        rw [verifyEdges, verifyEdges]
        refine Res.bind_same rfl fun node _ => Res.bind_same (by unfold checkEdge; simp only [hg]) fun e he => Res.bind_same ?_ fun _ _ => ih2 _ _ _
        refine ite_same (fun _ => ite_same (fun _ => rfl) fun _ => Res.bind_same rfl fun g _ => Res.bind_same (ih1 _ _ _ ?_) fun _ _ => rfl) fun _ => rfl
        unfold checkEdge at he
        obtain ⟨m, -, he⟩ := Res.bind_eq_ok.mp he
        obtain ⟨n, -, he⟩ := Res.bind_eq_ok.mp he
        obtain ⟨said, -, he⟩ := Res.bind_eq_ok.mp he
        obtain ⟨msg, hmsg, he⟩ := Res.bind_eq_ok.mp he
        obtain ⟨p, hp, he⟩ := Res.bind_eq_ok.mp he
        obtain ⟨ok, -, he⟩ := Res.bind_eq_ok.mp he
        split at he
        · cases he
        obtain ⟨ops, -, he⟩ := Res.bind_eq_ok.mp he
        split at he
        · cases he
        obtain ⟨_, -, he⟩ := Res.bind_eq_ok.mp he
        obtain ⟨_, -, he⟩ := Res.bind_eq_ok.mp he
        obtain ⟨_, -, he⟩ := Res.bind_eq_ok.mp he
        obtain ⟨_, -, he⟩ := Res.bind_eq_ok.mp he
        cases he
        exact hc msg (List.mem_of_find?_eq_some (Res.ofOption_eq_ok.mp hmsg)) p hp

end

/-- C120 is false of every registry: whatever is added to the transaction log of a registry after its first event, a
revocation or anything else, the verification of all transaction events of other identifiers and of all credentials
comes out as before. -/
theorem C120_no_effect_false (E : Env) (hist : List (Msg × Msg)) (st st' : Store) (h : Reach E hist st) (ri : Str) (hs : AlikeBut ri st st') (deep : Option Bool) (fuel : Nat) :
    (∀ s couples v, Serder.pre s ≠ .ok ri → verifyTransactionEvent E st' deep fuel s couples v = verifyTransactionEvent E st deep fuel s couples v) ∧
    ((∀ t ∈ st.acdcs, ∀ c, Creder.newWithRaw E.fl (toUtf8 t) = .ok c → Sadder.said E.chk c ≠ .ok ri) →
      ∀ c groups v, Sadder.said E.chk c ≠ .ok ri → verifyAcdc E st' deep fuel c groups v = verifyAcdc E st deep fuel c groups v) :=
  ⟨closed_tel (reach_sited h) hs fuel, fun hc => (closed_acdc (reach_sited h) hs hc fuel).1⟩

/-- In particular, whatever is inserted for a registry that is known. -/
theorem insert_alike {st : Store} {ri : Str} (h : st.tels ri ≠ []) (text : Str) : AlikeBut ri st (st.insertTransactionEvent ri text) := by
  refine ⟨rfl, rfl, fun p hp => ?_, ?_⟩
  · unfold Store.insertTransactionEvent append
    simp [hp]
  · unfold Store.insertTransactionEvent append
    cases ht : st.tels ri with
    | nil => exact absurd ht h
    | cons a l => simp [ht]

/-- C120, what holds: a credential whose transaction log ends with a revocation is refused. -/
theorem C120_partial (E : Env) (st : Store) (c e : Sad) (said text : Str) (hq : Sadder.said E.chk c = .ok said) (ht : (st.tels said).getLast? = some text)
    (he : Serder.newWithRaw E.fl (toUtf8 text) = .ok e) (hr : HasText (str% "t") (str% "rev") e) (deep : Option Bool) (fuel : Nat) (groups : List SigGroup) (v : List Str)
    (r : Bool × List Str) : verifyAcdc E st deep fuel c groups v ≠ .ok r := by
  intro h
  cases fuel with
  | zero => rw [verifyAcdc] at h; cases h
  | succ fuel =>
    rw [verifyAcdc] at h
    obtain ⟨_, -, h⟩ := Res.bind_eq_ok.mp h
    split at h
    · cases h
    obtain ⟨q, hq', h⟩ := Res.bind_eq_ok.mp h
    rw [hq] at hq'
    cases hq'
    obtain ⟨_, -, h⟩ := Res.bind_eq_ok.mp h
    obtain ⟨_, -, h⟩ := Res.bind_eq_ok.mp h
    obtain ⟨_, -, h⟩ := Res.bind_eq_ok.mp h
    obtain ⟨_, -, h⟩ := Res.bind_eq_ok.mp h
    split at h
    · cases h
    obtain ⟨w, hw, -⟩ := Res.bind_eq_ok.mp h
    unfold checkState Store.getLatestTransactionEvent at hw
    obtain ⟨t, h1, hw⟩ := Res.bind_eq_ok.mp hw
    have h1 := Res.ofOption_eq_ok.mp h1
    rw [ht] at h1
    cases h1
    obtain ⟨s, h2, hw⟩ := Res.bind_eq_ok.mp hw
    rw [he] at h2
    cases h2
    obtain ⟨_, -, hw⟩ := Res.bind_eq_ok.mp hw
    obtain ⟨_, -, hw⟩ := Res.bind_eq_ok.mp hw
    obtain ⟨_, -, hw⟩ := Res.bind_eq_ok.mp hw
    split at hw
    · cases hw
    obtain ⟨_, -, hw⟩ := Res.bind_eq_ok.mp hw
    rw [text_index hr, Res.ok_bind, show (Value.str (str% "rev")).toStr = .ok (str% "rev") from rfl, Res.ok_bind, if_pos (.inl rfl)] at hw
    cases hw

/-- The revocation of the registry of the first controller, the issuance of a credential in it afterwards, and their
anchors. -/
def World.revReg := World.rev World.vcpA World.vcpA
def World.ixnReg := World.anchor World.ixnA 2 World.revReg
def World.ixnLate := World.anchor World.ixnReg 3 World.issA

def World.closing : List (Res (Msg × Msg)) :=
  [World.signed (World.ks [1]) World.icpA, World.signed (World.ks [1]) World.ixnA, World.coupled World.vcpA World.ixnA, World.signed (World.ks [1]) World.ixnReg,
    World.coupled World.revReg World.ixnReg]

def World.late : List (Res (Msg × Msg)) :=
  [World.signed (World.ks [1]) World.ixnLate, World.coupled World.issA World.ixnLate, World.proved (World.ks [1]) World.credA World.icpA]

/-- The type of an event that is kept. -/
def World.typeOf (t : Str) : Option Str :=
  match Serder.newWithRaw (fun _ => none) (toUtf8 t) with
  | .ok s => (match field (str% "t") s.ked with
    | some (.str x) => some x
    | _ => none)
  | _ => none

theorem World.typeOf_ok {t x : Str} (h : World.typeOf t = some x) : ∃ s, Serder.newWithRaw (fun _ => none) (toUtf8 t) = .ok s ∧ HasText (str% "t") x s := by
  unfold World.typeOf at h
  split at h
  · rename_i s hs
    split at h
    · rename_i y hy
      cases h
      exact ⟨s, hs, hy⟩
    · cases h
  · cases h

def World.closedCase : Res (List Msg × List Msg × Str) := do
  let l ← World.inRow World.closing
  let m ← World.inRow World.late
  let r ← World.vcpA
  let ri ← Serder.pre r
  .ok (l, m, ri)

def World.afterwards (x : List Msg × List Msg × Str) : Store × Res Unit := ingestLoop (World.env x.2.1) 5 (some false) none (World.kept x.1) x.2.1 []

/-- C120 is false: a controller revokes their registry; the verifier accepts the revocation and keeps it. Then the controller
issues a credential in the registry, and the verifier accepts the issuance and the credential. -/
theorem C120_false : ∃ (E : Env) (hist : List (Msg × Msg)) (st : Store) (ri vcp rev : Str) (a b : Sad) (msgs : List Msg), HashOk E.H ∧ CryptoOk E.C ∧ Remembers E ∧ Reach E hist st ∧
    st.tels ri = [vcp, rev] ∧ Serder.newWithRaw E.fl (toUtf8 vcp) = .ok a ∧ HasText (str% "t") (str% "vcp") a ∧
    Serder.newWithRaw E.fl (toUtf8 rev) = .ok b ∧ HasText (str% "t") (str% "rev") b ∧ st.acdcs = [] ∧
    ∃ st' cred c, ingestLoop E 5 (some false) none st msgs [] = (st', .ok ()) ∧ st'.acdcs = [cred] ∧ Creder.newWithRaw E.fl (toUtf8 cred) = .ok c ∧ HasText (str% "ri") ri c := by
  obtain ⟨x, hx, h⟩ := World.holds_ok (r := World.closedCase) (f := fun x =>
    (match (World.kept x.1).tels x.2.2 with
      | [a, b] => decide (World.typeOf a = some (str% "vcp")) && decide (World.typeOf b = some (str% "rev"))
      | _ => false) && decide ((World.kept x.1).acdcs = []) && (World.afterwards x).2.isOk &&
    (match (World.afterwards x).1.acdcs with
      | [c] => (match Creder.newWithRaw (fun _ => none) (toUtf8 c) with
        | .ok c => (match field (str% "ri") c.ked with
          | some (.str r) => decide (r = x.2.2)
          | _ => false)
        | _ => false)
      | _ => false)) (by decide +kernel)
  simp only [Bool.and_eq_true, decide_eq_true_eq] at h
  obtain ⟨⟨⟨h1, h2⟩, h3⟩, h4⟩ := h
  split at h1
  · rename_i a b hab
    simp only [Bool.and_eq_true, decide_eq_true_eq] at h1
    obtain ⟨sa, a1, a2⟩ := World.typeOf_ok h1.1
    obtain ⟨sb, b1, b2⟩ := World.typeOf_ok h1.2
    split at h4
    · rename_i cred hcred
      split at h4
      · rename_i c hc
        split at h4
        · rename_i r hr
          cases of_decide_eq_true h4
          have hr' : Reach (World.env x.2.1) ([] ++ pairs x.1) (World.kept x.1) := by
            have := Reach.ingest (E := World.env x.2.1) (World.env x.1) 5 x.1.length [] x.1 (some false) none .empty (World.env_same _ _) (World.env_remembers _) rfl (by simp)
            rwa [List.take_length] at this
          refine ⟨World.env x.2.1, _, World.kept x.1, x.2.2, a, b, sa, sb, x.2.1, World.hash_ok, World.crypto_ok, World.env_remembers _, hr', hab, a1, a2, b1, b2, h2,
            (World.afterwards x).1, cred, c, ?_, hcred, hc, hr⟩
          change World.afterwards x = _
          refine Prod.ext rfl ?_
          cases hw : (World.afterwards x).2 with
          | ok u => rfl
          | err e => rw [hw] at h3; cases h3
          | panic => rw [hw] at h3; cases h3
        · cases h4
      · cases h4
    · cases h4
  · cases h1

/-- The hypotheses of C120_no_effect_false are met by the store of C120_false and whatever is inserted into it. -/
example : ∃ (E : Env) (hist : List (Msg × Msg)) (st : Store) (ri : Str), Reach E hist st ∧ (st.tels ri).length = 2 ∧ ∀ text, AlikeBut ri st (st.insertTransactionEvent ri text) := by
  obtain ⟨E, hist, st, ri, vcp, rev, -, -, -, -, -, -, hr, ht, -⟩ := C120_false
  exact ⟨E, hist, st, ri, hr, by rw [ht]; rfl, insert_alike (by rw [ht]; simp)⟩

/-- The hypotheses of C120_partial are met: the credential of the examples has been revoked. -/
example : ∃ (E : Env) (st : Store) (c e : Sad) (said text : Str), Sadder.said E.chk c = .ok said ∧ (st.tels said).getLast? = some text ∧
    Serder.newWithRaw E.fl (toUtf8 text) = .ok e ∧ HasText (str% "t") (str% "rev") e := by
  obtain ⟨x, hx, h⟩ := World.holds_ok (r := do
    let l ← World.inRow World.revoked
    let c ← World.credA
    .ok (l, c)) (f := fun x : List Msg × Sad => World.holds (Sadder.said true x.2) fun q =>
      match ((World.kept x.1).tels q).getLast? with
      | some t => decide (World.typeOf t = some (str% "rev"))
      | none => false) (by decide +kernel)
  obtain ⟨q, hq, h⟩ := World.holds_ok h
  split at h
  · rename_i t ht
    obtain ⟨s, h1, h2⟩ := World.typeOf_ok (of_decide_eq_true h)
    exact ⟨World.env [], World.kept x.1, x.2, s, q, t, hq, ht, h1, h2⟩
  · cases h

end Keride.Props
