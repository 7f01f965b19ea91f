/-
Lemmas about `verify_transaction_event`, `verify_acdc` and `ingest_messages`: what is in the set `verifying`, and what
is known of an inserted text.
-/
import Verif.Lemmas.Kel

namespace Keride.Sample

open Matter Spec

/-! ## Stored documents -/

/-- A document with the SAID is stored. -/
inductive Holds (E : Env) (st : Store) (q : Str) : Prop
  | key (pre t : Str) (s : Sad) (mem : t ∈ st.kels pre) (read : Serder.newWithRaw E.fl (toUtf8 t) = .ok s) (said : Sadder.said E.chk s = .ok q)
  | tx (pre t : Str) (s : Sad) (mem : t ∈ st.tels pre) (read : Serder.newWithRaw E.fl (toUtf8 t) = .ok s) (said : Sadder.said E.chk s = .ok q)
  | cred (t : Str) (s : Sad) (mem : t ∈ st.acdcs) (read : Creder.newWithRaw E.fl (toUtf8 t) = .ok s) (said : Sadder.said E.chk s = .ok q)

theorem Holds.seen {E : Env} (hR : Remembers E) {st : Store} {q : Str} (h : Holds E st q) : E.seen st q = true := by
  cases h with
  | key pre t s m r d => exact hR.keyEvents st pre t s q m r d
  | tx pre t s m r d => exact hR.transactions st pre t s q m r d
  | cred t s m r d => exact hR.credentials st t s q m r d

/-- New elements of the set are SAIDs of stored documents. -/
def Grows (E : Env) (st : Store) (v v' : List Str) : Prop := ∀ q ∈ v', q ∈ v ∨ Holds E st q

theorem Grows.refl {E : Env} {st : Store} {v : List Str} : Grows E st v v := fun _ h => .inl h

theorem Grows.trans {E : Env} {st : Store} {a b c : List Str} (h1 : Grows E st a b) (h2 : Grows E st b c) : Grows E st a c := by
  intro q hq
  rcases h2 q hq with h | h
  · exact h1 q h
  · exact .inr h

theorem Grows.cons {E : Env} {st : Store} {a b : List Str} {q : Str} (hq : Holds E st q) (h : Grows E st (q :: a) b) : Grows E st a b := by
  intro x hx
  rcases h x hx with h | h
  · rcases List.mem_cons.mp h with rfl | h
    · exact .inr hq
    · exact .inl h
  · exact .inr h

/-! ## `verify_key_event` -/

theorem getKeyEvent_mem {st : Store} {pre : Str} {n : Nat} {t : Str} (h : st.getKeyEvent pre n = .ok t) : t ∈ st.kels pre :=
  List.mem_of_getElem? (Res.ofOption_eq_ok.mp h)

theorem getTransactionEvent_mem {st : Store} {pre : Str} {n : Nat} {t : Str} (h : st.getTransactionEvent pre n = .ok t) : t ∈ st.tels pre :=
  List.mem_of_getElem? (Res.ofOption_eq_ok.mp h)

theorem checkPrior_ok {E : Env} {st : Store} {s : Sad} {pre : Str} {sn : Nat} {ks : List M} {r : List (Nat × Nat)} {x : Str × Sad}
    (h : checkPrior E st s pre sn ks r = .ok x) : x.1 ∈ st.kels pre ∧ Serder.newWithRaw E.fl (toUtf8 x.1) = .ok x.2 := by
  unfold checkPrior at h
  obtain ⟨i, hi, h⟩ := Res.bind_eq_ok.mp h
  obtain ⟨event, hev, h⟩ := Res.bind_eq_ok.mp h
  obtain ⟨ps, hps, h⟩ := Res.bind_eq_ok.mp h
  obtain ⟨_, -, h⟩ := Res.bind_eq_ok.mp h
  obtain ⟨_, -, h⟩ := Res.bind_eq_ok.mp h
  obtain ⟨_, -, h⟩ := Res.bind_eq_ok.mp h
  split at h
  · cases h
  obtain ⟨est, -, h⟩ := Res.bind_eq_ok.mp h
  have hx : x = (event, ps) := by
    split at h
    · obtain ⟨_, -, h⟩ := Res.bind_eq_ok.mp h
      obtain ⟨_, -, h⟩ := Res.bind_eq_ok.mp h
      obtain ⟨_, -, h⟩ := Res.bind_eq_ok.mp h
      obtain ⟨good, -, h⟩ := Res.bind_eq_ok.mp h
      split at h
      · cases h
      · exact (Res.ok.inj h).symm
    · exact (Res.ok.inj h).symm
  subst hx
  exact ⟨getKeyEvent_mem hev, hps⟩

theorem checkKeyEvent_ok {E : Env} {st : Store} {s : Sad} {l : List SigGroup} {c : Checked} (h : checkKeyEvent E st s l = .ok c) :
    Serder.pre s = .ok c.pre ∧ Serder.sn s = .ok c.sn ∧ Sadder.said E.chk s = .ok c.said ∧
      ∀ x, c.prior = some x → x.1 ∈ st.kels c.pre ∧ Serder.newWithRaw E.fl (toUtf8 x.1) = .ok x.2 := by
  unfold checkKeyEvent at h
  obtain ⟨pre, hpre, h⟩ := Res.bind_eq_ok.mp h
  obtain ⟨_, -, h⟩ := Res.bind_eq_ok.mp h
  obtain ⟨sn, hsn, h⟩ := Res.bind_eq_ok.mp h
  obtain ⟨_, -, h⟩ := Res.bind_eq_ok.mp h
  obtain ⟨ilk, hilk, h⟩ := Res.bind_eq_ok.mp h
  obtain ⟨said, hsaid, h⟩ := Res.bind_eq_ok.mp h
  obtain ⟨_, -, h⟩ := Res.bind_eq_ok.mp h
  obtain ⟨_, -, h⟩ := Res.bind_eq_ok.mp h
  obtain ⟨_, -, h⟩ := Res.bind_eq_ok.mp h
  obtain ⟨_, -, h⟩ := Res.bind_eq_ok.mp h
  split at h
  · cases h
  obtain ⟨_, -, h⟩ := Res.bind_eq_ok.mp h
  obtain ⟨_, -, h⟩ := Res.bind_eq_ok.mp h
  split at h
  · cases h
  split at h
  · cases h
    exact ⟨hpre, hsn, hsaid, fun x hx => by cases hx⟩
  · obtain ⟨p, hp, h⟩ := Res.bind_eq_ok.mp h
    cases h
    refine ⟨hpre, hsn, hsaid, fun x hx => ?_⟩
    cases hx
    exact checkPrior_ok hp

theorem confirm_ok {E : Env} {st : Store} {c : Checked} {u : Unit} (h : confirm E st c = .ok u) (hc : c.existing = true) : Holds E st c.said := by
  unfold confirm at h
  rw [if_pos hc] at h
  obtain ⟨event, hev, h⟩ := Res.bind_eq_ok.mp h
  obtain ⟨s, hs, h⟩ := Res.bind_eq_ok.mp h
  obtain ⟨q, hq, h⟩ := Res.bind_eq_ok.mp h
  split at h
  · cases h
  rename_i hne
  rw [not_not.mp hne]
  exact .key _ _ _ (getKeyEvent_mem hev) hs hq

theorem verifyKeyEvent_ok {E : Env} {st : Store} {deep : Option Bool} {fuel : Nat} {s : Sad} {l : List SigGroup} {v : List Str} {r : Bool × List Str}
    (h : verifyKeyEvent E st deep fuel s l v = .ok r) :
    (∃ c, checkKeyEvent E st s l = .ok c ∧ c.existing = r.1 ∧ (r.1 = true → Holds E st c.said)) ∧ Grows E st v r.2 := by
  induction fuel generalizing s l v r with
  | zero => cases h
  | succ fuel ih =>
    unfold verifyKeyEvent at h
    obtain ⟨c, hc, h⟩ := Res.bind_eq_ok.mp h
    obtain ⟨w, hw, h⟩ := Res.bind_eq_ok.mp h
    obtain ⟨u, hu, h⟩ := Res.bind_eq_ok.mp h
    cases h
    refine ⟨⟨c, hc, rfl, fun h => confirm_ok hu h⟩, ?_⟩
    obtain ⟨-, -, -, hprior⟩ := checkKeyEvent_ok hc
    cases hp : c.prior with
    | none =>
      rw [hp] at hw
      cases hw
      exact .refl
    | some x =>
      obtain ⟨event, p⟩ := x
      rw [hp] at hw
      dsimp only at hw
      obtain ⟨p1, p2⟩ := hprior _ hp
      split at hw
      · obtain ⟨q, hq, hw⟩ := Res.bind_eq_ok.mp hw
        split at hw
        · cases hw
          exact .refl
        · obtain ⟨g, hg, hw⟩ := Res.bind_eq_ok.mp hw
          obtain ⟨r, hr, hw⟩ := Res.bind_eq_ok.mp hw
          cases hw
          exact (ih hr).2.cons (.key _ _ _ p1 p2 hq)
      · cases hw
        exact .refl

/-! ## `verify_anchor`, `verify_transaction_event` -/

theorem verifyAnchor_grows {E : Env} {st : Store} {deep : Option Bool} {fuel : Nat} {ap : Str} {n d : M} {s : Sad} {v : List Str} {r : Bool × List Str}
    (h : verifyAnchor E st deep fuel ap n d s v = .ok r) : Grows E st v r.2 := by
  unfold verifyAnchor at h
  obtain ⟨k, hk, h⟩ := Res.bind_eq_ok.mp h
  obtain ⟨event, hev, h⟩ := Res.bind_eq_ok.mp h
  obtain ⟨a, ha, h⟩ := Res.bind_eq_ok.mp h
  obtain ⟨q, hq, h⟩ := Res.bind_eq_ok.mp h
  obtain ⟨t, ht, h⟩ := Res.bind_eq_ok.mp h
  split at h
  · cases h; exact .refl
  obtain ⟨sl, hsl, h⟩ := Res.bind_eq_ok.mp h
  cases sl with
  | none => cases h; exact .refl
  | some x =>
    obtain ⟨spre, ssn, sdig⟩ := x
    dsimp only at h
    obtain ⟨w, hw, h⟩ := Res.bind_eq_ok.mp h
    have hg : Grows E st v w := by
      split at hw
      · split at hw
        · cases hw; exact .refl
        · obtain ⟨g, hg, hw⟩ := Res.bind_eq_ok.mp hw
          obtain ⟨z, hz, hw⟩ := Res.bind_eq_ok.mp hw
          cases hw
          exact (verifyKeyEvent_ok hz).2.cons (.key _ _ _ (getKeyEvent_mem hev) ha hq)
      · cases hw; exact .refl
    obtain ⟨_, -, h⟩ := Res.bind_eq_ok.mp h
    obtain ⟨_, -, h⟩ := Res.bind_eq_ok.mp h
    split at h
    · cases h; exact hg
    obtain ⟨_, -, h⟩ := Res.bind_eq_ok.mp h
    split at h
    · cases h; exact hg
    obtain ⟨_, -, h⟩ := Res.bind_eq_ok.mp h
    cases h
    exact hg

theorem verifyTransactionEvent_ok {E : Env} {st : Store} {deep : Option Bool} {fuel : Nat} {s : Sad} {l : List (M × M)} {v : List Str}
    {r : Bool × List Str} (h : verifyTransactionEvent E st deep fuel s l v = .ok r) :
    (r.1 = true → ∃ q, Sadder.said E.chk s = .ok q ∧ Holds E st q) ∧ Grows E st v r.2 := by
  induction fuel generalizing s l v r with
  | zero => cases h
  | succ fuel ih =>
    unfold verifyTransactionEvent at h
    obtain ⟨pre, hpre, h⟩ := Res.bind_eq_ok.mp h
    obtain ⟨_, -, h⟩ := Res.bind_eq_ok.mp h
    obtain ⟨sn, hsn, h⟩ := Res.bind_eq_ok.mp h
    obtain ⟨_, -, h⟩ := Res.bind_eq_ok.mp h
    obtain ⟨ilk, -, h⟩ := Res.bind_eq_ok.mp h
    obtain ⟨said, hsaid, h⟩ := Res.bind_eq_ok.mp h
    obtain ⟨ri, -, h⟩ := Res.bind_eq_ok.mp h
    split at h
    · cases h
    obtain ⟨source, -, h⟩ := Res.bind_eq_ok.mp h
    obtain ⟨_, -, h⟩ := Res.bind_eq_ok.mp h
    obtain ⟨has, -, h⟩ := Res.bind_eq_ok.mp h
    split at h
    · cases h
    obtain ⟨apre, -, h⟩ := Res.bind_eq_ok.mp h
    obtain ⟨a, ha, h⟩ := Res.bind_eq_ok.mp h
    have hga := verifyAnchor_grows ha
    split at h
    · cases h
    obtain ⟨w, hw, h⟩ := Res.bind_eq_ok.mp h
    have hg : Grows E st v w.2 := by
      split at hw
      · split at hw
        · cases hw
        · cases hw; exact hga
      split at hw
      · cases hw
      split at hw
      · cases hw
      obtain ⟨i, -, hw⟩ := Res.bind_eq_ok.mp hw
      obtain ⟨event, hev, hw⟩ := Res.bind_eq_ok.mp hw
      obtain ⟨p, hp, hw⟩ := Res.bind_eq_ok.mp hw
      obtain ⟨psaid, hps, hw⟩ := Res.bind_eq_ok.mp hw
      obtain ⟨z, hz, hw⟩ := Res.bind_eq_ok.mp hw
      have hgz : Grows E st a.2 z := by
        split at hz
        · split at hz
          · cases hz; exact .refl
          · obtain ⟨g, -, hz⟩ := Res.bind_eq_ok.mp hz
            obtain ⟨y, hy, hz⟩ := Res.bind_eq_ok.mp hz
            cases hz
            exact (ih hy).2.cons (.tx _ _ _ (getTransactionEvent_mem hev) hp hps)
        · cases hz; exact .refl
      obtain ⟨_, -, hw⟩ := Res.bind_eq_ok.mp hw
      obtain ⟨_, -, hw⟩ := Res.bind_eq_ok.mp hw
      split at hw
      · cases hw
      · cases hw; exact hga.trans hgz
    split at h
    · obtain ⟨event, hev, h⟩ := Res.bind_eq_ok.mp h
      obtain ⟨p, hp, h⟩ := Res.bind_eq_ok.mp h
      obtain ⟨q, hq, h⟩ := Res.bind_eq_ok.mp h
      split at h
      · cases h
      rename_i hne
      cases h
      exact ⟨fun _ => ⟨said, hsaid, .tx _ _ _ (getTransactionEvent_mem hev) hp (by rw [not_not.mp hne]; exact hq)⟩, hg⟩
    · rename_i hf
      cases h
      exact ⟨fun ht => absurd ht hf, hg⟩

/-! ## `verify_acdc` -/

theorem getAcdc_ok {E : Env} {st : Store} {said t : Str} (h : st.getAcdc E said = .ok t) : Holds E st said := by
  have h := Res.ofOption_eq_ok.mp h
  have hp := List.find?_some h
  have hm := List.mem_of_find?_eq_some h
  unfold hasSaid at hp
  split at hp
  · rename_i q hq
    obtain ⟨s, hs, hq⟩ := Res.bind_eq_ok.mp hq
    rw [of_decide_eq_true hp] at hq
    exact .cred t s hm hs hq
  · cases hp

theorem checkState_grows {E : Env} {st : Store} {deep : Option Bool} {fuel : Nat} {q : Str} {v w : List Str}
    (h : checkState E st deep fuel q v = .ok w) : Grows E st v w := by
  unfold checkState at h
  obtain ⟨event, hev, h⟩ := Res.bind_eq_ok.mp h
  obtain ⟨s, hs, h⟩ := Res.bind_eq_ok.mp h
  obtain ⟨_, -, h⟩ := Res.bind_eq_ok.mp h
  obtain ⟨_, -, h⟩ := Res.bind_eq_ok.mp h
  obtain ⟨_, -, h⟩ := Res.bind_eq_ok.mp h
  split at h
  · cases h
  obtain ⟨z, hz, h⟩ := Res.bind_eq_ok.mp h
  have hg : Grows E st v z := by
    split at hz
    · obtain ⟨d, hd, hz⟩ := Res.bind_eq_ok.mp hz
      split at hz
      · cases hz; exact .refl
      · obtain ⟨g, -, hz⟩ := Res.bind_eq_ok.mp hz
        obtain ⟨y, hy, hz⟩ := Res.bind_eq_ok.mp hz
        cases hz
        exact (verifyTransactionEvent_ok hy).2.cons (.tx _ _ _ (List.mem_of_getLast? (Res.ofOption_eq_ok.mp hev)) hs hd)
    · cases hz; exact .refl
  obtain ⟨_, -, h⟩ := Res.bind_eq_ok.mp h
  obtain ⟨_, -, h⟩ := Res.bind_eq_ok.mp h
  split at h
  · cases h
  · cases h; exact hg

theorem verifyPathSig_grows {E : Env} {st : Store} {deep : Option Bool} {fuel : Nat} {c : Sad} {g : SadPathSig} {v w : List Str}
    (h : verifyPathSig E st deep fuel c g v = .ok w) : Grows E st v w := by
  unfold verifyPathSig at h
  obtain ⟨_, -, h⟩ := Res.bind_eq_ok.mp h
  obtain ⟨_, -, h⟩ := Res.bind_eq_ok.mp h
  obtain ⟨event, hev, h⟩ := Res.bind_eq_ok.mp h
  obtain ⟨s, hs, h⟩ := Res.bind_eq_ok.mp h
  obtain ⟨d, hd, h⟩ := Res.bind_eq_ok.mp h
  obtain ⟨_, -, h⟩ := Res.bind_eq_ok.mp h
  split at h
  · cases h
  obtain ⟨z, hz, h⟩ := Res.bind_eq_ok.mp h
  have hg : Grows E st v z := by
    split at hz
    · split at hz
      · cases hz; exact .refl
      · obtain ⟨g, -, hz⟩ := Res.bind_eq_ok.mp hz
        obtain ⟨y, hy, hz⟩ := Res.bind_eq_ok.mp hz
        cases hz
        exact (verifyKeyEvent_ok hy).2.cons (.key _ _ _ (getKeyEvent_mem hev) hs hd)
    · cases hz; exact .refl
  obtain ⟨_, -, h⟩ := Res.bind_eq_ok.mp h
  obtain ⟨_, -, h⟩ := Res.bind_eq_ok.mp h
  obtain ⟨t, -, h⟩ := Res.bind_eq_ok.mp h
  cases t with
  | none => cases h
  | some t =>
    dsimp only at h
    obtain ⟨_, -, h⟩ := Res.bind_eq_ok.mp h
    split at h
    · cases h
    · cases h; exact hg

theorem verifyPathSigs_grows {E : Env} {st : Store} {deep : Option Bool} {fuel : Nat} {c : Sad} {l : List SadPathSig} {b : Bool} {v : List Str}
    {r : Bool × List Str} (h : verifyPathSigs E st deep fuel c l b v = .ok r) : Grows E st v r.2 := by
  induction l generalizing b v with
  | nil => cases h; exact .refl
  | cons g l ih =>
    unfold verifyPathSigs at h
    obtain ⟨x, -, h⟩ := Res.bind_eq_ok.mp h
    split at h
    · exact ih h
    · obtain ⟨w, hw, h⟩ := Res.bind_eq_ok.mp h
      exact (verifyPathSig_grows hw).trans (ih h)

theorem verifyProof_grows {E : Env} {st : Store} {deep : Option Bool} {fuel : Nat} {c : Sad} {l : List SigGroup} {b : Bool} {v : List Str}
    {r : Bool × List Str} (h : verifyProof E st deep fuel c l b v = .ok r) : Grows E st v r.2 := by
  induction l generalizing b v with
  | nil => cases h; exact .refl
  | cons g l ih =>
    cases g with
    | sadPath s =>
      unfold verifyProof at h
      obtain ⟨w, hw, h⟩ := Res.bind_eq_ok.mp h
      exact (verifyPathSigs_grows hw).trans (ih h)
    | controller s => cases h
    | other => cases h

theorem checkEdge_ok {E : Env} {st : Store} {c : Sad} {n : Value} {x : Str × Str × Sad} (h : checkEdge E st c n = .ok x) :
    st.getAcdc E x.1 = .ok x.2.1 ∧ Creder.newWithRaw E.fl (toUtf8 x.2.1) = .ok x.2.2 := by
  unfold checkEdge at h
  obtain ⟨_, -, h⟩ := Res.bind_eq_ok.mp h
  obtain ⟨_, -, h⟩ := Res.bind_eq_ok.mp h
  obtain ⟨said, -, h⟩ := Res.bind_eq_ok.mp h
  obtain ⟨m, hm, h⟩ := Res.bind_eq_ok.mp h
  obtain ⟨p, hp, h⟩ := Res.bind_eq_ok.mp h
  obtain ⟨_, -, h⟩ := Res.bind_eq_ok.mp h
  split at h
  · cases h
  obtain ⟨_, -, h⟩ := Res.bind_eq_ok.mp h
  split at h
  · cases h
  obtain ⟨_, -, h⟩ := Res.bind_eq_ok.mp h
  obtain ⟨_, -, h⟩ := Res.bind_eq_ok.mp h
  obtain ⟨_, -, h⟩ := Res.bind_eq_ok.mp h
  obtain ⟨_, -, h⟩ := Res.bind_eq_ok.mp h
  cases h
  exact ⟨hm, hp⟩

theorem verifyAcdc_ok {E : Env} {st : Store} {deep : Option Bool} (fuel : Nat) :
    (∀ (c : Sad) (l : List SigGroup) (v : List Str) (r : Bool × List Str), verifyAcdc E st deep fuel c l v = .ok r →
      (r.1 = true → ∃ q, Sadder.said E.chk c = .ok q ∧ Holds E st q) ∧ Grows E st v r.2) ∧
    (∀ (c : Sad) (ns : List (Res Value)) (v w : List Str), verifyEdges E st deep fuel c ns v = .ok w → Grows E st v w) := by
  induction fuel with
  | zero =>
    constructor
    · intro c l v r h; unfold verifyAcdc at h; cases h
    · intro c ns v w h; unfold verifyEdges at h; cases h
  | succ fuel ih =>
    obtain ⟨ih1, ih2⟩ := ih
    constructor
    · intro c l v r h
      unfold verifyAcdc at h
      obtain ⟨status, -, h⟩ := Res.bind_eq_ok.mp h
      split at h
      · cases h
      obtain ⟨vcid, hvcid, h⟩ := Res.bind_eq_ok.mp h
      obtain ⟨_, -, h⟩ := Res.bind_eq_ok.mp h
      obtain ⟨_, -, h⟩ := Res.bind_eq_ok.mp h
      obtain ⟨_, -, h⟩ := Res.bind_eq_ok.mp h
      obtain ⟨_, -, h⟩ := Res.bind_eq_ok.mp h
      split at h
      · cases h
      obtain ⟨w1, h1, h⟩ := Res.bind_eq_ok.mp h
      obtain ⟨_, -, h⟩ := Res.bind_eq_ok.mp h
      obtain ⟨_, -, h⟩ := Res.bind_eq_ok.mp h
      split at h
      · cases h
      obtain ⟨w2, h2, h⟩ := Res.bind_eq_ok.mp h
      split at h
      · cases h
      obtain ⟨_, -, h⟩ := Res.bind_eq_ok.mp h
      obtain ⟨w3, h3, h⟩ := Res.bind_eq_ok.mp h
      have hg := ((checkState_grows h1).trans (verifyProof_grows h2)).trans (ih2 _ _ _ _ h3)
      split at h
      · rename_i m hm
        obtain ⟨_, -, h⟩ := Res.bind_eq_ok.mp h
        obtain ⟨_, -, h⟩ := Res.bind_eq_ok.mp h
        split at h
        · cases h
        · cases h
          exact ⟨fun _ => ⟨vcid, hvcid, getAcdc_ok hm⟩, hg⟩
      · cases h
        exact ⟨fun ht => (by cases ht), hg⟩
    · intro c ns v w h
      cases ns with
      | nil => unfold verifyEdges at h; cases h; exact .refl
      | cons n ns =>
        unfold verifyEdges at h
        obtain ⟨node, -, h⟩ := Res.bind_eq_ok.mp h
        obtain ⟨x, hx, h⟩ := Res.bind_eq_ok.mp h
        obtain ⟨z, hz, h⟩ := Res.bind_eq_ok.mp h
        have hg : Grows E st v z := by
          split at hz
          · split at hz
            · cases hz; exact .refl
            · obtain ⟨g, -, hz⟩ := Res.bind_eq_ok.mp hz
              obtain ⟨y, hy, hz⟩ := Res.bind_eq_ok.mp hz
              cases hz
              exact (ih1 _ _ _ _ hy).2.cons (getAcdc_ok (checkEdge_ok hx).1)
          · cases hz; exact .refl
        exact hg.trans (ih2 _ _ _ _ h)

/-! ## The loop -/

/-- What is known when a text is about to be inserted. -/
inductive Fresh (E : Env) (st : Store) (fuel : Nat) (deep : Option Bool) (v : List Str) : Msg → Msg → Action → List Str → Prop
  | key (payload t g : Str) (s : Sad) (l : List SigGroup) (q : Str) (c : Checked) (v' : List Str) (read : Serder.newWithRaw E.fl (toUtf8 payload) = .ok s)
      (raw : s.raw = toUtf8 t) (again : Serder.newWithRaw E.fl (toUtf8 (t ++ g)) = .ok s) (said : Sadder.said E.chk s = .ok q)
      (verified : checkKeyEvent E st s l = .ok c) (fresh : c.existing = false) (grows : Grows E st (q :: v) v') :
      Fresh E st fuel deep v (.payload payload) (.group (.quadlets l) (.ok g)) (.keyEvent c.pre (t ++ g)) v'
  | tx (payload t g pre : Str) (s : Sad) (l : List (M × M)) (q : Str) (v' : List Str) (read : Serder.newWithRaw E.fl (toUtf8 payload) = .ok s)
      (raw : s.raw = toUtf8 t) (again : Serder.newWithRaw E.fl (toUtf8 (t ++ g)) = .ok s) (said : Sadder.said E.chk s = .ok q)
      (ident : Serder.pre s = .ok pre) (verified : verifyTransactionEvent E st deep fuel s l (q :: v) = .ok (false, v')) :
      Fresh E st fuel deep v (.payload payload) (.group (.couples l) (.ok g)) (.transactionEvent pre (t ++ g)) v'
  | cred (payload t g : Str) (s : Sad) (l : List SigGroup) (q : Str) (v' : List Str) (read : Creder.newWithRaw E.fl (toUtf8 payload) = .ok s)
      (raw : s.raw = toUtf8 t) (again : Creder.newWithRaw E.fl (toUtf8 (t ++ g)) = .ok s) (said : Sadder.said E.chk s = .ok q)
      (verified : verifyAcdc E st deep fuel s l (q :: v) = .ok (false, v')) :
      Fresh E st fuel deep v (.payload payload) (.group (.quadlets l) (.ok g)) (.acdc (t ++ g)) v'
  | nothing (m g : Msg) (v' : List Str) (known : ∀ q ∈ v', q ∈ v ∨ Holds E st q) : Fresh E st fuel deep v m g .nothing v'

theorem verifyOrSeen_ok {E : Env} {st : Store} {verify : Option Bool} {q : Str} {v : List Str} {f : List Str → Res (Bool × List Str)} {r : Bool × List Str}
    (h : verifyOrSeen E st verify q v f = .ok r) (hv : verify ≠ some false) (hR : Remembers E) (hh : ∀ q ∈ v, Holds E st q) :
    f (q :: v) = .ok r ∨ r = (true, v) := by
  unfold verifyOrSeen at h
  have hg : verify.getD true = true := by
    cases verify with
    | none => rfl
    | some b => cases b with
      | true => rfl
      | false => exact absurd rfl hv
  rw [hg, Bool.true_and] at h
  split at h
  · exact .inl h
  · rename_i hc
    cases h
    have : q ∈ v := by simpa using hc
    rw [(hh q this).seen hR]
    exact .inr rfl

theorem cesrGroup_ok {m : Msg} {x : Group × Res Str} (h : m.cesrGroup = .ok x) : m = .group x.1 x.2 := by
  cases m with
  | payload t => cases h
  | group g t => cases h; rfl

theorem storedText_ok {raw : Bytes} {g : Res Str} {text : Str} (h : storedText raw g = .ok text) :
    ∃ t g', raw = toUtf8 t ∧ g = .ok g' ∧ text = t ++ g' := by
  unfold storedText at h
  obtain ⟨t, ht, h⟩ := Res.bind_eq_ok.mp h
  obtain ⟨g', hg, h⟩ := Res.bind_eq_ok.mp h
  cases h
  exact ⟨t, g', fromUtf8_ok ht, hg, rfl⟩

theorem again_key {fl : Str → Option Str} {raw : Bytes} {s : Sad} {t : Str} (h : Serder.newWithRaw fl raw = .ok s) (ht : s.raw = toUtf8 t) (g : Str) :
    Serder.newWithRaw fl (toUtf8 (t ++ g)) = .ok s := by
  obtain ⟨t', e1, -, -, e2⟩ := serder_again h g
  rw [toUtf8_inj (ht.symm.trans e1)]
  exact e2

theorem again_cred {fl : Str → Option Str} {raw : Bytes} {s : Sad} {t : Str} (h : Creder.newWithRaw fl raw = .ok s) (ht : s.raw = toUtf8 t) (g : Str) :
    Creder.newWithRaw fl (toUtf8 (t ++ g)) = .ok s := by
  obtain ⟨t', e1, -, -, e2⟩ := creder_again h g
  rw [toUtf8_inj (ht.symm.trans e1)]
  exact e2

theorem key_branch {E : Env} (hR : Remembers E) {st : Store} {fuel : Nat} {deep verify : Option Bool} (hv : verify ≠ some false) {p : Str} {gt : Res Str}
    {l : List SigGroup} {s : Sad} {q : Str} {v v' : List Str} {a : Action} (hh : ∀ q ∈ v, Holds E st q) (hs : Serder.newWithRaw E.fl (toUtf8 p) = .ok s)
    (hq : Sadder.said E.chk s = .ok q)
    (h : (do
        let r ← verifyOrSeen E st verify q v (verifyKeyEvent E st deep fuel s l)
        if r.1 then .ok (.nothing, r.2)
        else do
          let pre ← Serder.pre s
          let text ← storedText s.raw gt
          .ok (.keyEvent pre text, r.2) : Res (Action × List Str)) = .ok (a, v')) :
    Fresh E st fuel deep v (.payload p) (.group (.quadlets l) gt) a v' := by
  rw [Res.bind_eq_ok] at h
  obtain ⟨r, hr, h⟩ := h
  rcases verifyOrSeen_ok hr hv hR hh with h1 | h1
  · obtain ⟨⟨c, c1, c2, c3⟩, c4⟩ := verifyKeyEvent_ok h1
    obtain ⟨d1, d2, d3, -⟩ := checkKeyEvent_ok c1
    split at h
    · rename_i ht
      cases h
      rw [hq] at d3
      cases d3
      exact .nothing _ _ _ (c4.cons (c3 ht))
    · rename_i hf
      rw [d1, Res.ok_bind, Res.bind_eq_ok] at h
      obtain ⟨text, ht, h⟩ := h
      cases h
      obtain ⟨t, g', e1, rfl, rfl⟩ := storedText_ok ht
      exact .key p t g' s l q c _ hs e1 (again_key hs e1 g') hq c1 (c2.trans (by simpa using hf)) c4
  · subst h1
    rw [if_pos rfl] at h
    cases h
    exact .nothing _ _ _ Grows.refl

theorem tx_branch {E : Env} (hR : Remembers E) {st : Store} {fuel : Nat} {deep verify : Option Bool} (hv : verify ≠ some false) {p : Str} {gt : Res Str}
    {l : List (M × M)} {s : Sad} {q : Str} {v v' : List Str} {a : Action} (hh : ∀ q ∈ v, Holds E st q) (hs : Serder.newWithRaw E.fl (toUtf8 p) = .ok s)
    (hq : Sadder.said E.chk s = .ok q)
    (h : (do
        let r ← verifyOrSeen E st verify q v (verifyTransactionEvent E st deep fuel s l)
        if r.1 then .ok (.nothing, r.2)
        else do
          let pre ← Serder.pre s
          let text ← storedText s.raw gt
          .ok (.transactionEvent pre text, r.2) : Res (Action × List Str)) = .ok (a, v')) :
    Fresh E st fuel deep v (.payload p) (.group (.couples l) gt) a v' := by
  rw [Res.bind_eq_ok] at h
  obtain ⟨r, hr, h⟩ := h
  rcases verifyOrSeen_ok hr hv hR hh with h1 | h1
  · obtain ⟨c3, c4⟩ := verifyTransactionEvent_ok h1
    split at h
    · rename_i ht
      cases h
      obtain ⟨d, d1, d2⟩ := c3 ht
      rw [hq] at d1
      cases d1
      exact .nothing _ _ _ (c4.cons d2)
    · rename_i hf
      rw [Res.bind_eq_ok] at h
      obtain ⟨pre, hpre, h⟩ := h
      rw [Res.bind_eq_ok] at h
      obtain ⟨text, ht, h⟩ := h
      cases h
      obtain ⟨t, g', e1, rfl, rfl⟩ := storedText_ok ht
      obtain ⟨r1, r2⟩ := r
      have hf : r1 = false := by simpa using hf
      subst hf
      exact .tx p t g' pre s l q _ hs e1 (again_key hs e1 g') hq hpre h1
  · subst h1
    rw [if_pos rfl] at h
    cases h
    exact .nothing _ _ _ Grows.refl

theorem cred_branch {E : Env} (hR : Remembers E) {st : Store} {fuel : Nat} {deep verify : Option Bool} (hv : verify ≠ some false) {p : Str} {gt : Res Str}
    {l : List SigGroup} {s : Sad} {q : Str} {v v' : List Str} {a : Action} (hh : ∀ q ∈ v, Holds E st q) (hs : Creder.newWithRaw E.fl (toUtf8 p) = .ok s)
    (hq : Sadder.said E.chk s = .ok q)
    (h : (do
        let r ← verifyOrSeen E st verify q v (verifyAcdc E st deep fuel s l)
        if r.1 then .ok (.nothing, r.2)
        else do
          let text ← storedText s.raw gt
          .ok (.acdc text, r.2) : Res (Action × List Str)) = .ok (a, v')) :
    Fresh E st fuel deep v (.payload p) (.group (.quadlets l) gt) a v' := by
  rw [Res.bind_eq_ok] at h
  obtain ⟨r, hr, h⟩ := h
  rcases verifyOrSeen_ok hr hv hR hh with h1 | h1
  · obtain ⟨c3, c4⟩ := (verifyAcdc_ok fuel).1 _ _ _ _ h1
    split at h
    · rename_i ht
      cases h
      obtain ⟨d, d1, d2⟩ := c3 ht
      rw [hq] at d1
      cases d1
      exact .nothing _ _ _ (c4.cons d2)
    · rename_i hf
      rw [Res.bind_eq_ok] at h
      obtain ⟨text, ht, h⟩ := h
      cases h
      obtain ⟨t, g', e1, rfl, rfl⟩ := storedText_ok ht
      obtain ⟨r1, r2⟩ := r
      have hf : r1 = false := by simpa using hf
      subst hf
      exact .cred p t g' s l q _ hs e1 (again_cred hs e1 g') hq h1
  · subst h1
    rw [if_pos rfl] at h
    cases h
    exact .nothing _ _ _ Grows.refl

theorem ingestOne_fresh {E : Env} (hR : Remembers E) {st : Store} {fuel : Nat} {deep verify : Option Bool} (hv : verify ≠ some false) {m g : Msg}
    {v v' : List Str} {a : Action} (hh : ∀ q ∈ v, Holds E st q) (h : ingestOne E st fuel deep verify m (some g) v = .ok (a, v')) :
    Fresh E st fuel deep v m g a v' := by
  cases m with
  | group _ _ => cases h
  | payload p =>
  unfold ingestOne at h
  rw [show (Msg.payload p).payloadText = .ok p from rfl, Res.ok_bind] at h
  dsimp only at h
  rw [Res.bind_eq_ok] at h
  obtain ⟨info, -, h⟩ := h
  split at h
  · unfold ingestSerder at h
    rw [Res.bind_eq_ok] at h
    obtain ⟨s, hs, h⟩ := h
    rw [Res.bind_eq_ok] at h
    obtain ⟨q, hq, h⟩ := h
    dsimp only at h
    rw [Res.bind_eq_ok] at h
    obtain ⟨⟨gr, gt⟩, hgr, h⟩ := h
    rw [Res.bind_eq_ok] at h
    obtain ⟨_, -, h⟩ := h
    rw [Res.bind_eq_ok] at h
    obtain ⟨ilk, -, h⟩ := h
    obtain rfl := cesrGroup_ok hgr
    dsimp only at h
    split at h
    · cases gr with
      | quadlets l => exact key_branch hR hv hh hs hq h
      | couples l => cases h
      | other => cases h
    · split at h
      · cases gr with
        | quadlets l => cases h
        | couples l => exact tx_branch hR hv hh hs hq h
        | other => cases h
      · cases h
  · split at h
    · unfold ingestCreder at h
      rw [Res.bind_eq_ok] at h
      obtain ⟨s, hs, h⟩ := h
      rw [Res.bind_eq_ok] at h
      obtain ⟨q, hq, h⟩ := h
      dsimp only at h
      rw [Res.bind_eq_ok] at h
      obtain ⟨⟨gr, gt⟩, hgr, h⟩ := h
      obtain rfl := cesrGroup_ok hgr
      dsimp only at h
      cases gr with
      | quadlets l => exact cred_branch hR hv hh hs hq h
      | couples l => cases h
      | other => cases h
    · cases h

/-! ## The invariant of the loop -/

theorem Holds.mono {E : Env} {st st' : Store} (hk : ∀ p, ∀ t ∈ st.kels p, t ∈ st'.kels p) (ht : ∀ p, ∀ t ∈ st.tels p, t ∈ st'.tels p)
    (ha : ∀ t ∈ st.acdcs, t ∈ st'.acdcs) {q : Str} (h : Holds E st q) : Holds E st' q := by
  cases h with
  | key pre t s m r d => exact .key pre t s (hk _ _ m) r d
  | tx pre t s m r d => exact .tx pre t s (ht _ _ m) r d
  | cred t s m r d => exact .cred t s (ha _ m) r d

theorem mem_append {logs : Str → List Str} {pre text : Str} (p : Str) : ∀ t ∈ logs p, t ∈ append logs pre text p := by
  intro t ht
  unfold append
  split
  · exact List.mem_append_left _ ht
  · exact ht

theorem mem_append_self {logs : Str → List Str} {pre text : Str} : text ∈ append logs pre text pre := by
  unfold append
  rw [if_pos rfl]
  exact List.mem_append_right _ (List.mem_singleton.mpr rfl)

theorem tryInsert_ok {E : Env} {st st' st'' : Store} {text : Str} (h : tryInsert E st text st' = (st'', .ok ())) : st'' = st' := by
  unfold tryInsert at h
  split at h
  · cases h
  · cases h; rfl

/-- After a message, everything in the set is stored. -/
theorem fresh_known {E : Env} {st st' : Store} {fuel : Nat} {deep : Option Bool} {m g : Msg} {v v' : List Str} {a : Action}
    (hh : ∀ q ∈ v, Holds E st q) (h : Fresh E st fuel deep v m g a v') (hp : perform E st a = (st', .ok ())) : ∀ q ∈ v', Holds E st' q := by
  have close : ∀ {q}, Grows E st (q :: v) v' → (∀ x, Holds E st x → Holds E st' x) → Holds E st' q → ∀ q ∈ v', Holds E st' q := by
    intro q hg hm hq x hx
    rcases hg x hx with h | h
    · rcases List.mem_cons.mp h with rfl | h
      · exact hq
      · exact hm _ (hh x h)
    · exact hm _ h
  cases h with
  | key payload t g s l q c v' read raw again said verified fresh grows =>
    obtain rfl := tryInsert_ok hp
    exact close grows (fun x hx => Holds.mono (st := st) (st' := st.insertKeyEvent c.pre (t ++ g)) (fun p => mem_append p) (fun _ _ h => h) (fun _ h => h) hx) (.key c.pre _ s mem_append_self again said)
  | tx payload t g pre s l q v' read raw again said ident verified =>
    obtain rfl := tryInsert_ok hp
    exact close (verifyTransactionEvent_ok verified).2 (fun x hx => Holds.mono (st := st) (st' := st.insertTransactionEvent pre (t ++ g)) (fun _ _ h => h) (fun p => mem_append p) (fun _ h => h) hx)
      (.tx pre _ s mem_append_self again said)
  | cred payload t g s l q v' read raw again said verified =>
    obtain rfl := tryInsert_ok hp
    exact close ((verifyAcdc_ok fuel).1 _ _ _ _ verified).2 (fun x hx => Holds.mono (st := st) (st' := st.insertAcdc (t ++ g)) (fun _ _ h => h) (fun _ _ h => h) (fun _ h => List.mem_append_left _ h) hx)
      (.cred _ s (List.mem_append_right _ (List.mem_singleton.mpr rfl)) again said)
  | nothing m g v' known =>
    cases hp
    intro q hq
    rcases known q hq with h | h
    · exact hh q h
    · exact h

theorem perform_kels {E : Env} {st st' : Store} {a : Action} {r : Res Unit} (h : perform E st a = (st', r)) :
    (st' = st) ∨ (∃ pre t, a = .keyEvent pre t ∧ st' = st.insertKeyEvent pre t) ∨ (∃ pre t, a = .transactionEvent pre t ∧ st' = st.insertTransactionEvent pre t) ∨
      (∃ t, a = .acdc t ∧ st' = st.insertAcdc t) := by
  unfold perform at h
  cases a with
  | nothing => cases h; exact .inl rfl
  | keyEvent pre t =>
    dsimp only at h
    unfold tryInsert at h
    split at h
    · cases h; exact .inl rfl
    · cases h; exact .inr (.inl ⟨pre, t, rfl, rfl⟩)
  | transactionEvent pre t =>
    dsimp only at h
    unfold tryInsert at h
    split at h
    · cases h; exact .inl rfl
    · cases h; exact .inr (.inr (.inl ⟨pre, t, rfl, rfl⟩))
  | acdc t =>
    dsimp only at h
    unfold tryInsert at h
    split at h
    · cases h; exact .inl rfl
    · cases h; exact .inr (.inr (.inr ⟨t, rfl, rfl⟩))

/-- A property of stores kept by every insertion of a checked message is kept by the loop. -/
theorem ingestLoop_induct {E : Env} (hR : Remembers E) {fuel : Nat} {deep verify : Option Bool} (hv : verify ≠ some false)
    (I : Store → Prop) (hist : List (Msg × Msg))
    (step : ∀ st m g v a v' st' r, I st → (∀ q ∈ v, Holds E st q) → (m, g) ∈ hist → Fresh E st fuel deep v m g a v' → perform E st a = (st', r) → I st')
    (st : Store) (msgs : List Msg) (v : List Str) (hst : I st) (hh : ∀ q ∈ v, Holds E st q) (hm : ∀ x ∈ pairs msgs, x ∈ hist) :
    I (ingestLoop E fuel deep verify st msgs v).1 := by
  induction msgs using pairs.induct generalizing st v with
  | case1 m g rest ih =>
    unfold ingestLoop
    cases h1 : ingestOne E st fuel deep verify m (some g) v with
    | err e => exact hst
    | panic => exact hst
    | ok x =>
      obtain ⟨a, v'⟩ := x
      have hf := ingestOne_fresh hR hv hh h1
      dsimp only
      cases h2 : perform E st a with
      | mk st' r =>
        have hI := step st m g v a v' st' r hst hh (hm _ (by simp [pairs])) hf h2
        cases r with
        | ok u => exact ih st' v' hI (fresh_known hh hf h2) (fun x hx => hm x (by simp [pairs, hx]))
        | err e => exact hI
        | panic => exact hI
  | case2 msgs hn =>
    match msgs, hn with
    | [], _ => unfold ingestLoop; exact hst
    | [m], _ =>
      unfold ingestLoop
      split <;> exact hst
    | m :: g :: rest, hn => exact absurd rfl (hn m g rest)

theorem pairs_take (msgs : List Msg) (n : Nat) : ∀ x ∈ pairs (msgs.take n), x ∈ pairs msgs := by
  induction msgs using pairs.induct generalizing n with
  | case1 m g rest ih =>
    intro x hx
    match n with
    | 0 => simp [pairs] at hx
    | 1 => simp [pairs] at hx
    | n + 2 =>
      simp only [List.take_succ_cons, pairs, List.mem_cons] at hx ⊢
      rcases hx with h | h
      · exact .inl h
      · exact .inr (ih n x h)
  | case2 msgs hn =>
    match msgs, hn with
    | [], _ => intro x hx; simp [pairs] at hx
    | [m], _ =>
      intro x hx
      cases n <;> simp [pairs] at hx
    | m :: g :: rest, hn => exact absurd rfl (hn m g rest)

end Keride.Sample
