/-
C61: a stream can be sent again, with every kind of message and any depth of verification; and when it cannot.
-/
import Verif.Lemmas.Replay
import Verif.Lemmas.Reader
import Verif.Lemmas.WorldAcdc
import Verif.Props.Resend

namespace Keride.Props

open Matter Spec Sample

theorem unrevoked_anti {E : Env} {st st' : Store} (he : Extends st st') (h : Unrevoked E st') : Unrevoked E st := fun t ht c q h1 h2 =>
  ((he.tels q).length_le).trans (h t (he.acdcs.subset ht) c q h1 h2)

theorem replay {E : Env} (hR : Remembers E) {fuel : Nat} {deep verify : Option Bool} (hv : verify ≠ some false) (stF : Store)
    (hlk : ∀ p, (stF.kels p).length ≤ 2 ^ 32) (hlt : ∀ p, (stF.tels p).length ≤ 2 ^ 32) (st : Store) (hst : Sited E st) (msgs : List Msg) (v : List Str)
    (hh : ∀ q ∈ v, Holds E st q)
    (h : ingestLoop E fuel deep verify st msgs v = (stF, .ok ())) (st' out : Store) (hu : Unrevoked E out ∨ EventsOnly msgs)
    (hs : (out = stF ∧ ∃ n, st' = (ingestLoop E fuel deep verify st (msgs.take n) v).1) ∨
      (out = st' ∧ Extends stF st' ∧ (∀ p, (st'.kels p).length ≤ 2 ^ 32) ∧ ∀ p, (st'.tels p).length ≤ 2 ^ 32)) :
    ingestLoop E fuel deep verify st' msgs v = (out, .ok ()) := by
  induction msgs using pairs.induct generalizing st v with
  | case1 m g rest ih =>
    have h' := h
    unfold ingestLoop at h
    split at h
    · cases h
    · cases h
    rename_i a v' he
    split at h
    · rename_i st1 hp
      have hfr := ingestOne_fresh hR hv hh he
      have hh1 := fresh_known hh hfr hp
      have hst1 := sited_step _ _ _ _ _ _ _ _ hst hfr hp
      have e0 : Extends st st1 := by
        have := perform_extends (E := E) (st := st) (a := a)
        rw [hp] at this
        exact this
      have e1 : Extends st1 stF := by
        have := ingestLoop_extends (E := E) (fuel := fuel) (deep := deep) (verify := verify) st1 rest v'
        rw [h] at this
        exact this
      cases m with
      | group x y => cases he
      | payload p =>
        have hu' : Unrevoked E out ∨ EventsOnly rest := hu.imp id fun hk p hp => hk p (by simp [hp])
        have step : ∀ st', Extends st1 st' → Extends st' out → (∀ p, (st'.kels p).length ≤ 2 ^ 32) → (∀ p, (st'.tels p).length ≤ 2 ^ 32) →
            ingestLoop E fuel deep verify st' (.payload p :: g :: rest) v = ingestLoop E fuel deep verify st' rest v' := by
          intro st' hx hy l1 l2
          have := ingestOne_replay hR (e0.trans hx) hst hv hh he l1 l2 (hu.imp (fun k => unrevoked_anti hy k) fun k => k p (by simp))
            (by rw [perform_done hp]; exact hx)
          rw [ingestLoop, this]
          rfl
        rcases hs with ⟨rfl, n, hn⟩ | ⟨rfl, hx, l1, l2⟩
        · match n with
          | 0 =>
            have : st' = st := by rw [hn]; simp [ingestLoop]
            rw [this]
            exact h'
          | 1 =>
            have : st' = st := by
              rw [hn]
              simp only [List.take_succ_cons, List.take_zero, ingestLoop]
              split <;> rfl
            rw [this]
            exact h'
          | n + 2 =>
            have hn' : st' = (ingestLoop E fuel deep verify st1 (rest.take n) v').1 := by
              rw [hn]
              simp only [List.take_succ_cons, ingestLoop, he, hp]
            have x1 : Extends st1 st' := hn' ▸ ingestLoop_extends st1 _ v'
            have x2 : Extends st' out := by
              have := ingestLoop_take (E := E) (fuel := fuel) (deep := deep) (verify := verify) st1 rest v' n
              rw [h, ← hn'] at this
              exact this
            rw [step st' x1 x2 (fun p => ((x2.kels p).length_le).trans (hlk p)) (fun p => ((x2.tels p).length_le).trans (hlt p))]
            exact ih st1 hst1 v' hh1 h hu' (.inl ⟨rfl, n, hn'⟩)
        · rw [step out (e1.trans hx) (.refl _) l1 l2]
          exact ih st1 hst1 v' hh1 h hu' (.inr ⟨rfl, hx, l1, l2⟩)
    · rename_i hne hp
      cases h
      exact absurd rfl hne
  | case2 msgs hn =>
    match msgs, hn with
    | [], _ =>
      simp only [List.take_nil, ingestLoop, Prod.mk.injEq, and_true] at h hs ⊢
      subst h
      rcases hs with ⟨rfl, -, rfl⟩ | ⟨rfl, -⟩ <;> rfl
    | [m], _ =>
      unfold ingestLoop at h
      split at h
      · rename_i x hx
        exact absurd hx ingestOne_none
      · cases h
      · cases h
    | m :: g :: rest, hn => exact absurd rfl (hn m g rest)

/-- C61: a verifier that was killed while it took in a stream, or whose store failed, is brought to the same state by
sending the whole stream again, when no credential is revoked in that state or the stream has none. Any messages, any
depth of verification; the verifier may have taken in any streams before. -/
theorem C61_recover_partial (E : Env) (hR : Remembers E) (hist : List (Msg × Msg)) (fuel : Nat) (deep verify : Option Bool) (hv : verify ≠ some false) (st st' : Store)
    (hst : Reach E hist st) (msgs : List Msg)
    (h : ingestLoop E fuel deep verify st msgs [] = (st', .ok ())) (hu : Unrevoked E st' ∨ EventsOnly msgs)
    (hlen : ∀ p, (st'.kels p).length ≤ 2 ^ 32 ∧ (st'.tels p).length ≤ 2 ^ 32) (n : Nat) :
    ingestLoop E fuel deep verify (ingestLoop E fuel deep verify st (msgs.take n) []).1 msgs [] = (st', .ok ()) :=
  replay hR hv st' (fun p => (hlen p).1) (fun p => (hlen p).2) st (reach_sited hst) msgs [] (by simp) h _ _ hu (.inl ⟨rfl, n, rfl⟩)

/-- C61: a stream that was accepted is accepted again at any later time, and changes nothing, when no credential has been
revoked by then or the stream has none. -/
theorem C61_again_partial (E : Env) (hR : Remembers E) (hist : List (Msg × Msg)) (fuel : Nat) (deep verify : Option Bool) (hv : verify ≠ some false) (st st' later : Store)
    (hst : Reach E hist st) (msgs : List Msg)
    (h : ingestLoop E fuel deep verify st msgs [] = (st', .ok ())) (hl : Extends st' later) (hu : Unrevoked E later ∨ EventsOnly msgs)
    (hlen : ∀ p, (later.kels p).length ≤ 2 ^ 32 ∧ (later.tels p).length ≤ 2 ^ 32) :
    ingestLoop E fuel deep verify later msgs [] = (later, .ok ()) :=
  replay hR hv st' (fun p => ((hl.kels p).length_le).trans (hlen p).1) (fun p => ((hl.tels p).length_le).trans (hlen p).2) st (reach_sited hst) msgs [] (by simp) h _ _ hu
    (.inr ⟨rfl, hl, fun p => (hlen p).1, fun p => (hlen p).2⟩)

/-! ## Streams with credentials -/

/-- The environment of the examples, with the reader of Spec/Reader. -/
def World.replays : Env := { World.env [] with parse := readStream true (fun _ => none) }

theorem World.replays_remembers : Remembers World.replays := ⟨fun _ _ _ _ _ _ _ _ => rfl, fun _ _ _ _ _ _ _ _ => rfl, fun _ _ _ _ _ _ _ => rfl⟩

/-- No stored credential has a second event in its log. -/
def World.unrevoked (st : Store) : Bool :=
  st.acdcs.all fun t =>
    match Creder.newWithRaw (fun _ => none) (toUtf8 t) >>= Sadder.said true with
    | .ok q => decide ((st.tels q).length ≤ 1)
    | _ => true

theorem World.unrevoked_ok {st : Store} (h : World.unrevoked st = true) : Unrevoked World.replays st := by
  intro t ht c q h1 h2
  have h := List.all_eq_true.mp h t ht
  have h1 : Creder.newWithRaw (fun _ => none) (toUtf8 t) = .ok c := h1
  have h2 : Sadder.said true c = .ok q := h2
  rw [h1, Res.ok_bind, h2] at h
  exact of_decide_eq_true h

/-- A verifier of the example world takes in messages. -/
def World.takesIn (deep : Option Bool) (st : Store) (l : List Msg) : Store × Res Unit := ingestLoop World.replays 30 deep none st l []

/-- Attachments as they are sent: with the count of their quadlets before them. -/
def World.framed (m : Res (Msg × Msg)) : Res (Msg × Msg) := do
  let m ← m
  match m.2 with
  | .group (.quadlets g) (.ok t) => do
    let c ← Messaging.counterText (str% "-V") (t.len / 4)
    .ok (m.1, .group (.quadlets g) (.ok (c ++ t)))
  | _ => .ok m

/-- Nine messages, two of them credentials, are taken in, whatever is verified again. -/
def World.replayCase : Bool :=
  match World.inRow (World.linked.map World.framed) with
  | .ok l => decide (l.length = 18) && [none, some false, some true].all fun deep =>
    (World.takesIn deep Store.empty l).2.isOk && decide ((World.takesIn deep Store.empty l).1.acdcs.length = 2) && World.unrevoked (World.takesIn deep Store.empty l).1
  | _ => false

theorem World.replayCase_ok : World.replayCase = true := by decide +kernel

/-- A stream with two credentials, one of which rests on the other, meets the hypotheses, whatever is verified again. -/
example : ∀ deep : Option Bool, ∃ msgs st', msgs.length = 18 ∧ Remembers World.replays ∧ Reach World.replays [] Store.empty ∧
    ingestLoop World.replays 30 deep none Store.empty msgs [] = (st', .ok ()) ∧ st'.acdcs.length = 2 ∧ Unrevoked World.replays st' ∧ Extends st' st' ∧
    ∀ p, (st'.kels p).length ≤ 2 ^ 32 ∧ (st'.tels p).length ≤ 2 ^ 32 := by
  intro deep
  have h := World.replayCase_ok
  unfold World.replayCase at h
  split at h
  · rename_i l hl
    rw [Bool.and_eq_true] at h
    obtain ⟨h1, h⟩ := h
    have h1 := of_decide_eq_true h1
    have h := List.all_eq_true.mp h deep (by rcases deep with _ | _ | _ <;> simp)
    simp only [Bool.and_eq_true, decide_eq_true_eq] at h
    obtain ⟨⟨h2, h3⟩, h4⟩ := h
    obtain ⟨u, hu⟩ := Res.isOk_iff.mp h2
    refine ⟨l, (World.takesIn deep Store.empty l).1, h1, World.replays_remembers, .empty, ?_, h3, World.unrevoked_ok h4, .refl _, ?_⟩
    · rw [← hu]
      rfl
    · intro p
      have := ingestLoop_length (E := World.replays) (fuel := 30) (deep := deep) (verify := none) Store.empty l [] p
      rw [h1] at this
      simp only [Store.empty, List.length_nil] at this
      exact ⟨this.1.trans (by norm_num), this.2.trans (by norm_num)⟩
  · cases h

/-- A credential that is accepted, and then revoked. -/
def World.withdrawn : List (Res (Msg × Msg)) := World.accepted ++ [World.signed (World.ks [1]) World.ixnA3, World.coupled World.revA World.ixnA3]

def World.withdrawnCase : Bool :=
  match World.inRow (World.withdrawn.map World.framed) with
  | .ok l => [none, some false, some true].all fun deep => (World.takesIn deep Store.empty l).2.isOk &&
    decide ((World.takesIn deep (World.takesIn deep Store.empty l).1 l).2 = .err .validation)
  | _ => false

theorem World.withdrawnCase_ok : World.withdrawnCase = true := by decide +kernel

/-- C61, false of the code: a stream with a credential and, later in it, the revocation of this credential is accepted. A
verifier that was killed after the last message, and is sent the stream again, refuses it, at the credential: and so it
does not reach what comes after it. -/
theorem C61_false : ∀ deep, ∃ E msgs st', Remembers E ∧ ingestLoop E 30 deep none Store.empty msgs [] = (st', .ok ()) ∧
    (ingestLoop E 30 deep none (ingestLoop E 30 deep none Store.empty (msgs.take msgs.length) []).1 msgs []).2 = .err .validation := by
  intro deep
  have h := World.withdrawnCase_ok
  unfold World.withdrawnCase at h
  split at h
  · rename_i l hl
    have h := List.all_eq_true.mp h deep (by rcases deep with _ | _ | _ <;> simp)
    simp only [Bool.and_eq_true, decide_eq_true_eq] at h
    obtain ⟨h2, h3⟩ := h
    obtain ⟨u, hu⟩ := Res.isOk_iff.mp h2
    refine ⟨World.replays, l, (World.takesIn deep Store.empty l).1, World.replays_remembers, ?_, ?_⟩
    · rw [← hu]
      rfl
    · rw [List.take_length]
      exact h3
  · cases h

end Keride.Props
