/-
C117: `issue_acdc` looks at nothing but the key events of the issuer.
-/
import Verif.Props.Send

namespace Keride.Props

open Matter Spec Sample

/-- C117: what `issue_acdc` returns depends on the key events of the issuer in its store, and on nothing else in it: no registry, no transaction event, no credential, and
not on schemas, on the clock that expires credentials, or on what the store refuses. -/
theorem C117_blind (E E' : Env) (hE : SameCode E E') (S : Stretch) (rnd : Nat → Nat) (now : Str) (own own' : Store) (ks : KeySet) (ri issuer schema data : Str)
    (recipient : Option Str) (priv : Option Bool) (source rules : Option Str) (h : own'.kels issuer = own.kels issuer) :
    issueAcdc E' S rnd now own' ks ri issuer schema data recipient priv source rules = issueAcdc E S rnd now own ks ri issuer schema data recipient priv source rules := by
  have h1 : own'.latestSaid E issuer = own.latestSaid E issuer := by unfold Store.latestSaid; rw [h]
  have h2 : own'.latestEstSaid E issuer = own.latestEstSaid E issuer := by
    unfold Store.latestEstSaid Store.getLatestEst; rw [h]
  have h3 : issueAcdc E S rnd now own' ks ri issuer schema data recipient priv source rules = issueAcdc E S rnd now own ks ri issuer schema data recipient priv source rules := by
    unfold issueAcdc; rw [h, h1, h2]
  rw [← h3]
  have h4 := same_sign hE
  unfold issueAcdc kmiInteract signedMessage
  rw [h4]
  generalize KeySet.sign E = sign
  clear h1 h2 h3 h4
  cases E; cases E'; obtain ⟨rfl, rfl, rfl, rfl⟩ := hE; rfl

/-- An issuance or a revocation under a registry of which the verifier has nothing is refused. -/
theorem unregistered {E : Env} {st : Store} {deep : Option Bool} {fuel : Nat} {s : Sad} {l : List (M × M)} {v : List Str} {ri : Str} (ht : HasText (str% "t") (str% "iss") s)
    (hri : HasText (str% "ri") ri s) (hst : st.tels ri = []) {r : Bool × List Str} : verifyTransactionEvent E st deep fuel s l v ≠ .ok r := by
  intro h
  cases fuel with
  | zero => unfold verifyTransactionEvent at h; cases h
  | succ fuel =>
    unfold verifyTransactionEvent at h
    obtain ⟨pre, -, h⟩ := Res.bind_eq_ok.mp h
    obtain ⟨m, -, h⟩ := Res.bind_eq_ok.mp h
    obtain ⟨n, -, h⟩ := Res.bind_eq_ok.mp h
    rw [text_index ht, Res.ok_bind] at h
    change (Res.ok (str% "iss") >>= _) = _ at h
    rw [Res.ok_bind] at h
    obtain ⟨d, -, h⟩ := Res.bind_eq_ok.mp h
    unfold registryOf at h
    rw [if_neg (by decide), if_pos (.inl rfl), text_index hri, Res.ok_bind] at h
    change (Res.ok ri >>= _) = _ at h
    rw [Res.ok_bind] at h
    split at h
    · cases h
    · obtain ⟨c, -, h⟩ := Res.bind_eq_ok.mp h
      obtain ⟨ls, -, h⟩ := Res.bind_eq_ok.mp h
      obtain ⟨b, -, h⟩ := Res.bind_eq_ok.mp h
      split at h
      · cases h
      · obtain ⟨a, ha, -⟩ := Res.bind_eq_ok.mp h
        unfold anchorOf at ha
        rw [if_neg (by decide), if_pos (.inl rfl)] at ha
        obtain ⟨g, -, ha⟩ := Res.bind_eq_ok.mp ha
        split at ha
        · cases ha
        · obtain ⟨t, k, -⟩ := Res.bind_eq_ok.mp ha
          have := getTransactionEvent_mem k
          rw [hst] at this
          cases this

/-- C117: the issuance that `issue_acdc` returns is refused by every verifier that has nothing under the registry the caller named, whatever it is sent with, and leaves its
store as it was. -/
theorem C117_refused (E : Env) (hH : HashOk E.H) (S : Stretch) (rnd : Nat → Nat) (now : Str) (own : Store) (ks : KeySet) (ri issuer schema data : Str)
    (recipient : Option Str) (priv : Option Bool) (source rules : Option Str) (id m1 m2 m3 : Str)
    (h : issueAcdc E S rnd now own ks ri issuer schema data recipient priv source rules = .ok (id, m1, m2, m3)) (hm : (toUtf8 m2).length < 2 ^ 32) :
    ∃ t g, m2 = t ++ g ∧ Document (str% "KERI") t ∧ ∀ (st : Store) (fuel : Nat) (deep verify : Option Bool) (group : Group) (gt : Res Str), verify ≠ some false →
      st.tels ri = [] → (ingestLoop E fuel deep verify st [.payload t, .group group gt] []).1 = st ∧
        (ingestLoop E fuel deep verify st [.payload t, .group group gt] []).2 ≠ .ok () := by
  unfold issueAcdc at h
  obtain ⟨dv, hdv, h⟩ := Res.bind_eq_ok.mp h
  obtain ⟨sv, hsv, h⟩ := Res.bind_eq_ok.mp h
  obtain ⟨rv, hrv, h⟩ := Res.bind_eq_ok.mp h
  obtain ⟨c, hc, h⟩ := Res.bind_eq_ok.mp h
  obtain ⟨id', hid, h⟩ := Res.bind_eq_ok.mp h
  obtain ⟨iss, hiss, h⟩ := Res.bind_eq_ok.mp h
  obtain ⟨ti, hti, h⟩ := Res.bind_eq_ok.mp h
  obtain ⟨dig, hdig, h⟩ := Res.bind_eq_ok.mp h
  obtain ⟨vf, -, h⟩ := Res.bind_eq_ok.mp h
  obtain ⟨sigers, hsigers, h⟩ := Res.bind_eq_ok.mp h
  obtain ⟨ixn, hixn, h⟩ := Res.bind_eq_ok.mp h
  obtain ⟨gi, hgi, h⟩ := Res.bind_eq_ok.mp h
  obtain ⟨es, hes, h⟩ := Res.bind_eq_ok.mp h
  obtain ⟨seqner, hseq, h⟩ := Res.bind_eq_ok.mp h
  obtain ⟨proof, hproof, h⟩ := Res.bind_eq_ok.mp h
  obtain ⟨signed, hsigned, h⟩ := Res.bind_eq_ok.mp h
  cases h
  have hti := fromUtf8_ok hti
  have his : iss.2.raw.length < 2 ^ 32 := by
    rw [toUtf8_append, List.length_append] at hm
    rw [hti]; omega
  obtain ⟨-, -, -, -, ht, -, -, hri, -, hread⟩ := C76_issue E hH S _ now _ ri iss.1 iss.2 hiss (issue_sendable hiss his)
  have hr : Serder.newWithRaw E.fl (toUtf8 ti) = .ok iss.2 := by
    have := hread []
    rwa [hti, ← toUtf8_append, List.append_nil] at this
  refine ⟨ti, gi, rfl, document_issue hiss his hti, ?_⟩
  intro st fuel deep verify group gt hv hst
  have key : ∀ x, ingestOne E st fuel deep verify (.payload ti) (some (.group group gt)) [] ≠ .ok x := by
    intro x h
    unfold ingestOne at h
    change (Res.ok ti >>= _) = _ at h
    rw [Res.ok_bind] at h
    obtain ⟨r, hs, hk⟩ := sniff_of hr
    dsimp only at h
    rw [hs, Res.ok_bind, if_pos hk] at h
    have hb : verify.getD true = true := by rcases verify with _ | _ | _ <;> simp_all
    unfold ingestSerder at h
    rw [hr, Res.ok_bind] at h
    obtain ⟨q, -, h⟩ := Res.bind_eq_ok.mp h
    change (Res.ok (group, gt) >>= _) = _ at h
    rw [Res.ok_bind, text_index ht, Res.ok_bind] at h
    change (Res.ok (str% "iss") >>= _) = _ at h
    rw [Res.ok_bind, if_neg (by decide), if_pos (.inr (.inl rfl))] at h
    cases group with
    | couples l =>
      dsimp only at h
      obtain ⟨y, hy, -⟩ := Res.bind_eq_ok.mp h
      unfold verifyOrSeen at hy
      rw [if_pos (by simp [hb])] at hy
      exact unregistered ht hri hst hy
    | _ => cases h
  unfold ingestLoop
  cases hx : ingestOne E st fuel deep verify (.payload ti) (some (.group group gt)) [] with
  | ok x => exact absurd hx (key x)
  | err e => exact ⟨rfl, by simp⟩
  | panic => exact ⟨rfl, by simp⟩

/-- An issuer with an identifier and no registry at all issues a credential under a registry and with a source that do not exist. -/
def World.blindCase : Bool :=
  World.holds (World.ks [1, 3]) fun a => World.holds (World.ks [2]) fun b =>
  World.holds (a.verfersQb64 (World.env [])) fun ka => World.holds (b.digersQb64 (World.env [])) fun db =>
  World.holds (incept (World.env []) ka (some (.int 2)) (some db) none none none none none none none (some (str% "E")) none none) fun s0 =>
  World.holds (Serder.pre s0) fun pre => World.holds (a.sign (World.env []) 0 s0.raw none) fun g0 =>
  World.holds (fromUtf8 s0.raw) fun t0 => World.holds (endorseSerder true (some g0) none none none) fun e0 =>
  World.holds (issueAcdc (World.env []) World.stretch (fun n => n) World.today (Store.empty.insertKeyEvent pre (t0 ++ e0)) a (str% "nowhere") pre (str% "no schema")
    (str% "{\"name\":\"x\"}") none none (some (str% "{\"d\":\"\",\"x\":{\"n\":\"nothing\"}}")) none) fun x => decide ((toUtf8 x.2.2.1).length < 2 ^ 32)

/-- C117 is false: the call succeeds under a registry that is none, and the issuance is refused by all who have no such registry. -/
theorem C117_false : ∃ (own : Store) (ks : KeySet) (issuer id m1 m2 m3 t g : Str), (∀ q, own.tels q = []) ∧ own.acdcs = [] ∧ (own.kels issuer).length = 1 ∧
    issueAcdc (World.env []) World.stretch (fun n => n) World.today own ks (str% "nowhere") issuer (str% "no schema") (str% "{\"name\":\"x\"}") none none
      (some (str% "{\"d\":\"\",\"x\":{\"n\":\"nothing\"}}")) none = .ok (id, m1, m2, m3) ∧ m2 = t ++ g ∧
    ∀ (st : Store) (fuel : Nat) (deep verify : Option Bool) (group : Group) (gt : Res Str), verify ≠ some false → st.tels (str% "nowhere") = [] →
      (ingestLoop (World.env []) fuel deep verify st [.payload t, .group group gt] []).2 ≠ .ok () := by
  have h : World.blindCase = true := by decide +kernel
  unfold World.blindCase at h
  obtain ⟨a, ha, h⟩ := World.holds_ok h
  obtain ⟨b, hb, h⟩ := World.holds_ok h
  obtain ⟨ka, hka, h⟩ := World.holds_ok h
  obtain ⟨db, hdb, h⟩ := World.holds_ok h
  obtain ⟨s0, hs0, h⟩ := World.holds_ok h
  obtain ⟨pre, hpre, h⟩ := World.holds_ok h
  obtain ⟨g0, hg0, h⟩ := World.holds_ok h
  obtain ⟨t0, -, h⟩ := World.holds_ok h
  obtain ⟨e0, -, h⟩ := World.holds_ok h
  obtain ⟨⟨id, m1, m2, m3⟩, hx, h⟩ := World.holds_ok h
  obtain ⟨t, g, h1, -, h2⟩ := C117_refused (World.env []) World.hash_ok _ _ _ _ _ _ _ _ _ _ _ _ _ _ _ _ _ hx (of_decide_eq_true h)
  exact ⟨_, a, pre, id, m1, m2, m3, t, g, fun _ => rfl, rfl, by simp [Store.insertKeyEvent, append, Store.empty], hx, h1,
    fun st fuel deep verify group gt hv hst => (h2 st fuel deep verify group gt hv hst).2⟩

/-- C117: what `issue_acdc` does ask for: an issuer with key events in the store, an object as data, and JSON as sources and rules. -/
theorem C117_asked_partial (E : Env) (S : Stretch) (rnd : Nat → Nat) (now : Str) (own : Store) (ks : KeySet) (ri issuer schema data : Str)
    (recipient : Option Str) (priv : Option Bool) (source rules : Option Str) (id m1 m2 m3 : Str)
    (h : issueAcdc E S rnd now own ks ri issuer schema data recipient priv source rules = .ok (id, m1, m2, m3)) :
    own.kels issuer ≠ [] ∧ (∃ d, jsonRead E.fl data = .ok (.obj d)) ∧ (∀ t, source = some t → ∃ v, jsonRead E.fl t = .ok v) ∧
      ∀ t, rules = some t → ∃ v, jsonRead E.fl t = .ok v := by
  unfold issueAcdc at h
  obtain ⟨dv, hdv, h⟩ := Res.bind_eq_ok.mp h
  obtain ⟨sv, hsv, h⟩ := Res.bind_eq_ok.mp h
  obtain ⟨rv, hrv, h⟩ := Res.bind_eq_ok.mp h
  obtain ⟨c, hc, h⟩ := Res.bind_eq_ok.mp h
  obtain ⟨id', hid, h⟩ := Res.bind_eq_ok.mp h
  obtain ⟨iss, hiss, h⟩ := Res.bind_eq_ok.mp h
  obtain ⟨ti, hti, h⟩ := Res.bind_eq_ok.mp h
  obtain ⟨dig, hdig, h⟩ := Res.bind_eq_ok.mp h
  obtain ⟨vs', u, u', map, sub, rfl, -⟩ := create_ok hc
  refine ⟨?_, ⟨map, hdv⟩, ?_, ?_⟩
  · intro hn
    unfold Store.latestSaid at hdig
    rw [hn] at hdig
    cases hdig
  · rintro t rfl
    obtain ⟨v, hv, -⟩ := Res.bind_eq_ok.mp hsv
    exact ⟨v, hv⟩
  · rintro t rfl
    obtain ⟨v, hv, -⟩ := Res.bind_eq_ok.mp hrv
    exact ⟨v, hv⟩

/-- The call of an issuer with a registry returns the same when the registry is gone from its store. -/
example : ∃ (own own' : Store) (ks : KeySet) (ri issuer id m1 m2 m3 : Str), own.tels ri ≠ [] ∧ (∀ q, own'.tels q = []) ∧
    issueAcdc (World.env []) World.stretch (fun n => n) World.today own ks ri issuer (str% "schema") (str% "{\"name\":\"x\"}") (some (str% "recipient")) none none none =
      .ok (id, m1, m2, m3) ∧
    issueAcdc (World.env []) World.stretch (fun n => n) World.today own' ks ri issuer (str% "schema") (str% "{\"name\":\"x\"}") (some (str% "recipient")) none none none =
      .ok (id, m1, m2, m3) := by
  obtain ⟨issuer, ri, id, m1, m2, m3, -, -, -, -, -, -, -, ks, -, own, -, -, -, -, -, -, -, -, h, -, -, -, -, hc, -⟩ := World.office
  refine ⟨own, ⟨own.kels, fun _ => [], []⟩, ks, ri, issuer, id, m1, m2, m3, ?_, fun _ => rfl, h, ?_⟩
  · obtain ⟨t, r, h1, -⟩ := hc
    intro hn
    rw [hn] at h1
    cases h1
  · exact (C117_blind (World.env []) (World.env []) ⟨rfl, rfl, rfl, rfl⟩ World.stretch _ _ own ⟨own.kels, fun _ => [], []⟩ ks ri issuer _ _ _ _ _ _ rfl).trans h

end Keride.Props
