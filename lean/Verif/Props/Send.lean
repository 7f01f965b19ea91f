/-
C82: `issue_acdc` and `revoke_acdc`, from the call to the verifier.
-/
import Verif.Lemmas.Send
import Verif.Lemmas.Mark

namespace Keride.Props

open Matter Spec Sample

/-- What `issue_acdc` returns, with the events the messages are made of. -/
theorem issued_all (E : Env) (hC : CryptoOk E.C) (hH : HashOk E.H) (hstore : ∀ st t, E.refuses st t = false)
    -- the issuer
    (issuer : Str) (log : List Entry) (ks nks : KeySet) (hlog : History E issuer log ks nks) (hlen : log.length < 2 ^ 32)
    (own : Store) (hown : List.Forall₂ (fun t e => Serder.newWithRaw E.fl (toUtf8 t) = .ok e.sad) (own.kels issuer) log)
    -- the call
    (S : Stretch) (rnd : Nat → Nat) (now ri schema data : Str) (recipient : Option Str) (priv : Option Bool) (source rules : Option Str)
    (hdata : ∀ v, jsonRead E.fl data = .ok v → Plain v ∧ nesting v ≤ 126)
    (hsource : ∀ t v, source = some t → jsonRead E.fl t = .ok v → Plain v ∧ nesting v ≤ 126)
    (hrules : ∀ t v, rules = some t → jsonRead E.fl t = .ok v → Plain v ∧ nesting v ≤ 126) (id m1 m2 m3 : Str)
    (h : issueAcdc E S rnd now own ks ri issuer schema data recipient priv source rules = .ok (id, m1, m2, m3))
    (hm1 : (toUtf8 m1).length < 2 ^ 32) (hm2 : (toUtf8 m2).length < 2 ^ 32) (hm3 : (toUtf8 m3).length < 2 ^ 32) :
    ∃ (p : Parts) (ti gi : Str) (ci : M × M) (tc gc : Str) (sig : SadPathSig) (c : Sad) (sv : Option Value),
      (readOption E source = .ok sv ∧ field (str% "e") c.ked = sv ∧ (Mark E ⟨ti, gi, .couples [ci]⟩ (.iss id) ∧ Mark E ⟨tc, gc, .quadlets [.sadPath [sig]]⟩ (.cred id)) ∧
        (∃ dv rv, createAcdc E S rnd now schema issuer dv recipient priv none (some ri) sv rv none none = .ok c) ∧
        ∃ la est lb qe r, log = la ++ est :: lb ∧ LatestEst log est ∧ Sadder.said E.chk est.sad = .ok qe ∧ ProofBy E.chk sig issuer la.length qe ∧
          MadeBy E ks r c.raw sig.sigers) ∧
      (∃ (q prior : Str) (a e : Sad) (mm : M), Anchor E issuer log ks nks q m1 id (str% "0") prior a p ∧ vcIssue E S (rnd 2) now id ri = .ok (prior, e) ∧
        e.raw = toUtf8 ti ∧ e.raw.length < 2 ^ 32 ∧ Matter.newWithQb64 id = .ok mm ∧ Seqner.sn ci.1 = .ok log.length ∧ ci.2 = a.saider ∧ Seals E.chk a e) ∧
      (m1 = p.text ∧ p.Wellformed E.chk) ∧ (m2 = ti ++ gi ∧ Document (str% "KERI") ti ∧ CoupleText gi ci) ∧ (m3 = tc ++ gc ∧ Document (str% "ACDC") tc ∧ ProofText E.chk gc sig) ∧
      (∃ (d : List (Str × Value)) (sub : Value), jsonRead E.fl data = .ok (.obj d) ∧ Creder.newWithRaw E.fl (toUtf8 m3) = .ok c ∧ c.raw = toUtf8 tc ∧
        Sadder.said E.chk c = .ok id ∧ SelfAddressed E.H E.chk c ∧ HasText (str% "i") issuer c ∧ HasText (str% "ri") ri c ∧ HasText (str% "s") schema c ∧
        field (str% "a") c.ked = some sub ∧ ∀ k v, (k, v) ∈ d → k ≠ str% "d" → k ≠ str% "v" → field k sub = some v) ∧
      ∀ (st : Store) (fuel : Nat) (deep verify : Option Bool) (nodes : List (Res Value)), edgeNodes (sv.getD (.obj [])) = .ok nodes →
        (∀ s2 : Store, s2.kels issuer = st.kels issuer ++ [m1] → (∀ q, q ≠ issuer → s2.kels q = st.kels q) → s2.tels id = [m2] →
          (∀ q, q ≠ id → s2.tels q = st.tels q) → s2.acdcs = st.acdcs → ∀ v, ∃ v', verifyEdges E s2 deep (fuel + 1) c nodes v = .ok v') →
        (deep = some true → log.length < fuel ∧ ReadsAs E p.attached (.quadlets [.controller p.sigs])) → verify ≠ some false → KeepsLog E deep (st.kels issuer) log →
        Controller E st ri issuer → st.tels id = [] → (∀ t ∈ st.acdcs, ¬ IsCredential E id t) → E.schema schema tc = .ok true → E.expired now = .ok false →
        (deep ≠ some false → ReadsAs E gi (.couples [ci])) →
        ∃ s1 s2 s3, Accepts E (fuel + 2) deep verify st ⟨p.event, p.attached, .quadlets [.controller p.sigs]⟩ s1 ∧
          Accepts E (fuel + 2) deep verify s1 ⟨ti, gi, .couples [ci]⟩ s2 ∧ Accepts E (fuel + 2) deep verify s2 ⟨tc, gc, .quadlets [.sadPath [sig]]⟩ s3 ∧
          s3.kels issuer = st.kels issuer ++ [m1] ∧ (∀ q, q ≠ issuer → s3.kels q = st.kels q) ∧ s3.tels id = [m2] ∧ (∀ q, q ≠ id → s3.tels q = st.tels q) ∧
          s3.acdcs = st.acdcs ++ [m3] := by
  have hsound := history_sound hC hH hlog (by omega)
  unfold issueAcdc at h
  obtain ⟨dv, hdv, h⟩ := Res.bind_eq_ok.mp h
  obtain ⟨sv, hsv, h⟩ := Res.bind_eq_ok.mp h
  obtain ⟨rv, hrv, h⟩ := Res.bind_eq_ok.mp h
  obtain ⟨c, hc, h⟩ := Res.bind_eq_ok.mp h
  obtain ⟨id', hid, h⟩ := Res.bind_eq_ok.mp h
  obtain ⟨iss, hiss, h⟩ := Res.bind_eq_ok.mp h
  obtain ⟨ti, hti, h⟩ := Res.bind_eq_ok.mp h
  obtain ⟨dig, hdig, h⟩ := Res.bind_eq_ok.mp h
  obtain ⟨vf, -, h⟩ := Res.bind_eq_ok.mp h
  obtain ⟨sigers, hsigers, h⟩ := Res.bind_eq_ok.mp h
  obtain ⟨ixn, hixn, h⟩ := Res.bind_eq_ok.mp h
  obtain ⟨gi, hgi, h⟩ := Res.bind_eq_ok.mp h
  obtain ⟨es, hes, h⟩ := Res.bind_eq_ok.mp h
  obtain ⟨seqner, hseq, h⟩ := Res.bind_eq_ok.mp h
  obtain ⟨proof, hproof, h⟩ := Res.bind_eq_ok.mp h
  obtain ⟨signed, hsigned, h⟩ := Res.bind_eq_ok.mp h
  cases h
  have hti := fromUtf8_ok hti
  obtain ⟨a, p, ha⟩ := anchor_ok hC hH hlog hlen hown hdig hixn hm1
  -- the couple
  rw [hown.length_eq] at hgi
  obtain ⟨c1, hcouple, hc1⟩ := couple_ok ha.item.1 (by omega) hgi
  -- the proof
  obtain ⟨est, hlatest, hctl, -⟩ := hsound.est
  obtain ⟨la, lb, hsplit, hle, hlb⟩ := show LatestEst log est from hlatest
  obtain ⟨hq, hn⟩ := latestEstSaid_of hown hsound.valid hsplit hlatest hes
  have hrd : ∀ e ∈ log, Serder.newWithRaw E.fl e.sad.raw = .ok e.sad := fun e he => by simpa [toUtf8] using hsound.reads e he []
  obtain ⟨first, hfm, hfs⟩ := valid_first hsound.valid
  have hpre := said_item (hrd first hfm) hfs
  have hest := said_item (hrd est (by rw [hsplit]; simp)) hq
  have hnum : sigers.length < 2 ^ 32 := by
    obtain ⟨l, -, h1, h2⟩ := sign_ok hC hsound.usable (made hsigers)
    by_contra hge
    have hx : 4096 < sigers.length := by omega
    obtain ⟨-, -, -, -, h3, -⟩ := h2 4096 _ (List.getElem?_eq_getElem hx)
    omega
  obtain ⟨tc, gc, pather, htc, hmsg, hpather, hpt⟩ := proof_text hpre hest hseq (sign_short hC hsound.usable.seeds hsigers) hnum hproof hsigned
  -- sizes
  have hcs : c.raw.length < 2 ^ 32 := by
    rw [hmsg, toUtf8_append, List.length_append] at hm3
    rw [htc]; omega
  have his : iss.2.raw.length < 2 ^ 32 := by
    rw [toUtf8_append, List.length_append] at hm2
    rw [hti]; omega
  have hrules' : ∀ v, rv = some v → Fine v := by
    intro v hv
    cases rules with
    | none => cases hrv; cases hv
    | some t =>
      obtain ⟨w, hw, h'⟩ := Res.bind_eq_ok.mp hrv
      cases h'
      cases hv
      exact hrules t _ rfl hw
  have hsource' : ∀ v, sv = some v → Fine v := by
    intro v hv
    cases source with
    | none => cases hsv; cases hv
    | some t =>
      obtain ⟨w, hw, h'⟩ := Res.bind_eq_ok.mp hsv
      cases h'
      cases hv
      exact hsource t _ rfl hw
  have hsendc := credential_sendable hc (hdata _ hdv) hsource' hrules' hcs
  have hsendi := issue_sendable hiss his
  obtain ⟨vs, nonce, hbi, hqi⟩ := issue_ok hiss
  obtain ⟨vs', u, u', map, sub, rfl, -, -, -, -, hbc⟩ := create_ok hc
  obtain ⟨qc, hqc, -, -, -, hmc⟩ := hbc.said
  rw [hid] at hqc
  cases hqc
  have hnd : (map.map Prod.fst).Nodup := by
    have := (hdata _ hdv).1
    unfold Plain at this
    rw [Proper] at this
    exact this.1
  obtain ⟨-, k1, -, -, k2, k3, k4, k0, -, ⟨sub', -, -, k5, -, -, -, k6⟩, k7⟩ :=
    C77_credential E hH S rnd now schema issuer map recipient priv none (some ri) sv rv none none c hnd hc hsendc
  have hseal : Seals E.chk a iss.2 := by
    refine ha.seals iss.2 ?_ ?_ hqi
    · unfold HasText; rw [hbi.fields _ (by decide) (by decide)]; simp [field]
    · unfold HasText; rw [hbi.fields _ (by decide) (by decide)]; simp [field]
  have hal : la.length < log.length := by rw [hsplit]; simp
  have hby : ProofBy E.chk ⟨pather, first.sad.saider, seqner, est.sad.saider, sigers.map Siger.bare⟩ issuer la.length es.1 :=
    ⟨hpather, hfs, by
      obtain ⟨c', e1, e2, -⟩ := C25_lossless E.chk es.2 (by omega)
      rw [hseq] at e1
      cases e1
      rw [← hn]; exact e2, hq⟩
  refine ⟨p, ti, gi, (c1, a.saider), tc, gc, ⟨pather, first.sad.saider, seqner, est.sad.saider, sigers.map Siger.bare⟩, c, sv,
    ⟨hsv, k0, ⟨mark_issue hH hiss hsendi hti, ?_⟩, ⟨_, _, hc⟩, la, est, lb, es.1, rnd 3, hsplit, hlatest, hq, hby, ⟨sigers, hsigers, bare_same sigers⟩⟩,
    ⟨_, _, a, iss.2, _, ha, hiss, hti, his, hmc, hc1, rfl, hseal⟩, ⟨ha.text, ha.wellformed⟩, ⟨rfl, document_issue hiss his hti, hcouple⟩, ⟨hmsg, document_credential hc hsendc htc, hpt⟩,
    ⟨map, .obj sub', hdv, ?_, htc, hid, k1, k2, k3, k4, k5, k6⟩, ?_⟩
  · obtain ⟨o', ho', hv'⟩ := hbc.first
    refine mark_credential hid k1 ⟨o', ho', hv', ho' ▸ plain_decimal hsendc.plain⟩ ?_ ?_ (reads_nil (f := Creder.newWithRaw) k7 htc)
    · rw [hbc.fields _ (by decide) (by decide)]
      unfold credDoc
      cases u <;> cases sv <;> cases rv <;> simp [field, entry]
    · rw [toUtf8_append, ← htc]
      exact k7 gc
  · rw [hmsg, toUtf8_append, ← htc]
    exact k7 gc
  intro st fuel deep verify nodes hnodes hedges hd hv hkeep hcon hnew hacdc hschema hfresh hread
  have hst := keeps_reads hsound hkeep
  have hd : deep = some true → log.length < fuel ∧ KeepsLog E deep (st.kels issuer) log ∧ ReadsAs E p.attached (.quadlets [.controller p.sigs]) :=
    fun hdd => ⟨(hd hdd).1, hkeep, (hd hdd).2⟩
  obtain ⟨s1, g1, g2, g3, g4, g5, g6⟩ := ha.accepts hC hH hstore hlen hst (fuel + 1) deep verify (fun hdd => ⟨by have := (hd hdd).1; omega, (hd hdd).2.1⟩) hv
  have hcon1 : Controller E s1 ri issuer := by unfold Controller; rw [g4]; exact hcon
  have hnamed := g6 (c1, a.saider) hc1 rfl
  obtain ⟨s2, e1, e2⟩ : ∃ s2, Accepts E (fuel + 2) deep verify s1 ⟨ti, gi, .couples [(c1, a.saider)]⟩ s2 ∧ OneMore s1 s2 id (ti ++ gi) :=
    ⟨_, issued_accepts hstore hiss hsendi hmc (by rw [g4]; exact hnew) hcon1 hnamed hseal gi hti ((ha.deepens hC hH hlen g2 hd).up (Nat.le_succ _)) hv, one_more s1 id _⟩
  have htel : s2.tels id = [ti ++ gi] := by rw [e2.log, g4, hnew]; rfl
  have hkel : List.Forall₂ (Reads E.fl) (s2.kels issuer) (log ++ [⟨a, [.controller p.sigs]⟩]) := by
    rw [e2.kels, g2]
    refine List.rel_append hst (.cons ?_ .nil)
    have := (history_sound hC hH ha.history (by simp; omega)).reads ⟨a, [.controller p.sigs]⟩ (by simp) p.attached
    dsimp only at this
    rw [ha.raw, ← toUtf8_append] at this
    unfold Reads
    rw [ha.text]
    exact this
  have hri : ri ≠ id := by
    rintro rfl
    obtain ⟨t, r, h1, -⟩ := hcon
    rw [hnew] at h1
    simp at h1
  have hcon2 : Controller E s2 ri issuer := by unfold Controller; rw [e2.others ri hri]; exact hcon1
  have hnamed2 : AnchorNamed E s2 issuer (c1, a.saider) a := by unfold AnchorNamed; rw [e2.kels]; exact hnamed
  have f1 := credential_accepts hC hH hstore (st := s2) (g := gc) (fuel := fuel) (deep := deep) (verify := verify) hc hsendc hid htc hschema
    (log := log ++ [(⟨a, [.controller p.sigs]⟩ : Entry)]) ha.history (by simp; omega) (a := la) (b := lb ++ [(⟨a, [.controller p.sigs]⟩ : Entry)]) (est := est)
    (by rw [hsplit]; simp) (latest_snoc hlatest ha.type) hq hby ⟨sigers, hsigers, bare_same sigers⟩ hiss hsendi hti hfresh hkel hcon2 htel hnamed2 hseal
    (by
      intro t ht c' h1 h2
      rw [e2.acdcs, g5] at ht
      exact hacdc t ht ⟨c', h1, h2⟩)
    (ha.deepens hC hH hlen (by rw [e2.kels, g2]) hd) (ha.deepens hC hH hlen (by rw [e2.kels, g2]) hd) hv hread
    (by
      intro hdn
      have hx : (st.kels issuer)[la.length]? = some ((st.kels issuer)[la.length]'(by rw [hst.length_eq]; exact hal)) := List.getElem?_eq_getElem _
      obtain ⟨y, hy, t, g, h1, h2, h3⟩ := forall₂_get hkeep hx
      rw [hsplit, List.getElem?_append_right (by omega), Nat.sub_self] at hy
      cases hy
      refine ⟨t, g, ?_, h2, h3 (by rw [hdn]; simp)⟩
      rw [e2.kels, g2, List.getElem?_append_left (by rw [hst.length_eq]; exact hal), hx, h1])
    hnodes (hedges s2 (by rw [e2.kels, g2]) (fun q hq => by rw [e2.kels, g3 q hq]) htel (fun q hq => by rw [e2.others q hq, g4]) (by rw [e2.acdcs, g5]))
  refine ⟨s1, s2, s2.insertAcdc (tc ++ gc), g1, e1, f1, ?_, ?_, htel, ?_, ?_⟩
  · rw [show (s2.insertAcdc (tc ++ gc)).kels = s2.kels from rfl, e2.kels, g2]
  · intro q hq
    rw [show (s2.insertAcdc (tc ++ gc)).kels = s2.kels from rfl, e2.kels, g3 q hq]
  · intro q hq
    rw [show (s2.insertAcdc (tc ++ gc)).tels = s2.tels from rfl, e2.others q hq, g4]
  · rw [show (s2.insertAcdc (tc ++ gc)).acdcs = s2.acdcs ++ [tc ++ gc] from rfl, e2.acdcs, g5, hmsg]

/-- C82: what `issue_acdc` returns: the message of an interaction, the message of an issuance, the message of a credential. The
credential says what was asked for, and has the SAID that is returned. The messages are what readers of the stream format
expect. A verifier that has the log of the issuer and the registry, and nothing of the credential, accepts the three messages
in order and keeps them, with nothing else changed. The credential is of its schema and not
too old. Unless told otherwise verifiers verify again what they kept, and it has to be read back as it was received; if asked to
repeat all earlier verification, they need a stack that is deep enough for the log of the issuer. -/
theorem C82_issued (E : Env) (hC : CryptoOk E.C) (hH : HashOk E.H) (hstore : ∀ st t, E.refuses st t = false)
    -- the issuer
    (issuer : Str) (log : List Entry) (ks nks : KeySet) (hlog : History E issuer log ks nks) (hlen : log.length < 2 ^ 32)
    (own : Store) (hown : List.Forall₂ (fun t e => Serder.newWithRaw E.fl (toUtf8 t) = .ok e.sad) (own.kels issuer) log)
    -- the call
    (S : Stretch) (rnd : Nat → Nat) (now ri schema data : Str) (recipient : Option Str) (priv : Option Bool) (rules : Option Str)
    (hdata : ∀ v, jsonRead E.fl data = .ok v → Plain v ∧ nesting v ≤ 126)
    (hrules : ∀ t v, rules = some t → jsonRead E.fl t = .ok v → Plain v ∧ nesting v ≤ 126) (id m1 m2 m3 : Str)
    (h : issueAcdc E S rnd now own ks ri issuer schema data recipient priv none rules = .ok (id, m1, m2, m3))
    (hm1 : (toUtf8 m1).length < 2 ^ 32) (hm2 : (toUtf8 m2).length < 2 ^ 32) (hm3 : (toUtf8 m3).length < 2 ^ 32) :
    ∃ (p : Parts) (ti gi : Str) (ci : M × M) (tc gc : Str) (sig : SadPathSig),
      (m1 = p.text ∧ p.Wellformed E.chk) ∧ (m2 = ti ++ gi ∧ Document (str% "KERI") ti ∧ CoupleText gi ci) ∧ (m3 = tc ++ gc ∧ Document (str% "ACDC") tc ∧ ProofText E.chk gc sig) ∧
      (∃ (d : List (Str × Value)) (c : Sad) (sub : Value), jsonRead E.fl data = .ok (.obj d) ∧ Creder.newWithRaw E.fl (toUtf8 m3) = .ok c ∧ c.raw = toUtf8 tc ∧
        Sadder.said E.chk c = .ok id ∧ SelfAddressed E.H E.chk c ∧ HasText (str% "i") issuer c ∧ HasText (str% "ri") ri c ∧ HasText (str% "s") schema c ∧
        field (str% "a") c.ked = some sub ∧ ∀ k v, (k, v) ∈ d → k ≠ str% "d" → k ≠ str% "v" → field k sub = some v) ∧
      ∀ (st : Store) (fuel : Nat) (deep verify : Option Bool),
        (deep = some true → log.length < fuel ∧ ReadsAs E p.attached (.quadlets [.controller p.sigs])) → verify ≠ some false → KeepsLog E deep (st.kels issuer) log →
        Controller E st ri issuer → st.tels id = [] → (∀ t ∈ st.acdcs, ¬ IsCredential E id t) → E.schema schema tc = .ok true → E.expired now = .ok false →
        (deep ≠ some false → ReadsAs E gi (.couples [ci])) →
        ∃ s1 s2 s3, ingestLoop E (fuel + 2) deep verify st p.parsed [] = (s1, .ok ()) ∧
          ingestLoop E (fuel + 2) deep verify s1 [.payload ti, .group (.couples [ci]) (.ok gi)] [] = (s2, .ok ()) ∧
          ingestLoop E (fuel + 2) deep verify s2 [.payload tc, .group (.quadlets [.sadPath [sig]]) (.ok gc)] [] = (s3, .ok ()) ∧
          s3.kels issuer = st.kels issuer ++ [m1] ∧ (∀ q, q ≠ issuer → s3.kels q = st.kels q) ∧ s3.tels id = [m2] ∧ (∀ q, q ≠ id → s3.tels q = st.tels q) ∧
          s3.acdcs = st.acdcs ++ [m3] := by
  obtain ⟨p, ti, gi, ci, tc, gc, sig, c, sv, ⟨hsv, -⟩, -, h1, h2, h3, ⟨d, sub, h4⟩, h5⟩ := issued_all E hC hH hstore issuer log ks nks hlog hlen own hown S rnd now ri
    schema data recipient priv none rules hdata nofun hrules id m1 m2 m3 h hm1 hm2 hm3
  cases hsv
  refine ⟨p, ti, gi, ci, tc, gc, sig, h1, h2, h3, ⟨d, c, sub, h4⟩, fun st fuel deep verify k1 k2 k3 k4 k5 k6 k7 k8 k9 => ?_⟩
  obtain ⟨s1, s2, s3, g1, g2, g3, g⟩ := h5 st fuel deep verify [] rfl (fun _ _ _ _ _ _ v => ⟨v, by unfold verifyEdges; rfl⟩) k1 k2 k3 k4 k5 k6 k7 k8 k9
  exact ⟨s1, s2, s3, g1.once, g2.once, g3.once, g⟩

/-- What `revoke_acdc` returns, with the event that seals the revocation. -/
theorem revoked_all (E : Env) (hC : CryptoOk E.C) (hH : HashOk E.H) (hstore : ∀ st t, E.refuses st t = false)
    -- the issuer
    (issuer : Str) (log : List Entry) (ks nks : KeySet) (hlog : History E issuer log ks nks) (hlen : log.length < 2 ^ 32)
    (own : Store) (hown : List.Forall₂ (fun t e => Serder.newWithRaw E.fl (toUtf8 t) = .ok e.sad) (own.kels issuer) log)
    -- the issuance
    (S S' : Stretch) (r : Nat) (dt id ri prior te ge : Str) (e : Sad) (hissue : vcIssue E S' r dt id ri = .ok (prior, e)) (hte : e.raw = toUtf8 te)
    (he : e.raw.length < 2 ^ 32) (m : M) (hm : Matter.newWithQb64 id = .ok m) (hkept : own.tels id = [te ++ ge])
    -- the call
    (rnd : Nat → Nat) (now m1 m2 : Str) (h : revokeAcdc E S rnd now own ks ri issuer id = .ok (m1, m2))
    (hm1 : (toUtf8 m1).length < 2 ^ 32) (hm2 : (toUtf8 m2).length < 2 ^ 32) :
    ∃ (p : Parts) (tr gr : Str) (cr : M × M), ((∃ (q next : Str) (a : Sad), Anchor E issuer log ks nks q m1 id (str% "1") next a p) ∧ Mark E ⟨tr, gr, .couples [cr]⟩ (.rev id)) ∧ (m1 = p.text ∧ p.Wellformed E.chk) ∧ (m2 = tr ++ gr ∧ Document (str% "KERI") tr ∧ CoupleText gr cr) ∧
      (∃ s, Serder.newWithRaw E.fl (toUtf8 m2) = .ok s ∧ s.raw = toUtf8 tr ∧ HasText (str% "t") (str% "rev") s ∧ HasText (str% "i") id s ∧
        HasText (str% "ri") ri s ∧ HasText (str% "s") (str% "1") s ∧ HasText (str% "p") prior s ∧ HasText (str% "dt") now s) ∧
      ∀ (st : Store) (fuel : Nat) (deep verify : Option Bool) (gv : Str) (ci : M × M) (ai : Sad),
        (deep = some true → log.length < fuel ∧ KeepsLog E deep (st.kels issuer) log ∧ ReadsAs E p.attached (.quadlets [.controller p.sigs])) → verify ≠ some false →
        List.Forall₂ (fun t e => Serder.newWithRaw E.fl (toUtf8 t) = .ok e.sad) (st.kels issuer) log → Controller E st ri issuer →
        st.tels id = [te ++ gv] → AnchorNamed E st issuer ci ai → Seals E.chk ai e → (deep ≠ some false → ReadsAs E gv (.couples [ci])) →
        ∃ s1 s2, Accepts E (fuel + 2) deep verify st ⟨p.event, p.attached, .quadlets [.controller p.sigs]⟩ s1 ∧ Accepts E (fuel + 2) deep verify s1 ⟨tr, gr, .couples [cr]⟩ s2 ∧
          s2.kels issuer = st.kels issuer ++ [m1] ∧ (∀ q, q ≠ issuer → s2.kels q = st.kels q) ∧ s2.tels id = st.tels id ++ [m2] ∧
          (∀ q, q ≠ id → s2.tels q = st.tels q) ∧ s2.acdcs = st.acdcs := by
  unfold revokeAcdc at h
  rw [hkept, if_neg (by simp)] at h
  obtain ⟨x, hx, h⟩ := Res.bind_eq_ok.mp h
  cases hx
  obtain ⟨e', he', h⟩ := Res.bind_eq_ok.mp h
  obtain ⟨ps, hps, h⟩ := Res.bind_eq_ok.mp h
  obtain ⟨rev, hrev, h⟩ := Res.bind_eq_ok.mp h
  obtain ⟨tr, htr, h⟩ := Res.bind_eq_ok.mp h
  obtain ⟨dig, hdig, h⟩ := Res.bind_eq_ok.mp h
  obtain ⟨ixn, hixn, h⟩ := Res.bind_eq_ok.mp h
  obtain ⟨gr, hgr, h⟩ := Res.bind_eq_ok.mp h
  cases h
  have htr := fromUtf8_ok htr
  have hsend := issue_sendable hissue he
  obtain ⟨vs, nonce, hbi, hqi⟩ := issue_ok hissue
  have hri := hbi.reads hsend.plain hsend.depth hsend.small E.fl ge
  rw [hte, ← toUtf8_append, he'] at hri
  cases hri
  rw [hqi] at hps
  cases hps
  obtain ⟨a, p, ha⟩ := anchor_ok hC hH hlog hlen hown hdig hixn hm1
  rw [hown.length_eq] at hgr
  obtain ⟨c1, hcouple, hc1⟩ := couple_ok ha.item.1 (by omega) hgr
  have hrs : rev.2.raw.length < 2 ^ 32 := by
    rw [toUtf8_append, List.length_append] at hm2
    rw [htr]; omega
  have hsendr := revoke_sendable hrev hrs
  obtain ⟨-, -, -, k1, k2, k3, k4, k5, k6, k7, k8⟩ := C76_revoke E hH S (rnd 0) now id ri prior rev.1 rev.2 hrev hsendr
  refine ⟨p, tr, gr, (c1, a.saider), ⟨⟨_, _, a, ha⟩, mark_revoke hH hrev hsendr htr⟩, ⟨ha.text, ha.wellformed⟩, ⟨rfl, document_revoke hrev hrs htr, hcouple⟩, ⟨rev.2, ?_, htr, k2, k3, k5, k4, k6, k7⟩, ?_⟩
  · rw [toUtf8_append, ← htr]; exact k8 gr
  intro st fuel deep verify gv ci ai hd hv hst hcon htel hnamed hseal hread
  obtain ⟨s1, g1, g2, g3, g4, g5, g6⟩ := ha.accepts hC hH hstore hlen hst (fuel + 1) deep verify (fun hdd => ⟨by have := (hd hdd).1; omega, (hd hdd).2.1⟩) hv
  have hn0 : AnchorNamed E s1 issuer ci ai := by
    obtain ⟨n, t, q, h1, h2, h3, h4⟩ := hnamed
    refine ⟨n, t, q, h1, h2, ?_, h4⟩
    rw [g2, List.getElem?_append_left (List.getElem?_eq_some_iff.mp h3).1]
    exact h3
  obtain ⟨s2, e1, e2⟩ : ∃ s2, Accepts E (fuel + 2) deep verify s1 ⟨tr, gr, .couples [(c1, a.saider)]⟩ s2 ∧ OneMore s1 s2 id (tr ++ gr) :=
    ⟨_, revoked_accepts hstore hrev hsendr hm hissue hsend hte (by rw [g4]; exact htel) (by unfold Controller; rw [g4]; exact hcon) (g6 (c1, a.saider) hc1 rfl)
      (ha.seals rev.2 k3 k4 k1) hn0 hseal gr htr (ha.deepens hC hH hlen g2 hd) hread hv, one_more s1 id _⟩
  refine ⟨s1, s2, g1, e1, ?_, ?_, ?_, ?_, ?_⟩
  · rw [e2.kels, g2]
  · intro q hq
    rw [e2.kels, g3 q hq]
  · rw [e2.log, g4]
  · intro q hq
    rw [e2.others q hq, g4]
  · rw [e2.acdcs, g5]

/-- C82: what `revoke_acdc` returns for a credential whose issuance the issuer keeps: the message of an interaction, and the message
of a revocation. A verifier that has the log of the issuer, the registry and the issuance accepts the two messages in order and
keeps them, with nothing else changed. -/
theorem C82_revoked (E : Env) (hC : CryptoOk E.C) (hH : HashOk E.H) (hstore : ∀ st t, E.refuses st t = false)
    -- the issuer
    (issuer : Str) (log : List Entry) (ks nks : KeySet) (hlog : History E issuer log ks nks) (hlen : log.length < 2 ^ 32)
    (own : Store) (hown : List.Forall₂ (fun t e => Serder.newWithRaw E.fl (toUtf8 t) = .ok e.sad) (own.kels issuer) log)
    -- the issuance
    (S S' : Stretch) (r : Nat) (dt id ri prior te ge : Str) (e : Sad) (hissue : vcIssue E S' r dt id ri = .ok (prior, e)) (hte : e.raw = toUtf8 te)
    (he : e.raw.length < 2 ^ 32) (m : M) (hm : Matter.newWithQb64 id = .ok m) (hkept : own.tels id = [te ++ ge])
    -- the call
    (rnd : Nat → Nat) (now m1 m2 : Str) (h : revokeAcdc E S rnd now own ks ri issuer id = .ok (m1, m2))
    (hm1 : (toUtf8 m1).length < 2 ^ 32) (hm2 : (toUtf8 m2).length < 2 ^ 32) :
    ∃ (p : Parts) (tr gr : Str) (cr : M × M), (m1 = p.text ∧ p.Wellformed E.chk) ∧ (m2 = tr ++ gr ∧ Document (str% "KERI") tr ∧ CoupleText gr cr) ∧
      (∃ s, Serder.newWithRaw E.fl (toUtf8 m2) = .ok s ∧ s.raw = toUtf8 tr ∧ HasText (str% "t") (str% "rev") s ∧ HasText (str% "i") id s ∧
        HasText (str% "ri") ri s ∧ HasText (str% "s") (str% "1") s ∧ HasText (str% "p") prior s ∧ HasText (str% "dt") now s) ∧
      ∀ (st : Store) (fuel : Nat) (deep verify : Option Bool) (gv : Str) (ci : M × M) (ai : Sad),
        (deep = some true → log.length < fuel ∧ KeepsLog E deep (st.kels issuer) log ∧ ReadsAs E p.attached (.quadlets [.controller p.sigs])) → verify ≠ some false →
        List.Forall₂ (fun t e => Serder.newWithRaw E.fl (toUtf8 t) = .ok e.sad) (st.kels issuer) log → Controller E st ri issuer →
        st.tels id = [te ++ gv] → AnchorNamed E st issuer ci ai → Seals E.chk ai e → (deep ≠ some false → ReadsAs E gv (.couples [ci])) →
        ∃ s1 s2, ingestLoop E (fuel + 2) deep verify st p.parsed [] = (s1, .ok ()) ∧
          ingestLoop E (fuel + 2) deep verify s1 [.payload tr, .group (.couples [cr]) (.ok gr)] [] = (s2, .ok ()) ∧
          s2.kels issuer = st.kels issuer ++ [m1] ∧ (∀ q, q ≠ issuer → s2.kels q = st.kels q) ∧ s2.tels id = st.tels id ++ [m2] ∧
          (∀ q, q ≠ id → s2.tels q = st.tels q) ∧ s2.acdcs = st.acdcs := by
  obtain ⟨p, tr, gr, cr, -, h⟩ := revoked_all E hC hH hstore issuer log ks nks hlog hlen own hown S S' r dt id ri prior te ge e hissue hte he m hm hkept
    rnd now m1 m2 h hm1 hm2
  obtain ⟨h1, h2, h3, h4⟩ := h
  refine ⟨p, tr, gr, cr, h1, h2, h3, fun st fuel deep verify gv ci ai k1 k2 k3 k4 k5 k6 k7 k8 => ?_⟩
  obtain ⟨s1, s2, g1, g2, g⟩ := h4 st fuel deep verify gv ci ai k1 k2 k3 k4 k5 k6 k7 k8
  exact ⟨s1, s2, g1.once, g2.once, g⟩

/-- C82: `revoke_acdc` revokes only what was issued and is not revoked yet: it succeeds only if the store has exactly one event of the credential. -/
theorem C82_once (E : Env) (S : Stretch) (rnd : Nat → Nat) (now : Str) (own : Store) (ks : KeySet) (ri issuer id : Str) (r : Str × Str)
    (h : revokeAcdc E S rnd now own ks ri issuer id = .ok r) : (own.tels id).length = 1 := by
  unfold revokeAcdc at h
  dsimp only at h
  by_contra hn
  rw [if_pos hn] at h
  cases h

/-! ## An issuer -/

/-- A store with the log of one identifier, a registry, and perhaps the log of one credential. -/
def World.desk (pre : Str) (log : List Str) (ri : Str) (reg : List Str) (id : Str) (tel : List Str) : Store :=
  ⟨fun p => if p = pre then log else [], fun p => if p = ri then reg else if p = id then tel else [], []⟩

/-- The time of the calls. -/
def World.today : Str := str% "2023-01-01T00:00:00.000000+00:00"

/-- An issuer with two keys and a registry issues a credential, and revokes it. -/
def World.officeCase : Bool :=
  World.holds (World.ks [1, 3]) fun a => World.holds (World.ks [2]) fun b =>
  World.holds (a.verfersQb64 (World.env [])) fun ka => World.holds (b.digersQb64 (World.env [])) fun db =>
  World.holds (incept (World.env []) ka (some (.int 2)) (some db) none none none none none none none (some (str% "E")) none none) fun s0 =>
  World.holds (Serder.pre s0) fun pre => World.holds (Sadder.said true s0) fun d0 => World.holds (a.sign (World.env []) 0 s0.raw none) fun g0 =>
  World.holds (fromUtf8 s0.raw) fun t0 => World.holds (endorseSerder true (some g0) none none none) fun e0 =>
  World.holds (registryIncept (World.env []) pre) fun r => World.holds (fromUtf8 r.2.raw) fun tr =>
  World.holds (issueAcdc (World.env []) World.stretch (fun n => n) World.today (World.desk pre [t0 ++ e0] r.1 [tr] [] []) a r.1 pre (str% "schema")
    (str% "{\"name\":\"x\"}") (some (str% "recipient")) none none none) fun x =>
  World.holds (vcIssue (World.env []) World.stretch 2 World.today x.1 r.1) fun i => World.holds (fromUtf8 i.2.raw) fun ti =>
  World.holds (Matter.newWithQb64 x.1) fun _ =>
  World.holds (interact (World.env []) pre d0 (some 1) (some (sealOf x.1 (str% "0") i.1)) none none) fun s1 => World.holds (a.sign (World.env []) 0 s1.raw none) fun _ =>
  World.holds (fromUtf8 s1.raw) fun t1 =>
  World.holds (revokeAcdc (World.env []) World.stretch (fun n => n) World.today (World.desk pre [t0 ++ e0, x.2.1] r.1 [tr] x.1 [x.2.2.1]) a r.1 pre x.1) fun y =>
  World.holds (jsonRead (World.env []).fl (str% "{\"name\":\"x\"}")) fun v =>
    (World.usable a && (World.sendable s0 && (World.sendable s1 && (decide (ka.length = a.keys.length) && (decide (s0.raw = toUtf8 t0) &&
    (decide (i.2.raw = toUtf8 ti) && (World.plain v && (decide (nesting v ≤ 126) && (World.controls (World.desk pre [t0 ++ e0] r.1 [tr] [] []) r.1 pre &&
    (decide (r.1 ≠ x.1) && (decide ((toUtf8 x.2.1).length < 2 ^ 32) && (decide ((toUtf8 x.2.2.1).length < 2 ^ 32) && (decide ((toUtf8 x.2.2.2).length < 2 ^ 32) &&
    (decide ((toUtf8 y.1).length < 2 ^ 32) && (decide ((toUtf8 y.2).length < 2 ^ 32) && (decide (i.2.raw.length < 2 ^ 32) &&
    (decide (x.2.2.1 = ti ++ x.2.2.1.drop ti.length) && (decide (x.2.1 = t1 ++ x.2.1.drop t1.length) && decide (s1.raw = toUtf8 t1)))))))))))))))))))

theorem World.office : ∃ (issuer ri id m1 m2 m3 n1 n2 te ge prior : Str) (log : List Entry) (x : Entry) (ks nks : KeySet) (own own' : Store) (e : Sad) (m : M),
    History (World.env []) issuer log ks nks ∧ log.length = 1 ∧ ks.keys.length = 2 ∧
    List.Forall₂ (fun t e => Serder.newWithRaw (World.env []).fl (toUtf8 t) = .ok e.sad) (own.kels issuer) log ∧
    (∀ v, jsonRead (World.env []).fl (str% "{\"name\":\"x\"}") = .ok v → Plain v ∧ nesting v ≤ 126) ∧
    issueAcdc (World.env []) World.stretch (fun n => n) World.today own ks ri issuer (str% "schema") (str% "{\"name\":\"x\"}") (some (str% "recipient")) none none none =
      .ok (id, m1, m2, m3) ∧ (toUtf8 m1).length < 2 ^ 32 ∧ (toUtf8 m2).length < 2 ^ 32 ∧ (toUtf8 m3).length < 2 ^ 32 ∧
    KeepsLog (World.env []) (some false) (own.kels issuer) log ∧ Controller (World.env []) own ri issuer ∧ own.tels id = [] ∧ own.acdcs = [] ∧
    History (World.env []) issuer (log ++ [x]) ks nks ∧
    List.Forall₂ (fun t e => Serder.newWithRaw (World.env []).fl (toUtf8 t) = .ok e.sad) (own'.kels issuer) (log ++ [x]) ∧
    vcIssue (World.env []) World.stretch 2 World.today id ri = .ok (prior, e) ∧ e.raw = toUtf8 te ∧ e.raw.length < 2 ^ 32 ∧ Matter.newWithQb64 id = .ok m ∧
    own'.tels id = [te ++ ge] ∧ revokeAcdc (World.env []) World.stretch (fun n => n) World.today own' ks ri issuer id = .ok (n1, n2) ∧
    (toUtf8 n1).length < 2 ^ 32 ∧ (toUtf8 n2).length < 2 ^ 32 := by
  have h : World.officeCase = true := by decide +kernel
  unfold World.officeCase at h
  obtain ⟨a, ha, h⟩ := World.holds_ok h
  obtain ⟨b, hb, h⟩ := World.holds_ok h
  obtain ⟨ka, hka, h⟩ := World.holds_ok h
  obtain ⟨db, hdb, h⟩ := World.holds_ok h
  obtain ⟨s0, hs0, h⟩ := World.holds_ok h
  obtain ⟨pre, hpre, h⟩ := World.holds_ok h
  obtain ⟨d0, hd0, h⟩ := World.holds_ok h
  obtain ⟨g0, hg0, h⟩ := World.holds_ok h
  obtain ⟨t0, -, h⟩ := World.holds_ok h
  obtain ⟨e0, -, h⟩ := World.holds_ok h
  obtain ⟨r, hr, h⟩ := World.holds_ok h
  obtain ⟨tr, -, h⟩ := World.holds_ok h
  obtain ⟨⟨id, m1, m2, m3⟩, hx, h⟩ := World.holds_ok h
  obtain ⟨i, hi, h⟩ := World.holds_ok h
  obtain ⟨ti, -, h⟩ := World.holds_ok h
  obtain ⟨m, hm, h⟩ := World.holds_ok h
  obtain ⟨s1, hs1, h⟩ := World.holds_ok h
  obtain ⟨g1, hg1, h⟩ := World.holds_ok h
  obtain ⟨t1, -, h⟩ := World.holds_ok h
  obtain ⟨y, hy, h⟩ := World.holds_ok h
  obtain ⟨v, hv, h⟩ := World.holds_ok h
  simp only [Bool.and_eq_true, decide_eq_true_eq] at h
  obtain ⟨w1, w2, w3, w4, w5, w6, w7, w8, w9, w10, w11, w12, w13, w14, w15, w16, w17, w18, w19⟩ := h
  have hr0 := C70_reaches (World.env []) _ _ _ _ _ _ _ _ _ _ _ _ _ (by decide) (.inr ⟨_, rfl⟩) hs0
  rw [w4] at hr0
  have k0 := History.incept (E := World.env []) a b ka db _ none none none none none none none none s0 pre 0 g0 (World.usable_ok w1) hka hdb hs0 hpre hr0 (made hg0)
    (World.sendable_ok w2)
  have k1 := History.interact (E := World.env []) pre _ a b _ d0 _ none none s1 0 g1 k0 rfl hd0 hs1 (made hg1) (World.sendable_ok w3)
  have r0 := (history_sound World.crypto_ok World.hash_ok k0 (by simp)).reads ⟨s0, [.controller g0]⟩ (by simp) e0
  have r1 := (history_sound World.crypto_ok World.hash_ok k1 (by simp)).reads ⟨s1, [.controller g1]⟩ (by simp) (m1.drop t1.length)
  dsimp only at r0 r1
  rw [w5, ← toUtf8_append] at r0
  rw [w19, ← toUtf8_append, ← w18] at r1
  have hlen : a.keys.length = 2 := by
    have : World.holds (World.ks [1, 3]) (fun k => decide (k.keys.length = 2)) = true := by decide +kernel
    obtain ⟨k, h1, h2⟩ := World.holds_ok this
    rw [ha] at h1
    cases h1
    exact of_decide_eq_true h2
  refine ⟨pre, r.1, id, m1, m2, m3, y.1, y.2, ti, m2.drop ti.length, i.1, [⟨s0, [.controller g0]⟩], ⟨s1, [.controller g1]⟩, a, b,
    World.desk pre [t0 ++ e0] r.1 [tr] [] [], World.desk pre [t0 ++ e0, m1] r.1 [tr] id [m2], i.2, m, k0, rfl, hlen, ?_, ?_, hx, w11, w12, w13, ?_,
    World.controls_ok w9 [], ?_, rfl, k1, ?_, hi, w6, w16, hm, ?_, hy, w14, w15⟩
  · simp only [World.desk, if_pos]
    exact .cons r0 .nil
  · intro v' hv'
    rw [hv] at hv'
    cases hv'
    exact ⟨World.plain_proper _ w7, w8⟩
  · simp only [World.desk, if_pos]
    exact .cons ⟨t0, e0, rfl, w5, by simp⟩ .nil
  · simp only [World.desk]
    rw [if_neg (fun e => w10 e.symm)]
    simp
  · simp only [World.desk, if_pos]
    exact .cons r0 (.cons r1 .nil)
  · simp only [World.desk]
    rw [if_neg (fun e => w10 e.symm), if_pos trivial, ← w17]

/-- All that `C82_issued` and `C82_revoked` ask for is met. -/
example : ∃ (issuer id m1 m2 m3 n1 n2 : Str) (ks nks : KeySet) (log log' : List Entry), History (World.env []) issuer log ks nks ∧ History (World.env []) issuer log' ks nks ∧
    (∃ p ti gi ci tc gc sig, m1 = Parts.text p ∧ m2 = ti ++ gi ∧ CoupleText gi ci ∧ m3 = tc ++ gc ∧ ProofText true gc sig) ∧
    IsCredential (World.env []) id m3 ∧ ∃ p tr gr cr, n1 = Parts.text p ∧ n2 = tr ++ gr ∧ CoupleText gr cr := by
  obtain ⟨issuer, ri, id, m1, m2, m3, n1, n2, te, ge, prior, log, x, ks, nks, own, own', e, m, h1, h2, h3, h4, h5, h6, h7, h8, h9, -, -, -, -, h10, h11, h12, h13, h14, h15,
    h16, h17, h18, h19⟩ := World.office
  obtain ⟨p, ti, gi, ci, tc, gc, sig, ⟨a1, -⟩, ⟨a2, a3⟩, ⟨a4, a5⟩, ⟨d, c, sub, -, a6, -, a7, -⟩, -⟩ := C82_issued (World.env []) World.crypto_ok World.hash_ok (fun _ _ => rfl)
    issuer log ks nks h1 (by omega) own h4 World.stretch _ _ ri _ _ _ _ none h5 (by simp) id m1 m2 m3 h6 h7 h8 h9
  obtain ⟨p', tr, gr, cr, ⟨b1, -⟩, ⟨b2, b3⟩, -⟩ := C82_revoked (World.env []) World.crypto_ok World.hash_ok (fun _ _ => rfl) issuer _ ks nks h10
    (by simp [h2]) own' h11 World.stretch World.stretch 2 _ id ri prior te ge e h12 h13 h14 m h15 h16 _ _ n1 n2 h17 h18 h19
  exact ⟨issuer, id, m1, m2, m3, n1, n2, ks, nks, log, _, h1, h10, ⟨p, ti, gi, ci, tc, gc, sig, a1, a2, a3.2, a4, a5.2⟩, ⟨c, a6, a7⟩, p', tr, gr, cr, b1, b2, b3.2⟩

end Keride.Props
