/-
C99: the credentials that a credential rests on.
-/
import Verif.Lemmas.WorldRests
import Verif.Lemmas.RestsStream
import Verif.Lemmas.WorldDeep
import Verif.Props.Acdc
import Verif.Props.Deep

namespace Keride.Props

open Matter Saider Spec Sample

/-- C99: a new credential that is accepted with deep verification, as the only message of a stream, rests on credentials
all of which are stored, in force, and proven by the proofs stored with them, however far away they are, and whatever is
stored besides. -/
theorem C99_verified (E : Env) (hH : HashOk E.H) (st : Store) (deep : Option Bool) (hdeep : deep ≠ some false) (fuel : Nat) (raw : Bytes) (cred : Sad)
    (groups : List SigGroup) (q : Str) (r : Bool × List Str) (hread : Creder.newWithRaw E.fl raw = .ok cred) (h : verifyAcdc E st deep fuel cred groups [q] = .ok r)
    (hnew : ∀ t, st.getAcdc E q ≠ .ok t) (hA : Apart E st) (x : Str) (hx : RestsOn E st cred x) :
    ∃ text c gs, Found E st x text c ∧ attachedQuadlets E text c = .ok gs ∧ Proven E st c gs ∧ StillValid E st x := by
  have hd : deep.getD true = true := by
    cases deep with
    | none => rfl
    | some b => cases b with
      | true => rfl
      | false => exact absurd rfl hdeep
  obtain ⟨⟨-, m2⟩, m3⟩ := (deep_met hH hd fuel).1 raw cred groups [q] r hread h
  obtain ⟨p, -⟩ := acdc_ok hH hread h
  have key : ∀ y ∈ r.2, (∃ t, st.getAcdc E y = .ok t) → ∃ text c gs, Found E st y text c ∧ attachedQuadlets E text c = .ok gs ∧ Proven E st c gs ∧ StillValid E st y ∧
      ∀ z, SourceNamed c z → z ∈ r.2 := by
    rintro y hy ⟨t, ht⟩
    rcases m2 y hy with hy | hy | hy
    · rw [List.mem_singleton.mp hy] at ht
      exact absurd ht (hnew t)
    · exact absurd ht (hA y hy t)
    · exact hy
  suffices ∀ (c : Sad), (∀ y, SourceNamed c y → y ∈ r.2 ∧ ∃ t, st.getAcdc E y = .ok t) → ∀ x, RestsOn E st c x →
      ∃ text c gs, Found E st x text c ∧ attachedQuadlets E text c = .ok gs ∧ Proven E st c gs ∧ StillValid E st x from
    this cred (fun y hy => ⟨m3 y hy, names_found p hy⟩) x hx
  intro c hc x hx
  induction hx with
  | direct c x names =>
    obtain ⟨h1, h2⟩ := hc x names
    obtain ⟨text, c, gs, k1, k2, k3, k4, -⟩ := key x h1 h2
    exact ⟨text, c, gs, k1, k2, k3, k4⟩
  | through c c' q text r names found on ih =>
    obtain ⟨h1, h2⟩ := hc q names
    obtain ⟨text', c'', gs, k1, k2, k3, k4, k5⟩ := key q h1 h2
    have e1 : text = text' := Res.ok.inj (found.1.symm.trans k1.1)
    subst e1
    have e2 : c' = c'' := Res.ok.inj (found.2.1.symm.trans k1.2.1)
    subst e2
    exact ih fun y hy => ⟨k5 y hy, names_found k3 hy⟩

/-- C99, partial: a credential that a verifier keeps from a stream in which it is the only message, with deep verification,
rests on credentials all of which are stored, in force, and proven by the proofs stored with them. Missing: streams with
more messages, and without deep verification, where it is false (`C99_false`, `C99_shallow_false`). -/
theorem C99_partial (E : Env) (hH : HashOk E.H) (hR : Remembers E) (st st' : Store) (deep verify : Option Bool) (hdeep : deep ≠ some false) (hverify : verify ≠ some false)
    (fuel : Nat) (m g : Msg) (r : Res Unit) (h : ingestLoop E fuel deep verify st [m, g] [] = (st', r)) (hA : Apart E st) (text : Str) (cred : Sad)
    (hnew : st'.acdcs = st.acdcs ++ [text]) (hread : Creder.newWithRaw E.fl (toUtf8 text) = .ok cred) (x : Str) (hx : RestsOn E st cred x) :
    ∃ text c gs, Found E st x text c ∧ attachedQuadlets E text c = .ok gs ∧ Proven E st c gs ∧ StillValid E st x := by
  have same : st' ≠ st := by
    rintro rfl
    have := congrArg List.length hnew
    rw [List.length_append, List.length_singleton] at this
    omega
  unfold ingestLoop at h
  cases h1 : ingestOne E st fuel deep verify m (some g) [] with
  | err e => rw [h1] at h; exact absurd (Prod.ext_iff.mp h).1.symm same
  | panic => rw [h1] at h; exact absurd (Prod.ext_iff.mp h).1.symm same
  | ok y =>
    obtain ⟨a, v'⟩ := y
    rw [h1] at h
    dsimp only at h
    have hf := ingestOne_fresh hR hverify (fun q hq => by cases hq) h1
    have hst : (perform E st a).1 = st' := by
      cases hp : perform E st a with
      | mk s u =>
        rw [hp] at h
        cases u with
        | ok u => exact (Prod.ext_iff.mp h).1
        | err e => exact (Prod.ext_iff.mp h).1
        | panic => exact (Prod.ext_iff.mp h).1
    rcases perform_kels (Prod.ext hst rfl : perform E st a = (st', (perform E st a).2)) with rfl | ⟨pre, t, rfl, rfl⟩ | ⟨pre, t, rfl, rfl⟩ | ⟨t, rfl, rfl⟩
    · exact absurd rfl same
    · exfalso
      have := congrArg List.length hnew
      rw [List.length_append, List.length_singleton, show (st.insertKeyEvent pre t).acdcs = st.acdcs from rfl] at this
      omega
    · exfalso
      have := congrArg List.length hnew
      rw [List.length_append, List.length_singleton, show (st.insertTransactionEvent pre t).acdcs = st.acdcs from rfl] at this
      omega
    · have e : t = text := by
        have : st.acdcs ++ [t] = st.acdcs ++ [text] := hnew
        simpa using this
      subst e
      cases hf with
      | cred payload t g s l q v' read raw again said verified =>
        rw [again] at hread
        cases hread
        exact C99_verified E hH st deep hdeep fuel _ cred l q _ again verified ((acdc_known said verified).1 rfl) hA x hx

/-- C99, partial, for any stream taken in with deep verification, whatever its outcome: what a new credential rests on was in
force at some moment from the beginning of the stream to its end. (Not always at the moment it is taken in, `C99_false`.) -/
theorem C99_stream_partial (E : Env) (hH : HashOk E.H) (hR : Remembers E) (st st' : Store) (deep verify : Option Bool) (hdeep : deep ≠ some false)
    (hverify : verify ≠ some false) (fuel : Nat) (msgs : List Msg) (r : Res Unit) (h : ingestLoop E fuel deep verify st msgs [] = (st', r)) (hA : Apart E st')
    (hS : SameEdges E msgs st') (new : List Str) (hnew : st'.acdcs = st.acdcs ++ new) (text : Str) (ht : text ∈ new) (cred : Sad)
    (hread : Creder.newWithRaw E.fl (toUtf8 text) = .ok cred) (x : Str) (hx : RestsOn E st' cred x) :
    ∃ s, Extends st s ∧ Extends s st' ∧ StillValid E s x := by
  have hd : deep.getD true = true := by
    cases deep with
    | none => rfl
    | some b => cases b with
      | true => rfl
      | false => exact absurd rfl hdeep
  have e : (ingestLoop E fuel deep verify st msgs []).1 = st' := by rw [h]
  obtain ⟨w, m⟩ := metSince hH hR hd hverify msgs st [] ⟨fun y hy => absurd hy List.not_mem_nil, fun n t hn ht => absurd (List.getElem?_eq_some_iff.mp ht).1 (by omega),
    Extends.refl _⟩ (e ▸ hS)
  rw [e] at m
  obtain ⟨n, hn⟩ := List.getElem?_of_mem ht
  have hown := m.fresh (st.acdcs.length + n) text (by omega) (by
    rw [hnew, List.getElem?_append_right (by omega)]
    simpa using hn) cred hread
  clear hread
  have key : ∀ y ∈ w, (∃ t, st'.getAcdc E y = .ok t) → ∃ text c, Found E st' y text c ∧ ValidSince E st st' y ∧ LeadsInto E st' w c := by
    rintro y hy ⟨t, ht⟩
    rcases m.met y hy with hy | hy
    · exact absurd ht (hA y hy t)
    · exact hy
  induction hx with
  | direct c x names =>
    obtain ⟨h1, h2⟩ := hown x names
    obtain ⟨-, -, -, h3, -⟩ := key x h1 h2
    exact h3
  | through c c' q u r names found on ih =>
    obtain ⟨h1, h2⟩ := hown q names
    obtain ⟨u', c'', k1, -, k3⟩ := key q h1 h2
    have e1 : u = u' := Res.ok.inj (found.1.symm.trans k1.1)
    subst e1
    have e2 : c' = c'' := Res.ok.inj (found.2.1.symm.trans k1.2.1)
    subst e2
    exact ih k3

/-- What lies between a store where a credential is revoked and a later one ends with a revocation. -/
theorem revoked_between {H : Hash} {chk : Bool} {fl : Str → Option Str} {hist : List (Msg × Msg)} {st s st' : Store} (hI : TelsOk H chk fl hist st') {id : Str}
    (hlen : (st'.tels id).length ≤ 2 ^ 32) (h1 : Extends st s) (h2 : Extends s st') (hr : Revoked fl st id) {t : Str} (ht : (s.tels id).getLast? = some t) {e : Sad}
    (he : Serder.newWithRaw fl (toUtf8 t) = .ok e) : HasText (str% "t") (str% "rev") e := by
  obtain ⟨log, g1, g2⟩ := hI id hlen
  obtain ⟨u, hu, eu, heu, hrev⟩ := hr.mono h1
  obtain ⟨i, hi⟩ := List.getElem?_of_mem hu
  have hil := (List.getElem?_eq_some_iff.mp hi).1
  have lift : ∀ {n : Nat} {y : Str}, (s.tels id)[n]? = some y → (st'.tels id)[n]? = some y := by
    intro n y hy
    obtain ⟨l, hl⟩ := h2.tels id
    rw [← hl, List.getElem?_append_left (List.getElem?_eq_some_iff.mp hy).1]
    exact hy
  obtain ⟨e', hi', he'⟩ := forall₂_get (StoredTx.reads g1) (lift hi)
  rw [heu] at he'
  cases he'
  rcases g2 with rfl | g2
  · simp at hi'
  obtain ⟨x, l, rfl, h3, h4⟩ := ValidTel.tail g2
  obtain ⟨j, rfl⟩ : ∃ j, i = j + 1 := by
    cases i with
    | zero =>
      cases hi'
      exact absurd hrev h3
    | succ j => exact ⟨j, rfl⟩
  rw [List.getLast?_eq_getElem?] at ht
  obtain ⟨y, hy, hye⟩ := forall₂_get (StoredTx.reads g1) (lift ht)
  rw [he] at hye
  cases hye
  obtain ⟨k, hk⟩ : ∃ k, (s.tels id).length - 1 = k + 1 := ⟨(s.tels id).length - 2, by omega⟩
  rw [hk, List.getElem?_cons_succ] at hy
  exact h4 _ (List.mem_of_getElem? hy)

/-- C99: no stream taken in with deep verification adds a credential that rests on one that was revoked before. -/
theorem C99_revoked (E : Env) (hH : HashOk E.H) (hR : Remembers E) (hist : List (Msg × Msg)) (st st' : Store) (hreach : Reach E hist st) (deep verify : Option Bool)
    (hdeep : deep ≠ some false) (hverify : verify ≠ some false) (fuel : Nat) (stream : Bytes) (msgs : List Msg) (hparse : E.parse stream = .ok msgs) (r : Res Unit)
    (h : ingestLoop E fuel deep verify st msgs [] = (st', r)) (hA : Apart E st') (hS : SameEdges E msgs st') (new : List Str) (hnew : st'.acdcs = st.acdcs ++ new)
    (text : Str) (ht : text ∈ new) (cred : Sad) (hread : Creder.newWithRaw E.fl (toUtf8 text) = .ok cred) (x : Str) (hlen : (st'.tels x).length ≤ 2 ^ 32)
    (hx : Revoked E.fl st x) : ¬ RestsOn E st' cred x := by
  intro hr
  obtain ⟨s, h1, h2, t, e, dt, k1, k2, k3, -⟩ := C99_stream_partial E hH hR st st' deep verify hdeep hverify fuel msgs r h hA hS new hnew text ht cred hread x hr
  have reach : Reach E (hist ++ pairs msgs) st' := by
    have := Reach.ingest E fuel msgs.length stream msgs deep verify hreach ⟨rfl, rfl, rfl, rfl⟩ hR hparse hverify
    rw [List.take_length, h] at this
    exact this
  exact k3 (revoked_between (telsOk hH reach) hlen h1 h2 hx k1 k2)

/-! ### Credentials that rest on others -/

theorem World.isRevoked_ok {st : Store} {q : Str} (h : World.isRevoked st q = true) : Revoked (fun _ => none) st q := by
  unfold World.isRevoked at h
  split at h
  · rename_i t ht
    obtain ⟨s, hs, h⟩ := World.holds_ok h
    split at h
    · rename_i o ho
      split at h
      · rename_i x hx
        refine ⟨t, List.mem_of_getLast? ht, s, hs, ?_⟩
        unfold HasText
        rw [ho, field_find, hx, of_decide_eq_true h]
      · cases h
    · cases h
  · cases h

theorem World.lastCred_ok {st : Store} {f : Sad → Bool} (h : World.lastCred st f = true) :
    ∃ l text cred, st.acdcs = l ++ [text] ∧ Creder.newWithRaw (fun _ => none) (toUtf8 text) = .ok cred ∧ f cred = true := by
  unfold World.lastCred at h
  split at h
  · rename_i t ht
    obtain ⟨c, hc, h⟩ := World.holds_ok h
    obtain ⟨l, hl⟩ := List.getLast?_eq_some_iff.mp ht
    exact ⟨l, t, c, hl, hc, h⟩
  · cases h

theorem pair_ok {x : Store × Res Unit} (h : x.2.isOk = true) : x = (x.1, .ok ()) := by
  obtain ⟨a, b⟩ := x
  cases b with
  | ok u => rfl
  | err e => cases h
  | panic => cases h

/-- One more credential, that names the SAID. -/
def World.addsNaming (q : Str) (st st' : Store) : Bool :=
  decide (st'.acdcs.dropLast = st.acdcs) && World.lastCred st' (World.namesSaid q)

theorem World.addsNaming_ok {q : Str} {st st' : Store} (h : World.addsNaming q st st' = true) :
    ∃ text cred, st'.acdcs = st.acdcs ++ [text] ∧ Creder.newWithRaw (fun _ => none) (toUtf8 text) = .ok cred ∧ SourceNamed cred q := by
  unfold World.addsNaming at h
  rw [Bool.and_eq_true] at h
  obtain ⟨l, text, cred, h1, h2, h3⟩ := World.lastCred_ok h.2
  have := of_decide_eq_true h.1
  rw [h1, List.dropLast_concat] at this
  exact ⟨text, cred, by rw [h1, this], h2, World.namesSaid_ok h3⟩

/-- A credential is revoked, and then one that rests on it is sent: in the same stream; alone without deep verification;
alone with deep verification. -/
theorem World.restCase_ok : World.holds World.restCase (fun x =>
    let E := World.reader (x.1 ++ x.2.1)
    let a := ingestLoop E 30 none none Store.empty x.1 []
    let b := ingestLoop E 30 none none Store.empty (x.1 ++ x.2.1) []
    let c := ingestLoop E 30 (some false) none a.1 x.2.1 []
    let d := ingestLoop E 30 none none a.1 x.2.1 []
    a.2.isOk && b.2.isOk && c.2.isOk && World.refused d.2 && World.isRevoked a.1 x.2.2 && World.addsNaming x.2.2 a.1 b.1 && World.addsNaming x.2.2 a.1 c.1) = true := by
  decide +kernel

/-- C99 is false for a stream with more messages: a credential is accepted and then revoked, and after that, in the same
stream, a credential that rests on it is accepted, although deep verification is asked for by default. Sent alone, it is
refused. -/
theorem C99_false : ∃ (E : Env) (msgs last : List Msg) (st st' : Store) (text : Str) (cred : Sad) (q : Str), HashOk E.H ∧ CryptoOk E.C ∧ Remembers E ∧
    ingestLoop E 30 none none Store.empty msgs [] = (st, .ok ()) ∧ ingestLoop E 30 none none Store.empty (msgs ++ last) [] = (st', .ok ()) ∧
    st'.acdcs = st.acdcs ++ [text] ∧ Creder.newWithRaw E.fl (toUtf8 text) = .ok cred ∧ SourceNamed cred q ∧ Revoked E.fl st q ∧
    ∃ e, (ingestLoop E 30 none none st last []).2 = .err e := by
  obtain ⟨x, -, h⟩ := World.holds_ok World.restCase_ok
  simp only [Bool.and_eq_true] at h
  obtain ⟨⟨⟨⟨⟨⟨h1, h2⟩, -⟩, h4⟩, h5⟩, h6⟩, -⟩ := h
  obtain ⟨text, cred, k1, k2, k3⟩ := World.addsNaming_ok h6
  exact ⟨World.reader (x.1 ++ x.2.1), x.1, x.2.1, _, _, text, cred, x.2.2, World.hash_ok, World.crypto_ok, World.reader_remembers _, pair_ok h1, pair_ok h2, k1, k2, k3,
    World.isRevoked_ok h5, World.refused_ok h4⟩

/-- C99 is false without deep verification: a credential that rests on a revoked one is accepted. -/
theorem C99_shallow_false : ∃ (E : Env) (msgs last : List Msg) (st st' : Store) (text : Str) (cred : Sad) (q : Str), HashOk E.H ∧ CryptoOk E.C ∧ Remembers E ∧
    ingestLoop E 30 none none Store.empty msgs [] = (st, .ok ()) ∧ ingestLoop E 30 (some false) none st last [] = (st', .ok ()) ∧
    st'.acdcs = st.acdcs ++ [text] ∧ Creder.newWithRaw E.fl (toUtf8 text) = .ok cred ∧ SourceNamed cred q ∧ Revoked E.fl st q := by
  obtain ⟨x, -, h⟩ := World.holds_ok World.restCase_ok
  simp only [Bool.and_eq_true] at h
  obtain ⟨⟨⟨⟨⟨⟨h1, -⟩, h3⟩, -⟩, h5⟩, -⟩, h7⟩ := h
  obtain ⟨text, cred, k1, k2, k3⟩ := World.addsNaming_ok h7
  exact ⟨World.reader (x.1 ++ x.2.1), x.1, x.2.1, _, _, text, cred, x.2.2, World.hash_ok, World.crypto_ok, World.reader_remembers _, pair_ok h1, pair_ok h3, k1, k2, k3,
    World.isRevoked_ok h5⟩

/-- The hypotheses of `C99_partial` are met by a credential that rests on one that is not revoked, sent alone. -/
example : ∃ (E : Env) (st st' : Store) (m g : Msg) (text : Str) (cred : Sad) (q : Str), HashOk E.H ∧ Remembers E ∧ ingestLoop E 30 none none st [m, g] [] = (st', .ok ()) ∧
    Apart E st ∧ st'.acdcs = st.acdcs ++ [text] ∧ Creder.newWithRaw E.fl (toUtf8 text) = .ok cred ∧ RestsOn E st cred q := by
  obtain ⟨x, -, h⟩ := World.holds_ok (r := World.restCase2) (f := fun x =>
    let E := World.reader (x.1 ++ x.2.1)
    let a := ingestLoop E 30 none none Store.empty x.1 []
    let b := ingestLoop E 30 none none a.1 x.2.1 []
    decide (x.2.1.length = 2) && b.2.isOk && World.apart x.1 && World.addsNaming x.2.2 a.1 b.1) (by decide +kernel)
  simp only [Bool.and_eq_true] at h
  obtain ⟨⟨⟨h1, h2⟩, h3⟩, h4⟩ := h
  obtain ⟨text, cred, k1, k2, k3⟩ := World.addsNaming_ok h4
  obtain ⟨m, g, e⟩ := List.length_eq_two.mp (of_decide_eq_true h1)
  refine ⟨World.reader (x.1 ++ x.2.1), _, _, m, g, text, cred, x.2.2, World.hash_ok, World.reader_remembers _, e ▸ pair_ok h2,
    World.apart_ok h3 rfl rfl (came (World.reader_remembers _) (by simp) x.1), k1, k2, .direct _ _ k3⟩

/-- The hypotheses of `C99_stream_partial` are met by a stream with two credentials, the second of which rests on the first. -/
example : ∃ (E : Env) (st' : Store) (msgs : List Msg) (new : List Str) (text : Str) (cred : Sad) (q : Str), HashOk E.H ∧ Remembers E ∧
    ingestLoop E 30 none none Store.empty msgs [] = (st', .ok ()) ∧ Apart E st' ∧ SameEdges E msgs st' ∧ st'.acdcs = Store.empty.acdcs ++ new ∧ text ∈ new ∧
    Creder.newWithRaw E.fl (toUtf8 text) = .ok cred ∧ RestsOn E st' cred q := by
  obtain ⟨x, -, h⟩ := World.holds_ok (r := World.restCase2) (f := fun x =>
    let E := World.reader (x.1 ++ x.2.1)
    let b := ingestLoop E 30 none none Store.empty (x.1 ++ x.2.1) []
    b.2.isOk && World.apart (x.1 ++ x.2.1) && decide ((x.1 ++ x.2.1).filterMap World.credSaid).Nodup && World.lastCred b.1 (World.namesSaid x.2.2)) (by decide +kernel)
  simp only [Bool.and_eq_true] at h
  obtain ⟨⟨⟨h1, h2⟩, h3⟩, h4⟩ := h
  obtain ⟨l, text, cred, k1, k2, k3⟩ := World.lastCred_ok h4
  have hc := came (World.reader_remembers (x.1 ++ x.2.1)) (fuel := 30) (deep := none) (verify := none) (by simp) (x.1 ++ x.2.1)
  exact ⟨World.reader (x.1 ++ x.2.1), _, x.1 ++ x.2.1, l ++ [text], text, cred, x.2.2, World.hash_ok, World.reader_remembers _, pair_ok h1, World.apart_ok h2 rfl rfl hc,
    World.sameEdges_ok (of_decide_eq_true h3) rfl rfl hc, k1, by simp, k2, .direct _ _ (World.namesSaid_ok k3)⟩

end Keride.Props
