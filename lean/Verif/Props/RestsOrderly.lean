/-
C99 for verifiers that were sent what the library makes: no event has the SAID of a credential, and no two credentials
have the same, up to hash collisions.
-/
import Verif.Props.Rests
import Verif.Lemmas.Foreign

namespace Keride.Props

open Matter Saider Spec Sample

/-- Where a stored event belongs. -/
def Place.isEvent : Place → Prop
  | .cred _ => False
  | _ => True

theorem stored_cred_placed {E : Env} (hH : HashOk E.H) {hist : List (Msg × Msg)} {st : Store} (h : Reach E hist st) (ho : Orderly E st) {q t : Str} {c : Sad}
    (mem : t ∈ st.acdcs) (read : Creder.newWithRaw E.fl (toUtf8 t) = .ok c) (said : Sadder.said E.chk c = .ok q) :
    ByContent E.H E.chk c [str% "d"] ∧ Placed E c (.cred q) := by
  obtain ⟨n, hn⟩ := List.getElem?_of_mem mem
  obtain ⟨E', c', groups, q', hsc, ⟨_, _, _, _, _, _, _, hr⟩, hpr, -⟩ := C66_stored E hH hist st h n t hn
  rw [read] at hr
  cases hr
  obtain ⟨h1, h2⟩ := ho.credentials t c mem read
  obtain ⟨c1, c2, c3, c4⟩ := hsc
  have hdig := hpr.digest
  have hb : ByContent E.H E.chk c [str% "d"] := byContent_self (by simpa only [c1, c2, c3, c4] using hdig) h1
  exact ⟨hb, _, hb, by decide, by decide, h2, said⟩

theorem stored_event_placed {E : Env} (hH : HashOk E.H) {hist : List (Msg × Msg)} {st : Store} (h : Reach E hist st)
    (hlen : ∀ p, (st.kels p).length ≤ 2 ^ 32 ∧ (st.tels p).length ≤ 2 ^ 32) (ho : Orderly E st) {q p t : Str} {s : Sad} (hd : Digestive q)
    (mem : t ∈ st.kels p ∨ t ∈ st.tels p) (read : Serder.newWithRaw E.fl (toUtf8 t) = .ok s) (said : Sadder.said E.chk s = .ok q) :
    ∃ P, Placed E s P ∧ P.isEvent := by
  obtain ⟨kel, tel, hk, ht⟩ := C62_log E hH hist st h hlen
  rcases mem with mem | mem
  · obtain ⟨e, he, _, _, _, _, _, _, _, hr⟩ := forall₂_mem (hk p).1 mem
    rw [read] at hr
    cases hr
    rcases (hk p).2 with h0 | hv
    · rw [h0] at he; cases he
    obtain ⟨n, hn⟩ := log_placed hv he (ho.events p t _ (.inl mem) read)
    exact ⟨_, hn, trivial⟩
  · obtain ⟨e, he, _, _, _, _, _, _, _, _, hr⟩ := forall₂_mem (ht p).1 mem
    rw [read] at hr
    cases hr
    rcases (ht p).2 with h0 | hv
    · rw [h0] at he; cases he
    rcases tel_placed hv he (ho.events p t _ (.inr mem) read) said hd (ho.registries p t _ mem read) with k | k | k
    · exact ⟨_, k, trivial⟩
    · exact ⟨_, k, trivial⟩
    · exact ⟨_, k, trivial⟩

/-- No stored event has the SAID of a stored credential. -/
theorem apart_of {E : Env} (hH : HashOk E.H) {hist : List (Msg × Msg)} {st : Store} (h : Reach E hist st)
    (hlen : ∀ p, (st.kels p).length ≤ 2 ^ 32 ∧ (st.tels p).length ≤ 2 ^ 32) (ho : Orderly E st) (hcol : ¬ Collision E.H (str% "E") (StoreText E.fl st) (StoreText E.fl st)) :
    Apart E st := by
  rintro q ⟨p, t, s, mem, read, said⟩ text ht
  have hf := Res.ofOption_eq_ok.mp ht
  have hm := List.mem_of_find?_eq_some hf
  have hs := List.find?_some hf
  unfold hasSaid at hs
  split at hs
  · rename_i q' hq'
    have e := of_decide_eq_true hs
    subst e
    obtain ⟨c, hc1, hc2⟩ := Res.bind_eq_ok.mp hq'
    obtain ⟨-, hc⟩ := stored_cred_placed hH h ho hm hc1 hc2
    obtain ⟨P, hP, hev⟩ := stored_event_placed hH h hlen ho (hc.digestive hc2) mem read said
    rcases hP.same hc said hc2 with rfl | k
    · exact hev
    · refine hcol (k.mono (fun _ k => ⟨t, .inr ⟨p, mem⟩, s, .inl read, k⟩) fun _ k => ⟨text, .inl hm, c, .inr hc1, k⟩)
  · cases hs

/-- A credential of a stream that is addressed by its content has the edges of the stored one with its SAID. -/
theorem sameEdges_of {E : Env} (hH : HashOk E.H) {hist : List (Msg × Msg)} {st : Store} (h : Reach E hist st) (ho : Orderly E st) {msgs : List Msg} (hs : OrdinaryStream E msgs)
    (hcol : ¬ Collision E.H (str% "E") (StreamText E.fl msgs) (StoreText E.fl st)) : SameEdges E msgs st := by
  intro p c t c' q hp hr hself ht hr' hq hq'
  obtain ⟨hb, -⟩ := stored_cred_placed hH h ho ht hr' hq'
  rcases same_content (byContent_self hself (hs p c hp hr)) hb hq hq' with k | k
  · exact absurd (k.mono (fun _ k => ⟨p, c, hp, hr, k⟩) fun _ k => ⟨t, .inl ht, c', .inr hr', k⟩) hcol
  · exact k _ (by decide) (by decide)

/-- C99: a verifier takes in a stream, with deep verification, and what it has stored in the end, and the credentials of the stream, are in the form that the library
gives them. Whatever a credential that it took in rests on, directly or through others, was in force at some moment since the stream began, and nothing that was
revoked before the stream began is among it; unless two different texts digested for these documents have the same digest. -/
theorem C99_orderly_partial (E : Env) (hH : HashOk E.H) (hR : Remembers E) (hist : List (Msg × Msg)) (st st' : Store) (hreach : Reach E hist st) (deep verify : Option Bool)
    (hdeep : deep ≠ some false) (hverify : verify ≠ some false) (fuel : Nat) (stream : Bytes) (msgs : List Msg) (hparse : E.parse stream = .ok msgs) (r : Res Unit)
    (h : ingestLoop E fuel deep verify st msgs [] = (st', r)) (hlen : ∀ p, (st'.kels p).length ≤ 2 ^ 32 ∧ (st'.tels p).length ≤ 2 ^ 32) (ho : Orderly E st')
    (hs : OrdinaryStream E msgs) (new : List Str) (hnew : st'.acdcs = st.acdcs ++ new) (text : Str) (ht : text ∈ new) (cred : Sad)
    (hread : Creder.newWithRaw E.fl (toUtf8 text) = .ok cred) (x : Str) (hx : RestsOn E st' cred x) :
    ((∃ s, Extends st s ∧ Extends s st' ∧ StillValid E s x) ∧ ¬ Revoked E.fl st x) ∨
      Collision E.H (str% "E") (fun t => StreamText E.fl msgs t ∨ StoreText E.fl st' t) (StoreText E.fl st') := by
  by_cases hcol : Collision E.H (str% "E") (fun t => StreamText E.fl msgs t ∨ StoreText E.fl st' t) (StoreText E.fl st')
  · exact .inr hcol
  have reach : Reach E (hist ++ pairs msgs) st' := by
    have := Reach.ingest E fuel msgs.length stream msgs deep verify hreach ⟨rfl, rfl, rfl, rfl⟩ hR hparse hverify
    rw [List.take_length, h] at this
    exact this
  have hA : Apart E st' := apart_of hH reach hlen ho fun k => hcol (k.mono (fun _ => .inr) fun _ => id)
  have hS : SameEdges E msgs st' := sameEdges_of hH reach ho hs fun k => hcol (k.mono (fun _ => .inl) fun _ => id)
  exact .inl ⟨C99_stream_partial E hH hR st st' deep verify hdeep hverify fuel msgs r h hA hS new hnew text ht cred hread x hx,
    fun hr => C99_revoked E hH hR hist st st' hreach deep verify hdeep hverify fuel stream msgs hparse r h hA hS new hnew text ht cred hread x (hlen x).2 hr hx⟩

/-! ### A stream that meets the hypotheses -/

/-- A message is in the form that the library gives it. -/
def World.tidy : Msg → Bool
  | .payload p =>
    (match Serder.newWithRaw (fun _ => none) (toUtf8 p) with
      | .ok s => World.ordinary s.ked && (!(match field (str% "t") s.ked with | some (.str t) => decide (t = str% "vcp") | _ => false) ||
          (match field (str% "i") s.ked, Sadder.said true s with
            | some (.str i), .ok q => decide (i = q)
            | _, _ => false))
      | _ => true) &&
    (match Creder.newWithRaw (fun _ => none) (toUtf8 p) with
      | .ok c => World.ordinary c.ked && (field (str% "t") c.ked).isNone
      | _ => true)
  | _ => true

theorem World.tidy_event {p : Str} (h : World.tidy (.payload p) = true) {s : Sad} (hs : Serder.newWithRaw (fun _ => none) (toUtf8 p) = .ok s) :
    Ordinary s ∧ (HasText (str% "t") (str% "vcp") s → ∀ i, HasText (str% "i") i s → Sadder.said true s = .ok i) := by
  unfold World.tidy at h
  simp only [hs, Bool.and_eq_true] at h
  obtain ⟨⟨h1, h2⟩, -⟩ := h
  refine ⟨World.ordinary_ok h1, fun ht i hi => ?_⟩
  rw [show field (str% "t") s.ked = some (.str (str% "vcp")) from ht, show field (str% "i") s.ked = some (.str i) from hi] at h2
  simp only [decide_true, Bool.not_true, Bool.false_or] at h2
  split at h2
  · rename_i i' q h3 h4
    cases h3
    rw [h4, of_decide_eq_true h2]
  · cases h2

theorem World.tidy_cred {p : Str} (h : World.tidy (.payload p) = true) {c : Sad} (hc : Creder.newWithRaw (fun _ => none) (toUtf8 p) = .ok c) :
    Ordinary c ∧ field (str% "t") c.ked = none := by
  unfold World.tidy at h
  simp only [hc, Bool.and_eq_true] at h
  exact ⟨World.ordinary_ok h.2.1, Option.isNone_iff_eq_none.mp h.2.2⟩

theorem _root_.Keride.Spec.ValidTel.ident {H : Hash} {chk : Bool} {W : Known} {id : Str} {log : List Sad} (h : ValidTel H chk W id log) : ∀ s ∈ log, HasText (str% "i") id s := by
  induction h with
  | incept e a ii type ident => intro s hs; cases List.mem_singleton.mp hs; exact ident
  | issue e ri type ident => intro s hs; cases List.mem_singleton.mp hs; exact ident
  | revoke log prev e ri psaid before type ident _ _ _ _ _ _ _ _ ih =>
    intro s hs
    rcases List.mem_append.mp hs with hs | hs
    · exact ih s hs
    · cases List.mem_singleton.mp hs
      exact ident

theorem World.tidy_orderly {l : List Msg} (h : l.all World.tidy = true) {E : Env} (h1 : E.chk = true) (h2 : E.fl = fun _ => none) (hH : HashOk E.H) {st : Store}
    (hr : Reach E (pairs l) st) (hlen : ∀ p, (st.kels p).length ≤ 2 ^ 32 ∧ (st.tels p).length ≤ 2 ^ 32) (hc : Came E (pairs l) st) : Orderly E st ∧ OrdinaryStream E l := by
  have ht : ∀ {p : Str}, Msg.payload p ∈ l → World.tidy (.payload p) = true := fun hp => List.all_eq_true.mp h _ hp
  refine ⟨⟨fun p t s hm hs => ?_, fun t c hm hs => ?_, fun q t s hm hs hv => ?_⟩, fun p c hp hs => ?_⟩
  · obtain ⟨p', g, k1, k2⟩ := hc.1 p t s hm hs
    rw [h2] at k2
    exact (World.tidy_event (ht (mem_pairs k1)) k2).1
  · obtain ⟨p', g, k1, k2⟩ := hc.2 t hm c hs
    rw [h2] at k2
    exact World.tidy_cred (ht (mem_pairs k1)) k2
  · obtain ⟨kel, tel, -, htel⟩ := C62_log E hH _ st hr hlen
    obtain ⟨e, he, _, _, _, _, _, _, _, _, hr'⟩ := forall₂_mem (htel q).1 hm
    rw [hs] at hr'
    cases hr'
    rcases (htel q).2 with h0 | hv'
    · rw [h0] at he; cases he
    obtain ⟨p', g, k1, k2⟩ := hc.1 q t s (.inr hm) hs
    rw [h2] at k2
    rw [h1]
    exact (World.tidy_event (ht (mem_pairs k1)) k2).2 hv _ (hv'.ident _ he)
  · rw [h2] at hs
    exact (World.tidy_cred (ht hp) hs).1

/-- A verifier that reads the empty text as the whole stream. -/
def World.streamReader (msgs : List Msg) : Env :=
  { World.reader msgs with parse := fun b => if b = [] then .ok msgs else (World.reader msgs).parse b }

theorem World.streamReader_remembers (msgs : List Msg) : Remembers (World.streamReader msgs) :=
  ⟨fun _ _ _ _ _ _ _ _ => rfl, fun _ _ _ _ _ _ _ _ => rfl, fun _ _ _ _ _ _ _ => rfl⟩

/-- The hypotheses of `C99_orderly_partial` are met by a stream with two credentials, the second of which rests on the first. -/
example : ∃ (E : Env) (st' : Store) (stream : Bytes) (msgs : List Msg) (new : List Str) (text : Str) (cred : Sad) (q : Str), HashOk E.H ∧ Remembers E ∧
    Reach E [] Store.empty ∧ E.parse stream = .ok msgs ∧ ingestLoop E 30 none none Store.empty msgs [] = (st', .ok ()) ∧
    (∀ p, (st'.kels p).length ≤ 2 ^ 32 ∧ (st'.tels p).length ≤ 2 ^ 32) ∧ Orderly E st' ∧ OrdinaryStream E msgs ∧ st'.acdcs = Store.empty.acdcs ++ new ∧ text ∈ new ∧
    Creder.newWithRaw E.fl (toUtf8 text) = .ok cred ∧ RestsOn E st' cred q := by
  obtain ⟨x, -, h⟩ := World.holds_ok (r := World.restCase2) (f := fun x =>
    let l := x.1 ++ x.2.1
    let b := ingestLoop (World.streamReader l) 30 none none Store.empty l []
    b.2.isOk && l.all World.tidy && World.lastCred b.1 (World.namesSaid x.2.2) && decide (l.length ≤ 1000)) (by decide +kernel)
  simp only [Bool.and_eq_true] at h
  obtain ⟨⟨⟨h1, h2⟩, h3⟩, h4⟩ := h
  obtain ⟨l, text, cred, k1, k2, k3⟩ := World.lastCred_ok h3
  have hc := came (World.streamReader_remembers (x.1 ++ x.2.1)) (fuel := 30) (deep := none) (verify := none) (by simp) (x.1 ++ x.2.1)
  have hr := Reach.ingest (World.streamReader (x.1 ++ x.2.1)) 30 (x.1 ++ x.2.1).length [] (x.1 ++ x.2.1) none none .empty ⟨rfl, rfl, rfl, rfl⟩
    (World.streamReader_remembers (x.1 ++ x.2.1)) rfl (by simp)
  rw [List.take_length, List.nil_append] at hr
  have hlen : ∀ p, ((ingestLoop (World.streamReader (x.1 ++ x.2.1)) 30 none none Store.empty (x.1 ++ x.2.1) []).1.kels p).length ≤ 2 ^ 32 ∧
      ((ingestLoop (World.streamReader (x.1 ++ x.2.1)) 30 none none Store.empty (x.1 ++ x.2.1) []).1.tels p).length ≤ 2 ^ 32 := by
    intro p
    have := ingestLoop_length (E := World.streamReader (x.1 ++ x.2.1)) (fuel := 30) (deep := none) (verify := none) Store.empty (x.1 ++ x.2.1) [] p
    have h4 := of_decide_eq_true h4
    have e1 : (Store.empty.kels p).length = 0 := rfl
    have e2 : (Store.empty.tels p).length = 0 := rfl
    omega
  obtain ⟨o1, o2⟩ := World.tidy_orderly h2 rfl rfl World.hash_ok hr hlen hc
  exact ⟨World.streamReader (x.1 ++ x.2.1), _, [], x.1 ++ x.2.1, l ++ [text], text, cred, x.2.2, World.hash_ok, World.streamReader_remembers _, .empty, rfl, pair_ok h1,
    hlen, o1, o2, k1, by simp, k2, .direct _ _ (World.namesSaid_ok k3)⟩

end Keride.Props
