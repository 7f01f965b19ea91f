/-
C106: what verifiers keep under the registries of a controller, and as proven by them, is what the controller sealed and signed.
-/
import Verif.Props.Fork
import Verif.Props.Acdc

namespace Keride.Props

open Matter Spec Sample

/-- A stored text that is read is the text of an event of the log. -/
theorem stored_event {fl : Str → Option Str} {hist : List (Msg × Msg)} {texts : List Str} {log : List Entry} (f : List.Forall₂ (Stored fl hist) texts log)
    {t : Str} {a : Sad} (ht : t ∈ texts) (ha : Serder.newWithRaw fl (toUtf8 t) = .ok a) : ∃ x ∈ log, x.sad = a := by
  obtain ⟨i, hi⟩ := List.mem_iff_getElem?.mp ht
  obtain ⟨e, he, -, -, -, -, -, -, -, hr⟩ := forall₂_get f hi
  rw [ha] at hr
  exact ⟨e, List.mem_of_getElem? he, (Res.ok.inj hr).symm⟩

/-- An event of a log of the same events. -/
theorem same_event {p log : List Entry} (f : List.Forall₂ SameEvent p log) {x : Entry} (hx : x ∈ log) : ∃ y ∈ p, SameEvent y x := by
  obtain ⟨i, hi⟩ := List.mem_iff_getElem?.mp hx
  obtain ⟨y, hy, h⟩ := forall₂_get (f.flip.imp fun _ _ => id) hi
  exact ⟨y, List.mem_of_getElem? hy, h⟩

theorem seals_same {chk : Bool} {x y : Entry} {e : Sad} (h : SameEvent x y) (hs : Seals chk y.sad e) : Seals chk x.sad e := by
  obtain ⟨sl, i, n, d, h1, h2⟩ := hs
  exact ⟨sl, i, n, d, by rw [h (str% "a") (by decide) (by decide)]; exact h1, h2⟩

section
variable (E : Env) (hH : HashOk E.H) (hist : List (Msg × Msg)) (st : Store) (h : Reach E hist st)
  (hlen : ∀ p, (st.kels p).length ≤ 2 ^ 32 ∧ (st.tels p).length ≤ 2 ^ 32) (pre : Str)
  (own : List Entry) (hown : ValidLog E.H E.C E.chk E.fl pre own) (hread : ∀ x ∈ own, ∃ r, Serder.newWithRaw E.fl r = .ok x.sad)
  (hfew : ∀ x ∈ own, ∀ t, Serder.tholder E.chk E.fl x.sad = .ok (some t) ∨ Serder.ntholder E.chk E.fl x.sad = .ok (some t) → FewWeights t)
  (hsigns : SignsOnly E own hist) (ho : ∀ x ∈ own, Ordinary x.sad)
  (ho' : ∀ payload g s, (Msg.payload payload, g) ∈ hist → Serder.newWithRaw E.fl (toUtf8 payload) = .ok s → Ordinary s)
include hH h hlen hown hread hfew hsigns ho ho'

/-- C106: as long as the keys of a controller sign the events of one log only, every transaction event that any verifier keeps, and that is the inception of a
registry of the controller, or names a registry of which the controller is, is sealed by an event of that log. Or digests collide. -/
theorem C106_transactions : ∃ log, List.Forall₂ (Stored E.fl hist) (st.kels pre) log ∧
    ((∀ id, ∀ t ∈ st.tels id, ∀ e, Serder.newWithRaw E.fl (toUtf8 t) = .ok e →
      (HasText (str% "t") (str% "vcp") e → HasText (str% "ii") pre e → ∃ x ∈ own, Seals E.chk x.sad e) ∧
      (∀ ri, HasText (str% "t") (str% "iss") e ∨ HasText (str% "t") (str% "rev") e → HasText (str% "ri") ri e → RegistryOf E st ri pre →
        ∃ x ∈ own, Seals E.chk x.sad e)) ∨
      Collision E.H (str% "E") (LogText own) (LogText log)) := by
  obtain ⟨log, f, hc⟩ := C104_honest E hH hist st h pre (hlen pre).1 own hown hread hfew hsigns ho ho'
  refine ⟨log, f, hc.imp ?_ id⟩
  rintro ⟨p, q, rfl, fs⟩ id t ht e he
  -- what an event kept of the controller seals is sealed in the log of the controller
  have move : ∀ a, (∃ u ∈ st.kels pre, Serder.newWithRaw E.fl (toUtf8 u) = .ok a) → Seals E.chk a e → ∃ x ∈ p ++ q, Seals E.chk x.sad e := by
    rintro a ⟨u, hu, ha⟩ hs
    obtain ⟨y, hy, rfl⟩ := stored_event f hu ha
    obtain ⟨x, hx, hxy⟩ := same_event fs hy
    exact ⟨x, by simp [hx], seals_same hxy hs⟩
  obtain ⟨tel, g, hv⟩ := telsOk hH h id (hlen id).2
  obtain ⟨i, hi⟩ := List.mem_iff_getElem?.mp ht
  obtain ⟨e', hm, hr⟩ := forall₂_get (StoredTx.reads g) hi
  rw [he] at hr
  cases hr
  replace hm := List.mem_of_getElem? hm
  replace hv := hv.resolve_left (by rintro rfl; cases hm)
  have clash : ∀ {s : Sad} {l p q : Str}, p ≠ q → HasText l p s → HasText l q s → False := by
    intro s l p q hn hp hq
    unfold HasText at hp hq
    rw [hp] at hq
    cases hq
    exact hn rfl
  have anch : ∀ ri, AnchoredIn (knownIn E.fl st) E.chk ri e → HasText (str% "ri") ri e → ∀ ri, HasText (str% "ri") ri e → RegistryOf E st ri pre →
      ∃ x ∈ p ++ q, Seals E.chk x.sad e := by
    rintro ri' ⟨r', ii, a, h1, h2, h3, h4⟩ hri' ri hri ⟨first, r, hf, hr, hii⟩
    have : ri' = ri := by
      by_contra hn
      exact clash hn hri' hri
    subst this
    obtain ⟨first', k1, k2⟩ := h1
    rw [← List.head?_eq_getElem?, hf] at k1
    cases k1
    rw [hr] at k2
    cases k2
    have : ii = pre := by
      by_contra hn
      exact clash hn h2 hii
    subst this
    exact move a h3 h4
  clear hi g ht
  induction hv with
  | incept e' a ii type ident sn fields derived controller known sealed_ =>
    cases List.mem_singleton.mp hm
    refine ⟨fun _ hii => ?_, fun ri ht => ?_⟩
    · have : ii = pre := by
        by_contra hn
        exact clash hn controller hii
      subst this
      exact move a known sealed_
    · rcases ht with ht | ht <;> exact (clash (by decide) type ht).elim
  | issue e' ri type ident sn fields digest registry anchored =>
    cases List.mem_singleton.mp hm
    exact ⟨fun ht => (clash (by decide) type ht).elim, fun ri' _ => anch ri anchored registry ri'⟩
  | revoke l prev e' ri psaid before type ident sn fields digest last prior chained registry anchored ih =>
    rcases List.mem_append.mp hm with hm | hm
    · exact ih hm
    · cases List.mem_singleton.mp hm
      exact ⟨fun ht => (clash (by decide) type ht).elim, fun ri' _ => anch ri anchored registry ri'⟩

/-- C106: and every credential that any verifier keeps, with a root proof that names the controller, is signed by keys of one event of that log as it demands,
by at least one key. Or digests collide. -/
theorem C106_credentials : ∃ log, List.Forall₂ (Stored E.fl hist) (st.kels pre) log ∧
    ((∀ text ∈ st.acdcs, ∃ cred groups, StoredCred E.fl hist text cred groups ∧ ∀ l sig, .sadPath l ∈ groups → sig ∈ l → IsRoot sig → Matter.qb64 E.chk sig.prefixer = .ok pre →
      ∃ x ∈ own, ∃ (keys : List M) (t : Tholder) (sigs : List Siger), Serder.verfers x.sad = .ok keys ∧ Serder.tholder E.chk E.fl x.sad = .ok (some t) ∧ sigs ≠ [] ∧
        (∀ g ∈ sigs, g ∈ sig.sigers ∧ ∃ k, keys[g.i.index]? = some k ∧ Verfer.verify E.C k g.i.raw cred.raw = .ok true) ∧ Meets t (sigs.map fun g => g.i.index)) ∨
      Collision E.H (str% "E") (LogText own) (LogText log)) := by
  obtain ⟨log, f, hc⟩ := C104_honest E hH hist st h pre (hlen pre).1 own hown hread hfew hsigns ho ho'
  refine ⟨log, f, hc.imp ?_ id⟩
  rintro ⟨p, q, rfl, fs⟩ text ht
  obtain ⟨n, hn⟩ := List.getElem?_of_mem ht
  obtain ⟨E', cred, groups, q', ⟨c1, c2, c3, c4⟩, k1, k2, k3, k4⟩ := C66_stored E hH hist st h n text hn
  refine ⟨cred, groups, k1, fun l sig hl hs hroot hp => ?_⟩
  obtain ⟨pre', u, e, q'', keys, t, sigs, m1, m2, m3, m4, m5, m6, m7, m8, m9, m10, m11⟩ := k2.signed l sig hl hs hroot
  rw [c1, hp] at m1
  cases m1
  rw [c2] at m3
  rw [c1, c2] at m7
  obtain ⟨y, hy, rfl⟩ := stored_event f m2 m3
  obtain ⟨x, hx, hxy⟩ := same_event fs hy
  have hxo : x ∈ p ++ q := by simp [hx]
  have oy : Ordinary y.sad := by
    obtain ⟨_, -, payload, _, _, a1, a2, -⟩ := stored_of f y hy
    exact ho' payload _ _ a1 a2
  obtain ⟨-, -, e1, -, e2, -⟩ := C57_state E.chk E.fl x y (ho x hxo) oy hxy
  have ht' : Serder.tholder E.chk E.fl x.sad = .ok (some t) := e2.trans m7
  refine ⟨x, hxo, keys, t, sigs, e1.trans m6, ht', ?_, fun g hg => ⟨m8.subset hg, ?_⟩, m11⟩
  · rintro rfl
    exact meets_some (hfew x hxo t (.inl ht')) m11 rfl
  · rw [← c4]
    exact m10 g hg

end

/-- What is received are events of one controller, transaction events and credentials. -/
def World.faithful (pre : Str) (l : List Msg) : Bool :=
  let st := World.kept l
  let texts := st.kels pre
  decide (l.length < 1000) && decide (texts.length = 3) && decide (st.acdcs.length = 1) &&
  texts.all World.ordinaryText && texts.all World.counted &&
  (pairs l).all fun x =>
    match x.1 with
    | .payload p =>
      match Serder.newWithRaw (fun _ => none) (toUtf8 p) with
      | .ok s => World.ordinary s.ked && match x.2 with | .group (.quadlets _) _ => texts.any (World.sameRaw p) | _ => true
      | _ => true
    | _ => true

/-- A verifier that keeps a credential, its issuance and its registry, with three events of the issuer: the hypotheses of `C106_transactions` and
`C106_credentials` are met. -/
example : ∃ (hist : List (Msg × Msg)) (st : Store) (pre : Str) (own : List Entry), Reach (World.env []) hist st ∧
    (∀ p, (st.kels p).length ≤ 2 ^ 32 ∧ (st.tels p).length ≤ 2 ^ 32) ∧ st.acdcs.length = 1 ∧ own.length = 3 ∧
    ValidLog World.hash World.crypto true (fun _ => none) pre own ∧ (∀ x ∈ own, ∃ r, Serder.newWithRaw (fun _ => none) r = .ok x.sad) ∧
    (∀ x ∈ own, ∀ t, Serder.tholder true (fun _ => none) x.sad = .ok (some t) ∨ Serder.ntholder true (fun _ => none) x.sad = .ok (some t) → FewWeights t) ∧
    SignsOnly (World.env []) own hist ∧ (∀ x ∈ own, Ordinary x.sad) ∧
    ∀ payload g s, (Msg.payload payload, g) ∈ hist → Serder.newWithRaw (fun _ => none) (toUtf8 payload) = .ok s → Ordinary s := by
  have h : World.holds (World.icpA >>= Serder.pre) (fun pre => World.holds (World.inRow World.accepted) (World.faithful pre)) = true := by decide +kernel
  obtain ⟨pre, -, h⟩ := World.holds_ok h
  obtain ⟨l, -, h⟩ := World.holds_ok h
  unfold World.faithful at h
  dsimp only at h
  rw [Bool.and_eq_true, Bool.and_eq_true, Bool.and_eq_true, Bool.and_eq_true, Bool.and_eq_true] at h
  obtain ⟨⟨⟨⟨⟨h0, h1⟩, h2⟩, h3⟩, h4⟩, h5⟩ := h
  have h0 := of_decide_eq_true h0
  have h1 := of_decide_eq_true h1
  have r := Reach.ingest (E := World.env []) (World.env l) 5 l.length [] l (some false) none .empty (World.env_same _ _) (World.env_remembers l) rfl (by simp)
  rw [List.take_length] at r
  have hlen : ∀ p, ((World.kept l).kels p).length ≤ 2 ^ 32 ∧ ((World.kept l).tels p).length ≤ 2 ^ 32 := by
    intro p
    have h := ingestLoop_length (E := World.env l) (fuel := 5) (deep := some false) (verify := none) Store.empty l [] p
    have e1 : (Store.empty.kels p).length = 0 := rfl
    have e2 : (Store.empty.tels p).length = 0 := rfl
    unfold World.kept
    omega
  change Reach _ _ (World.kept l) at r
  generalize World.kept l = st at h1 h2 h3 h4 h5 r hlen
  obtain ⟨own, f, v, o⟩ := World.valid_of r (by omega) (by omega) h3
  refine ⟨_, st, pre, own, r, hlen, of_decide_eq_true h2, by rw [← f.length_eq, h1], v, ?_, ?_, ?_, o, ?_⟩
  · intro x hx
    obtain ⟨t, -, -, -, -, -, -, -, -, hr⟩ := stored_of f x hx
    exact ⟨_, hr⟩
  · intro x hx t ht
    obtain ⟨u, hu, -, -, -, -, -, -, -, hr⟩ := stored_of f x hx
    have := List.all_eq_true.mp h4 u hu
    unfold World.counted at this
    rw [hr] at this
    rw [Bool.and_eq_true] at this
    exact ht.elim (World.few_ok this.1 t) (World.few_ok this.2 t)
  · intro payload groups text s hm hs _ _ _ _ _
    have := List.all_eq_true.mp h5 _ hm
    have hs : Serder.newWithRaw (fun _ => none) (toUtf8 payload) = .ok s := hs
    dsimp only at this
    rw [hs] at this
    rw [Bool.and_eq_true, List.any_eq_true] at this
    obtain ⟨-, t, ht, hsame⟩ := this
    obtain ⟨i, hi⟩ := List.mem_iff_getElem?.mp ht
    obtain ⟨e, he, -, -, -, -, -, -, -, hr⟩ := forall₂_get f hi
    refine ⟨e, List.mem_of_getElem? he, ?_⟩
    unfold World.sameRaw at hsame
    rw [hs, hr] at hsame
    exact (of_decide_eq_true hsame).symm
  · intro payload g s hm hs
    have := List.all_eq_true.mp h5 _ hm
    dsimp only at this
    rw [hs] at this
    rw [Bool.and_eq_true] at this
    exact World.ordinary_ok this.1

end Keride.Props
