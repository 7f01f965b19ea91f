/-
C66 to C68: the credentials a verifier accepts and keeps.
-/
import Verif.Lemmas.Acdc
import Verif.Lemmas.WorldAcdc
import Verif.Props.Registry

namespace Keride.Props

open Matter Spec Sample

/-! ## C66 -/

/-- C66: a credential that `verify_acdc` accepts, whatever the options, is proven: its SAID is the digest of its content,
it fits its schema, all its root proofs are signed well enough, its edges lead to stored credentials that fit; and the
last event stored for it is neither a revocation nor too old. -/
theorem C66_verified (E : Env) (hH : HashOk E.H) (st : Store) (deep : Option Bool) (fuel : Nat) (raw : Bytes) (cred : Sad) (groups : List SigGroup) (v : List Str)
    (r : Bool × List Str) (hread : Creder.newWithRaw E.fl raw = .ok cred) (h : verifyAcdc E st deep fuel cred groups v = .ok r) :
    Proven E st cred groups ∧ ∃ q t e dt, Sadder.said E.chk cred = .ok q ∧ (st.tels q).getLast? = some t ∧ Serder.newWithRaw E.fl (toUtf8 t) = .ok e ∧
      ¬ HasText (str% "t") (str% "rev") e ∧ HasText (str% "dt") dt e ∧ E.expired dt = .ok false :=
  acdc_ok hH hread h

/-- The store with only the first `n` credentials. -/
def firstCreds (st : Store) (n : Nat) : Store := { st with acdcs := st.acdcs.take n }

/-- The stored credentials are received and proven by what was stored before them. -/
def CredsOk (E : Env) (hist : List (Msg × Msg)) (st : Store) : Prop :=
  ∀ n text, st.acdcs[n]? = some text → ∃ E' cred groups q, SameCode E E' ∧ StoredCred E.fl hist text cred groups ∧ Proven E' (firstCreds st n) cred groups ∧
    Sadder.said E.chk cred = .ok q ∧ st.tels q ≠ []

theorem firstCreds_extends {st st' : Store} (h : Extends st st') (n : Nat) : Extends (firstCreds st n) (firstCreds st' n) :=
  ⟨h.kels, h.tels, h.acdcs.take n⟩

theorem credsOk_grow {E : Env} {hist : List (Msg × Msg)} {st st' : Store} (he : Extends st st') (ha : st'.acdcs = st.acdcs) (h : CredsOk E hist st) : CredsOk E hist st' := by
  intro n text hn
  rw [ha] at hn
  obtain ⟨E', cred, groups, q, h1, h2, h3, h4, h5⟩ := h n text hn
  refine ⟨E', cred, groups, q, h1, h2, h3.mono (firstCreds_extends he n), h4, ?_⟩
  intro hn
  have := (he.tels q).length_le
  rw [hn] at this
  exact h5 (List.length_eq_zero_iff.mp (by simpa using this))

theorem credsOk_step {E E' : Env} (hH : HashOk E.H) (sc : SameCode E E') {hist : List (Msg × Msg)} {fuel : Nat} {deep : Option Bool} (st : Store) (m g : Msg) (v : List Str)
    (a : Action) (v' : List Str) (st' : Store) (r : Res Unit) (hI : CredsOk E hist st) (hm : (m, g) ∈ hist)
    (hf : Fresh E' st fuel deep v m g a v') (hp : perform E' st a = (st', r)) : CredsOk E hist st' := by
  have he : Extends st st' := by
    have := perform_extends (E := E') (st := st) (a := a)
    rw [hp] at this
    exact this
  rcases perform_kels hp with rfl | ⟨pre, t, rfl, rfl⟩ | ⟨pre, t, rfl, rfl⟩ | ⟨t, rfl, rfl⟩
  · exact hI
  · exact credsOk_grow he rfl hI
  · exact credsOk_grow he rfl hI
  · cases hf with
    | cred payload t g s l q v' read raw again said verified =>
      intro n text hn
      by_cases hlt : n < st.acdcs.length
      · have e1 : (st.insertAcdc (t ++ g)).acdcs = st.acdcs ++ [t ++ g] := rfl
        rw [e1, List.getElem?_append_left hlt] at hn
        obtain ⟨E', cred, groups, q, h1, h2, h3, h4, h5⟩ := hI n text hn
        exact ⟨E', cred, groups, q, h1, h2, h3.mono (firstCreds_extends he n), h4, h5⟩
      · have e1 : (st.insertAcdc (t ++ g)).acdcs = st.acdcs ++ [t ++ g] := rfl
        have e2 : n = st.acdcs.length := by
          have := (List.getElem?_eq_some_iff.mp hn).1
          rw [e1, List.length_append, List.length_singleton] at this
          omega
        subst e2
        rw [e1, List.getElem?_concat_length] at hn
        cases hn
        obtain ⟨k1, q', t', e, dt, k2, k3, -⟩ := acdc_ok (by rw [sc.H]; exact hH) read verified
        rw [sc.chk] at k2
        rw [sc.fl] at read again
        refine ⟨E', s, l, q', sc, ⟨payload, t, g, hm, read, raw, rfl, again⟩, ?_, k2, ?_⟩
        · have e3 : firstCreds (st.insertAcdc (t ++ g)) st.acdcs.length = st := by
            unfold firstCreds
            rw [e1]
            simp [Store.insertAcdc]
          rw [e3]
          exact k1
        · intro hn
          have : st.tels q' = [] := hn
          rw [this] at k3
          cases k3

theorem credsOk {E : Env} (hH : HashOk E.H) {hist : List (Msg × Msg)} {st : Store} (h : Reach E hist st) : CredsOk E hist st := by
  induction h with
  | empty => intro n text hn; cases hn
  | @ingest hist st E' fuel n stream msgs deep verify h sc hR hp hv ih =>
    have ih : CredsOk E (hist ++ pairs msgs) st := by
      intro n text hn
      obtain ⟨E', cred, groups, q, h1, ⟨p, t, g, k1, k2⟩, h3⟩ := ih n text hn
      exact ⟨E', cred, groups, q, h1, ⟨p, t, g, List.mem_append_left _ k1, k2⟩, h3⟩
    refine ingestLoop_induct hR hv (fun st => CredsOk E (hist ++ pairs msgs) st) (hist ++ pairs msgs) ?_ st _ [] ih (fun q hq => by cases hq)
      (fun x hx => List.mem_append_right _ (pairs_take msgs n x hx))
    intro st m g v a v' st' r hI _ hm hf hpf
    exact credsOk_step hH sc st m g v a v' st' r hI hm hf hpf

/-- C66: whatever streams a verifier takes in, whatever their outcome and wherever the process is killed, each credential
it keeps was received with a proof, that holds with the key events stored and the credentials stored before it, under
the schemas known when it was taken in; and there is a transaction log for it. So the edges of credentials lead to
credentials kept earlier, never in a circle, and all of them are proven. -/
theorem C66_stored (E : Env) (hH : HashOk E.H) (hist : List (Msg × Msg)) (st : Store) (h : Reach E hist st) (n : Nat) (text : Str) (ht : st.acdcs[n]? = some text) :
    ∃ E' cred groups q, SameCode E E' ∧ StoredCred E.fl hist text cred groups ∧ Proven E' (firstCreds st n) cred groups ∧
      Sadder.said E.chk cred = .ok q ∧ st.tels q ≠ [] :=
  credsOk hH h n text ht

/-- Two credentials, the second rests on the first. -/
theorem linked_kept : ∃ hist st, Reach (World.env []) hist st ∧ (∀ p, (st.kels p).length ≤ 2 ^ 32 ∧ (st.tels p).length ≤ 2 ^ 32) ∧ st.acdcs.length = 2 := by
  have h : World.keeps World.linked (fun st => decide (st.acdcs.length = 2)) = true := by
    decide +kernel
  obtain ⟨hist, st, h1, h2, h3⟩ := World.keeps_reach h (by decide)
  exact ⟨hist, st, h1, h3, of_decide_eq_true h2⟩

/-- The hypotheses of `C66_stored` are met by a verifier that keeps two credentials. -/
example : ∃ hist st t t', Reach (World.env []) hist st ∧ st.acdcs[0]? = some t ∧ st.acdcs[1]? = some t' := by
  obtain ⟨hist, st, h1, -, h2⟩ := linked_kept
  exact ⟨hist, st, _, _, h1, List.getElem?_eq_getElem (by omega), List.getElem?_eq_getElem (by omega)⟩

/-! ## C67 -/

theorem acdc_new {E : Env} {st : Store} {deep : Option Bool} {fuel : Nat} {cred : Sad} {gs : List SigGroup} {v v' : List Str} {q : Str}
    (hq : Sadder.said E.chk cred = .ok q) (h : verifyAcdc E st deep fuel cred gs v = .ok (false, v')) : ∀ t ∈ st.acdcs, hasSaid E q t = false := by
  cases fuel with
  | zero => unfold verifyAcdc at h; cases h
  | succ fuel =>
    unfold verifyAcdc at h
    rw [Res.bind_eq_ok] at h; obtain ⟨status, -, h⟩ := h
    split at h
    · cases h
    rw [hq, Res.ok_bind] at h
    rw [Res.bind_eq_ok] at h; obtain ⟨_, -, h⟩ := h
    rw [Res.bind_eq_ok] at h; obtain ⟨_, -, h⟩ := h
    rw [Res.bind_eq_ok] at h; obtain ⟨_, -, h⟩ := h
    rw [Res.bind_eq_ok] at h; obtain ⟨_, -, h⟩ := h
    split at h
    · cases h
    rw [Res.bind_eq_ok] at h; obtain ⟨_, -, h⟩ := h
    rw [Res.bind_eq_ok] at h; obtain ⟨_, -, h⟩ := h
    rw [Res.bind_eq_ok] at h; obtain ⟨_, -, h⟩ := h
    split at h
    · cases h
    rw [Res.bind_eq_ok] at h; obtain ⟨_, -, h⟩ := h
    split at h
    · cases h
    rw [Res.bind_eq_ok] at h; obtain ⟨_, -, h⟩ := h
    rw [Res.bind_eq_ok] at h; obtain ⟨_, -, h⟩ := h
    split at h
    · rw [Res.bind_eq_ok] at h; obtain ⟨_, -, h⟩ := h
      rw [Res.bind_eq_ok] at h; obtain ⟨_, -, h⟩ := h
      split at h <;> cases h
    · rename_i hno
      intro t ht
      cases hs : hasSaid E q t with
      | false => rfl
      | true =>
        exfalso
        have : ∃ x, st.acdcs.find? (hasSaid E q) = some x := by
          rw [← Option.isSome_iff_exists, List.find?_isSome]
          exact ⟨t, ht, hs⟩
        obtain ⟨x, hx⟩ := this
        exact hno x (by unfold Store.getAcdc; rw [hx]; rfl)

/-- Two texts are credentials with one SAID. -/
def SameSaid (E : Env) (t t' : Str) : Prop :=
  ∃ c c' q, Creder.newWithRaw E.fl (toUtf8 t) = .ok c ∧ Creder.newWithRaw E.fl (toUtf8 t') = .ok c' ∧ Sadder.said E.chk c = .ok q ∧ Sadder.said E.chk c' = .ok q

/-- C67: a verifier keeps at most one credential with a SAID. -/
theorem C67_once (E : Env) (hist : List (Msg × Msg)) (st : Store) (h : Reach E hist st) : st.acdcs.Pairwise fun t t' => ¬ SameSaid E t t' := by
  induction h with
  | empty => exact .nil
  | @ingest hist st E' fuel n stream msgs deep verify h sc hR hp hv ih =>
    refine ingestLoop_induct hR hv (fun st => st.acdcs.Pairwise fun t t' => ¬ SameSaid E t t') (hist ++ pairs msgs) ?_ st _ [] ih (fun q hq => by cases hq)
      (fun x hx => List.mem_append_right _ (pairs_take msgs n x hx))
    intro st m g v a v' st' r hI _ hm hf hpf
    rcases perform_kels hpf with rfl | ⟨pre, t, rfl, rfl⟩ | ⟨pre, t, rfl, rfl⟩ | ⟨t, rfl, rfl⟩
    · exact hI
    · exact hI
    · exact hI
    · cases hf with
      | cred payload t g s l q v' read raw again said verified =>
        have hnew := acdc_new said verified
        refine List.pairwise_append.mpr ⟨hI, List.pairwise_singleton _ _, ?_⟩
        intro x hx y hy hs
        rw [List.mem_singleton.mp hy] at hs
        obtain ⟨c, c', q', h1, h2, h3, h4⟩ := hs
        rw [← sc.fl] at h1 h2
        rw [← sc.chk] at h3 h4
        rw [again] at h2
        cases h2
        rw [said] at h4
        cases h4
        have := hnew x hx
        unfold hasSaid at this
        rw [h1, Res.ok_bind, h3] at this
        simp at this

/-! ## C68 -/

/-- C68, for credentials whose proof names the issuer and whose issuance names the registry of the credential: they are
signed by keys of the issuer and sealed in the key event log of the controller of that registry. Missing: credentials
whose proof or issuance names others, which `C68_false` shows to be accepted. -/
theorem C68_partial (E : Env) (hH : HashOk E.H) (hist : List (Msg × Msg)) (st : Store) (h : Reach E hist st)
    (hlen : ∀ p, (st.kels p).length ≤ 2 ^ 32 ∧ (st.tels p).length ≤ 2 ^ 32) (text : Str) (ht : text ∈ st.acdcs) :
    ∃ cred groups q first e, StoredCred E.fl hist text cred groups ∧ Sadder.said E.chk cred = .ok q ∧ (st.tels q).head? = some first ∧
      Serder.newWithRaw E.fl (toUtf8 first) = .ok e ∧
      (∀ i, HasText (str% "i") i cred → ∀ l sig, .sadPath l ∈ groups → sig ∈ l → IsRoot sig → Matter.qb64 E.chk sig.prefixer = .ok i →
        ∃ (key : Sad) (keys : List M) (t : Tholder) (sigs : List Siger), (∃ u ∈ st.kels i, Serder.newWithRaw E.fl (toUtf8 u) = .ok key) ∧ Serder.verfers key = .ok keys ∧ Serder.tholder E.chk E.fl key = .ok (some t) ∧
          (∀ g ∈ sigs, g ∈ sig.sigers ∧ ∃ k, keys[g.i.index]? = some k ∧ Verfer.verify E.C k g.i.raw cred.raw = .ok true) ∧ Meets t (sigs.map fun g => g.i.index)) ∧
      (∀ ri, HasText (str% "ri") ri cred → HasText (str% "t") (str% "iss") e → HasText (str% "ri") ri e →
        ∃ ii, RegistryOf E st ri ii ∧ ∃ u ∈ st.kels ii, ∃ key, Serder.newWithRaw E.fl (toUtf8 u) = .ok key ∧ Seals E.chk key e) := by
  obtain ⟨n, hn⟩ := List.getElem?_of_mem ht
  obtain ⟨E', cred, groups, q, sc, k1, k2, k3, k4⟩ := credsOk hH h n text hn
  obtain ⟨log, h1, h2⟩ := telsOk hH h q (hlen q).2
  obtain ⟨first, rest, hfr⟩ := List.exists_cons_of_ne_nil k4
  have hf : (st.tels q)[0]? = some first := by rw [hfr]; rfl
  obtain ⟨e, he, hr⟩ := forall₂_get (StoredTx.reads h1) hf
  refine ⟨cred, groups, q, first, e, k1, k3, by rw [List.head?_eq_getElem?]; exact hf, hr, ?_, ?_⟩
  · intro i _ l sig m1 m2 m3 m4
    obtain ⟨pre, u, key, q', keys, t, sigs, s1, s2, s3, -, -, s6, s7, s8, -, s10, s11⟩ := k2.signed l sig m1 m2 m3
    rw [sc.chk] at s1 s7
    rw [sc.fl] at s3 s7
    rw [m4] at s1
    cases s1
    refine ⟨key, keys, t, sigs, ⟨u, s2, s3⟩, s6, s7, ?_, s11⟩
    intro g hg
    refine ⟨s8.subset hg, ?_⟩
    rw [← sc.C]
    exact s10 g hg
  · intro ri _ m2 m3
    have uniq : ∀ {k a b : Str} {x : Sad}, HasText k a x → HasText k b x → a = b := by
      intro k a b x h1 h2
      unfold HasText at h1 h2
      rw [h1] at h2
      exact Value.str.inj (Option.some.inj h2)
    have anch : AnchoredIn (knownIn E.fl st) E.chk ri e := by
      rcases h2 with rfl | h2
      · cases he
      clear h1 k1 k2 k3 k4 hn ht hf hfr hr
      induction h2 with
      | incept e' a ii type =>
        cases he
        exact absurd (uniq type m2) (by decide)
      | issue e' ri' _ _ _ _ _ registry anchored =>
        cases he
        rw [uniq m3 registry]
        exact anchored
      | revoke log prev e' ri' psaid before type _ _ _ _ _ _ _ _ _ ih =>
        refine ih ?_
        obtain ⟨x, l, rfl, -⟩ := ValidTel.tail before
        exact he
    obtain ⟨reg, ii, a, ⟨f1, p1, q1⟩, n1, ⟨s1, m1, b1⟩, l1⟩ := anch
    exact ⟨ii, ⟨f1, reg, by rw [List.head?_eq_getElem?]; exact p1, q1, n1⟩, s1, m1, a, b1, l1⟩

/-- The fields of a stored credential. -/
def credText (k t : Str) : Option Str :=
  match Creder.newWithRaw (fun _ => none) (toUtf8 t) with
  | .ok c =>
    match field k c.ked with
    | some (.str r) => some r
    | _ => none
  | _ => none

theorem credText_ok {k t r : Str} (h : credText k t = some r) : ∃ c, Creder.newWithRaw (fun _ => none) (toUtf8 t) = .ok c ∧ HasText k r c := by
  unfold credText at h
  split at h
  · rename_i c hc
    refine ⟨c, hc, ?_⟩
    split at h
    · rename_i t ht
      cases h
      exact ht
    · cases h
  · cases h

/-- The signatures of a group. -/
def sigersOf : SigGroup → List Siger
  | .controller l => l
  | .sadPath l => l.flatMap SadPathSig.sigers
  | .other => []

/-- No signature among the messages received is one over a text by a key in the log of an identifier. -/
def Unsigned (E : Env) (hist : List (Msg × Msg)) (st : Store) (i : Str) (raw : Bytes) : Prop :=
  ∀ m gs t, (m, Msg.group (.quadlets gs) t) ∈ hist → ∀ g ∈ gs, ∀ s ∈ sigersOf g, ∀ u ∈ st.kels i, ∀ key keys, Serder.newWithRaw E.fl (toUtf8 u) = .ok key →
    Serder.verfers key = .ok keys → ∀ k ∈ keys, Verfer.verify E.C k s.i.raw raw ≠ .ok true

def isYes : Res Bool → Bool
  | .ok b => b
  | _ => false

def verifies (u : Str) (s : Siger) (raw : Bytes) : Bool :=
  match (Serder.newWithRaw (fun _ => none) (toUtf8 u) >>= Serder.verfers : Res (List M)) with
  | .ok keys => keys.any fun k => isYes (Verfer.verify World.crypto k s.i.raw raw)
  | _ => false

def unsigned (hist : List (Msg × Msg)) (st : Store) (i : Str) (raw : Bytes) : Bool :=
  hist.all fun p =>
    match p.2 with
    | .group (.quadlets gs) _ => gs.all fun g => (sigersOf g).all fun s => (st.kels i).all fun u => !verifies u s raw
    | _ => true

theorem unsigned_ok {hist : List (Msg × Msg)} {st : Store} {i : Str} {raw : Bytes} (h : unsigned hist st i raw = true) : Unsigned (World.env []) hist st i raw := by
  intro m gs t hm g hg s hs u hu key keys hk hkeys k hkk hv
  have h := List.all_eq_true.mp h _ hm
  have h := List.all_eq_true.mp h _ hg
  have h := List.all_eq_true.mp h _ hs
  have h := List.all_eq_true.mp h _ hu
  have hk : Serder.newWithRaw (fun _ => none) (toUtf8 u) = .ok key := hk
  unfold verifies at h
  rw [hk, Res.ok_bind, hkeys] at h
  dsimp only at h
  have hv : Verfer.verify World.crypto k s.i.raw raw = .ok true := hv
  have : keys.any (fun k => isYes (Verfer.verify World.crypto k s.i.raw raw)) = true := List.any_eq_true.mpr ⟨k, hkk, by rw [hv]; rfl⟩
  rw [this] at h
  cases h

/-- The only credential kept names an issuer and a registry, whose controller did not sign it and did not seal its issuance. -/
def forgery (hist : List (Msg × Msg)) (st : Store) (i ri : Str) : Bool :=
  match st.acdcs with
  | [t] =>
    match Creder.newWithRaw (fun _ => none) (toUtf8 t) with
    | .ok c =>
      match Sadder.said true c, (st.tels ri).head? with
      | .ok q, some f =>
        match (st.tels q).head? with
        | some first =>
          decide (credText (str% "i") t = some i) && decide (credText (str% "ri") t = some ri) && decide (textOf (str% "ii") f = some i) &&
            isType (str% "iss") first && !(st.kels i).isEmpty && unsigned hist st i c.raw &&
            match saidOf first with
            | some x => (st.kels i).all fun k => !mentions x k
            | none => false
        | none => false
      | _, _ => false
    | _ => false
  | _ => false

/-- C68 does not hold in general: the signer is not compared with the issuer, nor the registry of the issuance with the
registry of the credential. Here a verifier keeps a credential that names an issuer and the registry of that issuer,
although no signature by a key of the issuer over it was ever received and no event of the issuer seals its issuance. -/
theorem C68_false : ∃ (E : Env) (hist : List (Msg × Msg)) (st : Store) (text i ri q first : Str) (cred e : Sad), HashOk E.H ∧ Reach E hist st ∧ text ∈ st.acdcs ∧
    Creder.newWithRaw E.fl (toUtf8 text) = .ok cred ∧ HasText (str% "i") i cred ∧ HasText (str% "ri") ri cred ∧ RegistryOf E st ri i ∧ st.kels i ≠ [] ∧
    Unsigned E hist st i cred.raw ∧ Sadder.said E.chk cred = .ok q ∧ (st.tels q).head? = some first ∧ Serder.newWithRaw E.fl (toUtf8 first) = .ok e ∧
    HasText (str% "t") (str% "iss") e ∧
    ∀ a ∈ st.kels i, ∀ key, Serder.newWithRaw E.fl (toUtf8 a) = .ok key → ¬ Seals E.chk key e := by
  have h : World.keepsFrom World.forged (fun hist st => World.both (World.icpA >>= Serder.pre) (World.vcpA >>= Serder.pre) fun i ri => forgery hist st i ri) = true := by
    decide +kernel
  obtain ⟨hist, st, h1, h2⟩ := World.keepsFrom_reach h
  obtain ⟨i, ri, -, -, h2⟩ := World.both_ok h2
  unfold forgery at h2
  split at h2
  case h_2 => cases h2
  rename_i t ht
  split at h2
  case h_2 => cases h2
  rename_i c hc
  split at h2
  case h_2 => cases h2
  rename_i q f hq hf
  split at h2
  case h_2 => cases h2
  rename_i first hfirst
  simp only [Bool.and_eq_true, decide_eq_true_eq] at h2
  obtain ⟨⟨⟨⟨⟨⟨k1, k2⟩, k3⟩, k4⟩, k5⟩, k6⟩, k7⟩ := h2
  split at k7
  case h_2 => cases k7
  rename_i x hx
  obtain ⟨c1, p1, p2⟩ := credText_ok k1
  obtain ⟨c2, p3, p4⟩ := credText_ok k2
  rw [hc] at p1 p3
  cases p1
  cases p3
  obtain ⟨reg, p5, p6⟩ := textOf_ok k3
  obtain ⟨e, p7, p8⟩ := isType_ok k4
  refine ⟨World.env [], hist, st, t, i, ri, q, first, c, e, World.hash_ok, h1, by rw [ht]; simp, hc, p2, p4, ⟨f, reg, hf, p5, p6⟩, ?_, unsigned_ok k6, hq, hfirst, p7, p8, ?_⟩
  · intro hn
    rw [hn] at k5
    simp at k5
  · intro a ha key hk hs
    have := List.all_eq_true.mp k7 a ha
    rw [mentions_of hk hs (saidOf_ok hx p7)] at this
    cases this

/-- The hypotheses of `C68_partial` are met: a verifier with two credentials of their issuer. -/
example : ∃ hist st t, Reach (World.env []) hist st ∧ (∀ p, (st.kels p).length ≤ 2 ^ 32 ∧ (st.tels p).length ≤ 2 ^ 32) ∧ t ∈ st.acdcs := by
  obtain ⟨hist, st, h1, h2, h3⟩ := linked_kept
  exact ⟨hist, st, st.acdcs[0], h1, h2, List.getElem_mem (by omega)⟩

end Keride.Props
