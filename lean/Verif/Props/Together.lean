/-
C102: calls of `ingest_messages` that share a store.
-/
import Verif.Lemmas.Together
import Verif.Props.Acdc
import Verif.Props.Fork

namespace Keride.Props

open Matter Spec Sample

/-! ## What holds when each call has the store to itself while it takes in a message -/

theorem logsOk_more {H : Hash} {C : Crypto} {chk : Bool} {fl : Str → Option Str} {hist x : List (Msg × Msg)} {st : Store} (h : LogsOk H C chk fl hist st) :
    LogsOk H C chk fl (hist ++ x) st := by
  intro p hl
  obtain ⟨log, h1, h2⟩ := h p hl
  exact ⟨log, h1.imp fun _ _ h => Stored.mono h, h2⟩

theorem telsOk_more {H : Hash} {chk : Bool} {fl : Str → Option Str} {hist x : List (Msg × Msg)} {st : Store} (h : TelsOk H chk fl hist st) :
    TelsOk H chk fl (hist ++ x) st := by
  intro p hl
  obtain ⟨log, h1, h2⟩ := h p hl
  refine ⟨log, h1.imp ?_, h2⟩
  rintro _ _ ⟨p, u, g, l, k1, k2⟩
  exact ⟨p, u, g, l, List.mem_append_left _ k1, k2⟩

theorem credsOk_more {E : Env} {hist x : List (Msg × Msg)} {st : Store} (h : CredsOk E hist st) : CredsOk E (hist ++ x) st := by
  intro n text hn
  obtain ⟨E', cred, groups, q, h1, ⟨p, t, g, k1, k2⟩, h3⟩ := h n text hn
  exact ⟨E', cred, groups, q, h1, ⟨p, t, g, List.mem_append_left _ k1, k2⟩, h3⟩

theorem both_logs {E : Env} {hist : List (Msg × Msg)} {st : Store} (h1 : LogsOk E.H E.C E.chk E.fl hist st) (h2 : TelsOk E.H E.chk E.fl hist st)
    (hlen : ∀ p, (st.kels p).length ≤ 2 ^ 32 ∧ (st.tels p).length ≤ 2 ^ 32) :
    ∃ (kel : Str → List Entry) (tel : Str → List Sad),
      (∀ p, List.Forall₂ (Stored E.fl hist) (st.kels p) (kel p) ∧ (kel p = [] ∨ ValidLog E.H E.C E.chk E.fl p (kel p))) ∧
      (∀ p, List.Forall₂ (StoredTx E.fl hist) (st.tels p) (tel p) ∧
        (tel p = [] ∨ ValidTel E.H E.chk ⟨fun p a => ∃ e ∈ kel p, e.sad = a, fun p e => (tel p).head? = some e⟩ p (tel p))) := by
  choose kel hk using fun p => h1 p (hlen p).1
  choose tel ht using fun p => h2 p (hlen p).2
  refine ⟨kel, tel, hk, fun p => ⟨(ht p).1, (ht p).2.imp id fun hv => ?_⟩⟩
  refine ValidTel.mono (W := knownIn E.fl st) ?_ ?_ hv
  · rintro p a ⟨t, h1, h2⟩
    obtain ⟨i, hi⟩ := List.getElem?_of_mem h1
    obtain ⟨e, he, -, -, -, -, -, -, -, hr⟩ := forall₂_get (hk p).1 hi
    rw [h2] at hr
    cases hr
    exact ⟨e, List.mem_of_getElem? he, rfl⟩
  · rintro p a ⟨t, h1, h2⟩
    obtain ⟨e, he, hr⟩ := forall₂_get (StoredTx.reads (ht p).1) h1
    rw [h2] at hr
    cases hr
    exact List.head?_eq_getElem?.trans he

theorem once_step {E E' : Env} (sc : SameCode E E') {fuel : Nat} {deep : Option Bool} {st₀ st st' : Store} {m g : Msg} {v v' : List Str} {a : Action} {r : Res Unit}
    (hI : st.acdcs.Pairwise fun t t' => ¬ SameSaid E t t') (same : addsTo st₀ a = addsTo st a) (hf : Fresh E' st₀ fuel deep v m g a v')
    (hpf : perform E' st a = (st', r)) : st'.acdcs.Pairwise fun t t' => ¬ SameSaid E t t' := by
  rcases perform_kels hpf with rfl | ⟨pre, t, rfl, rfl⟩ | ⟨pre, t, rfl, rfl⟩ | ⟨t, rfl, rfl⟩
  · exact hI
  · exact hI
  · exact hI
  · cases hf with
    | cred payload t g s l q v' read raw again said verified =>
      have same : st₀.acdcs = st.acdcs := same
      have hnew := acdc_new said verified
      rw [same] at hnew
      refine List.pairwise_append.mpr ⟨hI, List.pairwise_singleton _ _, ?_⟩
      intro x hx y hy hs
      rw [List.mem_singleton.mp hy] at hs
      obtain ⟨c, c', q', h1, h2, h3, h4⟩ := hs
      rw [← sc.fl] at h1 h2
      rw [← sc.chk] at h3 h4
      rw [again] at h2
      cases h2
      rw [said] at h4
      cases h4
      have := hnew x hx
      unfold hasSaid at this
      rw [h1, Res.ok_bind, h3] at this
      simp at this

theorem together_logsOk {E : Env} (hH : HashOk E.H) {hist : List (Msg × Msg)} {st : Store} {calls : List Call} (h : Together E hist st calls) :
    LogsOk E.H E.C E.chk E.fl hist st := by
  refine (together_induct (fun hist st => LogsOk E.H E.C E.chk E.fl hist st) (fun p _ => ⟨[], .nil, .inl rfl⟩) ?_ ?_ h).1
  · intro hist x st ih p hl
    obtain ⟨log, h1, h2⟩ := ih p hl
    exact ⟨log, h1.imp fun _ _ h => Stored.mono h, h2⟩
  · intro E' hist st fuel deep m g v a v' st' r sc hI _ hm hf hp
    obtain ⟨c1, c2, c3, c4⟩ := sc
    rw [← c1, ← c2, ← c3, ← c4] at hI ⊢
    exact logsOk_step (by rw [c3]; exact hH) st m g v a v' st' r hI hm hf hp

theorem together_telsOk {E : Env} (hH : HashOk E.H) {hist : List (Msg × Msg)} {st : Store} {calls : List Call} (h : Together E hist st calls) :
    TelsOk E.H E.chk E.fl hist st := by
  refine (together_induct (fun hist st => TelsOk E.H E.chk E.fl hist st) (fun p _ => ⟨[], .nil, .inl rfl⟩) ?_ ?_ h).1
  · intro hist x st ih p hl
    obtain ⟨log, h1, h2⟩ := ih p hl
    refine ⟨log, h1.imp ?_, h2⟩
    rintro _ _ ⟨p, u, g, l, k1, k2⟩
    exact ⟨p, u, g, l, List.mem_append_left _ k1, k2⟩
  · intro E' hist st fuel deep m g v a v' st' r sc hI _ hm hf hp
    obtain ⟨c1, c2, c3, c4⟩ := sc
    rw [← c1, ← c2, ← c3] at hI ⊢
    exact telsOk_step (by rw [c3]; exact hH) st m g v a v' st' r hI hm hf hp

/-- C102, key events: however calls on one store take turns, message by message, and wherever they fail or are killed, the log kept for an identifier
is empty or a valid key event log of that identifier, made of events and signatures that were received. What is missing: calls whose check of a
message and its insertion are apart, see `C102_false`. -/
theorem C102_logs_partial (E : Env) (hH : HashOk E.H) (hist : List (Msg × Msg)) (st : Store) (calls : List Call) (h : Together E hist st calls) (pre : Str)
    (hlen : (st.kels pre).length ≤ 2 ^ 32) :
    ∃ log, List.Forall₂ (Stored E.fl hist) (st.kels pre) log ∧ (log = [] ∨ ValidLog E.H E.C E.chk E.fl pre log) :=
  together_logsOk hH h pre hlen

/-- C102, transaction events: the transaction log kept for a registry or credential is empty or valid, with every event anchored in the valid key
event log of the controller of the registry. What is missing is what is missing from `C102_logs_partial`. -/
theorem C102_tels_partial (E : Env) (hH : HashOk E.H) (hist : List (Msg × Msg)) (st : Store) (calls : List Call) (h : Together E hist st calls)
    (hlen : ∀ p, (st.kels p).length ≤ 2 ^ 32 ∧ (st.tels p).length ≤ 2 ^ 32) :
    ∃ (kel : Str → List Entry) (tel : Str → List Sad),
      (∀ p, List.Forall₂ (Stored E.fl hist) (st.kels p) (kel p) ∧ (kel p = [] ∨ ValidLog E.H E.C E.chk E.fl p (kel p))) ∧
      (∀ p, List.Forall₂ (StoredTx E.fl hist) (st.tels p) (tel p) ∧
        (tel p = [] ∨ ValidTel E.H E.chk ⟨fun p a => ∃ e ∈ kel p, e.sad = a, fun p e => (tel p).head? = some e⟩ p (tel p))) := by
  exact both_logs (together_logsOk hH h) (together_telsOk hH h) hlen

/-- C102, credentials: each credential kept was received with a proof that holds with the key events stored and the credentials stored before it,
and there is a transaction log for it. What is missing is what is missing from `C102_logs_partial`. -/
theorem C102_credentials_partial (E : Env) (hH : HashOk E.H) (hist : List (Msg × Msg)) (st : Store) (calls : List Call) (h : Together E hist st calls) (n : Nat) (text : Str)
    (ht : st.acdcs[n]? = some text) :
    ∃ E' cred groups q, SameCode E E' ∧ StoredCred E.fl hist text cred groups ∧ Proven E' (firstCreds st n) cred groups ∧
      Sadder.said E.chk cred = .ok q ∧ st.tels q ≠ [] := by
  refine (together_induct (fun hist st => CredsOk E hist st) (fun n text hn => by cases hn) ?_ ?_ h).1 n text ht
  · intro hist x st ih n text hn
    obtain ⟨E', cred, groups, q, h1, ⟨p, t, g, k1, k2⟩, h3⟩ := ih n text hn
    exact ⟨E', cred, groups, q, h1, ⟨p, t, g, List.mem_append_left _ k1, k2⟩, h3⟩
  · intro E' hist st fuel deep m g v a v' st' r sc hI _ hm hf hp
    exact credsOk_step hH sc st m g v a v' st' r hI hm hf hp

/-- C102, credentials: no credential is kept twice. -/
theorem C102_once (E : Env) (hist : List (Msg × Msg)) (st : Store) (calls : List Call) (h : Together E hist st calls) : st.acdcs.Pairwise fun t t' => ¬ SameSaid E t t' := by
  refine (together_induct (fun _ st => st.acdcs.Pairwise fun t t' => ¬ SameSaid E t t') .nil (fun _ _ _ h => h) ?_ h).1
  intro E' hist st fuel deep m g v a v' st' r sc hI _ hm hf hpf
  exact once_step sc hI rfl hf hpf

/-! ## What holds when an insertion is refused if the log has changed since the check -/

theorem late_logsOk {E : Env} (hH : HashOk E.H) {hist : List (Msg × Msg)} {fuel : Nat} {deep : Option Bool} {st₀ st st' : Store} {m g : Msg} {v v' : List Str}
    {a : Action} (hI : LogsOk E.H E.C E.chk E.fl hist st) (same : addsTo st₀ a = addsTo st a) (hm : (m, g) ∈ hist)
    (hf : Fresh E st₀ fuel deep v m g a v') (hp : perform E st a = (st', .ok ())) : LogsOk E.H E.C E.chk E.fl hist st' := by
  rcases perform_kels hp with rfl | ⟨pre, t, rfl, rfl⟩ | ⟨pre, t, rfl, rfl⟩ | ⟨t, rfl, rfl⟩
  · exact hI
  · cases hf with
    | key payload t g s l q c v' read raw again said verified fresh grows =>
      have same : st₀.kels c.pre = st.kels c.pre := same
      intro p hlen
      by_cases hpp : p = c.pre
      · subst hpp
        have e1 : (st.insertKeyEvent c.pre (t ++ g)).kels c.pre = st.kels c.pre ++ [t ++ g] := by
          unfold Store.insertKeyEvent append
          simp
        rw [e1] at hlen ⊢
        rw [List.length_append, List.length_singleton] at hlen
        obtain ⟨log, h1, h2⟩ := hI c.pre (by omega)
        refine ⟨log ++ [⟨s, l⟩], ?_, .inr ?_⟩
        · exact List.rel_append h1 (.cons ⟨payload, t, g, hm, read, raw, rfl, again⟩ .nil)
        · exact checkKeyEvent_valid (e := ⟨s, l⟩) hH read verified (by rw [same]; exact Stored.reads h1) h2 (by rw [same]; omega) fresh
      · have e1 : (st.insertKeyEvent c.pre (t ++ g)).kels p = st.kels p := by
          unfold Store.insertKeyEvent append
          simp [hpp]
        rw [e1] at hlen ⊢
        exact hI p hlen
  · exact hI
  · exact hI

theorem late_telsOk {E : Env} (hH : HashOk E.H) {hist : List (Msg × Msg)} {fuel : Nat} {deep : Option Bool} {st₀ st st' : Store} {m g : Msg} {v v' : List Str}
    {a : Action} (hI : TelsOk E.H E.chk E.fl hist st) (h₀ : Extends st₀ st) (same : addsTo st₀ a = addsTo st a) (hm : (m, g) ∈ hist)
    (hf : Fresh E st₀ fuel deep v m g a v') (hp : perform E st a = (st', .ok ())) : TelsOk E.H E.chk E.fl hist st' := by
  have he : Extends st st' := perform_extends' hp
  have unchanged : ∀ id, st'.tels id = st.tels id → (st'.tels id).length ≤ 2 ^ 32 →
      ∃ log, List.Forall₂ (StoredTx E.fl hist) (st'.tels id) log ∧ (log = [] ∨ ValidTel E.H E.chk (knownIn E.fl st') id log) := by
    intro id e hlen
    rw [e] at hlen ⊢
    obtain ⟨log, h1, h2⟩ := hI id hlen
    exact ⟨log, h1, h2.imp (fun h => h) (knownIn_mono he)⟩
  rcases perform_kels hp with rfl | ⟨pre, t, rfl, rfl⟩ | ⟨pre, t, rfl, rfl⟩ | ⟨t, rfl, rfl⟩
  · exact hI
  · exact fun id hlen => unchanged id rfl hlen
  · cases hf with
    | tx payload t g pre s l q v' read raw again said ident verified =>
      have same : st₀.tels pre = st.tels pre := same
      intro id hlen
      by_cases hid : id = pre
      · subst hid
        have e1 : (st.insertTransactionEvent id (t ++ g)).tels id = st.tels id ++ [t ++ g] := by
          unfold Store.insertTransactionEvent append
          simp
        rw [e1] at hlen ⊢
        rw [List.length_append, List.length_singleton] at hlen
        obtain ⟨log, h1, h2⟩ := hI id (by omega)
        refine ⟨log ++ [s], List.rel_append h1 (.cons ⟨payload, t, g, l, hm, read, raw, rfl, again⟩ .nil), .inr (knownIn_mono he ?_)⟩
        exact ((fits_of hH read ident (by rw [same]; omega) verified).late h₀ same).valid (StoredTx.reads h1) h2
      · refine unchanged id ?_ hlen
        unfold Store.insertTransactionEvent append
        simp [hid]
  · exact fun id hlen => unchanged id rfl hlen

theorem late_credsOk {E E' : Env} (hH : HashOk E.H) (sc : SameCode E E') {hist : List (Msg × Msg)} {fuel : Nat} {deep : Option Bool} {st₀ st st' : Store} {m g : Msg}
    {v v' : List Str} {a : Action} (hI : CredsOk E hist st) (h₀ : Extends st₀ st) (hm : (m, g) ∈ hist)
    (hf : Fresh E' st₀ fuel deep v m g a v') (hp : perform E' st a = (st', .ok ())) : CredsOk E hist st' := by
  have he : Extends st st' := perform_extends' hp
  rcases perform_kels hp with rfl | ⟨pre, t, rfl, rfl⟩ | ⟨pre, t, rfl, rfl⟩ | ⟨t, rfl, rfl⟩
  · exact hI
  · exact credsOk_grow he rfl hI
  · exact credsOk_grow he rfl hI
  · cases hf with
    | cred payload t g s l q v' read raw again said verified =>
      have e1 : (st.insertAcdc (t ++ g)).acdcs = st.acdcs ++ [t ++ g] := rfl
      intro n text hn
      by_cases hlt : n < st.acdcs.length
      · rw [e1, List.getElem?_append_left hlt] at hn
        obtain ⟨E', cred, groups, q, h1, h2, h3, h4, h5⟩ := hI n text hn
        exact ⟨E', cred, groups, q, h1, h2, h3.mono (firstCreds_extends he n), h4, h5⟩
      · have e2 : n = st.acdcs.length := by
          have := (List.getElem?_eq_some_iff.mp hn).1
          rw [e1, List.length_append, List.length_singleton] at this
          omega
        subst e2
        rw [e1, List.getElem?_concat_length] at hn
        cases hn
        obtain ⟨k1, q', t', e, dt, k2, k3, -⟩ := acdc_ok (by rw [sc.H]; exact hH) read verified
        rw [sc.chk] at k2
        rw [sc.fl] at read again
        refine ⟨E', s, l, q', sc, ⟨payload, t, g, hm, read, raw, rfl, again⟩, ?_, k2, ?_⟩
        · have e3 : firstCreds (st.insertAcdc (t ++ g)) st.acdcs.length = st := by
            unfold firstCreds
            rw [e1]
            simp [Store.insertAcdc]
          rw [e3]
          exact k1.mono h₀
        · intro hn
          have hn : st.tels q' = [] := hn
          have hl := (h₀.tels q').length_le
          rw [hn] at hl
          have : st₀.tels q' = [] := List.length_eq_zero_iff.mp (by simpa using hl)
          rw [this] at k3
          cases k3

/-- C102 holds, also if calls go on between the check of a message and its insertion, when the store refuses an insertion into a log, or into the
credentials, that changed since the check: the logs are valid and the credentials are proven and each kept once. -/
theorem C102_guarded (E : Env) (hH : HashOk E.H) (hist : List (Msg × Msg)) (st : Store) (calls : List (Call × Option (Action × List Str))) (h : Guarded E hist st calls)
    (hlen : ∀ p, (st.kels p).length ≤ 2 ^ 32 ∧ (st.tels p).length ≤ 2 ^ 32) :
    (∃ (kel : Str → List Entry) (tel : Str → List Sad),
      (∀ p, List.Forall₂ (Stored E.fl hist) (st.kels p) (kel p) ∧ (kel p = [] ∨ ValidLog E.H E.C E.chk E.fl p (kel p))) ∧
      (∀ p, List.Forall₂ (StoredTx E.fl hist) (st.tels p) (tel p) ∧
        (tel p = [] ∨ ValidTel E.H E.chk ⟨fun p a => ∃ e ∈ kel p, e.sad = a, fun p e => (tel p).head? = some e⟩ p (tel p)))) ∧
    (∀ n text, st.acdcs[n]? = some text → ∃ E' cred groups q, SameCode E E' ∧ StoredCred E.fl hist text cred groups ∧ Proven E' (firstCreds st n) cred groups ∧
      Sadder.said E.chk cred = .ok q ∧ st.tels q ≠ []) ∧
    st.acdcs.Pairwise fun t t' => ¬ SameSaid E t t' := by
  refine ⟨?_, ?_, ?_⟩
  · have hk : LogsOk E.H E.C E.chk E.fl hist st := by
      refine (guarded_induct (fun hist st => LogsOk E.H E.C E.chk E.fl hist st) (fun p _ => ⟨[], .nil, .inl rfl⟩) ?_ ?_ h).1
      · exact fun hist x st ih => logsOk_more ih
      · intro E' hist st₀ st fuel deep m g v a v' st' sc hI _ same hm hf hp
        obtain ⟨c1, c2, c3, c4⟩ := sc
        rw [← c1, ← c2, ← c3, ← c4] at hI ⊢
        exact late_logsOk (by rw [c3]; exact hH) hI same hm hf hp
    have ht : TelsOk E.H E.chk E.fl hist st := by
      refine (guarded_induct (fun hist st => TelsOk E.H E.chk E.fl hist st) (fun p _ => ⟨[], .nil, .inl rfl⟩) ?_ ?_ h).1
      · exact fun hist x st ih => telsOk_more ih
      · intro E' hist st₀ st fuel deep m g v a v' st' sc hI h₀ same hm hf hp
        obtain ⟨c1, c2, c3, c4⟩ := sc
        rw [← c1, ← c2, ← c3] at hI ⊢
        exact late_telsOk (by rw [c3]; exact hH) hI h₀ same hm hf hp
    exact both_logs hk ht hlen
  · refine (guarded_induct (fun hist st => CredsOk E hist st) (fun n text hn => by cases hn) ?_ ?_ h).1
    · exact fun hist x st ih => credsOk_more ih
    · intro E' hist st₀ st fuel deep m g v a v' st' sc hI h₀ _ hm hf hp
      exact late_credsOk hH sc hI h₀ hm hf hp
  · refine (guarded_induct (fun _ st => st.acdcs.Pairwise fun t t' => ¬ SameSaid E t t') .nil (fun _ _ _ h => h) ?_ h).1
    intro E' hist st₀ st fuel deep m g v a v' st' sc hI _ same hm hf hpf
    exact once_step sc hI same hf hpf

/-! ## What does not hold when a check and an insertion are apart -/

/-- An interaction and a rotation with the sequence number 1. -/
def World.forked : List Str → Bool
  | [_, t1, t2] =>
    match Serder.newWithRaw (fun _ => none) (toUtf8 t1), Serder.newWithRaw (fun _ => none) (toUtf8 t2) with
    | .ok a, .ok b => decide (Serder.sn a = .ok 1) && decide (Serder.sn b = .ok 1) && isType (str% "ixn") t1 && isType (str% "rot") t2
    | _, _ => false
  | _ => false

theorem World.forked_ok {l : List Str} (h : World.forked l = true) : ∃ t0 t1 t2 a b, l = [t0, t1, t2] ∧ Serder.newWithRaw (fun _ => none) (toUtf8 t1) = .ok a ∧
    Serder.newWithRaw (fun _ => none) (toUtf8 t2) = .ok b ∧ Serder.sn a = .ok 1 ∧ Serder.sn b = .ok 1 ∧ HasText (str% "t") (str% "ixn") a ∧ HasText (str% "t") (str% "rot") b := by
  unfold World.forked at h
  split at h
  · rename_i t0 t1 t2
    split at h
    · rename_i a b ha hb
      rw [Bool.and_eq_true, Bool.and_eq_true, Bool.and_eq_true] at h
      obtain ⟨⟨⟨h1, h2⟩, h3⟩, h4⟩ := h
      obtain ⟨a', k1, k2⟩ := isType_ok h3
      obtain ⟨b', k3, k4⟩ := isType_ok h4
      rw [ha] at k1
      rw [hb] at k3
      cases k1
      cases k3
      exact ⟨t0, t1, t2, a, b, rfl, ha, hb, of_decide_eq_true h1, of_decide_eq_true h2, k2, k4⟩
    · cases h
  · cases h

/-- The inception is taken in, the interaction and the rotation are checked, and then both are inserted. -/
def World.race (pre : Str) (l : List Msg × List Msg) : Bool :=
  match l with
  | ([m1, g1, m2, g2], [m3, g3]) =>
    World.holds (ingestOne (World.env l.1) Store.empty 5 none none m1 (some g1) []) fun x =>
    let st := (perform (World.env l.1) Store.empty x.1).1
    World.holds (ingestOne (World.env l.1) st 5 none none m2 (some g2) x.2) fun y =>
    World.holds (ingestOne (World.env l.2) st 5 none none m3 (some g3) []) fun z =>
    World.forked ((perform (World.env l.2) (perform (World.env l.1) st y.1).1 z.1).1.kels pre)
  | _ => false

theorem World.perform_done (l : List Msg) (st : Store) (a : Action) : perform (World.env l) st a = ((perform (World.env l) st a).1, .ok ()) := by
  cases a <;> rfl

/-- The inception is taken in by one call and the rotation by another. -/
def World.turns (pre : Str) (l : List Msg × List Msg) : Bool :=
  match l with
  | ([m1, g1, _, _], [m3, g3]) =>
    World.holds (ingestOne (World.env l.1) Store.empty 5 none none m1 (some g1) []) fun x =>
    let st := (perform (World.env l.1) Store.empty x.1).1
    World.holds (ingestOne (World.env l.2) st 5 none none m3 (some g3) []) fun z =>
    decide (((perform (World.env l.2) st z.1).1.kels pre).length = 2)
  | _ => false

/-- Two calls under way: the hypotheses of `C102_logs_partial` are met, with a log that has an event from each. -/
example : ∃ (hist : List (Msg × Msg)) (st : Store) (calls : List Call) (pre : Str), Together (World.env []) hist st calls ∧ calls.length = 2 ∧ (st.kels pre).length = 2 := by
  have h : World.holds (World.icp >>= Serder.pre) (fun pre => World.holds World.rivals (World.turns pre)) = true := by decide +kernel
  obtain ⟨pre, -, h⟩ := World.holds_ok h
  obtain ⟨⟨l1, l2⟩, -, h⟩ := World.holds_ok h
  unfold World.turns at h
  split at h
  case h_2 => cases h
  rename_i m1 g1 m2 g2 m3 g3 hl
  cases hl
  obtain ⟨⟨x, v1⟩, h1, h⟩ := World.holds_ok h
  obtain ⟨⟨z, v3⟩, h3, h⟩ := World.holds_ok h
  have r0 := Together.begins (E := World.env []) (World.env [m3, g3]) 5 [] [m3, g3] none none (.begins (World.env [m1, g1, m2, g2]) 5 [] [m1, g1, m2, g2] none none .empty
    (World.env_same _ _) (World.env_remembers _) rfl (by simp)) (World.env_same _ _) (World.env_remembers _) rfl (by simp)
  have r1 := Together.message (before := [_]) (after := []) m1 g1 [m2, g2] x v1 r0 rfl h1 (World.perform_done _ _ _)
  have r2 := Together.message (before := []) (after := [_]) m3 g3 [] z v3 r1 rfl h3 (World.perform_done _ _ _)
  exact ⟨_, _, _, pre, r2, rfl, of_decide_eq_true h⟩

/-- The inception is taken in, the interaction and the rotation are checked, and the rotation is inserted: the log is then not as it was when the
interaction was checked. -/
def World.lost (pre : Str) (l : List Msg × List Msg) : Bool :=
  match l with
  | ([m1, g1, m2, g2], [m3, g3]) =>
    World.holds (ingestOne (World.env l.1) Store.empty 5 none none m1 (some g1) []) fun x =>
    let st := (perform (World.env l.1) Store.empty x.1).1
    World.holds (ingestOne (World.env l.1) st 5 none none m2 (some g2) x.2) fun y =>
    World.holds (ingestOne (World.env l.2) st 5 none none m3 (some g3) []) fun z =>
    decide (((perform (World.env l.2) st z.1).1.kels pre).length = 2) && decide (addsTo (perform (World.env l.2) st z.1).1 y.1 ≠ addsTo st y.1)
  | _ => false

/-- Two calls under way, one of which has lost the race: the hypotheses of `C102_guarded` are met. -/
example : ∃ (hist : List (Msg × Msg)) (st : Store) (calls : List (Call × Option (Action × List Str))) (pre : Str), Guarded (World.env []) hist st calls ∧
    (st.kels pre).length = 2 ∧ ∃ c a log, (c, some (a, log)) ∈ calls ∧ addsTo st a ≠ log := by
  have h : World.holds (World.icp >>= Serder.pre) (fun pre => World.holds World.rivals (World.lost pre)) = true := by decide +kernel
  obtain ⟨pre, -, h⟩ := World.holds_ok h
  obtain ⟨⟨l1, l2⟩, -, h⟩ := World.holds_ok h
  unfold World.lost at h
  split at h
  case h_2 => cases h
  rename_i m1 g1 m2 g2 m3 g3 hl
  cases hl
  obtain ⟨⟨x, v1⟩, h1, h⟩ := World.holds_ok h
  obtain ⟨⟨y, v2⟩, h2, h⟩ := World.holds_ok h
  obtain ⟨⟨z, v3⟩, h3, h⟩ := World.holds_ok h
  rw [Bool.and_eq_true] at h
  have r0 := Guarded.begins (E := World.env []) (World.env [m3, g3]) 5 [] [m3, g3] none none (.begins (World.env [m1, g1, m2, g2]) 5 [] [m1, g1, m2, g2] none none .empty
    (World.env_same _ _) (World.env_remembers _) rfl (by simp)) (World.env_same _ _) (World.env_remembers _) rfl (by simp)
  have r1 := Guarded.checks (before := [_]) (after := []) m1 g1 [m2, g2] x v1 r0 rfl h1
  have r2 := Guarded.inserts (before := [_]) (after := []) x _ r1 rfl (World.perform_done _ _ _)
  have r3 := Guarded.checks (before := [_]) (after := []) m2 g2 [] y v2 r2 rfl h2
  have r4 := Guarded.checks (before := []) (after := [_]) m3 g3 [] z v3 r3 rfl h3
  have r5 := Guarded.inserts (before := []) (after := [_]) z _ r4 rfl (World.perform_done _ _ _)
  refine ⟨_, _, _, pre, r5, of_decide_eq_true h.1, _, _, _, List.mem_cons_of_mem _ (List.mem_singleton.mpr rfl), of_decide_eq_true h.2⟩

/-- C102 does not hold when the check of a message and its insertion are apart: two calls with one store both find their event fit, and both insert it.
The log then has an interaction and a rotation with one sequence number, and is not a valid log. -/
theorem C102_false : ∃ (E : Env) (hist : List (Msg × Msg)) (st : Store) (calls : List (Call × Option Action)) (pre t0 t1 t2 : Str) (a b : Sad),
    HashOk E.H ∧ CryptoOk E.C ∧ Racing E hist st calls ∧ st.kels pre = [t0, t1, t2] ∧
    Serder.newWithRaw E.fl (toUtf8 t1) = .ok a ∧ Serder.newWithRaw E.fl (toUtf8 t2) = .ok b ∧ Serder.sn a = .ok 1 ∧ Serder.sn b = .ok 1 ∧
    HasText (str% "t") (str% "ixn") a ∧ HasText (str% "t") (str% "rot") b ∧
    ¬ ∃ log, List.Forall₂ (Stored E.fl hist) (st.kels pre) log ∧ (log = [] ∨ ValidLog E.H E.C E.chk E.fl pre log) := by
  have h : World.holds (World.icp >>= Serder.pre) (fun pre => World.holds World.rivals (World.race pre)) = true := by decide +kernel
  obtain ⟨pre, -, h⟩ := World.holds_ok h
  obtain ⟨⟨l1, l2⟩, -, h⟩ := World.holds_ok h
  unfold World.race at h
  split at h
  case h_2 => cases h
  rename_i m1 g1 m2 g2 m3 g3 hl
  cases hl
  obtain ⟨⟨x, v1⟩, h1, h⟩ := World.holds_ok h
  obtain ⟨⟨y, v2⟩, h2, h⟩ := World.holds_ok h
  obtain ⟨⟨z, v3⟩, h3, h⟩ := World.holds_ok h
  obtain ⟨t0, t1, t2, a, b, k0, k1, k2, k3, k4, k5, k6⟩ := World.forked_ok h
  have r0 := Racing.begins (E := World.env []) (World.env [m3, g3]) 5 [] [m3, g3] none none (.begins (World.env [m1, g1, m2, g2]) 5 [] [m1, g1, m2, g2] none none .empty
    (World.env_same _ _) (World.env_remembers _) rfl (by simp)) (World.env_same _ _) (World.env_remembers _) rfl (by simp)
  have r1 := Racing.checks (before := [_]) (after := []) m1 g1 [m2, g2] x v1 r0 rfl h1
  have r2 := Racing.inserts (before := [_]) (after := []) x r1 (World.perform_done _ _ _)
  have r3 := Racing.checks (before := [_]) (after := []) m2 g2 [] y v2 r2 rfl h2
  have r4 := Racing.checks (before := []) (after := [_]) m3 g3 [] z v3 r3 rfl h3
  have r5 := Racing.inserts (before := [_]) (after := []) y r4 (World.perform_done _ _ _)
  have r6 := Racing.inserts (before := []) (after := [_]) z r5 (World.perform_done _ _ _)
  refine ⟨World.env [], _, _, _, pre, t0, t1, t2, a, b, World.hash_ok, World.crypto_ok, r6, k0, k1, k2, k3, k4, k5, k6, ?_⟩
  rintro ⟨log, f, hv⟩
  rw [k0] at f
  obtain ⟨e, he, -, -, -, -, -, -, -, hr⟩ := forall₂_get f (i := 2) rfl
  have hr' : Serder.newWithRaw (fun _ => none) (toUtf8 t2) = .ok e.sad := hr
  rw [k2] at hr'
  rcases hv with rfl | hv
  · cases he
  · have := ValidLog.numbers hv 2 e he
    cases hr'
    rw [k4] at this
    cases this

end Keride.Props
