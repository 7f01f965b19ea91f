/-
C62 and C63: the transaction event logs a verifier keeps, and revocation.
-/
import Verif.Lemmas.Tel
import Verif.Lemmas.WorldTel
import Verif.Props.Kel

namespace Keride.Props

open Matter Spec Sample

/-! ## C62 -/

/-- The stored transaction logs are valid. -/
def TelsOk (H : Hash) (chk : Bool) (fl : Str → Option Str) (hist : List (Msg × Msg)) (st : Store) : Prop :=
  ∀ id, (st.tels id).length ≤ 2 ^ 32 →
    ∃ log, List.Forall₂ (StoredTx fl hist) (st.tels id) log ∧ (log = [] ∨ ValidTel H chk (knownIn fl st) id log)

theorem StoredTx.reads {fl : Str → Option Str} {hist : List (Msg × Msg)} {texts : List Str} {log : List Sad}
    (h : List.Forall₂ (StoredTx fl hist) texts log) : List.Forall₂ (fun t e => Serder.newWithRaw fl (toUtf8 t) = .ok e) texts log :=
  h.imp fun _ _ ⟨_, _, _, _, _, _, _, _, hr⟩ => hr

theorem telsOk_step {E : Env} (hH : HashOk E.H) {hist : List (Msg × Msg)} {fuel : Nat} {deep : Option Bool} (st : Store) (m g : Msg) (v : List Str)
    (a : Action) (v' : List Str) (st' : Store) (r : Res Unit) (hI : TelsOk E.H E.chk E.fl hist st) (hm : (m, g) ∈ hist)
    (hf : Fresh E st fuel deep v m g a v') (hp : perform E st a = (st', r)) : TelsOk E.H E.chk E.fl hist st' := by
  have he : Extends st st' := by
    have := perform_extends (E := E) (st := st) (a := a)
    rw [hp] at this
    exact this
  have same : ∀ id, st'.tels id = st.tels id → (st'.tels id).length ≤ 2 ^ 32 →
      ∃ log, List.Forall₂ (StoredTx E.fl hist) (st'.tels id) log ∧ (log = [] ∨ ValidTel E.H E.chk (knownIn E.fl st') id log) := by
    intro id e hlen
    rw [e] at hlen ⊢
    obtain ⟨log, h1, h2⟩ := hI id hlen
    exact ⟨log, h1, h2.imp (fun h => h) (knownIn_mono he)⟩
  rcases perform_kels hp with rfl | ⟨pre, t, rfl, rfl⟩ | ⟨pre, t, rfl, rfl⟩ | ⟨t, rfl, rfl⟩
  · exact hI
  · exact fun id hlen => same id rfl hlen
  · cases hf with
    | tx payload t g pre s l q v' read raw again said ident verified =>
      intro id hlen
      by_cases hid : id = pre
      · subst hid
        have e1 : (st.insertTransactionEvent id (t ++ g)).tels id = st.tels id ++ [t ++ g] := by
          unfold Store.insertTransactionEvent append
          simp
        rw [e1] at hlen ⊢
        rw [List.length_append, List.length_singleton] at hlen
        obtain ⟨log, h1, h2⟩ := hI id (by omega)
        refine ⟨log ++ [s], List.rel_append h1 (.cons ⟨payload, t, g, l, hm, read, raw, rfl, again⟩ .nil), .inr (knownIn_mono he ?_)⟩
        exact (fits_of hH read ident (by omega) verified).valid (StoredTx.reads h1) h2
      · refine same id ?_ hlen
        unfold Store.insertTransactionEvent append
        simp [hid]
  · exact fun id hlen => same id rfl hlen

theorem telsOk {E : Env} (hH : HashOk E.H) {hist : List (Msg × Msg)} {st : Store} (h : Reach E hist st) : TelsOk E.H E.chk E.fl hist st := by
  induction h with
  | empty => exact fun p _ => ⟨[], .nil, .inl rfl⟩
  | @ingest hist st E' fuel n stream msgs deep verify h sc hR hp hv ih =>
    have ih : TelsOk E.H E.chk E.fl (hist ++ pairs msgs) st := by
      intro p hl
      obtain ⟨log, h1, h2⟩ := ih p hl
      refine ⟨log, h1.imp ?_, h2⟩
      rintro _ _ ⟨p, u, g, l, k1, k2⟩
      exact ⟨p, u, g, l, List.mem_append_left _ k1, k2⟩
    obtain ⟨c1, c2, c3, c4⟩ := sc
    rw [← c1, ← c2, ← c3] at ih ⊢
    refine ingestLoop_induct hR hv _ (hist ++ pairs msgs) ?_ st _ [] ih (fun q hq => by cases hq)
      (fun x hx => List.mem_append_right _ (pairs_take msgs n x hx))
    intro st m g v a v' st' r hI _ hm hf hpf
    exact telsOk_step (by rw [c3]; exact hH) st m g v a v' st' r hI hm hf hpf

/-- C62: whatever streams a verifier takes in, whatever their outcome and wherever the process is killed, the transaction
log it keeps for a registry or credential is empty or valid: every event is anchored by a seal in a valid key event log
of the controller of the registry it names. -/
theorem C62_log (E : Env) (hH : HashOk E.H) (hist : List (Msg × Msg)) (st : Store) (h : Reach E hist st)
    (hlen : ∀ p, (st.kels p).length ≤ 2 ^ 32 ∧ (st.tels p).length ≤ 2 ^ 32) :
    ∃ (kel : Str → List Entry) (tel : Str → List Sad),
      (∀ p, List.Forall₂ (Stored E.fl hist) (st.kels p) (kel p) ∧ (kel p = [] ∨ ValidLog E.H E.C E.chk E.fl p (kel p))) ∧
      (∀ p, List.Forall₂ (StoredTx E.fl hist) (st.tels p) (tel p) ∧
        (tel p = [] ∨ ValidTel E.H E.chk ⟨fun p a => ∃ e ∈ kel p, e.sad = a, fun p e => (tel p).head? = some e⟩ p (tel p))) := by
  choose kel hk using fun p => C56_log E hH hist st h p (hlen p).1
  choose tel ht using fun p => telsOk hH h p (hlen p).2
  refine ⟨kel, tel, hk, fun p => ⟨(ht p).1, (ht p).2.imp id fun hv => ?_⟩⟩
  refine ValidTel.mono (W := knownIn E.fl st) ?_ ?_ hv
  · rintro p a ⟨t, h1, h2⟩
    obtain ⟨i, hi⟩ := List.getElem?_of_mem h1
    obtain ⟨e, he, -, -, -, -, -, -, -, hr⟩ := forall₂_get (hk p).1 hi
    rw [h2] at hr
    cases hr
    exact ⟨e, List.mem_of_getElem? he, rfl⟩
  · rintro p a ⟨t, h1, h2⟩
    obtain ⟨e, he, hr⟩ := forall₂_get (StoredTx.reads (ht p).1) h1
    rw [h2] at hr
    cases hr
    exact List.head?_eq_getElem?.trans he

/-- Is a stored text an event of a type? -/
def isType (k t : Str) : Bool :=
  match Serder.newWithRaw (fun _ => none) (toUtf8 t) with
  | .ok s =>
    match field (str% "t") s.ked with
    | some (.str t) => decide (t = k)
    | _ => false
  | _ => false

theorem isType_ok {k t : Str} (h : isType k t = true) : ∃ s, Serder.newWithRaw (fun _ => none) (toUtf8 t) = .ok s ∧ HasText (str% "t") k s := by
  unfold isType at h
  split at h
  · rename_i s hs
    refine ⟨s, hs, ?_⟩
    split at h
    · rename_i t ht
      rw [of_decide_eq_true h] at ht
      exact ht
    · cases h
  · cases h

/-- Is a stored text a revocation? -/
def isRev : Str → Bool := isType (str% "rev")

/-- A verifier that took in the inception of a registry, the issuance of a credential and its revocation: the hypotheses
of `C62_log` are met, and the log of the credential has two events. -/
example : ∃ hist st id, Reach (World.env []) hist st ∧ (∀ p, (st.kels p).length ≤ 2 ^ 32 ∧ (st.tels p).length ≤ 2 ^ 32) ∧
    (st.tels id).map isRev = [false, true] := by
  have h : World.keeps World.revoked (fun st => World.both (World.issA >>= Serder.pre) (.ok []) fun id _ => decide ((st.tels id).map isRev = [false, true])) = true := by
    decide +kernel
  obtain ⟨hist, st, h1, h2, h3⟩ := World.keeps_reach h (by decide)
  obtain ⟨id, -, -, -, h2⟩ := World.both_ok h2
  exact ⟨hist, st, id, h1, h3, of_decide_eq_true h2⟩

/-! ## C63 -/

/-- After the first event there are only revocations. -/
theorem ValidTel.tail {H : Hash} {chk : Bool} {W : Known} {id : Str} {log : List Sad} (h : ValidTel H chk W id log) :
    ∃ e l, log = e :: l ∧ ¬ HasText (str% "t") (str% "rev") e ∧ ∀ x ∈ l, HasText (str% "t") (str% "rev") x := by
  have hne : ∀ {e : Sad} {t : Str}, HasText (str% "t") t e → t ≠ str% "rev" → ¬ HasText (str% "t") (str% "rev") e := by
    intro e t h1 hn h2
    unfold HasText at h1 h2
    rw [h1] at h2
    exact hn (Value.str.inj (Option.some.inj h2))
  induction h with
  | incept e a ii type => exact ⟨e, [], rfl, hne type (by decide), by simp⟩
  | issue e ri type => exact ⟨e, [], rfl, hne type (by decide), by simp⟩
  | revoke log prev e ri psaid before type _ _ _ _ _ _ _ _ _ ih =>
    obtain ⟨x, l, rfl, h1, h2⟩ := ih
    refine ⟨x, l ++ [e], rfl, h1, ?_⟩
    intro y hy
    rcases List.mem_append.mp hy with hy | hy
    · exact h2 y hy
    · rw [List.mem_singleton.mp hy]; exact type

/-- A credential is revoked in a store: its transaction log has a revocation. -/
def Revoked (fl : Str → Option Str) (st : Store) (id : Str) : Prop :=
  ∃ t ∈ st.tels id, ∃ e, Serder.newWithRaw fl (toUtf8 t) = .ok e ∧ HasText (str% "t") (str% "rev") e

theorem Revoked.mono {fl : Str → Option Str} {st st' : Store} {id : Str} (he : Extends st st') (h : Revoked fl st id) : Revoked fl st' id :=
  let ⟨t, h1, h2⟩ := h
  ⟨t, (he.tels id).subset h1, h2⟩

/-- The last event of the log of a revoked credential is a revocation. -/
theorem revoked_last {H : Hash} {chk : Bool} {fl : Str → Option Str} {hist : List (Msg × Msg)} {st : Store} (hI : TelsOk H chk fl hist st) {id : Str}
    (hlen : (st.tels id).length ≤ 2 ^ 32) (hr : Revoked fl st id) :
    ∃ t e, (st.tels id).getLast? = some t ∧ Serder.newWithRaw fl (toUtf8 t) = .ok e ∧ HasText (str% "t") (str% "rev") e := by
  obtain ⟨log, h1, h2⟩ := hI id hlen
  obtain ⟨t, ht, e, he, hrev⟩ := hr
  obtain ⟨i, hi⟩ := List.getElem?_of_mem ht
  obtain ⟨e', hi', he'⟩ := forall₂_get (StoredTx.reads h1) hi
  rw [he] at he'
  cases he'
  rcases h2 with rfl | h2
  · simp at hi'
  obtain ⟨x, l, rfl, h3, h4⟩ := ValidTel.tail h2
  have hl := h1.length_eq
  obtain ⟨j, rfl⟩ : ∃ j, i = j + 1 := by
    cases i with
    | zero =>
      cases hi'
      exact absurd hrev h3
    | succ j => exact ⟨j, rfl⟩
  have hj := (List.getElem?_eq_some_iff.mp hi').1
  rw [List.length_cons] at hj hl
  obtain ⟨u, hlast⟩ : ∃ u, (st.tels id)[l.length]? = some u := ⟨_, List.getElem?_eq_getElem (by omega)⟩
  obtain ⟨y, hy, hye⟩ := forall₂_get (StoredTx.reads h1) hlast
  refine ⟨_, y, ?_, hye, h4 y ?_⟩
  · rw [List.getLast?_eq_getElem?, hl]
    exact hlast
  · obtain ⟨k, hk⟩ : ∃ k, l.length = k + 1 := ⟨l.length - 1, by omega⟩
    rw [hk, List.getElem?_cons_succ] at hy
    exact List.mem_of_getElem? hy

/-- A credential whose last transaction event is a revocation is refused. -/
theorem refused {E : Env} {st : Store} {deep : Option Bool} {fuel : Nat} {creder : Sad} {l : List SigGroup} {v : List Str} {id t : Str} {e : Sad}
    (hq : Sadder.said E.chk creder = .ok id) (hl : (st.tels id).getLast? = some t) (he : Serder.newWithRaw E.fl (toUtf8 t) = .ok e)
    (ht : HasText (str% "t") (str% "rev") e) : ∀ r, verifyAcdc E st deep fuel creder l v ≠ .ok r := by
  intro r h
  cases fuel with
  | zero =>
    unfold verifyAcdc at h
    cases h
  | succ fuel =>
    unfold verifyAcdc at h
    obtain ⟨status, -, h⟩ := Res.bind_eq_ok.mp h
    split at h
    · cases h
    rw [hq, Res.ok_bind] at h
    obtain ⟨_, -, h⟩ := Res.bind_eq_ok.mp h
    obtain ⟨_, -, h⟩ := Res.bind_eq_ok.mp h
    obtain ⟨_, -, h⟩ := Res.bind_eq_ok.mp h
    obtain ⟨_, -, h⟩ := Res.bind_eq_ok.mp h
    split at h
    · cases h
    obtain ⟨w, h, -⟩ := Res.bind_eq_ok.mp h
    unfold checkState Store.getLatestTransactionEvent at h
    rw [hl, Res.ofOption, Res.ok_bind, he, Res.ok_bind] at h
    obtain ⟨_, -, h⟩ := Res.bind_eq_ok.mp h
    obtain ⟨_, -, h⟩ := Res.bind_eq_ok.mp h
    obtain ⟨_, -, h⟩ := Res.bind_eq_ok.mp h
    split at h
    · cases h
    obtain ⟨_, -, h⟩ := Res.bind_eq_ok.mp h
    obtain ⟨x, hx, h⟩ := Res.bind_eq_ok.mp h
    obtain ⟨y, hy, h⟩ := Res.bind_eq_ok.mp h
    have := index_text hx hy
    unfold HasText at this ht
    rw [ht] at this
    cases this
    rw [if_pos (.inl rfl)] at h
    cases h

/-- C63: a credential whose revocation a verifier has stored is refused, whatever the proof and the options. -/
theorem C63_refused (E : Env) (hH : HashOk E.H) (hist : List (Msg × Msg)) (st : Store) (h : Reach E hist st) (id : Str)
    (hlen : (st.tels id).length ≤ 2 ^ 32) (hr : Revoked E.fl st id) (E' : Env) (hE : SameCode E E') (deep : Option Bool) (fuel : Nat) (creder : Sad)
    (hq : Sadder.said E.chk creder = .ok id) (l : List SigGroup) (v : List Str) (r : Bool × List Str) : verifyAcdc E' st deep fuel creder l v ≠ .ok r := by
  obtain ⟨t, e, h1, h2, h3⟩ := revoked_last (telsOk hH h) hlen hr
  exact refused (by rw [hE.chk]; exact hq) h1 (by rw [hE.fl]; exact h2) h3 r

/-- C63: and it never comes back. Whatever stream the verifier takes in after that, the revocation stays, and no credential
with that SAID is added. -/
theorem C63_permanent (E : Env) (hH : HashOk E.H) (hist : List (Msg × Msg)) (st : Store) (h : Reach E hist st) (id : Str) (hr : Revoked E.fl st id)
    (E' : Env) (hE : SameCode E E') (hR : Remembers E') (fuel : Nat) (deep verify : Option Bool) (hv : verify ≠ some false) (msgs : List Msg) (st' : Store)
    (hst : (ingestLoop E' fuel deep verify st msgs []).1 = st') (hlen : (st'.tels id).length ≤ 2 ^ 32) :
    Revoked E.fl st' id ∧ ∃ new, st'.acdcs = st.acdcs ++ new ∧
      ∀ t ∈ new, ∀ s, Creder.newWithRaw E.fl (toUtf8 t) = .ok s → Sadder.said E.chk s ≠ .ok id := by
  subst hst
  refine ⟨hr.mono (ingestLoop_extends _ _ _), ?_⟩
  obtain ⟨c1, c2, c3, c4⟩ := hE
  have hI := telsOk hH h
  have hH' : HashOk E'.H := by rw [c3]; exact hH
  have hI : TelsOk E'.H E'.chk E'.fl (hist ++ pairs msgs) st := by
    rw [c1, c2, c3]
    intro p hl
    obtain ⟨log, h1, h2⟩ := hI p hl
    refine ⟨log, h1.imp ?_, h2⟩
    rintro _ _ ⟨p, u, g, l, k1, k2⟩
    exact ⟨p, u, g, l, List.mem_append_left _ k1, k2⟩
  have hr : Revoked E'.fl st id := by rw [c2]; exact hr
  have := ingestLoop_induct hR hv (fuel := fuel) (deep := deep)
    (fun s => TelsOk E'.H E'.chk E'.fl (hist ++ pairs msgs) s ∧ Revoked E'.fl s id ∧ ((s.tels id).length ≤ 2 ^ 32 → ∃ new, s.acdcs = st.acdcs ++ new ∧
      ∀ t ∈ new, ∀ x, Creder.newWithRaw E'.fl (toUtf8 t) = .ok x → Sadder.said E'.chk x ≠ .ok id)) (hist ++ pairs msgs) ?_ st msgs []
    ⟨hI, hr, fun _ => ⟨[], by simp, by simp⟩⟩ (fun q hq => by cases hq) (fun x hx => List.mem_append_right _ hx)
  · rw [← c1, ← c2]
    exact this.2.2 hlen
  · rintro s m g v a v' s' r ⟨i1, i2, i3⟩ _ hm hf hp
    refine ⟨telsOk_step hH' s m g v a v' s' r i1 hm hf hp, ?_⟩
    have he : Extends s s' := by
      have := perform_extends (E := E') (st := s) (a := a)
      rw [hp] at this
      exact this
    refine ⟨i2.mono he, fun hl => ?_⟩
    have hl' : (s.tels id).length ≤ 2 ^ 32 := ((he.tels id).length_le).trans hl
    obtain ⟨new, e1, e2⟩ := i3 hl'
    rcases perform_kels hp with rfl | ⟨pre, t, rfl, rfl⟩ | ⟨pre, t, rfl, rfl⟩ | ⟨t, rfl, rfl⟩
    · exact ⟨new, e1, e2⟩
    · exact ⟨new, e1, e2⟩
    · exact ⟨new, e1, e2⟩
    · cases hf with
      | cred payload t g x l q v' read raw again said verified =>
        refine ⟨new ++ [t ++ g], ?_, ?_⟩
        · show s.acdcs ++ [t ++ g] = _
          rw [e1, List.append_assoc]
        · intro u hu y hy
          rcases List.mem_append.mp hu with hu | hu
          · exact e2 u hu y hy
          · rw [List.mem_singleton.mp hu, again] at hy
            cases hy
            intro hq
            obtain ⟨t', e, k1, k2, k3⟩ := revoked_last i1 hl' i2
            exact refused hq k1 k2 k3 _ verified

/-- A verifier that took in a revocation: the hypotheses of C63 are met, and the credential had been issued before. -/
example : ∃ hist st id c, Reach (World.env []) hist st ∧ (∀ p, (st.kels p).length ≤ 2 ^ 32 ∧ (st.tels p).length ≤ 2 ^ 32) ∧
    (st.tels id).length = 2 ∧ Revoked (World.env []).fl st id ∧ World.credA = .ok c ∧ Sadder.said true c = .ok id ∧ Remembers (World.env []) := by
  have h : World.keeps World.revoked (fun st => World.both (World.credA >>= Sadder.said true) (.ok []) fun id _ =>
      decide ((st.tels id).map isRev = [false, true])) = true := by
    decide +kernel
  obtain ⟨hist, st, h1, h2, h3⟩ := World.keeps_reach h (by decide)
  obtain ⟨id, -, e1, -, h2⟩ := World.both_ok h2
  obtain ⟨c, e1, e2⟩ := Res.bind_eq_ok.mp e1
  have h4 := of_decide_eq_true h2
  refine ⟨hist, st, id, c, h1, h3, by simpa using congrArg List.length h4, ?_, e1, e2, World.env_remembers []⟩
  obtain ⟨b, hb, hb'⟩ := List.mem_map.mp (show true ∈ (st.tels id).map isRev by rw [h4]; simp)
  exact ⟨b, hb, isType_ok hb'⟩

end Keride.Props
