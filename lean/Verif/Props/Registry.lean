/-
C64 and C65: who can revoke a credential, and the SAIDs of stored events.
-/
import Verif.Props.Tel

namespace Keride.Props

open Matter Spec Sample

/-! ## C64 -/

/-- C64, for revocations that name the registry of the issuance: issuance and revocation are anchored by the same
controller, the one the first event of that registry names. Missing: revocations that name another registry, which
`C64_false` shows. -/
theorem C64_partial (E : Env) (hH : HashOk E.H) (hist : List (Msg × Msg)) (st : Store) (h : Reach E hist st)
    (hlen : ∀ p, (st.kels p).length ≤ 2 ^ 32 ∧ (st.tels p).length ≤ 2 ^ 32) (id ri : Str) (t u : Str) (e r : Sad) (ht : t ∈ st.tels id) (hu : u ∈ st.tels id)
    (he : Serder.newWithRaw E.fl (toUtf8 t) = .ok e) (hr : Serder.newWithRaw E.fl (toUtf8 u) = .ok r) (hi : HasText (str% "t") (str% "iss") e)
    (hv : HasText (str% "t") (str% "rev") r) (h1 : HasText (str% "ri") ri e) (h2 : HasText (str% "ri") ri r) :
    ∃ first reg ii, (st.tels ri).head? = some first ∧ Serder.newWithRaw E.fl (toUtf8 first) = .ok reg ∧ HasText (str% "ii") ii reg ∧
      ∀ x ∈ [e, r], ∃ a ∈ st.kels ii, ∃ key, Serder.newWithRaw E.fl (toUtf8 a) = .ok key ∧ Seals E.chk key x := by
  obtain ⟨log, k1, k2⟩ := telsOk hH h id (hlen id).2
  have mem : ∀ {t : Str} {e : Sad}, t ∈ st.tels id → Serder.newWithRaw E.fl (toUtf8 t) = .ok e → e ∈ log := by
    intro t e ht he
    obtain ⟨i, hi⟩ := List.getElem?_of_mem ht
    obtain ⟨e', hi', he'⟩ := forall₂_get (StoredTx.reads k1) hi
    rw [he] at he'
    cases he'
    exact List.mem_of_getElem? hi'
  have me := mem ht he
  have mr := mem hu hr
  rcases k2 with rfl | k2
  · cases me
  have anch : ∀ x ∈ log, HasText (str% "ri") ri x → HasText (str% "t") (str% "iss") x ∨ HasText (str% "t") (str% "rev") x → AnchoredIn (knownIn E.fl st) E.chk ri x := by
    clear me mr mem k1
    have uniq : ∀ {k a b : Str} {x : Sad}, HasText k a x → HasText k b x → a = b := by
      intro k a b x h1 h2
      unfold HasText at h1 h2
      rw [h1] at h2
      exact Value.str.inj (Option.some.inj h2)
    induction k2 with
    | incept e a ii type =>
      intro x hx _ hc
      rw [List.mem_singleton.mp hx] at hc
      rcases hc with hc | hc
      · exact absurd (uniq type hc) (by decide)
      · exact absurd (uniq type hc) (by decide)
    | issue e ri' _ _ _ _ _ registry anchored =>
      intro x hx hri _
      rw [List.mem_singleton.mp hx] at hri ⊢
      rw [uniq hri registry]
      exact anchored
    | revoke log prev e ri' _ _ _ _ _ _ _ _ _ _ registry anchored ih =>
      intro x hx hri hc
      rcases List.mem_append.mp hx with hx | hx
      · exact ih x hx hri hc
      · rw [List.mem_singleton.mp hx] at hri ⊢
        rw [uniq hri registry]
        exact anchored
  obtain ⟨r1, i1, a1, ⟨f1, p1, q1⟩, n1, ⟨s1, m1, b1⟩, l1⟩ := anch e me h1 (.inl hi)
  obtain ⟨r2, i2, a2, ⟨f2, p2, q2⟩, n2, ⟨s2, m2, b2⟩, l2⟩ := anch r mr h2 (.inr hv)
  rw [p1] at p2
  cases p2
  rw [q1] at q2
  cases q2
  unfold HasText at n1 n2
  rw [n1] at n2
  cases n2
  refine ⟨f1, r1, i1, by rw [List.head?_eq_getElem?]; exact p1, q1, n1, ?_⟩
  intro x hx
  simp only [List.mem_cons, List.not_mem_nil, or_false] at hx
  rcases hx with rfl | rfl
  · exact ⟨s1, m1, a1, b1, l1⟩
  · exact ⟨s2, m2, a2, b2, l2⟩

/-- Does a stored key event have a seal with a digest? -/
def mentions (d : Str) (t : Str) : Bool :=
  match Serder.newWithRaw (fun _ => none) (toUtf8 t) with
  | .ok s =>
    match field (str% "a") s.ked with
    | some (.arr [sl]) =>
      match field (str% "d") sl with
      | some (.str x) => decide (x = d)
      | _ => false
    | _ => false
  | _ => false

theorem mentions_of {t d : Str} {a e : Sad} (ha : Serder.newWithRaw (fun _ => none) (toUtf8 t) = .ok a) (h : Seals true a e) (hd : Sadder.said true e = .ok d) :
    mentions d t = true := by
  obtain ⟨sl, i, n, d', h1, h2, h3, h4, h5, h6, h7⟩ := h
  unfold mentions
  rw [ha]
  dsimp only
  rw [h1]
  dsimp only
  rw [h4]
  dsimp only
  rw [hd] at h7
  cases h7
  exact decide_eq_true rfl

/-- The text of a field of a stored event. -/
def textOf (k : Str) (t : Str) : Option Str :=
  match Serder.newWithRaw (fun _ => none) (toUtf8 t) with
  | .ok s =>
    match field k s.ked with
    | some (.str r) => some r
    | _ => none
  | _ => none

theorem textOf_ok {k t r : Str} (h : textOf k t = some r) : ∃ s, Serder.newWithRaw (fun _ => none) (toUtf8 t) = .ok s ∧ HasText k r s := by
  unfold textOf at h
  split at h
  · rename_i s hs
    refine ⟨s, hs, ?_⟩
    split at h
    · rename_i t ht
      cases h
      exact ht
    · cases h
  · cases h

/-- The SAID of a stored event. -/
def saidOf (t : Str) : Option Str :=
  match (Serder.newWithRaw (fun _ => none) (toUtf8 t) >>= Sadder.said true : Res Str) with
  | .ok q => some q
  | _ => none

theorem saidOf_ok {t q : Str} {s : Sad} (h : saidOf t = some q) (hs : Serder.newWithRaw (fun _ => none) (toUtf8 t) = .ok s) : Sadder.said true s = .ok q := by
  unfold saidOf at h
  rw [hs, Res.ok_bind] at h
  split at h
  · rename_i x hx
    rw [hx, Option.some.inj h]
  · cases h

/-- A credential is issued by one controller and revoked without any event of theirs sealing the revocation. -/
def stolen (st : Store) (id ri ii : Str) : Bool :=
  match st.tels id, (st.tels ri).head? with
  | [t, u], some f =>
    isType (str% "iss") t && isRev u && decide (textOf (str% "ri") t = some ri) && decide (textOf (str% "ii") f = some ii) && !(st.kels ii).isEmpty &&
    match saidOf u with
    | some q => (st.kels ii).all fun k => !mentions q k
    | none => false
  | _, _ => false

/-- C64 does not hold in general: a revocation need not name the registry of the issuance, so that anyone with a registry
can revoke any credential. Here a verifier keeps a revocation that no event of the issuer seals. -/
theorem C64_false : ∃ (E : Env) (hist : List (Msg × Msg)) (st : Store) (id ri ii t u f : Str) (e r reg : Sad), HashOk E.H ∧ Reach E hist st ∧ st.tels id = [t, u] ∧
    Serder.newWithRaw E.fl (toUtf8 t) = .ok e ∧ HasText (str% "t") (str% "iss") e ∧ HasText (str% "ri") ri e ∧
    Serder.newWithRaw E.fl (toUtf8 u) = .ok r ∧ HasText (str% "t") (str% "rev") r ∧
    (st.tels ri).head? = some f ∧ Serder.newWithRaw E.fl (toUtf8 f) = .ok reg ∧ HasText (str% "ii") ii reg ∧ st.kels ii ≠ [] ∧
    ∀ a ∈ st.kels ii, ∀ key, Serder.newWithRaw E.fl (toUtf8 a) = .ok key → ¬ Seals E.chk key r := by
  have h : World.keeps World.hijacked (fun st => World.both (World.issA >>= Serder.pre) (World.icpA >>= Serder.pre) fun id ii =>
      World.both (World.vcpA >>= Serder.pre) (.ok []) fun ri _ => stolen st id ri ii) = true := by
    decide +kernel
  obtain ⟨hist, st, h1, h2, -⟩ := World.keeps_reach h (by decide)
  obtain ⟨id, ii, -, -, h2⟩ := World.both_ok h2
  obtain ⟨ri, -, -, -, h2⟩ := World.both_ok h2
  unfold stolen at h2
  split at h2
  case h_2 => cases h2
  rename_i t u f e1 e2
  simp only [Bool.and_eq_true, decide_eq_true_eq] at h2
  obtain ⟨⟨⟨⟨⟨k1, k2⟩, k3⟩, k4⟩, k5⟩, k6⟩ := h2
  split at k6
  case h_2 => cases k6
  rename_i q hq
  obtain ⟨e, he, he'⟩ := isType_ok k1
  obtain ⟨r, hr, hr'⟩ := isType_ok k2
  obtain ⟨e', he1, he2⟩ := textOf_ok k3
  obtain ⟨reg, hreg, hreg'⟩ := textOf_ok k4
  rw [he] at he1
  cases he1
  refine ⟨World.env [], hist, st, id, ri, ii, t, u, f, e, r, reg, World.hash_ok, h1, e1, he, he', he2, hr, hr', e2, hreg, hreg', ?_, ?_⟩
  · intro hn
    rw [hn] at k5
    simp at k5
  · intro a ha key hk hs
    have := List.all_eq_true.mp k6 a ha
    rw [mentions_of hk hs (saidOf_ok hq hr)] at this
    cases this

/-- A stream with the issuance and the revocation of a credential under one registry: the hypotheses of `C64_partial` are
met. -/
example : ∃ hist st id ri, Reach (World.env []) hist st ∧ (∀ p, (st.kels p).length ≤ 2 ^ 32 ∧ (st.tels p).length ≤ 2 ^ 32) ∧
    (st.tels id).map (isType (str% "iss")) = [true, false] ∧ (st.tels id).map isRev = [false, true] ∧
    (st.tels id).map (textOf (str% "ri")) = [some ri, some ri] := by
  have h : World.keeps World.revoked (fun st => World.both (World.issA >>= Serder.pre) (World.vcpA >>= Serder.pre) fun id ri =>
      decide ((st.tels id).map (isType (str% "iss")) = [true, false] ∧ (st.tels id).map isRev = [false, true] ∧
        (st.tels id).map (textOf (str% "ri")) = [some ri, some ri])) = true := by
    decide +kernel
  obtain ⟨hist, st, h1, h2, h3⟩ := World.keeps_reach h (by decide)
  obtain ⟨id, ri, -, -, h2⟩ := World.both_ok h2
  exact ⟨hist, st, id, ri, h1, h3, of_decide_eq_true h2⟩

/-! ## C65 -/

/-- C65, for key events, issuances and revocations: the SAID of a stored event is the digest of its content. Missing: the
inception of a registry, which `C65_false` shows. -/
theorem C65_partial (E : Env) (hH : HashOk E.H) (hist : List (Msg × Msg)) (st : Store) (h : Reach E hist st)
    (hlen : ∀ p, (st.kels p).length ≤ 2 ^ 32 ∧ (st.tels p).length ≤ 2 ^ 32) (id t : Str) (s : Sad) (hs : Serder.newWithRaw E.fl (toUtf8 t) = .ok s) :
    (t ∈ st.kels id → (HasText (str% "t") (str% "icp") s → InceptionAddressed E.H E.chk s) ∧ (¬ HasText (str% "t") (str% "icp") s → SelfAddressed E.H E.chk s)) ∧
    (t ∈ st.tels id → ¬ HasText (str% "t") (str% "vcp") s → SelfAddressed E.H E.chk s) := by
  have uniq : ∀ {k a b : Str} {x : Sad}, HasText k a x → HasText k b x → a = b := by
    intro k a b x h1 h2
    unfold HasText at h1 h2
    rw [h1] at h2
    exact Value.str.inj (Option.some.inj h2)
  constructor
  · intro ht
    obtain ⟨log, k1, k2⟩ := C56_log E hH hist st h id (hlen id).1
    obtain ⟨i, hi⟩ := List.getElem?_of_mem ht
    obtain ⟨e, hi', -, -, -, -, -, -, -, he⟩ := forall₂_get k1 hi
    rw [hs] at he
    cases he
    have me := List.mem_of_getElem? hi'
    clear hi hi' k1 hs
    rcases k2 with rfl | k2
    · cases me
    induction k2 with
    | incept e _ _ _ type _ _ _ _ digest =>
      rw [List.mem_singleton.mp me]
      exact ⟨fun _ => digest, fun hn => absurd type hn⟩
    | rotate log e' _ _ _ _ _ _ _ _ before type _ _ _ digest _ _ _ _ _ _ _ _ _ _ ih =>
      rcases List.mem_append.mp me with me | me
      · exact ih me
      · rw [List.mem_singleton.mp me]
        exact ⟨fun h => absurd (uniq type h) (by decide), fun _ => digest⟩
    | interact log e' _ _ _ _ _ _ before type _ _ _ digest _ _ _ _ _ _ _ ih =>
      rcases List.mem_append.mp me with me | me
      · exact ih me
      · rw [List.mem_singleton.mp me]
        exact ⟨fun h => absurd (uniq type h) (by decide), fun _ => digest⟩
  · intro ht hn
    obtain ⟨log, k1, k2⟩ := telsOk hH h id (hlen id).2
    obtain ⟨i, hi⟩ := List.getElem?_of_mem ht
    obtain ⟨e, hi', he⟩ := forall₂_get (StoredTx.reads k1) hi
    rw [hs] at he
    cases he
    have me := List.mem_of_getElem? hi'
    clear hi hi' k1 hs
    rcases k2 with rfl | k2
    · cases me
    induction k2 with
    | incept e a ii type =>
      rw [List.mem_singleton.mp me] at hn
      exact absurd type hn
    | issue e ri type _ _ _ digest =>
      rw [List.mem_singleton.mp me]
      exact digest
    | revoke log prev e ri psaid before type _ _ _ digest _ _ _ _ _ ih =>
      rcases List.mem_append.mp me with me | me
      · exact ih me
      · rw [List.mem_singleton.mp me]
        exact digest

/-- The SAID of the first stored text of a log. -/
def firstSaid (st : Store) (id : Str) : Option Str :=
  match (st.tels id).head? with
  | some t =>
    match (Serder.newWithRaw (fun _ => none) (toUtf8 t) >>= Sadder.said true : Res Str) with
    | .ok q => some q
    | _ => none
  | none => none

/-- C65 does not hold of the inception of a registry: the content does not determine its SAID. Two verifiers can keep
first events of the same registry with different SAIDs, one of them not the digest of the event. -/
theorem C65_false : ∃ (E : Env) (hist hist' : List (Msg × Msg)) (st st' : Store) (id q q' : Str), HashOk E.H ∧ Reach E hist st ∧ Reach E hist' st' ∧
    firstSaid st id = some q ∧ firstSaid st' id = some q' ∧ q = id ∧ q ≠ q' := by
  have h : World.keeps World.registered (fun st => World.both (World.vcpA >>= Serder.pre) (.ok []) fun id _ => decide (firstSaid st id = some id)) = true := by
    decide +kernel
  have h' : World.keeps World.oddly (fun st => World.both (World.vcpA >>= Serder.pre) (World.icpB >>= Serder.pre) fun id q =>
      decide (firstSaid st id = some q ∧ id ≠ q)) = true := by
    decide +kernel
  obtain ⟨hist, st, h1, h2, -⟩ := World.keeps_reach h (by decide)
  obtain ⟨hist', st', h1', h2', -⟩ := World.keeps_reach h' (by decide)
  obtain ⟨id, -, e1, -, h2⟩ := World.both_ok h2
  obtain ⟨id', q, e1', -, h2'⟩ := World.both_ok h2'
  rw [e1] at e1'
  cases e1'
  have h3 := of_decide_eq_true h2'
  exact ⟨_, hist, hist', st, st', _, _, _, World.hash_ok, h1, h1', of_decide_eq_true h2, h3.1, rfl, h3.2⟩

end Keride.Props
