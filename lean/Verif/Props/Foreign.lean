/-
C96: the messages of issuers after the messages of others, in one stream.
-/
import Verif.Props.Chunks
import Verif.Lemmas.Foreign

namespace Keride.Props

open Spec Sample Matter

/-- A verifier that knows nothing of the issuers has met none of the SAIDs of their messages. -/
theorem unmet {E : Env} {S : Stretch} (hH : HashOk E.H) {A : Str → Option Agent} {own : Store} {logs : Str → List (Sad × Parts)} {xs : List Piece}
    (hall : Hall E S A own logs xs) {hist : List (Msg × Msg)} {st : Store} (hreach : Reach E hist st)
    (hlen : ∀ p, (st.kels p).length ≤ 2 ^ 32 ∧ (st.tels p).length ≤ 2 ^ 32) (ho : Orderly E st) (hi : Ignorant E own st)
    (hcol : ¬ Collision E.H (str% "E") (StoreText E.fl st) (MessageText E.fl (xs.map Piece.whole))) :
    ∀ x ∈ xs, ∀ q, Says E x q → ¬ Sample.Holds E st q := by
  intro x hx q hq hh
  obtain ⟨P, hmark, hocc⟩ := hall.told.marks x hx
  obtain ⟨s, ⟨hs, hw⟩, hp⟩ := hmark.doc
  obtain ⟨s', P', h1, h2, h3, h4⟩ := held_placed hH hreach hlen ho (hp.digestive (hs q hq)) hh
  rcases h3.same hp h2 (hs q hq) with rfl | h
  · cases P' with
    | key p n =>
      exact h4 (hi.kels p fun h0 => by
        have : n < (own.kels p).length := hocc
        rw [h0] at this
        cases this)
    | vcp q' => exact h4 (hi.tels q' hocc)
    | iss q' => exact h4 (hi.tels q' hocc)
    | rev q' => exact h4 (hi.tels q' fun h0 => by
        have : 2 ≤ (own.tels q').length := hocc
        rw [h0] at this
        cases this)
    | cred q' =>
      obtain ⟨t, ht, hc⟩ := h4
      obtain ⟨t', ht', c, k1, k2⟩ := hocc
      obtain ⟨w, hw, -, rfl, -⟩ := hall.held ht' k1 k2
      exact hi.acdcs w.id hw.tels t ht hc
  · exact hcol (h.mono h1 fun _ k => ⟨x.whole, List.mem_map_of_mem hx, s, hw, k⟩)

/-- C96: a verifier that reached its store by taking in messages of any kind is sent a stream. The first part, messages of others, it would accept. The second part is the
messages of a session of several issuers, of whom it knows nothing after the first part. If what it has stored by then is in the form that the library gives it, then it
accepts the whole stream, and in the end has all that the issuers have, and nothing else changed; unless two different texts digested for these messages, or for what is
stored, have the same digest. -/
theorem C96_partial (E : Env) (S : Stretch) (hC : CryptoOk E.C) (hH : HashOk E.H) (hstore : ∀ st t, E.refuses st t = false) (hparse : ReadsStreams E)
    (hR : Remembers E) (A : Str → Option Agent) (own : Store) (ms : List Str) (h : Market E S A own ms) (hm : ∀ m ∈ ms, (toUtf8 m).length < 2 ^ 32)
    (hlen : ∀ p, (own.kels p).length ≤ 2 ^ 32) :
    ∃ n, ∀ (others : List Piece) (hist : List (Msg × Msg)) (st0 st : Store) (fuel : Nat) (deep verify : Option Bool), n ≤ fuel → verify ≠ some false →
      (∀ y ∈ others, y.Wellformed E.chk) → Reach E hist st0 → ingest E fuel st0 (others.map Piece.whole).flatten deep verify = (st, .ok ()) →
      (∀ p, (st.kels p).length ≤ 2 ^ 32 ∧ (st.tels p).length ≤ 2 ^ 32) → Orderly E st → Ignorant E own st →
      (∃ st', ingest E fuel st0 ((others.map Piece.whole).flatten ++ ms.flatten) deep verify = (st', .ok ()) ∧ Merged st own st') ∨
        Collision E.H (str% "E") (fun t => StoreText E.fl st t ∨ MessageText E.fl ms t) (MessageText E.fl ms) := by
  obtain ⟨xs, logs, rfl, hall, n, hcar⟩ := market_hall hC hH hstore h hm hlen
  refine ⟨n, fun others hist st0 st fuel deep verify hf hv hw hreach hing hl ho hi => ?_⟩
  by_cases hcol : Collision E.H (str% "E") (fun t => StoreText E.fl st t ∨ MessageText E.fl (xs.map Piece.whole) t) (MessageText E.fl (xs.map Piece.whole))
  · exact .inr hcol
  left
  have hp := parse_all hparse hw
  have hloop : ingestLoop E fuel deep verify st0 (others.flatMap Piece.parsed) [] = (st, .ok ()) := by
    unfold ingest at hing
    rw [hp] at hing
    exact hing
  have hreach' : Reach E (hist ++ pairs (others.flatMap Piece.parsed)) st := by
    have := Reach.ingest E fuel (others.flatMap Piece.parsed).length _ _ deep verify hreach ⟨rfl, rfl, rfl, rfl⟩ hR hp hv
    rw [List.take_length, hloop] at this
    exact this
  obtain ⟨st', h1, h2⟩ := hcar st fuel deep verify hf hv (fun _ x hx => hparse.reads (hall.wellformed x hx)) hi
  refine ⟨st', ?_, h2⟩
  obtain ⟨v, h3, h4⟩ := loop_append hR hv (v := []) (by simp) hloop
  obtain ⟨v', h5, -⟩ := Flows.after h1 (by
    refine List.Pairwise.imp_of_mem ?_ hall.told.apart
    intro x y hx hy hxy q h1 h2
    exact hcol ((hxy q h1 h2).mono (fun _ ⟨m, k1, k2⟩ => .inr ⟨m, by rw [List.mem_singleton.mp k1]; exact List.mem_map_of_mem hx, k2⟩)
      fun _ ⟨m, k1, k2⟩ => ⟨m, by rw [List.mem_singleton.mp k1]; exact List.mem_map_of_mem hy, k2⟩))
    (unmet hH hall hreach' hl ho hi fun k => hcol (k.mono (fun _ => .inl) fun _ => id)) h4
  have hpa : E.parse (toUtf8 ((others.map Piece.whole).flatten ++ (xs.map Piece.whole).flatten)) = .ok (others.flatMap Piece.parsed ++ xs.flatMap Piece.parsed) := by
    rw [← List.flatten_append, ← List.map_append, ← List.flatMap_append]
    exact parse_all hparse fun x hx => (List.mem_append.mp hx).elim (hw x) (hall.wellformed x)
  unfold ingest
  rw [hpa]
  dsimp only
  have := h5 []
  rw [List.append_nil] at this
  rw [h3, this]
  rfl


/-- C96: two sessions, each of any number of issuers, and none of the second is of the first. A verifier that knows nothing of either, and has met none of the SAIDs of the messages, is sent the
messages of the first session and then those of the second, in any division into streams. All calls succeed, and in the end it has all that both have, and nothing else changed; unless the texts digested for two of the messages
are different and have the same digest. -/
theorem C96_issuers (E : Env) (S S' : Stretch) (hC : CryptoOk E.C) (hH : HashOk E.H) (hstore : ∀ st t, E.refuses st t = false) (hparse : ReadsStreams E)
    (A A' : Str → Option Agent) (own own' : Store) (ms ms' : List Str) (h : Market E S A own ms) (h' : Market E S' A' own' ms') (hother : Ignorant E own' own)
    (hm : ∀ m ∈ ms ++ ms', (toUtf8 m).length < 2 ^ 32) (hlen : ∀ p, (own.kels p).length ≤ 2 ^ 32 ∧ (own'.kels p).length ≤ 2 ^ 32) :
    (∃ n, ∀ (streams : List (List Str)) (st : Store) (fuel : Nat) (deep verify : Option Bool), streams.flatten = ms ++ ms' → n ≤ fuel → verify ≠ some false →
      Ignorant E own st → Ignorant E own' st → Unmet E st (ms ++ ms') →
      ∃ st1 st', Ingests E fuel deep verify st (streams.map List.flatten) st' ∧ Merged st own st1 ∧ Merged st1 own' st') ∨
    Collision E.H (str% "E") (MessageText E.fl (ms ++ ms')) (MessageText E.fl (ms ++ ms')) := by
  by_cases hcol : Collision E.H (str% "E") (MessageText E.fl (ms ++ ms')) (MessageText E.fl (ms ++ ms'))
  · exact .inr hcol
  left
  obtain ⟨xs, logs, rfl, hall, n, hcar⟩ := market_hall hC hH hstore h (fun m hx => hm m (by simp [hx])) fun p => (hlen p).1
  obtain ⟨ys, logs', rfl, hall', n', hcar'⟩ := market_hall hC hH hstore h' (fun m hx => hm m (List.mem_append_right _ hx)) fun p => (hlen p).2
  refine ⟨max n n', fun streams st fuel deep verify hs hf hv hst hst' hun => ?_⟩
  rw [← List.map_append] at hs hun hcol
  obtain ⟨cs, hcs, rfl⟩ := unmap_flatten hs
  obtain ⟨st1, h1, h2⟩ := hcar st fuel deep verify (by omega) hv (fun _ x hx => hparse.reads (hall.wellformed x hx)) hst
  have hst1 : Ignorant E own' st1 := by
    refine ⟨fun p hp => ?_, fun q hq => ?_, fun q hq t ht => ?_⟩
    · rw [h2.otherKels p (hother.kels p hp)]; exact hst'.kels p hp
    · rw [h2.otherTels q (hother.tels q hq)]; exact hst'.tels q hq
    · rw [h2.acdcs] at ht
      rcases List.mem_append.mp ht with ht | ht
      · exact hst'.acdcs q hq t ht
      · exact hother.acdcs q hq t ht
  obtain ⟨st', h3, h4⟩ := hcar' st1 fuel deep verify (by omega) hv (fun _ x hx => hparse.reads (hall'.wellformed x hx)) hst1
  refine ⟨st1, st', ?_, h2, h4⟩
  have hw : ∀ x ∈ xs ++ ys, x.Wellformed E.chk := fun x hx => (List.mem_append.mp hx).elim (hall.wellformed x) (hall'.wellformed x)
  have hmk : ∀ x ∈ xs ++ ys, ∃ P, Mark E x P := by
    intro x hx
    rcases List.mem_append.mp hx with hx | hx
    · obtain ⟨P, k, -⟩ := hall.told.marks x hx; exact ⟨P, k⟩
    · obtain ⟨P, k, -⟩ := hall'.told.marks x hx; exact ⟨P, k⟩
  have hno : ∀ x y, x ∈ xs ++ ys → y ∈ xs ++ ys → ¬ Collision E.H (str% "E") (MessageText E.fl [x.whole]) (MessageText E.fl [y.whole]) := fun x y hx hy hxy =>
    hcol (hxy.mono (fun _ ⟨m, k1, k2⟩ => ⟨m, by rw [List.mem_singleton.mp k1]; exact List.mem_map_of_mem hx, k2⟩)
      fun _ ⟨m, k1, k2⟩ => ⟨m, by rw [List.mem_singleton.mp k1]; exact List.mem_map_of_mem hy, k2⟩)
  rw [List.map_map]
  refine flows_ingests hparse cs st' (by rw [hcs]; exact flows_append h1 h3) ?_ ?_ (by rw [hcs]; exact hw)
  · rw [hcs]
    refine List.pairwise_append.mpr ⟨?_, ?_, ?_⟩
    · exact List.Pairwise.imp_of_mem (fun hx hy hxy q h1 h2 => hno _ _ (by simp [hx]) (by simp [hy]) (hxy q h1 h2)) hall.told.apart
    · exact List.Pairwise.imp_of_mem (fun hx hy hxy q h1 h2 => hno _ _ (by simp [hx]) (by simp [hy]) (hxy q h1 h2)) hall'.told.apart
    · intro x hx y hy q hq hq'
      obtain ⟨P, hp, ho⟩ := hall.told.marks x hx
      obtain ⟨P', hp', ho'⟩ := hall'.told.marks y hy
      rcases hp.same hp' hq hq' with rfl | k
      · cases P with
        | key p i =>
          have h1 : i < (own.kels p).length := ho
          have h2 : i < (own'.kels p).length := ho'
          rw [hother.kels p (by intro h0; rw [h0] at h2; cases h2)] at h1
          cases h1
        | vcp q' => exact ho (hother.tels q' ho')
        | iss q' => exact ho (hother.tels q' ho')
        | rev q' =>
          have h1 : 2 ≤ (own.tels q').length := ho
          have h2 : 2 ≤ (own'.tels q').length := ho'
          rw [hother.tels q' (by intro h0; rw [h0] at h2; cases h2)] at h1
          cases h1
        | cred q' =>
          obtain ⟨t, ht, hc⟩ := ho
          obtain ⟨t', ht', c, k1, k2⟩ := ho'
          obtain ⟨w, hw, -, rfl, -⟩ := hall'.held ht' k1 k2
          exact hother.acdcs w.id hw.tels t ht hc
      · exact hno x y (by simp [hx]) (by simp [hy]) k
  · intro x hx q hq hheld
    rw [hcs] at hx
    obtain ⟨P, hmark⟩ := hmk x hx
    have hun := hun x.whole (List.mem_map_of_mem hx) q (hmark.reports q hq)
    cases hheld with
    | key pre t s mem read said => exact hun t (.inr ⟨pre, .inl mem⟩) (.inl ⟨s, read, said⟩)
    | tx pre t s mem read said => exact hun t (.inr ⟨pre, .inr mem⟩) (.inl ⟨s, read, said⟩)
    | cred t s mem read said => exact hun t (.inl mem) (.inr ⟨s, read, said⟩)

/-! ## Two issuers that do not know each other -/

/-- What issuers have who only have key events is in the form that the library gives it. -/
theorem hall_orderly {E : Env} {S : Stretch} (hC : CryptoOk E.C) (hH : HashOk E.H) {A : Str → Option Agent} {own : Store} {logs : Str → List (Sad × Parts)} {xs : List Piece}
    (h : Hall E S A own logs xs) (ht : ∀ q, own.tels q = []) (ha : own.acdcs = []) : Orderly E own := by
  refine ⟨fun p t s hm hr => ?_, fun t c hm => by rw [ha] at hm; (cases hm), fun q t s hm => by rw [ht q] at hm; (cases hm)⟩
  rcases hm with hm | hm
  · cases hp : A p with
    | none => rw [(h.absent p hp).1] at hm; cases hm
    | some a =>
      obtain ⟨said, hrun, -, hreads, hll⟩ := h.issuer hC hH hp
      have hs := history_sound hC hH hrun.history (by have := h.short p; rw [← hll] at this; simpa using this)
      obtain ⟨e, he, hr'⟩ := forall₂_mem hreads hm
      rw [show Serder.newWithRaw E.fl (toUtf8 t) = .ok e.sad from hr'] at hr
      cases hr
      exact hs.ordinary e he
  · rw [ht p] at hm; cases hm

def World.pairCase : Bool :=
  World.holds (kmiIncept World.reads World.stretch (fun n => n) none (some 2) none none none none none (some true) (some (str% "E")) none) fun a =>
  World.holds (kmiIncept World.reads World.stretch (fun n => n + 20) none none none none none none none (some true) (some (str% "E")) none) fun b =>
    decide (a.2.1.length = 2) && (decide (b.2.1.length = 2) && (decide (a.1 ≠ b.1) && (decide ((toUtf8 a.2.2).length < 2 ^ 32) && decide ((toUtf8 b.2.2).length < 2 ^ 32))))

theorem World.pair_runs : World.pairCase = true := by decide +kernel

theorem World.pair : ∃ (A A' : Str → Option Agent) (p p' m m' : Str), p ≠ p' ∧ (toUtf8 m).length < 2 ^ 32 ∧ (toUtf8 m').length < 2 ^ 32 ∧
    Market World.reads World.stretch A (Store.empty.insertKeyEvent p m) [m] ∧ Market World.reads World.stretch A' (Store.empty.insertKeyEvent p' m') [m'] := by
  have h := World.pair_runs
  unfold World.pairCase at h
  obtain ⟨⟨p, l, m⟩, ha, h⟩ := World.holds_ok h
  obtain ⟨⟨p', l', m'⟩, ha', h⟩ := World.holds_ok h
  simp only [Bool.and_eq_true, decide_eq_true_eq] at h
  obtain ⟨h1, h2, h3, h4, h5⟩ := h
  obtain ⟨k1, k2, rfl⟩ := List.length_eq_two.mp h1
  obtain ⟨k3, k4, rfl⟩ := List.length_eq_two.mp h2
  exact ⟨_, _, p, p', m, m', h3, h4, h5, Market.incept _ _ _ _ _ _ _ _ _ _ _ _ _ _ _ _ .start (.inl rfl) (.inl rfl) (by simp) ha rfl,
    Market.incept _ _ _ _ _ _ _ _ _ _ _ _ _ _ _ _ .start (.inl rfl) (.inl rfl) (by simp) ha' rfl⟩

theorem World.alone (p m q : Str) : (Store.empty.insertKeyEvent p m).kels q = if q = p then [m] else [] := by
  unfold Store.insertKeyEvent append
  dsimp only
  split <;> simp [Store.empty]

theorem World.ignorant {p p' m m' : Str} (h : p ≠ p') : Ignorant World.reads (Store.empty.insertKeyEvent p' m') (Store.empty.insertKeyEvent p m) := by
  refine ⟨fun q hq => ?_, fun q hq => absurd rfl hq, fun q hq => absurd rfl hq⟩
  rw [World.alone] at hq ⊢
  by_cases hp : q = p'
  · rw [hp, if_neg (Ne.symm h)]
  · exact absurd (if_neg hp) hq

theorem World.small (p m q : Str) : ((Store.empty.insertKeyEvent p m).kels q).length ≤ 2 ^ 32 := by
  rw [World.alone]
  split <;> simp

/-- All that `C96_issuers` asks for is met: two identifiers of two sessions, in one stream. -/
example : ∃ (p p' m m' : Str), p ≠ p' ∧
    ((∃ n st1 st', Ingests World.reads n none none Store.empty [m ++ m'] st' ∧ Merged Store.empty (Store.empty.insertKeyEvent p m) st1 ∧ Merged st1 (Store.empty.insertKeyEvent p' m') st') ∨
      Collision World.reads.H (str% "E") (MessageText World.reads.fl [m, m']) (MessageText World.reads.fl [m, m'])) := by
  obtain ⟨A, A', p, p', m, m', h1, h2, h3, h4, h5⟩ := World.pair
  refine ⟨p, p', m, m', h1, ?_⟩
  rcases C96_issuers World.reads World.stretch World.stretch World.crypto_ok World.hash_ok (fun _ _ => rfl) (C94_reader _ rfl) A A' _ _ _ _ h4 h5 (World.ignorant h1)
    (by intro x hx; simp at hx; rcases hx with rfl | rfl <;> assumption) (fun q => ⟨World.small _ _ _, World.small _ _ _⟩) with ⟨n, h⟩ | h
  · obtain ⟨st1, st', k1, k2, k3⟩ := h [[m, m']] Store.empty n none none rfl (Nat.le_refl _) (by simp) ⟨fun _ _ => rfl, fun _ _ => rfl, fun _ _ t ht => by cases ht⟩
      ⟨fun _ _ => rfl, fun _ _ => rfl, fun _ _ t ht => by cases ht⟩ (fun _ _ _ _ t ht => by rcases ht with ht | ⟨p, ht | ht⟩ <;> cases ht)
    exact .inl ⟨n, st1, st', by simpa using k1, k2, k3⟩
  · exact .inr h

/-- All that `C96_partial` asks for is met: the message of another identifier, and after it in the same stream one's own. -/
example : ∃ (p p' m m' : Str), p ≠ p' ∧
    ((∃ n st', ingest World.reads n Store.empty (m ++ m') none none = (st', .ok ()) ∧ Merged (Store.empty.insertKeyEvent p m) (Store.empty.insertKeyEvent p' m') st') ∨
      Collision World.reads.H (str% "E") (fun t => StoreText World.reads.fl (Store.empty.insertKeyEvent p m) t ∨ MessageText World.reads.fl [m'] t)
        (MessageText World.reads.fl [m'])) := by
  obtain ⟨A, A', p, p', m, m', h1, h2, h3, h4, h5⟩ := World.pair
  refine ⟨p, p', m, m', h1, ?_⟩
  have hm : ∀ x ∈ [m], (toUtf8 x).length < 2 ^ 32 := by intro x hx; rw [List.mem_singleton.mp hx]; exact h2
  obtain ⟨n0, k0⟩ := C94_same World.reads World.stretch World.crypto_ok World.hash_ok (fun _ _ => rfl) (C94_reader _ rfl) A _ _ h4 hm (World.small p m)
  obtain ⟨xs, logs, k1, k2, -⟩ := market_hall World.crypto_ok World.hash_ok (fun _ _ => rfl) h4 hm (World.small p m)
  obtain ⟨n, k3⟩ := C96_partial World.reads World.stretch World.crypto_ok World.hash_ok (fun _ _ => rfl) (C94_reader _ rfl)
    ⟨fun _ _ _ _ _ _ _ _ => rfl, fun _ _ _ _ _ _ _ _ => rfl, fun _ _ _ _ _ _ _ => rfl⟩ A' _ _ h5
    (by intro x hx; rw [List.mem_singleton.mp hx]; exact h3) (World.small p' m')
  have k4 := k0 (max n n0) none none (by omega) (by simp)
  have k5 : ingest World.reads (max n n0) Store.empty m none none = (Store.empty.insertKeyEvent p m, .ok ()) := by
    generalize Store.empty.insertKeyEvent p m = own at k4 ⊢
    generalize hz : [m] = z at k4
    cases k4 with
    | one st' _ ms m1 before next =>
      obtain ⟨e1, e2⟩ := List.append_inj' (show [] ++ [m] = ms ++ [m1] from hz) rfl
      cases e2
      subst e1
      generalize hz' : ([] : List Str) = z at before
      cases before with
      | none => exact next
      | one => simp at hz'
    | none => cases hz
  have k6 := k3 xs [] Store.empty _ (max n n0) none none (by omega) (by simp) k2.wellformed .empty (by rw [← k1]; simpa using k5)
    (fun q => ⟨World.small p m q, by simp [Store.insertKeyEvent, Store.empty]⟩) (hall_orderly World.crypto_ok World.hash_ok k2 (fun _ => rfl) rfl) (World.ignorant h1)
  rw [← k1] at k6
  rcases k6 with ⟨st', k6, k7⟩ | k6
  · exact .inl ⟨_, st', by simpa using k6, k7⟩
  · exact .inr k6

/-! ## A verifier that is misled -/

/-- The text of a message, with a counter before signatures. -/
def World.textOf (m : Res (Msg × Msg)) : Res Str :=
  match m with
  | .ok (.payload t, .group (.couples _) (.ok g)) => .ok (t ++ g)
  | .ok (.payload t, .group _ (.ok g)) => do
    let c ← Messaging.counterText (str% "-V") (g.length / 4)
    .ok (t ++ (c ++ g))
  | _ => .err .decoding

/-- The text of messages in a row. -/
def World.textsOf : List (Res (Msg × Msg)) → Res Str
  | [] => .ok []
  | m :: l => do
    let t ← World.textOf m
    let r ← World.textsOf l
    .ok (t ++ r)

/-- The registry of A has an event with a SAID. -/
def World.listed (st : Store) (q : Str) : Bool :=
  match World.vcpA >>= Serder.pre with
  | .ok r => (st.tels r).any fun t => decide ((Serder.newWithRaw (fun _ => none) (toUtf8 t) >>= Sadder.said true : Res Str) = .ok q)
  | _ => false

open Classical in
/-- A store that finds the SAIDs of what is stored, and no others. -/
noncomputable def World.finds (st : Store) (q : Str) : Bool := World.listed st q || decide (∃ t, InStore st t ∧ Reports World.reads t q)

/-- The environment of the examples with the reader and this store. -/
noncomputable def World.honest : Env where
  chk := true
  fl := fun _ => none
  H := World.hash
  C := World.crypto
  parse := readStream true (fun _ => none)
  seen := World.finds
  refuses := fun _ _ => false
  schema := fun _ _ => .ok true
  expired := fun _ => .ok false

open Classical in
theorem World.finds_iff (st : Store) (q : Str) : World.finds st q = true ↔ ∃ t, InStore st t ∧ Reports World.reads t q := by
  constructor
  · intro h
    rcases (Bool.or_eq_true _ _).mp h with h | h
    · unfold World.listed at h
      split at h
      · rename_i r _
        obtain ⟨t, h1, h2⟩ := List.any_eq_true.mp h
        obtain ⟨s, h3, h4⟩ := Res.bind_eq_ok.mp (of_decide_eq_true h2)
        exact ⟨t, .inr ⟨r, .inr h1⟩, .inl ⟨s, h3, h4⟩⟩
      · cases h
    · exact of_decide_eq_true h
  · exact fun h => (Bool.or_eq_true _ _).mpr (.inr (decide_eq_true h))

attribute [local irreducible] World.finds

theorem World.honest_seen (st : Store) (q : Str) : World.honest.seen st q = true ↔ ∃ t, InStore st t ∧ Reports World.honest t q := by
  unfold World.honest
  dsimp only
  exact World.finds_iff st q

theorem World.honest_remembers : Remembers World.honest :=
  ⟨fun st p t s q h1 h2 h3 => (World.honest_seen st q).mpr ⟨t, .inr ⟨p, .inl h1⟩, .inl ⟨s, h2, h3⟩⟩,
    fun st p t s q h1 h2 h3 => (World.honest_seen st q).mpr ⟨t, .inr ⟨p, .inr h1⟩, .inl ⟨s, h2, h3⟩⟩,
    fun st t s q h1 h2 h3 => (World.honest_seen st q).mpr ⟨t, .inl h1, .inr ⟨s, h2, h3⟩⟩⟩

noncomputable def World.misled : Bool :=
  match World.textsOf World.oddly, World.textOf (World.signed (World.ks [3]) World.icpB), World.icpB >>= Serder.pre with
  | .ok a, .ok b, .ok pre =>
    let x := ingest World.honest 5 Store.empty a (some false) none
    let y := ingest World.honest 5 x.1 b (some false) none
    let z := ingest World.honest 5 Store.empty (a ++ b) (some false) none
    decide (x.2 = .ok () ∧ x.1.kels pre = []) && (decide (y.2 = .ok () ∧ y.1.kels pre = [b]) && decide (z.2 = .ok () ∧ z.1.kels pre = []))
  | _, _, _ => false

theorem World.misled_runs : World.misled = true := by decide +kernel

/-- C96 does not hold of every stream: someone can keep the messages of others out. Their stream, which a verifier accepts, ends with the inception of a registry that
reports as its SAID the SAID of the inception of another identifier, of which the verifier knows nothing. If the message of that inception follows in the same stream, the call of
`ingest_messages` succeeds, and the message is not stored. In a stream of its own it is. -/
theorem C96_false : ∃ (E : Env) (a b pre : Str) (st st1 st2 : Store), CryptoOk E.C ∧ HashOk E.H ∧ ReadsStreams E ∧ Remembers E ∧
    (∀ st q, E.seen st q = true → ∃ t, InStore st t ∧ Reports E t q) ∧
    ingest E 5 Store.empty a (some false) none = (st, .ok ()) ∧ st.kels pre = [] ∧
    ingest E 5 st b (some false) none = (st1, .ok ()) ∧ st1.kels pre = [b] ∧
    ingest E 5 Store.empty (a ++ b) (some false) none = (st2, .ok ()) ∧ st2.kels pre = [] := by
  have h := World.misled_runs
  unfold World.misled at h
  split at h
  · rename_i a b pre _ _ _
    simp only [Bool.and_eq_true, decide_eq_true_eq] at h
    obtain ⟨⟨h1, h2⟩, ⟨h3, h4⟩, h5, h6⟩ := h
    exact ⟨World.honest, a, b, pre, _, _, _, World.crypto_ok, World.hash_ok, C94_reader _ rfl, World.honest_remembers, fun st q => (World.honest_seen st q).mp,
      Prod.ext rfl h1, h2, Prod.ext rfl h3, h4, Prod.ext rfl h5, h6⟩
  · cases h

end Keride.Props
