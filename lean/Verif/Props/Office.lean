/-
C92: an issuer at work, from its calls to the store of a verifier.
-/
import Verif.Props.Send
import Verif.Spec.Office

namespace Keride.Props

open Matter Spec Sample

/-- The message of a key event. -/
def pieceOf (p : Parts) : Piece := ⟨p.event, p.attached, .quadlets [.controller p.sigs]⟩

/-- The event of a message. -/
def entryOf (x : Sad × Parts) : Entry := ⟨x.1, [.controller x.2.sigs]⟩

theorem running_reads {E : Env} (hC : CryptoOk E.C) (hH : HashOk E.H) {pre said : Str} {ks nks : KeySet} {ms : List Str} {l : List (Sad × Parts)}
    (h : Running E pre said ks nks ms l) (hlen : ms.length ≤ 2 ^ 32) : List.Forall₂ (Reads E.fl) ms (l.map entryOf) := by
  have hr := (history_sound hC hH h.history (by rw [List.length_map, ← List.length_map (f := fun x => x.2.text), ← h.texts]; exact hlen)).reads
  rw [h.texts]
  rw [List.forall₂_map_left_iff, List.forall₂_map_right_iff, List.forall₂_same]
  intro x hx
  have := hr (entryOf x) (List.mem_map_of_mem hx) x.2.attached
  unfold Reads
  have hp := (h.parts x hx).1
  unfold entryOf at this
  dsimp only at this
  rw [hp, ← toUtf8_append] at this
  exact this

theorem running_keeps {E : Env} {pre said : Str} {ks nks : KeySet} {ms : List Str} {l : List (Sad × Parts)} (h : Running E pre said ks nks ms l) {xs : List Piece}
    (hx : ∀ x ∈ l, pieceOf x.2 ∈ xs) {deep : Option Bool} (hr : deep ≠ some false → ∀ x ∈ xs, ReadsAs E x.attached x.group) : KeepsLog E deep ms (l.map entryOf) := by
  unfold KeepsLog
  rw [h.texts]
  rw [List.forall₂_map_left_iff, List.forall₂_map_right_iff, List.forall₂_same]
  intro x hm
  exact ⟨x.2.event, x.2.attached, rfl, (h.parts x hm).1, fun hd => hr hd _ (hx x hm)⟩

theorem running_drop {E : Env} {pre said : Str} {ks nks : KeySet} {ms : List Str} {m : Str} {l : List (Sad × Parts)} {y : Sad × Parts}
    (h : Running E pre said ks nks (ms ++ [m]) (l ++ [y])) {xs : List Piece} (hx : ∀ x ∈ l, pieceOf x.2 ∈ xs) {deep : Option Bool}
    (hr : deep ≠ some false → ∀ x ∈ xs, ReadsAs E x.attached x.group) : KeepsLog E deep ms (l.map entryOf) := by
  have ht := h.texts
  rw [List.map_append] at ht
  have ht := (List.append_inj' ht (by simp)).1
  unfold KeepsLog
  rw [ht]
  rw [List.forall₂_map_left_iff, List.forall₂_map_right_iff, List.forall₂_same]
  intro x hm
  exact ⟨x.2.event, x.2.attached, rfl, (h.parts x (by simp [hm])).1, fun hd => hr hd _ (hx x hm)⟩

theorem running_anchor {E : Env} {pre said : Str} {ks nks : KeySet} {ms : List Str} {l : List (Sad × Parts)} (h : Running E pre said ks nks ms l)
    {q m i n d : Str} {a : Sad} {p : Parts} (ha : Anchor E pre (l.map entryOf) ks nks q m i n d a p) : Running E pre q ks nks (ms ++ [m]) (l ++ [(a, p)]) := by
  obtain ⟨est, he, hn⟩ := h.next
  refine ⟨by rw [h.texts, ha.text]; simp, ?_, ?_, h.own, h.usable, ⟨(a, p), by simp, ha.said⟩, est, ?_, hn⟩
  · intro x hx
    rcases List.mem_append.mp hx with hx | hx
    · exact h.parts x hx
    · rw [List.mem_singleton.mp hx]; exact ⟨ha.raw, ha.wellformed⟩
  · have := ha.history
    rw [List.map_append]
    exact this
  · rw [List.map_append]
    exact latest_snoc he ha.type

theorem running_said {E : Env} (hC : CryptoOk E.C) (hH : HashOk E.H) {pre said : Str} {ks nks : KeySet} {own : Store} {l : List (Sad × Parts)}
    (h : Running E pre said ks nks (own.kels pre) l) (hlen : (own.kels pre).length ≤ 2 ^ 32) {dig : Str} (hd : own.latestSaid E pre = .ok dig) : dig = said := by
  obtain ⟨prev, h1, h2⟩ := latestSaid_of (running_reads hC hH h hlen) hd
  obtain ⟨x, h3, h4⟩ := h.last
  rw [List.getLast?_map, h3] at h1
  cases h1
  rw [show (entryOf x).sad = x.1 from rfl, h4] at h2
  exact (Res.ok.inj h2).symm

theorem takes_append {E : Env} {fuel : Nat} {deep verify : Option Bool} {a b c : Store} {xs ys : List Piece} (h1 : Takes E fuel deep verify a xs b)
    (h2 : Takes E fuel deep verify b ys c) : Takes E fuel deep verify a (xs ++ ys) c := by
  induction h2 with
  | none => simpa using h1
  | one st' st'' ys y before next ih =>
    rw [← List.append_assoc]
    exact .one _ _ _ _ _ ih next

theorem takes_one {E : Env} {fuel : Nat} {deep verify : Option Bool} {a b : Store} {x : Piece} (h : ingestLoop E fuel deep verify a x.parsed [] = (b, .ok ())) :
    Takes E fuel deep verify a [x] b := .one _ _ _ [] _ (.none a) h

/-- What is to be shown of the messages of an issuer. -/
def Delivers (E : Env) (issuer : Str) (own : Store) (xs : List Piece) : Prop :=
  ∀ (st : Store) (fuel : Nat) (deep verify : Option Bool), (deep = some true → (own.kels issuer).length ≤ fuel) → verify ≠ some false →
    (deep ≠ some false → ∀ x ∈ xs, ReadsAs E x.attached x.group) →
    Unknown E issuer own st → ∃ st', Flows E (fuel + 2) deep verify st xs st' ∧ Joined issuer st own st'

theorem Delivers.more {E : Env} {issuer : Str} {own own' : Store} {xs ys : List Piece} (h : Delivers E issuer own xs) (hm : ∀ q, own.tels q ≠ [] → own'.tels q ≠ [])
    (hk : (own.kels issuer).length ≤ (own'.kels issuer).length)
    (hs : ∀ (st s : Store) (fuel : Nat) (deep verify : Option Bool), (deep = some true → (own'.kels issuer).length ≤ fuel) → verify ≠ some false →
      (deep ≠ some false → ∀ x ∈ xs ++ ys, ReadsAs E x.attached x.group) → Unknown E issuer own' st → Joined issuer st own s →
      ∃ s', Flows E (fuel + 2) deep verify s ys s' ∧ Joined issuer st own' s') : Delivers E issuer own' (xs ++ ys) := by
  intro st fuel deep verify hd hv hr hu
  obtain ⟨s, h1, h2⟩ := h st fuel deep verify (fun e => hk.trans (hd e)) hv (fun e x hx => hr e x (by simp [hx]))
    ⟨hu.kels, fun q hq => hu.tels q (hm q hq), fun q hq => hu.acdcs q (hm q hq)⟩
  obtain ⟨s', h3, h4⟩ := hs st s fuel deep verify hd hv hr hu h2
  exact ⟨s', flows_append h1 h3, h4⟩

/-- One more key event. -/
theorem event_taken {E : Env} (hC : CryptoOk E.C) (hH : HashOk E.H) (hstore : ∀ st t, E.refuses st t = false) {issuer said : Str} {ks nks : KeySet} {ms : List Str} {m : Str}
    {l : List (Sad × Parts)} {s : Sad} {p : Parts} (hr : Running E issuer said ks nks (ms ++ [m]) (l ++ [(s, p)])) (hlen : (ms ++ [m]).length ≤ 2 ^ 32)
    {st : Store} (hst : List.Forall₂ (Reads E.fl) (st.kels issuer) (l.map entryOf)) (fuel : Nat) (deep verify : Option Bool)
    (hd : deep = some true → (ms ++ [m]).length ≤ fuel + 2 ∧ KeepsLog E deep (st.kels issuer) (l.map entryOf))
    (hv : verify ≠ some false) :
    ∃ st', Accepts E (fuel + 2) deep verify st (pieceOf p) st' ∧ st'.kels issuer = st.kels issuer ++ [m] ∧
      (∀ q, q ≠ issuer → st'.kels q = st.kels q) ∧ st'.tels = st.tels ∧ st'.acdcs = st.acdcs := by
  have hm : m = p.text := by
    have := hr.texts
    rw [List.map_append] at this
    simpa using (List.append_inj' this (by simp)).2
  have hh := hr.history
  rw [List.map_append] at hh
  have hl : (l.map entryOf ++ [entryOf (s, p)]).length ≤ 2 ^ 32 := by
    have := congrArg List.length hr.texts
    simp at this hlen ⊢
    omega
  refine ⟨_, (history_sound hC hH hh hl).toLogged.accepts (e := entryOf (s, p)) (a := l.map entryOf) (b := []) hH hstore hv hl (hr.parts (s, p) (by simp)).1 rfl hst ?_, ?_, ?_,
    rfl, rfl⟩
  · intro hdd
    obtain ⟨d1, d2⟩ := hd hdd
    have := congrArg List.length hr.texts
    exact ⟨by simp at this d1 ⊢; omega, d2⟩
  · rw [hm]
    simp [Store.insertKeyEvent, append, Parts.text]
  · intro q hq
    simp [Store.insertKeyEvent, append, hq]

/-- What holds of an issuer at work. -/
structure Desk (E : Env) (S : Stretch) (issuer : Str) (ri : Option Str) (ks nks : KeySet) (own : Store) (xs : List Piece) : Prop where
  run : ∃ said l, Running E issuer said ks nks (own.kels issuer) l ∧ ∀ x ∈ l, pieceOf x.2 ∈ xs
  registry : ∀ q, ri = some q → Controller E own q issuer
  tels : ∀ q, own.tels q = [] ∨ ∃ ri', ri = some ri' ∧ (q = ri' ∨ (own.tels q).length = 2 ∨ ∃ (te ge prior dt : Str) (r : Nat) (e a : Sad) (c : M × M) (m : M),
    own.tels q = [te ++ ge] ∧ (⟨te, ge, .couples [c]⟩ : Piece) ∈ xs ∧ vcIssue E S r dt q ri' = .ok (prior, e) ∧ e.raw = toUtf8 te ∧ e.raw.length < 2 ^ 32 ∧
    Matter.newWithQb64 q = .ok m ∧ AnchorNamed E own issuer c a ∧ Seals E.chk a e)
  acdcs : ∀ t ∈ own.acdcs, ∀ q, IsCredential E q t → own.tels q ≠ []
  others : ∀ p, p ≠ issuer → own.kels p = []
  wellformed : ∀ x ∈ xs, x.Wellformed E.chk
  delivers : Delivers E issuer own xs

theorem named_more {E : Env} {issuer m : Str} {own own' : Store} (hk : own'.kels issuer = own.kels issuer ++ [m]) {c : M × M} {a : Sad} (h : AnchorNamed E own issuer c a) :
    AnchorNamed E own' issuer c a := by
  obtain ⟨n, t, q, h1, h2, h3, h4⟩ := h
  refine ⟨n, t, q, h1, h2, ?_, h4⟩
  rw [hk, List.getElem?_append_left (List.getElem?_eq_some_iff.mp h3).1]
  exact h3

theorem insert_kels {st : Store} {p t : Str} : (st.insertKeyEvent p t).kels p = st.kels p ++ [t] := by simp [Store.insertKeyEvent, append]

theorem insert_kels_ne {st : Store} {p q t : Str} (h : q ≠ p) : (st.insertKeyEvent p t).kels q = st.kels q := by simp [Store.insertKeyEvent, append, h]

theorem insert_tels {st : Store} {p t : Str} : (st.insertTransactionEvent p t).tels p = st.tels p ++ [t] := by simp [Store.insertTransactionEvent, append]

theorem insert_tels_ne {st : Store} {p q t : Str} (h : q ≠ p) : (st.insertTransactionEvent p t).tels q = st.tels q := by simp [Store.insertTransactionEvent, append, h]

/-- What is known of the log of a credential remains known. -/
theorem tels_more {E : Env} {S : Stretch} {issuer m : Str} {ri : Option Str} {own own' : Store} {xs ys : List Piece} {q : Str}
    (h : own.tels q = [] ∨ ∃ ri', ri = some ri' ∧ (q = ri' ∨ (own.tels q).length = 2 ∨ ∃ (te ge prior dt : Str) (r : Nat) (e a : Sad) (c : M × M) (m : M),
      own.tels q = [te ++ ge] ∧ (⟨te, ge, .couples [c]⟩ : Piece) ∈ xs ∧ vcIssue E S r dt q ri' = .ok (prior, e) ∧ e.raw = toUtf8 te ∧ e.raw.length < 2 ^ 32 ∧
      Matter.newWithQb64 q = .ok m ∧ AnchorNamed E own issuer c a ∧ Seals E.chk a e))
    (ht : own'.tels q = own.tels q) (hx : ∀ x ∈ xs, x ∈ ys) (hk : own'.kels issuer = own.kels issuer ++ [m]) :
    own'.tels q = [] ∨ ∃ ri', ri = some ri' ∧ (q = ri' ∨ (own'.tels q).length = 2 ∨ ∃ (te ge prior dt : Str) (r : Nat) (e a : Sad) (c : M × M) (m : M),
      own'.tels q = [te ++ ge] ∧ (⟨te, ge, .couples [c]⟩ : Piece) ∈ ys ∧ vcIssue E S r dt q ri' = .ok (prior, e) ∧ e.raw = toUtf8 te ∧ e.raw.length < 2 ^ 32 ∧
      Matter.newWithQb64 q = .ok m ∧ AnchorNamed E own' issuer c a ∧ Seals E.chk a e) := by
  rw [ht]
  rcases h with h1 | ⟨ri', h1, h2 | h2 | ⟨te, ge, prior, dt, r, e, a, c, m', h2, h3, h4, h5, h6, h7, h8, h9⟩⟩
  · exact .inl h1
  · exact .inr ⟨ri', h1, .inl h2⟩
  · exact .inr ⟨ri', h1, .inr (.inl h2)⟩
  · exact .inr ⟨ri', h1, .inr (.inr ⟨te, ge, prior, dt, r, e, a, c, m', h2, hx _ h3, h4, h5, h6, h7, named_more hk h8, h9⟩)⟩

theorem running_document {E : Env} {pre said : Str} {ks nks : KeySet} {ms : List Str} {l : List (Sad × Parts)} (hr : Running E pre said ks nks ms l) (hlen : l.length ≤ 2 ^ 32) :
    ∀ x ∈ l, Document (str% "KERI") x.2.event := fun x hx =>
  history_document hr.history (by simpa using hlen) _ (List.mem_map.mpr ⟨x, hx, rfl⟩) _ (hr.parts x hx).1

/-- A key event that the issuer adds to its log, whatever it is. -/
theorem desk_event {E : Env} {S : Stretch} (hC : CryptoOk E.C) (hH : HashOk E.H) (hstore : ∀ st t, E.refuses st t = false) {issuer : Str} {ri : Option Str} {ks nks ks' nks' : KeySet}
    {own : Store} {xs : List Piece} (h : Desk E S issuer ri ks nks own xs) {said m : Str} {l : List (Sad × Parts)} {s : Sad} {p : Parts}
    (hl : ∀ x ∈ l, pieceOf x.2 ∈ xs) (hreads : List.Forall₂ (Reads E.fl) (own.kels issuer) (l.map entryOf))
    (hr : Running E issuer said ks' nks' (own.kels issuer ++ [m]) (l ++ [(s, p)])) (hlen : (own.kels issuer ++ [m]).length ≤ 2 ^ 32) :
    Desk E S issuer ri ks' nks' (own.insertKeyEvent issuer m) (xs ++ [pieceOf p]) := by
  refine ⟨⟨said, l ++ [(s, p)], by rw [insert_kels]; exact hr, ?_⟩, ?_, ?_, ?_, ?_, ?_, ?_⟩
  · intro x hx
    rcases List.mem_append.mp hx with hx | hx
    · exact List.mem_append_left _ (hl x hx)
    · rw [List.mem_singleton.mp hx]; simp
  · exact h.registry
  · intro q
    exact tels_more (h.tels q) rfl (fun x hx => by simp [hx]) insert_kels
  · exact h.acdcs
  · intro q hq
    rw [insert_kels_ne hq]
    exact h.others q hq
  · intro x hx
    rcases List.mem_append.mp hx with hx | hx
    · exact h.wellformed x hx
    · rw [List.mem_singleton.mp hx]
      exact .event p (running_document hr (by have := congrArg List.length hr.texts; simp at this hlen ⊢; omega) (s, p) (by simp)) (hr.parts (s, p) (by simp)).2
  · refine h.delivers.more (fun q hq => hq) (by rw [insert_kels]; simp) ?_
    intro st v fuel deep verify hd hv hread _ hj
    obtain ⟨v', g1, g2, g3, g4, g5⟩ := event_taken hC hH hstore hr hlen (by rw [hj.kels]; exact hreads) fuel deep verify (by
      intro hdd
      have hn := hd hdd
      rw [insert_kels] at hn
      refine ⟨by omega, ?_⟩
      rw [hj.kels]
      exact running_drop hr hl fun hdn x hx => hread hdn x (by simp [hx])) hv
    refine ⟨v', flows_one g1, ?_, ?_, ?_, ?_, ?_⟩
    · rw [g2, hj.kels, insert_kels]
    · intro q hq; rw [g3 q hq, hj.otherKels q hq]
    · intro q hq; rw [g4]; exact hj.tels q hq
    · intro q hq; rw [g4]; exact hj.otherTels q hq
    · rw [g5]; exact hj.acdcs

theorem desk_incept {E : Env} {S : Stretch} (hC : CryptoOk E.C) (hH : HashOk E.H) (hstore : ∀ st t, E.refuses st t = false) {pre m : Str} {ks nks : KeySet} {s : Sad} {p : Parts}
    (hr : Running E pre pre ks nks [m] [(s, p)]) : Desk E S pre none ks nks (Store.empty.insertKeyEvent pre m) [pieceOf p] := by
  have hk : (Store.empty.insertKeyEvent pre m).kels pre = [m] := by rw [insert_kels]; rfl
  refine ⟨⟨pre, [(s, p)], by rw [hk]; exact hr, by simp⟩, fun q hq => (by cases hq), fun q => Or.inl rfl, fun t ht => (by cases ht), ?_, ?_, ?_⟩
  · intro q hq
    rw [insert_kels_ne hq]; rfl
  · intro x hx
    rw [List.mem_singleton.mp hx]
    exact .event p (running_document hr (by simp) (s, p) (by simp)) (hr.parts (s, p) (by simp)).2
  · intro st fuel deep verify hd hv hread hu
    obtain ⟨v', g1, g2, g3, g4, g5⟩ := event_taken hC hH hstore (ms := []) (l := []) hr (by simp) (by rw [hu.kels]; exact .nil) fuel deep verify
      (fun hdd => ⟨by simp, by rw [hu.kels]; exact .nil⟩) hv
    refine ⟨v', flows_one g1, ?_, ?_, ?_, ?_, ?_⟩
    · rw [g2, hu.kels, hk]; rfl
    · intro q hq; rw [g3 q hq]
    · intro q hq; exact absurd rfl hq
    · intro q _; rw [g4]
    · rw [g5]; simp [Store.insertKeyEvent, Store.empty]

/-- The registry of an issuer that has none. -/
theorem desk_registry {E : Env} {S : Stretch} (hC : CryptoOk E.C) (hH : HashOk E.H) (hstore : ∀ st t, E.refuses st t = false) {issuer ri dig said m t g : Str} {s : Sad}
    {ks nks : KeySet} {own : Store} {xs : List Piece} (h : Desk E S issuer none ks nks own xs) (built : registryIncept E issuer = .ok (ri, s)) (text : s.raw = toUtf8 t)
    (last : own.latestSaid E issuer = .ok dig) {rnd : Nat} (call : kmiInteract E rnd ks issuer dig (own.kels issuer).length (sealOf ri (str% "0") ri) = .ok (said, m))
    (couple : coupleText E (own.kels issuer).length said = .ok g) (hm : (toUtf8 m).length < 2 ^ 32) (ht : (toUtf8 (t ++ g)).length < 2 ^ 32)
    (hlen : (own.kels issuer).length < 2 ^ 32) :
    ∃ x y : Piece, x.whole = m ∧ y.whole = t ++ g ∧
      Desk E S issuer (some ri) ks nks ((own.insertKeyEvent issuer m).insertTransactionEvent ri (t ++ g)) (xs ++ [x, y]) := by
  obtain ⟨said0, l, hr, hl⟩ := h.run
  have hreads := running_reads hC hH hr (by omega)
  have hll : (l.map entryOf).length = (own.kels issuer).length := hreads.length_eq.symm
  obtain ⟨a, p, ha⟩ := anchor_ok hC hH (log := l.map entryOf) hr.history (by rw [hll]; exact hlen) hreads last call hm
  dsimp only at ha
  have hr' := running_anchor hr ha
  have hk := desk_event (S := S) hC hH hstore h hl hreads hr' (by simp; omega)
  obtain ⟨c1, hcouple, hc1⟩ := couple_ok ha.item.1 (by omega) couple
  obtain ⟨vs, hb⟩ := registry_ok built
  have hsend : Sendable s := by
    refine sendable_incepted hb (by unfold vcpDoc; simp) ?_ (by rw [text]; rw [toUtf8_append, List.length_append] at ht; omega)
    intro e he
    simp only [vcpDoc, List.mem_cons, List.not_mem_nil, or_false] at he
    rcases he with rfl | rfl | rfl | rfl | rfl | rfl | rfl | rfl | rfl
    all_goals first
      | exact fine_str _
      | (refine fine_arr ?_; intro v hv; rw [List.mem_singleton.mp hv]; exact deep_str _)
      | exact fine_arr (by simp)
  obtain ⟨-, -, -, k1, -, k2, -, k3, k4, -, -, -, k5⟩ := C75_registry E hH issuer ri s built hsend
  have hempty : ∀ q, own.tels q = [] := by
    intro q
    rcases h.tels q with h1 | ⟨ri', h1, -⟩
    · exact h1
    · cases h1
  have hseal : Seals E.chk a s := ha.seals s k2 k4 k1
  refine ⟨pieceOf p, ⟨t, g, .couples [(c1, a.saider)]⟩, by rw [ha.text]; rfl, rfl, ?_⟩
  have hap : xs ++ [pieceOf p, ⟨t, g, .couples [(c1, a.saider)]⟩] = (xs ++ [pieceOf p]) ++ [⟨t, g, .couples [(c1, a.saider)]⟩] := by simp
  rw [hap]
  obtain ⟨said1, l1, q1, q2⟩ := hk.run
  refine ⟨⟨said1, l1, q1, fun x hx => List.mem_append_left _ (q2 x hx)⟩, ?_, ?_, ?_, hk.others, ?_, ?_⟩
  · intro q hq
    cases hq
    refine ⟨t ++ g, s, ?_, ?_, k3⟩
    · rw [insert_tels, show (own.insertKeyEvent issuer m).tels = own.tels from rfl, hempty]; rfl
    · rw [toUtf8_append, ← text]; exact k5 g
  · intro q
    by_cases hq : q = ri
    · exact .inr ⟨ri, rfl, .inl hq⟩
    · left
      rw [insert_tels_ne hq]
      exact hempty q
  · intro t' ht' q hq
    exact absurd (hempty q) (h.acdcs t' ht' q hq)
  · intro x hx
    rcases List.mem_append.mp hx with hx | hx
    · exact hk.wellformed x hx
    · rw [List.mem_singleton.mp hx]
      exact .transaction t g _ (document_registry built hsend text) hcouple
  · refine hk.delivers.more (fun q hq => absurd (hempty q) hq) (le_refl _) ?_
    intro st v fuel deep verify hd hv hread hu hj
    have hnew : v.tels ri = [] := by
      rw [hj.otherTels ri (hempty ri)]
      exact hu.tels ri (by rw [insert_tels]; simp)
    obtain ⟨v', g1, g2⟩ : ∃ v', Accepts E (fuel + 2) deep verify v ⟨t, g, .couples [(c1, a.saider)]⟩ v' ∧ OneMore v v' ri (t ++ g) := ⟨_, registry_accepts hstore built hsend hnew
      (ha.named hC hH (by rw [hll]; exact hlen) hreads (by rw [hj.kels, insert_kels]) (by rw [hll]; exact hc1) rfl) hseal g text
      (ha.deepens hC hH (by rw [hll]; exact hlen) (texts := own.kels issuer) (by rw [hj.kels]; exact insert_kels) (by
        intro hdd
        have hn := hd hdd
        rw [show ((own.insertKeyEvent issuer m).insertTransactionEvent ri (t ++ g)).kels issuer = own.kels issuer ++ [m] from insert_kels] at hn
        refine ⟨by rw [hll]; simp at hn; omega, running_keeps hr hl fun hdn x hx => hread hdn x (by simp [hx]), ?_⟩
        exact hread (by rw [hdd]; simp) (pieceOf p) (by simp))) hv, one_more _ _ _⟩
    refine ⟨v', flows_one g1, ?_, ?_, ?_, ?_, ?_⟩
    · rw [g2.kels]; exact hj.kels
    · intro q hq; rw [g2.kels]; exact hj.otherKels q hq
    · intro q hq
      by_cases h1 : q = ri
      · subst h1
        rw [g2.log, hnew, insert_tels, show (own.insertKeyEvent issuer m).tels = own.tels from rfl, hempty]
      · rw [insert_tels_ne h1] at hq
        exact absurd (hempty q) hq
    · intro q hq
      have h1 : q ≠ ri := by
        rintro rfl
        rw [insert_tels] at hq
        simp at hq
      rw [g2.others q h1]
      exact hj.otherTels q (hempty q)
    · rw [g2.acdcs]; exact hj.acdcs

/-- A credential the issuer issues. -/
theorem desk_issue {E : Env} {S : Stretch} (hC : CryptoOk E.C) (hH : HashOk E.H) (hstore : ∀ st t, E.refuses st t = false) {rnd : Nat → Nat}
    {now issuer ri schema data : Str} {recipient : Option Str} {priv : Option Bool} {rules : Option Str} {id m1 m2 m3 : Str} {ks nks : KeySet} {own : Store}
    {xs : List Piece} (h : Desk E S issuer (some ri) ks nks own xs) (hdata : ∀ v, jsonRead E.fl data = .ok v → Plain v ∧ nesting v ≤ 126)
    (hrules : ∀ t v, rules = some t → jsonRead E.fl t = .ok v → Plain v ∧ nesting v ≤ 126)
    (call : issueAcdc E S rnd now own ks ri issuer schema data recipient priv none rules = .ok (id, m1, m2, m3)) (new : own.tels id = [])
    (fits : ∀ c t, Creder.newWithRaw E.fl (toUtf8 m3) = .ok c → c.raw = toUtf8 t → E.schema schema t = .ok true) (recent : E.expired now = .ok false)
    (hm1 : (toUtf8 m1).length < 2 ^ 32) (hm2 : (toUtf8 m2).length < 2 ^ 32) (hm3 : (toUtf8 m3).length < 2 ^ 32) (hlen : (own.kels issuer).length < 2 ^ 32) :
    ∃ x y z : Piece, x.whole = m1 ∧ y.whole = m2 ∧ z.whole = m3 ∧
      Desk E S issuer (some ri) ks nks (((own.insertKeyEvent issuer m1).insertTransactionEvent id m2).insertAcdc m3) (xs ++ [x, y, z]) := by
  obtain ⟨said0, l, hr, hl⟩ := h.run
  have hreads := running_reads hC hH hr (by omega)
  have hll : (l.map entryOf).length = (own.kels issuer).length := hreads.length_eq.symm
  obtain ⟨p, ti, gi, ci, tc, gc, sig, c, sv, ⟨hsv, -⟩, ⟨q, prior, a, e, mm, ha, hiss, hti, hei, hmm, hc1, hc2, hseal⟩, ⟨hp1, hp2⟩, ⟨rfl, hcouple⟩, ⟨rfl, hproof⟩,
    ⟨d, sub, -, hcr, hcraw, hcs, -⟩, hacc⟩ := issued_all E hC hH hstore issuer (l.map entryOf) ks nks hr.history (by rw [hll]; exact hlen) own hreads S rnd now ri schema data
    recipient priv none rules hdata nofun hrules id m1 m2 m3 call hm1 hm2 hm3
  cases hsv
  have hr' := running_anchor hr ha
  have hcon := h.registry ri rfl
  have hri : ri ≠ id := by
    rintro rfl
    obtain ⟨t, r, h1, -⟩ := hcon
    rw [new] at h1
    simp at h1
  have htel : ∀ q, q ≠ id → (((own.insertKeyEvent issuer m1).insertTransactionEvent id (ti ++ gi)).insertAcdc (tc ++ gc)).tels q = own.tels q := by
    intro q hq
    rw [show (((own.insertKeyEvent issuer m1).insertTransactionEvent id (ti ++ gi)).insertAcdc (tc ++ gc)).tels =
      ((own.insertKeyEvent issuer m1).insertTransactionEvent id (ti ++ gi)).tels from rfl, insert_tels_ne hq]
    rfl
  have htid : (((own.insertKeyEvent issuer m1).insertTransactionEvent id (ti ++ gi)).insertAcdc (tc ++ gc)).tels id = [ti ++ gi] := by
    rw [show (((own.insertKeyEvent issuer m1).insertTransactionEvent id (ti ++ gi)).insertAcdc (tc ++ gc)).tels =
      ((own.insertKeyEvent issuer m1).insertTransactionEvent id (ti ++ gi)).tels from rfl, insert_tels, show (own.insertKeyEvent issuer m1).tels = own.tels from rfl, new]
    rfl
  have hkel : (((own.insertKeyEvent issuer m1).insertTransactionEvent id (ti ++ gi)).insertAcdc (tc ++ gc)).kels issuer = own.kels issuer ++ [m1] := insert_kels
  generalize hown' : ((own.insertKeyEvent issuer m1).insertTransactionEvent id (ti ++ gi)).insertAcdc (tc ++ gc) = own' at htel htid hkel
  have hacd : own'.acdcs = own.acdcs ++ [tc ++ gc] := by rw [← hown']; rfl
  have hoth : ∀ p, p ≠ issuer → own'.kels p = own.kels p := by
    intro p hp
    rw [← hown']
    exact insert_kels_ne hp
  refine ⟨pieceOf p, ⟨ti, gi, .couples [ci]⟩, ⟨tc, gc, .quadlets [.sadPath [sig]]⟩, hp1.symm, rfl, rfl, ?_⟩
  refine ⟨⟨q, l ++ [(a, p)], by rw [hkel]; exact hr', ?_⟩, ?_, ?_, ?_, ?_, ?_, ?_⟩
  · intro x hx
    rcases List.mem_append.mp hx with hx | hx
    · exact List.mem_append_left _ (hl x hx)
    · rw [List.mem_singleton.mp hx]; simp
  · intro q hq
    cases hq
    unfold Controller
    rw [htel ri hri]
    exact hcon
  · intro q'
    by_cases hq : q' = id
    · subst hq
      exact .inr ⟨ri, rfl, .inr (.inr ⟨ti, gi, prior, now, rnd 2, e, a, ci, mm, htid, by simp, hiss, hti, hei, hmm,
        ha.named hC hH (by rw [hll]; exact hlen) hreads hkel hc1 hc2, hseal⟩)⟩
    · exact tels_more (h.tels q') (htel q' hq) (fun x hx => List.mem_append_left _ hx) hkel
  · intro t ht q' hq'
    rw [hacd] at ht
    by_cases hq : q' = id
    · subst hq; rw [htid]; simp
    · rw [htel q' hq]
      rcases List.mem_append.mp ht with ht | ht
      · exact h.acdcs t ht q' hq'
      · rw [List.mem_singleton.mp ht] at hq'
        obtain ⟨c', h1, h2⟩ := hq'
        rw [hcr] at h1
        cases h1
        rw [hcs] at h2
        exact absurd (Res.ok.inj h2).symm hq
  · intro p hp
    rw [hoth p hp]
    exact h.others p hp
  · intro x hx
    rcases List.mem_append.mp hx with hx | hx
    · exact h.wellformed x hx
    · simp only [List.mem_cons, List.not_mem_nil, or_false] at hx
      rcases hx with rfl | rfl | rfl
      · exact .event p (running_document hr' (by have := hll; simp at this ⊢; omega) (a, p) (by simp)) hp2
      · exact .transaction _ _ _ hcouple.1 hcouple.2
      · exact .credential _ _ _ hproof.1 hproof.2
  · refine h.delivers.more ?_ ?_ ?_
    · intro q' hq'
      by_cases hq : q' = id
      · subst hq; exact absurd new hq'
      · rw [htel q' hq]; exact hq'
    · rw [hkel]; simp
    intro st v fuel deep verify hd hv hread hu hj
    have hvnew : v.tels id = [] := by
      rw [hj.otherTels id new]
      exact hu.tels id (by rw [htid]; simp)
    have key := hacc v fuel deep verify [] rfl (fun _ _ _ _ _ _ v => ⟨v, by unfold verifyEdges; rfl⟩) ?_ hv ?_ ?_ hvnew ?_ (fits c tc hcr hcraw) recent ?_
    · obtain ⟨s1, s2, s3, g1, g2, g3, g4, g5, g6, g7, g8⟩ := key
      refine ⟨s3, ?_, ?_, ?_, ?_, ?_, ?_⟩
      · exact .one _ _ _ [pieceOf p, ⟨ti, gi, .couples [ci]⟩] _ (.one _ _ _ [pieceOf p] _ (flows_one g1) g2) g3
      · rw [g4, hj.kels, hkel]
      · intro p hp; rw [g5 p hp, hj.otherKels p hp]
      · intro q' hq'
        by_cases hq : q' = id
        · subst hq; rw [g6, htid]
        · rw [htel q' hq] at hq' ⊢
          rw [g7 q' hq, hj.tels q' hq']
      · intro q' hq'
        have hq : q' ≠ id := by
          rintro rfl
          rw [htid] at hq'
          simp at hq'
        rw [htel q' hq] at hq'
        rw [g7 q' hq, hj.otherTels q' hq']
      · rw [g8, hj.acdcs, hacd, List.append_assoc]
    · intro hdd
      have hn := hd hdd
      rw [hkel] at hn
      exact ⟨by rw [hll]; simp at hn; omega, hread (by rw [hdd]; simp) (pieceOf p) (by simp)⟩
    · rw [hj.kels]
      exact running_keeps hr hl fun hdn x hx => hread hdn x (by simp [hx])
    · unfold Controller
      rw [hj.tels ri (by
        obtain ⟨t, r, h1, -⟩ := hcon
        intro h0
        rw [h0] at h1
        simp at h1)]
      exact hcon
    · intro t ht hc
      rw [hj.acdcs] at ht
      rcases List.mem_append.mp ht with ht | ht
      · exact hu.acdcs id (by rw [htid]; simp) t ht hc
      · exact h.acdcs t ht id hc new
    · intro hdn
      exact hread hdn ⟨ti, gi, .couples [ci]⟩ (by simp)

/-- A credential the issuer revokes. -/
theorem desk_revoke {E : Env} {S : Stretch} (hC : CryptoOk E.C) (hH : HashOk E.H) (hstore : ∀ st t, E.refuses st t = false) {rnd : Nat → Nat}
    {now issuer ri id m1 m2 : Str} {ks nks : KeySet} {own : Store} {xs : List Piece} (h : Desk E S issuer (some ri) ks nks own xs) (hri : id ≠ ri)
    (call : revokeAcdc E S rnd now own ks ri issuer id = .ok (m1, m2)) (hm1 : (toUtf8 m1).length < 2 ^ 32) (hm2 : (toUtf8 m2).length < 2 ^ 32)
    (hlen : (own.kels issuer).length < 2 ^ 32) :
    ∃ x y : Piece, x.whole = m1 ∧ y.whole = m2 ∧ Desk E S issuer (some ri) ks nks ((own.insertKeyEvent issuer m1).insertTransactionEvent id m2) (xs ++ [x, y]) := by
  obtain ⟨said0, l, hr, hl⟩ := h.run
  have hreads := running_reads hC hH hr (by omega)
  have hll : (l.map entryOf).length = (own.kels issuer).length := hreads.length_eq.symm
  have hone : (own.tels id).length = 1 := by
    by_contra hne
    unfold revokeAcdc at call
    rw [if_pos hne] at call
    cases call
  obtain ⟨te, ge, prior, dt, r, e, ai, ci, mm, hkept, hpiece, hiss, hte, hei, hmm, hnamed, hseal⟩ : ∃ (te ge prior dt : Str) (r : Nat) (e a : Sad) (c : M × M) (m : M),
      own.tels id = [te ++ ge] ∧ (⟨te, ge, .couples [c]⟩ : Piece) ∈ xs ∧ vcIssue E S r dt id ri = .ok (prior, e) ∧ e.raw = toUtf8 te ∧ e.raw.length < 2 ^ 32 ∧
      Matter.newWithQb64 id = .ok m ∧ AnchorNamed E own issuer c a ∧ Seals E.chk a e := by
    rcases h.tels id with h1 | ⟨ri', h1, h2 | h2 | h2⟩
    · rw [h1] at hone; simp at hone
    · cases h1; exact absurd h2 hri
    · omega
    · cases h1; exact h2
  obtain ⟨p, tr, gr, cr, ⟨⟨q, nx, a, ha⟩, -⟩, ⟨hp1, hp2⟩, ⟨rfl, hcouple⟩, -, hacc⟩ := revoked_all E hC hH hstore issuer (l.map entryOf) ks nks hr.history (by rw [hll]; exact hlen)
    own hreads S S r dt id ri prior te ge e hiss hte hei mm hmm hkept rnd now m1 m2 call hm1 hm2
  have hr' := running_anchor hr ha
  have hcon := h.registry ri rfl
  have htel : ∀ q, q ≠ id → ((own.insertKeyEvent issuer m1).insertTransactionEvent id (tr ++ gr)).tels q = own.tels q := by
    intro q hq
    rw [insert_tels_ne hq]
    rfl
  have htid : ((own.insertKeyEvent issuer m1).insertTransactionEvent id (tr ++ gr)).tels id = own.tels id ++ [tr ++ gr] := by
    rw [insert_tels]
    rfl
  have hkel : ((own.insertKeyEvent issuer m1).insertTransactionEvent id (tr ++ gr)).kels issuer = own.kels issuer ++ [m1] := insert_kels
  generalize hown' : (own.insertKeyEvent issuer m1).insertTransactionEvent id (tr ++ gr) = own' at htel htid hkel
  have hacd : own'.acdcs = own.acdcs := by rw [← hown']; rfl
  have hoth : ∀ p, p ≠ issuer → own'.kels p = own.kels p := by
    intro p hp
    rw [← hown']
    exact insert_kels_ne hp
  refine ⟨pieceOf p, ⟨tr, gr, .couples [cr]⟩, hp1.symm, rfl, ?_⟩
  refine ⟨⟨q, l ++ [(a, p)], by rw [hkel]; exact hr', ?_⟩, ?_, ?_, ?_, ?_, ?_, ?_⟩
  · intro x hx
    rcases List.mem_append.mp hx with hx | hx
    · exact List.mem_append_left _ (hl x hx)
    · rw [List.mem_singleton.mp hx]; simp
  · intro q hq
    cases hq
    unfold Controller
    rw [htel ri (Ne.symm hri)]
    exact hcon
  · intro q'
    by_cases hq : q' = id
    · subst hq
      exact .inr ⟨ri, rfl, .inr (.inl (by rw [htid, hkept]; rfl))⟩
    · exact tels_more (h.tels q') (htel q' hq) (fun x hx => List.mem_append_left _ hx) hkel
  · intro t ht q' hq'
    rw [hacd] at ht
    by_cases hq : q' = id
    · subst hq; rw [htid]; simp
    · rw [htel q' hq]
      exact h.acdcs t ht q' hq'
  · intro p hp
    rw [hoth p hp]
    exact h.others p hp
  · intro x hx
    rcases List.mem_append.mp hx with hx | hx
    · exact h.wellformed x hx
    · simp only [List.mem_cons, List.not_mem_nil, or_false] at hx
      rcases hx with rfl | rfl
      · exact .event p (running_document hr' (by have := hll; simp at this ⊢; omega) (a, p) (by simp)) hp2
      · exact .transaction _ _ _ hcouple.1 hcouple.2
  · refine h.delivers.more ?_ ?_ ?_
    · intro q' hq'
      by_cases hq : q' = id
      · subst hq; rw [htid]; simp
      · rw [htel q' hq]; exact hq'
    · rw [hkel]; simp
    intro st v fuel deep verify hd hv hread hu hj
    have hvid : v.tels id = own.tels id := hj.tels id (by rw [hkept]; simp)
    have key := hacc v fuel deep verify ge ci ai ?_ hv (by rw [hj.kels]; exact hreads) ?_ (by rw [hvid, hkept]) ?_ hseal ?_
    · obtain ⟨s1, s2, g1, g2, g4, g5, g6, g7, g8⟩ := key
      refine ⟨s2, ?_, ?_, ?_, ?_, ?_, ?_⟩
      · exact .one _ _ _ [pieceOf p] _ (flows_one g1) g2
      · rw [g4, hj.kels, hkel]
      · intro p hp; rw [g5 p hp, hj.otherKels p hp]
      · intro q' hq'
        by_cases hq : q' = id
        · subst hq; rw [g6, htid, hvid]
        · rw [htel q' hq] at hq' ⊢
          rw [g7 q' hq, hj.tels q' hq']
      · intro q' hq'
        have hq : q' ≠ id := by
          rintro rfl
          rw [htid] at hq'
          simp at hq'
        rw [htel q' hq] at hq'
        rw [g7 q' hq, hj.otherTels q' hq']
      · rw [g8, hj.acdcs, hacd]
    · intro hdd
      have hn := hd hdd
      rw [hkel] at hn
      refine ⟨by rw [hll]; simp at hn; omega, ?_, hread (by rw [hdd]; simp) (pieceOf p) (by simp)⟩
      rw [hj.kels]
      exact running_keeps hr hl fun hdn x hx => hread hdn x (by simp [hx])
    · unfold Controller
      rw [hj.tels ri (by
        obtain ⟨t, r, h1, -⟩ := hcon
        intro h0
        rw [h0] at h1
        simp at h1)]
      exact hcon
    · unfold AnchorNamed
      rw [hj.kels]
      exact hnamed
    · intro hdn
      exact hread hdn ⟨te, ge, .couples [ci]⟩ (by simp [hpiece])

theorem office_desk {E : Env} {S : Stretch} (hC : CryptoOk E.C) (hH : HashOk E.H) (hstore : ∀ st t, E.refuses st t = false) {issuer : Str} {ri : Option Str}
    {ks nks : KeySet} {own : Store} {ms : List Str} (h : Office E S issuer ri ks nks own ms) (hm : ∀ m ∈ ms, (toUtf8 m).length < 2 ^ 32)
    (hlen : (own.kels issuer).length ≤ 2 ^ 32) : ∃ xs : List Piece, ms = xs.map Piece.whole ∧ Desk E S issuer ri ks nks own xs := by
  induction h with
  | incept rnd code ncode tier count ncount wcount sith nsith pre m ks nks hsith hnsith hzero call =>
    obtain ⟨s, p, hr⟩ := running_incept hC hsith hnsith hzero call (hm m (by simp))
    refine ⟨_, ?_, desk_incept hC hH hstore hr⟩
    exact hr.texts
  | interact rnd data issuer dig said m ri ks nks own ms before hdata last call ih =>
    rw [insert_kels, List.length_append, List.length_singleton] at hlen
    obtain ⟨xs, hx, hk⟩ := ih (fun m hx => hm m (by simp [hx])) (by omega)
    obtain ⟨said0, l, hr, hl⟩ := hk.run
    have hs := running_said hC hH hr (by omega) last
    subst hs
    obtain ⟨s, p, hr'⟩ := running_interact hC hr hdata call (hm m (by simp)) (by omega)
    refine ⟨_, ?_, desk_event hC hH hstore hk hl (running_reads hC hH hr (by omega)) hr' (by simp; omega)⟩
    have := hr'.texts
    rw [List.map_append] at this
    have e : m = p.text := by simpa using (List.append_inj' this (by simp)).2
    rw [hx, e]
    simp [pieceOf, Piece.whole, Parts.text]
  | rotate rnd ncode tier ncount wcount sith nsith issuer dig said m ri ks nks nnks own ms before hsith hnsith last call ih =>
    rw [insert_kels, List.length_append, List.length_singleton] at hlen
    obtain ⟨xs, hx, hk⟩ := ih (fun m hx => hm m (by simp [hx])) (by omega)
    obtain ⟨said0, l, hr, hl⟩ := hk.run
    have hs := running_said hC hH hr (by omega) last
    subst hs
    obtain ⟨s, p, hr'⟩ := running_rotate hC hr hsith hnsith call (hm m (by simp)) (by omega)
    refine ⟨_, ?_, desk_event hC hH hstore hk hl (running_reads hC hH hr (by omega)) hr' (by simp; omega)⟩
    have := hr'.texts
    rw [List.map_append] at this
    have e : m = p.text := by simpa using (List.append_inj' this (by simp)).2
    rw [hx, e]
    simp [pieceOf, Piece.whole, Parts.text]
  | registry rnd issuer ri dig said m t g s ks nks own ms before built text last call couple ih =>
    rw [show ((own.insertKeyEvent issuer m).insertTransactionEvent ri (t ++ g)).kels issuer = own.kels issuer ++ [m] from insert_kels, List.length_append,
      List.length_singleton] at hlen
    obtain ⟨xs, hx, hk⟩ := ih (fun m hx => hm m (by simp [hx])) (by omega)
    obtain ⟨x, y, h1, h2, h3⟩ := desk_registry hC hH hstore hk built text last call couple (hm m (by simp)) (hm _ (by simp)) (by omega)
    exact ⟨_, by rw [hx]; simp [h1, h2], h3⟩
  | issue rnd now issuer ri schema data recipient priv rules id m1 m2 m3 ks nks own ms before hdata hrules call new fits recent ih =>
    rw [show (((own.insertKeyEvent issuer m1).insertTransactionEvent id m2).insertAcdc m3).kels issuer = own.kels issuer ++ [m1] from insert_kels, List.length_append,
      List.length_singleton] at hlen
    obtain ⟨xs, hx, hk⟩ := ih (fun m hx => hm m (by simp [hx])) (by omega)
    obtain ⟨x, y, z, h1, h2, h3, h4⟩ := desk_issue hC hH hstore hk hdata hrules call new fits recent (hm _ (by simp)) (hm _ (by simp)) (hm _ (by simp)) (by omega)
    exact ⟨_, by rw [hx]; simp [h1, h2, h3], h4⟩
  | revoke rnd now issuer ri id m1 m2 ks nks own ms before credential call ih =>
    rw [show ((own.insertKeyEvent issuer m1).insertTransactionEvent id m2).kels issuer = own.kels issuer ++ [m1] from insert_kels, List.length_append,
      List.length_singleton] at hlen
    obtain ⟨xs, hx, hk⟩ := ih (fun m hx => hm m (by simp [hx])) (by omega)
    obtain ⟨x, y, h1, h2, h3⟩ := desk_revoke hC hH hstore hk credential call (hm _ (by simp)) (hm _ (by simp)) (by omega)
    exact ⟨_, by rw [hx]; simp [h1, h2], h3⟩

/-- C92: the messages of an issuer that works with the library, whatever it does and in whatever order, are what readers of the stream format
expect. A verifier that knows nothing of the issuer and is sent the messages one after the other accepts them all. In the end it
has all that the issuer has, and nothing else changed. Unless told otherwise verifiers verify again what
they kept, and it has to be read back as it was received; to repeat all earlier verification they need a stack that is deep enough for the log of the issuer. -/
theorem C92_accepted (E : Env) (S : Stretch) (hC : CryptoOk E.C) (hH : HashOk E.H) (hstore : ∀ st t, E.refuses st t = false) (issuer : Str) (ri : Option Str)
    (ks nks : KeySet) (own : Store) (ms : List Str) (h : Office E S issuer ri ks nks own ms) (hm : ∀ m ∈ ms, (toUtf8 m).length < 2 ^ 32)
    (hlen : (own.kels issuer).length ≤ 2 ^ 32) :
    ∃ xs : List Piece, ms = xs.map Piece.whole ∧ (∀ x ∈ xs, x.Wellformed E.chk) ∧
      ∀ (st : Store) (fuel : Nat) (deep verify : Option Bool), (deep = some true → (own.kels issuer).length ≤ fuel) → verify ≠ some false →
        (deep ≠ some false → ∀ x ∈ xs, ReadsAs E x.attached x.group) →
        Unknown E issuer own st → ∃ st', Takes E (fuel + 2) deep verify st xs st' ∧ Joined issuer st own st' := by
  obtain ⟨xs, h1, h2⟩ := office_desk hC hH hstore h hm hlen
  refine ⟨xs, h1, h2.wellformed, fun st fuel deep verify hd hv hr hu => ?_⟩
  obtain ⟨st', h3, h4⟩ := h2.delivers st fuel deep verify hd hv hr hu
  exact ⟨st', h3.takes, h4⟩

/-- C92: a verifier that starts with nothing ends with the store of the issuer. -/
theorem C92_same (E : Env) (S : Stretch) (hC : CryptoOk E.C) (hH : HashOk E.H) (hstore : ∀ st t, E.refuses st t = false) (issuer : Str) (ri : Option Str)
    (ks nks : KeySet) (own : Store) (ms : List Str) (h : Office E S issuer ri ks nks own ms) (hm : ∀ m ∈ ms, (toUtf8 m).length < 2 ^ 32)
    (hlen : (own.kels issuer).length ≤ 2 ^ 32) :
    ∃ xs : List Piece, ms = xs.map Piece.whole ∧
      ∀ (fuel : Nat) (deep verify : Option Bool), (deep = some true → (own.kels issuer).length ≤ fuel) → verify ≠ some false →
        (deep ≠ some false → ∀ x ∈ xs, ReadsAs E x.attached x.group) →
        Takes E (fuel + 2) deep verify Store.empty xs own := by
  obtain ⟨xs, h1, h2⟩ := office_desk hC hH hstore h hm hlen
  refine ⟨xs, h1, fun fuel deep verify hd hv hr => ?_⟩
  obtain ⟨st', h3, h4⟩ := h2.delivers Store.empty fuel deep verify hd hv hr ⟨rfl, fun _ _ => rfl, fun _ _ t ht => by cases ht⟩
  have : st' = own := by
    obtain ⟨k, t, a⟩ := st'
    obtain ⟨k', t', a'⟩ := own
    have e1 : k = k' := by
      funext p
      by_cases hp : p = issuer
      · rw [hp]; exact h4.kels
      · exact (h4.otherKels p hp).trans (h2.others p hp).symm
    have e2 : t = t' := by
      funext q
      by_cases hq : t' q = []
      · rw [hq]; exact h4.otherTels q hq
      · exact h4.tels q hq
    have e3 : a = a' := h4.acdcs
    rw [e1, e2, e3]
  rw [← this]
  exact h3.takes

/-! ## An issuer -/

/-- The environment of the examples, with another parser of streams. -/
def World.parsing (p : Bytes → Res (List Msg)) : Env := { World.env [] with parse := p }

/-- An identifier with two keys; its registry; a credential; a rotation; another credential; the first one revoked. -/
def World.busyCase (p : Bytes → Res (List Msg)) : Bool :=
  World.holds (kmiIncept (World.parsing p) World.stretch (fun n => n) none (some 2) none none none none none (some true) (some (str% "E")) none) fun a =>
  World.holds (Res.orPanic a.2.1[0]?) fun ks => World.holds (Res.orPanic a.2.1[1]?) fun nks =>
  let o0 := Store.empty.insertKeyEvent a.1 a.2.2
  World.holds (registryIncept (World.parsing p) a.1) fun r => World.holds (fromUtf8 r.2.raw) fun t => World.holds (o0.latestSaid (World.parsing p) a.1) fun d0 =>
  World.holds (kmiInteract (World.parsing p) 0 ks a.1 d0 (o0.kels a.1).length (sealOf r.1 (str% "0") r.1)) fun b =>
  World.holds (coupleText (World.parsing p) (o0.kels a.1).length b.1) fun g =>
  let o1 := (o0.insertKeyEvent a.1 b.2).insertTransactionEvent r.1 (t ++ g)
  World.holds (issueAcdc (World.parsing p) World.stretch (fun n => n) World.today o1 ks r.1 a.1 (str% "schema") (str% "{\"name\":\"x\"}") (some (str% "recipient")) none none none) fun x =>
  let o2 := ((o1.insertKeyEvent a.1 x.2.1).insertTransactionEvent x.1 x.2.2.1).insertAcdc x.2.2.2
  World.holds (o2.latestSaid (World.parsing p) a.1) fun d2 =>
  World.holds (kmiRotate (World.parsing p) World.stretch (fun n => n + 7) a.1 nks d2 (o2.kels a.1).length none none none none none none) fun c =>
  let o3 := o2.insertKeyEvent a.1 c.2.2
  World.holds (issueAcdc (World.parsing p) World.stretch (fun n => n) World.today o3 nks r.1 a.1 (str% "schema") (str% "{\"name\":\"y\"}") none none none none) fun y =>
  let o4 := ((o3.insertKeyEvent a.1 y.2.1).insertTransactionEvent y.1 y.2.2.1).insertAcdc y.2.2.2
  World.holds (revokeAcdc (World.parsing p) World.stretch (fun n => n) World.today o4 nks r.1 a.1 x.1) fun z =>
  World.holds (jsonRead (World.parsing p).fl (str% "{\"name\":\"x\"}")) fun v => World.holds (jsonRead (World.parsing p).fl (str% "{\"name\":\"y\"}")) fun w =>
    (decide (a.2.1.length = 2) && (decide (r.2.raw = toUtf8 t) && (decide (o1.tels x.1 = []) && (decide (o3.tels y.1 = []) && (decide (x.1 ≠ r.1) && (World.plain v &&
    (decide (nesting v ≤ 126) && (World.plain w && (decide (nesting w ≤ 126) &&
    [a.2.2, b.2, t ++ g, x.2.1, x.2.2.1, x.2.2.2, c.2.2, y.2.1, y.2.2.1, y.2.2.2, z.1, z.2].all fun m => decide ((toUtf8 m).length < 2 ^ 32))))))))))

theorem World.busy_runs : World.busyCase (World.env []).parse = true := by decide +kernel

theorem World.busy {p : Bytes → Res (List Msg)} (h : World.busyCase p = true) : ∃ (issuer ri : Str) (ks nks : KeySet) (own : Store) (ms : List Str), Office (World.parsing p) World.stretch issuer (some ri) ks nks own ms ∧ ms.length = 12 ∧
    (own.kels issuer).length = 6 ∧ own.acdcs.length = 2 ∧ ∀ m ∈ ms, (toUtf8 m).length < 2 ^ 32 := by
  unfold World.busyCase at h
  obtain ⟨⟨pre, l, m0⟩, ha, h⟩ := World.holds_ok h
  obtain ⟨ks, hks, h⟩ := World.holds_ok h
  obtain ⟨nks, hnks, h⟩ := World.holds_ok h
  obtain ⟨⟨ri, s⟩, hr, h⟩ := World.holds_ok h
  obtain ⟨t, -, h⟩ := World.holds_ok h
  obtain ⟨d0, hd0, h⟩ := World.holds_ok h
  obtain ⟨⟨b1, b2⟩, hb, h⟩ := World.holds_ok h
  obtain ⟨g, hg, h⟩ := World.holds_ok h
  obtain ⟨⟨id, x1, x2, x3⟩, hx, h⟩ := World.holds_ok h
  obtain ⟨d2, hd2, h⟩ := World.holds_ok h
  obtain ⟨⟨c1, c2, c3⟩, hc, h⟩ := World.holds_ok h
  obtain ⟨⟨id', y1, y2, y3⟩, hy, h⟩ := World.holds_ok h
  obtain ⟨⟨z1, z2⟩, hz, h⟩ := World.holds_ok h
  obtain ⟨v, hv, h⟩ := World.holds_ok h
  obtain ⟨w, hw, h⟩ := World.holds_ok h
  simp only [Bool.and_eq_true, decide_eq_true_eq] at h
  obtain ⟨w1, w2, w3, w4, w5, w6, w7, w8, w9, w10⟩ := h
  obtain ⟨k1, k2, rfl⟩ := List.length_eq_two.mp w1
  cases hks
  cases hnks
  have f0 := Office.incept _ _ _ _ _ _ _ _ _ _ _ _ _ (.inl rfl) (.inl rfl) (by simp) ha
  have f1 := Office.registry _ _ _ _ _ _ t g _ _ _ _ _ f0 hr w2 hd0 hb hg
  have f2 := Office.issue _ _ _ _ _ _ _ _ none _ _ _ _ _ _ _ _ f1 (fun v' hv' => by rw [hv] at hv'; cases hv'; exact ⟨World.plain_proper _ w6, w7⟩) (by simp) hx w3
    (fun _ _ _ _ => rfl) rfl
  have f3 := Office.rotate _ _ _ _ _ _ _ _ _ _ _ _ _ _ _ _ _ f2 (.inl rfl) (.inl rfl) hd2 hc
  have f4 := Office.issue _ _ _ _ _ _ _ _ none _ _ _ _ _ _ _ _ f3 (fun v' hv' => by rw [hw] at hv'; cases hv'; exact ⟨World.plain_proper _ w8, w9⟩) (by simp) hy w4
    (fun _ _ _ _ => rfl) rfl
  have f5 := Office.revoke _ _ _ _ _ _ _ _ _ _ _ f4 w5 hz
  refine ⟨_, _, _, _, _, _, f5, rfl, ?_, rfl, ?_⟩
  · simp [Store.insertKeyEvent, Store.insertTransactionEvent, Store.insertAcdc, Store.empty, append]
  · intro m hm
    rw [List.all_eq_true] at w10
    exact of_decide_eq_true (w10 m (by simpa using hm))

/-- All that `C92_accepted` and `C92_same` ask for is met: a verifier with an empty store gets six key events, a registry and two credentials. -/
example : ∃ (issuer : Str) (own : Store) (xs : List Piece), xs.length = 12 ∧ (own.kels issuer).length = 6 ∧ own.acdcs.length = 2 ∧
    Takes (World.env []) 2 (some false) none Store.empty xs own := by
  obtain ⟨issuer, ri, ks, nks, own, ms, h1, h2, h3, h4, h5⟩ := World.busy World.busy_runs
  obtain ⟨xs, h6, h7⟩ := C92_same (World.env []) World.stretch World.crypto_ok World.hash_ok (fun _ _ => rfl) issuer _ ks nks own ms h1 h5 (by omega)
  exact ⟨issuer, own, xs, by rw [← h2, h6, List.length_map], h3, h4, h7 0 (some false) none (by simp) (by simp) (by simp)⟩

end Keride.Props
