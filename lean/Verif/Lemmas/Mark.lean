/-
The messages of issuers report different SAIDs, up to hash collisions.
-/
import Verif.Spec.Report
import Verif.Lemmas.Stream
import Verif.Lemmas.Reader
import Verif.Lemmas.Agree
import Verif.Lemmas.History
import Verif.Props.Kmi
import Verif.Props.Credential

namespace Keride.Props

open Matter Spec Sample

/-- What a message is. -/
inductive Place
  | key (p : Str) (n : Nat)
  | vcp (q : Str)
  | iss (q : Str)
  | rev (q : Str)
  | cred (q : Str)

/-- A store has it. -/
def Occupied (E : Env) (own : Store) : Place → Prop
  | .key p n => n < (own.kels p).length
  | .vcp q => own.tels q ≠ []
  | .iss q => own.tels q ≠ []
  | .rev q => 2 ≤ (own.tels q).length
  | .cred q => ∃ t ∈ own.acdcs, IsCredential E q t

/-- A document that is addressed by its content, all but the fields `b`, is it. -/
def At (E : Env) (s : Sad) (b : List Str) : Place → Prop
  | .key p n => (Serder.sn s = .ok n ∧ ∃ o, s.ked = .obj o) ∧ ((HasText (str% "t") (str% "icp") s ∧ Sadder.said E.chk s = .ok p) ∨
      ((HasText (str% "t") (str% "rot") s ∨ HasText (str% "t") (str% "ixn") s) ∧ str% "i" ∉ b ∧ HasText (str% "i") p s))
  | .vcp q => HasText (str% "t") (str% "vcp") s ∧ Sadder.said E.chk s = .ok q
  | .iss q => HasText (str% "t") (str% "iss") s ∧ str% "i" ∉ b ∧ HasText (str% "i") q s
  | .rev q => HasText (str% "t") (str% "rev") s ∧ str% "i" ∉ b ∧ HasText (str% "i") q s
  | .cred q => field (str% "t") s.ked = none ∧ Sadder.said E.chk s = .ok q

/-- A document is it, and is addressed by its content. -/
def Placed (E : Env) (s : Sad) (P : Place) : Prop := ∃ b, ByContent E.H E.chk s b ∧ str% "t" ∉ b ∧ str% "s" ∉ b ∧ At E s b P

structure Mark (E : Env) (x : Piece) (P : Place) : Prop where
  doc : ∃ s, ((∀ q, Says E x q → Sadder.said E.chk s = .ok q) ∧ (Serder.newWithRaw E.fl (toUtf8 x.whole) = .ok s ∨ Creder.newWithRaw E.fl (toUtf8 x.whole) = .ok s)) ∧ Placed E s P
  reports : ∀ q, Says E x q → Reports E x.whole q

theorem said_one {chk : Bool} {s : Sad} {q q' : Str} (h : Sadder.said chk s = .ok q) (h' : Sadder.said chk s = .ok q') : q = q' := Res.ok.inj (h.symm.trans h')

theorem text_one {k : Str} {s s' : Sad} (h : field k s.ked = field k s'.ked) {a b : Str} (ha : HasText k a s) (hb : HasText k b s') : a = b := by
  unfold HasText at ha hb
  rw [ha, hb] at h
  exact Value.str.inj (Option.some.inj h)

/-- Documents that report the same SAID are the same. -/
theorem Placed.same {E : Env} {s s' : Sad} {P P' : Place} (h : Placed E s P) (h' : Placed E s' P') {q : Str} (hq : Sadder.said E.chk s = .ok q)
    (hq' : Sadder.said E.chk s' = .ok q) : P = P' ∨ Collision E.H (str% "E") (EventText s) (EventText s') := by
  obtain ⟨b, hb, ht, hn, ha⟩ := h
  obtain ⟨b', hb', ht', hn', ha'⟩ := h'
  rcases same_content hb hb' hq hq' with hc | hc
  · exact .inr hc
  left
  have ct := hc _ ht ht'
  have cn := hc _ hn hn'
  have types : ∀ {a b : Str}, a ≠ b → HasText (str% "t") a s → HasText (str% "t") b s' → False := fun hne ha hb => hne (text_one ct ha hb)
  have none1 : ∀ {a : Str}, HasText (str% "t") a s → field (str% "t") s'.ked = none → False := by
    intro a h1 h2
    unfold HasText at h1
    rw [h1, h2] at ct
    cases ct
  have none2 : ∀ {a : Str}, field (str% "t") s.ked = none → HasText (str% "t") a s' → False := by
    intro a h1 h2
    unfold HasText at h2
    rw [h1, h2] at ct
    cases ct
  cases P with
  | key p n =>
    cases P' with
    | key p' n' =>
      obtain ⟨⟨hsn, o, ho⟩, ha⟩ := ha
      obtain ⟨⟨hsn', o', ho'⟩, ha'⟩ := ha'
      have en : n = n' := by
        rw [ho, ho', Saider.field_find, Saider.field_find] at cn
        simp only [Serder.sn, Serder.sner, ho, Value.index, cn] at hsn
        simp only [Serder.sn, Serder.sner, ho', Value.index] at hsn'
        rw [hsn] at hsn'
        exact Res.ok.inj hsn'
      subst en
      rcases ha with ⟨h1, h2⟩ | ⟨h1, h2, h3⟩ <;> rcases ha' with ⟨h1', h2'⟩ | ⟨h1', h2', h3'⟩
      · rw [← said_one hq h2, ← said_one hq' h2']
      · rcases h1' with h1' | h1'
        · exact (types (by decide) h1 h1').elim
        · exact (types (by decide) h1 h1').elim
      · rcases h1 with h1 | h1
        · exact (types (by decide) h1 h1').elim
        · exact (types (by decide) h1 h1').elim
      · rw [text_one (hc _ h2 h2') h3 h3']
    | vcp q' => rcases ha.2 with ⟨h1, -⟩ | ⟨h1 | h1, -⟩ <;> exact (types (by decide) h1 ha'.1).elim
    | iss q' => rcases ha.2 with ⟨h1, -⟩ | ⟨h1 | h1, -⟩ <;> exact (types (by decide) h1 ha'.1).elim
    | rev q' => rcases ha.2 with ⟨h1, -⟩ | ⟨h1 | h1, -⟩ <;> exact (types (by decide) h1 ha'.1).elim
    | cred q' => rcases ha.2 with ⟨h1, -⟩ | ⟨h1 | h1, -⟩ <;> exact (none1 h1 ha'.1).elim
  | vcp p =>
    cases P' with
    | key p' n' => rcases ha'.2 with ⟨h1, -⟩ | ⟨h1 | h1, -⟩ <;> exact (types (by decide) ha.1 h1).elim
    | vcp q' => rw [← said_one hq ha.2, ← said_one hq' ha'.2]
    | iss q' => exact (types (by decide) ha.1 ha'.1).elim
    | rev q' => exact (types (by decide) ha.1 ha'.1).elim
    | cred q' => exact (none1 ha.1 ha'.1).elim
  | iss p =>
    cases P' with
    | key p' n' => rcases ha'.2 with ⟨h1, -⟩ | ⟨h1 | h1, -⟩ <;> exact (types (by decide) ha.1 h1).elim
    | vcp q' => exact (types (by decide) ha.1 ha'.1).elim
    | iss q' => rw [text_one (hc _ ha.2.1 ha'.2.1) ha.2.2 ha'.2.2]
    | rev q' => exact (types (by decide) ha.1 ha'.1).elim
    | cred q' => exact (none1 ha.1 ha'.1).elim
  | rev p =>
    cases P' with
    | key p' n' => rcases ha'.2 with ⟨h1, -⟩ | ⟨h1 | h1, -⟩ <;> exact (types (by decide) ha.1 h1).elim
    | vcp q' => exact (types (by decide) ha.1 ha'.1).elim
    | iss q' => exact (types (by decide) ha.1 ha'.1).elim
    | rev q' => rw [text_one (hc _ ha.2.1 ha'.2.1) ha.2.2 ha'.2.2]
    | cred q' => exact (none1 ha.1 ha'.1).elim
  | cred p =>
    cases P' with
    | key p' n' => rcases ha'.2 with ⟨h1, -⟩ | ⟨h1 | h1, -⟩ <;> exact (none2 ha.1 h1).elim
    | vcp q' => exact (none2 ha.1 ha'.1).elim
    | iss q' => exact (none2 ha.1 ha'.1).elim
    | rev q' => exact (none2 ha.1 ha'.1).elim
    | cred q' => rw [← said_one hq ha.2, ← said_one hq' ha'.2]

/-- Messages that report the same SAID are the same. -/
theorem Mark.same {E : Env} {x y : Piece} {P P' : Place} (h : Mark E x P) (h' : Mark E y P') {q : Str} (hx : Says E x q) (hy : Says E y q) :
    P = P' ∨ Collision E.H (str% "E") (MessageText E.fl [x.whole]) (MessageText E.fl [y.whole]) := by
  obtain ⟨s, ⟨hs, hw⟩, hp⟩ := h.doc
  obtain ⟨s', ⟨hs', hw'⟩, hp'⟩ := h'.doc
  exact (hp.same hp' (hs q hx) (hs' q hy)).imp id fun hc => hc.mono (fun _ k => ⟨_, by simp, s, hw, k⟩) fun _ k => ⟨_, by simp, s', hw', k⟩

theorem Occupied.more {E : Env} {own own' : Store} (he : Extends own own') {P : Place} (h : Occupied E own P) : Occupied E own' P := by
  cases P with
  | key p n => exact Nat.lt_of_lt_of_le h (he.kels p).length_le
  | vcp q => exact fun h0 => h (List.prefix_nil.mp (h0 ▸ he.tels q))
  | iss q => exact fun h0 => h (List.prefix_nil.mp (h0 ▸ he.tels q))
  | rev q => exact Nat.le_trans h (he.tels q).length_le
  | cred q =>
    obtain ⟨t, h1, h2⟩ := h
    exact ⟨t, he.acdcs.subset h1, h2⟩

/-- The messages so far: each is something that the store has, and they report different SAIDs. -/
structure Told (E : Env) (own : Store) (xs : List Piece) : Prop where
  marks : ∀ x ∈ xs, ∃ P, Mark E x P ∧ Occupied E own P
  apart : xs.Pairwise fun x y => ∀ q, Says E x q → Says E y q → Collision E.H (str% "E") (MessageText E.fl [x.whole]) (MessageText E.fl [y.whole])

theorem Told.more {E : Env} {own own' : Store} {xs : List Piece} (h : Told E own xs) (he : Extends own own') {x : Piece} {P : Place} (hm : Mark E x P)
    (hnew : ¬ Occupied E own P) (hin : Occupied E own' P) : Told E own' (xs ++ [x]) := by
  refine ⟨?_, List.pairwise_append.mpr ⟨h.apart, List.pairwise_singleton _ _, ?_⟩⟩
  · intro y hy
    rcases List.mem_append.mp hy with hy | hy
    · obtain ⟨P', h1, h2⟩ := h.marks y hy
      exact ⟨P', h1, h2.more he⟩
    · rw [List.mem_singleton.mp hy]
      exact ⟨P, hm, hin⟩
  · intro y hy z hz q h1 h2
    rw [List.mem_singleton.mp hz] at h2
    obtain ⟨P', h3, h4⟩ := h.marks y hy
    rcases h3.same hm h1 h2 with rfl | h
    · exact absurd h4 hnew
    · rw [List.mem_singleton.mp hz]; exact h

/-! ## What the library builds -/

theorem says_serder {E : Env} {x : Piece} {s : Sad} (hread : Serder.newWithRaw E.fl (toUtf8 x.text) = .ok s) {q : Str} (h : Says E x q) : Sadder.said E.chk s = .ok q := by
  rcases h with ⟨s', h1, h2⟩ | ⟨c, h1, h2⟩
  · rw [hread] at h1
    cases h1
    exact h2
  · obtain ⟨r, h3, h4⟩ := creder_sniff h1
    obtain ⟨r', h5, h6⟩ := sniff_of hread
    rw [h3] at h5
    cases h5
    rw [h4] at h6
    exact absurd h6 (by decide)

theorem says_creder {E : Env} {x : Piece} {c : Sad} (hread : Creder.newWithRaw E.fl (toUtf8 x.text) = .ok c) {q : Str} (h : Says E x q) : Sadder.said E.chk c = .ok q := by
  rcases h with ⟨s', h1, h2⟩ | ⟨c', h1, h2⟩
  · obtain ⟨r, h3, h4⟩ := creder_sniff hread
    obtain ⟨r', h5, h6⟩ := sniff_of h1
    rw [h3] at h5
    cases h5
    rw [h4] at h6
    exact absurd h6 (by decide)
  · rw [hread] at h1
    cases h1
    exact h2

theorem mark_serder {E : Env} {x : Piece} {s : Sad} {b : List Str} {P : Place} (hread : Serder.newWithRaw E.fl (toUtf8 x.text) = .ok s) (hr : s.raw = toUtf8 x.text)
    (hb : ByContent E.H E.chk s b) (ht : str% "t" ∉ b) (hn : str% "s" ∉ b) (ha : At E s b P) : Mark E x P :=
  ⟨⟨s, ⟨fun _ => says_serder hread, .inl (again_key hread hr x.attached)⟩, b, hb, ht, hn, ha⟩, fun _ hq => .inl ⟨s, again_key hread hr x.attached, says_serder hread hq⟩⟩

theorem reads_nil {fl : Str → Option Str} {f : (Str → Option Str) → Bytes → Res Sad} {s : Sad} {t : Str} (h : ∀ rest, f fl (s.raw ++ toUtf8 rest) = .ok s) (hr : s.raw = toUtf8 t) :
    f fl (toUtf8 t) = .ok s := by
  have := h []
  rw [hr] at this
  simpa [toUtf8] using this

theorem mark_event {E : Env} (hC : CryptoOk E.C) (hH : HashOk E.H) {pre said : Str} {ks nks : KeySet} {ms : List Str} {m : Str} {l : List (Sad × Parts)} {s : Sad} {p : Parts}
    (hr : Running E pre said ks nks (ms ++ [m]) (l ++ [(s, p)])) (hlen : (ms ++ [m]).length ≤ 2 ^ 32) : Mark E ⟨p.event, p.attached, .quadlets [.controller p.sigs]⟩ (.key pre ms.length) := by
  have hll := congrArg List.length hr.texts
  have hh := history_sound hC hH hr.history (by simp at hll hlen ⊢; omega)
  have hraw := (hr.parts (s, p) (by simp)).1
  have hord : Ordinary s := hh.ordinary ⟨s, [.controller p.sigs]⟩ (List.mem_map.mpr ⟨(s, p), by simp, rfl⟩)
  have hread : Serder.newWithRaw E.fl (toUtf8 p.event) = .ok s :=
    reads_nil (f := Serder.newWithRaw) (hh.reads ⟨s, [.controller p.sigs]⟩ (List.mem_map.mpr ⟨(s, p), by simp, rfl⟩)) hraw
  have hobj : ∃ o, s.ked = .obj o := let ⟨o, h, _⟩ := hord; ⟨o, h⟩
  have hv := hh.valid
  rw [List.map_append, List.map_singleton] at hv
  have hl2 : (l.map fun x => (⟨x.1, [.controller x.2.sigs]⟩ : Entry)).length = ms.length := by simp at hll ⊢; omega
  generalize hlog : (l.map fun x => (⟨x.1, [.controller x.2.sigs]⟩ : Entry)) ++ [⟨s, [.controller p.sigs]⟩] = log at hv
  cases hv with
  | incept e keys t sigs type ident sn said fields digest own threshold signed =>
    obtain ⟨h1, h2⟩ := List.append_inj' (show _ = [] ++ [e] from hlog) rfl
    cases h2
    rw [h1] at hl2
    rw [← hl2]
    exact mark_serder (x := ⟨p.event, p.attached, .quadlets [.controller p.sigs]⟩) hread hraw (byContent_icp digest hord) (by decide) (by decide) ⟨⟨sn, hobj⟩, .inl ⟨type, said⟩⟩
  | rotate log e prev est psaid keys digests t n sigs before type ident sn fields digest last prior chained own threshold signed latest next nextThreshold committed =>
    obtain ⟨h1, h2⟩ := List.append_inj' hlog rfl
    cases h2
    rw [h1] at hl2
    rw [← hl2]
    exact mark_serder (x := ⟨p.event, p.attached, .quadlets [.controller p.sigs]⟩) hread hraw (byContent_self digest hord) (by decide) (by decide) ⟨⟨sn, hobj⟩, .inr ⟨.inl type, by decide, ident⟩⟩
  | interact log e prev est psaid keys t sigs before type ident sn fields digest last prior chained latest own threshold signed =>
    obtain ⟨h1, h2⟩ := List.append_inj' hlog rfl
    cases h2
    rw [h1] at hl2
    rw [← hl2]
    exact mark_serder (x := ⟨p.event, p.attached, .quadlets [.controller p.sigs]⟩) hread hraw (byContent_self digest hord) (by decide) (by decide) ⟨⟨sn, hobj⟩, .inr ⟨.inr type, by decide, ident⟩⟩

theorem mark_registry {E : Env} (hH : HashOk E.H) {issuer ri t g : Str} {s : Sad} {grp : Group} (built : registryIncept E issuer = .ok (ri, s)) (hs : Sendable s) (text : s.raw = toUtf8 t) :
    Mark E ⟨t, g, grp⟩ (.vcp ri) := by
  obtain ⟨-, -, k1, k2, k3, -, -, -, -, -, -, -, k4⟩ := C75_registry E hH issuer ri s built hs
  obtain ⟨vs, hb⟩ := registry_ok built
  obtain ⟨o, ho, hv⟩ := hb.first
  exact mark_serder (reads_nil (f := Serder.newWithRaw) k4 text) text (byContent_icp k1 ⟨o, ho, hv, ho ▸ plain_decimal hs.plain⟩) (by decide) (by decide) ⟨k3, k2⟩

theorem mark_issue {E : Env} (hH : HashOk E.H) {S : Stretch} {rnd : Nat} {now id ri q t g : Str} {s : Sad} {grp : Group} (built : vcIssue E S rnd now id ri = .ok (q, s)) (hs : Sendable s)
    (text : s.raw = toUtf8 t) : Mark E ⟨t, g, grp⟩ (.iss id) := by
  obtain ⟨⟨o, ho, hk⟩, -, k1, k2, k3, k4, -, -, -, k5⟩ := C76_issue E hH S rnd now id ri q s built hs
  have hv : o.head?.map Prod.fst = some (str% "v") := by
    rw [← List.head?_map, hk]; rfl
  exact mark_serder (reads_nil (f := Serder.newWithRaw) k5 text) text (byContent_self k1 ⟨o, ho, hv, ho ▸ plain_decimal hs.plain⟩) (by decide) (by decide) ⟨k3, by decide, k4⟩

theorem mark_revoke {E : Env} (hH : HashOk E.H) {S : Stretch} {rnd : Nat} {now id ri prior q t g : Str} {s : Sad} {grp : Group} (built : vcRevoke E S rnd now id ri prior = .ok (q, s))
    (hs : Sendable s) (text : s.raw = toUtf8 t) : Mark E ⟨t, g, grp⟩ (.rev id) := by
  obtain ⟨⟨o, ho, hk⟩, -, k1, k2, k3, k4, -, -, -, -, k5⟩ := C76_revoke E hH S rnd now id ri prior q s built hs
  have hv : o.head?.map Prod.fst = some (str% "v") := by
    rw [← List.head?_map, hk]; rfl
  exact mark_serder (reads_nil (f := Serder.newWithRaw) k5 text) text (byContent_self k1 ⟨o, ho, hv, ho ▸ plain_decimal hs.plain⟩) (by decide) (by decide) ⟨k3, by decide, k4⟩

theorem mark_credential {E : Env} {id t g : Str} {c : Sad} {grp : Group} (hsaid : Sadder.said E.chk c = .ok id) (hself : SelfAddressed E.H E.chk c)
    (hord : Ordinary c) (hnone : field (str% "t") c.ked = none) (hread : Creder.newWithRaw E.fl (toUtf8 (t ++ g)) = .ok c) (hread' : Creder.newWithRaw E.fl (toUtf8 t) = .ok c) :
    Mark E ⟨t, g, grp⟩ (.cred id) :=
  ⟨⟨c, ⟨fun _ => says_creder (x := ⟨t, g, grp⟩) hread', .inr hread⟩, _, byContent_self hself hord, by decide, by decide, hnone, hsaid⟩,
    fun _ hq => .inr ⟨c, hread, says_creder (x := ⟨t, g, grp⟩) hread' hq⟩⟩

/-! ## Streams -/

theorem parse_all {E : Env} (h : ReadsStreams E) : ∀ {xs : List Piece}, (∀ x ∈ xs, x.Wellformed E.chk) →
    E.parse (toUtf8 (xs.map Piece.whole).flatten) = .ok (xs.flatMap Piece.parsed)
  | [], _ => h.nothing
  | x :: xs, hx => by
    rw [List.map_cons, List.flatten_cons, List.flatMap_cons]
    exact h.message x _ _ (hx x (by simp)) (parse_all h fun y hy => hx y (by simp [hy]))

/-- Messages that are accepted one by one, and report different SAIDs, are accepted in any division into streams. -/
theorem flows_ingests {E : Env} (h : ReadsStreams E) {fuel : Nat} {deep verify : Option Bool} {st : Store} (cs : List (List Piece)) :
    ∀ st', Flows E fuel deep verify st cs.flatten st' → (cs.flatten.Pairwise fun x y => ∀ q, Says E x q → ¬ Says E y q) →
    (∀ x ∈ cs.flatten, ∀ q, Says E x q → ¬ Sample.Holds E st q) → (∀ x ∈ cs.flatten, x.Wellformed E.chk) →
    Ingests E fuel deep verify st (cs.map fun c => (c.map Piece.whole).flatten) st' := by
  induction cs using List.reverseRecOn with
  | nil =>
    intro st' hf _ _ _
    generalize hz : List.flatten ([] : List (List Piece)) = zs at hf
    cases hf with
    | none => exact .none _
    | one => exact absurd hz (by simp)
  | append_singleton cs c ih =>
    intro st' hf hp hn hw
    rw [List.flatten_append, List.flatten_singleton] at hf hp hn hw
    obtain ⟨s, h1, h2⟩ := hf.split _ _ rfl
    obtain ⟨p1, p2, p3⟩ := List.pairwise_append.mp hp
    rw [List.map_append, List.map_singleton]
    refine .one _ _ _ _ _ (ih s h1 p1 (fun x hx => hn x (by simp only [List.mem_append]; exact .inl hx)) fun x hx => hw x (by simp only [List.mem_append]; exact .inl hx)) ?_
    obtain ⟨v', g1, -⟩ := h2.stream p2 (by
      intro x hx q hq hh
      rcases h1.held q hh with h | ⟨y, hy, h⟩
      · exact hn x (by simp only [List.mem_append]; exact .inr hx) q hq h
      · exact p3 y hy x hx q h hq)
    unfold ingest
    rw [parse_all h fun x hx => hw x (by simp only [List.mem_append]; exact .inr hx)]
    have := g1 []
    rw [List.append_nil] at this
    dsimp only
    rw [this]
    rfl

end Keride.Props
