/-
C75 and C76: registries, issuances and revocations as the library builds them.
-/
import Verif.Props.Deliver
import Verif.Lemmas.Issue
import Verif.Lemmas.WorldAcdc

namespace Keride.Props

open Matter Spec Sample

/-- The fields of the events, in order. -/
def vcpOrder : List Str := [str% "v", str% "t", str% "d", str% "i", str% "ii", str% "s", str% "c", str% "bt", str% "b"]
def issOrder : List Str := [str% "v", str% "t", str% "d", str% "i", str% "s", str% "ri", str% "dt", str% "n"]
def revOrder : List Str := [str% "v", str% "t", str% "d", str% "i", str% "s", str% "ri", str% "p", str% "dt", str% "n"]

/-! ## C75 -/

/-- C75: the inception of a registry that the library builds for an issuer: what it says. It has no witnesses or backers, and
its identifier, which is also its SAID, is the digest of its content. -/
theorem C75_registry (E : Env) (hH : HashOk E.H) (issuer q : Str) (s : Sad) (h : registryIncept E issuer = .ok (q, s)) (hs : Sendable s) :
    Fields vcpOrder s ∧ Serialized s ∧ InceptionAddressed E.H E.chk s ∧ Sadder.said E.chk s = .ok q ∧ HasText (str% "t") (str% "vcp") s ∧
    HasText (str% "i") q s ∧ HasText (str% "d") q s ∧ HasText (str% "ii") issuer s ∧ HasText (str% "s") (str% "0") s ∧
    HasTexts (str% "c") [str% "NB"] s ∧ HasText (str% "bt") (str% "0") s ∧ HasTexts (str% "b") [] s ∧
    ∀ rest, Serder.newWithRaw E.fl (s.raw ++ toUtf8 rest) = .ok s := by
  obtain ⟨vs, hb⟩ := registry_ok h
  have hr := hb.reads hs.plain hs.depth hs.small E.fl
  have hp : Serder.pre s = .ok q := (C55_pre s q).mpr hb.names
  refine ⟨hb.keys, serialized_of_incepted hb hs, inception_addressed hH (hr []) hb.reports hp (prefixer_of hb.saider) (hb.verifies none), hb.reports, ?_, hb.names,
    hb.said, ?_, ?_, ?_, ?_, ?_, hr⟩
  all_goals
    try unfold HasText
    try unfold HasTexts
    rw [hb.fields _ (by decide) (by decide) (by decide)]
    simp [field, vcpDoc]

/-- C75: an issuer has only one registry: whoever builds one for it, and whenever, gets the same event. -/
theorem C75_single (E E' : Env) (hE : SameCode E E') (issuer : Str) : registryIncept E issuer = registryIncept E' issuer := by
  cases E; cases E'; obtain ⟨rfl, rfl, rfl, rfl⟩ := hE; rfl

/-- C75: two issuers do not have the same registry, unless the texts digested for the two are different and have the same digest. -/
theorem C75_distinct (E : Env) (hH : HashOk E.H) (a b q : Str) (s s' : Sad) (h : registryIncept E a = .ok (q, s)) (h' : registryIncept E b = .ok (q, s'))
    (hs : Sendable s) (hs' : Sendable s') : a = b ∨ Collision E.H (str% "E") (EventText s) (EventText s') := by
  obtain ⟨-, -, k1, k2, -, -, -, k3, -⟩ := C75_registry E hH a q s h hs
  obtain ⟨-, -, l1, l2, -, -, -, l3, -⟩ := C75_registry E hH b q s' h' hs'
  have ho : ∀ {a q : Str} {s : Sad}, registryIncept E a = .ok (q, s) → Sendable s → Ordinary s := by
    intro a q s h hs
    obtain ⟨vs, hb⟩ := registry_ok h
    obtain ⟨o', ho', hv⟩ := hb.first
    exact ⟨o', ho', hv, ho' ▸ plain_decimal hs.plain⟩
  rcases same_content (byContent_icp k1 (ho h hs)) (byContent_icp l1 (ho h' hs')) k2 l2 with hc | hc
  · exact .inr hc
  · left
    have := hc (str% "ii") (by decide) (by decide)
    unfold HasText at k3 l3
    rw [k3, l3] at this
    exact Value.str.inj (Option.some.inj this)

/-- C75: the interaction that the library builds to anchor a transaction event seals it. -/
theorem C75_anchor (E : Env) (pre dig : Str) (sn : Option Nat) (version : Option Version) (kind : Option Str) (hsn : sn.getD 1 < 2 ^ 128) (e a : Sad)
    (i n d : Str) (hi : HasText (str% "i") i e) (hn : HasText (str% "s") n e) (hd : Sadder.said E.chk e = .ok d)
    (h : interact E pre dig sn (some (sealOf i n d)) version kind = .ok a) : Seals E.chk a e := by
  obtain ⟨vs, t, hb, -⟩ := interact_ok hsn h
  refine ⟨.obj [(str% "i", .str i), (str% "s", .str n), (str% "d", .str d)], i, n, d, ?_, ?_, ?_, ?_, hi, hn, hd⟩
  · rw [hb.fields _ (by decide) (by decide)]; simp [field, sealOf]
  all_goals simp [field]

theorem registry_accepts {E : Env} (hstore : ∀ st t, E.refuses st t = false) {issuer q : Str} {s : Sad} (h : registryIncept E issuer = .ok (q, s))
    (hs : Sendable s) {st : Store} (hnew : st.tels q = []) {c : M × M} {a : Sad} (hn : AnchorNamed E st issuer c a) (ha : Seals E.chk a s)
    {t : Str} (g : Str) (ht : s.raw = toUtf8 t) {fuel : Nat} {deep verify : Option Bool} (hd : Deepens E st deep fuel issuer) (hv : verify ≠ some false) :
    Accepts E (fuel + 1) deep verify st ⟨t, g, .couples [c]⟩ (st.insertTransactionEvent q (t ++ g)) := by
  obtain ⟨vs, hb⟩ := registry_ok h
  have hr := hb.reads hs.plain hs.depth hs.small E.fl []
  rw [ht] at hr
  refine ingest_transaction hstore hv (pre := q) (q := q) (ilk := str% "vcp") ht (by simpa [toUtf8] using hr) hb.reports hb.names ?_ (.inl rfl)
    fun v => registry_verifies hd h (q :: v) hn ha hnew
  unfold HasText
  rw [hb.fields _ (by decide) (by decide) (by decide)]
  simp [field, vcpDoc]

/-- C75: a verifier that has the key event in which the issuer seals the inception of its registry accepts the inception,
unless it has something for that registry already. It keeps it, and changes nothing else. If it is asked to repeat all earlier
verification, what it has for the issuer must verify again. -/
theorem C75_accepted (E : Env) (hstore : ∀ st t, E.refuses st t = false) (issuer q : Str) (s : Sad) (h : registryIncept E issuer = .ok (q, s))
    (hs : Sendable s) (st : Store) (hnew : st.tels q = []) (c : M × M) (a : Sad) (hn : AnchorNamed E st issuer c a) (ha : Seals E.chk a s)
    (t g : Str) (ht : s.raw = toUtf8 t) (fuel : Nat) (deep verify : Option Bool) (hd : Deepens E st deep fuel issuer) (hv : verify ≠ some false) :
    ∃ st', ingestLoop E (fuel + 1) deep verify st [.payload t, .group (.couples [c]) (.ok g)] [] = (st', .ok ()) ∧ OneMore st st' q (t ++ g) :=
  ⟨_, (registry_accepts hstore h hs hnew hn ha g ht hd hv).once, one_more st q _⟩

/-! ## C76 -/

/-- C76: the issuance of a credential under a registry, as the library builds it. -/
theorem C76_issue (E : Env) (hH : HashOk E.H) (S : Stretch) (rnd : Nat) (now id ri q : Str) (s : Sad) (h : vcIssue E S rnd now id ri = .ok (q, s))
    (hs : Sendable s) :
    Fields issOrder s ∧ Serialized s ∧ SelfAddressed E.H E.chk s ∧ Sadder.said E.chk s = .ok q ∧ HasText (str% "t") (str% "iss") s ∧
    HasText (str% "i") id s ∧ HasText (str% "s") (str% "0") s ∧ HasText (str% "ri") ri s ∧ HasText (str% "dt") now s ∧
    ∀ rest, Serder.newWithRaw E.fl (s.raw ++ toUtf8 rest) = .ok s := by
  obtain ⟨vs, nonce, hb, hq⟩ := issue_ok h
  have hr := hb.reads hs.plain hs.depth hs.small E.fl
  refine ⟨hb.keys, serialized_of hb hs, self_addressed hH (hr []) (hb.verifies _ _), hq, ?_, ?_, ?_, ?_, ?_, hr⟩
  all_goals
    unfold HasText
    rw [hb.fields _ (by decide) (by decide)]
    simp [field]

/-- C76: its revocation. -/
theorem C76_revoke (E : Env) (hH : HashOk E.H) (S : Stretch) (rnd : Nat) (now id ri prior q : Str) (s : Sad)
    (h : vcRevoke E S rnd now id ri prior = .ok (q, s)) (hs : Sendable s) :
    Fields revOrder s ∧ Serialized s ∧ SelfAddressed E.H E.chk s ∧ Sadder.said E.chk s = .ok q ∧ HasText (str% "t") (str% "rev") s ∧
    HasText (str% "i") id s ∧ HasText (str% "s") (str% "1") s ∧ HasText (str% "ri") ri s ∧ HasText (str% "p") prior s ∧ HasText (str% "dt") now s ∧
    ∀ rest, Serder.newWithRaw E.fl (s.raw ++ toUtf8 rest) = .ok s := by
  obtain ⟨vs, nonce, hb, hq⟩ := revoke_ok h
  have hr := hb.reads hs.plain hs.depth hs.small E.fl
  refine ⟨hb.keys, serialized_of hb hs, self_addressed hH (hr []) (hb.verifies _ _), hq, ?_, ?_, ?_, ?_, ?_, ?_, hr⟩
  all_goals
    unfold HasText
    rw [hb.fields _ (by decide) (by decide)]
    simp [field]

theorem issued_accepts {E : Env} (hstore : ∀ st t, E.refuses st t = false) {S : Stretch} {rnd : Nat} {now id ri q issuer : Str} {s : Sad}
    (h : vcIssue E S rnd now id ri = .ok (q, s)) (hs : Sendable s) {m : M} (hm : Matter.newWithQb64 id = .ok m) {st : Store} (hnew : st.tels id = [])
    (hc : Controller E st ri issuer) {c : M × M} {a : Sad} (hn : AnchorNamed E st issuer c a) (ha : Seals E.chk a s) {t : Str} (g : Str) (ht : s.raw = toUtf8 t)
    {fuel : Nat} {deep verify : Option Bool} (hd : Deepens E st deep fuel issuer) (hv : verify ≠ some false) :
    Accepts E (fuel + 1) deep verify st ⟨t, g, .couples [c]⟩ (st.insertTransactionEvent id (t ++ g)) := by
  obtain ⟨vs, nonce, hb, hq⟩ := issue_ok h
  have hr := hb.reads hs.plain hs.depth hs.small E.fl []
  rw [ht] at hr
  refine ingest_transaction hstore hv (pre := id) (q := q) (ilk := str% "iss") ht (by simpa [toUtf8] using hr) hq ?_ ?_ (.inr (.inl rfl))
    fun v => (issue_verifies hd h hm hc (q :: v) hn ha).imp fun w hw => hw.1 hnew
  all_goals
    unfold HasText
    rw [hb.fields _ (by decide) (by decide)]
    simp [field]

/-- C76: a verifier that has the registry, and the key event in which its controller seals the issuance, accepts the
issuance of a credential it knows nothing of. -/
theorem C76_issued (E : Env) (hstore : ∀ st t, E.refuses st t = false) (S : Stretch) (rnd : Nat) (now id ri q issuer : Str) (s : Sad)
    (h : vcIssue E S rnd now id ri = .ok (q, s)) (hs : Sendable s) (m : M) (hm : Matter.newWithQb64 id = .ok m) (st : Store) (hnew : st.tels id = [])
    (hc : Controller E st ri issuer) (c : M × M) (a : Sad) (hn : AnchorNamed E st issuer c a) (ha : Seals E.chk a s) (t g : Str) (ht : s.raw = toUtf8 t)
    (fuel : Nat) (deep verify : Option Bool) (hd : Deepens E st deep fuel issuer) (hv : verify ≠ some false) :
    ∃ st', ingestLoop E (fuel + 1) deep verify st [.payload t, .group (.couples [c]) (.ok g)] [] = (st', .ok ()) ∧ OneMore st st' id (t ++ g) :=
  ⟨_, (issued_accepts hstore h hs hm hnew hc hn ha g ht hd hv).once, one_more st id _⟩

theorem revoked_accepts {E : Env} (hstore : ∀ st t, E.refuses st t = false) {S S' : Stretch} {rnd rnd' : Nat} {now now' id ri prior q issuer : Str} {s e : Sad}
    (h : vcRevoke E S rnd now id ri prior = .ok (q, s)) (hs : Sendable s) {m : M} (hm : Matter.newWithQb64 id = .ok m) {st : Store}
    (hissue : vcIssue E S' rnd' now' id ri = .ok (prior, e)) (he : Sendable e) {te ge : Str} (hte : e.raw = toUtf8 te) (hst : st.tels id = [te ++ ge])
    (hc : Controller E st ri issuer) {c ce : M × M} {a ae : Sad} (hn : AnchorNamed E st issuer c a) (ha : Seals E.chk a s)
    (hne : AnchorNamed E st issuer ce ae) (hae : Seals E.chk ae e) {t : Str} (g : Str) (ht : s.raw = toUtf8 t)
    {fuel : Nat} {deep verify : Option Bool} (hd : Deepens E st deep fuel issuer) (hread : deep ≠ some false → ReadsAs E ge (.couples [ce])) (hv : verify ≠ some false) :
    Accepts E (fuel + 2) deep verify st ⟨t, g, .couples [c]⟩ (st.insertTransactionEvent id (t ++ g)) := by
  obtain ⟨vs, nonce, hb, hq⟩ := revoke_ok h
  obtain ⟨vs', nonce', hb', hq'⟩ := issue_ok hissue
  have hr := hb.reads hs.plain hs.depth hs.small E.fl []
  rw [ht] at hr
  have hr' := hb'.reads he.plain he.depth he.small E.fl ge
  rw [hte, ← toUtf8_append] at hr'
  refine ingest_transaction hstore hv (pre := id) (q := q) (ilk := str% "rev") ht (by simpa [toUtf8] using hr) hq ?_ ?_ (.inr (.inr rfl))
    fun v => revoke_verifies (fuel := fuel + 1) (hd.up (Nat.le_succ _)) h hm hc (q :: v) hn ha hst hr' hq' (by
      intro hdn
      refine ⟨[ce], ?_, fun v => (issue_verifies hd hissue hm hc v hne hae).imp fun w hw => hw.2 _ (by rw [hst]; rfl) hr'⟩
      unfold attachedCouples
      rw [attached_of hte (hread hdn), Res.ok_bind])
  all_goals
    unfold HasText
    rw [hb.fields _ (by decide) (by decide)]
    simp [field]

/-- C76: a verifier that has the issuance, the registry and the key event in which its controller seals the revocation, accepts
the revocation. Unless told otherwise it verifies the issuance again, and what it kept with the issuance has to be read back as
the couple that was received. -/
theorem C76_revoked (E : Env) (hstore : ∀ st t, E.refuses st t = false) (S S' : Stretch) (rnd rnd' : Nat) (now now' id ri prior q issuer : Str) (s e : Sad)
    (h : vcRevoke E S rnd now id ri prior = .ok (q, s)) (hs : Sendable s) (m : M) (hm : Matter.newWithQb64 id = .ok m) (st : Store)
    (hissue : vcIssue E S' rnd' now' id ri = .ok (prior, e)) (he : Sendable e) (te ge : Str) (hte : e.raw = toUtf8 te) (hst : st.tels id = [te ++ ge])
    (hc : Controller E st ri issuer) (c ce : M × M) (a ae : Sad) (hn : AnchorNamed E st issuer c a) (ha : Seals E.chk a s)
    (hne : AnchorNamed E st issuer ce ae) (hae : Seals E.chk ae e) (t g : Str) (ht : s.raw = toUtf8 t)
    (fuel : Nat) (deep verify : Option Bool) (hd : Deepens E st deep fuel issuer) (hread : deep ≠ some false → ReadsAs E ge (.couples [ce])) (hv : verify ≠ some false) :
    ∃ st', ingestLoop E (fuel + 2) deep verify st [.payload t, .group (.couples [c]) (.ok g)] [] = (st', .ok ()) ∧ OneMore st st' id (t ++ g) :=
  ⟨_, (revoked_accepts hstore h hs hm hissue he hte hst hc hn ha hne hae g ht hd hread hv).once, one_more st id _⟩

/-! ## Registries, issuances and revocations in the small world -/

/-- The text of a field. -/
def World.textAt (k : Str) (v : Value) : Option Str :=
  match field k v with
  | some (.str t) => some t
  | _ => none

theorem World.textAt_ok {k t : Str} {v : Value} (h : World.textAt k v = some t) : field k v = some (.str t) := by
  unfold World.textAt at h
  split at h
  · rename_i t' ht
    cases h
    exact ht
  · cases h

/-- A check that an event `Seals` another. -/
def World.seals (a e : Sad) : Bool :=
  match field (str% "a") a.ked with
  | some (.arr [sl]) =>
    match World.textAt (str% "i") sl, World.textAt (str% "s") sl, World.textAt (str% "d") sl with
    | some i, some n, some d => World.textAt (str% "i") e.ked == some i && World.textAt (str% "s") e.ked == some n &&
        World.holds (Sadder.said true e) fun q => decide (q = d)
    | _, _, _ => false
  | _ => false

theorem World.seals_ok {a e : Sad} (h : World.seals a e = true) : Seals true a e := by
  unfold World.seals at h
  split at h
  · rename_i sl hsl
    split at h
    · rename_i i n d hi hn hd
      rw [Bool.and_eq_true, Bool.and_eq_true, beq_iff_eq, beq_iff_eq] at h
      obtain ⟨q, hq, h3⟩ := World.holds_ok h.2
      have h3 := of_decide_eq_true h3
      subst h3
      exact ⟨sl, i, n, q, hsl, World.textAt_ok hi, World.textAt_ok hn, World.textAt_ok hd, World.textAt_ok h.1.1, World.textAt_ok h.1.2, hq⟩
    · cases h
  · cases h

/-- A check that a couple `AnchorNamed` an event that seals another. -/
def World.anchored (st : Store) (issuer : Str) (c : M × M) (e : Sad) : Bool :=
  World.holds (Seqner.sn c.1) fun n => decide (n < 2 ^ 32) &&
  World.holds (Res.ofOption .storage (st.kels issuer)[n]?) fun t => World.holds (Serder.newWithRaw (World.env []).fl (toUtf8 t)) fun a =>
  World.holds (Sadder.said true a) fun q => World.holds (Matter.qb64 true c.2) fun q' => decide (q' = q) && World.seals a e

theorem World.anchored_ok {st : Store} {issuer : Str} {c : M × M} {e : Sad} (h : World.anchored st issuer c e = true) (l : List Msg) :
    ∃ a, AnchorNamed (World.env l) st issuer c a ∧ Seals true a e := by
  unfold World.anchored at h
  obtain ⟨n, h1, h⟩ := World.holds_ok h
  rw [Bool.and_eq_true, decide_eq_true_eq] at h
  obtain ⟨h2, h⟩ := h
  obtain ⟨t, h3, h⟩ := World.holds_ok h
  obtain ⟨a, h4, h⟩ := World.holds_ok h
  obtain ⟨q, h5, h⟩ := World.holds_ok h
  obtain ⟨q', h6, h⟩ := World.holds_ok h
  rw [Bool.and_eq_true, decide_eq_true_eq] at h
  obtain ⟨h7, h8⟩ := h
  subst h7
  exact ⟨a, ⟨n, t, q', h2, h1, Res.ofOption_eq_ok.mp h3, h4, h5, h6⟩, World.seals_ok h8⟩

/-- A check that an identifier is the `Controller` of a registry. -/
def World.controls (st : Store) (ri issuer : Str) : Bool :=
  World.holds (Res.ofOption .storage (st.tels ri)[0]?) fun t => World.holds (Serder.newWithRaw (World.env []).fl (toUtf8 t)) fun r =>
    World.textAt (str% "ii") r.ked == some issuer

theorem World.controls_ok {st : Store} {ri issuer : Str} (h : World.controls st ri issuer = true) (l : List Msg) : Controller (World.env l) st ri issuer := by
  unfold World.controls at h
  obtain ⟨t, h1, h⟩ := World.holds_ok h
  obtain ⟨r, h2, h⟩ := World.holds_ok h
  exact ⟨t, r, Res.ofOption_eq_ok.mp h1, h2, World.textAt_ok (beq_iff_eq.mp h)⟩

/-- The couple that names an event. -/
def World.couple (a : Res Sad) : Res (M × M) := do
  let a ← a
  let n ← Serder.sn a
  let d ← Sadder.said true a
  let q ← Seqner.newWithSn n
  let m ← Matter.newWithQb64 d
  .ok (q, m)

def World.vcpCase : Bool :=
  World.holds (World.icpA >>= Serder.pre) fun issuer => World.holds (World.inRow [World.signed (World.ks [1]) World.icpA, World.signed (World.ks [1]) World.ixnA]) fun l =>
  World.holds (World.couple World.ixnA) fun c => World.holds (registryIncept (World.env []) issuer) fun r =>
    World.sendable r.2 && decide ((World.kept l).tels r.1 = []) && World.anchored (World.kept l) issuer c r.2

example : ∃ issuer q s st c a, registryIncept (World.env []) issuer = .ok (q, s) ∧ Sendable s ∧ st.tels q = [] ∧ AnchorNamed (World.env []) st issuer c a ∧
    Seals true a s ∧ HashOk (World.env []).H ∧ ∀ st t, (World.env []).refuses st t = false := by
  have h : World.vcpCase = true := by decide +kernel
  unfold World.vcpCase at h
  obtain ⟨issuer, -, h⟩ := World.holds_ok h
  obtain ⟨l, -, h⟩ := World.holds_ok h
  obtain ⟨c, -, h⟩ := World.holds_ok h
  obtain ⟨⟨q, s⟩, h1, h⟩ := World.holds_ok h
  rw [Bool.and_eq_true, Bool.and_eq_true] at h
  obtain ⟨a, h4, h5⟩ := World.anchored_ok h.2 []
  exact ⟨issuer, q, s, _, c, a, h1, World.sendable_ok h.1.1, of_decide_eq_true h.1.2, h4, h5, World.hash_ok, fun _ _ => rfl⟩

def World.revCase : Bool :=
  World.holds (World.icpA >>= Serder.pre) fun issuer => World.holds (World.vcpA >>= Serder.pre) fun ri => World.holds (World.credA >>= Sadder.said true) fun id =>
  World.holds (World.inRow (World.issued ++ [World.signed (World.ks [1]) World.ixnA3])) fun l => World.holds (World.coupled World.issA World.ixnA2) fun p =>
  World.holds p.1.payloadText fun te => World.holds p.2.cesrGroup fun g => World.holds g.2 fun ge =>
  World.holds (World.couple World.ixnA3) fun c => World.holds (World.couple World.ixnA2) fun ce =>
  World.holds (vcIssue (World.env []) World.stretch 3 (str% "2023-01-01T00:00:00.000000+00:00") id ri) fun i =>
  World.holds (vcRevoke (World.env []) World.stretch 4 (str% "2023-01-02T00:00:00.000000+00:00") id ri i.1) fun r =>
  World.holds (Matter.newWithQb64 id) fun _ =>
    World.sendable r.2 && World.sendable i.2 && decide (i.2.raw = toUtf8 te) && decide ((World.kept l).tels id = [te ++ ge]) &&
    World.controls (World.kept l) ri issuer && World.anchored (World.kept l) issuer c r.2 && World.anchored (World.kept l) issuer ce i.2

example : ∃ E issuer ri id m st te ge c ce a ae prior e q s,
    vcIssue E World.stretch 3 (str% "2023-01-01T00:00:00.000000+00:00") id ri = .ok (prior, e) ∧ Sendable e ∧ e.raw = toUtf8 te ∧
    vcRevoke E World.stretch 4 (str% "2023-01-02T00:00:00.000000+00:00") id ri prior = .ok (q, s) ∧ Sendable s ∧
    Matter.newWithQb64 id = .ok m ∧ st.tels id = [te ++ ge] ∧ Controller E st ri issuer ∧ AnchorNamed E st issuer c a ∧ Seals E.chk a s ∧
    AnchorNamed E st issuer ce ae ∧ Seals E.chk ae e ∧ ReadsAs E ge (.couples [ce]) ∧ ∀ st t, E.refuses st t = false := by
  have h : World.revCase = true := by decide +kernel
  unfold World.revCase at h
  obtain ⟨issuer, -, h⟩ := World.holds_ok h
  obtain ⟨ri, -, h⟩ := World.holds_ok h
  obtain ⟨id, -, h⟩ := World.holds_ok h
  obtain ⟨l, -, h⟩ := World.holds_ok h
  obtain ⟨p, -, h⟩ := World.holds_ok h
  obtain ⟨te, -, h⟩ := World.holds_ok h
  obtain ⟨g, -, h⟩ := World.holds_ok h
  obtain ⟨ge, -, h⟩ := World.holds_ok h
  obtain ⟨c, -, h⟩ := World.holds_ok h
  obtain ⟨ce, -, h⟩ := World.holds_ok h
  obtain ⟨⟨prior, e⟩, h1, h⟩ := World.holds_ok h
  obtain ⟨⟨q, s⟩, h2, h⟩ := World.holds_ok h
  obtain ⟨m, h3, h⟩ := World.holds_ok h
  simp only [Bool.and_eq_true] at h
  obtain ⟨⟨⟨⟨⟨⟨k1, k2⟩, k3⟩, k4⟩, k5⟩, k6⟩, k7⟩ := h
  obtain ⟨a, n1, s1⟩ := World.anchored_ok k6 [.group (.couples [ce]) (.ok ge)]
  obtain ⟨ae, n2, s2⟩ := World.anchored_ok k7 [.group (.couples [ce]) (.ok ge)]
  exact ⟨World.env [.group (.couples [ce]) (.ok ge)], issuer, ri, id, m, World.kept l, te, ge, c, ce, a, ae, prior, e, q, s, h1, World.sendable_ok k2, of_decide_eq_true k3, h2, World.sendable_ok k1, h3, of_decide_eq_true k4,
    World.controls_ok k5 _, n1, s1, n2, s2, ⟨_, _, rfl⟩, fun _ _ => rfl⟩

end Keride.Props
