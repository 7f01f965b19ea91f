/-
C93: issuers at work whose credentials rest on each other's, from their calls to the store of a verifier.
-/
import Verif.Props.Office
import Verif.Lemmas.Edges

namespace Keride.Props

open Matter Spec Sample

/-- All about a credential that was issued. -/
structure Voucher where
  issuer : Str
  ri : Str
  schema : Str
  id : Str
  t : Str
  g : Str
  now : Str
  qi : Str
  ti : Str
  gi : Str
  qe : Str
  c : Sad
  i : Sad
  ai : Sad
  sig : SadPathSig
  ci : M × M
  ks : KeySet
  est : Sad × Parts
  n : Nat
  source : Option Value

structure Vouched (E : Env) (S : Stretch) (own : Store) (logs : Str → List (Sad × Parts)) (xs : List Piece) (w : Voucher) : Prop where
  piece : (⟨w.t, w.g, .quadlets [.sadPath [w.sig]]⟩ : Piece) ∈ xs
  made : ∃ rnd now dv recipient priv rv, createAcdc E S rnd now w.schema w.issuer dv recipient priv none (some w.ri) w.source rv none none = .ok w.c
  said : Sadder.said E.chk w.c = .ok w.id
  raw : w.c.raw = toUtf8 w.t
  reads : Creder.newWithRaw E.fl (toUtf8 (w.t ++ w.g)) = .ok w.c
  issuer : HasText (str% "i") w.issuer w.c
  registry : HasText (str% "ri") w.ri w.c
  source : field (str% "e") w.c.ked = w.source
  schema : E.schema w.schema w.t = .ok true
  est : (logs w.issuer)[w.n]? = some w.est
  usable : Usable w.ks
  controls : Controls E w.ks w.est.1
  estSaid : Sadder.said E.chk w.est.1 = .ok w.qe
  proof : ProofBy E.chk w.sig w.issuer w.n w.qe
  signed : ∃ r, MadeBy E w.ks r w.c.raw w.sig.sigers
  issued : ∃ r, vcIssue E S r w.now w.id w.ri = .ok (w.qi, w.i)
  small : w.i.raw.length < 2 ^ 32
  iraw : w.i.raw = toUtf8 w.ti
  recent : E.expired w.now = .ok false
  tel : (own.tels w.id)[0]? = some (w.ti ++ w.gi)
  ipiece : (⟨w.ti, w.gi, .couples [w.ci]⟩ : Piece) ∈ xs
  named : AnchorNamed E own w.issuer w.ci w.ai
  seals : Seals E.chk w.ai w.i
  controller : Controller E own w.ri w.issuer
  edges : ∀ v, w.source = some v → Edges v ∧ ∀ node, Node v node → ∃ q, Points E own w.issuer node q

theorem prefix_get {α : Type} {a b : List α} (h : a <+: b) {n : Nat} {x : α} (hx : a[n]? = some x) : b[n]? = some x := by
  obtain ⟨c, rfl⟩ := h
  rw [List.getElem?_append_left (List.getElem?_eq_some_iff.mp hx).1]
  exact hx

theorem points_more {E : Env} {st st' : Store} (h : ∀ t ∈ st.acdcs, t ∈ st'.acdcs) {issuer id : Str} {node : Value} (hp : Points E st issuer node id) :
    Points E st' issuer node id := by
  obtain ⟨h1, c, sub, text, ⟨t, h2, h3⟩, h4⟩ := hp
  exact ⟨h1, c, sub, text, ⟨t, h t h2, h3⟩, h4⟩

theorem controller_more {E : Env} {st st' : Store} (h : Extends st st') {ri issuer : Str} (hc : Controller E st ri issuer) : Controller E st' ri issuer := by
  obtain ⟨t, r, h1, h2⟩ := hc
  exact ⟨t, r, prefix_get (h.tels ri) h1, h2⟩

theorem anchor_more {E : Env} {st st' : Store} (h : Extends st st') {p : Str} {c : M × M} {a : Sad} (hc : AnchorNamed E st p c a) : AnchorNamed E st' p c a := by
  obtain ⟨n, t, q, h1, h2, h3, h4⟩ := hc
  exact ⟨n, t, q, h1, h2, prefix_get (h.kels p) h3, h4⟩

theorem Vouched.more {E : Env} {S : Stretch} {own own' : Store} {logs logs' : Str → List (Sad × Parts)} {xs xs' : List Piece} {w : Voucher} (h : Vouched E S own logs xs w)
    (he : Extends own own') (hl : ∀ p, logs p <+: logs' p) (hx : ∀ x ∈ xs, x ∈ xs') : Vouched E S own' logs' xs' w :=
  { h with
    piece := hx _ h.piece
    est := prefix_get (hl _) h.est
    tel := prefix_get (he.tels _) h.tel
    ipiece := hx _ h.ipiece
    named := anchor_more he h.named
    controller := controller_more he h.controller
    edges := fun v hv => ⟨(h.edges v hv).1, fun node hn =>
      let ⟨q, hq⟩ := (h.edges v hv).2 node hn
      ⟨q, points_more (fun _ ht => he.acdcs.subset ht) hq⟩⟩ }

/-- What holds of issuers at work. -/
structure Hall (E : Env) (S : Stretch) (A : Str → Option Agent) (own : Store) (logs : Str → List (Sad × Parts)) (xs : List Piece) : Prop where
  running : ∀ p a, A p = some a → (∃ said, Running E p said a.ks a.nks (own.kels p) (logs p)) ∧ ∀ x ∈ logs p, pieceOf x.2 ∈ xs
  absent : ∀ p, A p = none → own.kels p = [] ∧ logs p = []
  short : ∀ p, (own.kels p).length ≤ 2 ^ 32
  registry : ∀ p a q, A p = some a → q ∈ a.registries → Controller E own q p
  vouched : ∀ t ∈ own.acdcs, ∃ w, Vouched E S own logs xs w ∧ t = w.t ++ w.g
  unique : ∀ q, ∀ t ∈ own.acdcs, ∀ t' ∈ own.acdcs, IsCredential E q t → IsCredential E q t' → t' = t
  wellformed : ∀ x ∈ xs, x.Wellformed E.chk
  told : Told E own xs

/-- A verifier that has what the issuers have, and what it had before. -/
structure Ready (E : Env) (own : Store) (xs : List Piece) (deep : Option Bool) (st s : Store) : Prop where
  reads : deep ≠ some false → ∀ x ∈ xs, ReadsAs E x.attached x.group
  ignorant : Ignorant E own st
  merged : Merged st own s

theorem Vouched.tels {E : Env} {S : Stretch} {own : Store} {logs : Str → List (Sad × Parts)} {xs : List Piece} {w : Voucher} (h : Vouched E S own logs xs w) :
    own.tels w.id ≠ [] := by
  intro h0
  have := h.tel
  rw [h0] at this
  simp at this

theorem Vouched.credential {E : Env} {S : Stretch} {own : Store} {logs : Str → List (Sad × Parts)} {xs : List Piece} {w : Voucher} (h : Vouched E S own logs xs w) :
    IsCredential E w.id (w.t ++ w.g) := ⟨w.c, h.reads, h.said⟩

/-- The credential of a SAID that the issuers keep. -/
theorem Hall.held {E : Env} {S : Stretch} {A : Str → Option Agent} {own : Store} {logs : Str → List (Sad × Parts)} {xs : List Piece} (h : Hall E S A own logs xs)
    {id t : Str} {c : Sad} (ht : t ∈ own.acdcs) (hr : Creder.newWithRaw E.fl (toUtf8 t) = .ok c) (hq : Sadder.said E.chk c = .ok id) :
    ∃ w, Vouched E S own logs xs w ∧ w.t ++ w.g ∈ own.acdcs ∧ w.id = id ∧ w.c = c := by
  obtain ⟨w, hw, rfl⟩ := h.vouched t ht
  have h1 := hw.reads
  rw [hr] at h1
  cases h1
  have h2 := hw.said
  rw [hq] at h2
  exact ⟨w, hw, ht, (Res.ok.inj h2).symm, rfl⟩

theorem Hall.get {E : Env} {S : Stretch} {A : Str → Option Agent} {own : Store} {logs : Str → List (Sad × Parts)} {xs : List Piece} (h : Hall E S A own logs xs)
    {w : Voucher} (hw : Vouched E S own logs xs w) (hm : w.t ++ w.g ∈ own.acdcs) {deep : Option Bool} {st s : Store} (hr : Ready E own xs deep st s) :
    s.getAcdc E w.id = .ok (w.t ++ w.g) := by
  refine getAcdc_of (by rw [hr.merged.acdcs]; simp [hm]) hw.credential ?_
  intro t' ht' hc
  rw [hr.merged.acdcs] at ht'
  rcases List.mem_append.mp ht' with ht' | ht'
  · exact absurd hc (hr.ignorant.acdcs _ hw.tels t' ht')
  · exact h.unique _ _ hm _ ht' hw.credential hc

/-- A credential that is not revoked is verified wherever its edges are. -/
theorem Vouched.verifies {E : Env} {S : Stretch} (hC : CryptoOk E.C) (hH : HashOk E.H) {A : Str → Option Agent} {own : Store} {logs : Str → List (Sad × Parts)}
    {xs : List Piece} (h : Hall E S A own logs xs) {w : Voucher} (hw : Vouched E S own logs xs w) (hone : (own.tels w.id).length = 1) {deep : Option Bool} {st s : Store}
    (hr : Ready E own xs deep st s) {known : Bool} (hk : HasAcdc E s w.id known) {fuel : Nat} (hf : (own.kels w.issuer).length ≤ fuel) {nodes : List (Res Value)}
    (hnodes : edgeNodes (w.source.getD (.obj [])) = .ok nodes) (hedges : ∀ v, ∃ v', verifyEdges E s deep (fuel + 1) w.c nodes v = .ok v') (v : List Str) :
    ∃ v', verifyAcdc E s deep (fuel + 2) w.c [.sadPath [w.sig]] v = .ok (known, v') := by
  obtain ⟨a, ha⟩ : ∃ a, A w.issuer = some a := by
    cases hA : A w.issuer with
    | some a => exact ⟨a, rfl⟩
    | none =>
      have := hw.est
      rw [(h.absent _ hA).2] at this
      simp at this
  obtain ⟨⟨said, hrun⟩, hpieces⟩ := h.running _ _ ha
  have hreads := running_reads hC hH hrun (h.short _)
  have hll : ((logs w.issuer).map entryOf).length = (own.kels w.issuer).length := hreads.length_eq.symm
  have hsound := history_sound hC hH hrun.history (by have := h.short w.issuer; rw [← hll] at this; simpa using this)
  obtain ⟨hn, hest⟩ := List.getElem?_eq_some_iff.mp hw.est
  have hlen : (own.kels w.issuer).length = (logs w.issuer).length := by rw [← hll, List.length_map]
  have hne : own.kels w.issuer ≠ [] := by
    intro h0
    rw [h0] at hlen
    simp at hlen
    omega
  have hkel := hr.merged.kels _ hne
  have hsplit : (logs w.issuer).map entryOf = ((logs w.issuer).take w.n).map entryOf ++ entryOf w.est :: ((logs w.issuer).drop (w.n + 1)).map entryOf := by
    rw [← List.map_cons, ← List.map_append, ← hest, List.getElem_cons_drop, List.take_append_drop]
  have htake : (((logs w.issuer).take w.n).map entryOf).length = w.n := by
    rw [List.length_map, List.length_take]
    omega
  obtain ⟨rnd, now, dv, recipient, priv, rv, hmade⟩ := hw.made
  obtain ⟨r, hsigned⟩ := hw.signed
  obtain ⟨r', hissued⟩ := hw.issued
  have htel : own.tels w.id = [w.ti ++ w.gi] := by
    obtain ⟨x, hx⟩ := List.length_eq_one_iff.mp hone
    have := hw.tel
    rw [hx] at this ⊢
    cases this
    rfl
  have hri : own.tels w.ri ≠ [] := by
    obtain ⟨t, e, h1, -⟩ := hw.controller
    intro h0
    rw [h0] at h1
    simp at h1
  have hdeep : Deepens E s deep fuel w.issuer := by
    refine hsound.toLogged.deepens hH (by rw [List.length_map, ← hlen]; exact h.short _) fun _ => ⟨by rw [List.length_map, ← hlen]; exact hf, ?_⟩
    rw [hkel]
    exact running_keeps hrun hpieces hr.reads
  refine credential_verifies hC (st := s) (deep := deep) (fuel := fuel) hmade hw.said hw.raw hw.schema hsound (by rw [List.length_map, ← hlen]; exact h.short _) hsplit hw.usable hw.controls hw.estSaid
    (by rw [htake]; exact hw.proof) hsigned hissued (issue_sendable hissued hw.small) hw.iraw hw.recent (by rw [hkel]; exact hreads) (issuerId := w.issuer) (ai := w.ai) (ci := w.ci) ?_
    (by rw [hr.merged.tels _ hw.tels]; exact htel) ?_ hw.seals hk hdeep hdeep (fun hd => hr.reads hd _ hw.ipiece) ?_ hnodes hedges v
  · unfold Controller
    rw [hr.merged.tels _ hri]
    exact hw.controller
  · unfold AnchorNamed
    rw [hkel]
    exact hw.named
  · intro hd
    have hd : deep ≠ some false := by rw [hd]; simp
    refine ⟨w.est.2.event, w.est.2.attached, ?_, ?_, ?_⟩
    · rw [htake, hkel, hrun.texts, List.getElem?_map, hw.est]
      rfl
    · exact (hrun.parts _ (List.mem_of_getElem? hw.est)).1
    · exact hr.reads hd _ (hpieces _ (List.mem_of_getElem? hw.est))

/-- A credential that is verified again, in any store that has what the issuers have. -/
def Sure (E : Env) (own : Store) (xs : List Piece) (w : Voucher) : Prop :=
  ∃ n, ∀ deep st s, deep ≠ some false → Ready E own xs deep st s → ∀ fuel, n ≤ fuel → ∀ v, ∃ v', verifyAcdc E s deep fuel w.c [.sadPath [w.sig]] v = .ok (true, v')

/-- Edges to credentials that are verified again. -/
theorem edges_sure {E : Env} {S : Stretch} {A : Str → Option Agent} {own : Store} {logs : Str → List (Sad × Parts)} {xs : List Piece} (h : Hall E S A own logs xs)
    {issuer : Str} {c : Sad} (hi : HasText (str% "i") issuer c) {source : Option Value}
    (hE : ∀ v, source = some v → Edges v ∧ ∀ node, Node v node → ∃ q, Points E own issuer node q)
    (hS : ∀ v node q, source = some v → Node v node → field (str% "n") node = some (.str q) → ∀ w, Vouched E S own logs xs w → w.t ++ w.g ∈ own.acdcs → w.id = q →
      Sure E own xs w) :
    ∃ nodes, edgeNodes (source.getD (.obj [])) = .ok nodes ∧ ∃ n, ∀ deep st s, Ready E own xs deep st s → ∀ fuel, n ≤ fuel → ∀ v,
      ∃ v', verifyEdges E s deep fuel c nodes v = .ok v' := by
  cases source with
  | none =>
    refine ⟨[], rfl, 1, fun deep st s _ fuel hf v => ⟨v, ?_⟩⟩
    obtain ⟨f, rfl⟩ : ∃ f, fuel = f + 1 := ⟨fuel - 1, by omega⟩
    unfold verifyEdges
    rfl
  | some v0 =>
    obtain ⟨hed, hp⟩ := hE v0 rfl
    obtain ⟨nodes, hn, hall⟩ := edgeNodes_of hed
    refine ⟨_, hn, ?_⟩
    have hmax : ∀ l : List Value, (∀ node ∈ l, Node v0 node) → ∃ N, ∀ node ∈ l, ∃ w, Vouched E S own logs xs w ∧ w.t ++ w.g ∈ own.acdcs ∧ Points E own issuer node w.id ∧
        ∀ deep st s, deep ≠ some false → Ready E own xs deep st s → ∀ fuel, N ≤ fuel → ∀ v, ∃ v', verifyAcdc E s deep fuel w.c [.sadPath [w.sig]] v = .ok (true, v') := by
      intro l
      induction l with
      | nil => intro _; exact ⟨0, by simp⟩
      | cons x l ih =>
        intro hl
        obtain ⟨N, hN⟩ := ih fun y hy => hl y (by simp [hy])
        have hx := hl x (by simp)
        obtain ⟨q, hq⟩ := hp x hx
        obtain ⟨c', sub, text, ⟨t, ht, hr, hs⟩, -⟩ := hq.target
        obtain ⟨w, hw, hm, rfl, -⟩ := h.held ht hr hs
        obtain ⟨n, hsure⟩ := hS v0 x _ rfl hx hq.name w hw hm rfl
        refine ⟨max n N, ?_⟩
        intro node hnode
        rcases List.mem_cons.mp hnode with rfl | hnode
        · exact ⟨w, hw, hm, hq, fun deep st s hd hr fuel hf => hsure deep st s hd hr fuel (by omega)⟩
        · obtain ⟨w', h1, h2, h3, h4⟩ := hN node hnode
          exact ⟨w', h1, h2, h3, fun deep st s hd hr fuel hf => h4 deep st s hd hr fuel (by omega)⟩
    obtain ⟨N, hN⟩ := hmax nodes hall
    refine ⟨N + nodes.length + 1, ?_⟩
    intro deep st s hr fuel hf v
    refine verifyEdges_of nodes ?_ hf v
    intro node hnode
    obtain ⟨w, hw, hm, hq, hsure⟩ := hN node hnode
    obtain ⟨c', sub, text, ⟨t, ht, hr', hs⟩, h1, h2, h3, h4⟩ := hq.target
    have he := h.unique _ _ hm _ ht hw.credential ⟨c', hr', hs⟩
    subst he
    have hc := hw.reads
    rw [hr'] at hc
    cases hc
    refine ⟨w.id, w.t ++ w.g, w.c, checkEdge_of hi hq.name (h.get hw hm hr) hw.reads h1 h2 h3 h4, ?_⟩
    intro hd
    have hdn : deep ≠ some false := by
      rintro rfl
      simp at hd
    refine ⟨[.sadPath [w.sig]], ?_, fun fuel hf v => ?_⟩
    · unfold attachedQuadlets
      rw [attached_of hw.raw (hr.reads hdn _ hw.piece), Res.ok_bind]
    · obtain ⟨v', h5⟩ := hsure deep st s hdn hr fuel hf v
      exact ⟨true, v', h5⟩

/-- Credentials that stand are verified again. -/
theorem standing_sure {E : Env} {S : Stretch} (hC : CryptoOk E.C) (hH : HashOk E.H) {A : Str → Option Agent} {own : Store} {logs : Str → List (Sad × Parts)} {xs : List Piece}
    (h : Hall E S A own logs xs) {id : Str} (hs : Standing E own id) : ∀ w, Vouched E S own logs xs w → w.t ++ w.g ∈ own.acdcs → w.id = id → Sure E own xs w := by
  induction hs with
  | intro id c kept issued sources ih =>
    intro w hw hm hid
    subst hid
    obtain ⟨t, ht, hr, hq⟩ := kept
    have he := h.unique _ _ hm _ ht hw.credential ⟨c, hr, hq⟩
    subst he
    have hc := hw.reads
    rw [hr] at hc
    cases hc
    obtain ⟨nodes, hnodes, n, hn⟩ := edges_sure h hw.issuer (source := w.source) hw.edges (fun v node q hv hnode hname w' hw' hm' hid =>
      ih v node q (by rw [hw.source]; exact hv) hnode hname w' hw' hm' hid)
    refine ⟨n + (own.kels w.issuer).length + 2, ?_⟩
    intro deep st s _ hready fuel hf v
    obtain ⟨f, rfl⟩ : ∃ f, fuel = f + 2 := ⟨fuel - 2, by omega⟩
    refine hw.verifies hC hH h issued hready ?_ (by omega) hnodes (hn deep st s hready (f + 1) (by omega)) v
    unfold HasAcdc
    rw [if_pos rfl]
    exact ⟨_, _, h.get hw hm hready, hw.reads, hw.said⟩

/-! ## Deliveries -/

/-- What is to be shown of the messages. -/
def Carries (E : Env) (own : Store) (xs : List Piece) : Prop :=
  ∃ n, ∀ (st : Store) (fuel : Nat) (deep verify : Option Bool), n ≤ fuel → verify ≠ some false →
    (deep ≠ some false → ∀ x ∈ xs, ReadsAs E x.attached x.group) → Ignorant E own st → ∃ s, Flows E fuel deep verify st xs s ∧ Merged st own s

theorem Carries.more {E : Env} {own own' : Store} {xs ys : List Piece} (h : Carries E own xs) (hk : ∀ p, own.kels p ≠ [] → own'.kels p ≠ [])
    (ht : ∀ q, own.tels q ≠ [] → own'.tels q ≠ [])
    (hs : ∃ n, ∀ (st s : Store) (fuel : Nat) (deep verify : Option Bool), n ≤ fuel → verify ≠ some false → (deep ≠ some false → ∀ x ∈ xs ++ ys, ReadsAs E x.attached x.group) →
      Ignorant E own' st → Ready E own xs deep st s → ∃ s', Flows E fuel deep verify s ys s' ∧ Merged st own' s') :
    Carries E own' (xs ++ ys) := by
  obtain ⟨n, h⟩ := h
  obtain ⟨n', hs⟩ := hs
  refine ⟨max n n', ?_⟩
  intro st fuel deep verify hf hv hr hi
  have hi' : Ignorant E own st := ⟨fun p hp => hi.kels p (hk p hp), fun q hq => hi.tels q (ht q hq), fun q hq => hi.acdcs q (ht q hq)⟩
  have hr' : deep ≠ some false → ∀ x ∈ xs, ReadsAs E x.attached x.group := fun e x hx => hr e x (by simp [hx])
  obtain ⟨s, h1, h2⟩ := h st fuel deep verify (by omega) hv hr' hi'
  obtain ⟨s', h3, h4⟩ := hs st s fuel deep verify (by omega) hv hr hi ⟨hr', hi', h2⟩
  exact ⟨s', flows_append h1 h3, h4⟩

theorem merged_more {st own s own' s' : Store} (h : Merged st own s)
    (hk : ∀ q, (own'.kels q = own.kels q ∧ s'.kels q = s.kels q) ∨ (own'.kels q ≠ [] ∧ s'.kels q = own'.kels q))
    (ht : ∀ q, (own'.tels q = own.tels q ∧ s'.tels q = s.tels q) ∨ (own'.tels q ≠ [] ∧ s'.tels q = own'.tels q))
    (ha : ∃ cs, own'.acdcs = own.acdcs ++ cs ∧ s'.acdcs = s.acdcs ++ cs) : Merged st own' s' := by
  refine ⟨?_, ?_, ?_, ?_, ?_⟩
  · intro p hp
    rcases hk p with ⟨h1, h2⟩ | ⟨-, h2⟩
    · rw [h1] at hp ⊢
      rw [h2, h.kels p hp]
    · exact h2
  · intro p hp
    rcases hk p with ⟨h1, h2⟩ | ⟨h1, -⟩
    · rw [h1] at hp
      rw [h2, h.otherKels p hp]
    · exact absurd hp h1
  · intro p hp
    rcases ht p with ⟨h1, h2⟩ | ⟨-, h2⟩
    · rw [h1] at hp ⊢
      rw [h2, h.tels p hp]
    · exact h2
  · intro p hp
    rcases ht p with ⟨h1, h2⟩ | ⟨h1, -⟩
    · rw [h1] at hp
      rw [h2, h.otherTels p hp]
    · exact absurd hp h1
  · obtain ⟨cs, h1, h2⟩ := ha
    rw [h1, h2, h.acdcs, List.append_assoc]

/-- What holds goes on to hold when there is more, other than credentials. -/
theorem Hall.grow {E : Env} {S : Stretch} {A A' : Str → Option Agent} {own own' : Store} {logs logs' : Str → List (Sad × Parts)} {xs xs' : List Piece}
    (h : Hall E S A own logs xs) (he : Extends own own') (ha : own'.acdcs = own.acdcs) (hl : ∀ p, logs p <+: logs' p) (hx : ∀ x ∈ xs, x ∈ xs')
    (running : ∀ p a, A' p = some a → (∃ said, Running E p said a.ks a.nks (own'.kels p) (logs' p)) ∧ ∀ x ∈ logs' p, pieceOf x.2 ∈ xs')
    (absent : ∀ p, A' p = none → own'.kels p = [] ∧ logs' p = []) (short : ∀ p, (own'.kels p).length ≤ 2 ^ 32)
    (registry : ∀ p a q, A' p = some a → q ∈ a.registries → Controller E own' q p) (wellformed : ∀ x ∈ xs', x.Wellformed E.chk) (told : Told E own' xs') :
    Hall E S A' own' logs' xs' := by
  refine ⟨running, absent, short, registry, ?_, ?_, wellformed, told⟩
  · intro t ht
    rw [ha] at ht
    obtain ⟨w, hw, e⟩ := h.vouched t ht
    exact ⟨w, hw.more he hl hx, e⟩
  · rw [ha]
    exact h.unique

theorem prefix_self_append {α : Type} (a b : List α) : a <+: a ++ b := ⟨b, rfl⟩

theorem extends_kel {own : Store} {p m : Str} : Extends own (own.insertKeyEvent p m) := by
  refine ⟨fun q => ?_, fun _ => List.prefix_refl _, List.prefix_refl _⟩
  by_cases hq : q = p
  · subst hq
    rw [insert_kels]
    exact prefix_self_append _ _
  · rw [insert_kels_ne hq]

theorem extends_tel {own : Store} {p m : Str} : Extends own (own.insertTransactionEvent p m) := by
  refine ⟨fun _ => List.prefix_refl _, fun q => ?_, List.prefix_refl _⟩
  by_cases hq : q = p
  · subst hq
    rw [insert_tels]
    exact prefix_self_append _ _
  · rw [insert_tels_ne hq]

/-- The logs, with one more event in one of them. -/
def addLog (logs : Str → List (Sad × Parts)) (p : Str) (x : Sad × Parts) : Str → List (Sad × Parts) := fun q => if q = p then logs p ++ [x] else logs q

theorem addLog_same {logs : Str → List (Sad × Parts)} {p : Str} {x : Sad × Parts} : addLog logs p x p = logs p ++ [x] := if_pos rfl

theorem addLog_ne {logs : Str → List (Sad × Parts)} {p q : Str} {x : Sad × Parts} (h : q ≠ p) : addLog logs p x q = logs q := if_neg h

theorem put_same {A : Str → Option Agent} {p : Str} {a : Agent} : put A p a p = some a := if_pos rfl

theorem put_ne {A : Str → Option Agent} {p q : Str} {a : Agent} (h : q ≠ p) : put A p a q = A q := if_neg h

theorem put_self {A : Str → Option Agent} {p : Str} {a : Agent} (h : A p = some a) : put A p a = A := by
  funext q
  by_cases hq : q = p
  · subst hq; rw [put_same, h]
  · rw [put_ne hq]

/-- A key event that an issuer adds to its log, whatever it is. -/
theorem hall_event {E : Env} {S : Stretch} (hC : CryptoOk E.C) (hH : HashOk E.H) {A : Str → Option Agent} {own : Store} {logs : Str → List (Sad × Parts)} {xs : List Piece} (h : Hall E S A own logs xs)
    {p said m : Str} {a : Agent} {s : Sad} {z : Parts} (hreg : ∀ q ∈ a.registries, Controller E own q p) (hl : ∀ x ∈ logs p, pieceOf x.2 ∈ xs)
    (hr : Running E p said a.ks a.nks (own.kels p ++ [m]) (logs p ++ [(s, z)])) (hlen : (own.kels p).length < 2 ^ 32) :
    Hall E S (put A p a) (own.insertKeyEvent p m) (addLog logs p (s, z)) (xs ++ [pieceOf z]) := by
  refine h.grow extends_kel rfl ?_ (fun x hx => by simp [hx]) ?_ ?_ ?_ ?_ ?_
    (h.told.more extends_kel (mark_event hC hH hr (by simp; omega)) (fun h0 => by unfold Occupied at h0; omega) (by unfold Occupied; dsimp only; rw [insert_kels]; simp))
  · intro q
    by_cases hq : q = p
    · subst hq; rw [addLog_same]; exact prefix_self_append _ _
    · rw [addLog_ne hq]
  · intro q b hb
    by_cases hq : q = p
    · subst hq
      rw [put_same] at hb
      cases hb
      rw [insert_kels, addLog_same]
      refine ⟨⟨said, hr⟩, ?_⟩
      intro x hx
      rcases List.mem_append.mp hx with hx | hx
      · exact List.mem_append_left _ (hl x hx)
      · rw [List.mem_singleton.mp hx]; simp
    · rw [put_ne hq] at hb
      rw [insert_kels_ne hq, addLog_ne hq]
      obtain ⟨h1, h2⟩ := h.running q b hb
      exact ⟨h1, fun x hx => List.mem_append_left _ (h2 x hx)⟩
  · intro q hb
    by_cases hq : q = p
    · subst hq
      rw [put_same] at hb
      cases hb
    · rw [put_ne hq] at hb
      rw [insert_kels_ne hq, addLog_ne hq]
      exact h.absent q hb
  · intro q
    by_cases hq : q = p
    · subst hq
      rw [insert_kels, List.length_append, List.length_singleton]
      omega
    · rw [insert_kels_ne hq]
      exact h.short q
  · intro q b r hb hr
    refine controller_more extends_kel ?_
    by_cases hq : q = p
    · subst hq
      rw [put_same] at hb
      cases hb
      exact hreg r hr
    · rw [put_ne hq] at hb
      exact h.registry q b r hb hr
  · intro x hx
    rcases List.mem_append.mp hx with hx | hx
    · exact h.wellformed x hx
    · rw [List.mem_singleton.mp hx]
      exact .event z (running_document hr (by have := congrArg List.length hr.texts; simp at this hlen ⊢; omega) (s, z) (by simp)) (hr.parts (s, z) (by simp)).2

/-- What a verifier has of an issuer whose log is about to grow. -/
theorem ready_kels {E : Env} {own own' : Store} {xs : List Piece} {deep : Option Bool} {st s : Store} (hr : Ready E own xs deep st s) (hi : Ignorant E own' st) {p : Str}
    (hp : own'.kels p ≠ []) : s.kels p = own.kels p := by
  by_cases h0 : own.kels p = []
  · rw [hr.merged.otherKels p h0, hi.kels p hp, h0]
  · exact hr.merged.kels p h0

theorem ready_tels {E : Env} {own own' : Store} {xs : List Piece} {deep : Option Bool} {st s : Store} (hr : Ready E own xs deep st s) (hi : Ignorant E own' st) {q : Str}
    (hq : own'.tels q ≠ []) : s.tels q = own.tels q := by
  by_cases h0 : own.tels q = []
  · rw [hr.merged.otherTels q h0, hi.tels q hq, h0]
  · exact hr.merged.tels q h0

theorem insert_kels_mono {own : Store} {p m : Str} (q : Str) (h : own.kels q ≠ []) : (own.insertKeyEvent p m).kels q ≠ [] := by
  by_cases hq : q = p
  · subst hq; rw [insert_kels]; simp
  · rw [insert_kels_ne hq]; exact h

theorem insert_tels_mono {own : Store} {p m : Str} (q : Str) (h : own.tels q ≠ []) : (own.insertTransactionEvent p m).tels q ≠ [] := by
  by_cases hq : q = p
  · subst hq; rw [insert_tels]; simp
  · rw [insert_tels_ne hq]; exact h

theorem carries_event {E : Env} (hC : CryptoOk E.C) (hH : HashOk E.H) (hstore : ∀ st t, E.refuses st t = false) {own : Store} {l : List (Sad × Parts)}
    {xs : List Piece} (h : Carries E own xs) {p said m : Str} {ks nks : KeySet} {s : Sad} {z : Parts}
    (hreads : List.Forall₂ (Reads E.fl) (own.kels p) (l.map entryOf)) (hr : Running E p said ks nks (own.kels p ++ [m]) (l ++ [(s, z)]))
    (hl : ∀ x ∈ l, pieceOf x.2 ∈ xs) (hlen : (own.kels p).length < 2 ^ 32) : Carries E (own.insertKeyEvent p m) (xs ++ [pieceOf z]) := by
  refine h.more insert_kels_mono (fun _ hq => hq) ⟨(own.kels p).length + 2, ?_⟩
  intro st v fuel deep verify hf hv hread hi hready
  obtain ⟨f, rfl⟩ : ∃ f, fuel = f + 2 := ⟨fuel - 2, by omega⟩
  have hk := ready_kels hready hi (p := p) (by rw [insert_kels]; simp)
  obtain ⟨v', g1, g2, g3, g4, g5⟩ := event_taken hC hH hstore hr (by simp; omega) (by rw [hk]; exact hreads) f deep verify (by
    intro hdd
    refine ⟨by simp; omega, ?_⟩
    rw [hk]
    exact running_drop hr hl hready.reads) hv
  refine ⟨v', flows_one g1, merged_more hready.merged ?_ (fun q => .inl ⟨rfl, by rw [g4]⟩) ⟨[], by simp [Store.insertKeyEvent], by rw [g5]; simp⟩⟩
  intro q
  by_cases hq : q = p
  · subst hq
    exact .inr ⟨by rw [insert_kels]; simp, by rw [g2, hk, insert_kels]⟩
  · exact .inl ⟨insert_kels_ne hq, g3 q hq⟩

/-- What is known of an issuer. -/
theorem Hall.issuer {E : Env} {S : Stretch} (hC : CryptoOk E.C) (hH : HashOk E.H) {A : Str → Option Agent} {own : Store} {logs : Str → List (Sad × Parts)} {xs : List Piece}
    (h : Hall E S A own logs xs) {p : Str} {a : Agent} (ha : A p = some a) :
    ∃ said, Running E p said a.ks a.nks (own.kels p) (logs p) ∧ (∀ x ∈ logs p, pieceOf x.2 ∈ xs) ∧ List.Forall₂ (Reads E.fl) (own.kels p) ((logs p).map entryOf) ∧
      ((logs p).map entryOf).length = (own.kels p).length := by
  obtain ⟨⟨said, hr⟩, hl⟩ := h.running p a ha
  have hreads := running_reads hC hH hr (h.short p)
  exact ⟨said, hr, hl, hreads, hreads.length_eq.symm⟩

/-- A registry that an issuer creates. -/
theorem hall_registry {E : Env} {S : Stretch} (hC : CryptoOk E.C) (hH : HashOk E.H) (hstore : ∀ st t, E.refuses st t = false) {A : Str → Option Agent} {own : Store}
    {logs : Str → List (Sad × Parts)} {xs : List Piece} (h : Hall E S A own logs xs) (hcar : Carries E own xs) {issuer ri dig said m t g : Str} {s : Sad} {ag : Agent}
    (agent : A issuer = some ag) (built : registryIncept E issuer = .ok (ri, s)) (text : s.raw = toUtf8 t) (new : own.tels ri = [])
    (last : own.latestSaid E issuer = .ok dig) {rnd : Nat} (call : kmiInteract E rnd ag.ks issuer dig (own.kels issuer).length (sealOf ri (str% "0") ri) = .ok (said, m))
    (couple : coupleText E (own.kels issuer).length said = .ok g) (hm : (toUtf8 m).length < 2 ^ 32) (ht : (toUtf8 (t ++ g)).length < 2 ^ 32)
    (hlen : (own.kels issuer).length < 2 ^ 32) :
    ∃ logs' x y, x.whole = m ∧ y.whole = t ++ g ∧
      Hall E S (put A issuer ⟨ri :: ag.registries, ag.ks, ag.nks⟩) ((own.insertKeyEvent issuer m).insertTransactionEvent ri (t ++ g)) logs' (xs ++ [x, y]) ∧
      Carries E ((own.insertKeyEvent issuer m).insertTransactionEvent ri (t ++ g)) (xs ++ [x, y]) := by
  obtain ⟨said0, hr, hl, hreads, hll⟩ := h.issuer hC hH agent
  obtain ⟨a, p, ha⟩ := anchor_ok hC hH (log := (logs issuer).map entryOf) hr.history (by rw [hll]; exact hlen) hreads last call hm
  dsimp only at ha
  have hr' := running_anchor hr ha
  have hk := hall_event hC hH h (a := ag) (fun q hq => h.registry _ _ _ agent hq) hl hr' hlen
  have hcar1 := carries_event hC hH hstore hcar hreads hr' hl hlen
  obtain ⟨c1, hcouple, hc1⟩ := couple_ok ha.item.1 (by omega) couple
  obtain ⟨vs, hb⟩ := registry_ok built
  have hsend : Sendable s := by
    refine sendable_incepted hb (by unfold vcpDoc; simp) ?_ (by rw [text]; rw [toUtf8_append, List.length_append] at ht; omega)
    intro e he
    simp only [vcpDoc, List.mem_cons, List.not_mem_nil, or_false] at he
    rcases he with rfl | rfl | rfl | rfl | rfl | rfl | rfl | rfl | rfl
    all_goals first
      | exact fine_str _
      | (refine fine_arr ?_; intro v hv; rw [List.mem_singleton.mp hv]; exact deep_str _)
      | exact fine_arr (by simp)
  obtain ⟨-, -, -, k1, -, k2, -, k3, k4, -, -, -, k5⟩ := C75_registry E hH issuer ri s built hsend
  have hseal : Seals E.chk a s := ha.seals s k2 k4 k1
  refine ⟨addLog logs issuer (a, p), pieceOf p, ⟨t, g, .couples [(c1, a.saider)]⟩, by rw [ha.text]; rfl, rfl, ?_⟩
  have hap : xs ++ [pieceOf p, ⟨t, g, .couples [(c1, a.saider)]⟩] = (xs ++ [pieceOf p]) ++ [⟨t, g, .couples [(c1, a.saider)]⟩] := by simp
  rw [hap]
  have hcon : Controller E ((own.insertKeyEvent issuer m).insertTransactionEvent ri (t ++ g)) ri issuer := by
    refine ⟨t ++ g, s, ?_, ?_, k3⟩
    · rw [insert_tels, show (own.insertKeyEvent issuer m).tels = own.tels from rfl, new]; rfl
    · rw [toUtf8_append, ← text]; exact k5 g
  constructor
  · refine hk.grow extends_tel rfl (fun _ => List.prefix_refl _) (fun x hx => List.mem_append_left _ hx) ?_ ?_ hk.short ?_ ?_
      (hk.told.more extends_tel (mark_registry hH built hsend text) (fun h0 => h0 new) (by unfold Occupied; dsimp only; rw [insert_tels]; simp))
    · intro q b hb
      by_cases hq : q = issuer
      · subst hq
        rw [put_same] at hb
        cases hb
        obtain ⟨h1, h2⟩ := hk.running q ag put_same
        exact ⟨h1, fun x hx => List.mem_append_left _ (h2 x hx)⟩
      · rw [put_ne hq] at hb
        obtain ⟨h1, h2⟩ := hk.running q b (by rw [put_ne hq]; exact hb)
        exact ⟨h1, fun x hx => List.mem_append_left _ (h2 x hx)⟩
    · intro q hb
      by_cases hq : q = issuer
      · subst hq
        rw [put_same] at hb
        cases hb
      · rw [put_ne hq] at hb
        exact hk.absent q (by rw [put_ne hq]; exact hb)
    · intro q b r hb hr
      by_cases hq : q = issuer
      · subst hq
        rw [put_same] at hb
        cases hb
        rcases List.mem_cons.mp hr with rfl | hr
        · exact hcon
        · exact controller_more extends_tel (hk.registry q ag r put_same hr)
      · rw [put_ne hq] at hb
        exact controller_more extends_tel (hk.registry q b r (by rw [put_ne hq]; exact hb) hr)
    · intro x hx
      rcases List.mem_append.mp hx with hx | hx
      · exact hk.wellformed x hx
      · rw [List.mem_singleton.mp hx]
        exact .transaction t g _ (document_registry built hsend text) hcouple
  · refine hcar1.more (fun _ hq => hq) insert_tels_mono ⟨(own.kels issuer).length + 2, ?_⟩
    intro st v fuel deep verify hf hv hread hi hready
    obtain ⟨f, rfl⟩ : ∃ f, fuel = f + 2 := ⟨fuel - 2, by omega⟩
    have hkel := ready_kels hready hi (p := issuer) (by
      rw [show ((own.insertKeyEvent issuer m).insertTransactionEvent ri (t ++ g)).kels issuer = own.kels issuer ++ [m] from insert_kels]
      simp)
    have htel := ready_tels hready hi (q := ri) (by rw [insert_tels]; simp)
    have hnew : v.tels ri = [] := htel.trans new
    obtain ⟨v', g1, g2⟩ : ∃ v', Accepts E (f + 2) deep verify v ⟨t, g, .couples [(c1, a.saider)]⟩ v' ∧ OneMore v v' ri (t ++ g) := ⟨_, registry_accepts hstore built hsend hnew
      (ha.named hC hH (by rw [hll]; exact hlen) hreads (by rw [hkel, insert_kels]) (by rw [hll]; exact hc1) rfl) hseal g text
      (ha.deepens hC hH (by rw [hll]; exact hlen) (texts := own.kels issuer) (by rw [hkel]; exact insert_kels) (by
        intro hdd
        refine ⟨by rw [hll]; omega, running_keeps hr hl fun hdn x hx => hread hdn x (by simp [hx]), ?_⟩
        exact hread (by rw [hdd]; simp) (pieceOf p) (by simp))) hv, one_more _ _ _⟩
    refine ⟨v', flows_one g1, merged_more hready.merged (fun q => .inl ⟨rfl, by rw [g2.kels]⟩) ?_ ⟨[], by simp [Store.insertTransactionEvent], by rw [g2.acdcs]; simp⟩⟩
    intro q
    by_cases hq : q = ri
    · subst hq
      exact .inr ⟨by rw [insert_tels]; simp, by rw [g2.log, htel, insert_tels]⟩
    · exact .inl ⟨insert_tels_ne hq, g2.others q hq⟩

theorem standing_more {E : Env} {own own' : Store} (ha : own'.acdcs = own.acdcs) (ht : ∀ q, own.tels q ≠ [] → own'.tels q = own.tels q) {id : Str} (h : Standing E own id) :
    Standing E own' id := by
  induction h with
  | intro id c kept issued sources ih =>
    refine .intro id c ?_ ?_ ih
    · unfold Spec.Holds
      rw [ha]
      exact kept
    · rw [ht id (by intro h0; rw [h0] at issued; simp at issued)]
      exact issued

theorem extends_acdc {own : Store} {m : Str} : Extends own (own.insertAcdc m) :=
  ⟨fun _ => List.prefix_refl _, fun _ => List.prefix_refl _, prefix_self_append _ _⟩

theorem extends_trans {a b c : Store} (h : Extends a b) (h' : Extends b c) : Extends a c :=
  ⟨fun p => (h.kels p).trans (h'.kels p), fun p => (h.tels p).trans (h'.tels p), h.acdcs.trans h'.acdcs⟩

/-- A credential that an issuer issues. -/
theorem hall_issue {E : Env} {S : Stretch} (hC : CryptoOk E.C) (hH : HashOk E.H) (hstore : ∀ st t, E.refuses st t = false) {A : Str → Option Agent} {own : Store}
    {logs : Str → List (Sad × Parts)} {xs : List Piece} (h : Hall E S A own logs xs) (hcar : Carries E own xs) {rnd : Nat → Nat} {now issuer ri schema data : Str}
    {recipient : Option Str} {priv : Option Bool} {source rules : Option Str} {id m1 m2 m3 : Str} {ag : Agent} (agent : A issuer = some ag) (registry : ri ∈ ag.registries)
    (hdata : ∀ v, jsonRead E.fl data = .ok v → Plain v ∧ nesting v ≤ 126)
    (hsource : ∀ t v, source = some t → jsonRead E.fl t = .ok v → Plain v ∧ nesting v ≤ 126 ∧ Edges v ∧
      ∀ node, Node v node → ∃ q, Points E own issuer node q ∧ Standing E own q)
    (hrules : ∀ t v, rules = some t → jsonRead E.fl t = .ok v → Plain v ∧ nesting v ≤ 126)
    (call : issueAcdc E S rnd now own ag.ks ri issuer schema data recipient priv source rules = .ok (id, m1, m2, m3)) (new : own.tels id = [])
    (fits : ∀ c t, Creder.newWithRaw E.fl (toUtf8 m3) = .ok c → c.raw = toUtf8 t → E.schema schema t = .ok true) (recent : E.expired now = .ok false)
    (hm1 : (toUtf8 m1).length < 2 ^ 32) (hm2 : (toUtf8 m2).length < 2 ^ 32) (hm3 : (toUtf8 m3).length < 2 ^ 32) (hlen : (own.kels issuer).length < 2 ^ 32) :
    ∃ logs' x y z, x.whole = m1 ∧ y.whole = m2 ∧ z.whole = m3 ∧
      Hall E S A (((own.insertKeyEvent issuer m1).insertTransactionEvent id m2).insertAcdc m3) logs' (xs ++ [x, y, z]) ∧
      Carries E (((own.insertKeyEvent issuer m1).insertTransactionEvent id m2).insertAcdc m3) (xs ++ [x, y, z]) := by
  obtain ⟨said0, hr, hl, hreads, hll⟩ := h.issuer hC hH agent
  obtain ⟨p, ti, gi, ci, tc, gc, sig, c, sv, ⟨hsv, hfe, ⟨mark1, mark2⟩, ⟨dv, rv, hmade⟩, la, est, lb, qe, r, hsplit, hlatest, hqe, hby, hsigned⟩,
    ⟨q, prior, a, e, mm, ha, hiss, hti, hei, hmm, hc1, hc2, hseal⟩, ⟨hp1, hp2⟩, ⟨rfl, hcouple⟩, ⟨rfl, hproof⟩, ⟨d, sub, -, hcr, hcraw, hcs, -, hci, hcri, -⟩, hacc⟩ :=
    issued_all E hC hH hstore issuer ((logs issuer).map entryOf) ag.ks ag.nks hr.history (by rw [hll]; exact hlen) own hreads S rnd now ri schema data
    recipient priv source rules hdata (fun t v h1 h2 => ⟨(hsource t v h1 h2).1, (hsource t v h1 h2).2.1⟩) hrules id m1 m2 m3 call hm1 hm2 hm3
  have hr' := running_anchor hr ha
  have hcon := h.registry _ _ _ agent registry
  have hsound := history_sound hC hH hr.history (by have := h.short issuer; rw [← hll] at this; simpa using this)
  have hk := hall_event hC hH h (a := ag) (fun q hq => h.registry _ _ _ agent hq) hl hr' hlen
  rw [put_self agent] at hk
  have hsrc : ∀ v, sv = some v → Edges v ∧ ∀ node, Node v node → ∃ q, Points E own issuer node q ∧ Standing E own q := by
    intro v hv
    subst hv
    cases source with
    | none => cases hsv
    | some t =>
      obtain ⟨w, hw, h'⟩ := Res.bind_eq_ok.mp hsv
      cases h'
      exact ⟨(hsource t _ rfl hw).2.2.1, (hsource t _ rfl hw).2.2.2⟩
  have hap : xs ++ [pieceOf p, ⟨ti, gi, .couples [ci]⟩, ⟨tc, gc, .quadlets [.sadPath [sig]]⟩] =
      (xs ++ [pieceOf p] ++ [⟨ti, gi, .couples [ci]⟩]) ++ [(⟨tc, gc, .quadlets [.sadPath [sig]]⟩ : Piece)] := by simp
  refine ⟨addLog logs issuer (a, p), pieceOf p, ⟨ti, gi, .couples [ci]⟩, ⟨tc, gc, .quadlets [.sadPath [sig]]⟩, hp1.symm, rfl, rfl, ?_⟩
  -- with the issuance and without the credential
  have hk2 : Hall E S A ((own.insertKeyEvent issuer m1).insertTransactionEvent id (ti ++ gi)) (addLog logs issuer (a, p)) (xs ++ [pieceOf p] ++ [⟨ti, gi, .couples [ci]⟩]) := by
    refine hk.grow extends_tel rfl (fun _ => List.prefix_refl _) (fun x hx => List.mem_append_left _ hx) ?_ hk.absent hk.short ?_ ?_
      (hk.told.more extends_tel mark1 (fun h0 => h0 new) (by unfold Occupied; dsimp only; rw [insert_tels]; simp))
    · intro q b hb
      obtain ⟨h1, h2⟩ := hk.running q b hb
      exact ⟨h1, fun x hx => List.mem_append_left _ (h2 x hx)⟩
    · intro q b r hb hr
      exact controller_more extends_tel (hk.registry q b r hb hr)
    · intro x hx
      rcases List.mem_append.mp hx with hx | hx
      · exact hk.wellformed x hx
      · rw [List.mem_singleton.mp hx]
        exact .transaction _ _ _ hcouple.1 hcouple.2
  have hext : Extends own ((own.insertKeyEvent issuer m1).insertTransactionEvent id (ti ++ gi)) := extends_trans extends_kel extends_tel
  have htid : ((own.insertKeyEvent issuer m1).insertTransactionEvent id (ti ++ gi)).tels id = [ti ++ gi] := by
    rw [insert_tels, show (own.insertKeyEvent issuer m1).tels = own.tels from rfl, new]
    rfl
  have htel : ∀ q, q ≠ id → ((own.insertKeyEvent issuer m1).insertTransactionEvent id (ti ++ gi)).tels q = own.tels q := by
    intro q hq
    rw [insert_tels_ne hq]
    rfl
  have hkel : ((own.insertKeyEvent issuer m1).insertTransactionEvent id (ti ++ gi)).kels issuer = own.kels issuer ++ [m1] := insert_kels
  have hkne : ∀ p, p ≠ issuer → ((own.insertKeyEvent issuer m1).insertTransactionEvent id (ti ++ gi)).kels p = own.kels p := fun p hp => insert_kels_ne hp
  have hacd : ((own.insertKeyEvent issuer m1).insertTransactionEvent id (ti ++ gi)).acdcs = own.acdcs := rfl
  generalize (own.insertKeyEvent issuer m1).insertTransactionEvent id (ti ++ gi) = own2 at hk2 hext htid htel hkel hkne hacd
  have hstand : ∀ q, Standing E own q → Standing E own2 q := fun q hq => standing_more hacd (fun q' hq' => htel q' (by rintro rfl; exact hq' new)) hq
  obtain ⟨nodes, hnodes, n, hn⟩ := edges_sure hk2 hci (source := sv)
    (fun v hv => ⟨(hsrc v hv).1, fun node hnode => by
      obtain ⟨q, h1, -⟩ := (hsrc v hv).2 node hnode
      exact ⟨q, points_more (fun t ht => by rw [hacd]; exact ht) h1⟩⟩)
    (fun v node q hv hnode hname => by
      obtain ⟨q', h1, h2⟩ := (hsrc v hv).2 node hnode
      have := h1.name
      rw [hname] at this
      cases this
      exact standing_sure hC hH hk2 (hstand q h2))
  have hnone : ∀ t ∈ own.acdcs, ¬ IsCredential E id t := by
    intro t ht hc
    obtain ⟨w, hw, rfl⟩ := h.vouched t ht
    obtain ⟨c', h1, h2⟩ := hc
    have h3 := hw.reads
    rw [h1] at h3
    cases h3
    have h4 := hw.said
    rw [h2] at h4
    have := hw.tels
    rw [← Res.ok.inj h4] at this
    exact this new
  have hnewc : IsCredential E id (tc ++ gc) := ⟨c, hcr, hcs⟩
  have htid3 : (own2.insertAcdc (tc ++ gc)).tels = own2.tels := rfl
  constructor
  · rw [hap]
    refine ⟨?_, hk2.absent, hk2.short, ?_, ?_, ?_, ?_, hk2.told.more extends_acdc mark2 (fun ⟨t, h1, h2⟩ => hnone t (by rw [← hacd]; exact h1) h2)
      ⟨tc ++ gc, by simp [Store.insertAcdc], hnewc⟩⟩
    · intro q b hb
      obtain ⟨h1, h2⟩ := hk2.running q b hb
      exact ⟨h1, fun x hx => List.mem_append_left _ (h2 x hx)⟩
    · intro q b r hb hr
      exact controller_more extends_acdc (hk2.registry q b r hb hr)
    · intro t ht
      rcases List.mem_append.mp (show t ∈ own2.acdcs ++ [tc ++ gc] from ht) with ht | ht
      · obtain ⟨w, hw, e⟩ := hk2.vouched t ht
        exact ⟨w, hw.more extends_acdc (fun _ => List.prefix_refl _) (fun x hx => List.mem_append_left _ hx), e⟩
      · have hget : ((logs issuer).map entryOf)[la.length]? = some est := by rw [hsplit]; simp
        rw [List.getElem?_map] at hget
        obtain ⟨x, hx, hxe⟩ := Option.map_eq_some_iff.mp hget
        obtain ⟨est', he', hctl, -⟩ := hsound.est
        cases latest_unique hlatest he'
        subst hxe
        refine ⟨⟨issuer, ri, schema, id, tc, gc, now, prior, ti, gi, qe, c, e, a, sig, ci, ag.ks, x, la.length, sv⟩, ?_, List.mem_singleton.mp ht⟩
        refine ⟨by simp, ⟨rnd, now, dv, recipient, priv, rv, hmade⟩, hcs, hcraw, hcr, hci, hcri, hfe, fits c tc hcr hcraw, ?_, hsound.usable, hctl, hqe, hby, ⟨r, hsigned⟩,
          ⟨rnd 2, hiss⟩, hei, hti, recent, ?_, by simp, ?_, hseal, ?_, ?_⟩
        · refine prefix_get (a := logs issuer) ?_ hx
          rw [addLog_same]
          exact prefix_self_append _ _
        · rw [htid3, htid]; rfl
        · exact ha.named hC hH (by rw [hll]; exact hlen) hreads (st' := own2.insertAcdc (tc ++ gc)) hkel hc1 hc2
        · exact controller_more (extends_trans hext extends_acdc) hcon
        · intro v hv
          refine ⟨(hsrc v hv).1, fun node hnode => ?_⟩
          obtain ⟨q, h1, -⟩ := (hsrc v hv).2 node hnode
          exact ⟨q, points_more (fun t ht => (extends_trans hext extends_acdc).acdcs.subset ht) h1⟩
    · intro q t ht t' ht' h1 h2
      rcases List.mem_append.mp (show t ∈ own2.acdcs ++ [tc ++ gc] from ht) with ht | ht <;>
      rcases List.mem_append.mp (show t' ∈ own2.acdcs ++ [tc ++ gc] from ht') with ht' | ht'
      · exact hk2.unique q t ht t' ht' h1 h2
      · rw [List.mem_singleton.mp ht'] at h2
        obtain ⟨c', h3, h4⟩ := h2
        rw [hcr] at h3
        cases h3
        rw [hcs] at h4
        cases h4
        rw [hacd] at ht
        exact absurd h1 (hnone t ht)
      · rw [List.mem_singleton.mp ht] at h1
        obtain ⟨c', h3, h4⟩ := h1
        rw [hcr] at h3
        cases h3
        rw [hcs] at h4
        cases h4
        rw [hacd] at ht'
        exact absurd h2 (hnone t' ht')
      · rw [List.mem_singleton.mp ht, List.mem_singleton.mp ht']
    · intro x hx
      rcases List.mem_append.mp hx with hx | hx
      · exact hk2.wellformed x hx
      · rw [List.mem_singleton.mp hx]
        exact .credential _ _ _ hproof.1 hproof.2
  · refine hcar.more ?_ ?_ ⟨n + (own.kels issuer).length + 3, ?_⟩
    · intro p hp
      exact fun h0 => hp (List.prefix_nil.mp (h0 ▸ hext.kels p))
    · intro q hq
      exact fun h0 => hq (List.prefix_nil.mp (h0 ▸ hext.tels q))
    intro st v fuel deep verify hf hv hread hi hready
    obtain ⟨f, rfl⟩ : ∃ f, fuel = f + 2 := ⟨fuel - 2, by omega⟩
    have hvk : v.kels issuer = own.kels issuer := ready_kels hready hi (by
      rw [show (own2.insertAcdc (tc ++ gc)).kels issuer = own.kels issuer ++ [m1] from hkel]
      simp)
    have hvnew : v.tels id = [] := (ready_tels hready hi (q := id) (by rw [htid3, htid]; simp)).trans new
    have key := hacc v f deep verify nodes hnodes ?_ ?_ hv ?_ ?_ hvnew ?_ (fits c tc hcr hcraw) recent ?_
    · obtain ⟨s1, s2, s3, g1, g2, g3, g4, g5, g6, g7, g8⟩ := key
      refine ⟨s3, .one _ _ _ [pieceOf p, ⟨ti, gi, .couples [ci]⟩] _ (.one _ _ _ [pieceOf p] _ (flows_one g1) g2) g3, merged_more hready.merged ?_ ?_ ⟨[tc ++ gc], ?_, g8⟩⟩
      · intro q
        by_cases hq : q = issuer
        · subst hq
          exact .inr ⟨by rw [show (own2.insertAcdc (tc ++ gc)).kels = own2.kels from rfl, hkel]; simp,
            by rw [g4, hvk, show (own2.insertAcdc (tc ++ gc)).kels = own2.kels from rfl, hkel]⟩
        · exact .inl ⟨hkne q hq, g5 q hq⟩
      · intro q
        by_cases hq : q = id
        · subst hq
          exact .inr ⟨by rw [htid3, htid]; simp, by rw [g6, htid3, htid]⟩
        · exact .inl ⟨htel q hq, g7 q hq⟩
      · show own2.acdcs ++ [tc ++ gc] = _
        rw [hacd]
    · intro s2 g1 g2 g3 g4 g5 vs
      refine hn deep st s2 ⟨?_, ⟨?_, ?_, ?_⟩, ?_⟩ (f + 1) (by omega) vs
      · intro hd x hx
        exact hread hd x (by rw [hap]; exact List.mem_append_left _ hx)
      · exact hi.kels
      · exact hi.tels
      · exact hi.acdcs
      · refine merged_more hready.merged ?_ ?_ ⟨[], by rw [hacd]; simp, by rw [g5]; simp⟩
        · intro q
          by_cases hq : q = issuer
          · subst hq
            exact .inr ⟨by rw [hkel]; simp, by rw [g1, hvk, hkel]⟩
          · exact .inl ⟨hkne q hq, g2 q hq⟩
        · intro q
          by_cases hq : q = id
          · subst hq
            exact .inr ⟨by rw [htid]; simp, by rw [g3, htid]⟩
          · exact .inl ⟨htel q hq, g4 q hq⟩
    · intro hdd
      exact ⟨by rw [hll]; omega, hread (by rw [hdd]; simp) (pieceOf p) (by simp)⟩
    · rw [hvk]
      exact running_keeps hr hl hready.reads
    · unfold Controller
      rw [hready.merged.tels ri (by
        obtain ⟨t, r, h1, -⟩ := hcon
        intro h0
        rw [h0] at h1
        simp at h1)]
      exact hcon
    · intro t ht hc
      rw [hready.merged.acdcs] at ht
      rcases List.mem_append.mp ht with ht | ht
      · exact hi.acdcs id (by rw [htid3, htid]; simp) t ht hc
      · exact hnone t ht hc
    · intro hdn
      exact hread hdn ⟨ti, gi, .couples [ci]⟩ (by simp)

/-- A credential that its issuer revokes. -/
theorem hall_revoke {E : Env} {S : Stretch} (hC : CryptoOk E.C) (hH : HashOk E.H) (hstore : ∀ st t, E.refuses st t = false) {A : Str → Option Agent} {own : Store}
    {logs : Str → List (Sad × Parts)} {xs : List Piece} (h : Hall E S A own logs xs) (hcar : Carries E own xs) {rnd : Nat → Nat} {now issuer ri id m1 m2 : Str} {c : Sad}
    {ag : Agent} (agent : A issuer = some ag) (kept : Holds E own id c) (theirs : HasText (str% "i") issuer c) (registry : HasText (str% "ri") ri c)
    (call : revokeAcdc E S rnd now own ag.ks ri issuer id = .ok (m1, m2)) (hm1 : (toUtf8 m1).length < 2 ^ 32) (hm2 : (toUtf8 m2).length < 2 ^ 32)
    (hlen : (own.kels issuer).length < 2 ^ 32) :
    ∃ logs' x y, x.whole = m1 ∧ y.whole = m2 ∧ Hall E S A ((own.insertKeyEvent issuer m1).insertTransactionEvent id m2) logs' (xs ++ [x, y]) ∧
      Carries E ((own.insertKeyEvent issuer m1).insertTransactionEvent id m2) (xs ++ [x, y]) := by
  obtain ⟨said0, hr, hl, hreads, hll⟩ := h.issuer hC hH agent
  have hone : (own.tels id).length = 1 := by
    by_contra hne
    unfold revokeAcdc at call
    rw [if_pos hne] at call
    cases call
  obtain ⟨t, ht, hcr, hcs⟩ := kept
  obtain ⟨w, hw, hm, rfl, rfl⟩ := h.held ht hcr hcs
  have hwi : w.issuer = issuer := by
    have := hw.issuer
    unfold HasText at this theirs
    rw [theirs] at this
    cases this
    rfl
  have hwr : w.ri = ri := by
    have := hw.registry
    unfold HasText at this registry
    rw [registry] at this
    cases this
    rfl
  have htel0 : own.tels w.id = [w.ti ++ w.gi] := by
    obtain ⟨x, hx⟩ := List.length_eq_one_iff.mp hone
    have := hw.tel
    rw [hx] at this ⊢
    cases this
    rfl
  obtain ⟨r', hissued⟩ := hw.issued
  rw [hwr] at hissued
  obtain ⟨rnd', now', dv, recipient, priv, rv, hmade⟩ := hw.made
  obtain ⟨vs, u, u', map, sub, -, -, -, -, -, hbc⟩ := create_ok hmade
  obtain ⟨qc, hqc, -, -, -, hmc⟩ := hbc.said
  rw [hw.said] at hqc
  cases hqc
  obtain ⟨p, tr, gr, cr, ⟨⟨q, nx, a, ha⟩, mark⟩, ⟨hp1, hp2⟩, ⟨rfl, hcouple⟩, -, hacc⟩ := revoked_all E hC hH hstore issuer ((logs issuer).map entryOf) ag.ks ag.nks hr.history
    (by rw [hll]; exact hlen) own hreads S S r' w.now w.id ri w.qi w.ti w.gi w.i hissued hw.iraw hw.small _ hmc htel0 rnd now m1 m2 call hm1 hm2
  have hr' := running_anchor hr ha
  have hcon := hw.controller
  rw [hwi, hwr] at hcon
  have hk := hall_event hC hH h (a := ag) (fun q hq => h.registry _ _ _ agent hq) hl hr' hlen
  rw [put_self agent] at hk
  have hap : xs ++ [pieceOf p, ⟨tr, gr, .couples [cr]⟩] = (xs ++ [pieceOf p]) ++ [(⟨tr, gr, .couples [cr]⟩ : Piece)] := by simp
  refine ⟨addLog logs issuer (a, p), pieceOf p, ⟨tr, gr, .couples [cr]⟩, hp1.symm, rfl, ?_, ?_⟩
  · rw [hap]
    refine hk.grow extends_tel rfl (fun _ => List.prefix_refl _) (fun x hx => List.mem_append_left _ hx) ?_ hk.absent hk.short ?_ ?_
      (hk.told.more extends_tel mark (fun h0 => by
        have : 2 ≤ (own.tels w.id).length := h0
        omega) (by
        unfold Occupied; dsimp only
        rw [insert_tels, show (own.insertKeyEvent issuer m1).tels = own.tels from rfl, List.length_append, hone]
        simp))
    · intro q b hb
      obtain ⟨h1, h2⟩ := hk.running q b hb
      exact ⟨h1, fun x hx => List.mem_append_left _ (h2 x hx)⟩
    · intro q b r hb hr
      exact controller_more extends_tel (hk.registry q b r hb hr)
    · intro x hx
      rcases List.mem_append.mp hx with hx | hx
      · exact hk.wellformed x hx
      · rw [List.mem_singleton.mp hx]
        exact .transaction _ _ _ hcouple.1 hcouple.2
  · refine hcar.more ?_ ?_ ⟨(own.kels issuer).length + 3, ?_⟩
    · intro p hp
      exact fun h0 => hp (List.prefix_nil.mp (h0 ▸ (extends_trans extends_kel extends_tel : Extends own ((own.insertKeyEvent issuer m1).insertTransactionEvent w.id (tr ++ gr))).kels p))
    · intro q hq
      exact fun h0 => hq (List.prefix_nil.mp (h0 ▸ (extends_trans extends_kel extends_tel : Extends own ((own.insertKeyEvent issuer m1).insertTransactionEvent w.id (tr ++ gr))).tels q))
    intro st v fuel deep verify hf hv hread hi hready
    obtain ⟨f, rfl⟩ : ∃ f, fuel = f + 2 := ⟨fuel - 2, by omega⟩
    have hkel : ((own.insertKeyEvent issuer m1).insertTransactionEvent w.id (tr ++ gr)).kels issuer = own.kels issuer ++ [m1] := insert_kels
    have htid : ((own.insertKeyEvent issuer m1).insertTransactionEvent w.id (tr ++ gr)).tels w.id = own.tels w.id ++ [tr ++ gr] := insert_tels
    have hvk : v.kels issuer = own.kels issuer := ready_kels hready hi (by rw [hkel]; simp)
    have hvt : v.tels w.id = own.tels w.id := hready.merged.tels _ hw.tels
    have hnamed := hw.named
    rw [hwi] at hnamed
    have key := hacc v f deep verify w.gi w.ci w.ai ?_ hv (by rw [hvk]; exact hreads) ?_ (by rw [hvt, htel0]) ?_ hw.seals ?_
    · obtain ⟨s1, s2, g1, g2, g4, g5, g6, g7, g8⟩ := key
      refine ⟨s2, .one _ _ _ [pieceOf p] _ (flows_one g1) g2, merged_more hready.merged ?_ ?_ ⟨[], by simp [Store.insertKeyEvent, Store.insertTransactionEvent], by rw [g8]; simp⟩⟩
      · intro q
        by_cases hq : q = issuer
        · subst hq
          exact .inr ⟨by rw [hkel]; simp, by rw [g4, hvk, hkel]⟩
        · exact .inl ⟨insert_kels_ne hq, g5 q hq⟩
      · intro q
        by_cases hq : q = w.id
        · subst hq
          exact .inr ⟨by rw [htid]; simp, by rw [g6, hvt, htid]⟩
        · exact .inl ⟨insert_tels_ne hq, g7 q hq⟩
    · intro hdd
      refine ⟨by rw [hll]; omega, ?_, hread (by rw [hdd]; simp) (pieceOf p) (by simp)⟩
      rw [hvk]
      exact running_keeps hr hl hready.reads
    · unfold Controller
      rw [hready.merged.tels ri (by
        obtain ⟨t, r, h1, -⟩ := hcon
        intro h0
        rw [h0] at h1
        simp at h1)]
      exact hcon
    · unfold AnchorNamed
      rw [hvk]
      exact hnamed
    · intro hdn
      exact hready.reads hdn _ hw.ipiece

theorem market_hall {E : Env} {S : Stretch} (hC : CryptoOk E.C) (hH : HashOk E.H) (hstore : ∀ st t, E.refuses st t = false) {A : Str → Option Agent} {own : Store}
    {ms : List Str} (h : Market E S A own ms) (hm : ∀ m ∈ ms, (toUtf8 m).length < 2 ^ 32) (hlen : ∀ p, (own.kels p).length ≤ 2 ^ 32) :
    ∃ (xs : List Piece) (logs : Str → List (Sad × Parts)), ms = xs.map Piece.whole ∧ Hall E S A own logs xs ∧ Carries E own xs := by
  have hback : ∀ {o o' : Store}, Extends o o' → (∀ p, (o'.kels p).length ≤ 2 ^ 32) → ∀ p, (o.kels p).length ≤ 2 ^ 32 :=
    fun he h p => Nat.le_trans (he.kels p).length_le (h p)
  induction h with
  | start =>
    refine ⟨[], fun _ => [], rfl, ⟨nofun, fun _ _ => ⟨rfl, rfl⟩, fun _ => by simp [Store.empty], nofun, nofun, nofun, nofun, nofun, .nil⟩, 0, ?_⟩
    intro st fuel deep verify _ _ _ _
    exact ⟨st, .none st, fun _ h => absurd rfl h, fun _ _ => rfl, fun _ h => absurd rfl h, fun _ _ => rfl, by simp [Store.empty]⟩
  | incept rnd code ncode tier count ncount wcount sith nsith pre m ks nks A own ms before hsith hnsith hzero call new ih =>
    obtain ⟨xs, logs, hx, hk, hcar⟩ := ih (fun m hx => hm m (by simp [hx])) (hback extends_kel hlen)
    obtain ⟨s, p, hr⟩ := running_incept hC hsith hnsith hzero call (hm m (by simp))
    obtain ⟨h0, h1⟩ := hk.absent pre new
    have hr' : Running E pre pre ks nks (own.kels pre ++ [m]) (logs pre ++ [(s, p)]) := by rw [h0, h1]; exact hr
    refine ⟨_, _, ?_, hall_event hC hH hk (a := ⟨[], ks, nks⟩) (by simp) (by simp [h1]) hr' (by simp [h0]),
      carries_event hC hH hstore hcar (l := logs pre) (by rw [h0, h1]; exact .nil) hr' (by simp [h1]) (by simp [h0])⟩
    have e : m = p.text := by simpa using hr.texts
    rw [hx, e]
    simp [pieceOf, Piece.whole, Parts.text]
  | interact rnd data issuer dig said m a A own ms before agent hdata last call ih =>
    obtain ⟨xs, logs, hx, hk, hcar⟩ := ih (fun m hx => hm m (by simp [hx])) (hback extends_kel hlen)
    have hlen := hlen issuer
    rw [insert_kels, List.length_append, List.length_singleton] at hlen
    obtain ⟨said0, hr, hl, hreads, hll⟩ := hk.issuer hC hH agent
    have hs := running_said hC hH hr (by omega) last
    subst hs
    obtain ⟨s, p, hr'⟩ := running_interact hC hr hdata call (hm m (by simp)) (by omega)
    have hk' := hall_event hC hH hk (a := a) (fun q hq => hk.registry _ _ _ agent hq) hl hr' (by omega)
    rw [put_self agent] at hk'
    refine ⟨_, _, ?_, hk', carries_event hC hH hstore hcar hreads hr' hl (by omega)⟩
    have := hr'.texts
    rw [List.map_append] at this
    have e : m = p.text := by simpa using (List.append_inj' this (by simp)).2
    rw [hx, e]
    simp [pieceOf, Piece.whole, Parts.text]
  | rotate rnd ncode tier ncount wcount sith nsith issuer dig said m a nnks A own ms before agent hsith hnsith last call ih =>
    obtain ⟨xs, logs, hx, hk, hcar⟩ := ih (fun m hx => hm m (by simp [hx])) (hback extends_kel hlen)
    have hlen := hlen issuer
    rw [insert_kels, List.length_append, List.length_singleton] at hlen
    obtain ⟨said0, hr, hl, hreads, hll⟩ := hk.issuer hC hH agent
    have hs := running_said hC hH hr (by omega) last
    subst hs
    obtain ⟨s, p, hr'⟩ := running_rotate hC hr hsith hnsith call (hm m (by simp)) (by omega)
    refine ⟨_, _, ?_, hall_event hC hH hk (a := ⟨a.registries, a.nks, nnks⟩) (fun q hq => hk.registry _ _ _ agent hq) hl hr' (by omega),
      carries_event hC hH hstore hcar hreads hr' hl (by omega)⟩
    have := hr'.texts
    rw [List.map_append] at this
    have e : m = p.text := by simpa using (List.append_inj' this (by simp)).2
    rw [hx, e]
    simp [pieceOf, Piece.whole, Parts.text]
  | registry rnd issuer ri dig said m t g s a A own ms before agent built text new last call couple ih =>
    obtain ⟨xs, logs, hx, hk, hcar⟩ := ih (fun m hx => hm m (by simp [hx])) (hback (extends_trans extends_kel extends_tel) hlen)
    have hlen := hlen issuer
    rw [show ((own.insertKeyEvent issuer m).insertTransactionEvent ri (t ++ g)).kels issuer = own.kels issuer ++ [m] from insert_kels, List.length_append,
      List.length_singleton] at hlen
    obtain ⟨logs', x, y, h1, h2, h3, h4⟩ := hall_registry hC hH hstore hk hcar agent built text new last call couple (hm m (by simp)) (hm _ (by simp)) (by omega)
    exact ⟨_, logs', by rw [hx]; simp [h1, h2], h3, h4⟩
  | issue rnd now issuer ri schema data recipient priv source rules id m1 m2 m3 a A own ms before agent registry hdata hsource hrules call new fits recent ih =>
    obtain ⟨xs, logs, hx, hk, hcar⟩ := ih (fun m hx => hm m (by simp [hx])) (hback (extends_trans (extends_trans extends_kel extends_tel) extends_acdc) hlen)
    have hlen := hlen issuer
    rw [show (((own.insertKeyEvent issuer m1).insertTransactionEvent id m2).insertAcdc m3).kels issuer = own.kels issuer ++ [m1] from insert_kels, List.length_append,
      List.length_singleton] at hlen
    obtain ⟨logs', x, y, z, h1, h2, h3, h4, h5⟩ := hall_issue hC hH hstore hk hcar agent registry hdata hsource hrules call new fits recent (hm _ (by simp)) (hm _ (by simp))
      (hm _ (by simp)) (by omega)
    exact ⟨_, logs', by rw [hx]; simp [h1, h2, h3], h4, h5⟩
  | revoke rnd now issuer ri id m1 m2 c a A own ms before agent kept theirs registry call ih =>
    obtain ⟨xs, logs, hx, hk, hcar⟩ := ih (fun m hx => hm m (by simp [hx])) (hback (extends_trans extends_kel extends_tel) hlen)
    have hlen := hlen issuer
    rw [show ((own.insertKeyEvent issuer m1).insertTransactionEvent id m2).kels issuer = own.kels issuer ++ [m1] from insert_kels, List.length_append,
      List.length_singleton] at hlen
    obtain ⟨logs', x, y, h1, h2, h3, h4⟩ := hall_revoke hC hH hstore hk hcar agent kept theirs registry call (hm _ (by simp)) (hm _ (by simp)) (by omega)
    exact ⟨_, logs', by rw [hx]; simp [h1, h2], h3, h4⟩

/-- C93: issuers work with the library, any number of them, whatever they do and in whatever order; a credential may rest on credentials of other issuers, if
those stand when it is issued and are what its edges ask for. The messages are what readers of the stream format expect. A verifier that
knows nothing of the issuers and is sent the messages one after the other accepts them all, if its stack is deep enough for
the longest chain of credentials and, to repeat all earlier verification, for the logs. In the end it has all that the issuers have, and nothing else changed. Unless told otherwise verifiers verify again what they kept, and all a credential rests on, and it has to be read back as it was received. -/
theorem C93_accepted (E : Env) (S : Stretch) (hC : CryptoOk E.C) (hH : HashOk E.H) (hstore : ∀ st t, E.refuses st t = false) (A : Str → Option Agent) (own : Store)
    (ms : List Str) (h : Market E S A own ms) (hm : ∀ m ∈ ms, (toUtf8 m).length < 2 ^ 32) (hlen : ∀ p, (own.kels p).length ≤ 2 ^ 32) :
    ∃ xs : List Piece, ms = xs.map Piece.whole ∧ (∀ x ∈ xs, x.Wellformed E.chk) ∧
      ∃ n, ∀ (st : Store) (fuel : Nat) (deep verify : Option Bool), n ≤ fuel → verify ≠ some false →
        (deep ≠ some false → ∀ x ∈ xs, ReadsAs E x.attached x.group) → Ignorant E own st →
        ∃ st', Takes E fuel deep verify st xs st' ∧ Merged st own st' := by
  obtain ⟨xs, logs, h1, h2, n, h3⟩ := market_hall hC hH hstore h hm hlen
  refine ⟨xs, h1, h2.wellformed, n, fun st fuel deep verify hf hv hr hi => ?_⟩
  obtain ⟨st', h4, h5⟩ := h3 st fuel deep verify hf hv hr hi
  exact ⟨st', h4.takes, h5⟩

theorem merged_empty {own st' : Store} (h5 : Merged Store.empty own st') : st' = own := by
  obtain ⟨k, t, a⟩ := st'
  obtain ⟨k', t', a'⟩ := own
  have e1 : k = k' := by
    funext p
    by_cases hp : k' p = []
    · rw [hp]; exact h5.otherKels p hp
    · exact h5.kels p hp
  have e2 : t = t' := by
    funext q
    by_cases hq : t' q = []
    · rw [hq]; exact h5.otherTels q hq
    · exact h5.tels q hq
  have e3 : a = a' := h5.acdcs
  rw [e1, e2, e3]

/-- C93: a verifier that starts with nothing ends with what the issuers have. -/
theorem C93_same (E : Env) (S : Stretch) (hC : CryptoOk E.C) (hH : HashOk E.H) (hstore : ∀ st t, E.refuses st t = false) (A : Str → Option Agent) (own : Store)
    (ms : List Str) (h : Market E S A own ms) (hm : ∀ m ∈ ms, (toUtf8 m).length < 2 ^ 32) (hlen : ∀ p, (own.kels p).length ≤ 2 ^ 32) :
    ∃ xs : List Piece, ms = xs.map Piece.whole ∧
      ∃ n, ∀ (fuel : Nat) (deep verify : Option Bool), n ≤ fuel → verify ≠ some false →
        (deep ≠ some false → ∀ x ∈ xs, ReadsAs E x.attached x.group) → Takes E fuel deep verify Store.empty xs own := by
  obtain ⟨xs, logs, h1, h2, n, h3⟩ := market_hall hC hH hstore h hm hlen
  refine ⟨xs, h1, n, fun fuel deep verify hf hv hr => ?_⟩
  obtain ⟨st', h4, h5⟩ := h3 Store.empty fuel deep verify hf hv hr ⟨fun _ _ => rfl, fun _ _ => rfl, fun _ _ t ht => by cases ht⟩
  rw [← merged_empty h5]
  exact h4.takes

/-! ## Two issuers -/

def World.names (k : Str) (v : Value) (s : Str) : Bool := match field k v with | some (.str x) => decide (x = s) | _ => false

theorem World.names_ok {k : Str} {v : Value} {s : Str} (h : World.names k v s = true) : field k v = some (.str s) := by
  unfold World.names at h
  split at h
  · rename_i x hx
    rw [hx, of_decide_eq_true h]
  · cases h

def World.without (k : Str) (v : Value) : Bool := match field k v with | none => true | _ => false

theorem World.without_ok {k : Str} {v : Value} (h : World.without k v = true) : field k v = none := by
  unfold World.without at h
  split at h
  · assumption
  · cases h

def World.subject (c : Sad) : Res (List (Str × Value)) := match field (str% "a") c.ked with | some (.obj m) => .ok m | _ => .panic

theorem World.subject_ok {c : Sad} {m : List (Str × Value)} (h : World.subject c = .ok m) : field (str% "a") c.ked = some (.obj m) := by
  unfold World.subject at h
  split at h
  · rename_i m' hm
    cases h
    exact hm
  · cases h

def World.only (v : Value) : Res (Str × Value) := match v with | .obj [x] => .ok x | _ => .panic

theorem World.only_ok {v : Value} {x : Str × Value} (h : World.only v = .ok x) : v = .obj [x] := by
  unfold World.only at h
  split at h
  · cases h
    rfl
  · cases h

/-- The source of a credential that rests on another. -/
def World.edge (id : Str) : Str := str% "{\"first\":{\"n\":\"" ++ id ++ str% "\",\"s\":\"schema\",\"o\":\"I2I\"}}"

/-- Two identifiers; a registry of each; the first issues a credential to the second, who rotates and issues one that rests on it; the first revokes its own. -/
def World.marketCase (p : Bytes → Res (List Msg)) : Bool :=
  World.holds (kmiIncept (World.parsing p) World.stretch (fun n => n) none (some 2) none none none none none (some true) (some (str% "E")) none) fun a =>
  World.holds (Res.orPanic a.2.1[0]?) fun ks => World.holds (Res.orPanic a.2.1[1]?) fun _ =>
  World.holds (kmiIncept (World.parsing p) World.stretch (fun n => n + 20) none none none none none none none (some true) (some (str% "E")) none) fun a' =>
  World.holds (Res.orPanic a'.2.1[0]?) fun ks' => World.holds (Res.orPanic a'.2.1[1]?) fun nks' =>
  let o0 := (Store.empty.insertKeyEvent a.1 a.2.2).insertKeyEvent a'.1 a'.2.2
  World.holds (registryIncept (World.parsing p) a.1) fun r => World.holds (fromUtf8 r.2.raw) fun t => World.holds (o0.latestSaid (World.parsing p) a.1) fun d0 =>
  World.holds (kmiInteract (World.parsing p) 0 ks a.1 d0 (o0.kels a.1).length (sealOf r.1 (str% "0") r.1)) fun b =>
  World.holds (coupleText (World.parsing p) (o0.kels a.1).length b.1) fun g =>
  let o1 := (o0.insertKeyEvent a.1 b.2).insertTransactionEvent r.1 (t ++ g)
  World.holds (registryIncept (World.parsing p) a'.1) fun r' => World.holds (fromUtf8 r'.2.raw) fun t' => World.holds (o1.latestSaid (World.parsing p) a'.1) fun d1 =>
  World.holds (kmiInteract (World.parsing p) 0 ks' a'.1 d1 (o1.kels a'.1).length (sealOf r'.1 (str% "0") r'.1)) fun b' =>
  World.holds (coupleText (World.parsing p) (o1.kels a'.1).length b'.1) fun g' =>
  let o2 := (o1.insertKeyEvent a'.1 b'.2).insertTransactionEvent r'.1 (t' ++ g')
  World.holds (issueAcdc (World.parsing p) World.stretch (fun n => n) World.today o2 ks r.1 a.1 (str% "schema") (str% "{\"name\":\"x\"}") (some a'.1) none none none) fun x =>
  let o3 := ((o2.insertKeyEvent a.1 x.2.1).insertTransactionEvent x.1 x.2.2.1).insertAcdc x.2.2.2
  World.holds (o3.latestSaid (World.parsing p) a'.1) fun d3 =>
  World.holds (kmiRotate (World.parsing p) World.stretch (fun n => n + 7) a'.1 nks' d3 (o3.kels a'.1).length none none none none none none) fun c =>
  let o4 := o3.insertKeyEvent a'.1 c.2.2
  World.holds (issueAcdc (World.parsing p) World.stretch (fun n => n) World.today o4 nks' r'.1 a'.1 (str% "schema") (str% "{\"name\":\"y\"}") none none (some (World.edge x.1)) none) fun y =>
  let o5 := ((o4.insertKeyEvent a'.1 y.2.1).insertTransactionEvent y.1 y.2.2.1).insertAcdc y.2.2.2
  World.holds (revokeAcdc (World.parsing p) World.stretch (fun n => n) World.today o5 ks r.1 a.1 x.1) fun z =>
  World.holds (jsonRead (World.parsing p).fl (str% "{\"name\":\"x\"}")) fun v => World.holds (jsonRead (World.parsing p).fl (str% "{\"name\":\"y\"}")) fun w =>
  World.holds (jsonRead (World.parsing p).fl (World.edge x.1)) fun u => World.holds (World.only u) fun n =>
  World.holds (Creder.newWithRaw (World.parsing p).fl (toUtf8 x.2.2.2)) fun k => World.holds (World.subject k) fun sub => World.holds (fromUtf8 k.raw) fun kt =>
  World.holds (Sadder.said (World.parsing p).chk k) fun kid =>
    (decide (a.2.1.length = 2) && (decide (a'.2.1.length = 2) && (decide (a.1 ≠ a'.1) && (decide (r.2.raw = toUtf8 t) && (decide (r'.2.raw = toUtf8 t') &&
    (decide (o0.tels r.1 = []) && (decide (o1.tels r'.1 = []) && (decide (o2.tels x.1 = []) && (decide (o4.tels y.1 = []) && (World.plain v &&
    (decide (nesting v ≤ 126) && (World.plain w && (decide (nesting w ≤ 126) && (World.plain u && (decide (nesting u ≤ 126) &&
    (World.names (str% "n") n.2 x.1 && (World.names (str% "s") n.2 (str% "schema") && (World.names (str% "o") n.2 (str% "I2I") && (decide (k.raw = toUtf8 kt) && (decide (kid = x.1) &&
    (World.names (str% "i") (.obj sub) a'.1 && (World.without (str% "e") k.ked && (World.names (str% "i") k.ked a.1 && (World.names (str% "ri") k.ked r.1 &&
    [a.2.2, a'.2.2, b.2, t ++ g, b'.2, t' ++ g', x.2.1, x.2.2.1, x.2.2.2, c.2.2, y.2.1, y.2.2.1, y.2.2.2, z.1, z.2].all fun m =>
      decide ((toUtf8 m).length < 2 ^ 32)))))))))))))))))))))))))

theorem World.market_runs : World.marketCase (World.env []).parse = true := by decide +kernel

set_option maxRecDepth 4000 in
theorem World.market {p : Bytes → Res (List Msg)} (h : World.marketCase p = true) : ∃ (A : Str → Option Agent) (own : Store) (ms : List Str), Market (World.parsing p) World.stretch A own ms ∧ ms.length = 15 ∧
    (∀ p, (own.kels p).length ≤ 2 ^ 32) ∧ own.acdcs.length = 2 ∧ ∀ m ∈ ms, (toUtf8 m).length < 2 ^ 32 := by
  unfold World.marketCase at h
  obtain ⟨⟨pre, l, m0⟩, ha, h⟩ := World.holds_ok h
  obtain ⟨ks, hks, h⟩ := World.holds_ok h
  obtain ⟨nks, hnks, h⟩ := World.holds_ok h
  obtain ⟨⟨pre', l', m0'⟩, ha', h⟩ := World.holds_ok h
  obtain ⟨ks', hks', h⟩ := World.holds_ok h
  obtain ⟨nks', hnks', h⟩ := World.holds_ok h
  obtain ⟨⟨ri, s⟩, hr, h⟩ := World.holds_ok h
  obtain ⟨t, -, h⟩ := World.holds_ok h
  obtain ⟨d0, hd0, h⟩ := World.holds_ok h
  obtain ⟨⟨b1, b2⟩, hb, h⟩ := World.holds_ok h
  obtain ⟨g, hg, h⟩ := World.holds_ok h
  obtain ⟨⟨ri', s'⟩, hr', h⟩ := World.holds_ok h
  obtain ⟨t', -, h⟩ := World.holds_ok h
  obtain ⟨d1, hd1, h⟩ := World.holds_ok h
  obtain ⟨⟨b1', b2'⟩, hb', h⟩ := World.holds_ok h
  obtain ⟨g', hg', h⟩ := World.holds_ok h
  obtain ⟨⟨id, x1, x2, x3⟩, hx, h⟩ := World.holds_ok h
  obtain ⟨d3, hd3, h⟩ := World.holds_ok h
  obtain ⟨⟨c1, c2, c3⟩, hc, h⟩ := World.holds_ok h
  obtain ⟨⟨id', y1, y2, y3⟩, hy, h⟩ := World.holds_ok h
  obtain ⟨⟨z1, z2⟩, hz, h⟩ := World.holds_ok h
  obtain ⟨v, hv, h⟩ := World.holds_ok h
  obtain ⟨w, hw, h⟩ := World.holds_ok h
  obtain ⟨u, hu, h⟩ := World.holds_ok h
  obtain ⟨⟨n1, n2⟩, hn, h⟩ := World.holds_ok h
  obtain ⟨k, hk, h⟩ := World.holds_ok h
  obtain ⟨sub, hsub, h⟩ := World.holds_ok h
  obtain ⟨kt, -, h⟩ := World.holds_ok h
  obtain ⟨kid, hkid, h⟩ := World.holds_ok h
  simp only [Bool.and_eq_true, decide_eq_true_eq] at h
  obtain ⟨w1, w2, w3, w4, w5, w6, w7, w8, w9, w10, w11, w12, w13, w14, w15, w16, w17, w18, w19, w20, w21, w22, w23, w24, w25⟩ := h
  obtain ⟨k1, k2, rfl⟩ := List.length_eq_two.mp w1
  obtain ⟨k1', k2', rfl⟩ := List.length_eq_two.mp w2
  cases hks
  cases hnks
  cases hks'
  cases hnks'
  subst w20
  have hon := World.only_ok hn
  subst hon
  have hne : pre' ≠ pre := fun h => w3 h.symm
  have f0 := Market.incept _ _ _ _ _ _ _ _ _ _ _ _ _ _ _ _ .start (.inl rfl) (.inl rfl) (by simp) ha rfl
  have f1 := Market.incept _ _ _ _ _ _ _ _ _ _ _ _ _ _ _ _ f0 (.inl rfl) (.inl rfl) (by simp) ha' (by simp [put, hne])
  have f2 := Market.registry _ pre _ _ _ _ t g _ ⟨[], ks, nks⟩ _ _ _ f1 (by simp only [put, if_neg w3, if_true]) hr w4 w6 hd0 hb hg
  have f3 := Market.registry _ pre' _ _ _ _ t' g' _ ⟨[], ks', nks'⟩ _ _ _ f2 (by simp only [put, if_neg hne, if_true]) hr' w5 w7 hd1 hb' hg'
  have f4 := Market.issue _ _ pre _ _ _ _ _ none none _ _ _ _ ⟨[ri], ks, nks⟩ _ _ _ f3 (by simp only [put, if_neg w3, if_true]) (by simp)
    (fun v' hv' => by rw [hv] at hv'; cases hv'; exact ⟨World.plain_proper _ w10, w11⟩) (by simp) (by simp) hx w8 (fun _ _ _ _ => rfl) rfl
  have f5 := Market.rotate _ _ _ _ _ _ _ pre' _ _ _ ⟨[ri'], ks', nks'⟩ _ _ _ _ f4 (by simp only [put, if_neg hne, if_true]) (.inl rfl) (.inl rfl) hd3 hc
  have hholds : Spec.Holds (World.parsing p) (((((((((Store.empty.insertKeyEvent pre m0).insertKeyEvent pre' m0').insertKeyEvent pre b2).insertTransactionEvent ri (t ++ g)).insertKeyEvent
      pre' b2').insertTransactionEvent ri' (t' ++ g')).insertKeyEvent pre x1).insertTransactionEvent kid x2).insertAcdc x3 |>.insertKeyEvent pre' c3) kid k :=
    ⟨x3, by simp [Store.insertAcdc, Store.insertKeyEvent], hk, hkid⟩
  have hstand : Standing (World.parsing p) (((((((((Store.empty.insertKeyEvent pre m0).insertKeyEvent pre' m0').insertKeyEvent pre b2).insertTransactionEvent ri (t ++ g)).insertKeyEvent
      pre' b2').insertTransactionEvent ri' (t' ++ g')).insertKeyEvent pre x1).insertTransactionEvent kid x2).insertAcdc x3 |>.insertKeyEvent pre' c3) kid := by
    refine .intro kid k hholds ?_ ?_
    · have e : ((((((((((Store.empty.insertKeyEvent pre m0).insertKeyEvent pre' m0').insertKeyEvent pre b2).insertTransactionEvent ri (t ++ g)).insertKeyEvent
        pre' b2').insertTransactionEvent ri' (t' ++ g')).insertKeyEvent pre x1).insertTransactionEvent kid x2).insertAcdc x3).insertKeyEvent pre' c3).tels kid =
        ((((((Store.empty.insertKeyEvent pre m0).insertKeyEvent pre' m0').insertKeyEvent pre b2).insertTransactionEvent ri (t ++ g)).insertKeyEvent
        pre' b2').insertTransactionEvent ri' (t' ++ g')).tels kid ++ [x2] := insert_tels
      rw [e, w8]
      rfl
    · intro source node q he
      rw [World.without_ok w22] at he
      cases he
  have f6 := Market.issue _ _ pre' _ _ _ _ _ _ none _ _ _ _ ⟨[ri'], nks', c2⟩ _ _ _ f5 (by simp only [put, if_true]) (by simp)
    (fun v' hv' => by rw [hw] at hv'; cases hv'; exact ⟨World.plain_proper _ w12, w13⟩)
    (fun t v ht hv' => by
      cases ht
      rw [hu] at hv'
      cases hv'
      refine ⟨World.plain_proper _ w14, w15, .inl ⟨_, rfl⟩, ?_⟩
      rintro node ⟨m, key, hm | ⟨l, hl, -⟩, hmem, -, -⟩
      · cases hm
        rw [List.mem_singleton] at hmem
        cases hmem
        exact ⟨_, ⟨World.names_ok w16, k, sub, kt, hholds, World.subject_ok hsub, w19, .inr ⟨_, World.names_ok w17, rfl⟩, .inr (.inr ⟨.inr (World.names_ok w18), World.names_ok w21⟩)⟩, hstand⟩
      · cases hl) (by simp) hy w9 (fun _ _ _ _ => rfl) rfl
  have f7 := Market.revoke _ _ pre ri kid _ _ k ⟨[ri], ks, nks⟩ _ _ _ f6 (by simp only [put, if_neg w3, if_true])
    ⟨x3, by simp [Store.insertAcdc, Store.insertKeyEvent, Store.insertTransactionEvent], hk, hkid⟩ (World.names_ok w23) (World.names_ok w24) hz
  refine ⟨_, _, _, f7, rfl, ?_, rfl, ?_⟩
  · intro p
    have hk : ∀ (st : Store) q m n, (st.kels p).length ≤ n → ((st.insertKeyEvent q m).kels p).length ≤ n + 1 := by
      intro st q m n hn
      by_cases hp : p = q
      · subst hp; rw [insert_kels]; simpa using hn
      · rw [insert_kels_ne hp]; omega
    have ht : ∀ (st : Store) q m n, (st.kels p).length ≤ n → ((st.insertTransactionEvent q m).kels p).length ≤ n := fun _ _ _ _ h => h
    have hc : ∀ (st : Store) m n, (st.kels p).length ≤ n → ((st.insertAcdc m).kels p).length ≤ n := fun _ _ _ h => h
    refine Nat.le_trans (ht _ _ _ _ (hk _ _ _ _ (hc _ _ _ (ht _ _ _ _ (hk _ _ _ _ (hk _ _ _ _ (hc _ _ _ (ht _ _ _ _ (hk _ _ _ _ (ht _ _ _ _ (hk _ _ _ _ (ht _ _ _ _
      (hk _ _ _ _ (hk _ _ _ _ (hk _ _ _ 0 (Nat.le_refl 0)))))))))))))))) (by decide)
  · intro m hm
    rw [List.all_eq_true] at w25
    exact of_decide_eq_true (w25 m (by simpa using hm))

/-- All that `C93_accepted` and `C93_same` ask for is met. -/
example : ∃ (own : Store) (xs : List Piece) (n : Nat), xs.length = 15 ∧ own.acdcs.length = 2 ∧
    Takes (World.env []) n (some false) none Store.empty xs own := by
  obtain ⟨A, own, ms, h1, h2, h3, h4, h5⟩ := World.market World.market_runs
  obtain ⟨xs, h6, n, h7⟩ := C93_same (World.env []) World.stretch World.crypto_ok World.hash_ok (fun _ _ => rfl) A own ms h1 h5 h3
  exact ⟨own, xs, n, by rw [← h2, h6, List.length_map], h4, h7 n (some false) none (Nat.le_refl _) (by simp) (by simp)⟩

end Keride.Props
