/-
Fair documents do not make the verification of credentials panic, with deep verification or without, given enough stack.
-/
import Verif.Lemmas.FairEvents
import Verif.Lemmas.Rests

namespace Keride

open Matter Spec Sample Saider

/-- The SAID of a stored credential. -/
def credSaid (E : Env) (t : Str) : Option Str :=
  match (do
    let c ← Creder.newWithRaw E.fl (toUtf8 t)
    Sadder.said E.chk c : Res Str) with
  | .ok q => some q
  | _ => none

theorem credSaid_of {E : Env} {t : Str} {c : Sad} {q : Str} (h1 : Creder.newWithRaw E.fl (toUtf8 t) = .ok c) (h2 : Sadder.said E.chk c = .ok q) :
    credSaid E t = some q := by
  unfold credSaid
  rw [h1, Res.ok_bind, h2]

section

variable {S : Scene} {E : Env} {c : Sad}

theorem tame_take {d : Str} (h : Tame d) {n : Nat} : Tame (d.take n) := by
  refine ⟨fun c hc => h.1 c (List.mem_of_mem_take hc), fun hc => h.2.1 (List.mem_of_mem_take hc), fun c hc => h.2.2 c ?_⟩
  cases d with
  | nil => simp at hc
  | cons x d =>
    cases n with
    | zero => simp at hc
    | succ n => simpa using hc

/-! ## The set of what is verified grows -/

theorem acdc_grows {st : Store} {deep : Option Bool} : ∀ fuel,
    (∀ (c : Sad) (l : List SigGroup) (v : List Str) (r : Bool × List Str), verifyAcdc E st deep fuel c l v = .ok r → ∀ q ∈ v, q ∈ r.2) ∧
    (∀ (c : Sad) (l : List (Res Value)) (v w : List Str), verifyEdges E st deep fuel c l v = .ok w → ∀ q ∈ v, q ∈ w) := by
  intro fuel
  induction fuel with
  | zero => exact ⟨fun c l v r h => by (unfold verifyAcdc at h; cases h), fun c l v w h => by (unfold verifyEdges at h; cases h)⟩
  | succ fuel ih =>
    obtain ⟨ih1, ih2⟩ := ih
    constructor
    · intro c l v r h
      unfold verifyAcdc at h
      obtain ⟨_, -, h⟩ := Res.bind_eq_ok.mp h
      split at h
      · cases h
      obtain ⟨_, -, h⟩ := Res.bind_eq_ok.mp h
      obtain ⟨_, -, h⟩ := Res.bind_eq_ok.mp h
      obtain ⟨_, -, h⟩ := Res.bind_eq_ok.mp h
      obtain ⟨_, -, h⟩ := Res.bind_eq_ok.mp h
      obtain ⟨_, -, h⟩ := Res.bind_eq_ok.mp h
      split at h
      · cases h
      obtain ⟨v1, h1, h⟩ := Res.bind_eq_ok.mp h
      obtain ⟨_, -, h⟩ := Res.bind_eq_ok.mp h
      obtain ⟨_, -, h⟩ := Res.bind_eq_ok.mp h
      split at h
      · cases h
      obtain ⟨r1, h2, h⟩ := Res.bind_eq_ok.mp h
      split at h
      · cases h
      obtain ⟨nodes, -, h⟩ := Res.bind_eq_ok.mp h
      obtain ⟨v2, h3, h⟩ := Res.bind_eq_ok.mp h
      have hall : ∀ q ∈ v, q ∈ v2 := fun q hq => ih2 _ _ _ _ h3 q ((verifyProof_events h2).1 q ((checkState_events h1).1 q hq))
      split at h
      · obtain ⟨_, -, h⟩ := Res.bind_eq_ok.mp h
        obtain ⟨_, -, h⟩ := Res.bind_eq_ok.mp h
        split at h
        · cases h
        · cases h; exact hall
      · cases h; exact hall
    · intro c l v w h
      cases l with
      | nil => unfold verifyEdges at h; cases h; exact fun _ h => h
      | cons x l =>
        unfold verifyEdges at h
        obtain ⟨node, -, h⟩ := Res.bind_eq_ok.mp h
        obtain ⟨e, -, h⟩ := Res.bind_eq_ok.mp h
        obtain ⟨v1, h1, h⟩ := Res.bind_eq_ok.mp h
        intro q hq
        refine ih2 _ _ _ _ h q ?_
        split at h1
        · split at h1
          · cases h1; exact hq
          · obtain ⟨g, -, h1⟩ := Res.bind_eq_ok.mp h1
            obtain ⟨r, hr, h1⟩ := Res.bind_eq_ok.mp h1
            cases h1
            exact ih1 _ _ _ _ hr q (List.mem_cons_of_mem _ hq)
        · cases h1; exact hq

/-! ## State -/

theorem cred_said {raw : Bytes} (h : Creder.newWithRaw E.fl raw = .ok c) (hf : FairCred E S c) :
    ((∃ z, Wf c.saider z) ∧ c.saider.code = str% "E") ∧ ∃ d, field (str% "d") c.ked = some (.str d) ∧ ∀ chk, qb64 chk c.saider = .ok (d.take 44) :=
  populated_said (Props.creder_raw.mp (h : Creder.new E.fl none (some raw) none none none = .ok c)).1 fun d hd => (hf.said d hd).1

theorem checkState_calm {st : Store} (hC : ∀ c pk sig ser, E.C.verify c pk sig ser ≠ .panic) (hx : ∀ dt, E.expired dt ≠ .panic) (hs : FairStore E S st)
    (deep : Option Bool) {b fuel : Nat} (hb : Sized b st) (hfuel : b + b + 1 < fuel) {vcid : Str} (hv : ¬ S.registry vcid) (v : List Str) :
    checkState E st deep fuel vcid v ≠ .panic := by
  unfold checkState
  refine Res.calm Res.ofOption_ne_panic fun event hev => ?_
  obtain ⟨s, part, rest, htext, hr, hraw, hf, hk, hi, hatt⟩ := hs.tels _ event (List.mem_of_getLast? (Res.ofOption_eq_ok.mp hev))
  rw [hr, Res.ok_bind]
  have hdt : field (str% "dt") s.ked ≠ none := by
    obtain ⟨t, ht, hft⟩ := hk
    simp only [telTypes, List.mem_cons, List.not_mem_nil, or_false] at ht
    rcases ht with rfl | ht
    · exact absurd ((hf.issuer ⟨_, by simp, hft⟩).2 vcid hi) hv
    · exact (hf.registry ⟨t, by simpa using ht, hft⟩).2.2.2
  refine Res.calm (index_calm hdt) fun x _ => Res.calm (toStr_calm x) fun dt _ => Res.calm (hx dt) fun old _ => ?_
  split
  · nofun
  · refine Res.calm ?_ fun _ _ => Res.calm (index_calm (hf.there _ (by simp))) fun x _ => Res.calm (toStr_calm x) fun t _ => ?_
    · split
      · refine Res.calm (said_calm hr hf _) fun q _ => ?_
        split
        · nofun
        · obtain ⟨h1, h2⟩ := attachedCouples_fair htext hraw hatt
          refine Res.calm h1 fun g hg => Res.calm ?_ fun _ _ => nofun
          refine verifyTel_calm hC hs deep (fun pre => (hb.1 pre).1) fuel hr hf ((Props.C55_pre s _).mpr hi) (h2 g hg) ?_
          have h5 := left_le (eventSaid E) (q :: v) (st.tels vcid)
          have h6 := (hb.1 vcid).2
          omega
      · nofun
    · split <;> nofun

/-! ## Proofs -/

theorem mem_distinct {x : Siger} : ∀ {l seen : List Siger}, x ∈ distinctSigers seen l → x ∈ seen ∨ x ∈ l
  | [], seen, h => .inl h
  | s :: l, seen, h => by
    rw [distinctSigers] at h
    split at h
    · exact (mem_distinct h).imp id (List.mem_cons_of_mem _)
    · rcases mem_distinct h with h | h
      · rcases List.mem_append.mp h with h | h
        · exact .inl h
        · exact .inr (by rw [List.mem_singleton.mp h]; exact List.mem_cons_self)
      · exact .inr (List.mem_cons_of_mem _ h)

theorem verifyPathSig_calm {st : Store} (hC : ∀ c pk sig ser, E.C.verify c pk sig ser ≠ .panic) (hs : FairStore E S st)
    (deep : Option Bool) {b fuel : Nat} (hb : Sized b st) (hfuel : b < fuel) {p : SadPathSig} (hp : FairPath E.chk S p) (v : List Str) :
    verifyPathSig E st deep fuel c p v ≠ .panic := by
  unfold verifyPathSig
  refine Res.calm hp.signer fun pre _ => Res.calm hp.number fun n _ => Res.calm Res.ofOption_ne_panic fun event hev => ?_
  obtain ⟨s, part, rest, htext, hr, hraw, hf, hk, hi, hatt⟩ := hs.kels _ event (getKeyEvent_mem hev)
  rw [hr, Res.ok_bind]
  refine Res.calm (said_calm hr hf _) fun said hsaid => Res.calm hp.digest fun q hq => ?_
  split
  · nofun
  · rename_i hne
    have e : said = q := not_not.mp hne
    subst e
    have hkeys : S.keys (entries (field (str% "k") s.ked)) := by
      obtain ⟨t, ht, hft⟩ := hk
      refine hf.count ⟨t, ?_, hft⟩
      simp only [keyTypes, List.mem_cons, List.not_mem_nil, or_false] at ht
      rcases ht with rfl | rfl | rfl
      · simp
      · simp
      · exfalso
        obtain ⟨-, d, hd, hqd⟩ := populated_said (Props.serder_raw.mp (hr : Serder.new E.fl none (some _) none none none = .ok s)).1
          fun d hd => hf.tame (str% "d") (by simp) d hd
        have e : Sadder.said E.chk s = .ok (d.take 44) := hqd E.chk
        rw [hsaid] at e
        cases e
        exact hp.est _ hq (hf.interaction ⟨_, by simp, hft⟩ d hd)
    refine Res.calm ?_ fun w _ => Res.calm (verfers_calm hf) fun ks hks => ?_
    · split
      · split
        · nofun
        · obtain ⟨h1, h2⟩ := attachedQuadlets_fair htext hraw hatt
          refine Res.calm h1 fun g hg => Res.calm ?_ fun _ _ => nofun
          refine verifyKeyEvent_calm hC hs deep fuel hr hf ((Props.C55_pre s _).mpr hi) (h2 g hg) ?_
          exact Nat.lt_of_le_of_lt (left_le _ _ _) (Nat.lt_of_le_of_lt (hb.1 _).1 hfuel)
      · nofun
    · obtain ⟨hl, -⟩ := verfers_out hf hks
      obtain ⟨h1, h2⟩ := verifySigers_calm hC (ks := ks) (ser := c.raw) (l := distinctSigers [] p.sigers) fun x hx e => by
        refine hp.sigs x ((mem_distinct hx).resolve_left nofun) ?_
        rw [e, hl]
        exact hkeys
      obtain ⟨h3, h4⟩ := tholderAt_calm (fl := E.fl) hf.thold
      refine Res.calm h1 fun verified hver => Res.calm (show Serder.tholder E.chk E.fl s ≠ .panic from h3) fun t ht => ?_
      cases t with
      | none => nofun
      | some t =>
        refine Res.calm (h4 t ht _ ?_) fun good _ => ?_
        · intro i hi
          obtain ⟨x, hx, rfl⟩ := List.mem_map.mp hi
          rw [← hl]
          exact h2 verified hver x hx
        · split <;> nofun

theorem verifyPathSigs_calm {st : Store} (hC : ∀ c pk sig ser, E.C.verify c pk sig ser ≠ .panic) (hs : FairStore E S st)
    (deep : Option Bool) {b fuel : Nat} (hb : Sized b st) (hfuel : b < fuel) : ∀ {l : List SadPathSig}, (∀ p ∈ l, FairPath E.chk S p) → ∀ (rooted : Bool) (v : List Str),
      verifyPathSigs E st deep fuel c l rooted v ≠ .panic
  | [], _, _, _ => nofun
  | p :: l, hp, rooted, v => by
    have ih := verifyPathSigs_calm hC hs deep hb hfuel (fun x hx => hp x (List.mem_cons_of_mem _ hx) : ∀ x ∈ l, FairPath E.chk S x)
    rw [verifyPathSigs]
    refine Res.calm (hp p List.mem_cons_self).path fun t _ => ?_
    split
    · exact ih rooted v
    · exact Res.calm (verifyPathSig_calm hC hs deep hb hfuel (hp p List.mem_cons_self) v) fun w _ => ih true w

theorem verifyProof_calm {st : Store} (hC : ∀ c pk sig ser, E.C.verify c pk sig ser ≠ .panic) (hs : FairStore E S st)
    (deep : Option Bool) {b fuel : Nat} (hb : Sized b st) (hfuel : b < fuel) : ∀ {l : List SigGroup}, (∀ ps, SigGroup.sadPath ps ∈ l → ∀ p ∈ ps, FairPath E.chk S p) →
      ∀ (rooted : Bool) (v : List Str), verifyProof E st deep fuel c l rooted v ≠ .panic
  | [], _, _, _ => nofun
  | .sadPath ps :: l, hp, rooted, v => by
    rw [verifyProof]
    exact Res.calm (verifyPathSigs_calm hC hs deep hb hfuel (hp ps List.mem_cons_self) rooted v) fun r _ =>
      verifyProof_calm hC hs deep hb hfuel (fun x hx => hp x (List.mem_cons_of_mem _ hx)) r.1 r.2
  | .controller _ :: _, _, _, _ => by rw [verifyProof] <;> nofun
  | .other :: _, _, _, _ => by rw [verifyProof] <;> nofun

/-! ## Edges -/

theorem getAcdc_fair {st : Store} (hs : FairStore E S st) {q t : Str} (h : st.getAcdc E q = .ok t) : t ∈ st.acdcs ∧ FairStored E S t :=
  have hm := List.mem_of_find?_eq_some (Res.ofOption_eq_ok.mp h)
  ⟨hm, hs.acdcs t hm⟩

theorem operatorsOf_calm {m : List (Str × Value)} (h : FairNode E S (.obj m)) : operatorsOf m ≠ .panic ∧ ∀ ops, operatorsOf m = .ok ops → ∀ o ∈ ops, Named o (.obj m) := by
  have e : Value.find (str% "o") m = field (str% "o") (.obj m) := (field_find _ _).symm
  unfold operatorsOf
  rw [e]
  cases ho : field (str% "o") (.obj m) with
  | none => exact ⟨nofun, fun ops hops => by cases hops; nofun⟩
  | some v =>
    cases v with
    | str s => exact ⟨nofun, fun ops hops => by cases hops; intro o hm; rw [List.mem_singleton.mp hm]; exact .inl ho⟩
    | arr l =>
      have ht := h.texts l ho
      have key : ∀ l' : List Value, (∀ o ∈ l', ∃ s, o = .str s) → ∃ r, Res.mapList (fun o : Value => o.toStr.unwrap) l' = .ok r ∧ ∀ o ∈ r, Value.str o ∈ l' := by
        intro l' hl
        induction l' with
        | nil => exact ⟨[], rfl, nofun⟩
        | cons x l' ih =>
          obtain ⟨s, rfl⟩ := hl x List.mem_cons_self
          obtain ⟨r, hr, hin⟩ := ih fun o ho => hl o (List.mem_cons_of_mem _ ho)
          refine ⟨s :: r, ?_, ?_⟩
          · rw [Res.mapList, hr]
            rfl
          · intro o ho
            rcases List.mem_cons.mp ho with rfl | ho
            · exact List.mem_cons_self
            · exact List.mem_cons_of_mem _ (hin o ho)
      obtain ⟨r, hr, hin⟩ := key l ht
      dsimp only
      rw [hr]
      exact ⟨nofun, fun ops hops => by cases hops; exact fun o ho' => .inr ⟨l, ho, hin o ho'⟩⟩
    | _ => exact ⟨nofun, nofun⟩

theorem operatorOf_calm (ops : List Str) (subject : List (Str × Value)) : operatorOf ops subject ≠ .panic ∧ ∀ op, operatorOf ops subject = .ok op →
    op ∈ ops ∨ (op = str% "I2I" ∧ Value.hasKey (str% "i") subject = true) ∨ op = str% "NI2I" := by
  unfold operatorOf
  split
  · exact ⟨nofun, nofun⟩
  dsimp only
  generalize hl : (if (ops.filter fun o => unary.contains o).isEmpty then (if Value.hasKey (str% "i") subject then [str% "I2I"] else [str% "NI2I"]) else ops.filter fun o => unary.contains o) = l
  split
  · exact ⟨nofun, nofun⟩
  rename_i hone
  match l, hone with
  | [x], _ =>
    refine ⟨nofun, fun op h => ?_⟩
    cases h
    split at hl
    · split at hl
      · rename_i hk
        cases hl
        exact .inr (.inl ⟨rfl, hk⟩)
      · cases hl
        exact .inr (.inr rfl)
    · have : x ∈ ops.filter fun o => unary.contains o := by rw [hl]; exact List.mem_cons_self
      exact .inl (List.mem_filter.mp this).1
  | [], h => exact absurd (by simp) h
  | _ :: _ :: _, h => exact absurd (by simp) h

theorem checkEdge_calm {st : Store} (hs : FairStore E S st) (hi : field (str% "i") c.ked ≠ none) {node : Value} (hn : ∀ m, node = .obj m → FairNode E S node) :
    checkEdge E st c node ≠ .panic := by
  unfold checkEdge
  refine Res.calm (toMap_calm _) fun map hmap => ?_
  have hnode : node = .obj map := toMap_ok hmap
  have hf := hn map hnode
  rw [hnode] at hf
  refine Res.calm ?_ fun n hfn => Res.calm (toStr_calm n) fun said hsd => Res.calm Res.ofOption_ne_panic fun message hmsg => ?_
  · have h1 := hf.there
    rw [field_find] at h1
    cases h2 : Value.find (str% "n") map with
    | none => exact absurd h2 h1
    | some x => nofun
  obtain ⟨hm, p, part, rest, htext, hread, hraw, hp, hatt⟩ := getAcdc_fair hs hmsg
  rw [hread, Res.ok_bind]
  have hsaidn : field (str% "n") (.obj map) = some (.str said) := by
    rw [field_find, orPanic_ok.mp hfn, toStr_ok hsd]
  have hsaidp : Sadder.said E.chk p = .ok said := by
    have hhas := List.find?_some (Res.ofOption_eq_ok.mp hmsg)
    unfold hasSaid at hhas
    rw [hread, Res.ok_bind] at hhas
    split at hhas
    · rename_i q hq
      rw [hq, of_decide_eq_true hhas]
    · cases hhas
  refine Res.calm ?_ fun ok _ => ?_
  · cases hfs : Value.find (str% "s") map with
    | none => nofun
    | some v =>
      refine Res.calm (toStr_calm v) fun s hs' => Res.calm (fromUtf8_ne_panic _) fun t _ => ?_
      exact hf.schema s (by rw [field_find, hfs, toStr_ok hs']) t
  split
  · nofun
  obtain ⟨h1, h2⟩ := operatorsOf_calm hf
  refine Res.calm h1 fun ops hops => ?_
  split
  · nofun
  refine Res.calm (index_calm (hp.there _ (by simp))) fun a ha => Res.calm (toMap_calm _) fun subject hsub => ?_
  have ha' : field (str% "a") p.ked = some (.obj subject) := by
    rw [← toMap_ok hsub]
    exact index_field ha
  obtain ⟨h3, h4⟩ := operatorOf_calm ops subject
  refine Res.calm h3 fun op hop => Res.calm ?_ fun _ _ => nofun
  unfold applyOperator
  have hin := h4 op hop
  split
  · rename_i e
    subst e
    have hfi : field (str% "i") (.obj subject) ≠ none := by
      rcases hin with hin | ⟨-, hk⟩ | e
      · have hrec := hf.issuee (h2 ops hops _ hin) said hsaidn
        obtain ⟨-, d, hd, hqd⟩ := cred_said hread hp
        have e : Sadder.said E.chk p = .ok (d.take 44) := hqd E.chk
        rw [hsaidp] at e
        cases e
        exact hp.recipient d _ hd hrec ha'
      · exact field_of_hasKey hk
      · exact absurd e (by decide)
    refine Res.calm ?_ fun v _ => Res.calm (toStr_calm v) fun s _ => Res.calm ?_ fun issuer _ => ?_
    · rw [field_find] at hfi
      cases h : Value.find (str% "i") subject with
      | none => exact absurd h hfi
      | some x => nofun
    · unfold Creder.issuer
      exact Res.calm (index_calm hi) fun x _ => toStr_calm x
    · split <;> nofun
  · split
    · nofun
    · split
      · rename_i e
        subst e
        rcases hin with hin | ⟨e, -⟩ | e
        · exact absurd (h2 ops hops _ hin) hf.delegated
        · exact absurd e (by decide)
        · exact absurd e (by decide)
      · nofun

/-- The nodes of the edges of a fair credential. -/
theorem edgeNodes_fair (hf : FairCred E S c) {prov : Value} (hp : Creder.chains c = .ok prov) : edgeNodes prov ≠ .panic ∧ ∀ nodes, edgeNodes prov = .ok nodes →
    nodes.length ≤ S.branches ∧ ∀ x ∈ nodes, x ≠ .panic ∧ ∀ node, x = .ok node → ∀ m, node = .obj m → FairNode E S node := by
  have hone : ∀ x, (nodesOf x).length ≤ (match x with | .obj o => o.length | _ => 1) := by
    intro x
    cases x with
    | obj o =>
      change ((o.filter _).map _).length ≤ o.length
      rw [List.length_map]
      exact List.length_filter_le _ _
    | _ => exact Nat.le_refl _
  have hnode : ∀ edge, Edge c edge → ∀ x ∈ nodesOf edge, x ≠ .panic ∧ ∀ node, x = .ok node → ∀ m, node = .obj m → FairNode E S node := by
    intro edge he x hx
    cases edge with
    | obj o =>
      change x ∈ (o.filter fun p => !([str% "d", str% "o"].contains p.1)).map fun p => .ok p.2 at hx
      obtain ⟨p, hp, rfl⟩ := List.mem_map.mp hx
      obtain ⟨hp1, hp2⟩ := List.mem_filter.mp hp
      refine ⟨nofun, fun node hnode m hm => ?_⟩
      cases hnode
      simp only [Bool.not_eq_true', List.contains_cons, List.contains_nil, Bool.or_false, Bool.or_eq_false_iff, beq_eq_false_iff_ne, ne_eq] at hp2
      exact hf.edges _ o p.1 p.2 he rfl hp1 hp2.1 hp2.2 m hm
    | _ =>
      refine ⟨?_, ?_⟩ <;> rw [List.mem_singleton.mp hx] <;> nofun
  unfold Creder.chains at hp
  obtain ⟨o, ho, hp⟩ := Res.bind_eq_ok.mp hp
  have ho := toMap_ok ho
  have hfe : field (str% "e") c.ked = Value.find (str% "e") o := by rw [ho, field_find]
  cases he : Value.find (str% "e") o with
  | none =>
    rw [he] at hp
    cases hp
    refine ⟨nofun, fun nodes hn => ?_⟩
    cases hn
    exact ⟨Nat.zero_le _, nofun⟩
  | some e =>
    rw [he] at hp hfe
    cases hp
    have hfew := hf.few
    unfold branches at hfew
    rw [hfe] at hfew
    change edgeNodes e ≠ .panic ∧ ∀ nodes, edgeNodes e = .ok nodes → _
    cases e with
    | obj m =>
      refine ⟨nofun, fun nodes hn => ?_⟩
      have hn' : nodes = nodesOf (.obj m) := by
        have : edgeNodes (.obj m) = .ok (nodesOf (.obj m)) := by
          unfold edgeNodes
          simp
        rw [this] at hn
        exact (Res.ok.inj hn).symm
      subst hn'
      exact ⟨Nat.le_trans (hone _) hfew, hnode _ ⟨_, hfe, .inl ⟨m, rfl, rfl⟩⟩⟩
    | arr l =>
      refine ⟨nofun, fun nodes hn => ?_⟩
      have hn' : nodes = l.flatMap nodesOf := (Res.ok.inj (hn : Res.ok (l.flatMap nodesOf) = .ok nodes)).symm
      subst hn'
      constructor
      · refine Nat.le_trans ?_ hfew
        rw [List.length_flatMap]
        clear hfew hnode hn hfe he hp
        change (l.map fun a => (nodesOf a).length).sum ≤ (l.map fun x => match x with | .obj o => o.length | _ => 1).sum
        induction l with
        | nil => exact Nat.le_refl _
        | cons x l ih =>
          simp only [List.map_cons, List.sum_cons]
          exact Nat.add_le_add (hone x) ih
      · intro x hx
        obtain ⟨edge, hm, hx⟩ := List.mem_flatMap.mp hx
        exact hnode edge ⟨_, hfe, .inr ⟨l, rfl, hm⟩⟩ x hx
    | _ => exact ⟨nofun, nofun⟩

/-! ## Credentials -/

theorem acdc_calm {st : Store} (hC : ∀ c pk sig ser, E.C.verify c pk sig ser ≠ .panic) (hx : ∀ dt, E.expired dt ≠ .panic) (hs : FairStore E S st)
    (deep : Option Bool) {b : Nat} (hb : Sized b st) : ∀ fuel,
    (∀ (raw : Bytes) (c : Sad) (l : List SigGroup) (v : List Str), Creder.newWithRaw E.fl raw = .ok c → FairCred E S c → FairGroup E.chk S (.quadlets l) →
      (left (credSaid E) v st.acdcs + 1) * (S.branches + 2) + (b + b + 2) ≤ fuel → verifyAcdc E st deep fuel c l v ≠ .panic) ∧
    (∀ (c : Sad) (nodes : List (Res Value)) (v : List Str), field (str% "i") c.ked ≠ none →
      (∀ x ∈ nodes, x ≠ .panic ∧ ∀ node, x = .ok node → ∀ m, node = .obj m → FairNode E S node) →
      nodes.length + 1 + left (credSaid E) v st.acdcs * (S.branches + 2) + (b + b + 2) ≤ fuel → verifyEdges E st deep fuel c nodes v ≠ .panic) := by
  intro fuel
  induction fuel with
  | zero => exact ⟨fun _ _ _ _ _ _ _ h => by omega, fun _ _ _ _ _ h => by omega⟩
  | succ fuel ih =>
    obtain ⟨ih1, ih2⟩ := ih
    constructor
    · intro raw c l v hr hf hl hfuel
      obtain ⟨⟨hw, hcode⟩, d, hd, hq⟩ := cred_said hr hf
      have hsaid : Sadder.said E.chk c = .ok (d.take 44) := hq E.chk
      rw [Nat.add_mul] at hfuel
      unfold verifyAcdc
      refine Res.calm ?_ fun status hst => ?_
      · unfold Creder.status
        refine Res.calm (toMap_calm _) fun map _ => ?_
        cases Value.find (str% "ri") map with
        | none => nofun
        | some v => exact Res.calm (toStr_calm v) fun _ _ => nofun
      obtain ⟨o, ho, -⟩ := Res.bind_eq_ok.mp hst
      have ho := toMap_ok ho
      split
      · nofun
      rw [hsaid, Res.ok_bind]
      refine Res.calm ?_ fun schema hsch => Res.calm ?_ fun prov hprov => Res.calm ?_ fun saider hsdr => ?_
      · unfold Creder.schema
        exact Res.calm (index_calm (hf.there _ (by simp))) fun x _ => toStr_calm x
      · unfold Creder.chains
        exact Res.calm (toMap_calm _) fun _ _ => nofun
      · exact saiderOf_calm (tame_take (hf.said d hd).1)
      obtain ⟨hm1, hm2⟩ := saiderOf_ok (show Sadder.saiderOf (d.take 44) = .ok saider from hsdr)
      rw [ho]
      refine Res.calm (saider_verify_calm (tame_wf (tame_take (hf.said d hd).1) hm1) hm2 (some (str% "JSON"))) fun good _ => ?_
      split
      · nofun
      refine Res.calm (checkState_calm hC hx hs deep hb (by omega) (hf.said d hd).2 v) fun v1 h1 => Res.calm (fromUtf8_ne_panic _) fun text _ => ?_
      have hknown : KnownSchema E schema := by
        unfold Creder.schema at hsch
        obtain ⟨x, hx1, hx2⟩ := Res.bind_eq_ok.mp hsch
        exact hf.schema _ (index_text hx1 hx2)
      refine Res.calm (hknown text) fun fits _ => ?_
      split
      · nofun
      refine Res.calm (verifyProof_calm hC hs deep hb (by omega) hl.2 false v1) fun r hr1 => ?_
      split
      · nofun
      obtain ⟨he1, he2⟩ := edgeNodes_fair hf hprov
      refine Res.calm he1 fun nodes hn => ?_
      obtain ⟨hlen, hnodes⟩ := he2 nodes hn
      refine Res.calm (ih2 c nodes r.2 (hf.there _ (by simp)) hnodes ?_) fun v2 _ => ?_
      · have h5 : left (credSaid E) r.2 st.acdcs ≤ left (credSaid E) v st.acdcs :=
          left_mono fun q hq => (verifyProof_events hr1).1 q ((checkState_events h1).1 q hq)
        have h6 := Nat.mul_le_mul_right (S.branches + 2) h5
        omega
      · cases hg : st.getAcdc E (d.take 44) with
        | ok message =>
          obtain ⟨hm, p, part, rest, htext, hread, hraw, hp, hatt⟩ := getAcdc_fair hs hg
          dsimp only
          rw [hread, Res.ok_bind]
          obtain ⟨-, d', -, hq'⟩ := cred_said hread hp
          have hsaid' : Sadder.said E.chk p = .ok (d'.take 44) := hq' E.chk
          rw [hsaid', Res.ok_bind]
          split <;> nofun
        | err e => nofun
        | panic => nofun
    · intro c nodes v hi hn hfuel
      cases nodes with
      | nil => unfold verifyEdges; nofun
      | cons x nodes =>
        unfold verifyEdges
        rw [List.length_cons] at hfuel
        obtain ⟨hx1, hx2⟩ := hn x List.mem_cons_self
        refine Res.calm hx1 fun node hnode => Res.calm (checkEdge_calm hs hi (hx2 node hnode)) fun e he => ?_
        obtain ⟨⟨hg, hread, hsaid⟩, -⟩ := checkEdge_found he
        obtain ⟨hm, p, part, rest, htext, hread', hraw, hp, hatt⟩ := getAcdc_fair hs hg
        rw [hread] at hread'
        cases hread'
        refine Res.calm ?_ fun w hw => ?_
        · split
          · split
            · nofun
            · rename_i hv
              obtain ⟨h1, h2⟩ := attachedQuadlets_fair htext hraw hatt
              refine Res.calm h1 fun g hg' => Res.calm ?_ fun _ _ => nofun
              refine ih1 _ _ g _ hread hp (h2 g hg') ?_
              have h5 := left_cons (l := st.acdcs) (Bool.eq_false_iff.mpr hv) (credSaid_of hread hsaid) hm
              have h6 := Nat.mul_le_mul_right (S.branches + 2) (show left (credSaid E) (e.1 :: v) st.acdcs + 1 ≤ left (credSaid E) v st.acdcs from h5)
              omega
          · nofun
        · refine ih2 c nodes w hi (fun y hy => hn y (List.mem_cons_of_mem _ hy)) ?_
          have h5 : left (credSaid E) w st.acdcs ≤ left (credSaid E) v st.acdcs := by
            refine left_mono fun q hq => ?_
            split at hw
            · split at hw
              · cases hw; exact hq
              · obtain ⟨g, -, hw⟩ := Res.bind_eq_ok.mp hw
                obtain ⟨r, hr, hw⟩ := Res.bind_eq_ok.mp hw
                cases hw
                exact (acdc_grows fuel).1 _ _ _ _ hr q (List.mem_cons_of_mem _ hq)
            · cases hw; exact hq
          have h6 := Nat.mul_le_mul_right (S.branches + 2) h5
          omega

end

end Keride
