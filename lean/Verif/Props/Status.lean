/-
C107: verifiers do not disagree about what became of a credential.
-/
import Verif.Spec.Status
import Verif.Props.Honest

namespace Keride.Props

open Matter Spec Sample

section
variable {H : Hash} {chk : Bool} {W : Known} {id : Str}

/-- The events of a transaction log are numbered, and name the identifier. -/
theorem ValidTel.numbers {log : List Sad} (h : ValidTel H chk W id log) : ∀ i e, log[i]? = some e → Serder.sn e = .ok i ∧ HasText (str% "i") id e := by
  induction h with
  | incept x a ii type ident sn =>
    intro i e he
    match i, he with
    | 0, he => cases he; exact ⟨sn, ident⟩
  | issue x ri type ident sn =>
    intro i e he
    match i, he with
    | 0, he => cases he; exact ⟨sn, ident⟩
  | revoke log prev x ri psaid before type ident sn fields digest last prior chained registry anchored ih =>
    intro i e he
    by_cases hi : i < log.length
    · rw [List.getElem?_append_left hi] at he
      exact ih i e he
    · have : i = log.length := by
        have := (List.getElem?_eq_some_iff.mp he).1
        simp at this
        omega
      subst this
      simp at he
      subst he
      exact ⟨sn, ident⟩

/-- Issuances and revocations are addressed by their content. -/
theorem ValidTel.addressed {log : List Sad} (h : ValidTel H chk W id log) : ∀ e ∈ log, HasText (str% "t") (str% "iss") e ∨ HasText (str% "t") (str% "rev") e →
    SelfAddressed H chk e := by
  induction h with
  | incept x a ii type ident sn =>
    intro e he ht
    cases List.mem_singleton.mp he
    unfold HasText at type ht
    rw [type] at ht
    rcases ht with ht | ht <;> cases ht
  | issue x ri type ident sn fields digest =>
    intro e he _
    cases List.mem_singleton.mp he
    exact digest
  | revoke log prev x ri psaid before type ident sn fields digest last prior chained registry anchored ih =>
    intro e he ht
    rcases List.mem_append.mp he with he | he
    · exact ih e he ht
    · cases List.mem_singleton.mp he
      exact digest

end

/-- C107: as long as the keys of a controller sign the events of one log, which never seals two transaction events with one identifier and number, any two
verifiers, whatever each was sent, have the same issuances and revocations under the registries of the controller at the places they both have. So one may know
less than another, but they do not disagree about what became of a credential. Or digests collide. -/
theorem C107_status (E : Env) (hH : HashOk E.H) (hist hist' : List (Msg × Msg)) (st st' : Store) (h : Reach E hist st) (h' : Reach E hist' st')
    (hlen : ∀ p, (st.kels p).length ≤ 2 ^ 32 ∧ (st.tels p).length ≤ 2 ^ 32) (hlen' : ∀ p, (st'.kels p).length ≤ 2 ^ 32 ∧ (st'.tels p).length ≤ 2 ^ 32) (pre : Str)
    (own : List Entry) (hown : ValidLog E.H E.C E.chk E.fl pre own) (hread : ∀ x ∈ own, ∃ r, Serder.newWithRaw E.fl r = .ok x.sad)
    (hfew : ∀ x ∈ own, ∀ t, Serder.tholder E.chk E.fl x.sad = .ok (some t) ∨ Serder.ntholder E.chk E.fl x.sad = .ok (some t) → FewWeights t)
    (hsigns : SignsOnly E own hist) (hsigns' : SignsOnly E own hist') (ho : ∀ x ∈ own, Ordinary x.sad)
    (hord : ∀ payload g s, (Msg.payload payload, g) ∈ hist ++ hist' → Serder.newWithRaw E.fl (toUtf8 payload) = .ok s → Ordinary s)
    (honce : SealsOnce E.chk own) (id : Str) (n : Nat) (e e' : Sad) (he : KeptUnder E st pre id n e) (he' : KeptUnder E st' pre id n e') :
    ∃ log log', List.Forall₂ (Stored E.fl hist) (st.kels pre) log ∧ List.Forall₂ (Stored E.fl hist') (st'.kels pre) log' ∧
      (SameButSaid e e' ∨ Collision E.H (str% "E") (LogText own) (LogText log) ∨ Collision E.H (str% "E") (LogText own) (LogText log') ∨
        Collision E.H (str% "E") (EventText e) (EventText e')) := by
  have side : ∀ (hist : List (Msg × Msg)) (st : Store) (e : Sad), Reach E hist st → (∀ p, (st.kels p).length ≤ 2 ^ 32 ∧ (st.tels p).length ≤ 2 ^ 32) →
      SignsOnly E own hist → (∀ payload g s, (Msg.payload payload, g) ∈ hist → Serder.newWithRaw E.fl (toUtf8 payload) = .ok s → Ordinary s) →
      KeptUnder E st pre id n e → Serder.sn e = .ok n ∧ HasText (str% "i") id e ∧ SelfAddressed E.H E.chk e ∧ Ordinary e ∧
        ∃ log, List.Forall₂ (Stored E.fl hist) (st.kels pre) log ∧ ((∃ x ∈ own, Seals E.chk x.sad e) ∨ Collision E.H (str% "E") (LogText own) (LogText log)) := by
    rintro hist st e h hlen hsigns hord ⟨⟨t, k1, k2⟩, k3, ri, k4, k5⟩
    obtain ⟨log, f, hc⟩ := C106_transactions E hH hist st h hlen pre own hown hread hfew hsigns ho hord
    obtain ⟨tel, g, hv⟩ := telsOk hH h id (hlen id).2
    obtain ⟨x, hx, payload, _, _, _, hm, hp, -, -, hr⟩ := forall₂_get g k1
    rw [k2] at hr
    cases hr
    have hv := hv.resolve_left (by rintro rfl; cases hx)
    obtain ⟨a1, a2⟩ := ValidTel.numbers hv n e hx
    exact ⟨a1, a2, ValidTel.addressed hv e (List.mem_of_getElem? hx) k3, hord payload _ _ hm hp, log, f,
      hc.imp (fun k => (k id t (List.mem_of_getElem? k1) e k2).2 ri k3 k4 k5) (fun k => k)⟩
  obtain ⟨a1, a2, a3, a4, log, a5, a6⟩ := side hist st e h hlen hsigns (fun p g s hm => hord p g s (by simp [hm])) he
  obtain ⟨b1, b2, b3, b4, log', b5, b6⟩ := side hist' st' e' h' hlen' hsigns' (fun p g s hm => hord p g s (by simp [hm])) he'
  refine ⟨log, log', a5, b5, ?_⟩
  rcases a6 with ⟨x, hx, hs⟩ | c
  · rcases b6 with ⟨y, hy, hs'⟩ | c
    · have hsaid := honce x hx y hy e e' id n hs hs' a2 b2 a1 b1
      have ⟨_, _, _, d, _, _, _, _, _, _, hd⟩ := hs
      rcases same_content (byContent_self a3 a4) (byContent_self b3 b4) hd (hsaid ▸ hd) with c | c
      · exact .inr (.inr (.inr c))
      · exact .inl fun l hl => c l (by simpa using hl) (by simpa using hl)
    · exact .inr (.inr (.inl c))
  · exact .inr (.inl c)

/-! ## Who controls a registry -/

/-- What is derived into the identifier of a registry determines it. -/
theorem derived_same {H : Hash} {id : Str} {s s' : Sad} {m : M} (hm : Matter.newWithQb64 id = .ok m) (hd : m.code ∈ digests) (h : Derived H id s) (h' : Derived H id s')
    (ho : Ordinary s) (ho' : Ordinary s') : (∀ l, l ∉ [str% "d", str% "i", str% "v"] → field l s.ked = field l s'.ked) ∨
      Collision H m.code (RegistryText m.code s) (RegistryText m.code s') := by
  have side : ∀ s, Derived H id s → Ordinary s → ∃ w, RegistryText m.code s (Value.obj w).toJson ∧ m = ⟨m.code, 0, H m.code (toUtf8 (Value.obj w).toJson)⟩ ∧
      Proper IsDecimal (.obj w) ∧ ∀ l, l ∉ [str% "d", str% "i", str% "v"] → field l (.obj w) = field l s.ked := by
    rintro s (⟨o, text, code, -, e, hz, hn⟩ | ⟨⟨m', hn, hnd⟩, -⟩) ⟨o', e', hh, hp⟩
    · rw [e] at e'
      cases e'
      rw [hm] at hn
      cases hn
      have ⟨vs, _, _, hr⟩ := hz
      have := hr (by
        unfold blanked
        rw [head_put, head_put]
        exact hh)
      rw [this] at hz ⊢
      refine ⟨_, ⟨o, e, hz⟩, rfl, proper_put (proper_put (proper_put hp)), ?_⟩
      intro l hl
      simp only [List.mem_cons, List.not_mem_nil, or_false, not_or] at hl
      rw [e, field_put hl.2.2]
      unfold blanked
      rw [field_put hl.1, field_put hl.2.1]
    · rw [hm] at hn
      cases hn
      exact absurd hd hnd
  obtain ⟨w, h1, h2, h3, h4⟩ := side s h ho
  obtain ⟨w', h1', h2', h3', h4'⟩ := side s' h' ho'
  by_cases hx : (Value.obj w).toJson = (Value.obj w').toJson
  · left
    have := toJson_inj_dec h3 h3' hx
    intro l hl
    rw [← h4 l hl, ← h4' l hl, this]
  · refine .inr ⟨_, _, h1, h1', hx, ?_⟩
    exact (congrArg M.raw h2).symm.trans (congrArg M.raw h2')

/-- C107: two verifiers that both keep the inception of a registry, whose identifier is a digest, agree about who controls it. Or digests collide. Missing: a
verifier that keeps something else under the identifier of the registry, which `C107_controller_false` shows to happen. -/
theorem C107_controller_partial (E : Env) (hH : HashOk E.H) (hist hist' : List (Msg × Msg)) (st st' : Store) (h : Reach E hist st) (h' : Reach E hist' st')
    (ri ii ii' : Str) (hlen : (st.tels ri).length ≤ 2 ^ 32) (hlen' : (st'.tels ri).length ≤ 2 ^ 32)
    (ho : ∀ payload g s, (Msg.payload payload, g) ∈ hist ++ hist' → Serder.newWithRaw E.fl (toUtf8 payload) = .ok s → Ordinary s)
    (m : M) (hm : Matter.newWithQb64 ri = .ok m) (hd : m.code ∈ digests) (first first' : Str) (r r' : Sad)
    (hf : (st.tels ri).head? = some first) (hf' : (st'.tels ri).head? = some first') (hr : Serder.newWithRaw E.fl (toUtf8 first) = .ok r)
    (hr' : Serder.newWithRaw E.fl (toUtf8 first') = .ok r') (hv : HasText (str% "t") (str% "vcp") r) (hv' : HasText (str% "t") (str% "vcp") r')
    (hc : HasText (str% "ii") ii r) (hc' : HasText (str% "ii") ii' r') :
    ii = ii' ∨ Collision E.H m.code (RegistryText m.code r) (RegistryText m.code r') := by
  have side : ∀ (hist : List (Msg × Msg)) (st : Store) (first : Str) (r : Sad), Reach E hist st → (st.tels ri).length ≤ 2 ^ 32 →
      (∀ payload g s, (Msg.payload payload, g) ∈ hist → Serder.newWithRaw E.fl (toUtf8 payload) = .ok s → Ordinary s) →
      (st.tels ri).head? = some first → Serder.newWithRaw E.fl (toUtf8 first) = .ok r → HasText (str% "t") (str% "vcp") r → Derived E.H ri r ∧ Ordinary r := by
    intro hist st first r h hlen ho hf hr hv
    obtain ⟨tel, g, hvt⟩ := telsOk hH h ri hlen
    rw [List.head?_eq_getElem?] at hf
    obtain ⟨x, hx, payload, _, _, _, hm, hp, -, -, hx'⟩ := forall₂_get g hf
    rw [hr] at hx'
    cases hx'
    refine ⟨?_, ho payload _ _ hm hp⟩
    replace hvt := hvt.resolve_left (by rintro rfl; cases hx)
    clear g
    have : ∀ tel, ValidTel E.H E.chk (knownIn E.fl st) ri tel → tel[0]? = some r → Derived E.H ri r := by
      intro tel hvt
      induction hvt with
      | incept e a i type ident sn fields derived =>
        intro hx
        cases hx
        exact derived
      | issue e i type =>
        intro hx
        cases hx
        unfold HasText at type hv
        rw [type] at hv
        cases hv
      | revoke log prev e ri psaid before type ident sn fields digest last prior chained registry anchored ih =>
        intro hx
        cases log with
        | nil => cases last
        | cons y log => exact ih hx
    exact this tel hvt hx
  obtain ⟨d1, o1⟩ := side hist st first r h hlen (fun p g s hm => ho p g s (by simp [hm])) hf hr hv
  obtain ⟨d2, o2⟩ := side hist' st' first' r' h' hlen' (fun p g s hm => ho p g s (by simp [hm])) hf' hr' hv'
  refine (derived_same hm hd d1 d2 o1 o2).imp (fun k => ?_) id
  unfold HasText at hc hc'
  rw [k (str% "ii") (by decide), hc'] at hc
  cases hc
  rfl

/-- B issues, under the registry of B, something with the identifier of the registry of A, in an event that names B as controller. -/
def World.squat : Res Sad := do
  let e ← World.iss World.vcpA World.vcpB
  let r ← World.vcpA
  let ri ← Serder.pre r
  let b ← World.icpB
  let p ← Serder.pre b
  match e.ked with
  | .obj o => do
    let r ← Saider.saidify World.hash true (.obj (Value.insert (str% "ii") (.str p) (Value.insert (str% "i") (.str ri) o))) none none none none
    Serder.newWithKed (fun _ => none) r.2 none none
  | _ => .panic

def World.ixnSquat := World.anchor World.ixnB 2 World.squat

/-- What B sends, before A does. -/
def World.squatted : List (Res (Msg × Msg)) :=
  [World.signed (World.ks [3]) World.icpB, World.signed (World.ks [3]) World.ixnB, World.coupled World.vcpB World.ixnB, World.signed (World.ks [3]) World.ixnSquat,
   World.coupled World.squat World.ixnSquat]

/-- A registry is kept with a controller. -/
def World.registryOf (st : Store) (ri ii : Str) : Bool :=
  match st.tels ri with
  | t :: _ =>
    match Serder.newWithRaw (fun _ => none) (toUtf8 t) with
    | .ok r => match field (str% "ii") r.ked with | some (.str i) => decide (i = ii) | _ => false
    | _ => false
  | [] => false

theorem World.registryOf_ok {st : Store} {ri ii : Str} (h : World.registryOf st ri ii = true) : RegistryOf (World.env []) st ri ii := by
  unfold World.registryOf at h
  split at h
  case h_2 => cases h
  rename_i t l ht
  split at h
  case h_2 => cases h
  rename_i r hr
  split at h
  case h_2 => cases h
  rename_i i hi
  have := of_decide_eq_true h
  subst this
  exact ⟨t, r, by rw [ht]; rfl, hr, hi⟩

/-- C107 does not hold for who controls a registry: whoever has any registry can issue something with the identifier of a registry that a verifier does not know yet, in
an event that names a controller, and the verifier takes that for the registry. Here two verifiers receive all that A sent and disagree about who controls
the registry of A. -/
theorem C107_controller_false : ∃ (E : Env) (hist hist' : List (Msg × Msg)) (st st' : Store) (ri a b : Str), HashOk E.H ∧ Reach E hist st ∧ Reach E hist' st' ∧
    (∀ m ∈ hist, m ∈ hist') ∧ st.kels a = st'.kels a ∧ st.kels a ≠ [] ∧ a ≠ b ∧ RegistryOf E st ri a ∧ RegistryOf E st' ri b := by
  have h : World.holds (World.inRow World.registered) (fun l => World.holds (World.inRow World.squatted) fun l' => World.holds (World.vcpA >>= Serder.pre) fun ri =>
      World.both (World.icpA >>= Serder.pre) (World.icpB >>= Serder.pre) fun a b =>
        decide (l'.length = 10) && decide ((World.kept l).kels a = (World.kept (l' ++ l)).kels a) && decide ((World.kept l).kels a ≠ []) && decide (a ≠ b) &&
          World.registryOf (World.kept l) ri a && World.registryOf (World.kept (l' ++ l)) ri b) = true := by
    decide +kernel
  obtain ⟨l, -, h⟩ := World.holds_ok h
  obtain ⟨l', -, h⟩ := World.holds_ok h
  obtain ⟨ri, -, h⟩ := World.holds_ok h
  obtain ⟨a, b, -, -, h⟩ := World.both_ok h
  rw [Bool.and_eq_true, Bool.and_eq_true, Bool.and_eq_true, Bool.and_eq_true, Bool.and_eq_true] at h
  obtain ⟨⟨⟨⟨⟨h1, h2⟩, h3⟩, h4⟩, h5⟩, h6⟩ := h
  have reach : ∀ l, Reach (World.env []) ([] ++ pairs l) (World.kept l) := by
    intro l
    have := Reach.ingest (E := World.env []) (World.env l) 5 l.length [] l (some false) none .empty (World.env_same _ _) (World.env_remembers l) rfl (by simp)
    rwa [List.take_length] at this
  refine ⟨World.env [], _, _, _, _, ri, a, b, World.hash_ok, reach l, reach (l' ++ l), ?_, of_decide_eq_true h2, of_decide_eq_true h3, of_decide_eq_true h4,
    World.registryOf_ok h5, World.registryOf_ok h6⟩
  intro m hm
  have skip : ∀ (n : Nat) (l' : List Msg), l'.length = 2 * n → m ∈ pairs (l' ++ l) := by
    intro n
    induction n with
    | zero =>
      intro l' h
      rw [List.length_eq_zero_iff.mp h]
      exact hm
    | succ n ih =>
      intro l' h
      match l', h with
      | x :: y :: l', h => exact List.mem_cons_of_mem _ (ih l' (by simp at h; omega))
  exact skip 5 l' (of_decide_eq_true h1)

/-- The identifier that the only seal of a stored event names. -/
def World.sealed (t : Str) : Option Str :=
  match Serder.newWithRaw (fun _ => none) (toUtf8 t) with
  | .ok s =>
    match field (str% "a") s.ked with
    | some (.arr [sl]) => match field (str% "i") sl with | some (.str i) => some i | _ => none
    | _ => none
  | _ => none

/-- A transaction event of a type that names a registry of a controller. -/
def World.keptUnder (st : Store) (pre id : Str) (n : Nat) : Bool :=
  match (st.tels id)[n]? with
  | some t =>
    isType (str% "iss") t &&
      match Serder.newWithRaw (fun _ => none) (toUtf8 t) with
      | .ok e => match field (str% "ri") e.ked with | some (.str ri) => World.registryOf st ri pre | _ => false
      | _ => false
  | none => false

theorem World.keptUnder_ok {st : Store} {pre id : Str} {n : Nat} (h : World.keptUnder st pre id n = true) : ∃ e, KeptUnder (World.env []) st pre id n e := by
  unfold World.keptUnder at h
  split at h
  case h_2 => cases h
  rename_i t ht
  rw [Bool.and_eq_true] at h
  obtain ⟨e, e1, e2⟩ := isType_ok h.1
  have h := h.2
  rw [e1] at h
  dsimp only at h
  split at h
  case h_2 => cases h
  rename_i ri hri
  exact ⟨e, ⟨t, ht, e1⟩, .inl e2, ri, hri, World.registryOf_ok h⟩

theorem World.sealsOnce {hist : List (Msg × Msg)} {texts : List Str} {own : List Entry} (f : List.Forall₂ (Stored (fun _ => none) hist) texts own)
    (h : (texts.all fun t => texts.all fun u => match World.sealed t, World.sealed u with | some i, some j => decide (i ≠ j) || decide (t = u) | _, _ => true) = true) :
    SealsOnce true own := by
  intro x hx y hy e e' id n hs hs' hi hi' _ _
  obtain ⟨t, ht, -, -, -, -, -, -, -, hr⟩ := stored_of f x hx
  obtain ⟨u, hu, -, -, -, -, -, -, -, hr'⟩ := stored_of f y hy
  have := List.all_eq_true.mp (List.all_eq_true.mp h t ht) u hu
  obtain ⟨sl, i, m, d, a1, a2, a3, a4, a5, a6, a7⟩ := hs
  obtain ⟨sl', i', m', d', b1, b2, b3, b4, b5, b6, b7⟩ := hs'
  have e1 : World.sealed t = some i := by
    unfold World.sealed
    simp only [hr, a1, a2]
  have e2 : World.sealed u = some i' := by
    unfold World.sealed
    simp only [hr', b1, b2]
  unfold HasText at a5 b5 hi hi'
  rw [hi] at a5
  rw [hi'] at b5
  cases a5
  cases b5
  rw [e1, e2] at this
  have htu : t = u := by simpa using this
  subst htu
  rw [hr] at hr'
  have hsad := Res.ok.inj hr'
  rw [hsad, b1] at a1
  cases a1
  rw [b4] at a4
  cases a4
  rw [a7, b7]

/-- Two verifiers are sent the same; one is killed when it has the issuance but not the credential. -/
def World.agreeing (pre id : Str) (l : List Msg) : Bool :=
  let st := World.kept l
  let st' := (ingestLoop (World.env l) 5 (some false) none Store.empty (l.take 10) []).1
  let texts := st.kels pre
  decide (l.length < 1000) && decide (texts.length = 3) && decide (st.acdcs.length = 1) && decide (st'.acdcs.length = 0) &&
  texts.all World.ordinaryText && texts.all World.counted &&
  ((pairs l).all fun x =>
    match x.1 with
    | .payload p =>
      match Serder.newWithRaw (fun _ => none) (toUtf8 p) with
      | .ok s => World.ordinary s.ked && match x.2 with | .group (.quadlets _) _ => texts.any (World.sameRaw p) | _ => true
      | _ => true
    | _ => true) &&
  (texts.all fun t => texts.all fun u => match World.sealed t, World.sealed u with | some i, some j => decide (i ≠ j) || decide (t = u) | _, _ => true) &&
  World.keptUnder st pre id 0 && World.keptUnder st' pre id 0

/-- The hypotheses of `C107_status` are met by two verifiers that keep an issuance. -/
example : ∃ (hist hist' : List (Msg × Msg)) (st st' : Store) (pre id : Str) (own : List Entry) (e e' : Sad), Reach (World.env []) hist st ∧ Reach (World.env []) hist' st' ∧
    (∀ p, (st.kels p).length ≤ 2 ^ 32 ∧ (st.tels p).length ≤ 2 ^ 32) ∧ (∀ p, (st'.kels p).length ≤ 2 ^ 32 ∧ (st'.tels p).length ≤ 2 ^ 32) ∧
    st.acdcs.length = 1 ∧ st'.acdcs.length = 0 ∧
    ValidLog World.hash World.crypto true (fun _ => none) pre own ∧ (∀ x ∈ own, ∃ r, Serder.newWithRaw (fun _ => none) r = .ok x.sad) ∧
    (∀ x ∈ own, ∀ t, Serder.tholder true (fun _ => none) x.sad = .ok (some t) ∨ Serder.ntholder true (fun _ => none) x.sad = .ok (some t) → FewWeights t) ∧
    SignsOnly (World.env []) own hist ∧ SignsOnly (World.env []) own hist' ∧ (∀ x ∈ own, Ordinary x.sad) ∧
    (∀ payload g s, (Msg.payload payload, g) ∈ hist ++ hist' → Serder.newWithRaw (fun _ => none) (toUtf8 payload) = .ok s → Ordinary s) ∧
    SealsOnce true own ∧ KeptUnder (World.env []) st pre id 0 e ∧ KeptUnder (World.env []) st' pre id 0 e' := by
  have h : World.holds (World.icpA >>= Serder.pre) (fun pre => World.holds (World.issA >>= Serder.pre) fun id => World.holds (World.inRow World.accepted) (World.agreeing pre id)) = true := by
    decide +kernel
  obtain ⟨pre, -, h⟩ := World.holds_ok h
  obtain ⟨id, -, h⟩ := World.holds_ok h
  obtain ⟨l, -, h⟩ := World.holds_ok h
  unfold World.agreeing at h
  dsimp only at h
  rw [Bool.and_eq_true, Bool.and_eq_true, Bool.and_eq_true, Bool.and_eq_true, Bool.and_eq_true, Bool.and_eq_true, Bool.and_eq_true, Bool.and_eq_true,
    Bool.and_eq_true] at h
  obtain ⟨⟨⟨⟨⟨⟨⟨⟨⟨h0, h1⟩, h2⟩, h2'⟩, h3⟩, h4⟩, h5⟩, h6⟩, h7⟩, h8⟩ := h
  have h0 := of_decide_eq_true h0
  have h1 := of_decide_eq_true h1
  have reach := fun n => Reach.ingest (E := World.env []) (World.env l) 5 n [] l (some false) none .empty (World.env_same _ _) (World.env_remembers l) rfl (by simp)
  have r := reach l.length
  have r' := reach 10
  have len : ∀ n p, ((ingestLoop (World.env l) 5 (some false) none Store.empty (l.take n) []).1.kels p).length ≤ 2 ^ 32 ∧
      ((ingestLoop (World.env l) 5 (some false) none Store.empty (l.take n) []).1.tels p).length ≤ 2 ^ 32 := by
    intro n p
    have h := ingestLoop_length (E := World.env l) (fuel := 5) (deep := some false) (verify := none) Store.empty (l.take n) [] p
    rw [List.length_take] at h
    have e1 : (Store.empty.kels p).length = 0 := rfl
    have e2 : (Store.empty.tels p).length = 0 := rfl
    omega
  have hl := len l.length
  have hl' := len 10
  rw [List.take_length] at r hl
  change Reach _ _ (World.kept l) at r
  change ∀ p, ((World.kept l).kels p).length ≤ 2 ^ 32 ∧ ((World.kept l).tels p).length ≤ 2 ^ 32 at hl
  generalize World.kept l = st at h1 h2 h3 h4 h5 h6 h7 r hl
  generalize (ingestLoop (World.env l) 5 (some false) none Store.empty (l.take 10) []).1 = st' at h2' h8 r' hl'
  obtain ⟨own, f, v, o⟩ := World.valid_of r (by omega) (by omega) h3
  obtain ⟨e, he⟩ := World.keptUnder_ok h7
  obtain ⟨e', he'⟩ := World.keptUnder_ok h8
  have signs : SignsOnly (World.env []) own ([] ++ pairs l) := by
    intro payload groups text s hm hs _ _ _ _ _
    have := List.all_eq_true.mp h5 _ hm
    have hs : Serder.newWithRaw (fun _ => none) (toUtf8 payload) = .ok s := hs
    dsimp only at this
    rw [hs] at this
    rw [Bool.and_eq_true, List.any_eq_true] at this
    obtain ⟨-, t, ht, hsame⟩ := this
    obtain ⟨i, hi⟩ := List.mem_iff_getElem?.mp ht
    obtain ⟨e, he, -, -, -, -, -, -, -, hr⟩ := forall₂_get f hi
    refine ⟨e, List.mem_of_getElem? he, ?_⟩
    unfold World.sameRaw at hsame
    rw [hs, hr] at hsame
    exact (of_decide_eq_true hsame).symm
  refine ⟨_, _, st, st', pre, id, own, e, e', r, r', hl, hl', of_decide_eq_true h2, of_decide_eq_true h2', v, ?_, ?_, signs, signs, o, ?_, World.sealsOnce f h6, he, he'⟩
  · intro x hx
    obtain ⟨t, -, -, -, -, -, -, -, -, hr⟩ := stored_of f x hx
    exact ⟨_, hr⟩
  · intro x hx t ht
    obtain ⟨u, hu, -, -, -, -, -, -, -, hr⟩ := stored_of f x hx
    have := List.all_eq_true.mp h4 u hu
    unfold World.counted at this
    rw [hr] at this
    rw [Bool.and_eq_true] at this
    exact ht.elim (World.few_ok this.1 t) (World.few_ok this.2 t)
  · intro payload g s hm hs
    have hm : (Msg.payload payload, g) ∈ pairs l := by
      rw [List.nil_append] at hm
      exact (List.mem_append.mp hm).elim (fun k => k) (fun k => k)
    have := List.all_eq_true.mp h5 _ hm
    dsimp only at this
    rw [hs] at this
    rw [Bool.and_eq_true] at this
    exact World.ordinary_ok this.1

/-- The registry of A, kept by a verifier: the hypotheses of `C107_controller_partial` are met by it and itself. -/
example : ∃ (hist : List (Msg × Msg)) (st : Store) (ri ii first : Str) (r : Sad) (m : M), Reach (World.env []) hist st ∧ (st.tels ri).length ≤ 2 ^ 32 ∧
    (∀ payload g s, (Msg.payload payload, g) ∈ hist → Serder.newWithRaw (fun _ => none) (toUtf8 payload) = .ok s → Ordinary s) ∧ Matter.newWithQb64 ri = .ok m ∧ m.code ∈ digests ∧
    (st.tels ri).head? = some first ∧ Serder.newWithRaw (fun _ => none) (toUtf8 first) = .ok r ∧ HasText (str% "t") (str% "vcp") r ∧ HasText (str% "ii") ii r := by
  have h : World.holds (World.inRow World.registered) (fun l => World.holds (World.vcpA >>= Serder.pre) fun ri => World.holds (Matter.newWithQb64 ri) fun m =>
      ((pairs l).all fun x => match x.1 with | .payload p => World.ordinaryText p | _ => true) && decide (m.code ∈ digests) &&
        World.holds (World.icpA >>= Serder.pre) (fun ii => World.registryOf (World.kept l) ri ii) &&
        match (World.kept l).tels ri with | [t] => isType (str% "vcp") t | _ => false) = true := by
    decide +kernel
  obtain ⟨l, -, h⟩ := World.holds_ok h
  obtain ⟨ri, -, h⟩ := World.holds_ok h
  obtain ⟨m, hm, h⟩ := World.holds_ok h
  rw [Bool.and_eq_true, Bool.and_eq_true, Bool.and_eq_true] at h
  obtain ⟨⟨⟨h1, h2⟩, h3⟩, h4⟩ := h
  obtain ⟨ii, -, h3⟩ := World.holds_ok h3
  have r := Reach.ingest (E := World.env []) (World.env l) 5 l.length [] l (some false) none .empty (World.env_same _ _) (World.env_remembers l) rfl (by simp)
  rw [List.take_length] at r
  change Reach _ _ (World.kept l) at r
  split at h4
  case h_2 => cases h4
  rename_i t ht
  obtain ⟨f, reg, c1, c2, c3⟩ := World.registryOf_ok h3
  rw [ht] at c1
  cases c1
  obtain ⟨s, s1, s2⟩ := isType_ok h4
  have c2 : Serder.newWithRaw (fun _ => none) (toUtf8 t) = .ok reg := c2
  rw [s1] at c2
  cases c2
  refine ⟨_, _, ri, ii, t, reg, m, r, by rw [ht]; simp, ?_, hm, of_decide_eq_true h2, by rw [ht]; rfl, s1, s2, c3⟩
  intro payload g s hm hs
  have := List.all_eq_true.mp h1 _ hm
  dsimp only at this
  unfold World.ordinaryText at this
  rw [hs] at this
  exact World.ordinary_ok this

end Keride.Props
