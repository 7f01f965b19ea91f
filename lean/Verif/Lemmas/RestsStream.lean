/-
What the set of SAIDs met in a stream says about credentials, when the stream is taken in with deep verification.
-/
import Verif.Lemmas.Rests
import Verif.Lemmas.Resend

namespace Keride.Sample

open Matter Spec

/-- A stored credential with a SAID is found. -/
theorem found_of_mem {E : Env} {st : Store} {t q : Str} {c : Sad} (hm : t ∈ st.acdcs) (hr : Creder.newWithRaw E.fl (toUtf8 t) = .ok c) (hq : Sadder.said E.chk c = .ok q) :
    ∃ t', st.getAcdc E q = .ok t' := by
  have hh : hasSaid E q t = true := by
    unfold hasSaid
    rw [hr, Res.ok_bind, hq]
    simp
  cases hf : st.acdcs.find? (hasSaid E q) with
  | none => exact absurd hh (by simpa using List.find?_eq_none.mp hf t hm)
  | some t' => exact ⟨t', by unfold Store.getAcdc; rw [hf]; rfl⟩

/-- What the edges of a proven credential name is stored. -/
theorem names_found {E : Env} {st : Store} {c : Sad} {groups : List SigGroup} (h : Proven E st c groups) {q : Str} (hq : SourceNamed c q) : ∃ t, st.getAcdc E q = .ok t := by
  obtain ⟨edge, o, label, node, he, rfl, hm, hd, ho, hn⟩ := hq
  obtain ⟨o', e, hall⟩ := h.edges _ he
  cases e
  obtain ⟨said, t, p, -, -, h1, h2, h3, h4, -⟩ := hall label node hm hd ho
  rw [hn] at h1
  cases h1
  exact found_of_mem h2 h3 h4

/-- A credential that is not yet known is not stored; one that is known is. -/
theorem acdc_known {E : Env} {st : Store} {deep : Option Bool} {fuel : Nat} {c : Sad} {l : List SigGroup} {v : List Str} {r : Bool × List Str} {q : Str}
    (hq : Sadder.said E.chk c = .ok q) (h : verifyAcdc E st deep fuel c l v = .ok r) :
    (r.1 = false → ∀ t, st.getAcdc E q ≠ .ok t) ∧ (r.1 = true → ∃ t c', Found E st q t c') := by
  cases fuel with
  | zero => unfold verifyAcdc at h; cases h
  | succ fuel =>
    unfold verifyAcdc at h
    obtain ⟨status, -, h⟩ := Res.bind_eq_ok.mp h
    split at h
    · cases h
    obtain ⟨vcid, hvcid, h⟩ := Res.bind_eq_ok.mp h
    rw [hq] at hvcid
    cases hvcid
    obtain ⟨_, -, h⟩ := Res.bind_eq_ok.mp h
    obtain ⟨_, -, h⟩ := Res.bind_eq_ok.mp h
    obtain ⟨_, -, h⟩ := Res.bind_eq_ok.mp h
    obtain ⟨_, -, h⟩ := Res.bind_eq_ok.mp h
    split at h
    · cases h
    obtain ⟨_, -, h⟩ := Res.bind_eq_ok.mp h
    obtain ⟨_, -, h⟩ := Res.bind_eq_ok.mp h
    obtain ⟨_, -, h⟩ := Res.bind_eq_ok.mp h
    split at h
    · cases h
    obtain ⟨_, -, h⟩ := Res.bind_eq_ok.mp h
    split at h
    · cases h
    obtain ⟨_, -, h⟩ := Res.bind_eq_ok.mp h
    obtain ⟨_, -, h⟩ := Res.bind_eq_ok.mp h
    cases hg : st.getAcdc E q with
    | ok t =>
      rw [hg] at h
      dsimp only at h
      obtain ⟨e, he, h⟩ := Res.bind_eq_ok.mp h
      obtain ⟨q', hq', h⟩ := Res.bind_eq_ok.mp h
      split at h
      · cases h
      rename_i hne
      cases h
      refine ⟨?_, fun _ => ⟨t, e, hg, he, ?_⟩⟩
      · intro h
        cases h
      rw [not_not.mp hne]
      exact hq'
    | err e =>
      rw [hg] at h
      cases h
      exact ⟨fun _ t ht => (by cases ht), fun h => (by cases h)⟩
    | panic =>
      rw [hg] at h
      cases h
      exact ⟨fun _ t ht => (by cases ht), fun h => (by cases h)⟩

theorem getAcdc_grow {E : Env} {st st' : Store} (he : Extends st st') {q t : Str} (h : st.getAcdc E q = .ok t) : st'.getAcdc E q = .ok t := by
  obtain ⟨l, hl⟩ := he.acdcs
  have h := Res.ofOption_eq_ok.mp h
  unfold Store.getAcdc
  rw [← hl, List.find?_append, h]
  rfl

theorem _root_.Keride.Spec.Found.grow {E : Env} {st st' : Store} (he : Extends st st') {q t : Str} {c : Sad} (h : Found E st q t c) : Found E st' q t c :=
  ⟨getAcdc_grow he h.1, h.2⟩

theorem _root_.Keride.Spec.EventSaid.grow {E : Env} {st st' : Store} (he : Extends st st') {q : Str} (h : EventSaid E st q) : EventSaid E st' q := by
  obtain ⟨pre, t, s, hm, h⟩ := h
  exact ⟨pre, t, s, hm.imp (fun h => (he.kels pre).subset h) (fun h => (he.tels pre).subset h), h⟩

/-- The credential was in force at some moment from the first store to the second. -/
def ValidSince (E : Env) (st now : Store) (q : Str) : Prop := ∃ s, Extends st s ∧ Extends s now ∧ StillValid E s q

/-- The edges lead to what was met and is stored. -/
def LeadsInto (E : Env) (now : Store) (v : List Str) (c : Sad) : Prop := ∀ z, SourceNamed c z → z ∈ v ∧ ∃ t, now.getAcdc E z = .ok t

/-- What was met in a stream: events, and credentials that were in force and whose edges lead to what was met. -/
structure MetSince (E : Env) (st now : Store) (v : List Str) : Prop where
  met : ∀ y ∈ v, EventSaid E now y ∨ ∃ text c, Found E now y text c ∧ ValidSince E st now y ∧ LeadsInto E now v c
  fresh : ∀ n text, st.acdcs.length ≤ n → now.acdcs[n]? = some text → ∀ c, Creder.newWithRaw E.fl (toUtf8 text) = .ok c → LeadsInto E now v c
  extends_ : Extends st now

theorem LeadsInto.grow {E : Env} {now now' : Store} {v v' : List Str} {c : Sad} (he : Extends now now') (hv : ∀ q ∈ v, q ∈ v') (h : LeadsInto E now v c) : LeadsInto E now' v' c := by
  intro z hz
  obtain ⟨h1, t, h2⟩ := h z hz
  exact ⟨hv z h1, t, getAcdc_grow he h2⟩

theorem ValidSince.grow {E : Env} {st now now' : Store} {q : Str} (he : Extends now now') (h : ValidSince E st now q) : ValidSince E st now' q := by
  obtain ⟨s, h1, h2, h3⟩ := h
  exact ⟨s, h1, h2.trans he, h3⟩

theorem LeadsInto.same {E : Env} {now : Store} {v : List Str} {c c' : Sad} (hk : field (str% "e") c.ked = field (str% "e") c'.ked) (h : LeadsInto E now v c) : LeadsInto E now v c' := by
  intro z hz
  refine h z ?_
  obtain ⟨edge, o, label, node, ⟨e, he, hE⟩, h2⟩ := hz
  exact ⟨edge, o, label, node, ⟨e, hk ▸ he, hE⟩, h2⟩

/-- The set grows by events, and one more SAID that is stored afterwards; the credentials stay as they are. -/
theorem MetSince.events {E : Env} {st now now' : Store} {v v' : List Str} {q : Str} (h : MetSince E st now v) (he : Extends now now') (ha : now'.acdcs = now.acdcs)
    (hg : GrowsBy (EventSaid E now) (q :: v) v') (hq : EventSaid E now' q) : MetSince E st now' v' := by
  have hv : ∀ x ∈ v, x ∈ v' := fun x hx => hg.1 x (List.mem_cons_of_mem _ hx)
  refine ⟨fun y hy => ?_, fun n text hn ht c hc => ?_, h.extends_.trans he⟩
  · rcases hg.2 y hy with hy | hy
    · rcases List.mem_cons.mp hy with rfl | hy
      · exact .inl hq
      · rcases h.met y hy with h1 | ⟨text, c, h1, h2, h3⟩
        · exact .inl (h1.grow he)
        · exact .inr ⟨text, c, h1.grow he, h2.grow he, h3.grow he hv⟩
    · exact .inl (hy.grow he)
  · rw [ha] at ht
    exact (h.fresh n text hn ht c hc).grow he hv

/-- A credential is met. -/
theorem MetSince.credential {E : Env} (hH : HashOk E.H) {st now : Store} {deep : Option Bool} (hd : deep.getD true = true) {fuel : Nat} {v : List Str} {r : Bool × List Str}
    {q : Str} {c : Sad} {l : List SigGroup} {raw : Bytes} (h : MetSince E st now v) (hread : Creder.newWithRaw E.fl raw = .ok c) (hq : Sadder.said E.chk c = .ok q)
    (hver : verifyAcdc E now deep fuel c l (q :: v) = .ok r) {now' : Store} (he : Extends now now') {text : Str} {c' : Sad} (hfound : Found E now' q text c') (hsame : field (str% "e") c.ked = field (str% "e") c'.ked)
    (ha : now'.acdcs = now.acdcs ∨ now'.acdcs = now.acdcs ++ [text]) : MetSince E st now' r.2 := by
  obtain ⟨⟨g1, g2⟩, g3⟩ := (deep_met hH hd fuel).1 raw c l _ r hread hver
  obtain ⟨p, q', t, e, dt, p2, p3⟩ := acdc_ok hH hread hver
  rw [hq] at p2
  cases p2
  have hv : ∀ x ∈ v, x ∈ r.2 := fun x hx => g1 x (List.mem_cons_of_mem _ hx)
  have hown : LeadsInto E now' r.2 c' := LeadsInto.same hsame fun z hz => by
    obtain ⟨t, ht⟩ := names_found p hz
    exact ⟨g3 z hz, t, getAcdc_grow he ht⟩
  refine ⟨fun y hy => ?_, fun n u hn hu cu hc => ?_, h.extends_.trans he⟩
  · rcases g2 y hy with hy | hy | ⟨u, cu, gs, f1, -, f3, f4, f5⟩
    · rcases List.mem_cons.mp hy with rfl | hy
      · exact .inr ⟨text, c', hfound, ⟨now, h.extends_, he, t, e, dt, p3⟩, hown⟩
      · rcases h.met y hy with h1 | ⟨u, cu, h1, h2, h3⟩
        · exact .inl (h1.grow he)
        · exact .inr ⟨u, cu, h1.grow he, h2.grow he, h3.grow he hv⟩
    · exact .inl (hy.grow he)
    · refine .inr ⟨u, cu, f1.grow he, ⟨now, h.extends_, he, f4⟩, fun z hz => ?_⟩
      obtain ⟨t, ht⟩ := names_found f3 hz
      exact ⟨f5 z hz, t, getAcdc_grow he ht⟩
  · rcases ha with ha | ha
    · rw [ha] at hu
      exact (h.fresh n u hn hu cu hc).grow he hv
    · rw [ha] at hu
      by_cases hlt : n < now.acdcs.length
      · rw [List.getElem?_append_left hlt] at hu
        exact (h.fresh n u hn hu cu hc).grow he hv
      · have : n = now.acdcs.length := by
          have := (List.getElem?_eq_some_iff.mp hu).1
          rw [List.length_append, List.length_singleton] at this
          omega
        subst this
        rw [List.getElem?_concat_length] at hu
        cases hu
        rw [hfound.2.1] at hc
        cases hc
        exact hown

/-- Everything met is stored. -/
theorem MetSince.holds {E : Env} {st now : Store} {v : List Str} (h : MetSince E st now v) : ∀ q ∈ v, Holds E now q := by
  intro q hq
  rcases h.met q hq with ⟨pre, t, s, hm, h1, h2⟩ | ⟨text, c, h1, -⟩
  · rcases hm with hm | hm
    · exact .key pre t s hm h1 h2
    · exact .tx pre t s hm h1 h2
  · exact .cred text c (List.mem_of_find?_eq_some (Res.ofOption_eq_ok.mp h1.1)) h1.2.1 h1.2.2

theorem _root_.Keride.Spec.SameEdges.mono {E : Env} {msgs msgs' : List Msg} {st st' : Store} (h : SameEdges E msgs' st') (hm : ∀ m ∈ msgs, m ∈ msgs') (he : Extends st st') : SameEdges E msgs st :=
  fun p c t c' q h1 h2 h0 h3 h4 h5 h6 => h p c t c' q (hm _ h1) h2 h0 (he.acdcs.subset h3) h4 h5 h6

theorem found_said {E : Env} {st : Store} {q t : Str} {c : Sad} (h : Found E st q t c) : t ∈ st.acdcs ∧ Sadder.said E.chk c = .ok q :=
  ⟨List.mem_of_find?_eq_some (Res.ofOption_eq_ok.mp h.1), h.2.2⟩

/-- One message. -/
theorem MetSince.step {E : Env} (hH : HashOk E.H) (hR : Remembers E) {st now : Store} {deep verify : Option Bool} (hd : deep.getD true = true) (hv : verify ≠ some false)
    {fuel : Nat} {v v' : List Str} {m g : Msg} {a : Action} (h : MetSince E st now v) (h1 : ingestOne E now fuel deep verify m (some g) v = .ok (a, v')) {now' : Store}
    (hp : perform E now a = (now', .ok ())) (hS : SameEdges E [m] now') : MetSince E st now' v' := by
  have he : Extends now now' := by
    have := perform_extends (E := E) (st := now) (a := a)
    rw [hp] at this
    exact this
  cases m with
  | group _ _ => cases h1
  | payload p =>
  unfold ingestOne at h1
  rw [show (Msg.payload p).payloadText = .ok p from rfl, Res.ok_bind] at h1
  dsimp only at h1
  rw [Res.bind_eq_ok] at h1
  obtain ⟨info, -, h1⟩ := h1
  split at h1
  · unfold ingestSerder at h1
    rw [Res.bind_eq_ok] at h1
    obtain ⟨s, hs, h1⟩ := h1
    rw [Res.bind_eq_ok] at h1
    obtain ⟨q, hq, h1⟩ := h1
    dsimp only at h1
    rw [Res.bind_eq_ok] at h1
    obtain ⟨⟨gr, gt⟩, hgr, h1⟩ := h1
    rw [Res.bind_eq_ok] at h1
    obtain ⟨_, -, h1⟩ := h1
    rw [Res.bind_eq_ok] at h1
    obtain ⟨ilk, -, h1⟩ := h1
    dsimp only at h1
    split at h1
    · cases gr with
      | quadlets l =>
        dsimp only at h1
        rw [Res.bind_eq_ok] at h1
        obtain ⟨r, hr, h1⟩ := h1
        rcases verifyOrSeen_ok hr hv hR h.holds with k | k
        · obtain ⟨k1, k2⟩ := verifyKeyEvent_events k
          split at h1
          · rename_i ht
            cases h1
            cases hp
            obtain ⟨q', e1, e2⟩ := k1 ht
            rw [hq] at e1
            cases e1
            exact h.events he rfl k2 e2
          · rw [Res.bind_eq_ok] at h1
            obtain ⟨pre, hpre, h1⟩ := h1
            rw [Res.bind_eq_ok] at h1
            obtain ⟨text, ht, h1⟩ := h1
            cases h1
            obtain ⟨t, g', e1, rfl, rfl⟩ := storedText_ok ht
            have e := tryInsert_ok hp
            subst e
            exact h.events he rfl k2 ⟨pre, t ++ g', s, .inl mem_append_self, again_key hs e1 g', hq⟩
        · subst k
          rw [if_pos rfl] at h1
          cases h1
          cases hp
          exact h
      | couples l => cases h1
      | other => cases h1
    · split at h1
      · cases gr with
        | quadlets l => cases h1
        | couples l =>
          dsimp only at h1
          rw [Res.bind_eq_ok] at h1
          obtain ⟨r, hr, h1⟩ := h1
          rcases verifyOrSeen_ok hr hv hR h.holds with k | k
          · obtain ⟨k1, k2⟩ := verifyTransactionEvent_events k
            split at h1
            · rename_i ht
              cases h1
              cases hp
              obtain ⟨q', e1, e2⟩ := k1 ht
              rw [hq] at e1
              cases e1
              exact h.events he rfl k2 e2
            · rw [Res.bind_eq_ok] at h1
              obtain ⟨pre, hpre, h1⟩ := h1
              rw [Res.bind_eq_ok] at h1
              obtain ⟨text, ht, h1⟩ := h1
              cases h1
              obtain ⟨t, g', e1, rfl, rfl⟩ := storedText_ok ht
              have e := tryInsert_ok hp
              subst e
              exact h.events he rfl k2 ⟨pre, t ++ g', s, .inr mem_append_self, again_key hs e1 g', hq⟩
          · subst k
            rw [if_pos rfl] at h1
            cases h1
            cases hp
            exact h
        | other => cases h1
      · cases h1
  · split at h1
    · unfold ingestCreder at h1
      rw [Res.bind_eq_ok] at h1
      obtain ⟨s, hs, h1⟩ := h1
      rw [Res.bind_eq_ok] at h1
      obtain ⟨q, hq, h1⟩ := h1
      dsimp only at h1
      rw [Res.bind_eq_ok] at h1
      obtain ⟨⟨gr, gt⟩, hgr, h1⟩ := h1
      dsimp only at h1
      cases gr with
      | quadlets l =>
        dsimp only at h1
        rw [Res.bind_eq_ok] at h1
        obtain ⟨r, hr, h1⟩ := h1
        rcases verifyOrSeen_ok hr hv hR h.holds with k | k
        · obtain ⟨k1, k2⟩ := acdc_known hq k
          split at h1
          · rename_i ht
            cases h1
            cases hp
            obtain ⟨t, c', hf⟩ := k2 ht
            obtain ⟨f1, f2⟩ := found_said hf
            exact h.credential hH hd hs hq k he hf (hS p s t c' q (by simp) hs (acdc_ok hH hs k).1.digest f1 hf.2.1 hq f2) (.inl rfl)
          · rename_i hf
            rw [Res.bind_eq_ok] at h1
            obtain ⟨text, ht, h1⟩ := h1
            cases h1
            obtain ⟨t, g', e1, rfl, rfl⟩ := storedText_ok ht
            have e := tryInsert_ok hp
            subst e
            have hno := k1 (by simpa using hf)
            have ha : hasSaid E q (t ++ g') = true := by
              unfold hasSaid
              rw [again_cred hs e1 g', Res.ok_bind, hq]
              simp
            refine h.credential hH hd hs hq k he (text := t ++ g') (c' := s) ⟨?_, again_cred hs e1 g', hq⟩ rfl (.inr rfl)
            unfold Store.getAcdc
            rw [show (now.insertAcdc (t ++ g')).acdcs = now.acdcs ++ [t ++ g'] from rfl, List.find?_append]
            cases hfind : now.acdcs.find? (hasSaid E q) with
            | some u => exact absurd (by unfold Store.getAcdc; rw [hfind]; rfl) (hno u)
            | none => simp [ha, Res.ofOption]
        · subst k
          rw [if_pos rfl] at h1
          cases h1
          cases hp
          exact h
      | couples l => cases h1
      | other => cases h1
    · cases h1

/-- The whole stream. -/
theorem metSince {E : Env} (hH : HashOk E.H) (hR : Remembers E) {st : Store} {deep verify : Option Bool} (hd : deep.getD true = true) (hv : verify ≠ some false) {fuel : Nat}
    (msgs : List Msg) : ∀ (now : Store) (v : List Str), MetSince E st now v → SameEdges E msgs (ingestLoop E fuel deep verify now msgs v).1 →
      ∃ w, MetSince E st (ingestLoop E fuel deep verify now msgs v).1 w := by
  induction msgs using pairs.induct with
  | case1 m g rest ih =>
    intro now v h hS
    unfold ingestLoop at hS ⊢
    cases h1 : ingestOne E now fuel deep verify m (some g) v with
    | err e => exact ⟨v, h⟩
    | panic => exact ⟨v, h⟩
    | ok x =>
      obtain ⟨a, v'⟩ := x
      rw [h1] at hS
      dsimp only at hS ⊢
      cases hp : perform E now a with
      | mk now' u =>
        rw [hp] at hS
        cases u with
        | ok u =>
          dsimp only at hS ⊢
          have hx := ingestLoop_extends (E := E) (fuel := fuel) (deep := deep) (verify := verify) now' rest v'
          exact ih now' v' (h.step hH hR hd hv h1 hp (hS.mono (by simp) hx)) (hS.mono (fun m hm => by simp [hm]) (Extends.refl _))
        | err e =>
          have : now' = now := by
            have := hp
            cases a <;> simp only [perform, tryInsert] at this
            all_goals first
              | (split at this <;> cases this <;> rfl)
              | cases this
          exact ⟨v, this ▸ h⟩
        | panic =>
          exfalso
          have := hp
          cases a <;> simp only [perform, tryInsert] at this
          all_goals first
            | (split at this <;> cases this)
            | cases this
  | case2 msgs hn =>
    intro now v h hS
    match msgs, hn with
    | [], _ => exact ⟨v, h⟩
    | [m], _ =>
      unfold ingestLoop
      cases ingestOne E now fuel deep verify m none v <;> exact ⟨v, h⟩
    | m :: g :: rest, hn => exact absurd rfl (hn m g rest)

end Keride.Sample
