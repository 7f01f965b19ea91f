/-
Credentials that rest on others, in the small world of Lemmas/World.lean.
-/
import Verif.Lemmas.RestsStream
import Verif.Lemmas.WorldAcdc

namespace Keride.Sample

open Matter Spec

theorem mem_pairs {m g : Msg} : ∀ {l : List Msg}, (m, g) ∈ pairs l → m ∈ l := by
  intro l
  induction l using pairs.induct with
  | case1 a b rest ih =>
    intro h
    unfold pairs at h
    rcases List.mem_cons.mp h with h | h
    · cases h; exact List.mem_cons_self ..
    · exact List.mem_cons_of_mem _ (List.mem_cons_of_mem _ (ih h))
  | case2 l hl =>
    intro h
    unfold pairs at h
    split at h
    · rename_i a b rest
      exact absurd rfl (hl a b rest)
    · cases h

/-- The stored texts are messages that were received. -/
def Came (E : Env) (hist : List (Msg × Msg)) (st : Store) : Prop :=
  (∀ pre t s, (t ∈ st.kels pre ∨ t ∈ st.tels pre) → Serder.newWithRaw E.fl (toUtf8 t) = .ok s →
    ∃ p g, (Msg.payload p, g) ∈ hist ∧ Serder.newWithRaw E.fl (toUtf8 p) = .ok s) ∧
  ∀ t ∈ st.acdcs, ∀ c, Creder.newWithRaw E.fl (toUtf8 t) = .ok c → ∃ p g, (Msg.payload p, g) ∈ hist ∧ Creder.newWithRaw E.fl (toUtf8 p) = .ok c

theorem came {E : Env} (hR : Remembers E) {fuel : Nat} {deep verify : Option Bool} (hv : verify ≠ some false) (msgs : List Msg) :
    Came E (pairs msgs) (ingestLoop E fuel deep verify Store.empty msgs []).1 := by
  refine ingestLoop_induct hR hv (Came E (pairs msgs)) (pairs msgs) ?_ Store.empty msgs [] ⟨?_, ?_⟩ (fun q hq => by cases hq) (fun x hx => hx)
  · intro st m g v a v' st' r hI _ hm hf hp
    rcases perform_kels hp with rfl | ⟨pre, t, rfl, rfl⟩ | ⟨pre, t, rfl, rfl⟩ | ⟨t, rfl, rfl⟩
    · exact hI
    · cases hf with
      | key payload t g s l q c v' read raw again said verified fresh grows =>
        refine ⟨fun pre' u w hu hw => ?_, hI.2⟩
        rcases hu with hu | hu
        · by_cases e : pre' = c.pre
          · subst e
            rw [show (st.insertKeyEvent c.pre (t ++ g)).kels c.pre = st.kels c.pre ++ [t ++ g] from if_pos rfl] at hu
            rcases List.mem_append.mp hu with hu | hu
            · exact hI.1 _ u w (.inl hu) hw
            · rw [List.mem_singleton.mp hu, again] at hw
              cases hw
              exact ⟨payload, _, hm, read⟩
          · rw [show (st.insertKeyEvent c.pre (t ++ g)).kels pre' = st.kels pre' from if_neg e] at hu
            exact hI.1 _ u w (.inl hu) hw
        · exact hI.1 _ u w (.inr hu) hw
    · cases hf with
      | tx payload t g pre s l q v' read raw again said ident verified =>
        refine ⟨fun pre' u w hu hw => ?_, hI.2⟩
        rcases hu with hu | hu
        · exact hI.1 _ u w (.inl hu) hw
        · by_cases e : pre' = pre
          · subst e
            rw [show (st.insertTransactionEvent pre' (t ++ g)).tels pre' = st.tels pre' ++ [t ++ g] from if_pos rfl] at hu
            rcases List.mem_append.mp hu with hu | hu
            · exact hI.1 _ u w (.inr hu) hw
            · rw [List.mem_singleton.mp hu, again] at hw
              cases hw
              exact ⟨payload, _, hm, read⟩
          · rw [show (st.insertTransactionEvent pre (t ++ g)).tels pre' = st.tels pre' from if_neg e] at hu
            exact hI.1 _ u w (.inr hu) hw
    · cases hf with
      | cred payload t g s l q v' read raw again said verified =>
        refine ⟨fun pre u w hu hw => hI.1 pre u w hu hw, fun u hu w hw => ?_⟩
        rcases List.mem_append.mp (show u ∈ st.acdcs ++ [t ++ g] from hu) with hu | hu
        · exact hI.2 u hu w hw
        · rw [List.mem_singleton.mp hu, again] at hw
          cases hw
          exact ⟨payload, _, hm, read⟩
  · intro pre t s hu
    rcases hu with hu | hu <;> cases hu
  · intro t ht
    cases ht

end Keride.Sample

namespace Keride.World

open Matter Saider Spec Sample

/-- The SAID an event reports, and that of a credential. -/
def eventSaid : Msg → Option Str
  | .payload p => match (do
      let s ← Serder.newWithRaw (fun _ => none) (toUtf8 p)
      Sadder.said true s) with
    | .ok q => some q
    | _ => none
  | _ => none

def credSaid : Msg → Option Str
  | .payload p => match (do
      let s ← Creder.newWithRaw (fun _ => none) (toUtf8 p)
      Sadder.said true s) with
    | .ok q => some q
    | _ => none
  | _ => none

/-- No event reports the SAID of a credential. -/
def apart (l : List Msg) : Bool :=
  let a := l.filterMap eventSaid
  let b := l.filterMap credSaid
  a.all fun q => !b.contains q

theorem apart_ok {l : List Msg} (h : apart l = true) {E : Env} (h1 : E.chk = true) (h2 : E.fl = fun _ => none) {st : Store} (hc : Came E (pairs l) st) : Apart E st := by
  rintro q ⟨pre, t, s, hm, hr, hq⟩ text ht
  obtain ⟨p, g, k1, k2⟩ := hc.1 pre t s hm hr
  have hf := Res.ofOption_eq_ok.mp ht
  have hm' := List.mem_of_find?_eq_some hf
  have hs := List.find?_some hf
  unfold hasSaid at hs
  split at hs
  · rename_i q' hq'
    have e := of_decide_eq_true hs
    subst e
    obtain ⟨c, hc1, hc2⟩ := Res.bind_eq_ok.mp hq'
    obtain ⟨p', g', k3, k4⟩ := hc.2 text hm' c hc1
    rw [h1] at hq hc2
    rw [h2] at k2 k4
    unfold apart at h
    have a1 : q' ∈ l.filterMap eventSaid := List.mem_filterMap.mpr ⟨.payload p, mem_pairs k1, by
      unfold eventSaid
      dsimp only
      rw [k2, Res.ok_bind, hq]⟩
    have a2 : q' ∈ l.filterMap credSaid := List.mem_filterMap.mpr ⟨.payload p', mem_pairs k3, by
      unfold credSaid
      dsimp only
      rw [k4, Res.ok_bind, hc2]⟩
    have := List.all_eq_true.mp h q' a1
    rw [Bool.not_eq_true'] at this
    exact absurd a2 (by simpa using this)
  · cases hs

/-- When all credentials of a stream have different SAIDs, those that are stored have their content. -/
theorem sameEdges_ok {l : List Msg} (h : (l.filterMap credSaid).Nodup) {E : Env} (h1 : E.chk = true) (h2 : E.fl = fun _ => none) {st : Store} (hc : Came E (pairs l) st) :
    SameEdges E l st := by
  have inj : ∀ {l : List Msg}, (l.filterMap credSaid).Nodup → ∀ {m m' q}, m ∈ l → m' ∈ l → credSaid m = some q → credSaid m' = some q → m = m' := by
    intro l
    induction l with
    | nil => intro _ m m' q hm; cases hm
    | cons a l ih =>
      intro hn m m' q hm hm' e e'
      cases ha : credSaid a with
      | none =>
        rw [List.filterMap_cons_none ha] at hn
        rcases List.mem_cons.mp hm with rfl | hm
        · rw [ha] at e; cases e
        rcases List.mem_cons.mp hm' with rfl | hm'
        · rw [ha] at e'; cases e'
        exact ih hn hm hm' e e'
      | some b =>
        rw [List.filterMap_cons_some ha, List.nodup_cons] at hn
        rcases List.mem_cons.mp hm with rfl | k1
        · rcases List.mem_cons.mp hm' with rfl | k2
          · rfl
          · rw [ha] at e
            cases e
            exact absurd (List.mem_filterMap.mpr ⟨m', k2, e'⟩) hn.1
        · rcases List.mem_cons.mp hm' with rfl | k2
          · rw [ha] at e'
            cases e'
            exact absurd (List.mem_filterMap.mpr ⟨m, k1, e⟩) hn.1
          · exact ih hn.2 k1 k2 e e'
  intro p c t c' q hp hr _ ht hr' hq hq'
  obtain ⟨p', g', k1, k2⟩ := hc.2 t ht c' hr'
  rw [h1] at hq hq'
  rw [h2] at hr k2
  have e1 : credSaid (.payload p) = some q := by
    unfold credSaid
    dsimp only
    rw [hr, Res.ok_bind, hq]
  have e2 : credSaid (.payload p') = some q := by
    unfold credSaid
    dsimp only
    rw [k2, Res.ok_bind, hq']
  cases inj h hp (mem_pairs k1) e1 e2
  rw [hr] at k2
  rw [Res.ok.inj k2]

/-- An edge of the credential names the SAID. -/
def namesSaid (q : Str) (c : Sad) : Bool :=
  match c.ked with
  | .obj o => match Value.find (str% "e") o with
    | some (.obj e) => e.any fun x => decide (x.1 ≠ str% "d") && decide (x.1 ≠ str% "o") && (match x.2 with
      | .obj n => (match Value.find (str% "n") n with
        | some (.str s) => decide (s = q)
        | _ => false)
      | _ => false)
    | _ => false
  | _ => false

theorem namesSaid_ok {q : Str} {c : Sad} (h : namesSaid q c = true) : SourceNamed c q := by
  unfold namesSaid at h
  split at h
  · rename_i o ho
    split at h
    · rename_i e he
      obtain ⟨x, hx, h⟩ := List.any_eq_true.mp h
      rw [Bool.and_eq_true, Bool.and_eq_true] at h
      obtain ⟨⟨h1, h2⟩, h3⟩ := h
      split at h3
      · rename_i n hn
        split at h3
        · rename_i s hs
          have e3 := of_decide_eq_true h3
          subst e3
          refine ⟨.obj e, e, x.1, x.2, ⟨.obj e, ?_, .inl ⟨e, rfl, rfl⟩⟩, rfl, hx, of_decide_eq_true h1, of_decide_eq_true h2, ?_⟩
          · rw [ho, field_find]; exact he
          · rw [hn, field_find]; exact hs
        · cases h3
      · cases h3
    · cases h
  · cases h

/-- The credentials in a store, read. -/
def lastCred (st : Store) (f : Sad → Bool) : Bool :=
  match st.acdcs.getLast? with
  | some t => holds (Creder.newWithRaw (fun _ => none) (toUtf8 t)) f
  | none => false

/-- The last event of a transaction log is a revocation. -/
def isRevoked (st : Store) (q : Str) : Bool :=
  match (st.tels q).getLast? with
  | some t => holds (Serder.newWithRaw (fun _ => none) (toUtf8 t)) fun s => match s.ked with
    | .obj o => (match Value.find (str% "t") o with
      | some (.str x) => decide (x = str% "rev")
      | _ => false)
    | _ => false
  | none => false

def ixnA5 := anchor ixnA3 4 issA2

/-- The second credential of A rests on the first, which is revoked before the second is sent. -/
def restCase : Res (List Msg × List Msg × Str) := do
  let a ← inRow (accepted ++ [signed (ks [1]) ixnA3, coupled revA ixnA3, signed (ks [1]) ixnA5,
    coupled issA2 ixnA5])
  let b ← inRow [proved (ks [1]) credA2 icpA]
  let c ← credA
  let q ← Sadder.said true c
  .ok (a, b, q)

/-- The same without the revocation. -/
def restCase2 : Res (List Msg × List Msg × Str) := do
  let a ← inRow (accepted ++ [signed (ks [1]) ixnA4, coupled issA2 ixnA4])
  let b ← inRow [proved (ks [1]) credA2 icpA]
  let c ← credA
  let q ← Sadder.said true c
  .ok (a, b, q)

end Keride.World
