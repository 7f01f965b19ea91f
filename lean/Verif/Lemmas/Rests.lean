/-
How far deep verification of a credential goes: the set of SAIDs met grows by events, and by credentials that are proven,
in force, and whose edges lead into the set.
-/
import Verif.Spec.Rests
import Verif.Lemmas.Acdc

namespace Keride.Sample

open Matter Saider Spec

/-- The set grows, by SAIDs with a property. -/
def GrowsBy (P : Str → Prop) (v v' : List Str) : Prop := (∀ q ∈ v, q ∈ v') ∧ ∀ q ∈ v', q ∈ v ∨ P q

theorem GrowsBy.refl {P : Str → Prop} {v : List Str} : GrowsBy P v v := ⟨fun _ h => h, fun _ h => .inl h⟩

theorem GrowsBy.trans {P : Str → Prop} {a b c : List Str} (h1 : GrowsBy P a b) (h2 : GrowsBy P b c) : GrowsBy P a c := by
  refine ⟨fun q hq => h2.1 q (h1.1 q hq), fun q hq => ?_⟩
  rcases h2.2 q hq with h | h
  · exact h1.2 q h
  · exact .inr h

theorem GrowsBy.cons {P : Str → Prop} {a b : List Str} {q : Str} (hq : P q) (h : GrowsBy P (q :: a) b) : GrowsBy P a b := by
  refine ⟨fun x hx => h.1 x (List.mem_cons_of_mem _ hx), fun x hx => ?_⟩
  rcases h.2 x hx with h | h
  · rcases List.mem_cons.mp h with rfl | h
    · exact .inr hq
    · exact .inl h
  · exact .inr h

theorem confirm_event {E : Env} {st : Store} {c : Checked} {u : Unit} (h : confirm E st c = .ok u) (hc : c.existing = true) : EventSaid E st c.said := by
  unfold confirm at h
  rw [if_pos hc] at h
  obtain ⟨event, hev, h⟩ := Res.bind_eq_ok.mp h
  obtain ⟨s, hs, h⟩ := Res.bind_eq_ok.mp h
  obtain ⟨q, hq, h⟩ := Res.bind_eq_ok.mp h
  split at h
  · cases h
  rename_i hne
  rw [not_not.mp hne]
  exact ⟨_, _, _, .inl (getKeyEvent_mem hev), hs, hq⟩

theorem verifyKeyEvent_events {E : Env} {st : Store} {deep : Option Bool} {fuel : Nat} {s : Sad} {l : List SigGroup} {v : List Str} {r : Bool × List Str}
    (h : verifyKeyEvent E st deep fuel s l v = .ok r) :
    (r.1 = true → ∃ q, Sadder.said E.chk s = .ok q ∧ EventSaid E st q) ∧ GrowsBy (EventSaid E st) v r.2 := by
  induction fuel generalizing s l v r with
  | zero => cases h
  | succ fuel ih =>
    unfold verifyKeyEvent at h
    obtain ⟨c, hc, h⟩ := Res.bind_eq_ok.mp h
    obtain ⟨w, hw, h⟩ := Res.bind_eq_ok.mp h
    obtain ⟨u, hu, h⟩ := Res.bind_eq_ok.mp h
    cases h
    obtain ⟨-, -, hsaid, hprior⟩ := checkKeyEvent_ok hc
    refine ⟨fun h => ⟨_, hsaid, confirm_event hu h⟩, ?_⟩
    cases hp : c.prior with
    | none =>
      rw [hp] at hw
      cases hw
      exact .refl
    | some x =>
      obtain ⟨event, p⟩ := x
      rw [hp] at hw
      dsimp only at hw
      obtain ⟨p1, p2⟩ := hprior _ hp
      split at hw
      · obtain ⟨q, hq, hw⟩ := Res.bind_eq_ok.mp hw
        split at hw
        · cases hw
          exact .refl
        · obtain ⟨g, hg, hw⟩ := Res.bind_eq_ok.mp hw
          obtain ⟨r, hr, hw⟩ := Res.bind_eq_ok.mp hw
          cases hw
          exact (ih hr).2.cons ⟨_, _, _, .inl p1, p2, hq⟩
      · cases hw
        exact .refl

theorem verifyAnchor_events {E : Env} {st : Store} {deep : Option Bool} {fuel : Nat} {ap : Str} {n d : M} {s : Sad} {v : List Str} {r : Bool × List Str}
    (h : verifyAnchor E st deep fuel ap n d s v = .ok r) : GrowsBy (EventSaid E st) v r.2 := by
  unfold verifyAnchor at h
  obtain ⟨k, hk, h⟩ := Res.bind_eq_ok.mp h
  obtain ⟨event, hev, h⟩ := Res.bind_eq_ok.mp h
  obtain ⟨a, ha, h⟩ := Res.bind_eq_ok.mp h
  obtain ⟨q, hq, h⟩ := Res.bind_eq_ok.mp h
  obtain ⟨t, ht, h⟩ := Res.bind_eq_ok.mp h
  split at h
  · cases h; exact .refl
  obtain ⟨sl, hsl, h⟩ := Res.bind_eq_ok.mp h
  cases sl with
  | none => cases h; exact .refl
  | some x =>
    obtain ⟨spre, ssn, sdig⟩ := x
    dsimp only at h
    obtain ⟨w, hw, h⟩ := Res.bind_eq_ok.mp h
    have hg : GrowsBy (EventSaid E st) v w := by
      split at hw
      · split at hw
        · cases hw; exact .refl
        · obtain ⟨g, hg, hw⟩ := Res.bind_eq_ok.mp hw
          obtain ⟨z, hz, hw⟩ := Res.bind_eq_ok.mp hw
          cases hw
          exact (verifyKeyEvent_events hz).2.cons ⟨_, _, _, .inl (getKeyEvent_mem hev), ha, hq⟩
      · cases hw; exact .refl
    obtain ⟨_, -, h⟩ := Res.bind_eq_ok.mp h
    obtain ⟨_, -, h⟩ := Res.bind_eq_ok.mp h
    split at h
    · cases h; exact hg
    obtain ⟨_, -, h⟩ := Res.bind_eq_ok.mp h
    split at h
    · cases h; exact hg
    obtain ⟨_, -, h⟩ := Res.bind_eq_ok.mp h
    cases h
    exact hg

theorem verifyTransactionEvent_events {E : Env} {st : Store} {deep : Option Bool} {fuel : Nat} {s : Sad} {l : List (M × M)} {v : List Str}
    {r : Bool × List Str} (h : verifyTransactionEvent E st deep fuel s l v = .ok r) :
    (r.1 = true → ∃ q, Sadder.said E.chk s = .ok q ∧ EventSaid E st q) ∧ GrowsBy (EventSaid E st) v r.2 := by
  induction fuel generalizing s l v r with
  | zero => cases h
  | succ fuel ih =>
    unfold verifyTransactionEvent at h
    obtain ⟨pre, hpre, h⟩ := Res.bind_eq_ok.mp h
    obtain ⟨_, -, h⟩ := Res.bind_eq_ok.mp h
    obtain ⟨sn, hsn, h⟩ := Res.bind_eq_ok.mp h
    obtain ⟨_, -, h⟩ := Res.bind_eq_ok.mp h
    obtain ⟨ilk, -, h⟩ := Res.bind_eq_ok.mp h
    obtain ⟨said, hsaid, h⟩ := Res.bind_eq_ok.mp h
    obtain ⟨ri, -, h⟩ := Res.bind_eq_ok.mp h
    split at h
    · cases h
    obtain ⟨source, -, h⟩ := Res.bind_eq_ok.mp h
    obtain ⟨_, -, h⟩ := Res.bind_eq_ok.mp h
    obtain ⟨has, -, h⟩ := Res.bind_eq_ok.mp h
    split at h
    · cases h
    obtain ⟨apre, -, h⟩ := Res.bind_eq_ok.mp h
    obtain ⟨a, ha, h⟩ := Res.bind_eq_ok.mp h
    have hga := verifyAnchor_events ha
    split at h
    · cases h
    obtain ⟨w, hw, h⟩ := Res.bind_eq_ok.mp h
    have hg : GrowsBy (EventSaid E st) v w.2 := by
      split at hw
      · split at hw
        · cases hw
        · cases hw; exact hga
      split at hw
      · cases hw
      split at hw
      · cases hw
      obtain ⟨i, -, hw⟩ := Res.bind_eq_ok.mp hw
      obtain ⟨event, hev, hw⟩ := Res.bind_eq_ok.mp hw
      obtain ⟨p, hp, hw⟩ := Res.bind_eq_ok.mp hw
      obtain ⟨psaid, hps, hw⟩ := Res.bind_eq_ok.mp hw
      obtain ⟨z, hz, hw⟩ := Res.bind_eq_ok.mp hw
      have hgz : GrowsBy (EventSaid E st) a.2 z := by
        split at hz
        · split at hz
          · cases hz; exact .refl
          · obtain ⟨g, -, hz⟩ := Res.bind_eq_ok.mp hz
            obtain ⟨y, hy, hz⟩ := Res.bind_eq_ok.mp hz
            cases hz
            exact (ih hy).2.cons ⟨_, _, _, .inr (getTransactionEvent_mem hev), hp, hps⟩
        · cases hz; exact .refl
      obtain ⟨_, -, hw⟩ := Res.bind_eq_ok.mp hw
      obtain ⟨_, -, hw⟩ := Res.bind_eq_ok.mp hw
      split at hw
      · cases hw
      · cases hw; exact hga.trans hgz
    split at h
    · obtain ⟨event, hev, h⟩ := Res.bind_eq_ok.mp h
      obtain ⟨p, hp, h⟩ := Res.bind_eq_ok.mp h
      obtain ⟨q, hq, h⟩ := Res.bind_eq_ok.mp h
      split at h
      · cases h
      rename_i hne
      cases h
      exact ⟨fun _ => ⟨said, hsaid, _, _, _, .inr (getTransactionEvent_mem hev), hp, by rw [not_not.mp hne]; exact hq⟩, hg⟩
    · rename_i hf
      cases h
      exact ⟨fun ht => absurd ht hf, hg⟩

theorem checkState_events {E : Env} {st : Store} {deep : Option Bool} {fuel : Nat} {q : Str} {v w : List Str}
    (h : checkState E st deep fuel q v = .ok w) : GrowsBy (EventSaid E st) v w := by
  unfold checkState at h
  obtain ⟨event, hev, h⟩ := Res.bind_eq_ok.mp h
  obtain ⟨s, hs, h⟩ := Res.bind_eq_ok.mp h
  obtain ⟨_, -, h⟩ := Res.bind_eq_ok.mp h
  obtain ⟨_, -, h⟩ := Res.bind_eq_ok.mp h
  obtain ⟨_, -, h⟩ := Res.bind_eq_ok.mp h
  split at h
  · cases h
  obtain ⟨z, hz, h⟩ := Res.bind_eq_ok.mp h
  have hg : GrowsBy (EventSaid E st) v z := by
    split at hz
    · obtain ⟨d, hd, hz⟩ := Res.bind_eq_ok.mp hz
      split at hz
      · cases hz; exact .refl
      · obtain ⟨g, -, hz⟩ := Res.bind_eq_ok.mp hz
        obtain ⟨y, hy, hz⟩ := Res.bind_eq_ok.mp hz
        cases hz
        exact (verifyTransactionEvent_events hy).2.cons ⟨_, _, _, .inr (List.mem_of_getLast? (Res.ofOption_eq_ok.mp hev)), hs, hd⟩
    · cases hz; exact .refl
  obtain ⟨_, -, h⟩ := Res.bind_eq_ok.mp h
  obtain ⟨_, -, h⟩ := Res.bind_eq_ok.mp h
  split at h
  · cases h
  · cases h; exact hg

theorem verifyPathSig_events {E : Env} {st : Store} {deep : Option Bool} {fuel : Nat} {c : Sad} {g : SadPathSig} {v w : List Str}
    (h : verifyPathSig E st deep fuel c g v = .ok w) : GrowsBy (EventSaid E st) v w := by
  unfold verifyPathSig at h
  obtain ⟨_, -, h⟩ := Res.bind_eq_ok.mp h
  obtain ⟨_, -, h⟩ := Res.bind_eq_ok.mp h
  obtain ⟨event, hev, h⟩ := Res.bind_eq_ok.mp h
  obtain ⟨s, hs, h⟩ := Res.bind_eq_ok.mp h
  obtain ⟨d, hd, h⟩ := Res.bind_eq_ok.mp h
  obtain ⟨_, -, h⟩ := Res.bind_eq_ok.mp h
  split at h
  · cases h
  obtain ⟨z, hz, h⟩ := Res.bind_eq_ok.mp h
  have hg : GrowsBy (EventSaid E st) v z := by
    split at hz
    · split at hz
      · cases hz; exact .refl
      · obtain ⟨g, -, hz⟩ := Res.bind_eq_ok.mp hz
        obtain ⟨y, hy, hz⟩ := Res.bind_eq_ok.mp hz
        cases hz
        exact (verifyKeyEvent_events hy).2.cons ⟨_, _, _, .inl (getKeyEvent_mem hev), hs, hd⟩
    · cases hz; exact .refl
  obtain ⟨_, -, h⟩ := Res.bind_eq_ok.mp h
  obtain ⟨_, -, h⟩ := Res.bind_eq_ok.mp h
  obtain ⟨t, -, h⟩ := Res.bind_eq_ok.mp h
  cases t with
  | none => cases h
  | some t =>
    dsimp only at h
    obtain ⟨_, -, h⟩ := Res.bind_eq_ok.mp h
    split at h
    · cases h
    · cases h; exact hg

theorem verifyPathSigs_events {E : Env} {st : Store} {deep : Option Bool} {fuel : Nat} {c : Sad} {l : List SadPathSig} {b : Bool} {v : List Str}
    {r : Bool × List Str} (h : verifyPathSigs E st deep fuel c l b v = .ok r) : GrowsBy (EventSaid E st) v r.2 := by
  induction l generalizing b v with
  | nil => cases h; exact .refl
  | cons g l ih =>
    unfold verifyPathSigs at h
    obtain ⟨x, -, h⟩ := Res.bind_eq_ok.mp h
    split at h
    · exact ih h
    · obtain ⟨w, hw, h⟩ := Res.bind_eq_ok.mp h
      exact (verifyPathSig_events hw).trans (ih h)

theorem verifyProof_events {E : Env} {st : Store} {deep : Option Bool} {fuel : Nat} {c : Sad} {l : List SigGroup} {b : Bool} {v : List Str}
    {r : Bool × List Str} (h : verifyProof E st deep fuel c l b v = .ok r) : GrowsBy (EventSaid E st) v r.2 := by
  induction l generalizing b v with
  | nil => cases h; exact .refl
  | cons g l ih =>
    cases g with
    | sadPath s =>
      unfold verifyProof at h
      obtain ⟨w, hw, h⟩ := Res.bind_eq_ok.mp h
      exact (verifyPathSigs_events hw).trans (ih h)
    | controller s => cases h
    | other => cases h

/-- A SAID met in a deep verification: of an event, or of a stored credential that is proven, in force, and whose edges
lead to what was met. -/
def Met (E : Env) (st : Store) (w : List Str) (x : Str) : Prop :=
  EventSaid E st x ∨ ∃ text c groups, Found E st x text c ∧ attachedQuadlets E text c = .ok groups ∧ Proven E st c groups ∧ StillValid E st x ∧ ∀ y, SourceNamed c y → y ∈ w

theorem Met.mono {E : Env} {st : Store} {w w' : List Str} (h : ∀ q ∈ w, q ∈ w') {x : Str} (hm : Met E st w x) : Met E st w' x := by
  rcases hm with hm | ⟨text, c, groups, h1, h2, h3, h4, h5⟩
  · exact .inl hm
  · exact .inr ⟨text, c, groups, h1, h2, h3, h4, fun y hy => h y (h5 y hy)⟩

/-- The set grows by what is met. -/
def GrowsMet (E : Env) (st : Store) (v w : List Str) : Prop := (∀ q ∈ v, q ∈ w) ∧ ∀ x ∈ w, x ∈ v ∨ Met E st w x

theorem GrowsBy.meets {E : Env} {st : Store} {v w : List Str} (h : GrowsBy (EventSaid E st) v w) : GrowsMet E st v w :=
  ⟨h.1, fun x hx => (h.2 x hx).imp id .inl⟩

theorem GrowsMet.trans {E : Env} {st : Store} {a b c : List Str} (h1 : GrowsMet E st a b) (h2 : GrowsMet E st b c) : GrowsMet E st a c := by
  refine ⟨fun q hq => h2.1 q (h1.1 q hq), fun q hq => ?_⟩
  rcases h2.2 q hq with h | h
  · exact (h1.2 q h).imp id (Met.mono h2.1)
  · exact .inr h

/-- What an edge leads to. -/
theorem checkEdge_found {E : Env} {st : Store} {c : Sad} {node : Value} {x : Str × Str × Sad} (h : checkEdge E st c node = .ok x) :
    Found E st x.1 x.2.1 x.2.2 ∧ field (str% "n") node = some (.str x.1) := by
  obtain ⟨h1, h2⟩ := checkEdge_ok h
  refine ⟨⟨h1, h2, ?_⟩, ?_⟩
  · have hhas := List.find?_some (Res.ofOption_eq_ok.mp h1)
    unfold hasSaid at hhas
    rw [h2, Res.ok_bind] at hhas
    split at hhas
    · rename_i q hq
      rw [hq, of_decide_eq_true hhas]
    · cases hhas
  · unfold checkEdge at h
    obtain ⟨map, hmap, h⟩ := Res.bind_eq_ok.mp h
    obtain ⟨n, hn, h⟩ := Res.bind_eq_ok.mp h
    obtain ⟨said, hs, h⟩ := Res.bind_eq_ok.mp h
    obtain ⟨m, hm, h⟩ := Res.bind_eq_ok.mp h
    obtain ⟨p, hp, h⟩ := Res.bind_eq_ok.mp h
    obtain ⟨_, -, h⟩ := Res.bind_eq_ok.mp h
    split at h
    · cases h
    obtain ⟨_, -, h⟩ := Res.bind_eq_ok.mp h
    split at h
    · cases h
    obtain ⟨_, -, h⟩ := Res.bind_eq_ok.mp h
    obtain ⟨_, -, h⟩ := Res.bind_eq_ok.mp h
    obtain ⟨_, -, h⟩ := Res.bind_eq_ok.mp h
    obtain ⟨_, -, h⟩ := Res.bind_eq_ok.mp h
    cases h
    rw [toMap_ok hmap, field_find]
    have := orPanic_ok.mp hn
    rw [toStr_ok hs] at this
    exact this

/-- The nodes of the edges of a credential are among the nodes that are looked at. -/
theorem names_node {cred : Sad} {prov : Value} {nodes : List (Res Value)} (hp : Creder.chains cred = .ok prov) (hn : edgeNodes prov = .ok nodes) {q : Str} (h : SourceNamed cred q) :
    ∃ node, .ok node ∈ nodes ∧ field (str% "n") node = some (.str q) := by
  obtain ⟨edge, o, label, node, ⟨e, hf, hE⟩, rfl, hm, hd, ho, hq⟩ := h
  have hpe : prov = e := by
    unfold Creder.chains at hp
    obtain ⟨o, ho, hp⟩ := Res.bind_eq_ok.mp hp
    rw [toMap_ok ho, field_find] at hf
    rw [hf] at hp
    exact (Res.ok.inj hp).symm
  subst hpe
  refine ⟨node, ?_, hq⟩
  unfold edgeNodes at hn
  obtain ⟨edges, hedges, hn⟩ := Res.bind_eq_ok.mp hn
  cases hn
  rw [List.mem_flatMap]
  refine ⟨.obj o, ?_, ?_⟩
  · rcases hE with ⟨o', rfl, e⟩ | ⟨l, rfl, hl⟩
    · cases hedges
      rw [e]
      simp
    · cases hedges
      exact hl
  · show _ ∈ nodesOf (.obj o)
    unfold nodesOf
    show _ ∈ (o.filter fun p => !([str% "d", str% "o"].contains p.1)).map fun p => Res.ok p.2
    rw [List.mem_map]
    refine ⟨(label, node), List.mem_filter.mpr ⟨hm, ?_⟩, rfl⟩
    simp [hd, ho]

theorem deep_met {E : Env} (hH : HashOk E.H) {st : Store} {deep : Option Bool} (hd : deep.getD true = true) (fuel : Nat) :
    (∀ (raw : Bytes) (c : Sad) (l : List SigGroup) (v : List Str) (r : Bool × List Str), Creder.newWithRaw E.fl raw = .ok c → verifyAcdc E st deep fuel c l v = .ok r →
      GrowsMet E st v r.2 ∧ ∀ y, SourceNamed c y → y ∈ r.2) ∧
    (∀ (c : Sad) (ns : List (Res Value)) (v w : List Str), verifyEdges E st deep fuel c ns v = .ok w →
      GrowsMet E st v w ∧ ∀ node, .ok node ∈ ns → ∀ q, field (str% "n") node = some (.str q) → q ∈ w) := by
  induction fuel with
  | zero =>
    constructor
    · intro raw c l v r _ h; unfold verifyAcdc at h; cases h
    · intro c ns v w h; unfold verifyEdges at h; cases h
  | succ fuel ih =>
    obtain ⟨ih1, ih2⟩ := ih
    constructor
    · intro raw c l v r hread h
      unfold verifyAcdc at h
      obtain ⟨status, -, h⟩ := Res.bind_eq_ok.mp h
      split at h
      · cases h
      obtain ⟨vcid, hvcid, h⟩ := Res.bind_eq_ok.mp h
      obtain ⟨_, -, h⟩ := Res.bind_eq_ok.mp h
      obtain ⟨prov, hprov, h⟩ := Res.bind_eq_ok.mp h
      obtain ⟨_, -, h⟩ := Res.bind_eq_ok.mp h
      obtain ⟨_, -, h⟩ := Res.bind_eq_ok.mp h
      split at h
      · cases h
      obtain ⟨w1, h1, h⟩ := Res.bind_eq_ok.mp h
      obtain ⟨_, -, h⟩ := Res.bind_eq_ok.mp h
      obtain ⟨_, -, h⟩ := Res.bind_eq_ok.mp h
      split at h
      · cases h
      obtain ⟨w2, h2, h⟩ := Res.bind_eq_ok.mp h
      split at h
      · cases h
      obtain ⟨nodes, hnodes, h⟩ := Res.bind_eq_ok.mp h
      obtain ⟨w3, h3, h⟩ := Res.bind_eq_ok.mp h
      obtain ⟨k1, k2⟩ := ih2 _ _ _ _ h3
      have hg := ((checkState_events h1).trans (verifyProof_events h2)).meets.trans k1
      have hn : ∀ y, SourceNamed c y → y ∈ w3 := by
        intro y hy
        obtain ⟨node, m1, m2⟩ := names_node hprov hnodes hy
        exact k2 node m1 y m2
      have hr : r.2 = w3 := by
        split at h
        · obtain ⟨_, -, h⟩ := Res.bind_eq_ok.mp h
          obtain ⟨_, -, h⟩ := Res.bind_eq_ok.mp h
          split at h
          · cases h
          · cases h; rfl
        · cases h; rfl
      rw [hr]
      exact ⟨hg, hn⟩
    · intro c ns v w h
      cases ns with
      | nil => unfold verifyEdges at h; cases h; exact ⟨GrowsBy.refl.meets, fun node hn => by cases hn⟩
      | cons n ns =>
        unfold verifyEdges at h
        obtain ⟨node, hnode, h⟩ := Res.bind_eq_ok.mp h
        obtain ⟨x, hx, h⟩ := Res.bind_eq_ok.mp h
        obtain ⟨z, hz, h⟩ := Res.bind_eq_ok.mp h
        obtain ⟨f1, f2⟩ := checkEdge_found hx
        have hg : GrowsMet E st v z ∧ x.1 ∈ z := by
          rw [if_pos hd] at hz
          split at hz
          · rename_i hc
            cases hz
            exact ⟨GrowsBy.refl.meets, by simpa using hc⟩
          · obtain ⟨g, hg, hz⟩ := Res.bind_eq_ok.mp hz
            obtain ⟨y, hy, hz⟩ := Res.bind_eq_ok.mp hz
            cases hz
            obtain ⟨⟨j1, j2⟩, j3⟩ := ih1 _ _ _ _ _ f1.2.1 hy
            obtain ⟨p1, q, t, e, dt, p2, p3⟩ := acdc_ok hH f1.2.1 hy
            have hq : q = x.1 := by
              rw [f1.2.2] at p2
              exact (Res.ok.inj p2).symm
            subst hq
            refine ⟨⟨fun u hu => j1 u (List.mem_cons_of_mem _ hu), fun u hu => ?_⟩, j1 _ (List.mem_cons_self ..)⟩
            rcases j2 u hu with hu | hu
            · rcases List.mem_cons.mp hu with rfl | hu
              · exact .inr (.inr ⟨x.2.1, x.2.2, g, f1, hg, p1, ⟨t, e, dt, p3⟩, j3⟩)
              · exact .inl hu
            · exact .inr hu
        obtain ⟨k1, k2⟩ := ih2 _ _ _ _ h
        refine ⟨hg.1.trans k1, fun node' hn q hq => ?_⟩
        rcases List.mem_cons.mp hn with hn | hn
        · rw [hnode] at hn
          cases hn
          rw [f2] at hq
          cases hq
          exact k1.1 _ hg.2
        · exact k2 node' hn q hq

end Keride.Sample
