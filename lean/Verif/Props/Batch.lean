/-
C119: sealing several transaction events in one key event.
-/
import Verif.Spec.Batch
import Verif.Lemmas.Tel
import Verif.Lemmas.WorldTel

namespace Keride.Props

open Matter Spec Sample

theorem TxController.same {E : Env} {st : Store} {i j : Str} {e : Sad} (h : TxController E st i e) (k : TxController E st j e) : i = j := by
  have txt : ∀ {k t u : Str} {s : Sad}, HasText k t s → HasText k u s → t = u := fun a b => by
    unfold HasText at a b
    rw [a] at b
    exact Value.str.inj (Option.some.inj b)
  rcases h with ⟨h1, h2⟩ | ⟨h1, ri, t, r, h2, h3, h4, h5⟩ <;> rcases k with ⟨k1, k2⟩ | ⟨k1, rj, u, w, k2, k3, k4, k5⟩
  · exact txt h2 k2
  · rcases k1 with k1 | k1 <;> exact absurd (txt h1 k1) (by decide)
  · rcases h1 with h1 | h1 <;> exact absurd (txt k1 h1) (by decide)
  · cases txt h2 k2
    rw [h3] at k3
    cases k3
    rw [h4] at k4
    cases k4
    exact txt h5 k5

/-- An event that is accepted was found sealed by a key event of its controller. -/
theorem tx_anchor {E : Env} {st : Store} {deep : Option Bool} {fuel : Nat} {s : Sad} {couples : List (M × M)} {v : List Str} {r : Bool × List Str}
    (h : verifyTransactionEvent E st deep fuel s couples v = .ok r) :
    ∃ c ii f w w', couples = [c] ∧ TxController E st ii s ∧ verifyAnchor E st deep f ii c.1 c.2 s w = .ok (true, w') := by
  cases fuel with
  | zero => cases h
  | succ fuel =>
    unfold verifyTransactionEvent at h
    obtain ⟨pre, hp, h⟩ := Res.bind_eq_ok.mp h
    obtain ⟨px, -, h⟩ := Res.bind_eq_ok.mp h
    obtain ⟨sn, -, h⟩ := Res.bind_eq_ok.mp h
    obtain ⟨tv, ht1, h⟩ := Res.bind_eq_ok.mp h
    obtain ⟨ilk, ht2, h⟩ := Res.bind_eq_ok.mp h
    have ht : HasText (str% "t") ilk s := index_text ht1 ht2
    obtain ⟨said, -, h⟩ := Res.bind_eq_ok.mp h
    obtain ⟨ri, hri, h⟩ := Res.bind_eq_ok.mp h
    split at h
    · cases h
    rename_i hone
    obtain ⟨c, hc, h⟩ := Res.bind_eq_ok.mp h
    obtain ⟨_, -, h⟩ := Res.bind_eq_ok.mp h
    obtain ⟨has, -, h⟩ := Res.bind_eq_ok.mp h
    split at h
    · cases h
    dsimp only at h
    obtain ⟨apre, hap, h⟩ := Res.bind_eq_ok.mp h
    obtain ⟨⟨ab, av⟩, ha, h⟩ := Res.bind_eq_ok.mp h
    split at h
    · cases h
    rename_i hb
    have hb : ab = true := by simpa using hb
    subst hb
    refine ⟨c, apre, _, _, _, ?_, ?_, ha⟩
    · match couples, not_not.mp hone with
      | [x], _ =>
        have := orPanic_ok.mp hc
        simpa using this
    · unfold anchorOf at hap
      by_cases c1 : ilk = str% "vcp"
      · subst c1
        rw [if_pos rfl] at hap
        obtain ⟨g, hg, hap⟩ := Res.bind_eq_ok.mp hap
        split at hap
        · cases hap
        obtain ⟨x, hx, hap⟩ := Res.bind_eq_ok.mp hap
        exact .inl ⟨ht, index_text hx hap⟩
      · rw [if_neg c1] at hap
        split at hap
        · rename_i c2
          have hrt : HasText (str% "ri") ri s := by
            unfold registryOf at hri
            rw [if_neg c1, if_pos c2] at hri
            obtain ⟨x, hx, hri⟩ := Res.bind_eq_ok.mp hri
            exact index_text hx hri
          obtain ⟨g, hg, hap⟩ := Res.bind_eq_ok.mp hap
          split at hap
          · cases hap
          obtain ⟨rt, hrt', hap⟩ := Res.bind_eq_ok.mp hap
          obtain ⟨rs, hrs, hap⟩ := Res.bind_eq_ok.mp hap
          obtain ⟨x, hx, hap⟩ := Res.bind_eq_ok.mp hap
          refine .inr ⟨?_, ri, rt, rs, hrt, Res.ofOption_eq_ok.mp hrt', hrs, index_text hx hap⟩
          rcases c2 with rfl | rfl
          · exact .inl ht
          · exact .inr ht
        · cases hap

/-- C119, what holds instead: an event that is accepted is the only thing that the key event its couple names seals. -/
theorem C119_sole_partial (E : Env) (st : Store) (deep : Option Bool) (fuel : Nat) (s : Sad) (couples : List (M × M)) (v : List Str) (r : Bool × List Str)
    (h : verifyTransactionEvent E st deep fuel s couples v = .ok r) :
    ∃ c ii n t a, couples = [c] ∧ TxController E st ii s ∧ Seqner.sn c.1 = .ok n ∧ (st.kels ii)[n % 2 ^ 32]? = some t ∧ Serder.newWithRaw E.fl (toUtf8 t) = .ok a ∧
      Seals E.chk a s := by
  obtain ⟨c, ii, f, w, w', h1, h2, h3⟩ := tx_anchor h
  obtain ⟨n, t, a, k1, k2, k3, k4⟩ := sealed_in h3
  exact ⟨c, ii, n, t, a, h1, h2, k1, k2, k3, k4⟩

/-- C119, what holds instead: a key event stands for one transaction event. Two that are accepted with the same couple and
have the same controller are the same. -/
theorem C119_once (E : Env) (st : Store) (deep deep' : Option Bool) (fuel fuel' : Nat) (s s' : Sad) (couples : List (M × M)) (v v' : List Str) (r r' : Bool × List Str)
    (ii : Str) (hc : TxController E st ii s) (hc' : TxController E st ii s') (h : verifyTransactionEvent E st deep fuel s couples v = .ok r)
    (h' : verifyTransactionEvent E st deep' fuel' s' couples v' = .ok r') :
    ∃ i n d, HasText (str% "i") i s ∧ HasText (str% "i") i s' ∧ HasText (str% "s") n s ∧ HasText (str% "s") n s' ∧ Sadder.said E.chk s = .ok d ∧ Sadder.said E.chk s' = .ok d := by
  obtain ⟨c, i1, n1, t1, a1, rfl, e1, e2, e3, e4, sl, i, n, d, f1, f2, f3, f4, f5, f6, f7⟩ := C119_sole_partial E st deep fuel s couples v r h
  obtain ⟨c', i2, n2, t2, a2, hcc, g1, g2, g3, g4, sl', i', n', d', k1, k2, k3, k4, k5, k6, k7⟩ := C119_sole_partial E st deep' fuel' s' [c] v' r' h'
  cases hcc
  cases TxController.same hc e1
  cases TxController.same hc' g1
  rw [e2] at g2
  cases g2
  rw [e3] at g3
  cases g3
  rw [e4] at g4
  cases g4
  rw [f1] at k1
  cases k1
  rw [f2] at k2
  rw [f3] at k3
  rw [f4] at k4
  cases k2
  cases k3
  cases k4
  exact ⟨i, n, d, f5, k5, f6, k6, f7, k7⟩

/-- C119 is false of every key event with more seals than one (or none): whatever they are, no transaction event is
accepted for which it is named. -/
theorem C119_several_false (E : Env) (st : Store) (ii : Str) (s a : Sad) (c : M × M) (l : List Value) (hc : TxController E st ii s) (ha : CoupleNames E st ii c a)
    (hl : field (str% "a") a.ked = some (.arr l)) (hone : l.length ≠ 1) (deep : Option Bool) (fuel : Nat) (v : List Str) (r : Bool × List Str) :
    verifyTransactionEvent E st deep fuel s [c] v ≠ .ok r := by
  intro h
  obtain ⟨c', i1, n1, t1, a1, hcc, e1, e2, e3, e4, sl, i, n, d, f1, -⟩ := C119_sole_partial E st deep fuel s [c] v r h
  cases hcc
  cases TxController.same hc e1
  obtain ⟨n, t, q, h1, h2, h3, h4, -⟩ := ha
  rw [e2] at h1
  cases h1
  rw [Nat.mod_eq_of_lt h2, h3] at e3
  cases e3
  rw [h4] at e4
  cases e4
  rw [hl] at f1
  cases f1
  exact hone rfl

/-- An interaction of the first controller that seals the inception of their registry and the issuance of a
credential. -/
def World.ixnBoth : Res Sad := do
  let i ← World.icpA
  let p ← Serder.pre i
  let d ← Sadder.said true i
  let r ← World.vcpA
  let ri ← Serder.pre r
  let rd ← Sadder.said true r
  let e ← World.issA
  let ei ← Serder.pre e
  let ed ← Sadder.said true e
  Sample.interact (World.env []) p d (some 1) (some (.arr [.obj [(str% "i", .str ri), (str% "s", .str (str% "0")), (str% "d", .str rd)],
    .obj [(str% "i", .str ei), (str% "s", .str (str% "0")), (str% "d", .str ed)]])) none none

/-- The key events with it, and the message of the inception of the registry; and the controller. -/
def World.batchCase : Res (List Msg × (Msg × Msg) × Str) := do
  let l ← World.inRow [World.signed (World.ks [1]) World.icpA, World.signed (World.ks [1]) World.ixnBoth]
  let m ← World.coupled World.vcpA World.ixnBoth
  let i ← World.icpA
  let p ← Serder.pre i
  .ok (l, m, p)

/-- Whether the first of two seals of `a` names `e`. -/
def World.sealsFirst (a e : Sad) : Bool :=
  match field (str% "a") a.ked with
  | some (.arr [sl, _]) =>
    (match field (str% "i") sl, field (str% "s") sl, field (str% "d") sl, field (str% "i") e.ked, field (str% "s") e.ked with
    | some (.str i), some (.str n), some (.str d), some (.str j), some (.str m) => decide (i = j) && decide (n = m) && decide (Sadder.said true e = .ok d)
    | _, _, _, _, _ => false)
  | _ => false

theorem World.sealsFirst_ok {a e : Sad} (h : World.sealsFirst a e = true) : SealsToo true a e ∧ ∃ l, field (str% "a") a.ked = some (.arr l) ∧ l.length = 2 := by
  unfold World.sealsFirst at h
  split at h
  · rename_i sl x ha
    split at h
    · rename_i i n d j m h1 h2 h3 h4 h5
      simp only [Bool.and_eq_true, decide_eq_true_eq] at h
      obtain ⟨⟨rfl, rfl⟩, h6⟩ := h
      exact ⟨⟨_, ha, sl, by simp, i, n, d, h1, h2, h3, h4, h5, h6⟩, _, ha, rfl⟩
    · cases h
  · cases h

/-- The tests that the case must pass: the key event is kept and seals the inception, whose couple names it. -/
def World.batchTest (x : List Msg × (Msg × Msg) × Str) : Bool :=
  match x.2.1 with
  | (.payload p, .group (.couples [c]) _) =>
    World.holds (Serder.newWithRaw (fun _ => none) (toUtf8 p)) fun s => World.holds (Res.orPanic ((World.kept x.1).kels x.2.2)[1]?) fun t =>
    World.holds (Serder.newWithRaw (fun _ => none) (toUtf8 t)) fun a => World.holds (Sadder.said true a) fun q =>
      World.sealsFirst a s && decide (Seqner.sn c.1 = .ok 1) && decide (qb64 true c.2 = .ok q) &&
      (match field (str% "t") s.ked, field (str% "ii") s.ked with
        | some (.str t), some (.str ii) => decide (t = str% "vcp") && decide (ii = x.2.2)
        | _, _ => false)
  | _ => false

/-- C119 is false: a controller seals the inception of a registry and the issuance of a credential in one interaction. The
interaction is accepted and kept, and seals the inception, whose couple names it. The inception is refused all the same. -/
theorem C119_false : ∃ (E : Env) (hist : List (Msg × Msg)) (st : Store) (raw : Bytes) (s a : Sad) (c : M × M) (ii : Str), HashOk E.H ∧ CryptoOk E.C ∧ Reach E hist st ∧
    Serder.newWithRaw E.fl raw = .ok s ∧ TxController E st ii s ∧ CoupleNames E st ii c a ∧ SealsToo E.chk a s ∧
    ∀ deep fuel v r, verifyTransactionEvent E st deep fuel s [c] v ≠ .ok r := by
  obtain ⟨x, hx, h⟩ := World.holds_ok (r := World.batchCase) (f := World.batchTest) (by decide +kernel)
  unfold World.batchTest at h
  split at h
  · rename_i p c gt hm
    obtain ⟨s, hs, h⟩ := World.holds_ok h
    obtain ⟨t, ht, h⟩ := World.holds_ok h
    obtain ⟨a, ha, h⟩ := World.holds_ok h
    obtain ⟨q, hq, h⟩ := World.holds_ok h
    simp only [Bool.and_eq_true, decide_eq_true_eq] at h
    obtain ⟨⟨⟨h1, h2⟩, h3⟩, h4⟩ := h
    split at h4
    · rename_i ty ii k1 k2
      simp only [Bool.and_eq_true, decide_eq_true_eq] at h4
      obtain ⟨rfl, rfl⟩ := h4
      obtain ⟨j1, l, j2, j3⟩ := World.sealsFirst_ok h1
      have hr : Reach (World.env []) ([] ++ pairs x.1) (World.kept x.1) := by
        have := Reach.ingest (E := World.env []) (World.env x.1) 5 x.1.length [] x.1 (some false) none .empty (World.env_same _ _) (World.env_remembers _) rfl (by simp)
        rwa [List.take_length] at this
      have hc : TxController (World.env []) (World.kept x.1) x.2.2 s := .inl ⟨k1, k2⟩
      have hn : CoupleNames (World.env []) (World.kept x.1) x.2.2 c a := ⟨1, t, q, h2, by decide, orPanic_ok.mp ht, ha, hq, h3⟩
      exact ⟨World.env [], _, World.kept x.1, toUtf8 p, s, a, c, x.2.2, World.hash_ok, World.crypto_ok, hr, hs, hc, hn, j1,
        fun deep fuel v r => C119_several_false _ _ _ _ _ _ l hc hn j2 (by omega) deep fuel v r⟩
    · cases h4
  · cases h

/-- The hypotheses of C119_sole_partial are met: sealed alone, the same inception is accepted. -/
example : ∃ (E : Env) (st : Store) (s : Sad) (couples : List (M × M)) (r : Bool × List Str), verifyTransactionEvent E st (some false) 5 s couples [] = .ok r := by
  obtain ⟨x, hx, h⟩ := World.holds_ok (r := do
    let l ← World.inRow [World.signed (World.ks [1]) World.icpA, World.signed (World.ks [1]) World.ixnA]
    let m ← World.coupled World.vcpA World.ixnA
    .ok (l, m)) (f := fun x : List Msg × (Msg × Msg) => match x.2 with
      | (.payload p, .group (.couples l) _) => World.holds (Serder.newWithRaw (fun _ => none) (toUtf8 p)) fun s =>
        World.holds (verifyTransactionEvent (World.env []) (World.kept x.1) (some false) 5 s l []) fun _ => true
      | _ => false) (by decide +kernel)
  split at h
  · rename_i p l gt hm
    obtain ⟨s, hs, h⟩ := World.holds_ok h
    obtain ⟨r, hr, -⟩ := World.holds_ok h
    exact ⟨_, _, s, l, r, hr⟩
  · cases h

end Keride.Props
