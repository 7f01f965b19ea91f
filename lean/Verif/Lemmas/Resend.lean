/-
Taking in messages again.
-/
import Verif.Lemmas.Ingest

namespace Keride

open Matter Spec Sample

/-! ## Stores grow -/

theorem Spec.Extends.refl (st : Store) : Extends st st := ⟨fun _ => List.prefix_refl _, fun _ => List.prefix_refl _, List.prefix_refl _⟩

theorem Spec.Extends.trans {a b c : Store} (h : Extends a b) (h' : Extends b c) : Extends a c :=
  ⟨fun p => (h.kels p).trans (h'.kels p), fun p => (h.tels p).trans (h'.tels p), h.acdcs.trans h'.acdcs⟩

theorem prefix_append (logs : Str → List Str) (pre text p : Str) : logs p <+: append logs pre text p := by
  unfold append
  split
  · exact List.prefix_append _ _
  · exact List.prefix_refl _

theorem tryInsert_extends {E : Env} {st st' : Store} {text : Str} (h : Extends st st') : Extends st (tryInsert E st text st').1 := by
  unfold tryInsert
  split
  · exact .refl _
  · exact h

theorem perform_extends {E : Env} {st : Store} {a : Action} : Extends st (perform E st a).1 := by
  cases a with
  | keyEvent pre text => exact tryInsert_extends ⟨prefix_append _ _ _, fun _ => List.prefix_refl _, List.prefix_refl _⟩
  | transactionEvent pre text => exact tryInsert_extends ⟨fun _ => List.prefix_refl _, prefix_append _ _ _, List.prefix_refl _⟩
  | acdc text => exact tryInsert_extends ⟨fun _ => List.prefix_refl _, fun _ => List.prefix_refl _, List.prefix_append _ _⟩
  | nothing => exact .refl _

theorem ingestLoop_extends {E : Env} {fuel : Nat} {deep verify : Option Bool} (st : Store) (msgs : List Msg) (v : List Str) :
    Extends st (ingestLoop E fuel deep verify st msgs v).1 := by
  induction msgs using pairs.induct generalizing st v with
  | case1 m g rest ih =>
    unfold ingestLoop
    split
    · exact .refl _
    · exact .refl _
    · rename_i a v' _
      have hp := perform_extends (E := E) (st := st) (a := a)
      split
      · rename_i st' he
        rw [he] at hp
        exact hp.trans (ih st' v')
      · rename_i st' r _ he
        rw [he] at hp
        exact hp
  | case2 msgs hn =>
    match msgs, hn with
    | [], _ => unfold ingestLoop; exact .refl _
    | [m], _ =>
      unfold ingestLoop
      split <;> exact .refl _
    | m :: g :: rest, hn => exact absurd rfl (hn m g rest)

/-- Stopping earlier leaves less. -/
theorem ingestLoop_take {E : Env} {fuel : Nat} {deep verify : Option Bool} (st : Store) (msgs : List Msg) (v : List Str) (n : Nat) :
    Extends (ingestLoop E fuel deep verify st (msgs.take n) v).1 (ingestLoop E fuel deep verify st msgs v).1 := by
  induction msgs using pairs.induct generalizing st v n with
  | case1 m g rest ih =>
    match n with
    | 0 =>
      simp only [List.take_zero]
      rw [show (ingestLoop E fuel deep verify st [] v).1 = st by simp [ingestLoop]]
      exact ingestLoop_extends _ _ _
    | 1 =>
      simp only [List.take_succ_cons, List.take_zero]
      rw [show (ingestLoop E fuel deep verify st [m] v).1 = st by
        unfold ingestLoop
        split <;> rfl]
      exact ingestLoop_extends _ _ _
    | n + 2 =>
      simp only [List.take_succ_cons]
      unfold ingestLoop
      split
      · exact .refl _
      · exact .refl _
      · split
        · exact ih _ _ _
        · exact .refl _
  | case2 msgs hn =>
    match msgs, hn with
    | [], _ =>
      simp only [List.take_nil]
      exact .refl _
    | [m], _ =>
      match n with
      | 0 =>
        simp only [List.take_zero]
        rw [show (ingestLoop E fuel deep verify st [] v).1 = st by simp [ingestLoop]]
        exact ingestLoop_extends _ _ _
      | n + 1 =>
        simp only [List.take_succ_cons, List.take_nil]
        exact .refl _
    | m :: g :: rest, hn => exact absurd rfl (hn m g rest)

theorem Spec.Extends.holds {E : Env} {st st' : Store} (h : Extends st st') {q : Str} (hq : Holds E st q) : Holds E st' q :=
  Holds.mono (st := st) (st' := st') (fun p _ ht => (h.kels p).subset ht) (fun p _ ht => (h.tels p).subset ht) (fun _ ht => h.acdcs.subset ht) hq

theorem prefix_get {α : Type} {a b : List α} (h : a <+: b) {n : Nat} {x : α} (hx : a[n]? = some x) : b[n]? = some x := by
  obtain ⟨c, rfl⟩ := h
  rw [List.getElem?_append_left (List.getElem?_eq_some_iff.mp hx).1]
  exact hx

theorem getKeyEvent_ext {st st' : Store} (h : Extends st st') {pre t : Str} {n : Nat} (hg : st.getKeyEvent pre n = .ok t) :
    st'.getKeyEvent pre n = .ok t :=
  Res.ofOption_eq_ok.mpr (prefix_get (h.kels pre) (Res.ofOption_eq_ok.mp hg))

theorem getTransactionEvent_ext {st st' : Store} (h : Extends st st') {pre t : Str} {n : Nat} (hg : st.getTransactionEvent pre n = .ok t) :
    st'.getTransactionEvent pre n = .ok t :=
  Res.ofOption_eq_ok.mpr (prefix_get (h.tels pre) (Res.ofOption_eq_ok.mp hg))

theorem getLatestEst_ext {st st' : Store} (h : Extends st st') {fl : Str → Option Str} {pre : Str} {n : Nat} (hn : n < (st.kels pre).length) :
    st'.getLatestEst fl pre n = st.getLatestEst fl pre n := by
  unfold Store.getLatestEst latestEst
  obtain ⟨c, hc⟩ := h.kels pre
  rw [← hc, List.take_append_of_le_length (by omega)]

theorem sub_lt {chk : Bool} {sn i n : Nat} (h : subU32 chk (sn % 2 ^ 32) 1 = .ok i) (h1 : 1 ≤ sn) (hn : sn ≤ n) : i < n := by
  unfold subU32 at h
  split at h
  · cases h
    omega
  · split at h
    · cases h
    · cases h
      omega

/-! ## Key events -/

theorem place_cases {E : Env} {st : Store} {s : Sad} {px : M} {pre ilk said : Str} {sn : Nat} {b : Bool}
    (h : place E st s px pre sn ilk said = .ok b) :
    (ilk = str% "icp" ∧ sn = 0 ∧ b = decide ((st.kels pre).length ≠ 0)) ∨
    (ilk ≠ str% "icp" ∧ 1 ≤ sn ∧ sn ≤ (st.kels pre).length ∧ b = decide (sn ≠ (st.kels pre).length)) := by
  unfold place at h
  dsimp only at h
  split at h
  · rename_i hi
    rw [Res.bind_eq_ok] at h
    obtain ⟨g, -, h⟩ := h
    split at h
    · cases h
    split at h
    · cases h
    rename_i hz
    rw [Res.bind_eq_ok] at h
    obtain ⟨p, -, h⟩ := h
    split at h
    · cases h
    · exact .inl ⟨hi, by omega, (Res.ok.inj h).symm⟩
  · rename_i hi
    rw [Res.bind_eq_ok] at h
    obtain ⟨g, -, h⟩ := h
    split at h
    · cases h
    split at h
    · cases h
    split at h
    · cases h
    · exact .inr ⟨hi, by omega, by omega, (Res.ok.inj h).symm⟩

theorem place_ext {E : Env} {st st' : Store} (he : Extends st st') {s : Sad} {px : M} {pre ilk said : Str} {sn : Nat} {b : Bool}
    (h : place E st s px pre sn ilk said = .ok b) (hb : sn < (st'.kels pre).length) : place E st' s px pre sn ilk said = .ok true := by
  have hl := (he.kels pre).length_le
  unfold place at h ⊢
  dsimp only at h ⊢
  split at h
  · rename_i hi
    rw [if_pos hi]
    rw [Res.bind_eq_ok] at h
    obtain ⟨g, hg, h⟩ := h
    rw [hg, Res.ok_bind]
    split at h
    · cases h
    rename_i h1
    rw [if_neg h1]
    split at h
    · cases h
    rename_i h2
    rw [if_neg h2]
    rw [Res.bind_eq_ok] at h
    obtain ⟨p, hp, h⟩ := h
    rw [hp, Res.ok_bind]
    split at h
    · cases h
    rename_i h3
    rw [if_neg h3, decide_eq_true (by omega)]
  · rename_i hi
    rw [if_neg hi]
    rw [Res.bind_eq_ok] at h
    obtain ⟨g, hg, h⟩ := h
    rw [hg, Res.ok_bind]
    split at h
    · cases h
    rename_i h1
    rw [if_neg h1]
    split at h
    · cases h
    rename_i h2
    rw [if_neg h2, if_neg (by omega), decide_eq_true (by omega)]

theorem keysInForce_ext {E : Env} {st st' : Store} (he : Extends st st') {s : Sad} {pre : Str} {sn : Nat} {x : List M × Tholder}
    (h : keysInForce E st s pre sn = .ok x) (hp : Serder.est s = .ok false → 1 ≤ sn ∧ sn ≤ (st.kels pre).length) :
    keysInForce E st' s pre sn = .ok x := by
  unfold keysInForce at h ⊢
  rw [Res.bind_eq_ok] at h
  obtain ⟨est, h1, h⟩ := h
  rw [h1, Res.ok_bind]
  split at h
  · rename_i ht
    rw [if_pos ht]
    exact h
  · rename_i ht
    rw [if_neg ht]
    rw [Res.bind_eq_ok] at h
    obtain ⟨i, h2, h⟩ := h
    rw [h2, Res.ok_bind, getLatestEst_ext he]
    · exact h
    · obtain ⟨a, b⟩ := hp (by rw [h1]; congr; simpa using ht)
      exact sub_lt h2 a b

theorem checkPrior_ext {E : Env} {st st' : Store} (he : Extends st st') {s : Sad} {pre : Str} {sn : Nat} {ks : List M} {r : List (Nat × Nat)}
    {x : Str × Sad} (h : checkPrior E st s pre sn ks r = .ok x) (h1 : 1 ≤ sn) (hn : sn ≤ (st.kels pre).length) :
    checkPrior E st' s pre sn ks r = .ok x := by
  unfold checkPrior at h ⊢
  rw [Res.bind_eq_ok] at h
  obtain ⟨i, hi, h⟩ := h
  rw [hi, Res.ok_bind]
  rw [Res.bind_eq_ok] at h
  obtain ⟨ev, hev, h⟩ := h
  rw [getKeyEvent_ext he hev, Res.ok_bind]
  simp only [hi, Res.ok_bind, getLatestEst_ext he (sub_lt hi h1 hn)] at h ⊢
  exact h

theorem est_icp {s : Sad} {v : Value} {ilk : Str} (h1 : s.ked.index (str% "t") = .ok v) (h2 : v.toStr = .ok ilk) (h : Serder.est s = .ok false) :
    ilk ≠ str% "icp" := by
  rintro rfl
  unfold Serder.est at h
  rw [h1, Res.ok_bind, h2, Res.ok_bind] at h
  revert h
  decide

theorem checkKeyEvent_place {E : Env} {st : Store} {s : Sad} {l : List SigGroup} {c : Checked} (h : checkKeyEvent E st s l = .ok c) :
    c.sn ≤ (st.kels c.pre).length ∧ (c.existing = false ↔ c.sn = (st.kels c.pre).length) := by
  unfold checkKeyEvent at h
  rw [Res.bind_eq_ok] at h
  obtain ⟨pre, h1, h⟩ := h
  rw [Res.bind_eq_ok] at h
  obtain ⟨px, h2, h⟩ := h
  rw [Res.bind_eq_ok] at h
  obtain ⟨sn, h3, h⟩ := h
  rw [Res.bind_eq_ok] at h
  obtain ⟨t, h4, h⟩ := h
  rw [Res.bind_eq_ok] at h
  obtain ⟨ilk, h5, h⟩ := h
  rw [Res.bind_eq_ok] at h
  obtain ⟨said, h6, h⟩ := h
  rw [Res.bind_eq_ok] at h
  obtain ⟨ex, h7, h⟩ := h
  rw [Res.bind_eq_ok] at h
  obtain ⟨keys, h8, h⟩ := h
  rw [Res.bind_eq_ok] at h
  obtain ⟨ver, h9, h⟩ := h
  rw [Res.bind_eq_ok] at h
  obtain ⟨good, h10, h⟩ := h
  have hc : c.pre = pre ∧ c.sn = sn ∧ c.existing = ex := by
    split at h
    · cases h
    rw [Res.bind_eq_ok] at h
    obtain ⟨labels, h11, h⟩ := h
    rw [Res.bind_eq_ok] at h
    obtain ⟨has, h12, h⟩ := h
    split at h
    · cases h
    split at h
    · cases h
      exact ⟨rfl, rfl, rfl⟩
    · rw [Res.bind_eq_ok] at h
      obtain ⟨p, h13, h⟩ := h
      cases h
      exact ⟨rfl, rfl, rfl⟩
  obtain ⟨e1, e2, e3⟩ := hc
  rw [e1, e2, e3]
  rcases place_cases h7 with ⟨-, a, b⟩ | ⟨-, a, b, c⟩
  · subst a b
    constructor
    · omega
    · rw [decide_eq_false_iff_not]
      omega
  · subst c
    refine ⟨b, ?_⟩
    rw [decide_eq_false_iff_not]
    omega

theorem checkKeyEvent_ext {E : Env} {st st' : Store} (he : Extends st st') {s : Sad} {l : List SigGroup} {c : Checked}
    (h : checkKeyEvent E st s l = .ok c) (hb : c.sn < (st'.kels c.pre).length) :
    checkKeyEvent E st' s l = .ok { c with existing := true } := by
  unfold checkKeyEvent at h ⊢
  rw [Res.bind_eq_ok] at h
  obtain ⟨pre, h1, h⟩ := h
  rw [h1, Res.ok_bind]
  rw [Res.bind_eq_ok] at h
  obtain ⟨px, h2, h⟩ := h
  rw [h2, Res.ok_bind]
  rw [Res.bind_eq_ok] at h
  obtain ⟨sn, h3, h⟩ := h
  rw [h3, Res.ok_bind]
  rw [Res.bind_eq_ok] at h
  obtain ⟨t, h4, h⟩ := h
  rw [h4, Res.ok_bind]
  rw [Res.bind_eq_ok] at h
  obtain ⟨ilk, h5, h⟩ := h
  rw [h5, Res.ok_bind]
  rw [Res.bind_eq_ok] at h
  obtain ⟨said, h6, h⟩ := h
  rw [h6, Res.ok_bind]
  rw [Res.bind_eq_ok] at h
  obtain ⟨ex, h7, h⟩ := h
  rw [Res.bind_eq_ok] at h
  obtain ⟨keys, h8, h⟩ := h
  rw [Res.bind_eq_ok] at h
  obtain ⟨ver, h9, h⟩ := h
  rw [Res.bind_eq_ok] at h
  obtain ⟨good, h10, h⟩ := h
  have hc : c.pre = pre ∧ c.sn = sn := by
    split at h
    · cases h
    rw [Res.bind_eq_ok] at h
    obtain ⟨labels, h11, h⟩ := h
    rw [Res.bind_eq_ok] at h
    obtain ⟨has, h12, h⟩ := h
    split at h
    · cases h
    split at h
    · cases h
      exact ⟨rfl, rfl⟩
    · rw [Res.bind_eq_ok] at h
      obtain ⟨p, h13, h⟩ := h
      cases h
      exact ⟨rfl, rfl⟩
  obtain ⟨e1, e2⟩ := hc
  rw [e1, e2] at hb
  have hpl := place_cases h7
  rw [place_ext he h7 hb, Res.ok_bind]
  rw [keysInForce_ext he h8 (by
    intro hest
    rcases hpl with ⟨a, -⟩ | ⟨-, a, b, -⟩
    · exact absurd a (est_icp h4 h5 hest)
    · exact ⟨a, b⟩), Res.ok_bind, h9, Res.ok_bind, h10, Res.ok_bind]
  split at h
  · cases h
  rename_i g1
  rw [if_neg g1]
  rw [Res.bind_eq_ok] at h
  obtain ⟨labels, h11, h⟩ := h
  rw [h11, Res.ok_bind]
  rw [Res.bind_eq_ok] at h
  obtain ⟨has, h12, h⟩ := h
  rw [h12, Res.ok_bind]
  split at h
  · cases h
  rename_i g2
  rw [if_neg g2]
  split at h
  · rename_i g3
    rw [if_pos g3]
    cases h
    rfl
  · rename_i g3
    rw [if_neg g3]
    rw [Res.bind_eq_ok] at h
    obtain ⟨p, h13, h⟩ := h
    rcases hpl with ⟨a, -⟩ | ⟨-, a, b, -⟩
    · exact absurd a g3
    rw [checkPrior_ext he h13 a b, Res.ok_bind]
    cases h
    rfl

/-- The event at a place of a log. -/
def At (E : Env) (log : List Str) (n : Nat) (q : Str) : Prop :=
  ∃ t s, log[n]? = some t ∧ Serder.newWithRaw E.fl (toUtf8 t) = .ok s ∧ Sadder.said E.chk s = .ok q

theorem At.mono {E : Env} {a b : List Str} (h : a <+: b) {n : Nat} {q : Str} (hq : At E a n q) : At E b n q := by
  obtain ⟨t, s, h1, h2⟩ := hq
  exact ⟨t, s, prefix_get h h1, h2⟩

theorem confirm_at {E : Env} {st : Store} {c : Checked} (hc : c.existing = true) : confirm E st c = .ok () ↔ At E (st.kels c.pre) (c.sn % 2 ^ 32) c.said := by
  unfold confirm At
  rw [if_pos hc]
  constructor
  · intro h
    rw [Res.bind_eq_ok] at h
    obtain ⟨t, h1, h⟩ := h
    rw [Res.bind_eq_ok] at h
    obtain ⟨s, h2, h⟩ := h
    rw [Res.bind_eq_ok] at h
    obtain ⟨q, h3, h⟩ := h
    split at h
    · cases h
    · rename_i hq
      have : c.said = q := by simpa using hq
      exact ⟨t, s, Res.ofOption_eq_ok.mp h1, h2, this ▸ h3⟩
  · rintro ⟨t, s, h1, h2, h3⟩
    have h1 : st.getKeyEvent c.pre (c.sn % 2 ^ 32) = .ok t := Res.ofOption_eq_ok.mpr h1
    rw [h1, Res.ok_bind, h2, Res.ok_bind, h3, Res.ok_bind, if_neg (by simp)]

theorem verifyKeyEvent_shallow {E : Env} {st : Store} {deep : Option Bool} (hd : deep ≠ some true) {fuel : Nat} {s : Sad} {l : List SigGroup} {v : List Str} :
    verifyKeyEvent E st deep (fuel + 1) s l v = (do
      let c ← checkKeyEvent E st s l
      confirm E st c
      .ok (c.existing, v)) := by
  unfold verifyKeyEvent
  have hg : deep.getD false = false := by
    cases deep with
    | none => rfl
    | some b => cases b with
      | true => exact absurd rfl hd
      | false => rfl
  congr 1
  funext c
  rw [hg]
  cases c.prior with
  | none => rfl
  | some x => rfl

/-- A key event that was verified, and is stored where it belongs, verifies again as one that is there. -/
theorem verifyKeyEvent_ext {E : Env} {st st' : Store} (he : Extends st st') {deep : Option Bool} (hd : deep ≠ some true) {fuel : Nat} {s : Sad}
    {l : List SigGroup} {v : List Str} {r : Bool × List Str} (h : verifyKeyEvent E st deep fuel s l v = .ok r)
    (hlen : ∀ p, (st'.kels p).length ≤ 2 ^ 32)
    (hs : r.1 = false → ∀ pre q, Serder.pre s = .ok pre → Sadder.said E.chk s = .ok q → At E (st'.kels pre) (st.kels pre).length q) :
    verifyKeyEvent E st' deep fuel s l v = .ok (true, r.2) := by
  cases fuel with
  | zero => cases h
  | succ fuel =>
    rw [verifyKeyEvent_shallow hd] at h ⊢
    rw [Res.bind_eq_ok] at h
    obtain ⟨c, h1, h⟩ := h
    rw [Res.bind_eq_ok] at h
    obtain ⟨u, h2, h⟩ := h
    cases h
    obtain ⟨p1, p2⟩ := checkKeyEvent_place h1
    obtain ⟨d1, d2, d3, -⟩ := checkKeyEvent_ok h1
    have hb : At E (st'.kels c.pre) c.sn c.said ∧ c.sn < (st'.kels c.pre).length := by
      by_cases hx : c.existing = false
      · have := hs hx _ _ d1 d3
        rw [← p2.mp hx] at this
        refine ⟨this, ?_⟩
        obtain ⟨t, s, k, -⟩ := this
        exact (List.getElem?_eq_some_iff.mp k).1
      · have hl := (he.kels c.pre).length_le
        have hlt : c.sn < (st.kels c.pre).length := lt_of_le_of_ne p1 fun h => hx (p2.mpr h)
        have := (confirm_at (by simpa using hx)).mp h2
        have hm := hlen c.pre
        rw [Nat.mod_eq_of_lt (by omega)] at this
        exact ⟨this.mono (he.kels _), by omega⟩
    rw [checkKeyEvent_ext he h1 hb.2, Res.ok_bind]
    have hm := hlen c.pre
    have := (confirm_at (E := E) (st := st') (c := { c with existing := true }) rfl).mpr (by
      dsimp only
      rw [Nat.mod_eq_of_lt (by omega)]
      exact hb.1)
    rw [this, Res.ok_bind]

/-! ## Transaction events -/

theorem anchorOf_ext {E : Env} {st st' : Store} (he : Extends st st') {s : Sad} {px : M} {ilk ri x : Str} (h : anchorOf E st s px ilk ri = .ok x) :
    anchorOf E st' s px ilk ri = .ok x := by
  unfold anchorOf at h ⊢
  split at h
  · rename_i g1
    rw [if_pos g1]
    exact h
  · rename_i g1
    rw [if_neg g1]
    split at h
    · rename_i g2
      rw [if_pos g2]
      rw [Res.bind_eq_ok] at h
      obtain ⟨good, h1, h⟩ := h
      rw [h1, Res.ok_bind]
      split at h
      · cases h
      rename_i g3
      rw [if_neg g3]
      rw [Res.bind_eq_ok] at h
      obtain ⟨ev, h2, h⟩ := h
      rw [getTransactionEvent_ext he h2, Res.ok_bind]
      exact h
    · cases h

theorem verifyAnchor_ext {E : Env} {st st' : Store} (he : Extends st st') {fuel : Nat} {ap : Str} {n d : M} {s : Sad} {v : List Str} {r : Bool × List Str}
    (h : verifyAnchor E st (some false) fuel ap n d s v = .ok r) : verifyAnchor E st' (some false) fuel ap n d s v = .ok r := by
  unfold verifyAnchor at h ⊢
  rw [Res.bind_eq_ok] at h
  obtain ⟨k, h1, h⟩ := h
  rw [h1, Res.ok_bind]
  rw [Res.bind_eq_ok] at h
  obtain ⟨ev, h2, h⟩ := h
  rw [getKeyEvent_ext he h2, Res.ok_bind]
  exact h

/-- What `verify_transaction_event` does before it looks at the event's place in its log. -/
def checkTransaction (E : Env) (st : Store) (fuel : Nat) (s : Sad) (l : List (M × M)) (v : List Str) : Res (Str × Nat × Str × Str) := do
  let pre ← Serder.pre s
  let prefixer ← Prefixer.newWithQb64 E.H pre
  let sn ← Serder.sn s
  let t ← s.ked.index (str% "t")
  let ilk ← t.toStr
  let said ← Sadder.said E.chk s
  let ri ← registryOf ilk s
  if l.length ≠ 1 then .err .decoding
  else do
    let source ← Res.orPanic l.head?
    let labels ← telLabels ilk
    let has ← verifyKedLabels s.ked labels
    if !has then .err .validation
    else do
      let apre ← anchorOf E st s prefixer ilk ri
      let a ← verifyAnchor E st (some false) fuel apre source.1 source.2 s v
      if !a.1 then .err .verification else .ok (pre, sn, ilk, said)

/-- The place of the event in its log. -/
def placeTransaction (E : Env) (st : Store) (s : Sad) (x : Str × Nat × Str × Str) : Res Bool :=
  if x.2.2.1 = str% "vcp" ∨ x.2.2.1 = str% "iss" then
    if x.2.1 ≠ 0 then .err .decoding else .ok (decide ((st.tels x.1).length ≠ 0))
  else if x.2.1 < 1 then .err .validation
  else if (st.tels x.1).length < x.2.1 then .err .outOfOrder
  else do
    let i ← subU32 E.chk (x.2.1 % 2 ^ 32) 1
    let event ← st.getTransactionEvent x.1 i
    let p ← Serder.newWithRaw E.fl (toUtf8 event)
    let psaid ← Sadder.said E.chk p
    let y ← s.ked.index (str% "p")
    let y ← y.toStr
    if psaid ≠ y then .err .verification else .ok (decide (x.2.1 ≠ (st.tels x.1).length))

/-- A taken place must hold the same event. -/
def confirmTransaction (E : Env) (st : Store) (x : Str × Nat × Str × Str) (existing : Bool) : Res Unit :=
  if existing then do
    let event ← st.getTransactionEvent x.1 (x.2.1 % 2 ^ 32)
    let s ← Serder.newWithRaw E.fl (toUtf8 event)
    let q ← Sadder.said E.chk s
    if x.2.2.2 ≠ q then .err .programmer else .ok ()
  else .ok ()

theorem verifyAnchor_set {E : Env} {st : Store} {fuel : Nat} {ap : Str} {n d : M} {s : Sad} {v : List Str} {r : Bool × List Str}
    (h : verifyAnchor E st (some false) fuel ap n d s v = .ok r) : r.2 = v := by
  unfold verifyAnchor at h
  rw [Res.bind_eq_ok] at h
  obtain ⟨_, -, h⟩ := h
  rw [Res.bind_eq_ok] at h
  obtain ⟨_, -, h⟩ := h
  rw [Res.bind_eq_ok] at h
  obtain ⟨_, -, h⟩ := h
  rw [Res.bind_eq_ok] at h
  obtain ⟨_, -, h⟩ := h
  rw [Res.bind_eq_ok] at h
  obtain ⟨_, -, h⟩ := h
  split at h
  · cases h; rfl
  rw [Res.bind_eq_ok] at h
  obtain ⟨sl, -, h⟩ := h
  cases sl with
  | none => cases h; rfl
  | some x =>
    dsimp only [Option.getD] at h
    rw [if_neg (by decide), Res.ok_bind] at h
    rw [Res.bind_eq_ok] at h
    obtain ⟨_, -, h⟩ := h
    rw [Res.bind_eq_ok] at h
    obtain ⟨_, -, h⟩ := h
    split at h
    · cases h; rfl
    rw [Res.bind_eq_ok] at h
    obtain ⟨_, -, h⟩ := h
    split at h
    · cases h; rfl
    rw [Res.bind_eq_ok] at h
    obtain ⟨_, -, h⟩ := h
    cases h; rfl

theorem verifyTransactionEvent_shallow {E : Env} {st : Store} {fuel : Nat} {s : Sad} {l : List (M × M)} {v : List Str} {r : Bool × List Str} :
    verifyTransactionEvent E st (some false) (fuel + 1) s l v = .ok r ↔
      r.2 = v ∧ ∃ x, checkTransaction E st fuel s l v = .ok x ∧ placeTransaction E st s x = .ok r.1 ∧ confirmTransaction E st x r.1 = .ok () := by
  unfold verifyTransactionEvent checkTransaction
  constructor
  · intro h
    rw [Res.bind_eq_ok] at h
    obtain ⟨pre, h1, h⟩ := h
    rw [Res.bind_eq_ok] at h
    obtain ⟨px, h2, h⟩ := h
    rw [Res.bind_eq_ok] at h
    obtain ⟨sn, h3, h⟩ := h
    rw [Res.bind_eq_ok] at h
    obtain ⟨t, h4, h⟩ := h
    rw [Res.bind_eq_ok] at h
    obtain ⟨ilk, h5, h⟩ := h
    rw [Res.bind_eq_ok] at h
    obtain ⟨said, h6, h⟩ := h
    rw [Res.bind_eq_ok] at h
    obtain ⟨ri, h7, h⟩ := h
    split at h
    · cases h
    rename_i g1
    rw [Res.bind_eq_ok] at h
    obtain ⟨src, h8, h⟩ := h
    rw [Res.bind_eq_ok] at h
    obtain ⟨labels, h9, h⟩ := h
    rw [Res.bind_eq_ok] at h
    obtain ⟨has, h10, h⟩ := h
    split at h
    · cases h
    rename_i g2
    dsimp only at h
    rw [Res.bind_eq_ok] at h
    obtain ⟨ap, h11, h⟩ := h
    rw [Res.bind_eq_ok] at h
    obtain ⟨a, h12, h⟩ := h
    split at h
    · cases h
    rename_i g3
    rw [Res.bind_eq_ok] at h
    obtain ⟨w, h13, h⟩ := h
    have hv := verifyAnchor_set h12
    have hr : r = w ∧ confirmTransaction E st (pre, sn, ilk, said) w.1 = .ok () := by
      unfold confirmTransaction
      split at h
      · rename_i g4
        rw [if_pos g4]
        rw [Res.bind_eq_ok] at h
        obtain ⟨ev, k1, h⟩ := h
        rw [k1, Res.ok_bind]
        rw [Res.bind_eq_ok] at h
        obtain ⟨p, k2, h⟩ := h
        rw [k2, Res.ok_bind]
        rw [Res.bind_eq_ok] at h
        obtain ⟨q, k3, h⟩ := h
        rw [k3, Res.ok_bind]
        split at h
        · cases h
        rename_i g5
        rw [if_neg g5]
        exact ⟨(Res.ok.inj h).symm, rfl⟩
      · rename_i g4
        rw [if_neg g4]
        exact ⟨(Res.ok.inj h).symm, rfl⟩
    obtain ⟨rfl, hc⟩ := hr
    have hw : placeTransaction E st s (pre, sn, ilk, said) = .ok r.1 ∧ r.2 = v := by
      unfold placeTransaction
      dsimp only
      split at h13
      · rename_i k1
        rw [if_pos k1]
        split at h13
        · cases h13
        rename_i k2
        rw [if_neg k2]
        cases h13
        exact ⟨rfl, hv⟩
      · rename_i k1
        rw [if_neg k1]
        split at h13
        · cases h13
        rename_i k2
        rw [if_neg k2]
        split at h13
        · cases h13
        rename_i k3
        rw [if_neg k3]
        rw [Res.bind_eq_ok] at h13
        obtain ⟨i, j1, h13⟩ := h13
        rw [j1, Res.ok_bind]
        rw [Res.bind_eq_ok] at h13
        obtain ⟨ev, j2, h13⟩ := h13
        rw [j2, Res.ok_bind]
        rw [Res.bind_eq_ok] at h13
        obtain ⟨p, j3, h13⟩ := h13
        rw [j3, Res.ok_bind]
        rw [Res.bind_eq_ok] at h13
        obtain ⟨ps, j4, h13⟩ := h13
        rw [j4, Res.ok_bind]
        dsimp only [Option.getD] at h13
        rw [if_neg (by decide), Res.ok_bind] at h13
        rw [Res.bind_eq_ok] at h13
        obtain ⟨x, j5, h13⟩ := h13
        rw [j5, Res.ok_bind]
        rw [Res.bind_eq_ok] at h13
        obtain ⟨x, j6, h13⟩ := h13
        rw [j6, Res.ok_bind]
        split at h13
        · cases h13
        rename_i k4
        rw [if_neg k4]
        cases h13
        exact ⟨rfl, hv⟩
    refine ⟨hw.2, (pre, sn, ilk, said), ?_, hw.1, hc⟩
    rw [h1, Res.ok_bind, h2, Res.ok_bind, h3, Res.ok_bind, h4, Res.ok_bind, h5, Res.ok_bind, h6, Res.ok_bind, h7, Res.ok_bind, if_neg g1, h8, Res.ok_bind,
      h9, Res.ok_bind, h10, Res.ok_bind, if_neg g2, h11, Res.ok_bind, h12, Res.ok_bind, if_neg g3]
  · rintro ⟨hv, x, h, hp, hc⟩
    rw [Res.bind_eq_ok] at h
    obtain ⟨pre, h1, h⟩ := h
    rw [Res.bind_eq_ok] at h
    obtain ⟨px, h2, h⟩ := h
    rw [Res.bind_eq_ok] at h
    obtain ⟨sn, h3, h⟩ := h
    rw [Res.bind_eq_ok] at h
    obtain ⟨t, h4, h⟩ := h
    rw [Res.bind_eq_ok] at h
    obtain ⟨ilk, h5, h⟩ := h
    rw [Res.bind_eq_ok] at h
    obtain ⟨said, h6, h⟩ := h
    rw [Res.bind_eq_ok] at h
    obtain ⟨ri, h7, h⟩ := h
    split at h
    · cases h
    rename_i g1
    rw [Res.bind_eq_ok] at h
    obtain ⟨src, h8, h⟩ := h
    rw [Res.bind_eq_ok] at h
    obtain ⟨labels, h9, h⟩ := h
    rw [Res.bind_eq_ok] at h
    obtain ⟨has, h10, h⟩ := h
    split at h
    · cases h
    rename_i g2
    rw [Res.bind_eq_ok] at h
    obtain ⟨ap, h11, h⟩ := h
    rw [Res.bind_eq_ok] at h
    obtain ⟨a, h12, h⟩ := h
    split at h
    · cases h
    rename_i g3
    cases h
    have ha := verifyAnchor_set h12
    rw [h1, Res.ok_bind, h2, Res.ok_bind, h3, Res.ok_bind, h4, Res.ok_bind, h5, Res.ok_bind, h6, Res.ok_bind, h7, Res.ok_bind, if_neg g1, h8, Res.ok_bind,
      h9, Res.ok_bind, h10, Res.ok_bind, if_neg g2]
    dsimp only
    rw [h11, Res.ok_bind, h12, Res.ok_bind, if_neg g3]
    rw [Res.bind_eq_ok]
    refine ⟨r, ?_, ?_⟩
    · unfold placeTransaction at hp
      dsimp only at hp
      split at hp
      · rename_i k1
        rw [if_pos k1]
        split at hp
        · cases hp
        rename_i k2
        rw [if_neg k2, ha, ← hv]
        obtain ⟨r1, r2⟩ := r
        simpa using hp
      · rename_i k1
        rw [if_neg k1]
        split at hp
        · cases hp
        rename_i k2
        rw [if_neg k2]
        split at hp
        · cases hp
        rename_i k3
        rw [if_neg k3]
        rw [Res.bind_eq_ok] at hp
        obtain ⟨i, j1, hp⟩ := hp
        rw [j1, Res.ok_bind]
        rw [Res.bind_eq_ok] at hp
        obtain ⟨ev, j2, hp⟩ := hp
        rw [j2, Res.ok_bind]
        rw [Res.bind_eq_ok] at hp
        obtain ⟨p, j3, hp⟩ := hp
        rw [j3, Res.ok_bind]
        rw [Res.bind_eq_ok] at hp
        obtain ⟨ps, j4, hp⟩ := hp
        rw [j4, Res.ok_bind]
        dsimp only [Option.getD]
        rw [if_neg (by decide), Res.ok_bind]
        rw [Res.bind_eq_ok] at hp
        obtain ⟨x, j5, hp⟩ := hp
        rw [j5, Res.ok_bind]
        rw [Res.bind_eq_ok] at hp
        obtain ⟨x, j6, hp⟩ := hp
        rw [j6, Res.ok_bind]
        split at hp
        · cases hp
        rename_i k4
        rw [if_neg k4, ha, ← hv]
        obtain ⟨r1, r2⟩ := r
        simpa using hp
    · unfold confirmTransaction at hc
      dsimp only at hc
      split at hc
      · rename_i g4
        rw [if_pos g4]
        rw [Res.bind_eq_ok] at hc
        obtain ⟨ev, k1, hc⟩ := hc
        rw [k1, Res.ok_bind]
        rw [Res.bind_eq_ok] at hc
        obtain ⟨p, k2, hc⟩ := hc
        rw [k2, Res.ok_bind]
        rw [Res.bind_eq_ok] at hc
        obtain ⟨q, k3, hc⟩ := hc
        rw [k3, Res.ok_bind]
        split at hc
        · cases hc
        rename_i g5
        rw [if_neg g5]
      · rename_i g4
        rw [if_neg g4]

theorem checkTransaction_ext {E : Env} {st st' : Store} (he : Extends st st') {fuel : Nat} {s : Sad} {l : List (M × M)} {v : List Str}
    {x : Str × Nat × Str × Str} (h : checkTransaction E st fuel s l v = .ok x) :
    checkTransaction E st' fuel s l v = .ok x ∧ Serder.pre s = .ok x.1 ∧ Sadder.said E.chk s = .ok x.2.2.2 := by
  unfold checkTransaction at h ⊢
  rw [Res.bind_eq_ok] at h
  obtain ⟨pre, h1, h⟩ := h
  rw [Res.bind_eq_ok] at h
  obtain ⟨px, h2, h⟩ := h
  rw [Res.bind_eq_ok] at h
  obtain ⟨sn, h3, h⟩ := h
  rw [Res.bind_eq_ok] at h
  obtain ⟨t, h4, h⟩ := h
  rw [Res.bind_eq_ok] at h
  obtain ⟨ilk, h5, h⟩ := h
  rw [Res.bind_eq_ok] at h
  obtain ⟨said, h6, h⟩ := h
  rw [Res.bind_eq_ok] at h
  obtain ⟨ri, h7, h⟩ := h
  split at h
  · cases h
  rename_i g1
  rw [Res.bind_eq_ok] at h
  obtain ⟨src, h8, h⟩ := h
  rw [Res.bind_eq_ok] at h
  obtain ⟨labels, h9, h⟩ := h
  rw [Res.bind_eq_ok] at h
  obtain ⟨has, h10, h⟩ := h
  split at h
  · cases h
  rename_i g2
  rw [Res.bind_eq_ok] at h
  obtain ⟨ap, h11, h⟩ := h
  rw [Res.bind_eq_ok] at h
  obtain ⟨a, h12, h⟩ := h
  split at h
  · cases h
  rename_i g3
  cases h
  refine ⟨?_, h1, h6⟩
  rw [h1, Res.ok_bind, h2, Res.ok_bind, h3, Res.ok_bind, h4, Res.ok_bind, h5, Res.ok_bind, h6, Res.ok_bind, h7, Res.ok_bind, if_neg g1, h8, Res.ok_bind,
    h9, Res.ok_bind, h10, Res.ok_bind, if_neg g2, anchorOf_ext he h11, Res.ok_bind, verifyAnchor_ext he h12, Res.ok_bind, if_neg g3]

theorem placeTransaction_ext {E : Env} {st st' : Store} (he : Extends st st') {s : Sad} {x : Str × Nat × Str × Str} {b : Bool}
    (h : placeTransaction E st s x = .ok b) : x.2.1 ≤ (st.tels x.1).length ∧ (b = false ↔ x.2.1 = (st.tels x.1).length) ∧
      (x.2.1 < (st'.tels x.1).length → placeTransaction E st' s x = .ok true) := by
  have hl := (he.tels x.1).length_le
  unfold placeTransaction at h ⊢
  split at h
  · rename_i k1
    rw [if_pos k1]
    split at h
    · cases h
    rename_i k2
    rw [if_neg k2]
    cases h
    refine ⟨by omega, ?_, fun hb => ?_⟩
    · rw [decide_eq_false_iff_not]
      omega
    · rw [decide_eq_true (by omega)]
  · rename_i k1
    rw [if_neg k1]
    split at h
    · cases h
    rename_i k2
    rw [if_neg k2]
    split at h
    · cases h
    rename_i k3
    rw [Res.bind_eq_ok] at h
    obtain ⟨i, j1, h⟩ := h
    rw [Res.bind_eq_ok] at h
    obtain ⟨ev, j2, h⟩ := h
    rw [Res.bind_eq_ok] at h
    obtain ⟨p, j3, h⟩ := h
    rw [Res.bind_eq_ok] at h
    obtain ⟨ps, j4, h⟩ := h
    rw [Res.bind_eq_ok] at h
    obtain ⟨y, j5, h⟩ := h
    rw [Res.bind_eq_ok] at h
    obtain ⟨z, j6, h⟩ := h
    split at h
    · cases h
    rename_i k4
    cases h
    refine ⟨by omega, ?_, fun hb => ?_⟩
    · rw [decide_eq_false_iff_not]
      omega
    · rw [if_neg (by omega), j1, Res.ok_bind, getTransactionEvent_ext he j2, Res.ok_bind, j3, Res.ok_bind, j4, Res.ok_bind, j5, Res.ok_bind, j6, Res.ok_bind,
        if_neg k4, decide_eq_true (by omega)]

theorem confirmTransaction_at {E : Env} {st : Store} {x : Str × Nat × Str × Str} :
    confirmTransaction E st x true = .ok () ↔ At E (st.tels x.1) (x.2.1 % 2 ^ 32) x.2.2.2 := by
  unfold confirmTransaction At
  rw [if_pos rfl]
  constructor
  · intro h
    rw [Res.bind_eq_ok] at h
    obtain ⟨t, h1, h⟩ := h
    rw [Res.bind_eq_ok] at h
    obtain ⟨s, h2, h⟩ := h
    rw [Res.bind_eq_ok] at h
    obtain ⟨q, h3, h⟩ := h
    split at h
    · cases h
    · rename_i hq
      have : x.2.2.2 = q := by simpa using hq
      exact ⟨t, s, Res.ofOption_eq_ok.mp h1, h2, this ▸ h3⟩
  · rintro ⟨t, s, h1, h2, h3⟩
    have h1 : st.getTransactionEvent x.1 (x.2.1 % 2 ^ 32) = .ok t := Res.ofOption_eq_ok.mpr h1
    rw [h1, Res.ok_bind, h2, Res.ok_bind, h3, Res.ok_bind, if_neg (by simp)]

/-- A transaction event that was verified, and is stored where it belongs, verifies again as one that is there. -/
theorem verifyTransactionEvent_ext {E : Env} {st st' : Store} (he : Extends st st') {fuel : Nat} {s : Sad}
    {l : List (M × M)} {v : List Str} {r : Bool × List Str} (h : verifyTransactionEvent E st (some false) fuel s l v = .ok r)
    (hlen : ∀ p, (st'.tels p).length ≤ 2 ^ 32)
    (hs : r.1 = false → ∀ pre q, Serder.pre s = .ok pre → Sadder.said E.chk s = .ok q → At E (st'.tels pre) (st.tels pre).length q) :
    verifyTransactionEvent E st' (some false) fuel s l v = .ok (true, r.2) := by
  cases fuel with
  | zero => cases h
  | succ fuel =>
    rw [verifyTransactionEvent_shallow] at h ⊢
    obtain ⟨hv, x, h1, h2, h3⟩ := h
    obtain ⟨c1, c2, c3⟩ := checkTransaction_ext he h1
    obtain ⟨p1, p2, p3⟩ := placeTransaction_ext he h2
    have hb : At E (st'.tels x.1) x.2.1 x.2.2.2 ∧ x.2.1 < (st'.tels x.1).length := by
      by_cases hx : r.1 = false
      · have := hs hx _ _ c2 c3
        rw [← p2.mp hx] at this
        refine ⟨this, ?_⟩
        obtain ⟨t, s, k, -⟩ := this
        exact (List.getElem?_eq_some_iff.mp k).1
      · have hl := (he.tels x.1).length_le
        have hlt : x.2.1 < (st.tels x.1).length := lt_of_le_of_ne p1 fun h => hx (p2.mpr h)
        have hx : r.1 = true := by simpa using hx
        rw [hx, confirmTransaction_at] at h3
        have hm := hlen x.1
        rw [Nat.mod_eq_of_lt (by omega)] at h3
        exact ⟨h3.mono (he.tels _), by omega⟩
    have hm := hlen x.1
    refine ⟨hv, x, c1, p3 hb.2, ?_⟩
    rw [confirmTransaction_at, Nat.mod_eq_of_lt (by omega)]
    exact hb.1

/-! ## Messages -/

theorem verifyOrSeen_ext {E : Env} (hR : Remembers E) {st st' : Store} (he : Extends st st') {verify : Option Bool} (hv : verify ≠ some false) {q : Str}
    {v : List Str} (hh : ∀ q ∈ v, Holds E st q) {f f' : List Str → Res (Bool × List Str)} {r : Bool × List Str}
    (h : verifyOrSeen E st verify q v f = .ok r) (hf : f (q :: v) = .ok r → f' (q :: v) = .ok (true, r.2)) :
    verifyOrSeen E st' verify q v f' = .ok (true, r.2) := by
  have hg : verify.getD true = true := by
    cases verify with
    | none => rfl
    | some b => cases b with
      | true => rfl
      | false => exact absurd rfl hv
  unfold verifyOrSeen at h ⊢
  rw [hg, Bool.true_and] at h ⊢
  split at h
  · rename_i hc
    rw [if_pos hc]
    exact hf h
  · rename_i hc
    rw [if_neg hc]
    cases h
    have : q ∈ v := by simpa using hc
    rw [(he.holds (hh q this)).seen hR]

theorem index_text' {s : Sad} {k t : Str} {v : Value} (h1 : s.ked.index k = .ok v) (h2 : v.toStr = .ok t) : HasText k t s := by
  cases hk : s.ked with
  | obj o =>
    rw [hk] at h1
    unfold HasText
    rw [hk, Saider.field_find]
    cases hf : Value.find k o with
    | none => simp [Value.index, hf, Res.orPanic] at h1
    | some x =>
      simp [Value.index, hf, Res.orPanic] at h1
      subst h1
      cases x <;> simp [Value.toStr] at h2
      rw [h2]
  | _ => rw [hk] at h1; simp [Value.index] at h1

/-- A message that was taken in, and is stored where it belongs, is taken in again without any effect. -/
theorem ingestOne_ext {E : Env} (hR : Remembers E) {st st' : Store} (he : Extends st st') {fuel : Nat} {deep verify : Option Bool}
    (hv : verify ≠ some false) {p : Str} {g : Msg} {v v' : List Str} {a : Action} (hh : ∀ q ∈ v, Holds E st q)
    (hk : ∀ r, sniff (toUtf8 p) = .ok r → r.ident = str% "KERI")
    (hd : deep = some false ∨ deep ≠ some true ∧ ∀ s, Serder.newWithRaw E.fl (toUtf8 p) = .ok s →
      HasText (str% "t") (str% "icp") s ∨ HasText (str% "t") (str% "rot") s ∨ HasText (str% "t") (str% "ixn") s)
    (h : ingestOne E st fuel deep verify (.payload p) (some g) v = .ok (a, v'))
    (hlk : ∀ p, (st'.kels p).length ≤ 2 ^ 32) (hlt : ∀ p, (st'.tels p).length ≤ 2 ^ 32)
    (hs : Extends (perform { E with refuses := fun _ _ => false } st a).1 st') :
    ingestOne E st' fuel deep verify (.payload p) (some g) v = .ok (.nothing, v') := by
  unfold ingestOne at h ⊢
  rw [show (Msg.payload p).payloadText = .ok p from rfl, Res.ok_bind] at h ⊢
  dsimp only at h ⊢
  rw [Res.bind_eq_ok] at h
  obtain ⟨info, hi, h⟩ := h
  rw [hi, Res.ok_bind]
  rw [if_pos (hk info hi)] at h ⊢
  unfold ingestSerder at h ⊢
  rw [Res.bind_eq_ok] at h
  obtain ⟨s, h1, h⟩ := h
  rw [h1, Res.ok_bind]
  rw [Res.bind_eq_ok] at h
  obtain ⟨q, h2, h⟩ := h
  rw [h2, Res.ok_bind]
  dsimp only at h ⊢
  rw [Res.bind_eq_ok] at h
  obtain ⟨⟨gr, gt⟩, h3, h⟩ := h
  rw [h3, Res.ok_bind]
  rw [Res.bind_eq_ok] at h
  obtain ⟨t, h4, h⟩ := h
  rw [h4, Res.ok_bind]
  rw [Res.bind_eq_ok] at h
  obtain ⟨ilk, h5, h⟩ := h
  rw [h5, Res.ok_bind]
  dsimp only at h ⊢
  split at h
  · rename_i g1
    rw [if_pos g1]
    cases gr with
    | couples l => cases h
    | other => cases h
    | quadlets l =>
      dsimp only at h ⊢
      rw [Res.bind_eq_ok] at h
      obtain ⟨r, h6, h⟩ := h
      have hd' : deep ≠ some true := by
        rcases hd with hd | hd
        · rw [hd]
          decide
        · exact hd.1
      have hn : r.2 = v' ∧ (r.1 = false → ∃ pre tx, Serder.pre s = .ok pre ∧ storedText s.raw gt = .ok tx ∧ a = .keyEvent pre tx) := by
        split at h
        · rename_i ht
          cases h
          exact ⟨rfl, fun hf => by rw [ht] at hf; cases hf⟩
        · rw [Res.bind_eq_ok] at h
          obtain ⟨pre, k1, h⟩ := h
          rw [Res.bind_eq_ok] at h
          obtain ⟨tx, k2, h⟩ := h
          cases h
          exact ⟨rfl, fun _ => ⟨pre, tx, k1, k2, rfl⟩⟩
      have := verifyOrSeen_ext hR he hv hh h6 (f' := verifyKeyEvent E st' deep fuel s l) (fun hf => by
        refine verifyKeyEvent_ext he hd' hf hlk ?_
        intro hx pre q' k1 k2
        obtain ⟨pre', tx, k3, k4, rfl⟩ := hn.2 hx
        rw [k1] at k3
        cases k3
        obtain ⟨u, w, e1, e2, rfl⟩ := storedText_ok k4
        have e3 := again_key h1 e1 w
        refine At.mono (hs.kels pre) ⟨u ++ w, s, ?_, e3, k2⟩
        unfold perform tryInsert Store.insertKeyEvent append
        simp)
      rw [this, Res.ok_bind, if_pos rfl, hn.1]
  · rename_i g1
    rw [if_neg g1]
    split at h
    · rename_i g2
      rw [if_pos g2]
      cases gr with
      | quadlets l => cases h
      | other => cases h
      | couples l =>
        dsimp only at h ⊢
        rw [Res.bind_eq_ok] at h
        obtain ⟨r, h6, h⟩ := h
        have hd' : deep = some false := by
          rcases hd with hd | ⟨-, hd⟩
          · exact hd
          · exfalso
            have hx := index_text' h4 h5
            apply g1
            unfold HasText at hx hd
            rcases hd s h1 with k | k | k <;> rw [k] at hx <;> simp at hx <;> simp [← hx]
        subst hd'
        have hn : r.2 = v' ∧ (r.1 = false → ∃ pre tx, Serder.pre s = .ok pre ∧ storedText s.raw gt = .ok tx ∧ a = .transactionEvent pre tx) := by
          split at h
          · rename_i ht
            cases h
            exact ⟨rfl, fun hf => by rw [ht] at hf; cases hf⟩
          · rw [Res.bind_eq_ok] at h
            obtain ⟨pre, k1, h⟩ := h
            rw [Res.bind_eq_ok] at h
            obtain ⟨tx, k2, h⟩ := h
            cases h
            exact ⟨rfl, fun _ => ⟨pre, tx, k1, k2, rfl⟩⟩
        have := verifyOrSeen_ext hR he hv hh h6 (f' := verifyTransactionEvent E st' (some false) fuel s l) (fun hf => by
          refine verifyTransactionEvent_ext he hf hlt ?_
          intro hx pre q' k1 k2
          obtain ⟨pre', tx, k3, k4, rfl⟩ := hn.2 hx
          rw [k1] at k3
          cases k3
          obtain ⟨u, w, e1, e2, rfl⟩ := storedText_ok k4
          have e3 := again_key h1 e1 w
          refine At.mono (hs.tels pre) ⟨u ++ w, s, ?_, e3, k2⟩
          unfold perform tryInsert Store.insertTransactionEvent append
          simp)
        rw [this, Res.ok_bind, if_pos rfl, hn.1]
    · cases h

/-- When an action was carried out, the store holds it. -/
theorem perform_done {E : Env} {st st' : Store} {a : Action} (h : perform E st a = (st', .ok ())) :
    (perform { E with refuses := fun _ _ => false } st a).1 = st' := by
  cases a with
  | nothing =>
    cases h
    rfl
  | keyEvent pre text => exact (tryInsert_ok h).symm
  | transactionEvent pre text => exact (tryInsert_ok h).symm
  | acdc text => exact (tryInsert_ok h).symm

/-- What a reader of an event knows from its first bytes. -/
theorem serder_sniff {fl : Str → Option Str} {raw : Bytes} {s : Sad} (h : Serder.newWithRaw fl raw = .ok s) {r : VersionInfo} (hr : sniff raw = .ok r) :
    r.ident = str% "KERI" := by
  unfold Serder.newWithRaw Serder.new at h
  rw [Res.bind_eq_ok] at h
  obtain ⟨s', h1, h⟩ := h
  split at h
  · cases h
  rename_i hi
  cases h
  have h1 : Sadder.populateFromRaw fl (str% "E") raw = .ok s := h1
  unfold Sadder.populateFromRaw Sadder.inhale at h1
  rw [hr, Res.ok_bind] at h1
  split at h1
  · cases h1
  simp only [Res.bind_eq_ok] at h1
  obtain ⟨x, ⟨ked, h2, h3⟩, b, -, h4⟩ := h1
  cases h3
  obtain ⟨o, t, m, -, -, -, -, rfl⟩ := finish_sad.mp h4
  simpa using hi

/-- A message without attachments is refused. -/
theorem ingestOne_none {E : Env} {st : Store} {fuel : Nat} {deep verify : Option Bool} {m : Msg} {v : List Str} {x : Action × List Str} :
    ingestOne E st fuel deep verify m none v ≠ .ok x := by
  intro h
  unfold ingestOne ingestSerder ingestCreder at h
  rw [Res.bind_eq_ok] at h
  obtain ⟨_, -, h⟩ := h
  dsimp only at h
  rw [Res.bind_eq_ok] at h
  obtain ⟨_, -, h⟩ := h
  split at h
  · rw [Res.bind_eq_ok] at h
    obtain ⟨_, -, h⟩ := h
    rw [Res.bind_eq_ok] at h
    obtain ⟨_, -, h⟩ := h
    cases h
  · split at h
    · rw [Res.bind_eq_ok] at h
      obtain ⟨_, -, h⟩ := h
      rw [Res.bind_eq_ok] at h
      obtain ⟨_, -, h⟩ := h
      cases h
    · cases h

theorem append_length (logs : Str → List Str) (pre text p : Str) : (append logs pre text p).length ≤ (logs p).length + 1 := by
  unfold append
  split <;> simp

theorem perform_length {E : Env} {st : Store} {a : Action} (p : Str) :
    ((perform E st a).1.kels p).length ≤ (st.kels p).length + 1 ∧ ((perform E st a).1.tels p).length ≤ (st.tels p).length + 1 := by
  cases a with
  | nothing => simp [perform]
  | keyEvent pre text =>
    simp only [perform, tryInsert]
    split
    · simp
    · exact ⟨append_length _ _ _ _, by simp [Store.insertKeyEvent]⟩
  | transactionEvent pre text =>
    simp only [perform, tryInsert]
    split
    · simp
    · exact ⟨by simp [Store.insertTransactionEvent], append_length _ _ _ _⟩
  | acdc text =>
    simp only [perform, tryInsert]
    split
    · simp
    · simp [Store.insertAcdc]

/-- A log grows by at most one for every message. -/
theorem ingestLoop_length {E : Env} {fuel : Nat} {deep verify : Option Bool} (st : Store) (msgs : List Msg) (v : List Str) (p : Str) :
    ((ingestLoop E fuel deep verify st msgs v).1.kels p).length ≤ (st.kels p).length + msgs.length ∧
    ((ingestLoop E fuel deep verify st msgs v).1.tels p).length ≤ (st.tels p).length + msgs.length := by
  induction msgs using pairs.induct generalizing st v with
  | case1 m g rest ih =>
    unfold ingestLoop
    split
    · simp
    · simp
    · rename_i a v' he
      have hl := perform_length (E := E) (st := st) (a := a) p
      split
      · rename_i st1 hp
        rw [hp] at hl
        dsimp only at hl
        have := ih st1 v'
        simp only [List.length_cons]
        omega
      · rename_i hp
        rw [hp] at hl
        dsimp only at hl
        simp only [List.length_cons]
        omega
  | case2 msgs hn =>
    match msgs, hn with
    | [], _ => simp [ingestLoop]
    | [m], _ =>
      unfold ingestLoop
      split <;> simp
    | m :: g :: rest, hn => exact absurd rfl (hn m g rest)

end Keride
