/-
A message that was verified, with or without deep verification, verifies again in a store that has it and more.
-/
import Verif.Lemmas.Resend

namespace Keride.Sample

open Matter Spec

/-- Every stored event stands at the place of its number, in the log of its identifier. -/
structure Sited (E : Env) (st : Store) : Prop where
  kels : ∀ p i t s, (st.kels p)[i]? = some t → Serder.newWithRaw E.fl (toUtf8 t) = .ok s → Serder.pre s = .ok p ∧ Serder.sn s = .ok i
  tels : ∀ p i t s, (st.tels p)[i]? = some t → Serder.newWithRaw E.fl (toUtf8 t) = .ok s → Serder.pre s = .ok p ∧ Serder.sn s = .ok i

theorem sited_empty (E : Env) : Sited E Store.empty :=
  ⟨fun _ _ _ _ h => by simp [Store.empty] at h, fun _ _ _ _ h => by simp [Store.empty] at h⟩

/-! ## Key events -/

theorem key_known {E : Env} {st : Store} {deep : Option Bool} {fuel : Nat} {s : Sad} {l : List SigGroup} {v : List Str} {r : Bool × List Str}
    (h : verifyKeyEvent E st deep fuel s l v = .ok r) {p : Str} {i : Nat} (hp : Serder.pre s = .ok p) (hi : Serder.sn s = .ok i) (hlt : i < (st.kels p).length) :
    r.1 = true := by
  cases fuel with
  | zero => cases h
  | succ fuel =>
    unfold verifyKeyEvent at h
    obtain ⟨c, h1, h⟩ := Res.bind_eq_ok.mp h
    obtain ⟨_, -, h⟩ := Res.bind_eq_ok.mp h
    obtain ⟨_, -, h⟩ := Res.bind_eq_ok.mp h
    cases h
    obtain ⟨-, p2⟩ := checkKeyEvent_place h1
    obtain ⟨d1, d2, -, -⟩ := checkKeyEvent_ok h1
    rw [hp] at d1
    rw [hi] at d2
    cases d1
    cases d2
    by_contra hx
    have := p2.mp (by simpa using hx)
    omega

theorem verifyKeyEvent_replay {E : Env} {st st' : Store} (he : Extends st st') (hst : Sited E st) {deep : Option Bool} (hlen : ∀ p, (st'.kels p).length ≤ 2 ^ 32) {fuel : Nat} {s : Sad}
    {l : List SigGroup} {v : List Str} {r : Bool × List Str} (h : verifyKeyEvent E st deep fuel s l v = .ok r)
    (hs : r.1 = false → ∀ pre q, Serder.pre s = .ok pre → Sadder.said E.chk s = .ok q → At E (st'.kels pre) (st.kels pre).length q) :
    verifyKeyEvent E st' deep fuel s l v = .ok (true, r.2) := by
  induction fuel generalizing s l v r with
  | zero => cases h
  | succ fuel ih =>
    unfold verifyKeyEvent at h ⊢
    obtain ⟨c, h1, h⟩ := Res.bind_eq_ok.mp h
    obtain ⟨v1, h2, h⟩ := Res.bind_eq_ok.mp h
    obtain ⟨u, h3, h⟩ := Res.bind_eq_ok.mp h
    cases h
    obtain ⟨p1, p2⟩ := checkKeyEvent_place h1
    obtain ⟨d1, d2, d3, d4⟩ := checkKeyEvent_ok h1
    have hb : At E (st'.kels c.pre) c.sn c.said ∧ c.sn < (st'.kels c.pre).length := by
      by_cases hx : c.existing = false
      · have := hs hx _ _ d1 d3
        rw [← p2.mp hx] at this
        refine ⟨this, ?_⟩
        obtain ⟨t, s, k, -⟩ := this
        exact (List.getElem?_eq_some_iff.mp k).1
      · have hl := (he.kels c.pre).length_le
        have hlt : c.sn < (st.kels c.pre).length := lt_of_le_of_ne p1 fun h => hx (p2.mpr h)
        have := (confirm_at (by simpa using hx)).mp h3
        have hm := hlen c.pre
        rw [Nat.mod_eq_of_lt (by omega)] at this
        exact ⟨this.mono (he.kels _), by omega⟩
    rw [checkKeyEvent_ext he h1 hb.2, Res.ok_bind]
    have hm := hlen c.pre
    have hcf := (confirm_at (E := E) (st := st') (c := { c with existing := true }) rfl).mpr (by
      dsimp only
      rw [Nat.mod_eq_of_lt (by omega)]
      exact hb.1)
    rw [hcf]
    dsimp only
    cases hp : c.prior with
    | none =>
      rw [hp] at h2
      cases h2
      rfl
    | some x =>
      obtain ⟨ev, p⟩ := x
      rw [hp] at h2
      dsimp only at h2 ⊢
      split at h2
      · rename_i hd
        rw [if_pos hd]
        obtain ⟨q, k1, h2⟩ := Res.bind_eq_ok.mp h2
        rw [k1, Res.ok_bind]
        split at h2
        · rename_i hc
          rw [if_pos hc]
          cases h2
          rfl
        · rename_i hc
          rw [if_neg hc]
          obtain ⟨g, k2, h2⟩ := Res.bind_eq_ok.mp h2
          obtain ⟨r', k3, h2⟩ := Res.bind_eq_ok.mp h2
          cases h2
          obtain ⟨e1, e2⟩ := d4 _ hp
          obtain ⟨i, e3⟩ := List.mem_iff_getElem?.mp e1
          obtain ⟨e4, e5⟩ := hst.kels _ _ _ _ e3 e2
          have := ih k3 (fun hf => by
            rw [key_known k3 e4 e5 (List.getElem?_eq_some_iff.mp e3).1] at hf
            cases hf)
          rw [k2, Res.ok_bind, this]
          rfl
      · rename_i hd
        rw [if_neg hd]
        cases h2
        rfl

theorem getKeyEvent_site {E : Env} {st : Store} (hst : Sited E st) {p t : Str} {n : Nat} {s : Sad} (h : st.getKeyEvent p n = .ok t)
    (hs : Serder.newWithRaw E.fl (toUtf8 t) = .ok s) : Serder.pre s = .ok p ∧ Serder.sn s = .ok n ∧ n < (st.kels p).length := by
  have h := Res.ofOption_eq_ok.mp h
  obtain ⟨a, b⟩ := hst.kels _ _ _ _ h hs
  exact ⟨a, b, (List.getElem?_eq_some_iff.mp h).1⟩

theorem getTransactionEvent_site {E : Env} {st : Store} (hst : Sited E st) {p t : Str} {n : Nat} {s : Sad} (h : st.getTransactionEvent p n = .ok t)
    (hs : Serder.newWithRaw E.fl (toUtf8 t) = .ok s) : Serder.pre s = .ok p ∧ Serder.sn s = .ok n ∧ n < (st.tels p).length := by
  have h := Res.ofOption_eq_ok.mp h
  obtain ⟨a, b⟩ := hst.tels _ _ _ _ h hs
  exact ⟨a, b, (List.getElem?_eq_some_iff.mp h).1⟩

/-- A stored key event. -/
theorem stored_replay {E : Env} {st st' : Store} (he : Extends st st') (hst : Sited E st) {deep : Option Bool} (hlen : ∀ p, (st'.kels p).length ≤ 2 ^ 32) {fuel : Nat} {s : Sad} {p t : Str} {n : Nat}
    (hg : st.getKeyEvent p n = .ok t) (hr : Serder.newWithRaw E.fl (toUtf8 t) = .ok s)
    {l : List SigGroup} {v : List Str} {r : Bool × List Str} (h : verifyKeyEvent E st deep fuel s l v = .ok r) : verifyKeyEvent E st' deep fuel s l v = .ok (true, r.2) := by
  obtain ⟨e1, e2, e3⟩ := getKeyEvent_site hst hg hr
  exact verifyKeyEvent_replay he hst hlen h fun hf => by
    rw [key_known h e1 e2 e3] at hf
    cases hf

/-! ## Transaction events -/

theorem verifyAnchor_replay {E : Env} {st st' : Store} (he : Extends st st') (hst : Sited E st) {deep : Option Bool} (hlen : ∀ p, (st'.kels p).length ≤ 2 ^ 32) {fuel : Nat} {ap : Str} {n d : M}
    {s : Sad} {v : List Str} {r : Bool × List Str} (h : verifyAnchor E st deep fuel ap n d s v = .ok r) : verifyAnchor E st' deep fuel ap n d s v = .ok r := by
  unfold verifyAnchor at h ⊢
  obtain ⟨k, h1, h⟩ := Res.bind_eq_ok.mp h
  obtain ⟨ev, h2, h⟩ := Res.bind_eq_ok.mp h
  obtain ⟨a, h3, h⟩ := Res.bind_eq_ok.mp h
  obtain ⟨q, h4, h⟩ := Res.bind_eq_ok.mp h
  obtain ⟨q', h5, h⟩ := Res.bind_eq_ok.mp h
  rw [h1, Res.ok_bind, getKeyEvent_ext he h2, Res.ok_bind, h3, Res.ok_bind, h4, Res.ok_bind, h5, Res.ok_bind]
  split at h
  · rename_i c
    rw [if_pos c]
    exact h
  · rename_i c
    rw [if_neg c]
    obtain ⟨sl, h6, h⟩ := Res.bind_eq_ok.mp h
    rw [h6, Res.ok_bind]
    cases sl with
    | none => exact h
    | some x =>
      obtain ⟨x1, x2, x3⟩ := x
      dsimp only at h ⊢
      obtain ⟨v1, h7, h⟩ := Res.bind_eq_ok.mp h
      have : (if deep.getD false then
          if v.contains q then .ok v
          else do
            let g ← attachedQuadlets E ev a
            let r ← verifyKeyEvent E st' deep fuel a g (q :: v)
            .ok r.2
        else .ok v : Res (List Str)) = .ok v1 := by
        split at h7
        · rename_i hd
          rw [if_pos hd]
          split at h7
          · rename_i hc
            rw [if_pos hc]
            exact h7
          · rename_i hc
            rw [if_neg hc]
            obtain ⟨g, k1, h7⟩ := Res.bind_eq_ok.mp h7
            obtain ⟨r', k2, h7⟩ := Res.bind_eq_ok.mp h7
            rw [k1, Res.ok_bind, stored_replay he hst hlen h2 h3 k2]
            exact h7
        · rename_i hd
          rw [if_neg hd]
          exact h7
      rw [this, Res.ok_bind]
      exact h

/-- The part of `verify_transaction_event` after the anchor: whether the event is there, and the set. -/
def placeTx (E : Env) (st : Store) (deep : Option Bool) (fuel : Nat) (s : Sad) (pre ilk : Str) (sn : Nat) (v : List Str) : Res (Bool × List Str) :=
  if ilk = str% "vcp" ∨ ilk = str% "iss" then
    if sn ≠ 0 then .err .decoding else .ok (decide ((st.tels pre).length ≠ 0), v)
  else if sn < 1 then .err .validation
  else if (st.tels pre).length < sn then .err .outOfOrder
  else do
    let i ← subU32 E.chk (sn % 2 ^ 32) 1
    let event ← st.getTransactionEvent pre i
    let p ← Serder.newWithRaw E.fl (toUtf8 event)
    let psaid ← Sadder.said E.chk p
    let v' ← (if deep.getD true then
        if v.contains psaid then .ok v
        else do
          let g ← attachedCouples E event p
          let r ← verifyTransactionEvent E st deep fuel p g (psaid :: v)
          .ok r.2
      else .ok v : Res (List Str))
    let x ← s.ked.index (str% "p")
    let x ← x.toStr
    if psaid ≠ x then .err .verification else .ok (decide (sn ≠ (st.tels pre).length), v')

theorem placeTx_cases {E : Env} {st : Store} {deep : Option Bool} {fuel : Nat} {s : Sad} {pre ilk : Str} {sn : Nat} {v : List Str} {r : Bool × List Str}
    (h : placeTx E st deep fuel s pre ilk sn v = .ok r) : sn ≤ (st.tels pre).length ∧ (r.1 = false ↔ sn = (st.tels pre).length) := by
  unfold placeTx at h
  split at h
  · split at h
    · cases h
    · rename_i h0
      cases h
      refine ⟨by omega, ?_⟩
      rw [decide_eq_false_iff_not]
      omega
  · split at h
    · cases h
    · split at h
      · cases h
      · obtain ⟨_, -, h⟩ := Res.bind_eq_ok.mp h
        obtain ⟨_, -, h⟩ := Res.bind_eq_ok.mp h
        obtain ⟨_, -, h⟩ := Res.bind_eq_ok.mp h
        obtain ⟨_, -, h⟩ := Res.bind_eq_ok.mp h
        obtain ⟨_, -, h⟩ := Res.bind_eq_ok.mp h
        obtain ⟨_, -, h⟩ := Res.bind_eq_ok.mp h
        obtain ⟨_, -, h⟩ := Res.bind_eq_ok.mp h
        split at h
        · cases h
        · cases h
          refine ⟨by omega, ?_⟩
          rw [decide_eq_false_iff_not]
          omega

/-- The outcome of the verification of a transaction event, in parts. -/
structure TxRun (E : Env) (st : Store) (deep : Option Bool) (fuel : Nat) (s : Sad) (l : List (M × M)) (v : List Str) (r : Bool × List Str) where
  pre : Str
  px : M
  sn : Nat
  t : Value
  ilk : Str
  said : Str
  ri : Str
  source : M × M
  labels : List Str
  has : Bool
  apre : Str
  a : Bool × List Str
  hpre : Serder.pre s = .ok pre
  hpx : Prefixer.newWithQb64 E.H pre = .ok px
  hsn : Serder.sn s = .ok sn
  ht : s.ked.index (str% "t") = .ok t
  hilk : t.toStr = .ok ilk
  hsaid : Sadder.said E.chk s = .ok said
  hri : registryOf ilk s = .ok ri
  hone : ¬ l.length ≠ 1
  hsource : Res.orPanic l.head? = .ok source
  hlabels : telLabels ilk = .ok labels
  hhas : verifyKedLabels s.ked labels = .ok has
  hhas' : ¬ (!has) = true
  hapre : anchorOf E st s px ilk ri = .ok apre
  ha : verifyAnchor E st deep fuel apre source.1 source.2 s v = .ok a
  ha' : ¬ (!a.1) = true
  hplace : placeTx E st deep fuel s pre ilk sn a.2 = .ok r
  hthere : r.1 = true → At E (st.tels pre) (sn % 2 ^ 32) said

theorem tx_run {E : Env} {st : Store} {deep : Option Bool} {fuel : Nat} {s : Sad} {l : List (M × M)} {v : List Str} {r : Bool × List Str}
    (h : verifyTransactionEvent E st deep (fuel + 1) s l v = .ok r) : Nonempty (TxRun E st deep fuel s l v r) := by
  unfold verifyTransactionEvent at h
  obtain ⟨pre, h1, h⟩ := Res.bind_eq_ok.mp h
  obtain ⟨px, h2, h⟩ := Res.bind_eq_ok.mp h
  obtain ⟨sn, h3, h⟩ := Res.bind_eq_ok.mp h
  obtain ⟨t, h4, h⟩ := Res.bind_eq_ok.mp h
  obtain ⟨ilk, h5, h⟩ := Res.bind_eq_ok.mp h
  obtain ⟨said, h6, h⟩ := Res.bind_eq_ok.mp h
  obtain ⟨ri, h7, h⟩ := Res.bind_eq_ok.mp h
  split at h
  · cases h
  rename_i g1
  obtain ⟨src, h8, h⟩ := Res.bind_eq_ok.mp h
  obtain ⟨labels, h9, h⟩ := Res.bind_eq_ok.mp h
  obtain ⟨has, h10, h⟩ := Res.bind_eq_ok.mp h
  split at h
  · cases h
  rename_i g2
  dsimp only at h
  obtain ⟨apre, h11, h⟩ := Res.bind_eq_ok.mp h
  obtain ⟨a, h12, h⟩ := Res.bind_eq_ok.mp h
  split at h
  · cases h
  rename_i g3
  obtain ⟨x, h13, h⟩ := Res.bind_eq_ok.mp h
  have h13 : placeTx E st deep fuel s pre ilk sn a.2 = .ok x := h13
  split at h
  · rename_i hx
    obtain ⟨ev, k1, h⟩ := Res.bind_eq_ok.mp h
    obtain ⟨s', k2, h⟩ := Res.bind_eq_ok.mp h
    obtain ⟨q, k3, h⟩ := Res.bind_eq_ok.mp h
    split at h
    · cases h
    rename_i hq
    cases h
    have : said = q := by simpa using hq
    exact ⟨⟨pre, px, sn, t, ilk, said, ri, src, labels, has, apre, a, h1, h2, h3, h4, h5, h6, h7, g1, h8, h9, h10, g2, h11, h12, g3, h13,
      fun _ => ⟨ev, s', Res.ofOption_eq_ok.mp k1, k2, this ▸ k3⟩⟩⟩
  · rename_i hx
    cases h
    exact ⟨⟨pre, px, sn, t, ilk, said, ri, src, labels, has, apre, a, h1, h2, h3, h4, h5, h6, h7, g1, h8, h9, h10, g2, h11, h12, g3, h13,
      fun h => absurd h hx⟩⟩

theorem TxRun.ok {E : Env} {st : Store} {deep : Option Bool} {fuel : Nat} {s : Sad} {l : List (M × M)} {v : List Str} {r : Bool × List Str}
    (h : TxRun E st deep fuel s l v r) : verifyTransactionEvent E st deep (fuel + 1) s l v = .ok r := by
  unfold verifyTransactionEvent
  rw [h.hpre, Res.ok_bind, h.hpx, Res.ok_bind, h.hsn, Res.ok_bind, h.ht, Res.ok_bind, h.hilk, Res.ok_bind, h.hsaid, Res.ok_bind, h.hri, Res.ok_bind, if_neg h.hone,
    h.hsource, Res.ok_bind, h.hlabels, Res.ok_bind, h.hhas, Res.ok_bind, if_neg h.hhas']
  dsimp only
  rw [h.hapre, Res.ok_bind, h.ha, Res.ok_bind, if_neg h.ha']
  have hp := h.hplace
  unfold placeTx at hp
  rw [hp, Res.ok_bind]
  split
  · rename_i hx
    obtain ⟨t, s', k1, k2, k3⟩ := h.hthere hx
    have k1 : st.getTransactionEvent h.pre (h.sn % 2 ^ 32) = .ok t := Res.ofOption_eq_ok.mpr k1
    rw [k1, Res.ok_bind, k2, Res.ok_bind, k3, Res.ok_bind, if_neg (by simp)]
  · rfl

theorem tx_known {E : Env} {st : Store} {deep : Option Bool} {fuel : Nat} {s : Sad} {l : List (M × M)} {v : List Str} {r : Bool × List Str}
    (h : verifyTransactionEvent E st deep fuel s l v = .ok r) {p : Str} {i : Nat} (hp : Serder.pre s = .ok p) (hi : Serder.sn s = .ok i) (hlt : i < (st.tels p).length) :
    r.1 = true := by
  cases fuel with
  | zero => cases h
  | succ fuel =>
    obtain ⟨x⟩ := tx_run h
    have e1 := x.hpre
    have e2 := x.hsn
    rw [hp] at e1
    rw [hi] at e2
    have := (placeTx_cases x.hplace).2
    rw [← Res.ok.inj e1, ← Res.ok.inj e2] at this
    by_contra hx
    have := this.mp (by simpa using hx)
    omega

/-- A transaction event that was verified, and is stored where it belongs, verifies again as one that is there, and so do the events before it. -/
theorem verifyTransactionEvent_replay {E : Env} {st st' : Store} (he : Extends st st') (hst : Sited E st) {deep : Option Bool} (hlen : ∀ p, (st'.kels p).length ≤ 2 ^ 32)
    (hlent : ∀ p, (st'.tels p).length ≤ 2 ^ 32) {fuel : Nat} {s : Sad}
    {l : List (M × M)} {v : List Str} {r : Bool × List Str} (h : verifyTransactionEvent E st deep fuel s l v = .ok r)
    (hs : r.1 = false → ∀ pre q, Serder.pre s = .ok pre → Sadder.said E.chk s = .ok q → At E (st'.tels pre) (st.tels pre).length q) :
    verifyTransactionEvent E st' deep fuel s l v = .ok (true, r.2) := by
  induction fuel generalizing s l v r with
  | zero => cases h
  | succ fuel ih =>
    obtain ⟨x⟩ := tx_run h
    obtain ⟨p1, p2⟩ := placeTx_cases x.hplace
    have hl := (he.tels x.pre).length_le
    have hm := hlent x.pre
    have hb : At E (st'.tels x.pre) x.sn x.said ∧ x.sn < (st'.tels x.pre).length := by
      by_cases hx : r.1 = false
      · have := hs hx _ _ x.hpre x.hsaid
        rw [← p2.mp hx] at this
        refine ⟨this, ?_⟩
        obtain ⟨t, s, k, -⟩ := this
        exact (List.getElem?_eq_some_iff.mp k).1
      · have hlt : x.sn < (st.tels x.pre).length := lt_of_le_of_ne p1 fun h => hx (p2.mpr h)
        have := x.hthere (by simpa using hx)
        rw [Nat.mod_eq_of_lt (by omega)] at this
        exact ⟨this.mono (he.tels _), by omega⟩
    have hplace : placeTx E st' deep fuel s x.pre x.ilk x.sn x.a.2 = .ok (true, r.2) := by
      have hp := x.hplace
      unfold placeTx at hp ⊢
      split at hp
      · rename_i g1
        rw [if_pos g1]
        split at hp
        · cases hp
        rename_i g2
        have hr : x.a.2 = r.2 := by
          have := congrArg Prod.snd (Res.ok.inj hp)
          exact this
        rw [if_neg g2, hr, decide_eq_true (by omega)]
      · rename_i g1
        rw [if_neg g1]
        split at hp
        · cases hp
        rename_i g2
        rw [if_neg g2]
        split at hp
        · cases hp
        rename_i g3
        rw [if_neg (by omega)]
        obtain ⟨i, k1, hp⟩ := Res.bind_eq_ok.mp hp
        obtain ⟨ev, k2, hp⟩ := Res.bind_eq_ok.mp hp
        obtain ⟨p, k3, hp⟩ := Res.bind_eq_ok.mp hp
        obtain ⟨ps, k4, hp⟩ := Res.bind_eq_ok.mp hp
        obtain ⟨v1, k5, hp⟩ := Res.bind_eq_ok.mp hp
        obtain ⟨y, k6, hp⟩ := Res.bind_eq_ok.mp hp
        obtain ⟨z, k7, hp⟩ := Res.bind_eq_ok.mp hp
        split at hp
        · cases hp
        rename_i g4
        have hr : v1 = r.2 := congrArg Prod.snd (Res.ok.inj hp)
        have : (if deep.getD true then
            if x.a.2.contains ps then .ok x.a.2
            else do
              let g ← attachedCouples E ev p
              let r ← verifyTransactionEvent E st' deep fuel p g (ps :: x.a.2)
              .ok r.2
          else .ok x.a.2 : Res (List Str)) = .ok v1 := by
          split at k5
          · rename_i hd
            rw [if_pos hd]
            split at k5
            · rename_i hc
              rw [if_pos hc]
              exact k5
            · rename_i hc
              rw [if_neg hc]
              obtain ⟨g, j1, k5⟩ := Res.bind_eq_ok.mp k5
              obtain ⟨r', j2, k5⟩ := Res.bind_eq_ok.mp k5
              obtain ⟨e1, e2, e3⟩ := getTransactionEvent_site hst k2 k3
              rw [j1, Res.ok_bind, ih j2 (fun hf => by
                rw [tx_known j2 e1 e2 e3] at hf
                cases hf)]
              exact k5
          · rename_i hd
            rw [if_neg hd]
            exact k5
        rw [k1, Res.ok_bind, getTransactionEvent_ext he k2, Res.ok_bind, k3, Res.ok_bind, k4, Res.ok_bind, this, Res.ok_bind, k6, Res.ok_bind, k7, Res.ok_bind, if_neg g4, hr,
          decide_eq_true (by omega)]
    exact TxRun.ok { x with
      hapre := anchorOf_ext he x.hapre
      ha := verifyAnchor_replay he hst hlen x.ha
      hplace := hplace
      hthere := fun _ => by rw [Nat.mod_eq_of_lt (by omega)]; exact hb.1 }

/-! ## Credentials -/

theorem getAcdc_ext {E : Env} {st st' : Store} (he : Extends st st') {q t : Str} (h : st.getAcdc E q = .ok t) : st'.getAcdc E q = .ok t := by
  refine Res.ofOption_eq_ok.mpr ?_
  have h := Res.ofOption_eq_ok.mp h
  obtain ⟨c, hc⟩ := he.acdcs
  rw [← hc, List.find?_append, h]
  rfl

theorem verifyPathSig_replay {E : Env} {st st' : Store} (he : Extends st st') (hst : Sited E st) {deep : Option Bool} (hlen : ∀ p, (st'.kels p).length ≤ 2 ^ 32) {fuel : Nat} {c : Sad}
    {sig : SadPathSig} {v v' : List Str} (h : verifyPathSig E st deep fuel c sig v = .ok v') : verifyPathSig E st' deep fuel c sig v = .ok v' := by
  unfold verifyPathSig at h ⊢
  obtain ⟨pre, h1, h⟩ := Res.bind_eq_ok.mp h
  obtain ⟨n, h2, h⟩ := Res.bind_eq_ok.mp h
  obtain ⟨ev, h3, h⟩ := Res.bind_eq_ok.mp h
  obtain ⟨s, h4, h⟩ := Res.bind_eq_ok.mp h
  obtain ⟨q, h5, h⟩ := Res.bind_eq_ok.mp h
  obtain ⟨q', h6, h⟩ := Res.bind_eq_ok.mp h
  rw [h1, Res.ok_bind, h2, Res.ok_bind, getKeyEvent_ext he h3, Res.ok_bind, h4, Res.ok_bind, h5, Res.ok_bind, h6, Res.ok_bind]
  split at h
  · cases h
  rename_i g1
  rw [if_neg g1]
  obtain ⟨v1, h7, h⟩ := Res.bind_eq_ok.mp h
  have : (if deep.getD true then
        if v.contains q then .ok v
        else do
          let g ← attachedQuadlets E ev s
          let r ← verifyKeyEvent E st' deep fuel s g (q :: v)
          .ok r.2
      else .ok v : Res (List Str)) = .ok v1 := by
    split at h7
    · rename_i hd
      rw [if_pos hd]
      split at h7
      · rename_i hc
        rw [if_pos hc]
        exact h7
      · rename_i hc
        rw [if_neg hc]
        obtain ⟨g, k1, h7⟩ := Res.bind_eq_ok.mp h7
        obtain ⟨r', k2, h7⟩ := Res.bind_eq_ok.mp h7
        rw [k1, Res.ok_bind, stored_replay he hst hlen h3 h4 k2]
        exact h7
    · rename_i hd
      rw [if_neg hd]
      exact h7
  rw [this, Res.ok_bind]
  exact h

theorem verifyPathSigs_replay {E : Env} {st st' : Store} (he : Extends st st') (hst : Sited E st) {deep : Option Bool} (hlen : ∀ p, (st'.kels p).length ≤ 2 ^ 32) {fuel : Nat} {c : Sad} :
    ∀ {l : List SadPathSig} {b : Bool} {v : List Str} {r : Bool × List Str}, verifyPathSigs E st deep fuel c l b v = .ok r → verifyPathSigs E st' deep fuel c l b v = .ok r
  | [], b, v, r, h => h
  | sig :: l, b, v, r, h => by
    unfold verifyPathSigs at h ⊢
    obtain ⟨x, h1, h⟩ := Res.bind_eq_ok.mp h
    rw [h1, Res.ok_bind]
    split at h
    · rename_i g
      rw [if_pos g]
      exact verifyPathSigs_replay he hst hlen h
    · rename_i g
      rw [if_neg g]
      obtain ⟨v1, h2, h⟩ := Res.bind_eq_ok.mp h
      rw [verifyPathSig_replay he hst hlen h2, Res.ok_bind]
      exact verifyPathSigs_replay he hst hlen h

theorem verifyProof_replay {E : Env} {st st' : Store} (he : Extends st st') (hst : Sited E st) {deep : Option Bool} (hlen : ∀ p, (st'.kels p).length ≤ 2 ^ 32) {fuel : Nat} {c : Sad} :
    ∀ {l : List SigGroup} {b : Bool} {v : List Str} {r : Bool × List Str}, verifyProof E st deep fuel c l b v = .ok r → verifyProof E st' deep fuel c l b v = .ok r
  | [], b, v, r, h => h
  | .sadPath g :: l, b, v, r, h => by
    unfold verifyProof at h ⊢
    obtain ⟨x, h1, h⟩ := Res.bind_eq_ok.mp h
    rw [verifyPathSigs_replay he hst hlen h1, Res.ok_bind]
    exact verifyProof_replay he hst hlen h
  | .controller g :: l, b, v, r, h => by cases h
  | .other :: l, b, v, r, h => by cases h

theorem checkEdge_replay {E : Env} {st st' : Store} (he : Extends st st') {c : Sad} {node : Value} {x : Str × Str × Sad} (h : checkEdge E st c node = .ok x) :
    checkEdge E st' c node = .ok x ∧ st.getAcdc E x.1 = .ok x.2.1 ∧ Creder.newWithRaw E.fl (toUtf8 x.2.1) = .ok x.2.2 := by
  unfold checkEdge at h ⊢
  obtain ⟨map, h1, h⟩ := Res.bind_eq_ok.mp h
  obtain ⟨n, h2, h⟩ := Res.bind_eq_ok.mp h
  obtain ⟨q, h3, h⟩ := Res.bind_eq_ok.mp h
  obtain ⟨m, h4, h⟩ := Res.bind_eq_ok.mp h
  obtain ⟨p, h5, h⟩ := Res.bind_eq_ok.mp h
  rw [h1, Res.ok_bind, h2, Res.ok_bind, h3, Res.ok_bind, getAcdc_ext he h4, Res.ok_bind, h5, Res.ok_bind]
  refine ⟨h, ?_⟩
  obtain ⟨_, -, h⟩ := Res.bind_eq_ok.mp h
  split at h
  · cases h
  obtain ⟨_, -, h⟩ := Res.bind_eq_ok.mp h
  split at h
  · cases h
  obtain ⟨_, -, h⟩ := Res.bind_eq_ok.mp h
  obtain ⟨_, -, h⟩ := Res.bind_eq_ok.mp h
  obtain ⟨_, -, h⟩ := Res.bind_eq_ok.mp h
  obtain ⟨_, -, h⟩ := Res.bind_eq_ok.mp h
  cases h
  exact ⟨h4, h5⟩

theorem checkState_replay {E : Env} {st st' : Store} (he : Extends st st') (hst : Sited E st) {deep : Option Bool} (hlen : ∀ p, (st'.kels p).length ≤ 2 ^ 32)
    (hlent : ∀ p, (st'.tels p).length ≤ 2 ^ 32) {fuel : Nat} {q : Str} {v v' : List Str} (hq : (st'.tels q).length ≤ 1) (h : checkState E st deep fuel q v = .ok v') :
    checkState E st' deep fuel q v = .ok v' := by
  unfold checkState at h ⊢
  obtain ⟨ev, h1, h⟩ := Res.bind_eq_ok.mp h
  obtain ⟨s, h2, h⟩ := Res.bind_eq_ok.mp h
  obtain ⟨x, h3, h⟩ := Res.bind_eq_ok.mp h
  obtain ⟨dt, h4, h⟩ := Res.bind_eq_ok.mp h
  obtain ⟨old, h5, h⟩ := Res.bind_eq_ok.mp h
  have hev := Res.ofOption_eq_ok.mp h1
  have heq : st'.tels q = st.tels q := by
    obtain ⟨c, hc⟩ := he.tels q
    rw [← hc, List.length_append] at hq
    cases hs : st.tels q with
    | nil => rw [hs] at hev; cases hev
    | cons a l =>
      rw [hs] at hq
      have : c = [] := List.length_eq_zero_iff.mp (by simp at hq; omega)
      rw [← hc, this, List.append_nil, hs]
  have h1' : st'.getLatestTransactionEvent q = .ok ev := by
    unfold Store.getLatestTransactionEvent
    rw [heq]
    exact h1
  rw [h1', Res.ok_bind, h2, Res.ok_bind, h3, Res.ok_bind, h4, Res.ok_bind, h5, Res.ok_bind]
  split at h
  · cases h
  rename_i g1
  rw [if_neg g1]
  obtain ⟨v1, h6, h⟩ := Res.bind_eq_ok.mp h
  have : (if deep.getD true then do
        let q ← Sadder.said E.chk s
        if v.contains q then .ok v
        else do
          let g ← attachedCouples E ev s
          let r ← verifyTransactionEvent E st' deep fuel s g (q :: v)
          .ok r.2
      else .ok v : Res (List Str)) = .ok v1 := by
    split at h6
    · rename_i hd
      rw [if_pos hd]
      obtain ⟨y, k0, h6⟩ := Res.bind_eq_ok.mp h6
      rw [k0, Res.ok_bind]
      split at h6
      · rename_i hc
        rw [if_pos hc]
        exact h6
      · rename_i hc
        rw [if_neg hc]
        obtain ⟨g, k1, h6⟩ := Res.bind_eq_ok.mp h6
        obtain ⟨r', k2, h6⟩ := Res.bind_eq_ok.mp h6
        rw [List.getLast?_eq_getElem?] at hev
        obtain ⟨e1, e2⟩ := hst.tels _ _ _ _ hev h2
        rw [k1, Res.ok_bind, verifyTransactionEvent_replay he hst hlen hlent k2 (fun hf => by
          rw [tx_known k2 e1 e2 (List.getElem?_eq_some_iff.mp hev).1] at hf
          cases hf)]
        exact h6
    · rename_i hd
      rw [if_neg hd]
      exact h6
  rw [this, Res.ok_bind]
  exact h

theorem hasSaid_iff {E : Env} {q t : Str} : hasSaid E q t = true ↔ ∃ c, Creder.newWithRaw E.fl (toUtf8 t) = .ok c ∧ Sadder.said E.chk c = .ok q := by
  unfold hasSaid
  constructor
  · intro h
    split at h
    · rename_i x hx
      obtain ⟨c, h1, h2⟩ := Res.bind_eq_ok.mp hx
      have : x = q := of_decide_eq_true h
      exact ⟨c, h1, this ▸ h2⟩
    · cases h
  · rintro ⟨c, h1, h2⟩
    rw [h1, Res.ok_bind, h2]
    simp

theorem getAcdc_read {E : Env} {st : Store} {q t : Str} (h : st.getAcdc E q = .ok t) :
    t ∈ st.acdcs ∧ ∃ c, Creder.newWithRaw E.fl (toUtf8 t) = .ok c ∧ Sadder.said E.chk c = .ok q := by
  have h := Res.ofOption_eq_ok.mp h
  exact ⟨List.mem_of_find?_eq_some h, hasSaid_iff.mp (List.find?_some h)⟩

theorem verifyAcdc_replay {E : Env} {st st' : Store} (he : Extends st st') (hst : Sited E st) {deep : Option Bool} (hlen : ∀ p, (st'.kels p).length ≤ 2 ^ 32)
    (hlent : ∀ p, (st'.tels p).length ≤ 2 ^ 32) (hu : Unrevoked E st') (fuel : Nat) :
    (∀ c l v r, verifyAcdc E st deep fuel c l v = .ok r → (r.1 = false → ∀ q, Sadder.said E.chk c = .ok q → ∃ t ∈ st'.acdcs, hasSaid E q t = true) →
      verifyAcdc E st' deep fuel c l v = .ok (true, r.2)) ∧
    (∀ c nodes v v', verifyEdges E st deep fuel c nodes v = .ok v' → verifyEdges E st' deep fuel c nodes v = .ok v') := by
  induction fuel with
  | zero =>
    constructor
    · intro c l v r h
      simp [verifyAcdc] at h
    · intro c l v r h
      simp [verifyEdges] at h
  | succ fuel ih =>
    obtain ⟨ih1, ih2⟩ := ih
    constructor
    · intro c l v r h hs
      unfold verifyAcdc at h ⊢
      obtain ⟨status, h1, h⟩ := Res.bind_eq_ok.mp h
      rw [h1, Res.ok_bind]
      split at h
      · cases h
      rename_i g1
      rw [if_neg g1]
      obtain ⟨q, h2, h⟩ := Res.bind_eq_ok.mp h
      obtain ⟨sc, h3, h⟩ := Res.bind_eq_ok.mp h
      obtain ⟨prov, h4, h⟩ := Res.bind_eq_ok.mp h
      obtain ⟨sd, h5, h⟩ := Res.bind_eq_ok.mp h
      obtain ⟨good, h6, h⟩ := Res.bind_eq_ok.mp h
      rw [h2, Res.ok_bind, h3, Res.ok_bind, h4, Res.ok_bind, h5, Res.ok_bind, h6, Res.ok_bind]
      split at h
      · cases h
      rename_i g2
      rw [if_neg g2]
      obtain ⟨v1, h7, h⟩ := Res.bind_eq_ok.mp h
      obtain ⟨text, h8, h⟩ := Res.bind_eq_ok.mp h
      obtain ⟨fits, h9, h⟩ := Res.bind_eq_ok.mp h
      split at h
      · cases h
      rename_i g3
      obtain ⟨r1, h10, h⟩ := Res.bind_eq_ok.mp h
      split at h
      · cases h
      rename_i g4
      obtain ⟨nodes, h11, h⟩ := Res.bind_eq_ok.mp h
      obtain ⟨v2, h12, h⟩ := Res.bind_eq_ok.mp h
      have hx : r.2 = v2 ∧ ∃ t ∈ st'.acdcs, hasSaid E q t = true := by
        split at h
        · rename_i m hm
          obtain ⟨e, k1, h⟩ := Res.bind_eq_ok.mp h
          obtain ⟨q', k2, h⟩ := Res.bind_eq_ok.mp h
          split at h
          · cases h
          · cases h
            obtain ⟨j1, j2⟩ := getAcdc_read (getAcdc_ext he hm)
            exact ⟨rfl, m, j1, hasSaid_iff.mpr j2⟩
        · cases h
          exact ⟨rfl, hs rfl q h2⟩
      obtain ⟨t, t1, t2⟩ := hx.2
      obtain ⟨c', c1, c2⟩ := hasSaid_iff.mp t2
      rw [checkState_replay he hst hlen hlent (hu t t1 c' q c1 c2) h7, Res.ok_bind, h8, Res.ok_bind, h9, Res.ok_bind, if_neg g3, verifyProof_replay he hst hlen h10, Res.ok_bind,
        if_neg g4, h11, Res.ok_bind, ih2 _ _ _ _ h12, Res.ok_bind]
      have hg : ∃ m, st'.getAcdc E q = .ok m := by
        cases hf : st'.acdcs.find? (hasSaid E q) with
        | none => exact absurd t2 (by simpa using List.find?_eq_none.mp hf t t1)
        | some m => exact ⟨m, Res.ofOption_eq_ok.mpr hf⟩
      obtain ⟨m, hm⟩ := hg
      obtain ⟨-, d, d1, d2⟩ := getAcdc_read hm
      rw [hm]
      dsimp only
      rw [d1, Res.ok_bind, d2, Res.ok_bind, if_neg (by simp), hx.1]
    · intro c nodes v v' h
      cases nodes with
      | nil => exact h
      | cons node nodes =>
        unfold verifyEdges at h ⊢
        obtain ⟨nd, h1, h⟩ := Res.bind_eq_ok.mp h
        obtain ⟨e, h2, h⟩ := Res.bind_eq_ok.mp h
        obtain ⟨v1, h3, h⟩ := Res.bind_eq_ok.mp h
        obtain ⟨k1, k2, k3⟩ := checkEdge_replay he h2
        rw [h1, Res.ok_bind, k1, Res.ok_bind]
        have : (if deep.getD true then
            if v.contains e.1 then .ok v
            else do
              let g ← attachedQuadlets E e.2.1 e.2.2
              let r ← verifyAcdc E st' deep fuel e.2.2 g (e.1 :: v)
              .ok r.2
          else .ok v : Res (List Str)) = .ok v1 := by
          split at h3
          · rename_i hd
            rw [if_pos hd]
            split at h3
            · rename_i hc
              rw [if_pos hc]
              exact h3
            · rename_i hc
              rw [if_neg hc]
              obtain ⟨g, j1, h3⟩ := Res.bind_eq_ok.mp h3
              obtain ⟨r', j2, h3⟩ := Res.bind_eq_ok.mp h3
              have hm := (getAcdc_read (getAcdc_ext he k2)).1
              rw [j1, Res.ok_bind, ih1 _ _ _ _ j2 (fun _ q hq => ⟨_, hm, hasSaid_iff.mpr ⟨_, k3, hq⟩⟩)]
              exact h3
          · rename_i hd
            rw [if_neg hd]
            exact h3
        rw [this, Res.ok_bind]
        exact ih2 _ _ _ _ h

/-! ## Messages -/

/-- A message that was taken in, and is stored where it belongs, is taken in again without any effect. -/
theorem ingestOne_replay {E : Env} (hR : Remembers E) {st st' : Store} (he : Extends st st') (hst : Sited E st) {fuel : Nat} {deep verify : Option Bool}
    (hv : verify ≠ some false) {p : Str} {g : Msg} {v v' : List Str} {a : Action} (hh : ∀ q ∈ v, Holds E st q)
    (h : ingestOne E st fuel deep verify (.payload p) (some g) v = .ok (a, v'))
    (hlk : ∀ p, (st'.kels p).length ≤ 2 ^ 32) (hlt : ∀ p, (st'.tels p).length ≤ 2 ^ 32)
    (hu : Unrevoked E st' ∨ ∀ r, sniff (toUtf8 p) = .ok r → r.ident = str% "KERI")
    (hs : Extends (perform { E with refuses := fun _ _ => false } st a).1 st') :
    ingestOne E st' fuel deep verify (.payload p) (some g) v = .ok (.nothing, v') := by
  unfold ingestOne at h ⊢
  rw [show (Msg.payload p).payloadText = .ok p from rfl, Res.ok_bind] at h ⊢
  dsimp only at h ⊢
  obtain ⟨info, hi, h⟩ := Res.bind_eq_ok.mp h
  rw [hi, Res.ok_bind]
  split at h
  · rename_i g0
    rw [if_pos g0]
    unfold ingestSerder at h ⊢
    obtain ⟨s, h1, h⟩ := Res.bind_eq_ok.mp h
    obtain ⟨q, h2, h⟩ := Res.bind_eq_ok.mp h
    rw [h1, Res.ok_bind, h2, Res.ok_bind]
    dsimp only at h ⊢
    obtain ⟨⟨gr, gt⟩, h3, h⟩ := Res.bind_eq_ok.mp h
    obtain ⟨t, h4, h⟩ := Res.bind_eq_ok.mp h
    obtain ⟨ilk, h5, h⟩ := Res.bind_eq_ok.mp h
    rw [h3, Res.ok_bind, h4, Res.ok_bind, h5, Res.ok_bind]
    dsimp only at h ⊢
    split at h
    · rename_i g1
      rw [if_pos g1]
      cases gr with
      | couples l => cases h
      | other => cases h
      | quadlets l =>
        dsimp only at h ⊢
        obtain ⟨r, h6, h⟩ := Res.bind_eq_ok.mp h
        have hn : r.2 = v' ∧ (r.1 = false → ∃ pre tx, Serder.pre s = .ok pre ∧ storedText s.raw gt = .ok tx ∧ a = .keyEvent pre tx) := by
          split at h
          · rename_i ht
            cases h
            exact ⟨rfl, fun hf => by rw [ht] at hf; cases hf⟩
          · obtain ⟨pre, k1, h⟩ := Res.bind_eq_ok.mp h
            obtain ⟨tx, k2, h⟩ := Res.bind_eq_ok.mp h
            cases h
            exact ⟨rfl, fun _ => ⟨pre, tx, k1, k2, rfl⟩⟩
        have := verifyOrSeen_ext hR he hv hh h6 (f' := verifyKeyEvent E st' deep fuel s l) (fun hf => by
          refine verifyKeyEvent_replay he hst hlk hf ?_
          intro hx pre q' k1 k2
          obtain ⟨pre', tx, k3, k4, rfl⟩ := hn.2 hx
          rw [k1] at k3
          cases k3
          obtain ⟨u, w, e1, e2, rfl⟩ := storedText_ok k4
          have e3 := again_key h1 e1 w
          refine At.mono (hs.kels pre) ⟨u ++ w, s, ?_, e3, k2⟩
          unfold perform tryInsert Store.insertKeyEvent append
          simp)
        rw [this, Res.ok_bind, if_pos rfl, hn.1]
    · rename_i g1
      rw [if_neg g1]
      split at h
      · rename_i g2
        rw [if_pos g2]
        cases gr with
        | quadlets l => cases h
        | other => cases h
        | couples l =>
          dsimp only at h ⊢
          obtain ⟨r, h6, h⟩ := Res.bind_eq_ok.mp h
          have hn : r.2 = v' ∧ (r.1 = false → ∃ pre tx, Serder.pre s = .ok pre ∧ storedText s.raw gt = .ok tx ∧ a = .transactionEvent pre tx) := by
            split at h
            · rename_i ht
              cases h
              exact ⟨rfl, fun hf => by rw [ht] at hf; cases hf⟩
            · obtain ⟨pre, k1, h⟩ := Res.bind_eq_ok.mp h
              obtain ⟨tx, k2, h⟩ := Res.bind_eq_ok.mp h
              cases h
              exact ⟨rfl, fun _ => ⟨pre, tx, k1, k2, rfl⟩⟩
          have := verifyOrSeen_ext hR he hv hh h6 (f' := verifyTransactionEvent E st' deep fuel s l) (fun hf => by
            refine verifyTransactionEvent_replay he hst hlk hlt hf ?_
            intro hx pre q' k1 k2
            obtain ⟨pre', tx, k3, k4, rfl⟩ := hn.2 hx
            rw [k1] at k3
            cases k3
            obtain ⟨u, w, e1, e2, rfl⟩ := storedText_ok k4
            have e3 := again_key h1 e1 w
            refine At.mono (hs.tels pre) ⟨u ++ w, s, ?_, e3, k2⟩
            unfold perform tryInsert Store.insertTransactionEvent append
            simp)
          rw [this, Res.ok_bind, if_pos rfl, hn.1]
      · cases h
  · rename_i g0
    rw [if_neg g0]
    split at h
    · rename_i g1
      rw [if_pos g1]
      have hu : Unrevoked E st' := hu.resolve_right fun hk => g0 (hk info hi)
      unfold ingestCreder at h ⊢
      obtain ⟨s, h1, h⟩ := Res.bind_eq_ok.mp h
      obtain ⟨q, h2, h⟩ := Res.bind_eq_ok.mp h
      rw [h1, Res.ok_bind, h2, Res.ok_bind]
      dsimp only at h ⊢
      obtain ⟨⟨gr, gt⟩, h3, h⟩ := Res.bind_eq_ok.mp h
      rw [h3, Res.ok_bind]
      cases gr with
      | couples l => cases h
      | other => cases h
      | quadlets l =>
        dsimp only at h ⊢
        obtain ⟨r, h6, h⟩ := Res.bind_eq_ok.mp h
        have hn : r.2 = v' ∧ (r.1 = false → ∃ tx, storedText s.raw gt = .ok tx ∧ a = .acdc tx) := by
          split at h
          · rename_i ht
            cases h
            exact ⟨rfl, fun hf => by rw [ht] at hf; cases hf⟩
          · obtain ⟨tx, k2, h⟩ := Res.bind_eq_ok.mp h
            cases h
            exact ⟨rfl, fun _ => ⟨tx, k2, rfl⟩⟩
        have := verifyOrSeen_ext hR he hv hh h6 (f' := verifyAcdc E st' deep fuel s l) (fun hf => by
          refine (verifyAcdc_replay he hst hlk hlt hu fuel).1 _ _ _ _ hf ?_
          intro hx q' k2
          obtain ⟨tx, k4, rfl⟩ := hn.2 hx
          obtain ⟨u, w, e1, e2, rfl⟩ := storedText_ok k4
          have e3 := again_cred h1 e1 w
          refine ⟨u ++ w, hs.acdcs.subset ?_, hasSaid_iff.mpr ⟨s, e3, k2⟩⟩
          unfold perform tryInsert Store.insertAcdc
          simp)
        rw [this, Res.ok_bind, if_pos rfl, hn.1]
    · cases h

/-! ## The invariant -/

theorem get_store_append {logs : Str → List Str} {pre text p : Str} {i : Nat} {t : Str} (h : (append logs pre text p)[i]? = some t) :
    (logs p)[i]? = some t ∨ (p = pre ∧ i = (logs pre).length ∧ t = text) := by
  unfold append at h
  split at h
  · rename_i hp
    subst hp
    rw [List.getElem?_append] at h
    split at h
    · exact .inl h
    · refine .inr ⟨rfl, ?_⟩
      have hlt := (List.getElem?_eq_some_iff.mp h).1
      have : i - (logs p).length = 0 := by simpa using hlt
      rw [this] at h
      simp at h
      exact ⟨by omega, h.symm⟩
  · exact .inl h

theorem sited_step {E : Env} {fuel : Nat} {deep : Option Bool} (st : Store) (m g : Msg) (v : List Str) (a : Action) (v' : List Str) (st' : Store) (r : Res Unit)
    (hst : Sited E st) (h : Fresh E st fuel deep v m g a v') (hp : perform E st a = (st', r)) : Sited E st' := by
  have tri : st' = st ∨ st' = (perform { E with refuses := fun _ _ => false } st a).1 := by
    unfold perform tryInsert at hp
    unfold perform tryInsert
    cases a <;> dsimp only at hp ⊢
    case nothing => cases hp; exact .inl rfl
    all_goals
      split at hp
      · cases hp; exact .inl rfl
      · cases hp; exact .inr rfl
  rcases tri with rfl | rfl
  · exact hst
  cases h with
  | nothing m g v' known => exact hst
  | key payload t g s l q c v' read raw again said verified fresh grows =>
    refine ⟨fun p i x s' hx hr => ?_, hst.tels⟩
    rcases get_store_append (show (append st.kels c.pre (t ++ g) p)[i]? = some x from hx) with hx | ⟨rfl, rfl, rfl⟩
    · exact hst.kels _ _ _ _ hx hr
    · rw [again] at hr
      cases hr
      obtain ⟨d1, d2, -, -⟩ := checkKeyEvent_ok verified
      rw [(checkKeyEvent_place verified).2.mp fresh] at d2
      exact ⟨d1, d2⟩
  | tx payload t g pre s l q v' read raw again said ident verified =>
    refine ⟨hst.kels, fun p i x s' hx hr => ?_⟩
    rcases get_store_append (show (append st.tels pre (t ++ g) p)[i]? = some x from hx) with hx | ⟨rfl, rfl, rfl⟩
    · exact hst.tels _ _ _ _ hx hr
    · rw [again] at hr
      cases hr
      cases fuel with
      | zero => cases verified
      | succ fuel =>
        obtain ⟨y⟩ := tx_run verified
        have e := y.hpre
        rw [ident] at e
        have e2 := (placeTx_cases y.hplace).2.mp rfl
        have e3 := y.hsn
        rw [e2, ← Res.ok.inj e] at e3
        exact ⟨ident, e3⟩
  | cred payload t g s l q v' read raw again said verified => exact ⟨hst.kels, hst.tels⟩

theorem ingestLoop_sited {E : Env} (hR : Remembers E) {fuel : Nat} {deep verify : Option Bool} (hv : verify ≠ some false) (st : Store) (msgs : List Msg) (hst : Sited E st) :
    Sited E (ingestLoop E fuel deep verify st msgs []).1 :=
  ingestLoop_induct hR hv (Sited E) (pairs msgs) (fun st m g v a v' st' r h1 _ _ h4 h5 => sited_step st m g v a v' st' r h1 h4 h5) st msgs [] hst (by simp) (fun _ h => h)

theorem reach_sited {E : Env} {hist : List (Msg × Msg)} {st : Store} (h : Reach E hist st) : Sited E st := by
  induction h with
  | empty => exact sited_empty E
  | ingest E' fuel n stream msgs deep verify hr hc hR hp hv ih =>
    have : Sited E' _ := ⟨fun p i t s h k => ih.kels p i t s h (hc.fl ▸ k), fun p i t s h k => ih.tels p i t s h (hc.fl ▸ k)⟩
    have := ingestLoop_sited hR hv _ (msgs.take n) this (fuel := fuel) (deep := deep)
    exact ⟨fun p i t s h k => this.kels p i t s h (by rw [hc.fl]; exact k), fun p i t s h k => this.tels p i t s h (by rw [hc.fl]; exact k)⟩

end Keride.Sample
