/-
Deep verification of a log whose events were verified, and whose attached signatures are read again.
-/
import Verif.Lemmas.Resend
import Verif.Spec.Send

namespace Keride

open Matter Spec Sample

theorem checkKeyEvent_prior {E : Env} (hH : HashOk E.H) {st : Store} {s : Sad} {l : List SigGroup} {c : Checked} {raw : Bytes}
    (hread : Serder.newWithRaw E.fl raw = .ok s) (h : checkKeyEvent E st s l = .ok c) :
    (c.prior = none → c.sn = 0) ∧ ∀ x, c.prior = some x → 1 ≤ c.sn ∧ SelfAddressed E.H E.chk s ∧
      (c.sn < 2 ^ 32 → (st.kels c.pre)[c.sn - 1]? = some x.1) ∧ Serder.newWithRaw E.fl (toUtf8 x.1) = .ok x.2 ∧
      ∃ q, Sadder.said E.chk x.2 = .ok q ∧ HasText (str% "p") q s := by
  unfold checkKeyEvent at h
  obtain ⟨pre, -, h⟩ := Res.bind_eq_ok.mp h
  obtain ⟨px, -, h⟩ := Res.bind_eq_ok.mp h
  obtain ⟨sn, -, h⟩ := Res.bind_eq_ok.mp h
  obtain ⟨t, ht, h⟩ := Res.bind_eq_ok.mp h
  obtain ⟨ilk, hilk, h⟩ := Res.bind_eq_ok.mp h
  obtain ⟨said, -, h⟩ := Res.bind_eq_ok.mp h
  obtain ⟨ex, hplace, h⟩ := Res.bind_eq_ok.mp h
  obtain ⟨keys, -, h⟩ := Res.bind_eq_ok.mp h
  obtain ⟨ver, -, h⟩ := Res.bind_eq_ok.mp h
  obtain ⟨good, -, h⟩ := Res.bind_eq_ok.mp h
  split at h
  · cases h
  obtain ⟨labels, -, h⟩ := Res.bind_eq_ok.mp h
  obtain ⟨has, -, h⟩ := Res.bind_eq_ok.mp h
  split at h
  · cases h
  have hpl := place_cases hplace
  split at h
  · rename_i hicp
    cases h
    rcases hpl with ⟨-, a, -⟩ | ⟨a, -⟩
    · exact ⟨fun _ => a, fun x hx => by cases hx⟩
    · exact absurd hicp a
  · rename_i hicp
    obtain ⟨y, hp, h⟩ := Res.bind_eq_ok.mp h
    cases h
    refine ⟨fun h => (by cases h), fun x hx => ?_⟩
    cases hx
    have hsn : 1 ≤ sn := by
      rcases hpl with ⟨a, -⟩ | ⟨-, a, -⟩
      · exact absurd a hicp
      · exact a
    dsimp only
    unfold checkPrior at hp
    obtain ⟨i, hi, hp⟩ := Res.bind_eq_ok.mp hp
    obtain ⟨event, hev, hp⟩ := Res.bind_eq_ok.mp hp
    obtain ⟨p, hps, hp⟩ := Res.bind_eq_ok.mp hp
    obtain ⟨q, hq, hp⟩ := Res.bind_eq_ok.mp hp
    obtain ⟨v, hv, hp⟩ := Res.bind_eq_ok.mp hp
    obtain ⟨u, hu, hp⟩ := Res.bind_eq_ok.mp hp
    split at hp
    · cases hp
    rename_i hqu
    have hqu := not_not.mp hqu
    subst hqu
    have hy : y = (event, p) := by
      obtain ⟨est, -, hp⟩ := Res.bind_eq_ok.mp hp
      split at hp
      · obtain ⟨_, -, hp⟩ := Res.bind_eq_ok.mp hp
        obtain ⟨_, -, hp⟩ := Res.bind_eq_ok.mp hp
        obtain ⟨_, -, hp⟩ := Res.bind_eq_ok.mp hp
        obtain ⟨_, -, hp⟩ := Res.bind_eq_ok.mp hp
        split at hp
        · cases hp
        · exact (Res.ok.inj hp).symm
      · exact (Res.ok.inj hp).symm
    subst hy
    refine ⟨hsn, ?_, ?_, hps, q, hq, index_text hv hu⟩
    · unfold place at hplace
      dsimp only at hplace
      rw [if_neg hicp] at hplace
      obtain ⟨g, hg, hplace⟩ := Res.bind_eq_ok.mp hplace
      cases g with
      | false => cases hplace
      | true => exact self_addressed hH hread hg
    · intro hlt
      rw [Nat.mod_eq_of_lt hlt] at hi
      unfold subU32 at hi
      rw [if_pos hsn] at hi
      cases hi
      exact Res.ofOption_eq_ok.mp hev

/-- What is attached to a stored event is read again. -/
theorem attached_of {E : Env} {t g : Str} {s : Sad} {gr : Group} (hr : s.raw = toUtf8 t) (hg : ReadsAs E g gr) : attached E (t ++ g) s = .ok gr := by
  obtain ⟨x, rest, hp⟩ := hg
  unfold attached
  have : Str.sliceFrom (t ++ g) s.raw.length = .ok g := by
    rw [hr, toUtf8_length]
    exact sliceFrom_len t g
  rw [this, Res.ok_bind, hp, Res.ok_bind]
  rfl

theorem attachedQuadlets_of {E : Env} {t g : Str} {s : Sad} {l : List SigGroup} (hr : s.raw = toUtf8 t) (hg : ReadsAs E g (.quadlets l)) :
    attachedQuadlets E (t ++ g) s = .ok l := by
  unfold attachedQuadlets
  rw [attached_of hr hg]
  rfl

/-- Every stored event of an identifier would be accepted again with the signatures attached to it. -/
def DeepLog (E : Env) (st : Store) (pre : Str) : Prop :=
  ∀ (k : Nat) (text : Str), (st.kels pre)[k]? = some text → ∃ s g c, Serder.newWithRaw E.fl (toUtf8 text) = .ok s ∧ attachedQuadlets E text s = .ok g ∧
    checkKeyEvent E st s g = .ok c ∧ c.pre = pre ∧ c.sn = k ∧ c.existing = true

theorem DeepLog.ext {E : Env} {st st' : Store} {pre : Str} (h : DeepLog E st pre) (he : Extends st st') (hk : st'.kels pre = st.kels pre) : DeepLog E st' pre := by
  intro k text ht
  rw [hk] at ht
  obtain ⟨s, g, c, h1, h2, h3, h4, h5, h6⟩ := h k text ht
  refine ⟨s, g, { c with existing := true }, h1, h2, checkKeyEvent_ext he h3 ?_, h4, h5, rfl⟩
  rw [h4, h5, hk]
  exact (List.getElem?_eq_some_iff.mp ht).1

/-- The SAID of a stored event of an identifier. -/
def KeptSaid (E : Env) (st : Store) (pre q : Str) : Prop := ∃ t ∈ st.kels pre, ∃ s, Serder.newWithRaw E.fl (toUtf8 t) = .ok s ∧ Sadder.said E.chk s = .ok q

theorem deep_log {E : Env} {st : Store} (hH : HashOk E.H) {pre : Str} (hs : DeepLog E st pre) :
    ∀ (fuel : Nat) (s : Sad) (g : List SigGroup) (c : Checked) (raw : Bytes) (v : List Str), Serder.newWithRaw E.fl raw = .ok s →
      checkKeyEvent E st s g = .ok c → c.pre = pre → confirm E st c = .ok () → c.sn < 2 ^ 32 → c.sn < fuel →
      ∃ w, verifyKeyEvent E st (some true) fuel s g v = .ok (c.existing, w) ∧ ∀ q ∈ w, q ∈ v ∨ KeptSaid E st pre q := by
  intro fuel
  induction fuel with
  | zero => intro s g c raw v _ _ _ _ _ h; omega
  | succ fuel ih =>
    intro s g c raw v hread hc hpre hconf hlen hfuel
    obtain ⟨k1, k2⟩ := checkKeyEvent_prior hH hread hc
    rw [verifyKeyEvent, hc, Res.ok_bind]
    cases hpr : c.prior with
    | none =>
      refine ⟨v, ?_, fun q hq => .inl hq⟩
      dsimp only
      rw [Res.ok_bind, hconf]
      rfl
    | some x =>
      obtain ⟨event, p⟩ := x
      obtain ⟨n1, n2, n3, n4, q, n5, n6⟩ := k2 _ hpr
      have n7 := n3 hlen
      dsimp only at n7 n4 n5 ⊢
      rw [show (some true).getD false = true from rfl, if_pos rfl, n5, Res.ok_bind]
      split
      · refine ⟨v, ?_, fun q hq => .inl hq⟩
        rw [Res.ok_bind, hconf]
        rfl
      · rw [hpre] at n7
        obtain ⟨s', g', c', h1, h2, h3, h4, h5, h6⟩ := hs _ _ n7
        have : s' = p := by rw [h1] at n4; exact Res.ok.inj n4
        subst this
        have hsaid : c'.said = q := by
          have := (checkKeyEvent_ok h3).2.2.1
          rw [n5] at this
          exact (Res.ok.inj this).symm
        have hconf' : confirm E st c' = .ok () := by
          rw [confirm_at h6]
          refine ⟨event, s', ?_, h1, by rw [hsaid]; exact n5⟩
          rw [h4, h5, Nat.mod_eq_of_lt (by omega)]
          exact n7
        obtain ⟨w, hw, hin⟩ := ih s' g' c' _ (q :: v) h1 h3 h4 hconf' (by omega) (by omega)
        refine ⟨w, ?_, fun q' hq' => ?_⟩
        · rw [h2, Res.ok_bind, hw, Res.ok_bind, Res.ok_bind, hconf]
          rfl
        · rcases hin q' hq' with h | h
          · rcases List.mem_cons.mp h with rfl | h
            · exact .inr ⟨event, List.mem_of_getElem? n7, s', h1, n5⟩
            · exact .inl h
          · exact .inr h

theorem Spec.Deepens.off {E : Env} {st : Store} {deep : Option Bool} {fuel : Nat} {pre : Str} (h : deep ≠ some true) : Deepens E st deep fuel pre := fun h' => absurd h' h

theorem Spec.Deepens.up {E : Env} {st : Store} {deep : Option Bool} {fuel n : Nat} {pre : Str} (h : Deepens E st deep fuel pre) (hn : fuel ≤ n) : Deepens E st deep n pre :=
  fun hd m hm => h hd m (hn.trans hm)

theorem DeepLog.deepens {E : Env} (hH : HashOk E.H) {st : Store} {deep : Option Bool} {fuel : Nat} {pre : Str} (h : deep = some true → DeepLog E st pre)
    (hlen : (st.kels pre).length ≤ 2 ^ 32) (hf : (st.kels pre).length ≤ fuel) : Deepens E st deep fuel pre := by
  intro hd n hn k text s ht hs
  obtain ⟨s', g, c, h1, h2, h3, h4, h5, h6⟩ := h hd k text ht
  rw [hs] at h1
  cases h1
  have hk := (List.getElem?_eq_some_iff.mp ht).1
  refine ⟨g, h2, fun v => ?_⟩
  have hconf : confirm E st c = .ok () := by
    rw [confirm_at h6]
    refine ⟨text, s, ?_, hs, (checkKeyEvent_ok h3).2.2.1⟩
    rw [h4, h5, Nat.mod_eq_of_lt (by omega)]
    exact ht
  obtain ⟨w, hw, -⟩ := deep_log hH (h hd) n s g c _ v hs h3 h4 hconf (by omega) (by omega)
  rw [h6] at hw
  exact ⟨w, hw⟩

end Keride
