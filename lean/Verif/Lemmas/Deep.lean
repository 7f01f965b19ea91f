/-
Deep verification of key events in a store that is not trusted.
-/
import Verif.Lemmas.Resend
import Verif.Lemmas.DeepLog
import Verif.Lemmas.Send
import Verif.Spec.Deep

namespace Keride

open Matter Spec Sample

/-- A store with the log of an identifier cut off. -/
def cut (st : Store) (pre : Str) (n : Nat) : Store := { st with kels := fun p => if p = pre then (st.kels p).take n else st.kels p }

theorem cut_kels (st : Store) (pre : Str) (n : Nat) : (cut st pre n).kels pre = (st.kels pre).take n := if_pos rfl

theorem cut_extends (st : Store) (pre : Str) (n : Nat) : Extends (cut st pre n) st := by
  refine ⟨fun p => ?_, fun p => List.prefix_refl _, List.prefix_refl _⟩
  dsimp only [cut]
  split
  · exact List.take_prefix _ _
  · exact List.prefix_refl _

theorem checkKeyEvent_cut {E : Env} {st : Store} {s : Sad} {l : List SigGroup} {c : Checked} (h : checkKeyEvent E st s l = .ok c) :
    checkKeyEvent E (cut st c.pre c.sn) s l = .ok { c with existing := false } := by
  unfold checkKeyEvent at h ⊢
  rw [Res.bind_eq_ok] at h
  obtain ⟨pre, h1, h⟩ := h
  rw [h1, Res.ok_bind]
  rw [Res.bind_eq_ok] at h
  obtain ⟨px, h2, h⟩ := h
  rw [h2, Res.ok_bind]
  rw [Res.bind_eq_ok] at h
  obtain ⟨sn, h3, h⟩ := h
  rw [h3, Res.ok_bind]
  rw [Res.bind_eq_ok] at h
  obtain ⟨t, h4, h⟩ := h
  rw [h4, Res.ok_bind]
  rw [Res.bind_eq_ok] at h
  obtain ⟨ilk, h5, h⟩ := h
  rw [h5, Res.ok_bind]
  rw [Res.bind_eq_ok] at h
  obtain ⟨said, h6, h⟩ := h
  rw [h6, Res.ok_bind]
  rw [Res.bind_eq_ok] at h
  obtain ⟨ex, h7, h⟩ := h
  rw [Res.bind_eq_ok] at h
  obtain ⟨keys, h8, h⟩ := h
  rw [Res.bind_eq_ok] at h
  obtain ⟨ver, h9, h⟩ := h
  rw [Res.bind_eq_ok] at h
  obtain ⟨good, h10, h⟩ := h
  have hc : c.pre = pre ∧ c.sn = sn := by
    split at h
    · cases h
    rw [Res.bind_eq_ok] at h
    obtain ⟨labels, h11, h⟩ := h
    rw [Res.bind_eq_ok] at h
    obtain ⟨has, h12, h⟩ := h
    split at h
    · cases h
    split at h
    · cases h
      exact ⟨rfl, rfl⟩
    · rw [Res.bind_eq_ok] at h
      obtain ⟨p, h13, h⟩ := h
      cases h
      exact ⟨rfl, rfl⟩
  obtain ⟨e1, e2⟩ := hc
  rw [e1, e2]
  have hpl := place_cases h7
  have he := cut_extends st pre sn
  have hlen : sn ≤ (st.kels pre).length → ((cut st pre sn).kels pre).length = sn := by
    intro hs
    rw [cut_kels, List.length_take]
    omega
  have hplace : place E (cut st pre sn) s px pre sn ilk said = .ok false := by
    have hl := hlen (by rcases hpl with ⟨-, a, -⟩ | ⟨-, -, b, -⟩ <;> omega)
    unfold place at h7 ⊢
    dsimp only at h7 ⊢
    split at h7
    · rename_i hi
      rw [if_pos hi]
      obtain ⟨g, hg, h7⟩ := Res.bind_eq_ok.mp h7
      rw [hg, Res.ok_bind]
      split at h7
      · cases h7
      rename_i g1
      rw [if_neg g1]
      split at h7
      · cases h7
      rename_i g2
      rw [if_neg g2]
      obtain ⟨p, hp, h7⟩ := Res.bind_eq_ok.mp h7
      rw [hp, Res.ok_bind]
      split at h7
      · cases h7
      rename_i g3
      rw [if_neg g3, hl, decide_eq_false g2]
    · rename_i hi
      rw [if_neg hi]
      obtain ⟨g, hg, h7⟩ := Res.bind_eq_ok.mp h7
      rw [hg, Res.ok_bind]
      split at h7
      · cases h7
      rename_i g1
      rw [if_neg g1]
      split at h7
      · cases h7
      rename_i g2
      rw [if_neg g2, hl, if_neg (by omega), decide_eq_false (by omega)]
  have hkeys : keysInForce E (cut st pre sn) s pre sn = .ok keys := by
    unfold keysInForce at h8 ⊢
    obtain ⟨est, k1, h8⟩ := Res.bind_eq_ok.mp h8
    rw [k1, Res.ok_bind]
    split at h8
    · rename_i ht
      rw [if_pos ht]
      exact h8
    · rename_i ht
      rw [if_neg ht]
      obtain ⟨i, k2, h8⟩ := Res.bind_eq_ok.mp h8
      rw [k2, Res.ok_bind, ← getLatestEst_ext he]
      · exact h8
      · rcases hpl with ⟨a, -⟩ | ⟨-, a, b, -⟩
        · exact absurd a (est_icp h4 h5 (by rw [k1]; congr; simpa using ht))
        · rw [hlen b]
          exact sub_lt k2 a le_rfl
  rw [hplace, Res.ok_bind, hkeys, Res.ok_bind, h9, Res.ok_bind, h10, Res.ok_bind]
  split at h
  · cases h
  rename_i g1
  rw [if_neg g1]
  rw [Res.bind_eq_ok] at h
  obtain ⟨labels, h11, h⟩ := h
  rw [h11, Res.ok_bind]
  rw [Res.bind_eq_ok] at h
  obtain ⟨has, h12, h⟩ := h
  rw [h12, Res.ok_bind]
  split at h
  · cases h
  rename_i g2
  rw [if_neg g2]
  split at h
  · rename_i g3
    rw [if_pos g3]
    cases h
    rfl
  · rename_i g3
    rw [if_neg g3]
    rw [Res.bind_eq_ok] at h
    obtain ⟨p, h13, h⟩ := h
    rcases hpl with ⟨a, -⟩ | ⟨-, a, b, -⟩
    · exact absurd a g3
    have hprior : checkPrior E (cut st pre sn) s pre sn keys.1 ver = .ok p := by
      unfold checkPrior at h13 ⊢
      obtain ⟨i, hi, h13⟩ := Res.bind_eq_ok.mp h13
      rw [hi, Res.ok_bind]
      have hlt : i < ((cut st pre sn).kels pre).length := by
        rw [hlen b]
        exact sub_lt hi a le_rfl
      have hget : (cut st pre sn).getKeyEvent pre i = st.getKeyEvent pre i := by
        unfold Store.getKeyEvent
        rw [cut_kels, List.getElem?_take_of_lt (by rw [hlen b] at hlt; exact hlt)]
      rw [hget]
      simp only [hi, Res.ok_bind, getLatestEst_ext he hlt] at h13 ⊢
      exact h13
    rw [hprior, Res.ok_bind]
    cases h
    rfl

/-- Events that lead from one with a SAID to an event, by the prior events they name. -/
def Leads (H : Hash) (chk : Bool) (P : Sad → Prop) (q : Str) (e : Sad) : Prop :=
  ∃ l a, (l ++ [e]).head? = some a ∧ Sadder.said chk a = .ok q ∧ Chained chk (l ++ [e]) ∧ ∀ x ∈ l, P x ∧ SelfAddressed H chk x

theorem chained_snoc {chk : Bool} {e p : Sad} (h : ∃ q, Sadder.said chk p = .ok q ∧ HasText (str% "p") q e) :
    ∀ l : List Sad, Chained chk (l ++ [e]) → Chained chk (l ++ [e] ++ [p])
  | [], _ => ⟨h, trivial⟩
  | [_], hl => ⟨hl.1, h, trivial⟩
  | _ :: b :: l, hl => ⟨hl.1, chained_snoc h (b :: l) hl.2⟩

theorem Leads.snoc {H : Hash} {chk : Bool} {P : Sad → Prop} {q : Str} {e p : Sad} (h : Leads H chk P q e) (he : P e ∧ SelfAddressed H chk e)
    (hp : ∃ q, Sadder.said chk p = .ok q ∧ HasText (str% "p") q e) : Leads H chk P q p := by
  obtain ⟨l, a, h1, h2, h3, h4⟩ := h
  refine ⟨l ++ [e], a, ?_, h2, chained_snoc hp l h3, ?_⟩
  · rw [List.head?_append, h1]
    rfl
  · intro x hx
    rcases List.mem_append.mp hx with hx | hx
    · exact h4 x hx
    · rw [List.mem_singleton.mp hx]
      exact he

theorem Leads.circle {H : Hash} {chk : Bool} {P : Sad → Prop} {q : Str} {e : Sad} (h : Leads H chk P q e) (he : P e ∧ SelfAddressed H chk e)
    (hp : HasText (str% "p") q e) : Circular H chk P := by
  obtain ⟨l, a, h1, h2, h3, h4⟩ := h
  refine ⟨l ++ [e], a, e, h1, by simp, ?_, h3, q, h2, hp⟩
  intro x hx
  rcases List.mem_append.mp hx with hx | hx
  · exact h4 x hx
  · rw [List.mem_singleton.mp hx]
    exact he

section
variable {E : Env} {st : Store}

/-- What deep verification of an event does. -/
theorem deep_step {fuel : Nat} {s : Sad} {g : List SigGroup} {v : List Str} {r : Bool × List Str}
    (h : verifyKeyEvent E st (some true) (fuel + 1) s g v = .ok r) :
    ∃ c, checkKeyEvent E st s g = .ok c ∧ c.existing = r.1 ∧ confirm E st c = .ok () ∧ (c.prior = none → r.2 = v) ∧ ∀ event p, c.prior = some (event, p) →
      ∃ q, Sadder.said E.chk p = .ok q ∧ (q ∈ v ∧ r.2 = v ∨
        ∃ g' r', attachedQuadlets E event p = .ok g' ∧ verifyKeyEvent E st (some true) fuel p g' (q :: v) = .ok r' ∧ r.2 = r'.2) := by
  rw [verifyKeyEvent] at h
  obtain ⟨c, hc, h⟩ := Res.bind_eq_ok.mp h
  obtain ⟨w, hw, h⟩ := Res.bind_eq_ok.mp h
  obtain ⟨u, hu, h⟩ := Res.bind_eq_ok.mp h
  cases h
  refine ⟨c, hc, rfl, hu, fun hp => ?_, fun event p hp => ?_⟩
  · rw [hp] at hw
    exact (Res.ok.inj hw).symm
  rw [hp] at hw
  dsimp only at hw
  rw [show (some true).getD false = true from rfl, if_pos rfl] at hw
  obtain ⟨q, hq, hw⟩ := Res.bind_eq_ok.mp hw
  refine ⟨q, hq, ?_⟩
  split at hw
  · rename_i hm
    exact .inl ⟨by simpa using hm, (Res.ok.inj hw).symm⟩
  · obtain ⟨g', hg, hw⟩ := Res.bind_eq_ok.mp hw
    obtain ⟨r', hr, hw⟩ := Res.bind_eq_ok.mp hw
    exact .inr ⟨g', r', hg, hr, (Res.ok.inj hw).symm⟩

/-- An event whose predecessors make a valid log continues it, wherever it stands. -/
theorem deep_valid (hH : HashOk E.H) {s : Sad} {g : List SigGroup} {c : Checked} {raw : Bytes} (hread : Serder.newWithRaw E.fl raw = .ok s)
    (hc : checkKeyEvent E st s g = .ok c) (hlen : (st.kels c.pre).length < 2 ^ 32) {log : List Entry}
    (hk : List.Forall₂ (Kept E) ((st.kels c.pre).take c.sn) log) (hv : log = [] ∨ ValidLog E.H E.C E.chk E.fl c.pre log) :
    ValidLog E.H E.C E.chk E.fl c.pre (log ++ [⟨s, g⟩]) := by
  have h := checkKeyEvent_cut hc
  refine checkKeyEvent_valid (e := ⟨s, g⟩) (c := { c with existing := false }) hH hread h ?_ hv ?_ rfl
  · dsimp only
    rw [cut_kels]
    exact hk.imp fun _ _ h => h.1
  · dsimp only
    rw [cut_kels, List.length_take]
    omega

theorem kept_index {texts : List Str} {log : List Entry} {pre : Str} (hk : List.Forall₂ (Kept E) texts log) (hv : ValidLog E.H E.C E.chk E.fl pre log)
    {i : Nat} {t : Str} {s : Sad} (ht : texts[i]? = some t) (hs : Serder.newWithRaw E.fl (toUtf8 t) = .ok s) : Serder.sn s = .ok i := by
  obtain ⟨e, he, h1, -⟩ := forall₂_get hk ht
  rw [hs] at h1
  have h1 := Res.ok.inj h1
  subst h1
  obtain ⟨hi, hx⟩ := List.getElem?_eq_some_iff.mp he
  have := valid_sn hv (log.take i) e (log.drop (i + 1)) (by rw [← hx]; simp)
  rw [List.length_take, Nat.min_eq_left (by omega)] at this
  exact this

/-- The log up to a place is valid. -/
def ValidTo (E : Env) (st : Store) (pre : Str) (n : Nat) : Prop :=
  ∃ log, List.Forall₂ (Kept E) ((st.kels pre).take n) log ∧ ValidLog E.H E.C E.chk E.fl pre log

/-- The log of the identifier is valid up to every event with the SAID. -/
def Done (E : Env) (st : Store) (pre q : Str) : Prop :=
  ∀ (a : Nat) text e, (st.kels pre)[a]? = some text → Serder.newWithRaw E.fl (toUtf8 text) = .ok e → Sadder.said E.chk e = .ok q → ValidTo E st pre (a + 1)

/-- An event with the SAID is in the log of the identifier, which is valid up to it. -/
def DoneIn (E : Env) (st : Store) (pre q : Str) : Prop :=
  ∃ (a : Nat) (text : Str) (e : Sad), (st.kels pre)[a]? = some text ∧ Serder.newWithRaw E.fl (toUtf8 text) = .ok e ∧ Sadder.said E.chk e = .ok q ∧ ValidTo E st pre (a + 1)

theorem DoneIn.done {pre q : Str} (hf : Filed E.chk E.fl pre (st.kels pre)) (h : DoneIn E st pre q) : Done E st pre q := by
  obtain ⟨a, text, e, h1, h2, h3, h4⟩ := h
  intro b u r g1 g2 g3
  rw [hf.once b a u text r e q g1 h1 g2 h2 g3 h3]
  exact h4

theorem deep_stored (hH : HashOk E.H) {pre : Str} {P : Sad → Prop} (hP : ∀ text ∈ st.kels pre, ∀ e, Serder.newWithRaw E.fl (toUtf8 text) = .ok e → P e) (hf : Filed E.chk E.fl pre (st.kels pre)) (hlen : (st.kels pre).length < 2 ^ 32) :
    ∀ (fuel : Nat) (v : List Str) (a : Nat) (text : Str) (e : Sad) (g : List SigGroup) (r : Bool × List Str), (st.kels pre)[a]? = some text →
      Serder.newWithRaw E.fl (toUtf8 text) = .ok e → attachedQuadlets E text e = .ok g → (∀ q ∈ v, Leads E.H E.chk P q e ∨ Done E st pre q) →
      verifyKeyEvent E st (some true) fuel e g v = .ok r →
      (ValidTo E st pre (a + 1) ∧ ∀ q ∈ r.2, q ∈ v ∨ DoneIn E st pre q) ∨ Circular E.H E.chk P := by
  intro fuel
  induction fuel with
  | zero => intro v a text e g r _ _ _ _ h; cases h
  | succ fuel ih =>
    intro v a text e g r ha hread hg hl h
    obtain ⟨ha', -⟩ := List.getElem?_eq_some_iff.mp ha
    obtain ⟨c, hc, -, hconf, hnone, hprior⟩ := deep_step h
    obtain ⟨c1, c2, c3, -⟩ := checkKeyEvent_ok hc
    obtain ⟨p1, p2⟩ := checkKeyEvent_place hc
    obtain ⟨k1, k2⟩ := checkKeyEvent_prior hH hread hc
    have hpre : c.pre = pre := by
      have h1 := hf.own text (List.mem_of_getElem? ha) e hread
      have h2 := (Props.C55_pre e c.pre).mp c1
      unfold HasText at h1
      rw [h1] at h2
      exact (Value.str.inj (Option.some.inj h2)).symm
    rw [hpre] at p1 p2
    -- the place it claims is the place it has, unless it claims the next free place
    have hplace : c.sn = a ∨ c.sn = (st.kels pre).length := by
      cases hx : c.existing with
      | false => exact .inr (p2.mp hx)
      | true =>
        left
        have hne : c.sn ≠ (st.kels pre).length := fun h => by rw [p2.mpr h] at hx; cases hx
        obtain ⟨t, s, g1, g2, g3⟩ := (confirm_at hx).mp hconf
        rw [Nat.mod_eq_of_lt (by omega), hpre] at g1
        exact hf.once c.sn a t text s e c.said g1 ha g2 hread g3 c3
    cases hpr : c.prior with
    | none =>
      have hz := k1 hpr
      have h0 : a = 0 := by omega
      subst h0
      left
      have := deep_valid hH hread hc (by rw [hpre]; exact hlen) (log := []) (by rw [hz]; exact .nil) (.inl rfl)
      rw [hpre] at this
      refine ⟨⟨[⟨e, g⟩], ?_, this⟩, ?_⟩
      · have ht : (st.kels pre).take (0 + 1) = [text] := by
          cases hk : st.kels pre with
          | nil => rw [hk] at ha; cases ha
          | cons x l => rw [hk] at ha; cases ha; rfl
        rw [ht]
        exact .cons ⟨hread, hg⟩ .nil
      · rw [hnone hpr]
        exact fun q hq => .inl hq
    | some x =>
      obtain ⟨event, p⟩ := x
      obtain ⟨n1, n2, n3, n4, q, n5, n6⟩ := k2 _ hpr
      rw [hpre] at n3
      have n3 := n3 (by omega)
      obtain ⟨q', m1, m2⟩ := hprior event p hpr
      have hqq : q' = q := by rw [n5] at m1; exact (Res.ok.inj m1).symm
      subst hqq
      have hrec : (ValidTo E st pre (c.sn - 1 + 1) ∧ ∀ y ∈ r.2, y ∈ v ∨ DoneIn E st pre y) ∨ Circular E.H E.chk P := by
        rcases m2 with ⟨m2, m3⟩ | ⟨g', r', m2, m3, m4⟩
        · rcases hl _ m2 with hl | hl
          · exact .inr (hl.circle ⟨hP text (List.mem_of_getElem? ha) e hread, n2⟩ n6)
          · exact .inl ⟨hl _ _ _ n3 n4 m1, by rw [m3]; exact fun q hq => .inl hq⟩
        · rcases ih (q' :: v) (c.sn - 1) event p g' r' n3 n4 m2 (by
            intro y hy
            rcases List.mem_cons.mp hy with rfl | hy
            · exact .inl ⟨[], p, rfl, m1, trivial, nofun⟩
            · exact (hl y hy).imp_left fun h => h.snoc ⟨hP text (List.mem_of_getElem? ha) e hread, n2⟩ ⟨q', m1, n6⟩) m3 with ⟨l1, l2⟩ | hrec
          · refine .inl ⟨l1, fun y hy => ?_⟩
            rw [m4] at hy
            rcases l2 y hy with hy | hy
            · rcases List.mem_cons.mp hy with rfl | hy
              · exact .inr ⟨_, event, p, n3, n4, m1, l1⟩
              · exact .inl hy
            · exact .inr hy
          · exact .inr hrec
      rcases hrec with ⟨⟨log, l1, l2⟩, l3⟩ | hrec
      · rw [Nat.sub_add_cancel n1] at l1
        have hsn : c.sn = a := by
          rcases hplace with h | h
          · exact h
          · rw [h, List.take_length] at l1
            have := kept_index l1 l2 ha hread
            rw [c2] at this
            exact Res.ok.inj this
        left
        have := deep_valid hH hread hc (by rw [hpre]; exact hlen) (log := log) (by rw [hpre]; exact l1) (.inr (by rw [hpre]; exact l2))
        rw [hpre] at this
        refine ⟨⟨log ++ [⟨e, g⟩], ?_, this⟩, l3⟩
        rw [List.take_add_one, ha, ← hsn]
        exact List.rel_append l1 (.cons ⟨hread, hg⟩ .nil)
      · exact .inr hrec

/-- Deep verification of an event that comes in. -/
theorem deep_new (hH : HashOk E.H) {pre : Str} {P : Sad → Prop} (hP : ∀ text ∈ st.kels pre, ∀ e, Serder.newWithRaw E.fl (toUtf8 text) = .ok e → P e) (hf : Filed E.chk E.fl pre (st.kels pre)) (hlen : (st.kels pre).length < 2 ^ 32) {fuel : Nat}
    {v : List Str} {raw : Bytes} {s : Sad} {g : List SigGroup} {r : Bool × List Str} {n : Nat} (hread : Serder.newWithRaw E.fl raw = .ok s)
    (hs : P s) (hpre : Serder.pre s = .ok pre) (hsn : Serder.sn s = .ok n) (hl : ∀ q ∈ v, Sadder.said E.chk s = .ok q ∨ Done E st pre q)
    (h : verifyKeyEvent E st (some true) fuel s g v = .ok r) :
    ((∃ log, List.Forall₂ (Kept E) ((st.kels pre).take n) log ∧ ValidLog E.H E.C E.chk E.fl pre (log ++ [⟨s, g⟩])) ∧
      (∀ q ∈ r.2, q ∈ v ∨ DoneIn E st pre q) ∧ (r.1 = false → n = (st.kels pre).length)) ∨ Circular E.H E.chk P := by
  cases fuel with
  | zero => cases h
  | succ fuel =>
    obtain ⟨c, hc, hex, hconf, hnone, hprior⟩ := deep_step h
    obtain ⟨c1, c2, c3, -⟩ := checkKeyEvent_ok hc
    obtain ⟨p1, p2⟩ := checkKeyEvent_place hc
    obtain ⟨k1, k2⟩ := checkKeyEvent_prior hH hread hc
    have e1 : c.pre = pre := by rw [hpre] at c1; exact (Res.ok.inj c1).symm
    have e2 : c.sn = n := by rw [hsn] at c2; exact (Res.ok.inj c2).symm
    rw [e1] at p1 p2
    have hplace : r.1 = false → n = (st.kels pre).length := by
      rw [← hex, ← e2]
      exact p2.mp
    cases hpr : c.prior with
    | none =>
      have hz := k1 hpr
      have := deep_valid hH hread hc (by rw [e1]; exact hlen) (log := []) (by rw [hz]; exact .nil) (.inl rfl)
      rw [e1] at this
      refine .inl ⟨⟨[], ?_, this⟩, ?_, hplace⟩
      · rw [← e2, hz]
        exact .nil
      · rw [hnone hpr]
        exact fun q hq => .inl hq
    | some x =>
      obtain ⟨event, p⟩ := x
      obtain ⟨n1, n2, n3, n4, q, n5, n6⟩ := k2 _ hpr
      rw [e1] at n3
      have n3 := n3 (by omega)
      obtain ⟨q', m1, m2⟩ := hprior event p hpr
      have hqq : q' = q := by rw [n5] at m1; exact (Res.ok.inj m1).symm
      subst hqq
      have hrec : (ValidTo E st pre (c.sn - 1 + 1) ∧ ∀ y ∈ r.2, y ∈ v ∨ DoneIn E st pre y) ∨ Circular E.H E.chk P := by
        rcases m2 with ⟨m2, m3⟩ | ⟨g', r', m2, m3, m4⟩
        · rcases hl _ m2 with hl | hl
          · exact .inr (Leads.circle ⟨[], s, rfl, hl, trivial, nofun⟩ ⟨hs, n2⟩ n6)
          · exact .inl ⟨hl _ _ _ n3 n4 m1, by rw [m3]; exact fun q hq => .inl hq⟩
        · rcases deep_stored hH hP hf hlen fuel (q' :: v) (c.sn - 1) event p g' r' n3 n4 m2 (by
            intro y hy
            rcases List.mem_cons.mp hy with rfl | hy
            · exact .inl ⟨[], p, rfl, m1, trivial, nofun⟩
            · exact (hl y hy).imp_left fun h => Leads.snoc ⟨[], s, rfl, h, trivial, nofun⟩ ⟨hs, n2⟩ ⟨q', m1, n6⟩) m3 with ⟨l1, l2⟩ | hrec
          · refine .inl ⟨l1, fun y hy => ?_⟩
            rw [m4] at hy
            rcases l2 y hy with hy | hy
            · rcases List.mem_cons.mp hy with rfl | hy
              · exact .inr ⟨_, event, p, n3, n4, m1, l1⟩
              · exact .inl hy
            · exact .inr hy
          · exact .inr hrec
      rcases hrec with ⟨⟨log, l1, l2⟩, l3⟩ | hrec
      · rw [Nat.sub_add_cancel n1] at l1
        have := deep_valid hH hread hc (by rw [e1]; exact hlen) (log := log) (by rw [e1]; exact l1) (.inr (by rw [e1]; exact l2))
        rw [e1] at this
        rw [e2] at l1
        exact .inl ⟨⟨log, l1, this⟩, l3, hplace⟩
      · exact .inr hrec

end

end Keride
