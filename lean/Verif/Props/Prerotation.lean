/-
C105: current keys alone cannot change the keys of an identifier.
-/
import Verif.Props.Fork

namespace Keride.Props

open Matter Spec Sample

/-- An event that a log continues names the one before it. -/
theorem ValidLog.chained {H : Hash} {C : Crypto} {chk : Bool} {fl : Str → Option Str} {pre : Str} {l rest : List Entry} {prev x : Entry}
    (h : ValidLog H C chk fl pre (l ++ prev :: x :: rest)) : ∃ q, Sadder.said chk prev.sad = .ok q ∧ HasText (str% "p") q x.sad := by
  have h : ValidLog H C chk fl pre ((l ++ [prev]) ++ [x]) := ValidLog.cut h (a := l ++ [prev]) (b := rest) (by simp)
  generalize hl : (l ++ [prev]) ++ [x] = m at h
  cases h with
  | incept y keys t sigs => exact absurd (congrArg List.length hl) (by simp)
  | rotate log y pr est psaid keys digests t n sigs before type ident sn fields digest last prior chained own threshold signed latest next nextThreshold committed =>
    obtain ⟨rfl, e1⟩ := List.append_inj' hl rfl
    cases e1
    rw [List.getLast?_concat] at last
    cases last
    exact ⟨psaid, prior, chained⟩
  | interact log y pr est psaid keys t sigs before type ident sn fields digest last prior chained latest own threshold signed =>
    obtain ⟨rfl, e1⟩ := List.append_inj' hl rfl
    cases e1
    rw [List.getLast?_concat] at last
    cases last
    exact ⟨psaid, prior, chained⟩

theorem first_of {α : Type} {P : α → Prop} : ∀ (q : List α), (∃ x ∈ q, P x) → ∃ u x w, q = u ++ x :: w ∧ P x ∧ ∀ y ∈ u, ¬ P y
  | [], ⟨_, h, _⟩ => by cases h
  | y :: q, h => by
    by_cases hy : P y
    · exact ⟨[], y, q, rfl, hy, (fun z hz => by cases hz)⟩
    · obtain ⟨x, hx, hp⟩ := h
      have : ∃ x ∈ q, P x := by
        rcases List.mem_cons.mp hx with rfl | hx
        · exact absurd hp hy
        · exact ⟨x, hx, hp⟩
      obtain ⟨u, x, w, rfl, h1, h2⟩ := first_of q this
      refine ⟨y :: u, x, w, rfl, h1, ?_⟩
      intro z hz
      rcases List.mem_cons.mp hz with rfl | hz
      · exact hy
      · exact h2 z hz

/-- A rotation that is allowed comes with a signature by a key that was committed to. -/
theorem rotation_signed {H : Hash} {C : Crypto} {chk : Bool} {fl : Str → Option Str} {est e : Entry}
    (hn : ∀ t, Serder.ntholder chk fl est.sad = .ok (some t) → FewWeights t) (h : AllowedBy H C chk fl est e) (he : Establishes e.sad) :
    HasText (str% "t") (str% "rot") e.sad ∧ ∃ g ∈ Spec.sigersOf e.groups, ∃ k, CommittedKey H chk est k ∧ Verfer.verify C k g.i.raw e.sad.raw = .ok true := by
  rcases h with ⟨ht, -⟩ | ⟨ht, keys, digests, t, n, sigs, h1, h2, h3, h4, h5, ⟨l, h6, h7, h8⟩⟩
  · exfalso
    unfold Establishes HasText at he
    unfold HasText at ht
    rw [ht] at he
    rcases he with he | he <;> cases he
  · refine ⟨ht, ?_⟩
    have := meets_some (hn n h5) h7
    cases l with
    | nil => exact absurd rfl this
    | cons g l =>
      obtain ⟨k, q, d, u, k1, k2, k3, k4, k5⟩ := h8 g (by simp)
      have hg : g ∈ sigs := h6.subset (by simp)
      obtain ⟨k', m1, m2⟩ := h3.verified g hg
      rw [k1] at m1
      cases m1
      exact ⟨g, h3.attached.subset hg, k, ⟨digests, d, q, u, h4, List.mem_of_getElem? k3, k2, k4, k5⟩, m2⟩

/-- An event after the first that does not establish keys is an interaction. -/
theorem ValidLog.others {H : Hash} {C : Crypto} {chk : Bool} {fl : Str → Option Str} {pre : Str} {a q : List Entry} (h : ValidLog H C chk fl pre (a ++ q)) (ha : a ≠ [])
    (hq : ∀ x ∈ q, ¬ Establishes x.sad) : ∀ x ∈ q, HasText (str% "t") (str% "ixn") x.sad := by
  intro x hx
  obtain ⟨u, w, rfl⟩ := List.append_of_mem hx
  have h : ValidLog H C chk fl pre ((a ++ u) ++ x :: w) := by simpa using h
  obtain ⟨est, -, hal⟩ := ValidLog.allowed h (by simp [ha])
  rcases hal with ⟨ht, -⟩ | ⟨ht, -⟩
  · exact ht
  · exact absurd (.inr ht) (hq x hx)

/-- The latest establishment event is before what establishes nothing. -/
theorem latest_before {a u : List Entry} {est : Entry} (h : LatestEst (a ++ u) est) (hu : ∀ y ∈ u, ¬ Establishes y.sad) : est ∈ a := by
  have hm := latest_mem h
  obtain ⟨-, -, -, he, -⟩ := h
  rcases List.mem_append.mp hm with hm | hm
  · exact hm
  · exact absurd he (hu est hm)

theorem same_mem {p p' : List Entry} (f : List.Forall₂ SameEvent p p') {x : Entry} (hx : x ∈ p') : ∃ y ∈ p, SameEvent y x := by
  induction f with
  | nil => cases hx
  | cons h _ ih =>
    rcases List.mem_cons.mp hx with rfl | hx
    · exact ⟨_, by simp, h⟩
    · obtain ⟨y, h1, h2⟩ := ih hx
      exact ⟨y, by simp [h1], h2⟩

/-- C105: as long as of all rotations received those signed by a key that the controller's log committed to are rotations of that log, every verifier has an
initial part of that log, and after it interactions only. So whoever has the keys in force, but not those committed to, cannot put others in force.
Or digests collide. -/
theorem C105_prerotation (E : Env) (hH : HashOk E.H) (hist : List (Msg × Msg)) (st : Store) (h : Reach E hist st) (pre : Str) (hlen : (st.kels pre).length ≤ 2 ^ 32)
    (own : List Entry) (hown : ValidLog E.H E.C E.chk E.fl pre own) (hread : ∀ x ∈ own, ∃ r, Serder.newWithRaw E.fl r = .ok x.sad)
    (hfew : ∀ x ∈ own, ∀ t, Serder.ntholder E.chk E.fl x.sad = .ok (some t) → FewWeights t)
    (hsigns : RotatesOnly E own hist) (ho : ∀ x ∈ own, Ordinary x.sad)
    (ho' : ∀ payload g s, (Msg.payload payload, g) ∈ hist → Serder.newWithRaw E.fl (toUtf8 payload) = .ok s → Ordinary s) :
    ∃ log, List.Forall₂ (Stored E.fl hist) (st.kels pre) log ∧
      ((∃ p r p' q, own = p ++ r ∧ log = p' ++ q ∧ List.Forall₂ SameEvent p p' ∧ ∀ x ∈ q, HasText (str% "t") (str% "ixn") x.sad) ∨
        Collision E.H (str% "E") (LogText own) (LogText log)) := by
  obtain ⟨log, f, hv⟩ := C56_log E hH hist st h pre hlen
  refine ⟨log, f, ?_⟩
  rcases hv with rfl | hv
  · exact .inl ⟨[], own, [], [], rfl, rfl, .nil, (fun x hx => by cases hx)⟩
  have ord : ∀ x ∈ log, Ordinary x.sad := by
    intro x hx
    obtain ⟨text, -, payload, t, g, k1, k2, -⟩ := stored_of f x hx
    exact ho' payload _ _ k1 k2
  -- the first establishment event after a part that agrees is in the controller's log, at its place
  have key : ∀ (p p' r u w : List Entry) (x : Entry), own = p ++ r → log = p' ++ (u ++ x :: w) → p' ≠ [] → List.Forall₂ SameEvent p p' →
      (∀ y ∈ u, ¬ Establishes y.sad) → Establishes x.sad → ∃ y, own[p'.length + u.length]? = some y ∧ y.sad = x.sad := by
    intro p p' r u w x e1 e2 hp' f' hu hx
    have hv' : ValidLog E.H E.C E.chk E.fl pre ((p' ++ u) ++ x :: w) := by rw [List.append_assoc, ← e2]; exact hv
    obtain ⟨est', k1, k2⟩ := ValidLog.allowed hv' (by simp [hp'])
    have k3 := latest_before k1 hu
    obtain ⟨est, k4, k5⟩ := same_mem f' k3
    have hmem : est ∈ own := by rw [e1]; simp [k4]
    have k6 := allowed_same (ho est hmem) (ord est' (by rw [e2]; simp [k3])) k5 k2
    obtain ⟨ht, g, hg, k, hk, hvk⟩ := rotation_signed (hfew est hmem) k6 hx
    have hxm : x ∈ log := by rw [e2]; simp
    obtain ⟨text, -, payload, t, g', m1, m2, -⟩ := stored_of f x hxm
    obtain ⟨y, hy, hr⟩ := hsigns payload x.groups (.ok g') x.sad m1 m2 ht g hg est hmem k hk hvk
    obtain ⟨r', hr'⟩ := hread y hy
    have hs := read_same hr' m2 hr
    obtain ⟨i, hi⟩ := List.mem_iff_getElem?.mp hy
    have n1 := ValidLog.numbers hown i y hi
    have n2 := ValidLog.numbers hv' (p' ++ u).length x (by simp)
    rw [hs, n2] at n1
    cases n1
    rw [List.length_append] at hi
    exact ⟨y, hi, hs⟩
  rcases C104_fork E.H E.C E.chk E.fl pre own log hown hv (fun x hx => (List.mem_append.mp hx).elim (ho x) (ord x)) with
    ⟨r, p, hlog, f'⟩ | ⟨r, p, hl, f'⟩ | ⟨a, e, b, a', e', b', est, hl, hlog, f', hn, k1, k2, k3, k4⟩ | c
  · have hp : p ≠ [] := by
      rintro rfl
      cases f'
      generalize hl : ([] : List Entry) = l at hown
      cases hown <;> simp at hl
    refine .inl ⟨own, [], p, r, by simp, hlog, f', ?_⟩
    refine ValidLog.others (by rw [← hlog]; exact hv) hp ?_
    intro x hx hest
    obtain ⟨u, y, w, rfl, h1, h2⟩ := first_of (P := fun x : Entry => Establishes x.sad) r ⟨x, hx, hest⟩
    obtain ⟨z, hz, -⟩ := key own p [] u w y (by simp) hlog hp f' h2 h1
    rw [← f'.length_eq, List.getElem?_eq_none (by omega)] at hz
    cases hz
  · exact .inl ⟨p, r, log, [], hl, by simp, f', (fun x hx => by cases hx)⟩
  · by_cases hc : Collision E.H (str% "E") (LogText own) (LogText log)
    · exact .inr hc
    have ha' : a' ≠ [] := by
      rintro rfl
      cases f'
      have := latest_mem k1
      cases this
    refine .inl ⟨a, e :: b, a', e' :: b', hl, hlog, f', ?_⟩
    refine ValidLog.others (by rw [← hlog]; exact hv) ha' ?_
    intro x hx hest
    obtain ⟨u, y, w, hu, h1, h2⟩ := first_of (P := fun x : Entry => Establishes x.sad) (e' :: b') ⟨x, hx, hest⟩
    obtain ⟨z, hz, hs⟩ := key a a' (e :: b) u w y hl (by rw [hlog, hu]) ha' f' h2 h1
    cases u with
    | nil =>
      cases hu
      rw [hl, ← f'.length_eq] at hz
      simp at hz
      subst hz
      exact hn fun l _ _ => by rw [hs]
    | cons e₀ u =>
      obtain ⟨rfl, hb⟩ := List.cons.inj hu
      -- the event before it in both logs has the same SAID
      rcases List.eq_nil_or_concat' (a' ++ e' :: u) with h0 | ⟨past', prev', hpast'⟩
      · simp at h0
      have hl1 : log = past' ++ prev' :: y :: w := by
        have : log = (a' ++ e' :: u) ++ y :: w := by rw [hlog, hb]; simp
        rw [this, hpast']
        simp
      obtain ⟨q, q1, q2⟩ := ValidLog.chained (by rw [← hl1]; exact hv)
      have hlenp : past'.length + 1 = a'.length + (u.length + 1) := by
        have := congrArg List.length hpast'
        simpa using this.symm
      rw [List.length_cons, ← hlenp] at hz
      obtain ⟨hlt, hz'⟩ := List.getElem?_eq_some_iff.mp hz
      have hsplit : own = own.take past'.length ++ own[past'.length] :: z :: own.drop (past'.length + 2) := by
        rw [← hz', ← List.drop_eq_getElem_cons hlt, ← List.drop_eq_getElem_cons (by omega), List.take_append_drop]
      generalize hprev : own[past'.length] = prev at hsplit
      generalize own.drop (past'.length + 2) = rest at hsplit
      have hpl : (own.take past'.length).length = past'.length := by rw [List.length_take]; omega
      generalize own.take past'.length = past at hsplit hpl
      obtain ⟨q', q3, q4⟩ := ValidLog.chained (by rw [← hsplit]; exact hown)
      have : q' = q := by
        rw [hs] at q4
        unfold HasText at q2 q4
        rw [q2] at q4
        cases q4
        rfl
      subst this
      have hmo : ∀ v ∈ past ++ [prev], v ∈ own := by
        intro v hv
        rw [hsplit]
        simp only [List.mem_append, List.mem_cons, List.not_mem_nil, or_false] at hv ⊢
        tauto
      have hml : ∀ v ∈ past' ++ [prev'], v ∈ log := by
        intro v hv
        rw [hl1]
        simp only [List.mem_append, List.mem_cons, List.not_mem_nil, or_false] at hv ⊢
        tauto
      rcases C57_agree E.H E.C E.chk E.fl pre past (z :: rest) past' (y :: w) prev prev' (by rw [← hsplit]; exact hown) (by rw [← hl1]; exact hv)
        (fun v hv => (List.mem_append.mp hv).elim (fun h => ho v (hmo v h)) (fun h => ord v (hml v h))) q' q3 q1 with g | g
      · have i1 : (past ++ [prev])[a.length]? = some e := by
          have : own[a.length]? = some e := by rw [hl]; simp
          rw [hsplit] at this
          have hle : a.length < (past ++ [prev]).length := by
            rw [List.length_append, List.length_singleton, hpl, f'.length_eq]
            omega
          have e3 : past ++ prev :: z :: rest = (past ++ [prev]) ++ z :: rest := by simp
          rw [e3, List.getElem?_append_left hle] at this
          exact this
        have i2 : (past' ++ [prev'])[a.length]? = some e' := by
          rw [← hpast', f'.length_eq]
          simp
        obtain ⟨o, o1, o2⟩ := forall₂_get g i1
        rw [i2] at o1
        cases o1
        exact hn o2
      · exact hc (g.mono (fun t ⟨v, hv, ht⟩ => ⟨v, hmo v hv, ht⟩) (fun t ⟨v, hv, ht⟩ => ⟨v, hml v hv, ht⟩))
  · exact .inr c

/-- The controller rotates right after the inception. One who has the keys of the inception sends an interaction in place of the rotation. -/
def World.overtaken (pre : Str) (l : List Msg × List Msg) : Bool :=
  let own := l.1.take 2 ++ l.2
  let texts := (ingestLoop (World.env own) 5 none none Store.empty own []).1.kels pre
  let all := l.1 ++ l.2
  let kept := (ingestLoop (World.env all) 5 none none Store.empty all []).1.kels pre
  decide (l.1.length = 4) &&
  (match texts, kept with
    | [t, r], [t', i] => decide (t = t') && isType (str% "rot") r && isType (str% "ixn") i
    | _, _ => false) &&
  texts.all World.ordinaryText && texts.all World.counted &&
  (pairs all).all fun x =>
    match x.1 with
    | .payload p => World.ordinaryText p && (texts.any (World.sameRaw p) || isType (str% "ixn") p)
    | _ => true

/-- A verifier that is sent the interaction of one who has stolen the keys of the inception, and after it the rotation of the controller, keeps the interaction: the
hypotheses of `C105_prerotation` are met, and its conclusion cannot say that the verifier follows the controller. -/
theorem World.stolen : ∃ (hist : List (Msg × Msg)) (st : Store) (pre : Str) (own : List Entry), Reach (World.env []) hist st ∧ (st.kels pre).length = 2 ∧ own.length = 2 ∧
    (∃ t, (st.kels pre)[1]? = some t ∧ isType (str% "ixn") t = true) ∧ (∃ x, own[1]? = some x ∧ HasText (str% "t") (str% "rot") x.sad) ∧
    ValidLog World.hash World.crypto true (fun _ => none) pre own ∧ (∀ x ∈ own, ∃ payload text, (Msg.payload payload, Msg.group (.quadlets x.groups) text) ∈ hist ∧
      Serder.newWithRaw (fun _ => none) (toUtf8 payload) = .ok x.sad) ∧
    (∀ x ∈ own, ∀ t, Serder.ntholder true (fun _ => none) x.sad = .ok (some t) → FewWeights t) ∧
    RotatesOnly (World.env []) own hist ∧ (∀ x ∈ own, Ordinary x.sad) ∧
    ∀ payload g s, (Msg.payload payload, g) ∈ hist → Serder.newWithRaw (fun _ => none) (toUtf8 payload) = .ok s → Ordinary s := by
  have h : World.holds (World.icp >>= Serder.pre) (fun pre => World.holds World.rivals (World.overtaken pre)) = true := by decide +kernel
  obtain ⟨pre, -, h⟩ := World.holds_ok h
  obtain ⟨⟨l1, l2⟩, -, h⟩ := World.holds_ok h
  unfold World.overtaken at h
  dsimp only at h
  rw [Bool.and_eq_true, Bool.and_eq_true, Bool.and_eq_true, Bool.and_eq_true] at h
  obtain ⟨⟨⟨⟨h0, h1⟩, h3⟩, h4⟩, h5⟩ := h
  have h0 := of_decide_eq_true h0
  have r := World.reach_all (l1.take 2 ++ l2)
  have r' := World.reach_all (l1 ++ l2)
  generalize (ingestLoop (World.env (l1.take 2 ++ l2)) 5 none none Store.empty (l1.take 2 ++ l2) []).1 = st at h1 h3 h4 h5 r
  generalize (ingestLoop (World.env (l1 ++ l2)) 5 none none Store.empty (l1 ++ l2) []).1 = st' at h1 r'
  split at h1
  case h_2 => cases h1
  rename_i t0 t1 u0 u1 k1 k2
  rw [Bool.and_eq_true, Bool.and_eq_true] at h1
  obtain ⟨⟨-, h1⟩, h2⟩ := h1
  obtain ⟨own, f, v, o⟩ := World.valid_of r (by simp [k1]) (by simp [k1]) h3
  refine ⟨_, st', pre, own, r', by simp [k2], by rw [← f.length_eq, k1]; rfl, ⟨u1, by simp [k2], h2⟩, ?_, v, ?_, ?_, ?_, o, ?_⟩
  · rw [k1] at f
    obtain ⟨e, he, -, -, -, -, -, -, -, hr⟩ := forall₂_get f (i := 1) rfl
    obtain ⟨a, a1, a2⟩ := isType_ok h1
    rw [hr] at a1
    cases a1
    exact ⟨e, he, a2⟩
  · intro x hx
    obtain ⟨t, -, p, -, g, hm, hp, -⟩ := stored_of f x hx
    refine ⟨p, .ok g, ?_, hp⟩
    match l1, h0 with
    | [a, b, c, d], _ =>
      have hm : (Msg.payload p, Msg.group (.quadlets x.groups) (.ok g)) ∈ (a, b) :: pairs l2 := hm
      change _ ∈ (a, b) :: (c, d) :: pairs l2
      rcases List.mem_cons.mp hm with hm | hm
      · rw [hm]
        exact List.mem_cons_self
      · exact List.mem_cons_of_mem _ (List.mem_cons_of_mem _ hm)
  · intro x hx t ht
    obtain ⟨u, hu, -, -, -, -, -, -, -, hr⟩ := stored_of f x hx
    have := List.all_eq_true.mp h4 u hu
    unfold World.counted at this
    rw [hr] at this
    rw [Bool.and_eq_true] at this
    exact World.few_ok this.2 t ht
  · intro payload groups text s hm hs ht _ _ _ _ _ _ _
    have := List.all_eq_true.mp h5 _ hm
    dsimp only at this
    rw [Bool.and_eq_true, Bool.or_eq_true] at this
    have hs : Serder.newWithRaw (fun _ => none) (toUtf8 payload) = .ok s := hs
    rcases this.2 with this | this
    · rw [List.any_eq_true] at this
      obtain ⟨t, ht, hsame⟩ := this
      obtain ⟨i, hi⟩ := List.mem_iff_getElem?.mp ht
      obtain ⟨e, he, -, -, -, -, -, -, -, hr⟩ := forall₂_get f hi
      refine ⟨e, List.mem_of_getElem? he, ?_⟩
      unfold World.sameRaw at hsame
      rw [hs, hr] at hsame
      exact (of_decide_eq_true hsame).symm
    · exfalso
      obtain ⟨a, a1, a2⟩ := isType_ok this
      rw [hs] at a1
      cases a1
      unfold HasText at ht a2
      rw [a2] at ht
      cases ht
  · intro payload g s hm hs
    have := List.all_eq_true.mp h5 _ hm
    dsimp only at this
    rw [Bool.and_eq_true] at this
    have := this.1
    unfold World.ordinaryText at this
    rw [hs] at this
    exact World.ordinary_ok this

/-- Where the code departs from it: the controller's rotation does not end what one with the stolen keys began. A verifier that has received all of the controller's
log need not have its latest establishment event in force, although no other rotation was signed by keys committed to. -/
theorem C105_recovery_false : ¬ ∀ (hist : List (Msg × Msg)) (st : Store) (pre : Str) (own : List Entry) (est : Entry), Reach (World.env []) hist st →
    (st.kels pre).length ≤ 2 ^ 32 → ValidLog World.hash World.crypto true (fun _ => none) pre own →
    (∀ x ∈ own, ∃ payload text, (Msg.payload payload, Msg.group (.quadlets x.groups) text) ∈ hist ∧ Serder.newWithRaw (fun _ => none) (toUtf8 payload) = .ok x.sad) →
    RotatesOnly (World.env []) own hist → LatestEst own est →
    ∃ log est', List.Forall₂ (Stored (fun _ => none) hist) (st.kels pre) log ∧ LatestEst log est' ∧ SameEvent est est' := by
  intro all
  obtain ⟨hist, st, pre, own, r, h1, h2, ⟨t, h3, h4⟩, ⟨x, h5, h6⟩, h7, h8, -, h9, -⟩ := World.stolen
  have hl : LatestEst own x := by
    match own, h2, h5 with
    | [a, b], _, h5 =>
      cases h5
      exact ⟨[a], [], rfl, .inr h6, (fun z hz => by cases hz)⟩
  obtain ⟨log, est', f, ⟨a, b, e1, e2, e3⟩, hs⟩ := all hist st pre own x r (by omega) h7 h8 h9 hl
  obtain ⟨log', f', v⟩ := C56_log (World.env []) World.hash_ok hist st r pre (by omega)
  have hrot := (sameEvent_text hs (by decide) (by decide)).mp h6
  -- the second event of the verifier is the interaction and the first is an inception
  obtain ⟨y, hy, -, -, -, -, -, -, -, hr⟩ := forall₂_get f h3
  obtain ⟨z, z1, z2⟩ := isType_ok h4
  rw [hr] at z1
  cases z1
  have hlen : log.length = 2 := by rw [← f.length_eq, h1]
  have clash : ∀ {s : Sad} {p q : Str}, p ≠ q → HasText (str% "t") p s → HasText (str% "t") q s → False := by
    intro s p q hn hp hq
    unfold HasText at hp hq
    rw [hp] at hq
    cases hq
    exact hn rfl
  have he : log[0]? = some est' := by
    obtain ⟨i, hi⟩ := List.mem_iff_getElem?.mp (show est' ∈ log by rw [e1]; simp)
    have := (List.getElem?_eq_some_iff.mp hi).1
    match i, hi with
    | 0, hi => exact hi
    | 1, hi =>
      rw [hy] at hi
      cases hi
      exact (clash (by decide) hrot z2).elim
    | i + 2, _ => omega
  cases log' with
  | nil => exact absurd f'.length_eq (by rw [h1]; simp)
  | cons w log' =>
    have v := ValidLog.cut (a := []) (v.resolve_left (by simp)) rfl
    generalize hg : [] ++ [w] = l at v
    have hw : HasText (str% "t") (str% "icp") w.sad := by
      cases v with
      | incept y keys t sigs type => cases hg; exact type
      | rotate log y prev => exact absurd (congrArg List.length hg) (by cases ‹ValidLog _ _ _ _ _ log› <;> simp)
      | interact log y prev => exact absurd (congrArg List.length hg) (by cases ‹ValidLog _ _ _ _ _ log› <;> simp)
    have hk : ∃ u, (st.kels pre)[0]? = some u := ⟨_, List.getElem?_eq_getElem (by omega)⟩
    obtain ⟨u, hu⟩ := hk
    obtain ⟨y1, a1, -, -, -, -, -, -, -, a2⟩ := forall₂_get f hu
    obtain ⟨y2, b1, -, -, -, -, -, -, -, b2⟩ := forall₂_get f' hu
    rw [he] at a1
    cases a1
    cases b1
    have b2 : Serder.newWithRaw (fun _ => none) (toUtf8 u) = .ok w.sad := b2
    rw [a2] at b2
    rw [← Res.ok.inj b2] at hw
    exact clash (by decide) hrot hw

/-- C105: when no rotation that a verifier ever received is signed by a key that the establishment event in force at some place of its log committed to, it
has nothing after that place but interactions. -/
theorem C105_current (E : Env) (hH : HashOk E.H) (hist : List (Msg × Msg)) (st : Store) (h : Reach E hist st) (pre : Str) (hlen : (st.kels pre).length ≤ 2 ^ 32) :
    ∃ log, List.Forall₂ (Stored E.fl hist) (st.kels pre) log ∧ ∀ p r est, log = p ++ r → LatestEst p est →
      (∀ t, Serder.ntholder E.chk E.fl est.sad = .ok (some t) → FewWeights t) →
      (∀ payload groups text s, (Msg.payload payload, Msg.group (.quadlets groups) text) ∈ hist → Serder.newWithRaw E.fl (toUtf8 payload) = .ok s →
        HasText (str% "t") (str% "rot") s → ∀ g ∈ Spec.sigersOf groups, ∀ k, CommittedKey E.H E.chk est k → Verfer.verify E.C k g.i.raw s.raw ≠ .ok true) →
      ∀ x ∈ r, HasText (str% "t") (str% "ixn") x.sad := by
  obtain ⟨log, f, hv⟩ := C56_log E hH hist st h pre hlen
  refine ⟨log, f, ?_⟩
  rintro p r est rfl hest hfew hsigns
  have hp : p ≠ [] := by
    rintro rfl
    have := latest_mem hest
    cases this
  have hv := hv.resolve_left (by simp [hp])
  refine ValidLog.others hv hp ?_
  intro x hx hes
  obtain ⟨u, y, w, rfl, h1, h2⟩ := first_of (P := fun x : Entry => Establishes x.sad) r ⟨x, hx, hes⟩
  have hv' : ValidLog E.H E.C E.chk E.fl pre ((p ++ u) ++ y :: w) := by simpa using hv
  obtain ⟨est', k1, k2⟩ := ValidLog.allowed hv' (by simp [hp])
  have hl : LatestEst (p ++ u) est := by
    obtain ⟨a, b, e1, e2, e3⟩ := hest
    refine ⟨a, b ++ u, by rw [e1]; simp, e2, fun v hv => ?_⟩
    rcases List.mem_append.mp hv with hv | hv
    · exact e3 v hv
    · exact h2 v hv
  cases latest_unique hl k1
  obtain ⟨ht, g, hg, k, hck, hvk⟩ := rotation_signed hfew k2 h1
  obtain ⟨text, -, payload, t, g', m1, m2, -⟩ := stored_of f y (by simp)
  exact hsigns payload y.groups (.ok g') y.sad m1 m2 ht g hg k hck hvk

/-- The inception and the interaction, and a rotation without signatures. -/
def World.unsigned : Res (List Msg) := do
  let l ← World.rivals
  .ok (l.1 ++ l.2.take 1 ++ [.group (.quadlets []) (.ok [])])

/-- The inception comes first and no rotation has a signature. -/
def World.unturned (pre : Str) (l : List Msg) : Bool :=
  (match (ingestLoop (World.env l) 5 none none Store.empty l []).1.kels pre with
    | [t, u] => isType (str% "icp") t && World.counted t && isType (str% "ixn") u
    | _ => false) &&
  ((pairs l).any fun x => match x.1 with | .payload p => isType (str% "rot") p | _ => false) &&
  (pairs l).all fun x =>
    match x.1, x.2 with
    | .payload p, .group (.quadlets groups) _ => isType (str% "icp") p || isType (str% "ixn") p || (Spec.sigersOf groups).isEmpty
    | _, _ => true

/-- A verifier that was sent an inception, an interaction and a rotation without signatures: the hypotheses of `C105_current` are met at the inception. -/
example : ∃ (hist : List (Msg × Msg)) (st : Store) (pre : Str), Reach (World.env []) hist st ∧ (st.kels pre).length = 2 ∧
    (∃ payload g s, (Msg.payload payload, g) ∈ hist ∧ Serder.newWithRaw (fun _ => none) (toUtf8 payload) = .ok s ∧ HasText (str% "t") (str% "rot") s) ∧
    ∀ log, List.Forall₂ (Stored (fun _ => none) hist) (st.kels pre) log → ∃ est x, log = [est] ++ [x] ∧ LatestEst [est] est ∧
      (∀ t, Serder.ntholder true (fun _ => none) est.sad = .ok (some t) → FewWeights t) ∧
      ∀ payload groups text s, (Msg.payload payload, Msg.group (.quadlets groups) text) ∈ hist → Serder.newWithRaw (fun _ => none) (toUtf8 payload) = .ok s →
        HasText (str% "t") (str% "rot") s → ∀ g ∈ Spec.sigersOf groups, ∀ k, CommittedKey World.hash true est k → Verfer.verify World.crypto k g.i.raw s.raw ≠ .ok true := by
  have h : World.holds (World.icp >>= Serder.pre) (fun pre => World.holds World.unsigned (World.unturned pre)) = true := by decide +kernel
  obtain ⟨pre, -, h⟩ := World.holds_ok h
  obtain ⟨l, -, h⟩ := World.holds_ok h
  unfold World.unturned at h
  rw [Bool.and_eq_true, Bool.and_eq_true] at h
  obtain ⟨⟨h1, h2⟩, h3⟩ := h
  have r := World.reach_all l
  generalize (ingestLoop (World.env l) 5 none none Store.empty l []).1 = st at h1 r
  split at h1
  case h_2 => cases h1
  rename_i t u k1
  rw [Bool.and_eq_true, Bool.and_eq_true] at h1
  refine ⟨_, st, pre, r, by simp [k1], ?_, ?_⟩
  · rw [List.any_eq_true] at h2
    obtain ⟨⟨m, g⟩, hm, h2⟩ := h2
    cases m with
    | payload p =>
      obtain ⟨a, a1, a2⟩ := isType_ok h2
      exact ⟨p, g, a, hm, a1, a2⟩
    | group => cases h2
  · intro log f
    rw [k1] at f
    obtain ⟨est, l1, s1, f1, rfl⟩ := List.forall₂_cons_left_iff.mp f
    obtain ⟨x, l2, s2, f2, rfl⟩ := List.forall₂_cons_left_iff.mp f1
    cases f2
    obtain ⟨-, -, -, -, -, -, -, hr⟩ := s1
    refine ⟨est, x, rfl, ⟨[], [], rfl, ?_, (fun z hz => by cases hz)⟩, ?_, ?_⟩
    · obtain ⟨a, a1, a2⟩ := isType_ok h1.1.1
      rw [hr] at a1
      cases a1
      exact .inl a2
    · intro t ht
      have := h1.1.2
      unfold World.counted at this
      rw [hr] at this
      rw [Bool.and_eq_true] at this
      exact World.few_ok this.2 t ht
    · intro payload groups text s hm hs ht g hg
      exfalso
      have := List.all_eq_true.mp h3 _ hm
      dsimp only at this
      rw [Bool.or_eq_true, Bool.or_eq_true] at this
      have no : ∀ r, r ≠ str% "rot" → isType r payload = true → False := by
        intro r hr hi
        obtain ⟨a, a1, a2⟩ := isType_ok hi
        rw [hs] at a1
        cases a1
        unfold HasText at ht a2
        rw [a2] at ht
        cases ht
        exact hr rfl
      rcases this with (this | this) | this
      · exact no _ (by decide) this
      · exact no _ (by decide) this
      · rw [List.isEmpty_iff.mp this] at hg
        cases hg

end Keride.Props
