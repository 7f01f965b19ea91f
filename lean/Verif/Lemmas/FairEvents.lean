/-
Fair documents do not make the verification of key events and transaction events panic, with deep verification or without,
given enough stack.
-/
import Verif.Lemmas.Fair

namespace Keride

open Matter Spec Sample Saider

/-! ## What is left to verify -/

/-- The number of texts whose SAID is not in the set. -/
def left (f : Str → Option Str) (v l : List Str) : Nat := l.countP fun t => match f t with
  | some q => !v.contains q
  | none => false

theorem left_le (f : Str → Option Str) (v l : List Str) : left f v l ≤ l.length := List.countP_le_length

theorem left_mono {f : Str → Option Str} {v w l : List Str} (h : ∀ q ∈ v, q ∈ w) : left f w l ≤ left f v l := by
  refine List.countP_mono_left fun t _ ht => ?_
  cases hf : f t with
  | none => rw [hf] at ht; exact ht
  | some q =>
    simp only [hf, Bool.not_eq_true', List.contains_eq_mem, decide_eq_false_iff_not] at ht ⊢
    exact fun hm => ht (h q hm)

theorem left_cons {f : Str → Option Str} {v : List Str} {q : Str} (hv : v.contains q = false) {t : Str} (hf : f t = some q) : ∀ {l : List Str}, t ∈ l →
    left f (q :: v) l < left f v l
  | x :: l, hm => by
    unfold left
    rw [List.countP_cons, List.countP_cons]
    have hle : left f (q :: v) l ≤ left f v l := left_mono fun y hy => List.mem_cons_of_mem _ hy
    unfold left at hle
    by_cases hx : x = t
    · subst hx
      have e1 : (match f x with | some y => !(q :: v).contains y | none => false) = false := by simp [hf]
      have e2 : (match f x with | some y => !v.contains y | none => false) = true := by simp only [hf, hv]; rfl
      rw [if_neg (by rw [e1]; nofun), if_pos e2]
      omega
    · have ih := left_cons hv hf ((List.mem_cons.mp hm).resolve_left fun e => hx e.symm)
      unfold left at ih
      have : (if (match f x with | some y => !(q :: v).contains y | none => false) = true then 1 else 0) ≤
          (if (match f x with | some y => !v.contains y | none => false) = true then 1 else 0) := by
        cases f x with
        | none => simp
        | some y =>
          simp only [List.contains_cons, Bool.not_or, Bool.and_eq_true]
          split
          · rename_i h; rw [if_pos h.2]
          · omega
      omega

/-- The SAID of the event in a text. -/
def eventSaid (E : Env) (t : Str) : Option Str :=
  match (do
    let s ← Serder.newWithRaw E.fl (toUtf8 t)
    Sadder.said E.chk s : Res Str) with
  | .ok q => some q
  | _ => none

theorem eventSaid_of {E : Env} {t : Str} {s : Sad} {q : Str} (h1 : Serder.newWithRaw E.fl (toUtf8 t) = .ok s) (h2 : Sadder.said E.chk s = .ok q) :
    eventSaid E t = some q := by
  unfold eventSaid
  rw [h1, Res.ok_bind, h2]

section

variable {S : Scene} {E : Env} {s : Sad}

/-! ## Attachments -/

theorem attached_fair {text part rest : Str} (ht : text = part ++ rest) (hr : s.raw = toUtf8 part) (h : FairAttached E S rest) :
    attached E text s ≠ .panic ∧ ∀ g, attached E text s = .ok g → FairGroup E.chk S g := by
  obtain ⟨h1, h2⟩ := h
  have e : Str.sliceFrom text s.raw.length = .ok rest := by rw [ht, hr, toUtf8_length, sliceFrom_len]
  unfold attached
  rw [e, Res.ok_bind]
  cases hp : E.parse (toUtf8 rest) with
  | panic => exact absurd hp h1
  | err x => exact ⟨nofun, nofun⟩
  | ok msgs =>
    obtain ⟨m, ms, rfl, hg⟩ := h2 msgs hp
    cases m with
    | payload p => exact ⟨nofun, nofun⟩
    | group g t =>
      refine ⟨nofun, fun x hx => ?_⟩
      cases hx
      exact hg g t rfl

theorem attachedQuadlets_fair {text part rest : Str} (ht : text = part ++ rest) (hr : s.raw = toUtf8 part) (h : FairAttached E S rest) :
    attachedQuadlets E text s ≠ .panic ∧ ∀ l, attachedQuadlets E text s = .ok l → FairGroup E.chk S (.quadlets l) := by
  obtain ⟨h1, h2⟩ := attached_fair ht hr h
  unfold attachedQuadlets
  constructor
  · refine Res.calm h1 fun g _ => ?_
    cases g <;> nofun
  · intro l hl
    obtain ⟨g, hg, hl⟩ := Res.bind_eq_ok.mp hl
    cases g <;> cases hl
    exact h2 _ hg

theorem attachedCouples_fair {text part rest : Str} (ht : text = part ++ rest) (hr : s.raw = toUtf8 part) (h : FairAttached E S rest) :
    attachedCouples E text s ≠ .panic ∧ ∀ l, attachedCouples E text s = .ok l → FairGroup E.chk S (.couples l) := by
  obtain ⟨h1, h2⟩ := attached_fair ht hr h
  unfold attachedCouples
  constructor
  · refine Res.calm h1 fun g _ => ?_
    cases g <;> nofun
  · intro l hl
    obtain ⟨g, hg, hl⟩ := Res.bind_eq_ok.mp hl
    cases g <;> cases hl
    exact h2 _ hg

/-! ## Key events -/

theorem place_sn {st : Store} {m : M} {pre : Str} {sn : Nat} {ilk said : Str} {b : Bool} (h : place E st s m pre sn ilk said = .ok b) (hi : ilk ≠ str% "icp") : 1 ≤ sn := by
  unfold place at h
  dsimp only at h
  rw [if_neg hi] at h
  obtain ⟨g, -, h⟩ := Res.bind_eq_ok.mp h
  split at h
  · cases h
  · split at h
    · cases h
    · omega

theorem checkKeyEvent_calm {st : Store} {raw : Bytes} (hC : ∀ c pk sig ser, E.C.verify c pk sig ser ≠ .panic)
    (hs : FairStore E S st) (hr : Serder.newWithRaw E.fl raw = .ok s) (h : FairDoc E.chk S s.ked) {l : List SigGroup}
    (hl : FairGroup E.chk S (.quadlets l)) : checkKeyEvent E st s l ≠ .panic := by
  unfold checkKeyEvent
  refine Res.calm (pre_calm h) fun pre hpre => ?_
  have htame : Tame pre := h.tame (str% "i") (by simp) pre ((Props.C55_pre s pre).mp hpre)
  rw [prefixer_new]
  refine Res.calm (tame_calm htame) fun m hm => Res.calm (sn_calm h) fun sn hsn => Res.calm (index_calm (h.there _ (by simp))) fun t ht =>
    Res.calm (toStr_calm t) fun ilk hilk => Res.calm (said_calm hr h _) fun said _ => Res.calm (place_calm hr h (tame_wf htame hm) _ _ _ _) fun ex hex => ?_
  have hlt : E.chk = true → sn < 2 ^ 32 := fun hc => sn_short h hc hsn
  have h0 : Serder.est s = .ok true ∨ 1 ≤ sn := by
    by_cases hi : ilk = str% "icp"
    · refine .inl ((Props.C55_est s true).mpr ⟨ilk, index_text ht hilk, ?_⟩)
      rw [hi]
      decide
    · exact .inr (place_sn hex hi)
  obtain ⟨h1, h2⟩ := keysInForce_calm hs h pre h0 hlt
  refine Res.calm h1 fun keys hkeys => ?_
  obtain ⟨hfit, hN⟩ := h2 keys hkeys
  obtain ⟨h3, h4⟩ := verifyGroups_calm hC (ks := keys.1) (ser := s.raw) (l := l) (fun sigs hm x hx e => hl.1 sigs hm x hx (by rw [e]; exact hN))
  refine Res.calm h3 fun v hv => ?_
  have hv4 := h4 v hv
  refine Res.calm (hfit.sat _ ?_) fun g _ => ?_
  · intro i hi
    obtain ⟨p, hp, rfl⟩ := List.mem_map.mp hi
    exact hv4 p hp
  · split
    · nofun
    · refine Res.calm ?_ fun labels hlab => ?_
      · unfold labelsOf
        split
        · nofun
        · split
          · nofun
          · split <;> nofun
      · unfold verifyKedLabels
        refine Res.calm (Res.calm (toMap_calm _) fun _ _ => nofun) fun has hhas => ?_
        obtain ⟨map, hmap, hhas⟩ := Res.bind_eq_ok.mp hhas
        have ho : s.ked = .obj map := by cases hs : s.ked <;> rw [hs] at hmap <;> cases hmap; rfl
        split
        · nofun
        · split
          · nofun
          · rename_i hb hne
            refine Res.calm (checkPrior_calm hs h ?_ pre (place_sn hex hne) hlt hfit.wf hv4) fun _ _ => nofun
            have hall := Res.ok.inj hhas
            have hb' : has = true := by simpa using hb
            rw [hb'] at hall
            rw [ho]
            apply field_of_hasKey
            refine List.all_eq_true.mp hall (str% "p") ?_
            unfold labelsOf at hlab
            rw [if_neg hne] at hlab
            split at hlab
            · cases hlab; decide
            · split at hlab
              · cases hlab; decide
              · cases hlab

/-- The event before is stored for the identifier of the event. -/
theorem checkKeyEvent_before {st : Store} {l : List SigGroup} {c : Checked} (h : checkKeyEvent E st s l = .ok c) :
    Serder.pre s = .ok c.pre ∧ ∀ event p, c.prior = some (event, p) → event ∈ st.kels c.pre ∧ Serder.newWithRaw E.fl (toUtf8 event) = .ok p := by
  unfold checkKeyEvent at h
  obtain ⟨pre, hpre, h⟩ := Res.bind_eq_ok.mp h
  obtain ⟨_, -, h⟩ := Res.bind_eq_ok.mp h
  obtain ⟨sn, -, h⟩ := Res.bind_eq_ok.mp h
  obtain ⟨_, -, h⟩ := Res.bind_eq_ok.mp h
  obtain ⟨ilk, -, h⟩ := Res.bind_eq_ok.mp h
  obtain ⟨_, -, h⟩ := Res.bind_eq_ok.mp h
  obtain ⟨_, -, h⟩ := Res.bind_eq_ok.mp h
  obtain ⟨_, -, h⟩ := Res.bind_eq_ok.mp h
  obtain ⟨_, -, h⟩ := Res.bind_eq_ok.mp h
  obtain ⟨_, -, h⟩ := Res.bind_eq_ok.mp h
  split at h
  · cases h
  obtain ⟨_, -, h⟩ := Res.bind_eq_ok.mp h
  obtain ⟨_, -, h⟩ := Res.bind_eq_ok.mp h
  split at h
  · cases h
  split at h
  · cases h
    exact ⟨hpre, nofun⟩
  · obtain ⟨p, hp, h⟩ := Res.bind_eq_ok.mp h
    cases h
    refine ⟨hpre, fun event q e => ?_⟩
    cases e
    unfold checkPrior at hp
    obtain ⟨i, -, hp⟩ := Res.bind_eq_ok.mp hp
    obtain ⟨ev, hev, hp⟩ := Res.bind_eq_ok.mp hp
    obtain ⟨ps, hps, hp⟩ := Res.bind_eq_ok.mp hp
    obtain ⟨_, -, hp⟩ := Res.bind_eq_ok.mp hp
    obtain ⟨_, -, hp⟩ := Res.bind_eq_ok.mp hp
    obtain ⟨_, -, hp⟩ := Res.bind_eq_ok.mp hp
    have key : (ev, ps) = (event, q) := by
      split at hp
      · cases hp
      obtain ⟨_, -, hp⟩ := Res.bind_eq_ok.mp hp
      split at hp
      · obtain ⟨_, -, hp⟩ := Res.bind_eq_ok.mp hp
        obtain ⟨_, -, hp⟩ := Res.bind_eq_ok.mp hp
        obtain ⟨_, -, hp⟩ := Res.bind_eq_ok.mp hp
        obtain ⟨_, -, hp⟩ := Res.bind_eq_ok.mp hp
        split at hp
        · cases hp
        · exact Res.ok.inj hp
      · exact Res.ok.inj hp
    cases key
    exact ⟨getKeyEvent_mem hev, hps⟩

theorem confirm_calm {st : Store} (hs : FairStore E S st) (c : Checked) : confirm E st c ≠ .panic := by
  unfold confirm
  split
  · refine Res.calm Res.ofOption_ne_panic fun event hev => ?_
    obtain ⟨ps, -, -, -, hr, -, hf, -⟩ := hs.kels _ event (getKeyEvent_mem hev)
    rw [hr, Res.ok_bind]
    refine Res.calm (said_calm hr hf _) fun q _ => ?_
    split <;> nofun
  · nofun

theorem verifyKeyEvent_calm {st : Store} (hC : ∀ c pk sig ser, E.C.verify c pk sig ser ≠ .panic) (hs : FairStore E S st) (deep : Option Bool) :
    ∀ (fuel : Nat) {s : Sad} {raw : Bytes} {pre : Str} {l : List SigGroup} {v : List Str}, Serder.newWithRaw E.fl raw = .ok s → FairDoc E.chk S s.ked →
      Serder.pre s = .ok pre → FairGroup E.chk S (.quadlets l) → left (eventSaid E) v (st.kels pre) < fuel → verifyKeyEvent E st deep fuel s l v ≠ .panic := by
  intro fuel
  induction fuel with
  | zero => intro s raw pre l v _ _ _ _ h; omega
  | succ fuel ih =>
    intro s raw pre l v hr h hpre hl hfuel
    rw [verifyKeyEvent]
    refine Res.calm (checkKeyEvent_calm hC hs hr h hl) fun c hc => Res.calm ?_ fun _ _ => Res.calm (confirm_calm hs c) fun _ _ => nofun
    obtain ⟨h1, h2⟩ := checkKeyEvent_before hc
    rw [hpre] at h1
    cases h1
    cases hp : c.prior with
    | none => nofun
    | some x =>
      obtain ⟨event, p⟩ := x
      obtain ⟨hm, hread⟩ := h2 event p hp
      obtain ⟨p', part, rest, htext, hread', hraw, hf, -, hi, hatt⟩ := hs.kels _ event hm
      rw [hread] at hread'
      cases hread'
      dsimp only
      split
      · refine Res.calm (said_calm hread hf _) fun q hq => ?_
        split
        · nofun
        · rename_i hv
          obtain ⟨ha, hb⟩ := attachedQuadlets_fair htext hraw hatt
          refine Res.calm ha fun g hg => Res.calm ?_ fun _ _ => nofun
          refine ih hread hf ((Props.C55_pre p _).mpr hi) (hb g hg) ?_
          have := left_cons (l := st.kels c.pre) (Bool.eq_false_iff.mpr hv) (eventSaid_of hread hq) hm
          omega
      · nofun

/-! ## Transaction events -/

theorem onlySeal_calm (h : FairDoc E.chk S s.ked) (hk : HasType keyTypes s.ked) : onlySeal s ≠ .panic := by
  obtain ⟨h1, h2⟩ := h.anchor hk
  unfold onlySeal
  refine Res.calm (index_calm h1) fun a ha => Res.calm (toVec_calm a) fun l hl => ?_
  split
  · nofun
  · rename_i hlen
    have hone : ∃ x, l = [x] := List.length_eq_one_iff.mp (not_ne_iff.mp hlen)
    obtain ⟨x, rfl⟩ := hone
    have hf : field (str% "a") s.ked = some (.arr [x]) := by
      cases a <;> cases hl
      cases hs : s.ked with
      | obj o => rw [hs] at ha; rw [field_find]; exact index_ok ha
      | _ => rw [hs] at h1; exact absurd rfl h1
    have hx := h2 x hf
    refine Res.calm (x := Res.orPanic (some x)) nofun fun y hy => ?_
    cases hy
    exact Res.calm (index_calm (hx _ (by simp))) fun i _ => Res.calm (toStr_calm i) fun _ _ => Res.calm (index_calm (hx _ (by simp))) fun n _ =>
      Res.calm (toStr_calm n) fun _ _ => Res.calm (index_calm (hx _ (by simp))) fun d _ => Res.calm (toStr_calm d) fun _ _ => nofun

theorem verifyAnchor_calm {st : Store} {raw : Bytes} (hC : ∀ c pk sig ser, E.C.verify c pk sig ser ≠ .panic) (hs : FairStore E S st)
    (hr : Serder.newWithRaw E.fl raw = .ok s) (h : FairDoc E.chk S s.ked) (deep : Option Bool) {b fuel : Nat} (hb : ∀ pre, (st.kels pre).length ≤ b) (hfuel : b < fuel)
    (apre : Str) {c : M × M} (h1 : Seqner.sn c.1 ≠ .panic) (h2 : qb64 E.chk c.2 ≠ .panic) (v : List Str) : verifyAnchor E st deep fuel apre c.1 c.2 s v ≠ .panic := by
  unfold verifyAnchor
  refine Res.calm h1 fun n _ => Res.calm Res.ofOption_ne_panic fun event hev => ?_
  obtain ⟨a, part, rest, htext, ha, hraw, hf, hk, hi, hatt⟩ := hs.kels _ event (getKeyEvent_mem hev)
  rw [ha, Res.ok_bind]
  refine Res.calm (said_calm ha hf _) fun asaid _ => Res.calm h2 fun q _ => ?_
  split
  · nofun
  · refine Res.calm (onlySeal_calm hf hk) fun sl _ => ?_
    cases sl with
    | none => nofun
    | some x =>
      obtain ⟨spre, ssn, sdig⟩ := x
      dsimp only
      refine Res.calm ?_ fun v' _ => Res.calm (index_calm (h.there _ (by simp))) fun x _ => Res.calm (toStr_calm x) fun _ _ => ?_
      · split
        · split
          · nofun
          · obtain ⟨hq1, hq2⟩ := attachedQuadlets_fair htext hraw hatt
            refine Res.calm hq1 fun g hg => Res.calm ?_ fun _ _ => nofun
            refine verifyKeyEvent_calm hC hs deep fuel ha hf ((Props.C55_pre a _).mpr hi) (hq2 g hg) ?_
            exact Nat.lt_of_le_of_lt (left_le _ _ _) (Nat.lt_of_le_of_lt (hb _) hfuel)
        · nofun
      · split
        · nofun
        · refine Res.calm (pre_calm h) fun p _ => ?_
          split
          · nofun
          · exact Res.calm (said_calm hr h _) fun _ _ => nofun

theorem registryOf_calm (h : FairDoc E.chk S s.ked) {ilk : Str} (ht : field (str% "t") s.ked = some (.str ilk)) : registryOf ilk s ≠ .panic := by
  unfold registryOf
  split
  · exact pre_calm h
  · split
    · rename_i hi
      refine Res.calm (index_calm (h.registry ⟨ilk, ?_, ht⟩).1) fun v _ => toStr_calm v
      rcases hi with rfl | rfl <;> simp
    · nofun

theorem anchorOf_calm {st : Store} {raw : Bytes} {m : M} (hs : FairStore E S st) (hr : Serder.newWithRaw E.fl raw = .ok s) (h : FairDoc E.chk S s.ked)
    (hw : ∃ z, Wf m z) {ilk ri : Str} (ht : field (str% "t") s.ked = some (.str ilk)) (hri : registryOf ilk s = .ok ri) :
    anchorOf E st s m ilk ri ≠ .panic := by
  have ho : ∃ o, s.ked = .obj o := by
    have := h.there (str% "d") (by simp)
    cases hk : s.ked with
    | obj o => exact ⟨o, rfl⟩
    | _ => rw [hk] at this; exact absurd rfl this
  obtain ⟨o, ho⟩ := ho
  unfold anchorOf
  split
  · rename_i hi
    rw [ho]
    refine Res.calm (prefixer_verify_calm hw (by rw [← ho]; exact h.there _ (by simp))) fun g _ => ?_
    split
    · nofun
    · rw [← ho]
      exact Res.calm (index_calm (h.issuer ⟨ilk, by simp [hi], ht⟩).1) fun v _ => toStr_calm v
  · rename_i hne
    split
    · rename_i hi
      obtain ⟨h1, h2⟩ := saidOf_wf hr h
      rw [ho]
      refine Res.calm (saider_verify_calm h1 (by rw [h2]; decide) none) fun g _ => ?_
      split
      · nofun
      · refine Res.calm Res.ofOption_ne_panic fun event hev => ?_
        obtain ⟨a, -, -, -, ha, -, hf, hk, hp, -⟩ := hs.tels _ event (getTransactionEvent_mem hev)
        rw [ha, Res.ok_bind]
        have hR : S.registry ri := by
          refine (h.registry ⟨ilk, by simpa using hi, ht⟩).2.1 ri ?_
          unfold registryOf at hri
          rw [if_neg hne, if_pos hi] at hri
          obtain ⟨v, hv, hri⟩ := Res.bind_eq_ok.mp hri
          exact index_text hv hri
        have hvcp : HasType [str% "vcp"] a.ked := by
          obtain ⟨t, htt, e⟩ := hk
          simp only [telTypes, List.mem_cons, List.not_mem_nil, or_false] at htt
          rcases htt with rfl | htt
          · exact ⟨_, by simp, e⟩
          · exact absurd hR ((hf.registry ⟨t, by simpa using htt, e⟩).2.2.1 ri hp)
        exact Res.calm (index_calm (hf.issuer hvcp).1) fun v _ => toStr_calm v
    · nofun

theorem verifyTel_calm {st : Store} (hC : ∀ c pk sig ser, E.C.verify c pk sig ser ≠ .panic) (hs : FairStore E S st) (deep : Option Bool) {b : Nat}
    (hb : ∀ pre, (st.kels pre).length ≤ b) : ∀ (fuel : Nat) {s : Sad} {raw : Bytes} {pre : Str} {l : List (M × M)} {v : List Str},
      Serder.newWithRaw E.fl raw = .ok s → FairDoc E.chk S s.ked → Serder.pre s = .ok pre → FairGroup E.chk S (.couples l) →
      left (eventSaid E) v (st.tels pre) + b + 1 < fuel → verifyTransactionEvent E st deep fuel s l v ≠ .panic := by
  intro fuel
  induction fuel with
  | zero => intro s raw pre l v _ _ _ _ h; omega
  | succ fuel ih =>
  intro s raw pre₀ l v hr h hpre₀ hl hfuel
  rw [verifyTransactionEvent]
  refine Res.calm (pre_calm h) fun pre hpre => ?_
  have hpp : pre₀ = pre := by rw [hpre₀] at hpre; exact Res.ok.inj hpre
  subst hpp
  have htame : Tame pre₀ := h.tame (str% "i") (by simp) pre₀ ((Props.C55_pre s pre₀).mp hpre)
  rw [prefixer_new]
  refine Res.calm (tame_calm htame) fun m hm => Res.calm (sn_calm h) fun sn hsn => Res.calm (index_calm (h.there _ (by simp))) fun t ht =>
    Res.calm (toStr_calm t) fun ilk hilk => Res.calm (said_calm hr h _) fun said _ => ?_
  have hft := index_text ht hilk
  refine Res.calm (registryOf_calm h hft) fun ri hri => ?_
  split
  · nofun
  · rename_i hlen
    obtain ⟨c, rfl⟩ := List.length_eq_one_iff.mp (not_ne_iff.mp hlen)
    refine Res.calm (x := Res.orPanic (some c)) nofun fun c' hc' => ?_
    cases hc'
    obtain ⟨hc1, hc2⟩ := hl c (by simp)
    refine Res.calm ?_ fun labels hlab => ?_
    · unfold telLabels
      split
      · nofun
      · split
        · nofun
        · split <;> nofun
    · unfold verifyKedLabels
      refine Res.calm (Res.calm (toMap_calm _) fun _ _ => nofun) fun has hhas => ?_
      obtain ⟨map, hmap, hhas⟩ := Res.bind_eq_ok.mp hhas
      have ho : s.ked = .obj map := by cases hs : s.ked <;> rw [hs] at hmap <;> cases hmap; rfl
      split
      · nofun
      · rename_i hbh
        dsimp only
        refine Res.calm (anchorOf_calm hs hr h (tame_wf htame hm) hft hri) fun apre _ =>
          Res.calm (verifyAnchor_calm hC hs hr h deep hb (by omega) apre hc1 hc2 v) fun a ha => ?_
        split
        · nofun
        · refine Res.calm ?_ fun r _ => ?_
          · split
            · split <;> nofun
            · rename_i hnv
              split
              · nofun
              · rename_i hone
                split
                · nofun
                · refine Res.calm (subU32_calm (by omega) fun hc => sn_short h hc hsn) fun i _ => Res.calm Res.ofOption_ne_panic fun event hev => ?_
                  obtain ⟨p, part, rest, htext, hp, hraw, hpf, -, hpi, hatt⟩ := hs.tels _ event (getTransactionEvent_mem hev)
                  rw [hp, Res.ok_bind]
                  have hilk3 : ilk = str% "rev" ∧ labels = revLabels := by
                    unfold telLabels at hlab
                    rw [if_neg (fun e => hnv (.inl e)), if_neg (fun e => hnv (.inr e))] at hlab
                    split at hlab
                    · rename_i e
                      exact ⟨e, (Res.ok.inj hlab).symm⟩
                    · cases hlab
                  refine Res.calm (said_calm hp hpf _) fun psaid hps => Res.calm ?_ fun v' _ => Res.calm (index_calm ?_) fun x _ =>
                    Res.calm (toStr_calm x) fun q _ => ?_
                  · split
                    · split
                      · nofun
                      · rename_i hv
                        obtain ⟨hq1, hq2⟩ := attachedCouples_fair htext hraw hatt
                        refine Res.calm hq1 fun g hg => Res.calm ?_ fun _ _ => nofun
                        refine ih hp hpf ((Props.C55_pre p _).mpr hpi) (hq2 g hg) ?_
                        have h5 := left_cons (l := st.tels pre₀) (Bool.eq_false_iff.mpr hv) (eventSaid_of hp hps) (getTransactionEvent_mem hev)
                        have h6 := left_mono (f := eventSaid E) (l := st.tels pre₀) (verifyAnchor_events ha).1
                        omega
                    · nofun
                  · have hall := Res.ok.inj hhas
                    have hb' : has = true := by simpa using hbh
                    rw [hb', hilk3.2] at hall
                    rw [ho]
                    exact field_of_hasKey (List.all_eq_true.mp hall (str% "p") (by decide))
                  · split <;> nofun
          · split
            · refine Res.calm Res.ofOption_ne_panic fun event hev => ?_
              obtain ⟨p, -, -, -, hp, -, hpf, -⟩ := hs.tels _ event (getTransactionEvent_mem hev)
              rw [hp, Res.ok_bind]
              refine Res.calm (said_calm hp hpf _) fun q _ => ?_
              split <;> nofun
            · nofun

end

end Keride
