/-
Fair streams do not make a verifier panic, given enough stack.
-/
import Verif.Lemmas.FairCred

namespace Keride

open Matter Spec Sample Saider

section

variable {S : Scene} {E : Env} {s : Sad}

/-! ## Streams -/

theorem storedText_calm {raw : Bytes} {g : Res Str} (h : g ≠ .panic) : storedText raw g ≠ .panic := by
  unfold storedText
  exact Res.calm (fromUtf8_ne_panic _) fun _ _ => Res.calm h fun _ _ => nofun

theorem storedText_parts {raw : Bytes} {g : Res Str} {text t : Str} (h : storedText raw g = .ok text) (ht : fromUtf8 raw = .ok t) : ∃ gt, g = .ok gt ∧ text = t ++ gt := by
  unfold storedText at h
  rw [ht, Res.ok_bind] at h
  obtain ⟨gt, hg, h⟩ := Res.bind_eq_ok.mp h
  cases h
  exact ⟨gt, hg, rfl⟩

theorem storedText_fair {raw : Bytes} {g : Res Str} {text pre : Str} {types : List Str} (hr : Serder.newWithRaw E.fl raw = .ok s) (h : FairDoc E.chk S s.ked)
    (ht : HasType types s.ked) (hp : Serder.pre s = .ok pre) (hg : ∀ t, g = .ok t → FairAttached E S t) (hst : storedText s.raw g = .ok text) :
    FairEvent E S types pre text := by
  obtain ⟨t, h1, h2, -, -⟩ := serder_again hr []
  obtain ⟨gt, hgt, rfl⟩ := storedText_parts hst h2
  obtain ⟨t', h3, -, -, h4⟩ := serder_again hr gt
  have e : t' = t := toUtf8_inj (by rw [← h1, ← h3])
  subst e
  exact ⟨s, t', gt, rfl, h4, h3, h, ht, (Props.C55_pre s pre).mp hp, hg gt hgt⟩

theorem storedText_cred {raw : Bytes} {g : Res Str} {text : Str} (hr : Creder.newWithRaw E.fl raw = .ok s) (h : FairCred E S s)
    (hg : ∀ t, g = .ok t → FairAttached E S t) (hst : storedText s.raw g = .ok text) : FairStored E S text := by
  obtain ⟨t, h1, h2, -, -⟩ := creder_again hr []
  obtain ⟨gt, hgt, rfl⟩ := storedText_parts hst h2
  obtain ⟨t', h3, -, -, h4⟩ := creder_again hr gt
  have e : t' = t := toUtf8_inj (by rw [← h1, ← h3])
  subst e
  exact ⟨s, t', gt, rfl, h4, h3, h, hg gt hgt⟩

theorem fairEvents_append {P : Str → Str → Prop} {logs : Str → List Str} {pre text : Str} (h : ∀ p, ∀ t ∈ logs p, P p t) (ht : P pre text) :
    ∀ p, ∀ t ∈ append logs pre text p, P p t := by
  intro p y hy
  unfold append at hy
  split at hy
  · rename_i e
    rcases List.mem_append.mp hy with hy | hy
    · exact h p y hy
    · rw [List.mem_singleton.mp hy, e]
      exact ht
  · exact h p y hy

/-- Enough stack for logs and credentials of a size. -/
def depth (S : Scene) (b : Nat) : Nat := (b + 1) * (S.branches + 2) + (b + b + 2)

theorem depth_mono {a b : Nat} (h : a ≤ b) : depth S a ≤ depth S b := by
  have := Nat.mul_le_mul_right (S.branches + 2) (Nat.add_le_add_right h 1)
  unfold depth
  omega

theorem _root_.Keride.Spec.Sized.mono {st : Store} {a b : Nat} (h : Sized a st) (hab : a ≤ b) : Sized b st :=
  ⟨fun pre => ⟨Nat.le_trans (h.1 pre).1 hab, Nat.le_trans (h.1 pre).2 hab⟩, Nat.le_trans h.2 hab⟩

theorem append_grows (logs : Str → List Str) (pre text p : Str) : (append logs pre text p).length ≤ (logs p).length + 1 := by
  unfold append
  split
  · simp
  · omega

theorem perform_sized {st : Store} {b : Nat} (h : Sized b st) (a : Action) : Sized (b + 1) (perform E st a).1 := by
  have h' := h.mono (Nat.le_succ b)
  obtain ⟨h1, h2⟩ := h
  cases a with
  | nothing => exact h'
  | keyEvent pre text =>
    dsimp only [perform, tryInsert]
    split
    · exact h'
    · exact ⟨fun p => ⟨Nat.le_trans (append_grows _ _ _ _) (Nat.succ_le_succ (h1 p).1), Nat.le_succ_of_le (h1 p).2⟩, Nat.le_succ_of_le h2⟩
  | transactionEvent pre text =>
    dsimp only [perform, tryInsert]
    split
    · exact h'
    · exact ⟨fun p => ⟨Nat.le_succ_of_le (h1 p).1, Nat.le_trans (append_grows _ _ _ _) (Nat.succ_le_succ (h1 p).2)⟩, Nat.le_succ_of_le h2⟩
  | acdc text =>
    dsimp only [perform, tryInsert]
    split
    · exact h'
    · refine ⟨fun p => ⟨Nat.le_succ_of_le (h1 p).1, Nat.le_succ_of_le (h1 p).2⟩, ?_⟩
      change (st.acdcs ++ [text]).length ≤ b + 1
      simp
      omega

/-- The text of a fair group. -/
theorem fairMsg_attached {m : Msg} (h : FairMsg E S m) {g : Group × Res Str} (hg : m.cesrGroup = .ok g) : ∀ t, g.2 = .ok t → FairAttached E S t := by
  cases m with
  | payload t => cases hg
  | group a b =>
    cases hg
    exact h.2.2

theorem keyEvent_calm {st : Store} (hC : ∀ c pk sig ser, E.C.verify c pk sig ser ≠ .panic) (hs : FairStore E S st) {b : Nat} (hb : Sized b st) (deep : Option Bool)
    {fuel : Nat} (hfuel : b < fuel) {raw : Bytes} (hr : Serder.newWithRaw E.fl raw = .ok s) (hf : FairDoc E.chk S s.ked) {l : List SigGroup}
    (hl : FairGroup E.chk S (.quadlets l)) (v : List Str) : verifyKeyEvent E st deep fuel s l v ≠ .panic := by
  cases hp : Serder.pre s with
  | ok pre => exact verifyKeyEvent_calm hC hs deep fuel hr hf hp hl (Nat.lt_of_le_of_lt (left_le _ _ _) (Nat.lt_of_le_of_lt (hb.1 _).1 hfuel))
  | panic => exact absurd hp (pre_calm hf)
  | err e =>
    cases fuel with
    | zero => omega
    | succ fuel =>
      rw [verifyKeyEvent]
      refine Res.calm (checkKeyEvent_calm hC hs hr hf hl) fun c hc => ?_
      have h1 := (checkKeyEvent_before hc).1
      rw [hp] at h1
      cases h1

theorem telEvent_calm {st : Store} (hC : ∀ c pk sig ser, E.C.verify c pk sig ser ≠ .panic) (hs : FairStore E S st) {b : Nat} (hb : Sized b st) (deep : Option Bool)
    {fuel : Nat} (hfuel : b + b + 1 < fuel) {raw : Bytes} (hr : Serder.newWithRaw E.fl raw = .ok s) (hf : FairDoc E.chk S s.ked) {l : List (M × M)}
    (hl : FairGroup E.chk S (.couples l)) (v : List Str) : verifyTransactionEvent E st deep fuel s l v ≠ .panic := by
  cases hp : Serder.pre s with
  | ok pre =>
    refine verifyTel_calm hC hs deep (fun pre => (hb.1 pre).1) fuel hr hf hp hl ?_
    have := left_le (eventSaid E) v (st.tels pre)
    have := (hb.1 pre).2
    omega
  | panic => exact absurd hp (pre_calm hf)
  | err e =>
    cases fuel with
    | zero => omega
    | succ fuel =>
      rw [verifyTransactionEvent, hp]
      nofun

theorem ingestOne_calm {st : Store} (hC : ∀ c pk sig ser, E.C.verify c pk sig ser ≠ .panic) (hx : ∀ dt, E.expired dt ≠ .panic)
    (hs : FairStore E S st) {b : Nat} (hb : Sized b st) {m : Msg} (hm : FairMsg E S m) {next : Option Msg} (hn : ∀ g, next = some g → FairMsg E S g) (deep : Option Bool)
    (verify : Option Bool) {fuel : Nat} (hfuel : depth S b ≤ fuel) (v : List Str) :
    ingestOne E st fuel deep verify m next v ≠ .panic ∧ ∀ r, ingestOne E st fuel deep verify m next v = .ok r →
      FairStore E S (perform E st r.1).1 := by
  have hfuel' : b + b + 2 < fuel := by
    have := Nat.mul_le_mul (Nat.le_add_left 1 b) (Nat.le_add_left 2 S.branches)
    unfold depth at hfuel
    omega
  cases m with
  | group g t => exact ⟨nofun, nofun⟩
  | payload text =>
    have hm : FairText E S text := hm
    obtain ⟨h1, h2⟩ := fairText_read hm
    have hse : ingestSerder E st fuel deep verify (toUtf8 text) next v ≠ .panic ∧
        ∀ r, ingestSerder E st fuel deep verify (toUtf8 text) next v = .ok r → FairStore E S (perform E st r.1).1 := by
      unfold ingestSerder
      cases hsd : Serder.newWithRaw E.fl (toUtf8 text) with
      | err e => exact ⟨nofun, nofun⟩
      | panic => exact absurd hsd h1
      | ok s =>
        have hf := hm.event s hsd
        rw [Res.ok_bind]
        constructor
        · refine Res.calm (said_calm hsd hf _) fun said _ => ?_
          cases next with
          | none => nofun
          | some g =>
            have hg := hn g rfl
            cases g with
            | payload t => nofun
            | group g t =>
              refine Res.calm (x := .ok (g, t)) nofun fun gt hgt => ?_
              cases hgt
              refine Res.calm (index_calm (hf.there _ (by simp))) fun x hx => Res.calm (toStr_calm x) fun ilk hilk => ?_
              split
              · cases g with
                | quadlets l =>
                  refine Res.calm ?_ fun r _ => ?_
                  · unfold verifyOrSeen
                    split
                    · exact keyEvent_calm hC hs hb deep (by omega) hsd hf hg.1 _
                    · nofun
                  · split
                    · nofun
                    · exact Res.calm (pre_calm hf) fun _ _ => Res.calm (storedText_calm hg.2.1) fun _ _ => nofun
                | _ => nofun
              · split
                · cases g with
                  | couples l =>
                    refine Res.calm ?_ fun r _ => ?_
                    · unfold verifyOrSeen
                      split
                      · exact telEvent_calm hC hs hb deep (by omega) hsd hf hg.1 _
                      · nofun
                    · split
                      · nofun
                      · exact Res.calm (pre_calm hf) fun _ _ => Res.calm (storedText_calm hg.2.1) fun _ _ => nofun
                  | _ => nofun
                · nofun
        · intro r hr
          obtain ⟨said, -, hr⟩ := Res.bind_eq_ok.mp hr
          cases next with
          | none => cases hr
          | some g =>
            obtain ⟨gt, hgt, hr⟩ := Res.bind_eq_ok.mp hr
            have hga := fairMsg_attached (hn g rfl) hgt
            obtain ⟨x, hx, hr⟩ := Res.bind_eq_ok.mp hr
            obtain ⟨ilk, hilk, hr⟩ := Res.bind_eq_ok.mp hr
            have hfi := index_text hx hilk
            split at hr
            · rename_i hk
              split at hr
              · obtain ⟨b, -, hr⟩ := Res.bind_eq_ok.mp hr
                split at hr
                · cases hr
                  exact hs
                · obtain ⟨pre, hpre, hr⟩ := Res.bind_eq_ok.mp hr
                  obtain ⟨tx, htx, hr⟩ := Res.bind_eq_ok.mp hr
                  cases hr
                  dsimp only [perform, tryInsert]
                  split
                  · exact hs
                  · exact ⟨fairEvents_append hs.kels (storedText_fair hsd hf ⟨ilk, by simpa [keyTypes] using hk, hfi⟩ hpre hga htx), hs.tels, hs.acdcs⟩
              · cases hr
            · split at hr
              · rename_i hk
                split at hr
                · obtain ⟨b, -, hr⟩ := Res.bind_eq_ok.mp hr
                  split at hr
                  · cases hr
                    exact hs
                  · obtain ⟨pre, hpre, hr⟩ := Res.bind_eq_ok.mp hr
                    obtain ⟨tx, htx, hr⟩ := Res.bind_eq_ok.mp hr
                    cases hr
                    dsimp only [perform, tryInsert]
                    split
                    · exact hs
                    · exact ⟨hs.kels, fairEvents_append hs.tels (storedText_fair hsd hf ⟨ilk, by simpa [telTypes] using hk, hfi⟩ hpre hga htx), hs.acdcs⟩
                · cases hr
              · cases hr
    have hce : ingestCreder E st fuel deep verify (toUtf8 text) next v ≠ .panic ∧
        ∀ r, ingestCreder E st fuel deep verify (toUtf8 text) next v = .ok r → FairStore E S (perform E st r.1).1 := by
      unfold ingestCreder
      cases hsd : Creder.newWithRaw E.fl (toUtf8 text) with
      | err e => exact ⟨nofun, nofun⟩
      | panic => exact absurd hsd h2
      | ok c =>
        have hf := hm.cred c hsd
        obtain ⟨-, d, -, hq⟩ := cred_said hsd hf
        have hsaid : Sadder.said E.chk c = .ok (d.take 44) := hq E.chk
        rw [Res.ok_bind, hsaid, Res.ok_bind]
        constructor
        · cases next with
          | none => nofun
          | some g =>
            have hg := hn g rfl
            cases g with
            | payload t => nofun
            | group g t =>
              refine Res.calm (x := .ok (g, t)) nofun fun gt hgt => ?_
              cases hgt
              cases g with
              | quadlets l =>
                refine Res.calm ?_ fun r _ => ?_
                · unfold verifyOrSeen
                  split
                  · refine (acdc_calm hC hx hs deep hb fuel).1 _ c l _ hsd hf hg.1 (Nat.le_trans ?_ hfuel)
                    exact Nat.add_le_add_right (Nat.mul_le_mul_right _ (Nat.succ_le_succ (Nat.le_trans (left_le _ _ _) hb.2))) _
                  · nofun
                · split
                  · nofun
                  · exact Res.calm (storedText_calm hg.2.1) fun _ _ => nofun
              | _ => nofun
        · intro r hr
          cases next with
          | none => cases hr
          | some g =>
            obtain ⟨gt, hgt, hr⟩ := Res.bind_eq_ok.mp hr
            have hga := fairMsg_attached (hn g rfl) hgt
            split at hr
            · obtain ⟨b, -, hr⟩ := Res.bind_eq_ok.mp hr
              split at hr
              · cases hr
                exact hs
              · obtain ⟨tx, htx, hr⟩ := Res.bind_eq_ok.mp hr
                cases hr
                dsimp only [perform, tryInsert]
                split
                · exact hs
                · refine ⟨hs.kels, hs.tels, fun t ht => ?_⟩
                  rcases List.mem_append.mp (show t ∈ st.acdcs ++ [tx] from ht) with ht | ht
                  · exact hs.acdcs t ht
                  · rw [List.mem_singleton.mp ht]
                    exact storedText_cred hsd hf hga htx
            · cases hr
    unfold ingestOne
    change ((sniff (toUtf8 text) >>= fun r => if r.ident = str% "KERI" then ingestSerder E st fuel deep verify (toUtf8 text) next v
      else if r.ident = str% "ACDC" then ingestCreder E st fuel deep verify (toUtf8 text) next v else .err .decoding) ≠ .panic ∧ ∀ r,
      (sniff (toUtf8 text) >>= fun r => if r.ident = str% "KERI" then ingestSerder E st fuel deep verify (toUtf8 text) next v
      else if r.ident = str% "ACDC" then ingestCreder E st fuel deep verify (toUtf8 text) next v else .err .decoding) = .ok r → _)
    cases hsn : sniff (toUtf8 text) with
    | err e => exact ⟨nofun, nofun⟩
    | panic => exact absurd hsn (sniff_calm _)
    | ok info =>
      rw [Res.ok_bind]
      split
      · exact hse
      · split
        · exact hce
        · exact ⟨nofun, nofun⟩

theorem ingestLoop_calm (hC : ∀ c pk sig ser, E.C.verify c pk sig ser ≠ .panic) (hx : ∀ dt, E.expired dt ≠ .panic) (deep verify : Option Bool)
    {fuel : Nat} : ∀ (msgs : List Msg) (b : Nat) (st : Store) (v : List Str), FairStore E S st → Sized b st → depth S (b + msgs.length) ≤ fuel →
      (∀ m ∈ msgs, FairMsg E S m) → (ingestLoop E fuel deep verify st msgs v).2 ≠ .panic ∧
        FairStore E S (ingestLoop E fuel deep verify st msgs v).1
  | [], b, st, v, hs, hb, hf, _ => by rw [ingestLoop]; exact ⟨nofun, hs⟩
  | [m], b, st, v, hs, hb, hf, h => by
    rw [ingestLoop]
    obtain ⟨h1, -⟩ := ingestOne_calm hC hx hs hb (h m (by simp)) (next := none) nofun deep verify (Nat.le_trans (depth_mono (by omega)) hf) v
    cases ho : ingestOne E st fuel deep verify m none v with
    | ok r => exact ⟨nofun, hs⟩
    | err e => exact ⟨nofun, hs⟩
    | panic => exact absurd ho h1
  | m :: g :: rest, b, st, v, hs, hb, hf, h => by
    rw [ingestLoop]
    obtain ⟨h1, h2⟩ := ingestOne_calm hC hx hs hb (h m (by simp)) (next := some g) (fun _ e => by cases e; exact h g (by simp)) deep verify
      (Nat.le_trans (depth_mono (by omega)) hf) v
    cases ho : ingestOne E st fuel deep verify m (some g) v with
    | err e => exact ⟨nofun, hs⟩
    | panic => exact absurd ho h1
    | ok r =>
      obtain ⟨a, v'⟩ := r
      have hs' := h2 _ ho
      have hb' := perform_sized (E := E) hb a
      dsimp only at hs' ⊢
      have hp : (perform E st a).2 ≠ .panic := by
        cases a <;> simp only [perform, tryInsert] <;> (try split) <;> simp
      cases hpe : perform E st a with
      | mk st' o =>
        rw [hpe] at hs' hp hb'
        cases o with
        | ok u =>
          exact ingestLoop_calm hC hx deep verify rest (b + 1) st' v' hs' hb' (Nat.le_trans (depth_mono (by simp only [List.length_cons]; omega)) hf) fun x hx => h x (by simp [hx])
        | err e => exact ⟨nofun, hs'⟩
        | panic => exact absurd rfl hp

end

end Keride
