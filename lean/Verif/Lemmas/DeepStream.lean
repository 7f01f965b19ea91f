/-
Streams of key events under deep verification.
-/
import Verif.Lemmas.Deep
import Verif.Lemmas.Issue
import Verif.Props.KelAgree

namespace Keride

open Matter Spec Sample

section
variable {E : Env}

theorem Spec.Filed.mono {chk : Bool} {fl : Str → Option Str} {pre : Str} {a b : List Str} (h : a <+: b) (hf : Filed chk fl pre b) : Filed chk fl pre a := by
  obtain ⟨c, rfl⟩ := h
  have get : ∀ {i : Nat} {t}, a[i]? = some t → (a ++ c)[i]? = some t := fun {i t} h => by
    rw [List.getElem?_append_left (List.getElem?_eq_some_iff.mp h).1]; exact h
  exact ⟨fun t ht => hf.own t (List.mem_append_left _ ht), fun i j t u s r q h1 h2 => hf.once i j t u s r q (get h1) (get h2)⟩

theorem Spec.FiledStore.mono {chk : Bool} {fl : Str → Option Str} {st st' : Store} (h : Extends st st') (hf : FiledStore chk fl st') : FiledStore chk fl st :=
  ⟨fun p => (hf.log p).mono (h.kels p), fun p p' t u s r q h1 h2 => hf.apart p p' t u s r q ((h.kels p).subset h1) ((h.kels p').subset h2)⟩

theorem ValidTo.cut {st : Store} {pre : Str} {n a : Nat} (h : ValidTo E st pre n) (ha : a < n) (hl : a < (st.kels pre).length) : ValidTo E st pre (a + 1) := by
  obtain ⟨log, h1, h2⟩ := h
  have hlen := h1.length_eq
  rw [List.length_take] at hlen
  have hlt : a < log.length := by omega
  refine ⟨log.take (a + 1), ?_, ?_⟩
  · have := List.forall₂_take (a + 1) h1
    rwa [List.take_take, Nat.min_eq_left (by omega)] at this
  · rw [List.take_add_one, List.getElem?_eq_getElem hlt]
    exact Props.ValidLog.cut h2 (b := log.drop (a + 1)) (by simp)

theorem ValidTo.mono {st st' : Store} {pre : Str} {n : Nat} (he : Extends st st') (h : ValidTo E st pre n) (hn : n ≤ (st.kels pre).length) : ValidTo E st' pre n := by
  obtain ⟨log, h1, h2⟩ := h
  refine ⟨log, ?_, h2⟩
  obtain ⟨c, hc⟩ := he.kels pre
  rw [← hc, List.take_append_of_le_length hn]
  exact h1

/-- What one message does. -/
theorem ingestOne_deep (hR : Remembers E) {st : Store} {fuel : Nat} {deep verify : Option Bool} (hv : verify ≠ some false) {m g : Msg}
    {v v' : List Str} {a : Action} (hh : ∀ q ∈ v, Holds E st q)
    (hk : ∀ p, m = .payload p → ∀ r, sniff (toUtf8 p) = .ok r → r.ident = str% "KERI")
    (hk' : ∀ p, m = .payload p → ∀ s, Serder.newWithRaw E.fl (toUtf8 p) = .ok s →
      HasText (str% "t") (str% "icp") s ∨ HasText (str% "t") (str% "rot") s ∨ HasText (str% "t") (str% "ixn") s)
    (h : ingestOne E st fuel deep verify m (some g) v = .ok (a, v')) :
    (a = .nothing ∧ v' = v) ∨ ∃ p s q l gt r, m = .payload p ∧ Serder.newWithRaw E.fl (toUtf8 p) = .ok s ∧ Sadder.said E.chk s = .ok q ∧
      g = .group (.quadlets l) gt ∧ verifyKeyEvent E st deep fuel s l (q :: v) = .ok r ∧ v' = r.2 ∧
      (r.1 = true ∧ a = .nothing ∨ r.1 = false ∧ ∃ pre t g', Serder.pre s = .ok pre ∧ gt = .ok g' ∧ s.raw = toUtf8 t ∧ a = .keyEvent pre (t ++ g')) := by
  cases m with
  | group _ _ => cases h
  | payload p =>
  unfold ingestOne at h
  rw [show (Msg.payload p).payloadText = .ok p from rfl, Res.ok_bind] at h
  dsimp only at h
  rw [Res.bind_eq_ok] at h
  obtain ⟨info, hinfo, h⟩ := h
  rw [if_pos (hk p rfl info hinfo)] at h
  unfold ingestSerder at h
  rw [Res.bind_eq_ok] at h
  obtain ⟨s, hs, h⟩ := h
  rw [Res.bind_eq_ok] at h
  obtain ⟨q, hq, h⟩ := h
  dsimp only at h
  rw [Res.bind_eq_ok] at h
  obtain ⟨⟨gr, gt⟩, hgr, h⟩ := h
  rw [Res.bind_eq_ok] at h
  obtain ⟨t, ht, h⟩ := h
  rw [Res.bind_eq_ok] at h
  obtain ⟨ilk, hilk, h⟩ := h
  obtain rfl := cesrGroup_ok hgr
  dsimp only at h
  have hty : ilk = str% "icp" ∨ ilk = str% "rot" ∨ ilk = str% "ixn" := by
    have h1 : HasText (str% "t") ilk s := index_text ht hilk
    have inj : ∀ x, HasText (str% "t") x s → ilk = x := fun x hx => by
      unfold HasText at hx h1
      rw [hx] at h1
      exact (Value.str.inj (Option.some.inj h1)).symm
    rcases hk' p rfl s hs with h | h | h
    · exact .inl (inj _ h)
    · exact .inr (.inl (inj _ h))
    · exact .inr (.inr (inj _ h))
  rw [if_pos hty] at h
  cases gr with
  | couples l => cases h
  | other => cases h
  | quadlets l =>
    dsimp only at h
    rw [Res.bind_eq_ok] at h
    obtain ⟨r, hr, h⟩ := h
    rcases verifyOrSeen_ok hr hv hR hh with h1 | h1
    · right
      split at h
      · rename_i hr1
        cases h
        exact ⟨p, s, q, l, gt, r, rfl, hs, hq, rfl, h1, rfl, .inl ⟨hr1, rfl⟩⟩
      · rename_i hr1
        rw [Res.bind_eq_ok] at h
        obtain ⟨pre, hpre, h⟩ := h
        rw [Res.bind_eq_ok] at h
        obtain ⟨text, htx, h⟩ := h
        cases h
        obtain ⟨t, g', e1, rfl, rfl⟩ := storedText_ok htx
        exact ⟨p, s, q, l, _, r, rfl, hs, hq, rfl, h1, rfl, .inr ⟨by simpa using hr1, pre, t, g', hpre, rfl, e1, rfl⟩⟩
    · subst h1
      rw [if_pos rfl] at h
      cases h
      exact .inl ⟨rfl, rfl⟩

/-- What is known in the middle of a stream. -/
structure Sound (E : Env) (st0 st : Store) (v : List Str) : Prop where
  grows : Extends st0 st
  held : ∀ q ∈ v, Holds E st q
  done : ∀ q ∈ v, ∀ pre, Done E st pre q
  valid : ∀ pre, (st0.kels pre).length < (st.kels pre).length → ValidTo E st pre (st.kels pre).length

theorem deep_stream (hH : HashOk E.H) (hR : Remembers E) {fuel : Nat} {verify : Option Bool} (hv : verify ≠ some false) {st0 stF : Store}
    {P : Sad → Prop} (hP : ∀ s, KeptIn E.fl stF s → P s) (hf : FiledStore E.chk E.fl stF) (hlen : ∀ p, (stF.kels p).length < 2 ^ 32) (msgs : List Msg) (st : Store) (v : List Str) (hs : Sound E st0 st v)
    (hk : EventsOnly msgs) (hk' : KeyEventsOnly E.fl msgs) (hn : NewTo E.chk E.fl st0 msgs)
    (hp : ∀ l g, Msg.group (.quadlets l) (.ok g) ∈ msgs → ReadsAs E g (.quadlets l))
    (hm : ∀ p s, Msg.payload p ∈ msgs → Serder.newWithRaw E.fl (toUtf8 p) = .ok s → P s)
    (h : (ingestLoop E fuel (some true) verify st msgs v).1 = stF) :
    (∀ pre, (st0.kels pre).length < (stF.kels pre).length → ValidTo E stF pre (stF.kels pre).length) ∨ Circular E.H E.chk P := by
  induction msgs using pairs.induct generalizing st v with
  | case1 m g rest ih =>
    have hext := ingestLoop_extends (E := E) (fuel := fuel) (deep := some true) (verify := verify) st (m :: g :: rest) v
    rw [h] at hext
    unfold ingestLoop at h
    cases h1 : ingestOne E st fuel (some true) verify m (some g) v with
    | err e => rw [h1] at h; dsimp only at h; subst h; exact .inl hs.valid
    | panic => rw [h1] at h; dsimp only at h; subst h; exact .inl hs.valid
    | ok x =>
      obtain ⟨a, v'⟩ := x
      rw [h1] at h
      dsimp only at h
      have hfr := ingestOne_fresh hR hv hs.held h1
      have hk1 : EventsOnly rest := fun p hp => hk p (by simp [hp])
      have hk2 : KeyEventsOnly E.fl rest := fun p hp => hk' p (by simp [hp])
      have hn1 : NewTo E.chk E.fl st0 rest := fun p s q hp => hn p s q (by simp [hp])
      have hp1 : ∀ l g, Msg.group (.quadlets l) (.ok g) ∈ rest → ReadsAs E g (.quadlets l) := fun l g hg => hp l g (by simp [hg])
      have hm1 : ∀ p s, Msg.payload p ∈ rest → Serder.newWithRaw E.fl (toUtf8 p) = .ok s → P s := fun p s hp => hm p s (by simp [hp])
      have hfs := hf.mono hext
      have hls : ∀ p, (st.kels p).length < 2 ^ 32 := fun p => ((hext.kels p).length_le).trans_lt (hlen p)
      rcases ingestOne_deep hR hv hs.held (fun p hm => hk p (by simp [hm])) (fun p hm => hk' p (by simp [hm])) h1 with
        ⟨rfl, rfl⟩ | ⟨p, s, q, l, gt, r, rfl, hread, hsaid, rfl, hver, rfl, hcase⟩
      · exact ih st _ hs hk1 hk2 hn1 hp1 hm1 h
      · obtain ⟨⟨c, hc, hex, hholds⟩, -⟩ := verifyKeyEvent_ok hver
        obtain ⟨c1, c2, c3, -⟩ := checkKeyEvent_ok hc
        rcases deep_new hH (P := P) (fun t ht e he => hP e ⟨_, t, (hext.kels c.pre).subset ht, he⟩) (hfs.log c.pre) (hls c.pre) hread (hm p s (by simp) hread) c1 c2 (by
            intro y hy
            rcases List.mem_cons.mp hy with rfl | hy
            · exact .inl hsaid
            · exact .inr (hs.done y hy c.pre)) hver with ⟨⟨log, d1, d2⟩, d3, d4⟩ | hcirc
        · -- a SAID that was looked up is done in all logs
          have hdone : ∀ y, DoneIn E st c.pre y → ∀ pre, Done E st pre y := by
            intro y hy pre
            have hy' := hy.done (hfs.log c.pre)
            obtain ⟨a, text, e, y1, y2, y3, -⟩ := hy
            intro b u z z1 z2 z3
            obtain rfl := hfs.apart c.pre pre text u e z y (List.mem_of_getElem? y1) (List.mem_of_getElem? z1) y2 z2 y3 z3
            exact hy' b u z z1 z2 z3
          rcases hcase with ⟨hr1, rfl⟩ | ⟨hr1, pre, t, g', hpre, rfl, hraw, rfl⟩
          · -- sent before
            have hat : DoneIn E st c.pre q := by
              rw [hsaid] at c3
              obtain rfl := Res.ok.inj c3
              cases fuel with
              | zero => cases hver
              | succ fuel =>
                obtain ⟨c', hc', -, hconf, -⟩ := deep_step hver
                rw [hc] at hc'
                obtain rfl := Res.ok.inj hc'
                obtain ⟨t, z, z1, z2, z3⟩ := (confirm_at (hex.trans hr1)).mp hconf
                refine ⟨_, t, z, z1, z2, z3, ?_⟩
                have hlt := (List.getElem?_eq_some_iff.mp z1).1
                have hge : (st0.kels c.pre).length ≤ c.sn % 2 ^ 32 := by
                  rcases Nat.lt_or_ge (c.sn % 2 ^ 32) (st0.kels c.pre).length with hlt' | hge
                  · exfalso
                    obtain ⟨w, hw⟩ := hs.grows.kels c.pre
                    rw [← hw, List.getElem?_append_left hlt'] at z1
                    exact hn p s _ (by simp) hread hsaid c.pre t (List.mem_of_getElem? z1) z z2 z3
                  · exact hge
                exact (hs.valid c.pre (by omega)).cut hlt hlt
            refine ih st _ ⟨hs.grows, fresh_known hs.held hfr rfl, ?_, hs.valid⟩ hk1 hk2 hn1 hp1 hm1 h
            intro y hy
            rcases d3 y hy with hy | hy
            · rcases List.mem_cons.mp hy with rfl | hy
              · exact hdone _ hat
              · exact hs.done y hy
            · exact hdone y hy
          · -- new
            have e1 : pre = c.pre := by rw [hpre] at c1; exact Res.ok.inj c1
            subst e1
            have hsn := d4 hr1
            rw [hsn, List.take_length] at d1
            cases h2 : perform E st (.keyEvent c.pre (t ++ g')) with
            | mk st1 res =>
              rw [h2] at h
              have hcases : st1 = st ∧ res ≠ .ok () ∨ st1 = st.insertKeyEvent c.pre (t ++ g') ∧ res = .ok () := by
                unfold perform tryInsert at h2
                dsimp only at h2
                split at h2
                · cases h2; exact .inl ⟨rfl, nofun⟩
                · cases h2; exact .inr ⟨rfl, rfl⟩
              rcases hcases with ⟨rfl, hres⟩ | ⟨rfl, rfl⟩
              · have : st1 = stF := by
                  cases res with
                  | ok u => exact absurd rfl hres
                  | err e => exact h
                  | panic => exact h
                subst this
                exact .inl hs.valid
              · dsimp only at h
                have hE1 : Extends st (st.insertKeyEvent c.pre (t ++ g')) := ⟨prefix_append _ _ _, fun _ => List.prefix_refl _, List.prefix_refl _⟩
                have hE2 := ingestLoop_extends (E := E) (fuel := fuel) (deep := some true) (verify := verify) (st.insertKeyEvent c.pre (t ++ g')) rest r.2
                rw [h] at hE2
                have hfs1 := hf.mono hE2
                have hkel : (st.insertKeyEvent c.pre (t ++ g')).kels c.pre = st.kels c.pre ++ [t ++ g'] := if_pos rfl
                have hkel' : ∀ p, p ≠ c.pre → (st.insertKeyEvent c.pre (t ++ g')).kels p = st.kels p := fun p hp => if_neg hp
                have hagain := again_key hread hraw g'
                have hkept : Kept E (t ++ g') ⟨s, l⟩ := by
                  refine ⟨hagain, ?_⟩
                  unfold attachedQuadlets
                  rw [attached_of hraw (hp l g' (by simp))]
                  rfl
                have hall : ValidTo E (st.insertKeyEvent c.pre (t ++ g')) c.pre ((st.kels c.pre).length + 1) := by
                  refine ⟨log ++ [⟨s, l⟩], ?_, d2⟩
                  rw [hkel, List.take_of_length_le (by simp)]
                  exact List.rel_append d1 (.cons hkept .nil)
                have hnew : ∀ pre, Done E (st.insertKeyEvent c.pre (t ++ g')) pre q := by
                  intro pre b u z z1 z2 z3
                  have hlast : ((st.insertKeyEvent c.pre (t ++ g')).kels c.pre)[(st.kels c.pre).length]? = some (t ++ g') := by
                    rw [hkel]; simp
                  obtain rfl := hfs1.apart c.pre pre (t ++ g') u s z q (List.mem_of_getElem? hlast) (List.mem_of_getElem? z1) hagain z2 hsaid z3
                  have := (hfs1.log c.pre).once _ _ _ _ _ _ q hlast z1 hagain z2 hsaid z3
                  rw [← this]
                  exact hall
                have hold : ∀ y, (∀ pre, Done E st pre y) → ∀ pre, Done E (st.insertKeyEvent c.pre (t ++ g')) pre y := by
                  intro y hy pre b u z z1 z2 z3
                  by_cases hb : b < (st.kels pre).length
                  · obtain ⟨w, hw⟩ := hE1.kels pre
                    rw [← hw, List.getElem?_append_left hb] at z1
                    exact (hy pre b u z z1 z2 z3).mono hE1 hb
                  · have hpp : pre = c.pre := by
                      by_contra hne
                      rw [hkel' pre hne] at z1
                      exact hb (List.getElem?_eq_some_iff.mp z1).1
                    subst hpp
                    have hb' := (List.getElem?_eq_some_iff.mp z1).1
                    rw [hkel, List.length_append, List.length_singleton] at hb'
                    have : b = (st.kels c.pre).length := by omega
                    rw [this]
                    exact hall
                refine ih _ _ ⟨hs.grows.trans hE1, fresh_known hs.held hfr h2, ?_, ?_⟩ hk1 hk2 hn1 hp1 hm1 h
                · intro y hy
                  rcases d3 y hy with hy | hy
                  · rcases List.mem_cons.mp hy with rfl | hy
                    · exact hnew
                    · exact hold y (hs.done y hy)
                  · exact hold y (hdone y hy)
                · intro pre hlt
                  by_cases hpp : pre = c.pre
                  · subst hpp
                    rw [hkel, List.length_append]
                    exact hall
                  · rw [hkel' pre hpp] at hlt ⊢
                    exact (hs.valid pre hlt).mono hE1 le_rfl
        · exact .inr hcirc
  | case2 msgs hx =>
    match msgs, hx with
    | [], _ => unfold ingestLoop at h; dsimp only at h; subst h; exact .inl hs.valid
    | [m], _ =>
      unfold ingestLoop at h
      have : st = stF := by
        split at h <;> exact h
      subst this
      exact .inl hs.valid
    | m :: g :: rest, hx => exact absurd rfl (hx m g rest)

end

end Keride
