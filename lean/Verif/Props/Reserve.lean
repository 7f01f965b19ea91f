/-
C90: the messages of `incept_partial`, `rotate_partial` and interactions are a valid history, and verifiers accept them.
-/
import Verif.Props.Kmi
import Verif.Lemmas.Reserve

namespace Keride.Props

open Spec Sample Matter

/-- The log of messages taken apart. -/
def entries (l : List (Sad × Parts)) : List Entry := l.map fun x => ⟨x.1, [.controller x.2.sigs]⟩

/-- What holds along a session with keys in reserve. -/
structure Reserving (E : Env) (S : Stretch) (code tier : Option Str) (pre said : Str) (ks : KeySet) (salt : Bytes) (r keySn : Nat) (ms : List Str)
    (l : List (Sad × Parts)) : Prop where
  texts : ms = l.map fun x => x.2.text
  parts : ∀ x ∈ l, x.1.raw = toUtf8 x.2.event ∧ x.2.Wellformed E.chk
  logged : Logged E pre (entries l)
  seeds : ∀ t ∈ ks.keys, '=' ∉ t
  last : ∃ x, l.getLast? = some x ∧ Sadder.said E.chk x.1 = .ok said
  count : keySn ≤ ms.length
  latest : ∃ est, LatestEst (entries l) est ∧
    (∃ va sg t, keysOf E est.sad = .ok (va ++ sg.map (fun s => s.verfer), t) ∧ ks.signers E = .ok sg ∧ va.length = ks.offset ∧
      IsWeights t.thold [shares ks.offset sg.length] ∧ sg.length ≠ 0 ∧ ks.offset + sg.length ≤ 4096 ∧ Accepted E.chk (jsonRead E.fl) t) ∧
    ∃ nks ds nt, KeySet.generateFromSalt E S salt code (some r) 0 (some true) (fmtNat 10 keySn) tier none = .ok nks ∧
      nks.digersQb64 E = .ok ds ∧ field (str% "n") est.sad.ked = some (.arr (ds.map .str)) ∧ Serder.ntholder E.chk E.fl est.sad = .ok (some nt) ∧
      IsWeights nt.thold [List.replicate r (1 / ((r : ℕ) : ℚ))] ∧ nks.keys.length = r

theorem in_order_bound {C : Crypto} {l : List Signer} {ser : Bytes} {sigs : List Siger} {n : Nat} (h : InOrder C l ser n sigs) (hl : l ≠ []) : n + l.length ≤ 4096 := by
  obtain ⟨h1, h2⟩ := h
  have hp := List.length_pos_of_ne_nil hl
  obtain ⟨s, -, -, -, h, -⟩ := h2 (l.length - 1) sigs[l.length - 1] (List.getElem?_eq_getElem (by omega))
  omega

/-- The weights of a clause a threshold accepts add up to at least one. -/
theorem clause_sum {chk : Bool} {json : Str → Res Value} {t : Tholder} (h : Accepted chk json t) {qss : List (List ℚ)} (hw : IsWeights t.thold qss) :
    ∀ c ∈ qss, 1 ≤ c.sum := by
  obtain ⟨rs, hrs, rfl⟩ := accepted_weights h hw
  intro c hc
  unfold Tholder.vals at hc
  obtain ⟨x, hx, rfl⟩ := List.mem_map.mp hc
  exact Tholder.sumsOk_sound hrs.isw ((Tholder.checkSums_iff chk rs).mp hrs.sums) x hx

theorem reserve_running {E : Env} {S : Stretch} (hC : CryptoOk E.C) (hH : HashOk E.H) {code tier : Option Str}
    {pre said : Str} {ks : KeySet} {salt : Bytes} {r keySn : Nat} {ms : List Str} (h : ReserveSession E S code tier pre said ks salt r keySn ms)
    (hr : r ≤ 4096) (hm : ∀ m ∈ ms, (toUtf8 m).length < 2 ^ 32) (hlen : ms.length ≤ 2 ^ 32) : ∃ l, Reserving E S code tier pre said ks salt r keySn ms l := by
  induction h with
  | incept rnd scount rcount salt pre m ks call =>
    unfold kmiInceptPartial at call
    dsimp only at call
    obtain ⟨ckeys, hck, call⟩ := Res.bind_eq_ok.mp call
    obtain ⟨keys, hkeys, call⟩ := Res.bind_eq_ok.mp call
    obtain ⟨next, hnext, call⟩ := Res.bind_eq_ok.mp call
    rw [show (some true).getD false = true from rfl, if_pos rfl] at hnext
    obtain ⟨nks, hnk, hnext⟩ := Res.bind_eq_ok.mp hnext
    obtain ⟨ndigs, hnd, hnext⟩ := Res.bind_eq_ok.mp hnext
    cases hnext
    obtain ⟨nsith, hns, call⟩ := Res.bind_eq_ok.mp call
    cases hns
    obtain ⟨s, hs, call⟩ := Res.bind_eq_ok.mp call
    obtain ⟨ev, hev, call⟩ := Res.bind_eq_ok.mp call
    obtain ⟨pre', hpre, call⟩ := Res.bind_eq_ok.mp call
    cases call
    obtain ⟨u1, u2, -, u3⟩ := generate_usable hck
    obtain ⟨v1, v2, -, v3⟩ := fromSalt_usable hnk
    have hu : Usable ks := ⟨u2, u1⟩
    obtain ⟨sigs, sg, hsg, hsgn, hin, hmsg⟩ := signedMessage_at hC u1 hev
    obtain ⟨p, rfl, hp1, hp2, hp3, hp4⟩ := parts_of hmsg (hm m (by simp))
    obtain ⟨vs, t, kt, nt, bt, th, nth, pre', hb, hsn, hth, hnth, htS, hntS, hsz, hnsz, hone, -, mt, -, hbt, -, hkt, hnt⟩ :=
      incept_all (c := str% "E") (by decide) hs
    simp only [Option.getD_some, Option.getD_none] at hb hnth hnsz hbt hkt hnt u3 v3 hth
    have hsend : Sendable s := by
      refine sendable_incepted hb (by unfold icpDoc; simp) ?_ hp4
      intro e he
      simp only [icpDoc, List.mem_cons, List.not_mem_nil, or_false] at he
      rcases he with rfl | rfl | rfl | rfl | rfl | rfl | rfl | rfl | rfl | rfl | rfl | rfl | rfl
      all_goals first
        | exact fine_str _
        | exact fine_thold hth hkt
        | exact fine_thold hnth hnt
        | exact fine_texts _
        | exact fine_toad hbt
        | exact fine_arr (by simp)
    have hkl := keys_length hkeys
    have hsl := (signers_good hC u1 hsgn).1
    have hpe : pre' = pre := by
      have := (C55_pre s pre').mpr hb.names
      rw [hpre] at this
      exact (Res.ok.inj this).symm
    subst hpe
    have hcount : sg.length ≤ 4096 := by
      by_cases h0 : sg = []
      · simp [h0]
      · have := in_order_bound hin h0
        omega
    have hw := shares_weights (a := 0) (b := scount.getD 2) (by omega)
    rw [List.replicate_zero, List.nil_append] at hw
    have hth' := (C29_input E.chk (jsonRead E.fl) _ th).1 _ hw (by simp) hth
    have hnw := shares_weights (a := 0) (b := rcount.getD 3) (by omega)
    rw [List.replicate_zero, List.nil_append] at hnw
    have hnth' := (C29_input E.chk (jsonRead E.fl) _ nth).1 _ hnw (by simp) hnth
    have hacc := tholder_accepted htS
    have hne : scount.getD 2 ≠ 0 := by
      intro h0
      have := clause_sum hacc hth'.2.1 _ (List.mem_singleton.mpr rfl)
      rw [h0] at this
      norm_num [shares] at this
    have hcov : Covers th keys.length := .inr ⟨_, hth'.2.1, by rw [hkl, u3]; simp [positions, shares_length]⟩
    have ht : HasText (str% "t") (str% "icp") s := by
      unfold HasText
      rw [hb.fields _ (by decide) (by decide) (by decide)]
      simp [field, icpDoc]
    have hk : field (str% "k") s.ked = some (.arr (keys.map .str)) := by
      rw [hb.fields _ (by decide) (by decide) (by decide)]; simp [field, icpDoc, Sample.texts]
    obtain ⟨o', ho', hv⟩ := hb.first
    have hlog : Logged E pre' (entries [(s, p)]) := by
      refine Logged.snoc (log := []) hH (.inl rfl) (by simp) ?_ ?_ ⟨_, hb.raw⟩ ⟨o', ho', hv, ho' ▸ plain_decimal hsend.plain⟩
      · intro st hst
        have hst : st.kels pre' = [] := by
          cases hk : st.kels pre' with
          | nil => rfl
          | cons a b => rw [hk] at hst; cases hst
        obtain ⟨k1, k2⟩ := accept_icp hC hu hkeys (c := str% "E") (by decide) hs (by
          intro t ht
          simp only [Option.getD_some] at ht
          rw [hth] at ht
          cases ht
          exact hcov) hsg hpre hst
        exact ⟨pre', none, k1, k2⟩
      · exact hb.reads hsend.plain hsend.depth hsend.small E.fl
    refine ⟨[(s, p)], by simp [hp1], by simpa using ⟨hp2, hp3⟩, hlog, u1, ⟨_, rfl, hb.reports⟩, by simp,
      ⟨s, [.controller p.sigs]⟩, ⟨[], [], rfl, .inl ht, by simp⟩, ⟨[], sg, th, ?_, hsgn, by simp [u2], ?_, by omega, by omega, hacc⟩,
      nks, ndigs, nth, hnk, hnd, ?_, hntS, ?_, v3⟩
    · rw [List.nil_append]
      exact keysOf_of (listed_keys hC hu hkeys ho' hk hsgn) htS
    · rw [u2, hsl, u3]; exact hth'.2.1
    · rw [hb.fields _ (by decide) (by decide) (by decide)]; simp [field, icpDoc, Sample.texts]
    · have := hnth'.2.1
      unfold shares at this
      rwa [List.replicate_zero, List.nil_append] at this
  | interact rnd data pre said said' m ks salt r keySn ms before hdata call ih =>
    obtain ⟨l, hr⟩ := ih hr (fun m hx => hm m (by simp [hx])) (by rw [List.length_append] at hlen; omega)
    unfold kmiInteract at call
    obtain ⟨s, hs, call⟩ := Res.bind_eq_ok.mp call
    obtain ⟨ev, hev, call⟩ := Res.bind_eq_ok.mp call
    obtain ⟨d, hd, call⟩ := Res.bind_eq_ok.mp call
    cases call
    obtain ⟨sigs, sg, hsg, hsgn, hin, hmsg⟩ := signedMessage_at hC hr.seeds hev
    obtain ⟨p, rfl, hp1, hp2, hp3, hp4⟩ := parts_of hmsg (hm m (by simp))
    have hll : (entries l).length = ms.length := by rw [hr.texts, entries, List.length_map, List.length_map]
    have hlt : ms.length < 2 ^ 32 := by rw [List.length_append] at hlen; simp at hlen; omega
    obtain ⟨vs, t, hb, -, -, -⟩ := interact_ok (sn := some ms.length) (by simp; omega) hs
    have hsend : Sendable s := by
      refine sendable_built hb (by simp) ?_ hp4
      intro e he
      simp only [List.mem_cons, List.not_mem_nil, or_false] at he
      rcases he with rfl | rfl | rfl | rfl | rfl | rfl | rfl
      all_goals first
        | exact fine_str _
        | exact hdata
    obtain ⟨x, hx, hxs⟩ := hr.last
    obtain ⟨est, he, ⟨va, sg', t', hk, hsgn', hva, hw, hne0, hbd, hacc⟩, hn⟩ := hr.latest
    rw [hsgn] at hsgn'
    cases hsgn'
    have ht : field (str% "t") s.ked = some (.str (str% "ixn")) := by
      rw [hb.fields _ (by decide) (by decide)]
      simp [field]
    have hne : ¬ Establishes s := by
      rintro (h | h) <;> (unfold HasText at h; rw [ht] at h; simp at h)
    obtain ⟨o', ho', hv⟩ := hb.first
    rw [Nat.mod_eq_of_lt (by omega)] at hin
    have hlast : (entries l).getLast? = some ⟨x.1, [.controller x.2.sigs]⟩ := by
      unfold entries
      rw [List.getLast?_map, hx]
      rfl
    have hlog : Logged E pre (entries (l ++ [(s, p)])) := by
      unfold entries
      rw [List.map_append]
      refine Logged.snoc (log := entries l) hH (.inr hr.logged) (by omega) ?_ ?_ ⟨_, hb.raw⟩ ⟨o', ho', hv, ho' ▸ plain_decimal hsend.plain⟩
      · intro st hst
        obtain ⟨q, t, k1, k2⟩ := accept_ixn_by hst hr.logged.valid (by omega) hlast he hxs hk (by rw [hll]; exact hs) (in_order_at hin hva) (by
          rw [List.map_map, show (Prod.fst ∘ fun i : Nat => (i, i)) = id from rfl, List.map_id]
          refine shares_met hacc hw hne0 (by omega) ?_ ?_
          · intro i hi
            rw [List.mem_range'_1] at hi
            omega
          · intro i h1 h2
            rw [List.mem_range'_1]
            omega)
        exact ⟨q, _, k1, k2⟩
      · exact hb.reads hsend.plain hsend.depth hsend.small E.fl
    refine ⟨l ++ [(s, p)], by simp [hr.texts, hp1], ?_, hlog, hr.seeds, ⟨(s, p), by simp, hd⟩, by
      have := hr.count; rw [List.length_append]; omega, est, ?_, ⟨va, sg, t', hk, hsgn, hva, hw, hne0, hbd, hacc⟩, hn⟩
    · intro y hy
      rcases List.mem_append.mp hy with hy | hy
      · exact hr.parts y hy
      · rw [List.mem_singleton.mp hy]; exact ⟨hp2, hp3⟩
    · unfold entries
      rw [List.map_append]
      exact latest_snoc he hne
  | rotate rnd scount rcount pre said said' m ks ks' salt nextSalt r keySn ms before hmr call ih =>
    obtain ⟨l, hrs⟩ := ih (by omega) (fun m hx => hm m (by simp [hx])) (by rw [List.length_append] at hlen; omega)
    have hll : (entries l).length = ms.length := by rw [hrs.texts, entries, List.length_map, List.length_map]
    have hlt : ms.length < 2 ^ 32 := by rw [List.length_append] at hlen; simp at hlen; omega
    unfold kmiRotatePartial at call
    dsimp only at call
    obtain ⟨pk, hpk, call⟩ := Res.bind_eq_ok.mp call
    unfold partialKeys at hpk
    dsimp only at hpk
    rw [if_neg (by simp)] at hpk
    obtain ⟨ckeys, hck, hpk⟩ := Res.bind_eq_ok.mp hpk
    obtain ⟨k1, hk1, hpk⟩ := Res.bind_eq_ok.mp hpk
    obtain ⟨rkeys, hrk, hpk⟩ := Res.bind_eq_ok.mp hpk
    obtain ⟨ca, hca, hpk⟩ := Res.bind_eq_ok.mp hpk
    obtain ⟨rb, hrb, hpk⟩ := Res.bind_eq_ok.mp hpk
    cases hpk
    dsimp only at call
    obtain ⟨skeys, hsk, call⟩ := Res.bind_eq_ok.mp call
    obtain ⟨more, hmore, call⟩ := Res.bind_eq_ok.mp call
    rw [Res.ok_bind] at call
    obtain ⟨s, hs, call⟩ := Res.bind_eq_ok.mp call
    rw [if_neg (by simp)] at call
    obtain ⟨sa, hsa, call⟩ := Res.bind_eq_ok.mp call
    obtain ⟨sb, hsb, call⟩ := Res.bind_eq_ok.mp call
    obtain ⟨e, he, call⟩ := Res.bind_eq_ok.mp call
    obtain ⟨ev, hev, call⟩ := Res.bind_eq_ok.mp call
    obtain ⟨d, hd, call⟩ := Res.bind_eq_ok.mp call
    cases call
    have hk1 : k1 = keySn + 1 := by
      unfold u128 at hk1
      rw [if_pos (by have := hrs.count; constructor <;> omega)] at hk1
      have := Res.ok.inj hk1
      omega
    subst hk1
    obtain ⟨c1, c2, -, c3⟩ := fromSalt_usable hck
    obtain ⟨r1, r2, -, r3⟩ := fromSalt_usable hrk
    obtain ⟨s1, s2, -, s3⟩ := generate_usable hsk
    simp only [Option.getD_some] at c3 r3 s3
    obtain ⟨la, hla, hina⟩ := sign_ok hC ⟨c2, c1⟩ (made hsa)
    obtain ⟨lb, hlb, hinb⟩ := sign_at hC s1 hsb
    have hlal := (signers_good hC c1 hla).1
    have hlbl := (signers_good hC s1 hlb).1
    rw [s2, Nat.mod_eq_of_lt (by omega)] at hinb
    have hinb' : InOrder E.C lb s.raw (0 + la.length) sb := by rw [Nat.zero_add, hlal, c3]; exact hinb
    have hin' := hina.append hinb'
    have hcount := in_order_count hin'
    rw [List.length_append] at hcount
    have hshort : ∀ g ∈ sa ++ sb, ShortSig g := by
      intro g hg
      rcases List.mem_append.mp hg with hg | hg
      · exact sign_short hC c1 hsa g hg
      · exact sign_short hC s1 hsb g hg
    have hmsg : SignedMessage E.chk s ((sa ++ sb).map Siger.bare) m ∧ ∀ g ∈ (sa ++ sb).map Siger.bare, FromText g :=
      ⟨(message_ok hshort (by rw [hin'.1, List.length_append]; omega) he hev).same (bare_same _), fun g hg => bare_read hshort hg⟩
    have hin := hin'.same (bare_same (sa ++ sb))
    obtain ⟨p, hps, hp1, hp2, hp3, hp4⟩ := parts_of hmsg (hm m (by simp))
    obtain ⟨vs, t, kt, nt, bt, th, nth, hb, -, -, hth, hnth, htS, hntS, hsz, hnsz, hone, hnone, -, -, -, -, -, newits, mt, -, -, hbt, -, -, hkt, hnt⟩ :=
      rotate_all (by omega) hs
    simp only [Option.getD_some, Option.getD_none] at hb hth hnth hnsz hbt hkt hnt
    have hsend : Sendable s := by
      refine sendable_built hb (by simp) ?_ hp4
      intro e he
      simp only [List.mem_cons, List.not_mem_nil, or_false] at he
      rcases he with rfl | rfl | rfl | rfl | rfl | rfl | rfl | rfl | rfl | rfl | rfl | rfl | rfl | rfl
      all_goals first
        | exact fine_str _
        | exact fine_thold hth hkt
        | exact fine_thold hnth hnt
        | exact fine_texts _
        | exact fine_toad hbt
        | exact fine_arr (by simp)
    obtain ⟨x, hx, hxs⟩ := hrs.last
    obtain ⟨est, hest, -, nks, ds, pnt, hnk, hnd, hfn, hpnt, hpw, hpl⟩ := hrs.latest
    obtain ⟨rest, hprefix⟩ := fromSalt_prefix hmr hnk hck
    obtain ⟨v1, v2, -, v3⟩ := fromSalt_usable hnk
    have hla' := hla
    rw [hprefix] at hla'
    obtain ⟨la1, la2, rfl, hla1, -⟩ := mapList_append hla'
    change nks.signers E = .ok la1 at hla1
    have hl1 := (signers_good hC v1 hla1).1
    have hw := shares_weights (a := rcount.getD 3) (b := scount.getD 2) (by omega)
    have hth' := (C29_input E.chk (jsonRead E.fl) _ th).1 _ hw (by simp) hth
    have hnw := shares_weights (a := 0) (b := rcount.getD 3) (by omega)
    rw [List.replicate_zero, List.nil_append] at hnw
    have hnth' := (C29_input E.chk (jsonRead E.fl) _ nth).1 _ hnw (by simp) hnth
    have hacc := tholder_accepted htS
    have hne : scount.getD 2 ≠ 0 := by
      intro h0
      have := clause_sum hacc hth'.2.1 _ (List.mem_singleton.mpr rfl)
      rw [h0] at this
      norm_num [shares] at this
    have ht : HasText (str% "t") (str% "rot") s := by
      unfold HasText
      rw [hb.fields _ (by decide) (by decide)]
      simp [field]
    have hk : field (str% "k") s.ked = some (.arr ((ca ++ more).map .str)) := by
      rw [hb.fields _ (by decide) (by decide)]; simp [field, Sample.texts]
    obtain ⟨o', ho', hv⟩ := hb.first
    have hverf : Serder.verfers s = .ok ((la1 ++ la2).map (fun s => s.verfer) ++ lb.map (fun s => s.verfer)) :=
      (C55_keys s _).mpr ⟨o', ho', .inl ⟨_, hk, List.rel_append (listed_signers hC c1 hca hla) (listed_signers hC s1 hmore hlb)⟩⟩
    have hkf := keysOf_of (E := E) hverf htS
    have hlast : (entries l).getLast? = some ⟨x.1, [.controller x.2.sigs]⟩ := by
      unfold entries
      rw [List.getLast?_map, hx]
      rfl
    obtain ⟨g1, g2⟩ := in_order hin
    rw [g2, List.map_append] at g1
    have hlog : Logged E pre (entries (l ++ [(s, p)])) := by
      unfold entries
      rw [List.map_append]
      refine Logged.snoc (log := entries l) hH (.inr hrs.logged) (by omega) ?_ ?_ ⟨_, hb.raw⟩ ⟨o', ho', hv, ho' ▸ plain_decimal hsend.plain⟩
      · intro st hst
        dsimp only
        rw [hps]
        obtain ⟨raw, hraw, hreads⟩ := latestEst_of hst (n := (entries l).length - 1) (by have := hst.length_eq; omega) (ValidLog.types hrs.logged.valid) hest
        obtain ⟨-, oe, hoe, -⟩ := read_doc hreads
        have hvf : nks.verfers E = .ok (la1.map fun s => s.verfer) := by
          unfold KeySet.verfers
          rw [hla1]
          rfl
        obtain ⟨digs, hds, hdd⟩ := listed_digests hH hnd hoe hfn hvf
        have hnext : nextOf E est.sad = .ok (digs, pnt) := by
          unfold nextOf
          rw [hds, Res.ok_bind, hpnt, Res.ok_bind]
          rfl
        have hsat : th.satisfy E.chk (((List.range (la1 ++ la2 ++ lb).length).map fun i => (i, i)).map Prod.fst) = .ok true := by
          refine covers_satisfied (n := (la1 ++ la2 ++ lb).length) hacc (.inr ⟨_, hth'.2.1, ?_⟩) (by rw [List.length_append]; omega) ?_
          · rw [List.length_append, hlal, hlbl, c3, s3]
            simp [positions, shares_length]
          · rw [List.map_map]; exact List.map_id _
        have hsatn : pnt.satisfy E.chk ((List.range (la1 ++ la2 ++ lb).length).filter fun i => decide (i < (la1.map fun s => s.verfer).length)) = .ok true := by
          refine covers_satisfied (n := r) (tholder_accepted hpnt) (.inr ⟨_, hpw, by simp [positions]⟩) (by omega) ?_
          rw [List.length_map, List.append_assoc, List.length_append, List.range_add, List.filter_append, List.filter_eq_self.mpr (by simp),
            List.filter_eq_nil_iff.mpr (by simp), List.append_nil, hl1, hpl]
        obtain ⟨q, t, k1, k2⟩ := accept_rot_by hst hrs.logged.valid (by omega) hlast hest hxs (by rw [hll]; exact hs) hkf g1 hsat hnext
          (by rw [List.map_append, List.append_assoc]; exact priorIndices_first hdd) hsatn
        exact ⟨q, _, k1, k2⟩
      · exact hb.reads hsend.plain hsend.depth hsend.small E.fl
    refine ⟨l ++ [(s, p)], by simp [hrs.texts, hp1], ?_, hlog, s1, ⟨(s, p), by simp, hd⟩, by
      have := hrs.count; rw [List.length_append, List.length_singleton]; omega, ⟨s, [.controller p.sigs]⟩, ⟨entries l, [], by simp [entries], .inr ht, by simp⟩,
      ⟨_, lb, th, hkf, hlb, ?_, ?_, by omega, by omega, hacc⟩, rkeys, rb, nth, hrk, hrb, ?_, hntS, ?_, r3⟩
    · intro y hy
      rcases List.mem_append.mp hy with hy | hy
      · exact hrs.parts y hy
      · rw [List.mem_singleton.mp hy]; exact ⟨hp2, hp3⟩
    · rw [List.length_map, hlal, c3, s2]
    · rw [s2, hlbl, s3]; exact hth'.2.1
    · rw [hb.fields _ (by decide) (by decide)]; simp [field, Sample.texts]
    · have := hnth'.2.1
      unfold shares at this
      rwa [List.replicate_zero, List.nil_append] at this

/-- C90: however `incept_partial`, interactions and `rotate_partial` are called one after the other, the messages they return are the events of one valid
log in order, as bytes, each followed by framed attached material, which is the group of the signatures of the event. The SAID the last call returned
is that of the last event. -/
theorem C90_history (E : Env) (S : Stretch) (hC : CryptoOk E.C) (hH : HashOk E.H) (code tier : Option Str)
    (pre said : Str) (ks : KeySet) (salt : Bytes) (r keySn : Nat) (ms : List Str) (hr : r ≤ 4096) (h : ReserveSession E S code tier pre said ks salt r keySn ms)
    (hm : ∀ m ∈ ms, (toUtf8 m).length < 2 ^ 32) (hlen : ms.length ≤ 2 ^ 32) :
    ∃ log : List Entry, ValidLog E.H E.C E.chk E.fl pre log ∧
      List.Forall₂ (fun e m => ∃ sigs, e.groups = [.controller sigs] ∧ SignedMessage E.chk e.sad sigs m) log ms ∧
      ∃ e, log.getLast? = some e ∧ Sadder.said E.chk e.sad = .ok said := by
  obtain ⟨l, hr⟩ := reserve_running hC hH h hr hm hlen
  refine ⟨_, hr.logged.valid, ?_, ?_⟩
  · rw [hr.texts, entries, List.forall₂_map_left_iff, List.forall₂_map_right_iff, List.forall₂_same]
    intro x hx
    obtain ⟨h1, -, body, h2, h3⟩ := hr.parts x hx
    exact ⟨x.2.sigs, rfl, x.2.event, x.2.attached, body, h1, rfl, h2, h3⟩
  · obtain ⟨x, h1, h2⟩ := hr.last
    exact ⟨_, by rw [entries, List.getLast?_map, h1]; rfl, h2⟩

/-- C90: a verifier that knows nothing of the identifier and is sent these messages accepts them all. Its log of the identifier is then exactly the
messages, and nothing else has changed, unless the texts digested for two of the messages are different and have the same digest. If it is asked to verify all earlier events again, its stack must be deep
enough for them, and it must read the signatures that it keeps as it received them. -/
theorem C90_accepted (E E' : Env) (S : Stretch) (hC : CryptoOk E.C) (hH : HashOk E.H) (hE : SameCode E E') (hstore : ∀ st t, E'.refuses st t = false)
    (code tier : Option Str) (pre said : Str) (ks : KeySet) (salt : Bytes) (r keySn : Nat) (ms : List Str) (hr : r ≤ 4096)
    (h : ReserveSession E S code tier pre said ks salt r keySn ms) (hm : ∀ m ∈ ms, (toUtf8 m).length < 2 ^ 32) (hlen : ms.length ≤ 2 ^ 32) :
    ∃ parts : List Parts, ms = parts.map Parts.text ∧ (∀ p ∈ parts, p.Wellformed E.chk) ∧
      ∀ (st : Store), st.kels pre = [] → ∀ (fuel : Nat) (deep verify : Option Bool), verify ≠ some false →
        (deep = some true → ms.length ≤ fuel + 1 ∧ ∀ p ∈ parts, ReadsAs E' p.attached (.quadlets [.controller p.sigs])) →
        (∃ st', ingestLoop E' (fuel + 1) deep verify st (parts.flatMap Parts.parsed) [] = (st', .ok ()) ∧ st'.kels pre = ms ∧
          (∀ p, p ≠ pre → st'.kels p = st.kels p) ∧ st'.tels = st.tels ∧ st'.acdcs = st.acdcs) ∨
          Collision E.H (str% "E") (MessageText E.fl ms) (MessageText E.fl ms) := by
  obtain ⟨l, hr⟩ := reserve_running hC hH h hr hm hlen
  refine ⟨l.map Prod.snd, ?_, ?_, ?_⟩
  · rw [hr.texts, List.map_map]; rfl
  · intro p hp
    obtain ⟨x, hx, rfl⟩ := List.mem_map.mp hp
    exact (hr.parts x hx).2
  · intro st hst fuel deep verify hv hd
    by_cases hc : Collision E.H (str% "E") (LogText (entries l)) (LogText (entries l))
    · have hx : ∀ t, LogText (entries l) t → MessageText E.fl ms t := by
        intro t ht
        have := hr.logged.messageText (l.map fun x => (⟨x.1, [.controller x.2.sigs]⟩, x.2.event, x.2.attached)) (by
          intro x hx
          obtain ⟨y, hy, rfl⟩ := List.mem_map.mp hx
          exact (hr.parts y hy).1) (by rw [List.map_map]; rfl) ht
        rw [hr.texts]
        rw [List.map_map] at this
        exact this
      exact .inr (hc.mono hx hx)
    · left
      have hs := (hr.logged.other hE).deliver (by rw [hE.H]; exact hH) (by rw [hE.H]; exact hc) hstore (fuel := fuel) (deep := deep) hv
        (by rw [entries, List.length_map]; rw [hr.texts, List.length_map] at hlen; exact hlen)
        (l.map fun x => (⟨x.1, [.controller x.2.sigs]⟩, x.2.event, x.2.attached)) (by
          intro x hx
          obtain ⟨y, hy, rfl⟩ := List.mem_map.mp hx
          exact (hr.parts y hy).1) [] (by rw [List.nil_append, List.map_map]; rfl) st (by rw [hst]; exact .nil) [] (by simp) (by
          intro hdd
          obtain ⟨d1, d2⟩ := hd hdd
          refine ⟨by rw [hr.texts, List.length_map] at d1; rw [entries, List.length_map]; exact d1, ?_⟩
          unfold KeepsLog
          rw [hst, List.nil_append, List.map_map, entries, List.forall₂_map_left_iff, List.forall₂_map_right_iff, List.forall₂_same]
          intro x hx
          exact ⟨x.2.event, x.2.attached, rfl, (hr.parts x hx).1, fun _ => d2 x.2 (List.mem_map_of_mem hx)⟩)
      rw [List.flatMap_map, List.map_map] at hs
      refine ⟨withEvents st pre (l.map fun x => x.2.event ++ x.2.attached), by rw [List.flatMap_map]; exact hs, ?_, ?_, rfl, rfl⟩
      · rw [hr.texts]
        simp [withEvents, hst, Parts.text]
      · intro p hp
        simp [withEvents, hp]

/-- C90: a rotation with fewer keys in reserve than were pledged, from whatever salt, is refused by a verifier that has the messages so far, and changes nothing
there: what it returns is not an event of the identifier. (`fresh`: none of the new signing keys is one of those pledged.) -/
theorem C90_fewer (E E' : Env) (S : Stretch) (hC : CryptoOk E.C) (hH : HashOk E.H) (hE : SameCode E E')
    (code tier : Option Str) (pre said : Str) (ks : KeySet) (salt : Bytes) (r keySn : Nat) (ms : List Str) (hr : r ≤ 4096)
    (h : ReserveSession E S code tier pre said ks salt r keySn ms) (hm : ∀ m ∈ ms, (toUtf8 m).length < 2 ^ 32) (hlen : ms.length < 2 ^ 32)
    (rnd : Nat → Nat) (keySn' : Nat) (code' tier' : Option Str) (scount rcount : Option Nat) (salt' nextSalt : Bytes) (said' m : Str) (ks' : KeySet)
    (few : rcount.getD 3 < r)
    (call : kmiRotatePartial E S rnd pre said ms.length keySn' code' scount rcount tier' (some salt') (some nextSalt) none none none = .ok (said', ks', m))
    (hm' : (toUtf8 m).length < 2 ^ 32)
    (fresh : ∀ nks ds ds', KeySet.generateFromSalt E S salt code (some r) 0 (some true) (fmtNat 10 keySn) tier none = .ok nks → nks.digersQb64 E = .ok ds →
      ks'.digersQb64 E = .ok ds' → ∀ d ∈ ds', d ∉ ds) :
    ∃ p : Parts, m = p.text ∧ p.Wellformed E.chk ∧ ∀ st : Store, st.kels pre = ms → ∀ (fuel : Nat) (deep verify : Option Bool), verify ≠ some false →
      ingestLoop E' (fuel + 1) deep verify st p.parsed [] = (st, .err .validation) := by
  obtain ⟨l, hrs⟩ := reserve_running hC hH h hr hm (by omega)
  have hll : (entries l).length = ms.length := by rw [hrs.texts, entries, List.length_map, List.length_map]
  unfold kmiRotatePartial at call
  dsimp only at call
  obtain ⟨pk, hpk, call⟩ := Res.bind_eq_ok.mp call
  unfold partialKeys at hpk
  dsimp only at hpk
  rw [if_neg (by simp)] at hpk
  obtain ⟨ckeys, hck, hpk⟩ := Res.bind_eq_ok.mp hpk
  obtain ⟨k1, -, hpk⟩ := Res.bind_eq_ok.mp hpk
  obtain ⟨rkeys, hrk, hpk⟩ := Res.bind_eq_ok.mp hpk
  obtain ⟨ca, hca, hpk⟩ := Res.bind_eq_ok.mp hpk
  obtain ⟨rb, hrb, hpk⟩ := Res.bind_eq_ok.mp hpk
  cases hpk
  dsimp only at call
  obtain ⟨skeys, hsk, call⟩ := Res.bind_eq_ok.mp call
  obtain ⟨more, hmore, call⟩ := Res.bind_eq_ok.mp call
  rw [Res.ok_bind] at call
  obtain ⟨s, hs, call⟩ := Res.bind_eq_ok.mp call
  rw [if_neg (by simp)] at call
  obtain ⟨sa, hsa, call⟩ := Res.bind_eq_ok.mp call
  obtain ⟨sb, hsb, call⟩ := Res.bind_eq_ok.mp call
  obtain ⟨e, he, call⟩ := Res.bind_eq_ok.mp call
  obtain ⟨ev, hev, call⟩ := Res.bind_eq_ok.mp call
  obtain ⟨d, hd, call⟩ := Res.bind_eq_ok.mp call
  cases call
  obtain ⟨c1, c2, -, c3⟩ := fromSalt_usable hck
  obtain ⟨s1, s2, -, s3⟩ := generate_usable hsk
  simp only [Option.getD_some] at c3 s3
  obtain ⟨la, hla, hina⟩ := sign_ok hC ⟨c2, c1⟩ (made hsa)
  obtain ⟨lb, hlb, hinb⟩ := sign_at hC s1 hsb
  have hlal := (signers_good hC c1 hla).1
  have hlbl := (signers_good hC s1 hlb).1
  rw [s2, Nat.mod_eq_of_lt (by omega)] at hinb
  have hinb' : InOrder E.C lb s.raw (0 + la.length) sb := by rw [Nat.zero_add, hlal, c3]; exact hinb
  have hin' := hina.append hinb'
  have hcount := in_order_count hin'
  rw [List.length_append] at hcount
  have hshort : ∀ g ∈ sa ++ sb, ShortSig g := by
    intro g hg
    rcases List.mem_append.mp hg with hg | hg
    · exact sign_short hC c1 hsa g hg
    · exact sign_short hC s1 hsb g hg
  have hmsg : SignedMessage E.chk s ((sa ++ sb).map Siger.bare) m ∧ ∀ g ∈ (sa ++ sb).map Siger.bare, FromText g :=
    ⟨(message_ok hshort (by rw [hin'.1, List.length_append]; omega) he hev).same (bare_same _), fun g hg => bare_read hshort hg⟩
  have hin := hin'.same (bare_same (sa ++ sb))
  obtain ⟨p, hps, hp1, hp2, hp3, hp4⟩ := parts_of hmsg hm'
  obtain ⟨vs, t, kt, nt, bt, th, nth, hb, -, -, hth, hnth, htS, hntS, hsz, hnsz, hone, hnone, -, -, -, -, -, newits, mt, -, -, hbt, -, -, hkt, hnt⟩ :=
    rotate_all (by omega) hs
  simp only [Option.getD_some, Option.getD_none] at hb hth hnth hnsz hbt hkt hnt
  have hsend : Sendable s := by
    refine sendable_built hb (by simp) ?_ hp4
    intro e he
    simp only [List.mem_cons, List.not_mem_nil, or_false] at he
    rcases he with rfl | rfl | rfl | rfl | rfl | rfl | rfl | rfl | rfl | rfl | rfl | rfl | rfl | rfl
    all_goals first
      | exact fine_str _
      | exact fine_thold hth hkt
      | exact fine_thold hnth hnt
      | exact fine_texts _
      | exact fine_toad hbt
      | exact fine_arr (by simp)
  obtain ⟨x, hx, hxs⟩ := hrs.last
  obtain ⟨est, hest, -, nks, ds, pnt, hnk, hnd, hfn, hpnt, hpw, hpl⟩ := hrs.latest
  obtain ⟨v1, v2, -, v3⟩ := fromSalt_usable hnk
  have hw := shares_weights (a := rcount.getD 3) (b := scount.getD 2) (by omega)
  have hth' := (C29_input E.chk (jsonRead E.fl) _ th).1 _ hw (by simp) hth
  have hacc := tholder_accepted htS
  have hk : field (str% "k") s.ked = some (.arr ((ca ++ more).map .str)) := by
    rw [hb.fields _ (by decide) (by decide)]; simp [field, Sample.texts]
  obtain ⟨o', ho', hv⟩ := hb.first
  have hverf : Serder.verfers s = .ok (la.map (fun s => s.verfer) ++ lb.map (fun s => s.verfer)) :=
    (C55_keys s _).mpr ⟨o', ho', .inl ⟨_, hk, List.rel_append (listed_signers hC c1 hca hla) (listed_signers hC s1 hmore hlb)⟩⟩
  have hkf := keysOf_of (E := E) hverf htS
  have hlast : (entries l).getLast? = some ⟨x.1, [.controller x.2.sigs]⟩ := by
    unfold entries
    rw [List.getLast?_map, hx]
    rfl
  obtain ⟨g1, g2⟩ := in_order hin
  rw [g2, List.map_append] at g1
  refine ⟨p, hp1, hp3, fun st hst fuel deep verify hver => ?_⟩
  have hstored : List.Forall₂ (Reads E.fl) (st.kels pre) (entries l) := by
    rw [hst, hrs.texts, entries, List.forall₂_map_left_iff, List.forall₂_map_right_iff, List.forall₂_same]
    intro y hy
    have := hrs.logged.reads ⟨y.1, [.controller y.2.sigs]⟩ (List.mem_map.mpr ⟨y, hy, rfl⟩) y.2.attached
    rw [(hrs.parts y hy).1, ← toUtf8_append] at this
    exact this
  obtain ⟨raw, hraw, hreads⟩ := latestEst_of hstored (n := (entries l).length - 1) (by have := hstored.length_eq; omega) (ValidLog.types hrs.logged.valid) hest
  obtain ⟨-, oe, hoe, -⟩ := read_doc hreads
  obtain ⟨ln, hln⟩ : ∃ ln, nks.signers E = .ok ln := by
    unfold KeySet.digersQb64 KeySet.verfers at hnd
    obtain ⟨a, ha, -⟩ := Res.bind_eq_ok.mp hnd
    obtain ⟨b, hb, -⟩ := Res.bind_eq_ok.mp ha
    exact ⟨b, hb⟩
  have hvf : nks.verfers E = .ok (ln.map fun s => s.verfer) := by
    unfold KeySet.verfers
    rw [hln]
    rfl
  obtain ⟨digs, hds, hdd⟩ := listed_digests hH hnd hoe hfn hvf
  have hdt := digs_texts hnd hvf hdd
  have hnext : nextOf E est.sad = .ok (digs, pnt) := by
    unfold nextOf
    rw [hds, Res.ok_bind, hpnt, Res.ok_bind]
    rfl
  have hsat : th.satisfy E.chk (((List.range (la ++ lb).length).map fun i => (i, i)).map Prod.fst) = .ok true := by
    refine covers_satisfied (n := (la ++ lb).length) hacc (.inr ⟨_, hth'.2.1, ?_⟩) (by rw [List.length_append]; omega) ?_
    · rw [List.length_append, hlal, hlbl, c3, s3]
      simp [positions, shares_length]
    · rw [List.map_map]; exact List.map_id _
  have tot : ∀ {k : KeySet} {ts : List Str} {l : List Signer}, k.signers E = .ok l → k.verfersQb64 E = .ok ts →
      ∀ v ∈ l.map (fun s => s.verfer), ∃ q d u, qb64b E.chk v = .ok q ∧ Diger.newWithSer E.H q none = .ok d ∧ qb64 E.chk d = .ok u := by
    intro k ts l h1 h2
    unfold KeySet.verfersQb64 KeySet.verfers at h2
    rw [h1, Res.ok_bind, Res.ok_bind] at h2
    exact digers_total hH h2
  obtain ⟨idx, hidx, hin'⟩ := priorIndices_some (E := E) (v := la.map (fun s => s.verfer) ++ lb.map (fun s => s.verfer)) (ds := digs)
    (fun k hk => (List.mem_append.mp hk).elim (tot hla hca k) (tot hlb hmore k)) (fun d hd => by
      obtain ⟨u, -, hu⟩ := forall₂_mem_left hdt hd
      exact ⟨u, hu⟩) (l := List.range (la ++ lb).length) (by simp)
  have hsatn : pnt.satisfy E.chk idx = .ok false := by
    refine shares_short (n := rcount.getD 3) (b := r) (tholder_accepted hpnt) (by unfold shares; rw [List.replicate_zero, List.nil_append]; exact hpw) few (by omega) ?_
    intro j hj
    by_contra hge
    obtain ⟨-, k, q, d, u, n, e1, e2, e3, e4, e5, e6⟩ := hin' j hj
    rw [List.getElem?_append_right (by rw [List.length_map]; omega)] at e1
    obtain ⟨ds', hds', hu⟩ := digers_of (digers_all (tot hlb hmore)) (by unfold KeySet.verfers; rw [hlb]; rfl) (List.mem_of_getElem? e1) e2 e3 e4
    refine fresh nks ds ds' hnk hnd hds' u hu ?_
    obtain ⟨w, hw1, hw2⟩ := forall₂_mem_left hdt (List.mem_of_getElem? e5)
    rw [e6] at hw2
    cases hw2
    exact hw1
  obtain ⟨q, tt, k1, k2⟩ := accept_rot_by hstored hrs.logged.valid (by omega) hlast hest hxs (by rw [hll]; exact hs) hkf g1 hsat hnext hidx hsatn
  rw [if_neg (by simp)] at k2
  have ht : field (str% "t") s.ked = some (.str (str% "rot")) := by
    rw [hb.fields _ (by decide) (by decide)]
    simp [field]
  have hread := hb.reads hsend.plain hsend.depth hsend.small E.fl []
  rw [hp2] at hread
  unfold Parts.parsed
  refine ingest_refused hver (by rw [hE.fl]; simpa [toUtf8] using hread) (by rw [hE.chk]; exact k1) ht (.inr (.inl rfl)) ?_
  rw [checkKeyEvent_same hE, hps]
  exact k2

/-! ## A controller -/

/-- A function that stretches a path and a salt into a seed: one after the other, padded. -/
def World.salting : Stretch where
  argon2id _ _ len pwd salt := .ok ((pwd ++ salt ++ List.replicate len 0).take len)
  fill n := List.replicate 16 (UInt8.ofNat n)

/-- A salt of sixteen bytes. -/
def World.saltOf (n : Nat) : Bytes := List.replicate 16 (UInt8.ofNat n)

/-- Calls with two signing keys and three keys in reserve, then four. -/
def World.reserve : Res ((Str × KeySet × Str) × (Str × Str) × (Str × KeySet × Str) × (Str × Str)) := do
  let a ← kmiInceptPartial (World.env []) World.salting id none none none (some true) (some (str% "E")) none (some (World.saltOf 5)) none none
  let b ← kmiInteract (World.env []) 0 a.2.1 a.1 a.1 1 (.arr [])
  let c ← kmiRotatePartial (World.env []) World.salting id a.1 b.1 2 1 none none (some 4) none (some (World.saltOf 5)) (some (World.saltOf 6)) none none none
  let d ← kmiInteract (World.env []) 0 c.2.1 a.1 c.1 3 (.arr [])
  .ok (a, b, c, d)

/-- The hypotheses of `C90_history` and `C90_accepted` are met. -/
example : ∃ pre said ks salt ms, ms.length = 4 ∧ ReserveSession (World.env []) World.salting none none pre said ks salt 4 2 ms ∧ ∀ m ∈ ms, (toUtf8 m).length < 2 ^ 32 := by
  obtain ⟨⟨⟨pre, k0, m0⟩, ⟨d1, m1⟩, ⟨d2, k2, m2⟩, d3, m3⟩, hr, hc⟩ := World.holds_ok (r := World.reserve) (f := fun x =>
    decide ((toUtf8 x.1.2.2).length < 2 ^ 32) && decide ((toUtf8 x.2.1.2).length < 2 ^ 32) && decide ((toUtf8 x.2.2.1.2.2).length < 2 ^ 32) &&
      decide ((toUtf8 x.2.2.2.2).length < 2 ^ 32)) (by decide +kernel)
  simp only [Bool.and_eq_true, decide_eq_true_eq] at hc
  obtain ⟨⟨⟨c1, c2⟩, c3⟩, c4⟩ := hc
  unfold World.reserve at hr
  obtain ⟨⟨pre', k0', m0'⟩, h0, hr⟩ := Res.bind_eq_ok.mp hr
  obtain ⟨⟨d1', m1'⟩, h1, hr⟩ := Res.bind_eq_ok.mp hr
  obtain ⟨⟨d2', k2', m2'⟩, h2, hr⟩ := Res.bind_eq_ok.mp hr
  obtain ⟨⟨d3', m3'⟩, h3, hr⟩ := Res.bind_eq_ok.mp hr
  have hr := Res.ok.inj hr
  simp only [Prod.mk.injEq] at hr
  obtain ⟨⟨rfl, rfl, rfl⟩, ⟨rfl, rfl⟩, ⟨rfl, rfl, rfl⟩, rfl, rfl⟩ := hr
  have fine : Plain (.arr []) ∧ nesting (.arr []) ≤ 126 := ⟨by simp [Plain, Proper, ProperArr], by simp [nesting, nestingArr]⟩
  have s0 := ReserveSession.incept _ _ _ _ _ _ _ h0
  have s1 := ReserveSession.interact _ _ _ _ _ _ _ _ _ _ _ s0 fine h1
  have s2 := ReserveSession.rotate _ _ _ _ _ _ _ _ _ _ _ _ _ _ s1 (by decide) h2
  have s3 := ReserveSession.interact _ _ _ _ _ _ _ _ _ _ _ s2 fine h3
  refine ⟨_, _, _, _, _, rfl, s3, ?_⟩
  intro m hm
  simp only [List.cons_append, List.nil_append, List.mem_cons, List.not_mem_nil, or_false] at hm
  rcases hm with rfl | rfl | rfl | rfl <;> assumption

/-- Three keys are in reserve, and a rotation is made with two. -/
def World.fewer : Res ((Str × KeySet × Str) × (Str × KeySet × Str)) := do
  let a ← kmiInceptPartial (World.env []) World.salting id none none none (some true) (some (str% "E")) none (some (World.saltOf 5)) none none
  let c ← kmiRotatePartial (World.env []) World.salting id a.1 a.1 1 1 none none (some 2) none (some (World.saltOf 5)) (some (World.saltOf 6)) none none none
  .ok (a, c)

/-- The hypotheses of `C90_fewer` are met: the salt and the number are the right ones. -/
example : ∃ pre ks m said' ks' m', ReserveSession (World.env []) World.salting none none pre pre ks (World.saltOf 5) 3 1 [m] ∧ (toUtf8 m).length < 2 ^ 32 ∧
    kmiRotatePartial (World.env []) World.salting id pre pre 1 1 none none (some 2) none (some (World.saltOf 5)) (some (World.saltOf 6)) none none none = .ok (said', ks', m') ∧
    (toUtf8 m').length < 2 ^ 32 ∧
    ∀ nks ds ds', KeySet.generateFromSalt (World.env []) World.salting (World.saltOf 5) none (some 3) 0 (some true) (fmtNat 10 1) none none = .ok nks →
      nks.digersQb64 (World.env []) = .ok ds → ks'.digersQb64 (World.env []) = .ok ds' → ∀ d ∈ ds', d ∉ ds := by
  obtain ⟨⟨⟨pre, k0, m0⟩, d2, k2, m2⟩, hr, hc⟩ := World.holds_ok (r := World.fewer) (f := fun x =>
    decide ((toUtf8 x.1.2.2).length < 2 ^ 32) && decide ((toUtf8 x.2.2.2).length < 2 ^ 32) &&
      World.holds (KeySet.generateFromSalt (World.env []) World.salting (World.saltOf 5) none (some 3) 0 (some true) (fmtNat 10 1) none none) fun nks =>
      World.holds (nks.digersQb64 (World.env [])) fun ds => World.holds (x.2.2.1.digersQb64 (World.env [])) fun ds' => ds'.all fun d => !ds.contains d) (by decide +kernel)
  simp only [Bool.and_eq_true, decide_eq_true_eq] at hc
  obtain ⟨⟨c1, c2⟩, c3⟩ := hc
  obtain ⟨nks, e1, c3⟩ := World.holds_ok c3
  obtain ⟨ds, e2, c3⟩ := World.holds_ok c3
  obtain ⟨ds', e3, c5⟩ := World.holds_ok c3
  unfold World.fewer at hr
  obtain ⟨⟨pre', k0', m0'⟩, h0, hr⟩ := Res.bind_eq_ok.mp hr
  obtain ⟨⟨d2', k2', m2'⟩, h2, hr⟩ := Res.bind_eq_ok.mp hr
  have hr := Res.ok.inj hr
  simp only [Prod.mk.injEq] at hr
  obtain ⟨⟨rfl, rfl, rfl⟩, rfl, rfl, rfl⟩ := hr
  refine ⟨_, _, _, _, _, _, ReserveSession.incept _ _ _ _ _ _ _ h0, c1, h2, c2, ?_⟩
  intro nks' a b f1 f2 f3 d hd
  rw [e1] at f1
  cases f1
  rw [e2] at f2
  cases f2
  rw [e3] at f3
  cases f3
  have := List.all_eq_true.mp c5 d hd
  simpa using this

end Keride.Props
