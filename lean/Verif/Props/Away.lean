/-
C114: the messages of `incept_partial`, `rotate_partial` and interactions, when the keys to rotate with are kept elsewhere.
-/
import Verif.Props.Reserve
import Verif.Props.Digests
import Verif.Spec.Away

namespace Keride.Props

open Spec Sample Matter

/-- What holds along a session with keys kept elsewhere. -/
structure Abroad (E : Env) (pre said : Str) (ks away : KeySet) (ms : List Str) (l : List (Sad × Parts)) : Prop where
  texts : ms = l.map fun x => x.2.text
  parts : ∀ x ∈ l, x.1.raw = toUtf8 x.2.event ∧ x.2.Wellformed E.chk
  logged : Logged E pre (entries l)
  seeds : ∀ t ∈ ks.keys, '=' ∉ t
  last : ∃ x, l.getLast? = some x ∧ Sadder.said E.chk x.1 = .ok said
  usable : Usable away
  latest : ∃ est, LatestEst (entries l) est ∧
    (∃ va sg t, keysOf E est.sad = .ok (va ++ sg.map (fun s => s.verfer), t) ∧ ks.signers E = .ok sg ∧ va.length = ks.offset ∧
      IsWeights t.thold [shares ks.offset sg.length] ∧ sg.length ≠ 0 ∧ ks.offset + sg.length ≤ 4096 ∧ Accepted E.chk (jsonRead E.fl) t) ∧
    ∃ ds nt, away.digersQb64 E = .ok ds ∧ field (str% "n") est.sad.ked = some (.arr (ds.map .str)) ∧ Serder.ntholder E.chk E.fl est.sad = .ok (some nt) ∧
      Covers nt away.keys.length

theorem away_running {E : Env} {S : Stretch} (hC : CryptoOk E.C) (hH : HashOk E.H) {pre said : Str} {ks away : KeySet} {ms : List Str}
    (h : AwaySession E S pre said ks away ms) (hm : ∀ m ∈ ms, (toUtf8 m).length < 2 ^ 32) (hlen : ms.length ≤ 2 ^ 32) : ∃ l, Abroad E pre said ks away ms l := by
  induction h with
  | incept rnd code tier scount rcount salt ndigs nsith pre m ks away usable hsome hnd asked call =>
    obtain ⟨v, hv1, hv2, hv3⟩ := asked
    unfold kmiInceptPartial at call
    dsimp only at call
    obtain ⟨ckeys, hck, call⟩ := Res.bind_eq_ok.mp call
    obtain ⟨keys, hkeys, call⟩ := Res.bind_eq_ok.mp call
    rw [Res.ok_bind, hv1, Res.ok_bind] at call
    obtain ⟨s, hs, call⟩ := Res.bind_eq_ok.mp call
    obtain ⟨ev, hev, call⟩ := Res.bind_eq_ok.mp call
    obtain ⟨pre', hpre, call⟩ := Res.bind_eq_ok.mp call
    cases call
    obtain ⟨u1, u2, -, u3⟩ := generate_usable hck
    have hu : Usable ks := ⟨u2, u1⟩
    obtain ⟨sigs, sg, hsg, hsgn, hin, hmsg⟩ := signedMessage_at hC u1 hev
    obtain ⟨p, rfl, hp1, hp2, hp3, hp4⟩ := parts_of hmsg (hm m (by simp))
    obtain ⟨vs, t, kt, nt, bt, th, nth, pre', hb, hsn, hth, hnth, htS, hntS, hsz, hnsz, hone, -, mt, -, hbt, -, hkt, hnt⟩ :=
      incept_all (c := str% "E") (by decide) hs
    simp only [Option.getD_some, Option.getD_none] at hb hnth hnsz hbt hkt hnt u3 hth
    have hsend : Sendable s := by
      refine sendable_incepted hb (by unfold icpDoc; simp) ?_ hp4
      intro e he
      simp only [icpDoc, List.mem_cons, List.not_mem_nil, or_false] at he
      rcases he with rfl | rfl | rfl | rfl | rfl | rfl | rfl | rfl | rfl | rfl | rfl | rfl | rfl
      all_goals first
        | exact fine_str _
        | exact fine_thold hth hkt
        | exact fine_thold hnth hnt
        | exact fine_texts _
        | exact fine_toad hbt
        | exact fine_arr (by simp)
    have hkl := keys_length hkeys
    have hsl := (signers_good hC u1 hsgn).1
    have hpe : pre' = pre := by
      have := (C55_pre s pre').mpr hb.names
      rw [hpre] at this
      exact (Res.ok.inj this).symm
    subst hpe
    have hcount : sg.length ≤ 4096 := by
      by_cases h0 : sg = []
      · simp [h0]
      · have := in_order_bound hin h0
        omega
    have hw := shares_weights (a := 0) (b := scount.getD 2) (by omega)
    rw [List.replicate_zero, List.nil_append] at hw
    have hth' := (C29_input E.chk (jsonRead E.fl) _ th).1 _ hw (by simp) hth
    have hdl := digers_length hnd
    have hlen0 : away.keys.length ≠ 0 := by
      intro h0
      exact hsome (List.length_eq_zero_iff.mp h0)
    have hncov : Covers nth away.keys.length :=
      askable_covers (i := 0) hv3 hnth (by rw [← hdl]; exact hnsz) (next_one hv3 (by rw [Option.getD_some]; exact hnth) (by simpa using hv2) hlen0)
    have hacc := tholder_accepted htS
    have hne : scount.getD 2 ≠ 0 := by
      intro h0
      have := clause_sum hacc hth'.2.1 _ (List.mem_singleton.mpr rfl)
      rw [h0] at this
      norm_num [shares] at this
    have hcov : Covers th keys.length := .inr ⟨_, hth'.2.1, by rw [hkl, u3]; simp [positions, shares_length]⟩
    have ht : HasText (str% "t") (str% "icp") s := by
      unfold HasText
      rw [hb.fields _ (by decide) (by decide) (by decide)]
      simp [field, icpDoc]
    have hk : field (str% "k") s.ked = some (.arr (keys.map .str)) := by
      rw [hb.fields _ (by decide) (by decide) (by decide)]; simp [field, icpDoc, Sample.texts]
    obtain ⟨o', ho', hv⟩ := hb.first
    have hlog : Logged E pre' (entries [(s, p)]) := by
      refine Logged.snoc (log := []) hH (.inl rfl) (by simp) ?_ ?_ ⟨_, hb.raw⟩ ⟨o', ho', hv, ho' ▸ plain_decimal hsend.plain⟩
      · intro st hst
        have hst : st.kels pre' = [] := by
          cases hk : st.kels pre' with
          | nil => rfl
          | cons a b => rw [hk] at hst; cases hst
        obtain ⟨k1, k2⟩ := accept_icp hC hu hkeys (c := str% "E") (by decide) hs (by
          intro t ht
          simp only [Option.getD_some] at ht
          rw [hth] at ht
          cases ht
          exact hcov) hsg hpre hst
        exact ⟨pre', none, k1, k2⟩
      · exact hb.reads hsend.plain hsend.depth hsend.small E.fl
    refine ⟨[(s, p)], by simp [hp1], by simpa using ⟨hp2, hp3⟩, hlog, u1, ⟨_, rfl, hb.reports⟩, usable,
      ⟨s, [.controller p.sigs]⟩, ⟨[], [], rfl, .inl ht, by simp⟩, ⟨[], sg, th, ?_, hsgn, by simp [u2], ?_, by omega, by omega, hacc⟩,
      ndigs, nth, hnd, ?_, hntS, hncov⟩
    · rw [List.nil_append]
      exact keysOf_of (listed_keys hC hu hkeys ho' hk hsgn) htS
    · rw [u2, hsl, u3]; exact hth'.2.1
    · rw [hb.fields _ (by decide) (by decide) (by decide)]; simp [field, icpDoc, Sample.texts]
  | interact rnd data pre said said' m ks away ms before hdata call ih =>
    obtain ⟨l, hr⟩ := ih (fun m hx => hm m (by simp [hx])) (by rw [List.length_append] at hlen; omega)
    unfold kmiInteract at call
    obtain ⟨s, hs, call⟩ := Res.bind_eq_ok.mp call
    obtain ⟨ev, hev, call⟩ := Res.bind_eq_ok.mp call
    obtain ⟨d, hd, call⟩ := Res.bind_eq_ok.mp call
    cases call
    obtain ⟨sigs, sg, hsg, hsgn, hin, hmsg⟩ := signedMessage_at hC hr.seeds hev
    obtain ⟨p, rfl, hp1, hp2, hp3, hp4⟩ := parts_of hmsg (hm m (by simp))
    have hll : (entries l).length = ms.length := by rw [hr.texts, entries, List.length_map, List.length_map]
    have hlt : ms.length < 2 ^ 32 := by rw [List.length_append] at hlen; simp at hlen; omega
    obtain ⟨vs, t, hb, -, -, -⟩ := interact_ok (sn := some ms.length) (by simp; omega) hs
    have hsend : Sendable s := by
      refine sendable_built hb (by simp) ?_ hp4
      intro e he
      simp only [List.mem_cons, List.not_mem_nil, or_false] at he
      rcases he with rfl | rfl | rfl | rfl | rfl | rfl | rfl
      all_goals first
        | exact fine_str _
        | exact hdata
    obtain ⟨x, hx, hxs⟩ := hr.last
    obtain ⟨est, he, ⟨va, sg', t', hk, hsgn', hva, hw, hne0, hbd, hacc⟩, hn⟩ := hr.latest
    rw [hsgn] at hsgn'
    cases hsgn'
    have ht : field (str% "t") s.ked = some (.str (str% "ixn")) := by
      rw [hb.fields _ (by decide) (by decide)]
      simp [field]
    have hne : ¬ Establishes s := by
      rintro (h | h) <;> (unfold HasText at h; rw [ht] at h; simp at h)
    obtain ⟨o', ho', hv⟩ := hb.first
    rw [Nat.mod_eq_of_lt (by omega)] at hin
    have hlast : (entries l).getLast? = some ⟨x.1, [.controller x.2.sigs]⟩ := by
      unfold entries
      rw [List.getLast?_map, hx]
      rfl
    have hlog : Logged E pre (entries (l ++ [(s, p)])) := by
      unfold entries
      rw [List.map_append]
      refine Logged.snoc (log := entries l) hH (.inr hr.logged) (by omega) ?_ ?_ ⟨_, hb.raw⟩ ⟨o', ho', hv, ho' ▸ plain_decimal hsend.plain⟩
      · intro st hst
        obtain ⟨q, t, k1, k2⟩ := accept_ixn_by hst hr.logged.valid (by omega) hlast he hxs hk (by rw [hll]; exact hs) (in_order_at hin hva) (by
          rw [List.map_map, show (Prod.fst ∘ fun i : Nat => (i, i)) = id from rfl, List.map_id]
          refine shares_met hacc hw hne0 (by omega) ?_ ?_
          · intro i hi
            rw [List.mem_range'_1] at hi
            omega
          · intro i h1 h2
            rw [List.mem_range'_1]
            omega)
        exact ⟨q, _, k1, k2⟩
      · exact hb.reads hsend.plain hsend.depth hsend.small E.fl
    refine ⟨l ++ [(s, p)], by simp [hr.texts, hp1], ?_, hlog, hr.seeds, ⟨(s, p), by simp, hd⟩, hr.usable, est, ?_, ⟨va, sg, t', hk, hsgn, hva, hw, hne0, hbd, hacc⟩, hn⟩
    · intro y hy
      rcases List.mem_append.mp hy with hy | hy
      · exact hr.parts y hy
      · rw [List.mem_singleton.mp hy]; exact ⟨hp2, hp3⟩
    · unfold entries
      rw [List.map_append]
      exact latest_snoc he hne
  | rotate rnd code tier scount rcount keySn r1 r2 ca rb nsith text pre said said' m ks away ks' away' sv sa sb e ms before hca usable hsome hrb asked call same hsa hsb he hev ih =>
    obtain ⟨l, hrs⟩ := ih (fun m hx => hm m (by simp [hx])) (by rw [List.length_append] at hlen; omega)
    have hll : (entries l).length = ms.length := by rw [hrs.texts, entries, List.length_map, List.length_map]
    have hlt : ms.length < 2 ^ 32 := by rw [List.length_append] at hlen; simp at hlen; omega
    obtain ⟨v, hv1, hv2, hv3⟩ := asked
    unfold kmiRotatePartial at call
    dsimp only at call
    rw [show partialKeys E S keySn code (rcount.getD 3) tier none none (some ca) (some rb) (some nsith) = .ok (ca, rb, ca.length, rb.length, none) from rfl,
      Res.ok_bind] at call
    dsimp only at call
    obtain ⟨skeys, hsk, call⟩ := Res.bind_eq_ok.mp call
    obtain ⟨more, hmore, call⟩ := Res.bind_eq_ok.mp call
    rw [hv1, Res.ok_bind] at call
    obtain ⟨s, hs, call⟩ := Res.bind_eq_ok.mp call
    rw [if_pos (by simp)] at call
    obtain ⟨d, hd, call⟩ := Res.bind_eq_ok.mp call
    obtain ⟨tx, htx, call⟩ := Res.bind_eq_ok.mp call
    cases call
    have hraw : sv.raw = s.raw := by rw [same, fromUtf8_ok htx]
    rw [hraw] at hsa hsb
    have hev : messagizeSerder s e (some true) = .ok m := by
      unfold messagizeSerder at hev ⊢
      rwa [hraw] at hev
    obtain ⟨s1, s2, -, s3⟩ := generate_usable hsk
    simp only [Option.getD_some] at s3
    obtain ⟨la, hla, hina⟩ := sign_ok hC hrs.usable (made hsa)
    obtain ⟨lb, hlb, hinb⟩ := sign_at hC s1 hsb
    have hlal := (signers_good hC hrs.usable.seeds hla).1
    have hlbl := (signers_good hC s1 hlb).1
    have hkl := keys_length hca
    have hla4 : la.length ≤ 4096 := by
      by_cases h0 : la = []
      · simp [h0]
      · have := in_order_bound hina h0
        omega
    rw [s2, Nat.mod_eq_of_lt (by omega)] at hinb
    have hinb' : InOrder E.C lb s.raw (0 + la.length) sb := by rw [Nat.zero_add, hlal, ← hkl]; exact hinb
    have hin' := hina.append hinb'
    have hcount := in_order_count hin'
    rw [List.length_append] at hcount
    have hshort : ∀ g ∈ sa ++ sb, ShortSig g := by
      intro g hg
      rcases List.mem_append.mp hg with hg | hg
      · exact sign_short hC hrs.usable.seeds hsa g hg
      · exact sign_short hC s1 hsb g hg
    have hmsg : SignedMessage E.chk s ((sa ++ sb).map Siger.bare) m ∧ ∀ g ∈ (sa ++ sb).map Siger.bare, FromText g :=
      ⟨(message_ok hshort (by rw [hin'.1, List.length_append]; omega) he hev).same (bare_same _), fun g hg => bare_read hshort hg⟩
    have hin := hin'.same (bare_same (sa ++ sb))
    obtain ⟨p, hps, hp1, hp2, hp3, hp4⟩ := parts_of hmsg (hm m (by simp))
    obtain ⟨vs, t, kt, nt, bt, th, nth, hb, -, -, hth, hnth, htS, hntS, hsz, hnsz, hone, hnone, -, -, -, -, -, newits, mt, -, -, hbt, -, -, hkt, hnt⟩ :=
      rotate_all (by omega) hs
    simp only [Option.getD_some, Option.getD_none] at hb hth hnth hnsz hbt hkt hnt
    have hsend : Sendable s := by
      refine sendable_built hb (by simp) ?_ hp4
      intro e he
      simp only [List.mem_cons, List.not_mem_nil, or_false] at he
      rcases he with rfl | rfl | rfl | rfl | rfl | rfl | rfl | rfl | rfl | rfl | rfl | rfl | rfl | rfl
      all_goals first
        | exact fine_str _
        | exact fine_thold hth hkt
        | exact fine_thold hnth hnt
        | exact fine_texts _
        | exact fine_toad hbt
        | exact fine_arr (by simp)
    obtain ⟨x, hx, hxs⟩ := hrs.last
    obtain ⟨est, hest, -, ds, pnt, hnd, hfn, hpnt, hpcov⟩ := hrs.latest
    have hw := shares_weights (a := ca.length) (b := scount.getD 2) (by omega)
    have hth' := (C29_input E.chk (jsonRead E.fl) _ th).1 _ hw (by simp) hth
    have hdl := digers_length hrb
    have hncov : Covers nth away'.keys.length := askable_covers (i := 0) hv3 hnth (by rw [← hdl]; exact hnsz) hnone
    have hacc := tholder_accepted htS
    have hne : scount.getD 2 ≠ 0 := by
      intro h0
      have := clause_sum hacc hth'.2.1 _ (List.mem_singleton.mpr rfl)
      rw [h0] at this
      norm_num [shares] at this
    have ht : HasText (str% "t") (str% "rot") s := by
      unfold HasText
      rw [hb.fields _ (by decide) (by decide)]
      simp [field]
    have hk : field (str% "k") s.ked = some (.arr ((ca ++ more).map .str)) := by
      rw [hb.fields _ (by decide) (by decide)]; simp [field, Sample.texts]
    obtain ⟨o', ho', hv⟩ := hb.first
    have hverf : Serder.verfers s = .ok (la.map (fun s => s.verfer) ++ lb.map (fun s => s.verfer)) :=
      (C55_keys s _).mpr ⟨o', ho', .inl ⟨_, hk, List.rel_append (listed_signers hC hrs.usable.seeds hca hla) (listed_signers hC s1 hmore hlb)⟩⟩
    have hkf := keysOf_of (E := E) hverf htS
    have hlast : (entries l).getLast? = some ⟨x.1, [.controller x.2.sigs]⟩ := by
      unfold entries
      rw [List.getLast?_map, hx]
      rfl
    obtain ⟨g1, g2⟩ := in_order hin
    rw [g2, List.map_append] at g1
    have hlog : Logged E pre (entries (l ++ [(s, p)])) := by
      unfold entries
      rw [List.map_append]
      refine Logged.snoc (log := entries l) hH (.inr hrs.logged) (by omega) ?_ ?_ ⟨_, hb.raw⟩ ⟨o', ho', hv, ho' ▸ plain_decimal hsend.plain⟩
      · intro st hst
        dsimp only
        rw [hps]
        obtain ⟨raw, hraw, hreads⟩ := latestEst_of hst (n := (entries l).length - 1) (by have := hst.length_eq; omega) (ValidLog.types hrs.logged.valid) hest
        obtain ⟨-, oe, hoe, -⟩ := read_doc hreads
        have hvf : away.verfers E = .ok (la.map fun s => s.verfer) := by
          unfold KeySet.verfers
          rw [hla]
          rfl
        obtain ⟨digs, hds, hdd⟩ := listed_digests hH hnd hoe hfn hvf
        have hnext : nextOf E est.sad = .ok (digs, pnt) := by
          unfold nextOf
          rw [hds, Res.ok_bind, hpnt, Res.ok_bind]
          rfl
        have hsat : th.satisfy E.chk (((List.range (la ++ lb).length).map fun i => (i, i)).map Prod.fst) = .ok true := by
          refine covers_satisfied (n := (la ++ lb).length) hacc (.inr ⟨_, hth'.2.1, ?_⟩) (by rw [List.length_append]; omega) ?_
          · rw [List.length_append, hlal, hlbl, ← hkl, s3]
            simp [positions, shares_length]
          · rw [List.map_map]; exact List.map_id _
        have hsatn : pnt.satisfy E.chk ((List.range (la ++ lb).length).filter fun i => decide (i < (la.map fun s => s.verfer).length)) = .ok true := by
          refine covers_satisfied (n := away.keys.length) (tholder_accepted hpnt) hpcov (by omega) ?_
          rw [List.length_map, List.length_append, List.range_add, List.filter_append, List.filter_eq_self.mpr (by simp),
            List.filter_eq_nil_iff.mpr (by simp), List.append_nil, hlal]
        obtain ⟨q, t, k1, k2⟩ := accept_rot_by hst hrs.logged.valid (by omega) hlast hest hxs (by rw [hll]; exact hs) hkf g1 hsat hnext
          (priorIndices_first hdd) hsatn
        exact ⟨q, _, k1, k2⟩
      · exact hb.reads hsend.plain hsend.depth hsend.small E.fl
    refine ⟨l ++ [(s, p)], by simp [hrs.texts, hp1], ?_, hlog, s1, ⟨(s, p), by simp, hd⟩, usable, ⟨s, [.controller p.sigs]⟩, ⟨entries l, [], by simp [entries], .inr ht, by simp⟩,
      ⟨_, lb, th, hkf, hlb, ?_, ?_, by omega, by omega, hacc⟩, rb, nth, hrb, ?_, hntS, hncov⟩
    · intro y hy
      rcases List.mem_append.mp hy with hy | hy
      · exact hrs.parts y hy
      · rw [List.mem_singleton.mp hy]; exact ⟨hp2, hp3⟩
    · rw [List.length_map, hlal, s2, hkl]
    · rw [s2, hlbl, s3]; exact hth'.2.1
    · rw [hb.fields _ (by decide) (by decide)]; simp [field, Sample.texts]

/-- C114: when the keys to rotate with are kept elsewhere, and their digests, and later the keys, are passed to `incept_partial` and `rotate_partial`, the
messages are the events of one valid log in order, as bytes, each followed by framed attached material, which is the group of the signatures of the
event. The SAID the last call returned is that of the last event. -/
theorem C114_history (E : Env) (S : Stretch) (hC : CryptoOk E.C) (hH : HashOk E.H)
    (pre said : Str) (ks away : KeySet) (ms : List Str) (h : AwaySession E S pre said ks away ms)
    (hm : ∀ m ∈ ms, (toUtf8 m).length < 2 ^ 32) (hlen : ms.length ≤ 2 ^ 32) :
    ∃ log : List Entry, ValidLog E.H E.C E.chk E.fl pre log ∧
      List.Forall₂ (fun e m => ∃ sigs, e.groups = [.controller sigs] ∧ SignedMessage E.chk e.sad sigs m) log ms ∧
      ∃ e, log.getLast? = some e ∧ Sadder.said E.chk e.sad = .ok said := by
  obtain ⟨l, hr⟩ := away_running hC hH h hm hlen
  refine ⟨_, hr.logged.valid, ?_, ?_⟩
  · rw [hr.texts, entries, List.forall₂_map_left_iff, List.forall₂_map_right_iff, List.forall₂_same]
    intro x hx
    obtain ⟨h1, -, body, h2, h3⟩ := hr.parts x hx
    exact ⟨x.2.sigs, rfl, x.2.event, x.2.attached, body, h1, rfl, h2, h3⟩
  · obtain ⟨x, h1, h2⟩ := hr.last
    exact ⟨_, by rw [entries, List.getLast?_map, h1]; rfl, h2⟩

/-- C114: a verifier that knows nothing of the identifier and is sent these messages accepts them all. Its log of the identifier is then exactly the
messages, and nothing else has changed, unless the texts digested for two of the messages are different and have the same digest. If it is asked to verify
all earlier events again, its stack must be deep enough for them, and it must read the signatures that it keeps as it received them. -/
theorem C114_accepted (E E' : Env) (S : Stretch) (hC : CryptoOk E.C) (hH : HashOk E.H) (hE : SameCode E E') (hstore : ∀ st t, E'.refuses st t = false)
    (pre said : Str) (ks away : KeySet) (ms : List Str)
    (h : AwaySession E S pre said ks away ms) (hm : ∀ m ∈ ms, (toUtf8 m).length < 2 ^ 32) (hlen : ms.length ≤ 2 ^ 32) :
    ∃ parts : List Parts, ms = parts.map Parts.text ∧ (∀ p ∈ parts, p.Wellformed E.chk) ∧
      ∀ (st : Store), st.kels pre = [] → ∀ (fuel : Nat) (deep verify : Option Bool), verify ≠ some false →
        (deep = some true → ms.length ≤ fuel + 1 ∧ ∀ p ∈ parts, ReadsAs E' p.attached (.quadlets [.controller p.sigs])) →
        (∃ st', ingestLoop E' (fuel + 1) deep verify st (parts.flatMap Parts.parsed) [] = (st', .ok ()) ∧ st'.kels pre = ms ∧
          (∀ p, p ≠ pre → st'.kels p = st.kels p) ∧ st'.tels = st.tels ∧ st'.acdcs = st.acdcs) ∨
          Collision E.H (str% "E") (MessageText E.fl ms) (MessageText E.fl ms) := by
  obtain ⟨l, hr⟩ := away_running hC hH h hm hlen
  refine ⟨l.map Prod.snd, ?_, ?_, ?_⟩
  · rw [hr.texts, List.map_map]; rfl
  · intro p hp
    obtain ⟨x, hx, rfl⟩ := List.mem_map.mp hp
    exact (hr.parts x hx).2
  · intro st hst fuel deep verify hv hd
    by_cases hc : Collision E.H (str% "E") (LogText (entries l)) (LogText (entries l))
    · have hx : ∀ t, LogText (entries l) t → MessageText E.fl ms t := by
        intro t ht
        have := hr.logged.messageText (l.map fun x => (⟨x.1, [.controller x.2.sigs]⟩, x.2.event, x.2.attached)) (by
          intro x hx
          obtain ⟨y, hy, rfl⟩ := List.mem_map.mp hx
          exact (hr.parts y hy).1) (by rw [List.map_map]; rfl) ht
        rw [hr.texts]
        rw [List.map_map] at this
        exact this
      exact .inr (hc.mono hx hx)
    · left
      have hs := (hr.logged.other hE).deliver (by rw [hE.H]; exact hH) (by rw [hE.H]; exact hc) hstore (fuel := fuel) (deep := deep) hv
        (by rw [entries, List.length_map]; rw [hr.texts, List.length_map] at hlen; exact hlen)
        (l.map fun x => (⟨x.1, [.controller x.2.sigs]⟩, x.2.event, x.2.attached)) (by
          intro x hx
          obtain ⟨y, hy, rfl⟩ := List.mem_map.mp hx
          exact (hr.parts y hy).1) [] (by rw [List.nil_append, List.map_map]; rfl) st (by rw [hst]; exact .nil) [] (by simp) (by
          intro hdd
          obtain ⟨d1, d2⟩ := hd hdd
          refine ⟨by rw [hr.texts, List.length_map] at d1; rw [entries, List.length_map]; exact d1, ?_⟩
          unfold KeepsLog
          rw [hst, List.nil_append, List.map_map, entries, List.forall₂_map_left_iff, List.forall₂_map_right_iff, List.forall₂_same]
          intro x hx
          exact ⟨x.2.event, x.2.attached, rfl, (hr.parts x hx).1, fun _ => d2 x.2 (List.mem_map_of_mem hx)⟩)
      rw [List.flatMap_map, List.map_map] at hs
      refine ⟨withEvents st pre (l.map fun x => x.2.event ++ x.2.attached), by rw [List.flatMap_map]; exact hs, ?_, ?_, rfl, rfl⟩
      · rw [hr.texts]
        simp [withEvents, hst, Parts.text]
      · intro p hp
        simp [withEvents, hp]

/-- A threshold one may ask of fewer than 2^32 keys does not have 2^32 weights. -/
theorem askable_few {chk : Bool} {json : Str → Res Value} {v : Value} {t : Tholder} {n : Nat} (ha : Askable (some v) n) (hn : n < 2 ^ 32)
    (h : Tholder.newWithSith chk json v = .ok t) : FewWeights t := by
  intro qss hq
  rcases ha with e | ⟨i, e⟩ | ⟨w, ws, e, h1, h2, h3⟩ | ⟨w, ws, e, h1, h2, h3⟩
  · cases e
  · cases e
    obtain ⟨rs, hrs, -⟩ := accepted_weights (json := json) ⟨none, none, some _, h⟩ hq
    by_cases hr : 0 ≤ i ∧ i < 2 ^ 32
    · obtain ⟨t', -, h3, -, h4, -⟩ := (C28_number chk json i).1 hr
      rw [h] at h3
      cases h3
      rw [Tholder.num, if_pos hrs.weighted] at h4
      cases h4
    · have := ((C28_number chk json i).2 hr).2
      rw [h] at this
      cases this
  · cases e
    rw [← Tholder.isWeights_unique ((C29_input chk json v t).1 ws h1 h2 h).2.1 hq, h3]
    exact hn
  · cases e
    rw [← Tholder.isWeights_unique ((C29_input chk json v t).2.1 ws h1 h2 h).2.1 hq]
    simpa [positions, h3] using hn

/-- C114: `incept_partial` takes whatever texts it is given for next keys. If none of them begins as a Blake3-256 digest does — say, since the keys themselves were given, as the
name of the parameter suggests — then no verifier that has this inception ever has a rotation after it. -/
theorem C114_keys (E : Env) (S : Stretch) (hC : CryptoOk E.C) (hH : HashOk E.H) (rnd : Nat → Nat) (code tier : Option Str) (scount rcount : Option Nat) (salt : Option Bytes)
    (texts : List Str) (sith : Option Str) (pre m : Str) (ks : KeySet) (hfew : texts.length < 2 ^ 31)
    (asked : ∀ t, sith = some t → ∃ v, jsonRead E.fl t = .ok v ∧ Askable (some v) texts.length)
    (call : kmiInceptPartial E S rnd code scount rcount (some true) (some (str% "E")) tier salt (some texts) sith = .ok (pre, ks, m))
    (hm : (toUtf8 m).length < 2 ^ 32) (hkeys : ∀ t ∈ texts, t.head? ≠ some 'E')
    (hist : List (Msg × Msg)) (st : Store) (h : Reach E hist st) (hlen : (st.kels pre).length ≤ 2 ^ 32) (h0 : (st.kels pre)[0]? = some m)
    (j : Nat) (t : Str) (s : Sad) (hj : (st.kels pre)[j]? = some t) (hs : Serder.newWithRaw E.fl (toUtf8 t) = .ok s) : ¬ HasText (str% "t") (str% "rot") s := by
  unfold kmiInceptPartial at call
  dsimp only at call
  obtain ⟨ckeys, hck, call⟩ := Res.bind_eq_ok.mp call
  obtain ⟨keys, hkeys', call⟩ := Res.bind_eq_ok.mp call
  rw [Res.ok_bind] at call
  obtain ⟨v, hv, call⟩ := Res.bind_eq_ok.mp call
  have hask : Askable (some v) texts.length := by
    cases sith with
    | some t =>
      obtain ⟨w, h1, h2⟩ := asked t rfl
      dsimp only at hv
      rw [h1] at hv
      cases hv
      exact h2
    | none =>
      cases hv
      have hw := shares_weights (a := 0) (b := texts.length) hfew
      rw [List.replicate_zero, List.nil_append] at hw
      exact .inr (.inr (.inl ⟨_, _, rfl, hw, by simp, by simp [positions, shares_length]⟩))
  obtain ⟨s0, hs0, call⟩ := Res.bind_eq_ok.mp call
  obtain ⟨ev, hev, call⟩ := Res.bind_eq_ok.mp call
  obtain ⟨pre', hpre, call⟩ := Res.bind_eq_ok.mp call
  cases call
  obtain ⟨u1, u2, -, u3⟩ := generate_usable hck
  obtain ⟨sigs, sg, hsg, hsgn, hin, hmsg⟩ := signedMessage_at hC u1 hev
  obtain ⟨p, -, hp1, hp2, hp3, hp4⟩ := parts_of hmsg hm
  obtain ⟨vs, t', kt, nt, bt, th, nth, pre', hb, hsn, hth, hnth, htS, hntS, hsz, hnsz, hone, -, mt, -, hbt, -, hkt, hnt⟩ :=
    incept_all (c := str% "E") (by decide) hs0
  simp only [Option.getD_some, Option.getD_none] at hb hnth hnsz hbt hkt hnt hth
  have hsend : Sendable s0 := by
    refine sendable_incepted hb (by unfold icpDoc; simp) ?_ hp4
    intro e he
    simp only [icpDoc, List.mem_cons, List.not_mem_nil, or_false] at he
    rcases he with rfl | rfl | rfl | rfl | rfl | rfl | rfl | rfl | rfl | rfl | rfl | rfl | rfl
    all_goals first
      | exact fine_str _
      | exact fine_thold hth hkt
      | exact fine_thold hnth hnt
      | exact fine_texts _
      | exact fine_toad hbt
      | exact fine_arr (by simp)
  have hread := hb.reads hsend.plain hsend.depth hsend.small E.fl p.attached
  rw [hp2, ← toUtf8_append, show p.event ++ p.attached = m from hp1.symm] at hread
  have ht : HasText (str% "t") (str% "icp") s0 := by
    unfold HasText
    rw [hb.fields _ (by decide) (by decide) (by decide)]
    simp [field, icpDoc]
  have hn : field (str% "n") s0.ked = some (.arr (texts.map .str)) := by
    rw [hb.fields _ (by decide) (by decide) (by decide)]; simp [field, icpDoc, Sample.texts]
  rcases Nat.eq_zero_or_pos j with rfl | hpos
  · rw [h0] at hj
    cases hj
    rw [hread] at hs
    cases hs
    unfold HasText at ht ⊢
    rw [ht]
    simp
  · refine C111_never E hH hist st h pre hlen 0 j m t s0 s h0 hj hread hs (.inl ht) ?_ ?_ hpos
    · intro th' h1
      rw [hntS] at h1
      cases h1
      exact askable_few hask (by omega) hnth
    · intro digests hd d hdm
      obtain ⟨o, -, ⟨ts, h1, h2⟩ | ⟨rfl, -⟩⟩ := (C55_next E.H s0 digests).mp hd
      · rw [hn] at h1
        have h1 : texts = ts := by
          have := Option.some.inj h1
          have := Value.arr.inj this
          exact (List.map_injective_iff.mpr fun a b e => Value.str.inj e) this
        subst h1
        obtain ⟨x, hx, hxd⟩ := forall₂_mem_left (List.Forall₂.flip h2) hdm
        intro hc
        unfold Diger.newWithQb64 Diger.new at hxd
        have hxm : Matter.newWithQb64 x = .ok d := by
          cases hx' : Matter.new none none none (some x) none with
          | panic => rw [hx'] at hxd; cases hxd
          | err e => rw [hx'] at hxd; cases hxd
          | ok y =>
            rw [hx'] at hxd
            change Matter.new none none none (some x) none = _
            rw [hx']
            obtain ⟨-, -, e⟩ := Res.bind_eq_ok.mp hxd
            exact e
        obtain ⟨q⟩ := Matter.exfil_ok hxm
        refine hkeys x hx ?_
        rw [q.split, hc]
        rfl
      · cases hdm

/-! ## A controller -/

/-- Calls with two signing keys; two keys are kept elsewhere, then one. -/
def World.abroad : Res (KeySet × KeySet × (List Str × Str × KeySet × Str) × (Str × Str) × (List Str × List Str × Str × KeySet × Str) ×
    (Sad × List Siger × List Siger × Str × Str) × (Str × Str)) := do
  let x ← World.ks [7, 8]
  let y ← World.ks [9]
  let d ← x.digersQb64 (World.env [])
  let a ← kmiInceptPartial (World.env []) World.salting id none none none (some true) (some (str% "E")) none none (some d) (some (str% "[\"1/2\",\"1/2\"]"))
  let b ← kmiInteract (World.env []) 0 a.2.1 a.1 a.1 1 (.arr [])
  let k ← x.verfersQb64 (World.env [])
  let n ← y.digersQb64 (World.env [])
  let c ← kmiRotatePartial (World.env []) World.salting id a.1 b.1 2 0 none none none none none none (some k) (some n) (some (str% "1"))
  let s ← Serder.newWithRaw (World.env []).fl (toUtf8 c.2.2)
  let sa ← x.sign (World.env []) 0 s.raw none
  let sb ← c.2.1.sign (World.env []) 0 s.raw none
  let e ← endorseSerder true (some (sa ++ sb)) none none none
  let m ← messagizeSerder s e (some true)
  let f ← kmiInteract (World.env []) 0 c.2.1 a.1 c.1 3 (.arr [])
  .ok (x, y, (d, a), b, (k, n, c), (s, sa, sb, e, m), f)

theorem World.asked_weights : ∃ v, jsonRead (World.env []).fl (str% "[\"1/2\",\"1/2\"]") = .ok v ∧ v ≠ .int 0 ∧ Askable (some v) 2 := by
  refine ⟨.arr [.str (str% "1/2"), .str (str% "1/2")], by rfl, by simp, .inr (.inr (.inr ⟨_, [1 / 2, 1 / 2], rfl, ?_, by simp, rfl⟩))⟩
  have h : IsWeight (str% "1/2") (1 / 2) := .inr (.inr ⟨1, 2, by decide, by decide, by decide, by decide, by norm_num⟩)
  exact ⟨_, rfl, .cons ⟨_, rfl, h⟩ (.cons ⟨_, rfl, h⟩ .nil)⟩

theorem World.asked_one : ∃ v, jsonRead (World.env []).fl (str% "1") = .ok v ∧ v ≠ .int 0 ∧ Askable (some v) 1 := by
  obtain ⟨v, h1, h2⟩ := World.holds_ok (r := jsonRead (World.env []).fl (str% "1")) (f := fun v => match v with | .int i => decide (i = 1) | _ => false) (by decide +kernel)
  cases v with
  | int i =>
    cases of_decide_eq_true h2
    exact ⟨_, h1, by simp, .inr (.inl ⟨1, rfl⟩)⟩
  | _ => cases h2

/-- The hypotheses of `C114_history` and `C114_accepted` are met. -/
example : ∃ pre said ks away ms, ms.length = 4 ∧ AwaySession (World.env []) World.salting pre said ks away ms ∧ ∀ m ∈ ms, (toUtf8 m).length < 2 ^ 32 := by
  obtain ⟨⟨x, y, ⟨d, pre, k0, m0⟩, ⟨d1, m1⟩, ⟨k, n, d2, k2, t2⟩, ⟨s, sa, sb, e, m2⟩, d3, m3⟩, hr, hc⟩ := World.holds_ok (r := World.abroad) (f := fun x =>
    decide (x.1.keys.length = 2) && decide (x.2.1.keys.length = 1) && decide (x.2.2.2.2.2.1.1.raw = toUtf8 x.2.2.2.2.1.2.2.2.2) &&
    decide (x.1.offset = 0) && decide (x.2.1.offset = 0) && x.1.keys.all (fun t => !t.contains '=') && x.2.1.keys.all (fun t => !t.contains '=') &&
    decide ((toUtf8 x.2.2.1.2.2.2).length < 2 ^ 32) && decide ((toUtf8 x.2.2.2.1.2).length < 2 ^ 32) && decide ((toUtf8 x.2.2.2.2.2.1.2.2.2.2).length < 2 ^ 32) &&
      decide ((toUtf8 x.2.2.2.2.2.2.2).length < 2 ^ 32)) (by decide +kernel)
  simp only [Bool.and_eq_true, decide_eq_true_eq, List.all_eq_true, Bool.not_eq_true', List.contains_eq_mem, decide_eq_false_iff_not] at hc
  obtain ⟨⟨⟨⟨⟨⟨⟨⟨⟨⟨q1, q2⟩, q3⟩, q4⟩, q5⟩, q6⟩, q7⟩, c1⟩, c2⟩, c3⟩, c4⟩ := hc
  unfold World.abroad at hr
  obtain ⟨x', -, hr⟩ := Res.bind_eq_ok.mp hr
  obtain ⟨y', -, hr⟩ := Res.bind_eq_ok.mp hr
  obtain ⟨d', g1, hr⟩ := Res.bind_eq_ok.mp hr
  obtain ⟨⟨pre', k0', m0'⟩, h0, hr⟩ := Res.bind_eq_ok.mp hr
  obtain ⟨⟨d1', m1'⟩, h1, hr⟩ := Res.bind_eq_ok.mp hr
  obtain ⟨k', g2, hr⟩ := Res.bind_eq_ok.mp hr
  obtain ⟨n', g3, hr⟩ := Res.bind_eq_ok.mp hr
  obtain ⟨⟨d2', k2', t2'⟩, h2, hr⟩ := Res.bind_eq_ok.mp hr
  obtain ⟨s', -, hr⟩ := Res.bind_eq_ok.mp hr
  obtain ⟨sa', g5, hr⟩ := Res.bind_eq_ok.mp hr
  obtain ⟨sb', g6, hr⟩ := Res.bind_eq_ok.mp hr
  obtain ⟨e', g7, hr⟩ := Res.bind_eq_ok.mp hr
  obtain ⟨m2', g8, hr⟩ := Res.bind_eq_ok.mp hr
  obtain ⟨⟨d3', m3'⟩, h3, hr⟩ := Res.bind_eq_ok.mp hr
  have hr := Res.ok.inj hr
  simp only [Prod.mk.injEq] at hr
  obtain ⟨rfl, rfl, ⟨rfl, rfl, rfl, rfl⟩, ⟨rfl, rfl⟩, ⟨rfl, rfl, rfl, rfl, rfl⟩, ⟨rfl, rfl, rfl, rfl, rfl⟩, rfl, rfl⟩ := hr
  have fine : Plain (.arr []) ∧ nesting (.arr []) ≤ 126 := ⟨by simp [Plain, Proper, ProperArr], by simp [nesting, nestingArr]⟩
  have a1 : AskedOf (World.env []) (str% "[\"1/2\",\"1/2\"]") x' := by unfold AskedOf; rw [q1]; exact World.asked_weights
  have a2 : AskedOf (World.env []) (str% "1") y' := by unfold AskedOf; rw [q2]; exact World.asked_one
  have s0 := AwaySession.incept _ _ _ _ _ _ _ _ _ _ _ x' ⟨q4, q6⟩ (fun h => by rw [h] at q1; cases q1) g1 a1 h0
  have s1 := AwaySession.interact _ _ _ _ _ _ _ _ _ s0 fine h1
  have s2 := AwaySession.rotate _ _ _ _ _ _ 0 0 _ _ _ _ _ _ _ _ _ _ _ y' s' _ _ _ _ s1 g2 ⟨q5, q7⟩ (fun h => by rw [h] at q2; cases q2) g3 a2 h2 q3 g5 g6 g7 g8
  have s3 := AwaySession.interact _ _ _ _ _ _ _ _ _ s2 fine h3
  refine ⟨_, _, _, _, _, rfl, s3, ?_⟩
  intro m hm
  simp only [List.cons_append, List.nil_append, List.mem_cons, List.not_mem_nil, or_false] at hm
  rcases hm with rfl | rfl | rfl | rfl <;> assumption

/-- An inception to which the next keys themselves were given, and its message taken apart. -/
def World.mistaken : Res (List Str × (Str × KeySet × Str) × Parts) := do
  let x ← World.ks [7, 8]
  let k ← x.verfersQb64 (World.env [])
  let a ← kmiInceptPartial (World.env []) World.salting id none none none (some true) (some (str% "E")) none none (some k) none
  let p ← World.parts a.2.1 a.2.2
  .ok (k, a, p)

/-- The hypotheses of `C114_keys` are met: two keys are given, the call returns a message, and a verifier that is sent it accepts it. -/
example : ∃ keys pre ks m hist st, keys.length = 2 ∧ (toUtf8 m).length < 2 ^ 32 ∧ (∀ t ∈ keys, t.head? ≠ some 'E') ∧
    kmiInceptPartial (World.env []) World.salting id none none none (some true) (some (str% "E")) none none (some keys) none = .ok (pre, ks, m) ∧
    Reach (World.env []) hist st ∧ st.kels pre = [m] := by
  obtain ⟨⟨k, ⟨pre, ks, m⟩, p⟩, hr, hc⟩ := World.holds_ok (r := World.mistaken) (f := fun x => decide (x.1.length = 2) && decide ((toUtf8 x.2.1.2.2).length < 2 ^ 32) &&
    (x.1.all fun t => decide (t.head? ≠ some 'E')) &&
    decide ((ingestLoop (World.env x.2.2.parsed) 5 none none Store.empty x.2.2.parsed []).1.kels x.2.1.1 = [x.2.1.2.2])) (by decide +kernel)
  simp only [Bool.and_eq_true, decide_eq_true_eq, List.all_eq_true] at hc
  unfold World.mistaken at hr
  obtain ⟨x', -, hr⟩ := Res.bind_eq_ok.mp hr
  obtain ⟨k', -, hr⟩ := Res.bind_eq_ok.mp hr
  obtain ⟨⟨pre', k0', m0'⟩, h0, hr⟩ := Res.bind_eq_ok.mp hr
  obtain ⟨p', -, hr⟩ := Res.bind_eq_ok.mp hr
  have hr := Res.ok.inj hr
  simp only [Prod.mk.injEq] at hr
  obtain ⟨rfl, ⟨rfl, rfl, rfl⟩, rfl⟩ := hr
  refine ⟨_, _, _, _, _, _, hc.1.1.1, hc.1.1.2, hc.1.2, h0, Reach.ingest (World.env p'.parsed) 5 p'.parsed.length [] p'.parsed none none .empty
    (World.env_same _ _) (World.env_remembers _) rfl (by simp), ?_⟩
  rw [List.take_length]
  exact hc.2

end Keride.Props
