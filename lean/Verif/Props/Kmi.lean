/-
C79: the messages the key management functions return are the controller's history, and verifiers accept them.
-/
import Verif.Props.Deliver
import Verif.Lemmas.Kmi
import Verif.Lemmas.WorldTel

namespace Keride.Props

open Spec Sample Matter

theorem digers_length {E : Env} {ks : KeySet} {ds : List Str} (h : ks.digersQb64 E = .ok ds) : ds.length = ks.keys.length := by
  unfold KeySet.digersQb64 KeySet.verfers KeySet.signers at h
  obtain ⟨l, hl, h2⟩ := Res.bind_eq_ok.mp h
  obtain ⟨l', hl', hl2⟩ := Res.bind_eq_ok.mp hl
  obtain ⟨d, hd, h3⟩ := Res.bind_eq_ok.mp h2
  have e := Res.ok.inj hl2
  rw [← (Res.mapList_ok.mp h3).length_eq, ← (Res.mapList_ok.mp hd).length_eq, ← e, List.length_map, ← (Res.mapList_ok.mp hl').length_eq]

/-- The next threshold of an inception: at least one, unless there are no next keys or zero is asked for. -/
theorem next_one {chk : Bool} {json : Str → Res Value} {sith : Option Value} {t : Tholder} {n : Nat} (ha : Askable sith n)
    (h : Tholder.newWithSith chk json (sith.getD (majority 0 n)) = .ok t) (hz : sith ≠ some (.int 0)) (hn : n ≠ 0) : ∃ k, t.num = .ok k ∧ 1 ≤ k.getD 1 := by
  have key : ∀ i : Int, i ≠ 0 → Tholder.newWithSith chk json (.int i) = .ok t → ∃ k, t.num = .ok k ∧ 1 ≤ k.getD 1 := by
    intro i hi h
    by_cases hr : 0 ≤ i ∧ i < 2 ^ 32
    · have hi1 : 1 ≤ i.toNat := by omega
      obtain ⟨h1, h2⟩ := C28_number chk json i
      obtain ⟨t', -, h3, -, h4, -⟩ := h1 hr
      rw [h] at h3
      cases h3
      exact ⟨_, h4, hi1⟩
    · have := ((C28_number chk json i).2 hr).2
      rw [h] at this
      cases this
  rcases ha with rfl | ⟨i, rfl⟩ | ⟨v, qss, rfl, h1, h2, -⟩ | ⟨v, qs, rfl, h1, h2, -⟩
  · refine key _ ?_ h
    split <;> omega
  · exact key i (fun e => hz (by rw [e])) h
  · exact ⟨none, by rw [Tholder.num, if_pos ((C29_input chk json v t).1 qss h1 h2 h).1], by simp⟩
  · exact ⟨none, by rw [Tholder.num, if_pos ((C29_input chk json v t).2.1 qs h1 h2 h).1], by simp⟩

/-- What holds along a session. -/
structure Running (E : Env) (pre said : Str) (ks nks : KeySet) (ms : List Str) (l : List (Sad × Parts)) : Prop where
  texts : ms = l.map fun x => x.2.text
  parts : ∀ x ∈ l, x.1.raw = toUtf8 x.2.event ∧ x.2.Wellformed E.chk
  history : History E pre (l.map fun x => ⟨x.1, [.controller x.2.sigs]⟩) ks nks
  own : Usable ks
  usable : Usable nks
  last : ∃ x, l.getLast? = some x ∧ Sadder.said E.chk x.1 = .ok said
  next : ∃ est, LatestEst (l.map fun x => ⟨x.1, [.controller x.2.sigs]⟩) est ∧ (nks.keys.length ≠ 0 → Reaches (Serder.ntholder E.chk E.fl est.sad) nks.keys.length)

theorem parts_of {chk : Bool} {s : Sad} {sigs : List Siger} {m : Str} (h : SignedMessage chk s sigs m ∧ ∀ g ∈ sigs, FromText g) (hm : (toUtf8 m).length < 2 ^ 32) :
    ∃ p : Parts, p.sigs = sigs ∧ m = p.text ∧ s.raw = toUtf8 p.event ∧ p.Wellformed chk ∧ s.raw.length < 2 ^ 32 := by
  obtain ⟨⟨event, att, body, h1, h2, h3, h4⟩, h5⟩ := h
  refine ⟨⟨event, att, sigs⟩, rfl, h2, h1, ⟨h5, body, h3, h4⟩, ?_⟩
  rw [h2, toUtf8_append, List.length_append] at hm
  rw [h1]
  omega

theorem running_incept {E : Env} {S : Stretch} (hC : CryptoOk E.C) {rnd : Nat → Nat} {code ncode tier : Option Str} {count ncount wcount : Option Nat}
    {sith nsith : Option Value} {pre m : Str} {ks nks : KeySet} (hsith : Askable sith (count.getD 1)) (hnsith : Askable nsith (ncount.getD 1)) (hzero : nsith ≠ some (.int 0))
    (call : kmiIncept E S rnd code count sith ncode ncount nsith wcount (some true) (some (str% "E")) tier = .ok (pre, [ks, nks], m))
    (hm : (toUtf8 m).length < 2 ^ 32) : ∃ s p, Running E pre pre ks nks [m] [(s, p)] := by
  unfold kmiIncept at call
  obtain ⟨ckeys, hck, call⟩ := Res.bind_eq_ok.mp call
  obtain ⟨keys, hkeys, call⟩ := Res.bind_eq_ok.mp call
  obtain ⟨next, hnext, call⟩ := Res.bind_eq_ok.mp call
  rw [show (some true).getD false = true from rfl, if_pos rfl] at hnext
  obtain ⟨nkeys, hnk, hnext⟩ := Res.bind_eq_ok.mp hnext
  obtain ⟨ndigs, hnd, hnext⟩ := Res.bind_eq_ok.mp hnext
  cases hnext
  obtain ⟨s, hs, call⟩ := Res.bind_eq_ok.mp call
  obtain ⟨ev, hev, call⟩ := Res.bind_eq_ok.mp call
  obtain ⟨pre', hpre, call⟩ := Res.bind_eq_ok.mp call
  cases call
  obtain ⟨u1, u2, -, u3⟩ := generate_usable hck
  obtain ⟨v1, v2, -, v3⟩ := generate_usable hnk
  have hu : Usable ks := ⟨u2, u1⟩
  obtain ⟨sigs, hsg, hmsg⟩ := signedMessage_ok hC hu hev
  obtain ⟨p, rfl, hp1, hp2, hp3, hp4⟩ := parts_of hmsg hm
  obtain ⟨vs, t, kt, nt, bt, th, nth, pre', hb, -, hth, hnth, htS, hntS, hsz, hnsz, hone, -, mt, -, hbt, -, hkt, hnt⟩ :=
    incept_all (c := str% "E") (by decide) hs
  simp only [Option.getD_some, Option.getD_none] at hb hnth hnsz hbt hkt hnt
  have hsend : Sendable s := by
    refine sendable_incepted hb (by unfold icpDoc; simp) ?_ hp4
    intro e he
    simp only [icpDoc, List.mem_cons, List.not_mem_nil, or_false] at he
    rcases he with rfl | rfl | rfl | rfl | rfl | rfl | rfl | rfl | rfl | rfl | rfl | rfl | rfl
    all_goals first
      | exact fine_str _
      | exact fine_thold hth hkt
      | exact fine_thold hnth hnt
      | exact fine_texts _
      | exact fine_toad hbt
      | exact fine_arr (by simp)
  have hkl := keys_length hkeys
  have hdl := digers_length hnd
  have hpe : pre' = pre := by
    have := (C55_pre s pre').mpr hb.names
    rw [hpre] at this
    exact (Res.ok.inj this).symm
  subst hpe
  have hreach : Reaches (Serder.tholder E.chk E.fl s) ks.keys.length := by
    refine ⟨th, htS, ?_⟩
    rw [hkl] at hth hsz
    exact askable_covers (u3 ▸ hsith) hth hsz hone
  refine ⟨s, p, by simp [hp1], by simpa using ⟨hp2, hp3⟩,
    History.incept ks nks keys ndigs sith nsith wcount none none none none none none s _ (rnd 2) p.sigs hu hkeys hnd hs hpre hreach hsg hsend,
    hu, ⟨v2, v1⟩, ⟨_, rfl, hb.reports⟩, ⟨s, [.controller p.sigs]⟩, ⟨[], [], rfl, .inl ?_, by simp⟩, ?_⟩
  · unfold HasText
    rw [hb.fields _ (by decide) (by decide) (by decide)]
    simp [field, icpDoc]
  · intro hne
    refine ⟨nth, hntS, ?_⟩
    rw [hdl] at hnth hnsz
    exact askable_covers (v3 ▸ hnsith) hnth hnsz (next_one (v3 ▸ hnsith) hnth hzero hne)

theorem running_interact {E : Env} (hC : CryptoOk E.C) {rnd : Nat} {data : Value} {pre said said' m : Str} {ks nks : KeySet} {ms : List Str} {l : List (Sad × Parts)}
    (hr : Running E pre said ks nks ms l) (hdata : Plain data ∧ nesting data ≤ 126) (call : kmiInteract E rnd ks pre said ms.length data = .ok (said', m))
    (hm : (toUtf8 m).length < 2 ^ 32) (hlen : ms.length < 2 ^ 32) : ∃ s p, Running E pre said' ks nks (ms ++ [m]) (l ++ [(s, p)]) := by
  unfold kmiInteract at call
  obtain ⟨s, hs, call⟩ := Res.bind_eq_ok.mp call
  obtain ⟨ev, hev, call⟩ := Res.bind_eq_ok.mp call
  obtain ⟨d, hd, call⟩ := Res.bind_eq_ok.mp call
  cases call
  obtain ⟨sigs, hsg, hmsg⟩ := signedMessage_ok hC hr.own hev
  obtain ⟨p, rfl, hp1, hp2, hp3, hp4⟩ := parts_of hmsg hm
  have hll : l.length = ms.length := by rw [hr.texts, List.length_map]
  have hlt : ms.length < 2 ^ 128 := by omega
  obtain ⟨vs, t, hb, -, -, -⟩ := interact_ok (sn := some ms.length) (by simpa using hlt) hs
  have hsend : Sendable s := by
    refine sendable_built hb (by simp) ?_ hp4
    intro e he
    simp only [List.mem_cons, List.not_mem_nil, or_false] at he
    rcases he with rfl | rfl | rfl | rfl | rfl | rfl | rfl
    all_goals first
      | exact fine_str _
      | exact hdata
  obtain ⟨x, hx, hxs⟩ := hr.last
  obtain ⟨est, he, hn⟩ := hr.next
  have hne : ¬ Establishes s := by
    have ht : field (str% "t") s.ked = some (.str (str% "ixn")) := by
      rw [hb.fields _ (by decide) (by decide)]
      simp [field]
    rintro (h | h) <;> (unfold HasText at h; rw [ht] at h; simp at h)
  refine ⟨s, p, by simp [hr.texts, hp1], ?_, ?_, hr.own, hr.usable, ⟨(s, p), by simp, hd⟩, est, ?_, hn⟩
  · intro y hy
    rcases List.mem_append.mp hy with hy | hy
    · exact hr.parts y hy
    · rw [List.mem_singleton.mp hy]; exact ⟨hp2, hp3⟩
  · rw [List.map_append]
    refine History.interact pre _ ks nks ⟨x.1, [.controller x.2.sigs]⟩ said (some data) none none s rnd p.sigs hr.history ?_ hxs ?_ hsg hsend
    · rw [List.getLast?_map, hx]; rfl
    · rw [List.length_map, hll]; exact hs
  · rw [List.map_append]
    exact latest_snoc he hne

theorem running_rotate {E : Env} {S : Stretch} (hC : CryptoOk E.C) {rnd : Nat → Nat} {ncode tier : Option Str} {ncount wcount : Option Nat} {sith nsith : Option Value}
    {pre said said' m : Str} {ks nks nnks : KeySet} {ms : List Str} {l : List (Sad × Parts)} (hr : Running E pre said ks nks ms l)
    (hsith : Askable sith nks.keys.length) (hnsith : Askable nsith (ncount.getD 1))
    (call : kmiRotate E S rnd pre nks said ms.length sith ncode ncount nsith wcount tier = .ok (said', nnks, m))
    (hm : (toUtf8 m).length < 2 ^ 32) (hlen : ms.length < 2 ^ 32) : ∃ s p, Running E pre said' nks nnks (ms ++ [m]) (l ++ [(s, p)]) := by
  unfold kmiRotate at call
  obtain ⟨nkeys, hnk, call⟩ := Res.bind_eq_ok.mp call
  obtain ⟨ndigs, hnd, call⟩ := Res.bind_eq_ok.mp call
  obtain ⟨keys, hkeys, call⟩ := Res.bind_eq_ok.mp call
  obtain ⟨s, hs, call⟩ := Res.bind_eq_ok.mp call
  obtain ⟨ev, hev, call⟩ := Res.bind_eq_ok.mp call
  obtain ⟨d, hd, call⟩ := Res.bind_eq_ok.mp call
  cases call
  obtain ⟨v1, v2, -, v3⟩ := generate_usable hnk
  obtain ⟨sigs, hsg, hmsg⟩ := signedMessage_ok hC hr.usable hev
  obtain ⟨p, rfl, hp1, hp2, hp3, hp4⟩ := parts_of hmsg hm
  have hll : l.length = ms.length := by rw [hr.texts, List.length_map]
  have hlt : ms.length < 2 ^ 128 := by omega
  obtain ⟨vs, t, kt, nt, bt, th, nth, hb, -, -, hth, hnth, htS, hntS, hsz, hnsz, hone, hnone, -, -, -, -, -, newits, mt, -, -, hbt, -, -, hkt, hnt⟩ := rotate_all hlt hs
  simp only [Option.getD_some, Option.getD_none] at hb hnth hnsz hbt hkt hnt
  have hsend : Sendable s := by
    refine sendable_built hb (by simp) ?_ hp4
    intro e he
    simp only [List.mem_cons, List.not_mem_nil, or_false] at he
    rcases he with rfl | rfl | rfl | rfl | rfl | rfl | rfl | rfl | rfl | rfl | rfl | rfl | rfl | rfl
    all_goals first
      | exact fine_str _
      | exact fine_thold hth hkt
      | exact fine_thold hnth hnt
      | exact fine_texts _
      | exact fine_toad hbt
      | exact fine_arr (by simp)
  obtain ⟨x, hx, hxs⟩ := hr.last
  obtain ⟨est, he, hn⟩ := hr.next
  have hkl := keys_length hkeys
  have hdl := digers_length hnd
  rw [hkl] at hth hsz
  rw [hdl] at hnth hnsz
  have hcov := askable_covers hsith hth hsz hone
  have hne : nks.keys.length ≠ 0 := by
    intro h0
    rcases hcov with ⟨k, -, h1, h2⟩ | ⟨qss, h1, h2⟩
    · omega
    · rw [h0] at h2
      have hacc : Accepted E.chk (jsonRead E.fl) th := ⟨none, none, some _, hth⟩
      obtain ⟨rs, hrs, rfl⟩ := accepted_weights hacc h1
      rw [Tholder.positions_vals] at h2
      cases rs with
      | nil =>
        have := (C31_nonempty E.chk (jsonRead E.fl) th).1 _ hth
        rw [hrs.thold] at this
        exact this rfl
      | cons c rs =>
        have hc := Tholder.clause_ne hrs.isw hrs.sums c (by simp)
        rw [List.map_cons, List.sum_cons] at h2
        exact hc (List.length_eq_zero_iff.mp (by omega))
  refine ⟨s, p, by simp [hr.texts, hp1], ?_, ?_, hr.usable, ⟨v2, v1⟩, ⟨(s, p), by simp, hd⟩, ⟨s, [.controller p.sigs]⟩, ⟨_, [], by rw [List.map_append]; rfl, .inr ?_, by simp⟩, ?_⟩
  · intro y hy
    rcases List.mem_append.mp hy with hy | hy
    · exact hr.parts y hy
    · rw [List.mem_singleton.mp hy]; exact ⟨hp2, hp3⟩
  · rw [List.map_append]
    refine History.rotate pre _ ks nks nnks ⟨x.1, [.controller x.2.sigs]⟩ est said keys ndigs sith nsith wcount none none none none none none none s (rnd 1) p.sigs
      hr.history ?_ hxs hr.usable hkeys hnd ?_ ⟨th, htS, hcov⟩ he (hn hne) hsg hsend
    · rw [List.getLast?_map, hx]; rfl
    · rw [List.length_map, hll]; exact hs
  · unfold HasText
    rw [hb.fields _ (by decide) (by decide)]
    simp [field]
  · intro _
    exact ⟨nth, hntS, askable_covers (v3 ▸ hnsith) hnth hnsz hnone⟩

theorem session_running {E : Env} {S : Stretch} (hC : CryptoOk E.C) {pre said : Str} {ks nks : KeySet} {ms : List Str}
    (h : Session E S pre said ks nks ms) (hm : ∀ m ∈ ms, (toUtf8 m).length < 2 ^ 32) (hlen : ms.length ≤ 2 ^ 32) : ∃ l, Running E pre said ks nks ms l := by
  induction h with
  | incept rnd code ncode tier count ncount wcount sith nsith pre m ks nks hsith hnsith hzero call =>
    obtain ⟨s, p, h⟩ := running_incept hC hsith hnsith hzero call (hm m (by simp))
    exact ⟨_, h⟩
  | interact rnd data pre said said' m ks nks ms before hdata call ih =>
    rw [List.length_append, List.length_singleton] at hlen
    obtain ⟨l, hr⟩ := ih (fun m hx => hm m (by simp [hx])) (by omega)
    obtain ⟨s, p, h⟩ := running_interact hC hr hdata call (hm m (by simp)) (by omega)
    exact ⟨_, h⟩
  | rotate rnd ncode tier ncount wcount sith nsith pre said said' m ks nks nnks ms before hsith hnsith call ih =>
    rw [List.length_append, List.length_singleton] at hlen
    obtain ⟨l, hr⟩ := ih (fun m hx => hm m (by simp [hx])) (by omega)
    obtain ⟨s, p, h⟩ := running_rotate hC hr hsith hnsith call (hm m (by simp)) (by omega)
    exact ⟨_, h⟩

/-- C79: the messages of a session are the events of a history of the controller in order, as bytes, each followed by framed
attached material, which is the group of the signatures of the event. The SAID the last call returned is that of the last event. -/
theorem C79_history (E : Env) (S : Stretch) (hC : CryptoOk E.C) (pre said : Str) (ks nks : KeySet) (ms : List Str) (h : Session E S pre said ks nks ms)
    (hm : ∀ m ∈ ms, (toUtf8 m).length < 2 ^ 32) (hlen : ms.length ≤ 2 ^ 32) :
    ∃ log : List Entry, History E pre log ks nks ∧
      List.Forall₂ (fun e m => ∃ sigs, e.groups = [.controller sigs] ∧ SignedMessage E.chk e.sad sigs m) log ms ∧
      ∃ e, log.getLast? = some e ∧ Sadder.said E.chk e.sad = .ok said := by
  obtain ⟨l, hr⟩ := session_running hC h hm hlen
  refine ⟨_, hr.history, ?_, ?_⟩
  · rw [hr.texts, List.forall₂_map_left_iff, List.forall₂_map_right_iff, List.forall₂_same]
    intro x hx
    obtain ⟨h1, -, body, h2, h3⟩ := hr.parts x hx
    exact ⟨x.2.sigs, rfl, x.2.event, x.2.attached, body, h1, rfl, h2, h3⟩
  · obtain ⟨x, h1, h2⟩ := hr.last
    exact ⟨_, by rw [List.getLast?_map, h1]; rfl, h2⟩

/-- C79: a verifier that knows nothing of the identifier and is sent the messages of a session accepts them all. Its log of the
identifier is then exactly the messages, and nothing else has changed, unless the texts digested for two of the messages are different and have the same digest. If it is asked to verify all
earlier events again, its stack must be deep enough for them, and it must read the signatures that it keeps as it received them. -/
theorem C79_accepted (E E' : Env) (S : Stretch) (hC : CryptoOk E.C) (hH : HashOk E.H) (hE : SameCode E E') (hstore : ∀ st t, E'.refuses st t = false)
    (pre said : Str) (ks nks : KeySet) (ms : List Str) (h : Session E S pre said ks nks ms) (hm : ∀ m ∈ ms, (toUtf8 m).length < 2 ^ 32)
    (hlen : ms.length ≤ 2 ^ 32) :
    ∃ parts : List Parts, ms = parts.map Parts.text ∧ (∀ p ∈ parts, p.Wellformed E.chk) ∧
      ∀ (st : Store), st.kels pre = [] → ∀ (fuel : Nat) (deep verify : Option Bool), verify ≠ some false →
        (deep = some true → ms.length ≤ fuel + 1 ∧ ∀ p ∈ parts, ReadsAs E' p.attached (.quadlets [.controller p.sigs])) →
        (∃ st', ingestLoop E' (fuel + 1) deep verify st (parts.flatMap Parts.parsed) [] = (st', .ok ()) ∧ st'.kels pre = ms ∧
          (∀ p, p ≠ pre → st'.kels p = st.kels p) ∧ st'.tels = st.tels ∧ st'.acdcs = st.acdcs) ∨
          Collision E.H (str% "E") (MessageText E.fl ms) (MessageText E.fl ms) := by
  obtain ⟨l, hr⟩ := session_running hC h hm hlen
  refine ⟨l.map Prod.snd, ?_, ?_, ?_⟩
  · rw [hr.texts, List.map_map]; rfl
  · intro p hp
    obtain ⟨x, hx, rfl⟩ := List.mem_map.mp hp
    exact (hr.parts x hx).2
  · intro st hst fuel deep verify hv hd
    have := C70_delivered E E' hC hH hE hstore pre [] _ ks nks hr.history (by rw [List.nil_append, List.length_map]; rw [hr.texts, List.length_map] at hlen; exact hlen)
      st (by rw [hst]; exact .nil) ((l.map Prod.snd).flatMap Parts.parsed) ms ⟨l.map fun x => (⟨x.1, [.controller x.2.sigs]⟩, x.2.event, x.2.attached), ?_, ?_, ?_, ?_⟩
      fuel deep verify ?_ hv
    · rw [hst, List.nil_append] at this
      refine this.imp id fun k => ?_
      have hh := history_sound hC hH hr.history (by rw [List.length_map]; rw [hr.texts, List.length_map] at hlen; exact hlen)
      have hx : ∀ t, LogText ([] ++ l.map fun x => (⟨x.1, [.controller x.2.sigs]⟩ : Entry)) t → MessageText E.fl ms t := by
        intro t ht
        have := hh.messageText (l.map fun x => (⟨x.1, [.controller x.2.sigs]⟩, x.2.event, x.2.attached)) (by
          intro x hx
          obtain ⟨y, hy, rfl⟩ := List.mem_map.mp hx
          exact (hr.parts y hy).1) (by rw [List.map_map]; rfl) ht
        rw [hr.texts]
        rw [List.map_map] at this
        exact this
      exact k.mono hx hx
    · rw [List.map_map]; rfl
    · intro x hx
      obtain ⟨y, hy, rfl⟩ := List.mem_map.mp hx
      exact (hr.parts y hy).1
    · rw [List.flatMap_map, List.flatMap_map]; rfl
    · rw [hr.texts, List.map_map]; rfl
    · intro hdd
      obtain ⟨d1, d2⟩ := hd hdd
      refine ⟨by rw [hr.texts, List.length_map] at d1; rw [List.nil_append, List.length_map]; exact d1, ?_⟩
      unfold KeepsLog
      rw [hst, List.nil_append, List.nil_append, hr.texts, List.forall₂_map_left_iff, List.forall₂_map_right_iff, List.forall₂_same]
      intro x hx
      exact ⟨x.2.event, x.2.attached, rfl, (hr.parts x hx).1, fun _ => d2 x.2 (List.mem_map_of_mem hx)⟩

/-- An establishment event later in a valid log is a rotation. -/
theorem later_type {H : Hash} {C : Crypto} {chk : Bool} {fl : Str → Option Str} {pre : Str} {log : List Entry} (h : ValidLog H C chk fl pre log) :
    ∀ a s b, log = a ++ s :: b → ∀ x ∈ b, ¬ HasText (str% "t") (str% "icp") x.sad := by
  have other : ∀ {x : Sad} {t : Str}, HasText (str% "t") t x → t ≠ str% "icp" → ¬ HasText (str% "t") (str% "icp") x := by
    intro x t h1 h2 h3
    unfold HasText at h1 h3
    rw [h1] at h3
    exact h2 (by simpa using h3)
  have step : ∀ {log : List Entry} {e : Entry}, (∀ a s b, log = a ++ s :: b → ∀ x ∈ b, ¬ HasText (str% "t") (str% "icp") x.sad) →
      ¬ HasText (str% "t") (str% "icp") e.sad → ∀ a s b, log ++ [e] = a ++ s :: b → ∀ x ∈ b, ¬ HasText (str% "t") (str% "icp") x.sad := by
    intro log e ih he a s b hs x hx
    rcases List.eq_nil_or_concat b with rfl | ⟨b', y, rfl⟩
    · simp at hx
    · have hs' : log ++ [e] = (a ++ s :: b') ++ [y] := by rw [hs]; simp
      obtain ⟨h1, h2⟩ := List.append_inj' hs' rfl
      cases h2
      rw [List.concat_eq_append] at hx
      rcases List.mem_append.mp hx with hx | hx
      · exact ih a s b' h1 x hx
      · rw [List.mem_singleton.mp hx]; exact he
  induction h with
  | incept e keys t sigs =>
    intro a s b hs x hx
    rcases a with _ | ⟨y, a⟩
    · simp at hs; rw [hs.2] at hx; simp at hx
    · have := congrArg List.length hs
      simp at this
  | rotate log e prev est psaid keys digests t n sigs before type _ _ _ _ _ _ _ _ _ _ _ _ _ _ ih => exact step ih (other type (by decide))
  | interact log e prev est psaid keys t sigs before type _ _ _ _ _ _ _ _ _ _ _ ih => exact step ih (other type (by decide))

theorem never_rotated {E : Env} {pre : Str} {log : List Entry} (h : ValidLog E.H E.C E.chk E.fl pre log) : ∀ a s b t, log = a ++ s :: b → Establishes s.sad →
    Serder.ntholder E.chk E.fl s.sad = .ok (some t) → t.num = .ok (some 0) → ∀ x ∈ b, ¬ HasText (str% "t") (str% "rot") x.sad := by
  induction h with
  | incept e keys t sigs =>
    intro a s b t hs _ _ _ x hx
    rcases a with _ | ⟨y, a⟩
    · simp at hs; rw [hs.2] at hx; simp at hx
    · have := congrArg List.length hs
      simp at this
  | rotate log e prev est psaid keys digests t n sigs before type _ _ _ _ _ _ _ _ _ _ latest _ nextThreshold committed ih =>
    intro a s b t' hs hest hn hz x hx
    exfalso
    rcases List.eq_nil_or_concat b with rfl | ⟨b', y, rfl⟩
    · simp at hx
    · have hs' : log ++ [e] = (a ++ s :: b') ++ [y] := by rw [hs]; simp
      obtain ⟨h1, -⟩ := List.append_inj' hs' rfl
      have hl : LatestEst log s := by
        refine ⟨a, b', h1, hest, fun z hz' => ?_⟩
        rintro (hi | hi)
        · exact later_type before a s b' h1 z hz' hi
        · exact ih a s b' t' h1 hest hn hz z hz' hi
      rw [latest_unique latest hl, hn] at nextThreshold
      cases nextThreshold
      obtain ⟨by_, -, hmeets, -⟩ := committed
      rcases hmeets with ⟨k, h2, h3, -⟩ | ⟨qss, ⟨cs, h2, -⟩, -⟩
      · rw [hz] at h2
        cases h2
        omega
      · unfold Tholder.num at hz
        split at hz
        · cases hz
        · rw [h2] at hz
          cases hz
  | interact log e prev est psaid keys t sigs before type _ _ _ _ _ _ _ _ _ _ _ ih =>
    intro a s b t' hs hest hn hz x hx
    rcases List.eq_nil_or_concat b with rfl | ⟨b', y, rfl⟩
    · simp at hx
    · have hs' : log ++ [e] = (a ++ s :: b') ++ [y] := by rw [hs]; simp
      obtain ⟨h1, h2⟩ := List.append_inj' hs' rfl
      cases h2
      rw [List.concat_eq_append] at hx
      rcases List.mem_append.mp hx with hx | hx
      · exact ih a s b' t' h1 hest hn hz x hx
      · rw [List.mem_singleton.mp hx]
        intro hi
        unfold HasText at type hi
        rw [type] at hi
        simp at hi

/-- C80: when the threshold for the next keys of an establishment event is zero, no verifier ever has a rotation after it. -/
theorem C80_never (E : Env) (hH : HashOk E.H) (hist : List (Msg × Msg)) (st : Store) (h : Reach E hist st) (pre : Str)
    (hlen : (st.kels pre).length ≤ 2 ^ 32) (i j : Nat) (t t' : Str) (s s' : Sad) (th : Tholder) (hi : (st.kels pre)[i]? = some t) (hj : (st.kels pre)[j]? = some t')
    (hs : Serder.newWithRaw E.fl (toUtf8 t) = .ok s) (hs' : Serder.newWithRaw E.fl (toUtf8 t') = .ok s') (hest : Establishes s)
    (hth : Serder.ntholder E.chk E.fl s = .ok (some th)) (hz : th.num = .ok (some 0)) (hij : i < j) : ¬ HasText (str% "t") (str% "rot") s' := by
  obtain ⟨log, h1, h2⟩ := C56_log E hH hist st h pre hlen
  obtain ⟨e, he, _, _, _, -, -, -, -, hr⟩ := forall₂_get h1 hi
  obtain ⟨e', he', _, _, _, -, -, -, -, hr'⟩ := forall₂_get h1 hj
  rw [hs] at hr
  rw [hs'] at hr'
  cases hr
  cases hr'
  rcases h2 with rfl | h2
  · simp at he
  · have hlt : i < log.length := (List.getElem?_eq_some_iff.mp he).1
    have hsplit : log = log.take i ++ e :: log.drop (i + 1) := by
      conv_lhs => rw [← List.take_append_drop i log, List.drop_eq_getElem_cons hlt]
      rw [(List.getElem?_eq_some_iff.mp he).2]
    refine never_rotated h2 _ e _ th hsplit hest hth hz e' ?_
    refine List.mem_of_getElem? (i := j - (i + 1)) ?_
    rw [List.getElem?_drop, show i + 1 + (j - (i + 1)) = j by omega]
    exact he'

/-- C80, partial: when the next threshold is not zero, a rotation the library builds with the next keys is accepted by every verifier
that is sent the whole session, unless the texts digested for the two messages are different and have the same digest. -/
theorem C80_partial (E E' : Env) (S : Stretch) (hC : CryptoOk E.C) (hH : HashOk E.H) (hE : SameCode E E') (hstore : ∀ st t, E'.refuses st t = false)
    (rnd rnd' : Nat → Nat) (code ncode ncode' tier tier' : Option Str) (count ncount ncount' wcount wcount' : Option Nat) (sith nsith sith' nsith' : Option Value)
    (pre said m m' : Str) (ks nks nnks : KeySet) (hsith : Askable sith (count.getD 1)) (hnsith : Askable nsith (ncount.getD 1)) (hzero : nsith ≠ some (.int 0))
    (hsith' : Askable sith' nks.keys.length) (hnsith' : Askable nsith' (ncount'.getD 1))
    (h : kmiIncept E S rnd code count sith ncode ncount nsith wcount (some true) (some (str% "E")) tier = .ok (pre, [ks, nks], m))
    (h' : kmiRotate E S rnd' pre nks pre 1 sith' ncode' ncount' nsith' wcount' tier' = .ok (said, nnks, m'))
    (hm : (toUtf8 m).length < 2 ^ 32) (hm' : (toUtf8 m').length < 2 ^ 32) :
    ∃ p q : Parts, p.text = m ∧ q.text = m' ∧ ∀ (st : Store), st.kels pre = [] → ∀ (fuel : Nat) (deep verify : Option Bool), verify ≠ some false →
      (deep = some true → 1 ≤ fuel ∧ ∀ x ∈ [p, q], ReadsAs E' x.attached (.quadlets [.controller x.sigs])) →
      (∃ st', ingestLoop E' (fuel + 1) deep verify st (p.parsed ++ q.parsed) [] = (st', .ok ()) ∧ st'.kels pre = [m, m']) ∨
        Collision E.H (str% "E") (MessageText E.fl [m, m']) (MessageText E.fl [m, m']) := by
  have hs : Session E S pre said nks nnks ([m] ++ [m']) :=
    .rotate rnd' ncode' tier' ncount' wcount' sith' nsith' pre pre said m' ks nks nnks [m]
      (.incept rnd code ncode tier count ncount wcount sith nsith pre m ks nks hsith hnsith hzero h) hsith' hnsith' h'
  obtain ⟨parts, h1, -, h2⟩ := C79_accepted E E' S hC hH hE hstore pre said nks nnks _ hs (by
    intro x hx
    rcases List.mem_append.mp hx with hx | hx <;> (rw [List.mem_singleton.mp hx]; assumption)) (by simp)
  have hl := congrArg List.length h1
  rw [List.length_map] at hl
  obtain ⟨p, q, rfl⟩ := List.length_eq_two.mp hl.symm
  have h1 : [m, m'] = [p.text, q.text] := h1
  simp only [List.cons.injEq, and_true] at h1
  refine ⟨p, q, h1.1.symm, h1.2.symm, fun st hst fuel deep verify hv hd => (h2 st hst fuel deep verify hv fun hdd => ⟨by simpa using (hd hdd).1, (hd hdd).2⟩).imp ?_ id⟩
  rintro ⟨st', h3, h4, -⟩
  exact ⟨st', by simpa using h3, h4⟩

/-! ## A controller -/

/-- Three calls: two keys and two next keys with weights of one half, an interaction, a rotation. -/
def World.calls : Res ((Str × List KeySet × Str) × (Str × Str) × (Str × KeySet × Str)) := do
  let a ← kmiIncept (World.env []) World.stretch id none (some 2) none none (some 2) (some (.arr [.str (str% "1/2"), .str (str% "1/2")])) none (some true) (some (str% "E")) none
  let k ← Res.orPanic a.2.1.head?
  let n ← Res.orPanic a.2.1[1]?
  let b ← kmiInteract (World.env []) 0 k a.1 a.1 1 (.arr [])
  let c ← kmiRotate (World.env []) World.stretch id a.1 n b.1 2 none none none none none none
  .ok (a, b, c)

theorem World.calls_ok : World.holds World.calls (fun r => decide (r.1.2.1.length = 2) && (r.1.2.1.all fun k => decide (k.keys.length = 2)) &&
    decide ((toUtf8 r.1.2.2).length < 2 ^ 32) && decide ((toUtf8 r.2.1.2).length < 2 ^ 32) && decide ((toUtf8 r.2.2.2.2).length < 2 ^ 32)) = true := by
  decide +kernel

/-- Weights of one half for two keys. -/
theorem World.halves : Askable (some (.arr [.str (str% "1/2"), .str (str% "1/2")])) 2 := by
  have h : IsWeight (str% "1/2") (1 / 2) := .inr (.inr ⟨1, 2, by decide, by decide, by decide, by decide, by norm_num⟩)
  exact .inr (.inr (.inr ⟨_, [1 / 2, 1 / 2], rfl, ⟨_, rfl, .cons ⟨_, rfl, h⟩ (.cons ⟨_, rfl, h⟩ .nil)⟩, by simp, rfl⟩))

example : ∃ pre said ks nks ms, ms.length = 3 ∧ Session (World.env []) World.stretch pre said ks nks ms ∧ ∀ m ∈ ms, (toUtf8 m).length < 2 ^ 32 := by
  obtain ⟨⟨⟨pre, l, m0⟩, ⟨d1, m1⟩, d2, k2, m2⟩, hr, hc⟩ := World.holds_ok World.calls_ok
  simp only [Bool.and_eq_true, decide_eq_true_eq] at hc
  obtain ⟨⟨⟨⟨c1, c2⟩, c3⟩, c4⟩, c5⟩ := hc
  obtain ⟨a, b, rfl⟩ := List.length_eq_two.mp c1
  unfold World.calls at hr
  obtain ⟨⟨pre', l', m0'⟩, h0, hr⟩ := Res.bind_eq_ok.mp hr
  obtain ⟨k, hk, hr⟩ := Res.bind_eq_ok.mp hr
  obtain ⟨n, hn, hr⟩ := Res.bind_eq_ok.mp hr
  obtain ⟨⟨d1', m1'⟩, h1, hr⟩ := Res.bind_eq_ok.mp hr
  obtain ⟨⟨d2', k2', m2'⟩, h2, hr⟩ := Res.bind_eq_ok.mp hr
  have hr := Res.ok.inj hr
  simp only [Prod.mk.injEq] at hr
  obtain ⟨⟨rfl, rfl, rfl⟩, ⟨rfl, rfl⟩, rfl, rfl, rfl⟩ := hr
  cases hk
  cases hn
  have s0 := Session.incept _ _ _ _ _ _ _ _ _ _ _ _ _ (.inl rfl) World.halves (by simp) h0
  have s1 := Session.interact _ _ _ _ _ _ _ _ _ s0 ⟨by simp [Plain, Proper, ProperArr], by simp [nesting, nestingArr]⟩ h1
  have s2 := Session.rotate _ _ _ _ _ _ _ _ _ _ _ _ _ _ _ s1 (.inl rfl) (.inl rfl) h2
  refine ⟨_, _, _, _, _, rfl, s2, ?_⟩
  intro m hm
  simp only [List.cons_append, List.nil_append, List.mem_cons, List.not_mem_nil, or_false] at hm
  rcases hm with rfl | rfl | rfl <;> assumption

/-- A message taken apart at its last brace, with the signatures the key set makes for the event. -/
def World.parts (k : KeySet) (m : Str) : Res Parts := do
  let event := (m.reverse.dropWhile (· ≠ '}')).reverse
  let sigs ← k.sign (World.env []) 0 (toUtf8 event) none
  .ok ⟨event, (m.reverse.takeWhile (· ≠ '}')).reverse, sigs⟩

/-- An identifier created with a threshold of zero for its one next key, rotated to that key. -/
def World.stuck : Res ((Str × List KeySet × Str) × (Str × KeySet × Str) × Parts × Parts) := do
  let a ← kmiIncept (World.env []) World.stretch id none none none none none (some (.int 0)) none (some true) (some (str% "E")) none
  let k ← Res.orPanic a.2.1[0]?
  let n ← Res.orPanic a.2.1[1]?
  let c ← kmiRotate (World.env []) World.stretch id a.1 n a.1 1 none none none none none none
  let p ← World.parts k a.2.2
  let q ← World.parts n c.2.2
  .ok (a, c, p, q)

/-- C80 is false: with a threshold of zero for the next keys the library creates an identifier, and then a rotation to its next keys;
a verifier accepts the first and refuses the second. (`C80_never`: every verifier refuses all of them.) -/
theorem C80_false : ∃ pre ks nks m said nnks m', ∃ p q : Parts,
    kmiIncept (World.env []) World.stretch id none none none none none (some (.int 0)) none (some true) (some (str% "E")) none = .ok (pre, [ks, nks], m) ∧
    kmiRotate (World.env []) World.stretch id pre nks pre 1 none none none none none none = .ok (said, nnks, m') ∧
    p.text = m ∧ ks.sign (World.env []) 0 (toUtf8 p.event) none = .ok p.sigs ∧ q.text = m' ∧ nks.sign (World.env []) 0 (toUtf8 q.event) none = .ok q.sigs ∧
    (ingestLoop (World.env []) 5 none none Store.empty p.parsed []).2 = .ok () ∧
    (ingestLoop (World.env []) 5 none none Store.empty (p.parsed ++ q.parsed) []).2.isErr = true := by
  obtain ⟨⟨⟨pre, l, m⟩, ⟨said, nnks, m'⟩, p, q⟩, hr, hc⟩ := World.holds_ok (r := World.stuck) (f := fun x =>
    decide (x.1.2.1.length = 2) && decide (x.2.2.1.text = x.1.2.2) && decide (x.2.2.2.text = x.2.1.2.2) &&
      (ingestLoop (World.env []) 5 none none Store.empty x.2.2.1.parsed []).2.isOk &&
      (ingestLoop (World.env []) 5 none none Store.empty (x.2.2.1.parsed ++ x.2.2.2.parsed) []).2.isErr) (by decide +kernel)
  simp only [Bool.and_eq_true, decide_eq_true_eq] at hc
  obtain ⟨⟨⟨⟨c1, c2⟩, c3⟩, c4⟩, c5⟩ := hc
  obtain ⟨a, b, rfl⟩ := List.length_eq_two.mp c1
  unfold World.stuck at hr
  obtain ⟨⟨pre', l', m0'⟩, h0, hr⟩ := Res.bind_eq_ok.mp hr
  obtain ⟨k, hk, hr⟩ := Res.bind_eq_ok.mp hr
  obtain ⟨n, hn, hr⟩ := Res.bind_eq_ok.mp hr
  obtain ⟨⟨d2', k2', m2'⟩, h2, hr⟩ := Res.bind_eq_ok.mp hr
  obtain ⟨p', hp, hr⟩ := Res.bind_eq_ok.mp hr
  obtain ⟨q', hq, hr⟩ := Res.bind_eq_ok.mp hr
  have hr := Res.ok.inj hr
  simp only [Prod.mk.injEq] at hr
  obtain ⟨⟨rfl, rfl, rfl⟩, ⟨rfl, rfl, rfl⟩, rfl, rfl⟩ := hr
  cases hk
  cases hn
  have key : ∀ {k : KeySet} {m : Str} {p : Parts}, World.parts k m = .ok p → k.sign (World.env []) 0 (toUtf8 p.event) none = .ok p.sigs := by
    intro k m p h
    unfold World.parts at h
    obtain ⟨sg, h1, h⟩ := Res.bind_eq_ok.mp h
    cases h
    exact h1
  refine ⟨_, _, _, _, _, _, _, p', q', h0, h2, c2, key hp, c3, key hq, ?_, c5⟩
  obtain ⟨⟨⟩, hx⟩ := Res.isOk_iff.mp c4
  exact hx

/-- An inception with a threshold of zero for its next key, and an interaction. -/
def World.zeroThreshold : Res Sad := do
  let a ← World.ks [1]
  let b ← World.ks [2]
  let x ← a.verfersQb64 (World.env [])
  let y ← b.digersQb64 (World.env [])
  incept (World.env []) x none (some y) (some (.int 0)) none none none none none none (some (str% "E")) none none

def World.zeroIxn : Res Sad := do
  let i ← World.zeroThreshold
  let p ← Serder.pre i
  interact (World.env []) p p (some 1) none none none

/-- A check that a text is an inception with a next threshold of zero. -/
def World.isZero (t : Str) : Bool :=
  World.holds (Serder.newWithRaw (World.env []).fl (toUtf8 t)) fun s =>
    (match field (str% "t") s.ked with
    | some (.str x) => decide (x = str% "icp")
    | _ => false) &&
    World.holds (Serder.ntholder true (World.env []).fl s) fun th =>
      match th with
      | some th => decide (th.num = .ok (some 0))
      | none => false

theorem World.isZero_ok {t : Str} (h : World.isZero t = true) : ∃ s th, Serder.newWithRaw (World.env []).fl (toUtf8 t) = .ok s ∧ Establishes s ∧
    Serder.ntholder true (World.env []).fl s = .ok (some th) ∧ th.num = .ok (some 0) := by
  unfold World.isZero at h
  obtain ⟨s, hs, h⟩ := World.holds_ok h
  rw [Bool.and_eq_true] at h
  obtain ⟨h1, h2⟩ := h
  obtain ⟨th, ht, h2⟩ := World.holds_ok h2
  cases th with
  | none => cases h2
  | some th =>
    refine ⟨s, th, hs, .inl ?_, ht, of_decide_eq_true h2⟩
    unfold HasText
    split at h1
    · rename_i x hx
      rw [hx, of_decide_eq_true h1]
    · cases h1

/-- The hypotheses of `C80_never` are met by a verifier that keeps such an inception and an interaction. -/
example : ∃ hist st pre t t' s s' th, Reach (World.env []) hist st ∧ (st.kels pre).length ≤ 2 ^ 32 ∧ (st.kels pre)[0]? = some t ∧ (st.kels pre)[1]? = some t' ∧
    Serder.newWithRaw (World.env []).fl (toUtf8 t) = .ok s ∧ Serder.newWithRaw (World.env []).fl (toUtf8 t') = .ok s' ∧ Establishes s ∧
    Serder.ntholder true (World.env []).fl s = .ok (some th) ∧ th.num = .ok (some 0) := by
  have h : World.keeps [World.signed (World.ks [1]) World.zeroThreshold, World.signed (World.ks [1]) World.zeroIxn] (fun st =>
      World.holds (World.zeroThreshold >>= Serder.pre) fun pre => decide ((st.kels pre).length = 2) && World.isZero ((st.kels pre).headD []) &&
        World.holds (Serder.newWithRaw (World.env []).fl (toUtf8 ((st.kels pre).getLastD []))) fun _ => true) = true := by
    decide +kernel
  obtain ⟨hist, st, h1, h2, h3⟩ := World.keeps_reach h (by decide)
  obtain ⟨pre, -, h2⟩ := World.holds_ok h2
  rw [Bool.and_eq_true, Bool.and_eq_true, decide_eq_true_eq] at h2
  obtain ⟨⟨h4, h5⟩, h6⟩ := h2
  have h7 := (h3 pre).1
  obtain ⟨a, b, hab⟩ := List.length_eq_two.mp h4
  rw [hab] at h5 h6
  obtain ⟨s, th, z1, z2, z3, z4⟩ := World.isZero_ok h5
  obtain ⟨s', hs', -⟩ := World.holds_ok h6
  exact ⟨hist, st, pre, a, b, s, s', th, h1, h7, by rw [hab]; rfl, by rw [hab]; rfl, z1, hs', z2, z3, z4⟩

end Keride.Props
