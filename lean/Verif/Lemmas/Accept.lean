/-
What the builders of sample/keri make and the keys of the controller sign, `verify_key_event` accepts.
-/
import Verif.Lemmas.BuildIncept

namespace Keride.Sample

open Matter Spec Props Saider

theorem ValidLog.ident {H : Hash} {C : Crypto} {chk : Bool} {fl : Str → Option Str} {pre : Str} {log : List Entry} (h : ValidLog H C chk fl pre log) :
    log ≠ [] ∧ ∃ m, Matter.newWithQb64 pre = .ok m := by
  induction h with
  | incept e keys t sigs type ident sn said fields digest =>
    obtain ⟨o, text, -, -, q, h1, h2⟩ := digest
    rw [said] at h1
    cases h1
    exact ⟨by simp, _, h2⟩
  | rotate log e prev est psaid keys digests t n sigs before type ident sn fields digest last prior chained own threshold signed latest next
      nextThreshold committed ih => exact ⟨by simp, ih.2⟩
  | interact log e prev est psaid keys t sigs before type ident sn fields digest last prior chained latest own threshold signed ih =>
    exact ⟨by simp, ih.2⟩

theorem prefixer_of {H : Hash} {pre : Str} {m : M} (h : Matter.newWithQb64 pre = .ok m) : Prefixer.newWithQb64 H pre = .ok m := by
  unfold Prefixer.newWithQb64 Prefixer.new
  rw [if_pos (by simp)]
  exact h

theorem subU32_pred {chk : Bool} {n : Nat} (h1 : 1 ≤ n) (h2 : n < 2 ^ 32) : subU32 chk (n % 2 ^ 32) 1 = .ok (n - 1) := by
  unfold subU32
  rw [Nat.mod_eq_of_lt h2, if_pos h1]

theorem text_index {s : Sad} {k t : Str} (h : field k s.ked = some (.str t)) : s.ked.index k = .ok (.str t) := by
  cases hk : s.ked with
  | obj o =>
    rw [hk, field_find] at h
    simp [Value.index, h]
  | _ => rw [hk] at h; cases h

theorem keysOf_of {E : Env} {s : Sad} {v : List M} {t : Tholder} (h1 : Serder.verfers s = .ok v) (h2 : Serder.tholder E.chk E.fl s = .ok (some t)) :
    keysOf E s = .ok (v, t) := by
  unfold keysOf
  rw [h2, Res.ok_bind]
  dsimp only
  rw [h1, Res.ok_bind]

theorem labels_of {s : Sad} {o : List (Str × Value)} {labels : List Str} (ho : s.ked = .obj o) (h : ∀ l ∈ labels, l ∈ o.map Prod.fst) :
    verifyKedLabels s.ked labels = .ok true := by
  unfold verifyKedLabels
  rw [ho, show (Value.obj o).toMap = .ok o from rfl, Res.ok_bind]
  congr 1
  rw [List.all_eq_true]
  intro l hl
  have := h l hl
  clear h ho hl
  induction o with
  | nil => simp at this
  | cons e o ih =>
    obtain ⟨k, v⟩ := e
    unfold Value.hasKey Value.find
    split
    · rfl
    · rename_i hne
      simp only [List.map_cons, List.mem_cons] at this
      exact ih (this.resolve_left fun e => hne e.symm)

/-- What a controller's signatures show. -/
theorem signed_all {E : Env} (hC : CryptoOk E.C) {ks : KeySet} (hu : Usable ks) {est : Sad} {o : List (Str × Value)} (ho : est.ked = .obj o)
    (hc : Controls E ks est) {ser : Bytes} {rnd : Nat} {sigs : List Siger} (hs : MadeBy E ks rnd ser sigs) :
    ∃ v t, keysOf E est = .ok (v, t) ∧ v.length = ks.keys.length ∧ ks.verfers E = .ok v ∧
      verifyGroups E.C v ser [.controller sigs] = .ok ((List.range ks.keys.length).map fun i => (i, i)) ∧
      t.satisfy E.chk (((List.range ks.keys.length).map fun i => (i, i)).map Prod.fst) = .ok true := by
  obtain ⟨⟨ts, h1, h2⟩, t, h3, h4⟩ := hc
  obtain ⟨l, hl, hin⟩ := sign_ok hC hu hs
  have hlen := (signers_good hC hu.seeds hl).1
  obtain ⟨g1, g2⟩ := in_order hin
  refine ⟨_, t, keysOf_of (listed_keys hC hu h1 ho h2 hl) h3, by simp [hlen], ?_, ?_, ?_⟩
  · unfold KeySet.verfers
    rw [hl]
    rfl
  · rw [g1, g2, hlen]
  · refine covers_satisfied (tholder_accepted h3) h4 ?_ ?_
    · have := in_order_count hin
      omega
    · rw [List.map_map]
      exact List.map_id _

theorem accept_ixn_by {E : Env} {st : Store} {pre : Str} {log : List Entry} (hlog : List.Forall₂ (Reads E.fl) (st.kels pre) log)
    (hv : ValidLog E.H E.C E.chk E.fl pre log) (hlen : log.length < 2 ^ 32) {prev est : Entry} {dig : Str} (hprev : log.getLast? = some prev)
    (hest : LatestEst log est) (hdig : Sadder.said E.chk prev.sad = .ok dig) {v : List M} {t : Tholder} (hk : keysOf E est.sad = .ok (v, t))
    {data : Option Value} {version : Option Version} {kind : Option Str} {s : Sad} (h : interact E pre dig (some log.length) data version kind = .ok s)
    {gs : List SigGroup} {w : List (Nat × Nat)} (hg : verifyGroups E.C v s.raw gs = .ok w) (hsat : t.satisfy E.chk (w.map Prod.fst) = .ok true) :
    ∃ q t, Sadder.said E.chk s = .ok q ∧ checkKeyEvent E st s gs = .ok ⟨pre, log.length, q, false, some (t, prev.sad)⟩ := by
  obtain ⟨hne, m, hm⟩ := ValidLog.ident hv
  have hkl := hlog.length_eq
  have hn : ((some log.length : Option Nat).getD 1) = log.length := rfl
  obtain ⟨vs, tx, hb, hsn, h1, -⟩ := interact_ok (by rw [hn]; omega) h
  rw [hn] at hsn h1
  obtain ⟨q, hq, -⟩ := hb.said
  have hpre : Serder.pre s = .ok pre := (C55_pre s pre).mpr (by rw [hb.fields _ (by decide) (by decide)]; simp [field])
  have ht : field (str% "t") s.ked = some (.str (str% "ixn")) := by rw [hb.fields _ (by decide) (by decide)]; simp [field]
  have hp : field (str% "p") s.ked = some (.str dig) := by rw [hb.fields _ (by decide) (by decide)]; simp [field]
  have hestS : Serder.est s = .ok false := (C55_est s false).mpr ⟨_, ht, by decide⟩
  have hnl : 1 ≤ log.length := h1
  obtain ⟨raw, hraw, hreads⟩ := latestEst_of hlog (n := log.length - 1) (by omega) (ValidLog.types hv) hest
  have hprev' : log[log.length - 1]? = some prev := by rw [← List.getLast?_eq_getElem?]; exact hprev
  obtain ⟨pt, hpt, hpr⟩ := forall₂_get hlog.flip hprev'
  obtain ⟨o', ho', hkeys⟩ := hb.keys
  refine ⟨q, pt, hq, ?_⟩
  unfold checkKeyEvent
  rw [hpre, Res.ok_bind, prefixer_of hm, Res.ok_bind, hsn, Res.ok_bind, text_index ht, Res.ok_bind,
    show (Value.str (str% "ixn")).toStr = .ok (str% "ixn") from rfl, Res.ok_bind, hq, Res.ok_bind]
  have hplace : place E st s m pre log.length (str% "ixn") q = .ok false := by
    unfold place
    rw [if_neg (by decide), hb.verifies, Res.ok_bind, if_neg (by simp), if_neg (by omega), if_neg (by omega), hkl]
    simp
  have hforce : keysInForce E st s pre log.length = .ok (v, t) := by
    unfold keysInForce
    rw [hestS, Res.ok_bind, if_neg (by simp), subU32_pred h1 hlen, Res.ok_bind]
    unfold Store.getLatestEst
    rw [hraw]
    change (Serder.newWithRaw E.fl (toUtf8 raw) >>= fun s => keysOf E s) = _
    have e : Serder.newWithRaw E.fl (toUtf8 raw) = .ok est.sad := hreads
    rw [e, Res.ok_bind, hk]
  rw [hplace, Res.ok_bind, hforce, Res.ok_bind]
  dsimp only
  rw [hg, Res.ok_bind, hsat, Res.ok_bind, if_neg (by simp)]
  rw [show labelsOf (str% "ixn") = .ok ixnLabels from rfl, Res.ok_bind, labels_of ho' (by rw [hkeys]; simp only [List.map_cons, List.map_nil]; decide), Res.ok_bind, if_neg (by simp),
    if_neg (by decide)]
  unfold checkPrior
  rw [subU32_pred h1 hlen, Res.ok_bind]
  unfold Store.getKeyEvent
  rw [hpt]
  have e : Serder.newWithRaw E.fl (toUtf8 pt) = .ok prev.sad := hpr
  change ((Serder.newWithRaw E.fl (toUtf8 pt) >>= _) >>= _) = _
  rw [e, Res.ok_bind, hdig, Res.ok_bind, text_index hp, Res.ok_bind, show (Value.str dig).toStr = .ok dig from rfl, Res.ok_bind, if_neg (by simp),
    hestS, Res.ok_bind, if_neg (by simp)]
  rfl

theorem accept_ixn {E : Env} (hC : CryptoOk E.C) {st : Store} {pre : Str} {log : List Entry} (hlog : List.Forall₂ (Reads E.fl) (st.kels pre) log)
    (hv : ValidLog E.H E.C E.chk E.fl pre log) (hlen : log.length < 2 ^ 32) {prev est : Entry} {dig : Str} (hprev : log.getLast? = some prev)
    (hest : LatestEst log est) (hdig : Sadder.said E.chk prev.sad = .ok dig) {ks : KeySet} (hu : Usable ks) (hc : Controls E ks est.sad)
    {data : Option Value} {version : Option Version} {kind : Option Str} {s : Sad} (h : interact E pre dig (some log.length) data version kind = .ok s)
    {rnd : Nat} {sigs : List Siger} (hs : MadeBy E ks rnd s.raw sigs) :
    ∃ q t, Sadder.said E.chk s = .ok q ∧ checkKeyEvent E st s [.controller sigs] = .ok ⟨pre, log.length, q, false, some (t, prev.sad)⟩ := by
  obtain ⟨raw, hraw, hreads⟩ := latestEst_of hlog (n := log.length - 1) (by have := hlog.length_eq; omega) (ValidLog.types hv) hest
  obtain ⟨-, oe, hoe, -⟩ := read_doc hreads
  obtain ⟨v, t, hk, -, -, hg, hsat⟩ := signed_all hC hu hoe hc hs
  exact accept_ixn_by hlog hv hlen hprev hest hdig hk h hg hsat

/-! ## Rotation -/

/-- The digests of a key set, as an event that lists their texts reports them, and the key each is of. -/
theorem listed_digests {E : Env} (hH : HashOk E.H) {ks : KeySet} {ts : List Str} (h : ks.digersQb64 E = .ok ts) {s : Sad}
    {o : List (Str × Value)} (ho : s.ked = .obj o) (hf : field (str% "n") s.ked = some (.arr (ts.map .str))) {v : List M} (hv : ks.verfers E = .ok v) :
    ∃ ds, Serder.digers s = .ok ds ∧ List.Forall₂ (fun k d => ∃ q u, qb64b E.chk k = .ok q ∧ Diger.newWithSer E.H q none = .ok d ∧ qb64 E.chk d = .ok u) v ds := by
  unfold KeySet.digersQb64 at h
  rw [hv, Res.ok_bind] at h
  obtain ⟨ds, hds, h2⟩ := Res.bind_eq_ok.mp h
  clear h
  replace hds := Res.mapList_ok.mp hds
  have h := Res.mapList_ok.mp h2
  clear h2
  refine ⟨ds, (C55_next E.H s _).mpr ⟨o, ho, .inl ⟨ts, hf, ?_⟩⟩, ?_⟩
  · clear hf hv ho
    induction hds generalizing ts with
    | nil => cases h; exact .nil
    | cons a _ ih =>
      cases h with
      | cons b h =>
        refine .cons ?_ (ih h)
        obtain ⟨q, -, a⟩ := Res.bind_eq_ok.mp a
        rw [(C41_new E.H hH q none).1 (by decide)] at a
        have a := (Res.ok.inj a).symm
        obtain ⟨k, hk, -⟩ := digest_rows (str% "E") (by decide)
        rw [a] at b ⊢
        change qb64 E.chk ⟨str% "E", 0, E.H (str% "E") q⟩ = _ at b
        rw [← List.take_of_length_le (l := E.H (str% "E") q) (i := k) (by rw [hH _ (by decide) k hk])] at b
        have hb := hash_back hH hk b
        unfold Diger.newWithQb64 Diger.new
        have e : Matter.new none none none (some _) none = .ok ⟨str% "E", 0, E.H (str% "E") q⟩ := hb
        rw [e]
        rfl
  · clear hf hv ho
    induction hds generalizing ts with
    | nil => exact .nil
    | cons a _ ih =>
      cases h with
      | cons b h =>
        obtain ⟨q, hq, a⟩ := Res.bind_eq_ok.mp a
        exact .cons ⟨q, _, hq, a, b⟩ (ih h)

theorem priorIndices_all {E : Env} {v ds : List M}
    (h : List.Forall₂ (fun k d => ∃ q u, qb64b E.chk k = .ok q ∧ Diger.newWithSer E.H q none = .ok d ∧ qb64 E.chk d = .ok u) v ds) :
    ∀ {l : List Nat}, (∀ i ∈ l, i < v.length) → priorIndices E ds v (l.map fun i => (i, i)) = .ok l := by
  intro l
  induction l with
  | nil => intro _; rfl
  | cons i l ih =>
    intro hl
    have hi := hl i (by simp)
    have hlen := h.length_eq
    obtain ⟨q, u, h1, h2, h3⟩ := h.get hi (by omega)
    simp only [List.get_eq_getElem] at h1 h2 h3
    rw [List.map_cons]
    unfold priorIndices
    rw [if_pos (by omega), List.getElem?_eq_getElem hi, List.getElem?_eq_getElem (by omega)]
    unfold Res.orPanic
    rw [Res.ok_bind, h1, Res.ok_bind, h2, Res.ok_bind, h3, Res.ok_bind, Res.ok_bind, h3, Res.ok_bind, if_pos rfl, Res.ok_bind,
      ih fun j hj => hl j (by simp [hj]), Res.ok_bind]
    rfl

theorem latest_last {log : List Entry} {prev est : Entry} (h : LatestEst log est) (hprev : log.getLast? = some prev) (he : Establishes prev.sad) : est = prev := by
  obtain ⟨a, b, rfl, -, hb⟩ := h
  rcases List.eq_nil_or_concat b with rfl | ⟨b', x, rfl⟩
  · simpa using hprev
  · have hx : x = prev := by
      rw [List.concat_eq_append, ← List.cons_append, ← List.append_assoc, List.getLast?_append] at hprev
      simpa using hprev
    subst hx
    exact absurd he (hb x (by simp))

theorem accept_rot_by {E : Env} {st : Store} {pre : Str} {log : List Entry}
    (hlog : List.Forall₂ (Reads E.fl) (st.kels pre) log) (hv : ValidLog E.H E.C E.chk E.fl pre log) (hlen : log.length < 2 ^ 32) {prev est : Entry} {dig : Str}
    (hprev : log.getLast? = some prev) (hest : LatestEst log est) (hdig : Sadder.said E.chk prev.sad = .ok dig)
    {keys : List Str} {sith : Option Value} {ndigs : Option (List Str)}
    {nsith : Option Value} {toad : Option Nat} {wits cuts adds : Option (List Str)} {data : Option (List Value)} {version : Option Version}
    {kind : Option Str} {intive : Option Bool} {s : Sad}
    (h : rotate E pre keys dig none log.length sith ndigs nsith toad wits cuts adds data version kind intive = .ok s)
    {v : List M} {t : Tholder} (hkf : keysOf E s = .ok (v, t)) {gs : List SigGroup} {w : List (Nat × Nat)} (hg : verifyGroups E.C v s.raw gs = .ok w)
    (hsat : t.satisfy E.chk (w.map Prod.fst) = .ok true) {ds : List M} {nt' : Tholder} (hnext : nextOf E est.sad = .ok (ds, nt')) {idx : List Nat}
    (hidx : priorIndices E ds v w = .ok idx) {good : Bool} (hsatn : nt'.satisfy E.chk idx = .ok good) :
    ∃ q t, Sadder.said E.chk s = .ok q ∧ checkKeyEvent E st s gs = if good then .ok ⟨pre, log.length, q, false, some (t, prev.sad)⟩ else .err .validation := by
  obtain ⟨hne, m, hm⟩ := ValidLog.ident hv
  have hkl := hlog.length_eq
  obtain ⟨vs, tx, kt, nt, bt, th, nth, hb, hsn, h1, hth, hnth, htS, hntS, -⟩ := rotate_ok (by omega) h
  obtain ⟨q, hq, -⟩ := hb.said
  obtain ⟨o', ho', hkeysO⟩ := hb.keys
  have hpre : Serder.pre s = .ok pre := (C55_pre s pre).mpr (by rw [hb.fields _ (by decide) (by decide)]; simp [field])
  have ht : field (str% "t") s.ked = some (.str (str% "rot")) := by rw [hb.fields _ (by decide) (by decide)]; simp [field]
  have hp : field (str% "p") s.ked = some (.str dig) := by rw [hb.fields _ (by decide) (by decide)]; simp [field]
  have hestS : Serder.est s = .ok true := (C55_est s true).mpr ⟨_, ht, by decide⟩
  obtain ⟨raw, hraw, hreads⟩ := latestEst_of hlog (n := log.length - 1) (by omega) (ValidLog.types hv) hest
  have ereads : Serder.newWithRaw E.fl (toUtf8 raw) = .ok est.sad := hreads
  have hprev' : log[log.length - 1]? = some prev := by rw [← List.getLast?_eq_getElem?]; exact hprev
  obtain ⟨pt, hpt, hpr⟩ := forall₂_get hlog.flip hprev'
  have hnext' : ∃ pest, Serder.est prev.sad = .ok pest ∧ (if pest then nextOf E prev.sad
        else do
          let j ← Res.ok (log.length - 1)
          let raw ← st.getLatestEst E.fl pre j
          let s ← Serder.newWithRaw E.fl (toUtf8 raw)
          nextOf E s : Res (List M × Tholder)) = .ok (ds, nt') := by
    rcases est_iff (ValidLog.types hv prev (List.mem_of_getLast? hprev)) with ⟨e1, e2⟩ | ⟨e1, e2⟩
    · refine ⟨true, e2, ?_⟩
      rw [if_pos rfl, ← latest_last hest hprev e1]
      exact hnext
    · refine ⟨false, e2, ?_⟩
      rw [if_neg (by simp), Res.ok_bind]
      unfold Store.getLatestEst
      rw [hraw]
      change (Serder.newWithRaw E.fl (toUtf8 raw) >>= fun s => nextOf E s) = _
      rw [ereads, Res.ok_bind, hnext]
  obtain ⟨pest, hpest, hnx⟩ := hnext'
  refine ⟨q, pt, hq, ?_⟩
  unfold checkKeyEvent
  rw [hpre, Res.ok_bind, prefixer_of hm, Res.ok_bind, hsn, Res.ok_bind, text_index ht, Res.ok_bind,
    show (Value.str (str% "rot")).toStr = .ok (str% "rot") from rfl, Res.ok_bind, hq, Res.ok_bind]
  have hplace : place E st s m pre log.length (str% "rot") q = .ok false := by
    unfold place
    rw [if_neg (by decide), hb.verifies, Res.ok_bind, if_neg (by simp), if_neg (by omega), if_neg (by omega), hkl]
    simp
  have hforce : keysInForce E st s pre log.length = .ok (v, t) := by
    unfold keysInForce
    rw [hestS, Res.ok_bind, if_pos rfl, hkf]
  rw [hplace, Res.ok_bind, hforce, Res.ok_bind]
  dsimp only
  rw [hg, Res.ok_bind, hsat, Res.ok_bind, if_neg (by simp)]
  rw [show labelsOf (str% "rot") = .ok rotLabels from rfl, Res.ok_bind,
    labels_of ho' (by rw [hkeysO]; simp only [List.map_cons, List.map_nil]; decide), Res.ok_bind, if_neg (by simp), if_neg (by decide)]
  unfold checkPrior
  rw [subU32_pred h1 hlen, Res.ok_bind]
  unfold Store.getKeyEvent
  rw [hpt]
  have e : Serder.newWithRaw E.fl (toUtf8 pt) = .ok prev.sad := hpr
  change ((Serder.newWithRaw E.fl (toUtf8 pt) >>= _) >>= _) = _
  rw [e, Res.ok_bind, hdig, Res.ok_bind, text_index hp, Res.ok_bind, show (Value.str dig).toStr = .ok dig from rfl, Res.ok_bind, if_neg (by simp),
    hestS, Res.ok_bind, if_pos rfl, hpest, Res.ok_bind, hnx, Res.ok_bind]
  dsimp only
  rw [hidx, Res.ok_bind, hsatn, Res.ok_bind]
  cases good
  · rfl
  · rfl

theorem accept_rot {E : Env} (hC : CryptoOk E.C) (hH : HashOk E.H) {st : Store} {pre : Str} {log : List Entry}
    (hlog : List.Forall₂ (Reads E.fl) (st.kels pre) log) (hv : ValidLog E.H E.C E.chk E.fl pre log) (hlen : log.length < 2 ^ 32) {prev est : Entry} {dig : Str}
    (hprev : log.getLast? = some prev) (hest : LatestEst log est) (hdig : Sadder.said E.chk prev.sad = .ok dig) {ks : KeySet} (hu : Usable ks)
    (hcom : Pledged E ks est.sad) {keys : List Str} (hkeys : ks.verfersQb64 E = .ok keys) {sith : Option Value} {ndigs : Option (List Str)}
    {nsith : Option Value} {toad : Option Nat} {wits cuts adds : Option (List Str)} {data : Option (List Value)} {version : Option Version}
    {kind : Option Str} {intive : Option Bool} {s : Sad}
    (h : rotate E pre keys dig none log.length sith ndigs nsith toad wits cuts adds data version kind intive = .ok s)
    (hcov : ∀ t, Tholder.newWithSith E.chk (jsonRead E.fl) (sith.getD (majority 1 keys.length)) = .ok t → Covers t keys.length)
    {rnd : Nat} {sigs : List Siger} (hs : MadeBy E ks rnd s.raw sigs) :
    ∃ q t, Sadder.said E.chk s = .ok q ∧ checkKeyEvent E st s [.controller sigs] = .ok ⟨pre, log.length, q, false, some (t, prev.sad)⟩ := by
  obtain ⟨vs, tx, kt, nt, bt, th, nth, hb, hsn, h1, hth, hnth, htS, hntS, -⟩ := rotate_ok (by omega) h
  obtain ⟨o', ho', hkeysO⟩ := hb.keys
  have hk : field (str% "k") s.ked = some (.arr (keys.map .str)) := by rw [hb.fields _ (by decide) (by decide)]; simp [field, texts]
  have hkn : keys.length = ks.keys.length := by
    unfold KeySet.verfersQb64 KeySet.verfers KeySet.signers at hkeys
    obtain ⟨l, hl, hkeys⟩ := Res.bind_eq_ok.mp hkeys
    obtain ⟨l', hl', hl⟩ := Res.bind_eq_ok.mp hl
    cases hl
    have a := (Res.mapList_ok.mp hl').length_eq
    have b := (Res.mapList_ok.mp hkeys).length_eq
    simp only [List.length_map] at b
    omega
  obtain ⟨v, t, hkf, hvl, hvf, hg, hsat⟩ := signed_all hC hu ho' ⟨⟨keys, hkeys, hk⟩, th, htS, by rw [← hkn]; exact hcov th hth⟩ hs
  obtain ⟨raw, hraw, hreads⟩ := latestEst_of hlog (n := log.length - 1) (by have := hlog.length_eq; omega) (ValidLog.types hv) hest
  obtain ⟨-, oe, hoe, -⟩ := read_doc hreads
  obtain ⟨⟨ts, hts, hfn⟩, nt', hnt', hcovn⟩ := hcom
  obtain ⟨ds, hds, hdd⟩ := listed_digests hH hts hoe hfn hvf
  have hnext : nextOf E est.sad = .ok (ds, nt') := by
    unfold nextOf
    rw [hds, Res.ok_bind, hnt', Res.ok_bind]
    rfl
  have hidx : priorIndices E ds v ((List.range ks.keys.length).map fun i => (i, i)) = .ok (List.range ks.keys.length) :=
    priorIndices_all hdd fun i hi => by rw [hvl]; simpa using hi
  have hsatn : nt'.satisfy E.chk (List.range ks.keys.length) = .ok true := by
    refine covers_satisfied (tholder_accepted hnt') hcovn ?_ rfl
    obtain ⟨l, hl, hin⟩ := sign_ok hC hu hs
    have hlen := (signers_good hC hu.seeds hl).1
    have := in_order_count hin
    omega
  exact accept_rot_by hlog hv hlen hprev hest hdig h hkf hg hsat hnext hidx hsatn

/-! ## Inception -/

theorem accept_icp {E : Env} (hC : CryptoOk E.C) {st : Store} {ks : KeySet} (hu : Usable ks) {keys : List Str} (hkeys : ks.verfersQb64 E = .ok keys)
    {sith : Option Value} {ndigs : Option (List Str)} {nsith : Option Value} {toad : Option Nat}
    {wits cnfg : Option (List Str)} {data : Option (List Value)} {version : Option Version} {kind : Option Str} {c : Str} {intive : Option Bool} {s : Sad}
    (hc : c ∈ digests) (h : incept E keys sith ndigs nsith toad wits cnfg data version kind (some c) intive none = .ok s)
    (hcov : ∀ t, Tholder.newWithSith E.chk (jsonRead E.fl) (sith.getD (majority 1 keys.length)) = .ok t → Covers t keys.length)
    {rnd : Nat} {sigs : List Siger} (hs : MadeBy E ks rnd s.raw sigs) {pre : Str} (hpre : Serder.pre s = .ok pre) (hst : st.kels pre = []) :
    Sadder.said E.chk s = .ok pre ∧ checkKeyEvent E st s [.controller sigs] = .ok ⟨pre, 0, pre, false, none⟩ := by
  obtain ⟨vs, tx, kt, nt, bt, th, nth, pre', hb, hsn, hth, hnth, htS, hntS, -⟩ := incept_ok hc h
  have hpre' : Serder.pre s = .ok pre' := (C55_pre s pre').mpr hb.names
  have epre : pre' = pre := Res.ok.inj (hpre'.symm.trans hpre)
  subst epre
  obtain ⟨o', ho', hkeysO⟩ := hb.keys
  have ht : field (str% "t") s.ked = some (.str (str% "icp")) := by rw [hb.fields _ (by decide) (by decide) (by decide)]; simp [field, icpDoc]
  have hk : field (str% "k") s.ked = some (.arr (keys.map .str)) := by
    rw [hb.fields _ (by decide) (by decide) (by decide)]; simp [field, icpDoc, texts]
  have hestS : Serder.est s = .ok true := (C55_est s true).mpr ⟨_, ht, by decide⟩
  have hkn : keys.length = ks.keys.length := by
    unfold KeySet.verfersQb64 KeySet.verfers KeySet.signers at hkeys
    obtain ⟨l, hl, hkeys⟩ := Res.bind_eq_ok.mp hkeys
    obtain ⟨l', hl', hl⟩ := Res.bind_eq_ok.mp hl
    cases hl
    have a := (Res.mapList_ok.mp hl').length_eq
    have b := (Res.mapList_ok.mp hkeys).length_eq
    simp only [List.length_map] at b
    omega
  obtain ⟨v, t, hkf, hvl, hvf, hg, hsat⟩ := signed_all hC hu ho' ⟨⟨keys, hkeys, hk⟩, th, htS, by rw [← hkn]; exact hcov th hth⟩ hs
  refine ⟨hb.reports, ?_⟩
  unfold checkKeyEvent
  rw [hpre', Res.ok_bind, prefixer_of hb.saider, Res.ok_bind, hsn, Res.ok_bind, text_index ht, Res.ok_bind,
    show (Value.str (str% "icp")).toStr = .ok (str% "icp") from rfl, Res.ok_bind, hb.reports, Res.ok_bind]
  have hplace : place E st s s.saider pre' 0 (str% "icp") pre' = .ok false := by
    unfold place
    rw [if_pos rfl, hb.verifies, Res.ok_bind, if_neg (by simp), if_neg (by simp), hpre', Res.ok_bind, if_neg (by simp), hst]
    rfl
  have hforce : keysInForce E st s pre' 0 = .ok (v, t) := by
    unfold keysInForce
    rw [hestS, Res.ok_bind, if_pos rfl, hkf]
  rw [hplace, Res.ok_bind, hforce, Res.ok_bind]
  dsimp only
  rw [hg, Res.ok_bind, hsat, Res.ok_bind, if_neg (by simp)]
  rw [show labelsOf (str% "icp") = .ok icpLabels from rfl, Res.ok_bind,
    labels_of ho' (by rw [hkeysO]; unfold icpDoc; simp only [List.map_cons, List.map_nil]; decide), Res.ok_bind, if_neg (by simp), if_pos rfl]

end Keride.Sample
