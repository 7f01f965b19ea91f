/-
The events of registries and credentials as the builders of sample/keri make them, and their verification.
-/
import Verif.Spec.Issue
import Verif.Lemmas.History
import Verif.Lemmas.Stream

namespace Keride.Sample

open Matter Spec Props Saider

theorem val_index {s : Value} {k : Str} {v : Value} (h : field k s = some v) : s.index k = .ok v := by
  cases s with
  | obj o =>
    rw [field_find] at h
    simp [Value.index, h]
  | _ => cases h

theorem sn_zero {s : Sad} (h : HasText (str% "s") (str% "0") s) : Serder.sn s = .ok 0 := by
  obtain ⟨m, h1, h2, -, ⟨h', h3, h4⟩, -⟩ := C23_lossless true 0 (by decide)
  obtain ⟨-, -, e⟩ := number_text h1 h3 (by decide)
  subst e
  exact (C55_sn s 0).mpr ⟨_, m, h, h4, h2⟩

theorem sn_one {s : Sad} (h : HasText (str% "s") (str% "1") s) : Serder.sn s = .ok 1 := by
  obtain ⟨m, h1, h2, -, ⟨h', h3, h4⟩, -⟩ := C23_lossless true 1 (by decide)
  obtain ⟨-, -, e⟩ := number_text h1 h3 (by decide)
  subst e
  exact (C55_sn s 1).mpr ⟨_, m, h, h4, h2⟩

/-! ## The builders -/

/-- The fields of a registry inception before it has an identifier. -/
def vcpDoc (vs issuer : Str) : List (Str × Value) :=
  [(str% "v", .str vs), (str% "t", .str (str% "vcp")), (str% "d", .str []), (str% "i", .str []), (str% "ii", .str issuer), (str% "s", .str (str% "0")),
   (str% "c", .arr [.str (str% "NB")]), (str% "bt", .str (str% "0")), (str% "b", .arr [])]

theorem registry_ok {E : Env} {issuer q : Str} {s : Sad} (h : registryIncept E issuer = .ok (q, s)) : ∃ vs, Incepted E.H E.chk (vcpDoc vs issuer) s q := by
  unfold registryIncept at h
  obtain ⟨vs, -, h⟩ := Res.bind_eq_ok.mp h
  dsimp only at h
  obtain ⟨m, hm, h⟩ := Res.bind_eq_ok.mp h
  obtain ⟨q', hq, h⟩ := Res.bind_eq_ok.mp h
  obtain ⟨s', hs, h⟩ := Res.bind_eq_ok.mp h
  cases h
  have hcode : m.code = str% "E" := by
    obtain ⟨raw, k, h1, -⟩ := Prefixer.newWithKed_ok hm
    exact (Res.ok.inj h1).symm
  exact ⟨vs, incepted (o := vcpDoc vs issuer) hm (by rw [hcode]; decide) hq hs rfl rfl rfl⟩

theorem issue_ok {E : Env} {S : Stretch} {rnd : Nat} {now said ri q : Str} {s : Sad} (h : vcIssue E S rnd now said ri = .ok (q, s)) :
    ∃ vs nonce, Built E.H E.chk
      [(str% "v", .str vs), (str% "t", .str (str% "iss")), (str% "d", .str []), (str% "i", .str said), (str% "s", .str (str% "0")), (str% "ri", .str ri),
       (str% "dt", .str now), (str% "n", .str nonce)] s ∧ Sadder.said E.chk s = .ok q := by
  unfold vcIssue at h
  obtain ⟨vs, -, h⟩ := Res.bind_eq_ok.mp h
  obtain ⟨nonce, -, h⟩ := Res.bind_eq_ok.mp h
  dsimp only at h
  obtain ⟨r, hr, h⟩ := Res.bind_eq_ok.mp h
  obtain ⟨s', hs, h⟩ := Res.bind_eq_ok.mp h
  obtain ⟨q', hq, h⟩ := Res.bind_eq_ok.mp h
  cases h
  exact ⟨vs, nonce, built hr hs rfl, hq⟩

theorem revoke_ok {E : Env} {S : Stretch} {rnd : Nat} {now said ri prior q : Str} {s : Sad} (h : vcRevoke E S rnd now said ri prior = .ok (q, s)) :
    ∃ vs nonce, Built E.H E.chk
      [(str% "v", .str vs), (str% "t", .str (str% "rev")), (str% "d", .str []), (str% "i", .str said), (str% "s", .str (str% "1")), (str% "ri", .str ri),
       (str% "p", .str prior), (str% "dt", .str now), (str% "n", .str nonce)] s ∧ Sadder.said E.chk s = .ok q := by
  unfold vcRevoke at h
  obtain ⟨vs, -, h⟩ := Res.bind_eq_ok.mp h
  obtain ⟨nonce, -, h⟩ := Res.bind_eq_ok.mp h
  dsimp only at h
  obtain ⟨r, hr, h⟩ := Res.bind_eq_ok.mp h
  obtain ⟨s', hs, h⟩ := Res.bind_eq_ok.mp h
  obtain ⟨q', hq, h⟩ := Res.bind_eq_ok.mp h
  cases h
  exact ⟨vs, nonce, built hr hs rfl, hq⟩

/-! ## Verification -/

theorem onlySeal_of {a : Sad} {sl : Value} {i n d : Str} (h : field (str% "a") a.ked = some (.arr [sl])) (hi : field (str% "i") sl = some (.str i))
    (hn : field (str% "s") sl = some (.str n)) (hd : field (str% "d") sl = some (.str d)) : onlySeal a = .ok (some (i, n, d)) := by
  unfold onlySeal
  rw [val_index h, Res.ok_bind, show (Value.arr [sl]).toVec = .ok [sl] from rfl, Res.ok_bind, if_neg (by simp)]
  rw [show Res.orPanic [sl].head? = .ok sl from rfl, Res.ok_bind, val_index hi, Res.ok_bind, show (Value.str i).toStr = .ok i from rfl, Res.ok_bind,
    val_index hn, Res.ok_bind, show (Value.str n).toStr = .ok n from rfl, Res.ok_bind, val_index hd, Res.ok_bind,
    show (Value.str d).toStr = .ok d from rfl, Res.ok_bind]

theorem anchor_of {E : Env} {st : Store} {deep : Option Bool} {fuel : Nat} {pre : Str} (hd : Deepens E st deep fuel pre) {c : M × M} {a s : Sad} (v : List Str)
    (hn : AnchorNamed E st pre c a) (hs : Seals E.chk a s) : ∃ v', verifyAnchor E st deep fuel pre c.1 c.2 s v = .ok (true, v') := by
  obtain ⟨n, t, q, h1, h2, h3, h4, h5, h6⟩ := hn
  obtain ⟨sl, i, m, d, k1, k2, k3, k4, k5, k6, k7⟩ := hs
  have hv : ∃ v', ((if deep.getD false then
      if v.contains q then .ok v
      else do
        let g ← attachedQuadlets E t a
        let r ← verifyKeyEvent E st deep fuel a g (q :: v)
        .ok r.2
    else .ok v : Res (List Str))) = .ok v' := by
    by_cases hdd : deep = some true
    · by_cases hcn : v.contains q = true
      · exact ⟨v, by rw [if_pos hcn]; simp⟩
      · obtain ⟨g, hg, hw⟩ := hd hdd fuel (le_refl _) n t a h3 h4
        obtain ⟨w, hw⟩ := hw (q :: v)
        subst hdd
        exact ⟨w, by rw [if_neg hcn, hg, Res.ok_bind, hw]; rfl⟩
    · refine ⟨v, ?_⟩
      have hg : deep.getD false = false := by
        cases deep with
        | none => rfl
        | some b => cases b with
          | true => exact absurd rfl hdd
          | false => rfl
      rw [hg, if_neg (by simp)]
  obtain ⟨v', hv⟩ := hv
  refine ⟨v', ?_⟩
  unfold verifyAnchor
  rw [h2, Res.ok_bind, Nat.mod_eq_of_lt h1]
  unfold Store.getKeyEvent
  rw [h3]
  change (Serder.newWithRaw E.fl (toUtf8 t) >>= _) = _
  rw [h4, Res.ok_bind, h5, Res.ok_bind, h6, Res.ok_bind, if_neg (by simp), onlySeal_of k1 k2 k3 k4, Res.ok_bind]
  dsimp only
  rw [hv, Res.ok_bind, text_index k6, Res.ok_bind, show (Value.str m).toStr = .ok m from rfl, Res.ok_bind, if_neg (by simp),
    (C55_pre s i).mpr k5, Res.ok_bind, if_neg (by simp), k7, Res.ok_bind]
  simp

/-- A registry inception or an issuance. -/
theorem first_verifies {E : Env} {st : Store} {deep : Option Bool} {fuel : Nat} {s : Sad} {c : M × M} (v : List Str) {pre ilk ri apre q : Str} (hd : Deepens E st deep fuel apre)
    {m : M} {a : Sad} (hpre : HasText (str% "i") pre s) (hm : Matter.newWithQb64 pre = .ok m) (hsn : Serder.sn s = .ok 0) (ht : HasText (str% "t") ilk s)
    (hq : Sadder.said E.chk s = .ok q) (hri : registryOf ilk s = .ok ri) (hilk : ilk = str% "vcp" ∨ ilk = str% "iss") {labels : List Str}
    (hl : telLabels ilk = .ok labels) (hlb : verifyKedLabels s.ked labels = .ok true) (ha : anchorOf E st s m ilk ri = .ok apre)
    (hn : AnchorNamed E st apre c a) (hs : Seals E.chk a s) :
    ∃ v', (st.tels pre = [] → verifyTransactionEvent E st deep (fuel + 1) s [c] v = .ok (false, v')) ∧
    (∀ t s', (st.tels pre)[0]? = some t → Serder.newWithRaw E.fl (toUtf8 t) = .ok s' → Sadder.said E.chk s' = .ok q →
      verifyTransactionEvent E st deep (fuel + 1) s [c] v = .ok (true, v')) := by
  obtain ⟨v', hav⟩ := anchor_of hd v hn hs
  refine ⟨v', ?_⟩
  have key : verifyTransactionEvent E st deep (fuel + 1) s [c] v = if (st.tels pre).length ≠ 0 then (do
            let event ← st.getTransactionEvent pre 0
            let s ← Serder.newWithRaw E.fl (toUtf8 event)
            let q' ← Sadder.said E.chk s
            if q ≠ q' then .err .programmer else .ok (true, v')) else .ok (false, v') := by
    unfold verifyTransactionEvent
    rw [(C55_pre s pre).mpr hpre, Res.ok_bind, prefixer_of hm, Res.ok_bind, hsn, Res.ok_bind, text_index ht, Res.ok_bind,
      show (Value.str ilk).toStr = .ok ilk from rfl, Res.ok_bind, hq, Res.ok_bind, hri, Res.ok_bind, if_neg (by simp),
      show Res.orPanic [c].head? = .ok c from rfl, Res.ok_bind, hl, Res.ok_bind, hlb, Res.ok_bind, if_neg (by simp)]
    dsimp only
    rw [ha, Res.ok_bind, hav, Res.ok_bind]
    dsimp only
    rw [if_neg (by simp), if_pos hilk, if_neg (by simp), Res.ok_bind]
    by_cases hc : (st.tels pre).length ≠ 0
    · rw [if_pos hc, if_pos (by simpa using hc)]
      simp only [hc, ne_eq, not_false_eq_true, decide_true]
    · rw [if_neg hc, if_neg (by simpa using hc)]
      simp only [hc, decide_false]
  constructor
  · intro h
    rw [key, h, if_neg (by simp)]
  · intro t s' h1 h2 h3
    have hlen : (st.tels pre).length ≠ 0 := by
      have := (List.getElem?_eq_some_iff.mp h1).1
      omega
    rw [key, if_pos hlen]
    unfold Store.getTransactionEvent
    rw [h1]
    change (Serder.newWithRaw E.fl (toUtf8 t) >>= _) = _
    rw [h2, Res.ok_bind, h3, Res.ok_bind, if_neg (by simp)]

theorem registry_verifies {E : Env} {st : Store} {deep : Option Bool} {fuel : Nat} {issuer q : Str} (hd : Deepens E st deep fuel issuer) {s : Sad}
    (h : registryIncept E issuer = .ok (q, s)) {c : M × M} {a : Sad} (v : List Str) (hn : AnchorNamed E st issuer c a) (hs : Seals E.chk a s) (hnew : st.tels q = []) :
    ∃ v', verifyTransactionEvent E st deep (fuel + 1) s [c] v = .ok (false, v') := by
  obtain ⟨vs, hb⟩ := registry_ok h
  obtain ⟨o', ho', hk⟩ := hb.keys
  have ht : HasText (str% "t") (str% "vcp") s := by unfold HasText; rw [hb.fields _ (by decide) (by decide) (by decide)]; simp [field, vcpDoc]
  have hii : HasText (str% "ii") issuer s := by unfold HasText; rw [hb.fields _ (by decide) (by decide) (by decide)]; simp [field, vcpDoc]
  have key := first_verifies v hd (ri := q) (ilk := str% "vcp") hb.names hb.saider (sn_zero ?_) ht hb.reports ?_ (.inl rfl) rfl
    (labels_of ho' (by rw [hk]; unfold vcpDoc; simp only [List.map_cons, List.map_nil]; decide)) ?_ hn hs
  · obtain ⟨v', hv', -⟩ := key
    exact ⟨v', hv' hnew⟩
  · unfold HasText; rw [hb.fields _ (by decide) (by decide) (by decide)]; simp [field, vcpDoc]
  · unfold registryOf
    rw [if_pos rfl]
    exact (C55_pre s q).mpr hb.names
  · unfold anchorOf
    rw [if_pos rfl, hb.verifies, Res.ok_bind, if_neg (by simp), text_index hii, Res.ok_bind]
    rfl

/-- The controller of the registry of an issuance or a revocation. -/
theorem anchorOf_later {E : Env} {st : Store} {o : List (Str × Value)} {s : Sad} (hb : Built E.H E.chk o s) {m : M} {ilk ri issuer : Str}
    (hilk : ilk = str% "iss" ∨ ilk = str% "rev") (hc : Controller E st ri issuer) : anchorOf E st s m ilk ri = .ok issuer := by
  obtain ⟨t, r, h1, h2, h3⟩ := hc
  unfold anchorOf
  rw [if_neg (by rcases hilk with rfl | rfl <;> decide), if_pos hilk, hb.verifies, Res.ok_bind, if_neg (by simp)]
  unfold Store.getTransactionEvent
  rw [h1]
  change (Serder.newWithRaw E.fl (toUtf8 t) >>= _) = _
  rw [h2, Res.ok_bind, text_index h3, Res.ok_bind]
  rfl

theorem issue_verifies {E : Env} {st : Store} {deep : Option Bool} {fuel : Nat} {S : Stretch} {rnd : Nat} {now id ri q issuer : Str} (hd : Deepens E st deep fuel issuer) {s : Sad}
    (h : vcIssue E S rnd now id ri = .ok (q, s)) {m : M} (hm : Matter.newWithQb64 id = .ok m) (hc : Controller E st ri issuer) {c : M × M} {a : Sad}
    (v : List Str) (hn : AnchorNamed E st issuer c a) (hs : Seals E.chk a s) :
    ∃ v', (st.tels id = [] → verifyTransactionEvent E st deep (fuel + 1) s [c] v = .ok (false, v')) ∧
    (∀ t, (st.tels id)[0]? = some t → Serder.newWithRaw E.fl (toUtf8 t) = .ok s →
      verifyTransactionEvent E st deep (fuel + 1) s [c] v = .ok (true, v')) := by
  obtain ⟨vs, nonce, hb, hq⟩ := issue_ok h
  obtain ⟨o', ho', hk⟩ := hb.keys
  have hi : HasText (str% "i") id s := by unfold HasText; rw [hb.fields _ (by decide) (by decide)]; simp [field]
  have ht : HasText (str% "t") (str% "iss") s := by unfold HasText; rw [hb.fields _ (by decide) (by decide)]; simp [field]
  have hri : HasText (str% "ri") ri s := by unfold HasText; rw [hb.fields _ (by decide) (by decide)]; simp [field]
  have key := first_verifies v hd (ri := ri) (ilk := str% "iss") hi hm (sn_zero ?_) ht hq ?_ (.inr rfl) rfl
    (labels_of ho' (by rw [hk]; simp only [List.map_cons, List.map_nil]; decide)) (anchorOf_later hb (.inl rfl) hc) hn hs
  · obtain ⟨v', h1, h2⟩ := key
    exact ⟨v', h1, fun t k1 k2 => h2 t s k1 k2 hq⟩
  · unfold HasText; rw [hb.fields _ (by decide) (by decide)]; simp [field]
  · unfold registryOf
    rw [if_neg (by decide), if_pos (.inl rfl), text_index hri, Res.ok_bind]
    rfl

theorem revoke_verifies {E : Env} {st : Store} {deep : Option Bool} {fuel : Nat} {S : Stretch} {rnd : Nat} {now id ri prior q issuer : Str} (hd : Deepens E st deep fuel issuer)
    {s e : Sad} (h : vcRevoke E S rnd now id ri prior = .ok (q, s)) {m : M} (hm : Matter.newWithQb64 id = .ok m) (hc : Controller E st ri issuer)
    {c : M × M} {a : Sad} (v : List Str) (hn : AnchorNamed E st issuer c a) (hs : Seals E.chk a s) {t : Str} (hst : st.tels id = [t])
    (he : Serder.newWithRaw E.fl (toUtf8 t) = .ok e) (hprior : Sadder.said E.chk e = .ok prior)
    (hagain : deep ≠ some false → ∃ l, attachedCouples E t e = .ok l ∧ ∀ v, ∃ w, verifyTransactionEvent E st deep fuel e l v = .ok (true, w)) :
    ∃ v', verifyTransactionEvent E st deep (fuel + 1) s [c] v = .ok (false, v') := by
  obtain ⟨vs, nonce, hb, hq⟩ := revoke_ok h
  obtain ⟨o', ho', hk⟩ := hb.keys
  have hi : HasText (str% "i") id s := by unfold HasText; rw [hb.fields _ (by decide) (by decide)]; simp [field]
  have ht : HasText (str% "t") (str% "rev") s := by unfold HasText; rw [hb.fields _ (by decide) (by decide)]; simp [field]
  have hri : HasText (str% "ri") ri s := by unfold HasText; rw [hb.fields _ (by decide) (by decide)]; simp [field]
  have hp : HasText (str% "p") prior s := by unfold HasText; rw [hb.fields _ (by decide) (by decide)]; simp [field]
  have hsn : Serder.sn s = .ok 1 := sn_one (by unfold HasText; rw [hb.fields _ (by decide) (by decide)]; simp [field])
  have hreg : registryOf (str% "rev") s = .ok ri := by
    unfold registryOf
    rw [if_neg (by decide), if_pos (.inr rfl), text_index hri, Res.ok_bind]
    rfl
  obtain ⟨v0, hav⟩ := anchor_of hd v hn hs
  have hv : ∃ v', ((if deep.getD true then
      if v0.contains prior then .ok v0
      else do
        let g ← attachedCouples E t e
        let r ← verifyTransactionEvent E st deep fuel e g (prior :: v0)
        .ok r.2
    else .ok v0 : Res (List Str))) = .ok v' := by
    by_cases hdf : deep = some false
    · exact ⟨v0, by rw [hdf]; rfl⟩
    · by_cases hcn : v0.contains prior = true
      · exact ⟨v0, by rw [if_pos hcn]; simp⟩
      · obtain ⟨l, h1, h2⟩ := hagain hdf
        obtain ⟨w, h2⟩ := h2 (prior :: v0)
        have hg : deep.getD true = true := by
          cases deep with
          | none => rfl
          | some b => cases b with
            | true => rfl
            | false => exact absurd rfl hdf
        exact ⟨w, by rw [hg, if_pos rfl, if_neg hcn, h1, Res.ok_bind, h2, Res.ok_bind]⟩
  obtain ⟨v', hv⟩ := hv
  refine ⟨v', ?_⟩
  unfold verifyTransactionEvent
  rw [(C55_pre s id).mpr hi, Res.ok_bind, prefixer_of hm, Res.ok_bind, hsn, Res.ok_bind, text_index ht, Res.ok_bind,
    show (Value.str (str% "rev")).toStr = .ok (str% "rev") from rfl, Res.ok_bind, hq, Res.ok_bind, hreg, Res.ok_bind, if_neg (by simp),
    show Res.orPanic [c].head? = .ok c from rfl, Res.ok_bind, show telLabels (str% "rev") = .ok revLabels from rfl, Res.ok_bind,
    labels_of ho' (by rw [hk]; simp only [List.map_cons, List.map_nil]; decide), Res.ok_bind, if_neg (by simp)]
  dsimp only
  rw [anchorOf_later hb (.inr rfl) hc, Res.ok_bind, hav, Res.ok_bind]
  dsimp only
  rw [if_neg (by simp), if_neg (by decide), if_neg (by omega), hst, if_neg (by simp), show subU32 E.chk (1 % 2 ^ 32) 1 = .ok 0 from rfl, Res.ok_bind]
  unfold Store.getTransactionEvent
  rw [hst]
  change ((Serder.newWithRaw E.fl (toUtf8 t) >>= _) >>= _) = _
  rw [he, Res.ok_bind, hprior, Res.ok_bind, hv, Res.ok_bind, text_index hp, Res.ok_bind, show (Value.str prior).toStr = .ok prior from rfl, Res.ok_bind,
    if_neg (by simp), Res.ok_bind]
  simp

/-! ## Taking in -/

theorem ingest_transaction {E : Env} (href : ∀ st t, E.refuses st t = false) {st : Store} {fuel : Nat} {deep verify : Option Bool} (hv : verify ≠ some false)
    {s : Sad} {t g pre q ilk : Str} {l : List (M × M)} (hr : s.raw = toUtf8 t) (hread : Serder.newWithRaw E.fl (toUtf8 t) = .ok s)
    (hq : Sadder.said E.chk s = .ok q) (hpre : HasText (str% "i") pre s) (ht : HasText (str% "t") ilk s)
    (hilk : ilk = str% "vcp" ∨ ilk = str% "iss" ∨ ilk = str% "rev") (hver : ∀ v, ∃ v', verifyTransactionEvent E st deep fuel s l (q :: v) = .ok (false, v')) :
    Accepts E fuel deep verify st ⟨t, g, .couples l⟩ (st.insertTransactionEvent pre (t ++ g)) := by
  refine ⟨fun v hnew => ?_, holds_tx (x := ⟨t, g, .couples l⟩) hr hread⟩
  obtain ⟨info, hi, hident⟩ := sniff_of hread
  obtain ⟨w, hver⟩ := hver v
  have hsays : Says E ⟨t, g, .couples l⟩ q := .inl ⟨s, hread, hq⟩
  have hone : ingestOne E st fuel deep verify (.payload t) (some (.group (.couples l) (.ok g))) v = .ok (.transactionEvent pre (t ++ g), w) := by
    unfold ingestOne
    rw [show (Msg.payload t).payloadText = .ok t from rfl, Res.ok_bind]
    dsimp only
    rw [hi, Res.ok_bind, if_pos hident]
    unfold ingestSerder
    rw [hread, Res.ok_bind, hq, Res.ok_bind]
    dsimp only
    rw [show (Msg.group (.couples l) (.ok g)).cesrGroup = .ok (.couples l, .ok g) from rfl, Res.ok_bind, text_index ht, Res.ok_bind,
      show (Value.str ilk).toStr = .ok ilk from rfl, Res.ok_bind, if_neg (by rcases hilk with rfl | rfl | rfl <;> decide), if_pos hilk]
    dsimp only
    unfold verifyOrSeen
    rw [verify_default hv, if_pos (by simpa using hnew q hsays), hver, Res.ok_bind]
    dsimp only
    rw [if_neg (by simp), (C55_pre s pre).mpr hpre, Res.ok_bind]
    unfold storedText
    rw [hr, fromUtf8_toUtf8, Res.ok_bind, Res.ok_bind, Res.ok_bind]
  refine ⟨w, fun rest => ?_, fun q' hq' => ?_⟩
  · rw [show (⟨t, g, .couples l⟩ : Piece).parsed ++ rest = .payload t :: .group (.couples l) (.ok g) :: rest from rfl, ingestLoop, hone]
    dsimp only
    unfold perform
    dsimp only
    unfold tryInsert
    rw [href, if_neg (by simp)]
  · rcases (verifyTransactionEvent_ok hver).2 q' hq' with h | h
    · rcases List.mem_cons.mp h with rfl | h
      · exact .inr (.inl hsays)
      · exact .inl h
    · exact .inr (.inr h)

theorem one_more (st : Store) (pre t : Str) : OneMore st (st.insertTransactionEvent pre t) pre t := by
  refine ⟨?_, ?_, rfl, rfl⟩
  · simp [Store.insertTransactionEvent, append]
  · intro p hp
    simp [Store.insertTransactionEvent, append, hp]

end Keride.Sample
