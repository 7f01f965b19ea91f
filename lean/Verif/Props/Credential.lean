/-
C77 and C78: credentials as the library builds them.
-/
import Verif.Props.Issue
import Verif.Lemmas.Credential

namespace Keride.Props

open Matter Spec Sample

theorem find_entries (k : Str) : ∀ (data s : List (Str × Value)), (data.map Prod.fst).Nodup →
    Value.find k (data.foldl (fun s e => Value.insert e.1 e.2 s) s) = (Value.find k data).orElse fun _ => Value.find k s := by
  intro data
  induction data with
  | nil => intro s _; rfl
  | cons e l ih =>
    intro s hn
    obtain ⟨k', v⟩ := e
    rw [List.map_cons, List.nodup_cons] at hn
    rw [List.foldl_cons, ih _ hn.2]
    by_cases hk : k' = k
    · subst hk
      have : Value.find k' l = none := by
        have := hn.1
        rw [← Saider.field_find]
        unfold field
        dsimp only
        rw [List.find?_eq_none.mpr]
        · rfl
        · intro e he
          simp only [decide_eq_true_eq]
          intro h
          exact this (List.mem_map.mpr ⟨e, he, h⟩)
      rw [this, find_insert_self]
      simp [Value.find]
    · rw [find_insert_ne (fun h => hk h.symm)]
      conv_rhs => rw [Value.find, if_neg hk]

theorem credDoc_keys (vs : Str) (u : Option Str) (issuer : Str) (status : Option Str) (schema : Str) (a : Value) (source rules : Option Value) :
    (credDoc vs u issuer status schema a source rules).map Prod.fst = credOrder u.isSome status.isSome source.isSome rules.isSome := by
  cases u <;> cases status <;> cases source <;> cases rules <;> rfl

theorem insert_new (k : Str) (v : Value) : ∀ s : List (Str × Value), k ∉ s.map Prod.fst → Value.insert k v s = s ++ [(k, v)] := by
  intro s
  induction s with
  | nil => intro _; rfl
  | cons e l ih =>
    intro h
    obtain ⟨k', v'⟩ := e
    rw [List.map_cons, List.mem_cons, not_or] at h
    rw [Value.insert, if_neg (fun e => h.1 e.symm), ih h.2, List.cons_append]

theorem insert_entries : ∀ (data s : List (Str × Value)), (data.map Prod.fst).Nodup → (∀ k ∈ data.map Prod.fst, k ∉ s.map Prod.fst) →
    data.foldl (fun s e => Value.insert e.1 e.2 s) s = s ++ data := by
  intro data
  induction data with
  | nil => intro s _ _; simp
  | cons e l ih =>
    intro s hn hd
    obtain ⟨k, v⟩ := e
    rw [List.map_cons, List.nodup_cons] at hn
    rw [List.foldl_cons, insert_new k v s (hd k (by simp)), ih _ hn.2, List.append_assoc]
    · rfl
    · intro k' hk'
      rw [List.map_append, List.mem_append, not_or]
      refine ⟨hd k' (by simp [hk']), ?_⟩
      simp only [List.map_cons, List.map_nil, List.mem_singleton]
      intro e
      exact hn.1 (e ▸ hk')

theorem find_none_of {k : Str} {l : List (Str × Value)} (h : k ∉ l.map Prod.fst) : Value.find k l = none := by
  induction l with
  | nil => rfl
  | cons e l ih =>
    obtain ⟨k', v⟩ := e
    rw [List.map_cons, List.mem_cons, not_or] at h
    rw [Value.find, if_neg (fun e => h.1 e.symm), ih h.2]

/-! ## C77 -/

/-- C77: a credential that the library builds: its fields in order, and what they say. It is addressed by its content. Its
subject has a SAID that verifies, and what it was asked to say. -/
theorem C77_credential (E : Env) (hH : HashOk E.H) (S : Stretch) (rnd : Nat → Nat) (now schema issuer : Str) (data : List (Str × Value)) (recipient : Option Str)
    (priv : Option Bool) (salt status : Option Str) (source rules : Option Value) (version : Option Version) (kind : Option Str) (c : Sad)
    (hdata : (data.map Prod.fst).Nodup)
    (h : createAcdc E S rnd now schema issuer (.obj data) recipient priv salt status source rules version kind = .ok c) (hs : Sendable c) :
    Fields (credOrder (priv.getD false) status.isSome source.isSome rules.isSome) c ∧ SelfAddressed E.H E.chk c ∧
    c.raw = toUtf8 c.ked.toJson ∧ HasText (str% "v") (versionText (str% "ACDC") ⟨1, 0⟩ (str% "JSON") c.raw.length) c ∧
    HasText (str% "i") issuer c ∧ field (str% "ri") c.ked = status.map .str ∧ HasText (str% "s") schema c ∧ field (str% "e") c.ked = source ∧
    field (str% "r") c.ked = rules ∧
    (∃ (sub : List (Str × Value)) (q : Str) (m : M), field (str% "a") c.ked = some (.obj sub) ∧ field (str% "d") (.obj sub) = some (.str q) ∧ Matter.newWithQb64 q = .ok m ∧
      (∀ prefixed versioned, Saider.verify E.H E.chk m (.obj sub) prefixed versioned (some (kind.getD (str% "JSON"))) (some (str% "d")) none = .ok true) ∧
      ∀ k v, (k, v) ∈ data → k ≠ str% "d" → k ≠ str% "v" → field k (.obj sub) = some v) ∧
    ∀ rest, Creder.newWithRaw E.fl (c.raw ++ toUtf8 rest) = .ok c := by
  obtain ⟨vs, u, u', map, a, e, hu, hu', -, ha, hb⟩ := create_ok h
  cases e
  obtain ⟨⟨q, hq, hnew, hfd⟩, hver, -⟩ := C37_verifies _ _ _ _ _ _ _ _ _ (show _ = Res.ok (a.1, a.2) from ha)
  obtain ⟨sub, hsub, -, hf⟩ := C37_fields _ _ _ _ _ _ _ _ _ (show _ = Res.ok (a.1, a.2) from ha)
  have hr : ∀ rest, Creder.newWithRaw E.fl (c.raw ++ toUtf8 rest) = .ok c :=
    fun rest => creder_raw.mpr ⟨hb.whole hs.plain hs.depth hs.small E.fl rest, hb.ident⟩
  obtain ⟨qc, hqc, -, -, -, hm⟩ := hb.said
  refine ⟨?_, ?_, hb.raw, ?_, ?_, ?_, ?_, ?_, ?_, ⟨sub, q, a.1, ?_, ?_, ?_, ?_, ?_⟩, hr⟩
  · obtain ⟨o', ho', hk⟩ := hb.keys
    refine ⟨o', ho', ?_⟩
    rw [hk, credDoc_keys]
    have : u.isSome = priv.getD false := by
      rw [Bool.eq_iff_iff, hu]
      cases priv with
      | none => simp
      | some b => simp
    rw [this]
  · refine cred_addressed hH (raw := c.raw) (q := qc) (m := c.saider) (by simpa [toUtf8] using hr []) hqc ?_ (hb.json _ _)
    rw [← saiderOf_hash]
    exact saiderOf_of hm (by rw [hb.code]; decide)
  · have := hb.version
    rw [Nat.mod_eq_of_lt hs.small] at this
    exact this
  · unfold HasText
    rw [hb.fields _ (by decide) (by decide)]
    cases u <;> simp [field, credDoc, entry]
  · rw [hb.fields _ (by decide) (by decide)]
    cases u <;> cases status <;> cases source <;> cases rules <;> simp [field, credDoc, entry]
  · unfold HasText
    rw [hb.fields _ (by decide) (by decide)]
    cases u <;> cases status <;> simp [field, credDoc, entry]
  · rw [hb.fields _ (by decide) (by decide)]
    cases u <;> cases status <;> cases source <;> cases rules <;> simp [field, credDoc, entry]
  · rw [hb.fields _ (by decide) (by decide)]
    cases u <;> cases status <;> cases source <;> cases rules <;> simp [field, credDoc, entry]
  · rw [hb.fields _ (by decide) (by decide), ← hsub]
    cases u <;> cases status <;> simp [field, credDoc, entry]
  · rw [← hsub]; exact hfd
  · rw [← saiderOf_hash] at hnew
    exact (saiderOf_ok hnew).1
  · rw [← hsub]; exact hver
  · intro k v hkv h1 h2
    rw [hf k h1 h2, Saider.field_find]
    unfold subjectDoc
    rw [find_entries k _ _ hdata]
    have : Value.find k data = some v := by
      clear hf hver ha hb h
      induction data with
      | nil => cases hkv
      | cons e l ih =>
        obtain ⟨k', v'⟩ := e
        rw [List.map_cons, List.nodup_cons] at hdata
        unfold Value.find
        rcases List.mem_cons.mp hkv with e | hkv
        · cases e
          rw [if_pos rfl]
        · rw [if_neg (fun e => hdata.1 (List.mem_map.mpr ⟨(k, v), hkv, e.symm⟩)), ih hdata.2 hkv]
    rw [this]
    rfl

/-- C77: the subject of a credential, when what it is asked to say uses none of the names `d`, `u`, `i` and `dt`: its fields in
order, the recipient, the time, and the salt that was asked for, which blinds the credential and the subject. -/
theorem C77_subject (E : Env) (S : Stretch) (rnd : Nat → Nat) (now schema issuer : Str) (data : List (Str × Value)) (recipient : Option Str)
    (priv : Option Bool) (salt status : Option Str) (source rules : Option Value) (version : Option Version) (kind : Option Str) (c : Sad)
    (hdata : (data.map Prod.fst).Nodup) (hfree : ∀ k ∈ [str% "d", str% "u", str% "i", str% "dt"], k ∉ data.map Prod.fst)
    (h : createAcdc E S rnd now schema issuer (.obj data) recipient priv salt status source rules version kind = .ok c) :
    ∃ sub : List (Str × Value), field (str% "a") c.ked = some (.obj sub) ∧
      sub.map Prod.fst = [str% "d"] ++ whenever (str% "u") (priv = some true) ++ whenever (str% "i") (recipient.isSome = true) ++ [str% "dt"] ++ data.map Prod.fst ∧
      field (str% "i") (.obj sub) = recipient.map .str ∧ field (str% "dt") (.obj sub) = some (.str now) ∧
      ∀ t, salt = some t → priv = some true → HasText (str% "u") t c ∧ field (str% "u") (.obj sub) = some (.str t) := by
  obtain ⟨vs, u, u', map, a, e, hu, hu', hsalt, ha, hb⟩ := create_ok h
  cases e
  obtain ⟨sub, hsub, hk, hf⟩ := C37_fields _ _ _ _ _ _ _ _ _ (show _ = Res.ok (a.1, a.2) from ha)
  have hdoc : subjectDoc u' recipient now data =
      [(str% "d", .str [])] ++ entry (str% "u") (u'.map .str) ++ entry (str% "i") (recipient.map .str) ++ [(str% "dt", .str now)] ++ data := by
    unfold subjectDoc
    rw [find_none_of (hfree _ (by simp)), insert_new, insert_entries _ _ hdata]
    · rfl
    · intro k hkd hks
      have hne := fun x hx => fun (e : k = x) => hfree x hx (e ▸ hkd)
      have h1 := hne (str% "d") (by simp)
      have h2 := hne (str% "u") (by simp)
      have h3 := hne (str% "i") (by simp)
      have h4 := hne (str% "dt") (by simp)
      cases u' <;> cases recipient <;> simp [entry] at hks <;> tauto
    · cases u' <;> cases recipient <;> simp [entry]
  refine ⟨sub, ?_, ?_, ?_, ?_, ?_⟩
  · rw [hb.fields _ (by decide) (by decide), ← hsub]
    cases u <;> cases status <;> simp [field, credDoc, entry]
  · rw [hk, hdoc]
    have : whenever (str% "u") (priv = some true) = (entry (str% "u") (u'.map .str)).map Prod.fst := by
      unfold whenever
      by_cases hp : priv = some true
      · rw [if_pos hp]
        obtain ⟨x, hx⟩ := Option.isSome_iff_exists.mp (hu'.mpr hp)
        rw [hx]; rfl
      · rw [if_neg hp]
        cases u' with
        | none => rfl
        | some x => exact absurd (hu'.mp rfl) hp
    rw [this]
    cases recipient <;> simp [whenever, entry]
  · rw [hf _ (by decide) (by decide), hdoc, Saider.field_find]
    have := find_none_of (hfree (str% "i") (by simp))
    cases u' <;> cases recipient <;> simp [entry, Value.find, this]
  · rw [hf _ (by decide) (by decide), hdoc, Saider.field_find]
    cases u' <;> cases recipient <;> simp [entry, Value.find]
  · intro t h1 h2
    obtain ⟨rfl, rfl⟩ := hsalt t h1 h2
    constructor
    · unfold HasText
      rw [hb.fields _ (by decide) (by decide)]
      simp [field, credDoc, entry]
    · rw [hf _ (by decide) (by decide), hdoc, Saider.field_find]
      simp [entry, Value.find]

/-- A credential made with the library, with the proof of the issuer and the issuance, is verified wherever its edges are. The issuer may have
rotated since: `ks` are the keys of the event the proof names. -/
theorem credential_verifies {E : Env} (hC : CryptoOk E.C)
    {S : Stretch} {rnd : Nat → Nat} {now schema issuer : Str} {data : Value} {recipient : Option Str} {priv : Option Bool} {salt : Option Str} {ri : Str}
    {source rules : Option Value} {version : Option Version} {kind : Option Str} {c : Sad} {id text : Str}
    (h : createAcdc E S rnd now schema issuer data recipient priv salt (some ri) source rules version kind = .ok c)
    (hid : Sadder.said E.chk c = .ok id) (htext : c.raw = toUtf8 text) (hschema : E.schema schema text = .ok true)
    {log : List Entry} {ks ks' nks' : KeySet} (hsound : Sound E issuer log ks' nks') (hlen : log.length ≤ 2 ^ 32) {a b : List Entry} {est : Entry}
    (hest : log = a ++ est :: b) (hu : Usable ks) (hctl : Controls E ks est.sad) {q : Str} (hq : Sadder.said E.chk est.sad = .ok q)
    {sig : SadPathSig} (hsig : ProofBy E.chk sig issuer a.length q) {r : Nat} (hsigned : MadeBy E ks r c.raw sig.sigers)
    {rnd' : Nat} {dt qi issuerId : Str} {i ai : Sad} (hissue : vcIssue E S rnd' dt id ri = .ok (qi, i)) (hi : Sendable i) {ti gi : Str}
    (hti : i.raw = toUtf8 ti) (hfresh : E.expired dt = .ok false)
    {st : Store} (hkel : List.Forall₂ (Reads E.fl) (st.kels issuer) log)
    (hcon : Controller E st ri issuerId) (hst : st.tels id = [ti ++ gi]) {ci : M × M} (hn : AnchorNamed E st issuerId ci ai) (hseal : Seals E.chk ai i)
    {known : Bool} (hknown : HasAcdc E st id known) {fuel : Nat} {deep : Option Bool} (hd : Deepens E st deep fuel issuer) (hd' : Deepens E st deep fuel issuerId)
    (hread : deep ≠ some false → ReadsAs E gi (.couples [ci]))
    (hread' : deep = none → ∃ t g, (st.kels issuer)[a.length]? = some (t ++ g) ∧ est.sad.raw = toUtf8 t ∧ ReadsAs E g (.quadlets est.groups))
    {nodes : List (Res Value)} (hnodes : edgeNodes (source.getD (.obj [])) = .ok nodes)
    (hedges : ∀ v, ∃ v', verifyEdges E st deep (fuel + 1) c nodes v = .ok v') (v : List Str) :
    ∃ v', verifyAcdc E st deep (fuel + 2) c [.sadPath [sig]] v = .ok (known, v') := by
  obtain ⟨vs, u, u', map, sub, rfl, -, -, -, -, hb⟩ := create_ok h
  obtain ⟨vs', nonce, hbi, hqi⟩ := issue_ok hissue
  have hri := hbi.reads hi.plain hi.depth hi.small E.fl gi
  rw [hti, ← toUtf8_append] at hri
  obtain ⟨qc, hqc, -, -, -, hm⟩ := hb.said
  rw [hid] at hqc
  cases hqc
  obtain ⟨v1, hstate⟩ := state_of (E := E) (st := st) (deep := deep) (fuel := fuel + 1) (vcid := id) (v := v) (t := ti ++ gi) (now := dt) (q := qi) (e := i)
    (by rw [hst]; rfl) hri (by unfold HasText; rw [hbi.fields _ (by decide) (by decide)]; simp [field]) hfresh
    (by unfold HasText; rw [hbi.fields _ (by decide) (by decide)]; simp [field]) hqi (by
      intro hdn
      refine ⟨[ci], ?_, fun v => (issue_verifies hd' hissue hm hcon v hn hseal).imp fun w hw => hw.2 _ (by rw [hst]; rfl) hri⟩
      unfold attachedCouples
      rw [attached_of hti (hread hdn), Res.ok_bind])
  obtain ⟨v2, hpath⟩ := pathSig_of hC hsound hkel hlen hest hu hctl (cred := c) (sig := sig) hsig.signer hsig.sn hq hsig.said hsigned (fuel := fuel)
    (hd.up (Nat.le_succ _)) hread' v1
  obtain ⟨v3, hedges⟩ := hedges v2
  refine ⟨v3, acdc_verifies hb (ri := ri) (schema := schema) ?_ ?_ hid htext hschema hstate (proof_of hsig.root hpath) (nodes := nodes) ?_ hedges hknown⟩
  · cases u <;> cases source <;> cases rules <;> simp [field, credDoc, entry]
  · cases u <;> cases source <;> cases rules <;> simp [field, credDoc, entry]
  · rw [← hnodes]
    congr 2
    cases u <;> cases source <;> cases rules <;> simp [field, credDoc, entry]

/-- A verifier that accepts the edges of a credential accepts the credential. -/
theorem credential_accepts {E : Env} (hC : CryptoOk E.C) (hH : HashOk E.H) (hstore : ∀ st t, E.refuses st t = false)
    {S : Stretch} {rnd : Nat → Nat} {now schema issuer : Str} {data : Value} {recipient : Option Str} {priv : Option Bool} {salt : Option Str} {ri : Str}
    {source rules : Option Value} {version : Option Version} {kind : Option Str} {c : Sad} {id text : Str}
    (h : createAcdc E S rnd now schema issuer data recipient priv salt (some ri) source rules version kind = .ok c) (hs : Sendable c)
    (hid : Sadder.said E.chk c = .ok id) (htext : c.raw = toUtf8 text) (hschema : E.schema schema text = .ok true)
    {log : List Entry} {ks nks : KeySet} (hlog : History E issuer log ks nks) (hlen : log.length ≤ 2 ^ 32) {a b : List Entry} {est : Entry}
    (hest : log = a ++ est :: b) (hlatest : LatestEst log est) {q : Str} (hq : Sadder.said E.chk est.sad = .ok q)
    {sig : SadPathSig} (hsig : ProofBy E.chk sig issuer a.length q) {r : Nat} (hsigned : MadeBy E ks r c.raw sig.sigers)
    {rnd' : Nat} {dt qi issuerId : Str} {i ai : Sad} (hissue : vcIssue E S rnd' dt id ri = .ok (qi, i)) (hi : Sendable i) {ti gi : Str}
    (hti : i.raw = toUtf8 ti) (hfresh : E.expired dt = .ok false)
    {st : Store} (hkel : List.Forall₂ (Reads E.fl) (st.kels issuer) log)
    (hcon : Controller E st ri issuerId) (hst : st.tels id = [ti ++ gi]) {ci : M × M} (hn : AnchorNamed E st issuerId ci ai) (hseal : Seals E.chk ai i)
    (hnew : ∀ t ∈ st.acdcs, ∀ c', Creder.newWithRaw E.fl (toUtf8 t) = .ok c' → Sadder.said E.chk c' ≠ .ok id)
    {g : Str} {fuel : Nat} {deep verify : Option Bool} (hd : Deepens E st deep fuel issuer) (hd' : Deepens E st deep fuel issuerId)
    (hv : verify ≠ some false) (hread : deep ≠ some false → ReadsAs E gi (.couples [ci]))
    (hread' : deep = none → ∃ t g, (st.kels issuer)[a.length]? = some (t ++ g) ∧ est.sad.raw = toUtf8 t ∧ ReadsAs E g (.quadlets est.groups))
    {nodes : List (Res Value)} (hnodes : edgeNodes (source.getD (.obj [])) = .ok nodes)
    (hedges : ∀ v, ∃ v', verifyEdges E st deep (fuel + 1) c nodes v = .ok v') :
    Accepts E (fuel + 2) deep verify st ⟨text, g, .quadlets [.sadPath [sig]]⟩ (st.insertAcdc (text ++ g)) := by
  have hsound := history_sound hC hH hlog hlen
  obtain ⟨est', he', hctl, -⟩ := hsound.est
  cases latest_unique hlatest he'
  obtain ⟨vs, u, u', map, sub, -, -, -, -, -, hb⟩ := create_ok h
  have hr : Creder.newWithRaw E.fl (c.raw ++ toUtf8 []) = .ok c := creder_raw.mpr ⟨hb.whole hs.plain hs.depth hs.small E.fl [], hb.ident⟩
  rw [htext] at hr
  exact ingest_credential hstore hv htext (by simpa [toUtf8] using hr) hid fun v =>
    credential_verifies hC h hid htext hschema hsound hlen hest hsound.usable hctl hq hsig hsigned hissue hi hti hfresh hkel hcon hst hn hseal
      (known := false) (by unfold HasAcdc; simpa using hnew) hd hd' hread hread' hnodes hedges (id :: v)

/-- C77: a verifier that has the issuer's key event log, the registry, the issuance of the credential and the key event
that seals the issuance, accepts the credential with the proof of the issuer, whose keys in force sign it. The credential is
of its schema, not too old, rests on no others, and is new to the verifier. Unless told otherwise the verifier verifies
again the issuance, and by default the establishment event with the keys, and what it kept with them has to be read back as it was
received; if it is asked to repeat all earlier verification, what it has for the issuer must verify again. It keeps the credential, and changes nothing else. -/
theorem C77_accepted (E : Env) (hC : CryptoOk E.C) (hH : HashOk E.H) (hstore : ∀ st t, E.refuses st t = false)
    -- the credential
    (S : Stretch) (rnd : Nat → Nat) (now schema issuer : Str) (data : Value) (recipient : Option Str) (priv : Option Bool) (salt : Option Str) (ri : Str)
    (rules : Option Value) (version : Option Version) (kind : Option Str) (c : Sad) (id text : Str)
    (h : createAcdc E S rnd now schema issuer data recipient priv salt (some ri) none rules version kind = .ok c) (hs : Sendable c)
    (hid : Sadder.said E.chk c = .ok id) (htext : c.raw = toUtf8 text) (hschema : E.schema schema text = .ok true)
    -- the issuer, its log and its proof
    (log : List Entry) (ks nks : KeySet) (hlog : History E issuer log ks nks) (hlen : log.length ≤ 2 ^ 32) (a b : List Entry) (est : Entry)
    (hest : log = a ++ est :: b) (hlatest : LatestEst log est) (q : Str) (hq : Sadder.said E.chk est.sad = .ok q)
    (sig : SadPathSig) (hsig : ProofBy E.chk sig issuer a.length q) (r : Nat) (hsigned : MadeBy E ks r c.raw sig.sigers)
    -- the issuance
    (rnd' : Nat) (dt qi issuerId : Str) (i ai : Sad) (hissue : vcIssue E S rnd' dt id ri = .ok (qi, i)) (hi : Sendable i) (ti gi : Str)
    (hti : i.raw = toUtf8 ti) (hfresh : E.expired dt = .ok false)
    -- the verifier
    (st : Store) (hkel : List.Forall₂ (fun t e => Serder.newWithRaw E.fl (toUtf8 t) = .ok e.sad) (st.kels issuer) log)
    (hcon : Controller E st ri issuerId) (hst : st.tels id = [ti ++ gi]) (ci : M × M) (hn : AnchorNamed E st issuerId ci ai) (hseal : Seals E.chk ai i)
    (hnew : ∀ t ∈ st.acdcs, ∀ c', Creder.newWithRaw E.fl (toUtf8 t) = .ok c' → Sadder.said E.chk c' ≠ .ok id)
    (g : Str) (fuel : Nat) (deep verify : Option Bool) (hd : Deepens E st deep fuel issuer) (hd' : Deepens E st deep fuel issuerId)
    (hv : verify ≠ some false) (hread : deep ≠ some false → ReadsAs E gi (.couples [ci]))
    (hread' : deep = none → ∃ t g, (st.kels issuer)[a.length]? = some (t ++ g) ∧ est.sad.raw = toUtf8 t ∧ ReadsAs E g (.quadlets est.groups)) :
    ∃ st', ingestLoop E (fuel + 2) deep verify st [.payload text, .group (.quadlets [.sadPath [sig]]) (.ok g)] [] = (st', .ok ()) ∧
      st'.acdcs = st.acdcs ++ [text ++ g] ∧ st'.kels = st.kels ∧ st'.tels = st.tels :=
  ⟨_, (credential_accepts hC hH hstore h hs hid htext hschema hlog hlen hest hlatest hq hsig hsigned hissue hi hti hfresh hkel hcon hst hn hseal hnew hd hd' hv hread hread'
    (nodes := []) rfl fun v => ⟨v, by unfold verifyEdges; rfl⟩).once, rfl, rfl, rfl⟩

/-! ## C78 -/

/-- C78, for data without a field `i`: the subject of the credential names the recipient asked for, or none. Missing: data with
a field `i`, which `C78_false` shows. -/
theorem C78_partial (E : Env) (S : Stretch) (rnd : Nat → Nat) (now schema issuer : Str) (data : List (Str × Value)) (recipient : Option Str)
    (priv : Option Bool) (salt status : Option Str) (source rules : Option Value) (version : Option Version) (kind : Option Str) (c : Sad)
    (hdata : (data.map Prod.fst).Nodup) (hi : str% "i" ∉ data.map Prod.fst)
    (h : createAcdc E S rnd now schema issuer (.obj data) recipient priv salt status source rules version kind = .ok c) :
    ∃ sub, field (str% "a") c.ked = some sub ∧ field (str% "i") sub = recipient.map .str := by
  obtain ⟨vs, u, u', map, a, e, hu, hu', -, ha, hb⟩ := create_ok h
  cases e
  obtain ⟨sub, hsub, -, hf⟩ := C37_fields _ _ _ _ _ _ _ _ _ (show _ = Res.ok (a.1, a.2) from ha)
  refine ⟨.obj sub, ?_, ?_⟩
  · rw [hb.fields _ (by decide) (by decide), ← hsub]
    cases u <;> cases status <;> simp [field, credDoc, entry]
  · rw [hf _ (by decide) (by decide), Saider.field_find]
    unfold subjectDoc
    rw [find_entries _ _ _ hdata]
    have : Value.find (str% "i") data = none := by
      rw [← Saider.field_find]
      unfold field
      dsimp only
      rw [List.find?_eq_none.mpr]
      · rfl
      · intro e he
        simp only [decide_eq_true_eq]
        intro h
        exact hi (h ▸ List.mem_map_of_mem he)
    rw [this, find_insert_ne (by decide)]
    cases u' <;> cases recipient <;> simp [entry, Value.find]

/-- A credential for one recipient, whose data names another. -/
def World.misnamed : Res Sad :=
  createAcdc (World.env []) World.stretch (fun n => n) (str% "2023-01-01T00:00:00.000000+00:00") (str% "schema") (str% "issuer")
    (.obj [(str% "i", .str (str% "other"))]) (some (str% "recipient")) none none none none none none none

/-- C78 is false: a credential created for a recipient names another, when the data has a field `i`. -/
theorem C78_false : ∃ (E : Env) (S : Stretch) (rnd : Nat → Nat) (now schema issuer recipient other : Str) (data : List (Str × Value)) (c : Sad) (sub : Value),
    (data.map Prod.fst).Nodup ∧
    createAcdc E S rnd now schema issuer (.obj data) (some recipient) none none none none none none none = .ok c ∧ field (str% "a") c.ked = some sub ∧
    field (str% "i") sub = some (.str other) ∧ other ≠ recipient := by
  have h : World.holds World.misnamed (fun c => match field (str% "a") c.ked with
      | some sub => World.textAt (str% "i") sub == some (str% "other")
      | none => false) = true := by decide +kernel
  obtain ⟨c, hc, h⟩ := World.holds_ok h
  split at h
  case h_1 sub hsub =>
    exact ⟨_, _, _, _, _, _, _, str% "other", _, c, sub, by decide, hc, hsub, World.textAt_ok (beq_iff_eq.mp h), by decide⟩
  case h_2 => cases h

/-! ## Examples -/

/-- A blinded credential with all that a credential may have. -/
def World.full : Res Sad :=
  createAcdc (World.env []) World.stretch (fun n => n) (str% "2023-01-01T00:00:00.000000+00:00") (str% "schema") (str% "issuer")
    (.obj [(str% "name", .str (str% "x")), (str% "role", .arr [.bool true])]) (some (str% "recipient")) (some true) (some (str% "salt")) (some (str% "registry"))
    (some (.obj [(str% "d", .str [])])) (some (.obj [(str% "rule", .str (str% "none"))])) none none

example : ∃ (E : Env) (data : List (Str × Value)) (c : Sad), data.length = 2 ∧ (data.map Prod.fst).Nodup ∧
    (∀ k ∈ [str% "d", str% "u", str% "i", str% "dt"], k ∉ data.map Prod.fst) ∧ HashOk E.H ∧ Sendable c ∧
    createAcdc E World.stretch (fun n => n) (str% "2023-01-01T00:00:00.000000+00:00") (str% "schema") (str% "issuer") (.obj data) (some (str% "recipient")) (some true)
      (some (str% "salt")) (some (str% "registry")) (some (.obj [(str% "d", .str [])])) (some (.obj [(str% "rule", .str (str% "none"))])) none none = .ok c := by
  have h : World.holds World.full World.sendable = true := by decide +kernel
  obtain ⟨c, hc, h⟩ := World.holds_ok h
  exact ⟨World.env [], _, c, rfl, by decide, by decide, World.hash_ok, World.sendable_ok h, hc⟩

/-- The small world, with a parser that reads one text as couples and all others as signatures. -/
def World.reading (gi : Str) (c : M × M) (sg : List SigGroup) : Env :=
  { World.env [] with parse := fun b => if b = toUtf8 gi then .ok [.group (.couples [c]) (.ok gi)] else .ok [.group (.quadlets sg) (.ok [])] }

theorem World.reading_sign (gi : Str) (c : M × M) (sg : List SigGroup) (rnd : Nat) (k : KeySet) (ser : Bytes) :
    k.sign (World.reading gi c sg) rnd ser none = k.sign (World.env []) rnd ser none := by
  have : ∀ (l : List Signer) (n : Nat), KeySet.signLoop (World.reading gi c sg) rnd ser none n l = KeySet.signLoop (World.env []) rnd ser none n l := by
    intro l
    induction l with
    | nil => intro n; rfl
    | cons s l ih =>
      intro n
      unfold KeySet.signLoop
      simp only [ih]
      rfl
  unfold KeySet.sign
  simp only [this]
  rfl

/-- The controller A with the log `icpA`, `ixnA`, `ixnA2`, who proves the credential `credA`. -/
def World.credCase : Bool :=
  World.holds (World.ks [1]) fun a => World.holds (World.ks [2]) fun b =>
  World.holds (a.verfersQb64 (World.env [])) fun ka => World.holds (b.digersQb64 (World.env [])) fun db =>
  World.holds (incept (World.env []) ka none (some db) none none none none none none none (some (str% "E")) none none) fun s0 =>
  World.holds (Serder.pre s0) fun pre => World.holds (Sadder.said true s0) fun d0 => World.holds (a.sign (World.env []) 0 s0.raw none) fun g0 =>
  World.holds (World.vcpA >>= Serder.pre) fun ri => World.holds (World.vcpA >>= Sadder.said true) fun rd =>
  World.holds (interact (World.env []) pre d0 (some 1) (some (sealOf ri (str% "0") rd)) none none) fun s1 =>
  World.holds (Sadder.said true s1) fun d1 => World.holds (a.sign (World.env []) 0 s1.raw none) fun g1 =>
  World.holds (createAcdc (World.env []) World.stretch (fun n => n) (str% "2023-01-01T00:00:00.000000+00:00") (str% "schema") pre (.obj [(str% "name", .str (str% "x"))])
    none none none (some ri) none none none none) fun c => World.holds (Sadder.said true c) fun id =>
  World.holds (vcIssue (World.env []) World.stretch 3 (str% "2023-01-01T00:00:00.000000+00:00") id ri) fun i => World.holds (Sadder.said true i.2) fun id' =>
  World.holds (interact (World.env []) pre d1 (some 2) (some (sealOf id (str% "0") id')) none none) fun s2 => World.holds (a.sign (World.env []) 0 s2.raw none) fun g2 =>
  World.holds (World.inRow World.issued) fun l => World.holds (World.coupled World.issA World.ixnA2) fun p =>
  World.holds p.1.payloadText fun ti => World.holds p.2.cesrGroup fun g => World.holds g.2 fun gi => World.holds (World.couple World.ixnA2) fun ci =>
  World.holds (fromUtf8 c.raw) fun text => World.holds (fromUtf8 s0.raw) fun t0 => World.holds (fromUtf8 s1.raw) fun t1 => World.holds (fromUtf8 s2.raw) fun t2 =>
  World.holds (endorseSerder true (some g0) none none none) fun e0 => World.holds (endorseSerder true (some g1) none none none) fun e1 =>
  World.holds (endorseSerder true (some g2) none none none) fun e2 =>
  World.holds (Pather.newWithPath (.arr [])) fun _ => World.holds (Matter.newWithQb64 pre) fun prefixer => World.holds (Seqner.newWithSn 0) fun seqner =>
  World.holds (Matter.newWithQb64 d0) fun saider => World.holds (a.sign (World.env []) 0 c.raw none) fun _ =>
    (World.usable a && (World.sendable s0 && (World.sendable s1 && (World.sendable s2 && (World.sendable c && World.sendable i.2))))) &&
    (decide (ka.length = a.keys.length) && (decide (i.2.raw = toUtf8 ti) && (decide ((World.kept l).tels id = [ti ++ gi]) &&
    (World.controls (World.kept l) ri pre && World.anchored (World.kept l) pre ci i.2)))) &&
    (decide (c.raw = toUtf8 text) && (decide (s0.raw = toUtf8 t0) && (decide (s1.raw = toUtf8 t1) && (decide (s2.raw = toUtf8 t2) &&
    (decide (toUtf8 e0 ≠ toUtf8 gi) && (decide ((World.kept l).acdcs = []) && (decide ((World.kept l).kels pre = [t0 ++ e0, t1 ++ e1, t2 ++ e2]) &&
    (World.holds (Matter.qb64 true prefixer) (fun q => decide (q = pre)) && (World.holds (Seqner.sn seqner) (fun n => decide (n = 0)) &&
    World.holds (Matter.qb64 true saider) fun q => decide (q = d0))))))))))

/-- All that `C77_accepted` asks for is met, by default and without repeating the verification. -/
example (deep : Option Bool) (hd : deep ≠ some true) : ∃ E text sig st st', CryptoOk E.C ∧ HashOk E.H ∧
    ingestLoop E 2 deep none st [.payload text, .group (.quadlets [.sadPath [sig]]) (.ok (str% "-AAA"))] [] = (st', .ok ()) ∧
    st'.acdcs = st.acdcs ++ [text ++ str% "-AAA"] := by
  have h : World.credCase = true := by decide +kernel
  unfold World.credCase at h
  obtain ⟨a, ha, h⟩ := World.holds_ok h
  obtain ⟨b, hb, h⟩ := World.holds_ok h
  obtain ⟨ka, hka, h⟩ := World.holds_ok h
  obtain ⟨db, hdb, h⟩ := World.holds_ok h
  obtain ⟨s0, hs0, h⟩ := World.holds_ok h
  obtain ⟨pre, hpre, h⟩ := World.holds_ok h
  obtain ⟨d0, hd0, h⟩ := World.holds_ok h
  obtain ⟨g0, hg0, h⟩ := World.holds_ok h
  obtain ⟨ri, -, h⟩ := World.holds_ok h
  obtain ⟨rd, -, h⟩ := World.holds_ok h
  obtain ⟨s1, hs1, h⟩ := World.holds_ok h
  obtain ⟨d1, hd1, h⟩ := World.holds_ok h
  obtain ⟨g1, hg1, h⟩ := World.holds_ok h
  obtain ⟨c, hc, h⟩ := World.holds_ok h
  obtain ⟨id, hid, h⟩ := World.holds_ok h
  obtain ⟨⟨qi, i⟩, hi, h⟩ := World.holds_ok h
  obtain ⟨id', hid', h⟩ := World.holds_ok h
  obtain ⟨s2, hs2, h⟩ := World.holds_ok h
  obtain ⟨g2, hg2, h⟩ := World.holds_ok h
  obtain ⟨l, -, h⟩ := World.holds_ok h
  obtain ⟨p, -, h⟩ := World.holds_ok h
  obtain ⟨ti, -, h⟩ := World.holds_ok h
  obtain ⟨g, -, h⟩ := World.holds_ok h
  obtain ⟨gi, -, h⟩ := World.holds_ok h
  obtain ⟨ci, -, h⟩ := World.holds_ok h
  obtain ⟨text, -, h⟩ := World.holds_ok h
  obtain ⟨t0, -, h⟩ := World.holds_ok h
  obtain ⟨t1, -, h⟩ := World.holds_ok h
  obtain ⟨t2, -, h⟩ := World.holds_ok h
  obtain ⟨e0, -, h⟩ := World.holds_ok h
  obtain ⟨e1, -, h⟩ := World.holds_ok h
  obtain ⟨e2, -, h⟩ := World.holds_ok h
  obtain ⟨pather, hpather, h⟩ := World.holds_ok h
  obtain ⟨prefixer, hprefixer, h⟩ := World.holds_ok h
  obtain ⟨seqner, hseqner, h⟩ := World.holds_ok h
  obtain ⟨saider, hsaider, h⟩ := World.holds_ok h
  obtain ⟨gc, hgc, h⟩ := World.holds_ok h
  generalize World.kept l = st at h
  simp only [Bool.and_eq_true, decide_eq_true_eq] at h
  obtain ⟨⟨⟨w1, w2, w3, w4, w5, w6⟩, w7, w8, w9, w10, w11⟩, w12, w13, w14, w15, w16, w17, w18, w19, w20, w21⟩ := h
  obtain ⟨x1, hx1, y1⟩ := World.holds_ok w19
  obtain ⟨x2, hx2, y2⟩ := World.holds_ok w20
  obtain ⟨x3, hx3, y3⟩ := World.holds_ok w21
  cases of_decide_eq_true y1
  cases of_decide_eq_true y2
  have y3 := of_decide_eq_true y3
  rw [y3] at hx3
  let E := World.reading gi ci [.controller g0]
  rw [← World.reading_sign gi ci [.controller g0]] at hg0 hg1 hg2 hgc
  obtain ⟨ai, hn, hseal⟩ := World.anchored_ok w11 []
  have hr0 := C70_reaches E _ _ _ _ _ _ _ _ _ _ _ _ _ (by decide) (.inl rfl) hs0
  rw [w7] at hr0
  have k0 := History.incept (E := E) a b ka db _ none none none none none none none none s0 pre 0 g0 (World.usable_ok w1) hka hdb hs0 hpre hr0 (made hg0) (World.sendable_ok w2)
  have k1 := History.interact (E := E) pre _ a b _ d0 _ none none s1 0 g1 k0 rfl hd0 hs1 (made hg1) (World.sendable_ok w3)
  have k2 := History.interact (E := E) pre _ a b _ d1 _ none none s2 0 g2 k1 rfl hd1 hs2 (made hg2) (World.sendable_ok w4)
  have f0 := C69_incept E World.hash_ok _ _ _ _ _ _ _ _ _ _ _ _ _ (by decide) hs0 (World.sendable_ok w2)
  have f1 := C69_interact E World.hash_ok _ _ _ _ _ _ _ (by decide) hs1 (World.sendable_ok w3)
  have f2 := C69_interact E World.hash_ok _ _ _ _ _ _ _ (by decide) hs2 (World.sendable_ok w4)
  have r0 := f0.2.2.2.2.2.2.2.2.2.2.2.2.2.2 e0
  have r1 := f1.2.2.2.2.2.2.2.2.2 e1
  have r2 := f2.2.2.2.2.2.2.2.2.2 e2
  rw [w13, ← toUtf8_append] at r0
  rw [w14, ← toUtf8_append] at r1
  rw [w15, ← toUtf8_append] at r2
  have hlatest : ∀ x ∈ [(⟨s1, [.controller g1]⟩ : Entry), ⟨s2, [.controller g2]⟩], ¬ Establishes x.sad := by
    have t1 := f1.2.2.2.1
    have t2 := f2.2.2.2.1
    intro x hx
    simp only [List.mem_cons, List.not_mem_nil, or_false] at hx
    rcases hx with rfl | rfl
    · unfold HasText at t1
      rintro (h | h) <;> (unfold HasText at h; dsimp only at h; rw [t1] at h; simp at h)
    · unfold HasText at t2
      rintro (h | h) <;> (unfold HasText at h; dsimp only at h; rw [t2] at h; simp at h)
  have hread' : deep = none → ∃ t g, (st.kels pre)[0]? = some (t ++ g) ∧ s0.raw = toUtf8 t ∧ ReadsAs E g (.quadlets [.controller g0]) :=
    fun _ => ⟨t0, e0, by rw [w18]; rfl, w13, .ok [], [], if_neg w16⟩
  obtain ⟨st', m1, m2, -⟩ := C77_accepted E World.crypto_ok World.hash_ok (fun _ _ => rfl) World.stretch (fun n => n) _ (str% "schema") pre _ none none none ri none none none
    c id text hc (World.sendable_ok w5) hid w12 rfl _ a b k2 (by simp) [] _ _ rfl ⟨[], _, rfl, .inl f0.2.2.2.1, hlatest⟩ d0 hd0
    ⟨pather, prefixer, seqner, saider, gc⟩ ⟨hpather, hx1, hx2, hx3⟩ 0 (made hgc) 3 _ qi pre i ai hi (World.sendable_ok w6) ti gi w8 rfl st
    (by rw [w18]; exact .cons r0 (.cons r1 (.cons r2 .nil))) (World.controls_ok w10 []) w9 ci hn hseal (by rw [w17]; simp) (str% "-AAA") 0 deep none (.off hd) (.off hd)
    (by simp) (fun _ => ⟨.ok gi, [], if_pos rfl⟩) hread'
  exact ⟨E, text, _, st, st', World.crypto_ok, World.hash_ok, m1, m2⟩

end Keride.Props
