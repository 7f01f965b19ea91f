/-
Credentials as `create` of sample/keri builds them, and their verification.
-/
import Verif.Lemmas.Issue
import Verif.Lemmas.Acdc

namespace Keride.Sample

open Matter Spec Props Saider

/-! ## The builder -/

/-- An entry that may be absent. -/
def entry (k : Str) : Option Value → List (Str × Value)
  | some v => [(k, v)]
  | none => []

/-- The fields of a credential. -/
def credDoc (vs : Str) (u : Option Str) (issuer : Str) (status : Option Str) (schema : Str) (a : Value) (source rules : Option Value) : List (Str × Value) :=
  [(str% "v", .str vs), (str% "d", .str [])] ++ entry (str% "u") (u.map .str) ++ [(str% "i", .str issuer)] ++ entry (str% "ri") (status.map .str) ++
    [(str% "s", .str schema), (str% "a", a)] ++ entry (str% "e") source ++ entry (str% "r") rules

/-- The fields of the subject of a credential, before it has a SAID. -/
def subjectDoc (u recipient : Option Str) (now : Str) (data : List (Str × Value)) : List (Str × Value) :=
  data.foldl (fun s e => Value.insert e.1 e.2 s)
    (Value.insert (str% "dt") ((Value.find (str% "dt") data).getD (.str now)) ([(str% "d", .str [])] ++ entry (str% "u") (u.map .str) ++ entry (str% "i") (recipient.map .str)))

theorem create_ok {E : Env} {S : Stretch} {rnd : Nat → Nat} {now schema issuer : Str} {data : Value} {recipient : Option Str} {priv : Option Bool}
    {salt status : Option Str} {source rules : Option Value} {version : Option Version} {kind : Option Str} {c : Sad}
    (h : createAcdc E S rnd now schema issuer data recipient priv salt status source rules version kind = .ok c) :
    ∃ vs u u' map a, data = .obj map ∧ (u.isSome ↔ priv = some true) ∧ (u'.isSome ↔ priv = some true) ∧
      (∀ t, salt = some t → priv = some true → u = some t ∧ u' = some t) ∧
      Saider.saidify E.H E.chk (.obj (subjectDoc u' recipient now map)) none (some (kind.getD (str% "JSON"))) (some (str% "d")) none = .ok a ∧
      BuiltAs (str% "ACDC") E.H E.chk (credDoc vs u issuer status schema a.2 source rules) c := by
  unfold createAcdc at h
  dsimp only at h
  obtain ⟨vs, -, h⟩ := Res.bind_eq_ok.mp h
  obtain ⟨bl, hbl, h⟩ := Res.bind_eq_ok.mp h
  obtain ⟨map, hmap, h⟩ := Res.bind_eq_ok.mp h
  obtain ⟨a, ha, h⟩ := Res.bind_eq_ok.mp h
  obtain ⟨r, hr, h⟩ := Res.bind_eq_ok.mp h
  have hdata : data = .obj map := by
    cases data <;> cases hmap
    rfl
  have hpriv : (bl.isSome ↔ priv = some true) ∧ (∀ t, salt = some t → priv = some true → bl = some (t, t)) := by
    cases priv with
    | none => cases hbl; simp
    | some b =>
      cases b with
      | false => cases hbl; simp
      | true =>
        rw [show (some true).getD false = true from rfl, if_pos rfl] at hbl
        obtain ⟨x, hx, hbl⟩ := Res.bind_eq_ok.mp hbl
        obtain ⟨y, hy, hbl⟩ := Res.bind_eq_ok.mp hbl
        cases hbl
        refine ⟨by simp, ?_⟩
        rintro t rfl -
        cases hx
        cases hy
        rfl
  obtain ⟨h1, h2⟩ := creder_ked.mp h
  refine ⟨vs, bl.map Prod.fst, bl.map Prod.snd, map, a, hdata, by rw [Option.isSome_map]; exact hpriv.1, by rw [Option.isSome_map]; exact hpriv.1, ?_, ?_, ?_⟩
  · intro t h1 h2
    rw [hpriv.2 t h1 h2]
    exact ⟨rfl, rfl⟩
  · rw [← ha]
    unfold subjectDoc
    cases bl <;> cases recipient <;> simp [entry, Value.insert]
  · refine built_as (o := credDoc vs (bl.map Prod.fst) issuer status schema a.2 source rules) ?_ h1 h2 rfl
    rw [← hr]
    congr 2
    cases bl <;> cases status <;> cases source <;> cases rules <;> rfl

/-! ## Verification -/

theorem distinct_of : ∀ (l seen : List Siger), ((seen ++ l).map fun g => g.i.index).Nodup → distinctSigers seen l = seen ++ l := by
  intro l
  induction l with
  | nil => intro seen _; simp [distinctSigers]
  | cons g l ih =>
    intro seen h
    unfold distinctSigers
    have hg : seen.contains g = false := by
      rw [Bool.eq_false_iff]
      intro hin
      rw [List.contains_iff_mem] at hin
      rw [List.map_append, List.nodup_append] at h
      exact h.2.2 _ (List.mem_map_of_mem hin) _ (List.mem_map_of_mem (by simp)) rfl
    rw [hg, if_neg (by simp), ih (seen ++ [g]) (by simpa using h)]
    simp

/-- The verifier's log read as the controller's, with the last establishment event at its place. -/
theorem Sound.again {E : Env} {pre : Str} {log : List Entry} {ks nks : KeySet} (h : Sound E pre log ks nks) {st : Store}
    (hst : List.Forall₂ (Reads E.fl) (st.kels pre) log) {a b : List Entry} {e : Entry} (hlog : log = a ++ e :: b) (hlen : log.length ≤ 2 ^ 32)
    {deep : Option Bool} (hd : deep ≠ some true) {fuel : Nat} {v : List Str} :
    verifyKeyEvent E st deep (fuel + 1) e.sad e.groups v = .ok (true, v) := by
  have hl := hst.length_eq
  have hal : a.length < log.length := by rw [hlog]; simp
  let st0 : Store := { st with kels := fun p => if p = pre then (st.kels pre).take a.length else st.kels p }
  have hst0 : List.Forall₂ (Reads E.fl) (st0.kels pre) a := by
    have : st0.kels pre = (st.kels pre).take a.length := if_pos rfl
    rw [this]
    have := List.forall₂_take a.length hst
    rw [hlog, List.take_left' rfl] at this
    exact this
  have hext : Extends st0 st := by
    refine ⟨fun p => ?_, fun _ => List.prefix_refl _, List.prefix_refl _⟩
    by_cases hp : p = pre
    · subst hp
      have : st0.kels p = (st.kels p).take a.length := if_pos rfl
      rw [this]
      exact List.take_prefix _ _
    · have : st0.kels p = st.kels p := if_neg hp
      rw [this]
  obtain ⟨q, prior, hq, hck⟩ := h.accept a e b hlog st0 hst0
  have hck := checkKeyEvent_ext hext hck (by dsimp only; omega)
  rw [verifyKeyEvent_shallow hd, hck, Res.ok_bind]
  have hget : (log)[a.length]? = some e := by rw [hlog]; simp
  obtain ⟨t, ht, hr⟩ := forall₂_get hst.flip hget
  rw [(confirm_at rfl).mpr ⟨t, e.sad, by rw [Nat.mod_eq_of_lt (by dsimp only; omega)]; exact ht, hr, hq⟩, Res.ok_bind]

theorem pathSig_of {E : Env} (hC : CryptoOk E.C) {pre : Str} {log : List Entry} {ks nks : KeySet} (h : Sound E pre log ks nks) {st : Store}
    (hst : List.Forall₂ (Reads E.fl) (st.kels pre) log) (hlen : log.length ≤ 2 ^ 32) {a b : List Entry} {est : Entry} (hlog : log = a ++ est :: b)
    {ks0 : KeySet} (hu : Usable ks0) (hctl : Controls E ks0 est.sad) {cred : Sad} {sig : SadPathSig} {rnd : Nat} {q : Str}
    (hp : qb64 E.chk sig.prefixer = .ok pre) (hn : Seqner.sn sig.seqner = .ok a.length) (hq : Sadder.said E.chk est.sad = .ok q)
    (hd : qb64 E.chk sig.saider = .ok q) (hs : MadeBy E ks0 rnd cred.raw sig.sigers) {deep : Option Bool} {fuel : Nat} (hdeep : Deepens E st deep (fuel + 1) pre)
    (hread : deep = none → ∃ t g, (st.kels pre)[a.length]? = some (t ++ g) ∧ est.sad.raw = toUtf8 t ∧ ReadsAs E g (.quadlets est.groups))
    (v : List Str) : ∃ v', verifyPathSig E st deep (fuel + 1) cred sig v = .ok v' := by
  have hl := hst.length_eq
  have hal : a.length < log.length := by rw [hlog]; simp
  have hget : (log)[a.length]? = some est := by rw [hlog]; simp
  obtain ⟨t, ht, hr⟩ := forall₂_get hst.flip hget
  obtain ⟨-, oe, hoe, -⟩ := read_doc hr
  obtain ⟨ks', th, hk, hkl, hks', hg, hsat⟩ := signed_all hC hu hoe hctl hs
  obtain ⟨sg, hsg, hin⟩ := sign_ok hC hu hs
  have hdist : distinctSigers [] sig.sigers = sig.sigers := by
    rw [distinct_of]
    · rfl
    · have := (in_order hin).2
      have e : (sig.sigers.map fun g => g.i.index) = (sig.sigers.map fun g => (g.i.index, g.i.ondex)).map Prod.fst := by
        rw [List.map_map]; rfl
      rw [List.nil_append, e, this, List.map_map]
      have : (Prod.fst ∘ fun i : Nat => (i, i)) = id := rfl
      rw [this, List.map_id]
      exact List.nodup_range
  have hvs : verifySigers E.C ks' cred.raw sig.sigers = .ok ((List.range ks0.keys.length).map fun i => (i, i)) := by
    unfold verifyGroups at hg
    obtain ⟨x, hx, hg⟩ := Res.bind_eq_ok.mp hg
    unfold verifyGroups at hg
    rw [Res.ok_bind, List.append_nil] at hg
    rw [hx]
    exact hg
  have hth : Serder.tholder E.chk E.fl est.sad = .ok (some th) ∧ Serder.verfers est.sad = .ok ks' := by
    unfold keysOf at hk
    obtain ⟨x, hx, hk⟩ := Res.bind_eq_ok.mp hk
    cases x with
    | none => cases hk
    | some x =>
      obtain ⟨y, hy, hk⟩ := Res.bind_eq_ok.mp hk
      cases hk
      exact ⟨hx, hy⟩
  have hv : ∃ v', ((if deep.getD true then
        if v.contains q then .ok v
        else do
          let g ← attachedQuadlets E t est.sad
          let r ← verifyKeyEvent E st deep (fuel + 1) est.sad g (q :: v)
          .ok r.2
      else .ok v : Res (List Str))) = .ok v' := by
    cases deep with
    | some b =>
      cases b with
      | true =>
        rw [show (some true).getD true = true from rfl, if_pos rfl]
        by_cases hcn : v.contains q = true
        · exact ⟨v, by rw [if_pos hcn]⟩
        · obtain ⟨g, h1, h2⟩ := hdeep rfl _ (le_refl _) _ t est.sad ht hr
          obtain ⟨w, h2⟩ := h2 (q :: v)
          exact ⟨w, by rw [if_neg hcn, h1, Res.ok_bind, h2, Res.ok_bind]⟩
      | false => exact ⟨v, rfl⟩
    | none =>
      rw [show (none : Option Bool).getD true = true from rfl, if_pos rfl]
      by_cases hcn : v.contains q = true
      · exact ⟨v, by rw [if_pos hcn]⟩
      · obtain ⟨t', g, h1, h2, h3⟩ := hread rfl
        rw [ht] at h1
        cases h1
        refine ⟨q :: v, ?_⟩
        unfold attachedQuadlets
        rw [if_neg hcn, attached_of h2 h3, Res.ok_bind]
        dsimp only
        rw [Res.ok_bind, h.again hst hlog hlen (by simp), Res.ok_bind]
  obtain ⟨v', hv⟩ := hv
  refine ⟨v', ?_⟩
  unfold verifyPathSig
  rw [hp, Res.ok_bind, hn, Res.ok_bind, Nat.mod_eq_of_lt (by omega)]
  unfold Store.getKeyEvent
  rw [ht]
  change (Serder.newWithRaw E.fl (toUtf8 t) >>= _) = _
  have hr : Serder.newWithRaw E.fl (toUtf8 t) = .ok est.sad := hr
  rw [hr, Res.ok_bind, hq, Res.ok_bind, hd, Res.ok_bind, if_neg (by simp), hv, Res.ok_bind, hth.2, Res.ok_bind, hdist, hvs, Res.ok_bind, hth.1, Res.ok_bind]
  dsimp only
  rw [hsat, Res.ok_bind, if_neg (by simp)]

/-- The path signature over the whole credential. -/
theorem root_bext {p : M} (h : Pather.newWithPath (.arr []) = .ok p) : Bexter.bext p = .ok (str% "-") := by
  have : (Pather.newWithPath (.arr []) >>= Bexter.bext) = .ok (str% "-") := by decide +kernel
  rw [h, Res.ok_bind] at this
  exact this

theorem proof_of {E : Env} {st : Store} {deep : Option Bool} {fuel : Nat} {cred : Sad} {sig : SadPathSig} {v v' : List Str}
    (hroot : Pather.newWithPath (.arr []) = .ok sig.pather) (h : verifyPathSig E st deep fuel cred sig v = .ok v') :
    verifyProof E st deep fuel cred [.sadPath [sig]] false v = .ok (true, v') := by
  unfold verifyProof verifyPathSigs
  rw [root_bext hroot, Res.ok_bind, if_neg (by simp), h, Res.ok_bind]
  unfold verifyPathSigs
  rw [Res.ok_bind]
  unfold verifyProof
  rfl

theorem state_of {E : Env} {st : Store} {deep : Option Bool} {fuel : Nat} {vcid : Str} {v : List Str} {t now q : Str} {e : Sad}
    (hst : (st.tels vcid).getLast? = some t) (he : Serder.newWithRaw E.fl (toUtf8 t) = .ok e) (hdt : HasText (str% "dt") now e)
    (hold : E.expired now = .ok false) (ht : HasText (str% "t") (str% "iss") e) (hq : Sadder.said E.chk e = .ok q)
    (hagain : deep ≠ some false → ∃ l, attachedCouples E t e = .ok l ∧ ∀ v, ∃ w, verifyTransactionEvent E st deep fuel e l v = .ok (true, w)) :
    ∃ v', checkState E st deep fuel vcid v = .ok v' := by
  have hv : ∃ v', ((if deep.getD true then do
        let q ← Sadder.said E.chk e
        if v.contains q then .ok v
        else do
          let g ← attachedCouples E t e
          let r ← verifyTransactionEvent E st deep fuel e g (q :: v)
          .ok r.2
      else .ok v : Res (List Str))) = .ok v' := by
    by_cases hdf : deep = some false
    · exact ⟨v, by rw [hdf]; rfl⟩
    · have hg : deep.getD true = true := by
        cases deep with
        | none => rfl
        | some b => cases b with
          | true => rfl
          | false => exact absurd rfl hdf
      rw [hg, if_pos rfl, hq, Res.ok_bind]
      by_cases hcn : v.contains q = true
      · exact ⟨v, by rw [if_pos hcn]⟩
      · obtain ⟨l, h1, h2⟩ := hagain hdf
        obtain ⟨w, h2⟩ := h2 (q :: v)
        exact ⟨w, by rw [if_neg hcn, h1, Res.ok_bind, h2, Res.ok_bind]⟩
  obtain ⟨v', hv⟩ := hv
  refine ⟨v', ?_⟩
  unfold checkState Store.getLatestTransactionEvent
  rw [hst]
  change (Serder.newWithRaw E.fl (toUtf8 t) >>= _) = _
  rw [he, Res.ok_bind, text_index hdt, Res.ok_bind, show (Value.str now).toStr = .ok now from rfl, Res.ok_bind, hold, Res.ok_bind, if_neg (by simp), hv, Res.ok_bind,
    text_index ht, Res.ok_bind, show (Value.str (str% "iss")).toStr = .ok (str% "iss") from rfl, Res.ok_bind, if_neg (by decide)]

theorem getAcdc_none {E : Env} {st : Store} {q : Str}
    (h : ∀ t ∈ st.acdcs, ∀ c, Creder.newWithRaw E.fl (toUtf8 t) = .ok c → Sadder.said E.chk c ≠ .ok q) : st.getAcdc E q = .err .storage := by
  unfold Store.getAcdc
  rw [List.find?_eq_none.mpr]
  · rfl
  · intro t ht
    unfold hasSaid
    split
    · rename_i q' hq
      obtain ⟨c, h1, h2⟩ := Res.bind_eq_ok.mp hq
      intro he
      have he := of_decide_eq_true he
      subst he
      exact h t ht c h1 h2
    · simp

/-- A store has a credential with the SAID, or has none. -/
def HasAcdc (E : Env) (st : Store) (q : Str) (known : Bool) : Prop :=
  if known then ∃ t e, st.getAcdc E q = .ok t ∧ Creder.newWithRaw E.fl (toUtf8 t) = .ok e ∧ Sadder.said E.chk e = .ok q
  else ∀ t ∈ st.acdcs, ∀ c, Creder.newWithRaw E.fl (toUtf8 t) = .ok c → Sadder.said E.chk c ≠ .ok q

theorem acdc_verifies {E : Env} {st : Store} {deep : Option Bool} {fuel : Nat} {o : List (Str × Value)} {c : Sad} {ri schema text q : Str} {g : List SigGroup}
    {v v1 v2 v3 : List Str} (hb : BuiltAs (str% "ACDC") E.H E.chk o c) (hri : field (str% "ri") (.obj o) = some (.str ri)) (hs : field (str% "s") (.obj o) = some (.str schema))
    (hq : Sadder.said E.chk c = .ok q) (ht : c.raw = toUtf8 text) (hschema : E.schema schema text = .ok true)
    (hstate : checkState E st deep fuel q v = .ok v1) (hproof : verifyProof E st deep fuel c g false v1 = .ok (true, v2)) {nodes : List (Res Value)}
    (hnodes : edgeNodes ((field (str% "e") (.obj o)).getD (.obj [])) = .ok nodes) (hedges : verifyEdges E st deep fuel c nodes v2 = .ok v3)
    {known : Bool} (hknown : HasAcdc E st q known) : verifyAcdc E st deep (fuel + 1) c g v = .ok (known, v3) := by
  rw [← hb.fields _ (by decide) (by decide)] at hri hs hnodes
  obtain ⟨o', ho', -⟩ := hb.keys
  obtain ⟨q', hq', -, -, -, hm⟩ := hb.said
  rw [hq] at hq'
  cases hq'
  unfold verifyAcdc
  have h1 : Creder.status c = .ok (some ri) := by
    unfold Creder.status
    rw [ho', field_find] at hri
    rw [ho', show (Value.obj o').toMap = .ok o' from rfl, Res.ok_bind, hri]
    rfl
  have h2 : Creder.schema c = .ok schema := by
    unfold Creder.schema
    rw [text_index hs, Res.ok_bind]
    rfl
  have h3 : Creder.chains c = .ok ((field (str% "e") c.ked).getD (.obj [])) := by
    unfold Creder.chains
    rw [ho', field_find, show (Value.obj o').toMap = .ok o' from rfl, Res.ok_bind]
  have h4 : Saider.newWithQb64 E.H q = .ok c.saider := by
    rw [← saiderOf_hash]
    exact saiderOf_of hm (by rw [hb.code]; decide)
  rw [h1, Res.ok_bind, if_neg (by simp), hq, Res.ok_bind, h2, Res.ok_bind, h3, Res.ok_bind, h4, Res.ok_bind, hb.json, Res.ok_bind, if_neg (by simp), hstate,
    Res.ok_bind, ht, fromUtf8_toUtf8, Res.ok_bind, hschema, Res.ok_bind, if_neg (by simp), hproof, Res.ok_bind]
  dsimp only
  rw [if_neg (by simp), hnodes, Res.ok_bind, hedges, Res.ok_bind]
  unfold HasAcdc at hknown
  cases known with
  | true =>
    rw [if_pos rfl] at hknown
    obtain ⟨t, e, k1, k2, k3⟩ := hknown
    rw [k1]
    dsimp only
    rw [k2, Res.ok_bind, k3, Res.ok_bind, if_neg (by simp)]
  | false =>
    rw [if_neg (by simp)] at hknown
    rw [getAcdc_none hknown]

theorem creder_sniff {fl : Str → Option Str} {raw : Bytes} {s : Sad} (h : Creder.newWithRaw fl raw = .ok s) :
    ∃ r, sniff raw = .ok r ∧ r.ident = str% "ACDC" := by
  obtain ⟨h1, h2⟩ := creder_raw.mp h
  have h1 : Sadder.populateFromRaw fl (str% "E") raw = .ok s := h1
  unfold Sadder.populateFromRaw Sadder.inhale at h1
  obtain ⟨x, hx, h1⟩ := Res.bind_eq_ok.mp h1
  obtain ⟨r, hr, hx⟩ := Res.bind_eq_ok.mp hx
  refine ⟨r, hr, ?_⟩
  split at hx
  · cases hx
  simp only [Res.bind_eq_ok] at h1 hx
  obtain ⟨ked, -, hx⟩ := hx
  cases hx
  obtain ⟨b, -, h4⟩ := h1
  obtain ⟨o, t, m, -, -, -, -, rfl⟩ := finish_sad.mp h4
  simpa using h2

theorem ingest_credential {E : Env} (href : ∀ st t, E.refuses st t = false) {st : Store} {fuel : Nat} {deep verify : Option Bool} (hv : verify ≠ some false)
    {c : Sad} {t g q : Str} {l : List SigGroup} (hr : c.raw = toUtf8 t) (hread : Creder.newWithRaw E.fl (toUtf8 t) = .ok c)
    (hq : Sadder.said E.chk c = .ok q) (hver : ∀ v, ∃ v', verifyAcdc E st deep fuel c l (q :: v) = .ok (false, v')) :
    Accepts E fuel deep verify st ⟨t, g, .quadlets l⟩ (st.insertAcdc (t ++ g)) := by
  refine ⟨fun v hnew => ?_, holds_cred (x := ⟨t, g, .quadlets l⟩) hr hread⟩
  obtain ⟨info, hi, hident⟩ := creder_sniff hread
  obtain ⟨w, hver⟩ := hver v
  have hsays : Says E ⟨t, g, .quadlets l⟩ q := .inr ⟨c, hread, hq⟩
  have hone : ingestOne E st fuel deep verify (.payload t) (some (.group (.quadlets l) (.ok g))) v = .ok (.acdc (t ++ g), w) := by
    unfold ingestOne
    rw [show (Msg.payload t).payloadText = .ok t from rfl, Res.ok_bind]
    dsimp only
    rw [hi, Res.ok_bind, if_neg (by rw [hident]; decide), if_pos hident]
    unfold ingestCreder
    rw [hread, Res.ok_bind, hq, Res.ok_bind]
    dsimp only
    rw [show (Msg.group (.quadlets l) (.ok g)).cesrGroup = .ok (.quadlets l, .ok g) from rfl, Res.ok_bind]
    dsimp only
    unfold verifyOrSeen
    rw [verify_default hv, if_pos (by simpa using hnew q hsays), hver, Res.ok_bind]
    dsimp only
    rw [if_neg (by simp)]
    unfold storedText
    rw [hr, fromUtf8_toUtf8, Res.ok_bind, Res.ok_bind, Res.ok_bind]
  refine ⟨w, fun rest => ?_, fun q' hq' => ?_⟩
  · rw [show (⟨t, g, .quadlets l⟩ : Piece).parsed ++ rest = .payload t :: .group (.quadlets l) (.ok g) :: rest from rfl, ingestLoop, hone]
    dsimp only
    unfold perform
    dsimp only
    unfold tryInsert
    rw [href, if_neg (by simp)]
  · rcases ((verifyAcdc_ok fuel).1 _ _ _ _ hver).2 q' hq' with h | h
    · rcases List.mem_cons.mp h with rfl | h
      · exact .inr (.inl hsays)
      · exact .inl h
    · exact .inr (.inr h)

end Keride.Sample
