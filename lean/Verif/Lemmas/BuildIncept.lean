/-
Rotation and inception events as the builders of sample/keri make them.
-/
import Verif.Lemmas.Build
import Verif.Props.Tholder
import Verif.Props.Prefixer

namespace Keride.Sample

open Matter Spec Props Saider

/-- A threshold is read back from the field it is written into. -/
theorem thold_back {chk : Bool} {json : Str → Res Value} {v0 v : Value} {t : Tholder} {intive : Bool} (h : Tholder.newWithSith chk json v0 = .ok t)
    (hf : tholdField t intive = .ok v) : Tholder.newWithSith chk json v = .ok t := by
  have hacc : Accepted chk json t := ⟨none, none, some v0, h⟩
  have hne := (C31_nonempty chk json t).1 _ h
  have hback : ∀ v, t.sith = .ok v → Tholder.newWithSith chk json v = .ok t := by
    intro v hv
    rcases accepted_wf hacc with ⟨n, hw⟩ | ⟨rs, hrs⟩
    · obtain ⟨h1, h2⟩ := Tholder.sith_numeric chk json hw
      rw [hv] at h1
      cases h1
      exact h2
    · have hrne : rs ≠ [] := by
        rintro rfl
        rw [hrs.thold] at hne
        exact hne rfl
      obtain ⟨v', v1, v2, -⟩ := Tholder.sith_weighted json hrs hrne
      rw [hv] at v1
      cases v1
      exact v2
  unfold tholdField at hf
  obtain ⟨n, hn, hf⟩ := Res.bind_eq_ok.mp hf
  cases n with
  | none => exact hback _ hf
  | some k =>
    dsimp only at hf
    split at hf
    · cases hf
      rcases accepted_wf hacc with ⟨n, hw⟩ | ⟨rs, hrs⟩
      · have hw' := hw
        obtain ⟨hle, m, hm, rfl⟩ := hw
        unfold Tholder.num at hn
        rw [if_neg (by simp)] at hn
        simp only [Value.toI64, Res.ok_bind] at hn
        have hu : (u32Max : Int) ≤ i64Max := by decide
        have h2 : (n : Int) ≤ u32Max := by exact_mod_cast hle
        rw [if_pos (by constructor <;> omega)] at hn
        have hkn : n = k := by simpa using hn
        subst hkn
        rw [Tholder.newWithSith_eq]
        unfold Tholder.processSith
        rw [if_pos (by rfl)]
        simp only [Value.toI64, Res.ok_bind]
        exact Tholder.processUnweighted_iff.mpr ⟨n, rfl, hw'⟩
      · unfold Tholder.num at hn
        rw [if_pos hrs.weighted] at hn
        cases hn
    · exact hback _ hf

theorem if_err {α : Type} {c : Prop} [Decidable c] {e : Err} {x : Res α} {r : α} (h : (if c then .err e else x) = .ok r) : ¬ c ∧ x = .ok r := by
  by_cases hc : c
  · rw [if_pos hc] at h
    cases h
  · rw [if_neg hc] at h
    exact ⟨hc, h⟩

theorem rotate_all {E : Env} {pre dig : Str} {keys : List Str} {ilk : Option Str} {sn : Nat} {sith : Option Value} {ndigs : Option (List Str)}
    {nsith : Option Value} {toad : Option Nat} {wits cuts adds : Option (List Str)} {data : Option (List Value)} {version : Option Version}
    {kind : Option Str} {intive : Option Bool} {s : Sad} (hn : sn < 2 ^ 128)
    (h : rotate E pre keys dig ilk sn sith ndigs nsith toad wits cuts adds data version kind intive = .ok s) : ∃ vs t kt nt bt th nth,
      Built E.H E.chk
        [(str% "v", .str vs), (str% "t", .str (ilk.getD (str% "rot"))), (str% "d", .str []), (str% "i", .str pre), (str% "s", .str t), (str% "p", .str dig),
         (str% "kt", kt), (str% "k", texts keys), (str% "nt", nt), (str% "n", texts (ndigs.getD [])), (str% "bt", bt), (str% "br", texts (cuts.getD [])),
         (str% "ba", texts (adds.getD [])), (str% "a", .arr (data.getD []))] s ∧
      Serder.sn s = .ok sn ∧ 1 ≤ sn ∧ Tholder.newWithSith E.chk (jsonRead E.fl) (sith.getD (majority 1 keys.length)) = .ok th ∧
      Tholder.newWithSith E.chk (jsonRead E.fl) (nsith.getD (majority 0 (ndigs.getD []).length)) = .ok nth ∧
      Serder.tholder E.chk E.fl s = .ok (some th) ∧ Serder.ntholder E.chk E.fl s = .ok (some nth) ∧
      th.size ≤ keys.length ∧ nth.size ≤ (ndigs.getD []).length ∧ (∃ n, th.num = .ok n ∧ 1 ≤ n.getD 1) ∧ (∃ n, nth.num = .ok n ∧ 1 ≤ n.getD 1) ∧
      repeats (wits.getD []) = false ∧ repeats (cuts.getD []) = false ∧ repeats (adds.getD []) = false ∧
      (cuts.getD []).any (fun c => (adds.getD []).contains c) = false ∧ (wits.getD []).any (fun w => (adds.getD []).contains w) = false ∧
      ∃ newits m, newWits (wits.getD []) (cuts.getD []) (adds.getD []) = .ok newits ∧ rotateToader E.chk toad newits = .ok m ∧
        toadField m (intive.getD false) = .ok bt ∧ t = Nat.toDigits 16 sn ∧ ilk.getD (str% "rot") ∈ [str% "rot", str% "drt"] ∧
        tholdField th (intive.getD false) = .ok kt ∧ tholdField nth (intive.getD false) = .ok nt := by
  unfold rotate at h
  dsimp only at h
  obtain ⟨vs, -, h⟩ := Res.bind_eq_ok.mp h
  obtain ⟨hilk, h⟩ := if_err h
  obtain ⟨m, hm, h⟩ := Res.bind_eq_ok.mp h
  obtain ⟨k, hk, h⟩ := Res.bind_eq_ok.mp h
  obtain ⟨hk1, h⟩ := if_err h
  obtain ⟨th, hth, h⟩ := Res.bind_eq_ok.mp h
  obtain ⟨n, hnum, h⟩ := Res.bind_eq_ok.mp h
  obtain ⟨hone, h⟩ := if_err h
  obtain ⟨hsz, h⟩ := if_err h
  obtain ⟨nth, hnth, h⟩ := Res.bind_eq_ok.mp h
  obtain ⟨n', hnnum, h⟩ := Res.bind_eq_ok.mp h
  obtain ⟨hnone, h⟩ := if_err h
  obtain ⟨hnsz, h⟩ := if_err h
  obtain ⟨w1, h⟩ := if_err h
  obtain ⟨w2, h⟩ := if_err h
  obtain ⟨w3, h⟩ := if_err h
  obtain ⟨w4, h⟩ := if_err h
  obtain ⟨w5, h⟩ := if_err h
  obtain ⟨newits, hnew, h⟩ := Res.bind_eq_ok.mp h
  obtain ⟨toader, htoad, h⟩ := Res.bind_eq_ok.mp h
  obtain ⟨kt, hkt, h⟩ := Res.bind_eq_ok.mp h
  obtain ⟨nt, hnt, h⟩ := Res.bind_eq_ok.mp h
  obtain ⟨bt, hbt, h⟩ := Res.bind_eq_ok.mp h
  obtain ⟨t, ht, h⟩ := Res.bind_eq_ok.mp h
  obtain ⟨r, hr, h⟩ := Res.bind_eq_ok.mp h
  obtain ⟨a, b, hhex⟩ := number_text hm ht hn
  have hks : k = sn := Res.ok.inj (hk.symm.trans a)
  have hb := built hr h rfl
  obtain ⟨o', ho', -⟩ := hb.keys
  obtain ⟨t1, -, t2, -⟩ := C55_threshold E.chk E.fl s o' ho'
  refine ⟨vs, t, kt, nt, bt, th, nth, hb, (C55_sn s _).mpr ⟨t, m, ?_, b, a⟩, by omega, hth, hnth, ?_, ?_, by omega, by omega,
    ⟨n, hnum, by omega⟩, ⟨n', hnnum, by omega⟩, Bool.not_eq_true _ ▸ w1, Bool.not_eq_true _ ▸ w2, Bool.not_eq_true _ ▸ w3, Bool.not_eq_true _ ▸ w4,
    Bool.not_eq_true _ ▸ w5, newits, toader, hnew, htoad, hbt, hhex, by simpa [or_iff_not_imp_left] using hilk, hkt, hnt⟩
  · rw [hb.fields _ (by decide) (by decide)]
    simp [field]
  · rw [t1 kt (by rw [hb.fields _ (by decide) (by decide)]; simp [field]), thold_back hth hkt]
    rfl
  · rw [t2 nt (by rw [hb.fields _ (by decide) (by decide)]; simp [field]), thold_back hnth hnt]
    rfl

theorem rotate_ok {E : Env} {pre dig : Str} {keys : List Str} {ilk : Option Str} {sn : Nat} {sith : Option Value} {ndigs : Option (List Str)}
    {nsith : Option Value} {toad : Option Nat} {wits cuts adds : Option (List Str)} {data : Option (List Value)} {version : Option Version}
    {kind : Option Str} {intive : Option Bool} {s : Sad} (hn : sn < 2 ^ 128)
    (h : rotate E pre keys dig ilk sn sith ndigs nsith toad wits cuts adds data version kind intive = .ok s) : ∃ vs t kt nt bt th nth,
      Built E.H E.chk
        [(str% "v", .str vs), (str% "t", .str (ilk.getD (str% "rot"))), (str% "d", .str []), (str% "i", .str pre), (str% "s", .str t), (str% "p", .str dig),
         (str% "kt", kt), (str% "k", texts keys), (str% "nt", nt), (str% "n", texts (ndigs.getD [])), (str% "bt", bt), (str% "br", texts (cuts.getD [])),
         (str% "ba", texts (adds.getD [])), (str% "a", .arr (data.getD []))] s ∧
      Serder.sn s = .ok sn ∧ 1 ≤ sn ∧ Tholder.newWithSith E.chk (jsonRead E.fl) (sith.getD (majority 1 keys.length)) = .ok th ∧
      Tholder.newWithSith E.chk (jsonRead E.fl) (nsith.getD (majority 0 (ndigs.getD []).length)) = .ok nth ∧
      Serder.tholder E.chk E.fl s = .ok (some th) ∧ Serder.ntholder E.chk E.fl s = .ok (some nth) ∧
      th.size ≤ keys.length ∧ nth.size ≤ (ndigs.getD []).length ∧ (∃ n, th.num = .ok n ∧ 1 ≤ n.getD 1) ∧ (∃ n, nth.num = .ok n ∧ 1 ≤ n.getD 1) ∧
      repeats (wits.getD []) = false ∧ repeats (cuts.getD []) = false ∧ repeats (adds.getD []) = false ∧
      (cuts.getD []).any (fun c => (adds.getD []).contains c) = false ∧ (wits.getD []).any (fun w => (adds.getD []).contains w) = false ∧
      ∃ newits m, newWits (wits.getD []) (cuts.getD []) (adds.getD []) = .ok newits ∧ rotateToader E.chk toad newits = .ok m ∧
        toadField m (intive.getD false) = .ok bt ∧ t = Nat.toDigits 16 sn ∧ ilk.getD (str% "rot") ∈ [str% "rot", str% "drt"] := by
  obtain ⟨vs, t, kt, nt, bt, th, nth, h1, h2, h3, h4, h5, h6, h7, h8, h9, h10, h11, h12, h13, h14, h15, h16, a, b, h17, h18, h19, h20, h21, -⟩ := rotate_all hn h
  exact ⟨vs, t, kt, nt, bt, th, nth, h1, h2, h3, h4, h5, h6, h7, h8, h9, h10, h11, h12, h13, h14, h15, h16, a, b, h17, h18, h19, h20, h21⟩

/-! ## Inception -/

theorem hasKey_insert {k k' : Str} {v : Value} {o : List (Str × Value)} (h : Value.hasKey k o = true) : Value.hasKey k (Value.insert k' v o) = true := by
  unfold Value.hasKey at h ⊢
  by_cases hk : k = k'
  · subst hk
    rw [find_insert_self]
    rfl
  · rw [find_insert_ne hk]
    exact h

theorem insert_head {k : Str} {v : Value} {o : List (Str × Value)} (h : o.head?.map Prod.fst = some (str% "v")) :
    (Value.insert k v o).head?.map Prod.fst = some (str% "v") := by
  cases o with
  | nil => cases h
  | cons e o =>
    obtain ⟨k', v'⟩ := e
    simp only [List.head?_cons, Option.map_some, Option.some.injEq] at h
    subst h
    rw [Value.insert]
    split <;> rfl

theorem insert_keys {k : Str} {v : Value} {o : List (Str × Value)} (h : Value.hasKey k o = true) :
    (Value.insert k v o).map Prod.fst = o.map Prod.fst := by
  induction o with
  | nil => simp [Value.hasKey, Value.find] at h
  | cons e o ih =>
    obtain ⟨k', v'⟩ := e
    rw [Value.insert]
    split
    · rename_i hk
      subst hk
      rfl
    · rename_i hk
      simp only [List.map_cons]
      rw [ih]
      simpa [Value.hasKey, Value.find, hk] using h

/-- `sizeify` forgets the size that was recorded. -/
theorem sizeify_again {o : List (Str × Value)} {ident p q : Str} {size n : Nat} (h : Sizable o ident size p q) (hv : o.head?.map Prod.fst = some (str% "v"))
    (hn : n < 2 ^ 24) : ∃ r, sizeify (.obj (Value.insert (str% "v") (.str (versionText ident currentVersion (str% "JSON") n)) o)) none = .ok r ∧
      r.raw = (sizeOut o ident p q).raw := by
  have vlen : ∀ n, (escStr (versionText ident currentVersion (str% "JSON") n)).len = 17 := by
    intro n
    have a := versionText_vsAt h.1 json_serial currentVersion n
    have b := versionText_len ident currentVersion (str% "JSON") n (idents_upper _ h.1).1 rfl
    rw [vsAt_esc a b]
    exact vs_byteLen a b
  have hlen : (Value.obj (Value.insert (str% "v") (.str (versionText ident currentVersion (str% "JSON") n)) o)).toJson.len = (Value.obj o).toJson.len := by
    obtain ⟨A, B, hAB, -⟩ := toJson_hole h.key
    have e := hAB (versionText ident currentVersion (str% "JSON") size)
    rw [insert_find_self h.2.2.1] at e
    rw [e, hAB, len_append, len_append, len_append, len_append, vlen, vlen]
  obtain ⟨q', hS⟩ := sizable_first (o := Value.insert (str% "v") (.str (versionText ident currentVersion (str% "JSON") n)) o) h.1 hn (insert_head hv)
    (find_insert_self _ _ _) (by rw [hlen]; exact h.2.2.2.2.2)
  refine ⟨_, sizeify_of rfl hS, ?_⟩
  rw [(sizeOut_first hS (insert_head hv)).1, (sizeOut_first h hv).1]
  unfold sizeOut
  dsimp only
  rw [insert_insert]
  unfold newVs
  rw [hlen]

/-- An inception event given a digest as prefix, and read as an event. -/
structure Incepted (H : Hash) (chk : Bool) (o : List (Str × Value)) (s : Sad) (pre : Str) : Prop where
  ident : s.ident = str% "KERI"
  raw : s.raw = toUtf8 s.ked.toJson
  keys : ∃ o', s.ked = .obj o' ∧ o'.map Prod.fst = o.map Prod.fst
  fields : ∀ k, k ≠ str% "d" → k ≠ str% "v" → k ≠ str% "i" → field k s.ked = field k (.obj o)
  names : field (str% "i") s.ked = some (.str pre)
  said : field (str% "d") s.ked = some (.str pre)
  reports : Sadder.said chk s = .ok pre
  text : IsB64 pre
  saider : Matter.newWithQb64 pre = .ok s.saider
  small : s.raw.length % 2 ^ 32 < 2 ^ 24
  code : s.saider.code = str% "E"
  verifies : ∀ pf, Prefixer.verify H chk s.saider s.ked pf = .ok true
  first : ∃ o', s.ked = .obj o' ∧ o'.head?.map Prod.fst = some (str% "v")
  reads : Plain s.ked → nesting s.ked ≤ 127 → s.raw.length < 2 ^ 32 → ∀ fl rest, Serder.newWithRaw fl (s.raw ++ toUtf8 rest) = .ok s
  version : field (str% "v") s.ked = some (.str (versionText (str% "KERI") ⟨1, 0⟩ (str% "JSON") (s.raw.length % 2 ^ 32)))

theorem incepted {H : Hash} {chk : Bool} {fl : Str → Option Str} {o : List (Str × Value)} {allows : Option (List Str)} {code : Option Str} {m : M} {q : Str}
    {s : Sad} (hm : Prefixer.newWithKed H (.obj o) allows code = .ok m) (hc : m.code ∈ digests) (hq : qb64 chk m = .ok q)
    (hs : Serder.newWithKed fl (.obj (Value.insert (str% "d") (.str q) (Value.insert (str% "i") (.str q) o))) none none = .ok s)
    (hv : o.head?.map Prod.fst = some (str% "v")) (hi : Value.hasKey (str% "i") o = true) (hd : Value.hasKey (str% "d") o = true) :
    Incepted H chk o s q := by
  have hc' := mem_digests.mp hc
  obtain ⟨raw, n, -, -, hder, hn, hl, hmm, -⟩ := Prefixer.newWithKed_ok hm
  obtain ⟨o', ilk, e, ht, hilk⟩ := Prefixer.derive_ilk hder
  cases e
  rw [Prefixer.derive_digest_eq hc' ht hilk, Prefixer.deriveDigest_eq hc'] at hder
  obtain ⟨r, hr, hder⟩ := Res.bind_eq_ok.mp hder
  cases hder
  obtain ⟨B, ident, size, p, u, e, -, hS, hr'⟩ := sizeify_ok hr
  cases e
  obtain ⟨q', hq', hback⟩ := qb64_digest chk hn hl
  rw [← hmm, hq] at hq'
  cases hq'
  rw [← hmm] at hback
  obtain ⟨z, hz⟩ := Saider.wf_digest hn hl
  rw [← hmm] at hz
  obtain ⟨h1, h2⟩ := serder_ked.mp hs
  obtain ⟨o3, ident3, size3, p3, u3, t3, e, -, hsz, ht3, hsd, hcode, hS3, -⟩ := populateFromKed_ok h1
  cases e
  rw [find_insert_self] at ht3
  cases ht3
  obtain ⟨hsd', -⟩ := saiderOf_ok hsd
  have hsm : s.saider = m := by
    rw [hback] at hsd'
    exact (Res.ok.inj hsd').symm
  have hB : (Prefixer.blank2 m.code o).head?.map Prod.fst = some (str% "v") := insert_head (insert_head hv)
  have hid : ident3 = ident := by
    have a := hS.2.2.1
    have b := hsz.2.2.1
    unfold Prefixer.blank2 at a
    rw [find_insert_ne (by decide), find_insert_ne (by decide)] at a b
    rw [a] at b
    have b : versionText ident currentVersion (str% "JSON") size = versionText ident3 currentVersion (str% "JSON") size3 := by simpa using b
    have c := deversify_text hsz.1 json_serial (fits_current hsz.2.1)
    rw [← b, deversify_text hS.1 json_serial (fits_current hS.2.1)] at c
    cases c
    rfl
  subst hid
  have hkI : Value.hasKey (str% "i") (Value.insert (str% "i") (.str q) o) = true := hasKey_insert hi
  have hkD : Value.hasKey (str% "d") (Value.insert (str% "i") (.str q) o) = true := hasKey_insert hd
  have hkV : Value.hasKey (str% "v") o = true := by
    have := hS.key
    unfold Value.hasKey Prefixer.blank2 at this
    rw [find_insert_ne (by decide), find_insert_ne (by decide)] at this
    exact this
  generalize ho1 : Value.insert (str% "d") (.str q) (Value.insert (str% "i") (.str q) o) = o1 at hsz hS3
  have hhead : o1.head?.map Prod.fst = some (str% "v") := by rw [← ho1]; exact insert_head (insert_head hv)
  have hked : s.ked = .obj (Value.insert (str% "v") (.str (newVs o1 ident3)) o1) := by rw [hS3]; rfl
  have hraw : s.raw = toUtf8 s.ked.toJson := by
    have := (sizeOut_first hsz hhead).1
    rw [hS3]
    exact this
  have hlr : s.raw.length = (Value.obj o1).toJson.len := by
    have := sizeOut_len hsz
    rw [hS3]
    exact this
  have hfi : field (str% "i") s.ked = some (.str q) := by
    rw [hked, field_find, find_insert_ne (by decide), ← ho1, find_insert_ne (by decide), find_insert_self]
  refine ⟨h2, hraw, ⟨_, hked, ?_⟩, ?_, hfi, ?_, ?_, (wf_text hz hq).1, ?_, ?_, hcode, ?_, ⟨_, hked, insert_head hhead⟩, ?_, ?_⟩
  · rw [insert_keys hsz.key, ← ho1, insert_keys hkD, insert_keys hi]
  · intro k k1 k2 k3
    rw [hked, field_find, field_find, find_insert_ne k2, ← ho1, find_insert_ne k1, find_insert_ne k3]
  · rw [hked, field_find, find_insert_ne (by decide), ← ho1, find_insert_self]
  · unfold Sadder.said
    rw [hsm]
    exact hq
  · rw [hsm]; exact hback
  · rw [hlr]; exact hsz.2.2.2.2.2
  · intro pf
    rw [hsm]
    have ht1 : Value.find (str% "t") (Value.insert (str% "v") (.str (newVs o1 ident3)) o1) = some (.str ilk) := by
      rw [find_insert_ne (by decide), ← ho1, find_insert_ne (by decide), find_insert_ne (by decide)]
      exact ht
    have hbl : Prefixer.blank2 m.code (Value.insert (str% "v") (.str (newVs o1 ident3)) o1) =
        Value.insert (str% "v") (.str (newVs o1 ident3)) (Prefixer.blank2 m.code o) := by
      have e2 : Prefixer.blank2 m.code o1 = Prefixer.blank2 m.code o := by
        rw [← ho1, Prefixer.blank2_d _ _ _ hkI, Prefixer.blank2_i]
      rw [← e2]
      unfold Prefixer.blank2
      rw [insert_comm (by decide) _ _ hsz.key, insert_comm (by decide) _ _ (hasKey_insert hsz.key)]
    obtain ⟨r2, hr2, hr3⟩ := sizeify_again hS hB (n := (Value.obj o1).toJson.len % 2 ^ 32) hsz.2.2.2.2.2
    have hd2 : Prefixer.deriveDigest H (.obj (Value.insert (str% "v") (.str (newVs o1 ident3)) o1)) m.code =
        .ok (H m.code r.raw, m.code) := by
      rw [Prefixer.deriveDigest_eq hc', hbl]
      have : newVs o1 ident3 = versionText ident3 currentVersion (str% "JSON") ((Value.obj o1).toJson.len % 2 ^ 32) := rfl
      rw [this, hr2, Res.ok_bind, hr3, hr']
    rw [hked, Prefixer.verify_digest_eq hc' ht1 hilk, hq, Res.ok_bind, Prefixer.verifyDigest_eq hc' hn hd2 hl, ← hmm, hq, Res.ok_bind,
      if_neg (by simp), Prefixer.badPrefix_ok (by rw [← field_find, ← hked]; exact hfi)]
    rfl
  · intro a b c fl' rest
    rw [hked] at a b
    have back : o1 = Value.insert (str% "v") (.str (versionText ident3 currentVersion (str% "JSON") size3))
        (Value.insert (str% "v") (.str (newVs o1 ident3)) o1) := by
      rw [insert_insert, insert_find_self hsz.2.2.1]
    refine C52_serder_partial fl' o1 none none s (serder_ked.mpr ⟨?_, h2⟩) hhead ?_ ?_ c rest
    · exact ho1 ▸ h1
    · rw [back]
      exact proper_insert a
    · rw [back]
      have := nestingObj_insert (k := str% "v") (s := versionText ident3 currentVersion (str% "JSON") size3)
        (o := Value.insert (str% "v") (.str (newVs o1 ident3)) o1)
      simp only [nesting] at b ⊢
      omega
  · rw [hked, field_find, find_insert_self, hlr]
    unfold newVs
    have : ident3 = str% "KERI" := by rw [hS3] at h2; exact h2
    rw [this]
    rfl

/-- The fields of an inception event before it has a prefix. -/
def icpDoc (vs t : Str) (kt nt bt : Value) (keys ndigs wits cnfg : List Str) (data : List Value) : List (Str × Value) :=
  [(str% "v", .str vs), (str% "t", .str (str% "icp")), (str% "d", .str []), (str% "i", .str []), (str% "s", .str t), (str% "kt", kt), (str% "k", texts keys),
   (str% "nt", nt), (str% "n", texts ndigs), (str% "bt", bt), (str% "b", texts wits), (str% "c", texts cnfg), (str% "a", .arr data)]

theorem incept_all {E : Env} {keys : List Str} {sith : Option Value} {ndigs : Option (List Str)} {nsith : Option Value} {toad : Option Nat}
    {wits cnfg : Option (List Str)} {data : Option (List Value)} {version : Option Version} {kind : Option Str} {c : Str} {intive : Option Bool} {s : Sad}
    (hc : c ∈ digests) (h : incept E keys sith ndigs nsith toad wits cnfg data version kind (some c) intive none = .ok s) :
    ∃ vs t kt nt bt th nth pre, Incepted E.H E.chk (icpDoc vs t kt nt bt keys (ndigs.getD []) (wits.getD []) (cnfg.getD []) (data.getD [])) s pre ∧
      Serder.sn s = .ok 0 ∧ Tholder.newWithSith E.chk (jsonRead E.fl) (sith.getD (majority 1 keys.length)) = .ok th ∧
      Tholder.newWithSith E.chk (jsonRead E.fl) (nsith.getD (majority 0 (ndigs.getD []).length)) = .ok nth ∧
      Serder.tholder E.chk E.fl s = .ok (some th) ∧ Serder.ntholder E.chk E.fl s = .ok (some nth) ∧
      th.size ≤ keys.length ∧ nth.size ≤ (ndigs.getD []).length ∧ (∃ n, th.num = .ok n ∧ 1 ≤ n.getD 1) ∧
      repeats (wits.getD []) = false ∧ ∃ m, inceptToader E.chk toad (wits.getD []) = .ok m ∧ toadField m (intive.getD false) = .ok bt ∧ t = str% "0" ∧
        tholdField th (intive.getD false) = .ok kt ∧ tholdField nth (intive.getD false) = .ok nt := by
  unfold incept at h
  dsimp only at h
  obtain ⟨vs, -, h⟩ := Res.bind_eq_ok.mp h
  obtain ⟨m, hm, h⟩ := Res.bind_eq_ok.mp h
  obtain ⟨th, hth, h⟩ := Res.bind_eq_ok.mp h
  obtain ⟨n, hnum, h⟩ := Res.bind_eq_ok.mp h
  obtain ⟨hone, h⟩ := if_err h
  obtain ⟨hsz, h⟩ := if_err h
  obtain ⟨nth, hnth, h⟩ := Res.bind_eq_ok.mp h
  obtain ⟨hnsz, h⟩ := if_err h
  obtain ⟨w1, h⟩ := if_err h
  obtain ⟨toader, htoad, h⟩ := Res.bind_eq_ok.mp h
  obtain ⟨kt, hkt, h⟩ := Res.bind_eq_ok.mp h
  obtain ⟨nt, hnt, h⟩ := Res.bind_eq_ok.mp h
  obtain ⟨bt, hbt, h⟩ := Res.bind_eq_ok.mp h
  obtain ⟨t, ht, h⟩ := Res.bind_eq_ok.mp h
  obtain ⟨p, hp, h⟩ := Res.bind_eq_ok.mp h
  rw [if_neg (by simp)] at hp
  obtain ⟨p', hp', hp⟩ := Res.bind_eq_ok.mp hp
  rw [if_neg (by simp)] at hp
  cases hp
  obtain ⟨q, hq, h⟩ := Res.bind_eq_ok.mp h
  have hcode : p.code = c := by
    obtain ⟨raw, k, h1, -⟩ := Prefixer.newWithKed_ok hp'
    exact (Res.ok.inj h1).symm
  have hdig : digestive p = true := by
    have key : ∀ c ∈ digests, digestive ⟨c, 0, []⟩ = true := by decide
    have := key c hc
    unfold digestive at this ⊢
    rw [hcode]
    exact this
  rw [if_pos hdig] at h
  obtain ⟨ked, hked, h⟩ := Res.bind_eq_ok.mp h
  cases hked
  have hb := incepted (o := icpDoc vs t kt nt bt keys (ndigs.getD []) (wits.getD []) (cnfg.getD []) (data.getD [])) hp' (by rw [hcode]; exact hc) hq h
    rfl rfl rfl
  obtain ⟨a, b, hhex⟩ := number_text hm ht (by decide)
  obtain ⟨o', ho', -⟩ := hb.keys
  obtain ⟨t1, -, t2, -⟩ := C55_threshold E.chk E.fl s o' ho'
  refine ⟨vs, t, kt, nt, bt, th, nth, q, hb, (C55_sn s _).mpr ⟨t, m, ?_, b, a⟩, hth, hnth, ?_, ?_, by omega, by omega,
    ⟨n, hnum, by omega⟩, Bool.not_eq_true _ ▸ w1, toader, htoad, hbt, hhex, hkt, hnt⟩
  · rw [hb.fields _ (by decide) (by decide) (by decide)]
    simp [field, icpDoc]
  · rw [t1 kt (by rw [hb.fields _ (by decide) (by decide) (by decide)]; simp [field, icpDoc]), thold_back hth hkt]
    rfl
  · rw [t2 nt (by rw [hb.fields _ (by decide) (by decide) (by decide)]; simp [field, icpDoc]), thold_back hnth hnt]
    rfl

theorem incept_ok {E : Env} {keys : List Str} {sith : Option Value} {ndigs : Option (List Str)} {nsith : Option Value} {toad : Option Nat}
    {wits cnfg : Option (List Str)} {data : Option (List Value)} {version : Option Version} {kind : Option Str} {c : Str} {intive : Option Bool} {s : Sad}
    (hc : c ∈ digests) (h : incept E keys sith ndigs nsith toad wits cnfg data version kind (some c) intive none = .ok s) :
    ∃ vs t kt nt bt th nth pre, Incepted E.H E.chk (icpDoc vs t kt nt bt keys (ndigs.getD []) (wits.getD []) (cnfg.getD []) (data.getD [])) s pre ∧
      Serder.sn s = .ok 0 ∧ Tholder.newWithSith E.chk (jsonRead E.fl) (sith.getD (majority 1 keys.length)) = .ok th ∧
      Tholder.newWithSith E.chk (jsonRead E.fl) (nsith.getD (majority 0 (ndigs.getD []).length)) = .ok nth ∧
      Serder.tholder E.chk E.fl s = .ok (some th) ∧ Serder.ntholder E.chk E.fl s = .ok (some nth) ∧
      th.size ≤ keys.length ∧ nth.size ≤ (ndigs.getD []).length ∧ (∃ n, th.num = .ok n ∧ 1 ≤ n.getD 1) ∧
      repeats (wits.getD []) = false ∧ ∃ m, inceptToader E.chk toad (wits.getD []) = .ok m ∧ toadField m (intive.getD false) = .ok bt ∧ t = str% "0" := by
  obtain ⟨vs, t, kt, nt, bt, th, nth, pre, h1, h2, h3, h4, h5, h6, h7, h8, h9, h10, m, h11, h12, h13, -⟩ := incept_all hc h
  exact ⟨vs, t, kt, nt, bt, th, nth, pre, h1, h2, h3, h4, h5, h6, h7, h8, h9, h10, m, h11, h12, h13⟩

end Keride.Sample
