/-
Verified transaction events and the logs they form.
-/
import Verif.Spec.Tel
import Verif.Lemmas.Resend
import Verif.Props.Prefixer

namespace Keride

open Matter Saider Spec Sample
open Props (fixedKeys rotatableKeys)

theorem orPanic_ok {α : Type} {o : Option α} {a : α} : Res.orPanic o = .ok a ↔ o = some a := by
  cases o <;> simp

/-! ## Derived identifiers -/

/-- A digest written and read back. -/
theorem hash_back_any {H : Hash} (hH : HashOk H) {chk : Bool} {code q : Str} {b : Bytes} {n : Nat} (hc : code ∈ digests) (hn : (code, n) ∈ fixedCodes)
    (h : qb64 chk ⟨code, 0, (H code b).take n⟩ = .ok q) : Matter.newWithQb64 q = .ok ⟨code, 0, H code b⟩ := by
  have hl := hH code hc n hn b
  obtain ⟨s, e1, e2⟩ := qb64_digest chk hn (d := H code b) (by omega)
  rw [h] at e1
  cases e1
  rw [e2, List.take_of_length_le (by omega)]

/-- A digest prefix covers the content. -/
theorem digest_derived {H : Hash} (hH : HashOk H) {chk : Bool} {m : M} {o : List (Str × Value)} {pf : Option Bool} {q : Str} (hn : (o.map Prod.fst).Nodup)
    (hi : Value.hasKey (str% "i") o = true) (hd : Value.hasKey (str% "d") o = true) (hcd : m.code ∈ digestCodes) (hq : qb64 chk m = .ok q)
    (hv : Prefixer.verify H chk m (.obj o) pf = .ok true) :
    (∃ text, Resized (blanked m.code (str% "d") (blanked m.code (str% "i") o)) text ∧ Matter.newWithQb64 q = .ok ⟨m.code, 0, H m.code (toUtf8 text)⟩) ∧
      Prefixer.badPrefix (.obj o) o q (pf.getD false) = .ok false := by
  obtain ⟨o', ilk, e, ht, hilk⟩ := Prefixer.verify_ilk hv
  cases e
  rw [Prefixer.verify_digest_eq hcd ht hilk, hq, Res.ok_bind] at hv
  have hv0 := hv
  unfold Prefixer.verifyDigest at hv
  obtain ⟨p, hd1, -⟩ := Res.bind_eq_ok.mp hv
  rw [Prefixer.deriveDigest_eq hcd] at hd1
  obtain ⟨r, hr, hd1⟩ := Res.bind_eq_ok.mp hd1
  cases hd1
  obtain ⟨n, hrow, -⟩ := digest_rows _ hcd
  have hl : n ≤ (H m.code r.raw).length := by
    rw [hH m.code (mem_digests.mpr hcd) n hrow]
  rw [Prefixer.verifyDigest_eq hcd hrow (by rw [Prefixer.deriveDigest_eq hcd, hr]; rfl) hl] at hv0
  obtain ⟨q', hq', hv0⟩ := Res.bind_eq_ok.mp hv0
  split at hv0
  · cases hv0
  rename_i hqq
  have hqq := not_not.mp hqq
  subst hqq
  have hbad : Prefixer.badPrefix (.obj o) o q' (pf.getD false) = .ok false := by
    cases hb : Prefixer.badPrefix (.obj o) o q' (pf.getD false) with
    | ok b =>
      rw [hb] at hv0
      cases b with
      | false => rfl
      | true => cases hv0
    | err e => rw [hb] at hv0; cases hv0
    | panic => rw [hb] at hv0; cases hv0
  obtain ⟨o3, ident, size, p, t, e3, -, hz, rfl⟩ := sizeify_ok hr
  cases e3
  have hb : Prefixer.blank2 m.code o = blanked m.code (str% "d") (blanked m.code (str% "i") o) := by
    unfold Prefixer.blank2
    rw [blanked_insert hn hi, blanked_insert]
    · rw [← blanked_insert hn hi]
      unfold Keys
      rw [blanked_key]
      exact hn
    · unfold Value.hasKey at hd ⊢
      rw [find_insert_ne (by decide)]
      exact hd
  have hnb : ((Prefixer.blank2 m.code o).map Prod.fst).Nodup := by
    rw [hb, blanked_key, blanked_key]
    exact hn
  have hvk : Value.hasKey (str% "v") (Prefixer.blank2 m.code o) = true := by
    unfold Value.hasKey
    rw [hz.2.2.1]
    rfl
  obtain ⟨g1, g2, -⟩ := findVs_some.mp hz.2.2.2.1
  refine ⟨⟨p ++ (newVs (Prefixer.blank2 m.code o) ident ++ t.drop 17), ⟨newVs (Prefixer.blank2 m.code o) ident, ?_, ?_, ?_⟩, ?_⟩, hbad⟩
  · exact ⟨ident, mem_protocols.mpr hz.1, by rw [newVs_size, hb]⟩
  · refine ⟨p, t.take 17, t.drop 17, ?_, ?_, by rw [List.append_assoc]⟩
    · rw [← hb, List.append_assoc, List.take_append_drop]; exact g1
    · rw [List.length_take]
      have := vsAt_len g2
      omega
  · rw [← hb]
    intro hf
    have := (sizeOut_first hz hf).1
    unfold sizeOut at this
    dsimp only at this
    rw [toUtf8_inj this, map_insert hnb hvk]
  · exact hash_back_any hH (mem_digests.mpr hcd) hrow hq'

/-- What `Prefixer::verify` says of the event of a registry. -/
theorem prefix_derived {H : Hash} (hH : HashOk H) {chk : Bool} {fl : Str → Option Str} {raw : Bytes} {s : Sad} {m : M} {pre : Str}
    (h : Serder.newWithRaw fl raw = .ok s) (hp : Serder.pre s = .ok pre) (hm : Matter.newWithQb64 pre = .ok m) (hv : Prefixer.verify H chk m s.ked (some true) = .ok true) : Derived H pre s := by
  obtain ⟨hc, o, hk, hn, hd⟩ := read_doc h
  have hpf : Value.find (str% "i") o = some (.str pre) := by
    have := (Props.C55_pre s pre).mp hp
    rwa [hk, field_find] at this
  have hi : Value.hasKey (str% "i") o = true := by
    unfold Value.hasKey
    rw [hpf]
    rfl
  rw [hk] at hv
  by_cases hcd : m.code ∈ digestCodes
  · have hq : ∃ q, qb64 chk m = .ok q := by
      obtain ⟨o', ilk, e, ht, hilk⟩ := Prefixer.verify_ilk hv
      cases e
      rw [Prefixer.verify_digest_eq hcd ht hilk] at hv
      obtain ⟨q, hq, -⟩ := Res.bind_eq_ok.mp hv
      exact ⟨q, hq⟩
    obtain ⟨q, hq⟩ := hq
    obtain ⟨⟨text, h1, h2⟩, h3⟩ := digest_derived hH hn hi hd hcd hq hv
    have : pre = q := by
      unfold Prefixer.badPrefix at h3
      rw [show (some true).getD false = true from rfl, if_pos rfl, hi] at h3
      rw [show (Value.obj o).index (str% "i") = .ok (.str pre) by simp [Value.index, hpf], Res.ok_bind] at h3
      simp only [Bool.not_true, Bool.false_eq_true, if_false, Value.toStr, Res.ok_bind] at h3
      simpa using Res.ok.inj h3
    subst this
    exact .inl ⟨o, text, m.code, mem_digests.mpr hcd, hk, h1, h2⟩
  · have hkc : m.code ∈ fixedKeys ++ rotatableKeys := by
      by_contra hno
      obtain ⟨o', ilk, e, ht, hilk⟩ := Prefixer.verify_ilk hv
      cases e
      unfold Prefixer.verify at hv
      dsimp only at hv
      rw [show (Value.obj o).index (str% "t") = .ok (.str ilk) by simp [Value.index, ht], Res.ok_bind,
        show (Value.str ilk).toStr = .ok ilk from rfl, Res.ok_bind, if_neg (by simpa using hilk)] at hv
      have n1 : m.code ∉ Prefixer.nontrans := fun h => hno (List.mem_append_left _ h)
      have n2 : m.code ∉ Prefixer.trans := fun h => hno (List.mem_append_right _ h)
      rw [if_neg (by simpa using n1), if_neg (by simpa using n2), if_neg (by simpa using hcd)] at hv
      cases hv
    obtain ⟨q, -, h1, h2⟩ := Props.C43_sound H chk m _ _ hv hkc
    have := h2 rfl
    rw [field_find, hpf] at this
    cases this
    right
    rw [hk]
    exact ⟨⟨m, hm, fun h => hcd (mem_digests.mp h)⟩, h1⟩

/-! ## Anchors -/

theorem sealed_in {E : Env} {st : Store} {deep : Option Bool} {fuel : Nat} {ap : Str} {n d : M} {s : Sad} {v v' : List Str}
    (h : verifyAnchor E st deep fuel ap n d s v = .ok (true, v')) :
    ∃ i t a, Seqner.sn n = .ok i ∧ (st.kels ap)[i % 2 ^ 32]? = some t ∧ Serder.newWithRaw E.fl (toUtf8 t) = .ok a ∧ Seals E.chk a s := by
  unfold verifyAnchor at h
  obtain ⟨i, hi, h⟩ := Res.bind_eq_ok.mp h
  obtain ⟨t, ht, h⟩ := Res.bind_eq_ok.mp h
  obtain ⟨a, ha, h⟩ := Res.bind_eq_ok.mp h
  obtain ⟨q, -, h⟩ := Res.bind_eq_ok.mp h
  obtain ⟨u, -, h⟩ := Res.bind_eq_ok.mp h
  split at h
  · cases h
  obtain ⟨sl, hsl, h⟩ := Res.bind_eq_ok.mp h
  split at h
  · cases h
  rename_i si sn sd
  obtain ⟨w, -, h⟩ := Res.bind_eq_ok.mp h
  obtain ⟨x, hx, h⟩ := Res.bind_eq_ok.mp h
  obtain ⟨y, hy, h⟩ := Res.bind_eq_ok.mp h
  split at h
  · cases h
  rename_i e1
  have e1 := not_not.mp e1
  obtain ⟨p, hp, h⟩ := Res.bind_eq_ok.mp h
  split at h
  · cases h
  rename_i e2
  have e2 := not_not.mp e2
  obtain ⟨dd, hd, h⟩ := Res.bind_eq_ok.mp h
  have e3 : sd = dd := by
    have := congrArg Prod.fst (Res.ok.inj h)
    exact of_decide_eq_true this
  subst e1; subst e2; subst e3
  refine ⟨i, t, a, hi, Res.ofOption_eq_ok.mp ht, ha, ?_⟩
  unfold onlySeal at hsl
  obtain ⟨l, hl, hsl⟩ := Res.bind_eq_ok.mp hsl
  obtain ⟨ss, hss, hsl⟩ := Res.bind_eq_ok.mp hsl
  split at hsl
  · cases hsl
  rename_i hone
  obtain ⟨z, hz, hsl⟩ := Res.bind_eq_ok.mp hsl
  obtain ⟨i1, k1, hsl⟩ := Res.bind_eq_ok.mp hsl
  obtain ⟨i2, k2, hsl⟩ := Res.bind_eq_ok.mp hsl
  obtain ⟨n1, k3, hsl⟩ := Res.bind_eq_ok.mp hsl
  obtain ⟨n2, k4, hsl⟩ := Res.bind_eq_ok.mp hsl
  obtain ⟨d1, k5, hsl⟩ := Res.bind_eq_ok.mp hsl
  obtain ⟨d2, k6, hsl⟩ := Res.bind_eq_ok.mp hsl
  cases hsl
  have hlist : ss = [z] := by
    match ss, not_not.mp hone with
    | [y], _ =>
      have := orPanic_ok.mp hz
      simpa using this
  subst hlist
  have hfa : field (str% "a") a.ked = some (.arr [z]) := by
    have : l = .arr [z] := by
      cases l with
      | arr b => exact congrArg Value.arr (Res.ok.inj hss)
      | _ => cases hss
    subst this
    cases hk : a.ked with
    | obj o =>
      rw [hk] at hl
      rw [field_find]
      exact orPanic_ok.mp (by simpa [Value.index] using hl)
    | _ => rw [hk] at hl; cases hl
  exact ⟨z, _, _, _, hfa, index_text k1 k2, index_text k3 k4, index_text k5 k6, (Props.C55_pre s _).mp hp, index_text hx hy, hd⟩

theorem sealed_of {E : Env} {st : Store} {deep : Option Bool} {fuel : Nat} {ap : Str} {n d : M} {s : Sad} {v v' : List Str}
    (h : verifyAnchor E st deep fuel ap n d s v = .ok (true, v')) :
    ∃ t a, t ∈ st.kels ap ∧ Serder.newWithRaw E.fl (toUtf8 t) = .ok a ∧ Seals E.chk a s := by
  obtain ⟨i, t, a, -, h1, h2, h3⟩ := sealed_in h
  exact ⟨t, a, List.mem_of_getElem? h1, h2, h3⟩

/-! ## Accepted events -/

/-- What the verification of a transaction event that is not stored yet establishes. -/
structure Fits (E : Env) (st : Store) (s : Sad) (pre : Str) : Prop where
  ident : HasText (str% "i") pre s
  cases_ :
    (HasText (str% "t") (str% "vcp") s ∧ Has vcpFields s ∧ Serder.sn s = .ok 0 ∧ st.tels pre = [] ∧ Derived E.H pre s ∧
      ∃ ii t a, HasText (str% "ii") ii s ∧ t ∈ st.kels ii ∧ Serder.newWithRaw E.fl (toUtf8 t) = .ok a ∧ Seals E.chk a s) ∨
    (∃ ri rt r ii t a, HasText (str% "ri") ri s ∧ (st.tels ri)[0]? = some rt ∧ Serder.newWithRaw E.fl (toUtf8 rt) = .ok r ∧
      HasText (str% "ii") ii r ∧ t ∈ st.kels ii ∧ Serder.newWithRaw E.fl (toUtf8 t) = .ok a ∧ Seals E.chk a s ∧ SelfAddressed E.H E.chk s ∧
      ((HasText (str% "t") (str% "iss") s ∧ Has issFields s ∧ Serder.sn s = .ok 0 ∧ st.tels pre = []) ∨
       (HasText (str% "t") (str% "rev") s ∧ Has revFields s ∧ ∃ pt p q, Serder.sn s = .ok (st.tels pre).length ∧ (st.tels pre).getLast? = some pt ∧
          Serder.newWithRaw E.fl (toUtf8 pt) = .ok p ∧ Sadder.said E.chk p = .ok q ∧ HasText (str% "p") q s)))

theorem fits_of {E : Env} (hH : HashOk E.H) {st : Store} {deep : Option Bool} {fuel : Nat} {s : Sad} {l : List (M × M)} {v v' : List Str} {pre : Str}
    {raw : Bytes} (hread : Serder.newWithRaw E.fl raw = .ok s) (hp : Serder.pre s = .ok pre) (hlen : (st.tels pre).length < 2 ^ 32)
    (h : verifyTransactionEvent E st deep fuel s l v = .ok (false, v')) : Fits E st s pre := by
  cases fuel with
  | zero => cases h
  | succ fuel =>
    obtain ⟨-, o, hko, -, -⟩ := read_doc hread
    unfold verifyTransactionEvent at h
    rw [hp, Res.ok_bind] at h
    obtain ⟨px, hpx, h⟩ := Res.bind_eq_ok.mp h
    obtain ⟨sn, hsn, h⟩ := Res.bind_eq_ok.mp h
    obtain ⟨tv, ht1, h⟩ := Res.bind_eq_ok.mp h
    obtain ⟨ilk, ht2, h⟩ := Res.bind_eq_ok.mp h
    have ht : HasText (str% "t") ilk s := index_text ht1 ht2
    obtain ⟨said, hsaid, h⟩ := Res.bind_eq_ok.mp h
    obtain ⟨ri, hri, h⟩ := Res.bind_eq_ok.mp h
    split at h
    · cases h
    obtain ⟨src, -, h⟩ := Res.bind_eq_ok.mp h
    obtain ⟨labels, hlab, h⟩ := Res.bind_eq_ok.mp h
    obtain ⟨has, hhas, h⟩ := Res.bind_eq_ok.mp h
    split at h
    · cases h
    rename_i hb
    have hb : has = true := by simpa using hb
    subst hb
    dsimp only at h
    obtain ⟨apre, hap, h⟩ := Res.bind_eq_ok.mp h
    obtain ⟨⟨ab, av⟩, ha, h⟩ := Res.bind_eq_ok.mp h
    split at h
    · cases h
    rename_i hb
    have hb : ab = true := by simpa using hb
    subst hb
    obtain ⟨t, a, k1, k2, k3⟩ := sealed_of ha
    obtain ⟨w, hw, h⟩ := Res.bind_eq_ok.mp h
    have hw1 : w.1 = false := by
      split at h
      · obtain ⟨_, -, h⟩ := Res.bind_eq_ok.mp h
        obtain ⟨_, -, h⟩ := Res.bind_eq_ok.mp h
        obtain ⟨_, -, h⟩ := Res.bind_eq_ok.mp h
        split at h
        · cases h
        · cases h; rfl
      · cases h; rfl
    have hid : HasText (str% "i") pre s := (Props.C55_pre s pre).mp hp
    by_cases c1 : ilk = str% "vcp"
    · subst c1
      refine ⟨hid, .inl ⟨ht, ?_, ?_, ?_, ?_, ?_⟩⟩
      · unfold telLabels at hlab
        rw [if_pos rfl] at hlab
        cases hlab
        exact labels_has hko hhas (by decide)
      · rw [if_pos (.inl rfl)] at hw
        split at hw
        · cases hw
        · rename_i h0
          rw [hsn, not_not.mp h0]
      · rw [if_pos (.inl rfl)] at hw
        split at hw
        · cases hw
        · cases hw
          have := of_decide_eq_false hw1
          exact List.length_eq_zero_iff.mp (not_not.mp this)
      · unfold anchorOf at hap
        rw [if_pos rfl] at hap
        obtain ⟨g, hg, hap⟩ := Res.bind_eq_ok.mp hap
        split at hap
        · cases hap
        rename_i hb
        have hb : g = true := by simpa using hb
        subst hb
        exact prefix_derived hH hread hp hpx hg
      · unfold anchorOf at hap
        rw [if_pos rfl] at hap
        obtain ⟨g, hg, hap⟩ := Res.bind_eq_ok.mp hap
        split at hap
        · cases hap
        obtain ⟨x, hx, hap⟩ := Res.bind_eq_ok.mp hap
        exact ⟨apre, t, a, index_text hx hap, k1, k2, k3⟩
    · have c2 : ilk = str% "iss" ∨ ilk = str% "rev" := by
        unfold registryOf at hri
        rw [if_neg c1] at hri
        split at hri
        · assumption
        · cases hri
      have hrt : HasText (str% "ri") ri s := by
        unfold registryOf at hri
        rw [if_neg c1, if_pos c2] at hri
        obtain ⟨x, hx, hri⟩ := Res.bind_eq_ok.mp hri
        exact index_text hx hri
      unfold anchorOf at hap
      rw [if_neg c1, if_pos c2] at hap
      obtain ⟨g, hg, hap⟩ := Res.bind_eq_ok.mp hap
      split at hap
      · cases hap
      rename_i hb
      have hb : g = true := by simpa using hb
      subst hb
      obtain ⟨rt, hrt', hap⟩ := Res.bind_eq_ok.mp hap
      obtain ⟨r, hr, hap⟩ := Res.bind_eq_ok.mp hap
      obtain ⟨x, hx, hap⟩ := Res.bind_eq_ok.mp hap
      refine ⟨hid, .inr ⟨ri, rt, r, apre, t, a, hrt, Res.ofOption_eq_ok.mp hrt', hr, index_text hx hap, k1, k2, k3, self_addressed hH hread hg, ?_⟩⟩
      rcases c2 with rfl | rfl
      · left
        rw [if_pos (.inr rfl)] at hw
        split at hw
        · cases hw
        rename_i h0
        cases hw
        refine ⟨ht, ?_, by rw [hsn, not_not.mp h0], List.length_eq_zero_iff.mp (not_not.mp (of_decide_eq_false hw1))⟩
        unfold telLabels at hlab
        rw [if_neg (by decide), if_pos rfl] at hlab
        cases hlab
        exact labels_has hko hhas (by decide)
      · right
        rw [if_neg (by decide)] at hw
        split at hw
        · cases hw
        rename_i n1
        split at hw
        · cases hw
        rename_i n2
        obtain ⟨i, hi, hw⟩ := Res.bind_eq_ok.mp hw
        obtain ⟨pt, hpt, hw⟩ := Res.bind_eq_ok.mp hw
        obtain ⟨p, hpp, hw⟩ := Res.bind_eq_ok.mp hw
        obtain ⟨q, hq, hw⟩ := Res.bind_eq_ok.mp hw
        obtain ⟨z, -, hw⟩ := Res.bind_eq_ok.mp hw
        obtain ⟨y1, hy1, hw⟩ := Res.bind_eq_ok.mp hw
        obtain ⟨y2, hy2, hw⟩ := Res.bind_eq_ok.mp hw
        split at hw
        · cases hw
        rename_i e1
        have e1 := not_not.mp e1
        subst e1
        cases hw
        have n3 : sn = (st.tels pre).length := not_not.mp (of_decide_eq_false hw1)
        refine ⟨ht, ?_, pt, p, q, by rw [hsn, n3], ?_, hpp, hq, index_text hy1 hy2⟩
        · unfold telLabels at hlab
          rw [if_neg (by decide), if_neg (by decide), if_pos rfl] at hlab
          cases hlab
          exact labels_has hko hhas (by decide)
        · have := Res.ofOption_eq_ok.mp hpt
          unfold subU32 at hi
          rw [Nat.mod_eq_of_lt (by omega)] at hi
          split at hi
          · cases hi
            rw [List.getLast?_eq_getElem?, ← this, n3]
          · omega

/-! ## Logs -/

theorem ValidTel.mono {H : Hash} {chk : Bool} {W W' : Known} {id : Str} (hk : ∀ p a, W.keys p a → W'.keys p a) (hf : ∀ p a, W.first p a → W'.first p a)
    {log : List Sad} (h : ValidTel H chk W id log) : ValidTel H chk W' id log := by
  have ha : ∀ ri e, AnchoredIn W chk ri e → AnchoredIn W' chk ri e := fun ri e ⟨r, ii, a, h1, h2, h3, h4⟩ => ⟨r, ii, a, hf _ _ h1, h2, hk _ _ h3, h4⟩
  induction h with
  | incept e a ii type ident sn fields derived controller known sealed_ => exact .incept e a ii type ident sn fields derived controller (hk _ _ known) sealed_
  | issue e ri type ident sn fields digest registry anchored => exact .issue e ri type ident sn fields digest registry (ha _ _ anchored)
  | revoke log prev e ri psaid before type ident sn fields digest last prior chained registry anchored ih =>
    exact .revoke log prev e ri psaid ih type ident sn fields digest last prior chained registry (ha _ _ anchored)

/-- What a store knows. -/
def knownIn (fl : Str → Option Str) (st : Store) : Known where
  keys p a := ∃ t ∈ st.kels p, Serder.newWithRaw fl (toUtf8 t) = .ok a
  first p a := ∃ t, (st.tels p)[0]? = some t ∧ Serder.newWithRaw fl (toUtf8 t) = .ok a

theorem knownIn_mono {fl : Str → Option Str} {st st' : Store} (he : Extends st st') {H : Hash} {chk : Bool} {id : Str} {log : List Sad}
    (h : ValidTel H chk (knownIn fl st) id log) : ValidTel H chk (knownIn fl st') id log :=
  ValidTel.mono (W := knownIn fl st) (W' := knownIn fl st') (fun p _ ⟨t, h1, h2⟩ => ⟨t, (he.kels p).subset h1, h2⟩) (fun p _ ⟨t, h1, h2⟩ => ⟨t, prefix_get (he.tels p) h1, h2⟩) h

/-- A fitting event makes the log longer. -/
theorem Fits.valid {E : Env} {st : Store} {s : Sad} {pre : Str} (h : Fits E st s pre) {log : List Sad}
    (hr : List.Forall₂ (fun t e => Serder.newWithRaw E.fl (toUtf8 t) = .ok e) (st.tels pre) log)
    (hv : log = [] ∨ ValidTel E.H E.chk (knownIn E.fl st) pre log) :
    ValidTel E.H E.chk (knownIn E.fl st) pre (log ++ [s]) := by
  have hl := hr.length_eq
  rcases h.cases_ with ⟨h1, h2, h3, h4, h5, ii, t, a, h6, h7, h8, h9⟩ | ⟨ri, rt, r, ii, t, a, h1, h2, h3, h4, h5, h6, h7, h8, h9⟩
  · rw [h4] at hr
    cases hr
    exact .incept s a ii h1 h.ident h3 h2 h5 h6 ⟨t, h7, h8⟩ h9
  · have hanc : AnchoredIn (knownIn E.fl st) E.chk ri s := ⟨r, ii, a, ⟨rt, h2, h3⟩, h4, ⟨t, h5, h6⟩, h7⟩
    rcases h9 with ⟨k1, k2, k3, k4⟩ | ⟨k1, k2, pt, p, q, k3, k4, k5, k6, k7⟩
    · rw [k4] at hr
      cases hr
      exact .issue s ri k1 h.ident k3 k2 h8 h1 hanc
    · have hne : log ≠ [] := by
        rintro rfl
        rw [List.length_nil] at hl
        rw [List.length_eq_zero_iff.mp hl] at k4
        cases k4
      have hlast : log.getLast? = some p := by
        rw [List.getLast?_eq_getElem?] at k4 ⊢
        obtain ⟨y, hy1, hy2⟩ := forall₂_get hr k4
        rw [k5] at hy2
        cases hy2
        rw [← hl]
        exact hy1
      exact .revoke log p s ri q (hv.resolve_left hne) k1 h.ident (by rw [k3, hl]) k2 h8 hlast k6 k7 h1 hanc

end Keride
