/-
Verified credentials.
-/
import Verif.Spec.Acdc
import Verif.Lemmas.Tel

namespace Keride

open Matter Saider Spec Sample

theorem index_field {v : Value} {k : Str} {x : Value} (h : v.index k = .ok x) : field k v = some x := by
  cases v with
  | obj o => rw [field_find]; exact index_ok h
  | _ => cases h

theorem toMap_ok {v : Value} {o : List (Str × Value)} (h : v.toMap = .ok o) : v = .obj o := by
  cases v with
  | obj o' => exact congrArg Value.obj (Res.ok.inj h)
  | _ => cases h

/-- What `Creder::new_with_raw` guarantees about the document. -/
theorem creder_doc {fl : Str → Option Str} {raw : Bytes} {s : Sad} (h : Creder.newWithRaw fl raw = .ok s) :
    s.saider.code = str% "E" ∧ (∃ d, Matter.newWithQb64 d = .ok s.saider) ∧ ∃ o, s.ked = .obj o ∧ (o.map Prod.fst).Nodup ∧ Value.hasKey (str% "d") o = true := by
  obtain ⟨-, -, ⟨t, ht, hj⟩, -, -, -, d, hd, hm, hc⟩ := Props.C39_creder_partial fl raw s h
  refine ⟨hc, ⟨d, hm⟩, ?_⟩
  cases hk : s.ked with
  | obj o =>
    rw [hk] at hj hd
    rw [field_find] at hd
    exact ⟨o, rfl, jsonRead_nodup hj, by unfold Value.hasKey; rw [hd]; rfl⟩
  | _ => rw [hk] at hd; cases hd

/-- The SAID of a credential was checked. -/
theorem cred_addressed {E : Env} (hH : HashOk E.H) {raw : Bytes} {s : Sad} {q : Str} {m : M} (h : Creder.newWithRaw E.fl raw = .ok s)
    (hq : Sadder.said E.chk s = .ok q) (hm : Saider.newWithQb64 E.H q = .ok m)
    (hv : Saider.verify E.H E.chk m s.ked (some false) (some true) (some (str% "JSON")) none none = .ok true) : SelfAddressed E.H E.chk s := by
  obtain ⟨hc, ⟨d0, hd0⟩, o, hk, hn, hd⟩ := creder_doc h
  obtain ⟨hback, -, -⟩ := digest_back hd0 hc hq
  have hms : m = s.saider := by
    have := (saiderOf_ok (s := q) (m := m) (by unfold Sadder.saiderOf; exact hm)).1
    rw [hback] at this
    exact (Res.ok.inj this).symm
  subst hms
  obtain ⟨o', d, o2, k, n, q', e, v⟩ := verify_true hv
  rw [hk] at e
  cases e
  refine ⟨o, hk, q', v.qm, ?_⟩
  have hdg := v.der.digest
  simp only [Option.getD_none, removeAll] at hdg
  have hqd := v.qd
  have hrow := v.row
  have hsame := v.same
  rw [hc] at hqd hrow hdg hsame
  simp only [Option.getD_none] at hsame
  rw [← blanked_insert hn hd] at hsame
  rw [hdg] at hqd
  rw [hash_back hH hrow hqd, hsame]

/-! ## Signatures -/

theorem distinct_ok : ∀ (l seen : List Siger), seen.Nodup → ∃ new, distinctSigers seen l = seen ++ new ∧ new.Sublist l ∧ (distinctSigers seen l).Nodup := by
  intro l
  induction l with
  | nil => intro seen h; exact ⟨[], by simp [distinctSigers], .refl _, by simpa [distinctSigers] using h⟩
  | cons s l ih =>
    intro seen h
    unfold distinctSigers
    split
    · obtain ⟨new, h1, h2, h3⟩ := ih seen h
      exact ⟨new, h1, h2.cons _, h3⟩
    · rename_i hs
      have hs : s ∉ seen := by simpa using hs
      obtain ⟨new, h1, h2, h3⟩ := ih (seen ++ [s]) (by
        rw [List.nodup_append]
        exact ⟨h, by simp, by rintro a ha b hb rfl; rw [List.mem_singleton.mp hb] at ha; exact hs ha⟩)
      exact ⟨s :: new, by rw [h1]; simp, h2.cons_cons _, h3⟩

theorem pathSig_ok {E : Env} {st : Store} {deep : Option Bool} {fuel : Nat} {cred : Sad} {sig : SadPathSig} {v v' : List Str}
    (h : verifyPathSig E st deep fuel cred sig v = .ok v') : RootSigned E st cred sig := by
  unfold verifyPathSig at h
  obtain ⟨pre, hp, h⟩ := Res.bind_eq_ok.mp h
  obtain ⟨n, -, h⟩ := Res.bind_eq_ok.mp h
  obtain ⟨text, ht, h⟩ := Res.bind_eq_ok.mp h
  obtain ⟨e, he, h⟩ := Res.bind_eq_ok.mp h
  obtain ⟨q, hq, h⟩ := Res.bind_eq_ok.mp h
  obtain ⟨u, hu, h⟩ := Res.bind_eq_ok.mp h
  split at h
  · cases h
  rename_i hqu
  have hqu := not_not.mp hqu
  subst hqu
  obtain ⟨w, -, h⟩ := Res.bind_eq_ok.mp h
  obtain ⟨keys, hkeys, h⟩ := Res.bind_eq_ok.mp h
  obtain ⟨ver, hver, h⟩ := Res.bind_eq_ok.mp h
  obtain ⟨t, hth, h⟩ := Res.bind_eq_ok.mp h
  split at h
  · cases h
  rename_i t
  obtain ⟨good, hg, h⟩ := Res.bind_eq_ok.mp h
  split at h
  · cases h
  rename_i hgood
  have hgood : good = true := by simpa using hgood
  subst hgood
  obtain ⟨sigs, h1, h2, h3⟩ := verifySigers_ok hver
  obtain ⟨new, k1, k2, k3⟩ := distinct_ok sig.sigers [] List.nodup_nil
  rw [List.nil_append] at k1
  refine ⟨pre, text, e, q, keys, t, sigs, hp, getKeyEvent_mem ht, he, hq, hu, hkeys, hth, h1.trans (k1 ▸ k2), k3.sublist h1, h3, ?_⟩
  have := meets (tholder_accepted hth) (tholder_nonempty hth) hg
  rw [h2, List.map_map] at this
  exact this

theorem pathSigs_ok {E : Env} {st : Store} {deep : Option Bool} {fuel : Nat} {cred : Sad} : ∀ {l : List SadPathSig} {rooted : Bool} {v : List Str} {r : Bool × List Str},
    verifyPathSigs E st deep fuel cred l rooted v = .ok r →
    (r.1 = true ↔ rooted = true ∨ ∃ sig ∈ l, IsRoot sig) ∧ ∀ sig ∈ l, IsRoot sig → RootSigned E st cred sig := by
  intro l
  induction l with
  | nil => intro rooted v r h; cases h; simp
  | cons s l ih =>
    intro rooted v r h
    unfold verifyPathSigs at h
    obtain ⟨b, hb, h⟩ := Res.bind_eq_ok.mp h
    split at h
    · rename_i hne
      have hnr : ¬ IsRoot s := by
        intro hr
        unfold IsRoot at hr
        rw [hb] at hr
        exact hne (Res.ok.inj hr)
      obtain ⟨h1, h2⟩ := ih h
      refine ⟨?_, ?_⟩
      · rw [h1]
        simp [hnr]
      · intro sig hs hr
        rcases List.mem_cons.mp hs with rfl | hs
        · exact absurd hr hnr
        · exact h2 sig hs hr
    · rename_i hne
      have hr : IsRoot s := by unfold IsRoot; rw [hb, not_not.mp hne]
      obtain ⟨w, hw, h⟩ := Res.bind_eq_ok.mp h
      obtain ⟨h1, h2⟩ := ih h
      refine ⟨?_, ?_⟩
      · rw [h1]
        simp [hr]
      · intro sig hs hr
        rcases List.mem_cons.mp hs with rfl | hs
        · exact pathSig_ok hw
        · exact h2 sig hs hr

theorem proof_ok {E : Env} {st : Store} {deep : Option Bool} {fuel : Nat} {cred : Sad} : ∀ {gs : List SigGroup} {rooted : Bool} {v : List Str} {r : Bool × List Str},
    verifyProof E st deep fuel cred gs rooted v = .ok r →
    (r.1 = true ↔ rooted = true ∨ ∃ l sig, SigGroup.sadPath l ∈ gs ∧ sig ∈ l ∧ IsRoot sig) ∧ (∀ g ∈ gs, ∃ l, g = .sadPath l) ∧
      ∀ l sig, SigGroup.sadPath l ∈ gs → sig ∈ l → IsRoot sig → RootSigned E st cred sig := by
  intro gs
  induction gs with
  | nil => intro rooted v r h; cases h; simp
  | cons g gs ih =>
    intro rooted v r h
    cases g with
    | sadPath l =>
      unfold verifyProof at h
      obtain ⟨x, hx, h⟩ := Res.bind_eq_ok.mp h
      obtain ⟨h1, h2⟩ := pathSigs_ok hx
      obtain ⟨k1, k2, k3⟩ := ih h
      refine ⟨?_, ?_, ?_⟩
      · rw [k1, h1]
        constructor
        · rintro ((h | ⟨sig, a, b⟩) | ⟨l', sig, a, b⟩)
          · exact .inl h
          · exact .inr ⟨l, sig, by simp, a, b⟩
          · exact .inr ⟨l', sig, by simp [a], b⟩
        · rintro (h | ⟨l', sig, a, b, c⟩)
          · exact .inl (.inl h)
          · rcases List.mem_cons.mp a with a | a
            · cases a
              exact .inl (.inr ⟨sig, b, c⟩)
            · exact .inr ⟨l', sig, a, b, c⟩
      · intro g hg
        rcases List.mem_cons.mp hg with rfl | hg
        · exact ⟨l, rfl⟩
        · exact k2 g hg
      · intro l' sig a b c
        rcases List.mem_cons.mp a with a | a
        · cases a
          exact h2 sig b c
        · exact k3 l' sig a b c
    | controller l => unfold verifyProof at h; cases h
    | other => unfold verifyProof at h; cases h

/-! ## Edges -/

theorem operators_ok {map : List (Str × Value)} {ops : List Str} (h : operatorsOf map = .ok ops) : Operators (.obj map) ops := by
  unfold Operators
  rw [field_find]
  unfold operatorsOf at h
  split at h
  · rename_i hf
    cases h
    exact .inl ⟨hf, rfl⟩
  · rename_i v hf
    rw [hf]
    split at h
    · cases h
      exact .inr (.inl ⟨_, rfl, rfl⟩)
    · rename_i l
      right; right
      have : l = ops.map .str := by
        clear hf
        induction l generalizing ops with
        | nil => cases h; rfl
        | cons x l ih =>
          unfold Res.mapList at h
          split at h
          case h_2 => cases h
          case h_3 => cases h
          rename_i y hy
          split at h
          case h_2 => cases h
          case h_3 => cases h
          rename_i ys hys
          cases h
          rw [List.map_cons, ← ih hys]
          cases x with
          | str s => cases hy; rfl
          | _ => cases hy
      rw [this]
    · cases h

theorem unary_relations (ops : List Str) : (ops.filter fun o => unary.contains o) = relations ops := by
  unfold relations
  apply List.filter_congr
  intro x _
  rw [List.contains_eq_mem]
  rfl

theorem checkEdge_all {E : Env} {st : Store} {cred : Sad} {node : Value} {x : Str × Str × Sad} (h : checkEdge E st cred node = .ok x) : EdgeOk E st cred node := by
  unfold checkEdge at h
  rw [Res.bind_eq_ok] at h
  obtain ⟨map, hmap, h⟩ := h
  have := toMap_ok hmap
  subst this
  rw [Res.bind_eq_ok] at h
  obtain ⟨n, hn, h⟩ := h
  rw [Res.bind_eq_ok] at h
  obtain ⟨said, hsaid, h⟩ := h
  have := toStr_ok hsaid
  subst this
  obtain ⟨t, ht, h⟩ := Res.bind_eq_ok.mp h
  obtain ⟨p, hp, h⟩ := Res.bind_eq_ok.mp h
  obtain ⟨sch, hsch, h⟩ := Res.bind_eq_ok.mp h
  split at h
  · cases h
  rename_i hb
  have hb : sch = true := by simpa using hb
  subst hb
  obtain ⟨ops, hops, h⟩ := Res.bind_eq_ok.mp h
  split at h
  · cases h
  rename_i hnot
  have hnot : str% "NOT" ∉ ops := by simpa using hnot
  rw [Res.bind_eq_ok] at h
  obtain ⟨sub, hsub, h⟩ := h
  rw [Res.bind_eq_ok] at h
  obtain ⟨smap, hsmap, h⟩ := h
  have := toMap_ok hsmap
  subst this
  obtain ⟨op, hop, h⟩ := Res.bind_eq_ok.mp h
  obtain ⟨u, hu, h⟩ := Res.bind_eq_ok.mp h
  unfold Store.getAcdc at ht
  have ht := Res.ofOption_eq_ok.mp ht
  have hmem := List.mem_of_find?_eq_some ht
  have hhas := List.find?_some ht
  have hsp : Sadder.said E.chk p = .ok said := by
    unfold hasSaid at hhas
    rw [hp, Res.ok_bind] at hhas
    split at hhas
    · rename_i q hq
      rw [hq, of_decide_eq_true hhas]
    · cases hhas
  refine ⟨said, t, p, .obj smap, ops, ?_, hmem, hp, hsp, index_field hsub, ?_, operators_ok hops, hnot, ?_⟩
  · rw [field_find]
    exact orPanic_ok.mp hn
  · intro v hv
    rw [field_find] at hv
    rw [hv] at hsch
    dsimp only at hsch
    obtain ⟨s, hs, hsch⟩ := Res.bind_eq_ok.mp hsch
    obtain ⟨text, ht', hsch⟩ := Res.bind_eq_ok.mp hsch
    exact ⟨s, text, toStr_ok hs, fromUtf8_ok ht', hsch⟩
  · unfold operatorOf at hop
    rw [if_neg (by simpa using hnot)] at hop
    rw [unary_relations] at hop
    dsimp only at hop
    have hiss : applyOperator op cred smap = .ok () → op = str% "I2I" → IssueeIssues p cred := by
      rintro hu rfl
      unfold applyOperator at hu
      rw [if_pos rfl] at hu
      obtain ⟨v, hv, hu⟩ := Res.bind_eq_ok.mp hu
      obtain ⟨s, hs, hu⟩ := Res.bind_eq_ok.mp hu
      obtain ⟨i, hi, hu⟩ := Res.bind_eq_ok.mp hu
      split at hu
      · cases hu
      rename_i e
      have e := not_not.mp e
      subst e
      have := toStr_ok hs
      subst this
      refine ⟨.obj smap, s, index_field hsub, ?_, ?_⟩
      · rw [field_find]; exact orPanic_ok.mp hv
      · unfold Creder.issuer at hi
        obtain ⟨z, hz, hi⟩ := Res.bind_eq_ok.mp hi
        exact index_text hz hi
    by_cases hemp : relations ops = []
    · rw [hemp] at hop
      simp only [List.isEmpty_nil, if_true] at hop
      by_cases hi : Value.hasKey (str% "i") smap = true
      · rw [if_pos hi] at hop
        simp only [List.length_singleton, ne_eq, not_true_eq_false, if_false, List.head?_cons, Res.orPanic] at hop
        right; right
        exact ⟨.inr hemp, hiss hu (Res.ok.inj hop).symm⟩
      · right; left
        refine ⟨hemp, ?_⟩
        rw [field_find]
        unfold Value.hasKey at hi
        simpa using hi
    · have hne : (relations ops).isEmpty = false := by simpa using hemp
      rw [hne] at hop
      simp only [Bool.false_eq_true, if_false] at hop
      split at hop
      · cases hop
      rename_i hlen
      have hlen := not_not.mp hlen
      have hops1 : relations ops = [op] := by
        match relations ops, hlen, orPanic_ok.mp hop with
        | [a], _, h => simpa using h
      have hin : op ∈ relations ops := by rw [hops1]; simp
      unfold relations at hin
      have hin := of_decide_eq_true (List.mem_filter.mp hin).2
      simp only [List.mem_cons, List.not_mem_nil, or_false] at hin
      rcases hin with rfl | rfl | rfl
      · right; right
        exact ⟨.inl hops1, hiss hu rfl⟩
      · left; exact hops1
      · cases hu

theorem nodes_all {edge : Value} {l : List (Res Value)} (hl : ∀ r ∈ nodesOf edge, r ∈ l) {P : Value → Prop}
    (h : ∀ r ∈ l, ∃ v, r = .ok v ∧ P v) : ∃ o, edge = .obj o ∧ ∀ label node, (label, node) ∈ o → label ≠ str% "d" → label ≠ str% "o" → P node := by
  unfold nodesOf at hl
  cases hm : edge.toMap with
  | err e =>
    rw [hm] at hl
    obtain ⟨v, hv, -⟩ := h _ (hl (.err e) (by simp))
    cases hv
  | panic =>
    rw [hm] at hl
    obtain ⟨v, hv, -⟩ := h _ (hl .panic (by simp))
    cases hv
  | ok o =>
    rw [hm] at hl
    refine ⟨o, toMap_ok hm, ?_⟩
    intro label node hmem h1 h2
    obtain ⟨v, hv, hP⟩ := h _ (hl (.ok node) (List.mem_map.mpr ⟨(label, node), List.mem_filter.mpr ⟨hmem, by simp [h1, h2]⟩, rfl⟩))
    cases hv
    exact hP

theorem edges_ok {E : Env} {st : Store} {deep : Option Bool} {cred : Sad} : ∀ {l : List (Res Value)} {fuel : Nat} {v v' : List Str},
    verifyEdges E st deep fuel cred l v = .ok v' → ∀ r ∈ l, ∃ node, r = .ok node ∧ EdgeOk E st cred node := by
  intro l
  induction l with
  | nil => intro fuel v v' _ r hr; cases hr
  | cons x l ih =>
    intro fuel v v' h r hr
    cases fuel with
    | zero => unfold verifyEdges at h; cases h
    | succ fuel =>
      unfold verifyEdges at h
      obtain ⟨node, hx, h⟩ := Res.bind_eq_ok.mp h
      obtain ⟨e, he, h⟩ := Res.bind_eq_ok.mp h
      obtain ⟨w, -, h⟩ := Res.bind_eq_ok.mp h
      rcases List.mem_cons.mp hr with rfl | hr
      · exact ⟨node, hx, checkEdge_all he⟩
      · exact ih h r hr

/-! ## Credentials -/

theorem state_ok {E : Env} {st : Store} {deep : Option Bool} {fuel : Nat} {q : Str} {v v' : List Str} (h : checkState E st deep fuel q v = .ok v') :
    ∃ t e dt, (st.tels q).getLast? = some t ∧ Serder.newWithRaw E.fl (toUtf8 t) = .ok e ∧ ¬ HasText (str% "t") (str% "rev") e ∧ HasText (str% "dt") dt e ∧
      E.expired dt = .ok false := by
  unfold checkState Store.getLatestTransactionEvent at h
  obtain ⟨t, ht, h⟩ := Res.bind_eq_ok.mp h
  obtain ⟨e, he, h⟩ := Res.bind_eq_ok.mp h
  obtain ⟨x, hx, h⟩ := Res.bind_eq_ok.mp h
  obtain ⟨dt, hdt, h⟩ := Res.bind_eq_ok.mp h
  obtain ⟨old, hold, h⟩ := Res.bind_eq_ok.mp h
  split at h
  · cases h
  rename_i hb
  have hb : old = false := by simpa using hb
  subst hb
  obtain ⟨w, -, h⟩ := Res.bind_eq_ok.mp h
  obtain ⟨y, hy, h⟩ := Res.bind_eq_ok.mp h
  obtain ⟨k, hk, h⟩ := Res.bind_eq_ok.mp h
  split at h
  · cases h
  rename_i hne
  refine ⟨t, e, dt, Res.ofOption_eq_ok.mp ht, he, ?_, index_text hx hdt, hold⟩
  intro hr
  have := index_text hy hk
  unfold HasText at this hr
  rw [hr] at this
  cases this
  exact hne (.inl rfl)

theorem acdc_ok {E : Env} (hH : HashOk E.H) {st : Store} {deep : Option Bool} {fuel : Nat} {cred : Sad} {raw : Bytes} {gs : List SigGroup} {v : List Str}
    {r : Bool × List Str} (hread : Creder.newWithRaw E.fl raw = .ok cred) (h : verifyAcdc E st deep fuel cred gs v = .ok r) :
    Proven E st cred gs ∧ ∃ q t e dt, Sadder.said E.chk cred = .ok q ∧ (st.tels q).getLast? = some t ∧ Serder.newWithRaw E.fl (toUtf8 t) = .ok e ∧
      ¬ HasText (str% "t") (str% "rev") e ∧ HasText (str% "dt") dt e ∧ E.expired dt = .ok false := by
  cases fuel with
  | zero => unfold verifyAcdc at h; cases h
  | succ fuel =>
    unfold verifyAcdc at h
    obtain ⟨status, hstatus, h⟩ := Res.bind_eq_ok.mp h
    split at h
    · cases h
    rename_i hst
    obtain ⟨q, hq, h⟩ := Res.bind_eq_ok.mp h
    obtain ⟨schema, hschema, h⟩ := Res.bind_eq_ok.mp h
    obtain ⟨prov, hprov, h⟩ := Res.bind_eq_ok.mp h
    obtain ⟨m, hm, h⟩ := Res.bind_eq_ok.mp h
    obtain ⟨good, hgood, h⟩ := Res.bind_eq_ok.mp h
    split at h
    · cases h
    rename_i hb
    have hb : good = true := by simpa using hb
    subst hb
    obtain ⟨w, hw, h⟩ := Res.bind_eq_ok.mp h
    obtain ⟨text, htext, h⟩ := Res.bind_eq_ok.mp h
    obtain ⟨fits, hfits, h⟩ := Res.bind_eq_ok.mp h
    split at h
    · cases h
    rename_i hb
    have hb : fits = true := by simpa using hb
    subst hb
    obtain ⟨pr, hpr, h⟩ := Res.bind_eq_ok.mp h
    split at h
    · cases h
    rename_i hb
    have hb : pr.1 = true := by simpa using hb
    obtain ⟨nodes, hnodes, h⟩ := Res.bind_eq_ok.mp h
    obtain ⟨w2, hw2, -⟩ := Res.bind_eq_ok.mp h
    obtain ⟨p1, p2, p3⟩ := proof_ok hpr
    obtain ⟨t, e, dt, s1, s2, s3, s4, s5⟩ := state_ok hw
    refine ⟨⟨?_, cred_addressed hH hread hq hm hgood, ?_, p2, ?_, p3, ?_⟩, q, t, e, dt, hq, s1, s2, s3, s4, s5⟩
    · unfold Creder.status at hstatus
      obtain ⟨o, ho, hstatus⟩ := Res.bind_eq_ok.mp hstatus
      have ho := toMap_ok ho
      unfold HasText
      rw [ho, field_find]
      split at hstatus
      · rename_i x hx
        obtain ⟨ri, hri, -⟩ := Res.bind_eq_ok.mp hstatus
        exact ⟨ri, by rw [hx, toStr_ok hri]⟩
      · cases hstatus
        simp at hst
    · unfold Creder.schema at hschema
      obtain ⟨x, hx, hschema⟩ := Res.bind_eq_ok.mp hschema
      exact ⟨schema, text, index_text hx hschema, fromUtf8_ok htext, hfits⟩
    · rcases p1.mp hb with hb | hb
      · cases hb
      · exact hb
    · rintro edge ⟨e, hf, hE⟩
      have hpe : prov = e := by
        unfold Creder.chains at hprov
        obtain ⟨o, ho, hprov⟩ := Res.bind_eq_ok.mp hprov
        rw [toMap_ok ho, field_find] at hf
        rw [hf] at hprov
        exact (Res.ok.inj hprov).symm
      subst hpe
      have hin := edges_ok hw2
      unfold edgeNodes at hnodes
      obtain ⟨edges, hedges, hnodes⟩ := Res.bind_eq_ok.mp hnodes
      cases hnodes
      refine nodes_all (edge := edge) ?_ hin
      intro r hr
      rw [List.mem_flatMap]
      refine ⟨edge, ?_, hr⟩
      rcases hE with ⟨o, rfl, rfl⟩ | ⟨l, rfl, hl⟩
      · cases hedges
        simp
      · cases hedges
        exact hl

/-- What was proven stays proven when more is stored. -/
theorem Spec.Proven.mono {E : Env} {st st' : Store} {cred : Sad} {gs : List SigGroup} (he : Extends st st') (h : Proven E st cred gs) : Proven E st' cred gs := by
  obtain ⟨a, b, c, d, e, f, g⟩ := h
  refine ⟨a, b, c, d, e, ?_, ?_⟩
  · intro l sig h1 h2 h3
    obtain ⟨pre, text, e, q, keys, t, sigs, k1, k2, k3⟩ := f l sig h1 h2 h3
    exact ⟨pre, text, e, q, keys, t, sigs, k1, (he.kels pre).subset k2, k3⟩
  · intro edge hE
    obtain ⟨o, ho, hn⟩ := g edge hE
    refine ⟨o, ho, fun label node h1 h2 h3 => ?_⟩
    obtain ⟨said, t, p, sub, ops, k1, k2, k3⟩ := hn label node h1 h2 h3
    exact ⟨said, t, p, sub, ops, k1, he.acdcs.subset k2, k3⟩

end Keride
