/-
Lemmas about the verification of key events (sample/keri/kmi/verification.rs).
-/
import Verif.Spec.Kel
import Verif.Lemmas.Stored
import Verif.Lemmas.Prefixer
import Verif.Props.Serder
import Verif.Props.Tholder
import Verif.Props.Diger

namespace Keride.Sample

open Spec Matter Saider

/-! ## Digests -/

theorem qb64_first {chk : Bool} {m : M} {q : Str} {c : Char} {code : Str} (h : qb64 chk m = .ok q) (hc : m.code = c :: code) :
    q.head? = some c := by
  unfold qb64 infil at h
  dsimp only at h
  obtain ⟨z, -, h⟩ := Res.bind_eq_ok.mp h
  split at h
  · split at h
    · cases h
    split at h
    · cases h
    obtain ⟨soft, -, h⟩ := Res.bind_eq_ok.mp h
    split at h
    · cases h
    obtain ⟨b, -, h⟩ := Res.bind_eq_ok.mp h
    cases h
    rw [hc]
    rfl
  · obtain ⟨d, -, h⟩ := Res.bind_eq_ok.mp h
    split at h
    · cases h
    obtain ⟨b, -, h⟩ := Res.bind_eq_ok.mp h
    obtain ⟨t, -, h⟩ := Res.bind_eq_ok.mp h
    cases h
    rw [hc]
    rfl

theorem code_E {q : Str} {m : M} (h : Matter.newWithQb64 q = .ok m) (hq : q.head? = some 'E') : m.code = str% "E" := by
  obtain ⟨p⟩ := exfil_ok h
  have hr := p.row
  have hmem : ∃ z, (m.code, z) ∈ sizageTable := by
    unfold sizage at hr
    exact ⟨_, lookup_mem (Res.ofOption_eq_ok.mp hr)⟩
  obtain ⟨z, hz⟩ := hmem
  have key : ∀ e ∈ sizageTable, e.1 ≠ [] ∧ (e.1.head? = some 'E' → e.1 = str% "E") := by decide
  obtain ⟨k1, k2⟩ := key _ hz
  apply k2
  rw [← hq, p.split]
  cases hm : m.code with
  | nil => exact absurd hm k1
  | cons c cs => rfl

/-- The SAID an event reports, read back. -/
theorem hash_back {H : Hash} (hH : HashOk H) {chk : Bool} {q : Str} {b : Bytes} {n : Nat} (hn : (str% "E", n) ∈ fixedCodes)
    (h : qb64 chk ⟨str% "E", 0, (H (str% "E") b).take n⟩ = .ok q) : Matter.newWithQb64 q = .ok ⟨str% "E", 0, H (str% "E") b⟩ := by
  have hl := hH (str% "E") (by decide) n hn b
  obtain ⟨s, e1, e2⟩ := qb64_digest chk hn (d := H (str% "E") b) (by omega)
  rw [h] at e1
  cases e1
  rw [e2, List.take_of_length_le (by omega)]

/-- A digest read from a text, when it can be written, is written back. -/
theorem digest_back {chk : Bool} {t q : Str} {m : M} (h : Matter.newWithQb64 t = .ok m) (hc : m.code = str% "E") (hq : qb64 chk m = .ok q) :
    Matter.newWithQb64 q = .ok m ∧ m.raw.length = 32 ∧ m.size = 0 := by
  obtain ⟨p⟩ := exfil_ok h
  have hz : p.z = ⟨1, 0, 44, 0⟩ := by
    have := p.row
    rw [hc] at this
    have e : sizage (str% "E") = .ok ⟨1, 0, 44, 0⟩ := rfl
    rw [e] at this
    exact (Res.ok.inj this).symm
  obtain ⟨-, hsz, hF⟩ := p.fixed (by rw [hz]; decide)
  have hb := p.len_body
  rw [hF, hz, (body_ascii p).len] at hb
  obtain ⟨d1, d2, -, d4⟩ := p.pre (by rw [hz]; decide)
  rw [hz] at d1 d2 d4
  have hps : (3 - m.raw.length % 3) % 3 = 1 := by
    unfold qb64 infil at hq
    dsimp only at hq
    rw [hc, show sizage (str% "E") = .ok ⟨1, 0, 44, 0⟩ from rfl, Res.ok_bind] at hq
    rw [if_neg (by decide)] at hq
    obtain ⟨d, hd, hq⟩ := Res.bind_eq_ok.mp hq
    split at hq
    · cases hq
    · rename_i hne
      have hne := not_not.mp hne
      unfold subU32 at hd
      rw [if_pos (by simp)] at hd
      have := Res.ok.inj hd
      rw [← this] at hne
      exact hne.symm
  have hlen : m.raw.length = 32 := by
    have hd := (b64Decode_ok d1).2
    simp only [List.length_append, List.length_replicate] at hd
    have hr : m.raw.length = p.paw.length - 1 := by rw [d4, List.length_drop]; rfl
    dsimp only at hb d2
    rcases hd with ⟨-, e⟩ | ⟨_, -, -, e⟩ | ⟨_, -, -, e⟩ <;> omega
  have hm : m = ⟨str% "E", 0, m.raw.take 32⟩ := by
    rw [List.take_of_length_le (by omega)]
    cases m
    simp_all
  obtain ⟨s, e1, e2⟩ := qb64_digest chk (c := str% "E") (n := 32) (d := m.raw) (by decide) (by omega)
  rw [← hm] at e1 e2
  rw [hq] at e1
  cases e1
  exact ⟨e2, hlen, hsz⟩

/-! ## Documents read from bytes -/

/-- What `new_with_raw` guarantees about the document. -/
theorem read_doc {fl : Str → Option Str} {raw : Bytes} {s : Sad} (h : Serder.newWithRaw fl raw = .ok s) :
    s.saider.code = str% "E" ∧ ∃ o, s.ked = .obj o ∧ (o.map Prod.fst).Nodup ∧ Value.hasKey (str% "d") o = true := by
  obtain ⟨-, -, ⟨t, ht, hj⟩, -, -, -, d, hd, -, hc⟩ := Props.C39_partial fl raw s h
  refine ⟨hc, ?_⟩
  cases hk : s.ked with
  | obj o =>
    rw [hk] at hj hd
    rw [field_find] at hd
    exact ⟨o, rfl, jsonRead_nodup hj, by unfold Value.hasKey; rw [hd]; rfl⟩
  | _ => rw [hk] at hd; cases hd

theorem self_addressed {H : Hash} (hH : HashOk H) {chk : Bool} {fl : Str → Option Str} {raw : Bytes} {s : Sad}
    (h : Serder.newWithRaw fl raw = .ok s) (hv : Saider.verify H chk s.saider s.ked (some false) (some true) none none none = .ok true) :
    SelfAddressed H chk s := by
  obtain ⟨hc, o, hk, hn, hd⟩ := read_doc h
  obtain ⟨o', d, o2, k, n, q, e, v⟩ := verify_true hv
  rw [hk] at e
  cases e
  refine ⟨o, hk, q, v.qm, ?_⟩
  have hdg := v.der.digest
  simp only [Option.getD_none, removeAll] at hdg
  have hqd := v.qd
  have hrow := v.row
  have hsame := v.same
  rw [hc] at hqd hrow hdg hsame
  simp only [Option.getD_none] at hsame
  rw [← blanked_insert hn hd] at hsame
  rw [hdg] at hqd
  rw [hash_back hH hrow hqd, hsame]

theorem map_insert {k : Str} {v : Value} {o : List (Str × Value)} (hn : (o.map Prod.fst).Nodup) (hk : Value.hasKey k o = true) :
    Value.insert k v o = o.map fun e => if e.1 = k then (e.1, v) else e := by
  induction o with
  | nil => simp [Value.hasKey, Value.find] at hk
  | cons e o ih =>
    obtain ⟨k', v'⟩ := e
    simp only [List.map_cons, List.nodup_cons] at hn
    rw [Value.insert]
    by_cases h : k' = k
    · subst h
      rw [if_pos rfl, List.map_cons, if_pos rfl, List.map_congr_left (g := id), List.map_id]
      intro e he
      rw [if_neg]
      · rfl
      · rintro rfl
        exact hn.1 (List.mem_map.mpr ⟨_, he, rfl⟩)
    · rw [if_neg h, List.map_cons, if_neg h, ih hn.2]
      unfold Value.hasKey at hk ⊢
      rw [Value.find, if_neg h] at hk
      exact hk

theorem blanked_key {c l : Str} {o : List (Str × Value)} : (blanked c l o).map Prod.fst = o.map Prod.fst := by
  unfold blanked
  rw [List.map_map]
  apply List.map_congr_left
  intro e _
  simp only [Function.comp]
  split <;> rfl

theorem inception_addressed {H : Hash} (hH : HashOk H) {chk : Bool} {fl : Str → Option Str} {raw : Bytes} {s : Sad} {m : M} {pre : Str}
    {pf : Option Bool} (h : Serder.newWithRaw fl raw = .ok s) (hs : Sadder.said chk s = .ok pre) (hp : Serder.pre s = .ok pre)
    (hm : Prefixer.newWithQb64 H pre = .ok m) (hv : Prefixer.verify H chk m s.ked pf = .ok true) :
    InceptionAddressed H chk s := by
  obtain ⟨hc, o, hk, hn, hd⟩ := read_doc h
  have hm' : Matter.newWithQb64 pre = .ok m := by
    unfold Prefixer.newWithQb64 Prefixer.new at hm
    rw [if_pos (by simp)] at hm
    obtain ⟨u, -, hm⟩ := Res.bind_eq_ok.mp hm
    exact hm
  have hmc := code_E hm' (qb64_first hs hc)
  have hi : Value.hasKey (str% "i") o = true := by
    have := (Props.C55_pre s pre).mp hp
    rw [hk, field_find] at this
    unfold Value.hasKey
    rw [this]
    rfl
  obtain ⟨o', ilk, e, ht, hilk⟩ := Prefixer.verify_ilk hv
  rw [hk] at e
  cases e
  have hcd : m.code ∈ digestCodes := by rw [hmc]; decide
  rw [hk, Prefixer.verify_digest_eq hcd ht hilk] at hv
  obtain ⟨q, hq, hv⟩ := Res.bind_eq_ok.mp hv
  have hv0 := hv
  unfold Prefixer.verifyDigest at hv
  obtain ⟨p, hd1, -⟩ := Res.bind_eq_ok.mp hv
  rw [Prefixer.deriveDigest_eq hcd] at hd1
  obtain ⟨r, hr, hd1⟩ := Res.bind_eq_ok.mp hd1
  cases hd1
  obtain ⟨n, hrow, -⟩ := digest_rows _ hcd
  have hl : n ≤ (H m.code r.raw).length := by
    rw [hH m.code (mem_digests.mpr hcd) n hrow]
  rw [Prefixer.verifyDigest_eq hcd hrow (by rw [Prefixer.deriveDigest_eq hcd, hr]; rfl) hl] at hv0
  obtain ⟨q', hq', hv0⟩ := Res.bind_eq_ok.mp hv0
  split at hv0
  · cases hv0
  rename_i hqq
  have hqq := not_not.mp hqq
  subst hqq
  rw [hmc] at hq' hrow
  obtain ⟨o3, ident, size, p, t, e3, -, hz, rfl⟩ := sizeify_ok hr
  cases e3
  have hb : Prefixer.blank2 m.code o = blanked (str% "E") (str% "d") (blanked (str% "E") (str% "i") o) := by
    unfold Prefixer.blank2
    rw [hmc, blanked_insert hn hi, blanked_insert]
    · rw [← blanked_insert hn hi]
      unfold Keys
      rw [blanked_key]
      exact hn
    · unfold Value.hasKey at hd ⊢
      rw [find_insert_ne (by decide)]
      exact hd
  have hnb : ((Prefixer.blank2 m.code o).map Prod.fst).Nodup := by
    rw [hb, blanked_key, blanked_key]
    exact hn
  have hvk : Value.hasKey (str% "v") (Prefixer.blank2 m.code o) = true := by
    unfold Value.hasKey
    rw [hz.2.2.1]
    rfl
  obtain ⟨g1, g2, -⟩ := findVs_some.mp hz.2.2.2.1
  have hsaid : q' = pre := by
    obtain ⟨-, -, -, -, -, -, d, -, hd', -⟩ := Props.C39_partial fl raw s h
    obtain ⟨e, -⟩ := digest_back hd' hc hs
    rw [hm'] at e
    cases e
    unfold Sadder.said at hs
    rw [hq] at hs
    exact Res.ok.inj hs
  refine ⟨o, p ++ (newVs (Prefixer.blank2 m.code o) ident ++ t.drop 17), hk, ⟨newVs (Prefixer.blank2 m.code o) ident, ?_, ?_, ?_⟩, pre, hs, ?_⟩
  · exact ⟨ident, mem_protocols.mpr hz.1, by rw [newVs_size, hb]⟩
  · refine ⟨p, t.take 17, t.drop 17, ?_, ?_, by rw [List.append_assoc]⟩
    · rw [← hb, List.append_assoc, List.take_append_drop]; exact g1
    · rw [List.length_take]
      have := vsAt_len g2
      omega
  · rw [← hb]
    intro hf
    have := (sizeOut_first hz hf).1
    unfold sizeOut at this
    dsimp only at this
    rw [toUtf8_inj this, map_insert hnb hvk]
  · rw [← hsaid]
    have := hash_back hH hrow hq'
    exact this

/-! ## Signatures -/

theorem verifySigers_ok {C : Crypto} {keys : List M} {ser : Bytes} : ∀ {l : List Siger} {r : List (Nat × Nat)},
    verifySigers C keys ser l = .ok r →
    ∃ sigs : List Siger, sigs.Sublist l ∧ r = sigs.map (fun g => (g.i.index, g.i.ondex)) ∧
      ∀ g ∈ sigs, ∃ k, keys[g.i.index]? = some k ∧ Verfer.verify C k g.i.raw ser = .ok true := by
  intro l
  induction l with
  | nil => intro r h; cases h; exact ⟨[], .refl _, rfl, by simp⟩
  | cons s l ih =>
    intro r h
    unfold verifySigers at h
    split at h
    · cases h
    obtain ⟨v, hv, h⟩ := Res.bind_eq_ok.mp h
    obtain ⟨good, hg, h⟩ := Res.bind_eq_ok.mp h
    obtain ⟨r', hr, h⟩ := Res.bind_eq_ok.mp h
    cases h
    obtain ⟨sigs, h1, h2, h3⟩ := ih hr
    have hv' : keys[s.i.index]? = some v := by
      cases hk : keys[s.i.index]? with
      | none => rw [hk] at hv; cases hv
      | some k => rw [hk] at hv; cases hv; rfl
    cases good with
    | false => exact ⟨sigs, h1.cons _, by simpa using h2, h3⟩
    | true =>
      refine ⟨s :: sigs, h1.cons_cons _, by simp [h2], ?_⟩
      intro g hg'
      rcases List.mem_cons.mp hg' with rfl | hg'
      · exact ⟨v, hv', hg⟩
      · exact h3 g hg'

theorem verifyGroups_ok {C : Crypto} {keys : List M} {ser : Bytes} : ∀ {gs : List SigGroup} {r : List (Nat × Nat)},
    verifyGroups C keys ser gs = .ok r →
    ∃ sigs : List Siger, sigs.Sublist (sigersOf gs) ∧ r = sigs.map (fun g => (g.i.index, g.i.ondex)) ∧
      ∀ g ∈ sigs, ∃ k, keys[g.i.index]? = some k ∧ Verfer.verify C k g.i.raw ser = .ok true := by
  intro gs
  induction gs with
  | nil => intro r h; cases h; exact ⟨[], .refl _, rfl, by simp⟩
  | cons s gs ih =>
    intro r h
    cases s with
    | controller l =>
      unfold verifyGroups at h
      obtain ⟨a, ha, h⟩ := Res.bind_eq_ok.mp h
      obtain ⟨b, hb, h⟩ := Res.bind_eq_ok.mp h
      cases h
      obtain ⟨s1, h1, h2, h3⟩ := verifySigers_ok ha
      obtain ⟨s2, g1, g2, g3⟩ := ih hb
      refine ⟨s1 ++ s2, h1.append g1, by rw [h2, g2, List.map_append], ?_⟩
      intro g hg
      rcases List.mem_append.mp hg with hg | hg
      · exact h3 g hg
      · exact g3 g hg
    | _ => cases h

theorem priorIndices_ok {E : Env} (hH : HashOk E.H) {digests keys : List M} : ∀ {sigs : List Siger} {r : List Nat},
    priorIndices E digests keys (sigs.map fun g => (g.i.index, g.i.ondex)) = .ok r →
    ∃ by_ : List Siger, by_.Sublist sigs ∧ r = by_.map (fun g => g.i.ondex) ∧
      ∀ g ∈ by_, ∃ k q d u, keys[g.i.index]? = some k ∧ qb64 E.chk k = .ok q ∧ digests[g.i.ondex]? = some d ∧
        qb64 E.chk d = .ok u ∧ Matter.newWithQb64 u = .ok ⟨str% "E", 0, E.H (str% "E") (toUtf8 q)⟩ := by
  intro sigs
  induction sigs with
  | nil => intro r h; cases h; exact ⟨[], .refl _, rfl, by simp⟩
  | cons s sigs ih =>
    intro r h
    rw [List.map_cons] at h
    unfold priorIndices at h
    obtain ⟨a, ha, h⟩ := Res.bind_eq_ok.mp h
    obtain ⟨b, hb, h⟩ := Res.bind_eq_ok.mp h
    cases h
    obtain ⟨sub, h1, h2, h3⟩ := ih hb
    have skip : ∃ by_ : List Siger, by_.Sublist (s :: sigs) ∧ [] ++ b = by_.map (fun g => g.i.ondex) ∧
      ∀ g ∈ by_, ∃ k q d u, keys[g.i.index]? = some k ∧ qb64 E.chk k = .ok q ∧ digests[g.i.ondex]? = some d ∧
        qb64 E.chk d = .ok u ∧ Matter.newWithQb64 u = .ok ⟨str% "E", 0, E.H (str% "E") (toUtf8 q)⟩ := ⟨sub, h1.cons _, by simpa using h2, h3⟩
    split at ha
    · obtain ⟨v, hv, ha⟩ := Res.bind_eq_ok.mp ha
      obtain ⟨q, hq, ha⟩ := Res.bind_eq_ok.mp ha
      obtain ⟨d, hd, ha⟩ := Res.bind_eq_ok.mp ha
      obtain ⟨t, ht, ha⟩ := Res.bind_eq_ok.mp ha
      obtain ⟨n, hn, ha⟩ := Res.bind_eq_ok.mp ha
      obtain ⟨u, hu, ha⟩ := Res.bind_eq_ok.mp ha
      cases ha
      split
      · rename_i htu
        subst htu
        have orp : ∀ {α : Type} {o : Option α} {a : α}, Res.orPanic o = .ok a → o = some a := by
          intro α o a h
          cases o with
          | none => cases h
          | some b => cases h; rfl
        refine ⟨s :: sub, h1.cons_cons _, by simp [h2], ?_⟩
        intro g hg
        rcases List.mem_cons.mp hg with rfl | hg
        · obtain ⟨q', hq', hqq⟩ : ∃ q', qb64 E.chk v = .ok q' ∧ q = toUtf8 q' := by
            unfold qb64b at hq
            obtain ⟨q', e1, e2⟩ := Res.bind_eq_ok.mp hq
            exact ⟨q', e1, (Res.ok.inj e2).symm⟩
          refine ⟨v, q', n, t, orp hv, hq', orp hn, hu, ?_⟩
          subst hqq
          obtain ⟨k, hk, -⟩ := digest_rows (str% "E") (by decide)
          have hdd : d = ⟨str% "E", 0, (E.H (str% "E") (toUtf8 q')).take k⟩ := by
            rw [(Props.C41_new E.H hH (toUtf8 q') none).1 (by decide)] at hd
            rw [List.take_of_length_le (by rw [hH _ (by decide) k hk])]
            exact (Res.ok.inj hd).symm
          rw [hdd] at ht
          exact hash_back hH hk ht
        · exact h3 g hg
      · exact skip
    · cases ha
      exact skip

/-- A satisfied threshold is met. -/
theorem meets {chk : Bool} {fl : Str → Option Str} {t : Tholder} {idx : List Nat} (h : Props.Accepted chk (jsonRead fl) t)
    (hne : t.thold ≠ .arr []) (hs : t.satisfy chk idx = .ok true) : Meets t idx := by
  by_cases hw : t.weighted = true
  · obtain ⟨qss, h1, -⟩ := Props.C29_weights chk _ t h hw
    refine .inr ⟨qss, h1, ?_, fun hp => Props.C29_sound chk _ t h qss h1 hp idx hs⟩
    rintro rfl
    obtain ⟨cs, e, hf⟩ := h1
    cases hf
    exact hne e
  · left
    have hn : ∃ n, t.num = .ok (some n) := by
      rcases Props.accepted_wf h with ⟨k, hk, m, -, rfl⟩ | ⟨rs, hrs⟩
      · refine ⟨k, ?_⟩
        unfold Tholder.num
        rw [if_neg (by simp)]
        simp only [Value.toI64, Res.ok_bind]
        rw [if_pos (by constructor; omega; exact_mod_cast hk)]
        rfl
      · exact absurd hrs.weighted hw
    obtain ⟨n, hn⟩ := hn
    rw [Props.C28_count chk _ t h n hn] at hs
    have := of_decide_eq_true (Res.ok.inj hs)
    exact ⟨n, hn, this.1, this.2⟩

theorem tholder_accepted {chk : Bool} {fl : Str → Option Str} {l : Str} {s : Sad} {t : Tholder} (h : Serder.tholderAt chk fl l s = .ok (some t)) :
    Props.Accepted chk (jsonRead fl) t := by
  unfold Serder.tholderAt at h
  obtain ⟨map, -, h⟩ := Res.bind_eq_ok.mp h
  split at h
  · obtain ⟨v, -, h⟩ := Res.bind_eq_ok.mp h
    obtain ⟨t', ht, h⟩ := Res.bind_eq_ok.mp h
    cases h
    exact ⟨_, _, _, ht⟩
  · cases h

theorem tholder_nonempty {chk : Bool} {fl : Str → Option Str} {l : Str} {s : Sad} {t : Tholder} (h : Serder.tholderAt chk fl l s = .ok (some t)) :
    t.thold ≠ .arr [] := by
  unfold Serder.tholderAt at h
  obtain ⟨map, -, h⟩ := Res.bind_eq_ok.mp h
  split at h
  · obtain ⟨v, -, h⟩ := Res.bind_eq_ok.mp h
    obtain ⟨t', ht, h⟩ := Res.bind_eq_ok.mp h
    cases h
    exact (Props.C31_nonempty chk _ t).1 _ ht
  · cases h

/-! ## Logs -/

theorem est_iff {s : Sad} (h : HasText (str% "t") (str% "icp") s ∨ HasText (str% "t") (str% "rot") s ∨ HasText (str% "t") (str% "ixn") s) :
    (Establishes s ∧ Serder.est s = .ok true) ∨ (¬ Establishes s ∧ Serder.est s = .ok false) := by
  unfold Establishes
  rcases h with h | h | h <;> unfold HasText at h ⊢
  · exact .inl ⟨.inl h, (Props.C55_est s true).mpr ⟨_, h, by decide⟩⟩
  · exact .inl ⟨.inr h, (Props.C55_est s true).mpr ⟨_, h, by decide⟩⟩
  · refine .inr ⟨?_, (Props.C55_est s false).mpr ⟨_, h, by decide⟩⟩
    rintro (h' | h') <;> rw [h] at h' <;> simp at h'

section
variable {H : Hash} {C : Crypto} {chk : Bool} {fl : Str → Option Str} {pre : Str} {log : List Entry}

theorem ValidLog.types (h : ValidLog H C chk fl pre log) : ∀ e ∈ log,
    HasText (str% "t") (str% "icp") e.sad ∨ HasText (str% "t") (str% "rot") e.sad ∨ HasText (str% "t") (str% "ixn") e.sad := by
  induction h with
  | incept e keys t sigs type => intro x hx; rw [List.mem_singleton.mp hx]; exact .inl type
  | rotate log e prev est psaid keys digests t n sigs before type ident sn fields digest last prior chained own threshold signed latest next
      nextThreshold committed ih =>
    intro x hx
    rcases List.mem_append.mp hx with hx | hx
    · exact ih x hx
    · rw [List.mem_singleton.mp hx]; exact .inr (.inl type)
  | interact log e prev est psaid keys t sigs before type ident sn fields digest last prior chained latest own threshold signed ih =>
    intro x hx
    rcases List.mem_append.mp hx with hx | hx
    · exact ih x hx
    · rw [List.mem_singleton.mp hx]; exact .inr (.inr type)

theorem ValidLog.next (h : ValidLog H C chk fl pre log) : ∀ e ∈ log, Establishes e.sad → ∃ v, field (str% "nt") e.sad.ked = some v := by
  induction h with
  | incept e keys t sigs type ident sn said fields =>
    intro x hx _
    rw [List.mem_singleton.mp hx]
    exact fields _ (by decide)
  | rotate log e prev est psaid keys digests t n sigs before type ident sn fields digest last prior chained own threshold signed latest next
      nextThreshold committed ih =>
    intro x hx he
    rcases List.mem_append.mp hx with hx | hx
    · exact ih x hx he
    · rw [List.mem_singleton.mp hx]; exact fields _ (by decide)
  | interact log e prev est psaid keys t sigs before type ident sn fields digest last prior chained latest own threshold signed ih =>
    intro x hx he
    rcases List.mem_append.mp hx with hx | hx
    · exact ih x hx he
    · rw [List.mem_singleton.mp hx] at he
      exfalso
      unfold Establishes HasText at he
      unfold HasText at type
      rw [type] at he
      rcases he with he | he <;> simp at he

end

theorem forall₂_split {α β : Type} {R : α → β → Prop} {x : α} {b : List α} : ∀ {a : List α} {l : List β}, List.Forall₂ R (a ++ x :: b) l →
    ∃ a' y b', l = a' ++ y :: b' ∧ List.Forall₂ R a a' ∧ R x y ∧ List.Forall₂ R b b' := by
  intro a
  induction a with
  | nil =>
    intro l h
    cases h with
    | cons h1 h2 => exact ⟨[], _, _, rfl, .nil, h1, h2⟩
  | cons z a ih =>
    intro l h
    cases h with
    | cons h1 h2 =>
      obtain ⟨a', y, b', rfl, g1, g2, g3⟩ := ih h2
      exact ⟨_ :: a', y, b', rfl, .cons h1 g1, g2, g3⟩

/-- A stored text holds an event. -/
def Reads (fl : Str → Option Str) (text : Str) (e : Entry) : Prop := Serder.newWithRaw fl (toUtf8 text) = .ok e.sad

theorem isEst_iff {fl : Str → Option Str} {text : Str} {e : Entry} (hr : Reads fl text e)
    (ht : HasText (str% "t") (str% "icp") e.sad ∨ HasText (str% "t") (str% "rot") e.sad ∨ HasText (str% "t") (str% "ixn") e.sad) :
    isEst fl text = true ↔ Establishes e.sad := by
  unfold isEst
  rw [hr, Res.ok_bind]
  rcases est_iff ht with ⟨h1, h2⟩ | ⟨h1, h2⟩ <;> rw [h2] <;> simp [h1]

theorem latestEst_ok {fl : Str → Option Str} {texts : List Str} {log : List Entry} {n : Nat} {raw : Str}
    (hf : List.Forall₂ (Reads fl) texts log) (hn : texts.length ≤ n + 1)
    (ht : ∀ e ∈ log, HasText (str% "t") (str% "icp") e.sad ∨ HasText (str% "t") (str% "rot") e.sad ∨ HasText (str% "t") (str% "ixn") e.sad)
    (h : latestEst fl texts n = some raw) : ∃ e, LatestEst log e ∧ Reads fl raw e := by
  unfold latestEst at h
  rw [List.take_of_length_le hn, List.find?_eq_some_iff_append] at h
  obtain ⟨h1, as, bs, h2, h3⟩ := h
  have h2' : texts = bs.reverse ++ raw :: as.reverse := by
    have := congrArg List.reverse h2
    simpa using this
  rw [h2'] at hf
  obtain ⟨a', y, b', rfl, g1, g2, g3⟩ := forall₂_split hf
  refine ⟨y, ⟨a', b', rfl, (isEst_iff g2 (ht y (by simp))).mp h1, ?_⟩, g2⟩
  intro x hx
  obtain ⟨i, hi, rfl⟩ := List.mem_iff_getElem.mp hx
  have hl := g3.length_eq
  have hr := g3.get (by omega) hi
  intro hE
  have := (isEst_iff hr (ht _ (by simp))).mpr hE
  have hm : as.reverse.get ⟨i, by omega⟩ ∈ as := List.mem_reverse.mp (List.get_mem _ _)
  have := h3 _ hm
  simp_all

/-! ## Accepting an event -/

theorem labels_has {s : Sad} {o : List (Str × Value)} {labels fields : List Str} (ho : s.ked = .obj o)
    (h : verifyKedLabels s.ked labels = .ok true) (hsub : ∀ l ∈ fields, l ∈ labels) : Has fields s := by
  unfold verifyKedLabels at h
  rw [ho, show (Value.obj o).toMap = .ok o from rfl, Res.ok_bind] at h
  have h := Res.ok.inj h
  rw [List.all_eq_true] at h
  intro l hl
  have := h l (hsub l hl)
  rw [ho, field_find]
  unfold Value.hasKey at this
  exact Option.isSome_iff_exists.mp this

theorem keysOf_ok {E : Env} {s : Sad} {k : List M × Tholder} (h : keysOf E s = .ok k) :
    Serder.verfers s = .ok k.1 ∧ Serder.tholder E.chk E.fl s = .ok (some k.2) := by
  unfold keysOf at h
  obtain ⟨t, ht, h⟩ := Res.bind_eq_ok.mp h
  cases t with
  | none => cases h
  | some t =>
    obtain ⟨v, hv, h⟩ := Res.bind_eq_ok.mp h
    cases h
    exact ⟨hv, ht⟩

theorem signed_by {E : Env} {e : Entry} {keys : List M} {t : Tholder} {r : List (Nat × Nat)} {s : Sad}
    (ht : Serder.tholder E.chk E.fl s = .ok (some t)) (hg : verifyGroups E.C keys e.sad.raw e.groups = .ok r)
    (hs : t.satisfy E.chk (r.map Prod.fst) = .ok true) :
    ∃ sigs, SignedBy E.C e keys t sigs ∧ r = sigs.map (fun g => (g.i.index, g.i.ondex)) := by
  obtain ⟨sigs, h1, h2, h3⟩ := verifyGroups_ok hg
  refine ⟨sigs, ⟨h1, h3, ?_⟩, h2⟩
  rw [h2, List.map_map] at hs
  exact meets (tholder_accepted ht) (tholder_nonempty ht) hs

theorem index_text {v : Value} {k t : Str} {x : Value} (h1 : v.index k = .ok x) (h2 : x.toStr = .ok t) : field k v = some (.str t) := by
  rw [toStr_ok h2] at h1
  cases v with
  | obj o => rw [field_find]; exact index_ok h1
  | _ => cases h1

theorem getLatestEst_ok {E : Env} {st : Store} {pre : Str} {n : Nat} {raw : Str} (h : st.getLatestEst E.fl pre n = .ok raw) :
    latestEst E.fl (st.kels pre) n = some raw := Res.ofOption_eq_ok.mp h

theorem forall₂_get {α β : Type} {R : α → β → Prop} {a : List α} {b : List β} (h : List.Forall₂ R a b) {i : Nat} {x : α} (hx : a[i]? = some x) :
    ∃ y, b[i]? = some y ∧ R x y := by
  obtain ⟨hi, rfl⟩ := List.getElem?_eq_some_iff.mp hx
  have hl := h.length_eq
  exact ⟨b[i]'(by omega), List.getElem?_eq_getElem _, h.get hi (by omega)⟩

/-- An event that passes the checks continues the log. -/
theorem checkKeyEvent_valid {E : Env} (hH : HashOk E.H) {st : Store} {e : Entry} {c : Checked} {raw0 : Bytes} {log : List Entry}
    (hread : Serder.newWithRaw E.fl raw0 = .ok e.sad) (h : checkKeyEvent E st e.sad e.groups = .ok c)
    (hlog : List.Forall₂ (Reads E.fl) (st.kels c.pre) log) (hv : log = [] ∨ ValidLog E.H E.C E.chk E.fl c.pre log)
    (hlen : (st.kels c.pre).length < 2 ^ 32) (hex : c.existing = false) :
    ValidLog E.H E.C E.chk E.fl c.pre (log ++ [e]) := by
  obtain ⟨hc, o, hked, hnd, hkd⟩ := read_doc hread
  unfold checkKeyEvent at h
  obtain ⟨pre, hpre, h⟩ := Res.bind_eq_ok.mp h
  obtain ⟨prefixer, hpf, h⟩ := Res.bind_eq_ok.mp h
  obtain ⟨sn, hsn, h⟩ := Res.bind_eq_ok.mp h
  obtain ⟨tv, htv, h⟩ := Res.bind_eq_ok.mp h
  obtain ⟨ilk, hilk, h⟩ := Res.bind_eq_ok.mp h
  obtain ⟨said, hsaid, h⟩ := Res.bind_eq_ok.mp h
  obtain ⟨existing, hplace, h⟩ := Res.bind_eq_ok.mp h
  obtain ⟨keys, hkeys, h⟩ := Res.bind_eq_ok.mp h
  obtain ⟨verified, hver, h⟩ := Res.bind_eq_ok.mp h
  obtain ⟨good, hgood, h⟩ := Res.bind_eq_ok.mp h
  cases good with
  | false => cases h
  | true =>
  rw [if_neg (by decide)] at h
  obtain ⟨labels, hlabels, h⟩ := Res.bind_eq_ok.mp h
  obtain ⟨has, hhas, h⟩ := Res.bind_eq_ok.mp h
  cases has with
  | false => cases h
  | true =>
  rw [if_neg (by decide)] at h
  have htype : HasText (str% "t") ilk e.sad := index_text htv hilk
  have hident := (Props.C55_pre e.sad pre).mp hpre
  have hest : ∀ b, Serder.est e.sad = .ok b → b = decide (ilk ∈ [str% "icp", str% "rot", str% "dip", str% "drt"]) := by
    intro b hb
    obtain ⟨t, e1, e2⟩ := (Props.C55_est e.sad b).mp hb
    unfold HasText at htype
    rw [htype] at e1
    cases e1
    exact e2
  by_cases hicp : ilk = str% "icp"
  · subst hicp
    rw [if_pos rfl] at h
    cases h
    dsimp only at hlog hv hlen hex ⊢
    subst hex
    unfold place at hplace
    dsimp only at hplace
    rw [if_pos rfl] at hplace
    obtain ⟨good, hpv, hplace⟩ := Res.bind_eq_ok.mp hplace
    cases good with
    | false => cases hplace
    | true =>
    rw [if_neg (by decide)] at hplace
    split at hplace
    · cases hplace
    rename_i hsn0
    obtain ⟨p, hp, hplace⟩ := Res.bind_eq_ok.mp hplace
    rw [hpre] at hp
    cases hp
    split at hplace
    · cases hplace
    rename_i hsp
    have hsp := not_not.mp hsp
    subst hsp
    have hcount := of_decide_eq_false (Res.ok.inj hplace)
    have hnil : log = [] := by
      have := hlog.length_eq
      exact List.length_eq_zero_iff.mp (by omega)
    subst hnil
    unfold keysInForce at hkeys
    obtain ⟨est, hes, hkeys⟩ := Res.bind_eq_ok.mp hkeys
    have := hest est hes
    rw [this, if_pos (by decide)] at hkeys
    obtain ⟨k1, k2⟩ := keysOf_ok hkeys
    obtain ⟨sigs, s1, -⟩ := signed_by k2 hver hgood
    rw [show labelsOf (str% "icp") = .ok icpLabels from rfl] at hlabels
    cases hlabels
    refine .incept e keys.1 keys.2 sigs htype hident ?_ hsaid (labels_has hked hhas (by decide)) ?_ k1 k2 s1
    · rw [hsn]
      congr 1
      exact not_not.mp hsn0
    · exact inception_addressed hH hread hsaid hpre hpf hpv
  · rw [if_neg hicp] at h
    obtain ⟨pr, hprior, h⟩ := Res.bind_eq_ok.mp h
    cases h
    dsimp only at hlog hv hlen hex ⊢
    subst hex
    unfold place at hplace
    dsimp only at hplace
    rw [if_neg hicp] at hplace
    obtain ⟨good, hsv, hplace⟩ := Res.bind_eq_ok.mp hplace
    cases good with
    | false => cases hplace
    | true =>
    rw [if_neg (by decide)] at hplace
    split at hplace
    · cases hplace
    rename_i hsn1
    split at hplace
    · cases hplace
    rename_i hsn2
    have hcount := not_not.mp (of_decide_eq_false (Res.ok.inj hplace))
    subst hcount
    have hll := hlog.length_eq
    have hne : log ≠ [] := by rintro rfl; rw [List.length_nil] at hll; omega
    have hvalid := hv.resolve_left hne
    have hmod : (st.kels pre).length % 2 ^ 32 = (st.kels pre).length := Nat.mod_eq_of_lt hlen
    have hsub : ∀ i, subU32 E.chk ((st.kels pre).length % 2 ^ 32) 1 = .ok i → i = (st.kels pre).length - 1 := by
      intro i hi
      rw [hmod] at hi
      unfold subU32 at hi
      rw [if_pos (by omega)] at hi
      exact (Res.ok.inj hi).symm
    have haddr := self_addressed hH hread hsv
    have hsn' : Serder.sn e.sad = .ok log.length := by rw [hsn, hll]
    -- the event before
    unfold checkPrior at hprior
    obtain ⟨i, hi, hprior⟩ := Res.bind_eq_ok.mp hprior
    obtain ⟨event, hev, hprior⟩ := Res.bind_eq_ok.mp hprior
    obtain ⟨pserder, hps, hprior⟩ := Res.bind_eq_ok.mp hprior
    obtain ⟨psaid, hpsaid, hprior⟩ := Res.bind_eq_ok.mp hprior
    obtain ⟨pv, hpv, hprior⟩ := Res.bind_eq_ok.mp hprior
    obtain ⟨p, hp, hprior⟩ := Res.bind_eq_ok.mp hprior
    split at hprior
    · cases hprior
    rename_i hpp
    have hpp := not_not.mp hpp
    subst hpp
    have hchained : HasText (str% "p") psaid e.sad := index_text hpv hp
    obtain rfl := hsub i hi
    obtain ⟨prev, hprev, hprevR⟩ := forall₂_get hlog (Res.ofOption_eq_ok.mp hev)
    have hps' : prev.sad = pserder := by
      unfold Reads at hprevR
      rw [hps] at hprevR
      exact (Res.ok.inj hprevR).symm
    subst hps'
    have hlast : log.getLast? = some prev := by
      rw [List.getLast?_eq_getElem?, ← hll]
      exact hprev
    have hpmem : prev ∈ log := List.mem_of_getLast? hlast
    obtain ⟨est, hes, hprior⟩ := Res.bind_eq_ok.mp hprior
    have he := hest est hes
    unfold labelsOf at hlabels
    rw [if_neg hicp] at hlabels
    unfold keysInForce at hkeys
    rw [hes, Res.ok_bind] at hkeys
    by_cases hrot : ilk = str% "rot"
    · subst hrot
      rw [if_pos rfl] at hlabels
      cases hlabels
      rw [he, if_pos (by decide)] at hkeys hprior
      obtain ⟨k1, k2⟩ := keysOf_ok hkeys
      obtain ⟨sigs, s1, s2⟩ := signed_by k2 hver hgood
      obtain ⟨pest, hpest, hprior⟩ := Res.bind_eq_ok.mp hprior
      obtain ⟨next, hnext, hprior⟩ := Res.bind_eq_ok.mp hprior
      obtain ⟨idx, hidx, hprior⟩ := Res.bind_eq_ok.mp hprior
      obtain ⟨good, hsat, hprior⟩ := Res.bind_eq_ok.mp hprior
      cases good with
      | false => cases hprior
      | true =>
      have hlat : ∃ x, LatestEst log x ∧ nextOf E x.sad = .ok next := by
        rcases est_iff (ValidLog.types hvalid prev hpmem) with ⟨g1, g2⟩ | ⟨g1, g2⟩
        · rw [g2] at hpest
          cases hpest
          rw [if_pos rfl] at hnext
          obtain ⟨l', hl'⟩ := List.getLast?_eq_some_iff.mp hlast
          exact ⟨prev, ⟨l', [], hl', g1, by simp⟩, hnext⟩
        · rw [g2] at hpest
          cases hpest
          rw [if_neg (by decide)] at hnext
          obtain ⟨j, hj, hnext⟩ := Res.bind_eq_ok.mp hnext
          obtain ⟨raw, hraw, hnext⟩ := Res.bind_eq_ok.mp hnext
          obtain ⟨s, hs, hnext⟩ := Res.bind_eq_ok.mp hnext
          obtain rfl := hsub j hj
          obtain ⟨x, x1, x2⟩ := latestEst_ok (n := (st.kels pre).length - 1) hlog (by omega) (ValidLog.types hvalid) (getLatestEst_ok hraw)
          unfold Reads at x2
          rw [hs] at x2
          cases x2
          exact ⟨x, x1, hnext⟩
      obtain ⟨x, x1, x2⟩ := hlat
      unfold nextOf at x2
      obtain ⟨dg, hdg, x2⟩ := Res.bind_eq_ok.mp x2
      obtain ⟨nt, hnt, x2⟩ := Res.bind_eq_ok.mp x2
      have hsome : ∃ n, nt = some n := by
        obtain ⟨a, b, hab, hE, -⟩ := x1
        obtain ⟨v, hv'⟩ := ValidLog.next hvalid x (by rw [hab]; simp) hE
        cases nt with
        | some n => exact ⟨n, rfl⟩
        | none =>
          exfalso
          unfold Serder.ntholder Serder.tholderAt at hnt
          obtain ⟨map, hmap, hnt⟩ := Res.bind_eq_ok.mp hnt
          cases hxk : x.sad.ked with
          | obj o' =>
            rw [hxk] at hmap hv'
            cases hmap
            rw [field_find] at hv'
            have hk : Value.hasKey (str% "nt") map = true := by unfold Value.hasKey; rw [hv']; rfl
            rw [if_pos hk] at hnt
            obtain ⟨_, -, hnt⟩ := Res.bind_eq_ok.mp hnt
            obtain ⟨_, -, hnt⟩ := Res.bind_eq_ok.mp hnt
            cases hnt
          | _ => rw [hxk] at hv'; cases hv'
      obtain ⟨n, rfl⟩ := hsome
      cases x2
      rw [s2] at hidx
      obtain ⟨by_, b1, b2, b3⟩ := priorIndices_ok hH hidx
      rw [b2] at hsat
      exact .rotate log e prev x psaid keys.1 dg keys.2 n sigs hvalid htype hident hsn' (labels_has hked hhas (by decide)) haddr hlast hpsaid hchained
        k1 k2 s1 x1 hdg hnt ⟨by_, b1, meets (tholder_accepted hnt) (tholder_nonempty hnt) hsat, b3⟩
    · rw [if_neg hrot] at hlabels
      have hixn : ilk = str% "ixn" := by
        by_contra hx
        rw [if_neg hx] at hlabels
        cases hlabels
      subst hixn
      rw [if_pos rfl] at hlabels
      cases hlabels
      rw [he, if_neg (by decide)] at hkeys
      obtain ⟨j, hj, hkeys⟩ := Res.bind_eq_ok.mp hkeys
      obtain ⟨raw, hraw, hkeys⟩ := Res.bind_eq_ok.mp hkeys
      obtain ⟨s, hs, hkeys⟩ := Res.bind_eq_ok.mp hkeys
      obtain rfl := hsub j hj
      obtain ⟨x, x1, x2⟩ := latestEst_ok (n := (st.kels pre).length - 1) hlog (by omega) (ValidLog.types hvalid) (getLatestEst_ok hraw)
      unfold Reads at x2
      rw [hs] at x2
      cases x2
      obtain ⟨k1, k2⟩ := keysOf_ok hkeys
      obtain ⟨sigs, s1, -⟩ := signed_by k2 hver hgood
      exact .interact log e prev x psaid keys.1 keys.2 sigs hvalid htype hident hsn' (labels_has hked hhas (by decide)) haddr hlast hpsaid hchained
        x1 k1 k2 s1

end Keride.Sample
