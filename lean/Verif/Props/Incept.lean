/-
C69 for the other inceptions: with an identifier that is a key, and delegated.
-/
import Verif.Props.Build
import Verif.Lemmas.BuildOther

namespace Keride.Spec

/-- The fields of a delegated inception. -/
def dipFields : List Str := icpFields ++ [str% "di"]

end Keride.Spec

namespace Keride.Props

open Spec Sample Matter

/-- What holds of the thresholds and of the rest of an inception, by the facts that `incept` checks. -/
theorem inceives_fields {E : Env} {keys : List Str} {sith : Option Value} {ndigs : Option (List Str)} {nsith : Option Value} {toad : Option Nat}
    {wits : Option (List Str)} {intive : Option Bool} {t : Str} {kt nt bt : Value} {th nth : Tholder} (h : Inceives E keys sith ndigs nsith toad wits intive t kt nt bt th nth)
    {s : Sad} (ho : ∃ o, s.ked = .obj o) (h1 : field (str% "s") s.ked = some (.str t)) (h2 : field (str% "kt") s.ked = some kt) (h3 : field (str% "nt") s.ked = some nt) :
    HasText (str% "s") (str% "0") s ∧ Serder.sn s = .ok 0 ∧
    (∃ t, Tholder.newWithSith E.chk (jsonRead E.fl) (sith.getD (half keys.length)) = .ok t ∧ Serder.tholder E.chk E.fl s = .ok (some t)) ∧
    (∃ t, Tholder.newWithSith E.chk (jsonRead E.fl) (nsith.getD (halfNext (ndigs.getD []).length)) = .ok t ∧ Serder.ntholder E.chk E.fl s = .ok (some t)) := by
  obtain ⟨m, hm, ht⟩ := h.zero
  obtain ⟨a, b, rfl⟩ := number_text hm ht (by decide)
  obtain ⟨o, ho⟩ := ho
  obtain ⟨t1, -, t2, -⟩ := C55_threshold E.chk E.fl s o ho
  have h4 := h.thold
  have h5 := h.nthold
  rw [(majority_half _).1] at h4
  rw [(majority_half _).2] at h5
  refine ⟨h1, (C55_sn s _).mpr ⟨_, m, h1, b, a⟩, ⟨th, h4, ?_⟩, ⟨nth, h5, ?_⟩⟩
  · rw [t1 kt h2, thold_back h.thold h.ktOf]
    rfl
  · rw [t2 nt h3, thold_back h.nthold h.ntOf]
    rfl

/-- C69 for delegated inceptions: the identifier is the SAID of the event, and the delegator is named. -/
theorem C69_delegated (E : Env) (hH : HashOk E.H) (keys : List Str) (sith : Option Value) (ndigs : Option (List Str)) (nsith : Option Value) (toad : Option Nat)
    (wits cnfg : Option (List Str)) (data : Option (List Value)) (version : Option Version) (kind code : Option Str) (intive : Option Bool) (delegator : Str)
    (s : Sad) (h : incept E keys sith ndigs nsith toad wits cnfg data version kind code intive (some delegator) = .ok s) (hs : Sendable s) :
    Fields dipFields s ∧ Serialized s ∧ InceptionAddressed E.H E.chk s ∧ HasText (str% "t") (str% "dip") s ∧ HasText (str% "di") delegator s ∧
    (∃ pre, Serder.pre s = .ok pre ∧ Sadder.said E.chk s = .ok pre ∧ HasText (str% "i") pre s ∧ HasText (str% "d") pre s) ∧
    HasTexts (str% "k") keys s ∧ HasTexts (str% "n") (ndigs.getD []) s ∧
    HasTexts (str% "b") (wits.getD []) s ∧ HasTexts (str% "c") (cnfg.getD []) s ∧ field (str% "a") s.ked = some (.arr (data.getD [])) ∧
    (∀ rest, Serder.newWithRaw E.fl (s.raw ++ toUtf8 rest) = .ok s) ∧ HasText (str% "s") (str% "0") s ∧ Serder.sn s = .ok 0 ∧
    (∃ t, Tholder.newWithSith E.chk (jsonRead E.fl) (sith.getD (half keys.length)) = .ok t ∧ Serder.tholder E.chk E.fl s = .ok (some t)) ∧
    (∃ t, Tholder.newWithSith E.chk (jsonRead E.fl) (nsith.getD (halfNext (ndigs.getD []).length)) = .ok t ∧
      Serder.ntholder E.chk E.fl s = .ok (some t)) := by
  obtain ⟨vs, t, kt, nt, bt, th, nth, p, q, hi, hp, hq, hk⟩ := incept_parts h
  rcases hp with ⟨h0, -⟩ | ⟨-, hp, hd⟩
  · cases h0
  have hd := hd rfl
  rcases hk with ⟨-, hk⟩ | ⟨hd', -⟩
  swap
  · rw [hd] at hd'
    cases hd'
  have hc : p.code ∈ digests := by
    unfold digestive at hd
    exact List.contains_iff_mem.mp hd
  have hb := incepted hp hc hq hk rfl rfl rfl
  have hr := hb.reads hs.plain hs.depth hs.small E.fl
  have hpre : Serder.pre s = .ok q := (C55_pre s q).mpr hb.names
  refine ⟨hb.keys, serialized_of_incepted hb hs, inception_addressed hH (hr []) hb.reports hpre (prefixer_of hb.saider) (hb.verifies none), ?_, ?_,
    ⟨q, hpre, hb.reports, hb.names, hb.said⟩, ?_, ?_, ?_, ?_, ?_, hr, inceives_fields hi ?_ ?_ ?_ ?_⟩
  rotate_left 7
  · obtain ⟨o, ho, -⟩ := hb.keys
    exact ⟨o, ho⟩
  all_goals
    try unfold HasText
    try unfold HasTexts
    rw [hb.fields _ (by decide) (by decide) (by decide)]
    simp [field, Sample.texts, inceptDoc]

/-- An identifier that is not a digest is derived from the only key. -/
theorem derive_key {H : Hash} {c : Str} (hc : c ∉ digestCodes) {vs t : Str} {kt nt bt : Value} {keys ndigs wits cnfg : List Str} {data : List Value} {raw : Bytes} {c' : Str}
    (h : Prefixer.derive H (.obj (inceptDoc none vs t kt nt bt keys ndigs wits cnfg data)) c = .ok (raw, c')) :
    ∃ v k, keys = [k] ∧ Verfer.new none none none (some k) none = .ok v ∧ v.code = c ∧ v.raw = raw := by
  have key : ∀ {v : M}, Prefixer.keyOf (.obj (inceptDoc none vs t kt nt bt keys ndigs wits cnfg data)) (inceptDoc none vs t kt nt bt keys ndigs wits cnfg data) c = .ok v →
      ∃ k, keys = [k] ∧ Verfer.new none none none (some k) none = .ok v ∧ v.code = c := by
    intro v hv
    unfold Prefixer.keyOf at hv
    rw [if_pos (show Value.hasKey (str% "k") (inceptDoc none vs t kt nt bt keys ndigs wits cnfg data) = true from rfl)] at hv
    have e : (Value.obj (inceptDoc none vs t kt nt bt keys ndigs wits cnfg data)).index (str% "k") = .ok (texts keys) := rfl
    rw [e, Res.ok_bind] at hv
    have e : (texts keys).toVec = .ok (keys.map .str) := rfl
    rw [e, Res.ok_bind] at hv
    obtain ⟨hl, hv⟩ := if_err hv
    rw [List.length_map, not_not] at hl
    obtain ⟨k, rfl⟩ := List.length_eq_one_iff.mp hl
    have e : Res.orPanic ([k].map Value.str).head? = .ok (.str k) := rfl
    rw [e, Res.ok_bind] at hv
    have e : (Value.str k).toStr = .ok k := rfl
    rw [e, Res.ok_bind] at hv
    obtain ⟨w, hw, hv⟩ := Res.bind_eq_ok.mp hv
    obtain ⟨hx, hv⟩ := if_err hv
    cases hv
    exact ⟨k, rfl, hw, not_not.mp hx⟩
  unfold Prefixer.derive at h
  have e : (Value.obj (inceptDoc none vs t kt nt bt keys ndigs wits cnfg data)).index (str% "t") = .ok (.str (str% "icp")) := rfl
  rw [e, Res.ok_bind] at h
  have e : (Value.str (str% "icp")).toStr = .ok (str% "icp") := rfl
  rw [e, Res.ok_bind, if_neg (by decide)] at h
  split at h
  · unfold Prefixer.deriveNontransferable at h
    obtain ⟨map, hm, h⟩ := Res.bind_eq_ok.mp h
    obtain ⟨v, -, h⟩ := Res.bind_eq_ok.mp h
    cases hm
    obtain ⟨u, hu, -⟩ := Res.bind_eq_ok.mp h
    cases hu
  · split at h
    · unfold Prefixer.deriveTransferable at h
      obtain ⟨map, hm, h⟩ := Res.bind_eq_ok.mp h
      obtain ⟨v, hv, hx⟩ := Res.bind_eq_ok.mp h
      cases hm
      obtain ⟨k, h1, h2, h3⟩ := key hv
      exact ⟨v, k, h1, h2, h3, (Prod.mk.inj (Res.ok.inj hx)).1⟩
    · rw [if_neg (by simpa using hc)] at h
      cases h

/-- C69 for inceptions with an identifier that is not a digest: there is one key, the identifier is that key, and the SAID is the digest of the event with the
identifier in it. -/
theorem C69_basic (E : Env) (hH : HashOk E.H) (keys : List Str) (sith : Option Value) (ndigs : Option (List Str)) (nsith : Option Value) (toad : Option Nat)
    (wits cnfg : Option (List Str)) (data : Option (List Value)) (version : Option Version) (kind code : Option Str) (intive : Option Bool)
    (s : Sad) (hcode : ∀ c, code = some c → c ∉ digests) (hkeys : ∀ k ∈ keys, '=' ∉ k)
    (h : incept E keys sith ndigs nsith toad wits cnfg data version kind code intive none = .ok s) (hs : Sendable s) :
    Fields icpFields s ∧ Serialized s ∧ SelfAddressed E.H E.chk s ∧ HasText (str% "t") (str% "icp") s ∧
    (∃ k m pre, keys = [k] ∧ Matter.newWithQb64 k = .ok m ∧ m.code ∉ digests ∧ (∀ c, code = some c → m.code = c) ∧ qb64 E.chk m = .ok pre ∧ pre <+: k ∧
      Serder.pre s = .ok pre ∧ HasText (str% "i") pre s) ∧
    HasTexts (str% "k") keys s ∧ HasTexts (str% "n") (ndigs.getD []) s ∧
    HasTexts (str% "b") (wits.getD []) s ∧ HasTexts (str% "c") (cnfg.getD []) s ∧ field (str% "a") s.ked = some (.arr (data.getD [])) ∧
    (∀ rest, Serder.newWithRaw E.fl (s.raw ++ toUtf8 rest) = .ok s) ∧ HasText (str% "s") (str% "0") s ∧ Serder.sn s = .ok 0 ∧
    (∃ t, Tholder.newWithSith E.chk (jsonRead E.fl) (sith.getD (half keys.length)) = .ok t ∧ Serder.tholder E.chk E.fl s = .ok (some t)) ∧
    (∃ t, Tholder.newWithSith E.chk (jsonRead E.fl) (nsith.getD (halfNext (ndigs.getD []).length)) = .ok t ∧
      Serder.ntholder E.chk E.fl s = .ok (some t)) := by
  obtain ⟨vs, t, kt, nt, bt, th, nth, p, q, hi, hp, hq, hk⟩ := incept_parts h
  have key : digestive p = false ∧ ∃ k, keys = [k] ∧ Matter.newWithQb64 k = .ok p ∧ ∀ c, code = some c → p.code = c := by
    rcases hp with ⟨-, hc, ⟨k, hk, hp⟩, hd⟩ | ⟨h1, hp, -⟩
    · refine ⟨hd, k, hk, ?_, by rw [hc]; simp⟩
      unfold Prefixer.newWithQb64 Prefixer.new at hp
      rw [if_pos (by simp)] at hp
      obtain ⟨u, -, hp⟩ := Res.bind_eq_ok.mp hp
      exact hp
    · obtain ⟨raw, n, hcode', hvalid, hder, hfix, hl, hm, -⟩ := Prefixer.newWithKed_ok hp
      cases code with
      | none => cases hcode'
      | some c =>
        have e : c = p.code := Res.ok.inj hcode'
        have hnd : c ∉ digestCodes := fun hx => hcode c rfl (Saider.mem_digests.mpr hx)
        rw [← e] at hvalid hder hfix hm
        obtain ⟨v, k, hk, hv, hvc, hvr⟩ := derive_key hnd hder
        have hkm : Matter.newWithQb64 k = .ok v := by
          unfold Verfer.new at hv
          obtain ⟨m, h2, hv⟩ := Res.bind_eq_ok.mp hv
          obtain ⟨u, -, hv⟩ := Res.bind_eq_ok.mp hv
          cases hv
          exact h2
        obtain ⟨e1, e2⟩ := new_any_fixed (n := n) (show Matter.new none none none (some k) none = .ok v from hkm) (by rw [hvc]; exact hfix)
          (by intro s hs'; cases hs'; exact hkeys k (by rw [hk]; simp)) (by simp)
        have hpv : p = v := by
          rw [hm, ← hvr, List.take_of_length_le (by omega), ← hvc, ← e1]
        refine ⟨?_, k, hk, by rw [hpv]; exact hkm, fun c' h' => by cases h'; exact e.symm⟩
        unfold digestive
        rw [Bool.eq_false_iff]
        intro hx
        rw [← e] at hx
        exact hcode c rfl (List.contains_iff_mem.mp hx)
  obtain ⟨hd, k, hkk, hkm, hcc⟩ := key
  rcases hk with ⟨hd', -⟩ | ⟨-, r, hr, hk⟩
  · rw [hd] at hd'
    cases hd'
  have hb := built hr hk rfl
  have hrd := hb.reads hs.plain hs.depth hs.small E.fl
  have hnd : p.code ∉ digests := by
    unfold digestive at hd
    intro hm
    rw [List.contains_iff_mem.mpr (show p.code ∈ [str% "E", str% "0D", str% "F", str% "0E", str% "G", str% "H", str% "0F", str% "I", str% "0G"] from hm)] at hd
    cases hd
  have hn : HasText (str% "i") q s := by
    unfold HasText
    rw [hb.fields _ (by decide) (by decide)]
    simp [field, inceptDoc, icpDoc, Value.insert]
  have hpk : q <+: k := by
    obtain ⟨z, rest, hw, hz⟩ := exfil_wf (show exfil k = .ok p from hkm) (hkeys k (by rw [hkk]; simp))
    have := infil_wf E.chk hw
    have hq' : infil E.chk p = .ok q := hq
    rw [this] at hq'
    cases hq'
    exact ⟨rest, hz.symm⟩
  refine ⟨hb.keys, serialized_of hb hs, self_addressed hH (hrd []) (hb.verifies _ _), ?_, ⟨k, p, q, hkk, hkm, hnd, hcc, hq, hpk, (C55_pre s q).mpr hn, hn⟩, ?_, ?_, ?_, ?_, ?_, hrd,
    inceives_fields hi ?_ ?_ ?_ ?_⟩
  rotate_left 6
  · obtain ⟨o, ho, -⟩ := hb.keys
    exact ⟨o, ho⟩
  all_goals
    try unfold HasText
    try unfold HasTexts
    rw [hb.fields _ (by decide) (by decide)]
    simp [field, Sample.texts, inceptDoc, icpDoc, Value.insert]

/-- The thresholds of an inception of any kind. -/
theorem incept_shape {E : Env} {keys : List Str} {sith : Option Value} {ndigs : Option (List Str)} {nsith : Option Value} {toad : Option Nat}
    {wits cnfg : Option (List Str)} {data : Option (List Value)} {version : Option Version} {kind code : Option Str} {intive : Option Bool} {delpre : Option Str} {s : Sad}
    (h : incept E keys sith ndigs nsith toad wits cnfg data version kind code intive delpre = .ok s) :
    ∃ t kt nt bt th nth, Inceives E keys sith ndigs nsith toad wits intive t kt nt bt th nth ∧ (∃ o, s.ked = .obj o) ∧ field (str% "s") s.ked = some (.str t) ∧
      field (str% "kt") s.ked = some kt ∧ field (str% "nt") s.ked = some nt ∧ field (str% "bt") s.ked = some bt := by
  obtain ⟨vs, t, kt, nt, bt, th, nth, p, q, hi, hp, hq, hk⟩ := incept_parts h
  refine ⟨t, kt, nt, bt, th, nth, hi, ?_⟩
  rcases hk with ⟨hd, hk⟩ | ⟨hd, r, hr, hk⟩
  · have hc : p.code ∈ digests := by
      unfold digestive at hd
      exact List.contains_iff_mem.mp hd
    rcases hp with ⟨-, -, -, h0⟩ | ⟨-, hp, -⟩
    · rw [hd] at h0
      cases h0
    have hb := incepted hp hc hq hk (by cases delpre <;> rfl) (by cases delpre <;> rfl) (by cases delpre <;> rfl)
    refine ⟨?_, ?_, ?_, ?_, ?_⟩
    · obtain ⟨o, ho, -⟩ := hb.keys
      exact ⟨o, ho⟩
    all_goals
      rw [hb.fields _ (by decide) (by decide) (by decide)]
      cases delpre <;> simp [field, inceptDoc, icpDoc]
  · have hb := built hr hk (by cases delpre <;> rfl)
    refine ⟨?_, ?_, ?_, ?_, ?_⟩
    · obtain ⟨o, ho, -⟩ := hb.keys
      exact ⟨o, ho⟩
    all_goals
      rw [hb.fields _ (by decide) (by decide)]
      cases delpre <;> simp [field, inceptDoc, icpDoc, Value.insert]

/-- C71 for inceptions of any kind, delegated or not, whatever the identifier. -/
theorem C71_incept_any (E : Env) (keys : List Str) (sith : Option Value) (ndigs : Option (List Str)) (nsith : Option Value) (toad : Option Nat)
    (wits cnfg : Option (List Str)) (data : Option (List Value)) (version : Option Version) (kind code : Option Str) (intive : Option Bool) (delpre : Option Str)
    (s : Sad) (h : incept E keys sith ndigs nsith toad wits cnfg data version kind code intive delpre = .ok s) :
    (wits.getD []).Nodup ∧
    (∃ k, WitnessThreshold k s ∧ (wits.getD [] = [] → k = 0) ∧ (wits.getD [] ≠ [] → 1 ≤ k ∧ k ≤ (wits.getD []).length) ∧
      ∀ n, toad = some n → n < 2 ^ 128 → k = n) ∧
    (∃ t, Serder.tholder E.chk E.fl s = .ok (some t) ∧ Sensible t keys.length) ∧
    ∃ t, Serder.ntholder E.chk E.fl s = .ok (some t) ∧ (∀ k, t.num = .ok (some k) → k ≤ (ndigs.getD []).length) := by
  obtain ⟨t, kt, nt, bt, th, nth, hi, ho, h1, h2, h3, h4⟩ := incept_shape h
  obtain ⟨-, -, ⟨th', h5, h6⟩, ⟨nth', h7, h8⟩⟩ := inceives_fields hi ho h1 h2 h3
  rw [← (majority_half _).1, hi.thold] at h5
  rw [← (majority_half _).2, hi.nthold] at h7
  cases h5
  cases h7
  obtain ⟨m, h10, h11⟩ := hi.toader
  obtain ⟨k, hk, hbt⟩ := toad_text h11
  have ht := inceptToader_ok h10 hk
  refine ⟨nodup_of_repeats hi.apart, ⟨k, ?_, fun e => ht.zero (by simp [e]), fun e => ht.within (by simpa using e), ht.given⟩, ⟨th, h6, sensible_of hi.thold hi.size hi.one⟩,
    nth, h8, fun j hj => size_of_num hi.nthold hj ▸ hi.nsize⟩
  unfold WitnessThreshold HasText
  rw [h4]
  exact hbt.imp (congrArg some) (congrArg some)

/-- A key that is the identifier. -/
def World.basicKey : Str := str% "DAAAAAAAAAAAAAAAAAAAAAAAAAAAAAAAAAAAAAAAAAAA"

/-- All that `C69_basic` asks for is met, with and without the kind of identifier. -/
example : ∀ code ∈ [none, some (str% "D")], ∃ s, incept (World.env []) [World.basicKey] none (some [str% "n1"]) none none none none none none none code none none = .ok s ∧
    Sendable s ∧ (∀ c, code = some c → c ∉ digests) ∧ ∀ k ∈ [World.basicKey], '=' ∉ k := by
  have h : ([none, some (str% "D")].all fun code => World.holds (incept (World.env []) [World.basicKey] none (some [str% "n1"]) none none none none none none none code none none)
    World.sendable) = true := by decide +kernel
  intro code hc
  obtain ⟨s, h1, h2⟩ := World.holds_ok (List.all_eq_true.mp h code hc)
  refine ⟨s, h1, World.sendable_ok h2, ?_, by decide +kernel⟩
  rcases List.mem_cons.mp hc with rfl | hc
  · simp
  · rw [List.mem_singleton.mp hc]
    rintro c ⟨⟩
    decide

/-- All that `C69_delegated` asks for is met: weights, next keys, witnesses and a configuration trait. -/
example : ∃ s, incept (World.env []) [str% "k1", str% "k2"] (some (.arr [.str (str% "1/2"), .str (str% "1/2")])) (some [str% "n1"]) none none (some (World.names 5))
    (some [str% "EO"]) none none none none none (some (str% "delegator")) = .ok s ∧ Sendable s := by
  obtain ⟨s, h1, h2⟩ := World.holds_ok (r := incept (World.env []) [str% "k1", str% "k2"] (some (.arr [.str (str% "1/2"), .str (str% "1/2")])) (some [str% "n1"]) none none
    (some (World.names 5)) (some [str% "EO"]) none none none none none (some (str% "delegator"))) (f := World.sendable) (by decide +kernel)
  exact ⟨s, h1, World.sendable_ok h2⟩

end Keride.Props
