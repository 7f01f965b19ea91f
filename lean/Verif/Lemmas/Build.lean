/-
Events as the builders of sample/keri make them: give the document its SAID, then read it as an event.
-/
import Verif.Lemmas.Kel
import Verif.Lemmas.MatterReject
import Verif.Props.Saider
import Verif.Props.Serder
import Verif.Props.Signer
import Verif.Props.Number
import Verif.Spec.Control

namespace Keride.Sample

open Matter Spec Props Saider

theorem wf_text {m : M} {z : Sizage} {chk : Bool} {q : Str} (hw : Wf m z) (hq : qb64 chk m = .ok q) : IsB64 q ∧ q.length = fsz m z := by
  rw [qb64, infil_wf chk hw] at hq
  cases hq
  refine ⟨isB64_sx hw, ?_⟩
  have := sx_length hw
  unfold b64Text
  rw [List.length_map]
  exact this

theorem esc_b64 {q : Str} (h : IsB64 q) : escStr q = q ∧ q.len = q.length := by
  have key : ∀ c ∈ b64Alphabet, (c ≠ '"' ∧ c ≠ '\\' ∧ 32 ≤ c.toNat) ∧ c.utf8Size = 1 := by decide
  refine ⟨escStr_id fun c hc => (key c (h c hc)).1, ?_⟩
  induction q with
  | nil => rfl
  | cons c q ih =>
    rw [Str.len, ih fun d hd => h d (by simp [hd]), (key c (h c (by simp))).2, List.length_cons]
    omega

theorem esc_dummy (n : Nat) : escStr (Saider.dummy n) = Saider.dummy n ∧ Str.len (Saider.dummy n) = n := by
  unfold Saider.dummy
  constructor
  · apply escStr_id
    intro c hc
    obtain rfl := (List.mem_replicate.mp hc).2
    decide
  · induction n with
    | zero => rfl
    | succ n ih =>
      rw [List.replicate_succ, Str.len, ih]
      have : Char.utf8Size '#' = 1 := by decide
      omega

/-- A document given its SAID and read as an event (`KERI`) or as a credential (`ACDC`). -/
structure BuiltAs (id : Str) (H : Hash) (chk : Bool) (o : List (Str × Value)) (s : Sad) : Prop where
  ident : s.ident = id
  raw : s.raw = toUtf8 s.ked.toJson
  keys : ∃ o', s.ked = .obj o' ∧ o'.map Prod.fst = o.map Prod.fst
  fields : ∀ k, k ≠ str% "d" → k ≠ str% "v" → field k s.ked = field k (.obj o)
  said : ∃ q, Sadder.said chk s = .ok q ∧ field (str% "d") s.ked = some (.str q) ∧ IsB64 q ∧ q.length = 44 ∧ Matter.newWithQb64 q = .ok s.saider
  version : field (str% "v") s.ked = some (.str (versionText id ⟨1, 0⟩ (str% "JSON") (s.raw.length % 2 ^ 32)))
  small : s.raw.length % 2 ^ 32 < 2 ^ 24
  code : s.saider.code = str% "E"
  verifies : ∀ pf vs, Saider.verify H chk s.saider s.ked pf vs none none none = .ok true
  json : ∀ pf vs, Saider.verify H chk s.saider s.ked pf vs (some (str% "JSON")) none none = .ok true
  first : ∃ o', s.ked = .obj o' ∧ o'.head?.map Prod.fst = some (str% "v")
  whole : Plain s.ked → nesting s.ked ≤ 127 → s.raw.length < 2 ^ 32 → ∀ fl rest, Sadder.populateFromRaw fl (str% "E") (s.raw ++ toUtf8 rest) = .ok s

theorem prep_json {o : List (Str × Value)} {k : Option Str} {x : Value} (hv : Value.hasKey (str% "v") o = true) (h : prep none o = .ok (k, x)) :
    prep (some (str% "JSON")) o = .ok (k, x) := by
  obtain ⟨o2, rfl, -, -, -, h | ⟨ident, size, p, q, hs, -, hk, ho⟩⟩ := prep_ok h
  · rw [hv] at h; cases h.1
  · unfold prep
    rw [if_pos hv, sizeify_of rfl hs, Res.ok_bind, hk, ho]
    rfl

theorem verify_json {H : Hash} {chk : Bool} {m : M} {o : List (Str × Value)} {pf vs : Option Bool} {t : Str} (hv : Value.find (str% "v") o = some (.str t))
    (h : Saider.verify H chk m (.obj o) pf vs none none none = .ok true) :
    Saider.verify H chk m (.obj o) pf vs (some (str% "JSON")) none none = .ok true := by
  obtain ⟨o', d, o2, k, n, q, e, hV⟩ := verify_true h
  cases e
  have hk : ∀ v, Value.hasKey (str% "v") (Value.insert (str% "d") v o) = true := by
    intro v
    unfold Value.hasKey
    rw [find_insert_ne (by decide), hv]
    rfl
  have hk2 : Value.hasKey (str% "v") o2 = true := by
    obtain ⟨o2', e, -, -, -, h | ⟨ident, size, p, q, hs, -, -, ho⟩⟩ := prep_ok hV.der.prep1
    · rw [Option.getD_none, hk] at h; cases h.1
    · cases e
      unfold Value.hasKey
      rw [ho, find_insert_self]
      rfl
  obtain ⟨⟨h1, h2, h3, h4, h5, h6, h7⟩, h8, h9, h10, h11, h12, h13⟩ := hV
  exact verify_of ⟨⟨h1, h2, prep_json (hk _) h3, h4, h5, prep_json hk2 h6, h7⟩, h8, h9, h10, h11, h12, h13⟩ fun _ => ⟨t, hv⟩

/-- A document given its SAID and read as an event. -/
structure Built (H : Hash) (chk : Bool) (o : List (Str × Value)) (s : Sad) : Prop where
  ident : s.ident = str% "KERI"
  raw : s.raw = toUtf8 s.ked.toJson
  keys : ∃ o', s.ked = .obj o' ∧ o'.map Prod.fst = o.map Prod.fst
  fields : ∀ k, k ≠ str% "d" → k ≠ str% "v" → field k s.ked = field k (.obj o)
  said : ∃ q, Sadder.said chk s = .ok q ∧ field (str% "d") s.ked = some (.str q) ∧ IsB64 q ∧ q.length = 44 ∧ Matter.newWithQb64 q = .ok s.saider
  version : field (str% "v") s.ked = some (.str (versionText (str% "KERI") ⟨1, 0⟩ (str% "JSON") (s.raw.length % 2 ^ 32)))
  small : s.raw.length % 2 ^ 32 < 2 ^ 24
  code : s.saider.code = str% "E"
  verifies : ∀ pf vs, Saider.verify H chk s.saider s.ked pf vs none none none = .ok true
  first : ∃ o', s.ked = .obj o' ∧ o'.head?.map Prod.fst = some (str% "v")
  reads : Plain s.ked → nesting s.ked ≤ 127 → s.raw.length < 2 ^ 32 → ∀ fl rest, Serder.newWithRaw fl (s.raw ++ toUtf8 rest) = .ok s

theorem built_as {id : Str} {H : Hash} {chk : Bool} {o : List (Str × Value)} {r : M × Value} {s : Sad}
    (hs : Saider.saidify H chk (.obj o) none none none none = .ok r) (h1 : Sadder.populateFromKed (str% "E") r.2 none = .ok s) (h2 : s.ident = id)
    (hv : o.head?.map Prod.fst = some (str% "v")) : BuiltAs id H chk o s := by
  obtain ⟨o0, o2, k, d, q, n, e, hx, hD, hq, hn, hl, hm, hkey⟩ := saidify_ok hs
  cases e
  simp only [Option.getD_none] at hx hD hn hm hkey
  have hr : r = (r.1, r.2) := rfl
  rw [hr] at hs
  obtain ⟨⟨q', hq', hnew, hfd⟩, hver, -⟩ := C37_verifies H chk (.obj o) none none none none r.1 r.2 hs
  rw [hq] at hq'
  cases hq'
  obtain ⟨o', he', hkeys, hfs⟩ := C37_fields H chk o none none none none r.1 r.2 hs
  simp only [Option.getD_none] at hfd hfs
  obtain ⟨z, hz⟩ := Saider.wf_digest hn hl
  rw [← hm] at hz
  obtain ⟨hb, hlen⟩ := wf_text hz hq
  rw [hx] at h1
  obtain ⟨o3, ident, size, p, u, t, e, -, hsz, ht, hsd, hc, hS, -⟩ := populateFromKed_ok h1
  cases e
  rw [find_insert_self] at ht
  cases ht
  have h44 : q.length = 44 := by
    have hr := hz.row
    have e : sizage (str% "E") = .ok ⟨1, 0, 44, 0⟩ := rfl
    rw [hm] at hr
    dsimp only at hr
    rw [e] at hr
    cases hr
    rw [hlen]
    unfold fsz
    rw [if_pos (by decide)]
  obtain ⟨o2', e, -, -, -, hcase⟩ := prep_ok hD.prep1
  cases e
  have hkI : Value.hasKey (str% "v") (Value.insert (str% "d") (.str (dummy (saidChars (str% "E")))) o) = true := by
    unfold Value.hasKey
    rw [find_insert_ne (by decide)]
    cases o with
    | nil => simp at hv
    | cons a o =>
      simp only [List.head?_cons, Option.map_some, Option.some.injEq] at hv
      simp [Value.find, hv]
  rcases hcase with ⟨h, -⟩ | ⟨ident0, size0, p0, q0, hsz0, -, -, ho2⟩
  · rw [hkI] at h; cases h
  generalize hoI : Value.insert (str% "d") (.str (dummy (saidChars (str% "E")))) o = oI at hsz0 ho2 hkI
  have hfv : Value.find (str% "v") (Value.insert (str% "d") (.str q) o2) = some (.str (newVs oI ident0)) := by
    rw [find_insert_ne (by decide), ho2, find_insert_self]
  have h3 := hsz.2.2.1
  rw [hfv] at h3
  have h3 : newVs oI ident0 = versionText ident currentVersion (str% "JSON") size := by simpa using h3
  have hid : ident0 = ident := by
    have a := deversify_text hsz.1 json_serial (fits_current hsz.2.1)
    rw [← h3] at a
    unfold newVs at a
    rw [deversify_text hsz0.1 json_serial (fits_current hsz0.2.2.2.2.2)] at a
    cases a
    rfl
  have hkd : Value.hasKey (str% "d") o2 = true := by unfold Value.hasKey; rw [hD.found]; rfl
  obtain ⟨A, B, hAB, -⟩ := toJson_hole hkd
  have hl3 : (Value.obj (Value.insert (str% "d") (.str q) o2)).toJson.len = (Value.obj oI).toJson.len := by
    have e1 := hAB (dummy (saidChars (str% "E")))
    rw [insert_find_self hD.found] at e1
    have e2 := newText_len hsz0
    rw [← ho2, e1] at e2
    rw [← e2, hAB, len_append, len_append, len_append, len_append, (esc_b64 hb).1, (esc_b64 hb).2, (esc_dummy _).1, (esc_dummy _).2, h44]
    rfl
  have hvs : newVs (Value.insert (str% "d") (.str q) o2) ident = newVs oI ident0 := by
    unfold newVs
    rw [hl3, hid]
  have hked : s.ked = .obj (Value.insert (str% "d") (.str q) o2) := by
    rw [hS]
    unfold sizeOut
    dsimp only
    rw [hvs, insert_find_self hfv]
  have hhead : (Value.insert (str% "d") (.str q) o2).head?.map Prod.fst = some (str% "v") := by
    have e : Value.obj (Value.insert (str% "d") (.str q) o2) = .obj o' := by rw [← hx, he']
    injection e with e
    rw [e]
    cases o with
    | nil => simp at hv
    | cons a o =>
      cases o' with
      | nil => simp at hkeys
      | cons b o' =>
        simp only [List.map_cons, List.cons.injEq] at hkeys
        simpa [hkeys.1] using hv
  have hraw : s.raw = toUtf8 s.ked.toJson := by
    have := (sizeOut_first hsz hhead).1
    rw [hS]
    exact this
  have hlr : s.raw.length = (Value.obj oI).toJson.len := by rw [hraw, toUtf8_length, hked, hl3]
  have hident : ident = id := by rw [hS] at h2; exact h2
  have hsm : s.saider = r.1 := by
    have := saiderOf_hash H q
    rw [hsd, hnew] at this
    exact Res.ok.inj this
  rw [hx] at he' hfd hver
  refine ⟨h2, hraw, ⟨o', by rw [hked, he'], hkeys⟩, ?_, ⟨q, ?_, ?_, hb, h44, ?_⟩, ?_, ?_, hc, ?_, ?_, ⟨_, hked, hhead⟩, ?_⟩
  · intro k h1 h2
    rw [hked, he']
    exact hfs k h1 h2
  · unfold Sadder.said
    rw [hsm]
    exact hq
  · rw [hked]; exact hfd
  · exact (saiderOf_ok hsd).1
  · rw [hked, field_find, hfv, hlr]
    unfold newVs
    rw [hid, hident]
    rfl
  · rw [hlr]
    exact hsz0.2.2.2.2.2
  · intro pf vs
    rw [hked, hsm]
    exact hver pf vs
  · intro pf vs
    rw [hked, hsm]
    exact verify_json hfv (hver pf vs)
  · intro a b c fl' rest
    rw [hked] at a b
    exact populate_back (fun _ h => h.elim) h1 c a b hraw rest

theorem built {H : Hash} {chk : Bool} {fl : Str → Option Str} {o : List (Str × Value)} {r : M × Value} {s : Sad}
    (hs : Saider.saidify H chk (.obj o) none none none none = .ok r) (hk : Serder.newWithKed fl r.2 none none = .ok s)
    (hv : o.head?.map Prod.fst = some (str% "v")) : Built H chk o s := by
  obtain ⟨h1, h2⟩ := serder_ked.mp hk
  have hb := built_as hs h1 h2 hv
  exact ⟨hb.ident, hb.raw, hb.keys, hb.fields, hb.said, hb.version, hb.small, hb.code, hb.verifies, hb.first,
    fun a b c fl rest => serder_raw.mpr ⟨hb.whole a b c fl rest, h2⟩⟩

/-! ## Key sets -/

theorem signers_good {E : Env} (hC : CryptoOk E.C) {ks : KeySet} (hu : ∀ t ∈ ks.keys, '=' ∉ t) {l : List Signer} (h : ks.signers E = .ok l) :
    l.length = ks.keys.length ∧ ∀ s ∈ l, GoodSigner E.C ks.transferable s := by
  unfold KeySet.signers at h
  have h := Res.mapList_ok.mp h
  refine ⟨h.length_eq.symm, fun s hs => ?_⟩
  obtain ⟨i, hi, rfl⟩ := List.mem_iff_getElem.mp hs
  have hl := h.length_eq
  have hr := h.get (by omega) hi
  have := C42_signer E.C hC 0 (some ks.transferable) none none none (some ks.keys[i]) none l[i] hr
    (by intro t ht; cases ht; exact hu _ (List.getElem_mem _)) (by intro b hb; cases hb)
  simpa using this

/-- Signatures by signers in order, numbered from `index`. -/
def InOrder (C : Crypto) (l : List Signer) (ser : Bytes) (index : Nat) (sigs : List Siger) : Prop :=
  sigs.length = l.length ∧ ∀ i sg, sigs[i]? = some sg → ∃ s, l[i]? = some s ∧ sg.i.index = index + i ∧ sg.i.ondex = index + i ∧ index + i < 4096 ∧
    Verfer.verify C s.verfer sg.i.raw ser = .ok true

theorem InOrder.same {C : Crypto} {l : List Signer} {ser : Bytes} {index : Nat} {sigs sigs' : List Siger} (h : InOrder C l ser index sigs)
    (hi : sigs'.map Siger.i = sigs.map Siger.i) : InOrder C l ser index sigs' := by
  obtain ⟨h1, h2⟩ := h
  have hlen : sigs'.length = sigs.length := by simpa using congrArg List.length hi
  refine ⟨hlen.trans h1, fun i sg hsg => ?_⟩
  have hx := congrArg (·[i]?) hi
  simp only [List.getElem?_map, hsg, Option.map_some] at hx
  obtain ⟨g, hg, e⟩ := Option.map_eq_some_iff.mp hx.symm
  rw [← e]
  exact h2 i g hg

theorem signLoop_ok {E : Env} (hC : CryptoOk E.C) {rnd : Nat} {ser : Bytes} {tr : Bool} : ∀ {l : List Signer} {index : Nat} {r : List Siger × Nat},
    (∀ s ∈ l, GoodSigner E.C tr s) → KeySet.signLoop E rnd ser none index l = .ok r → InOrder E.C l ser index r.1 := by
  intro l
  induction l with
  | nil =>
    intro index r _ h
    cases h
    exact ⟨rfl, fun i sg h => by simp at h⟩
  | cons s l ih =>
    intro index r hg h
    unfold KeySet.signLoop at h
    rw [Res.ok_bind] at h
    obtain ⟨sg, hsg, h⟩ := Res.bind_eq_ok.mp h
    obtain ⟨next, hn, h⟩ := Res.bind_eq_ok.mp h
    obtain ⟨r', hr', h⟩ := Res.bind_eq_ok.mp h
    cases h
    have hs := hg s (by simp)
    by_cases hi : index < 4096
    · obtain ⟨sg', h1, h2, -, h3, h4, h5, -⟩ := C42_indexed E.C hC E.chk tr s hs rnd ser false index none hi (.inr hi)
      have e : (Option.map (fun i => i % 2 ^ 32) (none : Option Nat)) = none := rfl
      rw [e, h1] at hsg
      cases hsg
      have hnext : next = index + 1 := by
        unfold addU32 at hn
        rw [if_pos (by omega)] at hn
        exact (Res.ok.inj hn).symm
      subst hnext
      obtain ⟨a, b⟩ := ih (fun s hs => hg s (by simp [hs])) hr'
      refine ⟨by simp [a], ?_⟩
      intro i x hx
      cases i with
      | zero =>
        cases hx
        refine ⟨s, rfl, h4, ?_, hi, ?_⟩
        · simpa using h5
        · rw [← h2]; exact h3
      | succ i =>
        simp only [List.getElem?_cons_succ] at hx ⊢
        obtain ⟨y, y1, y2, y3, y4, y5⟩ := b i x hx
        exact ⟨y, y1, by omega, by omega, by omega, y5⟩
    · have := C42_limits E.C hC E.chk tr s hs rnd ser false index none (.inl (by omega))
      have e : (Option.map (fun i => i % 2 ^ 32) (none : Option Nat)) = none := rfl
      rw [e] at hsg
      rw [hsg] at this
      cases this

theorem sign_at {E : Env} (hC : CryptoOk E.C) {ks : KeySet} (hu : ∀ t ∈ ks.keys, '=' ∉ t) {rnd : Nat} {ser : Bytes} {sigs : List Siger}
    (h : ks.sign E rnd ser none = .ok sigs) : ∃ l, ks.signers E = .ok l ∧ InOrder E.C l ser (ks.offset % 2 ^ 32) sigs := by
  unfold KeySet.sign at h
  obtain ⟨l, hl, h⟩ := Res.bind_eq_ok.mp h
  obtain ⟨r, hr, h⟩ := Res.bind_eq_ok.mp h
  rw [if_neg (by simp)] at h
  cases h
  exact ⟨l, hl, signLoop_ok hC (signers_good hC hu hl).2 hr⟩

theorem made {E : Env} {ks : KeySet} {rnd : Nat} {ser : Bytes} {sigs : List Siger} (h : ks.sign E rnd ser none = .ok sigs) : MadeBy E ks rnd ser sigs := ⟨sigs, h, rfl⟩

theorem sign_ok {E : Env} (hC : CryptoOk E.C) {ks : KeySet} (hu : Usable ks) {rnd : Nat} {ser : Bytes} {sigs : List Siger}
    (h : MadeBy E ks rnd ser sigs) : ∃ l, ks.signers E = .ok l ∧ InOrder E.C l ser 0 sigs := by
  obtain ⟨made, h, hi⟩ := h
  obtain ⟨l, hl, h⟩ := sign_at hC hu.seeds h
  rw [hu.start] at h
  exact ⟨l, hl, h.same hi⟩

theorem verifySigers_of {C : Crypto} {keys : List M} {ser : Bytes} : ∀ {sigs : List Siger},
    (∀ g ∈ sigs, ∃ k, keys[g.i.index]? = some k ∧ Verfer.verify C k g.i.raw ser = .ok true) →
    verifySigers C keys ser sigs = .ok (sigs.map fun g => (g.i.index, g.i.ondex)) := by
  intro sigs
  induction sigs with
  | nil => intro _; rfl
  | cons g l ih =>
    intro h
    obtain ⟨k, hk, hv⟩ := h g (by simp)
    unfold verifySigers
    obtain ⟨hi, -⟩ := List.getElem?_eq_some_iff.mp hk
    rw [if_neg (by omega), hk]
    change (Verfer.verify C k g.i.raw ser >>= _) = _
    rw [hv, Res.ok_bind, ih fun g hg => h g (by simp [hg]), Res.ok_bind]
    rfl

/-- The keys of a key set, as an event that lists their texts reports them. -/
theorem key_back {C : Crypto} (hC : CryptoOk C) {tr : Bool} {s : Signer} (hs : GoodSigner C tr s) {chk : Bool} {q : Str}
    (hq : qb64 chk s.verfer = .ok q) : Verfer.newWithQb64 q = .ok s.verfer ∧ IsB64 q := by
  obtain ⟨suite, vt, vn, pk, hmem, hpk, hv⟩ := hs.key
  have hlen := hC.key suite s.m.raw pk hs.size hpk
  have key : ∀ e ∈ seedSuite, ∀ tr : Bool, (if tr then e.2.2.1 else e.2.2.2) ∈ Verfer.codes ∧
      ((if tr then e.2.2.1 else e.2.2.2), if e.2.1 = .ed25519 then 32 else 33) ∈ fixedCodes := by decide
  obtain ⟨k1, k2⟩ := key _ hmem tr
  dsimp only at k1 k2
  obtain ⟨z, hz⟩ := Saider.wf_digest k2 (Nat.le_of_eq hlen.symm)
  rw [List.take_of_length_le (by omega), ← hv] at hz
  obtain ⟨q', b, h1, -, h3, -⟩ := Number.roundtrip chk hz
  rw [hq] at h1
  cases h1
  refine ⟨?_, (wf_text hz hq).1⟩
  unfold Verfer.newWithQb64 Verfer.new
  have e : Matter.new (some ((none : Option Str).getD (str% "B"))) none none (some q) none = .ok s.verfer := h3
  rw [e, Res.ok_bind]
  unfold Verfer.validateCode
  rw [hv, if_pos (by simpa using k1)]
  rfl

theorem covers_satisfied {chk : Bool} {json : Str → Res Value} {t : Tholder} (h : Accepted chk json t) {n : Nat} (hc : Covers t n) (hn : n < 2 ^ 32)
    {idx : List Nat} (hl : idx = List.range n) : t.satisfy chk idx = .ok true := by
  subst hl
  rcases hc with ⟨k, hk, h1, h2⟩ | ⟨qss, hw, rfl⟩
  · rw [C28_count chk json t h k hk]
    simp [h1, h2]
  · exact C31_everybody chk json t h qss hw hn _ (by simp)

theorem listed_keys {E : Env} (hC : CryptoOk E.C) {ks : KeySet} (hu : Usable ks) {ts : List Str} (h : ks.verfersQb64 E = .ok ts) {s : Sad}
    {o : List (Str × Value)} (ho : s.ked = .obj o) (hf : field (str% "k") s.ked = some (.arr (ts.map .str))) {l : List Signer} (hl : ks.signers E = .ok l) :
    Serder.verfers s = .ok (l.map fun s => s.verfer) := by
  refine (C55_keys s _).mpr ⟨o, ho, .inl ⟨ts, hf, ?_⟩⟩
  unfold KeySet.verfersQb64 KeySet.verfers at h
  rw [hl, Res.ok_bind, Res.ok_bind] at h
  have hg := (signers_good hC hu.seeds hl).2
  replace h := Res.mapList_ok.mp h
  clear hl hf
  rw [List.forall₂_map_left_iff] at h
  rw [List.forall₂_map_right_iff]
  induction h with
  | nil => exact .nil
  | cons h1 h2 ih =>
    exact .cons (key_back hC (hg _ (by simp)) h1).1 (ih fun s hs => hg s (by simp [hs]))

theorem in_order {C : Crypto} {l : List Signer} {ser : Bytes} {sigs : List Siger} (h : InOrder C l ser 0 sigs) :
    verifyGroups C (l.map fun s => s.verfer) ser [.controller sigs] = .ok (sigs.map fun g => (g.i.index, g.i.ondex)) ∧
    sigs.map (fun g => (g.i.index, g.i.ondex)) = (List.range l.length).map fun i => (i, i) := by
  obtain ⟨h1, h2⟩ := h
  constructor
  · unfold verifyGroups
    rw [verifySigers_of, Res.ok_bind]
    · unfold verifyGroups
      rw [Res.ok_bind, List.append_nil]
    · intro g hg
      obtain ⟨i, hi, rfl⟩ := List.mem_iff_getElem.mp hg
      obtain ⟨s, s1, s2, -, -, s4⟩ := h2 i _ (List.getElem?_eq_getElem hi)
      rw [s2, Nat.zero_add]
      exact ⟨s.verfer, by rw [List.getElem?_map, s1]; rfl, s4⟩
  · apply List.ext_getElem?
    intro i
    rw [List.getElem?_map, List.getElem?_map]
    by_cases hi : i < sigs.length
    · obtain ⟨s, -, s2, s3, -⟩ := h2 i _ (List.getElem?_eq_getElem hi)
      rw [List.getElem?_eq_getElem hi, List.getElem?_eq_getElem (by simpa using h1 ▸ hi)]
      simp [s2, s3]
    · rw [List.getElem?_eq_none (by omega), List.getElem?_eq_none (by simp; omega)]
      rfl

theorem in_order_count {C : Crypto} {l : List Signer} {ser : Bytes} {sigs : List Siger} (h : InOrder C l ser 0 sigs) : l.length ≤ 4096 := by
  obtain ⟨h1, h2⟩ := h
  by_contra hl
  obtain ⟨s, -, -, -, h, -⟩ := h2 4096 sigs[4096] (List.getElem?_eq_getElem (by omega))
  omega

theorem latestEst_of {fl : Str → Option Str} {texts : List Str} {log : List Entry} {n : Nat} {e : Entry}
    (hf : List.Forall₂ (Reads fl) texts log) (hn : texts.length ≤ n + 1)
    (ht : ∀ e ∈ log, HasText (str% "t") (str% "icp") e.sad ∨ HasText (str% "t") (str% "rot") e.sad ∨ HasText (str% "t") (str% "ixn") e.sad)
    (h : LatestEst log e) : ∃ raw, latestEst fl texts n = some raw ∧ Reads fl raw e := by
  obtain ⟨a, b, rfl, h1, h2⟩ := h
  obtain ⟨a', raw, b', rfl, -, g2, g3⟩ := forall₂_split (R := fun x y => Reads fl y x) hf.flip
  refine ⟨raw, ?_, g2⟩
  unfold latestEst
  rw [List.take_of_length_le hn, List.find?_eq_some_iff_append]
  refine ⟨(isEst_iff g2 (ht e (by simp))).mpr h1, b'.reverse, a'.reverse, by simp, ?_⟩
  intro x hx
  obtain ⟨i, hi, rfl⟩ := List.mem_iff_getElem.mp (List.mem_reverse.mp hx)
  have hl := g3.length_eq
  have hr := g3.get (by omega) hi
  have := (isEst_iff hr (ht _ (by simp))).not.mpr (h2 _ (List.getElem_mem _))
  simpa using this

/-! ## The builders -/

theorem number_text {n : Nat} {m : M} {h : Str} (hm : Number.newWithNum n = .ok m) (hh : Number.numh m = .ok h) (hn : n < 2 ^ 128) :
    Number.num m = .ok n ∧ Number.newWithNumh h = .ok m ∧ h = Nat.toDigits 16 n := by
  obtain ⟨m', h1, h2, -, ⟨h', h3, h4⟩, -⟩ := C23_lossless true n hn
  rw [hm] at h1
  cases h1
  have h5 := hh
  rw [hh] at h3
  cases h3
  rw [Number.numh, h2, Res.ok_bind] at h5
  exact ⟨h2, h4, (Res.ok.inj h5).symm.trans (fmtNat_eq (by decide) (by decide) n)⟩

theorem interact_ok {E : Env} {pre dig : Str} {sn : Option Nat} {data : Option Value} {version : Option Version} {kind : Option Str} {s : Sad}
    (hn : sn.getD 1 < 2 ^ 128) (h : interact E pre dig sn data version kind = .ok s) : ∃ vs t, Built E.H E.chk
      [(str% "v", .str vs), (str% "t", .str (str% "ixn")), (str% "d", .str []), (str% "i", .str pre), (str% "s", .str t), (str% "p", .str dig),
       (str% "a", data.getD (.arr []))] s ∧ Serder.sn s = .ok (sn.getD 1) ∧ 1 ≤ sn.getD 1 ∧ t = Nat.toDigits 16 (sn.getD 1) := by
  unfold interact at h
  dsimp only at h
  obtain ⟨vs, -, h⟩ := Res.bind_eq_ok.mp h
  obtain ⟨m, hm, h⟩ := Res.bind_eq_ok.mp h
  obtain ⟨k, hk, h⟩ := Res.bind_eq_ok.mp h
  split at h
  · cases h
  · rename_i hk1
    obtain ⟨t, ht, h⟩ := Res.bind_eq_ok.mp h
    obtain ⟨r, hr, h⟩ := Res.bind_eq_ok.mp h
    obtain ⟨a, b, hhex⟩ := number_text hm ht hn
    rw [hk] at a
    cases a
    have hb := built hr h rfl
    refine ⟨vs, t, hb, (C55_sn s _).mpr ⟨t, m, ?_, b, hk⟩, by omega, hhex⟩
    rw [hb.fields _ (by decide) (by decide)]
    simp [field]

end Keride.Sample
