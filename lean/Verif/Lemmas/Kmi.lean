/-
Lemmas about the functions of kmi/mod.rs.
-/
import Verif.Props.Messaging
import Verif.Props.Matter
import Verif.Lemmas.Utf8Inv
import Verif.Props.Salter
import Verif.Spec.Message
import Verif.Lemmas.History
import Verif.Lemmas.BuildArgs

namespace Keride

open Matter Spec Sample Props

/-! ## Texts -/

theorem counterText_b64 {code : Str} {n : Nat} {t : Str} (h : Messaging.counterText code n = .ok t) : IsB64 t := by
  unfold Messaging.counterText at h
  obtain ⟨c, h1, h2⟩ := Res.bind_eq_ok.mp h
  obtain ⟨rfl, z, hw⟩ := Counter.new_iff.mp h1
  rw [Counter.qb64, Counter.infil_wf hw] at h2
  cases h2
  exact isB64_text (Counter.sx_sextets hw)

/-- A signature whose text is short. -/
def ShortSig (g : Siger) : Prop := Written g.i ∧ g.i.code ∈ Siger.codes

theorem short_text {chk : Bool} {g : Siger} (hg : ShortSig g) {t : Str} (h : Indexer.qb64 chk g.i = .ok t) : IsB64 t ∧ t.length ≤ 92 ∧ 4 ∣ t.length := by
  obtain ⟨⟨e, he, raw, index, ondex, hc, hm⟩, hcode⟩ := hg
  obtain ⟨-, s, p1, p2, -⟩ := C16_roundtrip_partial chk e he raw index ondex hc g.i hm
  obtain ⟨s', m', q1, q2, -⟩ := C19_framing chk e he raw index ondex g.i hm
  rw [h] at p1 q1
  cases p1
  cases q1
  refine ⟨p2, ?_⟩
  have key : ∀ c ∈ Siger.codes, ∃ z, Indexer.sizage c = .ok z ∧ z.fs ≠ u32Max ∧ z.fs ≤ 92 ∧ 4 ∣ z.fs := by
    intro c hc
    have : ∀ c ∈ Siger.codes, (match Indexer.sizage c with
        | .ok z => decide (z.fs ≠ u32Max ∧ z.fs ≤ 92 ∧ 4 ∣ z.fs)
        | _ => false) = true := by decide +kernel
    have := this c hc
    split at this
    · exact ⟨_, ‹_›, of_decide_eq_true this⟩
    · cases this
  obtain ⟨z, z1, z2, z3, z4⟩ := key _ hcode
  unfold Indexer.fullSize at q2
  rw [z1, Res.ok_bind, if_pos z2] at q2
  have q2 := Res.ok.inj q2
  rw [← q2]
  exact ⟨z3, z4⟩

theorem sigTexts_short {chk : Bool} : ∀ {l : List Siger} {t : Str}, (∀ g ∈ l, ShortSig g) → Messaging.sigTexts chk l = .ok t →
    IsB64 t ∧ t.length ≤ 92 * l.length ∧ 4 ∣ t.length := by
  intro l
  induction l with
  | nil =>
    intro t _ h
    cases h
    exact ⟨fun c hc => by simp at hc, by simp, by simp⟩
  | cons g l ih =>
    intro t hl h
    unfold Messaging.sigTexts at h
    obtain ⟨a, h1, h⟩ := Res.bind_eq_ok.mp h
    obtain ⟨r, h2, h⟩ := Res.bind_eq_ok.mp h
    cases h
    obtain ⟨p1, p2, p3⟩ := short_text (hl g (by simp)) h1
    obtain ⟨q1, q2, q3⟩ := ih (fun g hg => hl g (by simp [hg])) h2
    refine ⟨fun c hc => ?_, ?_, ?_⟩
    · rcases List.mem_append.mp hc with hc | hc
      · exact p1 c hc
      · exact q1 c hc
    · rw [List.length_append, List.length_cons]; omega
    · rw [List.length_append]; omega

theorem signIndexed_short {C : Crypto} {chk : Bool} {rnd : Nat} {tr : Bool} {s : Signer} (hs : GoodSigner C tr s) {ser : Bytes} {only : Bool} {index : Nat}
    {ondex : Option Nat} {g : Siger} (h : Signer.signIndexed C chk rnd s ser only index ondex = .ok g) : ShortSig g := by
  unfold Signer.signIndexed at h
  obtain ⟨e, he, hcodes, -, honly, hcode, hcase⟩ := indexed_code (seed_cases hs) only index ondex
  rw [hcode, Res.ok_bind] at h
  obtain ⟨sig, -, h⟩ := Res.bind_eq_ok.mp h
  unfold Siger.new at h
  obtain ⟨i, hi, h⟩ := Res.bind_eq_ok.mp h
  obtain ⟨u, -, h⟩ := Res.bind_eq_ok.mp h
  cases h
  change Indexer.newWithCodeAndRaw e.code sig index (if only then none else some (ondex.getD index)) = .ok i at hi
  have hcode : i.code = e.code := by
    obtain ⟨-, -, -, -, rfl⟩ := (sig_new he).mp hi
    rfl
  refine ⟨⟨e, he, sig, index, _, ?_, hi⟩, by rw [hcode]; exact hcodes⟩
  cases only with
  | true => exact .inl rfl
  | false =>
    rcases hcase with ⟨-, -, -, h⟩ | ⟨-, h⟩
    · exact .inr (.inr (by rw [if_neg (by decide), h rfl]))
    · exact .inr (.inl (by omega))

theorem signLoop_short {E : Env} {rnd : Nat} {ser : Bytes} {tr : Bool} {ds : Option (List M)} : ∀ {l : List Signer} {index : Nat} {r : List Siger × Nat},
    (∀ s ∈ l, GoodSigner E.C tr s) → KeySet.signLoop E rnd ser ds index l = .ok r → ∀ g ∈ r.1, ShortSig g := by
  intro l
  induction l with
  | nil =>
    intro index r _ h
    cases h
    simp
  | cons s l ih =>
    intro index r hg h
    unfold KeySet.signLoop at h
    obtain ⟨o, -, h⟩ := Res.bind_eq_ok.mp h
    obtain ⟨sg, hsg, h⟩ := Res.bind_eq_ok.mp h
    obtain ⟨next, -, h⟩ := Res.bind_eq_ok.mp h
    obtain ⟨r', hr', h⟩ := Res.bind_eq_ok.mp h
    cases h
    intro g hgm
    rcases List.mem_cons.mp hgm with rfl | hgm
    · exact signIndexed_short (hg s (by simp)) hsg
    · exact ih (fun s hs => hg s (by simp [hs])) hr' g hgm

theorem sign_short {E : Env} (hC : CryptoOk E.C) {ks : KeySet} (hu : ∀ t ∈ ks.keys, '=' ∉ t) {rnd : Nat} {ser : Bytes} {ds : Option (List M)} {sigs : List Siger}
    (h : ks.sign E rnd ser ds = .ok sigs) : ∀ g ∈ sigs, ShortSig g := by
  unfold KeySet.sign at h
  obtain ⟨l, hl, h⟩ := Res.bind_eq_ok.mp h
  obtain ⟨r, hr, h⟩ := Res.bind_eq_ok.mp h
  split at h
  · cases h
  · cases h
    exact signLoop_short (signers_good hC hu hl).2 hr

/-- The group `-A` of signatures, as the code writes it. -/
theorem group_text {chk : Bool} {l : List Siger} (hl : ∀ g ∈ l, ShortSig g) {c t : Str} (hc : Messaging.counterText (str% "-A") l.length = .ok c)
    (ht : Messaging.sigTexts chk l = .ok t) (hn : l.length < 2 ^ 32) :
    IsB64 (c ++ t) ∧ (c ++ t).length ≤ 4 + 92 * 4095 ∧ 4 ∣ (c ++ t).length ∧ ∀ rest, StartsWithGroup chk (str% "-A") (l.map Siger.i) (c ++ t ++ rest) rest := by
  obtain ⟨h1, h2, -⟩ := counterText_ok hc hn
  obtain ⟨t1, t2, t3⟩ := sigTexts_short hl ht
  have hsz : Counter.fullSize ⟨str% "-A", l.length⟩ = .ok 4 := by
    have : Counter.sizage (str% "-A") = .ok ⟨2, 2, 4, 0⟩ := by decide
    unfold Counter.fullSize
    rw [this]
    rfl
  rw [hsz] at h2
  have h2 := Res.ok.inj h2
  have hmax : l.length ≤ 4095 := by
    obtain ⟨-, z, hw⟩ := Counter.new_iff.mp h1
    have := hw.2
    have e : Counter.sizage (str% "-A") = .ok z := hw.1
    have e' : Counter.sizage (str% "-A") = .ok ⟨2, 2, 4, 0⟩ := by decide
    rw [e'] at e
    cases e
    simp only at this
    omega
  refine ⟨fun x hx => ?_, ?_, ?_, group_reads hc ht (fun g hg => (hl g hg).1) hn⟩
  · rcases List.mem_append.mp hx with hx | hx
    · exact counterText_b64 hc x hx
    · exact t1 x hx
  · rw [List.length_append]; omega
  · rw [List.length_append]; omega

theorem framed_of {body c : Str} (hb : IsB64 body) (hlen : body.length < 2 ^ 34) (h4 : 4 ∣ body.length) (hc : Messaging.counterText (str% "-V") (body.len / 4) = .ok c) :
    Framed body (c ++ body) := by
  have hl : body.len = body.length := hb.ascii.len
  rw [hl] at hc
  obtain ⟨-, h2, h3⟩ := counterText_ok hc (by omega)
  have hsz : Counter.fullSize ⟨str% "-V", body.length / 4⟩ = .ok 4 := by
    have : Counter.sizage (str% "-V") = .ok ⟨2, 2, 4, 0⟩ := by decide
    unfold Counter.fullSize
    rw [this]
    rfl
  rw [hsz] at h2
  refine ⟨c, rfl, (Res.ok.inj h2).symm, ?_, ?_⟩
  · rw [toUtf8_length, hl]; exact h4
  · rw [toUtf8_length, hl]; exact h3

theorem message_ok {chk : Bool} {s : Sad} {sigs : List Siger} {e m : Str} (hshort : ∀ g ∈ sigs, ShortSig g) (hn : sigs.length < 2 ^ 32)
    (he : endorseSerder chk (some sigs) none none none = .ok e) (h : messagizeSerder s e (some true) = .ok m) : SignedMessage chk s sigs m := by
  unfold endorseSerder at he
  rw [if_neg (by simp)] at he
  obtain ⟨a, ha, he⟩ := Res.bind_eq_ok.mp he
  dsimp only at ha he
  rw [Res.ok_bind, Res.ok_bind] at he
  cases he
  obtain ⟨hd, hhd, ha⟩ := Res.bind_eq_ok.mp ha
  cases hhd
  obtain ⟨c, hc, ha⟩ := Res.bind_eq_ok.mp ha
  obtain ⟨t, ht, ha⟩ := Res.bind_eq_ok.mp ha
  cases ha
  obtain ⟨g1, g2, g3, g4⟩ := group_text hshort hc ht hn
  unfold messagizeSerder at h
  obtain ⟨ev, hev, h⟩ := Res.bind_eq_ok.mp h
  obtain ⟨v, hv, h⟩ := Res.bind_eq_ok.mp h
  rw [show (some true).getD false = true from rfl, if_pos rfl] at hv
  split at hv
  · cases hv
  · cases h
    simp only [List.nil_append, List.append_nil] at hv ⊢
    refine ⟨ev, v ++ (c ++ t), c ++ t, ?_, by simp, framed_of g1 (by omega) g3 hv, g4⟩
    exact fromUtf8_ok hev

/-- A signature without the key it was made with. -/
def Siger.bare (g : Siger) : Siger := ⟨g.i, Verfer.default⟩

theorem bare_same (l : List Siger) : (l.map Siger.bare).map Siger.i = l.map Siger.i := by
  rw [List.map_map]
  rfl

theorem bare_read {l : List Siger} (h : ∀ g ∈ l, ShortSig g) {g : Siger} (hg : g ∈ l.map Siger.bare) : FromText g := by
  obtain ⟨x, hx, rfl⟩ := List.mem_map.mp hg
  exact ⟨(h x hx).2, rfl⟩

theorem _root_.Keride.Spec.SignedMessage.same {chk : Bool} {s : Sad} {sigs sigs' : List Siger} {m : Str} (h : SignedMessage chk s sigs m)
    (hi : sigs'.map Siger.i = sigs.map Siger.i) : SignedMessage chk s sigs' m := by
  unfold SignedMessage
  rw [hi]
  exact h

theorem signedMessage_at {E : Env} (hC : CryptoOk E.C) {ks : KeySet} (hu : ∀ t ∈ ks.keys, '=' ∉ t) {rnd : Nat} {s : Sad} {m : Str}
    (h : signedMessage E rnd ks s = .ok m) :
    ∃ sigs l, MadeBy E ks rnd s.raw sigs ∧ ks.signers E = .ok l ∧ InOrder E.C l s.raw (ks.offset % 2 ^ 32) sigs ∧ SignedMessage E.chk s sigs m ∧
      ∀ g ∈ sigs, FromText g := by
  unfold signedMessage at h
  obtain ⟨sigs, hs, h⟩ := Res.bind_eq_ok.mp h
  obtain ⟨e, he, h⟩ := Res.bind_eq_ok.mp h
  obtain ⟨l, hl, hin⟩ := sign_at hC hu hs
  have hshort := sign_short hC hu hs
  refine ⟨sigs.map Siger.bare, l, ⟨sigs, hs, bare_same sigs⟩, hl, hin.same (bare_same sigs), (message_ok hshort ?_ he h).same (bare_same sigs), fun g hg => bare_read hshort hg⟩
  obtain ⟨h1, h2⟩ := hin
  by_contra hge
  have hx : 4096 < sigs.length := by omega
  obtain ⟨-, -, -, -, h3, -⟩ := h2 4096 _ (List.getElem?_eq_getElem hx)
  omega

theorem signedMessage_ok {E : Env} (hC : CryptoOk E.C) {ks : KeySet} (hu : Usable ks) {rnd : Nat} {s : Sad} {m : Str} (h : signedMessage E rnd ks s = .ok m) :
    ∃ sigs, MadeBy E ks rnd s.raw sigs ∧ SignedMessage E.chk s sigs m ∧ ∀ g ∈ sigs, FromText g := by
  obtain ⟨sigs, l, h1, -, -, h2⟩ := signedMessage_at hC hu.seeds h
  exact ⟨sigs, h1, h2⟩

/-! ## Key sets -/

theorem signers_usable {E : Env} {S : Stretch} {salter : Salter} {code : Option Str} {count : Option Nat} {start : Option Nat} {tr : Option Bool} {path : Option Str}
    {tier : Option Str} {temp : Option Bool} {sg : List Signer} {keys : List Str} (hsg : Salter.signers E.C S salter count start path code tr tier temp = .ok sg)
    (hk : Res.mapList (fun s : Signer => qb64 E.chk s.m) sg = .ok keys) : (∀ t ∈ keys, '=' ∉ t) ∧ keys.length = count.getD 1 := by
  have hk := Res.mapList_ok.mp hk
  refine ⟨?_, ?_⟩
  · intro t ht
    obtain ⟨i, hi, rfl⟩ := List.mem_iff_getElem.mp ht
    have hl := hk.length_eq
    have hr := hk.get (by omega) hi
    unfold Salter.signers at hsg
    have hf := Res.mapList_ok.mp hsg
    have hlen := hf.length_eq
    have hs := hf.get (by omega) (show i < sg.length by omega)
    unfold Salter.signer at hs
    dsimp only at hs
    obtain ⟨sz, -, hs⟩ := Res.bind_eq_ok.mp hs
    obtain ⟨seed, -, hs⟩ := Res.bind_eq_ok.mp hs
    unfold Signer.new at hs
    obtain ⟨m, hm, hs⟩ := Res.bind_eq_ok.mp hs
    obtain ⟨v, -, hs⟩ := Res.bind_eq_ok.mp hs
    rw [if_pos (by simp)] at hm
    dsimp only at hm
    obtain ⟨u, hv, hm⟩ := Res.bind_eq_ok.mp hm
    rw [Res.ok_bind] at hm
    change newWithCodeAndRaw (code.getD (str% "A")) seed = _ at hm
    have hc : code.getD (str% "A") ∈ matterCodes := by
      rcases seed_codes.mp hv with h | h | h <;> (change code.getD (str% "A") = _ at h; rw [h]; decide +kernel)
    obtain ⟨n, s, b, -, h2, -, -, -, -, -, h3⟩ := C06_full_size E.chk _ _ _ hc hm
    have hs := Res.ok.inj hs
    simp only [List.get_eq_getElem] at hr hs
    rw [← hs] at hr
    rw [h2] at hr
    cases hr
    intro hmem
    exact absurd (h3 _ hmem) (by decide)
  · rw [← hk.length_eq, ← (Res.mapList_ok.mp hsg).length_eq, List.length_range]

theorem generate_usable {E : Env} {S : Stretch} {rnd : Nat} {code : Option Str} {count : Option Nat} {offset : Nat} {tr : Option Bool} {path : Str} {tier : Option Str}
    {temp : Option Bool} {ks : KeySet} (h : KeySet.generate E S rnd code count offset tr path tier temp = .ok ks) :
    (∀ t ∈ ks.keys, '=' ∉ t) ∧ ks.offset = offset ∧ ks.transferable = tr.getD false ∧ ks.keys.length = count.getD 1 := by
  unfold KeySet.generate at h
  obtain ⟨salter, -, h⟩ := Res.bind_eq_ok.mp h
  obtain ⟨sg, hsg, h⟩ := Res.bind_eq_ok.mp h
  obtain ⟨keys, hk, h⟩ := Res.bind_eq_ok.mp h
  cases h
  obtain ⟨h1, h2⟩ := signers_usable hsg hk
  exact ⟨h1, rfl, rfl, h2⟩

theorem fromSalt_usable {E : Env} {S : Stretch} {salt : Bytes} {code : Option Str} {count : Option Nat} {offset : Nat} {tr : Option Bool} {path : Str}
    {tier : Option Str} {temp : Option Bool} {ks : KeySet} (h : KeySet.generateFromSalt E S salt code count offset tr path tier temp = .ok ks) :
    (∀ t ∈ ks.keys, '=' ∉ t) ∧ ks.offset = offset ∧ ks.transferable = tr.getD false ∧ ks.keys.length = count.getD 1 := by
  unfold KeySet.generateFromSalt at h
  obtain ⟨salter, -, h⟩ := Res.bind_eq_ok.mp h
  obtain ⟨sg, hsg, h⟩ := Res.bind_eq_ok.mp h
  obtain ⟨keys, hk, h⟩ := Res.bind_eq_ok.mp h
  cases h
  obtain ⟨h1, h2⟩ := signers_usable hsg hk
  exact ⟨h1, rfl, rfl, h2⟩

/-! ## Events that can be sent -/

theorem properArr_iff {F : Str → Prop} : ∀ {l : List Value}, ProperArr F l ↔ ∀ v ∈ l, Proper F v
  | [] => by simp [ProperArr]
  | v :: l => by simp [ProperArr, properArr_iff (l := l)]

theorem properObj_iff {F : Str → Prop} : ∀ {l : List (Str × Value)}, ProperObj F l ↔ ∀ e ∈ l, Proper F e.2
  | [] => by simp [ProperObj]
  | e :: l => by obtain ⟨k, v⟩ := e; simp [ProperObj, properObj_iff (l := l)]

theorem nestingArr_le {n : Nat} : ∀ {l : List Value}, nestingArr l ≤ n ↔ ∀ v ∈ l, nesting v ≤ n
  | [] => by simp [nestingArr]
  | v :: l => by simp [nestingArr, nestingArr_le (l := l)]

theorem nestingObj_le {n : Nat} : ∀ {l : List (Str × Value)}, nestingObj l ≤ n ↔ ∀ e ∈ l, nesting e.2 ≤ n
  | [] => by simp [nestingObj]
  | e :: l => by obtain ⟨k, v⟩ := e; simp [nestingObj, nestingObj_le (l := l)]

/-- A value that can be part of an event. -/
def Fine (v : Value) : Prop := Plain v ∧ nesting v ≤ 126

theorem fine_str (t : Str) : Fine (.str t) := ⟨by simp [Plain, Proper], by simp [nesting]⟩

theorem fine_texts (l : List Str) : Fine (Sample.texts l) := by
  constructor
  · unfold Sample.texts Plain
    rw [Proper, properArr_iff]
    intro v hv
    obtain ⟨t, -, rfl⟩ := List.mem_map.mp hv
    exact (fine_str t).1
  · unfold Sample.texts
    rw [nesting]
    have : nestingArr (l.map Value.str) ≤ 0 := nestingArr_le.mpr fun v hv => by
      obtain ⟨t, -, rfl⟩ := List.mem_map.mp hv
      simp [nesting]
    omega

theorem fine_arr {l : List Value} (h : ∀ v ∈ l, Plain v ∧ nesting v ≤ 125) : Fine (.arr l) := by
  constructor
  · unfold Plain
    rw [Proper, properArr_iff]
    exact fun v hv => (h v hv).1
  · rw [nesting]
    have : nestingArr l ≤ 125 := nestingArr_le.mpr fun v hv => (h v hv).2
    omega

theorem fine_thold {chk : Bool} {json : Str → Res Value} {v0 v : Value} {t : Tholder} (h : Tholder.newWithSith chk json v0 = .ok t)
    (hf : tholdField t false = .ok v) : Fine v := by
  have hacc : Accepted chk json t := ⟨none, none, some v0, h⟩
  have hf : t.sith = .ok v := by
    unfold tholdField at hf
    obtain ⟨n, hn, hf⟩ := Res.bind_eq_ok.mp hf
    cases n with
    | none => exact hf
    | some k => simpa using hf
  have inner : ∀ c : List Ratio, ∀ v ∈ c.map (fun w => Value.str (Tholder.weightText w)), Plain v ∧ nesting v ≤ 0 := by
    intro c v hv
    obtain ⟨w, -, rfl⟩ := List.mem_map.mp hv
    exact ⟨(fine_str _).1, by simp [nesting]⟩
  rcases accepted_wf hacc with ⟨n, hw⟩ | ⟨rs, hrs⟩
  · obtain ⟨h1, -⟩ := Tholder.sith_numeric chk json hw
    rw [hf] at h1
    cases h1
    exact fine_str _
  · have hne : rs ≠ [] := by
      rintro rfl
      have := (C31_nonempty chk json t).1 _ h
      rw [hrs.thold] at this
      exact this rfl
    obtain ⟨v', v1, -, v2, v3⟩ := Tholder.sith_weighted json hrs hne
    rw [hf] at v1
    cases v1
    by_cases h1 : rs.length = 1
    · obtain ⟨c, rfl⟩ := List.length_eq_one_iff.mp h1
      rw [v2 c rfl]
      exact fine_arr fun v hv => ⟨(inner c v hv).1, by have := (inner c v hv).2; omega⟩
    · rw [v3 h1, hrs.thold]
      unfold Tholder.tholdOf
      refine fine_arr fun v hv => ?_
      obtain ⟨c, -, rfl⟩ := List.mem_map.mp hv
      constructor
      · unfold Plain
        rw [Proper, properArr_iff]
        exact fun v hv => (inner c v hv).1
      · rw [nesting]
        have : nestingArr (c.map fun w => Value.str (Tholder.weightText w)) ≤ 0 := nestingArr_le.mpr fun v hv => (inner c v hv).2
        omega

theorem fine_toad {m : M} {bt : Value} (h : toadField m false = .ok bt) : Fine bt := by
  unfold toadField at h
  obtain ⟨n, -, h⟩ := Res.bind_eq_ok.mp h
  rw [if_neg (by simp)] at h
  obtain ⟨x, -, h⟩ := Res.bind_eq_ok.mp h
  cases h
  exact fine_str _

theorem find_mem {o : List (Str × Value)} (hn : (o.map Prod.fst).Nodup) {e : Str × Value} (he : e ∈ o) : field e.1 (.obj o) = some e.2 := by
  unfold field
  dsimp only
  induction o with
  | nil => simp at he
  | cons x o ih =>
    rw [List.map_cons, List.nodup_cons] at hn
    rcases List.mem_cons.mp he with rfl | he
    · simp
    · have hne : x.1 ≠ e.1 := fun h => hn.1 (h ▸ List.mem_map.mpr ⟨e, he, rfl⟩)
      rw [List.find?_cons_of_neg (by simpa using hne)]
      exact ih hn.2 he

theorem sendable_of {o : List (Str × Value)} {s : Sad} (keys : ∃ o', s.ked = .obj o' ∧ o'.map Prod.fst = o.map Prod.fst) (hn : (o.map Prod.fst).Nodup)
    (hf : ∀ k ∈ o.map Prod.fst, ∃ v, field k s.ked = some v ∧ Fine v) (hs : s.raw.length < 2 ^ 32) : Sendable s := by
  obtain ⟨o', ho, hk⟩ := keys
  rw [← hk] at hn
  have key : ∀ e ∈ o', Fine e.2 := by
    intro e he
    obtain ⟨v, h1, h2⟩ := hf e.1 (hk ▸ List.mem_map.mpr ⟨e, he, rfl⟩)
    rw [ho, find_mem hn he] at h1
    cases h1
    exact h2
  refine ⟨?_, ?_, hs⟩
  · rw [ho]
    unfold Plain
    rw [Proper, properObj_iff]
    exact ⟨hn, fun e he => (key e he).1⟩
  · rw [ho, nesting]
    have : nestingObj o' ≤ 126 := nestingObj_le.mpr fun e he => (key e he).2
    omega

theorem sendable_built {H : Hash} {chk : Bool} {o : List (Str × Value)} {s : Sad} (hb : Built H chk o s) (hn : (o.map Prod.fst).Nodup) (hf : ∀ e ∈ o, Fine e.2)
    (hs : s.raw.length < 2 ^ 32) : Sendable s := by
  refine sendable_of hb.keys hn (fun k hk => ?_) hs
  by_cases h1 : k = str% "d"
  · obtain ⟨q, -, h, -⟩ := hb.said
    exact ⟨_, h1 ▸ h, fine_str _⟩
  · by_cases h2 : k = str% "v"
    · exact ⟨_, h2 ▸ hb.version, fine_str _⟩
    · obtain ⟨e, he, rfl⟩ := List.mem_map.mp hk
      exact ⟨e.2, by rw [hb.fields _ h1 h2, find_mem hn he], hf e he⟩

theorem sendable_incepted {H : Hash} {chk : Bool} {o : List (Str × Value)} {s : Sad} {pre : Str} (hb : Incepted H chk o s pre) (hn : (o.map Prod.fst).Nodup)
    (hf : ∀ e ∈ o, Fine e.2) (hs : s.raw.length < 2 ^ 32) : Sendable s := by
  refine sendable_of hb.keys hn (fun k hk => ?_) hs
  by_cases h1 : k = str% "d"
  · exact ⟨_, h1 ▸ hb.said, fine_str _⟩
  · by_cases h2 : k = str% "v"
    · exact ⟨_, h2 ▸ hb.version, fine_str _⟩
    · by_cases h3 : k = str% "i"
      · exact ⟨_, h3 ▸ hb.names, fine_str _⟩
      · obtain ⟨e, he, rfl⟩ := List.mem_map.mp hk
        exact ⟨e.2, by rw [hb.fields _ h1 h2 h3, find_mem hn he], hf e he⟩

/-! ## Thresholds -/

theorem askable_covers {chk : Bool} {json : Str → Res Value} {sith : Option Value} {i : Int} {t : Tholder} {n : Nat} (ha : Askable sith n)
    (h : Tholder.newWithSith chk json (sith.getD (.int i)) = .ok t) (hs : t.size ≤ n) (hk : ∃ k, t.num = .ok k ∧ 1 ≤ k.getD 1) : Covers t n := by
  rcases ha with rfl | ⟨j, rfl⟩ | ⟨v, qss, rfl, h1, h2, rfl⟩ | ⟨v, qs, rfl, h1, h2, rfl⟩
  · exact number_covers h ⟨_, rfl⟩ (sensible_of h hs hk)
  · exact number_covers h ⟨_, rfl⟩ (sensible_of h hs hk)
  · exact .inr ⟨qss, ((C29_input chk json v t).1 qss h1 h2 h).2.1, rfl⟩
  · exact .inr ⟨[qs], ((C29_input chk json v t).2.1 qs h1 h2 h).2.1, by simp [positions]⟩

end Keride
