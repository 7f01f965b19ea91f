/-
Lemmas about `issue_acdc` and `revoke_acdc` of acdc/mod.rs.
-/
import Verif.Lemmas.Kmi
import Verif.Props.Credential
import Verif.Props.Kmi
import Verif.Spec.Send

namespace Keride

open Matter Spec Sample Props

/-! ## Elements of texts -/

theorem item_wf {chk : Bool} {m : M} {z : Sizage} (hw : Wf m z) {t : Str} (h : qb64 chk m = .ok t) : Item m t ∧ IsB64 t ∧ 4 ∣ t.length := by
  rw [qb64, infil_wf chk hw] at h
  have h := Res.ok.inj h
  subst h
  obtain ⟨hm, -⟩ := fsz_facts hw
  have hl : (b64Text (sx m z)).length = fsz m z := by rw [b64Text_length, sx_length hw]
  refine ⟨⟨exfil_text hw, ?_⟩, isB64_sx hw, ?_⟩
  · rw [fullSize_wf hw, hl]
  · rw [hl]; exact Nat.dvd_of_mod_eq_zero hm

theorem item_digest {chk : Bool} {m : M} (hc : m.code = str% "E") (hl : m.raw.length = 32) (hs : m.size = 0) {t : Str} (h : qb64 chk m = .ok t) :
    Item m t ∧ IsB64 t ∧ t.length = 44 := by
  obtain ⟨z, hw⟩ := Saider.wf_digest (c := str% "E") (n := 32) (d := m.raw) (by decide) (by omega)
  have e : (⟨str% "E", 0, m.raw.take 32⟩ : M) = m := by
    rw [List.take_of_length_le (by omega), ← hc, ← hs]
  rw [e] at hw
  obtain ⟨h1, h2, -⟩ := item_wf hw h
  refine ⟨h1, h2, ?_⟩
  have h3 := h1.2
  unfold Matter.fullSize at h3
  have ez : sizage (str% "E") = .ok ⟨1, 0, 44, 0⟩ := rfl
  rw [hc, ez, Res.ok_bind, if_pos (by decide)] at h3
  exact (Res.ok.inj h3).symm

theorem item_seqner {chk : Bool} {n : Nat} {m : M} (hm : Seqner.newWithSn n = .ok m) {t : Str} (h : qb64 chk m = .ok t) : Item m t ∧ IsB64 t ∧ t.length = 24 := by
  rw [Seqner.newWithSn_eq] at hm
  have hm := Res.ok.inj hm
  subst hm
  obtain ⟨z, hw⟩ := Number.wf_fixed_mk (c := str% "0A") (k := 16) (raw := beBytes 16 n) (by decide) (by simp)
  obtain ⟨h1, h2, -⟩ := item_wf hw h
  refine ⟨h1, h2, ?_⟩
  have h3 := h1.2
  unfold Matter.fullSize at h3
  have ez : sizage (str% "0A") = .ok ⟨2, 0, 24, 0⟩ := rfl
  dsimp only at h3
  rw [ez, Res.ok_bind, if_pos (by decide)] at h3
  exact (Res.ok.inj h3).symm

theorem count_item {code : Str} {t : Str} (hz : Counter.sizage code = .ok ⟨2, 2, 4, 0⟩) (h : Messaging.counterText code 1 = .ok t) : CountItem code 1 t ∧ IsB64 t := by
  obtain ⟨-, h2, h3⟩ := counterText_ok h (by decide)
  refine ⟨⟨?_, h3⟩, counterText_b64 h⟩
  unfold Counter.fullSize at h2
  rw [hz, Res.ok_bind] at h2
  exact (Res.ok.inj h2).symm

/-- The SAID of an event that was read. -/
theorem said_item {E : Env} {raw : Bytes} {s : Sad} (hr : Serder.newWithRaw E.fl raw = .ok s) {q : Str} (hq : Sadder.said E.chk s = .ok q) :
    Item s.saider q ∧ IsB64 q ∧ q.length = 44 := by
  obtain ⟨-, -, -, -, -, -, d, -, hd, hc⟩ := C39_partial E.fl raw s hr
  obtain ⟨-, h2, h3⟩ := digest_back hd hc hq
  exact item_digest hc h2 h3 hq

theorem b64_append {a b : Str} (ha : IsB64 a) (hb : IsB64 b) : IsB64 (a ++ b) := by
  intro x hx
  rcases List.mem_append.mp hx with hx | hx
  · exact ha x hx
  · exact hb x hx

theorem couple_ok {E : Env} {sn : Nat} {said t : Str} {m : M} (hsaid : Item m said) (hsn : sn < 2 ^ 128) (h : coupleText E sn said = .ok t) :
    ∃ c : M, CoupleText t (c, m) ∧ Seqner.sn c = .ok sn := by
  unfold coupleText at h
  obtain ⟨k, hk, h⟩ := Res.bind_eq_ok.mp h
  obtain ⟨c, hc, h⟩ := Res.bind_eq_ok.mp h
  obtain ⟨a, ha, h⟩ := Res.bind_eq_ok.mp h
  cases h
  obtain ⟨c', e1, e2, -⟩ := C25_lossless E.chk sn hsn
  rw [hc] at e1
  cases e1
  exact ⟨c, ⟨k, a, said, by simp, (count_item rfl hk).1, (item_seqner hc ha).1, hsaid⟩, e2⟩

theorem root_item {chk : Bool} {m : M} (hm : Pather.newWithPath (.arr []) = .ok m) {t : Str} (h : qb64 chk m = .ok t) : Item m t ∧ IsB64 t ∧ t.length = 8 := by
  have e : Pather.newWithPath (.arr []) = .ok ⟨str% "6A", 1, [62]⟩ := by decide +kernel
  rw [e] at hm
  have hm := Res.ok.inj hm
  subst hm
  have hw : Wf ⟨str% "6A", 1, [62]⟩ ⟨2, 2, u32Max, 2⟩ := ⟨by decide, fun h => absurd rfl h, fun _ => ⟨by decide, by decide⟩⟩
  obtain ⟨h1, h2, -⟩ := item_wf hw h
  refine ⟨h1, h2, ?_⟩
  have h3 := h1.2
  rw [fullSize_wf hw] at h3
  rw [← Res.ok.inj h3]
  decide

theorem proof_text {chk : Bool} {pre said proof : Str} {seqner prefixer saider : M} {sn : Nat} {sigers : List Siger} (hpre : Item prefixer pre ∧ IsB64 pre ∧ pre.length = 44)
    (hsaid : Item saider said ∧ IsB64 said ∧ said.length = 44) (hsn : Seqner.newWithSn sn = .ok seqner) (hsig : ∀ g ∈ sigers, ShortSig g) (hlen : sigers.length < 2 ^ 32)
    (h : ratifyCreder chk pre seqner said sigers = .ok proof) {c : Sad} {m : Str} (hm : messagizeCreder c proof = .ok m) :
    ∃ text att pather, c.raw = toUtf8 text ∧ m = text ++ att ∧ Pather.newWithPath (.arr []) = .ok pather ∧ ProofText chk att ⟨pather, prefixer, seqner, saider, sigers.map Siger.bare⟩ := by
  unfold ratifyCreder at h
  obtain ⟨k0, hk0, h⟩ := Res.bind_eq_ok.mp h
  obtain ⟨pather, hp, h⟩ := Res.bind_eq_ok.mp h
  obtain ⟨k, hk, h⟩ := Res.bind_eq_ok.mp h
  obtain ⟨p, hpt, h⟩ := Res.bind_eq_ok.mp h
  obtain ⟨k', hk', h⟩ := Res.bind_eq_ok.mp h
  obtain ⟨n, hn, h⟩ := Res.bind_eq_ok.mp h
  obtain ⟨ct, hct, h⟩ := Res.bind_eq_ok.mp h
  obtain ⟨t, ht, h⟩ := Res.bind_eq_ok.mp h
  have h := Res.ok.inj h
  have hkk : Messaging.counterText (str% "-J") 1 = .ok k := by
    unfold Messaging.counterText
    rw [show (1 : Nat) % 2 ^ 32 = 1 from rfl, hk0, Res.ok_bind, hk]
  obtain ⟨a1, a2⟩ := count_item (by decide) hkk
  obtain ⟨b1, b2, b3⟩ := root_item hp hpt
  obtain ⟨c1, c2⟩ := count_item (by decide) hk'
  obtain ⟨d1, d2, d3⟩ := item_seqner hsn hn
  obtain ⟨g1, g2, g3, g4⟩ := group_text hsig hct ht hlen
  have hbody : proof = k ++ (p ++ (k' ++ (pre ++ (n ++ (said ++ (ct ++ t)))))) := by rw [← h]; simp
  unfold messagizeCreder at hm
  obtain ⟨text, htext, hm⟩ := Res.bind_eq_ok.mp hm
  split at hm
  · cases hm
  obtain ⟨v, hv, hm⟩ := Res.bind_eq_ok.mp hm
  have hm := Res.ok.inj hm
  refine ⟨text, v ++ proof, pather, fromUtf8_ok htext, by rw [← hm]; simp, hp, fun g hg => bare_read hsig hg, proof, k, p, k', pre, n, said, ct ++ t, ?_, hbody, a1, b1, c1, hpre.1, d1,
    hsaid.1, by rw [bare_same]; exact g4⟩
  have hb64 : IsB64 proof := by
    rw [hbody]
    exact b64_append a2 (b64_append b2 (b64_append c2 (b64_append hpre.2.1 (b64_append d2 (b64_append hsaid.2.1 g1)))))
  have hlen' : proof.length = k.length + (p.length + (k'.length + (pre.length + (n.length + (said.length + (ct ++ t).length))))) := by rw [hbody]; simp
  have hsmall : proof.length < 2 ^ 32 := by
    rw [hlen', a1.1, c1.1, hpre.2.2, hsaid.2.2, b3, d3]
    omega
  rw [Nat.mod_eq_of_lt (by rw [hb64.ascii.len]; exact hsmall)] at hv
  refine framed_of hb64 (by omega) ?_ hv
  rw [hlen', a1.1, c1.1, hpre.2.2, hsaid.2.2, b3, d3]
  omega

/-! ## What is sent -/

theorem insert_mem {k : Str} {v : Value} : ∀ {l : List (Str × Value)} {e : Str × Value}, e ∈ Value.insert k v l → e = (k, v) ∨ e ∈ l := by
  intro l
  induction l with
  | nil => intro e he; simpa [Value.insert] using he
  | cons x l ih =>
    obtain ⟨k', v'⟩ := x
    intro e he
    unfold Value.insert at he
    split at he
    · rename_i hk
      rcases List.mem_cons.mp he with rfl | he
      · left; rw [hk]
      · right; simp [he]
    · rcases List.mem_cons.mp he with rfl | he
      · right; simp
      · rcases ih he with h | h
        · exact .inl h
        · right; simp [h]

theorem fold_mem {e : Str × Value} : ∀ {data s : List (Str × Value)}, e ∈ data.foldl (fun s e => Value.insert e.1 e.2 s) s → e ∈ data ∨ e ∈ s := by
  intro data
  induction data with
  | nil => intro s h; exact .inr h
  | cons x l ih =>
    intro s h
    rw [List.foldl_cons] at h
    rcases ih h with h | h
    · left; simp [h]
    · rcases insert_mem h with h | h
      · left; simp [h]
      · exact .inr h

theorem fold_nodup : ∀ {data s : List (Str × Value)}, (s.map Prod.fst).Nodup → ((data.foldl (fun s e => Value.insert e.1 e.2 s) s).map Prod.fst).Nodup := by
  intro data
  induction data with
  | nil => intro s h; exact h
  | cons x l ih => intro s h; exact ih (insert_nodup h)

/-- A value in the subject of a credential. -/
def Deep (v : Value) : Prop := Plain v ∧ nesting v ≤ 125

theorem deep_str (t : Str) : Deep (.str t) := ⟨by simp [Plain, Proper], by simp [nesting]⟩

theorem find_entry {k : Str} {v : Value} : ∀ {l : List (Str × Value)}, Value.find k l = some v → (k, v) ∈ l := by
  intro l
  induction l with
  | nil => intro h; cases h
  | cons x l ih =>
    obtain ⟨k', v'⟩ := x
    intro h
    unfold Value.find at h
    split at h
    · rename_i hk
      cases h
      simp [hk]
    · simp [ih h]

theorem subject_fine {u recipient : Option Str} {now : Str} {data : List (Str × Value)} (h : Fine (.obj data)) :
    ((subjectDoc u recipient now data).map Prod.fst).Nodup ∧ ∀ e ∈ subjectDoc u recipient now data, Deep e.2 := by
  have hd : ∀ e ∈ data, Deep e.2 := by
    obtain ⟨h1, h2⟩ := h
    unfold Plain at h1
    rw [Proper, properObj_iff] at h1
    rw [nesting] at h2
    have h2 : nestingObj data ≤ 125 := by omega
    exact fun e he => ⟨h1.2 e he, nestingObj_le.mp h2 e he⟩
  constructor
  · unfold subjectDoc
    refine fold_nodup (insert_nodup ?_)
    cases u <;> cases recipient <;> simp [entry]
  · intro e he
    unfold subjectDoc at he
    rcases fold_mem he with he | he
    · exact hd e he
    · rcases insert_mem he with rfl | he
      · dsimp only
        cases hf : Value.find (str% "dt") data with
        | none => exact deep_str _
        | some v => exact hd _ (find_entry hf)
      · cases u <;> cases recipient <;> simp [entry] at he
        · rw [he]; exact deep_str _
        · rcases he with rfl | rfl <;> exact deep_str _
        · rcases he with rfl | rfl <;> exact deep_str _
        · rcases he with rfl | rfl | rfl <;> exact deep_str _

theorem saidify_fine {H : Hash} {chk : Bool} {o : List (Str × Value)} {code kind label : Option Str} {m : M} {x : Value}
    (h : Saider.saidify H chk (.obj o) code kind label none = .ok (m, x)) (hn : (o.map Prod.fst).Nodup) (hd : ∀ e ∈ o, Deep e.2) : Fine x := by
  obtain ⟨o0, o2, k, d, q, n, e, rfl, hD, -⟩ := Saider.saidify_ok h
  cases e
  obtain ⟨o2', e, -, -, -, hc⟩ := Saider.prep_ok hD.prep1
  cases e
  have key : (o2.map Prod.fst).Nodup ∧ ∀ e ∈ o2, Deep e.2 := by
    have h1 : ((Value.insert (label.getD (str% "d")) (.str (Saider.dummy (saidChars (code.getD (str% "E"))))) o).map Prod.fst).Nodup := insert_nodup hn
    have h2 : ∀ e ∈ Value.insert (label.getD (str% "d")) (.str (Saider.dummy (saidChars (code.getD (str% "E"))))) o, Deep e.2 := by
      intro e he
      rcases insert_mem he with rfl | he
      · exact deep_str _
      · exact hd e he
    rcases hc with ⟨-, rfl, -⟩ | ⟨ident, size, p, q, -, -, -, rfl⟩
    · exact ⟨h1, h2⟩
    · refine ⟨insert_nodup h1, fun e he => ?_⟩
      rcases insert_mem he with rfl | he
      · exact deep_str _
      · exact h2 e he
  have hx : ∀ e ∈ Value.insert (label.getD (str% "d")) (.str q) o2, Deep e.2 := by
    intro e he
    rcases insert_mem he with rfl | he
    · exact deep_str _
    · exact key.2 e he
  constructor
  · unfold Plain
    rw [Proper, properObj_iff]
    exact ⟨insert_nodup key.1, fun e he => (hx e he).1⟩
  · rw [nesting]
    have : nestingObj (Value.insert (label.getD (str% "d")) (.str q) o2) ≤ 125 := nestingObj_le.mpr fun e he => (hx e he).2
    omega

theorem sendable_as {id : Str} {H : Hash} {chk : Bool} {o : List (Str × Value)} {s : Sad} (hb : BuiltAs id H chk o s) (hn : (o.map Prod.fst).Nodup)
    (hf : ∀ e ∈ o, Fine e.2) (hs : s.raw.length < 2 ^ 32) : Sendable s := by
  refine sendable_of hb.keys hn (fun k hk => ?_) hs
  by_cases h1 : k = str% "d"
  · obtain ⟨q, -, h, -⟩ := hb.said
    exact ⟨_, h1 ▸ h, fine_str _⟩
  · by_cases h2 : k = str% "v"
    · exact ⟨_, h2 ▸ hb.version, fine_str _⟩
    · obtain ⟨e, he, rfl⟩ := List.mem_map.mp hk
      exact ⟨e.2, by rw [hb.fields _ h1 h2, find_mem hn he], hf e he⟩

theorem credential_sendable {E : Env} {S : Stretch} {rnd : Nat → Nat} {now schema issuer : Str} {data : Value} {recipient : Option Str} {priv : Option Bool}
    {salt status : Option Str} {source rules : Option Value} {version : Option Version} {kind : Option Str} {c : Sad}
    (h : createAcdc E S rnd now schema issuer data recipient priv salt status source rules version kind = .ok c) (hd : Fine data)
    (hsrc : ∀ v, source = some v → Fine v) (hr : ∀ v, rules = some v → Fine v)
    (hs : c.raw.length < 2 ^ 32) : Sendable c := by
  obtain ⟨vs, u, u', map, a, rfl, -, -, -, ha, hb⟩ := create_ok h
  obtain ⟨h1, h2⟩ := subject_fine (u := u') (recipient := recipient) (now := now) hd
  have h3 := saidify_fine (m := a.1) (x := a.2) ha h1 h2
  refine sendable_as hb ?_ ?_ hs
  · rw [credDoc_keys]
    cases u.isSome <;> cases status.isSome <;> cases source.isSome <;> cases rules.isSome <;> decide
  · intro e he
    unfold credDoc at he
    simp only [List.mem_append, List.mem_cons, List.not_mem_nil, or_false] at he
    rcases he with ((((((he | he) | he) | he) | he) | (he | he)) | he) | he
    · rw [he]; exact fine_str _
    · rw [he]; exact fine_str _
    · cases u with
      | none => simp [entry] at he
      | some t => simp [entry] at he; rw [he]; exact fine_str _
    · rw [he]; exact fine_str _
    · cases status with
      | none => simp [entry] at he
      | some t => simp [entry] at he; rw [he]; exact fine_str _
    · rw [he]; exact fine_str _
    · rw [he]; exact h3
    · cases source with
      | none => simp [entry] at he
      | some t => simp [entry] at he; rw [he]; exact hsrc _ rfl
    · cases rules with
      | none => simp [entry] at he
      | some t => simp [entry] at he; rw [he]; exact hr _ rfl

theorem issue_sendable {E : Env} {S : Stretch} {rnd : Nat} {now id ri q : Str} {s : Sad} (h : vcIssue E S rnd now id ri = .ok (q, s))
    (hs : s.raw.length < 2 ^ 32) : Sendable s := by
  obtain ⟨vs, nonce, hb, -⟩ := issue_ok h
  refine sendable_built hb (by simp) ?_ hs
  intro e he
  simp only [List.mem_cons, List.not_mem_nil, or_false] at he
  rcases he with rfl | rfl | rfl | rfl | rfl | rfl | rfl | rfl <;> exact fine_str _

theorem revoke_sendable {E : Env} {S : Stretch} {rnd : Nat} {now id ri prior q : Str} {s : Sad} (h : vcRevoke E S rnd now id ri prior = .ok (q, s))
    (hs : s.raw.length < 2 ^ 32) : Sendable s := by
  obtain ⟨vs, nonce, hb, -⟩ := revoke_ok h
  refine sendable_built hb (by simp) ?_ hs
  intro e he
  simp only [List.mem_cons, List.not_mem_nil, or_false] at he
  rcases he with rfl | rfl | rfl | rfl | rfl | rfl | rfl | rfl | rfl <;> exact fine_str _

theorem seal_fine (i s d : Str) : Fine (sealOf i s d) := by
  unfold sealOf
  refine fine_arr fun v hv => ?_
  rw [List.mem_singleton.mp hv]
  refine ⟨?_, by simp [nesting, nestingObj]⟩
  unfold Plain
  rw [Proper, properObj_iff]
  refine ⟨by simp, fun e he => ?_⟩
  simp only [List.mem_cons, List.not_mem_nil, or_false] at he
  rcases he with rfl | rfl | rfl <;> exact (fine_str _).1

/-! ## The log of the issuer -/

theorem valid_sn {H : Hash} {C : Crypto} {chk : Bool} {fl : Str → Option Str} {pre : Str} {log : List Entry} (h : ValidLog H C chk fl pre log) :
    ∀ a e b, log = a ++ e :: b → Serder.sn e.sad = .ok a.length := by
  induction h with
  | incept x keys t sigs type ident sn =>
    intro a e b hs
    rcases a with _ | ⟨y, a⟩
    · simp at hs; rw [← hs.1]; exact sn
    · have := congrArg List.length hs
      simp at this
  | rotate log x prev est psaid keys digests t n sigs before type ident sn _ _ _ _ _ _ _ _ _ _ _ _ ih =>
    intro a e b hs
    rcases split_snoc hs with ⟨-, rfl, rfl⟩ | ⟨b', hb⟩
    · exact sn
    · exact ih a e b' hb
  | interact log x prev est psaid keys t sigs before type ident sn _ _ _ _ _ _ _ _ _ ih =>
    intro a e b hs
    rcases split_snoc hs with ⟨-, rfl, rfl⟩ | ⟨b', hb⟩
    · exact sn
    · exact ih a e b' hb

theorem valid_types {H : Hash} {C : Crypto} {chk : Bool} {fl : Str → Option Str} {pre : Str} {log : List Entry} (h : ValidLog H C chk fl pre log) :
    ∀ e ∈ log, HasText (str% "t") (str% "icp") e.sad ∨ HasText (str% "t") (str% "rot") e.sad ∨ HasText (str% "t") (str% "ixn") e.sad := by
  induction h with
  | incept x keys t sigs type => intro e he; rw [List.mem_singleton.mp he]; exact .inl type
  | rotate log x prev est psaid keys digests t n sigs before type ident sn _ _ _ _ _ _ _ _ _ _ _ _ ih =>
    intro e he
    rcases List.mem_append.mp he with he | he
    · exact ih e he
    · rw [List.mem_singleton.mp he]; exact .inr (.inl type)
  | interact log x prev est psaid keys t sigs before type ident sn _ _ _ _ _ _ _ _ _ ih =>
    intro e he
    rcases List.mem_append.mp he with he | he
    · exact ih e he
    · rw [List.mem_singleton.mp he]; exact .inr (.inr type)

theorem valid_first {H : Hash} {C : Crypto} {chk : Bool} {fl : Str → Option Str} {pre : Str} {log : List Entry} (h : ValidLog H C chk fl pre log) :
    ∃ e ∈ log, Sadder.said chk e.sad = .ok pre := by
  induction h with
  | incept x keys t sigs type ident sn said => exact ⟨x, by simp, said⟩
  | rotate log x prev est psaid keys digests t n sigs before type ident sn _ _ _ _ _ _ _ _ _ _ _ _ ih =>
    obtain ⟨e, he, h⟩ := ih
    exact ⟨e, by simp [he], h⟩
  | interact log x prev est psaid keys t sigs before type ident sn _ _ _ _ _ _ _ _ _ ih =>
    obtain ⟨e, he, h⟩ := ih
    exact ⟨e, by simp [he], h⟩

theorem latestSaid_of {E : Env} {own : Store} {pre : Str} {log : List Entry} (hown : List.Forall₂ (Reads E.fl) (own.kels pre) log) {dig : Str}
    (h : own.latestSaid E pre = .ok dig) : ∃ prev, log.getLast? = some prev ∧ Sadder.said E.chk prev.sad = .ok dig := by
  unfold Store.latestSaid at h
  obtain ⟨t, ht, h⟩ := Res.bind_eq_ok.mp h
  obtain ⟨s, hs, h⟩ := Res.bind_eq_ok.mp h
  have ht := Res.ofOption_eq_ok.mp ht
  rw [List.getLast?_eq_getElem?] at ht
  obtain ⟨e, he, hr⟩ := forall₂_get hown ht
  unfold Reads at hr
  rw [hr] at hs
  cases hs
  refine ⟨e, ?_, h⟩
  rw [List.getLast?_eq_getElem?, ← hown.length_eq]
  exact he

theorem latestEstSaid_of {E : Env} {own : Store} {pre : Str} {log a b : List Entry} {est : Entry} (hown : List.Forall₂ (Reads E.fl) (own.kels pre) log)
    (hv : ValidLog E.H E.C E.chk E.fl pre log) (hsplit : log = a ++ est :: b) (hlatest : LatestEst log est) {r : Str × Nat}
    (h : own.latestEstSaid E pre = .ok r) : Sadder.said E.chk est.sad = .ok r.1 ∧ r.2 = a.length := by
  unfold Store.latestEstSaid at h
  obtain ⟨t, ht, h⟩ := Res.bind_eq_ok.mp h
  obtain ⟨s, hs, h⟩ := Res.bind_eq_ok.mp h
  obtain ⟨q, hq, h⟩ := Res.bind_eq_ok.mp h
  obtain ⟨n, hn, h⟩ := Res.bind_eq_ok.mp h
  cases h
  have ht := getLatestEst_ok ht
  obtain ⟨raw, h1, h2⟩ := latestEst_of (n := (own.kels pre).length) hown (by omega) (valid_types hv) hlatest
  rw [ht] at h1
  cases h1
  unfold Reads at h2
  rw [h2] at hs
  cases hs
  have := valid_sn hv a est b hsplit
  rw [hn] at this
  cases this
  exact ⟨hq, rfl⟩

theorem keeps_reads {E : Env} {pre : Str} {log : List Entry} {ks nks : KeySet} (h : Sound E pre log ks nks) {deep : Option Bool} {texts : List Str}
    (hk : KeepsLog E deep texts log) : List.Forall₂ (Reads E.fl) texts log := by
  have hr := h.reads
  clear h
  unfold KeepsLog at hk
  induction hk with
  | nil => exact .nil
  | @cons x e l l' h1 h2 ih =>
    obtain ⟨t, g, rfl, h3, -⟩ := h1
    refine .cons ?_ (ih fun e he => hr e (by simp [he]))
    have := hr e (by simp) g
    rw [h3, ← toUtf8_append] at this
    exact this

/-- The event that anchors a transaction event, as `issue_acdc` and `revoke_acdc` send it. -/
structure Anchor (E : Env) (pre : Str) (log : List Entry) (ks nks : KeySet) (q m i n d : Str) (a : Sad) (p : Parts) : Prop where
  text : m = p.text
  raw : a.raw = toUtf8 p.event
  wellformed : p.Wellformed E.chk
  said : Sadder.said E.chk a = .ok q
  history : History E pre (log ++ [⟨a, [.controller p.sigs]⟩]) ks nks
  item : Item a.saider q ∧ IsB64 q ∧ q.length = 44
  seals : ∀ e, HasText (str% "i") i e → HasText (str% "s") n e → Sadder.said E.chk e = .ok d → Seals E.chk a e
  type : ¬ Establishes a

theorem anchor_ok {E : Env} (hC : CryptoOk E.C) (hH : HashOk E.H) {pre : Str} {log : List Entry} {ks nks : KeySet} (hlog : History E pre log ks nks)
    (hlen : log.length < 2 ^ 32) {own : Store} (hown : List.Forall₂ (Reads E.fl) (own.kels pre) log) {dig : Str} (hdig : own.latestSaid E pre = .ok dig)
    {rnd : Nat} {i n d : Str} {r : Str × Str} (h : kmiInteract E rnd ks pre dig (own.kels pre).length (sealOf i n d) = .ok r) (hm : (toUtf8 r.2).length < 2 ^ 32) :
    ∃ a p, Anchor E pre log ks nks r.1 r.2 i n d a p := by
  have hs := history_sound hC hH hlog (by omega)
  unfold kmiInteract at h
  obtain ⟨a, ha, h⟩ := Res.bind_eq_ok.mp h
  obtain ⟨m, hmsg, h⟩ := Res.bind_eq_ok.mp h
  obtain ⟨q, hq, h⟩ := Res.bind_eq_ok.mp h
  cases h
  rw [hown.length_eq] at ha
  obtain ⟨sigs, hsg, hmsg⟩ := signedMessage_ok hC hs.usable hmsg
  obtain ⟨p, rfl, hp1, hp2, hp3, hp4⟩ := parts_of hmsg hm
  have hsn : (some log.length).getD 1 < 2 ^ 128 := by
    simp only [Option.getD_some]; omega
  obtain ⟨vs, t, hb, -⟩ := interact_ok hsn ha
  have hsend : Sendable a := by
    refine sendable_built hb (by simp) ?_ hp4
    intro e he
    simp only [List.mem_cons, List.not_mem_nil, or_false] at he
    rcases he with rfl | rfl | rfl | rfl | rfl | rfl | rfl
    all_goals first | exact fine_str _ | exact seal_fine _ _ _
  obtain ⟨prev, hl, hd⟩ := latestSaid_of hown hdig
  have hist := History.interact pre log ks nks prev dig _ none none a rnd p.sigs hlog hl hd ha hsg hsend
  have hr := hb.reads hsend.plain hsend.depth hsend.small E.fl []
  refine ⟨a, p, hp1, hp2, hp3, hq, hist, said_item hr hq, fun e h1 h2 h3 => ?_, ?_⟩
  · exact C75_anchor E pre dig (some log.length) none none hsn e a i n d h1 h2 h3 ha
  · have : HasText (str% "t") (str% "ixn") a := by
      unfold HasText
      rw [hb.fields _ (by decide) (by decide)]
      simp [field]
    unfold HasText at this
    rintro (h | h) <;> (unfold HasText at h; rw [this] at h; simp at h)

/-- Who has the log of the issuer and the anchor finds the anchor by its place and its SAID. -/
theorem Anchor.named {E : Env} (hC : CryptoOk E.C) (hH : HashOk E.H) {pre : Str} {log : List Entry} {ks nks : KeySet} {said m i n d : Str} {a : Sad} {p : Parts}
    (h : Anchor E pre log ks nks said m i n d a p) (hlen : log.length < 2 ^ 32) {texts : List Str} (hst : List.Forall₂ (Reads E.fl) texts log) {st' : Store}
    (hk : st'.kels pre = texts ++ [m]) {c : M × M} (hc1 : Seqner.sn c.1 = .ok log.length) (hc2 : c.2 = a.saider) : AnchorNamed E st' pre c a := by
  refine ⟨log.length, m, said, by omega, hc1, ?_, ?_, h.said, ?_⟩
  · rw [hk, ← hst.length_eq]; simp
  · have := (history_sound hC hH h.history (by simp; omega)).reads ⟨a, [.controller p.sigs]⟩ (by simp) p.attached
    dsimp only at this
    rw [h.raw, ← toUtf8_append] at this
    rw [h.text]
    exact this
  · rw [hc2]; exact h.said

/-- Who has the log of the issuer and the anchor has the longer log. -/
theorem Anchor.keeps {E : Env} {pre : Str} {log : List Entry} {ks nks : KeySet} {said m i n d : Str} {a : Sad} {p : Parts}
    (h : Anchor E pre log ks nks said m i n d a p) {deep : Option Bool} {texts : List Str} (hk : KeepsLog E deep texts log)
    (hr : deep ≠ some false → ReadsAs E p.attached (.quadlets [.controller p.sigs])) : KeepsLog E deep (texts ++ [m]) (log ++ [⟨a, [.controller p.sigs]⟩]) :=
  List.rel_append hk (.cons ⟨p.event, p.attached, h.text, h.raw, hr⟩ .nil)

/-- The longer log verifies again. -/
theorem Anchor.deepens {E : Env} (hC : CryptoOk E.C) (hH : HashOk E.H) {pre : Str} {log : List Entry} {ks nks : KeySet} {said m i n d : Str} {a : Sad} {p : Parts}
    (h : Anchor E pre log ks nks said m i n d a p) (hlen : log.length < 2 ^ 32) {texts : List Str} {st : Store} (hst : st.kels pre = texts ++ [m]) {fuel : Nat}
    {deep : Option Bool} (hd : deep = some true → log.length < fuel ∧ KeepsLog E deep texts log ∧ ReadsAs E p.attached (.quadlets [.controller p.sigs])) :
    Deepens E st deep fuel pre := by
  refine (history_sound hC hH h.history (by simp; omega)).toLogged.deepens hH (by simp; omega) fun hdd => ?_
  obtain ⟨h1, h2, h3⟩ := hd hdd
  refine ⟨by simp; omega, ?_⟩
  rw [hst]
  exact h.keeps h2 fun _ => h3

/-- A verifier that has the log of the issuer accepts the anchor. -/
theorem Anchor.accepts {E : Env} (hC : CryptoOk E.C) (hH : HashOk E.H) (hstore : ∀ st t, E.refuses st t = false) {pre : Str} {log : List Entry} {ks nks : KeySet}
    {said m i n d : Str} {a : Sad} {p : Parts} (h : Anchor E pre log ks nks said m i n d a p) (hlen : log.length < 2 ^ 32) {st : Store}
    (hst : List.Forall₂ (Reads E.fl) (st.kels pre) log) (fuel : Nat) (deep verify : Option Bool)
    (hd : deep = some true → log.length ≤ fuel ∧ KeepsLog E deep (st.kels pre) log) (hv : verify ≠ some false) :
    ∃ st', Accepts E (fuel + 1) deep verify st ⟨p.event, p.attached, .quadlets [.controller p.sigs]⟩ st' ∧ st'.kels pre = st.kels pre ++ [m] ∧
      (∀ q, q ≠ pre → st'.kels q = st.kels q) ∧ st'.tels = st.tels ∧ st'.acdcs = st.acdcs ∧
      ∀ c : M × M, Seqner.sn c.1 = .ok log.length → c.2 = a.saider → AnchorNamed E st' pre c a := by
  have hkels : (st.insertKeyEvent pre (p.event ++ p.attached)).kels pre = st.kels pre ++ [m] := by
    rw [h.text]
    simp [Store.insertKeyEvent, append, Parts.text]
  refine ⟨_, (history_sound hC hH h.history (by simp; omega)).toLogged.accepts (e := ⟨a, [.controller p.sigs]⟩) (a := log) (b := []) hH hstore hv (by simp; omega) h.raw rfl hst
    fun hdd => ⟨by simp; exact (hd hdd).1, (hd hdd).2⟩, hkels, ?_, rfl, rfl, fun c hc1 hc2 => h.named hC hH hlen hst hkels hc1 hc2⟩
  intro q hq
  simp [Store.insertKeyEvent, append, hq]

/-! ## Documents -/

theorem document_of {proto t : Str} {s : Sad} (hs : Sendable s) (hraw : s.raw = toUtf8 s.ked.toJson)
    (hv : field (str% "v") s.ked = some (.str (versionText proto ⟨1, 0⟩ (str% "JSON") (s.raw.length % 2 ^ 32))))
    (hfirst : ∃ o', s.ked = .obj o' ∧ o'.head?.map Prod.fst = some (str% "v")) (ht : s.raw = toUtf8 t) : Document proto t := by
  obtain ⟨o, ho, hh⟩ := hfirst
  rw [Nat.mod_eq_of_lt hs.small] at hv
  have e : s.ked.toJson = t := toUtf8_inj (by rw [← hraw, ht])
  cases o with
  | nil => cases hh
  | cons x o =>
    obtain ⟨k, v⟩ := x
    cases (Option.some.inj hh : k = str% "v")
    have hv' : v = .str (versionText proto ⟨1, 0⟩ (str% "JSON") (toUtf8 t).length) := by
      rw [ho, ht] at hv
      simpa [field] using hv
    subst hv'
    refine ⟨o, ?_, ?_, ?_⟩
    · rw [← ho]; exact e.symm
    · rw [← ho]; exact hs.plain
    · rw [← ho]; exact hs.depth

theorem document_built {H : Hash} {chk : Bool} {o : List (Str × Value)} {s : Sad} {t : Str} (h : Built H chk o s) (hs : Sendable s) (ht : s.raw = toUtf8 t) :
    Document (str% "KERI") t := document_of hs h.raw h.version h.first ht

theorem document_incepted {H : Hash} {chk : Bool} {o : List (Str × Value)} {s : Sad} {pre t : Str} (h : Incepted H chk o s pre) (hs : Sendable s)
    (ht : s.raw = toUtf8 t) : Document (str% "KERI") t := document_of hs h.raw h.version h.first ht

/-- The events of a controller are documents. -/
theorem history_document {E : Env} {pre : Str} {log : List Entry} {ks nks : KeySet} (h : History E pre log ks nks) (hlen : log.length ≤ 2 ^ 32) :
    ∀ e ∈ log, ∀ t, e.sad.raw = toUtf8 t → Document (str% "KERI") t := by
  induction h with
  | incept ks nks keys ndigs sith nsith toad wits cnfg data version kind intive s pre rnd sigs usable own next built names reached signed sendable =>
    intro e he t ht
    rw [List.mem_singleton.mp he] at ht
    obtain ⟨vs, tx, kt, nt, bt, th, nth, pre', hb, -⟩ := incept_ok (c := str% "E") (by decide) built
    exact document_incepted hb sendable ht
  | interact pre log ks nks prev dig data version kind s rnd sigs before last prior built signed sendable ih =>
    rw [List.length_append, List.length_singleton] at hlen
    intro e he t ht
    rcases List.mem_append.mp he with he | he
    · exact ih (by omega) e he t ht
    · rw [List.mem_singleton.mp he] at ht
      obtain ⟨vs, tx, hb, -⟩ := interact_ok (by simp only [Option.getD_some]; omega) built
      exact document_built hb sendable ht
  | rotate pre log ks nks nnks prev est dig keys ndigs sith nsith toad wits cuts adds data version kind intive s rnd sigs before last prior usable own next
      built reached latest pledged signed sendable ih =>
    rw [List.length_append, List.length_singleton] at hlen
    intro e he t ht
    rcases List.mem_append.mp he with he | he
    · exact ih (by omega) e he t ht
    · rw [List.mem_singleton.mp he] at ht
      obtain ⟨vs, tx, kt, nt, bt, th, nth, hb, -⟩ := rotate_ok (by omega) built
      exact document_built hb sendable ht

theorem document_registry {E : Env} {issuer q t : Str} {s : Sad} (h : registryIncept E issuer = .ok (q, s)) (hs : Sendable s) (ht : s.raw = toUtf8 t) :
    Document (str% "KERI") t := by
  obtain ⟨vs, hb⟩ := registry_ok h
  exact document_incepted hb hs ht

theorem document_issue {E : Env} {S : Stretch} {rnd : Nat} {now id ri q t : Str} {s : Sad} (h : vcIssue E S rnd now id ri = .ok (q, s))
    (hs : s.raw.length < 2 ^ 32) (ht : s.raw = toUtf8 t) : Document (str% "KERI") t := by
  obtain ⟨vs, nonce, hb, -⟩ := issue_ok h
  exact document_built hb (issue_sendable h hs) ht

theorem document_revoke {E : Env} {S : Stretch} {rnd : Nat} {now id ri prior q t : Str} {s : Sad} (h : vcRevoke E S rnd now id ri prior = .ok (q, s))
    (hs : s.raw.length < 2 ^ 32) (ht : s.raw = toUtf8 t) : Document (str% "KERI") t := by
  obtain ⟨vs, nonce, hb, -⟩ := revoke_ok h
  exact document_built hb (revoke_sendable h hs) ht

theorem document_credential {E : Env} {S : Stretch} {rnd : Nat → Nat} {now schema issuer : Str} {data : Value} {recipient : Option Str} {priv : Option Bool}
    {salt status : Option Str} {source rules : Option Value} {version : Option Version} {kind : Option Str} {c : Sad} {t : Str}
    (h : createAcdc E S rnd now schema issuer data recipient priv salt status source rules version kind = .ok c) (hs : Sendable c) (ht : c.raw = toUtf8 t) :
    Document (str% "ACDC") t := by
  obtain ⟨vs, u, u', map, a, -, -, -, -, -, hb⟩ := create_ok h
  exact document_of hs hb.raw hb.version hb.first ht

end Keride
