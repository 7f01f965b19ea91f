/-
C91: the keys in reserve of different rotations, when one salt is used again.
-/
import Verif.Props.Salter
import Verif.Props.Reserve

namespace Keride.Props

open Spec Sample Matter

/-- The texts of the keys a salt is stretched to. -/
theorem fromSalt_stretched {E : Env} {S : Stretch} {salt : Bytes} {code tier : Option Str} {n : Nat} {path : Str} {ks : KeySet}
    (h : KeySet.generateFromSalt E S salt code (some n) 0 (some true) path tier none = .ok ks) {i : Nat} {k : Str} (hi : ks.keys[i]? = some k) :
    i < n ∧ ∃ g : Signer, qb64 E.chk g.m = .ok k ∧ Stretched S (salt.take 16) (tier.getD (str% "low")) (path ++ hex i) g ∧ g.m.code = code.getD (str% "A") ∧
      g.m.size = 0 ∧ (g.m.code, g.m.raw.length) ∈ fixedCodes := by
  have hcount := (fromSalt_usable h).2.2.2
  unfold KeySet.generateFromSalt at h
  obtain ⟨salter, hs, h⟩ := Res.bind_eq_ok.mp h
  obtain ⟨sg, hsg, h⟩ := Res.bind_eq_ok.mp h
  obtain ⟨keys, hk, h⟩ := Res.bind_eq_ok.mp h
  cases h
  dsimp only at hi hcount
  have hlt := (List.getElem?_eq_some_iff.mp hi).1
  have hraw : salter.m.raw = salt.take 16 ∧ salter.tier = tier.getD (str% "low") := by
    unfold Salter.new at hs
    dsimp only at hs
    obtain ⟨u, -, hs⟩ := Res.bind_eq_ok.mp hs
    obtain ⟨m, hm, hs⟩ := Res.bind_eq_ok.mp hs
    cases hs
    rw [if_neg (by simp)] at hm
    change newWithCodeAndRaw (str% "0A") salt = _ at hm
    rw [new_fixed (n := 16) (by decide)] at hm
    split at hm
    · cases hm
    · cases hm
      exact ⟨rfl, rfl⟩
  obtain ⟨h1, h2⟩ := C45_signers _ _ _ _ _ _ _ _ _ _ _ hsg
  have hk := Res.mapList_ok.mp hk
  have hl := hk.length_eq
  have hkk := hk.get (show i < sg.length by omega) hlt
  simp only [List.get_eq_getElem] at hkk
  rw [(List.getElem?_eq_some_iff.mp hi).2] at hkk
  have hst := h2 i (by omega)
  rw [hraw.1, hraw.2] at hst
  refine ⟨by simp only [Option.getD_some] at hcount; omega, sg[i], hkk, hst, ?_⟩
  unfold Salter.signers at hsg
  have hf := Res.mapList_ok.mp hsg
  have hg := hf.get (by rw [List.length_range]; omega) (show i < sg.length by omega)
  simp only [List.get_eq_getElem] at hg
  refine ⟨(C45_signer _ _ _ _ _ _ _ _ _ hg).2.1, ?_⟩
  unfold Salter.signer at hg
  dsimp only at hg
  obtain ⟨sz, -, hg⟩ := Res.bind_eq_ok.mp hg
  obtain ⟨seed, -, hg⟩ := Res.bind_eq_ok.mp hg
  unfold Signer.new at hg
  obtain ⟨m, hm, hg⟩ := Res.bind_eq_ok.mp hg
  obtain ⟨v, -, hg⟩ := Res.bind_eq_ok.mp hg
  rw [if_pos (by simp)] at hm
  dsimp only [Option.getD_some] at hm
  obtain ⟨u, hu, hm⟩ := Res.bind_eq_ok.mp hm
  rw [Res.ok_bind] at hm
  have row : ∀ c, c = str% "A" ∨ c = str% "J" ∨ c = str% "Q" → (c, 32) ∈ fixedCodes := by
    rintro c (rfl | rfl | rfl) <;> decide
  have r1 := row _ (seed_codes.mp hu)
  change newWithCodeAndRaw _ _ = _ at hm
  rw [new_fixed r1] at hm
  split at hm
  · cases hm
  rename_i hlen
  have hg := Res.ok.inj hg
  cases hm
  rw [← hg]
  refine ⟨rfl, ?_⟩
  rw [List.length_take, Nat.min_eq_left (by omega)]
  exact r1

/-- C91 is false: from the seventeenth key on, the keys a salt is stretched to for different rotations are not different. The seventeenth of rotation 1 is the first
of rotation 11: the path is the number of the rotation in decimal digits followed by the number of the key in hexadecimal ones, with nothing between. -/
theorem C91_false (E : Env) (S : Stretch) (salt : Bytes) (code tier : Option Str) (n n' : Nat) (ks ks' : KeySet) (hn : 17 ≤ n) (hn' : 1 ≤ n')
    (h : KeySet.generateFromSalt E S salt code (some n) 0 (some true) (fmtNat 10 1) tier none = .ok ks)
    (h' : KeySet.generateFromSalt E S salt code (some n') 0 (some true) (fmtNat 10 11) tier none = .ok ks') : ∃ k, ks.keys[16]? = some k ∧ ks'.keys[0]? = some k := by
  have hl := (fromSalt_usable h).2.2.2
  have hl' := (fromSalt_usable h').2.2.2
  simp only [Option.getD_some] at hl hl'
  have e1 : ks.keys[16]? = some (ks.keys[16]'(by omega)) := List.getElem?_eq_getElem _
  have e2 : ks'.keys[0]? = some (ks'.keys[0]'(by omega)) := List.getElem?_eq_getElem _
  obtain ⟨-, g, g1, ⟨mem, iter, seed, a1, a2, a3⟩, g2, g3, -⟩ := fromSalt_stretched h e1
  obtain ⟨-, g', g1', ⟨mem', iter', seed', b1, b2, b3⟩, g2', g3', -⟩ := fromSalt_stretched h' e2
  have cost : ∀ {t : Str} {a b c d : Nat}, (t, a, b) ∈ tierCosts → (t, c, d) ∈ tierCosts → a = c ∧ b = d := by
    intro t a b c d h1 h2
    simp only [tierCosts, List.mem_cons, Prod.mk.injEq, List.not_mem_nil, or_false] at h1 h2
    rcases h1 with ⟨rfl, rfl, rfl⟩ | ⟨rfl, rfl, rfl⟩ | ⟨rfl, rfl, rfl⟩ | ⟨rfl, rfl, rfl⟩ <;> simp_all
  obtain ⟨rfl, rfl⟩ := cost a1 b1
  rw [show fmtNat 10 1 ++ hex 16 = fmtNat 10 11 ++ hex 0 by decide, b2] at a2
  cases a2
  have hm : g.m = g'.m := by
    rcases hgm : g.m with ⟨c, z, r⟩
    rcases hgm' : g'.m with ⟨c', z', r'⟩
    rw [hgm] at g2 g3 a3
    rw [hgm'] at g2' g3' b3
    simp only at g2 g3 a3 g2' g3' b3
    rw [g2, g2', g3, g3', a3, b3]
  rw [hm, g1'] at g1
  exact ⟨_, e1, by rw [e2, Res.ok.inj g1]⟩

theorem decHex_inj {sn sn' i j : Nat} (hi : i < 16) (hj : j < 16) (h : fmtNat 10 sn ++ hex i = fmtNat 10 sn' ++ hex j) : sn = sn' ∧ i = j := by
  have hone : ∀ i, i < 16 → (hex i).length = 1 := by decide
  have hl : (fmtNat 10 sn).length = (fmtNat 10 sn').length := by
    have := congrArg List.length h
    rw [List.length_append, List.length_append, hone i hi, hone j hj] at this
    omega
  obtain ⟨h1, h2⟩ := List.append_inj h hl
  exact ⟨fmtNat_inj (by decide) (by decide) h1, hex_inj h2⟩

/-- C91, partial: up to sixteen keys, the keys a salt is stretched to for different rotations are different, and so are those for one rotation, unless the stretching
function gives the same 32 bytes for the two paths. Missing: more keys (`C91_false`). -/
theorem C91_partial (E : Env) (S : Stretch) (salt : Bytes) (code tier : Option Str) (n n' sn sn' : Nat) (ks ks' : KeySet) (hn : n ≤ 16) (hn' : n' ≤ 16)
    (h : KeySet.generateFromSalt E S salt code (some n) 0 (some true) (fmtNat 10 sn) tier none = .ok ks)
    (h' : KeySet.generateFromSalt E S salt code (some n') 0 (some true) (fmtNat 10 sn') tier none = .ok ks')
    (i j : Nat) (k : Str) (hi : ks.keys[i]? = some k) (hj : ks'.keys[j]? = some k) :
    (sn = sn' ∧ i = j) ∨ ∃ mem iter seed seed', (tier.getD (str% "low"), mem, iter) ∈ tierCosts ∧
      fmtNat 10 sn ++ hex i ≠ fmtNat 10 sn' ++ hex j ∧ S.argon2id mem iter 32 (toUtf8 (fmtNat 10 sn ++ hex i)) (salt.take 16) = .ok seed ∧
      S.argon2id mem iter 32 (toUtf8 (fmtNat 10 sn' ++ hex j)) (salt.take 16) = .ok seed' ∧ seed.take 32 = seed'.take 32 := by
  obtain ⟨l1, g, g1, ⟨mem, iter, seed, a1, a2, a3⟩, g2, g3, g4⟩ := fromSalt_stretched h hi
  obtain ⟨l2, g', g1', ⟨mem', iter', seed', b1, b2, b3⟩, g2', g3', g4'⟩ := fromSalt_stretched h' hj
  by_cases he : fmtNat 10 sn ++ hex i = fmtNat 10 sn' ++ hex j
  · exact .inl (decHex_inj (by omega) (by omega) he)
  · right
    have cost : ∀ {t : Str} {a b c d : Nat}, (t, a, b) ∈ tierCosts → (t, c, d) ∈ tierCosts → a = c ∧ b = d := by
      intro t a b c d h1 h2
      simp only [tierCosts, List.mem_cons, Prod.mk.injEq, List.not_mem_nil, or_false] at h1 h2
      rcases h1 with ⟨rfl, rfl, rfl⟩ | ⟨rfl, rfl, rfl⟩ | ⟨rfl, rfl, rfl⟩ | ⟨rfl, rfl, rfl⟩ <;> simp_all
    obtain ⟨rfl, rfl⟩ := cost a1 b1
    have hm := fixed_text_inj g4 g3 g4' g3' (g1.trans g1'.symm)
    exact ⟨mem, iter, seed, seed', a1, he, a2, b2, by rw [← a3, ← b3, hm]⟩

/-- C91: only the first sixteen bytes of a salt matter. -/
theorem C91_salt_false (E : Env) (S : Stretch) (salt salt' : Bytes) (code tier : Option Str) (n : Nat) (path : Str)
    (h : salt.take 16 = salt'.take 16) (hl : 16 ≤ salt.length) (hl' : 16 ≤ salt'.length) :
    KeySet.generateFromSalt E S salt code (some n) 0 (some true) path tier none = KeySet.generateFromSalt E S salt' code (some n) 0 (some true) path tier none := by
  have e : ∀ s : Bytes, 16 ≤ s.length → Salter.new S 0 tier none (some s) none none none = .ok ⟨⟨str% "0A", 0, s.take 16⟩, tier.getD (str% "low")⟩ := by
    intro s hs
    unfold Salter.new
    dsimp only
    rw [show Salter.validateCode ((none : Option Str).getD (str% "0A")) = .ok () from rfl, Res.ok_bind, if_neg (by simp)]
    change (newWithCodeAndRaw (str% "0A") s >>= fun m => _) = _
    rw [new_fixed (n := 16) (by decide), if_neg (by omega)]
    rfl
  unfold KeySet.generateFromSalt
  rw [e _ hl, e _ hl', h]

theorem mapList_get {α β : Type} {f : α → Res β} {l : List α} {r : List β} (h : Res.mapList f l = .ok r) {i : Nat} {a : α} (hi : l[i]? = some a) :
    ∃ b, f a = .ok b ∧ r[i]? = some b := by
  obtain ⟨b, h1, h2⟩ := forall₂_get (Res.mapList_ok.mp h) hi
  exact ⟨b, h2, h1⟩

/-- Equal keys have equal digests. -/
theorem digers_at {E : Env} {ks : KeySet} {ds : List Str} (h : ks.digersQb64 E = .ok ds) {i : Nat} {k : Str} (hi : ks.keys[i]? = some k) :
    ∃ g q d u, Signer.newWithQb64 E.C k (some ks.transferable) = .ok g ∧ qb64b E.chk g.verfer = .ok q ∧ Diger.newWithSer E.H q none = .ok d ∧ qb64 E.chk d = .ok u ∧
      ds[i]? = some u := by
  unfold KeySet.digersQb64 KeySet.verfers KeySet.signers at h
  obtain ⟨v, hv, h⟩ := Res.bind_eq_ok.mp h
  obtain ⟨l, hl, hv⟩ := Res.bind_eq_ok.mp hv
  cases hv
  obtain ⟨dd, hd, h⟩ := Res.bind_eq_ok.mp h
  obtain ⟨g, g1, g2⟩ := mapList_get hl hi
  obtain ⟨d, d1, d2⟩ := mapList_get hd (a := g.verfer) (i := i) (by rw [List.getElem?_map, g2]; rfl)
  obtain ⟨q, q1, d1⟩ := Res.bind_eq_ok.mp d1
  obtain ⟨u, u1, u2⟩ := mapList_get h d2
  exact ⟨g, q, d, u, g1, q1, d1, u1, u2⟩

/-- C91 is false: an identifier created with seventeen keys in reserve or more, and rotated with one salt throughout, pledges a key twice. The inception names its
digest, and so does the rotation that is given 10 as the number of establishment events before. By then the key has been used, in the first rotation. -/
theorem C91_pledged_false (E : Env) (S : Stretch) (hC : CryptoOk E.C) (rnd rnd' : Nat → Nat) (code tier : Option Str) (scount rcount scount' rcount' : Option Nat)
    (salt salt' : Bytes) (pre m dig said m' : Str) (sn : Nat) (ks ks' : KeySet) (hr : 17 ≤ rcount.getD 3) (hr' : 1 ≤ rcount'.getD 3) (hl' : rcount'.getD 3 < 2 ^ 32)
    (hsn : sn < 2 ^ 128)
    (h : kmiInceptPartial E S rnd code scount rcount (some true) (some (str% "E")) tier (some salt) none none = .ok (pre, ks, m))
    (h' : kmiRotatePartial E S rnd' pre dig sn 10 code scount' rcount' tier (some salt') (some salt) none none none = .ok (said, ks', m')) :
    ∃ (s s' : Sad) (sigs sigs' : List Siger) (ds ds' : List Str) (d : Str), SignedMessage E.chk s sigs m ∧ SignedMessage E.chk s' sigs' m' ∧ field (str% "n") s.ked = some (.arr (ds.map .str)) ∧
      field (str% "n") s'.ked = some (.arr (ds'.map .str)) ∧ ds[16]? = some d ∧ ds'[0]? = some d := by
  unfold kmiInceptPartial at h
  dsimp only at h
  obtain ⟨ckeys, hck, h⟩ := Res.bind_eq_ok.mp h
  obtain ⟨keys, hkeys, h⟩ := Res.bind_eq_ok.mp h
  obtain ⟨next, hnext, h⟩ := Res.bind_eq_ok.mp h
  rw [show (some true).getD false = true from rfl, if_pos rfl] at hnext
  obtain ⟨nks, hnk, hnext⟩ := Res.bind_eq_ok.mp hnext
  obtain ⟨ndigs, hnd, hnext⟩ := Res.bind_eq_ok.mp hnext
  cases hnext
  obtain ⟨nsith, hns, h⟩ := Res.bind_eq_ok.mp h
  cases hns
  obtain ⟨s, hs, h⟩ := Res.bind_eq_ok.mp h
  obtain ⟨ev, hev, h⟩ := Res.bind_eq_ok.mp h
  obtain ⟨pre', hpre, h⟩ := Res.bind_eq_ok.mp h
  cases h
  obtain ⟨u1, -⟩ := generate_usable hck
  obtain ⟨sigs, sg, hsg, hsgn, hin, hmsg, -⟩ := signedMessage_at hC u1 hev
  obtain ⟨vs, t, kt, nt, bt, th, nth, pre', hb, -⟩ := incept_all (c := str% "E") (by decide) hs
  unfold kmiRotatePartial at h'
  dsimp only at h'
  obtain ⟨pk, hpk, h'⟩ := Res.bind_eq_ok.mp h'
  unfold partialKeys at hpk
  dsimp only at hpk
  rw [if_neg (by simp)] at hpk
  obtain ⟨ckeys', hck', hpk⟩ := Res.bind_eq_ok.mp hpk
  obtain ⟨k1, hk1, hpk⟩ := Res.bind_eq_ok.mp hpk
  obtain ⟨rkeys, hrk, hpk⟩ := Res.bind_eq_ok.mp hpk
  obtain ⟨ca, hca, hpk⟩ := Res.bind_eq_ok.mp hpk
  obtain ⟨rb, hrb, hpk⟩ := Res.bind_eq_ok.mp hpk
  cases hpk
  dsimp only at h'
  obtain ⟨skeys, hsk, h'⟩ := Res.bind_eq_ok.mp h'
  obtain ⟨more, hmore, h'⟩ := Res.bind_eq_ok.mp h'
  rw [Res.ok_bind] at h'
  obtain ⟨s', hs', h'⟩ := Res.bind_eq_ok.mp h'
  rw [if_neg (by simp)] at h'
  obtain ⟨sa, hsa, h'⟩ := Res.bind_eq_ok.mp h'
  obtain ⟨sb, hsb, h'⟩ := Res.bind_eq_ok.mp h'
  obtain ⟨e, he, h'⟩ := Res.bind_eq_ok.mp h'
  obtain ⟨ev', hev', h'⟩ := Res.bind_eq_ok.mp h'
  obtain ⟨d, hd, h'⟩ := Res.bind_eq_ok.mp h'
  cases h'
  have hk1 : k1 = 11 := by
    unfold u128 at hk1
    rw [if_pos (by decide)] at hk1
    exact (Res.ok.inj hk1).symm
  subst hk1
  obtain ⟨c1, c2, -, c3⟩ := fromSalt_usable hck'
  obtain ⟨s1, s2, -, s3⟩ := generate_usable hsk
  simp only [Option.getD_some] at c3 s3
  obtain ⟨la, hla, hina⟩ := sign_ok hC ⟨c2, c1⟩ (made hsa)
  obtain ⟨lb, hlb, hinb⟩ := sign_at hC s1 hsb
  have hlal := (signers_good hC c1 hla).1
  rw [s2, Nat.mod_eq_of_lt (by omega)] at hinb
  have hinb' : InOrder E.C lb s'.raw (0 + la.length) sb := by rw [Nat.zero_add, hlal, c3]; exact hinb
  have hin' := hina.append hinb'
  have hcount := in_order_count hin'
  rw [List.length_append] at hcount
  have hmsg' : SignedMessage E.chk s' (sa ++ sb) m' := by
    refine message_ok ?_ ?_ he hev'
    · intro g hg
      rcases List.mem_append.mp hg with hg | hg
      · exact sign_short hC c1 hsa g hg
      · exact sign_short hC s1 hsb g hg
    · rw [hin'.1, List.length_append]; omega
  obtain ⟨vs', t', kt', nt', bt', th', nth', hb', -⟩ := rotate_all hsn hs'
  obtain ⟨k, e1, e2⟩ := C91_false E S salt code tier _ _ nks rkeys hr hr' hnk hrk
  obtain ⟨g, q, d1, u, a1, a2, a3, a4, a5⟩ := digers_at hnd e1
  obtain ⟨g', q', d1', u', b1, b2, b3, b4, b5⟩ := digers_at hrb e2
  rw [(fromSalt_usable hnk).2.2.1] at a1
  rw [(fromSalt_usable hrk).2.2.1, a1] at b1
  cases b1
  rw [a2] at b2
  cases b2
  rw [a3] at b3
  cases b3
  rw [a4] at b4
  cases b4
  refine ⟨s, s', sigs, sa ++ sb, ndigs, rb, u, hmsg, hmsg', ?_, ?_, a5, b5⟩
  · rw [hb.fields _ (by decide) (by decide) (by decide)]; simp [field, icpDoc, Sample.texts]
  · rw [hb'.fields _ (by decide) (by decide)]; simp [field, Sample.texts]

/-! ## Examples -/

/-- A salt of sixteen bytes. -/
def World.salt : Bytes := List.replicate 16 5

/-- The keys of rotations 1 and 11 from one salt. -/
def World.salted (n sn : Nat) : Res KeySet := KeySet.generateFromSalt (World.env []) World.stretch World.salt none (some n) 0 (some true) (fmtNat 10 sn) none none

/-- The hypotheses of `C91_false` are met. -/
example : ∃ ks ks', World.salted 17 1 = .ok ks ∧ World.salted 1 11 = .ok ks' := by
  obtain ⟨ks, h, -⟩ := World.holds_ok (r := World.salted 17 1) (f := fun _ => true) (by decide +kernel)
  obtain ⟨ks', h', -⟩ := World.holds_ok (r := World.salted 1 11) (f := fun _ => true) (by decide +kernel)
  exact ⟨ks, ks', h, h'⟩

/-- The hypotheses of `C91_partial` are met by sixteen keys of a rotation and themselves; those of another are not among them. -/
example : ∃ ks ks' k, World.salted 16 1 = .ok ks ∧ World.salted 16 2 = .ok ks' ∧ ks.keys[3]? = some k ∧ k ∉ ks'.keys := by
  obtain ⟨ks, h, hc⟩ := World.holds_ok (r := World.salted 16 1) (f := fun a => World.holds (World.salted 16 2) fun b => a.keys.all fun k => !b.keys.contains k) (by decide +kernel)
  obtain ⟨ks', h', hc'⟩ := World.holds_ok hc
  have hl := (fromSalt_usable h).2.2.2
  simp only [Option.getD_some] at hl
  refine ⟨ks, ks', ks.keys[3]'(by omega), h, h', List.getElem?_eq_getElem _, ?_⟩
  have := List.all_eq_true.mp hc' _ (List.getElem_mem (show 3 < ks.keys.length by omega))
  simpa using this

/-- An identifier with seventeen keys in reserve, and the rotation that pledges one of them again. -/
def World.pledges : Res ((Str × KeySet × Str) × (Str × KeySet × Str)) := do
  let a ← kmiInceptPartial (World.env []) World.stretch id none (some 1) (some 17) (some true) (some (str% "E")) none (some World.salt) none none
  let b ← kmiRotatePartial (World.env []) World.stretch id a.1 a.1 11 10 none (some 1) (some 1) none (some World.salt) (some World.salt) none none none
  .ok (a, b)

/-- The hypotheses of `C91_pledged_false` are met. -/
example : ∃ pre ks m said ks' m',
    kmiInceptPartial (World.env []) World.stretch id none (some 1) (some 17) (some true) (some (str% "E")) none (some World.salt) none none = .ok (pre, ks, m) ∧
    kmiRotatePartial (World.env []) World.stretch id pre pre 11 10 none (some 1) (some 1) none (some World.salt) (some World.salt) none none none = .ok (said, ks', m') := by
  obtain ⟨⟨⟨pre, ks, m⟩, said, ks', m'⟩, hr, -⟩ := World.holds_ok (r := World.pledges) (f := fun _ => true) (by decide +kernel)
  unfold World.pledges at hr
  obtain ⟨a, ha, hr⟩ := Res.bind_eq_ok.mp hr
  obtain ⟨b, hb, hr⟩ := Res.bind_eq_ok.mp hr
  cases hr
  exact ⟨_, _, _, _, _, _, ha, hb⟩

end Keride.Props
