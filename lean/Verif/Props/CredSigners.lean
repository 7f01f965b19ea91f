/-
C97: how many signers stand behind an accepted credential.
-/
import Verif.Props.Acdc
import Verif.Props.KelSigners

namespace Keride.Props

open Matter Spec Sample

/-- The keys and the threshold of the stored key event that a proof names. -/
def ProofKeys (E : Env) (st : Store) (sig : SadPathSig) (keys : List M) (t : Tholder) : Prop :=
  ∃ (pre text : Str) (e : Sad) (q : Str), Matter.qb64 E.chk sig.prefixer = .ok pre ∧ text ∈ st.kels pre ∧ Serder.newWithRaw E.fl (toUtf8 text) = .ok e ∧
    Sadder.said E.chk e = .ok q ∧ Matter.qb64 E.chk sig.saider = .ok q ∧ Serder.verfers e = .ok keys ∧ Serder.tholder E.chk E.fl e = .ok (some t)

/-- The position of a key that signed the credential. -/
def HasProved (C : Crypto) (cred : Sad) (sig : SadPathSig) (keys : List M) (i : Nat) : Prop :=
  ∃ g ∈ sig.sigers, g.i.index = i ∧ ∃ k, keys[i]? = some k ∧ Verfer.verify C k g.i.raw cred.raw = .ok true

/-- Signatures of a proof that have the same index are the same signature. -/
def OnePerIndex (sig : SadPathSig) : Prop := ∀ g ∈ sig.sigers, ∀ g' ∈ sig.sigers, g.i.index = g'.i.index → g = g'

/-- The stored credential, and what is known of the signatures of a proof. -/
theorem proof_signed {E : Env} (hH : HashOk E.H) {hist : List (Msg × Msg)} {st : Store} (h : Reach E hist st) {text : Str} (ht : text ∈ st.acdcs) :
    ∃ cred groups, StoredCred E.fl hist text cred groups ∧ (∃ l sig, .sadPath l ∈ groups ∧ sig ∈ l ∧ IsRoot sig) ∧
      ∀ l sig, .sadPath l ∈ groups → sig ∈ l → IsRoot sig → ∃ (keys : List M) (t : Tholder) (sigs : List Siger), ProofKeys E st sig keys t ∧
        sigs.Sublist sig.sigers ∧ sigs.Nodup ∧ (∀ i ∈ sigs.map fun g => g.i.index, HasProved E.C cred sig keys i) ∧ Meets t (sigs.map fun g => g.i.index) := by
  obtain ⟨n, hn⟩ := List.getElem?_of_mem ht
  obtain ⟨E', cred, groups, q, sc, k1, k2, -, -⟩ := C66_stored E hH hist st h n text hn
  refine ⟨cred, groups, k1, k2.rooted, fun l sig m1 m2 m3 => ?_⟩
  obtain ⟨pre, u, e, q', keys, t, sigs, s1, s2, s3, s4, s5, s6, s7, s8, s9, s10, s11⟩ := k2.signed l sig m1 m2 m3
  rw [sc.chk] at s1 s4 s5 s7
  rw [sc.fl] at s3 s7
  refine ⟨keys, t, sigs, ⟨pre, u, e, q', s1, s2, s3, s4, s5, s6, s7⟩, s8, s9, ?_, s11⟩
  intro i hi
  obtain ⟨g, hg, rfl⟩ := List.mem_map.mp hi
  obtain ⟨k, h1, h2⟩ := s10 g hg
  rw [sc.C] at h2
  exact ⟨g, s8.subset hg, rfl, k, h1, h2⟩

/-- C97: when the keys a proof names have weights, the positions of different keys that signed a kept credential have
enough weight. -/
theorem C97_weights (E : Env) (hH : HashOk E.H) (hist : List (Msg × Msg)) (st : Store) (h : Reach E hist st) (text : Str) (ht : text ∈ st.acdcs) :
    ∃ cred groups, StoredCred E.fl hist text cred groups ∧ (∃ l sig, .sadPath l ∈ groups ∧ sig ∈ l ∧ IsRoot sig) ∧
      ∀ l sig, .sadPath l ∈ groups → sig ∈ l → IsRoot sig → ∃ (keys : List M) (t : Tholder), ProofKeys E st sig keys t ∧
        ∀ qss, IsWeights t.thold qss → positions qss < 2 ^ 32 →
          ∃ signers : List Nat, signers.Nodup ∧ (∀ i ∈ signers, HasProved E.C cred sig keys i) ∧ qss ≠ [] ∧ Satisfied signers 0 qss := by
  obtain ⟨cred, groups, k1, k2, k3⟩ := proof_signed hH h ht
  refine ⟨cred, groups, k1, k2, fun l sig m1 m2 m3 => ?_⟩
  obtain ⟨keys, t, sigs, s1, -, -, s4, s5⟩ := k3 l sig m1 m2 m3
  refine ⟨keys, t, s1, fun qss hw hp => ⟨(sigs.map fun g => g.i.index).dedup, List.nodup_dedup _, fun i hi => s4 i (List.mem_dedup.mp hi), ?_⟩⟩
  rcases s5 with ⟨n, hn, -⟩ | ⟨qss', hw', hne, hs⟩
  · exfalso
    obtain ⟨cs, hcs, -⟩ := hw
    unfold Tholder.num at hn
    split at hn
    · cases hn
    · rw [hcs] at hn
      cases hn
  · have : qss = qss' := Tholder.isWeights_unique hw hw'
    subst this
    exact ⟨hne, (satisfied_mem (fun i => (List.mem_dedup).symm) 0 qss).mp (hs hp)⟩

/-- C97, partial: when the keys a proof names have a number for their threshold, at least that many different keys signed
a kept credential, provided that no two different signatures of the proof have the same index; the same signature may
come more than once. Missing: different signatures by one key, where it is false (`C97_false`). -/
theorem C97_number_partial (E : Env) (hH : HashOk E.H) (hist : List (Msg × Msg)) (st : Store) (h : Reach E hist st) (text : Str) (ht : text ∈ st.acdcs) :
    ∃ cred groups, StoredCred E.fl hist text cred groups ∧ (∃ l sig, .sadPath l ∈ groups ∧ sig ∈ l ∧ IsRoot sig) ∧
      ∀ l sig, .sadPath l ∈ groups → sig ∈ l → IsRoot sig → OnePerIndex sig → ∃ (keys : List M) (t : Tholder), ProofKeys E st sig keys t ∧
        ∀ n, t.num = .ok (some n) → ∃ signers : List Nat, signers.Nodup ∧ (∀ i ∈ signers, HasProved E.C cred sig keys i) ∧ 0 < n ∧ n ≤ signers.length := by
  obtain ⟨cred, groups, k1, k2, k3⟩ := proof_signed hH h ht
  refine ⟨cred, groups, k1, k2, fun l sig m1 m2 m3 m4 => ?_⟩
  obtain ⟨keys, t, sigs, s1, s2, s3, s4, s5⟩ := k3 l sig m1 m2 m3
  refine ⟨keys, t, s1, fun n hn => ⟨sigs.map fun g => g.i.index, ?_, s4, ?_⟩⟩
  · exact s3.map_on (fun g hg g' hg' => m4 g (s2.subset hg) g' (s2.subset hg'))
  · rcases s5 with ⟨m, hm, h3⟩ | ⟨qss, ⟨cs, hcs, -⟩, -⟩
    · rw [hn] at hm
      cases hm
      rw [List.length_map]
      rw [List.length_map] at h3
      exact h3
    · exfalso
      unfold Tholder.num at hn
      split at hn
      · cases hn
      · rw [hcs] at hn
        cases hn

/-! ### A credential of an issuer with two keys and the threshold 2 -/

def World.vcp2 := World.vcp icp2
def World.ixn2 := World.anchor icp2 1 World.vcp2
def World.cred2 := World.cred icp2 World.vcp2
def World.iss2 := World.iss World.cred2 World.vcp2
def World.ixn22 := World.anchor World.ixn2 2 World.iss2

/-- The credential with a proof: the signatures of both keys, changed. -/
def World.provedBy (f : List Siger → List Siger) : Res (Msg × Msg) := do
  let k ← World.ks [1, 2]
  let c ← World.cred2
  let e ← icp2
  let t ← fromUtf8 c.raw
  let pre ← Serder.pre e
  let q ← Sadder.said true e
  let n ← Serder.sn e
  let sg ← k.sign (World.env []) 0 c.raw none
  let sg := f sg
  let pather ← Pather.newWithPath (.arr [])
  let prefixer ← Matter.newWithQb64 pre
  let seqner ← Seqner.newWithSn n
  let saider ← Matter.newWithQb64 q
  let proof ← ratifyCreder true pre seqner q sg
  .ok (.payload t, .group (.quadlets [.sadPath [⟨pather, prefixer, seqner, saider, sg⟩]]) (.ok proof))

def World.issuedBy2 (f : List Siger → List Siger) : List (Res (Msg × Msg)) :=
  [World.signed (World.ks [1, 2]) icp2, World.signed (World.ks [1, 2]) World.ixn2, World.coupled World.vcp2 World.ixn2,
   World.signed (World.ks [1, 2]) World.ixn22, World.coupled World.iss2 World.ixn22, World.provedBy f]

/-- The same signature, with the code for signatures that only count for the current keys. -/
def relabel (g : Siger) : Siger := { g with i := { g.i with code := str% "B" } }

/-- The signature of the first key, and the same once more under the other code. -/
def firstTwice (l : List Siger) : List Siger := (l.take 1).flatMap fun g => [g, relabel g]

/-- All the proofs received name the identifier and have only signatures with the index 0 and the same bytes. -/
def onlyFirst (pre : Str) (hist : List (Msg × Msg)) : Bool :=
  hist.all fun p =>
    match p.2 with
    | .group (.quadlets gs) _ => gs.all fun g =>
        match g with
        | .sadPath l => l.all fun sig => decide (Matter.qb64 true sig.prefixer = .ok pre) &&
            sig.sigers.all fun g => decide (g.i.index = 0) && sig.sigers.all fun g' => decide (g'.i.raw = g.i.raw)
        | _ => true
    | _ => true

/-- The threshold of a key event that has one is 2, for two keys. -/
def twoOfTwo (t : Str) : Bool :=
  match Serder.newWithRaw (fun _ => none) (toUtf8 t) with
  | .ok s =>
    match Serder.tholder true (fun _ => none) s, Serder.verfers s with
    | .ok (some t), .ok l => decide (t.num = .ok (some 2)) && decide (l.length = 2)
    | _, _ => true
  | _ => true

def relabelled (pre : Str) (hist : List (Msg × Msg)) (st : Store) : Bool :=
  decide (st.acdcs.length = 1) && onlyFirst pre hist && (st.kels pre).all twoOfTwo

/-- C97 is false for numbers: one signature, sent under two codes, meets the threshold 2. The credential is kept, and the
signatures of its proof are all by the first key, with the same bytes. -/
theorem C97_false : ∃ (E : Env) (hist : List (Msg × Msg)) (st : Store) (text : Str) (cred : Sad) (groups : List SigGroup) (l : List SadPathSig) (sig : SadPathSig)
    (keys : List M) (t : Tholder), HashOk E.H ∧ Reach E hist st ∧ text ∈ st.acdcs ∧ StoredCred E.fl hist text cred groups ∧ .sadPath l ∈ groups ∧ sig ∈ l ∧
    IsRoot sig ∧ ProofKeys E st sig keys t ∧ keys.length = 2 ∧ t.num = .ok (some 2) ∧
    ∀ g ∈ sig.sigers, g.i.index = 0 ∧ ∀ g' ∈ sig.sigers, g'.i.raw = g.i.raw := by
  have h : World.keepsFrom (World.issuedBy2 firstTwice) (fun hist st => World.both (icp2 >>= Serder.pre) (icp2 >>= Serder.pre) fun pre _ => relabelled pre hist st) = true := by
    decide +kernel
  obtain ⟨hist, st, hr, h⟩ := World.keepsFrom_reach h
  obtain ⟨pre, -, -, -, h⟩ := World.both_ok h
  unfold relabelled at h
  simp only [Bool.and_eq_true, decide_eq_true_eq] at h
  obtain ⟨⟨h1, h2⟩, h3⟩ := h
  obtain ⟨text, ht⟩ := List.length_eq_one_iff.mp h1
  obtain ⟨cred, groups, k1, ⟨l, sig, k2, k3, k4⟩, k5⟩ := proof_signed World.hash_ok hr (text := text) (by rw [ht]; simp)
  obtain ⟨keys, t, -, p, -⟩ := k5 l sig k2 k3 k4
  obtain ⟨pl, tx, g, m1, -⟩ := id k1
  have h2 := List.all_eq_true.mp h2 _ m1
  have h2 := List.all_eq_true.mp h2 _ k2
  have h2 := List.all_eq_true.mp h2 _ k3
  simp only [Bool.and_eq_true, decide_eq_true_eq] at h2
  obtain ⟨h4, h5⟩ := h2
  obtain ⟨pre', u, e, q, p1, p2, p3, p4, p5, p6, p7⟩ := id p
  have p1 : Matter.qb64 true sig.prefixer = .ok pre' := p1
  rw [h4] at p1
  cases p1
  have h6 := List.all_eq_true.mp h3 u p2
  unfold twoOfTwo at h6
  have p3 : Serder.newWithRaw (fun _ => none) (toUtf8 u) = .ok e := p3
  have p7 : Serder.tholder true (fun _ => none) e = .ok (some t) := p7
  rw [p3] at h6
  dsimp only at h6
  rw [p7, p6] at h6
  simp only [Bool.and_eq_true, decide_eq_true_eq] at h6
  refine ⟨World.env [], hist, st, text, cred, groups, l, sig, keys, t, World.hash_ok, hr, by rw [ht]; simp, k1, k2, k3, k4, p, h6.2, h6.1, ?_⟩
  intro g hg
  have h5 := List.all_eq_true.mp h5 g hg
  simp only [Bool.and_eq_true, decide_eq_true_eq] at h5
  exact ⟨h5.1, fun g' hg' => of_decide_eq_true (List.all_eq_true.mp h5.2 g' hg')⟩

/-- The proof has no two different signatures with the same index. -/
def oneEach (hist : List (Msg × Msg)) : Bool :=
  hist.all fun p =>
    match p.2 with
    | .group (.quadlets gs) _ => gs.all fun g =>
        match g with
        | .sadPath l => l.all fun sig => decide (2 < sig.sigers.length) && sig.sigers.all fun g => sig.sigers.all fun g' => !decide (g.i.index = g'.i.index) || decide (g = g')
        | _ => true
    | _ => true

/-- The hypotheses of `C97_number_partial` are met by a credential that both keys signed, one of the signatures sent twice. -/
example : ∃ hist st text cred groups l sig, Reach (World.env []) hist st ∧ text ∈ st.acdcs ∧ StoredCred (fun _ => none) hist text cred groups ∧
    .sadPath l ∈ groups ∧ sig ∈ l ∧ IsRoot sig ∧ 2 < sig.sigers.length ∧ OnePerIndex sig := by
  have h : World.keepsFrom (World.issuedBy2 fun l => l.take 1 ++ l) (fun hist st => decide (st.acdcs.length = 1) && oneEach hist) = true := by
    decide +kernel
  obtain ⟨hist, st, hr, h⟩ := World.keepsFrom_reach h
  simp only [Bool.and_eq_true, decide_eq_true_eq] at h
  obtain ⟨text, ht⟩ := List.length_eq_one_iff.mp h.1
  obtain ⟨cred, groups, k1, ⟨l, sig, k2, k3, k4⟩, -⟩ := proof_signed World.hash_ok hr (text := text) (by rw [ht]; simp)
  obtain ⟨pl, tx, g, m1, -⟩ := id k1
  have h2 := List.all_eq_true.mp h.2 _ m1
  have h2 := List.all_eq_true.mp h2 _ k2
  have h2 := List.all_eq_true.mp h2 _ k3
  simp only [Bool.and_eq_true, decide_eq_true_eq] at h2
  refine ⟨hist, st, text, cred, groups, l, sig, hr, by rw [ht]; simp, k1, k2, k3, k4, h2.1, fun g hg g' hg' hi => ?_⟩
  have := List.all_eq_true.mp (List.all_eq_true.mp h2.2 g hg) g' hg'
  simpa [hi] using this

/-- The signature of the first key alone, sent twice under its own code, is not enough. -/
example : World.keepsFrom (World.issuedBy2 fun l => l.take 1 ++ l.take 1) (fun _ st => decide (st.acdcs.length = 0)) = true := by
  decide +kernel

end Keride.Props
