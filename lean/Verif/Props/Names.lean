/-
C121: the number in a couple or a proof.
-/
import Verif.Spec.Names
import Verif.Lemmas.End
import Verif.Props.Batch
import Verif.Props.Number
import Verif.Props.Ends
import Verif.Lemmas.WorldAcdc

namespace Keride.Props

open Matter Spec Sample

theorem names_anchor {E : Env} {st : Store} {deep : Option Bool} {fuel : Nat} {p : Str} {n n' d : M} {s : Sad} {v : List Str} {i i' : Nat} (h : Seqner.sn n = .ok i)
    (h' : Seqner.sn n' = .ok i') (e : i' % 2 ^ 32 = i % 2 ^ 32) : verifyAnchor E st deep fuel p n' d s v = verifyAnchor E st deep fuel p n d s v := by
  unfold verifyAnchor
  rw [h, h', Res.ok_bind, Res.ok_bind, e]

theorem names_tel {E : Env} {st : Store} {deep : Option Bool} {fuel : Nat} {n n' d : M} {s : Sad} {v : List Str} {i i' : Nat} (h : Seqner.sn n = .ok i)
    (h' : Seqner.sn n' = .ok i') (e : i' % 2 ^ 32 = i % 2 ^ 32) :
    verifyTransactionEvent E st deep fuel s [(n', d)] v = verifyTransactionEvent E st deep fuel s [(n, d)] v := by
  cases fuel with
  | zero => rfl
  | succ fuel =>
    rw [verifyTransactionEvent, verifyTransactionEvent]
    refine Res.bind_same rfl fun _ _ => Res.bind_same rfl fun _ _ => Res.bind_same rfl fun _ _ => Res.bind_same rfl fun _ _ => Res.bind_same rfl fun _ _ =>
      Res.bind_same rfl fun _ _ => Res.bind_same rfl fun _ _ => ite_same (fun _ => rfl) fun _ => ?_
    change (Res.ok (n', d) >>= _) = (Res.ok (n, d) >>= _)
    rw [Res.ok_bind, Res.ok_bind]
    exact Res.bind_same rfl fun _ _ => Res.bind_same rfl fun _ _ => ite_same (fun _ => rfl) fun _ => Res.bind_same rfl fun _ _ => Res.bind_same (names_anchor h h' e) fun _ _ => rfl

theorem names_acdc {E : Env} {st : Store} {deep : Option Bool} {fuel : Nat} {sig : SadPathSig} {n' : M} {c : Sad} {v : List Str} {i i' : Nat} (h : Seqner.sn sig.seqner = .ok i)
    (h' : Seqner.sn n' = .ok i') (e : i' % 2 ^ 32 = i % 2 ^ 32) :
    verifyAcdc E st deep fuel c [.sadPath [{ sig with seqner := n' }]] v = verifyAcdc E st deep fuel c [.sadPath [sig]] v := by
  have hp : ∀ f w, verifyPathSig E st deep f c { sig with seqner := n' } w = verifyPathSig E st deep f c sig w := fun f w => by
    unfold verifyPathSig
    rw [h, h']
    simp only [Res.ok_bind, e]
  have hq : ∀ f r w, verifyPathSigs E st deep f c [{ sig with seqner := n' }] r w = verifyPathSigs E st deep f c [sig] r w := fun f r w => by
    simp only [verifyPathSigs, hp]
  have hr : ∀ f r w, verifyProof E st deep f c [.sadPath [{ sig with seqner := n' }]] r w = verifyProof E st deep f c [.sadPath [sig]] r w := fun f r w => by
    simp only [verifyProof, hq]
  cases fuel with
  | zero => rw [verifyAcdc, verifyAcdc]
  | succ fuel =>
    rw [verifyAcdc, verifyAcdc]
    simp only [hr]

theorem anchor_named {E : Env} {st : Store} {deep : Option Bool} {fuel : Nat} {p : Str} {n d : M} {s : Sad} {v w : List Str} (h : verifyAnchor E st deep fuel p n d s v = .ok (true, w)) :
    ∃ i t a q, Seqner.sn n = .ok i ∧ (st.kels p)[i % 2 ^ 32]? = some t ∧ Serder.newWithRaw E.fl (toUtf8 t) = .ok a ∧ Sadder.said E.chk a = .ok q ∧ qb64 E.chk d = .ok q := by
  unfold verifyAnchor at h
  obtain ⟨i, h1, h⟩ := Res.bind_eq_ok.mp h
  obtain ⟨t, h2, h⟩ := Res.bind_eq_ok.mp h
  obtain ⟨a, h3, h⟩ := Res.bind_eq_ok.mp h
  obtain ⟨q, h4, h⟩ := Res.bind_eq_ok.mp h
  obtain ⟨q', h5, h⟩ := Res.bind_eq_ok.mp h
  split at h
  · cases h
  rename_i hq
  cases not_not.mp hq
  exact ⟨i, t, a, q, h1, Res.ofOption_eq_ok.mp h2, h3, h4, h5⟩

/-- C121, what holds instead: the couple of an accepted transaction event has the SAID of a key event of its controller, and
the number of that key event if the number in the couple is less than 2^32. -/
theorem C121_partial (E : Env) (hist : List (Msg × Msg)) (st : Store) (deep : Option Bool) (fuel : Nat) (s : Sad) (couples : List (M × M)) (v : List Str) (r : Bool × List Str)
    (hr : Reach E hist st) (h : verifyTransactionEvent E st deep fuel s couples v = .ok r) :
    ∃ n d ii i a, couples = [(n, d)] ∧ TxController E st ii s ∧ Seqner.sn n = .ok i ∧ KeptAs E st ii (i % 2 ^ 32) a ∧
      (∃ q, Sadder.said E.chk a = .ok q ∧ qb64 E.chk d = .ok q) ∧ (i < 2 ^ 32 → Serder.sn a = .ok i) := by
  obtain ⟨⟨n, d⟩, ii, f, w, w', h1, h2, h3⟩ := tx_anchor h
  obtain ⟨i, t, a, q, k1, k2, k3, k4, k5⟩ := anchor_named h3
  obtain ⟨j1, j2⟩ := (reach_sited hr).kels _ _ _ _ k2 k3
  exact ⟨n, d, ii, i, a, h1, h2, k1, ⟨t, k2, k3, j1, j2⟩, ⟨q, k4, k5⟩, fun hlt => by rw [j2, Nat.mod_eq_of_lt hlt]⟩

/-- C121 is false: whatever transaction event is accepted with a couple, it is accepted as well when the number in the
couple is made greater by 2^32, and so is not that of any key event. -/
theorem C121_false (E : Env) (st : Store) (deep : Option Bool) (fuel : Nat) (s : Sad) (n d : M) (v : List Str) (r : Bool × List Str) (i : Nat) (hi : Seqner.sn n = .ok i)
    (hlt : i + 2 ^ 32 < 2 ^ 128) (h : verifyTransactionEvent E st deep fuel s [(n, d)] v = .ok r) :
    ∃ n', Seqner.sn n' = .ok (i + 2 ^ 32) ∧ verifyTransactionEvent E st deep fuel s [(n', d)] v = .ok r := by
  obtain ⟨n', -, h2, -⟩ := C25_lossless true _ hlt
  exact ⟨n', h2, (names_tel hi h2 (by simp)).trans h⟩

/-- C121 is false of credentials too: the number in the proof of a credential can be made greater by 2^32. -/
theorem C121_proof_false (E : Env) (st : Store) (deep : Option Bool) (fuel : Nat) (c : Sad) (sig : SadPathSig) (v : List Str) (r : Bool × List Str) (i : Nat)
    (hi : Seqner.sn sig.seqner = .ok i) (hlt : i + 2 ^ 32 < 2 ^ 128) (h : verifyAcdc E st deep fuel c [.sadPath [sig]] v = .ok r) :
    ∃ n', Seqner.sn n' = .ok (i + 2 ^ 32) ∧ verifyAcdc E st deep fuel c [.sadPath [{ sig with seqner := n' }]] v = .ok r := by
  obtain ⟨n', -, h2, -⟩ := C25_lossless true _ hlt
  exact ⟨n', h2, (names_acdc hi h2 (by simp)).trans h⟩

/-- A registry that is accepted with a couple whose number is that of no key event there is: the log of its controller has
two events, and the couple says 4294967297. -/
theorem C121_registry_false : ∃ (E : Env) (hist : List (Msg × Msg)) (st : Store) (s : Sad) (n d : M) (ii : Str) (r : Bool × List Str), Reach E hist st ∧ TxController E st ii s ∧
    (st.kels ii).length = 2 ∧ Seqner.sn n = .ok 4294967297 ∧ verifyTransactionEvent E st (some false) 5 s [(n, d)] [] = .ok r := by
  obtain ⟨x, hx, h⟩ := World.holds_ok (r := do
    let l ← World.inRow [World.signed (World.ks [1]) World.icpA, World.signed (World.ks [1]) World.ixnA]
    let m ← World.coupled World.vcpA World.ixnA
    .ok (l, m)) (f := fun x : List Msg × (Msg × Msg) => match x.2 with
      | (.payload p, .group (.couples [(n, d)]) _) => World.holds (Serder.newWithRaw (fun _ => none) (toUtf8 p)) fun s =>
        World.holds (verifyTransactionEvent (World.env []) (World.kept x.1) (some false) 5 s [(n, d)] []) fun _ =>
        World.holds (Seqner.sn n) fun i => decide (i = 1) &&
        match field (str% "t") s.ked, field (str% "ii") s.ked with
        | some (.str t), some (.str ii) => decide (t = str% "vcp") && decide (((World.kept x.1).kels ii).length = 2)
        | _, _ => false
      | _ => false) (by decide +kernel)
  split at h
  · rename_i p n d gt hm
    obtain ⟨s, hs, h⟩ := World.holds_ok h
    obtain ⟨r, hr, h⟩ := World.holds_ok h
    obtain ⟨i, hi, h⟩ := World.holds_ok h
    simp only [Bool.and_eq_true, decide_eq_true_eq] at h
    obtain ⟨rfl, h⟩ := h
    split at h
    · rename_i t ii h1 h2
      simp only [Bool.and_eq_true, decide_eq_true_eq] at h
      obtain ⟨rfl, h3⟩ := h
      have hr' : Reach (World.env []) ([] ++ pairs x.1) (World.kept x.1) := by
        have := Reach.ingest (E := World.env []) (World.env x.1) 5 x.1.length [] x.1 (some false) none .empty (World.env_same _ _) (World.env_remembers _) rfl (by simp)
        rwa [List.take_length] at this
      obtain ⟨n', e1, e2⟩ := C121_false _ _ _ _ s n d _ r _ hi (by decide) hr
      exact ⟨_, _, _, s, n', d, ii, r, hr', .inl ⟨h1, h2⟩, h3, e1, e2⟩
    · cases h
  · cases h

/-- The hypotheses of C121_proof_false are met by the credential of the examples. -/
example : ∃ (E : Env) (st : Store) (c : Sad) (sig : SadPathSig) (r : Bool × List Str), Seqner.sn sig.seqner = .ok 0 ∧ verifyAcdc E st (some false) 5 c [.sadPath [sig]] [] = .ok r := by
  obtain ⟨x, hx, h⟩ := World.holds_ok (r := do
    let l ← World.inRow World.issued
    let m ← World.proved (World.ks [1]) World.credA World.icpA
    .ok (l, m)) (f := fun x : List Msg × (Msg × Msg) => match x.2 with
      | (.payload p, .group (.quadlets [.sadPath [sig]]) _) => World.holds (Creder.newWithRaw (fun _ => none) (toUtf8 p)) fun c =>
        World.holds (verifyAcdc (World.env []) (World.kept x.1) (some false) 5 c [.sadPath [sig]] []) fun _ => World.holds (Seqner.sn sig.seqner) fun i => decide (i = 0)
      | _ => false) (by decide +kernel)
  split at h
  · rename_i p sig gt hm
    obtain ⟨c, hc, h⟩ := World.holds_ok h
    obtain ⟨r, hr, h⟩ := World.holds_ok h
    obtain ⟨i, hi, h⟩ := World.holds_ok h
    cases of_decide_eq_true h
    exact ⟨_, _, c, sig, r, hi, hr⟩
  · cases h

end Keride.Props
