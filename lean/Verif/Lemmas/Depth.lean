/-
Lemmas for C108: what is accepted with deep verification is accepted without.
-/
import Verif.Model.Sample.Ingest

namespace Keride

open Sample Matter

theorem depth_key {E : Env} {st : Store} {deep : Option Bool} {fuel : Nat} {s : Sad} {g : List SigGroup} {v w : List Str} {r : Bool × List Str}
    (h : verifyKeyEvent E st deep fuel s g v = .ok r) : verifyKeyEvent E st (some false) fuel s g w = .ok (r.1, w) := by
  cases fuel with
  | zero => simp [verifyKeyEvent] at h
  | succ fuel =>
    rw [verifyKeyEvent] at h ⊢
    obtain ⟨c, hc, h⟩ := Res.bind_eq_ok.mp h
    obtain ⟨x, hx, h⟩ := Res.bind_eq_ok.mp h
    obtain ⟨u, hu, h⟩ := Res.bind_eq_ok.mp h
    cases h
    refine Res.bind_eq_ok.mpr ⟨c, hc, Res.bind_eq_ok.mpr ⟨w, ?_, Res.bind_eq_ok.mpr ⟨u, hu, rfl⟩⟩⟩
    cases c.prior <;> rfl

theorem depth_anchor {E : Env} {st : Store} {deep : Option Bool} {fuel : Nat} {pre : Str} {q d : M} {s : Sad} {v w : List Str} {r : Bool × List Str}
    (h : verifyAnchor E st deep fuel pre q d s v = .ok r) : verifyAnchor E st (some false) fuel pre q d s w = .ok (r.1, w) := by
  unfold verifyAnchor at h ⊢
  obtain ⟨n, h1, h⟩ := Res.bind_eq_ok.mp h
  obtain ⟨event, h2, h⟩ := Res.bind_eq_ok.mp h
  obtain ⟨aserder, h3, h⟩ := Res.bind_eq_ok.mp h
  obtain ⟨asaid, h4, h⟩ := Res.bind_eq_ok.mp h
  obtain ⟨x, h5, h⟩ := Res.bind_eq_ok.mp h
  refine Res.bind_eq_ok.mpr ⟨n, h1, Res.bind_eq_ok.mpr ⟨event, h2, Res.bind_eq_ok.mpr ⟨aserder, h3, Res.bind_eq_ok.mpr ⟨asaid, h4, Res.bind_eq_ok.mpr ⟨x, h5, ?_⟩⟩⟩⟩⟩
  split at h
  · rename_i hh; rw [if_pos hh]; cases h; rfl
  · rename_i hh
    rw [if_neg hh]
    obtain ⟨sl, h6, h⟩ := Res.bind_eq_ok.mp h
    refine Res.bind_eq_ok.mpr ⟨sl, h6, ?_⟩
    rcases sl with _ | ⟨a, b, c⟩
    · cases h; rfl
    · obtain ⟨y, h7, h⟩ := Res.bind_eq_ok.mp h
      refine Res.bind_eq_ok.mpr ⟨w, rfl, ?_⟩
      obtain ⟨x1, h8, h⟩ := Res.bind_eq_ok.mp h
      obtain ⟨x2, h9, h⟩ := Res.bind_eq_ok.mp h
      refine Res.bind_eq_ok.mpr ⟨x1, h8, Res.bind_eq_ok.mpr ⟨x2, h9, ?_⟩⟩
      split at h
      · rename_i hh; rw [if_pos hh]; cases h; rfl
      · rename_i hh
        rw [if_neg hh]
        obtain ⟨p, h10, h⟩ := Res.bind_eq_ok.mp h
        refine Res.bind_eq_ok.mpr ⟨p, h10, ?_⟩
        split at h
        · rename_i hh; rw [if_pos hh]; cases h; rfl
        · rename_i hh
          rw [if_neg hh]
          obtain ⟨z, h11, h⟩ := Res.bind_eq_ok.mp h
          cases h
          exact Res.bind_eq_ok.mpr ⟨z, h11, rfl⟩

theorem depth_tel {E : Env} {st : Store} {deep : Option Bool} {fuel : Nat} {s : Sad} {g : List (M × M)} {v w : List Str} {r : Bool × List Str}
    (h : verifyTransactionEvent E st deep fuel s g v = .ok r) : verifyTransactionEvent E st (some false) fuel s g w = .ok (r.1, w) := by
  cases fuel with
  | zero => simp [verifyTransactionEvent] at h
  | succ fuel =>
    rw [verifyTransactionEvent] at h ⊢
    obtain ⟨pre, h1, h⟩ := Res.bind_eq_ok.mp h
    obtain ⟨prefixer, h2, h⟩ := Res.bind_eq_ok.mp h
    obtain ⟨sn, h3, h⟩ := Res.bind_eq_ok.mp h
    obtain ⟨t, h4, h⟩ := Res.bind_eq_ok.mp h
    obtain ⟨ilk, h5, h⟩ := Res.bind_eq_ok.mp h
    obtain ⟨said, h6, h⟩ := Res.bind_eq_ok.mp h
    obtain ⟨ri, h7, h⟩ := Res.bind_eq_ok.mp h
    refine Res.bind_eq_ok.mpr ⟨pre, h1, Res.bind_eq_ok.mpr ⟨prefixer, h2, Res.bind_eq_ok.mpr ⟨sn, h3, Res.bind_eq_ok.mpr ⟨t, h4,
      Res.bind_eq_ok.mpr ⟨ilk, h5, Res.bind_eq_ok.mpr ⟨said, h6, Res.bind_eq_ok.mpr ⟨ri, h7, ?_⟩⟩⟩⟩⟩⟩⟩
    split at h
    · cases h
    rename_i c1
    rw [if_neg c1]
    obtain ⟨source, h8, h⟩ := Res.bind_eq_ok.mp h
    obtain ⟨labels, h9, h⟩ := Res.bind_eq_ok.mp h
    obtain ⟨has, h10, h⟩ := Res.bind_eq_ok.mp h
    refine Res.bind_eq_ok.mpr ⟨source, h8, Res.bind_eq_ok.mpr ⟨labels, h9, Res.bind_eq_ok.mpr ⟨has, h10, ?_⟩⟩⟩
    split at h
    · cases h
    rename_i c2
    rw [if_neg c2]
    dsimp only at h ⊢
    obtain ⟨apre, h11, h⟩ := Res.bind_eq_ok.mp h
    obtain ⟨a, h12, h⟩ := Res.bind_eq_ok.mp h
    refine Res.bind_eq_ok.mpr ⟨apre, h11, Res.bind_eq_ok.mpr ⟨_, depth_anchor (w := w) h12, ?_⟩⟩
    dsimp only
    split at h
    · cases h
    rename_i c3
    rw [if_neg c3]
    obtain ⟨b, h13, h⟩ := Res.bind_eq_ok.mp h
    refine Res.bind_eq_ok.mpr ⟨(b.1, w), ?_, ?_⟩
    · split at h13
      · rename_i c4
        rw [if_pos c4]
        split at h13
        · cases h13
        · rename_i c5
          rw [if_neg c5]
          cases h13
          rfl
      · rename_i c4
        rw [if_neg c4]
        split at h13
        · cases h13
        rename_i c5
        rw [if_neg c5]
        split at h13
        · cases h13
        rename_i c6
        rw [if_neg c6]
        obtain ⟨i, i1, h13⟩ := Res.bind_eq_ok.mp h13
        obtain ⟨event, i2, h13⟩ := Res.bind_eq_ok.mp h13
        obtain ⟨p, i3, h13⟩ := Res.bind_eq_ok.mp h13
        obtain ⟨psaid, i4, h13⟩ := Res.bind_eq_ok.mp h13
        obtain ⟨y, -, h13⟩ := Res.bind_eq_ok.mp h13
        obtain ⟨x1, i5, h13⟩ := Res.bind_eq_ok.mp h13
        obtain ⟨x2, i6, h13⟩ := Res.bind_eq_ok.mp h13
        refine Res.bind_eq_ok.mpr ⟨i, i1, Res.bind_eq_ok.mpr ⟨event, i2, Res.bind_eq_ok.mpr ⟨p, i3, Res.bind_eq_ok.mpr ⟨psaid, i4,
          Res.bind_eq_ok.mpr ⟨w, rfl, Res.bind_eq_ok.mpr ⟨x1, i5, Res.bind_eq_ok.mpr ⟨x2, i6, ?_⟩⟩⟩⟩⟩⟩⟩
        split at h13
        · cases h13
        · rename_i c7
          rw [if_neg c7]
          cases h13
          rfl
    · dsimp only
      split at h
      · rename_i c4
        rw [if_pos c4]
        obtain ⟨event, i2, h⟩ := Res.bind_eq_ok.mp h
        obtain ⟨p, i3, h⟩ := Res.bind_eq_ok.mp h
        obtain ⟨psaid, i4, h⟩ := Res.bind_eq_ok.mp h
        refine Res.bind_eq_ok.mpr ⟨event, i2, Res.bind_eq_ok.mpr ⟨p, i3, Res.bind_eq_ok.mpr ⟨psaid, i4, ?_⟩⟩⟩
        split at h
        · cases h
        · rename_i c5
          rw [if_neg c5]
          cases h
          rfl
      · rename_i c4
        rw [if_neg c4]
        cases h
        rfl

theorem depth_pathSig {E : Env} {st : Store} {deep : Option Bool} {fuel : Nat} {c : Sad} {sig : SadPathSig} {v w x : List Str}
    (h : verifyPathSig E st deep fuel c sig v = .ok x) : verifyPathSig E st (some false) fuel c sig w = .ok w := by
  unfold verifyPathSig at h ⊢
  obtain ⟨pre, h1, h⟩ := Res.bind_eq_ok.mp h
  obtain ⟨n, h2, h⟩ := Res.bind_eq_ok.mp h
  obtain ⟨event, h3, h⟩ := Res.bind_eq_ok.mp h
  obtain ⟨serder, h4, h⟩ := Res.bind_eq_ok.mp h
  obtain ⟨said, h5, h⟩ := Res.bind_eq_ok.mp h
  obtain ⟨q, h6, h⟩ := Res.bind_eq_ok.mp h
  refine Res.bind_eq_ok.mpr ⟨pre, h1, Res.bind_eq_ok.mpr ⟨n, h2, Res.bind_eq_ok.mpr ⟨event, h3, Res.bind_eq_ok.mpr ⟨serder, h4,
      Res.bind_eq_ok.mpr ⟨said, h5, Res.bind_eq_ok.mpr ⟨q, h6, ?_⟩⟩⟩⟩⟩⟩
  split at h
  · cases h
  rename_i c1
  rw [if_neg c1]
  obtain ⟨y, -, h⟩ := Res.bind_eq_ok.mp h
  obtain ⟨a, h7, h⟩ := Res.bind_eq_ok.mp h
  obtain ⟨b, h8, h⟩ := Res.bind_eq_ok.mp h
  obtain ⟨t, h9, h⟩ := Res.bind_eq_ok.mp h
  refine Res.bind_eq_ok.mpr ⟨w, rfl, Res.bind_eq_ok.mpr ⟨a, h7, Res.bind_eq_ok.mpr ⟨b, h8, Res.bind_eq_ok.mpr ⟨t, h9, ?_⟩⟩⟩⟩
  cases t with
  | none => cases h
  | some t =>
    obtain ⟨good, h10, h⟩ := Res.bind_eq_ok.mp h
    refine Res.bind_eq_ok.mpr ⟨good, h10, ?_⟩
    split at h
    · cases h
    · rename_i c2
      rw [if_neg c2]

theorem depth_pathSigs {E : Env} {st : Store} {deep : Option Bool} {fuel : Nat} {c : Sad} {w : List Str} : ∀ {l : List SadPathSig} {rooted : Bool} {v : List Str}
    {r : Bool × List Str}, verifyPathSigs E st deep fuel c l rooted v = .ok r → verifyPathSigs E st (some false) fuel c l rooted w = .ok (r.1, w) := by
  intro l
  induction l with
  | nil => intro rooted v r h; rw [verifyPathSigs] at h ⊢; cases h; rfl
  | cons sig l ih =>
    intro rooted v r h
    rw [verifyPathSigs] at h ⊢
    obtain ⟨b, h1, h⟩ := Res.bind_eq_ok.mp h
    refine Res.bind_eq_ok.mpr ⟨b, h1, ?_⟩
    split at h
    · rename_i c1
      rw [if_pos c1]
      exact ih h
    · rename_i c1
      rw [if_neg c1]
      obtain ⟨v', h2, h⟩ := Res.bind_eq_ok.mp h
      exact Res.bind_eq_ok.mpr ⟨w, depth_pathSig h2, ih h⟩

theorem depth_proof {E : Env} {st : Store} {deep : Option Bool} {fuel : Nat} {c : Sad} {w : List Str} : ∀ {l : List SigGroup} {rooted : Bool} {v : List Str}
    {r : Bool × List Str}, verifyProof E st deep fuel c l rooted v = .ok r → verifyProof E st (some false) fuel c l rooted w = .ok (r.1, w) := by
  intro l
  induction l with
  | nil => intro rooted v r h; rw [verifyProof] at h ⊢; cases h; rfl
  | cons sig l ih =>
    intro rooted v r h
    cases sig with
    | sadPath x =>
      rw [verifyProof] at h ⊢
      obtain ⟨b, h1, h⟩ := Res.bind_eq_ok.mp h
      exact Res.bind_eq_ok.mpr ⟨_, depth_pathSigs h1, ih h⟩
    | _ => cases h

theorem depth_state {E : Env} {st : Store} {deep : Option Bool} {fuel : Nat} {vcid : Str} {v w x : List Str}
    (h : checkState E st deep fuel vcid v = .ok x) : checkState E st (some false) fuel vcid w = .ok w := by
  unfold checkState at h ⊢
  obtain ⟨event, h1, h⟩ := Res.bind_eq_ok.mp h
  obtain ⟨state, h2, h⟩ := Res.bind_eq_ok.mp h
  obtain ⟨a, h3, h⟩ := Res.bind_eq_ok.mp h
  obtain ⟨dt, h4, h⟩ := Res.bind_eq_ok.mp h
  obtain ⟨old, h5, h⟩ := Res.bind_eq_ok.mp h
  refine Res.bind_eq_ok.mpr ⟨event, h1, Res.bind_eq_ok.mpr ⟨state, h2, Res.bind_eq_ok.mpr ⟨a, h3, Res.bind_eq_ok.mpr ⟨dt, h4,
      Res.bind_eq_ok.mpr ⟨old, h5, ?_⟩⟩⟩⟩⟩
  split at h
  · cases h
  rename_i c1
  rw [if_neg c1]
  obtain ⟨y, -, h⟩ := Res.bind_eq_ok.mp h
  obtain ⟨b, h6, h⟩ := Res.bind_eq_ok.mp h
  obtain ⟨t, h7, h⟩ := Res.bind_eq_ok.mp h
  refine Res.bind_eq_ok.mpr ⟨w, rfl, Res.bind_eq_ok.mpr ⟨b, h6, Res.bind_eq_ok.mpr ⟨t, h7, ?_⟩⟩⟩
  split at h
  · cases h
  · rename_i c2
    rw [if_neg c2]

theorem depth_edges {E : Env} {st : Store} {deep : Option Bool} {c : Sad} {w : List Str} : ∀ {fuel : Nat} {l : List (Res Value)} {v x : List Str},
    verifyEdges E st deep fuel c l v = .ok x → verifyEdges E st (some false) fuel c l w = .ok w := by
  intro fuel
  induction fuel with
  | zero => intro l v x h; rw [verifyEdges] at h; cases h
  | succ fuel ih =>
    intro l v x h
    cases l with
    | nil => rw [verifyEdges]
    | cons node l =>
      rw [verifyEdges] at h ⊢
      obtain ⟨n, h1, h⟩ := Res.bind_eq_ok.mp h
      obtain ⟨e, h2, h⟩ := Res.bind_eq_ok.mp h
      obtain ⟨y, -, h⟩ := Res.bind_eq_ok.mp h
      exact Res.bind_eq_ok.mpr ⟨n, h1, Res.bind_eq_ok.mpr ⟨e, h2, Res.bind_eq_ok.mpr ⟨w, rfl, ih h⟩⟩⟩

theorem depth_acdc {E : Env} {st : Store} {deep : Option Bool} {fuel : Nat} {s : Sad} {g : List SigGroup} {v w : List Str} {r : Bool × List Str}
    (h : verifyAcdc E st deep fuel s g v = .ok r) : verifyAcdc E st (some false) fuel s g w = .ok (r.1, w) := by
  cases fuel with
  | zero => simp [verifyAcdc] at h
  | succ fuel =>
    rw [verifyAcdc] at h ⊢
    obtain ⟨status, h1, h⟩ := Res.bind_eq_ok.mp h
    refine Res.bind_eq_ok.mpr ⟨status, h1, ?_⟩
    split at h
    · cases h
    rename_i c1
    rw [if_neg c1]
    obtain ⟨vcid, h2, h⟩ := Res.bind_eq_ok.mp h
    obtain ⟨schema, h3, h⟩ := Res.bind_eq_ok.mp h
    obtain ⟨prov, h4, h⟩ := Res.bind_eq_ok.mp h
    obtain ⟨saider, h5, h⟩ := Res.bind_eq_ok.mp h
    obtain ⟨good, h6, h⟩ := Res.bind_eq_ok.mp h
    refine Res.bind_eq_ok.mpr ⟨vcid, h2, Res.bind_eq_ok.mpr ⟨schema, h3, Res.bind_eq_ok.mpr ⟨prov, h4, Res.bind_eq_ok.mpr ⟨saider, h5,
      Res.bind_eq_ok.mpr ⟨good, h6, ?_⟩⟩⟩⟩⟩
    split at h
    · cases h
    rename_i c2
    rw [if_neg c2]
    obtain ⟨x1, h7, h⟩ := Res.bind_eq_ok.mp h
    obtain ⟨text, h8, h⟩ := Res.bind_eq_ok.mp h
    obtain ⟨fits, h9, h⟩ := Res.bind_eq_ok.mp h
    refine Res.bind_eq_ok.mpr ⟨w, depth_state h7, Res.bind_eq_ok.mpr ⟨text, h8, Res.bind_eq_ok.mpr ⟨fits, h9, ?_⟩⟩⟩
    split at h
    · cases h
    rename_i c3
    rw [if_neg c3]
    obtain ⟨b, h10, h⟩ := Res.bind_eq_ok.mp h
    refine Res.bind_eq_ok.mpr ⟨(b.1, w), depth_proof h10, ?_⟩
    split at h
    · cases h
    rename_i c4
    rw [if_neg c4]
    obtain ⟨nodes, h11, h⟩ := Res.bind_eq_ok.mp h
    obtain ⟨x2, h12, h⟩ := Res.bind_eq_ok.mp h
    refine Res.bind_eq_ok.mpr ⟨nodes, h11, Res.bind_eq_ok.mpr ⟨w, depth_edges h12, ?_⟩⟩
    cases hm : st.getAcdc E vcid with
    | ok message =>
      simp only [hm] at h ⊢
      obtain ⟨e, h13, h⟩ := Res.bind_eq_ok.mp h
      obtain ⟨q, h14, h⟩ := Res.bind_eq_ok.mp h
      refine Res.bind_eq_ok.mpr ⟨e, h13, Res.bind_eq_ok.mpr ⟨q, h14, ?_⟩⟩
      split at h
      · cases h
      · rename_i c5
        rw [if_neg c5]
        cases h
        rfl
    | err e => simp only [hm] at h ⊢; cases h; rfl
    | panic => simp only [hm] at h ⊢; cases h; rfl
theorem depth_seen {E : Env} {st : Store} {verify : Option Bool} {q : Str} {f g : List Str → Res (Bool × List Str)} {r : Bool × List Str}
    (hfg : ∀ v w r, f v = .ok r → g w = .ok (r.1, w)) (h : verifyOrSeen E st verify q [] f = .ok r) :
    ∃ w, verifyOrSeen E st verify q [] g = .ok (r.1, w) := by
  unfold verifyOrSeen at h ⊢
  split at h
  · rename_i c
    rw [if_pos c]
    exact ⟨_, hfg _ _ _ h⟩
  · rename_i c
    rw [if_neg c]
    cases h
    exact ⟨_, rfl⟩

theorem depth_serder {E : Env} {st : Store} {fuel : Nat} {deep verify : Option Bool} {raw : Bytes} {next : Option Msg} {x : Action × List Str}
    (h : ingestSerder E st fuel deep verify raw next [] = .ok x) : ∃ w, ingestSerder E st fuel (some false) verify raw next [] = .ok (x.1, w) := by
  unfold ingestSerder at h ⊢
  obtain ⟨s, h1, h⟩ := Res.bind_eq_ok.mp h
  obtain ⟨q, h2, h⟩ := Res.bind_eq_ok.mp h
  rw [h1, Res.ok_bind, h2, Res.ok_bind]
  cases next with
  | none => cases h
  | some m =>
    dsimp only at h ⊢
    obtain ⟨g, h3, h⟩ := Res.bind_eq_ok.mp h
    obtain ⟨t, h4, h⟩ := Res.bind_eq_ok.mp h
    obtain ⟨ilk, h5, h⟩ := Res.bind_eq_ok.mp h
    rw [h3, Res.ok_bind, h4, Res.ok_bind, h5, Res.ok_bind]
    split at h
    · rename_i c
      rw [if_pos c]
      obtain ⟨g1, g2⟩ := g
      dsimp only at h ⊢
      split at h
      · obtain ⟨r, h6, h⟩ := Res.bind_eq_ok.mp h
        obtain ⟨w, h7⟩ := depth_seen (g := verifyKeyEvent E st (some false) fuel s _) (fun _ _ _ => depth_key) h6
        rw [h7, Res.ok_bind]
        dsimp only
        split at h
        · rename_i c2
          rw [if_pos c2]
          cases h
          exact ⟨_, rfl⟩
        · rename_i c2
          rw [if_neg c2]
          obtain ⟨pre, h8, h⟩ := Res.bind_eq_ok.mp h
          obtain ⟨text, h9, h⟩ := Res.bind_eq_ok.mp h
          cases h
          rw [h8, Res.ok_bind, h9]
          exact ⟨_, rfl⟩
      · cases h
    · rename_i c
      rw [if_neg c]
      split at h
      · rename_i c'
        rw [if_pos c']
        obtain ⟨g1, g2⟩ := g
        dsimp only at h ⊢
        split at h
        · obtain ⟨r, h6, h⟩ := Res.bind_eq_ok.mp h
          obtain ⟨w, h7⟩ := depth_seen (g := verifyTransactionEvent E st (some false) fuel s _) (fun _ _ _ => depth_tel) h6
          rw [h7, Res.ok_bind]
          dsimp only
          split at h
          · rename_i c2
            rw [if_pos c2]
            cases h
            exact ⟨_, rfl⟩
          · rename_i c2
            rw [if_neg c2]
            obtain ⟨pre, h8, h⟩ := Res.bind_eq_ok.mp h
            obtain ⟨text, h9, h⟩ := Res.bind_eq_ok.mp h
            cases h
            rw [h8, Res.ok_bind, h9]
            exact ⟨_, rfl⟩
        · cases h
      · cases h

theorem depth_creder {E : Env} {st : Store} {fuel : Nat} {deep verify : Option Bool} {raw : Bytes} {next : Option Msg} {x : Action × List Str}
    (h : ingestCreder E st fuel deep verify raw next [] = .ok x) : ∃ w, ingestCreder E st fuel (some false) verify raw next [] = .ok (x.1, w) := by
  unfold ingestCreder at h ⊢
  obtain ⟨s, h1, h⟩ := Res.bind_eq_ok.mp h
  obtain ⟨q, h2, h⟩ := Res.bind_eq_ok.mp h
  rw [h1, Res.ok_bind, h2, Res.ok_bind]
  cases next with
  | none => cases h
  | some m =>
    dsimp only at h ⊢
    obtain ⟨g, h3, h⟩ := Res.bind_eq_ok.mp h
    rw [h3, Res.ok_bind]
    obtain ⟨g1, g2⟩ := g
    dsimp only at h ⊢
    split at h
    · obtain ⟨r, h6, h⟩ := Res.bind_eq_ok.mp h
      obtain ⟨w, h7⟩ := depth_seen (g := verifyAcdc E st (some false) fuel s _) (fun _ _ _ => depth_acdc) h6
      rw [h7, Res.ok_bind]
      dsimp only
      split at h
      · rename_i c2
        rw [if_pos c2]
        cases h
        exact ⟨_, rfl⟩
      · rename_i c2
        rw [if_neg c2]
        obtain ⟨text, h9, h⟩ := Res.bind_eq_ok.mp h
        cases h
        rw [h9]
        exact ⟨_, rfl⟩
    · cases h

theorem depth_one {E : Env} {st : Store} {fuel : Nat} {deep verify : Option Bool} {m : Msg} {next : Option Msg} {x : Action × List Str}
    (h : ingestOne E st fuel deep verify m next [] = .ok x) : ∃ w, ingestOne E st fuel (some false) verify m next [] = .ok (x.1, w) := by
  unfold ingestOne at h ⊢
  obtain ⟨text, h1, h⟩ := Res.bind_eq_ok.mp h
  rw [h1, Res.ok_bind]
  dsimp only at h ⊢
  obtain ⟨r, h2, h⟩ := Res.bind_eq_ok.mp h
  rw [h2, Res.ok_bind]
  split at h
  · rename_i c
    rw [if_pos c]
    exact depth_serder h
  · rename_i c
    rw [if_neg c]
    split at h
    · rename_i c'
      rw [if_pos c']
      exact depth_creder h
    · cases h

end Keride
