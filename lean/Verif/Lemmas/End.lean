/-
The copy of the model that C118 is stated with is the model, and is the same at every depth that suffices.
-/
import Verif.Spec.Ends
import Verif.Spec.Kel
import Verif.Lemmas.FairStream
import Verif.Lemmas.Replay

namespace Keride

open Sample Spec Matter

theorem Res.bind_same {α β : Type} {x y : Res α} {f g : α → Res β} (h : x = y) (k : ∀ a, y = .ok a → f a = g a) : (x >>= f) = (y >>= g) := by
  subst h
  cases x with
  | ok a => exact k a rfl
  | err e => rfl
  | panic => rfl

theorem ite_same {α : Type} {c : Prop} [Decidable c] {a b a' b' : α} (h : c → a = b) (k : ¬ c → a' = b') : (if c then a else a') = (if c then b else b') := by
  by_cases hc : c
  · rw [if_pos hc, if_pos hc, h hc]
  · rw [if_neg hc, if_neg hc, k hc]

section

variable {E : Env} {st : Store} {deep : Option Bool} {z : Option Err}

/-! ## Key events -/

theorem keyEvent_ends (hst : Sited E st) : ∀ (fuel fuel' : Nat) (s : Sad) (l : List SigGroup) (v : List Str), 0 < fuel → 0 < fuel' →
    (∀ pre, Serder.pre s = .ok pre → left (eventSaid E) v (st.kels pre) < fuel ∧ left (eventSaid E) v (st.kels pre) < fuel') →
    verifyKeyEventOr E z st deep fuel s l v = verifyKeyEvent E st deep fuel' s l v := by
  intro fuel
  induction fuel with
  | zero => intro _ _ _ _ h; omega
  | succ fuel ih =>
    intro fuel' s l v _ h' hf
    obtain ⟨fuel', rfl⟩ : ∃ n, fuel' = n + 1 := ⟨fuel' - 1, by omega⟩
    rw [verifyKeyEventOr, verifyKeyEvent]
    refine Res.bind_same rfl fun c hc => Res.bind_same ?_ fun _ _ => rfl
    obtain ⟨h1, h2⟩ := checkKeyEvent_before hc
    have hf := hf _ h1
    cases hp : c.prior with
    | none => rfl
    | some x =>
      obtain ⟨event, p⟩ := x
      obtain ⟨hm, hread⟩ := h2 event p hp
      obtain ⟨i, hi⟩ := List.mem_iff_getElem?.mp hm
      have hpre := (hst.kels _ _ _ _ hi hread).1
      refine ite_same (fun _ => Res.bind_same rfl fun q hq => ite_same (fun _ => rfl) fun hv => Res.bind_same rfl fun g _ => Res.bind_same ?_ fun _ _ => rfl) fun _ => rfl
      have := left_cons (l := st.kels c.pre) (Bool.eq_false_iff.mpr hv) (eventSaid_of hread hq) hm
      refine ih _ _ _ _ (by omega) (by omega) fun pre hp => ?_
      rw [hpre] at hp
      cases hp
      omega

/-- The depth of a log is enough. -/
theorem keyEvent_enough (hst : Sited E st) {b : Nat} (hb : Sized b st) {fuel fuel' : Nat} (h : b < fuel) (h' : b < fuel') (s : Sad) (l : List SigGroup) (v : List Str) :
    verifyKeyEventOr E z st deep fuel s l v = verifyKeyEvent E st deep fuel' s l v :=
  keyEvent_ends hst fuel fuel' s l v (by omega) (by omega) fun pre _ => by
    have := left_le (eventSaid E) v (st.kels pre)
    have := (hb.1 pre).1
    omega

/-! ## Transaction events -/

theorem anchor_ends (hst : Sited E st) {b : Nat} (hb : Sized b st) {fuel fuel' : Nat} (h : b < fuel) (h' : b < fuel') (p : Str) (n d : M) (s : Sad) (v : List Str) :
    verifyAnchorOr E z st deep fuel p n d s v = verifyAnchor E st deep fuel' p n d s v := by
  unfold verifyAnchorOr verifyAnchor
  refine Res.bind_same rfl fun _ _ => Res.bind_same rfl fun _ _ => Res.bind_same rfl fun _ _ => Res.bind_same rfl fun _ _ => Res.bind_same rfl fun _ _ =>
    ite_same (fun _ => rfl) fun _ => Res.bind_same rfl fun sl _ => ?_
  cases sl with
  | none => rfl
  | some x =>
    refine Res.bind_same (ite_same (fun _ => ite_same (fun _ => rfl) fun _ => Res.bind_same rfl fun _ _ => Res.bind_same ?_ fun _ _ => rfl) fun _ => rfl) fun _ _ => rfl
    exact keyEvent_enough hst hb h h' _ _ _

theorem tel_ends (hst : Sited E st) {b : Nat} (hb : Sized b st) : ∀ (fuel fuel' : Nat) (s : Sad) (l : List (M × M)) (v : List Str), b + 1 < fuel → b + 1 < fuel' →
    (∀ pre, Serder.pre s = .ok pre → left (eventSaid E) v (st.tels pre) + b + 1 < fuel ∧ left (eventSaid E) v (st.tels pre) + b + 1 < fuel') →
    verifyTransactionEventOr E z st deep fuel s l v = verifyTransactionEvent E st deep fuel' s l v := by
  intro fuel
  induction fuel with
  | zero => intro _ _ _ _ h; omega
  | succ fuel ih =>
    intro fuel' s l v h h' hf
    obtain ⟨fuel', rfl⟩ : ∃ n, fuel' = n + 1 := ⟨fuel' - 1, by omega⟩
    rw [verifyTransactionEventOr, verifyTransactionEvent]
    refine Res.bind_same rfl fun pre hpre => Res.bind_same rfl fun _ _ => Res.bind_same rfl fun sn _ => Res.bind_same rfl fun _ _ => Res.bind_same rfl fun ilk _ =>
      Res.bind_same rfl fun _ _ => Res.bind_same rfl fun _ _ => ite_same (fun _ => rfl) fun _ => Res.bind_same rfl fun _ _ => Res.bind_same rfl fun _ _ =>
      Res.bind_same rfl fun _ _ => ite_same (fun _ => rfl) fun _ => ?_
    dsimp only
    refine Res.bind_same rfl fun _ _ => Res.bind_same (anchor_ends hst hb (by omega) (by omega) _ _ _ _ _) fun a ha => ite_same (fun _ => rfl) fun _ =>
      Res.bind_same ?_ fun _ _ => rfl
    refine ite_same (fun _ => rfl) fun _ => ite_same (fun _ => rfl) fun _ => ite_same (fun _ => rfl) fun _ => Res.bind_same rfl fun i _ => Res.bind_same rfl fun event hev =>
      Res.bind_same rfl fun p hp => Res.bind_same rfl fun psaid hps => Res.bind_same ?_ fun _ _ => rfl
    refine ite_same (fun _ => ite_same (fun _ => rfl) fun hv => Res.bind_same rfl fun g _ => Res.bind_same ?_ fun _ _ => rfl) fun _ => rfl
    obtain ⟨hpp, -⟩ := getTransactionEvent_site hst hev hp
    have hf := hf _ hpre
    have h5 := left_cons (l := st.tels pre) (Bool.eq_false_iff.mpr hv) (eventSaid_of hp hps) (getTransactionEvent_mem hev)
    have h6 := left_mono (f := eventSaid E) (l := st.tels pre) (verifyAnchor_events ha).1
    refine ih _ _ _ _ (by omega) (by omega) fun q hq => ?_
    rw [hpp] at hq
    cases hq
    omega

theorem tel_enough (hst : Sited E st) {b : Nat} (hb : Sized b st) {fuel fuel' : Nat} (h : b + b + 1 < fuel) (h' : b + b + 1 < fuel') (s : Sad) (l : List (M × M)) (v : List Str) :
    verifyTransactionEventOr E z st deep fuel s l v = verifyTransactionEvent E st deep fuel' s l v :=
  tel_ends hst hb fuel fuel' s l v (by omega) (by omega) fun pre _ => by
    have := left_le (eventSaid E) v (st.tels pre)
    have := (hb.1 pre).2
    omega

/-! ## Credentials -/

theorem pathSig_ends (hst : Sited E st) {b : Nat} (hb : Sized b st) {fuel fuel' : Nat} (h : b < fuel) (h' : b < fuel') (c : Sad) (sig : SadPathSig) (v : List Str) :
    verifyPathSigOr E z st deep fuel c sig v = verifyPathSig E st deep fuel' c sig v := by
  unfold verifyPathSigOr verifyPathSig
  refine Res.bind_same rfl fun _ _ => Res.bind_same rfl fun _ _ => Res.bind_same rfl fun _ _ => Res.bind_same rfl fun _ _ => Res.bind_same rfl fun _ _ =>
    Res.bind_same rfl fun _ _ => ite_same (fun _ => rfl) fun _ => Res.bind_same ?_ fun _ _ => Res.bind_same rfl fun _ _ => Res.bind_same rfl fun _ _ =>
      Res.bind_same rfl fun t _ => by cases t <;> rfl
  exact ite_same (fun _ => ite_same (fun _ => rfl) fun _ => Res.bind_same rfl fun _ _ => Res.bind_same (keyEvent_enough hst hb h h' _ _ _) fun _ _ => rfl) fun _ => rfl

theorem pathSigs_ends (hst : Sited E st) {b : Nat} (hb : Sized b st) {fuel fuel' : Nat} (h : b < fuel) (h' : b < fuel') (c : Sad) : ∀ (l : List SadPathSig) (r : Bool)
    (v : List Str), verifyPathSigsOr E z st deep fuel c l r v = verifyPathSigs E st deep fuel' c l r v
  | [], _, _ => rfl
  | sig :: l, r, v => by
    rw [verifyPathSigsOr, verifyPathSigs]
    exact Res.bind_same rfl fun _ _ => ite_same (fun _ => pathSigs_ends hst hb h h' c l _ _) fun _ => Res.bind_same (pathSig_ends hst hb h h' _ _ _) fun _ _ =>
      pathSigs_ends hst hb h h' c l _ _

theorem proof_ends (hst : Sited E st) {b : Nat} (hb : Sized b st) {fuel fuel' : Nat} (h : b < fuel) (h' : b < fuel') (c : Sad) : ∀ (l : List SigGroup) (r : Bool)
    (v : List Str), verifyProofOr E z st deep fuel c l r v = verifyProof E st deep fuel' c l r v
  | [], _, _ => rfl
  | g :: l, r, v => by
    cases g with
    | sadPath x =>
      rw [verifyProofOr, verifyProof]
      exact Res.bind_same (pathSigs_ends hst hb h h' _ _ _ _) fun _ _ => proof_ends hst hb h h' c l _ _
    | _ => rfl

theorem state_ends (hst : Sited E st) {b : Nat} (hb : Sized b st) {fuel fuel' : Nat} (h : b + b + 1 < fuel) (h' : b + b + 1 < fuel') (q : Str) (v : List Str) :
    checkStateOr E z st deep fuel q v = checkState E st deep fuel' q v := by
  unfold checkStateOr checkState
  refine Res.bind_same rfl fun _ _ => Res.bind_same rfl fun _ _ => Res.bind_same rfl fun _ _ => Res.bind_same rfl fun _ _ => Res.bind_same rfl fun _ _ =>
    ite_same (fun _ => rfl) fun _ => Res.bind_same ?_ fun _ _ => rfl
  exact ite_same (fun _ => Res.bind_same rfl fun _ _ => ite_same (fun _ => rfl) fun _ => Res.bind_same rfl fun _ _ =>
    Res.bind_same (tel_enough hst hb h h' _ _ _) fun _ _ => rfl) fun _ => rfl

/-- A credential has no more edges than this. -/
def Branches (n : Nat) (c : Sad) : Prop := ∀ prov nodes, Creder.chains c = .ok prov → edgeNodes prov = .ok nodes → nodes.length ≤ n

theorem acdc_ends (hst : Sited E st) {b n : Nat} (hb : Sized b st) (hn : ∀ t ∈ st.acdcs, ∀ c, Creder.newWithRaw E.fl (toUtf8 t) = .ok c → Branches n c) : ∀ fuel,
    (∀ (fuel' : Nat) (c : Sad) (l : List SigGroup) (v : List Str), Branches n c →
      (left (credSaid E) v st.acdcs + 1) * (n + 2) + (b + b + 2) ≤ fuel → (left (credSaid E) v st.acdcs + 1) * (n + 2) + (b + b + 2) ≤ fuel' →
      verifyAcdcOr E z st deep fuel c l v = verifyAcdc E st deep fuel' c l v) ∧
    (∀ (fuel' : Nat) (c : Sad) (nodes : List (Res Value)) (v : List Str), nodes.length + 1 + left (credSaid E) v st.acdcs * (n + 2) + (b + b + 2) ≤ fuel →
      nodes.length + 1 + left (credSaid E) v st.acdcs * (n + 2) + (b + b + 2) ≤ fuel' → verifyEdgesOr E z st deep fuel c nodes v = verifyEdges E st deep fuel' c nodes v) := by
  intro fuel
  induction fuel with
  | zero => exact ⟨fun _ _ _ _ _ h => by omega, fun _ _ _ _ h => by omega⟩
  | succ fuel ih =>
    obtain ⟨ih1, ih2⟩ := ih
    constructor
    · intro fuel' c l v hc h h'
      obtain ⟨fuel', rfl⟩ : ∃ n, fuel' = n + 1 := ⟨fuel' - 1, by omega⟩
      rw [Nat.add_mul] at h h'
      rw [verifyAcdcOr, verifyAcdc]
      refine Res.bind_same rfl fun _ _ => ite_same (fun _ => rfl) fun _ => Res.bind_same rfl fun vcid _ => Res.bind_same rfl fun _ _ => Res.bind_same rfl fun prov hprov =>
        Res.bind_same rfl fun _ _ => Res.bind_same rfl fun _ _ => ite_same (fun _ => rfl) fun _ => Res.bind_same (state_ends hst hb (by omega) (by omega) _ _) fun v1 h1 =>
        Res.bind_same rfl fun _ _ => Res.bind_same rfl fun _ _ => ite_same (fun _ => rfl) fun _ =>
        Res.bind_same (proof_ends hst hb (by omega) (by omega) _ _ _ _) fun r hr => ite_same (fun _ => rfl) fun _ => Res.bind_same rfl fun nodes hnodes =>
        Res.bind_same ?_ fun _ _ => by cases st.getAcdc E vcid <;> rfl
      have h3 := hc prov nodes hprov hnodes
      have h5 : left (credSaid E) r.2 st.acdcs ≤ left (credSaid E) v st.acdcs :=
        left_mono fun q hq => (verifyProof_events hr).1 q ((checkState_events h1).1 q hq)
      have h6 := Nat.mul_le_mul_right (n + 2) h5
      exact ih2 _ _ _ _ (by omega) (by omega)
    · intro fuel' c nodes v h h'
      obtain ⟨fuel', rfl⟩ : ∃ n, fuel' = n + 1 := ⟨fuel' - 1, by omega⟩
      cases nodes with
      | nil => rw [verifyEdgesOr, verifyEdges]
      | cons x nodes =>
        rw [List.length_cons] at h h'
        rw [verifyEdgesOr, verifyEdges]
        refine Res.bind_same rfl fun node _ => Res.bind_same rfl fun e he => ?_
        obtain ⟨⟨hg, hread, hsaid⟩, -⟩ := checkEdge_found he
        have hm := List.mem_of_find?_eq_some (Res.ofOption_eq_ok.mp hg)
        refine Res.bind_same ?_ fun w hw => ?_
        · refine ite_same (fun _ => ite_same (fun _ => rfl) fun hv => Res.bind_same rfl fun g _ => Res.bind_same ?_ fun _ _ => rfl) fun _ => rfl
          have h5 := left_cons (l := st.acdcs) (Bool.eq_false_iff.mpr hv) (credSaid_of hread hsaid) hm
          have h6 := Nat.mul_le_mul_right (n + 2) (show left (credSaid E) (e.1 :: v) st.acdcs + 1 ≤ left (credSaid E) v st.acdcs from h5)
          exact ih1 _ _ _ _ (hn _ hm _ hread) (by omega) (by omega)
        · have h5 : left (credSaid E) w st.acdcs ≤ left (credSaid E) v st.acdcs := by
            refine left_mono fun q hq => ?_
            split at hw
            · split at hw
              · cases hw; exact hq
              · obtain ⟨g, -, hw⟩ := Res.bind_eq_ok.mp hw
                obtain ⟨r, hr, hw⟩ := Res.bind_eq_ok.mp hw
                cases hw
                exact (acdc_grows fuel').1 _ _ _ _ hr q (List.mem_cons_of_mem _ hq)
            · cases hw; exact hq
          have h6 := Nat.mul_le_mul_right (n + 2) h5
          exact ih2 _ _ _ _ (by omega) (by omega)

/-! ## Streams -/

theorem branches_exist (c : Sad) : ∃ n, Branches n c := by
  unfold Branches
  cases h1 : Creder.chains c with
  | ok prov =>
    cases h2 : edgeNodes prov with
    | ok nodes => exact ⟨nodes.length, fun p l h k => by cases h; rw [h2] at k; cases k; exact Nat.le_refl _⟩
    | err e => exact ⟨0, fun p l h k => by cases h; rw [h2] at k; cases k⟩
    | panic => exact ⟨0, fun p l h k => by cases h; rw [h2] at k; cases k⟩
  | err e => exact ⟨0, fun p l h => by cases h⟩
  | panic => exact ⟨0, fun p l h => by cases h⟩

theorem Branches.mono {m n : Nat} {c : Sad} (h : Branches m c) (hmn : m ≤ n) : Branches n c := fun p l h1 h2 => Nat.le_trans (h p l h1 h2) hmn

theorem branches_all (E : Env) : ∀ l : List Str, ∃ n, ∀ t ∈ l, ∀ c, Creder.newWithRaw E.fl (toUtf8 t) = .ok c → Branches n c
  | [] => ⟨0, nofun⟩
  | t :: l => by
    obtain ⟨n, hn⟩ := branches_all E l
    cases h : Creder.newWithRaw E.fl (toUtf8 t) with
    | ok c =>
      obtain ⟨m, hm⟩ := branches_exist c
      refine ⟨max m n, fun u hu d hd => ?_⟩
      rcases List.mem_cons.mp hu with rfl | hu
      · rw [h] at hd
        cases hd
        exact hm.mono (Nat.le_max_left _ _)
      · exact (hn u hu d hd).mono (Nat.le_max_right _ _)
    | err e =>
      refine ⟨n, fun u hu d hd => ?_⟩
      rcases List.mem_cons.mp hu with rfl | hu
      · rw [h] at hd; cases hd
      · exact hn u hu d hd
    | panic =>
      refine ⟨n, fun u hu d hd => ?_⟩
      rcases List.mem_cons.mp hu with rfl | hu
      · rw [h] at hd; cases hd
      · exact hn u hu d hd

theorem verifyOrSeen_same {verify : Option Bool} {said : Str} {v : List Str} {f g : List Str → Res (Bool × List Str)} (h : ∀ w, f w = g w) :
    verifyOrSeen E st verify said v f = verifyOrSeen E st verify said v g := by
  unfold verifyOrSeen
  rw [h]

theorem one_ends (hst : Sited E st) {b : Nat} (hb : Sized b st) (deep verify : Option Bool) (m : Msg) (next : Option Msg) (v : List Str) :
    ∃ k, ∀ z fuel fuel', k ≤ fuel → k ≤ fuel' → ingestOneOr E z st deep fuel verify m next v = ingestOne E st fuel' deep verify m next v := by
  obtain ⟨n, hn⟩ := branches_all E st.acdcs
  have key : ∃ j, ∀ text c, m.payloadText = .ok text → Creder.newWithRaw E.fl (toUtf8 text) = .ok c → Branches j c := by
    cases h1 : m.payloadText with
    | ok text =>
      cases h2 : Creder.newWithRaw E.fl (toUtf8 text) with
      | ok c =>
        obtain ⟨j, hj⟩ := branches_exist c
        exact ⟨j, fun t d h k => by cases h; rw [h2] at k; cases k; exact hj⟩
      | err e => exact ⟨0, fun t d h k => by cases h; rw [h2] at k; cases k⟩
      | panic => exact ⟨0, fun t d h k => by cases h; rw [h2] at k; cases k⟩
    | err e => exact ⟨0, nofun⟩
    | panic => exact ⟨0, nofun⟩
  obtain ⟨j, hj⟩ := key
  refine ⟨(b + 1) * (max j n + 2) + (b + b + 2), fun z fuel fuel' h h' => ?_⟩
  unfold ingestOneOr ingestOne
  refine Res.bind_same rfl fun text ht => Res.bind_same rfl fun r _ => ite_same (fun _ => ?_) fun _ => ite_same (fun _ => ?_) fun _ => rfl
  · unfold ingestSerderOr ingestSerder
    refine Res.bind_same rfl fun s _ => Res.bind_same rfl fun q _ => ?_
    cases next with
    | none => rfl
    | some g =>
      refine Res.bind_same rfl fun g _ => Res.bind_same rfl fun _ _ => Res.bind_same rfl fun _ _ => ite_same (fun _ => ?_) fun _ => ite_same (fun _ => ?_) fun _ => rfl
      · obtain ⟨g, gt⟩ := g
        cases g with
        | quadlets l => exact Res.bind_same (verifyOrSeen_same fun w => keyEvent_enough hst hb (by omega) (by omega) _ _ _) fun _ _ => rfl
        | _ => rfl
      · obtain ⟨g, gt⟩ := g
        cases g with
        | couples l => exact Res.bind_same (verifyOrSeen_same fun w => tel_enough hst hb (by omega) (by omega) _ _ _) fun _ _ => rfl
        | _ => rfl
  · unfold ingestCrederOr ingestCreder
    refine Res.bind_same rfl fun c hc => Res.bind_same rfl fun q _ => ?_
    cases next with
    | none => rfl
    | some g =>
      refine Res.bind_same rfl fun g _ => ?_
      obtain ⟨g, gt⟩ := g
      cases g with
      | quadlets l =>
        refine Res.bind_same (verifyOrSeen_same fun w => ?_) fun _ _ => rfl
        have hx := Nat.mul_le_mul_right (max j n + 2) (Nat.succ_le_succ (Nat.le_trans (left_le (credSaid E) w st.acdcs) hb.2))
        exact (acdc_ends hst hb (n := max j n) (fun t ht c hc => (hn t ht c hc).mono (Nat.le_max_right _ _)) fuel).1 fuel' c l w
          ((hj _ _ ht hc).mono (Nat.le_max_left _ _)) (Nat.le_trans (Nat.add_le_add_right hx _) h) (Nat.le_trans (Nat.add_le_add_right hx _) h')
      | _ => rfl

end

theorem loop_ends {E : Env} (hR : Remembers E) (deep : Option Bool) {verify : Option Bool} (hv : verify ≠ some false) (msgs : List Msg) : ∀ (st : Store) (v : List Str) (b : Nat),
    Sited E st → Sized b st → (∀ q ∈ v, Sample.Holds E st q) →
    ∃ k, ∀ z fuel fuel', k ≤ fuel → k ≤ fuel' → ingestLoopOr E z fuel deep verify st msgs v = ingestLoop E fuel' deep verify st msgs v := by
  induction msgs using pairs.induct with
  | case1 m g rest ih =>
    intro st v b hst hb hh
    obtain ⟨k, hk⟩ := one_ends hst hb deep verify m (some g) v
    cases h1 : ingestOne E st k deep verify m (some g) v with
    | err e =>
      refine ⟨k, fun z fuel fuel' h h' => ?_⟩
      unfold ingestLoopOr ingestLoop
      rw [hk z fuel k h (Nat.le_refl _), ← hk none k fuel' (Nat.le_refl _) h', hk none k k (Nat.le_refl _) (Nat.le_refl _), h1]
    | panic =>
      refine ⟨k, fun z fuel fuel' h h' => ?_⟩
      unfold ingestLoopOr ingestLoop
      rw [hk z fuel k h (Nat.le_refl _), ← hk none k fuel' (Nat.le_refl _) h', hk none k k (Nat.le_refl _) (Nat.le_refl _), h1]
    | ok x =>
      obtain ⟨a, v'⟩ := x
      have hf := ingestOne_fresh hR hv hh h1
      cases h2 : perform E st a with
      | mk st' r =>
        have hs := sited_step st m g v a v' st' r hst hf h2
        have hz : Sized (b + 1) st' := by have := perform_sized (E := E) hb a; rwa [h2] at this
        cases r with
        | ok u =>
          obtain ⟨j, hj⟩ := ih st' v' (b + 1) hs hz (fresh_known hh hf h2)
          refine ⟨max k j, fun z fuel fuel' h h' => ?_⟩
          have a1 := Nat.le_trans (Nat.le_max_left k j) h
          have a2 := Nat.le_trans (Nat.le_max_left k j) h'
          unfold ingestLoopOr ingestLoop
          rw [hk z fuel k a1 (Nat.le_refl _), ← hk none k fuel' (Nat.le_refl _) a2, hk none k k (Nat.le_refl _) (Nat.le_refl _), h1]
          dsimp only
          rw [h2]
          exact hj z fuel fuel' (Nat.le_trans (Nat.le_max_right k j) h) (Nat.le_trans (Nat.le_max_right k j) h')
        | err e =>
          refine ⟨k, fun z fuel fuel' h h' => ?_⟩
          unfold ingestLoopOr ingestLoop
          rw [hk z fuel k h (Nat.le_refl _), ← hk none k fuel' (Nat.le_refl _) h', hk none k k (Nat.le_refl _) (Nat.le_refl _), h1]
          dsimp only
          rw [h2]
        | panic =>
          refine ⟨k, fun z fuel fuel' h h' => ?_⟩
          unfold ingestLoopOr ingestLoop
          rw [hk z fuel k h (Nat.le_refl _), ← hk none k fuel' (Nat.le_refl _) h', hk none k k (Nat.le_refl _) (Nat.le_refl _), h1]
          dsimp only
          rw [h2]
  | case2 msgs hn =>
    intro st v b hst hb hh
    match msgs, hn with
    | [], _ => exact ⟨0, fun _ _ _ _ _ => by unfold ingestLoopOr ingestLoop; rfl⟩
    | [m], _ =>
      obtain ⟨k, hk⟩ := one_ends hst hb deep verify m none v
      refine ⟨k, fun z fuel fuel' h h' => ?_⟩
      unfold ingestLoopOr ingestLoop
      rw [hk z fuel fuel' h h']
      rfl
    | m :: g :: rest, hn => exact absurd rfl (hn m g rest)

theorem verifyOrSeen_free {E : Env} {st : Store} {said : Str} {v : List Str} (f g : List Str → Res (Bool × List Str)) :
    verifyOrSeen E st (some false) said v f = verifyOrSeen E st (some false) said v g := rfl

theorem one_free (E : Env) (z : Option Err) (st : Store) (deep : Option Bool) (fuel fuel' : Nat) (m : Msg) (next : Option Msg) (v : List Str) :
    ingestOneOr E z st deep fuel (some false) m next v = ingestOne E st fuel' deep (some false) m next v := by
  unfold ingestOneOr ingestOne
  refine Res.bind_same rfl fun text ht => Res.bind_same rfl fun r _ => ite_same (fun _ => ?_) fun _ => ite_same (fun _ => ?_) fun _ => rfl
  · unfold ingestSerderOr ingestSerder
    refine Res.bind_same rfl fun s _ => Res.bind_same rfl fun q _ => ?_
    cases next with
    | none => rfl
    | some g =>
      refine Res.bind_same rfl fun g _ => Res.bind_same rfl fun _ _ => Res.bind_same rfl fun _ _ => ite_same (fun _ => ?_) fun _ => ite_same (fun _ => ?_) fun _ => rfl
      · obtain ⟨g, gt⟩ := g
        cases g with
        | quadlets l => exact Res.bind_same (verifyOrSeen_free _ _) fun _ _ => rfl
        | _ => rfl
      · obtain ⟨g, gt⟩ := g
        cases g with
        | couples l => exact Res.bind_same (verifyOrSeen_free _ _) fun _ _ => rfl
        | _ => rfl
  · unfold ingestCrederOr ingestCreder
    refine Res.bind_same rfl fun c hc => Res.bind_same rfl fun q _ => ?_
    cases next with
    | none => rfl
    | some g =>
      refine Res.bind_same rfl fun g _ => ?_
      obtain ⟨g, gt⟩ := g
      cases g with
      | quadlets l => exact Res.bind_same (verifyOrSeen_free _ _) fun _ _ => rfl
      | _ => rfl

theorem loop_free (E : Env) (z : Option Err) (deep : Option Bool) (fuel fuel' : Nat) (msgs : List Msg) : ∀ (st : Store) (v : List Str),
    ingestLoopOr E z fuel deep (some false) st msgs v = ingestLoop E fuel' deep (some false) st msgs v := by
  induction msgs using pairs.induct with
  | case1 m g rest ih =>
    intro st v
    unfold ingestLoopOr ingestLoop
    rw [one_free E z st deep fuel fuel']
    cases ingestOne E st fuel' deep (some false) m (some g) v with
    | err e => rfl
    | panic => rfl
    | ok x =>
      dsimp only
      cases h2 : perform E st x.1 with
      | mk st' r =>
        cases r with
        | ok u => exact ih _ _
        | err e => rfl
        | panic => rfl
  | case2 msgs hn =>
    intro st v
    match msgs, hn with
    | [], _ => unfold ingestLoopOr ingestLoop; rfl
    | [m], _ => unfold ingestLoopOr ingestLoop; rw [one_free E z st deep fuel fuel']; rfl
    | m :: g :: rest, hn => exact absurd rfl (hn m g rest)

theorem loop_sized {E : Env} {fuel : Nat} {deep verify : Option Bool} (msgs : List Msg) : ∀ (st : Store) (v : List Str) (b : Nat), Sized b st →
    ∃ b', Sized b' (ingestLoop E fuel deep verify st msgs v).1 := by
  induction msgs using pairs.induct with
  | case1 m g rest ih =>
    intro st v b hb
    unfold ingestLoop
    split
    · exact ⟨b, hb⟩
    · exact ⟨b, hb⟩
    · rename_i a v' h
      have := perform_sized (E := E) hb a
      split
      · rename_i h2
        rw [h2] at this
        exact ih _ _ _ this
      · rename_i h2
        rw [h2] at this
        exact ⟨_, this⟩
  | case2 msgs hn =>
    intro st v b hb
    match msgs, hn with
    | [], _ => unfold ingestLoop; exact ⟨b, hb⟩
    | [m], _ => unfold ingestLoop; split <;> exact ⟨b, hb⟩
    | m :: g :: rest, hn => exact absurd rfl (hn m g rest)

theorem reach_sized {E : Env} {hist : List (Msg × Msg)} {st : Store} (h : Reach E hist st) : ∃ b, Sized b st := by
  induction h with
  | empty => exact ⟨0, fun _ => ⟨Nat.le_refl _, Nat.le_refl _⟩, Nat.le_refl _⟩
  | ingest E' fuel n stream msgs deep verify hr hc hR hp hv ih =>
    obtain ⟨b, hb⟩ := ih
    exact loop_sized _ _ _ b hb

/-! ## The copy is the model -/

section

variable (E : Env) (st : Store) (deep : Option Bool)

theorem keyEvent_copy : ∀ fuel s l v, verifyKeyEventOr E none st deep fuel s l v = verifyKeyEvent E st deep fuel s l v := by
  intro fuel
  induction fuel with
  | zero => intro s l v; rw [verifyKeyEventOr, verifyKeyEvent]; rfl
  | succ fuel ih =>
    intro s l v
    rw [verifyKeyEventOr, verifyKeyEvent]
    refine Res.bind_same rfl fun c hc => Res.bind_same ?_ fun _ _ => rfl
    cases c.prior with
    | none => rfl
    | some x => exact ite_same (fun _ => Res.bind_same rfl fun q hq => ite_same (fun _ => rfl) fun hv => Res.bind_same rfl fun g _ => Res.bind_same (ih _ _ _) fun _ _ => rfl) fun _ => rfl

theorem anchor_copy (fuel : Nat) (p : Str) (n d : M) (s : Sad) (v : List Str) :
    verifyAnchorOr E none st deep fuel p n d s v = verifyAnchor E st deep fuel p n d s v := by
  unfold verifyAnchorOr verifyAnchor
  simp only [keyEvent_copy]
  rfl

theorem tel_copy : ∀ fuel s l v, verifyTransactionEventOr E none st deep fuel s l v = verifyTransactionEvent E st deep fuel s l v := by
  intro fuel
  induction fuel with
  | zero => intro s l v; rw [verifyTransactionEventOr, verifyTransactionEvent]; rfl
  | succ fuel ih =>
    intro s l v
    rw [verifyTransactionEventOr, verifyTransactionEvent]
    simp only [anchor_copy, ih]

theorem pathSig_copy (fuel : Nat) (c : Sad) (sig : SadPathSig) (v : List Str) : verifyPathSigOr E none st deep fuel c sig v = verifyPathSig E st deep fuel c sig v := by
  unfold verifyPathSigOr verifyPathSig
  simp only [keyEvent_copy]
  rfl

theorem pathSigs_copy (fuel : Nat) (c : Sad) : ∀ (l : List SadPathSig) (r : Bool) (v : List Str), verifyPathSigsOr E none st deep fuel c l r v = verifyPathSigs E st deep fuel c l r v
  | [], _, _ => rfl
  | sig :: l, r, v => by
    rw [verifyPathSigsOr, verifyPathSigs]
    simp only [pathSig_copy, pathSigs_copy fuel c l]

theorem proof_copy (fuel : Nat) (c : Sad) : ∀ (l : List SigGroup) (r : Bool) (v : List Str), verifyProofOr E none st deep fuel c l r v = verifyProof E st deep fuel c l r v
  | [], _, _ => rfl
  | g :: l, r, v => by
    cases g with
    | sadPath x =>
      rw [verifyProofOr, verifyProof]
      simp only [pathSigs_copy, proof_copy fuel c l]
    | _ => rfl

theorem state_copy (fuel : Nat) (q : Str) (v : List Str) : checkStateOr E none st deep fuel q v = checkState E st deep fuel q v := by
  unfold checkStateOr checkState
  simp only [tel_copy]

theorem acdc_copy : ∀ fuel, (∀ c l v, verifyAcdcOr E none st deep fuel c l v = verifyAcdc E st deep fuel c l v) ∧
    ∀ c nodes v, verifyEdgesOr E none st deep fuel c nodes v = verifyEdges E st deep fuel c nodes v := by
  intro fuel
  induction fuel with
  | zero => exact ⟨fun c l v => by rw [verifyAcdcOr, verifyAcdc]; rfl, fun c l v => by rw [verifyEdgesOr, verifyEdges]; rfl⟩
  | succ fuel ih =>
    obtain ⟨ih1, ih2⟩ := ih
    refine ⟨fun c l v => ?_, fun c l v => ?_⟩
    · rw [verifyAcdcOr, verifyAcdc]
      refine Res.bind_same rfl fun _ _ => ite_same (fun _ => rfl) fun _ => Res.bind_same rfl fun vcid _ => Res.bind_same rfl fun _ _ => Res.bind_same rfl fun prov hprov =>
        Res.bind_same rfl fun _ _ => Res.bind_same rfl fun _ _ => ite_same (fun _ => rfl) fun _ => Res.bind_same (state_copy E st deep _ _ _) fun v1 h1 =>
        Res.bind_same rfl fun _ _ => Res.bind_same rfl fun _ _ => ite_same (fun _ => rfl) fun _ =>
        Res.bind_same (proof_copy E st deep _ _ _ _ _) fun r hr => ite_same (fun _ => rfl) fun _ => Res.bind_same rfl fun nodes hnodes =>
        Res.bind_same (ih2 _ _ _) fun _ _ => by cases st.getAcdc E vcid <;> rfl
    · cases l with
      | nil => rw [verifyEdgesOr, verifyEdges]
      | cons x l =>
        rw [verifyEdgesOr, verifyEdges]
        simp only [ih1, ih2]

theorem one_copy (fuel : Nat) (verify : Option Bool) (m : Msg) (next : Option Msg) (v : List Str) :
    ingestOneOr E none st deep fuel verify m next v = ingestOne E st fuel deep verify m next v := by
  unfold ingestOneOr ingestOne
  refine Res.bind_same rfl fun text ht => Res.bind_same rfl fun r _ => ite_same (fun _ => ?_) fun _ => ite_same (fun _ => ?_) fun _ => rfl
  · unfold ingestSerderOr ingestSerder
    refine Res.bind_same rfl fun s _ => Res.bind_same rfl fun q _ => ?_
    cases next with
    | none => rfl
    | some g =>
      refine Res.bind_same rfl fun g _ => Res.bind_same rfl fun _ _ => Res.bind_same rfl fun _ _ => ite_same (fun _ => ?_) fun _ => ite_same (fun _ => ?_) fun _ => rfl
      · obtain ⟨g, gt⟩ := g
        cases g with
        | quadlets l => exact Res.bind_same (verifyOrSeen_same fun w => keyEvent_copy E st deep _ _ _ _) fun _ _ => rfl
        | _ => rfl
      · obtain ⟨g, gt⟩ := g
        cases g with
        | couples l => exact Res.bind_same (verifyOrSeen_same fun w => tel_copy E st deep _ _ _ _) fun _ _ => rfl
        | _ => rfl
  · unfold ingestCrederOr ingestCreder
    refine Res.bind_same rfl fun c hc => Res.bind_same rfl fun q _ => ?_
    cases next with
    | none => rfl
    | some g =>
      refine Res.bind_same rfl fun g _ => ?_
      obtain ⟨g, gt⟩ := g
      cases g with
      | quadlets l => exact Res.bind_same (verifyOrSeen_same fun w => (acdc_copy E st deep _).1 _ _ _) fun _ _ => rfl
      | _ => rfl

end

theorem loop_copy (E : Env) (fuel : Nat) (deep verify : Option Bool) (msgs : List Msg) : ∀ (st : Store) (v : List Str),
    ingestLoopOr E none fuel deep verify st msgs v = ingestLoop E fuel deep verify st msgs v := by
  induction msgs using pairs.induct with
  | case1 m g rest ih =>
    intro st v
    unfold ingestLoopOr ingestLoop
    rw [one_copy]
    cases ingestOne E st fuel deep verify m (some g) v with
    | err e => rfl
    | panic => rfl
    | ok x =>
      dsimp only
      cases h2 : perform E st x.1 with
      | mk st' r =>
        cases r with
        | ok u => exact ih _ _
        | err e => rfl
        | panic => rfl
  | case2 msgs hn =>
    intro st v
    match msgs, hn with
    | [], _ => unfold ingestLoopOr ingestLoop; rfl
    | [m], _ => unfold ingestLoopOr ingestLoop; rw [one_copy]; rfl
    | m :: g :: rest, hn => exact absurd rfl (hn m g rest)

end Keride
