/-
C98: what witnesses have to do with the events a verifier keeps; and C74 for delegated identifiers.
-/
import Verif.Props.Incept
import Verif.Props.KelSigners
import Verif.Lemmas.WorldAcdc

namespace Keride.Props

open Matter Spec Sample

/-! ## C98 -/

/-- Nothing came with the event but signatures of its controller. -/
def ByControllerAlone (e : Entry) : Prop := ∀ g ∈ e.groups, ∃ l, g = .controller l

theorem groups_controller {C : Crypto} {ks : List M} {ser : Bytes} : ∀ {l : List SigGroup} {w : List (Nat × Nat)}, verifyGroups C ks ser l = .ok w →
    ∀ g ∈ l, ∃ sigs, g = .controller sigs
  | [], _, _, g, hg => by cases hg
  | .controller sigs :: l, w, h, g, hg => by
    unfold verifyGroups at h
    obtain ⟨a, -, h⟩ := Res.bind_eq_ok.mp h
    obtain ⟨b, hb, -⟩ := Res.bind_eq_ok.mp h
    rcases List.mem_cons.mp hg with rfl | hg
    · exact ⟨sigs, rfl⟩
    · exact groups_controller hb g hg
  | .sadPath _ :: _, _, h, _, _ => by cases h
  | .other :: _, _, h, _, _ => by cases h

theorem checked_controller {E : Env} {st : Store} {s : Sad} {l : List SigGroup} {c : Checked} (h : checkKeyEvent E st s l = .ok c) :
    ∀ g ∈ l, ∃ sigs, g = .controller sigs := by
  unfold checkKeyEvent at h
  obtain ⟨_, -, h⟩ := Res.bind_eq_ok.mp h
  obtain ⟨_, -, h⟩ := Res.bind_eq_ok.mp h
  obtain ⟨_, -, h⟩ := Res.bind_eq_ok.mp h
  obtain ⟨_, -, h⟩ := Res.bind_eq_ok.mp h
  obtain ⟨_, -, h⟩ := Res.bind_eq_ok.mp h
  obtain ⟨_, -, h⟩ := Res.bind_eq_ok.mp h
  obtain ⟨_, -, h⟩ := Res.bind_eq_ok.mp h
  obtain ⟨_, -, h⟩ := Res.bind_eq_ok.mp h
  obtain ⟨_, hg, -⟩ := Res.bind_eq_ok.mp h
  exact groups_controller hg

/-- C98: no verifier ever keeps an event with a signature of a witness. Whatever streams it takes in, all that came with
the events it keeps are signatures of their controllers. -/
theorem C98_never (E : Env) (hist : List (Msg × Msg)) (st : Store) (h : Reach E hist st) (pre text : Str) (ht : text ∈ st.kels pre) :
    ∃ e, Stored E.fl hist text e ∧ ByControllerAlone e := by
  have key : ∀ p t, t ∈ st.kels p → ∃ e, Stored E.fl hist t e ∧ ByControllerAlone e := by
    clear ht
    induction h with
    | empty => intro p t ht; cases ht
    | @ingest hist st E' fuel n stream msgs deep verify h sc hR hp hv ih =>
      have ih : ∀ p t, t ∈ st.kels p → ∃ e, Stored E.fl (hist ++ pairs msgs) t e ∧ ByControllerAlone e := by
        intro p t ht
        obtain ⟨e, h1, h2⟩ := ih p t ht
        exact ⟨e, Stored.mono h1, h2⟩
      refine ingestLoop_induct hR hv (fun st => ∀ p t, t ∈ st.kels p → ∃ e, Stored E.fl (hist ++ pairs msgs) t e ∧ ByControllerAlone e) (hist ++ pairs msgs) ?_
        st _ [] ih (fun q hq => by cases hq) (fun x hx => List.mem_append_right _ (pairs_take msgs n x hx))
      intro st m g v a v' st' r hI _ hm hf hpf
      rcases perform_kels hpf with rfl | ⟨pre, t, rfl, rfl⟩ | ⟨pre, t, rfl, rfl⟩ | ⟨t, rfl, rfl⟩
      · exact hI
      · cases hf with
        | key payload t g s l q c v' read raw again said verified fresh grows =>
          intro p x hx
          have hx : x ∈ append st.kels c.pre (t ++ g) p := hx
          unfold append at hx
          split at hx
          · rcases List.mem_append.mp hx with hx | hx
            · exact hI p x hx
            · rw [List.mem_singleton.mp hx]
              rw [sc.fl] at read again
              exact ⟨⟨s, l⟩, ⟨payload, t, g, hm, read, raw, rfl, again⟩, checked_controller verified⟩
          · exact hI p x hx
      · exact hI
      · exact hI
  exact key pre text ht

theorem key_refused {E : Env} {st : Store} {fuel : Nat} {deep : Option Bool} {s : Sad} {l : List SigGroup} {v : List Str} (hg : .other ∈ l) {r : Bool × List Str} :
    verifyKeyEvent E st deep fuel s l v ≠ .ok r := by
  intro h
  cases fuel with
  | zero => unfold verifyKeyEvent at h; cases h
  | succ fuel =>
    unfold verifyKeyEvent at h
    obtain ⟨c, hc, -⟩ := Res.bind_eq_ok.mp h
    obtain ⟨sigs, hs⟩ := checked_controller hc _ hg
    cases hs

theorem proof_refused {E : Env} {st : Store} {deep : Option Bool} {fuel : Nat} {c : Sad} : ∀ {l : List SigGroup} {b : Bool} {v : List Str} {r : Bool × List Str},
    .other ∈ l → verifyProof E st deep fuel c l b v ≠ .ok r
  | [], _, _, _, hg, _ => by cases hg
  | .sadPath sigs :: l, b, v, r, hg, h => by
    unfold verifyProof at h
    obtain ⟨x, -, h⟩ := Res.bind_eq_ok.mp h
    exact proof_refused (by simpa using hg) h
  | .controller _ :: _, _, _, _, _, h => by cases h
  | .other :: _, _, _, _, _, h => by cases h

theorem acdc_refused {E : Env} {st : Store} {fuel : Nat} {deep : Option Bool} {c : Sad} {l : List SigGroup} {v : List Str} (hg : .other ∈ l) {r : Bool × List Str} :
    verifyAcdc E st deep fuel c l v ≠ .ok r := by
  intro h
  cases fuel with
  | zero => unfold verifyAcdc at h; cases h
  | succ fuel =>
    unfold verifyAcdc at h
    obtain ⟨_, -, h⟩ := Res.bind_eq_ok.mp h
    split at h
    · cases h
    obtain ⟨_, -, h⟩ := Res.bind_eq_ok.mp h
    obtain ⟨_, -, h⟩ := Res.bind_eq_ok.mp h
    obtain ⟨_, -, h⟩ := Res.bind_eq_ok.mp h
    obtain ⟨_, -, h⟩ := Res.bind_eq_ok.mp h
    obtain ⟨_, -, h⟩ := Res.bind_eq_ok.mp h
    split at h
    · cases h
    obtain ⟨_, -, h⟩ := Res.bind_eq_ok.mp h
    obtain ⟨_, -, h⟩ := Res.bind_eq_ok.mp h
    obtain ⟨_, -, h⟩ := Res.bind_eq_ok.mp h
    split at h
    · cases h
    obtain ⟨_, h, -⟩ := Res.bind_eq_ok.mp h
    exact proof_refused hg h

theorem fresh_verified {E : Env} {st : Store} {verify : Option Bool} (hv : verify ≠ some false) {q : Str} {f : List Str → Res (Bool × List Str)} :
    verifyOrSeen E st verify q [] f = f [q] := by
  unfold verifyOrSeen
  rcases verify with _ | _ | _
  · rfl
  · exact absurd rfl hv
  · rfl

/-- C98: a message that comes with attached material other than signatures of a controller or proofs of a credential, such
as the signatures of witnesses, is refused, whatever the store, the options and what follows. -/
theorem C98_refused (E : Env) (st : Store) (fuel : Nat) (deep verify : Option Bool) (hv : verify ≠ some false) (p : Str) (l : List SigGroup) (hg : .other ∈ l)
    (t : Res Str) (rest : List Msg) :
    ∃ r, ingestLoop E fuel deep verify st (.payload p :: .group (.quadlets l) t :: rest) [] = (st, r) ∧ r ≠ .ok () := by
  unfold ingestLoop
  cases h : ingestOne E st fuel deep verify (.payload p) (some (.group (.quadlets l) t)) [] with
  | err e => exact ⟨_, rfl, by simp⟩
  | panic => exact ⟨_, rfl, by simp⟩
  | ok r =>
    exfalso
    unfold ingestOne at h
    obtain ⟨_, -, h⟩ := Res.bind_eq_ok.mp h
    dsimp only at h
    obtain ⟨_, -, h⟩ := Res.bind_eq_ok.mp h
    split at h
    · unfold ingestSerder at h
      obtain ⟨s, -, h⟩ := Res.bind_eq_ok.mp h
      obtain ⟨q, -, h⟩ := Res.bind_eq_ok.mp h
      dsimp only [Msg.cesrGroup, Res.ok_bind] at h
      obtain ⟨x, -, h⟩ := Res.bind_eq_ok.mp h
      obtain ⟨ilk, -, h⟩ := Res.bind_eq_ok.mp h
      split at h
      · obtain ⟨r, h, -⟩ := Res.bind_eq_ok.mp h
        rw [fresh_verified hv] at h
        exact key_refused hg h
      · split at h
        · cases h
        · cases h
    · split at h
      · unfold ingestCreder at h
        obtain ⟨s, -, h⟩ := Res.bind_eq_ok.mp h
        obtain ⟨q, -, h⟩ := Res.bind_eq_ok.mp h
        dsimp only [Msg.cesrGroup, Res.ok_bind] at h
        obtain ⟨r, h, -⟩ := Res.bind_eq_ok.mp h
        rw [fresh_verified hv] at h
        exact acdc_refused hg h
      · cases h

/-- An inception with two witnesses, both of which are needed. -/
def World.witnessed : Res Sad := do
  let a ← World.ks [1]
  let b ← World.ks [2]
  let x ← a.verfersQb64 (World.env [])
  let y ← b.digersQb64 (World.env [])
  Sample.incept (World.env []) x none (some y) none (some 2) (some (World.names 2)) none none none none (some (str% "E")) none none

/-- The only event kept for the identifier needs two witnesses. -/
def World.needsTwo (pre : Str) (st : Store) : Bool :=
  decide ((st.kels pre).length = 1) && (st.kels pre).all fun t =>
    match Serder.newWithRaw (fun _ => none) (toUtf8 t) with
    | .ok s => (match field (str% "bt") s.ked with | some (.str t) => decide (t = str% "2") | _ => false) &&
        (match field (str% "b") s.ked with | some (.arr l) => decide (l.length = 2) | _ => false)
    | _ => false

/-- C98 is false: a verifier keeps an inception that names two witnesses and needs both, although no witness signed it. -/
theorem C98_false : ∃ (E : Env) (hist : List (Msg × Msg)) (st : Store) (pre text : Str) (e : Entry) (wits : List Value), HashOk E.H ∧ Reach E hist st ∧
    st.kels pre = [text] ∧ Stored E.fl hist text e ∧ ByControllerAlone e ∧ HasText (str% "bt") (str% "2") e.sad ∧
    field (str% "b") e.sad.ked = some (.arr wits) ∧ wits.length = 2 := by
  have h : World.keepsFrom [World.signed (World.ks [1]) World.witnessed] (fun _ st => World.both (World.witnessed >>= Serder.pre) (World.witnessed >>= Serder.pre)
      fun pre _ => World.needsTwo pre st) = true := by decide +kernel
  obtain ⟨hist, st, hr, h⟩ := World.keepsFrom_reach h
  obtain ⟨pre, -, -, -, h⟩ := World.both_ok h
  unfold World.needsTwo at h
  rw [Bool.and_eq_true] at h
  obtain ⟨text, ht⟩ := List.length_eq_one_iff.mp (of_decide_eq_true h.1)
  obtain ⟨e, k1, k2⟩ := C98_never (World.env []) hist st hr pre text (by rw [ht]; simp)
  have h2 := List.all_eq_true.mp h.2 text (by rw [ht]; simp)
  obtain ⟨_, _, _, _, _, _, _, k3⟩ := id k1
  have k3 : Serder.newWithRaw (fun _ => none) (toUtf8 text) = .ok e.sad := k3
  rw [k3] at h2
  dsimp only at h2
  rw [Bool.and_eq_true] at h2
  obtain ⟨h3, h4⟩ := h2
  split at h3
  · rename_i t hb
    split at h4
    · rename_i l hl
      have := of_decide_eq_true h3
      subst this
      exact ⟨World.env [], hist, st, pre, text, e, l, World.hash_ok, hr, ht, k1, k2, hb, hl, of_decide_eq_true h4⟩
    · cases h4
  · cases h3

/-- Signatures of the controller, and others. -/
example : SigGroup.other ∈ [SigGroup.controller [], .other] := by simp

/-! ## C74, delegated identifiers -/

/-- No log a verifier keeps has an event of another type than inception, rotation and interaction. -/
theorem kept_types (E : Env) (hH : HashOk E.H) (hist : List (Msg × Msg)) (st : Store) (h : Reach E hist st) (pre : Str) (hlen : (st.kels pre).length ≤ 2 ^ 32)
    (text : Str) (ht : text ∈ st.kels pre) (s : Sad) (hs : Serder.newWithRaw E.fl (toUtf8 text) = .ok s) :
    HasText (str% "t") (str% "icp") s ∨ HasText (str% "t") (str% "rot") s ∨ HasText (str% "t") (str% "ixn") s := by
  obtain ⟨log, h1, h2⟩ := C56_log E hH hist st h pre hlen
  obtain ⟨i, hi⟩ := List.getElem?_of_mem ht
  obtain ⟨e, he, hr⟩ := forall₂_get (Stored.reads h1) hi
  have hr : Serder.newWithRaw E.fl (toUtf8 text) = .ok e.sad := hr
  rw [hs] at hr
  cases hr
  have hmem := List.mem_of_getElem? he
  rcases h2 with rfl | h2
  · simp at hmem
  clear he h1
  induction h2 with
  | incept x keys t sigs type => rw [List.mem_singleton.mp hmem]; exact .inl type
  | rotate log x prev est psaid keys digests t n sigs before type ident sn fields digest last prior chained own threshold signed latest next
      nextThreshold committed ih =>
    rcases List.mem_append.mp hmem with hy | hy
    · exact ih hy
    · rw [List.mem_singleton.mp hy]; exact .inr (.inl type)
  | interact log x prev est psaid keys t sigs before type ident sn fields digest last prior chained latest own threshold signed ih =>
    rcases List.mem_append.mp hmem with hy | hy
    · exact ih hy
    · rw [List.mem_singleton.mp hy]; exact .inr (.inr type)

/-- C74 is false of every delegated identifier: the library builds a delegated inception for any delegator, and no
verifier ever has it in a log. -/
theorem C74_delegated (E : Env) (hH : HashOk E.H) (keys : List Str) (sith : Option Value) (ndigs : Option (List Str)) (nsith : Option Value) (toad : Option Nat)
    (wits cnfg : Option (List Str)) (data : Option (List Value)) (version : Option Version) (kind code : Option Str) (intive : Option Bool) (delegator : Str)
    (s : Sad) (built : incept E keys sith ndigs nsith toad wits cnfg data version kind code intive (some delegator) = .ok s) (sendable : Sendable s)
    (hist : List (Msg × Msg)) (st : Store) (h : Reach E hist st) (pre : Str) (hlen : (st.kels pre).length ≤ 2 ^ 32) :
    ∀ t ∈ st.kels pre, Serder.newWithRaw E.fl (toUtf8 t) ≠ .ok s := by
  intro t ht hs
  obtain ⟨-, -, -, htype, -⟩ := C69_delegated E hH keys sith ndigs nsith toad wits cnfg data version kind code intive delegator s built sendable
  have := kept_types E hH hist st h pre hlen t ht s hs
  unfold HasText at htype this
  rw [htype] at this
  simp at this

end Keride.Props
