/-
C58: how many signers stand behind an accepted event.
-/
import Verif.Props.KelAgree

namespace Keride.Props

open Matter Spec Sample

/-- The keys and the threshold an event of a log must be signed with: its own if it establishes keys, else those of the
latest establishment event before it. -/
def InForce (chk : Bool) (fl : Str → Option Str) (log : List Entry) (e : Entry) (keys : List M) (t : Tholder) : Prop :=
  ∃ est, LatestEst (log ++ [e]) est ∧ Serder.verfers est.sad = .ok keys ∧ Serder.tholder chk fl est.sad = .ok (some t)

/-- The position of a key that signed the event. -/
def HasSigned (C : Crypto) (e : Entry) (keys : List M) (i : Nat) : Prop :=
  ∃ g ∈ sigersOf e.groups, g.i.index = i ∧ ∃ k, keys[i]? = some k ∧ Verfer.verify C k g.i.raw e.sad.raw = .ok true

section
variable {H : Hash} {C : Crypto} {chk : Bool} {fl : Str → Option Str} {pre : Str}

theorem signedBy_of {log : List Entry} {e : Entry} (h : ValidLog H C chk fl pre (log ++ [e])) :
    ∃ keys t sigs, InForce chk fl log e keys t ∧ SignedBy C e keys t sigs := by
  generalize hl : log ++ [e] = l at h
  cases h with
  | incept x keys t sigs type ident sn said fields digest own threshold signed =>
    have hl' := hl
    obtain ⟨rfl, h2⟩ := List.append_inj' (s₁ := log) (s₂ := []) (by simpa using hl) (by rfl)
    cases h2
    exact ⟨keys, t, sigs, ⟨_, ⟨[], [], rfl, .inl type, by simp⟩, own, threshold⟩, signed⟩
  | rotate log' x prev est psaid keys digests t n sigs before type ident sn fields digest last prior chained own threshold signed latest next
      nextThreshold committed =>
    obtain ⟨rfl, h2⟩ := List.append_inj' hl rfl
    cases h2
    exact ⟨keys, t, sigs, ⟨_, ⟨log, [], rfl, .inr type, by simp⟩, own, threshold⟩, signed⟩
  | interact log' x prev est psaid keys t sigs before type ident sn fields digest last prior chained latest own threshold signed =>
    obtain ⟨rfl, h2⟩ := List.append_inj' hl rfl
    cases h2
    refine ⟨keys, t, sigs, ⟨est, ?_, own, threshold⟩, signed⟩
    obtain ⟨a, b, rfl, h1, h2⟩ := latest
    refine ⟨a, b ++ [e], by simp, h1, ?_⟩
    intro y hy
    rcases List.mem_append.mp hy with hy | hy
    · exact h2 y hy
    · rw [List.mem_singleton] at hy
      subst hy
      unfold Establishes HasText
      unfold HasText at type
      rw [type]
      simp

theorem signedWeight_mem {a b : List Nat} (h : ∀ i, i ∈ a ↔ i ∈ b) (off : Nat) (c : List ℚ) : signedWeight a off c = signedWeight b off c := by
  induction c generalizing off with
  | nil => rfl
  | cons q c ih => simp only [signedWeight, h, ih]

theorem satisfied_mem {a b : List Nat} (h : ∀ i, i ∈ a ↔ i ∈ b) (off : Nat) (qss : List (List ℚ)) : Satisfied a off qss ↔ Satisfied b off qss := by
  induction qss generalizing off with
  | nil => exact Iff.rfl
  | cons c qss ih => simp only [Satisfied, signedWeight_mem h, ih]

theorem signers_of {e : Entry} {keys : List M} {t : Tholder} {sigs : List Siger} (h : SignedBy C e keys t sigs) :
    ∀ i ∈ sigs.map fun g => g.i.index, HasSigned C e keys i := by
  intro i hi
  obtain ⟨g, hg, rfl⟩ := List.mem_map.mp hi
  obtain ⟨k, h1, h2⟩ := h.verified g hg
  exact ⟨g, h.attached.subset hg, rfl, k, h1, h2⟩

end

/-- C58: when the threshold in force is weighted, the positions of different keys that signed an event of a valid log
have enough weight. -/
theorem C58_weights (H : Hash) (C : Crypto) (chk : Bool) (fl : Str → Option Str) (pre : Str) (log : List Entry) (e : Entry)
    (h : ValidLog H C chk fl pre (log ++ [e])) :
    ∃ keys t, InForce chk fl log e keys t ∧
      ∀ qss, IsWeights t.thold qss → positions qss < 2 ^ 32 →
        ∃ signers : List Nat, signers.Nodup ∧ (∀ i ∈ signers, HasSigned C e keys i) ∧ qss ≠ [] ∧ Satisfied signers 0 qss := by
  obtain ⟨keys, t, sigs, h1, h2⟩ := signedBy_of h
  refine ⟨keys, t, h1, fun qss hw hp => ⟨(sigs.map fun g => g.i.index).dedup, List.nodup_dedup _, ?_, ?_⟩⟩
  · intro i hi
    exact signers_of h2 i (List.mem_dedup.mp hi)
  · rcases h2.enough with ⟨n, hn, -⟩ | ⟨qss', hw', hne, hs⟩
    · exfalso
      obtain ⟨cs, hcs, -⟩ := hw
      unfold Tholder.num at hn
      split at hn
      · cases hn
      · rw [hcs] at hn
        cases hn
    · have : qss = qss' := Tholder.isWeights_unique hw hw'
      subst this
      exact ⟨hne, (satisfied_mem (fun i => (List.mem_dedup).symm) 0 qss).mp (hs hp)⟩

/-- C58, partial: when the threshold in force is a number, at least that many different keys signed an event of a valid
log, provided the signatures that came with it have different indices. Missing: repeated indices, where it is false
(`C58_false`). -/
theorem C58_number_partial (H : Hash) (C : Crypto) (chk : Bool) (fl : Str → Option Str) (pre : Str) (log : List Entry) (e : Entry)
    (h : ValidLog H C chk fl pre (log ++ [e])) (hd : ((sigersOf e.groups).map fun g => g.i.index).Nodup) :
    ∃ keys t, InForce chk fl log e keys t ∧
      ∀ n, t.num = .ok (some n) → ∃ signers : List Nat, signers.Nodup ∧ (∀ i ∈ signers, HasSigned C e keys i) ∧ 0 < n ∧ n ≤ signers.length := by
  obtain ⟨keys, t, sigs, h1, h2⟩ := signedBy_of h
  refine ⟨keys, t, h1, fun n hn => ⟨sigs.map fun g => g.i.index, hd.sublist (h2.attached.map _), signers_of h2, ?_⟩⟩
  rcases h2.enough with ⟨m, hm, h3⟩ | ⟨qss, ⟨cs, hcs, -⟩, -⟩
  · rw [hn] at hm
    cases hm
    exact h3
  · exfalso
    unfold Tholder.num at hn
    split at hn
    · cases hn
    · rw [hcs] at hn
      cases hn

/-- The log of the example world meets the hypothesis. -/
example : ∃ pre log e, log.length = 2 ∧ ValidLog World.hash World.crypto true (fun _ => none) pre (log ++ [e]) := by
  obtain ⟨pre, log, h1, h2, -⟩ := World.log
  rcases List.eq_nil_or_concat log with rfl | ⟨l, e, rfl⟩
  · simp at h1
  · rw [List.concat_eq_append] at h1 h2
    exact ⟨pre, l, e, by simpa using h1, h2⟩

/-- An inception with two keys and the threshold 2. -/
def icp2 : Res Sad := do
  let a ← World.ks [1, 2]
  let b ← World.ks [3]
  let x ← a.verfersQb64 (World.env [])
  let y ← b.digersQb64 (World.env [])
  Sample.incept (World.env []) x (some (.int 2)) (some y) none none none none none none none (some (str% "E")) none none

/-- The inception with the signature of its first key, twice. -/
def twice : Res (Msg × Msg) := do
  let k ← World.ks [1]
  let s ← icp2
  let t ← fromUtf8 s.raw
  let sg ← k.sign (World.env []) 0 s.raw none
  let e ← endorseSerder true (some (sg ++ sg)) none none none
  .ok (.payload t, .group (.quadlets [.controller (sg ++ sg)]) (.ok e))

/-- The event as it is read, and its identifier and threshold. -/
def reading (p : Str) : Option (Sad × Str × Tholder) :=
  match Serder.newWithRaw (fun _ => none) (toUtf8 p) with
  | .ok s =>
    match Serder.pre s, Serder.tholder true (fun _ => none) s with
    | .ok pre, .ok (some t) => some (s, pre, t)
    | _, _ => none
  | _ => none

/-- The verifier keeps the event; its threshold is 2; all signatures have the index 0. -/
def twiceOk (m g : Msg) : Bool :=
  match m, g with
  | .payload p, .group (.quadlets gs) (.ok _) =>
    match reading p with
    | some (_, pre, t) => decide (((ingestLoop (World.env [m, g]) 5 none none Store.empty [m, g] []).1.kels pre).length = 1) &&
        decide (t.num = .ok (some 2)) && (sigersOf gs).all fun x => decide (x.i.index = 0)
    | none => false
  | _, _ => false

theorem reach_pair (m g : Msg) : Reach (World.env []) [(m, g)] (ingestLoop (World.env [m, g]) 5 none none Store.empty [m, g] []).1 :=
  Reach.ingest (World.env [m, g]) 5 2 [] [m, g] none none .empty (World.env_same _ _) (World.env_remembers _) rfl (by simp)

theorem stored_pair {p g pre : Str} {gs : List SigGroup}
    (h : ((ingestLoop (World.env [.payload p, .group (.quadlets gs) (.ok g)]) 5 none none Store.empty [.payload p, .group (.quadlets gs) (.ok g)] []).1.kels
      pre).length = 1) :
    ∃ e, ValidLog World.hash World.crypto true (fun _ => none) pre [e] ∧ e.groups = gs ∧ Serder.newWithRaw (fun _ => none) (toUtf8 p) = .ok e.sad := by
  have hr := reach_pair (.payload p) (.group (.quadlets gs) (.ok g))
  generalize (ingestLoop _ 5 none none Store.empty _ []).1 = st at h hr
  obtain ⟨text, htx⟩ := List.length_eq_one_iff.mp h
  obtain ⟨log, h4, h9⟩ := C56_log (World.env []) World.hash_ok _ st hr pre (by rw [h]; norm_num)
  rw [htx] at h4
  obtain ⟨e, l, h5, hn, rfl⟩ := List.forall₂_cons_left_iff.mp h4
  cases hn
  obtain ⟨p', t', g', h6, h7, h8⟩ := h5
  rw [List.mem_singleton] at h6
  have e1 : p' = p := by simpa using congrArg Prod.fst h6
  have e2 : e.groups = gs := by
    have := congrArg Prod.snd h6
    simp at this
    exact this.1
  subst e1
  exact ⟨e, h9.resolve_left (by simp), e2, h7⟩

/-- The two keys sign the inception with the threshold 2: the log is valid and the indices are different. -/
example : ∃ pre e, ValidLog World.hash World.crypto true (fun _ => none) pre [e] ∧ ((sigersOf e.groups).map fun g => g.i.index).Nodup := by
  have h : (match World.signed (World.ks [1, 2]) icp2, icp2 >>= Serder.pre with
      | .ok (.payload p, .group (.quadlets gs) (.ok g)), .ok pre =>
        decide (((ingestLoop (World.env [.payload p, .group (.quadlets gs) (.ok g)]) 5 none none Store.empty
          [.payload p, .group (.quadlets gs) (.ok g)] []).1.kels pre).length = 1) && decide ((sigersOf gs).map fun g => g.i.index).Nodup
      | _, _ => false) = true := by decide +kernel
  split at h
  · rw [Bool.and_eq_true] at h
    obtain ⟨e, h1, h2, -⟩ := stored_pair (of_decide_eq_true h.1)
    exact ⟨_, e, h1, by rw [h2]; exact of_decide_eq_true h.2⟩
  · cases h

theorem twice_false {m g : Msg} (h : twiceOk m g = true) : ∃ (E : Env) (hist : List (Msg × Msg)) (st : Store) (pre text : Str) (e : Entry) (t : Tholder),
    HashOk E.H ∧ Reach E hist st ∧ st.kels pre = [text] ∧ Stored E.fl hist text e ∧
    Serder.tholder E.chk E.fl e.sad = .ok (some t) ∧ t.num = .ok (some 2) ∧ ∀ g ∈ sigersOf e.groups, g.i.index = 0 := by
  have hr := reach_pair m g
  unfold twiceOk at h
  split at h
  case h_1 p gs g =>
    split at h
    case h_1 s pre t hrd =>
      rw [Bool.and_eq_true, Bool.and_eq_true] at h
      obtain ⟨⟨h1, h2⟩, h3⟩ := h
      have h1 := of_decide_eq_true h1
      have h2 := of_decide_eq_true h2
      generalize (ingestLoop _ 5 none none Store.empty _ []).1 = st at h1 hr
      obtain ⟨text, htx⟩ := List.length_eq_one_iff.mp h1
      obtain ⟨log, h4, -⟩ := C56_log (World.env []) World.hash_ok _ st hr pre (by rw [h1]; norm_num)
      rw [htx] at h4
      obtain ⟨e, _, h5, -, -⟩ := List.forall₂_cons_left_iff.mp h4
      have h5' := h5
      obtain ⟨p', t', g', h6, h7, h8⟩ := h5
      rw [List.mem_singleton] at h6
      have e1 : p' = p := by simpa using congrArg Prod.fst h6
      have e2 : e.groups = gs := by
        have := congrArg Prod.snd h6
        simp at this
        exact this.1
      subst e1
      unfold reading at hrd
      have h7' : Serder.newWithRaw (fun _ => none) (toUtf8 p') = .ok e.sad := h7
      rw [h7'] at hrd
      dsimp only at hrd
      split at hrd
      case h_1 pre' t'' hp ht =>
        obtain ⟨rfl, rfl, rfl⟩ : e.sad = s ∧ pre' = pre ∧ t'' = t := by simpa using hrd
        refine ⟨World.env [], _, st, pre', text, e, t'', World.hash_ok, hr, htx, h5', ht, h2, ?_⟩
        rw [e2]
        intro x hx
        exact of_decide_eq_true (List.all_eq_true.mp h3 x hx)
      case h_2 => cases hrd
    case h_2 => cases h
  case h_2 => cases h

/-- C58 is false for numbers: one key that signs twice meets the threshold 2. The event is stored, and no signature that
came with it has another index than 0. -/
theorem C58_false : ∃ (E : Env) (hist : List (Msg × Msg)) (st : Store) (pre text : Str) (e : Entry) (t : Tholder),
    HashOk E.H ∧ Reach E hist st ∧ st.kels pre = [text] ∧ Stored E.fl hist text e ∧
    Serder.tholder E.chk E.fl e.sad = .ok (some t) ∧ t.num = .ok (some 2) ∧ ∀ g ∈ sigersOf e.groups, g.i.index = 0 := by
  have h : ∃ m g, twiceOk m g = true := by
    have h : (match twice with | .ok x => twiceOk x.1 x.2 | _ => false) = true := by decide +kernel
    split at h
    · exact ⟨_, _, h⟩
    · cases h
  obtain ⟨m, g, h⟩ := h
  exact twice_false h

end Keride.Props
