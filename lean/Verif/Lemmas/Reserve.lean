/-
Keys in reserve: the events of `incept_partial` and `rotate_partial`, and interactions signed with the signing keys alone.
-/
import Verif.Spec.Reserve
import Verif.Lemmas.Kmi
import Verif.Lemmas.DeepAccept

namespace Keride.Sample

open Matter Spec Props Saider

theorem mapList_append {α β : Type} {f : α → Res β} {a b : List α} {r : List β} (h : Res.mapList f (a ++ b) = .ok r) :
    ∃ x y, r = x ++ y ∧ Res.mapList f a = .ok x ∧ Res.mapList f b = .ok y := by
  rw [Res.mapList_ok] at h
  induction a generalizing r with
  | nil => exact ⟨[], r, rfl, rfl, Res.mapList_ok.mpr h⟩
  | cons c a ih =>
    cases h with
    | cons h1 h2 =>
      obtain ⟨x, y, rfl, hx, hy⟩ := ih h2
      exact ⟨_ :: x, y, rfl, Res.mapList_ok.mpr (.cons h1 (Res.mapList_ok.mp hx)), hy⟩

/-! ## Signatures -/

theorem InOrder.append {C : Crypto} {la lb : List Signer} {ser : Bytes} {sa sb : List Siger} {n : Nat} (h1 : InOrder C la ser n sa)
    (h2 : InOrder C lb ser (n + la.length) sb) : InOrder C (la ++ lb) ser n (sa ++ sb) := by
  obtain ⟨a1, a2⟩ := h1
  obtain ⟨b1, b2⟩ := h2
  refine ⟨by simp [a1, b1], ?_⟩
  intro i sg hi
  by_cases hlt : i < sa.length
  · rw [List.getElem?_append_left hlt] at hi
    rw [List.getElem?_append_left (by omega)]
    exact a2 i sg hi
  · rw [List.getElem?_append_right (by omega)] at hi
    rw [List.getElem?_append_right (by omega), ← a1]
    obtain ⟨s, h1, h2, h3, h4, h5⟩ := b2 _ sg hi
    exact ⟨s, h1, by omega, by omega, by omega, h5⟩

/-- Signatures by the keys after the first ones. -/
theorem in_order_at {C : Crypto} {l : List Signer} {ser : Bytes} {sigs : List Siger} {n : Nat} (h : InOrder C l ser n sigs) {va : List M} (hva : va.length = n) :
    verifyGroups C (va ++ l.map fun s => s.verfer) ser [.controller sigs] = .ok ((List.range' n l.length).map fun i => (i, i)) := by
  obtain ⟨h1, h2⟩ := h
  have e : sigs.map (fun g => (g.i.index, g.i.ondex)) = (List.range' n l.length).map fun i => (i, i) := by
    apply List.ext_getElem?
    intro i
    rw [List.getElem?_map, List.getElem?_map]
    by_cases hi : i < sigs.length
    · obtain ⟨s, -, s2, s3, -⟩ := h2 i _ (List.getElem?_eq_getElem hi)
      rw [List.getElem?_eq_getElem hi, List.getElem?_eq_getElem (by simpa using h1 ▸ hi)]
      simp [s2, s3]
    · rw [List.getElem?_eq_none (by omega), List.getElem?_eq_none (by simp; omega)]
      rfl
  rw [← e]
  unfold verifyGroups
  rw [verifySigers_of, Res.ok_bind]
  · unfold verifyGroups
    rw [Res.ok_bind, List.append_nil]
  · intro g hg
    obtain ⟨i, hi, rfl⟩ := List.mem_iff_getElem.mp hg
    obtain ⟨s, s1, s2, -, -, s4⟩ := h2 i _ (List.getElem?_eq_getElem hi)
    rw [s2, List.getElem?_append_right (by omega), hva, Nat.add_sub_cancel_left]
    exact ⟨s.verfer, by rw [List.getElem?_map, s1]; rfl, s4⟩

/-- The keys an event lists, when they are those of two key sets one after the other. -/
theorem listed_signers {E : Env} (hC : CryptoOk E.C) {ks : KeySet} (hu : ∀ t ∈ ks.keys, '=' ∉ t) {ts : List Str} (h : ks.verfersQb64 E = .ok ts)
    {l : List Signer} (hl : ks.signers E = .ok l) : List.Forall₂ (fun t v => Verfer.newWithQb64 t = .ok v) ts (l.map fun s => s.verfer) := by
  unfold KeySet.verfersQb64 KeySet.verfers at h
  rw [hl, Res.ok_bind, Res.ok_bind] at h
  have hg := (signers_good hC hu hl).2
  replace h := Res.mapList_ok.mp h
  clear hl
  rw [List.forall₂_map_left_iff] at h
  rw [List.forall₂_map_right_iff]
  induction h with
  | nil => exact .nil
  | cons h1 h2 ih =>
    exact .cons (key_back hC (hg _ (by simp)) h1).1 (ih fun s hs => hg s (by simp [hs]))

theorem priorIndices_first {E : Env} {v vb ds : List M}
    (h : List.Forall₂ (fun k d => ∃ q u, qb64b E.chk k = .ok q ∧ Diger.newWithSer E.H q none = .ok d ∧ qb64 E.chk d = .ok u) v ds) :
    ∀ {l : List Nat}, priorIndices E ds (v ++ vb) (l.map fun i => (i, i)) = .ok (l.filter fun i => decide (i < v.length)) := by
  intro l
  induction l with
  | nil => rfl
  | cons i l ih =>
    have hlen := h.length_eq
    rw [List.map_cons]
    unfold priorIndices
    by_cases hi : i < v.length
    · obtain ⟨q, u, h1, h2, h3⟩ := h.get hi (by omega)
      simp only [List.get_eq_getElem] at h1 h2 h3
      rw [if_pos (by omega), List.getElem?_append_left hi, List.getElem?_eq_getElem hi, List.getElem?_eq_getElem (by omega)]
      unfold Res.orPanic
      rw [Res.ok_bind, h1, Res.ok_bind, h2, Res.ok_bind, h3, Res.ok_bind, Res.ok_bind, h3, Res.ok_bind, if_pos rfl, Res.ok_bind, ih, Res.ok_bind,
        List.filter_cons_of_pos (by simpa using hi)]
      rfl
    · rw [if_neg (by omega), Res.ok_bind, ih, Res.ok_bind, List.filter_cons_of_neg (by simpa using hi)]
      rfl

/-- More keys from the same salt: the first ones are the same. -/
theorem fromSalt_prefix {E : Env} {S : Stretch} {salt : Bytes} {code tier : Option Str} {n m : Nat} {path : Str} {ks ks' : KeySet} (hnm : n ≤ m)
    (h : KeySet.generateFromSalt E S salt code (some n) 0 (some true) path tier none = .ok ks)
    (h' : KeySet.generateFromSalt E S salt code (some m) 0 (some true) path tier none = .ok ks') : ∃ rest, ks' = ⟨ks.keys ++ rest, ks.offset, ks.transferable⟩ := by
  unfold KeySet.generateFromSalt at h h'
  obtain ⟨salter, hs, h⟩ := Res.bind_eq_ok.mp h
  obtain ⟨salter', hs', h'⟩ := Res.bind_eq_ok.mp h'
  rw [hs] at hs'
  cases hs'
  obtain ⟨sg, hsg, h⟩ := Res.bind_eq_ok.mp h
  obtain ⟨sg', hsg', h'⟩ := Res.bind_eq_ok.mp h'
  obtain ⟨keys, hk, h⟩ := Res.bind_eq_ok.mp h
  obtain ⟨keys', hk', h'⟩ := Res.bind_eq_ok.mp h'
  cases h
  cases h'
  unfold Salter.signers at hsg hsg'
  have e : List.range m = List.range n ++ (List.range (m - n)).map (n + ·) := by rw [← List.range_add]; congr 1; omega
  simp only [Option.getD_some] at hsg hsg'
  rw [e] at hsg'
  obtain ⟨x, y, rfl, hx, -⟩ := mapList_append hsg'
  rw [hsg] at hx
  cases hx
  obtain ⟨u, w, rfl, hu, -⟩ := mapList_append hk'
  rw [hk] at hu
  cases hu
  exact ⟨w, rfl⟩

/-! ## Weights -/

/-- The weights of a partial rotation: none for the keys from the reserve, equal ones for the signing keys. -/
def shares (a b : Nat) : List ℚ := List.replicate a (0 : ℚ) ++ List.replicate b (1 / (b : ℚ))

theorem evenWeights_clause {n : Nat} (hn : n < 2 ^ 31) : List.Forall₂ (fun w q => ∃ s, w = Value.str s ∧ IsWeight s q) (evenWeights n) (List.replicate n (1 / (n : ℚ))) := by
  unfold evenWeights
  rw [List.forall₂_iff_get]
  refine ⟨by simp, ?_⟩
  intro i h1 h2
  simp only [List.length_replicate] at h1
  simp only [List.get_eq_getElem, List.getElem_replicate]
  refine ⟨_, rfl, .inr (.inr ⟨1, n, ?_, by omega, by omega, hn, by simp⟩)⟩
  rw [fmtNat_eq (by decide) (by decide)]
  rfl

theorem shares_weights {a b : Nat} (hb : b < 2 ^ 31) : IsWeights (.arr [.arr (List.replicate a (.str (str% "0")) ++ evenWeights b)]) [shares a b] := by
  refine ⟨_, rfl, .cons ⟨_, rfl, ?_⟩ .nil⟩
  unfold shares
  refine List.rel_append ?_ (evenWeights_clause hb)
  rw [List.forall₂_iff_get]
  refine ⟨by simp, ?_⟩
  intro i h1 h2
  simp only [List.get_eq_getElem, List.getElem_replicate]
  exact ⟨_, rfl, .inl ⟨rfl, rfl⟩⟩

theorem shares_length (a b : Nat) : (shares a b).length = a + b := by simp [shares]

theorem shares_sum {a b : Nat} (hb : b ≠ 0) : (shares a b).sum = 1 := by
  unfold shares
  rw [List.sum_append, List.sum_replicate, List.sum_replicate]
  have : (b : ℚ) ≠ 0 := by exact_mod_cast hb
  simp [this]

theorem shares_small {a b : Nat} (hb : b ≠ 0) (hb' : b < 2 ^ 31) : Small [shares a b] := by
  intro c hc
  rw [List.mem_singleton.mp hc]
  refine ⟨b, by omega, hb', ?_, ?_⟩
  · intro q hq
    rcases List.mem_append.mp hq with hq | hq
    · rw [(List.mem_replicate.mp hq).2]; simp
    · rw [(List.mem_replicate.mp hq).2]
      have := Rat.den_dvd 1 b
      rw [Rat.divInt_eq_div] at this
      push_cast at this
      exact_mod_cast this
  · rw [shares_sum hb, one_mul]
    exact_mod_cast hb'

theorem signedWeight_shares {idx : List Nat} {b : Nat} {q : ℚ} : ∀ {a off : Nat}, (∀ i, off + a ≤ i → i < off + a + b → i ∈ idx) →
    signedWeight idx off (List.replicate a (0 : ℚ) ++ List.replicate b q) = b * q := by
  intro a
  induction a with
  | zero =>
    intro off
    rw [List.replicate_zero, List.nil_append, Nat.add_zero]
    induction b generalizing off with
    | zero => intro _; simp [signedWeight]
    | succ b ih =>
      intro h
      rw [List.replicate_succ, signedWeight, if_pos (h off (by omega) (by omega)), ih (off := off + 1) fun i h1 h2 => h i (by omega) (by omega)]
      push_cast
      ring
  | succ a ih =>
    intro off h
    rw [List.replicate_succ, List.cons_append, signedWeight, ih (off := off + 1) fun i h1 h2 => h i (by omega) (by omega)]
    simp

/-- The signing keys alone meet the threshold. -/
theorem shares_met {chk : Bool} {json : Str → Res Value} {t : Tholder} (h : Accepted chk json t) {a b : Nat} (hw : IsWeights t.thold [shares a b]) (hb : b ≠ 0)
    (hn : a + b < 2 ^ 31) {idx : List Nat} (h1 : ∀ i ∈ idx, i < a + b) (h2 : ∀ i, a ≤ i → i < a + b → i ∈ idx) : t.satisfy chk idx = .ok true := by
  have hp : positions [shares a b] = a + b := by simp [positions, shares_length]
  rw [C29_exact_partial chk json t h _ hw (by rw [hp]; omega) (shares_small hb (by omega)) idx (by rw [hp]; exact h1)]
  rw [decide_eq_true]
  refine ⟨?_, trivial⟩
  unfold shares
  rw [signedWeight_shares (by simpa using h2)]
  have : (b : ℚ) ≠ 0 := by exact_mod_cast hb
  rw [mul_one_div, div_self this]

/-! ## Events for other verifiers -/

theorem Logged.other {E E' : Env} (hE : SameCode E E') {pre : Str} {log : List Entry} (h : Logged E pre log) : Logged E' pre log := by
  refine ⟨?_, ?_, ?_, h.text, h.ordinary⟩
  · rw [hE.H, hE.C, hE.chk, hE.fl]; exact h.valid
  · intro a e b hs st hst
    rw [hE.fl] at hst
    obtain ⟨q, prior, h1, h2⟩ := h.accept a e b hs st hst
    exact ⟨q, prior, by rw [hE.chk]; exact h1, by rw [checkKeyEvent_same hE]; exact h2⟩
  · rw [hE.fl]; exact h.reads

/-! ## Refused rotations -/

theorem digers_total {E : Env} (hH : HashOk E.H) {v : List M} {ts : List Str} (h : Res.mapList (fun v => qb64 E.chk v) v = .ok ts) :
    ∀ k ∈ v, ∃ q d u, qb64b E.chk k = .ok q ∧ Diger.newWithSer E.H q none = .ok d ∧ qb64 E.chk d = .ok u := by
  intro k hk
  obtain ⟨i, hi, rfl⟩ := List.mem_iff_getElem.mp hk
  have h := Res.mapList_ok.mp h
  have e := h.get hi (by rw [← h.length_eq]; exact hi)
  simp only [List.get_eq_getElem] at e
  obtain ⟨n, hn, -⟩ := digest_rows (str% "E") (by decide)
  generalize ts[i]'(by rw [← h.length_eq]; exact hi) = t at e
  obtain ⟨s, e1, -⟩ := qb64_digest E.chk hn (d := E.H (str% "E") (toUtf8 t)) (by rw [hH _ (by decide) n hn])
  rw [List.take_of_length_le (by rw [hH _ (by decide) n hn])] at e1
  exact ⟨toUtf8 t, ⟨str% "E", 0, E.H (str% "E") (toUtf8 t)⟩, s, by unfold qb64b; rw [e]; rfl, (C41_new E.H hH _ none).1 (by decide), e1⟩

theorem forall₂_mem_left {α β : Type} {R : α → β → Prop} {a : List α} {b : List β} (h : List.Forall₂ R a b) {x : α} (hx : x ∈ a) : ∃ y ∈ b, R x y := by
  induction h with
  | nil => cases hx
  | cons h1 _ ih =>
    rcases List.mem_cons.mp hx with rfl | hx
    · exact ⟨_, by simp, h1⟩
    · obtain ⟨y, hy, h⟩ := ih hx
      exact ⟨y, by simp [hy], h⟩

/-- The texts of the digests of the keys of a key set. -/
theorem digs_texts {E : Env} {ks : KeySet} {ts : List Str} (h : ks.digersQb64 E = .ok ts) {v ds : List M} (hv : ks.verfers E = .ok v)
    (hd : List.Forall₂ (fun k d => ∃ q u, qb64b E.chk k = .ok q ∧ Diger.newWithSer E.H q none = .ok d ∧ qb64 E.chk d = .ok u) v ds) :
    List.Forall₂ (fun d t => qb64 E.chk d = .ok t) ds ts := by
  unfold KeySet.digersQb64 at h
  rw [hv, Res.ok_bind] at h
  obtain ⟨ds', h1, h2⟩ := Res.bind_eq_ok.mp h
  have e : ds' = ds := by
    have : Res.mapList (fun v => do let q ← qb64b E.chk v; Diger.newWithSer E.H q none) v = .ok ds := by
      rw [Res.mapList_ok]
      refine hd.imp ?_
      rintro a b ⟨q, u, e1, e2, -⟩
      rw [e1, Res.ok_bind, e2]
    rw [this] at h1
    exact (Res.ok.inj h1).symm
  subst e
  exact Res.mapList_ok.mp h2

theorem digers_all {E : Env} {v : List M} (h : ∀ k ∈ v, ∃ q d u, qb64b E.chk k = .ok q ∧ Diger.newWithSer E.H q none = .ok d ∧ qb64 E.chk d = .ok u) :
    ∃ ds, List.Forall₂ (fun k d => ∃ q u, qb64b E.chk k = .ok q ∧ Diger.newWithSer E.H q none = .ok d ∧ qb64 E.chk d = .ok u) v ds := by
  induction v with
  | nil => exact ⟨[], .nil⟩
  | cons k v ih =>
    obtain ⟨ds, hds⟩ := ih fun k hk => h k (by simp [hk])
    obtain ⟨q, d, u, e⟩ := h k (by simp)
    exact ⟨d :: ds, .cons ⟨q, u, e⟩ hds⟩

/-- A key of a key set has its digest among those of the key set. -/
theorem digers_of {E : Env} {ks : KeySet} {v : List M} (h : ∃ ds, List.Forall₂ (fun k d => ∃ q u, qb64b E.chk k = .ok q ∧ Diger.newWithSer E.H q none = .ok d ∧
    qb64 E.chk d = .ok u) v ds) (hv : ks.verfers E = .ok v) {k d : M} {q : Bytes} {u : Str} (hk : k ∈ v) (h1 : qb64b E.chk k = .ok q)
    (h2 : Diger.newWithSer E.H q none = .ok d) (h3 : qb64 E.chk d = .ok u) : ∃ ts, ks.digersQb64 E = .ok ts ∧ u ∈ ts := by
  obtain ⟨ds, h⟩ := h
  have e1 : Res.mapList (fun v => do let q ← qb64b E.chk v; Diger.newWithSer E.H q none) v = .ok ds := by
    rw [Res.mapList_ok]
    refine h.imp ?_
    rintro a b ⟨q, u, e1, e2, -⟩
    rw [e1, Res.ok_bind, e2]
  have e2 : ∃ ts, List.Forall₂ (fun d t => qb64 E.chk d = .ok t) ds ts := by
    clear e1 hk hv
    induction h with
    | nil => exact ⟨[], .nil⟩
    | cons a _ ih =>
      obtain ⟨ts, hts⟩ := ih
      obtain ⟨_, u, -, -, a⟩ := a
      exact ⟨u :: ts, .cons a hts⟩
  obtain ⟨ts, e2⟩ := e2
  refine ⟨ts, ?_, ?_⟩
  · unfold KeySet.digersQb64
    rw [hv, Res.ok_bind]
    exact Res.bind_eq_ok.mpr ⟨ds, e1, Res.mapList_ok.mpr e2⟩
  · obtain ⟨d', hd', q', u', f1, f2, -⟩ := forall₂_mem_left h hk
    rw [h1] at f1
    cases f1
    rw [h2] at f2
    cases f2
    obtain ⟨t, ht, f3⟩ := forall₂_mem_left e2 hd'
    rw [h3] at f3
    cases f3
    exact ht

/-- The keys a rotation is checked to have from the one before, whatever they are. -/
theorem priorIndices_some {E : Env} {v ds : List M} (hv : ∀ k ∈ v, ∃ q d u, qb64b E.chk k = .ok q ∧ Diger.newWithSer E.H q none = .ok d ∧ qb64 E.chk d = .ok u)
    (hd : ∀ d ∈ ds, ∃ u, qb64 E.chk d = .ok u) : ∀ {l : List Nat}, (∀ i ∈ l, i < v.length) →
    ∃ idx, priorIndices E ds v (l.map fun i => (i, i)) = .ok idx ∧
      ∀ j ∈ idx, j ∈ l ∧ ∃ k q d u n, v[j]? = some k ∧ qb64b E.chk k = .ok q ∧ Diger.newWithSer E.H q none = .ok d ∧ qb64 E.chk d = .ok u ∧
        ds[j]? = some n ∧ qb64 E.chk n = .ok u := by
  intro l
  induction l with
  | nil => intro _; exact ⟨[], rfl, by simp⟩
  | cons i l ih =>
    intro hl
    obtain ⟨idx, h1, h2⟩ := ih fun j hj => hl j (by simp [hj])
    have hi := hl i (by simp)
    rw [List.map_cons]
    unfold priorIndices
    have keep : ∀ j ∈ idx, j ∈ i :: l ∧ ∃ k q d u n, v[j]? = some k ∧ qb64b E.chk k = .ok q ∧ Diger.newWithSer E.H q none = .ok d ∧ qb64 E.chk d = .ok u ∧
        ds[j]? = some n ∧ qb64 E.chk n = .ok u := fun j hj => ⟨by simp [(h2 j hj).1], (h2 j hj).2⟩
    by_cases hlt : i < ds.length
    · obtain ⟨q, d, u, e1, e2, e3⟩ := hv _ (List.getElem_mem hi)
      obtain ⟨w, e4⟩ := hd _ (List.getElem_mem hlt)
      rw [if_pos hlt, List.getElem?_eq_getElem hi, List.getElem?_eq_getElem hlt]
      unfold Res.orPanic
      rw [Res.ok_bind, e1, Res.ok_bind, e2, Res.ok_bind, e3, Res.ok_bind, Res.ok_bind, e4, Res.ok_bind, Res.ok_bind, h1, Res.ok_bind]
      by_cases huw : u = w
      · subst huw
        refine ⟨i :: idx, by rw [if_pos rfl]; rfl, ?_⟩
        intro j hj
        rcases List.mem_cons.mp hj with rfl | hj
        · exact ⟨by simp, _, q, d, u, _, List.getElem?_eq_getElem hi, e1, e2, e3, List.getElem?_eq_getElem hlt, e4⟩
        · exact keep j hj
      · exact ⟨idx, by rw [if_neg huw]; rfl, keep⟩
    · rw [if_neg hlt, Res.ok_bind, h1, Res.ok_bind]
      exact ⟨idx, rfl, keep⟩

theorem signedWeight_le {idx : List Nat} {b : Nat} {q : ℚ} (hq : 0 ≤ q) {n : Nat} : ∀ {off : Nat}, (∀ i ∈ idx, i < n) →
    signedWeight idx off (List.replicate b q) ≤ ((n - off : ℕ) : ℚ) * q := by
  induction b with
  | zero => intro off _; simp only [List.replicate_zero, signedWeight]; positivity
  | succ b ih =>
    intro off h
    have hb := ih (off := off + 1) h
    rw [List.replicate_succ, signedWeight]
    by_cases ho : off ∈ idx
    · rw [if_pos ho]
      have hlt := h off ho
      have e : ((n - off : ℕ) : ℚ) = ((n - (off + 1) : ℕ) : ℚ) + 1 := by
        rw [show n - off = (n - (off + 1)) + 1 by omega]
        push_cast
        ring
      rw [e]
      linarith
    · rw [if_neg ho, zero_add]
      refine hb.trans ?_
      have : ((n - (off + 1) : ℕ) : ℚ) ≤ ((n - off : ℕ) : ℚ) := by exact_mod_cast (by omega)
      exact mul_le_mul_of_nonneg_right this hq

/-- Equal shares are not met by fewer keys than there are. -/
theorem shares_short {chk : Bool} {json : Str → Res Value} {t : Tholder} (h : Accepted chk json t) {b n : Nat} (hw : IsWeights t.thold [shares 0 b]) (hb : n < b)
    (hl : b < 2 ^ 31) {idx : List Nat} (h1 : ∀ i ∈ idx, i < n) : t.satisfy chk idx = .ok false := by
  have hp : positions [shares 0 b] = b := by simp [positions, shares_length]
  rw [C29_exact_partial chk json t h _ hw (by rw [hp]; omega) (shares_small (by omega) hl) idx (by rw [hp]; intro i hi; have := h1 i hi; omega)]
  rw [decide_eq_false]
  rintro ⟨hs, -⟩
  unfold shares at hs
  rw [List.replicate_zero, List.nil_append] at hs
  have hpos : (0 : ℚ) < b := by exact_mod_cast (by omega : 0 < b)
  have := signedWeight_le (idx := idx) (b := b) (q := 1 / (b : ℚ)) (by positivity) (n := n) (off := 0) h1
  have hlt : ((n - 0 : ℕ) : ℚ) * (1 / (b : ℚ)) < 1 := by
    rw [mul_one_div, div_lt_one hpos, Nat.sub_zero]
    exact_mod_cast hb
  linarith

/-- A key event that does not pass the checks is not stored. -/
theorem ingest_refused {E : Env} {st : Store} {fuel : Nat} {deep verify : Option Bool} (hv : verify ≠ some false) {t g : Str} {gs : List SigGroup} {s : Sad}
    (hread : Serder.newWithRaw E.fl (toUtf8 t) = .ok s) {q : Str} (hq : Sadder.said E.chk s = .ok q) {ilk : Str} (hilk : field (str% "t") s.ked = some (.str ilk))
    (hk : ilk = str% "icp" ∨ ilk = str% "rot" ∨ ilk = str% "ixn") {e : Err} (hck : checkKeyEvent E st s gs = .err e) :
    ingestLoop E (fuel + 1) deep verify st [.payload t, .group (.quadlets gs) (.ok g)] [] = (st, .err e) := by
  obtain ⟨info, hi, hident⟩ := sniff_of hread
  have hgd : verify.getD true = true := by
    cases verify with
    | none => rfl
    | some b => cases b with
      | true => rfl
      | false => exact absurd rfl hv
  have hone : ingestOne E st (fuel + 1) deep verify (.payload t) (some (.group (.quadlets gs) (.ok g))) [] = .err e := by
    unfold ingestOne
    rw [show (Msg.payload t).payloadText = .ok t from rfl, Res.ok_bind]
    dsimp only
    rw [hi, Res.ok_bind, if_pos hident]
    unfold ingestSerder
    rw [hread, Res.ok_bind, hq, Res.ok_bind]
    dsimp only
    rw [show (Msg.group (.quadlets gs) (.ok g)).cesrGroup = .ok (.quadlets gs, .ok g) from rfl, Res.ok_bind, text_index hilk, Res.ok_bind,
      show (Value.str ilk).toStr = .ok ilk from rfl, Res.ok_bind, if_pos hk]
    dsimp only
    unfold verifyOrSeen
    rw [hgd, if_pos (by rfl)]
    unfold verifyKeyEvent
    rw [hck]
    rfl
  unfold ingestLoop
  rw [hone]

end Keride.Sample
