/-
`satisfy` of a weighted threshold against the specification.
-/
import Verif.Lemmas.Tholder

namespace Keride.Tholder

open Ratio Spec

theorem mem_dedup (x : Nat) : ∀ l : List Nat, x ∈ dedup l ↔ x ∈ l
  | [] => by simp [dedup]
  | [a] => by simp [dedup]
  | a :: b :: l => by
    unfold dedup
    split
    · rename_i h
      subst h
      rw [mem_dedup x (a :: l)]
      simp
    · rw [List.mem_cons, mem_dedup x (b :: l), List.mem_cons (b := a)]

theorem mem_insertNat (x y : Nat) : ∀ l : List Nat, x ∈ insertNat y l ↔ x = y ∨ x ∈ l
  | [] => by simp [insertNat]
  | z :: l => by
    unfold insertNat
    split
    · rw [List.mem_cons]
    · rw [List.mem_cons, mem_insertNat x y l, List.mem_cons]
      constructor
      · rintro (h | h | h)
        · exact .inr (.inl h)
        · exact .inl h
        · exact .inr (.inr h)
      · rintro (h | h | h)
        · exact .inr (.inl h)
        · exact .inl h
        · exact .inr (.inr h)

theorem mem_sortNat (x : Nat) : ∀ l : List Nat, x ∈ sortNat l ↔ x ∈ l
  | [] => by simp [sortNat]
  | y :: l => by rw [sortNat, mem_insertNat, mem_sortNat x l, List.mem_cons]

theorem mem_norm (x : Nat) (l : List Nat) : x ∈ dedup (sortNat l) ↔ x ∈ l := by
  rw [mem_dedup, mem_sortNat]

/-- The marks that `indices` leave. -/
theorem mark_ok : ∀ (is : List Nat) (sats : List Bool), (∀ i ∈ is, i < sats.length) →
    ∃ r, mark sats is = .ok r ∧ r.length = sats.length ∧
      ∀ j < sats.length, r[j]? = some (decide (j ∈ is) || sats.getD j false)
  | [], sats, _ => ⟨sats, rfl, rfl, fun j hj => by simp [List.getD_eq_getElem?_getD, List.getElem?_eq_getElem hj]⟩
  | i :: is, sats, h => by
    obtain ⟨r, h1, h2, h3⟩ := mark_ok is (sats.set i true)
      (fun k hk => by rw [List.length_set]; exact h k (List.mem_cons_of_mem _ hk))
    refine ⟨r, ?_, by rw [h2, List.length_set], ?_⟩
    · rw [mark, if_pos (h i List.mem_cons_self)]; exact h1
    · intro j hj
      rw [h3 j (by rw [List.length_set]; exact hj)]
      congr 1
      by_cases hij : i = j
      · subst hij
        simp [List.getD_eq_getElem?_getD, hj]
      · rw [List.getD_eq_getElem?_getD, List.getElem?_set_ne hij, ← List.getD_eq_getElem?_getD]
        simp [Ne.symm hij]

theorem mark_panic : ∀ (is : List Nat) (sats : List Bool), (∃ i ∈ is, sats.length ≤ i) → mark sats is = .panic
  | [], _, h => by simp at h
  | i :: is, sats, h => by
    rw [mark]
    split
    · rename_i hi
      apply mark_panic
      obtain ⟨k, hk, hk2⟩ := h
      rcases List.mem_cons.mp hk with rfl | hk
      · omega
      · exact ⟨k, hk, by rw [List.length_set]; exact hk2⟩
    · rfl

/-- The weights at signed positions. -/
def selected (indices : List Nat) : Nat → List Ratio → List Ratio
  | _, [] => []
  | off, w :: ws => if off ∈ indices then w :: selected indices (off + 1) ws else selected indices (off + 1) ws

theorem selected_subset (indices : List Nat) : ∀ (ws : List Ratio) (off : Nat), ∀ w ∈ selected indices off ws, w ∈ ws
  | [], _ => by simp [selected]
  | w :: ws, off => by
    intro x hx
    unfold selected at hx
    split at hx
    · rcases List.mem_cons.mp hx with rfl | hx
      · exact List.mem_cons_self
      · exact List.mem_cons_of_mem _ (selected_subset indices ws _ x hx)
    · exact List.mem_cons_of_mem _ (selected_subset indices ws _ x hx)

theorem selected_val (indices : List Nat) : ∀ (ws : List Ratio) (off : Nat),
    ((selected indices off ws).map val).sum = signedWeight indices off (ws.map val)
  | [], _ => rfl
  | w :: ws, off => by
    unfold selected
    rw [List.map_cons, signedWeight, ← selected_val indices ws (off + 1)]
    split
    · rw [List.map_cons, List.sum_cons]
    · rw [zero_add]

theorem selected_congr {a b : List Nat} (h : ∀ i, i ∈ a ↔ i ∈ b) : ∀ (ws : List Ratio) (off : Nat),
    selected a off ws = selected b off ws
  | [], _ => rfl
  | w :: ws, off => by
    unfold selected
    rw [selected_congr h ws (off + 1)]
    simp only [h]

theorem selected_all {a : List Nat} : ∀ (ws : List Ratio) (off : Nat), (∀ i, off ≤ i → i < off + ws.length → i ∈ a) →
    selected a off ws = ws
  | [], _, _ => rfl
  | w :: ws, off, h => by
    rw [selected, if_pos (h off (le_refl _) (by simp)), selected_all ws (off + 1)]
    intro i h1 h2
    exact h i (by omega) (by rw [List.length_cons]; omega)

theorem selected_nil : ∀ (ws : List Ratio) (off : Nat), selected [] off ws = []
  | [], _ => rfl
  | w :: ws, off => by rw [selected, if_neg (by simp), selected_nil ws]

/-- The loop over one clause is the sum over the signed positions. -/
theorem clauseSum_eq (chk : Bool) {indices : List Nat} {sats : List Bool} {n : Nat}
    (hs : ∀ j < n, sats[j]? = some (decide (j ∈ indices))) : ∀ (ws : List Ratio) (off : Nat) (acc : Ratio),
    off + ws.length ≤ n →
    clauseSum chk sats off acc ws = (do
      let r ← Ratio.sum chk acc (selected indices off ws)
      .ok (r, off + ws.length))
  | [], off, acc, _ => rfl
  | w :: ws, off, acc, h => by
    rw [List.length_cons] at h
    rw [clauseSum, hs off (by omega)]
    simp only [Res.orPanic, Res.ok_bind]
    unfold selected
    by_cases hm : off ∈ indices
    · rw [if_pos (by simpa using hm), if_pos hm, Ratio.sum]
      cases add chk acc w with
      | err e => rfl
      | panic => rfl
      | ok r =>
        simp only [Res.ok_bind]
        rw [clauseSum_eq chk hs ws (off + 1) r (by omega), List.length_cons]
        simp only [Nat.add_assoc, Nat.add_comm 1]
    · rw [if_neg (by simpa using hm), if_neg hm, Res.ok_bind,
        clauseSum_eq chk hs ws (off + 1) acc (by omega), List.length_cons]
      simp only [Nat.add_assoc, Nat.add_comm 1]

/-- The clauses with only the signed positions kept. -/
def selectedAll (indices : List Nat) : Nat → List (List Ratio) → List (List Ratio)
  | _, [] => []
  | off, c :: cs => selected indices off c :: selectedAll indices (off + c.length) cs

/-- Whether every clause's computed sum reaches one; stops at the first that does not. -/
def sumsOk (chk : Bool) : List (List Ratio) → Res Bool
  | [] => .ok true
  | c :: cs => do
    let s ← Ratio.sum chk ⟨0, 1⟩ c
    if s.lt1 then .ok false else sumsOk chk cs

theorem reduce_zero (chk : Bool) : reduce chk 0 1 = .ok ⟨0, 1⟩ := by cases chk <;> rfl

theorem clausesOk_eq (chk : Bool) {indices : List Nat} {sats : List Bool} {n : Nat}
    (hs : ∀ j < n, sats[j]? = some (decide (j ∈ indices))) : ∀ (cs : List (List Ratio)) (off : Nat),
    off + (cs.map List.length).sum ≤ n →
    clausesOk chk sats off cs = sumsOk chk (selectedAll indices off cs)
  | [], off, _ => rfl
  | c :: cs, off, h => by
    rw [List.map_cons, List.sum_cons] at h
    rw [clausesOk, selectedAll, sumsOk, reduce_zero, Res.ok_bind, clauseSum_eq chk hs c off _ (by omega)]
    cases Ratio.sum chk ⟨0, 1⟩ (selected indices off c) with
    | err e => rfl
    | panic => rfl
    | ok r =>
      simp only [Res.ok_bind]
      rw [clausesOk_eq chk hs cs _ (by omega)]

theorem checkSums_iff (chk : Bool) : ∀ rs : List (List Ratio), checkSums chk rs = .ok () ↔ sumsOk chk rs = .ok true
  | [] => by simp [checkSums, sumsOk]
  | c :: cs => by
    rw [checkSums, sumsOk, reduce_zero, Res.ok_bind]
    cases Ratio.sum chk ⟨0, 1⟩ c with
    | err e => simp [bind, Res.bind]
    | panic => simp [bind, Res.bind]
    | ok r =>
      simp only [Res.ok_bind]
      split
      · simp
      · exact checkSums_iff chk cs

theorem sumSizes_exact (chk : Bool) : ∀ (cs : List (List Ratio)) (acc : Nat), acc + (cs.map List.length).sum < 2 ^ 32 →
    sumSizes chk acc cs = .ok (acc + (cs.map List.length).sum)
  | [], acc, _ => rfl
  | c :: cs, acc, h => by
    rw [List.map_cons, List.sum_cons] at h
    rw [sumSizes, Nat.mod_eq_of_lt (by omega), addU32, if_pos (by omega), Res.ok_bind,
      sumSizes_exact chk cs _ (by omega), List.map_cons, List.sum_cons, Nat.add_assoc]

theorem wf_size {chk : Bool} {t : Tholder} {rs : List (List Ratio)} (h : WfW chk t rs)
    (hn : (rs.map List.length).sum < 2 ^ 32) : t.size = (rs.map List.length).sum := by
  have := h.size
  rw [sumSizes_exact chk rs 0 (by omega), Nat.zero_add] at this
  exact (Res.ok.inj this).symm

/-- `satisfy` of an accepted weighted threshold, for positions in range. -/
theorem satisfy_eq {chk : Bool} {t : Tholder} {rs : List (List Ratio)} (h : WfW chk t rs)
    (hn : (rs.map List.length).sum < 2 ^ 32) {indices : List Nat} (hi : ∀ i ∈ indices, i < (rs.map List.length).sum) :
    satisfy chk t indices = sumsOk chk (selectedAll indices 0 rs) := by
  obtain ⟨m, hm, -⟩ := h.bexter
  unfold satisfy
  rw [h.number, if_neg (by simp), hm, if_pos (by simp)]
  unfold satisfyWeighted
  dsimp only
  rw [wf_size h hn]
  obtain ⟨r, h1, h2, h3⟩ := mark_ok (dedup (sortNat indices))
    (List.replicate (rs.map List.length).sum false) (by
      intro i hi'
      rw [List.length_replicate]
      exact hi i ((mem_norm i indices).mp hi'))
  rw [h1, Res.ok_bind, h.values, Res.ok_bind]
  apply clausesOk_eq (n := (rs.map List.length).sum) chk
  · intro j hj
    rw [h3 j (by rw [List.length_replicate]; exact hj)]
    simp only [mem_norm]
    simp [List.getD_eq_getElem?_getD, hj]
  · omega

theorem satisfy_panic {chk : Bool} {t : Tholder} {rs : List (List Ratio)} (h : WfW chk t rs)
    {indices : List Nat} (hi : ∃ i ∈ indices, t.size ≤ i) :
    satisfy chk t indices = .panic := by
  obtain ⟨m, hm, -⟩ := h.bexter
  unfold satisfy
  rw [h.number, if_neg (by simp), hm, if_pos (by simp)]
  unfold satisfyWeighted
  dsimp only
  rw [mark_panic]
  · rfl
  · obtain ⟨i, h1, h2⟩ := hi
    exact ⟨i, (mem_norm i indices).mpr h1, by rw [List.length_replicate]; exact h2⟩

theorem selectedAll_congr {a b : List Nat} (h : ∀ i, i ∈ a ↔ i ∈ b) : ∀ (cs : List (List Ratio)) (off : Nat),
    selectedAll a off cs = selectedAll b off cs
  | [], _ => rfl
  | c :: cs, off => by rw [selectedAll, selectedAll, selected_congr h, selectedAll_congr h cs]

theorem selectedAll_all {a : List Nat} : ∀ (cs : List (List Ratio)) (off : Nat),
    (∀ i, off ≤ i → i < off + (cs.map List.length).sum → i ∈ a) → selectedAll a off cs = cs
  | [], _, _ => rfl
  | c :: cs, off, h => by
    rw [List.map_cons, List.sum_cons] at h
    rw [selectedAll, selected_all c off (fun i h1 h2 => h i h1 (by omega)),
      selectedAll_all cs _ (fun i h1 h2 => h i (by omega) (by omega))]

theorem selectedAll_isW {indices : List Nat} : ∀ (cs : List (List Ratio)) (off : Nat),
    (∀ c ∈ cs, ∀ w ∈ c, IsW w) → ∀ c ∈ selectedAll indices off cs, ∀ w ∈ c, IsW w
  | [], _, _ => by simp [selectedAll]
  | c :: cs, off, h => by
    intro x hx w hw
    rcases List.mem_cons.mp hx with rfl | hx
    · exact h c List.mem_cons_self w (selected_subset indices c off w hw)
    · exact selectedAll_isW cs _ (fun c hc => h c (List.mem_cons_of_mem _ hc)) x hx w hw

/-- No false acceptance, in either mode. -/
theorem sumsOk_sound {chk : Bool} : ∀ {cs : List (List Ratio)}, (∀ c ∈ cs, ∀ w ∈ c, IsW w) → sumsOk chk cs = .ok true →
    ∀ c ∈ cs, 1 ≤ (c.map val).sum
  | [], _, _ => by simp
  | c :: cs, hw, h => by
    rw [sumsOk, Res.bind_eq_ok] at h
    obtain ⟨s, h1, h⟩ := h
    split at h
    · cases h
    · rename_i hl
      intro x hx
      rcases List.mem_cons.mp hx with rfl | hx
      · exact sum_sound (hw x List.mem_cons_self) h1 (by simpa using hl)
      · exact sumsOk_sound (fun c hc => hw c (List.mem_cons_of_mem _ hc)) h x hx

/-- With overflow checks whatever is computed is exact, and without them it is the same. -/
theorem sumsOk_exact : ∀ {cs : List (List Ratio)} {b : Bool}, (∀ c ∈ cs, ∀ w ∈ c, IsW w) → sumsOk true cs = .ok b →
    sumsOk false cs = .ok b ∧ (b = true ↔ ∀ c ∈ cs, 1 ≤ (c.map val).sum)
  | [], b, _, h => by cases h; exact ⟨rfl, by simp⟩
  | c :: cs, b, hw, h => by
    rw [sumsOk, Res.bind_eq_ok] at h
    obtain ⟨s, h1, h⟩ := h
    obtain ⟨h2, h3, h4⟩ := sum_exact good_zero (fun w hw' => (hw c List.mem_cons_self w hw').good) h1
    rw [sumsOk, h2 false, Res.ok_bind]
    rw [val_zero, zero_add] at h4
    split at h
    · rename_i hl
      cases h
      rw [if_pos hl]
      refine ⟨rfl, iff_of_false (by simp) ?_⟩
      intro hall
      have := hall c List.mem_cons_self
      rw [lt1_iff h3, h4] at hl
      exact absurd hl (not_lt.mpr this)
    · rename_i hl
      rw [if_neg hl]
      obtain ⟨h5, h6⟩ := sumsOk_exact (fun c hc => hw c (List.mem_cons_of_mem _ hc)) h
      refine ⟨h5, ?_⟩
      rw [h6, List.forall_mem_cons, and_iff_right]
      rw [lt1_iff h3, h4, not_lt] at hl
      exact hl

/-- Release sums never panic. -/
theorem sumsOk_release : ∀ {cs : List (List Ratio)}, (∀ c ∈ cs, ∀ w ∈ c, IsW w) → ∃ b, sumsOk false cs = .ok b
  | [], _ => ⟨true, rfl⟩
  | c :: cs, hw => by
    obtain ⟨r, h1, -⟩ := sum_wrap inv_zero (hw c List.mem_cons_self)
    rw [sumsOk, h1, Res.ok_bind]
    split
    · exact ⟨_, rfl⟩
    · exact sumsOk_release (fun c hc => hw c (List.mem_cons_of_mem _ hc))

theorem sum_ne_err {chk : Bool} : ∀ {ws : List Ratio} {acc : Ratio} {e : Err}, Ratio.sum chk acc ws ≠ .err e := by
  have hi : ∀ (x : Int) (e : Err), i32 chk x ≠ .err e := by
    intro x e; unfold i32; split_ifs <;> simp
  have hr : ∀ (n d : Int) (e : Err), reduce chk n d ≠ .err e := by
    intro n d e h
    unfold reduce at h
    split at h
    · cases h
    · split at h
      · cases h
      · split at h
        · cases h
        · dsimp only at h
          split at h
          · rw [Res.bind_eq_err] at h
            rcases h with h | ⟨x, -, h⟩
            · exact hi _ _ h
            · rw [Res.bind_eq_err] at h
              rcases h with h | ⟨y, -, h⟩
              · exact hi _ _ h
              · cases h
          · cases h
  have ha : ∀ (x y : Ratio) (e : Err), add chk x y ≠ .err e := by
    intro x y e h
    unfold add at h
    split at h
    · rw [Res.bind_eq_err] at h
      rcases h with h | ⟨z, -, h⟩
      · exact hi _ _ h
      · exact hr _ _ _ h
    · rw [Res.bind_eq_err] at h
      rcases h with h | ⟨z, -, h⟩
      · exact hi _ _ h
      rw [Res.bind_eq_err] at h
      rcases h with h | ⟨z, -, h⟩
      · exact hi _ _ h
      rw [Res.bind_eq_err] at h
      rcases h with h | ⟨z, -, h⟩
      · exact hi _ _ h
      rw [Res.bind_eq_err] at h
      rcases h with h | ⟨z, -, h⟩
      · exact hi _ _ h
      rw [Res.bind_eq_err] at h
      rcases h with h | ⟨z, -, h⟩
      · exact hi _ _ h
      · exact hr _ _ _ h
  intro ws
  induction ws with
  | nil => intro acc e h; cases h
  | cons w ws ih =>
    intro acc e h
    rw [Ratio.sum, Res.bind_eq_err] at h
    rcases h with h | ⟨r, -, h⟩
    · exact ha _ _ _ h
    · exact ih h

theorem sumsOk_ne_err {chk : Bool} : ∀ {cs : List (List Ratio)} {e : Err}, sumsOk chk cs ≠ .err e
  | [], _, h => by cases h
  | c :: cs, e, h => by
    rw [sumsOk, Res.bind_eq_err] at h
    rcases h with h | ⟨r, -, h⟩
    · exact sum_ne_err h
    · split at h
      · cases h
      · exact sumsOk_ne_err h

/-- Small weights: the checked sums do not overflow. -/
theorem sumsOk_bounded : ∀ {cs : List (List Ratio)}, (∀ c ∈ cs, ∀ w ∈ c, IsW w) →
    (∀ c ∈ cs, ∃ D : Nat, 0 < D ∧ D < 2 ^ 31 ∧ (∀ w ∈ c, w.d ∣ D) ∧ (c.map val).sum * D < 2 ^ 31) →
    ∃ b, sumsOk true cs = .ok b
  | [], _, _ => ⟨true, rfl⟩
  | c :: cs, hw, hb => by
    obtain ⟨D, h1, h2, h3, h4⟩ := hb c List.mem_cons_self
    obtain ⟨r, hr⟩ := sum_bounded h1 h2 good_zero (fun w hw' => (hw c List.mem_cons_self w hw').good)
      (by simp) h3 (by rw [val_zero, zero_add]; exact h4)
    rw [sumsOk, hr, Res.ok_bind]
    split
    · exact ⟨_, rfl⟩
    · exact sumsOk_bounded (fun c hc => hw c (List.mem_cons_of_mem _ hc)) (fun c hc => hb c (List.mem_cons_of_mem _ hc))

/-- The weights of clauses as numbers. -/
def vals (rs : List (List Ratio)) : List (List ℚ) := rs.map (List.map val)

theorem positions_vals (rs : List (List Ratio)) : positions (vals rs) = (rs.map List.length).sum := by
  unfold positions vals
  rw [List.map_map]
  congr 1
  apply List.map_congr_left
  intro c _
  simp

theorem satisfied_iff (indices : List Nat) : ∀ (cs : List (List Ratio)) (off : Nat),
    Satisfied indices off (vals cs) ↔ ∀ c ∈ selectedAll indices off cs, 1 ≤ (c.map val).sum
  | [], _ => by simp [vals, Satisfied, selectedAll]
  | c :: cs, off => by
    rw [selectedAll, List.forall_mem_cons, selected_val, ← satisfied_iff indices cs (off + c.length)]
    simp [vals, Satisfied]

theorem satisfied_mono {a b : List Nat} (h : ∀ i ∈ a, i ∈ b) {qss : List (List ℚ)} (hq : ∀ c ∈ qss, ∀ q ∈ c, 0 ≤ q) :
    ∀ {off : Nat}, Satisfied a off qss → Satisfied b off qss := by
  have hs : ∀ (c : List ℚ), (∀ q ∈ c, 0 ≤ q) → ∀ off, signedWeight a off c ≤ signedWeight b off c := by
    intro c
    induction c with
    | nil => intro _ _; exact le_refl _
    | cons q qs ih =>
      intro hq off
      unfold signedWeight
      apply add_le_add _ (ih (fun x hx => hq x (List.mem_cons_of_mem _ hx)) (off + 1))
      have := hq q List.mem_cons_self
      split
      · rename_i h1; rw [if_pos (h _ h1)]
      · split
        · exact this
        · exact le_refl _
  induction qss with
  | nil => intro _ _; trivial
  | cons c cs ih =>
    intro off hsat
    exact ⟨le_trans hsat.1 (hs c (hq c List.mem_cons_self) off), ih (fun c hc => hq c (List.mem_cons_of_mem _ hc)) hsat.2⟩

theorem vals_nonneg {rs : List (List Ratio)} (h : ∀ c ∈ rs, ∀ w ∈ c, IsW w) : ∀ c ∈ vals rs, ∀ q ∈ c, 0 ≤ q := by
  intro c hc q hq
  unfold vals at hc
  obtain ⟨x, hx, rfl⟩ := List.mem_map.mp hc
  obtain ⟨w, hw, rfl⟩ := List.mem_map.mp hq
  exact (h x hx w hw).good.val_nonneg

theorem selected_le {indices : List Nat} : ∀ (c : List Ratio) (off : Nat), (∀ w ∈ c, IsW w) →
    ((selected indices off c).map val).sum ≤ (c.map val).sum
  | [], _, _ => le_refl _
  | w :: ws, off, h => by
    have ih := selected_le (indices := indices) ws (off + 1) (fun x hx => h x (List.mem_cons_of_mem _ hx))
    have h0 := (h w List.mem_cons_self).good.val_nonneg
    unfold selected
    split
    · simp only [List.map_cons, List.sum_cons]; exact add_le_add (le_refl _) ih
    · simp only [List.map_cons, List.sum_cons]; linarith

/-- Small weights stay small when some positions are left out. -/
theorem small_selected {indices : List Nat} : ∀ {cs : List (List Ratio)} {off : Nat}, (∀ c ∈ cs, ∀ w ∈ c, IsW w) →
    Small (vals cs) → ∀ c ∈ selectedAll indices off cs,
      ∃ D : Nat, 0 < D ∧ D < 2 ^ 31 ∧ (∀ w ∈ c, w.d ∣ D) ∧ (c.map val).sum * D < 2 ^ 31
  | [], _, _, _ => by simp [selectedAll]
  | c :: cs, off, hw, hs => by
    rw [selectedAll, List.forall_mem_cons]
    constructor
    · obtain ⟨D, h1, h2, h3, h4⟩ := hs (c.map val) (by simp [vals])
      refine ⟨D, h1, h2, ?_, ?_⟩
      · intro w hw'
        have hm := selected_subset indices c off w hw'
        have := h3 (val w) (List.mem_map_of_mem hm)
        rw [← isW_den (hw c List.mem_cons_self w hm)]
        exact_mod_cast this
      · refine lt_of_le_of_lt ?_ h4
        apply mul_le_mul_of_nonneg_right (selected_le c off (hw c List.mem_cons_self))
        positivity
    · exact small_selected (fun c hc => hw c (List.mem_cons_of_mem _ hc)) (fun c hc => hs c (by
        unfold vals at hc ⊢; rw [List.map_cons]; exact List.mem_cons_of_mem _ hc))

theorem forall₂_self_map {α : Type u} {β : Type v} {γ : Type w} {R : β → γ → Prop} (f : α → β) (g : α → γ) :
    ∀ (l : List α), (∀ a ∈ l, R (f a) (g a)) → List.Forall₂ R (l.map f) (l.map g)
  | [], _ => .nil
  | a :: l, h => .cons (h a List.mem_cons_self) (forall₂_self_map f g l (fun x hx => h x (List.mem_cons_of_mem _ hx)))

/-- The stored value of an accepted threshold is a list of weights in the sense of the specification. -/
theorem isWeights_tholdOf {rs : List (List Ratio)} (h : ∀ c ∈ rs, ∀ w ∈ c, IsW w) :
    IsWeights (tholdOf rs) (vals rs) := by
  refine ⟨_, rfl, forall₂_self_map _ _ rs fun c hc => ⟨_, rfl, forall₂_self_map _ _ c fun w hw => ?_⟩⟩
  exact ⟨_, rfl, weightText_isWeight (h c hc w hw)⟩

/-- A list of weights of the specification parses to its numbers. -/
theorem parse_isWeights (chk : Bool) {v : Value} {qss : List (List ℚ)} (h : IsWeights v qss) :
    ∃ cs rs, v = .arr cs ∧ Res.mapList (parseClause chk) cs = .ok rs ∧ vals rs = qss ∧ ∀ c ∈ rs, ∀ w ∈ c, IsW w := by
  obtain ⟨cs, rfl, h⟩ := h
  have hc : ∀ (ws : List Value) (qs : List ℚ), List.Forall₂ (fun w q => ∃ s, w = .str s ∧ IsWeight s q) ws qs →
      ∃ r, Res.mapList (parseWeight chk) ws = .ok r ∧ r.map val = qs ∧ ∀ w ∈ r, IsW w := by
    intro ws qs h
    induction h with
    | nil => exact ⟨[], rfl, rfl, by simp⟩
    | cons h1 _ ih =>
      obtain ⟨s, rfl, hs⟩ := h1
      obtain ⟨w, h2, h3, h4⟩ := parseWeight_spec chk hs
      obtain ⟨r, h5, h6, h7⟩ := ih
      refine ⟨w :: r, ?_, by rw [List.map_cons, h4, h6], by rw [List.forall_mem_cons]; exact ⟨h3, h7⟩⟩
      rw [Res.mapList, h2, h5]
  suffices ∃ rs, Res.mapList (parseClause chk) cs = .ok rs ∧ vals rs = qss ∧ ∀ c ∈ rs, ∀ w ∈ c, IsW w by
    obtain ⟨rs, h⟩ := this
    exact ⟨cs, rs, rfl, h⟩
  induction h with
  | nil => exact ⟨[], rfl, rfl, by simp⟩
  | cons h1 _ ih =>
    obtain ⟨ws, rfl, hw⟩ := h1
    obtain ⟨r, h2, h3, h4⟩ := hc ws _ hw
    obtain ⟨rs, h5, h6, h7⟩ := ih
    refine ⟨r :: rs, ?_, by rw [← h6, ← h3]; rfl, by rw [List.forall_mem_cons]; exact ⟨h4, h7⟩⟩
    rw [Res.mapList, parseClause, Value.toVec, Res.ok_bind, h2, h5]

theorem mapList_parse_sub {chk : Bool} {v : Value} {rs : List (List Ratio)} (h : valuesToRationals chk v = .ok rs) :
    ∃ cs, v = .arr cs ∧ Res.mapList (parseClause chk) cs = .ok rs := by
  unfold valuesToRationals at h
  rw [Res.bind_eq_ok] at h
  obtain ⟨cs, h0, h⟩ := h
  rw [Res.bind_eq_ok] at h
  obtain ⟨rs', h1, h⟩ := h
  rw [Res.bind_eq_ok] at h
  obtain ⟨u, h2, h⟩ := h
  cases h
  cases v <;> simp only [Value.toVec] at h0 <;> cases h0
  exact ⟨_, rfl, h1⟩

/-- A threshold accepted from weights of the specification stores those numbers. -/
theorem values_isWeights {chk : Bool} {v : Value} {qss : List (List ℚ)} {rs : List (List Ratio)}
    (h : IsWeights v qss) (hr : valuesToRationals chk v = .ok rs) : vals rs = qss := by
  obtain ⟨cs, rs', rfl, h1, h2, -⟩ := parse_isWeights chk h
  obtain ⟨cs', e, h3⟩ := mapList_parse_sub hr
  cases e
  rw [h1] at h3
  cases h3
  exact h2

/-- The specification's reading of a value is unique. -/
theorem isWeights_unique {v : Value} {a b : List (List ℚ)} (ha : IsWeights v a) (hb : IsWeights v b) : a = b := by
  obtain ⟨cs, rs, rfl, h1, h2, -⟩ := parse_isWeights true ha
  obtain ⟨cs', rs', e, h3, h4, -⟩ := parse_isWeights true hb
  cases e
  rw [h1] at h3
  cases h3
  rw [← h2, h4]

end Keride.Tholder
