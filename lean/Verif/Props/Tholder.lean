/-
C28 to C33 and C51: signing thresholds (tholder.rs).

`chk` says whether arithmetic overflow panics (debug builds) or wraps (release builds). `json` stands for the
JSON reader used for thresholds given as JSON text.
-/
import Verif.Lemmas.TholderPanic
import Mathlib.Data.Finset.Card
import Mathlib.Data.List.Nodup
import Mathlib.Data.List.Perm.Subperm

namespace Keride.Props

open Spec Tholder

/-- A threshold some call of `Tholder::new` returned. -/
def Accepted (chk : Bool) (json : Str → Res Value) (t : Tholder) : Prop :=
  ∃ thold limen sith, Tholder.new chk json thold limen sith = .ok t

theorem accepted_wf {chk : Bool} {json : Str → Res Value} {t : Tholder} (h : Accepted chk json t) : Wf chk t := by
  obtain ⟨a, b, c, h⟩ := h
  exact new_wf h

theorem accepted_weights {chk : Bool} {json : Str → Res Value} {t : Tholder} {qss : List (List ℚ)}
    (h : Accepted chk json t) (hw : IsWeights t.thold qss) : ∃ rs, WfW chk t rs ∧ vals rs = qss := by
  rcases accepted_wf h with ⟨n, -, m, -, rfl⟩ | ⟨rs, hrs⟩
  · obtain ⟨cs, e, -⟩ := hw; cases e
  · refine ⟨rs, hrs, ?_⟩
    have := isWeights_tholdOf hrs.isw
    rw [← hrs.thold] at this
    exact isWeights_unique this hw

/-- The running example: two of three, in one clause and nested with a second one. -/
def exSith : Value := .arr [.arr [.str (str% "1/2"), .str (str% "1/2"), .str (str% "1/2")], .arr [.str (str% "1")]]

def exQ : List (List ℚ) := [[1/2, 1/2, 1/2], [1]]

theorem exQ_weights : IsWeights exSith exQ := by
  have hw : IsWeight (str% "1/2") (1/2) := .inr (.inr ⟨1, 2, by decide, by decide, by decide, by decide, by norm_num⟩)
  have h1 : IsWeight (str% "1") 1 := .inr (.inl ⟨rfl, rfl⟩)
  exact ⟨_, rfl, .cons ⟨_, rfl, .cons ⟨_, rfl, hw⟩ (.cons ⟨_, rfl, hw⟩ (.cons ⟨_, rfl, hw⟩ .nil))⟩
    (.cons ⟨_, rfl, .cons ⟨_, rfl, h1⟩ .nil⟩ .nil)⟩

theorem exQ_small : Small exQ := by
  intro c hc
  rcases List.mem_cons.mp hc with rfl | hc
  · refine ⟨2, by decide, by decide, ?_, by norm_num⟩
    intro q hq
    have : q = 1 / 2 := by simpa using hq
    rw [this]
    have h2 : (1 / 2 : ℚ).den ∣ 2 := by
      have := Rat.den_dvd 1 2
      have e : ((1 : ℤ) : ℚ) / ((2 : ℤ) : ℚ) = 1 / 2 := by norm_num
      rw [Rat.divInt_eq_div, e] at this
      exact_mod_cast this
    exact h2
  · rcases List.mem_cons.mp hc with rfl | hc
    · refine ⟨1, by decide, by decide, ?_, by norm_num⟩
      intro q hq
      have : q = 1 := by simpa using hq
      rw [this]; rfl
    · cases hc

theorem witness {x : Res Tholder} {chk : Bool} {a : List Nat} {b : Bool}
    (h : x.bind (fun t => t.satisfy chk a) = .ok b) : ∃ t, x = .ok t ∧ t.satisfy chk a = .ok b := by
  cases x with
  | ok t => exact ⟨t, rfl, h⟩
  | err e => cases h
  | panic => cases h

/-- The running example is accepted, satisfied by the positions 0, 2 and 3, and not by 0 and 3. -/
theorem ex_accepted (chk : Bool) : ∃ t, newWithSith chk (fun _ => .err .json) exSith = .ok t ∧
    t.satisfy chk [0, 2, 3] = .ok true ∧ t.satisfy chk [0, 3] = .ok false := by
  obtain ⟨t, h1, h2⟩ := witness (x := newWithSith chk (fun _ => .err .json) exSith) (chk := chk) (a := [0, 2, 3]) (b := true)
    (by cases chk <;> decide +kernel)
  obtain ⟨t', h3, h4⟩ := witness (x := newWithSith chk (fun _ => .err .json) exSith) (chk := chk) (a := [0, 3]) (b := false)
    (by cases chk <;> decide +kernel)
  rw [h1] at h3
  cases h3
  exact ⟨t, h1, h2, h4⟩

/-! ## C28: numeric thresholds -/

/-- C28: what a numeric threshold counts is the length of the list of indices. -/
theorem C28_count (chk : Bool) (json : Str → Res Value) (t : Tholder) (h : Accepted chk json t) (n : Nat)
    (hn : t.num = .ok (some n)) (indices : List Nat) :
    t.satisfy chk indices = .ok (decide (0 < n ∧ n ≤ indices.length)) := by
  rcases accepted_wf h with ⟨k, hk, m, -, rfl⟩ | ⟨rs, hrs⟩
  · unfold Tholder.num at hn
    rw [if_neg (by simp)] at hn
    simp only [Value.toI64, Res.ok_bind] at hn
    rw [if_pos (by constructor; omega; exact_mod_cast hk)] at hn
    have hkn : k = n := by simpa using hn
    subst hkn
    unfold Tholder.satisfy
    rw [if_pos (by simp)]
    simp only [satisfyNumeric, Value.toI64, Res.ok_bind, Int.toNat_natCast]
    congr 2
    rw [eq_iff_iff]
    constructor <;> rintro ⟨a, b⟩ <;> exact ⟨by omega, b⟩
  · unfold Tholder.num at hn
    rw [if_pos hrs.weighted] at hn
    cases hn

/-- C28, partial: on a list without repetitions a numeric threshold `n` is satisfied exactly when `n` is
positive and there are at least `n` distinct indices. Missing: lists with repetitions, see `C28_false`. -/
theorem C28_distinct_partial (chk : Bool) (json : Str → Res Value) (t : Tholder) (h : Accepted chk json t) (n : Nat)
    (hn : t.num = .ok (some n)) (indices : List Nat) (hd : indices.Nodup) :
    t.satisfy chk indices = .ok (decide (0 < n ∧ n ≤ indices.toFinset.card)) := by
  rw [List.toFinset_card_of_nodup hd]
  exact C28_count chk json t h n hn indices

/-- C28: zero is never satisfied. -/
theorem C28_zero (chk : Bool) (json : Str → Res Value) (t : Tholder) (h : Accepted chk json t)
    (hn : t.num = .ok (some 0)) (indices : List Nat) : t.satisfy chk indices = .ok false := by
  rw [C28_count chk json t h 0 hn indices]
  rfl

/-- C28: which numbers are accepted, and that they are the threshold: `new_with_thold` of an integer,
`new_with_sith` of an integer or of its hexadecimal text. -/
theorem C28_number (chk : Bool) (json : Str → Res Value) (i : Int) :
    (0 ≤ i ∧ i < 2 ^ 32 → ∃ t, newWithThold chk (.int i) = .ok t ∧ newWithSith chk json (.int i) = .ok t ∧
      newWithSith chk json (.str (Nat.toDigits 16 i.toNat)) = .ok t ∧ t.num = .ok (some i.toNat) ∧
      t.weighted = false ∧ t.size = i.toNat) ∧
    (¬ (0 ≤ i ∧ i < 2 ^ 32) → (newWithThold chk (.int i)).isErr = true ∧
      (newWithSith chk json (.int i)).isErr = true) := by
  constructor
  · rintro ⟨h0, h1⟩
    obtain ⟨n, rfl⟩ := Int.eq_ofNat_of_zero_le h0
    have hn : n ≤ u32Max := by unfold u32Max; omega
    obtain ⟨t, ht, hw⟩ := processUnweighted_nat hn
    refine ⟨t, newWithThold_eq.mpr ?_, newWithSith_eq.mpr ?_, ?_, ?_⟩
    · unfold processThold; rw [if_pos (by rfl)]; exact ht
    · unfold processSith; rw [if_pos (by rfl)]; exact ht
    · rw [Int.toNat_natCast]; exact (sith_numeric chk json hw).2
    · obtain ⟨-, m, -, rfl⟩ := hw
      rw [Int.toNat_natCast]
      refine ⟨?_, rfl, rfl⟩
      unfold Tholder.num
      rw [if_neg (by simp)]
      simp only [Value.toI64, Res.ok_bind]
      rw [if_pos ⟨by omega, by exact_mod_cast hn⟩, Int.toNat_natCast]
  · intro h
    have hp : ∃ e, processUnweighted i = .err e := by
      unfold processUnweighted
      by_cases h0 : i < 0
      · rw [if_pos h0]; exact ⟨_, rfl⟩
      · rw [if_neg h0, if_pos (by unfold u32Max; omega)]; exact ⟨_, rfl⟩
    obtain ⟨e, he⟩ := hp
    have h1 : processThold chk (.int i) = .err e := by
      unfold processThold; rw [if_pos (by rfl)]; exact he
    have h2 : processSith chk json (.int i) = .err e := by
      unfold processSith; rw [if_pos (by rfl)]; exact he
    constructor
    · unfold newWithThold Tholder.new
      simp only [h1]
      rfl
    · unfold newWithSith Tholder.new
      simp only [Res.ok_bind, h2]
      rfl

/-- C28 is false: two signatures with the same index satisfy a threshold of two. -/
theorem C28_false : ∃ t, newWithThold false (.int 2) = .ok t ∧ t.num = .ok (some 2) ∧
    t.satisfy false [0, 0] = .ok true ∧ [0, 0].toFinset.card = 1 :=
  ⟨⟨.int 2, false, 2, some ⟨str% "M", 0, [0, 2]⟩, none⟩, rfl, by decide, by decide +kernel, by decide⟩

example : Accepted true (fun _ => .err .json) ⟨.int 2, false, 2, some ⟨str% "M", 0, [0, 2]⟩, none⟩ ∧
    [5, 3].Nodup := ⟨⟨some (.int 2), none, none, rfl⟩, by decide⟩

/-! ## C29: weighted thresholds -/

/-- C29: the stored value of every accepted weighted threshold is a list of clauses of weights. -/
theorem C29_weights (chk : Bool) (json : Str → Res Value) (t : Tholder) (h : Accepted chk json t)
    (hw : t.weighted = true) : ∃ qss, IsWeights t.thold qss ∧ ∀ c ∈ qss, 1 ≤ c.sum := by
  rcases accepted_wf h with ⟨n, -, m, -, rfl⟩ | ⟨rs, hrs⟩
  · cases hw
  · refine ⟨vals rs, by rw [hrs.thold]; exact isWeights_tholdOf hrs.isw, ?_⟩
    intro c hc
    unfold vals at hc
    obtain ⟨x, hx, rfl⟩ := List.mem_map.mp hc
    exact sumsOk_sound hrs.isw ((checkSums_iff chk rs).mp hrs.sums) x hx

/-- C29: the stored weights are the numbers given, through `new_with_sith` (a list of clauses, or one clause)
and `new_with_thold`; the size is the number of weights. -/
theorem C29_input (chk : Bool) (json : Str → Res Value) (v : Value) (t : Tholder) :
    (∀ qss, IsWeights v qss → qss ≠ [] → newWithSith chk json v = .ok t →
      t.weighted = true ∧ IsWeights t.thold qss ∧ (positions qss < 2 ^ 32 → t.size = positions qss)) ∧
    (∀ qs, IsClause v qs → qs ≠ [] → newWithSith chk json v = .ok t →
      t.weighted = true ∧ IsWeights t.thold [qs] ∧ (qs.length < 2 ^ 32 → t.size = qs.length)) ∧
    (∀ qss, IsWeights v qss → newWithThold chk v = .ok t →
      t.weighted = true ∧ IsWeights t.thold qss ∧ (positions qss < 2 ^ 32 → t.size = positions qss)) := by
  have key : ∀ {v : Value} {qss : List (List ℚ)}, IsWeights v qss → processWeighted chk v = .ok t →
      t.weighted = true ∧ IsWeights t.thold qss ∧ (positions qss < 2 ^ 32 → t.size = positions qss) := by
    intro v qss hv hp
    obtain ⟨rs, h1, h2⟩ := processWeighted_wf hp
    have hq := values_isWeights hv h1
    subst hq
    refine ⟨h2.weighted, by rw [h2.thold]; exact isWeights_tholdOf h2.isw, ?_⟩
    rw [positions_vals]
    exact wf_size h2
  refine ⟨?_, ?_, ?_⟩
  · intro qss hv hne h
    rw [newWithSith_eq] at h
    obtain ⟨cs, rfl, hf⟩ := hv
    rw [processSith_arr, processList_arr, if_neg, if_pos] at h
    · rw [Res.bind_eq_ok] at h
      obtain ⟨u, -, h⟩ := h
      exact key ⟨cs, rfl, hf⟩ h
    · rw [List.all_eq_true]
      clear h hne
      induction hf with
      | nil => simp
      | cons h1 _ ih =>
        intro x hx
        rcases List.mem_cons.mp hx with rfl | hx
        · obtain ⟨ws, rfl, -⟩ := h1; rfl
        · exact ih x hx
    · intro e
      have : cs = [] := by simpa using e
      subst this
      cases hf
      exact hne rfl
  · intro qs hv hne h
    rw [newWithSith_eq] at h
    have hv2 : IsWeights (.arr [v]) [qs] := ⟨_, rfl, .cons hv .nil⟩
    obtain ⟨ws, rfl, hf⟩ := hv
    rw [processSith_arr, processList_arr, if_neg, if_neg] at h
    · rw [Res.bind_eq_ok] at h
      obtain ⟨u, -, h⟩ := h
      have := key hv2 h
      refine ⟨this.1, this.2.1, fun hl => ?_⟩
      have := this.2.2 (by simpa [positions] using hl)
      simpa [positions] using this
    · cases hf with
      | nil => exact absurd rfl hne
      | cons h1 _ =>
        obtain ⟨s, rfl, -⟩ := h1
        simp [Value.toVec, Res.isOk]
    · cases hf with
      | nil => exact absurd rfl hne
      | cons h1 _ => simp
  · intro qss hv h
    rw [newWithThold_eq] at h
    obtain ⟨cs, rfl, hf⟩ := hv
    exact key ⟨cs, rfl, hf⟩ h

/-- C29, soundness, for all weights in both build modes: whenever `satisfy` says yes, the exact rational sums
over the signed positions are at least one in every clause. -/
theorem C29_sound (chk : Bool) (json : Str → Res Value) (t : Tholder) (h : Accepted chk json t) (qss : List (List ℚ))
    (hw : IsWeights t.thold qss) (hn : positions qss < 2 ^ 32) (indices : List Nat)
    (hs : t.satisfy chk indices = .ok true) : Satisfied indices 0 qss := by
  obtain ⟨rs, hrs, rfl⟩ := accepted_weights h hw
  rw [positions_vals] at hn
  by_cases hi : ∀ i ∈ indices, i < (rs.map List.length).sum
  · rw [satisfy_eq hrs hn hi] at hs
    rw [satisfied_iff]
    exact sumsOk_sound (selectedAll_isW rs 0 hrs.isw) hs
  · push Not at hi
    obtain ⟨i, h1, h2⟩ := hi
    rw [satisfy_panic hrs ⟨i, h1, by rw [wf_size hrs hn]; exact h2⟩] at hs
    cases hs

/-- C29: with overflow checks, whatever `satisfy` returns is right. -/
theorem C29_checked (json : Str → Res Value) (t : Tholder) (h : Accepted true json t) (qss : List (List ℚ))
    (hw : IsWeights t.thold qss) (hn : positions qss < 2 ^ 32) (indices : List Nat) (b : Bool)
    (hs : t.satisfy true indices = .ok b) : b = true ↔ Satisfied indices 0 qss := by
  obtain ⟨rs, hrs, rfl⟩ := accepted_weights h hw
  rw [positions_vals] at hn
  by_cases hi : ∀ i ∈ indices, i < (rs.map List.length).sum
  · rw [satisfy_eq hrs hn hi] at hs
    rw [satisfied_iff]
    exact (sumsOk_exact (selectedAll_isW rs 0 hrs.isw) hs).2
  · push Not at hi
    obtain ⟨i, h1, h2⟩ := hi
    rw [satisfy_panic hrs ⟨i, h1, by rw [wf_size hrs hn]; exact h2⟩] at hs
    cases hs

/-- C29, partial: for weights with a small common denominator and positions in range, `satisfy` returns yes
exactly when the exact sums are at least one in every clause, in both build modes. Missing: weights whose sums
overflow 32-bit arithmetic, see `C29_false`. -/
theorem C29_exact_partial (chk : Bool) (json : Str → Res Value) (t : Tholder) (h : Accepted chk json t)
    (qss : List (List ℚ)) (hw : IsWeights t.thold qss) (hn : positions qss < 2 ^ 32) (hs : Small qss)
    (indices : List Nat) (hi : ∀ i ∈ indices, i < positions qss) :
    t.satisfy chk indices = .ok (decide (Satisfied indices 0 qss)) := by
  obtain ⟨rs, hrs, rfl⟩ := accepted_weights h hw
  rw [positions_vals] at hn hi
  rw [satisfy_eq hrs hn hi]
  have hW := selectedAll_isW (indices := indices) rs 0 hrs.isw
  obtain ⟨b, hb⟩ := sumsOk_bounded hW (small_selected hrs.isw hs)
  obtain ⟨h1, h2⟩ := sumsOk_exact hW hb
  rw [← satisfied_iff] at h2
  have e : b = decide (Satisfied indices 0 (vals rs)) := by
    rw [Bool.eq_iff_iff, h2, decide_eq_true_iff]
  rw [← e]
  cases chk with
  | true => exact hb
  | false => exact h1

/-- C29: order and repetition of indices do not matter. -/
theorem C29_set (chk : Bool) (json : Str → Res Value) (t : Tholder) (h : Accepted chk json t) (qss : List (List ℚ))
    (hw : IsWeights t.thold qss) (hn : positions qss < 2 ^ 32) (a b : List Nat) (hab : ∀ i, i ∈ a ↔ i ∈ b) :
    t.satisfy chk a = t.satisfy chk b := by
  obtain ⟨rs, hrs, rfl⟩ := accepted_weights h hw
  rw [positions_vals] at hn
  by_cases hi : ∀ i ∈ a, i < (rs.map List.length).sum
  · rw [satisfy_eq hrs hn hi, satisfy_eq hrs hn (fun i hb => hi i ((hab i).mpr hb)), selectedAll_congr hab]
  · push Not at hi
    obtain ⟨i, h1, h2⟩ := hi
    rw [satisfy_panic hrs ⟨i, h1, by rw [wf_size hrs hn]; exact h2⟩,
      satisfy_panic hrs ⟨i, (hab i).mp h1, by rw [wf_size hrs hn]; exact h2⟩]

/-- Weights whose sums overflow: all in [0, 1], denominators below 2^16. -/
def bigSith : Value := .arr [.arr [.str (str% "46341/46342"), .str (str% "1/46342"), .str (str% "46340/46341"),
  .str (str% "1/46341"), .str (str% "1")]]

def bigQ : List (List ℚ) := [[46341/46342, 1/46342, 46340/46341, 1/46341, 1]]

theorem bigQ_weights : IsWeights bigSith bigQ := by
  have h1 : IsWeight (str% "46341/46342") (46341/46342) :=
    .inr (.inr ⟨46341, 46342, by decide, by decide, by decide, by decide, by norm_num⟩)
  have h2 : IsWeight (str% "1/46342") (1/46342) :=
    .inr (.inr ⟨1, 46342, by decide, by decide, by decide, by decide, by norm_num⟩)
  have h3 : IsWeight (str% "46340/46341") (46340/46341) :=
    .inr (.inr ⟨46340, 46341, by decide, by decide, by decide, by decide, by norm_num⟩)
  have h4 : IsWeight (str% "1/46341") (1/46341) :=
    .inr (.inr ⟨1, 46341, by decide, by decide, by decide, by decide, by norm_num⟩)
  have h5 : IsWeight (str% "1") 1 := .inr (.inl ⟨rfl, rfl⟩)
  exact ⟨_, rfl, .cons ⟨_, rfl, .cons ⟨_, rfl, h1⟩ (.cons ⟨_, rfl, h2⟩ (.cons ⟨_, rfl, h3⟩
    (.cons ⟨_, rfl, h4⟩ (.cons ⟨_, rfl, h5⟩ .nil))))⟩ .nil⟩

/-- C29 is false: an accepted threshold whose exact sum over the positions 0 and 2 is above one; a release
build says no, a debug build panics. -/
theorem C29_false : ∃ t, newWithThold false bigSith = .ok t ∧ newWithThold true bigSith = .ok t ∧
    IsWeights t.thold bigQ ∧ Satisfied [0, 2] 0 bigQ ∧ t.satisfy false [0, 2] = .ok false ∧
    t.satisfy true [0, 2] = .panic := by
  have h1 : ∀ chk, (newWithThold chk bigSith).isOk = true ∧
      (newWithThold chk bigSith).bind (fun t => t.satisfy chk [0, 2]) = (if chk then .panic else .ok false) := by
    intro chk; cases chk <;> decide +kernel
  have ok : ∀ chk, ∃ t, newWithThold chk bigSith = .ok t := by
    intro chk
    have := (h1 chk).1
    cases h : newWithThold chk bigSith with
    | ok t => exact ⟨t, rfl⟩
    | err e => rw [h] at this; cases this
    | panic => rw [h] at this; cases this
  obtain ⟨t, ht⟩ := ok false
  obtain ⟨t', ht'⟩ := ok true
  have e : t = t' := by
    obtain ⟨rs, a1, a2⟩ := processWeighted_wf (newWithThold_eq.mp ht : processWeighted false bigSith = .ok t)
    obtain ⟨rs', b1, b2⟩ := processWeighted_wf (newWithThold_eq.mp ht' : processWeighted true bigSith = .ok t')
    have hp : rs = rs' := by
      obtain ⟨cs, e1, h3⟩ := mapList_parse_sub a1
      obtain ⟨cs', e2, h4⟩ := mapList_parse_sub b1
      rw [e1] at e2
      cases e2
      have : parseClause false = parseClause true := by
        funext c
        unfold parseClause
        have : parseWeight false = parseWeight true := funext fun v => parseWeight_chk false true v
        rw [this]
      rw [this, h4] at h3
      exact (Res.ok.inj h3).symm
    subst hp
    have hq := values_isWeights bigQ_weights a1
    have hpos : (rs.map List.length).sum < 2 ^ 32 := by
      rw [← positions_vals, hq]; decide
    have s1 := sumSizes_exact true rs 0 (by omega)
    have s2 := sumSizes_exact false rs 0 (by omega)
    apply wf_eq (chk := true) (rs := rs) _ b2
    exact ⟨a2.isw, b2.sums, by rw [s1, ← s2]; exact a2.size, a2.thold, a2.weighted, a2.number, a2.bexter⟩
  subst e
  refine ⟨t, ht, ht', ?_, ?_, ?_, ?_⟩
  · exact ((C29_input false (fun _ => .err .json) bigSith t).2.2 bigQ bigQ_weights ht).2.1
  · simp only [Satisfied, bigQ, signedWeight, and_true]; norm_num
  · have := (h1 false).2
    rw [ht] at this
    exact this
  · have := (h1 true).2
    rw [ht'] at this
    exact this

example (chk : Bool) : ∃ t, Accepted chk (fun _ => .err .json) t ∧ IsWeights t.thold exQ ∧
    positions exQ = 4 ∧ Small exQ ∧ t.satisfy chk [0, 2, 3] = .ok true ∧ t.satisfy chk [0, 3] = .ok false := by
  obtain ⟨t, h1, h2, h3⟩ := ex_accepted chk
  exact ⟨t, ⟨none, none, some exSith, h1⟩, ((C29_input chk _ exSith t).1 exQ exQ_weights (by decide) h1).2.1, rfl,
    exQ_small, h2, h3⟩

/-! ## C30: more signatures never hurt -/

/-- C30, partial: for weights with a small common denominator, adding valid positions keeps a weighted
threshold satisfied. Missing: weights whose sums overflow, see `C30_false`. -/
theorem C30_weighted_partial (chk : Bool) (json : Str → Res Value) (t : Tholder) (h : Accepted chk json t)
    (qss : List (List ℚ)) (hw : IsWeights t.thold qss) (hn : positions qss < 2 ^ 32) (hs : Small qss) (a b : List Nat)
    (hab : ∀ i ∈ a, i ∈ b) (hb : ∀ i ∈ b, i < positions qss) (hsat : t.satisfy chk a = .ok true) :
    t.satisfy chk b = .ok true := by
  have h1 := C29_sound chk json t h qss hw hn a hsat
  rw [C29_exact_partial chk json t h qss hw hn hs b hb]
  obtain ⟨rs, hrs, rfl⟩ := accepted_weights h hw
  rw [decide_eq_true (satisfied_mono hab (vals_nonneg hrs.isw) h1)]

/-- C30: with overflow checks, a superset is never answered with no. -/
theorem C30_checked (json : Str → Res Value) (t : Tholder) (h : Accepted true json t)
    (qss : List (List ℚ)) (hw : IsWeights t.thold qss) (hn : positions qss < 2 ^ 32) (a b : List Nat)
    (hab : ∀ i ∈ a, i ∈ b) (hsat : t.satisfy true a = .ok true) :
    t.satisfy true b ≠ .ok false := by
  intro hb
  have h1 := C29_sound true json t h qss hw hn a hsat
  have h2 := C29_checked json t h qss hw hn b false hb
  obtain ⟨rs, hrs, rfl⟩ := accepted_weights h hw
  have := h2.mpr (satisfied_mono hab (vals_nonneg hrs.isw) h1)
  cases this

/-- C30, numeric thresholds, partial: for lists without repetitions. -/
theorem C30_numeric_partial (chk : Bool) (json : Str → Res Value) (t : Tholder) (h : Accepted chk json t) (n : Nat)
    (hn : t.num = .ok (some n)) (a b : List Nat) (ha : a.Nodup) (hab : ∀ i ∈ a, i ∈ b)
    (hsat : t.satisfy chk a = .ok true) : t.satisfy chk b = .ok true := by
  rw [C28_count chk json t h n hn] at hsat ⊢
  have h1 : 0 < n ∧ n ≤ a.length := by simpa using hsat
  have h2 : a.length ≤ b.length := (ha.subperm hab).length_le
  rw [decide_eq_true ⟨h1.1, by omega⟩]

/-- C30 is false: in a release build an accepted threshold is satisfied by position 4 alone, but not by the
positions 0, 2 and 4; and a numeric threshold of two is satisfied by the list [0, 0] but not by [0]. -/
theorem C30_false : (∃ t, newWithThold false bigSith = .ok t ∧ t.satisfy false [4] = .ok true ∧
      t.satisfy false [0, 2, 4] = .ok false) ∧
    (∃ t, newWithThold false (.int 2) = .ok t ∧ t.satisfy false [0, 0] = .ok true ∧
      t.satisfy false [0] = .ok false) := by
  constructor
  · have h : (newWithThold false bigSith).bind (fun t => t.satisfy false [4]) = .ok true ∧
        (newWithThold false bigSith).bind (fun t => t.satisfy false [0, 2, 4]) = .ok false := by decide +kernel
    cases ht : newWithThold false bigSith with
    | ok t => rw [ht] at h; exact ⟨t, rfl, h.1, h.2⟩
    | err e => rw [ht] at h; cases h.1
    | panic => rw [ht] at h; cases h.1
  · exact ⟨⟨.int 2, false, 2, some ⟨str% "M", 0, [0, 2]⟩, none⟩, rfl, by decide +kernel, by decide +kernel⟩

example : (∀ i ∈ [0, 2, 3], i ∈ [3, 2, 1, 0]) ∧ (∀ i ∈ [3, 2, 1, 0], i < positions exQ) := by decide

/-! ## C31: nobody and everybody -/

/-- C31: nobody satisfies no accepted threshold, other than the empty list of clauses. Missing: that one, see
`C31_false`. -/
theorem C31_nobody_partial (chk : Bool) (json : Str → Res Value) (t : Tholder) (h : Accepted chk json t)
    (hne : t.thold ≠ .arr []) (hn : ∀ qss, IsWeights t.thold qss → positions qss < 2 ^ 32) :
    t.satisfy chk [] = .ok false := by
  rcases accepted_wf h with ⟨n, -, m, -, rfl⟩ | ⟨rs, hrs⟩
  · unfold Tholder.satisfy
    rw [if_pos (by simp)]
    simp only [satisfyNumeric, Value.toI64, Res.ok_bind, Int.toNat_natCast, List.length_nil]
    congr 1
    apply decide_eq_false
    rintro ⟨a, b⟩
    omega
  · have hw : IsWeights t.thold (vals rs) := by rw [hrs.thold]; exact isWeights_tholdOf hrs.isw
    have hn' := hn _ hw
    rw [positions_vals] at hn'
    rw [satisfy_eq hrs hn' (by simp)]
    cases rs with
    | nil => rw [hrs.thold] at hne; exact absurd rfl hne
    | cons c cs =>
      rw [selectedAll, selected_nil, sumsOk]
      rfl

/-- C31: thresholds from `new_with_sith` and `new_with_limen` are never the empty list of clauses. -/
theorem C31_nonempty (chk : Bool) (json : Str → Res Value) (t : Tholder) :
    (∀ v, newWithSith chk json v = .ok t → t.thold ≠ .arr []) ∧
    (∀ b, newWithLimen chk b = .ok t → t.thold ≠ .arr []) := by
  have key : ∀ (l : List Value), l ≠ [] → processWeighted chk (.arr l) = .ok t → t.thold ≠ .arr [] := by
    intro l hl h
    obtain ⟨rs, h1, h2⟩ := processWeighted_wf h
    obtain ⟨cs, e, h3⟩ := mapList_parse_sub h1
    cases e
    have hf := Res.mapList_ok.mp h3
    rw [h2.thold]
    cases hf with
    | nil => exact absurd rfl hl
    | cons _ _ => simp [tholdOf]
  have hnum : ∀ i, processUnweighted i = .ok t → t.thold ≠ .arr [] := by
    intro i h
    obtain ⟨n, -, -, m, -, rfl⟩ := processUnweighted_iff.mp h
    simp
  have hlist : ∀ v, processList chk v = .ok t → t.thold ≠ .arr [] := by
    intro v h
    cases v with
    | arr a =>
      rw [processList_arr] at h
      split at h
      · cases h
      · rename_i he
        split at h
        · rw [Res.bind_eq_ok] at h
          obtain ⟨u, -, h⟩ := h
          exact key a (by simpa using he) h
        · rw [Res.bind_eq_ok] at h
          obtain ⟨u, -, h⟩ := h
          exact key [.arr a] (by simp) h
    | _ => cases h
  constructor
  · intro v h
    rw [newWithSith_eq] at h
    unfold processSith at h
    split at h
    · rw [Res.bind_eq_ok] at h
      obtain ⟨i, -, h⟩ := h
      exact hnum i h
    · split at h
      · rw [Res.bind_eq_ok] at h
        obtain ⟨s, -, h⟩ := h
        split at h
        · rw [Res.bind_eq_ok] at h
          obtain ⟨x, -, h⟩ := h
          exact hlist x h
        · rw [Res.bind_eq_ok] at h
          obtain ⟨i, -, h⟩ := h
          exact hnum i h
      · exact hlist v h
  · intro b h
    rw [newWithLimen_eq] at h
    obtain ⟨h, hb⟩ := h
    unfold processLimen at h
    rw [if_neg hb, Res.bind_eq_ok] at h
    obtain ⟨s, -, h⟩ := h
    rw [Res.bind_eq_ok] at h
    obtain ⟨c, -, h⟩ := h
    rw [Res.bind_eq_ok] at h
    obtain ⟨hs, -, h⟩ := h
    rw [Res.bind_eq_ok] at h
    obtain ⟨code, -, h⟩ := h
    split at h
    · rw [Res.bind_eq_ok] at h
      obtain ⟨m, -, h⟩ := h
      rw [Res.bind_eq_ok] at h
      obtain ⟨n, -, h⟩ := h
      split at h
      · cases h
      · exact hnum _ h
    · split at h
      · rw [Res.bind_eq_ok] at h
        obtain ⟨m, -, h⟩ := h
        rw [Res.bind_eq_ok] at h
        obtain ⟨x, -, h⟩ := h
        dsimp only at h
        exact key _ (by simpa using splitChar_ne_nil _ _) h
      · cases h

/-- C31: every accepted weighted threshold is satisfied when all positions sign, for all weights and in both
build modes. -/
theorem C31_everybody (chk : Bool) (json : Str → Res Value) (t : Tholder) (h : Accepted chk json t) (qss : List (List ℚ))
    (hw : IsWeights t.thold qss) (hn : positions qss < 2 ^ 32) (indices : List Nat)
    (hi : ∀ i, i ∈ indices ↔ i < positions qss) : t.satisfy chk indices = .ok true := by
  obtain ⟨rs, hrs, rfl⟩ := accepted_weights h hw
  rw [positions_vals] at hn hi
  rw [satisfy_eq hrs hn (fun i h => (hi i).mp h), selectedAll_all rs 0 (fun i _ h2 => (hi i).mpr (by omega))]
  exact (checkSums_iff chk rs).mp hrs.sums

/-- C31 is false: `new_with_thold` accepts the empty list of clauses, which nobody satisfies. -/
theorem C31_false : ∃ t, newWithThold false (.arr []) = .ok t ∧ t.satisfy false [] = .ok true :=
  witness (by decide +kernel)

example (chk : Bool) : ∃ t, Accepted chk (fun _ => .err .json) t ∧ IsWeights t.thold exQ ∧ positions exQ = 4 ∧
    (∀ i, i ∈ [3, 1, 0, 2, 0] ↔ i < positions exQ) ∧ t.thold ≠ .arr [] := by
  obtain ⟨t, h1, -⟩ := ex_accepted chk
  refine ⟨t, ⟨none, none, some exSith, h1⟩, ((C29_input chk _ exSith t).1 exQ exQ_weights (by decide) h1).2.1, rfl, ?_,
    (C31_nonempty chk _ t).1 _ h1⟩
  intro i
  have : positions exQ = 4 := rfl
  rw [this]
  simp only [List.mem_cons, List.not_mem_nil, or_false]
  omega

/-! ## C32: round trips -/

/-- C32, partial: `sith`, `limen` and `thold` of an accepted threshold rebuild it. Missing: the empty list of
clauses (`C32_false`) and, for `limen`, thresholds with 2^27 or more weights. -/
theorem C32_roundtrip_partial (chk : Bool) (json json' : Str → Res Value) (t : Tholder) (h : Accepted chk json t)
    (hne : t.thold ≠ .arr []) (hn : ∀ qss, IsWeights t.thold qss → positions qss < 2 ^ 27) :
    (∃ v, t.sith = .ok v ∧ newWithSith chk json' v = .ok t) ∧
    (∃ b, t.limen chk = .ok b ∧ newWithLimen chk b = .ok t) ∧
    newWithThold chk t.thold = .ok t := by
  rcases accepted_wf h with ⟨n, hw⟩ | ⟨rs, hrs⟩
  · obtain ⟨s, h1, h2⟩ := limen_numeric chk hw
    exact ⟨⟨_, sith_numeric chk json' hw⟩, ⟨_, h1, h2⟩, thold_numeric chk hw⟩
  · have hrne : rs ≠ [] := by
      rintro rfl
      rw [hrs.thold] at hne
      exact hne rfl
    have hw : IsWeights t.thold (vals rs) := by rw [hrs.thold]; exact isWeights_tholdOf hrs.isw
    have hn' := hn _ hw
    rw [positions_vals] at hn'
    obtain ⟨v, v1, v2, -⟩ := sith_weighted json' hrs hrne
    obtain ⟨s, s1, s2⟩ := limen_weighted hrs hrne hn'
    exact ⟨⟨v, v1, v2⟩, ⟨_, s1, s2⟩, thold_weighted hrs⟩

/-- C32: what `sith` returns: the hexadecimal text of a number, the clause itself when there is one, otherwise
the list of clauses; its weights are those of the threshold. -/
theorem C32_sith (chk : Bool) (json : Str → Res Value) (t : Tholder) (h : Accepted chk json t) :
    (∀ n, t.num = .ok (some n) → t.sith = .ok (.str (Nat.toDigits 16 n))) ∧
    (∀ qs, IsWeights t.thold [qs] → ∃ v, t.sith = .ok v ∧ IsClause v qs) ∧
    (∀ qss, IsWeights t.thold qss → qss.length ≠ 1 → ∃ v, t.sith = .ok v ∧ IsWeights v qss) := by
  refine ⟨?_, ?_, ?_⟩
  · intro n hn
    rcases accepted_wf h with ⟨k, hk⟩ | ⟨rs, hrs⟩
    · have h1 := (sith_numeric chk json hk).1
      obtain ⟨hk, m, -, rfl⟩ := hk
      unfold Tholder.num at hn
      rw [if_neg (by simp)] at hn
      simp only [Value.toI64, Res.ok_bind] at hn
      rw [if_pos (by constructor; omega; exact_mod_cast hk)] at hn
      have hkn : k = n := by simpa using hn
      subst hkn
      exact h1
    · unfold Tholder.num at hn
      rw [if_pos hrs.weighted] at hn
      cases hn
  · intro qs hq
    obtain ⟨rs, hrs, e⟩ := accepted_weights h hq
    have hl : rs.length = 1 := by
      have := congrArg List.length e
      simpa [vals] using this
    obtain ⟨c, rfl⟩ := List.length_eq_one_iff.mp hl
    obtain ⟨v, v1, -, v3, -⟩ := sith_weighted json hrs (by simp)
    have e' : c.map Ratio.val = qs := by simpa [vals] using e
    refine ⟨v, v1, ?_⟩
    rw [v3 c rfl, ← e']
    exact ⟨_, rfl, forall₂_self_map _ _ c fun w hw => ⟨_, rfl, weightText_isWeight (hrs.isw c (by simp) w hw)⟩⟩
  · intro qss hq hl
    obtain ⟨rs, hrs, e⟩ := accepted_weights h hq
    have hl' : rs.length ≠ 1 := by
      have := congrArg List.length e
      have h2 : rs.length = qss.length := by simpa [vals] using this
      rw [h2]; exact hl
    by_cases hrne : rs = []
    · subst hrne
      refine ⟨t.thold, ?_, hq⟩
      unfold Tholder.sith
      rw [if_pos hrs.weighted, hrs.thold]
      rfl
    · obtain ⟨v, v1, -, -, v4⟩ := sith_weighted json hrs hrne
      exact ⟨v, v1, by rw [v4 hl']; exact hq⟩

/-- C32 is false: the empty list of clauses is accepted by `new_with_thold` but neither its `sith` nor its
`limen` is accepted. -/
theorem C32_false : ∃ t v b, newWithThold false (.arr []) = .ok t ∧ t.sith = .ok v ∧ t.limen false = .ok b ∧
    (newWithSith false (fun _ => .err .json) v).isErr = true ∧ (newWithLimen false b).isErr = true := by
  obtain ⟨t, h1, -⟩ := C31_false
  have h2 : (newWithThold false (.arr [])).bind (fun t => t.limen false) = .ok (toUtf8 (str% "4AAA")) := by decide +kernel
  have h3 : (newWithLimen false (toUtf8 (str% "4AAA"))).isErr = true := by decide +kernel
  obtain ⟨rs, a1, a2⟩ := processWeighted_wf (newWithThold_eq.mp h1 : processWeighted false (.arr []) = .ok t)
  have hr : rs = [] := (Res.ok.inj a1).symm
  subst hr
  rw [h1] at h2
  refine ⟨t, .arr [], _, h1, ?_, h2, rfl, h3⟩
  unfold Tholder.sith
  rw [if_pos a2.weighted, a2.thold]
  rfl

/-! ## C33: no panic -/

/-- C33 is false: a zero denominator, an index beyond the size, a truncated `limen`, and, with overflow checks, a
sum that does not fit. -/
theorem C33_false :
    newWithThold false (.arr [.arr [.str (str% "0/0")]]) = .panic ∧
    (∃ t, newWithSith false (fun _ => .err .json) exSith = .ok t ∧ t.satisfy false [4] = .panic) ∧
    newWithLimen false (toUtf8 (str% "0")) = .panic ∧
    (∃ t, newWithThold true bigSith = .ok t ∧ t.satisfy true [0, 2] = .panic) := by
  refine ⟨rfl, ?_, rfl, ?_⟩
  · obtain ⟨t, h1, -⟩ := ex_accepted false
    have h : (newWithSith false (fun _ => .err .json) exSith).bind (fun t => t.satisfy false [4]) = .panic := by
      decide +kernel
    rw [h1] at h
    exact ⟨t, h1, h⟩
  · obtain ⟨t, -, h, -, -, -, h2⟩ := C29_false
    exact ⟨t, h, h2⟩

/-- C33, `satisfy`, partial: a numeric threshold never panics; a weighted one panics in a release build exactly
when an index is beyond the last position. Missing: such indices (`C33_false`), and overflow in debug builds. -/
theorem C33_satisfy_partial (json : Str → Res Value) (t : Tholder) (indices : List Nat) :
    (∀ chk, Accepted chk json t → t.weighted = false → ∃ b, t.satisfy chk indices = .ok b) ∧
    (Accepted false json t → ∀ qss, IsWeights t.thold qss → positions qss < 2 ^ 32 →
      ((∀ i ∈ indices, i < positions qss) → ∃ b, t.satisfy false indices = .ok b) ∧
      ((∃ i ∈ indices, positions qss ≤ i) → t.satisfy false indices = .panic)) := by
  constructor
  · intro chk h hw
    rcases accepted_wf h with ⟨n, -, m, -, rfl⟩ | ⟨rs, hrs⟩
    · unfold Tholder.satisfy
      rw [if_pos (by simp)]
      exact ⟨_, rfl⟩
    · rw [hrs.weighted] at hw; cases hw
  · intro h qss hw hn
    obtain ⟨rs, hrs, rfl⟩ := accepted_weights h hw
    rw [positions_vals] at hn ⊢
    constructor
    · intro hi
      rw [satisfy_eq hrs hn hi]
      exact sumsOk_release (selectedAll_isW rs 0 hrs.isw)
    · rintro ⟨i, h1, h2⟩
      exact satisfy_panic hrs ⟨i, h1, by rw [wf_size hrs hn]; exact h2⟩

/-- C33, constructors, partial: in a release build `new_with_thold`, and `new_with_sith` of a list of clauses or
one clause, panic only when some weight has a zero numerator and denominator; in both modes they do not panic on
weights with a small common denominator. Missing: `0/0`, see `C33_false`. -/
theorem C33_construct_partial (json : Str → Res Value) (cs : List Value) :
    (NoZeroOver (.arr cs) → newWithThold false (.arr cs) ≠ .panic) ∧
    (NoZeroOver (.arr cs) → NoZeroOver (.arr [.arr cs]) → newWithSith false json (.arr cs) ≠ .panic) ∧
    (∀ chk qss, IsWeights (.arr cs) qss → Small qss → positions qss < 2 ^ 32 →
      newWithThold chk (.arr cs) ≠ .panic ∧ newWithSith chk json (.arr cs) ≠ .panic) := by
  have hthold : ∀ chk v, processThold chk v ≠ .panic → newWithThold chk v ≠ .panic := by
    intro chk v hp h
    unfold newWithThold Tholder.new at h
    simp only at h
    rw [Res.bind_eq_panic] at h
    rcases h with h | ⟨x, -, h⟩
    · exact hp h
    · simp only [Res.ok_bind] at h
      split at h <;> cases h
  have hsith : ∀ chk v, processSith chk json v ≠ .panic → newWithSith chk json v ≠ .panic := by
    intro chk v hp h
    unfold newWithSith Tholder.new at h
    simp only [Res.ok_bind] at h
    rw [Res.bind_eq_panic] at h
    rcases h with h | ⟨x, -, h⟩
    · exact hp h
    · split at h <;> cases h
  have hct : ∀ l, checkTexts l ≠ .panic := by
    intro l
    induction l with
    | nil => simp [checkTexts]
    | cons c l ih =>
      intro h
      rw [checkTexts, Res.bind_eq_panic] at h
      rcases h with h | ⟨ws, -, h⟩
      · cases c <;> cases h
      · split at h
        · exact ih h
        · cases h
  have hlist : ∀ chk, processWeighted chk (.arr cs) ≠ .panic →
      ((cs.all fun clause => clause.toVec.isOk) = false → processWeighted chk (.arr [.arr cs]) ≠ .panic) →
      processSith chk json (.arr cs) ≠ .panic := by
    intro chk h1 h2 h
    rw [processSith_arr, processList_arr] at h
    split at h
    · cases h
    · split at h
      · rw [Res.bind_eq_panic] at h
        rcases h with h | ⟨u, -, h⟩
        · exact hct _ h
        · exact h1 h
      · rename_i ha
        rw [Res.bind_eq_panic] at h
        rcases h with h | ⟨u, -, h⟩
        · exact hct _ h
        · exact h2 (by simpa using ha) h
  refine ⟨?_, ?_, ?_⟩
  · intro hz
    exact hthold _ _ (processWeighted_release hz)
  · intro hz hz2
    exact hsith _ _ (hlist _ (processWeighted_release hz) (fun _ => processWeighted_release hz2))
  · intro chk qss hw hs hn
    have hp : processWeighted chk (.arr cs) ≠ .panic := processWeighted_small hw hs hn
    refine ⟨hthold _ _ hp, hsith _ _ (hlist _ hp ?_)⟩
    intro ha
    exfalso
    obtain ⟨cs', e, hf⟩ := hw
    cases e
    have : (cs.all fun clause => clause.toVec.isOk) = true := by
      rw [List.all_eq_true]
      clear hs hn hp ha hlist
      induction hf with
      | nil => simp
      | cons h1 _ ih =>
        intro x hx
        rcases List.mem_cons.mp hx with rfl | hx
        · obtain ⟨ws, rfl, -⟩ := h1; rfl
        · exact ih x hx
    rw [this] at ha
    cases ha

/-- C33: the accessors of an accepted threshold return without panic. -/
theorem C33_accessors (chk : Bool) (json : Str → Res Value) (t : Tholder) (h : Accepted chk json t) :
    (∃ v, t.sith = .ok v) ∧ (∃ n, t.num = .ok n) := by
  rcases accepted_wf h with ⟨n, hw⟩ | ⟨rs, hrs⟩
  · refine ⟨⟨_, (sith_numeric chk json hw).1⟩, ?_⟩
    obtain ⟨hk, m, -, rfl⟩ := hw
    unfold Tholder.num
    rw [if_neg (by simp)]
    simp only [Value.toI64, Res.ok_bind]
    rw [if_pos (by constructor; omega; exact_mod_cast hk)]
    exact ⟨_, rfl⟩
  · constructor
    · by_cases hrne : rs = []
      · subst hrne
        unfold Tholder.sith
        rw [if_pos hrs.weighted, hrs.thold]
        exact ⟨_, rfl⟩
      · obtain ⟨v, v1, -⟩ := sith_weighted json hrs hrne
        exact ⟨v, v1⟩
    · unfold Tholder.num
      rw [if_pos hrs.weighted]
      exact ⟨_, rfl⟩

example : NoZeroOver exSith ∧ ZeroOver (str% "+0/00") := by
  constructor
  · intro cs ws s e h1 h2
    cases e
    rintro ⟨x, y, rfl, hx, -⟩
    have h0 : x.head? ≠ some '1' ∧ x ≠ [] := by
      obtain ⟨k, rfl | rfl | rfl⟩ := hx <;> simp [List.replicate_succ]
    obtain ⟨c, u, rfl⟩ := List.exists_cons_of_ne_nil h0.2
    have hc : c ≠ '1' := by simpa using h0.1
    simp only [List.mem_cons, List.not_mem_nil, or_false, Value.arr.injEq] at h1
    rcases h1 with rfl | rfl
    · simp at h2; exact hc h2.1
    · simp at h2
  · exact ⟨str% "+0", str% "00", rfl, ⟨0, .inr (.inl rfl)⟩, ⟨1, .inl rfl⟩⟩

/-! ## C51: which weighted expressions are accepted -/

/-- C51: whatever weighted expression is accepted, each of its clauses adds up to at least one; so a clause
adding up to less is never accepted, in both build modes. -/
theorem C51_sound (chk : Bool) (json : Str → Res Value) (v : Value) (t : Tholder) :
    (∀ qss, IsWeights v qss → (newWithSith chk json v = .ok t ∨ newWithThold chk v = .ok t) → ∀ c ∈ qss, 1 ≤ c.sum) ∧
    (∀ qs, IsClause v qs → newWithSith chk json v = .ok t → 1 ≤ qs.sum) := by
  have key : ∀ {qss : List (List ℚ)}, Accepted chk json t → t.weighted = true → IsWeights t.thold qss → ∀ c ∈ qss, 1 ≤ c.sum := by
    intro qss ha hw hq
    obtain ⟨qss', h1, h2⟩ := C29_weights chk json t ha hw
    rw [isWeights_unique hq h1]
    exact h2
  constructor
  · intro qss hv h c hc
    have hne : qss ≠ [] := by rintro rfl; cases hc
    rcases h with h | h
    · obtain ⟨a, b, -⟩ := (C29_input chk json v t).1 qss hv hne h
      exact key ⟨none, none, some v, h⟩ a b c hc
    · obtain ⟨a, b, -⟩ := (C29_input chk json v t).2.2 qss hv h
      have ha : Accepted chk json t := ⟨some v, none, none, h⟩
      exact key ha a b c hc
  · intro qs hv h
    by_cases hne : qs = []
    · subst hne
      obtain ⟨ws, rfl, hf⟩ := hv
      cases hf
      rw [newWithSith_eq] at h
      cases h
    · obtain ⟨a, b, -⟩ := (C29_input chk json v t).2.1 qs hv hne h
      exact key ⟨none, none, some v, h⟩ a b qs (by simp)

/-- C51, partial: weights with a small common denominator, at most three million of them, are accepted exactly
when each clause adds up to at least one. Missing: weights whose sums overflow. -/
theorem C51_accept_partial (chk : Bool) (json : Str → Res Value) (v : Value) (qss : List (List ℚ)) (hv : IsWeights v qss)
    (hne : qss ≠ []) (hs : Small qss) (hn : positions qss ≤ 3000000) :
    ((∃ t, newWithSith chk json v = .ok t) ↔ ∀ c ∈ qss, 1 ≤ c.sum) ∧
    ((∃ t, newWithThold chk v = .ok t) ↔ ∀ c ∈ qss, 1 ≤ c.sum) := by
  have hacc : (∀ c ∈ qss, 1 ≤ c.sum) → ∃ t, processWeighted chk v = .ok t := by
    intro hsum
    obtain ⟨cs, rs, rfl, h1, rfl, h3⟩ := parse_isWeights chk hv
    rw [positions_vals] at hn
    have hall : selectedAll (List.range (rs.map List.length).sum) 0 rs = rs :=
      selectedAll_all rs 0 (fun i _ h2 => List.mem_range.mpr (by omega))
    have hsm := small_selected (indices := List.range (rs.map List.length).sum) (off := 0) h3 hs
    rw [hall] at hsm
    obtain ⟨b, hb⟩ := sumsOk_bounded h3 hsm
    obtain ⟨h4, h5⟩ := sumsOk_exact h3 hb
    have hbt : b = true := h5.mpr (fun c hc => hsum (c.map Ratio.val) (List.mem_map_of_mem hc))
    subst hbt
    have hok : sumsOk chk rs = .ok true := by
      cases chk with
      | true => exact hb
      | false => exact h4
    have hck := (checkSums_iff chk rs).mpr hok
    have hcl := clause_ne h3 hck
    have hlen := bext_len h3 hcl
    have h64 : (64 : Nat) ^ 4 = 16777216 := by decide
    obtain ⟨m, z, hm, -⟩ := Bexter.newWithBext_ok (bext_b64 h3) (by omega)
    have hv' : valuesToRationals chk (.arr cs) = .ok rs := by
      unfold valuesToRationals
      simp only [Value.toVec, Res.ok_bind, h1, hck]
    unfold processWeighted
    rw [hv', Res.ok_bind, sumSizes_exact chk rs 0 (by omega), Res.ok_bind]
    dsimp only
    have hm' : Bexter.new (some (rationalsToBext rs)) none none none none none = .ok m := hm
    rw [hm', Res.ok_bind]
    exact ⟨_, rfl⟩
  constructor
  · constructor
    · rintro ⟨t, ht⟩
      exact (C51_sound chk json v t).1 qss hv (.inl ht)
    · intro hsum
      obtain ⟨t, ht⟩ := hacc hsum
      refine ⟨t, newWithSith_eq.mpr ?_⟩
      obtain ⟨rs, a1, a2⟩ := processWeighted_wf ht
      obtain ⟨cs, rfl, hf⟩ := hv
      rw [processSith_arr, processList_arr, if_neg, if_pos]
      · have hct : checkTexts cs = .ok () := by
          clear ht a1 a2 hacc hsum hn hs hne
          induction hf with
          | nil => rfl
          | cons h1 _ ih =>
            obtain ⟨ws, rfl, hf2⟩ := h1
            rw [checkTexts, Value.toVec, Res.ok_bind, if_pos]
            · exact ih
            · rw [List.all_eq_true]
              clear ih
              induction hf2 with
              | nil => simp
              | cons h1 _ ih =>
                intro x hx
                rcases List.mem_cons.mp hx with rfl | hx
                · obtain ⟨s, rfl, -⟩ := h1; rfl
                · exact ih x hx
        rw [hct, Res.ok_bind]
        exact ht
      · rw [List.all_eq_true]
        clear ht a1 a2 hacc hsum hn hs hne
        induction hf with
        | nil => simp
        | cons h1 _ ih =>
          intro x hx
          rcases List.mem_cons.mp hx with rfl | hx
          · obtain ⟨ws, rfl, -⟩ := h1; rfl
          · exact ih x hx
      · intro e
        have : cs = [] := by simpa using e
        subst this
        cases hf
        exact hne rfl
  · constructor
    · rintro ⟨t, ht⟩
      exact (C51_sound chk json v t).1 qss hv (.inr ht)
    · intro hsum
      obtain ⟨t, ht⟩ := hacc hsum
      refine ⟨t, newWithThold_eq.mpr ?_⟩
      obtain ⟨cs, rfl, hf⟩ := hv
      exact ht

/-- C51: a fraction above one, or with a negative numerator or denominator, is never accepted. -/
theorem C51_reject (chk : Bool) (json : Str → Res Value) (cs ws : List Value) (s : Str) (hc : .arr ws ∈ cs)
    (hs : .str s ∈ ws)
    (hbad : (∃ a b : Nat, b < a ∧ s = Nat.toDigits 10 a ++ '/' :: Nat.toDigits 10 b) ∨
      (∃ a : Nat, ∃ y, 0 < a ∧ s = '-' :: Nat.toDigits 10 a ++ '/' :: y ∧ '/' ∉ y) ∨
      (∃ b : Nat, ∃ x, 0 < b ∧ s = x ++ '/' :: '-' :: Nat.toDigits 10 b ∧ '/' ∉ x)) (t : Tholder) :
    newWithThold chk (.arr cs) ≠ .ok t ∧ ((∀ c ∈ cs, ∃ l, c = .arr l) → newWithSith chk json (.arr cs) ≠ .ok t) := by
  have hw : ∀ w, parseWeight chk (.str s) ≠ .ok w := by
    intro w h
    unfold parseWeight at h
    simp only [Value.toStr, Res.ok_bind] at h
    have key : ∀ (x y : Str), s = x ++ '/' :: y → '/' ∉ x → '/' ∉ y → splitChar '/' s = [x, y] := by
      intro x y e hx hy
      rw [e, splitChar_sep, splitChar_none _ _ hx, splitChar_none _ _ hy]; rfl
    have fin : ∀ (x y : Str), splitChar '/' s = [x, y] →
        (∀ n d, parseSigned 10 (-2 ^ 31) (2 ^ 31 - 1) x = some n → parseSigned 10 (-2 ^ 31) (2 ^ 31 - 1) y = some d →
          n < 0 ∨ d < 0 ∨ d < n) → False := by
      intro x y e hnd
      rw [e, if_neg (by simp)] at h
      simp only [List.getD_cons_zero, List.getD_cons_succ] at h
      rw [Res.bind_eq_ok] at h
      obtain ⟨n, hn, h⟩ := h
      rw [Res.bind_eq_ok] at h
      obtain ⟨d, hd, h⟩ := h
      rw [Res.ofOption_eq_ok] at hn hd
      split at h
      · cases h
      · split at h
        · cases h
        · rcases hnd n d hn hd with h' | h' | h' <;> omega
    rcases hbad with ⟨a, b, hab, e⟩ | ⟨a, y, ha, e, hy⟩ | ⟨b, x, hb, e, hx⟩
    · rw [← fmtNat_eq (by decide) (by decide), ← fmtNat_eq (by decide) (by decide)] at e
      apply fin _ _ (key _ _ e (slash_not a) (slash_not b))
      intro n d hn hd
      rw [parseSigned_fmt (by decide) (by decide)] at hn hd
      split at hn
      · split at hd
        · have := Option.some.inj hn
          have := Option.some.inj hd
          omega
        · cases hd
      · cases hn
    · rw [← fmtNat_eq (by decide) (by decide)] at e
      apply fin _ _ (key _ _ e (by simp [slash_not a]) hy)
      intro n d hn hd
      rw [parseSigned_neg (by decide) (by decide)] at hn
      split at hn
      · have := Option.some.inj hn; omega
      · cases hn
    · rw [← fmtNat_eq (by decide) (by decide)] at e
      apply fin _ _ (key _ _ e hx (by simp [slash_not b]))
      intro n d hn hd
      rw [parseSigned_neg (by decide) (by decide)] at hd
      split at hd
      · have := Option.some.inj hd; omega
      · cases hd
  have forall₂_mem : ∀ {α β : Type} {R : α → β → Prop} {l : List α} {r : List β}, List.Forall₂ R l r → ∀ a ∈ l, ∃ b, R a b := by
    intro α β R l r h
    induction h with
    | nil => simp
    | cons h1 _ ih =>
      intro a ha
      rcases List.mem_cons.mp ha with rfl | ha
      · exact ⟨_, h1⟩
      · exact ih a ha
  have hp : ∀ t, processWeighted chk (.arr cs) ≠ .ok t := by
    intro t h
    obtain ⟨rs, a1, -⟩ := processWeighted_wf h
    obtain ⟨cs', e, h2⟩ := mapList_parse_sub a1
    cases e
    obtain ⟨r, hr⟩ := forall₂_mem (Res.mapList_ok.mp h2) _ hc
    rw [parseClause, Value.toVec, Res.ok_bind] at hr
    obtain ⟨w, hw'⟩ := forall₂_mem (Res.mapList_ok.mp hr) _ hs
    exact hw w hw'
  constructor
  · intro h
    rw [newWithThold_eq] at h
    exact hp t h
  · intro hall h
    rw [newWithSith_eq, processSith_arr, processList_arr, if_neg, if_pos] at h
    · rw [Res.bind_eq_ok] at h
      obtain ⟨u, -, h⟩ := h
      exact hp t h
    · rw [List.all_eq_true]
      intro c hc'
      obtain ⟨l, rfl⟩ := hall c hc'
      rfl
    · intro e
      have : cs = [] := by simpa using e
      subst this
      cases hc

/-- C51 is false as stated: a text with two slashes is not a fraction, yet is accepted and counts as one. -/
theorem C51_false : ∃ t, newWithThold false (.arr [.arr [.str (str% "1/2/3")]]) = .ok t ∧
    t.satisfy false [0] = .ok true := witness (by decide +kernel)

example : (∀ c ∈ exQ, 1 ≤ c.sum) ∧ ¬ (∀ c ∈ ([[1/2, 1/3]] : List (List ℚ)), 1 ≤ c.sum) := by
  constructor
  · intro c hc
    rcases List.mem_cons.mp hc with rfl | hc
    · norm_num
    · rcases List.mem_cons.mp hc with rfl | hc
      · norm_num
      · cases hc
  · intro h
    have := h [1/2, 1/3] (by simp)
    norm_num at this

end Keride.Props
