/-
Where threshold construction can panic.
-/
import Verif.Lemmas.TholderText

namespace Keride

theorem radixVal_ge {b : Nat} (hb : 1 ≤ b) : ∀ {s : Str} {a v : Nat}, radixVal b a s = some v → a ≤ v
  | [], a, v, h => by cases h; exact le_refl _
  | c :: s, a, v, h => by
    rw [radixVal] at h
    split at h
    · have := radixVal_ge hb h
      have : a * 1 ≤ a * b := Nat.mul_le_mul_left a hb
      omega
    · cases h

theorem toDigit_zero {b : Nat} (hb : b ≤ 16) {c : Char} (h : toDigit b c = some 0) : c = '0' := by
  unfold toDigit at h
  dsimp only at h
  have hc : c = Char.ofNat c.toNat := (Char.ofNat_toNat c).symm
  split_ifs at h with h1 h2 h3 h4 h5 h6 h7
  all_goals first
    | (have := Option.some.inj h; exfalso; omega)
    | (have h' := Option.some.inj h
       have : c.toNat = 48 := by omega
       rw [hc, this])

theorem radixVal_all_zero {b : Nat} (hb : 1 ≤ b) (hb' : b ≤ 16) : ∀ {s : Str}, radixVal b 0 s = some 0 → ∀ c ∈ s, c = '0'
  | [], _ => by simp
  | c :: s, h => by
    rw [radixVal] at h
    split at h
    · rename_i d hd
      have := radixVal_ge hb h
      have hd0 : d = 0 := by omega
      subst hd0
      rw [Nat.zero_mul] at h
      intro x hx
      rcases List.mem_cons.mp hx with rfl | hx
      · exact toDigit_zero hb' hd
      · exact radixVal_all_zero hb hb' h x hx
    · cases h

theorem parseSigned_zero {b : Nat} (hb : 1 ≤ b) (hb' : b ≤ 16) {lo hi : Int} {s : Str}
    (h : parseSigned b lo hi s = some 0) : Spec.ZeroText s := by
  unfold parseSigned at h
  dsimp only at h
  have key : ∀ ds : Str, ds ≠ [] → radixVal b 0 ds = some 0 → ∃ k, ds = List.replicate (k + 1) '0' := by
    intro ds hne hr
    refine ⟨ds.length - 1, ?_⟩
    have hl : 0 < ds.length := List.length_pos_iff.mpr hne
    rw [Nat.sub_add_cancel hl]
    exact List.eq_replicate_iff.mpr ⟨rfl, radixVal_all_zero hb hb' hr⟩
  generalize hds : (if s.head? = some '+' ∨ s.head? = some '-' then s.tail else s) = ds at h
  by_cases hne : ds = []
  · rw [if_pos hne] at h; cases h
  · rw [if_neg hne] at h
    obtain ⟨n, hn, h⟩ := Option.bind_eq_some_iff.mp h
    have hn0 : n = 0 := by
      split at h
      · split at h
        · have := Option.some.inj h; omega
        · cases h
      · split at h
        · have := Option.some.inj h; omega
        · cases h
    subst hn0
    obtain ⟨k, hk⟩ := key ds hne hn
    refine ⟨k, ?_⟩
    cases s with
    | nil => rw [if_neg (by simp)] at hds; rw [← hds] at hne; exact absurd rfl hne
    | cons c t =>
      split at hds
      · rename_i hc
        rcases hc with hc | hc
        · cases hc; right; left; rw [← hk, ← hds]; rfl
        · cases hc; right; right; rw [← hk, ← hds]; rfl
      · left; rw [hds, hk]

namespace Tholder

open Ratio Spec

theorem split_two {d : Char} {s : Str} (h : (splitChar d s).length = 2) :
    s = (splitChar d s).getD 0 [] ++ d :: (splitChar d s).getD 1 [] := by
  have hj := joinWith_split d s
  obtain ⟨x, xs, hx⟩ := List.exists_cons_of_ne_nil (splitChar_ne_nil d s)
  rw [hx] at h hj ⊢
  cases xs with
  | nil => simp at h
  | cons y ys =>
    cases ys with
    | nil => rw [← hj]; simp [joinWith]
    | cons z zs => simp at h

/-- Only a zero denominator makes parsing a weight panic. -/
theorem parseWeight_panic {chk : Bool} {v : Value} (h : parseWeight chk v = .panic) :
    ∃ s, v = .str s ∧ ZeroOver s := by
  unfold parseWeight at h
  cases v with
  | str s =>
    refine ⟨s, rfl, ?_⟩
    simp only [Value.toStr, Res.ok_bind] at h
    split at h
    · have h0 : reduce chk 0 1 = .ok ⟨0, 1⟩ := by cases chk <;> rfl
      have h1 : reduce chk 1 1 = .ok ⟨1, 1⟩ := by cases chk <;> rfl
      rw [h0, h1] at h
      split at h
      · cases h
      · split at h <;> cases h
    · rename_i hlen
      rw [Res.bind_eq_panic] at h
      rcases h with h | ⟨n, hn, h⟩
      · exact absurd h Res.ofOption_ne_panic
      rw [Res.bind_eq_panic] at h
      rcases h with h | ⟨d, hd, h⟩
      · exact absurd h Res.ofOption_ne_panic
      rw [Res.ofOption_eq_ok] at hn hd
      split at h
      · cases h
      · split at h
        · cases h
        · obtain ⟨a, rfl⟩ := Int.eq_ofNat_of_zero_le (show 0 ≤ n by omega)
          obtain ⟨b, rfl⟩ := Int.eq_ofNat_of_zero_le (show 0 ≤ d by omega)
          by_cases hb : b = 0
          · subst hb
            have ha : a = 0 := by omega
            subst ha
            exact ⟨_, _, split_two (by omega), parseSigned_zero (by decide) (by decide) hn,
              parseSigned_zero (by decide) (by decide) hd⟩
          · rw [reduce_nat _ _ _ (by omega)] at h; cases h
  | _ => cases h

theorem parse_ne_panic {chk : Bool} {v : Value} (hz : NoZeroOver v) :
    ∀ cs, v = .arr cs → Res.mapList (parseClause chk) cs ≠ .panic := by
  rintro cs rfl h
  obtain ⟨c, hc, h⟩ := Res.mapList_panic h
  rw [parseClause, Res.bind_eq_panic] at h
  rcases h with h | ⟨ws, h1, h⟩
  · cases c <;> cases h
  · cases c <;> simp only [Value.toVec] at h1 <;> cases h1
    obtain ⟨w, hw, h⟩ := Res.mapList_panic h
    obtain ⟨s, rfl, hs⟩ := parseWeight_panic h
    exact hz cs _ s rfl hc hw hs

theorem addU32_release (a b : Nat) : addU32 false a b ≠ .panic := by
  unfold addU32; split <;> simp

theorem sumSizes_release : ∀ (cs : List (List Ratio)) (acc : Nat), sumSizes false acc cs ≠ .panic
  | [], _ => by simp [sumSizes]
  | c :: cs, acc => by
    rw [sumSizes]
    intro h
    rw [Res.bind_eq_panic] at h
    rcases h with h | ⟨x, -, h⟩
    · exact addU32_release _ _ h
    · exact sumSizes_release cs x h

theorem new4A_ne_panic (raw : Bytes) : Matter.newWithCodeAndRaw (str% "4A") raw ≠ .panic := by
  have hs : Str.slice (str% "4A") 1 2 = .ok ['A'] := by decide
  unfold Matter.newWithCodeAndRaw
  simp only
  rw [if_pos (by decide), if_pos (by decide), hs]
  intro h
  rw [Res.bind_eq_panic] at h
  rcases h with h | ⟨c, -, h⟩
  · split at h
    · cases h
    · split at h <;> cases h
  · split at h <;> cases h

theorem bext_ne_panic {rs : List (List Ratio)} (hw : ∀ c ∈ rs, ∀ w ∈ c, IsW w) :
    Bexter.newWithBext (rationalsToBext rs) ≠ .panic := by
  have hB := bext_b64 hw
  rw [Bexter.newWithBext_eq, reB64_iff.mpr hB, if_neg (by simp), Bexter.rawify_eq hB, Res.ok_bind]
  intro h
  rw [Res.bind_eq_panic] at h
  rcases h with h | ⟨m, -, h⟩
  · exact new4A_ne_panic _ h
  · rw [Res.bind_eq_panic] at h
    rcases h with h | ⟨u, -, h⟩
    · unfold Bexter.validateCode at h
      split at h <;> cases h
    · cases h

theorem sumsOk_checkSums_panic {chk : Bool} : ∀ {rs : List (List Ratio)}, checkSums chk rs = .panic → sumsOk chk rs = .panic
  | [], h => by cases h
  | c :: cs, h => by
    rw [checkSums, reduce_zero, Res.ok_bind] at h
    rw [sumsOk]
    cases hs : Ratio.sum chk ⟨0, 1⟩ c with
    | err e => rw [hs] at h; cases h
    | panic => rfl
    | ok r =>
      rw [hs, Res.ok_bind] at h
      rw [Res.ok_bind]
      split at h
      · cases h
      · rename_i hl
        rw [if_neg hl]
        exact sumsOk_checkSums_panic h

/-- Without overflow checks only a zero denominator makes a weighted threshold panic. -/
theorem processWeighted_ne_panic {chk : Bool} {v : Value} (hz : NoZeroOver v)
    (hs : ∀ cs rs, v = .arr cs → Res.mapList (parseClause chk) cs = .ok rs → (∀ c ∈ rs, ∀ w ∈ c, IsW w) →
      sumsOk chk rs ≠ .panic ∧ sumSizes chk 0 rs ≠ .panic) :
    processWeighted chk v ≠ .panic := by
  intro h
  unfold processWeighted at h
  rw [Res.bind_eq_panic] at h
  rcases h with h | ⟨rs, hr, h⟩
  · unfold valuesToRationals at h
    rw [Res.bind_eq_panic] at h
    rcases h with h | ⟨cs, h1, h⟩
    · cases v <;> cases h
    · cases v <;> simp only [Value.toVec] at h1 <;> cases h1
      rw [Res.bind_eq_panic] at h
      rcases h with h | ⟨rs, h2, h⟩
      · exact parse_ne_panic hz _ rfl h
      · rw [Res.bind_eq_panic] at h
        rcases h with h | ⟨u, -, h⟩
        · have hw : ∀ c ∈ rs, ∀ w ∈ c, IsW w := by
            refine mapList_forall (P := fun c => ∀ w ∈ c, IsW w) (fun a b hab => ?_) h2
            rw [parseClause, Res.bind_eq_ok] at hab
            obtain ⟨ws, -, h3⟩ := hab
            exact mapList_forall (fun _ _ h => parseWeight_isW h) h3
          exact (hs _ rs rfl h2 hw).1 (sumsOk_checkSums_panic h)
        · cases h
  · obtain ⟨hw, -⟩ := values_ok hr
    obtain ⟨cs, rfl, h2⟩ := mapList_parse_sub hr
    rw [Res.bind_eq_panic] at h
    rcases h with h | ⟨x, -, h⟩
    · exact (hs cs rs rfl h2 hw).2 h
    · dsimp only at h
      rw [Res.bind_eq_panic] at h
      rcases h with h | ⟨m, -, h⟩
      · exact bext_ne_panic hw h
      · cases h

theorem processWeighted_release {v : Value} (hz : NoZeroOver v) : processWeighted false v ≠ .panic := by
  apply processWeighted_ne_panic hz
  intro cs rs _ _ hw
  obtain ⟨b, hb⟩ := sumsOk_release hw
  exact ⟨by rw [hb]; simp, sumSizes_release rs 0⟩

theorem processWeighted_small {chk : Bool} {v : Value} {qss : List (List ℚ)} (h : IsWeights v qss) (hs : Small qss)
    (hn : positions qss < 2 ^ 32) : processWeighted chk v ≠ .panic := by
  obtain ⟨cs, rs, rfl, h1, h2, h3⟩ := parse_isWeights chk h
  have hz : NoZeroOver (.arr cs) := by
    rintro cs' ws s e hws hs' ⟨x, y, rfl, hx, hy⟩
    cases e
    obtain ⟨cs'', e, hf⟩ := h
    cases e
    have hcl : ∀ {cs : List Value} {qss : List (List ℚ)}, List.Forall₂ IsClause cs qss → .arr ws ∈ cs → ∃ qs, IsClause (.arr ws) qs := by
      intro cs qss hf
      induction hf with
      | nil => simp
      | cons h1 _ ih =>
        intro hm
        rcases List.mem_cons.mp hm with e | hm
        · rw [e]; exact ⟨_, h1⟩
        · exact ih hm
    obtain ⟨qs, ws', e, hf2⟩ := hcl hf hws
    cases e
    have hwt : ∀ {ws : List Value} {qs : List ℚ}, List.Forall₂ (fun w q => ∃ s, w = .str s ∧ IsWeight s q) ws qs →
        .str (x ++ '/' :: y) ∈ ws → ∃ q, IsWeight (x ++ '/' :: y) q := by
      intro ws qs hf
      induction hf with
      | nil => simp
      | cons h1 _ ih =>
        intro hm
        rcases List.mem_cons.mp hm with e | hm
        · obtain ⟨s, rfl, hs⟩ := h1
          cases e
          exact ⟨_, hs⟩
        · exact ih hm
    obtain ⟨q, hq⟩ := hwt hf2 hs'
    have hslash : '/' ∈ x ++ '/' :: y := by simp
    rcases hq with ⟨e, -⟩ | ⟨e, -⟩ | ⟨a, b, e, hb, -⟩
    · rw [e] at hslash; revert hslash; decide
    · rw [e] at hslash; revert hslash; decide
    · have ny : '/' ∉ y := by
        obtain ⟨k, rfl | rfl | rfl⟩ := hy <;> simp
      have nx : '/' ∉ x := by
        obtain ⟨k, rfl | rfl | rfl⟩ := hx <;> simp
      rw [← fmtNat_eq (by decide) (by decide), ← fmtNat_eq (by decide) (by decide)] at e
      have e2 : splitChar '/' (x ++ '/' :: y) = splitChar '/' (fmtNat 10 a ++ '/' :: fmtNat 10 b) := by rw [e]
      rw [splitChar_sep, splitChar_sep, splitChar_none _ _ nx, splitChar_none _ _ ny, splitChar_none _ _ (slash_not a),
        splitChar_none _ _ (slash_not b)] at e2
      simp only [List.cons_append, List.nil_append, List.cons.injEq, and_true] at e2
      obtain ⟨-, e3⟩ := e2
      have hp := parseSigned_fmt (b := 10) (n := b) (lo := 0) (hi := b) (by decide) (by decide)
      rw [if_pos (by omega), ← e3] at hp
      have hz : parseSigned 10 0 b y = none ∨ parseSigned 10 0 b y = some 0 := by
        have hr : ∀ k, radixVal 10 0 (List.replicate k '0') = some 0 := by
          intro k
          have := radixVal_zeros (b := 10) (by decide) (by decide) k []
          rw [List.append_nil] at this
          exact this
        right
        obtain ⟨k, rfl | rfl | rfl⟩ := hy <;> unfold parseSigned <;> simp [List.replicate_succ] <;>
          · have := hr (k + 1)
            rw [List.replicate_succ] at this
            rw [this]; simp
      rcases hz with hz | hz
      · rw [hz] at hp; cases hp
      · rw [hz] at hp
        have := Option.some.inj hp
        omega
  apply processWeighted_ne_panic hz
  intro cs' rs' e h4 hw
  cases e
  rw [h1] at h4
  cases h4
  subst h2
  constructor
  · have hall : selectedAll (List.range (rs.map List.length).sum) 0 rs = rs :=
      selectedAll_all rs 0 (fun i _ h2 => List.mem_range.mpr (by omega))
    have := small_selected (indices := List.range (rs.map List.length).sum) (off := 0) h3 hs
    rw [hall] at this
    obtain ⟨b, hb⟩ := sumsOk_bounded h3 this
    cases chk with
    | true => rw [hb]; simp
    | false => rw [(sumsOk_exact h3 hb).1]; simp
  · rw [positions_vals] at hn
    rw [sumSizes_exact chk rs 0 (by omega)]
    simp

end Tholder

end Keride
