/-
Weight texts, clauses, and what an accepted threshold looks like.
-/
import Verif.Lemmas.RatioWrap
import Verif.Lemmas.Text
import Verif.Lemmas.Number
import Verif.Lemmas.Dater
import Verif.Spec.Thold

namespace Keride.Tholder

open Ratio Spec

theorem fmtInt_nat (n : Nat) : fmtInt (n : Int) = fmtNat 10 n := by
  unfold fmtInt
  rw [if_neg (by omega), Int.natAbs_natCast]

theorem digits_not {c : Char} (hc : ∀ d < 10, digitChr d ≠ c) (n : Nat) : c ∉ fmtNat 10 n := by
  intro h
  obtain ⟨d, hd, e⟩ := (fmtNat_spec (b := 10) (by decide) (by decide) n).2.1 c h
  exact hc d hd e.symm

theorem slash_not (n : Nat) : '/' ∉ fmtNat 10 n := digits_not (by decide) n

theorem fmt_zero : fmtNat 10 0 = str% "0" := by decide
theorem fmt_one : fmtNat 10 1 = str% "1" := by decide

theorem parse_i32 {n : Nat} (h : n < 2 ^ 31) :
    parseSigned 10 (-2 ^ 31) (2 ^ 31 - 1) (fmtNat 10 n) = some (n : Int) := by
  rw [parseSigned_fmt (by decide) (by decide), if_pos (by constructor <;> omega)]

theorem parseWeight_zero (chk : Bool) : parseWeight chk (.str (str% "0")) = .ok ⟨0, 1⟩ := by
  cases chk <;> rfl
theorem parseWeight_one (chk : Bool) : parseWeight chk (.str (str% "1")) = .ok ⟨1, 1⟩ := by
  cases chk <;> rfl

theorem parseWeight_frac (chk : Bool) {a b : Nat} (hb : 0 < b) (hab : a ≤ b) (hb2 : b < 2 ^ 31) :
    parseWeight chk (.str (fmtNat 10 a ++ '/' :: fmtNat 10 b)) =
      .ok ⟨(a / Nat.gcd a b : Nat), (b / Nat.gcd a b : Nat)⟩ := by
  have hsp : splitChar '/' (fmtNat 10 a ++ '/' :: fmtNat 10 b) = [fmtNat 10 a, fmtNat 10 b] := by
    rw [splitChar_sep, splitChar_none _ _ (slash_not a), splitChar_none _ _ (slash_not b)]; rfl
  unfold parseWeight
  simp only [Value.toStr, Res.ok_bind, hsp]
  rw [if_neg (by simp)]
  simp only [List.getD_cons_zero, List.getD_cons_succ, parse_i32 (show a < 2 ^ 31 by omega), parse_i32 hb2,
    Res.ofOption_some, Res.ok_bind]
  rw [if_neg (by omega), if_neg (by omega), reduce_nat _ _ _ hb]

theorem isW_reduced {a b : Nat} (hb : 0 < b) (hab : a ≤ b) (hb2 : b < 2 ^ 31) :
    IsW ⟨(a / Nat.gcd a b : Nat), (b / Nat.gcd a b : Nat)⟩ := by
  have hg : 0 < Nat.gcd a b := Nat.gcd_pos_of_pos_right _ hb
  refine ⟨_, _, rfl, Nat.div_pos (Nat.gcd_le_right _ hb) hg, Nat.div_le_div_right hab,
    Nat.coprime_div_gcd_div_gcd hg, ?_⟩
  exact lt_of_le_of_lt (Nat.div_le_self _ _) hb2

theorem isW_zero : IsW ⟨0, 1⟩ := ⟨0, 1, rfl, by decide, by decide, by decide, by decide⟩
theorem isW_one : IsW ⟨1, 1⟩ := ⟨1, 1, rfl, by decide, by decide, by decide, by decide⟩

/-- Every accepted weight is a reduced fraction between zero and one. -/
theorem parseWeight_isW {chk : Bool} {v : Value} {w : Ratio} (h : parseWeight chk v = .ok w) : IsW w := by
  unfold parseWeight at h
  rw [Res.bind_eq_ok] at h
  obtain ⟨s, -, h⟩ := h
  dsimp only at h
  split at h
  · split at h
    · have : reduce chk 0 1 = .ok ⟨0, 1⟩ := by cases chk <;> rfl
      rw [this] at h; cases h; exact isW_zero
    · split at h
      · have : reduce chk 1 1 = .ok ⟨1, 1⟩ := by cases chk <;> rfl
        rw [this] at h; cases h; exact isW_one
      · cases h
  · rw [Res.bind_eq_ok] at h
    obtain ⟨n, hn, h⟩ := h
    rw [Res.bind_eq_ok] at h
    obtain ⟨d, hd, h⟩ := h
    rw [Res.ofOption_eq_ok] at hn hd
    have hd2 := (parseSigned_range hd).2
    split at h
    · cases h
    · rename_i hneg
      split at h
      · cases h
      · rename_i hle
        obtain ⟨a, rfl⟩ := Int.eq_ofNat_of_zero_le (show 0 ≤ n by omega)
        obtain ⟨b, rfl⟩ := Int.eq_ofNat_of_zero_le (show 0 ≤ d by omega)
        by_cases hb : b = 0
        · subst hb
          have : reduce chk (a : Int) ((0 : Nat) : Int) = .panic := by unfold reduce; rw [if_pos (by rfl)]
          rw [this] at h; cases h
        · rw [reduce_nat _ _ _ (by omega)] at h
          cases h
          exact isW_reduced (by omega) (by omega) (by omega)

theorem reduce_same {n d : Int} (hn : 0 ≤ n) (hd : 0 ≤ d) (chk chk' : Bool) : reduce chk n d = reduce chk' n d := by
  obtain ⟨a, rfl⟩ := Int.eq_ofNat_of_zero_le hn
  obtain ⟨b, rfl⟩ := Int.eq_ofNat_of_zero_le hd
  by_cases hb : b = 0
  · subst hb
    unfold reduce; rw [if_pos (by rfl), if_pos (by rfl)]
  · rw [reduce_nat _ _ _ (by omega), reduce_nat _ _ _ (by omega)]

theorem parseWeight_chk (chk chk' : Bool) (v : Value) : parseWeight chk v = parseWeight chk' v := by
  unfold parseWeight
  cases v.toStr with
  | err e => rfl
  | panic => rfl
  | ok s =>
    simp only [Res.ok_bind]
    split
    · rw [reduce_same (by decide) (by decide) chk chk', reduce_same (by decide) (by decide) chk chk']
    · cases Res.ofOption Err.parseInt (parseSigned 10 (-2 ^ 31) (2 ^ 31 - 1) ((splitChar '/' s).getD 0 [])) with
      | err e => rfl
      | panic => rfl
      | ok n =>
        cases Res.ofOption Err.parseInt (parseSigned 10 (-2 ^ 31) (2 ^ 31 - 1) ((splitChar '/' s).getD 1 [])) with
        | err e => rfl
        | panic => rfl
        | ok d =>
          simp only [Res.ok_bind]
          split
          · rfl
          · split
            · rfl
            · exact reduce_same (by omega) (by omega) chk chk'

/-- The normalised text parses to the same weight. -/
theorem parseWeight_text (chk : Bool) {w : Ratio} (h : IsW w) : parseWeight chk (.str (weightText w)) = .ok w := by
  obtain ⟨a, b, rfl, hb, hab, hc, hb2⟩ := h
  unfold weightText
  dsimp only
  by_cases h1 : b = 1
  · subst h1
    rw [if_pos (by rfl), fmtInt_nat]
    rcases (by omega : a = 0 ∨ a = 1) with rfl | rfl
    · rw [fmt_zero]; exact parseWeight_zero chk
    · rw [fmt_one]; exact parseWeight_one chk
  · rw [if_neg (by omega), fmtInt_nat, fmtInt_nat, parseWeight_frac chk hb hab hb2,
      show Nat.gcd a b = 1 from hc, Nat.div_one, Nat.div_one]

theorem weightText_isWeight {w : Ratio} (h : IsW w) : IsWeight (weightText w) (val w) := by
  obtain ⟨a, b, rfl, hb, hab, hc, hb2⟩ := h
  unfold weightText
  dsimp only
  by_cases h1 : b = 1
  · subst h1
    rw [if_pos (by rfl), fmtInt_nat]
    rcases (by omega : a = 0 ∨ a = 1) with rfl | rfl
    · exact .inl ⟨fmt_zero, val_zero⟩
    · exact .inr (.inl ⟨fmt_one, val_one⟩)
  · rw [if_neg (by omega), fmtInt_nat, fmtInt_nat, fmtNat_eq (by decide) (by decide),
      fmtNat_eq (by decide) (by decide)]
    exact .inr (.inr ⟨a, b, rfl, hb, hab, hb2, by simp [val]⟩)

/-- A weight text of the specification parses to its number. -/
theorem parseWeight_spec (chk : Bool) {s : Str} {q : ℚ} (h : IsWeight s q) :
    ∃ w, parseWeight chk (.str s) = .ok w ∧ IsW w ∧ val w = q := by
  rcases h with ⟨rfl, rfl⟩ | ⟨rfl, rfl⟩ | ⟨a, b, rfl, hb, hab, hb2, rfl⟩
  · exact ⟨_, parseWeight_zero chk, isW_zero, val_zero⟩
  · exact ⟨_, parseWeight_one chk, isW_one, val_one⟩
  · rw [← fmtNat_eq (by decide) (by decide), ← fmtNat_eq (by decide) (by decide)]
    exact ⟨_, parseWeight_frac chk hb hab hb2, isW_reduced hb hab hb2, val_reduced a b hb⟩

theorem isW_den {w : Ratio} (h : IsW w) : (((val w).den : Nat) : Int) = w.d := by
  obtain ⟨a, b, rfl, hb, hab, hc, hb2⟩ := h
  have := Rat.den_div_eq_of_coprime (a := (a : Int)) (b := (b : Int)) (by exact_mod_cast hb) (by simpa using hc)
  simp only [val]
  exact this

/-- The value a list of clauses is stored as. -/
def tholdOf (rs : List (List Ratio)) : Value :=
  .arr (rs.map fun c => .arr (c.map fun w => .str (weightText w)))

theorem mapList_map_ok {α : Type u} {β : Type v} {f : β → Res α} {g : α → β} {l : List α}
    (h : ∀ a ∈ l, f (g a) = .ok a) : Res.mapList f (l.map g) = .ok l := by
  induction l with
  | nil => rfl
  | cons a l ih =>
    rw [List.map_cons, Res.mapList, h a List.mem_cons_self, ih (fun x hx => h x (List.mem_cons_of_mem _ hx))]

theorem parse_tholdOf (chk : Bool) {rs : List (List Ratio)} (h : ∀ c ∈ rs, ∀ w ∈ c, IsW w) :
    (tholdOf rs).toVec >>= Res.mapList (parseClause chk) = .ok rs := by
  rw [tholdOf, Value.toVec, Res.ok_bind]
  apply mapList_map_ok
  intro c hc
  rw [parseClause, Value.toVec, Res.ok_bind]
  apply mapList_map_ok
  intro w hw
  exact parseWeight_text chk (h c hc w hw)

theorem values_tholdOf (chk : Bool) {rs : List (List Ratio)} (h : ∀ c ∈ rs, ∀ w ∈ c, IsW w)
    (hs : checkSums chk rs = .ok ()) : valuesToRationals chk (tholdOf rs) = .ok rs := by
  unfold valuesToRationals
  have := parse_tholdOf chk h
  rw [Res.bind_eq_ok] at this
  obtain ⟨v, h1, h2⟩ := this
  rw [h1, Res.ok_bind, h2, Res.ok_bind, hs, Res.ok_bind]

theorem mapList_forall {α : Type u} {β : Type v} {f : α → Res β} {P : β → Prop} (hf : ∀ a b, f a = .ok b → P b)
    {l : List α} {r : List β} (h : Res.mapList f l = .ok r) : ∀ b ∈ r, P b := by
  have := Res.mapList_ok.mp h
  clear h
  induction this with
  | nil => simp
  | cons h1 _ ih =>
    intro b hb
    rcases List.mem_cons.mp hb with rfl | hb
    · exact hf _ _ h1
    · exact ih b hb

theorem values_ok {chk : Bool} {v : Value} {rs : List (List Ratio)} (h : valuesToRationals chk v = .ok rs) :
    (∀ c ∈ rs, ∀ w ∈ c, IsW w) ∧ checkSums chk rs = .ok () := by
  unfold valuesToRationals at h
  rw [Res.bind_eq_ok] at h
  obtain ⟨cs, -, h⟩ := h
  rw [Res.bind_eq_ok] at h
  obtain ⟨rs', h1, h⟩ := h
  rw [Res.bind_eq_ok] at h
  obtain ⟨u, h2, h⟩ := h
  cases h
  refine ⟨mapList_forall (P := fun c => ∀ w ∈ c, IsW w) (fun a b hab => ?_) h1, h2⟩
  rw [parseClause, Res.bind_eq_ok] at hab
  obtain ⟨ws, -, h3⟩ := hab
  exact mapList_forall (fun _ _ h => parseWeight_isW h) h3

/-- What an accepted weighted threshold is. -/
structure WfW (chk : Bool) (t : Tholder) (rs : List (List Ratio)) : Prop where
  isw : ∀ c ∈ rs, ∀ w ∈ c, IsW w
  sums : checkSums chk rs = .ok ()
  size : sumSizes chk 0 rs = .ok t.size
  thold : t.thold = tholdOf rs
  weighted : t.weighted = true
  number : t.number = none
  bexter : ∃ m, t.bexter = some m ∧ Bexter.newWithBext (rationalsToBext rs) = .ok m

theorem WfW.values {chk : Bool} {t : Tholder} {rs : List (List Ratio)} (h : WfW chk t rs) :
    valuesToRationals chk t.thold = .ok rs := by
  rw [h.thold]; exact values_tholdOf chk h.isw h.sums

theorem processWeighted_wf {chk : Bool} {v : Value} {t : Tholder} (h : processWeighted chk v = .ok t) :
    ∃ rs, valuesToRationals chk v = .ok rs ∧ WfW chk t rs := by
  unfold processWeighted at h
  rw [Res.bind_eq_ok] at h
  obtain ⟨rs, h1, h⟩ := h
  rw [Res.bind_eq_ok] at h
  obtain ⟨size, h2, h⟩ := h
  dsimp only at h
  rw [Res.bind_eq_ok] at h
  obtain ⟨m, h3, h⟩ := h
  cases h
  obtain ⟨a, b⟩ := values_ok h1
  exact ⟨rs, h1, a, b, h2, rfl, rfl, rfl, m, rfl, h3⟩

theorem wf_eq {chk : Bool} {t t' : Tholder} {rs : List (List Ratio)} (h : WfW chk t rs) (h' : WfW chk t' rs) :
    t = t' := by
  obtain ⟨m, hm, e⟩ := h.bexter
  obtain ⟨m', hm', e'⟩ := h'.bexter
  have e1 : t.size = t'.size := by
    have := h.size
    rw [h'.size] at this
    exact (Res.ok.inj this).symm
  have e2 : m = m' := by
    rw [e] at e'; exact Res.ok.inj e'
  cases t; cases t'
  have a1 := h.thold; have a2 := h'.thold
  have a3 := h.weighted; have a4 := h'.weighted
  have a5 := h.number; have a6 := h'.number
  simp only at *
  subst e2
  simp [a1, a2, a3, a4, a5, a6, e1, hm, hm']

/-- `process_weighted` on a value that parses to the clauses of an accepted threshold. -/
theorem processWeighted_of {chk : Bool} {v : Value} {t : Tholder} {rs : List (List Ratio)} (h : WfW chk t rs)
    (hv : valuesToRationals chk v = .ok rs) : processWeighted chk v = .ok t := by
  obtain ⟨m, hm, e⟩ := h.bexter
  unfold processWeighted
  rw [hv, Res.ok_bind, h.size, Res.ok_bind]
  dsimp only
  have e' : Bexter.new (some (rationalsToBext rs)) none none none none none = .ok m := e
  rw [e', Res.ok_bind]
  have a1 := h.thold; have a2 := h.weighted; have a3 := h.number
  cases t
  simp only at *
  rw [a1, a2, a3, hm]
  rfl

/-- What an accepted numeric threshold is. -/
def WfN (t : Tholder) (n : Nat) : Prop :=
  n ≤ u32Max ∧ ∃ m, Number.newWithNum n = .ok m ∧ t = ⟨.int n, false, n, some m, none⟩

theorem processUnweighted_iff {i : Int} {t : Tholder} :
    processUnweighted i = .ok t ↔ ∃ n : Nat, i = n ∧ WfN t n := by
  unfold processUnweighted
  constructor
  · intro h
    split at h
    · cases h
    · split at h
      · cases h
      · rename_i h0 h1
        obtain ⟨n, rfl⟩ := Int.eq_ofNat_of_zero_le (show 0 ≤ i by omega)
        rw [Res.bind_eq_ok] at h
        obtain ⟨m, hm, h⟩ := h
        cases h
        refine ⟨n, rfl, ?_, m, ?_, ?_⟩
        · exact_mod_cast not_lt.mp h1
        · exact hm
        · rfl
  · rintro ⟨n, rfl, hn, m, hm, rfl⟩
    rw [if_neg (by omega), if_neg (by rw [not_lt]; exact_mod_cast hn)]
    have : Number.new (some (n : Int).toNat) none none none none none none = .ok m := hm
    rw [this]
    rfl

theorem processUnweighted_nat {n : Nat} (hn : n ≤ u32Max) :
    ∃ t, processUnweighted n = .ok t ∧ WfN t n := by
  have h128 : n < 2 ^ 128 := by
    have : u32Max < 2 ^ 128 := by decide
    omega
  obtain ⟨c, k, -, -, -, h⟩ := Number.ofNum_eq h128
  have hw : WfN ⟨.int n, false, n, some ⟨c, 0, beBytes k n⟩, none⟩ n := ⟨hn, _, h, rfl⟩
  exact ⟨_, processUnweighted_iff.mpr ⟨n, rfl, hw⟩, hw⟩

theorem processUnweighted_ne_panic (i : Int) : processUnweighted i ≠ .panic := by
  by_cases h0 : i < 0
  · unfold processUnweighted; rw [if_pos h0]; simp
  · obtain ⟨n, rfl⟩ := Int.eq_ofNat_of_zero_le (show 0 ≤ i by omega)
    by_cases h1 : n ≤ u32Max
    · obtain ⟨t, ht, -⟩ := processUnweighted_nat h1
      rw [ht]; simp
    · unfold processUnweighted; rw [if_neg h0, if_pos (by rw [← not_le]; exact_mod_cast h1)]; simp

/-- What constructors produce. -/
def Wf (chk : Bool) (t : Tholder) : Prop := (∃ n, WfN t n) ∨ ∃ rs, WfW chk t rs

theorem processThold_wf {chk : Bool} {v : Value} {t : Tholder} (h : processThold chk v = .ok t) : Wf chk t := by
  unfold processThold at h
  split at h
  · rw [Res.bind_eq_ok] at h
    obtain ⟨i, -, h⟩ := h
    obtain ⟨n, -, hn⟩ := processUnweighted_iff.mp h
    exact .inl ⟨n, hn⟩
  · obtain ⟨rs, -, hrs⟩ := processWeighted_wf h
    exact .inr ⟨rs, hrs⟩

theorem processLimen_wf {chk : Bool} {t0 t : Tholder} {b : Bytes} (h : processLimen chk t0 b = .ok t) :
    t = t0 ∨ Wf chk t := by
  unfold processLimen at h
  split at h
  · cases h; exact .inl rfl
  · right
    rw [Res.bind_eq_ok] at h
    obtain ⟨s, -, h⟩ := h
    rw [Res.bind_eq_ok] at h
    obtain ⟨c, -, h⟩ := h
    rw [Res.bind_eq_ok] at h
    obtain ⟨hs, -, h⟩ := h
    rw [Res.bind_eq_ok] at h
    obtain ⟨code, -, h⟩ := h
    split at h
    · rw [Res.bind_eq_ok] at h
      obtain ⟨m, -, h⟩ := h
      rw [Res.bind_eq_ok] at h
      obtain ⟨n, -, h⟩ := h
      split at h
      · cases h
      · obtain ⟨k, -, hk⟩ := processUnweighted_iff.mp h
        exact .inl ⟨k, hk⟩
    · split at h
      · rw [Res.bind_eq_ok] at h
        obtain ⟨m, -, h⟩ := h
        rw [Res.bind_eq_ok] at h
        obtain ⟨x, -, h⟩ := h
        dsimp only at h
        obtain ⟨rs, -, hrs⟩ := processWeighted_wf h
        exact .inr ⟨rs, hrs⟩
      · cases h

theorem processList_wf {chk : Bool} {v : Value} {t : Tholder} (h : processList chk v = .ok t) :
    ∃ rs, WfW chk t rs := by
  unfold processList at h
  rw [Res.bind_eq_ok] at h
  obtain ⟨a, -, h⟩ := h
  split at h
  · cases h
  · dsimp only at h
    rw [Res.bind_eq_ok] at h
    obtain ⟨cs, -, h⟩ := h
    rw [Res.bind_eq_ok] at h
    obtain ⟨u, -, h⟩ := h
    obtain ⟨rs, -, hrs⟩ := processWeighted_wf h
    exact ⟨rs, hrs⟩

theorem processSith_wf {chk : Bool} {json : Str → Res Value} {v : Value} {t : Tholder}
    (h : processSith chk json v = .ok t) : Wf chk t := by
  unfold processSith at h
  split at h
  · rw [Res.bind_eq_ok] at h
    obtain ⟨i, -, h⟩ := h
    obtain ⟨n, -, hn⟩ := processUnweighted_iff.mp h
    exact .inl ⟨n, hn⟩
  · split at h
    · rw [Res.bind_eq_ok] at h
      obtain ⟨s, -, h⟩ := h
      split at h
      · rw [Res.bind_eq_ok] at h
        obtain ⟨x, -, h⟩ := h
        exact .inr (processList_wf h)
      · rw [Res.bind_eq_ok] at h
        obtain ⟨i, -, h⟩ := h
        obtain ⟨n, -, hn⟩ := processUnweighted_iff.mp h
        exact .inl ⟨n, hn⟩
    · exact .inr (processList_wf h)

theorem wf_not_default {chk : Bool} {t : Tholder} (h : Wf chk t) : t.isDefault = false := by
  unfold isDefault
  rcases h with ⟨n, hn, m, hm, rfl⟩ | ⟨rs, h⟩
  · simp
  · obtain ⟨m, hm, -⟩ := h.bexter
    simp [hm]

theorem default_isDefault : default.isDefault = true := rfl

/-- Everything `Tholder::new` returns is well formed. -/
theorem new_wf {chk : Bool} {json : Str → Res Value} {thold : Option Value} {limen : Option Bytes}
    {sith : Option Value} {t : Tholder} (h : new chk json thold limen sith = .ok t) : Wf chk t := by
  have key : ∀ t1 : Tholder, t1 = default ∨ Wf chk t1 → ∀ x, (if Tholder.isDefault t1 then .err .emptyMaterial else .ok t1 : Res Tholder) = .ok x →
      Wf chk x := by
    intro t1 h1 x hx
    rcases h1 with rfl | h1
    · cases hx
    · rw [wf_not_default h1] at hx
      cases hx; exact h1
  unfold new at h
  rw [Res.bind_eq_ok] at h
  obtain ⟨t1, h1, h⟩ := h
  rw [Res.bind_eq_ok] at h
  obtain ⟨t2, h2, h⟩ := h
  rw [Res.bind_eq_ok] at h
  obtain ⟨t3, h3, h⟩ := h
  have w1 : t1 = default ∨ Wf chk t1 := by
    cases thold with
    | none => cases h1; exact .inl rfl
    | some v => exact .inr (processThold_wf h1)
  have w2 : t2 = default ∨ Wf chk t2 := by
    cases limen with
    | none => cases h2; exact w1
    | some b =>
      rcases processLimen_wf h2 with rfl | w
      · exact w1
      · exact .inr w
  have w3 : t3 = default ∨ Wf chk t3 := by
    cases sith with
    | none => cases h3; exact w2
    | some v => exact .inr (processSith_wf h3)
  exact key t3 w3 t h

theorem newWithSith_eq {chk : Bool} {json : Str → Res Value} {v : Value} {t : Tholder} :
    newWithSith chk json v = .ok t ↔ processSith chk json v = .ok t := by
  unfold newWithSith new
  dsimp only
  simp only [Res.ok_bind]
  constructor
  · intro h
    rw [Res.bind_eq_ok] at h
    obtain ⟨x, hx, h⟩ := h
    rw [wf_not_default (processSith_wf hx)] at h
    cases h; exact hx
  · intro h
    rw [h, Res.ok_bind, wf_not_default (processSith_wf h)]
    rfl

theorem newWithThold_eq {chk : Bool} {v : Value} {t : Tholder} :
    newWithThold chk v = .ok t ↔ processThold chk v = .ok t := by
  unfold newWithThold new
  dsimp only
  simp only [Res.ok_bind]
  constructor
  · intro h
    rw [Res.bind_eq_ok] at h
    obtain ⟨x, hx, h⟩ := h
    rw [wf_not_default (processThold_wf hx)] at h
    cases h; exact hx
  · intro h
    rw [h, Res.ok_bind, wf_not_default (processThold_wf h)]
    rfl

theorem newWithLimen_eq {chk : Bool} {b : Bytes} {t : Tholder} :
    newWithLimen chk b = .ok t ↔ processLimen chk default b = .ok t ∧ b ≠ [] := by
  unfold newWithLimen new
  dsimp only
  simp only [Res.ok_bind]
  constructor
  · intro h
    rw [Res.bind_eq_ok] at h
    obtain ⟨x, hx, h⟩ := h
    by_cases hb : b = []
    · subst hb
      unfold processLimen at hx
      rw [if_pos rfl] at hx
      cases hx
      rw [default_isDefault] at h
      cases h
    · rcases processLimen_wf hx with rfl | w
      · rw [default_isDefault] at h; cases h
      · rw [wf_not_default w] at h
        cases h; exact ⟨hx, hb⟩
  · rintro ⟨h, hb⟩
    rcases processLimen_wf h with rfl | w
    · exfalso
      unfold processLimen at h
      rw [if_neg hb] at h
      -- every other branch yields a well-formed threshold
      rw [Res.bind_eq_ok] at h
      obtain ⟨s, -, h⟩ := h
      rw [Res.bind_eq_ok] at h
      obtain ⟨c, -, h⟩ := h
      rw [Res.bind_eq_ok] at h
      obtain ⟨hs, -, h⟩ := h
      rw [Res.bind_eq_ok] at h
      obtain ⟨code, -, h⟩ := h
      have d := default_isDefault
      split at h
      · rw [Res.bind_eq_ok] at h
        obtain ⟨m, -, h⟩ := h
        rw [Res.bind_eq_ok] at h
        obtain ⟨n, -, h⟩ := h
        split at h
        · cases h
        · obtain ⟨k, -, hk⟩ := processUnweighted_iff.mp h
          rw [wf_not_default (chk := chk) (.inl ⟨k, hk⟩)] at d; cases d
      · split at h
        · rw [Res.bind_eq_ok] at h
          obtain ⟨m, -, h⟩ := h
          rw [Res.bind_eq_ok] at h
          obtain ⟨x, -, h⟩ := h
          dsimp only at h
          obtain ⟨rs, -, hrs⟩ := processWeighted_wf h
          rw [wf_not_default (.inr ⟨rs, hrs⟩)] at d; cases d
        · cases h
    · rw [h, Res.ok_bind, wf_not_default w]
      rfl

end Keride.Tholder
