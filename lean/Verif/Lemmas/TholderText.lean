/-
Thresholds through `sith` and `limen`.
-/
import Verif.Lemmas.TholderSat
import Verif.Props.Dater

namespace Keride

open Matter

/-- The code a text starts with, as the threshold reader looks it up. -/
theorem exfil_head {s : Str} {m : M} (h : exfil s = .ok m) :
    ∃ c hs, s.head? = some c ∧ hardage c = .ok hs ∧ Str.sliceTo s hs = .ok m.code := by
  unfold exfil at h
  cases s with
  | nil => cases h
  | cons c t =>
    simp only at h
    rw [Res.bind_eq_ok] at h
    obtain ⟨hs, h1, h⟩ := h
    split at h
    · cases h
    · rw [Res.bind_eq_ok] at h
      obtain ⟨hard, h2, h⟩ := h
      rw [Res.bind_eq_ok] at h
      obtain ⟨z, h3, h⟩ := h
      rw [Res.bind_eq_ok] at h
      obtain ⟨p, h4, h⟩ := h
      split at h
      · cases h
      · rw [Res.bind_eq_ok] at h
        obtain ⟨x, -, h⟩ := h
        rw [Res.bind_eq_ok] at h
        obtain ⟨y, -, h⟩ := h
        rw [Res.bind_eq_ok] at h
        obtain ⟨w, -, h⟩ := h
        cases h
        exact ⟨c, hs, rfl, h1, h2⟩

theorem joinWith_len (d : Char) : ∀ l : List Str, l ≠ [] →
    (joinWith d l).length + 1 = (l.map fun s => s.length + 1).sum
  | [], h => absurd rfl h
  | [s], _ => by simp [joinWith]
  | s :: t :: l, _ => by
    have := joinWith_len d (t :: l) (by simp)
    rw [joinWith, List.length_append, List.length_cons, this, List.map_cons (l := t :: l), List.sum_cons]
    · omega
    · simp

theorem joinWith_head (d : Char) : ∀ (s : Str) (l : List Str), s ≠ [] → (joinWith d (s :: l)).head? = s.head?
  | s, [], _ => rfl
  | s, t :: l, h => by
    rw [joinWith]
    · obtain ⟨c, s', rfl⟩ := List.exists_cons_of_ne_nil h
      rfl
    · simp

theorem sum_map_le {α : Type u} (f g : α → Nat) : ∀ l : List α, (∀ a ∈ l, f a ≤ g a) → (l.map f).sum ≤ (l.map g).sum
  | [], _ => le_refl _
  | a :: l, h => by
    rw [List.map_cons, List.map_cons, List.sum_cons, List.sum_cons]
    exact Nat.add_le_add (h a List.mem_cons_self) (sum_map_le f g l (fun x hx => h x (List.mem_cons_of_mem _ hx)))

theorem sum_map_mul (k : Nat) {α : Type u} (f : α → Nat) : ∀ l : List α, (l.map fun a => k * f a).sum = k * (l.map f).sum
  | [] => rfl
  | a :: l => by rw [List.map_cons, List.map_cons, List.sum_cons, List.sum_cons, sum_map_mul k f l, Nat.mul_add]

theorem replace_joinWith {a b : Char} (d : Char) (hd : d ≠ a) : ∀ l : List Str,
    replaceChar a b (joinWith d l) = joinWith d (l.map (replaceChar a b))
  | [] => rfl
  | [s] => rfl
  | s :: t :: l => by
    have := replace_joinWith (a := a) (b := b) d hd (t :: l)
    rw [joinWith, replaceChar, List.map_append, List.map_cons, if_neg hd]
    · change replaceChar a b s ++ d :: replaceChar a b (joinWith d (t :: l)) = _
      rw [this]
      rfl
    · simp

theorem replace_none {a b : Char} : ∀ s : Str, a ∉ s → replaceChar a b s = s
  | [], _ => rfl
  | c :: s, h => by
    rw [List.mem_cons, not_or] at h
    have := replace_none (a := a) (b := b) s h.2
    unfold replaceChar at this ⊢
    rw [List.map_cons, this, if_neg (fun e => h.1 e.symm)]

namespace Tholder

open Ratio Spec

/-- The text of a weight inside the Base64 text. -/
def bextWeight (w : Ratio) : Str := if w.d = 1 then fmtInt w.n else fmtInt w.n ++ 's' :: fmtInt w.d

theorem bext_def (rs : List (List Ratio)) :
    rationalsToBext rs = joinWith 'a' (rs.map fun c => joinWith 'c' (c.map bextWeight)) := rfl

theorem bextWeight_replace {w : Ratio} (h : IsW w) : replaceChar 's' '/' (bextWeight w) = weightText w := by
  obtain ⟨a, b, rfl, hb, hab, hc, hb2⟩ := h
  have hs : ∀ n : Nat, replaceChar 's' '/' (fmtNat 10 n) = fmtNat 10 n :=
    fun n => replace_none _ (digits_not (by decide) n)
  unfold bextWeight weightText
  dsimp only
  rw [fmtInt_nat, fmtInt_nat]
  split
  · exact hs a
  · rw [replaceChar, List.map_append, List.map_cons, if_pos rfl]
    change replaceChar 's' '/' (fmtNat 10 a) ++ '/' :: replaceChar 's' '/' (fmtNat 10 b) = _
    rw [hs, hs]

theorem fmt_len {n : Nat} (h : n < 2 ^ 31) : (fmtNat 10 n).length ≤ 10 :=
  (fmtNat_spec (by decide) (by decide) n).2.2.2 10 (by decide) (by
    have : (2 : Nat) ^ 31 < 10 ^ 10 := by decide
    omega)

theorem bextWeight_len {w : Ratio} (h : IsW w) : (bextWeight w).length ≤ 21 := by
  obtain ⟨a, b, rfl, hb, hab, hc, hb2⟩ := h
  unfold bextWeight
  dsimp only
  rw [fmtInt_nat, fmtInt_nat]
  have h1 := fmt_len (show a < 2 ^ 31 by omega)
  have h2 := fmt_len hb2
  split
  · omega
  · rw [List.length_append, List.length_cons]; omega

theorem digit_b64 (n : Nat) : ∀ c ∈ fmtNat 10 n, c ∈ b64Alphabet ∧ c ≠ 'A' := by
  intro c hc
  obtain ⟨d, hd, rfl⟩ := (fmtNat_spec (b := 10) (by decide) (by decide) n).2.1 c hc
  have : ∀ d < 10, digitChr d ∈ b64Alphabet ∧ digitChr d ≠ 'A' := by decide
  exact this d hd

theorem bextWeight_b64 {w : Ratio} (h : IsW w) : (∀ c ∈ bextWeight w, c ∈ b64Alphabet ∧ c ≠ 'A' ∧ c ≠ 'a' ∧ c ≠ 'c') ∧
    bextWeight w ≠ [] ∧ 'a' ∉ weightText w ∧ 'c' ∉ weightText w := by
  obtain ⟨a, b, rfl, hb, hab, hc, hb2⟩ := h
  have ha := fun n => digits_not (c := 'a') (by decide) n
  have hcc := fun n => digits_not (c := 'c') (by decide) n
  have hd : ∀ n, ∀ c ∈ fmtNat 10 n, c ∈ b64Alphabet ∧ c ≠ 'A' ∧ c ≠ 'a' ∧ c ≠ 'c' := by
    intro n c hx
    refine ⟨(digit_b64 n c hx).1, (digit_b64 n c hx).2, ?_, ?_⟩
    · rintro rfl; exact ha n hx
    · rintro rfl; exact hcc n hx
  have hne := fun n => (fmtNat_spec (b := 10) (by decide) (by decide) n).1
  unfold bextWeight weightText
  dsimp only
  rw [fmtInt_nat, fmtInt_nat]
  split
  · exact ⟨hd a, hne a, ha a, hcc a⟩
  · refine ⟨?_, by simp, ?_, ?_⟩
    · intro c hx
      rcases List.mem_append.mp hx with hx | hx
      · exact hd a c hx
      · rcases List.mem_cons.mp hx with rfl | hx
        · decide
        · exact hd b c hx
    · simp [ha]
    · simp [hcc]

theorem clause_ne {chk : Bool} {rs : List (List Ratio)} (hw : ∀ c ∈ rs, ∀ w ∈ c, IsW w) (h : checkSums chk rs = .ok ()) :
    ∀ c ∈ rs, c ≠ [] := by
  intro c hc e
  subst e
  have := sumsOk_sound hw ((checkSums_iff chk rs).mp h) [] hc
  simp at this
  exact absurd this (by norm_num)

theorem bext_len {rs : List (List Ratio)} (hw : ∀ c ∈ rs, ∀ w ∈ c, IsW w) (hc : ∀ c ∈ rs, c ≠ []) :
    (rationalsToBext rs).length ≤ 22 * (rs.map List.length).sum := by
  rw [bext_def]
  by_cases h : rs = []
  · subst h; simp [joinWith]
  · have h1 := joinWith_len 'a' (rs.map fun c => joinWith 'c' (c.map bextWeight)) (by simpa using h)
    rw [List.map_map] at h1
    have h2 : (rs.map ((fun s : Str => s.length + 1) ∘ fun c => joinWith 'c' (c.map bextWeight))).sum ≤
        (rs.map fun c => 22 * c.length).sum := by
      apply sum_map_le
      intro c hcm
      simp only [Function.comp]
      rw [joinWith_len 'c' _ (by simpa using hc c hcm), List.map_map]
      have := sum_map_le ((fun s : Str => s.length + 1) ∘ bextWeight) (fun _ => 22) c (fun w hwm => by
        have := bextWeight_len (hw c hcm w hwm)
        simp only [Function.comp]; omega)
      simp only [List.map_const', List.sum_replicate_nat] at this
      omega
    rw [sum_map_mul 22] at h2
    omega

theorem bext_b64 {rs : List (List Ratio)} (hw : ∀ c ∈ rs, ∀ w ∈ c, IsW w) : IsB64 (rationalsToBext rs) := by
  intro c hc
  rw [bext_def] at hc
  rcases mem_joinWith hc with rfl | ⟨s, hs, hc⟩
  · decide
  · obtain ⟨cl, hcl, rfl⟩ := List.mem_map.mp hs
    rcases mem_joinWith hc with rfl | ⟨s, hs, hc⟩
    · decide
    · obtain ⟨w, hwm, rfl⟩ := List.mem_map.mp hs
      exact ((bextWeight_b64 (hw cl hcl w hwm)).1 c hc).1

theorem bext_head {rs : List (List Ratio)} (hw : ∀ c ∈ rs, ∀ w ∈ c, IsW w) (hc : ∀ c ∈ rs, c ≠ []) :
    (rationalsToBext rs).head? ≠ some 'A' := by
  rw [bext_def]
  cases rs with
  | nil => simp [joinWith]
  | cons c rs =>
    obtain ⟨w, ws, rfl⟩ := List.exists_cons_of_ne_nil (hc c List.mem_cons_self)
    obtain ⟨h1, h2, -⟩ := bextWeight_b64 (hw _ List.mem_cons_self w List.mem_cons_self)
    obtain ⟨x, xs, hx⟩ := List.exists_cons_of_ne_nil h2
    have e : (joinWith 'c' ((w :: ws).map bextWeight)).head? = some x := by
      rw [List.map_cons, joinWith_head _ _ _ h2, hx]; rfl
    rw [List.map_cons, joinWith_head _ _ _ (by intro e'; rw [e'] at e; cases e), e]
    intro e
    cases e
    exact (h1 'A' (by rw [hx]; exact List.mem_cons_self)).2.1 rfl

/-- The value read from the Base64 text of an accepted threshold is its stored value. -/
theorem bext_split {rs : List (List Ratio)} (hw : ∀ c ∈ rs, ∀ w ∈ c, IsW w) (hc : ∀ c ∈ rs, c ≠ []) (hne : rs ≠ []) :
    Value.arr ((splitChar 'a' (replaceChar 's' '/' (rationalsToBext rs))).map fun clause =>
      Value.arr ((splitChar 'c' clause).map Value.str)) = tholdOf rs := by
  have e1 : replaceChar 's' '/' (rationalsToBext rs) =
      joinWith 'a' (rs.map fun c => joinWith 'c' (c.map weightText)) := by
    rw [bext_def, replace_joinWith _ (by decide), List.map_map]
    congr 1
    apply List.map_congr_left
    intro c hcm
    simp only [Function.comp]
    rw [replace_joinWith _ (by decide), List.map_map]
    congr 1
    apply List.map_congr_left
    intro w hwm
    exact bextWeight_replace (hw c hcm w hwm)
  rw [e1, splitChar_join 'a' _ (by simpa using hne)]
  · rw [tholdOf, List.map_map]
    congr 1
    apply List.map_congr_left
    intro c hcm
    simp only [Function.comp]
    rw [splitChar_join 'c' _ (by simpa using hc c hcm)]
    · rw [List.map_map]; rfl
    · intro s hs
      obtain ⟨w, hwm, rfl⟩ := List.mem_map.mp hs
      exact (bextWeight_b64 (hw c hcm w hwm)).2.2.2
  · intro s hs h
    obtain ⟨c, hcm, rfl⟩ := List.mem_map.mp hs
    rcases mem_joinWith h with h | ⟨x, hx, h⟩
    · revert h; decide
    · obtain ⟨w, hwm, rfl⟩ := List.mem_map.mp hx
      exact (bextWeight_b64 (hw c hcm w hwm)).2.2.1 h

/-- The Base64 text of an accepted threshold survives the Bexter. -/
theorem bexter_roundtrip (chk : Bool) {rs : List (List Ratio)} (hw : ∀ c ∈ rs, ∀ w ∈ c, IsW w)
    (hc : ∀ c ∈ rs, c ≠ []) (hn : (rs.map List.length).sum < 2 ^ 27) {m : M}
    (hm : Bexter.newWithBext (rationalsToBext rs) = .ok m) :
    ∃ s, qb64 chk m = .ok s ∧ Bexter.newWithQb64 s = .ok m ∧ Bexter.bext m = .ok (rationalsToBext rs) := by
  have hB := bext_b64 hw
  have hlen := bext_len hw hc
  have hl : (rationalsToBext rs).length ≤ 4 * (64 ^ 4 - 1) := by
    have hm' := hm
    rw [Bexter.newWithBext_eq, reB64_iff.mpr hB, if_neg (by simp), Bexter.rawify_eq hB, Res.ok_bind] at hm'
    rw [Res.bind_eq_ok] at hm'
    obtain ⟨m', h1, -⟩ := hm'
    have hv := new_var (v := ⟨str% "4A", false, 0, 'A'⟩) (by decide +kernel)
      (raw := beBytes (3 * (((rationalsToBext rs).length + 3) / 4) - (3 - (rationalsToBext rs).length % 4) % 3)
        (ofBase 64 (idxs (rationalsToBext rs)))) (by rw [beBytes_length]; omega)
    rw [h1, beBytes_length, (Bexter.rawify_len _).2] at hv
    by_contra hcon
    have h64 : (64 : Nat) ^ 4 = 16777216 := by decide
    rw [if_neg (by omega)] at hv
    cases hv
  obtain ⟨m', h1, h2, ⟨s, h3, h4, -⟩, -⟩ := Props.C27_roundtrip_partial chk (rationalsToBext rs) hB hl
    (fun h => bext_head hw hc h.2)
  rw [hm] at h1
  cases h1
  exact ⟨s, h3, h4, h2⟩

theorem processLimen_text {chk : Bool} {t0 : Tholder} {s : Str} {m : M} (h : Matter.newWithQb64 s = .ok m) :
    processLimen chk t0 (toUtf8 s) =
      if Number.codex.contains m.code then do
        let n ← Number.num m
        if i64Max < (n : Int) then .err .parseInt
        else processUnweighted n
      else if Bexter.codex.contains m.code then do
        let b ← Bexter.bext m
        processWeighted chk (Value.arr ((splitChar 'a' (replaceChar 's' '/' b)).map fun clause =>
          Value.arr ((splitChar 'c' clause).map Value.str)))
      else .err .unexpectedCode := by
  obtain ⟨c, hs, h1, h2, h3⟩ := exfil_head h
  have hne : toUtf8 s ≠ [] := by
    intro e
    have : s = [] := toUtf8_inj (t := []) (by rw [e]; rfl)
    rw [this] at h1; cases h1
  unfold processLimen
  rw [if_neg hne, fromUtf8_toUtf8, Res.ok_bind, h1]
  simp only [Res.orPanic, Res.ok_bind]
  rw [h2, Res.ok_bind, h3, Res.ok_bind]
  have e1 : Number.new none none none none none (some s) none = .ok m := by
    have : Number.new none none none none none (some s) none = Matter.newWithQb64 s := rfl
    rw [this, h]
  rw [e1, Res.ok_bind]
  split
  · rfl
  · split
    · rename_i hx
      have e2 : Bexter.new none none none none (some s) none = .ok m := by
        have : Bexter.new none none none none (some s) none =
          Matter.newWithQb64 s >>= fun m => Bexter.validateCode m.code >>= fun _ => .ok m := rfl
        rw [this, h, Res.ok_bind, Bexter.validateCode, if_pos hx, Res.ok_bind]
      rw [e2, Res.ok_bind]
    · rfl

theorem limen_numeric (chk : Bool) {t : Tholder} {n : Nat} (h : WfN t n) :
    ∃ s, limen chk t = .ok (toUtf8 s) ∧ newWithLimen chk (toUtf8 s) = .ok t := by
  obtain ⟨hn, m, hm, rfl⟩ := h
  have h128 : n < 2 ^ 128 := by
    have : u32Max < 2 ^ 128 := by decide
    omega
  obtain ⟨c, k, hc, hk, -, he⟩ := Number.ofNum_eq h128
  rw [Number.newWithNum_eq] at hm
  rw [he] at hm
  cases hm
  obtain ⟨z, hz⟩ := Number.wf_fixed_mk (Number.sizes_fixed _ hc) (raw := beBytes k n) (by simp)
  obtain ⟨s, b, r1, r2, r3, -, -, -, r4, -⟩ := Number.roundtrip chk hz
  have hcod : Number.codex.contains c = true := by
    have : ∀ e ∈ Number.sizes, Number.codex.contains e.1 = true := by decide
    exact this _ hc
  refine ⟨s, ?_, newWithLimen_eq.mpr ⟨?_, ?_⟩⟩
  · unfold limen
    rw [if_neg (by simp)]
    simp only [qb64b, r1, Res.ok_bind]
  · rw [processLimen_text r3, if_pos hcod, Number.num_of hc, if_pos (by simp), Res.ok_bind, beVal_beBytes,
      Nat.mod_eq_of_lt hk, if_neg]
    · exact processUnweighted_iff.mpr ⟨n, rfl, hn, _, he, rfl⟩
    · rw [not_lt]
      have : (u32Max : Int) ≤ i64Max := by decide
      have h2 : (n : Int) ≤ u32Max := by exact_mod_cast hn
      omega
  · intro e
    have hs : s = [] := toUtf8_inj (t := []) (by rw [e]; rfl)
    obtain ⟨c', hs', h1, -⟩ := exfil_head r3
    rw [hs] at h1; cases h1

theorem validate_ok {m : M} {s : Str} (h : Bexter.newWithQb64 s = .ok m) :
    Matter.newWithQb64 s = .ok m ∧ Bexter.codex.contains m.code = true := by
  have e : Bexter.newWithQb64 s = Matter.newWithQb64 s >>= fun m => Bexter.validateCode m.code >>= fun _ => .ok m := rfl
  rw [e, Res.bind_eq_ok] at h
  obtain ⟨m', h1, h⟩ := h
  rw [Res.bind_eq_ok] at h
  obtain ⟨u, h2, h⟩ := h
  cases h
  refine ⟨h1, ?_⟩
  unfold Bexter.validateCode at h2
  split at h2
  · assumption
  · cases h2

theorem codex_disjoint : ∀ c ∈ Bexter.codex, Number.codex.contains c = false := by decide

theorem limen_weighted {chk : Bool} {t : Tholder} {rs : List (List Ratio)} (h : WfW chk t rs) (hne : rs ≠ [])
    (hn : (rs.map List.length).sum < 2 ^ 27) :
    ∃ s, limen chk t = .ok (toUtf8 s) ∧ newWithLimen chk (toUtf8 s) = .ok t := by
  obtain ⟨m, hm, hb⟩ := h.bexter
  have hcl := clause_ne h.isw h.sums
  obtain ⟨s, r1, r2, r3⟩ := bexter_roundtrip chk h.isw hcl hn hb
  obtain ⟨r4, r5⟩ := validate_ok r2
  refine ⟨s, ?_, newWithLimen_eq.mpr ⟨?_, ?_⟩⟩
  · unfold limen
    rw [if_pos h.weighted, hm]
    simp only [qb64b, r1, Res.ok_bind]
  · rw [processLimen_text r4, codex_disjoint _ (List.contains_iff_mem.mp r5), if_neg (by simp), if_pos r5, r3, Res.ok_bind,
      bext_split h.isw hcl hne]
    exact processWeighted_of h (values_tholdOf chk h.isw h.sums)
  · intro e
    have hs : s = [] := toUtf8_inj (t := []) (by rw [e]; rfl)
    obtain ⟨c', hs', h1, -⟩ := exfil_head r4
    rw [hs] at h1; cases h1

theorem sith_numeric (chk : Bool) (json : Str → Res Value) {t : Tholder} {n : Nat} (h : WfN t n) :
    sith t = .ok (.str (Nat.toDigits 16 n)) ∧ newWithSith chk json (.str (Nat.toDigits 16 n)) = .ok t := by
  have ht := h
  obtain ⟨hn, m, hm, rfl⟩ := h
  rw [← fmtNat_eq (by decide) (by decide)]
  constructor
  · unfold sith
    rw [if_neg (by simp)]
    simp only [Value.toI64, Res.ok_bind, fmtHexI64]
    rw [if_neg (by omega), Int.toNat_natCast]
  · rw [newWithSith_eq]
    unfold processSith
    rw [if_neg (by simp [Value.toI64, Res.isOk]), if_pos (by rfl)]
    simp only [Value.toStr, Res.ok_bind]
    rw [if_neg, parseSigned_fmt (by decide) (by decide), if_pos]
    · exact processUnweighted_iff.mpr ⟨n, rfl, ht⟩
    · have : (u32Max : Int) ≤ i64Max := by decide
      have h2 : (n : Int) ≤ u32Max := by exact_mod_cast hn
      constructor <;> omega
    · intro e
      have hd := (fmtNat_spec (b := 16) (by decide) (by decide) n).2.1
      have : '[' ∈ fmtNat 16 n := List.mem_of_mem_head? e
      obtain ⟨d, hd, e⟩ := hd _ this
      have : ∀ d < 16, digitChr d ≠ '[' := by decide
      exact this d hd e.symm

theorem checkTexts_ok : ∀ (cs : List (List Str)), checkTexts (cs.map fun c => .arr (c.map .str)) = .ok ()
  | [] => rfl
  | c :: cs => by
    rw [List.map_cons, checkTexts, Value.toVec, Res.ok_bind, if_pos]
    · exact checkTexts_ok cs
    · rw [List.all_eq_true]
      intro v hv
      obtain ⟨s, -, rfl⟩ := List.mem_map.mp hv
      rfl

theorem tholdOf_texts (rs : List (List Ratio)) :
    tholdOf rs = .arr ((rs.map (List.map weightText)).map fun c => .arr (c.map .str)) := by
  rw [tholdOf, List.map_map]
  congr 1
  apply List.map_congr_left
  intro c _
  simp [Function.comp]

theorem processSith_arr (chk : Bool) (json : Str → Res Value) (a : List Value) :
    processSith chk json (.arr a) = processList chk (.arr a) := rfl

theorem processList_arr (chk : Bool) (a : List Value) : processList chk (.arr a) =
    if a.isEmpty then .err .value
    else if a.all (fun clause => clause.toVec.isOk) then checkTexts a >>= fun _ => processWeighted chk (.arr a)
    else checkTexts [.arr a] >>= fun _ => processWeighted chk (.arr [.arr a]) := by
  unfold processList
  have e : (Value.arr a).toVec = .ok a := rfl
  rw [e, Res.ok_bind]
  generalize a.isEmpty = b1
  generalize a.all (fun clause => clause.toVec.isOk) = b2
  cases b1 <;> cases b2 <;> rfl

theorem processList_nested {chk : Bool} {rs : List (List Ratio)} (hne : rs ≠ []) :
    processList chk (tholdOf rs) = processWeighted chk (tholdOf rs) := by
  rw [tholdOf_texts, processList_arr, if_neg (by simp [hne]), if_pos, checkTexts_ok, Res.ok_bind]
  rw [List.all_eq_true]
  intro v hv
  obtain ⟨c, -, rfl⟩ := List.mem_map.mp hv
  rfl

theorem processList_flat {chk : Bool} {c : List Ratio} (hne : c ≠ []) :
    processList chk (.arr (c.map fun w => .str (weightText w))) = processWeighted chk (tholdOf [c]) := by
  have e : tholdOf [c] = .arr [.arr (c.map fun w => .str (weightText w))] := rfl
  have h2 := checkTexts_ok [c.map weightText]
  rw [List.map_cons, List.map_nil, List.map_map] at h2
  obtain ⟨w, ws, rfl⟩ := List.exists_cons_of_ne_nil hne
  rw [e]
  rw [processList_arr, if_neg (by simp), if_neg (by simp [Value.toVec, Res.isOk])]
  have h3 : checkTexts [Value.arr ((w :: ws).map fun w => .str (weightText w))] = .ok () := h2
  rw [h3, Res.ok_bind]

theorem sith_weighted {chk : Bool} (json : Str → Res Value) {t : Tholder} {rs : List (List Ratio)} (h : WfW chk t rs)
    (hne : rs ≠ []) : ∃ v, sith t = .ok v ∧ newWithSith chk json v = .ok t ∧
      (∀ c, rs = [c] → v = .arr (c.map fun w => .str (weightText w))) ∧ (rs.length ≠ 1 → v = t.thold) := by
  have hcl := clause_ne h.isw h.sums
  have hp := processWeighted_of h (values_tholdOf chk h.isw h.sums)
  by_cases h1 : rs.length = 1
  · obtain ⟨c, rfl⟩ := List.length_eq_one_iff.mp h1
    refine ⟨.arr (c.map fun w => .str (weightText w)), ?_, ?_, ?_, fun hx => absurd h1 hx⟩
    · unfold sith
      rw [if_pos h.weighted, h.thold]
      rfl
    · rw [newWithSith_eq, processSith_arr, processList_flat (hcl c (by simp))]
      exact hp
    · intro c' e; cases e; rfl
  · refine ⟨t.thold, ?_, ?_, ?_, fun _ => rfl⟩
    · unfold sith
      rw [if_pos h.weighted, h.thold, tholdOf]
      simp only [Value.toVec, Res.ok_bind, List.length_map]
      rw [if_neg h1]
    · rw [newWithSith_eq, h.thold]
      have e : processSith chk json (tholdOf rs) = processList chk (tholdOf rs) := rfl
      rw [e, processList_nested hne]
      exact hp
    · rintro c rfl; exact absurd rfl h1

theorem thold_weighted {chk : Bool} {t : Tholder} {rs : List (List Ratio)} (h : WfW chk t rs) :
    newWithThold chk t.thold = .ok t := by
  rw [newWithThold_eq, h.thold]
  exact processWeighted_of h (values_tholdOf chk h.isw h.sums)

theorem thold_numeric (chk : Bool) {t : Tholder} {n : Nat} (h : WfN t n) : newWithThold chk t.thold = .ok t := by
  have ht := h
  obtain ⟨hn, m, hm, rfl⟩ := h
  rw [newWithThold_eq]
  unfold processThold
  rw [if_pos (by rfl)]
  simp only [Value.toI64, Res.ok_bind]
  exact processUnweighted_iff.mpr ⟨n, rfl, ht⟩

end Tholder

end Keride
