/-
The JSON reader undoes the JSON writer.
-/
import Verif.Model.Json
import Verif.Spec.Json
import Verif.Lemmas.Num
import Mathlib.Tactic.SplitIfs

namespace Keride

open Spec

/-! ## Strings -/

theorem ofNat_toNat_eq {c : Char} {n : Nat} (h : c.toNat = n) : Char.ofNat n = c := by
  rw [← h]; exact Char.ofNat_toNat c

theorem parseStr_char (fuel : Nat) (c : Char) (r : Str) :
    parseStrBody (fuel + 1) (escChar c ++ r) = (parseStrBody fuel r).map fun p => (c :: p.1, p.2) := by
  unfold escChar
  split_ifs with h1 h2 h3 h4 h5 h6 h7 h8
  · subst h1; rfl
  · subst h2; rfl
  · have := ofNat_toNat_eq h3; subst this; rfl
  · have := ofNat_toNat_eq h4; subst this; rfl
  · have := ofNat_toNat_eq h5; subst this; rfl
  · have := ofNat_toNat_eq h6; subst this; rfl
  · have := ofNat_toNat_eq h7; subst this; rfl
  · have e1 := toDigit_chr (b := 16) (d := c.toNat / 16) (by omega) (by omega)
    have e2 := toDigit_chr (b := 16) (d := c.toNat % 16) (by omega) (by omega)
    have e0 : toDigit 16 '0' = some 0 := by decide
    have hx : hex4 ('0' :: '0' :: digitChr (c.toNat / 16) :: digitChr (c.toNat % 16) :: r) = some (c.toNat, r) := by
      simp only [hex4, e0, e1, e2]
      congr 2
      omega
    have hu : uEscape ('0' :: '0' :: digitChr (c.toNat / 16) :: digitChr (c.toNat % 16) :: r) = some (c, r) := by
      unfold uEscape
      rw [hx]
      simp only
      rw [if_neg (by omega), if_neg (by omega), Char.ofNat_toNat]
    simp only [List.cons_append, List.nil_append, parseStrBody]
    rw [if_neg (by decide), if_pos trivial, if_pos trivial, hu]
  · simp only [List.cons_append, List.nil_append, parseStrBody]
    rw [if_neg h1, if_neg h2, if_neg h8]

theorem parseStr_esc (s : Str) (r : Str) (fuel : Nat) (h : s.length < fuel) :
    parseStrBody fuel (escStr s ++ '"' :: r) = some (s, r) := by
  induction s generalizing fuel with
  | nil =>
    obtain ⟨f, rfl⟩ : ∃ f, fuel = f + 1 := ⟨fuel - 1, by simp at h; omega⟩
    simp [escStr, parseStrBody]
  | cons c s ih =>
    obtain ⟨f, rfl⟩ : ∃ f, fuel = f + 1 := ⟨fuel - 1, by omega⟩
    rw [escStr, List.append_assoc, parseStr_char, ih f (by simp at h; omega)]
    rfl

theorem escChar_len (c : Char) : 1 ≤ (escChar c).length := by
  unfold escChar
  split_ifs <;> simp

theorem escStr_len (s : Str) : s.length ≤ (escStr s).length := by
  induction s with
  | nil => simp
  | cons c s ih =>
    have := escChar_len c
    rw [escStr, List.length_append, List.length_cons]
    omega

theorem parseStr_json (s r : Str) : parseStrBody ((escStr s ++ '"' :: r).length + 1) (escStr s ++ '"' :: r) = some (s, r) := by
  apply parseStr_esc
  have := escStr_len s
  rw [List.length_append]
  omega

/-! ## Numbers -/

/-- What may follow a number inside a JSON text the writer produces. -/
def Delim (r : Str) : Prop := ∀ c, r.head? = some c → c = ',' ∨ c = ']' ∨ c = '}'

theorem delim_nil : Delim [] := by intro c h; cases h

theorem delim_cons {c : Char} (r : Str) (h : c = ',' ∨ c = ']' ∨ c = '}') : Delim (c :: r) := by
  intro d hd
  cases hd
  exact h

theorem delim_isDec {c : Char} (h : c = ',' ∨ c = ']' ∨ c = '}') : isDec c = false := by
  rcases h with rfl | rfl | rfl <;> decide

theorem takeWhile_app {α : Type} {p : α → Bool} {a b : List α} (h : ∀ x ∈ a, p x = true) (hb : ∀ x, b.head? = some x → p x = false) :
    (a ++ b).takeWhile p = a ∧ (a ++ b).dropWhile p = b := by
  induction a with
  | nil =>
    cases b with
    | nil => simp
    | cons x b => have := hb x rfl; simp [this]
  | cons x a ih =>
    have h1 := h x (by simp)
    have h2 := ih (fun y hy => h y (by simp [hy]))
    simp [h1, h2.1, h2.2]

theorem spanDec_app {a b : Str} (h : ∀ x ∈ a, isDec x = true) (hb : ∀ x, b.head? = some x → isDec x = false) :
    spanDec (a ++ b) = (a, b) := by
  unfold spanDec
  rw [(takeWhile_app h hb).1, (takeWhile_app h hb).2]

theorem numFrac_delim {r : Str} (h : Delim r) : numFrac r = some ([], r) := by
  cases r with
  | nil => rfl
  | cons c r =>
    unfold numFrac
    have : c ≠ '.' := by rcases h c rfl with rfl | rfl | rfl <;> decide
    simp [this]

theorem numExp_delim {r : Str} (h : Delim r) : numExp r = some ([], r) := by
  cases r with
  | nil => rfl
  | cons c r =>
    unfold numExp
    have : ¬ (c = 'e' ∨ c = 'E') := by rcases h c rfl with rfl | rfl | rfl <;> decide
    simp only
    rw [if_neg this]

theorem isDec_chr : ∀ d < 10, isDec (digitChr d) = true := by decide

theorem isDigits_dec {s : Str} (h : IsDigits 10 s) : ∀ c ∈ s, isDec c = true := by
  intro c hc
  obtain ⟨d, hd, rfl⟩ := h c hc
  exact isDec_chr d hd

theorem fmtAux_head {b : Nat} (h2 : 2 ≤ b) (hb : b ≤ 16) (fuel n : Nat) (hf : n < fuel) (hn : 0 < n) (out : Str) :
    ∃ d, 0 < d ∧ d < b ∧ (fmtAux b fuel n out).head? = some (digitChr d) := by
  induction fuel generalizing n out with
  | zero => omega
  | succ fuel ih =>
    rw [fmtAux]
    split
    · rename_i h
      exact ⟨n, hn, h, rfl⟩
    · rename_i h
      have h3 : n / b < n := Nat.div_lt_self hn h2
      exact ih (n / b) (by omega) (Nat.div_pos (by omega) (by omega)) _

theorem digitChr_zero : ∀ d < 16, digitChr d = '0' → d = 0 := by decide

theorem fmtNat_head (n : Nat) : (fmtNat 10 n).head? = some '0' → (fmtNat 10 n).length = 1 := by
  intro h
  by_cases hn : n = 0
  · subst hn; rfl
  · obtain ⟨d, h1, h2, h3⟩ := fmtAux_head (b := 10) (by omega) (by omega) (n + 1) n (by omega) (by omega) []
    unfold fmtNat at h
    rw [h] at h3
    have := digitChr_zero d (by omega) (Option.some.inj h3).symm
    omega

theorem dec_not_minus {s : Str} (h : ∀ c ∈ s, isDec c = true) : s.head? ≠ some '-' := by
  intro e
  cases s with
  | nil => cases e
  | cons c s =>
    cases e
    have := h '-' (by simp)
    revert this
    decide

theorem parseNum_int (fl : Str → Option Str) (i : Int) (r : Str) (hi : -2 ^ 63 ≤ i ∧ i < 2 ^ 63) (hr : Delim r) :
    parseNum fl (jsonInt i ++ r) = some (.int i, r) := by
  obtain ⟨h1, h2, h3, -⟩ := fmtNat_spec (b := 10) (by omega) (by omega) i.natAbs
  have hd := isDigits_dec h2
  have hm := dec_not_minus hd
  have hr' : ∀ x, r.head? = some x → isDec x = false := fun x hx => delim_isDec (hr x hx)
  have hs := spanDec_app hd hr'
  have hz : ¬ ((fmtNat 10 i.natAbs).head? = some '0' ∧ (fmtNat 10 i.natAbs).length ≠ 1) :=
    fun h => h.2 (fmtNat_head _ h.1)
  unfold jsonInt
  by_cases hn : i < 0
  · rw [if_pos hn]
    unfold parseNum
    simp only [List.cons_append, List.head?_cons, decide_true, if_true, List.drop_succ_cons, List.drop_zero, hs]
    rw [if_neg h1, if_neg hz, numFrac_delim hr]
    simp only
    rw [numExp_delim hr]
    simp only [and_self, if_true]
    have : intOf true (fmtNat 10 i.natAbs) = some i := by
      unfold intOf
      rw [h3]
      simp only [if_true]
      rw [if_pos (by omega)]
      congr 1
      omega
    rw [this]
  · rw [if_neg hn]
    have hh : (fmtNat 10 i.natAbs ++ r).head? ≠ some '-' := by
      obtain ⟨c, t, e⟩ := List.exists_cons_of_ne_nil h1
      rw [e] at hm ⊢
      simpa using hm
    unfold parseNum
    simp only [hh, decide_false, Bool.false_eq_true, if_false, hs]
    rw [if_neg h1, if_neg hz, numFrac_delim hr]
    simp only
    rw [numExp_delim hr]
    simp only [and_self, if_true]
    have : intOf false (fmtNat 10 i.natAbs) = some i := by
      unfold intOf
      rw [h3]
      simp only [Bool.false_eq_true, if_false]
      rw [if_pos (by omega)]
      congr 1
      omega
    rw [this]

/-- The texts of floats the reader gives back unchanged. -/
def FloatOk (fl : Str → Option Str) (t : Str) : Prop :=
  '.' ∈ t ∧ (∃ c u, t = c :: u ∧ (c = '-' ∨ isDec c = true)) ∧
    ∀ r, Delim r → parseNum fl (t ++ r) = some (.float t, r)

theorem isDec_of_mem : ∀ c ∈ str% "0123456789", isDec c = true := by decide

theorem floatOk_decimal {fl : Str → Option Str} {t : Str} (ht : IsDecimal t) (hf : fl t = some t) : FloatOk fl t := by
  obtain ⟨neg, a, b, rfl, hab, ha, hb, hz⟩ := ht
  have hda : ∀ x ∈ a, isDec x = true := fun x hx => isDec_of_mem x (hab x (by simp [hx]))
  have hdb : ∀ x ∈ b, isDec x = true := fun x hx => isDec_of_mem x (hab x (by simp [hx]))
  have hz' : ¬ (a.head? = some '0' ∧ a.length ≠ 1) := by
    rintro ⟨h1, h2⟩
    rw [hz h1] at h2
    exact h2 rfl
  refine ⟨by simp, ?_, ?_⟩
  · obtain ⟨c, u, rfl⟩ := List.exists_cons_of_ne_nil ha
    cases neg with
    | true => exact ⟨'-', _, rfl, .inl rfl⟩
    | false => exact ⟨c, _, rfl, .inr (hda c (by simp))⟩
  · intro r hr
    have hr' : ∀ x, r.head? = some x → isDec x = false := fun x hx => delim_isDec (hr x hx)
    have hs1 : spanDec (a ++ '.' :: (b ++ r)) = (a, '.' :: (b ++ r)) := spanDec_app hda (by
      intro x hx
      cases hx
      decide)
    have hs2 := spanDec_app hdb hr'
    have hfr : numFrac ('.' :: (b ++ r)) = some ('.' :: b, r) := by
      unfold numFrac
      simp only [if_true, hs2]
      rw [if_neg hb]
    have hh : (a ++ '.' :: (b ++ r)).head? ≠ some '-' := by
      have hm := dec_not_minus hda
      obtain ⟨c, t, e⟩ := List.exists_cons_of_ne_nil ha
      rw [e] at hm ⊢
      simpa using hm
    cases neg with
    | true =>
      simp only [if_true, List.cons_append, List.nil_append, List.append_assoc] at hf ⊢
      unfold parseNum
      simp only [List.head?_cons, decide_true, if_true, List.drop_succ_cons, List.drop_zero, hs1]
      rw [if_neg ha, if_neg hz', hfr]
      simp only
      rw [numExp_delim hr]
      simp [hf]
    | false =>
      simp only [Bool.false_eq_true, if_false, List.cons_append, List.nil_append, List.append_assoc] at hf ⊢
      unfold parseNum
      simp only [hh, decide_false, Bool.false_eq_true, if_false, hs1]
      rw [if_neg ha, if_neg hz', hfr]
      simp only
      rw [numExp_delim hr]
      simp [hf]

/-! ## First characters -/

theorem jsonInt_head (i : Int) : ∃ c u, jsonInt i = c :: u ∧ (c = '-' ∨ isDec c = true) := by
  obtain ⟨h1, h2, -⟩ := fmtNat_spec (b := 10) (by omega) (by omega) i.natAbs
  have hd := isDigits_dec h2
  unfold jsonInt
  split
  · exact ⟨_, _, rfl, .inl rfl⟩
  · obtain ⟨c, t, e⟩ := List.exists_cons_of_ne_nil h1
    rw [e] at hd ⊢
    exact ⟨c, t, rfl, .inr (hd c (by simp))⟩

theorem num_head_ne {c : Char} (h : c = '-' ∨ isDec c = true) :
    ¬ (c = ' ' ∨ c = '\n' ∨ c = '\t' ∨ c = '\r') ∧ c ≠ 'n' ∧ c ≠ 't' ∧ c ≠ 'f' ∧ c ≠ '"' ∧ c ≠ '[' ∧ c ≠ '{' ∧ c ≠ ']' ∧
      c ≠ '}' := by
  rcases h with rfl | h
  · decide
  · refine ⟨?_, ?_, ?_, ?_, ?_, ?_, ?_, ?_, ?_⟩
    · rintro (rfl | rfl | rfl | rfl) <;> revert h <;> decide
    all_goals (rintro rfl; revert h; decide)

theorem skipWs_cons {c : Char} {s : Str} (h : ¬ (c = ' ' ∨ c = '\n' ∨ c = '\t' ∨ c = '\r')) : skipWs (c :: s) = c :: s := by
  rw [skipWs, if_neg h]

/-- The text of a value starts with a character that is neither white space nor a closing bracket. -/
theorem toJson_head {F : Str → Prop} {fl : Str → Option Str} (hF : ∀ t, F t → FloatOk fl t) (v : Value) (hv : Proper F v) :
    ∃ c u, v.toJson = c :: u ∧ ¬ (c = ' ' ∨ c = '\n' ∨ c = '\t' ∨ c = '\r') ∧ c ≠ ']' ∧ c ≠ '}' := by
  cases v with
  | null => exact ⟨_, _, by rw [Value.toJson], by decide⟩
  | bool b => cases b <;> exact ⟨_, _, by rw [Value.toJson]; rfl, by decide⟩
  | int i =>
    obtain ⟨c, u, e, h⟩ := jsonInt_head i
    have := num_head_ne h
    exact ⟨c, u, by rw [Value.toJson, e], this.1, this.2.2.2.2.2.2.2.1, this.2.2.2.2.2.2.2.2⟩
  | float t =>
    rw [Proper] at hv
    obtain ⟨-, ⟨c, u, e, h⟩, -⟩ := hF t hv
    have := num_head_ne h
    exact ⟨c, u, by rw [Value.toJson, e], this.1, this.2.2.2.2.2.2.2.1, this.2.2.2.2.2.2.2.2⟩
  | str s => exact ⟨'"', _, by rw [Value.toJson]; rfl, by decide⟩
  | arr a => exact ⟨'[', _, by rw [Value.toJson], by decide⟩
  | obj o => exact ⟨'{', _, by rw [Value.toJson], by decide⟩

/-! ## Values -/

/-- Steps the reader needs. -/
def Value.steps (v : Value) : Nat := v.toJson.length + 1

theorem insert_new {k : Str} {x : Value} {o : List (Str × Value)} (h : k ∉ o.map Prod.fst) :
    Value.insert k x o = o ++ [(k, x)] := by
  induction o with
  | nil => rfl
  | cons p o ih =>
    obtain ⟨k', v⟩ := p
    simp only [List.map_cons, List.mem_cons, not_or] at h
    rw [Value.insert, if_neg (fun e => h.1 e.symm), ih h.2]
    rfl

theorem joinWith_cons (sep : Char) (s : Str) (l : List Str) :
    joinWith sep (s :: l) = s ++ (match l with | [] => [] | t :: l => sep :: joinWith sep (t :: l)) := by
  cases l with
  | nil => simp [joinWith]
  | cons t l => rw [joinWith]; simp

theorem parseVal_num {fl : Str → Option Str} {fuel depth : Nat} {s : Str} {c : Char} {t : Str} (e : s = c :: t)
    (h : c = '-' ∨ isDec c = true) : parseVal fl (fuel + 1) depth s = parseNum fl s := by
  subst e
  obtain ⟨h0, h1, h2, h3, h4, h5, h6, -⟩ := num_head_ne h
  rw [parseVal, skipWs_cons h0]
  simp only [h1, h2, h3, h4, h5, h6, if_false]

mutual

theorem parseVal_json {F : Str → Prop} {fl : Str → Option Str} (hF : ∀ t, F t → FloatOk fl t) :
    ∀ (v : Value), Proper F v → ∀ (fuel depth : Nat) (r : Str), v.toJson.length < fuel → nesting v < depth → Delim r →
      parseVal fl fuel depth (v.toJson ++ r) = some (v, r)
  | .null, _, fuel + 1, depth, r, _, _, _ => by
    simp [Value.toJson, parseVal, skipWs, dropPrefix]
  | .bool true, _, fuel + 1, depth, r, _, _, _ => by
    simp [Value.toJson, parseVal, skipWs, dropPrefix]
  | .bool false, _, fuel + 1, depth, r, _, _, _ => by
    simp [Value.toJson, parseVal, skipWs, dropPrefix]
  | .int i, hv, fuel + 1, depth, r, _, _, hr => by
    rw [Proper] at hv
    obtain ⟨c, u, e, h⟩ := jsonInt_head i
    rw [Value.toJson, parseVal_num (c := c) (t := u ++ r) (by rw [e]; rfl) h]
    exact parseNum_int fl i r hv hr
  | .float t, hv, fuel + 1, depth, r, _, _, hr => by
    rw [Proper] at hv
    obtain ⟨-, ⟨c, u, e, h⟩, h3⟩ := hF t hv
    rw [Value.toJson, parseVal_num (c := c) (t := u ++ r) (by rw [e]; rfl) h]
    exact h3 r hr
  | .str s, _, fuel + 1, depth, r, _, _, _ => by
    have e : (Value.str s).toJson ++ r = '"' :: (escStr s ++ '"' :: r) := by
      rw [Value.toJson, jsonStr]; simp
    rw [e, parseVal, skipWs_cons (by decide)]
    simp only
    rw [if_neg (by decide), if_neg (by decide), if_neg (by decide), if_pos trivial, parseStr_json]
    rfl
  | .arr a, hv, fuel + 1, depth, r, hf, hd, _ => by
    rw [Proper] at hv
    rw [nesting] at hd
    have e : (Value.arr a).toJson ++ r = '[' :: (joinWith ',' (Value.jsonArr a) ++ ']' :: r) := by
      rw [Value.toJson]; simp
    rw [Value.toJson] at hf
    simp only [List.length_cons, List.length_append, List.length_nil] at hf
    rw [e, parseVal, skipWs_cons (by decide)]
    simp only
    rw [if_neg (by decide), if_neg (by decide), if_neg (by decide), if_neg (by decide), if_pos trivial, if_neg (by omega)]
    cases a with
    | nil =>
      simp [Value.jsonArr, joinWith, skipWs]
    | cons v l =>
      have hv' := hv
      rw [ProperArr] at hv'
      obtain ⟨c, u, e2, h1, h2, -⟩ := toJson_head hF v hv'.1
      have e3 : ∃ u', joinWith ',' (Value.jsonArr (v :: l)) ++ ']' :: r = c :: u' := by
        rw [Value.jsonArr, joinWith_cons, e2]
        exact ⟨_, rfl⟩
      obtain ⟨u', e3⟩ := e3
      rw [if_neg]
      · rw [parseElems_json hF (v :: l) hv (by simp) fuel (depth - 1) r (by omega) (by omega)]
        rfl
      · rw [e3, skipWs_cons h1]
        simpa using h2
  | .obj o, hv, fuel + 1, depth, r, hf, hd, _ => by
    rw [Proper] at hv
    rw [nesting] at hd
    have e : (Value.obj o).toJson ++ r = '{' :: (joinWith ',' (Value.jsonObj o) ++ '}' :: r) := by
      rw [Value.toJson]; simp
    rw [Value.toJson] at hf
    simp only [List.length_cons, List.length_append, List.length_nil] at hf
    rw [e, parseVal, skipWs_cons (by decide)]
    simp only
    rw [if_neg (by decide), if_neg (by decide), if_neg (by decide), if_neg (by decide), if_neg (by decide), if_pos trivial,
      if_neg (by omega)]
    cases o with
    | nil =>
      simp [Value.jsonObj, joinWith, skipWs]
    | cons p l =>
      obtain ⟨k, v⟩ := p
      have e3 : ∃ u', joinWith ',' (Value.jsonObj ((k, v) :: l)) ++ '}' :: r = '"' :: u' := by
        rw [Value.jsonObj, joinWith_cons]
        exact ⟨_, rfl⟩
      obtain ⟨u', e3⟩ := e3
      rw [if_neg]
      · rw [parseEntries_json hF ((k, v) :: l) hv.2 (by simp) fuel (depth - 1) [] r (by simpa using hv.1) (by omega) (by omega)]
        rfl
      · rw [e3, skipWs_cons (by decide)]
        simp

theorem parseElems_json {F : Str → Prop} {fl : Str → Option Str} (hF : ∀ t, F t → FloatOk fl t) :
    ∀ (l : List Value), ProperArr F l → l ≠ [] → ∀ (fuel depth : Nat) (r : Str),
      (joinWith ',' (Value.jsonArr l)).length + 1 < fuel → nestingArr l < depth →
      parseElems fl fuel depth (joinWith ',' (Value.jsonArr l) ++ ']' :: r) = some (l, r)
  | v :: l, hv, _, fuel + 1, depth, r, hf, hd => by
    rw [ProperArr] at hv
    rw [nestingArr] at hd
    rw [Value.jsonArr, joinWith_cons] at hf ⊢
    rw [List.length_append] at hf
    rw [List.append_assoc, parseElems]
    cases l with
    | nil =>
      simp only [Value.jsonArr, List.nil_append]
      rw [parseVal_json hF v hv.1 fuel depth _ (by omega) (by omega) (delim_cons _ (by simp))]
      simp [skipWs]
    | cons w l =>
      rw [Value.jsonArr] at hf ⊢
      simp only [List.length_cons, List.cons_append] at hf ⊢
      rw [parseVal_json hF v hv.1 fuel depth _ (by omega) (by omega) (delim_cons _ (by simp))]
      simp only
      rw [skipWs_cons (by decide)]
      simp only [if_true]
      have := parseElems_json hF (w :: l) hv.2 (by simp) fuel depth r (by rw [Value.jsonArr]; omega) (by omega)
      rw [Value.jsonArr] at this
      rw [this]
      rfl

theorem parseEntries_json {F : Str → Prop} {fl : Str → Option Str} (hF : ∀ t, F t → FloatOk fl t) :
    ∀ (l : List (Str × Value)), ProperObj F l → l ≠ [] → ∀ (fuel depth : Nat) (o : List (Str × Value)) (r : Str),
      ((o ++ l).map Prod.fst).Nodup →
      (joinWith ',' (Value.jsonObj l)).length + 1 < fuel → nestingObj l < depth →
      parseEntries fl fuel depth o (joinWith ',' (Value.jsonObj l) ++ '}' :: r) = some (o ++ l, r)
  | (k, v) :: l, hv, _, fuel + 1, depth, o, r, hn, hf, hd => by
    rw [ProperObj] at hv
    rw [nestingObj] at hd
    have hk : k ∉ o.map Prod.fst := by
      rw [List.map_append, List.nodup_append] at hn
      intro h
      exact hn.2.2 k h k (by simp) rfl
    rw [Value.jsonObj, joinWith_cons] at hf ⊢
    rw [List.length_append, List.length_append, List.length_cons] at hf
    have e : ∀ u, (jsonStr k ++ ':' :: v.toJson ++ u) ++ '}' :: r =
        '"' :: (escStr k ++ '"' :: (':' :: (v.toJson ++ (u ++ '}' :: r)))) := by
      intro u; simp [jsonStr]
    rw [e, parseEntries, skipWs_cons (by decide)]
    simp only [if_true]
    rw [parseStr_json]
    simp only
    rw [skipWs_cons (by decide)]
    simp only [if_true]
    cases l with
    | nil =>
      simp only [Value.jsonObj, List.nil_append]
      rw [parseVal_json hF v hv.1 fuel depth _ (by omega) (by omega) (delim_cons _ (by simp))]
      simp [skipWs, insert_new hk]
    | cons w l =>
      obtain ⟨k', v'⟩ := w
      rw [Value.jsonObj] at hf ⊢
      simp only [List.length_cons, List.cons_append] at hf ⊢
      rw [parseVal_json hF v hv.1 fuel depth _ (by omega) (by omega) (delim_cons _ (by simp))]
      simp only
      rw [skipWs_cons (by decide)]
      simp only [if_true]
      rw [insert_new hk]
      have := parseEntries_json hF ((k', v') :: l) hv.2 (by simp) fuel depth (o ++ [(k, v)]) r (by simpa using hn)
        (by rw [Value.jsonObj]; omega) (by omega)
      rw [Value.jsonObj] at this
      rw [this]
      simp

end

theorem jsonParse_json {F : Str → Prop} {fl : Str → Option Str} (hF : ∀ t, F t → FloatOk fl t) {v : Value} (hv : Proper F v)
    {depth : Nat} (hd : nesting v < depth) : jsonParse fl depth v.toJson = .ok v := by
  unfold jsonParse
  have := parseVal_json hF v hv (v.toJson.length + 1) depth [] (by omega) hd delim_nil
  rw [List.append_nil] at this
  rw [this]
  rfl

mutual

theorem ofJson_self {F : Str → Prop} (hF : ∀ t, F t → '.' ∈ t) : ∀ (v : Value), Proper F v → v.ofJson = .ok v
  | .null, _ => by rw [Value.ofJson]
  | .bool b, _ => by rw [Value.ofJson]
  | .int i, h => by
    rw [Proper] at h
    rw [Value.ofJson, if_pos h.2]
  | .float t, h => by
    rw [Proper] at h
    rw [Value.ofJson, if_pos (hF t h)]
  | .str s, _ => by rw [Value.ofJson]
  | .arr a, h => by
    rw [Proper] at h
    rw [Value.ofJson, ofJsonArr_self hF a h]
    rfl
  | .obj o, h => by
    rw [Proper] at h
    rw [Value.ofJson, ofJsonObj_self hF o h.2 [] (by simpa using h.1)]
    rfl

theorem ofJsonArr_self {F : Str → Prop} (hF : ∀ t, F t → '.' ∈ t) : ∀ (l : List Value), ProperArr F l → Value.ofJsonArr l = .ok l
  | [], _ => by rw [Value.ofJsonArr]
  | v :: l, h => by
    rw [ProperArr] at h
    rw [Value.ofJsonArr, ofJson_self hF v h.1, Res.ok_bind, ofJsonArr_self hF l h.2]
    rfl

theorem ofJsonObj_self {F : Str → Prop} (hF : ∀ t, F t → '.' ∈ t) : ∀ (l : List (Str × Value)), ProperObj F l →
    ∀ m, ((m ++ l).map Prod.fst).Nodup → Value.ofJsonObj l m = .ok (m ++ l)
  | [], _, m, _ => by rw [Value.ofJsonObj, List.append_nil]
  | (k, v) :: l, h, m, hn => by
    rw [ProperObj] at h
    have hk : k ∉ m.map Prod.fst := by
      rw [List.map_append, List.nodup_append] at hn
      intro h
      exact hn.2.2 k h k (by simp) rfl
    rw [Value.ofJsonObj, ofJson_self hF v h.1, Res.ok_bind, insert_new hk, ofJsonObj_self hF l h.2 _ (by simpa using hn)]
    simp

end

theorem jsonRead_json {F : Str → Prop} {fl : Str → Option Str} (hF : ∀ t, F t → FloatOk fl t) {v : Value} (hv : Proper F v)
    (hd : nesting v ≤ 127) : jsonRead fl v.toJson = .ok v := by
  unfold jsonRead
  rw [jsonParse_json hF hv (by unfold jsonDepth; omega), Res.ok_bind]
  exact ofJson_self (fun t h => (hF t h).1) v hv

theorem toJson_inj {v w : Value} (hv : Plain v) (hw : Plain w) (h : v.toJson = w.toJson) : v = w := by
  have h1 := jsonParse_json (fl := fun _ => none) (fun _ h => h.elim) hv (depth := nesting v + nesting w + 1) (by omega)
  have h2 := jsonParse_json (fl := fun _ => none) (fun _ h => h.elim) hw (depth := nesting v + nesting w + 1) (by omega)
  rw [h, h2] at h1
  exact (Res.ok.inj h1).symm

end Keride
