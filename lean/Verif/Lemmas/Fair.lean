/-
Fair documents do not make the verification of key events and transaction events panic.
-/
import Verif.Spec.Fair
import Verif.Lemmas.Ingest
import Verif.Lemmas.Schemer
import Verif.Lemmas.Rests
import Verif.Props.Matter
import Verif.Props.Number
import Verif.Props.Tholder

namespace Keride

open Matter Spec Sample Saider

theorem Res.calm {α β : Type} {x : Res α} {f : α → Res β} (h1 : x ≠ .panic) (h2 : ∀ a, x = .ok a → f a ≠ .panic) :
    (x >>= f) ≠ .panic := by
  rw [ne_eq, Res.bind_eq_panic]
  rintro (h | ⟨a, ha, h⟩)
  · exact h1 h
  · exact h2 a ha h

theorem toStr_calm (v : Value) : v.toStr ≠ .panic := by cases v <;> simp [Value.toStr]
theorem toVec_calm (v : Value) : v.toVec ≠ .panic := by cases v <;> simp [Value.toVec]
theorem toMap_calm (v : Value) : v.toMap ≠ .panic := by cases v <;> simp [Value.toMap]

theorem index_calm {v : Value} {k : Str} (h : field k v ≠ none) : v.index k ≠ .panic := by
  cases v with
  | obj o =>
    rw [field_find] at h
    unfold Value.index
    dsimp only
    cases hf : Value.find k o with
    | none => exact absurd hf h
    | some x => simp
  | _ => exact absurd rfl h

theorem field_of_hasKey {o : List (Str × Value)} {k : Str} (h : Value.hasKey k o = true) : field k (.obj o) ≠ none := by
  rw [field_find]
  unfold Value.hasKey at h
  intro e
  rw [e] at h
  cases h

/-! ## Primitives -/

theorem tame_calm {s : Str} (h : Tame s) : Matter.newWithQb64 s ≠ .panic := by
  obtain ⟨hA, he, hd⟩ := h
  rw [ne_eq, Props.C11_ascii_partial s hA]
  rintro (⟨p, hp, t, rfl⟩ | ⟨p, hp, x, hx, y, hy, t, rfl⟩)
  · simp only [List.mem_cons, List.not_mem_nil, or_false] at hp
    rcases hp with rfl | rfl | rfl | rfl | rfl | rfl | rfl | rfl <;> exact absurd (hd _ rfl) (by decide)
  · exact he (by simp)

theorem tame_wf {s : Str} {m : M} (h : Tame s) (hm : Matter.newWithQb64 s = .ok m) : ∃ z, Wf m z := by
  obtain ⟨z, t, hw, -⟩ := exfil_wf hm h.2.1
  exact ⟨z, hw⟩

theorem wf_qb64 {m : M} (h : ∃ z, Wf m z) (chk : Bool) : ∃ q, qb64 chk m = .ok q := by
  obtain ⟨z, hw⟩ := h
  exact ⟨_, infil_wf chk hw⟩

theorem wf_qb64b {m : M} (h : ∃ z, Wf m z) (chk : Bool) : ∃ q, qb64b chk m = .ok q := by
  obtain ⟨q, hq⟩ := wf_qb64 h chk
  exact ⟨_, by rw [qb64b, hq, Res.ok_bind]⟩

theorem saiderOf_calm {s : Str} (h : Tame s) : Sadder.saiderOf s ≠ .panic := by
  unfold Sadder.saiderOf Saider.newWithQb64 Saider.new
  rw [if_neg (by simp)]
  refine Res.calm (tame_calm h) fun m _ => Res.calm ?_ fun _ _ => nofun
  unfold Saider.validateCode
  split <;> nofun

theorem verfer_calm {s : Str} (h : Tame s) : Verfer.new none none none (some s) none ≠ .panic := by
  unfold Verfer.new
  refine Res.calm (tame_calm h) fun m _ => Res.calm ?_ fun _ _ => nofun
  unfold Verfer.validateCode
  split <;> nofun

theorem diger_calm {s : Str} (h : Tame s) : Diger.new (fun _ _ => []) none none none none (some s) none ≠ .panic := by
  unfold Diger.new
  have := tame_calm h
  change (match Matter.newWithQb64 s with
    | .panic => .panic
    | .ok m => (Diger.validateCode m.code >>= fun _ => .ok m)
    | .err _ => .err .validation : Res M) ≠ .panic
  cases hm : Matter.newWithQb64 s with
  | panic => exact absurd hm this
  | err e => nofun
  | ok m =>
    refine Res.calm ?_ fun _ _ => nofun
    unfold Diger.validateCode
    split <;> nofun

theorem newE_calm (H : Hash) (b : Bytes) : Diger.newWithSer H b none ≠ .panic ∧ ∀ d, Diger.newWithSer H b none = .ok d → ∃ z, Wf d z := by
  have hn : (str% "E", 32) ∈ fixedCodes := by decide
  have e : Diger.newWithSer H b none = (Matter.new (some (str% "E")) (some (H (str% "E") b)) none none none) := by
    unfold Diger.newWithSer Diger.new
    rfl
  rw [e, new_digest hn]
  constructor
  · split <;> nofun
  · intro d h
    split at h
    · cases h
    · cases h
      exact wf_digest hn (by omega)

/-! ## Documents -/

theorem sniff_calm (raw : Bytes) : sniff raw ≠ .panic := by
  unfold sniff
  split
  · nofun
  refine Res.calm (fromUtf8_ne_panic _) fun text _ => ?_
  split
  · nofun
  · split
    · nofun
    · dsimp only
      refine Res.calm (parseUnsigned_ne_panic _ _ _) fun _ _ => Res.calm (parseUnsigned_ne_panic _ _ _) fun _ _ =>
        Res.calm (parseUnsigned_ne_panic _ _ _) fun _ _ => ?_
      split <;> nofun

theorem jsonParse_calm (fl : Str → Option Str) (n : Nat) (s : Str) : jsonParse fl n s ≠ .panic := by
  unfold jsonParse
  split
  · nofun
  · split <;> nofun

/-- A fair payload is read without panic. -/
theorem fairText_read {E : Env} {S : Scene} {text : Str} (h : FairText E S text) :
    Serder.newWithRaw E.fl (toUtf8 text) ≠ .panic ∧ Creder.newWithRaw E.fl (toUtf8 text) ≠ .panic := by
  have hin : ∀ r, Sadder.inhale E.fl (toUtf8 text) = .ok r → (field (str% "d") r.1 ≠ none ∧ ∀ d, field (str% "d") r.1 = some (.str d) → Tame d) ∧
      r.2.size ≤ (toUtf8 text).length := by
    intro r hr
    unfold Sadder.inhale at hr
    obtain ⟨info, hi, hr⟩ := Res.bind_eq_ok.mp hr
    split at hr
    · cases hr
    obtain ⟨v, hv, hr⟩ := Res.bind_eq_ok.mp hr
    cases hr
    have h1 := h.sized _ hi
    unfold loads at hv
    split at hv
    · obtain ⟨b, hb, hv⟩ := Res.bind_eq_ok.mp hv
      obtain ⟨s, hs, hv⟩ := Res.bind_eq_ok.mp hv
      unfold jsonRead at hv
      obtain ⟨w, hw, hv'⟩ := Res.bind_eq_ok.mp hv
      clear hv
      dsimp only at hb
      unfold Bytes.sliceTo at hb
      split at hb
      · cases hb
        have e := fromUtf8_ok hs
        obtain ⟨u, hu, -⟩ := utf8_prefix (s := text) (t := s) (b := (toUtf8 text).drop info.size) (by rw [← e, List.take_append_drop])
        have hl : s.len = info.size := by rw [← toUtf8_length, ← e, List.length_take]; omega
        obtain ⟨hp, hf⟩ := h.proper info s u w hi hu hl hw
        have ht := h.there info s u w hi hu hl hw
        rw [ofJson_self (fun _ h => h) w hp] at hv'
        cases hv'
        exact ⟨⟨ht, hf⟩, by rw [toUtf8_length]; exact h1⟩
      · cases hb
    · cases hv
  have hinp : Sadder.inhale E.fl (toUtf8 text) ≠ .panic := by
    unfold Sadder.inhale
    refine Res.calm (sniff_calm _) fun info hi => ?_
    split
    · nofun
    refine Res.calm ?_ fun _ _ => nofun
    have h1 := h.sized _ hi
    unfold loads
    split
    · dsimp only
      unfold Bytes.sliceTo
      rw [if_pos (by rw [toUtf8_length]; exact h1), Res.ok_bind]
      refine Res.calm (fromUtf8_ne_panic _) fun s hs => ?_
      unfold jsonRead
      refine Res.calm (jsonParse_calm _ _ _) fun w hw => ?_
      have e := fromUtf8_ok hs
      obtain ⟨u, hu, -⟩ := utf8_prefix (s := text) (t := s) (b := (toUtf8 text).drop info.size) (by rw [← e, List.take_append_drop])
      obtain ⟨hp, -⟩ := h.proper info s u w hi hu (by rw [← toUtf8_length, ← e, List.length_take, toUtf8_length]; omega) hw
      rw [ofJson_self (fun _ h => h) w hp]
      nofun
    · nofun
  have hpop : Sadder.populateFromRaw E.fl (str% "E") (toUtf8 text) ≠ .panic := by
    unfold Sadder.populateFromRaw
    refine Res.calm hinp fun r hr => ?_
    obtain ⟨hf, hl⟩ := hin r hr
    unfold Bytes.sliceTo
    rw [if_pos hl, Res.ok_bind]
    unfold Sadder.finish
    refine Res.calm (index_calm hf.1) fun d hd => Res.calm (toStr_calm _) fun t ht =>
      Res.calm (saiderOf_calm (hf.2 _ (index_text hd ht))) fun m _ => ?_
    split <;> nofun
  constructor
  · unfold Serder.newWithRaw Serder.new Sadder.new
    exact Res.calm hpop fun s _ => by split <;> nofun
  · unfold Creder.newWithRaw Creder.new Sadder.new
    exact Res.calm hpop fun s _ => by split <;> nofun

/-! ## Thresholds -/

section thold

open Tholder

theorem checkTexts_calm : ∀ l, checkTexts l ≠ .panic
  | [] => nofun
  | c :: l => by
    rw [checkTexts]
    refine Res.calm (toVec_calm c) fun ws _ => ?_
    split
    · exact checkTexts_calm l
    · nofun

theorem checkTexts_single {cs : List Value} (h : checkTexts [.arr cs] = .ok ()) : ∀ c ∈ cs, ∃ s, c = .str s := by
  rw [checkTexts] at h
  simp only [Value.toVec, Res.ok_bind] at h
  split at h
  · rename_i ha
    intro c hc
    have := List.all_eq_true.mp ha c hc
    cases c <;> simp [Value.toStr, Res.isOk] at this
    exact ⟨_, rfl⟩
  · cases h

theorem all_arrays {cs : List Value} (h : (cs.all fun c => c.toVec.isOk) = true) : ∃ css : List (List Value), cs = css.map Value.arr := by
  induction cs with
  | nil => exact ⟨[], rfl⟩
  | cons c cs ih =>
    rw [List.all_cons, Bool.and_eq_true] at h
    obtain ⟨css, rfl⟩ := ih h.2
    cases c <;> simp [Value.toVec, Res.isOk] at h
    exact ⟨_ :: css, rfl⟩

theorem parse_lengths {chk : Bool} : ∀ {css : List (List Value)} {rs : List (List Ratio)},
    Res.mapList (parseClause chk) (css.map Value.arr) = .ok rs → (rs.map List.length).sum = css.flatten.length := by
  intro css
  induction css with
  | nil => intro rs h; cases Res.mapList_ok.mp h; rfl
  | cons ws css ih =>
    intro rs h
    rw [List.map_cons] at h
    cases Res.mapList_ok.mp h with
    | cons h1 h2 =>
      have := ih (Res.mapList_ok.mpr h2)
      simp only [parseClause, Value.toVec, Res.ok_bind] at h1
      have hl := (Res.mapList_ok.mp h1).length_eq
      simp only [List.map_cons, List.sum_cons, List.flatten_cons, List.length_append]
      omega

theorem tholder_calm {chk : Bool} {json : Str → Res Value} {v : Value} {n : Nat} (h : FairThold chk (some v) n) :
    Tholder.new chk json none none (some v) ≠ .panic ∧ ∀ t, Tholder.new chk json none none (some v) = .ok t →
      ∀ idx : List Nat, (∀ i ∈ idx, i < n) → t.satisfy chk idx ≠ .panic := by
  have hp : processSith chk json v ≠ .panic ∧ ∀ t, processSith chk json v = .ok t → ∀ idx : List Nat, (∀ i ∈ idx, i < n) → t.satisfy chk idx ≠ .panic := by
    have hw : ∀ x t, processWeighted chk x = .ok t → (∀ rs, valuesToRationals chk x = .ok rs → n ≤ (rs.map List.length).sum ∧ (rs.map List.length).sum < 2 ^ 32) →
        (chk = true → ∃ qss, IsWeights x qss ∧ Small qss) → ∀ idx : List Nat, (∀ i ∈ idx, i < n) → t.satisfy chk idx ≠ .panic := by
      intro x t ht hr hsm idx hi
      obtain ⟨rs, h1, h2⟩ := processWeighted_wf ht
      obtain ⟨h3, h4⟩ := hr rs h1
      rw [satisfy_eq h2 h4 (fun i hm => Nat.lt_of_lt_of_le (hi i hm) h3)]
      cases chk with
      | false =>
        obtain ⟨b, hb⟩ := sumsOk_release (selectedAll_isW (indices := idx) rs 0 h2.isw)
        rw [hb]; nofun
      | true =>
        obtain ⟨qss, hq, hsm⟩ := hsm rfl
        rw [← values_isWeights hq h1] at hsm
        obtain ⟨b, hb⟩ := sumsOk_bounded (selectedAll_isW (indices := idx) rs 0 h2.isw) (small_selected h2.isw hsm)
        rw [hb]; nofun
    have pw : ∀ x, NoZeroOver x → (∀ cs rs, x = .arr cs → Res.mapList (parseClause chk) cs = .ok rs → (rs.map List.length).sum < 2 ^ 32) →
        (chk = true → ∃ qss, IsWeights x qss ∧ Small qss) → processWeighted chk x ≠ .panic := by
      intro x hz hr hsm
      cases chk with
      | false => exact processWeighted_release hz
      | true =>
        obtain ⟨qss, hq, hsm⟩ := hsm rfl
        refine processWeighted_small hq hsm ?_
        obtain ⟨cs, rs, rfl, h1, h2, -⟩ := parse_isWeights true hq
        rw [← h2, positions_vals]
        exact hr cs rs rfl h1
    have hu : ∀ i t, processUnweighted i = .ok t → ∀ idx : List Nat, t.satisfy chk idx ≠ .panic := by
      intro i t ht idx
      obtain ⟨k, -, -, m, -, rfl⟩ := processUnweighted_iff.mp ht
      unfold Tholder.satisfy satisfyNumeric
      simp [Value.toI64]
    cases v with
    | int i =>
      unfold processSith
      simp only [Value.toI64, Res.isOk, if_true, Res.ok_bind]
      exact ⟨processUnweighted_ne_panic _, fun t ht idx _ => hu i t ht idx⟩
    | str s =>
      have hs := h.text s rfl
      unfold processSith
      simp only [Value.toI64, Value.toStr, Res.isOk, if_true, Res.ok_bind, Bool.false_eq_true, if_false, hs]
      constructor
      · exact Res.calm Res.ofOption_ne_panic fun _ _ => processUnweighted_ne_panic _
      · intro t ht idx _
        obtain ⟨i, -, ht⟩ := Res.bind_eq_ok.mp ht
        exact hu i t ht idx
    | arr cs =>
      rw [processSith_arr, processList_arr]
      split
      · exact ⟨nofun, nofun⟩
      · split
        · rename_i ha
          rename_i hne
          obtain ⟨css, rfl⟩ := all_arrays ha
          have hsm : chk = true → ∃ qss, IsWeights (.arr (css.map Value.arr)) qss ∧ Small qss := by
            intro hc
            obtain ⟨qss, hq | ⟨cs', e, hq⟩, hs⟩ := h.small hc _ rfl
            · exact ⟨qss, hq, hs⟩
            · cases e
              cases hq with
              | cons h1 _ =>
                obtain ⟨ws, e, hf⟩ := h1
                cases e
                cases css with
                | nil => simp at hne
                | cons c css =>
                  cases hf with
                  | cons h2 _ =>
                    obtain ⟨_, e, -⟩ := h2
                    cases e
          constructor
          · refine Res.calm (checkTexts_calm _) fun _ _ => pw _ ?_ ?_ hsm
            · rintro cs' ws s e hws hs
              cases e
              exact h.zero _ s rfl (.inr ⟨ws, hws, hs⟩)
            · intro cs' rs e hm
              cases e
              rw [parse_lengths hm]
              exact (h.enough _ _ rfl (.inr ⟨css, rfl, rfl⟩)).2
          · intro t ht
            obtain ⟨-, -, ht⟩ := Res.bind_eq_ok.mp ht
            refine hw _ t ht (fun rs hr => ?_) hsm
            obtain ⟨cs, e, hm⟩ := mapList_parse_sub hr
            cases e
            rw [parse_lengths hm]
            exact h.enough _ _ rfl (.inr ⟨css, rfl, rfl⟩)
        · rename_i hne _
          have hsm : checkTexts [.arr cs] = .ok () → chk = true → ∃ qss, IsWeights (.arr [.arr cs]) qss ∧ Small qss := by
            intro hct hc
            obtain ⟨qss, ⟨cs', e, hq⟩ | hq, hs⟩ := h.small hc _ rfl
            · cases e
              cases hq with
              | nil => simp at hne
              | cons h1 _ =>
                obtain ⟨ws, rfl, -⟩ := h1
                obtain ⟨s, e⟩ := checkTexts_single hct (.arr ws) (by simp)
                cases e
            · exact ⟨qss, hq, hs⟩
          constructor
          · refine Res.calm (checkTexts_calm _) fun _ hct => pw _ ?_ ?_ (hsm hct)
            · rintro cs' ws s e hws hs
              cases e
              simp only [List.mem_singleton, Value.arr.injEq] at hws
              subst hws
              exact h.zero _ s rfl (.inl hs)
            · intro cs' rs e hm
              cases e
              have := parse_lengths (css := [cs]) hm
              rw [this]
              simp only [List.flatten_cons, List.flatten_nil, List.append_nil]
              exact (h.enough _ _ rfl (.inl ⟨checkTexts_single hct, rfl⟩)).2
          · intro t ht
            obtain ⟨u, hc, ht⟩ := Res.bind_eq_ok.mp ht
            refine hw _ t ht (fun rs hr => ?_) (hsm hc)
            obtain ⟨cs', e, hm⟩ := mapList_parse_sub hr
            cases e
            have := parse_lengths (css := [cs]) hm
            rw [this]
            simp only [List.flatten_cons, List.flatten_nil, List.append_nil]
            exact h.enough _ _ rfl (.inl ⟨checkTexts_single hc, rfl⟩)
    | _ => exact ⟨nofun, nofun⟩
  unfold Tholder.new
  simp only [Res.ok_bind]
  constructor
  · refine Res.calm hp.1 fun t _ => ?_
    split <;> nofun
  · intro t ht
    obtain ⟨t', h1, ht⟩ := Res.bind_eq_ok.mp ht
    split at ht
    · cases ht
    · cases ht
      exact hp.2 t h1

end thold

/-! ## Accessors of fair documents -/

section serder

variable {chk : Bool} {S : Scene} {s : Sad}

theorem pre_calm (h : FairDoc chk S s.ked) : Serder.pre s ≠ .panic := by
  unfold Serder.pre
  exact Res.calm (index_calm (h.there _ (by simp))) fun x _ => toStr_calm x

theorem est_calm (h : FairDoc chk S s.ked) : Serder.est s ≠ .panic := by
  unfold Serder.est
  exact Res.calm (index_calm (h.there _ (by simp))) fun x _ => Res.calm (toStr_calm x) fun _ _ => nofun

theorem ofNum_calm (n : Nat) : Number.ofNum n ≠ .panic := by
  have key : ∀ c k, (c, k) ∈ fixedCodes → ∀ b, newWithCodeAndRaw c b ≠ .panic := by
    intro c k hn b
    rw [new_fixed hn b]
    split <;> nofun
  unfold Number.ofNum
  split
  · exact key _ 2 (by decide) _
  · split
    · exact key _ 4 (by decide) _
    · split
      · exact key _ 8 (by decide) _
      · exact key _ 16 (by decide) _

theorem sn_calm (h : FairDoc chk S s.ked) : Serder.sn s ≠ .panic := by
  unfold Serder.sn Serder.sner
  refine Res.calm (Res.calm (index_calm (h.there _ (by simp))) fun x _ => Res.calm (toStr_calm x) fun t _ => ?_) fun m hm => ?_
  · unfold Number.new
    rw [if_pos (by simp)]
    refine Res.calm ?_ fun n _ => ofNum_calm n
    dsimp only
    split
    · nofun
    · exact parseUnsigned_ne_panic _ _ _
  · obtain ⟨x, -, hm⟩ := Res.bind_eq_ok.mp hm
    obtain ⟨t, -, hm⟩ := Res.bind_eq_ok.mp hm
    exact (Props.C24_no_panic_partial none (some t) none none none none none m nofun nofun nofun hm).1

theorem radixVal_lt {b : Nat} (hb : 0 < b) : ∀ {s : Str} {a n : Nat}, radixVal b a s = some n → n < (a + 1) * b ^ s.length
  | [], a, n, h => by cases h; simp
  | c :: cs, a, n, h => by
    rw [radixVal] at h
    split at h
    · rename_i d hd
      have h1 := radixVal_lt hb h
      have h2 : d < b := by
        unfold toDigit at hd
        dsimp only at hd
        generalize (if 48 ≤ c.toNat ∧ c.toNat ≤ 57 then c.toNat - 48 else if 97 ≤ c.toNat ∧ c.toNat ≤ 102 then c.toNat - 87
          else if 65 ≤ c.toNat ∧ c.toNat ≤ 70 then c.toNat - 55 else 16) = x at hd
        split at hd
        · cases hd; assumption
        · cases hd
      calc n < (a * b + d + 1) * b ^ cs.length := h1
        _ ≤ ((a + 1) * b) * b ^ cs.length := Nat.mul_le_mul_right _ (by rw [Nat.add_mul]; omega)
        _ = (a + 1) * b ^ (cs.length + 1) := by rw [Nat.pow_succ, Nat.mul_assoc, Nat.mul_comm b]
    · cases h

theorem sn_short (h : FairDoc chk S s.ked) (hc : chk = true) {n : Nat} (hn : Serder.sn s = .ok n) : n < 2 ^ 32 := by
  obtain ⟨t, m, hf, hm, hnum⟩ := (Props.C55_sn s n).mp hn
  have hl := h.short hc t hf
  unfold Number.newWithNumh Number.new at hm
  rw [if_pos (by simp)] at hm
  obtain ⟨k, hk, hm⟩ := Res.bind_eq_ok.mp hm
  have hlt : k < 2 ^ 32 := by
    dsimp only at hk
    split at hk
    · cases hk; norm_num
    · unfold parseUnsigned at hk
      split at hk
      · cases hk
      · split at hk
        · rename_i x hx
          split at hk
          · cases hk
            have h1 := radixVal_lt (by decide) hx
            have h2 : (stripPlus t).length ≤ 8 := by
              cases t with
              | nil => simp [stripPlus]
              | cons c t =>
                rw [stripPlus]
                simp only [List.length_cons] at hl
                split
                · omega
                · simp only [List.length_cons]; omega
            calc k < (0 + 1) * 16 ^ (stripPlus t).length := h1
              _ ≤ 16 ^ 8 := by rw [Nat.zero_add, Nat.one_mul]; exact Nat.pow_le_pow_right (by decide) h2
              _ = 2 ^ 32 := by norm_num
          · cases hk
        · cases hk
  obtain ⟨m', h1, h2, -⟩ := Props.C23_lossless true k (by omega)
  have : m' = m := by
    have e : Number.newWithNum k = Number.ofNum k := rfl
    rw [e, hm] at h1
    exact (Res.ok.inj h1).symm
  rw [this, hnum] at h2
  cases h2
  exact hlt

theorem readAll_calm {f : Str → Res M} {l : List Value} (h : ∀ t, Value.str t ∈ l → f t ≠ .panic) : Serder.readAll f l ≠ .panic := by
  intro hp
  unfold Serder.readAll at hp
  obtain ⟨a, ha, hp⟩ := Res.mapList_panic hp
  cases a with
  | str t => exact h t ha hp
  | _ => cases hp

theorem readAll_out {f : Str → Res M} {l : List Value} {r : List M} (h : Serder.readAll f l = .ok r)
    (hf : ∀ t m, Value.str t ∈ l → f t = .ok m → ∃ z, Wf m z) : r.length = l.length ∧ ∀ m ∈ r, ∃ z, Wf m z := by
  unfold Serder.readAll at h
  have h2 := Res.mapList_ok.mp h
  refine ⟨h2.length_eq.symm, fun m hm => ?_⟩
  obtain ⟨i, hi⟩ := List.mem_iff_getElem?.mp hm
  have hl := h2.length_eq
  obtain ⟨hi', rfl⟩ := List.getElem?_eq_some_iff.mp hi
  have := h2.get (i := i) (by omega) hi'
  obtain ⟨t, ht, hft⟩ := Res.bind_eq_ok.mp this
  refine hf t _ ?_ hft
  rw [← toStr_ok ht]
  exact List.get_mem _ _

theorem verfer_wf {t : Str} {m : M} (ht : Tame t) (h : Verfer.new none none none (some t) none = .ok m) : ∃ z, Wf m z := by
  unfold Verfer.new at h
  obtain ⟨m', hm, h⟩ := Res.bind_eq_ok.mp h
  obtain ⟨-, -, h⟩ := Res.bind_eq_ok.mp h
  cases h
  exact tame_wf ht hm

theorem diger_wf {t : Str} {m : M} (ht : Tame t) (h : Diger.new (fun _ _ => []) none none none none (some t) none = .ok m) : ∃ z, Wf m z := by
  unfold Diger.new at h
  change (match Matter.newWithQb64 t with
    | .panic => .panic
    | .ok m => (Diger.validateCode m.code >>= fun _ => .ok m)
    | .err _ => .err .validation : Res M) = _ at h
  cases hm : Matter.newWithQb64 t with
  | panic => rw [hm] at h; cases h
  | err e => rw [hm] at h; cases h
  | ok m' =>
    rw [hm] at h
    obtain ⟨-, -, h⟩ := Res.bind_eq_ok.mp h
    cases h
    exact tame_wf ht hm

theorem verfers_calm (h : FairDoc chk S s.ked) : Serder.verfers s ≠ .panic := by
  unfold Serder.verfers
  refine Res.calm (toMap_calm _) fun map hm => ?_
  split
  · rename_i hk
    have ho : s.ked = .obj map := by cases hs : s.ked <;> rw [hs] at hm <;> cases hm; rfl
    refine Res.calm (index_calm (by rw [ho]; exact field_of_hasKey hk)) fun k hk => ?_
    cases k with
    | arr l => 
      refine readAll_calm fun t ht => verfer_calm (h.keys l t ?_ ht)
      rw [ho, field_find]; rw [ho] at hk; exact index_ok hk
    | _ => nofun
  · nofun

theorem verfers_out (h : FairDoc chk S s.ked) {l : List M} (hl : Serder.verfers s = .ok l) :
    l.length = entries (field (str% "k") s.ked) ∧ ∀ m ∈ l, ∃ z, Wf m z := by
  unfold Serder.verfers at hl
  obtain ⟨map, hm, hl⟩ := Res.bind_eq_ok.mp hl
  have ho : s.ked = .obj map := by cases hs : s.ked <;> rw [hs] at hm <;> cases hm; rfl
  split at hl
  · obtain ⟨k, hk, hl⟩ := Res.bind_eq_ok.mp hl
    have hf : field (str% "k") s.ked = some k := by rw [ho, field_find]; rw [ho] at hk; exact index_ok hk
    rw [hf]
    cases k with
    | arr a => exact readAll_out hl fun t m ht hm => verfer_wf (h.keys a t hf ht) hm
    | _ => cases hl; exact ⟨rfl, nofun⟩
  · rename_i hk
    cases hl
    have : field (str% "k") s.ked = none := by
      rw [ho, field_find]
      unfold Value.hasKey at hk
      cases hf : Value.find (str% "k") map with
      | none => rfl
      | some x => rw [hf] at hk; simp at hk
    rw [this]
    exact ⟨rfl, nofun⟩

theorem digers_calm (h : FairDoc chk S s.ked) : Serder.digers s ≠ .panic := by
  unfold Serder.digers
  refine Res.calm (toMap_calm _) fun map hm => ?_
  split
  · rename_i hk
    have ho : s.ked = .obj map := by cases hs : s.ked <;> rw [hs] at hm <;> cases hm; rfl
    refine Res.calm (index_calm (by rw [ho]; exact field_of_hasKey hk)) fun k hk => ?_
    cases k with
    | arr l => 
      refine readAll_calm fun t ht => diger_calm (h.next l t ?_ ht)
      rw [ho, field_find]; rw [ho] at hk; exact index_ok hk
    | _ => nofun
  · nofun

theorem digers_out (h : FairDoc chk S s.ked) {l : List M} (hl : Serder.digers s = .ok l) :
    l.length = entries (field (str% "n") s.ked) ∧ ∀ m ∈ l, ∃ z, Wf m z := by
  unfold Serder.digers at hl
  obtain ⟨map, hm, hl⟩ := Res.bind_eq_ok.mp hl
  have ho : s.ked = .obj map := by cases hs : s.ked <;> rw [hs] at hm <;> cases hm; rfl
  split at hl
  · obtain ⟨k, hk, hl⟩ := Res.bind_eq_ok.mp hl
    have hf : field (str% "n") s.ked = some k := by rw [ho, field_find]; rw [ho] at hk; exact index_ok hk
    rw [hf]
    cases k with
    | arr a => exact readAll_out hl fun t m ht hm => diger_wf (h.next a t hf ht) hm
    | _ => cases hl; exact ⟨rfl, nofun⟩
  · rename_i hk
    cases hl
    have : field (str% "n") s.ked = none := by
      rw [ho, field_find]
      unfold Value.hasKey at hk
      cases hf : Value.find (str% "n") map with
      | none => rfl
      | some x => rw [hf] at hk; simp at hk
    rw [this]
    exact ⟨rfl, nofun⟩

theorem tholderAt_calm {fl : Str → Option Str} {l : Str} {n : Nat} (h : FairThold chk (field l s.ked) n) :
    Serder.tholderAt chk fl l s ≠ .panic ∧ ∀ t, Serder.tholderAt chk fl l s = .ok (some t) →
      ∀ idx : List Nat, (∀ i ∈ idx, i < n) → t.satisfy chk idx ≠ .panic := by
  unfold Serder.tholderAt
  constructor
  · refine Res.calm (toMap_calm _) fun map hm => ?_
    have ho : s.ked = .obj map := by cases hs : s.ked <;> rw [hs] at hm <;> cases hm; rfl
    split
    · rename_i hk
      refine Res.calm (index_calm (by rw [ho]; exact field_of_hasKey hk)) fun v hv => Res.calm ?_ fun _ _ => nofun
      have hf : field l s.ked = some v := by rw [ho, field_find]; rw [ho] at hv; exact index_ok hv
      rw [hf] at h
      exact (tholder_calm h).1
    · nofun
  · intro t ht
    obtain ⟨map, hm, ht⟩ := Res.bind_eq_ok.mp ht
    have ho : s.ked = .obj map := by cases hs : s.ked <;> rw [hs] at hm <;> cases hm; rfl
    split at ht
    · obtain ⟨v, hv, ht⟩ := Res.bind_eq_ok.mp ht
      obtain ⟨t', ht', ht⟩ := Res.bind_eq_ok.mp ht
      cases ht
      have hf : field l s.ked = some v := by rw [ho, field_find]; rw [ho] at hv; exact index_ok hv
      rw [hf] at h
      exact (tholder_calm h).2 t ht'
    · cases ht

end serder

/-! ## Prefixes and SAIDs -/

/-- The SAID of what is read: the first 44 characters of `d`. -/
theorem populated_said {fl : Str → Option Str} {raw : Bytes} {s : Sad} (h1 : Sadder.populateFromRaw fl (str% "E") raw = .ok s)
    (hf : ∀ d, field (str% "d") s.ked = some (.str d) → Tame d) :
    ((∃ z, Wf s.saider z) ∧ s.saider.code = str% "E") ∧ ∃ d, field (str% "d") s.ked = some (.str d) ∧ ∀ chk, qb64 chk s.saider = .ok (d.take 44) := by
  unfold Sadder.populateFromRaw at h1
  obtain ⟨r, -, h1⟩ := Res.bind_eq_ok.mp h1
  obtain ⟨b, -, h1⟩ := Res.bind_eq_ok.mp h1
  unfold Sadder.finish at h1
  obtain ⟨d, hd, h1⟩ := Res.bind_eq_ok.mp h1
  obtain ⟨t, ht, h1⟩ := Res.bind_eq_ok.mp h1
  obtain ⟨m, hm, h1⟩ := Res.bind_eq_ok.mp h1
  split at h1
  · cases h1
  rename_i hc
  cases h1
  have htm := hf t (index_text hd ht)
  obtain ⟨hm1, -⟩ := saiderOf_ok hm
  have hc := (not_ne_iff.mp hc).symm
  refine ⟨⟨tame_wf htm hm1, hc⟩, t, index_text hd ht, fun chk => ?_⟩
  obtain ⟨z, u, hw, e⟩ := exfil_wf hm1 htm.2.1
  have hl : (b64Text (sx m z)).length = 44 := by
    have hz := hw.row
    rw [hc] at hz
    cases hz
    rw [b64Text_length, sx_length hw]
    rfl
  have hq : qb64 chk m = .ok (b64Text (sx m z)) := infil_wf chk hw
  dsimp only
  rw [hq, e, List.take_append_of_le_length (by omega), List.take_of_length_le (by omega)]

theorem saidOf_wf {fl : Str → Option Str} {raw : Bytes} {s : Sad} {chk : Bool} {S : Scene} (h : Serder.newWithRaw fl raw = .ok s) (hf : FairDoc chk S s.ked) :
    (∃ z, Wf s.saider z) ∧ s.saider.code = str% "E" :=
  (populated_said (Props.serder_raw.mp (h : Serder.new fl none (some raw) none none none = .ok s)).1 fun d hd => hf.tame (str% "d") (by simp) d hd).1

theorem serialize_calm (o : List (Str × Value)) (kind : Option Str) : Saider.serialize (.obj o) kind ≠ .panic := by
  unfold Saider.serialize
  refine Res.calm (toMap_calm _) fun map hm => Res.calm ?_ fun k _ => ?_
  · cases hm
    split
    · rename_i hk
      exact Res.calm (index_calm (field_of_hasKey hk)) fun v _ => Res.calm (toStr_calm v) fun t _ => Res.calm (deversify_ne_panic t) fun _ _ => nofun
    · nofun
  · unfold dumps
    split <;> nofun

theorem saider_verify_calm {H : Hash} {chk : Bool} {m : M} {o : List (Str × Value)} (hw : ∃ z, Wf m z) (hc : m.code ∈ digestCodes) (kind : Option Str) :
    Saider.verify H chk m (.obj o) (some false) (some true) kind none none ≠ .panic := by
  obtain ⟨n, hn, -⟩ := digest_rows _ hc
  have hd : ∀ d, Saider.derive H (.obj o) (some m.code) kind (some (str% "d")) none = .ok d →
      ∃ o2, d.2 = .obj o2 ∧ (Value.hasKey (str% "v") o = true → Value.hasKey (str% "v") o2 = true) := by
    intro d hd
    rw [derive_eq H hc] at hd
    obtain ⟨⟨k, x⟩, hp, hf⟩ := Res.bind_eq_ok.mp hd
    obtain ⟨o2, rfl, -, -, -, hv⟩ := prep_ok hp
    unfold Saider.finish at hf
    obtain ⟨_, -, hf⟩ := Res.bind_eq_ok.mp hf
    obtain ⟨_, -, hf⟩ := Res.bind_eq_ok.mp hf
    obtain ⟨_, -, hf⟩ := Res.bind_eq_ok.mp hf
    cases hf
    refine ⟨o2, rfl, fun hk => ?_⟩
    rcases hv with ⟨h1, -, -⟩ | ⟨_, _, _, _, -, -, -, rfl⟩
    · exfalso
      unfold Value.hasKey at h1 hk
      rw [find_insert_ne (by decide)] at h1
      rw [h1] at hk
      cases hk
    · unfold Value.hasKey
      rw [find_insert_self]
      rfl
  have hdp : Saider.derive H (.obj o) (some m.code) kind (some (str% "d")) none ≠ .panic := by
    rw [derive_eq H hc]
    refine Res.calm ?_ fun p hp => ?_
    · unfold prep
      split
      · exact Res.calm (sizeify_ne_panic _ _) fun _ _ => nofun
      · nofun
    · obtain ⟨k, x⟩ := p
      obtain ⟨o2, rfl, -⟩ := prep_ok hp
      unfold Saider.finish
      refine Res.calm (toMap_calm _) fun map _ => Res.calm (serialize_calm _ _) fun b _ => Res.calm ?_ fun _ _ => nofun
      unfold hashDigest
      split <;> nofun
  unfold Saider.verify
  dsimp only
  change (match Saider.derive H (.obj o) (some m.code) kind (some (str% "d")) none with
    | .panic => .panic
    | .err _ => .ok false
    | .ok d =>
      match Saider.new H none none none none (some m.code) (some d.1) none none none with
      | .panic => .panic
      | .err _ => .ok false
      | .ok saider => Saider.verifyCompare chk m saider (.obj o) d.2 false true (str% "d") : Res Bool) ≠ .panic
  cases hdd : Saider.derive H (.obj o) (some m.code) kind (some (str% "d")) none with
  | panic => exact absurd hdd hdp
  | err e => nofun
  | ok d =>
    obtain ⟨o2, ho2, hv⟩ := hd d hdd
    have hnew : Saider.new H none none none none (some m.code) (some d.1) none none none = Matter.new (some m.code) (some d.1) none none none := by
      have hvc : Saider.validateCode m.code = .ok () := by unfold Saider.validateCode; rw [if_pos (by simpa using hc)]
      unfold Saider.new
      rw [if_pos (by simp)]
      simp only [hvc, Res.ok_bind]
    dsimp only
    rw [hnew, new_digest hn]
    by_cases hl : d.1.length < n
    · rw [if_pos hl]
      nofun
    rw [if_neg hl, ho2]
    change Saider.verifyCompare chk m ⟨m.code, 0, d.1.take n⟩ (.obj o) (.obj o2) false true (str% "d") ≠ .panic
    obtain ⟨q1, h1⟩ := wf_qb64 hw chk
    obtain ⟨q2, h2⟩ := wf_qb64 (wf_digest hn (Nat.le_of_not_lt hl)) chk
    unfold Saider.verifyCompare
    rw [h1, Res.ok_bind, h2, Res.ok_bind]
    split
    · nofun
    · refine Res.calm ?_ fun same _ => ?_
      · rw [if_pos rfl]
        refine Res.calm (toMap_calm _) fun map hm => ?_
        cases hm
        split
        · rename_i hk
          exact Res.calm (index_calm (field_of_hasKey hk)) fun v _ => Res.calm (toStr_calm v) fun _ _ =>
            Res.calm (index_calm (field_of_hasKey (hv hk))) fun w _ => Res.calm (toStr_calm w) fun _ _ => nofun
        · nofun
      · split
        · nofun
        · rw [if_neg (by simp)]
          nofun

/-! ## Verification of prefixes -/

theorem badPrefix_calm (o : List (Str × Value)) (pre : Str) (b : Bool) : Prefixer.badPrefix (.obj o) o pre b ≠ .panic := by
  unfold Prefixer.badPrefix
  split
  · split
    · nofun
    · rename_i hk
      exact Res.calm (index_calm (field_of_hasKey (by simpa using hk))) fun v _ => Res.calm (toStr_calm v) fun _ _ => nofun
  · nofun

theorem keyCheck_calm (o : List (Str × Value)) (pre : Str) (b : Bool) : Prefixer.keyCheck (.obj o) o pre b ≠ .panic := by
  unfold Prefixer.keyCheck
  split
  · nofun
  · rename_i hk
    refine Res.calm (index_calm (field_of_hasKey (by simpa using hk))) fun v _ => Res.calm (toVec_calm v) fun l _ => ?_
    split
    · nofun
    · rename_i hl
      cases l with
      | nil => simp at hl
      | cons x l =>
        refine Res.calm (x := Res.orPanic (some x)) nofun fun y _ => Res.calm (toStr_calm _) fun t _ => ?_
        split
        · nofun
        · exact Res.calm (badPrefix_calm o pre b) fun _ _ => nofun

theorem prefixer_verify_calm {H : Hash} {chk : Bool} {m : M} {o : List (Str × Value)} (hw : ∃ z, Wf m z) (ht : field (str% "t") (.obj o) ≠ none) :
    Prefixer.verify H chk m (.obj o) (some true) ≠ .panic := by
  obtain ⟨q, hq⟩ := wf_qb64 hw chk
  unfold Prefixer.verify
  dsimp only
  refine Res.calm (index_calm ht) fun v _ => Res.calm (toStr_calm v) fun t _ => ?_
  rw [hq]
  split
  · nofun
  · split
    · rw [Res.ok_bind]
      unfold Prefixer.verifyNontransferable
      refine Res.calm (toMap_calm _) fun map hm => ?_
      cases hm
      refine Res.calm (keyCheck_calm o q _) fun g _ => ?_
      split
      · nofun
      · split
        · rename_i hk
          refine Res.calm (index_calm (field_of_hasKey hk)) fun v _ => ?_
          cases v <;> nofun
        · nofun
    · split
      · rw [Res.ok_bind]
        unfold Prefixer.verifyTransferable
        refine Res.calm (toMap_calm _) fun map hm => ?_
        cases hm
        exact keyCheck_calm o q _
      · split
        · rename_i hc
          have hc' : m.code ∈ digestCodes := by simpa using hc
          obtain ⟨n, hn, -⟩ := digest_rows _ hc'
          rw [Res.ok_bind]
          unfold Prefixer.verifyDigest
          rw [Prefixer.deriveDigest_eq hc']
          refine Res.calm (Res.calm (sizeify_ne_panic _ _) fun _ _ => nofun) fun p hp => ?_
          obtain ⟨r, -, hp⟩ := Res.bind_eq_ok.mp hp
          cases hp
          by_cases hl : (H m.code r.raw).length < n
          · have e : Diger.new H none (some m.code) (some (H m.code r.raw)) none none none = .err .validation := by
              unfold Diger.new
              rw [new_digest hn, if_pos hl]
            dsimp only
            rw [e]
            nofun
          · have e : Diger.new H none (some m.code) (some (H m.code r.raw)) none none none = .ok ⟨m.code, 0, (H m.code r.raw).take n⟩ := by
              unfold Diger.new
              rw [new_digest hn, if_neg hl]
              dsimp only
              unfold Diger.validateCode
              rw [if_pos hc, Res.ok_bind]
            obtain ⟨q2, h2⟩ := wf_qb64 (wf_digest hn (Nat.le_of_not_lt hl)) chk
            dsimp only
            rw [e, Res.ok_bind, h2, Res.ok_bind]
            split
            · nofun
            · refine Res.calm (toMap_calm _) fun map hm => ?_
              cases hm
              exact Res.calm (badPrefix_calm o q _) fun _ _ => nofun
        · nofun

/-! ## Key events -/

section kel

variable {S : Scene} {E : Env} {s : Sad}

theorem ok_calm {α : Type} (x : α) : Res.ok x ≠ .panic := nofun

theorem subU32_calm {chk : Bool} {n : Nat} (h1 : 1 ≤ n) (h2 : chk = true → n < 2 ^ 32) : subU32 chk (n % 2 ^ 32) 1 ≠ .panic := by
  unfold subU32
  by_cases h : 1 ≤ n % 2 ^ 32
  · rw [if_pos h]
    exact ok_calm _
  · rw [if_neg h]
    cases chk with
    | false =>
      rw [if_neg Bool.false_ne_true]
      exact ok_calm _
    | true =>
      rw [Nat.mod_eq_of_lt (h2 rfl)] at h
      exact absurd h1 h

/-- A list of keys or digests with its threshold: none of them makes a function panic. -/
structure Fit (chk : Bool) (r : List M × Tholder) : Prop where
  wf : ∀ m ∈ r.1, ∃ z, Wf m z
  sat : ∀ idx : List Nat, (∀ i ∈ idx, i < r.1.length) → r.2.satisfy chk idx ≠ .panic

theorem keysOf_calm (h : FairDoc E.chk S s.ked) : keysOf E s ≠ .panic ∧ ∀ r, keysOf E s = .ok r →
    Fit E.chk r ∧ r.1.length = entries (field (str% "k") s.ked) := by
  obtain ⟨h1, h2⟩ := tholderAt_calm (fl := E.fl) h.thold
  unfold keysOf Serder.tholder
  constructor
  · refine Res.calm h1 fun t _ => ?_
    cases t with
    | none => nofun
    | some t => exact Res.calm (verfers_calm h) fun _ _ => nofun
  · intro r hr
    obtain ⟨t, ht, hr⟩ := Res.bind_eq_ok.mp hr
    cases t with
    | none => cases hr
    | some t =>
      obtain ⟨v, hv, hr⟩ := Res.bind_eq_ok.mp hr
      cases hr
      obtain ⟨hl, hw⟩ := verfers_out h hv
      exact ⟨⟨hw, fun idx hi => h2 t ht idx (by rw [← hl]; exact hi)⟩, hl⟩

theorem default_calm (chk : Bool) (idx : List Nat) : Tholder.default.satisfy chk idx ≠ .panic := by
  unfold Tholder.satisfy Tholder.default
  simp

theorem nextOf_calm (h : FairDoc E.chk S s.ked) : nextOf E s ≠ .panic ∧ ∀ r, nextOf E s = .ok r → Fit E.chk r := by
  obtain ⟨h1, h2⟩ := tholderAt_calm (fl := E.fl) h.nthold
  unfold nextOf Serder.ntholder
  constructor
  · exact Res.calm (digers_calm h) fun _ _ => Res.calm h1 fun t _ => nofun
  · intro r hr
    obtain ⟨d, hd, hr⟩ := Res.bind_eq_ok.mp hr
    obtain ⟨t, ht, hr⟩ := Res.bind_eq_ok.mp hr
    cases hr
    obtain ⟨hl, hw⟩ := digers_out h hd
    refine ⟨hw, fun idx hi => ?_⟩
    cases t with
    | none => exact default_calm _ _
    | some t => exact h2 t ht idx (by rw [← hl]; exact hi)

theorem latest_fair {st : Store} (hs : FairStore E S st) {pre : Str} {n : Nat} {raw : Str} (h : st.getLatestEst E.fl pre n = .ok raw) :
    ∃ s, Serder.newWithRaw E.fl (toUtf8 raw) = .ok s ∧ FairDoc E.chk S s.ked ∧ Serder.est s = .ok true := by
  have h1 := getLatestEst_ok h
  unfold latestEst at h1
  have hm : raw ∈ st.kels pre := List.mem_of_mem_take (List.mem_reverse.mp (List.mem_of_find?_eq_some h1))
  obtain ⟨s, -, -, -, hr, -, hf, -⟩ := hs.kels pre raw hm
  refine ⟨s, hr, hf, ?_⟩
  have h2 := List.find?_some h1
  unfold isEst at h2
  rw [hr, Res.ok_bind] at h2
  cases he : Serder.est s with
  | ok b => rw [he] at h2; exact congrArg Res.ok h2
  | err e => rw [he] at h2; cases h2
  | panic => rw [he] at h2; cases h2

theorem est_count (h : FairDoc E.chk S s.ked) (he : Serder.est s = .ok true) : S.keys (entries (field (str% "k") s.ked)) := by
  obtain ⟨t, ht, e⟩ := (Props.C55_est s true).mp he
  exact h.count ⟨t, of_decide_eq_true e.symm, ht⟩

theorem keysInForce_calm {st : Store} (hs : FairStore E S st) (h : FairDoc E.chk S s.ked) (pre : Str) {sn : Nat}
    (h0 : Serder.est s = .ok true ∨ 1 ≤ sn) (hlt : E.chk = true → sn < 2 ^ 32) :
    keysInForce E st s pre sn ≠ .panic ∧ ∀ r, keysInForce E st s pre sn = .ok r → Fit E.chk r ∧ S.keys r.1.length := by
  unfold keysInForce
  constructor
  · refine Res.calm (est_calm h) fun b hb => ?_
    split
    · exact (keysOf_calm h).1
    · rename_i hne
      have h1 : 1 ≤ sn := h0.resolve_left fun e => hne (by rw [hb] at e; exact Res.ok.inj e)
      refine Res.calm (subU32_calm h1 hlt) fun i _ => Res.calm Res.ofOption_ne_panic fun raw hraw => ?_
      obtain ⟨x, hx, hf, -⟩ := latest_fair hs hraw
      rw [hx, Res.ok_bind]
      exact (keysOf_calm hf).1
  · intro r hr
    obtain ⟨b, hb, hr⟩ := Res.bind_eq_ok.mp hr
    split at hr
    · rename_i hbt
      obtain ⟨h1, h2⟩ := (keysOf_calm h).2 r hr
      exact ⟨h1, by rw [h2]; exact est_count h (by rw [hb, hbt])⟩
    · obtain ⟨i, -, hr⟩ := Res.bind_eq_ok.mp hr
      obtain ⟨raw, hraw, hr⟩ := Res.bind_eq_ok.mp hr
      obtain ⟨x, hx, hf, he⟩ := latest_fair hs hraw
      rw [hx, Res.ok_bind] at hr
      obtain ⟨h1, h2⟩ := (keysOf_calm hf).2 r hr
      exact ⟨h1, by rw [h2]; exact est_count hf he⟩

theorem verfer_verify_calm {C : Crypto} (hC : ∀ c pk sig ser, C.verify c pk sig ser ≠ .panic) (m : M) (sig ser : Bytes) :
    Verfer.verify C m sig ser ≠ .panic := by
  unfold Verfer.verify signVerify
  refine Res.calm ?_ fun _ _ => Res.calm Res.ofOption_ne_panic fun c _ => hC _ _ _ _
  unfold Verfer.validateCode
  split <;> nofun

theorem verifySigers_calm {C : Crypto} (hC : ∀ c pk sig ser, C.verify c pk sig ser ≠ .panic) {ks : List M} {ser : Bytes} : ∀ {l : List Siger},
    (∀ x ∈ l, x.i.index ≠ ks.length) → verifySigers C ks ser l ≠ .panic ∧ ∀ r, verifySigers C ks ser l = .ok r → ∀ p ∈ r, p.1 < ks.length
  | [], _ => ⟨nofun, fun r hr => by cases hr; nofun⟩
  | x :: l, h => by
    obtain ⟨h1, h2⟩ := verifySigers_calm hC (ser := ser) (fun y hy => h y (List.mem_cons_of_mem _ hy) : ∀ y ∈ l, y.i.index ≠ ks.length)
    have hx := h x List.mem_cons_self
    rw [verifySigers]
    by_cases hlt : ks.length < x.i.index
    · rw [if_pos hlt]
      exact ⟨nofun, nofun⟩
    rw [if_neg hlt]
    have hlt' : x.i.index < ks.length := by omega
    rw [List.getElem?_eq_getElem hlt']
    constructor
    · exact Res.calm (x := Res.orPanic (some _)) nofun fun v _ => Res.calm (verfer_verify_calm hC _ _ _) fun _ _ => Res.calm h1 fun _ _ => nofun
    · intro r hr
      obtain ⟨v, -, hr⟩ := Res.bind_eq_ok.mp hr
      obtain ⟨g, -, hr⟩ := Res.bind_eq_ok.mp hr
      obtain ⟨r', hr', hr⟩ := Res.bind_eq_ok.mp hr
      cases hr
      split
      · intro p hp
        rcases List.mem_cons.mp hp with rfl | hp
        · exact hlt'
        · exact h2 r' hr' p hp
      · exact h2 r' hr'

theorem verifyGroups_calm {C : Crypto} (hC : ∀ c pk sig ser, C.verify c pk sig ser ≠ .panic) {ks : List M} {ser : Bytes} : ∀ {l : List SigGroup},
    (∀ sigs, SigGroup.controller sigs ∈ l → ∀ x ∈ sigs, x.i.index ≠ ks.length) → verifyGroups C ks ser l ≠ .panic ∧
      ∀ r, verifyGroups C ks ser l = .ok r → ∀ p ∈ r, p.1 < ks.length
  | [], _ => ⟨nofun, fun r hr => by cases hr; nofun⟩
  | .controller sigs :: l, h => by
    obtain ⟨h1, h2⟩ := verifyGroups_calm hC (ser := ser) (fun y hy => h y (List.mem_cons_of_mem _ hy) : ∀ y, SigGroup.controller y ∈ l → ∀ x ∈ y, x.i.index ≠ ks.length)
    obtain ⟨h3, h4⟩ := verifySigers_calm hC (ser := ser) (h sigs List.mem_cons_self)
    rw [verifyGroups]
    constructor
    · exact Res.calm h3 fun _ _ => Res.calm h1 fun _ _ => nofun
    · intro r hr
      obtain ⟨a, ha, hr⟩ := Res.bind_eq_ok.mp hr
      obtain ⟨b, hb, hr⟩ := Res.bind_eq_ok.mp hr
      cases hr
      intro p hp
      rcases List.mem_append.mp hp with hp | hp
      · exact h4 a ha p hp
      · exact h2 b hb p hp
  | .sadPath _ :: l, _ => ⟨nofun, nofun⟩
  | .other :: l, _ => ⟨nofun, nofun⟩

theorem priorIndices_calm {ds ks : List M} (hd : ∀ m ∈ ds, ∃ z, Wf m z) (hk : ∀ m ∈ ks, ∃ z, Wf m z) : ∀ {l : List (Nat × Nat)},
    (∀ p ∈ l, p.1 < ks.length) → priorIndices E ds ks l ≠ .panic ∧ ∀ r, priorIndices E ds ks l = .ok r → ∀ i ∈ r, i < ds.length
  | [], _ => ⟨nofun, fun r hr => by cases hr; nofun⟩
  | (i, j) :: l, h => by
    obtain ⟨h1, h2⟩ := priorIndices_calm hd hk (fun y hy => h y (List.mem_cons_of_mem _ hy) : ∀ p ∈ l, p.1 < ks.length)
    have hi : i < ks.length := h _ List.mem_cons_self
    rw [priorIndices]
    by_cases hj : j < ds.length
    · rw [if_pos hj, List.getElem?_eq_getElem hi, List.getElem?_eq_getElem hj]
      obtain ⟨q, hq⟩ := wf_qb64b (hk _ (List.getElem_mem hi)) E.chk
      obtain ⟨u, hu⟩ := wf_qb64 (hd _ (List.getElem_mem hj)) E.chk
      have e1 : ∀ x : M, Res.orPanic (some x) = .ok x := fun _ => rfl
      rw [e1, e1]
      simp only [Res.ok_bind, hq, hu]
      constructor
      · refine Res.calm (Res.calm (newE_calm E.H q).1 fun d hdd => ?_) fun _ _ => Res.calm h1 fun _ _ => nofun
        obtain ⟨t, ht⟩ := wf_qb64 ((newE_calm E.H q).2 d hdd) E.chk
        rw [ht]
        nofun
      · intro r hr
        obtain ⟨a, ha, hr⟩ := Res.bind_eq_ok.mp hr
        obtain ⟨b, hb, hr⟩ := Res.bind_eq_ok.mp hr
        cases hr
        obtain ⟨d, -, ha⟩ := Res.bind_eq_ok.mp ha
        obtain ⟨t, -, ha⟩ := Res.bind_eq_ok.mp ha
        cases ha
        intro p hp
        rcases List.mem_append.mp hp with hp | hp
        · split at hp
          · rw [List.mem_singleton.mp hp]; exact hj
          · cases hp
        · exact h2 b hb p hp
    · rw [if_neg hj, Res.ok_bind]
      constructor
      · exact Res.calm h1 fun _ _ => nofun
      · intro r hr
        obtain ⟨b, hb, hr⟩ := Res.bind_eq_ok.mp hr
        cases hr
        exact h2 b hb

theorem said_calm {fl : Str → Option Str} {raw : Bytes} (h : Serder.newWithRaw fl raw = .ok s) (hf : FairDoc E.chk S s.ked) (chk : Bool) :
    Sadder.said chk s ≠ .panic := by
  obtain ⟨q, hq⟩ := wf_qb64 (saidOf_wf h hf).1 chk
  unfold Sadder.said
  rw [hq]
  nofun

theorem checkPrior_calm {st : Store} (hs : FairStore E S st) (h : FairDoc E.chk S s.ked) (hp : field (str% "p") s.ked ≠ none)
    (pre : Str) {sn : Nat} (h0 : 1 ≤ sn) (hlt : E.chk = true → sn < 2 ^ 32) {ks : List M} (hk : ∀ m ∈ ks, ∃ z, Wf m z) {v : List (Nat × Nat)} (hv : ∀ p ∈ v, p.1 < ks.length) :
    checkPrior E st s pre sn ks v ≠ .panic := by
  unfold checkPrior
  refine Res.calm (subU32_calm h0 hlt) fun i _ => Res.calm Res.ofOption_ne_panic fun event hev => ?_
  obtain ⟨ps, -, -, -, hr, -, hf, -⟩ := hs.kels pre event (getKeyEvent_mem hev)
  rw [hr, Res.ok_bind]
  refine Res.calm (said_calm hr hf _) fun psaid _ => Res.calm (index_calm hp) fun x _ => Res.calm (toStr_calm x) fun p _ => ?_
  split
  · nofun
  · refine Res.calm (est_calm h) fun b _ => ?_
    split
    · refine Res.calm (est_calm hf) fun pb _ => ?_
      have key : (if pb = true then nextOf E ps else do
          let j ← subU32 E.chk (sn % 2 ^ 32) 1
          let raw ← st.getLatestEst E.fl pre j
          let s ← Serder.newWithRaw E.fl (toUtf8 raw)
          nextOf E s : Res (List M × Tholder)) ≠ .panic ∧ ∀ r, (if pb = true then nextOf E ps else do
          let j ← subU32 E.chk (sn % 2 ^ 32) 1
          let raw ← st.getLatestEst E.fl pre j
          let s ← Serder.newWithRaw E.fl (toUtf8 raw)
          nextOf E s : Res (List M × Tholder)) = .ok r → Fit E.chk r := by
        split
        · exact nextOf_calm hf
        · constructor
          · refine Res.calm (subU32_calm h0 hlt) fun i _ => Res.calm Res.ofOption_ne_panic fun raw hraw => ?_
            obtain ⟨y, hy, hyf, -⟩ := latest_fair hs hraw
            rw [hy, Res.ok_bind]
            exact (nextOf_calm hyf).1
          · intro r hr
            obtain ⟨j, -, hr⟩ := Res.bind_eq_ok.mp hr
            obtain ⟨raw, hraw, hr⟩ := Res.bind_eq_ok.mp hr
            obtain ⟨y, hy, hyf, -⟩ := latest_fair hs hraw
            rw [hy, Res.ok_bind] at hr
            exact (nextOf_calm hyf).2 r hr
      refine Res.calm key.1 fun next hn => ?_
      have hfit := key.2 next hn
      obtain ⟨h1, h2⟩ := priorIndices_calm (E := E) hfit.wf hk hv
      refine Res.calm h1 fun idx hidx => Res.calm (hfit.sat idx (h2 idx hidx)) fun g _ => ?_
      split <;> nofun
    · nofun

theorem prefixer_new {H : Hash} {t : Str} : Prefixer.newWithQb64 H t = Matter.newWithQb64 t := rfl

theorem place_calm {st : Store} {raw : Bytes} {m : M} (hr : Serder.newWithRaw E.fl raw = .ok s) (h : FairDoc E.chk S s.ked) (hw : ∃ z, Wf m z)
    (pre : Str) (sn : Nat) (ilk said : Str) : place E st s m pre sn ilk said ≠ .panic := by
  have ho : ∃ o, s.ked = .obj o := by
    have := h.there (str% "d") (by simp)
    cases hk : s.ked with
    | obj o => exact ⟨o, rfl⟩
    | _ => rw [hk] at this; exact absurd rfl this
  obtain ⟨o, ho⟩ := ho
  have ht := h.there (str% "t") (by simp)
  unfold place
  dsimp only
  rw [ho] at ht ⊢
  split
  · refine Res.calm (prefixer_verify_calm hw ht) fun g _ => ?_
    split
    · nofun
    · split
      · nofun
      · refine Res.calm (pre_calm h) fun p _ => ?_
        split <;> nofun
  · obtain ⟨h1, h2⟩ := saidOf_wf hr h
    refine Res.calm (saider_verify_calm h1 (by rw [h2]; decide) none) fun g _ => ?_
    split
    · nofun
    · split
      · nofun
      · split <;> nofun

end kel

end Keride
