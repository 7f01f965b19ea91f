/-
The JSON reader returns no more text than it reads.
-/
import Verif.Model.Json
import Mathlib.Data.List.Basic

namespace Keride

mutual

/-- The number of characters of the texts in a value. -/
def vlen : Value → Nat
  | .str s => s.length
  | .arr l => vlenArr l
  | .obj o => vlenObj o
  | _ => 0

def vlenArr : List Value → Nat
  | [] => 0
  | v :: l => vlen v + vlenArr l

def vlenObj : List (Str × Value) → Nat
  | [] => 0
  | (k, v) :: l => k.length + vlen v + vlenObj l

end

theorem skipWs_length (s : Str) : (skipWs s).length ≤ s.length := by
  induction s with
  | nil => simp [skipWs]
  | cons c s ih =>
    rw [skipWs]
    split
    · simp; omega
    · simp

theorem hex4_length {s r : Str} {n : Nat} (h : hex4 s = some (n, r)) : r.length + 4 = s.length := by
  unfold hex4 at h
  split at h
  · split at h
    · cases h; simp
    · cases h
  · cases h

theorem uEscape_length {s r : Str} {c : Char} (h : uEscape s = some (c, r)) : r.length + 1 ≤ s.length := by
  unfold uEscape at h
  split at h
  · cases h
  · rename_i h1
    have := hex4_length h1
    split at h
    · split at h
      · split at h
        · cases h
        · rename_i h2
          have := hex4_length h2
          split at h
          · have h := congrArg Prod.snd (Option.some.inj h)
            dsimp only at h
            subst h
            simp only [List.length_cons] at *
            omega
          · cases h
      · cases h
    · split at h
      · cases h
      · have h := congrArg Prod.snd (Option.some.inj h)
        dsimp only at h
        subst h
        omega

theorem parseStrBody_length : ∀ (f : Nat) (s t r : Str), parseStrBody f s = some (t, r) → t.length + r.length + 1 ≤ s.length := by
  intro f
  induction f with
  | zero => intro s t r h; cases h
  | succ f ih =>
    intro s t r h
    cases s with
    | nil => cases h
    | cons c s =>
      unfold parseStrBody at h
      split at h
      · cases h; simp
      · split at h
        · cases s with
          | nil => cases h
          | cons e s =>
            dsimp only at h
            split at h
            · split at h
              · cases h
              · rename_i h1
                have := uEscape_length h1
                cases h2 : parseStrBody f ‹_› with
                | none => rw [h2] at h; cases h
                | some p =>
                  rw [h2] at h
                  cases h
                  have := ih _ _ _ h2
                  simp
                  omega
            · split at h
              · cases h
              · cases h2 : parseStrBody f s with
                | none => rw [h2] at h; cases h
                | some p =>
                  rw [h2] at h
                  cases h
                  have := ih _ _ _ h2
                  simp
                  omega
        · split at h
          · cases h
          · cases h2 : parseStrBody f s with
            | none => rw [h2] at h; cases h
            | some p =>
              rw [h2] at h
              cases h
              have := ih _ _ _ h2
              simp
              omega

theorem spanDec_length (s : Str) : (spanDec s).2.length ≤ s.length := by
  unfold spanDec
  exact (List.dropWhile_suffix _).length_le

theorem numFrac_length {s f r : Str} (h : numFrac s = some (f, r)) : r.length ≤ s.length := by
  unfold numFrac at h
  split at h
  · cases h; simp
  · rename_i c s
    split at h
    · split at h
      · cases h
      · cases h
        have := spanDec_length s
        simp
        omega
    · cases h; simp

theorem numExp_length {s f r : Str} (h : numExp s = some (f, r)) : r.length ≤ s.length := by
  unfold numExp at h
  split at h
  · cases h; simp
  · rename_i c s
    split at h
    · dsimp only at h
      generalize (if s.head? = some '+' ∨ s.head? = some '-' then s.take 1 else []) = sg at h
      split at h
      · cases h
      · cases h
        have := spanDec_length (s.drop sg.length)
        simp at *
        omega
    · cases h; simp

theorem parseNum_length {fl : Str → Option Str} {s r : Str} {v : Value} (h : parseNum fl s = some (v, r)) :
    vlen v + r.length ≤ s.length := by
  unfold parseNum at h
  dsimp only at h
  generalize hn : (if decide (s.head? = some '-') = true then s.drop 1 else s) = s' at h
  have hs : s'.length ≤ s.length := by rw [← hn]; split <;> simp
  split at h
  · cases h
  · split at h
    · cases h
    · split at h
      · cases h
      · rename_i h1
        split at h
        · cases h
        · rename_i h2
          have := numFrac_length h1
          have := numExp_length h2
          have := spanDec_length s'
          split at h
          · cases h
            rw [vlen]
            · omega
            all_goals simp
          · cases hf : fl _ with
            | none => rw [hf] at h; cases h
            | some t =>
              rw [hf] at h
              cases h
              rw [vlen]
              · omega
              all_goals simp

theorem dropPrefix_length : ∀ (p s r : Str), dropPrefix p s = some r → r.length ≤ s.length := by
  intro p
  induction p with
  | nil => intro s r h; cases h; simp
  | cons c p ih =>
    intro s r h
    cases s with
    | nil => cases h
    | cons d s =>
      rw [dropPrefix] at h
      split at h
      · have := ih _ _ h
        simp
        omega
      · cases h

theorem vlen_insert (k : Str) (v : Value) (o : List (Str × Value)) : vlenObj (Value.insert k v o) ≤ vlenObj o + k.length + vlen v := by
  induction o with
  | nil => simp [Value.insert, vlenObj]
  | cons e o ih =>
    obtain ⟨k', v'⟩ := e
    rw [Value.insert]
    split
    · simp [vlenObj]; omega
    · simp [vlenObj]; omega

theorem parse_length (fl : Str → Option Str) : ∀ f,
    (∀ d s v r, parseVal fl f d s = some (v, r) → vlen v + r.length ≤ s.length) ∧
    (∀ d s l r, parseElems fl f d s = some (l, r) → vlenArr l + r.length ≤ s.length) ∧
    (∀ d o s o' r, parseEntries fl f d o s = some (o', r) → vlenObj o' + r.length ≤ vlenObj o + s.length) := by
  intro f
  induction f with
  | zero =>
    refine ⟨?_, ?_, ?_⟩
    · intro d s v r h; simp [parseVal] at h
    · intro d s v r h; simp [parseElems] at h
    · intro d o s v r h; simp [parseEntries] at h
  | succ f ih =>
    obtain ⟨ih1, ih2, ih3⟩ := ih
    refine ⟨?_, ?_, ?_⟩
    · intro d s v r h
      rw [parseVal] at h
      have h0 := skipWs_length s
      cases hs : skipWs s with
      | nil => rw [hs] at h; cases h
      | cons c t =>
        rw [hs] at h
        rw [hs] at h0
        simp only [List.length_cons] at h0
        dsimp only at h
        have word : ∀ w x, x = (.null : Value) ∨ (∃ b, x = .bool b) → (dropPrefix w t).map (fun r => (x, r)) = some (v, r) → vlen v + r.length ≤ s.length := by
          intro w x hx hw
          cases hd : dropPrefix w t with
          | none => rw [hd] at hw; cases hw
          | some q =>
            rw [hd] at hw
            cases hw
            have := dropPrefix_length _ _ _ hd
            rcases hx with rfl | ⟨b, rfl⟩ <;> simp [vlen] <;> omega
        split at h
        · exact word _ _ (.inl rfl) h
        split at h
        · exact word _ _ (.inr ⟨_, rfl⟩) h
        split at h
        · exact word _ _ (.inr ⟨_, rfl⟩) h
        split at h
        · cases hd : parseStrBody (t.length + 1) t with
          | none => rw [hd] at h; cases h
          | some q =>
            rw [hd] at h
            cases h
            have := parseStrBody_length _ _ _ _ hd
            simp [vlen]
            omega
        split at h
        · split at h
          · cases h
          split at h
          · cases h
            have := skipWs_length t
            simp [vlen, vlenArr]
            omega
          · cases hd : parseElems fl f (d - 1) t with
            | none => rw [hd] at h; cases h
            | some q =>
              rw [hd] at h
              cases h
              have := ih2 _ _ _ _ hd
              simp [vlen]
              omega
        split at h
        · split at h
          · cases h
          split at h
          · cases h
            have := skipWs_length t
            simp [vlen, vlenObj]
            omega
          · cases hd : parseEntries fl f (d - 1) [] t with
            | none => rw [hd] at h; cases h
            | some q =>
              rw [hd] at h
              cases h
              have := ih3 _ _ _ _ _ hd
              simp [vlen, vlenObj] at *
              omega
        · have := parseNum_length h
          simp at this
          omega
    · intro d s l r h
      rw [parseElems] at h
      cases h1 : parseVal fl f d s with
      | none => rw [h1] at h; cases h
      | some p =>
        obtain ⟨v, r1⟩ := p
        rw [h1] at h
        dsimp only at h
        have e1 := ih1 _ _ _ _ h1
        have e2 := skipWs_length r1
        cases h2 : skipWs r1 with
        | nil => rw [h2] at h; cases h
        | cons c r2 =>
          rw [h2] at h e2
          simp only [List.length_cons] at e2
          dsimp only at h
          split at h
          · cases hd : parseElems fl f d r2 with
            | none => rw [hd] at h; cases h
            | some q =>
              rw [hd] at h
              cases h
              have := ih2 _ _ _ _ hd
              simp [vlenArr]
              omega
          split at h
          · cases h
            simp [vlenArr]
            omega
          · cases h
    · intro d o s o' r h
      rw [parseEntries] at h
      have e0 := skipWs_length s
      cases h0 : skipWs s with
      | nil => rw [h0] at h; cases h
      | cons c s1 =>
        rw [h0] at h e0
        simp only [List.length_cons] at e0
        dsimp only at h
        split at h
        · cases h1 : parseStrBody (s1.length + 1) s1 with
          | none => rw [h1] at h; cases h
          | some p =>
            obtain ⟨k, r1⟩ := p
            rw [h1] at h
            dsimp only at h
            have e1 := parseStrBody_length _ _ _ _ h1
            have e2 := skipWs_length r1
            cases h2 : skipWs r1 with
            | nil => rw [h2] at h; cases h
            | cons c r2 =>
              rw [h2] at h e2
              simp only [List.length_cons] at e2
              dsimp only at h
              split at h
              · cases h3 : parseVal fl f d r2 with
                | none => rw [h3] at h; cases h
                | some p =>
                  obtain ⟨v, r3⟩ := p
                  rw [h3] at h
                  dsimp only at h
                  have e3 := ih1 _ _ _ _ h3
                  have e4 := skipWs_length r3
                  have e5 := vlen_insert k v o
                  cases h4 : skipWs r3 with
                  | nil => rw [h4] at h; cases h
                  | cons c r4 =>
                    rw [h4] at h e4
                    simp only [List.length_cons] at e4
                    dsimp only at h
                    split at h
                    · have := ih3 _ _ _ _ _ h
                      omega
                    split at h
                    · cases h
                      omega
                    · cases h
              · cases h
        · cases h

theorem ofJson_vlen : ∀ v : Value, (∀ x, v.ofJson = .ok x → vlen x ≤ vlen v) := by
  intro v
  refine Value.rec (motive_1 := fun v => ∀ x, v.ofJson = .ok x → vlen x ≤ vlen v)
    (motive_2 := fun l => ∀ x, Value.ofJsonArr l = .ok x → vlenArr x ≤ vlenArr l)
    (motive_3 := fun o => ∀ m x, Value.ofJsonObj o m = .ok x → vlenObj x ≤ vlenObj m + vlenObj o)
    (motive_4 := fun p => ∀ x, p.2.ofJson = .ok x → vlen x ≤ vlen p.2) ?_ ?_ ?_ ?_ ?_ ?_ ?_ ?_ ?_ ?_ ?_ ?_ v
  · intro x h; simp [Value.ofJson] at h; subst h; simp [vlen]
  · intro b x h; simp [Value.ofJson] at h; subst h; simp [vlen]
  · intro i x h
    rw [Value.ofJson] at h
    split at h
    · cases h; simp [vlen]
    · cases h
  · intro i x h
    rw [Value.ofJson] at h
    split at h
    · cases h; simp [vlen]
    · cases h
  · intro s x h; simp [Value.ofJson] at h; subst h; simp [vlen]
  · intro l ih x h
    rw [Value.ofJson] at h
    obtain ⟨y, hy, h⟩ := Res.bind_eq_ok.mp h
    cases h
    simpa [vlen] using ih _ hy
  · intro l ih x h
    rw [Value.ofJson] at h
    obtain ⟨y, hy, h⟩ := Res.bind_eq_ok.mp h
    cases h
    simpa [vlen, vlenObj] using ih _ _ hy
  · intro x h; simp [Value.ofJsonArr] at h; subst h; simp [vlenArr]
  · intro a l ih1 ih2 x h
    rw [Value.ofJsonArr] at h
    obtain ⟨y, hy, h⟩ := Res.bind_eq_ok.mp h
    obtain ⟨z, hz, h⟩ := Res.bind_eq_ok.mp h
    cases h
    have := ih1 _ hy
    have := ih2 _ hz
    simp [vlenArr]
    omega
  · intro m x h; simp [Value.ofJsonObj] at h; subst h; simp [vlenObj]
  · rintro ⟨k, a⟩ l ih1 ih2 m x h
    rw [Value.ofJsonObj] at h
    obtain ⟨y, hy, h⟩ := Res.bind_eq_ok.mp h
    have := ih1 _ hy
    have := ih2 _ _ h
    have := vlen_insert k y m
    simp [vlenObj] at *
    omega
  · intro k v ih x h
    exact ih x h

/-- A text field of a document is not longer than the document. -/
theorem jsonRead_text {fl : Str → Option Str} {s k t : Str} {o : List (Str × Value)} (h : jsonRead fl s = .ok (.obj o))
    (hf : Value.find k o = some (.str t)) : t.length ≤ s.length := by
  unfold jsonRead jsonParse at h
  obtain ⟨v, hv, h⟩ := Res.bind_eq_ok.mp h
  cases hp : parseVal fl (s.length + 1) jsonDepth s with
  | none => rw [hp] at hv; cases hv
  | some p =>
    obtain ⟨v', r⟩ := p
    rw [hp] at hv
    dsimp only at hv
    split at hv
    · cases hv
      have h1 := (parse_length fl _).1 _ _ _ _ hp
      have h2 := ofJson_vlen _ _ h
      rw [vlen] at h2
      have h3 : ∀ o : List (Str × Value), Value.find k o = some (.str t) → t.length ≤ vlenObj o := by
        intro o
        induction o with
        | nil => intro h; cases h
        | cons e o ih =>
          obtain ⟨k', v'⟩ := e
          intro h
          rw [Value.find] at h
          split at h
          · cases h; simp [vlenObj, vlen]; omega
          · have := ih h; simp [vlenObj]; omega
      have := h3 o hf
      omega
    · cases hv

theorem nodup_insert (k : Str) (v : Value) (o : List (Str × Value)) (h : (o.map Prod.fst).Nodup) :
    ((Value.insert k v o).map Prod.fst).Nodup := by
  have key : ∀ o : List (Str × Value), ∀ x, x ∈ (Value.insert k v o).map Prod.fst → x = k ∨ x ∈ o.map Prod.fst := by
    intro o
    induction o with
    | nil => intro x hx; left; simpa [Value.insert] using hx
    | cons e o ih =>
      obtain ⟨k', v'⟩ := e
      intro x hx
      rw [Value.insert] at hx
      split at hx
      · right; simpa using hx
      · rw [List.map_cons, List.mem_cons] at hx
        rcases hx with rfl | hx
        · right; simp
        · rcases ih x hx with h | h
          · exact .inl h
          · right; rw [List.map_cons]; exact List.mem_cons_of_mem _ h
  induction o with
  | nil => simp [Value.insert]
  | cons e o ih =>
    obtain ⟨k', v'⟩ := e
    rw [List.map_cons, List.nodup_cons] at h
    rw [Value.insert]
    split
    · rw [List.map_cons, List.nodup_cons]; exact h
    · rename_i hk
      rw [List.map_cons, List.nodup_cons]
      refine ⟨?_, ih h.2⟩
      intro hx
      rcases key _ _ hx with h' | h'
      · exact hk h'
      · exact h.1 h'

/-- An object that was read has no key twice. -/
theorem jsonRead_nodup {fl : Str → Option Str} {s : Str} {o : List (Str × Value)} (h : jsonRead fl s = .ok (.obj o)) :
    (o.map Prod.fst).Nodup := by
  unfold jsonRead at h
  obtain ⟨v, -, h⟩ := Res.bind_eq_ok.mp h
  have key : ∀ (l m : List (Str × Value)) x, Value.ofJsonObj l m = .ok x → (m.map Prod.fst).Nodup → (x.map Prod.fst).Nodup := by
    intro l
    induction l with
    | nil => intro m x h hm; simp [Value.ofJsonObj] at h; subst h; exact hm
    | cons e l ih =>
      obtain ⟨k, a⟩ := e
      intro m x h hm
      rw [Value.ofJsonObj] at h
      obtain ⟨y, -, h⟩ := Res.bind_eq_ok.mp h
      exact ih _ _ h (nodup_insert _ _ _ hm)
  cases v with
  | obj l =>
    rw [Value.ofJson] at h
    obtain ⟨y, hy, h⟩ := Res.bind_eq_ok.mp h
    cases h
    exact key _ _ _ hy (by simp)
  | arr l =>
    rw [Value.ofJson] at h
    obtain ⟨y, hy, h⟩ := Res.bind_eq_ok.mp h
    cases h
  | int i => rw [Value.ofJson] at h; split at h <;> cases h
  | float i => rw [Value.ofJson] at h; split at h <;> cases h
  | _ => simp [Value.ofJson] at h

end Keride
