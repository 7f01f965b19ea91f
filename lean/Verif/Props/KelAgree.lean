/-
C57: logs of one identifier that share an event share everything before it.
-/
import Verif.Lemmas.Agree
import Verif.Props.Kel

namespace Keride.Props

open Matter Spec Sample

section
variable {H : Hash} {C : Crypto} {chk : Bool} {fl : Str → Option Str} {pre : Str}

/-- A log cut after an event is a log. -/
theorem ValidLog.cut {a b log : List Entry} {e : Entry} (h : ValidLog H C chk fl pre log) (hl : log = a ++ e :: b) :
    ValidLog H C chk fl pre (a ++ [e]) := by
  induction h generalizing b with
  | incept x keys t sigs type ident sn said fields digest own threshold signed =>
    have : a = [] ∧ b = [] ∧ x = e := by
      cases a with
      | nil => simpa [and_comm] using hl
      | cons y a => simp at hl
    obtain ⟨rfl, rfl, rfl⟩ := this
    exact .incept x keys t sigs type ident sn said fields digest own threshold signed
  | rotate log x prev est psaid keys digests t n sigs before type ident sn fields digest last prior chained own threshold signed latest next
      nextThreshold committed ih =>
    rcases List.eq_nil_or_concat b with rfl | ⟨b', y, rfl⟩
    · rw [← hl]
      exact .rotate log x prev est psaid keys digests t n sigs before type ident sn fields digest last prior chained own threshold signed latest next
        nextThreshold committed
    · rw [List.concat_eq_append, ← List.cons_append, ← List.append_assoc] at hl
      exact ih (List.append_inj_left' hl rfl)
  | interact log x prev est psaid keys t sigs before type ident sn fields digest last prior chained latest own threshold signed ih =>
    rcases List.eq_nil_or_concat b with rfl | ⟨b', y, rfl⟩
    · rw [← hl]
      exact .interact log x prev est psaid keys t sigs before type ident sn fields digest last prior chained latest own threshold signed
    · rw [List.concat_eq_append, ← List.cons_append, ← List.append_assoc] at hl
      exact ih (List.append_inj_left' hl rfl)

end

/-- The event at a place of a log has the place for its sequence number. -/
theorem ValidLog.numbers {H : Hash} {C : Crypto} {chk : Bool} {fl : Str → Option Str} {pre : Str} {log : List Entry} (h : ValidLog H C chk fl pre log) :
    ∀ i e, log[i]? = some e → Serder.sn e.sad = .ok i := by
  have last : ∀ (log : List Entry) (e : Entry), (∀ i e, log[i]? = some e → Serder.sn e.sad = .ok i) → Serder.sn e.sad = .ok log.length →
      ∀ i x, (log ++ [e])[i]? = some x → Serder.sn x.sad = .ok i := by
    intro log e ih he i x hx
    by_cases hi : i < log.length
    · rw [List.getElem?_append_left hi] at hx
      exact ih i x hx
    · have : i = log.length := by
        have := (List.getElem?_eq_some_iff.mp hx).1
        rw [List.length_append, List.length_singleton] at this
        omega
      subst this
      rw [List.getElem?_concat_length] at hx
      cases hx
      exact he
  induction h with
  | incept e keys t sigs type ident sn => exact last [] e (fun i e h => by cases h) sn
  | rotate log e prev est psaid keys digests t n sigs before type ident sn fields digest _ prior chained own threshold signed latest next nextThreshold committed ih =>
    exact last log e ih sn
  | interact log e prev est psaid keys t sigs before type ident sn fields digest _ prior chained latest own threshold signed ih => exact last log e ih sn

/-- C57: when two valid logs of an identifier contain events with the same SAID, those events are at the same place and
they and all before them agree in every field but their own SAID and version string; or the texts digested for two of these events are
different and have the same digest. -/
theorem C57_agree (H : Hash) (C : Crypto) (chk : Bool) (fl : Str → Option Str) (pre : Str) (a b a' b' : List Entry) (e e' : Entry)
    (h : ValidLog H C chk fl pre (a ++ e :: b)) (h' : ValidLog H C chk fl pre (a' ++ e' :: b'))
    (ho : ∀ x ∈ a ++ [e] ++ (a' ++ [e']), Ordinary x.sad) (q : Str) (hq : Sadder.said chk e.sad = .ok q) (hq' : Sadder.said chk e'.sad = .ok q) :
    List.Forall₂ SameEvent (a ++ [e]) (a' ++ [e']) ∨ Collision H (str% "E") (LogText (a ++ [e])) (LogText (a' ++ [e'])) := by
  by_cases hc : Collision H (str% "E") (LogText (a ++ [e])) (LogText (a' ++ [e']))
  · exact .inr hc
  · exact .inl (agree _ _ _ le_rfl (ValidLog.cut h rfl) (ValidLog.cut h' rfl) ho e e' q (by simp) (by simp) hq hq' hc)

/-- A log of three meets the hypotheses at each of its places. -/
example : ∃ pre log, log.length = 3 ∧ ∀ a e b, log = a ++ e :: b →
    ValidLog World.hash World.crypto true (fun _ => none) pre (a ++ e :: b) ∧ ∀ x ∈ a ++ [e] ++ (a ++ [e]), Ordinary x.sad := by
  obtain ⟨pre, log, h1, h2, h3⟩ := World.log
  refine ⟨pre, log, h1, ?_⟩
  rintro a e b rfl
  refine ⟨h2, fun x hx => h3 x ?_⟩
  simp only [List.mem_append, List.mem_cons, List.not_mem_nil, or_false] at hx ⊢
  tauto

/-- C57: two valid logs of an identifier begin with the same inception; or the texts digested for the two are different and have the same digest. -/
theorem C57_inception (H : Hash) (C : Crypto) (chk : Bool) (fl : Str → Option Str) (pre : Str) (e e' : Entry) (b b' : List Entry)
    (h : ValidLog H C chk fl pre (e :: b)) (h' : ValidLog H C chk fl pre (e' :: b')) (ho : Ordinary e.sad) (ho' : Ordinary e'.sad) :
    SameEvent e e' ∨ Collision H (str% "E") (EventText e.sad) (EventText e'.sad) := by
  have first : ∀ {e b}, ValidLog H C chk fl pre (e :: b) → Sadder.said chk e.sad = .ok pre := by
    intro e b h
    have h := ValidLog.cut (a := []) h rfl
    generalize hl : [] ++ [e] = l at h
    cases h with
    | incept x keys t sigs type ident sn said fields digest own threshold signed =>
      cases hl
      exact said
    | rotate log x prev est psaid keys digests t n sigs before _ _ _ _ _ last =>
      cases log with
      | nil => simp at last
      | cons _ _ => simp at hl
    | interact log x prev est psaid keys t sigs before _ _ _ _ _ last =>
      cases log with
      | nil => simp at last
      | cons _ _ => simp at hl
  rcases C57_agree H C chk fl pre [] b [] b' e e' h h' (by simp [ho, ho']) pre (first h) (first h') with h | h
  · exact .inl (by simpa using h)
  · refine .inr (h.mono ?_ ?_) <;>
    · rintro t ⟨x, hx, ht⟩
      rw [List.nil_append, List.mem_singleton] at hx
      exact hx ▸ ht

/-- Events that agree have the same identifier, keys, next key digests, thresholds, witnesses and sequence number. -/
theorem C57_state (chk : Bool) (fl : Str → Option Str) (e e' : Entry) (ho : Ordinary e.sad) (ho' : Ordinary e'.sad) (h : SameEvent e e') :
    Serder.pre e.sad = Serder.pre e'.sad ∧ Serder.sn e.sad = Serder.sn e'.sad ∧ Serder.verfers e.sad = Serder.verfers e'.sad ∧
    Serder.digers e.sad = Serder.digers e'.sad ∧ Serder.tholder chk fl e.sad = Serder.tholder chk fl e'.sad ∧
    Serder.ntholder chk fl e.sad = Serder.ntholder chk fl e'.sad ∧ Serder.werfers e.sad = Serder.werfers e'.sad := by
  obtain ⟨o, h1, -⟩ := ho
  obtain ⟨o', h1', -⟩ := ho'
  have hf : ∀ l, l ≠ str% "d" → l ≠ str% "v" → Value.find l o = Value.find l o' := by
    intro l hd hv
    have := h l hd hv
    rw [h1, h1', Saider.field_find, Saider.field_find] at this
    exact this
  have i := hf (str% "i") (by decide) (by decide)
  have sn := hf (str% "s") (by decide) (by decide)
  have k := hf (str% "k") (by decide) (by decide)
  have n := hf (str% "n") (by decide) (by decide)
  have kt := hf (str% "kt") (by decide) (by decide)
  have nt := hf (str% "nt") (by decide) (by decide)
  have b := hf (str% "b") (by decide) (by decide)
  refine ⟨?_, ?_, ?_, ?_, ?_, ?_, ?_⟩
  · simp only [Serder.pre, h1, h1', Value.index, i]
  · simp only [Serder.sn, Serder.sner, h1, h1', Value.index, sn]
  · simp only [Serder.verfers, h1, h1', Value.index, Value.toMap, Value.hasKey, k, Res.ok_bind]
  · simp only [Serder.digers, h1, h1', Value.index, Value.toMap, Value.hasKey, n, Res.ok_bind]
  · simp only [Serder.tholder, Serder.tholderAt, h1, h1', Value.index, Value.toMap, Value.hasKey, kt, Res.ok_bind]
  · simp only [Serder.ntholder, Serder.tholderAt, h1, h1', Value.index, Value.toMap, Value.hasKey, nt, Res.ok_bind]
  · simp only [Serder.werfers, h1, h1', Value.index, Value.toMap, Value.hasKey, b, Res.ok_bind]

end Keride.Props
