/-
Floats with exponents, and reading again what was read.
-/
import Verif.Lemmas.JsonText

namespace Keride

open Spec

theorem stop_delim {r : Str} (h : Delim r) : Stop r := fun c hc => by
  rcases h c hc with rfl | rfl | rfl <;> simp

theorem floatOk_text {fl : Str → Option Str} {t : Str} (h : FloatText fl t) : FloatOk fl t :=
  ⟨h.1, number_head h.2, fun _ hr => parseNum_complete h.2 (stop_delim hr)⟩

theorem properArr_all {F : Str → Prop} {l : List Value} : ProperArr F l ↔ ∀ v ∈ l, Proper F v := by
  induction l with
  | nil => simp [ProperArr]
  | cons v l ih => simp [ProperArr, ih]

theorem properObj_all {F : Str → Prop} {l : List (Str × Value)} : ProperObj F l ↔ ∀ p ∈ l, Proper F p.2 := by
  induction l with
  | nil => simp [ProperObj]
  | cons v l ih => simp [ProperObj, ih]

theorem nestingArr_all {l : List Value} {d : Nat} (h : ∀ v ∈ l, nesting v ≤ d) : nestingArr l ≤ d := by
  induction l with
  | nil => simp [nestingArr]
  | cons v l ih =>
    have h1 := h v (by simp)
    have h2 := ih fun x hx => h x (by simp [hx])
    simp only [nestingArr]
    omega

theorem nestingObj_all {l : List (Str × Value)} {d : Nat} (h : ∀ p ∈ l, nesting p.2 ≤ d) : nestingObj l ≤ d := by
  induction l with
  | nil => simp [nestingObj]
  | cons v l ih =>
    have h1 := h v (by simp)
    have h2 := ih fun x hx => h x (by simp [hx])
    simp only [nestingObj]
    omega

/-- What can be said of a value that was read: its nesting, and that its floats are read as themselves. -/
def ReadWell (fl : Str → Option Str) (d : Nat) (v : Value) : Prop :=
  nesting v ≤ d ∧ ∀ G : Str → Prop, Proper G v → Proper (fun t => G t ∧ NumberIs fl t (.float t)) v

theorem denotes_well {fl : Str → Option Str} (hfl : Settled fl) {d : Nat} {t : Str} {v : Value} (h : Denotes fl d t v) : ReadWell fl d v := by
  refine Denotes.rec (motive_1 := fun d _ v _ => ReadWell fl d v) (motive_2 := fun d _ l _ => ∀ v ∈ l, ReadWell fl d v)
    (motive_3 := fun d _ l _ => ∀ p ∈ l, ReadWell fl d p.2) ?_ ?_ ?_ ?_ ?_ ?_ ?_ ?_ ?_ ?_ ?_ ?_ ?_ h
  · exact fun d => ⟨by simp [nesting], fun G h => by simp [Proper]⟩
  · exact fun d => ⟨by simp [nesting], fun G h => by simp [Proper]⟩
  · exact fun d => ⟨by simp [nesting], fun G h => by simp [Proper]⟩
  · intro d t v hn
    obtain ⟨sign, a, f, e, rfl, hN, ⟨i, hi, rfl⟩ | ⟨-, u, hu, rfl⟩⟩ := hn
    · exact ⟨by simp [nesting], fun G h => by simpa only [Proper] using h⟩
    · refine ⟨by simp [nesting], fun G h => ?_⟩
      simp only [Proper] at h ⊢
      exact ⟨h, hfl _ u hu⟩
  · exact fun d _ _ _ => ⟨by simp [nesting], fun G h => by simp [Proper]⟩
  · exact fun d _ _ => ⟨by simp [nesting, nestingArr], fun G h => by simp [Proper, ProperArr]⟩
  · intro d t l _ ih
    refine ⟨?_, fun G hG => ?_⟩
    · simp only [nesting]
      have := nestingArr_all fun v hv => (ih v hv).1
      omega
    · simp only [Proper, properArr_all] at hG ⊢
      exact fun v hv => (ih v hv).2 G (hG v hv)
  · exact fun d _ _ => ⟨by simp [nesting, nestingObj], fun G h => by simp [Proper, ProperObj]⟩
  · intro d t l o _ ho ih
    have ih' : ∀ p ∈ o, ReadWell fl d p.2 := by
      intro p hp
      obtain ⟨a, b, e, -⟩ := ho.2 p.1 p.2 hp
      exact ih p (by rw [e]; simp)
    refine ⟨?_, fun G hG => ?_⟩
    · simp only [nesting]
      have := nestingObj_all fun v hv => (ih' v hv).1
      omega
    · simp only [Proper, properObj_all] at hG ⊢
      exact ⟨hG.1, fun v hv => (ih' v hv).2 G (hG.2 v hv)⟩
  · intro d w t w' v _ _ _ ih x hx
    rw [List.mem_singleton.mp hx]
    exact ih
  · intro d w t w' u v l _ _ _ _ ih ih' x hx
    rcases List.mem_cons.mp hx with rfl | hx
    · exact ih
    · exact ih' x hx
  · intro d w k w₁ w₂ t w₃ s v _ _ _ _ _ _ ih x hx
    rw [List.mem_singleton.mp hx]
    exact ih
  · intro d w k w₁ w₂ t w₃ s u v l _ _ _ _ _ _ _ ih ih' x hx
    rcases List.mem_cons.mp hx with rfl | hx
    · exact ih
    · exact ih' x hx

theorem jsonRead_well {fl : Str → Option Str} (hfl : Settled fl) {s : Str} {v : Value} (h : jsonRead fl s = .ok v) :
    Proper (FloatText fl) v ∧ nesting v ≤ 127 := by
  rcases jsonRead_cases fl s with ⟨w, ⟨a, t, b, -, -, hd, -⟩, hp, hw⟩ | ⟨w, -, -, hw⟩ | ⟨-, hw⟩
  · rw [h] at hw
    cases hw
    have := denotes_well hfl hd
    exact ⟨this.2 _ hp, this.1⟩
  · rw [h] at hw
    cases hw
  · rw [h] at hw
    cases hw

theorem toJson_inj_floats {fl : Str → Option Str} {v w : Value} (hv : Proper (FloatText fl) v) (hw : Proper (FloatText fl) w) (h : v.toJson = w.toJson) : v = w := by
  have h1 := jsonParse_json (fun _ h => floatOk_text h) hv (depth := nesting v + nesting w + 1) (by omega)
  have h2 := jsonParse_json (fun _ h => floatOk_text h) hw (depth := nesting v + nesting w + 1) (by omega)
  rw [h, h2] at h1
  exact (Res.ok.inj h1).symm

end Keride
