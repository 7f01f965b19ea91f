/-
A verifier that reads attachments again, for the examples about deep verification.
-/
import Verif.Lemmas.DeepStream
import Verif.Lemmas.World

namespace Keride.World

open Spec Sample

/-- Whether a message is a group with the text. -/
def isText (b : Bytes) : Msg → Bool
  | .group _ (.ok t) => decide (toUtf8 t = b)
  | _ => false

/-- A verifier that knows the groups in `msgs` when it reads their text. -/
def reader (msgs : List Msg) : Env :=
  { env [] with parse := fun b => match msgs.find? (isText b) with
      | some m => .ok [m]
      | none => .err .decoding }

theorem reader_remembers (msgs : List Msg) : Remembers (reader msgs) :=
  ⟨fun _ _ _ _ _ _ _ _ => rfl, fun _ _ _ _ _ _ _ _ => rfl, fun _ _ _ _ _ _ _ => rfl⟩

/-- No two groups have the same text. -/
def clear (msgs : List Msg) : Bool :=
  (List.range msgs.length).all fun i => match msgs[i]? with
    | some (.group _ (.ok g)) => decide (msgs.findIdx? (isText (toUtf8 g)) = some i)
    | _ => true

theorem clear_ok {msgs : List Msg} (h : clear msgs = true) (l : List SigGroup) (g : Str) (hm : Msg.group (.quadlets l) (.ok g) ∈ msgs) :
    ReadsAs (reader msgs) g (.quadlets l) := by
  obtain ⟨i, hi⟩ := List.getElem?_of_mem hm
  have hlt := (List.getElem?_eq_some_iff.mp hi).1
  have := List.all_eq_true.mp h i (List.mem_range.mpr hlt)
  rw [hi] at this
  dsimp only at this
  have := of_decide_eq_true this
  refine ⟨.ok g, [], ?_⟩
  dsimp only [reader]
  have hf : msgs.find? (isText (toUtf8 g)) = some (.group (.quadlets l) (.ok g)) := by
    have hx := List.findIdx?_eq_some_iff_getElem.mp this
    obtain ⟨h1, h2, h3⟩ := hx
    have hgi : msgs[i] = .group (.quadlets l) (.ok g) := (List.getElem?_eq_some_iff.mp hi).2
    rw [List.find?_eq_some_iff_getElem]
    exact ⟨by simp [isText], i, hlt, hgi, fun j hj => by simpa using h3 j hj⟩
  rw [hf]

/-- A store with one log. -/
def oneLog (pre : Str) (texts : List Str) : Store := { Store.empty with kels := fun p => if p = pre then texts else [] }

/-- A stored event and its SAID. -/
def saidOf (t : Str) : Res Str := do
  let s ← Serder.newWithRaw (fun _ => none) (toUtf8 t)
  Sadder.said true s

/-- `Filed` as a test. -/
def filed (pre : Str) (texts : List Str) : Bool :=
  (texts.all fun t => match Serder.newWithRaw (fun _ => none) (toUtf8 t) with
    | .ok s => decide (Serder.pre s = .ok pre)
    | _ => true) && decide (texts.map saidOf).Nodup

theorem filed_own {pre : Str} {texts : List Str} (h : filed pre texts = true) :
    ∀ t ∈ texts, ∀ s, Serder.newWithRaw (fun _ => none) (toUtf8 t) = .ok s → HasText (str% "i") pre s := by
  unfold filed at h
  rw [Bool.and_eq_true] at h
  intro t ht s hs
  have := List.all_eq_true.mp h.1 t ht
  rw [hs] at this
  exact (Props.C55_pre s pre).mp (of_decide_eq_true this)

theorem filed_ok {pre : Str} {texts : List Str} (h : filed pre texts = true) : Filed true (fun _ => none) pre texts := by
  refine ⟨filed_own h, ?_⟩
  unfold filed at h
  rw [Bool.and_eq_true] at h
  intro i j t u s r q hi hj hs hr hq hq'
  have hn := of_decide_eq_true h.2
  have gi : (texts.map saidOf)[i]? = some (.ok q) := by
    rw [List.getElem?_map, hi]
    simp only [Option.map_some, saidOf, hs, Res.ok_bind, hq]
  have gj : (texts.map saidOf)[j]? = some (.ok q) := by
    rw [List.getElem?_map, hj]
    simp only [Option.map_some, saidOf, hr, Res.ok_bind, hq']
  exact (List.getElem?_inj (List.getElem?_eq_some_iff.mp gi).1 hn).mp (gi.trans gj.symm)

theorem filedStore_of {st : Store} {pre : Str} (h : filed pre (st.kels pre) = true) (ho : ∀ p, p ≠ pre → st.kels p = []) :
    FiledStore true (fun _ => none) st := by
  refine ⟨fun p => ?_, fun p p' t u s r q ht hu _ _ _ _ => ?_⟩
  · by_cases hp : p = pre
    · subst hp
      exact filed_ok h
    · rw [ho p hp]
      exact ⟨nofun, fun i j t u s r q hi => by simp at hi⟩
  · have : ∀ p t, t ∈ st.kels p → p = pre := fun p t ht => by
      by_contra hp
      rw [ho p hp] at ht
      cases ht
    rw [this p t ht, this p' u hu]

/-- All events of the stream are of the identifier. -/
def allOf (pre : Str) (msgs : List Msg) : Bool :=
  msgs.all fun m => match m with
    | .payload p => match Serder.newWithRaw (fun _ => none) (toUtf8 p) with
      | .ok s => decide (Serder.pre s = .ok pre)
      | _ => true
    | _ => true

theorem others {E : Env} (hE : E.fl = fun _ => none) (hR : Remembers E) {fuel : Nat} {deep verify : Option Bool} (hv : verify ≠ some false) {pre : Str}
    {msgs : List Msg} (h : allOf pre msgs = true) (st : Store) : ∀ p, p ≠ pre → (ingestLoop E fuel deep verify st msgs []).1.kels p = st.kels p := by
  have hm : ∀ x ∈ pairs msgs, x.1 ∈ msgs := by
    clear h
    induction msgs using pairs.induct with
    | case1 m g rest ih =>
      intro x hx
      rcases List.mem_cons.mp hx with rfl | hx
      · simp
      · simp [ih x hx]
    | case2 msgs hn =>
      match msgs, hn with
      | [], _ => intro x hx; cases hx
      | [m], _ => intro x hx; cases hx
      | m :: g :: rest, hn => exact absurd rfl (hn m g rest)
  refine ingestLoop_induct hR hv (fun s => ∀ p, p ≠ pre → s.kels p = st.kels p) (pairs msgs) ?_ st msgs [] (fun _ _ => rfl) (by simp) (fun _ h => h)
  intro s m g v a v' st' r hI _ hmem hf hp
  rcases perform_kels hp with rfl | ⟨q, t, rfl, rfl⟩ | ⟨q, t, rfl, rfl⟩ | ⟨t, rfl, rfl⟩
  · exact hI
  · cases hf with
    | key payload t g s' l q c v' read raw again said verified fresh grows =>
      have h1 := (checkKeyEvent_ok verified).1
      have h2 := List.all_eq_true.mp h _ (hm _ hmem)
      dsimp only at h2
      rw [hE] at read
      rw [read] at h2
      have h2 := of_decide_eq_true h2
      rw [h1] at h2
      have h2 := Res.ok.inj h2
      intro p hne
      rw [← hI p hne]
      exact if_neg (by rw [h2]; exact hne)
  · exact hI
  · exact hI

end Keride.World
