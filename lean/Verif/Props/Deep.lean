/-
C87 to C89: deep verification.
-/
import Verif.Lemmas.WorldDeep
import Verif.Lemmas.DeepAccept
import Verif.Props.Resend

namespace Keride.Props

open Spec Sample Matter

/-! ## C87 -/

/-- C87: when deep verification accepts an event, all events kept for its identifier before it, none of which need have
been verified, are a valid log that the event continues; unless some of the events kept for the identifier and the event
itself are in a circle, each addressed by a digest of a text with the digest of the next. The store must have been filled properly, that is, only events of an identifier
are kept for it, and no two with the same SAID. -/
theorem C87_deep (E : Env) (hH : HashOk E.H) (st : Store) (fuel : Nat) (raw : Bytes) (s : Sad) (groups : List SigGroup) (v : List Str) (r : Bool × List Str)
    (pre : Str) (n : Nat) (hread : Serder.newWithRaw E.fl raw = .ok s) (hpre : HasText (str% "i") pre s) (hsn : Serder.sn s = .ok n)
    (hv : ∀ q ∈ v, Sadder.said E.chk s = .ok q) (hf : Filed E.chk E.fl pre (st.kels pre)) (hlen : (st.kels pre).length < 2 ^ 32)
    (h : verifyKeyEvent E st (some true) fuel s groups v = .ok r) :
    (∃ log, List.Forall₂ (Kept E) ((st.kels pre).take n) log ∧ ValidLog E.H E.C E.chk E.fl pre (log ++ [⟨s, groups⟩])) ∨
      Circular E.H E.chk (fun x => x = s ∨ ∃ text ∈ st.kels pre, Serder.newWithRaw E.fl (toUtf8 text) = .ok x) := by
  rcases deep_new hH (P := fun x => x = s ∨ ∃ text ∈ st.kels pre, Serder.newWithRaw E.fl (toUtf8 text) = .ok x) (fun text ht e he => .inr ⟨text, ht, he⟩) hf hlen hread (.inl rfl)
    ((C55_pre s pre).mpr hpre) hsn (fun q hq => .inl (hv q hq)) h with ⟨h, -⟩ | h
  · exact .inl h
  · exact .inr h

theorem split_at {α : Type} {l : List α} {i : Nat} {e : α} (h : l[i]? = some e) : l = l.take i ++ e :: l.drop (i + 1) := by
  obtain ⟨hi, hx⟩ := List.getElem?_eq_some_iff.mp h
  rw [← hx]
  simp

/-- The text that is kept for a message. -/
def World.text : Msg × Msg → Res Str
  | (.payload p, .group _ g) => do
    let g ← g
    .ok (p ++ g)
  | _ => .err .decoding

/-- The inception and the interaction of the examples are kept, and the rotation comes in. -/
def World.deepCase : Res (List Msg × List Str × Str × (Msg × Msg)) := do
  let a ← World.signed (World.ks [1, 2]) World.icp
  let b ← World.signed (World.ks [1, 2]) World.ixn
  let c ← World.signed (World.ks [3, 4]) World.rot
  let pre ← World.icp >>= Serder.pre
  let ta ← World.text a
  let tb ← World.text b
  .ok ([a.2, b.2, c.2], [ta, tb], pre, c)

/-- The tests that the case must pass: the store is filed, the event is of the identifier and has a number, and it is
accepted. -/
def World.deepTest (n : Nat) (x : List Msg × List Str × Str × (Msg × Msg)) : Bool :=
  match x.2.2.2 with
  | (.payload p, .group (.quadlets l) _) =>
    (match Serder.newWithRaw (fun _ => none) (toUtf8 p) with
      | .ok s => decide (Serder.pre s = .ok x.2.2.1) && decide (Serder.sn s = .ok n) && decide (x.2.1.length = 2) &&
        (verifyKeyEvent (World.reader x.1) (World.oneLog x.2.2.1 x.2.1) (some true) 5 s l []).isOk
      | _ => false)
  | _ => false

theorem World.deepTest_ok {n : Nat} {x : List Msg × List Str × Str × (Msg × Msg)} (h : World.deepTest n x = true) :
    ∃ raw s l r, Serder.newWithRaw (fun _ => none) raw = .ok s ∧ HasText (str% "i") x.2.2.1 s ∧ Serder.sn s = .ok n ∧ x.2.1.length = 2 ∧
      verifyKeyEvent (World.reader x.1) (World.oneLog x.2.2.1 x.2.1) (some true) 5 s l [] = .ok r := by
  unfold World.deepTest at h
  split at h
  · rename_i p l gt hm
    split at h
    · rename_i s hs
      simp only [Bool.and_eq_true, decide_eq_true_eq] at h
      obtain ⟨⟨⟨h1, h2⟩, h3⟩, h4⟩ := h
      cases hv : verifyKeyEvent (World.reader x.1) (World.oneLog x.2.2.1 x.2.1) (some true) 5 s l [] with
      | ok r => exact ⟨_, s, l, r, hs, (C55_pre s _).mp h1, h2, h3, hv⟩
      | err e => rw [hv] at h4; cases h4
      | panic => rw [hv] at h4; cases h4
    · cases h
  · cases h

/-- The hypotheses of C87 are met: a store with two events that nobody has verified, and a third that comes in. -/
example : ∃ (E : Env) (st : Store) (raw : Bytes) (s : Sad) (groups : List SigGroup) (r : Bool × List Str) (pre : Str), HashOk E.H ∧
    Serder.newWithRaw E.fl raw = .ok s ∧ HasText (str% "i") pre s ∧ Serder.sn s = .ok 2 ∧ Filed E.chk E.fl pre (st.kels pre) ∧ (st.kels pre).length = 2 ∧
    verifyKeyEvent E st (some true) 5 s groups [] = .ok r := by
  obtain ⟨x, hx, h⟩ := World.holds_ok (r := World.deepCase) (f := fun x => World.deepTest 2 x && World.filed x.2.2.1 x.2.1) (by decide +kernel)
  rw [Bool.and_eq_true] at h
  obtain ⟨raw, s, l, r, h1, h2, h3, h4, h5⟩ := World.deepTest_ok h.1
  have hk : (World.oneLog x.2.2.1 x.2.1).kels x.2.2.1 = x.2.1 := if_pos rfl
  exact ⟨World.reader x.1, World.oneLog x.2.2.1 x.2.1, raw, s, l, r, x.2.2.1, World.hash_ok, h1, h2, h3, by rw [hk]; exact World.filed_ok h.2, by rw [hk]; exact h4, h5⟩

/-- The inception is kept twice, and an interaction that names it comes in as event 2. -/
def World.twiceCase : Res (List Msg × List Str × Str × (Msg × Msg)) := do
  let a ← World.signed (World.ks [1, 2]) World.icp
  let pre ← World.icp >>= Serder.pre
  let d ← World.icp >>= Sadder.said true
  let e ← interact (World.env []) pre d (some 2) none none none
  let c ← World.signed (World.ks [1, 2]) (.ok e)
  let ta ← World.text a
  .ok ([a.2, c.2], [ta, ta], pre, c)

/-- Both texts are inceptions of the identifier. -/
def World.bothIcp (pre : Str) (texts : List Str) : Bool :=
  texts.all fun t => match Serder.newWithRaw (fun _ => none) (toUtf8 t) with
    | .ok s => decide (Serder.pre s = .ok pre) && decide (Serder.sn s = .ok 0)
    | _ => false

/-- That no two events of the log have the same SAID is needed in C87: when an inception is kept twice, deep verification
accepts an event on top of it. -/
theorem C87_once_false : ∃ (E : Env) (st : Store) (raw : Bytes) (s : Sad) (groups : List SigGroup) (r : Bool × List Str) (pre : Str), HashOk E.H ∧ CryptoOk E.C ∧
    Serder.newWithRaw E.fl raw = .ok s ∧ HasText (str% "i") pre s ∧ Serder.sn s = .ok 2 ∧
    (∀ t ∈ st.kels pre, ∀ e, Serder.newWithRaw E.fl (toUtf8 t) = .ok e → HasText (str% "i") pre e) ∧ (st.kels pre).length = 2 ∧
    verifyKeyEvent E st (some true) 5 s groups [] = .ok r ∧
    ¬ ∃ log, List.Forall₂ (Kept E) ((st.kels pre).take 2) log ∧ ValidLog E.H E.C E.chk E.fl pre (log ++ [⟨s, groups⟩]) := by
  obtain ⟨x, hx, h⟩ := World.holds_ok (r := World.twiceCase) (f := fun x => World.deepTest 2 x && World.bothIcp x.2.2.1 x.2.1) (by decide +kernel)
  rw [Bool.and_eq_true] at h
  obtain ⟨raw, s, l, r, h1, h2, h3, h4, h5⟩ := World.deepTest_ok h.1
  have hk : (World.oneLog x.2.2.1 x.2.1).kels x.2.2.1 = x.2.1 := if_pos rfl
  have hb : ∀ t ∈ x.2.1, ∀ e, Serder.newWithRaw (fun _ => none) (toUtf8 t) = .ok e → HasText (str% "i") x.2.2.1 e ∧ Serder.sn e = .ok 0 := by
    intro t ht e he
    have := List.all_eq_true.mp h.2 t ht
    rw [he] at this
    simp only [Bool.and_eq_true, decide_eq_true_eq] at this
    exact ⟨(C55_pre e _).mp this.1, this.2⟩
  refine ⟨World.reader x.1, World.oneLog x.2.2.1 x.2.1, raw, s, l, r, x.2.2.1, World.hash_ok, World.crypto_ok, h1, h2, h3, ?_, ?_, h5, ?_⟩
  · rw [hk]
    exact fun t ht e he => (hb t ht e he).1
  · rw [hk]
    exact h4
  · rw [hk]
    rintro ⟨log, g1, g2⟩
    have ht : (x.2.1.take 2)[1]? = some (x.2.1[1]'(by omega)) := by
      rw [List.getElem?_take_of_lt (by omega)]
      exact List.getElem?_eq_getElem _
    obtain ⟨e, e1, e2, -⟩ := forall₂_get g1 ht
    have hsn := (hb _ (List.getElem_mem _) _ e2).2
    obtain ⟨hi, hx⟩ := List.getElem?_eq_some_iff.mp e1
    have hl : log = log.take 1 ++ e :: log.drop (1 + 1) := split_at e1
    have := valid_sn g2 (log.take 1) e (log.drop 2 ++ [⟨s, l⟩]) (by rw [← List.cons_append, ← List.append_assoc, ← hl])
    rw [hsn, List.length_take, Nat.min_eq_left (by omega)] at this
    cases this

/-! ## C88 -/

/-- C88, the part that holds: when a stream of key events is taken in with deep verification by a store of which nothing
was verified, every log that grew is valid from its beginning; unless some of the events that come in or are kept in the
end are in a circle. The events must be new to the store, and no SAID may be kept twice in the end. -/
theorem C88_partial (E : Env) (hH : HashOk E.H) (hR : Remembers E) (fuel : Nat) (verify : Option Bool) (hv : verify ≠ some false) (st st' : Store)
    (msgs : List Msg) (res : Res Unit) (hk : EventsOnly msgs) (hk' : KeyEventsOnly E.fl msgs) (hn : NewTo E.chk E.fl st msgs)
    (hp : ∀ l g, Msg.group (.quadlets l) (.ok g) ∈ msgs → ReadsAs E g (.quadlets l)) (hf : FiledStore E.chk E.fl st')
    (hlen : ∀ p, (st'.kels p).length < 2 ^ 32) (h : ingestLoop E fuel (some true) verify st msgs [] = (st', res)) :
    (∀ pre, (st.kels pre).length < (st'.kels pre).length →
      ∃ log, List.Forall₂ (Kept E) (st'.kels pre) log ∧ ValidLog E.H E.C E.chk E.fl pre log) ∨
      Circular E.H E.chk (fun x => KeptIn E.fl st' x ∨ ∃ p, Msg.payload p ∈ msgs ∧ Serder.newWithRaw E.fl (toUtf8 p) = .ok x) := by
  rcases deep_stream hH hR hv (P := fun x => KeptIn E.fl st' x ∨ ∃ p, Msg.payload p ∈ msgs ∧ Serder.newWithRaw E.fl (toUtf8 p) = .ok x)
    (fun s hs => .inl hs) hf hlen msgs st [] ⟨.refl st, by simp, by simp, fun p hp => absurd hp (by omega)⟩ hk hk' hn hp
    (fun p s hp hs => .inr ⟨p, hp, hs⟩) (by rw [h]) with h | h
  · refine .inl fun pre hpre => ?_
    obtain ⟨log, h1, h2⟩ := h pre hpre
    rw [List.take_length] at h1
    exact ⟨log, h1, h2⟩
  · exact .inr h

/-- The inception is kept, and the interaction and the rotation come in. -/
def World.freshCase : Res (List Msg × List Msg × List Str × Str) := do
  let a ← World.signed (World.ks [1, 2]) World.icp
  let b ← World.signed (World.ks [1, 2]) World.ixn
  let c ← World.signed (World.ks [3, 4]) World.rot
  let pre ← World.icp >>= Serder.pre
  let ta ← World.text a
  .ok ([a.2], [b.1, b.2, c.1, c.2], [ta], pre)

/-- The log of the identifier after the stream. -/
def World.after (x : List Msg × List Msg × List Str × Str) : Store × Res Unit :=
  ingestLoop (World.reader (x.1 ++ x.2.1)) 5 (some true) none (World.oneLog x.2.2.2 x.2.2.1) x.2.1 []

/-- None of the messages has the SAID of one of the texts. -/
def World.newTo (texts : List Str) (msgs : List Msg) : Bool :=
  msgs.all fun m => match m with
    | .payload p => (match World.saidOf p with
      | .ok q => decide (.ok q ∉ texts.map World.saidOf)
      | _ => true)
    | _ => true

theorem World.newTo_ok {texts : List Str} {pre : Str} {msgs : List Msg} (h : World.newTo texts msgs = true) :
    NewTo true (fun _ => none) (World.oneLog pre texts) msgs := by
  intro p s q hp hs hq pre' t ht r hr hq'
  have h := List.all_eq_true.mp h _ hp
  have e : World.saidOf p = .ok q := by simp only [World.saidOf, hs, Res.ok_bind, hq]
  dsimp only at h
  rw [e] at h
  refine of_decide_eq_true h (List.mem_map.mpr ⟨t, ?_, by simp only [World.saidOf, hr, Res.ok_bind, hq']⟩)
  unfold World.oneLog at ht
  dsimp only at ht
  split at ht
  · exact ht
  · cases ht

theorem World.after_filed {x : List Msg × List Msg × List Str × Str} (h1 : World.allOf x.2.2.2 x.2.1 = true)
    (h2 : World.filed x.2.2.2 ((World.after x).1.kels x.2.2.2) = true) (h3 : ((World.after x).1.kels x.2.2.2).length < 2 ^ 32) :
    FiledStore true (fun _ => none) (World.after x).1 ∧ ∀ p, ((World.after x).1.kels p).length < 2 ^ 32 := by
  have ho : ∀ p, p ≠ x.2.2.2 → (World.after x).1.kels p = [] := fun p hp => by
    unfold World.after
    rw [World.others (E := World.reader (x.1 ++ x.2.1)) rfl (World.reader_remembers _) (by simp) h1 _ p hp]
    exact if_neg hp
  refine ⟨World.filedStore_of h2 ho, fun p => ?_⟩
  by_cases hp : p = x.2.2.2
  · rw [hp]
    exact h3
  · rw [ho p hp]
    exact Nat.two_pow_pos 32

/-- The hypotheses of C88 are met: a log that nobody has verified grows by two events. -/
example : ∃ (E : Env) (st st' : Store) (msgs : List Msg) (pre : Str), HashOk E.H ∧ Remembers E ∧ EventsOnly msgs ∧ KeyEventsOnly E.fl msgs ∧
    NewTo E.chk E.fl st msgs ∧ (∀ l g, Msg.group (.quadlets l) (.ok g) ∈ msgs → ReadsAs E g (.quadlets l)) ∧ FiledStore E.chk E.fl st' ∧
    (∀ p, (st'.kels p).length < 2 ^ 32) ∧ ingestLoop E 5 (some true) none st msgs [] = (st', .ok ()) ∧ (st.kels pre).length = 1 ∧ (st'.kels pre).length = 3 := by
  obtain ⟨x, hx, h⟩ := World.holds_ok (r := World.freshCase) (f := fun x => x.2.1.all isKeyEvent && World.newTo x.2.2.1 x.2.1 && World.clear (x.1 ++ x.2.1) &&
    World.allOf x.2.2.2 x.2.1 &&
    (let r := World.after x
    let k := r.1.kels x.2.2.2
    World.filed x.2.2.2 k && decide (k.length = 3) && r.2.isOk && decide (x.2.2.1.length = 1))) (by decide +kernel)
  simp only [Bool.and_eq_true, decide_eq_true_eq] at h
  obtain ⟨⟨⟨⟨h1, h2⟩, h3⟩, h5⟩, ⟨⟨h6, h7⟩, h8⟩, h9⟩ := h
  obtain ⟨f1, f2⟩ := World.after_filed h5 h6 (by omega)
  obtain ⟨k1, k2⟩ := isKeyEvent_ok h1
  refine ⟨World.reader (x.1 ++ x.2.1), World.oneLog x.2.2.2 x.2.2.1, (World.after x).1, x.2.1, x.2.2.2, World.hash_ok, World.reader_remembers _, k1, k2,
    World.newTo_ok h2, fun l g hg => World.clear_ok h3 l g (List.mem_append_right _ hg), f1, f2, ?_, ?_, h7⟩
  · change World.after x = _
    refine Prod.ext rfl ?_
    cases hr : (World.after x).2 with
    | ok u => rfl
    | err e => rw [hr] at h8; cases h8
    | panic => rw [hr] at h8; cases h8
  · rw [show (World.oneLog x.2.2.2 x.2.2.1).kels x.2.2.2 = x.2.2.1 from if_pos rfl]
    exact h9

/-- A rotation to a key of somebody else that pretends to have the SAID of the interaction of the examples. It is not
signed, and does not even have all fields. -/
def World.forged (pre d : Str) : Res Str := do
  let k ← World.ks [7]
  let x ← k.verfersQb64 (World.env [])
  let s ← Serder.newWithKed (fun _ => none) (.obj [(str% "v", .str (str% "KERI10JSON000000_")), (str% "t", .str (str% "rot")), (str% "d", .str d),
    (str% "i", .str pre), (str% "s", .str (str% "1")), (str% "kt", .str (str% "1")), (str% "k", texts x)]) none none
  fromUtf8 s.raw

/-- The inception and the forged rotation are kept; the interaction comes in, which has the SAID of the forged rotation,
and then an event signed with the key of somebody else. -/
def World.forgedCase : Res (List Msg × List Msg × List Str × Str) := do
  let a ← World.signed (World.ks [1, 2]) World.icp
  let b ← World.signed (World.ks [1, 2]) World.ixn
  let pre ← World.icp >>= Serder.pre
  let d ← World.ixn >>= Sadder.said true
  let t ← World.forged pre d
  let e ← interact (World.env []) pre d (some 2) none none none
  let c ← World.signed (World.ks [7]) (.ok e)
  let ta ← World.text a
  .ok ([a.2], [b.1, b.2, c.1, c.2], [ta, t], pre)

/-- The forged rotation does not have the fields of a rotation. -/
def World.lacking (t : Str) : Bool :=
  match Serder.newWithRaw (fun _ => none) (toUtf8 t) with
  | .ok s => (field (str% "p") s.ked).isNone && decide (Serder.sn s = .ok 1)
  | _ => false

/-- The outcome is an error. -/
def World.refused {α : Type} : Res α → Bool
  | .err _ => true
  | _ => false

theorem World.refused_ok {α : Type} {r : Res α} (h : World.refused r = true) : ∃ e, r = .err e := by
  cases r with
  | err e => exact ⟨e, rfl⟩
  | ok x => cases h
  | panic => cases h

/-- An event of a log after the first names a prior event. -/
theorem later_prior {H : Hash} {C : Crypto} {chk : Bool} {fl : Str → Option Str} {pre : Str} {log a b : List Entry} {e : Entry}
    (h : ValidLog H C chk fl pre log) (hl : log = a ++ e :: b) (ha : 0 < a.length) : ∃ v, field (str% "p") e.sad.ked = some v := by
  have h := ValidLog.cut h hl
  generalize hx : a ++ [e] = l at h
  cases h with
  | incept x =>
    have := congrArg List.length hx
    rw [List.length_append, List.length_singleton, List.length_singleton] at this
    omega
  | rotate log x prev est psaid keys digests t n sigs before type ident sn fields digest last prior chained =>
    obtain ⟨-, h2⟩ := List.append_inj' hx rfl
    cases h2
    exact ⟨_, chained⟩
  | interact log x prev est psaid keys t sigs before type ident sn fields digest last prior chained =>
    obtain ⟨-, h2⟩ := List.append_inj' hx rfl
    cases h2
    exact ⟨_, chained⟩

/-- C88 is false: a store has a forged event, and the genuine event with the same SAID comes in before an event that is
signed with the forged keys. The genuine event is accepted as already known, its SAID is then among those under
verification, and so the forged event is not looked at when it is the prior event of the other. Sent alone, that event is
refused. -/
theorem C88_false : ∃ (E : Env) (st st' : Store) (msgs : List Msg) (pre : Str), HashOk E.H ∧ CryptoOk E.C ∧ Remembers E ∧ EventsOnly msgs ∧
    KeyEventsOnly E.fl msgs ∧ (∀ l g, Msg.group (.quadlets l) (.ok g) ∈ msgs → ReadsAs E g (.quadlets l)) ∧ FiledStore E.chk E.fl st' ∧
    ingestLoop E 5 (some true) none st msgs [] = (st', .ok ()) ∧ (st.kels pre).length = 2 ∧ (st'.kels pre).length = 3 ∧
    (∃ e, (ingestLoop E 5 (some true) none st (msgs.drop 2) []).2 = .err e) ∧
    ¬ ∃ log, List.Forall₂ (Kept E) (st'.kels pre) log ∧ ValidLog E.H E.C E.chk E.fl pre log := by
  obtain ⟨x, hx, h⟩ := World.holds_ok (r := World.forgedCase) (f := fun x => x.2.1.all isKeyEvent && World.clear (x.1 ++ x.2.1) &&
    World.allOf x.2.2.2 x.2.1 &&
    (let r := World.after x
    let k := r.1.kels x.2.2.2
    World.filed x.2.2.2 k && decide (k.length = 3) && r.2.isOk && decide (x.2.2.1.length = 2) && (match k[1]? with
      | some t => World.lacking t
      | none => false) && World.refused (ingestLoop (World.reader (x.1 ++ x.2.1)) 5 (some true) none (World.oneLog x.2.2.2 x.2.2.1) (x.2.1.drop 2) []).2))
      (by decide +kernel)
  simp only [Bool.and_eq_true, decide_eq_true_eq] at h
  obtain ⟨⟨⟨h1, h3⟩, h5⟩, ⟨⟨⟨⟨h6, h7⟩, h8⟩, h9⟩, h10⟩, h11⟩ := h
  obtain ⟨f1, -⟩ := World.after_filed h5 h6 (by omega)
  obtain ⟨k1, k2⟩ := isKeyEvent_ok h1
  refine ⟨World.reader (x.1 ++ x.2.1), World.oneLog x.2.2.2 x.2.2.1, (World.after x).1, x.2.1, x.2.2.2, World.hash_ok, World.crypto_ok, World.reader_remembers _, k1, k2,
    fun l g hg => World.clear_ok h3 l g (List.mem_append_right _ hg), f1, ?_, ?_, h7, World.refused_ok h11, ?_⟩
  · change World.after x = _
    refine Prod.ext rfl ?_
    cases hr : (World.after x).2 with
    | ok u => rfl
    | err e => rw [hr] at h8; cases h8
    | panic => rw [hr] at h8; cases h8
  · rw [show (World.oneLog x.2.2.2 x.2.2.1).kels x.2.2.2 = x.2.2.1 from if_pos rfl]
    exact h9
  · rintro ⟨log, l1, l2⟩
    split at h10
    · rename_i t ht
      obtain ⟨e, e1, e2, -⟩ := forall₂_get l1 ht
      unfold World.lacking at h10
      split at h10
      · rename_i s hs
        have : s = e.sad := by
          rw [show Serder.newWithRaw (fun _ => none) (toUtf8 t) = .ok e.sad from e2] at hs
          exact (Res.ok.inj hs).symm
        subst this
        rw [Bool.and_eq_true] at h10
        obtain ⟨v, hv⟩ := later_prior l2 (split_at e1) (by
          have := (List.getElem?_eq_some_iff.mp e1).1
          rw [List.length_take]
          omega)
        rw [hv] at h10
        exact absurd h10.1 (by simp)
      · cases h10
    · cases h10

/-! ## C89 -/

/-- C89: in a store that was filled by verification, and with a stream parser that reads attachments again as it read
them first, deep verification accepts what other verification accepts, with the same answer whether the event is known. -/
theorem C89_deep (E : Env) (hH : HashOk E.H) (hist : List (Msg × Msg)) (st : Store) (hr : Reach E hist st) (hlen : ∀ p, (st.kels p).length < 2 ^ 32)
    (hp : ∀ m l g, (m, Msg.group (.quadlets l) (.ok g)) ∈ hist → ReadsAs E g (.quadlets l)) (raw : Bytes) (s : Sad) (groups : List SigGroup)
    (hread : Serder.newWithRaw E.fl raw = .ok s) (deep : Option Bool) (hd : deep ≠ some true) (fuel : Nat) (v w : List Str) (b : Bool)
    (h : verifyKeyEvent E st deep fuel s groups v = .ok (b, w)) (n : Nat) (hn : Serder.sn s = .ok n) (fuel' : Nat) (hf : n < fuel') (v' : List Str) :
    ∃ w', verifyKeyEvent E st (some true) fuel' s groups v' = .ok (b, w') := by
  cases fuel with
  | zero => cases h
  | succ fuel =>
    rw [verifyKeyEvent_shallow hd] at h
    obtain ⟨c, hc, h⟩ := Res.bind_eq_ok.mp h
    obtain ⟨u, hu, h⟩ := Res.bind_eq_ok.mp h
    cases h
    have := (checkKeyEvent_ok hc).2.1
    rw [hn] at this
    obtain rfl := Res.ok.inj this
    exact deep_accepts hH (sure hr) hlen hp fuel' s groups c raw v' hread hc hu hf

/-- The inception and the interaction were taken in, and the rotation comes in. -/
def World.grownCase : Res (List Msg × Str × (Msg × Msg)) := do
  let a ← World.signed (World.ks [1, 2]) World.icp
  let b ← World.signed (World.ks [1, 2]) World.ixn
  let c ← World.signed (World.ks [3, 4]) World.rot
  let pre ← World.icp >>= Serder.pre
  .ok ([a.1, a.2, b.1, b.2], pre, c)

/-- The store then. -/
def World.grown (msgs : List Msg) : Store := (ingestLoop (World.env msgs) 5 none none Store.empty (msgs.take msgs.length) []).1

/-- The tests that the case must pass. -/
def World.grownTest (x : List Msg × Str × (Msg × Msg)) : Bool :=
  World.clear x.1 && World.allOf x.2.1 (x.1.take x.1.length) && decide (((World.grown x.1).kels x.2.1).length = 2) && match x.2.2 with
  | (.payload p, .group (.quadlets l) _) =>
    (match Serder.newWithRaw (fun _ => none) (toUtf8 p) with
      | .ok s => decide (Serder.sn s = .ok 2) && (verifyKeyEvent (World.reader x.1) (World.grown x.1) none 1 s l []).isOk
      | _ => false)
  | _ => false

/-- In `pairs`, the second part of a pair is a message of the stream. -/
theorem pairs_mem (msgs : List Msg) : ∀ m g, (m, g) ∈ pairs msgs → g ∈ msgs := by
  induction msgs using pairs.induct with
  | case1 m g rest ih =>
    intro a b hx
    rcases List.mem_cons.mp hx with h | hx
    · cases h
      simp
    · simp [ih a b hx]
  | case2 msgs hn =>
    match msgs, hn with
    | [], _ => intro a b hx; cases hx
    | [m], _ => intro a b hx; cases hx
    | m :: g :: rest, hn => exact absurd rfl (hn m g rest)

/-- The hypotheses of C89 are met: a store with two events, and a third that comes in. -/
example : ∃ (E : Env) (hist : List (Msg × Msg)) (st : Store) (pre : Str) (raw : Bytes) (s : Sad) (groups : List SigGroup) (r : Bool × List Str), HashOk E.H ∧ Reach E hist st ∧
    (∀ p, (st.kels p).length < 2 ^ 32) ∧ (∀ m l g, (m, Msg.group (.quadlets l) (.ok g)) ∈ hist → ReadsAs E g (.quadlets l)) ∧
    Serder.newWithRaw E.fl raw = .ok s ∧ verifyKeyEvent E st none 1 s groups [] = .ok r ∧ Serder.sn s = .ok 2 ∧ (st.kels pre).length = 2 := by
  obtain ⟨x, hx, h⟩ := World.holds_ok (r := World.grownCase) (f := World.grownTest) (by decide +kernel)
  unfold World.grownTest at h
  simp only [Bool.and_eq_true, decide_eq_true_eq] at h
  obtain ⟨⟨⟨h1, h2⟩, h3⟩, h4⟩ := h
  split at h4
  · rename_i p l gt hm
    split at h4
    · rename_i s hs
      simp only [Bool.and_eq_true, decide_eq_true_eq] at h4
      obtain ⟨h5, h6⟩ := h4
      have hreach : Reach (World.reader x.1) ([] ++ pairs x.1) (World.grown x.1) :=
        Reach.ingest (World.env x.1) 5 x.1.length [] x.1 none none .empty ⟨rfl, rfl, rfl, rfl⟩ (World.env_remembers _) rfl (by simp)
      cases hv : verifyKeyEvent (World.reader x.1) (World.grown x.1) none 1 s l [] with
      | ok r =>
        refine ⟨World.reader x.1, _, World.grown x.1, x.2.1, _, s, l, r, World.hash_ok, hreach, fun p => ?_, fun m l g hg => ?_, hs, hv, h5, h3⟩
        · by_cases hp : p = x.2.1
          · rw [hp, h3]
            decide
          · have := World.others (E := World.env x.1) rfl (World.env_remembers _) (fuel := 5) (deep := none) (verify := none) (by simp) h2 Store.empty p hp
            rw [show (World.grown x.1).kels p = _ from this]
            exact Nat.two_pow_pos 32
        · exact World.clear_ok h1 l g (pairs_mem _ _ _ (by simpa using hg))
      | err e => rw [hv] at h6; cases h6
      | panic => rw [hv] at h6; cases h6
    · cases h4
  · cases h4

end Keride.Props
