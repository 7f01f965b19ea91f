/-
C59 to C61: what taking in streams does to a store: it only grows, a place in a log is never taken over, and a stream
can be sent again after a crash.
-/
import Verif.Lemmas.Resend
import Verif.Props.KelSigners

namespace Keride.Props

open Matter Spec Sample

/-! ## C59 -/

/-- C59: whatever the stream and its outcome, with or without verification, nothing stored is lost, changed or moved. -/
theorem C59_append (E : Env) (fuel : Nat) (st : Store) (messages : Str) (deep verify : Option Bool) :
    Extends st (ingest E fuel st messages deep verify).1 := by
  unfold ingest
  split
  · exact ingestLoop_extends _ _ _
  · exact .refl _
  · exact .refl _

theorem stop {E : Env} {fuel : Nat} {deep verify : Option Bool} (st : Store) (msgs : List Msg) (v : List Str)
    (h : (ingestLoop E fuel deep verify st msgs v).2 ≠ .ok ()) :
    ∃ k, 2 * k < msgs.length ∧ ingestLoop E fuel deep verify st (msgs.take (2 * k)) v = ((ingestLoop E fuel deep verify st msgs v).1, .ok ()) := by
  induction msgs using pairs.induct generalizing st v with
  | case1 m g rest ih =>
    unfold ingestLoop at h
    split at h
    · rename_i e he
      refine ⟨0, by simp, ?_⟩
      simp [ingestLoop, he]
    · rename_i he
      refine ⟨0, by simp, ?_⟩
      simp [ingestLoop, he]
    · rename_i a v' he
      split at h
      · rename_i st' hp
        obtain ⟨k, h1, h2⟩ := ih st' v' h
        refine ⟨k + 1, by simp only [List.length_cons]; omega, ?_⟩
        rw [show 2 * (k + 1) = 2 * k + 2 from by omega]
        simp only [List.take_succ_cons, ingestLoop, he, hp]
        exact h2
      · rename_i st' r hr hp
        refine ⟨0, by simp, ?_⟩
        have hst : st' = st := by
          have : ∀ {text : Str} {st1 : Store}, tryInsert E st text st1 = (st', r) → st' = st := by
            intro text st1 ht
            unfold tryInsert at ht
            split at ht
            · cases ht
              rfl
            · cases ht
              exact absurd rfl hr
          cases a with
          | nothing => cases hp; rfl
          | keyEvent pre text => exact this hp
          | transactionEvent pre text => exact this hp
          | acdc text => exact this hp
        simp [ingestLoop, he, hp, hst]
  | case2 msgs hn =>
    match msgs, hn with
    | [], _ => simp [ingestLoop] at h
    | [m], _ =>
      refine ⟨0, by simp, ?_⟩
      simp only [Nat.mul_zero, List.take_zero, ingestLoop]
      split <;> rfl
    | m :: g :: rest, hn => exact absurd rfl (hn m g rest)

/-- C59: when a stream is refused, the store is as after a shorter stream that was accepted: the messages before the one
refused, each with its attachments. Of the refused message nothing is stored. -/
theorem C59_stop (E : Env) (fuel : Nat) (st : Store) (msgs : List Msg) (deep verify : Option Bool)
    (h : (ingestLoop E fuel deep verify st msgs []).2 ≠ .ok ()) :
    ∃ k, 2 * k < msgs.length ∧
      ingestLoop E fuel deep verify st (msgs.take (2 * k)) [] = ((ingestLoop E fuel deep verify st msgs []).1, .ok ()) :=
  stop st msgs [] h

/-! ## C60 -/

/-- C60: a key event for a place of a log that is taken verifies only if it is the event stored there: its SAID is the
SAID of that event. A key event for a place after the next one does not verify. -/
theorem C60_first_seen (E : Env) (st : Store) (deep : Option Bool) (fuel : Nat) (s : Sad) (l : List SigGroup) (v : List Str) (r : Bool × List Str)
    (h : verifyKeyEvent E st deep fuel s l v = .ok r) (pre q : Str) (n : Nat) (hpre : Serder.pre s = .ok pre) (hn : Serder.sn s = .ok n)
    (hq : Sadder.said E.chk s = .ok q) (hlen : (st.kels pre).length ≤ 2 ^ 32) :
    n ≤ (st.kels pre).length ∧ (r.1 = true ↔ n < (st.kels pre).length) ∧
      ∀ t, (st.kels pre)[n]? = some t → ∃ s', Serder.newWithRaw E.fl (toUtf8 t) = .ok s' ∧ Sadder.said E.chk s' = .ok q := by
  cases fuel with
  | zero => cases h
  | succ fuel =>
    unfold verifyKeyEvent at h
    rw [Res.bind_eq_ok] at h
    obtain ⟨c, h1, h⟩ := h
    rw [Res.bind_eq_ok] at h
    obtain ⟨w, -, h⟩ := h
    rw [Res.bind_eq_ok] at h
    obtain ⟨u, h2, h⟩ := h
    cases h
    obtain ⟨p1, p2⟩ := checkKeyEvent_place h1
    obtain ⟨d1, d2, d3, -⟩ := checkKeyEvent_ok h1
    rw [hpre] at d1
    rw [hn] at d2
    rw [hq] at d3
    have e1 := Res.ok.inj d1
    have e2 := Res.ok.inj d2
    have e3 := Res.ok.inj d3
    subst e1 e2 e3
    have hex : c.existing = true ↔ c.sn < (st.kels c.pre).length := by
      rw [← Bool.not_eq_false, p2]
      omega
    refine ⟨p1, hex, ?_⟩
    intro t ht
    have hlt := (List.getElem?_eq_some_iff.mp ht).1
    obtain ⟨t', s', k1, k2⟩ := (confirm_at (hex.mpr hlt)).mp h2
    rw [Nat.mod_eq_of_lt (by omega), ht] at k1
    cases k1
    exact ⟨s', k2⟩

/-- C60: an event that conflicts with the one stored at its place is refused, and changes nothing. -/
theorem C60_conflict (E : Env) (fuel : Nat) (st : Store) (deep verify : Option Bool) (hv : verify ≠ some false) (p : Str) (g : Msg) (s : Sad)
    (hs : Serder.newWithRaw E.fl (toUtf8 p) = .ok s) (pre q : Str) (n : Nat) (hpre : Serder.pre s = .ok pre) (hn : Serder.sn s = .ok n)
    (hq : Sadder.said E.chk s = .ok q)
    (ht : HasText (str% "t") (str% "icp") s ∨ HasText (str% "t") (str% "rot") s ∨ HasText (str% "t") (str% "ixn") s)
    (hlen : (st.kels pre).length ≤ 2 ^ 32) (t : Str) (hst : (st.kels pre)[n]? = some t)
    (hne : ∀ s', Serder.newWithRaw E.fl (toUtf8 t) = .ok s' → Sadder.said E.chk s' ≠ .ok q) (rest : List Msg) :
    (ingestLoop E fuel deep verify st (.payload p :: g :: rest) []).1 = st ∧ (ingestLoop E fuel deep verify st (.payload p :: g :: rest) []).2 ≠ .ok () := by
  have hno : ∀ x, ingestOne E st fuel deep verify (.payload p) (some g) [] ≠ .ok x := by
    rintro ⟨a, v'⟩ h
    unfold ingestOne at h
    rw [show (Msg.payload p).payloadText = .ok p from rfl, Res.ok_bind] at h
    dsimp only at h
    rw [Res.bind_eq_ok] at h
    obtain ⟨info, hi, h⟩ := h
    have hk : info.ident = str% "KERI" := serder_sniff hs hi
    rw [if_pos hk] at h
    unfold ingestSerder at h
    rw [hs, Res.ok_bind, hq, Res.ok_bind] at h
    dsimp only at h
    rw [Res.bind_eq_ok] at h
    obtain ⟨⟨gr, gt⟩, h3, h⟩ := h
    rw [Res.bind_eq_ok] at h
    obtain ⟨x, h4, h⟩ := h
    rw [Res.bind_eq_ok] at h
    obtain ⟨ilk, h5, h⟩ := h
    have hx := index_text' h4 h5
    have hilk : ilk = str% "icp" ∨ ilk = str% "rot" ∨ ilk = str% "ixn" := by
      unfold HasText at hx ht
      rcases ht with k | k | k <;> rw [k] at hx <;> simp at hx <;> simp [← hx]
    rw [if_pos hilk] at h
    cases gr with
    | couples l => cases h
    | other => cases h
    | quadlets l =>
      dsimp only at h
      rw [Res.bind_eq_ok] at h
      obtain ⟨r, h6, -⟩ := h
      have hg : verify.getD true = true := by
        cases verify with
        | none => rfl
        | some b => cases b with
          | true => rfl
          | false => exact absurd rfl hv
      unfold verifyOrSeen at h6
      rw [hg] at h6
      simp only [Bool.true_and, List.contains_nil, Bool.not_false, if_true] at h6
      obtain ⟨-, -, k⟩ := C60_first_seen E st deep fuel s l _ r h6 pre q n hpre hn hq hlen
      obtain ⟨s', k1, k2⟩ := k t hst
      exact hne s' k1 k2
  unfold ingestLoop
  cases h : ingestOne E st fuel deep verify (.payload p) (some g) [] with
  | ok x => exact absurd h (hno x)
  | err e => exact ⟨rfl, by simp⟩
  | panic => exact ⟨rfl, by simp⟩

/-- The kinds of key events. -/
def isKeyKind : Option Value → Bool
  | some (.str t) => decide (t = str% "icp" ∨ t = str% "rot" ∨ t = str% "ixn")
  | _ => false

/-- The example world's log, an event sent again, and another interaction for the place of the stored one: what the
hypotheses ask for. -/
def rival : Res Sad := do
  let i ← World.icp
  let p ← Serder.pre i
  let d ← Sadder.said true i
  Sample.interact (World.env []) p d (some 1) (some (.arr [.obj [(str% "i", .str p)]])) none none

/-- The store holds three events of `pre`, its event 1 is the stored one, verifies, and `s'` has another SAID. -/
def rivals (l : List Msg) (pre : Str) (groups : List SigGroup) (s s' : Sad) : Bool :=
  let st := (ingestLoop (World.env l) 5 none none Store.empty l []).1
  match (st.kels pre)[1]? with
  | none => false
  | some t =>
    decide (Serder.pre s = .ok pre) && decide (Serder.pre s' = .ok pre) && decide (Serder.sn s = .ok 1) && decide (Serder.sn s' = .ok 1) &&
    decide ((st.kels pre).length = 3) && (verifyKeyEvent (World.env l) st none 5 s groups []).isOk &&
    (match Serder.newWithRaw (fun _ => none) (toUtf8 t), Sadder.said true s, Sadder.said true s' with
      | .ok x, .ok q, .ok q' => decide (Sadder.said true x = .ok q) && decide (q ≠ q')
      | _, _, _ => false) &&
    (match Serder.newWithRaw (fun _ => none) s'.raw with
      | .ok x => decide (Serder.sn x = .ok 1) && isKeyKind (field (str% "t") x.ked)
      | _ => false)

example : (match World.stream, World.icp >>= Serder.pre, World.signed (World.ks [1, 2]) World.ixn, World.ixn, rival with
    | .ok l, .ok pre, .ok (_, .group (.quadlets g) _), .ok s, .ok s' => rivals l pre g s s'
    | _, _, _, _, _ => false) = true := by decide +kernel

/-! ## C61 -/

theorem recover {E : Env} (hR : Remembers E) {fuel : Nat} {deep verify : Option Bool} (hv : verify ≠ some false) (stF : Store)
    (hlk : ∀ p, (stF.kels p).length ≤ 2 ^ 32) (hlt : ∀ p, (stF.tels p).length ≤ 2 ^ 32) (st : Store) (msgs : List Msg) (v : List Str)
    (hh : ∀ q ∈ v, Holds E st q) (hk : EventsOnly msgs) (hd : deep = some false ∨ deep ≠ some true ∧ KeyEventsOnly E.fl msgs)
    (h : ingestLoop E fuel deep verify st msgs v = (stF, .ok ())) (st' out : Store)
    (hs : (out = stF ∧ ∃ n, st' = (ingestLoop E fuel deep verify st (msgs.take n) v).1) ∨
      (out = st' ∧ Extends stF st' ∧ (∀ p, (st'.kels p).length ≤ 2 ^ 32) ∧ ∀ p, (st'.tels p).length ≤ 2 ^ 32)) :
    ingestLoop E fuel deep verify st' msgs v = (out, .ok ()) := by
  induction msgs using pairs.induct generalizing st v with
  | case1 m g rest ih =>
    have h' := h
    unfold ingestLoop at h
    split at h
    · cases h
    · cases h
    rename_i a v' he
    split at h
    · rename_i st1 hp
      have hfr := ingestOne_fresh hR hv hh he
      have hh1 := fresh_known hh hfr hp
      have e0 : Extends st st1 := by
        have := perform_extends (E := E) (st := st) (a := a)
        rw [hp] at this
        exact this
      have e1 : Extends st1 stF := by
        have := ingestLoop_extends (E := E) (fuel := fuel) (deep := deep) (verify := verify) st1 rest v'
        rw [h] at this
        exact this
      cases m with
      | group x y => cases he
      | payload p =>
        have hk' : EventsOnly rest := fun p hp => hk p (by simp [hp])
        have hd' : deep = some false ∨ deep ≠ some true ∧ KeyEventsOnly E.fl rest := hd.imp id fun ⟨a, b⟩ => ⟨a, fun p hp => b p (by simp [hp])⟩
        have step : ∀ st', Extends st1 st' → (∀ p, (st'.kels p).length ≤ 2 ^ 32) → (∀ p, (st'.tels p).length ≤ 2 ^ 32) →
            ingestLoop E fuel deep verify st' (.payload p :: g :: rest) v = ingestLoop E fuel deep verify st' rest v' := by
          intro st' hx l1 l2
          have := ingestOne_ext hR (e0.trans hx) hv hh (hk p (by simp)) (hd.imp id fun ⟨a, b⟩ => ⟨a, b p (by simp)⟩) he l1 l2
            (by rw [perform_done hp]; exact hx)
          rw [ingestLoop, this]
          rfl
        rcases hs with ⟨rfl, n, hn⟩ | ⟨rfl, hx, l1, l2⟩
        · match n with
          | 0 =>
            have : st' = st := by rw [hn]; simp [ingestLoop]
            rw [this]
            exact h'
          | 1 =>
            have : st' = st := by
              rw [hn]
              simp only [List.take_succ_cons, List.take_zero, ingestLoop]
              split <;> rfl
            rw [this]
            exact h'
          | n + 2 =>
            have hn' : st' = (ingestLoop E fuel deep verify st1 (rest.take n) v').1 := by
              rw [hn]
              simp only [List.take_succ_cons, ingestLoop, he, hp]
            have x1 : Extends st1 st' := hn' ▸ ingestLoop_extends st1 _ v'
            have x2 : Extends st' out := by
              have := ingestLoop_take (E := E) (fuel := fuel) (deep := deep) (verify := verify) st1 rest v' n
              rw [h, ← hn'] at this
              exact this
            rw [step st' x1 (fun p => ((x2.kels p).length_le).trans (hlk p)) (fun p => ((x2.tels p).length_le).trans (hlt p))]
            exact ih st1 v' hh1 hk' hd' h (.inl ⟨rfl, n, hn'⟩)
        · rw [step out (e1.trans hx) l1 l2]
          exact ih st1 v' hh1 hk' hd' h (.inr ⟨rfl, hx, l1, l2⟩)
    · rename_i hne hp
      cases h
      exact absurd rfl hne
  | case2 msgs hn =>
    match msgs, hn with
    | [], _ =>
      simp only [List.take_nil, ingestLoop, Prod.mk.injEq, and_true] at h hs ⊢
      subst h
      rcases hs with ⟨rfl, -, rfl⟩ | ⟨rfl, -⟩ <;> rfl
    | [m], _ =>
      unfold ingestLoop at h
      split at h
      · rename_i x hx
        exact absurd hx ingestOne_none
      · cases h
      · cases h
    | m :: g :: rest, hn => exact absurd rfl (hn m g rest)

/-- C61: a verifier that was killed while it took in a stream of events, or whose store failed, is brought to the same
state by sending the whole stream again. For a stream of key events with shallow verification, or key events and
transaction events without any deep verification. -/
theorem C61_recover (E : Env) (hR : Remembers E) (fuel : Nat) (deep verify : Option Bool) (hv : verify ≠ some false) (st st' : Store) (msgs : List Msg)
    (hk : EventsOnly msgs) (hd : deep = some false ∨ deep ≠ some true ∧ KeyEventsOnly E.fl msgs)
    (h : ingestLoop E fuel deep verify st msgs [] = (st', .ok ())) (hlen : ∀ p, (st'.kels p).length ≤ 2 ^ 32 ∧ (st'.tels p).length ≤ 2 ^ 32) (n : Nat) :
    ingestLoop E fuel deep verify (ingestLoop E fuel deep verify st (msgs.take n) []).1 msgs [] = (st', .ok ()) :=
  recover hR hv st' (fun p => (hlen p).1) (fun p => (hlen p).2) st msgs [] (by simp) hk hd h _ _ (.inl ⟨rfl, n, rfl⟩)

/-- C61: a stream that was accepted is accepted again at any later time, and changes nothing. -/
theorem C61_again (E : Env) (hR : Remembers E) (fuel : Nat) (deep verify : Option Bool) (hv : verify ≠ some false) (st st' later : Store) (msgs : List Msg)
    (hk : EventsOnly msgs) (hd : deep = some false ∨ deep ≠ some true ∧ KeyEventsOnly E.fl msgs)
    (h : ingestLoop E fuel deep verify st msgs [] = (st', .ok ())) (hl : Extends st' later)
    (hlen : ∀ p, (later.kels p).length ≤ 2 ^ 32 ∧ (later.tels p).length ≤ 2 ^ 32) :
    ingestLoop E fuel deep verify later msgs [] = (later, .ok ()) :=
  recover hR hv st' (fun p => ((hl.kels p).length_le).trans (hlen p).1) (fun p => ((hl.tels p).length_le).trans (hlen p).2) st msgs [] (by simp) hk hd h _ _
    (.inr ⟨rfl, hl, fun p => (hlen p).1, fun p => (hlen p).2⟩)

/-- Whether a message is a key event of the kinds the theorems speak of. -/
def isKeyEvent : Msg → Bool
  | .payload p =>
    (match sniff (toUtf8 p) with
      | .ok r => decide (r.ident = str% "KERI")
      | _ => true) &&
    (match Serder.newWithRaw (fun _ => none) (toUtf8 p) with
      | .ok s => isKeyKind (field (str% "t") s.ked)
      | _ => true)
  | .group _ _ => true

theorem isKeyEvent_ok {l : List Msg} (h : l.all isKeyEvent = true) : EventsOnly l ∧ KeyEventsOnly (fun _ => none) l := by
  constructor
  · intro p hp r hr
    have := List.all_eq_true.mp h _ hp
    unfold isKeyEvent at this
    dsimp only at this
    rw [hr, Bool.and_eq_true] at this
    exact of_decide_eq_true this.1
  · intro p hp s hs
    have := List.all_eq_true.mp h _ hp
    unfold isKeyEvent at this
    dsimp only at this
    rw [hs, Bool.and_eq_true] at this
    have := this.2
    dsimp only at this
    unfold isKeyKind at this
    split at this
    · rename_i t ht
      unfold HasText
      rw [ht]
      rcases of_decide_eq_true this with rfl | rfl | rfl
      · exact .inl rfl
      · exact .inr (.inl rfl)
      · exact .inr (.inr rfl)
    · cases this

/-- The stream is taken in, and consists of key events. -/
def taken (stream : Res (List Msg)) : Bool :=
  match stream with
  | .ok l => (ingestLoop (World.env l) 5 none none Store.empty l []).2.isOk && l.all isKeyEvent && decide (l.length = 6)
  | _ => false

theorem taken_ok {stream : Res (List Msg)} (h : taken stream = true) : ∃ msgs st', msgs.length = 6 ∧ EventsOnly msgs ∧
    KeyEventsOnly (fun _ => none) msgs ∧ ingestLoop (World.env msgs) 5 none none Store.empty msgs [] = (st', .ok ()) ∧
    ∀ p, (st'.kels p).length ≤ 2 ^ 32 ∧ (st'.tels p).length ≤ 2 ^ 32 := by
  unfold taken at h
  split at h
  · rename_i l
    rw [Bool.and_eq_true, Bool.and_eq_true] at h
    obtain ⟨⟨h1, h2⟩, h3⟩ := h
    have h3 := of_decide_eq_true h3
    obtain ⟨k1, k2⟩ := isKeyEvent_ok h2
    refine ⟨l, (ingestLoop (World.env l) 5 none none Store.empty l []).1, h3, k1, k2, ?_, ?_⟩
    · obtain ⟨u, hu⟩ := Res.isOk_iff.mp h1
      rw [← hu]
    · intro p
      have := ingestLoop_length (E := World.env l) (fuel := 5) (deep := none) (verify := none) Store.empty l [] p
      rw [h3] at this
      simp only [Store.empty, List.length_nil] at this
      exact ⟨this.1.trans (by norm_num), this.2.trans (by norm_num)⟩
  · cases h

/-- The stream of three signed events of the example world meets the hypotheses. -/
example : ∃ msgs st', msgs.length = 6 ∧ Remembers (World.env msgs) ∧ EventsOnly msgs ∧ KeyEventsOnly (World.env msgs).fl msgs ∧
    ingestLoop (World.env msgs) 5 none none Store.empty msgs [] = (st', .ok ()) ∧ Extends st' st' ∧
    ∀ p, (st'.kels p).length ≤ 2 ^ 32 ∧ (st'.tels p).length ≤ 2 ^ 32 := by
  obtain ⟨msgs, st', h1, h2, h3, h4, h5⟩ := taken_ok (stream := World.stream) (by decide +kernel)
  exact ⟨msgs, st', h1, World.env_remembers _, h2, h3, h4, .refl _, h5⟩

end Keride.Props
