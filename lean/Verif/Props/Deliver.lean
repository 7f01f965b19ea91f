/-
C70: what a controller builds and signs with the library, every verifier using it accepts.
-/
import Verif.Props.Build
import Verif.Lemmas.History

namespace Keride.Props

open Spec Sample Matter

/-- C70: the log of a controller that uses the library, events and signatures, is a valid key event log. -/
theorem C70_valid (E : Env) (hC : CryptoOk E.C) (hH : HashOk E.H) (pre : Str) (log : List Entry) (ks nks : KeySet) (h : History E pre log ks nks)
    (hlen : log.length ≤ 2 ^ 32) : ValidLog E.H E.C E.chk E.fl pre log := (history_sound hC hH h hlen).valid

/-- C70: a verifier that holds the first events of a controller's log, possibly none, and is sent the others in order,
accepts them all, with nothing else changed, unless the texts digested for two of the events are different and have the same digest. If it is asked to verify all earlier
events again, its stack must be deep enough for them, and it must read the signatures that it keeps as it received them. -/
theorem C70_delivered (E E' : Env) (hC : CryptoOk E.C) (hH : HashOk E.H) (hE : SameCode E E') (hstore : ∀ st t, E'.refuses st t = false)
    (pre : Str) (old new : List Entry) (ks nks : KeySet) (h : History E pre (old ++ new) ks nks) (hlen : (old ++ new).length ≤ 2 ^ 32)
    (st : Store) (hst : List.Forall₂ (fun t e => Serder.newWithRaw E.fl (toUtf8 t) = .ok e.sad) (st.kels pre) old)
    (msgs : List Msg) (stored : List Str) (hsent : Transmits new msgs stored) (fuel : Nat) (deep verify : Option Bool)
    (hd : deep = some true → (old ++ new).length ≤ fuel + 1 ∧ KeepsLog E' deep (st.kels pre ++ stored) (old ++ new)) (hv : verify ≠ some false) :
    (∃ st', ingestLoop E' (fuel + 1) deep verify st msgs [] = (st', .ok ()) ∧ st'.kels pre = st.kels pre ++ stored ∧
      (∀ p, p ≠ pre → st'.kels p = st.kels p) ∧ st'.tels = st.tels ∧ st'.acdcs = st.acdcs) ∨
    Collision E.H (str% "E") (LogText (old ++ new)) (LogText (old ++ new)) := by
  by_cases hc : Collision E.H (str% "E") (LogText (old ++ new)) (LogText (old ++ new))
  · exact .inr hc
  · left
    obtain ⟨c1, c2, c3, c4⟩ := hE
    have hs := history_sound (E := E') (by rw [c4]; exact hC) (by rw [c3]; exact hH) (History.other ⟨c1, c2, c3, c4⟩ h) hlen
    obtain ⟨l, rfl, hl, rfl, rfl⟩ := hsent
    refine ⟨_, hs.deliver (by rw [c3]; exact hH) (by rw [c3]; exact hc) hstore hv hlen l hl old rfl st (by rw [c2]; exact hst) [] (by simp) hd, ?_, ?_, rfl, rfl⟩
    · simp [withEvents]
    · intro p hp
      simp [withEvents, hp]

/-- C70: with a numeric threshold, or the default one, all keys together meet the threshold of an event the library
builds. -/
theorem C70_reaches (E : Env) (keys : List Str) (sith : Option Value) (ndigs : Option (List Str)) (nsith : Option Value) (toad : Option Nat)
    (wits cnfg : Option (List Str)) (data : Option (List Value)) (version : Option Version) (kind : Option Str) (code : Str) (intive : Option Bool)
    (s : Sad) (hcode : code ∈ digests) (hsith : sith = none ∨ ∃ i, sith = some (.int i))
    (h : incept E keys sith ndigs nsith toad wits cnfg data version kind (some code) intive none = .ok s) :
    Reaches (Serder.tholder E.chk E.fl s) keys.length := by
  obtain ⟨vs, t, kt, nt, bt, th, nth, pre, hb, h1, h2, h3, h4, h5, h6, h7, h8, -⟩ := incept_ok hcode h
  exact ⟨th, h4, number_covers h2 (by rcases hsith with rfl | ⟨i, rfl⟩; exacts [⟨_, rfl⟩, ⟨_, rfl⟩]) (sensible_of h2 h6 h8)⟩

/-- C70: the same for rotations, for its own keys and for the next ones. -/
theorem C70_reaches_rotate (E : Env) (pre dig : Str) (keys : List Str) (ilk : Option Str) (sn : Nat) (sith : Option Value)
    (ndigs : Option (List Str)) (nsith : Option Value) (toad : Option Nat) (wits cuts adds : Option (List Str)) (data : Option (List Value))
    (version : Option Version) (kind : Option Str) (intive : Option Bool) (s : Sad) (hsn : sn < 2 ^ 128)
    (h : rotate E pre keys dig ilk sn sith ndigs nsith toad wits cuts adds data version kind intive = .ok s) :
    ((sith = none ∨ ∃ i, sith = some (.int i)) → Reaches (Serder.tholder E.chk E.fl s) keys.length) ∧
    ((nsith = none ∨ ∃ i, nsith = some (.int i)) → Reaches (Serder.ntholder E.chk E.fl s) (ndigs.getD []).length) := by
  obtain ⟨vs, t, kt, nt, bt, th, nth, hb, h1, h1', h2, h3, h4, h5, h6, h7, h8, h8', -⟩ := rotate_ok hsn h
  constructor
  · intro hsith
    exact ⟨th, h4, number_covers h2 (by rcases hsith with rfl | ⟨i, rfl⟩; exacts [⟨_, rfl⟩, ⟨_, rfl⟩]) (sensible_of h2 h6 h8)⟩
  · intro hsith
    exact ⟨nth, h5, number_covers h3 (by rcases hsith with rfl | ⟨i, rfl⟩; exacts [⟨_, rfl⟩, ⟨_, rfl⟩]) (sensible_of h3 h7 h8')⟩

/-- C74, partial: an inception with an identifier that is a digest, whose threshold its keys meet together, is accepted by a
verifier that knows nothing of the identifier. -/
theorem C74_partial (E : Env) (hC : CryptoOk E.C) (hH : HashOk E.H) (hstore : ∀ st t, E.refuses st t = false)
    (ks nks : KeySet) (keys ndigs : List Str) (sith nsith : Option Value) (toad : Option Nat) (wits cnfg : Option (List Str))
    (data : Option (List Value)) (version : Option Version) (kind : Option Str) (intive : Option Bool) (s : Sad) (pre t g : Str) (rnd : Nat)
    (sigs : List Siger) (usable : Usable ks) (own : ks.verfersQb64 E = .ok keys) (next : nks.digersQb64 E = .ok ndigs)
    (built : incept E keys sith (some ndigs) nsith toad wits cnfg data version kind (some (str% "E")) intive none = .ok s)
    (names : Serder.pre s = .ok pre) (reached : Reaches (Serder.tholder E.chk E.fl s) ks.keys.length)
    (signed : MadeBy E ks rnd s.raw sigs) (sendable : Sendable s) (text : s.raw = toUtf8 t) (st : Store) (hst : st.kels pre = [])
    (fuel : Nat) (deep verify : Option Bool) (hv : verify ≠ some false) :
    ∃ st', ingestLoop E (fuel + 1) deep verify st [.payload t, .group (.quadlets [.controller sigs]) (.ok g)] [] = (st', .ok ()) ∧ st'.kels pre = [t ++ g] := by
  have h := History.incept (E := E) ks nks keys ndigs sith nsith toad wits cnfg data version kind intive s pre rnd sigs usable own next built names reached signed sendable
  have hs := history_sound hC hH h (by simp)
  refine ⟨_, (hs.accepts hH hstore hv (by simp) (e := ⟨s, [.controller sigs]⟩) (g := g) (fuel := fuel) (deep := deep) text (a := []) (b := []) rfl (by rw [hst]; exact .nil)
    (fun _ => ⟨by simp, by rw [hst]; exact .nil⟩)).once, ?_⟩
  unfold Store.insertKeyEvent append
  simp [hst]

/-- C74: no log in a verifier has an inception whose identifier is not its SAID. -/
theorem C74_basic (E : Env) (hH : HashOk E.H) (hist : List (Msg × Msg)) (st : Store) (h : Reach E hist st) (pre : Str)
    (hlen : (st.kels pre).length ≤ 2 ^ 32) (s : Sad) (q : Str) (hicp : HasText (str% "t") (str% "icp") s) (hsaid : Sadder.said E.chk s = .ok q)
    (hne : ¬ HasText (str% "i") q s) : ∀ t ∈ st.kels pre, Serder.newWithRaw E.fl (toUtf8 t) ≠ .ok s := by
  intro t ht hr
  obtain ⟨log, h1, h2⟩ := C56_log E hH hist st h pre hlen
  obtain ⟨i, hi⟩ := List.getElem?_of_mem ht
  obtain ⟨e, he, payload, t', g, -, -, -, -, h3⟩ := forall₂_get h1 hi
  rw [hr] at h3
  cases h3
  have hmem := List.mem_of_getElem? he
  rcases h2 with rfl | h2
  · simp at hmem
  · have key : ∀ x ∈ log, HasText (str% "t") (str% "icp") x.sad → HasText (str% "i") pre x.sad ∧ Sadder.said E.chk x.sad = .ok pre := by
      clear hmem he h1
      induction h2 with
      | incept x keys t sigs type ident sn said => intro y hy _; rw [List.mem_singleton.mp hy]; exact ⟨ident, said⟩
      | rotate log x prev est psaid keys digests t n sigs before type ident sn fields digest last prior chained own threshold signed latest next
          nextThreshold committed ih =>
        intro y hy hty
        rcases List.mem_append.mp hy with hy | hy
        · exact ih y hy hty
        · rw [List.mem_singleton.mp hy] at hty
          unfold HasText at hty type
          rw [type] at hty
          simp at hty
      | interact log x prev est psaid keys t sigs before type ident sn fields digest last prior chained latest own threshold signed ih =>
        intro y hy hty
        rcases List.mem_append.mp hy with hy | hy
        · exact ih y hy hty
        · rw [List.mem_singleton.mp hy] at hty
          unfold HasText at hty type
          rw [type] at hty
          simp at hty
    obtain ⟨k1, k2⟩ := key _ hmem hicp
    rw [hsaid] at k2
    cases k2
    exact hne k1

/-! ## A controller -/

/-- A check that a key set is `Usable`. -/
def World.usable (k : KeySet) : Bool := decide (k.offset = 0) && k.keys.all fun t => decide ('=' ∉ t)

theorem World.usable_ok {k : KeySet} (h : World.usable k = true) : Usable k := by
  unfold World.usable at h
  rw [Bool.and_eq_true] at h
  exact ⟨of_decide_eq_true h.1, fun t ht => of_decide_eq_true (List.all_eq_true.mp h.2 t ht)⟩

/-- What a controller with two keys, two next keys and one key after these does: create, interact, rotate. -/
def World.story : Bool :=
  World.holds (World.ks [1, 2]) fun a => World.holds (World.ks [3, 4]) fun b => World.holds (World.ks [5]) fun c =>
  World.holds (a.verfersQb64 (World.env [])) fun ka => World.holds (b.verfersQb64 (World.env [])) fun kb =>
  World.holds (b.digersQb64 (World.env [])) fun db => World.holds (c.digersQb64 (World.env [])) fun dc =>
  World.holds (incept (World.env []) ka (some (.int 2)) (some db) none none none none none none none (some (str% "E")) none none) fun s0 =>
  World.holds (Serder.pre s0) fun pre => World.holds (Sadder.said true s0) fun d0 => World.holds (a.sign (World.env []) 0 s0.raw none) fun _ =>
  World.holds (interact (World.env []) pre d0 (some 1) none none none) fun s1 =>
  World.holds (Sadder.said true s1) fun d1 => World.holds (a.sign (World.env []) 0 s1.raw none) fun _ =>
  World.holds (rotate (World.env []) pre kb d1 none 2 none (some dc) none none none none none none none none none) fun s2 =>
  World.holds (b.sign (World.env []) 0 s2.raw none) fun _ =>
  World.holds (Serder.ntholder true (World.env []).fl s0) fun t => World.usable a && World.usable b && World.sendable s0 && World.sendable s1 && World.sendable s2 &&
    decide (ka.length = a.keys.length) && decide (kb.length = b.keys.length) &&
    match t with
    | some t => World.holds t.num fun n => decide (n = some 1) && decide (1 ≤ b.keys.length)
    | none => false

theorem World.history : ∃ pre log ks nks, log.length = 3 ∧ History (World.env []) pre log ks nks := by
  have h : World.story = true := by decide +kernel
  unfold World.story at h
  obtain ⟨a, ha, h⟩ := World.holds_ok h
  obtain ⟨b, hb, h⟩ := World.holds_ok h
  obtain ⟨c, hc, h⟩ := World.holds_ok h
  obtain ⟨ka, hka, h⟩ := World.holds_ok h
  obtain ⟨kb, hkb, h⟩ := World.holds_ok h
  obtain ⟨db, hdb, h⟩ := World.holds_ok h
  obtain ⟨dc, hdc, h⟩ := World.holds_ok h
  obtain ⟨s0, hs0, h⟩ := World.holds_ok h
  obtain ⟨pre, hpre, h⟩ := World.holds_ok h
  obtain ⟨d0, hd0, h⟩ := World.holds_ok h
  obtain ⟨g0, hg0, h⟩ := World.holds_ok h
  obtain ⟨s1, hs1, h⟩ := World.holds_ok h
  obtain ⟨d1, hd1, h⟩ := World.holds_ok h
  obtain ⟨g1, hg1, h⟩ := World.holds_ok h
  obtain ⟨s2, hs2, h⟩ := World.holds_ok h
  obtain ⟨g2, hg2, h⟩ := World.holds_ok h
  obtain ⟨t, ht, h⟩ := World.holds_ok h
  simp only [Bool.and_eq_true, decide_eq_true_eq] at h
  obtain ⟨⟨⟨⟨⟨⟨⟨h1, h2⟩, h3⟩, h4⟩, h5⟩, h6⟩, h7⟩, h8⟩ := h
  cases t with
  | none => cases h8
  | some t =>
    obtain ⟨n, hn, h8⟩ := World.holds_ok h8
    rw [Bool.and_eq_true, decide_eq_true_eq, decide_eq_true_eq] at h8
    obtain ⟨rfl, h9⟩ := h8
    have hr0 := C70_reaches (World.env []) _ _ _ _ _ _ _ _ _ _ _ _ _ (by decide) (.inr ⟨_, rfl⟩) hs0
    have hr2 := (C70_reaches_rotate (World.env []) _ _ _ _ _ _ _ _ _ _ _ _ _ _ _ _ _ (by decide) hs2).1 (.inl rfl)
    rw [h6] at hr0
    rw [h7] at hr2
    have e0 := History.incept a b ka db _ none none none none none none none none s0 pre 0 g0 (World.usable_ok h1) hka hdb hs0 hpre hr0 (made hg0) (World.sendable_ok h3)
    have e1 := History.interact pre _ a b _ d0 none none none s1 0 g1 e0 rfl hd0 hs1 (made hg1) (World.sendable_ok h4)
    have ht0 := (C69_incept (World.env []) World.hash_ok _ _ _ _ _ _ _ _ _ _ _ _ _ (by decide) hs0 (World.sendable_ok h3)).2.2.2.1
    have ht1 := (C69_interact (World.env []) World.hash_ok _ _ _ _ _ _ _ (by decide) hs1 (World.sendable_ok h4)).2.2.2.1
    refine ⟨pre, _, b, c, rfl, History.rotate pre _ a b c _ _ d1 kb dc none none none none none none none none none none s2 0 g2 e1 rfl hd1 (World.usable_ok h2) hkb hdc hs2
      hr2 ⟨[], [_], rfl, .inl ht0, ?_⟩ ⟨t, ht, .inl ⟨1, hn, by omega, h9⟩⟩ (made hg2) (World.sendable_ok h5)⟩
    intro x hx
    rw [List.mem_singleton.mp hx]
    unfold HasText at ht1
    rintro (h | h) <;> (unfold HasText at h; dsimp only at h; rw [ht1] at h; simp at h)

example : ∃ pre log ks nks, log.length = 3 ∧ History (World.env []) pre log ks nks ∧ CryptoOk (World.env []).C ∧ HashOk (World.env []).H ∧
    (∃ msgs stored, Transmits log msgs stored) ∧ ∀ st t, (World.env []).refuses st t = false := by
  obtain ⟨pre, log, ks, nks, h1, h2⟩ := World.history
  refine ⟨pre, log, ks, nks, h1, h2, World.crypto_ok, World.hash_ok, ?_, fun _ _ => rfl⟩
  have hs := history_sound World.crypto_ok World.hash_ok h2 (by omega)
  have key : ∀ l : List Entry, (∀ e ∈ l, ∃ t, e.sad.raw = toUtf8 t) → ∃ msgs stored, Transmits l msgs stored := by
    intro l hl
    have : ∃ l' : List (Entry × Str × Str), l = l'.map Prod.fst ∧ ∀ x ∈ l', x.1.sad.raw = toUtf8 x.2.1 := by
      clear hs h2 h1
      induction l with
      | nil => exact ⟨[], rfl, by simp⟩
      | cons e l ih =>
        obtain ⟨l', a, b⟩ := ih fun e he => hl e (by simp [he])
        obtain ⟨t, ht⟩ := hl e (by simp)
        refine ⟨(e, t, str% "-AAB") :: l', by simp [a], ?_⟩
        intro x hx
        rcases List.mem_cons.mp hx with rfl | hx
        · exact ht
        · exact b x hx
    obtain ⟨l', a, b⟩ := this
    exact ⟨_, _, l', a, b, rfl, rfl⟩
  exact key log hs.text

/-- An inception with one key and no kind of identifier asked for, signed. -/
def World.basic : Res (Str × Sad × List Msg) := do
  let k ← World.ks [1]
  let n ← World.ks [2]
  let x ← k.verfersQb64 (World.env [])
  let y ← n.digersQb64 (World.env [])
  let s ← incept (World.env []) x none (some y) none none none none none none none none none none
  let p ← Serder.pre s
  let m ← World.signed (.ok k) (.ok s)
  .ok (p, s, [m.1, m.2])

/-- C74 is false for the default arguments of `incept`: with one key and no kind of identifier asked for, the identifier is
the key, and verification refuses the event. (`C74_basic`: no verifier ever has such an event in a log.) -/
theorem C74_false : ∃ pre s msgs, World.basic = .ok (pre, s, msgs) ∧ Sadder.said true s ≠ .ok pre ∧
    (ingestLoop (World.env msgs) 5 none none Store.empty msgs []).2.isErr = true := by
  obtain ⟨⟨pre, s, msgs⟩, h1, h2⟩ := World.holds_ok (r := World.basic) (f := fun x => decide (Sadder.said true x.2.1 ≠ .ok x.1) &&
    (ingestLoop (World.env x.2.2) 5 none none Store.empty x.2.2 []).2.isErr) (by decide +kernel)
  rw [Bool.and_eq_true] at h2
  exact ⟨pre, s, msgs, h1, of_decide_eq_true h2.1, h2.2⟩

end Keride.Props
