/-
What is kept by every message a call takes in is kept by calls that share a store.
-/
import Verif.Lemmas.Resend
import Verif.Lemmas.Tel
import Verif.Spec.Together

namespace Keride.Sample

open Matter Spec

/-- What a call under way relies on. -/
structure CallOk (E : Env) (hist : List (Msg × Msg)) (st : Store) (c : Call) : Prop where
  code : SameCode E c.env
  remembers : Remembers c.env
  verifies : c.verify ≠ some false
  received : ∀ x ∈ pairs c.left, x ∈ hist
  noted : ∀ q ∈ c.noted, Sample.Holds c.env st q

theorem CallOk.mono {E : Env} {hist more : List (Msg × Msg)} {st st' : Store} {c : Call} (h : CallOk E hist st c) (he : Extends st st') :
    CallOk E (hist ++ more) st' c :=
  ⟨h.code, h.remembers, h.verifies, fun x hx => List.mem_append_left _ (h.received x hx), fun q hq =>
    Holds.mono (st := st) (st' := st') (fun p _ ht => (he.kels p).subset ht) (fun p _ ht => (he.tels p).subset ht) (fun _ ht => he.acdcs.subset ht) (h.noted q hq)⟩



/-- A property of stores kept by every insertion of a checked message is kept by calls that share a store. -/
theorem together_induct {E : Env} (I : List (Msg × Msg) → Store → Prop) (start : I [] Store.empty)
    (more : ∀ hist x st, I hist st → I (hist ++ x) st)
    (step : ∀ E' hist st fuel deep m g v a v' st' r, SameCode E E' → I hist st → (∀ q ∈ v, Sample.Holds E' st q) → (m, g) ∈ hist →
      Fresh E' st fuel deep v m g a v' → perform E' st a = (st', r) → I hist st')
    {hist : List (Msg × Msg)} {st : Store} {calls : List Call} (h : Together E hist st calls) : I hist st ∧ ∀ c ∈ calls, CallOk E hist st c := by
  induction h with
  | empty => exact ⟨start, fun c hc => by cases hc⟩
  | @begins hist st calls E' fuel stream msgs deep verify h sc hR hp hv ih =>
    refine ⟨more _ _ _ ih.1, fun c hc => ?_⟩
    rcases List.mem_cons.mp hc with rfl | hc
    · exact ⟨sc, hR, hv, fun x hx => List.mem_append_right _ hx, fun q hq => by cases hq⟩
    · exact (ih.2 c hc).mono (Extends.refl _)
  | @message hist st st' before after c m g rest a noted h hl h1 h2 ih =>
    have hc := ih.2 c (by simp)
    have hf := ingestOne_fresh hc.remembers hc.verifies hc.noted h1
    have he : Extends st st' := by
      have := perform_extends (E := c.env) (st := st) (a := a)
      rw [h2] at this
      exact this
    have grow : ∀ c', CallOk E hist st c' → CallOk E hist st' c' := fun c' h => by simpa using h.mono (more := []) he
    refine ⟨step c.env hist st c.fuel c.deep m g c.noted a noted st' _ hc.code ih.1 hc.noted (hc.received _ (by rw [hl]; simp [pairs])) hf h2, fun c' hc' => ?_⟩
    rcases List.mem_append.mp hc' with h' | h'
    · exact grow c' (ih.2 c' (List.mem_append_left _ h'))
    · rcases List.mem_cons.mp h' with rfl | h'
      · exact ⟨hc.code, hc.remembers, hc.verifies, fun x hx => hc.received x (by rw [hl]; simp [pairs, hx]), fresh_known hc.noted hf h2⟩
      · exact grow c' (ih.2 c' (by simp [h']))
  | @ends hist st before after c h ih =>
    exact ⟨ih.1, fun c' hc' => ih.2 c' (by rcases List.mem_append.mp hc' with h | h <;> simp [h])⟩

theorem holds_extends {E : Env} {st st' : Store} (he : Extends st st') {q : Str} (h : Sample.Holds E st q) : Sample.Holds E st' q :=
  Holds.mono (st := st) (st' := st') (fun p _ ht => (he.kels p).subset ht) (fun p _ ht => (he.tels p).subset ht) (fun _ ht => he.acdcs.subset ht) h

theorem perform_extends' {E : Env} {st st' : Store} {a : Action} {r : Res Unit} (h : perform E st a = (st', r)) : Extends st st' := by
  have := perform_extends (E := E) (st := st) (a := a)
  rw [h] at this
  exact this

/-- After a message that was checked earlier is inserted, everything in the set is stored. -/
theorem fresh_known_late {E : Env} {st₀ st st' : Store} {fuel : Nat} {deep : Option Bool} {m g : Msg} {v v' : List Str} {a : Action}
    (hh : ∀ q ∈ v, Sample.Holds E st₀ q) (h : Fresh E st₀ fuel deep v m g a v') (he : Extends st₀ st) (hp : perform E st a = (st', .ok ())) :
    ∀ q ∈ v', Sample.Holds E st' q := by
  have he' : Extends st₀ st' := he.trans (perform_extends' hp)
  have close : ∀ {q}, Grows E st₀ (q :: v) v' → Sample.Holds E st' q → ∀ q ∈ v', Sample.Holds E st' q := by
    intro q hg hq x hx
    rcases hg x hx with h | h
    · rcases List.mem_cons.mp h with rfl | h
      · exact hq
      · exact holds_extends he' (hh x h)
    · exact holds_extends he' h
  cases h with
  | key payload t g s l q c v' read raw again said verified fresh grows =>
    obtain rfl := tryInsert_ok hp
    exact close grows (.key c.pre _ s mem_append_self again said)
  | tx payload t g pre s l q v' read raw again said ident verified =>
    obtain rfl := tryInsert_ok hp
    exact close (verifyTransactionEvent_ok verified).2 (.tx pre _ s mem_append_self again said)
  | cred payload t g s l q v' read raw again said verified =>
    obtain rfl := tryInsert_ok hp
    exact close ((verifyAcdc_ok fuel).1 _ _ _ _ verified).2 (.cred _ s (List.mem_append_right _ (List.mem_singleton.mpr rfl)) again said)
  | nothing m g v' known =>
    cases hp
    intro q hq
    rcases known q hq with h | h
    · exact holds_extends he' (hh q h)
    · exact holds_extends he' h

/-- What a call under way relies on when a message may have been checked and not yet inserted. -/
def PendingOk (E : Env) (hist : List (Msg × Msg)) (st : Store) (c : Call × Option (Action × List Str)) : Prop :=
  match c.2 with
  | none => CallOk E hist st c.1
  | some (a, log) => SameCode E c.1.env ∧ Remembers c.1.env ∧ c.1.verify ≠ some false ∧ (∀ x ∈ pairs c.1.left, x ∈ hist) ∧
      ∃ st₀ v m g, Extends st₀ st ∧ addsTo st₀ a = log ∧ (∀ q ∈ v, Sample.Holds c.1.env st₀ q) ∧ (m, g) ∈ hist ∧ Fresh c.1.env st₀ c.1.fuel c.1.deep v m g a c.1.noted

theorem PendingOk.mono {E : Env} {hist more : List (Msg × Msg)} {st st' : Store} {c : Call × Option (Action × List Str)} (h : PendingOk E hist st c) (he : Extends st st') :
    PendingOk E (hist ++ more) st' c := by
  obtain ⟨c, _ | ⟨a, log⟩⟩ := c
  · exact CallOk.mono (c := c) h he
  · obtain ⟨h1, h2, h3, h4, st₀, v, m, g, k1, k2, k3, k4, k5⟩ := h
    exact ⟨h1, h2, h3, fun x hx => List.mem_append_left _ (h4 x hx), st₀, v, m, g, k1.trans he, k2, k3, List.mem_append_left _ k4, k5⟩

/-- A property of stores kept by every insertion of a message that was checked when what it makes longer was the same. -/
theorem guarded_induct {E : Env} (I : List (Msg × Msg) → Store → Prop) (start : I [] Store.empty)
    (more : ∀ hist x st, I hist st → I (hist ++ x) st)
    (step : ∀ E' hist st₀ st fuel deep m g v a v' st', SameCode E E' → I hist st → Extends st₀ st → addsTo st₀ a = addsTo st a → (m, g) ∈ hist →
      Fresh E' st₀ fuel deep v m g a v' → perform E' st a = (st', .ok ()) → I hist st')
    {hist : List (Msg × Msg)} {st : Store} {calls : List (Call × Option (Action × List Str))} (h : Guarded E hist st calls) :
    I hist st ∧ ∀ c ∈ calls, PendingOk E hist st c := by
  induction h with
  | empty => exact ⟨start, fun c hc => by cases hc⟩
  | @begins hist st calls E' fuel stream msgs deep verify h sc hR hp hv ih =>
    refine ⟨more _ _ _ ih.1, fun c hc => ?_⟩
    rcases List.mem_cons.mp hc with rfl | hc
    · exact CallOk.mk sc hR hv (fun x hx => List.mem_append_right _ hx) (fun q hq => by cases hq)
    · exact (ih.2 c hc).mono (Extends.refl _)
  | @checks hist st before after c m g rest a noted h hl h1 ih =>
    have hc : CallOk E hist st c := ih.2 (c, none) (by simp)
    have hf := ingestOne_fresh hc.remembers hc.verifies hc.noted h1
    refine ⟨ih.1, fun c' hc' => ?_⟩
    rcases List.mem_append.mp hc' with h' | h'
    · exact ih.2 c' (List.mem_append_left _ h')
    · rcases List.mem_cons.mp h' with rfl | h'
      · exact ⟨hc.code, hc.remembers, hc.verifies, fun x hx => hc.received x (by rw [hl]; simp [pairs, hx]), st, c.noted, m, g, Extends.refl _, rfl, hc.noted,
          hc.received _ (by rw [hl]; simp [pairs]), hf⟩
      · exact ih.2 c' (by simp [h'])
  | @inserts hist st st' before after c a log h same h2 ih =>
    obtain ⟨h3, h4, h5, h6, st₀, v, m, g, k1, k2, k3, k4, k5⟩ := ih.2 (c, some (a, log)) (by simp)
    have he := perform_extends' h2
    have grow : ∀ c', PendingOk E hist st c' → PendingOk E hist st' c' := fun c' h => by simpa using h.mono (more := []) he
    refine ⟨step c.env hist st₀ st c.fuel c.deep m g v a c.noted st' h3 ih.1 k1 (k2.trans same.symm) k4 k5 h2, fun c' hc' => ?_⟩
    rcases List.mem_append.mp hc' with h' | h'
    · exact grow c' (ih.2 c' (List.mem_append_left _ h'))
    · rcases List.mem_cons.mp h' with rfl | h'
      · exact CallOk.mk h3 h4 h5 h6 (fresh_known_late k3 k5 k1 h2)
      · exact grow c' (ih.2 c' (by simp [h']))
  | @ends hist st before after c h ih =>
    exact ⟨ih.1, fun c' hc' => ih.2 c' (by rcases List.mem_append.mp hc' with h | h <;> simp [h])⟩

theorem _root_.Keride.Fits.late {E : Env} {st₀ st : Store} {s : Sad} {pre : Str} (h : Fits E st₀ s pre) (he : Extends st₀ st) (same : st₀.tels pre = st.tels pre) : Fits E st s pre := by
  refine ⟨h.ident, ?_⟩
  rcases h.cases_ with ⟨h1, h2, h3, h4, h5, ii, t, a, h6, h7, h8⟩ | ⟨ri, rt, r, ii, t, a, h1, h2, h3, h4, h5, h6⟩
  · exact .inl ⟨h1, h2, h3, same ▸ h4, h5, ii, t, a, h6, (he.kels ii).subset h7, h8⟩
  · refine .inr ⟨ri, rt, r, ii, t, a, h1, prefix_get (he.tels ri) h2, h3, h4, (he.kels ii).subset h5, ?_⟩
    rw [← same]
    exact h6

end Keride.Sample
