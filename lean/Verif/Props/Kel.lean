/-
C56: the key event logs a verifier keeps.
-/
import Verif.Lemmas.Ingest
import Verif.Lemmas.World

namespace Keride.Props

open Matter Spec Sample

/-- The stored logs are valid, written without the environment. -/
def LogsOk (H : Hash) (C : Crypto) (chk : Bool) (fl : Str → Option Str) (hist : List (Msg × Msg)) (st : Store) : Prop :=
  ∀ pre, (st.kels pre).length ≤ 2 ^ 32 →
    ∃ log, List.Forall₂ (Stored fl hist) (st.kels pre) log ∧ (log = [] ∨ ValidLog H C chk fl pre log)

theorem Stored.reads {fl : Str → Option Str} {hist : List (Msg × Msg)} {texts : List Str} {log : List Entry}
    (h : List.Forall₂ (Stored fl hist) texts log) : List.Forall₂ (Reads fl) texts log :=
  h.imp fun _ _ ⟨_, _, _, _, _, _, _, hr⟩ => hr

theorem Stored.mono {fl : Str → Option Str} {hist more : List (Msg × Msg)} {t : Str} {e : Entry} (h : Stored fl hist t e) : Stored fl (hist ++ more) t e := by
  obtain ⟨p, u, g, h1, h2⟩ := h
  exact ⟨p, u, g, List.mem_append_left _ h1, h2⟩

theorem logsOk_step {E : Env} (hH : HashOk E.H) {hist : List (Msg × Msg)} {fuel : Nat} {deep : Option Bool} (st : Store) (m g : Msg) (v : List Str)
    (a : Action) (v' : List Str) (st' : Store) (r : Res Unit) (hI : LogsOk E.H E.C E.chk E.fl hist st) (hm : (m, g) ∈ hist)
    (hf : Fresh E st fuel deep v m g a v') (hp : perform E st a = (st', r)) : LogsOk E.H E.C E.chk E.fl hist st' := by
  rcases perform_kels hp with rfl | ⟨pre, t, rfl, rfl⟩ | ⟨pre, t, rfl, rfl⟩ | ⟨t, rfl, rfl⟩
  · exact hI
  · cases hf with
    | key payload t g s l q c v' read raw again said verified fresh grows =>
      intro p hlen
      by_cases hpp : p = c.pre
      · subst hpp
        have e1 : (st.insertKeyEvent c.pre (t ++ g)).kels c.pre = st.kels c.pre ++ [t ++ g] := by
          unfold Store.insertKeyEvent append
          simp
        rw [e1] at hlen ⊢
        rw [List.length_append, List.length_singleton] at hlen
        obtain ⟨log, h1, h2⟩ := hI c.pre (by omega)
        refine ⟨log ++ [⟨s, l⟩], ?_, .inr ?_⟩
        · exact List.rel_append h1 (.cons ⟨payload, t, g, hm, read, raw, rfl, again⟩ .nil)
        · exact checkKeyEvent_valid (e := ⟨s, l⟩) hH read verified (Stored.reads h1) h2 (by omega) fresh
      · have e1 : (st.insertKeyEvent c.pre (t ++ g)).kels p = st.kels p := by
          unfold Store.insertKeyEvent append
          simp [hpp]
        rw [e1] at hlen ⊢
        exact hI p hlen
  · exact hI
  · exact hI

/-- C56: whatever streams a verifier takes in, whatever their outcome and wherever the process is killed, the log it
keeps for an identifier is empty or a valid key event log of that identifier, made of events and signatures it received. -/
theorem C56_log (E : Env) (hH : HashOk E.H) (hist : List (Msg × Msg)) (st : Store) (h : Reach E hist st) (pre : Str)
    (hlen : (st.kels pre).length ≤ 2 ^ 32) :
    ∃ log, List.Forall₂ (Stored E.fl hist) (st.kels pre) log ∧ (log = [] ∨ ValidLog E.H E.C E.chk E.fl pre log) := by
  have key : LogsOk E.H E.C E.chk E.fl hist st := by
    clear hlen
    induction h with
    | empty => exact fun p _ => ⟨[], .nil, .inl rfl⟩
    | @ingest hist st E' fuel n stream msgs deep verify h sc hR hp hv ih =>
      have ih : LogsOk E.H E.C E.chk E.fl (hist ++ pairs msgs) st := by
        intro p hl
        obtain ⟨log, h1, h2⟩ := ih p hl
        exact ⟨log, h1.imp fun _ _ h => Stored.mono h, h2⟩
      obtain ⟨c1, c2, c3, c4⟩ := sc
      rw [← c1, ← c2, ← c3, ← c4] at ih ⊢
      refine ingestLoop_induct hR hv _ (hist ++ pairs msgs) ?_ st _ [] ih (fun q hq => by cases hq)
        (fun x hx => List.mem_append_right _ (pairs_take msgs n x hx))
      intro st m g v a v' st' r hI _ hm hf hpf
      exact logsOk_step (by rw [c3]; exact hH) st m g v a v' st' r hI hm hf hpf
  exact key pre hlen

/-- A verifier that received an inception, an interaction and a rotation, each signed, keeps a valid log of them. -/
theorem World.log : ∃ pre log, log.length = 3 ∧ ValidLog World.hash World.crypto true (fun _ => none) pre log ∧ ∀ e ∈ log, Ordinary e.sad := by
  obtain ⟨hist, st, pre, h, hl, ho⟩ := World.reached
  obtain ⟨log, h1, h2⟩ := C56_log (World.env []) World.hash_ok hist st h pre (by omega)
  have := h1.length_eq
  refine ⟨pre, log, by omega, h2.resolve_left ?_, ?_⟩
  · rintro rfl
    rw [List.length_nil] at this
    omega
  · intro e he
    obtain ⟨i, hi, rfl⟩ := List.getElem_of_mem he
    obtain ⟨-, -, -, -, -, -, -, hs⟩ := (List.forall₂_iff_get.mp h1).2 i (by omega) hi
    exact ho _ (List.getElem_mem _) _ hs

end Keride.Props
