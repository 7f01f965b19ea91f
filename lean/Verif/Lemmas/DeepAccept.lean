/-
Deep verification accepts what was verified.
-/
import Verif.Lemmas.DeepStream

namespace Keride

open Matter Spec Sample

theorem checkKeyEvent_same {E E' : Env} (h : SameCode E E') (st : Store) (s : Sad) (l : List SigGroup) : checkKeyEvent E' st s l = checkKeyEvent E st s l := by
  obtain ⟨h1, h2, h3, h4⟩ := h
  have e1 : place E' = place E := by unfold place; rw [h1, h3]
  have e2 : keysOf E' = keysOf E := by unfold keysOf; rw [h1, h2]
  have e3 : keysInForce E' = keysInForce E := by unfold keysInForce; rw [h1, h2, e2]
  have e4 : ∀ a b c, priorIndices E' a b c = priorIndices E a b c := by
    intro a b c
    induction c with
    | nil => rfl
    | cons x c ih =>
      unfold priorIndices
      rw [ih, h1, h3]
  have e5 : nextOf E' = nextOf E := by unfold nextOf; rw [h1, h2]
  have e6 : checkPrior E' = checkPrior E := by unfold checkPrior; simp only [h1, h2, e4, e5]
  unfold checkKeyEvent
  rw [e1, e3, e6, h1, h3, h4]

/-- Every stored event would be accepted again. -/
def Sure (E : Env) (hist : List (Msg × Msg)) (st : Store) : Prop :=
  ∀ pre (a : Nat) text, (st.kels pre)[a]? = some text → ∃ s g c t grp payload, checkKeyEvent E st s g = .ok c ∧ c.pre = pre ∧ c.sn = a ∧ c.existing = true ∧
    text = t ++ grp ∧ s.raw = toUtf8 t ∧ Serder.newWithRaw E.fl (toUtf8 text) = .ok s ∧ (payload, Msg.group (.quadlets g) (.ok grp)) ∈ hist

theorem Sure.ext {E : Env} {hist : List (Msg × Msg)} {st st' : Store} (he : Extends st st') {pre : Str} {a : Nat} {text : Str}
    (h : Sure E hist st) (ht : (st.kels pre)[a]? = some text) : ∃ s g c t grp payload, checkKeyEvent E st' s g = .ok c ∧ c.pre = pre ∧ c.sn = a ∧ c.existing = true ∧
    text = t ++ grp ∧ s.raw = toUtf8 t ∧ Serder.newWithRaw E.fl (toUtf8 text) = .ok s ∧ (payload, Msg.group (.quadlets g) (.ok grp)) ∈ hist := by
  obtain ⟨s, g, c, t, grp, payload, h1, h2, h3, h4, h5⟩ := h pre a text ht
  have hlt := (List.getElem?_eq_some_iff.mp ht).1
  refine ⟨s, g, { c with existing := true }, t, grp, payload, checkKeyEvent_ext he h1 ?_, h2, h3, rfl, h5⟩
  rw [h2, h3]
  exact hlt.trans_le (he.kels pre).length_le

theorem sure {E : Env} {hist : List (Msg × Msg)} {st : Store} (h : Reach E hist st) : Sure E hist st := by
  induction h with
  | empty => intro pre a text h; simp [Store.empty] at h
  | @ingest hist st E' fuel n stream msgs deep verify hr sc hR hp hv ih =>
    have hmono : Sure E (hist ++ pairs msgs) st := by
      intro pre a text ht
      obtain ⟨s, g, c, t, grp, payload, h1, h2, h3, h4, h5, h6, h7, h8⟩ := ih pre a text ht
      exact ⟨s, g, c, t, grp, payload, h1, h2, h3, h4, h5, h6, h7, List.mem_append_left _ h8⟩
    refine ingestLoop_induct hR hv (Sure E (hist ++ pairs msgs)) (pairs msgs) ?_ st (msgs.take n) [] hmono (by simp) (pairs_take msgs n)
    intro s1 m g v a v' s2 r hI _ hmem hf hp
    have he : Extends s1 s2 := by
      have := perform_extends (E := E') (st := s1) (a := a)
      rw [hp] at this
      exact this
    rcases perform_kels hp with rfl | ⟨q, t, rfl, rfl⟩ | ⟨q, t, rfl, rfl⟩ | ⟨t, rfl, rfl⟩
    · exact hI
    · cases hf with
      | key payload t g s' l q c v' read raw again said verified fresh grows =>
        intro pre i text ht
        by_cases hi : i < (s1.kels pre).length
        · obtain ⟨w, hw⟩ := he.kels pre
          rw [← hw, List.getElem?_append_left hi] at ht
          exact hI.ext he ht
        · have hpp : pre = c.pre := by
            by_contra hne
            rw [show (s1.insertKeyEvent c.pre (t ++ g)).kels pre = s1.kels pre from if_neg hne] at ht
            exact hi (List.getElem?_eq_some_iff.mp ht).1
          subst hpp
          have hk : (s1.insertKeyEvent c.pre (t ++ g)).kels c.pre = s1.kels c.pre ++ [t ++ g] := if_pos rfl
          rw [hk] at ht
          have hi' := (List.getElem?_eq_some_iff.mp ht).1
          rw [List.length_append, List.length_singleton] at hi'
          have hii : i = (s1.kels c.pre).length := by omega
          subst hii
          rw [List.getElem?_append_right le_rfl, Nat.sub_self] at ht
          obtain rfl := Option.some.inj ht
          rw [checkKeyEvent_same sc] at verified
          have hsn := (checkKeyEvent_place verified).2.mp fresh
          refine ⟨s', l, { c with existing := true }, t, g, .payload payload, checkKeyEvent_ext he verified ?_, rfl, hsn, rfl, rfl, raw, ?_, List.mem_append_right _ hmem⟩
          · rw [hsn, hk]
            simp
          · rw [← sc.fl]
            exact again
    · exact fun pre i text ht => hI.ext he ht
    · exact fun pre i text ht => hI.ext he ht

section
variable {E : Env} {hist : List (Msg × Msg)} {st : Store}

theorem deep_accepts (hH : HashOk E.H) (hs : Sure E hist st) (hlen : ∀ p, (st.kels p).length < 2 ^ 32)
    (hp : ∀ m l g, (m, Msg.group (.quadlets l) (.ok g)) ∈ hist → ReadsAs E g (.quadlets l)) :
    ∀ (fuel : Nat) (s : Sad) (g : List SigGroup) (c : Checked) (raw : Bytes) (v : List Str), Serder.newWithRaw E.fl raw = .ok s →
      checkKeyEvent E st s g = .ok c → confirm E st c = .ok () → c.sn < fuel → ∃ w, verifyKeyEvent E st (some true) fuel s g v = .ok (c.existing, w) := by
  intro fuel s g c raw v hread hc hconf hfuel
  have hdl : DeepLog E st c.pre := by
    intro k text ht
    obtain ⟨s', g', c', t, grp, payload, h1, h2, h3, h4, h5, h6, h7, h8⟩ := hs _ _ _ ht
    exact ⟨s', g', c', h7, by rw [h5]; exact attachedQuadlets_of h6 (hp _ _ _ h8), h1, h2, h3, h4⟩
  obtain ⟨w, hw, -⟩ := deep_log hH hdl fuel s g c raw v hread hc rfl hconf ((checkKeyEvent_place hc).1.trans_lt (hlen _)) hfuel
  exact ⟨w, hw⟩

end

end Keride
