/-
Edges that are met, and the verification of them.
-/
import Verif.Lemmas.Credential
import Verif.Spec.Market

namespace Keride.Sample

open Matter Spec Saider

theorem getAcdc_of {E : Env} {st : Store} {q t : Str} (ht : t ∈ st.acdcs) (hc : IsCredential E q t) (hu : ∀ t' ∈ st.acdcs, IsCredential E q t' → t' = t) :
    st.getAcdc E q = .ok t := by
  have hs : ∀ t', hasSaid E q t' = true ↔ IsCredential E q t' := by
    intro t'
    unfold hasSaid IsCredential
    constructor
    · intro h
      split at h
      · rename_i q' hq
        obtain ⟨c, h1, h2⟩ := Res.bind_eq_ok.mp hq
        rw [of_decide_eq_true h] at h2
        exact ⟨c, h1, h2⟩
      · cases h
    · rintro ⟨c, h1, h2⟩
      rw [h1, Res.ok_bind, h2]
      simp
  unfold Store.getAcdc
  cases hf : st.acdcs.find? (hasSaid E q) with
  | none => exact absurd ((hs t).mpr hc) (List.find?_eq_none.mp hf t ht)
  | some t' =>
    have h1 := List.mem_of_find?_eq_some hf
    have h2 := (hs t').mp (List.find?_some hf)
    rw [hu t' h1 h2]
    rfl

/-- An edge that is met is accepted, up to the verification of the other credential. -/
theorem checkEdge_of {E : Env} {st : Store} {creder c : Sad} {issuer id m text : Str} {node : Value} {sub : List (Str × Value)} (hi : HasText (str% "i") issuer creder)
    (hn : field (str% "n") node = some (.str id)) (hg : st.getAcdc E id = .ok m) (hr : Creder.newWithRaw E.fl (toUtf8 m) = .ok c)
    (ha : field (str% "a") c.ked = some (.obj sub)) (ht : c.raw = toUtf8 text)
    (hs : field (str% "s") node = none ∨ ∃ s, field (str% "s") node = some (.str s) ∧ E.schema s text = .ok true)
    (ho : field (str% "o") node = some (.str (str% "NI2I")) ∨ (field (str% "o") node = none ∧ field (str% "i") (.obj sub) = none) ∨
      ((field (str% "o") node = none ∨ field (str% "o") node = some (.str (str% "I2I"))) ∧ field (str% "i") (.obj sub) = some (.str issuer))) :
    checkEdge E st creder node = .ok (id, m, c) := by
  obtain ⟨o, rfl⟩ : ∃ o, node = .obj o := by
    cases node <;> simp [field] at hn
    exact ⟨_, rfl⟩
  have hsub : Creder.subject c = .ok (.obj sub) := by
    unfold Creder.subject
    cases hk : c.ked with
    | obj o =>
      rw [hk, field_find] at ha
      simp [Value.index, ha]
    | _ => rw [hk] at ha; simp [field] at ha
  have hiss : Creder.issuer creder = .ok issuer := by
    unfold Creder.issuer
    rw [text_index hi, Res.ok_bind]
    rfl
  rw [field_find] at hn hs ho
  unfold checkEdge
  rw [show (Value.obj o).toMap = .ok o from rfl, Res.ok_bind, hn, show Res.orPanic (some (Value.str id)) = .ok (.str id) from rfl, Res.ok_bind,
    show (Value.str id).toStr = .ok id from rfl, Res.ok_bind, hg, Res.ok_bind, hr, Res.ok_bind]
  suffices hrest : (do
      let ops ← operatorsOf o
      if ops.contains (str% "NOT") then .err .value
      else do
        let a ← Creder.subject c
        let subject ← a.toMap
        let op ← operatorOf ops subject
        applyOperator op creder subject
        .ok (id, m, c) : Res (Str × Str × Sad)) = .ok (id, m, c) by
    rcases hs with hs | ⟨s, hs, h⟩
    · rw [hs]
      dsimp only
      rw [Res.ok_bind, if_neg (by simp)]
      exact hrest
    · rw [hs]
      dsimp only
      rw [show (Value.str s).toStr = .ok s from rfl, Res.ok_bind, ht, fromUtf8_toUtf8, Res.ok_bind, h, Res.ok_bind, if_neg (by simp)]
      exact hrest
  rw [field_find] at ho
  have hkey : ∀ v, Value.find (str% "i") sub = some v → Value.hasKey (str% "i") sub = true := by
    intro v hv
    unfold Value.hasKey
    rw [hv]; rfl
  rcases ho with ho | ⟨ho, h2⟩ | ⟨ho | ho, h2⟩
  · have h3 : operatorsOf o = .ok [str% "NI2I"] := by unfold operatorsOf; rw [ho]
    have h4 : operatorOf [str% "NI2I"] sub = .ok (str% "NI2I") := by unfold operatorOf; rfl
    rw [h3, Res.ok_bind, if_neg (by decide), hsub, Res.ok_bind, show (Value.obj sub).toMap = .ok sub from rfl, Res.ok_bind, h4, Res.ok_bind]
    rfl
  · have h3 : operatorsOf o = .ok [] := by unfold operatorsOf; rw [ho]
    have h4 : operatorOf [] sub = .ok (str% "NI2I") := by
      unfold operatorOf
      have : Value.hasKey (str% "i") sub = false := by unfold Value.hasKey; rw [h2]; rfl
      simp [this, Res.orPanic]
    rw [h3, Res.ok_bind, if_neg (by decide), hsub, Res.ok_bind, show (Value.obj sub).toMap = .ok sub from rfl, Res.ok_bind, h4, Res.ok_bind]
    rfl
  · have h3 : operatorsOf o = .ok [] := by unfold operatorsOf; rw [ho]
    have h4 : operatorOf [] sub = .ok (str% "I2I") := by
      unfold operatorOf
      simp [hkey _ h2, Res.orPanic]
    have h5 : applyOperator (str% "I2I") creder sub = .ok () := by
      unfold applyOperator
      rw [if_pos rfl, h2, show Res.orPanic (some (Value.str issuer)) = .ok (.str issuer) from rfl, Res.ok_bind, show (Value.str issuer).toStr = .ok issuer from rfl,
        Res.ok_bind, hiss, Res.ok_bind, if_neg (by simp)]
    rw [h3, Res.ok_bind, if_neg (by decide), hsub, Res.ok_bind, show (Value.obj sub).toMap = .ok sub from rfl, Res.ok_bind, h4, Res.ok_bind, h5, Res.ok_bind]
  · have h3 : operatorsOf o = .ok [str% "I2I"] := by unfold operatorsOf; rw [ho]
    have h4 : operatorOf [str% "I2I"] sub = .ok (str% "I2I") := by unfold operatorOf; rfl
    have h5 : applyOperator (str% "I2I") creder sub = .ok () := by
      unfold applyOperator
      rw [if_pos rfl, h2, show Res.orPanic (some (Value.str issuer)) = .ok (.str issuer) from rfl, Res.ok_bind, show (Value.str issuer).toStr = .ok issuer from rfl,
        Res.ok_bind, hiss, Res.ok_bind, if_neg (by simp)]
    rw [h3, Res.ok_bind, if_neg (by decide), hsub, Res.ok_bind, show (Value.obj sub).toMap = .ok sub from rfl, Res.ok_bind, h4, Res.ok_bind, h5, Res.ok_bind]

/-- The entries of edges. -/
theorem edgeNodes_of {source : Value} (h : Edges source) : ∃ nodes : List Value, edgeNodes source = .ok (nodes.map .ok) ∧ ∀ node ∈ nodes, Node source node := by
  have hone : ∀ m : List (Str × Value), nodesOf (.obj m) = ((m.filter fun p => !([str% "d", str% "o"].contains p.1)).map Prod.snd).map .ok := by
    intro m
    unfold nodesOf
    rw [List.map_map]
    rfl
  have hmem : ∀ (m : List (Str × Value)) node, node ∈ (m.filter fun p => !([str% "d", str% "o"].contains p.1)).map Prod.snd →
      ∃ k, (k, node) ∈ m ∧ k ≠ str% "d" ∧ k ≠ str% "o" := by
    intro m node hn
    obtain ⟨⟨k, v⟩, h1, rfl⟩ := List.mem_map.mp hn
    obtain ⟨h2, h3⟩ := List.mem_filter.mp h1
    refine ⟨k, h2, ?_, ?_⟩
    · rintro rfl; revert h3; simp
    · rintro rfl; revert h3; simp
  rcases h with ⟨m, rfl⟩ | ⟨l, rfl, hl⟩
  · refine ⟨_, by unfold edgeNodes; rw [Res.ok_bind, List.flatMap_singleton, hone], ?_⟩
    intro node hn
    obtain ⟨k, h1, h2, h3⟩ := hmem m node hn
    exact ⟨m, k, .inl rfl, h1, h2, h3⟩
  · have : ∃ nodes : List Value, l.flatMap nodesOf = nodes.map .ok ∧ ∀ node ∈ nodes, ∃ m k, .obj m ∈ l ∧ (k, node) ∈ m ∧ k ≠ str% "d" ∧ k ≠ str% "o" := by
      induction l with
      | nil => exact ⟨[], rfl, by simp⟩
      | cons x l ih =>
        obtain ⟨nodes, h1, h2⟩ := ih fun y hy => hl y (by simp [hy])
        obtain ⟨m, rfl⟩ := hl x (by simp)
        refine ⟨_ ++ nodes, by rw [List.flatMap_cons, hone, h1, ← List.map_append], ?_⟩
        intro node hn
        rcases List.mem_append.mp hn with hn | hn
        · obtain ⟨k, h3⟩ := hmem m node hn
          exact ⟨m, k, by simp, h3⟩
        · obtain ⟨m', k, h3, h4⟩ := h2 node hn
          exact ⟨m', k, by simp [h3], h4⟩
    obtain ⟨nodes, h1, h2⟩ := this
    refine ⟨nodes, by unfold edgeNodes; rw [Res.ok_bind, h1], ?_⟩
    intro node hn
    obtain ⟨m, k, h3, h4⟩ := h2 node hn
    exact ⟨m, k, .inr ⟨l, rfl, h3⟩, h4⟩

/-- Edges that are met are verified, if deep enough and if the credentials they name are. -/
theorem verifyEdges_of {E : Env} {st : Store} {deep : Option Bool} {c : Sad} {n : Nat} (nodes : List Value)
    (h : ∀ node ∈ nodes, ∃ id m p, checkEdge E st c node = .ok (id, m, p) ∧
      (deep.getD true = true → ∃ g, attachedQuadlets E m p = .ok g ∧ ∀ fuel, n ≤ fuel → ∀ v, ∃ k v', verifyAcdc E st deep fuel p g v = .ok (k, v')))
    {fuel : Nat} (hf : n + nodes.length + 1 ≤ fuel) (v : List Str) : ∃ v', verifyEdges E st deep fuel c (nodes.map .ok) v = .ok v' := by
  induction nodes generalizing fuel v with
  | nil =>
    obtain ⟨f, rfl⟩ : ∃ f, fuel = f + 1 := ⟨fuel - 1, by omega⟩
    exact ⟨v, by unfold verifyEdges; rfl⟩
  | cons node nodes ih =>
    obtain ⟨f, rfl⟩ : ∃ f, fuel = f + 1 := ⟨fuel - 1, by omega⟩
    rw [List.length_cons] at hf
    obtain ⟨id, m, p, h1, h2⟩ := h node (by simp)
    have hv : ∃ v', ((if deep.getD true then
          if v.contains id then .ok v
          else do
            let g ← attachedQuadlets E m p
            let r ← verifyAcdc E st deep f p g (id :: v)
            .ok r.2
        else .ok v : Res (List Str))) = .ok v' := by
      by_cases hd : deep.getD true = true
      · rw [if_pos hd]
        by_cases hc : v.contains id = true
        · exact ⟨v, by rw [if_pos hc]⟩
        · obtain ⟨g, h3, h4⟩ := h2 hd
          obtain ⟨k, v', h5⟩ := h4 f (by omega) (id :: v)
          exact ⟨v', by rw [if_neg hc, h3, Res.ok_bind, h5, Res.ok_bind]⟩
      · exact ⟨v, by rw [if_neg hd]⟩
    obtain ⟨v', hv⟩ := hv
    obtain ⟨v'', h3⟩ := ih (fun x hx => h x (by simp [hx])) (fuel := f) (by omega) v'
    refine ⟨v'', ?_⟩
    rw [List.map_cons]
    unfold verifyEdges
    rw [Res.ok_bind, h1, Res.ok_bind]
    dsimp only
    rw [hv, Res.ok_bind, h3]

end Keride.Sample
