/-
C69, C71, C73: what the event builders of sample/keri/kmi/event.rs make, and what they refuse.
-/
import Verif.Lemmas.BuildArgs
import Verif.Lemmas.World
import Verif.Lemmas.Accept

namespace Keride.Props

open Spec Sample Matter

theorem majority_half (n : Nat) : majority 1 n = half n ∧ majority 0 n = halfNext n := by
  unfold majority half halfNext
  constructor
  · congr 1
    split <;> omega
  · congr 1
    split <;> omega

theorem serialized_of {H : Hash} {chk : Bool} {o : List (Str × Value)} {s : Sad} (h : Built H chk o s) (hs : Sendable s) : Serialized s := by
  have h1 := h.version
  rw [Nat.mod_eq_of_lt hs.small] at h1
  exact ⟨h.raw, h1⟩

theorem serialized_of_incepted {H : Hash} {chk : Bool} {o : List (Str × Value)} {s : Sad} {pre : Str} (h : Incepted H chk o s pre) (hs : Sendable s) :
    Serialized s := by
  have h1 := h.version
  rw [Nat.mod_eq_of_lt hs.small] at h1
  exact ⟨h.raw, h1⟩

/-- C69: an interaction event the library builds has exactly the fields of its type in order, with the arguments in them; its
bytes are its JSON text and its version string says their number; its SAID is the digest of its content; and it is read
back from its bytes, whatever follows them. -/
theorem C69_interact (E : Env) (hH : HashOk E.H) (pre dig : Str) (sn : Option Nat) (data : Option Value) (version : Option Version) (kind : Option Str)
    (s : Sad) (hsn : sn.getD 1 < 2 ^ 128) (h : interact E pre dig sn data version kind = .ok s) (hs : Sendable s) :
    Fields ixnFields s ∧ Serialized s ∧ SelfAddressed E.H E.chk s ∧ HasText (str% "t") (str% "ixn") s ∧ HasText (str% "i") pre s ∧
    HasText (str% "s") (Nat.toDigits 16 (sn.getD 1)) s ∧ Serder.sn s = .ok (sn.getD 1) ∧ HasText (str% "p") dig s ∧
    field (str% "a") s.ked = some (data.getD (.arr [])) ∧ ∀ rest, Serder.newWithRaw E.fl (s.raw ++ toUtf8 rest) = .ok s := by
  obtain ⟨vs, t, hb, h1, -, rfl⟩ := interact_ok hsn h
  have hr := hb.reads hs.plain hs.depth hs.small E.fl
  refine ⟨hb.keys, serialized_of hb hs, self_addressed hH (hr []) (hb.verifies _ _), ?_, ?_, ?_, h1, ?_, ?_, hr⟩
  all_goals
    try unfold HasText
    rw [hb.fields _ (by decide) (by decide)]
    simp [field]

/-- C69 for rotations. The thresholds it reports are the ones asked for, by default half of the keys, rounded up. -/
theorem C69_rotate (E : Env) (hH : HashOk E.H) (pre dig : Str) (keys : List Str) (ilk : Option Str) (sn : Nat) (sith : Option Value)
    (ndigs : Option (List Str)) (nsith : Option Value) (toad : Option Nat) (wits cuts adds : Option (List Str)) (data : Option (List Value))
    (version : Option Version) (kind : Option Str) (intive : Option Bool) (s : Sad) (hsn : sn < 2 ^ 128)
    (h : rotate E pre keys dig ilk sn sith ndigs nsith toad wits cuts adds data version kind intive = .ok s) (hs : Sendable s) :
    Fields rotFields s ∧ Serialized s ∧ SelfAddressed E.H E.chk s ∧ HasText (str% "t") (ilk.getD (str% "rot")) s ∧ HasText (str% "i") pre s ∧
    HasText (str% "s") (Nat.toDigits 16 sn) s ∧ Serder.sn s = .ok sn ∧ HasText (str% "p") dig s ∧ HasTexts (str% "k") keys s ∧
    HasTexts (str% "n") (ndigs.getD []) s ∧ HasTexts (str% "br") (cuts.getD []) s ∧ HasTexts (str% "ba") (adds.getD []) s ∧
    field (str% "a") s.ked = some (.arr (data.getD [])) ∧
    (∃ t, Tholder.newWithSith E.chk (jsonRead E.fl) (sith.getD (half keys.length)) = .ok t ∧ Serder.tholder E.chk E.fl s = .ok (some t)) ∧
    (∃ t, Tholder.newWithSith E.chk (jsonRead E.fl) (nsith.getD (halfNext (ndigs.getD []).length)) = .ok t ∧
      Serder.ntholder E.chk E.fl s = .ok (some t)) ∧
    ∀ rest, Serder.newWithRaw E.fl (s.raw ++ toUtf8 rest) = .ok s := by
  obtain ⟨vs, t, kt, nt, bt, th, nth, hb, h1, -, h2, h3, h4, h5, -, -, -, -, -, -, -, -, -, newits, m, -, -, -, rfl, -⟩ := rotate_ok hsn h
  rw [(majority_half _).1] at h2
  rw [(majority_half _).2] at h3
  have hr := hb.reads hs.plain hs.depth hs.small E.fl
  refine ⟨hb.keys, serialized_of hb hs, self_addressed hH (hr []) (hb.verifies _ _), ?_, ?_, ?_, h1, ?_, ?_, ?_, ?_, ?_, ?_, ⟨th, h2, h4⟩, ⟨nth, h3, h5⟩, hr⟩
  all_goals
    try unfold HasText
    try unfold HasTexts
    rw [hb.fields _ (by decide) (by decide)]
    simp [field, Sample.texts]

/-- C69 for inceptions with an identifier that is a digest: the identifier is the SAID of the event. -/
theorem C69_incept (E : Env) (hH : HashOk E.H) (keys : List Str) (sith : Option Value) (ndigs : Option (List Str)) (nsith : Option Value) (toad : Option Nat)
    (wits cnfg : Option (List Str)) (data : Option (List Value)) (version : Option Version) (kind : Option Str) (code : Str) (intive : Option Bool)
    (s : Sad) (hcode : code ∈ digests)
    (h : incept E keys sith ndigs nsith toad wits cnfg data version kind (some code) intive none = .ok s) (hs : Sendable s) :
    Fields icpFields s ∧ Serialized s ∧ InceptionAddressed E.H E.chk s ∧ HasText (str% "t") (str% "icp") s ∧
    (∃ pre, Serder.pre s = .ok pre ∧ Sadder.said E.chk s = .ok pre ∧ HasText (str% "i") pre s ∧ HasText (str% "d") pre s) ∧
    HasText (str% "s") (str% "0") s ∧ Serder.sn s = .ok 0 ∧ HasTexts (str% "k") keys s ∧ HasTexts (str% "n") (ndigs.getD []) s ∧
    HasTexts (str% "b") (wits.getD []) s ∧ HasTexts (str% "c") (cnfg.getD []) s ∧ field (str% "a") s.ked = some (.arr (data.getD [])) ∧
    (∃ t, Tholder.newWithSith E.chk (jsonRead E.fl) (sith.getD (half keys.length)) = .ok t ∧ Serder.tholder E.chk E.fl s = .ok (some t)) ∧
    (∃ t, Tholder.newWithSith E.chk (jsonRead E.fl) (nsith.getD (halfNext (ndigs.getD []).length)) = .ok t ∧
      Serder.ntholder E.chk E.fl s = .ok (some t)) ∧
    ∀ rest, Serder.newWithRaw E.fl (s.raw ++ toUtf8 rest) = .ok s := by
  obtain ⟨vs, t, kt, nt, bt, th, nth, pre, hb, h1, h2, h3, h4, h5, -, -, -, -, m, -, -, rfl⟩ := incept_ok hcode h
  rw [(majority_half _).1] at h2
  rw [(majority_half _).2] at h3
  have hr := hb.reads hs.plain hs.depth hs.small E.fl
  have hp : Serder.pre s = .ok pre := (C55_pre s pre).mpr hb.names
  refine ⟨hb.keys, serialized_of_incepted hb hs,
    inception_addressed hH (hr []) hb.reports hp (prefixer_of hb.saider) (hb.verifies none), ?_, ⟨pre, hp, hb.reports, hb.names, hb.said⟩, ?_, h1, ?_, ?_, ?_, ?_, ?_,
    ⟨th, h2, h4⟩, ⟨nth, h3, h5⟩, hr⟩
  all_goals
    try unfold HasText
    try unfold HasTexts
    rw [hb.fields _ (by decide) (by decide) (by decide)]
    simp [field, Sample.texts, icpDoc]

/-- A check that an event is `Sendable`. -/
def World.sendable (s : Sad) : Bool := World.plain s.ked && decide (nesting s.ked ≤ 127) && decide (s.raw.length < 2 ^ 32)

theorem World.sendable_ok {s : Sad} (h : World.sendable s = true) : Sendable s := by
  unfold World.sendable at h
  rw [Bool.and_eq_true, Bool.and_eq_true] at h
  exact ⟨World.plain_proper _ h.1.1, of_decide_eq_true h.1.2, of_decide_eq_true h.2⟩

example : ∃ s, interact (World.env []) (str% "EA") (str% "EB") (some 4097) (some (.arr [.obj [(str% "i", .str (str% "x"))]])) none none = .ok s ∧ Sendable s := by
  obtain ⟨s, h1, h2⟩ := World.holds_ok (r := interact (World.env []) (str% "EA") (str% "EB") (some 4097) (some (.arr [.obj [(str% "i", .str (str% "x"))]])) none none)
    (f := World.sendable) (by decide +kernel)
  exact ⟨s, h1, World.sendable_ok h2⟩

example : ∃ s, rotate (World.env []) (str% "EA") [str% "k1", str% "k2", str% "k3"] (str% "EB") none 7 none (some [str% "n1"]) none (some 4) (some (World.names 5))
      (some [str% "W4"]) (some [str% "X"]) none none none (some true) = .ok s ∧ Sendable s ∧
      (remaining (World.names 5) [str% "W4"] [str% "X"]).length = 5 := by
  obtain ⟨s, h1, h2⟩ := World.holds_ok (r := rotate (World.env []) (str% "EA") [str% "k1", str% "k2", str% "k3"] (str% "EB") none 7 none (some [str% "n1"]) none (some 4)
    (some (World.names 5)) (some [str% "W4"]) (some [str% "X"]) none none none (some true)) (f := World.sendable) (by decide +kernel)
  exact ⟨s, h1, World.sendable_ok h2, by decide +kernel⟩

example : ∃ s, incept (World.env []) [str% "k1", str% "k2"] (some (.arr [.str (str% "1/2"), .str (str% "1/2")])) (some [str% "n1"]) none none (some (World.names 5)) none
      none none none (some (str% "E")) none none = .ok s ∧ Sendable s ∧ (str% "E") ∈ digests ∧ World.names 5 ≠ [] ∧ (World.names 5).length < 2 ^ 126 := by
  obtain ⟨s, h1, h2⟩ := World.holds_ok (r := incept (World.env []) [str% "k1", str% "k2"] (some (.arr [.str (str% "1/2"), .str (str% "1/2")])) (some [str% "n1"]) none none
    (some (World.names 5)) none none none none (some (str% "E")) none none) (f := World.sendable) (by decide +kernel)
  exact ⟨s, h1, World.sendable_ok h2, by decide, by decide, by decide +kernel⟩

/-! ## Refusals -/

/-- C71: an inception the library builds names no witness twice. Its witness threshold is zero without witnesses, from one
to their number otherwise, and the one asked for. Its threshold is from one to the number of keys, or of weights for no
more positions; the threshold for the next keys is no larger than their number. -/
theorem C71_incept (E : Env) (keys : List Str) (sith : Option Value) (ndigs : Option (List Str)) (nsith : Option Value) (toad : Option Nat)
    (wits cnfg : Option (List Str)) (data : Option (List Value)) (version : Option Version) (kind : Option Str) (code : Str) (intive : Option Bool)
    (s : Sad) (hcode : code ∈ digests)
    (h : incept E keys sith ndigs nsith toad wits cnfg data version kind (some code) intive none = .ok s) :
    (wits.getD []).Nodup ∧
    (∃ k, WitnessThreshold k s ∧ (wits.getD [] = [] → k = 0) ∧ (wits.getD [] ≠ [] → 1 ≤ k ∧ k ≤ (wits.getD []).length) ∧
      ∀ n, toad = some n → n < 2 ^ 128 → k = n) ∧
    (∃ t, Serder.tholder E.chk E.fl s = .ok (some t) ∧ Sensible t keys.length) ∧
    ∃ t, Serder.ntholder E.chk E.fl s = .ok (some t) ∧ (∀ k, t.num = .ok (some k) → k ≤ (ndigs.getD []).length) := by
  obtain ⟨vs, t, kt, nt, bt, th, nth, pre, hb, h1, h2, h3, h4, h5, h6, h7, h8, h9, m, h10, h11, rfl⟩ := incept_ok hcode h
  obtain ⟨k, hk, hbt⟩ := toad_text h11
  have ht := inceptToader_ok h10 hk
  have hf : field (str% "bt") s.ked = some bt := by rw [hb.fields _ (by decide) (by decide) (by decide)]; simp [field, icpDoc]
  refine ⟨nodup_of_repeats h9, ⟨k, ?_, fun e => ht.zero (by simp [e]), fun e => ht.within (by simpa using e), ht.given⟩, ⟨th, h4, sensible_of h2 h6 h8⟩,
    nth, h5, fun j hj => size_of_num h3 hj ▸ h7⟩
  · unfold WitnessThreshold HasText
    rw [hf]
    exact hbt.imp (congrArg some) (congrArg some)

/-- C71 for rotations. What is cut and what is added have nothing in common, nothing is added that was there, and the
witness threshold is measured against the witnesses that remain. -/
theorem C71_rotate (E : Env) (pre dig : Str) (keys : List Str) (ilk : Option Str) (sn : Nat) (sith : Option Value)
    (ndigs : Option (List Str)) (nsith : Option Value) (toad : Option Nat) (wits cuts adds : Option (List Str)) (data : Option (List Value))
    (version : Option Version) (kind : Option Str) (intive : Option Bool) (s : Sad) (hsn : sn < 2 ^ 128)
    (h : rotate E pre keys dig ilk sn sith ndigs nsith toad wits cuts adds data version kind intive = .ok s) :
    1 ≤ sn ∧ ilk.getD (str% "rot") ∈ [str% "rot", str% "drt"] ∧
    (wits.getD []).Nodup ∧ (cuts.getD []).Nodup ∧ (adds.getD []).Nodup ∧ (∀ w ∈ cuts.getD [], w ∉ adds.getD []) ∧ (∀ w ∈ wits.getD [], w ∉ adds.getD []) ∧
    (∃ k, WitnessThreshold k s ∧ (remaining (wits.getD []) (cuts.getD []) (adds.getD []) = [] → k = 0) ∧
      (remaining (wits.getD []) (cuts.getD []) (adds.getD []) ≠ [] → 1 ≤ k ∧ k ≤ (remaining (wits.getD []) (cuts.getD []) (adds.getD [])).length) ∧
      ∀ n, toad = some n → n < 2 ^ 128 → k = n) ∧
    (∃ t, Serder.tholder E.chk E.fl s = .ok (some t) ∧ Sensible t keys.length) ∧
    ∃ t, Serder.ntholder E.chk E.fl s = .ok (some t) ∧ Sensible t (ndigs.getD []).length := by
  obtain ⟨vs, t, kt, nt, bt, th, nth, hb, h1, h1', h2, h3, h4, h5, h6, h7, h8, h8', w1, w2, w3, w4, w5, newits, m, h9, h10, h11, rfl, hilk⟩ := rotate_ok hsn h
  obtain ⟨k, hk, hbt⟩ := toad_text h11
  have ht := rotateToader_ok h10 hk
  rw [newWits_length h9] at ht
  have hlen : (remaining (wits.getD []) (cuts.getD []) (adds.getD [])).length =
      ((wits.getD []).filter fun w => w ∉ cuts.getD []).length + (adds.getD []).length := by simp [remaining]
  have hf : field (str% "bt") s.ked = some bt := by rw [hb.fields _ (by decide) (by decide)]; simp [field]
  refine ⟨h1', hilk, nodup_of_repeats w1, nodup_of_repeats w2, nodup_of_repeats w3, by simpa using w4, by simpa using w5,
    ⟨k, ?_, fun e => ht.zero (by rw [← hlen, e]; rfl), fun e => ?_, ht.given⟩, ⟨th, h4, sensible_of h2 h6 h8⟩,
    nth, h5, sensible_of h3 h7 h8'⟩
  · unfold WitnessThreshold HasText
    rw [hf]
    exact hbt.imp (congrArg some) (congrArg some)
  · rw [hlen]
    exact ht.within (by rw [← hlen]; simpa using e)

/-- C71 is false: cutting two witnesses, all there are, is no error but a panic. -/
theorem C71_cut_false : rotate (World.env []) (str% "EA") [str% "k1"] (str% "EB") none 1 none (some [str% "n1"]) none none (some (World.names 2))
    (some (World.names 2)) none none none none none = .panic := World.panics_of (by decide +kernel)

/-- C71 is false: a witness that is not there can be cut. -/
theorem C71_stranger_false : (rotate (World.env []) (str% "EA") [str% "k1"] (str% "EB") none 1 none (some [str% "n1"]) none none (some (World.names 2))
    (some [str% "X"]) none none none none none).isOk = true := by decide +kernel

/-- C71 is false: an inception with next keys may ask for none of them. A rotation may not, and no set of signatures meets
this threshold: the identifier can never rotate. -/
theorem C71_next_false : ∃ s t, incept (World.env []) [str% "k1"] none (some [str% "n1"]) (some (.int 0)) none none none none none none (some (str% "E")) none none = .ok s ∧
    Serder.ntholder true (World.env []).fl s = .ok (some t) ∧ t.num = .ok (some 0) ∧ (∀ idx, ¬ Meets t idx) ∧
    (rotate (World.env []) (str% "EA") [str% "k1"] (str% "EB") none 1 none (some [str% "n1"]) (some (.int 0)) none none none none none none none none).isErr = true := by
  obtain ⟨s, h1, h2⟩ := World.holds_ok (r := incept (World.env []) [str% "k1"] none (some [str% "n1"]) (some (.int 0)) none none none none none none (some (str% "E")) none none)
    (f := fun s => World.holds (Serder.ntholder true (World.env []).fl s) fun t => match t with
      | some t => World.holds t.num (fun n => decide (n = some 0)) && !t.weighted && (match t.thold with | .int _ => true | _ => false)
      | none => false) (by decide +kernel)
  obtain ⟨t, h3, h4⟩ := World.holds_ok h2
  cases t with
  | none => cases h4
  | some t =>
    dsimp only at h4
    rw [Bool.and_eq_true, Bool.and_eq_true] at h4
    obtain ⟨n, h5, h6⟩ := World.holds_ok h4.1.1
    rw [of_decide_eq_true h6] at h5
    refine ⟨s, t, h1, h3, h5, ?_, by decide +kernel⟩
    rintro idx (⟨n, hn, hp, -⟩ | ⟨qss, ⟨cs, hq, -⟩, -⟩)
    · rw [h5] at hn
      cases hn
      omega
    · rw [hq] at h4
      exact absurd h4.2 Bool.false_ne_true

/-! ## The default witness threshold -/

/-- C73, partial: the witness threshold an inception gets by default. Any two sets of that many witnesses have more
witnesses in common than may fail, or it is all of them. Those that do not fail are enough to reach it, but only when the
number of witnesses is not one more than a multiple of three. -/
theorem C73_incept_partial (E : Env) (keys : List Str) (sith : Option Value) (ndigs : Option (List Str)) (nsith : Option Value)
    (wits : List Str) (cnfg : Option (List Str)) (data : Option (List Value)) (version : Option Version) (kind : Option Str) (code : Str) (intive : Option Bool)
    (s : Sad) (hcode : code ∈ digests) (hw : wits ≠ []) (hsize : wits.length < 2 ^ 126)
    (h : incept E keys sith ndigs nsith none (some wits) cnfg data version kind (some code) intive none = .ok s) :
    ∃ k, WitnessThreshold k s ∧ k ≤ wits.length ∧ (k = wits.length ∨ wits.length + faults wits.length < 2 * k) ∧
      (4 ≤ wits.length → (k ≤ wits.length - faults wits.length ↔ wits.length % 3 ≠ 1)) := by
  obtain ⟨vs, t, kt, nt, bt, th, nth, pre, hb, h1, h2, h3, h4, h5, h6, h7, h8, h9, m, h10, h11, rfl⟩ := incept_ok hcode h
  obtain ⟨k, hk, hbt⟩ := toad_text h11
  have ht := (inceptToader_ok h10 hk).default rfl (by simpa using hw) hsize
  have hf : field (str% "bt") s.ked = some bt := by rw [hb.fields _ (by decide) (by decide) (by decide)]; simp [field, icpDoc]
  dsimp only [Option.getD] at ht
  refine ⟨k, ?_, by omega, by unfold faults; omega, by unfold faults; omega⟩
  unfold WitnessThreshold HasText
  rw [hf]
  exact hbt.imp (congrArg some) (congrArg some)

/-- C73, partial, for rotations. -/
theorem C73_rotate_partial (E : Env) (pre dig : Str) (keys : List Str) (ilk : Option Str) (sn : Nat) (sith : Option Value)
    (ndigs : Option (List Str)) (nsith : Option Value) (wits cuts adds : List Str) (data : Option (List Value))
    (version : Option Version) (kind : Option Str) (intive : Option Bool) (s : Sad) (hsn : sn < 2 ^ 128) (n : Nat)
    (hn : (remaining wits cuts adds).length = n) (hw : n ≠ 0) (hsize : n < 2 ^ 126)
    (h : rotate E pre keys dig ilk sn sith ndigs nsith none (some wits) (some cuts) (some adds) data version kind intive = .ok s) :
    ∃ k, WitnessThreshold k s ∧ k ≤ n ∧ (k = n ∨ n + faults n < 2 * k) ∧ (4 ≤ n → (k ≤ n - faults n ↔ n % 3 ≠ 1)) := by
  obtain ⟨vs, t, kt, nt, bt, th, nth, hb, h1, h1', h2, h3, h4, h5, h6, h7, h8, h8', w1, w2, w3, w4, w5, newits, m, h9, h10, h11, rfl, hilk⟩ := rotate_ok hsn h
  obtain ⟨k, hk, hbt⟩ := toad_text h11
  have hl : newits.length = n := by
    rw [newWits_length h9, ← hn]; simp [remaining]
  have ht := (rotateToader_ok h10 hk).default rfl (by omega) (by omega)
  have hf : field (str% "bt") s.ked = some bt := by rw [hb.fields _ (by decide) (by decide)]; simp [field]
  rw [hl] at ht
  refine ⟨k, ?_, by omega, by unfold faults; omega, by unfold faults; omega⟩
  unfold WitnessThreshold HasText
  rw [hf]
  exact hbt.imp (congrArg some) (congrArg some)

/-- C73 is false: of four witnesses one may fail, but the threshold is four. -/
theorem C73_false : ∃ s, incept (World.env []) [str% "k1"] none (some [str% "n1"]) none none (some (World.names 4)) none none none none (some (str% "E")) none none = .ok s ∧
    faults 4 = 1 ∧ WitnessThreshold 4 s := by
  obtain ⟨s, h1, h2⟩ := World.holds_ok (r := incept (World.env []) [str% "k1"] none (some [str% "n1"]) none none (some (World.names 4)) none none none none (some (str% "E")) none none)
    (f := fun s => match field (str% "bt") s.ked with | some (.str t) => decide (t = str% "4") | _ => false) (by decide +kernel)
  refine ⟨s, h1, rfl, .inr ?_⟩
  unfold HasText
  revert h2
  split
  · rename_i t ht
    intro h2
    rw [ht, of_decide_eq_true h2]
    rfl
  · intro h2; cases h2

end Keride.Props
