import Verif.CIface
import Verif.Props.Bio
import Verif.Props.Mech

/-!
# Property C46: the C interface
-/

namespace Soot

open Res
open scoped Classical

/-! ## Specification -/

/-- The arrays behind the pointers are at least as long as the documented extents: all gas species, all PAH species, the
stated numbers of soot and tar variables. -/
structure CArgs.Full (a : SetArgs) : Prop where
  gas : a.yGas.length = nGas
  pah : a.yPah.length = nPah
  soot : (a.sootVar.length : ℤ) = a.nsoot
  tar : (a.tarVar.length : ℤ) = a.Ntar

/-- What the interface really passes on: ten gas species and the default `cMin`. -/
noncomputable def forwarded (a : SetArgs) : SetArgs := { a with yGas := a.yGas.take 10, cMin := 100 }

theorem CArgs.Full.copies {a : SetArgs} (h : CArgs.Full a) :
    cCopies a = ok (a.yGas.take 10, a.yPah, a.sootVar, a.tarVar) := by
  have hs := h.soot; have ht := h.tar
  have h1 : ¬ ((10 : ℤ) < 0 ∨ (a.yGas.length : ℤ) < 10) := by rw [h.gas]; decide
  have h2 : ¬ ((6 : ℤ) < 0 ∨ (a.yPah.length : ℤ) < 6) := by rw [h.pah]; decide
  have h3 : ¬ (a.nsoot < 0 ∨ (a.sootVar.length : ℤ) < a.nsoot) := by omega
  have h4 : ¬ (a.Ntar < 0 ∨ (a.tarVar.length : ℤ) < a.Ntar) := by omega
  simp only [cCopies, fromPtr, if_neg h1, if_neg h2, if_neg h3, if_neg h4, ok_bind]
  have e2 : a.yPah.take (6 : ℤ).toNat = a.yPah := List.take_of_length_le (by rw [h.pah]; decide)
  have e3 : a.sootVar.take a.nsoot.toNat = a.sootVar := List.take_of_length_le (by omega)
  have e4 : a.tarVar.take a.Ntar.toNat = a.tarVar := List.take_of_length_le (by omega)
  rw [e2, e3, e4]
  rfl

/-! ## C46 -/

/-- What the interface call does: it is the C++ call with the last gas species cut off and `cMin = 100`.  (That it is not the C++ call with
the same data is `C46_c_interface_false`.) -/
theorem C46_c_interface_partial (s : State) {a : SetArgs} (h : CArgs.Full a) :
    cSetState s a = setState s (forwarded a) := by
  rw [cSetState, h.copies]
  show setState s (cArgs a _) = _
  rw [cArgs, forwarded]

/-- Any argument array shorter than the number of values copied is read out of bounds. -/
theorem C46_short_array_ub (s : State) {a : SetArgs}
    (h : a.yGas.length < 10 ∨ a.yPah.length < 6 ∨ (a.sootVar.length : ℤ) < a.nsoot ∨ (a.tarVar.length : ℤ) < a.Ntar) :
    (cSetState s a).2 = ub := by
  have key : ∀ p n, fromPtr p n = ub ∨ (∃ l, fromPtr p n = ok l) ∧ ¬ (p.length : ℤ) < n := by
    intro p n; unfold fromPtr; split_ifs with hc
    · exact Or.inl rfl
    · exact Or.inr ⟨⟨_, rfl⟩, by omega⟩
  have : cCopies a = ub := by
    unfold cCopies
    rcases key a.yGas 10 with e | ⟨⟨l1, e⟩, g1⟩
    · rw [e]; rfl
    rw [e, ok_bind]
    rcases key a.yPah 6 with e | ⟨⟨l2, e⟩, g2⟩
    · rw [e]; rfl
    rw [e, ok_bind]
    rcases key a.sootVar a.nsoot with e | ⟨⟨l3, e⟩, g3⟩
    · rw [e]; rfl
    rw [e, ok_bind]
    rcases key a.tarVar a.Ntar with e | ⟨⟨l4, e⟩, g4⟩
    · rw [e]; rfl
    omega
  rw [cSetState, this]; rfl

/-- A full, admissible C++ call: the interface accepts it too, and the two resulting states differ exactly in the gas vector, which
loses CO2, and in `cMin`. -/
theorem C46_effect (s : State) {a : SetArgs} (h : CArgs.Full a) (hs : s.nsoot.toNat ≤ a.sootVar.length)
    (ht : s.Ntar.toNat ≤ a.tarVar.length) (hok : (setState s a).2 = ok ()) :
    (cSetState s a).2 = ok () ∧
      (cSetState s a).1 = { (setState s a).1 with yGas := a.yGas.take 10, cMin := 100 } := by
  have ha := (C01_setState_iff s a hs ht).mp hok
  have hf : Admissible s.nsoot.toNat s.Ntar.toNat s.yPah.length (forwarded a) :=
    ⟨ha.T, ha.P, ha.rho, ha.mu, by norm_num [forwarded], ha.soot, ha.tar,
      fun y hy => ha.gas y (List.mem_of_mem_take hy), ha.pahSize, ha.pah, ha.pahSum⟩
  rw [C46_c_interface_partial s h, C01_setState_accepts s (forwarded a) hs ht hf, C01_setState_accepts s a hs ht ha]
  exact ⟨rfl, rfl⟩

/-- After every accepted call the CO2 concentration and partial pressure are out-of-bounds reads; every other species reads as in the
C++ interface. -/
theorem C46_co2_read (s : State) {a : SetArgs} (h : CArgs.Full a) (hs : s.nsoot.toNat ≤ a.sootVar.length)
    (ht : s.Ntar.toNat ≤ a.tarVar.length) (hok : (cSetState s a).2 = ok ()) :
    (cSetState s a).1.gasC .CO2 = ub ∧ (cSetState s a).1.gasP .CO2 = ub ∧ cGetYGas (cSetState s a).1 .CO2 = ub ∧
      ∀ sp, sp ≠ .CO2 → ∃ y, a.yGas[sp.toNat]? = some y ∧ cGetYGas (cSetState s a).1 sp = ok y ∧
        (cSetState s a).1.gasC sp = ok (a.rhoGas * y / gasMW sp) := by
  rw [C46_c_interface_partial s h] at hok ⊢
  have hf := (C01_setState_iff s (forwarded a) hs ht).mp hok
  rw [C01_setState_accepts s (forwarded a) hs ht hf]
  have hl : (a.yGas.take 10).length = 10 := by rw [List.length_take, h.gas]; decide
  have hub : idx (a.yGas.take 10) GasSp.CO2.toNat = ub := idx_ub (by rw [hl]; decide)
  refine ⟨?_, ?_, ?_, fun sp hsp => ?_⟩
  · show (idx (a.yGas.take 10) GasSp.CO2.toNat >>= _) = _
    rw [hub]; rfl
  · show (idx (a.yGas.take 10) GasSp.CO2.toNat >>= _) = _
    rw [hub]; rfl
  · exact hub
  · have hlt : sp.toNat < 10 := by revert hsp; cases sp <;> decide
    have hlt' : sp.toNat < a.yGas.length := by rw [h.gas]; exact sp.toNat_lt
    have hi : idx (a.yGas.take 10) sp.toNat = ok a.yGas[sp.toNat] := by
      rw [idx_ok (by omega), List.getElem_take]
    refine ⟨_, List.getElem?_eq_getElem hlt', hi, ?_⟩
    show (idx (a.yGas.take 10) sp.toNat >>= _) = _
    rw [hi]; rfl

/-- Consequence: tar gasification of the AJ_RED tar model, which needs CO2, is undefined after every accepted call through
the interface. -/
theorem C46_tar_surface_ub (s : State) {a : SetArgs} (h : CArgs.Full a) (hs : s.nsoot.toNat ≤ a.sootVar.length)
    (ht : s.Ntar.toNat ≤ a.tarVar.length) (hok : (cSetState s a).2 = ok ()) : ajSurface (cSetState s a).1 = ub := by
  rw [ajSurface, (C46_co2_read s h hs ht hok).2.1]; rfl

/-- A concrete full call: 11 gas species with CO2, `cMin = 50`. -/
noncomputable def argsC : SetArgs := { argsEx2 with cMin := 50 }

theorem argsC_full : CArgs.Full argsC where
  gas := by simp [argsC, argsEx2, nGas]
  pah := by simp [argsC, argsEx2, argsEx, nPah]
  soot := by simp [argsC, argsEx2]
  tar := by simp [argsC, argsEx2, argsEx]

theorem argsC_ok : (setState (State.mk' 2 0) argsC).2 = ok () := by
  have h := argsEx2_admissible
  rw [C01_setState_iff _ _ (by simp [State.mk', argsC, argsEx2]) (by simp [State.mk'])]
  have e : Admissible 2 0 6 argsC :=
    ⟨h.T, h.P, h.rho, h.mu, by norm_num [argsC], h.soot, h.tar, h.gas, h.pahSize, h.pah, h.pahSum⟩
  simpa [State.mk', nPah] using e

/-- C46 is false of the code: the same data give different states, and reading CO2 is defined after the C++ call only. -/
theorem C46_c_interface_false : ∃ (s : State) (a : SetArgs), CArgs.Full a ∧ (setState s a).2 = ok () ∧
    (cSetState s a).2 = ok () ∧ (cSetState s a).1 ≠ (setState s a).1 ∧ (cSetState s a).1.cMin ≠ (setState s a).1.cMin ∧
    (setState s a).1.gasC .CO2 ≠ ub ∧ (cSetState s a).1.gasC .CO2 = ub := by
  have hs : (State.mk' 2 0).nsoot.toNat ≤ argsC.sootVar.length := by simp [State.mk', argsC, argsEx2]
  have ht : (State.mk' 2 0).Ntar.toNat ≤ argsC.tarVar.length := by simp [State.mk']
  obtain ⟨h1, h2⟩ := C46_effect (State.mk' 2 0) argsC_full hs ht argsC_ok
  have h3 := (C46_co2_read (State.mk' 2 0) argsC_full hs ht h1).1
  have ha := (C01_setState_iff _ _ hs ht).mp argsC_ok
  have hc : (cSetState (State.mk' 2 0) argsC).1.cMin ≠ (setState (State.mk' 2 0) argsC).1.cMin := by
    rw [h2, C01_setState_accepts _ _ hs ht ha]
    show (100 : ℝ) ≠ argsC.cMin
    norm_num [argsC]
  refine ⟨_, _, argsC_full, argsC_ok, h1, fun e => hc (by rw [e]), hc, ?_, h3⟩
  rw [C01_setState_accepts _ _ hs ht ha]
  show (idx argsC.yGas GasSp.CO2.toNat >>= _) ≠ ub
  rw [idx_ok (by rw [argsC_full.gas]; decide)]
  intro h; cases h

/-! ## Reading results back -/

theorem copyOut_ok {src : ℕ → Res ℝ} {f : ℕ → ℝ} : ∀ {n : ℕ} {dst : List ℝ}, n ≤ dst.length → (∀ i < n, src i = ok (f i)) →
    copyOut src n dst = ok (dst.mapIdx fun i x => if i < n then f i else x)
  | 0, dst, _, _ => by
    rw [copyOut]; congr 1; apply List.ext_getElem <;> simp
  | n + 1, dst, hn, h => by
    rw [copyOut, copyOut_ok (by omega) fun i hi => h i (by omega), ok_bind, h n (by omega), ok_bind, setIdx,
      if_pos (by rw [List.length_mapIdx]; omega)]
    congr 1
    apply List.ext_getElem
    · simp
    · intro i h1 h2
      simp only [List.getElem_set, List.getElem_mapIdx]
      by_cases hi : n = i
      · subst hi; simp
      · have : (i < n + 1) = (i < n) := by simp; omega
        simp [hi, this]

theorem copyOut_ub {src : ℕ → Res ℝ} {L : ℕ} : ∀ {n : ℕ} {dst : List ℝ}, (∀ i < n, i < L → ∃ x, src i = ok x) →
    (∀ i, L ≤ i → src i = ub) → (dst.length < n ∨ L < n) → copyOut src n dst = ub
  | 0, dst, _, _, h => by omega
  | n + 1, dst, h1, h2, h => by
    by_cases hn : dst.length < n ∨ L < n
    · rw [copyOut, copyOut_ub (fun i hi => h1 i (by omega)) h2 hn]; rfl
    · push Not at hn
      have hf : ∀ i < n, ∃ x, src i = ok x := fun i hi => h1 i (by omega) (by omega)
      choose! f hf using hf
      rw [copyOut, copyOut_ok hn.1 hf, ok_bind]
      by_cases hL : L ≤ n
      · rw [h2 n hL]; rfl
      · obtain ⟨x, hx⟩ := h1 n (by omega) (by omega)
        rw [hx, ok_bind, setIdx, if_neg]
        rw [List.length_mapIdx]; omega

/-- The gas getter writes exactly the eleven gas sources, in enumeration order, into the first eleven entries and needs that many. -/
theorem C46_get_gas_sources (dst : List ℝ) (m : Model) :
    (dst.length < nGas → cGetGasSources dst m = ub) ∧ (nGas ≤ dst.length → ∃ r, cGetGasSources dst m = ok r ∧
      r.length = dst.length ∧ ∀ sp : GasSp, r[sp.toNat]? = some (m.sources.gas sp)) := by
  set l := [GasSp.O2, .O, .H2, .H, .OH, .H2O, .CO, .C2H2, .C6H6, .C, .CO2].map m.sources.gas with hl
  have hll : l.length = nGas := by simp [hl, nGas]
  have hin : ∀ i < nGas, idx l i = ok (l.getD i 0) := fun i hi => by rw [idx_ok (by omega), getD_of_lt]
  constructor
  · intro h
    exact copyOut_ub (L := nGas) (fun i hi _ => ⟨_, hin i hi⟩) (fun i hi => idx_ub (by rw [← hl]; omega)) (Or.inl h)
  · intro h
    have e : cGetGasSources dst m = ok _ := copyOut_ok h hin
    refine ⟨_, e, List.length_mapIdx, fun sp => ?_⟩
    have hsp := sp.toNat_lt
    rw [List.getElem?_mapIdx, List.getElem?_eq_getElem (by omega), Option.map_some, if_pos hsp]
    congr 1
    cases sp <;> rfl

/-- The soot getter copies the first `nsoot_` sources; asking for more than the model has, or than the array holds, is out of
bounds. -/
theorem C46_get_soot_sources (dst : List ℝ) (m : Model) (n : ℕ) :
    (n ≤ dst.length → n ≤ m.sources.soot.length → ∃ r, cGetSootSources dst m n = ok r ∧ r.length = dst.length ∧
      (∀ i < n, r[i]? = m.sources.soot[i]?) ∧ ∀ i, n ≤ i → r[i]? = dst[i]?) ∧
      (dst.length < n ∨ m.sources.soot.length < n → cGetSootSources dst m n = ub) := by
  constructor
  · intro h1 h2
    have e : cGetSootSources dst m n = ok _ :=
      copyOut_ok (f := fun i => m.sources.soot.getD i 0) h1 fun i hi => by rw [idx_ok (by simp at hi; omega), getD_of_lt]
    refine ⟨_, e, List.length_mapIdx, fun i hi => ?_, fun i hi => ?_⟩
    · rw [List.getElem?_mapIdx, List.getElem?_eq_getElem (by omega), Option.map_some,
        if_pos (by simpa using hi), getD_of_lt (by omega), List.getElem?_eq_getElem (by omega)]
    · rw [List.getElem?_mapIdx]
      have : ¬ i < (n : ℤ).toNat := by simp; omega
      simp only [if_neg this, Option.map_id']
  · intro h
    exact copyOut_ub (L := m.sources.soot.length) (fun i _ hi => ⟨_, idx_ok hi⟩) (fun i hi => idx_ub hi)
      (by simpa using h)

/-- The tar getter copies the first `Ntar_` tar sources; asking for more than the model has, or than the array holds, is out of bounds. -/
theorem C46_get_tar_sources (dst : List ℝ) (m : Model) (n : ℕ) :
    (n ≤ dst.length → n ≤ m.sources.tar.length → ∃ r, cGetTarSources dst m n = ok r ∧ r.length = dst.length ∧
      (∀ i < n, r[i]? = m.sources.tar[i]?) ∧ ∀ i, n ≤ i → r[i]? = dst[i]?) ∧
      (dst.length < n ∨ m.sources.tar.length < n → cGetTarSources dst m n = ub) := by
  constructor
  · intro h1 h2
    have e : cGetTarSources dst m n = ok _ :=
      copyOut_ok (f := fun i => m.sources.tar.getD i 0) h1 fun i hi => by rw [idx_ok (by simp at hi; omega), getD_of_lt]
    refine ⟨_, e, List.length_mapIdx, fun i hi => ?_, fun i hi => ?_⟩
    · rw [List.getElem?_mapIdx, List.getElem?_eq_getElem (by omega), Option.map_some,
        if_pos (by simpa using hi), getD_of_lt (by omega), List.getElem?_eq_getElem (by omega)]
    · rw [List.getElem?_mapIdx]
      have : ¬ i < (n : ℤ).toNat := by simp; omega
      simp only [if_neg this, Option.map_id']
  · intro h
    exact copyOut_ub (L := m.sources.tar.length) (fun i _ hi => ⟨_, idx_ok hi⟩) (fun i hi => idx_ub hi)
      (by simpa using h)

/-- **Round trip.** After an accepted call the getters return what was passed: temperature, density, PAH mass fractions and, with negative
values replaced by zero, the soot and tar variables; an index outside the vector is out of bounds. -/
theorem C46_round_trip (s : State) {a : SetArgs} (h : CArgs.Full a) (hok : (cSetState s a).2 = ok ()) (i : ℤ) :
    cGetT (cSetState s a).1 = a.T ∧ cGetRhoGas (cSetState s a).1 = a.rhoGas ∧
      (∀ sp, ∃ y, a.yPah[sp.toNat]? = some y ∧ cGetYPah (cSetState s a).1 sp = ok y) ∧
      (∀ x, 0 ≤ i → a.sootVar[i.toNat]? = some x → cGetSootVar (cSetState s a).1 i = ok (max x 0)) ∧
      (∀ x, 0 ≤ i → a.tarVar[i.toNat]? = some x → cGetTarVar (cSetState s a).1 i = ok (max x 0)) ∧
      (i < 0 ∨ a.nsoot ≤ i → cGetSootVar (cSetState s a).1 i = ub) ∧ (i < 0 ∨ a.Ntar ≤ i → cGetTarVar (cSetState s a).1 i = ub) := by
  rw [C46_c_interface_partial s h] at hok ⊢
  obtain ⟨hs, ht⟩ := setState_ok_range hok
  rw [C01_setState_accepts s (forwarded a) hs ht ((C01_setState_iff s (forwarded a) hs ht).mp hok)]
  have e1 := h.soot
  have e2 := h.tar
  have key : ∀ (v : List ℝ) x, 0 ≤ i → v[i.toNat]? = some x → idxInt (v.map (max · 0)) i = ok (max x 0) := by
    intro v x hi hx
    rw [idxInt, if_neg (by omega), idx, List.getElem?_map, hx]; rfl
  have key2 : ∀ v : List ℝ, (i < 0 ∨ (v.length : ℤ) ≤ i) → idxInt (v.map (max · 0)) i = ub := by
    intro v hi
    by_cases h0 : i < 0
    · rw [idxInt, if_pos h0]
    · rw [idxInt, if_neg h0, idx_ub (by rw [List.length_map]; omega)]
  refine ⟨rfl, rfl, fun sp => ?_, fun x => key _ x, fun x => key _ x, fun hi => key2 a.sootVar ?_, fun hi => key2 a.tarVar ?_⟩
  · have hl : sp.toNat < a.yPah.length := by rw [h.pah]; cases sp <;> decide
    exact ⟨_, List.getElem?_eq_getElem hl, idx_ok hl⟩
  · omega
  · omega

/-- The biomass setter needs five values, stores exactly the first five and leaves the rest of the state; the tar correlation then reads them
within bounds. -/
theorem C46_set_bio (s : State) (y : List ℝ) :
    (y.length < 5 → cSetYBio s y = ub) ∧ (5 ≤ y.length → ∃ s', cSetYBio s y = ok s' ∧ s' = { s with yBio := y.take 5 } ∧ getMtarYtar s' ≠ ub) := by
  constructor
  · intro h
    rw [cSetYBio, fromPtr, if_pos (by omega)]; rfl
  · intro h
    refine ⟨{ s with yBio := y.take 5 }, ?_, rfl, fun hu => ?_⟩
    · rw [cSetYBio, fromPtr, if_neg (by omega)]; rfl
    · have := (C63_ub_iff _).1 hu
      simp only [List.length_take] at this
      omega

/-! ## The hypotheses can be met -/

example : cGetT (cSetState (State.mk' 2 0) argsC).1 = 2100 := by
  have hs : (State.mk' 2 0).nsoot.toNat ≤ argsC.sootVar.length := by simp [State.mk', argsC, argsEx2]
  have ht : (State.mk' 2 0).Ntar.toNat ≤ argsC.tarVar.length := by simp [State.mk']
  exact (C46_round_trip (State.mk' 2 0) argsC_full (C46_effect (State.mk' 2 0) argsC_full hs ht argsC_ok).1 0).1

example : (cSetState (State.mk' 2 0) argsC).2 = ok () ∧ ajSurface (cSetState (State.mk' 2 0) argsC).1 = ub := by
  have hs : (State.mk' 2 0).nsoot.toNat ≤ argsC.sootVar.length := by simp [State.mk', argsC, argsEx2]
  have ht : (State.mk' 2 0).Ntar.toNat ≤ argsC.tarVar.length := by simp [State.mk']
  have h1 := (C46_effect (State.mk' 2 0) argsC_full hs ht argsC_ok).1
  exact ⟨h1, C46_tar_surface_ub _ argsC_full hs ht h1⟩

end Soot
