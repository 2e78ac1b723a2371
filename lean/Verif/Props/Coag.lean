import Verif.Coag
import Verif.Props.State

/-!
# Properties C12-C15 (coagulation kernels)
-/

namespace Soot

open Res Real
open scoped Classical

/-- A state as left by some successful `setState`. -/
def Accepted (s : State) : Prop := ∃ s₀ a, (setState s₀ a).2 = ok () ∧ (setState s₀ a).1 = s

theorem Accepted.phys {s : State} (h : Accepted s) : s.Phys := by
  obtain ⟨s₀, a, h1, rfl⟩ := h
  exact (C02_setState_valid s₀ a h1).2.1

/-- A concrete accepted state, used for non-vacuity below. -/
noncomputable def stEx : State := (setState (State.mk' 3 0) argsEx).1
theorem stEx_accepted : Accepted stEx := by
  refine ⟨_, _, ?_, rfl⟩
  rw [C01_setState_accepts _ _ (by simp [State.mk', argsEx]) (by simp [State.mk'])
    (by simpa [State.mk', nPah] using argsEx_admissible)]

private theorem mfp_cases (s : State) : (∃ x, s.mfp = ok x) ∨ s.mfp = nonfin := by
  unfold State.mfp cdiv csqrt
  split_ifs <;> simp
  split_ifs <;> simp
private theorem fuchsPart_cases (s : State) (m : ℝ) :
    (∃ x, fuchsPart s m = ok x) ∨ fuchsPart s m = nonfin := by
  unfold fuchsPart
  rcases mfp_cases s with ⟨x, hx⟩ | hx
  · simp only [hx, ok_bind, cdiv, csqrt]
    split_ifs <;> simp
    split_ifs <;> simp
    split_ifs <;> simp
  · simp [hx]

/-- **C12.** Every kernel is symmetric in the two masses — for every mechanism, multiplier and state
object, whether or not the state is physical (then both orders end in the same abnormal outcome). -/
theorem C12_kernel_symmetric (c : Coag) (s : State) (m1 m2 : ℝ) : c.rate s m1 m2 = c.rate s m2 m1 := by
  have hcont : rateCONT c s m1 m2 = rateCONT c s m2 m1 := by
    simp only [rateCONT]
    congr 1; funext l; congr 1; funext k; congr 1; ring
  have hfm : rateFM c s m1 m2 = rateFM c s m2 m1 := by
    unfold rateFM
    congr 1; funext k; rw [add_comm (1 / m1), add_comm (m1 ^ onethird)]
  have hhm : rateHM c s m1 m2 = rateHM c s m2 m1 := by
    simp only [rateHM]
    rw [mul_comm m1 m2, add_comm m1 m2, add_comm (diam m1)]
    congr 1; funext r; congr 1; funext l; congr 1; funext q
    rw [add_comm (cunningham (2 * l / diam m1) / diam m1)]
  have hfu : rateFUCHS c s m1 m2 = rateFUCHS c s m2 m1 := by
    unfold rateFUCHS
    rcases fuchsPart_cases s m1 with ⟨x, hx⟩ | hx <;> rcases fuchsPart_cases s m2 with ⟨y, hy⟩ | hy <;>
      simp only [hx, hy, ok_bind, nonfin_bind]
    unfold fuchsComb
    rw [add_comm x.D, add_comm x.d, add_comm (x.g * _), add_comm (x.c * _)]
  unfold Coag.rate
  by_cases hm : m1 ≤ mmin ∨ m2 ≤ mmin
  · simp only [if_pos hm, if_pos hm.symm]
  · simp only [if_neg hm, if_neg (fun h : m2 ≤ mmin ∨ m1 ≤ mmin => hm h.symm), hcont, hfm, hhm, hfu]

/-- **C13.** On every accepted state the kernel of every mechanism is finite; for the four real
mechanisms it is strictly positive above the cutoff and exactly zero when one mass is at or below it;
NONE is zero. -/
theorem C13_kernel_positive (c : Coag) (s : State) (hs : Accepted s) (hc : 0 < c.fmMult) (m1 m2 : ℝ) :
    ∃ k, c.rate s m1 m2 = ok k ∧
      (c.mech = .NONE → k = 0) ∧
      (m1 ≤ mmin ∨ m2 ≤ mmin → k = 0) ∧
      (c.mech ≠ .NONE → mmin < m1 → mmin < m2 → 0 < k) := by
  have h := hs.phys
  refine ⟨_, Coag.rate_ok h hc m1 m2, ?_, ?_, ?_⟩
  · intro hn; simp [Coag.val, hn]
  · intro hm; simp [Coag.val, hm]
  · intro hn h1' h2'
    have h1 := mmin_pos.trans h1'
    have h2 := mmin_pos.trans h2'
    rw [Coag.val, if_neg (by push Not; exact ⟨h1', h2'⟩)]
    rcases hx : c.mech <;> simp only
    · exact absurd hx hn
    · exact fmVal_pos h hc h1 h2
    · exact contVal_pos h h1 h2
    · have := fmVal_pos h hc h1 h2; have := hmContVal_pos h h1 h2; positivity
    · exact fuchsVal_pos h h1 h2 hc

/-- C13 applied to a concrete accepted state and two particles above the cutoff (100 and 200 carbon
atoms): the Fuchs kernel is positive. -/
example : ∃ k, (Coag.new .FUCHS).rate stEx 2E-24 4E-24 = ok k ∧ 0 < k := by
  obtain ⟨k, h, _, _, hp⟩ := C13_kernel_positive (Coag.new .FUCHS) stEx stEx_accepted
    (by norm_num [Coag.new]) 2E-24 4E-24
  exact ⟨k, h, hp (by simp [Coag.new]) (by norm_num [mmin]) (by norm_num [mmin])⟩

/-- **C14.** The HM kernel is the harmonic mean of the FM kernel and a continuum kernel `kc`; it is at
most each, at least half of the smaller, and `kc` does not exceed the CONTINUUM kernel. -/
theorem C14_harmonic_mean (c : ℝ) (s : State) (hs : Accepted s) (hc : 0 < c) (m1 m2 : ℝ)
    (h1 : mmin < m1) (h2 : mmin < m2) :
    ∃ khm kfm kcont kc,
      (⟨.HM, c⟩ : Coag).rate s m1 m2 = ok khm ∧ (⟨.FM, c⟩ : Coag).rate s m1 m2 = ok kfm ∧
      (⟨.CONTINUUM, c⟩ : Coag).rate s m1 m2 = ok kcont ∧
      0 < kc ∧ kc ≤ kcont ∧ 1 / khm = 1 / kfm + 1 / kc ∧
      khm ≤ kfm ∧ khm ≤ kc ∧ khm ≤ kcont ∧ min kfm kc / 2 ≤ khm := by
  have h := hs.phys
  have p1 := mmin_pos.trans h1
  have p2 := mmin_pos.trans h2
  have hm : ¬ (m1 ≤ mmin ∨ m2 ≤ mmin) := by push Not; exact ⟨h1, h2⟩
  have hf := fmVal_pos (c := ⟨.HM, c⟩) h hc p1 p2
  have hk := hmContVal_pos h p1 p2
  have hle : hmContVal s m1 m2 ≤ contVal s m1 m2 := by
    have := h.mu; have := h.T; have := kb_pos; have d1 := diam_pos p1; have d2 := diam_pos p2
    have hl := h.mfpVal_pos
    have c1 := cunningham_le (Kn := 2 * s.mfpVal / diam m1) (by positivity)
    have c2 := cunningham_le (Kn := 2 * s.mfpVal / diam m2) (by positivity)
    have e : kcVal s = twothird * kb * s.T / s.muGas := by
      unfold kcVal twothird; field_simp
    unfold contVal hmContVal
    rw [e]
    have : 0 < twothird := by norm_num [twothird]
    gcongr
  refine ⟨_, _, _, hmContVal s m1 m2, Coag.rate_ok h hc m1 m2, Coag.rate_ok h hc m1 m2,
    Coag.rate_ok h hc m1 m2, hk, ?_, ?_⟩
  · simpa [Coag.val, hm] using hle
  · simp only [Coag.val, hm, if_false]
    have hfe : fmVal ⟨.FM, c⟩ s m1 m2 = fmVal ⟨.HM, c⟩ s m1 m2 := rfl
    rw [hfe]
    set f := fmVal ⟨.HM, c⟩ s m1 m2
    set k := hmContVal s m1 m2
    have hlef : f * k / (f + k) ≤ f := by rw [div_le_iff₀ (by positivity)]; nlinarith
    have hlek : f * k / (f + k) ≤ k := by rw [div_le_iff₀ (by positivity)]; nlinarith
    refine ⟨by field_simp; ring, hlef, hlek, hlek.trans hle, ?_⟩
    rw [le_div_iff₀ (by positivity)]
    rcases le_total f k with hfk | hfk
    · rw [min_eq_left hfk]; nlinarith
    · rw [min_eq_right hfk]; nlinarith

example : mmin < 2E-24 ∧ Accepted stEx := ⟨by norm_num [mmin], stEx_accepted⟩

/-- **C15.** The FM multiplier scales the FM kernel linearly, does not affect the CONTINUUM kernel, and
the HM and FUCHS kernels grow with it. -/
theorem C15_multiplier (s : State) (hs : Accepted s) (c c' : ℝ) (hc : 0 < c) (hcc : c ≤ c') (m1 m2 : ℝ) :
    (∃ k, ((Coag.new .FM)).rate s m1 m2 = ok k ∧
      ((Coag.new .FM).setFM c).rate s m1 m2 = ok (c * k)) ∧
    ((Coag.new .CONTINUUM).setFM c).rate s m1 m2 = (Coag.new .CONTINUUM).rate s m1 m2 ∧
    (∃ k k', ((Coag.new .HM).setFM c).rate s m1 m2 = ok k ∧
      ((Coag.new .HM).setFM c').rate s m1 m2 = ok k' ∧ k ≤ k') ∧
    (∃ k k', ((Coag.new .FUCHS).setFM c).rate s m1 m2 = ok k ∧
      ((Coag.new .FUCHS).setFM c').rate s m1 m2 = ok k' ∧ k ≤ k') := by
  have h := hs.phys
  have hc' : 0 < c' := hc.trans_le hcc
  have h1 : ∀ m, 0 < (Coag.new m).fmMult := by intro m; show (0 : ℝ) < 1.0; norm_num
  by_cases hm : m1 ≤ mmin ∨ m2 ≤ mmin
  · simp [Coag.rate, hm, Coag.setFM, Coag.new]
  · have hp := hm
    push Not at hp
    have p1 := mmin_pos.trans hp.1
    have p2 := mmin_pos.trans hp.2
    refine ⟨⟨_, Coag.rate_ok h (h1 _) m1 m2, ?_⟩, ?_, ⟨_, _, Coag.rate_ok h hc m1 m2,
      Coag.rate_ok h hc' m1 m2, ?_⟩, ⟨_, _, Coag.rate_ok h hc m1 m2, Coag.rate_ok h hc' m1 m2, ?_⟩⟩
    · rw [Coag.rate_ok h hc m1 m2]
      simp only [Coag.val, hm, if_false, Coag.new, Coag.setFM, fmVal, Coag.kfmVal]
      congr 1; rw [show (1.0 : ℝ) = 1 by norm_num]; ring
    · rw [Coag.rate_ok h hc m1 m2, Coag.rate_ok h (h1 _) m1 m2]
      simp [Coag.val, hm, Coag.new, Coag.setFM]
    · simp only [Coag.val, hm, if_false, Coag.new, Coag.setFM]
      have f1 := fmVal_pos (c := ⟨.HM, c⟩) h hc p1 p2
      have f2 := fmVal_pos (c := ⟨.HM, c'⟩) h hc' p1 p2
      have hk := hmContVal_pos h p1 p2
      have hle : fmVal ⟨.HM, c⟩ s m1 m2 ≤ fmVal ⟨.HM, c'⟩ s m1 m2 := by
        have := epsC_pos; have := rhoSoot_pos
        unfold fmVal Coag.kfmVal; gcongr
      set f := fmVal ⟨.HM, c⟩ s m1 m2
      set f' := fmVal ⟨.HM, c'⟩ s m1 m2
      set k := hmContVal s m1 m2
      rw [div_le_div_iff₀ (by positivity) (by positivity)]
      nlinarith [mul_le_mul_of_nonneg_right hle (mul_pos hk hk).le]
    · simp only [Coag.val, hm, if_false, Coag.new, Coag.setFM]
      have d1 := fuchsD_pos h p1; have d2 := fuchsD_pos h p2
      have g1 := diam_pos p1; have g2 := diam_pos p2
      have he := epsC_pos
      have c1 := fuchsC_pos h p1; have c2 := fuchsC_pos h p2
      refine div_le_div_of_nonneg_left (by positivity)
        (fuchsVal_den_pos (c := ⟨.FUCHS, c'⟩) h p1 p2 hc') ?_
      show _ + 8 / (epsC * c') * _ / _ ≤ _ + 8 / (epsC * c) * _ / _
      gcongr

example : (0 : ℝ) < 9 / 2 / 2.2 ∧ (1 : ℝ) ≤ 9 / 2 / 2.2 := by norm_num

end Soot
