import Verif.Props.SectEvolution
import Verif.Props.LognCont

/-!
# LOGN driven by a reactor (C110)

A reactor hands the three moments to `setState`, calls `sootModel_LOGN::setSourceTerms` (sootModel_LOGN.cc:153-325) and lets the moments change at the reported
rates.  With coagulation alone the spread `M0 M2 / M1²` of the distribution tends to the value of the self-preserving distribution.
-/

namespace Soot

open Res Real Filter Topology Cont
open scoped Classical

/-- Specification: the moments `M` evolve on `[0, τ]`.  At every instant `setState` accepts the gas `a t` with the moments `M t`, whatever the object `o t` held
before, `setSourceTerms` succeeds, and the moments change at the rates it reports. -/
structure LognRun (m : Model) (o : ℝ → State) (a : ℝ → SetArgs) (τ : ℝ) (M : ℝ → Fin 3 → ℝ) : Prop where
  cont : ContinuousOn M (Set.Icc 0 τ)
  rate : ∀ t ∈ Set.Ico 0 τ, ∃ s m' s', setState (o t) { a t with sootVar := List.ofFn (M t) } = (s, ok ()) ∧ lognSources m s = ok (m', s') ∧
    HasDerivWithinAt M (fun k => m'.sources.soot.getD k 0) (Set.Ici t) t

/-- Every accepted call along the history leaves a state LOGN can be evaluated in. -/
def LognCalls (m : Model) (o : ℝ → State) (a : ℝ → SetArgs) (τ : ℝ) : Prop :=
  ∀ t ∈ Set.Ico 0 τ, ∀ (v : Fin 3 → ℝ) (s : State), setState (o t) { a t with sootVar := List.ofFn v } = (s, ok ()) →
    LognReady m s (max (v 0) 0) (max (v 1) 0) (max (v 2) 0)

/-- Specification: the spread of a distribution with these moments, 1 for equal particles and `exp σ²` for a lognormal one. -/
noncomputable def spread (M : Fin 3 → ℝ) : ℝ := M 0 * M 2 / M 1 ^ 2

/-! ## The rates in terms of number, mean mass and spread -/

section
variable {M0 M1 M2 : ℝ}

theorem lognM_spread (h0 : 0 < M0) (h1 : 0 < M1) (h2 : 0 < M2) (r : ℝ) :
    lognM M0 M1 M2 r = M0 * (M1 / M0) ^ r * (M0 * M2 / M1 ^ 2) ^ (r * (r - 1) / 2) := by
  have e : lognM M0 M1 M2 r = M0 ^ (1 + 0.5 * r * (r - 3)) * M1 ^ (r * (2 - r)) * M2 ^ (0.5 * r * (r - 1)) := by
    unfold lognM
    split_ifs with a b
    · subst a; norm_num
    · subst b; norm_num
    · exact lognMrVal_pos h0 h1 h2 r
  rw [e]
  obtain ⟨x, rfl⟩ : ∃ x, exp x = M0 := ⟨_, exp_log h0⟩
  obtain ⟨y, rfl⟩ : ∃ x, exp x = M1 := ⟨_, exp_log h1⟩
  obtain ⟨z, rfl⟩ : ∃ x, exp x = M2 := ⟨_, exp_log h2⟩
  rw [← exp_sub, ← exp_add, ← exp_nat_mul, ← exp_sub]
  simp only [← exp_mul, ← exp_add]
  congr 1
  push_cast
  ring

/-- The dependence of the free-molecular terms on the spread. -/
noncomputable def fmP (q : ℝ) : ℝ := q ^ (-5 / 72 : ℝ) + 2 * q ^ (-1 / 72 : ℝ) + q ^ (19 / 72 : ℝ)

theorem fmP_pos {q : ℝ} (hq : 0 < q) : 0 < fmP q := by unfold fmP; positivity

theorem fmP_ge {q : ℝ} (hq : 0 < q) : 1 ≤ fmP q := by
  have := rpow_pos_of_pos hq (-5 / 72); have := rpow_pos_of_pos hq (-1 / 72); have := rpow_pos_of_pos hq (19 / 72)
  unfold fmP
  rcases le_total q 1 with h | h
  · have := one_le_rpow_of_pos_of_le_one_of_nonpos hq h (show (-5 / 72 : ℝ) ≤ 0 by norm_num)
    linarith
  · have := one_le_rpow h (show (0 : ℝ) ≤ 19 / 72 by norm_num)
    linarith

theorem pair_mul {n μ q : ℝ} (hμ : 0 < μ) (hq : 0 < q) (a b x y : ℝ) :
    n * μ ^ a * q ^ x * (n * μ ^ b * q ^ y) = n ^ 2 * μ ^ (a + b) * q ^ (x + y) := by
  rw [rpow_add hμ, rpow_add hq]; ring

theorem fm0_spread (c : Coag) (s : State) (h0 : 0 < M0) (h1 : 0 < M1) (h2 : 0 < M2) :
    lognCoa0Fm c s (lognM M0 M1 M2) = c.kfmVal s * bCoag * (M0 ^ 2 * (M1 / M0) ^ (1 / 6 : ℝ) * fmP (M0 * M2 / M1 ^ 2)) := by
  have hμ : 0 < M1 / M0 := by positivity
  have hq : 0 < M0 * M2 / M1 ^ 2 := by positivity
  unfold lognCoa0Fm fmP
  simp only [lognM_spread h0 h1 h2]
  set μ := M1 / M0; set q := M0 * M2 / M1 ^ 2
  have e1 := pair_mul (n := M0) hμ hq 0 (1 / 6) (0 * (0 - 1) / 2) (1 / 6 * (1 / 6 - 1) / 2)
  have e2 := pair_mul (n := M0) hμ hq (2 / 6) (-1 / 6) (2 / 6 * (2 / 6 - 1) / 2) (-1 / 6 * (-1 / 6 - 1) / 2)
  have e3 := pair_mul (n := M0) hμ hq (4 / 6) (-3 / 6) (4 / 6 * (4 / 6 - 1) / 2) (-3 / 6 * (-3 / 6 - 1) / 2)
  rw [mul_assoc 2, e1, e2, e3]
  norm_num only
  ring

theorem fm2_spread (c : Coag) (s : State) (h0 : 0 < M0) (h1 : 0 < M1) (h2 : 0 < M2) :
    lognCoa2Fm c s (lognM M0 M1 M2) =
      2 * (c.kfmVal s * bCoag) * (M0 ^ 2 * (M1 / M0) ^ (13 / 6 : ℝ) * ((M0 * M2 / M1 ^ 2) ^ (1 / 6 : ℝ) * fmP (M0 * M2 / M1 ^ 2))) := by
  have hμ : 0 < M1 / M0 := by positivity
  have hq : 0 < M0 * M2 / M1 ^ 2 := by positivity
  unfold lognCoa2Fm fmP
  simp only [lognM_spread h0 h1 h2]
  set μ := M1 / M0; set q := M0 * M2 / M1 ^ 2
  have e1 := pair_mul (n := M0) hμ hq 1 (7 / 6) (1 * (1 - 1) / 2) (7 / 6 * (7 / 6 - 1) / 2)
  have e2 := pair_mul (n := M0) hμ hq (8 / 6) (5 / 6) (8 / 6 * (8 / 6 - 1) / 2) (5 / 6 * (5 / 6 - 1) / 2)
  have e3 := pair_mul (n := M0) hμ hq (10 / 6) (3 / 6) (10 / 6 * (10 / 6 - 1) / 2) (3 / 6 * (3 / 6 - 1) / 2)
  have d1 : q ^ (1 / 6 : ℝ) * q ^ (-5 / 72 : ℝ) = q ^ (7 / 72 : ℝ) := by rw [← rpow_add hq]; norm_num
  have d2 : q ^ (1 / 6 : ℝ) * q ^ (-1 / 72 : ℝ) = q ^ (11 / 72 : ℝ) := by rw [← rpow_add hq]; norm_num
  have d3 : q ^ (1 / 6 : ℝ) * q ^ (19 / 72 : ℝ) = q ^ (31 / 72 : ℝ) := by rw [← rpow_add hq]; norm_num
  have d : q ^ (1 / 6 : ℝ) * (q ^ (-5 / 72 : ℝ) + 2 * q ^ (-1 / 72 : ℝ) + q ^ (19 / 72 : ℝ)) = q ^ (7 / 72 : ℝ) + 2 * q ^ (11 / 72 : ℝ) + q ^ (31 / 72 : ℝ) := by
    rw [← d1, ← d2, ← d3]; ring
  rw [d, mul_assoc 2 (M0 * μ ^ (8 / 6 : ℝ) * _), e1, e2, e3]
  norm_num
  ring

theorem c0_spread (s : State) (h0 : 0 < M0) (h1 : 0 < M1) (h2 : 0 < M2) :
    lognCoa0C s (lognM M0 M1 M2) = kcVal s * M0 ^ 2 * (1 + (M0 * M2 / M1 ^ 2) ^ (1 / 9 : ℝ) +
      kcpVal s * (M1 / M0) ^ (-1 / 3 : ℝ) * ((M0 * M2 / M1 ^ 2) ^ (2 / 9 : ℝ) + (M0 * M2 / M1 ^ 2) ^ (4 / 9 : ℝ))) := by
  have hμ : 0 < M1 / M0 := by positivity
  have hq : 0 < M0 * M2 / M1 ^ 2 := by positivity
  unfold lognCoa0C
  simp only [lognM_spread h0 h1 h2]
  set μ := M1 / M0; set q := M0 * M2 / M1 ^ 2
  have e1 := pair_mul (n := M0) hμ hq 0 0 (0 * (0 - 1) / 2) (0 * (0 - 1) / 2)
  have e2 := pair_mul (n := M0) hμ hq (2 / 6) (-2 / 6) (2 / 6 * (2 / 6 - 1) / 2) (-2 / 6 * (-2 / 6 - 1) / 2)
  have e3 := pair_mul (n := M0) hμ hq 0 (-2 / 6) (0 * (0 - 1) / 2) (-2 / 6 * (-2 / 6 - 1) / 2)
  have e4 := pair_mul (n := M0) hμ hq (2 / 6) (-4 / 6) (2 / 6 * (2 / 6 - 1) / 2) (-4 / 6 * (-4 / 6 - 1) / 2)
  rw [e1, e2, e3, e4]
  norm_num
  ring

theorem c2_spread (s : State) (h0 : 0 < M0) (h1 : 0 < M1) (h2 : 0 < M2) :
    lognCoa2C s (lognM M0 M1 M2) = 2 * kcVal s * M1 ^ 2 * (1 + (M0 * M2 / M1 ^ 2) ^ (1 / 9 : ℝ) +
      kcpVal s * (M1 / M0) ^ (-1 / 3 : ℝ) * ((M0 * M2 / M1 ^ 2) ^ (-1 / 9 : ℝ) + (M0 * M2 / M1 ^ 2) ^ (1 / 9 : ℝ))) := by
  have hμ : 0 < M1 / M0 := by positivity
  have hq : 0 < M0 * M2 / M1 ^ 2 := by positivity
  have hM : M1 ^ 2 = M0 ^ 2 * (M1 / M0) ^ (2 : ℝ) := by rw [rpow_two]; field_simp
  have hM' : M0 ^ 2 * (M1 / M0) ^ (5 / 3 : ℝ) = M0 ^ 2 * (M1 / M0) ^ (2 : ℝ) * (M1 / M0) ^ (-1 / 3 : ℝ) := by rw [mul_assoc, ← rpow_add hμ]; norm_num
  unfold lognCoa2C
  simp only [lognM_spread h0 h1 h2]
  set q := M0 * M2 / M1 ^ 2
  rw [hM]
  set μ := M1 / M0
  have e1 := pair_mul (n := M0) hμ hq 1 1 (1 * (1 - 1) / 2) (1 * (1 - 1) / 2)
  have e2 := pair_mul (n := M0) hμ hq (4 / 6) (8 / 6) (4 / 6 * (4 / 6 - 1) / 2) (8 / 6 * (8 / 6 - 1) / 2)
  have e3 := pair_mul (n := M0) hμ hq 1 (4 / 6) (1 * (1 - 1) / 2) (4 / 6 * (4 / 6 - 1) / 2)
  have e4 := pair_mul (n := M0) hμ hq (2 / 6) (8 / 6) (2 / 6 * (2 / 6 - 1) / 2) (8 / 6 * (8 / 6 - 1) / 2)
  rw [e1, e2, e3, e4]
  norm_num only [rpow_zero, mul_one]
  rw [hM']
  ring

end

/-! ## Coagulation alone -/

/-- What the moments do with coagulation alone. -/
theorem LognRun.coag {m : Model} {o : ℝ → State} {a : ℝ → SetArgs} {τ : ℝ} {M : ℝ → Fin 3 → ℝ} (hr : LognCalls m o a τ) (hn : m.nucl.mech = .NONE)
    (hg : m.grow.mech = .NONE) (ho : m.oxid.cls = .NONE) (h : LognRun m o a τ M) :
    ∃ s : ℝ → State, ∀ t ∈ Set.Ico 0 τ, setState (o t) { a t with sootVar := List.ofFn (M t) } = (s t, ok ()) ∧
      LognReady m (s t) (max (M t 0) 0) (max (M t 1) 0) (max (M t 2) 0) ∧
      HasDerivWithinAt (fun t => M t 0) (lognCoagVal m.coag (s t) (lognM (max (M t 0) 0) (max (M t 1) 0) (max (M t 2) 0))).1 (Set.Ici t) t ∧
      HasDerivWithinAt (fun t => M t 1) 0 (Set.Ici t) t ∧
      HasDerivWithinAt (fun t => M t 2) (lognCoagVal m.coag (s t) (lognM (max (M t 0) 0) (max (M t 1) 0) (max (M t 2) 0))).2 (Set.Ici t) t := by
  have key : ∀ t, ∃ s : State, t ∈ Set.Ico 0 τ → setState (o t) { a t with sootVar := List.ofFn (M t) } = (s, ok ()) ∧
      LognReady m s (max (M t 0) 0) (max (M t 1) 0) (max (M t 2) 0) ∧
      HasDerivWithinAt (fun t => M t 0) (lognCoagVal m.coag s (lognM (max (M t 0) 0) (max (M t 1) 0) (max (M t 2) 0))).1 (Set.Ici t) t ∧
      HasDerivWithinAt (fun t => M t 1) 0 (Set.Ici t) t ∧
      HasDerivWithinAt (fun t => M t 2) (lognCoagVal m.coag s (lognM (max (M t 0) 0) (max (M t 1) 0) (max (M t 2) 0))).2 (Set.Ici t) t := fun t => by
    by_cases ht : t ∈ Set.Ico 0 τ
    · obtain ⟨s, m', s', r1, r2, r3⟩ := h.rate t ht
      have rd := hr t ht _ _ r1
      obtain ⟨m'', s'', J, n', kG, kO, e1, -, -, -, e5, e6, -, -, -, e10, -, -, e13⟩ := logn_eval rd (fun h => by simp [hn] at h)
      have e := r2.symm.trans e1
      simp only [ok.injEq, Prod.mk.injEq] at e
      obtain ⟨rfl, -⟩ := e
      have J0 := e10 hn
      have k0 : kG = 0 := by simp only [Grow.rate, hg, ok.injEq] at e5; exact e5.symm
      have o0 : kO = 0 := by simp only [Oxid.rate, ho, ok.injEq] at e6; exact e6.symm
      subst J0 k0 o0
      simp only [hn, reduceCtorEq, if_false, zero_mul, zero_add, sub_self, mul_zero, add_zero] at e13
      have d := hasDerivWithinAt_pi.1 r3
      have d0 := d 0; have d1 := d 1; have d2 := d 2
      rw [e13] at d0 d1 d2
      exact ⟨s, fun _ => ⟨r1, rd, by simpa using d0, by simpa using d1, by simpa using d2⟩⟩
    · exact ⟨o t, fun h => absurd h ht⟩
  choose s hs using key
  exact ⟨s, hs⟩

section
variable {m : Model} {o : ℝ → State} {a : ℝ → SetArgs} {τ : ℝ} {M : ℝ → Fin 3 → ℝ}

theorem LognRun.comp (h : LognRun m o a τ M) (k : Fin 3) : ContinuousOn (fun t => M t k) (Set.Icc 0 τ) := continuousOn_pi.1 h.cont k

theorem const_of_right {f : ℝ → ℝ} {τ : ℝ} (hc : ContinuousOn f (Set.Icc 0 τ)) (hd : ∀ t ∈ Set.Ico 0 τ, HasDerivWithinAt f 0 (Set.Ici t) t) :
    ∀ t ∈ Set.Icc 0 τ, f t = f 0 := fun t ht => by
  have h0 : (0 : ℝ) ∈ Set.Icc 0 τ := ⟨le_rfl, ht.1.trans ht.2⟩
  have a1 := antitone_of_right hc hd (fun _ _ => le_rfl) h0 ht ht.1
  have a2 := antitone_of_right (f := fun t => -f t) (f' := fun _ => 0) hc.neg (fun t ht => by simpa using (hd t ht).fun_neg) (fun _ _ => le_rfl) h0 ht ht.1
  linarith

theorem mono_of_right {f f' : ℝ → ℝ} {τ : ℝ} (hc : ContinuousOn f (Set.Icc 0 τ)) (hd : ∀ t ∈ Set.Ico 0 τ, HasDerivWithinAt f (f' t) (Set.Ici t) t)
    (h : ∀ t ∈ Set.Ico 0 τ, 0 ≤ f' t) : MonotoneOn f (Set.Icc 0 τ) := fun x hx y hy hxy => by
  have := antitone_of_right (f := fun t => -f t) (f' := fun t => -f' t) hc.neg (fun t ht => (hd t ht).fun_neg) (fun t ht => neg_nonpos.2 (h t ht)) hx hy hxy
  linarith

/-- **C110 (mass and order).** With coagulation alone, whatever the gas goes through, the mass never changes, the number never rises and the second moment never
falls. -/
theorem C110_coagulation (hr : LognCalls m o a τ) (hn : m.nucl.mech = .NONE) (hg : m.grow.mech = .NONE) (ho : m.oxid.cls = .NONE) (h : LognRun m o a τ M) :
    (∀ t ∈ Set.Icc 0 τ, M t 1 = M 0 1) ∧ AntitoneOn (fun t => M t 0) (Set.Icc 0 τ) ∧ MonotoneOn (fun t => M t 2) (Set.Icc 0 τ) := by
  obtain ⟨s, hs⟩ := h.coag hr hn hg ho
  have sg : ∀ t ∈ Set.Ico 0 τ, _ := fun t ht => lognCoagVal_sign (c := m.coag) (hs t ht).2.1.gas.acc.phys (hs t ht).2.1.fm
    (lognM_nonneg (hs t ht).2.1.m0 (hs t ht).2.1.m1 (hs t ht).2.1.m2)
  exact ⟨const_of_right (h.comp 1) fun t ht => (hs t ht).2.2.2.1, antitone_of_right (h.comp 0) (fun t ht => (hs t ht).2.2.1) fun t ht => (sg t ht).1,
    mono_of_right (h.comp 2) (fun t ht => (hs t ht).2.2.2.2) fun t ht => (sg t ht).2⟩

/-- The same with positive moments: no clamping happens. -/
theorem LognRun.coag_pos (hr : LognCalls m o a τ) (hn : m.nucl.mech = .NONE) (hg : m.grow.mech = .NONE) (ho : m.oxid.cls = .NONE) (h : LognRun m o a τ M)
    (p0 : ∀ t ∈ Set.Icc 0 τ, 0 < M t 0) (p1 : 0 < M 0 1) (p2 : 0 < M 0 2) :
    (∀ t ∈ Set.Icc 0 τ, M t 1 = M 0 1 ∧ 0 < M t 2) ∧
    ∃ s : ℝ → State, ∀ t ∈ Set.Ico 0 τ, setState (o t) { a t with sootVar := List.ofFn (M t) } = (s t, ok ()) ∧ (s t).Phys ∧ 0 < m.coag.fmMult ∧
      HasDerivWithinAt (fun t => M t 0) (lognCoagVal m.coag (s t) (lognM (M t 0) (M 0 1) (M t 2))).1 (Set.Ici t) t ∧
      HasDerivWithinAt (fun t => M t 2) (lognCoagVal m.coag (s t) (lognM (M t 0) (M 0 1) (M t 2))).2 (Set.Ici t) t := by
  obtain ⟨a1, -, a2⟩ := C110_coagulation hr hn hg ho h
  have q : ∀ t ∈ Set.Icc 0 τ, M t 1 = M 0 1 ∧ 0 < M t 2 := fun t ht => ⟨a1 t ht, p2.trans_le (a2 ⟨le_rfl, ht.1.trans ht.2⟩ ht ht.1)⟩
  obtain ⟨s, hs⟩ := h.coag hr hn hg ho
  refine ⟨q, s, fun t ht => ?_⟩
  have ht' : t ∈ Set.Icc 0 τ := ⟨ht.1, ht.2.le⟩
  obtain ⟨b1, b2, b3, -, b5⟩ := hs t ht
  obtain ⟨q1, q2⟩ := q t ht'
  rw [q1, max_eq_left (p0 t ht').le, max_eq_left q2.le, max_eq_left p1.le] at b3 b5
  exact ⟨b1, b2.gas.acc.phys, b2.fm, b3, b5⟩

/-! ## Free-molecular coagulation -/

theorem fm_id2 {n c z : ℝ} (hn : 0 < n) (hc : 0 < c) (hz : 0 < z) :
    n ^ 2 * (c / n) ^ (13 / 6 : ℝ) * (n * z / c ^ 2) ^ (1 / 6 : ℝ) * z ^ (5 / 6 - 1 : ℝ) = c ^ (11 / 6 : ℝ) := by
  obtain ⟨x, rfl⟩ : ∃ x, exp x = n := ⟨_, exp_log hn⟩
  obtain ⟨y, rfl⟩ : ∃ x, exp x = c := ⟨_, exp_log hc⟩
  obtain ⟨w, rfl⟩ : ∃ x, exp x = z := ⟨_, exp_log hz⟩
  simp only [← exp_nat_mul, ← exp_sub, ← exp_add, ← exp_mul]
  congr 1; push_cast; ring

theorem fm_id0 {n c : ℝ} (hn : 0 < n) (hc : 0 < c) : n ^ 2 * (c / n) ^ (1 / 6 : ℝ) * n ^ (-5 / 6 - 1 : ℝ) = c ^ (1 / 6 : ℝ) := by
  obtain ⟨x, rfl⟩ : ∃ x, exp x = n := ⟨_, exp_log hn⟩
  obtain ⟨y, rfl⟩ : ∃ x, exp x = c := ⟨_, exp_log hc⟩
  simp only [← exp_nat_mul, ← exp_sub, ← exp_add, ← exp_mul]
  congr 1; push_cast; ring

/-- **C110 (free-molecular).** With free-molecular coagulation alone the spread is determined by the number: its power 5/6 differs from 2 by an amount that falls
with the power 5/6 of the number.  This holds whatever temperature, pressure and composition the gas goes through. -/
theorem C110_fm_spread (hr : LognCalls m o a τ) (hn : m.nucl.mech = .NONE) (hg : m.grow.mech = .NONE) (ho : m.oxid.cls = .NONE) (hk : m.coag.mech = .FM)
    (h : LognRun m o a τ M) (p0 : ∀ t ∈ Set.Icc 0 τ, 0 < M t 0) (p1 : 0 < M 0 1) (p2 : 0 < M 0 2) :
    ∀ t ∈ Set.Icc 0 τ, spread (M t) ^ (5 / 6 : ℝ) - 2 = (spread (M 0) ^ (5 / 6 : ℝ) - 2) * (M t 0 / M 0 0) ^ (5 / 6 : ℝ) := by
  obtain ⟨q, s, hs⟩ := h.coag_pos hr hn hg ho p0 p1 p2
  set c := M 0 1 with hc
  have inv := const_of_right (f := fun t => M t 2 ^ (5 / 6 : ℝ) - 2 * c ^ (5 / 3 : ℝ) * M t 0 ^ (-5 / 6 : ℝ)) (τ := τ)
    (((h.comp 2).rpow_const fun t ht => .inl (q t ht).2.ne').sub (continuousOn_const.mul ((h.comp 0).rpow_const fun t ht => .inl (p0 t ht).ne'))) (fun t ht => by
      have ht' : t ∈ Set.Icc 0 τ := ⟨ht.1, ht.2.le⟩
      obtain ⟨-, -, -, d0, d2⟩ := hs t ht
      have n0 := p0 t ht'; have z0 := (q t ht').2
      have e0 := fm0_spread m.coag (s t) n0 p1 z0
      have e2 := fm2_spread m.coag (s t) n0 p1 z0
      simp only [lognCoagVal, hk, e0, e2] at d0 d2
      have := (d2.rpow_const (p := 5 / 6) (.inl z0.ne')).sub ((d0.rpow_const (p := -5 / 6) (.inl n0.ne')).const_mul (2 * c ^ (5 / 3 : ℝ)))
      refine this.congr_deriv ?_
      have i2 := fm_id2 n0 p1 z0
      have i0 := fm_id0 n0 p1
      have i1 : c ^ (5 / 3 : ℝ) * c ^ (1 / 6 : ℝ) = c ^ (11 / 6 : ℝ) := by rw [← rpow_add p1]; norm_num
      set P := fmP (M t 0 * M t 2 / c ^ 2)
      set K := m.coag.kfmVal (s t) * bCoag
      linear_combination (5 / 3 * K * P) * i2 - (5 / 3 * K * P * c ^ (5 / 3 : ℝ)) * i0 - (5 / 3 * K * P) * i1)
  have sp : ∀ t ∈ Set.Icc 0 τ, spread (M t) ^ (5 / 6 : ℝ) - 2 =
      M t 0 ^ (5 / 6 : ℝ) * c ^ (-5 / 3 : ℝ) * (M t 2 ^ (5 / 6 : ℝ) - 2 * c ^ (5 / 3 : ℝ) * M t 0 ^ (-5 / 6 : ℝ)) := fun t ht => by
    have n0 := p0 t ht; obtain ⟨q1, z0⟩ := q t ht
    rw [spread, q1]
    have e1 : (M t 0 * M t 2 / c ^ 2) ^ (5 / 6 : ℝ) = M t 0 ^ (5 / 6 : ℝ) * c ^ (-5 / 3 : ℝ) * M t 2 ^ (5 / 6 : ℝ) := by
      rw [div_rpow (by positivity) (by positivity), mul_rpow n0.le z0.le, ← rpow_natCast, ← rpow_mul p1.le, div_eq_mul_inv, ← rpow_neg p1.le]
      norm_num; ring
    have e2 : c ^ (-5 / 3 : ℝ) * c ^ (5 / 3 : ℝ) = 1 := by rw [← rpow_add p1]; norm_num
    have e3 : M t 0 ^ (5 / 6 : ℝ) * M t 0 ^ (-5 / 6 : ℝ) = 1 := by rw [← rpow_add n0]; norm_num
    rw [e1]
    linear_combination 2 * e2 * (M t 0 ^ (5 / 6 : ℝ) * M t 0 ^ (-5 / 6 : ℝ)) + 2 * e3
  intro t ht
  have h0 : (0 : ℝ) ∈ Set.Icc 0 τ := ⟨le_rfl, ht.1.trans ht.2⟩
  have i := inv t ht
  beta_reduce at i
  rw [sp t ht, sp 0 h0, i, div_rpow (p0 t ht).le (p0 0 h0).le]
  have := (rpow_pos_of_pos (p0 0 h0) (5 / 6)).ne'
  field_simp

/-- The number of particles falls at least like the power -6/5 of the time. -/
theorem fm_decay (hr : LognCalls m o a τ) (hn : m.nucl.mech = .NONE) (hg : m.grow.mech = .NONE) (ho : m.oxid.cls = .NONE) (hk : m.coag.mech = .FM)
    (h : LognRun m o a τ M) (p0 : ∀ t ∈ Set.Icc 0 τ, 0 < M t 0) (p1 : 0 < M 0 1) (p2 : 0 < M 0 2) {Tm : ℝ} (hT : ∀ t ∈ Set.Ico 0 τ, Tm ≤ (a t).T) :
    ∀ t ∈ Set.Icc 0 τ, M 0 0 ^ (-5 / 6 : ℝ) +
      5 / 6 * (m.coag.fmMult * epsC * sqrt (0.5 * π * kb * Tm) * (6 / (π * rhoSoot)) ^ twothird * bCoag) * M 0 1 ^ (1 / 6 : ℝ) * t ≤ M t 0 ^ (-5 / 6 : ℝ) := by
  obtain ⟨q, s, hs⟩ := h.coag_pos hr hn hg ho p0 p1 p2
  set c := M 0 1 with hc
  set K := m.coag.fmMult * epsC * sqrt (0.5 * π * kb * Tm) * (6 / (π * rhoSoot)) ^ twothird * bCoag with hK
  have mon := mono_of_right (f := fun t => M t 0 ^ (-5 / 6 : ℝ) - 5 / 6 * K * c ^ (1 / 6 : ℝ) * t) (τ := τ)
    (((h.comp 0).rpow_const fun t ht => .inl (p0 t ht).ne').sub (by fun_prop)) (fun t ht => by
      have ht' : t ∈ Set.Icc 0 τ := ⟨ht.1, ht.2.le⟩
      obtain ⟨-, -, -, d0, -⟩ := hs t ht
      have n0 := p0 t ht'
      simp only [lognCoagVal, hk] at d0
      exact (d0.rpow_const (p := -5 / 6) (.inl n0.ne')).sub (((hasDerivAt_id t).const_mul (5 / 6 * K * c ^ (1 / 6 : ℝ))).hasDerivWithinAt)) (fun t ht => by
      have ht' : t ∈ Set.Icc 0 τ := ⟨ht.1, ht.2.le⟩
      obtain ⟨b1, b2, b3, -, -⟩ := hs t ht
      have n0 := p0 t ht'; have z0 := (q t ht').2
      rw [fm0_spread m.coag (s t) n0 p1 z0]
      have i0 := fm_id0 n0 p1
      have hq : 0 < M t 0 * M t 2 / c ^ 2 := by positivity
      have P1 := fmP_ge hq
      set P := fmP (M t 0 * M t 2 / c ^ 2)
      have eT : (s t).T = (a t).T := by
        have := (C02_setState_valid (o t) { a t with sootVar := List.ofFn (M t) } (by rw [b1])).1
        rw [b1] at this
        exact this.1
      have kk : K ≤ m.coag.kfmVal (s t) * bCoag := by
        have := hT t ht
        have := kb_pos; have := rhoSoot_pos; have := bCoag_pos
        have e0 : 0 < epsC := by norm_num [epsC]
        rw [hK, Coag.kfmVal, eT]
        gcongr
      have c0 := rpow_pos_of_pos p1 (1 / 6)
      have K0 : 0 ≤ m.coag.kfmVal (s t) * bCoag := (mul_pos (Coag.kfmVal_pos b2 b3) bCoag_pos).le
      have : K * 1 ≤ m.coag.kfmVal (s t) * bCoag * P := by gcongr
      have e : -(m.coag.kfmVal (s t) * bCoag * (M t 0 ^ 2 * (c / M t 0) ^ (1 / 6 : ℝ) * P)) * (-5 / 6) * M t 0 ^ (-5 / 6 - 1 : ℝ) =
          5 / 6 * (m.coag.kfmVal (s t) * bCoag * P) * c ^ (1 / 6 : ℝ) := by rw [← i0]; ring
      rw [e, mul_one]
      have : 5 / 6 * K * c ^ (1 / 6 : ℝ) ≤ 5 / 6 * (m.coag.kfmVal (s t) * bCoag * P) * c ^ (1 / 6 : ℝ) := by
        have : K ≤ m.coag.kfmVal (s t) * bCoag * P := by linarith
        gcongr
      linarith)
  intro t ht
  have := mon ⟨le_rfl, ht.1.trans ht.2⟩ ht ht.1
  simp only [mul_zero, sub_zero] at this
  linarith

/-- **C110 (free-molecular, long times).** With free-molecular coagulation alone in a gas that never falls below some temperature, the number tends to zero at
least like the power -6/5 of the time and the spread tends to `2 ^ (6/5)`, the value of the self-preserving distribution, whatever the moments at the start. -/
theorem C110_fm_limit {m : Model} {o : ℝ → State} {a : ℝ → SetArgs} {M : ℝ → Fin 3 → ℝ} (hr : ∀ τ, LognCalls m o a τ) (hn : m.nucl.mech = .NONE)
    (hg : m.grow.mech = .NONE) (ho : m.oxid.cls = .NONE) (hk : m.coag.mech = .FM) (h : ∀ τ, LognRun m o a τ M) (p0 : ∀ t, 0 ≤ t → 0 < M t 0) (p1 : 0 < M 0 1)
    (p2 : 0 < M 0 2) {Tm : ℝ} (T0 : 0 < Tm) (hT : ∀ t, 0 ≤ t → Tm ≤ (a t).T) :
    (∃ k > 0, ∀ t, 0 ≤ t → M t 0 ≤ (M 0 0 ^ (-5 / 6 : ℝ) + k * t) ^ (-6 / 5 : ℝ)) ∧ Tendsto (fun t => M t 0) atTop (𝓝 0) ∧
      Tendsto (fun t => spread (M t)) atTop (𝓝 (2 ^ (6 / 5 : ℝ))) := by
  have fm : 0 < m.coag.fmMult := by
    obtain ⟨-, s, hs⟩ := (h 1).coag_pos (hr 1) hn hg ho (fun t ht => p0 t ht.1) p1 p2
    exact (hs 0 ⟨le_rfl, one_pos⟩).2.2.1
  set k := 5 / 6 * (m.coag.fmMult * epsC * sqrt (0.5 * π * kb * Tm) * (6 / (π * rhoSoot)) ^ twothird * bCoag) * M 0 1 ^ (1 / 6 : ℝ) with hkd
  have k0 : 0 < k := by
    have := kb_pos; have := rhoSoot_pos; have := bCoag_pos
    have e0 : 0 < epsC := by norm_num [epsC]
    positivity
  have dec : ∀ t, 0 ≤ t → M 0 0 ^ (-5 / 6 : ℝ) + k * t ≤ M t 0 ^ (-5 / 6 : ℝ) := fun t ht =>
    fm_decay (hr t) hn hg ho hk (h t) (fun t ht => p0 t ht.1) p1 p2 (fun t ht => hT t ht.1) t ⟨ht, le_rfl⟩
  have n0 := rpow_pos_of_pos (p0 0 le_rfl) (-5 / 6)
  have bound : ∀ t, 0 ≤ t → M t 0 ≤ (M 0 0 ^ (-5 / 6 : ℝ) + k * t) ^ (-6 / 5 : ℝ) := fun t ht => by
    have hm := p0 t ht
    have := rpow_le_rpow_of_nonpos (show 0 < M 0 0 ^ (-5 / 6 : ℝ) + k * t by positivity) (dec t ht) (show (-6 / 5 : ℝ) ≤ 0 by norm_num)
    rw [← rpow_mul hm.le] at this
    norm_num at this ⊢
    exact this
  have lim0 : Tendsto (fun t => M t 0) atTop (𝓝 0) := by
    have t1 : Tendsto (fun t : ℝ => M 0 0 ^ (-5 / 6 : ℝ) + k * t) atTop atTop := tendsto_atTop_add_const_left _ _ (tendsto_id.const_mul_atTop k0)
    have t2 := (tendsto_rpow_neg_atTop (show (0 : ℝ) < 6 / 5 by norm_num)).comp t1
    refine tendsto_of_tendsto_of_tendsto_of_le_of_le' tendsto_const_nhds t2 ?_ ?_
    · filter_upwards [eventually_ge_atTop 0] with t ht using (p0 t ht).le
    · filter_upwards [eventually_ge_atTop 0] with t ht
      have := bound t ht
      simp only [Function.comp]
      rw [show (-(6 / 5) : ℝ) = -6 / 5 by norm_num]
      exact this
  refine ⟨⟨k, k0, bound⟩, lim0, ?_⟩
  have sp : ∀ t, 0 ≤ t → spread (M t) ^ (5 / 6 : ℝ) = 2 + (spread (M 0) ^ (5 / 6 : ℝ) - 2) * (M t 0 / M 0 0) ^ (5 / 6 : ℝ) := fun t ht => by
    have := C110_fm_spread (hr t) hn hg ho hk (h t) (fun t ht => p0 t ht.1) p1 p2 t ⟨ht, le_rfl⟩
    linarith
  have sp0 : ∀ t, 0 ≤ t → 0 < spread (M t) := fun t ht => by
    obtain ⟨q, -⟩ := (h t).coag_pos (hr t) hn hg ho (fun t ht => p0 t ht.1) p1 p2
    obtain ⟨q1, q2⟩ := q t ⟨ht, le_rfl⟩
    have := p0 t ht
    rw [spread, q1]; positivity
  have l1 : Tendsto (fun t => (M t 0 / M 0 0) ^ (5 / 6 : ℝ)) atTop (𝓝 0) := by
    have := (lim0.div_const (M 0 0)).rpow_const (p := (5 / 6 : ℝ)) (.inr (by norm_num))
    rwa [zero_div, zero_rpow (by norm_num)] at this
  have l2 : Tendsto (fun t => spread (M t) ^ (5 / 6 : ℝ)) atTop (𝓝 2) := by
    have := (l1.const_mul (spread (M 0) ^ (5 / 6 : ℝ) - 2)).const_add 2
    rw [mul_zero, add_zero] at this
    refine this.congr' ?_
    filter_upwards [eventually_ge_atTop 0] with t ht using (sp t ht).symm
  refine (l2.rpow_const (p := (6 / 5 : ℝ)) (.inl (by norm_num))).congr' ?_
  filter_upwards [eventually_ge_atTop 0] with t ht
  rw [← rpow_mul (sp0 t ht).le]
  norm_num

/-! ## Continuum coagulation -/

theorem spread_deriv {n z n' z' : ℝ} {N Z : ℝ → ℝ} {t c : ℝ} (hN : HasDerivWithinAt N n' (Set.Ici t) t) (hZ : HasDerivWithinAt Z z' (Set.Ici t) t)
    (en : N t = n) (ez : Z t = z) : HasDerivWithinAt (fun t => N t * Z t / c ^ 2) ((n' * z + n * z') / c ^ 2) (Set.Ici t) t := by
  subst en ez
  exact (hN.mul hZ).div_const _

/-- The rate of change of the spread with continuum coagulation alone. -/
theorem cont_rate {s : State} {n c z : ℝ} (hn : 0 < n) (hc : 0 < c) (hz : 0 < z) :
    (-lognCoa0C s (lognM n c z) * z + n * lognCoa2C s (lognM n c z)) / c ^ 2 =
      kcVal s * n * ((2 - n * z / c ^ 2) * (1 + (n * z / c ^ 2) ^ (1 / 9 : ℝ)) + kcpVal s * (c / n) ^ (-1 / 3 : ℝ) *
        ((2 - (n * z / c ^ 2) ^ (4 / 3 : ℝ)) * ((n * z / c ^ 2) ^ (-1 / 9 : ℝ) + (n * z / c ^ 2) ^ (1 / 9 : ℝ)))) := by
  rw [c0_spread s hn hc hz, c2_spread s hn hc hz]
  have hq : 0 < n * z / c ^ 2 := by positivity
  have ez : z = n * z / c ^ 2 * c ^ 2 / n := by field_simp
  set q := n * z / c ^ 2 with hqd
  set κ := kcpVal s * (c / n) ^ (-1 / 3 : ℝ)
  have d1 : q ^ (4 / 3 : ℝ) * q ^ (-1 / 9 : ℝ) = q * q ^ (2 / 9 : ℝ) := by
    rw [← rpow_add hq]; nth_rewrite 2 [← rpow_one q]; rw [← rpow_add hq]; norm_num
  have d2 : q ^ (4 / 3 : ℝ) * q ^ (1 / 9 : ℝ) = q * q ^ (4 / 9 : ℝ) := by
    rw [← rpow_add hq]; nth_rewrite 2 [← rpow_one q]; rw [← rpow_add hq]; norm_num
  rw [show (2 - q ^ (4 / 3 : ℝ)) * (q ^ (-1 / 9 : ℝ) + q ^ (1 / 9 : ℝ)) = 2 * (q ^ (-1 / 9 : ℝ) + q ^ (1 / 9 : ℝ)) - (q * q ^ (2 / 9 : ℝ) + q * q ^ (4 / 9 : ℝ)) by
    rw [← d1, ← d2]; ring]
  rw [div_eq_iff (by positivity)]
  have e : n * z = q * c ^ 2 := by rw [hqd]; field_simp
  linear_combination (-(kcVal s * n * (1 + q ^ (1 / 9 : ℝ) + κ * (q ^ (2 / 9 : ℝ) + q ^ (4 / 9 : ℝ))))) * e

/-- **C110 (continuum, spread).** With continuum coagulation alone, whatever the gas goes through, a spread between `2 ^ (3/4)` and 2 stays there, a larger one
never rises above its start and a smaller one never falls below it. -/
theorem C110_continuum_spread (hr : LognCalls m o a τ) (hn : m.nucl.mech = .NONE) (hg : m.grow.mech = .NONE) (ho : m.oxid.cls = .NONE)
    (hk : m.coag.mech = .CONTINUUM) (h : LognRun m o a τ M) (p0 : ∀ t ∈ Set.Icc 0 τ, 0 < M t 0) (p1 : 0 < M 0 1) (p2 : 0 < M 0 2) :
    ∀ t ∈ Set.Icc 0 τ, min (spread (M 0)) (2 ^ (3 / 4 : ℝ)) ≤ spread (M t) ∧ spread (M t) ≤ max (spread (M 0)) 2 := by
  obtain ⟨q, s, hs⟩ := h.coag_pos hr hn hg ho p0 p1 p2
  set c := M 0 1 with hc
  set f : ℝ → ℝ := fun t => M t 0 * M t 2 / c ^ 2 with hf
  have fc : ContinuousOn f (Set.Icc 0 τ) := ((h.comp 0).mul (h.comp 2)).div_const _
  set d : ℝ → ℝ := fun t => kcVal (s t) * M t 0 * ((2 - f t) * (1 + f t ^ (1 / 9 : ℝ)) + kcpVal (s t) * (c / M t 0) ^ (-1 / 3 : ℝ) *
        ((2 - f t ^ (4 / 3 : ℝ)) * (f t ^ (-1 / 9 : ℝ) + f t ^ (1 / 9 : ℝ)))) with hd
  have fd : ∀ t ∈ Set.Ico 0 τ, HasDerivWithinAt f (d t) (Set.Ici t) t := fun t ht => by
    have ht' : t ∈ Set.Icc 0 τ := ⟨ht.1, ht.2.le⟩
    obtain ⟨-, -, -, d0, d2⟩ := hs t ht
    simp only [lognCoagVal, hk] at d0 d2
    have := spread_deriv (c := c) d0 d2 rfl rfl
    rwa [cont_rate (p0 t ht') p1 (q t ht').2] at this
  have e : ∀ t ∈ Set.Icc 0 τ, spread (M t) = f t := fun t ht => by rw [spread, (q t ht).1]
  have fp : ∀ t ∈ Set.Icc 0 τ, 0 < f t := fun t ht => by have := p0 t ht; have := (q t ht).2; simp only [hf]; positivity
  have two : ((2 : ℝ) ^ (3 / 4 : ℝ)) ^ (4 / 3 : ℝ) = 2 := by rw [← rpow_mul (by norm_num)]; norm_num
  have two' : (2 : ℝ) ^ (3 / 4 : ℝ) ≤ 2 := by
    have := rpow_le_rpow_of_exponent_le (show (1 : ℝ) ≤ 2 by norm_num) (show (3 / 4 : ℝ) ≤ 1 by norm_num)
    rwa [rpow_one] at this
  intro t ht
  have h0 : (0 : ℝ) ∈ Set.Icc 0 τ := ⟨le_rfl, ht.1.trans ht.2⟩
  rw [e t ht, e 0 h0]
  have sg : ∀ t ∈ Set.Ico 0 τ, 0 < kcVal (s t) * M t 0 ∧ 0 < kcpVal (s t) * (c / M t 0) ^ (-1 / 3 : ℝ) ∧ 0 < 1 + f t ^ (1 / 9 : ℝ) ∧
      0 < f t ^ (-1 / 9 : ℝ) + f t ^ (1 / 9 : ℝ) := fun t ht => by
    have ht' : t ∈ Set.Icc 0 τ := ⟨ht.1, ht.2.le⟩
    have hp := (hs t ht).2.1
    have := kcVal_pos hp; have := kcpVal_pos hp; have := p0 t ht'; have := fp t ht'
    refine ⟨?_, ?_, ?_, ?_⟩ <;> positivity
  constructor
  · have := nonneg_of_inward (n := 1) (N := fun t _ => f t - min (f 0) (2 ^ (3 / 4 : ℝ))) (d := fun t _ => d t) (τ := τ) (continuousOn_pi.2 fun _ => fc.sub continuousOn_const)
      (fun t ht => hasDerivWithinAt_pi.2 fun _ => (fd t ht).sub_const _) 0 (fun t ht neg => by
        have ht' : t ∈ Set.Icc 0 τ := ⟨ht.1, ht.2.le⟩
        obtain ⟨g1, g2, g3, g4⟩ := sg t ht
        have lt : f t < 2 ^ (3 / 4 : ℝ) := by have := min_le_right (f 0) (2 ^ (3 / 4 : ℝ)); linarith
        have l2 : f t ^ (4 / 3 : ℝ) ≤ 2 := by
          have := rpow_le_rpow (fp t ht').le lt.le (show (0 : ℝ) ≤ 4 / 3 by norm_num)
          rwa [two] at this
        have i1 := mul_nonneg (show 0 ≤ 2 - f t by linarith) g3.le
        have i2 := mul_nonneg g2.le (mul_nonneg (show 0 ≤ 2 - f t ^ (4 / 3 : ℝ) by linarith) g4.le)
        exact mul_nonneg g1.le (by linarith)) (by simp) t ht
    linarith
  · have := nonneg_of_inward (n := 1) (N := fun t _ => max (f 0) 2 - f t) (d := fun t _ => -d t) (τ := τ) (continuousOn_pi.2 fun _ => continuousOn_const.sub fc)
      (fun t ht => hasDerivWithinAt_pi.2 fun _ => (fd t ht).const_sub _) 0 (fun t ht neg => by
        have ht' : t ∈ Set.Icc 0 τ := ⟨ht.1, ht.2.le⟩
        obtain ⟨g1, g2, g3, g4⟩ := sg t ht
        have lt : 2 < f t := by have := le_max_right (f 0) 2; linarith
        have l2 : 2 ≤ f t ^ (4 / 3 : ℝ) := by
          have := rpow_le_rpow (by positivity) (two'.trans lt.le) (show (0 : ℝ) ≤ 4 / 3 by norm_num)
          rwa [two] at this
        have i1 := mul_nonneg (show 0 ≤ f t - 2 by linarith) g3.le
        have i2 := mul_nonneg g2.le (mul_nonneg (show 0 ≤ f t ^ (4 / 3 : ℝ) - 2 by linarith) g4.le)
        have := mul_nonneg g1.le (add_nonneg i1 i2)
        simp only [hd]
        linarith) (by simp) t ht
    linarith

/-- **C110 (continuum, approach).** With continuum coagulation alone and a realisable start, in any gas whose slip length stays below a bound `B`, the spread differs
from 2 by at most its first difference times the fraction of the particles that is left plus a multiple of the cube root of their number. -/
theorem C110_continuum_approach (hr : LognCalls m o a τ) (hn : m.nucl.mech = .NONE) (hg : m.grow.mech = .NONE) (ho : m.oxid.cls = .NONE)
    (hk : m.coag.mech = .CONTINUUM) (h : LognRun m o a τ M) (p0 : ∀ t ∈ Set.Icc 0 τ, 0 < M t 0) (p1 : 0 < M 0 1) (h1 : 1 ≤ spread (M 0)) {B : ℝ} (hB0 : 0 ≤ B)
    (hB : ∀ t ∈ Set.Ico 0 τ, ∀ v s, setState (o t) { a t with sootVar := v } = (s, ok ()) → kcpVal s ≤ B) :
    ∀ t ∈ Set.Icc 0 τ, spread (M t) - 2 ≤ (spread (M 0) - 2) * (M t 0 / M 0 0) ∧
      (spread (M 0) - 2) * (M t 0 / M 0 0) - 6 * max (spread (M 0)) 2 * B * (M t 0 / M 0 1) ^ (1 / 3 : ℝ) ≤ spread (M t) - 2 := by
  by_cases hτ : 0 ≤ τ
  swap
  · intro t ht; exact absurd (ht.1.trans ht.2) hτ
  have h0 : (0 : ℝ) ∈ Set.Icc 0 τ := ⟨le_rfl, hτ⟩
  have p2 : 0 < M 0 2 := by
    by_contra hx
    have := p0 0 h0
    have : spread (M 0) ≤ 0 := div_nonpos_of_nonpos_of_nonneg (mul_nonpos_of_nonneg_of_nonpos this.le (not_lt.1 hx)) (by positivity)
    linarith
  have rng := C110_continuum_spread hr hn hg ho hk h p0 p1 p2
  obtain ⟨q, s, hs⟩ := h.coag_pos hr hn hg ho p0 p1 p2
  set c := M 0 1 with hc
  set Q := max (spread (M 0)) 2 with hQ
  have Q1 : 1 ≤ Q := (show (1 : ℝ) ≤ 2 by norm_num).trans (le_max_right _ _)
  set f : ℝ → ℝ := fun t => M t 0 * M t 2 / c ^ 2 with hf
  have e : ∀ t ∈ Set.Icc 0 τ, spread (M t) = f t := fun t ht => by rw [spread, (q t ht).1]
  have f1 : ∀ t ∈ Set.Icc 0 τ, 1 ≤ f t := fun t ht => by
    rw [← e t ht]
    refine le_trans (le_min h1 ?_) (rng t ht).1
    exact one_le_rpow (by norm_num) (by norm_num)
  have fQ : ∀ t ∈ Set.Icc 0 τ, f t ≤ Q := fun t ht => e t ht ▸ (rng t ht).2
  have fc : ContinuousOn f (Set.Icc 0 τ) := ((h.comp 0).mul (h.comp 2)).div_const _
  set X : ℝ → ℝ := fun t => (f t - 2) / M t 0 with hX
  have Xc : ContinuousOn X (Set.Icc 0 τ) := (fc.sub continuousOn_const).div (h.comp 0) fun t ht => (p0 t ht).ne'
  set H : ℝ → ℝ := fun t => f t ^ (-1 / 9 : ℝ) + f t ^ (1 / 9 : ℝ) - f t ^ (2 / 9 : ℝ) - f t ^ (4 / 9 : ℝ) with hH
  set κ : ℝ → ℝ := fun t => kcpVal (s t) * (c / M t 0) ^ (-1 / 3 : ℝ) with hκ
  have rate : ∀ t ∈ Set.Ico 0 τ, HasDerivWithinAt X (2 * kcVal (s t) * κ t * H t) (Set.Ici t) t ∧
      HasDerivWithinAt (fun t => M t 0) (-(kcVal (s t) * M t 0 ^ 2 * (1 + f t ^ (1 / 9 : ℝ) + κ t * (f t ^ (2 / 9 : ℝ) + f t ^ (4 / 9 : ℝ))))) (Set.Ici t) t := fun t ht => by
    have ht' : t ∈ Set.Icc 0 τ := ⟨ht.1, ht.2.le⟩
    obtain ⟨-, -, -, d0, d2⟩ := hs t ht
    have n0 := p0 t ht'; have z0 := (q t ht').2
    simp only [lognCoagVal, hk] at d0 d2
    have d3 := spread_deriv (c := c) d0 d2 rfl rfl
    rw [cont_rate n0 p1 z0] at d3
    rw [c0_spread (s t) n0 p1 z0] at d0
    have fp : 0 < f t := one_pos.trans_le (f1 t ht')
    have e1 : f t ^ (4 / 3 : ℝ) * f t ^ (-1 / 9 : ℝ) = f t * f t ^ (2 / 9 : ℝ) := by
      rw [← rpow_add fp]; nth_rewrite 2 [← rpow_one (f t)]; rw [← rpow_add fp]; norm_num
    have e2 : f t ^ (4 / 3 : ℝ) * f t ^ (1 / 9 : ℝ) = f t * f t ^ (4 / 9 : ℝ) := by
      rw [← rpow_add fp]; nth_rewrite 2 [← rpow_one (f t)]; rw [← rpow_add fp]; norm_num
    refine ⟨((d3.sub_const 2).div d0 n0.ne').congr_deriv ?_, d0⟩
    show (kcVal (s t) * M t 0 * ((2 - f t) * (1 + f t ^ (1 / 9 : ℝ)) + κ t * ((2 - f t ^ (4 / 3 : ℝ)) * (f t ^ (-1 / 9 : ℝ) + f t ^ (1 / 9 : ℝ)))) * M t 0 -
      (f t - 2) * -(kcVal (s t) * M t 0 ^ 2 * (1 + f t ^ (1 / 9 : ℝ) + κ t * (f t ^ (2 / 9 : ℝ) + f t ^ (4 / 9 : ℝ))))) / M t 0 ^ 2 = 2 * kcVal (s t) * κ t * H t
    rw [div_eq_iff (by positivity)]
    simp only [hH]
    linear_combination (-(kcVal (s t) * M t 0 ^ 2 * κ t)) * (e1 + e2)
  have Hneg : ∀ t ∈ Set.Icc 0 τ, H t ≤ 0 ∧ -(2 * Q) ≤ H t := fun t ht => by
    have g1 := f1 t ht
    have fp : 0 < f t := one_pos.trans_le g1
    have a1 : f t ^ (-1 / 9 : ℝ) ≤ f t ^ (2 / 9 : ℝ) := rpow_le_rpow_of_exponent_le g1 (by norm_num)
    have a2 : f t ^ (1 / 9 : ℝ) ≤ f t ^ (4 / 9 : ℝ) := rpow_le_rpow_of_exponent_le g1 (by norm_num)
    have a3 : f t ^ (2 / 9 : ℝ) ≤ f t ^ (1 : ℝ) := rpow_le_rpow_of_exponent_le g1 (by norm_num)
    have a4 : f t ^ (4 / 9 : ℝ) ≤ f t ^ (1 : ℝ) := rpow_le_rpow_of_exponent_le g1 (by norm_num)
    rw [rpow_one] at a3 a4
    have := rpow_pos_of_pos fp (-1 / 9); have := rpow_pos_of_pos fp (1 / 9)
    have := fQ t ht
    constructor <;> simp only [hH] <;> linarith
  have κ0 : ∀ t ∈ Set.Ico 0 τ, 0 < kcVal (s t) ∧ 0 < κ t ∧ κ t ≤ B * (c / M t 0) ^ (-1 / 3 : ℝ) := fun t ht => by
    have n0 := p0 t ⟨ht.1, ht.2.le⟩
    have hp := (hs t ht).2.1
    have := kcVal_pos hp; have := kcpVal_pos hp
    have b := hB t ht _ _ (hs t ht).1
    have := rpow_pos_of_pos (show 0 < c / M t 0 by positivity) (-1 / 3)
    exact ⟨by positivity, by simp only [hκ]; positivity, by simp only [hκ]; gcongr⟩
  have up := antitone_of_right Xc (fun t ht => (rate t ht).1) fun t ht =>
    mul_nonpos_of_nonneg_of_nonpos (by have := κ0 t ht; have := this.1; have := (κ0 t ht).2.1; positivity) (Hneg t ⟨ht.1, ht.2.le⟩).1
  set D := 6 * Q * B * c ^ (-1 / 3 : ℝ) with hD
  have low := mono_of_right (f := fun t => X t + D * M t 0 ^ (-2 / 3 : ℝ)) (τ := τ)
    (Xc.add (continuousOn_const.mul ((h.comp 0).rpow_const fun t ht => .inl (p0 t ht).ne')))
    (fun t ht => (rate t ht).1.add (((rate t ht).2.rpow_const (p := -2 / 3) (.inl (p0 t ⟨ht.1, ht.2.le⟩).ne')).const_mul D)) (fun t ht => by
      have ht' : t ∈ Set.Icc 0 τ := ⟨ht.1, ht.2.le⟩
      have n0 := p0 t ht'
      obtain ⟨k0, κp, κB⟩ := κ0 t ht
      have fp : 0 < f t := one_pos.trans_le (f1 t ht')
      have B0 : 0 < B := by
        by_contra hx
        have := rpow_pos_of_pos (show 0 < c / M t 0 by positivity) (-1 / 3)
        have := mul_nonpos_of_nonpos_of_nonneg (not_lt.1 hx) this.le
        linarith
      have i1 : M t 0 ^ 2 * M t 0 ^ (-2 / 3 - 1 : ℝ) = M t 0 ^ (1 / 3 : ℝ) := by
        rw [← rpow_natCast, ← rpow_add n0]; norm_num
      have i2 : (c / M t 0) ^ (-1 / 3 : ℝ) = c ^ (-1 / 3 : ℝ) * M t 0 ^ (1 / 3 : ℝ) := by
        rw [div_rpow p1.le n0.le, div_eq_mul_inv, ← rpow_neg n0.le]; norm_num
      have S1 : 1 ≤ 1 + f t ^ (1 / 9 : ℝ) + κ t * (f t ^ (2 / 9 : ℝ) + f t ^ (4 / 9 : ℝ)) := by
        have : 0 < f t ^ (1 / 9 : ℝ) + κ t * (f t ^ (2 / 9 : ℝ) + f t ^ (4 / 9 : ℝ)) := by positivity
        linarith
      set S := 1 + f t ^ (1 / 9 : ℝ) + κ t * (f t ^ (2 / 9 : ℝ) + f t ^ (4 / 9 : ℝ))
      have hh := (Hneg t ht').2
      have c3 := rpow_pos_of_pos p1 (-1 / 3)
      have m3 := rpow_pos_of_pos n0 (1 / 3)
      have l1 : -(2 * kcVal (s t) * κ t * H t) ≤ 4 * Q * kcVal (s t) * (B * (c ^ (-1 / 3 : ℝ) * M t 0 ^ (1 / 3 : ℝ))) := by
        rw [← i2]
        have : -H t ≤ 2 * Q := by linarith
        calc _ = 2 * kcVal (s t) * κ t * -H t := by ring
          _ ≤ 2 * kcVal (s t) * κ t * (2 * Q) := by gcongr
          _ ≤ 2 * kcVal (s t) * (B * (c / M t 0) ^ (-1 / 3 : ℝ)) * (2 * Q) := by gcongr
          _ = _ := by ring
      have l2 : 4 * Q * kcVal (s t) * (B * (c ^ (-1 / 3 : ℝ) * M t 0 ^ (1 / 3 : ℝ))) * 1 ≤ 4 * Q * kcVal (s t) * (B * (c ^ (-1 / 3 : ℝ) * M t 0 ^ (1 / 3 : ℝ))) * S := by
        gcongr
      have l3 : D * (-(kcVal (s t) * M t 0 ^ 2 * S) * (-2 / 3) * M t 0 ^ (-2 / 3 - 1 : ℝ)) = 4 * Q * kcVal (s t) * (B * (c ^ (-1 / 3 : ℝ) * M t 0 ^ (1 / 3 : ℝ))) * S := by
        rw [← i1, hD]; ring
      rw [l3]
      linarith)
  intro t ht
  have u := up h0 ht ht.1
  have l := low h0 ht ht.1
  have n0 := p0 t ht; have nn := p0 0 h0
  simp only [hX] at u l
  have D0 : 0 ≤ D * M 0 0 ^ (-2 / 3 : ℝ) := by rw [hD]; positivity
  rw [e t ht, e 0 h0]
  constructor
  · rw [div_le_iff₀ n0] at u
    calc f t - 2 ≤ _ := u
      _ = _ := by ring
  · have := mul_le_mul_of_nonneg_right l n0.le
    have i3 : M t 0 ^ (-2 / 3 : ℝ) * M t 0 = M t 0 ^ (1 / 3 : ℝ) := by nth_rewrite 2 [← rpow_one (M t 0)]; rw [← rpow_add n0]; norm_num
    have i4 : (M t 0 / c) ^ (1 / 3 : ℝ) = c ^ (-1 / 3 : ℝ) * M t 0 ^ (1 / 3 : ℝ) := by
      rw [div_rpow n0.le p1.le, div_eq_mul_inv, ← rpow_neg p1.le, mul_comm]; norm_num
    have i5 : (f t - 2) / M t 0 * M t 0 = f t - 2 := by field_simp
    have : 0 ≤ D * M 0 0 ^ (-2 / 3 : ℝ) * M t 0 := mul_nonneg D0 n0.le
    rw [i4]
    have i6 : D * (M t 0 ^ (-2 / 3 : ℝ) * M t 0) = 6 * Q * B * (c ^ (-1 / 3 : ℝ) * M t 0 ^ (1 / 3 : ℝ)) := by rw [i3, hD]; ring
    have i7 : (f 0 - 2) * (M t 0 / M 0 0) = (f 0 - 2) / M 0 0 * M t 0 := by ring
    rw [i7, ← i6]
    linarith

end

/-! ## A gas that stays as it is -/

/-- `setState` of the object `o` with the gas `a` accepts any moments, and LOGN can be evaluated in the state it leaves. -/
def LognGas (m : Model) (o : State) (a : SetArgs) : Prop :=
  ∀ v : Fin 3 → ℝ, ∃ s, setState o { a with sootVar := List.ofFn v } = (s, ok ()) ∧ LognReady m s (max (v 0) 0) (max (v 1) 0) (max (v 2) 0)

section
variable {m : Model} {o : State} {a : SetArgs}

theorem LognGas.calls (h : LognGas m o a) (τ : ℝ) : LognCalls m (fun _ => o) (fun _ => a) τ := by
  intro t _ v s hs
  obtain ⟨s', e, hr⟩ := h v
  rw [hs] at e
  simp only [Prod.mk.injEq, and_true] at e
  exact e ▸ hr

theorem LognGas.gas (h : LognGas m o a) : ∃ s0 : State, s0.Phys ∧ 0 < m.coag.fmMult ∧ s0.T = a.T ∧
    ∀ v s, setState o { a with sootVar := v } = (s, ok ()) → m.coag.kfmVal s = m.coag.kfmVal s0 ∧ kcVal s = kcVal s0 ∧ kcpVal s = kcpVal s0 := by
  obtain ⟨s0, e0, r⟩ := h 0
  refine ⟨s0, r.gas.acc.phys, r.fm, ?_, fun v s hs => ?_⟩
  · have := (C02_setState_valid o { a with sootVar := List.ofFn 0 } (by rw [e0])).1.1
    rwa [e0] at this
  · rw [setState_contents e0 hs]; exact ⟨rfl, rfl, rfl⟩

/-- Coagulation of given moments as a vector field. -/
noncomputable def lognF (m : Model) (s : State) (v : Fin 3 → ℝ) : Fin 3 → ℝ :=
  ![(lognCoagVal m.coag s (lognM (v 0) (v 1) (v 2))).1, 0, (lognCoagVal m.coag s (lognM (v 0) (v 1) (v 2))).2]

theorem coagVal_congr {c : Coag} {s s0 : State} (h1 : c.kfmVal s = c.kfmVal s0) (h2 : kcVal s = kcVal s0) (h3 : kcpVal s = kcpVal s0) (M : ℝ → ℝ) :
    lognCoagVal c s M = lognCoagVal c s0 M := by
  unfold lognCoagVal lognCoa0Fm lognCoa2Fm lognCoa0C lognCoa2C; rw [h1, h2, h3]

/-- Positive moments that follow the coagulation field are a run. -/
theorem LognGas.run (h : LognGas m o a) (hn : m.nucl.mech = .NONE) (hg : m.grow.mech = .NONE) (ho : m.oxid.cls = .NONE) {s0 : State}
    (h0 : ∀ v s, setState o { a with sootVar := v } = (s, ok ()) → m.coag.kfmVal s = m.coag.kfmVal s0 ∧ kcVal s = kcVal s0 ∧ kcpVal s = kcpVal s0)
    {τ : ℝ} {M : ℝ → Fin 3 → ℝ} (hM : ∀ t ∈ Set.Icc 0 τ, HasDerivAt M (lognF m s0 (M t)) t) (pos : ∀ t ∈ Set.Icc 0 τ, ∀ k, 0 < M t k) :
    LognRun m (fun _ => o) (fun _ => a) τ M := by
  refine ⟨fun t ht => (hM t ht).continuousAt.continuousWithinAt, fun t ht => ?_⟩
  have ht' : t ∈ Set.Icc 0 τ := ⟨ht.1, ht.2.le⟩
  obtain ⟨s, r1, rd⟩ := h (M t)
  obtain ⟨m', s', J, n', kG, kO, e1, -, -, -, e5, e6, -, -, -, e10, -, -, e13⟩ := logn_eval rd (fun h => by simp [hn] at h)
  have J0 := e10 hn
  have k0 : kG = 0 := by simp only [Grow.rate, hg, ok.injEq] at e5; exact e5.symm
  have o0 : kO = 0 := by simp only [Oxid.rate, ho, ok.injEq] at e6; exact e6.symm
  subst J0 k0 o0
  have p := pos t ht'
  obtain ⟨g1, g2, g3⟩ := h0 _ _ r1
  simp only [hn, reduceCtorEq, if_false, zero_mul, zero_add, sub_self, mul_zero, add_zero, max_eq_left (p _).le] at e13
  rw [coagVal_congr g1 g2 g3] at e13
  refine ⟨s, m', s', r1, e1, (hM t ht').hasDerivWithinAt.congr_deriv ?_⟩
  funext k
  rw [e13, lognF]
  fin_cases k <;> simp

theorem lognF_smooth {s : State} (hp : s.Phys) (fm : 0 < m.coag.fmMult) {v : Fin 3 → ℝ} (hv : ∀ k, 0 < v k) : ContDiffAt ℝ 1 (lognF m s) v := by
  have c : ∀ k : Fin 3, ContDiffAt ℝ 1 (fun w : Fin 3 → ℝ => w k) v := fun k => contDiffAt_pi.1 contDiffAt_id k
  have cM : ∀ r, ContDiffAt ℝ 1 (fun w : Fin 3 → ℝ => lognM (w 0) (w 1) (w 2) r) v := fun r => by
    refine ((((c 0).rpow_const_of_ne (p := 1 + 0.5 * r * (r - 3)) (hv 0).ne').mul ((c 1).rpow_const_of_ne (p := r * (2 - r)) (hv 1).ne')).mul
      ((c 2).rpow_const_of_ne (p := 0.5 * r * (r - 1)) (hv 2).ne')).congr_of_eventuallyEq ?_
    have pe : ∀ k : Fin 3, ∀ᶠ w : Fin 3 → ℝ in 𝓝 v, 0 < w k := fun k => (c k).continuousAt.eventually (lt_mem_nhds (hv k))
    filter_upwards [pe 0, pe 1, pe 2] with w h0 h1 h2
    unfold lognM
    split_ifs with a b
    · subst a; norm_num
    · subst b; norm_num
    · exact lognMrVal_pos h0 h1 h2 r
  have pM : ∀ r, 0 < lognM (v 0) (v 1) (v 2) r := fun r => by
    have := hv 0; have := hv 1; have := hv 2
    rw [lognM_spread (hv 0) (hv 1) (hv 2)]; positivity
  have f0 : ContDiffAt ℝ 1 (fun w : Fin 3 → ℝ => lognCoa0Fm m.coag s (lognM (w 0) (w 1) (w 2))) v :=
    contDiffAt_const.mul ((((cM _).mul (cM _)).add ((contDiffAt_const.mul (cM _)).mul (cM _))).add ((cM _).mul (cM _)))
  have f2 : ContDiffAt ℝ 1 (fun w : Fin 3 → ℝ => lognCoa2Fm m.coag s (lognM (w 0) (w 1) (w 2))) v :=
    contDiffAt_const.mul ((((cM _).mul (cM _)).add ((contDiffAt_const.mul (cM _)).mul (cM _))).add ((cM _).mul (cM _)))
  have d0 : ContDiffAt ℝ 1 (fun w : Fin 3 → ℝ => lognCoa0C s (lognM (w 0) (w 1) (w 2))) v :=
    contDiffAt_const.mul ((((cM _).mul (cM _)).add ((cM _).mul (cM _))).add (contDiffAt_const.mul (((cM _).mul (cM _)).add ((cM _).mul (cM _)))))
  have d2 : ContDiffAt ℝ 1 (fun w : Fin 3 → ℝ => lognCoa2C s (lognM (w 0) (w 1) (w 2))) v :=
    contDiffAt_const.mul ((((cM _).mul (cM _)).add ((cM _).mul (cM _))).add (contDiffAt_const.mul (((cM _).mul (cM _)).add ((cM _).mul (cM _)))))
  have pos : lognCoa2Fm m.coag s (lognM (v 0) (v 1) (v 2)) + lognCoa2C s (lognM (v 0) (v 1) (v 2)) ≠ 0 := by
    have a := Coag.kfmVal_pos hp fm; have b := kcVal_pos hp; have b' := kcpVal_pos hp
    have hb : 0 < bCoag := by norm_num [bCoag]
    have := pM 1; have := pM (7 / 6); have := pM (8 / 6); have := pM (5 / 6); have := pM (10 / 6); have := pM (3 / 6); have := pM (4 / 6); have := pM (2 / 6)
    unfold lognCoa2Fm lognCoa2C
    positivity
  refine contDiffAt_pi.2 fun k => ?_
  unfold lognF lognCoagVal
  fin_cases k
  · rcases m.coag.mech <;> first | exact contDiffAt_const | exact f0.neg | exact d0.neg
  · exact contDiffAt_const
  · rcases m.coag.mech <;> first | exact contDiffAt_const | exact f2 | exact d2 | exact (f2.mul d2).div (f2.add d2) pos

/-- **C110 (existence).** From any positive moments a run with coagulation alone exists for some time. -/
theorem C110_exists (h : LognGas m o a) (hn : m.nucl.mech = .NONE) (hg : m.grow.mech = .NONE) (ho : m.oxid.cls = .NONE) (v : Fin 3 → ℝ) (hv : ∀ k, 0 < v k) :
    ∃ τ > 0, ∃ M, LognRun m (fun _ => o) (fun _ => a) τ M ∧ M 0 = v ∧ ∀ t ∈ Set.Icc 0 τ, ∀ k, 0 < M t k := by
  obtain ⟨s0, hp, fm, -, hs0⟩ := h.gas
  obtain ⟨M, e0, ε, ε0, hM⟩ := (lognF_smooth hp fm hv).exists_forall_mem_closedBall_exists_eq_forall_mem_Ioo_hasDerivAt₀ 0
  have c0 : ContinuousAt M 0 := (hM 0 (by simp [ε0])).continuousAt
  have n : ∀ᶠ t in 𝓝 (0 : ℝ), ∀ k, 0 < M t k := by
    rw [eventually_all]
    exact fun k => ((continuous_apply k).continuousAt.comp c0).eventually (lt_mem_nhds (by simp only [Function.comp, e0]; exact hv k))
  obtain ⟨δ, δ0, hδ⟩ := Metric.eventually_nhds_iff.1 n
  have m0 : 0 < min ε δ := lt_min ε0 δ0
  have τε : min ε δ / 2 < ε := by have := min_le_left ε δ; linarith
  have τδ : min ε δ / 2 < δ := by have := min_le_right ε δ; linarith
  have good : ∀ t ∈ Set.Icc 0 (min ε δ / 2), ∀ k, 0 < M t k := fun t ht => hδ (by
    rw [dist_eq, sub_zero, abs_of_nonneg ht.1]; linarith [ht.2])
  exact ⟨min ε δ / 2, by positivity, M, h.run hn hg ho hs0 (fun t ht => hM t ⟨by linarith [ht.1], by linarith [ht.2]⟩) good, e0, good⟩

theorem sp_id0 {l c : ℝ} (hl : 0 < l) (hc : 0 < c) :
    (l ^ (-6 / 5 : ℝ)) ^ 2 * (c / l ^ (-6 / 5 : ℝ)) ^ (1 / 6 : ℝ) = c ^ (1 / 6 : ℝ) * l ^ (-6 / 5 - 1 : ℝ) := by
  obtain ⟨x, rfl⟩ : ∃ x, exp x = l := ⟨_, exp_log hl⟩
  obtain ⟨y, rfl⟩ : ∃ x, exp x = c := ⟨_, exp_log hc⟩
  simp only [← exp_nat_mul, ← exp_sub, ← exp_add, ← exp_mul]
  congr 1; push_cast; ring

theorem sp_id2 {l c : ℝ} (hl : 0 < l) (hc : 0 < c) :
    (l ^ (-6 / 5 : ℝ)) ^ 2 * (c / l ^ (-6 / 5 : ℝ)) ^ (13 / 6 : ℝ) = c ^ 2 * c ^ (1 / 6 : ℝ) * l ^ (6 / 5 - 1 : ℝ) := by
  obtain ⟨x, rfl⟩ : ∃ x, exp x = l := ⟨_, exp_log hl⟩
  obtain ⟨y, rfl⟩ : ∃ x, exp x = c := ⟨_, exp_log hc⟩
  simp only [← exp_nat_mul, ← exp_sub, ← exp_add, ← exp_mul]
  congr 1; push_cast; ring

/-- **C110 (self-preserving evolution).** In a gas that stays as it is, the moments `(n, c, 2^(6/5) c²/n)` with `n = (N^(-5/6) + k c^(1/6) t)^(-6/5)` are a run for all
times with free-molecular coagulation alone. -/
theorem C110_fm_self_preserving (h : LognGas m o a) (hn : m.nucl.mech = .NONE) (hg : m.grow.mech = .NONE) (ho : m.oxid.cls = .NONE) (hk : m.coag.mech = .FM) :
    ∃ k > 0, ∀ N c : ℝ, 0 < N → 0 < c → ∀ τ, LognRun m (fun _ => o) (fun _ => a) τ fun t =>
      ![(N ^ (-5 / 6 : ℝ) + k * c ^ (1 / 6 : ℝ) * t) ^ (-6 / 5 : ℝ), c, 2 ^ (6 / 5 : ℝ) * c ^ 2 * (N ^ (-5 / 6 : ℝ) + k * c ^ (1 / 6 : ℝ) * t) ^ (6 / 5 : ℝ)] := by
  obtain ⟨s0, hp, fm, -, hs0⟩ := h.gas
  have K0 := mul_pos (Coag.kfmVal_pos hp fm) bCoag_pos
  set K := m.coag.kfmVal s0 * bCoag with hK
  have P0 := fmP_pos (show (0 : ℝ) < 2 ^ (6 / 5 : ℝ) by positivity)
  set P := fmP (2 ^ (6 / 5 : ℝ)) with hP
  refine ⟨5 / 6 * K * P, by positivity, fun N c N0 c0 τ => ?_⟩
  set L : ℝ → ℝ := fun t => N ^ (-5 / 6 : ℝ) + 5 / 6 * K * P * c ^ (1 / 6 : ℝ) * t with hL
  have L0 : ∀ t, 0 ≤ t → 0 < L t := fun t ht => by have := rpow_pos_of_pos N0 (-5 / 6); simp only [hL]; positivity
  have dL : ∀ t, HasDerivAt L (5 / 6 * K * P * c ^ (1 / 6 : ℝ)) t := fun t => by
    exact (((hasDerivAt_id t).const_mul (5 / 6 * K * P * c ^ (1 / 6 : ℝ))).const_add (N ^ (-5 / 6 : ℝ))).congr_deriv (mul_one _)
  have pz : ∀ t, 0 ≤ t → 0 < L t ^ (-6 / 5 : ℝ) ∧ 0 < 2 ^ (6 / 5 : ℝ) * c ^ 2 * L t ^ (6 / 5 : ℝ) := fun t ht => by
    have := L0 t ht; constructor <;> positivity
  refine h.run hn hg ho hs0 (fun t ht => ?_) (fun t ht k => ?_)
  · have l0 := L0 t ht.1
    obtain ⟨n0, z0⟩ := pz t ht.1
    have eq : L t ^ (-6 / 5 : ℝ) * (2 ^ (6 / 5 : ℝ) * c ^ 2 * L t ^ (6 / 5 : ℝ)) / c ^ 2 = 2 ^ (6 / 5 : ℝ) := by
      have : L t ^ (-6 / 5 : ℝ) * L t ^ (6 / 5 : ℝ) = 1 := by rw [← rpow_add l0]; norm_num
      rw [div_eq_iff (by positivity)]
      linear_combination (2 ^ (6 / 5 : ℝ) * c ^ 2) * this
    rw [hasDerivAt_pi]
    intro k
    fin_cases k
    · have := (dL t).rpow_const (p := -6 / 5) (.inl l0.ne')
      refine this.congr_deriv ?_
      simp only [lognF, lognCoagVal, hk, Matrix.cons_val_zero, Matrix.cons_val_one, Matrix.cons_val]
      show _ = -lognCoa0Fm m.coag s0 (lognM (L t ^ (-6 / 5 : ℝ)) c (2 ^ (6 / 5 : ℝ) * c ^ 2 * L t ^ (6 / 5 : ℝ)))
      rw [fm0_spread m.coag s0 n0 c0 z0, eq]
      have i := sp_id0 l0 c0
      rw [i]; ring
    · exact hasDerivAt_const _ _
    · have := ((dL t).rpow_const (p := 6 / 5) (.inl l0.ne')).const_mul (2 ^ (6 / 5 : ℝ) * c ^ 2)
      refine this.congr_deriv ?_
      simp only [lognF, lognCoagVal, hk, Matrix.cons_val_zero, Matrix.cons_val_one, Matrix.cons_val]
      show _ = lognCoa2Fm m.coag s0 (lognM (L t ^ (-6 / 5 : ℝ)) c (2 ^ (6 / 5 : ℝ) * c ^ 2 * L t ^ (6 / 5 : ℝ)))
      rw [fm2_spread m.coag s0 n0 c0 z0, eq]
      have i := sp_id2 l0 c0
      have t2 : (2 : ℝ) ^ (6 / 5 : ℝ) = 2 * ((2 : ℝ) ^ (6 / 5 : ℝ)) ^ (1 / 6 : ℝ) := by
        rw [← rpow_mul (by norm_num)]
        nth_rewrite 2 [← rpow_one (2 : ℝ)]
        rw [← rpow_add (by norm_num)]
        norm_num
      rw [i]
      linear_combination (5 / 6 * K * P * c ^ (1 / 6 : ℝ) * (6 / 5) * L t ^ (6 / 5 - 1 : ℝ) * c ^ 2) * t2
  · fin_cases k
    · exact (pz t ht.1).1
    · exact c0
    · exact (pz t ht.1).2

/-- **C110 (continuum, long times).** With continuum coagulation alone in a gas that stays as it is, from a realisable start, the number falls at least like the
inverse of the time and the spread approaches 2, at the latest with the cube root of the number. -/
theorem C110_continuum_decay (h : LognGas m o a) (hn : m.nucl.mech = .NONE) (hg : m.grow.mech = .NONE) (ho : m.oxid.cls = .NONE) (hk : m.coag.mech = .CONTINUUM) :
    ∃ k > 0, ∃ B > 0, ∀ τ M, LognRun m (fun _ => o) (fun _ => a) τ M → (∀ t ∈ Set.Icc 0 τ, 0 < M t 0) → 0 < M 0 1 → 1 ≤ spread (M 0) → ∀ t ∈ Set.Icc 0 τ,
      M t 0 ≤ 1 / (1 / M 0 0 + k * t) ∧
      |spread (M t) - 2| ≤ |spread (M 0) - 2| * (M t 0 / M 0 0) + max (spread (M 0)) 2 * B * (M t 0 / M 0 1) ^ (1 / 3 : ℝ) := by
  obtain ⟨s0, hp, fm, -, hs0⟩ := h.gas
  have k0 := kcVal_pos hp
  have b0 := kcpVal_pos hp
  refine ⟨kcVal s0, k0, 6 * kcpVal s0, by positivity, fun τ M hM p0 p1 h1 t ht => ?_⟩
  have h0 : (0 : ℝ) ∈ Set.Icc 0 τ := ⟨le_rfl, ht.1.trans ht.2⟩
  have n0 := p0 t ht; have nn := p0 0 h0
  have p2 : 0 < M 0 2 := by
    by_contra hx
    have : spread (M 0) ≤ 0 := div_nonpos_of_nonpos_of_nonneg (mul_nonpos_of_nonneg_of_nonpos nn.le (not_lt.1 hx)) (by positivity)
    linarith
  constructor
  · obtain ⟨q, s, hs⟩ := hM.coag_pos (h.calls τ) hn hg ho p0 p1 p2
    have mon := mono_of_right (f := fun t => (M t 0)⁻¹ - kcVal s0 * t) (τ := τ) (((hM.comp 0).inv₀ fun t ht => (p0 t ht).ne').sub (by fun_prop)) (fun t ht => by
        obtain ⟨-, -, -, d0, -⟩ := hs t ht
        simp only [lognCoagVal, hk] at d0
        exact (d0.fun_inv (p0 t ⟨ht.1, ht.2.le⟩).ne').sub (((hasDerivAt_id t).const_mul (kcVal s0)).hasDerivWithinAt)) (fun t ht => by
        have ht' : t ∈ Set.Icc 0 τ := ⟨ht.1, ht.2.le⟩
        obtain ⟨b1, b2, -, -, -⟩ := hs t ht
        have n0 := p0 t ht'; have z0 := (q t ht').2
        have g := lognCoa0C_ge (s := s t) (M := lognM (M t 0) (M 0 1) (M t 2)) (lognM_nonneg n0.le p1.le z0.le) b2
        rw [lognM_zero, (hs0 _ _ b1).2.1] at g
        rw [mul_one, neg_neg, sub_nonneg, le_div_iff₀ (by positivity)]
        nlinarith)
    have := mon h0 ht ht.1
    simp only [mul_zero, sub_zero] at this
    rw [le_div_iff₀ (by have := ht.1; positivity)]
    have e : M t 0 * (M t 0)⁻¹ = 1 := mul_inv_cancel₀ n0.ne'
    have : M t 0 * (1 / M 0 0 + kcVal s0 * t) ≤ M t 0 * (M t 0)⁻¹ := by gcongr; rw [one_div]; linarith
    linarith
  · obtain ⟨u, l⟩ := C110_continuum_approach (h.calls τ) hn hg ho hk hM p0 p1 h1 (B := kcpVal s0) b0.le (fun t _ v s hs => (hs0 v s hs).2.2.le) t ht
    have f0 : 0 < M t 0 / M 0 0 := by positivity
    have g0 : 0 ≤ max (spread (M 0)) 2 * (6 * kcpVal s0) * (M t 0 / M 0 1) ^ (1 / 3 : ℝ) := by
      have : 0 < max (spread (M 0)) 2 := lt_max_of_lt_right (by norm_num)
      positivity
    have a1 := mul_le_mul_of_nonneg_right (le_abs_self (spread (M 0) - 2)) f0.le
    have a2 := mul_le_mul_of_nonneg_right (neg_abs_le (spread (M 0) - 2)) f0.le
    rw [abs_le]
    constructor <;> linarith

/-! ## Harmonic mean -/

/-- **C110, refutation.** With harmonic-mean coagulation the number of particles never changes while the second moment grows at least linearly for ever: the
spread exceeds every bound instead of approaching a self-preserving value. -/
theorem C110_hm_spreads_without_bound (h : LognGas m o a) (hn : m.nucl.mech = .NONE) (hg : m.grow.mech = .NONE) (ho : m.oxid.cls = .NONE) (hk : m.coag.mech = .HM)
    (v : Fin 3 → ℝ) (hv : ∀ k, 0 < v k) :
    ∃ k > 0, ∀ τ M, LognRun m (fun _ => o) (fun _ => a) τ M → M 0 = v → ∀ t ∈ Set.Icc 0 τ,
      M t 0 = v 0 ∧ M t 1 = v 1 ∧ v 2 + k * t ≤ M t 2 ∧ spread v + k * v 0 / v 1 ^ 2 * t ≤ spread (M t) := by
  obtain ⟨s0, hp, fm, -, hs0⟩ := h.gas
  have K0 := mul_pos (Coag.kfmVal_pos hp fm) bCoag_pos
  have c0 := kcVal_pos hp
  have v0 := hv 0; have v1 := hv 1; have v2 := hv 2
  set A := 2 * (m.coag.kfmVal s0 * bCoag) * (v 0 ^ 2 * (v 1 / v 0) ^ (13 / 6 : ℝ) * (v 0 * v 2 / v 1 ^ 2) ^ (1 / 6 : ℝ)) with hA
  set B := 2 * kcVal s0 * v 1 ^ 2 with hB
  have A0 : 0 < A := by positivity
  have B0 : 0 < B := by positivity
  refine ⟨A * B / (A + B), by positivity, fun τ M hM e0 t ht => ?_⟩
  set k := A * B / (A + B) with hkd
  have hcalls := h.calls τ
  obtain ⟨a1, -, a2⟩ := C110_coagulation hcalls hn hg ho hM
  have num : ∀ t ∈ Set.Icc 0 τ, M t 0 = v 0 := fun t ht => by
    obtain ⟨s, hs⟩ := hM.coag hcalls hn hg ho
    have := const_of_right (hM.comp 0) (fun t ht => by
      have := (hs t ht).2.2.1
      simp only [lognCoagVal, hk] at this
      exact this) t ht
    rw [this, e0]
  obtain ⟨q, s, hs⟩ := hM.coag_pos hcalls hn hg ho (fun t ht => num t ht ▸ v0) (by rw [e0]; exact v1) (by rw [e0]; exact v2)
  have mon := mono_of_right (f := fun t => M t 2 - k * t) (τ := τ) ((hM.comp 2).sub (by fun_prop)) (fun t ht =>
      (hs t ht).2.2.2.2.sub (((hasDerivAt_id t).const_mul k).hasDerivWithinAt)) (fun t ht => by
      have ht' : t ∈ Set.Icc 0 τ := ⟨ht.1, ht.2.le⟩
      have h0 : (0 : ℝ) ∈ Set.Icc 0 τ := ⟨le_rfl, ht'.1.trans ht'.2⟩
      obtain ⟨b1, b2, -, -, -⟩ := hs t ht
      have z0 := (q t ht').2
      have zz : v 2 ≤ M t 2 := by have := a2 h0 ht' ht'.1; simp only [e0] at this; exact this
      obtain ⟨g1, g2, g3⟩ := hs0 _ _ b1
      rw [num t ht', e0]
      simp only [lognCoagVal, hk]
      rw [fm2_spread m.coag (s t) v0 v1 z0, c2_spread (s t) v0 v1 z0, g1, g2, g3]
      have hq : 0 < v 0 * M t 2 / v 1 ^ 2 := by positivity
      have P1 := fmP_ge hq
      have qq : v 0 * v 2 / v 1 ^ 2 ≤ v 0 * M t 2 / v 1 ^ 2 := by gcongr
      have q6 : (v 0 * v 2 / v 1 ^ 2) ^ (1 / 6 : ℝ) ≤ (v 0 * M t 2 / v 1 ^ 2) ^ (1 / 6 : ℝ) := rpow_le_rpow (by positivity) qq (by norm_num)
      have b' := kcpVal_pos hp
      set X := 2 * (m.coag.kfmVal s0 * bCoag) * (v 0 ^ 2 * (v 1 / v 0) ^ (13 / 6 : ℝ) * ((v 0 * M t 2 / v 1 ^ 2) ^ (1 / 6 : ℝ) * fmP (v 0 * M t 2 / v 1 ^ 2)))
      set Y := 2 * kcVal s0 * v 1 ^ 2 * (1 + (v 0 * M t 2 / v 1 ^ 2) ^ (1 / 9 : ℝ) + kcpVal s0 * (v 1 / v 0) ^ (-1 / 3 : ℝ) *
        ((v 0 * M t 2 / v 1 ^ 2) ^ (-1 / 9 : ℝ) + (v 0 * M t 2 / v 1 ^ 2) ^ (1 / 9 : ℝ)))
      have AX : A ≤ X := by
        have : (v 0 * v 2 / v 1 ^ 2) ^ (1 / 6 : ℝ) * 1 ≤ (v 0 * M t 2 / v 1 ^ 2) ^ (1 / 6 : ℝ) * fmP (v 0 * M t 2 / v 1 ^ 2) := by gcongr
        rw [mul_one] at this
        simp only [hA, X]
        gcongr
      have BY : B ≤ Y := by
        have : 1 ≤ 1 + (v 0 * M t 2 / v 1 ^ 2) ^ (1 / 9 : ℝ) + kcpVal s0 * (v 1 / v 0) ^ (-1 / 3 : ℝ) *
          ((v 0 * M t 2 / v 1 ^ 2) ^ (-1 / 9 : ℝ) + (v 0 * M t 2 / v 1 ^ 2) ^ (1 / 9 : ℝ)) := by
          have : 0 < (v 0 * M t 2 / v 1 ^ 2) ^ (1 / 9 : ℝ) + kcpVal s0 * (v 1 / v 0) ^ (-1 / 3 : ℝ) *
            ((v 0 * M t 2 / v 1 ^ 2) ^ (-1 / 9 : ℝ) + (v 0 * M t 2 / v 1 ^ 2) ^ (1 / 9 : ℝ)) := by positivity
          linarith
        have := mul_le_mul_of_nonneg_left this B0.le
        simp only [Y]
        rw [hB] at this ⊢
        linarith
      have X0 := A0.trans_le AX; have Y0 := B0.trans_le BY
      rw [mul_one, sub_nonneg, hkd, div_le_div_iff₀ (by positivity) (by positivity)]
      have i1 : 0 ≤ A * X * (Y - B) := mul_nonneg (by positivity) (by linarith)
      have i2 : 0 ≤ B * Y * (X - A) := mul_nonneg (by positivity) (by linarith)
      nlinarith)
  have h0 : (0 : ℝ) ∈ Set.Icc 0 τ := ⟨le_rfl, ht.1.trans ht.2⟩
  have := mon h0 ht ht.1
  simp only [mul_zero, sub_zero, e0] at this
  have m1 : M t 1 = v 1 := by rw [a1 t ht, e0]
  have m2 : v 2 + k * t ≤ M t 2 := by linarith
  refine ⟨num t ht, m1, m2, ?_⟩
  rw [spread, spread, num t ht, m1]
  calc _ = v 0 * (v 2 + k * t) / v 1 ^ 2 := by ring
    _ ≤ _ := by gcongr

end

/-! ## The hypotheses are satisfiable -/

theorem exLognGas (n : NuclMech) (hn : n ≠ .AJ_RED) (hb : n ≠ .BROWN) (g : GrowMech) (o : OxidMech) (c : CoagMech) (hc : c = .FM ∨ c = .CONTINUUM ∨ c = .HM)
    (clean : Bool) : LognGas (exModel .LOGN 3 n g o c) (State.mk' 3 0) (exArgs [0, 0, 0] clean) := by
  intro v
  have hr := exLognReady n hn hb g o c hc (le_max_right (v 0) 0) (le_max_right (v 1) 0) (le_max_right (v 2) 0) clean
  have lv : List.ofFn v = [v 0, v 1, v 2] := by simp [List.ofFn_succ]
  have he : exSt [max (v 0) 0, max (v 1) 0, max (v 2) 0] clean = stateAfter (State.mk' 3 0) (exArgs [v 0, v 1, v 2] clean) := by
    rw [exSt_eq]; cases clean <;> simp [stateAfter, exArgs]
  have ea : { exArgs [0, 0, 0] clean with sootVar := [v 0, v 1, v 2] } = exArgs [v 0, v 1, v 2] clean := by cases clean <;> rfl
  refine ⟨_, ?_, hr⟩
  rw [lv, ea, he]
  exact exSt_set [v 0, v 1, v 2] clean

/-- Free-molecular coagulation of 1E15 particles of together 1E-8 kg in the self-preserving distribution; the limits are those the theorem states. -/
example : ∃ M : ℝ → Fin 3 → ℝ, (∀ τ, LognRun (exModel .LOGN 3 .NONE .NONE .NONE .FM) (fun _ => State.mk' 3 0) (fun _ => exArgs [0, 0, 0] false) τ M) ∧
    (∀ t, 0 ≤ t → 0 < M t 0) ∧ M 0 1 = 1E-8 ∧ Tendsto (fun t => M t 0) atTop (𝓝 0) ∧ Tendsto (fun t => spread (M t)) atTop (𝓝 (2 ^ (6 / 5 : ℝ))) := by
  have h := exLognGas .NONE (by decide) (by decide) .NONE .NONE .FM (.inl rfl) false
  obtain ⟨k, k0, hk⟩ := C110_fm_self_preserving h rfl rfl rfl rfl
  have hM := hk 1E15 1E-8 (by norm_num) (by norm_num)
  have L0 : ∀ t : ℝ, 0 ≤ t → 0 < (1E15 : ℝ) ^ (-5 / 6 : ℝ) + k * (1E-8 : ℝ) ^ (1 / 6 : ℝ) * t := fun t ht => by
    have := rpow_pos_of_pos (show (0 : ℝ) < 1E15 by norm_num) (-5 / 6); positivity
  refine ⟨_, hM, fun t ht => rpow_pos_of_pos (L0 t ht) _, rfl, ?_⟩
  have := C110_fm_limit (fun τ => h.calls τ) rfl rfl rfl rfl hM (fun t ht => rpow_pos_of_pos (L0 t ht) _) (by show (0 : ℝ) < 1E-8; norm_num)
    (by have := L0 0 le_rfl; show 0 < 2 ^ (6 / 5 : ℝ) * (1E-8 : ℝ) ^ 2 * _; positivity) (Tm := (exArgs [0, 0, 0] false).T) (exArgs_admissible [0, 0, 0] false).T (fun t _ => le_rfl)
  exact this.2

/-- Continuum coagulation of 1E15 particles of 1E-23 kg. -/
example : ∃ τ > 0, ∃ M, LognRun (exModel .LOGN 3 .NONE .NONE .NONE .CONTINUUM) (fun _ => State.mk' 3 0) (fun _ => exArgs [0, 0, 0] false) τ M ∧
    M 0 = ![1E15, 1E-8, 1E-31] ∧ ∀ t ∈ Set.Icc 0 τ, 1 ≤ spread (M t) ∧ spread (M t) ≤ 2 := by
  have h := exLognGas .NONE (by decide) (by decide) .NONE .NONE .CONTINUUM (.inr (.inl rfl)) false
  obtain ⟨τ, τ0, M, h1, h2, h3⟩ := C110_exists h rfl rfl rfl ![1E15, 1E-8, 1E-31] (fun k => by fin_cases k <;> norm_num)
  refine ⟨τ, τ0, M, h1, h2, fun t ht => ?_⟩
  have h0 : (0 : ℝ) ∈ Set.Icc 0 τ := ⟨le_rfl, τ0.le⟩
  have e : spread (M 0) = 1 := by rw [h2]; show (1E15 : ℝ) * 1E-31 / 1E-8 ^ 2 = 1; norm_num
  have := C110_continuum_spread (h.calls τ) rfl rfl rfl rfl h1 (fun t ht => h3 t ht 0) (h3 0 h0 1) (h3 0 h0 2) t ht
  rw [e, max_eq_right (by norm_num), min_eq_left (one_le_rpow (by norm_num) (by norm_num))] at this
  exact this

/-- Harmonic-mean coagulation of the same particles widens the distribution and leaves their number. -/
example : ∃ τ > 0, ∃ M, LognRun (exModel .LOGN 3 .NONE .NONE .NONE .HM) (fun _ => State.mk' 3 0) (fun _ => exArgs [0, 0, 0] false) τ M ∧
    M τ 0 = 1E15 ∧ 1 < spread (M τ) := by
  have h := exLognGas .NONE (by decide) (by decide) .NONE .NONE .HM (.inr (.inr rfl)) false
  have hv : ∀ k, 0 < (![1E15, 1E-8, 1E-31] : Fin 3 → ℝ) k := fun k => by fin_cases k <;> norm_num
  obtain ⟨τ, τ0, M, h1, h2, -⟩ := C110_exists h rfl rfl rfl _ hv
  obtain ⟨k, k0, hk⟩ := C110_hm_spreads_without_bound h rfl rfl rfl rfl _ hv
  obtain ⟨a1, -, -, a4⟩ := hk τ M h1 h2 τ ⟨τ0.le, le_rfl⟩
  refine ⟨τ, τ0, M, h1, a1, ?_⟩
  have e : spread ![(1E15 : ℝ), 1E-8, 1E-31] = 1 := by show (1E15 : ℝ) * 1E-31 / 1E-8 ^ 2 = 1; norm_num
  rw [e] at a4
  have : 0 < k * (![1E15, 1E-8, 1E-31] : Fin 3 → ℝ) 0 / (![1E15, 1E-8, 1E-31] : Fin 3 → ℝ) 1 ^ 2 * τ := by have := hv 0; have := hv 1; positivity
  linarith

end Soot
