import Verif.Props.QmomModel
import Verif.Props.QmomRound
import Mathlib.Data.List.GetD

/-!
# C81: QMOM is exact for particles of finitely many sizes

Specification: the moment equations of a population of `u n` particles of mass `y n`, `n < N`, written without the model
(docs/models/1_chemistry.md: nucleation, growth, condensation and coagulation of a moment).
-/

namespace Soot

open Res Real
open scoped Classical

/-- Surface of a sphere of soot of mass `m`. -/
noncomputable def sphArea (m : ℝ) : ℝ := π * (6 * m / (π * rhoSoot)) ^ ((2 : ℝ) / 3)

/-- Rate of change of the moment of order `r`: `J` new particles of mass `mN`, masses that change at the rate `v`, and pairs that
merge at the rate `β`. -/
noncomputable def popRate (N : ℕ) (u y : ℕ → ℝ) (J mN : ℝ) (v : ℝ → ℝ) (β : ℝ → ℝ → ℝ) (r : ℕ) : ℝ :=
  J * mN ^ r + ∑ n ∈ Finset.range N, u n * (r * y n ^ (r - 1) * v (y n)) +
    1 / 2 * ∑ i ∈ Finset.range N, ∑ j ∈ Finset.range N, u i * u j * β (y i) (y j) * ((y i + y j) ^ r - y i ^ r - y j ^ r)

/-- The surface term of `popRate` is the time derivative of the moment along masses that change at the rate `v`. -/
theorem popRate_surface (N : ℕ) (u : ℕ → ℝ) (y : ℝ → ℕ → ℝ) (v : ℝ → ℝ) (t : ℝ) (h : ∀ n < N, HasDerivAt (fun t => y t n) (v (y t n)) t) (r : ℕ) :
    HasDerivAt (fun t => ∑ n ∈ Finset.range N, u n * y t n ^ r) (popRate N u (y t) 0 0 v (fun _ _ => 0) r) t := by
  have : popRate N u (y t) 0 0 v (fun _ _ => 0) r = ∑ n ∈ Finset.range N, u n * (r * y t n ^ (r - 1) * v (y t n)) := by
    simp [popRate]
  rw [this]
  exact HasDerivAt.fun_sum fun n hn => ((h n (Finset.mem_range.mp hn)).pow r).const_mul (u n)

theorem same_pairs {N : ℕ} {u y w a : ℕ → ℝ}
    (h : ∀ f : ℝ → ℝ, ∑ n ∈ Finset.range N, w n * f (a n) = ∑ n ∈ Finset.range N, u n * f (y n)) (g : ℝ → ℝ → ℝ) :
    ∑ i ∈ Finset.range N, ∑ j ∈ Finset.range N, w i * w j * g (a i) (a j) = ∑ i ∈ Finset.range N, ∑ j ∈ Finset.range N, u i * u j * g (y i) (y j) := by
  have e : ∀ (p q : ℕ → ℝ), ∑ i ∈ Finset.range N, ∑ j ∈ Finset.range N, p i * p j * g (q i) (q j) =
      ∑ i ∈ Finset.range N, p i * ∑ j ∈ Finset.range N, p j * g (q i) (q j) := fun p q => by
    simp only [Finset.mul_sum, mul_assoc]
  rw [e, e, h fun x => ∑ j ∈ Finset.range N, w j * g x (a j)]
  exact Finset.sum_congr rfl fun i _ => by rw [h (g (y i))]

/-- **C81.** `N` particle sizes, `2N` moments: with a correct eigenvalue routine QMOM gives every moment its exact rate of change.  Growth,
oxidation and condensation change the mass of a particle in proportion to its surface and to its collision rate with dimers; the
coagulation kernel is the configured one; the gas is charged with the exact surface of the population. -/
theorem C81_qmom_exact (eig : Eig) (he : eig.Correct) (m : Model) (s : State) (h : QmomReady m s) (N : ℕ) (hN : m.nsoot = 2 * N) (u y : ℕ → ℝ)
    (hu : ∀ n < N, 0 < u n) (hy0 : ∀ n < N, 0 < y n) (hy : Distinct N y) (hs : s.sootVar = discreteMoments N u y (2 * N)) :
    ∃ m' s' J n' kG kO, qmomSources eig m s = ok (m', s') ∧ m.nucl.rate (ibetaNodes m.coag) { s with wts := s'.wts, absc := s'.absc } = ok (J, n', s') ∧
      (∀ mD, ibetaNodes m.coag s' mD = ok (∑ n ∈ Finset.range N, u n * m.coag.val s mD (y n))) ∧
      m.grow.rate m.ctx s' = ok kG ∧ m.oxid.rate m.ctx s' = ok kO ∧
      (let mN := s'.cMin * gasMW .C / Na
       let A := ∑ n ∈ Finset.range N, u n * sphArea (y n)
       let cond := fun x => if m.nucl.mech = .PAH then n'.dimer.nDimer * n'.dimer.mDimer * m.coag.val s n'.dimer.mDimer x else 0
       m'.sources.soot = (List.range (2 * N)).map (popRate N u y J mN (fun x => (kG - kO) * sphArea x + cond x) (m.coag.val s)) ∧
       m.finish n' m'.sources.soot m.sources.tar (J * mN) (kG * A) (-(kO * A)) = ok m') := by
  have h2 := h.two
  have hN1 : 1 ≤ N := by omega
  obtain ⟨w, a, m', s', J, n', kG, kO, e0, hwl, hal, hw0, ha0, e1, e2, e3, e4, e5, e6, _, _, _, _, _, _, _, e7, e8⟩ := qmom_eval eig h
  obtain ⟨w', a', q0, hwl', hal', hwp, hap, hf⟩ := C53_roundtrip eig he N hN1 u y hu hy0 hy s.wts s.absc (by rw [h.wlen, hN]; omega) (by rw [h.alen, hN]; omega)
  rw [← hs, e0, ok.injEq, Prod.mk.injEq] at q0
  obtain ⟨rfl, rfl⟩ := q0
  have hn' : n'.mech = m.nucl.mech := (Nucl.rate_inv e2).1
  have hw' : s'.wts = w := by rw [e3]
  have ha' : s'.absc = a := by rw [e3]
  have hval : m.coag.val s' = m.coag.val s := by rw [e3]; rfl
  have hpos : ¬∃ i < w.length, w.getD i 0 ≤ 0 ∨ a.getD i 0 ≤ 0 := by
    rintro ⟨i, hi, hc | hc⟩
    · rw [List.getD_eq_getElem _ _ hi] at hc
      exact absurd hc (not_le.mpr (hwp _ (List.getElem_mem hi)))
    · rw [List.getD_eq_getElem _ _ (by omega)] at hc
      obtain ⟨n, hn, e⟩ := hap _ (List.getElem_mem (by omega : i < a.length))
      rw [e] at hc
      exact absurd hc (not_le.mpr (hy0 n hn))
  have hmr : ∀ r : ℝ, nodeMr w a r = ∑ n ∈ Finset.range N, u n * y n ^ r := fun r => by
    rw [nodeMr, if_neg hpos, hwl', hf fun x => x ^ r]
  have hA : acoef * nodeMr w a twothird = ∑ n ∈ Finset.range N, u n * sphArea (y n) := by
    rw [hmr, Finset.mul_sum]
    refine Finset.sum_congr rfl fun n hn => ?_
    have := hy0 n (Finset.mem_range.mp hn)
    have := rhoSoot_pos
    rw [acoef, sphArea, twothird, show 6 * y n / (π * rhoSoot) = 6 / (π * rhoSoot) * y n by ring, mul_rpow (by positivity) (by positivity)]
    norm_num
    ring
  refine ⟨m', s', J, n', kG, kO, e1, by rw [hw', ha']; exact e2, fun mD => ?_, e5, e6, ?_, by rw [← hA]; exact e7⟩
  · have hp : s'.Phys := by rw [e3]; exact (h.gas.acc.upd e4 _ _).phys
    rw [ibetaNodes_ok hp h.fm (by rw [hw', ha']; omega), hw', ha', hval, hal']
    congr 1
    rw [← hf fun x => m.coag.val s mD x]
    refine Finset.sum_congr rfl fun i hi => ?_
    rw [Finset.mem_range] at hi
    rw [abs_of_pos]
    rw [List.getD_eq_getElem _ _ (by omega)]
    exact hwp _ (List.getElem_mem _)
  · rw [e8, hN]
    refine List.map_congr_left fun r _ => ?_
    have c1 : collisionSum (m.coag.val s) w a r = 1 / 2 * ∑ i ∈ Finset.range N, ∑ j ∈ Finset.range N,
        u i * u j * m.coag.val s (y i) (y j) * ((y i + y j) ^ r - y i ^ r - y j ^ r) := by
      have := same_pairs hf fun x z => m.coag.val s x z * ((x + z) ^ r - x ^ r - z ^ r)
      rw [collisionSum, hal']
      simp only [mul_assoc] at this ⊢
      rw [← this]
      congr 1
      exact Finset.sum_congr rfl fun i _ => Finset.sum_congr rfl fun j _ => by ring
    have c2 : ∀ mD nD : ℝ, condSum (m.coag.val s) w a mD nD r = ∑ n ∈ Finset.range N, u n * (r * y n ^ (r - 1) * (nD * mD * m.coag.val s mD (y n))) := by
      intro mD nD
      rw [condSum, hal', ← hf fun x => r * x ^ (r - 1) * (nD * mD * m.coag.val s mD x), Finset.mul_sum]
      exact Finset.sum_congr rfl fun i _ => by ring
    have c3 : acoef * r * nodeMr w a (r - onethird) = ∑ n ∈ Finset.range N, u n * (r * y n ^ (r - 1) * sphArea (y n)) := by
      rw [hmr, Finset.mul_sum]
      refine Finset.sum_congr rfl fun n hn => ?_
      have hyn := hy0 n (Finset.mem_range.mp hn)
      have := rhoSoot_pos
      rcases r with _ | r
      · simp
      rw [acoef, sphArea, twothird, show 6 * y n / (π * rhoSoot) = 6 / (π * rhoSoot) * y n by ring, mul_rpow (by positivity) (by positivity),
        show (((r + 1 : ℕ) : ℝ) - onethird) = (r : ℝ) + 2 / 3 by push_cast; norm_num [onethird]; ring, rpow_add hyn, rpow_natCast, Nat.add_sub_cancel]
      ring
    rw [qmomSoot, c1, c3, hn']
    simp only [c2, popRate]
    congr 1
    rw [add_assoc]
    congr 1
    rw [Finset.mul_sum]
    by_cases hx : m.nucl.mech = .PAH
    · simp only [if_pos hx]
      rw [← Finset.sum_add_distrib]
      exact Finset.sum_congr rfl fun n _ => by ring
    · simp only [if_neg hx]
      rw [zero_add]
      exact Finset.sum_congr rfl fun n _ => by ring

/-- Two sizes, four moments, PAH nucleation with condensation, HACA growth and oxidation, FUCHS coagulation. -/
example (eig : Eig) (he : eig.Correct) : ∃ m' s', qmomSources eig (exModel .QMOM 4 .PAH .HACA .HACA .FUCHS)
    (exSt (discreteMoments 2 (fun n => if n = 0 then 1E15 else 2E14) (fun n => if n = 0 then 1E-23 else 1E-21) 4) false) = ok (m', s') := by
  have hl : (discreteMoments 2 (fun n => if n = 0 then 1E15 else 2E14) (fun n => if n = 0 then 1E-23 else 1E-21) 4).length = 2 * 2 := by
    simp [discreteMoments]
  have hv : ∀ x ∈ discreteMoments 2 (fun n => if n = 0 then 1E15 else 2E14) (fun n => if n = 0 then 1E-23 else 1E-21) 4, (0 : ℝ) ≤ x := by
    simp only [discreteMoments, List.mem_map]
    rintro _ ⟨k, _, rfl⟩
    exact Finset.sum_nonneg fun n _ => by split_ifs <;> positivity
  obtain ⟨m', s', _, _, _, _, e, _⟩ := C81_qmom_exact eig he _ _
    (exQmomReady 2 .PAH (by simp) (by simp) .HACA .HACA .FUCHS _ false (by norm_num) hl hv (by norm_num)) 2 rfl _ _
    (by intro n _; split_ifs <;> norm_num) (by intro n _; split_ifs <;> norm_num)
    (by intro i hi j hj; interval_cases i <;> interval_cases j <;> norm_num) (exSt_sootVar _ hv)
  exact ⟨m', s', e⟩

end Soot
