import Verif.Props.MomicPoly

/-!
# Property C94: MOMIC writes the documented moment equations
-/

namespace Soot

open Res Real Polynomial
open scoped Classical

/-! ## Specification: docs/models/1_chemistry.md and docs/models/5_momic.md -/

namespace MomicEq

/-- The value at `x` of the function whose logarithm is the polynomial through `(0, log (y 0)), …, (d - 1, log (y (d - 1)))`. -/
noncomputable def logInterp (d : ℕ) (y : ℕ → ℝ) (x : ℝ) : ℝ :=
  exp ((Lagrange.interpolate (Finset.range d) (fun k : ℕ => (k : ℝ)) fun k => log (y k)).eval x)

/-- The moment of order `r`: interpolated from all moments, extrapolated from the first three for negative `r`. -/
noncomputable def mom (M : List ℝ) (r : ℝ) : ℝ := logInterp (if 0 ≤ r then M.length else 3) (fun k => M.getD k 0) r

/-- `f_l^(x,y)`: the double integral of `(m+μ)^l (m^(1/6) μ^(-3/6) + 2 m^(-1/6) μ^(-1/6) + m^(-3/6) μ^(1/6)) m^x μ^y`, written with moments. -/
noncomputable def fInt (M : List ℝ) (l x y : ℕ) : ℝ :=
  ∑ i ∈ Finset.range (l + 1), (l.choose i : ℝ) *
    (mom M (x + i + 1 / 6) * mom M (y + (l - i) - 3 / 6) + 2 * (mom M (x + i - 1 / 6) * mom M (y + (l - i) - 1 / 6)) +
      mom M (x + i - 3 / 6) * mom M (y + (l - i) + 1 / 6))

/-- `f_(1/2)^(x,y)`, interpolated from integer `l`. -/
noncomputable def fHalf (M : List ℝ) (x y : ℕ) : ℝ := logInterp (if y ≤ 2 then 4 else if y ≤ 3 then 3 else 2) (fun l => fInt M l x y) (1 / 2)

/-- The same with the dimer mass for `m`: the integral over `μ` only. -/
noncomputable def gInt (M : List ℝ) (mD : ℝ) (l y : ℕ) : ℝ :=
  ∑ i ∈ Finset.range (l + 1), (l.choose i : ℝ) *
    (mD ^ (i + 1 / 6 : ℝ) * mom M (y + (l - i) - 3 / 6) + 2 * (mD ^ (i - 1 / 6 : ℝ) * mom M (y + (l - i) - 1 / 6)) +
      mD ^ (i - 3 / 6 : ℝ) * mom M (y + (l - i) + 1 / 6))

/-- Collision integral of dimers with particles, weighted by `μ^(r-1)`. -/
noncomputable def gHalf (M : List ℝ) (mD : ℝ) (r : ℕ) : ℝ :=
  logInterp (if r ≤ 2 then 4 else if r ≤ 3 then 3 else 2) (fun l => gInt M mD l (r - 1)) (1 / 2)

/-- The double integral of `(m^(1/3)+μ^(1/3)) (m^(-1/3)+μ^(-1/3) + κ (m^(-2/3)+μ^(-2/3))) m^x μ^y`, written with moments. -/
noncomputable def hInt (M : List ℝ) (κ : ℝ) (x y : ℕ) : ℝ :=
  2 * (mom M x * mom M y) + mom M (x + 1 / 3) * mom M (y - 1 / 3) + mom M (x - 1 / 3) * mom M (y + 1 / 3) +
    κ * (mom M (x - 1 / 3) * mom M y + mom M (x + 1 / 3) * mom M (y - 2 / 3) + mom M (x - 2 / 3) * mom M (y + 1 / 3) + mom M x * mom M (y - 1 / 3))

/-- The same with the dimer mass for `m`: the integral over `μ` only. -/
noncomputable def gCont (M : List ℝ) (κ mD : ℝ) (y : ℕ) : ℝ :=
  2 * mom M y + mD ^ (1 / 3 : ℝ) * mom M (y - 1 / 3) + mD ^ (-1 / 3 : ℝ) * mom M (y + 1 / 3) +
    κ * (mD ^ (-1 / 3 : ℝ) * mom M y + mD ^ (1 / 3 : ℝ) * mom M (y - 2 / 3) + mD ^ (-2 / 3 : ℝ) * mom M (y + 1 / 3) + mom M (y - 1 / 3))

/-- The coagulation source of moment `r` for a kernel `K` whose pair integrals are `h`. -/
noncomputable def coagDoc (K : ℝ) (h : ℕ → ℕ → ℝ) (r : ℕ) : ℝ :=
  if r = 0 then -(K / 2 * h 0 0) else K / 2 * ∑ k ∈ Finset.Ioo 0 r, (r.choose k : ℝ) * h k (r - k)

/-- The free-molecular constant. -/
noncomputable def KFM (c T : ℝ) : ℝ := c * 2.2 * (π * kb * T / 2) ^ (1 / 2 : ℝ) * (6 / (π * rhoSoot)) ^ (2 / 3 : ℝ)
/-- The continuum constants. -/
noncomputable def KC (T μ : ℝ) : ℝ := 2 * kb * T / (3 * μ)
noncomputable def KC' (lam : ℝ) : ℝ := 2 * 1.657 * lam * (π * rhoSoot / 6) ^ (1 / 3 : ℝ)

/-! ## Closed forms of the model -/

theorem interp_eq {d : ℕ} {y : ℕ → ℝ} {p : ℝ[X]} (h : Through d (fun k => log (y k)) p) (x : ℝ) : exp (p.eval x) = logInterp d y x := by
  have hv : Set.InjOn (fun k : ℕ => (k : ℝ)) (Finset.range d) := fun a _ b _ h => Nat.cast_injective h
  rw [logInterp, Lagrange.eq_interpolate_of_eval_eq (s := Finset.range d) (v := fun k : ℕ => (k : ℝ)) (fun k => log (y k)) hv
    (by rw [Finset.card_range]; exact h.1) fun i hi => h.2 i (by simpa using hi)]

theorem mr_eq {M : List ℝ} {N : ℕ} (h3 : 3 ≤ N) (hl : M.length = N) (hp : AllPos M) (r : ℝ) : mrVal M N r = mom M r := by
  obtain ⟨T, hT, hr⟩ := C93_moments N M h3 hl hp
  obtain ⟨p, ⟨h1, h2⟩, _⟩ := hr r _ rfl
  obtain ⟨T', hT', hn, hv⟩ := setDiffTable_ok (M := M) ⟨N, fun _ _ => none⟩ (by simp [hl])
  cases hT.symm.trans hT'
  simp only at hn hv
  have e := momicMr_ok (r := r) (⟨by omega, fun i j hij => hv i j (by omega)⟩ : TabOf M T) (by omega)
  rw [h2, hn] at e
  rw [mom, hl, ← interp_eq h1]
  exact (by simpa using e.symm)

theorem grid_eq (y : ℕ) (v : Fin 4 → ℝ) (w : ℕ → ℝ) (hv : ∀ l : Fin 4, v l = w l) (h0 : ∀ l, 0 < w l) :
    gridV y v = logInterp (if y ≤ 2 then 4 else if y ≤ 3 then 3 else 2) w (1 / 2) := by
  obtain ⟨p, ⟨h1, h2⟩, _⟩ := C93_grid y (fun l => ok (v l)) w h0 _ rfl fun l _ => by rw [hv]
  have hp : ∀ l, 0 < v l := fun l => hv l ▸ h0 _
  have e := gridHalf_ok (y := y) (f := fun l => ok (v l)) (v := v) (fun _ _ => rfl) fun l => (hp l).le
  rw [if_neg (fun h => (hp 2).ne' h.2), h2] at e
  rw [← interp_eq h1]
  exact (by simpa using e.symm)

theorem mom_pos (M : List ℝ) (r : ℝ) : 0 < mom M r := exp_pos _

theorem fInt_pos (M : List ℝ) (l x y : ℕ) : 0 < fInt M l x y := by
  refine Finset.sum_pos (fun i hi => ?_) ⟨0, by simp⟩
  have : 0 < l.choose i := Nat.choose_pos (by simpa [Nat.lt_succ_iff] using hi)
  have := mom_pos M
  have h1 := this (x + i + 1 / 6); have h2 := this (y + (l - i) - 3 / 6); have h3 := this (x + i - 1 / 6)
  have h4 := this (y + (l - i) - 1 / 6); have h5 := this (x + i - 3 / 6); have h6 := this (y + (l - i) + 1 / 6)
  positivity

theorem gInt_pos (M : List ℝ) {mD : ℝ} (hD : 0 < mD) (l y : ℕ) : 0 < gInt M mD l y := by
  refine Finset.sum_pos (fun i hi => ?_) ⟨0, by simp⟩
  have : 0 < l.choose i := Nat.choose_pos (by simpa [Nat.lt_succ_iff] using hi)
  have := mom_pos M
  have h2 := this (y + (l - i) - 3 / 6)
  have h4 := this (y + (l - i) - 1 / 6); have h6 := this (y + (l - i) + 1 / 6)
  positivity

section
variable {M : List ℝ} {N : ℕ} (h3 : 3 ≤ N) (hl : M.length = N) (hp : AllPos M)
include h3 hl hp

theorem qv_eq (x j : ℕ) {r : ℝ} (hr : r = x + (2 * (j : ℝ) - 3) / 6) : qv M N (x * 3 + j) = mom M r := by
  rw [qv, mr_eq h3 hl hp, hr]; congr 1; push_cast; ring

theorem pv_eq (x j : ℕ) {r : ℝ} (hr : r = x + (2 * (j : ℝ) - 4) / 6) : pv M N (x * 3 + j) = mom M r := by
  rw [pv, mr_eq h3 hl hp, hr]; congr 1; push_cast; ring

theorem fPt_eq (x y : ℕ) (l : Fin 4) : fPtV (qv M N) x y l = fInt M l x y := by
  have e : ∀ (x : ℕ) (j : ℕ), qv M N (x * 3 + j) = mom M (x + (2 * (j : ℝ) - 3) / 6) := fun x j => qv_eq h3 hl hp x j rfl
  fin_cases l <;>
  · simp only [fPtV, bilV, fFull, List.map_cons, List.map_nil, List.sum_cons, List.sum_nil, fInt, e, Finset.sum_range_succ, Finset.sum_range_zero]
    norm_num [Nat.choose]
    ring_nf

theorem gPt_eq {mD : ℝ} (r : ℕ) (l : Fin 4) : gPtV (qv M N) mD r l = gInt M mD l (r - 1) := by
  have e : ∀ (x : ℕ) (j : ℕ), qv M N (x * 3 + j) = mom M (x + (2 * (j : ℝ) - 3) / 6) := fun x j => qv_eq h3 hl hp x j rfl
  generalize hy : r - 1 = y
  fin_cases l <;>
  · simp only [gPtV, dimV, gTerms, List.map_cons, List.map_nil, List.sum_cons, List.sum_nil, gInt, hy, e, Finset.sum_range_succ, Finset.sum_range_zero]
    norm_num [Nat.choose]
    ring_nf

theorem fV_eq (x y : ℕ) : fV (qv M N) x y = fHalf M x y :=
  grid_eq y _ (fun l => fInt M l x y) (fPt_eq h3 hl hp x y) fun l => fInt_pos M l x y

theorem gV_eq {mD : ℝ} (hD : 0 < mD) (r : ℕ) : gV (qv M N) mD r = gHalf M mD r :=
  grid_eq r _ (fun l => gInt M mD l (r - 1)) (gPt_eq h3 hl hp r) fun l => gInt_pos M hD l _

theorem pair_eq (κ : ℝ) (x y : ℕ) : pairV (pv M N) κ x y = hInt M κ x y := by
  have e : ∀ (x : ℕ) (j : ℕ), pv M N (x * 3 + j) = mom M (x + (2 * (j : ℝ) - 4) / 6) := fun x j => pv_eq h3 hl hp x j rfl
  have e0 : ∀ x : ℕ, pv M N (x * 3) = mom M (x + (2 * ((0 : ℕ) : ℝ) - 4) / 6) := fun x => e x 0
  simp only [pairV, e, e0, hInt]
  norm_num
  ring_nf

end

theorem kfm_eq (c : Coag) {s : State} : c.kfmVal s = KFM c.fmMult s.T := by
  rw [Coag.kfmVal, KFM, sqrt_eq_rpow, epsC, twothird, show (0.5 : ℝ) * π * kb * s.T = π * kb * s.T / 2 by norm_num; ring]

theorem dimer_eq {M : List ℝ} {N : ℕ} (h3 : 3 ≤ N) (hl : M.length = N) (hp : AllPos M) (κ mD : ℝ) :
    dimerCV (pv M N) mD κ = gCont M κ mD 0 := by
  have e : ∀ j : ℕ, pv M N j = mom M ((2 * (j : ℝ) - 4) / 6) := fun j => by
    have := pv_eq h3 hl hp 0 j rfl
    simpa using this
  simp only [dimerCV, e, gCont]
  norm_num
  ring_nf

theorem sum_Ioo (r : ℕ) (f : ℕ → ℝ) : ∑ k ∈ Finset.Ioo 0 r, f k = ∑ k ∈ Finset.range (r - 1), f (k + 1) := by
  rw [show Finset.Ioo 0 r = Finset.Ico 1 r by ext; simp; omega, Finset.sum_Ico_eq_sum_range]
  exact Finset.sum_congr rfl fun k _ => by rw [add_comm]

end MomicEq

open MomicEq in
/-- **C94.** For every MOMIC model and every accepted state with positive moments the sources are those of docs/models/1_chemistry.md and 5_momic.md: nucleation
`J m_n^r`, surface reactions `k_s π (6/(π ρ_s))^(2/3) r M_(r-1/3)`, and coagulation with the interpolated grid functions, for all orders in the
free-molecular regime and for the orders up to two in the others (C34 is about the rest). Condensation is the harmonic mean of the two regimes; its continuum
part is that of order one throughout (C59). -/
theorem C94_momic (md : Model) (s : State) (h : MomicReady md s) (hA : AllPos s.sootVar) (hy : md.nucl.mech = .PAH → ∃ y ∈ s.yPah, y ≠ 0) :
    ∃ m' s' ib J kG kO, momicSources md s = ok (m', s') ∧ md.nucl.rate ib s = ok (J, m'.nucl, s') ∧
      md.grow.rate md.ctx s' = ok kG ∧ md.oxid.rate md.ctx s' = ok kO ∧ m'.sources.soot.length = md.nsoot ∧
      ∃ M Kf Kc κ mN, M = s.sootVar ∧ Kf = KFM md.coag.fmMult s.T ∧ Kc = KC s.T s.muGas ∧ κ = KC' s.mfpVal ∧ mN = s'.cMin * gasMW .C / Na ∧
      (md.nucl.mech = .PAH → ∀ mD, 0 < mD → ib s' mD = ok (hmean (Kf * gHalf M mD 1) (Kc * gCont M κ mD 0))) ∧
      ∀ r < md.nsoot, ∃ cnd coa, m'.sources.soot[r]? = some (J * mN ^ r + cnd + (kG - kO) * (π * (6 / (π * rhoSoot)) ^ (2 / 3 : ℝ) * (r * mom M (r - 1 / 3))) + coa) ∧
        (md.nucl.mech ≠ .PAH → cnd = 0) ∧
        (md.nucl.mech = .PAH → ∃ mD nD, mD = m'.nucl.dimer.mDimer ∧ nD = m'.nucl.dimer.nDimer ∧ 0 < mD ∧ 0 < nD ∧
          cnd = r * (mD * nD * hmean (Kf * gHalf M mD r) (Kc * gCont M κ mD 0))) ∧
        (md.coag.mech = .NONE → coa = 0) ∧
        (md.coag.mech = .FM → coa = coagDoc Kf (fHalf M) r) ∧
        (md.coag.mech = .CONTINUUM → r ≤ 2 → coa = coagDoc Kc (hInt M κ) r) ∧
        (md.coag.mech = .HM → r ≤ 2 → coa = if r = 1 then 0 else hmean (coagDoc Kf (fHalf M) r) (coagDoc Kc (hInt M κ) r)) := by
  have hf : MomicFin md s := ⟨fun hp => ⟨hA, hy hp⟩, fun _ _ => hA⟩
  obtain ⟨T, P, Q, hT, hP, hQ, ht, hTn, hF⟩ := momicSetup h
  obtain ⟨m', s', J, n', kG, kO, e1, e2, e3, hc, e4, e5, _, _, _, _, hdim, _, _, e6, e7⟩ := momic_eval_at h hf hT hP hQ ht hTn hF
  have h3 := h.three
  have hn' : m'.nucl = n' := by obtain ⟨_, _, _, _, _, _, e⟩ := Model.finish_inv e6; rw [e]
  have hr2 : Ready md s' := by rw [e3]; exact h.toReady.upd hc _ _
  have hp0 : 0 < s.sootVar.getD 0 0 := by
    have hlen := h.len
    rw [getD_of_lt (by omega)]; exact hA _ (List.getElem_mem _)
  have eKc : kcVal s = KC s.T s.muGas := rfl
  have eKp : kcpVal s = KC' s.mfpVal := rfl
  have hbeta : ∀ mD, 0 < mD → ∀ r, momicBeta md.coag s s.sootVar md.nsoot mD r =
      hmean (KFM md.coag.fmMult s.T * gHalf s.sootVar mD r) (KC s.T s.muGas * gCont s.sootVar (KC' s.mfpVal) mD 0) := fun mD hD r => by
    rw [momicBeta, kfm_eq, gV_eq h3 h.len hA hD, dimer_eq h3 h.len hA, eKc, eKp]
  have efm : ∀ r, fmCoagV (md.coag.kfmVal s) (qv s.sootVar md.nsoot) r = coagDoc (KFM md.coag.fmMult s.T) (fHalf s.sootVar) r := fun r => by
    rw [fmCoagV, coagDoc, kfm_eq, sum_Ioo]
    simp only [fV_eq h3 h.len hA]
  have ec : ∀ r ≤ 2, cCoagV (kcVal s) (kcpVal s) (pv s.sootVar md.nsoot) r = coagDoc (KC s.T s.muGas) (hInt s.sootVar (KC' s.mfpVal)) r := fun r hr => by
    rw [cCoagV, coagDoc, sum_Ioo, eKc, eKp]
    simp only [pair_eq h3 h.len hA]
    interval_cases r <;> simp
  refine ⟨m', s', momicIbeta md P Q, J, kG, kO, e1, hn' ▸ e2, e4, e5, by rw [e7]; simp, s.sootVar, _, _, _, _, rfl, rfl, rfl, rfl, rfl, fun hp mD hD => ?_,
    fun r hr => ?_⟩
  · obtain ⟨i1, _⟩ := momicIbeta_ok (m := md) hr2.gas.acc.phys h.fm hF h3 h.len hA hp hD
    have : momicBeta md.coag s' = momicBeta md.coag s := by rw [e3]; rfl
    rw [i1, this, hbeta mD hD]
  · refine ⟨if md.nucl.mech = .PAH then r * (n'.dimer.mDimer * n'.dimer.nDimer * momicBeta md.coag s s.sootVar md.nsoot n'.dimer.mDimer r) else 0,
      momicCoagV md.coag s s.sootVar md.nsoot r, ?_, fun hp => if_neg hp, fun hp => ?_, fun hm => ?_, fun hm => ?_, fun hm hr2 => ?_, fun hm hr2 => ?_⟩
    · rw [e7]
      simp only [List.getElem?_map, List.getElem?_range hr, Option.map_some, momicSoot, if_pos hp0, mr_eq h3 h.len hA, acoef, twothird, onethird]
      congr 1; ring
    · obtain ⟨hD, hN⟩ := hdim hp
      refine ⟨_, _, rfl, rfl, hn' ▸ hD, hn' ▸ hN, ?_⟩
      rw [if_pos hp, hbeta _ hD, hn']
    · rw [momicCoagV, hm]; simp
    · rw [momicCoagV, hm]
      simp only [efm]
      split_ifs with h1
      · subst h1; rw [coagDoc, sum_Ioo]; simp
      · rfl
    · rw [momicCoagV, hm]
      simp only [ec r hr2]
      split_ifs with h1
      · subst h1; rw [coagDoc, sum_Ioo]; simp
      · rfl
    · rw [momicCoagV, hm]
      simp only [ec r hr2, efm]

/-! ## Concrete cases -/

/-- Four moments, C2H2 nucleation and free-molecular coagulation: the third moment. -/
example : ∃ m' s', momicSources (exModel .MOMIC 4 .LL .LIN .LL .FM) (exSt exMonoMom false) = ok (m', s') ∧
    ∃ J kG kO mN : ℝ, m'.sources.soot[3]? = some (J * mN ^ 3 + 0 + (kG - kO) * (π * (6 / (π * rhoSoot)) ^ (2 / 3 : ℝ) * ((3 : ℕ) * MomicEq.mom exMonoMom ((3 : ℕ) - 1 / 3))) +
      MomicEq.coagDoc (MomicEq.KFM (exModel .MOMIC 4 .LL .LIN .LL .FM).coag.fmMult (exSt exMonoMom false).T) (MomicEq.fHalf exMonoMom) 3) := by
  have e : (exSt exMonoMom false).sootVar = exMonoMom := exSt_sootVar _ fun x hx => (exMonoMom_pos x hx).le
  obtain ⟨h1, h2, h3⟩ := exMono_ready .LL (by simp) (by simp) .LIN .LL .FM (by simp)
  obtain ⟨m', s', _, J, kG, kO, a1, _, _, _, _, M, Kf, _, _, mN, rfl, rfl, _, _, _, _, hr⟩ := C94_momic _ _ h1 (by rw [e]; exact exMonoMom_pos) (fun hp => absurd hp (by decide))
  obtain ⟨cnd, coa, b1, b2, _, _, b5, _⟩ := hr 3 (by decide)
  rw [b2 (by decide), b5 rfl, e] at b1
  exact ⟨m', s', a1, J, kG, kO, mN, b1⟩

/-- With dimers the harmonic-mean model meets the hypotheses too. -/
example : ∃ m' s', momicSources (exModel .MOMIC 4 .PAH .LIN .LL .HM) (exSt exMonoMom false) = ok (m', s') ∧ 0 < m'.nucl.dimer.nDimer := by
  have e : (exSt exMonoMom false).sootVar = exMonoMom := exSt_sootVar _ fun x hx => (exMonoMom_pos x hx).le
  obtain ⟨h1, h2, h3⟩ := exMono_ready .PAH (by simp) (by simp) .LIN .LL .HM (by simp)
  obtain ⟨m', s', _, J, kG, kO, a1, _, _, _, _, M, Kf, _, _, mN, rfl, rfl, _, _, _, _, hr⟩ := C94_momic _ _ h1 (by rw [e]; exact exMonoMom_pos) (fun _ => exSt_pah _)
  obtain ⟨cnd, coa, _, _, b3, _⟩ := hr 1 (by decide)
  obtain ⟨mD, nD, rfl, rfl, _, hN, _⟩ := b3 rfl
  exact ⟨m', s', a1, hN⟩

end Soot
