import Verif.Props.FpLogn

/-!
# C113: the source terms of the lognormal model are accurate in floating point

`setState` followed by `sootModel_LOGN::setSourceTerms` (without PAH nucleation and HACA), both over doubles, compared with the sources in exact arithmetic.
As for MONO (C102) the bound is relative to the size of each process, not to their difference.
-/

namespace Soot

open Dbl Res
open scoped Classical

namespace FpK

theorem surf_acc {F : Fp} {ε : ℝ} (hF : F.Accurate ε) (hε : Sm ε) (h0 : F.rnd 0 = fin 0) {n : ℕ} {a b : ℤ} {K x : ℝ} {D X : Dbl} (hK : AccZ ε n a b K D)
    (hX : AccZ ε 2875 (-49) 42 x X) (hn : n ≤ 7000) (la : -240 ≤ a) (lb : b ≤ 200) :
    AccZ ε (n + 2910) (a - 53) (b + 42) (K * (Real.pi * (6 / (Real.pi * rhoSoot)) ^ twothird * x)) (lognSurfD F D X) ∧
    AccZ ε (n + 2910) (a - 53) (b + 42) (K * (Real.pi * (6 / (Real.pi * rhoSoot)) ^ twothird * x)) (neg (lognSurfD F (neg D) X)) := by
  have a7 : Acc ε 5 (-5) (-2) (6 / (Real.pi * rhoSoot)) _ := .div hF hε (lit_six hF hε) (acc_pirho hF hε) (by norm_num) (by norm_num) (by norm_num)
  have a8 : Acc ε 31 (-4) (-1) ((6 / (Real.pi * rhoSoot)) ^ twothird) _ := a7.pow hF hε (acc_twothird hF hε) 30 (-4) (-1) 5 (by norm_num) (by norm_num)
    (by norm_num [twothird]) (by norm_num) (by norm_num [twothird]) (by norm_num [twothird]) (by norm_num) (by norm_num)
  have e : K * (Real.pi * (6 / (Real.pi * rhoSoot)) ^ twothird * x) = K * Real.pi * (6 / (Real.pi * rhoSoot)) ^ twothird * x := by ring
  rw [e]
  constructor
  · have t := ((hK.mul hF hε h0 (lit_pi hF hε).z (by omega) (by omega) (by omega)).mul hF hε h0 a8.z (by omega) (by omega) (by omega)).mul hF hε h0 hX
      (by omega) (by omega) (by omega)
    exact t.mono hε (by omega) (by omega) (by omega)
  · have hK' : AccZ ε n a b K (neg (neg D)) := by
      obtain ⟨x, hx⟩ := hK.finite
      rw [hx] at hK ⊢
      simpa [neg] using hK
    have t := ((hK'.mulN hF hε h0 (lit_pi hF hε).z (by omega) (by omega) (by omega)).mulN hF hε h0 a8.z (by omega) (by omega) (by omega)).mulN hF hε h0 hX
      (by omega) (by omega) (by omega)
    exact t.mono hε (by omega) (by omega) (by omega)

end FpK

open FpK

/-! ## The assembly -/

set_option maxHeartbeats 2000000 in
/-- The assembly of the sources: what the three theorems below have in common.  The growth rate, the two surface moments and the coagulation terms are given. -/
theorem logn_core (F : Fp) (ε η : ℝ) (hF : F.Accurate ε) (hE : F.AccurateExp ε) (hS : F.Std ε η (10 ^ (300 : ℤ))) (h0 : F.rnd 0 = fin 0)
    (ε0 : 0 ≤ ε) (ε1 : ε ≤ 1 / 10 ^ 8) (η0 : 0 ≤ η) (η1 : η ≤ ε * 10 ^ (-250 : ℤ)) (s₀ : State) (a : SetArgs) (hs : (setState s₀ a).2 = Res.ok ())
    (hD : (setStateD F s₀.toD a.toD).2 = Res.ok ()) (hu : Usual a) (hT : 300 ≤ a.T) (c0 : 1 ≤ a.cMin) (c1 : a.cMin ≤ 10 ^ 6) (m : Model) (M0 M1 M2 : ℝ)
    (hm : LognReady m (setState s₀ a).1 M0 M1 M2)
    (hn : m.nucl.mech = .NONE ∨ (m.nucl.mech ∈ [.LL, .LIN, .MB, .FAIR] ∧ Contains a .C2H2) ∨ (m.nucl.mech = .LINA1 ∧ Contains a .C6H6))
    (hgr : ∃ kG gD, m.grow.rate m.ctx (setState s₀ a).1 = Res.ok kG ∧ growRateD F (setStateD F s₀.toD a.toD).1 m.grow.mech = Res.ok gD ∧
      AccZ ε 700 (-160) 50 kG gD ∧ (m.grow.mech = .NONE → kG = 0))
    (hx4 : AccZ ε 2875 (-49) 42 (lognM M0 M1 M2 (4 / 6)) (lognMrD F (sixthD F 4) (fin M0) (fin M1) (fin M2)))
    (hx10 : AccZ ε 2875 (-49) 42 (lognM M0 M1 M2 (10 / 6)) (lognMrD F (sixthD F 10) (fin M0) (fin M1) (fin M2)))
    (hco : ∃ C0 C2 X Y, lognCoagVal m.coag (setState s₀ a).1 (lognM M0 M1 M2) = (-C0, C2) ∧
      lognCoagD F (setStateD F s₀.toD a.toD).1 (fin m.coag.fmMult) m.coag.mech (fun k => lognMrD F (sixthD F k) (fin M0) (fin M1) (fin M2)) (fin M0) (fin M1) =
        Res.ok (X, Y) ∧ AccZ ε 5806 (-280) 283 C0 (neg X) ∧ AccZ ε 5806 (-280) 283 C2 Y)
    (N : ℕ) (N1 : N ≤ 7000) (ho : OxidUsual a (setState s₀ a).1 m.oxid.cls N) :
    ∃ (m' : Model) (s' : State) (J kG kO C0 C2 x1 x2 A1 A2 y0 y1 y2 : ℝ) (gn gg go Y : GasSp → ℝ),
      s' = (setState s₀ a).1 ∧ lognSources m (setState s₀ a).1 = Res.ok (m', s') ∧
      m.nucl.rate (lognIbeta m) s' = Res.ok (J, m.nucl, s') ∧ m.grow.rate m.ctx s' = Res.ok kG ∧ m.oxid.rate m.ctx s' = Res.ok kO ∧
      lognCoag m.coag s' M0 M1 M2 = Res.ok (-C0, C2) ∧ lognMr (4 / 6) M0 M1 M2 = Res.ok x1 ∧ lognMr (10 / 6) M0 M1 M2 = Res.ok x2 ∧
      A1 = Real.pi * (6 / (Real.pi * rhoSoot)) ^ (2 / 3 : ℝ) * x1 ∧ A2 = Real.pi * (6 / (Real.pi * rhoSoot)) ^ (2 / 3 : ℝ) * x2 ∧
      0 ≤ J ∧ 0 ≤ kG ∧ 0 ≤ kO ∧ 0 ≤ C0 ∧ 0 ≤ C2 ∧ 0 ≤ A1 ∧ 0 ≤ A2 ∧
      gasRates m.nucl.ratio (J * (a.cMin * gasMW .C / Na)) = Res.ok gn ∧ gasRates m.grow.ratio (kG * A1) = Res.ok gg ∧
      gasRates m.oxid.ratio (-(kO * A1)) = Res.ok go ∧
      m'.sources.soot = [J - C0, J * (a.cMin * gasMW .C / Na) + kG * A1 - kO * A1,
        J * (a.cMin * gasMW .C / Na) ^ 2 + 2 * (kG * A2) - 2 * (kO * A2) + C2] ∧ (∀ sp, m'.sources.gas sp = gn sp + gg sp + go sp) ∧
      lognSourcesD F (setStateD F s₀.toD a.toD).1 m = Res.ok (fin y0, fin y1, fin y2, fun sp => fin (Y sp)) ∧
      |y0 - (J - C0)| ≤ 300 * ε * J + 5820 * ε * C0 + 5 * η ∧
      |y1 - (J * (a.cMin * gasMW .C / Na) + kG * A1 - kO * A1)| ≤
        305 * ε * (J * (a.cMin * gasMW .C / Na)) + 3625 * ε * (kG * A1) + (N + 2930) * ε * (kO * A1) + 5 * η ∧
      |y2 - (J * (a.cMin * gasMW .C / Na) ^ 2 + 2 * (kG * A2) - 2 * (kO * A2) + C2)| ≤
        310 * ε * (J * (a.cMin * gasMW .C / Na) ^ 2) + 3625 * ε * (2 * (kG * A2)) + (N + 2930) * ε * (2 * (kO * A2)) + 5820 * ε * C2 + 5 * η ∧
      ∀ sp, |Y sp - m'.sources.gas sp| ≤ 317 * ε * |gn sp| + 3637 * ε * |gg sp| + (N + 2942) * ε * |go sp| + 39 * η := by
  have hε : Sm ε := ⟨ε0, ε1⟩
  have okk : FpMass.Ok ε η (10 ^ (300 : ℤ)) := by
    refine ⟨ε0, η0, ?_, ?_, ?_⟩
    · norm_num at ε1 ⊢; linarith
    · refine η1.trans (mul_le_of_le_one_right ε0 ?_)
      exact zpow_le_one_of_nonpos₀ (by norm_num) (by norm_num)
    · calc (1000 : ℝ) = 10 ^ (3 : ℤ) := by norm_num
        _ ≤ _ := zpow_le_zpow_right₀ (by norm_num) (by norm_num)
  have hS' : F.Std ε (ε * 10 ^ (-250 : ℤ)) (10 ^ (300 : ℤ)) := fun x hx => by
    obtain ⟨y, hy, e⟩ := hS x hx
    exact ⟨y, hy, by linarith⟩
  obtain ⟨hp, eg, es, ec, eT⟩ := pairR_of hF hε hs hD hu hT
  have big : ∀ {x : ℝ} {k : ℤ}, 0 ≤ x → x ≤ (10 : ℝ) ^ k → k ≤ 290 → |x| ≤ (10 : ℝ) ^ (300 : ℤ) / 2000 := by
    intro x k x0 h hk
    rw [abs_of_nonneg x0]
    refine h.trans ((zpow_le_zpow_right₀ (by norm_num) hk).trans ?_)
    rw [show (300 : ℤ) = 290 + 10 by norm_num, zpow_add₀ (by norm_num)]
    have : (0 : ℝ) < 10 ^ (290 : ℤ) := by positivity
    generalize (10 : ℝ) ^ (290 : ℤ) = q at *
    norm_num
    linarith
  generalize hst : (setState s₀ a).1 = s at *
  generalize hdt : (setStateD F s₀.toD a.toD).1 = D at *
  have wf := hm.wf
  have notPah : m.nucl.mech ≠ .PAH := by
    rcases hn with h | ⟨h, -⟩ | ⟨h, -⟩
    · rw [h]; simp
    · intro h'; rw [h'] at h; simp at h
    · rw [h]; simp
  obtain ⟨m', s', J, n', kG, kO, r1, r2, -, -, r5, r6, J0, G0, O0, -, -, r8, r9⟩ := logn_eval hm (fun h => absurd h notPah)
  have nnew := wf.nucl.new notPah
  have gnew := wf.grow
  have onew := wf.oxid
  have ph := hm.gas.acc.phys
  have c0' : (10 : ℝ) ^ (0 : ℤ) ≤ s.cMin := by rw [ec]; simpa using c0
  have c1' : s.cMin ≤ (10 : ℝ) ^ (6 : ℤ) := by rw [ec]; norm_num at c1 ⊢; exact c1
  have pr : ∀ {sp}, Contains a sp → Present s sp := fun h => by simpa only [Present, eg, Contains] using h
  -- nucleation
  obtain ⟨jD, hj, aj, nz, ns⟩ : ∃ jD, nuclRateD F D m.nucl.mech = Res.ok jD ∧ AccZ ε 294 (-130) 50 J jD ∧ (m.nucl.mech = .NONE → J = 0) ∧ n' = m.nucl ∧ s = s' := by
    rcases hn with h | h
    · refine ⟨fin 0, by rw [h]; simp [nuclRateD, h0], ?_⟩
      rw [nnew, h] at r2 ⊢
      simp only [Nucl.rate, Nucl.new, Res.ok.injEq, Prod.mk.injEq] at r2
      obtain ⟨q1, q2, q3⟩ := r2
      exact ⟨.inr ⟨q1.symm, rfl⟩, fun _ => q1.symm, q2.symm, q3⟩
    · obtain ⟨x, X, q1, q2, q3⟩ := nuc_acc hF hε hp hE (lognIbeta m) c0' c1' m.nucl.mech (h.imp (fun h => ⟨h.1, pr h.2⟩) (fun h => ⟨h.1, pr h.2⟩))
      rw [← nnew, r2, Res.ok.injEq, Prod.mk.injEq, Prod.mk.injEq] at q1
      obtain ⟨e1, e2, e3⟩ := q1
      refine ⟨X, q2, by rw [e1]; exact .inl q3, fun h' => ?_, e2, e3.symm⟩
      rw [h'] at h; simp at h
  obtain ⟨ns, ss⟩ := ns
  subst ss
  subst ns
  -- growth
  obtain ⟨kG', gD, hkG, hgD, ag, gz⟩ := hgr
  obtain rfl : kG = kG' := by rw [hkG, Res.ok.injEq] at r5; exact r5.symm
  -- oxidation
  obtain ⟨oD, hoD, ao, oz⟩ : ∃ oD, oxidRateD F D m.oxid.cls = Res.ok oD ∧ AccZ ε N (-210) 120 kO oD ∧ (m.oxid.cls = .NONE → kO = 0) := by
    rcases ho with h | ⟨h, hO, hH, hN⟩ | ⟨h, hO, hH, p, r, hpp, p0, rr0, rr1, hr, hN⟩
    · have z : kO = 0 := by
        rw [onew, h] at r6
        simp only [Oxid.rate, Oxid.new, Res.ok.injEq] at r6
        exact r6.symm
      exact ⟨fin 0, by rw [h]; simp [oxidRateD, h0], .inr ⟨z, rfl⟩, fun _ => z⟩
    · obtain ⟨x, X, q1, q2, q3⟩ := oxid_acc hF hε hp hE m.ctx (by simp [Model.ctx, hm.psd]) (by rw [hm.soot]; simp) m.oxid h (pr hO) (pr hH)
      rw [r6, Res.ok.injEq] at q1
      refine ⟨X, q2, by rw [q1]; exact .inl (q3.mono hε hN (by norm_num) (by norm_num)), fun h' => ?_⟩
      rw [h'] at h; simp at h
    · obtain ⟨x, X, q1, q2, q3⟩ := nsc_acc hF hε hE hS' hp m.ctx m.oxid h (pr hO) (pr hH) (pO := p * 101325) hpp
        (by norm_num at p0 ⊢; linarith) r rr0 rr1 (by rw [eT, mul_div_cancel_right₀ p (by norm_num : (101325 : ℝ) ≠ 0)]; exact hr)
      rw [r6, Res.ok.injEq] at q1
      refine ⟨X, q2, by rw [q1]; exact .inl (q3.mono hε hN (by norm_num) (by norm_num)), fun h' => ?_⟩
      rw [h'] at h; simp at h
  obtain ⟨C0, C2, X, Y, v1, v2, v3, v4⟩ := hco
  -- the processes
  have hMC : Acc ε 1 1 2 (gasMW .C) (F.rnd (gasMW .C)) := .lit hF hε (by norm_num [gasMW]) (by norm_num [gasMW]) (by norm_num) (by norm_num)
  have hNa : Acc ε 1 26 27 Na (F.rnd Na) := .lit hF hε (by norm_num [Na]) (by norm_num [Na]) (by norm_num) (by norm_num)
  have mMin : Acc ε 4 (-26) (-18) (s.cMin * gasMW .C / Na) (F.div (F.mul (fin s.cMin) (F.rnd (gasMW .C))) (F.rnd Na)) :=
    ((Acc.exact c0' c1').mul hF hε hMC (by norm_num) (by norm_num) (by norm_num)).div hF hε hNa (by norm_num) (by norm_num) (by norm_num)
  have aN1 := aj.mul hF hε h0 mMin.z (by norm_num) (by norm_num) (by norm_num)
  have aN2 := aN1.mul hF hε h0 mMin.z (by norm_num) (by norm_num) (by norm_num)
  have aG1 := (surf_acc hF hε h0 ag hx4 (by norm_num) (by norm_num) (by norm_num)).1
  have aG2 := (surf_acc hF hε h0 ag hx10 (by norm_num) (by norm_num) (by norm_num)).1.mul hF hε h0 (lit_two hF hε).z (by norm_num) (by norm_num) (by norm_num)
  have aX1 := (surf_acc hF hε h0 ao hx4 N1 (by norm_num) (by norm_num)).2
  have aX2 := (surf_acc hF hε h0 ao hx10 N1 (by norm_num) (by norm_num)).2.mulN hF hε h0 (lit_two hF hε).z (by omega) (by norm_num) (by norm_num)
  have area4 : Real.pi * (6 / (Real.pi * rhoSoot)) ^ twothird * lognM M0 M1 M2 (4 / 6) = lognArea M0 M1 M2 (4 / 6) := rfl
  have area10 : Real.pi * (6 / (Real.pi * rhoSoot)) ^ twothird * lognM M0 M1 M2 (10 / 6) = lognArea M0 M1 M2 (10 / 6) := rfl
  rw [area4] at aG1 aX1
  rw [area10] at aG2 aX2
  have N7 : (N : ℝ) ≤ 7000 := by exact_mod_cast N1
  obtain ⟨yj, hyj, eyj, -, bj⟩ := aj.final (N := 295) hε (by norm_num) (by norm_num)
  obtain ⟨yn, hyn, eyn, n0, bn⟩ := aN1.final (N := 300) hε (by norm_num) (by norm_num)
  obtain ⟨yn2, hyn2, eyn2, n20, bn2⟩ := aN2.final (N := 305) hε (by norm_num) (by norm_num)
  obtain ⟨yg, hyg, eyg, g0, bg⟩ := aG1.final (N := 3620) hε (by norm_num) (by norm_num)
  obtain ⟨yg2, hyg2, eyg2, g20, bg2⟩ := aG2.final (N := 3620) hε (by norm_num) (by norm_num)
  obtain ⟨yx, hyx, eyx, x0, bx⟩ := aX1.final (N := N + 2925) hε (by omega) (by push_cast; linarith)
  obtain ⟨yx2, hyx2, eyx2, x20, bx2⟩ := aX2.final (N := N + 2925) hε (by omega) (by push_cast; linarith)
  obtain ⟨yc, hyc, eyc, cc0, bc⟩ := v3.final (N := 5815) hε (by norm_num) (by norm_num)
  obtain ⟨yc2, hyc2, eyc2, cc20, bc2⟩ := v4.final (N := 5815) hε (by norm_num) (by norm_num)
  have fin_neg : ∀ {d : Dbl} {y : ℝ}, neg d = fin y → d = fin (-y) := by
    intro d y h
    rcases d with d | _ | _ | _ <;> simp only [neg, reduceCtorEq, fin.injEq] at h
    rw [← h, neg_neg]
  have pos_rel : ∀ {x y δ : ℝ}, 0 ≤ x → |y - x| ≤ δ * x → |y - x| ≤ δ * |x| := fun h e => by rwa [abs_of_nonneg h]
  have neg_rel : ∀ {x y δ : ℝ}, 0 ≤ x → |y - x| ≤ δ * x → |-y - -x| ≤ δ * |-x| := fun {x y δ} h e => by
    rw [abs_neg, abs_of_nonneg h, show -y - -x = -(y - x) by ring, abs_neg]; exact e
  have zero_rel : |(0 : ℝ) - 0| ≤ 0 * |(0 : ℝ)| := by simp
  have small : ∀ {k : ℝ}, k ≤ 10000 → k * ε ≤ 1 / 100 := fun hk => by
    have := mul_le_mul_of_nonneg_right hk ε0
    norm_num at ε1 ⊢; linarith
  have z100 : (0 : ℝ) ≤ 1 / 100 := by norm_num
  have zbig : |(0 : ℝ)| ≤ (10 : ℝ) ^ (300 : ℤ) / 2000 := by rw [abs_zero]; positivity
  have nbig : ∀ {x B : ℝ}, |x| ≤ B → |-x| ≤ B := fun h => by rwa [abs_neg]
  have b0 := big J0 bj (by norm_num)
  have b1 := big n0 bn (by norm_num)
  have b2 := big n20 bn2 (by norm_num)
  have b3 := big g0 bg (by norm_num)
  have b4 := big g20 bg2 (by norm_num)
  have b5 := big x0 bx (by norm_num)
  have b6 := big x20 bx2 (by norm_num)
  have b7 := big cc0 bc (by norm_num)
  have b8 := big cc20 bc2 (by norm_num)
  -- the sums
  obtain ⟨y0, hy0, ey0⟩ := sum5_rel hS okk hε (pos_rel J0 eyj) zero_rel zero_rel zero_rel (neg_rel cc0 eyc) (small (by norm_num)) z100 z100 z100
    (small (by norm_num)) b0 zbig zbig zbig (nbig b7)
  obtain ⟨y1, hy1, ey1⟩ := sum5_rel hS okk hε (pos_rel n0 eyn) (pos_rel g0 eyg) zero_rel (neg_rel x0 eyx) zero_rel (small (by norm_num)) (small (by norm_num)) z100
    (small (by linarith)) z100 b1 b3 zbig (nbig b5) zbig
  obtain ⟨y2, hy2, ey2⟩ := sum5_rel hS okk hε (pos_rel n20 eyn2) (pos_rel g20 eyg2) zero_rel (neg_rel x20 eyx2) (pos_rel cc20 eyc2) (small (by norm_num))
    (small (by norm_num)) z100 (small (by linarith)) (small (by norm_num)) b2 b4 zbig (nbig b6) b8
  obtain ⟨gn, gg, go, t1, t2, t3, t4⟩ := Model.finish_inv r8
  have sN : FpMass.Stoich m.nucl.ratio := by rw [nnew]; exact FpMass.nucl_stoich notPah
  have sG : FpMass.Stoich m.grow.ratio := by rw [gnew]; exact FpMass.grow_stoich _
  have sX : FpMass.Stoich m.oxid.ratio := by rw [onew]; exact FpMass.oxid_stoich _
  have gs := fun sp => gas_rel hS okk hε (pos_rel n0 eyn) (pos_rel g0 eyg) (neg_rel x0 eyx) (small (by norm_num)) (small (by norm_num)) (small (by linarith))
    b1 b3 (nbig b5) sN sG sX sp
  choose Y' hY eY using gs
  have gasE : ∀ sp, m'.sources.gas sp = gn sp + gg sp + go sp := fun sp => by rw [t4]
  simp only [abs_neg, abs_of_nonneg J0, abs_of_nonneg n0, abs_of_nonneg n20, abs_of_nonneg g0, abs_of_nonneg g20, abs_of_nonneg x0, abs_of_nonneg x20,
    abs_of_nonneg cc0, abs_of_nonneg cc20, abs_zero, mul_zero, add_zero] at ey0 ey1 ey2
  have i0 : idx D.sootVar 0 = Res.ok (fin M0) := by rw [hp.soot, hm.soot]; rfl
  have i1 : idx D.sootVar 1 = Res.ok (fin M1) := by rw [hp.soot, hm.soot]; rfl
  have i2 : idx D.sootVar 2 = Res.ok (fin M2) := by rw [hp.soot, hm.soot]; rfl
  have vanish : ∀ {x y δ : ℝ}, |y - x| ≤ δ * x → x = 0 → fin 0 = fin y := fun {x y δ} h e => by
    rw [e, mul_zero, sub_zero, abs_nonpos_iff] at h
    rw [h]
  have cN : (if m.nucl.mech ≠ .NONE then jD else fin 0) = fin yj := by
    split_ifs with h
    · exact hyj
    · exact vanish eyj (nz (not_not.1 h))
  have cN1 : (if m.nucl.mech ≠ .NONE then F.mul jD (F.div (F.mul D.cMin (F.rnd (gasMW .C))) (F.rnd Na)) else fin 0) = fin yn := by
    rw [hp.cMin]
    split_ifs with h
    · exact hyn
    · exact vanish eyn (by rw [nz (not_not.1 h), zero_mul])
  have cN2 : (if m.nucl.mech ≠ .NONE then F.mul (F.mul jD (F.div (F.mul D.cMin (F.rnd (gasMW .C))) (F.rnd Na)))
      (F.div (F.mul D.cMin (F.rnd (gasMW .C))) (F.rnd Na)) else fin 0) = fin yn2 := by
    rw [hp.cMin]
    split_ifs with h
    · exact hyn2
    · exact vanish eyn2 (by rw [nz (not_not.1 h), zero_mul, zero_mul])
  have cG1 : (if m.grow.mech ≠ .NONE then lognSurfD F gD (lognMrD F (sixthD F 4) (fin M0) (fin M1) (fin M2)) else fin 0) = fin yg := by
    split_ifs with h
    · exact hyg
    · exact vanish eyg (by rw [gz (not_not.1 h), zero_mul])
  have cG2 : (if m.grow.mech ≠ .NONE then F.mul (lognSurfD F gD (lognMrD F (sixthD F 10) (fin M0) (fin M1) (fin M2))) (F.rnd 2) else fin 0) = fin yg2 := by
    split_ifs with h
    · exact hyg2
    · exact vanish eyg2 (by rw [gz (not_not.1 h), zero_mul, zero_mul])
  have hcl : ¬ m.oxid.mechType ≠ .NONE → kO = 0 := fun h => oz (by
    rw [not_not, onew] at h
    generalize m.oxid.cls = c at h ⊢
    cases c <;> simp [Oxid.new, oxidMechType] at h ⊢)
  have cX1 : (if m.oxid.mechType ≠ .NONE then lognSurfD F (neg oD) (lognMrD F (sixthD F 4) (fin M0) (fin M1) (fin M2)) else fin 0) = fin (-yx) := by
    split_ifs with h
    · exact fin_neg hyx
    · have := vanish eyx (by rw [hcl h, zero_mul])
      rw [fin.injEq] at this
      rw [← this, neg_zero]
  have cX2 : (if m.oxid.mechType ≠ .NONE then F.mul (lognSurfD F (neg oD) (lognMrD F (sixthD F 10) (fin M0) (fin M1) (fin M2))) (F.rnd 2) else fin 0) = fin (-yx2) := by
    split_ifs with h
    · exact fin_neg hyx2
    · have := vanish eyx2 (by rw [hcl h, zero_mul, zero_mul])
      rw [fin.injEq] at this
      rw [← this, neg_zero]
  have coagE : lognCoag m.coag s M0 M1 M2 = Res.ok (-C0, C2) := by
    rw [lognCoag_ok ph hm.fm hm.fuchs hm.m0 hm.m1 hm.m2, v1]
  have mr : ∀ {r : ℝ}, r ≠ 0 → r ≠ 1 → lognMr r M0 M1 M2 = Res.ok (lognM M0 M1 M2 r) := fun a b => by
    rw [lognMr_ok hm.m1 hm.m2, lognM_frac _ _ _ a b]
  have area_nn : ∀ r, 0 ≤ lognArea M0 M1 M2 r := fun r => by
    have := lognM_nonneg hm.m0 hm.m1 hm.m2 r
    have : 0 < rhoSoot := by norm_num [rhoSoot]
    unfold lognArea; positivity
  rw [ec] at t1 r9 ey1 ey2 n0 n20
  simp only [ec] at eY
  refine ⟨m', s, J, kG, kO, C0, C2, lognM M0 M1 M2 (4 / 6), lognM M0 M1 M2 (10 / 6), lognArea M0 M1 M2 (4 / 6), lognArea M0 M1 M2 (10 / 6), y0, y1, y2,
    gn, gg, go, Y', rfl, r1, r2, r5, r6, coagE, mr (by norm_num) (by norm_num), mr (by norm_num) (by norm_num), rfl, rfl, J0, G0, O0, cc0, cc20, area_nn _, area_nn _,
    t1, t2, t3, ?_, gasE, ?_, ?_, ?_, ?_, ?_⟩
  · rw [r9, if_neg notPah, if_neg notPah, v1]
    simp only [List.cons.injEq, and_true]
    refine ⟨?_, ?_, ?_⟩ <;> ring
  · have hmass : sootMassLognD F (fin yn) (fin 0) (fin yg) (fin (-yx)) = fin y1 := hy1
    have hz : ∀ d : Dbl, F.sub d (fin 0) = F.add d (fin 0) := fun d => by simp [Fp.sub, neg]
    have hyc' : X = fin (-yc) := fin_neg hyc
    simp only [lognSourcesD, i0, i1, i2, ok_bind, hj, hgD, hoD, cN, cN1, cN2, cG1, cG2, cX1, cX2, v2, hyc', hyc2, hz, hy0, hmass, hy2]
    congr 4
    funext sp
    exact hY sp
  · rw [show J + -C0 = J - C0 by ring] at ey0
    refine ey0.trans (le_of_eq ?_)
    ring
  · have e : J * (a.cMin * gasMW .C / Na) + kG * lognArea M0 M1 M2 (4 / 6) + -(kO * lognArea M0 M1 M2 (4 / 6)) =
      J * (a.cMin * gasMW .C / Na) + kG * lognArea M0 M1 M2 (4 / 6) - kO * lognArea M0 M1 M2 (4 / 6) := by ring
    rw [e] at ey1
    refine ey1.trans (le_of_eq ?_)
    ring
  · have e : J * (a.cMin * gasMW .C / Na) * (a.cMin * gasMW .C / Na) + kG * lognArea M0 M1 M2 (10 / 6) * 2 + -(kO * lognArea M0 M1 M2 (10 / 6) * 2) + C2 =
      J * (a.cMin * gasMW .C / Na) ^ 2 + 2 * (kG * lognArea M0 M1 M2 (10 / 6)) - 2 * (kO * lognArea M0 M1 M2 (10 / 6)) + C2 := by ring
    rw [e] at ey2
    refine ey2.trans (le_of_eq ?_)
    ring
  · intro sp
    have q := eY sp
    rw [gasE, gasRates_term t1, gasRates_term t2, gasRates_term t3]
    refine q.trans (le_of_eq ?_)
    ring

/-! ## C113 -/

/-- **C113.** For every arithmetic with relative error `ε` and underflow error `η` in which the integers up to 10 and one half are exact: after a call of
`setState` with arguments of a usual size at 300 K or more, the sources that LOGN computes (without PAH nucleation and HACA) are finite and differ from the
exact ones by at most about `310 ε` of the nucleation, `3640 ε` of the growth, `(N + 2950) ε` of the oxidation, `5820 ε` of the coagulation, and `39 η`.
`J`, `kG`, `kO`, `C0`, `C2` are the exact rates, `A1` and `A2` the exact surface moments. -/
theorem C113_logn_accuracy (F : Fp) (ε η : ℝ) (hF : F.Accurate ε) (hE : F.AccurateExp ε) (hS : F.Std ε η (10 ^ (300 : ℤ))) (hi : SmallExact F)
    (ε0 : 0 ≤ ε) (ε1 : ε ≤ 1 / 10 ^ 8) (η0 : 0 ≤ η) (η1 : η ≤ ε * 10 ^ (-250 : ℤ)) (s₀ : State) (a : SetArgs) (hs : (setState s₀ a).2 = Res.ok ())
    (hD : (setStateD F s₀.toD a.toD).2 = Res.ok ()) (hu : Usual a) (hT : 300 ≤ a.T) (c0 : 1 ≤ a.cMin) (c1 : a.cMin ≤ 10 ^ 6) (m : Model) (M0 M1 M2 : ℝ)
    (hm : LognReady m (setState s₀ a).1 M0 M1 M2) (hM : UsualLogn M0 M1 M2) (f0 : 1 / 10 ^ 6 ≤ m.coag.fmMult) (f1 : m.coag.fmMult ≤ 10 ^ 6)
    (hn : m.nucl.mech = .NONE ∨ (m.nucl.mech ∈ [.LL, .LIN, .MB, .FAIR] ∧ Contains a .C2H2) ∨ (m.nucl.mech = .LINA1 ∧ Contains a .C6H6))
    (hg : m.grow.mech = .NONE ∨ (m.grow.mech ∈ [.LL, .LIN, .MB, .FAIR] ∧ Contains a .C2H2))
    (N : ℕ) (N1 : N ≤ 7000) (ho : OxidUsual a (setState s₀ a).1 m.oxid.cls N) :
    ∃ (m' : Model) (s' : State) (J kG kO C0 C2 x1 x2 A1 A2 y0 y1 y2 : ℝ) (gn gg go Y : GasSp → ℝ),
      lognSources m (setState s₀ a).1 = Res.ok (m', s') ∧
      m.nucl.rate (lognIbeta m) s' = Res.ok (J, m.nucl, s') ∧ m.grow.rate m.ctx s' = Res.ok kG ∧ m.oxid.rate m.ctx s' = Res.ok kO ∧
      lognCoag m.coag s' M0 M1 M2 = Res.ok (-C0, C2) ∧ lognMr (4 / 6) M0 M1 M2 = Res.ok x1 ∧ lognMr (10 / 6) M0 M1 M2 = Res.ok x2 ∧
      A1 = Real.pi * (6 / (Real.pi * rhoSoot)) ^ (2 / 3 : ℝ) * x1 ∧ A2 = Real.pi * (6 / (Real.pi * rhoSoot)) ^ (2 / 3 : ℝ) * x2 ∧
      0 ≤ J ∧ 0 ≤ kG ∧ 0 ≤ kO ∧ 0 ≤ C0 ∧ 0 ≤ C2 ∧ 0 ≤ A1 ∧ 0 ≤ A2 ∧
      gasRates m.nucl.ratio (J * (a.cMin * gasMW .C / Na)) = Res.ok gn ∧ gasRates m.grow.ratio (kG * A1) = Res.ok gg ∧
      gasRates m.oxid.ratio (-(kO * A1)) = Res.ok go ∧
      m'.sources.soot = [J - C0, J * (a.cMin * gasMW .C / Na) + kG * A1 - kO * A1,
        J * (a.cMin * gasMW .C / Na) ^ 2 + 2 * (kG * A2) - 2 * (kO * A2) + C2] ∧ (∀ sp, m'.sources.gas sp = gn sp + gg sp + go sp) ∧
      lognSourcesD F (setStateD F s₀.toD a.toD).1 m = Res.ok (fin y0, fin y1, fin y2, fun sp => fin (Y sp)) ∧
      |y0 - (J - C0)| ≤ 300 * ε * J + 5820 * ε * C0 + 5 * η ∧
      |y1 - (J * (a.cMin * gasMW .C / Na) + kG * A1 - kO * A1)| ≤
        305 * ε * (J * (a.cMin * gasMW .C / Na)) + 3625 * ε * (kG * A1) + (N + 2930) * ε * (kO * A1) + 5 * η ∧
      |y2 - (J * (a.cMin * gasMW .C / Na) ^ 2 + 2 * (kG * A2) - 2 * (kO * A2) + C2)| ≤
        310 * ε * (J * (a.cMin * gasMW .C / Na) ^ 2) + 3625 * ε * (2 * (kG * A2)) + (N + 2930) * ε * (2 * (kO * A2)) + 5820 * ε * C2 + 5 * η ∧
      ∀ sp, |Y sp - m'.sources.gas sp| ≤ 317 * ε * |gn sp| + 3637 * ε * |gg sp| + (N + 2942) * ε * |go sp| + 39 * η := by
  have hε : Sm ε := ⟨ε0, ε1⟩
  have h0 : F.rnd 0 = fin 0 := by exact_mod_cast hi.int 0 (by norm_num)
  obtain ⟨hp, eg, -⟩ := pairR_of hF hε hs hD hu hT
  have hMr : ∀ k : ℤ, -4 ≤ k → k ≤ 10 → k ≠ 0 → k ≠ 6 → Acc ε 2875 (-49) 42 (lognM M0 M1 M2 ((k : ℝ) / 6)) (lognMrD F (sixthD F k) (fin M0) (fin M1) (fin M2)) :=
    fun k h1 h2 h3 h4 => mr_acc hM hF hε hi h1 h2 h3 h4
  have x4 := hMr 4 (by norm_num) (by norm_num) (by norm_num) (by norm_num)
  have x10 := hMr 10 (by norm_num) (by norm_num) (by norm_num) (by norm_num)
  rw [show (((4 : ℤ) : ℝ) / 6) = 4 / 6 by norm_num] at x4
  rw [show (((10 : ℤ) : ℝ) / 6) = 10 / 6 by norm_num] at x10
  have hA : ∃ kG gD, m.grow.rate m.ctx (setState s₀ a).1 = Res.ok kG ∧ growRateD F (setStateD F s₀.toD a.toD).1 m.grow.mech = Res.ok gD ∧
      AccZ ε 700 (-160) 50 kG gD ∧ (m.grow.mech = .NONE → kG = 0) := by
    have gnew := hm.wf.grow
    rcases hg with h | ⟨h, hC⟩
    · refine ⟨0, fin 0, ?_, by rw [h]; simp [growRateD, h0], .inr ⟨rfl, rfl⟩, fun _ => rfl⟩
      rw [gnew, h]; rfl
    · obtain ⟨x, X, q1, q2, q3⟩ := grow_acc hF hε hp hE m.ctx (by simp [Model.ctx, hm.psd]) ⟨[M2], hm.soot⟩ (by simpa using hM.n0) (hM.n1.trans (by norm_num))
        ((zpow_le_zpow_right₀ (by norm_num) (by norm_num)).trans hM.lo1) (by have := hM.m2; norm_num at this ⊢; linarith) m.grow.mech h
        (by simpa only [Present, eg, Contains] using hC)
      refine ⟨x, X, by rw [gnew]; exact q1, q2, .inl q3, fun h' => ?_⟩
      rw [h'] at h; simp at h
  have hB := lcoag_acc hF hε hp.toPair hM (M := fun k => lognMrD F (sixthD F k) (fin M0) (fin M1) (fin M2)) hMr
      (c := m.coag.fmMult) (by norm_num at f0 ⊢; linarith) (by norm_num at f1 ⊢; linarith) m.coag.mech hm.kernel
  obtain ⟨m', s', J, kG, kO, C0, C2, x1, x2, A1, A2, y0, y1, y2, gn, gg, go, Y, -, r⟩ :=
    logn_core F ε η hF hE hS h0 ε0 ε1 η0 η1 s₀ a hs hD hu hT c0 c1 m M0 M1 M2 hm hn hA x4.z x10.z hB N N1 ho
  exact ⟨m', s', J, kG, kO, C0, C2, x1, x2, A1, A2, y0, y1, y2, gn, gg, go, Y, r⟩

/-- **C113, no soot.** Before there is any soot (the three moments are exactly zero) only nucleation is left, in exact and in rounded arithmetic: the guards of
`Mr` keep the negative powers of zero out. -/
theorem C113_no_soot (F : Fp) (ε η : ℝ) (hF : F.Accurate ε) (hE : F.AccurateExp ε) (hS : F.Std ε η (10 ^ (300 : ℤ))) (h0 : F.rnd 0 = fin 0)
    (ε0 : 0 ≤ ε) (ε1 : ε ≤ 1 / 10 ^ 8) (η0 : 0 ≤ η) (η1 : η ≤ ε * 10 ^ (-250 : ℤ)) (s₀ : State) (a : SetArgs) (hs : (setState s₀ a).2 = Res.ok ())
    (hD : (setStateD F s₀.toD a.toD).2 = Res.ok ()) (hu : Usual a) (hT : 300 ≤ a.T) (c0 : 1 ≤ a.cMin) (c1 : a.cMin ≤ 10 ^ 6) (m : Model)
    (hm : LognReady m (setState s₀ a).1 0 0 0) (f0 : 1 / 10 ^ 6 ≤ m.coag.fmMult) (f1 : m.coag.fmMult ≤ 10 ^ 6)
    (hn : m.nucl.mech = .NONE ∨ (m.nucl.mech ∈ [.LL, .LIN, .MB, .FAIR] ∧ Contains a .C2H2) ∨ (m.nucl.mech = .LINA1 ∧ Contains a .C6H6))
    (hg : m.grow.mech ∈ [.NONE, .LL, .MB, .FAIR]) (N : ℕ) (N1 : N ≤ 7000) (ho : OxidUsual a (setState s₀ a).1 m.oxid.cls N) :
    ∃ (m' : Model) (s' : State) (J y0 y1 y2 : ℝ) (gn Y : GasSp → ℝ),
      lognSources m (setState s₀ a).1 = Res.ok (m', s') ∧ m.nucl.rate (lognIbeta m) s' = Res.ok (J, m.nucl, s') ∧ 0 ≤ J ∧
      gasRates m.nucl.ratio (J * (a.cMin * gasMW .C / Na)) = Res.ok gn ∧
      m'.sources.soot = [J, J * (a.cMin * gasMW .C / Na), J * (a.cMin * gasMW .C / Na) ^ 2] ∧ (∀ sp, m'.sources.gas sp = gn sp) ∧
      lognSourcesD F (setStateD F s₀.toD a.toD).1 m = Res.ok (fin y0, fin y1, fin y2, fun sp => fin (Y sp)) ∧
      |y0 - J| ≤ 300 * ε * J + 5 * η ∧
      |y1 - J * (a.cMin * gasMW .C / Na)| ≤ 305 * ε * (J * (a.cMin * gasMW .C / Na)) + 5 * η ∧
      |y2 - J * (a.cMin * gasMW .C / Na) ^ 2| ≤ 310 * ε * (J * (a.cMin * gasMW .C / Na) ^ 2) + 5 * η ∧
      ∀ sp, |Y sp - m'.sources.gas sp| ≤ 317 * ε * |gn sp| + 39 * η := by
  have hε : Sm ε := ⟨ε0, ε1⟩
  obtain ⟨hp, eg, es, -⟩ := pairR_of hF hε hs hD hu hT
  have mr0 : ∀ r, lognMrD F r (fin 0) (fin 0) (fin 0) = fin 0 := fun r => by simp [lognMrD, Dbl.le]
  have m0 : ∀ r, lognM 0 0 0 r = 0 := fun r => by
    unfold lognM
    split_ifs
    · rfl
    · rfl
    · exact lognMrVal_zero le_rfl _ _ _
  have x0 : ∀ r k, AccZ ε 2875 (-49) 42 (lognM 0 0 0 r) (lognMrD F (sixthD F k) (fin 0) (fin 0) (fin 0)) := fun r k => .inr ⟨m0 r, mr0 _⟩
  have vz : lognCoagVal m.coag (setState s₀ a).1 (lognM 0 0 0) = (0, 0) := by
    rcases hm.kernel with h | h | h <;> simp [lognCoagVal, h, lognCoa0Fm, lognCoa2Fm, lognCoa0C, lognCoa2C, m0]
  have D0 : lognCoagD F (setStateD F s₀.toD a.toD).1 (fin m.coag.fmMult) m.coag.mech (fun k => lognMrD F (sixthD F k) (fin 0) (fin 0) (fin 0)) (fin 0) (fin 0) =
      Res.ok (fin 0, fin 0) := by
    have fin_of : ∀ {n : ℕ} {a b : ℤ} {x : ℝ} {d : Dbl}, Acc ε n a b x d → ∃ y, d = fin y := fun h => h.z.finite
    have hb : Acc ε 1 (-1) 0 bCoag (F.rnd bCoag) := .lit hF hε (by norm_num [bCoag]) (by norm_num [bCoag]) (by norm_num) (by norm_num)
    have kf := kfm_acc hF hε hp.toPair (c := m.coag.fmMult) (by norm_num at f0 ⊢; linarith) (by norm_num at f1 ⊢; linarith) m.coag.mech
    have kk : Acc ε 42 (-22) (-2) (Coag.kfmVal ⟨m.coag.mech, m.coag.fmMult⟩ (setState s₀ a).1)
        (neg (neg (kfmD F (setStateD F s₀.toD a.toD).1 (fin m.coag.fmMult)))) := by
      obtain ⟨x, hx, -⟩ := kf.val
      rw [hx] at kf ⊢
      simpa [neg] using kf
    have kb' : Acc ε 44 (-23) (-2) _ _ := kk.mulN hF hε hb (by norm_num) (by norm_num) (by norm_num)
    obtain ⟨k2, e2⟩ := fin_of (kc_acc hF hε hp.toPair)
    obtain ⟨k3, e3⟩ := fin_of (kcp_acc hF hε hp.toPair)
    obtain ⟨k4, e4⟩ := fin_of (lit_two hF hε)
    obtain ⟨k7, e7⟩ := fin_of (((lit_two hF hε).mul hF hε kf (by norm_num) (by norm_num) (by norm_num)).mul hF hε hb (by norm_num) (by norm_num) (by norm_num))
    obtain ⟨k8, e8⟩ := fin_of ((lit_two hF hε).mul hF hε (kc_acc hF hε hp.toPair) (by norm_num) (by norm_num) (by norm_num))
    obtain ⟨k9, e9⟩ := fin_of kb'
    have mul0 : ∀ x : ℝ, F.mul (fin x) (fin 0) = fin 0 := fun x => by show F.rnd (x * 0) = _; rw [mul_zero, h0]
    have add0 : F.add (fin 0) (fin 0) = fin 0 := by show F.rnd (0 + 0) = _; rw [add_zero, h0]
    have hm0 : lognHmD F (fin 0) (fin 0) = fin 0 := by simp [lognHmD, Dbl.lt]
    have n9 : F.mul (neg (kfmD F (setStateD F s₀.toD a.toD).1 (fin m.coag.fmMult))) (F.rnd bCoag) = fin (-k9) := by
      generalize F.mul (neg (kfmD F (setStateD F s₀.toD a.toD).1 (fin m.coag.fmMult))) (F.rnd bCoag) = d at e9 ⊢
      rcases d with d | _ | _ | _ <;> simp only [neg, reduceCtorEq, fin.injEq] at e9
      rw [← e9, neg_neg]
    have c1 : lognC0fmD F (setStateD F s₀.toD a.toD).1 (fin m.coag.fmMult) (fun _ => fin 0) (fin 0) = fin 0 := by
      simp only [lognC0fmD, n9, e4, mul0, add0]
    have c2 : lognC2fmD F (setStateD F s₀.toD a.toD).1 (fin m.coag.fmMult) (fun _ => fin 0) (fin 0) = fin 0 := by
      rw [lognC2fmD, e7, e4, mul0, mul0, mul0, add0, add0, mul0]
    have c3 : lognC0cD F (setStateD F s₀.toD a.toD).1 (fun _ => fin 0) (fin 0) = fin 0 := by
      simp only [lognC0cD, e2, e3, neg, mul0, add0]
    have c4 : lognC2cD F (setStateD F s₀.toD a.toD).1 (fun _ => fin 0) (fin 0) = fin 0 := by
      rw [lognC2cD, e8, e3, mul0, add0, mul0, add0, mul0]
    simp only [mr0]
    rcases hm.kernel with h | h | h <;> simp only [h, lognCoagD, c1, c2, c3, c4, hm0]
  have hv : ∃ v0 v1 t, a.sootVar = v0 :: v1 :: t ∧ v0 ≤ 0 := by
    rw [hm.soot] at es
    match hq : a.sootVar with
    | [] => rw [hq] at es; simp at es
    | [x] => rw [hq] at es; simp at es
    | x :: y :: t =>
      rw [hq] at es
      simp only [List.map_cons, List.cons.injEq] at es
      exact ⟨x, y, t, rfl, by rw [eq_comm, max_eq_right_iff] at es; exact es.1⟩
  obtain ⟨v0, v1, t, hv⟩ := hv
  have hA : ∃ kG gD, m.grow.rate m.ctx (setState s₀ a).1 = Res.ok kG ∧ growRateD F (setStateD F s₀.toD a.toD).1 m.grow.mech = Res.ok gD ∧
      AccZ ε 700 (-160) 50 kG gD ∧ (m.grow.mech = .NONE → kG = 0) := by
    obtain ⟨q1, q2⟩ := C101_no_particles F ε hF h0 ε0 ε1 s₀ a hs hD hu hT m.ctx (by simp [Model.ctx, hm.psd]) _ _ _ hv.1 hv.2 m.grow.mech hg
    exact ⟨0, fin 0, by rw [hm.wf.grow]; exact q1, q2, .inr ⟨rfl, rfl⟩, fun _ => rfl⟩
  obtain ⟨m', s', J, kG, kO, C0, C2, x1, x2, A1, A2, y0, y1, y2, gn, gg, go, Y, rfl, r1, r2, r3, r4, r5, r6, r7, r8, r9, J0, G0, O0, K0, K2, A10, A20, r10, r11, r12,
      r13, r14, r15, q0, q1, q2, q3⟩ :=
    logn_core F ε η hF hE hS h0 ε0 ε1 η0 η1 s₀ a hs hD hu hT c0 c1 m 0 0 0 hm hn hA (x0 _ _) (x0 _ _)
      ⟨0, 0, fin 0, fin 0, by rw [vz, neg_zero], D0, .inr ⟨rfl, by simp [neg]⟩, .inr ⟨rfl, rfl⟩⟩ N N1 ho
  have z : ∀ {r x : ℝ}, r ≠ 0 → r ≠ 1 → lognMr r 0 0 0 = Res.ok x → x = 0 := fun {r x} a b h => by
    rw [lognMr_ok le_rfl le_rfl, Res.ok.injEq] at h
    rw [← h]; exact lognMrVal_zero le_rfl _ _ _
  have z1 := z (by norm_num) (by norm_num) r6
  have z2 := z (by norm_num) (by norm_num) r7
  rw [z1, mul_zero] at r8
  rw [z2, mul_zero] at r9
  have zc : C0 = 0 ∧ C2 = 0 := by
    rw [lognCoag_ok hm.gas.acc.phys hm.fm hm.fuchs le_rfl le_rfl le_rfl, vz, Res.ok.injEq, Prod.mk.injEq] at r5
    exact ⟨by linarith [r5.1], r5.2.symm⟩
  obtain ⟨rfl, rfl⟩ := zc
  subst r8 r9
  have gz : ∀ sp, gg sp = 0 := fun sp => by rw [gasRates_term r11]; simp [FpMass.term]
  have oz : ∀ sp, go sp = 0 := fun sp => by rw [gasRates_term r12]; simp [FpMass.term]
  simp only [mul_zero, add_zero, sub_zero, gz, oz, abs_zero] at *
  exact ⟨m', _, J, y0, y1, y2, gn, Y, r1, r2, J0, r10, r13, r14, r15, q0, q1, q2, q3⟩

/-! ## binary64 -/

/-- The assumption on small numbers holds in binary64. -/
theorem C113_binary64 : SmallExact binary64 := by
  have ex : ∀ x : ℝ, 1 / 2 ≤ x → x ≤ 10 → (∃ k : ℤ, x = k * 2 ^ (-1 : ℤ)) → binary64.rnd x = fin x := by
    rintro x h1 h2 ⟨k, hk⟩
    have xp : 0 < x := by linarith
    have ax : |x| = x := abs_of_pos xp
    have l1 : -1 ≤ Int.log 2 |x| := by
      rw [ax, ← Int.zpow_le_iff_le_log (by norm_num) xp]; norm_num; linarith
    have l2 : Int.log 2 |x| < 4 := by
      rw [ax, ← Int.lt_zpow_iff_log_lt (by norm_num) xp]; norm_num; linarith
    have hu : ulp x = 2 ^ (Int.log 2 |x| - 52) := by
      unfold ulp; rw [max_eq_left (by omega)]
    have hq : x / ulp x = ((k * 2 ^ (51 - Int.log 2 |x|).toNat : ℤ) : ℝ) := by
      rw [hu, div_eq_iff (by positivity)]
      push_cast
      rw [← zpow_natCast, Int.toNat_of_nonneg (by omega), mul_assoc, ← zpow_add₀ (by norm_num)]
      conv_lhs => rw [hk]
      congr 2
      omega
    have hr : (round (x / ulp x) : ℝ) * ulp x = x := by
      rw [hq, round_intCast, ← hq]
      have : ulp x ≠ 0 := by rw [hu]; positivity
      field_simp
    show (if |(round (x / ulp x) : ℝ) * ulp x| ≤ maxDbl then fin (round (x / ulp x) * ulp x) else _) = _
    rw [hr, if_pos]
    have h10 : (10 : ℝ) ≤ 10 ^ (300 : ℤ) := by
      calc (10 : ℝ) = 10 ^ (1 : ℤ) := by norm_num
        _ ≤ _ := zpow_le_zpow_right₀ (by norm_num) (by norm_num)
    rw [ax]
    exact h2.trans (h10.trans ten300_max)
  constructor
  · intro k hk
    rcases Nat.eq_zero_or_pos k with h | h
    · subst h; simpa using binary64_zero
    · have h' : (1 : ℝ) ≤ k := by exact_mod_cast h
      exact ex k (by linarith) (by exact_mod_cast hk) ⟨2 * k, by push_cast; norm_num; ring⟩
  · exact ex 0.5 (by norm_num) (by norm_num) ⟨1, by norm_num⟩

/-- **C113, digits.** In binary64 the three sources and the gas sources of LOGN have an error below 2·10⁻¹² of the processes that enter them. -/
theorem C113_digits (s₀ : State) (a : SetArgs) (hs : (setState s₀ a).2 = Res.ok ()) (hD : (setStateD binary64 s₀.toD a.toD).2 = Res.ok ()) (hu : Usual a)
    (hT : 300 ≤ a.T) (c0 : 1 ≤ a.cMin) (c1 : a.cMin ≤ 10 ^ 6) (m : Model) (M0 M1 M2 : ℝ) (hm : LognReady m (setState s₀ a).1 M0 M1 M2)
    (hM : UsualLogn M0 M1 M2) (f0 : 1 / 10 ^ 6 ≤ m.coag.fmMult) (f1 : m.coag.fmMult ≤ 10 ^ 6) (hA : Contains a .C2H2) (hB : Contains a .C6H6)
    (hO : Contains a .O2) (hH : Contains a .OH) (hn : m.nucl.mech ∈ [.NONE, .LL, .LIN, .MB, .FAIR, .LINA1]) (hg : m.grow.mech ∈ [.NONE, .LL, .LIN, .MB, .FAIR])
    (ho : m.oxid.cls ∈ [.NONE, .LL, .FAIR, .LEE_NEOH, .OPTJ, .OPTG, .MB, .BROWN, .AJ_RED]) :
    ∃ (m' : Model) (s' : State) (J kG kO C0 C2 x1 x2 A1 A2 y0 y1 y2 : ℝ) (gn gg go Y : GasSp → ℝ),
      lognSources m (setState s₀ a).1 = Res.ok (m', s') ∧
      m.nucl.rate (lognIbeta m) s' = Res.ok (J, m.nucl, s') ∧ m.grow.rate m.ctx s' = Res.ok kG ∧ m.oxid.rate m.ctx s' = Res.ok kO ∧
      lognCoag m.coag s' M0 M1 M2 = Res.ok (-C0, C2) ∧ lognMr (4 / 6) M0 M1 M2 = Res.ok x1 ∧ lognMr (10 / 6) M0 M1 M2 = Res.ok x2 ∧
      A1 = Real.pi * (6 / (Real.pi * rhoSoot)) ^ (2 / 3 : ℝ) * x1 ∧ A2 = Real.pi * (6 / (Real.pi * rhoSoot)) ^ (2 / 3 : ℝ) * x2 ∧
      0 ≤ J ∧ 0 ≤ kG ∧ 0 ≤ kO ∧ 0 ≤ C0 ∧ 0 ≤ C2 ∧ 0 ≤ A1 ∧ 0 ≤ A2 ∧
      gasRates m.nucl.ratio (J * (a.cMin * gasMW .C / Na)) = Res.ok gn ∧ gasRates m.grow.ratio (kG * A1) = Res.ok gg ∧
      gasRates m.oxid.ratio (-(kO * A1)) = Res.ok go ∧
      m'.sources.soot = [J - C0, J * (a.cMin * gasMW .C / Na) + kG * A1 - kO * A1,
        J * (a.cMin * gasMW .C / Na) ^ 2 + 2 * (kG * A2) - 2 * (kO * A2) + C2] ∧ (∀ sp, m'.sources.gas sp = gn sp + gg sp + go sp) ∧
      lognSourcesD binary64 (setStateD binary64 s₀.toD a.toD).1 m = Res.ok (fin y0, fin y1, fin y2, fun sp => fin (Y sp)) ∧
      |y0 - (J - C0)| ≤ 2 / 10 ^ 12 * (J + C0) + 1 / 10 ^ 200 ∧
      |y1 - (J * (a.cMin * gasMW .C / Na) + kG * A1 - kO * A1)| ≤ 2 / 10 ^ 12 * (J * (a.cMin * gasMW .C / Na) + kG * A1 + kO * A1) + 1 / 10 ^ 200 ∧
      |y2 - (J * (a.cMin * gasMW .C / Na) ^ 2 + 2 * (kG * A2) - 2 * (kO * A2) + C2)| ≤
        2 / 10 ^ 12 * (J * (a.cMin * gasMW .C / Na) ^ 2 + 2 * (kG * A2) + 2 * (kO * A2) + C2) + 1 / 10 ^ 200 ∧
      ∀ sp, |Y sp - m'.sources.gas sp| ≤ 2 / 10 ^ 12 * (|gn sp| + |gg sp| + |go sp|) + 1 / 10 ^ 200 := by
  obtain ⟨be, bs⟩ := C101_binary64
  have e0 : (0 : ℝ) ≤ 2 ^ (-52 : ℤ) := by positivity
  have hη : (2 : ℝ) ^ (-52 : ℤ) * 10 ^ (-250 : ℤ) ≤ 1 / 10 ^ 202 := by
    have h1 : (10 : ℝ) ^ (-250 : ℤ) ≤ 10 ^ (-202 : ℤ) := zpow_le_zpow_right₀ (by norm_num) (by norm_num)
    have h2 : (10 : ℝ) ^ (-202 : ℤ) = 1 / 10 ^ 202 := by rw [zpow_neg, one_div]; rfl
    have h3 : (2 : ℝ) ^ (-52 : ℤ) ≤ 1 := by norm_num
    have h4 : (0 : ℝ) ≤ 10 ^ (-250 : ℤ) := by positivity
    rw [← h2]
    exact (mul_le_of_le_one_left h4 h3).trans h1
  have h39 : (39 : ℝ) * (1 / 10 ^ 202) ≤ 1 / 10 ^ 200 := by norm_num
  have p200 : (0 : ℝ) ≤ 1 / 10 ^ 202 := by positivity
  simp only [List.mem_cons, List.not_mem_nil, or_false] at hn hg ho
  obtain ⟨m', s', J, kG, kO, C0, C2, x1, x2, A1, A2, y0, y1, y2, gn, gg, go, Y, r1, r2, r3, r4, r5, r6, r7, r8, r9, J0, G0, O0, K0, K2, A10, A20, r10, r11, r12,
      r13, r14, r15, q0, q1, q2, q3⟩ :=
    C113_logn_accuracy binary64 _ _ C99_binary64.1 be bs C113_binary64 e0 (by norm_num) (by positivity) le_rfl s₀ a hs hD hu hT c0 c1 m M0 M1 M2 hm hM f0 f1
      (by
        rcases hn with h | h | h | h | h | h
        · exact .inl h
        all_goals simp [h, hA, hB])
      (by
        rcases hg with h | h | h | h | h
        · exact .inl h
        all_goals simp [h, hA])
      450 (by norm_num)
      (by
        rcases ho with h | h | h | h | h | h | h | h | h
        · exact .inl h
        all_goals exact .inr (.inl (by simp [h, hO, hH])))
  generalize hη' : (2 : ℝ) ^ (-52 : ℤ) * 10 ^ (-250 : ℤ) = η at *
  have cp : 0 ≤ a.cMin * gasMW .C / Na := div_nonneg (mul_nonneg (by linarith) (by norm_num [gasMW])) (by norm_num [Na])
  have lim : ∀ {k x : ℝ}, k ≤ 6000 → 0 ≤ x → k * (2 : ℝ) ^ (-52 : ℤ) * x ≤ 2 / 10 ^ 12 * x := fun hk hx => by
    refine mul_le_mul_of_nonneg_right ((mul_le_mul_of_nonneg_right hk e0).trans ?_) hx
    norm_num
  have N450 : ((450 : ℕ) : ℝ) = 450 := by norm_num
  rw [N450] at q1 q2 q3
  generalize (1 : ℝ) / 10 ^ 200 = q at *
  generalize (1 : ℝ) / 10 ^ 202 = q' at *
  refine ⟨m', s', J, kG, kO, C0, C2, x1, x2, A1, A2, y0, y1, y2, gn, gg, go, Y, r1, r2, r3, r4, r5, r6, r7, r8, r9, J0, G0, O0, K0, K2, A10, A20, r10, r11, r12,
    r13, r14, r15, q0.trans ?_, q1.trans ?_, q2.trans ?_, fun sp => (q3 sp).trans ?_⟩
  · have t1 := lim (k := 300) (by norm_num) J0
    have t2 := lim (k := 5820) (by norm_num) K0
    rw [mul_add]
    linarith
  · have t1 := lim (k := 305) (by norm_num) (mul_nonneg J0 cp)
    have t2 := lim (k := 3625) (by norm_num) (mul_nonneg G0 A10)
    have t3 := lim (k := 450 + 2930) (by norm_num) (mul_nonneg O0 A10)
    rw [mul_add, mul_add]
    linarith
  · have t1 := lim (k := 310) (by norm_num) (mul_nonneg J0 (pow_nonneg cp 2))
    have t2 := lim (k := 3625) (by norm_num) (mul_nonneg two_pos.le (mul_nonneg G0 A20))
    have t3 := lim (k := 450 + 2930) (by norm_num) (mul_nonneg two_pos.le (mul_nonneg O0 A20))
    have t4 := lim (k := 5820) (by norm_num) K2
    rw [mul_add, mul_add, mul_add]
    linarith
  · have t1 := lim (k := 317) (by norm_num) (abs_nonneg (gn sp))
    have t2 := lim (k := 3637) (by norm_num) (abs_nonneg (gg sp))
    have t3 := lim (k := 450 + 2942) (by norm_num) (abs_nonneg (go sp))
    rw [mul_add, mul_add]
    linarith

/-! ## An example -/

/-- The gas of `argsBurn` with three moments. -/
noncomputable def argsBurn3 (M0 M1 M2 : ℝ) : SetArgs := { argsBurn with sootVar := [M0, M1, M2], nsoot := 3 }

theorem argsBurn3_ok (M0 M1 M2 : ℝ) : (setState (State.mk' 3 0) (argsBurn3 M0 M1 M2)).2 = Res.ok () ∧ (setStateD binary64 (State.mk' 3 0).toD (argsBurn3 M0 M1 M2).toD).2 = Res.ok () := by
  have q := argsEx2_admissible
  have adm : Admissible 3 0 6 (argsBurn3 M0 M1 M2) := ⟨q.T, q.P, q.rho, q.mu, q.cMin, by
    intro i h k
    simp [argsBurn3] at h
    omega, q.tar, q.gas, by simp [argsBurn3, argsBurn], by simp [argsBurn3, argsBurn], by simp [argsBurn3, argsBurn]⟩
  have h1 : (setState (State.mk' 3 0) (argsBurn3 M0 M1 M2)).2 = Res.ok () := by
    rw [C01_setState_accepts _ _ (by simp [State.mk', argsBurn3]) (by simp [State.mk']) (by simpa [State.mk', nPah] using adm)]
  refine ⟨h1, ?_⟩
  have hs : (State.mk' 3 0).toD.nsoot.toNat ≤ (argsBurn3 M0 M1 M2).toD.sootVar.length := by simp [State.mk', State.toD, argsBurn3, SetArgs.toD]
  have ht : (State.mk' 3 0).toD.Ntar.toNat ≤ (argsBurn3 M0 M1 M2).toD.tarVar.length := by simp [State.mk', State.toD]
  have q := (C77_accepts_iff .exact (State.mk' 3 0).toD (argsBurn3 M0 M1 M2).toD hs ht).1.1 (by rw [C77_agrees_partial]; exact h1)
  refine (C77_accepts_iff binary64 (State.mk' 3 0).toD (argsBurn3 M0 M1 M2).toD hs ht).1.2
    ⟨q.T, q.P, q.rho, q.mu, q.cMin, q.soot, q.tar, q.gas, q.pahSize, q.pah, ?_⟩
  have z : binary64.add (fin 0) (fin 0) = fin 0 := by show binary64.rnd (0 + 0) = _; rw [add_zero, binary64_zero]
  have e : (argsBurn3 M0 M1 M2).toD.yPah.foldl binary64.add (fin 0) = fin 0 := by
    simp [SetArgs.toD, argsBurn3, argsBurn, List.replicate, z]
  rw [e]
  show ¬ (1 : ℝ) < 0
  norm_num

theorem argsBurn3_ready {M0 M1 M2 : ℝ} (h0 : 0 ≤ M0) (h1 : 0 ≤ M1) (h2 : 0 ≤ M2) : LognReady (exModel .LOGN 3 .LL .LL .LL .HM) (setState (State.mk' 3 0) (argsBurn3 M0 M1 M2)).1 M0 M1 M2 := by
  have eq : (setState (State.mk' 3 0) (argsBurn3 M0 M1 M2)).1 = stateAfter (State.mk' 3 0) (argsBurn3 M0 M1 M2) := by
    obtain ⟨r1, r2⟩ := setState_ok_range (argsBurn3_ok M0 M1 M2).1
    rw [C01_setState_accepts _ _ r1 r2 ((C01_setState_iff _ _ r1 r2).1 (argsBurn3_ok M0 M1 M2).1)]
  exact {
    wf := (exReady .LOGN 3 .LL (by simp) (by simp) .LL .LL .HM [0, 0, 0] false rfl (by norm_num) (by simp)).wf
    fm := by norm_num [exModel, Coag.new]
    gas := by
      refine ⟨⟨_, _, (argsBurn3_ok M0 M1 M2).1 ▸ rfl, rfl⟩, ?_, ?_⟩
      · rw [eq]; simp [stateAfter, argsBurn3, argsBurn, argsEx2, nGas]
      · rw [eq]
        intro y hy; simp [stateAfter, argsBurn3, argsBurn, argsEx2] at hy
        rcases hy with h|h|h|h|h|h|h|h|h|h|h <;> subst h <;> norm_num
    pah := by rw [eq]; simp [stateAfter, argsBurn3, argsBurn, nPah]
    sized := by
      rw [eq]
      exact ⟨by simp [stateAfter, argsBurn3], by simp [Model.ctx, exModel], by simp [Model.ctx, exModel]⟩
    sing := by simp [exModel, Grow.new, Oxid.new]
    tar := by simp [exModel, Nucl.new]
    mtar := by simp [exModel, Nucl.new]
    psd := rfl
    nsoot := rfl
    notar := rfl
    kernel := by simp [exModel, Coag.new]
    soot := by rw [eq]; simp [stateAfter, argsBurn3, h0, h1, h2] }

theorem argsBurn3_usual : UsualLogn 1E15 1E-8 2E-31 := by constructor <;> norm_num

/-- LOGN with the Leung--Lindstedt mechanisms and harmonic-mean coagulation in burnt products: the three sources are finite and within the bound. -/
example : ∃ (m' : Model) (s' : State) (y0 y1 y2 : ℝ) (Y : GasSp → ℝ),
    lognSources (exModel .LOGN 3 .LL .LL .LL .HM) (setState (State.mk' 3 0) (argsBurn3 1E15 1E-8 2E-31)).1 = Res.ok (m', s') ∧
    lognSourcesD binary64 (setStateD binary64 (State.mk' 3 0).toD (argsBurn3 1E15 1E-8 2E-31).toD).1 (exModel .LOGN 3 .LL .LL .LL .HM) =
      Res.ok (fin y0, fin y1, fin y2, fun sp => fin (Y sp)) := by
  have pr : ∀ sp : GasSp, ∀ y, (argsBurn3 1E15 1E-8 2E-31).yGas[sp.toNat]? = some y → 1 / 10 ^ 100 ≤ y → y ≤ 1 → Contains (argsBurn3 1E15 1E-8 2E-31) sp := fun sp y h1 h2 h3 =>
    ⟨y, h1, by rw [zpow_neg, ← one_div]; exact_mod_cast h2, h3⟩
  obtain ⟨m', s', _, _, _, _, _, _, _, _, _, y0, y1, y2, _, _, _, Y, h1, _, _, _, _, _, _, _, _, _, _, _, _, _, _, _, _, _, _, _, _, h2, _⟩ :=
    C113_digits (State.mk' 3 0) _ (argsBurn3_ok _ _ _).1 (argsBurn3_ok _ _ _).2 (by constructor <;> norm_num [argsBurn3, argsBurn, argsEx2, argsEx])
    (by norm_num [argsBurn3, argsBurn, argsEx2, argsEx]) (by norm_num [argsBurn3, argsBurn, argsEx2, argsEx]) (by norm_num [argsBurn3, argsBurn, argsEx2, argsEx])
    _ _ _ _ (argsBurn3_ready (by norm_num) (by norm_num) (by norm_num)) argsBurn3_usual (by norm_num [exModel, Coag.new]) (by norm_num [exModel, Coag.new])
    (pr _ 0.05 rfl (by norm_num) (by norm_num)) (pr _ 0.001 rfl (by norm_num) (by norm_num)) (pr _ 0.1 rfl (by norm_num) (by norm_num))
    (pr _ 0.001 rfl (by norm_num) (by norm_num)) (by simp [exModel, Nucl.new]) (by simp [exModel, Grow.new]) (by simp [exModel, Oxid.new])
  exact ⟨m', s', y0, y1, y2, Y, h1, h2⟩

/-- The same without soot: nucleation only. -/
example : ∃ (m' : Model) (s' : State) (J y0 : ℝ), lognSources (exModel .LOGN 3 .LL .LL .LL .HM) (setState (State.mk' 3 0) (argsBurn3 0 0 0)).1 = Res.ok (m', s') ∧
    m'.sources.soot.head? = some J ∧ |y0 - J| ≤ 300 * 2 ^ (-52 : ℤ) * J + 5 * (2 ^ (-52 : ℤ) * 10 ^ (-250 : ℤ)) ∧ ∃ y1 y2 : ℝ, ∃ Y : GasSp → ℝ,
    lognSourcesD binary64 (setStateD binary64 (State.mk' 3 0).toD (argsBurn3 0 0 0).toD).1 (exModel .LOGN 3 .LL .LL .LL .HM) =
      Res.ok (fin y0, fin y1, fin y2, fun sp => fin (Y sp)) := by
  have pr : ∀ sp : GasSp, ∀ y, (argsBurn3 0 0 0).yGas[sp.toNat]? = some y → 1 / 10 ^ 100 ≤ y → y ≤ 1 → Contains (argsBurn3 0 0 0) sp := fun sp y h1 h2 h3 =>
    ⟨y, h1, by rw [zpow_neg, ← one_div]; exact_mod_cast h2, h3⟩
  obtain ⟨be, bs⟩ := C101_binary64
  obtain ⟨m', s', J, y0, y1, y2, _, Y, h1, _, _, _, h2, _, h3, h4, _⟩ :=
    C113_no_soot binary64 _ _ C99_binary64.1 be bs binary64_zero (by positivity) (by norm_num) (by positivity) le_rfl (State.mk' 3 0) _ (argsBurn3_ok _ _ _).1
    (argsBurn3_ok _ _ _).2 (by constructor <;> norm_num [argsBurn3, argsBurn, argsEx2, argsEx])
    (by norm_num [argsBurn3, argsBurn, argsEx2, argsEx]) (by norm_num [argsBurn3, argsBurn, argsEx2, argsEx]) (by norm_num [argsBurn3, argsBurn, argsEx2, argsEx])
    _ (argsBurn3_ready le_rfl le_rfl le_rfl) (by norm_num [exModel, Coag.new]) (by norm_num [exModel, Coag.new])
    (.inr (.inl ⟨by simp [exModel, Nucl.new], pr _ 0.05 rfl (by norm_num) (by norm_num)⟩)) (by simp [exModel, Grow.new]) 450 (by norm_num)
    (.inr (.inl ⟨by simp [exModel, Oxid.new], pr _ 0.1 rfl (by norm_num) (by norm_num), pr _ 0.001 rfl (by norm_num) (by norm_num), by norm_num⟩))
  exact ⟨m', s', J, y0, h1, by rw [h2]; rfl, h4, y1, y2, Y, h3⟩

end Soot
