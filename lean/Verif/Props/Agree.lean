import Verif.Props.LognColl
import Verif.Props.MomicExact
import Verif.Props.QmomDown
import Verif.Props.Pure
import Verif.Props.SectEq

/-!
# Property C79: the models agree on equal particles
-/

namespace Soot

open Res Real
open scoped Classical

/-- `t` differs from `s` only in the soot variables (with their scales) and the quadrature. -/
def SameGas (s t : State) : Prop := t = { s with nsoot := t.nsoot, sootVar := t.sootVar, wts := t.wts, absc := t.absc, sootScales := t.sootScales }

/-- Two models with the same mechanisms. -/
structure SameMech (m k : Model) : Prop where
  nucl : k.nucl = m.nucl
  grow : k.grow = m.grow
  oxid : k.oxid = m.oxid
  coag : k.coag = m.coag

namespace Agree

theorem nucl {n : Nucl} (hp : n.mech ≠ .PAH) {ib ib' : State → ℝ → Res ℝ} {s t : State} (h : SameGas s t) :
    n.rate ib' t = map' (fun p => (p.1, p.2.1, { p.2.2 with nsoot := t.nsoot, sootVar := t.sootVar, wts := t.wts, absc := t.absc, sootScales := t.sootScales })) (n.rate ib s) := by
  obtain ⟨a, b, c, d, e, rfl⟩ : ∃ a b c d e, t = { s with nsoot := a, sootVar := b, wts := c, absc := d, sootScales := e } := ⟨_, _, _, _, _, h⟩
  unfold Nucl.rate
  rcases he : n.mech
  case PAH => exact absurd he hp
  all_goals (simp only [Pure.map'_bind, map'_ok]; first | done | rfl)

theorem grow (g : Grow) {x y : Ctx} (hx : x.psd ≠ .SECT) (hy : y.psd ≠ .SECT) {s t : State} (h : SameGas s t)
    (h0 : idx t.sootVar 0 = idx s.sootVar 0) (h1 : idx t.sootVar 1 = idx s.sootVar 1) : g.rate y t = g.rate x s := by
  obtain ⟨a, b, c, d, e, rfl⟩ : ∃ a b c d e, t = { s with nsoot := a, sootVar := b, wts := c, absc := d, sootScales := e } := ⟨_, _, _, _, _, h⟩
  dsimp only at h0 h1
  unfold Grow.rate moments01 hacaMoments
  simp only [if_neg hx, if_neg hy, h0, h1]
  rfl

theorem oxid (g : Oxid) {x y : Ctx} (hx : x.psd ≠ .SECT) (hy : y.psd ≠ .SECT) {s t : State} (h : SameGas s t)
    (h0 : idx t.sootVar 0 = idx s.sootVar 0) (h1 : idx t.sootVar 1 = idx s.sootVar 1) : g.rate y t = g.rate x s := by
  obtain ⟨a, b, c, d, e, rfl⟩ : ∃ a b c d e, t = { s with nsoot := a, sootVar := b, wts := c, absc := d, sootScales := e } := ⟨_, _, _, _, _, h⟩
  dsimp only at h0 h1
  unfold Oxid.rate
  rcases he : g.cls <;> simp only [moments01, if_neg hx, if_neg hy, h0, h1] <;> rfl

theorem area {n m A : ℝ} (hn : 0 < n) (hm : 0 < m) (h : IsArea n (n * m) A) : A = acoef * (n * m ^ twothird) := by
  have hr := rhoSoot_pos
  have h6 : 0 < 6 / (π * rhoSoot) := by positivity
  have hd : 0 ≤ diam m := (diam_pos hm).le
  have e3 : diam m ^ 3 = 6 / (π * rhoSoot) * m := by
    rw [diam, ← rpow_natCast, ← rpow_mul (by positivity), onethird]; norm_num; ring
  have e2 : diam m ^ 2 = (6 / (π * rhoSoot)) ^ twothird * m ^ twothird := by
    rw [diam, ← rpow_natCast, ← rpow_mul (by positivity), ← mul_rpow h6.le hm.le, onethird, twothird]
    norm_num
    congr 1; ring
  rw [h.2 hn (diam m) hd (by rw [e3]; field_simp), e2, acoef]; ring

theorem lognM_eq {n m : ℝ} (hn : 0 < n) (hm : 0 < m) (r : ℝ) : lognM n (n * m) (n * m ^ 2) r = n * m ^ r := by
  have e : ∀ r : ℝ, lnMom n (log m) 0 r = n * m ^ r := fun r => by
    rw [lnMom, lnInt_pow, rpow_def_of_pos hm]; congr 2; simp; ring
  have := lognM_lnInt (μ := log m) (v := 0) hn r
  have e0 := e 0; have e1 := e 1; have e2 := e 2; have er := e r
  simp only [lnMom] at e0 e1 e2 er
  rw [e0, e1, e2, er, rpow_zero, rpow_one, mul_one, show m ^ (2 : ℝ) = m ^ 2 by rw [← rpow_natCast]; norm_num] at this
  exact this

theorem contCoag {n m : ℝ} (s : State) (hn : 0 < n) (hm : 0 < m) : lognCoa0C s (lognM n (n * m) (n * m ^ 2)) = contVal s m m * n ^ 2 / 2 := by
  have hu : 0 < m ^ (1 / 3 : ℝ) := by positivity
  have e1 : m ^ (2 / 6 : ℝ) = m ^ (1 / 3 : ℝ) := by norm_num
  have e2 : m ^ (-2 / 6 : ℝ) = 1 / m ^ (1 / 3 : ℝ) := by rw [show (-2 / 6 : ℝ) = -(1 / 3) by norm_num, rpow_neg hm.le, inv_eq_one_div]
  have e3 : m ^ (-4 / 6 : ℝ) = 1 / (m ^ (1 / 3 : ℝ)) ^ 2 := by
    rw [show (-4 / 6 : ℝ) = -(1 / 3) * 2 by norm_num, rpow_mul hm.le, rpow_neg hm.le]; norm_num
  simp only [lognCoa0C, lognM_eq hn hm, rpow_zero, e1, e2, e3]
  rw [contVal_eq hm hm]
  field_simp
  ring

theorem fmCoag {n m : ℝ} (c : Coag) (s : State) (hn : 0 < n) (hm : 0 < m) :
    lognCoa0Fm c s (lognM n (n * m) (n * m ^ 2)) = 0.8536 * sqrt 2 * (fmVal c s m m * n ^ 2 / 2) := by
  have hu : 0 < m ^ (1 / 6 : ℝ) := by positivity
  have q : ∀ k : ℕ, m ^ ((k : ℝ) / 6) = (m ^ (1 / 6 : ℝ)) ^ k := fun k => by rw [← rpow_natCast, ← rpow_mul hm.le]; congr 1; ring
  have e1 : m ^ (2 / 6 : ℝ) = (m ^ (1 / 6 : ℝ)) ^ 2 := by simpa using q 2
  have e2 : m ^ (4 / 6 : ℝ) = (m ^ (1 / 6 : ℝ)) ^ 4 := by simpa using q 4
  have e3 : m ^ (-1 / 6 : ℝ) = 1 / m ^ (1 / 6 : ℝ) := by rw [show (-1 / 6 : ℝ) = -(1 / 6) by norm_num, rpow_neg hm.le, inv_eq_one_div]
  have e4 : m ^ (-3 / 6 : ℝ) = 1 / (m ^ (1 / 6 : ℝ)) ^ 3 := by
    rw [show (-3 / 6 : ℝ) = -((3 : ℕ) / 6 : ℝ) by norm_num, rpow_neg hm.le, q 3, inv_eq_one_div]
  have e5 : m ^ onethird = (m ^ (1 / 6 : ℝ)) ^ 2 := by rw [← e1, onethird]; norm_num
  have e6 : sqrt (1 / m + 1 / m) = sqrt 2 * (1 / (m ^ (1 / 6 : ℝ)) ^ 3) := by
    rw [← e4, show 1 / m + 1 / m = 2 * m⁻¹ by ring, sqrt_mul (by norm_num), sqrt_inv, sqrt_eq_rpow m, ← rpow_neg hm.le]; norm_num
  have s2 : sqrt 2 * sqrt 2 = (2 : ℝ) := mul_self_sqrt (by norm_num)
  simp only [lognCoa0Fm, lognM_eq hn hm, rpow_zero, e1, e2, e3, e4]
  rw [fmVal, e5, e6, bCoag]
  generalize m ^ (1 / 6 : ℝ) = u at *
  field_simp
  linear_combination (-4 * c.kfmVal s) * s2

theorem rates {m k : Model} (hM : SameMech m k) (hp : m.nucl.mech ≠ .PAH) (hx : m.psd ≠ .SECT) (hy : k.psd ≠ .SECT) {ib ib' : State → ℝ → Res ℝ}
    {s t s' t' : State} (h : SameGas s t) (h0 : idx t.sootVar 0 = idx s.sootVar 0) (h1 : idx t.sootVar 1 = idx s.sootVar 1) {c : ℝ}
    (hs' : s' = { s with cMin := c }) {J J' kG kG' kO kO' : ℝ} {n n' : Nucl}
    (a1 : m.nucl.rate ib s = ok (J, n, s')) (a2 : m.grow.rate m.ctx s' = ok kG) (a3 : m.oxid.rate m.ctx s' = ok kO)
    (b1 : k.nucl.rate ib' t = ok (J', n', t')) (b2 : k.grow.rate k.ctx t' = ok kG') (b3 : k.oxid.rate k.ctx t' = ok kO') :
    J' = J ∧ n' = n ∧ t'.cMin = s'.cMin ∧ kG' = kG ∧ kO' = kO := by
  rw [hM.nucl, nucl hp h, a1, map'_ok, ok.injEq] at b1
  obtain ⟨rfl, rfl, rfl⟩ : J = J' ∧ n = n' ∧ { s' with nsoot := t.nsoot, sootVar := t.sootVar, wts := t.wts, absc := t.absc, sootScales := t.sootScales } = t' := by
    simpa using b1
  have g : SameGas s' { s' with nsoot := t.nsoot, sootVar := t.sootVar, wts := t.wts, absc := t.absc, sootScales := t.sootScales } := rfl
  have i0 : idx t.sootVar 0 = idx s'.sootVar 0 := by rw [h0, hs']
  have i1 : idx t.sootVar 1 = idx s'.sootVar 1 := by rw [h1, hs']
  rw [hM.grow, grow m.grow (x := m.ctx) hx hy g i0 i1, a2, ok.injEq] at b2
  rw [hM.oxid, oxid m.oxid (x := m.ctx) hx hy g i0 i1, a3, ok.injEq] at b3
  exact ⟨rfl, rfl, rfl, b2.symm, b3.symm⟩

theorem gas {m k m' k' : Model} (hM : SameMech m k) {n : Nucl} {v w v' w' : List ℝ} {N1 G1 X1 N1' G1' X1' : ℝ} (h1 : N1' = N1) (h2 : G1' = G1)
    (h3 : X1' = X1) (h : m.finish n v w N1 G1 X1 = ok m') (h' : k.finish n v' w' N1' G1' X1' = ok k') : k'.sources.gas = m'.sources.gas := by
  subst h1 h2 h3
  obtain ⟨a, b, c, e1, e2, e3, rfl⟩ := Model.finish_inv h
  obtain ⟨a', b', c', f1, f2, f3, rfl⟩ := Model.finish_inv h'
  rw [hM.grow, e2] at f2
  rw [hM.oxid, e3] at f3
  rw [e1] at f1
  cases f1; cases f2; cases f3
  rfl

end Agree

namespace Agree

theorem val_pos {c : Coag} {s : State} (h : s.Phys) (hc : 0 < c.fmMult) (hk : c.mech = .FM ∨ c.mech = .CONTINUUM ∨ c.mech = .HM) {x : ℝ}
    (hx : mmin < x) : 0 < c.val s x x := by
  have hx0 : 0 < x := mmin_pos.trans hx
  have hab : ¬ (x ≤ mmin ∨ x ≤ mmin) := by simp [hx]
  have a := fmVal_pos (c := c) h hc hx0 hx0
  have b := contVal_pos h hx0 hx0
  have d := hmContVal_pos h hx0 hx0
  rw [Coag.val, if_neg hab]
  rcases hk with e | e | e <;> rw [e]
  · exact a
  · exact b
  · positivity

/-- The full slip correction of the HM mechanism is below the linear one of the CONTINUUM mechanism and of MOMIC. -/
theorem hm_lt_cont {s : State} (h : s.Phys) {x : ℝ} (hx : 0 < x) : hmContVal s x x < contVal s x x := by
  have hd := diam_pos hx
  have hk := kcVal_pos h
  have hm := h.mfpVal_pos
  have hK : 0 < 2 * s.mfpVal / diam x := by positivity
  have e : hmContVal s x x = kcVal s * (cunningham (2 * s.mfpVal / diam x) / diam x + cunningham (2 * s.mfpVal / diam x) / diam x) *
      (diam x + diam x) := by
    rw [hmContVal, kcVal, twothird]
    have := h.mu.ne'
    field_simp
  have hc : cunningham (2 * s.mfpVal / diam x) < 1 + 1.657 * (2 * s.mfpVal / diam x) := by
    rw [cunningham, if_neg hK.ne']
    have : exp (-1.1 / (2 * s.mfpVal / diam x)) < 1 := by
      rw [exp_lt_one_iff]; exact div_neg_of_neg_of_pos (by norm_num) hK
    nlinarith
  rw [e, contVal]
  have := div_lt_div_of_pos_right hc hd
  refine mul_lt_mul_of_pos_right (mul_lt_mul_of_pos_left (by linarith) hk) (by positivity)

theorem momicCont {M : List ℝ} {N : ℕ} {n m : ℝ} (h : MonoMoments M n m) (hn : 0 < n) (hm : 0 < m) (hl : M.length = N) (h3 : 3 ≤ N) (s : State) :
    kcVal s * pairV (pv M N) (kcpVal s) 0 0 = contVal s m m * n ^ 2 := by
  have hp : ∀ i, pv M N i = n * m ^ ((2 * (i : ℝ) - 4) / 6) := fun i => by rw [pv, h.mr hn hm hl h3]
  have p1 := rpow_third hm 0 1
  have m1 := rpow_third_neg hm 0 1
  have m2 := rpow_third_neg hm 0 2
  rw [contVal_eq hm hm, pairV]
  simp only [Nat.zero_mul, Nat.zero_add, hp]
  rw [show ((2 * ((0 : ℕ) : ℝ) - 4) / 6) = ((0 : ℕ) : ℝ) - ((2 : ℕ) : ℝ) / 3 by norm_num,
    show ((2 * ((1 : ℕ) : ℝ) - 4) / 6) = ((0 : ℕ) : ℝ) - ((1 : ℕ) : ℝ) / 3 by norm_num,
    show ((2 * ((2 : ℕ) : ℝ) - 4) / 6) = 0 by norm_num,
    show ((2 * ((3 : ℕ) : ℝ) - 4) / 6) = ((0 : ℕ) : ℝ) + ((1 : ℕ) : ℝ) / 3 by norm_num, p1, m1, m2, rpow_zero]
  have hy0 : 0 < m ^ (1 / 3 : ℝ) := by positivity
  generalize m ^ (1 / 3 : ℝ) = v at *
  field_simp
  ring

theorem momicFm {M : List ℝ} {N : ℕ} {n m : ℝ} (h : MonoMoments M n m) (hn : 0 < n) (hm : 0 < m) (hl : M.length = N) (h3 : 3 ≤ N) (c : Coag)
    (s : State) : c.kfmVal s * fV (qv M N) 0 0 = fmVal c s m m * n ^ 2 := by
  rw [fV_mono h hn hm hl h3]
  have := fmPair_half c s 0 0 hm hm
  linear_combination n ^ 2 * this

end Agree

/-- **C79 (MONO and LOGN).** On the moments of `n` particles of mass `m` (above the cutoff) MONO and LOGN with the same mechanisms, without PAH
nucleation, report the same soot mass source and the same gas sources, for every state. The particle numbers agree for the continuum kernel. They do
not for the others: LOGN's free-molecular loss is 0.8536·√2 ≈ 1.207 times that of MONO, and with the harmonic mean LOGN loses no particles at all
although MONO does. -/
theorem C79_mono_logn (k l : Model) (s t : State) (n m w a : ℝ) (hk : MonoReady k s n (n * m) w a) (hl : LognReady l t n (n * m) (n * m ^ 2))
    (hg : SameGas s t) (hM : SameMech k l) (hp : k.nucl.mech ≠ .PAH) (hn : 0 < n) (hm : mmin < m) :
    ∃ k' s' l' t' J n' x0 x1 y0 y2, monoSources k s = ok (k', s') ∧ lognSources l t = ok (l', t') ∧
      k.nucl.rate (ibetaNodes k.coag) { s with wts := [n], absc := [m] } = ok (J, n', s') ∧ x0 = k.coag.val s m m * n ^ 2 / 2 ∧
      k'.sources.soot = [J - x0, x1] ∧ l'.sources.soot = [J - y0, x1, y2] ∧ l'.sources.gas = k'.sources.gas ∧ 0 < x0 ∧
      (k.coag.mech = .CONTINUUM → y0 = x0) ∧ (k.coag.mech = .FM → y0 = 0.8536 * sqrt 2 * x0) ∧ (k.coag.mech = .HM → y0 = 0) := by
  have hm0 : 0 < m := mmin_pos.trans hm
  obtain ⟨k', s', J, n', kG, kO, A, a1, a2, a3, _, a5, a6, a7, _, _, _, _, a12, a13⟩ := mono_eval hk
  obtain ⟨l', t', J', n'', kG', kO', b1, b2, _, _, b5, b6, _, _, _, _, _, b12, b13⟩ := logn_eval hl (fun hx => absurd (hM.nucl ▸ hx) hp)
  have hw : monoW n w = n := by rw [monoW, if_pos hn]
  have ha : monoA n (n * m) a = m := by rw [monoA, if_pos hn]; field_simp
  have g' : SameGas { s with wts := [monoW n w], absc := [monoA n (n * m) a] } t := by rw [SameGas]; exact hg
  obtain ⟨rfl, rfl, hc, rfl, rfl⟩ := Agree.rates hM hp (by rw [hk.psd]; decide) (by rw [hl.psd]; decide) g' (by rw [hl.soot, hk.soot]; rfl)
    (by rw [hl.soot, hk.soot]; rfl) a3 a2 a5 a6 b2 b5 b6
  have hA := Agree.area hn hm0 a7
  have eL : lognArea n (n * m) (n * m ^ 2) (4 / 6) = A := by
    rw [lognArea, Agree.lognM_eq hn hm0, hA, acoef, twothird]; norm_num
  have hn1 : n''.mech ≠ .PAH := by rw [(Nucl.rate_inv a2).1]; exact hp
  have hpl : l.nucl.mech ≠ .PAH := by rw [hM.nucl]; exact hp
  have hv : k.coag.val s' m m = k.coag.val s m m := by rw [a3]; rfl
  rw [hw, ha, hv, if_neg hn1] at a13
  rw [hc, eL, if_neg hpl, if_neg hpl] at b13
  rw [hc, eL] at b12
  have hph := hk.gas.acc.phys
  have cc : ∀ M, lognCoagVal l.coag t M = lognCoagVal k.coag s M := fun M => by rw [hM.coag, hg]; rfl
  have hab : ¬ (m ≤ mmin ∨ m ≤ mmin) := by simp [hm]
  obtain ⟨y2, b13'⟩ : ∃ y2, l'.sources.soot =
      [J' - -(lognCoagVal k.coag s (lognM n (n * m) (n * m ^ 2))).1, J' * s'.cMin * gasMW .C / Na + 0 + (kG' - kO') * A, y2] := by
    have lst : ∀ {a b c x y : ℝ} {L : List ℝ}, L = [a, b, c] → x = a → y = b → ∃ z, L = [x, y, z] :=
      fun {a b c x y L} h h1 h2 => ⟨c, by rw [h, h1, h2]⟩
    refine lst b13 ?_ ?_
    · rw [cc]; ring
    · ring
  rw [hw, ha] at a2
  refine ⟨k', s', l', t', J', n'', _, _, _, y2, a1, b1, a2, rfl, a13, b13',
    Agree.gas hM (by ring) rfl (by ring) a12 b12, ?_, ?_, ?_, ?_⟩
  · have hne := hl.kernel
    rw [hM.coag] at hne
    have := Agree.val_pos hph hk.fm hne hm
    positivity
  · intro h
    rw [lognCoagVal, h]
    simp only [neg_neg]
    rw [Agree.contCoag s hn hm0, Coag.val, if_neg hab, h]
  · intro h
    rw [lognCoagVal, h]
    simp only [neg_neg]
    rw [Agree.fmCoag _ s hn hm0, Coag.val, if_neg hab, h]
  · intro h
    rw [lognCoagVal, h]
    simp

/-- **C79 (MONO and MOMIC).** On the moments of `n` particles of mass `m` (above the cutoff) MONO and MOMIC with the same mechanisms, without PAH
nucleation, report the same soot mass source and the same gas sources, for every state and number of moments. The particle numbers agree without
coagulation and for the free-molecular and continuum kernels. For the harmonic mean they do not: MOMIC loses more particles, because it uses the linear
slip correction where the HM mechanism uses the exponential one. -/
theorem C79_mono_momic (k l : Model) (s t : State) (n m w a : ℝ) (hk : MonoReady k s n (n * m) w a) (hl : MomicReady l t) (hf : MomicFin l t)
    (hmo : MonoMoments t.sootVar n m) (hg : SameGas s t) (hM : SameMech k l) (hp : k.nucl.mech ≠ .PAH) (hn : 0 < n) (hm : mmin < m) :
    ∃ k' s' l' t' J n' x0 x1 y0, monoSources k s = ok (k', s') ∧ momicSources l t = ok (l', t') ∧
      k.nucl.rate (ibetaNodes k.coag) { s with wts := [n], absc := [m] } = ok (J, n', s') ∧ x0 = k.coag.val s m m * n ^ 2 / 2 ∧
      k'.sources.soot = [J - x0, x1] ∧ l'.sources.soot[0]? = some (J - y0) ∧ l'.sources.soot[1]? = some x1 ∧ l'.sources.gas = k'.sources.gas ∧
      (k.coag.mech ≠ .HM → y0 = x0) ∧ (k.coag.mech = .HM → x0 < y0) := by
  have hm0 : 0 < m := mmin_pos.trans hm
  have h3 := hl.three
  obtain ⟨k', s', J, n', kG, kO, A, a1, a2, a3, _, a5, a6, a7, _, _, _, _, a12, a13⟩ := mono_eval hk
  obtain ⟨T, P, Q, hT, hP, hQ, ht, hTn, hF⟩ := momicSetup hl
  obtain ⟨l', t', J', n'', kG', kO', b1, b2, _, _, b5, b6, _, _, _, _, _, _, _, b12, b13⟩ := momic_eval_at hl hf hT hP hQ ht hTn hF
  have hw : monoW n w = n := by rw [monoW, if_pos hn]
  have ha : monoA n (n * m) a = m := by rw [monoA, if_pos hn]; field_simp
  have g' : SameGas { s with wts := [monoW n w], absc := [monoA n (n * m) a] } t := by rw [SameGas]; exact hg
  have t0 : idx t.sootVar 0 = ok n := by
    have hlt : 0 < t.sootVar.length := by rw [hl.len]; omega
    rw [idx_getD hlt, getD_of_lt hlt, hmo 0 hlt, pow_zero, mul_one]
  have t1 : idx t.sootVar 1 = ok (n * m) := by
    have hlt : 1 < t.sootVar.length := by rw [hl.len]; omega
    rw [idx_getD hlt, getD_of_lt hlt, hmo 1 hlt, pow_one]
  have t0' : t.sootVar.getD 0 0 = n := by
    have hlt : 0 < t.sootVar.length := by rw [hl.len]; omega
    rw [getD_of_lt hlt, hmo 0 hlt, pow_zero, mul_one]
  obtain ⟨rfl, rfl, hc, rfl, rfl⟩ := Agree.rates hM hp (by rw [hk.psd]; decide) (by rw [hl.psd]; decide) g' (by rw [t0, hk.soot]; rfl)
    (by rw [t1, hk.soot]; rfl) a3 a2 a5 a6 b2 b5 b6
  have hA := Agree.area hn hm0 a7
  have hn1 : n''.mech ≠ .PAH := by rw [(Nucl.rate_inv a2).1]; exact hp
  have hpl : l.nucl.mech ≠ .PAH := by rw [hM.nucl]; exact hp
  have hv : k.coag.val s' m m = k.coag.val s m m := by rw [a3]; rfl
  have hmr := fun r => hmo.mr hn hm0 hl.len h3 r
  rw [hw, ha, hv, if_neg hn1] at a13
  rw [hc, hmr, ← hA] at b12
  have hph := hk.gas.acc.phys
  have cc : ∀ r, momicCoagV l.coag t t.sootVar l.nsoot r = momicCoagV k.coag s t.sootVar l.nsoot r := fun r => by rw [hM.coag, hg]; rfl
  have hab : ¬ (m ≤ mmin ∨ m ≤ mmin) := by simp [hm]
  rw [hw, ha] at a2
  refine ⟨k', s', l', t', J', n'', _, _, -momicCoagV k.coag s t.sootVar l.nsoot 0, a1, b1, a2, rfl, a13, ?_, ?_,
    Agree.gas hM (by ring) rfl (by ring) a12 b12, ?_, ?_⟩
  · rw [b13, List.getElem?_map, List.getElem?_range (by omega)]
    simp only [Option.map_some, momicSoot, if_neg hpl, t0', if_pos hn, cc]
    congr 1; push_cast; ring
  · rw [b13, List.getElem?_map, List.getElem?_range (by omega)]
    simp only [Option.map_some, momicSoot, if_neg hpl, t0', if_pos hn, momicCoagV_one, hmr, hc]
    rw [hA, show ((1 : ℕ) : ℝ) - onethird = twothird by norm_num [onethird, twothird]]
    congr 1; push_cast; ring
  · intro h
    have e1 := Agree.momicFm hmo hn hm0 hl.len h3 k.coag s
    have e2 := Agree.momicCont hmo hn hm0 hl.len h3 s
    rw [momicCoagV, if_neg (by decide), Coag.val, if_neg hab]
    have hfu := hl.kernel
    rw [hM.coag] at hfu
    rcases hc' : k.coag.mech <;> simp only [fmCoagV, cCoagV, if_true, neg_neg]
    · simp
    · linear_combination e1 / 2
    · linear_combination e2 / 2
    · exact absurd hc' h
    · exact absurd hc' hfu
  · intro h
    have e1 := Agree.momicFm hmo hn hm0 hl.len h3 k.coag s
    have e2 := Agree.momicCont hmo hn hm0 hl.len h3 s
    have f := fmVal_pos (c := k.coag) hph hk.fm hm0 hm0
    have c1 := hmContVal_pos hph hm0 hm0
    have c2 := Agree.hm_lt_cont hph hm0
    rw [momicCoagV, if_neg (by decide), Coag.val, if_neg hab, h]
    simp only [fmCoagV, cCoagV, if_true]
    rw [show k.coag.kfmVal s / 2 * fV (qv t.sootVar l.nsoot) 0 0 = fmVal k.coag s m m * n ^ 2 / 2 by linear_combination e1 / 2,
      show kcVal s / 2 * pairV (pv t.sootVar l.nsoot) (kcpVal s) 0 0 = contVal s m m * n ^ 2 / 2 by linear_combination e2 / 2, hmean]
    generalize fmVal k.coag s m m = F at *
    generalize contVal s m m = C at *
    generalize hmContVal s m m = H at *
    have hC : 0 < C := c1.trans c2
    have e : -(-(F * n ^ 2 / 2) * -(C * n ^ 2 / 2) / (-(F * n ^ 2 / 2) + -(C * n ^ 2 / 2))) = F * C / (F + C) * n ^ 2 / 2 := by
      have : F + C ≠ 0 := by positivity
      have : -(F * n ^ 2 / 2) + -(C * n ^ 2 / 2) ≠ 0 := by
        have : 0 < F * n ^ 2 / 2 + C * n ^ 2 / 2 := by positivity
        intro hh; linarith
      have h2 : -(F * n ^ 2 / 2) + -(C * n ^ 2 / 2) = -((F + C) * n ^ 2 / 2) := by ring
      rw [h2]
      field_simp
    rw [e]
    have : F * H / (F + H) < F * C / (F + C) := by
      rw [div_lt_div_iff₀ (by positivity) (by positivity)]
      nlinarith [mul_pos f f]
    have hn2 : 0 < n ^ 2 := by positivity
    nlinarith

/-- The eigenvalue routine does not turn a matrix that contains a NaN into eigenvalues that are all finite and non-negative. -/
def Eig.NaNOut (eig : Eig) : Prop := ∀ N M, ¬ goodVals N (eig N M none).val

namespace Agree

theorem moment {M : List ℝ} {n m : ℝ} (h : MonoMoments M n m) {i : ℕ} (hi : i < M.length) : M.getD i 0 = n * m ^ i := by
  rw [getD_of_lt hi, h i hi]

theorem whRun_none {M : List ℝ} {n m : ℝ} (h : MonoMoments M n m) (hn : 0 < n) {N : ℕ} (hN : 2 ≤ N) (hl : 2 * N ≤ M.length) (k : ℕ) :
    whRun M N (k + 1) = none := by
  induction k with
  | zero =>
    simp only [whRun, Option.bind_some, whStep]
    rw [if_pos]
    refine .inr ?_
    rw [if_pos (by omega), if_pos (by omega), if_pos (by omega), moment h (by omega), moment h (by omega), Nat.sub_self, Function.update_self,
      moment h (i := 0) (by omega)]
    field_simp
    ring
  | succ k ih => rw [whRun, ih]; rfl

theorem downselect_one {eig : Eig} (he : eig.NaNOut) {M : List ℝ} {n m : ℝ} (h : MonoMoments M n m) (hn : 0 < n) :
    ∀ N, 1 ≤ N → 2 * N ≤ M.length → downselect eig M N = (1, fun _ => M.getD 0 0, fun _ => M.getD 1 0 / M.getD 0 0)
  | 1, _, _ => rfl
  | N + 2, _, hl => by
    have hj : jacobi M (N + 2) = none := by rw [jacobi, show N + 2 - 1 = N + 1 by omega, whRun_none h hn (by omega) hl]; rfl
    rw [downselect, if_neg, downselect_one he h hn (N + 1) (by omega) (by omega)]
    rintro ⟨_, g⟩
    refine he (N + 2) M ?_
    rw [wheeler, hj] at g
    exact g

theorem qmomNodes {eig : Eig} (he : eig.NaNOut) {M : List ℝ} {n m : ℝ} (h : MonoMoments M n m) (hn : 0 < n) (hm : 0 < m) {w a : List ℝ}
    (hl : 2 ≤ M.length) (hw : 1 ≤ w.length) (ha : 1 ≤ a.length) :
    getWtsAbs eig M w a = ok ((List.range w.length).map fun i => if i = 0 then n else 0, (List.range a.length).map fun i => if i = 0 then m else 0) := by
  have m0 : M.getD 0 0 = n := by rw [moment h (by omega)]; ring
  have m1 : M.getD 1 0 = n * m := by rw [moment h (by omega)]; ring
  rw [getWtsAbs, idx_getD (by omega), ok_bind, m0, if_neg (by linarith), if_neg (by omega), downselect_one he h hn _ (by omega) (by omega)]
  simp only
  rw [if_pos ⟨hw, ha⟩, padded, padded, m0, m1]
  have e : n * m / n = m := by field_simp
  rw [e, if_pos hn.le, if_pos hm.le]
  simp only [Nat.lt_one_iff]

theorem sum_first {N : ℕ} (hN : 1 ≤ N) (f : ℕ → ℕ → ℝ) (hf : ∀ i j, i ≠ 0 ∨ j ≠ 0 → f i j = 0) :
    ∑ i ∈ Finset.range N, ∑ j ∈ Finset.range N, f i j = f 0 0 := by
  rw [Finset.sum_eq_single 0, Finset.sum_eq_single 0]
  · exact fun j _ hj => hf _ _ (.inr hj)
  · exact fun h => absurd (Finset.mem_range.mpr (by omega)) h
  · exact fun i _ hi => Finset.sum_eq_zero fun j _ => hf _ _ (.inl hi)
  · exact fun h => absurd (Finset.mem_range.mpr (by omega)) h

theorem collision_first (K : ℝ → ℝ → ℝ) {N : ℕ} (hN : 1 ≤ N) (n m : ℝ) (r : ℕ) :
    collisionSum K ((List.range N).map fun i => if i = 0 then n else 0) ((List.range N).map fun i => if i = 0 then m else 0) r =
      1 / 2 * (K m m * n ^ 2 * ((m + m) ^ r - m ^ r - m ^ r)) := by
  have g : ∀ (x : ℝ) (i : ℕ), i ≠ 0 → ((List.range N).map fun i => if i = 0 then x else 0).getD i 0 = 0 := fun x i hi => by
    by_cases h : i < N
    · rw [getD_of_lt (by simpa using h)]; simp [hi]
    · rw [List.getD_eq_default]; simpa using h
  have g0 : ∀ x : ℝ, ((List.range N).map fun i => if i = 0 then x else 0).getD 0 0 = x := fun x => by
    rw [getD_of_lt (by simp; omega)]; simp
  rw [collisionSum, List.length_map, List.length_range, sum_first hN]
  · rw [g0, g0]; ring
  · rintro i j (h | h)
    · rw [g n i h]; ring
    · rw [g n j h]; ring

end Agree

/-- **C79 (QMOM).** On the moments of `n` particles of mass `m` (above the cutoff) QMOM with four or more moments and the same mechanisms, without PAH
nucleation, reports the particle number source of MONO but none of its surface chemistry: the mass source of MONO has the growth and oxidation term `x`
in addition, and the gas sources of QMOM are those of nucleation alone. (The recurrence of Wheeler divides by zero, the inversion falls back to a
single node, and the surface moments are then zero.) -/
theorem C79_qmom_loses_surface (eig : Eig) (he : eig.NaNOut) (k l : Model) (s t : State) (n m w a : ℝ) (hk : MonoReady k s n (n * m) w a)
    (hl : QmomReady l t) (h4 : 4 ≤ l.nsoot) (hmo : MonoMoments t.sootVar n m) (hg : SameGas s t) (hM : SameMech k l) (hp : k.nucl.mech ≠ .PAH)
    (hn : 0 < n) (hm : mmin < m) :
    ∃ k' s' l' t' J n' N0 N1 kG kO A, monoSources k s = ok (k', s') ∧ qmomSources eig l t = ok (l', t') ∧
      k.nucl.rate (ibetaNodes k.coag) { s with wts := [n], absc := [m] } = ok (J, n', s') ∧ N0 = J - k.coag.val s m m * n ^ 2 / 2 ∧
      k.grow.rate k.ctx s' = ok kG ∧ k.oxid.rate k.ctx s' = ok kO ∧ IsArea n (n * m) A ∧ 0 < A ∧
      k'.sources.soot = [N0, N1 + (kG - kO) * A] ∧ l'.sources.soot[0]? = some N0 ∧ l'.sources.soot[1]? = some N1 ∧
      gasRates k'.nucl.ratio (J * (s'.cMin * gasMW .C / Na)) = ok l'.sources.gas ∧ N1 = J * (s'.cMin * gasMW .C / Na) := by
  have hm0 : 0 < m := mmin_pos.trans hm
  obtain ⟨k', s', J, n', kG, kO, A, a1, a2, a3, _, a5, a6, a7, _, _, _, _, a12, a13⟩ := mono_eval hk
  obtain ⟨wq, aq, l', t', J', n'', kG', kO', e0, hwq, haq, _, _, b1, b2, b3, _, b5, b6, _, _, _, _, _, _, _, b12, b13⟩ := qmom_eval eig hl
  have hN1 : 1 ≤ l.nsoot / 2 := by omega
  rw [Agree.qmomNodes he hmo hn hm0 (by rw [hl.len]; omega) (by rw [hl.wlen]; omega) (by rw [hl.alen]; omega), ok.injEq, Prod.mk.injEq,
    hl.wlen, hl.alen] at e0
  obtain ⟨rfl, rfl⟩ := e0
  have hw : monoW n w = n := by rw [monoW, if_pos hn]
  have ha : monoA n (n * m) a = m := by rw [monoA, if_pos hn]; field_simp
  have t0 : idx t.sootVar 0 = ok n := by
    have hlt : 0 < t.sootVar.length := by rw [hl.len]; omega
    rw [idx_getD hlt, Agree.moment hmo hlt, pow_zero, mul_one]
  have t1 : idx t.sootVar 1 = ok (n * m) := by
    have hlt : 1 < t.sootVar.length := by rw [hl.len]; omega
    rw [idx_getD hlt, Agree.moment hmo hlt, pow_one]
  have g' : ∀ x y, SameGas { s with wts := [monoW n w], absc := [monoA n (n * m) a] } { t with wts := x, absc := y } := fun x y => by
    rw [SameGas]; rw [SameGas] at hg; rw [hg]
  obtain ⟨rfl, rfl, hc, rfl, rfl⟩ := Agree.rates hM hp (by rw [hk.psd]; decide) (by rw [hl.psd]; decide) (g' _ _) (by simp only; rw [t0, hk.soot]; rfl)
    (by simp only; rw [t1, hk.soot]; rfl) a3 a2 a5 a6 b2 b5 b6
  have hA := Agree.area hn hm0 a7
  have hn1 : n''.mech ≠ .PAH := by rw [(Nucl.rate_inv a2).1]; exact hp
  have hv : k.coag.val s' m m = k.coag.val s m m := by rw [a3]; rfl
  have hv' : l.coag.val t m m = k.coag.val s m m := by rw [hM.coag, hg]; rfl
  have hMr : ∀ r, nodeMr ((List.range (l.nsoot / 2)).map fun i => if i = 0 then n else 0)
      ((List.range (l.nsoot / 2)).map fun i => if i = 0 then m else 0) r = 0 :=
    nodeMr_of_empty (i := 1) (by rw [hwq]; omega) (.inl (by rw [getD_of_lt (by simp; omega)]; simp))
  rw [hw, ha, hv, if_neg hn1, add_zero] at a13
  simp only [hMr, mul_zero, neg_zero, hc] at b12
  have hA0 : 0 < A := by rw [hA]; have := acoef_pos; positivity
  obtain ⟨g1, g2, g3, f1, f2, f3, e⟩ := Model.finish_inv b12
  obtain ⟨_, _, _, _, _, _, ek⟩ := Model.finish_inv a12
  have hkn : k'.nucl = n'' := by rw [ek]
  rw [hw, ha] at a2
  refine ⟨k', s', l', t', J', n'', _, _, kG', kO', A, a1, b1, a2, rfl, a5, a6, a7, hA0, a13, ?_, ?_, ?_, by ring⟩
  · rw [b13, List.getElem?_map, List.getElem?_range (by omega)]
    simp only [Option.map_some, qmomSoot, if_neg hn1, hMr, Agree.collision_first _ hN1, hv']
    congr 1; push_cast; ring
  · rw [b13, List.getElem?_map, List.getElem?_range (by omega)]
    simp only [Option.map_some, qmomSoot, if_neg hn1, hMr, Agree.collision_first _ hN1, hv', hc]
    congr 1; push_cast; ring
  · rw [hkn, f1, e, gasRates_zero f2, gasRates_zero f3]
    congr 1; funext sp; simp

namespace Agree

theorem growS (g : Grow) {x y : Ctx} {s t : State} (hx : Sized x s) (hy : Sized y t) (h : SameGas s t) (h0 : numOf y t = numOf x s)
    (h1 : massOf y t = massOf x s) : g.rate y t = g.rate x s := by
  have a := moments01_ok hx; have b := moments01_ok hy
  have c := hacaMoments_ok hx; have d := hacaMoments_ok hy
  rw [h0, h1, ← a] at b
  rw [h0, h1, ← c] at d
  obtain ⟨e, f, u, v, z, rfl⟩ : ∃ a b c d e, t = { s with nsoot := a, sootVar := b, wts := c, absc := d, sootScales := e } := ⟨_, _, _, _, _, h⟩
  unfold Grow.rate
  rw [b, d]
  rfl

theorem oxidS (g : Oxid) {x y : Ctx} {s t : State} (hx : Sized x s) (hy : Sized y t) (h : SameGas s t) (h0 : numOf y t = numOf x s)
    (h1 : massOf y t = massOf x s) : g.rate y t = g.rate x s := by
  have a := moments01_ok hx; have b := moments01_ok hy
  rw [h0, h1, ← a] at b
  obtain ⟨e, f, u, v, z, rfl⟩ : ∃ a b c d e, t = { s with nsoot := a, sootVar := b, wts := c, absc := d, sootScales := e } := ⟨_, _, _, _, _, h⟩
  unfold Oxid.rate
  rw [b]
  rfl

theorem sum_hot {N i : ℕ} (hi : i < N) (f : ℕ → ℝ) (n : ℝ) (g : ℕ → ℝ) (hg : ∀ k < N, g k = if k = i then n else 0) :
    ∑ k ∈ Finset.range N, g k * f k = n * f i := by
  rw [Finset.sum_eq_single i]
  · rw [hg i hi, if_pos rfl]
  · intro k hk hki; rw [hg k (Finset.mem_range.mp hk), if_neg hki, zero_mul]
  · exact fun h => absurd (Finset.mem_range.mpr hi) h

/-- Below the last bin the shares of one particle add up to one. -/
theorem shares_one {N : ℕ} {b : ℕ → ℝ} (h0 : 0 < b 0) (hb : ∀ k, k + 1 < N → b k < b (k + 1)) {M : ℝ} (h1 : b 0 ≤ M) (h2 : M < b (N - 1)) (hN : 2 ≤ N) :
    ∑ k ∈ Finset.range N, SectDoc.share N b k M = 1 := by
  obtain ⟨l, hl, e1, e2⟩ : ∃ l, l + 1 < N ∧ b l ≤ M ∧ M < b (l + 1) := by
    by_contra hno
    push Not at hno
    have : ∀ l, l < N → b l ≤ M := fun l => by
      induction l with
      | zero => exact fun _ => h1
      | succ l ih => exact fun hl => hno l hl (ih (by omega))
    exact absurd (this (N - 1) (by omega)) (not_le.mpr h2)
  have e := hb l hl
  rw [Finset.sum_congr rfl fun k hk => SectDoc.share_sums h0 hb hl e1 e2 k (Finset.mem_range.mp hk),
    Finset.sum_eq_add l (l + 1) (by omega)]
  · rw [if_pos rfl, if_neg (by omega), if_pos rfl, ← add_div, div_eq_one_iff_eq (by linarith)]; ring
  · rintro k _ ⟨q1, q2⟩
    rw [if_neg q1, if_neg q2]
  · exact fun h => absurd (Finset.mem_range.mpr (by omega)) h
  · exact fun h => absurd (Finset.mem_range.mpr (by omega)) h

theorem coag_hot {N i : ℕ} {b β n : _} (hi : i < N) (h0 : 0 < b 0) (hb : ∀ k, k + 1 < N → b k < b (k + 1)) (hm : b 0 ≤ b i) (h2 : b i + b i < b (N - 1))
    (hN : 2 ≤ N) (hp : 0 < b i) {g : ℕ → ℝ} (hg : ∀ k < N, g k = if k = i then n else 0) :
    ∑ k ∈ Finset.range N, SectDoc.coag N b β g k = -(β (b i) (b i) * n ^ 2 / 2) := by
  have e1 : ∀ k, ∑ x ∈ Finset.range N, ∑ j ∈ Finset.range N, β (b x) (b j) * g x * g j * SectDoc.share N b k (b x + b j) =
      β (b i) (b i) * n * n * SectDoc.share N b k (b i + b i) := by
    intro k
    have : ∀ x, ∑ j ∈ Finset.range N, β (b x) (b j) * g x * g j * SectDoc.share N b k (b x + b j) =
        g x * (n * (β (b x) (b i) * SectDoc.share N b k (b x + b i))) := by
      intro x
      rw [← sum_hot hi (fun j => β (b x) (b j) * SectDoc.share N b k (b x + b j)) n g hg, Finset.mul_sum]
      exact Finset.sum_congr rfl fun j _ => by ring
    simp only [this]
    rw [sum_hot hi _ n g hg]; ring
  have e2 : ∀ k, ∑ j ∈ Finset.range N, β (b k) (b j) * g j = n * β (b k) (b i) := by
    intro k
    rw [← sum_hot hi (fun j => β (b k) (b j)) n g hg]
    exact Finset.sum_congr rfl fun j _ => by ring
  simp only [SectDoc.coag, e1, e2]
  rw [Finset.sum_sub_distrib, ← Finset.mul_sum, ← Finset.mul_sum, shares_one h0 hb (by linarith) h2 hN, sum_hot hi _ n g hg]
  ring

end Agree

/-- **C79 (MONO and SECT).** For `n` particles that all lie in one interior bin `i` of a sectional model, light enough that two of them together stay below the
last bin, MONO (with the mass `m` of that bin) and SECT with the same mechanisms, without PAH nucleation, report the same soot mass source, the same gas
sources and the same particle loss by coagulation, for every state, number of bins and kernel. Nucleation puts `J · mN / m₀` particles into the first bin,
so the number sources agree when the first bin is the mass of a nucleus. -/
theorem C79_mono_sect (k l : Model) (s t : State) (glob : Option ℝ) (n m w a : ℝ) (i : ℕ) (hk : MonoReady k s n (n * m) w a) (hl : SectReady l t)
    (hgeo : GeoBins l) (hown : OwnFactor l glob) (hi0 : 0 < i) (hi : i + 1 < l.nsoot) (hm : l.mBins.getD i 0 = m) (hcut : mmin < m)
    (htop : m + m < l.mBins.getD (l.nsoot - 1) 0) (hot : ∀ j < l.nsoot, t.sootVar.getD j 0 = if j = i then n else 0)
    (hg : SameGas s t) (hM : SameMech k l) (hp : k.nucl.mech ≠ .PAH) (hn : 0 < n) :
    ∃ k' s' l' t' glob' J n' mN x0 x1, monoSources k s = ok (k', s') ∧ sectSources l glob t = ok (l', t', glob') ∧
      k.nucl.rate (ibetaNodes k.coag) { s with wts := [n], absc := [m] } = ok (J, n', s') ∧ x0 = k.coag.val s m m * n ^ 2 / 2 ∧
      mN = s'.cMin * (gasMW .C / Na) ∧ k'.sources.soot = [J - x0, x1] ∧ sectMassSource l' = x1 ∧ l'.sources.gas = k'.sources.gas ∧
      sectNumSource l' = J * (mN / l.mBins.getD 0 0) - x0 ∧ (mN = l.mBins.getD 0 0 → sectNumSource l' = J - x0) := by
  have hm0 : 0 < m := mmin_pos.trans hcut
  obtain ⟨k', s', J, n', kG, kO, A, a1, a2, a3, _, a5, a6, a7, _, _, _, _, a12, a13⟩ := mono_eval hk
  obtain ⟨l', t', glob', J', n'', kG', kO', C, b1, b2, b3, b4, b5, b6, b7, _, _, _, _, b12, b13⟩ := sect_eval hl (hown.globOk hl.bins hgeo)
  have hr : SectReady l t' := by rw [b3]; exact hl.upd b4
  have hsv : t'.sootVar = t.sootVar := by rw [b3]
  have hin : i < l.nsoot := by omega
  have hw : monoW n w = n := by rw [monoW, if_pos hn]
  have ha : monoA n (n * m) a = m := by rw [monoA, if_pos hn]; field_simp
  have hpl : l.nucl.mech ≠ .PAH := by rw [hM.nucl]; exact hp
  have g' : SameGas { s with wts := [monoW n w], absc := [monoA n (n * m) a] } t := by rw [SameGas]; exact hg
  -- the rates
  rw [hM.nucl, Agree.nucl hp g', a2, map'_ok, ok.injEq] at b2
  obtain ⟨rfl, rfl, ht'⟩ : J = J' ∧ n' = n'' ∧ { s' with nsoot := t.nsoot, sootVar := t.sootVar, wts := t.wts, absc := t.absc, sootScales := t.sootScales } = t' := by
    simpa using b2
  have gs : SameGas s' t' := by rw [← ht', SameGas]
  have hc : t'.cMin = s'.cMin := by rw [← ht']
  have rk : Ready k s' := by rw [a3]; exact hk.toReady.upd (by assumption) _ _
  have hkx : k.ctx.psd ≠ .SECT := by show k.psd ≠ .SECT; rw [hk.psd]; decide
  have hlx : l.ctx.psd = .SECT := hl.psd
  have s0 : s'.sootVar = [n, n * m] := by rw [a3]; exact hk.soot
  have q0 : numOf l.ctx t' = numOf k.ctx s' := by
    rw [numOf, if_pos hlx, numOf, if_neg hkx, s0, hsv]
    have := Agree.sum_hot hin (fun _ => 1) n _ hot
    simp only [mul_one] at this
    exact this
  have q1 : massOf l.ctx t' = massOf k.ctx s' := by
    rw [massOf, if_pos hlx, massOf, if_neg hkx, s0, hsv]
    have := Agree.sum_hot hin (fun j => l.mBins.getD j 0) n _ hot
    rw [hm] at this
    exact this
  rw [hM.grow, Agree.growS k.grow rk.sized hr.sized gs q0 q1, a5, ok.injEq] at b5
  rw [hM.oxid, Agree.oxidS k.oxid rk.sized hr.sized gs q0 q1, a6, ok.injEq] at b6
  subst b5 b6
  -- surface area
  have eA : ∑ j ∈ Finset.range l.nsoot, binArea l t j = A := by
    have : ∀ j ∈ Finset.range l.nsoot, binArea l t j = t.sootVar.getD j 0 * (π * (6 * l.mBins.getD j 0 / (π * rhoSoot)) ^ twothird) :=
      fun j hj => by rw [binArea, if_pos (Finset.mem_range.mp hj)]; ring
    have hr := rhoSoot_pos
    rw [Finset.sum_congr rfl this, Agree.sum_hot hin _ n _ hot, hm, Agree.area hn hm0 a7, acoef,
      show 6 * m / (π * rhoSoot) = 6 / (π * rhoSoot) * m by ring, mul_rpow (by positivity) hm0.le]
    ring
  have z0 : binArea l t 0 = 0 := by rw [binArea, if_pos (by omega), hot 0 (by omega), if_neg (by omega), mul_zero]
  have zN : binArea l t (l.nsoot - 1) = 0 := by rw [binArea, if_pos (by omega), hot _ (by omega), if_neg (by omega), mul_zero]
  -- coagulation
  obtain ⟨C', _, e1, e2, _, _⟩ := sectCoag_ok hr (hown.globOk hl.bins hgeo)
  cases b7.symm.trans e1
  obtain ⟨C'', _, e3, _, e4⟩ := sectCoag_doc hr hgeo hown
  cases b7.symm.trans e3
  have eC : ∑ j ∈ Finset.range l.nsoot, C j = -(k.coag.val s' m m * n ^ 2 / 2) := by
    rw [Finset.sum_congr rfl fun j hj => e4 j (Finset.mem_range.mp hj),
      Agree.coag_hot (b := fun j => l.mBins.getD j 0) hin hl.bins.pos0 (fun j hj => hl.bins.mono j hj) (hl.bins.le (by omega) hin) (by rw [hm]; exact htop)
        hl.bins.two (by rw [hm]; exact hm0) (n := n) (fun j hj => by rw [hsv]; exact hot j hj)]
    simp only [hm, hM.coag]
    rw [gs]; rfl
  have hn1 : n'.mech ≠ .PAH := by rw [(Nucl.rate_inv a2).1]; exact hp
  have hsp := Model.finish_spec (by rw [hM.nucl]; exact (Nucl.rate_inv a2).1) b12
  rw [hw, ha, if_neg hn1] at a13
  rw [eA, hc] at b12
  simp only [if_neg hn1] at b13
  have hb0 := hl.bins.pos0.ne'
  have h2 := hl.bins.two
  have num : sectNumSource l' = J * (s'.cMin * (gasMW .C / Na) / l.mBins.getD 0 0) - k.coag.val s' m m * n ^ 2 / 2 := by
    have hnuc : ∑ k ∈ Finset.range l.nsoot, (if k = 0 then J * (t'.cMin * gasMW .C / Na) / l.mBins.getD 0 0 else 0) =
        J * (t'.cMin * gasMW .C / Na) / l.mBins.getD 0 0 := by
      rw [Finset.sum_eq_single 0]
      · simp
      · intro k _ hk; simp [hk]
      · intro hx; simp at hx; omega
    rw [sectNumSource, hsp.nsoot, b13, sum_soot_map']
    simp only [Finset.sum_add_distrib]
    rw [hnuc, upVal_num hl.bins, downVal_num hl.bins, z0, zN, eC, hc]
    simp
    ring
  rw [hw, ha] at a2
  refine ⟨k', s', l', t', glob', J, n', _, _, _, a1, b1, a2, by rw [a3]; rfl, rfl, a13, ?_, Agree.gas hM (by ring) rfl (by ring) a12 b12, num, ?_⟩
  · have hnuc : ∑ k ∈ Finset.range l.nsoot, l.mBins.getD k 0 * (if k = 0 then J * (t'.cMin * gasMW .C / Na) / l.mBins.getD 0 0 else 0) =
        J * (t'.cMin * gasMW .C / Na) := by
      rw [Finset.sum_eq_single 0]
      · simp only [if_true]; field_simp
      · intro k _ hk; simp [hk]
      · intro hx; simp at hx; omega
    rw [sectMassSource, hsp.nsoot, hsp.mBins, b13, sum_soot_map]
    simp only [mul_add, Finset.sum_add_distrib]
    rw [hnuc, upVal_mass hl.bins, downVal_mass hl.bins, e2, ← Finset.mul_sum, ← Finset.mul_sum, eA, hc]
    simp
    ring
  · intro h
    rw [num, h, div_self hb0, mul_one]

/-! ## Concrete cases -/

theorem exSame (u v : List ℝ) (c : Bool) : SameGas (exSt u c) (exSt v c) := by
  simp [SameGas, exSt_eq, stateAfter, exArgs, State.mk']

theorem exSameMech (p q : PsdMech) (a b : ℕ) (n : NuclMech) (g : GrowMech) (o : OxidMech) (c : CoagMech) :
    SameMech (exModel p a n g o c) (exModel q b n g o c) := ⟨rfl, rfl, rfl, rfl⟩

theorem exMonoReady2 (n : NuclMech) (hn : n ≠ .AJ_RED) (hb : n ≠ .BROWN) (g : GrowMech) (o : OxidMech) (c : CoagMech) {M0 M1 : ℝ} (h0 : 0 ≤ M0)
    (h1 : 0 ≤ M1) (clean : Bool) : MonoReady (exModel .MONO 2 n g o c) (exSt [M0, M1] clean) M0 M1 0 0 where
  toReady := exReady .MONO 2 n hn hb g o c _ clean rfl (by norm_num) (by simp [h0, h1])
  psd := rfl
  notar := rfl
  len := by simp [exModel, Sources.new]
  soot := exSt_sootVar _ (by simp [h0, h1])
  wts := by simp [exSt_wts]
  absc := by simp [exSt_absc]

theorem mmin_lt_ex : mmin < (1E-21 : ℝ) := by norm_num [mmin]

/-- All nuclei models but PAH (and the two whose constructors are not defined), all surface mechanisms and kernels of LOGN. -/
example (n : NuclMech) (hn : n ≠ .AJ_RED) (hb : n ≠ .BROWN) (hp : n ≠ .PAH) (g : GrowMech) (o : OxidMech) (c : CoagMech)
    (hc : c = .FM ∨ c = .CONTINUUM ∨ c = .HM) :
    ∃ k' s' l' t' J x0 x1 y0 y2, monoSources (exModel .MONO 2 n g o c) (exSt [1E15, 1E15 * 1E-21] false) = ok (k', s') ∧
      lognSources (exModel .LOGN 3 n g o c) (exSt [1E15, 1E15 * 1E-21, 1E15 * 1E-21 ^ 2] false) = ok (l', t') ∧
      k'.sources.soot = [J - x0, x1] ∧ l'.sources.soot = [J - y0, x1, y2] ∧ l'.sources.gas = k'.sources.gas ∧ 0 < x0 ∧
      (c = .CONTINUUM → y0 = x0) ∧ (c = .FM → y0 = 0.8536 * sqrt 2 * x0) ∧ (c = .HM → y0 = 0) := by
  obtain ⟨k', s', l', t', J, _, x0, x1, y0, y2, h1, h2, _, _, h3⟩ := C79_mono_logn _ _ _ _ 1E15 1E-21 0 0 (exMonoReady2 n hn hb g o c (by norm_num) (by norm_num) false)
    (exLognReady n hn hb g o c hc (by norm_num) (by norm_num) (by norm_num) false) (exSame _ _ _) (exSameMech _ _ _ _ _ _ _ _) hp (by norm_num) mmin_lt_ex
  exact ⟨k', s', l', t', J, x0, x1, y0, y2, h1, h2, h3⟩

example (n : NuclMech) (hn : n ≠ .AJ_RED) (hb : n ≠ .BROWN) (hp : n ≠ .PAH) (g : GrowMech) (o : OxidMech) (c : CoagMech) (hc : c ≠ .FUCHS) :
    ∃ k' s' l' t' J x0 x1 y0, monoSources (exModel .MONO 2 n g o c) (exSt [1E15, 1E15 * 1E-21] false) = ok (k', s') ∧
      momicSources (exModel .MOMIC 4 n g o c) (exSt exMonoMom false) = ok (l', t') ∧
      k'.sources.soot = [J - x0, x1] ∧ l'.sources.soot[0]? = some (J - y0) ∧ l'.sources.soot[1]? = some x1 ∧ l'.sources.gas = k'.sources.gas ∧
      (c ≠ .HM → y0 = x0) ∧ (c = .HM → x0 < y0) := by
  obtain ⟨k', s', l', t', J, _, x0, x1, y0, h1, h2, _, _, h3⟩ := C79_mono_momic _ _ _ _ 1E15 1E-21 0 0 (exMonoReady2 n hn hb g o c (by norm_num) (by norm_num) false) (exMono_ready n hn hb g o c hc).1
    (exMono_ready n hn hb g o c hc).2.1 (exMono_ready n hn hb g o c hc).2.2 (exSame _ _ _) (exSameMech _ _ _ _ _ _ _ _) hp (by norm_num) mmin_lt_ex
  exact ⟨k', s', l', t', J, x0, x1, y0, h1, h2, h3⟩

/-- With C2H2 present and no oxidation, QMOM reports no mass source where MONO grows. -/
example (eig : Eig) (he : eig.NaNOut) :
    ∃ k' s' l' t' x, monoSources (exModel .MONO 2 .NONE .LIN .NONE .FM) (exSt [1E15, 1E15 * 1E-21] false) = ok (k', s') ∧
      qmomSources eig (exModel .QMOM (2 * 2) .NONE .LIN .NONE .FM) (exSt exMonoMom false) = ok (l', t') ∧
      k'.sources.soot[1]? = some x ∧ 0 < x ∧ l'.sources.soot[1]? = some 0 := by
  have e : (exSt exMonoMom false).sootVar = exMonoMom := exSt_sootVar _ fun x hx => (exMonoMom_pos x hx).le
  have hk := exMonoReady2 .NONE (by decide) (by decide) .LIN .NONE .FM (M0 := 1E15) (M1 := 1E15 * 1E-21) (by norm_num) (by norm_num) false
  obtain ⟨k', s', l', t', J, n', N0, N1, kG, kO, A, h1, h2, h2', _, h3, h4, _, h5, h6, _, h8, _, h10⟩ := C79_qmom_loses_surface eig he _ _ _ _ 1E15 1E-21 0 0 hk
    (exQmomReady 2 .NONE (by decide) (by decide) .LIN .NONE .FM exMonoMom false (by norm_num) (by simp [exMonoMom])
      (fun x hx => (exMonoMom_pos x hx).le) (by simp)) (by simp [exModel]) (by rw [e]; exact exMono_moments) (exSame _ _ _)
    (exSameMech _ _ _ _ _ _ _ _) (by decide) (by norm_num) mmin_lt_ex
  obtain ⟨k'', s'', _, _, _, _, _, a1, _, a3, a4, _⟩ := mono_eval hk
  cases h1.symm.trans a1
  have hr : Ready (exModel .MONO 2 .NONE .LIN .NONE .FM) s' := by rw [a3]; exact hk.toReady.upd a4 _ _
  have hph := hr.gas.acc.phys
  have hcc : 0 < cVal s' .C2H2 := by
    have := hph.rho; have := gasMW_pos .C2H2
    have e : s'.yGas.getD GasSp.C2H2.toNat 0 = (exSt [1E15, 1E15 * 1E-21] false).yGas.getD GasSp.C2H2.toNat 0 := by rw [a3]
    unfold cVal
    rw [e]
    have : 0 < (exSt [1E15, 1E15 * 1E-21] false).yGas.getD GasSp.C2H2.toNat 0 := by
      simp [exSt_eq, stateAfter, exArgs, argsEx2, GasSp.toNat]; norm_num
    positivity
  have hG : 0 < kG := by
    have := gasMW_pos .C
    rw [Grow.rate] at h3
    simp only [exModel, Grow.new] at h3
    rw [cexpDiv_ok hph.T.ne', ok_bind, hr.gas.gasC, ok_bind, ok.injEq] at h3
    rw [← h3]; positivity
  have hO : kO = 0 := by
    rw [Oxid.rate] at h4
    simp only [exModel, Oxid.new] at h4
    exact (ok.inj h4).symm
  have hJ : N1 = 0 := by
    rw [Nucl.rate] at h2'
    simp only [exModel, Nucl.new, ok.injEq, Prod.mk.injEq] at h2'
    rw [h10, ← h2'.1, zero_mul]
  refine ⟨k', s', l', t', N1 + (kG - kO) * A, h1, h2, by rw [h6]; rfl, ?_, by rw [h8, hJ]⟩
  rw [hJ, hO]; have := mul_pos hG h5; linarith

/-- All particles in the second of four bins. -/
example (n : NuclMech) (hn : n ≠ .AJ_RED) (hb : n ≠ .BROWN) (hp : n ≠ .PAH) (g : GrowMech) (o : OxidMech) (c : CoagMech) :
    ∃ k' s' l' t' glob' J mN x0 x1, monoSources (exModel .MONO 2 n g o c) (exSt [1E15, 1E15 * (binMasses 4 2 100).getD 1 0] false) = ok (k', s') ∧
      sectSources (exModel .SECT 4 n g o c) none (exSt [0, 1E15, 0, 0] false) = ok (l', t', glob') ∧
      mN = s'.cMin * (gasMW .C / Na) ∧ k'.sources.soot = [J - x0, x1] ∧ sectMassSource l' = x1 ∧ l'.sources.gas = k'.sources.gas ∧
      sectNumSource l' = J * (mN / (binMasses 4 2 100).getD 0 0) - x0 ∧ (mN = (binMasses 4 2 100).getD 0 0 → sectNumSource l' = J - x0) := by
  have hb1 : (binMasses 4 2 100).getD 1 0 = 200 * (gasMW .C / Na) := by rw [binMasses_getD (by norm_num)]; push_cast; ring
  have hb3 : (binMasses 4 2 100).getD 3 0 = 800 * (gasMW .C / Na) := by rw [binMasses_getD (by norm_num)]; push_cast; ring
  have hl := exSectReady 4 n hn hb g o c [0, 1E15, 0, 0] false rfl (by norm_num) (by norm_num)
  have hs : (exSt [0, 1E15, 0, 0] false).sootVar = [0, 1E15, 0, 0] := exSt_sootVar _ (by norm_num)
  have hNa : 0 < gasMW .C / Na := by norm_num [gasMW, Na]
  have hbm : (exModel .SECT 4 n g o c).mBins = binMasses 4 2 100 := by simp [exModel]
  obtain ⟨k', s', l', t', glob', J, _, mN, x0, x1, h1, h2, _, _, h3⟩ := C79_mono_sect _ _ _ _ none 1E15 ((binMasses 4 2 100).getD 1 0) 0 0 1 (exMonoReady2 n hn hb g o c (by norm_num) (by rw [hb1]; positivity) false) hl
    (exGeoBins 4 n g o c (by norm_num)) (.inl rfl) (by norm_num) (by simp [exModel]) (by rw [hbm]) (by rw [hb1]; norm_num [gasMW, Na, mmin])
    (by rw [hbm, show (exModel .SECT 4 n g o c).nsoot - 1 = 3 from rfl, hb1, hb3]; linarith)
    (by
      intro j hj
      have hj : j < 4 := hj
      rw [hs]
      interval_cases j <;> simp) (exSame _ _ _) (exSameMech _ _ _ _ _ _ _ _) hp (by norm_num)
  rw [hbm] at h3
  exact ⟨k', s', l', t', glob', J, mN, x0, x1, h1, h2, h3⟩

end Soot
