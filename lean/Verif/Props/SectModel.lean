import Verif.Props.Sect

/-!
# The whole sectional source evaluation (C10, C11, C16, C17, C20, C22, C37, C38, C40, C41, C51 for SECT)
-/

namespace Soot

open Res Real
open scoped Classical

/-- A SECT model object with well-formed bins and a state it can be evaluated on. -/
structure SectReady (m : Model) (s : State) : Prop extends Ready m s where
  psd : m.psd = .SECT
  bins : Bins m.nsoot m.mBins

/-- The cast in the bin search is defined for every pair when the cached factor is `f`. -/
def Searchable (n : ℕ) (bins : List ℝ) (f : ℝ) : Prop :=
  ∀ i j, i < n → j < n → -1 < f * log ((bins.getD i 0 + bins.getD j 0) / bins.getD 0 0) ∧
    f * log ((bins.getD i 0 + bins.getD j 0) / bins.getD 0 0) < 2 ^ 64

/-- The process-wide cached factor does not make the bin search undefined. -/
def GlobOk (m : Model) (glob : Option ℝ) : Prop :=
  m.coag.mech ≠ .NONE → ∃ f, ilnFStatic glob m.binF = ok f ∧ Searchable m.nsoot m.mBins f

theorem SectReady.len {m : Model} {s : State} (h : SectReady m s) : m.nsoot ≤ s.sootVar.length :=
  (h.sized.sect h.psd).1

theorem SectReady.upd {m : Model} {s : State} (h : SectReady m s) {c : ℝ} (hc : 0 < c) :
    SectReady m { s with cMin := c } :=
  ⟨h.toReady.upd hc s.wts s.absc, h.psd, h.bins⟩

/-- Area of the particles of bin `k`: `N_k π d²` with `d = (6 m_k/(π ρ))^{1/3}`. -/
noncomputable def binArea (m : Model) (s : State) (k : ℕ) : ℝ :=
  if k < m.nsoot then π * (6 * m.mBins.getD k 0 / (π * rhoSoot)) ^ twothird * s.sootVar.getD k 0 else 0

/-- Total surface area of the distribution, stated with diameters. -/
theorem binArea_spec {m : Model} (hb : Bins m.nsoot m.mBins) (s : State) {k : ℕ} (hk : k < m.nsoot) {d : ℝ} (hd : 0 ≤ d)
    (e : rhoSoot * (π / 6) * d ^ 3 = m.mBins.getD k 0) : binArea m s k = s.sootVar.getD k 0 * (π * d ^ 2) := by
  have hr := rhoSoot_pos
  rw [binArea, if_pos hk, ← e]
  have e : 6 * (rhoSoot * (π / 6) * d ^ 3) / (π * rhoSoot) = d ^ 3 := by field_simp
  rw [e, ← rpow_natCast d 3, ← rpow_mul hd]
  have : ((3 : ℕ) : ℝ) * twothird = (2 : ℕ) := by norm_num [twothird]
  rw [this, rpow_natCast]; ring

theorem binArea_nonneg {m : Model} {s : State} (h : SectReady m s) (k : ℕ) : 0 ≤ binArea m s k := by
  unfold binArea; split_ifs with hk
  · have := h.bins.pos hk; have := rhoSoot_pos; have := getD_nonneg h.gas.acc.sootVar_nonneg k
    positivity
  · exact le_rfl

/-- Dimer collision rate with the particles of bin `k`. -/
noncomputable def binBeta (m : Model) (s : State) (mD : ℝ) (k : ℕ) : ℝ :=
  if k < m.nsoot then m.coag.val s mD (m.mBins.getD k 0) * s.sootVar.getD k 0 else 0

theorem betaDS_ok {m : Model} {s : State} (h : SectReady m s) (mD : ℝ) :
    betaDS m s mD = ok fun k => if k < m.nsoot then m.coag.val s mD (m.mBins.getD k 0) else 0 :=
  tabLoop_ok fun k hk => by rw [h.bins.idx hk, ok_bind, h.coag]

theorem sootTab_ok {m : Model} {s : State} (h : SectReady m s) :
    (tabLoop m.nsoot fun k => idx s.sootVar k) = ok fun k => if k < m.nsoot then s.sootVar.getD k 0 else 0 :=
  tabLoop_ok fun k hk => idx_getD (hk.trans_le h.len)

theorem sectIbeta_ok {m : Model} {s : State} (h : SectReady m s) (mD : ℝ) :
    sectIbeta m s mD = ok (∑ k ∈ Finset.range m.nsoot, m.coag.val s mD (m.mBins.getD k 0) * s.sootVar.getD k 0) := by
  rw [sectIbeta, betaDS_ok h, ok_bind, sootTab_ok h, ok_bind]
  have := ibeta_total h.bins fun k => (if k < m.nsoot then m.coag.val s mD (m.mBins.getD k 0) else 0) *
    (if k < m.nsoot then s.sootVar.getD k 0 else 0)
  refine this.trans ?_
  congr 1
  refine Finset.sum_congr rfl fun k hk => ?_
  have hk := Finset.mem_range.mp hk
  simp only [if_pos hk]

theorem sectIbeta_nonneg {m : Model} {s : State} (h : SectReady m s) (mD : ℝ) :
    0 ≤ ∑ k ∈ Finset.range m.nsoot, m.coag.val s mD (m.mBins.getD k 0) * s.sootVar.getD k 0 :=
  Finset.sum_nonneg fun k _ => mul_nonneg (Coag.val_nonneg h.gas.acc.phys h.fm _ _)
    (getD_nonneg h.gas.acc.sootVar_nonneg k)

theorem coagLoop_ok {m : Model} {s : State} (h : SectReady m s) {f : ℝ} (hf : Searchable m.nsoot m.mBins f)
    (l : List (ℕ × ℕ)) (hl : ∀ p ∈ l, p.1 ≤ p.2 ∧ p.2 < m.nsoot) (S : ℕ → ℝ) :
    ∃ S', coagLoop m.nsoot m.mBins m.coag s f l S = ok S' := by
  induction l generalizing S with
  | nil => exact ⟨S, rfl⟩
  | cons p t ih =>
    obtain ⟨i, j⟩ := p
    obtain ⟨hij, hj⟩ := hl (i, j) (by simp)
    simp only at hij hj
    obtain ⟨h1, h2⟩ := hf i j (by omega) hj
    have hk : toSizeT (f * log ((m.mBins.getD i 0 + m.mBins.getD j 0) / m.mBins.getD 0 0)) =
        ok ⌊f * log ((m.mBins.getD i 0 + m.mBins.getD j 0) / m.mBins.getD 0 0)⌋₊ := by
      rw [toSizeT, if_neg]; push Not; exact ⟨h1, h2⟩
    rw [coagLoop, coagPair_ok h.bins (by omega) hj h.len (h.coag _ _) hk, ok_bind]
    exact ih (fun p hp => hl p (by simp [hp])) _

theorem pairs_mem (n : ℕ) : ∀ p ∈ pairs n, p.1 ≤ p.2 ∧ p.2 < n := fun p hp => mem_pairs.mp hp

/-- The coagulation block: total mass unchanged, total number not increased. -/
theorem sectCoag_ok {m : Model} {s : State} (h : SectReady m s) {glob : Option ℝ} (hg : GlobOk m glob) :
    ∃ S glob', sectCoag m glob s = ok (S, glob') ∧
      ∑ k ∈ Finset.range m.nsoot, m.mBins.getD k 0 * S k = 0 ∧ ∑ k ∈ Finset.range m.nsoot, S k ≤ 0 ∧
      (m.coag.mech = .NONE → S = fun _ => 0) := by
  unfold sectCoag
  by_cases hc : m.coag.mech = .NONE
  · simp only [hc, ne_eq, not_true_eq_false, if_false]
    exact ⟨_, _, rfl, by simp, by simp, fun _ => rfl⟩
  · obtain ⟨f, hf, hs⟩ := hg hc
    obtain ⟨S, hS⟩ := coagLoop_ok h hs _ (pairs_mem m.nsoot) fun _ => 0
    simp only [ne_eq, hc, not_false_eq_true, if_true, hf, ok_bind, hS]
    refine ⟨_, _, rfl, ?_, ?_, fun hx => absurd hx id⟩
    · simpa using coagLoop_mass h.bins h.len _ (pairs_mem m.nsoot) hS
    · simpa using coagLoop_num h.bins h.len h.gas.acc.phys h.fm h.gas.acc.sootVar_nonneg _ (pairs_mem m.nsoot) hS

theorem upVal_zero (n : ℕ) (bins : List ℝ) : upVal n bins (fun _ => 0) = fun _ => 0 := by
  funext k; simp [upVal, fIn, fUp]
theorem downVal_zero (n : ℕ) (bins : List ℝ) : downVal n bins (fun _ => 0) = fun _ => 0 := by
  funext k; simp [downVal, fDown]

/-- Complete evaluation of SECT on a ready state. -/
theorem sect_eval {m : Model} {s : State} {glob : Option ℝ} (h : SectReady m s) (hg : GlobOk m glob) :
    ∃ m' s' glob' J n' kG kO C,
      sectSources m glob s = ok (m', s', glob') ∧
      m.nucl.rate (sectIbeta m) s = ok (J, n', s') ∧ s' = { s with cMin := s'.cMin } ∧ 0 < s'.cMin ∧
      m.grow.rate m.ctx s' = ok kG ∧ m.oxid.rate m.ctx s' = ok kO ∧ sectCoag m glob s' = ok (C, glob') ∧
      0 ≤ J ∧ 0 ≤ kG ∧ 0 ≤ kO ∧ (n'.mech = .PAH → 0 ≤ n'.dimer.mDimer ∧ 0 ≤ n'.dimer.nDimer) ∧
      m.finish n' m'.sources.soot m.sources.tar (J * (s'.cMin * gasMW .C / Na))
        (kG * ∑ k ∈ Finset.range m.nsoot, binArea m s k) (-(kO * ∑ k ∈ Finset.range m.nsoot, binArea m s k)) = ok m' ∧
      m'.sources.soot = (List.range m.nsoot).map fun k =>
        (if k = 0 then J * (s'.cMin * gasMW .C / Na) / m.mBins.getD 0 0 else 0) +
        upVal m.nsoot m.mBins (fun k => kG * binArea m s k) k +
        (if n'.mech = .PAH then upVal m.nsoot m.mBins (fun k => binBeta m s' n'.dimer.mDimer k * n'.dimer.nDimer *
          n'.dimer.mDimer) k else 0) +
        downVal m.nsoot m.mBins (fun k => kO * binArea m s k) k + C k := by
  have hn := h.bins.two
  obtain ⟨J, n', s', hJ, hJ0, hs', hc', hJN, hd, hgas⟩ := h.toReady.nucl (sectIbeta m) (by
    intro _ c mD hc _
    exact ⟨_, sectIbeta_ok (h.upd hc) mD, sectIbeta_nonneg (h.upd hc) mD⟩)
  have hr : SectReady m s' := by rw [hs']; exact h.upd hc'
  obtain ⟨kG, hG, hG0, hGN, _⟩ := hr.grow
  obtain ⟨kO, hO, hO0, hON⟩ := hr.oxid
  obtain ⟨C, glob', hC, _⟩ := sectCoag_ok hr hg
  obtain ⟨hn1, _⟩ := Nucl.rate_inv hJ
  have hsv : s'.sootVar = s.sootVar := by rw [hs']
  have hA : (tabLoop m.nsoot fun k => do
      let b ← idx m.mBins k
      let p ← cpow (6 * b / (π * rhoSoot)) twothird
      let N ← idx s'.sootVar k
      ok (π * p * N)) = ok (binArea m s) := by
    rw [tabLoop_ok (g := fun k => π * (6 * m.mBins.getD k 0 / (π * rhoSoot)) ^ twothird * s.sootVar.getD k 0)]
    · rfl
    · intro k hk
      have := h.bins.pos hk; have := rhoSoot_pos
      rw [h.bins.idx hk, ok_bind, cpow_ok (by positivity), ok_bind, hsv, idx_getD (hk.trans_le h.len), ok_bind]
  have hnuc : ((if n'.mech ≠ .NONE then do
      let m0 ← idx m.mBins 0
      let q ← cdiv (J * (s'.cMin * gasMW .C / Na)) m0
      ok (Function.update (fun _ => (0 : ℝ)) 0 q)
    else ok fun _ => 0) : Res (ℕ → ℝ)) = ok fun k => if k = 0 then J * (s'.cMin * gasMW .C / Na) / m.mBins.getD 0 0 else 0 := by
    split_ifs with hx
    · rw [h.bins.idx (by omega), ok_bind, cdiv_ok h.bins.pos0.ne', ok_bind]
      congr 1; funext k
      by_cases hk : k = 0
      · subst hk; simp
      · simp [hk]
    · have : J = 0 := hJN (by rw [← hn1]; exact not_not.mp hx)
      subst this; simp
  have hgrw : (if m.grow.mech ≠ .NONE then sectUp m.nsoot m.mBins fun k => kG * binArea m s k else ok fun _ => 0) =
      ok (upVal m.nsoot m.mBins fun k => kG * binArea m s k) := by
    split_ifs with hx
    · exact sectUp_ok h.bins _
    · have : kG = 0 := hGN (not_not.mp hx)
      subst this; simp [upVal_zero]
  have hoxi : (if m.oxid.mechType ≠ .NONE then sectDown m.nsoot m.mBins fun k => kO * binArea m s k
      else ok fun _ => 0) = ok (downVal m.nsoot m.mBins fun k => kO * binArea m s k) := by
    split_ifs with hx
    · exact sectDown_ok h.bins _
    · have : kO = 0 := hON (not_not.mp hx)
      subst this; simp [downVal_zero]
  have hcnd : ((if n'.mech = .PAH then do
      let beta ← betaDS m s' n'.dimer.mDimer
      let N ← tabLoop m.nsoot fun k => idx s'.sootVar k
      sectUp m.nsoot m.mBins fun k => beta k * N k * n'.dimer.nDimer * n'.dimer.mDimer
    else ok fun _ => 0) : Res (ℕ → ℝ)) = ok fun k => if n'.mech = .PAH then upVal m.nsoot m.mBins (fun k =>
        binBeta m s' n'.dimer.mDimer k * n'.dimer.nDimer * n'.dimer.mDimer) k else 0 := by
    split_ifs with hx
    · rw [betaDS_ok hr, ok_bind, sootTab_ok hr, ok_bind, sectUp_ok h.bins]
      congr 2; funext k
      simp only [binBeta]
      by_cases hk : k < m.nsoot
      · simp only [if_pos hk]
      · simp only [if_neg hk, zero_mul]
    · rfl
  set nuc : ℕ → ℝ := fun k => if k = 0 then J * (s'.cMin * gasMW .C / Na) / m.mBins.getD 0 0 else 0 with hnucd
  set cnd : ℕ → ℝ := fun k => if n'.mech = .PAH then upVal m.nsoot m.mBins (fun k =>
        binBeta m s' n'.dimer.mDimer k * n'.dimer.nDimer * n'.dimer.mDimer) k else 0 with hcndd
  have hterms : sectTerms m glob s = ok ⟨nuc, upVal m.nsoot m.mBins fun k => kG * binArea m s k, cnd,
      downVal m.nsoot m.mBins fun k => kO * binArea m s k, C, n', s', glob'⟩ := by
    rw [sectTerms, hJ, ok_bind]
    simp only
    rw [hG, ok_bind, hO, ok_bind, hnuc, ok_bind, hA, ok_bind, hgrw, ok_bind, hcnd, ok_bind, hoxi, ok_bind, hC, ok_bind]
  have hsum : ∀ g : ℕ → ℝ, (sumLoop m.nsoot fun k => do let b ← idx m.mBins k; ok (g k * b)) =
      ok (∑ k ∈ Finset.range m.nsoot, m.mBins.getD k 0 * g k) := fun g =>
    sumLoop_ok fun k hk => by rw [h.bins.idx hk, ok_bind, mul_comm]
  have hmN : ∑ k ∈ Finset.range m.nsoot, m.mBins.getD k 0 * nuc k = J * (s'.cMin * gasMW .C / Na) := by
    rw [Finset.sum_eq_single 0]
    · have := h.bins.pos0.ne'
      simp only [hnucd, if_true]; field_simp
    · intro k _ hk; simp [hnucd, hk]
    · intro hx; simp at hx; omega
  obtain ⟨m', hf⟩ := Model.finish_ok (n := n') ((List.range m.nsoot).map fun k => nuc k +
      upVal m.nsoot m.mBins (fun k => kG * binArea m s k) k + cnd k +
      downVal m.nsoot m.mBins (fun k => kO * binArea m s k) k + C k) m.sources.tar
    (J * (s'.cMin * gasMW .C / Na)) (kG * ∑ k ∈ Finset.range m.nsoot, binArea m s k)
    (-(kO * ∑ k ∈ Finset.range m.nsoot, binArea m s k)) h.wf (hgas _)
  have hsoot := (Model.finish_gasC hf).2.1
  refine ⟨m', s', glob', J, n', kG, kO, C, ?_, hJ, hs', hc', hG, hO, hC, hJ0, hG0, hO0,
    fun hp => hd (hn1 ▸ hp), by rw [hsoot]; exact hf, hsoot⟩
  rw [sectSources, hterms, ok_bind]
  simp only
  rw [hsum, ok_bind, hsum, ok_bind, hsum, ok_bind, hmN, upVal_mass h.bins, downVal_mass h.bins,
    ← Finset.mul_sum, ← Finset.mul_sum, hf, ok_bind]

theorem sum_soot_map {n : ℕ} (bins : List ℝ) (g : ℕ → ℝ) :
    ∑ k ∈ Finset.range n, bins.getD k 0 * ((List.range n).map g).getD k 0 =
      ∑ k ∈ Finset.range n, bins.getD k 0 * g k :=
  Finset.sum_congr rfl fun k hk => by
    have := Finset.mem_range.mp hk
    simp [List.getD_eq_getElem?_getD, this]

theorem sum_soot_map' {n : ℕ} (g : ℕ → ℝ) :
    ∑ k ∈ Finset.range n, ((List.range n).map g).getD k 0 = ∑ k ∈ Finset.range n, g k :=
  Finset.sum_congr rfl fun k hk => by
    have := Finset.mem_range.mp hk
    simp [List.getD_eq_getElem?_getD, this]

/-- Soot mass source of a sectional model. -/
noncomputable def sectMassSource (m : Model) : ℝ :=
  ∑ k ∈ Finset.range m.nsoot, m.mBins.getD k 0 * m.sources.soot.getD k 0
/-- Particle number source of a sectional model. -/
noncomputable def sectNumSource (m : Model) : ℝ := ∑ k ∈ Finset.range m.nsoot, m.sources.soot.getD k 0

/-- **C37, C38, C41, C22, C16, C17 (SECT, whole evaluation).** On every ready state SECT finishes; its total mass source
is nucleated mass + (growth rate − oxidation rate) × total surface area + (with PAH) dimer mass × dimer
concentration × the very collision rate `I` used in the dimer balance, with no coagulation contribution; and
its total number source is nucleation + end-bin growth and condensation − first-bin oxidation + a non-positive
coagulation term which vanishes for coagulation NONE. -/
theorem C37_C38_sect (m : Model) (s : State) (glob : Option ℝ) (h : SectReady m s) (hg : GlobOk m glob) :
    ∃ m' s' glob' J n' kG kO I C,
      sectSources m glob s = ok (m', s', glob') ∧
      m.nucl.rate (sectIbeta m) s = ok (J, n', s') ∧ m.grow.rate m.ctx s' = ok kG ∧
      m.oxid.rate m.ctx s' = ok kO ∧ sectIbeta m s' n'.dimer.mDimer = ok I ∧
      sectMassSource m' = J * (s'.cMin * gasMW .C / Na) + (kG - kO) * ∑ k ∈ Finset.range m.nsoot, binArea m s k +
        (if m.nucl.mech = .PAH then n'.dimer.mDimer * n'.dimer.nDimer * I else 0) ∧
      sectNumSource m' = J * (s'.cMin * gasMW .C / Na) / m.mBins.getD 0 0 +
        kG * binArea m s (m.nsoot - 1) / m.mBins.getD (m.nsoot - 1) 0 - kO * binArea m s 0 / m.mBins.getD 0 0 +
        (if m.nucl.mech = .PAH then
          m.coag.val s' n'.dimer.mDimer (m.mBins.getD (m.nsoot - 1) 0) * s.sootVar.getD (m.nsoot - 1) 0 *
            n'.dimer.nDimer * n'.dimer.mDimer / m.mBins.getD (m.nsoot - 1) 0 else 0) + C ∧
      C ≤ 0 ∧ (m.coag.mech = .NONE → C = 0) := by
  obtain ⟨m', s', glob', J, n', kG, kO, C, h1, h2, h3, h4, h5, h6, h7, h8, h9, h10, h11, h12, h13⟩ := sect_eval h hg
  have hr : SectReady m s' := by rw [h3]; exact h.upd h4
  have hn := h.bins.two
  obtain ⟨C', g', e1, e2, e3, e4⟩ := sectCoag_ok hr hg
  cases h7.symm.trans e1
  have hsp := (Model.finish_spec (Nucl.rate_inv h2).1 h12)
  have hn1 := (Nucl.rate_inv h2).1
  refine ⟨m', s', glob', J, n', kG, kO, _, ∑ k ∈ Finset.range m.nsoot, C k, h1, h2, h5, h6, sectIbeta_ok hr _, ?_, ?_, e3,
    fun hc => by simp [e4 hc]⟩
  · have hnuc : ∑ k ∈ Finset.range m.nsoot, m.mBins.getD k 0 *
        (if k = 0 then J * (s'.cMin * gasMW .C / Na) / m.mBins.getD 0 0 else 0) = J * (s'.cMin * gasMW .C / Na) := by
      rw [Finset.sum_eq_single 0]
      · have := h.bins.pos0.ne'
        simp only [if_true]; field_simp
      · intro k _ hk; simp [hk]
      · intro hx; simp at hx; omega
    have hcnd : ∑ k ∈ Finset.range m.nsoot, m.mBins.getD k 0 *
        (if n'.mech = .PAH then upVal m.nsoot m.mBins (fun k => binBeta m s' n'.dimer.mDimer k * n'.dimer.nDimer *
          n'.dimer.mDimer) k else 0) =
        if m.nucl.mech = .PAH then n'.dimer.mDimer * n'.dimer.nDimer * ∑ k ∈ Finset.range m.nsoot,
          m.coag.val s' n'.dimer.mDimer (m.mBins.getD k 0) * s'.sootVar.getD k 0 else 0 := by
      rw [hn1]
      split_ifs with hx
      · rw [upVal_mass h.bins, Finset.mul_sum]
        refine Finset.sum_congr rfl fun k hk => ?_
        rw [binBeta, if_pos (Finset.mem_range.mp hk)]; ring
      · simp
    rw [sectMassSource, hsp.nsoot, hsp.mBins, h13, sum_soot_map]
    simp only [mul_add, Finset.sum_add_distrib]
    rw [hnuc, hcnd, upVal_mass h.bins, downVal_mass h.bins, e2, ← Finset.mul_sum, ← Finset.mul_sum]
    ring
  · have hnuc : ∑ k ∈ Finset.range m.nsoot,
        (if k = 0 then J * (s'.cMin * gasMW .C / Na) / m.mBins.getD 0 0 else 0) =
        J * (s'.cMin * gasMW .C / Na) / m.mBins.getD 0 0 := by
      rw [Finset.sum_eq_single 0]
      · simp
      · intro k _ hk; simp [hk]
      · intro hx; simp at hx; omega
    have hcnd : ∑ k ∈ Finset.range m.nsoot,
        (if n'.mech = .PAH then upVal m.nsoot m.mBins (fun k => binBeta m s' n'.dimer.mDimer k * n'.dimer.nDimer *
          n'.dimer.mDimer) k else 0) =
        if m.nucl.mech = .PAH then
          m.coag.val s' n'.dimer.mDimer (m.mBins.getD (m.nsoot - 1) 0) * s.sootVar.getD (m.nsoot - 1) 0 *
            n'.dimer.nDimer * n'.dimer.mDimer / m.mBins.getD (m.nsoot - 1) 0 else 0 := by
      rw [hn1]
      split_ifs with hx
      · have hsv : s'.sootVar = s.sootVar := by rw [h3]
        rw [upVal_num h.bins, binBeta, if_pos (by omega), hsv]
      · simp
    rw [sectNumSource, hsp.nsoot, h13, sum_soot_map']
    simp only [Finset.sum_add_distrib]
    rw [hnuc, hcnd, upVal_num h.bins, downVal_num h.bins]
    ring

/-- The factor of the model itself never makes the search undefined. -/
theorem globOk_own {m : Model} {F : ℝ} (hb : Bins m.nsoot m.mBins) (hF : 1 < F) (hm : m.binF = F)
    (hgeo : ∀ k, k < m.nsoot → m.mBins.getD k 0 = m.mBins.getD 0 0 * F ^ k)
    (hbig : m.nsoot + log 2 / log F < 2 ^ 64) : GlobOk m none := by
  intro _
  have hlF := log_pos hF
  refine ⟨1 / log F, by rw [ilnFStatic, hm, clog, if_neg (not_le.mpr (by linarith)), ok_bind, cdiv_ok hlF.ne'], ?_⟩
  intro i j hi hj
  obtain ⟨k, hk, _⟩ := search_ok hb hF hgeo hbig hi hj
  unfold toSizeT at hk
  split_ifs at hk with hx
  push Not at hx; exact hx

theorem exSectReady (nsoot : ℕ) (n : NuclMech) (hn : n ≠ .AJ_RED) (hb : n ≠ .BROWN) (g : GrowMech)
    (o : OxidMech) (c : CoagMech) (v : List ℝ) (clean : Bool) (hl : v.length = nsoot) (h2 : 2 ≤ nsoot)
    (hv : ∀ x ∈ v, 0 ≤ x) : SectReady (exModel .SECT nsoot n g o c) (exSt v clean) where
  toReady := exReady .SECT nsoot n hn hb g o c v clean hl h2 hv
  psd := rfl
  bins := by simp only [exModel, if_true]; exact binMasses_bins h2 (by norm_num) (by norm_num)

theorem exGlobOk (nsoot : ℕ) (n : NuclMech) (g : GrowMech) (o : OxidMech) (c : CoagMech) (h2 : 2 ≤ nsoot)
    (hbig : nsoot < 1000) : GlobOk (exModel .SECT nsoot n g o c) none := by
  have hl2 : log 2 / log 2 = (1 : ℝ) := div_self (log_pos (by norm_num)).ne'
  have hb : Bins nsoot (binMasses nsoot 2 100) := binMasses_bins h2 (by norm_num) (by norm_num)
  refine globOk_own (F := 2) (by simpa [exModel] using hb) (by norm_num) rfl (fun k hk => ?_) ?_
  · have hk : k < nsoot := hk
    simp only [exModel, if_true]
    rw [binMasses_getD hk, binMasses_getD (by omega)]; ring
  · rw [hl2]
    have : (nsoot : ℝ) < 1000 := by exact_mod_cast hbig
    show (nsoot : ℝ) + 1 < 2 ^ 64
    linarith [show (2 : ℝ) ^ 64 > 2000 by norm_num]

/-- The theorem applies to a constructed 4-bin model with PAH nucleation and a state with soot. -/
example : ∃ m' s' glob', sectSources (exModel .SECT 4 .PAH .LL .LL .FUCHS) none (exSt [1E15, 1E14, 1E13, 0] false) =
    ok (m', s', glob') := by
  obtain ⟨m', s', glob', _, _, _, _, _, _, h, _⟩ := C37_C38_sect _ _ none
    (exSectReady 4 .PAH (by simp) (by simp) .LL .LL .FUCHS [1E15, 1E14, 1E13, 0] false rfl (by norm_num) (by norm_num))
    (exGlobOk 4 .PAH .LL .LL .FUCHS (by norm_num) (by norm_num))
  exact ⟨m', s', glob', h⟩

/-! ## C11 -/

theorem sectTerms_nucl {m : Model} {glob : Option ℝ} {s : State} {t : SectTerms} (h : sectTerms m glob s = ok t) :
    ∃ j, m.nucl.rate (sectIbeta m) s = ok (j, t.nucl, t.st) := by
  simp only [sectTerms, bind_eq_ok] at h
  obtain ⟨⟨j, n, s'⟩, h1, kG, h2, kO, h3, nuc, h4, A, h5, grw, h6, cnd, h7, oxi, h8, ⟨coa, g'⟩, h9, h⟩ := h
  cases h
  exact ⟨j, h1⟩

/-- **C11 (SECT).** Whenever an evaluation without PAH finishes, gas sources plus the mass-weighted soot sources vanish,
for any cached factor and any contents of the model object its own calls can leave. -/
theorem C11_sect (m m' : Model) (s s' : State) (glob glob' : Option ℝ) (hw : m.WF) (hb : Bins m.nsoot m.mBins)
    (hl : m.nsoot ≤ s.sootVar.length) (hp : m.nucl.mech ≠ .PAH)
    (h : sectSources m glob s = ok (m', s', glob')) :
    (∑ sp, m'.sources.gas sp) + sectMassSource m' = 0 := by
  have hn := hb.two
  simp only [sectSources, bind_eq_ok] at h
  obtain ⟨t, ht, mN, hN, mG, hG, mO, hO, m1, hf, h⟩ := h
  cases h
  have hsum : ∀ g : ℕ → ℝ, (sumLoop m.nsoot fun k => do let b ← idx m.mBins k; ok (g k * b)) =
      ok (∑ k ∈ Finset.range m.nsoot, m.mBins.getD k 0 * g k) := fun g =>
    sumLoop_ok fun k hk => by rw [hb.idx hk, ok_bind, mul_comm]
  simp only [sectTerms, bind_eq_ok] at ht
  obtain ⟨⟨j, n, s'⟩, h1, kG, h2, kO, h3, nuc, h4, A, h5, grw, h6, cnd, h7, oxi, h8, ⟨coa, g'⟩, h9, ht⟩ := ht
  cases ht
  obtain ⟨hn1, hn2, _⟩ := Nucl.rate_inv h1
  obtain ⟨rfl, rfl⟩ := hn2 hp
  simp only [if_neg hp] at h4 h7
  cases h7
  rw [hsum] at hN hG hO
  cases hN; cases hG; cases hO
  have hbal := Model.finish_balance hw hp hw.nucl
    (fun hx => by
      rw [if_neg (not_not.mpr hx)] at h4; cases h4; simp)
    (fun hx => by
      simp only [hx, ne_eq, not_true_eq_false, if_false] at h6; cases h6; simp)
    (fun hx => by
      simp only [hx, ne_eq, not_true_eq_false, if_false] at h8; cases h8; simp) hf
  have hcoag : ∑ k ∈ Finset.range m.nsoot, m.mBins.getD k 0 * coa k = 0 := by
    unfold sectCoag at h9
    split_ifs at h9
    · simp only [bind_eq_ok] at h9
      obtain ⟨f, _, S, hS, h9⟩ := h9
      cases h9
      simpa using coagLoop_mass hb hl _ (pairs_mem m.nsoot) hS
    · cases h9; simp
  have hsp := Model.finish_spec (rfl : m.nucl.mech = m.nucl.mech) hf
  rw [hbal, sectMassSource, hsp.nsoot, hsp.mBins, (Model.finish_gasC hf).2.1, sum_soot_map]
  simp only [mul_add, Finset.sum_add_distrib, hcoag]
  simp only [mul_zero, Finset.sum_const_zero]
  ring

example : ∃ m' s' glob', sectSources (exModel .SECT 4 .LL .HACA .NSC_NEOH .FUCHS) none (exSt [1E15, 1E14, 1E13, 0] false) =
    ok (m', s', glob') ∧ (∑ sp, m'.sources.gas sp) + sectMassSource m' = 0 := by
  have hr := exSectReady 4 .LL (by simp) (by simp) .HACA .NSC_NEOH .FUCHS [1E15, 1E14, 1E13, 0] false rfl
    (by norm_num) (by norm_num)
  obtain ⟨m', s', glob', _, _, _, _, _, _, h, _⟩ := C37_C38_sect _ _ none hr
    (exGlobOk 4 .LL .HACA .NSC_NEOH .FUCHS (by norm_num) (by norm_num))
  exact ⟨m', s', glob', h, C11_sect _ _ _ _ _ _ hr.wf hr.bins hr.len (by simp [exModel, Nucl.new]) h⟩

/-! ## C16, C17 -/

/-- **C16, C17 (SECT).** Two ready SECT models that differ only in their coagulation mechanism (no PAH) have the same mass
and gas sources; relative to coagulation NONE the number source is not larger. -/
theorem C16_C17_sect (m : Model) (c : Coag) (s : State) (glob : Option ℝ) (hp : m.nucl.mech ≠ .PAH)
    (h : SectReady m s) (hg : GlobOk m glob) (h' : SectReady { m with coag := c } s)
    (hg' : GlobOk { m with coag := c } glob) :
    ∃ m' m'' s' g' g'', sectSources m glob s = ok (m', s', g') ∧
      sectSources { m with coag := c } glob s = ok (m'', s', g'') ∧
      sectMassSource m'' = sectMassSource m' ∧ m''.sources.gas = m'.sources.gas ∧
      (m.coag.mech = .NONE → sectNumSource m'' ≤ sectNumSource m') := by
  obtain ⟨m', s', g', J, n', kG, kO, C, h1, h2, h3, h4, h5, h6, h7, h8, h9, h10, h11, h12, h13⟩ := sect_eval h hg
  obtain ⟨m'', s'', g'', J', n'', kG', kO', C', k1, k2, k3, k4, k5, k6, k7, k8, k9, k10, k11, k12, k13⟩ := sect_eval h' hg'
  obtain ⟨hn1, hn2, _⟩ := Nucl.rate_inv h2
  obtain ⟨rfl, rfl⟩ := hn2 hp
  obtain ⟨kn1, kn2, _⟩ := Nucl.rate_inv k2
  obtain ⟨rfl, rfl⟩ := kn2 hp
  have e : ∀ ib ib' st, m.nucl.rate ib st = m.nucl.rate ib' st := by
    intro ib ib' st
    rcases hm : m.nucl.mech <;> simp only [Nucl.rate, hm] at hp ⊢
    exact absurd rfl hp
  have hJ : J' = J := by
    have k2' : m.nucl.rate (sectIbeta { m with coag := c }) s'' = ok (J', m.nucl, s'') := k2
    rw [e _ (sectIbeta m), h2] at k2'; cases k2'; rfl
  have hG : kG' = kG := by
    have k5' : m.grow.rate m.ctx s'' = ok kG' := k5
    rw [h5] at k5'; cases k5'; rfl
  have hO : kO' = kO := by
    have k6' : m.oxid.rate m.ctx s'' = ok kO' := k6
    rw [h6] at k6'; cases k6'; rfl
  subst hJ hG hO
  obtain ⟨D, _, d1, d2, d3, d4⟩ := sectCoag_ok h hg
  cases h7.symm.trans d1
  obtain ⟨D', _, f1, f2, f3, f4⟩ := sectCoag_ok h' hg'
  cases k7.symm.trans f1
  have hsp := Model.finish_spec hn1 h12
  have ksp := Model.finish_spec kn1 k12
  have hA : binArea { m with coag := c } s'' = binArea m s'' := rfl
  simp only [hA, if_neg hp] at h13 k13
  refine ⟨m', m'', s'', g', g'', h1, k1, ?_, ?_, fun hc => ?_⟩
  · rw [sectMassSource, sectMassSource, hsp.nsoot, hsp.mBins, ksp.nsoot, ksp.mBins, h13, k13]
    rw [sum_soot_map, sum_soot_map]
    simp only [mul_add, Finset.sum_add_distrib] at d2 f2 ⊢
    rw [d2, f2]
  · obtain ⟨a1, a2, a3, b1, b2, b3, e1⟩ := Model.finish_inv h12
    obtain ⟨a1', a2', a3', b1', b2', b3', e1'⟩ := Model.finish_inv k12
    cases b1.symm.trans b1'
    cases b2.symm.trans b2'
    cases b3.symm.trans b3'
    rw [e1, e1']
  · rw [sectNumSource, sectNumSource, hsp.nsoot, ksp.nsoot, h13, k13, sum_soot_map', sum_soot_map']
    simp only [Finset.sum_add_distrib, d4 hc, Finset.sum_const_zero, add_zero]
    have : ∀ a b : ℝ, b ≤ 0 → a + b ≤ a := fun a b hb => by linarith
    exact this _ _ f3

example : ∃ m' s' g', sectSources (exModel .SECT 3 .LL .LL .LL .NONE) none (exSt [1E15, 1E14, 0] false) = ok (m', s', g') ∧
    ∃ m'' g'', sectSources (exModel .SECT 3 .LL .LL .LL .FM) none (exSt [1E15, 1E14, 0] false) = ok (m'', s', g'') ∧
      sectNumSource m'' ≤ sectNumSource m' := by
  obtain ⟨m', m'', s', g', g'', h1, h2, _, _, h3⟩ := C16_C17_sect (exModel .SECT 3 .LL .LL .LL .NONE) (Coag.new .FM)
    (exSt [1E15, 1E14, 0] false) none (by simp [exModel, Nucl.new])
    (exSectReady 3 .LL (by simp) (by simp) .LL .LL .NONE _ _ rfl (by norm_num) (by norm_num))
    (exGlobOk 3 .LL .LL .LL .NONE (by norm_num) (by norm_num))
    (exSectReady 3 .LL (by simp) (by simp) .LL .LL .FM _ _ rfl (by norm_num) (by norm_num))
    (exGlobOk 3 .LL .LL .LL .FM (by norm_num) (by norm_num))
  exact ⟨m', s', g', h1, m'', g'', h2, h3 rfl⟩

/-! ## C20 -/

theorem sectSources_wf {m m' : Model} {s s' : State} {glob glob' : Option ℝ} (hw : m.WF)
    (h : sectSources m glob s = ok (m', s', glob')) : m'.WF ∧ m.SameSpec m' := by
  simp only [sectSources, bind_eq_ok] at h
  obtain ⟨t, ht, mN, hN, mG, hG, mO, hO, m1, hf, h⟩ := h
  cases h
  obtain ⟨j, hj⟩ := sectTerms_nucl ht
  have he := (Nucl.rate_inv hj).1
  exact ⟨Model.finish_wf hw (Nucl.rate_wf hw.nucl hj) he (by simp [hw.srcLen]) rfl (fun _ => rfl) rfl hf,
    Model.finish_spec he hf⟩

theorem sectSources_canon {m : Model} (hw : m.WF) (ht : m.tar = .NONE) (glob : Option ℝ) (s : State) :
    sectSources m glob s = sectSources m.canon glob s := by
  have hterms : sectTerms m.canon glob s = sectTerms m glob s := by
    simp only [sectTerms]
    have e1 : sectIbeta m.canon = sectIbeta m := rfl
    have e2 : m.canon.nucl = Nucl.new m.nucl.mech := rfl
    rw [e1, e2, ← Nucl.rate_canon hw.nucl]
    rfl
  simp only [sectSources, hterms]
  apply Res.bind_congr
  intro t htt
  obtain ⟨j, hj⟩ := sectTerms_nucl htt
  have he := (Nucl.rate_inv hj).1
  have etar : m.canon.sources.tar = m.sources.tar := by rw [hw.srcTar ht]; rfl
  simp only [Model.finish_canon hw he, etar]
  rfl

/-- **C20 (SECT).** Without PAH nucleation, evaluating again on the unmodified state changes nothing: model, state and
cached factor are a fixed point. -/
theorem C20_sect (m m' : Model) (s s' : State) (glob glob' : Option ℝ) (hw : m.WF) (ht : m.tar = .NONE)
    (hp : m.nucl.mech ≠ .PAH) (h : sectSources m glob s = ok (m', s', glob')) :
    sectSources m' glob' s' = ok (m', s', glob') := by
  obtain ⟨hw', hs⟩ := sectSources_wf hw h
  rw [sectSources_canon hw' (hs.tar.trans ht), hs.canon_eq, ← sectSources_canon hw ht, ← h]
  simp only [sectSources, bind_eq_ok] at h
  obtain ⟨t, htt, mN, hN, mG, hG, mO, hO, m1, hf, h⟩ := h
  cases h
  simp only [sectTerms, bind_eq_ok] at htt
  obtain ⟨⟨j, n, s'⟩, h1, kG, h2, kO, h3, nuc, h4, A, h5, grw, h6, cnd, h7, oxi, h8, ⟨coa, g'⟩, h9, htt⟩ := htt
  cases htt
  obtain ⟨rfl, rfl⟩ := (Nucl.rate_inv h1).2.1 hp
  simp only
  have hg : sectCoag m g' s' = sectCoag m glob s' := by
    rw [h9]
    unfold sectCoag at h9 ⊢
    split_ifs at h9 ⊢ with hc
    · simp only [bind_eq_ok] at h9
      obtain ⟨f, hf, S, hS, h9⟩ := h9
      cases h9
      simp only [ilnFStatic, ok_bind, hS]
    · cases h9; rfl
  have : sectTerms m g' s' = sectTerms m glob s' := by
    simp only [sectTerms, h1, ok_bind, hg]
  simp only [sectSources, this]

/-! ## C51 -/

theorem addAt_zero (S : ℕ → ℝ) (k : ℕ) : addAt S k 0 = S := by simp [addAt]

theorem coagLoop_zero {n : ℕ} {bins : List ℝ} (h : Bins n bins) {c : Coag} {s : State} {f : ℝ}
    (hs : n ≤ s.sootVar.length) (h0 : ∀ x ∈ s.sootVar, x = 0) (l : List (ℕ × ℕ))
    (hl : ∀ p ∈ l, p.1 ≤ p.2 ∧ p.2 < n) {S S' : ℕ → ℝ} (e : coagLoop n bins c s f l S = ok S') : S' = S := by
  induction l generalizing S with
  | nil => rw [coagLoop] at e; cases e; rfl
  | cons p t ih =>
    obtain ⟨i, j⟩ := p
    obtain ⟨hij, hj⟩ := hl (i, j) (by simp)
    simp only at hij hj
    rw [coagLoop, bind_eq_ok] at e
    obtain ⟨S1, h1, e⟩ := e
    rw [ih (fun p hp => hl p (by simp [hp])) e]
    obtain ⟨K, k, _, _, rfl⟩ := coagPair_inv h (by omega) hj hs h1
    have hz : s.sootVar.getD i 0 = 0 := by
      rw [getD_of_lt (show i < s.sootVar.length by omega)]; exact h0 _ (List.getElem_mem _)
    simp only [hz, mul_zero, zero_mul]
    have e1 : pairEvents 0 i j = 0 := by unfold pairEvents; split_ifs <;> simp
    rw [e1]
    unfold pairGain pairLoss
    simp only [neg_zero, zero_mul, zero_div, mul_zero, addAt_zero, ite_self]

/-- **C51 (SECT).** No soot, acetylene, benzene, PAH or tar: all soot and gas sources are zero. -/
theorem C51_sect (m : Model) (s : State) (glob : Option ℝ) (h : SectReady m s) (hg : GlobOk m glob)
    (h0 : ∀ x ∈ s.sootVar, x = 0) (h1 : Absent s .C2H2) (h2 : Absent s .C6H6) (h3 : ∀ y ∈ s.yPah, y = 0)
    (h4 : ∀ y ∈ s.tarVar, y = 0) :
    ∃ m' s' glob', sectSources m glob s = ok (m', s', glob') ∧ m'.sources.soot = List.replicate m.nsoot 0 ∧
      m'.sources.gas = fun _ => 0 := by
  obtain ⟨m', s', g', J, n', kG, kO, C, e1, e2, e3, e4, e5, e6, e7, e8, e9, e10, e11, e12, e13⟩ := sect_eval h hg
  obtain ⟨rfl, rfl, _⟩ := h.toReady.nucl_zero (sectIbeta m) (fun _ c mD hc _ =>
    ⟨_, sectIbeta_ok (h.upd hc) mD, sectIbeta_nonneg (h.upd hc) mD⟩) h1 h2 h3 h4 e2
  have hz : ∀ k, s'.sootVar.getD k 0 = 0 := fun k => by
    by_cases hk : k < s'.sootVar.length
    · rw [getD_of_lt hk]; exact h0 _ (List.getElem_mem _)
    · simp [List.getD_eq_getElem?_getD, not_lt.mp hk]
  have hA : binArea m s' = fun _ => 0 := by
    funext k; unfold binArea; rw [hz]; simp
  have hB : ∀ mD, binBeta m s' mD = fun _ => 0 := fun mD => by
    funext k; unfold binBeta; rw [hz]; simp
  have hC : C = fun _ => 0 := by
    unfold sectCoag at e7
    split_ifs at e7
    · simp only [bind_eq_ok] at e7
      obtain ⟨f, _, S, hS, e7⟩ := e7
      cases e7
      exact coagLoop_zero h.bins h.len h0 _ (pairs_mem m.nsoot) hS
    · cases e7; rfl
  refine ⟨m', s', g', e1, ?_, ?_⟩
  · rw [e13, hA, hC]
    simp only [hB, mul_zero, zero_mul, zero_div, upVal_zero, downVal_zero, ite_self, add_zero]
    simp
  · obtain ⟨a1, a2, a3, b1, b2, b3, e⟩ := Model.finish_inv e12
    rw [hA] at b2 b3
    simp only [zero_mul, Finset.sum_const_zero, mul_zero, neg_zero] at b1 b2 b3
    rw [e, gasRates_zero b1, gasRates_zero b2, gasRates_zero b3]; simp

example : ∃ m' s' g', sectSources (exModel .SECT 3 .PAH .HACA .NSC_NEOH .FUCHS) none (exSt [0, 0, 0] true) =
    ok (m', s', g') ∧ m'.sources.soot = [0, 0, 0] := by
  obtain ⟨m', s', g', h1, h2, _⟩ := C51_sect (exModel .SECT 3 .PAH .HACA .NSC_NEOH .FUCHS) (exSt [0, 0, 0] true) none
    (exSectReady 3 .PAH (by simp) (by simp) .HACA .NSC_NEOH .FUCHS _ _ rfl (by norm_num) (by simp))
    (exGlobOk 3 _ _ _ _ (by norm_num) (by norm_num))
    (by rw [exSt_sootVar _ (by simp)]; simp) (exSt_absent _).1 (exSt_absent _).2 (exSt_noPah _) (exSt_noTar _ _)
  exact ⟨m', s', g', h1, h2⟩

end Soot
