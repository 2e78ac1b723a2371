import Verif.Props.Burner
import Verif.Props.MomicExact
import Verif.Props.Orders

/-!
# C80: the MOMIC burner program (`/repo/examples/burner_flame/burner_flame_MOMIC.cc`)

Apart from the class, the mechanisms and `nsoot` the file is the program `burnMain`: the loop at 105-139 is the one of burner_flame.cc:117-144.
-/

namespace Soot

open Res Real
open scoped Classical

/-- The configurations of the MOMIC program: 3 to 7 moments (with 8 the class reads outside its tables, C33), mechanisms that need neither
benzene, tar nor PAH. -/
structure MomicCfg (p : Profiles) (nsoot : ℕ) (n : NuclMech) (g : GrowMech) (o : OxidMech) (c : CoagMech) : Prop extends BurnMechs p n g o where
  three : 3 ≤ nsoot
  seven : nsoot ≤ 7
  kernel : c ∈ [CoagMech.FM, .CONTINUUM, .HM]
  pah : n ≠ .PAH

namespace Burn

section
variable {nsoot : ℕ} {n : NuclMech} {g : GrowMech} {o : OxidMech} {c : CoagMech}

theorem _root_.Soot.MomicCfg.new (h : MomicCfg p nsoot n g o c) : Model.new .MOMIC nsoot n g o c = ok (exModel .MOMIC nsoot n g o c) :=
  exModel_new ((ctorCheck_iff .MOMIC (by simp) nsoot c .NONE).1 (.momic nsoot h.three (by have := h.seven; omega) c h.kernel)) n g o

/-- The state of an evaluation, with all eleven mass fractions. -/
noncomputable def stateAt (s : State) (nsoot : ℕ) (T rho mu : ℝ) (y V : List ℝ) : State := stateAfter s (burnArgs nsoot T rho mu (pad y) V)

variable {m : Model} {s : State} {gl : Option ℝ} {T rho mu : ℝ} {y V : List ℝ}

theorem momicReady (h : MomicCfg p nsoot n g o c) (hk : Ok (model .MOMIC nsoot n g o c) m s gl) (ha : ArgsOk p nsoot T rho mu y V) :
    MomicReady m (stateAt s nsoot T rho mu y V) := by
  have h3 := h.three
  have hr := ready h.toBurnMechs (by omega) hk ha
  have ens : m.nsoot = nsoot := hk.spec.nsoot
  have ec : m.coag.mech = c := by rw [hk.spec.coag]; rfl
  rw [ens] at hr
  have hc := h.kernel
  refine ⟨hr, hk.spec.psd, by rw [ens]; exact h3, by rw [ens]; exact h.seven, hk.spec.tar, ?_, ?_⟩
  · rw [ec]; rintro rfl; simp at hc
  · show (V.map _).length = _
    rw [List.length_map, ha.M, ens]

/-- One evaluation, up to the copy of the gas vector. -/
theorem sources_gas (eig : Eig) (h : MomicCfg p nsoot n g o c) (hk : Ok (model .MOMIC nsoot n g o c) m s gl) (ha : ArgsOk p nsoot T rho mu y V) :
    (setState s (burnArgs m.nsoot T rho mu y V)).2 = ok () ∧
    sourceTerms eig m gl (setState s (burnArgs m.nsoot T rho mu y V)).1 =
      map' (fun r : Model × State => (r.1, { r.2 with yGas := y }, gl)) (momicSources m (stateAt s nsoot T rho mu y V)) := by
  have ens : m.nsoot = nsoot := hk.spec.nsoot
  have ep : m.psd = .MOMIC := hk.spec.psd
  have e1 := C73_reads eig m gl (stateAt s nsoot T rho mu y V) y (by
    have := sameAt_pad h.toBurnMechs ha.ylen
    rw [hk.spec.nmech, hk.spec.grow, hk.spec.oxid, hk.spec.tar]; exact this)
  have e0 : sourceTerms eig m gl (stateAt s nsoot T rho mu y V) =
      map' (fun r : Model × State => (r.1, r.2, gl)) (momicSources m (stateAt s nsoot T rho mu y V)) := by
    unfold sourceTerms; rw [ep]; rfl
  rw [set_ok' hk ha y fun x hx => (ha.y x hx).2]
  refine ⟨rfl, ?_⟩
  have e2 : stateAfter s (burnArgs m.nsoot T rho mu y V) = { stateAt s nsoot T rho mu y V with yGas := y } := by rw [ens]; rfl
  show sourceTerms eig m gl (stateAfter s (burnArgs m.nsoot T rho mu y V)) = _
  rw [e2, e1, e0]
  cases momicSources m (stateAt s nsoot T rho mu y V) <;> rfl

theorem okMomic (h : MomicCfg p nsoot n g o c) (hk : Ok (model .MOMIC nsoot n g o c) m s gl) (ha : ArgsOk p nsoot T rho mu y V) {m' : Model} {s' : State}
    (e : momicSources m (stateAt s nsoot T rho mu y V) = ok (m', s'))
    (es : s' = { stateAt s nsoot T rho mu y V with cMin := s'.cMin }) : Ok (model .MOMIC nsoot n g o c) m' { s' with yGas := y } gl := by
  have h3 := h.three
  have ens : m.nsoot = nsoot := hk.spec.nsoot
  obtain ⟨q1, q⟩ := momicSources_wf hk.wf (by omega) e
  refine ⟨q1, ⟨q.psd.trans hk.spec.psd, q.nsoot.trans hk.spec.nsoot, q.Ntar.trans hk.spec.Ntar, q.nmech.trans hk.spec.nmech, q.grow.trans hk.spec.grow,
      q.oxid.trans hk.spec.oxid, q.coag.trans hk.spec.coag, q.tar.trans hk.spec.tar, q.mBins.trans hk.spec.mBins, q.binF.trans hk.spec.binF⟩,
    ?_, ?_, ?_, ?_, ?_, fun hx => by cases hx⟩ <;> rw [es]
  · exact hk.wts
  · exact hk.absc
  · show (List.replicate nPah (0:ℝ)).length = nPah
    simp
  · rfl
  · rfl

/-- One evaluation of the MOMIC program at `x`. -/
theorem momicStage (eig : Eig) {p : Profiles} (hp : Flame p) (h : MomicCfg p nsoot n g o c) {b : Burn}
    (hk : Ok (model .MOMIC nsoot n g o c) b.SM b.S b.glob) {cols : List Col} (hc : ∀ c ∈ cols, c ∈ gasFull) (hl : cols.length = 8) {Mh : List ℝ}
    (hM : Mh.length = nsoot) {x : ℝ} (hx : Inside p x) {f : Col → ℝ} (hf : ∀ c, p.at c x = ok (f c)) (hr : ∀ cols, p.row x cols = ok (cols.map f)) :
    ArgsOk p nsoot (f .T) (f .rho) (f .mu) (cols.map f) (Mh.map (· * f .rho)) ∧
    burnStage eig p cols b Mh x = map' (fun r : Model × State => (r.1, { r.2 with yGas := cols.map f }, b.glob))
      (momicSources b.SM (stateAt b.S nsoot (f .T) (f .rho) (f .mu) (cols.map f) (Mh.map (· * f .rho)))) := by
  obtain ⟨ys, e1, e2, e3⟩ := row_ok hp hx cols hc
  rw [hr, ok.injEq] at e1
  subst e1
  have pos : ∀ c ∈ [Col.v, .T, .rho, .mu], 0 < f c := by
    intro c hc
    obtain ⟨y, y1, y2⟩ := pos_ok hp hx hc
    rw [hf, ok.injEq] at y1
    rw [y1]; exact y2
  have hA : ArgsOk p nsoot (f .T) (f .rho) (f .mu) (cols.map f) (Mh.map (· * f .rho)) :=
    ⟨by obtain ⟨T, t1, _, t3⟩ := temp_le hp hx
        rw [hf, ok.injEq] at t1
        rw [t1]; exact t3, pos _ (by simp), pos _ (by simp), pos _ (by simp), e2.trans hl, e3, by simp [hM]⟩
  refine ⟨hA, ?_⟩
  obtain ⟨q1, q2⟩ := sources_gas eig h hk hA
  simp only [burnStage, hr, hf, ok_bind, q1, q2]

/-! ## Completion -/

/-- All moments but the first are non-negative, and positive if there are particles. -/
def Good (M : List ℝ) : Prop := (∀ k, 1 ≤ k → (h : k < M.length) → 0 ≤ M[k]) ∧ (M.getD 0 0 ≤ 0 ∨ ∀ k, 1 ≤ k → (h : k < M.length) → 0 < M[k])

/-- Adding a non-negative multiple of a source that nucleates, grows and coagulates keeps this. -/
theorem Good.step {M src : List ℝ} (h : Good M) {d rho v J mN : ℝ} (hd : 0 ≤ d) (hr : 0 < rho) (hv : 0 < v) (hJ : 0 ≤ J) (hm : 0 < mN)
    (hl : src.length = M.length) (h0 : ∀ x, src[0]? = some x → x ≤ J) (hs : ∀ k, 1 ≤ k → (h : k < src.length) → J * mN ^ k ≤ src[k]) :
    Good (List.zipWith (fun M s => M + d * s / rho / v) M (src.drop 0)) := by
  rw [List.drop_zero]
  have hq : ∀ k, 1 ≤ k → (hk : k < src.length) → 0 ≤ d * src[k] / rho / v := fun k h1 hk => by
    have := (mul_nonneg hJ (pow_nonneg hm.le k)).trans (hs k h1 hk)
    positivity
  refine ⟨fun k h1 hk => ?_, ?_⟩
  · have hk' : k < M.length := by simp at hk; omega
    rw [List.getElem_zipWith]
    exact add_nonneg (h.1 k h1 hk') (hq k h1 (by omega))
  · rcases h.2 with h2 | h2
    · rcases (mul_nonneg hd hJ).eq_or_lt with e | e
      · left
        rcases M with _ | ⟨a, M⟩
        · simp
        rcases src with _ | ⟨x, src⟩
        · simp
        have hx := h0 x rfl
        simp only [List.getD_cons_zero, List.zipWith_cons_cons] at h2 ⊢
        have : d * x ≤ 0 := e ▸ mul_le_mul_of_nonneg_left hx hd
        have := div_nonpos_of_nonpos_of_nonneg (div_nonpos_of_nonpos_of_nonneg this hr.le) hv.le
        linarith
      · right
        intro k h1 hk
        have hk' : k < M.length := by simp at hk; omega
        rw [List.getElem_zipWith]
        refine add_pos_of_nonneg_of_pos (h.1 k h1 hk') ?_
        have hd' : 0 < d := lt_of_le_of_ne hd fun e' => by rw [← e', zero_mul] at e; exact lt_irrefl _ e
        have hJ' : 0 < J := lt_of_le_of_ne hJ fun e' => by rw [← e', mul_zero] at e; exact lt_irrefl _ e
        have : 0 < src[k] := lt_of_lt_of_le (by positivity) (hs k h1 (by omega))
        positivity
    · right
      intro k h1 hk
      have hk' : k < M.length := by simp at hk; omega
      rw [List.getElem_zipWith]
      exact add_pos_of_pos_of_nonneg (h2 k h1 hk') (hq k h1 (by omega))

/-- When the moments are such that no evaluation can fail. -/
def Fine (o : OxidMech) (c : CoagMech) (M : List ℝ) : Prop := c = .CONTINUUM ∨ o = .NONE ∧ Good M

theorem Good.fin {M : List ℝ} (h : Good M) {rho : ℝ} (hr : 0 < rho) (h0 : 0 < ((M.map (· * rho)).map (max · 0)).getD 0 0) :
    AllPos ((M.map (· * rho)).map (max · 0)) := by
  have hl : 0 < M.length := by
    rcases M with _ | ⟨a, M⟩
    · simp at h0
    · simp
  have h0' : (0 : ℝ) < M[0] := by
    rw [List.getD_eq_getElem _ _ (by simpa using hl)] at h0
    simp only [List.getElem_map, lt_max_iff, lt_irrefl, or_false] at h0
    exact (pos_iff_pos_of_mul_pos h0).2 hr
  have hp : ∀ k (hk : k < M.length), 0 < M[k] := by
    intro k hk
    rcases Nat.eq_zero_or_pos k with rfl | hk0
    · exact h0'
    · rcases h.2 with h2 | h2
      · rw [List.getD_eq_getElem _ _ hl] at h2; linarith
      · exact h2 k hk0 hk
  intro x hx
  obtain ⟨k, hk, rfl⟩ := List.getElem_of_mem hx
  simp only [List.length_map] at hk
  simp only [List.getElem_map]
  have := hp k hk
  exact lt_max_of_lt_left (by positivity)

/-- One half of a step. -/
theorem momicAdvance (eig : Eig) {p : Profiles} (hp : Flame p) (h : MomicCfg p nsoot n g o c) {b : Burn}
    (hk : Ok (model .MOMIC nsoot n g o c) b.SM b.S b.glob) {cols : List Col} (hc : ∀ c ∈ cols, c ∈ gasFull) (hl : cols.length = 8) {Mh M : List ℝ}
    (hM : Mh.length = nsoot) (hM' : M.length = nsoot) {x : ℝ} (hx : Inside p x) (hF : Fine o c Mh) (hF' : Fine o c M) {d : ℝ} (hd : 0 ≤ d) :
    ∃ m' s' gl' M', burnStage eig p cols b Mh x = ok (m', s', gl') ∧ Ok (model .MOMIC nsoot n g o c) m' s' gl' ∧
      burnAdvance p x d m'.sources.soot 0 M = ok M' ∧ M'.length = nsoot ∧ Fine o c M' := by
  obtain ⟨f, hf, hr⟩ := vals hp hx
  obtain ⟨hA, e⟩ := momicStage eig hp h hk hc hl hM hx hf hr
  have hrd := momicReady h hk hA
  have ens : b.SM.nsoot = nsoot := hk.spec.nsoot
  have en : b.SM.nucl.mech = n := hk.spec.nmech
  have ec : b.SM.coag.mech = c := by rw [hk.spec.coag]; rfl
  have hfin : MomicFin b.SM (stateAt b.S nsoot (f .T) (f .rho) (f .mu) (cols.map f) (Mh.map (· * f .rho))) := by
    refine ⟨fun hq => absurd (en ▸ hq) h.pah, fun h0 hq => ?_⟩
    rw [ec] at hq
    rcases hF with rfl | ⟨_, hF⟩
    · simp at hq
    · exact hF.fin hA.rho h0
  obtain ⟨P, Q, m', s', J, n', kG, kO, _, e1, _, e2, e3, _, _, hJ, hG, hO, _, _, _, hO0, _, e4⟩ := momic_eval hrd hfin
  rw [e1, map'_ok] at e
  have hok := okMomic h hk hA e1 e2
  have ls : m'.sources.soot.length = nsoot := hok.wf.srcLen.trans hok.spec.nsoot
  obtain ⟨v, v1, v2⟩ := pos_ok hp hx (c := .v) (by simp)
  have a := advance (d := d) (hf .rho) hA.rho.ne' v1 v2.ne' m'.sources.soot M 0 (by omega)
  refine ⟨m', _, _, _, e, hok, a, by simp [ls, hM'], ?_⟩
  rcases hF' with rfl | ⟨ho, hF'⟩
  · exact .inl rfl
  right
  refine ⟨ho, ?_⟩
  have hkO : kO = 0 := hO0 (by rw [hk.spec.oxid]; subst ho; rfl)
  subst hkO
  have hph := hrd.gas.acc.phys
  have h3 := h.three
  have := gasMW_pos .C; have := Na_pos
  refine hF'.step (J := J) (mN := s'.cMin * gasMW .C / Na) hd hA.rho v2 hJ (by positivity) (by omega) (fun x hx => ?_) fun k h1 hk' => ?_
  · rw [e4, ens, List.getElem?_map, List.getElem?_range (by omega), Option.map_some, Option.some.injEq] at hx
    rw [← hx, momicSoot, if_neg (by rw [en]; exact h.pah)]
    have : (if 0 < (stateAt b.S nsoot (f .T) (f .rho) (f .mu) (cols.map f) (Mh.map (· * f .rho))).sootVar.getD 0 0 then
        momicCoagV b.SM.coag (stateAt b.S nsoot (f .T) (f .rho) (f .mu) (cols.map f) (Mh.map (· * f .rho)))
          (stateAt b.S nsoot (f .T) (f .rho) (f .mu) (cols.map f) (Mh.map (· * f .rho))).sootVar b.SM.nsoot 0 else 0) ≤ 0 := by
      split_ifs
      · exact momicCoagV_zero_nonpos hph hrd.fm
      · exact le_rfl
    simp only [pow_zero, CharP.cast_eq_zero, mul_zero, zero_mul]
    linarith
  · have hk2 : k < nsoot := by omega
    have : m'.sources.soot[k] = momicSoot b.SM (stateAt b.S nsoot (f .T) (f .rho) (f .mu) (cols.map f) (Mh.map (· * f .rho))) n' J kG 0
        (s'.cMin * gasMW .C / Na) k := by
      have : m'.sources.soot[k]? = some (momicSoot b.SM (stateAt b.S nsoot (f .T) (f .rho) (f .mu) (cols.map f) (Mh.map (· * f .rho))) n' J kG 0
        (s'.cMin * gasMW .C / Na) k) := by
        rw [e4, ens, List.getElem?_map, List.getElem?_range hk2, Option.map_some]
      rw [List.getElem?_eq_getElem hk'] at this
      exact Option.some.inj this
    rw [this, momicSoot, if_neg (by rw [en]; exact h.pah)]
    have hc : 0 ≤ (if 0 < (stateAt b.S nsoot (f .T) (f .rho) (f .mu) (cols.map f) (Mh.map (· * f .rho))).sootVar.getD 0 0 then
        momicCoagV b.SM.coag (stateAt b.S nsoot (f .T) (f .rho) (f .mu) (cols.map f) (Mh.map (· * f .rho)))
          (stateAt b.S nsoot (f .T) (f .rho) (f .mu) (cols.map f) (Mh.map (· * f .rho))).sootVar b.SM.nsoot k else 0) := by
      split_ifs
      · rcases h1.eq_or_lt with rfl | h1
        · rw [momicCoagV_one]
        · exact momicCoagV_nonneg hph hrd.fm h1
      · exact le_rfl
    have hg := mrVal_nonneg (stateAt b.S nsoot (f .T) (f .rho) (f .mu) (cols.map f) (Mh.map (· * f .rho))).sootVar b.SM.nsoot (k - onethird)
    have : 0 ≤ acoef := by unfold acoef rhoSoot; positivity
    have hg' : 0 ≤ (kG - 0) * (acoef * k * mrVal (stateAt b.S nsoot (f .T) (f .rho) (f .mu) (cols.map f) (Mh.map (· * f .rho))).sootVar b.SM.nsoot
      (k - onethird)) := by rw [sub_zero]; positivity
    linarith

/-- The loop invariant of the MOMIC program. -/
structure MomicInv (M : Model) (o : OxidMech) (c : CoagMech) (b : Burn) : Prop where
  obj : Ok M b.SM b.S b.glob
  len : b.Mhat.length = M.nsoot
  fine : Fine o c b.Mhat

theorem momicStep (eig : Eig) {p : Profiles} (hp : Flame p) (h : MomicCfg p nsoot n g o c) {b : Burn} (hb : MomicInv (model .MOMIC nsoot n g o c) o c b)
    {dz : ℝ} (h0 : 0 ≤ dz) (hz : Inside p b.z) (hz' : Inside p (b.z + dz)) (i : ℕ) :
    ∃ b', burnStep eig p dz i b = ok b' ∧ MomicInv (model .MOMIC nsoot n g o c) o c b' ∧ b'.z = b.z + dz := by
  have hM : b.Mhat.length = nsoot := hb.len
  have hzh : Inside p (b.z + dz / 2) := ⟨hz.1.trans (by linarith), le_trans (by linarith) hz'.2⟩
  obtain ⟨m1, s1, g1, M1, e1, k1, a1, l1, f1⟩ := momicAdvance eig hp h hb.obj (cols := gasFull) (fun _ hc => hc) rfl hM hM hz hb.fine hb.fine
    (d := 0.5 * dz) (by positivity)
  obtain ⟨m2, s2, g2, M2, e2, k2, a2, l2, f2⟩ := momicAdvance eig hp h (b := ⟨b.z, b.Mhat, s1, m1, g1⟩) k1 (cols := gasHalf) (by decide) rfl l1 hM hzh f1
    hb.fine h0
  obtain ⟨r3, hr3, _⟩ := pos_ok hp hz' (c := .rho) (by simp)
  refine ⟨⟨b.z + dz, M2, s2, m2, g2⟩, ?_, ⟨k2, l2, f2⟩, rfl⟩
  rw [burnStep, e1, ok_bind]
  simp only [a1, ok_bind, e2, a2, hr3]
  split_ifs <;> rfl

theorem momicLoop (eig : Eig) {p : Profiles} (hp : Flame p) (h : MomicCfg p nsoot n g o c) {N : ℕ} (hN : 1 ≤ N) {dz : ℝ}
    (hd : dz = (p.z.getD (p.z.length - 1) 0 - p.z.getD 0 0) / N) : ∀ k i (b : Burn), i + k = N → MomicInv (model .MOMIC nsoot n g o c) o c b →
      b.z = p.z.getD 0 0 + i * dz →
      ∃ b', burnLoop eig p dz k i b = ok b' ∧ MomicInv (model .MOMIC nsoot n g o c) o c b' ∧ b'.z = p.z.getD 0 0 + N * dz
  | 0, i, b, hi, hb, hz => ⟨b, rfl, hb, by rw [hz, ← hi]; simp⟩
  | k + 1, i, b, hi, hb, hz => by
    have h2 := hp.two
    have hzz := hp.incr 0 (p.z.length - 1) (by omega) (by omega)
    have hd0 : 0 ≤ dz := by rw [hd]; apply div_nonneg (by linarith) (Nat.cast_nonneg _)
    have hz1 : b.z + dz = p.z.getD 0 0 + ((i + 1 : ℕ) : ℝ) * dz := by rw [hz]; push_cast; ring
    obtain ⟨b1, e1, hb1, hz1'⟩ := momicStep eig hp h hb hd0 (by rw [hz, hd]; exact inside_step hp hN (by omega))
      (by rw [hz1, hd]; exact inside_step hp hN (by omega)) i
    obtain ⟨b2, e2, hb2, hz2⟩ := momicLoop eig hp h hN hd k (i + 1) b1 (by omega) hb1 (hz1'.trans hz1)
    exact ⟨b2, by rw [burnLoop, e1, ok_bind, e2], hb2, hz2⟩

end

end Burn

/-- **C80 (where the claim holds).** Without oxidation, or with the continuum kernel, the MOMIC program finishes for every physical set of
profiles and every number of steps, at the last position of the profile and with one value per moment; without oxidation every moment but the first
ends non-negative, and positive if there are particles.  Missing: oxidation with the free-molecular or harmonic-mean kernel, the configuration of
the file; there the claim is false (`C80_momic_burner_false`). -/
theorem C80_momic_burner_partial (eig : Eig) (p : Profiles) (hp : Flame p) (nsoot : ℕ) (n : NuclMech) (g : GrowMech) (o : OxidMech) (c : CoagMech)
    (h : MomicCfg p nsoot n g o c) (hc : c = .CONTINUUM ∨ o = .NONE) (N : ℕ) (hN : 1 ≤ N) :
    ∃ b, burnMain eig p .MOMIC nsoot n g o c N = ok (some b) ∧ b.z = p.z.getD (p.z.length - 1) 0 ∧ b.Mhat.length = nsoot ∧
      (c ≠ .CONTINUUM → (∀ k, 1 ≤ k → k < nsoot → 0 ≤ b.Mhat.getD k 0) ∧
        (0 < b.Mhat.getD 0 0 → ∀ k < nsoot, 0 < b.Mhat.getD k 0)) := by
  have h2 := hp.two
  have hN' : (N : ℝ) ≠ 0 := by exact_mod_cast (by omega : N ≠ 0)
  have hin : Burn.Inside p (p.z.getD 0 0) := by simpa using Burn.inside_step hp hN (Nat.zero_le N)
  obtain ⟨r, hr, _⟩ := Burn.pos_ok hp hin (c := .rho) (by simp)
  have hg0 : Burn.Good (List.replicate nsoot (0 : ℝ)) := by
    refine ⟨fun k _ _ => by simp, .inl ?_⟩
    rcases nsoot with _ | k <;> simp [List.replicate_succ]
  obtain ⟨b, e, hb, hz⟩ := Burn.momicLoop eig hp h hN rfl N 0
    ⟨p.z.getD 0 0, List.replicate nsoot 0, State.mk' nsoot 0, Burn.model .MOMIC nsoot n g o c, none⟩
    (by omega) ⟨Burn.ok_start .MOMIC nsoot n g o c, by simp [Burn.model, exModel], hc.imp id fun ho => ⟨ho, hg0⟩⟩ (by simp)
  have hlen : b.Mhat.length = nsoot := hb.len
  refine ⟨b, ?_, by rw [hz, mul_div_cancel₀ _ hN']; ring, hlen, fun hc' => ?_⟩
  · rw [burnMain, Burn.tables_ok hp, ok_bind]
    simp only [h.new, ok_bind, idx_getD (show 0 < p.z.length by omega), idx_getD (show p.z.length - 1 < p.z.length by omega), cdiv_ok hN', hr]
    rw [show ({ exModel .MOMIC nsoot n g o c with coag := (exModel .MOMIC nsoot n g o c).coag.setFM (9.0 / 2.0 / 2.2) } : Model) =
      Burn.model .MOMIC nsoot n g o c from rfl, e, ok_bind]
  · rcases hb.fine with hx | ⟨_, hx1, hx2⟩
    · exact absurd hx hc'
    refine ⟨fun k h1 hk => by rw [List.getD_eq_getElem _ _ (by omega)]; exact hx1 k h1 (by omega), fun h0 k hk => ?_⟩
    rcases Nat.eq_zero_or_pos k with rfl | hk0
    · exact h0
    · rw [List.getD_eq_getElem _ _ (by omega)]
      rcases hx2 with hx2 | hx2
      · linarith
      · exact hx2 k hk0 (by omega)

/-! ## Failure with oxidation -/

namespace Burn

/-- Profiles that do not change along the flame of length `L`. -/
def flat (L : ℝ) (f : Col → ℝ) : Profiles := ⟨[0, L], fun c => [f c, f c]⟩

theorem flat_flame {L : ℝ} (hL : 0 < L) {f : Col → ℝ} (hp : ∀ c ∈ [Col.v, .T, .rho, .mu], 0 < f c) (hf : ∀ c ∈ gasFull, 0 ≤ f c ∧ f c ≤ 1) :
    Flame (flat L f) where
  incr := by
    intro i j hij hj
    simp only [flat, List.length_cons, List.length_nil] at hj
    obtain ⟨rfl, rfl⟩ : i = 0 ∧ j = 1 := by omega
    simpa [flat] using hL
  two := le_rfl
  len := fun _ => rfl
  pos := fun c hc y hy => by
    simp only [flat, List.mem_cons, List.not_mem_nil, or_false, or_self] at hy
    subst hy; exact hp c hc
  frac := fun c hc y hy => by
    simp only [flat, List.mem_cons, List.not_mem_nil, or_false, or_self] at hy
    subst hy; exact hf c hc

theorem flat_at {L : ℝ} {f : Col → ℝ} (h : Flame (flat L f)) {x : ℝ} (hx : Inside (flat L f) x) (c : Col) : (flat L f).at c x = ok (f c) := by
  obtain ⟨y, e, _, h1, h2⟩ := at_ok h hx c
  rw [e]
  congr 1
  exact le_antisymm (h2 _ (by simp [flat])) (h1 _ (by simp [flat]))

theorem flat_row {L : ℝ} {f : Col → ℝ} (h : Flame (flat L f)) {x : ℝ} (hx : Inside (flat L f) x) : ∀ cols, (flat L f).row x cols = ok (cols.map f)
  | [] => rfl
  | c :: l => by rw [Profiles.row, flat_at h hx, ok_bind, flat_row h hx l, ok_bind, List.map_cons]

theorem nuclLL_val {n : Nucl} (hn : n.mech = .LL) {ib : State → ℝ → Res ℝ} {s : State} (hT : 0 < s.T) (hc : 0 < s.cMin) {y : ℝ}
    (hy : s.yGas[7]? = some y) :
    n.rate ib s = ok (0.1E5 * exp (-21100 / s.T) * (s.rhoGas * y / gasMW .C2H2) * 2 * Na / s.cMin, n, s) := by
  simp only [Nucl.rate, hn, cexpDiv_ok hT.ne', ok_bind, State.gasC, idx, GasSp.toNat, hy, cdiv_ok hc.ne']

theorem growLL_val {x : Ctx} (hx : x.psd ≠ .SECT) {s : State} (hT : 0 < s.T) {y M0 M1 : ℝ} (hy : s.yGas[7]? = some y) (h0 : s.sootVar[0]? = some M0)
    (h1 : s.sootVar[1]? = some M1) (p0 : 0 < M0) (p1 : 0 < M1) :
    (Grow.new .LL).rate x s = ok (0.6E3 * exp (-12100 / s.T) * (s.rhoGas * y / gasMW .C2H2) / sqrt (sphereArea M0 M1) * 2 * gasMW .C) := by
  obtain ⟨a1, a2⟩ := areaMono_pos_ok p0 p1
  simp only [Grow.rate, Grow.new, moments01, if_neg hx, idx, h0, h1, ok_bind, a1, if_pos a2, cexpDiv_ok hT.ne', State.gasC, GasSp.toNat, hy, gt_iff_lt]

/-- A step length and an acetylene level at which oxidation removes more mass than there is while particles remain. -/
theorem choice {β jc G a kO ac mN v : ℝ} (hβ : 0 < β) (hj : 0 < jc) (hG : 0 < G) (ha : 0 < a) (hO : 0 < kO) (hac : 0 < ac) (hm : 0 < mN)
    (hv : 0 < v) : ∃ dz ε, 0 < dz ∧ 0 < ε ∧ ε ≤ 1 ∧ β / 2 * (dz / 2 * (jc * ε) / v) ^ 2 < jc * ε ∧
      jc * ε * mN ≤ (kO - G * ε / sqrt (a * (dz / 2 * (jc * ε) / v))) * (ac * (dz / 2 * (jc * ε) / v * mN ^ ((2 : ℝ) / 3))) := by
  obtain ⟨dz, hdz⟩ : ∃ dz, dz = 4 * v * mN ^ ((1 : ℝ) / 3) / (ac * kO) := ⟨_, rfl⟩
  obtain ⟨q, hq⟩ : ∃ q, q = dz / 2 * jc / v := ⟨_, rfl⟩
  have hd0 : 0 < dz := by rw [hdz]; positivity
  have hq0 : 0 < q := by rw [hq]; positivity
  obtain ⟨ε, he⟩ : ∃ ε, ε = min 1 (min (jc / (β * q ^ 2)) (kO ^ 2 * (a * q) / (4 * G ^ 2))) := ⟨_, rfl⟩
  have he0 : 0 < ε := by rw [he]; refine lt_min one_pos (lt_min ?_ ?_) <;> positivity
  have he1 : ε ≤ jc / (β * q ^ 2) := by rw [he]; exact (min_le_right _ _).trans (min_le_left _ _)
  have he2 : ε ≤ kO ^ 2 * (a * q) / (4 * G ^ 2) := by rw [he]; exact (min_le_right _ _).trans (min_le_right _ _)
  have hn : dz / 2 * (jc * ε) / v = q * ε := by rw [hq]; ring
  refine ⟨dz, ε, hd0, he0, by rw [he]; exact min_le_left _ _, ?_, ?_⟩
  · rw [hn]
    rw [le_div_iff₀ (by positivity)] at he1
    nlinarith [mul_le_mul_of_nonneg_right he1 he0.le, mul_pos hj he0]
  · rw [hn]
    have hk : G * ε / sqrt (a * (q * ε)) ≤ kO / 2 := by
      have hs : 0 < sqrt (a * (q * ε)) := sqrt_pos.2 (by positivity)
      rw [div_le_iff₀ hs]
      rw [le_div_iff₀ (by positivity)] at he2
      refine (pow_le_pow_iff_left₀ (by positivity) (by positivity) two_ne_zero).1 ?_
      rw [mul_pow, mul_pow, sq_sqrt (by positivity)]
      nlinarith [mul_le_mul_of_nonneg_right he2 he0.le]
    have h3 : mN ^ ((1 : ℝ) / 3) * mN ^ ((2 : ℝ) / 3) = mN := by
      rw [← rpow_add hm]; norm_num
    have e : jc * ε * mN = kO / 2 * (ac * (q * ε * mN ^ ((2 : ℝ) / 3))) := by
      rw [hq, hdz]
      have : kO / 2 * (ac * (4 * v * mN ^ ((1 : ℝ) / 3) / (ac * kO) / 2 * jc / v * ε * mN ^ ((2 : ℝ) / 3))) =
        jc * ε * (mN ^ ((1 : ℝ) / 3) * mN ^ ((2 : ℝ) / 3)) := by field_simp; ring
      rw [this, h3]
    rw [e]
    refine mul_le_mul_of_nonneg_right (by linarith) (by positivity)

section
variable {nsoot : ℕ} {c : CoagMech} {L : ℝ} {f : Col → ℝ} {b : Burn}

/-- Mass of a nucleus with the `cMin` of the program. -/
noncomputable def mN : ℝ := 1667 * gasMW .C / Na

/-- Nucleation rate per acetylene mass fraction. -/
noncomputable def jLL (T rho : ℝ) : ℝ := 0.1E5 * exp (-21100 / T) * (rho / gasMW .C2H2) * 2 * Na / 1667

theorem mN_pos : 0 < mN := by
  have := gasMW_pos .C; have := Na_pos
  unfold mN; positivity

/-- The first evaluation: nucleation only. -/
theorem first_stage (eig : Eig) (hp : Flame (flat L f)) (h : MomicCfg (flat L f) nsoot .LL .LL .LL c) (hk : Ok (model .MOMIC nsoot .LL .LL .LL c) b.SM b.S b.glob)
    {x : ℝ} (hx : Inside (flat L f) x) :
    ∃ m' s' gl', burnStage eig (flat L f) gasFull b (List.replicate nsoot 0) x = ok (m', s', gl') ∧ Ok (model .MOMIC nsoot .LL .LL .LL c) m' s' gl' ∧
      m'.sources.soot = (List.range nsoot).map fun r => jLL (f .T) (f .rho) * f .yC2H2 * mN ^ r := by
  have h3 := h.three
  obtain ⟨hA, e⟩ := momicStage eig hp h hk (cols := gasFull) (fun _ hc => hc) rfl (Mh := List.replicate nsoot 0) (by simp) hx
    (flat_at hp hx) (flat_row hp hx)
  have hrd := momicReady h hk hA
  have ens : b.SM.nsoot = nsoot := hk.spec.nsoot
  have en : b.SM.nucl.mech = .LL := hk.spec.nmech
  generalize hS : stateAt b.S nsoot (f .T) (f .rho) (f .mu) (gasFull.map f) ((List.replicate nsoot 0).map (· * f .rho)) = S at e hrd
  have hsv : S.sootVar = List.replicate nsoot 0 := by rw [← hS]; simp [stateAt, stateAfter, burnArgs]
  have hsv0 : S.sootVar.getD 0 0 = 0 := by rw [hsv]; rw [List.getD_eq_getElem _ _ (by simp; omega)]; simp
  obtain ⟨P, Q, m', s', J, n', kG, kO, _, e1, e2, e3, _, _, _, _, _, _, _, _, _, _, _, e4⟩ := momic_eval hrd
    ⟨fun hq => absurd (en.symm.trans hq) (by simp), fun h0 => absurd (hsv0 ▸ h0) (lt_irrefl _)⟩
  have hST : S.T = f .T := by rw [← hS]; rfl
  have hSc : S.cMin = 1667 := by rw [← hS]; rfl
  have hSr : S.rhoGas = f .rho := by rw [← hS]; rfl
  have hSy : S.yGas[7]? = some (f .yC2H2) := by rw [← hS]; rfl
  rw [nuclLL_val en (by rw [hST]; exact hA.T) (by rw [hSc]; norm_num) hSy, ok.injEq, Prod.mk.injEq, Prod.mk.injEq] at e2
  obtain ⟨rfl, rfl, rfl⟩ := e2
  rw [e1, map'_ok] at e
  refine ⟨m', _, _, e, okMomic h hk hA (by rw [hS]; exact e1) (by rw [hS]), ?_⟩
  rw [e4, ens]
  refine List.map_congr_left fun r hr => ?_
  have hmr : mrVal S.sootVar nsoot (r - onethird) = 0 := by
    rw [mrVal, if_neg]
    intro h0
    have := h0 0 (by unfold used; split_ifs <;> omega)
    rw [hsv0] at this; exact lt_irrefl _ this
  rw [momicSoot, if_neg (by rw [en]; simp), ens, hmr, if_neg (by rw [hsv0]; exact lt_irrefl _), hST, hSc, hSr]
  simp only [jLL, mN]
  ring

theorem coag0_lower {cg : Coag} {s : State} (hs : s.Phys) (hf : 0 < cg.fmMult) (hc : cg.mech = .FM ∨ cg.mech = .HM) {M : List ℝ} {n m : ℝ} (hn : 0 < n)
    (hm : 0 < m) (hM : MonoMoments M n m) (hl : M.length = nsoot) (h3 : 3 ≤ nsoot) :
    -(fmVal cg s m m / 2 * n ^ 2) ≤ momicCoagV cg s M nsoot 0 := by
  have e : fmCoagV (cg.kfmVal s) (qv M nsoot) 0 = -(fmVal cg s m m / 2 * n ^ 2) := by
    rw [fmCoagV, if_pos rfl, fV_mono hM hn hm hl h3]
    have := fmPair_half cg s 0 0 hm hm
    linear_combination -(n ^ 2) / 2 * this
  have a := fmCoagV_zero_nonpos (qv_nonneg M nsoot) (Coag.kfmVal_pos hs hf).le
  have b := cCoagV_zero_nonpos (pv_nonneg M nsoot) (kcVal_pos hs).le (kcpVal_pos hs).le
  rw [momicCoagV, if_neg (by norm_num), ← e]
  rcases hc with hc | hc <;> rw [hc]
  generalize fmCoagV (cg.kfmVal s) (qv M nsoot) 0 = u at a
  generalize cCoagV (kcVal s) (kcpVal s) (pv M nsoot) 0 = w at b
  show u ≤ hmean u w
  unfold hmean
  rcases (add_nonpos a b).eq_or_lt with h0 | h0
  · rw [h0, div_zero]; exact a
  · rw [le_div_iff_of_neg h0]; nlinarith

/-- The second evaluation: the nuclei are oxidised. -/
theorem second_stage (eig : Eig) (hp : Flame (flat L f)) (h : MomicCfg (flat L f) nsoot .LL .LL .LL c) (hc : c = .FM ∨ c = .HM)
    (hk : Ok (model .MOMIC nsoot .LL .LL .LL c) b.SM b.S b.glob) {x : ℝ} (hx : Inside (flat L f) x) {n : ℝ} (hn : 0 < n) {Mh : List ℝ}
    (hM : Mh = (List.range nsoot).map fun r => n * mN ^ r / f .rho) :
    ∃ m' s' gl', burnStage eig (flat L f) gasHalf b Mh x = ok (m', s', gl') ∧ Ok (model .MOMIC nsoot .LL .LL .LL c) m' s' gl' ∧
      (∃ x0, m'.sources.soot[0]? = some x0 ∧
        jLL (f .T) (f .rho) * f .yC2H2 - fmVal ((Coag.new c).setFM (9.0 / 2.0 / 2.2)) { b.S with T := f .T } mN mN / 2 * n ^ 2 ≤ x0) ∧
      m'.sources.soot[1]? = some (jLL (f .T) (f .rho) * f .yC2H2 * mN +
        (0.6E3 * exp (-12100 / f .T) * (f .rho * f .yC2H2 / gasMW .C2H2) / sqrt (sphereArea n (n * mN)) * 2 * gasMW .C - kLL (f .T) (f .rho) (f .yH)) *
          (acoef * (n * mN ^ ((2 : ℝ) / 3)))) := by
  have h3 := h.three
  have hm := mN_pos
  obtain ⟨hA, e⟩ := momicStage eig hp h hk (cols := gasHalf) (by decide) rfl (Mh := Mh) (by simp [hM]) hx (flat_at hp hx) (flat_row hp hx)
  have hrd := momicReady h hk hA
  have ens : b.SM.nsoot = nsoot := hk.spec.nsoot
  have en : b.SM.nucl.mech = .LL := hk.spec.nmech
  have ec : b.SM.coag = (Coag.new c).setFM (9.0 / 2.0 / 2.2) := hk.spec.coag
  have ecm : b.SM.coag.mech = c := by rw [ec]; rfl
  have eg : b.SM.grow = Grow.new .LL := hk.spec.grow
  have eo : b.SM.oxid = Oxid.new .LL := hk.spec.oxid
  generalize hS : stateAt b.S nsoot (f .T) (f .rho) (f .mu) (gasHalf.map f) (Mh.map (· * f .rho)) = S at e hrd
  have hsv : S.sootVar = (List.range nsoot).map fun r => n * mN ^ r := by
    rw [← hS, hM]
    show (((List.range nsoot).map fun r => n * mN ^ r / f .rho).map (· * f .rho)).map (max · 0) = _
    rw [List.map_map, List.map_map]
    refine List.map_congr_left fun r _ => ?_
    simp only [Function.comp]
    rw [div_mul_cancel₀ _ hA.rho.ne', max_eq_left (by positivity)]
  have hmono : MonoMoments S.sootVar n mN := by
    intro k hk'
    simp [hsv]
  have hlen : S.sootVar.length = nsoot := by simp [hsv]
  have hsv0 : S.sootVar.getD 0 0 = n := by
    rw [List.getD_eq_getElem _ _ (by omega), hmono 0 (by omega)]; simp
  obtain ⟨P, Q, m', s', J, n', kG, kO, _, e1, e2, e3, _, e5, e6, _, _, _, _, _, _, _, _, e4⟩ := momic_eval hrd
    ⟨fun hq => absurd (en.symm.trans hq) (by simp), fun _ _ => hmono.pos hn hm⟩
  have hST : S.T = f .T := by rw [← hS]; rfl
  have hSc : S.cMin = 1667 := by rw [← hS]; rfl
  have hSr : S.rhoGas = f .rho := by rw [← hS]; rfl
  have hSy : S.yGas[7]? = some (f .yC2H2) := by rw [← hS]; rfl
  have hT : 0 < S.T := by rw [hST]; exact hA.T
  rw [nuclLL_val en hT (by rw [hSc]; norm_num) hSy, ok.injEq, Prod.mk.injEq, Prod.mk.injEq] at e2
  obtain ⟨rfl, rfl, rfl⟩ := e2
  rw [eg, growLL_val (by show b.SM.psd ≠ _; rw [hrd.psd]; simp) hT hSy (M0 := n) (M1 := n * mN)
    (by rw [List.getElem?_eq_getElem (by omega), hmono 0 (by omega)]; simp) (by rw [List.getElem?_eq_getElem (by omega), hmono 1 (by omega)]; simp)
    hn (by positivity), ok.injEq] at e5
  obtain ⟨l, hl⟩ : ∃ l, S.yGas = f .yH :: l := ⟨_, by rw [← hS]; rfl⟩
  rw [eo, oxidLL hT hl, ok.injEq] at e6
  subst e5 e6
  rw [e1, map'_ok] at e
  refine ⟨m', _, _, e, okMomic h hk hA (by rw [hS]; exact e1) (by rw [hS]), ?_, ?_⟩
  · refine ⟨_, by rw [e4, ens, List.getElem?_map, List.getElem?_range (by omega), Option.map_some], ?_⟩
    rw [momicSoot, if_neg (by rw [en]; simp), ens, if_pos (by rw [hsv0]; exact hn)]
    have := coag0_lower (nsoot := nsoot) hrd.gas.acc.phys hrd.fm (by rw [ecm]; exact hc) hn hm hmono hlen h3
    have e0 : fmVal b.SM.coag S mN mN = fmVal ((Coag.new c).setFM (9.0 / 2.0 / 2.2)) { b.S with T := f .T } mN mN := by
      rw [ec, ← hST]; rfl
    rw [e0] at this
    have e9 : 0.1E5 * exp (-21100 / S.T) * (S.rhoGas * f .yC2H2 / gasMW .C2H2) * 2 * Na / S.cMin = jLL (f .T) (f .rho) * f .yC2H2 := by
      rw [hST, hSr, hSc, jLL]; ring
    rw [e9]
    simp only [pow_zero, CharP.cast_eq_zero, mul_zero, zero_mul, mul_one]
    linarith
  · rw [e4, ens, List.getElem?_map, List.getElem?_range (by omega), Option.map_some, momicSoot, if_neg (by rw [en]; simp), ens, momicCoagV_one,
      ite_self, hmono.mr hn hm hlen h3, hST, hSr, hSc]
    congr 1
    rw [show ((1 : ℕ) : ℝ) - onethird = 2 / 3 by norm_num [onethird]]
    simp only [jLL, mN]
    push_cast
    ring

/-- The third evaluation, with particles but without mass. -/
theorem third_stage (eig : Eig) (hp : Flame (flat L f)) (h : MomicCfg (flat L f) nsoot .LL .LL .LL c) (hc : c = .FM ∨ c = .HM)
    (hk : Ok (model .MOMIC nsoot .LL .LL .LL c) b.SM b.S b.glob) {x : ℝ} (hx : Inside (flat L f) x) {Mh : List ℝ} (hl : Mh.length = nsoot)
    (h0 : 0 < Mh.getD 0 0) (h1 : Mh.getD 1 0 ≤ 0) : burnStage eig (flat L f) gasFull b Mh x = nonfin := by
  have h3 := h.three
  obtain ⟨hA, e⟩ := momicStage eig hp h hk (cols := gasFull) (fun _ hc => hc) rfl hl hx (flat_at hp hx) (flat_row hp hx)
  have hrd := momicReady h hk hA
  have ecm : b.SM.coag.mech = c := by rw [hk.spec.coag]; rfl
  rw [List.getD_eq_getElem _ _ (by omega)] at h0 h1
  rw [e, (C56_momic_exact _ _ hrd).2]
  · rfl
  intro hf
  have hsv : (stateAt b.S nsoot (f .T) (f .rho) (f .mu) (gasFull.map f) (Mh.map (· * f .rho))).sootVar = (Mh.map (· * f .rho)).map (max · 0) := rfl
  have hr := hA.rho
  have := hf.coag (by
    rw [hsv, List.getD_eq_getElem _ _ (by simp; omega)]
    simp only [List.getElem_map]
    exact lt_max_of_lt_left (by positivity)) (by rw [ecm]; exact hc)
  have := this (((Mh.map (· * f .rho)).map (max · 0))[1]'(by simp; omega)) (by rw [hsv]; exact List.getElem_mem (by simp; omega))
  simp only [List.getElem_map, lt_max_iff, lt_irrefl, or_false] at this
  nlinarith

end

end Burn

/-- **C80 (the configuration of the file).** In any gas that contains hydrogen atoms (at the half step they stand in the place of oxygen, C75) there
are a length and a level of acetylene at which the program meets a non-finite number, for any number of steps from two on and every allowed number
of moments: oxidation removes more mass than there is in the first step, `setState` cuts the negative moment to zero, and MOMIC raises
zero to a negative power. -/
theorem C80_momic_burner_false (eig : Eig) (f : Col → ℝ) (hpos : ∀ c ∈ [Col.v, .T, .rho, .mu], 0 < f c) (hfrac : ∀ c ∈ gasFull, 0 ≤ f c ∧ f c ≤ 1)
    (hH : 0 < f .yH) (nsoot : ℕ) (h3 : 3 ≤ nsoot) (h7 : nsoot ≤ 7) (c : CoagMech) (hc : c = .FM ∨ c = .HM) (N : ℕ) (hN : 2 ≤ N) :
    ∃ L ε, Flame (Burn.flat L (Function.update f .yC2H2 ε)) ∧
      burnMain eig (Burn.flat L (Function.update f .yC2H2 ε)) .MOMIC nsoot .LL .LL .LL c N = nonfin := by
  have hcfg : ∀ p, MomicCfg p nsoot .LL .LL .LL c := fun p => ⟨⟨by simp, by simp⟩, h3, h7, by rcases hc with rfl | rfl <;> simp, by simp⟩
  have hm := Burn.mN_pos
  have hT := hpos .T (by simp)
  have hr := hpos .rho (by simp)
  have hv := hpos .v (by simp)
  have a1 := gasMW_pos .C; have a2 := gasMW_pos .C2H2; have a3 := Na_pos; have a4 := gasMW_pos .O2; have a5 := rhoSoot_pos
  have hkO : 0 < Burn.kLL (f .T) (f .rho) (f .yH) := by unfold Burn.kLL; positivity
  have hj : 0 < Burn.jLL (f .T) (f .rho) := by unfold Burn.jLL; positivity
  have hac : 0 < acoef := by unfold acoef; positivity
  have hβ : 0 < fmVal ((Coag.new c).setFM (9.0 / 2.0 / 2.2)) { (State.mk' nsoot 0) with T := f .T } Burn.mN Burn.mN := by
    have := kb_pos; have := epsC_pos
    have hcf : ((Coag.new c).setFM (9.0 / 2.0 / 2.2)).fmMult = 9.0 / 2.0 / 2.2 := rfl
    unfold fmVal Coag.kfmVal
    rw [hcf]
    positivity
  obtain ⟨dz, ε, hd, he, he1, q1, q2⟩ := Burn.choice (G := 0.6E3 * exp (-12100 / f .T) * (f .rho / gasMW .C2H2) * 2 * gasMW .C)
    (a := π * (6 / (π * rhoSoot) * Burn.mN) ^ ((2 : ℝ) / 3)) hβ hj (by positivity) (by positivity) hkO hac hm hv
  have hN0 : (0 : ℝ) < N := by exact_mod_cast (by omega : 0 < N)
  refine ⟨N * dz, ε, ?_, ?_⟩
  all_goals set F := Function.update f .yC2H2 ε with hF
  all_goals
    have hFl : Flame (Burn.flat (N * dz) F) := by
      refine Burn.flat_flame (by positivity) (fun c hc => ?_) fun c hc => ?_
      · rw [hF, Function.update_of_ne (by rintro rfl; simp at hc)]; exact hpos c hc
      · by_cases hcc : c = .yC2H2
        · subst hcc; rw [hF, Function.update_self]; exact ⟨he.le, he1⟩
        · rw [hF, Function.update_of_ne hcc]; exact hfrac c hc
  · exact hFl
  have FT : F .T = f .T := Function.update_of_ne (by simp) _ _
  have Fr : F .rho = f .rho := Function.update_of_ne (by simp) _ _
  have Fv : F .v = f .v := Function.update_of_ne (by simp) _ _
  have FH : F .yH = f .yH := Function.update_of_ne (by simp) _ _
  have FC : F .yC2H2 = ε := Function.update_self _ _ _
  have ins : ∀ x, 0 ≤ x → x ≤ N * dz → Burn.Inside (Burn.flat (N * dz) F) x := fun x h1 h2 => by simpa [Burn.Inside, Burn.flat] using ⟨h1, h2⟩
  have hN2 : (2 : ℝ) ≤ N := by exact_mod_cast hN
  have i0 := ins 0 le_rfl (by positivity)
  have i1 := ins (0 + dz / 2) (by positivity) (by nlinarith)
  have i2 := ins (0 + dz) (by positivity) (by nlinarith)
  obtain ⟨m1, s1, g1, e1, k1, l1⟩ := Burn.first_stage eig hFl (hcfg _)
    (b := ⟨0, List.replicate nsoot 0, State.mk' nsoot 0, Burn.model .MOMIC nsoot .LL .LL .LL c, none⟩) (Burn.ok_start .MOMIC nsoot .LL .LL .LL c) i0
  have adv1 := Burn.advance (d := 0.5 * dz) (Burn.flat_at hFl i0 .rho) (by rw [Fr]; exact hr.ne') (Burn.flat_at hFl i0 .v) (by rw [Fv]; exact hv.ne')
    m1.sources.soot (List.replicate nsoot 0) 0 (by simp [l1])
  set n := dz / 2 * (Burn.jLL (f .T) (f .rho) * ε) / f .v with hn
  have hn0 : 0 < n := by rw [hn]; positivity
  have hM1 : List.zipWith (fun M s => M + 0.5 * dz * s / F .rho / F .v) (List.replicate nsoot 0) (m1.sources.soot.drop 0) =
      (List.range nsoot).map fun r => n * Burn.mN ^ r / F .rho := by
    refine List.ext_getElem (by simp [l1]) fun i hi1 hi2 => ?_
    simp only [l1, List.drop_zero, List.getElem_zipWith, List.getElem_replicate, List.getElem_map, List.getElem_range, FT, Fr, Fv, FC, hn]
    field_simp
    ring
  obtain ⟨m2, s2, g2, e2, k2, ⟨x0, lx0, hx0⟩, lx1⟩ := Burn.second_stage eig hFl (hcfg _) hc (b := ⟨0, List.replicate nsoot 0, s1, m1, g1⟩) k1 i1 hn0 hM1
  have ls2 : m2.sources.soot.length = nsoot := k2.wf.srcLen.trans k2.spec.nsoot
  have adv2 := Burn.advance (d := dz) (Burn.flat_at hFl i1 .rho) (by rw [Fr]; exact hr.ne') (Burn.flat_at hFl i1 .v) (by rw [Fv]; exact hv.ne')
    m2.sources.soot (List.replicate nsoot 0) 0 (by simp [ls2])
  have hget : ∀ k x, k < nsoot → m2.sources.soot[k]? = some x →
      (List.zipWith (fun M s => M + dz * s / F .rho / F .v) (List.replicate nsoot 0) (m2.sources.soot.drop 0)).getD k 0 = dz * x / F .rho / F .v := by
    intro k x hk hx
    rw [List.getElem?_eq_getElem (by omega), Option.some.injEq] at hx
    rw [List.getD_eq_getElem _ _ (by simp [ls2, hk])]
    simp [hx]
  have e3 := Burn.third_stage eig hFl (hcfg _) hc (b := ⟨0 + dz,
    List.zipWith (fun M s => M + dz * s / F .rho / F .v) (List.replicate nsoot 0) (m2.sources.soot.drop 0), s2, m2, g2⟩) k2 i2
    (Mh := List.zipWith (fun M s => M + dz * s / F .rho / F .v) (List.replicate nsoot 0) (m2.sources.soot.drop 0)) (by simp [ls2]) (by
      rw [hget 0 x0 (by omega) lx0]
      have e0 : fmVal ((Coag.new c).setFM (9.0 / 2.0 / 2.2)) { s1 with T := F .T } Burn.mN Burn.mN =
        fmVal ((Coag.new c).setFM (9.0 / 2.0 / 2.2)) { (State.mk' nsoot 0) with T := f .T } Burn.mN Burn.mN := by rw [FT]; rfl
      rw [e0, FT, Fr, FC] at hx0
      have : 0 < x0 := by linarith
      rw [Fr, Fv]; positivity) (by
      rw [hget 1 _ (by omega) lx1, FT, Fr, Fv, FH, FC]
      have hs : sphereArea n (n * Burn.mN) = π * (6 / (π * rhoSoot) * Burn.mN) ^ ((2 : ℝ) / 3) * n := by
        unfold sphereArea
        congr 3
        field_simp
      rw [hs]
      refine div_nonpos_of_nonpos_of_nonneg (div_nonpos_of_nonpos_of_nonneg (mul_nonpos_of_nonneg_of_nonpos hd.le ?_) hr.le) hv.le
      have : 0.6E3 * exp (-12100 / f .T) * (f .rho * ε / gasMW .C2H2) / sqrt (π * (6 / (π * rhoSoot) * Burn.mN) ^ ((2 : ℝ) / 3) * n) * 2 * gasMW .C =
        0.6E3 * exp (-12100 / f .T) * (f .rho / gasMW .C2H2) * 2 * gasMW .C * ε / sqrt (π * (6 / (π * rhoSoot) * Burn.mN) ^ ((2 : ℝ) / 3) * n) := by
        ring
      rw [this]
      linarith)
  obtain ⟨k, rfl⟩ : ∃ k, N = k + 2 := ⟨N - 2, by omega⟩
  have hstep : burnStep eig (Burn.flat ((k + 2 : ℕ) * dz) F) dz 0
      ⟨0, List.replicate nsoot 0, State.mk' nsoot 0, Burn.model .MOMIC nsoot .LL .LL .LL c, none⟩ =
      ok ⟨0 + dz, List.zipWith (fun M s => M + dz * s / F .rho / F .v) (List.replicate nsoot 0) (m2.sources.soot.drop 0), s2, m2, g2⟩ := by
    rw [burnStep]
    simp only [e1, ok_bind, adv1, e2, adv2, Burn.flat_at hFl i2, Nat.zero_mod, if_true]
  rw [burnMain, Burn.tables_ok hFl, ok_bind]
  have hz0 : idx (Burn.flat ((k + 2 : ℕ) * dz) F).z 0 = ok 0 := rfl
  have hz1 : idx (Burn.flat ((k + 2 : ℕ) * dz) F).z ((Burn.flat ((k + 2 : ℕ) * dz) F).z.length - 1) = ok ((k + 2 : ℕ) * dz) := rfl
  simp only [(hcfg (Burn.flat ((k + 2 : ℕ) * dz) F)).new, ok_bind, hz0, hz1, cdiv_ok hN0.ne', Burn.flat_at hFl i0]
  rw [show ((k + 2 : ℕ) * dz - 0) / ((k + 2 : ℕ) : ℝ) = dz by field_simp; ring,
    show ({ exModel .MOMIC nsoot .LL .LL .LL c with coag := (exModel .MOMIC nsoot .LL .LL .LL c).coag.setFM (9.0 / 2.0 / 2.2) } : Model) =
      Burn.model .MOMIC nsoot .LL .LL .LL c from rfl, burnLoop, hstep, ok_bind, burnLoop, burnStep]
  simp only [e3, nonfin_bind]

/-- The file without oxidation: seven moments, 20000 steps. -/
example (eig : Eig) : ∃ b, burnMain eig exFlame .MOMIC 7 .LL .LL .NONE .HM 20000 = ok (some b) ∧ b.z = 1 / 100 ∧ b.Mhat.length = 7 := by
  obtain ⟨b, e, hz, hl, _⟩ := C80_momic_burner_partial eig exFlame exFlame_ok 7 .LL .LL .NONE .HM
    ⟨⟨by simp, by simp⟩, by norm_num, by norm_num, by simp, by simp⟩ (.inr rfl) 20000 (by norm_num)
  exact ⟨b, e, hz, hl⟩

/-- The file with the continuum kernel. -/
example (eig : Eig) : ∃ b, burnMain eig exFlame .MOMIC 7 .LL .LL .LL .CONTINUUM 20000 = ok (some b) ∧ b.z = 1 / 100 ∧ b.Mhat.length = 7 := by
  obtain ⟨b, e, hz, hl, _⟩ := C80_momic_burner_partial eig exFlame exFlame_ok 7 .LL .LL .LL .CONTINUUM
    ⟨⟨by simp, by simp⟩, by norm_num, by norm_num, by simp, by simp⟩ (.inl rfl) 20000 (by norm_num)
  exact ⟨b, e, hz, hl⟩

/-- The file as it stands, in a gas at 1700 K with one per cent of every species. -/
example (eig : Eig) : ∃ L ε, Flame (Burn.flat L (Function.update (fun c => match c with | .T => 1700 | .rho => 1 / 5 | .v => 1 | .mu => 5E-5 | _ => 1 / 100) .yC2H2 ε)) ∧
    burnMain eig (Burn.flat L (Function.update (fun c => match c with | .T => 1700 | .rho => 1 / 5 | .v => 1 | .mu => 5E-5 | _ => 1 / 100) .yC2H2 ε))
      .MOMIC 7 .LL .LL .LL .HM 20000 = nonfin :=
  C80_momic_burner_false eig _ (by
    intro c hc
    simp only [List.mem_cons, List.not_mem_nil, or_false] at hc
    rcases hc with rfl | rfl | rfl | rfl <;> norm_num) (by
    intro c hc
    simp only [gasFull, List.mem_cons, List.not_mem_nil, or_false] at hc
    rcases hc with rfl | rfl | rfl | rfl | rfl | rfl | rfl | rfl <;> norm_num) (by norm_num) 7 (by norm_num) (by norm_num) .HM (.inr rfl) 20000 (by norm_num)

end Soot
