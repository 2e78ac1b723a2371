import Verif.Props.SectModel

/-!
# C40: the function-local static in the sectional model
-/

namespace Soot

open Res Real
open scoped Classical

/-- A second SECT model, constructed with bin growth factor 4. -/
noncomputable def sectF4 : Model :=
  { exModel .SECT 2 .NONE .NONE .NONE .FM with mBins := binMasses 2 4 100, binF := 4 }

theorem sectF4_new : Model.new .SECT 2 .NONE .NONE .NONE .FM 0 .NONE 4 100 = ok sectF4 := by
  simp [Model.new, Model.newPtr, ctorCheck, sectF4, exModel, Coag.new]

theorem toSizeT_floor {x : ℝ} (h0 : 0 ≤ x) (h1 : x < 10) : toSizeT x = ok ⌊x⌋₊ := by
  rw [toSizeT, if_neg]; push Not; constructor
  · linarith
  · linarith [show (2 : ℝ) ^ 64 > 10 by norm_num]

/-- Coagulation of two bins of masses `b`, `2b`: first-bin source for a cached factor `f`. -/
theorem coag2_first {s : State} (hs : s.Phys) (hv : 2 ≤ s.sootVar.length) {f : ℝ} {k0 k1 k2 : ℕ}
    (e0 : toSizeT (f * log 2) = ok k0) (e1 : toSizeT (f * log 3) = ok k1) (e2 : toSizeT (f * log 4) = ok k2)
    (h2 : 1 ≤ k2) :
    ∃ S, coagLoop 2 (binMasses 2 2 100) (Coag.new .FM) s f (pairs 2) (fun _ => 0) = ok S ∧
      S 0 = -((Coag.new .FM).val s ((binMasses 2 2 100).getD 0 0) ((binMasses 2 2 100).getD 0 0) *
          s.sootVar.getD 0 0 * s.sootVar.getD 0 0) -
        (Coag.new .FM).val s ((binMasses 2 2 100).getD 0 0) ((binMasses 2 2 100).getD 1 0) *
          s.sootVar.getD 0 0 * s.sootVar.getD 1 0 * (if 1 ≤ k1 then 1 else 2) := by
  have hb : Bins 2 (binMasses 2 2 100) := binMasses_bins le_rfl (by norm_num) (by norm_num)
  have g1 : (binMasses 2 2 100).getD 1 0 = 2 * (binMasses 2 2 100).getD 0 0 := by
    rw [binMasses_getD (by norm_num), binMasses_getD (by norm_num)]; ring
  have p0 := hb.pos0
  have hfm : (0 : ℝ) < (Coag.new .FM).fmMult := by norm_num [Coag.new]
  set b := (binMasses 2 2 100).getD 0 0 with hbd
  have q0 : (b + b) / b = 2 := by field_simp; norm_num
  have q1 : (b + 2 * b) / b = 3 := by field_simp; norm_num
  have q2 : (2 * b + 2 * b) / b = 4 := by field_simp; norm_num
  have hp : pairs 2 = [(0, 0), (0, 1), (1, 1)] := by decide
  rw [hp]
  simp only [coagLoop]
  rw [coagPair_ok hb (k := k0) (by norm_num) (by norm_num) hv (Coag.rate_ok hs hfm _ _) (by rw [← hbd, q0, e0]), ok_bind,
    coagPair_ok hb (k := k1) (by norm_num) (by norm_num) hv (Coag.rate_ok hs hfm _ _) (by rw [g1, ← hbd, q1, e1]), ok_bind,
    coagPair_ok hb (k := k2) (by norm_num) (by norm_num) hv (Coag.rate_ok hs hfm _ _) (by rw [g1, ← hbd, q2, e2]), ok_bind]
  refine ⟨_, rfl, ?_⟩
  rw [g1]
  set t0 := (Coag.new .FM).val s b b * s.sootVar.getD 0 0 * s.sootVar.getD 0 0
  set t1 := (Coag.new .FM).val s b (2 * b) * s.sootVar.getD 0 0 * s.sootVar.getD 1 0
  set t2 := (Coag.new .FM).val s (2 * b) (2 * b) * s.sootVar.getD 1 0 * s.sootVar.getD 1 0
  have l2 : ∀ S : ℕ → ℝ, pairGain 2 (binMasses 2 2 100) (pairEvents t2 1 1) (2 * b + 2 * b) k2 (pairLoss t2 1 1 S) 0 = S 0 := by
    intro S
    rw [pairGain, if_pos (by omega)]
    simp [addAt, pairLoss]
  have l1 : ∀ S : ℕ → ℝ, pairGain 2 (binMasses 2 2 100) (pairEvents t1 0 1) (b + 2 * b) k1 (pairLoss t1 0 1 S) 0 =
      S 0 - t1 * (if 1 ≤ k1 then 1 else 2) := by
    intro S
    rw [pairGain]
    by_cases hk : 1 ≤ k1
    · rw [if_pos (by omega), if_pos hk]
      simp [addAt, pairLoss]; ring
    · have : k1 = 0 := by omega
      subst this
      rw [if_neg (by omega), if_neg hk]
      simp only [zero_add, g1, ← hbd]
      have hX : (2 * b - (b + 2 * b)) / (2 * b - b) = -1 := by
        have : 2 * b - b = b := by ring
        rw [this]; field_simp; ring
      rw [hX]
      simp [addAt, pairLoss, pairEvents]; ring
  have l0 : ∀ S : ℕ → ℝ, pairGain 2 (binMasses 2 2 100) (pairEvents t0 0 0) (b + b) k0 (pairLoss t0 0 0 S) 0 =
      S 0 - t0 := by
    intro S
    rw [pairGain]
    by_cases hk : 1 ≤ k0
    · rw [if_pos (by omega)]
      simp [addAt, pairLoss]; ring
    · have : k0 = 0 := by omega
      subst this
      rw [if_neg (by omega)]
      simp only [zero_add, g1, ← hbd]
      have hX : (2 * b - (b + b)) / (2 * b - b) = 0 := by
        have : 2 * b - (b + b) = 0 := by ring
        rw [this]; simp
      rw [hX]
      simp [addAt, pairLoss]; ring
  rw [l2, l1, l0]
  ring

/-- **C40 is false.** Two SECT models with bin growth factors 2 and 4 and the same state: evaluating the second
one first changes the first-bin source that the first one reports. -/
theorem C40_static_shared :
    ∃ (s s₁ s₂ s₃ : State) (m₁ m₂ m₃ : Model) (g₁ g₂ g₃ : Option ℝ), Accepted s ∧
      Model.new .SECT 2 .NONE .NONE .NONE .FM 0 .NONE 2 100 = ok (exModel .SECT 2 .NONE .NONE .NONE .FM) ∧
      Model.new .SECT 2 .NONE .NONE .NONE .FM 0 .NONE 4 100 = ok sectF4 ∧
      sectSources (exModel .SECT 2 .NONE .NONE .NONE .FM) none s = ok (m₁, s₁, g₁) ∧
      sectSources sectF4 none s = ok (m₂, s₂, g₂) ∧
      sectSources (exModel .SECT 2 .NONE .NONE .NONE .FM) g₂ s = ok (m₃, s₃, g₃) ∧
      m₃.sources.soot.getD 0 0 < m₁.sources.soot.getD 0 0 := by
  set s := exSt [1E15, 1E15] false with hsd
  have hsv : s.sootVar = [1E15, 1E15] := exSt_sootVar _ (by norm_num)
  have hr := exSectReady 2 .NONE (by simp) (by simp) .NONE .NONE .FM [1E15, 1E15] false rfl (by norm_num) (by norm_num)
  have hg := exGlobOk 2 .NONE .NONE .NONE .FM (by norm_num) (by norm_num)
  have hb4 : Bins 2 (binMasses 2 4 100) := binMasses_bins (by norm_num) (by norm_num) (by norm_num)
  have hl2 : (0 : ℝ) < log 2 := log_pos (by norm_num)
  have hl4 : log 4 = 2 * log 2 := by
    rw [show (4 : ℝ) = 2 ^ 2 by norm_num, log_pow]; norm_num
  have hl3a : log 2 < log 3 := log_lt_log (by norm_num) (by norm_num)
  have hl3b : log 3 < log 4 := log_lt_log (by norm_num) (by norm_num)
  have hbig : (2 : ℝ) + log 2 / log 4 < 2 ^ 64 := by
    rw [hl4]
    have : log 2 / (2 * log 2) = 1 / 2 := by field_simp
    rw [this]; norm_num
  have hr4 : SectReady sectF4 s :=
    { wf := ⟨Nucl.new_wf _, rfl, rfl, fun _ => rfl, fun _ => rfl, rfl, rfl, rfl⟩
      fm := hr.fm, gas := hr.gas, pah := hr.pah
      sized := ⟨hr.sized.two, fun _ => ⟨hr.len, by simp [sectF4, Model.ctx, binMasses, exModel], by rw [exSt_nsoot]; rfl⟩, by
        intro x hx
        have hx : x ∈ binMasses 2 4 100 := hx
        simp only [binMasses, List.mem_map] at hx
        obtain ⟨k, _, rfl⟩ := hx
        have := gasMW_pos .C; have := Na_pos
        positivity⟩
      sing := by rintro _ ⟨_, _, h⟩; rw [exSt_T] at h; norm_num at h
      tar := by simp [sectF4, exModel, Nucl.new]
      mtar := by simp [sectF4, exModel, Nucl.new]
      psd := rfl, bins := hb4 }
  have hg4 : GlobOk sectF4 none := globOk_own (F := 4) hb4 (by norm_num) rfl
    (fun k hk => by
      have hk : k < 2 := hk
      show (binMasses 2 4 100).getD k 0 = (binMasses 2 4 100).getD 0 0 * 4 ^ k
      rw [binMasses_getD hk, binMasses_getD (by norm_num)]; ring) (by
      show (2 : ℕ) + log 2 / log 4 < 2 ^ 64
      exact_mod_cast hbig)
  have hf4 : ilnFStatic none 4 = ok (1 / log 4) := by
    rw [ilnFStatic, clog, if_neg (by norm_num), ok_bind, cdiv_ok (by rw [hl4]; positivity)]
  have hf2 : ilnFStatic none 2 = ok (1 / log 2) := by
    rw [ilnFStatic, clog, if_neg (by norm_num), ok_bind, cdiv_ok hl2.ne']
  -- the second model leaves its own factor in the static
  obtain ⟨m₂, s₂, g₂, J₂, n₂, kG₂, kO₂, C₂, a1, a2, a3, a4, a5, a6, a7, _⟩ := sect_eval hr4 hg4
  have hg2 : g₂ = some (1 / log 4) := by
    have hm : sectF4.coag.mech ≠ .NONE := by simp [sectF4, exModel, Coag.new]
    unfold sectCoag at a7
    rw [if_pos hm, show sectF4.binF = 4 from rfl, hf4, ok_bind, bind_eq_ok] at a7
    obtain ⟨S, _, a7⟩ := a7
    cases a7; rfl
  have i43 : 1 / log 4 * log 4 = 1 := by rw [hl4]; field_simp
  have i42 : 1 / log 4 * log 2 = 1 / 2 := by rw [hl4]; field_simp
  have i43' : 1 / log 4 * log 3 < 1 := by
    have hp : 0 < 1 / log 4 := by rw [hl4]; positivity
    exact (mul_lt_mul_of_pos_left hl3b hp).trans_eq i43
  have i430 : 0 ≤ 1 / log 4 * log 3 := by
    have : 0 < log 3 := by linarith
    rw [hl4]; positivity
  have i22 : 1 / log 2 * log 2 = 1 := by field_simp
  have i24 : 1 / log 2 * log 4 = 2 := by rw [hl4]; field_simp
  have i23 : 1 ≤ 1 / log 2 * log 3 := by
    have hp : 0 ≤ 1 / log 2 := by positivity
    exact i22.symm.le.trans (mul_le_mul_of_nonneg_left hl3a.le hp)
  have i23' : 1 / log 2 * log 3 ≤ 2 := by
    have hp : 0 ≤ 1 / log 2 := by positivity
    exact (mul_le_mul_of_nonneg_left hl3b.le hp).trans i24.le
  have hgl : GlobOk (exModel .SECT 2 .NONE .NONE .NONE .FM) g₂ := by
    intro _
    refine ⟨1 / log 4, by rw [hg2]; rfl, ?_⟩
    intro i j hi hj
    obtain ⟨f, hf, hse⟩ := hg (by simp [exModel, Coag.new])
    rw [show (exModel .SECT 2 .NONE .NONE .NONE .FM).binF = 2 from rfl, hf2] at hf
    cases hf
    obtain ⟨u1, u2⟩ := hse i j hi hj
    have : 1 / log 4 = 1 / 2 * (1 / log 2) := by rw [hl4]; field_simp
    rw [this]
    constructor <;> nlinarith
  -- the first model alone, and after the second
  obtain ⟨m₁, s₁, g₁, J₁, n₁, kG₁, kO₁, C₁, b1, b2, b3, b4, b5, b6, b7, _, _, _, _, _, b13⟩ := sect_eval hr hg
  obtain ⟨m₃, s₃, g₃, J₃, n₃, kG₃, kO₃, C₃, c1, c2, c3, c4, c5, c6, c7, _, _, _, _, _, c13⟩ := sect_eval hr hgl
  cases b2.symm.trans c2
  cases b5.symm.trans c5
  cases b6.symm.trans c6
  have hs1 : s₁ = s := ((Nucl.rate_inv b2).2.1 (by simp [exModel, Nucl.new])).2
  subst hs1
  have hph : State.Phys s := hr.gas.acc.phys
  have hcm : (exModel .SECT 2 .NONE .NONE .NONE .FM).coag.mech ≠ .NONE := by simp [exModel, Coag.new]
  have hv : 2 ≤ s.sootVar.length := by rw [hsv]; simp
  obtain ⟨S₁, d1, d2⟩ := coag2_first hph hv (f := 1 / log 2) (k0 := ⌊1 / log 2 * log 2⌋₊) (k1 := ⌊1 / log 2 * log 3⌋₊)
    (k2 := ⌊1 / log 2 * log 4⌋₊) (toSizeT_floor (by rw [i22]; norm_num) (by rw [i22]; norm_num))
    (toSizeT_floor (by linarith) (by linarith)) (toSizeT_floor (by rw [i24]; norm_num) (by rw [i24]; norm_num))
    (by rw [i24]; norm_num)
  obtain ⟨S₃, f1, f2⟩ := coag2_first hph hv (f := 1 / log 4) (k0 := ⌊1 / log 4 * log 2⌋₊) (k1 := ⌊1 / log 4 * log 3⌋₊)
    (k2 := ⌊1 / log 4 * log 4⌋₊) (toSizeT_floor (by rw [i42]; norm_num) (by rw [i42]; norm_num))
    (toSizeT_floor i430 (by linarith)) (toSizeT_floor (by rw [i43]; norm_num) (by rw [i43]; norm_num))
    (by rw [i43]; norm_num)
  have hk1 : 1 ≤ ⌊1 / log 2 * log 3⌋₊ := Nat.le_floor (by exact_mod_cast i23)
  have hk3 : ⌊1 / log 4 * log 3⌋₊ = 0 := Nat.floor_eq_zero.mpr i43'
  rw [if_pos hk1] at d2
  rw [hk3] at f2
  have hC1 : C₁ = S₁ := by
    unfold sectCoag at b7
    rw [if_pos hcm, show (exModel .SECT 2 .NONE .NONE .NONE .FM).binF = 2 from rfl, hf2, ok_bind] at b7
    have d1' : coagLoop (exModel .SECT 2 .NONE .NONE .NONE .FM).nsoot (exModel .SECT 2 .NONE .NONE .NONE .FM).mBins
      (exModel .SECT 2 .NONE .NONE .NONE .FM).coag s (1 / log 2) (pairs (exModel .SECT 2 .NONE .NONE .NONE .FM).nsoot)
      (fun _ => 0) = ok S₁ := by simpa [exModel] using d1
    rw [d1', ok_bind] at b7
    cases b7; rfl
  have hC3 : C₃ = S₃ := by
    unfold sectCoag at c7
    rw [if_pos hcm, hg2, show ilnFStatic (some (1 / log 4)) (exModel .SECT 2 .NONE .NONE .NONE .FM).binF = ok (1 / log 4)
      from rfl, ok_bind] at c7
    have f1' : coagLoop (exModel .SECT 2 .NONE .NONE .NONE .FM).nsoot (exModel .SECT 2 .NONE .NONE .NONE .FM).mBins
      (exModel .SECT 2 .NONE .NONE .NONE .FM).coag s (1 / log 4) (pairs (exModel .SECT 2 .NONE .NONE .NONE .FM).nsoot)
      (fun _ => 0) = ok S₃ := by simpa [exModel] using f1
    rw [f1', ok_bind] at c7
    cases c7; rfl
  refine ⟨s, s, s₂, s, m₁, m₂, m₃, g₁, g₂, g₃, hr.gas.acc, exModel_new (by simp [ctorCheck]) _ _ _, sectF4_new,
    b1, a1, c1, ?_⟩
  rw [b13, c13, hC1, hC3]
  have hb : Bins 2 (binMasses 2 2 100) := binMasses_bins le_rfl (by norm_num) (by norm_num)
  have hK : 0 < (Coag.new .FM).val s ((binMasses 2 2 100).getD 0 0) ((binMasses 2 2 100).getD 1 0) := by
    have h0 : mmin < (binMasses 2 2 100).getD 0 0 := by
      rw [binMasses_getD (by norm_num)]; norm_num [mmin, gasMW, Na]
    have h1 := h0.trans (hb.mono 0 (by norm_num))
    rw [Coag.val, if_neg (by push Not; exact ⟨h0, h1⟩)]
    exact fmVal_pos hph (by norm_num [Coag.new]) (mmin_pos.trans h0) (mmin_pos.trans h1)
  have ht : 0 < (Coag.new .FM).val s ((binMasses 2 2 100).getD 0 0) ((binMasses 2 2 100).getD 1 0) *
      s.sootVar.getD 0 0 * s.sootVar.getD 1 0 := by
    rw [hsv]
    exact mul_pos (mul_pos hK (by norm_num)) (by norm_num)
  have hlt : S₃ 0 < S₁ 0 := by
    rw [d2, f2, if_neg (by norm_num)]
    linarith
  have hn : (exModel .SECT 2 .NONE .NONE .NONE .FM).nsoot = 2 := rfl
  have e2 : ∀ g : ℕ → ℝ, ((List.range 2).map g).getD 0 0 = g 0 := fun g => rfl
  rw [hn, e2, e2]
  linarith

/-- **C40, what holds.** With the cached factor equal to what the model itself would store, the sources are
those of a process in which no other sectional model ran. -/
theorem C40_own_factor_partial (m : Model) (s : State) (f : ℝ) (hf : ilnFStatic none m.binF = ok f) :
    (do let r ← sectSources m (some f) s; ok (r.1, r.2.1)) =
    (do let r ← sectSources m none s; ok (r.1, r.2.1)) := by
  by_cases hc : m.coag.mech = .NONE
  · have e : ∀ g s, sectCoag m g s = ok (fun _ => 0, g) := fun g s => by
      rw [sectCoag, if_neg (not_not.mpr hc)]
    simp only [sectSources, sectTerms, e, Res.bind_assoc, ok_bind]
  · have e : ∀ s, sectCoag m (some f) s = sectCoag m none s := fun s => by
      simp only [sectCoag, if_pos hc, show ilnFStatic (some f) m.binF = ok f from rfl, hf]
    simp only [sectSources, sectTerms, e]

example : ∃ f, ilnFStatic none (exModel .SECT 4 .LL .LL .LL .FM).binF = ok f := by
  have hl2 : (0 : ℝ) < log 2 := log_pos (by norm_num)
  exact ⟨1 / log 2, by rw [ilnFStatic, show (exModel .SECT 4 .LL .LL .LL .FM).binF = 2 from rfl, clog,
    if_neg (by norm_num), ok_bind, cdiv_ok hl2.ne']⟩

end Soot
