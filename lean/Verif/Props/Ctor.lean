import Verif.Model
import Mathlib.Tactic.Linarith

/-!
# C43: which configurations the constructors accept
-/

namespace Soot

open Res
open scoped Classical

/-- The documented configurations (doc comments and error texts of the six classes): soot-variable count, coagulation choice, tar choice. -/
inductive Documented : PsdMech → ℕ → CoagMech → TarMech → Prop
  | mono (c : CoagMech) (t : TarMech) : Documented .MONO 2 c t
  | logn (c : CoagMech) (hc : c ∈ [CoagMech.FM, .CONTINUUM, .HM]) : Documented .LOGN 3 c .NONE
  | qmom (k : ℕ) (hk : 1 ≤ k) (c : CoagMech) : Documented .QMOM (2 * k) c .NONE
  | momic (k : ℕ) (hk : 3 ≤ k) (hk' : k ≤ 8) (c : CoagMech) (hc : c ∈ [CoagMech.FM, .CONTINUUM, .HM]) : Documented .MOMIC k c .NONE
  | hmom (k : ℕ) (hk : 3 ≤ k) (hk' : k ≤ 8) (c : CoagMech) (hc : c ∈ [CoagMech.FM, .CONTINUUM, .HM]) :
      Documented .HMOM (k + 1) c .NONE
  | sect (k : ℕ) (hk : 2 ≤ k) (c : CoagMech) : Documented .SECT k c .NONE

theorem coag3_iff (c : CoagMech) : (c = .FM ∨ c = .CONTINUUM ∨ c = .HM) ↔ c ∈ [CoagMech.FM, .CONTINUUM, .HM] := by
  simp

/-- The constructor check of a class accepts a documented configuration and throws `runtime_error` on every other one. -/
theorem ctorCheck_iff (psd : PsdMech) (hp : psd ≠ .NONE) (n : ℕ) (c : CoagMech) (t : TarMech) :
    (Documented psd n c t → ctorCheck psd n c t = ok ()) ∧
    (¬ Documented psd n c t → ∃ msg, ctorCheck psd n c t = exn (.runtime msg)) := by
  constructor
  · intro h
    cases h with
    | mono => rfl
    | logn _ hc =>
      have := (coag3_iff c).2 hc
      simp only [ctorCheck, this, not_true, if_false, ne_eq]
    | qmom k hk =>
      have : ¬ (2 * k % 2 = 1 ∨ 2 * k < 1) := by omega
      simp only [ctorCheck, this, not_true, if_false]
    | momic _ hk hk' _ hc =>
      have h1 : ¬ (n < 3 ∨ n > 8) := by omega
      have := (coag3_iff c).2 hc
      simp only [ctorCheck, this, h1, not_true, if_false]
    | hmom k hk hk' _ hc =>
      have h1 : ¬ (k + 1 < 4 ∨ k + 1 > 9) := by omega
      have := (coag3_iff c).2 hc
      simp only [ctorCheck, this, h1, not_true, if_false]
    | sect _ hk =>
      have h1 : ¬ n < 2 := by omega
      simp only [ctorCheck, h1, not_true, if_false]
  · intro h
    cases psd with
    | NONE => exact absurd rfl hp
    | MONO =>
      by_cases hn : n = 2
      · subst hn; exact absurd (.mono c t) h
      · exact ⟨_, by simp only [ctorCheck, ne_eq, hn, not_false_eq_true, if_true]; rfl⟩
    | LOGN =>
      by_cases hn : n = 3
      · subst hn
        by_cases ht : t = .NONE
        · subst ht
          have hc : ¬ (c = .FM ∨ c = .CONTINUUM ∨ c = .HM) := fun hc => h (.logn c ((coag3_iff c).1 hc))
          exact ⟨_, by simp only [ctorCheck, ne_eq, hc, not_true, not_false_eq_true, if_true, if_false]; rfl⟩
        · exact ⟨_, by simp only [ctorCheck, ne_eq, ht, not_true, not_false_eq_true, if_true, if_false]; rfl⟩
      · exact ⟨_, by simp only [ctorCheck, ne_eq, hn, not_false_eq_true, if_true]; rfl⟩
    | QMOM =>
      by_cases hn : n % 2 = 1 ∨ n < 1
      · exact ⟨_, by simp only [ctorCheck, hn, if_true]; rfl⟩
      · by_cases ht : t = .NONE
        · subst ht
          obtain ⟨k, rfl⟩ : ∃ k, n = 2 * k := ⟨n / 2, by omega⟩
          exact absurd (.qmom k (by omega) c) h
        · exact ⟨_, by simp only [ctorCheck, hn, ht, not_false_eq_true, if_true, if_false]; rfl⟩
    | MOMIC =>
      by_cases hn : n < 3 ∨ n > 8
      · exact ⟨_, by simp only [ctorCheck, hn, if_true]; rfl⟩
      · by_cases ht : t = .NONE
        · subst ht
          have hc : ¬ (c = .FM ∨ c = .CONTINUUM ∨ c = .HM) :=
            fun hc => h (.momic n (by omega) (by omega) c ((coag3_iff c).1 hc))
          exact ⟨_, by simp only [ctorCheck, hn, hc, not_true, not_false_eq_true, if_true, if_false]; rfl⟩
        · exact ⟨_, by simp only [ctorCheck, hn, ht, not_false_eq_true, if_true, if_false]; rfl⟩
    | HMOM =>
      by_cases hn : n < 4 ∨ n > 9
      · exact ⟨_, by simp only [ctorCheck, hn, if_true]; rfl⟩
      · by_cases ht : t = .NONE
        · subst ht
          obtain ⟨k, rfl⟩ : ∃ k, n = k + 1 := ⟨n - 1, by omega⟩
          have hc : ¬ (c = .FM ∨ c = .CONTINUUM ∨ c = .HM) :=
            fun hc => h (.hmom k (by omega) (by omega) c ((coag3_iff c).1 hc))
          exact ⟨_, by simp only [ctorCheck, hn, hc, not_true, not_false_eq_true, if_true, if_false]; rfl⟩
        · exact ⟨_, by simp only [ctorCheck, hn, ht, not_false_eq_true, if_true, if_false]; rfl⟩
    | SECT =>
      by_cases hn : n < 2
      · exact ⟨_, by simp only [ctorCheck, hn, if_true]; rfl⟩
      · by_cases ht : t = .NONE
        · subst ht; exact absurd (.sect n (by omega) c) h
        · exact ⟨_, by simp only [ctorCheck, hn, ht, not_false_eq_true, if_true, if_false]; rfl⟩

/-- C43.  For each of the six classes, every count and every mechanism choice: the enum constructor succeeds on a documented configuration,
giving an object with the requested mechanisms and counts and zero sources of the right lengths, and throws `runtime_error` on any other. -/
theorem C43_ctor (psd : PsdMech) (hp : psd ≠ .NONE) (n : ℕ) (nm : NuclMech) (gm : GrowMech) (om : OxidMech) (cm : CoagMech)
    (Ntar : ℕ) (t : TarMech) (F : ℝ) (cMin : ℤ) :
    (Documented psd n cm t → ∃ m, Model.new psd n nm gm om cm Ntar t F cMin = ok m ∧ m.psd = psd ∧ m.nsoot = n ∧ m.Ntar = Ntar ∧
      m.nucl = Nucl.new nm ∧ m.grow = Grow.new gm ∧ m.oxid = Oxid.new om ∧ m.coag = Coag.new cm ∧ m.tar = t ∧
      m.sources.soot = List.replicate n 0 ∧ m.sources.tar = List.replicate Ntar 0 ∧ (∀ sp, m.sources.gas sp = 0) ∧
      (∀ sp, m.sources.pah sp = 0) ∧ (m.mBins.length = if psd = .SECT then n else 0)) ∧
    (¬ Documented psd n cm t → ∃ msg, Model.new psd n nm gm om cm Ntar t F cMin = exn (.runtime msg)) := by
  have hc : (Coag.new cm).mech = cm := by cases cm <;> rfl
  obtain ⟨h1, h2⟩ := ctorCheck_iff psd hp n cm t
  constructor
  · intro h
    refine ⟨_, by rw [Model.new, Model.newPtr, hc, h1 h]; exact ok_bind _ _, rfl, rfl, rfl, rfl, rfl, rfl, rfl, rfl, rfl, rfl,
      fun _ => rfl, fun _ => rfl, ?_⟩
    by_cases hs : psd = .SECT
    · simp [hs, binMasses]
    · simp [hs]
  · intro h
    obtain ⟨msg, e⟩ := h2 h
    exact ⟨msg, by rw [Model.new, Model.newPtr, hc, e]; rfl⟩

/-- C43.  What a freshly constructed object holds besides its sources: the requested mechanism types (the class of each mechanism object
included), an empty dimer record, zero PAH rates, and a coagulation multiplier of one. -/
theorem C43_fresh (psd : PsdMech) (hp : psd ≠ .NONE) (n : ℕ) (nm : NuclMech) (gm : GrowMech) (om : OxidMech) (cm : CoagMech)
    (Ntar : ℕ) (t : TarMech) (F : ℝ) (cMin : ℤ) (m : Model) (h : Model.new psd n nm gm om cm Ntar t F cMin = ok m) :
    m.nucl.mech = nm ∧ m.grow.mech = gm ∧ m.oxid.cls = om ∧ m.coag.mech = cm ∧ m.nucl.dimer.mDimer = 0 ∧
      m.nucl.dimer.nDimer = 0 ∧ m.nucl.dimer.nDotD = 0 ∧ (∀ sp, m.nucl.pahRates sp = 0) ∧ m.coag.fmMult = 1 ∧ m.binF = F := by
  by_cases hd : Documented psd n cm t
  · have hc : (Coag.new cm).mech = cm := by cases cm <;> rfl
    rw [Model.new, Model.newPtr, hc, (ctorCheck_iff psd hp n cm t).1 hd, ok_bind, ok.injEq] at h
    subst h
    exact ⟨rfl, rfl, rfl, rfl, rfl, rfl, rfl, fun _ => rfl, by simp only [Coag.new]; norm_num, rfl⟩
  · obtain ⟨msg, e⟩ := (C43_ctor psd hp n nm gm om cm Ntar t F cMin).2 hd
    rw [e] at h; cases h

/-- C43 for the pointer constructors, with any (also user-modified) mechanism objects. -/
theorem C43_ctor_ptr (psd : PsdMech) (hp : psd ≠ .NONE) (n : ℕ) (nu : Nucl) (g : Grow) (o : Oxid) (c : Coag)
    (Ntar : ℕ) (t : TarMech) (F : ℝ) (cMin : ℤ) :
    (Documented psd n c.mech t → ∃ m, Model.newPtr psd n nu g o c Ntar t F cMin = ok m ∧ m.psd = psd ∧ m.nsoot = n ∧ m.Ntar = Ntar ∧
      m.nucl = nu ∧ m.grow = g ∧ m.oxid = o ∧ m.coag = c ∧ m.tar = t) ∧
    (¬ Documented psd n c.mech t → ∃ msg, Model.newPtr psd n nu g o c Ntar t F cMin = exn (.runtime msg)) := by
  obtain ⟨h1, h2⟩ := ctorCheck_iff psd hp n c.mech t
  constructor
  · intro h
    exact ⟨_, by rw [Model.newPtr, h1 h]; exact ok_bind _ _, rfl, rfl, rfl, rfl, rfl, rfl, rfl, rfl⟩
  · intro h
    obtain ⟨msg, e⟩ := h2 h
    exact ⟨msg, by rw [Model.newPtr, e]; rfl⟩

/-- Non-vacuity: an accepted and a rejected configuration. -/
example : Documented .QMOM 6 .FUCHS .NONE ∧ ¬ Documented .LOGN 3 .FUCHS .NONE ∧ ¬ Documented .SECT 1 .FM .NONE := by
  refine ⟨.qmom 3 (by norm_num) _, ?_, ?_⟩
  · intro h; cases h with | logn _ hc => simp at hc
  · intro h; cases h with | sect _ hk => omega

end Soot
