import Verif.SectInv
import Verif.Props.Ex

/-!
# Properties of the sectional model (C37-C41 and C10, C11, C16, C17, C20, C22, C51 for SECT)
-/

namespace Soot

open Res Real
open scoped Classical

/-! ## C37, C38: transport between bins -/

/-- **C37, C38** (the transport loops). For `n ≥ 2` strictly increasing positive bin masses and any bin-wise mass
rates `c`, the growth/condensation loop finishes with bin sources whose total mass is exactly `Σ c` and whose
total number is only what enters the last bin's own growth, `c_{n-1}/m_{n-1}`; the oxidation loop finishes with
total mass exactly `-Σ c` and total number `-c_0/m_0`, the loss out of the first bin. -/
theorem C37_C38_transport (n : ℕ) (bins : List ℝ) (h : Bins n bins) (c : ℕ → ℝ) :
    (∃ S, sectUp n bins c = ok S ∧
      ∑ k ∈ Finset.range n, bins.getD k 0 * S k = ∑ k ∈ Finset.range n, c k ∧
      ∑ k ∈ Finset.range n, S k = c (n - 1) / bins.getD (n - 1) 0) ∧
    (∃ S, sectDown n bins c = ok S ∧
      ∑ k ∈ Finset.range n, bins.getD k 0 * S k = - ∑ k ∈ Finset.range n, c k ∧
      ∑ k ∈ Finset.range n, S k = - (c 0 / bins.getD 0 0)) :=
  ⟨⟨_, sectUp_ok h c, upVal_mass h c, upVal_num h c⟩, ⟨_, sectDown_ok h c, downVal_mass h c, downVal_num h c⟩⟩

/-- **C38** (locality). Growth takes particles from a bin to the next one only: for non-negative rates the first
bin never gains, the last never loses, and each interior bin's source is inflow minus outflow, where the
outflow of a bin is the inflow of the next. -/
theorem C38_adjacent (n : ℕ) (bins : List ℝ) (h : Bins n bins) (c : ℕ → ℝ) (hc : ∀ k, 0 ≤ c k) :
    ∃ S, sectUp n bins c = ok S ∧ ∃ out : ℕ → ℝ, (∀ k, k + 1 < n → 0 ≤ out k) ∧
      S 0 = -out 0 ∧ (∀ k, 0 < k → k + 1 < n → S k = out (k - 1) - out k) ∧
      S (n - 1) = out (n - 2) + c (n - 1) / bins.getD (n - 1) 0 := by
  have hn := h.two
  refine ⟨_, sectUp_ok h c, fUp bins c, fun k hk => ?_, ?_, fun k h0 hk => ?_, ?_⟩
  · have := h.mono k hk
    exact div_nonneg (hc k) (by linarith)
  · rw [upVal, if_pos (by omega)]; simp [fIn]
  · rw [upVal, if_pos hk, fIn, if_neg (by omega)]
  · rw [upVal, if_neg (by omega), if_pos (by omega), fIn, if_neg (by omega)]; congr 1

/-! ## C41: the bins -/

theorem binMasses_getD {n : ℕ} {F : ℝ} {cMin : ℤ} {k : ℕ} (hk : k < n) :
    (binMasses n F cMin).getD k 0 = cMin * F ^ k * gasMW .C / Na := by
  simp [binMasses, List.getD_eq_getElem?_getD, hk]

theorem binMasses_bins {n : ℕ} {F : ℝ} {cMin : ℤ} (hn : 2 ≤ n) (hF : 1 < F) (hc : 0 < cMin) :
    Bins n (binMasses n F cMin) where
  len := by simp [binMasses]
  two := hn
  pos0 := by
    have : (0 : ℝ) < cMin := by exact_mod_cast hc
    have := gasMW_pos .C; have := Na_pos
    rw [binMasses_getD (by omega)]; positivity
  mono := by
    intro k hk
    have : (0 : ℝ) < cMin := by exact_mod_cast hc
    have := gasMW_pos .C; have := Na_pos
    have : 0 < F := by linarith
    rw [binMasses_getD (by omega), binMasses_getD hk]
    have e : F ^ k < F ^ (k + 1) := pow_lt_pow_right₀ hF (by omega)
    gcongr

/-- **C41** (bins and reported moments). Every SECT model the constructor accepts with `F > 1` and positive `cMin`
has exactly `nsoot` bins, of mass `cMin` carbon atoms times `F^k`, positive and strictly increasing; and for every
state with enough soot variables the sectional `M0`, `M1` are the total number and mass of the distribution. -/
theorem C41_bins (nsoot : ℕ) (n : Nucl) (g : Grow) (o : Oxid) (c : Coag) (Ntar : ℕ) (t : TarMech) (F : ℝ) (cMin : ℤ)
    (m : Model) (hF : 1 < F) (hc : 0 < cMin) (h : Model.newPtr .SECT nsoot n g o c Ntar t F cMin = ok m) :
    m.mBins.length = nsoot ∧
    (∀ k, k < nsoot → 0 < m.mBins.getD k 0 ∧ m.mBins.getD k 0 = m.mBins.getD 0 0 * F ^ k) ∧
    m.mBins.getD 0 0 = cMin * (gasMW .C / Na) ∧
    (∀ k, k + 1 < nsoot → m.mBins.getD k 0 < m.mBins.getD (k + 1) 0) ∧
    (∀ s : State, nsoot ≤ s.sootVar.length →
      m0Sectional m.ctx s = ok (∑ k ∈ Finset.range nsoot, s.sootVar.getD k 0) ∧
      m1Sectional m.ctx s = ok (∑ k ∈ Finset.range nsoot, s.sootVar.getD k 0 * m.mBins.getD k 0)) := by
  have hn : 2 ≤ nsoot := by
    by_contra hx
    simp [Model.newPtr, ctorCheck, not_le.mp hx] at h
  simp only [Model.newPtr, bind_eq_ok] at h
  obtain ⟨_, _, h⟩ := h
  cases h
  have hb := binMasses_bins hn hF hc
  simp only [if_true]
  refine ⟨hb.len, fun k hk => ⟨hb.pos hk, ?_⟩, ?_, hb.mono, fun s hs => ⟨m0Sectional_ok hs, m1Sectional_ok hs ?_⟩⟩
  · rw [binMasses_getD hk, binMasses_getD (by omega)]; ring
  · rw [binMasses_getD (by omega)]; ring
  · simp only [Model.ctx]; exact hb.len.ge

example : ∃ m, Model.new .SECT 20 .LL .LL .LL .FUCHS 0 .NONE 2 100 = ok m ∧ m.mBins.length = 20 := by
  refine ⟨_, exModel_new (by simp [ctorCheck]) .LL .LL .LL, ?_⟩
  exact (C41_bins 20 _ _ _ _ _ _ 2 100 _ (by norm_num) (by norm_num)
    (exModel_new (psd := .SECT) (nsoot := 20) (c := .FUCHS) (by simp [ctorCheck]) .LL .LL .LL)).1

/-! ## C39: one colliding pair -/

/-- The bin search finds the bracketing bins when the factor is the model's own. -/
theorem search_ok {n : ℕ} {bins : List ℝ} (h : Bins n bins) {F : ℝ} (hF : 1 < F)
    (hgeo : ∀ k, k < n → bins.getD k 0 = bins.getD 0 0 * F ^ k) (hbig : n + log 2 / log F < 2 ^ 64)
    {i j : ℕ} (hi : i < n) (hj : j < n) :
    ∃ k, toSizeT (1 / log F * log ((bins.getD i 0 + bins.getD j 0) / bins.getD 0 0)) = ok k ∧
      bins.getD 0 0 * F ^ k ≤ bins.getD i 0 + bins.getD j 0 ∧
      bins.getD i 0 + bins.getD j 0 < bins.getD 0 0 * F ^ (k + 1) := by
  have hn := h.two
  have p0 := h.pos0
  have pi := h.pos hi
  have pj := h.pos hj
  have hlF : 0 < log F := log_pos hF
  have hF0 : 0 < F := by linarith
  set q := (bins.getD i 0 + bins.getD j 0) / bins.getD 0 0 with hq
  have hq2 : 2 ≤ q := by
    rw [hq, le_div_iff₀ p0]
    have := h.le (Nat.zero_le i) hi
    have := h.le (Nat.zero_le j) hj
    linarith
  have hq0 : 0 < q := by linarith
  have hqu : q ≤ 2 * F ^ n := by
    rw [hq, div_le_iff₀ p0]
    have e : ∀ l, l < n → bins.getD l 0 ≤ bins.getD 0 0 * F ^ n := fun l hl => by
      rw [hgeo l hl]; exact mul_le_mul_of_nonneg_left (pow_le_pow_right₀ hF.le hl.le) p0.le
    linarith [e i hi, e j hj]
  have hl0 : 0 < log q := log_pos (by linarith)
  set x := 1 / log F * log q with hx
  have hx0 : 0 ≤ x := by positivity
  have hxu : x ≤ n + log 2 / log F := by
    have : log q ≤ log (2 * F ^ n) := log_le_log hq0 hqu
    rw [log_mul (by norm_num) (by positivity), log_pow] at this
    rw [hx, one_div, inv_mul_le_iff₀ hlF]
    have e : log F * (n + log 2 / log F) = log 2 + n * log F := by field_simp; ring
    rw [e]; exact this
  have hxlog : x * log F = log q := by rw [hx]; field_simp
  refine ⟨⌊x⌋₊, ?_, ?_, ?_⟩
  · rw [toSizeT, if_neg]
    push Not
    exact ⟨by linarith, by linarith⟩
  · have hk : (⌊x⌋₊ : ℝ) ≤ x := Nat.floor_le hx0
    have : F ^ ⌊x⌋₊ ≤ q := by
      rw [← log_le_log_iff (by positivity) hq0, log_pow, ← hxlog]
      exact mul_le_mul_of_nonneg_right hk hlF.le
    rw [hq, le_div_iff₀ p0] at this
    linarith
  · have hk : x < (⌊x⌋₊ : ℝ) + 1 := Nat.lt_floor_add_one x
    have : q < F ^ (⌊x⌋₊ + 1) := by
      rw [← log_lt_log_iff hq0 (by positivity), log_pow, ← hxlog]
      push_cast
      exact mul_lt_mul_of_pos_right hk hlF
    rw [hq, div_lt_iff₀ p0] at this
    linarith

/-- **C39.** With the model's own factor `1/log F`, `F > 1`, and geometric bins, a colliding pair `i ≤ j` takes
`t = K N_i N_j` from each partner (`t` in all for a like pair, which makes `e = t/2` events) and either
the sum mass lies in or above the top bin, which receives `e` events' mass, or it is bracketed by two adjacent
bins `k`, `k+1`, which receive fractions `X`, `1-X` of the `e` events, `0 ≤ X ≤ 1`, with mass exactly
conserved.  `hbig` says the bin index fits `size_t`. -/
theorem C39_pair_split (n : ℕ) (bins : List ℝ) (h : Bins n bins) (F : ℝ) (hF : 1 < F)
    (hgeo : ∀ k, k < n → bins.getD k 0 = bins.getD 0 0 * F ^ k) (hbig : n + log 2 / log F < 2 ^ 64)
    (c : Coag) (s : State) (hs : s.Phys) (hc : 0 < c.fmMult) (hv : n ≤ s.sootVar.length)
    (hv0 : ∀ x ∈ s.sootVar, 0 ≤ x) (i j : ℕ) (hij : i ≤ j) (hj : j < n) (S : ℕ → ℝ) :
    ∃ f S' t e, ilnFStatic none F = ok f ∧ coagPair n bins c s f i j S = ok S' ∧
      t = c.val s (bins.getD i 0) (bins.getD j 0) * s.sootVar.getD i 0 * s.sootVar.getD j 0 ∧ 0 ≤ t ∧
      e = (if i = j then t / 2 else t) ∧
      ((bins.getD (n - 1) 0 ≤ bins.getD i 0 + bins.getD j 0 ∧
        ∀ k, S' k = S k - (if k = i then t else 0) - (if i < j ∧ k = j then t else 0)
          + (if k = n - 1 then e * ((bins.getD i 0 + bins.getD j 0) / bins.getD (n - 1) 0) else 0)) ∨
       ∃ l X, l + 1 < n ∧ bins.getD l 0 ≤ bins.getD i 0 + bins.getD j 0 ∧
        bins.getD i 0 + bins.getD j 0 < bins.getD (l + 1) 0 ∧ 0 ≤ X ∧ X ≤ 1 ∧
        X * bins.getD l 0 + (1 - X) * bins.getD (l + 1) 0 = bins.getD i 0 + bins.getD j 0 ∧
        ∀ k, S' k = S k - (if k = i then t else 0) - (if i < j ∧ k = j then t else 0)
          + (if k = l then X * e else 0) + (if k = l + 1 then (1 - X) * e else 0)) := by
  have hn := h.two
  have hlF : 0 < log F := log_pos hF
  have hi : i < n := by omega
  obtain ⟨k, hk, hk1, hk2⟩ := search_ok h hF hgeo hbig hi hj
  set K := c.val s (bins.getD i 0) (bins.getD j 0) with hK
  set t := K * s.sootVar.getD i 0 * s.sootVar.getD j 0 with ht
  have ht0 : 0 ≤ t := by
    have := getD_nonneg hv0 i; have := getD_nonneg hv0 j
    have := Coag.val_nonneg hs hc (bins.getD i 0) (bins.getD j 0)
    positivity
  have he : pairEvents t i j = (if i = j then t / 2 else t) := by
    unfold pairEvents; split_ifs <;> ring
  have hloss : ∀ k, pairLoss t i j S k = S k - (if k = i then t else 0) - (if i < j ∧ k = j then t else 0) := by
    intro k
    unfold pairLoss addAt
    by_cases h1 : i < j
    · rw [if_pos h1]
      by_cases h2 : k = j
      · subst h2
        have : k ≠ i := by omega
        simp [this, h1]; ring
      · rw [Function.update_of_ne h2]
        by_cases h3 : k = i
        · subst h3; simp [h2]; ring
        · rw [Function.update_of_ne h3]; simp [h2, h3]
    · rw [if_neg h1]
      by_cases h3 : k = i
      · subst h3; simp [h1]; ring
      · rw [Function.update_of_ne h3]; simp [h1, h3]
  have hf : ilnFStatic none F = ok (1 / log F) := by
    rw [ilnFStatic, clog, if_neg (not_le.mpr (by linarith)), ok_bind, cdiv_ok hlF.ne']
  refine ⟨_, _, t, _, hf, coagPair_ok h hi hj hv (Coag.rate_ok hs hc _ _) hk S, rfl, ht0, he, ?_⟩
  by_cases hkn : n - 1 ≤ k
  · left
    constructor
    · rw [hgeo (n - 1) (by omega)]
      exact (mul_le_mul_of_nonneg_left (pow_le_pow_right₀ hF.le hkn) h.pos0.le).trans hk1
    · intro x
      rw [pairGain, if_pos hkn, ← hloss, addAt]
      by_cases hx : x = n - 1
      · subst hx; rw [Function.update_self, if_pos rfl, mul_div_assoc]
      · rw [Function.update_of_ne hx]; simp [hx]; rfl
  · right
    have hm := h.mono k (by omega)
    have g0 := hgeo k (by omega)
    have g1 := hgeo (k + 1) (by omega)
    have hd : bins.getD (k + 1) 0 - bins.getD k 0 ≠ 0 := by linarith
    have hd' : 0 < bins.getD (k + 1) 0 - bins.getD k 0 := by linarith
    refine ⟨k, (bins.getD (k + 1) 0 - (bins.getD i 0 + bins.getD j 0)) / (bins.getD (k + 1) 0 - bins.getD k 0),
      by omega, by rw [g0]; exact hk1, by rw [g1]; exact hk2, div_nonneg (by rw [g1]; linarith) hd'.le, ?_, ?_, ?_⟩
    · rw [div_le_one hd']; rw [← g0] at hk1; linarith
    · field_simp; ring
    · intro x
      rw [pairGain, if_neg hkn, ← hloss]
      simp only [addAt]
      by_cases hx : x = k + 1
      · subst hx
        have : k + 1 ≠ k := by omega
        rw [Function.update_self, Function.update_of_ne this]
        simp; rfl
      · rw [Function.update_of_ne hx]
        by_cases hx2 : x = k
        · subst hx2; simp; rfl
        · rw [Function.update_of_ne hx2]; simp [hx, hx2]; rfl

/-- C39 applies to a constructed model and an accepted state. -/
example : ∃ f S', ilnFStatic none 2 = ok f ∧ coagPair 3 (binMasses 3 2 100) (Coag.new .FM) (exSt [1E15, 1E14, 1E13] false)
    f 0 1 (fun _ => 0) = ok S' := by
  have hb : Bins 3 (binMasses 3 2 100) := binMasses_bins (by norm_num) (by norm_num) (by norm_num)
  have hv : (exSt [1E15, 1E14, 1E13] false).sootVar = [1E15, 1E14, 1E13] := exSt_sootVar _ (by norm_num)
  have hl2 : log 2 / log 2 = (1 : ℝ) := div_self (log_pos (by norm_num)).ne'
  obtain ⟨f, S', t, e, h1, h2, _⟩ := C39_pair_split 3 _ hb 2 (by norm_num)
    (fun k hk => by rw [binMasses_getD hk, binMasses_getD (by norm_num)]; ring)
    (by rw [hl2]; norm_num) (Coag.new .FM) (exSt [1E15, 1E14, 1E13] false) (exSt_gasOk _ _).acc.phys
    (by norm_num [Coag.new]) (by rw [hv]; simp) (exSt_gasOk _ _).acc.sootVar_nonneg 0 1 (by norm_num) (by norm_num)
    fun _ => 0
  exact ⟨f, S', h1, h2⟩

end Soot
