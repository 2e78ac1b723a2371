import Verif.Props.SectEq
import Mathlib.Analysis.Convex.SpecificFunctions.Basic
import Mathlib.Analysis.SpecialFunctions.Pow.Real
import Mathlib.Analysis.Complex.ExponentialBounds

/-!
# C88: rounding in the bin search of the sectional model

The bin that receives a coagulated particle is the integer part of a computed logarithm (sootModel_SECT.cc:275). With the default growth
factor 2 the logarithm of two equal particles lies exactly on the edge between two bins, so the rounding of the processor decides the bin.
Here the rounded value may be anything near the exact one.
-/

namespace Soot

open Res Real
open scoped Classical

/-! ## The loop with a rounded logarithm -/

/-- sootModel_SECT.cc:264-285 as `coagPair`, with `rnd i j x` the number that is truncated when the exact value of
`ilnF * log((mBins[i]+mBins[j])/mBins[0])` is `x`. -/
noncomputable def coagPairR (rnd : ℕ → ℕ → ℝ → ℝ) (n : ℕ) (bins : List ℝ) (c : Coag) (s : State) (ilnF : ℝ) (i j : ℕ) (S : ℕ → ℝ) :
    Res (ℕ → ℝ) := do
  let mi ← idx bins i
  let mj ← idx bins j
  let K ← c.rate s mi mj
  let ni ← idx s.sootVar i
  let nj ← idx s.sootVar j
  let term := K * ni * nj
  let S ← bump n S i (-term)
  let S ← (if j > i then bump n S j (-term) else ok S)
  let term := if i = j then term * 0.5 else term
  let m0 ← idx bins 0
  let q ← cdiv (mi + mj) m0
  let l ← clog q
  let k ← toSizeT (rnd i j (ilnF * l))
  let k := if k ≥ n then n - 1 else k
  if k = n - 1 then do
    let mk ← idx bins k
    let g ← cdiv (term * (mi + mj)) mk
    bump n S k g
  else do
    let b ← idx bins (k + 1)
    let a ← idx bins k
    let X ← cdiv (b - (mi + mj)) (b - a)
    let S ← bump n S k (X * term)
    bump n S (k + 1) ((1 - X) * term)

/-- sootModel_SECT.cc:259-287 -/
noncomputable def coagLoopR (rnd : ℕ → ℕ → ℝ → ℝ) (n : ℕ) (bins : List ℝ) (c : Coag) (s : State) (ilnF : ℝ) :
    List (ℕ × ℕ) → (ℕ → ℝ) → Res (ℕ → ℝ)
  | [], S => ok S
  | (i, j) :: t, S => do
    let S ← coagPairR rnd n bins c s ilnF i j S
    coagLoopR rnd n bins c s ilnF t S

/-- sootModel_SECT.cc:253-288 -/
noncomputable def sectCoagR (rnd : ℕ → ℕ → ℝ → ℝ) (m : Model) (glob : Option ℝ) (s : State) : Res ((ℕ → ℝ) × Option ℝ) :=
  if m.coag.mech ≠ .NONE then do
    let f ← ilnFStatic glob m.binF
    let S ← coagLoopR rnd m.nsoot m.mBins m.coag s f (pairs m.nsoot) fun _ => 0
    ok (S, some f)
  else ok (fun _ => 0, glob)

/-- Without rounding this is the model of the code. -/
theorem sectCoagR_id (m : Model) (glob : Option ℝ) (s : State) : sectCoagR (fun _ _ x => x) m glob s = sectCoag m glob s := by
  have h : ∀ (f : ℝ) (l : List (ℕ × ℕ)) (S : ℕ → ℝ),
      coagLoopR (fun _ _ x => x) m.nsoot m.mBins m.coag s f l S = coagLoop m.nsoot m.mBins m.coag s f l S := by
    intro f l
    induction l with
    | nil => intro S; rfl
    | cons p t ih =>
      obtain ⟨i, j⟩ := p
      intro S
      have e : coagPairR (fun _ _ x => x) m.nsoot m.mBins m.coag s f i j S = coagPair m.nsoot m.mBins m.coag s f i j S := rfl
      simp only [coagLoopR, coagLoop, e, ih]
  simp only [sectCoagR, sectCoag, h]

/-! ## Specification -/

/-- Exact value of the number that is truncated: how many factors `F` the pair weighs above the first bin. -/
noncomputable def exactPos (m : Model) (i j : ℕ) : ℝ := 1 / log m.binF * log ((m.mBins.getD i 0 + m.mBins.getD j 0) / m.mBins.getD 0 0)

/-- The rounding moves no number by more than `δ`. -/
def Within (δ : ℝ) (rnd : ℕ → ℕ → ℝ → ℝ) : Prop := ∀ i j x, |rnd i j x - x| ≤ δ

/-- Collisions of bins `i` and `j` per second; those of a bin with itself are half as many. -/
noncomputable def collisions (m : Model) (s : State) (i j : ℕ) : ℝ :=
  m.coag.val s (m.mBins.getD i 0) (m.mBins.getD j 0) * s.sootVar.getD i 0 * s.sootVar.getD j 0 * (if i = j then 1 / 2 else 1)

/-- All collisions per second, each pair of bins once. -/
noncomputable def allCollisions (m : Model) (s : State) : ℝ := ((pairs m.nsoot).map fun p => collisions m s p.1 p.2).sum

namespace SRound

/-! ## One pair -/

theorem addAt_apply (S : ℕ → ℝ) (k : ℕ) (v : ℝ) (l : ℕ) : addAt S k v l = S l + if l = k then v else 0 := by
  unfold addAt
  by_cases h : l = k
  · subst h; simp
  · simp [Function.update_of_ne h, h]

/-- What the loss part takes from bin `l`. -/
noncomputable def lossAt (t : ℝ) (i j l : ℕ) : ℝ := (if l = i then t else 0) + if i < j ∧ l = j then t else 0

theorem loss_apply (t : ℝ) (i j : ℕ) (S : ℕ → ℝ) (l : ℕ) : pairLoss t i j S l = S l - lossAt t i j l := by
  unfold pairLoss lossAt
  by_cases h : j > i
  · rw [if_pos h, addAt_apply, addAt_apply]
    have : i < j := h
    simp only [this, true_and]
    split_ifs <;> ring
  · rw [if_neg h, addAt_apply]
    have : ¬ i < j := h
    simp only [this, false_and, if_false]
    split_ifs <;> ring

/-- What one event with target bin `k` adds to bin `l`. -/
noncomputable def gainAt (n : ℕ) (bins : List ℝ) (M : ℝ) (k l : ℕ) : ℝ :=
  if n - 1 ≤ k then (if l = n - 1 then M / bins.getD (n - 1) 0 else 0)
  else (if l = k then (bins.getD (k + 1) 0 - M) / (bins.getD (k + 1) 0 - bins.getD k 0) else 0) +
    if l = k + 1 then 1 - (bins.getD (k + 1) 0 - M) / (bins.getD (k + 1) 0 - bins.getD k 0) else 0

theorem gain_apply (n : ℕ) (bins : List ℝ) (e M : ℝ) (k : ℕ) (S : ℕ → ℝ) (l : ℕ) :
    pairGain n bins e M k S l = S l + e * gainAt n bins M k l := by
  unfold pairGain gainAt
  by_cases h : n - 1 ≤ k
  · simp only [if_pos h, addAt_apply]
    split_ifs <;> ring
  · simp only [if_neg h, addAt_apply]
    by_cases h1 : l = k
    · by_cases h2 : l = k + 1
      · omega
      · simp only [if_pos h1, if_neg h2]; ring
    · by_cases h2 : l = k + 1
      · simp only [if_neg h1, if_pos h2]; ring
      · simp only [if_neg h1, if_neg h2]; ring

theorem mean_pos {m : Model} (h : Bins m.nsoot m.mBins) {i j : ℕ} (hi : i < m.nsoot) (hj : j < m.nsoot) :
    2 ≤ (m.mBins.getD i 0 + m.mBins.getD j 0) / m.mBins.getD 0 0 := by
  rw [le_div_iff₀ h.pos0]
  have := h.le (Nat.zero_le i) hi
  have := h.le (Nat.zero_le j) hj
  linarith

/-- The rounded pair is the pair with another factor. -/
theorem pairR_eq {m : Model} {s : State} (h : Bins m.nsoot m.mBins) {rnd : ℕ → ℕ → ℝ → ℝ} {i j : ℕ} (hi : i < m.nsoot) (hj : j < m.nsoot)
    (f : ℝ) (S : ℕ → ℝ) : coagPairR rnd m.nsoot m.mBins m.coag s f i j S = coagPair m.nsoot m.mBins m.coag s
      (rnd i j (f * log ((m.mBins.getD i 0 + m.mBins.getD j 0) / m.mBins.getD 0 0)) /
        log ((m.mBins.getD i 0 + m.mBins.getD j 0) / m.mBins.getD 0 0)) i j S := by
  have hq := mean_pos h hi hj
  have hl := log_pos (show 1 < (m.mBins.getD i 0 + m.mBins.getD j 0) / m.mBins.getD 0 0 by linarith)
  have hn : 0 < m.nsoot := by omega
  unfold coagPairR coagPair
  rw [h.idx hi, h.idx hj, h.idx hn]
  simp only [ok_bind, cdiv_ok h.pos0.ne', clog, if_neg (not_le.mpr (show 0 < (m.mBins.getD i 0 + m.mBins.getD j 0) / m.mBins.getD 0 0 by linarith)),
    div_mul_cancel₀ _ hl.ne']

theorem pairR_ok {m : Model} {s : State} (h : SectReady m s) {rnd : ℕ → ℕ → ℝ → ℝ} {i j : ℕ} (hi : i < m.nsoot) (hj : j < m.nsoot)
    (h1 : -1 < rnd i j (exactPos m i j)) (h2 : rnd i j (exactPos m i j) < 2 ^ 64) (S : ℕ → ℝ) :
    coagPairR rnd m.nsoot m.mBins m.coag s (1 / log m.binF) i j S =
      ok (pairGain m.nsoot m.mBins (pairEvents (m.coag.val s (m.mBins.getD i 0) (m.mBins.getD j 0) * s.sootVar.getD i 0 * s.sootVar.getD j 0) i j)
        (m.mBins.getD i 0 + m.mBins.getD j 0) ⌊rnd i j (exactPos m i j)⌋₊
        (pairLoss (m.coag.val s (m.mBins.getD i 0) (m.mBins.getD j 0) * s.sootVar.getD i 0 * s.sootVar.getD j 0) i j S)) := by
  have hq := mean_pos h.bins hi hj
  have hl := log_pos (show 1 < (m.mBins.getD i 0 + m.mBins.getD j 0) / m.mBins.getD 0 0 by linarith)
  rw [pairR_eq h.bins hi hj]
  refine coagPair_ok h.bins hi hj h.len (h.coag _ _) ?_ S
  rw [div_mul_cancel₀ _ hl.ne', toSizeT, if_neg]
  · rfl
  · push Not; exact ⟨h1, h2⟩

theorem events_eq (m : Model) (s : State) (i j : ℕ) :
    pairEvents (m.coag.val s (m.mBins.getD i 0) (m.mBins.getD j 0) * s.sootVar.getD i 0 * s.sootVar.getD j 0) i j = collisions m s i j := by
  unfold pairEvents collisions
  split_ifs <;> norm_num <;> ring

theorem collisions_nonneg {m : Model} {s : State} (h : SectReady m s) (i j : ℕ) : 0 ≤ collisions m s i j := by
  unfold collisions
  have := Coag.val_nonneg h.gas.acc.phys h.fm (m.mBins.getD i 0) (m.mBins.getD j 0)
  have := getD_nonneg h.gas.acc.sootVar_nonneg i
  have := getD_nonneg h.gas.acc.sootVar_nonneg j
  split_ifs <;> positivity

/-! ## The exact position -/

theorem pos_props {m : Model} (h : Bins m.nsoot m.mBins) (hg : GeoBins m) {i j : ℕ} (hi : i < m.nsoot) (hj : j < m.nsoot) :
    0 ≤ exactPos m i j ∧ exactPos m i j < 2 ^ 64 ∧
      m.mBins.getD i 0 + m.mBins.getD j 0 = m.mBins.getD 0 0 * m.binF ^ exactPos m i j := by
  have p0 := h.pos0
  have hq := mean_pos h hi hj
  have hlF := log_pos hg.one
  have hF0 : 0 < m.binF := by linarith [hg.one]
  set q := (m.mBins.getD i 0 + m.mBins.getD j 0) / m.mBins.getD 0 0 with hqd
  have hl := log_pos (show 1 < q by linarith)
  refine ⟨?_, ?_, ?_⟩
  · unfold exactPos; positivity
  · have hqu : q ≤ 2 * m.binF ^ m.nsoot := by
      rw [hqd, div_le_iff₀ p0]
      have e : ∀ l, l < m.nsoot → m.mBins.getD l 0 ≤ m.mBins.getD 0 0 * m.binF ^ m.nsoot := fun l hl => by
        rw [hg.geo l hl]; exact mul_le_mul_of_nonneg_left (pow_le_pow_right₀ hg.one.le hl.le) p0.le
      linarith [e i hi, e j hj]
    have h2 : log q ≤ log (2 * m.binF ^ m.nsoot) := log_le_log (by linarith) hqu
    rw [log_mul (by norm_num) (by positivity), log_pow] at h2
    have : exactPos m i j ≤ m.nsoot + log 2 / log m.binF := by
      rw [exactPos, one_div, inv_mul_le_iff₀ hlF]
      have e : log m.binF * (m.nsoot + log 2 / log m.binF) = log 2 + m.nsoot * log m.binF := by field_simp; ring
      rw [e]; exact h2
    linarith [hg.fits]
  · have : m.binF ^ exactPos m i j = q := by
      rw [rpow_def_of_pos hF0, exactPos, ← mul_assoc, mul_one_div_cancel hlF.ne', one_mul, exp_log (by linarith)]
    rw [this, hqd, mul_div_cancel₀ _ p0.ne']

/-! ## Neighbouring target bins -/

/-- Linear splitting is continuous across a bin edge: with the target bin one off and the mass within a factor `1 ± u` of the edge, no
bin's share moves by more than `2uF/(F-1)`. -/
theorem gain_close {m : Model} (h : Bins m.nsoot m.mBins) (hg : GeoBins m) {M u : ℝ} (hu : 0 ≤ u) {k k' : ℕ}
    (hlo : m.mBins.getD 0 0 * m.binF ^ k ≤ M) (hhi : M ≤ m.mBins.getD 0 0 * m.binF ^ (k + 1))
    (hk : k' = k ∨ (k' + 1 = k ∧ M ≤ m.mBins.getD 0 0 * m.binF ^ k * (1 + u)) ∨
      (k' = k + 1 ∧ m.mBins.getD 0 0 * m.binF ^ (k + 1) * (1 - u) ≤ M)) (l : ℕ) :
    |gainAt m.nsoot m.mBins M k' l - gainAt m.nsoot m.mBins M k l| ≤ 2 * (u * m.binF / (m.binF - 1)) := by
  have hF1 : 0 < m.binF - 1 := by linarith [hg.one]
  have hF0 : 0 < m.binF := by linarith
  have p0 := h.pos0
  have hn := h.two
  have hw : 0 ≤ u * m.binF / (m.binF - 1) := by positivity
  rcases hk with rfl | ⟨rfl, hM⟩ | ⟨rfl, hM⟩
  · simpa using hw
  · -- one too low: `M` is just above the edge `k' + 1`
    set a := m.mBins.getD 0 0 * m.binF ^ k' with ha
    have ha0 : 0 < a := by positivity
    have e1 : m.mBins.getD 0 0 * m.binF ^ (k' + 1) = a * m.binF := by rw [pow_succ, ha]; ring
    rw [e1] at hlo hM
    set r := (M - a * m.binF) / (a * m.binF) with hr
    have hr0 : 0 ≤ r := div_nonneg (by linarith) (by positivity)
    have hru : r ≤ u := by rw [hr, div_le_iff₀ (by positivity)]; linarith
    have hMr : M = a * m.binF * (1 + r) := by rw [hr]; field_simp; ring
    have hwr : r * m.binF / (m.binF - 1) ≤ u * m.binF / (m.binF - 1) := by gcongr
    have hr1 : r ≤ r * m.binF / (m.binF - 1) := by rw [le_div_iff₀ hF1]; nlinarith
    have hr2 : r / (m.binF - 1) ≤ r * m.binF / (m.binF - 1) := by
      apply div_le_div_of_nonneg_right _ hF1.le; nlinarith [hg.one]
    have hr3 : 0 ≤ r / (m.binF - 1) := by positivity
    by_cases c1 : m.nsoot - 1 ≤ k'
    · unfold gainAt
      rw [if_pos c1, if_pos (show m.nsoot - 1 ≤ k' + 1 by omega)]; simpa using hw
    have b1 : m.mBins.getD k' 0 = a := hg.geo k' (by omega)
    have b2 : m.mBins.getD (k' + 1) 0 = a * m.binF := (hg.geo (k' + 1) (by omega)).trans e1
    have X1 : (a * m.binF - M) / (a * m.binF - a) = -(r * m.binF / (m.binF - 1)) := by
      rw [hMr]; field_simp; ring
    by_cases c2 : m.nsoot - 1 ≤ k' + 1
    · have hn1 : m.nsoot - 1 = k' + 1 := by omega
      unfold gainAt
      rw [if_neg c1, if_pos c2, hn1, b1, b2, X1]
      have X2 : M / (a * m.binF) = 1 + r := by rw [hMr]; field_simp
      rw [X2, abs_le]
      split_ifs <;> first | omega | (constructor <;> linarith)
    · have b3 : m.mBins.getD (k' + 1 + 1) 0 = a * m.binF * m.binF := by
        rw [hg.geo (k' + 1 + 1) (by omega), pow_succ, ← mul_assoc, e1]
      unfold gainAt
      rw [if_neg c1, if_neg c2, b1, b2, b3, X1]
      have X2 : (a * m.binF * m.binF - M) / (a * m.binF * m.binF - a * m.binF) = 1 - r / (m.binF - 1) := by
        rw [hMr]; field_simp; ring
      rw [X2, abs_le]
      split_ifs <;> first | omega | (constructor <;> linarith)
  · -- one too high: `M` is just below the edge `k + 1`
    set a := m.mBins.getD 0 0 * m.binF ^ k with ha
    have ha0 : 0 < a := by positivity
    have e1 : m.mBins.getD 0 0 * m.binF ^ (k + 1) = a * m.binF := by rw [pow_succ, ha]; ring
    rw [e1] at hhi hM
    set r := (a * m.binF - M) / (a * m.binF) with hr
    have hr0 : 0 ≤ r := div_nonneg (by linarith) (by positivity)
    have hru : r ≤ u := by rw [hr, div_le_iff₀ (by positivity)]; linarith
    have hMr : M = a * m.binF * (1 - r) := by rw [hr]; field_simp; ring
    have hwr : r * m.binF / (m.binF - 1) ≤ u * m.binF / (m.binF - 1) := by gcongr
    have hr1 : r ≤ r * m.binF / (m.binF - 1) := by rw [le_div_iff₀ hF1]; nlinarith
    have hr2 : r / (m.binF - 1) ≤ r * m.binF / (m.binF - 1) := by
      apply div_le_div_of_nonneg_right _ hF1.le; nlinarith [hg.one]
    have hr3 : 0 ≤ r / (m.binF - 1) := by positivity
    by_cases c1 : m.nsoot - 1 ≤ k
    · unfold gainAt
      rw [if_pos c1, if_pos (show m.nsoot - 1 ≤ k + 1 by omega)]; simpa using hw
    have b1 : m.mBins.getD k 0 = a := hg.geo k (by omega)
    have b2 : m.mBins.getD (k + 1) 0 = a * m.binF := (hg.geo (k + 1) (by omega)).trans e1
    have X1 : (a * m.binF - M) / (a * m.binF - a) = r * m.binF / (m.binF - 1) := by
      rw [hMr]; field_simp; ring
    by_cases c2 : m.nsoot - 1 ≤ k + 1
    · have hn1 : m.nsoot - 1 = k + 1 := by omega
      unfold gainAt
      rw [if_neg c1, if_pos c2, hn1, b1, b2, X1]
      have X2 : M / (a * m.binF) = 1 - r := by rw [hMr]; field_simp
      rw [X2, abs_le]
      split_ifs <;> first | omega | (constructor <;> linarith)
    · have b3 : m.mBins.getD (k + 1 + 1) 0 = a * m.binF * m.binF := by
        rw [hg.geo (k + 1 + 1) (by omega), pow_succ, ← mul_assoc, e1]
      unfold gainAt
      rw [if_neg c1, if_neg c2, b1, b2, b3, X1]
      have X2 : (a * m.binF * m.binF - M) / (a * m.binF * m.binF - a * m.binF) = 1 + r / (m.binF - 1) := by
        rw [hMr]; field_simp; ring
      rw [X2, abs_le]
      split_ifs <;> first | omega | (constructor <;> linarith)

/-- Floors of two numbers less than one apart. -/
theorem floor_near {x y δ : ℝ} (hx : 0 ≤ x) (hδ1 : δ < 1) (h : |y - x| ≤ δ) :
    ⌊y⌋₊ = ⌊x⌋₊ ∨ (⌊y⌋₊ + 1 = ⌊x⌋₊ ∧ x ≤ ⌊x⌋₊ + δ) ∨ (⌊y⌋₊ = ⌊x⌋₊ + 1 ∧ (⌊x⌋₊ : ℝ) + 1 - δ ≤ x) := by
  obtain ⟨h1, h2⟩ := abs_le.mp h
  have f1 := Nat.floor_le hx
  have f2 := Nat.lt_floor_add_one x
  have f4 := Nat.lt_floor_add_one y
  have c1 : ⌊x⌋₊ < ⌊y⌋₊ + 2 := by
    have : (⌊x⌋₊ : ℝ) < ⌊y⌋₊ + 2 := by linarith
    exact_mod_cast this
  have c2 : ⌊y⌋₊ < ⌊x⌋₊ + 2 := by
    rcases le_or_gt 0 y with hy | hy
    · have f3 := Nat.floor_le hy
      have : (⌊y⌋₊ : ℝ) < ⌊x⌋₊ + 2 := by linarith
      exact_mod_cast this
    · rw [Nat.floor_of_nonpos hy.le]; omega
  rcases Nat.lt_trichotomy ⌊y⌋₊ ⌊x⌋₊ with hc | hc | hc
  · refine Or.inr (Or.inl ⟨by omega, ?_⟩)
    have : (⌊y⌋₊ : ℝ) + 1 ≤ ⌊x⌋₊ := by exact_mod_cast hc
    linarith
  · exact Or.inl hc
  · refine Or.inr (Or.inr ⟨by omega, ?_⟩)
    have e : ⌊y⌋₊ = ⌊x⌋₊ + 1 := by omega
    have hy : 0 ≤ y := by
      by_contra hy
      rw [Nat.floor_of_nonpos (by linarith)] at e; omega
    have f3 := Nat.floor_le hy
    rw [e] at f3
    push_cast at f3
    linarith

/-- A rounded position within `δ < 1` of the exact one moves no bin's share by more than `2(F^δ-1)F/(F-1)`. -/
theorem gain_within {m : Model} (h : Bins m.nsoot m.mBins) (hg : GeoBins m) {δ : ℝ} (hδ : 0 ≤ δ) (hδ1 : δ < 1) {i j : ℕ} (hi : i < m.nsoot)
    (hj : j < m.nsoot) {y : ℝ} (hy : |y - exactPos m i j| ≤ δ) (l : ℕ) :
    |gainAt m.nsoot m.mBins (m.mBins.getD i 0 + m.mBins.getD j 0) ⌊y⌋₊ l -
      gainAt m.nsoot m.mBins (m.mBins.getD i 0 + m.mBins.getD j 0) ⌊exactPos m i j⌋₊ l| ≤
        2 * ((m.binF ^ δ - 1) * m.binF / (m.binF - 1)) := by
  obtain ⟨x0, -, hM⟩ := pos_props h hg hi hj
  have hF0 : 0 < m.binF := by linarith [hg.one]
  have p0 := h.pos0
  have f1 := Nat.floor_le x0
  have f2 := Nat.lt_floor_add_one (exactPos m i j)
  have hd1 : 1 ≤ m.binF ^ δ := one_le_rpow hg.one.le hδ
  have mono : ∀ {a b : ℝ}, a ≤ b → m.mBins.getD 0 0 * m.binF ^ a ≤ m.mBins.getD 0 0 * m.binF ^ b := fun hab =>
    mul_le_mul_of_nonneg_left (rpow_le_rpow_of_exponent_le hg.one.le hab) p0.le
  refine gain_close h hg (by linarith) ?_ ?_ ?_ l
  · rw [hM, ← rpow_natCast]; exact mono f1
  · rw [hM, ← rpow_natCast]; push_cast; exact mono f2.le
  · rcases floor_near x0 hδ1 hy with hc | ⟨hc, hb⟩ | ⟨hc, hb⟩
    · exact Or.inl hc
    · refine Or.inr (Or.inl ⟨hc, ?_⟩)
      rw [hM, ← rpow_natCast, add_sub_cancel, mul_assoc, ← rpow_add hF0]
      exact mono hb
    · refine Or.inr (Or.inr ⟨hc, ?_⟩)
      have e : (1 : ℝ) - (m.binF ^ δ - 1) ≤ m.binF ^ (-δ) := by
        rw [rpow_neg hF0.le, inv_eq_one_div, le_div_iff₀ (by linarith)]
        nlinarith [sq_nonneg (m.binF ^ δ - 1)]
      rw [hM]
      calc m.mBins.getD 0 0 * m.binF ^ (⌊exactPos m i j⌋₊ + 1) * (1 - (m.binF ^ δ - 1)) ≤
          m.mBins.getD 0 0 * m.binF ^ (⌊exactPos m i j⌋₊ + 1) * m.binF ^ (-δ) := by gcongr
        _ = m.mBins.getD 0 0 * m.binF ^ ((⌊exactPos m i j⌋₊ : ℝ) + 1 - δ) := by
          rw [mul_assoc, ← rpow_natCast, ← rpow_add hF0]; push_cast; rfl
        _ ≤ _ := mono hb

/-! ## The loop -/

/-- The rounded value can be converted to an index. -/
def Castable (m : Model) (rnd : ℕ → ℕ → ℝ → ℝ) : Prop :=
  ∀ i j, i ≤ j → j < m.nsoot → -1 < rnd i j (exactPos m i j) ∧ rnd i j (exactPos m i j) < 2 ^ 64

theorem loopR_ok {m : Model} {s : State} (h : SectReady m s) {rnd : ℕ → ℕ → ℝ → ℝ} (hr : Castable m rnd) (l : List (ℕ × ℕ))
    (hl : ∀ p ∈ l, p.1 ≤ p.2 ∧ p.2 < m.nsoot) (S : ℕ → ℝ) :
    ∃ S', coagLoopR rnd m.nsoot m.mBins m.coag s (1 / log m.binF) l S = ok S' ∧
      (∀ k, S' k = S k + (l.map fun p => collisions m s p.1 p.2 *
          gainAt m.nsoot m.mBins (m.mBins.getD p.1 0 + m.mBins.getD p.2 0) ⌊rnd p.1 p.2 (exactPos m p.1 p.2)⌋₊ k -
          lossAt (m.coag.val s (m.mBins.getD p.1 0) (m.mBins.getD p.2 0) * s.sootVar.getD p.1 0 * s.sootVar.getD p.2 0) p.1 p.2 k).sum) ∧
      ∑ k ∈ Finset.range m.nsoot, m.mBins.getD k 0 * S' k = ∑ k ∈ Finset.range m.nsoot, m.mBins.getD k 0 * S k ∧
      ∑ k ∈ Finset.range m.nsoot, S' k ≤ ∑ k ∈ Finset.range m.nsoot, S k := by
  induction l generalizing S with
  | nil => exact ⟨S, rfl, by simp, rfl, le_rfl⟩
  | cons p t ih =>
    obtain ⟨i, j⟩ := p
    obtain ⟨hij, hj⟩ := hl (i, j) (by simp)
    simp only at hij hj
    have hi : i < m.nsoot := by omega
    obtain ⟨r1, r2⟩ := hr i j hij hj
    have e := pairR_ok h hi hj r1 r2 S
    rw [events_eq] at e
    obtain ⟨S', h1, h2, h3, h4⟩ := ih (fun p hp => hl p (by simp [hp]))
      (pairGain m.nsoot m.mBins (collisions m s i j) (m.mBins.getD i 0 + m.mBins.getD j 0) ⌊rnd i j (exactPos m i j)⌋₊
        (pairLoss (m.coag.val s (m.mBins.getD i 0) (m.mBins.getD j 0) * s.sootVar.getD i 0 * s.sootVar.getD j 0) i j S))
    refine ⟨S', by rw [coagLoopR, e, ok_bind, h1], fun k => ?_, ?_, h4.trans ?_⟩
    · rw [h2 k, gain_apply, loss_apply, List.map_cons, List.sum_cons]; ring
    · rw [h3, pairGain_mass h.bins, pairLoss_sum hi hj hij (fun i => m.mBins.getD i 0), events_eq]; ring
    · have ht := collisions_nonneg h i j
      rw [pairGain_num h.bins]
      have hl := pairLoss_sum (n := m.nsoot) (i := i) (j := j) hi hj hij (fun _ => 1) S
        (m.coag.val s (m.mBins.getD i 0) (m.mBins.getD j 0) * s.sootVar.getD i 0 * s.sootVar.getD j 0)
      simp only [one_mul] at hl
      rw [hl, events_eq]
      have : (if m.nsoot - 1 ≤ ⌊rnd i j (exactPos m i j)⌋₊ then
          collisions m s i j * (m.mBins.getD i 0 + m.mBins.getD j 0) / m.mBins.getD (m.nsoot - 1) 0 else collisions m s i j) ≤
          collisions m s i j * (1 + 1) := by
        split_ifs
        · have hn := h.bins.two
          have ht1 := h.bins.pos (show m.nsoot - 1 < m.nsoot by omega)
          have e1 := h.bins.le (show i ≤ m.nsoot - 1 by omega) (by omega)
          have e2 := h.bins.le (show j ≤ m.nsoot - 1 by omega) (by omega)
          rw [div_le_iff₀ ht1, mul_assoc]
          apply mul_le_mul_of_nonneg_left _ ht
          linarith
        · linarith
      linarith

theorem sum_close {ι : Type} {c d : ℝ} (hd : 0 ≤ d) (l : List ι) (A B e : ι → ℝ) (he : ∀ p ∈ l, 0 ≤ e p)
    (h : ∀ p ∈ l, |A p - B p| ≤ e p * d) (hc : (l.map e).sum = c) : |(l.map A).sum - (l.map B).sum| ≤ d * c := by
  subst hc
  induction l with
  | nil => simp
  | cons p t ih =>
    have h1 := h p (by simp)
    have h2 := ih (fun q hq => he q (by simp [hq])) fun q hq => h q (by simp [hq])
    simp only [List.map_cons, List.sum_cons]
    rw [abs_le] at *
    constructor <;> nlinarith [h1.1, h1.2, h2.1, h2.2]

theorem castable {m : Model} (h : Bins m.nsoot m.mBins) (hg : GeoBins m) {δ : ℝ} (hδ1 : δ < 1) (hfit : m.nsoot + log 2 / log m.binF + δ < 2 ^ 64)
    {rnd : ℕ → ℕ → ℝ → ℝ} (hr : Within δ rnd) : Castable m rnd := by
  intro i j hij hj
  obtain ⟨x0, -, -⟩ := pos_props h hg (show i < m.nsoot by omega) hj
  have hxu : exactPos m i j ≤ m.nsoot + log 2 / log m.binF := by
    have p0 := h.pos0
    have hq := mean_pos h (show i < m.nsoot by omega) hj
    have hlF := log_pos hg.one
    have hF0 : 0 < m.binF := by linarith [hg.one]
    have hqu : (m.mBins.getD i 0 + m.mBins.getD j 0) / m.mBins.getD 0 0 ≤ 2 * m.binF ^ m.nsoot := by
      rw [div_le_iff₀ p0]
      have e : ∀ l, l < m.nsoot → m.mBins.getD l 0 ≤ m.mBins.getD 0 0 * m.binF ^ m.nsoot := fun l hl => by
        rw [hg.geo l hl]; exact mul_le_mul_of_nonneg_left (pow_le_pow_right₀ hg.one.le hl.le) p0.le
      linarith [e i (by omega), e j hj]
    have h2 := log_le_log (by linarith) hqu
    rw [log_mul (by norm_num) (by positivity), log_pow] at h2
    rw [exactPos, one_div, inv_mul_le_iff₀ hlF]
    have e : log m.binF * (m.nsoot + log 2 / log m.binF) = log 2 + m.nsoot * log m.binF := by field_simp; ring
    rw [e]; exact h2
  obtain ⟨h1, h2⟩ := abs_le.mp (hr i j (exactPos m i j))
  constructor <;> linarith

theorem castable_id {m : Model} (h : Bins m.nsoot m.mBins) (hg : GeoBins m) : Castable m fun _ _ x => x := fun i j hij hj => by
  obtain ⟨x0, x1, -⟩ := pos_props h hg (show i < m.nsoot by omega) hj
  exact ⟨by linarith, x1⟩

/-! ## Growth factor two -/

/-- `log₂(1 + 2^-d)` for `d ≥ 1` keeps away from both integers. -/
theorem log2_gap {d : ℕ} (hd : 1 ≤ d) : 1 / 2 ^ d ≤ 1 / log 2 * log (1 + 1 / 2 ^ d) ∧ 1 / log 2 * log (1 + 1 / 2 ^ d) ≤ 3 / 5 ∧
    1 / log 2 * log (1 + 1 / 2 ^ d) ≤ 3 / 2 * (1 / 2 ^ d) := by
  have hl2 : 0 < log 2 := log_pos (by norm_num)
  set y : ℝ := 1 / 2 ^ d with hy
  have hy0 : 0 < y := by positivity
  have hy1 : y ≤ 1 / 2 := by
    rw [hy]
    apply one_div_le_one_div_of_le (by norm_num)
    calc (2 : ℝ) = 2 ^ 1 := by norm_num
      _ ≤ 2 ^ d := pow_le_pow_right₀ (by norm_num) hd
  refine ⟨?_, ?_, ?_⟩
  · have h := rpow_one_add_le_one_add_mul_self (show (-1 : ℝ) ≤ 1 by norm_num) hy0.le (by linarith)
    rw [show (1 : ℝ) + 1 = 2 by norm_num, mul_one] at h
    have h2 := log_le_log (by positivity) h
    rw [log_rpow (by norm_num)] at h2
    rw [one_div, le_inv_mul_iff₀ hl2]; linarith
  · have h5 : 5 * log (1 + y) ≤ 3 * log 2 := by
      rw [← log_rpow (by linarith), ← log_rpow (by norm_num)]
      apply log_le_log (by positivity)
      rw [show (5 : ℝ) = ((5 : ℕ) : ℝ) by norm_num, show (3 : ℝ) = ((3 : ℕ) : ℝ) by norm_num, rpow_natCast, rpow_natCast]
      calc (1 + y) ^ 5 ≤ (1 + 1 / 2 : ℝ) ^ 5 := by gcongr
        _ ≤ 2 ^ 3 := by norm_num
    rw [one_div, inv_mul_le_iff₀ hl2]; linarith
  · have h1 : log (1 + y) ≤ y := by
      have := log_le_sub_one_of_pos (show 0 < 1 + y by linarith); linarith
    have h2 : (2 : ℝ) / 3 ≤ log 2 := by linarith [log_two_gt_d9]
    rw [one_div, inv_mul_le_iff₀ hl2]; nlinarith

theorem pos_two {m : Model} (h : Bins m.nsoot m.mBins) (hg : GeoBins m) (h2 : m.binF = 2) {i j : ℕ} (hij : i ≤ j) (hj : j < m.nsoot) :
    exactPos m i j = j + 1 / log 2 * log (1 + 1 / 2 ^ (j - i)) := by
  have hl2 : 0 < log 2 := log_pos (by norm_num)
  have e : (m.mBins.getD i 0 + m.mBins.getD j 0) / m.mBins.getD 0 0 = 2 ^ j * (1 + 1 / 2 ^ (j - i)) := by
    rw [hg.geo i (by omega), hg.geo j hj, h2]
    have p0 := h.pos0
    have e1 : (2 : ℝ) ^ j = 2 ^ i * 2 ^ (j - i) := by rw [← pow_add]; congr 1; omega
    rw [e1]
    field_simp
    ring
  rw [exactPos, e, h2, log_mul (by positivity) (by positivity), log_pow]
  field_simp

end SRound

/-! ## C88 -/

/-- **C88 (conservation).** Whatever the rounding makes of the logarithms, as long as the numbers can be converted to an index, the
coagulation terms of the sectional model keep the soot mass exactly and never raise the number of particles. -/
theorem C88_conserve (m : Model) (s : State) (glob : Option ℝ) (h : SectReady m s) (hg : GeoBins m) (hgl : OwnFactor m glob)
    (rnd : ℕ → ℕ → ℝ → ℝ) (hr : ∀ i j, i ≤ j → j < m.nsoot → -1 < rnd i j (exactPos m i j) ∧ rnd i j (exactPos m i j) < 2 ^ 64) :
    ∃ S glob', sectCoagR rnd m glob s = ok (S, glob') ∧ ∑ k ∈ Finset.range m.nsoot, m.mBins.getD k 0 * S k = 0 ∧
      ∑ k ∈ Finset.range m.nsoot, S k ≤ 0 := by
  unfold sectCoagR
  by_cases hc : m.coag.mech = .NONE
  · simp only [hc, ne_eq, not_true_eq_false, if_false]
    exact ⟨_, _, rfl, by simp, by simp⟩
  · obtain ⟨S, h1, -, h2, h3⟩ := SRound.loopR_ok h hr (pairs m.nsoot) (pairs_mem m.nsoot) fun _ => 0
    simp only [ne_eq, hc, not_false_eq_true, if_true, hgl.static hg.one, ok_bind, h1]
    exact ⟨_, _, rfl, by simpa using h2, by simpa using h3⟩

/-- **C88 (error bound).** If the rounding moves no logarithm by more than `δ < 1`, then each bin's coagulation term differs from the exact
one by at most `2(F^δ-1)F/(F-1)` of the number of collisions per second. -/
theorem C88_error (m : Model) (s : State) (glob : Option ℝ) (h : SectReady m s) (hg : GeoBins m) (hgl : OwnFactor m glob)
    (δ : ℝ) (hδ : 0 ≤ δ) (hδ1 : δ < 1) (hfit : m.nsoot + log 2 / log m.binF + δ < 2 ^ 64) (rnd : ℕ → ℕ → ℝ → ℝ) (hr : Within δ rnd) :
    ∃ S S' glob', sectCoag m glob s = ok (S, glob') ∧ sectCoagR rnd m glob s = ok (S', glob') ∧
      ∀ k, |S' k - S k| ≤ 2 * ((m.binF ^ δ - 1) * m.binF / (m.binF - 1)) * allCollisions m s := by
  rw [← sectCoagR_id]
  have hF1 : 0 < m.binF - 1 := by linarith [hg.one]
  have hw : 0 ≤ 2 * ((m.binF ^ δ - 1) * m.binF / (m.binF - 1)) := by
    have := one_le_rpow hg.one.le hδ
    have : 0 ≤ m.binF ^ δ - 1 := by linarith
    have : 0 < m.binF := by linarith
    positivity
  have hcol : ∀ p ∈ pairs m.nsoot, 0 ≤ collisions m s p.1 p.2 := fun p _ => SRound.collisions_nonneg h p.1 p.2
  unfold sectCoagR
  by_cases hc : m.coag.mech = .NONE
  · simp only [hc, ne_eq, not_true_eq_false, if_false]
    refine ⟨_, _, _, rfl, rfl, fun k => ?_⟩
    have : 0 ≤ allCollisions m s := List.sum_nonneg fun x hx => by
      obtain ⟨p, hp, rfl⟩ := List.mem_map.mp hx; exact hcol p hp
    simpa using mul_nonneg hw this
  · obtain ⟨S, h1, h2, -, -⟩ := SRound.loopR_ok h (SRound.castable_id h.bins hg) (pairs m.nsoot) (pairs_mem m.nsoot) fun _ => 0
    obtain ⟨S', h1', h2', -, -⟩ := SRound.loopR_ok h (SRound.castable h.bins hg hδ1 hfit hr) (pairs m.nsoot) (pairs_mem m.nsoot) fun _ => 0
    simp only [ne_eq, hc, not_false_eq_true, if_true, hgl.static hg.one, ok_bind, h1, h1']
    refine ⟨_, _, _, rfl, rfl, fun k => ?_⟩
    rw [h2 k, h2' k, zero_add, zero_add]
    refine SRound.sum_close hw _ _ _ (fun p => collisions m s p.1 p.2) hcol (fun p hp => ?_) rfl
    obtain ⟨hij, hj⟩ := pairs_mem m.nsoot p hp
    have := SRound.gain_within h.bins hg hδ hδ1 (show p.1 < m.nsoot by omega) hj (hr p.1 p.2 _) k
    rw [sub_sub_sub_cancel_right, ← mul_sub, abs_mul, abs_of_nonneg (hcol p hp)]
    exact mul_le_mul_of_nonneg_left this (hcol p hp)

/-- **C88 (no effect at factor two).** With the default growth factor 2 and `n` bins, a rounding of less than `2^-n` has no effect at all on the
coagulation terms, although like pairs lie exactly on a bin edge. -/
theorem C88_exact (m : Model) (s : State) (glob : Option ℝ) (h : SectReady m s) (hg : GeoBins m) (hgl : OwnFactor m glob) (h2 : m.binF = 2)
    (δ : ℝ) (hδ : 0 ≤ δ) (hn : δ * 2 ^ m.nsoot < 1) (rnd : ℕ → ℕ → ℝ → ℝ) (hr : Within δ rnd) (hfit : (m.nsoot : ℝ) + 2 < 2 ^ 64) :
    ∃ S S' glob', sectCoag m glob s = ok (S, glob') ∧ sectCoagR rnd m glob s = ok (S', glob') ∧ S' = S := by
  rw [← sectCoagR_id]
  have htwo := h.bins.two
  have hδ4 : δ ≤ 1 / 4 := by
    have : (4 : ℝ) ≤ 2 ^ m.nsoot := by
      calc (4 : ℝ) = 2 ^ 2 := by norm_num
        _ ≤ 2 ^ m.nsoot := pow_le_pow_right₀ (by norm_num) htwo
    nlinarith
  have hl2 : 0 < log 2 := log_pos (by norm_num)
  unfold sectCoagR
  by_cases hc : m.coag.mech = .NONE
  · simp only [hc, ne_eq, not_true_eq_false, if_false]
    exact ⟨_, _, _, rfl, rfl, rfl⟩
  · have hfit' : m.nsoot + log 2 / log m.binF + δ < 2 ^ 64 := by rw [h2, div_self hl2.ne']; linarith
    obtain ⟨S, h1, e1, -, -⟩ := SRound.loopR_ok h (SRound.castable_id h.bins hg) (pairs m.nsoot) (pairs_mem m.nsoot) fun _ => 0
    obtain ⟨S', h1', e1', -, -⟩ := SRound.loopR_ok h (SRound.castable h.bins hg (by linarith) hfit' hr) (pairs m.nsoot) (pairs_mem m.nsoot) fun _ => 0
    simp only [ne_eq, hc, not_false_eq_true, if_true, hgl.static hg.one, ok_bind, h1, h1']
    refine ⟨_, _, _, rfl, rfl, ?_⟩
    funext k
    rw [e1 k, e1' k]
    congr 2
    refine List.map_congr_left fun p hp => ?_
    obtain ⟨i, j⟩ := p
    obtain ⟨hij, hj⟩ := pairs_mem m.nsoot _ hp
    simp only at hij hj ⊢
    congr 2
    obtain ⟨x0, -, hM⟩ := SRound.pos_props h.bins hg (show i < m.nsoot by omega) hj
    have hpos := SRound.pos_two h.bins hg h2 hij hj
    have hy := hr i j (exactPos m i j)
    rcases Nat.eq_zero_or_pos (j - i) with hd | hd
    · -- a like pair: the exact position is `j + 1`
      have hx : exactPos m i j = ((j + 1 : ℕ) : ℝ) := by
        rw [hpos, hd]
        have e : (1 : ℝ) + 1 / 2 ^ 0 = 2 := by norm_num
        rw [e, one_div, inv_mul_cancel₀ hl2.ne']; push_cast; rfl
      have hfl : ⌊exactPos m i j⌋₊ = j + 1 := by rw [hx, Nat.floor_natCast]
      rw [hx, rpow_natCast] at hM
      have := SRound.gain_close h.bins hg (M := m.mBins.getD i 0 + m.mBins.getD j 0) (u := 0) le_rfl (k := ⌊exactPos m i j⌋₊) (k' := ⌊rnd i j (exactPos m i j)⌋₊)
        (by rw [hfl, hM]) (by
          rw [hfl, hM, pow_succ m.binF (j + 1), ← mul_assoc]
          have := h.bins.pos0
          have : 0 < m.mBins.getD 0 0 * m.binF ^ (j + 1) := by rw [h2]; positivity
          rw [h2] at *; linarith) ?_ k
      · simpa [sub_eq_zero] using this
      · rcases SRound.floor_near x0 (by linarith) hy with hc | ⟨hc, -⟩ | ⟨hc, hb⟩
        · exact Or.inl hc
        · refine Or.inr (Or.inl ⟨hc, ?_⟩)
          rw [hfl, hM]; simp
        · exfalso
          rw [hfl, hx] at hb; linarith
    · obtain ⟨g1, g2, -⟩ := SRound.log2_gap hd
      have hfl : ⌊exactPos m i j⌋₊ = j := by
        rw [Nat.floor_eq_iff x0, hpos]
        have : (0 : ℝ) < 1 / 2 ^ (j - i) := by positivity
        constructor <;> linarith
      have hgap : δ < 1 / 2 ^ (j - i) := by
        rw [lt_div_iff₀ (by positivity)]
        calc δ * 2 ^ (j - i) ≤ δ * 2 ^ m.nsoot := by
              apply mul_le_mul_of_nonneg_left _ hδ
              exact pow_le_pow_right₀ (by norm_num) (by omega)
          _ < 1 := hn
      rcases SRound.floor_near x0 (by linarith) hy with hc | ⟨hc, hb⟩ | ⟨hc, hb⟩
      · rw [hc]
      · exfalso; rw [hfl, hpos] at hb; linarith
      · exfalso; rw [hfl, hpos] at hb; linarith

/-- **C88 (the bound is needed).** With a rounding of `1.5 · 2^-(n-2)` or more (but below one half) there is a rounding for which a
collision of the first with the last but one bin takes particles out of a third bin that has no part in the collision. -/
theorem C88_sharp (m : Model) (s : State) (h : SectReady m s) (hg : GeoBins m) (h2 : m.binF = 2) (h4 : 4 ≤ m.nsoot)
    (δ : ℝ) (hδ1 : δ < 1 / 2) (hn : 3 / 2 < δ * 2 ^ (m.nsoot - 2))
    (hK : 0 < m.coag.val s (m.mBins.getD 0 0) (m.mBins.getD (m.nsoot - 2) 0)) (hN : 0 < s.sootVar.getD 0 0)
    (hN' : 0 < s.sootVar.getD (m.nsoot - 2) 0) :
    ∃ rnd, Within δ rnd ∧ ∀ S, ∃ S', coagPairR rnd m.nsoot m.mBins m.coag s (1 / log m.binF) 0 (m.nsoot - 2) S = ok S' ∧
      S' (m.nsoot - 3) < S (m.nsoot - 3) := by
  have hδ : 0 < δ := by
    by_contra hx
    have : δ * 2 ^ (m.nsoot - 2) ≤ 0 := mul_nonpos_of_nonpos_of_nonneg (by linarith) (by positivity)
    linarith
  refine ⟨fun _ _ x => x - δ, fun i j x => by simp [abs_of_pos hδ], fun S => ?_⟩
  have hl2 : 0 < log 2 := log_pos (by norm_num)
  obtain ⟨d, hd⟩ : ∃ d, m.nsoot = d + 2 := ⟨m.nsoot - 2, by omega⟩
  have hd2 : m.nsoot - 2 = d := by omega
  have hd3 : m.nsoot - 3 = d - 1 := by omega
  rw [hd2] at hn hK hN' ⊢
  rw [hd3]
  have hpos := SRound.pos_two h.bins hg h2 (Nat.zero_le d) (show d < m.nsoot by omega)
  rw [Nat.sub_zero] at hpos
  obtain ⟨g1, g2, g3⟩ := SRound.log2_gap (show 1 ≤ d by omega)
  have hdr : (2 : ℝ) ≤ d := by exact_mod_cast (show 2 ≤ d by omega)
  have hp : (0 : ℝ) < 1 / 2 ^ d := by positivity
  have hlt : 3 / 2 * (1 / 2 ^ d) < δ := by
    rw [mul_one_div, div_lt_iff₀ (by positivity)]; linarith
  have hdle : (d : ℝ) < 2 ^ 64 - 2 := by
    have := hg.fits
    rw [h2, div_self hl2.ne', hd] at this
    push_cast at this; linarith
  have hfl : ⌊exactPos m 0 d - δ⌋₊ = d - 1 := by
    rw [Nat.floor_eq_iff (by linarith), hpos, Nat.cast_sub (by omega)]
    push_cast
    constructor <;> linarith
  refine ⟨_, SRound.pairR_ok h (by omega) (by omega) (by show -1 < _ - δ; linarith) (by show _ - δ < (2 : ℝ) ^ 64; linarith) S, ?_⟩
  rw [SRound.gain_apply, SRound.loss_apply, SRound.events_eq]
  have hl0 : SRound.lossAt (m.coag.val s (m.mBins.getD 0 0) (m.mBins.getD d 0) * s.sootVar.getD 0 0 * s.sootVar.getD d 0) 0 d (d - 1) = 0 := by
    unfold SRound.lossAt
    rw [if_neg (by omega), if_neg (by omega), add_zero]
  have hcol : 0 < collisions m s 0 d := by
    unfold collisions; rw [if_neg (by omega)]; positivity
  rw [hl0, hfl]
  have p0 := h.bins.pos0
  have hgain : SRound.gainAt m.nsoot m.mBins (m.mBins.getD 0 0 + m.mBins.getD d 0) (d - 1) (d - 1) < 0 := by
    unfold SRound.gainAt
    have e1 : d - 1 + 1 = d := by omega
    have hm := h.bins.mono (d - 1) (by omega)
    rw [e1] at hm ⊢
    rw [if_neg (by omega), if_pos rfl, if_neg (by omega), add_zero]
    exact div_neg_of_neg_of_pos (by linarith) (by linarith)
  nlinarith

/-! ## The hypotheses are satisfiable -/

/-- The default growth factor with 24 bins: rounding errors of `2^-40` (a processor makes errors of a few `2^-48` here) leave no trace. -/
example (rnd : ℕ → ℕ → ℝ → ℝ) (hr : Within (1 / 2 ^ 40) rnd) :
    ∃ S S' glob', sectCoag (exModel .SECT 24 .NONE .LL .LL .FUCHS) none (exSt (List.replicate 24 1E15) false) = ok (S, glob') ∧
      sectCoagR rnd (exModel .SECT 24 .NONE .LL .LL .FUCHS) none (exSt (List.replicate 24 1E15) false) = ok (S', glob') ∧ S' = S :=
  C88_exact _ _ none (exSectReady 24 .NONE (by simp) (by simp) .LL .LL .FUCHS _ false (by simp) (by norm_num) (by norm_num))
    (exGeoBins 24 .NONE .LL .LL .FUCHS (by norm_num)) (Or.inl rfl) rfl _ (by norm_num)
    (by show (1 / 2 ^ 40 : ℝ) * 2 ^ 24 < 1; norm_num) rnd hr (by show ((24 : ℕ) : ℝ) + 2 < 2 ^ 64; norm_num)

/-- Five bins and a rounding of a quarter: the third bin is drained by a collision between the first and the fourth. -/
example : ∃ rnd, Within (1 / 4) rnd ∧ ∀ S, ∃ S', coagPairR rnd 5 (binMasses 5 2 100) (Coag.new .FUCHS) (exSt (List.replicate 5 1E15) false)
    (1 / log 2) 0 3 S = ok S' ∧ S' 2 < S 2 := by
  have hr := exSectReady 5 .NONE (by simp) (by simp) .LL .LL .FUCHS (List.replicate 5 1E15) false (by simp) (by norm_num) (by norm_num)
  have hm : ∀ k, k < 5 → mmin < (exModel .SECT 5 .NONE .LL .LL .FUCHS).mBins.getD k 0 := fun k hk => by
    simp only [exModel, if_true]
    rw [binMasses_getD hk]
    have : (1 : ℝ) ≤ 2 ^ k := one_le_pow₀ (by norm_num)
    have e : mmin < 100 * 1 * gasMW .C / Na := by norm_num [mmin, gasMW, Na]
    refine e.trans_le ?_
    have h1 : 0 < gasMW .C := by norm_num [gasMW]
    have h2 : 0 < Na := by norm_num [Na]
    push_cast
    gcongr
  refine C88_sharp _ _ hr (exGeoBins 5 .NONE .LL .LL .FUCHS (by norm_num)) rfl (by show 4 ≤ 5; norm_num) (1 / 4) (by norm_num)
    (by show (3 / 2 : ℝ) < 1 / 4 * 2 ^ (5 - 2); norm_num) ?_ ?_ ?_
  · obtain ⟨k, h1, -, -, h2⟩ := C13_kernel_positive (Coag.new .FUCHS) _ hr.gas.acc hr.fm
      ((exModel .SECT 5 .NONE .LL .LL .FUCHS).mBins.getD 0 0) ((exModel .SECT 5 .NONE .LL .LL .FUCHS).mBins.getD 3 0)
    have h3 := hr.coag ((exModel .SECT 5 .NONE .LL .LL .FUCHS).mBins.getD 0 0) ((exModel .SECT 5 .NONE .LL .LL .FUCHS).mBins.getD 3 0)
    have h4 : k = (exModel .SECT 5 .NONE .LL .LL .FUCHS).coag.val (exSt (List.replicate 5 1E15) false)
        ((exModel .SECT 5 .NONE .LL .LL .FUCHS).mBins.getD 0 0) ((exModel .SECT 5 .NONE .LL .LL .FUCHS).mBins.getD 3 0) := by
      have := h1.symm.trans h3; simpa using this
    exact h4 ▸ h2 (by simp [Coag.new]) (hm 0 (by norm_num)) (hm 3 (by norm_num))
  all_goals
    rw [exSt_sootVar _ (by norm_num)]
    norm_num [exModel]

end Soot
