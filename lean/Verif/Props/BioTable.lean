import Verif.Props.Bio
import Mathlib.Algebra.BigOperators.Group.List.Basic
import Mathlib.Algebra.BigOperators.Fin

/-!
# C63: the tar correlations as tables of coefficients

The code evaluates nested polynomials; the specification is the expanded table of coefficients.
-/

namespace Soot

open Res Real
open scoped Classical

/-- Sum of `c T^i p^j` over the entries `(c, i, j)` of a table. -/
def tablePoly (l : List (ℝ × ℕ × ℕ)) (T p : ℝ) : ℝ := (l.map fun e => e.1 * T ^ e.2.1 * p ^ e.2.2).sum

/-- Yield, numerators: cellulose, hardwood and softwood hemicellulose, hardwood and softwood lignin. -/
noncomputable def yNumTable : Fin 5 → List (ℝ × ℕ × ℕ) :=
  ![[(-157000, 0, 0), (290.6, 1, 0), (8, 1, 1), (-0.022, 2, 0), (-0.036, 2, 1), (0.000036, 3, 0)],
    [(-521000, 0, 0), (3120, 1, 0), (-1080, 1, 1), (-0.382, 2, 0), (0.207, 2, 1)],
    [(70500, 0, 0), (-0.0000129, 0, 1), (144.4, 1, 0), (0.233, 2, 0), (-0.0000741, 3, 0)],
    [(90400, 0, 0), (-34300, 0, 1), (-76.2, 1, 0), (36.6, 1, 1), (0.00603, 2, 0), (-0.011, 2, 1), (0.00000769, 3, 0)],
    [(470.5, 0, 0), (-165.4, 0, 1), (-0.303, 1, 0), (0.124, 1, 1), (0.0000322, 2, 0), (-0.0000237, 2, 1), (0.00000000646, 3, 0)]]

/-- Yield, denominators. -/
noncomputable def yDenTable : Fin 5 → List (ℝ × ℕ × ℕ) :=
  ![[(-203000, 0, 0), (382.9, 1, 0), (11.2, 1, 1), (-0.042, 2, 1), (0.0000453, 3, 0)],
    [(5750, 1, 0), (-2650, 1, 1), (-0.518, 2, 1), (-0.000145, 3, 0)],
    [(369000, 0, 0), (-322000, 0, 1), (91, 1, 0), (0.725, 2, 0), (-0.000208, 3, 0)],
    [(137000, 0, 0), (-36600, 0, 1), (-117.5, 1, 0), (39.3, 1, 1), (0.012, 2, 0), (-0.012, 2, 1), (0.00001, 3, 0)],
    [(735.3, 0, 0), (-176, 0, 1), (-0.55, 1, 0), (0.133, 1, 1), (0.000105, 2, 0), (-0.0000256, 2, 1)]]

/-- Molar mass, numerators. -/
noncomputable def mNumTable : Fin 5 → List (ℝ × ℕ × ℕ) :=
  ![[(-30600, 0, 0), (242.2, 1, 0), (10500, 0, 1), (-83.1, 1, 1), (-1840, 0, 2), (461.8, 0, 3)],
    [(236.7, 1, 0), (-59200, 0, 1)],
    [(50, 1, 0), (26, 1, 1), (-64100, 0, 1), (15600, 0, 2)],
    [(4780000, 0, 0), (-8400, 1, 0), (7.36, 2, 0), (-0.00123, 3, 0), (-573.1, 1, 1), (3390000, 0, 2), (340.1, 1, 2), (-485000, 0, 3)],
    [(115.8, 0, 0), (0.117, 1, 0), (-0.0000386, 2, 0), (0.00346, 1, 1), (-29.7, 0, 1), (-2.16, 0, 2)]]

/-- Molar mass, denominators. -/
noncomputable def mDenTable : Fin 5 → List (ℝ × ℕ × ℕ) :=
  ![[(0.635, 1, 0), (-0.145, 1, 1), (0.021, 1, 2), (-2.78, 0, 3)],
    [(0.608, 1, 0), (-109.4, 0, 1)],
    [(0.126, 1, 0), (0.072, 1, 1), (-1650, 0, 1), (41.3, 0, 2)],
    [(8.13, 1, 0), (14700, 0, 2), (-2.64, 1, 2), (997.9, 0, 3)],
    [(0.887, 0, 0), (-0.000219, 1, 0), (0.106, 0, 1), (-0.00004, 1, 1)]]

/-- **C63, values.** With `p` the decimal logarithm of the pressure in atmospheres, yield and molar mass are the composition-weighted sums of the
tabulated rational functions, wherever none of the ten denominators vanishes; nothing else of the state changes. -/
theorem C63_biomass_table (s : State) (hl : 5 ≤ s.yBio.length) (hP : 0 < s.P)
    (hy : ∀ i, tablePoly (yDenTable i) s.T (logb 10 (s.P / 101325)) ≠ 0) (hm : ∀ i, tablePoly (mDenTable i) s.T (logb 10 (s.P / 101325)) ≠ 0) :
    getMtarYtar s = ok { s with
      ytar := ∑ i : Fin 5, s.yBio.getD i 0 * (tablePoly (yNumTable i) s.T (logb 10 (s.P / 101325)) /
        tablePoly (yDenTable i) s.T (logb 10 (s.P / 101325)))
      mtar := ∑ i : Fin 5, s.yBio.getD i 0 * (tablePoly (mNumTable i) s.T (logb 10 (s.P / 101325)) /
        tablePoly (mDenTable i) s.T (logb 10 (s.P / 101325))) } := by
  obtain ⟨e0, e1, e2, e3, e4⟩ := idx5 hl
  set p := logb 10 (s.P / 101325) with hp
  have a0 : tablePoly (yNumTable 0) s.T p = yCellNum s.T p := by simp [tablePoly, yNumTable, yCellNum]; norm_num <;> ring
  have a1 : tablePoly (yNumTable 1) s.T p = yHwHcNum s.T p := by simp [tablePoly, yNumTable, yHwHcNum]; norm_num <;> ring
  have a2 : tablePoly (yNumTable 2) s.T p = ySwHcNum s.T p := by simp [tablePoly, yNumTable, ySwHcNum]; norm_num <;> ring
  have a3 : tablePoly (yNumTable 3) s.T p = yHwLigNum s.T p := by simp [tablePoly, yNumTable, yHwLigNum]; norm_num <;> ring
  have a4 : tablePoly (yNumTable 4) s.T p = ySwLigNum s.T p := by simp [tablePoly, yNumTable, ySwLigNum]; norm_num <;> ring
  have b0 : tablePoly (yDenTable 0) s.T p = yCellDen s.T p := by simp [tablePoly, yDenTable, yCellDen]; norm_num <;> ring
  have b1 : tablePoly (yDenTable 1) s.T p = yHwHcDen s.T p := by simp [tablePoly, yDenTable, yHwHcDen]; norm_num <;> ring
  have b2 : tablePoly (yDenTable 2) s.T p = ySwHcDen s.T p := by simp [tablePoly, yDenTable, ySwHcDen]; norm_num <;> ring
  have b3 : tablePoly (yDenTable 3) s.T p = yHwLigDen s.T p := by simp [tablePoly, yDenTable, yHwLigDen]; norm_num <;> ring
  have b4 : tablePoly (yDenTable 4) s.T p = ySwLigDen s.T p := by simp [tablePoly, yDenTable, ySwLigDen]; norm_num <;> ring
  have c0 : tablePoly (mNumTable 0) s.T p = mCellNum s.T p := by simp [tablePoly, mNumTable, mCellNum]; norm_num <;> ring
  have c1 : tablePoly (mNumTable 1) s.T p = mHwHcNum s.T p := by simp [tablePoly, mNumTable, mHwHcNum]; norm_num <;> ring
  have c2 : tablePoly (mNumTable 2) s.T p = mSwHcNum s.T p := by simp [tablePoly, mNumTable, mSwHcNum]; norm_num <;> ring
  have c3 : tablePoly (mNumTable 3) s.T p = mHwLigNum s.T p := by simp [tablePoly, mNumTable, mHwLigNum]; norm_num <;> ring
  have c4 : tablePoly (mNumTable 4) s.T p = mSwLigNum s.T p := by simp [tablePoly, mNumTable, mSwLigNum]; norm_num <;> ring
  have d0 : tablePoly (mDenTable 0) s.T p = mCellDen s.T p := by simp [tablePoly, mDenTable, mCellDen]; norm_num <;> ring
  have d1 : tablePoly (mDenTable 1) s.T p = mHwHcDen s.T p := by simp [tablePoly, mDenTable, mHwHcDen]; norm_num <;> ring
  have d2 : tablePoly (mDenTable 2) s.T p = mSwHcDen s.T p := by simp [tablePoly, mDenTable, mSwHcDen]; norm_num <;> ring
  have d3 : tablePoly (mDenTable 3) s.T p = mHwLigDen s.T p := by simp [tablePoly, mDenTable, mHwLigDen]; norm_num <;> ring
  have d4 : tablePoly (mDenTable 4) s.T p = mSwLigDen s.T p := by simp [tablePoly, mDenTable, mSwLigDen]; norm_num <;> ring
  simp only [getMtarYtar, e0, e1, e2, e3, e4, ok_bind, clog10, if_neg (not_le.mpr (show 0 < s.P / 101325 by positivity)), ← hp,
    cdiv_ok (b0 ▸ hy 0), cdiv_ok (b1 ▸ hy 1), cdiv_ok (b2 ▸ hy 2), cdiv_ok (b3 ▸ hy 3), cdiv_ok (b4 ▸ hy 4),
    cdiv_ok (d0 ▸ hm 0), cdiv_ok (d1 ▸ hm 1), cdiv_ok (d2 ▸ hm 2), cdiv_ok (d3 ▸ hm 3), cdiv_ok (d4 ▸ hm 4), Fin.sum_univ_five]
  rw [a0, a1, a2, a3, a4, b0, b1, b2, b3, b4, c0, c1, c2, c3, c4, d0, d1, d2, d3, d4]
  have h3 : ((3 : Fin 5) : ℕ) = 3 := rfl
  have h4 : ((4 : Fin 5) : ℕ) = 4 := rfl
  congr 2 <;> simp only [Fin.val_zero, Fin.val_one, Fin.val_two, h3, h4] <;> ring

/-- Sum of `c T^i p^j x^k h^l v^n` over the entries of a table. -/
def tablePoly5 (l : List (ℝ × ℕ × ℕ × ℕ × ℕ × ℕ)) (T p x h v : ℝ) : ℝ :=
  (l.map fun e => e.1 * T ^ e.2.1 * p ^ e.2.2.1 * x ^ e.2.2.2.1 * h ^ e.2.2.2.2.1 * v ^ e.2.2.2.2.2).sum

/-- Coal: exponents of temperature, log pressure, O/C, H/C, volatiles. -/
noncomputable def coalYNum : List (ℝ × ℕ × ℕ × ℕ × ℕ × ℕ) :=
  [(-124.2, 0, 0, 0, 0, 0), (35.7, 0, 1, 0, 0, 0), (93.5, 0, 0, 1, 0, 0), (-223.9, 0, 0, 2, 0, 0), (284.8, 0, 0, 0, 1, 0), (-107.3, 0, 0, 0, 2, 0),
   (5.48, 0, 0, 0, 0, 1), (0.014, 0, 0, 0, 0, 2), (-58.2, 0, 1, 0, 1, 0), (-0.521, 0, 1, 0, 0, 1), (-5.32, 0, 0, 0, 1, 1)]
noncomputable def coalYDen : List (ℝ × ℕ × ℕ × ℕ × ℕ × ℕ) :=
  [(-303.8, 0, 0, 0, 0, 0), (52.4, 0, 1, 0, 0, 0), (1550, 0, 0, 1, 0, 0), (-2460, 0, 0, 2, 0, 0), (656.9, 0, 0, 0, 1, 0), (-266.3, 0, 0, 0, 2, 0),
   (15.9, 0, 0, 0, 0, 1), (0.025, 0, 0, 0, 0, 2), (-90, 0, 1, 0, 1, 0), (-462.5, 0, 0, 1, 1, 0), (4.8, 0, 0, 1, 0, 1), (-17.8, 0, 0, 0, 1, 1)]
noncomputable def coalMNum : List (ℝ × ℕ × ℕ × ℕ × ℕ × ℕ) :=
  [(312000, 0, 0, 0, 0, 0), (16.4, 1, 0, 0, 0, 0), (434000, 0, 0, 1, 0, 0), (-848000, 0, 0, 0, 1, 0), (638000, 0, 0, 0, 2, 0), (-361.3, 0, 0, 0, 0, 1),
   (-0.221, 1, 0, 0, 0, 1), (-639000, 0, 0, 1, 1, 0), (1910, 0, 0, 0, 1, 1)]
noncomputable def coalMDen : List (ℝ × ℕ × ℕ × ℕ × ℕ × ℕ) :=
  [(753.6, 0, 0, 0, 0, 0), (0.042, 1, 0, 0, 0, 0), (83.9, 0, 0, 1, 0, 0), (-1770, 0, 0, 0, 1, 0), (1200, 0, 0, 0, 2, 0), (0.00509, 1, 1, 0, 0, 0),
   (-0.024, 1, 0, 0, 1, 0), (-0.000527, 1, 0, 0, 0, 1), (0.513, 0, 1, 0, 0, 1), (-361, 0, 0, 1, 1, 0), (3.83, 0, 0, 0, 1, 1)]

/-- **C63, coal values.** After `get_coal(OC, HC, V)`, yield and molar mass are the tabulated rational functions, wherever the denominators do not
vanish. -/
theorem C63_coal_table (s : State) (OC HC V : ℝ) (hP : 0 < s.P)
    (hy : tablePoly5 coalYDen s.T (logb 10 (s.P / 101325)) OC HC V ≠ 0) (hm : tablePoly5 coalMDen s.T (logb 10 (s.P / 101325)) OC HC V ≠ 0) :
    getMtarYtarCoal (setCoal s OC HC V) = ok { setCoal s OC HC V with
      ytar := tablePoly5 coalYNum s.T (logb 10 (s.P / 101325)) OC HC V / tablePoly5 coalYDen s.T (logb 10 (s.P / 101325)) OC HC V
      mtar := tablePoly5 coalMNum s.T (logb 10 (s.P / 101325)) OC HC V / tablePoly5 coalMDen s.T (logb 10 (s.P / 101325)) OC HC V } := by
  set p := logb 10 (s.P / 101325) with hp
  have e : ∀ {a b c d : ℝ}, a = c → b = d → d ≠ 0 → cdiv a b = ok (c / d) := by
    rintro _ _ _ _ rfl rfl h; exact cdiv_ok h
  simp only [getMtarYtarCoal, setCoal, clog10, if_neg (not_le.mpr (show 0 < s.P / 101325 by positivity)), ok_bind, ← hp]
  rw [e (c := tablePoly5 coalYNum s.T p OC HC V) (d := tablePoly5 coalYDen s.T p OC HC V) ?_ ?_ hy, ok_bind,
    e (c := tablePoly5 coalMNum s.T p OC HC V) (d := tablePoly5 coalMDen s.T p OC HC V) ?_ ?_ hm, ok_bind]
  · simp [tablePoly5, coalMNum]; norm_num <;> ring
  · simp [tablePoly5, coalMDen]; norm_num <;> ring
  · simp [tablePoly5, coalYNum]; norm_num <;> ring
  · simp [tablePoly5, coalYDen]; norm_num <;> ring

/-- Cellulose at one atmosphere and 1000 K: the hypotheses hold. -/
example : ∃ s', getMtarYtar { State.mk' 2 1 with T := 1000, P := 101325, yBio := [1, 0, 0, 0, 0] } = ok s' := by
  refine ⟨_, C63_biomass_table _ (by simp) (by norm_num) (fun i => ?_) (fun i => ?_)⟩
  · fin_cases i <;> simp [tablePoly, yDenTable] <;> norm_num
  · fin_cases i <;> simp [tablePoly, mDenTable] <;> norm_num

example : ∃ s', getMtarYtarCoal (setCoal { State.mk' 2 1 with T := 1000, P := 101325 } 0.1 0.8 30) = ok s' := by
  refine ⟨_, C63_coal_table _ _ _ _ (by norm_num) ?_ ?_⟩
  · norm_num [tablePoly5, coalYDen]
  · norm_num [tablePoly5, coalMDen]

/-- **C63, range under pressure.** At 1000 K and 100 atm softwood hemicellulose gives more tar than there is biomass. -/
theorem C63_pressure_false : ∃ s s', s.P = 100 * 101325 ∧ s.T = 1000 ∧ s.yBio = [0, 0, 1, 0, 0] ∧ getMtarYtar s = ok s' ∧ 1 < s'.ytar := by
  have hp : logb 10 (100 * 101325 / 101325) = 2 := by
    rw [show (100 * 101325 / 101325 : ℝ) = 10 ^ (2 : ℝ) by norm_num, logb_rpow (by norm_num) (by norm_num)]
  refine ⟨{ State.mk' 2 1 with T := 1000, P := 100 * 101325, yBio := [0, 0, 1, 0, 0] }, _, rfl, rfl, rfl,
    C63_biomass_table _ (by simp) (by norm_num) (fun i => ?_) (fun i => ?_), ?_⟩
  · simp only [hp]; fin_cases i <;> simp [tablePoly, yDenTable] <;> norm_num
  · simp only [hp]; fin_cases i <;> simp [tablePoly, mDenTable] <;> norm_num
  · simp only [hp, Fin.sum_univ_five]
    simp [tablePoly, yNumTable, yDenTable]
    norm_num

/-- **C63 (no fuel chosen).** A new object after a successful `setState`, with no biomass and no coal given: the biomass correlation reads
past an empty vector, the coal correlation completes at one atmosphere with the yield of a coal without oxygen, hydrogen and volatiles, and
the tar nucleation of the state before either call is not finite. -/
theorem C63_no_fuel (nsoot Ntar : ℕ) (a : SetArgs) (h : (setState (State.mk' nsoot Ntar) a).2 = ok ()) :
    let s := (setState (State.mk' nsoot Ntar) a).1
    getMtarYtar s = ub ∧ (∀ (n : Nucl) ib, n.mech = .AJ_RED → n.rate ib s = nonfin) ∧
      (a.P = 101325 → ∃ s', getMtarYtarCoal s = ok s' ∧ 0.4 < s'.ytar ∧ s'.ytar < 0.41 ∧ 0 < s'.mtar) := by
  obtain ⟨hs, ht⟩ := setState_ok_range h
  have ha := (C01_setState_iff _ a hs ht).mp h
  rw [C01_setState_accepts _ a hs ht ha]
  refine ⟨(C63_ub_iff _).2 (by simp [stateAfter, State.mk']), fun n ib hn => C63_default_mtar _ n ib hn rfl, fun hP => ?_⟩
  exact C63_coal_default _ hP ha.T ⟨rfl, rfl, rfl⟩

end Soot
