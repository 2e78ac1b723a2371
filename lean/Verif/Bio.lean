import Verif.State

/-!
# Tar properties from biomass and coal composition (`/repo/src/state.cc:142-222`)
-/

namespace Soot

open Res
open scoped Classical

/-- state.cc:162-163, cellulose -/
noncomputable def yCellNum (T p : ℝ) : ℝ := -1.57E5 + T * (290.6 - 0.022 * T + 8.0 * p + T * (3.6E-5 * T - 0.036 * p))
noncomputable def yCellDen (T p : ℝ) : ℝ := -2.03E5 + T * (382.9 + 11.2 * p + T * (4.53E-5 * T - 0.042 * p))
/-- state.cc:165-166 -/
noncomputable def mCellNum (T p : ℝ) : ℝ := -3.06E4 + 242.2 * T + p * (1.05E4 - 83.1 * T + p * (-1.84E3 + 461.8 * p))
noncomputable def mCellDen (T p : ℝ) : ℝ := 0.635 * T - p * (0.145 * T - p * (0.021 * T - 2.78 * p))
/-- state.cc:168-169, hardwood hemicellulose -/
noncomputable def yHwHcNum (T p : ℝ) : ℝ := -5.21E5 + T * (3.12E3 - 1.08E3 * p + T * (-0.382 + 0.207 * p))
noncomputable def yHwHcDen (T p : ℝ) : ℝ := T * (5.75E3 - 2.65E3 * p - T * (1.45E-4 * T + 0.518 * p))
/-- state.cc:171 -/
noncomputable def mHwHcNum (T p : ℝ) : ℝ := 236.7 * T - 5.92E4 * p
noncomputable def mHwHcDen (T p : ℝ) : ℝ := 0.608 * T - 109.4 * p
/-- state.cc:173-174, softwood hemicellulose -/
noncomputable def ySwHcNum (T p : ℝ) : ℝ := 7.05E4 - 1.29E-5 * p + T * (144.4 + T * (0.233 - 7.41E-5 * T))
noncomputable def ySwHcDen (T p : ℝ) : ℝ := 3.69E5 - 3.22E5 * p + T * (91.0 + T * (0.725 - 2.08E-4 * T))
/-- state.cc:176-177 -/
noncomputable def mSwHcNum (T p : ℝ) : ℝ := T * (50.0 + 26.0 * p) + p * (-6.41E4 + 1.56E4 * p)
noncomputable def mSwHcDen (T p : ℝ) : ℝ := T * (0.126 + 0.072 * p) + p * (-1.65E3 + 41.3 * p)
/-- state.cc:179-180, hardwood lignin -/
noncomputable def yHwLigNum (T p : ℝ) : ℝ :=
  9.04E4 - 3.43E4 * p + T * (-76.2 + 36.6 * p + T * (6.03E-3 - 0.011 * p + 7.69E-6 * T))
noncomputable def yHwLigDen (T p : ℝ) : ℝ :=
  1.37E5 - 3.66E4 * p + T * (-117.5 + 39.3 * p + T * (0.012 + 1.00E-5 * T - 0.012 * p))
/-- state.cc:182-183 -/
noncomputable def mHwLigNum (T p : ℝ) : ℝ :=
  4.78E6 + T * (-8.4E3 + T * (7.36 - 1.23E-3 * T)) + p * (-573.1 * T + p * (3.39E6 + 340.1 * T - 4.85E5 * p))
noncomputable def mHwLigDen (T p : ℝ) : ℝ := 8.13 * T + p * p * (1.47E4 - 2.64 * T + 997.9 * p)
/-- state.cc:185-186, softwood lignin -/
noncomputable def ySwLigNum (T p : ℝ) : ℝ :=
  470.5 - 165.4 * p + T * (-0.303 + 0.124 * p + T * (3.22E-5 + 6.46E-9 * T - 2.37E-5 * p))
noncomputable def ySwLigDen (T p : ℝ) : ℝ := 735.3 - 176.0 * p + T * (-0.55 + 0.133 * p + T * (1.05E-4 - 2.56E-5 * p))
/-- state.cc:188-189 -/
noncomputable def mSwLigNum (T p : ℝ) : ℝ := 115.8 + T * (0.117 - 3.86E-5 * T + 3.46E-3 * p) + p * (-29.7 - 2.16 * p)
noncomputable def mSwLigDen (T p : ℝ) : ℝ := 0.887 - 2.19E-4 * T + p * (0.106 - 4.0E-5 * T)

/-- state.cc:142-196 `get_mtar_ytar`.  The five reads of `yBio` (193-195) are moved to the front: they do not depend on the fits, and an
out-of-bounds read must win over a non-finite fit. -/
noncomputable def getMtarYtar (s : State) : Res State := do
  let b0 ← idx s.yBio 0
  let b1 ← idx s.yBio 1
  let b2 ← idx s.yBio 2
  let b3 ← idx s.yBio 3
  let b4 ← idx s.yBio 4
  let p ← clog10 (s.P / 101325)
  let y0 ← cdiv (yCellNum s.T p) (yCellDen s.T p)
  let m0 ← cdiv (mCellNum s.T p) (mCellDen s.T p)
  let y1 ← cdiv (yHwHcNum s.T p) (yHwHcDen s.T p)
  let m1 ← cdiv (mHwHcNum s.T p) (mHwHcDen s.T p)
  let y2 ← cdiv (ySwHcNum s.T p) (ySwHcDen s.T p)
  let m2 ← cdiv (mSwHcNum s.T p) (mSwHcDen s.T p)
  let y3 ← cdiv (yHwLigNum s.T p) (yHwLigDen s.T p)
  let m3 ← cdiv (mHwLigNum s.T p) (mHwLigDen s.T p)
  let y4 ← cdiv (ySwLigNum s.T p) (ySwLigDen s.T p)
  let m4 ← cdiv (mSwLigNum s.T p) (mSwLigDen s.T p)
  ok { s with
    ytar := y0 * b0 + y1 * b1 + y2 * b2 + y3 * b3 + y4 * b4
    mtar := m0 * b0 + m1 * b1 + m2 * b2 + m3 * b3 + m4 * b4 }

/-- state.h:80 -/
def setBio (s : State) (y : List ℝ) : State := { s with yBio := y }

/-- state.cc:198-202 -/
def setCoal (s : State) (OC HC V : ℝ) : State := { s with OC := OC, HC := HC, V := V }

/-- state.cc:204-222 `get_mtar_ytar_coal` -/
noncomputable def getMtarYtarCoal (s : State) : Res State := do
  let p ← clog10 (s.P / 101325)
  let T := s.T
  let OC := s.OC
  let HC := s.HC
  let V := s.V
  let y ← cdiv (-124.2 + 35.7 * p + 93.5 * OC - 223.9 * OC * OC + 284.8 * HC - 107.3 * HC * HC + 5.48 * V + 0.014 * V * V - 58.2 * p * HC
      - 0.521 * p * V - 5.32 * HC * V)
    (-303.8 + 52.4 * p + 1.55E3 * OC - 2.46E3 * OC * OC + 656.9 * HC - 266.3 * HC * HC + 15.9 * V + 0.025 * V * V - 90.0 * p * HC
      - 462.5 * OC * HC + 4.8 * OC * V - 17.8 * HC * V)
  let m ← cdiv (3.12E5 + 16.4 * T + 4.34E5 * OC - 8.48E5 * HC + 6.38E5 * HC * HC - 361.3 * V - 0.221 * T * V - 6.39E5 * OC * HC
      + 1.91E3 * HC * V)
    (753.6 + 0.042 * T + 83.9 * OC - 1.77E3 * HC + 1.2E3 * HC * HC + 5.09E-3 * T * p - 0.024 * T * HC - 5.27E-4 * T * V + 0.513 * p * V
      - 361.0 * OC * HC + 3.83 * HC * V)
  ok { s with ytar := y, mtar := m }

end Soot
