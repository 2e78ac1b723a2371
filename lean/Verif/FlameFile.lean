import Verif.Burner

/-!
# The profile file of the burner examples

`/repo/examples/burner_flame/burner_profiles.inp` (the copy in `fortran_examples/burner_flame` is the same file), the code that reads it
(`burner_flame.cc:30-51`, the same text in the three variants) and the Fortran program `fortran_examples/burner_flame/burner_flame.f90`.  A word of the
file is a number or not; words that are a number only in part are not modelled.
-/

namespace Soot

open Res
open scoped Classical

/-! ## Reading in C++ -/

/-- The words left in the stream (`none`: not a number), the variable `d` (`none`: never assigned) and the fail bit. -/
structure In where
  words : List (Option ℝ)
  d : Option ℝ
  fail : Bool

/-- `ifile >> d`.  After a failure and at the end of the file `d` keeps its value; a word that is not a number makes it zero. -/
noncomputable def In.next (s : In) : In :=
  if s.fail then s else
  match s.words with
  | [] => { s with fail := true }
  | none :: t => ⟨t, some 0, true⟩
  | some x :: t => ⟨t, some x, false⟩

/-- `push_back(d)`: reading a variable that was never assigned is undefined. -/
def In.value (s : In) : Res ℝ :=
  match s.d with
  | none => ub
  | some x => ok x

/-- `n` times `ifile >> d; prof.push_back(d);` -/
noncomputable def In.read : ℕ → In → Res (In × List ℝ)
  | 0, s => ok (s, [])
  | n + 1, s => do
    let s := s.next
    let x ← s.value
    let (s, xs) ← In.read n s
    ok (s, x :: xs)

/-- burner_flame.cc:36-50, one pass: thirteen values are kept, two are read and dropped. -/
noncomputable def In.row (s : In) : Res (In × List ℝ) := do
  let (s, xs) ← s.read 13
  ok (s.next.next, xs)

noncomputable def In.rows : ℕ → In → Res (In × List (List ℝ))
  | 0, s => ok (s, [])
  | n + 1, s => do
    let (s, r) ← s.row
    let (s, rs) ← In.rows n s
    ok (s, r :: rs)

/-- Which profile gets which value of a row (the first goes to `z_prof`). -/
def profile (order : List Col) (rows : List (List ℝ)) : Profiles :=
  ⟨rows.map (·.getD 0 0), fun c => rows.map (·.getD (order.idxOf c + 1) 0)⟩

/-- burner_flame.cc:37-48 -/
def cppOrder : List Col := [.v, .T, .rho, .mu, .yO2, .yO, .yH2, .yH, .yOH, .yH2O, .yCO, .yC2H2]

/-- burner_flame.cc:30-51; `words` are the words after the first line. -/
noncomputable def readProfiles (words : List (Option ℝ)) : Res Profiles := do
  let (_, rows) ← In.rows 35 ⟨words, none, false⟩
  ok (profile cppOrder rows)

/-- The whole program, from the file on. -/
noncomputable def burnFile (eig : Eig) (words : List (Option ℝ)) (psd : PsdMech) (nsoot : ℕ) (n : NuclMech) (g : GrowMech) (o : OxidMech)
    (c : CoagMech) (nsteps : ℕ) : Res (Option Burn) := do
  let p ← readProfiles words
  burnMain eig p psd nsoot n g o c nsteps

/-- The same for burner_flame_tar.cc. -/
noncomputable def tarFile (eig : Eig) (words : List (Option ℝ)) (n : NuclMech) (g : GrowMech) (o : OxidMech) (c : CoagMech) (nsteps : ℕ) :
    Res (Option TarBurn) := do
  let p ← readProfiles words
  tarMain eig p n g o c nsteps

/-! ## Reading in Fortran -/

/-- `read(1,*)` of `n` values: a list-directed read takes whole records, continues on the next record while values are missing, and drops what is
left of the last one.  `none`: end of file, the program stops. -/
def fortRecord {α : Type} : ℕ → List (List α) → Option (List α × List (List α))
  | _, [] => none
  | n, r :: rs => if n ≤ r.length then some (r.take n, rs) else do
    let (xs, rest) ← fortRecord (n - r.length) rs
    some (r ++ xs, rest)

def fortRows {α : Type} : ℕ → List (List α) → Option (List (List α))
  | 0, _ => some []
  | n + 1, rs => do
    let (r, rs) ← fortRecord 13 rs
    let l ← fortRows n rs
    some (r :: l)

/-- burner_flame.f90:31-32 -/
def fortOrder : List Col := [.v, .T, .rho, .mu, .yH, .yH2, .yO, .yO2, .yOH, .yH2O, .yCO, .yC2H2]

/-- burner_flame.f90:28-35; `recs` are the records after the first. -/
noncomputable def fortProfiles (recs : List (List ℝ)) : Option Profiles := (fortRows 35 recs).map (profile fortOrder)

/-- burner_flame.f90:37-39: the printed pairs. -/
noncomputable def fortPrints (recs : List (List ℝ)) : Option (List (ℝ × ℝ)) := (fortProfiles recs).map fun p => p.z.zip (p.col .yC2H2)

/-! ## The file -/

/-- burner_profiles.inp, line 1. -/
def fileHeader : List String := ["z(m)", "v(m/s)", "T(K)", "rho(kg/m3)", "mu(kg/m*s)", "y_O2", "y_O", "y_H2", "y_H", "y_OH", "y_H2O", "y_CO", "y_C2H2", "M0(#/m3)", "M1(kg/m3)"]

/-- The header word of a column. -/
def Col.label : Col → String
  | .v => "v(m/s)"
  | .T => "T(K)"
  | .rho => "rho(kg/m3)"
  | .mu => "mu(kg/m*s)"
  | .yO2 => "y_O2"
  | .yO => "y_O"
  | .yH2 => "y_H2"
  | .yH => "y_H"
  | .yOH => "y_OH"
  | .yH2O => "y_H2O"
  | .yCO => "y_CO"
  | .yC2H2 => "y_C2H2"

/-- burner_profiles.inp, lines 2-36. -/
def fileRows : List (List ℚ) :=
   [[0.00000e0, 7.0810e-2, 2.98000e2, 1.10958e0, 1.67431e-5, 1.68700e-1, 3.65200e-13, 3.49300e-3, 9.59700e-14, 2.84800e-11, 1.65000e-2, 2.51700e-2, 1.28400e-3, 6.8239866046e8, 1.4232964153e-15],
    [1.87500e-4, 1.0340e-1, 4.30800e2, 7.59549e-1, 2.22064e-5, 1.54300e-1, 4.74300e-13, 3.94500e-3, 1.04400e-13, 3.71400e-11, 2.32600e-2, 3.68100e-2, 2.01200e-3, 1.7521939980e9, 3.6545792634e-15],
    [3.75000e-4, 1.4040e-1, 5.78700e2, 5.59450e-1, 2.74743e-5, 1.37000e-1, 2.03400e-11, 4.37800e-3, 5.99000e-12, 6.93100e-10, 3.07000e-2, 5.08700e-2, 2.93800e-3, 4.7302849282e9, 9.8664795847e-15],
    [4.68800e-4, 1.6050e-1, 6.57500e2, 4.89553e-1, 3.00459e-5, 1.26400e-1, 2.28400e-10, 4.60500e-3, 8.35700e-11, 5.71500e-9, 3.49900e-2, 5.95100e-2, 3.52600e-3, 1.2323080644e10, 2.5706618725e-14],
    [5.62500e-4, 1.8180e-1, 7.40400e2, 4.32210e-1, 3.26238e-5, 1.15000e-1, 1.62100e-9, 4.82800e-3, 8.54600e-10, 3.08000e-8, 3.94800e-2, 6.89500e-2, 4.18600e-3, 3.6533459802e10, 7.6233452720e-14],
    [6.56300e-4, 2.0390e-1, 8.25400e2, 3.85402e-1, 3.51538e-5, 1.02500e-1, 1.00500e-8, 5.04900e-3, 7.90200e-9, 1.46700e-7, 4.41800e-2, 7.92500e-2, 4.92300e-3, 1.1182164608e11, 2.3377508773e-13],
    [7.03100e-4, 2.1520e-1, 8.68800e2, 3.65030e-1, 3.64089e-5, 9.58200e-2, 2.90300e-8, 5.16200e-3, 2.76700e-8, 3.66100e-7, 4.66700e-2, 8.48700e-2, 5.33200e-3, 2.5491049842e11, 5.3798409548e-13],
    [7.50000e-4, 2.2700e-1, 9.13400e2, 3.46135e-1, 3.76755e-5, 8.88800e-2, 7.61800e-8, 5.27500e-3, 8.08800e-8, 8.37900e-7, 4.92100e-2, 9.07000e-2, 5.76500e-3, 6.1609705417e11, 1.3248972828e-12],
    [7.96900e-4, 2.3880e-1, 9.57800e2, 3.29069e-1, 3.89153e-5, 8.17600e-2, 1.81000e-7, 5.38700e-3, 2.03700e-7, 1.75400e-6, 5.17800e-2, 9.67500e-2, 6.22400e-3, 1.4861426841e12, 3.2835261899e-12],
    [8.43800e-4, 2.5060e-1, 1.00200e3, 3.13573e-1, 4.01307e-5, 7.45400e-2, 3.75900e-7, 5.50000e-3, 4.38500e-7, 3.21500e-6, 5.43700e-2, 1.03000e-1, 6.71100e-3, 3.4087590644e12, 7.8536129093e-12],
    [8.90600e-4, 2.6280e-1, 1.04800e3, 2.98881e-1, 4.13779e-5, 6.73400e-2, 6.78800e-7, 5.61200e-3, 8.15500e-7, 5.07200e-6, 5.69200e-2, 1.09300e-1, 7.23200e-3, 7.2604223218e12, 1.7752952024e-11],
    [9.37500e-4, 2.7490e-1, 1.09300e3, 2.85693e-1, 4.25821e-5, 6.03100e-2, 1.08800e-6, 5.72500e-3, 1.34300e-6, 7.04800e-6, 5.94000e-2, 1.15700e-1, 7.79700e-3, 1.4338572324e13, 3.8182243186e-11],
    [9.84400e-4, 2.8720e-1, 1.13800e3, 2.73567e-1, 4.37718e-5, 5.35700e-2, 1.58800e-6, 5.83800e-3, 2.01400e-6, 8.89900e-6, 6.17300e-2, 1.21900e-1, 8.41400e-3, 2.5598522474e13, 7.6434903354e-11],
    [1.03100e-3, 2.9830e-1, 1.17900e3, 2.63280e-1, 4.48446e-5, 4.72700e-2, 2.11400e-6, 5.95000e-3, 2.78900e-6, 1.04200e-5, 6.38900e-2, 1.27900e-1, 9.09700e-3, 4.3731740871e13, 1.5611103110e-10],
    [1.07800e-3, 3.1000e-1, 1.22100e3, 2.53519e-1, 4.59320e-5, 4.15200e-2, 2.62300e-6, 6.05900e-3, 3.63800e-6, 1.14600e-5, 6.58300e-2, 1.33500e-1, 9.85700e-3, 6.7424192543e13, 3.0080418723e-10],
    [1.12500e-3, 3.2080e-1, 1.26100e3, 2.44845e-1, 4.69573e-5, 3.63900e-2, 3.00400e-6, 6.16400e-3, 4.47100e-6, 1.18800e-5, 6.75400e-2, 1.38700e-1, 1.07000e-2, 9.9144828282e13, 6.1402195074e-10],
    [1.21900e-3, 3.4100e-1, 1.33400e3, 2.30410e-1, 4.88013e-5, 2.81400e-2, 3.24400e-6, 6.35500e-3, 5.86600e-6, 1.12100e-5, 7.02100e-2, 1.47300e-1, 1.26100e-2, 1.7432421583e14, 1.8268745912e-9],
    [1.31300e-3, 3.5820e-1, 1.39600e3, 2.19377e-1, 5.03391e-5, 2.20700e-2, 2.85900e-6, 6.52000e-3, 6.67100e-6, 9.70800e-6, 7.21300e-2, 1.53700e-1, 1.47100e-2, 2.6196800841e14, 4.2512966936e-9],
    [1.40600e-3, 3.7220e-1, 1.44600e3, 2.11183e-1, 5.15601e-5, 1.76400e-2, 2.26400e-6, 6.65800e-3, 6.99500e-6, 8.41800e-6, 7.35100e-2, 1.58300e-1, 1.68200e-2, 3.5111127107e14, 8.6433978879e-9],
    [1.50000e-3, 3.8250e-1, 1.48300e3, 2.05453e-1, 5.24530e-5, 1.43500e-2, 1.71800e-6, 6.77200e-3, 7.02400e-6, 7.48200e-6, 7.45200e-2, 1.61600e-1, 1.87600e-2, 4.2751374255e14, 1.6669645040e-8],
    [1.68800e-3, 3.9680e-1, 1.53400e3, 1.98022e-1, 5.36672e-5, 1.01600e-2, 1.00900e-6, 6.94100e-3, 6.68700e-6, 6.37500e-6, 7.57800e-2, 1.65500e-1, 2.18900e-2, 5.3661740621e14, 5.0783621333e-8],
    [1.87500e-3, 4.0600e-1, 1.56700e3, 1.93483e-1, 5.44439e-5, 7.48800e-3, 6.19500e-7, 7.06200e-3, 6.17200e-6, 5.60800e-6, 7.65200e-2, 1.67600e-1, 2.40700e-2, 6.0636578557e14, 1.1541287642e-7],
    [2.25000e-3, 4.1600e-1, 1.60200e3, 1.88903e-1, 5.52603e-5, 4.63000e-3, 2.86900e-7, 7.21300e-3, 5.15200e-6, 4.53600e-6, 7.71500e-2, 1.69300e-1, 2.63500e-2, 6.5472929540e14, 4.4009469762e-7],
    [3.00000e-3, 4.2400e-1, 1.63100e3, 1.85347e-1, 5.59338e-5, 2.38700e-3, 1.02800e-7, 7.36500e-3, 3.79600e-6, 3.29000e-6, 7.72000e-2, 1.69700e-1, 2.76400e-2, 6.4508698063e14, 2.4904827797e-6],
    [3.75000e-3, 4.2670e-1, 1.64100e3, 1.84168e-1, 5.61672e-5, 1.39200e-3, 4.48300e-8, 7.45500e-3, 2.87700e-6, 2.44800e-6, 7.69200e-2, 1.69500e-1, 2.79700e-2, 6.2031406852e14, 6.2906610572e-6],
    [4.50000e-3, 4.2730e-1, 1.64400e3, 1.83816e-1, 5.62395e-5, 8.77200e-4, 2.21600e-8, 7.52000e-3, 2.26400e-6, 1.88600e-6, 7.65800e-2, 1.69100e-1, 2.80200e-2, 5.9097945078e14, 1.2054475736e-5],
    [6.00000e-3, 4.2580e-1, 1.63800e3, 1.84489e-1, 5.61079e-5, 4.53100e-4, 8.14900e-9, 7.60600e-3, 1.61100e-6, 1.28200e-6, 7.59500e-2, 1.68400e-1, 2.79000e-2, 5.2719403423e14, 3.3142693074e-5],
    [9.00000e-3, 4.1810e-1, 1.60900e3, 1.87831e-1, 5.54534e-5, 2.06100e-4, 2.28200e-9, 7.69900e-3, 9.93800e-7, 7.07300e-7, 7.51200e-2, 1.67400e-1, 2.74100e-2, 4.1949758504e14, 1.1101251861e-4],
    [1.20000e-2, 4.0790e-1, 1.57100e3, 1.92402e-1, 5.45850e-5, 1.18800e-4, 8.16100e-10, 7.74300e-3, 6.20900e-7, 3.87400e-7, 7.46300e-2, 1.66700e-1, 2.68400e-2, 3.3584060700e14, 2.0638857191e-4],
    [1.50000e-2, 3.9650e-1, 1.52800e3, 1.97850e-1, 5.35895e-5, 8.17100e-5, 3.43200e-10, 7.76100e-3, 3.82000e-7, 2.05900e-7, 7.43400e-2, 1.66400e-1, 2.62800e-2, 2.6671033498e14, 3.0514660845e-4],
    [2.10000e-2, 3.7420e-1, 1.44300e3, 2.09587e-1, 5.15842e-5, 5.90900e-5, 1.01500e-10, 7.75000e-3, 1.53300e-7, 6.10900e-8, 7.41200e-2, 1.66100e-1, 2.53000e-2, 1.6942053397e14, 4.6700703631e-4],
    [2.55000e-2, 3.5860e-1, 1.38500e3, 2.18454e-1, 5.01881e-5, 5.08800e-5, 4.86000e-11, 7.72300e-3, 7.98200e-8, 2.53200e-8, 7.40100e-2, 1.65900e-1, 2.46900e-2, 1.2106429917e14, 5.6876835091e-4],
    [2.77500e-2, 3.5130e-1, 1.35700e3, 2.23035e-1, 4.95061e-5, 4.80800e-5, 3.57700e-11, 7.70000e-3, 5.88600e-8, 1.66700e-8, 7.39100e-2, 1.65800e-1, 2.44200e-2, 1.0248507159e14, 6.1564470857e-4],
    [2.88700e-2, 3.4770e-1, 1.34300e3, 2.25412e-1, 4.91634e-5, 4.71600e-5, 3.24300e-11, 7.68400e-3, 5.26700e-8, 1.40900e-8, 7.38100e-2, 1.65600e-1, 2.43100e-2, 9.4342212609e13, 6.3757657700e-4],
    [3.00000e-2, 3.4410e-1, 1.32600e3, 2.28371e-1, 4.87456e-5, 4.71600e-5, 3.24300e-11, 7.68400e-3, 5.26700e-8, 1.40900e-8, 7.38100e-2, 1.65600e-1, 2.43100e-2, 9.5567835958e13, 6.4585949424e-4]]

/-- The same as real numbers. -/
noncomputable def fileReal : List (List ℝ) := fileRows.map (·.map fun q : ℚ => (q : ℝ))

/-- The words of a file that consists of numbers. -/
def fileWords (rows : List (List ℝ)) : List (Option ℝ) := rows.flatten.map some

end Soot
