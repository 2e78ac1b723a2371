# Formal model of sootlib (Lean 4)

Source: `/repo` (BYUignite/sootlib, C++), read as text.  Model and proofs: `/verif/lean/Verif`.
Properties: `properties.jsonl`; claim status and theorem names: `MANIFEST.json`.

## Modelling approach

* **Numbers.** `double` is idealised as `ℝ`: no rounding, overflow or underflow.  Decimal literals are
  the exact rationals written in the source.  Exception: `Verif/Fp.lean` models `setState` and the coagulation
  kernels a second time over doubles with infinities and NaN and an arbitrary rounding (C77, C78, C99), `FpRate.lean` the rates (C101), `FpMono.lean` the sources of MONO (C102), `FpLogn.lean` those of LOGN (C113), `FpSectAll.lean` those of SECT (C116); signed zeros
  are not distinguished and no fused multiply-add is assumed.
* **Outcomes.** `Res α = ok a | exn e | ub | nonfin` (`Verif/Base.lean`).  `exn` is a C++ exception,
  `ub` is undefined behaviour (index outside a vector, bad cast, double free), `nonfin` is "an
  Inf/NaN was produced here" (division by zero, square root / fractional power of a negative
  number, zero to a negative power, logarithm of a non-positive number).  Each primitive that can
  do this is a checked operation; nothing is hidden behind `x / 0 = 0`.
  `nonfin` is reported at the first non-finite intermediate.  Where the C++ recovers a finite value
  from such an intermediate (HACA alpha with `log10` of 0 or 1, NSC with zero oxygen, MOMIC `Mr`,
  QMOM Jacobi matrix, mean-free-path based `Kn = 0`), the IEEE case is modelled explicitly instead.
* **Vectors** are lists with checked access; fixed enum-indexed tables are functions on the enum.
* **Objects.** A model object is a record holding the mechanism records; `setSourceTerms` maps
  (process globals, model, state) to the new ones, so mutation, staleness and history are visible.
  `setState` returns the state together with the outcome, so partial updates on throw are visible.
* **Loops** are transcribed as recursions over the same index ranges (`sumLoop`, `tabLoop`, `forLoop`).
* **External code.** LAPACK `dstev` is a parameter `Eig` (arbitrary function); a theorem that needs it to
  work says so (`Eig.Correct`, shown satisfiable by `exists_correct_eig`).

## Files

| file | models |
|------|--------|
| `Base.lean` | outcome monad, checked operations, loops |
| `Defs.lean` | `sootDefs.h` constants and enums |
| `State.lean` | `state.h/.cc` |
| `Bio.lean` | `state.cc` tar correlations `get_mtar_ytar`, `get_mtar_ytar_coal` |
| `Coag.lean` | `coagulationModels/*` |
| `Mech.lean` | nucleation, growth, oxidation, tar mechanisms |
| `Model.lean` | `sootModel.h/.cc`, `sootModel_MONO.cc`, `psdModel` constructor checks |
| `Sect.lean`, `Logn.lean`, `Qmom.lean`, `Momic.lean`, `Hmom.lean` | the other particle-size models |
| `MomicDown.lean` | `sootModel_MOMIC.cc:252-285`, `downselectIfNeeded` (its call is commented out) |
| `Interp.lean` | `examples/burner_flame/interp_linear.h` |
| `Burner.lean` | `examples/burner_flame/burner_flame.cc`, `burner_flame_HMOM.cc`, `burner_flame_tar.cc`, `burner_flame_MOMIC.cc` from the profiles on (not the output) |
| `FlameFile.lean` | `burner_profiles.inp` (all 35 rows), the code that reads it in the C++ burner programs, and `fortran_examples/burner_flame/burner_flame.f90` |
| `Simple.lean` | `examples/simple_example.cc`, `simple_example_HMOM.cc`, `fortran_examples/simple_example_fort.f90` (not the formatting) |
| `Fp.lean` | `src/state.cc:31-104` and `src/coagulationModels/*.cc` again, over doubles |
| `FpMass.lean` | gas rates and the sums for `sootSources[1]` and `gasSources`, over doubles |
| `FpRate.lean` | nucleation, growth and oxidation rates of the mechanisms without PAHs, tar or HACA, over doubles |
| `FpMono.lean` | sootModel_MONO.cc:79-88, 201-276 (no tar, no PAH) over doubles |
| `FpLogn.lean` | sootModel_LOGN.cc:153-325, 338-351 (no PAH) and coagulationModel.h:42-44 over doubles |
| `FpSectAll.lean` | sootModel_SECT.cc:162-333 (no PAH, no rates that look at the sections) over doubles |
| `FpSect.lean` | size transport, coagulation, source sums and gas mass rates of the sectional model, over doubles |
| `Names.lean` | name maps of `sootDefs.h` |
| `CIface.lean` | `fortran_wraps/c_interface.cc` |
| `Fort.lean` | signatures of `soot_module.f90` (interface block, wrappers, exports) and of `c_interface.cc`, as tables |
| `Own.lean` | heap of mechanism and model objects: constructors, destructor, copy, C-interface delete |
| `Trace.lean` | whole programs: a list of calls over any number of state and model objects |
| `Inv.lean`, `SectInv.lean`, `MomInv.lean` | helper lemmas about the model (no property theorems) |
| `Props/*.lean` | property theorems, one or more files per model part, each with `example`s |

## Specification layer

Specifications are stated beside the theorems without reusing the model's helpers: atomic composition of
species (`Props/Mech.lean`), ideal gas law, lognormal moments (`lognormalMoment`), discrete moments and pair
sums (`discMoment`, `pairSum`), collision sums (`collisionSum`, `contSum`), monodisperse condensation
(`condMono`), geometric bins, conserved sums over sections.

## Plan per property

| id | modelled by | proof method |
|----|-------------|--------------|
| C01-C06 | `State.lean` setState, statement by statement | case analysis on the decision sequence; induction on the clamp and check loops; negations by concrete witnesses |
| C07 | accessors of `state.h` | field arithmetic |
| C08-C09 | gas rate loops and ratio tables | case split on mechanism, exact rational arithmetic |
| C10-C11 | full `setSourceTerms` of each PSD model | inversion of the outcome monad, then C08 |
| C12-C15 | coagulation kernels | real algebra / inequalities |
| C16-C18 | PSD coagulation terms | sum manipulations, sign lemmas, witness for the LOGN defect |
| C19 | PAH nucleation | quadratic root |
| C20 | setSourceTerms twice | functional equality; witness for the PAH case |
| C21-C22 | PAH nucleation + condensation | algebra from C19 |
| C23-C24 | MONO | relational theorem, witness |
| C25-C26 | LOGN | `Real.rpow` algebra, totality by positivity |
| C27-C31, C53 | QMOM | well-founded loop, linear algebra for quadrature, binomial theorem, orthogonal polynomials |
| C32-C34, C55-C59 | MOMIC | Newton interpolation, index arithmetic, complete evaluation, kernel sums |
| C35-C36, C60 | HMOM | complete evaluation up to the bad index (its outcome is a parameter `read`); positivity by induction |
| C37-C41 | SECT | telescoping sums, floor/log argument, process-global state |
| C42 | `binomial.h` | whole finite table plus arithmetic |
| C43-C44 | constructors, heap of mechanism objects | decision table; allocation counting |
| C45, C49 | tables | exhaustive cases |
| C46 | `c_interface.cc` | equality of two calls, witness |
| C47-C48 | rate functions | positivity |
| C50 | AJ_RED tar | functional independence |
| C51 | MONO, QMOM, SECT | evaluation |
| C52 | `interp_linear.h` | list/order reasoning |
| C61-C62 | MONO tar branches | complete evaluation, algebra, witnesses |
| C64 | coagulation kernels | textbook expressions in diameters as specification; real algebra |
| C65 | signature tables | kernel evaluation of the complete tables |
| C66 | rate expressions | complete laws in Arrhenius normal form; two arbitrary accepted states compared; scaling by ring, temperature by monotonicity of exp and sqrt |
| C67 | rate expressions | `docs/models/1_chemistry.md` transcribed as the specification (`Soot.Doc`), equality or exact quotient |
| C54 | Lebesgue integrals over `gaussianReal` | kernels expanded into sums of powers, Gaussian mgf, Fubini; domination for the exact FM kernel |
| C63 | `get_mtar_ytar` | polynomial inequalities, intermediate value theorem |
| C68 | `run` over a list of calls | invariant by induction on the program; the caller's bookkeeping (`Shapes`, `Legal`) is a separate specification of counts only |
| C69 | `hmomSourcesAt` | large-mode number equation from a list of elementary rates (`HmomRates`); with and without oxidation compared |
| C70 | `sectSources`, `sectCoag`, `coagLoop` | `SectDoc`: the equations of docs/models/6_sect.md over functions of the bin number, with a double sum over all ordered pairs and the share of the coagulate in a bin |
| C71 | `sectSources` | `SectDoc.loss`: rate at which one particle leaves its bin; lower bound of the source, explicit-step positivity |
| C72 | `sourceTerms` after `setState`, `run` | two-history comparison; the members `setState` does not write are abstracted by `State.onto`; a program is compared with the two-object program built from its constructor call |
| C73 | `sourceTerms`, species tables `nuclReads` … `tarReads` | congruence of every rate and class under a change of the gas vector |
| C74 | `burnMain` (whole example program) | invariant over the steps; each evaluation by the totality lemmas of the class on the gas vector padded to eleven species (C73) |
| C75 | `burnStep`, `burnLoop`, specification `slope`, `TwoStage`, `Midpoint` | trajectory by induction, history independence (C72), species read (C73); explicit difference of the two slopes |
| C76 | `tarMain`, `burnMain` with HMOM | first evaluation of the loop; length of the gas vector, C35, species read (C73) |
| C77 | `setStateD` | case split on the comparisons; agreement with `setState` on finite numbers |
| C78 | `coagRateD` | commutativity of rounded `+` and `*`; evaluation with exact arithmetic |
| C79 | `monoSources`, `lognSources`, `qmomSources`, `momicSources`, `sectSources` | the complete evaluations of two models side by side; moment formulas at a single mass; the Wheeler recurrence at a degenerate moment set; shares of one bin |
| C80 | `burnMain` with `.MOMIC` | loop invariant on the moments (all positive or no particles); refutation by three explicit evaluations in a constant gas |
| C81 | `qmomSources` | `popRate`: the moment equations of a finite population, without the model; complete evaluation, round trip of the inversion (C53), equal sums over pairs |
| C82 | `Nucl.rate`, `ajDeposition`, `monoSources` | rewriting to `specFM` of C64; diameters compared by an explicit bound on the square root |
| C83 | the five `*Sources` functions, `getWtsAbs`, `wheeler` | closed forms of the sources at a vanishing variable; first row of the eigenvalue equation for the mass; concrete histories and moments for the refutations |
| C84 | the five `*Sources` functions, all rates, `getWtsAbs` | homogeneity of each closed form: degree one for surface moments (lognormal formula, Newton interpolation in logarithms, quadrature), degree two for coagulation; linearity of the Wheeler recursion |
| C85 | `simpleMain`, `simpleOps`, `fortMain`, `fortRest` | evaluation on the vector extended by zeros (C73: only the entries a mechanism reads matter), closed form of MONO, run of the heap operations |
| C86 | `In.next`, `In.row`, `readProfiles`, `burnFile`, `tarFile`, `fortRecord`, `fortProfiles`, `fileRows` | induction over rows, a failure invariant of the stream, the whole shipped table decided by the kernel over ℚ and cast to ℝ |
| C87 | `rateFM`, `rateCONT`, `rateHM`, `rateFUCHS`, `Coag.rate`, `setState` | the closed forms of C64, squeezed by the bounds on the slip correction and on the limiting sphere; limits as `Filter.Tendsto` |
| C88 | `coagPairR`, `coagLoopR`, `sectCoagR` (the model's own loop for the identity rounding: `sectCoagR_id`) | mass and number by induction over the pairs for any target bin; linear splitting is continuous across a bin edge; gap of `log₂(1+2^-d)` to the integers |
| C89 | `Coag.rate`, `lognCoagFM`, `lognCoagC`, `lognSources` | documented formulas transcribed as functions of mass, temperature, viscosity and mean free path; algebraic identities; strict inequalities for the misprints |
| C90 | `MomicDown.lean`: runs of `downselectIfNeeded` as a relation | strong induction on the remaining range for the inner loop and on `Nmom` for the outer one; C32 for the closure; Cauchy-Schwarz for the unrealisable witness |
| C91 | `FpMass.lean`: gas rate loop and source sums over doubles | propagation of relative and absolute errors through each operation; binary64 rounding to nearest shown to satisfy the assumption |
| C92 | `lognSources`, `momicSources`, `qmomSources` | derivative of `M0 M2 - M1²` along the complete evaluation; at a single mass one order up is a factor of that mass in every moment formula |
| C93 | `setDiffTable`, `momicMr`, `gridHalf`, `fGrid` | Newton's formula as a polynomial; uniqueness of the interpolating polynomial (Mathlib's Lagrange interpolation); C57 for the grid points |
| C94 | `momicSources` with all it calls | closed forms of the evaluation rewritten into the documented integrals; C93 for the interpolations; binomial expansion of the grid tables |
| C95 | `sectSources`; weights are functions of mass, spec `total` with the documented parts of C70 | C70 equations; linear splitting against concavity (Jensen between the neighbouring bins, chords through 0 for the last bin), summation by parts for growth and oxidation |
| C96 | `FpSect`: transport loops, coagulation loop, sum over processes, `mdot` sums and gas rates over doubles | closed form of the loops, pointwise error bounds, exact conservation of the real model, geometric-ratio estimate; for coagulation an invariant on the mass-weighted error after each addition |
| C97 | Client loop (specification) over setState and setSourceTerms of all classes | Induction over the evaluations; each step balances (C08, C09, C11) and preserves the object invariants (frame lemma of C68); sectional positivity by C71 |
| C98 | `run` of whole programs (Trace.lean) over worlds with many objects | Simulation between worlds that agree on one client's objects; the static influences an evaluation only through ilnFStatic, which has one value when all factors agree |
| C99 | four kernels in floating point (Fp.lean) | relative-error calculus over the whole expression; stability of the Fuchs distance |
| C100 | kernels, MONO node set-up, number source | limits of the closed kernel formulas; one-sided limit at the cutoff |
| C101 | `arrD`, `nuclRateD`, `growRateD`, `oxidRateD`, `nscRateD` (FpRate.lean) against `Nucl.rate`, `Grow.rate`, `Oxid.rate` | relative error counted operation by operation (`Acc`); the exponential turns the error of its argument into `(n+2)*argument` errors; for `1 - x` an absolute error compared with the sum |
| C102 | `monoSourcesD` (FpMono.lean) against `monoSources` | the error counts of C99 and C101 carried through the assembly; sums by absolute errors (`num_sum`, `sum_three`), products by relative ones (`AccZ`) |
| C103 | `hacaAlpha`, `Nucl.rate`, `Grow.rate`, `Oxid.rate` | the argument of tanh is slope*(T - critical temperature); limits from both sides; continuity of each closed form |
| C104 | `monoSources`, `sectSources`, `lognSources`, `momicSources` | closed forms of one evaluation; squeeze by a linear bound of the kernels and by the total area where soot vanishes |
| C105 | MONO sources, kernels, growth area | kernels and area are continuously differentiable at positive moments (Props/KernelSmooth), Picard-Lindelöf and Grönwall from Mathlib; explicit second solution y = ((1-q) D t)^(1/(1-q)) of y' = D y^q |
| C106 | MONO sources, kernel bound | fencing theorem (comparison with exp(-(C+1)t)) using the linear bound of the kernels from C104; explicit solution |
| C107 | setState followed by SECT setSourceTerms at every instant of a reactor with an arbitrary gas history | Fence -eps(1+t) and the right-derivative comparison theorem; C71 for the empty section, C95 for the moments |
| C108 | setState followed by SECT setSourceTerms at every instant in a fixed gas | Picard-Lindelof on the field cut to a box, positivity and an exponential bound on the number show the box is never left; local Lipschitz uniqueness; explicit second curve for LL |
| C109 | setState followed by MONO setSourceTerms at every instant, with the node kept in the state object | Fence below the number as in C106, inward sources for the mass; explicit linear curve for the stale node |
| C110 | setState-driven evolution of the LOGN moments in continuous time, coagulation alone | invariant of the FM rates, barrier arguments and comparison for the continuum width, explicit self-preserving solution, Picard-Lindelof for existence |
| C111 | setState-driven evolution of the LOGN moments in continuous time with nucleation, growth, oxidation, condensation and coagulation | where M0*M2 < M1^2 every process lowers M0*M2 - M1^2 at most in proportion to itself (shift identity of the lognormal moments), then a Gronwall comparison; bootstrap arguments for positivity |
| C112 | setState-driven evolution of the LOGN moments for all times | a-priori bounds on number, mass and second moment from Gronwall comparisons, Picard-Lindelof for the field clamped to a box that the bounds keep the run away from the faces of, gluing by uniqueness |
| C113 | `lognSourcesD` (FpLogn.lean) against `lognSources` | absolute errors of the exponents turned into relative errors of the powers (`pow_abs`), monotonicity of the harmonic mean (`Acc.hm`), five-term sums by relative errors (`sum5_rel`) |
| C114 | `MonoEvolution` on `monoSources`; J is the result of `nucleation->getNucleationSootRate` on the gas | existence from a-priori bounds (`MonoGlobal.apriori`, `LognGlobal.box_exists`), uniqueness from C105, limits by a trapping argument (`MonoGlobal.trap`) and the limits of the kernels (C87) |
| C115 | `SectEvolution` on `setState` and `sectSources` | gluing of C108 over growing intervals; the gap to the last section mass at least halves in every collision (`SectLong.share_gap`), so it decays at a rate proportional to the number of particles, which the mass bounds from below |
| C116 | `sectSourcesD` (FpSectAll.lean) against `sectSources` | mass-weighted norm of the error (`FpSect.nrm`) through transport (`up_err`, `down_err`), coagulation loop (`coag_err`) and sums (`sect_total`); rates from C101, kernels from C99, search from C88 |
| C117 | `setState`, `sourceTerms` with all classes; species by mechanism from the tables of C73 | inversion of a returning evaluation (`GasLen.three`, `GasLen.mono`); a relation "same result or UB" that passes through bind (`GasLen.Cut`) |
| C118 | `sourceTerms` with all classes except QMOM | a relation "same result, or UB if something is missing" that passes through bind and loops (`SootLen.Rel`), used once for agreement and once for cutting; inversion of a returning evaluation |
| C119 | `sourceTerms` with all classes, the setters of `State.lean` | the change of the members passes through every term function (`Inert.nucl`, `Inert.lognT`, ...); survival from C04 |

A statement marked FALSE in `properties.jsonl` is handled by (a) a theorem refuting it with a concrete
witness, and (b) the strongest true part.

## Where the code disagrees with the property

* **C03** a negative gas mass fraction passes `setState` unclamped.
* **C04** `setState` writes fields before it has checked all arguments; a throwing call leaves a mixture.
* **C18, C26** LOGN: with the HM kernel no particle is ever lost by coagulation; with PAH nucleation and no
  soot (or no PAH) the sources are non-finite.
* **C20, C21** PAH nucleation overwrites `cMin` in the state, so a repeated call differs; the PAH carbon taken
  is not the soot carbon gained.
* **C23** MONO at `M0 = 0` reuses the weights of an earlier call.
* **C29** QMOM: one empty quadrature node switches off every surface reaction.
* **C31** QMOM with 36 or more moments always throws (binomial table).
* **C33** MOMIC with 8 moments: undefined behaviour on every call.
* **C34** MOMIC continuum coagulation: `=` instead of `+=`, only the last pair term survives for `r ≥ 3`.
* **C35** HMOM: `get_Ik(0)` reads `Mq6_L[-3]` on every call, so no call ever completes.
* **C40** SECT: a function-local static is shared by all models of the process.
* **C44** (beyond the claim) an invalid enum value leaks the mechanisms built before it; the default `tar` argument is leaked;
  a second model built from the same mechanism pointers redirects their back pointers; models must not be copied.
* **C45** `bioMapES` spells `sw_hc` differently from `bioMapSE`.
* **C46** the C interface copies 10 of the 11 gas species and never passes `cMin`; a later read of CO2 is out of bounds.
* **C47** HACA: 0/0 for `M1 = M0 > 0` together with `33.167 - 0.0154 T = 0`.
* **C49** `oxidationModel_FAIR` reports `mechType` LL.
* **C50** AJ_RED tar cracking ignores hydrogen.
* **C52** `Linear_interp` accepts strictly decreasing tables but does not interpolate them; tables with two points are not checked
  for monotonicity at all.
* **C56** MOMIC: one zero moment makes FM/HM coagulation non-finite.
* **C59** MOMIC condensation: the index shift of the continuum part is never advanced, wrong for moments ≥ 2.
* **C60** HMOM: the free-molecular small-large integral has moment order `k-1` instead of `k`.

* **C61, C10** MONO with BROWN tar: growth takes gas mass that no soot gains, nucleated mass is taken from gas and tar, the selected
  coagulation mechanism is ignored (particles are lost even with every mechanism `NONE`).
* **C62** MONO with AJ_RED tar: surface rates are multiplied by the area twice in the soot source, once in the gas sources.
* **C63** tar yield correlation: above 2 at 500 K, a pole between 500 K and 600 K; out-of-bounds reads if `getyBio` was not called.
* **C65** Fortran: `tar_delete` passes its pointer by reference, so the C side deletes the address of the Fortran variable; constructors pass
  a 32-bit `C_int` where the C function takes `size_t`; all getters are bound as subroutines and lose their result; seven wrappers
  (including `setSourceTerms`) pass a scalar `intent(out)` dummy, which is undefined on entry; `tarModel_AJ_RED` is not exported.
* **C66** `oxidationModel_FAIR.cc:34` has `exp(39E3/(T*1.987))` with a positive exponent: the rate falls with temperature (and the factor
  for the molar mass of carbon is commented out on the next line).
* **C67** code and `docs/models/1_chemistry.md` disagree on LIN and LINA1 nucleation, LL and LIN growth, HACA sites, OPTG/OPTJ exponents of
  T and two sticking coefficients; exact quotients are proved.  At a vanishing denominator of the HACA site balance the documentation says
  nothing and the code (like `x/0 = 0` in the transcription) uses zero sites.
* **C89** docs/models/1_chemistry.md:202 prints the free-molecular coefficient without the power 1/2 on `pi kB T/2`; :212 prints a product of the two
  mobilities where the program (rightly) adds them; :239 documents HM with `C = 1 + 1.657 Kn`, the program uses the full Cunningham factor;
  3_logn.md prints 1.675 in `K_C'` where the program and 1_chemistry.md have 1.657.
* **C86** the C++ burner programs never look at the stream state.  With an empty or missing file they read an uninitialised `double`; with
  34 rows they fill the missing row with the last number of the file and, if that number is a possible position, run on.
  `burner_flame.f90:32` lists `yH, yH2, yO, yO2` for the columns headed `y_O2 y_O y_H2 y_H`.  (It prints only `z` and `y_C2H2`.)
* **C85** `simple_example.cc:36` and `simple_example_HMOM.cc:34` label the ninth mass fraction CO2; the library uses that entry as C6H6, and CO2
  (entry 11) lies outside the nine-entry vector.  `simple_example_HMOM.cc` is undefined for every input (C35).  All examples leak the
  `tarModel_NONE` that the constructor's default argument allocates.  `simple_example_fort.f90:62` calls `get_mtar_ytar` before `setState`:
  the pressure is still zero and the tar mass and fraction are not finite (with `tarModel_NONE` nothing reads them).
* **C83** MONO: after the soot variables are set to zero the stored weight of the previous evaluation still coagulates, so the number source of
  an empty population is negative. QMOM: `1, 1, 3/4, 0` gives two positive nodes (the recursion takes the absolute value of the negative
  off-diagonal square), and oxidation has a negative source for the moment that is zero. `C83_qmom_mass_partial` assumes that the eigenvalue
  routine returns at least one non-finite or negative eigenvalue for a non-finite matrix.
* **C82** `tarModel_AJ_RED.cc:78` takes `sqrt(1.395E-10*3)` where `nucleationModel_AJ_RED.cc:37` has `1.395E-10*sqrt(3)`: the deposition
  rate uses a tar molecule more than 84000 times as wide as the nucleation rate does.  `sootModel_MONO.cc:152-161` adds `mtar` (kg/kmol) per
  molecule to the soot, i.e. `Na` times the mass of the molecules that leave the tar equation.  Both are proved for every state.
* **C80** examples/burner_flame/burner_flame_MOMIC.cc as configured (LL, LL, LL, HM) does not finish for all flames: in a gas with H and little
  acetylene, oxidation removes more mass in the first step than nucleation supplies while the number stays positive; `setState` cuts the mass to zero and
  MOMIC takes the logarithm of zero. Proved for every number of steps from two on. Without oxidation or with the continuum kernel it finishes.
* **C79** The models do not agree on equal particles. The number loss of LOGN is 0.8536·√2 ≈ 1.207 times that of MONO for the free-molecular
  kernel, and zero for the harmonic mean (the guard at sootModel_LOGN.cc:294 asks whether the two losses, negative numbers, are positive). MOMIC's harmonic mean uses a linear slip correction and
  loses more than MONO. QMOM with four or more moments divides by zero in the Wheeler recurrence, falls back to one node, and then reports no growth
  and no oxidation at all (C29). This last theorem assumes that `dstev` does not make finite non-negative eigenvalues out of a NaN matrix
  (`Eig.NaNOut`), and uses real arithmetic: with rounding the denominator can be tiny instead of zero.
* **C77** src/state.cc writes its range checks as `if (T_ <= 0) throw`. These are false for NaN, so NaN passes each of them; plus
  infinity passes the checks of the scalars, which have no upper bound.
* **C76** examples/burner_flame/burner_flame_tar.cc:133 assigns an eight-entry vector to `yGas`, and tarModel_AJ_RED.cc:96 reads entry 10 (CO2)
  of it. burner_flame_HMOM.cc runs the class of C35. Neither program has a well-defined run (the tar file says "runs but not correctly").
* **C75** examples/burner_flame/burner_flame.cc:129 fills the gas vector of the second stage as `{H, H2, O, O2, OH, …}`, while line 119 and
  the library use `{O2, O, H2, H, OH, …}`: the "midpoint" slope oxidises with the H mass fraction in place of O2.
* **C70** docs/models/6_sect.md writes `k_g` in the loss term of the first bin of the oxidation equations; the code uses the oxidation rate
  (the specification does too). The document's coagulation sum over `m_j, m_{i-j}` is taken with the splitting of its following paragraph.
* **C69** sootModel_HMOM.cc:241-250: oxidation takes `kO·area(m0)/m0·N0` out of the small mode but leaves the total number `M0` alone, so the
  oxidised small particles appear as *new large particles*. The same transfer is right for growth, not for oxidation.
* **C54** docs/models/3_logn.md promises at most 15 % error for the FM approximation; relative to the exact rate it reaches 20.7 % (equal
  particles).  The same page prints 1.675 for the slip constant 1.657.
* **C100** C100: the guard `m1 <= mmin || m2 <= mmin` makes every kernel jump at the cutoff mass; the number source that an integrator is given for MONO is discontinuous where the mean particle mass crosses 2E-26 kg.
* **C103** The HACA site fraction `alpha` takes `log10(M1/M0)` of a mass in kilograms. Below 2153 K it is one for every particle size; between 2153 K and 2303 K it jumps from one to zero at a temperature that depends on the mean mass; above that it increases with size, although it is introduced as a fraction of available sites (C103). PAH nucleation adds the stored carbon number before it divides by the collision rate, so as the PAH vanish the nuclei grow without bound while their number goes to zero (C103).
* **C104** With no particles, MONO evaluates coagulation with the node of the previous call, so its number source is discontinuous there (C104_stale_jump). LOGN's surface terms are unbounded as `M2` tends to 0 at fixed `M0`, `M1`, but zero at `M2 = 0` (C104_logn_unbounded). PAH nucleation adds the stored carbon number before dividing by the PAH collision rate, so in a soot-free gas the mass source tends to a quarter of that number of carbon atoms as the PAH vanish, and is zero without PAH (C104_pah_jump, and C104_sect_pah_jump for the first section of SECT). Among particles above the cutoff mass the dimers condense first and the sources stay continuous (C104_mono_pah_vanish, C104_sect_pah_vanish).
* **C105** particles without mass (M0 > 0, M1 = 0) can be reached in finite time (C106) and from there the equations the library hands to the integrator have more than one solution when growth is active.
* **C108** With growth LL the contents of the sections are not determined by their start: from no soot at all the last section may start to fill at any time without nucleation (`C108_sect_not_unique`).
* **C109** A MONO state object reused in a cell without soot keeps the node of the soot it saw before; the coagulation source computed from it makes the number of particles fall below zero without bound (`C109_number_falls_below_zero`).
* **C110** (width under coagulation): with the harmonic mean the LOGN number source is always zero while the second-moment
  source is positive (`C110_hm_spreads_without_bound`), so the width grows without bound where physics and the other two kernels give a fixed width.
* **C117** `setState` checks the size of the PAH vector (state.cc:106) but not of the gas vector; a caller who passes too few gas species gets a read past the end of the vector in the mechanisms (C117).

## Trusted base

* Lean 4.33.0 kernel; Mathlib; axioms `propext`, `Classical.choice`, `Quot.sound` only (checked with
  `#print axioms` for every theorem named in `MANIFEST.json`).
* The transcription of the C++ into Lean (each definition cites file and lines).
* Idealisation of `double` as `ℝ` and the outcome convention above.

## Not modelled

* Floating-point rounding/overflow outside `Fp.lean`, `FpMass.lean`, `FpRate.lean`, `FpMono.lean`, `FpLogn.lean`, `FpSect.lean`, `FpSectAll.lean` and C88, console output, Fortran semantics beyond the signatures of `soot_module.f90` and
  list-directed reads of complete numbers, build files, Cantera-based code, LAPACK internals, interleavings inside a call (whole calls of several clients: C98).
* `int`/`size_t` wrap-around except where stated (C39 assumes `n + log 2 / log F < 2^64`, and its bin index uses the
  floor of an exactly computed logarithm; C88 covers every rounding of that logarithm).
* The programs in `tests/`, which use an older interface of the library and do not match its headers.
* MOMIC: overflow of `pow(10, x)` on finite `x` (the code maps it to 0).
