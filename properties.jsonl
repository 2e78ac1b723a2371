{"id": "C01", "title": "setState accepts exactly the physical inputs", "statement": "On a state whose soot/tar counts do not exceed the lengths of the supplied vectors, setState succeeds if and only if T, P, rhoGas, muGas and cMin are all positive, no soot (tar) value beyond the previously declared count is negative, no gas mass fraction exceeds one, exactly six PAH fractions are given, each in [0,1], and they sum to at most one; in every other case it throws and never reaches undefined behaviour.", "quantifier": "for every state object and every argument tuple", "why_tests_cant": "The accept/reject boundary is a condition on unboundedly long real vectors; sampling cannot show that no rejected input is accepted.", "anchors": ["src/state.cc: state::setState"]}
{"id": "C02", "title": "a successful setState leaves only valid values", "statement": "After a successful setState the stored T, P, rhoGas, muGas, cMin are the (positive) inputs, MWGas equals rhoGas*Rg*T/P and is positive, every stored soot and tar variable is the non-negative part of the corresponding input, and the PAH fractions lie in [0,1] and sum to at most one.", "quantifier": "for every state object and every accepted argument tuple", "why_tests_cant": "Must hold for every vector of every length and for every prior content of the object.", "anchors": ["src/state.cc: state::setState"]}
{"id": "C03", "title": "negative gas mass fractions are clamped to zero", "statement": "After a successful setState every stored gas mass fraction lies in [0,1], i.e. a negative input is stored as zero (the code contains the clamp). FALSE of the code: the clamp works on a loop copy; what holds is only the upper bound and that the vector is stored unchanged.", "quantifier": "for every accepted argument tuple", "why_tests_cant": "A test with non-negative fractions passes; the claim is about all inputs.", "anchors": ["src/state.cc: state::setState"]}
{"id": "C04", "title": "a rejected setState leaves the state untouched", "statement": "If setState throws, the state object is observably unchanged. FALSE of the code: fields are written as soon as they are checked; what holds is that yGas/yPah/soot/tar vectors are unchanged when a scalar is rejected and that every field is either its old value or the new input.", "quantifier": "for every state object and every rejected argument tuple", "why_tests_cant": "The set of failure points and inputs is infinite; a partial update is only visible at particular failure points.", "anchors": ["src/state.cc: state::setState"]}
{"id": "C05", "title": "setState is history independent (last call wins)", "statement": "The state after a successful setState depends only on the arguments of that call for every field setState writes; the quadrature weights/abscissas and sootScales are never changed by it.", "quantifier": "for every pair of states with the same declared soot/tar counts and PAH size, and every argument tuple", "why_tests_cant": "It is a relation between two runs over arbitrary histories.", "anchors": ["src/state.cc: state::setState"]}
{"id": "C06", "title": "memory safety of setState", "statement": "setState never indexes outside the supplied vectors exactly when the previously stored soot and tar counts are at most the lengths of the new vectors (or the call throws before the clamp loop); a call with a shorter vector than before is undefined behaviour.", "quantifier": "for every state and argument tuple", "why_tests_cant": "UB does not reliably show up in a test run.", "anchors": ["src/state.cc: state::setState"]}
{"id": "C07", "title": "concentrations and partial pressures obey the ideal gas law", "statement": "For every state produced by a successful setState, partial pressure = concentration * Rg * T for every gas species and every PAH species, the species density equals concentration times molar mass, and the mean free path is positive.", "quantifier": "for all accepted states and all species", "why_tests_cant": "Identity over all real inputs.", "anchors": ["src/state.h: getGasSpC, getGasSpP, get_pahSpC, get_pahSpP, getGasMeanFreePath", "src/state.cc: state::setState"]}
{"id": "C08", "title": "surface/nucleation chemistry conserves mass", "statement": "For every nucleation (except PAH), growth and oxidation mechanism other than NONE and every soot mass rate, the gas species rates it reports sum to minus the soot mass rate.", "quantifier": "for every mechanism and every real soot mass rate", "why_tests_cant": "All real rates; exactness depends on every entry of the molecular weight and stoichiometry tables.", "anchors": ["src/nucleationModels/nucleationModel.cc: getNucleationGasRates", "src/growthModels/growthModel.cc: getGrowthGasRates", "src/oxidationModels/oxidationModel.cc: getOxidationGasRates", "src/sootDefs.h: gasSpMW", "src/*Models/*Model_*.cc: constructors (rxnRatios)"]}
{"id": "C09", "title": "chemistry conserves every element", "statement": "For every such mechanism and every soot mass rate, the carbon, hydrogen and oxygen atom rates of the gas sources plus the carbon going into soot vanish separately; the molecular weight table is consistent with atomic weights for all gas and PAH species.", "quantifier": "for every mechanism, element and real rate", "why_tests_cant": "Whole-table statement combined with all real rates.", "anchors": ["src/nucleationModels/nucleationModel.cc: getNucleationGasRates", "src/growthModels/growthModel.cc: getGrowthGasRates", "src/oxidationModels/oxidationModel.cc: getOxidationGasRates", "src/sootDefs.h: gasSpMW", "src/sootDefs.h: pahSpMW, pahSpNC, pahSpNH"]}
{"id": "C10", "title": "gas-phase solid-carbon source is always zero and NONE mechanisms contribute nothing", "statement": "Every PSD model reports a zero source for the pseudo species C, and selecting NONE for nucleation, growth, oxidation or coagulation makes the corresponding contribution to every reported source exactly zero.", "quantifier": "for every model, mechanism selection and state", "why_tests_cant": "Holds for all states, not those sampled.", "anchors": ["src/nucleationModels/nucleationModel.cc: getNucleationGasRates", "src/growthModels/growthModel.cc: getGrowthGasRates", "src/oxidationModels/oxidationModel.cc: getOxidationGasRates", "src/sootDefs.h: gasSpMW", "src/sootModel_*.cc: setSourceTerms"]}
{"id": "C11", "title": "total mass is conserved by every PSD model", "statement": "For MONO, LOGN, QMOM, MOMIC and SECT without PAH nucleation and tar, the sum of all gas sources plus the soot mass source (first moment, or mass-weighted sum over sections) is exactly zero.", "quantifier": "for every model size, mechanism combination and state on which setSourceTerms completes", "why_tests_cant": "Conservation must hold for every state and every number of moments/sections.", "anchors": ["src/sootModel_MONO.cc: setSourceTerms", "src/sootModel_LOGN.cc: setSourceTerms", "src/sootModel_QMOM.cc: setSourceTerms", "src/sootModel_MOMIC.cc: setSourceTerms", "src/sootModel_SECT.cc: setSourceTerms"]}
{"id": "C12", "title": "coagulation kernels are symmetric", "statement": "Exchanging the two particle masses leaves the coagulation rate unchanged for every coagulation mechanism.", "quantifier": "for every mechanism, state, multiplier and pair of masses", "why_tests_cant": "All pairs of reals.", "anchors": ["src/coagulationModels/*.cc: getCoagulationSootRate"]}
{"id": "C13", "title": "coagulation kernels are positive above the one-carbon-atom cutoff and zero below", "statement": "For every accepted state and positive FM multiplier, the kernel of FM, CONTINUUM, HM and FUCHS is finite and strictly positive when both masses exceed the cutoff, and exactly zero otherwise; NONE is always zero.", "quantifier": "for all states, multipliers and masses", "why_tests_cant": "Real-valued inequality (including the Fuchs transition formula) over a continuum.", "anchors": ["src/coagulationModels/*.cc: getCoagulationSootRate", "src/sootDefs.h: mmin"]}
{"id": "C14", "title": "the harmonic-mean kernel interpolates below both regimes", "statement": "The HM kernel is the harmonic mean of the free-molecular kernel (identical to the one FM uses) and a slip-corrected continuum kernel; it is at most each of them and at least half of the smaller one, and its continuum part never exceeds the CONTINUUM kernel.", "quantifier": "for all accepted states, positive multipliers and masses above cutoff", "why_tests_cant": "Algebraic identity/inequality on reals.", "anchors": ["src/coagulationModels/coagulationModel_HM.cc: getCoagulationSootRate", "src/coagulationModels/coagulationModel_FM.cc", "src/coagulationModels/coagulationModel_CONTINUUM.cc"]}
{"id": "C15", "title": "the FM multiplier scales the free-molecular rate linearly and nothing else", "statement": "set_FM_multiplier(c) multiplies the FM kernel by c relative to multiplier one, leaves the CONTINUUM kernel unchanged, and HM is monotone in it.", "quantifier": "for all multipliers, states, masses", "why_tests_cant": "Functional identity.", "anchors": ["src/coagulationModels/coagulationModel.h: getKfm, set_FM_multiplier"]}
{"id": "C16", "title": "coagulation never creates or destroys soot mass", "statement": "In every PSD model the coagulation contribution to soot mass is exactly zero.", "quantifier": "for every PSD model, every number of moments/sections, every kernel, every state", "why_tests_cant": "Needs all bin counts and distributions.", "anchors": ["src/sootModel_SECT.cc: setSourceTerms", "src/sootModel_QMOM.cc: setSourceTerms", "src/sootModel_MOMIC.cc: MOMICCoagulationRates", "src/sootModel_LOGN.cc: setSourceTerms", "src/sootModel_MONO.cc: setSourceTerms"]}
{"id": "C17", "title": "coagulation reduces particle number", "statement": "The coagulation contribution to particle number is non-positive in MONO, QMOM, SECT, LOGN and MOMIC for states with non-negative soot variables, and the contribution to moments of order two and higher is non-negative in QMOM and LOGN.", "quantifier": "for all accepted states and sizes", "why_tests_cant": "Sign statement over a continuum.", "anchors": ["src/sootModel_*.cc: setSourceTerms"]}
{"id": "C18", "title": "harmonic-mean coagulation is effective in the lognormal model", "statement": "With HM coagulation and a populated distribution the LOGN number source contains a strictly negative coagulation term. FALSE of the code: the guard tests for a positive value of two non-positive rates, so the number loss is always zero.", "quantifier": "for all accepted states with positive moments", "why_tests_cant": "A universally quantified sign property.", "anchors": ["src/sootModel_LOGN.cc: setSourceTerms lines 293-296"]}
{"id": "C19", "title": "PAH dimer concentration is the positive steady-state root", "statement": "With PAH nucleation the computed dimer concentration is the unique non-negative solution of betaDD*n^2 + I*n = dimer formation rate, whenever dimers form, and the nucleation rate is half the dimer self-collision rate.", "quantifier": "for every accepted state and every non-negative soot collision rate", "why_tests_cant": "Existence/uniqueness of a real root for all coefficients.", "anchors": ["src/nucleationModels/nucleationModel_PAH.cc: getNucleationSootRate"]}
{"id": "C20", "title": "repeating setSourceTerms gives the same answer", "statement": "Calling setSourceTerms twice on an unmodified state gives identical sources. TRUE for every mechanism selection without PAH nucleation; FALSE with PAH nucleation, where the nucleated-particle size stored in the state is fed back into itself.", "quantifier": "for every model, state and number of repetitions", "why_tests_cant": "A hyperproperty over call histories.", "anchors": ["src/nucleationModels/nucleationModel_PAH.cc: getNucleationSootRate", "src/sootModel_*.cc: setSourceTerms"]}
{"id": "C21", "title": "carbon consumed from PAH appears in soot", "statement": "With PAH nucleation in MONO the soot mass gained by nucleation plus condensation equals the carbon mass removed from the PAH species. FALSE of the code: exactly half of it (plus a term proportional to the stored cMin) appears; the exact balance is proved.", "quantifier": "for every accepted state with PAH present", "why_tests_cant": "Exact identity over all states.", "anchors": ["src/nucleationModels/nucleationModel_PAH.cc", "src/sootModel_MONO.cc: setSourceTerms"]}
{"id": "C22", "title": "condensation loss used for dimers equals condensation gain of soot", "statement": "The soot mass gained by PAH condensation equals dimer mass * dimer concentration * the dimer-soot collision rate used in the dimer balance, for MONO, LOGN, QMOM, MOMIC and SECT.", "quantifier": "for every accepted state and size", "why_tests_cant": "Two different code paths must agree on all inputs.", "anchors": ["src/sootModel_*.cc: pahSootCollisionRatePerDimer, setSourceTerms"]}
{"id": "C23", "title": "MONO results do not depend on earlier calls", "statement": "MONO sources depend only on the current state inputs. TRUE when particle number is positive; FALSE when it is zero, because quadrature weights of an earlier call are reused.", "quantifier": "for all call histories", "why_tests_cant": "Relational property over histories.", "anchors": ["src/sootModel_MONO.cc: setSourceTerms lines 85-88"]}
{"id": "C24", "title": "MONO source terms follow the monodisperse equations", "statement": "On every accepted state with two soot variables and tar NONE the MONO sources are nucleation - half kernel*M0^2 for number and nucleation + condensation + (growth - oxidation)*area for mass, with area that of M0 equal spheres of total mass M1.", "quantifier": "for every mechanism combination and accepted state", "why_tests_cant": "Refinement to a specification on all inputs.", "anchors": ["src/sootModel_MONO.cc: setSourceTerms"]}
{"id": "C25", "title": "lognormal fractional moments are exact for lognormal distributions", "statement": "If the three moments are those of a lognormal distribution with any total number, median and width, the LOGN fractional-moment formula returns the true moment for every real order, and in general it reproduces M1 and M2 (and M0) at integer orders for positive moments.", "quantifier": "for every real order and every lognormal parameter set", "why_tests_cant": "Continuum of orders and parameters.", "anchors": ["src/sootModel_LOGN.cc: Mr"]}
{"id": "C26", "title": "LOGN accepts every state setState accepts", "statement": "For LOGN with any non-PAH nucleation, setSourceTerms on an accepted state with three soot variables terminates with finite sources, including the empty (zero soot) state. FALSE with PAH nucleation: on zero soot the collision rate is 0/0.", "quantifier": "for all accepted states", "why_tests_cant": "Totality over all inputs incl. boundary.", "anchors": ["src/sootModel_LOGN.cc: setSourceTerms, pahSootCollisionRatePerDimer"]}
{"id": "C27", "title": "QMOM inversion yields usable quadrature", "statement": "For any behaviour of the eigenvalue routine, the weight/abscissa computation terminates, leaves all weights and abscissas finite and non-negative, and pads unused nodes with zeros; with one node (or after full downselection) it reproduces M0 and M1 exactly.", "quantifier": "for every moment vector and every eigenvalue-routine outcome", "why_tests_cant": "The external routine can return anything; termination is for all inputs.", "anchors": ["src/sootModel_QMOM.cc: getWtsAbs"]}
{"id": "C28", "title": "QMOM quadrature reproduces the moments", "statement": "If the eigenvalue routine returns an orthonormal eigen-decomposition of the Jacobi matrix and the recursion meets no zero denominator and non-negative off-diagonal squares, the quadrature reproduces the transported moments.", "quantifier": "for every node count and moment vector", "why_tests_cant": "Gauss quadrature theorem for every N.", "anchors": ["src/sootModel_QMOM.cc: wheeler"]}
{"id": "C29", "title": "QMOM keeps surface reactions active after downselection", "statement": "When the inversion falls back to fewer nodes, growth and oxidation still use the remaining nodes. FALSE of the code: one zero-padded node makes every fractional moment zero, so growth and oxidation vanish.", "quantifier": "for every moment vector for which downselection happens", "why_tests_cant": "Depends on the inversion outcome for all vectors.", "anchors": ["src/sootModel_QMOM.cc: Mr, getWtsAbs"]}
{"id": "C30", "title": "two-moment QMOM equals MONO", "statement": "With two moments and a populated distribution, QMOM and MONO produce identical soot, gas and PAH sources.", "quantifier": "for every mechanism combination and accepted state", "why_tests_cant": "Equivalence of two implementations on all inputs.", "anchors": ["src/sootModel_QMOM.cc", "src/sootModel_MONO.cc"]}
{"id": "C31", "title": "QMOM coagulation equals the binary collision sum", "statement": "The QMOM coagulation source of moment r equals one half of the double sum over node pairs of kernel*w_i*w_j*((a_i+a_j)^r - a_i^r - a_j^r).", "quantifier": "for every number of nodes, order r and kernel", "why_tests_cant": "Combinatorial identity for all r and N.", "anchors": ["src/sootModel_QMOM.cc: setSourceTerms lines 149-178", "src/binomial.h"]}
{"id": "C32", "title": "MOMIC interpolation is exact at integer moments", "statement": "For positive moments the interpolated moment of every integer order below the number of moments equals the transported moment, and a non-positive moment yields zero rather than a non-finite value.", "quantifier": "for every number of moments, every order, every positive moment vector", "why_tests_cant": "Newton interpolation theorem for all sizes.", "anchors": ["src/sootModel_MOMIC.cc: set_diffTable, Mr"]}
{"id": "C33", "title": "MOMIC never indexes outside its tables", "statement": "For every constructible MOMIC model, setSourceTerms stays inside its fractional-moment arrays. TRUE for 3 to 7 moments; FALSE for 8, which the constructor accepts.", "quantifier": "for every constructible size and every state", "why_tests_cant": "UB is not reliably observable by tests.", "anchors": ["src/sootModel_MOMIC.cc: constructor, set_fractional_moments_Mp6_Mq6, f_grid, g_grid"]}
{"id": "C34", "title": "MOMIC continuum coagulation sums over all collision pairs", "statement": "The MOMIC continuum coagulation source of moment r is the binomially weighted sum over k of the pair terms. TRUE for r<=2; FALSE for r>=3, where only the last term of the sum is kept.", "quantifier": "for all moment counts and states", "why_tests_cant": "All sizes and states.", "anchors": ["src/sootModel_MOMIC.cc: MOMICCoagulationRates line 525"]}
{"id": "C35", "title": "HMOM source terms can be evaluated", "statement": "For a constructible HMOM model setSourceTerms completes on accepted states. FALSE of the code: it indexes its fractional-moment array at -3 on every call.", "quantifier": "for every constructible HMOM model and every state", "why_tests_cant": "UB may silently read memory.", "anchors": ["src/sootModel_HMOM.cc: get_Ik, g_grid_L, setSourceTerms"]}
{"id": "C36", "title": "HMOM large-mode moments are strictly positive", "statement": "The large-mode moments from which HMOM takes logarithms are strictly positive for every accepted state.", "quantifier": "for every state and number of moments", "why_tests_cant": "All inputs.", "anchors": ["src/sootModel_HMOM.cc: setSourceTerms lines 122-136"]}
{"id": "C37", "title": "sectional growth, condensation and oxidation conserve mass exactly", "statement": "For any number of bins and strictly increasing positive bin masses, the sectional growth (oxidation) terms change total soot mass at exactly plus (minus) rate times total surface area, and condensation at exactly the collision rate times dimer mass.", "quantifier": "for every bin count >= 2, bin masses, number densities and rates", "why_tests_cant": "Telescoping over arbitrary bin count.", "anchors": ["src/sootModel_SECT.cc: setSourceTerms"]}
{"id": "C38", "title": "sectional growth and oxidation change particle number only at the ends", "statement": "Sectional growth/condensation moves particles between bins conserving number except for gain in the last bin; oxidation conserves number except for loss in the first bin.", "quantifier": "for every bin count and distribution", "why_tests_cant": "Arbitrary bin count.", "anchors": ["src/sootModel_SECT.cc: setSourceTerms"]}
{"id": "C39", "title": "sectional coagulation places particles between the right bins", "statement": "When the cached factor belongs to the model's own bin growth factor F>1, each colliding pair below the top bin is split between two adjacent bins that bracket the sum mass, with fractions in [0,1], conserving number and mass; hence no bin gains a negative amount.", "quantifier": "for every F>1, bin count and pair", "why_tests_cant": "Logarithm/floor reasoning for all real F.", "anchors": ["src/sootModel_SECT.cc: setSourceTerms lines 253-288"]}
{"id": "C40", "title": "sectional models with different bin spacing are independent", "statement": "The sources of one sectional model do not depend on which other sectional models ran earlier in the process. FALSE of the code: a function-static factor is initialised by whichever model runs first.", "quantifier": "for all interleavings of model calls", "why_tests_cant": "A property of process histories.", "anchors": ["src/sootModel_SECT.cc: line 256"]}
{"id": "C41", "title": "sectional nucleation preserves nucleated mass and the bins are geometric", "statement": "The first-bin nucleation source carries exactly the mass nucleation rate; bin masses are positive, strictly increasing and geometric for F>1; the reported sectional M0 and M1 are the number and mass of the distribution.", "quantifier": "for every bin count, F, state", "why_tests_cant": "Arbitrary size.", "anchors": ["src/sootModel_SECT.cc: set_mBins, setSourceTerms, get_M0_sectional, get_M1_sectional"]}
{"id": "C42", "title": "binomial coefficient helper is exact on its range and throws outside", "statement": "binomial_coefficient(r,k) equals r choose k for all k<=r<35 and throws for every other pair of unsigned arguments.", "quantifier": "for all pairs of 32-bit unsigned integers", "why_tests_cant": "2^64 pairs.", "anchors": ["src/binomial.h: binomial_coefficient"]}
{"id": "C43", "title": "constructors accept exactly the documented configurations", "statement": "Each PSD model constructor succeeds exactly for its documented soot-variable counts, coagulation choices and tar choice and throws otherwise.", "quantifier": "for every PSD model, count and mechanism choice", "why_tests_cant": "Unbounded counts; full product of enumerations.", "anchors": ["src/sootModel_*.cc: constructors"]}
{"id": "C44", "title": "enum-constructed models own their mechanisms exactly once", "statement": "Creating and destroying one enum-constructed model frees each mechanism exactly once; a pointer-constructed model frees none of the caller's mechanisms; copying an owning model and destroying both is a double free; a throwing derived constructor leaves no mechanism freed twice.", "quantifier": "for every sequence of create/copy/destroy operations of this shape", "why_tests_cant": "Ownership over arbitrary lifetimes.", "anchors": ["src/sootModel.h: ~sootModel", "src/sootModel.cc: constructors"]}
{"id": "C45", "title": "species name maps are inverse to each other", "statement": "Converting any gas or biomass species to its name and back gives the same species. TRUE for gas species; FALSE for biomass species (sw_hc is misspelled).", "quantifier": "for every enumerator", "why_tests_cant": "Whole-table statement.", "anchors": ["src/sootDefs.h: gasSpMapSE, gasSpMapES, gasSpMapIS, bioMapSE, bioMapES"]}
{"id": "C46", "title": "the C/Fortran interface forwards every argument", "statement": "setState through the C interface has the same effect as the C++ call with the same data. FALSE of the code: it drops the eleventh gas species and the cMin argument; what it is equivalent to is proved, together with the out-of-bounds read of CO2 it causes later.", "quantifier": "for every argument tuple", "why_tests_cant": "All inputs.", "anchors": ["src/fortran_wraps/c_interface.cc: setState_C_interface"]}
{"id": "C47", "title": "HACA site fraction is a fraction", "statement": "For every accepted state the HACA alpha used for growth and oxidation lies in [0,1] and the HACA rates are finite and non-negative for non-negative gas fractions.", "quantifier": "for every accepted state with non-negative gas fractions", "why_tests_cant": "Transcendental inequality over a continuum incl. boundary cases of the logarithm.", "anchors": ["src/growthModels/growthModel_HACA.cc", "src/oxidationModels/oxidationModel_HACA.cc"]}
{"id": "C48", "title": "rates are finite, non-negative, and vanish without reactants", "statement": "For every accepted state with non-negative gas fractions, all nucleation, growth and oxidation rates are finite and non-negative, and they are zero when the consumed gas species (acetylene or benzene; oxygen and hydroxyl) are absent.", "quantifier": "for every mechanism and accepted state", "why_tests_cant": "Continuum of states.", "anchors": ["src/nucleationModels/*.cc", "src/growthModels/*.cc", "src/oxidationModels/*.cc"]}
{"id": "C49", "title": "each mechanism object reports the mechanism it implements", "statement": "A mechanism created for a given enumerator reports that enumerator as its type. FALSE for the Fairweather oxidation mechanism, which reports LL.", "quantifier": "for every enumerator of every mechanism family", "why_tests_cant": "Whole-table statement.", "anchors": ["src/oxidationModels/oxidationModel_FAIR.cc: constructor", "src/*Models/*: constructors"]}
{"id": "C50", "title": "all branches of the AJ_RED tar cracking mechanism are active", "statement": "The AJ_RED tar cracking rate depends on hydrogen through the naphthalene and toluene channels. FALSE of the code: integer division makes both channel factors zero, so the rate is independent of hydrogen.", "quantifier": "for all states", "why_tests_cant": "Universally quantified independence.", "anchors": ["src/tarModels/tarModel_AJ_RED.cc: getCrackingTarRate"]}
{"id": "C51", "title": "quiescent soot-free state stays soot-free", "statement": "With zero soot and no PAH/acetylene/benzene present, MONO, QMOM and SECT report zero soot sources.", "quantifier": "for every mechanism combination and accepted state of that form", "why_tests_cant": "Continuum of gas states.", "anchors": ["src/sootModel_*.cc: setSourceTerms"]}
{"id": "C52", "title": "linear table interpolation is exact at nodes and bounded between them", "statement": "For a strictly increasing table of at least two points, interpolation returns the tabulated value at every node, lies between the neighbouring values inside the table, and never indexes outside the table; a one-point table is undefined behaviour.", "quantifier": "for every table and query point", "why_tests_cant": "Arbitrary tables.", "anchors": ["examples/burner_flame/interp_linear.h: Linear_interp"]}
{"id": "C53", "title": "QMOM inversion recovers discrete distributions", "statement": "If the transported moments are the moments of N distinct positive masses with positive weights, then with a correct eigenvalue routine no downselection happens, every node found is one of the masses, and every weighted sum over the nodes equals the one over the original distribution.", "quantifier": "for every N, all weights and distinct masses", "why_tests_cant": "Arbitrary node counts and real data; needs orthogonal-polynomial reasoning.", "anchors": ["src/sootModel_QMOM.cc: getWtsAbs, wheeler"]}
{"id": "C55", "title": "MOMIC interpolation is exact for lognormal distributions", "statement": "If the transported moments are those of a lognormal distribution, the interpolated moment equals the exact moment of that distribution for every real order, negative orders included.", "quantifier": "for every number of moments >= 3, every lognormal distribution, every real order", "why_tests_cant": "Quantifies over all real orders and distributions.", "anchors": ["src/sootModel_MOMIC.cc: set_diffTable, Mr"]}
{"id": "C56", "title": "exact condition for MOMIC to give finite sources", "statement": "With 3 to 7 moments and an otherwise evaluable state, MOMIC produces finite sources if and only if (with PAH nucleation) all transported moments are positive and some PAH is present, and (with FM or HM coagulation and particles present) all transported moments are positive. In every other case an Inf or NaN arises.", "quantifier": "for every mechanism selection, number of moments 3..7, accepted state", "why_tests_cant": "An if-and-only-if over all states.", "anchors": ["src/sootModel_MOMIC.cc: setSourceTerms, f_grid, g_grid, MOMICCoagulationRates"]}
{"id": "C57", "title": "MOMIC collision terms are the kernel sums of the distribution", "statement": "Given the exact fractional moments of any discrete distribution, the continuum pair term times Kc equals the double sum of the CONTINUUM kernel weighted with m1^k m2^q, and the free-molecular grid values f_l and g_l equal the double (single) sums of the free-molecular kernel with (m1+m2)^(1/2) replaced by (m1+m2)^l.", "quantifier": "for every distribution, every pair of orders, l=0..3", "why_tests_cant": "Arbitrary distributions; the grid formulas have up to 12 products.", "anchors": ["src/sootModel_MOMIC.cc: f_grid, g_grid, MOMICCoagulationRates", "src/coagulationModels/coagulationModel_FM.cc", "src/coagulationModels/coagulationModel_CONTINUUM.cc"]}
{"id": "C58", "title": "MOMIC free-molecular coagulation is exact for monodisperse soot", "statement": "For the moments n*m^k of a monodisperse population the FM coagulation source of every moment r is 1/2 K(m,m) n^2 ((2m)^r - 2 m^r).", "quantifier": "for every n,m>0, number of moments 3..7, accepted state", "why_tests_cant": "All reals; exact equality of an interpolation formula.", "anchors": ["src/sootModel_MOMIC.cc: MOMICCoagulationRates"]}
{"id": "C59", "title": "MOMIC condensation uses the moment order it feeds", "statement": "For monodisperse moments the condensation source of moment k is k*nDimer*mDimer*beta_HM(mDimer,m)*n*m^(k-1). TRUE for k<=1; FALSE for every k>=2, where the continuum part is evaluated with the moments of order 0 because the index shift kk is never advanced.", "quantifier": "for every n, 0<m<1 kg, number of moments 3..7, accepted state", "why_tests_cant": "All reals and moment orders.", "anchors": ["src/sootModel_MOMIC.cc: setSourceTerms (PAH condensation block)"]}
{"id": "C60", "title": "HMOM small-large collision integrals carry the moment order they are used for", "statement": "For a monodisperse large mode of n particles of mass x, the collision integral of order k of one small-mode particle equals kernel(m0,x)*n*x^k. TRUE for the continuum integral; FALSE for the free-molecular integral, which has order k-1 for every k>=1.", "quantifier": "for every state, number of moments, order k>=1, masses and number", "why_tests_cant": "Holds for all masses and orders; the function is unreachable in practice because of C35.", "anchors": ["src/sootModel_HMOM.cc: get_Ik, g_grid_L"]}
{"id": "C61", "title": "MONO with BROWN tar: mass balance and mechanism selection", "statement": "With the BROWN tar model the MONO source terms conserve mass and obey the selected growth and coagulation mechanisms. FALSE: growth removes gas mass without adding soot mass, nucleated mass is taken from both gas and tar, and the coagulation mechanism is ignored. The exact equations and the exact imbalance are stated.", "quantifier": "for every mechanism selection, every accepted state the model can be evaluated on, all M0,M1", "why_tests_cant": "Equality over all reals and all mechanism selections.", "anchors": ["src/sootModel_MONO.cc: setSourceTerms (tar BROWN branch)"]}
{"id": "C62", "title": "MONO with AJ_RED tar: soot mass gained by surface reactions equals gas mass lost", "statement": "With the AJ_RED tar model the soot mass source from growth and oxidation equals minus the gas mass source. FALSE: the soot source multiplies the area-integrated rate by the area again, so soot changes by k*A^2 where the gas changes by -k*A.", "quantifier": "for every mechanism selection, every accepted state the model can be evaluated on with mtar>0", "why_tests_cant": "Equality over all reals and all mechanism selections.", "anchors": ["src/sootModel_MONO.cc: setSourceTerms (tar AJ_RED branch)"]}
{"id": "C63", "title": "Tar yield and size correlations", "statement": "get_mtar_ytar is undefined exactly when yBio has fewer than five entries; otherwise it is a linear mixing rule with constituent values depending on T and P only; the yield is a fraction and the size positive. TRUE at one atmosphere from 600 K to 2500 K; FALSE in general: yield above 2 at 500 K, a pole between 500 K and 600 K, yield above 1 at 1000 K and 100 atm. All constituent values are the rational functions of T and log10(P/atm) given by an expanded table of coefficients (likewise for coal). The coal correlation after get_coal(OC, HC, V) gives a yield in (0,1) and a size in (200,700) at one atmosphere for the usual coal ranks.", "quantifier": "for every state, composition, temperature, pressure", "why_tests_cant": "Range over real temperatures and compositions; poles have measure zero.", "anchors": ["src/state.cc: get_mtar_ytar, get_mtar_ytar_coal"]}
{"id": "C64", "title": "Coagulation kernels are the textbook collision rates", "statement": "For particles above the cutoff on an accepted state, FM is the free-molecular rate of two spheres, CONTINUUM the Smoluchowski rate with linear slip, HM the harmonic mean of FM and Smoluchowski with full slip, FUCHS the Fuchs interpolation of the same two rates; HM < FUCHS < FM strictly; the Fuchs distance lies in [l/sqrt2, sqrt2 l]; FM is homogeneous of degree 1/6; CONTINUUM is at least 8kT/3mu.", "quantifier": "for every accepted state, multiplier c>0, masses and diameters of spheres", "why_tests_cant": "All reals; strict inequalities.", "anchors": ["src/coagulationModels/*.cc"]}
{"id": "C65", "title": "Fortran bindings describe the C interface", "statement": "Every bind(C) procedure of soot_module.f90 has the parameter and result types of the C function it names, every wrapper passes its own arguments in order and no undefined ones, and every wrapper is exported. FALSE: 20 of 68 bindings disagree in type (tar_delete passes the pointer by reference, size_t is bound as C_int, getters are bound as subroutines), seven wrappers pass an intent(out) scalar, tarModel_AJ_RED is not exported. The exact extent is proved.", "quantifier": "for every binding and wrapper (the complete tables)", "why_tests_cant": "Type mismatches across the language boundary are not diagnosed by either compiler and may work by accident.", "anchors": ["src/fortran_wraps/soot_module.f90", "src/fortran_wraps/c_interface.cc"]}
{"id": "C66", "title": "Reaction orders and temperature dependence of the rates", "statement": "At equal temperature: nucleation is first order in the consumed gas species (BROWN first, AJ_RED second order in tar), growth first order in C2H2 (MB: 2/3) and independent of the soot (LL: inversely proportional to the square root of the surface area), oxidation jointly first order in the oxidisers involved; nothing else in the state matters. At fixed concentrations every rate rises with temperature. FALSE for FAIR oxidation, whose Arrhenius exponent is exp(+39E3/(1.987 T)): its rate strictly falls with temperature below 39000 K. (HACA and NSC_NEOH are not power laws and are excluded.) The mechanisms without documentation follow modified Arrhenius laws with a fixed table of constants.", "quantifier": "for every pair of accepted states", "why_tests_cant": "A scaling law relates all pairs of states; a wrong sign or a stray dependence shows only in a comparison over ranges nobody tabulates.", "anchors": ["src/nucleationModels/nucleationModel_LL.cc", "src/growthModels/growthModel_LL.cc", "src/oxidationModels/oxidationModel_FAIR.cc"]}
{"id": "C67", "title": "Rate expressions agree with the documented ones", "statement": "Every chemical rate equals the formula given for it in docs/models/1_chemistry.md. Proved for LL and PAH nucleation (including the dimer balance), LL and NSC_NEOH oxidation, the HACA rate constants, f(A_s), and the OH collision factor (1290 within 0.2 %). FALSE for: LIN nucleation (63/64 of the documented rate), LINA1 (activation temperature 21100 vs 21000 K), two sticking coefficients, LL growth (600 exp(-12100/T) vs 6000 exp(-21100/T)), LIN growth (proportional to surface area instead of particle number, also against the comment in growthModel_LIN.cc), HACA (twice the radical sites, undocumented steric factor), OPTG/OPTJ (T^-1/2 vs T^1/2). The exact quotient is proved in every case.", "quantifier": "for every accepted state", "why_tests_cant": "The regression values of the tests were produced by the code; a formula comparison needs all states.", "anchors": ["docs/models/1_chemistry.md", "src/nucleationModels/nucleationModel_LIN.cc", "src/nucleationModels/nucleationModel_LINA1.cc", "src/growthModels/growthModel_LL.cc", "src/growthModels/growthModel_LIN.cc", "src/oxidationModels/oxidationModel_OPTG.cc", "src/oxidationModels/oxidationModel_OPTJ.cc"]}
{"id": "C54", "title": "LOGN sources are the moment equations integrated over a lognormal distribution", "statement": "If the three soot variables are the moments of orders 0,1,2 of a lognormal number density, the LOGN sources for nucleation, growth, oxidation and coagulation (FM, CONTINUUM) equal the right-hand sides of the moment equations of docs/models/1_chemistry.md: J m_n^k + k \u222b k_s S(m) m^(k-1) n dm + 1/2 \u222c \u03b2 ((m+m')^k - m^k - m'^k) n n dm dm', as Lebesgue integrals; exactly for the continuum kernel, and for FM with the documented replacement of (1/m+1/m')^(1/2) by b(m^(-1/2)+m'^(-1/2)). The dimer collision rates are likewise the integrals. The replacement changes the particle loss by a factor between 0.8536 and 1.2072 (attained by equal particles, so more than the documented 15 %).", "quantifier": "for every lognormal distribution (N > 0, any mean and variance) and every accepted state", "why_tests_cant": "Relates the algebra of fractional moments to integrals over a continuum of distributions.", "anchors": ["src/sootModel_LOGN.cc", "docs/models/3_logn.md", "docs/models/1_chemistry.md"]}
{"id": "C68", "title": "Length discipline implies memory safety of whole programs", "statement": "For every finite sequence of calls (creating states and models, setState, setBio, setCoal, get_mtar_ytar, get_mtar_ytar_coal, setSourceTerms on any model/state pair), if the caller keeps vector lengths consistent with the declared counts (gas vectors only have to reach the species the chosen mechanisms read: 8 entries, 9 for LINA1 nucleation, 11 for AJ_RED tar; and avoids HMOM, MOMIC with 8 moments, QMOM with more than 35 moments plus coagulation, tar mechanisms without a tar slot, degenerate bin growth factors), then no call indexes outside a vector, converts an out-of-range double to an index, or lets an exception escape other than from setState and the constructors. Values play no role: rejected and half-written states are included. After the program every vector has its declared length.", "quantifier": "every program length, number of objects, interleaving, mechanism choice, every real argument value, every result of the eigenvalue routine", "why_tests_cant": "Index safety is about all interleavings and all values, including states left half-written by a throwing setState and the process-wide static of the sectional model; a test run exercises a few orders and a few values.", "anchors": ["src/state.cc:36-140", "src/sootModel_MONO.cc:75-282", "src/sootModel_LOGN.cc", "src/sootModel_QMOM.cc:95-202", "src/sootModel_MOMIC.cc:121-242", "src/sootModel_SECT.cc:162-319"]}
{"id": "C69", "title": "HMOM: equations of the number of large particles", "statement": "In every completed HMOM evaluation the source of the number of large particles (M0 minus small-particle number N0) is exactly: condensation turnover + surface-growth turnover of the small mode + half the small-small collision rate + the large-large coagulation term; nucleation and small-large collisions leave it unchanged. Oxidation must never increase the number of large particles. (False of the code for oxidation: oxidised small particles are counted as new large ones.)", "quantifier": "every model, state, mechanism choice, number of moments, and every value of the out-of-range read", "why_tests_cant": "The sources returned by the code are M0 and N0 only; a test comparing them with recorded values cannot tell which mechanism moves particles between the modes, nor that it does so for all rates.", "anchors": ["src/sootModel_HMOM.cc:156-310"]}
{"id": "C70", "title": "The sectional model writes the documented bin equations", "statement": "For bins m_1 F^(k), F > 1, and a process whose cached search factor belongs to this model, every SECT evaluation writes in each bin exactly the equation of docs/models/6_sect.md: nucleated mass over m_1 in the first bin, upwind growth and condensation fluxes, downwind oxidation fluxes, and one half of the sum over all ordered pairs of beta n_i n_j times the share of the coagulate that falls in the bin (linear splitting; by mass in the last bin) minus n_k sum_j beta(m_k,m_j) n_j; with the rates the chosen mechanisms return.", "quantifier": "every number of bins, growth factor, mechanism choice and accepted state", "why_tests_cant": "The code visits unordered pairs with special cases for equal bins, the last bin and an analytic search by logarithms; equality with the double sum for every bin count and every number vector is an induction over the loop.", "anchors": ["src/sootModel_SECT.cc:162-295", "docs/models/6_sect.md"]}
{"id": "C71", "title": "Sectional sources never take more out of a bin than it holds", "statement": "The source of each bin is at least -N_k Lambda_k with an explicit finite Lambda_k >= 0 (rates of growth, condensation, oxidation and collision of one particle of the bin). So an empty bin has a non-negative source, and every explicit step dt with dt Lambda_k <= 1 leaves the bin non-negative.", "quantifier": "every number of bins, growth factor, mechanism choice, accepted state, bin and time step", "why_tests_cant": "Positivity near empty bins is a statement about all number vectors; runs show it only along the trajectories tried.", "anchors": ["src/sootModel_SECT.cc:162-295"]}
{"id": "C72", "title": "Source terms are a function of the last accepted inputs", "statement": "For LOGN, QMOM, MOMIC and SECT models with any mechanisms (and MONO with positive number density): take any program of constructor, setState, tar and setSourceTerms calls over any number of objects, including rejected inputs and half-written states. After state i accepts inputs a and model j is evaluated on it, the source terms of j equal those of a program that only constructs these two objects, sets a and evaluates once; if one fails, so does the other, in the same way. Exceptions stated as hypotheses: AJ_RED mechanisms read the tar mass, which setState does not write; sectional models of one process must share one bin growth factor.", "quantifier": "all program lengths, object counts, interleavings, mechanism choices, input values, results of the eigenvalue routine", "why_tests_cant": "Leakage from an earlier evaluation (PAH nucleation rewriting cMin and the reaction ratios, node arrays, source vectors, the static factor) shows only for particular histories; a test suite cannot enumerate histories.", "anchors": ["src/state.cc:36-120", "src/nucleationModels/nucleationModel_PAH.cc:47-124", "src/sootModel_LOGN.cc:153-325", "src/sootModel_QMOM.cc:95-202", "src/sootModel_MOMIC.cc:121-242", "src/sootModel_SECT.cc:162-319", "src/sootModel_MONO.cc:74-283"]}
{"id": "C73", "title": "Only the listed gas species influence a source term", "statement": "For every PSD class and mechanism combination, the source terms, the model object after the call and any failure depend on the gas vector only through the entries of the species in the mechanism tables (acetylene, benzene for LINA1, the six HACA species, O2/OH for oxidation, H2/CO2/H2O or O2 for tar). All other entries, and the length of the vector beyond them, are irrelevant; O, CO and C are never read. Two accepted setState calls that differ elsewhere give equal results.", "quantifier": "all classes, mechanism choices, states, gas vectors of any length, results of the eigenvalue routine", "why_tests_cant": "Independence from an input is a statement about all pairs of inputs; a stray index into the gas vector shows only when the wrong species happens to differ.", "anchors": ["src/state.h:59-63", "src/nucleationModels", "src/growthModels", "src/oxidationModels", "src/tarModels"]}
{"id": "C74", "title": "The burner program runs to completion", "statement": "The program examples/burner_flame/burner_flame.cc, for MONO, LOGN, QMOM or SECT with a documented number of soot variables, any kernel the class accepts and mechanisms that need neither benzene nor tar (with HACA the profile stays below 33.167/0.0154 = 2153.7 K, where the steric factor can be 0/0), finishes for every physical set of profiles and every number of steps: every table constructor accepts, no call throws, nothing is undefined or non-finite although the gas vector has only eight entries, and the loop ends at the last position of the profile with one value per soot variable. Limits: QMOM with coagulation up to 35 moments, LOGN without PAH nucleation, fewer than 2^63 bins.", "quantifier": "all strictly increasing profiles with at least two rows, positive v, T, rho, mu and mass fractions in [0,1], all step counts, mechanism choices, results of the eigenvalue routine", "why_tests_cant": "A run covers one profile file, one configuration and one step count; each of the evaluations depends on state left by all previous ones.", "anchors": ["examples/burner_flame/burner_flame.cc:14-150", "examples/burner_flame/interp_linear.h"]}
{"id": "C75", "title": "The burner program integrates with the midpoint method", "statement": "The comment at burner_flame.cc:103 says \"second order midpoint method\": with f(z, M) the source per gas mass and velocity, every step is M + dz*f(z+dz/2, M + dz/2*f(z, M)). The program evaluates f with reused objects; this equals an evaluation with new ones.", "quantifier": "all profiles, step counts, configurations of C74 except MONO, results of the eigenvalue routine", "why_tests_cant": "A wrong slope in the second stage lowers the order but still converges to something plausible; no finite comparison pins down the scheme for all inputs.", "anchors": ["examples/burner_flame/burner_flame.cc:103-144"]}
{"id": "C76", "title": "The HMOM and tar burner programs run to completion", "statement": "The programs examples/burner_flame/burner_flame_HMOM.cc and burner_flame_tar.cc finish their integration, as burner_flame.cc does (C74).", "quantifier": "all profiles, positive step counts, mechanism choices, results of the eigenvalue routine; for the exact outcome all physical profiles and every documented HMOM configuration without PAH nucleation that needs neither benzene nor tar (with HACA below 2153.7 K)", "why_tests_cant": "Reading past the end of a vector or an uninitialised variable usually returns some number, so a run can look successful; only an argument over all inputs shows that no run is well defined.", "anchors": ["examples/burner_flame/burner_flame_HMOM.cc", "examples/burner_flame/burner_flame_tar.cc:131-163", "src/tarModels/tarModel_AJ_RED.cc:92-100"]}
{"id": "C77", "title": "setState rejects numbers that are not finite", "statement": "A call of setState with an infinite or NaN temperature, pressure, density, molecular weight, viscosity, mass fraction, soot variable or tar variable ends with an exception, as an out-of-range number does (C01). With doubles instead of real numbers: which calls are accepted is decided by comparisons, and finite numbers are treated as in C01-C06.", "quantifier": "all objects, all argument vectors of sufficient length, all doubles including infinities and NaN, any rounding and any library functions", "why_tests_cant": "Tests of the range checks use numbers out of range; the comparisons are written so that NaN falls through every one of them, which no out-of-range number shows.", "anchors": ["src/state.cc:31-104", "src/state.h"]}
{"id": "C78", "title": "Coagulation kernels are bitwise symmetric in floating point", "statement": "coagulation rate(m1,m2) and rate(m2,m1) are the same double for every mechanism, including for infinite and NaN operands and whatever the rounding mode, pow, sqrt and exp do; a particle at or below the cutoff gives zero; with exact arithmetic the double version is the real kernel of C12-C15 and C64.", "quantifier": "all states, multipliers, masses (any doubles), all mechanisms, all roundings and library functions; no contraction to fused multiply-add", "why_tests_cant": "Symmetry up to rounding holds on any sample; that no ordering of the operations breaks it in the last bit, for every rounding, cannot be sampled.", "anchors": ["src/coagulationModels/coagulationModel_FM.cc", "src/coagulationModels/coagulationModel_CONTINUUM.cc", "src/coagulationModels/coagulationModel_HM.cc", "src/coagulationModels/coagulationModel_FUCHS.cc"]}
{"id": "C79", "title": "The particle size models agree on equal particles", "statement": "For n particles that all have the mass m, MONO, LOGN, QMOM, MOMIC and SECT with the same mechanisms give the same soot mass source, the same gas sources and the same particle number source.", "quantifier": "all accepted gas states, n > 0, m above the kernel cutoff, all growth and oxidation mechanisms, all nucleation mechanisms but PAH, all kernels the model supports, any number of moments or bins (SECT: all particles in one interior bin)", "why_tests_cant": "The repository tests each model against stored numbers of that model; no test compares two models, and the differences depend on the kernel and on exact degeneracy of the moment set.", "anchors": ["src/sootModel_MONO.cc", "src/sootModel_LOGN.cc", "src/sootModel_QMOM.cc", "src/sootModel_MOMIC.cc", "src/sootModel_SECT.cc"]}
{"id": "C80", "title": "The MOMIC burner program runs to completion", "statement": "The program examples/burner_flame/burner_flame_MOMIC.cc, for 3 to 7 moments, any kernel the class accepts and mechanisms that need neither benzene, tar nor PAH (with HACA the profile stays below 2153.7 K), finishes for every physical set of profiles and every number of steps: nothing throws, is undefined or non-finite, and the loop ends at the last position of the profile with one value per moment.", "quantifier": "all strictly increasing profiles with at least two rows, positive v, T, rho, mu and mass fractions in [0,1], all step counts, moment counts, kernels and mechanism choices", "why_tests_cant": "The shipped profile is one flame; whether a moment is driven below zero and cut to zero depends on the balance of nucleation and oxidation in each step, and the failing flames have little acetylene.", "anchors": ["examples/burner_flame/burner_flame_MOMIC.cc:60-139", "src/sootModel_MOMIC.cc"]}
{"id": "C81", "title": "QMOM is exact for particles of finitely many sizes", "statement": "For a population of N distinct positive particle masses with positive numbers, QMOM with 2N moments and a correct eigenvalue routine gives every moment its exact rate of change: new particles of the nucleation mass, masses that grow and oxidise in proportion to the particle surface and grow by collision with dimers, and pairs that merge at the configured kernel; the gas sources belong to the exact surface of the population.", "quantifier": "all N (up to 17 with coagulation, the binomial table), all masses and numbers, all accepted gas states, all nucleation, growth, oxidation and coagulation mechanisms of QMOM, every correct eigenvalue routine", "why_tests_cant": "The statement compares the code with the population balance for arbitrary distributions and every moment order; the stored numbers of the test suite come from the same code.", "anchors": ["src/sootModel_QMOM.cc:92-185", "src/sootModel_QMOM.cc:200-330", "docs/models/1_chemistry.md", "docs/models/4_qmom.md"]}
{"id": "C82", "title": "Tar molecules collide at the textbook rate and carry their mass to the soot", "statement": "With the AJ_RED mechanisms, nucleation and deposition rates are free-molecular collision rates of tar molecules of mass mtar/Na and one and the same molecular diameter, and the soot mass source equals the mass of the tar molecules removed. TRUE for the form of both rates (nucleation with an extra factor sqrt 2). FALSE for the diameter: deposition takes the square root of the bond length (sqrt(1.395E-10*3) instead of 1.395E-10*sqrt(3)), which makes the molecule more than 84000 times larger than in nucleation. FALSE for the mass: soot gains Na times the mass of the molecules removed, because the molar mass is used as the mass of a molecule.", "quantifier": "for every accepted state, tar amount, tar molar mass and particle size", "why_tests_cant": "No test compares the two mechanisms' molecular diameters or weighs tar against soot; the relations hold for all states at once.", "anchors": ["src/nucleationModels/nucleationModel_AJ_RED.cc:32-46", "src/tarModels/tarModel_AJ_RED.cc:70-90", "src/sootModel_MONO.cc:152-161"]}
{"id": "C83", "title": "No evaluation drains an empty soot variable", "statement": "For every model and every accepted state, a soot variable (number, moment or section) that is zero has a source that is not negative, so the transport equations cannot drive it below zero. TRUE of LOGN, of SECT, and of MOMIC whenever the evaluation stays finite. FALSE of MONO: when the soot is set to zero the weight of the previous evaluation still coagulates and the number source is negative; true on a fresh state or with particles. FALSE of QMOM: for moments that no distribution has (1, 1, 3/4, 0) the inversion finds two positive nodes that do not reproduce the last moment, and oxidation drains it; true of the number, of the mass, and of every moment the nodes reproduce.", "quantifier": "for every accepted state, all mechanism combinations and every (correct, where stated) eigenvalue routine", "why_tests_cant": "The states concerned lie on the boundary of the moment space, where every combination of vanishing variables, mechanisms and histories would have to be tried; the stored tests use one interior state.", "anchors": ["src/sootModel_MONO.cc:62-140", "src/sootModel_LOGN.cc", "src/sootModel_QMOM.cc:92-202", "src/sootModel_QMOM.cc:218-354", "src/sootModel_MOMIC.cc", "src/sootModel_SECT.cc"]}
{"id": "C84", "title": "Sources scale with the amount of soot as the physics demands", "statement": "For a fixed gas and fixed particle sizes, multiplying all soot variables by c > 0 leaves the nucleation part of every soot source unchanged, multiplies the growth and oxidation parts by c (the growth part by the square root of c for LL growth, whose rate falls with the root of the area) and the coagulation part by c squared. Coagulation never contributes to the mass, growth and oxidation never to the number of a moment model, and the gas sources are a constant plus a term in c (and the root of c for LL growth). Each part vanishes when its mechanism is off.", "quantifier": "all c > 0 at once, all accepted states, MONO (on fresh quadrature), LOGN, QMOM, MOMIC (where its evaluation is finite) and SECT, all growth, oxidation and coagulation mechanisms and all nucleation mechanisms except PAH (whose rate depends on the soot); for QMOM any eigenvalue routine that looks at the matrix alone", "why_tests_cant": "A test compares one state with stored numbers; the law relates the outputs on a continuum of states, through logarithms, fractional powers and a moment inversion.", "anchors": ["src/sootModel_MONO.cc:62-140", "src/sootModel_LOGN.cc", "src/sootModel_QMOM.cc:92-354", "src/sootModel_MOMIC.cc", "src/sootModel_SECT.cc", "src/growthModels/growthModel_LL.cc", "src/growthModels/growthModel_HACA.cc"]}
{"id": "C85", "title": "The small example programs run and print what they say", "statement": "The small example programs (simple_example.cc, simple_example_HMOM.cc and the Fortran simple_example_fort.f90) run to the end for every input of their shape, the mass sources they print add up to zero, the species written next to the mass fractions are the species the library reads, everything allocated is freed once, and the Fortran program prints the numbers of the C++ program.", "quantifier": "all temperatures, pressures, densities, viscosities, mass fractions and soot variables of the shape used in the files; all nucleation mechanisms except PAH and the two tar ones, all growth and oxidation mechanisms except HACA, all coagulation mechanisms; for the Fortran program any biomass composition and any tar variables", "why_tests_cant": "The examples print numbers that nobody compares with anything, for one input each; reading past a vector or a wrong label shows only as slightly wrong numbers, and a leak not at all.", "anchors": ["examples/simple_example.cc", "examples/simple_example_HMOM.cc", "examples/fortran_examples/simple_example_fort.f90", "src/fortran_wraps/c_interface.cc", "src/state.h:51-55", "src/sootModel_MONO.h"]}
{"id": "C86", "title": "The burner programs read the profile file as its header says, refuse incomplete files, and finish on the shipped one", "statement": "The burner programs put every column of burner_profiles.inp into the profile its header names, refuse a file with missing or unreadable rows, and with the file shipped in the repository every one of them runs to the last position in the file. The Fortran program reads the same profiles.", "quantifier": "all files as sequences of words (numbers and non-numbers) for the reading; all configurations of C74, every number of steps and every eigenvalue routine for the runs on the shipped file", "why_tests_cant": "The examples are run, if at all, with the shipped file and nobody compares the profiles with the header; a file that is one row short still produces plausible output.", "anchors": ["examples/burner_flame/burner_flame.cc:30-64", "examples/burner_flame/burner_profiles.inp", "examples/burner_flame/burner_flame_HMOM.cc", "examples/burner_flame/burner_flame_tar.cc", "examples/burner_flame/burner_flame_MOMIC.cc", "examples/fortran_examples/burner_flame/burner_flame.f90", "examples/burner_flame/interp_linear.h"]}
{"id": "C87", "title": "The coagulation kernels have the regimes their names and the documentation claim", "statement": "On a fixed gas, as two particles grow in proportion, CONTINUUM, HM and FUCHS tend to one and the same limit, the Smoluchowski rate 2 kB T/(3 mu) (1/d1+1/d2)(d1+d2), while FM grows without bound. As the gas is rarefied at constant temperature, HM and FUCHS tend to the free-molecular rate while CONTINUUM grows without bound. With one particle fixed and the other growing, FM grows like the square of the diameter and the others like the diameter; with the other shrinking every kernel becomes 0, since it falls below the mass cutoff.", "quantifier": "all accepted states, all positive multipliers, all diameters above the cutoff, every family of accepted states with a common temperature, bounded viscosity and unbounded mean free path", "why_tests_cant": "A limit speaks about all sizes beyond every bound; a wrong exponent or slip factor in one of the four formulas can stay within the tolerance of any comparison at finitely many Knudsen numbers.", "anchors": ["docs/models/coagulation.ipynb", "src/coagulationModels/coagulationModel_FM.cc:14-28", "src/coagulationModels/coagulationModel_CONTINUUM.cc:18-39", "src/coagulationModels/coagulationModel_HM.cc:20-50", "src/coagulationModels/coagulationModel_FUCHS.cc:20-59", "src/state.cc"]}
{"id": "C88", "title": "Rounding in the bin search of the sectional model is harmless", "statement": "The bin receiving a coagulated particle is the integer part of a computed logarithm. Whatever the rounding makes of the logarithms (as long as they still convert to an index), the coagulation terms keep the soot mass exactly and never raise the particle number. If no logarithm moves by more than delta < 1, no bin's term moves by more than 2(F^delta-1)F/(F-1) times all collisions per second. With growth factor 2 and n bins, roundings below 2^-n change nothing at all, although like pairs lie exactly on a bin edge; the bound is sharp up to a constant: a rounding of 1.5*2^-(n-2) can drain a bin that takes no part in the collision.", "quantifier": "all ready sectional models and states, all growth factors above 1, all numbers of bins, every rounding (one arbitrary function per pair of bins)", "why_tests_cant": "A test sees the rounding of one processor and one library; the claim covers every rounding of every pair, including the ones exactly on a bin edge.", "anchors": ["src/sootModel_SECT.cc:253-288"]}
{"id": "C89", "title": "Coagulation agrees with the documentation", "statement": "The coagulation coefficients of the four mechanisms are those of docs/models/1_chemistry.md, and with coagulation alone the three moment sources of the lognormal model are the expressions of docs/models/3_logn.md.", "quantifier": "all accepted states, all particle masses above the cutoff, all positive multipliers, all positive moments", "why_tests_cant": "A misprinted exponent, sign or digit in a formula only shows when the two expressions are compared as functions; agreement at sample points within a tolerance hides a 1% constant.", "anchors": ["docs/models/1_chemistry.md:176-277", "docs/models/3_logn.md:28-48", "src/coagulationModels/coagulationModel.h:34-45", "src/coagulationModels/coagulationModel_FM.cc:14-28", "src/coagulationModels/coagulationModel_CONTINUUM.cc:18-39", "src/coagulationModels/coagulationModel_HM.cc:20-50", "src/coagulationModels/coagulationModel_FUCHS.cc:20-59", "src/sootModel_LOGN.cc"]}
{"id": "C90", "title": "MOMIC moment downselection ends with the longest usable run of moments", "statement": "For every vector of at least three moments with positive M0, downselectIfNeeded ends, and leaves in Nmom and in the vector exactly the longest initial run of positive moments after replacing non-positive M1, M2 by those of a lognormal distribution (median mass 1e-21 kg, sigma 3); at least three remain, and every fractional moment of any real order computed from them is positive. With M0 <= 0 it changes nothing, not even Nmom. With fewer than three moments and positive M0 it reads past the end. Replacing one moment beside a given one can leave three moments that belong to no particle population.", "quantifier": "all moment vectors of any length, all earlier values of Nmom, all real orders", "why_tests_cant": "The inner loop shortens its own range while it runs and the outer loop repeats it; whether every pattern of bad moments ends at the right length is a statement about all patterns of all lengths. The call is commented out, so no test reaches it.", "anchors": ["src/sootModel_MOMIC.cc:252-285", "src/sootModel_MOMIC.cc:131", "src/sootModel_MOMIC.cc:624-670"]}
{"id": "C91", "title": "Mass balance survives rounding", "statement": "When every operation is rounded, the soot mass source and the gas sources put together by the moment models (MONO, LOGN, QMOM, MOMIC, HMOM) from the mass rates n, g, x of nucleation, growth and oxidation are finite, and their sum differs from zero by at most 70 u (|n|+|g|+|x|) + 440 eta, where u and eta are the relative and absolute rounding errors; for IEEE binary64 u = 2^-53 and eta = 2^-1075. With condensation the soot mass source is the sum of the four rates within 4.1 u of the sum of their sizes.", "quantifier": "all nucleation mechanisms but PAH, all growth and oxidation mechanisms, all mass rates up to a thousandth of the largest double, every rounding within the error bounds", "why_tests_cant": "A test sees the rounding errors of a few inputs under one rounding mode and needs a tolerance; this derives the tolerance and holds for all inputs, including cancellation and underflow.", "anchors": ["src/nucleationModels/nucleationModel.cc:16-26", "src/growthModels/growthModel.cc:16-27", "src/oxidationModels/oxidationModel.cc:16-26", "src/sootModel_MONO.cc:262-275", "src/sootModel_LOGN.cc:302-318", "src/sootModel_QMOM.cc:183-196", "src/sootModel_MOMIC.cc:222-235", "src/sootModel_HMOM.cc:291-305", "src/sootDefs.h:79-92"]}
{"id": "C92", "title": "Sources of equal particles point into the realisable moments", "statement": "For the moments n, n m, n m^2, ... of n equal particles of mass m, where M0 M2 - M1^2 is zero and may not become negative, its rate of change under the sources of LOGN, MOMIC and QMOM is n J (mN-m)^2 + c, with J the nucleation rate, mN the mass of a nucleus and c >= 0 the share of coagulation (n m^2 times the particle loss, except for LOGN with the harmonic mean, where it is still positive) and, in MOMIC, of condensation; growth, oxidation and condensation otherwise contribute nothing. LOGN therefore stays realisable over every short enough explicit step. With growth or oxidation alone (MOMIC without nucleation and coagulation) every explicit step leaves the realisable moments, however short.", "quantifier": "all mechanisms, all particle numbers and masses (below 1 kg for MOMIC, above the cutoff for QMOM), all ready states, any number of moments, all step sizes", "why_tests_cant": "The boundary of the realisable moments has no interior; a test in floating point lands beside it and cannot tell a zero rate from a small negative one.", "anchors": ["src/sootModel_LOGN.cc:153-318", "src/sootModel_MOMIC.cc:121-235", "src/sootModel_QMOM.cc:95-196"]}
{"id": "C93", "title": "MOMIC interpolates logarithms by the polynomial through them", "statement": "For any number N >= 3 of positive moments and every real order r, the fractional moment MOMIC computes is exp(p(r)), with p the one polynomial of degree below N (below 3 for negative r) through the points (k, log M_k), as docs/models/5_momic.md says. The collision integrals with the square root are exp(q(1/2)), with q the one polynomial through the logarithms of those with the powers l = 0, 1, 2, 3 (fewer for high orders) in place of the square root, and these are the sums over all pairs of particles whenever the fractional moments are those of a particle population.", "quantifier": "all numbers of moments, all positive moments, all real orders, all pairs of orders, all discrete populations", "why_tests_cant": "Exactness at the integer orders (C32) and for lognormal moments (C55) leaves every term beyond the quadratic one free at fractional orders; agreement with the unique polynomial for all data is an identity over all moment vectors.", "anchors": ["src/sootModel_MOMIC.cc:624-670", "src/sootModel_MOMIC.cc:308-392", "docs/models/5_momic.md:7-27"]}
{"id": "C94", "title": "MOMIC writes the documented moment equations", "statement": "For every MOMIC model and every accepted state with positive moments the source of every moment r is the sum of nucleation J m_n^r, surface reactions (k_g - k_o) pi (6/(pi rho_s))^(2/3) r M_(r-1/3), condensation, and coagulation: in the free-molecular regime half the kernel constant times the binomial sum over k of the grid function f_(1/2)^(k,r-k), which is interpolated in the logarithm from the double integrals with the powers l = 0..3, each written out with interpolated fractional moments; in the continuum and the harmonic-mean regimes the same holds for r <= 2 (C34 is about higher orders). The condensation source is r m_D n_D times the harmonic mean of the two dimer collision integrals, the continuum one always that of order one (C59).", "quantifier": "all MOMIC models (3 to 7 moments, every mechanism), all accepted states with positive moments, all orders", "why_tests_cant": "A complete input/output law of the model over all states and orders; the interpolation tables hold some sixty coefficients, and a wrong one shows up only for particular orders and distributions.", "anchors": ["src/sootModel_MOMIC.cc", "docs/models/1_chemistry.md", "docs/models/5_momic.md"]}
{"id": "C95", "title": "Every process moves the sectional distribution the right way", "statement": "For the sectional model and every weight phi of the particle mass: coagulation does not raise the total sum phi(m_k) N_k when phi is concave with phi(0) >= 0 (number, surface, every moment of order between 0 and 1) and does not lower it when phi is convex with phi(0) <= 0 (every moment of order one or higher, so that the mass is unchanged); nucleation, growth and condensation do not lower, and oxidation does not raise, the total of any increasing weight with phi(0) >= 0. In particular coagulation and oxidation never create soot surface.", "quantifier": "all sectional models with growth factor above one, all accepted states, all weights (a function space), all mechanisms", "why_tests_cant": "The claim ranges over all weights, all bin contents, all kernels and any number of bins, including the pairs that overshoot the last bin.", "anchors": ["src/sootModel_SECT.cc:162-295", "docs/models/6_sect.md"]}
{"id": "C96", "title": "Mass in the sectional model survives rounding", "statement": "When every operation is rounded, the transport terms of growth, condensation and oxidation in the sectional model are finite and carry the mass rates c_k up to 4.2 (g+1)/(g-1) u sum|c_k| plus an underflow term, where g > 1 is the smallest ratio of neighbouring bins (12.6 u for the default factor 2). Whatever finite terms the processes put into n bins, the mass gained by the bins (as stored in sootSources) and the gas sources add up to the mass of condensation and coagulation, up to (1.1 n + 74) u of the mass moved by nucleation, growth and oxidation, 4.1 u of the mass moved by condensation and coagulation, and an underflow term. The coagulation loop run in doubles over bins with ratios between g and G gives n finite terms whose mass differs from the exact terms by at most (5 n (n+1) + 14 (1+G) g/(g-1)) u of the mass that collides (summed over all bins in absolute value) plus an underflow term, so that coagulation creates or destroys no more mass than that, provided the computed target bin encloses the pair up to a small part of the bin distance; a bin search with logarithms off by at most delta does so if F^delta <= 1 + (F-1)/(20 F^2). With exact arithmetic the double version is the real model of C37 and C38. IEEE binary64 satisfies the assumptions with u = 2^-53.", "quantifier": "all numbers of bins with (n+1)u <= 1/20 (coagulation: 5 n (n+1) u <= 1/10 less the constant), all increasing bins with ratio at least g > 1, all rates and collision terms that do not overflow, all mechanisms (nucleation other than PAH for the gas balance), every rounding within the error bounds", "why_tests_cant": "A test needs a tolerance for mass balance and sees one rounding mode; the theorem derives the tolerance, shows how it grows with the number of bins and with bins that are close together, and covers cancellation and underflow.", "anchors": ["src/sootModel_SECT.cc:193-204", "src/sootModel_SECT.cc:214-229", "src/sootModel_SECT.cc:237-247", "src/sootModel_SECT.cc:253-288", "src/sootModel_SECT.cc:292-316"]}
{"id": "C97", "title": "Integrating the source terms in time keeps mass and elements", "statement": "A client holds the mass of every gas species and the soot variables of a cell, and repeatedly calls setState and setSourceTerms and adds a multiple dt of the returned gas and soot sources to the cell (forward Euler, the stages of explicit Runge-Kutta methods, operator splitting). With a model from the enum constructors without PAH nucleation and without tar, whatever arguments and multiples are used, if all calls complete the cell ends with exactly the mass and the amounts of carbon, hydrogen and oxygen it started with. For sectional models driven by forward Euler with each step at most the reciprocal of the fastest documented bin loss frequency, all calls complete and no bin ever becomes negative, in any sequence of physical surroundings; such positive steps always exist.", "quantifier": "all six distribution classes, all mechanisms except PAH nucleation, all bin factors > 1 and smallest sizes > 0, all state objects, all contents of the static, all sequences of evaluations of any length with any arguments and weights; sectional positivity: all nucleation mechanisms except AJ_RED and BROWN, all sequences of physical surroundings of any length", "why_tests_cant": "A run is a sequence of unbounded length of real-valued inputs; a test integrates one flame with one time step and sees the balance only up to rounding. The claim holds for every integration the client can make because every single evaluation balances exactly and leaves the objects in a state in which the next one balances again.", "anchors": ["src/state.cc:36-127", "src/sootModel_MONO.cc: setSourceTerms", "src/sootModel_LOGN.cc: setSourceTerms", "src/sootModel_QMOM.cc: setSourceTerms", "src/sootModel_MOMIC.cc: setSourceTerms", "src/sootModel_SECT.cc: setSourceTerms", "examples/simple_example.cc:37-41"]}
{"id": "C98", "title": "Clients with their own objects do not disturb each other", "statement": "Split the state and model objects of a process between two clients whose calls (setState, setBio, setCoal, the tar correlations, setSourceTerms) each name objects of one client only, in any interleaving. If all sectional models of the process have the same bin factor F > 1, then (a) whenever the interleaved program completes, each client's program alone completes and leaves that client's objects exactly as in the interleaved run; (b) whenever both programs complete on their own, every interleaving completes and leaves the objects of each client as its own program does, so all interleavings agree. The condition on F cannot be dropped: with factors 2 and 4 a call of the second client changes the first client's sources, through the function-local static of sootModel_SECT.cc.", "quantifier": "all partitions of the objects, all programs of any length, all interleavings, all object contents (also torn or unphysical states), all classes and mechanisms", "why_tests_cant": "The number of interleavings grows exponentially with the length of the programs and a shared variable shows only in those orders that reach it first; that no other state is shared is a statement about all code paths.", "anchors": ["src/sootModel_SECT.cc:253-288", "src/state.cc: setState", "src/sootModel.h:50"]}
{"id": "C99", "title": "The coagulation kernels are numerically accurate", "statement": "In floating-point arithmetic in which every operation and library function has relative error at most \u03b5 \u2264 1e-8, the free-molecular, continuum and harmonic-mean kernels that the program computes differ from the exact kernels by at most 191\u03b5, 290\u03b5 and 985\u03b5 of their size. In binary64 that is below 1e-12. The Fuchs kernel, which subtracts nearly equal cubes, differs by at most 2800\u00b7r\u00b7\u03b5 when the diameter and the stopping length of each particle are within a factor r of each other and 4r\u00b2\u03b5 \u2264 1e-9. Below the mass cutoff the computed kernel is zero, like the exact one.", "quantifier": "for every rounding and library with relative error \u03b5; for every previous state and all accepted setState arguments with T in [1,1e5], P in [1e-2,1e10], rho in [1e-6,1e3], mu in [1e-8,1e2]; for all free-molecular multipliers in [1e-6,1e6] and all particle masses from just above the cutoff to 1000 kg", "why_tests_cant": "The bound must hold for every combination of gas state and particle masses over some thirty orders of magnitude and for every processor and math library; a test compares a few values against a second computation that rounds as well, and cancellation appears only at extreme ratios.", "anchors": ["src/coagulationModels/coagulationModel_FM.cc:19-28", "src/coagulationModels/coagulationModel_CONTINUUM.cc:19-40", "src/coagulationModels/coagulationModel_HM.cc:22-51", "src/coagulationModels/coagulationModel_FUCHS.cc:26-59", "src/coagulationModels/coagulationModel.h:34-44", "src/state.h:65"]}
{"id": "C100", "title": "The coagulation rate depends continuously on the state", "statement": "The coagulation kernels, as functions of the temperature, pressure, density, viscosity and the two particle masses, are continuous, and so is the number source of the monodisperse model as a function of the mean particle mass. This is false of the code at one mass: every kernel but NONE is continuous wherever neither mass equals the cutoff 2E-26 kg, but at the cutoff it jumps from 0 to a positive limit, and the number source of the monodisperse model jumps with it.", "quantifier": "for every mechanism, multiplier > 0, every family of accepted states over any topological space whose scalars are continuous, all masses; the jump in every accepted state and for every monodisperse model without PAH nucleation", "why_tests_cant": "Continuity is a statement about limits in six variables; a test compares finitely many rates and sees the jump only if it samples both sides of one particular mass.", "anchors": ["src/coagulationModels/coagulationModel_FM.cc:19-28", "src/coagulationModels/coagulationModel_CONTINUUM.cc:19-40", "src/coagulationModels/coagulationModel_HM.cc:22-51", "src/coagulationModels/coagulationModel_FUCHS.cc:26-59", "src/sootModel_MONO.cc:92-145", "src/sootDefs.h:27"]}
{"id": "C101", "title": "Accuracy of the nucleation, growth and oxidation rates in floating point", "statement": "For every floating-point arithmetic whose operations and library functions have relative error at most eps (eps <= 1e-8): after a call of setState with arguments of a usual size (300 K or more, 1e-2..1e10 Pa, density 1e-6..1e3, species present at 1e-100 or more, 1..1e30 particles and 1e-30..1e3 kg of soot per cubic metre), the rate a mechanism computes with every operation rounded is finite and differs from the exact value of the formula by at most 295 eps (nucleation LL, LIN, LINA1, MB, FAIR), 701 eps (growth LL, LIN, MB, FAIR, with a model that stores moments), 451 eps (oxidation LL, FAIR, LEE_NEOH, OPTJ, OPTG, MB, BROWN, AJ_RED) relative to that value. The NSC_NEOH rate, which contains the difference 1 - x, is accurate to (610 + 20 r) eps where r bounds kB (1 + kz p) / kA; at 1000 K or more and up to one atmosphere of oxygen r = 75. binary64 meets the assumptions with eps = 2^-52, so all these rates have twelve correct digits. Without the precursor the computed nucleation rate is exactly zero.", "quantifier": "all roundings and libraries with error eps, all previous states, all accepted setState calls of the stated size, all listed mechanisms", "why_tests_cant": "a test compares a handful of inputs with a stored number to a loose tolerance; it says nothing about the error of the exponentials, the powers or the cancellation in 1 - x at the other temperatures and pressures", "anchors": ["src/nucleationModels/nucleationModel_LL.cc:30-38", "src/growthModels/growthModel_LL.cc:33-57", "src/growthModels/growthModel_MB.cc:34-60", "src/oxidationModels/oxidationModel_NSC_NEOH.cc:39-55", "src/oxidationModels/oxidationModel_LEE_NEOH.cc:38-48", "src/oxidationModels/oxidationModel_BROWN.cc:25-33", "src/state.h:55-65"]}
{"id": "C102", "title": "Accuracy of the monodispersed model's sources in floating point", "statement": "For every floating-point arithmetic with relative error eps <= 1e-8 and underflow error eta: after a call of setState with arguments of a usual size (300 K or more), the number, mass and gas sources the monodispersed model computes with every operation rounded are finite, and they differ from the exact sources by at most 300 eps of the nucleation rate plus kappa times the coagulation rate (number), 305 eps of the nucleation, 1055 eps of the growth and (N+365) eps of the oxidation rate (mass), and nearly the same multiples of the three processes' contributions for each gas species, plus at most 39 eta. N and kappa are the error of the oxidation rate and of the kernel. In binary64, with all mechanisms but HACA, PAH and tar, NSC and FUCHS, every source has twelve correct digits relative to the sum of the sizes of the processes that make it up.", "quantifier": "all roundings and libraries with error eps, all previous states, all accepted setState calls of the stated size with 1..1e30 particles above the cutoff mass, all listed combinations of mechanisms, all gas species", "why_tests_cant": "The sources are differences of processes that can nearly cancel, over thirty orders of magnitude of number density; a test samples a few states and cannot separate a rounding effect from a wrong term", "anchors": ["src/sootModel_MONO.cc:79-88", "src/sootModel_MONO.cc:201-276"]}
{"id": "C103", "title": "The surface and nucleation rates depend continuously on the state; the HACA site fraction falls as particles grow", "statement": "Small changes of temperature, pressure, density, composition or amount of soot change every nucleation, growth and oxidation rate by little, and the HACA fraction of available surface sites does not increase with particle size. Of the code this holds for every mechanism but HACA (where soot is present, for growth). For HACA it is false: the fraction takes the logarithm of the mean particle mass in kilograms, which is negative, so for every mean mass below 1 kg there is a critical temperature between 2153 K and 2303 K (2246 K for 1e-23 kg); below it the fraction is one for all sizes, at it the growth rate drops from a positive limit to zero and the oxidation rate to its OH part, above it the fraction grows with the size of the particles. Away from that temperature the HACA rates are continuous too. The PAH nucleation rate is continuous everywhere and zero without PAH, but the number of carbon atoms of a PAH nucleus grows beyond all bounds as the PAH vanish; where dimers meet soot at a rate bounded away from zero the nucleated carbon vanishes with the PAH nevertheless.", "quantifier": "all families of accepted states depending continuously on a parameter in any topological space; all mechanisms; all mean particle masses below 1 kg; all gas compositions with hydrogen atoms and acetylene (or oxygen)", "why_tests_cant": "The jump sits at one temperature that depends on the mean mass; sampling on either side looks smooth, and below 2153 K the factor is constant so no test of a single state can notice that the size has no influence", "anchors": ["src/growthModels/growthModel_HACA.cc:79-103", "src/oxidationModels/oxidationModel_HACA.cc:45-71", "src/nucleationModels/nucleationModel_LL.cc:30-38", "src/nucleationModels/nucleationModel_PAH.cc:52-98", "src/oxidationModels/oxidationModel_NSC_NEOH.cc:39-55"]}
{"id": "C104", "title": "The source terms depend continuously on the state", "statement": "Small changes of the gas state or of the amount of soot change every soot and gas source term by little, including where soot first appears. Without PAH nucleation and the HACA mechanisms this holds for SECT at every state, for MONO away from the kernels' cutoff mass when at a state without particles the quadrature node was never set, and for LOGN and MOMIC where their moments are positive. With PAH nucleation it holds for SECT wherever there are PAH, for MONO where there are also particles and for LOGN and MOMIC where there are also positive moments; with particles above the cutoff mass MONO and SECT are continuous also where the PAH vanish. It is false in general: in a soot-free gas, MONO with PAH nucleation reports a mass source that tends to a positive value, a quarter of the stored carbon number, as the PAH vanish, and zero without PAH, and the first section of SECT does the same; MONO keeps the node of an earlier call when there are no particles, so its number source lies below the limit of the number sources of nearby states with particles; LOGN with a surface process grows beyond all bounds as the second moment tends to zero and then drops to nucleation alone at zero.", "quantifier": "all families of accepted states depending continuously on a parameter in any topological space; all mechanisms except HACA; every number of sections, every cached bin-search factor for which the search is defined", "why_tests_cant": "Continuity is a statement about all neighbourhoods of all states; a jump is visible only in the exact state without particles, after a particular earlier call", "anchors": ["src/sootModel_MONO.cc:74-88", "src/sootModel_SECT.cc:162-319", "src/sootModel_LOGN.cc:338-351", "src/sootModel_MOMIC.cc:108-200", "src/nucleationModels/nucleationModel_PAH.cc:48-85"]}
{"id": "C105", "title": "The evolution of the soot in a given gas is determined by its start", "statement": "Two evolutions of the MONO moments in the same gas (d sootVar/dt = sources.soot, temperature, pressure and composition fixed) that start from the same moments are equal at all later times. True, and such an evolution exists, as long as there are particles with mass and the mean mass is not the coagulation cutoff; false for particles without mass: with growth by LL, LIN, MB or FAIR in a gas with acetylene they may stay massless or begin to grow at any time, because the growth source is proportional to M1^(2/3) (LL: M1^(1/3)).", "quantifier": "all models (nucleation other than PAH, growth and oxidation other than HACA, all kernels), all gas states accepted by setState, all pairs of evolutions on all time intervals; refutation for all particle numbers", "why_tests_cant": "a statement about all solutions of a differential equation; a time-stepping test follows one approximation of one of them and never sees the other solution", "anchors": ["src/sootModel_MONO.cc:74-283", "src/coagulationModels/coagulationModel_FUCHS.cc:17-59"]}
{"id": "C106", "title": "Burning removes the mass but never the particles", "statement": "Along every evolution of the MONO moments in a fixed gas that starts with particles there are particles at all later times, whatever the coagulation kernel, oxidation and growth. In particular soot that only burns loses all its mass in finite time while the number of particles stays exactly the same: the state ends with N particles of mass zero.", "quantifier": "all models (nucleation other than PAH, growth and oxidation other than HACA, all kernels), all accepted gas states, all evolutions on all time intervals with nonnegative mass; burn-out for all N, M1 > 0 and all positive oxidation rates", "why_tests_cant": "all solutions over arbitrarily long times; tests evaluate sources at single states", "anchors": ["src/sootModel_MONO.cc:74-283"]}
{"id": "C107", "title": "No section ever becomes negative in a reactor, and coagulation keeps the mass at all times", "statement": "A reactor hands its SECT section contents to setState, calls setSourceTerms and lets the contents change at the reported rates. Along every such evolution, whatever the mechanisms and whatever the gas goes through, sections that are not negative at the start are never negative. With coagulation alone the mass in the sections is the same at all times, number and every moment of order between 0 and 1 never rise, and no moment of order 1 or more ever falls.", "quantifier": "all SECT models with geometric bins (all nucleation, growth, oxidation and coagulation mechanisms, any number of sections), all histories of temperature, pressure, composition, state objects and process-wide factor for which the accepted states can be evaluated, all evolutions on all time intervals", "why_tests_cant": "An evolution is a curve in continuous time through arbitrary gas histories; a test integrates a few cases with a finite step and cannot tell the sign of the exact solution from the error of the integrator.", "anchors": ["src/sootModel_SECT.cc:162-347", "src/state.cc:63-74"]}
{"id": "C108", "title": "The section contents in a given gas evolve for all times and in one way only", "statement": "In a gas that stays as it is, from every non-negative start there is an evolution of the SECT section contents (setState, setSourceTerms, contents change at the reported rates) for as long as wanted, and it is determined by the start. True with nucleation other than PAH, growth NONE, LIN, FAIR or MB, oxidation other than HACA, every kernel. False with growth LL: without any soot and any nucleation, in a gas with acetylene, the sections may stay empty or the last one may start to fill at any time, because the growth source is proportional to the square root of the content.", "quantifier": "all SECT models with geometric bins and those mechanisms, any number of sections, all accepted gas states, all non-negative starts, all time intervals; the counterexample for every model with growth LL and without nucleation and oxidation, every kernel, every gas with acetylene", "why_tests_cant": "Existence for all times needs a bound on the number of particles that holds for every start and every interval; uniqueness compares all curves, of which an integrator produces one.", "anchors": ["src/sootModel_SECT.cc:162-347", "src/growthModels/growthModel_LL.cc:33-57"]}
{"id": "C109", "title": "MONO does not drive the number of particles below zero", "statement": "A reactor hands the MONO moments to setState of a state object, calls setSourceTerms and lets the moments change at the reported rates: moments that start non-negative stay non-negative. True in a fixed gas when there are particles at the start: the number stays positive and the mass non-negative. False where there is no soot: a state object that has seen soot keeps the node of that soot, setSourceTerms does not refresh it when M0 is zero, and without nucleation the number falls below zero at once and at a constant rate for ever, setState accepting every step.", "quantifier": "all MONO models (nucleation other than PAH, growth and oxidation other than HACA, all kernels), all accepted gases, all evolutions on all time intervals with particles at the start; the counterexample for all such models without nucleation and with coagulation, and all kept nodes with positive number and a mass above the cutoff", "why_tests_cant": "The tests use a fresh state object for every case; the claim is about all curves in continuous time and all objects left by earlier calls.", "anchors": ["src/sootModel_MONO.cc:74-110", "src/state.cc:63-74"]}
{"id": "C110", "title": "Coagulating LOGN distributions reach one width", "statement": "A reactor hands the three LOGN moments to setState, calls setSourceTerms and lets the moments change at the reported rates, with coagulation alone: the soot mass is constant, the number never grows, and the relative width M0*M2/M1^2 tends to a value fixed by the kernel. True for FM (the width obeys an exact law in the number whatever the gas does, and tends to 2^(6/5) while the number falls at least like t^(-6/5)) and for CONTINUUM (the width never leaves the range between its start, 2^(3/4) and 2, and tends to 2 as the number falls). False for the harmonic mean HM: the number never changes and the width grows without bound, at least linearly in time.", "quantifier": "all LOGN models with coagulation alone (FM, CONTINUUM, HM), all accepted and time-dependent gases, all evolutions on all time intervals, all positive start moments", "why_tests_cant": "The claim is about all curves in continuous time and a limit at infinite time; the tests print the sources of a few states.", "anchors": ["src/sootModel_LOGN.cc:262-297", "src/sootModel_LOGN.cc:338-351", "src/state.cc:63-74"]}
{"id": "C111", "title": "LOGN moments stay those of a population of particles", "statement": "A reactor hands the three LOGN moments to setState, calls setSourceTerms and lets the moments change at the reported rates: moments with M0*M2 >= M1^2 (a population of particles has such moments) keep M0*M2 >= M1^2, and M2 stays positive, as long as there are particles and soot mass and the rates of nucleation, growth and condensation stay bounded. In a fixed gas without the PAH and HACA mechanisms the bounds hold by themselves and the number stays positive by itself; without oxidation the mass never falls either.", "quantifier": "all LOGN models (all mechanisms and kernels LOGN can be evaluated with), all accepted time-dependent gases, all evolutions on all time intervals, all realisable positive start moments", "why_tests_cant": "The claim is about all curves in continuous time; a violation makes the lognormal width imaginary and would show only after many steps of some particular run.", "anchors": ["src/sootModel_LOGN.cc:153-325", "src/sootModel_LOGN.cc:338-351", "src/state.cc:63-74"]}
{"id": "C112", "title": "LOGN moments have exactly one evolution and it never ends", "statement": "In a gas that stays as it is, without oxidation and without the PAH and HACA mechanisms, LOGN moments of a population (M0>0, M1>0, M0*M2 >= M1^2) handed to setState and changed at the rates setSourceTerms reports have exactly one evolution; it exists for all times, the moments stay positive and those of a population. With coagulation alone that evolution loses all particles in the free-molecular and continuum regimes, and the spread M0*M2/M1^2 tends to 2^(6/5) and to 2; with the harmonic mean the number stays as it was and the spread grows without bound.", "quantifier": "all LOGN models with one of the three kernels, any nucleation but PAH, any growth but HACA and no oxidation, all accepted gases, all realisable positive start moments, all times", "why_tests_cant": "Existence for all times, uniqueness and limits as time goes to infinity are statements about all curves on unbounded intervals; no finite run shows them.", "anchors": ["src/sootModel_LOGN.cc:153-325", "src/sootModel_LOGN.cc:338-351", "src/state.cc:63-74"]}
{"id": "C113", "title": "The LOGN source terms are accurate in floating point", "statement": "After setState with arguments of a usual size at 300 K or more, the three soot sources and the gas sources that LOGN computes in double precision (without PAH nucleation and HACA) are finite and differ from the exact ones by at most 2e-12 of the processes that enter them: nucleation, growth, oxidation and coagulation. This holds for every arithmetic with a bounded relative error, with the bound in proportion to that error; cancellation between the processes is not hidden, the bound is relative to each of them.", "quantifier": "all roundings with relative error at most 1e-8 in which integers up to 10 and one half are exact, all accepted gases of usual size, all M0 in [1,1e20], M1/M0 in [1e-27,1], M0*M2/M1^2 in [1e-3,1e6], all combinations of the covered mechanisms and the three kernels", "why_tests_cant": "A test sees the result of one rounding on one input and has no exact value to compare with; here the fractional powers of the moments amplify the rounding of their exponents by the logarithm of the moments, for every input.", "anchors": ["src/sootModel_LOGN.cc:153-325", "src/sootModel_LOGN.cc:338-351", "src/coagulationModels/coagulationModel.h:34-44"]}
{"id": "C114", "title": "Nucleation and coagulation take MONO soot to one number of particles, and the free-molecular kernel to none", "statement": "In a gas that stays as it is, without oxidation and without the PAH and HACA mechanisms, number and mass of MONO particles above the cutoff mass (the nucleated ones, cMin*12/Na, being above it too) changed at the rates setSourceTerms reports have exactly one evolution; it exists for all times and the particles stay above the cutoff mass. With coagulation the mean particle mass grows without bound. With the CONTINUUM, HM and FUCHS kernels the number tends to sqrt(3*mu*J/(4*k*T)), J being the nucleation rate, whatever was there at first and whatever grows; with the FM kernel it tends to 0 although nucleation goes on. Without growth the mass rises by J*cMin*12/Na per time, without coagulation the number by J.", "quantifier": "all MONO models with any nucleation but PAH, any growth but HACA, no oxidation and any kernel, all accepted gases, all start numbers above 0 and start masses with mean mass above the cutoff, all times", "why_tests_cant": "Existence for all times, uniqueness and limits as time goes to infinity concern all curves on an unbounded interval; a run of finite length with a numerical integrator shows none of them.", "anchors": ["src/sootModel_MONO.cc:74-283", "src/coagulationModels/coagulationModel_FM.cc:19-28", "src/coagulationModels/coagulationModel_FUCHS.cc:17-59"]}
{"id": "C115", "title": "Section contents evolve in one way for ever, and coagulation takes all of them to the last section", "statement": "In a gas that stays as it is, with rates that do not depend on the contents, the contents of the sections changed at the rates setSourceTerms reports have exactly one evolution from every non-negative start and it exists for all times. If nothing nucleates and nothing burns, section masses are above the cutoff mass and some soot is there, then with any growth mechanism and any kernel the sum over the sections of (last section mass - section mass)*contents falls at least as fast as an exponential whose rate depends on gas, model and start only. So every section but the last one empties, and without growth the contents of the last one tend to the whole first mass divided by its section mass.", "quantifier": "all sectional models (any number of sections, any growth factor above 1), all accepted gases, all non-negative starts, all times; second part: all growth mechanisms and all kernels", "why_tests_cant": "Existence for all times and limits as time goes to infinity concern an unbounded interval and every start; a run of finite length shows neither, and the exponential bound is a statement about all curves.", "anchors": ["src/sootModel_SECT.cc:162-347", "src/sootModel_SECT.cc:250-288", "src/state.cc:63-74"]}
{"id": "C116", "title": "The sources of the sectional model are accurate in floating point", "statement": "In every arithmetic with relative error eps per operation (and a matching underflow error) and bins growing by a factor of two, setState followed by sootModel_SECT::setSourceTerms computes finite section and gas sources, and the section-mass-weighted sum of the errors is at most about 310 eps of the nucleated mass, 3200 eps of the grown mass, (3N+1100) eps of the burnt mass (N eps being the error of the oxidation rate) and 2.3 kappa + 5 n (n+1) eps of the colliding mass (kappa being the error of the kernel); the gas sources are as accurate. In IEEE double precision with up to 39 sections the errors are below 3e-12 of these process rates.", "quantifier": "all arithmetics with the stated error bounds, all accepted states of usual size at 300 K or more, all bin counts up to 1000 (39 for the double-precision digits), all section contents that are zero or between 1 and 1e30, all modelled mechanism combinations, all roundings of the bin search within delta", "why_tests_cant": "The bound holds for every input and every arithmetic with the stated error; runs compare finitely many inputs and have no exact value to compare with.", "anchors": ["src/sootModel_SECT.cc:162-333", "src/sootModel_SECT.cc:250-288", "src/sootModel_SECT.cc:297-333"]}
{"id": "C117", "title": "How many gas species setState must be given", "statement": "setState copies the gas mass fractions without checking how many there are, so it also accepts every shortened vector. setSourceTerms returns only if the vector has an entry for each species that the nucleation, growth, oxidation and tar mechanisms of the model read (growth by LL, FAIR and MB reads acetylene only if there is soot). If the vector of a returning call is cut after k entries and all species read are among the first k, the source terms are unchanged; if one is not, the call reads outside the array. On any state, cutting the vector can have no other effect than such a read.", "quantifier": "all six PSD classes, all mechanism combinations, all states and gas vectors, all cut positions k", "why_tests_cant": "Tests pass one vector length with a few mechanism sets; a read past the end of a std::vector usually returns some number, so that a run shows nothing. The claim quantifies over all combinations, states and lengths.", "anchors": ["src/state.cc:86-104", "src/state.h:55-66", "src/growthModels/growthModel_HACA.cc:80-97", "src/tarModels/tarModel_AJ_RED.cc:36-90"]}
{"id": "C118", "title": "How many soot values an evaluation reads", "statement": "setSourceTerms of MONO reads the first two soot values of the state, LOGN the first three, MOMIC, SECT and HMOM the first nsoot of the model. Further values in the vector have no influence on the source terms, the model object afterwards or the way an evaluation fails. If an evaluation returns, the vector has all of these values; if the vector of a returning evaluation is cut after k values, the result is the same if k is large enough and a read outside the array otherwise.", "quantifier": "all classes except QMOM, all mechanism combinations, all states and soot vectors, all cut positions k; for SECT the number in the state may not exceed that of the model", "why_tests_cant": "A read past the end of a std::vector usually returns some number, so that a run shows nothing; the claim covers all states, mechanism combinations and lengths.", "anchors": ["src/sootModel_MONO.cc:74-92", "src/sootModel_LOGN.cc:98-102", "src/sootModel_MOMIC.cc:121-153", "src/sootModel_SECT.cc:162-288", "src/growthModels/growthModel_HACA.cc:63-76"]}
{"id": "C119", "title": "Soot scales, fuel composition, coal data and tar yield have no influence on the sources", "statement": "setSootScales, getyBio and get_coal store members of the state that no source term reads, and no source term reads ytar either: with any other values of the soot scales, the biomass composition, the coal data and the tar yield ytar, setSourceTerms of every class leaves the same model object with the same source terms, the same remaining state and fails in the same way if it fails. The stored scales and composition survive every later setState, accepted or not. (The fuel data act only through get_mtar_ytar and get_mtar_ytar_coal, which turn them into mtar and ytar, and of these only mtar is read by a source term; the tar inception rate that would read ytar is commented out.)", "quantifier": "all classes, all mechanism combinations, all model objects and states, all values of the members, every later setState call, any eigenvalue routine", "why_tests_cant": "A test compares a few scale vectors on a few states; independence for all states, classes and values is a statement about the whole evaluation.", "anchors": ["src/state.h:73-80", "src/state.cc:198-202", "src/tarModels/tarModel_AJ_RED.cc:21-33", "src/sootModel_MONO.cc:74-180", "src/sootModel_SECT.cc:162-288"]}
