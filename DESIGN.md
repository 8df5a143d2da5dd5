# Formal model of Cantera: design

## 1. What is being verified

The C++ sources in `/repo` are read as text; nothing is executed.  Each area of the code is
transcribed, function by function, into small Lean 4 definitions (`Model.lean` of each area, every
definition citing file and lines).  Specifications (`Props.lean`) are written without reference to
the model's helper functions wherever a mathematical formulation exists (finite sums, products,
derivatives, abstract maps), and the theorems relate the two for all inputs, states and histories.

## 2. Conventions

* **Arithmetic.** `double` is modelled by an exact ordered field: an arbitrary
  `LinearOrderedField` where only `+ - * /` and comparisons are used, `Real` where the code calls
  `exp`, `log`, `pow`.  Rounding, overflow, NaN and infinities are *not* modelled; where the code
  uses NaN as a sentinel ("never evaluated") the model uses `Option`.
* **Sizes.** `size_t` is `Nat`; `npos` is `none`.  Wrap-around is not modelled except where named.
* **Failure.** `Outcome` (`Verif/Basic.lean`) has three constructors: `ok`, `throw` (a C++ exception) and `ub`
  (undefined behaviour: out-of-range access, dereferencing `end()`, ...).  Theorems about fallible
  functions state which outcome occurs; `ub` is never identified with a default value.
* **Mutation.** A method that mutates `*this` becomes a function to the new state; what the object
  looks like after an exception is part of the model where a property speaks about it.
* **Division.** Lean's `x / 0 = 0` never carries a theorem: every quotient in a theorem is guarded by a
  hypothesis or by an explicit branch in the model.

## 3. Trusted base

* Lean 4.33.0 kernel, and Mathlib's definitions of reals, sums, derivatives.
* Axioms: each theorem depends on at most `propext`, `Classical.choice`, `Quot.sound`
  (checked with `#print axioms` in `tools/axioms.sh`; no added axioms, no `sorry`, no
  `native_decide`/`bv_decide`).
* The fidelity of the transcription (reading of the C++), and the conventions of section 2.
* Not modelled anywhere: floating-point rounding, LAPACK/SUNDIALS/Eigen/yaml-cpp/HDF5 internals,
  Python/MATLAB layers, threads, memory allocation failure.

## 4. Plan per property

* **C01 Stoichiometric accumulators equal the stoichiometric matrix product.** StoichManagerN state = lists of C1/C2/C3/C_AnyN handlers with their loops; `add` transcribed with all branches. Proof: induction over the list of added reactions, spec is a finite sum over declared participants.
* **C02 Mass-action rates are the product of concentrations to the reaction orders.** `multiply` of each handler over reals; spec is a product of powers. Proof by case analysis on handler plus induction for C_AnyN.
* **C03 Net production = creation - destruction.** Creation/destruction/net functions on top of C01's managers; proof by linearity from C01.
* **C04 Balanced mechanisms conserve elements and mass.** Spec: element balance of each reaction; proof by exchanging finite sums.
* **C05 Concentration derivatives of mass-action rates are the true partial derivatives.** `derivatives` loops per handler; spec `HasDerivAt` of the product along one coordinate.
* **C06 Accepted reactions are element balanced.** `checkBalance` and `checkSpecies` transcribed including the early returns; the claim is false (third body and negative counts) so: negation witnesses plus a `_partial` theorem for the guarded case.
* **C07 Detailed balance.** `updateROP`'s arithmetic over reals; spec by chemical potentials.
* **C08 Third-body concentration is the efficiency weighted sum.** ThirdBodyCalc install/update/multiply with its index lists.
* **C09 Global species indexing is a bijection.** m_start prefix sums; inverse lookups transcribed as loops.
* **C10 Duplicate reactions are always detected.** checkDuplicates's double loop with hash map; soundness and completeness over all lists.
* **C11 Handle table (clib Cabinet) safety.** Cabinet as a list of optional objects; trace invariants and refinement to a partial map.
* **C12 Mole fractions are normalised and non-negative after setMoleFractions.** Phase composition state (m_y, m_ym, mmw) and the setters.
* **C13 Mole/mass fraction conversion is a bijection.** Conversion functions, field identities over finite sums.
* **C14 saveState/restoreState round trip.** saveState/restoreState over the modelled Phase state.
* **C15 Species and element tables stay consistent.** Element/species tables as flat vectors, re-layout loop of addElement, refinement to a map of compositions.
* **C16 Equivalence ratio set/get round trip.** o2Required/o2Present/AFR/setEquivalenceRatio/equivalenceRatio/mixtureFraction as arithmetic.
* **C17 Units algebra.** Units as factor and seven exponents.
* **C18 Unit conversion is invertible, transitive and rejects dimension mismatch.** convert functions with dimension check.
* **C19 Functor algebra simplification preserves values.** Inductive type of functor trees, eval over reals, simplifiers transcribed; the claim is false for some rules (witnesses), partial theorem on the domain where it holds.
* **C20 Functor derivative is the true derivative.** derivative transcribed; structural induction giving HasDerivAt; the logarithm rule is wrong (witness).
* **C21 Tabulated functor interpolation.** Tabulated1 eval/derivative as list loops.
* **C22 Pressure interpolation of rates is history independent.** PlogRate state with cached bracket; invariant over evaluation histories; stale state after setRates (witness).
* **C23 Chebyshev rate evaluates the declared double Chebyshev series.** Chebyshev recurrences against Mathlib's Chebyshev polynomials; cache invariant; stale dot products after setData (witness).
* **C24 Falloff rates stay between their limits.** Falloff evaluation over reals with Troe/SRI/Tsang/Lindemann F.
* **C25 Species thermo polynomials are thermodynamically consistent.** Polynomials with HasDerivAt.
* **C26 Heat of formation modification and reset.** State machines for each parameterisation; ConstCp reset is wrong (witness).
* **C27 Piecewise Gibbs table reproduces its data.** Mu0Poly's up and down recursions on lists.
* **C28 Grid refinement preserves endpoints, order and limits.** Refiner's keep/insert decisions and Sim1D::refine's loop.
* **C29 Damped Newton step never leaves the bounds.** bound_step loops; dampStep as loop with abstract residual.
* **C30 Flattened multi-domain indexing is a bijection.** Prefix-sum layout, component lookup, bandwidth formula.
* **C31 Banded matrix storage represents the matrix.** index arithmetic and flat storage.
* **C32 Interpolation and quadrature helpers.** List loops over a field.
* **C33 Composition string parsing.** Character level parser.
* **C34 C string copy never overruns and always terminates.** Byte buffer model with out-of-range writes as ub.
* **C35 Value cache returns only values computed for the given state.** Cache map state machine.
* **C36 Factory registration and aliases.** Registration maps as association lists.
* **C37 Reaction equation text round trip.** Character-level printer, tokenizer and parser; third-body detection of setEquation; the output of numbers is a parameter.
* **C38 Multiphase mole bookkeeping.** MultiPhase index tables and mole vectors.
* **C39 Equilibrium failure restores the initial state.** Transition system where a solver may write arbitrary state and throw.
* **C40 Surface coverages round trip.** Coverage setters over Phase model.
* **C41 Species thermo manager dispatch.** install/modify/update over a map of types.
* **C42 Rate evaluator index map.** index map state machine.
* **C43 Composition Jacobian.** calculateCompositionDerivatives on top of C01/C02/C05/C08; falloff evaluators as functions of their third-body concentration; product rule and limit of the difference quotient.
* **C44 Unit stack aggregation.** UnitStack as an association list with a leading standard unit.
* **C45 Gibbs solver wrapper reports success only at convergence.** HP, SP and TV outer loops over an abstract mixture with oracles for the inner solver, properties and setters.
* **C46 Pseudo-transient time stepping terminates with the requested steps.** The loop of `OneDim::timeStep` over arbitrary oracles for Newton solution, Jacobian evaluation and value reset.
* **C47 Periodic functor.** `Periodic1::eval` on arbitrary operands.
* **C48 Reactor networks conserve mass and elements.** `eval` of the eight lumped reactor types, `evalWalls`, `evalSurfaces` and `FlowDevice::outletSpeciesMassFlowRate` over networks given by lists of devices and walls; states, thermodynamic properties and production rates are arbitrary reals.
* **C49 Energy balance.** The same model; the energy and temperature equations against the total derivative of internal energy or enthalpy.
* **C50 Sensitivity parameters restored.** `applySensitivity`, `resetSensitivity` and the evaluation loop of `ReactorNet`, with failures of arbitrary reactors.
* **C51 Advance limits.** `ReactorNet::advance` with limits, `getEstimate` and the setters and getters of limits.
* **C52 State from the state vector.** `updateState`, `updateConnected` and the flow controllers, with contents that may be shared between reactors.
* **C53-C55 One-dimensional flow.** `OneDim/Flow.lean` is `Flow1D` (all residual equations, properties, fluxes, radiation) between two `Boundary1D` domains; gas and transport properties are arbitrary functions of temperature and mass fractions. C53: sums over species. C54: what a zero of the residual satisfies. C55: local evaluations and the Jacobian. Not modelled: `IonFlow`, several flow domains in one simulation (except the index arithmetic of `Flow1D::eval`), diagonal masks of boundaries with a single component.
* **C56 Temperature, pressure and density derivatives of rates.** `Kinetics/TempDeriv.lean` continues the kinetics model of C05-C08 with `process_ddT`, `process_ddP`, `process_ddC`, `applyEquilibriumConstants_ddT`; an evaluator is either a logarithmic derivative or a rate constant as a function of the perturbed variable. `Rates/Arrhenius.lean` has the analytic rate types. Not modelled: interface reactions, non-ideal gases, rate types with electric field or electron temperature derivatives.
* **C57, C58 Interface kinetics.** `Kinetics/Interface.lean` extends the kinetics model by `updateROP`, `updateKc`, `updateMu0`, phase existence and stability, `interfaceCurrent`. Rate constants are inputs. Not modelled: `advanceCoverages`, `solvePseudoSteadyStateProblem`, edge kinetics.
* **C59, C60 Interface rates.** `Rates/Coverage.lean` models coverage dependencies and sticking coefficients, `Rates/Electro.lean` charge transfer. Undefined reads are `ub`, NaN is `none`.
* **C61, C62 Derivatives and caching.** `Kinetics/InterfaceJac.lean` models the composition derivatives and their guard, `Rates/InterfaceData.lean` the shared data object as the snapshot of phase states it was computed from.
* **C63 Margules solutions.** `Thermo/Margules.lean` models activity coefficients with all their derivatives, partial molar functions and the density; `Thermo/Simplex.lean` has the calculus of mole numbers. Standard state functions are inputs. Not modelled: reading of input, cv_mole.
* **C64 Redlich-Kister solutions.** `Thermo/RedlichKister.lean` models the same for polynomial expansions, with the storage of the derivative matrix as a list with bounds. Not modelled: `getdlnActCoeffdlnN_diag`, reading of input.
* **C65 Redlich-Kwong, C66 Peng-Robinson.** `Fluid/Cubic.lean` and `Fluid/CubicMix.lean` contain the calculus common to both equations; `Fluid/RedlichKwong.lean` and `Fluid/PengRobinson.lean` model every property function. Not modelled here: reading of input, the critical point.
* **C67 Density of cubic fluids.** `Fluid/CubicSolver.lean` models the solver with its tolerances and Newton polishing, `Fluid/Density.lean` the coefficients of both equations, `densityCalc`, `liquidVolEst`, `psatEst` and `setPressure`. `phaseState` is an input. Not modelled: spinodal densities, satPressure and calculatePsat.
* **C68 Coefficient tables.** `Fluid/Tables.lean` models the tables of both phases in their linear storage, with unset entries, the functions that fill them, addSpecies, the loop of initThermo, and the Newton iteration for the critical temperature. Specification by the last value given for each species and pair.
* **C69 Mixture-averaged transport.** `Transport/Mixture.lean` models GasTransport and MixTransport as functions of temperature, composition and fit coefficients, with the loops over pairs and the index of a pair. Specification: mixture rules in closed form.
* **C70 Multicomponent transport.** `Transport/Multi.lean` models the L matrix block by block, the right-hand side, the conductivity, thermal diffusion coefficients, flux equations and multicomponent diffusion coefficients of MultiTransport. Solvers are oracles. Specification: formulas with Kronecker symbols and the Stefan-Maxwell equations.
* **C71 Caching of transport properties.** `Transport/Cache.lean` models flags, stored temperatures and stored intermediate results of MixTransport and MultiTransport with arbitrary functions for the formulas. Specification: results as functions of the current state.
* **C72 Dusty gas model.** `Transport/Dusty.lean` models DustyGasTransport: medium, flags, Knudsen and effective binary coefficients, matrix, fluxes. Specification: dusty gas equations with explicit coefficients of the current state.
* **C73 Coverage-dependent surface thermodynamics.** `Thermo/CovSurf.lean` models CoverageDependentSurfPhase: dependencies, maps with upper_bound, stored results and their conditions of reuse. Specification: explicit sums over dependencies at the current state.
* **C74 Unit strings.** `Units/Parse.lean` models the constructor from a string and str over lists of characters, with the complete tables; `fpValueCheck` is that of `Text/Fp.lean`; formatting of numbers is an oracle with a stated contract. Specification: factor, groups, sums of exponents.
* **C75 Dense matrices.** `Util/Dense.lean` models Array2D and DenseMatrix with column-major storage, index arithmetic and column pointers; out-of-range access is `ub`; factorizations are oracles.
* **C76 Reaction paths.** `Kinetics/ReactionPath.lean` models Group, ReactionPathBuilder::init/findGroups/build, the diagram with its maps of nodes and paths (null pointers as keys without nodes) and the edges of exportToDot; labels and text are left out.
* **C77 Setting the state.** `Thermo/SetState.lean` models both Newton solvers of ThermoPhase with the property and heat capacity at the fixed pressure or volume as functions of temperature and success of setPressure as a predicate, and the choice of the setter from the keys of a map; unit conversion of the values and the text of the errors are left out.
* **C78 Ideal gas.** `Thermo/IdealGas.lean` models IdealGasPhase with reference functions of the species as given functions of temperature (their consistency is C25) and the mean and entropy sums of Phase with the stored `m_ym`.
* **C79 Ideal condensed solutions.** `Thermo/IdealSoln.lean` models the property functions of IdealSolidSolnPhase and LatticePhase over the sums of C78.
* **C80 Lattice solids.** `Thermo/LatticeSolid.lean` models the search of species, the two copies of the composition (phase and sublattices), the sums of the molar properties and the constraint elements; the sublattices are given functions (LatticePhase is C79).
* **C81 Tabulated binary solutions.** `Thermo/BinaryTab.lean` models interpolation, differences, volumes and the entropy of the tabulated species.
* **C82 Molality based solutions.** `Thermo/Molal.lean` models the conversions of molalities, setMolalitiesByName and the activity coefficients of IdealMolalSoln with their cutoffs; a width with X_o = 2c (division by zero) is excluded.
* **C83 Pressure dependent standard states.** `Thermo/Pdss.lean` models PDSS_ConstVol, PDSS_SSVol, the offsets and reference values of PDSS_Water and the cache of VPStandardStateTP. A PDSS object inside VPStandardStateTP is a function of temperature and pressure, which is what the first part proves. PDSS_IdealGas, PDSS_IonsFromNeutral and input files are not modelled.
* **C84 Ions in water.** `Thermo/Hkft.lean` models PDSS_HKFT with relEpsilon and gstar as functions with given derivatives, then these functions themselves, the completion of the input, and WaterProps. The elements' entropies enter as one number.
* **C85 Pure condensed substances.** `Thermo/Stoich.lean` models StoichSubstance on SingleSpeciesTP with the cached reference values and the loops of setState_HP and setState_SP; the loops of setState_UV and setState_SV are not reached for an incompressible substance.
* **C86 Linear Burke rates.** `Rates/LinearBurke.lean` models setParameters, setContext, evalFromStruct, getParameters and the shared data; the rate of each collider is a given function of temperature and pressure.
* **C87 Debye-Hückel.** `Thermo/DebyeHuckel.lean` models the five forms with the limits on ionic strength and solvent fraction, the derivative functions, the partial molar properties and the setters. Weak-acid association enters through the stoichiometric charge.
* **C88 Preconditioners.** `Util/Precon.lean` models the sparse Jacobian classes, the set-up by a network and the choice of the linear solver; a matrix is a function of row and column.
* **C89 Multiphase equilibrium.** `Equil/MPEquil.lean` models MultiPhaseEquil: the selection of elements and species, the elimination with row and column exchanges, the stoichiometric matrix, the step with its limit and interpolation, the damping, the test of convergence and the initial estimate. Species are indexed as included; sorting is a given order.
* **C90 IAPWS-95.** `Thermo/IapwsPhi.lean` models WaterPropsIAPWSphi.cpp term by term: the four groups of terms, all derivatives, and the density solver; NaN results are none. The integer and critical tables are transcribed, the linear coefficients are parameters.
* **C91 Water properties.** `Thermo/Iapws.lean` models WaterPropsIAPWS.cpp: the dimensional functions, density, density_const, psat, phaseState and the spinodal searches. psat_est is given.
* **C92, C93 Plasma.** `Thermo/Plasma.lean` models PlasmaPhase.cpp and the data and rate classes of ElectronCollisionPlasmaRate.cpp: levels, distribution, update order, cached elastic loss, rate evaluation, two-temperature thermodynamics. The trapezoidal and Simpson rules are modelled as in numerics/funcs.cpp.
* **C94 Component choice.** `Equil/Basis.lean` models BasisOptimize and ElemRearrange without printing; the working matrix is the list of accepted columns; loops carry fuel which the proofs show to suffice; the linear solve is given by its defining equation.
* **C95 Plug flow reactor.** `ZeroD/Pfr.lean` models FlowReactor.cpp, the surface evaluation of Reactor.cpp and ReactorNet::evalDae; solutions of the residual equations are differentiable functions, the integrator itself is not modelled.
* **C96 Pure fluids.** `Thermo/Tpx.lean` models tpx/Sub.cpp over an arbitrary equation of state as state transformers that may throw; doubles are reals, so 0/0 in degenerate cases is 0 instead of NaN; finite difference properties (cv, cp, expansion, compressibility) are left out.
* **C97 Fluids.** `Thermo/TpxFluids.lean` models the eight equations of state of src/tpx (tables copied digit for digit) as instances of the interface of C96, and the factory newSubstance; the cached temperature powers of the C++ classes are replaced by their values.
* **C98 PureFluidPhase.** `Thermo/PureFluid.lean` models the phase as its own temperature and density beside the state of the substance of C96; each method is a program that may stop after having changed the state.
* **C99 Surface solvers.** `Kinetics/ImplicitSurf.lean` models eval as writes to an array, the collection of phases and the pseudo steady state problem with its two attempts; `Kinetics/SolveSP.lean` models residual, Jacobian, damping, weights, time step and the control flow of the Newton loop, with the numerical results of each pass as arguments.
* **C100 Water phase and water transport.** `Thermo/WaterSSTP.lean` models the pair of stored states and every call of WaterSSTP as a change of it, with the results of the solvers of WaterPropsIAPWS as arguments; `Transport/WaterTr.lean` models viscosity and thermal conductivity of WaterTransport.
* **C101 Ideal solutions with pressure dependent standard states.** `Thermo/VpssIdeal.lean` models IdealSolnGasVPSS, the state setters of VPStandardStateTP and the reference pressure collected by MultiSpeciesThermo.
* **C102 Species data.** `Thermo/SpeciesData.lean` models molecular weights, reading and writing of species and of gas transport data, their validation, and the continuity warnings of NasaPoly2.
* **C103 Ionised gases.** `Transport/IonGas.lean` models the classification of species, the mixture rules, mobilities, diffusion coefficients and collision parameters of IonGasTransport.
* **C104 Ion flames.** `OneDim/IonFlow.lean` extends the flow domain by the ion fluxes, the field equation, bounds, stages and switches of IonFlow.
* **C105 Dense gases.** `Transport/HighP.lean` models the correction of Takahashi, the corrected diffusion coefficients, the critical properties and the viscosities of Lucas and Chung.
* **C106 Fits and collision integrals.** `Transport/CollInt.lean` models polyfit with the solver as parameter, the quadratic interpolation, the search in the tables and the ranges of the fits.
* **C107 Phases of VCS.** `Equil/VolPhase.lean` models vcs_VolPhase: mole fractions, moles, existence, cached properties, derivatives of activity coefficients and element constraints.
* **C108 Element potential solver.** `Equil/ChemEq.lean` models ChemEquil: property pairs, elements, temperature search, residual, Jacobian, step control, convergence and charge adjustment.
* **C109 pH scales.** `Thermo/PhScale.lean` models setpHScale, findCLMIndex and the scaling functions of HMWSoln.
* **C110 Species thermo factory.** `Thermo/ThermoFactory.lean` models SpeciesThermoFactory and the regions of NASA9 parametrisations.
* **C111 Solution objects.** `Util/Solution.lean` models adjacent phases, managers and callbacks of Solution.

## 5. Disagreements between code and property

Each entry names the theorem that proves it about the model.  None was confirmed by running the code.

* **C01** a negative integer coefficient mixed with positive ones is silently dropped by `add`: `stoich_negative_coefficient_dropped`.
* **C05** `C_AnyN::derivatives` reports 0 for a species at zero concentration although the slope is not 0: `stoich_derivative_wrong_at_zero`.
* **C07** reverse rate constants are capped at 1e300, breaking detailed balance: `detailed_balance_cap`.
* **C11** a second deletion of a handle throws although documented as harmless: `cabinet_double_delete_throws`; `clear` throws at a dead slot and leaves later objects alive: `cabinet_clear_not_total`.
* **C31** out-of-band reads through the non-const accessor: `band_nonconst_out_of_band_not_zero`; solve after a write through `ptrColumn` uses the old factorisation: `band_stale_after_column_write`.
* **C35** cache entries stay marked valid when the computation throws: `cache_stale_after_throw`; mixed overloads: `cache_mixed_overloads`; default state number: `cache_intMin_default`.
* **C36** `exists` is false for deprecated names: `factory_exists_deprecated`; an alias equal to a registered name is ignored: `factory_alias_shadowed`.
* **C43** numerical third-body derivatives divide a rate constant without multiplier by `m_rfn`, which contains it (BulkKinetics.cpp:685-686, MultiRate.h:134-135): `composition_jacobian_multiplier_diverges`. The same call pattern is used for temperature and pressure (BulkKinetics.cpp:605, 614), not modelled yet.
* **C43** a `(+M)` reaction of a rate type without `perturbThirdBodies`, or any falloff reaction with `skip-falloff`, gets an extra term: `composition_jacobian_spurious`.
* **C43** with legacy rate constants the third-body factor enters twice: `jacobian_legacy_doubles`.
* **C30** `OneDim::component` divides by zero for every index when the rightmost domain has no components, which is the case for every inlet-flow-outlet arrangement: `component_divides_by_zero`, `component_correct_iff`; it does not reject indices beyond the end: `component_accepts_out_of_range`.
* **C30** two adjacent domains without components give a bandwidth of 2^64-1 (OneDim.cpp:210): `bandwidth_wraps`; a declared bandwidth below the component count leaves coupling entries outside the band: `jacobian_outside_band`; `pointDomain` takes a solution index, not the documented point number: `pointDomain_not_of_point`.
* **C09** `kineticsSpeciesIndex(k,n)` aliases another phase for k out of range: `index_aliases`; `speciesPhaseIndex` never throws: `phaseIndex_never_throws`; tables are stale after `addSpecies` on a phase: `index_stale_after_addSpecies`; `kineticsSpeciesName` throws where `<unknown>` is documented: `name_out_of_range`.
* C42: `MultiRate::add` records the index before the cast that may throw, so a later `replace` of the failed reaction overwrites the next one (`failed_add_redirects`). Not reachable through BulkKinetics.
* C42: modifying a chemically activated reaction whose evaluator was created by a falloff reaction with the same falloff function throws in `MultiRate::replace` (MultiRate.h:50-54) after `m_reactions[i]` was replaced (Kinetics.cpp:739): `reaction(i)` and the rate constants disagree afterwards (`modify_chemically_activated`).
* C42: `modifyReaction` accepts a reaction with different reversibility, third-body efficiencies or orders but none of the tables derived from them is updated (`modify_keeps_tables`, `tables_from_added`).
* C41: in NDEBUG builds a duplicate install_STIT is accepted and `update` and `update_single` can disagree for that species (`release_duplicate`).
* C41: `modifySpecies` does not compare the reference pressure (`modify_reference_pressure`) and never recomputes the temperature range of the phase (`modify_range_stale`).
* C26: `ConstCpPoly::resetHf298` restores `m_h0_R_orig`, which is never assigned and stays 0: after a reset (e.g. by a reactor sensitivity solve, Reactor.cpp:522) the enthalpy at T0 is 0 whatever was given (`constCp_reset_zero`, `constCp_reset_iff`).
* C27: `Mu0Poly::setParameters` appends to `m_t0_int` and `m_mu0_R_int` without clearing them: a second call with a table no longer than the first writes out of bounds (`second_call_ub`).
* C17: `Units::pow` recomputes the pressure and energy pseudo-dimensions, so `Units("J/kmol").pow(1) != Units("J/kmol")` and `(u*v).pow(n) != u.pow(n)*v.pow(n)` (`pow_one_loses`, `pow_mul_loses`).
* C18: consequence: with default energy unit cal, `convertTo(1, J/kmol)` = 4.184 but `convertTo(1, (J/kmol)^1)` = 1 (`convertTo_depends_on_pow`).
* C18: `convertActivationEnergyTo/From` and `setDefaultActivationEnergy` ignore the factor of a temperature unit such as "kK" (`act_kilokelvin`), unlike `convertActivationEnergy`.
* C18: a throwing `setDefaults` leaves the object changed with a stale activation energy factor (`throw_leaves_inconsistent`).
* C18: `UnitSystem::getDelta` misses the activation energy when only the other system has explicit units for it (`delta_misses_activation`): Units.cpp:782-783 compares the factor with the system's own energy/quantity.
* C22: `PlogRate::setRates` does not reset `logP_` and the cached bracket: after evaluating a rate and replacing its table, evaluation at the same pressure uses old indices, possibly beyond the end of `rates_` (`stale_indices_ub`), or the old interpolation range (`stale_bracket`). Reachable by evaluating a stand-alone rate object, setting new rates and evaluating again at the same pressure.
* C23: `ChebyshevRate::setData` and `setLimits` do not reset `m_log10P`: at an unchanged pressure the old coefficients and pressure limits stay in use (`stale_data_wrong`, `stale_limits`).
* C24: `SriRate::getFalloffCoeffs` tests `m_e` twice, the condition is never true and five coefficients are always returned (`sri_get_five`).
* C24: `SriRate::setFalloffCoeffs` throws for a negative d after a, b, c were replaced (`sri_throw_changes`).
* C24: a non-zero Troe T2 below 1e-300 is reported as omitted but used in evaluation, and lost by getFalloffCoeffs (`troe_tiny_t2`).
* C24: the Troe form does not reach the high pressure limit: F tends to F_cent^(49/2549) (`troe_not_high_limit`); a property of the documented formula, not of its implementation.
* C12: `Phase::setConcentrations` with no positive entry throws from `setDensity` after `m_y` and `m_mmw` were overwritten (`Comp.setConc_throw_changes`).
* C14: `restoreState(saveState())` changes the mole fractions and the mean weight of a phase whose composition was set by `setMoleFractions_NoNorm` with a sum other than one (`Comp.restore_not_normalised`).
* C14: `restoreState` throwing because of a non-positive density has already replaced the temperature (`Comp.restore_throw_changes`). `saveState(lenstate, ptr)` does not look at `lenstate` (`Comp.saveRaw_ub`).
* C16: `setEquivalenceRatio` with an oxidizer without free oxygen sets a NaN composition without an error (`EqRatio.setPhi_nan_witness`).
* C40: `SurfPhase` concentrations are `n0*X_k`; the documented `C_k = theta_k n0/s_k` (SurfPhase.h:83-86) and the site balance only hold for sizes one (`Surf.site_balance_fails`). Chemical potentials and rates use these concentrations with the standard concentration `n0/s_k`.
* C15: a failing `Phase::addSpecies` with undefined elements set to `add` leaves the elements it added (`Tables.fail_changes`).
* C15: `ThermoPhase::addSpecies` adds the species to the tables before the thermo data is validated and installed; a species with another reference pressure stays in the phase without thermo data (`Tables.thermo_fail_leaves_species`).
* C15: the element E added automatically for a charged species has weight 0.000545 instead of the table value, so that a later `addElement("E")` throws (`Tables.electron_weight_clash`); a charge below 0.001 is or is not entered in the composition depending on whether E existed before (`Tables.small_charge_order`).
* C15: adding a species with the name of an alias silently redirects the alias (`Tables.alias_redirected`); `modifySpecies` accepts a different charge without updating the charge of the phase (`Tables.modify_charge_stale`).
* C38: `MultiPhase::setMoles` with a negative entry stores the algebraic sum as phase moles but clipped mole fractions, so `getMoles` differs from the input (`MP.negative_moles`).
* C38: `MultiPhase::init` enters `m_spstart` only for phases with species: a phase without species shifts the table (`MP.empty_phase_index`), and if it is the last one `setMoles` writes beyond `m_moleFractions` (`MP.empty_phase_ub`). Without any element the tables stay empty (`MP.no_elements`).
* C38: `setPhaseMoleFractions` stores the fractions unnormalised although `getMoleFractions` is documented to return normalised ones (`MP.phaseMoleFractions_not_normalised`).
* C39: `equilibrate` on a mixture without `init()` restores an empty mole fraction vector and reads beyond it (`MP.equilibrate_uninit_ub`).
* C45: `equilibrate_MultiPhaseEquil` for TV returns -1 without an exception if it does not converge, and `equilibrate` reports success (`Gibbs.tv_silent`); a mixture with enthalpy exactly zero cannot be equilibrated at constant HP (`Gibbs.hp_zero`).
* C28: `Sim1D::refine` returns `added || -discarded`, a boolean: after pure pruning it returns 1 where the header promises a negative number, so `Sim1D::solve` repeats and its branch for negative values is dead code (`Refine.refine_ret_prune`, `Refine.refine_ret`).
* C28: the limit `npmax` is checked only before refining: the new grid may have up to `2n-1` points (`Refine.refine_exceeds_max`).
* C28: a point requested by the curvature criterion to the right of a pruned point is dropped, leaving the grid coarser there (`Refine.refine_drops_request`).
* C29: `bound_step` clips the fraction at 0 for the upper bound only; for a value already below its lower bound it is negative (`Newton.boundStep_negative`; `dampStep` then fails with -3).
* C29: after a failure `MultiNewton::solve` leaves the last accepted iterate in `x1`, although the comment says it is reset to `x0` (`Newton.solve_failure_not_reset`).
* C46: `setTimeStepFactor` does not check its argument; with factor 1 and a failing solver `timeStep` never ends (`TimeStep.timeStep_hangs`).
* C19: `newCompositeFunction` merges a power of a power into one power, which is wrong at negative arguments for a non-integer outer exponent: `sqrt(t^2)` becomes `t` (`Func1.newComp_wrong`).
* C19: `isProportional` divides by the factor of a `TimesConstant1`; a functor constructed directly with the factor zero makes simplified sums and differences NaN (`Func1.newSum_wrong`, `Func1.newDiff_wrong`).
* C20: `Log1::derivative` returns `c/t` for `log(c t)`; the derivative is `1/t` (`Func1.deriv_log_wrong`).
* C20: the simplification of powers of powers also makes derivatives of compositions wrong at negative arguments (`Func1.deriv_comp_wrong`).
* C20: Gaussian, polynomial, Fourier, Arrhenius and periodic functors have no derivative; `derivative()` throws (`Func1.deriv_throws`).
* C21: a tabulated functor of the kind "previous" returns at an interior node the value of the node before (`Func1Tab.previous_node`).
* C21: left of a linear table, where the functor is constant, its derivative returns the slope of the first interval (`Func1Tab.deriv_left`).
* C47: `Periodic1` truncates towards zero, so it is not periodic for negative arguments (`Func1.periodic_wrong`).
* C33: `fpValueCheck` accepts numbers without digits (".", "E5", "+.") and returns zero (`Fp.malformed_accepted`).
* C33: given a list of names, `parseCompString` tests whether the name is known before extending it over a colon, so "A:b:1" with the species "A:b" is rejected as unknown species "A" (`CompString.colon_name_rejected`).
* C06: `Reaction::checkSpecies` returns before `checkBalance` for reactions with a third body, so "O2 + M => 5 O + M" is accepted (`Balance.third_body_wrong`).
* C06: `Reaction::checkBalance` skips elements with non-positive total amount, so the charge of "O+ => O++" is not checked (`Balance.charge_wrong`).
* C10: `checkDuplicateStoich` inserts empty entries into the maps it compares, and the next comparison starts from such an entry: "B => A", "A => B", "A => B" passes the check although the last two are undeclared duplicates (`Duplicates.duplicate_missed`).
* C10: species 0 does not contribute to the key and reverse comparison does not look at opposite entries: "C => B + A" and "B <=> C" are reported as duplicates if A is species 0 (`Duplicates.wrong_report`; needs a species A without elements for both to be balanced).
* C10: a reaction without species makes `checkDuplicateStoich` read begin() of an empty map (`Duplicates.empty_reaction_ub`).
* C37: "(+M)" together with any other species on both sides, e.g. "A + B (+M) => A + C (+M)": `Reaction::setEquation` selects "M", which is not in the maps, and dereferences end() (`Equation.falloff_catalyst_ub`).
* C37: an explicit third body is not recognised when the equation is read again if no side has three participants ("A + X => B + X"), or if another species or the same one is on both sides (`Equation.explicit_lost`, `explicit_lost_many`).
* C37: the constructor from compositions makes the only species on both sides the third body but leaves it in the compositions, so it is printed twice and lost on reading (`Equation.implicit_lost`); an equation without third body can gain one (`Equation.third_gained`).
* C37: coefficients are printed with six significant digits (`Equation.coefficient_lost`); equations of reactions without products are rejected (`Equation.empty_products`).
* C48: mole-based reactors pass their own species index to `FlowDevice::outletSpeciesMassFlowRate`, which expects an index of the downstream reactor (MoleReactor.cpp:261, ConstPressureMoleReactor.cpp:89, IdealGasMoleReactor.cpp:130, IdealGasConstPressureMoleReactor.cpp:99): with different species tables nothing or the wrong species leaves the reactor (`ZeroD.mole_outlet_keeps`, `mole_outlet_wrong`; energy: `mole_outlet_energy`).
* C48: species unknown to the downstream reactor add to its mass but to no species, so its mass fractions no longer sum to one (`ZeroD.unknown_species_lost`).
* C48: `MoleReactor::evalSurfaces` divides the molar production rate by the number of sites a species occupies (MoleReactor.cpp:73), so atoms are lost for multi-site species (`ZeroD.bidentate_lost`; the mass-based types are right: `bidentate_mass`).
* C49: a wall moving against a pressure difference removes energy from the network (`ZeroD.piston_loses`); this is the documented friction of walls, not counted as a defect.
* C50: an exception during the evaluation of a reactor leaves its rate multipliers perturbed; `evalNoThrow` reports it as recoverable, so the perturbation accumulates as p^k (`ZeroD.Sens.failure_accumulates`).
* C50: a reaction registered twice as sensitivity parameter keeps the first perturbation after each evaluation (`ZeroD.Sens.duplicate_accumulates`); enthalpies modified before registration are reset to their original values (`modified_lost`).
* C51: the first `advance(time, true)` after (re)initialisation takes an internal step without regard to the target; if the step passes it, `advance` throws "Cannot integrate backwards in time" (`ZeroD.Advance.overshoot_throws`).
* C51: `Reactor::setAdvanceLimit` tests `k > m_nv`, so component `m_nv` (first species of a surface added after initialisation) is written beyond the end (`ZeroD.Advance.setOne_beyond`); limits of a reactor that has grown since are completed with stale entries (`stale_limit`).
* C52: a pressure controller whose primary is a valve of a reactor updated later keeps a rate from the previous pressures (`ZeroD.State.controller_stale`); a controller that is its own primary recurses for ever (`primary_cycle`).
* C52: isothermal reactors of the types with energy equation take the current temperature of a shared phase instead of their own (`ZeroD.State.shared_temperature`; Reactor.cpp:168-170, ConstPressureReactor.cpp:54-56, MoleReactor.cpp:218-220, ConstPressureMoleReactor.cpp:50-52).
* C52: `setChemistry(false)` after an evaluation leaves the last production rates in `m_wdot`, which continue to be applied (`ZeroD.State.chemistry_stale`).
* C52: `MassFlowController::setMassFlowRate` deletes the time function but keeps the pointer (`ZeroD.State.setRate_dangling`).
* C54: `OutletRes1D::eval` compares the component number with `rightExcessSpecies()` without the offset of the mass fractions, so the equation of the sum of mass fractions is overwritten, and for more than six species a wrong one may be kept (`OneDim.Flow.reservoir_wrong`; Boundary1D.cpp:505-507, compare 423-425).
* C54: `ReactingSurf1D` at the left of a flow sets the temperature but adds no production of the surface to the species equations (`OneDim.Flow.left_surface_ignored`; Boundary1D.cpp:719-723).
* C54: `Flow1D::evalEnergy` compares the coordinates `m_z[j]` with the temperatures `m_tLeft`, `m_tRight` instead of the positions of the control points (`OneDim.Flow.control_point_transient`; Flow1D.cpp:678).
* C55: the heat loss `m_qdotRadiation` stays in the energy equation after `enableRadiation(false)`: it is computed only while radiation is enabled but subtracted always (`OneDim.Flow.radiation_stale`; Flow1D.cpp:336-338, 677).
* C55: with wall emissivities the radiative loss of every point depends on the temperatures of the two walls; these entries are missing in the block-tridiagonal Jacobian (`OneDim.Flow.wall_coupling_missed`; Flow1D.cpp:505-507).
* C55: `Flow1D::eval` computes `jg - firstPoint()` modulo 2^64 for the point before the domain; for a flow that does not begin at point 1 the index underflows, the residual next to the boundary is not evaluated and the Jacobian gets entries from an unset residual (`OneDim.Flow.underflow_unevaluated`; Flow1D.cpp:315, 329-331).
* C56: `processRateConstants_ddT` and `_ddP` divide the unmultiplied perturbed rate constant by the multiplied stored one (`m_rfn`), so that for rate types without analytic derivative a multiplier other than 0 and 1 adds an error of order 1/step (`Kinetics.ddT_multiplier_diverges`, `Kinetics.ddP_multiplier_diverges`; BulkKinetics.cpp:605, 614, MultiRate.h:74-122).
* C56: `m_delta_gibbs0` is recomputed only for a new temperature or density (BulkKinetics.cpp:465). After a change of composition at fixed temperature and density the pressure differs; the equilibrium constants stay right (`Kinetics.cached_rkcn_ok`) but `applyEquilibriumConstants_ddT` subtracts Gibbs energies of two different pressures and the reverse and net temperature derivatives get an error of order 1/step (`Kinetics.rev_ddT_stale_diverges`).
* C56 (remark): the effective activation energy of Blowers-Masel rates jumps at a heat of reaction of -4 Ea unless w is infinite (`Rates.Arrhenius.effEa_end`).
* C57: `interfaceCurrent` calls `thermo(iphase)`, which does not check the index (Kinetics.h:239-241): an invalid phase index is undefined behaviour (`Interface.interface_current`).
* C58: the documentation of `setPhaseStability` (InterfaceKinetics.h:245-262) promises that species of an unstable phase are not produced, but `updateROP` looks at the flags only if `m_phaseExistsCheck` is nonzero, that is, if some phase does not exist (`Interface.stability_ignored`).
* C59: `addCoverageDependence` alone does not set the index table read by `updateFromStruct`; evaluation then reads past the coverage vector (`Coverage.add_alone_is_ub`). Setting an empty list of dependencies leaves stale indices and NaN rates (`Coverage.clearing_gives_nan`). A sticking rate moved to another reaction keeps its first sticking species (`Coverage.stale_sticking_species`).
* C60: with `exchange-current-density-formulation`, the exchange current at unit activities and standard equilibrium potential is the given constant times the standard concentrations of the reactants over those of the products, so that the constant is an exchange current density only if these cancel (`Electro.exchange_current_not_constant`).
* C61: `getDerivativeSettings` stores `m_jac_skip_electrochemistry` under "skip-coverage-dependence" and vice versa (InterfaceKinetics.cpp:665-666, `Interface.settings_swapped`). `assertDerivativesValid` lets coverage-dependent sticking rates and rates installed by `modifyReaction` pass, and keeps refusing after the last such rate was replaced (`Interface.guard_misses`). The derivative matrices ignore phase existence (`Interface.jacobian_ignores_existence`).
* C62: `InterfaceData::update` notices neither the pressure of any phase nor the temperature of a bulk phase; partial molar enthalpies, standard chemical potentials and standard concentrations then depend on the history (`InterfaceData.stale_after_pressure_change`).
* C63: `getdlnActCoeffds` adds the temperature part inside the loop over interactions (MargulesVPSSTP.cpp:318), so that it is counted once per interaction (`Margules.margules_ds_wrong`). `s_update_dlnActCoeff_dlnX_diag` contains `2*g1*-2*g0` in place of `2*g1-2*g0` (l. 411-412) and returns zero for every regular solution (`Margules.margules_dlnX_wrong`). `calcDensity` (GibbsExcessVPSSTP.cpp:31-40) ignores the excess volume which `getPartialMolarVolumes` includes (`Margules.density_ignores_excess_volume`).
* C64: `s_update_dlnActCoeff_dX_` does not divide by RT (RedlichKisterVPSSTP.cpp:340), and the entry of species B and column A repeats the formula of species A (l. 364-366) (`RedlichKister.rk_ds_wrong`, `rk_dX_wrong`). Its matrix has the size of the coefficient list of the last interaction instead of the number of species (l. 451), so that `getdlnActCoeffds` is undefined behaviour whenever there are more species than coefficients (`rk_ds_ub`). `getdlnActCoeffdlnN` returns a matrix that is never filled (`rk_dlnN_zero`). `getdlnActCoeffdlnN_diag` (l. 392-401, not modelled) subtracts from entry k before assigning it.
* C66: `PengRobinson::dpdVCalc` (PengRobinson.cpp:618-624) never assigns its reference argument `presCalc`, unlike the same function of Redlich-Kwong. A species with a = 0 has critical temperature 0 (l. 307-316), so that its alpha is not finite; at the temperature at which alpha of a species is zero its derivatives divide by zero. Both are excluded by the hypotheses of the C66 theorems.
* C65, C66: mole fractions below SmallNumber are replaced in the logarithms only, so that the Euler sum of the chemical potentials differs there from the Gibbs energy; the hypotheses exclude them.
* C67: `solveCubic` (MixtureFugacityTP.cpp:784-985) compares the discriminant, which scales with the sixth power of the volume, with absolute tolerances: three different roots at small volumes are reported as a double root, -2 (`Solver.solve_small_is_double`). A double root above the single one is also reported as -2, for which `densityCalc` returns -1.0 and `setPressure` throws although states with the pressure exist (`double_refused`). A double root below the single one is reported as 2 with the larger root in place 1; `densityCalc` takes the gas volume from place 2, which is zero, and returns an infinite density (`gas_volume_zero`). The cube root of a negative number at l. 920 is not a number, which disables the consistency check after it.
* C67: the iteration for nearly ideal states uses `zz + ratio1` where the equation of state has `zz + ratio2` (l. 811), so its limit is not a root (`ideal_not_root`); it is also used for Peng-Robinson, whose attraction term is another one.
* C67: in `densityCalc` the else branch belongs to the wrong test (RedlichKwongMFTP.cpp:590-598, PengRobinson.cpp:523-531): a density passed as guess is replaced by the ideal gas density (`guess_ignored`), and without guess the value -1 is used, so that the liquid root is taken for an undefined phase (`rk_undefined_phase`). `liquidVolEst` changes the pressure through its reference argument; a liquid requested without guess below the estimated saturation pressure is computed at that pressure instead (`rk_liquid_wrong_pressure`). Its loop counter is never incremented (`liquidVolEst_ends` shows that the loop ends nevertheless). At high pressure the two smaller roots are negative, and a liquid request returns a negative density (`liquid_volume_negative`).
* C67: `setPressure` (MixtureFugacityTP.cpp:187-249) returns without doing anything if the gas branch is prescribed and the state is liquid, or if the first liquid branch is prescribed: the test is `> FLUID_LIQUID_0` (`setPressure_ignored`).
* C68: giving the coefficients of a species a second time leaves its cross terms at the values of the first time (RedlichKwongMFTP.cpp:47-66, PengRobinson.cpp:57-71; `Tables.rk_stale`, `pr_stale`). Peng-Robinson marks unset entries by zero, so that a zero given for a pair is replaced when one of its species is given later (`pr_zero_pair`).
* C68: adding a species to a phase that is already set up, as add_species in Python does, resizes the tables without moving entries; since the row length changes, the coefficient of the second species becomes a cross term and stays there when the phase is set up again, and the table is no longer symmetric (`rk_add_scrambles`, `pr_add_scrambles`).
* C68: the cross term of the temperature coefficient is sqrt(a1_i a1_j): not a number for different signs (`rk_mixing_nan`), and positive for two negative values, so that a mixture of two identical species differs from the pure species (`rk_mixing_not_identical`).
* C68: `calcCriticalConditions` tests `deltatc > 0.1` without absolute value (RedlichKwongMFTP.cpp:849); large negative last steps and results that are not numbers are returned without error (`crit_throw_iff`, `crit_nan`).
* C69: for a pure species in a phase of several species, getMixDiffCoeffs and getMixDiffCoeffsMole give zero: the branch for this case (sum2 <= 0) is never taken because the mole fractions were offset before (GasTransport.cpp:189, 219; `Mix.Gas.mixDiff_pure`, `sum2_pos`).
* C70: for a phase with one species the first row of the L matrix is zero, so that the solver fails and thermalConductivity and getThermalDiffCoeffs of the multicomponent model raise an error (MultiTransport.cpp:488-508; `Multi.Data.single_singular`).
* C70: getMassFluxes uses mole fractions without the offset when the temperature is uniform (MultiTransport.cpp:284); a species absent at both points makes the matrix singular (`absent_singular`).
* C70: the search for the largest gradient in getMassFluxes compares a difference with a gradient (MultiTransport.cpp:315-316; `jmaxMass_not_max`); in exact arithmetic the result does not depend on the choice (`any_row`, `stefan_unique`).
* C71: MultiTransport: after thermalConductivity at T1 and viscosity at T2, thermalConductivity at T1 uses diffusion coefficients of T1 with viscosities and prefactors of T2, because updateThermal_T returns early when m_thermal_tlast is the current temperature without looking at m_temp (MultiTransport.cpp:424; `Cache.Multi.conductivity_mixed`). A following query at T2 returns the value computed for T1 (`conductivity_stale`). getMultiDiffCoeffs uses binary coefficients of T2 after getBinaryDiffCoeffs at T2 (`multiDiff_mixed`).
* C71: MultiTransport: getSpeciesFluxes replaces the self-diffusion coefficients that the L matrix needs (`conductivity_after_fluxes`), and without temperature gradient it does not update the mole fractions (`fluxes_stale`). Self-diffusion coefficients returned by getBinaryDiffCoeffs depend on earlier queries (`binary_history`).
* C71: adding a species at unchanged temperature: the viscosity of MixTransport is computed from the resized arrays of the smaller set of species (GasTransport.cpp:30-38; `Cache.Mix.viscosity_stale`); in MultiTransport thermal queries and getMultiDiffCoeffs write beyond the array of mole fractions (`Cache.Multi.species_ub`, `conductivity_species`), binary coefficients are stale (`binary_species`).
* C73: CoverageDependentSurfPhase: _updateCovDepThermo compares the temperature with m_tlast, which SurfPhase::_updateThermo sets. After a change of temperature a call of getGibbs_RT_ref (or another reference state property) makes the next chemical potential that of the old temperature (`CovSurf.stale_chemPot`).
* C73: CoverageDependentSurfPhase: upper_bound finds no entry for a coverage of exactly one, so interpolative and piecewise-linear dependencies throw at full coverage, or read end() if NDEBUG is defined (l. 476-492; `CovSurf.full_coverage`).
* C73: getSpeciesParameters reads three entries of both maps of a piecewise-linear dependency; if only enthalpy or only entropy was given, or the change is at zero or one, the vectors have two (l. 281-290; `CovSurf.piecewise_params_ub`). Polynomial dependencies with fewer than four coefficients are read beyond their end (`polynomial_short`). The demand that tables begin at zero and end at one is never violated because these entries exist from the start (`endpoints_not_checked`).
* C73: addInterpolativeDependency does not invalidate results (`CovSurf.stale_added`). ThermoPhase::invalidateCache adds 0.1234 to the stored temperature; after a temperature rise of that amount nothing is recomputed (`invalidate_stale`).
* C73: the chemical potentials of CoverageDependentSurfPhase do not satisfy the Gibbs-Duhem relation (`CovSurf.gibbs_duhem_fails`), and activity and coverage differ if species occupy several sites (`activity_coverage`).
* C74: the unit string parser accepts a bare prefix as a dimensionless number, because the empty name is a known unit: `h` is 100, `km/h` is 10 metres, `M` is 1e6 (Units.cpp:17-18, 171-178; `Units.Parse.bare_prefix`, `km_per_h`).
* C74: the leading factor of a unit string is read without its exponent: `1e-3 m` throws, and `2E1` is two exa, 2e18, instead of 20 (Units.cpp:136; `exponent_rejected`, `exponent_misread`). Units::str writes factors with exponents, e.g. `1e-06 m`, which the constructor rejects (`micro_not_roundtrip`).
* C74: the pressure and energy pseudo-dimensions are not recovered from a string in base units, but operator== compares them, so Units(u.str()) == u fails for a pascal (`pascal_not_roundtrip`). The table entries `dyn/cm^2`, `m^3` and `J/kmol` can never be found (`unreachable_entries`).
* C75: Array2D::appendColumn writes `value(m_ncols, m)` (row m_ncols, column m) instead of `value(m, m_ncols)`: out of bounds exactly if there is one row or at least ncols+1 rows, otherwise existing elements are overwritten and the new column stays zero (Array.cpp:54-70; `Dense.appendColumn_ub_iff`, `appendColumn_wrong`). On a DenseMatrix it leaves m_colPts too short, so a later product reads beyond it (`append_then_mult`).
* C75: Array2D::resize with another number of rows does not keep elements at their positions (Array.cpp; `resize_moves`). The copy constructor of DenseMatrix drops m_useReturnErrorCode and m_printLevel, the assignment keeps them (`copy_flags`). Assigning a matrix with columns but no rows takes the address of an element which does not exist (DenseMatrix.cpp:52-54; `assign_empty`).
* C75: without LAPACK, in release builds, solve returns 0 for a singular matrix; in debug builds it throws even if return codes were requested (`solve_singular`). LAPACK overwrites A with its factors, Eigen leaves it unchanged (`solve_overwrites`). The member `Array2D::operator*=(double)` (Array.h:195) is declared but never defined and makes the free function ambiguous.
* C76: findGroups stores the invalid group `b0` instead of `b1` in the transfer table when only the second product can be compared with the first reactant (ReactionPath.cpp:529, 539): for OH + CH4 = CH3 + H2O with the species in the order OH, CH3, CH4, H2O the hydrogen atom going from CH4 to H2O is missing in the diagram (`RPath.two_swapped`, `two_swapped'`, `swapped_lost`).
* C76: SpeciesNode::addPath adds the flow of a path when the path is constructed, when it is still zero, so inflow(), outflow() and netOutflow() are always zero (ReactionPath.cpp:23-33, 44-49; `node_flows_zero`).
* C76: a second call of build() adds the flows again, so after a change of state the diagram shows the sum of both states (`build_twice`); a second init() of a builder doubles m_elatoms and makes determinate reactions disappear (`init_twice`). Fractional coefficients are rounded up (615-620; `fractional`).
* C76: ReactionPathDiagram::add ignores paths which exist only in the other diagram (130-138; `add_loses`). hasNode and node insert null pointers, after which the export reads beyond m_speciesNumber (`hasNode_breaks`). Unknown included or excluded species index with npos (757, 760; `build_unknown_species`); the list of included species has no effect (`included_no_effect`); an unknown element counts as built (`build_unknown`). A scale of zero is a division by zero for one-way flows (357-367; `oneWay_zero_scale`), and nodes stay visible when a scale is given (`stale_visible`). For one-way flows with a given arrow width the bracket `[` of the attributes is not written (388). Reaction 0 and its reverse have the same number (`number_of_reverse`). Group::validate does not clear the numbers of atoms as documented (`group_invalid_stays`).
* C77: in setState_HPorUV `double v = p` (ThermoPhase.cpp:270) declares a second variable, so the error of setState_UV always reports the specific volume zero (`SetState.hp_reported`). A failure leaves the phase at the last temperature of the iteration, 50 300 K in the witness (`hp_failure_keeps_last`), unlike setState_TP, which restores the state.
* C77: `Tnew = Tmax + 1.0` and `Tnew = Tmin - 1.0` (352, 365, 547, 559) have no effect because `Tnew = Told + dt` follows (374, 568): a state above maxTemp is accepted without error (`hp_outside_limits`).
* C77: the criterion `fabs(dt/Tnew) < rtol` accepts a small step whatever the error: with a large heat capacity over a tiny range the enthalpy returned is 100 for a target of 1000 (`hp_false_convergence`).
* C77: with minTemp = 0 (the default of constant-cp species) a Newton step below -0.1 K makes the check of the minimum set a negative temperature, which throws, although the later limit to Told/3 would have been safe (356-357; `hp_cold_throws`, `hp_cold_witness`). setState_SP has no such limit at all: with constant heat capacity every target temperature below T0/e fails from T0 <= 100 K (`sp_cold_throws`).
* C77: setState with T and U ignores U and sets one atmosphere (`dispatch_TU_ignored`); X and Y together ignore Y, and with no other key throw after the composition has been changed (`setState_XY`). setState_TP of an incompressible phase replaces the original error by that of setDensity (129; `setTP_masks`).
* C79: LatticePhase::getPartialMolarEnthalpies (LatticePhase.cpp:107-111) and getStandardChemPotentials (135-139) lack the term (P - Pref) V_k which getChemPotentials, getEnthalpy_RT, getGibbs_RT and getPureGibbs have: off the reference pressure the partial molar enthalpies do not add up to enthalpy_mole, and mu is not mu0 + R T ln X (`IdealSoln.Lattice.enthalpy_diff`, `stdChemPot_diff`, `lattice_witness`).
* C79: LatticePhase takes the molar volume of the phase from the site density but accepts other molar volumes for species; then gibbs_mole is not sum X mu (`gibbs_diff`). setSiteDensity does not recompute the density (`setSiteDensity_stale`).
* C79: IdealSolidSolnPhase::setToEquilState (IdealSolidSolnPhase.cpp:373-401) treats the solid as a gas: it sets the pressure to Pref * sum exp(mu - g), which adds a pressure term to the potentials and does not give those asked for (`setToEquilState_spec`, `setToEquilState_witness`).
* C80: LatticeSolidPhase tests `lkstart_[n+1] < k` where `k < lkstart_[n+1]` is meant (LatticeSolidPhase.cpp:30, 46, 430, 444). minTemp(k) and maxTemp(k) give the limits of the whole phase or of lattice 0 (`LatticeSolid.lookup_wrong`, `minTemp_eq`); modifyOneHf298SS and resetHf298(k) address only indices out of range, which MultiSpeciesThermo ignores, so they never change anything (`modifyHf_nothing`).
* C80: restoreState calls setMoleFractions_NoNorm, which LatticeSolidPhase does not override: the sublattices, from which all properties are computed, keep the composition set last. _updateThermo does not repair this because getMoleFractions(m_x.data()) compares m_x with itself; a call of getMoleFractions by the user then throws "internal error" (`restore_stale`, `updateThermo_id`).
* C80: the molar properties of LatticeSolidPhase are per formula unit (sum of theta_n), but the mole fractions and the mean molecular weight of the phase weight each lattice with 1/N; unless theta_n = 1/N the molar values are not averages of the partial molar ones, and specific values are wrong by the same factor (`molar_meanX_refuted`).
* C80: setLatticeStoichiometry (381-393) uses -theta_0 for lattice 0 and theta_i for lattice i; moles in the ratio theta_0 : theta_i give zero only if the two are equal; the coefficients are exchanged (`constraint_refuted`).
* C81: BinarySolutionTabulatedThermo::interpolate (BinarySolutionTabulatedThermo.cpp:172-175) reads inputData[-1] when the mole fraction equals the first point of the table, for example the pure other species with a table which starts at 0 (`BinaryTab.interpolate_first`, `calcDensity_first`; `interpolate_ok_iff` shows it is the only such point).
* C81: `GasConstant/Faraday*std::log(...)` (51) adds an entropy in the ratio of the standard concentrations to the tabulated species; the chemical potentials do not contain standard concentrations, so for `species-molar-volume` the tabulated reaction energy is not reproduced (`reaction_gibbs`, `reaction_refuted`).
* C82: IdealMolalSoln::getPartialMolarEntropies (IdealMolalSoln.cpp:216-243) takes the dimensionless entropies from getEntropy_R and never multiplies them with GasConstant before subtracting R ln a: chemical potentials are not h - T s, and entropy_mole, which averages them, is wrong as well (`Molal.entropy_defect`, `entropy_wrong`).
* C82: setMolalitiesByName changes the molality of the ion with the largest charge to restore neutrality without a notice, and ignores entries which are zero, so a solute cannot be removed by name (`Molal.setByName_changes`, `byName_zero`).
* C82: calcIMSCutoffParams_ iterates with the factor exp(-r)(2+r)/(2-r), r = X_o/c, which is larger than one for r < 2: such cutoffs always throw, though the linear equation has a solution (`Molal.coefE_sub`, `factor_gt`, `loop_fails`, `calcCut_fails`).
* C83: PDSS_ConstVol::intEnergy_mole and PDSS_SSVol::intEnergy_mole use the reference enthalpy with the actual pressure: h0 - pV instead of h - pV; cv_mole subtracts the molar volume, a number of other dimension, from cp (`Pdss.ConstVol.intEnergy_defect`, `cv_defect`, `SSVol.intEnergy_defect`).
* C83: PDSS_SSVol.cpp:131, 153: the pressure term of cp/R, T dp d2V/dT2, is not divided by the gas constant, so cp is off by a factor of 8314 in this term (`Pdss.SSVol.cp_defect`).
* C83: PDSS_Water::gibbs_RT_ref (PDSS_Water.cpp:87-93) uses enthalpy_mass where gibbs_mass is meant (`Pdss.Water.gibbsRef_defect`).
* C83: VPStandardStateTP::getStandardVolumes_ref returns the volumes at the pressure of the phase (`Pdss.VP.volumeRef_defect`).
* C83/C85: invalidateCache adds 0.1234 to the stored temperature; at exactly that temperature reference values are not recomputed (`Pdss.VP.invalidate_ref_stale`, `Stoich.invalidate_stale`).
* C84: PDSS_HKFT::deltaS has a constant term (line 432) without counterpart in deltaG, so dG/dT is not -S; cp_mole has the same constant (line 100), so it is not T dS/dT (`Hkft.gibbs_T`, `entropy_T`). PDSS_HKFT::intEnergy_mole uses enthalpy_RT (`intEnergy_defect`). In f the pressure factor multiplies one term of the value but both terms of the derivatives; the value jumps at 1000 bar and its derivative is not zero above 355 C (`f_T_defect`, `f_jump`, `f_hot_refuted`).
* C84: WaterProps::ADebye divides the difference of expansion coefficients by the temperature instead of the temperature step (line 194, `Hkft.WP.A1_T`); below the vapor pressure its pressure derivative is not that of the value (`ADebye_below`). WaterProps::density_T declares its temperature `static`, so every call uses the temperature of the first one (`densityT_stuck`).
* C84: PDSS_HKFT::initThermo calls m_waterProps->relEpsilon (lines 262, 266) before m_waterProps is created (line 268): undefined behaviour, harmless only as relEpsilon does not touch the object. With two of h0, g0, s0 missing the object is made with NaN values without an error (`Hkft.init_two_missing`).
* C85: setState_SP from 50 K to the entropy at 10 K takes a Newton step below zero and throws (`Stoich.setSP_refuted`); when setState_HP throws the temperature was changed (`loop_far`).
* C86: LinearBurkeRate accepts unknown collider names and then reads moleFractions[npos] (`Burke.unknown_ub`); a collider with efficiency A = 0 divides by zero or dereferences end() even when absent (`zero_efficiency`); a collider listed twice is subtracted twice and can make the rate negative (`listed_twice`); an empty list reads colliders[0] (`set_empty`); a second setParameters appends (`set_again`); LinearBurkeData::update before resizing writes out of range (`update_not_resized`).
* C87: DebyeHuckel.cpp:1063-1066 and 1169-1172: the second temperature derivative and the pressure derivative of the solvent in the dilute form contain the ideal part (`DH.dilute_defect`); line 1179 clears m_lnActCoeffMolal instead of the pressure derivative; the derivatives ignore the Helgeson form (`helgeson_deriv_refuted`), in which neutral solutes do not change the water activity (`helgeson_neutral`).
* C87: an ionic radius of zero gives 0/0 in the forms with own radii and the Pitzer form (`DH.zero_radius_ak`, `zero_radius_pitzer`); a zero solvent radius is allowed for in the coefficients (line 796) but not in the derivatives (line 974, `zero_solvent_radius`); setBeta without a beta model writes out of range (`setBeta_no_table`); choosing a model after species were added scrambles the table (`setModel_scrambled`); cp lacks a term when dA/dT = 0 (`cp_flat`).
* C88: AdaptivePreconditioner.cpp:30-35 tests the drop tolerance a second time instead of the fill factor, so the default fill factor is never set (`Precon.fill_mismatch`); EigenSparseJacobian::matrix() rebuilds and refactorizes (`getMatrix_changes`); Integrator::setPreconditioner stores the object before refusing the side (`setPrecon_bad`); a network without preconditioner never removes an old one (`netInit_none`); BAND ignores the preconditioner (`applyOptions_band`); cvodes_prec_setup with jok calls updatePreconditioner without the wrapper that catches exceptions (CVodesIntegrator.cpp:80).
* C89: with dependent elements (water as liquid and vapor alone) MultiPhaseEquil has no reaction, the error is zero and equilibrate returns at once without any change (`MPE.incomplete`, `no_reactions`, `frozen`): m_nel is not reduced to the rank.
* C89: MultiPhaseEquil::step scales species below 1e-12 kmol by themselves without the matching change of the components (`MPE.step_defect`, `step_refuted`).
* C89: MultiPhaseEquil::error lines 636-638 have no effect, the next statement overwrites err (`MPE.trace_counts`); getStoichVector tests `rxn > nFree()` and reads behind the matrix for nFree (`stoichVector_spec`); m_force is never reset after the constructor (`recomputes_spec`); without included species line 356 wraps around (`no_species`); setInitialMoles adds 1e10 kmol of a species without elements (`init_unbounded`).
* C90/C91: WaterPropsIAPWSphi.cpp:593-594 divides by deltam1 and by its square: phiR_dd is NaN on the critical isochore at every temperature although the derivative exists (`Iapws.critical_density`); dpdrho, compressibility, expansion coefficient and cp are NaN at 322 kg/m³ (`critical_isochore`), dfind started there returns 0 and density_const with that guess -1 (`dfind_critical`, `densityConst_spec`).
* C90: dfind limits the step to 0.05 (line 913) while the comment says 0.02; with a guess of exactly one and a negative slope it repeats the same density.
* C91: WaterPropsIAPWS.cpp:313 tests `delGRT < 1.0E-8` without fabs: psat stops after one correction whenever the liquid has the smaller Gibbs energy (`Iapws.psat_one_step`, `psat_not_converged`); running out of passes is not reported (`psat_no_convergence_error`).
* C91: phaseState reports WATER_UNSTABLELIQUID where the second density derivative of the pressure is negative, the reverse of WaterPropsIAPWS.h:23-27 (`Iapws.unstable_flag_reversed`); at T = T_c the flag stored by calcDim and the recomputed one differ (`phase_at_Tc`); on the critical isochore below T_c the flag is WATER_UNSTABLEGAS because of the NaN (`phase_critical_density`).
* C91: densSpinodalWater and densSpinodalSteam throw with the last estimate left as the density (`Iapws.spinodal_failure`).
* C92: PlasmaPhase.cpp:86-89 uses gamma(3x/2), gamma(5x/2) and a factor x in c2 where normalisation needs gamma(3/(2x)), gamma(5/(2x)): the isotropic distribution is neither normalised nor of mean energy 3/2 kT except for x = 1 (`Plasma.druyvesteyn_refuted`, `maxwell`).
* C92: refused energy levels have already replaced the old ones (`Plasma.setLevels_refused`); setters that do not apply to a discretized distribution change the state before the distribution is recomputed (`setters_discretized`, `setTe_discretized`); a distribution of zeros is accepted and becomes NaN (`zero_distribution`); one level makes the derivative read out of range (`one_level`); setParameters accepts an unknown type (`unknown_type`); the constructor from a file overwrites levels and electron temperature (`construct_overwrites`).
* C93: the quadrature method is not part of the key of the cached elastic loss (`Plasma.quadrature_ignored`); setting collisions again does not clear m_interp_cs_ready (`setCollisions_again`); a change of levels without update is missed by the rate data (`level_change_missed`); before any level is set the level number -1 matches and no interpolation is made (`default_grid`); Simpson's rule on uneven levels has negative weights and gives a negative rate (`negative_rate`).
* C93: a second electron species is refused after having been added (`Plasma.second_electron`); a skipped electron species sets the electron index to the last species (`skipped_electron`); the partial molar entropy and chemical potential of the electron count its mole fraction twice (`electron`, `electron_equal_temperatures`).
* C94: when the species are exhausted, BasisOptimize.cpp:124-128 leaves only the inner loop and the exchange of lines 178-189 still takes place, moving species 0 out of the components (`Basis.exhausted_exchange`: components O, O2 for a mixture of H2, O2, O).
* C94: the limit 1e-6 on the squared length is absolute: C1000H and C1001H count as one component (`Basis.independent_rejected`).
* C94: ElemRearrange: the second search (BasisOptimize.cpp:366-372) always overwrites the first, so abundant elements are not preferred (`Basis.abundance_ignored`); an abundance of exactly -1 (a charge balance) is taken for the mark of a used element (`abundance_minus_one`).
* C95: FlowReactor.cpp:254 assigns `sk_wk` instead of adding to it, so only the wall mass of the last gas species enters continuity, momentum and energy (`Pfr.wall_mass`, `exchange_not_conserved`); the initial derivatives use the full sum, so they do not satisfy the residual (`initial_residual`).
* C95: the composition term of the differentiated gas law lacks the gas constant (FlowReactor.cpp:87, `Pfr.initial_gas_law`, `initial_gas_law_iff`, `initial_gas_law_refuted`).
* C95: evalDae writes the surface rates into the derivative vector of the integrator (FlowReactor.cpp:250, `Pfr.derivative_overwritten`); surfaces that share a kinetics object all use the coverages set last (`shared_kinetics`); the surface area multiplies the rates in addition to the area per volume (`gas_production`); without chemistry the last rates stay in use (`chemistry_off`); ReactorNet.cpp:386 passes the whole vectors without the offset of the reactor (`network_offset`, `evalDae_size`).
* C95: the density equation is algebraic but marked differential (`Pfr.density_constraint`); changing the gas after the mass flow rate was set keeps the speed, not the flow (`sync_changes_flow`); a gas species called like a component or like a surface species hides it (`name_hidden`).
* C96: Substance::set_TPp always makes one pass: a starting density with exactly the requested pressure ends in "dv = 0 and no convergence", and the density is left 0.1 percent off (`Tpx.exact_start_fails`, `lin_exact`).
* C96: a failed update_sat leaves density, Rhf and Rhv changed while Tslast and Pst still name the old temperature, so the next call at that temperature uses wrong densities (`Tpx.updateSat_fail`, `failed_update_corrupts`); equal densities are accepted as saturated phases (`trivial_root`).
* C96: Tsat returns the temperature after one more unchecked correction, possibly above the critical temperature (`Tpx.Tsat_ok`, `Tsat_above_critical`).
* C96: state changed by refused calls: Set(PX) with a bad quality sets the lowest temperature (`Tpx.setPX_refused`), Set(TV) with a bad volume changes the temperature (`setTV_bad_volume`), Set(TP) at saturation or with a negative pressure changes the temperature (`setTP_saturated`, `setTP_negative`, the latter reported as a saturated mixture), a lever rule below the lowest temperature keeps that temperature (`leverT_keeps_bad_temperature`).
* C96: at the critical temperature any quality can be set but 0 or 1 is read (`Tpx.critical_quality`); a pressure of zero can never be set (`zero_pressure`, `zero_pressure_TP`); a density of exactly 999.1234 kg/m3 is taken for a new object (`undef_density`).
* C97: HFC134a::Tcrit() is 374.21 K and Pcrit() 4059280 Pa but the correlations use Tc = 374.18 K and Pc = 4056290 Pa, so P(), x() and Ps() throw between the two temperatures and the vapour pressure never reaches Pcrit() (`TpxFluids.hfc_gap`, `hfc_Psat_lt`).
* C97: the ideal gas heat capacity of hydrogen jumps at 400 K, so energy and entropy are not differentiable there (`TpxFluids.hydrogen_kink`, `hydrogen_not_differentiable`).
* C97: the gas constants of methane and heptane times their molar masses differ from the universal gas constant by more than 1.5 J/kmol/K (`TpxFluids.gas_constant`), so these phases do not approach the ideal gas of the rest of the library exactly.
* C98: PureFluidPhase::setTemperature stores the new temperature in the phase before the substance checks its range, so the two differ after the exception (`PureFluid.setTemperature_range`, `setTemperature_breaks`).
* C98: satPressure(t) moves the substance to t and leaves the phase (`PureFluid.satPressure_breaks`); setState_TPQ with inconsistent arguments throws after that move (`setStateTPQ_inconsistent`). Gibbs energies are then wrong (`gibbs_unsynced`).
* C98: one setState_TP of HFC-134a between 374.18 K and 374.21 K leaves the substance in the gap of C97; after it setTemperature and setState_TP throw for every argument (`PureFluid.restore_fails`, `hfc_gets_stuck`, `hfc_stuck`).
* C98: reference-state functions do not restore the substance when setting the low pressure throws (`PureFluid.atLow_fail`).
* C98: phaseOfMatter calls a superheated liquid "gas" (`PureFluid.superheated_liquid`); initThermo leaves the phase with a temperature and density unlike those of the substance (`initThermo_ok`); fullStates lists "DP", which has no setter for pure fluids (`fullStates_spec`).
* C99: ImplicitSurfChem.cpp:169 subtracts `ydot[k]` instead of `ydot[k + loc]`: on every surface after the first the derivative of the first species is computed from the entries of the first surfaces, so coverages do not keep their sum (`ISurf.eval_later`, `second_surface_wrong`), and may read an entry not yet written (`stale_entry`).
* C99: setConcSpecies calls Phase::setConcentrations, which throws for surfaces because they are not compressible; so the filter for negative concentrations and the second attempt of solvePseudoSteadyStateProblem always end in that exception (`ISurf.negative_refused`, `pss_spec`), and the surface keeps the last iterate.
* C99: solvePseudoSteadyStateProblem sets all gas phases to the pressure stored with the surface phase (ImplicitSurfChem.cpp:206, 212; `ISurf.gas_pressure_replaced`).
* C99: solveSurfProb returns success if the last update is small, also after 1000 passes without convergence or before the end of the integration time (`SolveSP.success_unconverged`, `transient_damped`), and if the norms are not numbers, when the concentrations are cropped to zero (`nan_success`, `crop_spec`).
* C99: calc_damping compares concentrations in kmol/m2 with one, so fractions are not bounded by one (`SolveSP.damping_not_fraction`); its lower limit lets unknowns leave the range (`damping_limit_breaks`); its static variable carries over between solves and objects (`damping_memory`).
* C99: the site equation of solveSP sums concentrations without sizes, so with species of several sites the time steps are wrong for the largest species (`SolveSP.multisite_wrong`).
* C100: WaterSSTP::setPressure calls psat, which moves the equation of state object to the saturated liquid, before it refuses the pressure; afterwards pressure() and all properties are those of the saturated liquid while density() is the old one (`WaterSSTP.setPressure_below`, `gibbs_unsynced`).
* C100: after a failing root search setPressure leaves the object at the guess of 1000 kg/m3 (`WaterSSTP.setPressure_noroot`), getCp_R_ref at density minus one (`cpRef_fail`), dthermalExpansionCoeffdT 0.04 K too low (`dAlpha_fail`), satPressure at the other temperature (`satPressure_fail`).
* C100: the reference functions restore the object by a new root search for the old pressure, not by setting the old density, so the density may differ afterwards (`WaterSSTP.atRef_ok`).
* C100: initThermo clears the entropy offset but not the enthalpy offset; in a second call any rounding difference replaces the offset by that difference (`WaterSSTP.initThermo_ok`, last part).
* C100: vaporFraction is zero for steam below the critical temperature although phaseOfMatter says gas (`WaterSSTP.steam_fraction`).
* C100: WaterTransport does not check its range: viscosity is negative up to 150 K (`WaterTr.viscosity_neg`), conductivity is not a number unless the compressibility is positive (`conductivity_none`).
* C101: VPStandardStateTP::addSpecies installs default SpeciesThermoInterpType objects whose reference pressure is zero (VPStandardStateTP.cpp:174), so refPressure() is zero and IdealSolnGasVPSS::setToEquilState makes all partial pressures zero; mole fractions become 0/0 and the density is refused (`VpssIdeal.refPressure_zero`, `equil_never`).
* C101: with a positive reference pressure setToEquilState would still assume ideal gas standard states; for condensed species the potentials are not those asked for (`VpssIdeal.equil_ok`, `equil_condensed`).
* C101: IdealSolnGasVPSS::cv_mole is cp - R also for species of constant volume, whose heat capacities are equal (`VpssIdeal.cv_wrong`).
* C101: a change of mole fractions does not update the density of VPStandardStateTP phases until temperature or pressure is set (`VpssIdeal.stale_density`, `fresh_density`).
* C102: Species::parameters writes the size under "size", newSpecies reads "sites" (Species.cpp:81-85, 124): without the stored input the size is lost, and a size changed in the program is lost always (`SpeciesData.roundtrip_size_lost`, `changed_size_lost`).
* C102: Species::parameters writes "charge", newSpecies never reads it; a charge not given by electrons in the composition is lost (`SpeciesData.charge_lost`, `keys_ignored`).
* C102: Species::molecularWeight skips names that are not elements, so a species of custom elements has weight zero there (`SpeciesData.weight_unknown`).
* C102: GasTransportData::validate accepts "atom" for a species without atoms and does not check the acentric factor (`SpeciesData.validate_gaps`).
* C103: IonGasTransport::init appends to m_speciesCharge, m_kIon and m_kNeutral (IonGasTransport.cpp:26-55); GasTransport::update_T calls init again when a species has been added to the phase, after which neutrals count twice and an added species gets the charge of the first one (`IonGas.reinit_twice`, `reinit_ion_neutral`, `viscosity_double`).
* C103: thermalConductivity averages over neutrals with fractions that do not sum to one: with neutral fraction f and equal conductivities it gives (f + 1/f)/2 times the value, more than any species has, without bound as f goes to zero (`IonGas.conductivity_uniform`, `conductivity_exceeds`, `conductivity_unbounded`).
* C103: ion mobilities do not contain the charge of the ion (`IonGas.mobility_charge`); the mobility and diffusion coefficient of the electron do not depend on pressure (`electron_pressure`).
* C103: the low temperature fit of omega11_n64 is negative for reduced temperature exp(-4) and gamma 2, and nothing checks it (`IonGas.omega_negative`).
* C104: if no species is named E, IonFlow::IonFlow calls setBounds(c_offset_Y + npos, -1e-18, 1.0), which wraps to c_offset_Uo: the velocity of the oxidiser is limited to at most 1 m/s (`IonFlow.bounds_no_electron`); setElectronTransport then writes outside m_mobility at the first point and over the last species of the previous point elsewhere (`import_no_electron`).
* C104: in the first stage the correction flux of the neutral species leaves a total flux equal to the uncorrected sum times the mass fraction of the ions (`IonFlow.frozen_sum`, `frozen_not_zero`); the second stage divides by the neutral fraction and is right (`electric_sum`).
* C104: m_do_electric_field is never read by the residual, only by doElectricField and _finalize: solveElectricField and fixElectricField do not switch the field (`IonFlow.flags_unused`); fixElectricField also switches off the refinement on U, V and T (`fix_refiner`).
* C104: with flux-gradient basis mass the coefficients for mass fraction gradients are multiplied by mole fraction gradients (`IonFlow.mass_basis_mixed`).
* C104: in the second stage the residual of an ion at the left point is Y(0) - Y(1), to which Inlet1D::eval still adds mdot times its inlet mass fraction (`IonFlow.inlet_ion`); if the excess species at the left is an ion its equation for the sum of mass fractions is overwritten (`left_excess_ion`).
* C105: takahashiCorrectionFactor returns exactly 1 below the reduced pressure 0.1 and the first column of the table from there on, although its comment speaks of an interpolation towards 1: at the critical temperature it jumps from 1 to 0.9716 (`HighP.takahashi_jump`); far below the critical temperature it is negative (`takahashi_negative`) and the caller then takes 1e-20 as the factor.
* C105: initializeCriticalProperties and its helpers set the phase to each pure species in turn and restore the composition at the end only: if a species has no critical temperature the exception leaves the phase at that pure species (`HighP.initCrit_throw`).
* C105: the Chung viscosity of a mixture takes the molar density as mass density over the effective molecular weight of the mixing rule, not over the mean molecular weight: for an equal mixture of weights 1 and 49 it is too large by a factor 3.4 (`HighP.chung_density`).
* C106: MMCollisionInt::omega22, astar, bstar and cstar limit the end of the three entries to 36, one less than the length of the tables: the last row, for the reduced temperature 100, is never used (`CollInt.last_unused`) and at 100 the tabulated value is not returned (`last_wrong`).
* C106: if the reduced temperatures of a phase span fewer than nine entries of the table, GasTransport fits polynomials of degree 8 to too few points and polyfit throws: for example from 2.2 to 6.6, argon between 300 and 900 K (`CollInt.narrow_range`).
* C106: the polynomials of degree six in delta do not pass through the eight tabulated values (`CollInt.row0_inexact`), so that at delta = 0, where the table itself is used, the result jumps.
* C106: polyfit ignores the weights if the first one is zero, documented is only a negative first weight (`CollInt.factor_off`).
* C107: vcs_VolPhase::setMoleFractions starts its sum at -1 and divides by it: whenever it scales at all the result does not sum to one (`VolPhase.setX_not_normal`), and fractions with a sum below one become negative (`setX_negative`).
* C107: _updateLnActCoeffJac calls it with the current fractions, whose sum is less than one in a phase with inert moles: all mole fractions are negative afterwards (`VolPhase.jac_inert`). For a phase without moles it works with one mole and stores that as the total (`jac_creates_moles`).
* C107: for ideal solutions new mole numbers do not reset m_UpToDate_VolPM, which also guards the total volume: sendToVCS_VolPM returns the first volume ever computed at this temperature and pressure (`VolPhase.volume_stale`).
* C107: setPtrThermoPhase stores temperature and pressure of the new phase before it calls setState_TP, which then returns at once: cached properties of the previous phase stay valid (`VolPhase.setPtr_stale`).
* C107: transferElementsFM writes one entry behind the end of m_elementType and m_elementNames for a phase with charged species and no element E (`VolPhase.transfer_ub`).
* C107: setMoleFractionsState with zero total moles always throws for a phase with inert moles, after it has stored the zero and marked itself up to date (`VolPhase.setFrac_inert`).
* C108: for the electron the tolerance of ChemEquil::equilibrate is its goal times the relative tolerance plus 1e-13; a mixture with net positive charge has a negative goal, the tolerance is negative and the test can never pass (`ChemEq.conv_charged`).
* C108: the convergence test divides by the fixed property; for a value of exactly zero it never passes (`ChemEq.conv_zero`).
* C108: HP, UV, SP or SV with the phase at exactly its maximum temperature: the first bracket has zero width, the secant step is NaN, `clip` turns it into +200, and the search ends with "T out of bounds" (`ChemEq.search_at_max`).
* C108: the cases PT, PH, PS, VS, VT, VU of the switch cannot be reached; `_equilflag` rejects these strings (`ChemEq.reverse_unreachable`).
* C108: adjustEloc scales all ions of one sign to make the charge zero, which changes the abundance of the other elements in them (`ChemEq.adjust_changes_elements`).
* C109: MolalityVPSSTP::setpHScale stores an unknown scale before it throws (`PhScale.setScale_keeps_bad`); in release builds it then acts as the NBS scale (`bad_is_nbs`).
* C109: setpHScale does not invalidate the cached scaled coefficients of HMWSoln: getActivities and getChemPotentials keep the old scale until the state changes (`PhScale.setScale_stale`), while getMolalityActivityCoefficients uses the new one.
* C109: with the NBS scale and no species Cl-, m_indexCLM is npos and is used as an index (`PhScale.scale_ub`).
* C109: in findCLMIndex the `continue` for further elements belongs to the inner loop and has no effect (`PhScale.findCl_ignores`).
* C110: newSpeciesThermoInterpType maps the name "nasa9" to NASA9, for which the second function has no case: the name is known and always throws (`ThermoFactory.nasa9_refused`).
* C110: setupNasaPoly and setupShomatePoly accept temperatures in any order, with a lower limit above the upper one (`ThermoFactory.setup7_unordered`).
* C110: setupNasa9Poly keeps regions in a map by their first temperature: of two ranges with the same temperature the first is lost (`ThermoFactory.regions_lost`), and for falling temperatures the regions are assigned wrong intervals (`upper_falling`).
* C111: Solution keeps adjacent phases by the name they had when added: after setName lookup works with the old name only (`Solution.renamed`), and a second phase with the new name is accepted (`renamed_twice`).
* C111: Solution::setThermo dereferences a null pointer, while setKinetics and setTransport accept one (`Solution.setThermo_null`).
