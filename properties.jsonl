{"id": "C01", "title": "Stoichiometric accumulators equal the stoichiometric matrix product", "statement": "For any sequence of reactions added to a kinetics manager (with integer, repeated or fractional coefficients and any number of participants), the creation, destruction and reaction-delta vectors computed from rates of progress R and species properties G equal the mathematically defined sums over the declared stoichiometric coefficients (sum_i nu_ki R_i and sum_k nu_ki G_k), no matter which specialised one-, two-, three- or N-species handler each reaction was assigned to.", "quantifier": "every finite list of reactions, every coefficient and order vector accepted by add, every species count, every R and G vector", "why_tests_cant": "The number of reactions, species, coefficients and their arrangement over the specialised handlers is unbounded; a test samples a few mechanisms.", "anchors": ["include/cantera/kinetics/StoichManager.h:C1", "include/cantera/kinetics/StoichManager.h:C2", "include/cantera/kinetics/StoichManager.h:C3", "include/cantera/kinetics/StoichManager.h:C_AnyN", "include/cantera/kinetics/StoichManager.h:StoichManagerN::add"]}
{"id": "C02", "title": "Mass-action rates are the product of concentrations to the reaction orders", "statement": "For every reaction and every vector of non-negative concentrations, forward rate of progress = rate coefficient times the product over participants of c_k^order_k, independently of the handler; with negative concentrations, no reaction of second or higher order yields a positive rate out of an even number of negative concentrations.", "quantifier": "all reactions, all orders, all concentration vectors", "why_tests_cant": "Infinite family of orders and concentration values; sign combinations multiply with reaction size.", "anchors": ["include/cantera/kinetics/StoichManager.h:C2::multiply", "include/cantera/kinetics/StoichManager.h:C3::multiply", "include/cantera/kinetics/StoichManager.h:C_AnyN::multiply"]}
{"id": "C03", "title": "Net production = creation - destruction", "statement": "getNetProductionRates returns exactly getCreationRates minus getDestructionRates, species by species, for every mechanism and every state in which net rates of progress are forward minus reverse.", "quantifier": "all mechanisms (reversible or not), all forward/reverse rate vectors", "why_tests_cant": "Needs to hold for all mechanisms and rates.", "anchors": ["src/kinetics/Kinetics.cpp:Kinetics::getNetProductionRates", "src/kinetics/Kinetics.cpp:Kinetics::getCreationRates", "src/kinetics/Kinetics.cpp:Kinetics::getDestructionRates"]}
{"id": "C04", "title": "Balanced mechanisms conserve elements and mass", "statement": "If every reaction conserves each element, the element-weighted sum of net production rates vanishes for every element and (hence) so does the mass-weighted sum, for all rates of progress.", "quantifier": "all balanced mechanisms, all rates of progress, all element compositions", "why_tests_cant": "Conservation is an identity over an infinite family of mechanisms and states.", "anchors": ["src/kinetics/Kinetics.cpp:Kinetics::getNetProductionRates", "src/kinetics/Kinetics.cpp:Kinetics::checkReactionBalance"]}
{"id": "C05", "title": "Concentration derivatives of mass-action rates are the true partial derivatives", "statement": "The Jacobian entries returned for derivatives of rates of progress with respect to species concentrations are the exact partial derivatives of the product of concentrations, for every reaction form.", "quantifier": "all reactions with integer/fractional orders, all positive concentrations", "why_tests_cant": "Finite-difference tests check isolated points to a tolerance only.", "anchors": ["include/cantera/kinetics/StoichManager.h:C2::derivatives", "include/cantera/kinetics/StoichManager.h:C3::derivatives", "include/cantera/kinetics/StoichManager.h:C_AnyN::derivatives"]}
{"id": "C06", "title": "Accepted reactions are element balanced", "statement": "Every reaction accepted by a kinetics object conserves each element to the documented relative tolerance (1e-4), including charge, surface and third-body reactions.", "quantifier": "all reactions and all species compositions", "why_tests_cant": "The set of unbalanced equations is infinite; tests exercise a handful.", "anchors": ["src/kinetics/Reaction.cpp:Reaction::checkBalance", "src/kinetics/Reaction.cpp:Reaction::checkSpecies"]}
{"id": "C07", "title": "Detailed balance", "statement": "For every reversible reaction, whenever the activities satisfy the equilibrium condition (sum nu mu = 0), forward and reverse rates of progress are equal so the net rate is zero; irreversible reactions always have zero reverse rate; and k_f/k_r equals the concentration equilibrium constant (below the overflow cap).", "quantifier": "all reversible reactions, temperatures, standard Gibbs energies and concentrations", "why_tests_cant": "Continuous state space; equilibrium manifold has measure zero and random tests never hit it exactly.", "anchors": ["src/kinetics/BulkKinetics.cpp:BulkKinetics::updateROP", "src/kinetics/BulkKinetics.cpp:BulkKinetics::getEquilibriumConstants", "src/kinetics/BulkKinetics.cpp:BulkKinetics::getRevRateConstants"]}
{"id": "C08", "title": "Third-body concentration is the efficiency weighted sum", "statement": "For each three-body reaction the effective concentration multiplying the rate is default_efficiency*total + sum (eff_k - default) c_k, i.e. sum over all species of eff_k c_k; reactions without a third body are unaffected.", "quantifier": "all efficiencies maps, all concentration vectors with total concentration = sum of concentrations, all installation orders", "why_tests_cant": "Unbounded number of reactions and species.", "anchors": ["include/cantera/kinetics/ThirdBodyCalc.h:ThirdBodyCalc::install", "include/cantera/kinetics/ThirdBodyCalc.h:ThirdBodyCalc::update", "include/cantera/kinetics/ThirdBodyCalc.h:ThirdBodyCalc::multiply"]}
{"id": "C09", "title": "Global species indexing is a bijection", "statement": "Across the phases of a kinetics manager, kineticsSpeciesIndex(k,n) is injective, covers 0..nTotalSpecies-1, and kineticsSpeciesName and speciesPhaseIndex are its inverse; out of range indices never silently alias another phase's species.", "quantifier": "all sequences of phases with arbitrary species counts", "why_tests_cant": "Unbounded numbers of phases and species, including empty phases.", "anchors": ["src/kinetics/Kinetics.cpp:Kinetics::kineticsSpeciesIndex", "src/kinetics/Kinetics.cpp:Kinetics::kineticsSpeciesName", "src/kinetics/Kinetics.cpp:Kinetics::speciesPhaseIndex", "src/kinetics/Kinetics.cpp:Kinetics::resizeSpecies"]}
{"id": "C10", "title": "Duplicate reactions are always detected", "statement": "If a mechanism contains two reactions with proportional net stoichiometry (same direction, or opposite direction with a reversible partner), overlapping third bodies and neither declared duplicate, then checkDuplicates reports the pair; it reports no pair of reactions with non-proportional stoichiometry.", "quantifier": "all lists of reactions", "why_tests_cant": "Pair detection over arbitrary lists with hashing; tests cover a few pairs.", "anchors": ["src/kinetics/Kinetics.cpp:Kinetics::checkDuplicates", "src/kinetics/Kinetics.cpp:Kinetics::checkDuplicateStoich"]}
{"id": "C11", "title": "Handle table (clib Cabinet) safety", "statement": "Over every history of add/copy/del/clear/reset calls a handle returned by add denotes the object that was added until it is deleted or the table is cleared; using a deleted or never-issued handle is always reported as an error and never yields another object; handles of live objects are pairwise distinct.", "quantifier": "all finite sequences of operations", "why_tests_cant": "History quantification: every interleaving of creations and deletions.", "anchors": ["src/clib/Cabinet.h:Cabinet::add", "src/clib/Cabinet.h:Cabinet::del", "src/clib/Cabinet.h:Cabinet::at", "src/clib/Cabinet.h:Cabinet::copy", "src/clib/Cabinet.h:Cabinet::clear"]}
{"id": "C12", "title": "Mole fractions are normalised and non-negative after setMoleFractions", "statement": "After setMoleFractions(x) with positive sum of the positive parts, the reported mole fractions are non-negative, sum to one, and are proportional to max(x,0); the same for mass fractions; the mean molecular weight equals sum X_k W_k.", "quantifier": "all species counts, all input vectors with positive clipped sum, all positive molecular weights", "why_tests_cant": "Continuous inputs of unbounded dimension.", "anchors": ["src/thermo/Phase.cpp:Phase::setMoleFractions", "src/thermo/Phase.cpp:Phase::setMassFractions", "src/thermo/Phase.cpp:Phase::getMoleFractions"]}
{"id": "C13", "title": "Mole/mass fraction conversion is a bijection", "statement": "Setting mole fractions then reading mass fractions and setting those back reproduces the mole fractions; moleFractionsToMassFractions and massFractionsToMoleFractions are mutually inverse on normalised compositions.", "quantifier": "all compositions with positive weights", "why_tests_cant": "Algebraic identity over a continuum.", "anchors": ["src/thermo/Phase.cpp:Phase::massFractionsToMoleFractions", "src/thermo/Phase.cpp:Phase::moleFractionsToMassFractions"]}
{"id": "C14", "title": "saveState/restoreState round trip", "statement": "restoreState(saveState()) returns a phase to the same temperature, density (or pressure) and composition after any intervening state changes; restoring a too short vector raises an error and changes nothing.", "quantifier": "all states, all intervening operations", "why_tests_cant": "History quantification over all intervening changes.", "anchors": ["src/thermo/Phase.cpp:Phase::saveState", "src/thermo/Phase.cpp:Phase::restoreState"]}
{"id": "C15", "title": "Species and element tables stay consistent", "statement": "After any sequence of addElement/addSpecies/addSpeciesAlias calls, speciesIndex(speciesName(k)) = k, nAtoms(k,m) is the number of atoms declared for that element by species k (zero for elements not mentioned, also for elements added after the species), molecular weight = sum nAtoms*atomic weight, and failed additions leave the phase unchanged.", "quantifier": "all sequences of additions", "why_tests_cant": "Unbounded sequences; table re-layout occurs when elements are added after species.", "anchors": ["src/thermo/Phase.cpp:Phase::addElement", "src/thermo/Phase.cpp:Phase::addSpecies", "src/thermo/Phase.cpp:Phase::speciesIndex", "src/thermo/Phase.cpp:Phase::nAtoms"]}
{"id": "C16", "title": "Equivalence ratio set/get round trip", "statement": "After setEquivalenceRatio(phi, fuel, ox), equivalenceRatio(fuel, ox) and the element based equivalenceRatio() return phi, for every fuel/oxidizer pair with a finite positive stoichiometric air-fuel ratio and negligible oxygen present in the fuel respectively; the mixture fraction setter and getter are inverse on [0,1].", "quantifier": "all fuel/oxidizer compositions and phi >= 0, Z in [0,1]", "why_tests_cant": "Continuous compositions over arbitrary species sets.", "anchors": ["src/thermo/ThermoPhase.cpp:ThermoPhase::setEquivalenceRatio", "src/thermo/ThermoPhase.cpp:ThermoPhase::equivalenceRatio", "src/thermo/ThermoPhase.cpp:ThermoPhase::setMixtureFraction", "src/thermo/ThermoPhase.cpp:ThermoPhase::mixtureFraction"]}
{"id": "C17", "title": "Units algebra", "statement": "Unit products and integer powers form a commutative group action: factor(u*v)=factor(u)*factor(v), dimensions add, u.pow(-1)*u is dimensionless with factor one, (u*v).pow(n) = u.pow(n)*v.pow(n), and convertible is an equivalence relation on exact dimensions.", "quantifier": "all units and exponents", "why_tests_cant": "Algebraic laws over all unit expressions.", "anchors": ["src/base/Units.cpp:Units::operator*=", "src/base/Units.cpp:Units::pow", "src/base/Units.cpp:Units::convertible"]}
{"id": "C18", "title": "Unit conversion is invertible, transitive and rejects dimension mismatch", "statement": "convert(value,a,b) then convert(.,b,a) returns value, conversion a->b->c equals a->c, and conversion between different dimensions always raises an error; convertTo/convertFrom are inverse for every unit system.", "quantifier": "all unit pairs/triples and values", "why_tests_cant": "Infinite set of composite units.", "anchors": ["src/base/Units.cpp:UnitSystem::convert", "src/base/Units.cpp:UnitSystem::convertTo", "src/base/Units.cpp:UnitSystem::convertFrom"]}
{"id": "C19", "title": "Functor algebra simplification preserves values", "statement": "The simplifying constructors for sums, differences, products, ratios, compositions and constant scaling of one-dimensional functors return a functor that evaluates to the same value as the unsimplified operation at every argument.", "quantifier": "all functor trees, all arguments in the domain", "why_tests_cant": "Trees and arguments are unbounded; simplification rules interact.", "anchors": ["src/numerics/Func1.cpp:newSumFunction", "src/numerics/Func1.cpp:newProdFunction", "src/numerics/Func1.cpp:newRatioFunction", "src/numerics/Func1.cpp:newCompositeFunction"]}
{"id": "C20", "title": "Functor derivative is the true derivative", "statement": "derivative() of any functor tree returns a functor evaluating to the mathematical derivative at each point where the function is differentiable.", "quantifier": "all functor trees and arguments", "why_tests_cant": "Structural induction over trees is needed; tests check few functors at few points.", "anchors": ["src/numerics/Func1.cpp", "include/cantera/numerics/Func1.h:Sum1::derivative", "include/cantera/numerics/Func1.h:Log1::derivative"]}
{"id": "C21", "title": "Tabulated functor interpolation", "statement": "A tabulated functor passes through all of its nodes, is constant outside the table, and stays between the neighbouring node values inside; its derivative agrees with the slope of the interpolant.", "quantifier": "all strictly increasing tables and all arguments", "why_tests_cant": "All tables and points.", "anchors": ["src/numerics/Func1.cpp:Tabulated1::eval", "src/numerics/Func1.cpp:Tabulated1::derivative"]}
{"id": "C22", "title": "Pressure interpolation of rates is history independent", "statement": "A pressure-dependent Arrhenius (P-log) rate depends only on current T, P and the declared rate table, not on previously evaluated pressures or previously installed tables; it reproduces the tabulated rate sums at tabulated pressures, is the log-linear interpolant between them and is clamped outside.", "quantifier": "all rate tables, all evaluation histories", "why_tests_cant": "Caching makes the result a function of the call history.", "anchors": ["include/cantera/kinetics/PlogRate.h:PlogRate::updateFromStruct", "include/cantera/kinetics/PlogRate.h:PlogRate::evalFromStruct", "src/kinetics/PlogRate.cpp:PlogRate::setRates"]}
{"id": "C23", "title": "Chebyshev rate evaluates the declared double Chebyshev series", "statement": "log10 k(T,P) equals the double sum of coefficients times Chebyshev polynomials of reduced inverse temperature and log pressure, for all coefficient matrices and regardless of evaluation history; reduced variables map the declared limits onto [-1,1].", "quantifier": "all coefficient matrices, limits, states and histories", "why_tests_cant": "Unbounded matrix sizes, caching history.", "anchors": ["include/cantera/kinetics/ChebyshevRate.h:ChebyshevRate::updateFromStruct", "include/cantera/kinetics/ChebyshevRate.h:ChebyshevRate::evalFromStruct", "src/kinetics/ChebyshevRate.cpp:ChebyshevRate::setLimits", "src/kinetics/ChebyshevRate.cpp:ChebyshevRate::setData"]}
{"id": "C24", "title": "Falloff rates stay between their limits", "statement": "For each falloff parameterisation with broadening factor in (0,1], the falloff rate lies between 0 and min(k_inf, k_0[M]) and tends to the correct limits; the Lindemann form equals k_inf*Pr/(1+Pr); broadening coefficient setters and getters round trip.", "quantifier": "all rate coefficients, reduced pressures, falloff parameters", "why_tests_cant": "Continuous parameters.", "anchors": ["include/cantera/kinetics/Falloff.h:FalloffRate::evalFromStruct", "src/kinetics/Falloff.cpp:TroeRate::F", "src/kinetics/Falloff.cpp:SriRate::F", "src/kinetics/Falloff.cpp:TsangRate::F", "src/kinetics/Falloff.cpp:SriRate::getFalloffCoeffs"]}
{"id": "C25", "title": "Species thermo polynomials are thermodynamically consistent", "statement": "For each species reference-state parameterisation (NASA-7 one region, NASA-9, Shomate, constant cp, piecewise Gibbs) reported cp is the temperature derivative of h and cp/T is the derivative of s; the two-region NASA form uses the low region up to and including the midpoint.", "quantifier": "all coefficients, all temperatures T>0", "why_tests_cant": "Identity over continuum.", "anchors": ["include/cantera/thermo/NasaPoly1.h:NasaPoly1::updateProperties", "include/cantera/thermo/NasaPoly2.h:NasaPoly2::updateProperties", "include/cantera/thermo/ShomatePoly.h:ShomatePoly::updateProperties", "src/thermo/Nasa9Poly1.cpp:Nasa9Poly1::updateProperties", "src/thermo/ConstCpPoly.cpp:ConstCpPoly::updateProperties"]}
{"id": "C26", "title": "Heat of formation modification and reset", "statement": "modifyOneHf298 makes reportHf298 return the requested value, leaves cp and s unchanged, and after any sequence of modifications resetHf298 restores the original enthalpy.", "quantifier": "all parameterisations, all sequences of modifications", "why_tests_cant": "History quantification.", "anchors": ["include/cantera/thermo/NasaPoly1.h:NasaPoly1::modifyOneHf298", "include/cantera/thermo/NasaPoly2.h:NasaPoly2::modifyOneHf298", "src/thermo/ConstCpPoly.cpp:ConstCpPoly::resetHf298", "include/cantera/thermo/ShomatePoly.h:ShomatePoly2::modifyOneHf298"]}
{"id": "C27", "title": "Piecewise Gibbs table reproduces its data", "statement": "A piecewise-Gibbs species thermo reproduces each tabulated chemical potential and the given enthalpy at 298.15 K exactly, and its enthalpy and entropy are continuous across intervals.", "quantifier": "all tables (strictly increasing positive temperatures containing 298.15 K)", "why_tests_cant": "Arbitrary table length; upward and downward recursions.", "anchors": ["src/thermo/Mu0Poly.cpp:Mu0Poly::setParameters", "src/thermo/Mu0Poly.cpp:Mu0Poly::updateProperties"]}
{"id": "C28", "title": "Grid refinement preserves endpoints, order and limits", "statement": "Refinement never removes the first or last point, never removes two adjacent points, inserts only interior midpoints so the new grid remains strictly increasing, keeps the values at kept nodes unchanged and interpolates linearly at inserted nodes.", "quantifier": "all grids, solutions and criteria", "why_tests_cant": "Arbitrary grids and solution values.", "anchors": ["src/oneD/refine.cpp:Refiner::analyze", "src/oneD/Sim1D.cpp:Sim1D::refine"]}
{"id": "C29", "title": "Damped Newton step never leaves the bounds", "statement": "The undamped step fraction computed for a trial step is in [0,1] and the scaled step keeps every in-bounds component inside its [lower, upper] bounds; a converged status from the damped Newton is only returned when the norm criterion holds.", "quantifier": "all states, steps and bounds", "why_tests_cant": "Continuous, unbounded dimension.", "anchors": ["src/oneD/MultiNewton.cpp:bound_step", "src/oneD/MultiNewton.cpp:MultiNewton::dampStep"]}
{"id": "C30", "title": "Flattened multi-domain indexing is a bijection", "statement": "In a one-dimensional simulation with any domains, (domain, point, component) <-> global index is a bijection on 0..size-1, the component lookup inverts it, and every Jacobian entry coupling neighbouring points falls inside the declared bandwidth.", "quantifier": "all lists of domains with arbitrary sizes", "why_tests_cant": "Unbounded domain counts.", "anchors": ["src/oneD/OneDim.cpp:OneDim::resize", "src/oneD/OneDim.cpp:OneDim::component"]}
{"id": "C31", "title": "Banded matrix storage represents the matrix", "statement": "Writing in-band entries and reading them back behaves like a dense matrix restricted to the band: distinct in-band positions never alias, reads out of band give zero, mult and leftMult equal dense products.", "quantifier": "all sizes, bandwidths and write sequences", "why_tests_cant": "Index arithmetic for all sizes.", "anchors": ["src/numerics/BandMatrix.cpp:BandMatrix::value", "src/numerics/BandMatrix.cpp:BandMatrix::index", "src/numerics/BandMatrix.cpp:BandMatrix::mult", "src/numerics/BandMatrix.cpp:BandMatrix::leftMult"]}
{"id": "C32", "title": "Interpolation and quadrature helpers", "statement": "linearInterp returns node values at nodes, clamps outside and is between neighbours inside; trapezoidal is exact for piecewise linear data; Simpson is exact for quadratics on arbitrary grids with an even number of intervals and additive over odd numbers.", "quantifier": "all grids and sample data", "why_tests_cant": "All grids and data.", "anchors": ["src/numerics/funcs.cpp:linearInterp", "src/numerics/funcs.cpp:trapezoidal", "src/numerics/funcs.cpp:simpson"]}
{"id": "C33", "title": "Composition string parsing", "statement": "Parsing 'name:value' lists returns the listed composition for every rendered composition (round trip), rejects duplicate names with non-zero values, unknown species and malformed numbers, and terminates on every input string.", "quantifier": "all strings", "why_tests_cant": "Infinite string space.", "anchors": ["src/base/stringUtils.cpp:parseCompString", "src/base/stringUtils.cpp:fpValueCheck"]}
{"id": "C34", "title": "C string copy never overruns and always terminates", "statement": "copyString never writes outside the destination buffer, always NUL-terminates a non-empty buffer, writes the longest prefix that fits and reports the buffer size needed.", "quantifier": "all source strings and buffer lengths", "why_tests_cant": "Boundary behaviour for all lengths.", "anchors": ["src/base/stringUtils.cpp:copyString"]}
{"id": "C35", "title": "Value cache returns only values computed for the given state", "statement": "A cached value is reported valid only if the state variables supplied are identical to those for which it was last stored, over every interleaving of queries with different ids and clears; ids are never shared.", "quantifier": "all call histories", "why_tests_cant": "History quantification.", "anchors": ["include/cantera/base/ValueCache.h:CachedValue::validate", "src/base/ValueCache.cpp:ValueCache::getId"]}
{"id": "C36", "title": "Factory registration and aliases", "statement": "After any sequence of registrations and aliases, create(name) calls the maker most recently registered for the canonical name, unknown names are errors, and deprecated or aliased names resolve to the same maker as their canonical name.", "quantifier": "all registration sequences", "why_tests_cant": "History quantification.", "anchors": ["include/cantera/base/FactoryBase.h:Factory::reg", "include/cantera/base/FactoryBase.h:Factory::addAlias", "include/cantera/base/FactoryBase.h:Factory::canonicalize"]}
{"id": "C37", "title": "Reaction equation text round trip", "statement": "Parsing the equation text generated for a reaction gives back the same reactant and product coefficients, reversibility and third body.", "quantifier": "all reactions", "why_tests_cant": "Infinite set of reactions.", "anchors": ["src/kinetics/Reaction.cpp:Reaction::equation", "src/kinetics/Reaction.cpp:parseReactionEquation", "src/kinetics/Reaction.cpp:Reaction::setEquation"]}
{"id": "C38", "title": "Multiphase mole bookkeeping", "statement": "setMoles followed by getMoles returns the same moles for every phase with positive moles, element abundances equal sum of species moles times atoms, and species/phase index maps are mutually inverse.", "quantifier": "all phase lists and mole vectors", "why_tests_cant": "Unbounded numbers of phases.", "anchors": ["src/equil/MultiPhase.cpp:MultiPhase::setMoles", "src/equil/MultiPhase.cpp:MultiPhase::getMoles", "src/equil/MultiPhase.cpp:MultiPhase::calcElemAbundances", "src/equil/MultiPhase.cpp:MultiPhase::init"]}
{"id": "C39", "title": "Equilibrium failure restores the initial state", "statement": "If MultiPhase::equilibrate throws because the solvers fail, the mixture's temperature, pressure, moles and mole fractions are those it had before the call.", "quantifier": "all solver behaviours (arbitrary state corruption before the exception)", "why_tests_cant": "Quantifies over every failure point inside the solvers.", "anchors": ["src/equil/MultiPhase.cpp:MultiPhase::equilibrate"]}
{"id": "C40", "title": "Surface coverages round trip", "statement": "After setCoverages(theta), getCoverages returns theta divided by its sum, the mole fractions are normalised and the sum of concentrations times site sizes equals the site density.", "quantifier": "all positive species sizes, all non-negative coverage vectors with positive sum, all site densities", "why_tests_cant": "Continuum of inputs.", "anchors": ["src/thermo/SurfPhase.cpp:SurfPhase::setCoverages", "src/thermo/SurfPhase.cpp:SurfPhase::setCoveragesNoNorm", "src/thermo/SurfPhase.cpp:SurfPhase::getCoverages"]}
{"id": "C41", "title": "Species thermo manager dispatch", "statement": "After any sequence of installs and modifications, updating all species gives each species exactly the properties of its own most recently installed parameterisation, independent of grouping by type, and the reported temperature range is the intersection of installed ranges; a second install at an occupied index or a modification changing the type is rejected.", "quantifier": "all install/modify sequences", "why_tests_cant": "History quantification.", "anchors": ["src/thermo/MultiSpeciesThermo.cpp:MultiSpeciesThermo::install_STIT", "src/thermo/MultiSpeciesThermo.cpp:MultiSpeciesThermo::modifySpecies", "src/thermo/MultiSpeciesThermo.cpp:MultiSpeciesThermo::update"]}
{"id": "C42", "title": "Rate evaluator index map", "statement": "After any sequence of add and replace calls, the multi-rate evaluator writes to the rate-coefficient slot of each reaction the value of the rate most recently installed for that reaction and leaves other slots untouched; replacing an unknown reaction is an error.", "quantifier": "all sequences of add/replace/evaluate", "why_tests_cant": "History quantification.", "anchors": ["include/cantera/kinetics/MultiRate.h:MultiRate::add", "include/cantera/kinetics/MultiRate.h:MultiRate::replace", "include/cantera/kinetics/MultiRate.h:MultiRate::getRateConstants"]}
{"id": "C43", "title": "Composition Jacobian of rates of progress", "statement": "The entries returned by fwdRatesOfProgress_ddCi, revRatesOfProgress_ddCi and netRatesOfProgress_ddCi are the partial derivatives of the rates of progress computed by updateROP with respect to the species concentrations, including third-body colliders and falloff dependence (in the limit of small perturbation); the ddX variants are these times the molar density.", "quantifier": "all mechanisms, positive concentrations, multipliers, derivative settings", "why_tests_cant": "Tests compare single states to a tolerance and only with multipliers 0 and 1.", "anchors": ["src/kinetics/BulkKinetics.cpp:BulkKinetics::calculateCompositionDerivatives", "include/cantera/kinetics/MultiRate.h:MultiRate::processRateConstants_ddM", "include/cantera/kinetics/ThirdBodyCalc.h:ThirdBodyCalc::derivatives"]}
{"id": "C44", "title": "Unit stack aggregation", "statement": "After any sequence of update and join calls on a unit stack the product of the stack is the product of all contributed units raised to their exponents, independently of how equal units were merged; join on an empty stack is an error.", "quantifier": "for all standard units with positive factor, all sequences of (unit, exponent) updates with positive factors, all real exponents", "why_tests_cant": "The set of unit/exponent sequences and merge patterns is infinite; tests only exercise a few typical reaction orders.", "anchors": ["src/base/Units.cpp:323-391", "include/cantera/base/Units.h:104-141"]}
{"id": "C45", "title": "Gibbs solver wrapper reports success only at convergence", "statement": "MultiPhase::equilibrate_MultiPhaseEquil returns normally only in a state produced by a successful fixed T,P solution that satisfies the convergence criterion of the requested property pair (enthalpy, entropy or volume).", "quantifier": "all initial states, tolerances, iteration limits and behaviours of the inner solver", "why_tests_cant": "Quantifies over every behaviour of the inner solver in an unbounded iteration.", "anchors": ["src/equil/MultiPhase.cpp:MultiPhase::equilibrate_MultiPhaseEquil"]}
{"id": "C46", "title": "Pseudo-transient time stepping terminates with the requested steps", "statement": "OneDim::timeStep ends after finitely many attempts whatever the Newton solver does; when it returns, exactly the requested number of steps succeeded and were counted, the solution is the result of the last of them, and the returned step size lies between the minimum and maximum step.", "quantifier": "all options, initial step sizes, numbers of steps and behaviours of the Newton solver and Jacobian", "why_tests_cant": "Termination against an arbitrary adversarial solver cannot be sampled.", "anchors": ["src/oneD/OneDim.cpp:OneDim::timeStep"]}
{"id": "C47", "title": "Periodic functor", "statement": "A periodic functor with period T evaluates its operand inside one period [0,T) and repeats it: the values at t and t+T agree for every t.", "quantifier": "all operands, positive periods and arguments", "why_tests_cant": "All arguments.", "anchors": ["include/cantera/numerics/Func1.h:Periodic1::eval"]}
{"id": "C48", "title": "Reactor networks conserve mass and elements", "statement": "For every network of zero-dimensional reactors of the eight lumped types, the governing equations evaluated by the reactors change the total amount of each element, and the total mass, of gas and surfaces only by flows from and to reservoirs; the mass fractions of a reactor keep their sum, the coverages of every surface keep their sum, and walls conserve the total volume.", "quantifier": "all networks, numbers of species, surfaces, flow devices and walls, all states and reaction rates of balanced mechanisms", "why_tests_cant": "All network topologies and states; tests integrate a few networks whose phases share one species table.", "anchors": ["src/zeroD/Reactor.cpp:Reactor::eval", "src/zeroD/Reactor.cpp:Reactor::evalSurfaces", "src/zeroD/MoleReactor.cpp:MoleReactor::eval", "src/zeroD/MoleReactor.cpp:MoleReactor::evalSurfaces", "src/zeroD/FlowDevice.cpp:FlowDevice::outletSpeciesMassFlowRate"]}
{"id": "C49", "title": "Energy balance of the reactor types", "statement": "With the energy equation enabled, the rate of change of the internal energy (enthalpy for constant pressure types) of the contents implied by each of the eight reactor types is the wall work and heat plus the enthalpy carried by inlets minus that carried by outlets, whether the type integrates energy or temperature; heat through walls between reactors cancels in the network, and the total internal energy changes only by expansion against a pressure difference.", "quantifier": "all states, flows, walls and production rates", "why_tests_cant": "All states; tests compare trajectories of a few reactor types numerically.", "anchors": ["src/zeroD/IdealGasReactor.cpp:IdealGasReactor::eval", "src/zeroD/IdealGasConstPressureReactor.cpp:IdealGasConstPressureReactor::eval", "src/zeroD/IdealGasMoleReactor.cpp:IdealGasMoleReactor::eval", "src/zeroD/Reactor.cpp:Reactor::evalWalls", "src/zeroD/Wall.cpp:Wall::heatRate"]}
{"id": "C50", "title": "Sensitivity parameters are restored after each evaluation", "statement": "ReactorNet::eval leaves the rate multipliers and the standard enthalpies of all phases as it found them, whatever sensitivity parameters are registered and whether or not an evaluation fails.", "quantifier": "all registered parameters, parameter values, initial multipliers and enthalpies, and points of failure", "why_tests_cant": "All registration sequences and failure points.", "anchors": ["src/zeroD/Reactor.cpp:Reactor::applySensitivity", "src/zeroD/Reactor.cpp:Reactor::resetSensitivity", "src/zeroD/ReactorNet.cpp:ReactorNet::eval"]}
{"id": "C51", "title": "Advance limits", "statement": "ReactorNet::advance with limits ends after finitely many halvings and takes the longest of the steps (time - now)/2^j for which the predicted change of every limited component stays within its limit; limits that are set are read back, and non-positive limits limit nothing.", "quantifier": "all limits, targets, orders and derivatives", "why_tests_cant": "Termination and optimality for all derivative vectors.", "anchors": ["src/zeroD/ReactorNet.cpp:ReactorNet::advance", "src/zeroD/ReactorNet.cpp:ReactorNet::getEstimate", "src/zeroD/Reactor.cpp:Reactor::setAdvanceLimits", "src/zeroD/Reactor.cpp:Reactor::setAdvanceLimit"]}
{"id": "C52", "title": "State of a reactor network depends on its state vector only", "statement": "After ReactorNet::updateState the state of every reactor and the mass flow rate of every flow device are determined by the state vector, the time and the settings of the network, not by the states visited before; flow rates are never negative; the vector read back with getState is the one that was set.", "quantifier": "all networks, state vectors, previous states and orders of reactors", "why_tests_cant": "All pairs of histories of all networks.", "anchors": ["src/zeroD/ReactorNet.cpp:ReactorNet::updateState", "src/zeroD/Reactor.cpp:Reactor::updateState", "src/zeroD/Reactor.cpp:Reactor::updateConnected", "src/zeroD/flowControllers.cpp:PressureController::updateMassFlowRate"]}
{"id": "C53", "title": "Diffusive fluxes and species equations preserve the sum of mass fractions", "statement": "In Flow1D the corrected mixture-averaged diffusive fluxes of every interval add up to zero wherever the mass fractions add up to one; the residuals of the species equations at an interior point then add up to zero; and a solution of the equations (steady or of an implicit time step) has mass fractions that add up to one at all points.", "quantifier": "all numbers of species and points, grids, transport coefficients, profiles", "why_tests_cant": "An identity over all profiles and property values.", "anchors": ["src/oneD/Flow1D.cpp:Flow1D::updateDiffFluxes", "src/oneD/Flow1D.cpp:Flow1D::evalSpecies"]}
{"id": "C54", "title": "Solutions of the one-dimensional flow equations satisfy the conditions they stand for", "statement": "A zero of the residual of boundary - Flow1D - boundary has: constant mass flux in unstrained flows and the imposed temperature at the fixed point; mass flux, temperature, spread rate and species flux of the inlets; constant radial pressure gradient and a discrete mass balance in strained flows; the imposed temperatures at control points; zero gradients at outlets; the composition of the reservoir; at reacting surfaces the balance between species flux and surface production.", "quantifier": "all grids, gas properties, boundary conditions and solutions", "why_tests_cant": "All solutions of all boundary value problems of this form.", "anchors": ["src/oneD/Flow1D.cpp:Flow1D::eval", "src/oneD/Flow1D.cpp:Flow1D::evalContinuity", "src/oneD/Flow1D.cpp:Flow1D::evalLambda", "src/oneD/Flow1D.cpp:Flow1D::evalUo", "src/oneD/Boundary1D.cpp:Inlet1D::eval", "src/oneD/Boundary1D.cpp:Outlet1D::eval", "src/oneD/Boundary1D.cpp:OutletRes1D::eval", "src/oneD/Boundary1D.cpp:ReactingSurf1D::eval"]}
{"id": "C55", "title": "Jacobian of the one-dimensional system by local evaluations", "statement": "The local residual evaluations of OneDim::evalJacobian give, at the points next to the perturbed one, the residual of a full evaluation with frozen transport properties, and the residual at all other points does not change; the solution vector and the residual are restored, so that every column of the Jacobian is the finite difference quotient of the full residual; the residual of a full evaluation does not depend on earlier evaluations; the transient residual differs from the steady one by the masked time derivative.", "quantifier": "all grids, property functions, boundaries, solutions and perturbations", "why_tests_cant": "Equality of two ways of evaluation for all states and histories.", "anchors": ["src/oneD/OneDim.cpp:OneDim::evalJacobian", "src/oneD/Flow1D.cpp:Flow1D::eval", "src/oneD/Flow1D.cpp:Flow1D::updateProperties", "src/oneD/MultiJac.cpp:MultiJac::updateTransient"]}
{"id": "C56", "title": "Temperature, pressure and density derivatives of rates", "statement": "getFwd/Rev/NetRatesOfProgress_ddT, _ddP, _ddC return the partial derivatives of the rates of progress with respect to temperature (constant pressure and concentrations), pressure, and molar density (constant mole fractions): exactly for analytic rate types, and in the limit of a vanishing relative step otherwise; the scaled derivatives of the Arrhenius, two-temperature and Blowers-Masel rates are their logarithmic derivatives; net equals forward minus reverse.", "quantifier": "all mechanisms, rate laws, multipliers, states and steps", "why_tests_cant": "Tests compare with finite differences at few states and with unit multipliers on fresh objects.", "anchors": ["src/kinetics/BulkKinetics.cpp:BulkKinetics::process_ddT", "src/kinetics/BulkKinetics.cpp:BulkKinetics::process_ddP", "src/kinetics/BulkKinetics.cpp:BulkKinetics::process_ddC", "src/kinetics/BulkKinetics.cpp:BulkKinetics::applyEquilibriumConstants_ddT", "include/cantera/kinetics/MultiRate.h:MultiRate::processRateConstants_ddT", "include/cantera/kinetics/StoichManager.h:StoichManagerN::scale", "include/cantera/kinetics/Arrhenius.h:ArrheniusRate::ddTScaledFromStruct"]}
{"id": "C57", "title": "Rates of progress of interface reactions", "statement": "With all phases present, InterfaceKinetics::updateROP computes mass-action rates from activity concentrations, with reverse rates from the electrochemical equilibrium constants; getEquilibriumConstants and both variants of getRevRateConstants agree; net rates vanish exactly when the change of electrochemical potential of the reaction is zero and never run uphill; the net production rates are the stoichiometric combination of the net rates; interfaceCurrent is Faraday times the charge produced in a phase, and the currents of all phases cancel for charge-balanced reactions; adding one constant to all potentials changes nothing.", "quantifier": "all reaction lists, phases, states, potentials and rate constants", "why_tests_cant": "Tests check a few mechanisms at a few states; sign and balance statements quantify over all of them.", "anchors": ["src/kinetics/InterfaceKinetics.cpp:InterfaceKinetics::updateROP", "src/kinetics/InterfaceKinetics.cpp:InterfaceKinetics::updateKc", "src/kinetics/InterfaceKinetics.cpp:InterfaceKinetics::updateMu0", "src/kinetics/InterfaceKinetics.cpp:InterfaceKinetics::getEquilibriumConstants", "src/kinetics/InterfaceKinetics.cpp:InterfaceKinetics::getRevRateConstants", "src/kinetics/InterfaceKinetics.cpp:InterfaceKinetics::interfaceCurrent"]}
{"id": "C58", "title": "Phase existence and stability in interface kinetics", "statement": "m_phaseExistsCheck counts the phases flagged as missing, for any sequence of setPhaseExistence/setPhaseStability calls; species of a missing phase are not consumed, species of an unstable phase are not formed, reactions without such phases are unaffected, and switching a phase off and on again restores the object.", "quantifier": "all reaction lists, all sequences of calls, all states", "why_tests_cant": "The logic is order dependent over phases; tests cover one or two phases.", "anchors": ["src/kinetics/InterfaceKinetics.cpp:InterfaceKinetics::updateROP", "src/kinetics/InterfaceKinetics.cpp:InterfaceKinetics::setPhaseExistence", "src/kinetics/InterfaceKinetics.cpp:InterfaceKinetics::setPhaseStability"]}
{"id": "C59", "title": "Coverage dependence and sticking coefficients", "statement": "The coverage terms of an interface rate equal the documented product over species, independent of the order of the dependencies; the reported effective pre-exponential factor and activation energy reproduce the rate; dependencies read back as they were set and malformed ones are rejected; sticking rates have the documented value with and without the Motz-Wise correction, and the sticking species is the unique gas reactant.", "quantifier": "all dependencies, coverages, temperatures, species lists", "why_tests_cant": "Tests cover a few dependencies with fixed coverages.", "anchors": ["src/kinetics/InterfaceRate.cpp:InterfaceRateBase::addCoverageDependence", "src/kinetics/InterfaceRate.cpp:InterfaceRateBase::setCoverageDependencies", "src/kinetics/InterfaceRate.cpp:InterfaceRateBase::getCoverageDependencies", "src/kinetics/InterfaceRate.cpp:InterfaceRateBase::updateFromStruct", "src/kinetics/InterfaceRate.cpp:StickingCoverage::setContext", "include/cantera/kinetics/InterfaceRate.h:StickingRate::evalFromStruct"]}
{"id": "C60", "title": "Charge transfer rates", "statement": "voltageCorrection is exp(-beta n F dPhi / RT) of the electric energy of the reaction; forward and reverse rate constants satisfy the transfer coefficient split; the net rate has Butler-Volmer form; exchange current densities are converted as documented.", "quantifier": "all charge transfer reactions, phases, potentials, transfer coefficients", "why_tests_cant": "Tests evaluate single reactions at fixed potentials.", "anchors": ["src/kinetics/InterfaceRate.cpp:InterfaceRateBase::setContext", "src/kinetics/InterfaceRate.cpp:InterfaceRateBase::voltageCorrection", "src/kinetics/InterfaceRate.cpp:InterfaceRateBase::updateFromStruct", "src/kinetics/Reaction.cpp:Reaction::usesElectrochemistry"]}
{"id": "C61", "title": "Composition derivatives of interface reactions", "statement": "fwd/rev/netRatesOfProgress_ddCi of InterfaceKinetics are the partial derivatives of the rates of progress with respect to activity concentrations; they are refused exactly if coverage-dependent or electrochemical rates are present and not skipped; derivative settings read back as they were set.", "quantifier": "all reaction lists, states, sequences of settings and of added and replaced reactions", "why_tests_cant": "Tests compare selected entries with finite differences.", "anchors": ["src/kinetics/InterfaceKinetics.cpp:InterfaceKinetics::fwdRatesOfProgress_ddCi", "src/kinetics/InterfaceKinetics.cpp:InterfaceKinetics::revRatesOfProgress_ddCi", "src/kinetics/InterfaceKinetics.cpp:InterfaceKinetics::netRatesOfProgress_ddCi", "src/kinetics/InterfaceKinetics.cpp:InterfaceKinetics::setDerivativeSettings", "src/kinetics/InterfaceKinetics.cpp:InterfaceKinetics::getDerivativeSettings", "src/kinetics/InterfaceKinetics.cpp:InterfaceKinetics::assertDerivativesValid"]}
{"id": "C62", "title": "Caching of interface data", "statement": "After InterfaceData::update, temperature, site density, coverages, electric potentials, enthalpies, standard potentials and standard concentrations are those of the current states of the phases, for any history of state changes and updates.", "quantifier": "all sequences of setter calls and updates, any number of phases", "why_tests_cant": "A sum of counters decides about refreshing; missed updates need particular histories.", "anchors": ["src/kinetics/InterfaceRate.cpp:InterfaceData::update", "src/thermo/Phase.cpp:Phase::compositionChanged", "src/thermo/Phase.cpp:Phase::invalidateCache"]}
{"id": "C63", "title": "Margules solutions", "statement": "The logarithms of the activity coefficients of a Margules phase are the mole number derivatives of the documented excess Gibbs energy (Euler sum and Gibbs-Duhem included); getdlnActCoeffdT, getd2lnActCoeffdT2, getdlnActCoeffdlnN, its diagonal, getdlnActCoeffdlnX_diag and getdlnActCoeffds are the corresponding derivatives; partial molar enthalpies, entropies, heat capacities and volumes are consistent with the chemical potentials and with the density.", "quantifier": "all interaction lists, temperatures, compositions, standard states", "why_tests_cant": "The formulas are hand-differentiated; tests compare single numbers stored from the same code.", "anchors": ["src/thermo/MargulesVPSSTP.cpp:MargulesVPSSTP::s_update_lnActCoeff", "src/thermo/MargulesVPSSTP.cpp:MargulesVPSSTP::s_update_dlnActCoeff_dT", "src/thermo/MargulesVPSSTP.cpp:MargulesVPSSTP::getdlnActCoeffds", "src/thermo/MargulesVPSSTP.cpp:MargulesVPSSTP::s_update_dlnActCoeff_dlnN", "src/thermo/MargulesVPSSTP.cpp:MargulesVPSSTP::s_update_dlnActCoeff_dlnX_diag", "src/thermo/MargulesVPSSTP.cpp:MargulesVPSSTP::getPartialMolarVolumes", "src/thermo/GibbsExcessVPSSTP.cpp:GibbsExcessVPSSTP::calcDensity"]}
{"id": "C64", "title": "Redlich-Kister solutions", "statement": "The logarithms of the activity coefficients of a Redlich-Kister phase are the mole number derivatives of the documented excess Gibbs energy, for polynomials of any degree; the temperature derivatives, getdlnActCoeffdlnX_diag, getdlnActCoeffds and getdlnActCoeffdlnN are the corresponding derivatives; partial molar enthalpies, entropies and heat capacities are consistent with the chemical potentials.", "quantifier": "all interaction lists with any number of coefficients, temperatures, compositions, standard states", "why_tests_cant": "The formulas are hand-differentiated; tests compare single numbers stored from the same code.", "anchors": ["src/thermo/RedlichKisterVPSSTP.cpp:RedlichKisterVPSSTP::s_update_lnActCoeff", "src/thermo/RedlichKisterVPSSTP.cpp:RedlichKisterVPSSTP::s_update_dlnActCoeff_dT", "src/thermo/RedlichKisterVPSSTP.cpp:RedlichKisterVPSSTP::s_update_dlnActCoeff_dlnX_diag", "src/thermo/RedlichKisterVPSSTP.cpp:RedlichKisterVPSSTP::s_update_dlnActCoeff_dX_", "src/thermo/RedlichKisterVPSSTP.cpp:RedlichKisterVPSSTP::addBinaryInteraction", "src/thermo/RedlichKisterVPSSTP.cpp:RedlichKisterVPSSTP::getdlnActCoeffdlnN"]}
{"id": "C65", "title": "Redlich-Kwong fluids", "statement": "Pressure, enthalpy, entropy, heat capacities, fugacity coefficients, chemical potentials, partial molar enthalpies, entropies, energies and volumes, compressibility, expansion coefficient and speed of sound of a Redlich-Kwong mixture are derivatives of one Helmholtz energy: every function returned is the partial derivative it is documented to be, the partial molar functions sum to the molar ones, and the ideal gas is the limit of low density.", "quantifier": "all numbers of species, parameter tables, temperatures, volumes above the covolume and compositions with positive pressure", "why_tests_cant": "The formulas are hand-differentiated; tests compare single numbers with stored values or finite differences.", "anchors": ["src/thermo/RedlichKwongMFTP.cpp:RedlichKwongMFTP::pressure", "src/thermo/RedlichKwongMFTP.cpp:RedlichKwongMFTP::cp_mole", "src/thermo/RedlichKwongMFTP.cpp:RedlichKwongMFTP::cv_mole", "src/thermo/RedlichKwongMFTP.cpp:RedlichKwongMFTP::getActivityCoefficients", "src/thermo/RedlichKwongMFTP.cpp:RedlichKwongMFTP::getChemPotentials", "src/thermo/RedlichKwongMFTP.cpp:RedlichKwongMFTP::getPartialMolarEnthalpies", "src/thermo/RedlichKwongMFTP.cpp:RedlichKwongMFTP::getPartialMolarEntropies", "src/thermo/RedlichKwongMFTP.cpp:RedlichKwongMFTP::getPartialMolarVolumes", "src/thermo/RedlichKwongMFTP.cpp:RedlichKwongMFTP::hresid", "src/thermo/RedlichKwongMFTP.cpp:RedlichKwongMFTP::sresid", "src/thermo/RedlichKwongMFTP.cpp:RedlichKwongMFTP::dpdVCalc", "src/thermo/RedlichKwongMFTP.cpp:RedlichKwongMFTP::isothermalCompressibility", "src/thermo/RedlichKwongMFTP.cpp:RedlichKwongMFTP::thermalExpansionCoeff", "src/thermo/RedlichKwongMFTP.cpp:RedlichKwongMFTP::soundSpeed", "src/thermo/RedlichKwongMFTP.cpp:RedlichKwongMFTP::updateMixingExpressions", "src/thermo/RedlichKwongMFTP.cpp:RedlichKwongMFTP::da_dt"]}
{"id": "C66", "title": "Peng-Robinson fluids", "statement": "The same for Peng-Robinson mixtures, with the temperature dependence of the attraction of every species.", "quantifier": "all numbers of species, parameter tables, temperatures, volumes above the covolume and compositions with positive pressure", "why_tests_cant": "The formulas are hand-differentiated; tests compare single numbers with stored values or finite differences.", "anchors": ["src/thermo/PengRobinson.cpp:PengRobinson::pressure", "src/thermo/PengRobinson.cpp:PengRobinson::cp_mole", "src/thermo/PengRobinson.cpp:PengRobinson::cv_mole", "src/thermo/PengRobinson.cpp:PengRobinson::getActivityCoefficients", "src/thermo/PengRobinson.cpp:PengRobinson::getChemPotentials", "src/thermo/PengRobinson.cpp:PengRobinson::getPartialMolarEnthalpies", "src/thermo/PengRobinson.cpp:PengRobinson::getPartialMolarEntropies", "src/thermo/PengRobinson.cpp:PengRobinson::getPartialMolarVolumes", "src/thermo/PengRobinson.cpp:PengRobinson::hresid", "src/thermo/PengRobinson.cpp:PengRobinson::sresid", "src/thermo/PengRobinson.cpp:PengRobinson::dpdVCalc", "src/thermo/PengRobinson.cpp:PengRobinson::isothermalCompressibility", "src/thermo/PengRobinson.cpp:PengRobinson::thermalExpansionCoeff", "src/thermo/PengRobinson.cpp:PengRobinson::soundSpeed", "src/thermo/PengRobinson.cpp:PengRobinson::updateMixingExpressions", "src/thermo/PengRobinson.cpp:PengRobinson::daAlpha_dT", "src/thermo/PengRobinson.cpp:PengRobinson::d2aAlpha_dT2"]}
{"id": "C67", "title": "Density of cubic fluids at given pressure", "statement": "solveCubic returns all real roots of the cubic equation, in increasing order, with their number; the volumes chosen by densityCalc have the requested pressure, and setPressure leaves a state with that pressure or throws.", "quantifier": "all coefficients, temperatures, pressures, phases requested and density guesses", "why_tests_cant": "The tolerances and special cases of the solver, and the branches of densityCalc, are reached on thin sets of states that tests with single fluids miss.", "anchors": ["src/thermo/MixtureFugacityTP.cpp:MixtureFugacityTP::solveCubic", "src/thermo/MixtureFugacityTP.cpp:MixtureFugacityTP::setPressure", "src/thermo/MixtureFugacityTP.cpp:MixtureFugacityTP::psatEst", "src/thermo/RedlichKwongMFTP.cpp:RedlichKwongMFTP::solveCubic", "src/thermo/RedlichKwongMFTP.cpp:RedlichKwongMFTP::densityCalc", "src/thermo/RedlichKwongMFTP.cpp:RedlichKwongMFTP::liquidVolEst", "src/thermo/PengRobinson.cpp:PengRobinson::solveCubic", "src/thermo/PengRobinson.cpp:PengRobinson::densityCalc", "src/thermo/PengRobinson.cpp:PengRobinson::liquidVolEst"]}
{"id": "C68", "title": "Coefficient tables of cubic fluids", "statement": "The tables of a Redlich-Kwong or Peng-Robinson phase contain the species and pair coefficients given, and geometric means for the pairs not given; they are symmetric and do not depend on the order of the calls. The critical temperature of a mixture satisfies its defining equation, or an error is raised.", "quantifier": "all numbers of species, all coefficients, all sequences of calls of setSpeciesCoeffs and setBinaryCoeffs, all mixtures", "why_tests_cant": "The order of calls and the repetition of calls are not explored by tests with fixed input files; wrong cross terms change results slightly without any error.", "anchors": ["src/thermo/RedlichKwongMFTP.cpp:RedlichKwongMFTP::setSpeciesCoeffs", "src/thermo/RedlichKwongMFTP.cpp:RedlichKwongMFTP::setBinaryCoeffs", "src/thermo/RedlichKwongMFTP.cpp:RedlichKwongMFTP::addSpecies", "src/thermo/RedlichKwongMFTP.cpp:RedlichKwongMFTP::initThermo", "src/thermo/RedlichKwongMFTP.cpp:RedlichKwongMFTP::calcCriticalConditions", "src/thermo/PengRobinson.cpp:PengRobinson::setSpeciesCoeffs", "src/thermo/PengRobinson.cpp:PengRobinson::setBinaryCoeffs", "src/thermo/PengRobinson.cpp:PengRobinson::addSpecies", "src/thermo/PengRobinson.cpp:PengRobinson::initThermo", "src/base/Array.cpp:Array2D::resize"]}
{"id": "C69", "title": "Mixture-averaged transport of ideal gases", "statement": "Species viscosities, conductivities and binary diffusion coefficients are the fitted polynomials; the binary coefficients are symmetric and the index of the fit of a pair does not depend on the order of the pair. Viscosity follows the mixture rule of Wilke and equals the species value for a pure gas or identical species; the conductivity is the mean of the arithmetic and harmonic averages and lies between the smallest and the largest species value. Mixture-averaged diffusion coefficients are those of the definition, are not negative, and the species fluxes sum to zero.", "quantifier": "all numbers of species, all fit coefficients, temperatures, pressures and compositions", "why_tests_cant": "Tests use a few mixtures with tolerances; limits (pure species, identical species, absent species) and identities valid for all compositions cannot be enumerated.", "anchors": ["src/transport/GasTransport.cpp:GasTransport::update_T", "src/transport/GasTransport.cpp:GasTransport::updateViscosity_T", "src/transport/GasTransport.cpp:GasTransport::updateSpeciesViscosities", "src/transport/GasTransport.cpp:GasTransport::updateDiff_T", "src/transport/GasTransport.cpp:GasTransport::viscosity", "src/transport/GasTransport.cpp:GasTransport::getBinaryDiffCoeffs", "src/transport/GasTransport.cpp:GasTransport::getMixDiffCoeffs", "src/transport/GasTransport.cpp:GasTransport::getMixDiffCoeffsMole", "src/transport/GasTransport.cpp:GasTransport::getMixDiffCoeffsMass", "src/transport/GasTransport.cpp:GasTransport::setBinDiffusivityPolynomial", "src/transport/MixTransport.cpp:MixTransport::thermalConductivity", "src/transport/MixTransport.cpp:MixTransport::getMobilities", "src/transport/MixTransport.cpp:MixTransport::getSpeciesFluxes"]}
{"id": "C70", "title": "Multicomponent transport of ideal gases", "statement": "The blocks of the L matrix are those of the kinetic theory (Kee et al., eqs. 12.121 to 12.131); the thermal diffusion coefficients sum to zero; the diffusion velocities are the unique solution of the Stefan-Maxwell equations, whichever row is replaced by the mass balance, and the fluxes sum to zero; the multicomponent diffusion coefficients have zero diagonal, give the binary coefficient for two species, and give velocities that solve the same Stefan-Maxwell equations.", "quantifier": "all numbers of species, positive mole fractions, weights and binary coefficients, all gradients", "why_tests_cant": "Consistency between the two ways to compute fluxes and the sum conditions hold for every mixture; tests check single mixtures with tolerances.", "anchors": ["src/transport/MultiTransport.cpp:MultiTransport::thermalConductivity", "src/transport/MultiTransport.cpp:MultiTransport::getThermalDiffCoeffs", "src/transport/MultiTransport.cpp:MultiTransport::solveLMatrixEquation", "src/transport/MultiTransport.cpp:MultiTransport::getSpeciesFluxes", "src/transport/MultiTransport.cpp:MultiTransport::getMassFluxes", "src/transport/MultiTransport.cpp:MultiTransport::getMolarFluxes", "src/transport/MultiTransport.cpp:MultiTransport::getMultiDiffCoeffs", "src/transport/MultiTransport.cpp:MultiTransport::hasInternalModes", "src/transport/MultiTransport.cpp:MultiTransport::eval_L0000", "src/transport/MultiTransport.cpp:MultiTransport::eval_L0010", "src/transport/MultiTransport.cpp:MultiTransport::eval_L1000", "src/transport/MultiTransport.cpp:MultiTransport::eval_L1010", "src/transport/MultiTransport.cpp:MultiTransport::eval_L1001", "src/transport/MultiTransport.cpp:MultiTransport::eval_L0001", "src/transport/MultiTransport.cpp:MultiTransport::eval_L0100", "src/transport/MultiTransport.cpp:MultiTransport::eval_L0110", "src/transport/MultiTransport.cpp:MultiTransport::eval_L0101"]}
{"id": "C71", "title": "Caching of transport properties", "statement": "Transport properties of a gas depend only on the current state, species and fits, not on the properties that were requested before or at which states.", "quantifier": "all sequences of changes of state, additions of species, changes of fit polynomials and queries, for all formulas that compute the intermediate results", "why_tests_cant": "Tests evaluate properties in one order on a fresh object; wrong reuse of intermediate results needs particular sequences of calls.", "anchors": ["src/transport/GasTransport.cpp:GasTransport::update_T", "src/transport/GasTransport.cpp:GasTransport::viscosity", "src/transport/GasTransport.cpp:GasTransport::updateViscosity_T", "src/transport/GasTransport.cpp:GasTransport::updateSpeciesViscosities", "src/transport/GasTransport.cpp:GasTransport::updateDiff_T", "src/transport/GasTransport.cpp:GasTransport::getBinaryDiffCoeffs", "src/transport/GasTransport.cpp:GasTransport::getMixDiffCoeffs", "src/transport/GasTransport.cpp:GasTransport::init", "src/transport/GasTransport.cpp:GasTransport::invalidateCache", "src/transport/MixTransport.cpp:MixTransport::update_T", "src/transport/MixTransport.cpp:MixTransport::update_C", "src/transport/MixTransport.cpp:MixTransport::updateCond_T", "src/transport/MixTransport.cpp:MixTransport::thermalConductivity", "src/transport/MultiTransport.cpp:MultiTransport::init", "src/transport/MultiTransport.cpp:MultiTransport::invalidateCache", "src/transport/MultiTransport.cpp:MultiTransport::update_T", "src/transport/MultiTransport.cpp:MultiTransport::update_C", "src/transport/MultiTransport.cpp:MultiTransport::updateThermal_T", "src/transport/MultiTransport.cpp:MultiTransport::solveLMatrixEquation", "src/transport/MultiTransport.cpp:MultiTransport::thermalConductivity", "src/transport/MultiTransport.cpp:MultiTransport::getThermalDiffCoeffs", "src/transport/MultiTransport.cpp:MultiTransport::getSpeciesFluxes", "src/transport/MultiTransport.cpp:MultiTransport::getMultiDiffCoeffs"]}
{"id": "C72", "title": "Dusty gas model", "statement": "Molar fluxes in a porous medium satisfy the dusty gas equations: momentum exchange between species and with the medium balances concentration gradient and viscous flow. The matrix is nonsingular, Graham's law holds without gradients of temperature and pressure, fluxes reverse with the points and vanish between equal points. Coefficients belong to the current medium and state.", "quantifier": "all numbers of species, states, media, diffusion coefficients, distances and sequences of calls", "why_tests_cant": "Tests compare one or no flux with a stored value; the equations hold for all compositions and media.", "anchors": ["src/transport/DustyGasTransport.cpp:DustyGasTransport::updateBinaryDiffCoeffs", "src/transport/DustyGasTransport.cpp:DustyGasTransport::updateKnudsenDiffCoeffs", "src/transport/DustyGasTransport.cpp:DustyGasTransport::eval_H_matrix", "src/transport/DustyGasTransport.cpp:DustyGasTransport::getMolarFluxes", "src/transport/DustyGasTransport.cpp:DustyGasTransport::updateMultiDiffCoeffs", "src/transport/DustyGasTransport.cpp:DustyGasTransport::getMultiDiffCoeffs", "src/transport/DustyGasTransport.cpp:DustyGasTransport::updateTransport_T", "src/transport/DustyGasTransport.cpp:DustyGasTransport::updateTransport_C", "src/transport/DustyGasTransport.cpp:DustyGasTransport::setPorosity", "src/transport/DustyGasTransport.cpp:DustyGasTransport::setTortuosity", "src/transport/DustyGasTransport.cpp:DustyGasTransport::setMeanPoreRadius", "src/transport/DustyGasTransport.cpp:DustyGasTransport::setMeanParticleDiameter", "src/transport/DustyGasTransport.cpp:DustyGasTransport::setPermeability"]}
{"id": "C73", "title": "Coverage-dependent surface thermodynamics", "statement": "Enthalpies, entropies, heat capacities and chemical potentials of surface species are the reference values plus the declared dependencies at the current coverages and temperature, for every history of calls. They satisfy mu = h - T s, dh/dT = cp, ds/dT = cp/T, and mixture properties are sums over species. Declared parameters are reproduced.", "quantifier": "all dependencies, coverages, temperatures and sequences of calls", "why_tests_cant": "Tests compare values at a few states computed with the same formulas; stale results need particular orders of calls, and the boundary coverage one is not tested.", "anchors": ["src/thermo/CoverageDependentSurfPhase.cpp:CoverageDependentSurfPhase::PolynomialDependency::PolynomialDependency", "src/thermo/CoverageDependentSurfPhase.cpp:CoverageDependentSurfPhase::InterpolativeDependency::InterpolativeDependency", "src/thermo/CoverageDependentSurfPhase.cpp:CoverageDependentSurfPhase::addInterpolativeDependency", "src/thermo/CoverageDependentSurfPhase.cpp:CoverageDependentSurfPhase::getSpeciesParameters", "src/thermo/CoverageDependentSurfPhase.cpp:CoverageDependentSurfPhase::getGibbs_RT_ref", "src/thermo/CoverageDependentSurfPhase.cpp:CoverageDependentSurfPhase::getEnthalpy_RT", "src/thermo/CoverageDependentSurfPhase.cpp:CoverageDependentSurfPhase::getEntropy_R", "src/thermo/CoverageDependentSurfPhase.cpp:CoverageDependentSurfPhase::getCp_R", "src/thermo/CoverageDependentSurfPhase.cpp:CoverageDependentSurfPhase::getGibbs_RT", "src/thermo/CoverageDependentSurfPhase.cpp:CoverageDependentSurfPhase::getPureGibbs", "src/thermo/CoverageDependentSurfPhase.cpp:CoverageDependentSurfPhase::getStandardChemPotentials", "src/thermo/CoverageDependentSurfPhase.cpp:CoverageDependentSurfPhase::getPartialMolarEnthalpies", "src/thermo/CoverageDependentSurfPhase.cpp:CoverageDependentSurfPhase::getPartialMolarEntropies", "src/thermo/CoverageDependentSurfPhase.cpp:CoverageDependentSurfPhase::getPartialMolarCp", "src/thermo/CoverageDependentSurfPhase.cpp:CoverageDependentSurfPhase::getChemPotentials", "src/thermo/CoverageDependentSurfPhase.cpp:CoverageDependentSurfPhase::enthalpy_mole", "src/thermo/CoverageDependentSurfPhase.cpp:CoverageDependentSurfPhase::entropy_mole", "src/thermo/CoverageDependentSurfPhase.cpp:CoverageDependentSurfPhase::cp_mole", "src/thermo/CoverageDependentSurfPhase.cpp:CoverageDependentSurfPhase::_updateCovDepThermo", "src/thermo/CoverageDependentSurfPhase.cpp:CoverageDependentSurfPhase::_updateTotalThermo", "src/thermo/SurfPhase.cpp:SurfPhase::_updateThermo", "src/thermo/SurfPhase.cpp:SurfPhase::getCoverages"]}
{"id": "C74", "title": "Reading and writing of unit strings", "statement": "A unit string denotes its leading number times the product of the named units, with SI prefixes and exponents, those after a slash counted negative; strings with unknown names or malformed exponents are rejected; the order of the factors does not matter. Units::str writes a string which is read back as an equal object.", "quantifier": "all strings; all unit objects with formattable exponents", "why_tests_cant": "Tests read a few dozen strings; the set of strings is infinite, and bare prefixes, numbers with exponents and the pseudo-dimensions are not tried.", "anchors": ["src/base/Units.cpp:Units::Units(const string& name, bool force_unity)", "src/base/Units.cpp:Units::str", "src/base/Units.cpp:knownUnits", "src/base/Units.cpp:prefixes", "src/base/Units.cpp:Units::operator*=", "src/base/Units.cpp:Units::pow"]}
{"id": "C75", "title": "Dense matrices: storage, products and linear solution", "statement": "Array2D stores element (i,j) once; rows and columns read back what was written; resizing keeps the dimensions and the storage consistent; products with vectors and matrices are those of linear algebra; solve returns the solution of A x = b for every nonsingular square A and reports singular and non-square matrices.", "quantifier": "all dimensions, all matrices and vectors, all sequences of the modelled operations", "why_tests_cant": "Tests use a few small matrices; aliasing between element positions, empty matrices and appended columns are not tried.", "anchors": ["src/base/Array.cpp:Array2D::appendColumn", "src/base/Array.cpp:Array2D::resize", "src/base/Array.cpp:Array2D::setRow", "src/base/Array.cpp:Array2D::getColumn", "src/numerics/DenseMatrix.cpp:DenseMatrix::resize", "src/numerics/DenseMatrix.cpp:DenseMatrix::operator=", "src/numerics/DenseMatrix.cpp:DenseMatrix::mult", "src/numerics/DenseMatrix.cpp:solve"]}
{"id": "C76", "title": "Reaction path diagrams conserve atoms", "statement": "For each reaction and element, the atoms moved from a reactant to the products add up to the atoms it contains, and likewise for the products; hence the net flow out of a species in the diagram is its number of atoms times its net consumption rate. Edges, visible nodes and line widths of the exported graph correspond to the flows.", "quantifier": "all mechanisms, elements, rates of progress and lists of included and excluded species; all diagrams", "why_tests_cant": "Tests compare a few diagrams of one mechanism with stored output; the order of the species, which decides between the rules, is never varied.", "anchors": ["src/kinetics/ReactionPath.cpp:ReactionPathBuilder::build", "src/kinetics/ReactionPath.cpp:ReactionPathBuilder::init", "src/kinetics/ReactionPath.cpp:ReactionPathBuilder::findGroups", "src/kinetics/ReactionPath.cpp:ReactionPathDiagram::linkNodes", "src/kinetics/ReactionPath.cpp:ReactionPathDiagram::add", "src/kinetics/ReactionPath.cpp:ReactionPathDiagram::exportToDot", "src/kinetics/Group.cpp:Group::validate"]}
{"id": "C77", "title": "Setting the state by enthalpy, energy or entropy", "statement": "When setState_HP, UV, SP or SV returns, the temperature is positive and the property equals the target, or its error or the last step is below the tolerance; the iteration moves towards the target, by at most 100 K, inside the brackets found so far. setState with a map calls the setter for the pair of properties given, under any of their names.", "quantifier": "all phases (property and heat capacity as functions of temperature), targets, tolerances, starting temperatures; all sets of keys", "why_tests_cant": "Tests set a few states of a few gases; starts outside the limits, cold states, unstable regions and steps which are small by accident are not tried.", "anchors": ["src/thermo/ThermoPhase.cpp:ThermoPhase::setState_HPorUV", "src/thermo/ThermoPhase.cpp:ThermoPhase::setState_SPorSV", "src/thermo/ThermoPhase.cpp:ThermoPhase::setState_TP", "src/thermo/ThermoPhase.cpp:ThermoPhase::setState"]}
{"id": "C78", "title": "Thermodynamics of the ideal gas phase", "statement": "The molar and partial molar properties of IdealGasPhase belong together: p v = R T, u = h - p v, g = h - T s = sum of X mu, mu = mu0 + R T ln a; the heat capacities, the volume, the entropy, the compressibility, the expansion coefficient and the square of the speed of sound are the derivatives they are named after; Gibbs-Duhem holds; setPressure and setState_DP give the pressure asked for; setToEquilState gives the chemical potentials asked for.", "quantifier": "all species data with consistent reference functions, all temperatures, pressures, compositions which sum to one and in which every mole fraction (also over the mean molecular weight) is zero or at least SmallNumber = 1e-300; for setToEquilState all potentials between -600 and 300 above the reference values", "why_tests_cant": "Tests compare a few states of one mechanism by finite differences to a tolerance; an identity which fails slightly, or for trace species, passes.", "anchors": ["src/thermo/IdealGasPhase.cpp:IdealGasPhase::getChemPotentials", "src/thermo/IdealGasPhase.cpp:IdealGasPhase::entropy_mole", "src/thermo/IdealGasPhase.cpp:IdealGasPhase::setToEquilState", "include/cantera/thermo/IdealGasPhase.h:IdealGasPhase::setPressure", "include/cantera/thermo/IdealGasPhase.h:IdealGasPhase::setState_DP"]}
{"id": "C79", "title": "Thermodynamics of ideal condensed solutions", "statement": "In IdealSolidSolnPhase and LatticePhase the molar and partial molar properties belong together: v, h, s, cp and g are the averages of the partial molar values, g = h - T s, mu = h - T s = mu0 + R T ln a for each species, the derivatives with temperature and pressure are the ones they are named after, Gibbs-Duhem holds, setToEquilState gives the potentials asked for.", "quantifier": "all species data, temperatures, pressures, compositions whose mole fractions are zero or at least 1e-300", "why_tests_cant": "Tests run the lattice phases at the reference pressure, where the missing terms vanish.", "anchors": ["src/thermo/IdealSolidSolnPhase.cpp:IdealSolidSolnPhase::getChemPotentials", "src/thermo/IdealSolidSolnPhase.cpp:IdealSolidSolnPhase::setToEquilState", "src/thermo/LatticePhase.cpp:LatticePhase::getPartialMolarEnthalpies", "src/thermo/LatticePhase.cpp:LatticePhase::getStandardChemPotentials", "src/thermo/LatticePhase.cpp:LatticePhase::setSiteDensity"]}
{"id": "C80", "title": "Lattice solids", "statement": "A species of a LatticeSolidPhase is found in its sublattice by minTemp, maxTemp and modifyOneHf298SS; the mole fractions set are read back, per lattice; save and restore of the state restores the lattices; molar properties are averages of partial molar ones; the stoichiometric constraint is zero for moles in the stoichiometric ratio.", "quantifier": "all numbers of lattices and species, stoichiometric coefficients, mole fractions with a positive sum in each lattice", "why_tests_cant": "The tests use one lattice solid, mostly at one composition; none asks for the limits or heat of formation of one species, or restores a state.", "anchors": ["src/thermo/LatticeSolidPhase.cpp:LatticeSolidPhase::minTemp", "src/thermo/LatticeSolidPhase.cpp:LatticeSolidPhase::modifyOneHf298SS", "src/thermo/LatticeSolidPhase.cpp:LatticeSolidPhase::getMoleFractions", "src/thermo/LatticeSolidPhase.cpp:LatticeSolidPhase::_updateThermo", "src/thermo/LatticeSolidPhase.cpp:LatticeSolidPhase::setLatticeStoichiometry"]}
{"id": "C81", "title": "Tabulated binary solutions", "statement": "BinarySolutionTabulatedThermo interpolates the table: exactly at its points, linearly between them, the end values outside, within the range of the data; the molar volumes average to the molar volume; without a column of volumes the species keep their own; the difference of the chemical potentials is h - T s of the table.", "quantifier": "all sorted tables, all mole fractions", "why_tests_cant": "The tests use one table and stay inside it; the first point of the table is never asked for.", "anchors": ["src/thermo/BinarySolutionTabulatedThermo.cpp:BinarySolutionTabulatedThermo::interpolate", "src/thermo/BinarySolutionTabulatedThermo.cpp:BinarySolutionTabulatedThermo::diff", "src/thermo/BinarySolutionTabulatedThermo.cpp:BinarySolutionTabulatedThermo::calcDensity", "src/thermo/BinarySolutionTabulatedThermo.cpp:BinarySolutionTabulatedThermo::_updateThermo"]}
{"id": "C82", "title": "Molality based solutions", "statement": "Molalities set are the molalities read; molalities set by name give a neutral composition with the amounts asked for; in IdealMolalSoln activities, activity coefficients, chemical potentials, enthalpies and entropies belong together, Gibbs-Duhem holds for every cutoff model, the osmotic coefficient of the ideal solution is one, the cutoffs are continuous, and the parameters of the exponential cutoff solve the equations they come from.", "quantifier": "all compositions, charges, cutoff parameters; solvent not below its bound", "why_tests_cant": "Tests use one NaCl solution in water far away from the cutoffs, and never ask for the entropy of an ideal molal solution.", "anchors": ["src/thermo/MolalityVPSSTP.cpp:MolalityVPSSTP::setMolalitiesByName", "src/thermo/MolalityVPSSTP.cpp:MolalityVPSSTP::osmoticCoefficient", "src/thermo/IdealMolalSoln.cpp:IdealMolalSoln::getPartialMolarEntropies", "src/thermo/IdealMolalSoln.cpp:IdealMolalSoln::s_updateIMS_lnMolalityActCoeff", "src/thermo/IdealMolalSoln.cpp:IdealMolalSoln::calcIMSCutoffParams_"]}
{"id": "C83", "title": "Pressure dependent standard states", "statement": "The standard state of a species with constant volume or with a volume polynomial depends on temperature and pressure only, however it was set; g = h - T s, dg/dT = -s, dg/dp = V, dh/dT = cp, ds/dp = -dV/dT and u = h - pV hold; the volume derivatives are the derivatives of the volume; the values read from a phase are those of its species at the temperature and pressure of the phase, whatever was set before.", "quantifier": "all reference thermodynamics, volume polynomials, temperatures, pressures, sequences of settings", "why_tests_cant": "Tests look at a few stored numbers at one pressure, mostly next to the reference pressure where all pressure terms vanish.", "anchors": ["src/thermo/PDSS_ConstVol.cpp:PDSS_ConstVol::setPressure", "src/thermo/PDSS_ConstVol.cpp:PDSS_ConstVol::intEnergy_mole", "src/thermo/PDSS_SSVol.cpp:PDSS_SSVol::setTemperature", "src/thermo/PDSS_SSVol.cpp:PDSS_SSVol::calcMolarVolume", "src/thermo/PDSS_Water.cpp:PDSS_Water::gibbs_RT_ref", "src/thermo/VPStandardStateTP.cpp:VPStandardStateTP::_updateStandardStateThermo", "src/thermo/VPStandardStateTP.cpp:VPStandardStateTP::getStandardVolumes_ref"]}
{"id": "C84", "title": "Ions in water (HKFT), dielectric constant and Debye-Hückel coefficient of water", "statement": "For PDSS_HKFT dG/dp = V, dH/dT = cp, dG/dT = -S and T dS/dT = cp; at the reference state the differences vanish; missing input is completed consistently; relEpsilon, ADebye, density_T and the solvent functions f and g give for ifunc 1, 2, 3 the derivatives of what they give for ifunc 0.", "quantifier": "all parameters, charges, temperatures above 228 K and pressures where the formulas are defined; all water densities, expansion coefficients and compressibilities which belong together", "why_tests_cant": "Tests compare single numbers with stored output of the same code and cannot see that two branches of one function disagree.", "anchors": ["src/thermo/PDSS_HKFT.cpp:PDSS_HKFT::deltaG", "src/thermo/PDSS_HKFT.cpp:PDSS_HKFT::deltaS", "src/thermo/PDSS_HKFT.cpp:PDSS_HKFT::cp_mole", "src/thermo/PDSS_HKFT.cpp:PDSS_HKFT::molarVolume", "src/thermo/PDSS_HKFT.cpp:PDSS_HKFT::f", "src/thermo/PDSS_HKFT.cpp:PDSS_HKFT::g", "src/thermo/PDSS_HKFT.cpp:PDSS_HKFT::initThermo", "src/thermo/WaterProps.cpp:WaterProps::relEpsilon", "src/thermo/WaterProps.cpp:WaterProps::ADebye", "src/thermo/WaterProps.cpp:WaterProps::density_T"]}
{"id": "C85", "title": "Pure condensed substances and setting their state", "statement": "For StoichSubstance u = h - pV, g = h - Ts, cv = cp, dg/dT = -s, dg/dp = V, dh/dT = cp whatever the cache holds; setState_HP returns only with the enthalpy asked for, up to the tolerance squared times the slope of the heat capacity, keeps the temperature positive, finds every temperature within 4900 K for constant heat capacity and fails beyond 5000 K; volumes cannot be set.", "quantifier": "all reference thermodynamics, temperatures, pressures, targets, tolerances", "why_tests_cant": "Tests set the state of one solid a few Kelvin away and never run out of passes.", "anchors": ["src/thermo/StoichSubstance.cpp:StoichSubstance::getEnthalpy_RT", "src/thermo/StoichSubstance.cpp:StoichSubstance::getIntEnergy_RT", "src/thermo/SingleSpeciesTP.cpp:SingleSpeciesTP::setState_HP", "src/thermo/SingleSpeciesTP.cpp:SingleSpeciesTP::setState_SP", "src/thermo/SingleSpeciesTP.cpp:SingleSpeciesTP::cv_mole", "src/thermo/SingleSpeciesTP.cpp:SingleSpeciesTP::_updateThermo"]}
{"id": "C86", "title": "Linear Burke mixture rates", "statement": "The rate coefficient of a reaction with several colliders is the mole fraction weighted mean of the rates of the colliders at the pressure scaled by the ratio of the weighted mixture strength to the collider strength; it lies between the smallest and the greatest contribution, does not depend on the order in which the colliders are listed, and reduces to the rate of a collider in its pure gas; an input that is accepted is written back unchanged.", "quantifier": "all lists of colliders, rate expressions, compositions, temperatures and pressures", "why_tests_cant": "Tests use three or four named reactions; a collider that is unknown, listed twice or has zero efficiency is never tried.", "anchors": ["src/kinetics/LinearBurkeRate.cpp:LinearBurkeRate::setParameters", "src/kinetics/LinearBurkeRate.cpp:LinearBurkeRate::evalFromStruct", "src/kinetics/LinearBurkeRate.cpp:LinearBurkeRate::getParameters", "src/kinetics/LinearBurkeRate.cpp:LinearBurkeRate::setContext", "src/kinetics/LinearBurkeRate.cpp:LinearBurkeData::update", "src/kinetics/LinearBurkeRate.cpp:LinearBurkeData::perturbPressure"]}
{"id": "C87", "title": "Debye-Hückel electrolytes", "statement": "The activity coefficients of the solutes and of the solvent satisfy the Gibbs-Duhem equation; they go to one at infinite dilution; the temperature and pressure derivatives computed by separate functions are the derivatives of the coefficients; chemical potentials, partial molar enthalpies, entropies, heat capacities and volumes are consistent; the table of interaction parameters is symmetric and read back as set.", "quantifier": "all numbers of species, charges, ionic radii, parameters, molalities, temperatures and pressures", "why_tests_cant": "Tests compare stored numbers for NaCl in water, where the branches that are wrong are not used or vanish.", "anchors": ["src/thermo/DebyeHuckel.cpp:DebyeHuckel::s_update_lnMolalityActCoeff", "src/thermo/DebyeHuckel.cpp:DebyeHuckel::s_update_dlnMolalityActCoeff_dT", "src/thermo/DebyeHuckel.cpp:DebyeHuckel::s_update_d2lnMolalityActCoeff_dT2", "src/thermo/DebyeHuckel.cpp:DebyeHuckel::s_update_dlnMolalityActCoeff_dP", "src/thermo/DebyeHuckel.cpp:DebyeHuckel::_osmoticCoeffHelgesonFixedForm", "src/thermo/DebyeHuckel.cpp:DebyeHuckel::_lnactivityWaterHelgesonFixedForm", "src/thermo/DebyeHuckel.cpp:DebyeHuckel::getActivities", "src/thermo/DebyeHuckel.cpp:DebyeHuckel::getChemPotentials", "src/thermo/DebyeHuckel.cpp:DebyeHuckel::getPartialMolarEnthalpies", "src/thermo/DebyeHuckel.cpp:DebyeHuckel::setBeta", "src/thermo/DebyeHuckel.cpp:DebyeHuckel::setDebyeHuckelModel"]}
{"id": "C88", "title": "Sparse Jacobians and preconditioners", "statement": "Values of equal indices add up; the matrix handed to the factorization is I - gamma J, or J - rdt mask, with the elements below the threshold removed except on the diagonal; each block of a network is written at its own place and nothing outside is touched; a set-up does not depend on earlier ones; a change of gamma keeps the Jacobian; options that cannot work together are refused.", "quantifier": "all matrices, thresholds, networks, histories of calls, names of solvers and sides", "why_tests_cant": "Tests integrate a few networks, where a wrong preconditioner only costs time, and never read an object twice.", "anchors": ["src/numerics/EigenSparseJacobian.cpp:EigenSparseJacobian::updatePreconditioner", "src/numerics/EigenSparseJacobian.cpp:EigenSparseJacobian::updateTransient", "src/numerics/AdaptivePreconditioner.cpp:AdaptivePreconditioner::initialize", "src/numerics/AdaptivePreconditioner.cpp:AdaptivePreconditioner::prunePreconditioner", "src/numerics/EigenSparseDirectJacobian.cpp:EigenSparseDirectJacobian::factorize", "src/zeroD/ReactorNet.cpp:ReactorNet::preconditionerSetup", "src/zeroD/ReactorNet.cpp:ReactorNet::updatePreconditioner", "include/cantera/numerics/Integrator.h:setPreconditioner", "src/numerics/CVodesIntegrator.cpp:CVodesIntegrator::applyOptions"]}
{"id": "C89", "title": "Multiphase equilibrium: components, reactions and composition steps", "statement": "The species chosen as components are independent, the order stays a rearrangement, every formation reaction conserves every element and the reactions generate every change that does; no pivot is zero; the initial estimate and the steps conserve the elements and keep the amounts not negative; the direction is downhill; the solver returns only with every reaction energy below the tolerance, apart from absent pure phases with positive energy.", "quantifier": "all numbers of species and elements, compositions, amounts, chemical potentials, orders, tolerances", "why_tests_cant": "Tests equilibrate a few mixtures with independent elements and compare the result with other solvers to a few digits.", "anchors": ["src/equil/MultiPhaseEquil.cpp:MultiPhaseEquil::getComponents", "src/equil/MultiPhaseEquil.cpp:MultiPhaseEquil::step", "src/equil/MultiPhaseEquil.cpp:MultiPhaseEquil::stepComposition", "src/equil/MultiPhaseEquil.cpp:MultiPhaseEquil::computeReactionSteps", "src/equil/MultiPhaseEquil.cpp:MultiPhaseEquil::computeN", "src/equil/MultiPhaseEquil.cpp:MultiPhaseEquil::error", "src/equil/MultiPhaseEquil.cpp:MultiPhaseEquil::setInitialMoles", "src/equil/MultiPhaseEquil.cpp:MultiPhaseEquil::equilibrate", "src/equil/MultiPhaseEquil.cpp:MultiPhaseEquil::finish", "include/cantera/equil/MultiPhaseEquil.h:getStoichVector"]}
{"id": "C90", "title": "IAPWS-95 Helmholtz function", "statement": "The coded first and second derivatives of the ideal and residual parts are the derivatives of the coded function wherever they are numbers; they are numbers exactly at positive reciprocal temperature and non-zero density away from the critical point (away from the critical density for the second density derivative); a density returned by the solver is positive and reproduces the requested pressure to the stated tolerance on a branch with positive slope.", "quantifier": "all coefficient values, temperatures, densities, pressures and guesses", "why_tests_cant": "The residual part has 56 terms with non-integer powers; a wrong derivative shows only at states and tolerances a test happens to use, and the places where the expression is 0/0 are single points.", "anchors": ["src/thermo/WaterPropsIAPWSphi.cpp"]}
{"id": "C91", "title": "Water properties from the Helmholtz function", "statement": "Pressure, entropy, internal energy, enthalpy, Gibbs energy, cv, cp, compressibility and expansion coefficient are the textbook derivatives of one Helmholtz function, hence mutually consistent; a density found for a temperature and pressure reproduces the pressure; the phase flag agrees with mechanical stability; the saturation and spinodal searches keep their brackets and report failure.", "quantifier": "all coefficient values, temperatures, densities, pressures, phases and density guesses", "why_tests_cant": "Consistency relations are identities over the whole plane of states; the exceptions (critical isochore, one sided convergence test) are hit only by special states.", "anchors": ["src/thermo/WaterPropsIAPWS.cpp", "include/cantera/thermo/WaterPropsIAPWS.h"]}
{"id": "C92", "title": "Electron energy distribution of a plasma", "statement": "The generalised electron energy distribution is positive and normalised with the mean energy 3/2 kT (fails for every shape parameter except one, where it is Maxwell's); energy levels are accepted exactly when strictly increasing from a non-negative start; a discretized distribution is normalised so that its quadrature is one, its temperature is 2/3 of its mean energy; refused inputs leave the state unchanged (fails).", "quantifier": "all level grids, distributions, temperatures, shape parameters and both quadrature rules", "why_tests_cant": "Tests use one shape parameter at which the error vanishes and never look at the state after a refused call.", "anchors": ["src/thermo/PlasmaPhase.cpp", "include/cantera/thermo/PlasmaPhase.h"]}
{"id": "C93", "title": "Plasma collision rates and two-temperature thermodynamics", "statement": "Rate coefficients follow the present distribution and levels (fails after some sequences of calls); the elastic power loss is the documented quadrature and vanishes at equal temperatures for Maxwell's distribution; electron partial molar properties are those at the electron temperature, others at the gas temperature, and mixture properties are their mole weighted sums.", "quantifier": "all mechanisms, cross sections, states and sequences of calls", "why_tests_cant": "Stale caches need particular sequences of calls; thermodynamic identities range over all states.", "anchors": ["src/thermo/PlasmaPhase.cpp", "include/cantera/thermo/PlasmaPhase.h", "src/kinetics/ElectronCollisionPlasmaRate.cpp", "include/cantera/kinetics/ElectronCollisionPlasmaRate.h"]}
{"id": "C94", "title": "Choice of component species and element order", "statement": "The components found by BasisOptimize have linearly independent formulas, are chosen greedily by mole number, and every species is (to the coded limit) a combination of them; the returned ordering is a permutation that lists them first (fails when the species are exhausted); ElemRearrange returns a permutation of the elements whose first rows are independent on the components or throws; the resulting formation reactions balance every element.", "quantifier": "all formula matrices, mole numbers, abundances and starting orderings", "why_tests_cant": "The faulty exchange needs linearly dependent species and fewer components than elements with species zero among the components; tests look at final equilibrium only.", "anchors": ["src/equil/BasisOptimize.cpp"]}
{"id": "C95", "title": "Plug flow reactor", "statement": "The initial derivatives solve the differentiated conservation equations; along every solution of the residual equations mass flow plus wall exchange, momentum, enthalpy and site fractions obey their balances and the gas law holds; names and indices of components correspond (fails for wall exchange of more than one species, the gas law of the initial derivatives and equal names).", "quantifier": "all gases, mechanisms, surfaces, states and solutions of the residual equations", "why_tests_cant": "Tests compare profiles to stored results of the same code; the lost wall terms vanish without surface reactions that exchange mass.", "anchors": ["src/zeroD/FlowReactor.cpp", "src/zeroD/Reactor.cpp", "src/zeroD/ReactorNet.cpp"]}
{"id": "C96", "title": "State of a pure fluid", "statement": "Every way of setting the state of a pure substance that returns normally reproduces the given pair within the coded tolerances; saturation data satisfy equality of pressures and Gibbs functions; the quality set is the quality read; the lever rule reproduces the property; reading a property does not change the state; a failed call leaves the state as it was (fails in several places).", "quantifier": "all equations of state, states, pairs of properties and their values", "why_tests_cant": "The numerical searches have unboundedly many paths; failing paths need particular starting states and tests do not inspect the state after an exception.", "anchors": ["src/tpx/Sub.cpp", "include/cantera/tpx/Sub.h"]}
{"id": "C97", "title": "Equations of state of the pure fluids", "statement": "For each of the eight fluids internal energy, entropy and pressure derive from one Helmholtz function at every temperature and density (du = T ds + P/rho² drho); vapour pressure and liquid density are defined exactly between the lowest and the critical temperature, the vapour pressure is positive and reaches the critical pressure, the liquid is at least as dense as the critical fluid; the coefficients are those of the source; the factory returns the fluid of the given name (fails for hydrogen at 400 K and for HFC-134a next to its critical temperature).", "quantifier": "all temperatures above zero, all densities above zero, all fluids and names", "why_tests_cant": "A wrong digit or sign in one of hundreds of coefficients changes one property a little; tests compare to a few stored points and do not check consistency between energy, entropy and pressure everywhere.", "anchors": ["src/tpx/Nitrogen.cpp", "src/tpx/Oxygen.cpp", "src/tpx/Methane.cpp", "src/tpx/Hydrogen.cpp", "src/tpx/CarbonDioxide.cpp", "src/tpx/Heptane.cpp", "src/tpx/Water.cpp", "src/tpx/HFC134a.cpp", "src/tpx/utils.cpp"]}
{"id": "C98", "title": "Phase of a pure fluid", "statement": "After every setter of PureFluidPhase that returns, the temperature and density of the phase equal those of the substance; the setter of a pair keeps the two given values to the tolerance of the substance; a failed setState_TP restores temperature and density; reference-state functions return the phase to its state; Gibbs energy is enthalpy less temperature times entropy; the name of the phase follows temperature, pressure and quality (several of these are refuted for calls that throw).", "quantifier": "all states of the phase and the substance, all arguments, all fluids of the Substance interface", "why_tests_cant": "The phase and the substance each store a temperature and density; they only come apart after exceptions or after saturation queries, which tests do not follow by further calls.", "anchors": ["src/thermo/PureFluidPhase.cpp", "include/cantera/thermo/PureFluidPhase.h", "src/thermo/ThermoPhase.cpp", "src/thermo/Phase.cpp"]}
{"id": "C99", "title": "Surface coverages in time and at steady state", "statement": "The derivatives ImplicitSurfChem gives to the integrator are rate times size over site density and keep the sum of coverages of each surface; the variables of the surfaces and the bulk phases are laid out without overlap; solvePseudoSteadyStateProblem succeeds iff an attempt succeeds and keeps the state of the gas; solveSP solves rate = 0 with filled sites, its Jacobian has the exact site row, its damping keeps the unknowns in range, success means convergence, and integration in time ends at the requested time (several parts are refuted).", "quantifier": "all numbers of surfaces and species, all rates, all states, all sequences of norms", "why_tests_cant": "Tests use one surface, start near the solution and never reach the second attempt; the faults need two surfaces, a failed solve, NaN or 1000 iterations.", "anchors": ["src/kinetics/ImplicitSurfChem.cpp", "src/kinetics/solveSP.cpp", "include/cantera/kinetics/ImplicitSurfChem.h", "include/cantera/thermo/SurfPhase.h", "src/thermo/Phase.cpp"]}
{"id": "C100", "title": "The water phase keeps one state and its transport properties are well defined", "statement": "Setters of the water phase leave the phase and its equation of state object at the same temperature and density, queries do not change the state, a refused call changes nothing; the reference functions are taken at one atmosphere; offsets give the stated enthalpy and entropy; Gibbs energy, enthalpy and entropy agree; viscosity and thermal conductivity follow the published formulas and are positive (refuted for refused calls, for failing queries and at low temperature).", "quantifier": "all states, all outcomes of the density and saturation solvers, all temperatures, densities, compressibilities", "why_tests_cant": "Tests use a few states where the solvers converge; the faults need a refused pressure, a failing root search, a second initialisation or extreme temperatures.", "anchors": ["src/thermo/WaterSSTP.cpp", "src/transport/WaterTransport.cpp", "src/thermo/WaterPropsIAPWS.cpp"]}
{"id": "C101", "title": "Ideal solutions of species with pressure dependent standard states", "statement": "Molar properties are averages of partial molar ones and G = H - T S; activities are mole fractions in every standard concentration model, with the stated units; after a setter the density belongs to temperature, pressure and composition; setToEquilState gives the potentials asked for; cv_mole is the heat capacity at constant volume (the last two, and the density after a change of composition alone, are refuted).", "quantifier": "all numbers of species, all compositions, all standard state values, all potentials", "why_tests_cant": "Tests compare a few numbers at one state; none calls setToEquilState for this class or changes the composition without setting the pressure.", "anchors": ["src/thermo/IdealSolnGasVPSS.cpp", "src/thermo/VPStandardStateTP.cpp", "src/thermo/MultiSpeciesThermo.cpp", "include/cantera/thermo/SpeciesThermoInterpType.h", "src/thermo/Phase.cpp"]}
{"id": "C102", "title": "Data of a species survive reading, checking and writing", "statement": "The molecular weight is the sum of atomic weights; validated transport data have a geometry that fits the number of atoms and no negative parameter; writing species and transport data and reading them again changes nothing; the continuity check of two-region polynomials bounds the jumps when it is silent (refuted for size and charge of a species).", "quantifier": "all compositions, tables of atomic weights, parameters and polynomial values", "why_tests_cant": "Tests write species with their input attached and of size one; unusual species are not read back.", "anchors": ["src/thermo/Species.cpp", "src/transport/TransportData.cpp", "src/thermo/NasaPoly2.cpp"]}
{"id": "C103", "title": "Transport in ionised gases", "statement": "Every species is exactly one of ion, neutral and electron, also after species have been added; mixture viscosity and conductivity are averages of those of the neutral species; ion mobilities follow the law of Blanc and the relation of Einstein with the mixture diffusion coefficients; the electrical conductivity is the sum over the charge carriers; collision parameters are positive and the collision integral is defined and positive in its range (refuted for added species, for the thermal conductivity with ions, and for the collision integral).", "quantifier": "all lists of species, all compositions, binary coefficients, polarisabilities and reduced temperatures", "why_tests_cant": "Tests use one flame gas with traces of ions at a few states, and never add a species afterwards.", "anchors": ["src/transport/IonGasTransport.cpp", "include/cantera/transport/IonGasTransport.h", "src/transport/GasTransport.cpp", "src/transport/MixTransport.cpp"]}
{"id": "C104", "title": "Flames with ions and electric field", "statement": "Component bounds: tighter ones for ions and for the electron and those of the flow for all else; the diffusive mass fluxes sum to zero in both stages; without ions they are those of the flow without ions; a solution of the second stage obeys the law of Gauss on the grid, with no field without charge; the switches for the field decide whether it is solved; boundary equations at the inlet fix flux and sum of mass fractions (refuted: bounds without a species named E, sum of fluxes in the first stage, switches, inlet with ions, mass fraction gradients).", "quantifier": "all grids, numbers of species, charges, compositions, mobilities, coefficients and ranges of points", "why_tests_cant": "Tests solve one methane flame with ions and look at the largest field.", "anchors": ["src/oneD/IonFlow.cpp", "include/cantera/oneD/IonFlow.h", "src/oneD/Flow1D.cpp", "src/oneD/Boundary1D.cpp"]}
{"id": "C105", "title": "Transport in dense gases", "statement": "The pressure correction of Takahashi is one below a tenth of the critical pressure, linear between the columns of the table, positive and at most 1.07 above the critical temperature; corrected binary coefficients are symmetric and reduce to those of the ideal gas; two species diffuse with the binary coefficient; critical properties are those of the pure species and the composition is restored; the viscosities of Lucas and Chung have the right dilute, identical species and range behaviour (refuted: continuity at a tenth of the critical pressure, sign at low temperature, composition after an exception, molar density of the mixture).", "quantifier": "all pressures, temperatures, compositions, critical properties and numbers of species", "why_tests_cant": "Tests compare with literature data for a few pure gases.", "anchors": ["src/transport/HighPressureGasTransport.cpp", "include/cantera/transport/HighPressureGasTransport.h"]}
{"id": "C106", "title": "Polynomial fits and collision integrals", "statement": "polyfit refuses degrees that are not less than the number of points; a minimum of its sum of squares satisfies the normal equations, is unique for distinct points, reproduces polynomials and interpolates when there are as many coefficients as points; the error is the root mean square deviation; the quadratic interpolation reproduces quadratic functions; collision integrals have the values of the table at its temperatures; the fitted range encloses the requested one or is the whole table (refuted: use of the last temperature of the table, fits for every temperature range, entries of the table for dipoles, documented meaning of the first weight).", "quantifier": "all numbers of points, degrees, points, values, weights, tables, temperatures and ranges", "why_tests_cant": "Tests compare transport properties of a few mixtures with stored values.", "anchors": ["src/numerics/polyfit.cpp", "include/cantera/numerics/polyfit.h", "src/transport/MMCollisionInt.cpp", "src/transport/MMCollisionInt.h", "src/transport/GasTransport.cpp"]}
{"id": "C107", "title": "Phases of the multiphase equilibrium solver", "statement": "After the mole numbers of the solver are read the mole fractions times the total moles are the moles of the species and inert moles fill the rest; the volume is the sum of moles times partial molar volumes and the volume of inert gas; existence follows from the moles, inert moles and the potential unknown; cached properties follow temperature and pressure; the charge neutrality constraint is opposite to the electron (refuted: normalisation of mole fractions, cached volume of ideal solutions, state after derivatives of activity coefficients, cached potentials after a change of the phase object, ions without electron element).", "quantifier": "all numbers of species, mole numbers, inert moles, charges, cached values and phase models", "why_tests_cant": "Tests equilibrate a few multiphase mixtures and compare final compositions.", "anchors": ["src/equil/vcs_VolPhase.cpp", "include/cantera/equil/vcs_VolPhase.h", "src/equil/vcs_util.cpp", "include/cantera/equil/vcs_defs.h"]}
{"id": "C108", "title": "Element potential equilibrium solver", "statement": "Exactly six property pairs are accepted; chemical potentials from element potentials satisfy every reaction that conserves elements; elemental mole fractions sum to one; zero residuals mean that both fixed properties and all elements, including the one without equation, have their goal; a Newton step keeps every unknown within its bounds and limits its change; convergence bounds the deviation from each goal; the charge adjustment gives the charge its goal (refuted: convergence for positively charged mixtures and for a fixed property of value zero, start at the upper temperature limit, elements kept by the charge adjustment).", "quantifier": "all numbers of elements and species, compositions, goals, steps, bounds and tolerances", "why_tests_cant": "Tests equilibrate a few gas mixtures from ordinary states and compare final states.", "anchors": ["src/equil/ChemEquil.cpp", "include/cantera/equil/ChemEquil.h", "include/cantera/base/ct_defs.h", "include/cantera/base/utilities.h"]}
{"id": "C109", "title": "Scales of single ion activity coefficients", "statement": "Two scales are accepted; on the NBS scale the chloride ion has the coefficient of the Bates-Guggenheim convention; neutral combinations of ions and uncharged species do not depend on the scale; the scaled logarithms and the scaled coefficients agree; the chloride ion is found by name and composition (refuted: a refused scale is not stored, the cache follows the scale, the NBS scale without chloride, further elements in the chloride ion).", "quantifier": "all numbers of species, charges, coefficients, ionic strengths and scale types", "why_tests_cant": "Tests use one or two salts with the default scale.", "anchors": ["src/thermo/MolalityVPSSTP.cpp", "src/thermo/HMWSoln.cpp", "include/cantera/thermo/MolalityVPSSTP.h"]}
{"id": "C110", "title": "Setting up species thermo", "statement": "Every known name of a parametrisation gives an object of its class; temperature ranges and coefficients are accepted exactly when their numbers fit; the limits, the temperature in between and the coefficients of each range are those of the input; a region of a NASA9 parametrisation ends where the next one starts and the last one at the upper limit (refuted: single range NASA9 by name, order of the temperatures checked, repeated temperatures refused).", "quantifier": "all lists of temperatures and coefficients, all names", "why_tests_cant": "Tests read valid input files with two or three ranges in rising order.", "anchors": ["src/thermo/SpeciesThermoFactory.cpp", "src/thermo/Nasa9PolyMultiTempRegion.cpp", "include/cantera/thermo/speciesThermoTypes.h", "include/cantera/base/AnyMap.inl.h"]}
{"id": "C111", "title": "Solution objects: adjacent phases and callbacks", "statement": "Any sequence of accepted calls of addAdjacent leaves distinct names, a table of names that agrees with the list, and adjacent phases of higher dimension only; lookup by the name of an entry gives this entry; each callback registered is called when a manager changes and none if it does not (refuted: lookup and distinct names after a phase is renamed, null thermo object).", "quantifier": "all numbers of phases, names, dimensions, callbacks and sequences of calls", "why_tests_cant": "Tests build surfaces with one or two adjacent phases and do not rename them.", "anchors": ["src/base/Solution.cpp", "include/cantera/base/Solution.h"]}
