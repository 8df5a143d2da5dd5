{
 "claims": [
  {
   "property": "C01",
   "status": "partial",
   "theorems": [
    "Verif.Stoich.stoich_add_throws_iff",
    "Verif.Stoich.stoich_accumulators",
    "Verif.Stoich.stoich_matrix",
    "Verif.Stoich.stoich_negative_coefficient_dropped",
    "Verif.Kinetics.reaction_delta"
   ],
   "note": "All four accumulators and the coefficient matrix for every list of reactions with non-negative coefficients (integer, repeated, fractional, any number). For negative coefficients the claim is false in the code: stoich_negative_coefficient_dropped is a concrete counterexample."
  },
  {
   "property": "C02",
   "status": "proved",
   "theorems": [
    "Verif.Stoich.stoich_mass_action",
    "Verif.Stoich.stoich_negative_concentration",
    "Verif.Kinetics.rates_of_progress"
   ],
   "note": "Product of powers at every admissible concentration vector, at manager level and for the rates of progress of a whole mechanism (orders overridden, non-reactant orders, third bodies); negative concentrations never give a positive rate."
  },
  {
   "property": "C03",
   "status": "proved",
   "theorems": [
    "Verif.Kinetics.species_rates",
    "Verif.Kinetics.net_eq_creation_sub_destruction"
   ],
   "note": "For the rates of progress computed by updateROP, every mechanism, every state."
  },
  {
   "property": "C04",
   "status": "proved",
   "theorems": [
    "Verif.Kinetics.net_production_weighted",
    "Verif.Kinetics.balanced_conserves",
    "Verif.Kinetics.balanced_conserves_mass"
   ],
   "note": "Any weight conserved by each reaction is conserved by the net production rates."
  },
  {
   "property": "C05",
   "status": "partial",
   "theorems": [
    "Verif.Stoich.stoich_derivatives_partial",
    "Verif.Stoich.stoich_derivative_wrong_at_zero"
   ],
   "note": "Exact partial derivatives when all participant concentrations are positive; false at zero concentration in the N-species handler (counterexample proved)."
  },
  {
   "property": "C06",
   "status": "partial",
   "theorems": [
    "Verif.Balance.checkBalance_iff",
    "Verif.Balance.checkSpecies_iff",
    "Verif.Balance.third_body_iff",
    "Verif.Balance.find_none",
    "Verif.Balance.accepted_balanced_partial",
    "Verif.Balance.accepted_exact_partial",
    "Verif.Balance.balanced_accepted",
    "Verif.Balance.third_body_unchecked",
    "Verif.Balance.third_body_wrong",
    "Verif.Balance.charge_wrong"
   ],
   "note": "Exact characterisation of accepted reactions; reactions without a third body conserve every element with non-negative counts to the tolerance, and exactly for small integers. Missing because the code violates it: third-body reactions are not checked (third_body_wrong) and elements with a non-positive total, i.e. the charge of cations, are skipped (charge_wrong)."
  },
  {
   "property": "C07",
   "status": "partial",
   "theorems": [
    "Verif.Kinetics.detailed_balance_partial",
    "Verif.Kinetics.detailed_balance_sign_partial",
    "Verif.Kinetics.rates_of_progress",
    "Verif.Kinetics.detailed_balance_cap"
   ],
   "note": "Forward/reverse = exp(-DeltaG/RT) below the BigNumber cap; beyond the cap it fails (counterexample proved). Irreversible reactions have zero reverse rate: in rates_of_progress."
  },
  {
   "property": "C08",
   "status": "proved",
   "theorems": [
    "Verif.Kinetics.third_body_sum",
    "Verif.Kinetics.third_body_concentrations",
    "Verif.Kinetics.third_body_multipliers"
   ],
   "note": ""
  },
  {
   "property": "C09",
   "status": "partial",
   "theorems": [
    "Verif.KinIndex.synced_of_addThermo",
    "Verif.KinIndex.species_index_bijection",
    "Verif.KinIndex.name_and_phase_invert",
    "Verif.KinIndex.name_out_of_range",
    "Verif.KinIndex.phaseIndex_never_throws",
    "Verif.KinIndex.index_aliases",
    "Verif.KinIndex.index_stale_after_addSpecies",
    "Verif.KinIndex.lookup_spec",
    "Verif.KinIndex.phaseIndex_last",
    "Verif.KinIndex.reacting_phase_lowest"
   ],
   "note": "Bijection and inverses hold whenever the tables are refreshed (addThermo, addReaction). The last clause is false: kineticsSpeciesIndex(k,n) and speciesPhaseIndex do not reject out of range arguments, and tables are stale after addSpecies on a phase (witnesses). Aliases and case-insensitive names not modelled."
  },
  {
   "property": "C10",
   "status": "partial",
   "theorems": [
    "Verif.Duplicates.checkFrom_spec",
    "Verif.Duplicates.check_defined",
    "Verif.Duplicates.reported_proportional_partial",
    "Verif.Duplicates.duplicates_reported_partial",
    "Verif.Duplicates.duplicate_missed",
    "Verif.Duplicates.wrong_report",
    "Verif.Duplicates.empty_reaction_ub"
   ],
   "note": "All lists of reactions and all orders of iteration. Reported pairs are proportional, except that in opposite directions the earlier reaction may contain species 0 in addition (wrong_report). Undeclared duplicates are reported if the earlier reaction is the first one with its key or the later one has the highest species of the group as reactant; otherwise they may be missed (duplicate_missed). Completeness is proved for the policies warn and error."
  },
  {
   "property": "C100",
   "status": "partial",
   "theorems": [
    "Verif.WaterSSTP.density_phase",
    "Verif.WaterSSTP.density_spec",
    "Verif.WaterSSTP.density_pos",
    "Verif.WaterSSTP.psat_phase",
    "Verif.WaterSSTP.setTemperature_ok",
    "Verif.WaterSSTP.setTemperature_low",
    "Verif.WaterSSTP.setTemperature_some",
    "Verif.WaterSSTP.setDensity_ok",
    "Verif.WaterSSTP.setDensity_bad",
    "Verif.WaterSSTP.setPressure_ok",
    "Verif.WaterSSTP.setPressure_below",
    "Verif.WaterSSTP.setPressure_noroot",
    "Verif.WaterSSTP.setPressure_fail",
    "Verif.WaterSSTP.satPressure_ok",
    "Verif.WaterSSTP.satPressure_fail",
    "Verif.WaterSSTP.atRef_ok",
    "Verif.WaterSSTP.atRef_fail",
    "Verif.WaterSSTP.cpRef_fail",
    "Verif.WaterSSTP.cpRef_ok",
    "Verif.WaterSSTP.reference",
    "Verif.WaterSSTP.dAlpha_ok",
    "Verif.WaterSSTP.dAlpha_fail",
    "Verif.WaterSSTP.gibbs_consistent",
    "Verif.WaterSSTP.formulas",
    "Verif.WaterSSTP.gibbs_unsynced",
    "Verif.WaterSSTP.vaporFraction_spec",
    "Verif.WaterSSTP.phaseOfMatter_spec",
    "Verif.WaterSSTP.steam_fraction",
    "Verif.WaterSSTP.initThermo_ok",
    "Verif.WaterTr.muDen_eq",
    "Verif.WaterTr.laDen_eq",
    "Verif.WaterTr.den_pos",
    "Verif.WaterTr.muDen_neg",
    "Verif.WaterTr.mu2_pos",
    "Verif.WaterTr.viscosity_pos",
    "Verif.WaterTr.viscosity_neg",
    "Verif.WaterTr.muSum_table",
    "Verif.WaterTr.laSum_table",
    "Verif.WaterTr.viscosity_far",
    "Verif.WaterTr.near_critical",
    "Verif.WaterTr.factor_threshold",
    "Verif.WaterTr.conductivity_pos",
    "Verif.WaterTr.conductivity_none",
    "Verif.WaterTr.conductivity_eq",
    "Verif.WaterTr.no_enhancement",
    "Verif.WaterTr.conductivity_even"
   ],
   "note": "Proved: setTemperature_ok, setDensity_ok, setPressure_ok (object and phase agree after success), satPressure_ok and dAlpha_ok (state restored), atRef_ok, cpRef_ok and reference (values at one atmosphere), gibbs_consistent, phaseOfMatter_spec, initThermo_ok; viscosity_pos and conductivity_pos from 170 K on, the explicit formulas and tables. Refuted: setPressure_below, setPressure_noroot, satPressure_fail, cpRef_fail and dAlpha_fail show which state a failing call leaves, gibbs_unsynced the error that follows, steam_fraction a vapour fraction of zero for steam, viscosity_neg a negative viscosity up to 150 K. The root search and the saturation solver are arguments here (claims C90, C91 treat the equation of state); overflow is not modelled."
  },
  {
   "property": "C101",
   "status": "partial",
   "theorems": [
    "Verif.VpssIdeal.sumXlogX_eq",
    "Verif.VpssIdeal.averages",
    "Verif.VpssIdeal.species_gibbs",
    "Verif.VpssIdeal.formulas",
    "Verif.VpssIdeal.energy",
    "Verif.VpssIdeal.cv_wrong",
    "Verif.VpssIdeal.activity",
    "Verif.VpssIdeal.actConc_forms",
    "Verif.VpssIdeal.units",
    "Verif.VpssIdeal.model_roundtrip",
    "Verif.VpssIdeal.model_unknown",
    "Verif.VpssIdeal.setTP_ok",
    "Verif.VpssIdeal.setPressure_ok",
    "Verif.VpssIdeal.setT_ok",
    "Verif.VpssIdeal.setTP_total",
    "Verif.VpssIdeal.setTP_refused",
    "Verif.VpssIdeal.setTP_bad",
    "Verif.VpssIdeal.stale_density",
    "Verif.VpssIdeal.fresh_density",
    "Verif.VpssIdeal.partialP_cases",
    "Verif.VpssIdeal.partialP_nonneg",
    "Verif.VpssIdeal.equil_ok",
    "Verif.VpssIdeal.refPressure_zero",
    "Verif.VpssIdeal.equil_never",
    "Verif.VpssIdeal.equil_underflow",
    "Verif.VpssIdeal.equil_condensed",
    "Verif.VpssIdeal.installP0_eq"
   ],
   "note": "Proved: sumXlogX_eq, averages, species_gibbs, formulas, energy, activity, units, model_roundtrip, setTP_ok, setPressure_ok, setT_ok, setTP_total, fresh_density, and equil_ok for a positive reference pressure and ideal gas standard states. Refuted: refPressure_zero and equil_never (the reference pressure is always zero, so setToEquilState never gives a state), equil_condensed, cv_wrong, stale_density, setTP_refused. The standard states are arguments."
  },
  {
   "property": "C102",
   "status": "partial",
   "theorems": [
    "Verif.SpeciesData.weightLoop_eq",
    "Verif.SpeciesData.weight_sum",
    "Verif.SpeciesData.weight_throws",
    "Verif.SpeciesData.weight_stored",
    "Verif.SpeciesData.weight_unknown",
    "Verif.SpeciesData.setWeight_spec",
    "Verif.SpeciesData.setWeight_first",
    "Verif.SpeciesData.setWeight_negative",
    "Verif.SpeciesData.newSpecies_spec",
    "Verif.SpeciesData.keys_ignored",
    "Verif.SpeciesData.roundtrip_input",
    "Verif.SpeciesData.roundtrip_size_lost",
    "Verif.SpeciesData.size_refuted",
    "Verif.SpeciesData.changed_size_lost",
    "Verif.SpeciesData.charge_lost",
    "Verif.SpeciesData.setup_spec",
    "Verif.SpeciesData.gas_roundtrip",
    "Verif.SpeciesData.nAtoms_eq",
    "Verif.SpeciesData.validate_iff",
    "Verif.SpeciesData.validate_gaps",
    "Verif.SpeciesData.nasa_silent",
    "Verif.SpeciesData.nasa_warns",
    "Verif.SpeciesData.nasa_continuous",
    "Verif.SpeciesData.nasa_relative",
    "Verif.SpeciesData.nasa_negative_cp"
   ],
   "note": "Proved: weight_sum, weight_throws, weight_stored, setWeight_spec, newSpecies_spec, roundtrip_input, setup_spec, gas_roundtrip, validate_iff, nasa_silent, nasa_warns, nasa_continuous. Refuted: roundtrip_size_lost, size_refuted, changed_size_lost and charge_lost (size is written as \"size\" and read from \"sites\"; charge is written but never read), weight_unknown, validate_gaps, nasa_relative, nasa_negative_cp, setWeight_negative. Units and metadata of input nodes are not modelled."
  },
  {
   "property": "C103",
   "status": "partial",
   "theorems": [
    "Verif.IonGas.findE_spec",
    "Verif.IonGas.classify_eq",
    "Verif.IonGas.init_throws",
    "Verif.IonGas.init_new",
    "Verif.IonGas.reinit",
    "Verif.IonGas.reinit_twice",
    "Verif.IonGas.reinit_ion_neutral",
    "Verif.IonGas.viscosity_double",
    "Verif.IonGas.viscosity_nonneg",
    "Verif.IonGas.viscosity_uniform",
    "Verif.IonGas.conductivity_uniform",
    "Verif.IonGas.conductivity_exceeds",
    "Verif.IonGas.conductivity_unbounded",
    "Verif.IonGas.conductivity_neutral",
    "Verif.IonGas.mobility_ion",
    "Verif.IonGas.mobility_other",
    "Verif.IonGas.mobility_charge",
    "Verif.IonGas.einstein_ion",
    "Verif.IonGas.einstein_electron",
    "Verif.IonGas.electron_pressure",
    "Verif.IonGas.mixDiff_neutral",
    "Verif.IonGas.elecCond_eq",
    "Verif.IonGas.elecCond_nonneg",
    "Verif.IonGas.xi_pos",
    "Verif.IonGas.diam_pos",
    "Verif.IonGas.eps_pos",
    "Verif.IonGas.gam_pos",
    "Verif.IonGas.given_used",
    "Verif.IonGas.omega_range",
    "Verif.IonGas.omega_low",
    "Verif.IonGas.omega_high",
    "Verif.IonGas.omega_negative",
    "Verif.IonGas.refit_iff",
    "Verif.IonGas.refit_symm"
   ],
   "note": "Proved: init_throws, init_new, viscosity_nonneg, viscosity_uniform, conductivity_neutral, mobility_ion, mobility_other, einstein_ion, einstein_electron, mixDiff_neutral, elecCond_eq, elecCond_nonneg, xi_pos, diam_pos, eps_pos, gam_pos, given_used, omega_range, omega_low, omega_high, refit_iff, refit_symm. Refuted: reinit, reinit_twice and reinit_ion_neutral (lists are extended by a second init), viscosity_double, conductivity_exceeds, conductivity_unbounded, mobility_charge, electron_pressure, omega_negative. The polynomial fits and the O2 resonance data are not modelled."
  },
  {
   "property": "C104",
   "status": "partial",
   "theorems": [
    "Verif.OneDim.IonFlow.foldl_bounds",
    "Verif.OneDim.IonFlow.bounds_electron",
    "Verif.OneDim.IonFlow.bounds_no_electron",
    "Verif.OneDim.IonFlow.setStage_iff",
    "Verif.OneDim.IonFlow.setStage_throw",
    "Verif.OneDim.IonFlow.setField_all",
    "Verif.OneDim.IonFlow.setField_one",
    "Verif.OneDim.IonFlow.fix_refiner",
    "Verif.OneDim.IonFlow.finalize_on",
    "Verif.OneDim.IonFlow.finalize_off",
    "Verif.OneDim.IonFlow.active_field",
    "Verif.OneDim.IonFlow.flags_unused",
    "Verif.OneDim.IonFlow.import_electron",
    "Verif.OneDim.IonFlow.import_no_electron",
    "Verif.OneDim.IonFlow.import_values",
    "Verif.OneDim.IonFlow.raw_eq",
    "Verif.OneDim.IonFlow.frozen_ion",
    "Verif.OneDim.IonFlow.frozen_neutral",
    "Verif.OneDim.IonFlow.frozen_sum",
    "Verif.OneDim.IonFlow.frozen_no_ions",
    "Verif.OneDim.IonFlow.electric_no_ions",
    "Verif.OneDim.IonFlow.electric_ion",
    "Verif.OneDim.IonFlow.drift_sign",
    "Verif.OneDim.IonFlow.electric_neutral",
    "Verif.OneDim.IonFlow.electric_sum",
    "Verif.OneDim.IonFlow.fluxes_eq",
    "Verif.OneDim.IonFlow.mass_basis_mixed",
    "Verif.OneDim.IonFlow.options_unused",
    "Verif.OneDim.IonFlow.frozen_not_zero",
    "Verif.OneDim.IonFlow.rhoE_eq",
    "Verif.OneDim.IonFlow.field_stage1",
    "Verif.OneDim.IonFlow.field_stage2",
    "Verif.OneDim.IonFlow.gauss",
    "Verif.OneDim.IonFlow.no_charge",
    "Verif.OneDim.IonFlow.species_eq",
    "Verif.OneDim.IonFlow.inlet_ion",
    "Verif.OneDim.IonFlow.left_excess_ion"
   ],
   "note": "Proved: bounds_electron, setStage_iff, setField_all, setField_one, finalize_on, finalize_off, active_field, import_electron, import_values, frozen_ion, frozen_sum, frozen_no_ions, electric_no_ions, electric_ion, drift_sign, electric_neutral, electric_sum, fluxes_eq, field_stage1, field_stage2, gauss, no_charge, species_eq. Refuted: bounds_no_electron, import_no_electron, fix_refiner, flags_unused, frozen_not_zero, mass_basis_mixed, inlet_ion, left_excess_ion. The polynomial fit of imported electron data and the nonlinear solver are not modelled."
  },
  {
   "property": "C105",
   "status": "partial",
   "theorems": [
    "Verif.HighP.rows_range",
    "Verif.HighP.last_mem",
    "Verif.HighP.search_some",
    "Verif.HighP.search_none",
    "Verif.HighP.search_all",
    "Verif.HighP.takahashi_low",
    "Verif.HighP.takahashi_high",
    "Verif.HighP.takahashi_between",
    "Verif.HighP.takahashi_first",
    "Verif.HighP.takahashi_one",
    "Verif.HighP.takahashi_2_75",
    "Verif.HighP.DPR_range",
    "Verif.HighP.takahashi_range",
    "Verif.HighP.takahashi_jump",
    "Verif.HighP.takahashi_negative",
    "Verif.HighP.corr_eq",
    "Verif.HighP.corr_symm",
    "Verif.HighP.corr_nonneg",
    "Verif.HighP.weights",
    "Verif.HighP.corr_low",
    "Verif.HighP.corr_range",
    "Verif.HighP.binary_eq",
    "Verif.HighP.binary_throw",
    "Verif.HighP.binary_low",
    "Verif.HighP.mixDiffMole_eq",
    "Verif.HighP.mixDiff_pure",
    "Verif.HighP.two_species",
    "Verif.HighP.mixDiffMass_eq",
    "Verif.HighP.critLoop_spec",
    "Verif.HighP.initCrit_ok",
    "Verif.HighP.initCrit_throw",
    "Verif.HighP.heavy_zero_le",
    "Verif.HighP.heavy_spec",
    "Verif.HighP.factorA_eq",
    "Verif.HighP.lucas_same",
    "Verif.HighP.lucas_eq",
    "Verif.HighP.polarity_ge",
    "Verif.HighP.polarity_one",
    "Verif.HighP.polarity_polar",
    "Verif.HighP.lowNd_pos",
    "Verif.HighP.Z2_throw",
    "Verif.HighP.highNd_throw",
    "Verif.HighP.highNd_exceeds",
    "Verif.HighP.highNd_formula",
    "Verif.HighP.highNd_subcritical",
    "Verif.HighP.finish_low",
    "Verif.HighP.finish_eq",
    "Verif.HighP.lucasVisc_pos",
    "Verif.HighP.pair_const",
    "Verif.HighP.chung_same",
    "Verif.HighP.chung_crit",
    "Verif.HighP.chung_density",
    "Verif.HighP.neufeld_pos",
    "Verif.HighP.neufeld_anti",
    "Verif.HighP.chungLow_pos",
    "Verif.HighP.chungLow_eq",
    "Verif.HighP.G2_limit",
    "Verif.HighP.chung_limit",
    "Verif.HighP.chungHigh_simple"
   ],
   "note": "Proved: takahashi_low, takahashi_between, takahashi_high, takahashi_range, corr_symm, corr_low, corr_range, binary_eq, binary_throw, two_species, mixDiffMass_eq, initCrit_ok, heavy_spec, factorA_eq, lucas_same, polarity_ge, lowNd_pos, highNd_throw, highNd_exceeds, highNd_formula, highNd_subcritical, lucasVisc_pos, chung_same, chung_crit, neufeld_anti, chungLow_pos, G2_limit, chung_limit, chungHigh_simple. Refuted: takahashi_jump, takahashi_negative, initCrit_throw, chung_density. The thermal conductivities and the data base of acentric factors are not modelled."
  },
  {
   "property": "C106",
   "status": "partial",
   "theorems": [
    "Verif.CollInt.col_pow",
    "Verif.CollInt.factor_none",
    "Verif.CollInt.factor_pos",
    "Verif.CollInt.factor_off",
    "Verif.CollInt.resid_eq",
    "Verif.CollInt.sq_eq",
    "Verif.CollInt.polyfit_throw",
    "Verif.CollInt.polyfit_error",
    "Verif.CollInt.normal_equations",
    "Verif.CollInt.exact_data",
    "Verif.CollInt.coeff_zero",
    "Verif.CollInt.fit_unique",
    "Verif.CollInt.interpolates",
    "Verif.CollInt.quad_nodes",
    "Verif.CollInt.quad_exact",
    "Verif.CollInt.tstars_length",
    "Verif.CollInt.tstars_sorted",
    "Verif.CollInt.tstar_get",
    "Verif.CollInt.tstar_lt",
    "Verif.CollInt.tstar_pos",
    "Verif.CollInt.search_spec",
    "Verif.CollInt.search_end",
    "Verif.CollInt.tstar_36",
    "Verif.CollInt.first_le",
    "Verif.CollInt.first_bracket",
    "Verif.CollInt.log_ne",
    "Verif.CollInt.interp_node",
    "Verif.CollInt.last_unused",
    "Verif.CollInt.last_wrong",
    "Verif.CollInt.omega11_node",
    "Verif.CollInt.lastBelow_spec",
    "Verif.CollInt.init_covers",
    "Verif.CollInt.init_whole",
    "Verif.CollInt.fit_throw",
    "Verif.CollInt.tstar_vals",
    "Verif.CollInt.narrow_range",
    "Verif.CollInt.fit_unweighted",
    "Verif.CollInt.poly6_eq",
    "Verif.CollInt.row0_inexact"
   ],
   "note": "Proved: col_pow, polyfit_throw, polyfit_error, normal_equations, exact_data, fit_unique, interpolates, quad_nodes, quad_exact, first_bracket, interp_node, omega11_node, init_covers, init_whole, fit_throw, poly6_eq. Refuted: last_unused, last_wrong, narrow_range, row0_inexact, factor_off. The QR factorisation of Eigen is assumed to return a minimum; the tables are parameters except for one row."
  },
  {
   "property": "C107",
   "status": "partial",
   "theorems": [
    "Verif.VolPhase.setX_keeps",
    "Verif.VolPhase.setX_eq",
    "Verif.VolPhase.setX_not_normal",
    "Verif.VolPhase.setX_negative",
    "Verif.VolPhase.setFrac_ok_iff",
    "Verif.VolPhase.setFrac_sum",
    "Verif.VolPhase.setFrac_inert",
    "Verif.VolPhase.setMoles_total",
    "Verif.VolPhase.molesOf_nonneg",
    "Verif.VolPhase.setMoles_X",
    "Verif.VolPhase.setMoles_sum",
    "Verif.VolPhase.setMoles_exists",
    "Verif.VolPhase.setMoles_zero",
    "Verif.VolPhase.setMoles_voltage",
    "Verif.VolPhase.doubleEqual_iff",
    "Verif.VolPhase.doubleEqual_symm",
    "Verif.VolPhase.setMolesCheck_iff",
    "Verif.VolPhase.updPM_vol",
    "Verif.VolPhase.updPM_throw",
    "Verif.VolPhase.setMoles_flags",
    "Verif.VolPhase.volume_fresh",
    "Verif.VolPhase.volume_stale",
    "Verif.VolPhase.setTP_eq",
    "Verif.VolPhase.gstar_fresh",
    "Verif.VolPhase.setPtr_stale",
    "Verif.VolPhase.jac_ok",
    "Verif.VolPhase.jac_creates_moles",
    "Verif.VolPhase.jac_inert",
    "Verif.VolPhase.setMoles_n",
    "Verif.VolPhase.setTotal_eq",
    "Verif.VolPhase.setExistence_ok",
    "Verif.VolPhase.setInert_eq",
    "Verif.VolPhase.transfer_charge",
    "Verif.VolPhase.transfer_neutral",
    "Verif.VolPhase.transfer_ub",
    "Verif.VolPhase.sample_total",
    "Verif.VolPhase.setX_flags",
    "Verif.VolPhase.setFrac_flags",
    "Verif.VolPhase.setPhi_eq",
    "Verif.VolPhase.updAC_eq"
   ],
   "note": "Proved: setX_keeps, setFrac_ok_iff, setFrac_sum, setMoles_total, setMoles_X, setMoles_sum, setMoles_exists, setMoles_zero, setMoles_voltage, doubleEqual_iff, setMolesCheck_iff, updPM_vol, updPM_throw, volume_fresh, setTP_eq, gstar_fresh, jac_ok, setTotal_eq, setExistence_ok, setInert_eq, transfer_charge, transfer_neutral, setX_flags, setFrac_flags, setPhi_eq, updAC_eq. Refuted: setX_not_normal, setX_negative, setFrac_inert, volume_stale, setPtr_stale, jac_creates_moles, jac_inert, transfer_ub. resize, names and the list of species objects are not modelled."
  },
  {
   "property": "C108",
   "status": "partial",
   "theorems": [
    "Verif.ChemEq.pair_ok_iff",
    "Verif.ChemEq.pair_values",
    "Verif.ChemEq.reverse_unreachable",
    "Verif.ChemEq.tempOk_iff",
    "Verif.ChemEq.findNeg_ok",
    "Verif.ChemEq.findNeg_throw",
    "Verif.ChemEq.mu_equilibrium",
    "Verif.ChemEq.update_ok",
    "Verif.ChemEq.update_throw",
    "Verif.ChemEq.skipLoop_max",
    "Verif.ChemEq.skipLoop_none",
    "Verif.ChemEq.skip_ok",
    "Verif.ChemEq.skip_throw",
    "Verif.ChemEq.bracket_eq",
    "Verif.ChemEq.bracket_hot",
    "Verif.ChemEq.nextT_next",
    "Verif.ChemEq.nextT_plain",
    "Verif.ChemEq.search_stop",
    "Verif.ChemEq.search_stop_down",
    "Verif.ChemEq.search_at_max",
    "Verif.ChemEq.resid_zero",
    "Verif.ChemEq.conv_iff",
    "Verif.ChemEq.conv_elements",
    "Verif.ChemEq.conv_charged",
    "Verif.ChemEq.conv_zero",
    "Verif.ChemEq.jac_affine",
    "Verif.ChemEq.jac_eq",
    "Verif.ChemEq.facStep_bounds",
    "Verif.ChemEq.fac_bounds",
    "Verif.ChemEq.scaled_bounds",
    "Verif.ChemEq.scaled_temperature",
    "Verif.ChemEq.fac_one",
    "Verif.ChemEq.dampOne_bounds",
    "Verif.ChemEq.damp_bounds",
    "Verif.ChemEq.newX_change",
    "Verif.ChemEq.newX_plain",
    "Verif.ChemEq.newX_bounds",
    "Verif.ChemEq.calcN_eq",
    "Verif.ChemEq.calcN_nonneg",
    "Verif.ChemEq.split_sum",
    "Verif.ChemEq.adjust_charge",
    "Verif.ChemEq.adjust_neutral",
    "Verif.ChemEq.adjust_changes_elements"
   ],
   "note": "Proved: pair_ok_iff, pair_values, tempOk_iff, findNeg_ok, findNeg_throw, mu_equilibrium, update_ok, update_throw, skip_ok, skip_throw, bracket_eq, bracket_hot, nextT_next, nextT_plain, search_stop, search_stop_down, resid_zero, conv_iff, conv_elements, jac_affine, jac_eq, scaled_bounds, scaled_temperature, fac_one, damp_bounds, newX_change, newX_plain, newX_bounds, calcN_eq, calcN_nonneg, adjust_charge, adjust_neutral. Refuted: reverse_unreachable, search_at_max, conv_charged, conv_zero, adjust_changes_elements. The initial estimate of element potentials, the Brinkley iteration and the linear solver are not modelled; that the iteration converges is not claimed."
  },
  {
   "property": "C109",
   "status": "partial",
   "theorems": [
    "Verif.PhScale.setScale_ok",
    "Verif.PhScale.setScale_keeps_bad",
    "Verif.PhScale.bad_is_nbs",
    "Verif.PhScale.findElem_some",
    "Verif.PhScale.findElem_none",
    "Verif.PhScale.findCl_some",
    "Verif.PhScale.findCl_ignores",
    "Verif.PhScale.nbs_eq",
    "Verif.PhScale.scale_pitzer",
    "Verif.PhScale.scale_chloride",
    "Verif.PhScale.scale_neutral",
    "Verif.PhScale.scale_uncharged",
    "Verif.PhScale.apply_scale",
    "Verif.PhScale.scale_ub",
    "Verif.PhScale.refresh_fresh",
    "Verif.PhScale.setScale_stale"
   ],
   "note": "Proved: setScale_ok, findElem_some, findElem_none, findCl_some, nbs_eq, scale_pitzer, scale_chloride, scale_neutral, scale_uncharged, apply_scale, refresh_fresh. Refuted: setScale_keeps_bad, bad_is_nbs, setScale_stale, scale_ub, findCl_ignores. The unscaled coefficients of the Pitzer model are parameters."
  },
  {
   "property": "C11",
   "status": "partial",
   "theorems": [
    "Verif.Cabinet.cabinet_at_spec",
    "Verif.Cabinet.cabinet_del_spec",
    "Verif.Cabinet.cabinet_index_spec",
    "Verif.Cabinet.step_keeps",
    "Verif.Cabinet.cabinet_handle_stable",
    "Verif.Cabinet.cabinet_add_fresh",
    "Verif.Cabinet.cabinet_dead_stays_dead",
    "Verif.Cabinet.cabinet_no_ub",
    "Verif.Cabinet.cabinet_clear_partial",
    "Verif.Cabinet.cabinet_clear_not_total",
    "Verif.Cabinet.cabinet_double_delete_throws"
   ],
   "note": "Handle stability, freshness, dead handles rejected, no undefined behaviour over every history. clear() throws midway once any entry was deleted (proved), so clear is partial."
  },
  {
   "property": "C110",
   "status": "partial",
   "theorems": [
    "Verif.ThermoFactory.name_ok",
    "Verif.ThermoFactory.name_class",
    "Verif.ThermoFactory.nasa9_refused",
    "Verif.ThermoFactory.model_eq",
    "Verif.ThermoFactory.setup7_ok_iff",
    "Verif.ThermoFactory.setup7_two",
    "Verif.ThermoFactory.setup7_one",
    "Verif.ThermoFactory.setup7_unordered",
    "Verif.ThermoFactory.setup9_ok_iff",
    "Verif.ThermoFactory.foldl_other",
    "Verif.ThermoFactory.regions_last",
    "Verif.ThermoFactory.regions_none",
    "Verif.ThermoFactory.regions_lost",
    "Verif.ThermoFactory.foldl_min",
    "Verif.ThermoFactory.upper_next",
    "Verif.ThermoFactory.upper_last",
    "Verif.ThermoFactory.upper_falling",
    "Verif.ThermoFactory.setupCp_eq",
    "Verif.ThermoFactory.mu0_eq"
   ],
   "note": "Proved: name_ok, name_class, model_eq, setup7_ok_iff, setup7_two, setup7_one, setup9_ok_iff, regions_last, regions_none, upper_next, upper_last, setupCp_eq, mu0_eq. Refuted: nasa9_refused, setup7_unordered, regions_lost, upper_falling. Conversion of units, missing keys and wrong types of values are not modelled."
  },
  {
   "property": "C111",
   "status": "partial",
   "theorems": [
    "Verif.Solution.add_ok",
    "Verif.Solution.good_empty",
    "Verif.Solution.good_add",
    "Verif.Solution.addAll_good",
    "Verif.Solution.adjName_eq",
    "Verif.Solution.adjName_lookup",
    "Verif.Solution.renamed",
    "Verif.Solution.renamed_twice",
    "Verif.Solution.register_eq",
    "Verif.Solution.setKin_eq",
    "Verif.Solution.setTr_eq",
    "Verif.Solution.setThermo_eq",
    "Verif.Solution.setThermo_null",
    "Verif.Solution.sample_add"
   ],
   "note": "Proved: add_ok, good_empty, good_add, addAll_good, adjName_eq, adjName_lookup, register_eq, setKin_eq, setTr_eq, setThermo_eq. Refuted: renamed, renamed_twice, setThermo_null. Input files, serialisation and external handles are not modelled."
  },
  {
   "property": "C12",
   "status": "proved",
   "theorems": [
    "Verif.Comp.setX_getX",
    "Verif.Comp.setX_sum",
    "Verif.Comp.setX_getY",
    "Verif.Comp.setX_normalised",
    "Verif.Comp.setY_getY",
    "Verif.Comp.setY_sum",
    "Verif.Comp.setY_normalised",
    "Verif.Comp.setConc_ok",
    "Verif.Comp.conc1_eq",
    "Verif.Comp.setMoles_ok",
    "Verif.Comp.normalised_spec",
    "Verif.Comp.setXNoNorm_spec",
    "Verif.Comp.setYNoNorm_spec",
    "Verif.Comp.normalised_run",
    "Verif.Comp.setConc_throw_changes"
   ],
   "note": "All setters and call sequences; setConc_throw_changes records that setConcentrations with no positive entry has overwritten part of the composition when it throws."
  },
  {
   "property": "C13",
   "status": "proved",
   "theorems": [
    "Verif.Comp.roundtrip_X",
    "Verif.Comp.roundtrip_Y",
    "Verif.Comp.xToY_yToX",
    "Verif.Comp.yToX_xToY",
    "Verif.Comp.xToY_phase",
    "Verif.Comp.xToY_not_inverse"
   ],
   "note": "xToY_not_inverse: only on normalised compositions, as stated."
  },
  {
   "property": "C14",
   "status": "partial",
   "theorems": [
    "Verif.Comp.restore_save",
    "Verif.Comp.restore_save_pure",
    "Verif.Comp.restore_short",
    "Verif.Comp.restore_ok_iff",
    "Verif.Comp.restore_massY",
    "Verif.Comp.restore_throw_changes",
    "Verif.Comp.restore_not_normalised",
    "Verif.Comp.saveRaw_ub"
   ],
   "note": "Exact round trip for every normalised state after any calls. Missing: states set with setMoleFractions_NoNorm whose sum is not one are not restored (restore_not_normalised); a failing restoreState has already changed the temperature (restore_throw_changes); saveState(lenstate, ptr) ignores lenstate (saveRaw_ub)."
  },
  {
   "property": "C15",
   "status": "partial",
   "theorems": [
    "Verif.Tables.inv_run",
    "Verif.Tables.index_name",
    "Verif.Tables.names_nodup",
    "Verif.Tables.index_lt",
    "Verif.Tables.index_lower",
    "Verif.Tables.nAtoms_decl",
    "Verif.Tables.species_present",
    "Verif.Tables.nAtoms_throw",
    "Verif.Tables.weight_sum",
    "Verif.Tables.fail_keeps_species",
    "Verif.Tables.fail_unchanged_partial",
    "Verif.Tables.added_appends",
    "Verif.Tables.alias_resolves",
    "Verif.Tables.fail_changes",
    "Verif.Tables.alias_redirected",
    "Verif.Tables.electron_weight_clash",
    "Verif.Tables.modify_charge_stale",
    "Verif.Tables.small_charge_order",
    "Verif.Tables.thermo_complete",
    "Verif.Tables.thermo_fail_leaves_species"
   ],
   "note": "Invariant for all call sequences, failed calls included. Missing: with undefined elements set to `add` a failed addSpecies may leave new elements (fail_changes; species tables are untouched, fail_keeps_species); the element E of charged species is the negative charge within 0.001, and weights below 1e-20 are raised to it. ThermoPhase::addSpecies rejecting the thermo data leaves the species in the phase (thermo_fail_leaves_species)."
  },
  {
   "property": "C16",
   "status": "proved",
   "theorems": [
    "Verif.EqRatio.phi_roundtrip",
    "Verif.EqRatio.phi0_roundtrip",
    "Verif.EqRatio.mix_roundtrip",
    "Verif.EqRatio.mixE_roundtrip",
    "Verif.EqRatio.mixFrac_mem",
    "Verif.EqRatio.afr_spec",
    "Verif.EqRatio.afr_stoich",
    "Verif.EqRatio.need_species",
    "Verif.EqRatio.setPhi_spec",
    "Verif.EqRatio.setPhi_throw",
    "Verif.EqRatio.setMix_throw",
    "Verif.EqRatio.setPhi_nan",
    "Verif.EqRatio.setPhi_nan_witness"
   ],
   "note": "Both bases, all non-negative compositions with finite positive ratio. setPhi_nan: an oxidizer without free oxygen is not rejected and gives NaN mass fractions (outside the stated domain)."
  },
  {
   "property": "C17",
   "status": "partial",
   "theorems": [
    "Verif.Units.mul_laws",
    "Verif.Units.pow_dims",
    "Verif.Units.convertible_equivalence",
    "Verif.Units.int_pow_laws_partial",
    "Verif.Units.real_pow_laws_partial",
    "Verif.Units.canon_pow_partial",
    "Verif.Units.pow_one_loses",
    "Verif.Units.pow_mul_loses"
   ],
   "note": "Factor and dimension laws hold for all units; Missing: the laws for `==`, which also compares the pressure/energy pseudo-dimensions, are violated by pow of a product (pow_one_loses, pow_mul_loses)."
  },
  {
   "property": "C18",
   "status": "partial",
   "theorems": [
    "Verif.Units.convert_throw_iff",
    "Verif.Units.convert_roundtrip",
    "Verif.Units.convertTo_from",
    "Verif.Units.convertTo_mul",
    "Verif.Units.convertTo_base",
    "Verif.Units.convertTo_convert_partial",
    "Verif.Units.convertTo_depends_on_pow",
    "Verif.Units.convertAct_laws",
    "Verif.Units.act_roundtrip",
    "Verif.Units.act_through_partial",
    "Verif.Units.act_kilokelvin",
    "Verif.Units.reach_system",
    "Verif.Units.throw_leaves_inconsistent",
    "Verif.Units.delta_apply_partial",
    "Verif.Units.delta_misses_activation"
   ],
   "note": "Round trips, transitivity and rejection proved. Missing: agreement of conversion through the unit system with direct conversion when pseudo-dimensions differ (violated, convertTo_depends_on_pow) and for temperature units other than K (violated, act_kilokelvin); the parsing of unit strings is C74."
  },
  {
   "property": "C19",
   "status": "partial",
   "theorems": [
    "Verif.Func1.ident_eq",
    "Verif.Func1.newTimes_value",
    "Verif.Func1.newPlus_value",
    "Verif.Func1.newSum_value",
    "Verif.Func1.newDiff_value",
    "Verif.Func1.newProd_value",
    "Verif.Func1.newRatio_value",
    "Verif.Func1.newComp_value_partial",
    "Verif.Func1.build_value_partial",
    "Verif.Func1.newComp_wrong",
    "Verif.Func1.newSum_wrong",
    "Verif.Func1.newDiff_wrong"
   ],
   "note": "Proved for all trees and all arguments at which the unsimplified operation has a finite value, also for whole trees rebuilt bottom-up. Missing because the code violates it: a non-integer power of a power at a negative argument (newComp_wrong) and sums and differences with a directly constructed multiple with the factor zero (newSum_wrong, newDiff_wrong)."
  },
  {
   "property": "C20",
   "status": "partial",
   "theorems": [
    "Verif.Func1.deriv_value_partial",
    "Verif.Func1.deriv_log_wrong",
    "Verif.Func1.deriv_throws",
    "Verif.Func1.deriv_comp_wrong"
   ],
   "note": "Structural induction over all trees without zero factors, at every regular point. Missing because the code violates it: log(c t) with c other than 1 (deriv_log_wrong), a power composed into another functor at negative arguments (deriv_comp_wrong), tables left of their first node (C21), functors without a derivative (deriv_throws)."
  },
  {
   "property": "C21",
   "status": "partial",
   "theorems": [
    "Verif.Func1Tab.make_ok_iff",
    "Verif.Func1Tab.scan_interval",
    "Verif.Func1Tab.eval_left",
    "Verif.Func1Tab.eval_right",
    "Verif.Func1Tab.eval_lin",
    "Verif.Func1Tab.eval_node",
    "Verif.Func1Tab.eval_between",
    "Verif.Func1Tab.inside_cases",
    "Verif.Func1Tab.hasDerivAt_tab",
    "Verif.Func1Tab.deriv_inside",
    "Verif.Func1Tab.deriv_right",
    "Verif.Func1Tab.previous_node",
    "Verif.Func1Tab.previous_misses_node",
    "Verif.Func1Tab.deriv_left",
    "Verif.Func1Tab.deriv_left_wrong"
   ],
   "note": "Proved for all strictly increasing tables. Missing because the code violates it: tables of the kind \"previous\" do not pass through interior nodes (previous_misses_node) and the derivative left of a linear table is the first slope (deriv_left_wrong)."
  },
  {
   "property": "C22",
   "status": "partial",
   "theorems": [
    "Verif.Plog.rate_spec_partial",
    "Verif.Plog.history_independent",
    "Verif.Plog.update_settled",
    "Verif.Plog.getRates_roundtrip",
    "Verif.Plog.empty_nan",
    "Verif.Plog.stale_indices_ub",
    "Verif.Plog.stale_bracket"
   ],
   "note": "For every table and every history of pressures on that table the rate is the specified one (up to the constant 1e-300 the code adds to each sum). Missing: independence of previously installed tables, which is violated: setRates keeps the old bracket (stale_indices_ub, stale_bracket)."
  },
  {
   "property": "C23",
   "status": "partial",
   "theorems": [
    "Verif.Cheb.eval_series_partial",
    "Verif.Cheb.eval_after_change_partial",
    "Verif.Cheb.reduced_vars",
    "Verif.Cheb.reduced_limits",
    "Verif.Cheb.stale_data",
    "Verif.Cheb.stale_data_wrong",
    "Verif.Cheb.stale_limits"
   ],
   "note": "The double series is evaluated for every array and every history of pressures after configuration. Missing: after setData/setLimits at an unchanged pressure the old values are returned (stale_data, stale_data_wrong, stale_limits). Empty arrays (NaN) are not modelled."
  },
  {
   "property": "C24",
   "status": "partial",
   "theorems": [
    "Verif.Falloff.rate_bounds",
    "Verif.Falloff.rate_bounds_chem",
    "Verif.Falloff.lindemann",
    "Verif.Falloff.high_limit",
    "Verif.Falloff.low_limit",
    "Verif.Falloff.lindemann_limits",
    "Verif.Falloff.troe_bounds",
    "Verif.Falloff.troe_rate_bounds",
    "Verif.Falloff.fcent_le_one",
    "Verif.Falloff.tsang_rate_bounds",
    "Verif.Falloff.troe_centre",
    "Verif.Falloff.troe_form",
    "Verif.Falloff.troe_fcent",
    "Verif.Falloff.tsang_fcent",
    "Verif.Falloff.sri_form",
    "Verif.Falloff.sri_bounds",
    "Verif.Falloff.sri_high_limit",
    "Verif.Falloff.troe_high_limit",
    "Verif.Falloff.troe_not_high_limit",
    "Verif.Falloff.troe_set_get_partial",
    "Verif.Falloff.troe_get_set_partial",
    "Verif.Falloff.troe_tiny_t2",
    "Verif.Falloff.troe_set_iff",
    "Verif.Falloff.tsang_set_iff",
    "Verif.Falloff.tsang_set_get_partial",
    "Verif.Falloff.sri_get_five",
    "Verif.Falloff.sri_set_get",
    "Verif.Falloff.sri_set_ok",
    "Verif.Falloff.sri_throw_partial",
    "Verif.Falloff.sri_throw_changes"
   ],
   "note": "Bounds, documented forms and Lindemann/SRI limits proved. Missing: Troe/Tsang rates do not tend to k_inf (troe_not_high_limit, inherent in the documented form); coefficient round trip fails for tiny T2 (troe_tiny_t2), SRI getter never returns three coefficients (sri_get_five), SRI setter changes the object before throwing (sri_throw_changes)."
  },
  {
   "property": "C25",
   "status": "proved",
   "theorems": [
    "Verif.Poly.nasa_consistent",
    "Verif.Poly.nasa9_consistent",
    "Verif.Poly.shom_consistent",
    "Verif.Poly.constCp_consistent",
    "Verif.Poly.twoRegion_consistent",
    "Verif.Poly.twoRegion_at",
    "Verif.Poly.nasa2_consistent",
    "Verif.Poly.regionLoop_spec",
    "Verif.Poly.multi9_region",
    "Verif.Poly.multi9_consistent",
    "Verif.Mu0.mu0_consistent"
   ],
   "note": "In exact real arithmetic; for multi-region forms at every temperature that is not a region boundary (the function need not be differentiable there)."
  },
  {
   "property": "C26",
   "status": "partial",
   "theorems": [
    "Verif.Poly.nasa_modify",
    "Verif.Poly.shom_modify",
    "Verif.Poly.two_report_eq",
    "Verif.Poly.two_modify",
    "Verif.Poly.nasa2_modify",
    "Verif.Poly.nasa_shom_reset",
    "Verif.Poly.two_reset",
    "Verif.Poly.nasa2_shom2_reset",
    "Verif.Poly.constCp_modify",
    "Verif.Poly.constCp_reset_zero",
    "Verif.Poly.constCp_reset_iff"
   ],
   "note": "Missing: reset of the constant-cp form is violated by the code (constCp_reset_zero, constCp_reset_iff); NASA-9 and Mu0 throw NotImplementedError and are not modelled."
  },
  {
   "property": "C27",
   "status": "partial",
   "theorems": [
    "Verif.Mu0.reproduces_data",
    "Verif.Mu0.continuous_across",
    "Verif.Mu0.beyond_last",
    "Verif.Mu0.fresh_reproduces_partial",
    "Verif.Mu0.second_call_ub"
   ],
   "note": "Proved for every object whose setParameters was called once; a second call is undefined behaviour (second_call_ub)."
  },
  {
   "property": "C28",
   "status": "proved",
   "theorems": [
    "Verif.Refine.ends_kept",
    "Verif.Refine.no_adjacent_removed",
    "Verif.Refine.fixed_kept",
    "Verif.Refine.mem_newGrid",
    "Verif.Refine.newGrid_increasing",
    "Verif.Refine.newGrid_ends",
    "Verif.Refine.value_refined",
    "Verif.Refine.ratio_refined",
    "Verif.Refine.ins_reason",
    "Verif.Refine.spacing_kept",
    "Verif.Refine.newGrid_length",
    "Verif.Refine.newGrid_length_le",
    "Verif.Refine.refine_ret",
    "Verif.Refine.analyze_total",
    "Verif.Refine.refine_ret_prune",
    "Verif.Refine.refine_exceeds_max",
    "Verif.Refine.refine_drops_request"
   ],
   "note": "The statement is proved for all grids, values and criteria. Deviations from the interface description found on the way: return value (refine_ret_prune), maximum number of points (refine_exceeds_max), requested points dropped (refine_drops_request)."
  },
  {
   "property": "C29",
   "status": "partial",
   "theorems": [
    "Verif.Newton.boundStep_safe",
    "Verif.Newton.boundStep_largest",
    "Verif.Newton.boundStep_le_one",
    "Verif.Newton.boundStep_negative",
    "Verif.Newton.dampStep_spec",
    "Verif.Newton.dampStep_inBounds",
    "Verif.Newton.norm2_le_one_iff",
    "Verif.Newton.norm2_component",
    "Verif.Newton.solve_sound",
    "Verif.Newton.solve_failure_not_reset"
   ],
   "note": "Proved for all domains, points inside the bounds, Jacobians and step functions, any number of Newton passes. Missing: for a point already below a lower bound the fraction is negative (boundStep_negative); after a failure x1 is the last accepted iterate, not x0 (solve_failure_not_reset). Termination of the Newton loop, which has no pass limit, is not claimed."
  },
  {
   "property": "C30",
   "status": "partial",
   "theorems": [
    "Verif.OneDim.layout_locations",
    "Verif.OneDim.layout_size",
    "Verif.OneDim.index_bijection",
    "Verif.OneDim.point_tables",
    "Verif.OneDim.component_inverts_partial",
    "Verif.OneDim.component_correct_iff",
    "Verif.OneDim.component_divides_by_zero",
    "Verif.OneDim.component_accepts_out_of_range",
    "Verif.OneDim.pointDomain_owner",
    "Verif.OneDim.pointDomain_not_of_point",
    "Verif.OneDim.jacobian_in_band_partial",
    "Verif.OneDim.coupling_in_band",
    "Verif.OneDim.bandwidth_le",
    "Verif.OneDim.bandwidth_wraps",
    "Verif.OneDim.jacobian_outside_band"
   ],
   "note": "The index map, tables and pointDomain hold for every history. OneDim::component is undefined behaviour exactly when a domain without components lies to the right of the index (proved both ways); the band covers all entries unless a domain declares less than its default bandwidth (witness). Sizes assumed not to overflow except in the bandwidth subtraction."
  },
  {
   "property": "C31",
   "status": "partial",
   "theorems": [
    "Verif.BandM.band_index_injective",
    "Verif.BandM.band_history",
    "Verif.BandM.band_read",
    "Verif.BandM.band_storage",
    "Verif.BandM.band_mult",
    "Verif.BandM.band_leftMult",
    "Verif.BandM.band_oneNorm",
    "Verif.BandM.band_solve_fresh",
    "Verif.BandM.band_nonconst_out_of_band_not_zero",
    "Verif.BandM.band_stale_after_column_write"
   ],
   "note": "Storage refines a dense matrix over every in-range history; products and one-norm are the dense ones; solve uses the factorisation of the current entries. False in the code: out-of-band reads through the non-const accessor after an out-of-band write (counterexample), and solve after writing through ptrColumn (counterexample)."
  },
  {
   "property": "C32",
   "status": "proved",
   "theorems": [
    "Verif.Funcs.interp_left",
    "Verif.Funcs.interp_right",
    "Verif.Funcs.interp_inside",
    "Verif.Funcs.interp_node",
    "Verif.Funcs.interp_between",
    "Verif.Funcs.trapezoidal_throws_iff",
    "Verif.Funcs.trapezoidal_is_integral",
    "Verif.Funcs.simpson_odd",
    "Verif.Funcs.simpson_exact_quadratic",
    "Verif.Funcs.simpson_even",
    "Verif.Funcs.simpson_two",
    "Verif.Funcs.simpson_throws_iff",
    "Verif.Funcs.quadrature_edges"
   ],
   "note": "All grids and data, in exact arithmetic."
  },
  {
   "property": "C33",
   "status": "partial",
   "theorems": [
    "Verif.Fp.fpCheck_iff",
    "Verif.Fp.fpValueCheck_iff",
    "Verif.Fp.malformed_accepted",
    "Verif.Fp.accepted_chars",
    "Verif.CompString.parse_terminates",
    "Verif.CompString.parse_sound",
    "Verif.CompString.parse_names",
    "Verif.CompString.parse_text",
    "Verif.CompString.parse_text_nodup",
    "Verif.CompString.duplicate_rejected",
    "Verif.CompString.zero_duplicate_accepted",
    "Verif.CompString.colon_name_rejected"
   ],
   "note": "Termination, soundness (every accepted string is a list of known, non-duplicate key:number entries and the result is exactly these entries) and round trip are proved for all strings. Missing because the code violates it: \".\" and similar texts without digits are accepted as numbers (malformed_accepted) and a known name containing a colon is rejected if a list of names is given and the part before the colon is not a name (colon_name_rejected)."
  },
  {
   "property": "C34",
   "status": "proved",
   "theorems": [
    "Verif.CopyString.copyString_effect",
    "Verif.CopyString.copyString_reads_prefix",
    "Verif.CopyString.copyString_two_calls"
   ],
   "note": ""
  },
  {
   "property": "C35",
   "status": "partial",
   "theorems": [
    "Verif.ValueCache.cache_validate",
    "Verif.ValueCache.cache_nan",
    "Verif.ValueCache.cache_transparent_partial",
    "Verif.ValueCache.cache_transparent_new_partial",
    "Verif.ValueCache.cache_ids_distinct",
    "Verif.ValueCache.cache_stale_after_throw",
    "Verif.ValueCache.cache_mixed_overloads",
    "Verif.ValueCache.cache_intMin_default"
   ],
   "note": "Cached lookups equal uncached computation over every interleaving, when the computation does not throw and each id uses one overload. False otherwise: counterexamples proved."
  },
  {
   "property": "C36",
   "status": "partial",
   "theorems": [
    "Verif.Factory.factory_registered",
    "Verif.Factory.factory_alias",
    "Verif.Factory.factory_deprecated",
    "Verif.Factory.factory_unknown",
    "Verif.Factory.factory_alias_throws_iff",
    "Verif.Factory.factory_exists",
    "Verif.Factory.factory_exists_deprecated",
    "Verif.Factory.factory_alias_shadowed"
   ],
   "note": "Every registration history. An alias whose name is also registered is ignored (counterexample), and exists() is false for deprecated names."
  },
  {
   "property": "C37",
   "status": "partial",
   "theorems": [
    "Verif.Equation.words_equation",
    "Verif.Equation.parse_print",
    "Verif.Equation.round_trip_partial",
    "Verif.Equation.two_generic_rejected",
    "Verif.Equation.incompatible_rejected",
    "Verif.Equation.efficiency_rejected",
    "Verif.Equation.given_rejected",
    "Verif.Equation.falloff_catalyst_ub",
    "Verif.Equation.explicit_lost",
    "Verif.Equation.explicit_lost_many",
    "Verif.Equation.implicit_lost",
    "Verif.Equation.third_gained",
    "Verif.Equation.coefficient_lost",
    "Verif.Equation.empty_products"
   ],
   "note": "The tokens and the parsed coefficients of the text of every readable reaction are exact; coefficients, reversibility and third body are read back if rate type, phase and species determine the third body. Missing because the code violates it: rounded coefficients, explicit third bodies without three participants, species on both sides together with a third body, empty sides."
  },
  {
   "property": "C38",
   "status": "partial",
   "theorems": [
    "Verif.MP.init_frozen",
    "Verif.MP.elements_complete",
    "Verif.MP.index_phase",
    "Verif.MP.phase_index",
    "Verif.MP.atomGo_block",
    "Verif.MP.elem_abundance",
    "Verif.MP.speciesMoles_eq",
    "Verif.MP.setMoles_getMoles_partial",
    "Verif.MP.setMoles_abundance_partial",
    "Verif.MP.addSpeciesMoles_moles",
    "Verif.MP.setMoles_ok",
    "Verif.MP.negative_moles",
    "Verif.MP.empty_phase_index",
    "Verif.MP.empty_phase_ub",
    "Verif.MP.no_elements",
    "Verif.MP.phaseMoleFractions_not_normalised"
   ],
   "note": "Proved for all mixtures whose phases have at least one species and at least one element overall, and non-negative moles. Missing: a negative entry in a phase with several species is not returned (negative_moles); phases without species or a mixture without elements break the index tables (empty_phase_index, empty_phase_ub, no_elements)."
  },
  {
   "property": "C39",
   "status": "proved",
   "theorems": [
    "Verif.MP.equilibrate_restores",
    "Verif.MP.equilibrate_ok",
    "Verif.MP.equilibrate_uninit_ub"
   ],
   "note": "Arbitrary solver behaviour. equilibrate_uninit_ub: on a mixture on which init() was never called (documented precondition) the handler reads beyond the restored empty vector."
  },
  {
   "property": "C40",
   "status": "partial",
   "theorems": [
    "Verif.Surf.cov_roundtrip",
    "Verif.Surf.cov_roundtrip_nonneg",
    "Verif.Surf.setCov_X",
    "Verif.Surf.setCov_throw",
    "Verif.Surf.covNoNorm_roundtrip",
    "Verif.Surf.conc_total",
    "Verif.Surf.site_balance_iff",
    "Verif.Surf.site_balance_partial",
    "Verif.Surf.site_balance_fails",
    "Verif.Surf.covByName_roundtrip",
    "Verif.Surf.covByName_throw",
    "Verif.Surf.siteDensity_conc"
   ],
   "note": "Round trip and normalisation proved for all sizes. The site balance fails unless sum theta = sum theta/size (site_balance_iff, site_balance_fails): concentrations are n0*X_k, not n0*theta_k/s_k as documented."
  },
  {
   "property": "C41",
   "status": "partial",
   "theorems": [
    "Verif.SpThermo.provide_latest",
    "Verif.SpThermo.range_contained",
    "Verif.SpThermo.ready_iff",
    "Verif.SpThermo.update_dispatch_partial",
    "Verif.SpThermo.lib_lawful",
    "Verif.SpThermo.polySize_ok",
    "Verif.SpThermo.lib_update_dispatch_partial",
    "Verif.SpThermo.duplicate_install",
    "Verif.SpThermo.reference_pressure_partial",
    "Verif.SpThermo.range_exact_partial",
    "Verif.SpThermo.release_duplicate",
    "Verif.SpThermo.modify_range_stale",
    "Verif.SpThermo.modify_reference_pressure"
   ],
   "note": "Missing: update in NDEBUG builds with duplicate installs (violated, release_duplicate); reference pressure after modifySpecies (violated, modify_reference_pressure); exact range after modifySpecies (violated, modify_range_stale)."
  },
  {
   "property": "C42",
   "status": "partial",
   "theorems": [
    "Verif.MultiRate.evaluator_partial",
    "Verif.MultiRate.replace_unknown",
    "Verif.MultiRate.failed_add_redirects",
    "Verif.MultiRate.dispatch_partial",
    "Verif.MultiRate.dispatch_add_ok",
    "Verif.MultiRate.tables_from_added",
    "Verif.MultiRate.modify_chemically_activated",
    "Verif.MultiRate.modify_keeps_tables"
   ],
   "note": "dispatch_partial: for every history of addReaction/modifyReaction/updateROP, the rate constants are those of the reactions reported by reaction(i), provided the rates of one evaluator share type() and C++ class. Missing: evaluators with mixed type() (the code violates the property there, modify_chemically_activated), rates with caches that are not history independent, addThirdBody failures. modify_keeps_tables: reversibility and third bodies of a modified reaction are ignored."
  },
  {
   "property": "C43",
   "status": "partial",
   "theorems": [
    "Verif.Kinetics.composition_jacobian_exact_partial",
    "Verif.Kinetics.composition_jacobian_falloff_partial",
    "Verif.Kinetics.jacobian_total",
    "Verif.Kinetics.jacobian_ddX",
    "Verif.Kinetics.composition_jacobian_multiplier_diverges",
    "Verif.Kinetics.composition_jacobian_spurious",
    "Verif.Kinetics.jacobian_legacy_doubles"
   ],
   "note": "Rows of reactions with composition-independent rate constants are exact; falloff rows converge to the derivative for unit multipliers. False in the code for falloff rows with other multipliers, for (+M) reactions of rate types without a third-body perturbation (or with skip-falloff), and with legacy rate constants (each proved). Ideal gas at fixed temperature; standard potentials and standard concentration held fixed; jacobian_ddX stated for the forward direction."
  },
  {
   "property": "C44",
   "status": "proved",
   "theorems": [
    "Verif.Units.stack_product",
    "Verif.Units.stack_updates",
    "Verif.Units.stack_join"
   ],
   "note": "Up to pseudo-dimensions (see C17)."
  },
  {
   "property": "C45",
   "status": "partial",
   "theorems": [
    "Verif.Gibbs.hp_converged",
    "Verif.Gibbs.sp_converged",
    "Verif.Gibbs.tv_converged",
    "Verif.Gibbs.equil_converged_partial",
    "Verif.Gibbs.hp_zero",
    "Verif.Gibbs.tv_silent"
   ],
   "note": "Proved for TP, HP, SP. Missing: the TV branch returns -1 without an exception when the iterations are exhausted, and the caller ignores the value (tv_silent)."
  },
  {
   "property": "C46",
   "status": "partial",
   "theorems": [
    "Verif.TimeStep.timeStep_terminates",
    "Verif.TimeStep.timeStep_steps",
    "Verif.TimeStep.timeStep_size",
    "Verif.TimeStep.timeStep_hangs"
   ],
   "note": "Proved for a reduction factor between 0 and 1, a positive minimum step not above the maximum step and an initial step not below the minimum. Missing: setTimeStepFactor accepts any factor, and with the factor 1 the loop need not end (timeStep_hangs)."
  },
  {
   "property": "C47",
   "status": "partial",
   "theorems": [
    "Verif.Func1.periodic_nonneg_partial",
    "Verif.Func1.periodic_wrong"
   ],
   "note": "Proved for non-negative arguments; for negative ones the code violates it (periodic_wrong)."
  },
  {
   "property": "C48",
   "status": "partial",
   "theorems": [
    "Verif.ZeroD.moleRate_deriv_mass",
    "Verif.ZeroD.moleRate_deriv_mole",
    "Verif.ZeroD.carried_sum",
    "Verif.ZeroD.gasRate_eq",
    "Verif.ZeroD.network_gas_partial",
    "Verif.ZeroD.network_elements_partial",
    "Verif.ZeroD.closed_network_partial",
    "Verif.ZeroD.fractions_sum_partial",
    "Verif.ZeroD.network_mass_partial",
    "Verif.ZeroD.coverages_sum",
    "Verif.ZeroD.constV_dV",
    "Verif.ZeroD.network_volume",
    "Verif.ZeroD.solution_const_partial",
    "Verif.ZeroD.mole_outlet_keeps",
    "Verif.ZeroD.mole_outlet_wrong",
    "Verif.ZeroD.mass_outlet_right",
    "Verif.ZeroD.unknown_species_lost",
    "Verif.ZeroD.bidentate_lost",
    "Verif.ZeroD.bidentate_mass"
   ],
   "note": "Proved for the right-hand sides of all eight reactor types in any network if species leaving a reactor are known downstream, mole-based reactors share the species table of the reactors they feed, and (mole based) surface species occupy one site; integration in time is exact (solution_const_partial). Missing because the code violates it: different species tables and multi-site species in mole-based reactors."
  },
  {
   "property": "C49",
   "status": "partial",
   "theorems": [
    "Verif.ZeroD.energyRate_deriv",
    "Verif.ZeroD.energy_closed",
    "Verif.ZeroD.thermal_closed",
    "Verif.ZeroD.energy_balance_partial",
    "Verif.ZeroD.energy_off",
    "Verif.ZeroD.network_heat",
    "Verif.ZeroD.network_energy_partial",
    "Verif.ZeroD.network_energy_equal_partial",
    "Verif.ZeroD.network_energy_le_partial",
    "Verif.ZeroD.heat_downhill",
    "Verif.ZeroD.heat_imposed",
    "Verif.ZeroD.piston_loses",
    "Verif.ZeroD.piston_driven",
    "Verif.ZeroD.mole_outlet_energy"
   ],
   "note": "The energy balance holds for all eight types, temperature equations for ideal gases with consistent heat capacities; missing because the code violates it: mole-based reactors whose downstream reactor has another species table."
  },
  {
   "property": "C50",
   "status": "partial",
   "theorems": [
    "Verif.ZeroD.Sens.restored_partial",
    "Verif.ZeroD.Sens.rx_restored",
    "Verif.ZeroD.Sens.seen_perturbed",
    "Verif.ZeroD.Sens.no_params",
    "Verif.ZeroD.Sens.registered_nominal",
    "Verif.ZeroD.Sens.add_late",
    "Verif.ZeroD.Sens.add_fresh",
    "Verif.ZeroD.Sens.failure_accumulates",
    "Verif.ZeroD.Sens.duplicate_accumulates",
    "Verif.ZeroD.Sens.modified_lost"
   ],
   "note": "Restored for any number of reactors (sharing phases or not) if no evaluation fails, no reactor registers a quantity twice and enthalpies are unmodified. Missing because the code violates it: failing evaluations, duplicate registrations, modified enthalpies."
  },
  {
   "property": "C51",
   "status": "partial",
   "theorems": [
    "Verif.ZeroD.Advance.estimate_eq",
    "Verif.ZeroD.Advance.halve_spec",
    "Verif.ZeroD.Advance.halve_ends",
    "Verif.ZeroD.Advance.advance_spec",
    "Verif.ZeroD.Advance.advance_between",
    "Verif.ZeroD.Advance.no_limit",
    "Verif.ZeroD.Advance.unlimited",
    "Verif.ZeroD.Advance.backwards",
    "Verif.ZeroD.Advance.overshoot_throws",
    "Verif.ZeroD.Advance.limits_read_back",
    "Verif.ZeroD.Advance.limit_effective",
    "Verif.ZeroD.Advance.setOne_spec",
    "Verif.ZeroD.Advance.netGet_eq",
    "Verif.ZeroD.Advance.netSet_has",
    "Verif.ZeroD.Advance.setOne_beyond",
    "Verif.ZeroD.Advance.stale_limit"
   ],
   "note": "Termination, optimality and respect of the limits for all derivatives once a derivative is available; limits read back. Missing because the code violates it: first call after initialisation may overshoot and throw, reactors whose size changed after limits were set."
  },
  {
   "property": "C52",
   "status": "partial",
   "theorems": [
    "Verif.ZeroD.State.rates_fresh_partial",
    "Verif.ZeroD.State.rates_nonneg",
    "Verif.ZeroD.State.history_free_partial",
    "Verif.ZeroD.State.round_trip_partial",
    "Verif.ZeroD.State.get_update",
    "Verif.ZeroD.State.valve_downhill",
    "Verif.ZeroD.State.controller_stale",
    "Verif.ZeroD.State.primary_cycle",
    "Verif.ZeroD.State.shared_temperature",
    "Verif.ZeroD.State.isothermal_energy",
    "Verif.ZeroD.State.chemistry_stale",
    "Verif.ZeroD.State.setRate_update",
    "Verif.ZeroD.State.setRate_dangling"
   ],
   "note": "For all networks of the eight types with mass flow controllers, valves and pressure controllers whose primary is a mass flow controller, isothermal reactors not sharing phases. Missing because the code violates it: other primaries, shared phases of isothermal reactors, energy component of isothermal reactors."
  },
  {
   "property": "C53",
   "status": "partial",
   "theorems": [
    "Verif.OneDim.Flow.flux_sum_eq",
    "Verif.OneDim.Flow.flux_sum_zero",
    "Verif.OneDim.Flow.flux_sum_multi",
    "Verif.OneDim.Flow.sum_upwind",
    "Verif.OneDim.Flow.species_sum",
    "Verif.OneDim.Flow.species_sum_zero",
    "Verif.OneDim.Flow.sum_one",
    "Verif.OneDim.Flow.flux_sum_unnormalised"
   ],
   "note": "Proved for mixture-averaged transport without restriction, for multicomponent and thermal diffusion under the algebraic property of the coefficients that makes the fluxes add up (the code applies no correction there); sum_one for flow in the positive direction with a non-degenerate coefficient. Limit: where the mass fractions do not add up to one the corrected fluxes do not add up to zero (flux_sum_unnormalised)."
  },
  {
   "property": "C54",
   "status": "partial",
   "theorems": [
    "Verif.OneDim.Flow.maxIdx_spec",
    "Verif.OneDim.Flow.mass_flux_const",
    "Verif.OneDim.Flow.free_fixed_temperature",
    "Verif.OneDim.Flow.burner_mass_flux",
    "Verif.OneDim.Flow.strained_balance",
    "Verif.OneDim.Flow.lambda_const",
    "Verif.OneDim.Flow.strained_left_inlet",
    "Verif.OneDim.Flow.strained_right_inlet",
    "Verif.OneDim.Flow.two_point",
    "Verif.OneDim.Flow.wall_temperature",
    "Verif.OneDim.Flow.inlet_species",
    "Verif.OneDim.Flow.outlet_species",
    "Verif.OneDim.Flow.reservoir_species_partial",
    "Verif.OneDim.Flow.surface_species",
    "Verif.OneDim.Flow.conduction_flux",
    "Verif.OneDim.Flow.shear_stress",
    "Verif.OneDim.Flow.conduction_telescopes",
    "Verif.OneDim.Flow.energy_balance",
    "Verif.OneDim.Flow.momentum_balance",
    "Verif.OneDim.Flow.species_balance",
    "Verif.OneDim.Flow.global_species_balance",
    "Verif.OneDim.Flow.left_surface_ignored",
    "Verif.OneDim.Flow.control_point_transient",
    "Verif.OneDim.Flow.reservoir_wrong",
    "Verif.OneDim.Flow.gradH_right",
    "Verif.OneDim.Flow.gradH_left"
   ],
   "note": "All conditions for zeros of the residual of boundary - flow - boundary, and the balances of energy, momentum and species over one cell and over the domain. Missing because the code violates it: composition at a reservoir outlet (wrong index of the skipped species), reacting surface at the left of a flow, transient term at the control points."
  },
  {
   "property": "C55",
   "status": "partial",
   "theorems": [
    "Verif.OneDim.Flow.full_eq",
    "Verif.OneDim.Flow.full_history_free_partial",
    "Verif.OneDim.Flow.local_eval",
    "Verif.OneDim.Flow.frozen_cell_local",
    "Verif.OneDim.Flow.frozenRes_local",
    "Verif.OneDim.Flow.jacobian_spec_partial",
    "Verif.OneDim.Flow.jacobian_exact_partial",
    "Verif.OneDim.Flow.dx_ne_zero",
    "Verif.OneDim.Flow.frozen_transient",
    "Verif.OneDim.Flow.full_transient",
    "Verif.OneDim.Flow.transient_exact_partial",
    "Verif.OneDim.Flow.radiation_stale",
    "Verif.OneDim.Flow.jac_far",
    "Verif.OneDim.Flow.wall_coupling_missed",
    "Verif.OneDim.Flow.underflow_unevaluated"
   ],
   "note": "Proved under `Compact`: no wall emissivity together with radiation, radiation not switched off after use, and the energy equation solved at the fixed point of a free flame. The entries beyond the neighbours that are missing without it are exhibited (jac_far, wall_coupling_missed), as is the history dependence (radiation_stale) and the unevaluated flow of a second domain (underflow_unevaluated)."
  },
  {
   "property": "C56",
   "status": "partial",
   "theorems": [
    "Verif.Kinetics.fwd_ddT_exact",
    "Verif.Kinetics.fwd_ddT_limit_partial",
    "Verif.Kinetics.const_ddT_limit_partial",
    "Verif.Kinetics.ddT_multiplier_diverges",
    "Verif.Kinetics.rev_ddT_limit_partial",
    "Verif.Kinetics.net_ddT_eq",
    "Verif.Kinetics.irrev_eq_ddT",
    "Verif.Kinetics.cached_rkcn_ok",
    "Verif.Kinetics.cached_dg_stale",
    "Verif.Kinetics.rev_ddT_stale_diverges",
    "Verif.Kinetics.ddP_limit_partial",
    "Verif.Kinetics.ddP_multiplier_diverges",
    "Verif.Kinetics.fwd_ddC_limit_partial",
    "Verif.Kinetics.rev_ddC_limit_partial",
    "Verif.Kinetics.const_ddC_limit_partial",
    "Verif.Kinetics.ddC_skip",
    "Verif.Stoich.stoich_scale",
    "Verif.Rates.Arrhenius.arrhenius_ddT",
    "Verif.Rates.Arrhenius.two_temp_ddT",
    "Verif.Rates.Arrhenius.blowers_masel_ddT",
    "Verif.Rates.Arrhenius.evalLog_eq",
    "Verif.Rates.Arrhenius.deltaH_eq",
    "Verif.Rates.Arrhenius.effEa_zero",
    "Verif.Rates.Arrhenius.effEa_nonneg",
    "Verif.Rates.Arrhenius.effEa_reverse",
    "Verif.Rates.Arrhenius.effEa_end"
   ],
   "note": "Proved for ideal gases, for multipliers 0 and 1 with numerical evaluators (any multiplier with analytic ones) and with Gibbs energies of reaction of the current state. Refuted otherwise: with other multipliers the numerical derivatives diverge, and after a change of composition at fixed temperature and density the reverse temperature derivative diverges."
  },
  {
   "property": "C57",
   "status": "partial",
   "theorems": [
    "Verif.Kinetics.Interface.interface_rates",
    "Verif.Kinetics.Interface.equilibrium_constants",
    "Verif.Kinetics.Interface.electrochemical_detailed_balance",
    "Verif.Kinetics.Interface.no_uphill_rate",
    "Verif.Kinetics.Interface.rop_consistent",
    "Verif.Kinetics.Interface.interface_net_production",
    "Verif.Kinetics.Interface.interface_current",
    "Verif.Kinetics.Interface.currents_cancel",
    "Verif.Kinetics.Interface.potential_independent"
   ],
   "note": "Everything but one clause: interfaceCurrent with an invalid phase index is undefined behaviour instead of an error."
  },
  {
   "property": "C58",
   "status": "partial",
   "theorems": [
    "Verif.Kinetics.Interface.exists_check_counts",
    "Verif.Kinetics.Interface.missing_not_consumed",
    "Verif.Kinetics.Interface.unstable_not_formed_partial",
    "Verif.Kinetics.Interface.switched_off",
    "Verif.Kinetics.Interface.existence_restored",
    "Verif.Kinetics.Interface.other_phases_irrelevant",
    "Verif.Kinetics.Interface.no_uphill_rate",
    "Verif.Kinetics.Interface.stability_ignored"
   ],
   "note": "Unstable phases are protected only while some phase is flagged as missing; refuted otherwise (stability_ignored)."
  },
  {
   "property": "C59",
   "status": "partial",
   "theorems": [
    "Verif.Rates.Coverage.coverage_factor",
    "Verif.Rates.Coverage.order_irrelevant",
    "Verif.Rates.Coverage.effective_parameters",
    "Verif.Rates.Coverage.coverage_roundtrip",
    "Verif.Rates.Coverage.coverage_rejects",
    "Verif.Rates.Coverage.sticking_rate",
    "Verif.Rates.Coverage.motz_wise_bounds",
    "Verif.Rates.Coverage.sticking_species_choice",
    "Verif.Rates.Coverage.sticking_weight_roundtrip",
    "Verif.Rates.Coverage.add_alone_is_ub",
    "Verif.Rates.Coverage.clearing_gives_nan",
    "Verif.Rates.Coverage.stale_sticking_species"
   ],
   "note": "Proved for dependencies set through setCoverageDependencies before setSpecies; refuted for addCoverageDependence alone, for clearing dependencies, and for a rate moved to another reaction."
  },
  {
   "property": "C60",
   "status": "partial",
   "theorems": [
    "Verif.Rates.Electro.voltage_correction",
    "Verif.Rates.Electro.charge_transfer_rates",
    "Verif.Rates.Electro.butler_volmer",
    "Verif.Rates.Electro.exchange_current_partial",
    "Verif.Rates.Electro.exchange_current_not_constant"
   ],
   "note": "Exchange current densities: the value at unit activities is computed; refuted that it is the given constant for all standard concentrations."
  },
  {
   "property": "C61",
   "status": "partial",
   "theorems": [
    "Verif.Kinetics.Interface.interface_jacobian",
    "Verif.Kinetics.Interface.jacobian_ignores_existence",
    "Verif.Kinetics.Interface.derivative_guard",
    "Verif.Kinetics.Interface.derivative_guard_partial",
    "Verif.Kinetics.Interface.guard_misses",
    "Verif.Kinetics.Interface.settings_applied",
    "Verif.Kinetics.Interface.settings_swapped"
   ],
   "note": "Proved with all phases existing, composition independent rate constants, no replaced reactions and no coverage-dependent sticking rates; refuted otherwise. getDerivativeSettings exchanges the two skip flags."
  },
  {
   "property": "C62",
   "status": "partial",
   "theorems": [
    "Verif.Rates.InterfaceData.coverages_and_potentials_current",
    "Verif.Rates.InterfaceData.update_idempotent",
    "Verif.Rates.InterfaceData.data_current_partial",
    "Verif.Rates.InterfaceData.stale_after_pressure_change"
   ],
   "note": "Coverages, potentials, surface temperature and site density are always current; the other vectors only if pressures are fixed and all phases share one temperature, refuted otherwise."
  },
  {
   "property": "C63",
   "status": "partial",
   "theorems": [
    "Verif.Thermo.Margules.margules_activity",
    "Verif.Thermo.Margules.margules_euler",
    "Verif.Thermo.Margules.margules_temperature",
    "Verif.Thermo.Margules.margules_partial_molar",
    "Verif.Thermo.Margules.margules_cp_ideal",
    "Verif.Thermo.Margules.margules_volumes",
    "Verif.Thermo.Margules.margules_dlnN",
    "Verif.Thermo.Margules.margules_gibbs_duhem",
    "Verif.Thermo.Margules.margules_ds_partial",
    "Verif.Thermo.Margules.margules_ds_wrong",
    "Verif.Thermo.Margules.margules_dlnX_wrong",
    "Verif.Thermo.Margules.density_ignores_excess_volume"
   ],
   "note": "Activity coefficients, temperature and mole number derivatives and partial molar functions are proved; getdlnActCoeffds only for one interaction or constant temperature, refuted otherwise; getdlnActCoeffdlnX_diag and the density are refuted."
  },
  {
   "property": "C64",
   "status": "partial",
   "theorems": [
    "Verif.Thermo.RedlichKister.rk_activity",
    "Verif.Thermo.RedlichKister.rk_euler",
    "Verif.Thermo.RedlichKister.rk_temperature",
    "Verif.Thermo.RedlichKister.rk_partial_molar",
    "Verif.Thermo.RedlichKister.rk_dlnX_diag",
    "Verif.Thermo.RedlichKister.rk_dX_partial",
    "Verif.Thermo.RedlichKister.rk_dX_wrong",
    "Verif.Thermo.RedlichKister.rk_ds_ub",
    "Verif.Thermo.RedlichKister.rk_ds_wrong",
    "Verif.Thermo.RedlichKister.rk_dlnN_zero"
   ],
   "note": "Activity coefficients, temperature derivatives, partial molar functions and the diagonal derivatives are proved; the composition matrix is proved up to RT except one entry per interaction, which is refuted; getdlnActCoeffds and getdlnActCoeffdlnN are refuted."
  },
  {
   "property": "C65",
   "status": "proved",
   "theorems": [
    "Verif.Fluid.RK.rk_pressure_explicit",
    "Verif.Fluid.RK.rk_pressure_derivatives",
    "Verif.Fluid.RK.rk_helmholtz",
    "Verif.Fluid.RK.rk_cv",
    "Verif.Fluid.RK.rk_cp",
    "Verif.Fluid.RK.rk_compressibility",
    "Verif.Fluid.RK.rk_sound",
    "Verif.Fluid.RK.rk_chemical_potential",
    "Verif.Fluid.RK.rk_partial_molar",
    "Verif.Fluid.RK.rk_sums",
    "Verif.Fluid.RK.rk_ideal_limit"
   ],
   "note": "For positive covolume, temperature, pressure and mole fractions above SmallNumber, with symmetric tables. Reference state functions are inputs whose cp is the derivative of enthalpy and entropy."
  },
  {
   "property": "C66",
   "status": "proved",
   "theorems": [
    "Verif.Fluid.PR.pr_pressure_explicit",
    "Verif.Fluid.PR.pr_pressure_derivatives",
    "Verif.Fluid.PR.pr_helmholtz",
    "Verif.Fluid.PR.pr_cv",
    "Verif.Fluid.PR.pr_cp",
    "Verif.Fluid.PR.pr_compressibility",
    "Verif.Fluid.PR.pr_sound",
    "Verif.Fluid.PR.pr_chemical_potential",
    "Verif.Fluid.PR.pr_partial_molar",
    "Verif.Fluid.PR.pr_sums",
    "Verif.Fluid.PR.pr_ideal_limit",
    "Verif.Fluid.PR.pr_alpha_critical"
   ],
   "note": "As C65, for positive a and b of every species and temperatures at which no attraction vanishes."
  },
  {
   "property": "C67",
   "status": "partial",
   "theorems": [
    "Verif.Fluid.Solver.solve_three",
    "Verif.Fluid.Solver.solve_one",
    "Verif.Fluid.Solver.solve_small_is_double",
    "Verif.Fluid.Solver.solve_double_above",
    "Verif.Fluid.Solver.solve_double_below",
    "Verif.Fluid.Solver.solve_equal",
    "Verif.Fluid.Solver.solve_temperature",
    "Verif.Fluid.Solver.solve_ideal_gas",
    "Verif.Fluid.Solver.ideal_not_root",
    "Verif.Fluid.Solver.polish_throw_iff",
    "Verif.Fluid.Solver.rk_root_iff",
    "Verif.Fluid.Solver.pr_root_iff",
    "Verif.Fluid.Solver.rk_root_gt",
    "Verif.Fluid.Solver.rk_density",
    "Verif.Fluid.Solver.pr_density",
    "Verif.Fluid.Solver.rkP_pressure",
    "Verif.Fluid.Solver.prP_pressure",
    "Verif.Fluid.Solver.rk_setPressure",
    "Verif.Fluid.Solver.guess_ignored",
    "Verif.Fluid.Solver.rk_undefined_phase",
    "Verif.Fluid.Solver.rk_liquid_wrong_pressure",
    "Verif.Fluid.Solver.liquidVolEst_ends",
    "Verif.Fluid.Solver.setPressure_free",
    "Verif.Fluid.Solver.setPressure_ignored",
    "Verif.Fluid.Solver.gas_volume_zero",
    "Verif.Fluid.Solver.double_refused",
    "Verif.Fluid.Solver.liquid_volume_negative"
   ],
   "note": "Roots, their order and number, and the pressure of the chosen state are proved away from the tolerances of the solver. Refuted: double roots and small volumes (wrong number, volume zero), nearly ideal states (not a root), liquid requests without guess (other pressure) or at high pressure (negative volume), prescribed branches (nothing done). Accuracy inside the tolerances and satPressure are not covered."
  },
  {
   "property": "C68",
   "status": "partial",
   "theorems": [
    "Verif.Fluid.Tables.rk_tables",
    "Verif.Fluid.Tables.rk_tables_symmetric",
    "Verif.Fluid.Tables.rk_flag",
    "Verif.Fluid.Tables.rk_orders",
    "Verif.Fluid.Tables.rk_mixing",
    "Verif.Fluid.Tables.rk_mixing_not_identical",
    "Verif.Fluid.Tables.rk_mixing_nan",
    "Verif.Fluid.Tables.rk_stale",
    "Verif.Fluid.Tables.rk_stale_witness",
    "Verif.Fluid.Tables.rk_add_scrambles",
    "Verif.Fluid.Tables.rk_init_fresh",
    "Verif.Fluid.Tables.pr_tables",
    "Verif.Fluid.Tables.pr_tables_symmetric",
    "Verif.Fluid.Tables.pr_mixing",
    "Verif.Fluid.Tables.pr_zero_pair",
    "Verif.Fluid.Tables.pr_stale",
    "Verif.Fluid.Tables.pr_add_scrambles",
    "Verif.Fluid.Tables.add_fresh",
    "Verif.Fluid.Tables.crit_fixed",
    "Verif.Fluid.Tables.crit_step",
    "Verif.Fluid.Tables.crit_constant",
    "Verif.Fluid.Tables.crit_nan",
    "Verif.Fluid.Tables.crit_throw_iff"
   ],
   "note": "Proved for all sequences of calls in which every species is given once (and, for Peng-Robinson, no pair is given zero). Refuted: species given twice, zero pairs, species added to a phase in use, negative a1, and the error of the critical temperature. Convergence of the Newton iteration and reading of the input are not covered."
  },
  {
   "property": "C69",
   "status": "partial",
   "theorems": [
    "Verif.Transport.Mix.Gas.polyIndex_eq",
    "Verif.Transport.Mix.Gas.polyIndex_comm",
    "Verif.Transport.Mix.Gas.polyIndex_inj",
    "Verif.Transport.Mix.Gas.polyIndex_lt",
    "Verif.Transport.Mix.Gas.bdiff_eq",
    "Verif.Transport.Mix.Gas.bdiff_symm",
    "Verif.Transport.Mix.Gas.binary_eq",
    "Verif.Transport.Mix.Gas.visc_eq",
    "Verif.Transport.Mix.Gas.cond_eq",
    "Verif.Transport.Mix.Gas.visc_sq",
    "Verif.Transport.Mix.Gas.wilke_identity",
    "Verif.Transport.Mix.Gas.phiLow_eq",
    "Verif.Transport.Mix.Gas.wilke",
    "Verif.Transport.Mix.Gas.phi_pos",
    "Verif.Transport.Mix.Gas.phi_same",
    "Verif.Transport.Mix.Gas.viscosity_bounds",
    "Verif.Transport.Mix.Gas.viscosity_same",
    "Verif.Transport.Mix.Gas.viscosity_single",
    "Verif.Transport.Mix.Gas.viscosity_eq",
    "Verif.Transport.Mix.Gas.conductivity_bounds",
    "Verif.Transport.Mix.Gas.conductivity_eq",
    "Verif.Transport.Mix.Gas.sum2_pos",
    "Verif.Transport.Mix.Gas.mixDiff_eq",
    "Verif.Transport.Mix.Gas.mixDiff_pure",
    "Verif.Transport.Mix.Gas.mixDiff_mass",
    "Verif.Transport.Mix.Gas.mixDiffMass_eq",
    "Verif.Transport.Mix.Gas.binary_mixture",
    "Verif.Transport.Mix.Gas.mixDiff_nonneg",
    "Verif.Transport.Mix.Gas.flux_sum",
    "Verif.Transport.Mix.Gas.flux_eq",
    "Verif.Transport.Mix.Gas.flux_binary",
    "Verif.Transport.Mix.Gas.einstein"
   ],
   "note": "Proved for real arithmetic. Refuted: for a pure species in a phase with several species the mixture-averaged diffusion coefficient is zero (mixDiff_pure). The fits themselves (fitProperties, fitDiffCoeffs) and collision integrals are not covered; the caching flags are covered by C71."
  },
  {
   "property": "C70",
   "status": "partial",
   "theorems": [
    "Verif.Transport.Multi.Data.L0000_eq",
    "Verif.Transport.Multi.Data.L0010_eq",
    "Verif.Transport.Multi.Data.L1010_eq",
    "Verif.Transport.Multi.Data.L1001_eq",
    "Verif.Transport.Multi.Data.L0101_eq",
    "Verif.Transport.Multi.Data.L0101_none",
    "Verif.Transport.Multi.Data.L0101_off",
    "Verif.Transport.Multi.Data.L_symm",
    "Verif.Transport.Multi.Data.L_layout",
    "Verif.Transport.Multi.Data.b_layout",
    "Verif.Transport.Multi.Data.no_modes",
    "Verif.Transport.Multi.Data.row0",
    "Verif.Transport.Multi.Data.col0010",
    "Verif.Transport.Multi.Data.col0000",
    "Verif.Transport.Multi.Data.S_pos",
    "Verif.Transport.Multi.Data.thermalDiff_sum",
    "Verif.Transport.Multi.Data.thermalDiff_eq",
    "Verif.Transport.Multi.Data.conductivity_eq",
    "Verif.Transport.Multi.Data.single_singular",
    "Verif.Transport.Multi.Data.aa_row",
    "Verif.Transport.Multi.Data.aa_total",
    "Verif.Transport.Multi.Data.stefan_maxwell",
    "Verif.Transport.Multi.Data.any_row",
    "Verif.Transport.Multi.Data.stefan_unique",
    "Verif.Transport.Multi.Data.flux_eq",
    "Verif.Transport.Multi.Data.flux_sum",
    "Verif.Transport.Multi.Data.absent_singular",
    "Verif.Transport.Multi.Data.jmax_max",
    "Verif.Transport.Multi.Data.jmaxMass_not_max",
    "Verif.Transport.Multi.Data.multiDiff_self",
    "Verif.Transport.Multi.Data.weighted_inv",
    "Verif.Transport.Multi.Data.multiDiff_sum",
    "Verif.Transport.Multi.Data.multiDiff_stefan",
    "Verif.Transport.Multi.Data.multiDiff_binary"
   ],
   "note": "Proved for positive mole fractions and at least two species, with the linear solvers as oracles that return an exact solution. Refuted: a phase with one species (singular matrix), and getMassFluxes with absent species at uniform temperature. That the L matrix of two or more species is nonsingular, and the positivity of the conductivity, are not proved."
  },
  {
   "property": "C71",
   "status": "partial",
   "theorems": [
    "Verif.Transport.Cache.Mix.conductivity_current",
    "Verif.Transport.Cache.Mix.binary_current",
    "Verif.Transport.Cache.Mix.mixDiff_current",
    "Verif.Transport.Cache.Mix.viscosity_current",
    "Verif.Transport.Cache.Mix.viscosity_changed",
    "Verif.Transport.Cache.Mix.viscosity_stale",
    "Verif.Transport.Cache.Multi.run_ok",
    "Verif.Transport.Cache.Multi.viscosity_current",
    "Verif.Transport.Cache.Multi.binary_current",
    "Verif.Transport.Cache.Multi.conductivity_changed",
    "Verif.Transport.Cache.Multi.multiDiff_changed",
    "Verif.Transport.Cache.Multi.safe_current",
    "Verif.Transport.Cache.Multi.safe_thermal",
    "Verif.Transport.Cache.Multi.fluxes_iso",
    "Verif.Transport.Cache.Multi.fluxes_thermal",
    "Verif.Transport.Cache.Multi.species_ub",
    "Verif.Transport.Cache.Multi.species_recover",
    "Verif.Transport.Cache.Multi.conductivity_mixed",
    "Verif.Transport.Cache.Multi.conductivity_stale",
    "Verif.Transport.Cache.Multi.multiDiff_mixed",
    "Verif.Transport.Cache.Multi.conductivity_after_fluxes",
    "Verif.Transport.Cache.Multi.binary_history",
    "Verif.Transport.Cache.Multi.fluxes_stale",
    "Verif.Transport.Cache.Multi.binary_species",
    "Verif.Transport.Cache.Multi.conductivity_species"
   ],
   "note": "Mixture-averaged: proved for all histories with fixed species, and with added species except for the viscosity at unchanged temperature (refuted). Multicomponent: proved for viscosity and binary coefficients of different species for all histories with fixed species, and for thermal properties in histories with thermal queries only or at a new temperature; refuted in general. getMassFluxes is not modelled."
  },
  {
   "property": "C72",
   "status": "proved",
   "theorems": [
    "Verif.Transport.Dusty.updateMulti_spec",
    "Verif.Transport.Dusty.step_inv",
    "Verif.Transport.Dusty.reach",
    "Verif.Transport.Dusty.set_med",
    "Verif.Transport.Dusty.query_med",
    "Verif.Transport.Dusty.matrix_current",
    "Verif.Transport.Dusty.knudsen_pos",
    "Verif.Transport.Dusty.knudsen_ratio",
    "Verif.Transport.Dusty.col_sum",
    "Verif.Transport.Dusty.nonsingular",
    "Verif.Transport.Dusty.inverse_exists",
    "Verif.Transport.Dusty.dusty_gas",
    "Verif.Transport.Dusty.graham",
    "Verif.Transport.Dusty.single",
    "Verif.Transport.Dusty.fluxes_swap",
    "Verif.Transport.Dusty.fluxes_uniform",
    "Verif.Transport.Dusty.fluxes_state",
    "Verif.Transport.Dusty.permeability_given",
    "Verif.Transport.Dusty.permeability_default",
    "Verif.Transport.Dusty.multiDiff_current"
   ],
   "note": "The inverse is an oracle assumed to be a right inverse; existence is proved. Binary diffusion coefficients and viscosity of the gas are arbitrary functions of the state. getMolarFluxes leaves the phase at the mean state (`fluxes_state`)."
  },
  {
   "property": "C73",
   "status": "partial",
   "theorems": [
    "Verif.Thermo.CovSurf.interp_between",
    "Verif.Thermo.CovSurf.interp_node",
    "Verif.Thermo.CovSurf.interp_isSome_iff",
    "Verif.Thermo.CovSurf.table_node",
    "Verif.Thermo.CovSurf.table_length",
    "Verif.Thermo.CovSurf.endpoints_not_checked",
    "Verif.Thermo.CovSurf.piecewise_value",
    "Verif.Thermo.CovSurf.piecewise_params",
    "Verif.Thermo.CovSurf.piecewise_params_ub",
    "Verif.Thermo.CovSurf.linear_value",
    "Verif.Thermo.CovSurf.polynomial_value",
    "Verif.Thermo.CovSurf.polynomial_short",
    "Verif.Thermo.CovSurf.updateCov_spec",
    "Verif.Thermo.CovSurf.update_outside",
    "Verif.Thermo.CovSurf.current",
    "Verif.Thermo.CovSurf.current_no_heat",
    "Verif.Thermo.CovSurf.current_new_composition",
    "Verif.Thermo.CovSurf.chemPot_eq",
    "Verif.Thermo.CovSurf.gibbsRT_eq",
    "Verif.Thermo.CovSurf.pureGibbs_eq",
    "Verif.Thermo.CovSurf.cpR_eq",
    "Verif.Thermo.CovSurf.enthalpyRT_eq",
    "Verif.Thermo.CovSurf.chemPot_std",
    "Verif.Thermo.CovSurf.pmEntropy_std",
    "Verif.Thermo.CovSurf.coverages_eq",
    "Verif.Thermo.CovSurf.activity_single",
    "Verif.Thermo.CovSurf.activity_coverage",
    "Verif.Thermo.CovSurf.gibbs_mole",
    "Verif.Thermo.CovSurf.specH_deriv",
    "Verif.Thermo.CovSurf.specS_deriv",
    "Verif.Thermo.CovSurf.spec_298",
    "Verif.Thermo.CovSurf.temperature_derivatives",
    "Verif.Thermo.CovSurf.stale_chemPot",
    "Verif.Thermo.CovSurf.stale_added",
    "Verif.Thermo.CovSurf.full_coverage",
    "Verif.Thermo.CovSurf.invalidate_stale",
    "Verif.Thermo.CovSurf.demo_chemPot",
    "Verif.Thermo.CovSurf.gibbs_duhem_fails"
   ],
   "note": "Proved for all histories without queries of reference state properties, added dependencies and invalidation, and after any change of composition. Refuted: reference state queries after a change of temperature (stale_chemPot), dependencies added later (stale_added), coverage one (full_coverage), read-back of piecewise-linear dependencies given for one property only (piecewise_params_ub), short polynomials (polynomial_short), Gibbs-Duhem relation (gibbs_duhem_fails)."
  },
  {
   "property": "C74",
   "status": "partial",
   "theorems": [
    "Verif.Units.Parse.findUnit_iff",
    "Verif.Units.Parse.known_values",
    "Verif.Units.Parse.prefix_values",
    "Verif.Units.Parse.groupUnit_iff",
    "Verif.Units.Parse.parse_iff",
    "Verif.Units.Parse.text_form",
    "Verif.Units.Parse.parse_order",
    "Verif.Units.Parse.parseUnity_iff",
    "Verif.Units.Parse.bare_prefix",
    "Verif.Units.Parse.km_per_h",
    "Verif.Units.Parse.exponent_misread",
    "Verif.Units.Parse.exponent_rejected",
    "Verif.Units.Parse.unreachable_entries",
    "Verif.Units.Parse.roundtrip_unity",
    "Verif.Units.Parse.roundtrip_factor",
    "Verif.Units.Parse.roundtrip_exponent_throws",
    "Verif.Units.Parse.pascal_not_roundtrip",
    "Verif.Units.Parse.micro_not_roundtrip"
   ],
   "note": "Meaning of every string proved (parse_iff, text_form). Writing and reading again returns the factor and the dimensions if the factor is one or written without exponent. Refuted: bare prefixes are accepted as numbers (bare_prefix, km_per_h), the exponent of a leading number is not read (exponent_misread, exponent_rejected), the pseudo-dimensions and factors with exponents are not read back (pascal_not_roundtrip, micro_not_roundtrip). Number formatting is assumed to be readable."
  },
  {
   "property": "C75",
   "status": "partial",
   "theorems": [
    "Verif.Dense.resizeList_length",
    "Verif.Dense.idx_inj",
    "Verif.Dense.get_val",
    "Verif.Dense.mk_spec",
    "Verif.Dense.set_spec",
    "Verif.Dense.no_bounds_check",
    "Verif.Dense.putAll_spec",
    "Verif.Dense.putAll_some",
    "Verif.Dense.putAll_none_iff",
    "Verif.Dense.setRow_spec",
    "Verif.Dense.setColumn_spec",
    "Verif.Dense.getRow_spec",
    "Verif.Dense.getRow_setRow",
    "Verif.Dense.resize_wf",
    "Verif.Dense.resize_same_rows",
    "Verif.Dense.resize_moves",
    "Verif.Dense.appendColumn_ub_iff",
    "Verif.Dense.appendColumn_wrong",
    "Verif.Dense.copy_flags",
    "Verif.Dense.assign_empty",
    "Verif.Dense.copy_wf",
    "Verif.Dense.assign_wf",
    "Verif.Dense.leftMult_eq",
    "Verif.Dense.left_right",
    "Verif.Dense.mulVec_eq",
    "Verif.Dense.scale_spec",
    "Verif.Dense.multCol_spec",
    "Verif.Dense.mult_spec",
    "Verif.Dense.append_then_mult",
    "Verif.Dense.column_loop",
    "Verif.Dense.solve_solves",
    "Verif.Dense.solve_nonsquare",
    "Verif.Dense.solve_singular",
    "Verif.Dense.solve_overwrites",
    "Verif.Dense.exLib_ok"
   ],
   "note": "Storage, rows, columns, products and solution proved for all dimensions. Refuted: appendColumn writes outside the new column (appendColumn_ub_iff, appendColumn_wrong), resize to another number of rows moves elements (resize_moves), assignment of a matrix without rows is undefined (assign_empty), singular matrices are not always reported (solve_singular), no bounds checks (no_bounds_check). The LAPACK and Eigen factorizations are oracles with a stated contract."
  },
  {
   "property": "C76",
   "status": "partial",
   "theorems": [
    "Verif.RPath.copies_spec",
    "Verif.RPath.net_nat",
    "Verif.RPath.reac_nat",
    "Verif.RPath.prods_nat",
    "Verif.RPath.reac_prods_disjoint",
    "Verif.RPath.count_reac",
    "Verif.RPath.group_valid",
    "Verif.RPath.group_sign",
    "Verif.RPath.group_invalid_stays",
    "Verif.RPath.determinate_iff",
    "Verif.RPath.amount_single",
    "Verif.RPath.conserves_single",
    "Verif.RPath.two_contains",
    "Verif.RPath.two_contained",
    "Verif.RPath.two_swapped",
    "Verif.RPath.two_swapped'",
    "Verif.RPath.two_ignored",
    "Verif.RPath.conserves_two",
    "Verif.RPath.build_spec",
    "Verif.RPath.build_conserves",
    "Verif.RPath.build_net_flow",
    "Verif.RPath.good_flow",
    "Verif.RPath.swapped_lost",
    "Verif.RPath.build_twice",
    "Verif.RPath.build_unknown",
    "Verif.RPath.build_unknown_species",
    "Verif.RPath.build_paths",
    "Verif.RPath.node_flows_zero",
    "Verif.RPath.init_twice",
    "Verif.RPath.fractional",
    "Verif.RPath.not_two_ignored",
    "Verif.RPath.excluded_no_flow",
    "Verif.RPath.included_no_effect",
    "Verif.RPath.number_of_reverse",
    "Verif.RPath.hasNode_breaks",
    "Verif.RPath.link_missing",
    "Verif.RPath.add_spec",
    "Verif.RPath.add_loses",
    "Verif.RPath.edges_iff",
    "Verif.RPath.ratio_le_one",
    "Verif.RPath.visible_nodes",
    "Verif.RPath.stale_visible",
    "Verif.RPath.lwidth_range",
    "Verif.RPath.oneWay_iff",
    "Verif.RPath.oneWay_zero_scale"
   ],
   "note": "Conservation proved for integer coefficients whenever one side has a single species with the element or the first reactant and first product can be compared (build_net_flow). Refuted: with the other order of the products atoms are lost (two_swapped, swapped_lost); fractional coefficients are rounded up (fractional); node flows are always zero (node_flows_zero); a second build doubles the flows (build_twice); add loses paths (add_loses); hasNode makes the diagram unusable (hasNode_breaks). Labels and text formatting are not modelled."
  },
  {
   "property": "C77",
   "status": "partial",
   "theorems": [
    "Verif.SetState.set_true",
    "Verif.SetState.set_neg",
    "Verif.SetState.set_fail",
    "Verif.SetState.newton_abs",
    "Verif.SetState.innerH_inr",
    "Verif.SetState.innerS_inr",
    "Verif.SetState.innerH_first",
    "Verif.SetState.finish_conv",
    "Verif.SetState.finish_more",
    "Verif.SetState.checkMax_spec",
    "Verif.SetState.checkMin_spec",
    "Verif.SetState.check_ign",
    "Verif.SetState.hpStep_cases",
    "Verif.SetState.spStep_cases",
    "Verif.SetState.hpStep_inv",
    "Verif.SetState.spStep_inv",
    "Verif.SetState.hp_result",
    "Verif.SetState.sp_result",
    "Verif.SetState.hpStep_ok",
    "Verif.SetState.limitH_range",
    "Verif.SetState.limitS_range",
    "Verif.SetState.limitS_cut",
    "Verif.SetState.limit_unstable",
    "Verif.SetState.hp_step_bracket",
    "Verif.SetState.start_outside",
    "Verif.SetState.hp_const_exact",
    "Verif.SetState.hp_const_heat",
    "Verif.SetState.hp_outside_limits",
    "Verif.SetState.hp_reported",
    "Verif.SetState.sp_reported",
    "Verif.SetState.hp_failure_keeps_last",
    "Verif.SetState.hp_false_convergence",
    "Verif.SetState.hp_cold_throws",
    "Verif.SetState.hp_cold_witness",
    "Verif.SetState.sp_cold_throws",
    "Verif.SetState.sp_cold_witness",
    "Verif.SetState.setTP_spec",
    "Verif.SetState.setTP_masks",
    "Verif.SetState.dispatch_TP",
    "Verif.SetState.dispatch_pairs",
    "Verif.SetState.dispatch_err",
    "Verif.SetState.dispatch_single",
    "Verif.SetState.dispatch_TU_ignored",
    "Verif.SetState.setState_composition_only",
    "Verif.SetState.setState_XY",
    "Verif.SetState.remap_props",
    "Verif.SetState.remap_U",
    "Verif.SetState.setState_synonyms",
    "Verif.SetState.setState_comp"
   ],
   "note": "Criterion on return, direction and limits of the steps, and invariants of the brackets proved for all phases; convergence proved for constant heat capacity only. Refuted: a small step is accepted far from the target (hp_false_convergence); the limits of the temperature do not limit the result (hp_outside_limits); cold states fail (hp_cold_witness, sp_cold_witness); a failure leaves the last temperature and reports volume zero (hp_failure_keeps_last); temperature with internal energy ignores the energy (dispatch_TU_ignored)."
  },
  {
   "property": "C78",
   "status": "proved",
   "theorems": [
    "Verif.IdealGas.meanX_eq",
    "Verif.IdealGas.sumXLogX_eq",
    "Verif.IdealGas.gas_law",
    "Verif.IdealGas.pressure_eq",
    "Verif.IdealGas.setPressure_spec",
    "Verif.IdealGas.setStateDP_spec",
    "Verif.IdealGas.sum_pmEnthalpy",
    "Verif.IdealGas.sum_pmEntropy",
    "Verif.IdealGas.sum_pmCp",
    "Verif.IdealGas.sum_pmVolume",
    "Verif.IdealGas.intEnergy_eq",
    "Verif.IdealGas.sum_pmIntEnergy",
    "Verif.IdealGas.chemPot_eq",
    "Verif.IdealGas.gibbs_eq",
    "Verif.IdealGas.chemPot_explicit",
    "Verif.IdealGas.activity_eq",
    "Verif.IdealGas.chemPot_activity",
    "Verif.IdealGas.standard_state",
    "Verif.IdealGas.stdVolumeRef_eq",
    "Verif.IdealGas.mayer",
    "Verif.IdealGas.tp_pressure",
    "Verif.IdealGas.deriv_enthalpy",
    "Verif.IdealGas.deriv_intEnergy",
    "Verif.IdealGas.deriv_entropy_T",
    "Verif.IdealGas.deriv_entropy_p",
    "Verif.IdealGas.deriv_entropy_v",
    "Verif.IdealGas.deriv_chemPot_T",
    "Verif.IdealGas.deriv_chemPot_p",
    "Verif.IdealGas.deriv_volume",
    "Verif.IdealGas.gibbs_duhem",
    "Verif.IdealGas.sound_speed",
    "Verif.IdealGas.setToEquilState_spec",
    "Verif.IdealGas.eqPressure_range"
   ],
   "note": "Real arithmetic. The identities which contain logarithms of mole fractions need every mole fraction to be zero or at least SmallNumber (1e-300), also after division by the mean molecular weight; setToEquilState is proved for potentials between -600 and 300 above the reference, and its replacement outside is stated (eqPressure_range)."
  },
  {
   "property": "C79",
   "status": "partial",
   "theorems": [
    "Verif.IdealSoln.Solid.setPressure_spec",
    "Verif.IdealSoln.Solid.setX_spec",
    "Verif.IdealSoln.Solid.volume_eq",
    "Verif.IdealSoln.Solid.enthalpy_eq",
    "Verif.IdealSoln.Solid.enthalpy_explicit",
    "Verif.IdealSoln.Solid.intEnergy_explicit",
    "Verif.IdealSoln.Solid.entropy_eq",
    "Verif.IdealSoln.Solid.entropy_explicit",
    "Verif.IdealSoln.Solid.cp_eq",
    "Verif.IdealSoln.Solid.chemPot_eq",
    "Verif.IdealSoln.Solid.gibbs_eq",
    "Verif.IdealSoln.Solid.gibbs_hs",
    "Verif.IdealSoln.Solid.activity_eq",
    "Verif.IdealSoln.Solid.standard_state",
    "Verif.IdealSoln.Solid.pureGibbs_explicit",
    "Verif.IdealSoln.Solid.deriv_enthalpy",
    "Verif.IdealSoln.Solid.deriv_entropy",
    "Verif.IdealSoln.Solid.deriv_chemPot",
    "Verif.IdealSoln.Solid.gibbs_duhem",
    "Verif.IdealSoln.Solid.setToEquilState_spec",
    "Verif.IdealSoln.Solid.setToEquilState_exact",
    "Verif.IdealSoln.Solid.eqPressure_range",
    "Verif.IdealSoln.Lattice.setPressure_spec",
    "Verif.IdealSoln.Lattice.setX_spec",
    "Verif.IdealSoln.Lattice.volume_eq",
    "Verif.IdealSoln.Lattice.enthalpy_explicit",
    "Verif.IdealSoln.Lattice.entropy_eq",
    "Verif.IdealSoln.Lattice.entropy_explicit",
    "Verif.IdealSoln.Lattice.cp_eq",
    "Verif.IdealSoln.Lattice.gibbs_diff",
    "Verif.IdealSoln.Lattice.gibbs_eq_partial",
    "Verif.IdealSoln.Lattice.enthalpy_diff",
    "Verif.IdealSoln.Lattice.chemPot_diff",
    "Verif.IdealSoln.Lattice.stdChemPot_diff",
    "Verif.IdealSoln.Lattice.standard_state",
    "Verif.IdealSoln.Lattice.setSiteDensity_spec",
    "Verif.IdealSoln.Lattice.setSiteDensity_stale",
    "Verif.IdealSoln.lattice_witness",
    "Verif.IdealSoln.setToEquilState_witness"
   ],
   "note": "IdealSolidSolnPhase: all identities proved; setToEquilState gives the potentials only when they belong to the reference pressure (setToEquilState_spec gives what it does otherwise). LatticePhase: refuted off the reference pressure for the partial molar enthalpies and standard chemical potentials, and for g and v when species have their own molar volumes; the differences are given exactly (gibbs_diff, enthalpy_diff, chemPot_diff, stdChemPot_diff)."
  },
  {
   "property": "C80",
   "status": "partial",
   "theorems": [
    "Verif.LatticeSolid.lookup_wrong",
    "Verif.LatticeSolid.minTemp_eq",
    "Verif.LatticeSolid.minTemp_witness",
    "Verif.LatticeSolid.modifyHf_nothing",
    "Verif.LatticeSolid.species_exists",
    "Verif.LatticeSolid.setX_spec",
    "Verif.LatticeSolid.setX_sum",
    "Verif.LatticeSolid.ph_lat",
    "Verif.LatticeSolid.get_set",
    "Verif.LatticeSolid.updateThermo_id",
    "Verif.LatticeSolid.restore_stale",
    "Verif.LatticeSolid.molar_partial",
    "Verif.LatticeSolid.molar_gibbs",
    "Verif.LatticeSolid.meanX_eq",
    "Verif.LatticeSolid.molar_meanX_partial",
    "Verif.LatticeSolid.molar_meanX_refuted",
    "Verif.LatticeSolid.density_eq",
    "Verif.LatticeSolid.constraint_eq",
    "Verif.LatticeSolid.constraint_refuted"
   ],
   "note": "Reading back the mole fractions and g = h - T s proved. Refuted: the search finds no species (lookup_wrong), so modifyOneHf298SS never does anything (modifyHf_nothing); restored states keep the old lattices (restore_stale); molar values are averages of partial molar ones only if every coefficient is one over the number of lattices (molar_meanX_refuted); the constraint has the coefficients exchanged (constraint_refuted)."
  },
  {
   "property": "C81",
   "status": "partial",
   "theorems": [
    "Verif.BinaryTab.lowerBound_eq",
    "Verif.BinaryTab.interpolate_first",
    "Verif.BinaryTab.interpolate_between",
    "Verif.BinaryTab.interpolate_point",
    "Verif.BinaryTab.interpolate_outside",
    "Verif.BinaryTab.bracket",
    "Verif.BinaryTab.interpolate_ok_iff",
    "Verif.BinaryTab.interpolate_range",
    "Verif.BinaryTab.linear_exact",
    "Verif.BinaryTab.diff_eq",
    "Verif.BinaryTab.volume_sum",
    "Verif.BinaryTab.default_volumes",
    "Verif.BinaryTab.calcDensity_first",
    "Verif.BinaryTab.volume_outside",
    "Verif.BinaryTab.reaction_gibbs",
    "Verif.BinaryTab.reaction_exact_partial",
    "Verif.BinaryTab.reaction_refuted",
    "Verif.BinaryTab.entropyTab_ends"
   ],
   "note": "Proved except at the first point of the table, where the data before the array are read (interpolate_first, calcDensity_first), and for standard concentrations which differ (reaction_refuted). The sorting of the table is not modelled."
  },
  {
   "property": "C82",
   "status": "partial",
   "theorems": [
    "Verif.Molal.molality_formula",
    "Verif.Molal.molality_solvent",
    "Verif.Molal.setMolalities_formula",
    "Verif.Molal.molality_setMolalities",
    "Verif.Molal.molality_setMolalities_bound",
    "Verif.Molal.neutralize_spec",
    "Verif.Molal.neutralize_none",
    "Verif.Molal.setByName_spec",
    "Verif.Molal.setByName_molality",
    "Verif.Molal.setByName_changes",
    "Verif.Molal.byName_zero",
    "Verif.Molal.activity_coeff",
    "Verif.Molal.activity_ideal",
    "Verif.Molal.activity_above",
    "Verif.Molal.chemPot_activity",
    "Verif.Molal.chemPot_coeff",
    "Verif.Molal.entropy_defect",
    "Verif.Molal.entropy_wrong",
    "Verif.Molal.osmotic_ideal",
    "Verif.Molal.osmotic_formula",
    "Verif.Molal.polyF_deriv",
    "Verif.Molal.polyG_deriv",
    "Verif.Molal.expF_deriv",
    "Verif.Molal.poly_pos",
    "Verif.Molal.lnGam_duhem",
    "Verif.Molal.lnAct_duhem",
    "Verif.Molal.gibbs_duhem",
    "Verif.Molal.poly_continuous",
    "Verif.Molal.coef_spec",
    "Verif.Molal.calcCut_spec",
    "Verif.Molal.exp_continuous",
    "Verif.Molal.coefE_sub",
    "Verif.Molal.factor_gt",
    "Verif.Molal.loop_fails",
    "Verif.Molal.loop_converges",
    "Verif.Molal.loop_default",
    "Verif.Molal.calcCut_fails"
   ],
   "note": "Proved except: the partial molar entropies lack the gas constant (entropy_defect gives the difference, entropy_wrong a witness); by name an ion can get another molality than asked for (setByName_changes) and zero cannot be asked for (byName_zero); the exponential cutoff cannot be set up when the cutoff is below twice the width (loop_fails). Standard states are given numbers. Gibbs-Duhem is proved inside the regions, not at the points where they meet."
  },
  {
   "property": "C83",
   "status": "partial",
   "theorems": [
    "Verif.Pdss.ConstVol.fresh_setTemperature",
    "Verif.Pdss.ConstVol.fresh_setPressure",
    "Verif.Pdss.ConstVol.fresh_setTP",
    "Verif.Pdss.ConstVol.values",
    "Verif.Pdss.ConstVol.deriv_gibbs",
    "Verif.Pdss.ConstVol.intEnergy_defect",
    "Verif.Pdss.ConstVol.cv_defect",
    "Verif.Pdss.ConstVol.refuted",
    "Verif.Pdss.SSVol.vol_deriv",
    "Verif.Pdss.SSVol.vol_formula",
    "Verif.Pdss.SSVol.terms_far",
    "Verif.Pdss.SSVol.terms_near",
    "Verif.Pdss.SSVol.set_eq",
    "Verif.Pdss.SSVol.setTemperature_eq",
    "Verif.Pdss.SSVol.setPressure_eq",
    "Verif.Pdss.SSVol.values",
    "Verif.Pdss.SSVol.values_ref",
    "Verif.Pdss.SSVol.deriv_gibbs",
    "Verif.Pdss.SSVol.cp_defect",
    "Verif.Pdss.SSVol.intEnergy_defect",
    "Verif.Pdss.SSVol.refuted",
    "Verif.Pdss.Water.gibbs_eq",
    "Verif.Pdss.Water.gibbsRef_defect",
    "Verif.Pdss.Water.ref_values",
    "Verif.Pdss.Water.gibbsRef_refuted",
    "Verif.Pdss.VP.update_spec",
    "Verif.Pdss.VP.setTP_spec",
    "Verif.Pdss.VP.get_spec",
    "Verif.Pdss.VP.volumeRef_defect",
    "Verif.Pdss.VP.volumeRef_refuted",
    "Verif.Pdss.VP.invalidate_spec",
    "Verif.Pdss.VP.invalidate_ref_partial",
    "Verif.Pdss.VP.invalidate_ref_stale"
   ],
   "note": "Proved except where the code is wrong, with the exact difference and a witness: internal energy and cv of both models, cp of the volume polynomial, the reference Gibbs energy of water, the reference volumes of a phase, reference values after invalidation at a temperature 0.1234 K higher. The derivatives for the polynomial are proved away from the reference pressure (1e-10 Pa). Reference thermodynamics and the water equation are given functions."
  },
  {
   "property": "C84",
   "status": "partial",
   "theorems": [
    "Verif.Hkft.omega_g_zero",
    "Verif.Hkft.omega_T",
    "Verif.Hkft.omega_P",
    "Verif.Hkft.omega_TT",
    "Verif.Hkft.gibbs_P",
    "Verif.Hkft.gibbs_T",
    "Verif.Hkft.entropy_T",
    "Verif.Hkft.enthalpy_T",
    "Verif.Hkft.reference",
    "Verif.Hkft.gibbs_T_refuted",
    "Verif.Hkft.intEnergy_defect",
    "Verif.Hkft.intEnergy_refuted",
    "Verif.Hkft.init_two",
    "Verif.Hkft.init_three",
    "Verif.Hkft.init_two_missing",
    "Verif.Hkft.ag_deriv",
    "Verif.Hkft.bg_deriv",
    "Verif.Hkft.ag_neg",
    "Verif.Hkft.gval_T",
    "Verif.Hkft.dgdt_T",
    "Verif.Hkft.gval_p",
    "Verif.Hkft.f_zero",
    "Verif.Hkft.gstar_spec_partial",
    "Verif.Hkft.gstar_formula",
    "Verif.Hkft.f_formula",
    "Verif.Hkft.f_T_defect",
    "Verif.Hkft.f_T_refuted",
    "Verif.Hkft.f_jump",
    "Verif.Hkft.f_hot",
    "Verif.Hkft.f_hot_refuted",
    "Verif.Hkft.concrete_partial",
    "Verif.Hkft.WP.relEpsilon_T",
    "Verif.Hkft.WP.relEpsilon_TT",
    "Verif.Hkft.WP.relEpsilon_P",
    "Verif.Hkft.WP.relEpsilon_formula",
    "Verif.Hkft.WP.A0_T",
    "Verif.Hkft.WP.A0_P",
    "Verif.Hkft.WP.A1_T",
    "Verif.Hkft.WP.pres_spec",
    "Verif.Hkft.WP.ADebye_spec",
    "Verif.Hkft.WP.ADebye_below",
    "Verif.Hkft.WP.ADebye_TT_refuted",
    "Verif.Hkft.WP.rhoAt_deriv",
    "Verif.Hkft.WP.densityT_first",
    "Verif.Hkft.WP.densityT_stuck",
    "Verif.Hkft.WP.densityT_refuted"
   ],
   "note": "dG/dp = V and dH/dT = cp are proved. dG/dT and T dS/dT hold up to a constant term of the entropy (gibbs_T, entropy_T, witness gibbs_T_refuted); the function f and its derivatives disagree (f_T_defect, f_jump, f_hot_refuted), so the derivatives of gstar are proved below 155 C or above 1000 bar (gstar_spec_partial, concrete_partial); the second derivative of ADebye is wrong (A1_T gives the difference, ADebye_TT_refuted); density_T keeps the temperature of the first call (densityT_stuck). The IAPWS equation of water is a given function; unit conversion is a factor."
  },
  {
   "property": "C85",
   "status": "partial",
   "theorems": [
    "Verif.Stoich.update_spec",
    "Verif.Stoich.at_ok",
    "Verif.Stoich.values",
    "Verif.Stoich.identities",
    "Verif.Stoich.derivs",
    "Verif.Stoich.cvGen_spec",
    "Verif.Stoich.invalidate_spec_partial",
    "Verif.Stoich.invalidate_stale",
    "Verif.Stoich.loop_spec",
    "Verif.Stoich.loop_error",
    "Verif.Stoich.setHP_spec",
    "Verif.Stoich.loop_const",
    "Verif.Stoich.loop_far",
    "Verif.Stoich.constSub_consistent",
    "Verif.Stoich.setHP_const",
    "Verif.Stoich.setSP_refuted",
    "Verif.Stoich.densityOfV_spec"
   ],
   "note": "Proved except: after thermodynamic data were changed, stale values are used at a temperature 0.1234 K above the last one (invalidate_stale); setState_SP throws for states that exist (setSP_refuted). No theorem says that setState_HP converges for a heat capacity that is not constant."
  },
  {
   "property": "C86",
   "status": "partial",
   "theorems": [
    "Verif.Burke.eval_formula",
    "Verif.Burke.eval_bounds",
    "Verif.Burke.eval_common",
    "Verif.Burke.eval_pure_own",
    "Verif.Burke.eval_pure_eff",
    "Verif.Burke.eval_none_present",
    "Verif.Burke.eval_perm",
    "Verif.Burke.eval_throw",
    "Verif.Burke.unknown_ub",
    "Verif.Burke.zero_efficiency",
    "Verif.Burke.listed_twice",
    "Verif.Burke.set_eig",
    "Verif.Burke.set_eff",
    "Verif.Burke.eig_eff_same",
    "Verif.Burke.set_refused",
    "Verif.Burke.add_refused",
    "Verif.Burke.set_empty",
    "Verif.Burke.set_again",
    "Verif.Burke.roundtrip",
    "Verif.Burke.items_good",
    "Verif.Burke.update_spec",
    "Verif.Burke.update_composition",
    "Verif.Burke.update_not_resized",
    "Verif.Burke.perturb_spec"
   ],
   "note": "Proved for colliders that exist, are listed once and have efficiencies that are not zero; the code accepts the other inputs and then reads out of range, divides by zero or gives a wrong rate (unknown_ub, zero_efficiency, listed_twice, set_empty). The Troe, PLOG and Chebyshev rates are given functions."
  },
  {
   "property": "C87",
   "status": "partial",
   "theorems": [
    "Verif.DH.gd_dilute",
    "Verif.DH.gd_common",
    "Verif.DH.gd_betaij",
    "Verif.DH.gd_pitzer",
    "Verif.DH.gd_zero_radius",
    "Verif.DH.gd_ak",
    "Verif.DH.gd_ak_ray",
    "Verif.DH.gd_ak_refuted",
    "Verif.DH.ionic_spec",
    "Verif.DH.ionicStoich_spec",
    "Verif.DH.solute_formula",
    "Verif.DH.helgeson_formula",
    "Verif.DH.helgeson_limit",
    "Verif.DH.helgeson_neutral",
    "Verif.DH.infinite_dilution",
    "Verif.DH.solvent_clamped",
    "Verif.DH.zero_radius_ak",
    "Verif.DH.zero_radius_pitzer",
    "Verif.DH.zero_solvent_radius",
    "Verif.DH.gamma_ok",
    "Verif.DH.affine",
    "Verif.DH.coeff_deriv",
    "Verif.DH.coeff_second",
    "Verif.DH.dilute_defect",
    "Verif.DH.dilute_refuted",
    "Verif.DH.helgeson_deriv_refuted",
    "Verif.DH.mu_activity",
    "Verif.DH.activity_solvent",
    "Verif.DH.activity_solute",
    "Verif.DH.mu_absent",
    "Verif.DH.mu_gd",
    "Verif.DH.mu_hs",
    "Verif.DH.mu_T",
    "Verif.DH.mu_p",
    "Verif.DH.h_T",
    "Verif.DH.cp_flat",
    "Verif.DH.setBeta_ok",
    "Verif.DH.setBeta_symm",
    "Verif.DH.setBeta_unknown",
    "Verif.DH.setBeta_no_table",
    "Verif.DH.setModel_first",
    "Verif.DH.setModel_again",
    "Verif.DH.setModel_scrambled",
    "Verif.DH.setBdot_ok",
    "Verif.DH.setBdot_refused"
   ],
   "note": "Gibbs-Duhem holds for the dilute form and for a common radius up to the terms named in the theorems (B-dot with different charges, interaction with the solvent) and fails for ions of different size except along a ray of constant composition (gd_ak_ray, gd_ak_refuted). The derivatives are proved except for the solvent of the dilute form and for the Helgeson form (dilute_defect, dilute_refuted, helgeson_deriv_refuted). Radii that were never given (NaN) and the water equation are not modelled."
  },
  {
   "property": "C88",
   "status": "partial",
   "theorems": [
    "Verif.Precon.entry_spec",
    "Verif.Precon.setValue_adds",
    "Verif.Precon.init_spec",
    "Verif.Precon.init_drop",
    "Verif.Precon.init_fill",
    "Verif.Precon.fill_mismatch",
    "Verif.Precon.setFill_spec",
    "Verif.Precon.update_direct",
    "Verif.Precon.update_adaptive",
    "Verif.Precon.update_unpruned",
    "Verif.Precon.setThreshold_spec",
    "Verif.Precon.update_out_of_range",
    "Verif.Precon.transient_spec",
    "Verif.Precon.update_history",
    "Verif.Precon.newGamma_spec",
    "Verif.Precon.solve_direct",
    "Verif.Precon.update_failed",
    "Verif.Precon.getMatrix_changes",
    "Verif.Precon.reset_spec",
    "Verif.Precon.reset_stale",
    "Verif.Precon.adjust_spec",
    "Verif.Precon.place_range",
    "Verif.Precon.place_inside",
    "Verif.Precon.place_outside",
    "Verif.Precon.setup_spec",
    "Verif.Precon.setPrecon_ok",
    "Verif.Precon.setPrecon_bad",
    "Verif.Precon.netInit_none",
    "Verif.Precon.netInit_some",
    "Verif.Precon.applyOptions_spec",
    "Verif.Precon.applyOptions_band",
    "Verif.Precon.getMatrix_fail"
   ],
   "note": "Proved except: the default fill factor is never passed to the solver (fill_mismatch), reading the matrix changes it (getMatrix_changes), a refused side leaves the new object stored (setPrecon_bad), the BAND solver accepts a preconditioner and ignores it (applyOptions_band), solve after a reset uses the old factorization (reset_stale). The factorizations of Eigen are given functions."
  },
  {
   "property": "C89",
   "status": "partial",
   "theorems": [
    "Verif.MPE.pick_spec",
    "Verif.MPE.getComponents_ok",
    "Verif.MPE.no_species",
    "Verif.MPE.scatter_at",
    "Verif.MPE.sum_order",
    "Verif.MPE.order_spec",
    "Verif.MPE.formation",
    "Verif.MPE.conserve",
    "Verif.MPE.complete",
    "Verif.MPE.components_independent",
    "Verif.MPE.frozen",
    "Verif.MPE.incomplete",
    "Verif.MPE.tiny_refuted",
    "Verif.MPE.stoichVector_spec",
    "Verif.MPE.step_spec",
    "Verif.MPE.step_negative",
    "Verif.MPE.change_spec",
    "Verif.MPE.change_conserves",
    "Verif.MPE.step_defect",
    "Verif.MPE.step_conserves",
    "Verif.MPE.step_refuted",
    "Verif.MPE.omegaMax_le_one",
    "Verif.MPE.omegaMax_nonneg",
    "Verif.MPE.limit_spec",
    "Verif.MPE.step_nonneg",
    "Verif.MPE.extent_pure",
    "Verif.MPE.extent_spec",
    "Verif.MPE.damping_pure",
    "Verif.MPE.damping_nonneg",
    "Verif.MPE.descent",
    "Verif.MPE.stepComposition_nonneg",
    "Verif.MPE.solver_step_nonneg",
    "Verif.MPE.stepComposition_spec",
    "Verif.MPE.error_lt",
    "Verif.MPE.error_nonneg",
    "Verif.MPE.trace_counts",
    "Verif.MPE.loop_ok",
    "Verif.MPE.loop_first",
    "Verif.MPE.loop_never",
    "Verif.MPE.no_reactions",
    "Verif.MPE.finish_spec",
    "Verif.MPE.initOne_spec",
    "Verif.MPE.initOne_conserves",
    "Verif.MPE.initOne_nonneg",
    "Verif.MPE.initAll_spec",
    "Verif.MPE.init_unbounded",
    "Verif.MPE.firstWith_spec",
    "Verif.MPE.recomputes_spec",
    "Verif.MPE.element_included",
    "Verif.MPE.species_included",
    "Verif.MPE.eloc_spec",
    "Verif.MPE.writeMix_spec"
   ],
   "note": "Conservation is proved for the reactions, the initial estimate and steps without minor species; with a minor species it fails (step_defect, step_refuted). Completeness holds when the elements are independent; otherwise reactions are missing and the solver reports success without moving (incomplete, frozen, no_reactions). Rows treated as zero must be zero (tiny_refuted shows why). Sorting by amount and the chemical potentials are given; the energies used in the test of convergence are those before the last step."
  },
  {
   "property": "C90",
   "status": "partial",
   "theorems": [
    "Verif.Iapws.powTab_eq",
    "Verif.Iapws.water_good",
    "Verif.Iapws.phi0_hasDeriv_delta",
    "Verif.Iapws.phi0_d_hasDeriv_delta",
    "Verif.Iapws.phi0_hasDeriv_tau",
    "Verif.Iapws.phi0_t_hasDeriv_tau",
    "Verif.Iapws.phiR_d_some_iff",
    "Verif.Iapws.phiR_t_some_iff",
    "Verif.Iapws.phiR_dt_some_iff",
    "Verif.Iapws.phiR_dd_some_iff",
    "Verif.Iapws.phiR_hasDeriv_delta",
    "Verif.Iapws.phiR_hasDeriv_tau",
    "Verif.Iapws.phiR_d_hasDeriv_delta",
    "Verif.Iapws.phiR_t_hasDeriv_tau",
    "Verif.Iapws.phiR_d_hasDeriv_tau",
    "Verif.Iapws.critical_density",
    "Verif.Iapws.phiR_formula",
    "Verif.Iapws.phi0_formula",
    "Verif.Iapws.water_tables",
    "Verif.Iapws.published_exponents",
    "Verif.Iapws.published_coefficients",
    "Verif.Iapws.dfindPass_spec",
    "Verif.Iapws.dfindLoop_spec",
    "Verif.Iapws.dfind_spec",
    "Verif.Iapws.dfind_critical",
    "Verif.Iapws.dfind_solution",
    "Verif.Iapws.dfind_moves"
   ],
   "note": "The linear coefficients ni, ni0 and gammi0 are arbitrary. The second density derivative is 0/0 on the critical isochore although the derivative exists (critical_density), so the density solver started there always fails (dfind_critical). Convergence of the solver is not proved."
  },
  {
   "property": "C91",
   "status": "partial",
   "theorems": [
    "Verif.Iapws.constants",
    "Verif.Iapws.setTD_roundtrip",
    "Verif.Iapws.setTD_phase",
    "Verif.Iapws.pressure_formula",
    "Verif.Iapws.dpdrho_is_derivative",
    "Verif.Iapws.dpdT_is_derivative",
    "Verif.Iapws.expansion_formulas",
    "Verif.Iapws.enthalpy_eq",
    "Verif.Iapws.gibbs_eq",
    "Verif.Iapws.helmholtz_eq",
    "Verif.Iapws.helmholtz_drho",
    "Verif.Iapws.helmholtz_dT",
    "Verif.Iapws.cv_is_derivative",
    "Verif.Iapws.cp_formula",
    "Verif.Iapws.defined",
    "Verif.Iapws.critical_isochore",
    "Verif.Iapws.guess_table",
    "Verif.Iapws.density_critical",
    "Verif.Iapws.density_throws_iff",
    "Verif.Iapws.density_spec",
    "Verif.Iapws.density_retry",
    "Verif.Iapws.densityConst_spec",
    "Verif.Iapws.densityConst_value",
    "Verif.Iapws.psat_super",
    "Verif.Iapws.corr_spec",
    "Verif.Iapws.psat_one_step",
    "Verif.Iapws.psat_not_converged",
    "Verif.Iapws.psatLoop_spec",
    "Verif.Iapws.psat_no_convergence_error",
    "Verif.Iapws.psatLoop_continues",
    "Verif.Iapws.psatLoop_stops",
    "Verif.Iapws.psat_bad_state",
    "Verif.Iapws.phase_at_Tc",
    "Verif.Iapws.phase_stable",
    "Verif.Iapws.rhoMid_ends",
    "Verif.Iapws.unstable_flag",
    "Verif.Iapws.unstable_flag_reversed",
    "Verif.Iapws.phase_critical_density",
    "Verif.Iapws.spinLoop_conv",
    "Verif.Iapws.spinodal_spec",
    "Verif.Iapws.spinodal_near_critical",
    "Verif.Iapws.estimate_spec",
    "Verif.Iapws.estimate_secant",
    "Verif.Iapws.estimate_bisect",
    "Verif.Iapws.slope_spec",
    "Verif.Iapws.bracketW",
    "Verif.Iapws.bracketS",
    "Verif.Iapws.spinodal_failure"
   ],
   "note": "Several properties are NaN on the critical isochore (critical_isochore); psat stops after one correction when the liquid has the smaller Gibbs energy and never reports failure (psat_not_converged, psat_no_convergence_error); the unstable phase flags are the reverse of the documentation (unstable_flag_reversed); failed spinodal searches change the state (spinodal_failure). psat_est and the saturated densities used to start the spinodal search are given."
  },
  {
   "property": "C92",
   "status": "partial",
   "theorems": [
    "Verif.Plasma.isoC1_pos",
    "Verif.Plasma.isoC2_pos",
    "Verif.Plasma.isoF_pos_anti",
    "Verif.Plasma.form_moment",
    "Verif.Plasma.maxwell",
    "Verif.Plasma.published_constants",
    "Verif.Plasma.druyvesteyn_refuted",
    "Verif.Plasma.quad_scale",
    "Verif.Plasma.checkLevels_ok",
    "Verif.Plasma.checkLevels_iff",
    "Verif.Plasma.setLevels_ok",
    "Verif.Plasma.setLevels_refused",
    "Verif.Plasma.checkDist_ok",
    "Verif.Plasma.updateDiff_ok",
    "Verif.Plasma.updateTe_ok",
    "Verif.Plasma.meanEnergy_of_Te",
    "Verif.Plasma.normalize_ok",
    "Verif.Plasma.setDiscretized_ok",
    "Verif.Plasma.setTe_discretized",
    "Verif.Plasma.setters_discretized",
    "Verif.Plasma.setTe_isotropic",
    "Verif.Plasma.setMean_roundtrip",
    "Verif.Plasma.zero_distribution",
    "Verif.Plasma.accepted_distribution",
    "Verif.Plasma.diffAt_quadratic",
    "Verif.Plasma.diffAt_linear",
    "Verif.Plasma.one_level",
    "Verif.Plasma.unknown_type",
    "Verif.Plasma.setKind_keeps",
    "Verif.Plasma.parameters_isotropic",
    "Verif.Plasma.construct_overwrites"
   ],
   "note": "Proved: positivity, the moments of the family, normalisation of a discretized distribution and its temperature, acceptance of levels. The constants of the isotropic distribution are right only for shape parameter one (druyvesteyn_refuted, maxwell, published_constants); refused calls leave changed states (setLevels_refused, setters_discretized); an all-zero distribution is accepted and becomes NaN (zero_distribution); a single level reads out of range (one_level)."
  },
  {
   "property": "C93",
   "status": "partial",
   "theorems": [
    "Verif.Plasma.elasticCoef_formula",
    "Verif.Plasma.updateElastic_correct",
    "Verif.Plasma.stale_key",
    "Verif.Plasma.quadrature_ignored",
    "Verif.Plasma.powerLoss_formula",
    "Verif.Plasma.maxwell_equilibrium",
    "Verif.Plasma.setCollisions_flags",
    "Verif.Plasma.setCollisions_first",
    "Verif.Plasma.setCollisions_again",
    "Verif.Plasma.updateInterp_spec",
    "Verif.Plasma.update_follows",
    "Verif.Plasma.update_twice",
    "Verif.Plasma.level_change_missed",
    "Verif.Plasma.default_grid",
    "Verif.Plasma.eval_formula",
    "Verif.Plasma.eval_kept",
    "Verif.Plasma.negative_rate",
    "Verif.Plasma.rate_setParameters",
    "Verif.Plasma.setContext_iff",
    "Verif.Plasma.target_other",
    "Verif.Plasma.addSpecies_inv",
    "Verif.Plasma.second_electron",
    "Verif.Plasma.skipped_electron",
    "Verif.Plasma.small_pos",
    "Verif.Plasma.reference_functions",
    "Verif.Plasma.enthalpy_mean",
    "Verif.Plasma.heavy_species",
    "Verif.Plasma.pe_formula",
    "Verif.Plasma.electron",
    "Verif.Plasma.electron_equal_temperatures",
    "Verif.Plasma.standard_functions",
    "Verif.Plasma.updateThermo_sequence"
   ],
   "note": "Proved for the cached elastic loss, the rate data and the thermodynamic functions. Counterexamples: quadrature_ignored, setCollisions_again, level_change_missed, default_grid, negative_rate, second_electron, skipped_electron, and the electron entropy of electron_equal_temperatures."
  },
  {
   "property": "C94",
   "status": "partial",
   "theorems": [
    "Verif.Basis.residual_orth",
    "Verif.Basis.ip_residual",
    "Verif.Basis.argmax_spec",
    "Verif.Basis.posOf_spec",
    "Verif.Basis.inner_spec",
    "Verif.Basis.outer_spec",
    "Verif.Basis.basis_spec",
    "Verif.Basis.exhausted_exchange",
    "Verif.Basis.independent_rejected",
    "Verif.Basis.firstFrom_spec",
    "Verif.Basis.pickElem_eq",
    "Verif.Basis.innerE_spec",
    "Verif.Basis.outerE_spec",
    "Verif.Basis.rearrange_spec",
    "Verif.Basis.abundance_ignored",
    "Verif.Basis.abundance_minus_one",
    "Verif.Basis.formation_balances",
    "Verif.Basis.initial_orders",
    "Verif.Basis.abundances",
    "Verif.Basis.default_abundance"
   ],
   "note": "Proved except that the exchange made after exhausting the species can replace a component by a dependent species (exhausted_exchange), and that the absolute limit 1e-6 rejects some independent species (independent_rejected). The solution of the linear system is given; printing is not modelled."
  },
  {
   "property": "C95",
   "status": "partial",
   "theorems": [
    "Verif.Pfr.Rg_value",
    "Verif.Pfr.Rg_pos",
    "Verif.Pfr.ratio_cylinder",
    "Verif.Pfr.setFlow_spec",
    "Verif.Pfr.setArea_keeps",
    "Verif.Pfr.sync_changes_flow",
    "Verif.Pfr.covVec_cons_ge",
    "Verif.Pfr.setCovs_same",
    "Verif.Pfr.state_roundtrip",
    "Verif.Pfr.no_flow_refused",
    "Verif.Pfr.stateVec_entries",
    "Verif.Pfr.row_sum",
    "Verif.Pfr.initial_equations",
    "Verif.Pfr.initial_gas_law",
    "Verif.Pfr.initial_gas_law_iff",
    "Verif.Pfr.initial_sum",
    "Verif.Pfr.initial_unique",
    "Verif.Pfr.surfRhs_lt",
    "Verif.Pfr.surfRhs_append",
    "Verif.Pfr.surface_rates",
    "Verif.Pfr.gas_production",
    "Verif.Pfr.phaseCov_last",
    "Verif.Pfr.surfRes_lt",
    "Verif.Pfr.surfRes_ge",
    "Verif.Pfr.surfRes_append",
    "Verif.Pfr.surface_residual",
    "Verif.Pfr.surface_stationary",
    "Verif.Pfr.shared_kinetics",
    "Verif.Pfr.skwk_last",
    "Verif.Pfr.evalDae_gas",
    "Verif.Pfr.derivative_overwritten",
    "Verif.Pfr.wall_mass",
    "Verif.Pfr.initial_residual",
    "Verif.Pfr.chemistry_off",
    "Verif.Pfr.density_constraint",
    "Verif.Pfr.network_offset",
    "Verif.Pfr.evalDae_size",
    "Verif.Pfr.const_of_deriv",
    "Verif.Pfr.solution_gas_law",
    "Verif.Pfr.solution_fluxes",
    "Verif.Pfr.solution_conserved",
    "Verif.Pfr.solution_enthalpy",
    "Verif.Pfr.uniform_solution",
    "Verif.Pfr.exchange_not_conserved",
    "Verif.Pfr.initial_gas_law_refuted",
    "Verif.Pfr.index_name",
    "Verif.Pfr.name_hidden"
   ],
   "note": "Proved for solutions whose wall exchange is carried by the last gas species only. Counterexamples: exchange_not_conserved (wall mass of other species is lost), initial_gas_law_refuted (gas constant missing), shared_kinetics, derivative_overwritten, network_offset, chemistry_off, sync_changes_flow, name_hidden. The linear solve and the DAE integrator are given by their defining equations."
  },
  {
   "property": "C96",
   "status": "partial",
   "theorems": [
    "Verif.Tpx.setTV_ok",
    "Verif.Tpx.setTV_run",
    "Verif.Tpx.setTV_bad_volume",
    "Verif.Tpx.setTV_bad_temperature",
    "Verif.Tpx.setTPp_frame",
    "Verif.Tpx.setTPp_ok",
    "Verif.Tpx.setTPp_nonpositive",
    "Verif.Tpx.limitStep_bound",
    "Verif.Tpx.limitStep_positive",
    "Verif.Tpx.exact_start_fails",
    "Verif.Tpx.satTrial_ok",
    "Verif.Tpx.updateSat_ok",
    "Verif.Tpx.updateSat_stored",
    "Verif.Tpx.updateSat_fail",
    "Verif.Tpx.updateSat_keeps",
    "Verif.Tpx.quality_supercritical",
    "Verif.Tpx.quality_stored",
    "Verif.Tpx.quality_ok",
    "Verif.Tpx.quality_range",
    "Verif.Tpx.P_stored",
    "Verif.Tpx.P_supercritical",
    "Verif.Tpx.Ps_ok",
    "Verif.Tpx.P_ok",
    "Verif.Tpx.prop_T",
    "Verif.Tpx.prop_P",
    "Verif.Tpx.prop_other",
    "Verif.Tpx.prop_ok",
    "Verif.Tpx.prop_fresh",
    "Verif.Tpx.prop_pair",
    "Verif.Tpx.setTX_refused",
    "Verif.Tpx.setTX_ok",
    "Verif.Tpx.setTX_roundtrip",
    "Verif.Tpx.trivial_root",
    "Verif.Tpx.critical_quality",
    "Verif.Tpx.setPX_refused",
    "Verif.Tpx.prop_V",
    "Verif.Tpx.prop_mixture",
    "Verif.Tpx.prop_supercritical",
    "Verif.Tpx.leverAt_true",
    "Verif.Tpx.leverAt_false",
    "Verif.Tpx.leverP_false",
    "Verif.Tpx.leverT_false",
    "Verif.Tpx.leverT_keeps_bad_temperature",
    "Verif.Tpx.Tsat_refused",
    "Verif.Tpx.Tsat_ok",
    "Verif.Tpx.setXY_ok",
    "Verif.Tpx.setXY_accepts",
    "Verif.Tpx.undef_density",
    "Verif.Tpx.zero_pressure_search",
    "Verif.Tpx.setTP_ok",
    "Verif.Tpx.setTP_negative",
    "Verif.Tpx.setTP_saturated",
    "Verif.Tpx.set_inverted",
    "Verif.Tpx.set_table",
    "Verif.Tpx.viaLever_ok",
    "Verif.Tpx.set_HP_ok",
    "Verif.Tpx.set_SP_ok",
    "Verif.Tpx.set_UV_ok",
    "Verif.Tpx.zero_pressure",
    "Verif.Tpx.zero_pressure_TP",
    "Verif.Tpx.set_unknown",
    "Verif.Tpx.vprop_offset",
    "Verif.Tpx.quality_offset",
    "Verif.Tpx.prop_offset",
    "Verif.Tpx.setStdState_ok",
    "Verif.Tpx.flat_setTPp",
    "Verif.Tpx.flat_sat",
    "Verif.Tpx.flat_Ps",
    "Verif.Tpx.Tsat_above_critical",
    "Verif.Tpx.lin_exact",
    "Verif.Tpx.lin_liquid",
    "Verif.Tpx.failed_update_corrupts",
    "Verif.Tpx.nextPressure_range",
    "Verif.Tpx.nextPressure_newton",
    "Verif.Tpx.nextPressure_log",
    "Verif.Tpx.nextPressure_critical",
    "Verif.Tpx.bracketSlope_open",
    "Verif.Tpx.bracketSlope_closed",
    "Verif.Tpx.bracketStep_spec",
    "Verif.Tpx.limitStep_bracket",
    "Verif.Tpx.limitStep_small",
    "Verif.Tpx.limitStep_long",
    "Verif.Tpx.chooseStep_negative",
    "Verif.Tpx.chooseStep_rising",
    "Verif.Tpx.chooseStep_falling",
    "Verif.Tpx.xyStep_range",
    "Verif.Tpx.xyStep_newton"
   ],
   "note": "Proved: what every successful call guarantees, for any equation of state. Not proved: convergence of the searches, and that the two saturation densities differ (trivial_root). Counterexamples: exact_start_fails, lin_exact, failed_update_corrupts, Tsat_above_critical, setPX_refused, setTV_bad_volume, leverT_keeps_bad_temperature. cv, cp, thermalExpansionCoeff and isothermalCompressibility are not modelled."
  },
  {
   "property": "C97",
   "status": "partial",
   "theorems": [
    "Verif.TpxFluids.helmholtz_of_gibbs",
    "Verif.TpxFluids.gibbs_of_sum",
    "Verif.TpxFluids.hasDerivAt_rt",
    "Verif.TpxFluids.mC_deriv",
    "Verif.TpxFluids.mCprime_diff",
    "Verif.TpxFluids.hasDerivAt_egrho",
    "Verif.TpxFluids.mW_deriv",
    "Verif.TpxFluids.mI_deriv",
    "Verif.TpxFluids.einstein",
    "Verif.TpxFluids.mbwr_gibbs",
    "Verif.TpxFluids.dU_deriv",
    "Verif.TpxFluids.nitrogen_gibbs",
    "Verif.TpxFluids.oxygen_gibbs",
    "Verif.TpxFluids.methU_deriv",
    "Verif.TpxFluids.methane_gibbs",
    "Verif.TpxFluids.icv_one",
    "Verif.TpxFluids.icv_deriv",
    "Verif.TpxFluids.sum_deriv",
    "Verif.TpxFluids.hyd_low",
    "Verif.TpxFluids.hyd_mid",
    "Verif.TpxFluids.hyd_high",
    "Verif.TpxFluids.low_deriv",
    "Verif.TpxFluids.hydU_deriv",
    "Verif.TpxFluids.hydrogen_gibbs",
    "Verif.TpxFluids.log_ratio",
    "Verif.TpxFluids.cv_left",
    "Verif.TpxFluids.hydrogen_kink",
    "Verif.TpxFluids.hydrogen_not_differentiable",
    "Verif.TpxFluids.zpow_rt",
    "Verif.TpxFluids.z1",
    "Verif.TpxFluids.z2",
    "Verif.TpxFluids.z3",
    "Verif.TpxFluids.z4",
    "Verif.TpxFluids.z5",
    "Verif.TpxFluids.hasDerivAt_rtpow",
    "Verif.TpxFluids.pU_deriv",
    "Verif.TpxFluids.co2C_deriv",
    "Verif.TpxFluids.co2Cprime_diff",
    "Verif.TpxFluids.co2I_deriv",
    "Verif.TpxFluids.carbonDioxide_gibbs",
    "Verif.TpxFluids.heptC_deriv",
    "Verif.TpxFluids.heptCprime_diff",
    "Verif.TpxFluids.heptI_deriv",
    "Verif.TpxFluids.heptane_gibbs",
    "Verif.TpxFluids.watC_deriv",
    "Verif.TpxFluids.watCprime_diff",
    "Verif.TpxFluids.horner_six",
    "Verif.TpxFluids.horner_seven",
    "Verif.TpxFluids.watI_deriv",
    "Verif.TpxFluids.water_gibbs",
    "Verif.TpxFluids.gibbs_congr",
    "Verif.TpxFluids.d134_pos",
    "Verif.TpxFluids.hg_deriv",
    "Verif.TpxFluids.tau_rpow_deriv",
    "Verif.TpxFluids.hC_deriv",
    "Verif.TpxFluids.hC'_diff",
    "Verif.TpxFluids.hU0_deriv",
    "Verif.TpxFluids.split_sum",
    "Verif.TpxFluids.hk_of",
    "Verif.TpxFluids.hfcU_eq",
    "Verif.TpxFluids.hfcP_eq",
    "Verif.TpxFluids.hfcS_eq",
    "Verif.TpxFluids.hfc134a_gibbs",
    "Verif.TpxFluids.hfc_fp",
    "Verif.TpxFluids.all_gibbs",
    "Verif.TpxFluids.all_helmholtz",
    "Verif.TpxFluids.mPp_formula",
    "Verif.TpxFluids.mbwr_coefficients",
    "Verif.TpxFluids.mbwr_pressure",
    "Verif.TpxFluids.dU_formula",
    "Verif.TpxFluids.dS_formula",
    "Verif.TpxFluids.methU_formula",
    "Verif.TpxFluids.hydrogen_coefficients",
    "Verif.TpxFluids.co2P_formula",
    "Verif.TpxFluids.heptP_formula",
    "Verif.TpxFluids.Gco2_formula",
    "Verif.TpxFluids.Ghept_formula",
    "Verif.TpxFluids.Gwat_formula",
    "Verif.TpxFluids.watI_formula",
    "Verif.TpxFluids.watC_formula",
    "Verif.TpxFluids.hfcF_formula",
    "Verif.TpxFluids.range_iff",
    "Verif.TpxFluids.sat_range",
    "Verif.TpxFluids.hfc_satMax",
    "Verif.TpxFluids.satMax_of_ne",
    "Verif.TpxFluids.Psat_pos",
    "Verif.TpxFluids.Psat_critical",
    "Verif.TpxFluids.Psat_triple",
    "Verif.TpxFluids.hfc_Psat_lt",
    "Verif.TpxFluids.hfc_gap",
    "Verif.TpxFluids.newSubstance_spec",
    "Verif.TpxFluids.constants",
    "Verif.TpxFluids.critical",
    "Verif.TpxFluids.limits_ordered",
    "Verif.TpxFluids.bernstein5",
    "Verif.TpxFluids.cube_root",
    "Verif.TpxFluids.dLdens_formula",
    "Verif.TpxFluids.hydLdens_ge",
    "Verif.TpxFluids.watPoly",
    "Verif.TpxFluids.watLdens_ge",
    "Verif.TpxFluids.ldens_ge",
    "Verif.TpxFluids.nitrogen_Psat",
    "Verif.TpxFluids.oxygen_Psat",
    "Verif.TpxFluids.nitrogen_ldens",
    "Verif.TpxFluids.oxygen_ldens",
    "Verif.TpxFluids.carbonDioxide_ldens",
    "Verif.TpxFluids.heptane_ldens",
    "Verif.TpxFluids.carbonDioxide_Psat",
    "Verif.TpxFluids.heptane_Psat",
    "Verif.TpxFluids.water_Psat",
    "Verif.TpxFluids.water_ldens",
    "Verif.TpxFluids.methane_Psat",
    "Verif.TpxFluids.hydrogen_Psat",
    "Verif.TpxFluids.methane_ldens",
    "Verif.TpxFluids.hydrogen_ldens",
    "Verif.TpxFluids.hfc_formulas",
    "Verif.TpxFluids.ideal_of_sum",
    "Verif.TpxFluids.mbwr_ideal",
    "Verif.TpxFluids.ideal_gas",
    "Verif.TpxFluids.gas_constant"
   ],
   "note": "Proved: all_gibbs states consistency for every fluid, temperature and density except hydrogen at exactly 400 K, where it is proved to fail (hydrogen_kink, hydrogen_not_differentiable). sat_range, Psat_pos and ldens_ge hold for all fluids; Psat_critical excludes HFC-134a, where hfc_gap shows that P, x and Ps throw between 374.18 K and 374.21 K. ideal_gas gives the ideal gas limit of every fluid. Accuracy against the real fluids is not claimed."
  },
  {
   "property": "C98",
   "status": "partial",
   "theorems": [
    "Verif.PureFluid.bindP_eq",
    "Verif.PureFluid.bindP_some",
    "Verif.PureFluid.onSub_some",
    "Verif.PureFluid.phaseSetT_some",
    "Verif.PureFluid.phaseSetDens_some",
    "Verif.PureFluid.volume_ok",
    "Verif.PureFluid.volume_fresh",
    "Verif.PureFluid.xyStep_T",
    "Verif.PureFluid.xyLoop_T",
    "Verif.PureFluid.setTP_T",
    "Verif.PureFluid.subV_some",
    "Verif.PureFluid.set_TV",
    "Verif.PureFluid.set_TP",
    "Verif.PureFluid.set_TX",
    "Verif.PureFluid.set_PX",
    "Verif.PureFluid.setTemperature_ok",
    "Verif.PureFluid.setDensity_ok",
    "Verif.PureFluid.setStateTD_ok",
    "Verif.PureFluid.setPressure_ok",
    "Verif.PureFluid.setStateTP_ok",
    "Verif.PureFluid.setStateXY_ok",
    "Verif.PureFluid.setStateXY_keeps",
    "Verif.PureFluid.setStateTsat_ok",
    "Verif.PureFluid.setStatePsat_ok",
    "Verif.PureFluid.satPressure_ok",
    "Verif.PureFluid.setStateTPQ_ok",
    "Verif.PureFluid.volume_supercritical",
    "Verif.PureFluid.subV_supercritical",
    "Verif.PureFluid.setTemperature_run",
    "Verif.PureFluid.setTemperature_range",
    "Verif.PureFluid.setTemperature_breaks",
    "Verif.PureFluid.satPressure_breaks",
    "Verif.PureFluid.setStateTPQ_inconsistent",
    "Verif.PureFluid.setStateTPQ_supercritical",
    "Verif.PureFluid.setStateTP_restores",
    "Verif.PureFluid.restore_fails",
    "Verif.PureFluid.hfc_no_volume",
    "Verif.PureFluid.hfc_stuck",
    "Verif.PureFluid.hfc_gets_stuck",
    "Verif.PureFluid.onSub_prop",
    "Verif.PureFluid.molar",
    "Verif.PureFluid.gibbs_consistent",
    "Verif.PureFluid.gibbs_unsynced",
    "Verif.PureFluid.reads_bind",
    "Verif.PureFluid.reads_map",
    "Verif.PureFluid.reads_prop",
    "Verif.PureFluid.reads_gibbs",
    "Verif.PureFluid.atLow_ok",
    "Verif.PureFluid.atLow_fail",
    "Verif.PureFluid.reference",
    "Verif.PureFluid.gibbsRef_ok",
    "Verif.PureFluid.phase_supercritical",
    "Verif.PureFluid.twoPhase_stored",
    "Verif.PureFluid.phase_subcritical",
    "Verif.PureFluid.superheated_liquid",
    "Verif.PureFluid.setStdState_T",
    "Verif.PureFluid.initThermo_ok",
    "Verif.PureFluid.fullStates_spec",
    "Verif.PureFluid.setter_table",
    "Verif.PureFluid.setStateTP_fails"
   ],
   "note": "Proved for every call that returns (setTemperature_ok … setStateTPQ_ok, reference, gibbs_consistent, phase_subcritical, initThermo_ok). For calls that throw the synchronisation is refuted (setTemperature_breaks, restore_fails, hfc_gets_stuck, atLow_fail) and a saturation query breaks it too (satPressure_breaks). Temperatures equal to the marker 999.1234 are excluded. Compressibility, expansion coefficient and heat capacities by finite differences are not modelled."
  },
  {
   "property": "C99",
   "status": "partial",
   "theorems": [
    "Verif.ISurf.put_self",
    "Verif.ISurf.put_ne",
    "Verif.ISurf.evalLoop_fst",
    "Verif.ISurf.evalLoop_snd",
    "Verif.ISurf.evalSurf_get",
    "Verif.ISurf.total_cons",
    "Verif.ISurf.eval_below",
    "Verif.ISurf.eval_above",
    "Verif.ISurf.eval_append",
    "Verif.ISurf.eval_species",
    "Verif.ISurf.eval_conserves",
    "Verif.ISurf.eval_first",
    "Verif.ISurf.eval_first_rate",
    "Verif.ISurf.eval_later",
    "Verif.ISurf.second_surface_wrong",
    "Verif.ISurf.stale_entry",
    "Verif.ISurf.start_spec",
    "Verif.ISurf.start_zero",
    "Verif.ISurf.start_length",
    "Verif.ISurf.prefix_get",
    "Verif.ISurf.addBulk_spec",
    "Verif.ISurf.collect_prefix",
    "Verif.ISurf.collect_spec",
    "Verif.ISurf.pLoc_ambiguous",
    "Verif.ISurf.integrateLimit_spec",
    "Verif.ISurf.ifunc_spec",
    "Verif.ISurf.setCommon_surf",
    "Verif.ISurf.negative_refused",
    "Verif.ISurf.pss_spec",
    "Verif.ISurf.pss_empty",
    "Verif.ISurf.setTP_P",
    "Verif.ISurf.gas_pressure_replaced",
    "Verif.SolveSP.largeLoop_spec",
    "Verif.SolveSP.evalLarge_spec",
    "Verif.SolveSP.steady_iff",
    "Verif.SolveSP.steady_all",
    "Verif.SolveSP.euler_iff",
    "Verif.SolveSP.euler_all",
    "Verif.SolveSP.multisite_wrong",
    "Verif.SolveSP.moleFrac_spec",
    "Verif.SolveSP.dc_pos",
    "Verif.SolveSP.jac_special",
    "Verif.SolveSP.jac_row",
    "Verif.SolveSP.bump_spec",
    "Verif.SolveSP.dampStep_spec",
    "Verif.SolveSP.dampLoop_spec",
    "Verif.SolveSP.damping_range",
    "Verif.SolveSP.damping_keeps",
    "Verif.SolveSP.damping_limit_breaks",
    "Verif.SolveSP.damping_not_fraction",
    "Verif.SolveSP.damping_memory",
    "Verif.SolveSP.damping_above_one",
    "Verif.SolveSP.dampStep_cases",
    "Verif.SolveSP.wtSpecies_pos",
    "Verif.SolveSP.wtResid_zero_iff",
    "Verif.SolveSP.wtResid_eq",
    "Verif.SolveSP.wNorm_spec",
    "Verif.SolveSP.wNorm_bound",
    "Verif.SolveSP.wNorm_zero",
    "Verif.SolveSP.crop_spec",
    "Verif.SolveSP.calcTLoop_spec",
    "Verif.SolveSP.calcT_spec",
    "Verif.SolveSP.invTime_spec",
    "Verif.SolveSP.ret_spec",
    "Verif.SolveSP.run_empty",
    "Verif.SolveSP.loop_inv",
    "Verif.SolveSP.step_iter",
    "Verif.SolveSP.step_upd",
    "Verif.SolveSP.loop_iter",
    "Verif.SolveSP.run_iter",
    "Verif.SolveSP.step_good",
    "Verif.SolveSP.converged",
    "Verif.SolveSP.step_steady",
    "Verif.SolveSP.startSt_steady",
    "Verif.SolveSP.success_unconverged",
    "Verif.SolveSP.nan_success",
    "Verif.SolveSP.nextInvT_pos",
    "Verif.SolveSP.step_tr",
    "Verif.SolveSP.transient",
    "Verif.SolveSP.transient_damped",
    "Verif.SolveSP.invT_growth",
    "Verif.SolveSP.initialize_switch",
    "Verif.SolveSP.time_never_returns",
    "Verif.SolveSP.startSt_time"
   ],
   "note": "Proved: eval_species for all surfaces, eval_conserves for the first; refuted for later surfaces (second_surface_wrong, stale_entry). collect_spec and start_spec give the layout. pss_spec shows that only the first attempt is ever made, gas_pressure_replaced that the gas takes the pressure stored with the surface. steady_all, euler_all, jac_special, jac_row, damping_range, damping_keeps, converged, transient hold; success_unconverged, nan_success, transient_damped, multisite_wrong, damping_not_fraction refute the rest. The integrator, the linear solver and the printing are not modelled; deposition into bulk phases is never used by the callers and not modelled."
  }
 ]
}
