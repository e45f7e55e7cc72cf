{
 "claims": [
  {
   "property": "C01",
   "status": "proved",
   "theorems": [
    "Skyborn.MK.C01_score_textbook",
    "Skyborn.MK.C01_fused_score",
    "Skyborn.MK.C01_kernels_agree"
   ],
   "note": "both scans, every n and series over any linearly ordered field"
  },
  {
   "property": "C02",
   "status": "proved",
   "theorems": [
    "Skyborn.MK.C02_bound",
    "Skyborn.MK.C02_max_iff",
    "Skyborn.MK.C02_negate",
    "Skyborn.MK.C02_min_iff",
    "Skyborn.MK.C02_reverse",
    "Skyborn.MK.C02_rank_invariant",
    "Skyborn.MK.Py.C02_result_invariant",
    "Skyborn.MK.Py.C02_result_negate"
   ],
   "note": "kernel level: bounds with equality cases, negation, reversal, rank invariance of S and variance; result level (original test): increasing maps leave h, p, z, tau unchanged and negation flips them"
  },
  {
   "property": "C03",
   "status": "proved",
   "theorems": [
    "Skyborn.MK.C03_sort",
    "Skyborn.MK.C03_index_sort",
    "Skyborn.MK.C03_pivot"
   ],
   "note": "real-valued and index sort: in bounds, terminates, ascending permutation"
  },
  {
   "property": "C04",
   "status": "proved",
   "theorems": [
    "Skyborn.MK.C04_select"
   ],
   "note": ""
  },
  {
   "property": "C05",
   "status": "proved",
   "theorems": [
    "Skyborn.MK.C05_sen_median",
    "Skyborn.MK.C05_fused_sen",
    "Skyborn.MK.Py.C05_result_trend"
   ],
   "note": "plain and fused kernels, and the trend field of the 1-D result"
  },
  {
   "property": "C06",
   "status": "proved",
   "theorems": [
    "Skyborn.MK.C06_equivariance",
    "Skyborn.MK.C06_linear"
   ],
   "note": ""
  },
  {
   "property": "C07",
   "status": "proved",
   "theorems": [
    "Skyborn.MK.C07_variance_formula",
    "Skyborn.MK.C07_order_independent",
    "Skyborn.MK.C07_nonneg"
   ],
   "note": ""
  },
  {
   "property": "C08",
   "status": "proved",
   "theorems": [
    "Skyborn.MK.C08_tau",
    "Skyborn.MK.Py.C08_result_tau"
   ],
   "note": "kernel quotient and tau field of the 1-D result"
  },
  {
   "property": "C09",
   "status": "proved",
   "theorems": [
    "Skyborn.MK.Py.C09_insert_missing",
    "Skyborn.MK.Py.C09_short"
   ],
   "note": "all non-seasonal families, any insertion of missing samples"
  },
  {
   "property": "C10",
   "status": "proved",
   "theorems": [
    "Skyborn.MK.Py.C10_grid_point",
    "Skyborn.MK.Py.C10_chunk_invariant"
   ],
   "note": "any rank, axis, chunk size, missing pattern; seasonal families with Theil-Sen slopes and positive period (seasonal linregress: C52; correlated_seasonal with gaps: C11)"
  },
  {
   "property": "C100",
   "status": "partial",
   "theorems": [
    "Skyborn.Geo.C100_local",
    "Skyborn.Geo.C100_false"
   ],
   "note": "Locality proved in terms of the float32 field; false for missing values that are not float32 numbers (C100_false)."
  },
  {
   "property": "C101",
   "status": "proved",
   "theorems": [
    "Skyborn.Geo.C101_speed"
   ],
   "note": ""
  },
  {
   "property": "C102",
   "status": "partial",
   "theorems": [
    "Skyborn.Geo.C102_detect_partial",
    "Skyborn.Geo.C102_false"
   ],
   "note": "False for later dimensions whose names contain x or y (C102_false)."
  },
  {
   "property": "C103",
   "status": "partial",
   "theorems": [
    "Skyborn.Geo.C103_order_partial",
    "Skyborn.Geo.C103_false"
   ],
   "note": "False for two further dimensions of the same kind (C103_false)."
  },
  {
   "property": "C104",
   "status": "proved",
   "theorems": [
    "Skyborn.Stats.C104_slope"
   ],
   "note": "lstsq is a parameter with contract LeastSquares (shown satisfiable)"
  },
  {
   "property": "C105",
   "status": "proved",
   "theorems": [
    "Skyborn.Stats.C105_missing",
    "Skyborn.Stats.C105_local"
   ],
   "note": ""
  },
  {
   "property": "C106",
   "status": "partial",
   "theorems": [
    "Skyborn.Stats.C106_missing_predictor_false",
    "Skyborn.Stats.C106_zero_filled_partial"
   ],
   "note": "False of the code: missing predictor values enter as zeros (C106_missing_predictor_false); exact description proved."
  },
  {
   "property": "C107",
   "status": "partial",
   "theorems": [
    "Skyborn.Stats.C107_unchanged_partial",
    "Skyborn.Stats.C107_unchanged_false"
   ],
   "note": "True for successful calls and for data without missing values; false for calls rejected because the data are not three-dimensional."
  },
  {
   "property": "C108",
   "status": "proved",
   "theorems": [
    "Skyborn.Stats.C108_pearson"
   ],
   "note": "Student's t cdf is a parameter"
  },
  {
   "property": "C109",
   "status": "proved",
   "theorems": [
    "Skyborn.Stats.C109_range",
    "Skyborn.Stats.C109_units",
    "Skyborn.Stats.C109_perfect"
   ],
   "note": ""
  },
  {
   "property": "C11",
   "status": "partial",
   "theorems": [
    "Skyborn.MK.Py.C11_partial",
    "Skyborn.MK.Py.C11_false"
   ],
   "note": "false of the code for columns with gaps (core.py:1249 closes the gaps): C11_false is the witness; C11_partial: agreement for complete columns and exact description for columns with gaps"
  },
  {
   "property": "C110",
   "status": "partial",
   "theorems": [
    "Skyborn.Stats.C110_local_partial",
    "Skyborn.Stats.C110_local_false"
   ],
   "note": "True from three time steps on; false for two."
  },
  {
   "property": "C111",
   "status": "partial",
   "theorems": [
    "Skyborn.Stats.C111_columns",
    "Skyborn.Stats.C111_sorted",
    "Skyborn.Stats.C111_round_trip",
    "Skyborn.Stats.C111_direction_false"
   ],
   "note": "All but the documented direction of the flag, which is false (C111_direction_false): the two settings are exchanged."
  },
  {
   "property": "C112",
   "status": "proved",
   "theorems": [
    "Skyborn.Stats.C112_adiabat",
    "Skyborn.Stats.C112_monotone"
   ],
   "note": ""
  },
  {
   "property": "C113",
   "status": "proved",
   "theorems": [
    "Skyborn.Stats.C113_normalised"
   ],
   "note": "calls that return (degenerate cases raise)"
  },
  {
   "property": "C114",
   "status": "proved",
   "theorems": [
    "Skyborn.Stats.C114_flow",
    "Skyborn.Stats.C114_uncorrelated"
   ],
   "note": ""
  },
  {
   "property": "C115",
   "status": "proved",
   "theorems": [
    "Skyborn.Stats.C115_units"
   ],
   "note": ""
  },
  {
   "property": "C116",
   "status": "proved",
   "theorems": [
    "Skyborn.Stats.C116_spectrum",
    "Skyborn.Stats.C116_real",
    "Skyborn.Stats.C116_mean",
    "Skyborn.Stats.C116_autocovariance",
    "Skyborn.Stats.C116_phase",
    "Skyborn.Stats.C116_length"
   ],
   "note": ""
  },
  {
   "property": "C117",
   "status": "proved",
   "theorems": [
    "Skyborn.Trop.C117_accepts",
    "Skyborn.Trop.C117_length_error",
    "Skyborn.Trop.C117_profile"
   ],
   "note": "Acceptance condition, the length error, and the profile variant."
  },
  {
   "property": "C118",
   "status": "proved",
   "theorems": [
    "Skyborn.ROF.C118_unproject_project",
    "Skyborn.ROF.C118_project_unproject",
    "Skyborn.ROF.C118_constant"
   ],
   "note": "eig/argsort by contract (EigSpec, ArgsortSpec, shown satisfiable)"
  },
  {
   "property": "C119",
   "status": "proved",
   "theorems": [
    "Skyborn.ROF.C119_trend",
    "Skyborn.ROF.C119_single"
   ],
   "note": ""
  },
  {
   "property": "C12",
   "status": "proved",
   "theorems": [
    "Skyborn.MK.C12_single_group"
   ],
   "note": ""
  },
  {
   "property": "C120",
   "status": "partial",
   "theorems": [
    "Skyborn.ROF.C120_speco",
    "Skyborn.ROF.C120_false"
   ],
   "note": "First half proved for every symmetric matrix; the refusal of asymmetric matrices is refuted (C120_false: [[1,1],[0,2]] is accepted)"
  },
  {
   "property": "C121",
   "status": "proved",
   "theorems": [
    "Skyborn.ROF.C121_partition",
    "Skyborn.ROF.C121_selection",
    "Skyborn.ROF.C121_half"
   ],
   "note": ""
  },
  {
   "property": "C122",
   "status": "proved",
   "theorems": [
    "Skyborn.ROF.C122_convex",
    "Skyborn.ROF.C122_invertible",
    "Skyborn.ROF.C122_degenerate"
   ],
   "note": ""
  },
  {
   "property": "C123",
   "status": "partial",
   "theorems": [
    "Skyborn.ROF.C123_defined_partial",
    "Skyborn.ROF.C123_univariate",
    "Skyborn.ROF.C123_false"
   ],
   "note": "Refuted (C123_false: one variable gives 0/0); the exact condition under which it holds is proved"
  },
  {
   "property": "C124",
   "status": "proved",
   "theorems": [
    "Skyborn.ROF.C124_orthogonal",
    "Skyborn.ROF.C124_permutation",
    "Skyborn.ROF.C124_scaling"
   ],
   "note": ""
  },
  {
   "property": "C125",
   "status": "proved",
   "theorems": [
    "Skyborn.ROF.C125_optimal",
    "Skyborn.ROF.C125_exact",
    "Skyborn.ROF.C125_errors"
   ],
   "note": ""
  },
  {
   "property": "C126",
   "status": "proved",
   "theorems": [
    "Skyborn.ROF.C126_coordinates",
    "Skyborn.ROF.C126_scale"
   ],
   "note": ""
  },
  {
   "property": "C127",
   "status": "partial",
   "theorems": [
    "Skyborn.ROF.C127_interval_partial",
    "Skyborn.ROF.C127_false"
   ],
   "note": "Refuted (C127_false: t.cdf, a probability, is used as the quantile); what the interval is, is proved"
  },
  {
   "property": "C128",
   "status": "proved",
   "theorems": [
    "Skyborn.ROF.C128_additive",
    "Skyborn.ROF.C128_succeeds",
    "Skyborn.ROF.C128_no_forcing"
   ],
   "note": ""
  },
  {
   "property": "C129",
   "status": "proved",
   "theorems": [
    "Skyborn.ROF.C129_maximum_likelihood"
   ],
   "note": ""
  },
  {
   "property": "C13",
   "status": "proved",
   "theorems": [
    "Skyborn.MK.Py.C13_scalar",
    "Skyborn.MK.Py.C13_partition",
    "Skyborn.MK.Py.C13_batch_eq_scalar",
    "Skyborn.MK.Py.C13_slope",
    "Skyborn.MK.Py.C13_period_rejected"
   ],
   "note": "sums over seasons, each finite sample in exactly one season, padded and strided paths agree, trend = median of within-season slopes, period <= 0 rejected"
  },
  {
   "property": "C130",
   "status": "proved",
   "theorems": [
    "Skyborn.ROF.C130_response_covariance",
    "Skyborn.ROF.C130_forcing_covariance",
    "Skyborn.ROF.C130_reduces"
   ],
   "note": ""
  },
  {
   "property": "C131",
   "status": "proved",
   "theorems": [
    "Skyborn.ROF.C131_nearest",
    "Skyborn.ROF.C131_exact",
    "Skyborn.ROF.C131_single"
   ],
   "note": ""
  },
  {
   "property": "C132",
   "status": "partial",
   "theorems": [
    "Skyborn.ROF.C132_spread_partial",
    "Skyborn.ROF.C132_false"
   ],
   "note": "Refuted for non-orthogonal eigenvectors, which np.linalg.eig may return (C132_false); proved for orthonormal ones"
  },
  {
   "property": "C133",
   "status": "proved",
   "theorems": [
    "Skyborn.ROF.C133_value",
    "Skyborn.ROF.C133_psd",
    "Skyborn.ROF.C133_balanced",
    "Skyborn.ROF.C133_empty"
   ],
   "note": ""
  },
  {
   "property": "C134",
   "status": "proved",
   "theorems": [
    "Skyborn.Dcape.C134_safe",
    "Skyborn.Dcape.C134_missing"
   ],
   "note": "all scratch contents"
  },
  {
   "property": "C135",
   "status": "proved",
   "theorems": [
    "Skyborn.Dcape.C135_order"
   ],
   "note": ""
  },
  {
   "property": "C136",
   "status": "partial",
   "theorems": [
    "Skyborn.Dcape.C136_false",
    "Skyborn.Dcape.C136_number_partial",
    "Skyborn.Dcape.C136_enough"
   ],
   "note": "the documented rule is false (C136_false: profile whose lowest level is the start); the exact condition for sensible one-way soundings is proved"
  },
  {
   "property": "C137",
   "status": "proved",
   "theorems": [
    "Skyborn.Dcape.C137_start",
    "Skyborn.Dcape.C137_exists"
   ],
   "note": ""
  },
  {
   "property": "C138",
   "status": "proved",
   "theorems": [
    "Skyborn.Dcape.C138_warms",
    "Skyborn.Dcape.C138_steps"
   ],
   "note": ""
  },
  {
   "property": "C139",
   "status": "proved",
   "theorems": [
    "Skyborn.Dcape.C139_value",
    "Skyborn.Dcape.C139_nonneg",
    "Skyborn.Dcape.C139_warmer"
   ],
   "note": ""
  },
  {
   "property": "C14",
   "status": "proved",
   "theorems": [
    "Skyborn.MK.C14_announced_count",
    "Skyborn.MK.C14_fill_exact",
    "Skyborn.MK.C14_seasonal_slope"
   ],
   "note": ""
  },
  {
   "property": "C140",
   "status": "proved",
   "theorems": [
    "Skyborn.Dcape.C140_columns",
    "Skyborn.Dcape.C140_errors"
   ],
   "note": ""
  },
  {
   "property": "C141",
   "status": "proved",
   "theorems": [
    "Skyborn.Triple.C141_grid_to_triple",
    "Skyborn.Triple.C141_errors"
   ],
   "note": ""
  },
  {
   "property": "C142",
   "status": "proved",
   "theorems": [
    "Skyborn.Triple.C142_unchanged",
    "Skyborn.Triple.C142_marker_false"
   ],
   "note": "Provided no value is the largest float64 (C142_marker_false shows the proviso is needed)."
  },
  {
   "property": "C143",
   "status": "partial",
   "theorems": [
    "Skyborn.Triple.C143_roundtrip_partial",
    "Skyborn.Triple.C143_roundtrip_false",
    "Skyborn.Triple.C143_fine_false"
   ],
   "note": "False: the grid comes back with its cells in Fortran order (transposed when square), C143_roundtrip_false; fine axes lose observations, C143_fine_false. Proved up to this order for exactly even axes and for axes not both taken as even."
  },
  {
   "property": "C144",
   "status": "partial",
   "theorems": [
    "Skyborn.Triple.C144_nearest_partial",
    "Skyborn.Triple.C144_even_false",
    "Skyborn.Triple.C144_last_false"
   ],
   "note": "False on evenly spaced grids (C144_even_false) and for observations on the last row or column of uneven ones (C144_last_false); proved for the rest."
  },
  {
   "property": "C145",
   "status": "partial",
   "theorems": [
    "Skyborn.Triple.C145_deterministic_partial",
    "Skyborn.Triple.C145_false"
   ],
   "note": "False for method=0 on evenly spaced axes (C145_false)."
  },
  {
   "property": "C146",
   "status": "partial",
   "theorems": [
    "Skyborn.Triple.C146_safe_partial",
    "Skyborn.Triple.C146_two_points_false"
   ],
   "note": "False for two-point axes (C146_two_points_false); proved for three or more points."
  },
  {
   "property": "C147",
   "status": "partial",
   "theorems": [
    "Skyborn.Triple.C147_values_partial",
    "Skyborn.Triple.C147_distmx_false"
   ],
   "note": "distmx is not a distance limit (C147_distmx_false); values are never invented."
  },
  {
   "property": "C148",
   "status": "proved",
   "theorems": [
    "Skyborn.Triple.C148_leading",
    "Skyborn.Triple.C148_rejects"
   ],
   "note": "Axes of three or more points (see C146)."
  },
  {
   "property": "C149",
   "status": "partial",
   "theorems": [
    "Skyborn.Sphere.C149_construct_partial",
    "Skyborn.Sphere.C149_false",
    "Skyborn.Sphere.C149_rejects"
   ],
   "note": "Full claim refuted (C149_false); exact criterion proved for 3<=nlat<=1280, 4<=nlon<=2^30; rejections proved."
  },
  {
   "property": "C15",
   "status": "proved",
   "theorems": [
    "Skyborn.MK.C15_ranks"
   ],
   "note": ""
  },
  {
   "property": "C150",
   "status": "partial",
   "theorems": [
    "Skyborn.Sphere.C150_slices_partial",
    "Skyborn.Sphere.C150_false"
   ],
   "note": "Full claim refuted (C150_false); exact criterion proved whenever four copies of the data stay below 2^31 elements."
  },
  {
   "property": "C151",
   "status": "partial",
   "theorems": [
    "Skyborn.Sphere.C151_getuv_partial",
    "Skyborn.Sphere.C151_getuv_false"
   ],
   "note": "Needs T+2<=nlat, 2T<nlon; false at the default truncation (C151_getuv_false)."
  },
  {
   "property": "C152",
   "status": "partial",
   "theorems": [
    "Skyborn.Sphere.C152_getgrad_partial",
    "Skyborn.Sphere.C152_getgrad_false",
    "Skyborn.Sphere.C152_gradient_partial"
   ],
   "note": "As C151; gradient needs Rests on the stated contract of the compiled analyses (Spec.Exact, shown satisfiable): they recover band-limited fields."
  },
  {
   "property": "C153",
   "status": "partial",
   "theorems": [
    "Skyborn.Sphere.C153_singles_partial",
    "Skyborn.Sphere.C153_singles_false"
   ],
   "note": "Contract Spec.Agree: the ityp 1/2 analyses agree with the full one; false for more than 24 slices on regular stored grids."
  },
  {
   "property": "C154",
   "status": "partial",
   "theorems": [
    "Skyborn.Sphere.C154_exact_partial"
   ],
   "note": "Rests on the stated contract of the compiled analyses (Spec.Exact, shown satisfiable): they recover band-limited fields."
  },
  {
   "property": "C155",
   "status": "proved",
   "theorems": [
    "Skyborn.Sphere.C155_helmholtz"
   ],
   "note": ""
  },
  {
   "property": "C156",
   "status": "partial",
   "theorems": [
    "Skyborn.Sphere.C156_rws_partial",
    "Skyborn.Sphere.C156_rws_false"
   ],
   "note": "Rests on the stated contract of the compiled analyses (Spec.Exact, shown satisfiable): they recover band-limited fields. False for T > nlon/2 and (C157) regular even grids."
  },
  {
   "property": "C157",
   "status": "partial",
   "theorems": [
    "Skyborn.Sphere.C157_planetary_partial",
    "Skyborn.Sphere.C157_planetary_false"
   ],
   "note": "Gaussian and regular odd grids; false on every row of regular even grids."
  },
  {
   "property": "C158",
   "status": "partial",
   "theorems": [
    "Skyborn.Sphere.C158_roundtrip_partial",
    "Skyborn.Sphere.C158_truncate_partial",
    "Skyborn.Sphere.C158_idempotent_partial",
    "Skyborn.Sphere.C158_roundtrip_false"
   ],
   "note": "Rests on the stated contract of the compiled analyses (Spec.Exact, shown satisfiable): they recover band-limited fields. False at the default truncation on regular grids."
  },
  {
   "property": "C159",
   "status": "partial",
   "theorems": [
    "Skyborn.Sphere.C159_accept_partial"
   ],
   "note": "Up to 1280 rows (beyond that C ints overflow, C149)."
  },
  {
   "property": "C16",
   "status": "proved",
   "theorems": [
    "Skyborn.MK.C16_plain",
    "Skyborn.MK.C16_fused_eq_plain",
    "Skyborn.MK.C16_fused_two",
    "Skyborn.MK.C16_tau",
    "Skyborn.MK.C16_self_partial"
   ],
   "note": ""
  },
  {
   "property": "C160",
   "status": "partial",
   "theorems": [
    "Skyborn.Sphere.C160_history_partial",
    "Skyborn.Sphere.C160_write_false"
   ],
   "note": "All histories of method calls; false when the wind arrays are reassigned."
  },
  {
   "property": "C161",
   "status": "partial",
   "theorems": [
    "Skyborn.Sphere.C161_regrid_partial",
    "Skyborn.Sphere.C161_regrid_false",
    "Skyborn.Sphere.C161_weights_false"
   ],
   "note": "Rests on the stated contract of the compiled analyses (Spec.Exact, shown satisfiable): they recover band-limited fields."
  },
  {
   "property": "C162",
   "status": "partial",
   "theorems": [
    "Skyborn.Sphere.C162_defined_partial",
    "Skyborn.Sphere.C162_defined_false"
   ],
   "note": "Exact criterion T <= nlon/2."
  },
  {
   "property": "C163",
   "status": "partial",
   "theorems": [
    "Skyborn.Sphere.C163_smooth_partial",
    "Skyborn.Sphere.C163_smooth_false"
   ],
   "note": "Rests on the stated contract of the compiled analyses (Spec.Exact, shown satisfiable): they recover band-limited fields."
  },
  {
   "property": "C164",
   "status": "partial",
   "theorems": [
    "Skyborn.Rcm.C164_exact_partial",
    "Skyborn.Rcm.C164_exact_false",
    "Skyborn.Rcm.C164_exact_regular",
    "Skyborn.Rcm.C164_exact_points"
   ],
   "note": "rcm2rgrid: proved outside the fast path or when coordinates drift little along the grid lines, refuted otherwise; rgrid2rcm and rcm2points: proved"
  },
  {
   "property": "C165",
   "status": "proved",
   "theorems": [
    "Skyborn.Rcm.C165_range",
    "Skyborn.Rcm.C165_range_regular",
    "Skyborn.Rcm.C165_range_points"
   ],
   "note": "all three functions"
  },
  {
   "property": "C166",
   "status": "partial",
   "theorems": [
    "Skyborn.Rcm.C166_no_extrapolation",
    "Skyborn.Rcm.C166_no_extrapolation_regular",
    "Skyborn.Rcm.C166_fallback_points",
    "Skyborn.Rcm.C166_no_extrapolation_points_false"
   ],
   "note": "proved for rcm2rgrid (increasing target longitudes) and rgrid2rcm; refuted for rcm2points"
  },
  {
   "property": "C167",
   "status": "proved",
   "theorems": [
    "Skyborn.Rcm.C167_short_gaps",
    "Skyborn.Rcm.C167_reference",
    "Skyborn.Rcm.C167_equivalent"
   ],
   "note": ""
  },
  {
   "property": "C168",
   "status": "partial",
   "theorems": [
    "Skyborn.Rcm.C168_corners_partial",
    "Skyborn.Rcm.C168_surround_false",
    "Skyborn.Rcm.C168_narrow"
   ],
   "note": "refuted (stride two); proved: only corners two apart are used, and two-wide grids interpolate nothing"
  },
  {
   "property": "C169",
   "status": "partial",
   "theorems": [
    "Skyborn.Rcm.C169_bilinear",
    "Skyborn.Rcm.C169_bilinear_points",
    "Skyborn.Rcm.C169_last_edge",
    "Skyborn.Rcm.C169_inverse_distance_false",
    "Skyborn.Rcm.C169_edge_false"
   ],
   "note": "bilinear proved for rgrid2rcm (documented as inverse distance) and rcm2points opt=2; documented formula and last edges refuted"
  },
  {
   "property": "C17",
   "status": "proved",
   "theorems": [
    "Skyborn.MK.Py.C17_lag_limit",
    "Skyborn.MK.Py.C17_lag_limit_short"
   ],
   "note": ""
  },
  {
   "property": "C170",
   "status": "proved",
   "theorems": [
    "Skyborn.Rcm.C170_mean",
    "Skyborn.Rcm.C170_mean_regular",
    "Skyborn.Rcm.C170_missing_regular",
    "Skyborn.Rcm.C170_mean_points"
   ],
   "note": "for rcm2rgrid the cell is two points wide (C168)"
  },
  {
   "property": "C171",
   "status": "partial",
   "theorems": [
    "Skyborn.Rcm.C171_overwritten",
    "Skyborn.Rcm.C171_overwritten_regular",
    "Skyborn.Rcm.C171_restored_points",
    "Skyborn.Rcm.C171_largest_points"
   ],
   "note": "exact effect on the caller's array proved; unchanged only without missing values"
  },
  {
   "property": "C172",
   "status": "partial",
   "theorems": [
    "Skyborn.Rcm.C172_never_refused",
    "Skyborn.Rcm.C172_orientation_false"
   ],
   "note": "refuted: never refused"
  },
  {
   "property": "C173",
   "status": "proved",
   "theorems": [
    "Skyborn.Rcm.C173_targets",
    "Skyborn.Rcm.C173_targets_regular",
    "Skyborn.Rcm.C173_targets_points"
   ],
   "note": "rcm2rgrid: increasing targets, against a two-longitude call (which has no gaps to fill)"
  },
  {
   "property": "C174",
   "status": "proved",
   "theorems": [
    "Skyborn.Rcm.C174_fields",
    "Skyborn.Rcm.C174_fields_regular",
    "Skyborn.Rcm.C174_fields_points"
   ],
   "note": ""
  },
  {
   "property": "C175",
   "status": "proved",
   "theorems": [
    "Skyborn.Rcm.C175_great_circle",
    "Skyborn.Rcm.C175_symmetric",
    "Skyborn.Rcm.C175_le"
   ],
   "note": "exact reals"
  },
  {
   "property": "C176",
   "status": "partial",
   "theorems": [
    "Skyborn.Rcm.C176_accepts",
    "Skyborn.Rcm.C176_accepts_regular",
    "Skyborn.Rcm.C176_accepts_points",
    "Skyborn.Rcm.C176_accepts_points_idw",
    "Skyborn.Rcm.C176_dimensions_false"
   ],
   "note": "exact criterion proved; arbitrary leading dimensions refuted; opt other than 2: sufficient condition"
  },
  {
   "property": "C177",
   "status": "proved",
   "theorems": [
    "Skyborn.Sphere.C177_truncation",
    "Skyborn.Sphere.C177_refused"
   ],
   "note": ""
  },
  {
   "property": "C178",
   "status": "partial",
   "theorems": [
    "Skyborn.Growth.C178_greatest",
    "Skyborn.Growth.C178_second_derivative_false"
   ],
   "note": "greatest eigenvalue proved (exact eigenvalue solver assumed, shown to exist); documented operator refuted"
  },
  {
   "property": "C179",
   "status": "proved",
   "theorems": [
    "Skyborn.Growth.C179_rayleigh_kuo",
    "Skyborn.Growth.C179_rest"
   ],
   "note": "with the discrete vorticity gradient of the code; exact eigenvalue solver assumed"
  },
  {
   "property": "C18",
   "status": "proved",
   "theorems": [
    "Skyborn.MK.Py.C18_hamed_rao",
    "Skyborn.MK.Py.C18_yue_wang",
    "Skyborn.MK.Py.C18_reject"
   ],
   "note": "for every series of length >= 3 and lag: same value including NaN, and lags >= n rejected by both"
  },
  {
   "property": "C180",
   "status": "proved",
   "theorems": [
    "Skyborn.Growth.C180_order",
    "Skyborn.Growth.C180_mirror"
   ],
   "note": "mirror: exact solver; order: any solver"
  },
  {
   "property": "C181",
   "status": "partial",
   "theorems": [
    "Skyborn.Growth.C181_greatest",
    "Skyborn.Growth.C181_maximum_partial"
   ],
   "note": "greatest up to the turning point proved; equals the documented maximum exactly when the last sample does not exceed it"
  },
  {
   "property": "C182",
   "status": "partial",
   "theorems": [
    "Skyborn.Growth.C182_stable_raises",
    "Skyborn.Growth.C182_constant_wind",
    "Skyborn.Growth.C182_two_samples",
    "Skyborn.Growth.C182_two_levels",
    "Skyborn.Growth.C182_documented_false"
   ],
   "note": "refuted: raises status 300 (proved for every stable column), two levels and two samples always raise"
  },
  {
   "property": "C183",
   "status": "proved",
   "theorems": [
    "Skyborn.Growth.C183_galilean"
   ],
   "note": "three or more solver levels, statically stable column, tropopause within the levels, exact solver"
  },
  {
   "property": "C184",
   "status": "proved",
   "theorems": [
    "Skyborn.Growth.C184_mirror",
    "Skyborn.Growth.C184_swap"
   ],
   "note": "any outcome, no contract on the solver needed"
  },
  {
   "property": "C185",
   "status": "partial",
   "theorems": [
    "Skyborn.Growth.C185_pressure",
    "Skyborn.Growth.C185_tropopause",
    "Skyborn.Growth.C185_pressure_false",
    "Skyborn.Growth.C185_tropopause_false"
   ],
   "note": "proved above 20 hPa, refuted below"
  },
  {
   "property": "C186",
   "status": "proved",
   "theorems": [
    "Skyborn.Growth.C186_order"
   ],
   "note": "tropopause inside the levels"
  },
  {
   "property": "C187",
   "status": "partial",
   "theorems": [
    "Skyborn.Growth.C187_rows",
    "Skyborn.Growth.C187_raises",
    "Skyborn.Growth.C187_auto",
    "Skyborn.Growth.C187_auto_raises",
    "Skyborn.Growth.C187_independent_false",
    "Skyborn.Growth.C187_missing"
   ],
   "note": "proved when every profile succeeds alone; refuted when one raises"
  },
  {
   "property": "C188",
   "status": "proved",
   "theorems": [
    "Skyborn.Growth.C188_band",
    "Skyborn.Growth.C188_mean_between",
    "Skyborn.Growth.C188_mean_missing",
    "Skyborn.Growth.C188_empty",
    "Skyborn.Growth.C188_section_refused"
   ],
   "note": "NumPy arrays; a section without a third axis is refused"
  },
  {
   "property": "C189",
   "status": "partial",
   "theorems": [
    "Skyborn.Growth.C189_transpose",
    "Skyborn.Growth.C189_square",
    "Skyborn.Growth.C189_climatology",
    "Skyborn.Growth.C189_scalar",
    "Skyborn.Growth.C189_short"
   ],
   "note": "layouts proved; short profiles raise instead of NaN"
  },
  {
   "property": "C19",
   "status": "proved",
   "theorems": [
    "Skyborn.MK.Py.C19_std_error"
   ],
   "note": ""
  },
  {
   "property": "C190",
   "status": "proved",
   "theorems": [
    "Skyborn.Gpi.C190_nonneg",
    "Skyborn.Gpi.C190_refused",
    "Skyborn.Gpi.C190_energy",
    "Skyborn.Gpi.C190_outflow",
    "Skyborn.Gpi.C190_physics"
   ],
   "note": "exact reals; a saturated parcel temperature that does not converge is status 2"
  },
  {
   "property": "C191",
   "status": "proved",
   "theorems": [
    "Skyborn.Gpi.C191_grid",
    "Skyborn.Gpi.C191_profile"
   ],
   "note": "positive sea-level pressure"
  },
  {
   "property": "C192",
   "status": "proved",
   "theorems": [
    "Skyborn.Gpi.C192_solution",
    "Skyborn.Gpi.C192_equations"
   ],
   "note": "profile given surface first; the other order by C198, grids by C195"
  },
  {
   "property": "C193",
   "status": "partial",
   "theorems": [
    "Skyborn.Gpi.C193_failed_false",
    "Skyborn.Gpi.C193_failed_partial"
   ],
   "note": "refuted; proved: NaN or (sea-level pressure, 0)"
  },
  {
   "property": "C194",
   "status": "proved",
   "theorems": [
    "Skyborn.Gpi.C194_grid",
    "Skyborn.Gpi.C194_profile"
   ],
   "note": ""
  },
  {
   "property": "C195",
   "status": "proved",
   "theorems": [
    "Skyborn.Gpi.C195_slices"
   ],
   "note": ""
  },
  {
   "property": "C196",
   "status": "partial",
   "theorems": [
    "Skyborn.Gpi.C196_four",
    "Skyborn.Gpi.C196_three_false",
    "Skyborn.Gpi.C196_three_partial",
    "Skyborn.Gpi.C196_schedule_false"
   ],
   "note": "four dimensions proved for every schedule, three refuted (flag of the last point)"
  },
  {
   "property": "C197",
   "status": "partial",
   "theorems": [
    "Skyborn.Gpi.C197_gap",
    "Skyborn.Gpi.C197_empty",
    "Skyborn.Gpi.C197_pressure_false",
    "Skyborn.Gpi.C197_interior_false",
    "Skyborn.Gpi.C197_profile_false"
   ],
   "note": "gaps at the bottom and empty profiles proved; pressure, interior levels and profile call refuted"
  },
  {
   "property": "C198",
   "status": "proved",
   "theorems": [
    "Skyborn.Gpi.C198_reversed",
    "Skyborn.Gpi.C198_reversed_log"
   ],
   "note": ""
  },
  {
   "property": "C199",
   "status": "proved",
   "theorems": [
    "Skyborn.Gpi.C199_above",
    "Skyborn.Gpi.C199_actual",
    "Skyborn.Gpi.C199_refused",
    "Skyborn.Gpi.C199_ignored"
   ],
   "note": ""
  },
  {
   "property": "C20",
   "status": "proved",
   "theorems": [
    "Skyborn.MK.Py.C20_least_squares",
    "Skyborn.MK.Py.C20_linear_exact"
   ],
   "note": "batch slope minimises the squared residuals; exact on linear data"
  },
  {
   "property": "C200",
   "status": "partial",
   "theorems": [
    "Skyborn.Gpi.C200_terms_profile",
    "Skyborn.Gpi.C200_terms_grid",
    "Skyborn.Gpi.C200_recomputed",
    "Skyborn.Gpi.C200_units",
    "Skyborn.Gpi.C200_units_refused",
    "Skyborn.Gpi.C200_negative",
    "Skyborn.Gpi.C200_same_profile",
    "Skyborn.Gpi.C200_same_grid",
    "Skyborn.Gpi.C200_source_false",
    "Skyborn.Gpi.C200_ratio_false"
   ],
   "note": "decomposition and invariance proved; outflow_source and the ratio refuted"
  },
  {
   "property": "C201",
   "status": "partial",
   "theorems": [
    "Skyborn.MK.Py.C201_grid_partial",
    "Skyborn.MK.Py.C201_one_dim",
    "Skyborn.MK.Py.C201_chunk_invariant",
    "Skyborn.MK.Py.C201_refused",
    "Skyborn.MK.Py.C201_lengths_refused",
    "Skyborn.MK.Py.C201_counts_false",
    "Skyborn.MK.Py.C201_negative_chunk"
   ],
   "note": "counts below three joint samples and negative chunk sizes refuted; everything else proved"
  },
  {
   "property": "C202",
   "status": "proved",
   "theorems": [
    "Skyborn.MK.Py.C202_joint_only",
    "Skyborn.MK.Py.C202_formula",
    "Skyborn.MK.Py.C202_trend_ignores_covariate",
    "Skyborn.MK.Py.C202_theil_trend",
    "Skyborn.MK.Py.C202_theil_line",
    "Skyborn.MK.Py.C202_least_squares"
   ],
   "note": ""
  },
  {
   "property": "C203",
   "status": "proved",
   "theorems": [
    "Skyborn.MK.Py.C203_increasing",
    "Skyborn.MK.Py.C203_negate_response",
    "Skyborn.MK.Py.C203_negate_covariate"
   ],
   "note": ""
  },
  {
   "property": "C204",
   "status": "proved",
   "theorems": [
    "Skyborn.MK.Py.C204_z",
    "Skyborn.MK.Py.C204_verdict"
   ],
   "note": "scipy's normal cdf/ppf are parameters with a contract (NormalLike)"
  },
  {
   "property": "C205",
   "status": "proved",
   "theorems": [
    "Skyborn.MK.Py.C205_constant_covariate",
    "Skyborn.MK.Py.C205_fully_explained"
   ],
   "note": ""
  },
  {
   "property": "C206",
   "status": "proved",
   "theorems": [
    "Skyborn.MK.Py.C206_labelled",
    "Skyborn.MK.Py.C206_order",
    "Skyborn.MK.Py.C206_refused"
   ],
   "note": "counts as in C201; coordinate labels not modelled"
  },
  {
   "property": "C207",
   "status": "proved",
   "theorems": [
    "Skyborn.RedGauss.C207_analysis"
   ],
   "note": "exact reals; contract of hrfft (real DFT), gaqd and legin as structure Lib.Sound, shown satisfiable"
  },
  {
   "property": "C208",
   "status": "partial",
   "theorems": [
    "Skyborn.RedGauss.C208_rows",
    "Skyborn.RedGauss.C208_synthesis_partial",
    "Skyborn.RedGauss.C208_synthesis_false"
   ],
   "note": "false on rows of at most 2T points; C208_rows gives the value on every row"
  },
  {
   "property": "C209",
   "status": "proved",
   "theorems": [
    "Skyborn.RedGauss.C209_pairs"
   ],
   "note": ""
  },
  {
   "property": "C21",
   "status": "proved",
   "theorems": [
    "Skyborn.Windspharm.C21_recover",
    "Skyborn.Windspharm.C21_round_trip"
   ],
   "note": ""
  },
  {
   "property": "C210",
   "status": "proved",
   "theorems": [
    "Skyborn.RedGauss.C210_gradient"
   ],
   "note": ""
  },
  {
   "property": "C211",
   "status": "partial",
   "theorems": [
    "Skyborn.RedGauss.C211_winds_partial",
    "Skyborn.RedGauss.C211_winds_false"
   ],
   "note": "false on symmetric grids whose rows get shorter towards the equator"
  },
  {
   "property": "C212",
   "status": "proved",
   "theorems": [
    "Skyborn.RedGauss.C212_getuv"
   ],
   "note": ""
  },
  {
   "property": "C213",
   "status": "partial",
   "theorems": [
    "Skyborn.RedGauss.C213_scalar_partial",
    "Skyborn.RedGauss.C213_winds_partial",
    "Skyborn.RedGauss.C213_loss",
    "Skyborn.RedGauss.C213_false"
   ],
   "note": "orders carried by all rows; C213_loss and C213_false for the others"
  },
  {
   "property": "C214",
   "status": "partial",
   "theorems": [
    "Skyborn.RedGauss.C214_same_partial",
    "Skyborn.RedGauss.C211_winds_false"
   ],
   "note": "all calls but the wind analyses on irregular symmetric grids, where it is false (C211_winds_false)"
  },
  {
   "property": "C215",
   "status": "proved",
   "theorems": [
    "Skyborn.RedGauss.C215_refusals"
   ],
   "note": ""
  },
  {
   "property": "C216",
   "status": "partial",
   "theorems": [
    "Skyborn.RedGauss.C216_precision_partial",
    "Skyborn.RedGauss.C216_precision_false"
   ],
   "note": "single and double proved; auto refuted for four methods"
  },
  {
   "property": "C217",
   "status": "proved",
   "theorems": [
    "Skyborn.RedGauss.C217_specsmooth"
   ],
   "note": ""
  },
  {
   "property": "C218",
   "status": "proved",
   "theorems": [
    "Skyborn.RedGauss.C218_construct"
   ],
   "note": ""
  },
  {
   "property": "C219",
   "status": "partial",
   "theorems": [
    "Skyborn.RedWind.C219_fields_partial",
    "Skyborn.RedWind.C219_fields_false"
   ],
   "note": "false on symmetric grids whose rows get shorter towards the equator (witness)"
  },
  {
   "property": "C22",
   "status": "proved",
   "theorems": [
    "Skyborn.Windspharm.C22_prep_layout",
    "Skyborn.Windspharm.C22_place_injective"
   ],
   "note": ""
  },
  {
   "property": "C220",
   "status": "partial",
   "theorems": [
    "Skyborn.RedWind.C220_components_partial"
   ],
   "note": "grids of C211; elsewhere the spectra contain uninitialised memory (C211_winds_false, C219_fields_false)"
  },
  {
   "property": "C221",
   "status": "partial",
   "theorems": [
    "Skyborn.RedWind.C221_planetary",
    "Skyborn.RedWind.C221_absolute_partial"
   ],
   "note": "planetary vorticity and magnitude on every grid; absolute vorticity on the grids of C211"
  },
  {
   "property": "C222",
   "status": "partial",
   "theorems": [
    "Skyborn.RedWind.C222_rossby_partial"
   ],
   "note": "Gaussian rows, truncation at least 1, grids of C211"
  },
  {
   "property": "C223",
   "status": "partial",
   "theorems": [
    "Skyborn.RedWind.C223_round_partial"
   ],
   "note": "Gaussian rows that all carry the truncation, grids of C211"
  },
  {
   "property": "C224",
   "status": "partial",
   "theorems": [
    "Skyborn.RedWind.C224_scalar",
    "Skyborn.RedWind.C224_truncate_partial",
    "Skyborn.RedWind.C224_idempotent_partial"
   ],
   "note": "values on every grid; unchanged/idempotent on Gaussian rows that carry the truncation"
  },
  {
   "property": "C225",
   "status": "proved",
   "theorems": [
    "Skyborn.RedWind.C225_refusals"
   ],
   "note": ""
  },
  {
   "property": "C226",
   "status": "proved",
   "theorems": [
    "Skyborn.RedWind.C226_construct"
   ],
   "note": ""
  },
  {
   "property": "C227",
   "status": "proved",
   "theorems": [
    "Skyborn.RedWind.C227_types"
   ],
   "note": ""
  },
  {
   "property": "C228",
   "status": "proved",
   "theorems": [
    "Skyborn.Gridfill.Xr.C228_labelled",
    "Skyborn.Gridfill.Xr.C228_complete",
    "Skyborn.Gridfill.Xr.C228_order"
   ],
   "note": "fill_multiple is the list of fill results by definition of the model"
  },
  {
   "property": "C229",
   "status": "partial",
   "theorems": [
    "Skyborn.Gridfill.Xr.C229_detected",
    "Skyborn.Gridfill.Xr.C229_named_partial",
    "Skyborn.Gridfill.Xr.C229_one_ignored",
    "Skyborn.Gridfill.Xr.C229_false"
   ],
   "note": "false for a single given name (witness); detection itself proved in full"
  },
  {
   "property": "C23",
   "status": "partial",
   "theorems": [
    "Skyborn.Windspharm.C23_false",
    "Skyborn.Windspharm.C23_recovered_partial"
   ],
   "note": "false of the code for repeated letters (C23_false); holds for every string of distinct letters with x and y and no upper-case X/Y (C23_recovered_partial)"
  },
  {
   "property": "C230",
   "status": "partial",
   "theorems": [
    "Skyborn.Gridfill.Xr.C230_used",
    "Skyborn.Gridfill.Xr.C230_partial",
    "Skyborn.Gridfill.Xr.C230_false"
   ],
   "note": "false for coarse global grids (witness); true for spacing below 10 degrees and for spans of at most 340 degrees"
  },
  {
   "property": "C231",
   "status": "proved",
   "theorems": [
    "Skyborn.Gridfill.Xr.C231_report",
    "Skyborn.Gridfill.Xr.C231_empty_slice_unnoticed"
   ],
   "note": "both dimensions named"
  },
  {
   "property": "C232",
   "status": "proved",
   "theorems": [
    "Skyborn.Trop.Xr.C232_named",
    "Skyborn.Trop.Xr.C232_profile",
    "Skyborn.Trop.Xr.sortLevels_neg"
   ],
   "note": "NaN values and attributes not modelled"
  },
  {
   "property": "C233",
   "status": "partial",
   "theorems": [
    "Skyborn.Trop.Xr.C233_partial",
    "Skyborn.Trop.Xr.C233_profile",
    "Skyborn.Trop.Xr.C233_false"
   ],
   "note": "false for year and yr (witness)"
  },
  {
   "property": "C234",
   "status": "partial",
   "theorems": [
    "Skyborn.Trop.Xr.C234_partial",
    "Skyborn.Trop.Xr.C234_false"
   ],
   "note": "false for decreasing pressure (witness)"
  },
  {
   "property": "C235",
   "status": "partial",
   "theorems": [
    "Skyborn.Trop.Xr.C235_order",
    "Skyborn.Trop.Xr.C235_generated_partial",
    "Skyborn.Trop.Xr.C235_false"
   ],
   "note": "order proved; generated pressure false for unknown level names (witness)"
  },
  {
   "property": "C236",
   "status": "partial",
   "theorems": [
    "Skyborn.Trop.Xr.C236_partial",
    "Skyborn.Trop.Xr.C236_false"
   ],
   "note": "false for too few unsorted values: equal to the call with the last levels cut off"
  },
  {
   "property": "C237",
   "status": "proved",
   "theorems": [
    "Skyborn.Sphere.C237_slices"
   ],
   "note": ""
  },
  {
   "property": "C238",
   "status": "partial",
   "theorems": [
    "Skyborn.WindXr.C238_labels_partial",
    "Skyborn.WindXr.C238_history",
    "Skyborn.WindXr.C238_labels_false"
   ],
   "note": "false for a latitude dimension without a coordinate (witness); proved with one, for sizes the transforms accept"
  },
  {
   "property": "C239",
   "status": "proved",
   "theorems": [
    "Skyborn.WindXr.C239_presentation"
   ],
   "note": "latitudes strictly monotonic, sizes the transforms accept"
  },
  {
   "property": "C24",
   "status": "proved",
   "theorems": [
    "Skyborn.Windspharm.C24_reverse",
    "Skyborn.Windspharm.C24_involution",
    "Skyborn.Windspharm.C24_order_triples",
    "Skyborn.Windspharm.C24_order_monotone",
    "Skyborn.Windspharm.C24_order_idempotent"
   ],
   "note": ""
  },
  {
   "property": "C240",
   "status": "partial",
   "theorems": [
    "Skyborn.WindXr.C240_exact_partial",
    "Skyborn.WindXr.C240_longitudes_false"
   ],
   "note": "false when longitude labels are not those of the grid (witness); proved on the grid of the transform, whose analyses are assumed exact (contract of the compiled SPHEREPACK analysis)"
  },
  {
   "property": "C241",
   "status": "partial",
   "theorems": [
    "Skyborn.WindXr.C241_accept_partial"
   ],
   "note": "up to 1280 latitudes and 2^30 longitudes; beyond, the size test of the workspaces is not characterised"
  },
  {
   "property": "C242",
   "status": "partial",
   "theorems": [
    "Skyborn.WindXr.C242_fields_partial",
    "Skyborn.WindXr.C242_exact_partial",
    "Skyborn.WindXr.C242_latitudes_false"
   ],
   "note": "false when the field is on other latitudes (witness); proved on the grid of the wind"
  },
  {
   "property": "C243",
   "status": "proved",
   "theorems": [
    "Skyborn.Gpi.Xr.C243_units",
    "Skyborn.Gpi.Xr.C243_refused"
   ],
   "note": "units attributes that are strings; ASCII case and blanks"
  },
  {
   "property": "C244",
   "status": "partial",
   "theorems": [
    "Skyborn.Gpi.Xr.C244_columns_partial",
    "Skyborn.Gpi.Xr.C244_same",
    "Skyborn.Gpi.Xr.C244_profile",
    "Skyborn.Gpi.Xr.C244_surface_false",
    "Skyborn.Gpi.Xr.C244_time_false"
   ],
   "note": "false for surface fields in another order and for a time that is not first (witnesses); proved otherwise, for arrays without missing values"
  },
  {
   "property": "C245",
   "status": "partial",
   "theorems": [
    "Skyborn.Gpi.Xr.C245_names_partial",
    "Skyborn.Gpi.Xr.C245_false"
   ],
   "note": "false for year and yr (witness); proved for all other names"
  },
  {
   "property": "C246",
   "status": "proved",
   "theorems": [
    "Skyborn.Plot.C246_spacing"
   ],
   "note": "qsort by its contract; long without overflow"
  },
  {
   "property": "C247",
   "status": "proved",
   "theorems": [
    "Skyborn.Plot.C247_maximal"
   ],
   "note": ""
  },
  {
   "property": "C248",
   "status": "proved",
   "theorems": [
    "Skyborn.Plot.C248_same_as_mapped"
   ],
   "note": ""
  },
  {
   "property": "C249",
   "status": "proved",
   "theorems": [
    "Skyborn.Plot.C249_edges"
   ],
   "note": ""
  },
  {
   "property": "C25",
   "status": "proved",
   "theorems": [
    "Skyborn.Windspharm.C25_apiorder",
    "Skyborn.Windspharm.C25_errors",
    "Skyborn.Windspharm.C25_transpose_restores"
   ],
   "note": ""
  },
  {
   "property": "C250",
   "status": "proved",
   "theorems": [
    "Skyborn.Plot.C250_corners"
   ],
   "note": ""
  },
  {
   "property": "C251",
   "status": "proved",
   "theorems": [
    "Skyborn.Plot.C251_inside"
   ],
   "note": "rectilinear cells; a corner is finite or not as a whole"
  },
  {
   "property": "C252",
   "status": "partial",
   "theorems": [
    "Skyborn.Plot.C252_lattice_partial",
    "Skyborn.Plot.C252_false"
   ],
   "note": "false for two or more selected cells (witness); proved for one"
  },
  {
   "property": "C253",
   "status": "proved",
   "theorems": [
    "Skyborn.Plot.C253_points"
   ],
   "note": ""
  },
  {
   "property": "C254",
   "status": "proved",
   "theorems": [
    "Skyborn.Plot.C254_cells"
   ],
   "note": "rectilinear grids with finite strictly monotone axes"
  },
  {
   "property": "C255",
   "status": "proved",
   "theorems": [
    "Skyborn.Plot.C255_axes",
    "Skyborn.Plot.C255_all_drawn"
   ],
   "note": ""
  },
  {
   "property": "C256",
   "status": "partial",
   "theorems": [
    "Skyborn.Plot.C256_rgba_partial",
    "Skyborn.Plot.C256_false"
   ],
   "note": "false when four points meet a four-number colour (witness); proved otherwise"
  },
  {
   "property": "C257",
   "status": "proved",
   "theorems": [
    "Skyborn.Plot.C257_density"
   ],
   "note": "scalar density"
  },
  {
   "property": "C258",
   "status": "proved",
   "theorems": [
    "Skyborn.Plot.Contour.C258_distances"
   ],
   "note": "qsort by its contract; rounding not modelled"
  },
  {
   "property": "C259",
   "status": "partial",
   "theorems": [
    "Skyborn.Plot.Contour.C259_apart_partial",
    "Skyborn.Plot.Contour.C259_drawn_partial",
    "Skyborn.Plot.Contour.C259_false"
   ],
   "note": "false for lines shorter than 1.6 arrow lengths (witness)"
  },
  {
   "property": "C26",
   "status": "proved",
   "theorems": [
    "Skyborn.Windspharm.C26_to3d",
    "Skyborn.Windspharm.C26_low_rank"
   ],
   "note": "np.asarray drops the mask of masked arrays: not modelled"
  },
  {
   "property": "C260",
   "status": "proved",
   "theorems": [
    "Skyborn.Plot.Contour.C260_geometry",
    "Skyborn.Plot.Contour.C260_rows"
   ],
   "note": ""
  },
  {
   "property": "C261",
   "status": "partial",
   "theorems": [
    "Skyborn.Plot.Contour.C261_partial",
    "Skyborn.Plot.Contour.C261_false"
   ],
   "note": "false for self-touching lines (witness)"
  },
  {
   "property": "C262",
   "status": "proved",
   "theorems": [
    "Skyborn.Plot.Contour.C262_closed",
    "Skyborn.Plot.Contour.C262_opposite",
    "Skyborn.Plot.Contour.C262_forward"
   ],
   "note": "polygons of non-zero area as displayed"
  },
  {
   "property": "C263",
   "status": "partial",
   "theorems": [
    "Skyborn.Plot.Contour.C263_partial",
    "Skyborn.Plot.Contour.C263_false"
   ],
   "note": "false as documented (witness with default sizes); exact relation proved"
  },
  {
   "property": "C264",
   "status": "partial",
   "theorems": [
    "Skyborn.Plot.Length.C264_partial",
    "Skyborn.Plot.Length.C264_false"
   ],
   "note": "false in one combination of options (witness)"
  },
  {
   "property": "C265",
   "status": "partial",
   "theorems": [
    "Skyborn.Plot.Length.C265_partial",
    "Skyborn.Plot.Length.C265_false",
    "Skyborn.Plot.Length.C265_proportional"
   ],
   "note": "false below 1e-12 (witness)"
  },
  {
   "property": "C266",
   "status": "proved",
   "theorems": [
    "Skyborn.Plot.Length.C266_min"
   ],
   "note": ""
  },
  {
   "property": "C267",
   "status": "partial",
   "theorems": [
    "Skyborn.Plot.Length.C267_partial",
    "Skyborn.Plot.Length.C267_false"
   ],
   "note": "false beyond the strongest magnitude (witness)"
  },
  {
   "property": "C268",
   "status": "proved",
   "theorems": [
    "Skyborn.Plot.Curly.C268_bounds",
    "Skyborn.Plot.Curly.C268_value",
    "Skyborn.Plot.Curly.C268_exact",
    "Skyborn.Plot.Curly.C268_range"
   ],
   "note": ""
  },
  {
   "property": "C269",
   "status": "partial",
   "theorems": [
    "Skyborn.Plot.Curly.C269_partial",
    "Skyborn.Plot.Curly.C269_false"
   ],
   "note": "false next to a missing node (witness)"
  },
  {
   "property": "C27",
   "status": "proved",
   "theorems": [
    "Skyborn.Gridfill.C27_fill_keeps_observed",
    "Skyborn.Gridfill.C27_observed_unchanged"
   ],
   "note": "public fill on N-D arrays and kernel level (total, no out-of-bounds access)"
  },
  {
   "property": "C270",
   "status": "proved",
   "theorems": [
    "Skyborn.Plot.Curly.C270_bounds",
    "Skyborn.Plot.Curly.C270_state",
    "Skyborn.Plot.Curly.C270_missing",
    "Skyborn.Plot.Curly.C270_affine"
   ],
   "note": ""
  },
  {
   "property": "C271",
   "status": "proved",
   "theorems": [
    "Skyborn.Plot.Curly.C271_step",
    "Skyborn.Plot.Curly.C271_trace"
   ],
   "note": ""
  },
  {
   "property": "C272",
   "status": "proved",
   "theorems": [
    "Skyborn.Plot.Curly.C272_clip",
    "Skyborn.Plot.Curly.C272_trace"
   ],
   "note": ""
  },
  {
   "property": "C273",
   "status": "partial",
   "theorems": [
    "Skyborn.Plot.Curly.C273_partial",
    "Skyborn.Plot.Curly.C273_false"
   ],
   "note": "false without slack (witness); proved up to half a step"
  },
  {
   "property": "C274",
   "status": "partial",
   "theorems": [
    "Skyborn.Plot.Curly.C274_partial",
    "Skyborn.Plot.Curly.C274_first",
    "Skyborn.Plot.Curly.C274_false"
   ],
   "note": "false (witness); proved: collinear, first step downwind"
  },
  {
   "property": "C275",
   "status": "proved",
   "theorems": [
    "Skyborn.Plot.Curly.C275_kinks"
   ],
   "note": ""
  },
  {
   "property": "C276",
   "status": "partial",
   "theorems": [
    "Skyborn.Plot.Curly.C276_partial",
    "Skyborn.Plot.Curly.C276_false"
   ],
   "note": "false (witness); proved: drawn glyphs are straight and monotone"
  },
  {
   "property": "C277",
   "status": "proved",
   "theorems": [
    "Skyborn.Plot.Curly.C277_anchor",
    "Skyborn.Plot.Curly.C277_length"
   ],
   "note": ""
  },
  {
   "property": "C278",
   "status": "proved",
   "theorems": [
    "Skyborn.Plot.Curly.C278_shape",
    "Skyborn.Plot.Curly.C278_straight"
   ],
   "note": ""
  },
  {
   "property": "C279",
   "status": "proved",
   "theorems": [
    "Skyborn.Plot.Curly.C279_drawn"
   ],
   "note": "for affine display maps"
  },
  {
   "property": "C28",
   "status": "proved",
   "theorems": [
    "Skyborn.Gridfill.C28_core",
    "Skyborn.Gridfill.C28_max_principle"
   ],
   "note": "C28_core: bounds from observed values and initial guesses; C28_max_principle: bounds from observations, custom value and the values under the mask"
  },
  {
   "property": "C280",
   "status": "proved",
   "theorems": [
    "Skyborn.Plot.Curly.C280_size",
    "Skyborn.Plot.Curly.C280_edge"
   ],
   "note": ""
  },
  {
   "property": "C281",
   "status": "proved",
   "theorems": [
    "Skyborn.Plot.Curly.C281_bounds",
    "Skyborn.Plot.Curly.C281_batch"
   ],
   "note": ""
  },
  {
   "property": "C282",
   "status": "proved",
   "theorems": [
    "Skyborn.Plot.Curly.C282_assemble"
   ],
   "note": ""
  },
  {
   "property": "C283",
   "status": "proved",
   "theorems": [
    "Skyborn.Plot.Curly.C283_missing",
    "Skyborn.Plot.Curly.C283_seam",
    "Skyborn.Plot.Curly.C283_kept"
   ],
   "note": ""
  },
  {
   "property": "C284",
   "status": "partial",
   "theorems": [
    "Skyborn.Plot.Curly.C284_false",
    "Skyborn.Plot.Curly.C284_partial"
   ],
   "note": "false as expected by users: a regular panel whose cells are more than 12:1 loses all its cells; C284_partial gives the exact condition"
  },
  {
   "property": "C285",
   "status": "proved",
   "theorems": [
    "Skyborn.Plot.Curly.C285_resize"
   ],
   "note": "sides of at least 1e-6 pixels"
  },
  {
   "property": "C286",
   "status": "partial",
   "theorems": [
    "Skyborn.Plot.Curly.C286_false",
    "Skyborn.Plot.Curly.C286_partial",
    "Skyborn.Plot.Curly.C286_uniform"
   ],
   "note": "false for coordinates spaced by about 1e-8 or less (absolute tolerance of np.allclose); C286_partial gives the bound that holds"
  },
  {
   "property": "C287",
   "status": "proved",
   "theorems": [
    "Skyborn.Plot.Curly.C287_boxes"
   ],
   "note": "np.linspace in exact arithmetic"
  },
  {
   "property": "C288",
   "status": "proved",
   "theorems": [
    "Skyborn.Plot.Curly.C288_centers"
   ],
   "note": "display map sampled on the grid"
  },
  {
   "property": "C289",
   "status": "proved",
   "theorems": [
    "Skyborn.Plot.Curly.C289_starts"
   ],
   "note": ""
  },
  {
   "property": "C29",
   "status": "proved",
   "theorems": [
    "Skyborn.Gridfill.C29_nothing_missing",
    "Skyborn.Gridfill.C29_converged",
    "Skyborn.Gridfill.C29_solves_equation",
    "Skyborn.Gridfill.C29_itermax_zero"
   ],
   "note": "exact arithmetic; C29_itermax_zero records that itermax=0 reports converged without any sweep"
  },
  {
   "property": "C290",
   "status": "proved",
   "theorems": [
    "Skyborn.Plot.Curly.C290_placed"
   ],
   "note": "witness squarePlot_glyph; coordinates as vectors; display map sampled on the grid"
  },
  {
   "property": "C291",
   "status": "proved",
   "theorems": [
    "Skyborn.Plot.Curly.C291_errors"
   ],
   "note": "shape and option-name errors not modelled"
  },
  {
   "property": "C292",
   "status": "proved",
   "theorems": [
    "Skyborn.Plot.Curly.C292_lengths"
   ],
   "note": ""
  },
  {
   "property": "C293",
   "status": "proved",
   "theorems": [
    "Skyborn.Plot.Curly.C293_style"
   ],
   "note": ""
  },
  {
   "property": "C294",
   "status": "proved",
   "theorems": [
    "Skyborn.Plot.Curly.C294_lines"
   ],
   "note": "open heads"
  },
  {
   "property": "C295",
   "status": "proved",
   "theorems": [
    "Skyborn.Plot.Curly.C295_uniform"
   ],
   "note": "arrows anchored at their tail and not longer than one step"
  },
  {
   "property": "C296",
   "status": "partial",
   "theorems": [
    "Skyborn.Plot.Curly.C296_false",
    "Skyborn.Plot.Curly.C296_elongated"
   ],
   "note": "false for cells more than 12:1 on the panel (C296_elongated: nothing is drawn); for 12:1 or less see C295_uniform"
  },
  {
   "property": "C297",
   "status": "proved",
   "theorems": [
    "Skyborn.Plot.Prep.C297_orientation"
   ],
   "note": "coordinates as vectors"
  },
  {
   "property": "C298",
   "status": "proved",
   "theorems": [
    "Skyborn.Plot.Prep.C298_global"
   ],
   "note": ""
  },
  {
   "property": "C299",
   "status": "partial",
   "theorems": [
    "Skyborn.Plot.Prep.C299_false",
    "Skyborn.Plot.Prep.C299_partial",
    "Skyborn.Plot.Prep.C299_endpoint"
   ],
   "note": "false for cyclic endpoints (C299_endpoint); C299_partial says exactly which ascending axes fail"
  },
  {
   "property": "C30",
   "status": "proved",
   "theorems": [
    "Skyborn.Gridfill.C30_neighbours",
    "Skyborn.Gridfill.C30_shift",
    "Skyborn.Gridfill.C27_observed_unchanged"
   ],
   "note": "index bounds, wrap/reflect, memory safety of the whole kernel, shift equivariance of the exact solution"
  },
  {
   "property": "C300",
   "status": "partial",
   "theorems": [
    "Skyborn.Plot.Prep.C300_false",
    "Skyborn.Plot.Prep.C300_gap",
    "Skyborn.Plot.Prep.C300_partial"
   ],
   "note": "false for grids covering 300 degrees or more (C300_gap: values in the gap); holds below (C300_partial)"
  },
  {
   "property": "C301",
   "status": "partial",
   "theorems": [
    "Skyborn.Plot.Prep.C301_false",
    "Skyborn.Plot.Prep.C301_partial"
   ],
   "note": "false for regional grids; holds for grids taken as global (C301_partial)"
  },
  {
   "property": "C302",
   "status": "proved",
   "theorems": [
    "Skyborn.Plot.Prep.C302_order",
    "Skyborn.Plot.Prep.C302_axes",
    "Skyborn.Plot.Prep.C302_values"
   ],
   "note": "values with ascending axes and no missing data; any order by C302_order"
  },
  {
   "property": "C303",
   "status": "proved",
   "theorems": [
    "Skyborn.Plot.Prep.C303_accepted"
   ],
   "note": ""
  },
  {
   "property": "C304",
   "status": "proved",
   "theorems": [
    "Skyborn.Interp.Multi.C304_linear"
   ],
   "note": ""
  },
  {
   "property": "C305",
   "status": "proved",
   "theorems": [
    "Skyborn.Interp.Multi.C305_outside"
   ],
   "note": ""
  },
  {
   "property": "C306",
   "status": "partial",
   "theorems": [
    "Skyborn.Interp.Multi.C306_false",
    "Skyborn.Interp.Multi.C306_partial"
   ],
   "note": "false (C306_false); C306_partial says which points are missing"
  },
  {
   "property": "C307",
   "status": "proved",
   "theorems": [
    "Skyborn.Interp.Multi.C307_cyclic"
   ],
   "note": ""
  },
  {
   "property": "C308",
   "status": "partial",
   "theorems": [
    "Skyborn.Interp.Multi.C308_false",
    "Skyborn.Interp.Multi.C308_seam",
    "Skyborn.Interp.Multi.C307_cyclic"
   ],
   "note": "false for descending longitudes (C308_false, C308_seam); ascending ones: C307_cyclic"
  },
  {
   "property": "C309",
   "status": "partial",
   "theorems": [
    "Skyborn.Interp.Multi.C309_false",
    "Skyborn.Interp.Multi.C309_partial"
   ],
   "note": "false; C309_partial: it fails exactly if there is a leading dimension"
  },
  {
   "property": "C31",
   "status": "partial",
   "theorems": [
    "Skyborn.Gridfill.C31_constant",
    "Skyborn.Gridfill.C31_zonal_mean_partial",
    "Skyborn.Gridfill.C31_zonal_linear_cyclic",
    "Skyborn.Gridfill.C31_zonal_linear_noncyclic_partial",
    "Skyborn.Gridfill.C31_false"
   ],
   "note": "False of the code as stated (C31_false): zonal mean of an all-missing row and zonal linear at column 1 of a non-cyclic grid keep the filler. Proved: constant mode; zonal mean on rows with data; zonal linear exactly (ramp A+(l-1)(B-A)/(l+r-1) between bracketing observations), cyclic in full, non-cyclic for gaps with both brackets."
  },
  {
   "property": "C310",
   "status": "proved",
   "theorems": [
    "Skyborn.Interp.Multi.C310_nearest"
   ],
   "note": ""
  },
  {
   "property": "C311",
   "status": "proved",
   "theorems": [
    "Skyborn.Interp.Multi.C311_extrapolate"
   ],
   "note": ""
  },
  {
   "property": "C312",
   "status": "proved",
   "theorems": [
    "Skyborn.Sphere.Leg.C312_legendre"
   ],
   "note": "exact reals"
  },
  {
   "property": "C313",
   "status": "proved",
   "theorems": [
    "Skyborn.Sphere.Leg.C313_errors"
   ],
   "note": ""
  },
  {
   "property": "C314",
   "status": "proved",
   "theorems": [
    "Skyborn.Sphere.Leg.C314_point"
   ],
   "note": "one-dimensional coefficient arrays"
  },
  {
   "property": "C315",
   "status": "proved",
   "theorems": [
    "Skyborn.Sphere.Leg.C315_grid"
   ],
   "note": "spectogrd as the documented series (Sphere)"
  },
  {
   "property": "C316",
   "status": "proved",
   "theorems": [
    "Skyborn.Sphere.Leg.C316_refused"
   ],
   "note": "one-dimensional arrays; empty ones are outside the model"
  },
  {
   "property": "C317",
   "status": "proved",
   "theorems": [
    "Skyborn.Sphere.Geodesic.C317_sizes"
   ],
   "note": ""
  },
  {
   "property": "C318",
   "status": "proved",
   "theorems": [
    "Skyborn.Sphere.Geodesic.C318_ranges"
   ],
   "note": "exact reals"
  },
  {
   "property": "C319",
   "status": "proved",
   "theorems": [
    "Skyborn.Sphere.Geodesic.C319_mesh"
   ],
   "note": "exact reals; for larger m the code takes points close to the poles for the poles (x^2+y^2 < 1e-14)"
  },
  {
   "property": "C32",
   "status": "proved",
   "theorems": [
    "Skyborn.Gridfill.C32_fill_slices",
    "Skyborn.Gridfill.C32_fill_errors",
    "Skyborn.Gridfill.C32_needs_mask"
   ],
   "note": "slice-by-slice semantics of fill, error conditions; nomask input is refused"
  },
  {
   "property": "C320",
   "status": "proved",
   "theorems": [
    "Skyborn.Sphere.Geodesic.C320_distinct"
   ],
   "note": "exact reals, m up to 8 000 000"
  },
  {
   "property": "C321",
   "status": "proved",
   "theorems": [
    "Skyborn.Sphere.Geodesic.C321_antipodes"
   ],
   "note": "exact reals, m up to 8 000 000"
  },
  {
   "property": "C322",
   "status": "proved",
   "theorems": [
    "Skyborn.Sphere.Geodesic.C322_icosahedron"
   ],
   "note": "exact reals"
  },
  {
   "property": "C323",
   "status": "proved",
   "theorems": [
    "Skyborn.Regrid.C323_values",
    "Skyborn.Regrid.C323_bilinear",
    "Skyborn.Regrid.C323_conservative",
    "Skyborn.Regrid.C323_nearest"
   ],
   "note": "coordinates depending on both horizontal dimensions, attributes and rounding not modelled; nearest with the compiled search"
  },
  {
   "property": "C324",
   "status": "proved",
   "theorems": [
    "Skyborn.Regrid.C324_latitude_order"
   ],
   "note": ""
  },
  {
   "property": "C325",
   "status": "partial",
   "theorems": [
    "Skyborn.Regrid.C325_partial",
    "Skyborn.Regrid.C325_false"
   ],
   "note": "false: the result is converted to the integer dtype, i.e. truncated (C325_false); C325_partial describes it exactly"
  },
  {
   "property": "C326",
   "status": "proved",
   "theorems": [
    "Skyborn.Regrid.C326_bilinear_accepts",
    "Skyborn.Regrid.C326_method"
   ],
   "note": ""
  },
  {
   "property": "C327",
   "status": "partial",
   "theorems": [
    "Skyborn.Regrid.C327_partial",
    "Skyborn.Regrid.C327_false"
   ],
   "note": "false for the convenience function: it detects conventional names before using those given (C327_false); C327_partial says when it works"
  },
  {
   "property": "C328",
   "status": "proved",
   "theorems": [
    "Skyborn.Regrid.C328_untouched"
   ],
   "note": ""
  },
  {
   "property": "C329",
   "status": "proved",
   "theorems": [
    "Skyborn.Regrid.C329_wrong_grid"
   ],
   "note": ""
  },
  {
   "property": "C33",
   "status": "partial",
   "theorems": [
    "Skyborn.Gradients.C33_rejected",
    "Skyborn.Gradients.C33_shape",
    "Skyborn.Gradients.C33_affine_partial",
    "Skyborn.Gradients.C33_affine_tolerance",
    "Skyborn.Gradients.C33_quadratic_partial",
    "Skyborn.Gradients.C33_linear",
    "Skyborn.Gradients.C33_meridional",
    "Skyborn.Gradients.C33_vertical_partial",
    "Skyborn.Gradients.C33_false"
   ],
   "note": "exact on affine lines and interior points of quadratics when the steps are equal or not nearly equal (np.allclose); within a relative 1e-5 + 1e-8/|step| otherwise; C33_false: coordinates 0, 1e-9, 3e-9 are treated as uniform"
  },
  {
   "property": "C330",
   "status": "proved",
   "theorems": [
    "Skyborn.Sphere.Gaqd.C330_shape"
   ],
   "note": ""
  },
  {
   "property": "C331",
   "status": "proved",
   "theorems": [
    "Skyborn.Sphere.Gaqd.C331_symmetric"
   ],
   "note": ""
  },
  {
   "property": "C332",
   "status": "proved",
   "theorems": [
    "Skyborn.Sphere.Gaqd.C332_weights"
   ],
   "note": "exact arithmetic; a division by zero in the raw weight formula counts as 0"
  },
  {
   "property": "C333",
   "status": "partial",
   "theorems": [
    "Skyborn.Sphere.Gaqd.C333_nodes_partial"
   ],
   "note": "proved: the iterated function is a positive multiple of the Legendre polynomial, with its true derivative; each point is reached by at most 51 clamped Newton steps from the stated start (fewer only within the tolerance), its weight is Yakimiw's at the point before the last step, and a step that does not move is at a zero; missing: convergence of the iteration, and distinctness of the zeros reached (only approximate even in exact arithmetic)"
  },
  {
   "property": "C334",
   "status": "proved",
   "theorems": [
    "Skyborn.Plot.Gradient.C334_position"
   ],
   "note": "np.interp is an arbitrary function"
  },
  {
   "property": "C335",
   "status": "partial",
   "theorems": [
    "Skyborn.Plot.Gradient.C335_partial",
    "Skyborn.Plot.Gradient.C335_false"
   ],
   "note": "false where the named curve is the upper one: the whole column gets the low end of the colours (C335_false, for every interpolation that reproduces constants); exact description in C335_partial"
  },
  {
   "property": "C336",
   "status": "proved",
   "theorems": [
    "Skyborn.Plot.Gradient.C336_runs"
   ],
   "note": ""
  },
  {
   "property": "C34",
   "status": "partial",
   "theorems": [
    "Skyborn.Gradients.C34_scale_partial",
    "Skyborn.Gradients.C34_false",
    "Skyborn.Gradients.C34_default_rejected"
   ],
   "note": "false of the code: distances are converted from degrees twice, so the result is 180/pi times the zonal derivative (C34_scale_partial, C34_false); default 3-D/4-D layouts are rejected (C34_default_rejected)"
  },
  {
   "property": "C35",
   "status": "proved",
   "theorems": [
    "Skyborn.Regrid.C35_bracket",
    "Skyborn.Regrid.C35_single"
   ],
   "note": ""
  },
  {
   "property": "C36",
   "status": "proved",
   "theorems": [
    "Skyborn.Regrid.C36_bilinear",
    "Skyborn.Regrid.C36_range",
    "Skyborn.Regrid.C36_exact",
    "Skyborn.Regrid.C36_reproduces",
    "Skyborn.Regrid.C36_linear",
    "Skyborn.Regrid.C36_rejected",
    "Skyborn.Regrid.C36_missing"
   ],
   "note": "strictly increasing source axes, any target axes; C36_missing describes the compiled path (a missing corner with weight 0 still counts, see C61)"
  },
  {
   "property": "C37",
   "status": "proved",
   "theorems": [
    "Skyborn.Regrid.C37_latitude_weights",
    "Skyborn.Regrid.C37_latitude_share",
    "Skyborn.Regrid.C37_longitude_weights",
    "Skyborn.Regrid.C37_rejected",
    "Skyborn.Regrid.C37_range",
    "Skyborn.Regrid.C37_constant"
   ],
   "note": ""
  },
  {
   "property": "C38",
   "status": "proved",
   "theorems": [
    "Skyborn.Regrid.C38_latitude_integral",
    "Skyborn.Regrid.C38_total_area"
   ],
   "note": "target cells with area above 1e-15 (smaller ones get uniform weights by design)"
  },
  {
   "property": "C39",
   "status": "partial",
   "theorems": [
    "Skyborn.Regrid.C39_share_partial",
    "Skyborn.Regrid.C39_conserves_partial",
    "Skyborn.Regrid.C39_false"
   ],
   "note": "false of the code for wide cells (C39_false: 3-point grids); proved when the two cells together span at most half the circle"
  },
  {
   "property": "C40",
   "status": "proved",
   "theorems": [
    "Skyborn.Regrid.C40_masked_mean",
    "Skyborn.Regrid.C40_complete",
    "Skyborn.Regrid.C40_rejected"
   ],
   "note": ""
  },
  {
   "property": "C41",
   "status": "proved",
   "theorems": [
    "Skyborn.Regrid.C41_nearest",
    "Skyborn.Regrid.C41_copies",
    "Skyborn.Regrid.C41_rejected",
    "Skyborn.Regrid.C41_nearest_value"
   ],
   "note": "compiled search; the default BallTree search is external, C41_copies holds for any index table"
  },
  {
   "property": "C42",
   "status": "proved",
   "theorems": [
    "Skyborn.Interp.C42_positions",
    "Skyborn.Interp.C42_roundtrip",
    "Skyborn.Interp.C42_roundtrip_default",
    "Skyborn.Interp.C42_sentinel_lost"
   ],
   "note": ""
  },
  {
   "property": "C43",
   "status": "proved",
   "theorems": [
    "Skyborn.Spectral.C43_bijection",
    "Skyborn.Spectral.C43_getspecindx",
    "Skyborn.Spectral.C43_roundtrip",
    "Skyborn.Spectral.C43_truncate",
    "Skyborn.Spectral.C43_position"
   ],
   "note": "exact arithmetic"
  },
  {
   "property": "C44",
   "status": "proved",
   "theorems": [
    "Skyborn.Spectral.C44_truncation",
    "Skyborn.Spectral.C44_largest"
   ],
   "note": "over the reals; the square root is exact there"
  },
  {
   "property": "C45",
   "status": "proved",
   "theorems": [
    "Skyborn.Spectral.C45_invlap_lap",
    "Skyborn.Spectral.C45_lap_invlap",
    "Skyborn.Spectral.C45_eigenvalue",
    "Skyborn.Spectral.C45_linear"
   ],
   "note": ""
  },
  {
   "property": "C46",
   "status": "proved",
   "theorems": [
    "Skyborn.Spectral.C46_roundtrip"
   ],
   "note": "also: the degree-0 coefficient always comes back non-finite (rsphere/sqrt(0))"
  },
  {
   "property": "C47",
   "status": "proved",
   "theorems": [
    "Skyborn.Spectral.C47_factor",
    "Skyborn.Spectral.C47_ones",
    "Skyborn.Spectral.C47_compose",
    "Skyborn.Spectral.C47_commutes_lap"
   ],
   "note": ""
  },
  {
   "property": "C48",
   "status": "proved",
   "theorems": [
    "Skyborn.Calc.C48_nan",
    "Skyborn.Calc.C48_width",
    "Skyborn.Calc.C48_narrowest"
   ],
   "note": ""
  },
  {
   "property": "C49",
   "status": "proved",
   "theorems": [
    "Skyborn.Calc.C49_rejected",
    "Skyborn.Calc.C49_least_squares",
    "Skyborn.Calc.C49_residuals",
    "Skyborn.Calc.C49_invalid_ignored",
    "Skyborn.Calc.C49_prediction_error"
   ],
   "note": ""
  },
  {
   "property": "C50",
   "status": "proved",
   "theorems": [
    "Skyborn.MK.C50_correlated_closed_form",
    "Skyborn.MK.C50_correlated_variance_nonneg",
    "Skyborn.MK.C50_partial_variance_nonneg"
   ],
   "note": ""
  },
  {
   "property": "C51",
   "status": "proved",
   "theorems": [
    "Skyborn.MK.Py.C51_h_iff_p"
   ],
   "note": "for any cdf/ppf pair satisfying NormalLike (shown satisfiable)"
  },
  {
   "property": "C52",
   "status": "partial",
   "theorems": [
    "Skyborn.MK.Py.C52_partial",
    "Skyborn.MK.Py.C52_false"
   ],
   "note": "false of the code for std_error (C52_false); all other fields agree (C52_partial)"
  },
  {
   "property": "C53",
   "status": "proved",
   "theorems": [
    "Skyborn.MK.Py.C53_p_range"
   ],
   "note": ""
  },
  {
   "property": "C54",
   "status": "proved",
   "theorems": [
    "Skyborn.MK.Py.C54_original_defined"
   ],
   "note": ""
  },
  {
   "property": "C55",
   "status": "proved",
   "theorems": [
    "Skyborn.Spectral.C55_in_bounds"
   ],
   "note": ""
  },
  {
   "property": "C56",
   "status": "proved",
   "theorems": [
    "Skyborn.Spectral.C56_components"
   ],
   "note": ""
  },
  {
   "property": "C57",
   "status": "proved",
   "theorems": [
    "Skyborn.Spectral.C57_specintrp",
    "Skyborn.Spectral.C57_periodic"
   ],
   "note": ""
  },
  {
   "property": "C58",
   "status": "proved",
   "theorems": [
    "Skyborn.Gridfill.C58_unique",
    "Skyborn.Gridfill.C58_exists",
    "Skyborn.Gridfill.C58_geometric",
    "Skyborn.Gridfill.C58_terminates_converged",
    "Skyborn.Gridfill.C58_converged_error"
   ],
   "note": "exact arithmetic (ordered field; Archimedean for termination)"
  },
  {
   "property": "C59",
   "status": "proved",
   "theorems": [
    "Skyborn.Windspharm.C59_sound",
    "Skyborn.Windspharm.C59_regular_accepted",
    "Skyborn.Windspharm.C59_northfirst"
   ],
   "note": ""
  },
  {
   "property": "C60",
   "status": "proved",
   "theorems": [
    "Skyborn.Regrid.C60_sphere_integral"
   ],
   "note": ""
  },
  {
   "property": "C61",
   "status": "partial",
   "theorems": [
    "Skyborn.Regrid.C61_identity_partial",
    "Skyborn.Regrid.C61_false"
   ],
   "note": "false of the code with missing values (C61_false); proved for complete fields"
  },
  {
   "property": "C62",
   "status": "proved",
   "theorems": [
    "Skyborn.Calc.C62_density",
    "Skyborn.Calc.C62_shape",
    "Skyborn.Calc.C62_degenerate"
   ],
   "note": ""
  },
  {
   "property": "C63",
   "status": "proved",
   "theorems": [
    "Skyborn.Calc.C63_prior",
    "Skyborn.Calc.C63_posterior",
    "Skyborn.Calc.C63_posterior_summary",
    "Skyborn.Calc.C63_mass"
   ],
   "note": ""
  },
  {
   "property": "C64",
   "status": "proved",
   "theorems": [
    "Skyborn.Calc.C64_prediction_std"
   ],
   "note": ""
  },
  {
   "property": "C65",
   "status": "proved",
   "theorems": [
    "Skyborn.MK.Py.C65_pre_whitening",
    "Skyborn.MK.Py.C65_trend_free",
    "Skyborn.MK.Py.C65_degenerate",
    "Skyborn.MK.Py.C65_yue_wang",
    "Skyborn.MK.Py.C65_hamed_rao"
   ],
   "note": ""
  },
  {
   "property": "C66",
   "status": "proved",
   "theorems": [
    "Skyborn.Interp.C66_interpolation"
   ],
   "note": "for requests whose first two source pressures are usable and ordered like the usable levels (every NaN-free pressure axis); rounding not modelled"
  },
  {
   "property": "C67",
   "status": "partial",
   "theorems": [
    "Skyborn.Interp.C67_missing_levels_ignored_partial",
    "Skyborn.Interp.C67_missing_levels_ignored_false"
   ],
   "note": "false in general (axis direction is inferred from the first two raw pressures, marker included); proved when the first two source pressures are usable and ordered like the usable levels"
  },
  {
   "property": "C68",
   "status": "partial",
   "theorems": [
    "Skyborn.Interp.C68_extrapolation_linear_partial",
    "Skyborn.Interp.C68_extrapolation_high_partial",
    "Skyborn.Interp.C68_extrapolation_false"
   ],
   "note": "false for method='log' beyond the low-pressure end (jump by a layer difference); proved for linear at both ends and for both methods at the high-pressure end"
  },
  {
   "property": "C69",
   "status": "proved",
   "theorems": [
    "Skyborn.Hybrid.C69_on_line",
    "Skyborn.Hybrid.C69_total",
    "Skyborn.Hybrid.C69_errors"
   ],
   "note": "Columns strictly monotone and in the domain of the coordinate"
  },
  {
   "property": "C70",
   "status": "partial",
   "theorems": [
    "Skyborn.Hybrid.C70_below_partial",
    "Skyborn.Hybrid.C70_above_partial",
    "Skyborn.Hybrid.C70_false"
   ],
   "note": "FALSE above the model top: C70_false is a request with extrapolate=False whose entry above the top level is a linear extrapolation below every level value. Proved: missing below the lowest level; above the top the entry continues the line through the two top levels."
  },
  {
   "property": "C71",
   "status": "proved",
   "theorems": [
    "Skyborn.Hybrid.C71_local",
    "Skyborn.Hybrid.C71_paths"
   ],
   "note": "for strictly monotone columns in the coordinate domain"
  },
  {
   "property": "C72",
   "status": "proved",
   "theorems": [
    "Skyborn.Hybrid.C72_only_below"
   ],
   "note": ""
  },
  {
   "property": "C73",
   "status": "proved",
   "theorems": [
    "Skyborn.Hybrid.C73_other",
    "Skyborn.Hybrid.C73_temperature",
    "Skyborn.Hybrid.C73_geopotential",
    "Skyborn.Hybrid.C73_temperature_shape",
    "Skyborn.Hybrid.C73_geopotential_shape"
   ],
   "note": "the temperature branch uses the lowest data level, not t_bot"
  },
  {
   "property": "C74",
   "status": "proved",
   "theorems": [
    "Skyborn.Hybrid.C74_hypsometric",
    "Skyborn.Hybrid.C74_increasing"
   ],
   "note": ""
  },
  {
   "property": "C75",
   "status": "proved",
   "theorems": [
    "Skyborn.Hybrid.C75_pressure",
    "Skyborn.Hybrid.C75_thickness",
    "Skyborn.Hybrid.C75_sum"
   ],
   "note": ""
  },
  {
   "property": "C76",
   "status": "proved",
   "theorems": [
    "Skyborn.Hybrid.C76_errors",
    "Skyborn.Hybrid.C76_outside",
    "Skyborn.Hybrid.C76_on_line",
    "Skyborn.Hybrid.C76_log_missing",
    "Skyborn.Hybrid.C76_log_layer",
    "Skyborn.Hybrid.C76_local"
   ],
   "note": ""
  },
  {
   "property": "C77",
   "status": "proved",
   "theorems": [
    "Skyborn.Isen.C77_total",
    "Skyborn.Isen.C77_too_few",
    "Skyborn.Isen.C77_between",
    "Skyborn.Isen.C77_exact",
    "Skyborn.Isen.C77_outside"
   ],
   "note": ""
  },
  {
   "property": "C78",
   "status": "proved",
   "theorems": [
    "Skyborn.Isen.C78_ends"
   ],
   "note": ""
  },
  {
   "property": "C79",
   "status": "proved",
   "theorems": [
    "Skyborn.Isen.C79_only_usable_pairs"
   ],
   "note": ""
  },
  {
   "property": "C80",
   "status": "partial",
   "theorems": [
    "Skyborn.Isen.C80_dimension_order_false",
    "Skyborn.Isen.C80_dimension_order_partial"
   ],
   "note": "FALSE: xr.align neither transposes nor broadcasts and the flat buffers are taken in each array's own storage order, so a temperature stored as (x, lev) next to data stored as (lev, x) is silently misread (C80_dimension_order_false). Proved when the three arrays share one order."
  },
  {
   "property": "C81",
   "status": "proved",
   "theorems": [
    "Skyborn.Trop.C81_profile"
   ],
   "note": "lowest qualifying layer, all outputs"
  },
  {
   "property": "C82",
   "status": "proved",
   "theorems": [
    "Skyborn.Trop.C82_grid"
   ],
   "note": "all supported layouts (structure Layout), all shapes"
  },
  {
   "property": "C83",
   "status": "partial",
   "theorems": [
    "Skyborn.Trop.C83_hPa_partial",
    "Skyborn.Trop.C83_false",
    "Skyborn.Trop.C83_false'"
   ],
   "note": "true for hPa; false for Pa: a column without tropopause is reported as success at index -1000 (tmsg*100 no longer equals tmsg)"
  },
  {
   "property": "C84",
   "status": "proved",
   "theorems": [
    "Skyborn.Trop.C84_units"
   ],
   "note": "columns with a tropopause"
  },
  {
   "property": "C85",
   "status": "proved",
   "theorems": [
    "Skyborn.Trop.C85_level_order"
   ],
   "note": "distinct pressures"
  },
  {
   "property": "C86",
   "status": "partial",
   "theorems": [
    "Skyborn.Trop.C86_ascending_partial",
    "Skyborn.Trop.C86_false"
   ],
   "note": "true for increasing pressures; false after the internal sort: the index refers to the sorted levels"
  },
  {
   "property": "C87",
   "status": "partial",
   "theorems": [
    "Skyborn.Trop.C87_lapse_partial",
    "Skyborn.Trop.C87_false"
   ],
   "note": "false for the uppermost layer, where the missing value is reported"
  },
  {
   "property": "C88",
   "status": "partial",
   "theorems": [
    "Skyborn.Trop.C88_pressure_partial",
    "Skyborn.Trop.C88_false"
   ],
   "note": "false: the crossing is extrapolated when the layer below is also under the criterion; proved: floor, bracketing when the layer below reaches the criterion, upper bound in every case"
  },
  {
   "property": "C89",
   "status": "partial",
   "theorems": [
    "Skyborn.Trop.C89_mean_partial",
    "Skyborn.Trop.C89_false"
   ],
   "note": "false: only the mean over the whole 2 km is compared; that mean is proved below the criterion"
  },
  {
   "property": "C90",
   "status": "proved",
   "theorems": [
    "Skyborn.Trop.C90_height"
   ],
   "note": "strict monotonicity including the layer boundary"
  },
  {
   "property": "C91",
   "status": "proved",
   "theorems": [
    "Skyborn.Trop.C91_missing"
   ],
   "note": "masked levels and column independence"
  },
  {
   "property": "C92",
   "status": "partial",
   "theorems": [
    "Skyborn.Trop.C82_grid",
    "Skyborn.Trop.C92_false"
   ],
   "note": "false: a 4-D call with an absent horizontal axis is accepted and reduces the wrong axis; C82 is the supported part"
  },
  {
   "property": "C93",
   "status": "proved",
   "theorems": [
    "Skyborn.Geo.C93_wind",
    "Skyborn.Geo.C93_collision"
   ],
   "note": "Sizes at least 2x2, strictly increasing latitudes. End columns of a non-cyclic grid: a wind of exactly twice the missing value is reported missing (C93_collision)."
  },
  {
   "property": "C94",
   "status": "partial",
   "theorems": [
    "Skyborn.Geo.C94_false",
    "Skyborn.Geo.C94_reversed_partial",
    "Skyborn.Geo.C94_flip_partial",
    "Skyborn.Geo.C93_wind"
   ],
   "note": "False for north-to-south latitudes (C94_false): rows come back south to north while xarray labels them with the caller's latitudes. Proved: exact description for that order."
  },
  {
   "property": "C95",
   "status": "proved",
   "theorems": [
    "Skyborn.Geo.C95_slices"
   ],
   "note": ""
  },
  {
   "property": "C96",
   "status": "partial",
   "theorems": [
    "Skyborn.Geo.C96_false",
    "Skyborn.Geo.C96_refused_partial"
   ],
   "note": "False on square grids (C96_false); refused on non-square ones."
  },
  {
   "property": "C97",
   "status": "partial",
   "theorems": [
    "Skyborn.Geo.C97_uniform",
    "Skyborn.Geo.C97_regional",
    "Skyborn.Geo.C97_false"
   ],
   "note": "Recognition proved; a repeated first longitude halves v at the seam (C97_false)."
  },
  {
   "property": "C98",
   "status": "proved",
   "theorems": [
    "Skyborn.Geo.C98_rotation"
   ],
   "note": ""
  },
  {
   "property": "C99",
   "status": "proved",
   "theorems": [
    "Skyborn.Geo.C99_linear",
    "Skyborn.Geo.C99_uniform"
   ],
   "note": "Without rounding (f32 = identity) for linearity."
  }
 ]
}