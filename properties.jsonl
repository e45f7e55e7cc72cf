{"id": "C01", "title": "Mann-Kendall score equals the textbook pairwise sign sum", "statement": "For every finite series, the S statistic behind mann_kendall_test (both the row-by-row scan and the lag-by-lag scan used by the fused slope kernel) equals the sum over i<j of sign(y_j - y_i); the two kernels therefore always agree.", "quantifier": "all finite series of every length over any linear order", "why_tests_cant": "two loop nests with different traversal orders have to agree for every length and tie pattern", "anchors": ["src/skyborn/calc/mann_kendall/fortran/mann_kendall_core.f90:compute_s_value", "src/skyborn/calc/mann_kendall/fortran/mann_kendall_core.f90:compute_s_value_and_sen_slope_with_inv_lag"]}
{"id": "C02", "title": "Score bounds, antisymmetry and rank invariance", "statement": "|S| <= n(n-1)/2 with equality exactly for strictly monotone series; reversing time or negating the data negates S; applying any strictly increasing transformation to the data leaves S, variance, tau, z, p and h unchanged.", "quantifier": "all series and all strictly monotone maps", "why_tests_cant": "quantifies over all functions and all series", "anchors": ["src/skyborn/calc/mann_kendall/fortran/mann_kendall_core.f90:compute_s_value", "src/skyborn/calc/mann_kendall/core.py:mann_kendall_test"]}
{"id": "C03", "title": "In-place sort really sorts", "statement": "The quicksort/insertion-sort pair used before tie counting returns an ascending rearrangement of its input, never reads or writes outside the buffer, and terminates.", "quantifier": "all buffers of every length over any linear order", "why_tests_cant": "median/tie correctness depends on every partition path; tests only hit a few lengths around the insertion threshold", "anchors": ["src/skyborn/calc/mann_kendall/fortran/mann_kendall_core.f90:quicksort_real", "src/skyborn/calc/mann_kendall/fortran/mann_kendall_core.f90:insertion_sort_real", "src/skyborn/calc/mann_kendall/fortran/mann_kendall_core.f90:sort_real_inplace"]}
{"id": "C04", "title": "Quickselect returns the requested order statistic", "statement": "Selecting the k-th order statistic terminates, stays in bounds, only permutes the buffer, puts the k-th smallest value at position k, leaves everything before it <= and everything after it >=.", "quantifier": "all buffers, all valid k", "why_tests_cant": "partition loops with sentinel scans: correctness for every arrangement and duplicate pattern", "anchors": ["src/skyborn/calc/mann_kendall/fortran/mann_kendall_core.f90:select_kth_real", "src/skyborn/calc/mann_kendall/fortran/mann_kendall_core.f90:median_of_three"]}
{"id": "C05", "title": "Theil-Sen slope is the exact median of all pairwise slopes", "statement": "The reported trend (method theilslopes) is the median of the n(n-1)/2 pairwise slopes, with the usual average of the two middle values for even counts; every pair is used exactly once.", "quantifier": "all finite series with n >= 2", "why_tests_cant": "every slope buffer position must be written exactly once for each n; median for every input", "anchors": ["src/skyborn/calc/mann_kendall/fortran/mann_kendall_core.f90:compute_sen_slope_with_inv_lag", "src/skyborn/calc/mann_kendall/core.py:_sen_slope_batch"]}
{"id": "C06", "title": "Slope equivariance", "statement": "Theil-Sen trend of a*y+b*t+c is a*trend(y)+b; an exactly linear series returns exactly its slope.", "quantifier": "all series, all affine changes", "why_tests_cant": "universally quantified law", "anchors": ["src/skyborn/calc/mann_kendall/fortran/mann_kendall_core.f90:compute_sen_slope_with_inv_lag"]}
{"id": "C07", "title": "Tie-corrected variance formula", "statement": "The variance used is [n(n-1)(2n+5) - sum over tie groups t(t-1)(2t+5)]/18, independent of the order of the data, always >= 0, and zero exactly when n<=1 or all values are tied.", "quantifier": "all finite series", "why_tests_cant": "run-length counting on a sorted copy must match multiset multiplicities for every tie pattern", "anchors": ["src/skyborn/calc/mann_kendall/fortran/mann_kendall_core.f90:compute_base_variance", "src/skyborn/calc/mann_kendall/fortran/mann_kendall_core.f90:compute_base_variance_from_sorted"]}
{"id": "C08", "title": "tau is a correlation", "statement": "tau of the original test always lies in [-1,1], is 1 exactly for strictly increasing and -1 exactly for strictly decreasing series.", "quantifier": "all series with at least 3 finite values", "why_tests_cant": "for all inputs", "anchors": ["src/skyborn/calc/mann_kendall/core.py:mann_kendall_test"]}
{"id": "C09", "title": "Missing values are removed, not counted", "statement": "For the original test, non-finite samples can be inserted anywhere without changing any field of the result, and series with fewer than 3 finite samples return NaN/False without running a kernel.", "quantifier": "all series and all placements of NaN/inf", "why_tests_cant": "all placements", "anchors": ["src/skyborn/calc/mann_kendall/core.py:mann_kendall_test"]}
{"id": "C10", "title": "Every grid point gets its own test result", "statement": "mann_kendall_multidim returns at each grid point exactly the result of running the 1-D test on that point's series, whatever the chunk size, the position of the time axis and the missing data at other points.", "quantifier": "all shapes, axes, chunk sizes and data", "why_tests_cant": "chunk boundaries, axis permutations and scatter indices for every shape", "anchors": ["src/skyborn/calc/mann_kendall/core.py:mann_kendall_multidim", "src/skyborn/calc/mann_kendall/core.py:_vectorized_mk_test"]}
{"id": "C11", "title": "Seasonal/correlated-seasonal gridded results agree with the 1-D test", "statement": "For test='correlated_seasonal' a gridded analysis of a series with missing values returns what mann_kendall_test returns for that series.", "quantifier": "all series with missing values", "why_tests_cant": "season phase depends on where the gaps are; (violated by the code: gaps are squeezed out before the seasonal reshape)", "anchors": ["src/skyborn/calc/mann_kendall/core.py:_vectorized_mk_test", "src/skyborn/calc/mann_kendall/variants.py:_correlated_seasonal_stats_scalar"]}
{"id": "C12", "title": "Correlated grouped variance generalises the tie-corrected variance", "statement": "With a single group, the correlated multivariate variance equals the tie-corrected Mann-Kendall variance for every series including ties, and the score and denominator equal the original ones.", "quantifier": "all finite series", "why_tests_cant": "algebraic identity over all tie patterns", "anchors": ["src/skyborn/calc/mann_kendall/fortran/mann_kendall_core.f90:compute_correlated_grouped_stats", "src/skyborn/calc/mann_kendall/fortran/mann_kendall_core.f90:compute_rank_vector", "src/skyborn/calc/mann_kendall/fortran/mann_kendall_core.f90:compute_k_stat"]}
{"id": "C13", "title": "Seasonal test decomposes by season", "statement": "Seasonal S, variance and tau denominator are the sums over seasons of the ordinary quantities of each season's sub-series; each sample is used in exactly one season; results are the same via the padded-matrix path and the strided path when nothing is missing.", "quantifier": "all series, all positive periods", "why_tests_cant": "index arithmetic for every length/period combination", "anchors": ["src/skyborn/calc/mann_kendall/variants.py:_seasonal_score_variance_scalar", "src/skyborn/calc/mann_kendall/variants.py:_seasonal_score_variance_batch", "src/skyborn/calc/mann_kendall/variants.py:_reshape_seasonal_1d"]}
{"id": "C14", "title": "Grouped slope buffer is filled exactly", "statement": "The grouped Sen slope kernel writes exactly as many slopes as its buffer-size function announces, each within-group pair exactly once, and reads only inside the series.", "quantifier": "all lengths and periods", "why_tests_cant": "buffer overrun for some (n, period) is invisible to sample tests", "anchors": ["src/skyborn/calc/mann_kendall/fortran/mann_kendall_core.f90:compute_grouped_slope_count", "src/skyborn/calc/mann_kendall/fortran/mann_kendall_core.f90:compute_grouped_sen_slope_with_inv_lag"]}
{"id": "C15", "title": "Average ranks", "statement": "The two rank routines (sort-based and comparison-based) both return mid-ranks, agree with each other, and the ranks sum to n(n+1)/2.", "quantifier": "all finite series", "why_tests_cant": "tie handling for every pattern", "anchors": ["src/skyborn/calc/mann_kendall/fortran/mann_kendall_core.f90:compute_average_ranks", "src/skyborn/calc/mann_kendall/fortran/mann_kendall_core.f90:compute_rank_vector"]}
{"id": "C16", "title": "Partial Mann-Kendall: fused and plain kernels agree", "statement": "The partial-test statistics from the fused slope kernel and from the plain kernel are identical for n>=3, tau is the ordinary Kendall tau of the response, and partialling a series on itself (no ties) gives zero score and zero variance.", "quantifier": "all pairs of series", "why_tests_cant": "for all inputs", "anchors": ["src/skyborn/calc/mann_kendall/fortran/mann_kendall_core.f90:compute_partial_stats", "src/skyborn/calc/mann_kendall/fortran/mann_kendall_core.f90:compute_partial_stats_and_sen_slope_with_inv_lag"]}
{"id": "C17", "title": "Lag limit resolution", "statement": "The number of lags used for autocorrelation corrections is always in [0,n-1]; a lag >= n is rejected, negative lags mean none, None means all.", "quantifier": "all n and lags", "why_tests_cant": "boundary for every n", "anchors": ["src/skyborn/calc/mann_kendall/variants.py:_autocorr_lag_limit"]}
{"id": "C18", "title": "Yue-Wang and Hamed-Rao batch and scalar paths agree", "statement": "The variance correction computed by the Python batch helper and the compiled kernel is the same for every series and lag for which both are defined.", "quantifier": "all series, slopes, lags", "why_tests_cant": "two independent implementations", "anchors": ["src/skyborn/calc/mann_kendall/variants.py:_yue_wang_variance_batch", "src/skyborn/calc/mann_kendall/variants.py:_hamed_rao_variance_batch", "src/skyborn/calc/mann_kendall/fortran/mann_kendall_core.f90:compute_modified_variance_with_slope_lag", "src/skyborn/calc/mann_kendall/fortran/mann_kendall_core.f90:compute_hamed_rao_variance_with_slope_lag"]}
{"id": "C19", "title": "Standard error independent of the intercept convention", "statement": "The scalar path (median-based intercept) and batch path (median of residuals) return the same std_error since it does not depend on the intercept.", "quantifier": "all series and slopes", "why_tests_cant": "two code paths must agree on all inputs", "anchors": ["src/skyborn/calc/mann_kendall/core.py:mann_kendall_test", "src/skyborn/calc/mann_kendall/regression.py:_theil_std_error_batch", "src/skyborn/calc/mann_kendall/regression.py:_linregress_std_error_batch"]}
{"id": "C20", "title": "Least squares slope", "statement": "method='linregress' batch slope is the minimiser of the sum of squared residuals; exact on linear data.", "quantifier": "all series", "why_tests_cant": "optimality over all alternatives", "anchors": ["src/skyborn/calc/mann_kendall/regression.py:_linregress_slope_batch"]}
{"id": "C21", "title": "prep_data/recover_data round trip", "statement": "recover_data(prep_data(a, order)) returns an array with the shape and every element of a; more generally recovering any processed field puts the value computed for (lat,lon,rest) back at that point's position in the original layout.", "quantifier": "all ranks, shapes and dimension orders with distinct letters containing x and y, no upper-case X/Y, at most one letter per axis", "why_tests_cant": "all permutations of axes", "anchors": ["src/skyborn/windspharm/tools.py:prep_data", "src/skyborn/windspharm/tools.py:recover_data", "src/skyborn/windspharm/tools.py:_order_dims"]}
{"id": "C22", "title": "prep_data layout", "statement": "prep_data puts latitude first, longitude second and flattens remaining dims in C order without losing, duplicating or moving any value between fields.", "quantifier": "all ranks, shapes, orders", "why_tests_cant": "all axis permutations", "anchors": ["src/skyborn/windspharm/tools.py:prep_data", "src/skyborn/windspharm/tools.py:_reshape_for_spharm"]}
{"id": "C23", "title": "Repeated or upper-case dimension letters", "statement": "recover_data restores the array for every dim_order string that prep_data accepts.", "quantifier": "all accepted strings", "why_tests_cant": "(violated: repeated letters and upper-case X/Y are accepted but not recovered)", "anchors": ["src/skyborn/windspharm/tools.py:_order_dims", "src/skyborn/windspharm/tools.py:recover_data"]}
{"id": "C24", "title": "Latitude reversal", "statement": "reverse_latdim is an involution; order_latdim returns north-to-south coordinates for every strictly monotone latitude vector, keeps every (lat,u,v) triple together, and is idempotent.", "quantifier": "all shapes, axes (negative included) and coordinate vectors", "why_tests_cant": "for all shapes/axes", "anchors": ["src/skyborn/windspharm/tools.py:reverse_latdim", "src/skyborn/windspharm/tools.py:order_latdim"]}
{"id": "C25", "title": "get_apiorder is a permutation with its inverse", "statement": "For distinct in-range lat/lon dims, apiorder is a permutation of range(ndim) starting with lat, lon and keeping the order of others; transposing by apiorder then by reorder restores the array; anything else raises.", "quantifier": "all ndim, lat, lon", "why_tests_cant": "all ndim", "anchors": ["src/skyborn/windspharm/_common.py:get_apiorder"]}
{"id": "C26", "title": "to3d keeps the data", "statement": "to3d only merges trailing dims: element (i,j,k) of the result is the element whose trailing C-order index is k; under 2 dims raises.", "quantifier": "all arrays", "why_tests_cant": "all ranks", "anchors": ["src/skyborn/windspharm/_common.py:to3d"]}
{"id": "C27", "title": "gridfill never changes observed values", "statement": "fill leaves every unmasked value bit-for-bit unchanged for any parameters.", "quantifier": "all grids, masks, relaxation settings, initialisations", "why_tests_cant": "every mask geometry", "anchors": ["src/skyborn/gridfill/_gridfill.pyx:poisson_fill", "src/skyborn/gridfill/_gridfill.pyx:initialize_missing"]}
{"id": "C28", "title": "gridfill maximum principle", "statement": "With relaxation constant in [0,1] every filled value stays between the minimum and maximum of observed values and initial guesses at every iteration.", "quantifier": "all grids, masks, iteration counts", "why_tests_cant": "every iterate on every mask", "anchors": ["src/skyborn/gridfill/_gridfill.pyx:poisson_fill"]}
{"id": "C29", "title": "gridfill convergence report", "statement": "If fill reports converged after at least one sweep, then each masked point was changed in the last sweep by at most eps; iteration count never exceeds itermax; a grid with no missing point is returned unchanged with 0 iterations and converged.", "quantifier": "all grids", "why_tests_cant": "all inputs", "anchors": ["src/skyborn/gridfill/_gridfill.pyx:poisson_fill", "src/skyborn/gridfill/gridfill.py:fill"]}
{"id": "C30", "title": "gridfill neighbour indices stay on the grid and wrap correctly", "statement": "For grids with at least 3 points per direction all four neighbour indices are inside the grid (east/west wrap with cyclic=True and reflect otherwise), no kernel access leaves the arrays, and with cyclic=True the exact filled field commutes with shifting the grid in longitude.", "quantifier": "all sizes and indices", "why_tests_cant": "unchecked memory access for all sizes", "anchors": ["src/skyborn/gridfill/_gridfill.pyx:latitude_indices", "src/skyborn/gridfill/_gridfill.pyx:longitude_indices"]}
{"id": "C31", "title": "gridfill initial guesses come from data", "statement": "The initial guess at each masked point is the custom value, the zonal mean or zonal linear interpolation of observed values - never the internal 1e20 filler.", "quantifier": "all masks and init modes", "why_tests_cant": "(violated: all-missing rows with initzonal and edge gaps with initzonal_linear keep the 1e20 filler)", "anchors": ["src/skyborn/gridfill/_gridfill.pyx:initialize_missing", "src/skyborn/gridfill/gridfill.py:fill"]}
{"id": "C32", "title": "gridfill dimension handling", "statement": "fill on an N-D array fills each 2-D slice independently and returns the array in its original dimension order.", "quantifier": "all ranks, shapes, xdim, ydim", "why_tests_cant": "all axis placements", "anchors": ["src/skyborn/gridfill/gridfill.py:_prep_data", "src/skyborn/gridfill/gridfill.py:_recover_data"]}
{"id": "C33", "title": "Gradient exactness", "statement": "calculate_gradient is exact on affine functions for any coordinate spacing and on quadratics at interior points; it is linear in the field and has the field's shape.", "quantifier": "all fields, coordinates, axes", "why_tests_cant": "for all coordinates", "anchors": ["src/skyborn/gradients.py:calculate_gradient"]}
{"id": "C34", "title": "Zonal gradient scale", "statement": "calculate_zonal_gradient equals d/dlon divided by radius*cos(lat).", "quantifier": "all fields and coordinates", "why_tests_cant": "(violated: distances are converted from degrees twice, and 3-D/4-D default layouts are rejected unless nlat is 1)", "anchors": ["src/skyborn/gradients.py:calculate_zonal_gradient"]}
{"id": "C35", "title": "Bracket search", "statement": "The clamped bracket search returns an index pair inside the axis and a fraction in [0,1] that reproduces the target coordinate whenever it lies inside the axis.", "quantifier": "all strictly increasing axes and targets", "why_tests_cant": "binary search for all lengths", "anchors": ["src/skyborn/interp/regrid_module.c:bracket_clamped"]}
{"id": "C36", "title": "Bilinear regridding", "statement": "Bilinear results lie between min and max of the four surrounding source values, reproduce source values at coincident points, reproduce every field of the form a+b*lon+c*lat+d*lon*lat inside the grid, are linear in the field and agree with the np.interp fallback.", "quantifier": "all strictly increasing grids and fields", "why_tests_cant": "for all grids", "anchors": ["src/skyborn/interp/regrid_module.c:bilinear_regrid_2d_core", "src/skyborn/interp/regridding.py:BilinearRegridder"]}
{"id": "C37", "title": "Conservative weights are a partition", "statement": "Latitude and longitude weight rows are non-negative and sum to 1 for every pair of grids, hence constants are preserved and results stay within the range of valid source values.", "quantifier": "all strictly increasing grids", "why_tests_cant": "for all grids", "anchors": ["src/skyborn/interp/regrid_module.c:conservative_latitude_weights", "src/skyborn/interp/regrid_module.c:conservative_longitude_weights", "src/skyborn/interp/regrid_module.c:normalize_weight_rows"]}
{"id": "C38", "title": "Conservative regridding conserves the latitude integral", "statement": "For global latitude axes the area-weighted integral of the regridded field equals that of the source field.", "quantifier": "all latitude axes within [-90,90] and all fields", "why_tests_cant": "integral identity over all grids", "anchors": ["src/skyborn/interp/regrid_module.c:conservative_latitude_weights"]}
{"id": "C39", "title": "Periodic longitude overlap", "statement": "Computed longitude overlaps equal true overlap lengths on the circle.", "quantifier": "all longitude cells", "why_tests_cant": "(holds when the two cell widths add up to at most half a period; violated for coarser cells)", "anchors": ["src/skyborn/interp/regrid_module.c:align_phase_with", "src/skyborn/interp/regrid_module.c:conservative_longitude_weights"]}
{"id": "C40", "title": "NaN-aware conservative mean", "statement": "The regridded value is the weighted mean over non-missing source cells, NaN iff no non-missing source cell has positive weight; restricting loops to the first..last positive weight does not change it.", "quantifier": "all fields with missing values", "why_tests_cant": "all missing patterns", "anchors": ["src/skyborn/interp/regrid_module.c:conservative_regrid"]}
{"id": "C41", "title": "Nearest regridding only copies", "statement": "Nearest regridding returns at every target point the value of a source point maximising the cosine of the great-circle angle (native backend); values are copied unchanged for any leading dims; out-of-range indices are rejected.", "quantifier": "all grids and fields", "why_tests_cant": "for all grids", "anchors": ["src/skyborn/interp/regrid_module.c:nearest_neighbor_indices", "src/skyborn/interp/regrid_module.c:nearest_regrid_apply"]}
{"id": "C42", "title": "Missing value codec round trip", "statement": "py2fort_msg then fort2py_msg restores the data for every array that does not already contain the sentinel, and the documented sentinel positions are exactly the missing positions.", "quantifier": "all arrays", "why_tests_cant": "for all arrays; fails when data contain the sentinel", "anchors": ["src/skyborn/interp/missing_values.py:py2fort_msg", "src/skyborn/interp/missing_values.py:fort2py_msg"]}
{"id": "C43", "title": "Triangular spectral packing is a bijection", "statement": "Packing coefficients with twodtooned after onedtotwod returns the original coefficients; the (m,n)->position map is a bijection from the triangle onto 0..(T+1)(T+2)/2-1, matching getspecindx.", "quantifier": "all truncations", "why_tests_cant": "index arithmetic for all T", "anchors": ["src/skyborn/spharm/src/onedtotwod.f90", "src/skyborn/spharm/src/twodtooned.f90", "src/skyborn/spharm/spherical_harmonics.py:getspecindx"]}
{"id": "C44", "title": "Truncation recovered from coefficient count", "statement": "The truncation derived from nmdim=(T+1)(T+2)/2 is exactly T.", "quantifier": "all T", "why_tests_cant": "all T", "anchors": ["src/skyborn/spharm/src/lap.f90", "src/skyborn/spharm/src/onedtotwod.f90"]}
{"id": "C45", "title": "Inverse Laplacian", "statement": "invlap(lap(x)) restores every coefficient except the global mean which becomes zero, and lap(invlap(x)) likewise; both linear.", "quantifier": "all coefficient vectors", "why_tests_cant": "for all", "anchors": ["src/skyborn/spharm/src/lap.f90", "src/skyborn/spharm/src/invlap.f90"]}
{"id": "C46", "title": "Vorticity/divergence packing round trip", "statement": "Converting vorticity and divergence coefficients to vector-harmonic coefficients and back restores them except the degree-0 term.", "quantifier": "all truncations and coefficients", "why_tests_cant": "for all", "anchors": ["src/skyborn/spharm/src/onedtotwod.f90:onedtotwod_vrtdiv", "src/skyborn/spharm/src/twodtooned.f90:twodtooned_vrtdiv"]}
{"id": "C47", "title": "Spectral smoothing", "statement": "multsmoothfact multiplies each degree-n coefficient by smooth[n] whatever m; all-ones smoothing is the identity; smoothing twice multiplies factors; smoothing commutes with the Laplacian.", "quantifier": "all truncations", "why_tests_cant": "for all", "anchors": ["src/skyborn/spharm/src/multsmoothfact.f90"]}
{"id": "C48", "title": "Emergent-constraint std search", "statement": "The width found from the PDF is the smallest left half-width (in grid cells) whose accumulated probability reaches the threshold; NaN iff PDF mass is not positive.", "quantifier": "all PDFs and thresholds", "why_tests_cant": "for all PDFs", "anchors": ["src/skyborn/calc/emergent_constraints.py:_calculate_std_from_pdf"]}
{"id": "C49", "title": "Emergent-constraint regression", "statement": "The fitted line is the least-squares line of valid pairs; invalid pairs have no influence; residual sum is zero.", "quantifier": "all data", "why_tests_cant": "for all", "anchors": ["src/skyborn/calc/emergent_constraints.py:_fit_linear_relationship"]}
{"id": "C50", "title": "Correlated multivariate variance is a covariance form", "statement": "The score, variance and tau denominator of the correlated grouped tests are the sum of the group scores, the double sum of the Dietz-Killeen covariances over all pairs of groups, and the number of within-group pairs; the variance is never negative.", "quantifier": "all group counts, series lengths and series", "why_tests_cant": "sums over all group pairs for unbounded sizes; non-negativity is a theorem about every data set including ties", "anchors": ["src/skyborn/calc/mann_kendall/fortran/mann_kendall_core.f90: compute_correlated_grouped_stats"]}
{"id": "C51", "title": "Significance flag agrees with the p-value", "statement": "For every 1-D test family, h is True exactly when p < alpha (for a normal distribution function whose quantile function is its inverse and alpha in (0,1)); with NaN z both are NaN/False.", "quantifier": "all series, test families, methods and alpha in (0,1)", "why_tests_cant": "ranges over all series and all significance levels, including boundary levels", "anchors": ["src/skyborn/calc/mann_kendall/core.py: mann_kendall_test"]}
{"id": "C52", "title": "Seasonal linregress standard error agrees between gridded and 1-D", "statement": "With method='linregress', the gridded seasonal tests return for a complete series every field the 1-D test returns, including std_error.", "quantifier": "all complete columns, periods and seasonal families", "why_tests_cant": "agreement of two code paths for every input", "anchors": ["src/skyborn/calc/mann_kendall/core.py: mann_kendall_test, _vectorized_mk_test"]}
{"id": "C53", "title": "p-values are probabilities", "statement": "p is NaN or lies in [0,1] for every test family and series.", "quantifier": "all series, families and parameters", "why_tests_cant": "must hold for every series", "anchors": ["src/skyborn/calc/mann_kendall/core.py: mann_kendall_test"]}
{"id": "C54", "title": "The original test is always defined", "statement": "With at least three finite samples the original test never raises and returns finite z, tau, trend, p and std_error, even for constant series, and z and tau have the same sign.", "quantifier": "all series with at least 3 finite samples", "why_tests_cant": "must hold for every series including fully tied ones", "anchors": ["src/skyborn/calc/mann_kendall/core.py: mann_kendall_test"]}
{"id": "C55", "title": "Spectral packing stays inside its arrays", "statement": "For any number of spectral coefficients (a triangular number or not) whose truncation fits the latitude count, unpacking, packing, Laplacian, inverse Laplacian and smoothing never read or write outside their arrays.", "quantifier": "all coefficient counts, grid sizes, numbers of fields", "why_tests_cant": "out-of-bounds Fortran accesses are silent; all sizes are needed", "anchors": ["src/skyborn/spharm/src/onedtotwod.f90", "src/skyborn/spharm/src/lap.f90", "src/skyborn/spharm/src/invlap.f90", "src/skyborn/spharm/src/multsmoothfact.f90"]}
{"id": "C56", "title": "Single-component vector packing agrees with the paired one", "statement": "The vorticity-only and divergence-only conversions give exactly the arrays that the paired conversion gives, in both directions.", "quantifier": "all truncations, coefficients", "why_tests_cant": "for all coefficient arrays", "anchors": ["src/skyborn/spharm/src/onedtotwod.f90: onedtotwod_vrt, onedtotwod_div", "src/skyborn/spharm/src/twodtooned.f90: twodtooned_vrt, twodtooned_div"]}
{"id": "C57", "title": "Spectral interpolation evaluates the series", "statement": "specintrp returns the value at the given longitude of the real field whose spherical-harmonic coefficients and Legendre functions are given, and is 360-degree periodic.", "quantifier": "all truncations, longitudes, coefficients", "why_tests_cant": "for all truncations and coefficients", "anchors": ["src/skyborn/spharm/src/specintrp.f90"]}
{"id": "C58", "title": "gridfill converges to the unique discrete harmonic fill", "statement": "On every grid with an observed point there is exactly one field that keeps the observations and equals the mean of its four neighbours at every missing point; the sweeps approach it geometrically from any start, for any relaxation in (0,1], so with a positive tolerance enough iterations always report converged, and a converged result differs from the exact field by at most a constant times eps.", "quantifier": "all grids, masks with at least one observed point, relaxation in (0,1], starts, tolerances", "why_tests_cant": "convergence and uniqueness for every mask geometry and grid size", "anchors": ["src/skyborn/gridfill/_gridfill.pyx:poisson_fill", "src/skyborn/gridfill/gridfill.py:fill"]}
{"id": "C59", "title": "inspect_gridtype classification", "statement": "inspect_gridtype reports 'regular' or 'gaussian' only when every latitude is within 5e-4 degrees of the global north-to-south reference grid of that size; the exact equally spaced global grid of every size is accepted as regular; a south-to-north axis is never classified regular.", "quantifier": "all latitude vectors and sizes", "why_tests_cant": "every vector and every grid size", "anchors": ["src/skyborn/windspharm/_common.py:inspect_gridtype"]}
{"id": "C60", "title": "Conservative regridding conserves the integral over the sphere", "statement": "For global grids whose source and target longitude cells together never span more than half the circle, and without degenerate target cells, the area integral over the sphere of a complete field equals that of the regridded field, for every leading slice.", "quantifier": "all such grids, fields and leading dimensions", "why_tests_cant": "integral identity over all grids and fields", "anchors": ["src/skyborn/interp/regridding.py:ConservativeRegridder", "src/skyborn/interp/regrid_module.c:conservative_regrid"]}
{"id": "C61", "title": "Bilinear regridding onto the same grid is the identity", "statement": "Bilinear regridding of a field onto its own grid returns the field, missing values included. (False of the code: the compiled path multiplies a missing neighbour by fraction 0, which is again missing; true for complete fields.)", "quantifier": "all grids and fields", "why_tests_cant": "all missing patterns", "anchors": ["src/skyborn/interp/regrid_module.c:bilinear_regrid_2d_core"]}
{"id": "C62", "title": "gaussian_pdf is the normal density", "statement": "For a positive standard deviation gaussian_pdf returns the normal density (positive, symmetric, largest at the mean, integral one); NaN for a negative one; for zero, infinity at the mean and 0 elsewhere.", "quantifier": "all means, deviations and points", "why_tests_cant": "an integral and an inequality over all reals", "anchors": ["src/skyborn/calc/emergent_constraints.py:gaussian_pdf"]}
{"id": "C63", "title": "Emergent-constraint prior and posterior", "statement": "Each prior column is the normal density around the regression line with the prediction standard deviation (one-hot at the nearest target point when that is zero); the posterior is the prior weighted by the observed density times the grid step; it is non-negative, its reported mean is its mode, and with a perfect fit its total equals the observed mass.", "quantifier": "all model data, grids and observed densities", "why_tests_cant": "for all data", "anchors": ["src/skyborn/calc/emergent_constraints.py:emergent_constraint_prior", "src/skyborn/calc/emergent_constraints.py:emergent_constraint_posterior"]}
{"id": "C64", "title": "Prediction standard deviation", "statement": "The prediction error returned with the prior at x is e*sqrt(1+1/n+(x-xbar)^2/Sxx), zero iff the residual error e is zero.", "quantifier": "all data and grid values", "why_tests_cant": "for all data", "anchors": ["src/skyborn/calc/emergent_constraints.py:_prediction_std", "src/skyborn/calc/emergent_constraints.py:emergent_constraint_prior"]}
{"id": "C65", "title": "Serial-correlation variants", "statement": "pre_whitening reports the statistics of y[i+1]-r*y[i] with r the lag-1 autocorrelation; trend-free pre-whitening those of the re-trended whitened residuals; yue_wang and hamed_rao keep the score and multiply the tie variance by their textbook correction factors.", "quantifier": "all series with at least three finite values", "why_tests_cant": "an identity for every series and lag", "anchors": ["src/skyborn/calc/mann_kendall/variants.py", "src/skyborn/calc/mann_kendall/core.py:mann_kendall_test"]}
{"id": "C66", "title": "interp_pressure_1d interpolates between neighbouring usable levels", "statement": "For a well-formed request (equal lengths, at least two usable levels with strictly monotone pressures, strictly monotone targets, positive pressures for method='log') interp_pressure_1d succeeds and returns one value per target: the missing value for a missing target; for a target between two neighbouring usable levels the value there of the straight line (in p or log p) through these levels, hence within their values; exactly the level's value at a level; and the missing value outside the range when extrapolate=False. Increasing and decreasing axes, in any combination for source and target, are covered.", "quantifier": "all profiles, targets, missing-value patterns, axis directions, both methods", "why_tests_cant": "A test samples a few profiles; the claim quantifies over all profile lengths, orders, NaN patterns and targets, including every path of the two binary searches", "anchors": ["src/skyborn/interp/interpolation.py:interp_pressure_1d", "src/skyborn/interp/fortran/int2p_kernels.f90:dinterp_pressure_1d_impl"]}
{"id": "C67", "title": "interp_pressure_1d ignores missing levels", "statement": "A source level whose value or pressure is missing has no influence: the result equals the result for the profile without that level.", "quantifier": "all well-formed requests", "why_tests_cant": "quantifies over every position and combination of missing levels", "anchors": ["src/skyborn/interp/interpolation.py:interp_pressure_1d", "src/skyborn/interp/fortran/int2p_kernels.f90:is_increasing"]}
{"id": "C68", "title": "interp_pressure_1d extrapolates along the end slopes", "statement": "With extrapolate=True a target outside the range of the usable levels gets the value there of the line (in p or log p) through the two levels at that end.", "quantifier": "all well-formed requests, both ends, both methods", "why_tests_cant": "quantifies over all profiles and targets beyond the range", "anchors": ["src/skyborn/interp/interpolation.py:interp_pressure_1d", "src/skyborn/interp/fortran/int2p_kernels.f90:extrapolate_log_low_compat"]}
{"id": "C69", "title": "interp_hybrid_to_pressure interpolates inside the column", "statement": "For a column with usable surface pressure and strictly monotone level pressures a(k)*p0+b(k)*ps, a requested pressure between two neighbouring model levels gets the value there of the straight line (in p, log p or log-log p, by method) through those two levels, hence a value between theirs. A column whose surface pressure is not usable is missing at every level and the call still succeeds; extrapolate=True without variable, and temperature/geopotential without t_bot and phi_sfc, raise ValueError.", "quantifier": "all grids, level counts, coefficients, surface pressures, requested levels, methods, memory layouts", "why_tests_cant": "quantifies over all columns and all positions of the requested pressure, including the search loop", "anchors": ["src/skyborn/interp/interpolation.py:interp_hybrid_to_pressure", "src/skyborn/interp/fortran/vinth2p_kernels.f90"]}
{"id": "C70", "title": "interp_hybrid_to_pressure with extrapolate=False never extrapolates", "statement": "With extrapolate=False, a requested pressure outside the range of the column's model levels is missing.", "quantifier": "all requests", "why_tests_cant": "quantifies over all columns and requested pressures", "anchors": ["src/skyborn/interp/interpolation.py:interp_hybrid_to_pressure", "src/skyborn/interp/fortran/vinth2p_kernels.f90"]}
{"id": "C71", "title": "interp_hybrid_to_pressure works column by column", "statement": "An output entry depends only on its own column (data, ps, t_bot, phi_sfc), the requested level and the hybrid coefficients: not on other columns, the other requested levels, the order of levels, the memory layout of the input (hence the kernel entry point chosen) or the initial contents of the output buffer.", "quantifier": "all pairs of requests sharing one column and one level", "why_tests_cant": "a relational claim over all pairs of inputs and both code paths", "anchors": ["src/skyborn/interp/interpolation.py:interp_hybrid_to_pressure", "src/skyborn/interp/fortran/vinth2p_kernels.f90"]}
{"id": "C72", "title": "extrapolate=True only fills levels below the lowest model level", "statement": "Switching extrapolation on changes no entry whose requested pressure is at or above (in height) the lowest model level.", "quantifier": "all requests, all entries", "why_tests_cant": "relational claim over all inputs", "anchors": ["src/skyborn/interp/interpolation.py:interp_hybrid_to_pressure", "src/skyborn/interp/fortran/vinth2p_kernels.f90"]}
{"id": "C73", "title": "below-ground extrapolation follows the ECMWF formulas", "statement": "With extrapolate=True, an entry below the lowest model level is: the lowest level's value (variable='other'); the ECMWF temperature formula (temperature), continuous and non-decreasing in pressure; the ECMWF height formula (geopotential), strictly decreasing in pressure and equal to phi_sfc/g at the surface pressure.", "quantifier": "all requests, all below-ground entries", "why_tests_cant": "quantifies over all columns and pressures; monotonicity and continuity are claims about a continuum", "anchors": ["src/skyborn/interp/interpolation.py:interp_hybrid_to_pressure", "src/skyborn/interp/fortran/vinth2p_kernels.f90"]}
{"id": "C74", "title": "geopotential_height_at_hybrid_levels is the hypsometric sum", "statement": "Every entry equals phis/g plus the sum of the hypsometric thicknesses of the layers beneath it plus the half-layer term, with virtual temperature; for increasing half-level pressures, positive temperature and non-negative humidity heights strictly increase upward and exceed the surface height.", "quantifier": "all grid sizes, profiles, coefficients", "why_tests_cant": "quantifies over all level counts; the accumulation is a loop over levels", "anchors": ["src/skyborn/interp/interpolation.py:geopotential_height_at_hybrid_levels", "src/skyborn/interp/fortran/vinth2p_kernels.f90"]}
{"id": "C75", "title": "pressure_at_hybrid_levels and delta_pressure_hybrid", "statement": "Pressure at hybrid levels is a*p0+b*ps at every level and column; layer thickness is the absolute difference of the neighbouring interface pressures, is non-negative, and for monotone interfaces the thicknesses of a column sum to the total pressure difference.", "quantifier": "all level counts, columns, coefficients", "why_tests_cant": "the sum identity quantifies over every number of levels", "anchors": ["src/skyborn/interp/interpolation.py:pressure_at_hybrid_levels", "src/skyborn/interp/interpolation.py:delta_pressure_hybrid"]}
{"id": "C76", "title": "interp_sigma_to_hybrid", "statement": "Non-monotone source sigma raises; otherwise the call succeeds, a column without usable surface pressure is missing, a target outside the range of source levels is missing, a target between two neighbouring levels lies on the line (in sigma or log sigma) through them, log interpolation involving a non-positive sigma is missing, and an entry depends only on its own column and level.", "quantifier": "all grids, sigma axes (both directions), columns, methods, layouts", "why_tests_cant": "quantifies over all columns and search paths", "anchors": ["src/skyborn/interp/interpolation.py:interp_sigma_to_hybrid", "src/skyborn/interp/fortran/vinth2p_kernels.f90"]}
{"id": "C77", "title": "interp_to_isentropic interpolates in potential temperature", "statement": "For arrays sharing their dimensions, the call succeeds for finite levels (non-finite levels raise) and replaces the level dimension; per column, with theta = T (p0/p)^kappa on the usable levels (data, temperature and pressure present, pressure positive): fewer than two usable levels give missing; a target equal to a level's theta gets that level's value (the first such level); a target between two neighbouring thetas lies on the line through those levels, hence between their values; without extrapolation a target outside the range of thetas is missing. The levels may be stored in any order.", "quantifier": "all array ranks, sizes, layouts, columns, levels, missing patterns and targets", "why_tests_cant": "quantifies over all profiles including unsorted and tied ones; the kernel sorts in place", "anchors": ["src/skyborn/interp/interpolation.py:interp_to_isentropic", "src/skyborn/interp/fortran/isentropic_kernels.f90:interp_isentropic_flat_profile"]}
{"id": "C78", "title": "interp_to_isentropic extrapolates with the end value", "statement": "With extrapolate=True a target beyond the lowest (highest) potential temperature gets the value of the usable level at that end.", "quantifier": "all columns and targets", "why_tests_cant": "quantifies over all profiles", "anchors": ["src/skyborn/interp/interpolation.py:interp_to_isentropic", "src/skyborn/interp/fortran/isentropic_kernels.f90:interp_isentropic_flat_profile"]}
{"id": "C79", "title": "interp_to_isentropic depends only on the usable levels of its own column", "statement": "An entry is determined by the set of usable (theta, value) pairs of its column, the target, extrapolate and the missing value: level order, missing levels, other columns, other targets, dimension layout and uninitialised memory do not matter (for distinct thetas).", "quantifier": "all pairs of calls with a column in common", "why_tests_cant": "relational claim over all pairs of inputs", "anchors": ["src/skyborn/interp/interpolation.py:interp_to_isentropic", "src/skyborn/interp/fortran/isentropic_kernels.f90:interp_isentropic_flat_profile"]}
{"id": "C80", "title": "interp_to_isentropic respects dimension names", "statement": "The result at a labelled position does not depend on the order in which data, temperature and pressure store their dimensions.", "quantifier": "all permutations of the dimensions of each array", "why_tests_cant": "quantifies over all layouts", "anchors": ["src/skyborn/interp/interpolation.py:interp_to_isentropic", "src/skyborn/interp/interpolation.py:_interp_to_isentropic_fortran_corder"]}
{"id": "C81", "title": "tropopause of a profile is the lowest qualifying layer", "statement": "trop_wmo_profile returns success=1 with the level index, interpolated pressure (at least 85 hPa), standard-atmosphere height and lapse rate of the lowest layer whose lapse rate is below the criterion, whose upper level is above 450 hPa and whose mean lapse rate over the layers within 2 km is below the criterion; for hPa input without such a layer every output is the missing value.", "quantifier": "every number of levels, every increasing positive pressure profile and positive temperature profile, criterion and non-positive missing value", "why_tests_cant": "a search over all layers with an inner averaging loop: tests sample a few soundings", "anchors": ["src/skyborn/calc/troposphere/core.py:trop_wmo_profile", "src/skyborn/calc/troposphere/fortran/stattrop_dp.f", "src/skyborn/calc/troposphere/fortran/tropopause_height.f90"]}
{"id": "C82", "title": "trop_wmo equals trop_wmo_profile column by column", "statement": "For every supported axis layout (2-D, 3-D with or without time, 4-D) trop_wmo returns arrays shaped like the temperature without the level axis, whose elements are what trop_wmo_profile gives for that column, with the levels in increasing pressure order if the order is checked.", "quantifier": "every shape, axis assignment of the supported kinds, data, masks, unit and scratch content", "why_tests_cant": "permutations of axes times all shapes; scratch reuse between columns", "anchors": ["src/skyborn/calc/troposphere/core.py:trop_wmo", "src/skyborn/calc/troposphere/fortran/tropopause_height.f90", "src/skyborn/calc/troposphere/tropopause_height_module.c"]}
{"id": "C83", "title": "success flag means a tropopause was found", "statement": "success is 1 exactly for columns that have a tropopause.", "quantifier": "every sounding, unit and missing value", "why_tests_cant": "depends on arithmetic coincidence of the missing value with scaled values", "anchors": ["src/skyborn/calc/troposphere/core.py:trop_wmo_profile", "src/skyborn/calc/troposphere/fortran/stattrop_dp.f", "src/skyborn/calc/troposphere/fortran/tropopause_height.f90"]}
{"id": "C84", "title": "pressure unit does not matter", "statement": "A sounding that has a tropopause gives the same outputs whether its pressures are passed in hPa or in Pa.", "quantifier": "every sounding with a tropopause, criterion, missing value", "why_tests_cant": "all soundings", "anchors": ["src/skyborn/calc/troposphere/core.py:trop_wmo_profile", "src/skyborn/calc/troposphere/fortran/stattrop_dp.f", "src/skyborn/calc/troposphere/fortran/tropopause_height.f90"]}
{"id": "C85", "title": "level order does not matter when it is checked", "statement": "With check_pressure_order (default) permuting the levels of pressure (distinct values) and temperature together changes no output of trop_wmo.", "quantifier": "every permutation of every number of levels, every layout", "why_tests_cant": "factorially many permutations", "anchors": ["src/skyborn/calc/troposphere/core.py:trop_wmo", "src/skyborn/calc/troposphere/fortran/tropopause_height.f90", "src/skyborn/calc/troposphere/tropopause_height_module.c"]}
{"id": "C86", "title": "level_index is an index into the caller's level axis", "statement": "On success level_index is the position, on the level axis as passed, of the upper level of the tropopause layer.", "quantifier": "every level order, layout and data", "why_tests_cant": "needs every ordering of the input levels", "anchors": ["src/skyborn/calc/troposphere/core.py:trop_wmo", "src/skyborn/calc/troposphere/fortran/tropopause_height.f90", "src/skyborn/calc/troposphere/tropopause_height_module.c"]}
{"id": "C87", "title": "reported lapse rate is that of the tropopause layer", "statement": "On success lapse_rate is the lapse rate of the tropopause layer, hence below the criterion.", "quantifier": "every sounding", "why_tests_cant": "boundary layer index depends on data", "anchors": ["src/skyborn/calc/troposphere/core.py:trop_wmo_profile", "src/skyborn/calc/troposphere/fortran/stattrop_dp.f", "src/skyborn/calc/troposphere/fortran/tropopause_height.f90"]}
{"id": "C88", "title": "reported pressure lies within the profile", "statement": "On success the tropopause pressure lies between the top and bottom pressures of the profile (85 hPa floor apart).", "quantifier": "every sounding with top at or below 85 hPa", "why_tests_cant": "extrapolation only shows for nearly equal lapse rates", "anchors": ["src/skyborn/calc/troposphere/core.py:trop_wmo_profile", "src/skyborn/calc/troposphere/fortran/stattrop_dp.f", "src/skyborn/calc/troposphere/fortran/tropopause_height.f90"]}
{"id": "C89", "title": "2-km criterion of the WMO definition", "statement": "The mean lapse rate between the reported tropopause and each higher level within 2 km does not exceed the criterion.", "quantifier": "every sounding", "why_tests_cant": "all profiles above the tropopause", "anchors": ["src/skyborn/calc/troposphere/core.py:trop_wmo_profile", "src/skyborn/calc/troposphere/fortran/stattrop_dp.f", "src/skyborn/calc/troposphere/fortran/tropopause_height.f90"]}
{"id": "C90", "title": "height output is consistent with pressure output", "statement": "Heights reported are a strictly decreasing function of the pressures reported (up to 1013.25 hPa), zero at 1013.25 hPa.", "quantifier": "every pair of soundings with a tropopause", "why_tests_cant": "continuum of pressures, including the table boundary at 226.32064 hPa where the two formulae agree to 1e-10", "anchors": ["src/skyborn/calc/troposphere/fortran/stndAtmUS76_dp.f", "src/skyborn/calc/troposphere/fortran/tropopause_height.f90"]}
{"id": "C91", "title": "missing data stay in their column", "statement": "A column with a masked or marker-valued temperature gives the missing value in every output, and outputs of a column depend on no other column.", "quantifier": "every field, mask, layout, unit and order flag", "why_tests_cant": "relational property over all pairs of fields", "anchors": ["src/skyborn/calc/troposphere/core.py:trop_wmo", "src/skyborn/calc/troposphere/fortran/tropopause_height.f90", "src/skyborn/calc/troposphere/tropopause_height_module.c"]}
{"id": "C92", "title": "axis arguments are honoured or rejected", "statement": "Whatever axis arguments are passed, if trop_wmo returns then every element is the result for the column along the level axis.", "quantifier": "every axis assignment the validation accepts", "why_tests_cant": "combinatorial axis assignments and coincidences of sizes", "anchors": ["src/skyborn/calc/troposphere/core.py:trop_wmo", "src/skyborn/calc/troposphere/fortran/tropopause_height.f90", "src/skyborn/calc/troposphere/tropopause_height_module.c"]}
{"id": "C93", "title": "Geostrophic wind formula", "statement": "For latitudes given south to north, geostrophic_wind returns u = -(g/f) dz/dy and v = (g/f) dz/dx by centred differences (one-sided at the edges, wrapped on cyclic grids) for every element, and the missing value at the equator, at the poles and next to missing heights.", "quantifier": "all grids of at least 2x2, all dimension strings, all fields and missing values", "why_tests_cant": "tests check a few fields; the formula must hold at every element of every grid, including edges and both longitude kinds", "anchors": ["src/skyborn/calc/geostrophic/core.py:geostrophic_wind", "src/skyborn/calc/geostrophic/fortran/z2geouv.f90:z2guv"]}
{"id": "C94", "title": "Wind rows belong to the caller's latitudes", "statement": "For latitudes in either order, row i of the winds belongs to latitude glat[i] (the results are labelled with the caller's latitudes).", "quantifier": "all strictly monotonic latitude lists and fields", "why_tests_cant": "needs every element of every field for both orders", "anchors": ["src/skyborn/calc/geostrophic/core.py:_ensure_south_to_north", "src/skyborn/calc/geostrophic/xarray.py:geostrophic_wind"]}
{"id": "C95", "title": "Multi-dimensional winds are slice-wise", "statement": "On data of more than two dimensions the winds have the shape of the input and each horizontal slice equals the result of the 2-D call for that slice.", "quantifier": "all shapes, dimension strings and fields", "why_tests_cant": "all ranks and axis orders", "anchors": ["src/skyborn/calc/geostrophic/core.py:_geostrophic_wind_multidim"]}
{"id": "C96", "title": "2-D data follow the dimension string", "statement": "2-D data given as longitude-latitude ('xy') give the wind of that field, or are refused.", "quantifier": "all 2-D fields and dimension strings", "why_tests_cant": "square grids accept the wrong layout silently", "anchors": ["src/skyborn/calc/geostrophic/core.py:_calc_geostrophic_2d"]}
{"id": "C97", "title": "Cyclic longitudes are recognised and used correctly", "statement": "Uniform global grids are treated as cyclic, regional grids are not, and on a grid that repeats its first longitude the seam gives the same wind as without the repeated column.", "quantifier": "all longitude lists", "why_tests_cant": "infinitely many grids; the error is confined to the seam", "anchors": ["src/skyborn/calc/geostrophic/core.py:_is_longitude_cyclic"]}
{"id": "C98", "title": "Rotation equivariance", "statement": "On a cyclic grid, rotating the heights by any number of columns rotates the winds by the same number of columns.", "quantifier": "all cyclic grids, fields and shifts", "why_tests_cant": "all shifts of all fields", "anchors": ["src/skyborn/calc/geostrophic/core.py:geostrophic_wind", "src/skyborn/calc/geostrophic/fortran/z2geouv.f90:z2guv"]}
{"id": "C99", "title": "Linearity and rest state", "statement": "Winds depend linearly on the heights, and a uniform height field has zero wind.", "quantifier": "all fields, coefficients and grids", "why_tests_cant": "algebraic law over all fields", "anchors": ["src/skyborn/calc/geostrophic/core.py:geostrophic_wind", "src/skyborn/calc/geostrophic/fortran/z2geouv.f90:z2guv"]}
{"id": "C100", "title": "Missing heights stay local", "statement": "A height equal to the missing value makes exactly the winds that need it missing; every other wind is unaffected.", "quantifier": "all fields, all placements of missing data, all missing values", "why_tests_cant": "all placements", "anchors": ["src/skyborn/calc/geostrophic/core.py:_calc_geostrophic_2d", "src/skyborn/calc/geostrophic/fortran/z2geouv.f90:z2guv"]}
{"id": "C101", "title": "Wind speed", "statement": "speed() is the Euclidean norm of the two components and missing as soon as one of them is.", "quantifier": "all component arrays", "why_tests_cant": "all values", "anchors": ["src/skyborn/calc/geostrophic/core.py:GeostrophicWind.speed"]}
{"id": "C102", "title": "DataArray axes are found by name", "statement": "A DataArray that has a latitude and a longitude dimension is computed along these two, whatever its other dimensions are called.", "quantifier": "all lists of dimension names", "why_tests_cant": "all names", "anchors": ["src/skyborn/calc/geostrophic/xarray.py:_detect_spatial_dimensions"]}
{"id": "C103", "title": "DataArray with further dimensions", "statement": "A DataArray with any further dimensions gives winds of the same shape, computed slice by slice.", "quantifier": "all lists of dimension names and shapes", "why_tests_cant": "all combinations of names", "anchors": ["src/skyborn/calc/geostrophic/xarray.py:_create_dim_order_string"]}
{"id": "C104", "title": "Regression map is the least-squares slope", "statement": "At every grid point without missing samples, and for a complete predictor, linear_regression returns the slope of the least-squares line of that grid point's series on the predictor, whatever is missing elsewhere.", "quantifier": "all 3-D data, predictors and grid points", "why_tests_cant": "infinitely many data sets; the optimality is over all lines", "anchors": ["src/skyborn/calc/calculations.py:linear_regression"]}
{"id": "C105", "title": "Regression map: missing data stay at their grid point", "statement": "linear_regression returns a missing coefficient exactly at the grid points with a missing sample; the results at a grid point do not depend on the data of other grid points.", "quantifier": "all data and all patterns of missing values", "why_tests_cant": "all patterns of missing values at other points", "anchors": ["src/skyborn/calc/calculations.py:linear_regression"]}
{"id": "C106", "title": "Regression map: missing predictor values", "statement": "Samples with a missing predictor value are left out of the regression.", "quantifier": "all predictors with missing values", "why_tests_cant": "all patterns of missing values", "anchors": ["src/skyborn/calc/calculations.py:linear_regression"]}
{"id": "C107", "title": "Regression does not modify its input", "statement": "linear_regression leaves the caller's data array unchanged, whether the call succeeds or fails.", "quantifier": "all inputs and all exits of the function", "why_tests_cant": "every exit point must be covered", "anchors": ["src/skyborn/calc/calculations.py:linear_regression"]}
{"id": "C108", "title": "Correlation map is Pearson's coefficient over the valid pairs", "statement": "spatial_correlation returns, at every grid point with at least three usable pairs on which both series vary, Pearson's correlation over exactly those pairs and its two-sided t-test p-value; otherwise both are missing.", "quantifier": "all 3-D data with at least three time steps, predictors, patterns of missing values", "why_tests_cant": "all data sets and gap patterns", "anchors": ["src/skyborn/calc/calculations.py:spatial_correlation"]}
{"id": "C109", "title": "Correlation map: range and units", "statement": "Coefficients lie in [-1,1] and p-values in [0,1]; both maps are present at the same points; changing the units of data or predictor changes at most the sign; the coefficient is +-1 exactly for straight-line relations.", "quantifier": "all data, all affine unit changes", "why_tests_cant": "inequality over all data", "anchors": ["src/skyborn/calc/calculations.py:spatial_correlation"]}
{"id": "C110", "title": "Correlation map: grid points are independent", "statement": "The results at a grid point depend only on its own series and the predictor.", "quantifier": "all pairs of data sets that agree at one grid point", "why_tests_cant": "quantifies over everything stored elsewhere", "anchors": ["src/skyborn/calc/calculations.py:spatial_correlation"]}
{"id": "C111", "title": "Longitude conversion only relabels and reorders columns", "statement": "convert_longitude_range returns the same columns, each labelled with the same longitude modulo 360 in the requested range, in increasing order; converting back and forth loses nothing; center_on_180=True wraps to -180..179 as documented.", "quantifier": "all longitude axes and data", "why_tests_cant": "all real longitudes", "anchors": ["src/skyborn/calc/calculations.py:convert_longitude_range"]}
{"id": "C112", "title": "Potential temperature", "statement": "calculate_potential_temperature is constant along dry adiabats, equals temperature at the reference pressure, decreases with pressure at fixed temperature, and the reference pressure can be changed afterwards.", "quantifier": "all positive temperatures and pressures", "why_tests_cant": "all real inputs", "anchors": ["src/skyborn/calc/calculations.py:calculate_potential_temperature"]}
{"id": "C113", "title": "Liang information flow is normalised", "statement": "Whenever liang (liang_causality) returns, |tau21|+|dH1_star|+|dH1_noise| = 1, the noise part is positive and |tau21| < 1, tau21*Z = T21.", "quantifier": "all pairs of series and time advances", "why_tests_cant": "all series", "anchors": ["src/skyborn/causality.py:liang", "src/skyborn/causality.py:liang_causality"]}
{"id": "C114", "title": "Liang information flow formula", "statement": "The flow is the least-squares coefficient of the second series in the tendency of the first times the regression coefficient of the second on the first; it vanishes for uncorrelated series.", "quantifier": "all pairs of series", "why_tests_cant": "optimality over all planes", "anchors": ["src/skyborn/causality.py:liang"]}
{"id": "C115", "title": "Liang information flow does not depend on units", "statement": "Rescaling and shifting either series changes nothing that is returned.", "quantifier": "all series and all non-zero factors", "why_tests_cant": "all affine maps", "anchors": ["src/skyborn/causality.py:liang"]}
{"id": "C116", "title": "Phase-randomised surrogates keep the spectrum", "statement": "For every draw of phases a surrogate is a real series with the power spectrum, mean and circular autocovariance of the original (shortened to odd length), and the phases are the ones drawn.", "quantifier": "all series and all random draws", "why_tests_cant": "random draws are unbounded in number", "anchors": ["src/skyborn/causality.py:phaseran"]}
{"id": "C117", "title": "trop_wmo refuses inconsistent pressures and axes", "statement": "trop_wmo returns only when the pressure is a non-empty one-dimensional array with exactly as many levels as the temperature along levdim and the non-negative axis arguments are distinct valid axes; a differing number of levels raises the length ValueError; trop_wmo_profile returns only for two one-dimensional profiles of equal non-zero length.", "quantifier": "every array, shape, axis arguments and option values", "why_tests_cant": "all shape and axis combinations; a silent mismatch would read the wrong levels", "anchors": ["src/skyborn/calc/troposphere/core.py:trop_wmo", "src/skyborn/calc/troposphere/core.py:trop_wmo_profile", "src/skyborn/calc/troposphere/tropopause_height_module.c"]}
{"id": "C118", "title": "Projection onto nt-1 dimensions and back", "statement": "unproject_vectors(project_vectors(X)) is X minus its time means; project_vectors(unproject_vectors(Xc)) is Xc; constants do not change the projection; whatever eigenbasis the eigenvalue routine returns.", "quantifier": "all series lengths, data and admissible eigenbases", "why_tests_cant": "all sizes and all eigenbases LAPACK may return", "anchors": ["src/skyborn/ROF/utils.py:project_vectors", "src/skyborn/ROF/utils.py:unproject_vectors"]}
{"id": "C119", "title": "calculate_trend is the least-squares slope", "statement": "calculate_trend of a projected series is the slope of the least-squares line of the original series; a series of a single time step raises.", "quantifier": "all series and eigenbases", "why_tests_cant": "optimality over all lines, all lengths", "anchors": ["src/skyborn/ROF/trend.py:calculate_trend"]}
{"id": "C120", "title": "speco diagonalises symmetric matrices and refuses others", "statement": "For a symmetric matrix speco returns independent unit eigenvectors paired with eigenvalues in descending order; a matrix that is not symmetric is refused.", "quantifier": "all real matrices", "why_tests_cant": "all matrices", "anchors": ["src/skyborn/ROF/utils.py:speco"]}
{"id": "C121", "title": "extract_Z2 splits the control runs", "statement": "Every realisation goes to exactly one of Z1, Z2, in the original order; for 0<frac<=1 Z2 consists of the positions floor((k+1)/frac) and its size differs from frac*nz by less than one.", "quantifier": "all samples and fractions", "why_tests_cant": "all lengths and real fractions", "anchors": ["src/skyborn/ROF/preprocess.py:PreProcess.extract_Z2"]}
{"id": "C122", "title": "Ledoit-Wolf regularisation gives an invertible covariance", "statement": "When creg(method='ledoit') is a number it is a convex combination of the sample covariance and the multiple of the identity of equal trace, is positive semidefinite, and is positive definite (invertible) as soon as two realisations differ by more than sign; otherwise it is the singular sample covariance.", "quantifier": "all samples", "why_tests_cant": "all sample sizes and dimensions", "anchors": ["src/skyborn/ROF/preprocess.py:PreProcess.creg"]}
{"id": "C123", "title": "creg is defined for every sample", "statement": "For every non-empty sample creg(method='ledoit') returns numbers.", "quantifier": "all samples", "why_tests_cant": "all samples", "anchors": ["src/skyborn/ROF/preprocess.py:PreProcess.creg"]}
{"id": "C124", "title": "creg is covariant", "statement": "An orthonormal change of variables, a permutation of the realisations and a change of units transform the estimate accordingly.", "quantifier": "all samples, orthogonal matrices, permutations, factors", "why_tests_cant": "all transformations", "anchors": ["src/skyborn/ROF/preprocess.py:PreProcess.creg"]}
{"id": "C125", "title": "ols is the generalised least squares estimate", "statement": "With a positive definite noise covariance, independent forcings and invertible Proj the scaling factors are Proj applied to the unique minimiser of the misfit; an exact combination is recovered; singular covariance, singular Proj or dependent forcings raise.", "quantifier": "all data", "why_tests_cant": "optimality over all coefficient vectors", "anchors": ["src/skyborn/ROF/model.py:AttributionModel.ols"]}
{"id": "C126", "title": "ols does not depend on coordinates", "statement": "Any invertible linear change of coordinates of observations, forcings, covariance and control runs, or scaling of the covariance, gives the same factors and intervals.", "quantifier": "all data and invertible matrices", "why_tests_cant": "all matrices", "anchors": ["src/skyborn/ROF/model.py:AttributionModel.ols"]}
{"id": "C127", "title": "ols intervals are t-intervals", "statement": "The interval of a scaling factor is the estimate plus/minus the 97.5% quantile of Student's t times the standard error derived from the control runs.", "quantifier": "all data and distribution functions", "why_tests_cant": "all data", "anchors": ["src/skyborn/ROF/model.py:AttributionModel.ols"]}
{"id": "C128", "title": "ribes decomposition is additive", "statement": "Whenever ribes returns, the estimated response is the sum of the estimated responses to the forcings; it returns for positive definite covariances; without forcings it raises.", "quantifier": "all data", "why_tests_cant": "all data", "anchors": ["src/skyborn/ROF/model.py:AttributionModel.ribes"]}
{"id": "C129", "title": "ribes estimates maximise the likelihood", "statement": "Among all additive decompositions the estimates are the unique one of minimal Gaussian misfit.", "quantifier": "all data and all decompositions", "why_tests_cant": "optimality over a continuum", "anchors": ["src/skyborn/ROF/model.py:AttributionModel.ribes"]}
{"id": "C130", "title": "ribes covariances are those of the estimates", "statement": "Estimates are fixed linear functions of the inputs and the reported covariances are the propagated input covariances; they never exceed the input uncertainty.", "quantifier": "all data and covariances", "why_tests_cant": "all matrices", "anchors": ["src/skyborn/ROF/model.py:AttributionModel.ribes"]}
{"id": "C131", "title": "Cm_estimate returns the nearest covariance matrix", "statement": "For two or more experiments Cm_estimate is (1+1/nm) times the unique covariance matrix nearest (Frobenius) to the first estimate, hence independent of the eigenbasis; it equals the first estimate when that is a covariance matrix; one experiment raises.", "quantifier": "all ensembles", "why_tests_cant": "optimality over all covariance matrices", "anchors": ["src/skyborn/ROF/utils.py:Cm_estimate"]}
{"id": "C132", "title": "SSM measures the spread of the models", "statement": "The trace of SSM is the sum over the models of the squared distance between ensemble mean and multi-model mean (time means removed).", "quantifier": "all ensembles and admissible eigenbases", "why_tests_cant": "all eigenbases the eigenvalue routine may return", "anchors": ["src/skyborn/ROF/utils.py:SSM"]}
{"id": "C133", "title": "Cv_estimate averages internal variability", "statement": "Cv_estimate is (1/nm^2) sum Cv/members, a covariance matrix when Cv is, Cv/(k r) for k experiments of r members; no experiment raises.", "quantifier": "all ensembles", "why_tests_cant": "all ensembles", "anchors": ["src/skyborn/ROF/utils.py:Cv_estimate", "src/skyborn/ROF/utils.py:get_nruns"]}
{"id": "C134", "title": "DCAPE is safe and ignores incomplete levels", "statement": "For any profile the kernel never accesses its work arrays out of bounds and the result does not depend on their initial contents; a level with a non-finite pressure, temperature or dewpoint has no influence wherever it is.", "quantifier": "all profile lengths, values and contents of uninitialised memory", "why_tests_cant": "uninitialised memory and all positions of missing levels cannot be enumerated", "anchors": ["src/skyborn/calc/dcape/core.py:calculate_dcape", "src/skyborn/calc/dcape/fortran/dcape.f90:dcape_profile_impl"]}
{"id": "C135", "title": "DCAPE does not depend on the order of the levels", "statement": "Listing the levels surface-first or top-first gives the same result (first and last complete pressures different).", "quantifier": "all profiles", "why_tests_cant": "all profiles", "anchors": ["src/skyborn/calc/dcape/core.py:calculate_dcape", "src/skyborn/calc/dcape/fortran/dcape.f90:dcape_profile_impl"]}
{"id": "C136", "title": "DCAPE is NaN exactly in the documented cases", "statement": "NaN is returned only for fewer than 4 valid levels or when no theta-e minimum exists between 500 and 700 hPa.", "quantifier": "all soundings", "why_tests_cant": "all soundings", "anchors": ["src/skyborn/calc/dcape/core.py:calculate_dcape", "src/skyborn/calc/dcape/fortran/dcape.f90:dcape_profile_impl"]}
{"id": "C137", "title": "The downdraft starts at the theta-e minimum of 700-500 hPa", "statement": "The start is a level of the sounding in 700-500 hPa or one of the two limits (interpolated), and none of these has a lower equivalent potential temperature; a start exists exactly when the sounding reaches that layer.", "quantifier": "all soundings", "why_tests_cant": "minimum over all soundings", "anchors": ["src/skyborn/calc/dcape/fortran/dcape.f90:thetae_min_in_700_500"]}
{"id": "C138", "title": "The parcel warms as it sinks, in steps below 2 hPa", "statement": "From a physical start the saturated parcel temperature is defined at every level and never decreases downwards; each integration uses equal steps shorter than 200 Pa that end at the target.", "quantifier": "all physical starts and pressure columns", "why_tests_cant": "all columns", "anchors": ["src/skyborn/calc/dcape/fortran/dcape.f90:rk4_integrate_moist_t"]}
{"id": "C139", "title": "DCAPE value, sign and response to a warmer boundary layer", "statement": "calculate_dcape of a profile is the trapezoidal integral over ln p of the virtual-temperature difference from start to surface, times Rd, not below 0; making levels below 700 hPa warmer or moister never decreases it.", "quantifier": "all soundings and all perturbations of the boundary layer", "why_tests_cant": "comparison of infinitely many pairs of soundings", "anchors": ["src/skyborn/calc/dcape/core.py:calculate_dcape", "src/skyborn/calc/dcape/fortran/dcape.f90:dcape_profile_impl"]}
{"id": "C140", "title": "Grid DCAPE is column-wise, and errors are exactly shape errors", "statement": "For 3-D inputs every element is the result of the same function for that column; named results carry the last two dimension names; the call raises exactly when pressure is not 1-D or 3-D or shapes differ.", "quantifier": "all shapes and fields", "why_tests_cant": "all shapes", "anchors": ["src/skyborn/calc/dcape/core.py:calculate_dcape", "src/skyborn/calc/dcape/core.py:dcape_grid", "src/skyborn/calc/dcape/dcape_core_module.c:dcape_grid"]}
{"id": "C141", "title": "grid_to_triple lists exactly the non-missing cells", "statement": "grid_to_triple(data, x, y, msg) returns a 3 x n array listing, row by row, every cell whose value is not the missing value, with its x, its y and its value, and nothing else; missing coordinates raise CoordinateError, wrong dimensions DimensionError, and nothing outside an array is accessed.", "quantifier": "all two-dimensional grids, coordinate arrays, missing values and contents of uninitialised memory", "why_tests_cant": "grids, sizes and patterns of missing cells are unbounded", "anchors": ["src/skyborn/interp/triple_to_grid.py:grid_to_triple", "src/skyborn/interp/fortran/grid2triple.f90:grid2triple_impl", "src/skyborn/interp/grid2triple_module.c"]}
{"id": "C142", "title": "grid_to_triple leaves the caller's array as it was", "statement": "After grid_to_triple the caller's data array holds what it held before the call.", "quantifier": "all grids (no value equal to the largest float64) and missing values", "why_tests_cant": "the array is rewritten in place during the call; tests compare a few arrays", "anchors": ["src/skyborn/interp/triple_to_grid.py:grid_to_triple", "src/skyborn/interp/fortran/grid2triple.f90:grid2triple_impl", "src/skyborn/interp/grid2triple_module.c", "src/skyborn/interp/missing_values.py:py2fort_msg", "src/skyborn/interp/missing_values.py:fort2py_msg"]}
{"id": "C143", "title": "grid_to_triple followed by triple_to_grid gives the grid back", "statement": "Converting a grid to triples and gridding them again on the same axes returns the original grid.", "quantifier": "all grids with strictly increasing axes", "why_tests_cant": "repository tests compare only sorted values of small grids", "anchors": ["src/skyborn/interp/triple_to_grid.py:grid_to_triple", "src/skyborn/interp/fortran/grid2triple.f90:grid2triple_impl", "src/skyborn/interp/grid2triple_module.c", "src/skyborn/interp/triple_to_grid.py:triple_to_grid", "src/skyborn/interp/fortran/triple2grid.f90:triple2grid1_impl", "src/skyborn/interp/fortran/triple2grid.f90:trip2grd2_impl", "src/skyborn/interp/triple2grid_module.c"]}
{"id": "C144", "title": "triple_to_grid places data at the nearest grid point", "statement": "Each grid point gets the value of an observation for which it is the nearest grid point, and the missing value exactly if there is none.", "quantifier": "all sets of observations inside the grid, all strictly increasing axes", "why_tests_cant": "observations and axes are unbounded", "anchors": ["src/skyborn/interp/triple_to_grid.py:triple_to_grid", "src/skyborn/interp/fortran/triple2grid.f90:triple2grid1_impl", "src/skyborn/interp/fortran/triple2grid.f90:trip2grd2_impl", "src/skyborn/interp/triple2grid_module.c"]}
{"id": "C145", "title": "triple_to_grid depends only on its arguments", "statement": "Two calls of triple_to_grid with the same arguments give the same grid, whatever memory held before.", "quantifier": "all arguments, all contents of uninitialised memory", "why_tests_cant": "a test sees one memory content", "anchors": ["src/skyborn/interp/triple_to_grid.py:triple_to_grid", "src/skyborn/interp/fortran/triple2grid.f90:triple2grid1_impl", "src/skyborn/interp/fortran/triple2grid.f90:trip2grd2_impl", "src/skyborn/interp/triple2grid_module.c"]}
{"id": "C146", "title": "triple_to_grid stays inside its arrays", "statement": "No call of triple_to_grid reads or writes outside an array.", "quantifier": "all data, coordinates and axis lengths", "why_tests_cant": "out-of-bounds reads usually go unnoticed", "anchors": ["src/skyborn/interp/triple_to_grid.py:triple_to_grid", "src/skyborn/interp/fortran/triple2grid.f90:triple2grid1_impl", "src/skyborn/interp/fortran/triple2grid.f90:trip2grd2_impl", "src/skyborn/interp/triple2grid_module.c"]}
{"id": "C147", "title": "distmx is a limit on the distance, values are never invented", "statement": "With method=1 an observation within distmx km of its nearest grid point is used; every value on the grid is the missing value or the value of a non-missing observation.", "quantifier": "all observations, grids, distmx", "why_tests_cant": "universally quantified over positions on the sphere", "anchors": ["src/skyborn/interp/triple_to_grid.py:triple_to_grid", "src/skyborn/interp/fortran/triple2grid.f90:triple2grid1_impl", "src/skyborn/interp/fortran/triple2grid.f90:trip2grd2_impl", "src/skyborn/interp/triple2grid_module.c"]}
{"id": "C148", "title": "triple_to_grid treats leading dimensions independently", "statement": "For data with leading dimensions the result has these dimensions followed by (ny, mx), and at every leading position it is the grid of the data found there; bad method, distmx with method=0 and coordinates of the wrong length are refused.", "quantifier": "all ranks and sizes, all data", "why_tests_cant": "ranks and sizes are unbounded", "anchors": ["src/skyborn/interp/triple_to_grid.py:triple_to_grid", "src/skyborn/interp/fortran/triple2grid.f90:triple2grid1_impl", "src/skyborn/interp/fortran/triple2grid.f90:trip2grd2_impl", "src/skyborn/interp/triple2grid_module.c"]}
{"id": "C149", "title": "Every valid grid can be constructed", "statement": "Spharmt(nlon, nlat, rsphere, gridtype, legfunc) succeeds for every nlat >= 3, nlon >= 4 and rsphere > 0, on each of the four grid/Legendre combinations; anything smaller raises ValidationError. (Falsified: Gaussian stored grids with nlat > nlon/2+2, and workspace lengths beyond a C int.)", "quantifier": "every nlat, nlon, rsphere, gridtype and legfunc", "why_tests_cant": "the lengths Python computes must dominate the lengths eight compiled routines require, for every pair of sizes; tests construct a handful of usual grids", "anchors": ["src/skyborn/spharm/spherical_harmonics.py:Spharmt.__init__", "src/skyborn/spharm/_spherepack_module.c", "src/skyborn/spharm/src/vhsgs.f90", "src/skyborn/spharm/src/shaes.f90"]}
{"id": "C150", "title": "Transforms accept any number of time slices", "statement": "Once a Spharmt exists, each scalar/vector analysis and synthesis accepts any number of slices: the work lengths passed to the compiled routines satisfy the routines' own tests. (Falsified: divergence-only analysis on regular stored grids with more than 24 slices; arguments beyond a C int.)", "quantifier": "every grid and every number of slices", "why_tests_cant": "the failing number of slices is hidden in a constant of a C wrapper; tests use few slices", "anchors": ["src/skyborn/spharm/_spherepack_module.c:py_vhaesdiv", "src/skyborn/spharm/spherical_harmonics.py:Spharmt.grdtospec", "src/skyborn/spharm/spherical_harmonics.py:Spharmt.getdivspec"]}
{"id": "C151", "title": "getuv returns the wind with the given vorticity and divergence", "statement": "For vorticity and divergence spectra, Spharmt.getuv returns on the grid the values of a wind field whose relative vorticity and divergence (defined by partial derivatives on the sphere) are the fields of these spectra. (Falsified at the default truncation: the highest degree is dropped.)", "quantifier": "every grid, truncation, spectrum and number of slices", "why_tests_cant": "the fields, the truncation and the grid size are arbitrary; tests compare a few analytic winds with tolerances", "anchors": ["src/skyborn/spharm/spherical_harmonics.py:Spharmt.getuv"]}
{"id": "C152", "title": "Gradients are gradients", "statement": "Spharmt.getgrad / VectorWind.gradient return the values of the gradient (partial derivatives on the sphere) of the field they are given. (Falsified at the default truncation.)", "quantifier": "every grid, truncation, band-limited field and number of slices", "why_tests_cant": "the fields, the truncation and the grid size are arbitrary; tests compare a few analytic winds with tolerances", "anchors": ["src/skyborn/spharm/spherical_harmonics.py:Spharmt.getgrad", "src/skyborn/windspharm/standard.py:VectorWind.gradient"]}
{"id": "C153", "title": "Single-quantity methods agree with the paired ones", "statement": "vorticity, divergence, streamfunction, velocitypotential, nondivergentcomponent and irrotationalcomponent return the same arrays as the corresponding parts of vrtdiv, sfvp and helmholtz. (Falsified: more than 24 slices on regular stored grids.)", "quantifier": "every wind, truncation, grid and number of slices", "why_tests_cant": "the fields, the truncation and the grid size are arbitrary; tests compare a few analytic winds with tolerances", "anchors": ["src/skyborn/windspharm/standard.py:VectorWind.vrtdiv", "src/skyborn/windspharm/standard.py:VectorWind.sfvp", "src/skyborn/windspharm/standard.py:VectorWind.helmholtz", "src/skyborn/windspharm/standard.py:VectorWind.divergence", "src/skyborn/windspharm/standard.py:VectorWind.velocitypotential", "src/skyborn/windspharm/standard.py:VectorWind.irrotationalcomponent"]}
{"id": "C154", "title": "Band-limited winds are treated exactly", "statement": "For the values of a wind whose vorticity and divergence have degree at most T, vrtdiv returns the values of that vorticity and divergence, helmholtz the values of an irrotational and a non-divergent wind that add up to the given wind, and synthesising the spectra returns the wind.", "quantifier": "every band-limited wind and every grid with room for it", "why_tests_cant": "the fields, the truncation and the grid size are arbitrary; tests compare a few analytic winds with tolerances", "anchors": ["src/skyborn/windspharm/standard.py:VectorWind.vrtdiv", "src/skyborn/windspharm/standard.py:VectorWind.helmholtz", "src/skyborn/spharm/spherical_harmonics.py:Spharmt.getuv"]}
{"id": "C155", "title": "Helmholtz decomposition", "statement": "For every wind, helmholtz returns two winds, one with zero vorticity and the divergence vrtdiv returns, the other with zero divergence and the vorticity vrtdiv returns; sfvp returns the streamfunction and velocity potential of these winds.", "quantifier": "every pair of wind arrays, grid, truncation and number of slices", "why_tests_cant": "the fields, the truncation and the grid size are arbitrary; tests compare a few analytic winds with tolerances", "anchors": ["src/skyborn/windspharm/standard.py:VectorWind.helmholtz", "src/skyborn/windspharm/standard.py:VectorWind.sfvp", "src/skyborn/windspharm/standard.py:VectorWind.vrtdiv"]}
{"id": "C156", "title": "Rossby wave source", "statement": "rossbywavesource returns minus the divergence of absolute vorticity times the divergent wind. (Falsified: with T > nlon/2 the result contains numbers never computed.)", "quantifier": "every wind, rotation rate, truncation and grid", "why_tests_cant": "the fields, the truncation and the grid size are arbitrary; tests compare a few analytic winds with tolerances", "anchors": ["src/skyborn/windspharm/standard.py:VectorWind.rossbywavesource"]}
{"id": "C157", "title": "Planetary and absolute vorticity", "statement": "planetaryvorticity is 2*omega*sin(latitude of the row), absolutevorticity its sum with vorticity. (Falsified: on regular grids with an even number of rows the latitudes are not those the transforms use.)", "quantifier": "every wind, rotation rate and grid", "why_tests_cant": "the fields, the truncation and the grid size are arbitrary; tests compare a few analytic winds with tolerances", "anchors": ["src/skyborn/windspharm/standard.py:VectorWind.planetaryvorticity", "src/skyborn/windspharm/standard.py:VectorWind.absolutevorticity"]}
{"id": "C158", "title": "Scalar transforms are inverse to each other", "statement": "grdtospec after spectogrd returns the spectrum, truncate leaves fields of degree at most T unchanged and truncating twice is truncating once. (Falsified at the default truncation on regular grids: two spectra have the same grid values.)", "quantifier": "every spectrum, field, truncation and grid", "why_tests_cant": "the fields, the truncation and the grid size are arbitrary; tests compare a few analytic winds with tolerances", "anchors": ["src/skyborn/spharm/spherical_harmonics.py:Spharmt.grdtospec", "src/skyborn/spharm/spherical_harmonics.py:Spharmt.spectogrd", "src/skyborn/windspharm/standard.py:VectorWind.truncate"]}
{"id": "C159", "title": "Which winds VectorWind accepts", "statement": "VectorWind accepts exactly finite, equally shaped u and v of rank at least 2 with at least 3 rows and 4 columns, a known grid type and legfunc and a positive radius, and names the reason otherwise.", "quantifier": "all arrays, grid types, radii and legfuncs", "why_tests_cant": "combinations of all arguments are unbounded", "anchors": ["src/skyborn/windspharm/standard.py:VectorWind.__init__", "src/skyborn/spharm/spherical_harmonics.py:Spharmt.__init__"]}
{"id": "C160", "title": "Cached results do not depend on the history of calls", "statement": "Whatever calls were made before, each VectorWind method returns what it returns on a new object with the same winds. (Falsified if u and v are reassigned after a call.)", "quantifier": "all sequences of method calls", "why_tests_cant": "histories are unbounded", "anchors": ["src/skyborn/windspharm/standard.py:VectorWind"]}
{"id": "C161", "title": "Spectral regridding keeps band-limited fields", "statement": "regrid(grdin, grdout, values) of a band-limited field returns the values of that field on grdout, cut at ntrunc and with its component of degree n multiplied by smooth[n]. (Falsified: default truncation with few longitudes; weights with a truncation above the target's rows are read past their end.)", "quantifier": "every pair of grids, field, truncation and weights", "why_tests_cant": "the fields, the truncation and the grid size are arbitrary; tests compare a few analytic winds with tolerances", "anchors": ["src/skyborn/spharm/spherical_harmonics.py:regrid"]}
{"id": "C162", "title": "Analyses are fully computed", "statement": "grdtospec returns only coefficients computed from the data. (Falsified when the truncation exceeds nlon/2, which the default does when nlat-1 > nlon/2.)", "quantifier": "every grid, field and truncation", "why_tests_cant": "uninitialised memory often happens to be zero in a test", "anchors": ["src/skyborn/spharm/spherical_harmonics.py:Spharmt.grdtospec"]}
{"id": "C163", "title": "specsmooth weights each degree", "statement": "specsmooth multiplies the component of degree n by smooth[n]. (Falsified when nlat-1 > nlon/2.)", "quantifier": "every band-limited field, weights and grid", "why_tests_cant": "the fields, the truncation and the grid size are arbitrary; tests compare a few analytic winds with tolerances", "anchors": ["src/skyborn/spharm/spherical_harmonics.py:Spharmt.specsmooth"]}
{"id": "C164", "title": "Coinciding points are copied", "statement": "A target of rcm2rgrid, rgrid2rcm or rcm2points that coincides with a (unique) source point with a valid value gets exactly that value. (Falsified for rcm2rgrid on sheared grids with increasing axes.)", "quantifier": "every source grid, field, target and interpolation method", "why_tests_cant": "grid shapes, coordinates, missing patterns and search branches are arbitrary; tests use a few small regular examples", "anchors": ["src/skyborn/interp/rcm2rgrid.py:rcm2rgrid", "src/skyborn/interp/rcm2rgrid.py:rgrid2rcm", "src/skyborn/interp/rcm2points.py:rcm2points", "src/skyborn/interp/fortran/rcm2rgrid.f90", "src/skyborn/interp/fortran/rcm2points.f90"]}
{"id": "C165", "title": "Results lie in the range of the data", "statement": "Every element returned by rcm2rgrid, rgrid2rcm and rcm2points is the missing value or a number between two valid numbers of the same source field.", "quantifier": "every accepted input", "why_tests_cant": "grid shapes, coordinates, missing patterns and search branches are arbitrary; tests use a few small regular examples", "anchors": ["src/skyborn/interp/rcm2rgrid.py:rcm2rgrid", "src/skyborn/interp/rcm2rgrid.py:rgrid2rcm", "src/skyborn/interp/rcm2points.py:rcm2points", "src/skyborn/interp/fortran/rcm2rgrid.f90", "src/skyborn/interp/fortran/rcm2points.f90"]}
{"id": "C166", "title": "No extrapolation", "statement": "A target outside the box of the source coordinates (up to the tolerance of the point match) is missing. (Falsified for rcm2points, whose nearest-neighbour fallback reaches arbitrarily far east and west.)", "quantifier": "every accepted input", "why_tests_cant": "grid shapes, coordinates, missing patterns and search branches are arbitrary; tests use a few small regular examples", "anchors": ["src/skyborn/interp/rcm2rgrid.py:rcm2rgrid", "src/skyborn/interp/rcm2rgrid.py:rgrid2rcm", "src/skyborn/interp/rcm2points.py:rcm2points", "src/skyborn/interp/fortran/rcm2rgrid.f90", "src/skyborn/interp/fortran/rcm2points.f90"]}
{"id": "C167", "title": "Only short gaps are filled", "statement": "The gap filling applied to each output row of rcm2rgrid and rgrid2rcm fills exactly the interior runs of at most two missing values, by the straight line between the neighbours, and leaves everything else; it equals the reference routine with arguments (0, 2).", "quantifier": "every row, length and missing value", "why_tests_cant": "the row length and the missing pattern are arbitrary", "anchors": ["src/skyborn/interp/fortran/rcm2rgrid.f90", "src/skyborn/interp/fortran/linmsg_dp.f90"]}
{"id": "C168", "title": "The four surrounding points", "statement": "A target of rcm2rgrid that coincides with no source point is computed from the four source points around it. (Falsified: the cells are two points wide.)", "quantifier": "every source grid and target", "why_tests_cant": "grid shapes, coordinates, missing patterns and search branches are arbitrary; tests use a few small regular examples", "anchors": ["src/skyborn/interp/rcm2rgrid.py:rcm2rgrid", "src/skyborn/interp/fortran/rcm2rgrid.f90"]}
{"id": "C169", "title": "Interpolation formula inside complete cells", "statement": "In a cell with four valid corners rgrid2rcm (documented: inverse distance weighting) and rcm2points with opt=2 (bilinear) return the bilinear interpolation of the corners, up to and including the last longitude and latitude. (Falsified: documented formula of rgrid2rcm; last edges.)", "quantifier": "every increasing source, field and target", "why_tests_cant": "grid shapes, coordinates, missing patterns and search branches are arbitrary; tests use a few small regular examples", "anchors": ["src/skyborn/interp/rcm2rgrid.py:rcm2rgrid", "src/skyborn/interp/rcm2rgrid.py:rgrid2rcm", "src/skyborn/interp/rcm2points.py:rcm2points", "src/skyborn/interp/fortran/rcm2rgrid.f90", "src/skyborn/interp/fortran/rcm2points.f90"]}
{"id": "C170", "title": "Interpolation formula with missing corners", "statement": "A target in a cell with at least one valid corner gets the inverse-distance-squared mean of its valid corners; with no valid corner it is missing.", "quantifier": "every cell, missing pattern and target", "why_tests_cant": "grid shapes, coordinates, missing patterns and search branches are arbitrary; tests use a few small regular examples", "anchors": ["src/skyborn/interp/rcm2rgrid.py:rcm2rgrid", "src/skyborn/interp/rcm2rgrid.py:rgrid2rcm", "src/skyborn/interp/rcm2points.py:rcm2points", "src/skyborn/interp/fortran/rcm2rgrid.f90", "src/skyborn/interp/fortran/rcm2points.f90"]}
{"id": "C171", "title": "The caller's field is unchanged", "statement": "After the call the field passed by the caller holds what it held before. (Falsified for rcm2rgrid and rgrid2rcm, and for values equal to the largest float64.)", "quantifier": "every accepted input", "why_tests_cant": "an array with no NaN is unchanged; tests rarely inspect the input afterwards", "anchors": ["src/skyborn/interp/rcm2rgrid.py:rcm2rgrid", "src/skyborn/interp/rcm2rgrid.py:rgrid2rcm", "src/skyborn/interp/rcm2points.py:rcm2points", "src/skyborn/interp/fortran/rcm2rgrid.f90", "src/skyborn/interp/fortran/rcm2points.f90"]}
{"id": "C172", "title": "Orientation of the source is checked", "statement": "rcm2points refuses sources whose latitudes or longitudes are not increasing. (Falsified: it never refuses.)", "quantifier": "every source", "why_tests_cant": "grid shapes, coordinates, missing patterns and search branches are arbitrary; tests use a few small regular examples", "anchors": ["src/skyborn/interp/rcm2points.py:rcm2points", "src/skyborn/interp/fortran/rcm2points.f90"]}
{"id": "C173", "title": "Targets are independent", "statement": "The value at a target depends on the coordinates of this target only, not on the other targets of the call (for rcm2rgrid and rgrid2rcm before gap filling).", "quantifier": "every pair of target sets with a common target", "why_tests_cant": "grid shapes, coordinates, missing patterns and search branches are arbitrary; tests use a few small regular examples", "anchors": ["src/skyborn/interp/rcm2rgrid.py:rcm2rgrid", "src/skyborn/interp/rcm2rgrid.py:rgrid2rcm", "src/skyborn/interp/rcm2points.py:rcm2points", "src/skyborn/interp/fortran/rcm2rgrid.f90", "src/skyborn/interp/fortran/rcm2points.f90"]}
{"id": "C174", "title": "Fields are independent", "statement": "Every field of a call with several fields is the result for that field alone.", "quantifier": "every accepted input", "why_tests_cant": "grid shapes, coordinates, missing patterns and search branches are arbitrary; tests use a few small regular examples", "anchors": ["src/skyborn/interp/rcm2rgrid.py:rcm2rgrid", "src/skyborn/interp/rcm2rgrid.py:rgrid2rcm", "src/skyborn/interp/rcm2points.py:rcm2points", "src/skyborn/interp/fortran/rcm2rgrid.f90", "src/skyborn/interp/fortran/rcm2points.f90"]}
{"id": "C175", "title": "Distances are great-circle angles", "statement": "The distance used for the weights is the great-circle angle between the two points (in 1/57.29577995691645 radian), symmetric and at most 181.", "quantifier": "every pair of points on the sphere", "why_tests_cant": "the points are arbitrary; an incorrect haversine agrees at small angles", "anchors": ["src/skyborn/interp/fortran/rcm_geodesy.f90"]}
{"id": "C176", "title": "Acceptance and shapes", "statement": "The three functions succeed exactly on coordinates and fields of fitting shapes, and leading dimensions of the field are arbitrary. (Second half falsified: only three-dimensional fields are accepted.)", "quantifier": "every combination of shapes", "why_tests_cant": "the shapes are arbitrary", "anchors": ["src/skyborn/interp/rcm2rgrid.py:rcm2rgrid", "src/skyborn/interp/rcm2rgrid.py:rgrid2rcm", "src/skyborn/interp/rcm2points.py:rcm2points", "src/skyborn/interp/fortran/rcm2rgrid.f90", "src/skyborn/interp/fortran/rcm2points.f90"]}
{"id": "C177", "title": "Truncations are validated", "statement": "Every spectral transform that takes a truncation accepts it only if it is between 0 and nlat-1, and refuses every other value.", "quantifier": "every grid, truncation and transform", "why_tests_cant": "the truncation and grid are arbitrary", "anchors": ["src/skyborn/spharm/spherical_harmonics.py:_validate_ntrunc", "src/skyborn/spharm/spherical_harmonics.py:Spharmt.grdtospec", "src/skyborn/spharm/spherical_harmonics.py:Spharmt.getvrtdivspec"]}
{"id": "C178", "title": "Barotropic growth rate is the maximum over modes and wavenumbers", "statement": "barot_growth_rate returns the greatest imaginary part of the eigenvalues of the finite-difference barotropic operator over all wavenumbers; documented: with the second derivative in y. (Second half falsified: the operator is the derivative of psi'/cos.)", "quantifier": "every wind profile on three or more strictly monotonic latitudes between the poles", "why_tests_cant": "profiles, levels and latitudes are arbitrary and the result is an eigenvalue problem over a whole spectrum; tests compare a few profiles with stored numbers", "anchors": ["src/skyborn/calc/growth_rate/core.py:barot_growth_rate", "src/skyborn/calc/growth_rate/fortran/growth_rate_kernels.f90"]}
{"id": "C179", "title": "Rayleigh-Kuo criterion", "statement": "barot_growth_rate is never negative, and zero for every profile whose absolute-vorticity gradient has one sign, in particular for a fluid at rest.", "quantifier": "every wind profile on three or more latitudes", "why_tests_cant": "profiles, levels and latitudes are arbitrary and the result is an eigenvalue problem over a whole spectrum; tests compare a few profiles with stored numbers", "anchors": ["src/skyborn/calc/growth_rate/core.py:barot_growth_rate", "src/skyborn/calc/growth_rate/fortran/growth_rate_kernels.f90"]}
{"id": "C180", "title": "Orientation and hemisphere of the latitudes", "statement": "Reversing the latitude axis together with the wind, or mirroring the latitudes at the equator, does not change barot_growth_rate.", "quantifier": "every profile", "why_tests_cant": "profiles, levels and latitudes are arbitrary and the result is an eigenvalue problem over a whole spectrum; tests compare a few profiles with stored numbers", "anchors": ["src/skyborn/calc/growth_rate/core.py:barot_growth_rate", "src/skyborn/calc/growth_rate/fortran/growth_rate_kernels.f90"]}
{"id": "C181", "title": "Baroclinic growth rate is the maximum over the spectrum", "statement": "baroc_growth_rate returns the maximum over all wavenumbers of the (smoothed) growth rate of the normal modes of the column remapped to the solver levels. (Holds only if the last sample does not exceed it; otherwise the greatest value up to the last turning point is returned.)", "quantifier": "every stable column, tropopause, place, wavenumber mode and smoothing", "why_tests_cant": "profiles, levels and latitudes are arbitrary and the result is an eigenvalue problem over a whole spectrum; tests compare a few profiles with stored numbers", "anchors": ["src/skyborn/calc/growth_rate/core.py:baroc_growth_rate", "src/skyborn/calc/growth_rate/fortran/growth_rate_kernels.f90"]}
{"id": "C182", "title": "Stable columns have growth rate zero", "statement": "A column without growing waves (one-signed potential-vorticity gradient, constant wind) has growth rate zero; accepted settings give a result. (Falsified: such columns raise RuntimeError, and solver_levels=2 or five to seven longitudes always raise.)", "quantifier": "every stable column", "why_tests_cant": "profiles, levels and latitudes are arbitrary and the result is an eigenvalue problem over a whole spectrum; tests compare a few profiles with stored numbers", "anchors": ["src/skyborn/calc/growth_rate/core.py:baroc_growth_rate", "src/skyborn/calc/growth_rate/fortran/growth_rate_kernels.f90"]}
{"id": "C183", "title": "Galilean invariance", "statement": "Adding a constant to the wind does not change baroc_growth_rate.", "quantifier": "every column and constant", "why_tests_cant": "profiles, levels and latitudes are arbitrary and the result is an eigenvalue problem over a whole spectrum; tests compare a few profiles with stored numbers", "anchors": ["src/skyborn/calc/growth_rate/core.py:baroc_growth_rate", "src/skyborn/calc/growth_rate/fortran/growth_rate_kernels.f90"]}
{"id": "C184", "title": "Hemispheres and band ends", "statement": "Moving the latitude, the band or the latitude coordinate to the other hemisphere, or exchanging the ends of the band, does not change the outcome of baroc_growth_rate.", "quantifier": "every input", "why_tests_cant": "profiles, levels and latitudes are arbitrary and the result is an eigenvalue problem over a whole spectrum; tests compare a few profiles with stored numbers", "anchors": ["src/skyborn/calc/growth_rate/core.py:baroc_growth_rate", "src/skyborn/calc/growth_rate/fortran/growth_rate_kernels.f90"]}
{"id": "C185", "title": "Pressure units", "statement": "Pressure levels and tropopause pressures may be given in Pa or hPa. (Falsified below 20 hPa, proved above.)", "quantifier": "every pressure array and tropopause pressure", "why_tests_cant": "profiles, levels and latitudes are arbitrary and the result is an eigenvalue problem over a whole spectrum; tests compare a few profiles with stored numbers", "anchors": ["src/skyborn/calc/growth_rate/core.py:baroc_growth_rate", "src/skyborn/calc/growth_rate/fortran/growth_rate_kernels.f90"]}
{"id": "C186", "title": "Level order", "statement": "Giving pressure, wind and temperature from the top or from the bottom does not change baroc_growth_rate.", "quantifier": "every column", "why_tests_cant": "profiles, levels and latitudes are arbitrary and the result is an eigenvalue problem over a whole spectrum; tests compare a few profiles with stored numbers", "anchors": ["src/skyborn/calc/growth_rate/core.py:baroc_growth_rate", "src/skyborn/calc/growth_rate/fortran/growth_rate_kernels.f90"]}
{"id": "C187", "title": "Profiles of a batch are independent", "statement": "In a call with several profiles each profile gets the number of the call for this profile alone, and NaN if something is missing or it is unusable. (Falsified: a profile whose solve fails makes the whole call raise; otherwise proved.)", "quantifier": "every number of profiles and missing pattern, explicit or diagnosed tropopause", "why_tests_cant": "profiles, levels and latitudes are arbitrary and the result is an eigenvalue problem over a whole spectrum; tests compare a few profiles with stored numbers", "anchors": ["src/skyborn/calc/growth_rate/core.py:baroc_growth_rate", "src/skyborn/calc/growth_rate/fortran/growth_rate_kernels.f90"]}
{"id": "C188", "title": "Latitude-band mean", "statement": "Three-dimensional arrays with a latitude axis and lat_bounds are reduced to the cosine-weighted mean over the latitudes in the band that hold a number, then treated as the reduced arrays; the mean lies within the range of the data and is missing only if all values are; an empty band is refused.", "quantifier": "every array, axis position, latitude axis, band and missing pattern", "why_tests_cant": "profiles, levels and latitudes are arbitrary and the result is an eigenvalue problem over a whole spectrum; tests compare a few profiles with stored numbers", "anchors": ["src/skyborn/calc/growth_rate/core.py:baroc_growth_rate", "src/skyborn/calc/growth_rate/fortran/growth_rate_kernels.f90"]}
{"id": "C189", "title": "Layouts", "statement": "The level axis of two-dimensional input may be first or last, ambiguous (square) arrays are refused, a single profile, latitude or tropopause stands for repeated ones; barot_growth_rate with fewer than three latitudes gives NaN. (Last part falsified: it raises.)", "quantifier": "every shape", "why_tests_cant": "the shapes are arbitrary", "anchors": ["src/skyborn/calc/growth_rate/core.py:baroc_growth_rate", "src/skyborn/calc/growth_rate/fortran/growth_rate_kernels.f90"]}
{"id": "C190", "title": "CAPE of the potential-intensity code", "statement": "The CAPE routine behind potential_intensity returns a non-negative energy: that of the lifted parcel (dry below, saturated above its condensation level) up to the last level of positive buoyancy, with a linear rest above it; the outflow temperature lies between temperatures of the column and the outflow level within it. A parcel colder than 200 K or drier than 1e-6 is refused.", "quantifier": "every column and parcel for which the saturated parcel temperature converges", "why_tests_cant": "the profile, its missing pattern and the number of iterations are arbitrary and the result is the end of a fixed-point iteration; tests compare a few soundings with stored numbers", "anchors": ["src/skyborn/calc/GPI/fortran/tropical_cyclone_potential_intensity.f90:CAPE"]}
{"id": "C191", "title": "Potential intensity is physically bounded", "statement": "Minimum pressure and maximum wind are both NaN or both numbers; then the wind is not negative and the minimum pressure is positive and not above the sea-level pressure.", "quantifier": "every input of one, three or four dimensions and missing pattern", "why_tests_cant": "the profile, its missing pattern and the number of iterations are arbitrary and the result is the end of a fixed-point iteration; tests compare a few soundings with stored numbers", "anchors": ["src/skyborn/calc/GPI/core.py:potential_intensity", "src/skyborn/calc/GPI/fortran/tropical_cyclone_potential_intensity.f90"]}
{"id": "C192", "title": "A success is a solution", "statement": "Flag 1 means: the reported minimum pressure and wind satisfy the potential-intensity equations for the profile at a central pressure that is a fixed point within the tolerance.", "quantifier": "every profile", "why_tests_cant": "the profile, its missing pattern and the number of iterations are arbitrary and the result is the end of a fixed-point iteration; tests compare a few soundings with stored numbers", "anchors": ["src/skyborn/calc/GPI/core.py:potential_intensity", "src/skyborn/calc/GPI/fortran/tropical_cyclone_potential_intensity.f90"]}
{"id": "C193", "title": "Failures return no number", "statement": "Without success (flag other than 1) the profile call returns NaN. (Falsified: it returns the sea-level pressure and no wind for flag 0 and for a failing CAPE.)", "quantifier": "every profile", "why_tests_cant": "the profile, its missing pattern and the number of iterations are arbitrary and the result is the end of a fixed-point iteration; tests compare a few soundings with stored numbers", "anchors": ["src/skyborn/calc/GPI/core.py:potential_intensity", "src/skyborn/calc/GPI/fortran/tropical_cyclone_potential_intensity.f90"]}
{"id": "C194", "title": "Cold water", "statement": "No potential intensity is given where the sea surface has at most 5 degrees C or its temperature is missing.", "quantifier": "every input", "why_tests_cant": "the profile, its missing pattern and the number of iterations are arbitrary and the result is the end of a fixed-point iteration; tests compare a few soundings with stored numbers", "anchors": ["src/skyborn/calc/GPI/core.py:potential_intensity", "src/skyborn/calc/GPI/fortran/tropical_cyclone_potential_intensity.f90"]}
{"id": "C195", "title": "Grid points are independent", "statement": "Without missing values a gridded call gives at each point the values of the profile call for the profile above it.", "quantifier": "every grid of three or four dimensions and every order of the points", "why_tests_cant": "the profile, its missing pattern and the number of iterations are arbitrary and the result is the end of a fixed-point iteration; tests compare a few soundings with stored numbers", "anchors": ["src/skyborn/calc/GPI/core.py:potential_intensity", "src/skyborn/calc/GPI/fortran/tropical_cyclone_potential_intensity.f90"]}
{"id": "C196", "title": "The flag of a gridded call", "statement": "The flag of a gridded call is 1 exactly if every point over warm water succeeds, whatever the order in which the threads come to the points. (Proved for four dimensions; falsified for three, where it is the flag of the last point; the value of a failing flag depends on the schedule.)", "quantifier": "every grid and schedule", "why_tests_cant": "the schedules are arbitrary", "anchors": ["src/skyborn/calc/GPI/core.py:potential_intensity", "src/skyborn/calc/GPI/fortran/tropical_cyclone_potential_intensity.f90"]}
{"id": "C197", "title": "Missing values", "statement": "Missing data gives NaN at the point concerned, and missing levels below the first complete level are left out. (Second part proved, and the first for profiles without any complete level; falsified for a missing pressure, an interior level, and the profile call.)", "quantifier": "every missing pattern", "why_tests_cant": "the profile, its missing pattern and the number of iterations are arbitrary and the result is the end of a fixed-point iteration; tests compare a few soundings with stored numbers", "anchors": ["src/skyborn/calc/GPI/core.py:potential_intensity", "src/skyborn/calc/GPI/fortran/tropical_cyclone_potential_intensity.f90"]}
{"id": "C198", "title": "Level order", "statement": "Giving pressure, temperature and mixing ratio from the top or from the bottom does not change potential_intensity nor pi_log_decomposition.", "quantifier": "every input whose first and last pressure differ", "why_tests_cant": "the profile, its missing pattern and the number of iterations are arbitrary and the result is the end of a fixed-point iteration; tests compare a few soundings with stored numbers", "anchors": ["src/skyborn/calc/GPI/core.py:potential_intensity", "src/skyborn/calc/GPI/fortran/tropical_cyclone_potential_intensity.f90"]}
{"id": "C199", "title": "Levels that are not used", "statement": "What lies at and above the level nearest to 50 hPa does not matter; actual_levels is the same as cutting the profile, must be between 1 and the number of levels, and is ignored on grids.", "quantifier": "every profile", "why_tests_cant": "the profile, its missing pattern and the number of iterations are arbitrary and the result is the end of a fixed-point iteration; tests compare a few soundings with stored numbers", "anchors": ["src/skyborn/calc/GPI/core.py:potential_intensity", "src/skyborn/calc/GPI/fortran/tropical_cyclone_potential_intensity.f90"]}
{"id": "C200", "title": "Logarithmic decomposition", "statement": "ln V^2 = ln efficiency + ln disequilibrium + ln(Ck/Cd) with the outflow temperature reported; the diagnostics leave pressure, wind and flag as they are; log_decompose_pi of the outputs gives the same terms, in K or degrees C. (Falsified: that outflow_source only concerns the diagnostics, and that V^2 is proportional to the ratio given.)", "quantifier": "every input", "why_tests_cant": "the profile, its missing pattern and the number of iterations are arbitrary and the result is the end of a fixed-point iteration; tests compare a few soundings with stored numbers", "anchors": ["src/skyborn/calc/GPI/core.py:pi_log_decomposition", "src/skyborn/calc/GPI/fortran/tropical_cyclone_potential_intensity.f90", "src/skyborn/calc/GPI/core.py:log_decompose_pi"]}
{"id": "C201", "title": "Partial Mann-Kendall on grids", "statement": "partial_mann_kendall_multidim gives at every grid point the dictionary partial_mann_kendall_test gives for that point's series, whatever the rank, the time axis, the chunk size and whether the covariate is one series or one per point; ill-shaped covariates, axes out of range, a zero chunk size and series of different length are refused. (Falsified: the counts n and n_dropped at points with fewer than three joint samples, and a negative chunk size, which blanks the grid.)", "quantifier": "every grid, axis, chunk size and missing pattern", "why_tests_cant": "rank, axis, chunk size, missing pattern and values are arbitrary; tests compare a few small grids", "anchors": ["src/skyborn/calc/mann_kendall/partial.py:partial_mann_kendall_multidim", "src/skyborn/calc/mann_kendall/partial.py:partial_mann_kendall_test", "src/skyborn/calc/mann_kendall/partial.py:_broadcast_numpy_covariate"]}
{"id": "C202", "title": "What the partial test computes", "statement": "The partial test only uses the times at which both series are finite: s, var_s, tau are the Dietz-Killeen conditional statistics of these samples; trend, intercept and std_error are the line of the response alone at its own finite times (Theil-Sen or least squares).", "quantifier": "every pair of series and missing pattern", "why_tests_cant": "rank, axis, chunk size, missing pattern and values are arbitrary; tests compare a few small grids", "anchors": ["src/skyborn/calc/mann_kendall/partial.py:partial_mann_kendall_test", "src/skyborn/calc/mann_kendall/fortran/mann_kendall_core.f90:compute_partial_stats"]}
{"id": "C203", "title": "Symmetries of the partial test", "statement": "Strictly increasing transformations of response and covariate change no statistic; negating the response negates s, z and tau only; negating the covariate changes nothing.", "quantifier": "every pair of series", "why_tests_cant": "the transformation is arbitrary", "anchors": ["src/skyborn/calc/mann_kendall/partial.py:partial_mann_kendall_test"]}
{"id": "C204", "title": "Range and verdict of the partial test", "statement": "z is never infinite: it is s over the root of a positive var_s, or NaN exactly when var_s = 0, and then s = 0 too; p is NaN or in [0,1]; h is True exactly when p < alpha.", "quantifier": "every pair of series and level", "why_tests_cant": "rank, axis, chunk size, missing pattern and values are arbitrary; tests compare a few small grids", "anchors": ["src/skyborn/calc/mann_kendall/partial.py:partial_mann_kendall_test"]}
{"id": "C205", "title": "Extreme covariates", "statement": "A constant covariate gives the ordinary Mann-Kendall statistics without tie correction; a covariate that orders the samples like the response explains the trend completely: var_s = 0 and no verdict.", "quantifier": "every series", "why_tests_cant": "rank, axis, chunk size, missing pattern and values are arbitrary; tests compare a few small grids", "anchors": ["src/skyborn/calc/mann_kendall/partial.py:partial_mann_kendall_test"]}
{"id": "C206", "title": "Labelled partial test", "statement": "The xarray entry point computes at every named point the 1-D test of the two series along dim (counts n, n_dropped as in C201), whatever the order of the dimensions of either input and whichever of the data's dimensions the covariate lacks; an unknown dim, extra covariate dimensions and disagreeing sizes are refused.", "quantifier": "every set and order of dimensions", "why_tests_cant": "rank, axis, chunk size, missing pattern and values are arbitrary; tests compare a few small grids", "anchors": ["src/skyborn/calc/mann_kendall/partial.py:partial_mann_kendall_xarray"]}
{"id": "C207", "title": "Packed analysis", "statement": "ReducedGaussianSpharmt.grdtospec of a packed field returns, at the place of every coefficient of the truncation asked for (default nlat-1), the Fourier analysis of the rows that carry the wave followed by Gaussian quadrature, slice by slice and in the shape of the input.", "quantifier": "every list of rows of at least four points, every field with any further dimensions, every history, schedule and content of uninitialised memory", "why_tests_cant": "rows, truncation, field, number of slices, thread schedule and earlier calls (which leave saved workspaces and caches behind) are arbitrary; tests use a few grids", "anchors": ["src/skyborn/spharm/reduced_gaussian.py:grdtospec", "src/skyborn/spharm/src/reduced_gaussian_scalar.f90:reduced_gaussian_grdtospec"]}
{"id": "C208", "title": "Packed synthesis", "statement": "spectogrd returns the value of the spherical-harmonic series of the coefficients at every point of the packed grid. (Proved on rows with more than 2T points, and on every row for the series truncated to the waves the row carries; falsified on rows of 2m points, where the wave of order m comes back halved, and shorter ones.)", "quantifier": "every list of rows and spectrum", "why_tests_cant": "rows, truncation, field, number of slices, thread schedule and earlier calls (which leave saved workspaces and caches behind) are arbitrary; tests use a few grids", "anchors": ["src/skyborn/spharm/reduced_gaussian.py:spectogrd", "src/skyborn/spharm/src/reduced_gaussian_scalar.f90:reduced_gaussian_spectogrd"]}
{"id": "C209", "title": "Pairs", "statement": "The paired calls (_spectogrd_pair, getgrad_pair) end like the two separate calls: with the same values or the same error.", "quantifier": "every pair of spectra of the same shape and everything done between the calls", "why_tests_cant": "rows, truncation, field, number of slices, thread schedule and earlier calls (which leave saved workspaces and caches behind) are arbitrary; tests use a few grids", "anchors": ["src/skyborn/spharm/reduced_gaussian.py:getgrad_pair", "src/skyborn/spharm/reduced_gaussian.py:_spectogrd_pair", "src/skyborn/spharm/src/reduced_gaussian_scalar.f90:reduced_gaussian_getgrad_pair"]}
{"id": "C210", "title": "Packed gradient", "statement": "getgrad returns on every row the derivative in longitude over the radius of the latitude circle, and minus the derivative in colatitude over the radius, of the field that spectogrd synthesises on it.", "quantifier": "every list of rows and spectrum", "why_tests_cant": "rows, truncation, field, number of slices, thread schedule and earlier calls (which leave saved workspaces and caches behind) are arbitrary; tests use a few grids", "anchors": ["src/skyborn/spharm/reduced_gaussian.py:getgrad", "src/skyborn/spharm/src/reduced_gaussian_scalar.f90:reduced_gaussian_getgrad"]}
{"id": "C211", "title": "Packed vorticity and divergence", "statement": "getvrtdivspec returns the vorticity and divergence spectra of the wind by Fourier analysis of the rows that carry the wave and Gaussian quadrature; getvrtspec and getdivspec return the same spectra. (Proved on grids that are not symmetric about the equator or whose rows do not get shorter towards it; falsified on other symmetric grids: there the result contains values of uninitialised memory.)", "quantifier": "every list of rows, wind and history", "why_tests_cant": "rows, truncation, field, number of slices, thread schedule and earlier calls (which leave saved workspaces and caches behind) are arbitrary; tests use a few grids", "anchors": ["src/skyborn/spharm/reduced_gaussian.py:getvrtdivspec", "src/skyborn/spharm/src/reduced_gaussian_scalar.f90:reduced_gaussian_getvrtdivspec", "src/skyborn/spharm/src/reduced_gaussian_scalar.f90:reduced_gaussian_getvecspec_component"]}
{"id": "C212", "title": "Packed wind", "statement": "getuv returns the wind of the streamfunction and velocity potential that are the inverse Laplacians of the vorticity and divergence given.", "quantifier": "every list of rows and pair of spectra", "why_tests_cant": "rows, truncation, field, number of slices, thread schedule and earlier calls (which leave saved workspaces and caches behind) are arbitrary; tests use a few grids", "anchors": ["src/skyborn/spharm/reduced_gaussian.py:getuv"]}
{"id": "C213", "title": "Packed round trip", "statement": "On Gaussian rows, analysing what was synthesised gives back the spectrum; for winds, without the mean. (Proved for the orders every row carries; falsified for orders that some row does not carry.)", "quantifier": "every list of rows, spectrum and everything done between the two calls", "why_tests_cant": "rows, truncation, field, number of slices, thread schedule and earlier calls (which leave saved workspaces and caches behind) are arbitrary; tests use a few grids", "anchors": ["src/skyborn/spharm/reduced_gaussian.py:grdtospec", "src/skyborn/spharm/reduced_gaussian.py:spectogrd", "src/skyborn/spharm/reduced_gaussian.py:getuv", "src/skyborn/spharm/reduced_gaussian.py:getvrtdivspec"]}
{"id": "C214", "title": "History does not matter", "statement": "The outcome of a call depends only on the rows, the radius and the arguments: not on what the program did before with this or other objects, the thread schedule, uninitialised memory, legfunc or precision. (Analyses of winds: on the grids of C211.)", "quantifier": "every two histories, schedules and objects with the same rows and radius", "why_tests_cant": "the histories and schedules are arbitrary", "anchors": ["src/skyborn/spharm/reduced_gaussian.py", "src/skyborn/spharm/src/reduced_gaussian_scalar.f90:reduced_gaussian_prepare_fft_cache"]}
{"id": "C215", "title": "Packed refusals", "statement": "A call is refused exactly when its arguments do not fit the grid, with a ValidationError, or when there is no slice to transform, with the error of the compiled routine.", "quantifier": "every call and history", "why_tests_cant": "rows, truncation, field, number of slices, thread schedule and earlier calls (which leave saved workspaces and caches behind) are arbitrary; tests use a few grids", "anchors": ["src/skyborn/spharm/reduced_gaussian.py:_validate_grid_data", "src/skyborn/spharm/reduced_gaussian.py:_validate_spectral_data"]}
{"id": "C216", "title": "Output precision", "statement": "precision single gives single-precision results, double gives double-precision results, auto follows the highest precision of the inputs. (Falsified for auto in grdtospec, spectogrd, getuv and specsmooth, which return single precision for double-precision inputs.)", "quantifier": "every method and combination of element types", "why_tests_cant": "the combinations of method, mode and types are covered by no test", "anchors": ["src/skyborn/spharm/reduced_gaussian.py:_public_real_dtype"]}
{"id": "C217", "title": "Packed smoothing", "statement": "specsmooth analyses the field, multiplies the coefficients of degree n by smooth[n] and synthesises.", "quantifier": "every list of rows, field and factors", "why_tests_cant": "rows, truncation, field, number of slices, thread schedule and earlier calls (which leave saved workspaces and caches behind) are arbitrary; tests use a few grids", "anchors": ["src/skyborn/spharm/reduced_gaussian.py:specsmooth"]}
{"id": "C218", "title": "Construction", "statement": "An object is made exactly when pl is one-dimensional with at least three rows of at least four points, legfunc and precision are among the accepted words and the radius is positive; it has the rows, radius and modes asked for and the Gaussian weights; any other call raises a ValidationError.", "quantifier": "every pl, radius, words and history", "why_tests_cant": "rows, truncation, field, number of slices, thread schedule and earlier calls (which leave saved workspaces and caches behind) are arbitrary; tests use a few grids", "anchors": ["src/skyborn/spharm/reduced_gaussian.py:ReducedGaussianSpharmt"]}
{"id": "C219", "title": "ReducedVectorWind fields", "statement": "ReducedVectorWind.vorticity, divergence, streamfunction and velocitypotential return the packed field whose spherical-harmonic coefficients up to the truncation are those of the vorticity or divergence of the wind given, or their inverse Laplacians; vrtdiv and sfvp return the same fields in pairs; whatever was called before. (Proved on the grids of C211; falsified on other symmetric grids, where the vorticity of a calm can be non-zero.)", "quantifier": "every list of rows of at least four points, wind with any further dimensions, truncation, and history of calls on any objects, schedule and content of uninitialised memory", "why_tests_cant": "rows, truncation, wind, number of slices, thread schedule and earlier calls on this and other objects (which fill dictionaries that later calls read) are arbitrary; tests use a few grids", "anchors": ["src/skyborn/windspharm/reduced.py:vorticity", "src/skyborn/windspharm/reduced.py:vrtdiv", "src/skyborn/windspharm/reduced.py:sfvp", "src/skyborn/windspharm/reduced.py:streamfunction"]}
{"id": "C220", "title": "ReducedVectorWind components", "statement": "irrotationalcomponent returns at every point the gradient of the velocity potential, nondivergentcomponent the gradient of the streamfunction turned a quarter to the left, helmholtz the four components. (Grids of C211.)", "quantifier": "every list of rows of at least four points, wind with any further dimensions, truncation, and history of calls on any objects, schedule and content of uninitialised memory", "why_tests_cant": "rows, truncation, wind, number of slices, thread schedule and earlier calls on this and other objects (which fill dictionaries that later calls read) are arbitrary; tests use a few grids", "anchors": ["src/skyborn/windspharm/reduced.py:helmholtz", "src/skyborn/windspharm/reduced.py:irrotationalcomponent", "src/skyborn/windspharm/reduced.py:nondivergentcomponent"]}
{"id": "C221", "title": "Reduced planetary and absolute vorticity", "statement": "planetaryvorticity is 2 omega sin(latitude) at every point of every slice, omega being 7.292e-5 unless given; absolutevorticity is the vorticity of C219 plus this; magnitude is the wind speed. (absolutevorticity: grids of C211.)", "quantifier": "every list of rows of at least four points, wind with any further dimensions, truncation, and history of calls on any objects, schedule and content of uninitialised memory, rotation rate", "why_tests_cant": "rows, truncation, wind, number of slices, thread schedule and earlier calls on this and other objects (which fill dictionaries that later calls read) are arbitrary; tests use a few grids", "anchors": ["src/skyborn/windspharm/reduced.py:planetaryvorticity", "src/skyborn/windspharm/reduced.py:absolutevorticity", "src/skyborn/windspharm/reduced.py:magnitude"]}
{"id": "C222", "title": "Reduced Rossby wave source", "statement": "rossbywavesource is minus the absolute vorticity times the divergence minus the advection of absolute vorticity by the irrotational wind, with the exact planetary vorticity and its exact gradient. (Gaussian rows, truncation at least 1, grids of C211.)", "quantifier": "every list of rows of at least four points, wind with any further dimensions, truncation, and history of calls on any objects, schedule and content of uninitialised memory, rotation rate", "why_tests_cant": "rows, truncation, wind, number of slices, thread schedule and earlier calls on this and other objects (which fill dictionaries that later calls read) are arbitrary; tests use a few grids", "anchors": ["src/skyborn/windspharm/reduced.py:rossbywavesource"]}
{"id": "C223", "title": "Reduced wind decomposition is lossless", "statement": "For a wind that comes from a streamfunction and a velocity potential of the truncation, streamfunction and velocitypotential give them back without their means, vorticity and divergence are their Laplacians and the parts of helmholtz add up to the wind. (Gaussian rows that all carry the truncation.)", "quantifier": "every list of rows of at least four points, wind with any further dimensions, truncation, and history of calls on any objects, schedule and content of uninitialised memory", "why_tests_cant": "rows, truncation, wind, number of slices, thread schedule and earlier calls on this and other objects (which fill dictionaries that later calls read) are arbitrary; tests use a few grids", "anchors": ["src/skyborn/windspharm/reduced.py:helmholtz", "src/skyborn/windspharm/reduced.py:sfvp"]}
{"id": "C224", "title": "Reduced gradient and truncate", "statement": "truncate of a field is the field of its coefficients up to the truncation, gradient is the gradient of that field; truncate leaves a field of the truncation unchanged and doing it twice is doing it once. (The last two: Gaussian rows that all carry the truncation.)", "quantifier": "every list of rows of at least four points, wind with any further dimensions, truncation, and history of calls on any objects, schedule and content of uninitialised memory, field", "why_tests_cant": "rows, truncation, wind, number of slices, thread schedule and earlier calls on this and other objects (which fill dictionaries that later calls read) are arbitrary; tests use a few grids", "anchors": ["src/skyborn/windspharm/reduced.py:gradient", "src/skyborn/windspharm/reduced.py:truncate"]}
{"id": "C225", "title": "ReducedVectorWind refusals", "statement": "A method refuses exactly a truncation outside 0..nlat-1, a field of another shape or with missing values (ValueError) and a wind without any slice (an error of the compiled routine).", "quantifier": "every call and history", "why_tests_cant": "rows, truncation, wind, number of slices, thread schedule and earlier calls on this and other objects (which fill dictionaries that later calls read) are arbitrary; tests use a few grids", "anchors": ["src/skyborn/windspharm/reduced.py:_validate_scalar_field", "src/skyborn/windspharm/reduced.py:_ntrunc"]}
{"id": "C226", "title": "ReducedVectorWind construction", "statement": "An object is made exactly when pl, radius and modes are those ReducedGaussianSpharmt takes, u and v have the same shape whose first dimension is sum(pl), and neither has missing values; it then holds the wind given; any other call raises a ValueError.", "quantifier": "every u, v, pl, radius, words and history", "why_tests_cant": "rows, truncation, wind, number of slices, thread schedule and earlier calls on this and other objects (which fill dictionaries that later calls read) are arbitrary; tests use a few grids", "anchors": ["src/skyborn/windspharm/reduced.py:ReducedVectorWind"]}
{"id": "C227", "title": "ReducedVectorWind precision", "statement": "precision single and double give single and double precision results from every method; auto gives the widest floating type of u and v (of the field, for gradient and truncate), integers counting as double precision.", "quantifier": "every method and combination of element types", "why_tests_cant": "the combinations of method, mode and types are covered by no test", "anchors": ["src/skyborn/windspharm/reduced.py:_infer_output_dtype", "src/skyborn/windspharm/reduced.py:_resolved_output_dtype"]}
{"id": "C228", "title": "Labelled gridfill", "statement": "gridfill.xarray.fill with x_dim and y_dim given fills every horizontal slice with what the array solver gives for that slice alone, whatever the order and number of dimensions; keeps dimensions, coordinates, name, every known value and the attributes (apart from history); leaves no gap; warns exactly when a slice did not converge; returns an array without gaps unchanged; fill_multiple does this to each array.", "quantifier": "every labelled array (any number, order and size of dimensions, any pattern of gaps, any coordinates and metadata) and every option", "why_tests_cant": "dimension orders, gap patterns and metadata are arbitrary; tests use a few", "anchors": ["src/skyborn/gridfill/xarray.py:fill", "src/skyborn/gridfill/xarray.py:fill_multiple"]}
{"id": "C229", "title": "Detection of the horizontal dimensions", "statement": "Without x_dim and y_dim, fill uses as latitude and longitude the coordinate chosen by standard_name, else axis, else dimension name, else units, and raises ValueError when there is none; names that are given are used. (Falsified for a single given name, which is ignored.)", "quantifier": "every labelled array (any number, order and size of dimensions, any pattern of gaps, any coordinates and metadata) and every option", "why_tests_cant": "dimension orders, gap patterns and metadata are arbitrary; tests use a few", "anchors": ["src/skyborn/gridfill/xarray.py:_find_spatial_coordinates", "src/skyborn/gridfill/xarray.py:fill"]}
{"id": "C230", "title": "Detection of global longitudes", "statement": "Without cyclic, fill treats the grid as cyclic exactly when its longitudes go around the whole circle or the coordinate is marked circular. (Falsified for equally spaced global longitudes 10 degrees or more apart.)", "quantifier": "every longitude coordinate", "why_tests_cant": "dimension orders, gap patterns and metadata are arbitrary; tests use a few", "anchors": ["src/skyborn/gridfill/xarray.py:_detect_cyclic_longitude"]}
{"id": "C231", "title": "Coverage report", "statement": "validate_grid_coverage returns the number of points, of missing points, the fraction known, valid = fraction at least min_coverage, and a message exactly for: too low a fraction, too low a fraction at some index of the first other dimension, irregular spacing of x, of y (relative tolerance 1e-3). An entirely empty horizontal slice can go unnoticed in arrays of four dimensions.", "quantifier": "every labelled array (any number, order and size of dimensions, any pattern of gaps, any coordinates and metadata) and every option, min_coverage", "why_tests_cant": "dimension orders, gap patterns and metadata are arbitrary; tests use a few", "anchors": ["src/skyborn/gridfill/xarray.py:validate_grid_coverage"]}
{"id": "C232", "title": "Labelled tropopause", "statement": "troposphere.xarray.trop_wmo with the dimensions named returns five variables with the dimensions of the temperature without the level dimension and the coordinates of those dimensions; at every point they are what trop_wmo_profile gives for the column there with the levels in order of increasing pressure, whatever the order of the dimensions and levels. A profile gives scalars.", "quantifier": "every labelled temperature (any order, names and sizes of one to four dimensions, any values), pressure and option, and content of uninitialised memory", "why_tests_cant": "dimension orders, names, level orders and columns are arbitrary; tests use a few", "anchors": ["src/skyborn/calc/troposphere/xarray.py:trop_wmo"]}
{"id": "C233", "title": "Tropopause: detection of dimensions", "statement": "Without dimension arguments the call is the one with the dimensions named, for dimensions called by any of the words the function lists, in any case and order. (Falsified for year and yr, which are taken for latitudes.)", "quantifier": "every labelled temperature (any order, names and sizes of one to four dimensions, any values), pressure and option, and content of uninitialised memory", "why_tests_cant": "dimension orders, names, level orders and columns are arbitrary; tests use a few", "anchors": ["src/skyborn/calc/troposphere/xarray.py:_detect_atmospheric_dimensions"]}
{"id": "C234", "title": "Labelled tropopause: level index", "statement": "level_index is the zero-based index of the tropopause level in the input array, as its description says. (Falsified for levels given from the ground up; proved when pressure does not decrease.)", "quantifier": "every labelled temperature (any order, names and sizes of one to four dimensions, any values), pressure and option, and content of uninitialised memory", "why_tests_cant": "dimension orders, names, level orders and columns are arbitrary; tests use a few", "anchors": ["src/skyborn/calc/troposphere/xarray.py:trop_wmo"]}
{"id": "C235", "title": "Labelled tropopause: order of levels, generated pressure", "statement": "Permuting the levels of temperature and pressure changes nothing; leaving out the pressure is giving the coordinate of the level dimension. (The latter falsified for level names the function does not know, although the dimension is given.)", "quantifier": "every labelled temperature (any order, names and sizes of one to four dimensions, any values), pressure and option, and content of uninitialised memory", "why_tests_cant": "dimension orders, names, level orders and columns are arbitrary; tests use a few", "anchors": ["src/skyborn/calc/troposphere/xarray.py:trop_wmo"]}
{"id": "C236", "title": "Labelled tropopause: lengths", "statement": "A pressure whose number of values is not the number of levels raises. (Falsified: too few values that are not in increasing order are accepted, and the last levels silently dropped.)", "quantifier": "every labelled temperature (any order, names and sizes of one to four dimensions, any values), pressure and option, and content of uninitialised memory", "why_tests_cant": "dimension orders, names, level orders and columns are arbitrary; tests use a few", "anchors": ["src/skyborn/calc/troposphere/xarray.py:trop_wmo"]}
{"id": "C237", "title": "VectorWind works slice by slice", "statement": "Every method of the array interface VectorWind, applied to winds with extra dimensions, answers exactly under stated conditions on truncation and sizes, and its answer at each position of the extra dimensions is what the same method answers for that slice alone.", "quantifier": "every wind array with any extra dimensions, every method and truncation", "why_tests_cant": "dimension orders, coordinates, call histories and values are arbitrary; tests use a few", "anchors": ["src/skyborn/windspharm/standard.py:VectorWind"]}
{"id": "C238", "title": "Labelled winds keep their labels", "statement": "The labelled VectorWind arranges the winds latitude (north to south), longitude, others; whatever was asked before, each method replies with what the array interface replies for the arranged wind, and each result has the dimensions, their order, sizes and coordinates of the wind given (latitudes north to south), each value at its own labels, with the documented name, units, standard_name and long_name. (Falsified for a latitude dimension without a coordinate: the result is upside down.)", "quantifier": "every pair of labelled winds (any number, order, names and sizes of dimensions, any coordinates and values), every constructor option and every sequence of method calls", "why_tests_cant": "dimension orders, coordinates, call histories and values are arbitrary; tests use a few", "anchors": ["src/skyborn/windspharm/xarray.py:VectorWind", "src/skyborn/windspharm/xarray.py:VectorWind._metadata", "src/skyborn/windspharm/_common.py:get_apiorder"]}
{"id": "C239", "title": "Layout of labelled winds does not matter", "statement": "Transposing the dimensions of the winds, or turning the latitudes over, changes no result: methods answer for one exactly when they do for the other, with the same value at the same labels.", "quantifier": "every pair of labelled winds (any number, order, names and sizes of dimensions, any coordinates and values), every constructor option and every sequence of method calls; every permutation of dimensions", "why_tests_cant": "dimension orders, coordinates, call histories and values are arbitrary; tests use a few", "anchors": ["src/skyborn/windspharm/xarray.py:VectorWind"]}
{"id": "C240", "title": "Labelled winds: physical meaning", "statement": "For winds that sample a band-limited wind at their labels, vrtdiv returns its vorticity and divergence at the labels of each result and helmholtz its irrotational and non-divergent parts. (Falsified when the longitude labels do not go eastwards from 0: they are never read.)", "quantifier": "every band-limited wind, order of dimensions and history of calls", "why_tests_cant": "dimension orders, coordinates, call histories and values are arbitrary; tests use a few", "anchors": ["src/skyborn/windspharm/xarray.py:VectorWind.vrtdiv", "src/skyborn/windspharm/xarray.py:VectorWind.helmholtz"]}
{"id": "C241", "title": "Labelled winds: what is accepted", "statement": "Construction succeeds exactly for winds with the same dimensions in the same order, the same coordinates and sizes, only numbers, one latitude-like and one other longitude-like dimension of at least 3 and 4 points, a grid type named or recognised, a positive radius and a known Legendre option; a single latitude raises IndexError, not ValueError.", "quantifier": "every pair of labelled winds (any number, order, names and sizes of dimensions, any coordinates and values), every constructor option and every sequence of method calls", "why_tests_cant": "dimension orders, coordinates, call histories and values are arbitrary; tests use a few", "anchors": ["src/skyborn/windspharm/xarray.py:VectorWind.__init__", "src/skyborn/windspharm/xarray.py:_find_latitude_coordinate", "src/skyborn/windspharm/xarray.py:_find_longitude_coordinate", "src/skyborn/windspharm/_common.py:inspect_gridtype"]}
{"id": "C242", "title": "Labelled winds: gradient and truncate of a field", "statement": "gradient and truncate of a labelled field reply with what the array interface replies for the arranged field, labelled like the field; a NaN is refused; for a sampled band-limited field the gradient is its gradient at the labels. (Falsified for a field on other latitudes than the wind: they are not compared.)", "quantifier": "every labelled field, truncation and history of calls", "why_tests_cant": "dimension orders, coordinates, call histories and values are arbitrary; tests use a few", "anchors": ["src/skyborn/windspharm/xarray.py:VectorWind.gradient", "src/skyborn/windspharm/xarray.py:VectorWind.truncate"]}
{"id": "C243", "title": "Labelled potential intensity: units", "statement": "potential_intensity and pi_log_decomposition on labelled arrays do for arguments in any known units (kelvin, Celsius, Fahrenheit; Pa, hPa, kPa, atm; kg/kg, g/kg, mg/kg, percent, ppmv, in every listed spelling, in any case, with blanks, ** for ^) what they do for the converted values; without an attribute units the units of the computation are assumed; units that mean nothing known for the argument raise ValueError.", "quantifier": "all labelled arrays: any order and sizes of dimensions, units, values, coordinates; every units attribute", "why_tests_cant": "dimension orders, unit spellings and values are arbitrary; tests use a few", "anchors": ["src/skyborn/calc/GPI/xarray.py:_check_units", "src/skyborn/calc/GPI/xarray.py:potential_intensity", "src/skyborn/calc/GPI/xarray.py:pi_log_decomposition"]}
{"id": "C244", "title": "Labelled potential intensity: every column by itself, under its labels", "statement": "The result has the dimensions of the temperature without the levels, with its coordinates, and at every point minimum pressure and wind are those of the profile call for the column above the point; pi_log_decomposition has the same pressures and winds; a labelled profile is the profile call. (Falsified when sst or psl have their dimensions in another order: they are not aligned by name; and when a time is not the first dimension of the surface: the values are computed with the time first but labelled in the original order.)", "quantifier": "all labelled arrays: any order and sizes of dimensions, units, values, coordinates; every schedule of the parallel loop", "why_tests_cant": "dimension orders, unit spellings and values are arbitrary; tests use a few", "anchors": ["src/skyborn/calc/GPI/xarray.py:potential_intensity", "src/skyborn/calc/GPI/xarray.py:pi_log_decomposition", "src/skyborn/calc/GPI/xarray.py:_prepare_gridded_inputs", "src/skyborn/calc/GPI/xarray.py:_create_output_dataset"]}
{"id": "C245", "title": "Labelled potential intensity: names of dimensions", "statement": "Dimensions may have any of the names listed for their kind, in any case; then a call whose columns can all be computed succeeds. (Falsified for the times year and yr, which are taken for the latitude, so that 4-D arrays are refused.)", "quantifier": "all labelled arrays: any order and sizes of dimensions, units, values, coordinates; every listed name", "why_tests_cant": "dimension orders, unit spellings and values are arbitrary; tests use a few", "anchors": ["src/skyborn/calc/GPI/xarray.py:_detect_atmospheric_dimensions", "src/skyborn/calc/GPI/xarray.py:potential_intensity"]}
{"id": "C246", "title": "Thinned plots keep the requested spacing", "statement": "scatter and the curly-vector plots draw no two markers closer than the requested fraction of the panel (component-wise fractions of width and height, at least 1e-6); the drawn markers are candidates, in their order, none twice.", "quantifier": "all candidate positions, panels, spacings, every correct qsort", "why_tests_cant": "the neighbour search depends on bucket positions, ties and order of arbitrary point clouds", "anchors": ["src/skyborn/plot/nclcurly_core/_ncl_curly_core.c:thin_scaled_points", "src/skyborn/plot/nclcurly_core/_ncl_curly_core.c:thin_display_candidates", "src/skyborn/plot/nclcurly_core/_ncl_curly_core.c:lower_bound_bucket"]}
{"id": "C247", "title": "Thinning drops nothing without reason", "statement": "A candidate is dropped only if an earlier candidate closer than the spacing is drawn; the first candidate is always drawn.", "quantifier": "all candidate positions, panels, spacings", "why_tests_cant": "needs the completeness of the 3x3 bucket search for every cloud", "anchors": ["src/skyborn/plot/nclcurly_core/_ncl_curly_core.c:thin_scaled_points"]}
{"id": "C248", "title": "Thinning depends on panel fractions only", "statement": "Thinning pixel positions gives the rows that thinning the positions mapped to panel fractions gives, wherever the panel lies and whatever the sort does with ties.", "quantifier": "all positions, panels, origins, sorts", "why_tests_cant": "equality of two code paths for all inputs", "anchors": ["src/skyborn/plot/nclcurly_core/_ncl_curly_core.c:thin_display_candidates", "src/skyborn/plot/nclcurly_core/_ncl_curly_core.c:thin_mapped_candidates", "src/skyborn/plot/_core/thinning.py:_map_ncl_display_points_to_viewport"]}
{"id": "C249", "title": "Cell edges around plotting coordinates", "statement": "For every strictly monotone axis each coordinate lies strictly inside its cell, neighbouring cells share the midpoint, evenly spaced axes get edges half a step away.", "quantifier": "all axes of any length", "why_tests_cant": "axes are arbitrary", "anchors": ["src/skyborn/plot/_shared/coords.py:_cell_edges_from_axis"]}
{"id": "C250", "title": "Cell corners of two-dimensional coordinates", "statement": "Interior corners are the mean of the four surrounding centres; on every affine grid all corners, the rim included, are exactly half a step off.", "quantifier": "all grids with at least two rows and columns", "why_tests_cant": "sizes and grids are arbitrary", "anchors": ["src/skyborn/plot/_shared/coords.py:_center_grid_to_corner_grid"]}
{"id": "C251", "title": "Stipple points stay in their cell", "statement": "With placement='cells' every generated point lies strictly inside the selected cell it is credited to, every selected cell gets between 1 and 144 points, and the native routine writes as many rows as it allocated.", "quantifier": "all transforms (also with non-finite results), panels, spacings, selections, rectilinear grids", "why_tests_cant": "transform and selection are arbitrary", "anchors": ["src/skyborn/plot/nclcurly_core/_ncl_curly_core.c:generate_cell_candidates", "src/skyborn/plot/_core/scatter_engine.py:_generate_cell_candidates"]}
{"id": "C252", "title": "Stipple density fits the cell", "statement": "Each selected cell gets the lattice that fits its own extent on the panel (columns = extent/spacing rounded up, between 1 and 12; rows likewise). (Falsified for two or more selected cells: corners of different cells are mixed up.)", "quantifier": "all transforms, panels, spacings, selections", "why_tests_cant": "needs every selection", "anchors": ["src/skyborn/plot/_core/scatter_engine.py:_generate_cell_candidates", "src/skyborn/plot/nclcurly_core/_ncl_curly_core.c:generate_cell_candidates"]}
{"id": "C253", "title": "Scatter markers carry their own style", "statement": "Only selected candidates with finite coordinates are drawn, each at most once, at its own coordinates; sizes and colours given per candidate (grid-shaped or flat) give each marker the entry of its own candidate.", "quantifier": "all masks (boolean or numeric with missing values), coordinates, transforms, panels, densities, distances, style arrays", "why_tests_cant": "alignment must survive three subset stages for all inputs", "anchors": ["src/skyborn/plot/_core/scatter_engine.py:_scatter_impl", "src/skyborn/plot/_core/scatter_engine.py:_subset_scatter_value", "src/skyborn/plot/_shared/coords.py:_normalize_selection_mask"]}
{"id": "C254", "title": "Stippled cells carry their own style", "statement": "With placement='cells' on monotone axes every marker lies strictly inside a selected cell and carries the size or colour of that cell.", "quantifier": "all masks, monotone axes (either direction), transforms, panels, densities, style arrays", "why_tests_cant": "as C253", "anchors": ["src/skyborn/plot/_core/scatter_engine.py:_scatter_impl", "src/skyborn/plot/_core/scatter_engine.py:_generate_cell_candidates", "src/skyborn/plot/_core/scatter_engine.py:_subset_scatter_value"]}
{"id": "C255", "title": "Axes or meshgrid", "statement": "One-dimensional axes that span a grid draw the same markers and styles as the two-dimensional coordinates made from them; paired points without density and distance are all drawn.", "quantifier": "all axes, masks, styles, panels", "why_tests_cant": "two code paths agree for all inputs", "anchors": ["src/skyborn/plot/_core/scatter_engine.py:_prepare_1d_grid_candidates", "src/skyborn/plot/_core/scatter_engine.py:_scatter_impl", "src/skyborn/plot/_core/scatter_engine.py:_resolve_spacing_fraction"]}
{"id": "C256", "title": "A single colour is passed on", "statement": "A colour given as one RGBA row for all markers reaches Matplotlib unchanged. (Falsified when the number of candidates, selected or generated points is four.)", "quantifier": "all numbers of points and selections", "why_tests_cant": "a coincidence of sizes decides", "anchors": ["src/skyborn/plot/_core/scatter_engine.py:_subset_scatter_value"]}
{"id": "C257", "title": "Density and spacing", "statement": "The spacing derived from the density is positive, at most 0.3 of the panel and never larger for a larger density; an explicit distance overrides the density.", "quantifier": "all densities and distances", "why_tests_cant": "all real inputs", "anchors": ["src/skyborn/plot/_core/thinning.py:_resolve_ncl_min_distance_fraction", "src/skyborn/plot/_core/scatter_engine.py:_resolve_spacing_fraction"]}
{"id": "C258", "title": "Contour arrows: number and order", "statement": "arrow_contour places between one and arrow_count arrows on every contour line of positive length, in order along the line, each tip strictly between the beginning and the end of the line.", "quantifier": "all lines, arrow counts and lengths", "why_tests_cant": "lines and counts are arbitrary", "anchors": ["src/skyborn/plot/contour_core/_contour_core.c:select_arrow_distances"]}
{"id": "C259", "title": "Contour arrows do not overlap", "statement": "Every arrow of a line starts, along the line, at or after the tip of the arrow before. (Falsified for lines shorter than 1.6 arrow lengths, reachable with arrow_length_fraction above 0.625; proved for fractions up to 0.6.)", "quantifier": "all lines, counts, sizes, resolutions", "why_tests_cant": "lines and counts are arbitrary", "anchors": ["src/skyborn/plot/contour_core/_contour_core.c:select_arrow_distances", "src/skyborn/plot/_core/contour_arrows.py:_add_contour_arrows"]}
{"id": "C260", "title": "Contour arrows: geometry", "statement": "Every arrow has its tip on the line and its tail on the line one arrow length earlier (or at its beginning), is not longer than the arrow length, and its head is an isosceles triangle with that tip and a base centred at the tail, perpendicular, arrow_size times the arrow long; a line without length has no arrows and no line has more than arrow_count.", "quantifier": "all lines, counts, lengths, sizes", "why_tests_cant": "geometry for every polyline", "anchors": ["src/skyborn/plot/contour_core/_contour_core.c:build_arrow_segments", "src/skyborn/plot/contour_core/_contour_core.c:point_at_distance"]}
{"id": "C261", "title": "Contour arrows: every row is computed", "statement": "Every row of the returned arrays was written by the routine. (Falsified for lines that pass through a point twice: the rows of arrows whose tip and tail coincide keep whatever the memory held; proved for lines that do not touch themselves.)", "quantifier": "all lines, counts, lengths, sizes", "why_tests_cant": "depends on the line and on uninitialised memory", "anchors": ["src/skyborn/plot/contour_core/_contour_core.c:build_arrow_segments"]}
{"id": "C262", "title": "Direction of closed contours", "statement": "A closed contour of a positive level is drawn in positive_direction as displayed, one of a negative level in the opposite direction, the recorded direction agreeing, with the vertices of the contour in order or reverse order; open contours and the zero contour keep their order.", "quantifier": "all lines, levels, display transforms (mirrored axes included)", "why_tests_cant": "lines and transforms are arbitrary", "anchors": ["src/skyborn/plot/_core/contour_arrows.py:_orient_closed_vertices", "src/skyborn/plot/_core/contour_arrows.py:_signed_area", "src/skyborn/plot/_core/contour_arrows.py:_add_contour_arrows"]}
{"id": "C263", "title": "arrow_max_length", "statement": "The sides of the arrowheads are at most arrow_max_length points long. (Falsified: that bound holds for the distance from tail to tip, and the sides are longer by sqrt(1+(arrow_size/2)^2); below 4 points it is exceeded altogether.)", "quantifier": "all lines, counts, sizes, fractions, resolutions", "why_tests_cant": "geometry for every polyline", "anchors": ["src/skyborn/plot/_core/contour_arrows.py:_add_contour_arrows", "src/skyborn/plot/contour_core/_contour_core.c:build_arrow_segments"]}
{"id": "C264", "title": "Curly vectors: a stronger vector never gets a shorter glyph", "statement": "In one curly-vector plot the length of a glyph does not decrease with the magnitude of its vector. (Falsified when ref_magnitude is not above the weakest vector, min_frac_length is positive and ref_length is not given; proved otherwise.)", "quantifier": "all magnitudes, panel sizes, densities and scale options", "why_tests_cant": "magnitudes and options are continuous", "anchors": ["src/skyborn/plot/_core/vector_engine.py:_resolve_ncl_length_scale", "src/skyborn/plot/_core/vector_engine.py:_curve_length_from_magnitude"]}
{"id": "C265", "title": "Curly vectors: the reference magnitude has the reference length", "statement": "A vector of magnitude ref_magnitude gets a glyph ref_length panel widths long, and without min_frac_length all lengths are proportional to the magnitudes. (Falsified for reference magnitudes below 1e-12; proved above.)", "quantifier": "all magnitudes, panel sizes, densities and scale options", "why_tests_cant": "magnitudes and options are continuous", "anchors": ["src/skyborn/plot/_core/vector_engine.py:_resolve_ncl_length_scale", "src/skyborn/plot/_core/vector_engine.py:_curve_length_from_magnitude"]}
{"id": "C266", "title": "Curly vectors: min_frac_length", "statement": "No glyph is shorter than min_frac_length times the reference length, and without ref_magnitude the strongest vector has the reference length.", "quantifier": "all magnitudes, panel sizes, densities and fractions", "why_tests_cant": "magnitudes and options are continuous", "anchors": ["src/skyborn/plot/_core/vector_engine.py:_resolve_ncl_length_scale", "src/skyborn/plot/_core/vector_engine.py:_curve_length_from_magnitude"]}
{"id": "C267", "title": "Curly vectors: the reference key shows the scale of the plot", "statement": "The arrow of the reference key for a magnitude is as long as a glyph of that magnitude; keys of two magnitudes are in their ratio. (Falsified: a key beyond the strongest vector is clipped to the longest glyph; proved for magnitudes in the plot whose glyph is at least 0.012 of the width.)", "quantifier": "all magnitudes, panel sizes, densities and scale options", "why_tests_cant": "magnitudes and options are continuous", "anchors": ["src/skyborn/plot/_core/result.py:glyph_length_axes_fraction", "src/skyborn/plot/_artists/vector_key_artist.py"]}
{"id": "C268", "title": "Curly vectors: sampling a scalar is bilinear interpolation", "statement": "Sampling a gridded field at a point of the grid gives the bilinear interpolation of the four surrounding nodes: exact for bilinear fields, within the range of the four values, reading only elements of the array; outside the grid there is no value.", "quantifier": "all grid sizes, spacings, fields and points", "why_tests_cant": "positions, fields and lengths are continuous", "anchors": ["src/skyborn/plot/nclcurly_core/_ncl_curly_core.c:sample_scalar_field"]}
{"id": "C269", "title": "Curly vectors: a node with a value returns it", "statement": "Sampling exactly at a node that has a value returns the value of the node, whatever its neighbours hold. (Falsified: next to a missing node the weight 0 times NaN is NaN; proved when the other corners of the cell have values.)", "quantifier": "all grids, fields and nodes", "why_tests_cant": "positions, fields and lengths are continuous", "anchors": ["src/skyborn/plot/nclcurly_core/_ncl_curly_core.c:sample_scalar_field"]}
{"id": "C270", "title": "Curly vectors: the state of the tracer", "statement": "At a point of the grid with valid corners the tracer sees the bilinear display position, its Jacobian, the direction of the flow in the display as a unit vector and the bilinear speed; next to missing or masked corners there is no state; affine maps are reproduced exactly; only elements of the arrays are read.", "quantifier": "all grids, fields, display maps and points", "why_tests_cant": "positions, fields and lengths are continuous", "anchors": ["src/skyborn/plot/nclcurly_core/_ncl_curly_core.c:sample_state"]}
{"id": "C271", "title": "Curly vectors: a traced curve", "statement": "A display step mapped to data is the inverse image under the Jacobian. A traced curve has between 2 and max_steps+1 (at most 4097) points, begins at the start and every point lies on the grid.", "quantifier": "all fields, parameters and start points", "why_tests_cant": "positions, fields and lengths are continuous; the loop runs over thousands of steps", "anchors": ["src/skyborn/plot/nclcurly_core/_ncl_curly_core.c:trace_ncl_direction"]}
{"id": "C272", "title": "Curly vectors: the displayed curve", "statement": "Clipping a step to the panel leaves it on the segment and inside the panel. For an affine display map the vertices drawn are the images of the data vertices, consecutive vertices are more than 0.2 px apart and every vertex is in the panel (to 1e-12).", "quantifier": "all fields, affine maps, panels and start points", "why_tests_cant": "positions, fields and lengths are continuous", "anchors": ["src/skyborn/plot/nclcurly_core/_ncl_curly_core.c:clip_display_step_to_viewport", "src/skyborn/plot/nclcurly_core/_ncl_curly_core.c:trace_ncl_direction"]}
{"id": "C273", "title": "Curly vectors: a traced curve is not longer than asked", "statement": "The polyline traced for a length of L px is at most L px long. (Falsified: a uniform flow with steps of 3 px traces 3.9 px for 3.1 px; proved with half a step of slack.)", "quantifier": "all fields, affine maps, lengths and start points", "why_tests_cant": "positions, fields and lengths are continuous", "anchors": ["src/skyborn/plot/nclcurly_core/_ncl_curly_core.c:trace_ncl_direction"]}
{"id": "C274", "title": "Curly vectors: a uniform wind is traced downwind", "statement": "In a uniform wind every vertex of a trace is further downwind than the one before. (Falsified: the second-order correction can put the last vertex back upwind; proved: all vertices are on the line through the start along the wind and the first step is downwind.)", "quantifier": "all winds, affine maps, lengths and start points", "why_tests_cant": "positions, fields and lengths are continuous", "anchors": ["src/skyborn/plot/nclcurly_core/_ncl_curly_core.c:trace_ncl_direction"]}
{"id": "C275", "title": "Curly vectors: no kinks", "statement": "In a drawn curly vector no two consecutive segments turn by more than 52 degrees.", "quantifier": "all fields, parameters and start points", "why_tests_cant": "positions, fields and lengths are continuous", "anchors": ["src/skyborn/plot/nclcurly_core/_ncl_curly_core.c:validate_display_curve", "src/skyborn/plot/_core/vector_engine.py:_build_ncl_curve"]}
{"id": "C276", "title": "Curly vectors: a uniform wind draws every glyph", "statement": "In a uniform wind every start with room for its glyph gets a glyph. (Falsified: a glyph of 3.1 px with steps of 3 px is rejected at every retry; proved: a drawn glyph is straight and monotone downwind.)", "quantifier": "all winds, affine maps, lengths and start points", "why_tests_cant": "positions, fields and lengths are continuous", "anchors": ["src/skyborn/plot/nclcurly_core/_ncl_curly_core.c:validate_display_curve", "src/skyborn/plot/_core/vector_engine.py:_build_ncl_curve"]}
{"id": "C277", "title": "Curly vectors: anchors and lengths", "statement": "The drawn curve ends, begins or passes through the start point as the anchor says, and is no longer than the requested length plus one tracing step (half a step for tail and head anchors).", "quantifier": "all fields, affine maps, lengths, anchors and start points", "why_tests_cant": "positions, fields and lengths are continuous", "anchors": ["src/skyborn/plot/_core/vector_engine.py:_build_ncl_curve", "src/skyborn/plot/vector.py"]}
{"id": "C278", "title": "Curly vectors: shape of the arrow head", "statement": "The head of a glyph has its tip at the end of the curve, its base centred head_length behind the tip on an axis through the point 1.35 (open) or 1.25 (filled) head lengths back along the curve, perpendicular to that axis and head_width wide; the head of a straight glyph points along it.", "quantifier": "all curves and sizes", "why_tests_cant": "curves and sizes are continuous", "anchors": ["src/skyborn/plot/nclcurly_core/_ncl_curly_core.c:resolve_curve_tip_direction", "src/skyborn/plot/nclcurly_core/_ncl_curly_core.c:build_open_arrow_vertices_for_curve", "src/skyborn/plot/nclcurly_core/_ncl_curly_core.c:build_filled_arrow_vertices_for_curve"]}
{"id": "C279", "title": "Curly vectors: every drawn glyph has a head", "statement": "Every curve that passes the acceptance test gets an arrow head, whatever its magnitude and the scale of the plot (affine display maps).", "quantifier": "all fields, parameters, start points and magnitudes", "why_tests_cant": "curves and sizes are continuous", "anchors": ["src/skyborn/plot/nclcurly_core/_ncl_curly_core.c:resolve_curve_tip_direction", "src/skyborn/plot/nclcurly_core/_ncl_curly_core.c:validate_display_curve", "src/skyborn/plot/_core/vector_engine.py:_curly_vector_ncl_impl"]}
{"id": "C280", "title": "Curly vectors: size of the heads", "statement": "Each barb is as long as the edge size and half a radian from the axis; the edge grows with the magnitude between the two bounds of the panel, which the strongest vector reaches.", "quantifier": "all magnitudes, panels and arrow sizes", "why_tests_cant": "curves and sizes are continuous", "anchors": ["src/skyborn/plot/_shared/style.py:_ncl_arrow_edge_size_px", "src/skyborn/plot/_shared/style.py:_resolve_open_arrow_size"]}
{"id": "C281", "title": "Curly vectors: heads in batches", "statement": "Building the heads of many curves at once gives the head of each, in order, marked with its own curve; curves without finite points give none; only the packed points are read.", "quantifier": "all numbers, lengths and contents of curves", "why_tests_cant": "the batch is unbounded", "anchors": ["src/skyborn/plot/_artists/vector_artists.py:_pack_display_curves", "src/skyborn/plot/_artists/vector_artists.py:_build_open_arrow_segments_batch", "src/skyborn/plot/_artists/vector_artists.py:_build_filled_arrow_polygons_batch", "src/skyborn/plot/nclcurly_core/_ncl_curly_core.c:build_open_arrow_segments"]}
{"id": "C282", "title": "Curly vectors: every line has the style of its glyph", "statement": "The lines handed to Matplotlib are, glyph by glyph, the shaft and its own barbs in order, and each has the colour and width of its glyph.", "quantifier": "all numbers of glyphs and all orders of barbs", "why_tests_cant": "the lists are unbounded", "anchors": ["src/skyborn/plot/_artists/vector_artists.py:_assemble_open_head_streamlines"]}
{"id": "C283", "title": "Curly vectors: cells at holes and seams of the map", "statement": "Cells with a corner off the map, and cells with a side more than 12 times longer than what more than a quarter of the sides measure, are never used for glyphs; cells with all sides within 12 times the shortest side of the grid are.", "quantifier": "all grids and display positions", "why_tests_cant": "positions of the nodes on the panel are continuous and the grid is unbounded", "anchors": ["src/skyborn/plot/nclcurly_core/_ncl_curly_core.c:compute_display_cell_valid", "src/skyborn/plot/_core/thinning.py:_NCLDisplaySampler"]}
{"id": "C284", "title": "Curly vectors: straight axes", "statement": "On a panel with straight (linear) axes every grid cell is usable. False: cells are usable only if their longer side is at most 12 times the shorter one; otherwise no cell is.", "quantifier": "all grid sizes, positions and spacings", "why_tests_cant": "positions of the nodes on the panel are continuous and the grid is unbounded", "anchors": ["src/skyborn/plot/nclcurly_core/_ncl_curly_core.c:compute_display_cell_valid"]}
{"id": "C285", "title": "Curly vectors: resizing the figure", "statement": "Enlarging, moving or turning the panel changes no usable cell.", "quantifier": "all grids, positions and similarity maps", "why_tests_cant": "positions of the nodes on the panel are continuous and the grid is unbounded", "anchors": ["src/skyborn/plot/nclcurly_core/_ncl_curly_core.c:compute_display_cell_valid"]}
{"id": "C286", "title": "Curly vectors: uniform axes", "statement": "A grid is accepted as uniform only if its columns are equally far apart, up to one part in a thousand of the spacing, and every equally spaced increasing axis is accepted and drawn at its coordinates. First half false: below about 1e-8 per column the absolute tolerance accepts any spacing.", "quantifier": "all coordinate vectors", "why_tests_cant": "grids, candidate sets and panels are unbounded and positions are continuous", "anchors": ["src/skyborn/plot/_core/vector_engine.py:Grid"]}
{"id": "C287", "title": "Curly vectors: default candidates", "statement": "Without start points the candidates are the centres of equal boxes that tile the data, row by row; 30 boxes per unit of density along each axis, rounded up, and never more than cells.", "quantifier": "all uniform grids and densities", "why_tests_cant": "grids, candidate sets and panels are unbounded and positions are continuous", "anchors": ["src/skyborn/plot/_core/vector_engine.py:_default_ncl_candidate_shape", "src/skyborn/plot/_core/vector_engine.py:_default_ncl_box_center_candidates"]}
{"id": "C288", "title": "Curly vectors: chosen points", "statement": "The points glyphs are drawn at are candidates, in order, inside the data, with a position on the panel and the interpolated wind speed; no two are closer than the spacing, and a usable candidate is only left out if a chosen one is closer than the spacing.", "quantifier": "all scenes, densities, spacings, presets and start points", "why_tests_cant": "grids, candidate sets and panels are unbounded and positions are continuous", "anchors": ["src/skyborn/plot/_core/vector_engine.py:_select_ncl_centers", "src/skyborn/plot/_core/thinning.py:_resolve_ncl_min_distance_fraction"]}
{"id": "C289", "title": "Curly vectors: start points", "statement": "Start points are accepted if and only if all of them lie inside the data; otherwise ValueError.", "quantifier": "all scenes and start points", "why_tests_cant": "grids, candidate sets and panels are unbounded and positions are continuous", "anchors": ["src/skyborn/plot/_core/vector_engine.py:_select_ncl_centers"]}
{"id": "C290", "title": "Curly vectors: where glyphs lie", "statement": "In every plot that succeeds the glyphs belong to different candidate points, in their order; each starts at, ends at or goes through its point, as asked for by anchor or integration_direction, lies inside the data and carries the wind speed interpolated there; on the panel no two of their points are closer than the spacing.", "quantifier": "all axes, winds with missing values, display maps, panels and options", "why_tests_cant": "grids, winds, panels and option combinations are unbounded and positions are continuous", "anchors": ["src/skyborn/plot/_core/vector_engine.py:_curly_vector_ncl_impl", "src/skyborn/plot/_core/vector_engine.py:_resolve_curly_anchor"]}
{"id": "C291", "title": "Curly vectors: errors", "statement": "A plot raises ValueError exactly if an axis is not accepted or, unless all winds are missing, the line width or colour field has no finite value or a start point lies outside the data.", "quantifier": "all axes, winds, fields and start points", "why_tests_cant": "grids, winds, panels and option combinations are unbounded and positions are continuous", "anchors": ["src/skyborn/plot/_core/vector_engine.py:_curly_vector_ncl_impl"]}
{"id": "C292", "title": "Curly vectors: drawn length", "statement": "With an affine map to the panel no glyph is longer than the length belonging to its speed by more than one step (1.5 pixels or 0.45 % of the width), and heads are sized by the speed relative to the largest one.", "quantifier": "all plots with affine axes", "why_tests_cant": "grids, winds, panels and option combinations are unbounded and positions are continuous", "anchors": ["src/skyborn/plot/_core/vector_engine.py:_curly_vector_ncl_impl", "src/skyborn/plot/_core/vector_engine.py:_build_ncl_curve"]}
{"id": "C293", "title": "Curly vectors: line widths and colours", "statement": "Line widths and colour values of the glyphs lie within the range of the field they come from, every glyph of a plot with such a field has one, and it is the interpolated value wherever there is one.", "quantifier": "all plots with a field", "why_tests_cant": "grids, winds, panels and option combinations are unbounded and positions are continuous", "anchors": ["src/skyborn/plot/_core/vector_engine.py:_curly_vector_ncl_impl"]}
{"id": "C294", "title": "Curly vectors: lines drawn", "statement": "With affine axes and open heads the lines handed over are, glyph by glyph, the shaft and two barbs ending in its last vertex, all three with the style of that glyph.", "quantifier": "all plots with affine axes", "why_tests_cant": "grids, winds, panels and option combinations are unbounded and positions are continuous", "anchors": ["src/skyborn/plot/_core/vector_engine.py:_curly_vector_ncl_impl"]}
{"id": "C295", "title": "Curly vectors: uniform wind", "statement": "A uniform wind on straight axes whose cells are at most 12:1 is drawn as straight arrows from their points, downwind, of exactly the length asked for (if that is not more than a step), and every candidate whose arrow fits has a glyph or one closer than the spacing.", "quantifier": "all uniform winds, straight axes, panels and candidate sets", "why_tests_cant": "grids, winds, panels and option combinations are unbounded and positions are continuous", "anchors": ["src/skyborn/plot/_core/vector_engine.py:_curly_vector_ncl_impl"]}
{"id": "C296", "title": "Curly vectors: something is drawn", "statement": "A plot of a uniform wind on straight axes filling the panel draws something. False: if the cells on the panel are more than 12 times longer than wide (or wider than long) nothing at all is drawn, for any data and options.", "quantifier": "all plots with straight axes", "why_tests_cant": "grids, winds, panels and option combinations are unbounded and positions are continuous", "anchors": ["src/skyborn/plot/_core/vector_engine.py:_curly_vector_ncl_impl", "src/skyborn/plot/nclcurly_core/_ncl_curly_core.c"]}
{"id": "C297", "title": "Curly vectors: axis order", "statement": "Turning descending axes round changes no data: every point keeps its winds, colour and line width, and strictly monotonic axes come out ascending; the same for arrays and for datasets.", "quantifier": "all axes and fields", "why_tests_cant": "axes, data and query points are unbounded and continuous", "anchors": ["src/skyborn/plot/_shared/coords.py:_normalize_regular_grid_orientation", "src/skyborn/plot/_adapters/dataset_vector.py"]}
{"id": "C298", "title": "Curly vectors in another projection: global grids", "statement": "On a global grid of equally spaced longitudes every point, whatever multiple of 360 its longitude carries, gets the linear interpolation of the four nodes around it, across the seam included.", "quantifier": "all global grids, fields and points", "why_tests_cant": "axes, data and query points are unbounded and continuous", "anchors": ["src/skyborn/plot/_adapters/grid_prepare.py:_prepare_source_vector_grid", "src/skyborn/plot/_adapters/cartopy_vector.py:_regrid_cartopy_vectors"]}
{"id": "C299", "title": "Curly vectors in another projection: no errors", "statement": "Winds on ascending axes can be drawn in another projection. False: a grid that repeats its first longitude at 360 degrees raises ValueError if its spacing is at most 10 degrees.", "quantifier": "all ascending axes", "why_tests_cant": "axes, data and query points are unbounded and continuous", "anchors": ["src/skyborn/plot/_adapters/grid_prepare.py:_prepare_source_vector_grid"]}
{"id": "C300", "title": "Curly vectors in another projection: outside the data", "statement": "Nothing is drawn outside the longitudes of the data. False: a regional grid covering 300 degrees or more with its spacing is closed, and values are interpolated across its gap.", "quantifier": "all ascending axes and points", "why_tests_cant": "axes, data and query points are unbounded and continuous", "anchors": ["src/skyborn/plot/_adapters/grid_prepare.py:_grid_spans_full_longitude"]}
{"id": "C301", "title": "Curly vectors in another projection: full turns", "statement": "A point gets the same values whether its longitude is given as q or with full turns added. False: regional data in 0..360 are not found at negative longitudes.", "quantifier": "all ascending axes, points and turns", "why_tests_cant": "axes, data and query points are unbounded and continuous", "anchors": ["src/skyborn/plot/_adapters/grid_prepare.py:_wrap_periodic_grid_queries"]}
{"id": "C302", "title": "Curly vectors on uneven grids", "statement": "Uneven grids are accepted exactly if no longitude and no latitude occurs twice; they are drawn on equally spaced axes from the least to the greatest coordinate, the values there are the linear combination of the four data points around, and the order of rows and columns does not matter.", "quantifier": "all axes and fields", "why_tests_cant": "axes, data and query points are unbounded and continuous", "anchors": ["src/skyborn/plot/vector.py:_regrid_non_uniform_vectors_to_uniform"]}
{"id": "C303", "title": "Curly vectors: strictly monotonic axes are accepted", "statement": "Axes that ascend or descend strictly, evenly or not, are drawn whatever the options, without error, on a grid of the same shape and extent.", "quantifier": "all strictly monotonic axes and options", "why_tests_cant": "axes, data and query points are unbounded and continuous", "anchors": ["src/skyborn/plot/vector.py:_array_curly_vector", "src/skyborn/plot/_core/vector_engine.py:Grid"]}
{"id": "C304", "title": "interp_multidim: linear", "statement": "Without missing data, linear interpolation gives at a point between neighbouring rows and columns the linear combination of the four values around it, whatever the order of rows and columns, for every leading index; the result has the shape asked for.", "quantifier": "all axes without repetitions, fields, leading dimensions, targets", "why_tests_cant": "axes, data and query points are unbounded and continuous", "anchors": ["src/skyborn/interp/interpolation.py:interp_multidim"]}
{"id": "C305", "title": "interp_multidim: errors and points outside", "statement": "The call fails exactly if a latitude or a longitude occurs twice; points outside the latitudes or longitudes get fill_value, and the missing value where fill_value is NaN.", "quantifier": "all axes of two nodes or more, targets, methods", "why_tests_cant": "axes, data and query points are unbounded and continuous", "anchors": ["src/skyborn/interp/interpolation.py:interp_multidim"]}
{"id": "C306", "title": "interp_multidim: missing data at a node", "statement": "A target point that is a data point with a value gets that value. False: with linear interpolation it is missing if the data point before it in either direction is missing.", "quantifier": "all data with missing values and target points", "why_tests_cant": "axes, data and query points are unbounded and continuous", "anchors": ["src/skyborn/interp/interpolation.py:interp_multidim"]}
{"id": "C307", "title": "interp_multidim: cyclic", "statement": "With cyclic and ascending longitudes less than 360 degrees apart, a point between the last and the first longitude, given beyond either end, gets the linear combination across the seam; other points as without cyclic.", "quantifier": "all two-dimensional complete fields and targets", "why_tests_cant": "axes, data and query points are unbounded and continuous", "anchors": ["src/skyborn/interp/interpolation.py:interp_multidim", "src/skyborn/interp/interpolation.py:_pre_interp_multidim"]}
{"id": "C308", "title": "interp_multidim: cyclic and the order of longitudes", "statement": "With cyclic the order of the longitudes does not matter. False: descending longitudes are extended at the wrong ends, and the gap gets other values.", "quantifier": "all descending longitudes", "why_tests_cant": "axes, data and query points are unbounded and continuous", "anchors": ["src/skyborn/interp/interpolation.py:interp_multidim", "src/skyborn/interp/interpolation.py:_pre_interp_multidim"]}
{"id": "C309", "title": "interp_multidim: cyclic with leading dimensions", "statement": "cyclic works for any number of leading dimensions. False: it fails for every input with a leading dimension.", "quantifier": "all shapes", "why_tests_cant": "axes, data and query points are unbounded and continuous", "anchors": ["src/skyborn/interp/interpolation.py:interp_multidim", "src/skyborn/interp/interpolation.py:_pre_interp_multidim"]}
{"id": "C310", "title": "interp_multidim: nearest", "statement": "The method nearest gives every point within the rows and columns, and with extrapolation every point, the value of the data point nearest in latitude and in longitude (the lower one of two equally near), missing or not.", "quantifier": "all axes, fields with or without missing data, targets", "why_tests_cant": "axes, data and query points are unbounded and continuous", "anchors": ["src/skyborn/interp/interpolation.py:interp_multidim"]}
{"id": "C311", "title": "interp_multidim: extrapolation", "statement": "With extrapolation a field a + b x + c y + f x y is reproduced at every point, however far outside.", "quantifier": "all axes, coefficients and targets", "why_tests_cant": "axes, data and query points are unbounded and continuous", "anchors": ["src/skyborn/interp/interpolation.py:interp_multidim"]}
{"id": "C312", "title": "legendre: the values", "statement": "legendre(lat, T) returns (T+1)(T+2)/2 numbers: the normalised associated Legendre functions sqrt((2n+1)(n-m)!/(2(n+m)!)) sin^m/(2^n n!) times the (n+m)-th derivative of (x^2-1)^n at x = cos(colatitude), for 0 <= m <= n <= T ordered by m, then n, and nothing depends on what was in memory before.", "quantifier": "all latitudes from -90 to 90 and all truncations", "why_tests_cant": "truncation, degree and order are unbounded, latitude is continuous", "anchors": ["src/skyborn/spharm/spherical_harmonics.py:legendre", "src/skyborn/spharm/src/getlegfunc.f90", "src/skyborn/spharm/src/alf.f90:alfk", "src/skyborn/spharm/src/alf.f90:lfpt"]}
{"id": "C313", "title": "legendre: errors", "statement": "legendre fails exactly for latitudes beyond the poles and negative truncations.", "quantifier": "all latitudes and truncations", "why_tests_cant": "truncation, degree and order are unbounded, latitude is continuous", "anchors": ["src/skyborn/spharm/spherical_harmonics.py:legendre"]}
{"id": "C314", "title": "A field at any point", "statement": "specintrp(lon, coefficients, legendre(lat, T)) is the value at that latitude and longitude of the real field with these spherical-harmonic coefficients.", "quantifier": "all points, truncations and coefficients", "why_tests_cant": "truncation, degree and order are unbounded, latitude is continuous", "anchors": ["src/skyborn/spharm/spherical_harmonics.py:specintrp", "src/skyborn/spharm/spherical_harmonics.py:legendre"]}
{"id": "C315", "title": "A field at grid points", "statement": "At the points of a grid with more rows than T and at least 2T columns, specintrp with legendre gives the same value as spectogrd.", "quantifier": "all grids, truncations, coefficients and grid points", "why_tests_cant": "truncation, degree and order are unbounded, latitude is continuous", "anchors": ["src/skyborn/spharm/spherical_harmonics.py:specintrp", "src/skyborn/spharm/spherical_harmonics.py:spectogrd"]}
{"id": "C316", "title": "specintrp: sizes", "statement": "specintrp gives an answer exactly if both arrays hold the same triangular truncation (lengths in between two triangles count as the smaller one).", "quantifier": "all lengths", "why_tests_cant": "lengths are unbounded", "anchors": ["src/skyborn/spharm/spherical_harmonics.py:specintrp"]}
{"id": "C317", "title": "getgeodesicpts: sizes", "statement": "getgeodesicpts(m) fails exactly for m < 2; otherwise it returns 10(m-1)^2+2 latitudes and as many longitudes, the first two being the north and the south pole.", "quantifier": "all integers m", "why_tests_cant": "the number of points per edge is unbounded and the coordinates are real numbers", "anchors": ["src/skyborn/spharm/spherical_harmonics.py:getgeodesicpts", "src/skyborn/spharm/src/ihgeod.f90", "src/skyborn/spharm/_spherepack_module.c:py_ihgeod"]}
{"id": "C318", "title": "getgeodesicpts: ranges", "statement": "All latitudes lie in [-90, 90] and all longitudes in [0, 360].", "quantifier": "all m and points", "why_tests_cant": "the number of points per edge is unbounded and the coordinates are real numbers", "anchors": ["src/skyborn/spharm/spherical_harmonics.py:getgeodesicpts", "src/skyborn/spharm/src/ihgeod.f90", "src/skyborn/spharm/_spherepack_module.c:py_ihgeod"]}
{"id": "C319", "title": "getgeodesicpts: the mesh", "statement": "The points returned are exactly those of the geodesic mesh: the points dividing the sides of each of the 20 faces of the icosahedron with corners at the poles into m-1 parts, projected to the sphere.", "quantifier": "all m up to 8 000 000 and all points", "why_tests_cant": "the number of points per edge is unbounded and the coordinates are real numbers", "anchors": ["src/skyborn/spharm/spherical_harmonics.py:getgeodesicpts", "src/skyborn/spharm/src/ihgeod.f90", "src/skyborn/spharm/_spherepack_module.c:py_ihgeod"]}
{"id": "C320", "title": "getgeodesicpts: no point twice", "statement": "No two of the points returned are the same point of the sphere, also where strips meet.", "quantifier": "all m up to 8 000 000 and all pairs of points", "why_tests_cant": "the number of points per edge is unbounded and the coordinates are real numbers", "anchors": ["src/skyborn/spharm/spherical_harmonics.py:getgeodesicpts", "src/skyborn/spharm/src/ihgeod.f90", "src/skyborn/spharm/_spherepack_module.c:py_ihgeod"]}
{"id": "C321", "title": "getgeodesicpts: antipodes", "statement": "With every point, the opposite point of the globe is returned.", "quantifier": "all m up to 8 000 000 and all points", "why_tests_cant": "the number of points per edge is unbounded and the coordinates are real numbers", "anchors": ["src/skyborn/spharm/spherical_harmonics.py:getgeodesicpts", "src/skyborn/spharm/src/ihgeod.f90", "src/skyborn/spharm/_spherepack_module.c:py_ihgeod"]}
{"id": "C322", "title": "getgeodesicpts: regular icosahedron", "statement": "For m = 2 the 12 points are the corners of a regular icosahedron: different points are at least 63.4 degrees (cosine 1/sqrt 5) apart, and each has five others at exactly this angle.", "quantifier": "all pairs of points, all previous contents of memory", "why_tests_cant": "the coordinates are irrational", "anchors": ["src/skyborn/spharm/spherical_harmonics.py:getgeodesicpts", "src/skyborn/spharm/src/ihgeod.f90", "src/skyborn/spharm/_spherepack_module.c:py_ihgeod"]}
{"id": "C323", "title": "regrid_dataset: values", "statement": "A successful regrid_dataset call returns a dataset with the target grid's sizes and coordinates (degrees) along the horizontal dimensions, every other dimension as before, the variables with the same name, dtype and dimension order, and every horizontal slice of a floating-point variable equal to regrid_array of that slice: the bilinear interpolation, a value copied from the nearest source point, or (conservative) a value within the range of the slice.", "quantifier": "all datasets with increasing latitudes, targets, methods and indices", "why_tests_cant": "datasets, names and values are unbounded", "anchors": ["src/skyborn/interp/regridding.py:Regridder.regrid_dataset", "src/skyborn/interp/regridding.py:regrid_dataset"]}
{"id": "C324", "title": "regrid_dataset: latitude order", "statement": "The result does not depend on whether the dataset stores its latitudes from north to south or from south to north.", "quantifier": "all datasets whose latitudes span more than 0.001 degrees, all methods, also for calls that fail", "why_tests_cant": "datasets, names and values are unbounded", "anchors": ["src/skyborn/interp/regridding.py:Regridder.regrid_dataset", "src/skyborn/interp/regridding.py:regrid_dataset"]}
{"id": "C325", "title": "regrid_dataset: integer variables", "statement": "Integer variables are interpolated like floating-point ones.", "quantifier": "all datasets with integer variables", "why_tests_cant": "datasets, names and values are unbounded", "anchors": ["src/skyborn/interp/regridding.py:Regridder.regrid_dataset", "src/skyborn/interp/regridding.py:regrid_dataset"]}
{"id": "C326", "title": "regrid_dataset: accepted datasets", "statement": "With the bilinear method a dataset is accepted exactly when its horizontal dimensions have conventional names, the latitudes are strictly monotonic, each data variable and coordinate has both horizontal dimensions or neither and no regridded variable has an empty further dimension; an unknown method is always refused.", "quantifier": "all datasets with non-empty horizontal dimensions, all method names", "why_tests_cant": "datasets, names and values are unbounded", "anchors": ["src/skyborn/interp/regridding.py:Regridder.regrid_dataset", "src/skyborn/interp/regridding.py:regrid_dataset"]}
{"id": "C327", "title": "regrid_dataset: names given by the caller", "statement": "Passing lon_dim and lat_dim makes regrid_dataset use these dimensions, also when they have other than the conventional names.", "quantifier": "all datasets and names", "why_tests_cant": "datasets, names and values are unbounded", "anchors": ["src/skyborn/interp/regridding.py:Regridder.regrid_dataset", "src/skyborn/interp/regridding.py:regrid_dataset"]}
{"id": "C328", "title": "regrid_dataset: other variables", "statement": "Data variables and coordinates without horizontal dimensions come out unchanged; all variables keep name, dtype and dimension order, also when the latitudes are reversed.", "quantifier": "all datasets and methods", "why_tests_cant": "datasets, names and values are unbounded", "anchors": ["src/skyborn/interp/regridding.py:Regridder.regrid_dataset", "src/skyborn/interp/regridding.py:regrid_dataset"]}
{"id": "C329", "title": "Regridder.regrid_dataset: wrong source grid", "statement": "A regridder refuses a dataset on another grid: a different number of points, or a longitude or latitude differing by more than the tolerance (in whichever order of the latitudes fits better).", "quantifier": "all regridders and datasets", "why_tests_cant": "datasets, names and values are unbounded", "anchors": ["src/skyborn/interp/regridding.py:Regridder.regrid_dataset", "src/skyborn/interp/regridding.py:regrid_dataset"]}
{"id": "C330", "title": "gaussian_lats_wts: shape and small cases", "statement": "gaussian_lats_wts(nlat) fails exactly for nlat < 1; otherwise it returns nlat latitudes and nlat weights. One latitude is the equator with weight 2; two are the latitudes whose sine is plus and minus sqrt(1/3), north first, with weight 1 each.", "quantifier": "all integers nlat", "why_tests_cant": "the number of latitudes is unbounded", "anchors": ["src/skyborn/spharm/spherical_harmonics.py:gaussian_lats_wts", "src/skyborn/spharm/src/gaqd.f90:gaqd"]}
{"id": "C331", "title": "gaussian_lats_wts: symmetry", "statement": "The latitudes are antisymmetric about the equator, the weights symmetric, and with an odd number of latitudes the middle one is exactly the equator.", "quantifier": "all nlat >= 1", "why_tests_cant": "the number of latitudes is unbounded", "anchors": ["src/skyborn/spharm/spherical_harmonics.py:gaussian_lats_wts", "src/skyborn/spharm/src/gaqd.f90:gaqd"]}
{"id": "C332", "title": "gaussian_lats_wts: weights", "statement": "No weight is negative and the weights add up to 2 (unless they are all negligible, below the unit roundoff times nlat), whichever summation is used.", "quantifier": "all nlat >= 1, all tolerances", "why_tests_cant": "the number of latitudes is unbounded", "anchors": ["src/skyborn/spharm/spherical_harmonics.py:gaussian_lats_wts", "src/skyborn/spharm/src/gaqd.f90:gaqd"]}
{"id": "C333", "title": "gaussian_lats_wts: Gauss points", "statement": "The sines of the latitudes are the zeros of the Legendre polynomial of degree nlat and the weights those of Gauss-Legendre quadrature.", "quantifier": "all nlat >= 3", "why_tests_cant": "the number of latitudes is unbounded; Newton iterations of unknown length", "anchors": ["src/skyborn/spharm/spherical_harmonics.py:gaussian_lats_wts", "src/skyborn/spharm/src/gaqd.f90:gaqd"]}
{"id": "C334", "title": "gradient_fill_between: colours", "statement": "A pixel is transparent exactly if it is not between the two curves; with the default edge_mode its value is its position on the way from the lower curve (0) to the upper one (1); visible values lie between 0 and 1.", "quantifier": "all points, curves, resolutions", "why_tests_cant": "the curves, gaps and resolutions are unbounded", "anchors": ["src/skyborn/plot/plotting.py:gradient_fill_between"]}
{"id": "C335", "title": "gradient_fill_between: edge_mode", "statement": "With edge_mode='y1' ('y2') the colours run from the first (second) curve, low end, to the other one, high end, also where the curves have crossed.", "quantifier": "all points, curves, resolutions", "why_tests_cant": "the curves, gaps and resolutions are unbounded", "anchors": ["src/skyborn/plot/plotting.py:gradient_fill_between"]}
{"id": "C336", "title": "gradient_fill_between: gaps", "statement": "One image is drawn for each maximal run of at least two points where x, y1 and y2 are finite, and for nothing else; without such a run the call fails.", "quantifier": "all patterns of missing values", "why_tests_cant": "the curves, gaps and resolutions are unbounded", "anchors": ["src/skyborn/plot/plotting.py:gradient_fill_between"]}
