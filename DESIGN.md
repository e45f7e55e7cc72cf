# Formal model of QianyeSu/Skyborn — design

## 1. Layout

Every area of the code has up to four Lean modules under `lean/Verif/<Area>/`:

* `Model.lean`  – the functions of /repo, one definition each, with a comment citing file and lines and naming every simplification;
* `Spec.lean`   – small, independent definitions used to state the properties (textbook definitions);
* `Lemmas*.lean`– helper lemmas;
* `Props.lean`  – the property theorems (names `Cnn_...`) with `example`s that show their hypotheses are met.

`MANIFEST.json` maps properties to theorems, `seeded/LOG.jsonl` records the mutation attempts.

## 2. Trusted base

* Lean 4.33.0 kernel; Mathlib as installed. Axioms of every theorem: at most `propext`, `Classical.choice`, `Quot.sound`.
* The reading of the code: the model is hand-written from the text of /repo (the code is not run here).
* Numbers: real-valued Fortran/C/NumPy arithmetic is modelled by an arbitrary linearly ordered field `K`
  (or an arbitrary linear order when only comparisons matter), or by ℝ where trigonometric or square-root functions are used.
  **Floating-point rounding, overflow, signed zeros and infinities are not modelled**; NaN is modelled only where the code
  treats it as "missing" (`Option K`, `none` = NaN / masked). "Bit-for-bit" claims are about values that are only copied.
* Fortran/C integers are unbounded `Nat`/`Int`; 32-bit overflow is not modelled (unless a property says so).
* In-place array programs are functions `Nat → α` plus explicit bounds; a swap is function update. Where a property speaks about
  bounds, out-of-range accesses are represented explicitly (`Option`/`none` or a proof that each index is in range).
* Loops are structural recursion / folds, or take fuel together with a theorem that the fuel given is always enough.
* External libraries (NumPy primitives, xarray, SciPy's normal distribution, BallTree, SPHEREPACK transforms, BLAS) are not modelled beyond
  the documented meaning of the primitive used (`rollaxis`, `reshape`, `transpose`, `median`, `sum`, `cumsum`, ...), which appears as a definition.

## 3. Property plan

| id | model | proof |
|----|-------|-------|
| C01 | row scan and lag-by-lag scan of `compute_s_value*` as loops with accumulator | both loops = double sum over pairs (finite sums, re-indexing) |
| C02 | same model | sums of signs; reversal re-indexing; strictly monotone maps preserve sign |
| C03 | insertion sort + quicksort as in-place programs on `Nat → α` | permutation + sortedness, by strong induction on window size; scans bounded |
| C04 | `select_kth_real` as fuelled loop | partition invariant; window always contains k; size decreases |
| C05 | buffer fill by lag bands + select based median | buffer is a rearrangement of the pair-slope multiset; median of sorted list |
| C06 | same | affine maps commute with sorted-list median |
| C07 | tie scan on a sorted buffer | scan = sum over distinct values; sign analysis |
| C08 | tau = S/(n(n-1)/2) | from C02 bounds |
| C09 | finite mask + guard n<3 | filtering `Option` lists |
| C10 | multidim driver: moveaxis, reshape, chunk loop, scatter | list/index algebra; chunking = map |
| C11 | gap squeezing in correlated seasonal driver | **false of the code**: witness + partial theorem |
| C12 | rank vector, k statistic, grouped variance | algebraic identity over tie groups |
| C13 | seasonal reshaping, strided sub-series | index algebra (i = q*p + r) |
| C14 | grouped slope count and fill loop | counting argument |
| C15 | both rank routines | rank = (#less) + (#equal+1)/2; sum by double counting |
| C16 | fused/plain partial kernels | loop = sums; algebra |
| C17 | `_autocorr_lag_limit` | case analysis |
| C18 | batch helper vs kernel | sums equality |
| C19 | intercept variants, std | variance shift invariance |
| C20 | batch OLS slope | completing the square |
| C21–C23, C25, C26, C32 | N-D arrays as shape + index function; rollaxis/reshape/transpose | index algebra; C23 **false**: witness |
| C24 | reversal and ordering | list/index algebra |
| C27–C31 | gridfill kernels | invariants over sweeps; C31 **false** in edge cases: witness + partial |
| C33–C34 | gradients | field arithmetic; C34 **false** (double degree conversion): witness + theorem on the factor |
| C35–C36 | bracket search, bilinear kernel | binary-search invariant; field arithmetic |
| C37–C40 | conservative weights and regrid | finite sums; C39 **false** for wide cells: witness + theorem under width hypothesis |
| C41 | nearest kernels | argmax loop invariant |
| C42 | codec | map over `Option` |
| C43–C47 | spectral packing, Laplacian, smoothing | index arithmetic (triangular numbers), sums |
| C48–C49 | emergent constraint helpers | loop invariant; OLS algebra |
| C50–C54, C62–C65 | Python layer of the Mann-Kendall driver (p-value, tau, dispatch, pre-whitening), emergent-constraint densities | case analysis on the driver; `NormalLike` cdf/ppf pair is a hypothesis structure, shown satisfiable; Gaussian density over ℝ |
| C55–C57 | packed index arithmetic, vector packing, `specintrp` | loop invariants with explicit bounds; finite sums |
| C58 | SOR iteration with tolerance | monotone convergence + maximum principle (uniqueness), Archimedean termination |
| C59, C60, C61 | `inspect_gridtype`, integral over the sphere, bilinear identity | case analysis; Fubini for finite sums; C61 **false** with missing values: witness |
| C66–C68 | `interp_pressure_1d`: compaction of valid levels, bracket scan, extrapolation | loop invariants on the compacted axis; C67, C68 **false** in general: witnesses + partial theorems |
| C69–C76 | hybrid-level kernels, Python wrapper, `interp_sigma_to_hybrid`, geopotential height | column loops with bounds, layout algebra (`Common/Axes`), real logarithms; C70 **false** above the top level |
| C77–C80 | `interp_to_isentropic`: per-column filtering, sorting, interpolation | sorting specification, argmin/argmax of admissible levels; C80 **false** for differing storage orders |
| C81–C92 | Fortran `stattrop`, US-76 atmosphere, C binding, Python wrapper | scan invariants on one profile, layout algebra for 2-D/3-D/4-D calls; C83, C86–C89, C92 **false**: witnesses + partial theorems |
| C93–C103 | `z2geouv*`, C binding, `geostrophic_wind`, `GeostrophicWind`, name detection | cell-wise loop invariants, layout algebra; C94, C96, C97, C100, C102, C103 **false**: witnesses + partial theorems |
| C104–C107 | `linear_regression` with its in-place writes; `lstsq`/`f_regression` are parameters with a stated contract | finite sums, uniqueness of the least-squares slope; C106, C107 **false**: witnesses |
| C108–C110 | `spatial_correlation`, both branches | masked sums = sums over the valid times; Cauchy–Schwarz; C110 **false** for two time steps |
| C111, C112 | `convert_longitude_range`, `calculate_potential_temperature` | floor arithmetic, stable sort, real powers; flag direction of C111 **false** |
| C113–C116 | `liang`, `phaseran` | normal equations; discrete Fourier transform over ℂ (orthogonality, inversion, Wiener–Khinchin) |
| C117 | `trop_wmo`/`trop_wmo_profile` refuse inconsistent input: acceptance implies matching level counts and valid distinct axes | proved (Trop/Rejects) |
| C118 | `unproject ∘ project` removes the mean, `project ∘ unproject` is the identity, for every eigenbasis `eig` may return | proved (ROF/Project) |
| C119 | `calculate_trend` is the slope of the least-squares line of the unprojected series | proved (ROF/Project) |
| C120 | `speco`: eigenpairs of symmetric matrices, descending; asymmetric matrices refused | first half proved, second refuted (ROF/Eigen) |
| C121 | `extract_Z2` partitions the realisations; positions and size of Z2 | proved (ROF/Split) |
| C122–C124 | Ledoit-Wolf `creg`: convex combination, invertible, defined, covariant | C122, C124 proved; C123 refuted with the exact condition proved (ROF/Creg) |
| C125–C127 | `ols`: unique generalised-least-squares minimum, coordinate independence, intervals | C125, C126 proved; C127 refuted (t.cdf for t.ppf), actual interval proved (ROF/Ols) |
| C128–C130 | `ribes`: additivity, maximum likelihood, propagated covariances | proved (ROF/Ribes) |
| C131 | `Cm_estimate`: nearest covariance matrix to the first estimate | proved (ROF/Ensemble) |
| C132 | trace of `SSM` = spread of the models | refuted for non-orthogonal eigenvectors, proved for orthonormal ones (ROF/Ensemble) |
| C133 | `Cv_estimate` = (1/nm²) Σ Cv/members, covariance matrix | proved (ROF/Ensemble) |
| C134–C140 | DCAPE: kernel = list specification for every content of scratch memory; order; NaN rule; start; parcel; monotone response; grid | proved, C136 refuted with the exact rule proved (Dcape/*) |
| C141, C142 | `grid_to_triple`: lists exactly the non-missing cells; caller's array restored | proved by the invariant of the two loops (Triple/Run, Props) |
| C143 | round trip grid → triples → grid | refuted (order of the cells; fine axes), proved up to the order (Triple/Props2, Props4) |
| C144 | nearest grid point | refuted on even grids and last row/column, proved for the rest (Triple/Props3, Props4) |
| C145, C146 | independence of uninitialised memory; memory safety | refuted for method 0 on even axes / two-point axes, proved otherwise (Triple/Grid, Props, Props4) |
| C147 | `distmx`; values only from observations | first half refuted, second proved (Triple/Props2, Props4) |
| C148 | leading dimensions, errors | proved (Triple/Props) |
| C149 | Spharmt constructor: Python lengths against the length tests of the init routines | case analysis and integer inequalities; refuted in general, exact criterion proved (Sphere/LenProps) |
| C150 | work lengths of all transforms for any number of slices | same; refuted for divergence-only analysis with more than 24 slices (Sphere/LenProps) |
| C151, C152 | getuv, getgrad, gradient: scaling of coefficients and the spherical-harmonic series the synthesis sums | derivative formulas of associated Legendre functions from Rodrigues' formula (Legendre, Field), induction on sums; refuted at the default truncation (WindProps, WindProps3) |
| C153, C155 | VectorWind methods as compositions of analyses, inverse Laplacian and syntheses | series identities for any analysis output (WindProps2) |
| C154, C158 | band-limited fields | analysis contract Spec.Exact, proved satisfiable by a linear-independence argument (Unique, UniqueField, Exact); (WindProps3, WindProps5) |
| C156, C157, C159 | Rossby wave source, planetary vorticity, acceptance | product rule for divergence; latitude formulas; case analysis (WindProps4) |
| C160 | all VectorWind caches as a state machine | invariant: every cache entry is the fresh result (Session, SessionProps); refuted under reassignment (SessionProps2) |
| C161, C162, C163 | regrid, definedness of grdtospec, specsmooth | closed forms of the packed loops and the analysis contract (RegridProps) |
| C164–C166, C168–C174 | rcm2rgrid, rgrid2rcm, rcm2points: Python wrapper, C binding, all search branches (fast path with bracket search, windows, full scans) of the kernels | closed form of every loop (first match in scan order), then cases (Rcm/Curv, Kernel, CurvProps*, Reg*, Points*); refutations by witnesses (CurvProps2, CurvProps3, RegProps3, Witness) |
| C167 | gap filling loops | invariants over runs of missing values (Rcm/Gaps) |
| C175 | dgcdist | trigonometric identities (Rcm/Dist) |
| C176 | acceptance of the three functions | case analysis of all checks (Rcm/CurvProps3, RegProps3, PointsProps) |
| C177 | truncation checks of Spharmt | inversion of each transform (Sphere/Truncation) |
| C178–C180 | barot_growth_rate: Python wrapper, matrices of the kernel, eigenvalue solver as a contract, spectrum and maximum | summation by parts for the tridiagonal operator (energy argument), conjugate eigenvalues, similarity under reflection (Growth/Eig, Ops, Spectrum, Barot, BarotProps) |
| C181–C183, C186 | baroc_growth_rate with one profile: settings, remapping, kernel matrices, smoothing, turning-point maximum | closed form of the call (Growth/Column, Call, Run), Charney–Stern identity, similarity transforms (Growth/Baroc, BarocProps, BarocSym) |
| C184, C185 | the whole call on arbitrary arrays | congruence through every branch (Growth/Mirror, Units) |
| C187 | several profiles, explicit and diagnosed tropopause | row-wise closed form against the one-profile call (Growth/Batch, BatchAuto) |
| C188, C189 | latitude-band reduction and array layouts | case analysis (Growth/Band, Layout) |
| C190 | CAPE of the potential-intensity Fortran: parcel temperatures (Newton iteration for the saturated parcel), buoyancy, integration to the outflow level | closed form of the loops against the energy of a lifted parcel (Gpi/Model, Cape) |
| C191–C194 | the fixed-point iteration of the central pressure, early exits, post-processing | invariant of the iteration, outcomes of the core (Gpi/Core, Call, Results), explicit column with wind (Gpi/Witness) |
| C195, C196 | the gridded Fortran routines with and without missing values, the OpenMP loop as an arbitrary order of the points | fold over the schedule (Gpi/Slices, Flags, Flags4) |
| C197–C199 | missing-value routines, level ordering, level limits | congruence of the core in the levels used (Gpi/Reverse, Missing, Holes, Levels) |
| C200 | the logarithmic diagnostics and log_decompose_pi | outcomes of the core (Gpi/Diagnostics, Terms, Examples) |
| C201 | partial_mann_kendall_multidim: axis, broadcast of the covariate, chunk loop, fast path for complete columns, slow path for the others | the chunk fold writes every point once; both paths equal the 1-D test (MK/PartialPy, PartialPyGrid, PartialPyProps) |
| C202–C205 | partial_mann_kendall_test on two series | closed form of the Fortran statistics, sums over the finite times, sign identities (MK/PartialPyStats, PartialPyTrend) |
| C206 | the xarray entry point: broadcast, transpose, reduction | layouts of Common/Axes (MK/PartialPyXr) |
| C207, C208, C210–C212, C217 | the packed reduced-Gaussian transforms: Fortran loops over rows, orders and slices (with the pairing of symmetric rows, two terms at a time, and arbitrary order of the parallel iterations), saved FFT workspaces, table caches, argument checks | loop invariants against Fourier analysis/quadrature/series (RedGauss/Rows … Vec), Hoare triples over the state of caches (RedGauss/Tri, PyMethods, PyWinds, Results, WindResults) |
| C209, C214, C215, C218 | outcomes of calls as functions of the arguments in every reachable state | determinacy of the triples, exclusive refusals (RedGauss/Same, SameProps, Refuse) |
| C213 | analysis after synthesis on Gaussian rows | discrete orthogonality on the rows, Gaussian orthogonality of the Legendre functions (RedGauss/Round, WindResults) |
| C216 | element types through the methods | case analysis (RedGauss/Dtype) |
| C219–C226 | ReducedVectorWind over the model of ReducedGaussianSpharmt: attributes, five dictionaries, every method; histories interleave calls on any wind and transform objects | Hoare triples over the dictionaries (RedWind/Tri, Spectra, Methods), induction over histories (History), then the series/derivative form (Fields, Rossby), exact refusals (Refuse) |
| C227 | element types of the results | case analysis (RedWind/Dtype) |
| C228–C231 | gridfill/xarray.py: coordinate search, cyclic test, fill, coverage report over labelled arrays (dims, NDArr, coordinates with attributes) | the array theorems of Gridfill/FillProps moved along the dimension names (XrFill), the fold-based search shown equal to the documented priority (XrDetect), counting of flat positions = cardinality of index sets (XrCoverage) |
| C232–C236 | troposphere/xarray.py over labelled arrays, on top of the model of core.py | dimension names to axis numbers (Arranged.layout), then the column theorem of Trop/Columns; detection by folding over the names; sorting by argsort composed with the sorting of core.py |
| C237 | standard.VectorWind on stacks of slices (Sphere/Slices) | every query reduced to a function of the slice; restoring the extra dimensions index by index |
| C238–C242 | windspharm/xarray.py VectorWind over labelled arrays, on top of the model of standard.py | arranging as transpose+reverse (Arrange), construction as a chain of tests (Construct, Accept), answers by C237 and labels (Answers, Props, Fields), layouts (Present), Sphere's physical theorems moved to labels (Physics, Exact) |
| C243–C245 | calc/GPI/xarray.py over labelled arrays, on top of the model of core.py | unit tables against a separate list of units and spellings (XrUnits); detection as a fold over the names, rearrangement as a permutation, columns by C195 (XrProps); witnesses from the columns of Gpi/Witness (XrFalse) |
| C246–C248 | thinning in _ncl_curly_core.c: buckets, qsort (contract), binary search, 3×3 scan, flag array | invariant of the outer loop: flags = some kept earlier point too close; points closer than the bucket width lie in adjacent buckets; uniqueness of the sequential rule |
| C249–C257 | cell geometry, lattice, scatter pipeline (coords.py, scatter_engine.py, generate_cell_candidates) | case analysis; convex combinations; subset stages as index lists, drawn markers and style rows come from one list of picks; witnesses evaluated by the kernel |
| C258–C261 | _contour_core.c: walk along the line, candidate scores, qsort (contract), greedy picks, exchange sort, arrow rows (unwritten rows are `none`) | induction on the vertices (position at an arc length), invariant of the picks, Lipschitz bound of the line, witness line |
| C262, C263 | contour_arrows.py: signed area, orientation, arrow length | shoelace sum of the reversed polygon by reindexing; Pythagoras |
| C264–C267 | vector_engine.py: default length, length scale, length of a magnitude; result.py and vector_key_artist.py: key length | case analysis over the branches of the scale, field arithmetic; witnesses |
| C268–C270 | _ncl_curly_core.c: bilinear sampling, state of the tracer | flattening lemmas, convexity, field arithmetic; witness |
| C271–C274 | _ncl_curly_core.c: display step, clipping, tracing loop | loop invariant by induction on the step budget; witnesses evaluated by rewriting |
| C275–C277 | _ncl_curly_core.c: validation of the curve; vector.py, vector_engine.py: retries, anchors | scan invariant, trigonometric bound, induction over the retries; witness |
| C278–C280 | _ncl_curly_core.c: tip direction and head vertices; style.py: sizes | induction over the walk back; angles of the segments lie in a sector as wide as the sum of turns, so an accepted curve cannot return to its tip |
| C281, C282 | _ncl_curly_core.c: batches; vector_artists.py: packing, assembly | induction over the curves, stable sort and slices of a sorted list |
| C283–C285 | _ncl_curly_core.c: `compute_display_cell_valid` | order statistics of the sorted sides: bounds on the median of the lower half from counts; exact count of sides on straight axes |
| C286–C289 | vector_engine.py: `Grid`, `_default_ncl_box_center_candidates`, `_select_ncl_centers` | induction along the axis; index arithmetic of row-major boxes; C246/C247 applied to the usable candidates |
| C290–C296 | vector_engine.py: `_curly_vector_ncl_impl` end to end | composition of C246–C247, C268–C289; explicit evaluation of the tracer for a uniform wind; counterexample for long cells |
| C297–C303 | plot/vector.py, plot/_adapters: arrays before they are drawn (axis order, global longitudes, other projections, uneven grids) | reindexing of rows and columns; `RegularGridInterpolator` as linear interpolation in the interval; sorting as a permutation; counterexamples for cyclic endpoints, wide regional grids and longitudes off by a turn |
| C304–C311 | interp/interpolation.py `interp_multidim` | sorting as a permutation, one axis after the other; the interval of a point by counting nodes below; counterexamples for missing neighbours, descending cyclic longitudes and leading dimensions |
| C312–C316 | spharm `legendre`, `specintrp`: src/getlegfunc.f90, alf.f90 `alfk`, `lfpt` | the Legendre functions as trigonometric polynomials; their differential equation gives the three-term recurrence of the coefficients, which is the one of the code; leading coefficient by double factorials; symmetry by reflection of the polynomial; loops by invariants; then C57 |
| C317–C322 | spharm `getgeodesicpts`: src/ihgeod.f90 `ihgeod`, `ctos`, `stoc` | scalar products of the corners from cos 36°; the points by strip, row and column as weighted sums of three corners; uniqueness of weights on the surface of a convex body (normals of faces); the code returns antipodes, and the mesh is its own antipode |
| C323–C329 | interp `regrid_dataset`, `Regridder.regrid_dataset` | dataset = named dimensions, labels, variables as functions of named indices; the call reduced to one expression for both latitude orders; composed with C36, C37, C41 |
| C330–C333 | spharm `gaussian_lats_wts` (`gaqd`) | in-place arrays (points and coefficients share storage); loop invariant for the root loop; coefficient recursion shown to satisfy the Fourier form of Legendre's equation, whose solution with its leading coefficient is unique (from C312's development) |
| C334–C336 | plot `gradient_fill_between` | points as optional numbers; `zip(starts, stops)` shown by induction over the valid indices to list the maximal runs; one pixel as a function of the curve values in its column |

Further properties are appended as more modules are modelled; sections 4 and 5 are updated with each.

## 4. Findings (code behaviour that contradicts a documented or expected property)

Each is proved as a theorem `..._false` (a concrete input on which the model, hence the code as read, violates the property); the
part that does hold is proved beside it with suffix `_partial`.

* C11 – gridded `correlated_seasonal` closes the gaps of a column before splitting into seasons, the 1-D function does not.
* C52 – gridded seasonal `linregress` reports a different standard error from the 1-D function.
* C23 – `prep_data`/`recover_data` with repeated dimension letters lose the original order.
* C31 – gridfill keeps the filler value in an all-missing row (zonal mean) and at column 1 (zonal linear, non-cyclic).
* C33 – nearly uniform spacing (`np.allclose` absolute tolerance 1e-8) is treated as uniform.
* C34 – zonal gradient converts degrees to radians twice: result is 180/π too large; default 3-D/4-D layouts are refused.
* C39 – conservative weights on 3-point longitude grids (cells wider than half a circle in pairs) do not conserve.
* C61 – bilinear regridding onto the identical grid loses points that have a missing neighbour.
* C67 – `interp_pressure_1d` infers the axis direction from the first two raw pressures, missing marker included.
* C68 – logarithmic extrapolation beyond the low-pressure end jumps by a layer difference.
* C70 – `interp_hybrid_to_pressure(extrapolate=False)` extrapolates above the model top.
* C80 – `interp_to_isentropic` misreads arrays whose dimensions are stored in a different order.
* C83 – tropopause `success` is true for failed columns when the pressure unit is Pa; C86 – `level_index` refers to sorted levels;
  C87 – missing lapse rate for the uppermost layer; C88 – reported pressure may lie outside the bracketing layer;
  C89 – only the mean over 2 km is compared, not every level within 2 km; C92 – 4-D call with an absent axis is accepted.
* C94 – north-to-south latitudes: winds come back south to north and are mislabelled; C96 – `'xy'` ignored on square grids;
  C97 – duplicate 0°/360° column halves v at the seam; C100 – float32 cast defeats missing-value detection;
  C102 – `day`, `experiment`, … taken for latitude/longitude; C103 – two further dimensions of one kind give a wrong shape.
* C106 – `linear_regression` replaces missing predictor values by zero instead of leaving the samples out; C107 – a rejected call leaves the
  caller's NaNs overwritten with zeros; C110 – `spatial_correlation` of two time steps depends on gaps elsewhere; C111 – the flag
  `center_on_180` of `convert_longitude_range` works opposite to its documentation.
* C120 – `speco` accepts asymmetric matrices with real eigenvalues; C123 – `creg(method='ledoit')` is NaN for one variable or a sample covariance
  proportional to the identity; C127 – `ols` multiplies the standard error by `t.cdf(0.95)` (a probability < 1) instead of a quantile;
  C132 – `SSM`, `creg` depend on the eigenbasis when `np.linalg.eig` returns non-orthogonal eigenvectors of the repeated eigenvalue 1.
* DCAPE: NaN is also returned when fewer than two levels lie at or below the start (e.g. high terrain); not documented (C136). The partial layer between the start pressure and the nearest level below it is left out of the integral when the start is an interpolated limit.
* C143 – `triple_to_grid` returns the Fortran (mx, ny) array reshaped in C order: cells are permuted (transposed when square), and the repository's round-trip test compares sorted values only. C144 – on evenly spaced grids the index is `int((x-x0)/dx)+2`, one too far for every observation that is not exactly on a point; on uneven grids observations on the last row/column are lost unless exactly at a point. C145 – `slpx`, `slpy` are used uninitialised for method 0 on even axes. C146 – two-point axes read `gx(3)`. C147 – the distance formula uses the sine of the grid longitude. C143 – the tolerance 0.001 is absolute, so fine uneven axes are treated as even and lose observations.
* Not stated as theorems: with an observation outside the grid and `domain` ≠ 1 the oversized even grid shifts all exact matches; on even grids an observation exactly at a point is also copied to its diagonal neighbour as soon as any other observation is inexact; `trip2grd3` is unreachable.
* C149 – `lvhsgs` (spherical_harmonics.py:498) is shorter than `vhsgsi` requires (vhsgs.f90:783) when nlat > nlon/2+2, so such Gaussian stored grids cannot be built; the regular stored 0.1° grid overflows a C int. C150 – `py_vhaesdiv` (_spherepack_module.c:1099-1144) passes a work length for 24 slices whatever the number of slices, so `getdivspec`, `divergence`, `velocitypotential`, `irrotationalcomponent` raise for more than 24 slices on regular stored grids.
* C151/C152 – vector transforms never use modes of degree nlat-1 with even order (nor order nlon/2), so at the default truncation a pure mode of degree nlat-1 gives a zero wind/gradient. C153 – consequence of C150. C156/C162/C163 – `grdtospec` passes arrays with nlat rows of coefficients of which the analysis fills min(nlat, nlon/2+1): for larger truncations uninitialised memory is returned. C157 – `planetaryvorticity` uses cell-centre latitudes on regular grids with even nlat, the transforms always pole-to-pole rows (sphcom.f90:306, 636, 1110). C158 – on regular grids scalar synthesis at the default truncation is not injective. C160 – assigning `vw.u`/`vw.v` after the first analysis leaves the cached layout, so `vrtdiv` is stale while `magnitude` is new. C161 – `regrid(..., smooth)` with ntrunc ≥ grdout.nlat reads the weights out of bounds before the synthesis refuses.
* Not stated as theorems: shaes.f90:269 tests `mdo == mmax .and. mp2 <= ndo` where the sibling routines test the opposite; Gaussian scalar transforms with no slices raise error 4 where regular ones accept; (2nt+1)·nlat·nlon ≥ 2^31 raises.
* C164/C168 – `rcm2rgrid` looks for cells (ix, ix+2) × (iy, iy+2) (k=2 in rcm2rgrid.f90), so the four points used are not the surrounding ones and grids two points wide or high are never interpolated; in the fast path (increasing first row/column) a target that coincides with a source point of a sheared grid can miss it. C166/C172 – `rcm2points` never refuses non-monotonic sources (dmonoinc is called with swapped arguments and the latitude test is repeated instead of testing longitudes) and its fallback compares a radius in degrees with kilometres, so it extrapolates although 'no extrapolation is performed'. C169 – `rgrid2rcm` is documented as inverse distance weighting but is bilinear on complete cells, and targets on the last longitude or latitude are missing although inside the range. C171 – the caller's NaNs become 1.797e308 after `rcm2rgrid`/`rgrid2rcm`; an element equal to 1.797e308 is treated as missing, and `rcm2points` turns it into NaN in the caller's array. C176 – documented multi-dimensional fields other than 3-D are refused; `rcm2points` with opt≠2 divides by zero when a valid corner is at angle zero without equal coordinates. dlinmsg with mflag<0 fills trailing gaps of any length but leading ones only up to mptcrt.
* C178/C181 – the documented operators differ from the compiled ones: the barotropic kernel discretises d/dy(psi'/cos phi) instead of psi'', the baroclinic A(k) multiplies psi by the p-derivative of N^-1 dU/dp where the docstring has (dU/dp) N^-1 d/dp. Latitudes beyond the poles are not refused. C182 – a stable column raises RuntimeError (status 300) instead of giving 0; solver_levels=2 is accepted and always raises status 1; five to seven longitudes in low mode always raise. C187 – one failing profile makes a batch raise although unusable profiles are documented as NaN; a missing WMO tropopause raises in the one-profile call but is NaN in a batch; a tropopause pressure <= 0 is refused only in a batch. C185 – values up to 2000 are read as hPa: wrong for Pa values below 20 hPa; in a batch the decision is made for the whole vector, in the one-profile call per value. C188 – a NumPy section (level, lat) with lat_bounds and lat is refused. C189 – fewer than three latitudes raise RuntimeError (none: IndexError) instead of NaN.
* C193/C196/C197/C200 (potential intensity) – failures of CAPE return the sea-level pressure and wind 0 instead of NaN; the three-dimensional flag is that of the last point over warm water, the value of a failing four-dimensional flag depends on the thread schedule; a missing sea-level pressure gives a minimum pressure of -9.99e31 mb; a missing level between known ones gives (psl/100, 0) with flag 2, and in the profile call a missing lowest level gives (psl/100, 0) with flag 0 although the gridded call leaves it out; outflow_source changes max_wind; the CKCD given does not change max_wind (always 0.9); CKCD <= 0 is replaced by 0.9 only in the three-dimensional routine without missing values; the Fortran comments speak of 0.2 mb and 250 iterations, the code uses 0.5 mb and 200; the 400 mb guard is on the central pressure, min_pressure itself may be lower.
* C201 (partial Mann-Kendall) – a grid point with fewer than three joint samples reports n = 0, n_dropped = T, the 1-D test the true counts; a negative chunk_size is accepted and returns a grid of NaNs.
* C208/C211/C213/C216 (reduced Gaussian) – a row of exactly 2m points gets half of wave m, a shorter row none; on a symmetric grid whose rows get shorter towards the equator the wind analyses read Fourier coefficients that were never written (uninitialised or left by an earlier call); auto precision returns single precision for double-precision input in grdtospec, spectogrd, getuv and specsmooth.
gridfill.xarray.fill ignores x_dim when y_dim is not given and conversely (C229_false).
gridfill.xarray.fill does not recognise a global grid with spacing of 10 degrees or more as cyclic unless it straddles a tolerance (C230_false).
validate_grid_coverage averages over all but the first extra dimension: an entirely empty 2-D slice of a 4-D array may go unreported (C231_empty_slice_unnoticed).
troposphere.xarray.trop_wmo takes the dimensions year and yr for latitudes (substring test), so a (year, level, lat) section is refused (C233_false).
troposphere.xarray.trop_wmo: level_index refers to the sorted levels, not to the input array as its description says (C234_false).
troposphere.xarray.trop_wmo without pressure detects the level dimension even when levdim is given, and raises when it does not know the name (C235_false).
troposphere.xarray.trop_wmo silently drops the last levels of the temperature when the pressure has fewer values and is not in increasing order (C236_false).
windspharm.xarray.VectorWind turns winds without a latitude coordinate upside down but not their labels (C238_labels_false).
windspharm.xarray.VectorWind never reads longitude labels: longitudes going westwards or starting elsewhere give wrong signs or shifted phases (C240_longitudes_false).
windspharm.xarray.VectorWind.gradient and truncate accept fields on other latitudes than the wind and differentiate as if they were on its grid (C242_latitudes_false).
windspharm.xarray.VectorWind raises IndexError for winds on a single latitude (C241).
GPI.xarray.potential_intensity does not align sst and psl with the temperature by dimension name: surface fields stored (lon, lat) are paired with the wrong columns when both sizes agree (C244_surface_false).
GPI.xarray.potential_intensity moves the time of 4-D arrays first for the computation but labels the results in the original order: with (lat, time, level, lon) the values end up under wrong labels, or the call is refused when the sizes differ (C244_time_false).
GPI.xarray: a time dimension called year or yr is taken for the latitude and refused although both names are listed (C245_false).
plot scatter(placement='cells'): scatter_engine.py:291 reshapes the transformed corners as (4, n, 2) although they are stored (n, 4, 2); with two or more selected cells the lattice of a cell is sized by corners of other cells (C252_false).
plot scatter: a single RGBA colour (edgecolors, facecolors) is cut when the number of candidates or selected points happens to be four (C256_false).
plot arrow_contour: an arrow whose tip and tail coincide (a line through one point twice) is skipped, but its row stays in the returned arrays uninitialised (C261_false).
plot arrow_contour: arrow_max_length is documented as the maximum side length but bounds tail to tip only, and not below 4 points (C263_false).
plot curly vectors: ref_magnitude not above the weakest vector with min_frac_length and without ref_length makes weaker vectors longer than stronger ones (C264_false).
plot curly vectors: the reference key of a magnitude beyond the strongest vector is drawn as long as the longest glyph, so it misstates the scale (C267_false).
plot curly vectors: a start point exactly on a node next to a missing node has no value although its weight on the missing node is 0 (C269_false).
plot curly vectors: traces can be longer than the requested length by up to half a step (C273_false), and in a uniform wind the second-order correction can move the last vertex back upwind (C274_false), after which the glyph is rejected as tortuous and may never be drawn (C276_false).
* C325: `regrid_dataset` truncates regridded integer variables (`output_dtypes=[var.dtype]`). C327: `regrid_dataset(..., lon_dim=, lat_dim=)` fails for unconventional names because `Grid.from_dataset` detects the names again.
* C335: `gradient_fill_between(edge_mode="y1")` paints a column in the low colour throughout where y1 > y2 (negative thickness replaced by the machine epsilon), although the mode is documented for crossing curves.

## 5. Modelled / not modelled

Modelled (line by line, see the comment of each definition):

* `calc/mann_kendall/fortran/mann_kendall_core.f90` (scores, sorting, selection, slopes, ties, ranks, grouped and partial kernels);
  `core.py`, `variants.py`, `regression.py` (drivers, dispatch, p-values, chunking).
* `spharm/src/{onedtotwod,twodtooned,lap,invlap,multsmoothfact,…}.f90` (spectral packing and scaling, `specintrp`).
* `gridfill/_gridfill.pyx`; `windspharm/tools.py`, `windspharm/_common.py` (layout, ordering, grid type).
* `interp/regrid_module.c`, `interp/regridding.py` (bilinear, conservative, nearest).
* `interp/interpolation.py`, `interp/fortran/vinth2p_kernels.f90` (hybrid/sigma/pressure-1d/isentropic), `interp/missing_values.py`.
* `gradients.py`; `calc/emergent_constraints.py`.
* `calc/troposphere/core.py`, `fortran/{stattrop_dp,stndAtmUS76_dp,tropopause_height}`, argument checks of the C binding.
* `calc/geostrophic/core.py`, `fortran/z2geouv.f90`, argument checks of the C binding, name detection of `xarray.py`.
* `calc/calculations.py` (except the SciPy/MetPy wrappers `spearman_correlation`, `kendall_correlation`, `pearson_correlation`, `calculate_theta_se`);
  `causality.py`: `liang`, the numbers of `liang_causality`, `phaseran` (not: ARIMA fit, AR(1) simulation, quantiles, Granger wrapper).
* `ROF/{utils,preprocess,model,trend}.py` (not: p-values from SciPy distributions, random draws of `calculate_uncertainty`, printing, pandas).
* `calc/dcape/core.py`, `dcape_core_module.c`, `fortran/dcape.f90` in full, over the reals (not: coordinates and attributes of the xarray result; expressions where an IEEE infinity is absorbed again).
* interp/triple_to_grid.py, grid2triple_module.c, triple2grid_module.c, fortran/grid2triple.f90, fortran/triple2grid.f90 (Triple/*): everything but `trip2grd3` (unreachable), dask, xarray metadata and float32; coordinates of observations are finite.
* Sphere: `spharm/spherical_harmonics.py` (workspace lengths of construction and transforms), `_spherepack_module.c` argument conversion, and the length tests of the SPHEREPACK entry points (Sphere/Lengths). Overflow inside the Fortran length arithmetic is not modelled.
* Sphere: `Spharmt` methods (grdtospec, spectogrd, getvrtdivspec, getuv, getgrad, getpsichi, specsmooth, regrid, …) and `windspharm/standard.py` `VectorWind` in full with its caches. SPHEREPACK syntheses are modelled as the series they document over exactly the modes their loops visit (vhses/vhsec/vhsgs/vhsgc, shses/…); analyses are parameters of the instance with the stated contract (Spec.Exact / Spec.Agree), not modelled loop by loop.
* `Rcm`: interp/rcm2rgrid.py, rcm2points.py, their C bindings, fortran/rcm2rgrid.f90, rcm2points.f90, rcm_geodesy.f90, linmsg_dp.f90, dmonoinc of linint2.f90: every branch; reals for doubles, NaN as none, the largest float64 as its exact value; arcsin/arccos/trigonometry from Mathlib.
* `Growth`: calc/growth_rate/core.py and fortran/growth_rate_kernels.f90: every branch for NumPy input (xarray input not modelled); the LAPACK eigenvalue solver is a parameter with the contract Spec.Exact (all eigenvalues of a regular pencil; an instance is constructed); interp_pressure_1d and trop_wmo are the models of the Interp and Trop areas.
* `Gpi`: calc/GPI/core.py and fortran/tropical_cyclone_potential_intensity.f90: every routine and every branch for NumPy input of one, three and four dimensions (xarray.py: see Gpi/Xr); OpenMP loops as an arbitrary order of the points; NaN as none in Python and as the sentinel in Fortran.
* `MK/PartialPy*`: calc/mann_kendall/partial.py, every function; method names already validated, attributes and coordinates of the xarray result not modelled.
* `RedGauss`: spharm/reduced_gaussian.py (every method) and src/reduced_gaussian_scalar.f90 (every routine), reduced_bindings.f90 as the identity. Parallel loops: arbitrary order of the iterations, each thread's private buffers with arbitrary contents at the start of an iteration; a failing allocation is not modelled. hrfft, gaqd and legin are parameters with contracts (Lib.Sound).
* `RedWind`: windspharm/reduced.py (every method), on top of `RedGauss`. Arrays handed out are copies in the code, values in the model; a masked integer field, whose `filled(nan)` raises, is not modelled.
* `Gridfill/Xr*`: gridfill/xarray.py. Not modelled: printing, message texts, coordinate values that are not numbers, masked DataArray values (not possible in xarray).
* `Trop/Xr*`: calc/troposphere/xarray.py. Not modelled: attributes, NaN, the values of a pressure of several dimensions (refused by the compiled routine), printing.
* `WindXr/*`: windspharm/xarray.py class VectorWind with its helpers and _common.inspect_gridtype. Not modelled: memory sharing of the input arrays, non-dimension coordinates, dtype, coordinate values that are not numbers.
* `Gpi/Xr*`: calc/GPI/xarray.py. Not modelled: warnings, attributes of the results, number types, units that are not strings.
* `Plot/Thin, Cells, Lattice, Scatter`: plot/nclcurly_core thinning and cell candidates, plot/_core/scatter_engine.py, parts of plot/_shared/coords.py. Not modelled: Matplotlib (a transform is an arbitrary function to optional points), DataArray transposition, integer overflow of the bucket numbers, array densities.
* `Plot/Contour, ContourArrows, ContourDraw`: plot/contour_core/_contour_core.c, plot/_core/contour_arrows.py:80-101 and 283-392. Not modelled: the unused Python fallback, colours and line styles, the way back to data coordinates, failed allocations, rounding.
* `Plot/Length`: plot/_core/vector_engine.py:52-200, 799-826; result.py:79-96; vector_key_artist.py:405-417. Not modelled: the layout of the key, the fallbacks of the key without a curly-vector set.
* `Plot/Sample`, `Plot/Trace`, `Plot/Curve`: plot/nclcurly_core/_ncl_curly_core.c:291-565, 785-1395, 2509-2705; vector.py:636-646, 705-795; vector_engine.py:584-661. Not modelled: the pure-Python fallbacks, failed allocations, rounding, overflow to infinities.
* `Plot/Head`, `Plot/HeadBatch`: plot/nclcurly_core/_ncl_curly_core.c:104-286, 2711-3080; _artists/vector_artists.py:8-229; _shared/style.py:40-58; vector_engine.py:835-838, 947-954. Not modelled: failing inverse transforms, non-finite head sizes, the Matplotlib collections.
* `Plot/CellValid`: plot/nclcurly_core/_ncl_curly_core.c:1404-1587; `qsort` by its contract. Not modelled: overflow of `hypot`.
* `Plot/Centers`: plot/_core/vector_engine.py:203-262, 368-492; thinning.py:23-40; geometry.py:182-186. Not modelled: coordinates as tables, the fallback without a display sampler.
* `Plot/Glyphs`, `Plot/Uniform`: plot/_core/vector_engine.py:22-30, 265-277, 666-1010; thinning.py:112-132. Not modelled: colour maps and artists, baked geometry, the fallback when no node has a display position, shape checks, errors for unknown anchor and direction names.
* `Plot/Prepare`, `Plot/Longitude`, `Plot/Uneven`: plot/_shared/coords.py:150-160, 298-378; plot/_adapters/grid_prepare.py:107-196, dataset_vector.py:68-178, cartopy_vector.py:64-144; plot/vector.py:149-175, 217-306, 476-545; SciPy's `RegularGridInterpolator` as linear interpolation. Not modelled: coordinates as tables, NaN coordinates, shape checks, curvilinear regridding, construction of the target grid, the reference magnitude from percentiles.
* `Interp/Multi`, `Interp/MultiProps`: interp/interpolation.py:1085-1163, 2362-2485; xarray's `DataArray.interp` (sorted axes, one after the other; its cut to the range of the targets not modelled) and SciPy's `interp1d` for linear and nearest. Not modelled: metadata, coordinates that are not numbers, axes of one node, other methods.
* `Sphere/TrigPoly`, `Sphere/LegFunc`, `Sphere/LegFuncProps`, `Sphere/PointValue`: spharm/spherical_harmonics.py:1850-1911, _spherepack_module.c:118-138, 245-275, src/getlegfunc.f90, `alfk` and `lfpt` of src/alf.f90. Not modelled: negative orders (never called), two-dimensional coefficients in `specintrp`, the other routines of alf.f90 (not called by the package).
* `Sphere/Geodesic`, `Sphere/GeodesicProps`, `Sphere/GeodesicThms`: spharm/spherical_harmonics.py:1800-1847, src/ihgeod.f90, _spherepack_module.c:619-655. Single precision is not modelled.
* `Regrid/Dataset`, `Regrid/DatasetProps`, `Regrid/DatasetThms`: interp/regridding.py:69-165, 168-198, 212-325, 718-745. xarray's `apply_ufunc(vectorize=True, output_dtypes=...)`, `isel` and `Dataset(...)` as documented; coordinates with both horizontal dimensions, attributes and dask are not modelled.
* `Sphere/Gaqd`, `Sphere/GaqdThms`: spharm/src/gaqd.f90 (gaqd, cpdp, tpdp, kahan_sum; `dzeps` and `epsilon` as parameters), spherical_harmonics.py:1752-1775.
* `Plot/Gradient`, `Plot/GradientThms`: plot/plotting.py:123-134, 163-222, 294-331. Not modelled: dates, broadcasting, the resolution argument, the clipping path, Matplotlib.

Not modelled: floating-point rounding and overflow; 32-bit integer overflow; OpenMP scheduling (loops whose iterations are independent are
modelled sequentially); xarray/dask plumbing other than dimension order and names; attributes and metadata; NetCDF/GRIB conversion (`conversion/`);
plotting (`plot/`), the SPHEREPACK Legendre/FFT workers themselves, SciPy's distributions, SciPy/NumPy solvers.
