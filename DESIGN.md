# Formal model of ImpedanCEI/wakis in Lean 4 — design

## How to read this development

* `properties.jsonl` — the properties in English. `MANIFEST.json` — for each property the theorems and what they leave open.
  `AXIOMS.md` — the axioms of each of those theorems. `seeded/LOG.jsonl` — wrong programs the theorems were tested against.
* `lean/Verif/*.lean` — one file per topic. A file has a **Model** section (each definition cites the lines of /repo it models), a
  **Specification** section (the words the theorem statements use, independent of the model's helpers) and the theorems.
  Theorems named `Cnn_…` are the property theorems. `example`s beside them exhibit concrete cases that meet the hypotheses.
* Suffixes: `_partial` proves a part of the English property (what is missing is said in the comment and in the manifest);
  `_refuted` / `_fails` / `_unstable` prove that the full property is false of the model, with a concrete witness;
  `_actual` says what the code does instead.
* Where the English property is false of the code, its full statement is kept in properties.jsonl, the negation is proved, and the part
  that does hold is proved beside it. Those disagreements are listed below ("Where the code disagrees").

## Trusted base

1. **Lean 4.33.0 kernel** and, for definitions and lemmas used, **Mathlib** as installed (its theorems are checked by the same kernel).
   No `native_decide`, no `bv_decide`, no `sorry`, no axioms of our own.
2. **Axioms.** Every theorem depends on at most `propext`, `Classical.choice` and `Quot.sound`. AXIOMS.md lists them theorem by
   theorem (430 of the theorems use all three, mostly through Mathlib's real numbers, `Finset` sums and `simp`).
3. **The transcription.** The model was written by hand from the text of /repo; the code was never run. The tie is the file:line comment at every
   definition. Every simplification is said in that comment.
4. **Numbers.** float32/float64 are exact numbers: an arbitrary field, an ordered field, ℚ, ℝ or ℂ as stated in each file. Rounding,
   overflow, signed zero and dtype casts are not modelled. `inf` permittivity is inverse permittivity 0. `nan` and `inf` are modelled only in
   `Cond.lean` (return values of the intersection methods).
5. **Libraries**, modelled by the few operations used:
   * numpy: indexing and slicing (`Py.lean`), `ravel`/`reshape` in order 'F' and 'C', `diff`, `linspace`, `geomspace`, `argmin`, `unique`, `min` of an empty
     array raising `ValueError`, `interp`, `fft`/`ifft` as the finite Fourier sum, `savetxt`/`loadtxt` as exact storage of two columns;
   * scipy.sparse: `diags`, `hstack`, `vstack`, products (`SparseModel.lean`); scipy.optimize.least_squares: an arbitrary function within its bounds;
   * h5py: groups as key-sorted association lists, datasets as values; iteration in alphabetical order of keys;
   * mpi4py: blocking `Sendrecv` with FIFO queues per (source, destination, tag), arbitrary schedule and arbitrary buffering (`MpiSched.lean`);
     `gather`/`bcast` deliver in rank order;
   * pyvista/VTK: which points are in a solid is an input; cells are numbered with the first dimension fastest (C70); `point_data_to_cell_data`, transformations as linear maps;
   * json: which values can be written (C60);
   * CuPy: `asarray` and `.get()` copy values; arithmetic and assignment between a device array and a numpy array raise `TypeError`; numpy arrays have no `.get` (`FieldGpu.lean`).
6. **Python.** Exceptions are values (`Except`); a raised exception ends the call, and effects before it are part of the model where a theorem
   speaks about them. Aliasing of arrays is modelled where it matters (`FieldHeap.lean` for Field, `Emsolve.lean` for stored boundary layers).

## What is modelled, module by module

| module of /repo/wakis | modelled in | not modelled |
|---|---|---|
| field.py | FieldModel, FieldSet (assignment of values of any shape), FieldArith, FieldHeap, FieldGpu, Plots3 (`inspect`), Plots5 (scalars of `inspect3D`), Inspect3 (`inspect3D`) | `__div__` (never called by Python 3), figures, colour maps, cameras, dtype |
| gridFIT3D.py | GridModel, GridInit, GridIO, StlMask, StlTransform, Refine, SnapPoints, Views3 (plot_solids, plot_stl_mask, inspect) | camera, light, outlines, logo; the STL reader; the edge extraction of snap points (its output is an input) |
| solverFIT3D.py | SparseModel, SolverModel, MaterialModel, Lifecycle, GpuUpdate, Emsolve, MpiModel, MpiGather | GPU arrays except the time step (FieldGpu: places of the arrays, CuPy's rules as stated there) and the copies of `get_abc`; `_one_step_mkl` and `_mpi_one_step_mkl` (402-424, 462-488): same statements as `_one_step`/`_mpi_one_step` with `dot_product_mkl(A, x)` for `A*x`, so the theorems apply if that product is the matrix product; the background and field-specific printouts |
| routines.py | Emsolve, WakeRun, WakeEm, Planes and BothPlanes and RerunBoth (runs of both planes), SaveJ and SaveJMpi (`save_J`), MpiWake, MpiIndex, MpiSolve, MpiMonitor, MpiHang and LongHang (wake runs on several ranks), AbcFirst, AbcGrow, PlotRun (pictures during a run, `get_plotting_kwargs`) | progress bars |
| sources.py | SourceModel, BeamCharge (the charge the beam leaves in the fields), BeamLoss (its work), SourcePlots (`plot`), MpiSources, MpiSources2 | labels and colours of the figures; scalars as times of `plot` |
| materials.py, materials colours | MaterialModel, StlMask, Geometry | — |
| geometry.py | Geometry, StepLines (the regular expressions, on characters) | `int` of signs and underscores, `float` of the colour texts, digits and blanks beyond ASCII; gmsh/cadquery conversion |
| wakeSolver.py | WakeModel, WakeModel2, WakeNames, WakeRun, ImpWake, ChargeDist, ResultFiles, CstImport, WakeBlock, WakeCopy (`copy`), WakeFit (the calls of iddefix 861-1160) | what iddefix computes, plotting |
| field_monitors.py | WakeModel2, WakeRun, MonitorWave | — |
| logger.py | Logger, RunLog (`update_logger`, `assign_logs`, the end of `wakesolve`) | formatting of the banner |
| conductors.py, conductors3d.py | Cond | — |
| grid2D.py, grid3D.py | Edges, Areas, Extend, Grid3 | `_compute_extensions_four_cells` of grid2D.py is dead code: its only call (303-316) is inside a string literal |
| solver2D.py, pmlBlock2D.py | Fdtd2, Ect2, PmlLayout2, PmlMono2 | plotting helpers |
| solver3D.py, pmlBlock3D.py | Fdtd3, PmlLayout3, PmlMono3 | plotting helpers |
| plotting.py | Plots (plot2D, plot1D: which numbers are drawn where), Plots5 (plot3D, plot3DonSTL: what is in each picture), Views3 (`inspect`) | figures, colours, fonts, cameras, lights, widgets, what a clip cuts away, STL patches, rounding in titles, files |

## Where the code disagrees with the English property (each proved, theorem in brackets)

Fields and grids
* `compute_ijk` accepts `n = N` and negative `n` [C03_full_claim_false]; flat keys above `N` are refused, `N` reads the y component [C04_refuses_valid].
* A single MPI rank gets a ghost layer beyond zmax [C12_single_rank_exceeds]. Non-root ranks get a zero field instead of None from gathers.
* A product of a field on the GPU is not marked `on_gpu`: reading it returns device arrays and `from_gpu` leaves it there [C124_product_refuted]; a sum with a field on the GPU raises `TypeError` [C124_sum_refuted];
  after E, H or J is moved off the GPU the next step raises [C124_moved_refuted].
* With `use_gpu=True`, `update_tensors` raises `TypeError` for 'ieps', 'sigma' and 'all' (scipy's `diags` of a device array), and for other names puts host matrices in place of the device ones, after which every
  step raises [C36_gpu_refuted].
* Reloaded grids list solids alphabetically, so overlaps can change material [C14]. A colour string or a single material is not broadcast [C15].
* Mesh refinement: 'insert' gives fewer cells, 'neighbor' can drop snap points, 'subdivision' always raises [C76]. Lists as axes, user snap points and
  `verbose=2` raise; the refined z axis is discarded under MPI [C77]; a gathered grid loses refined x, y axes [C78]. STL masks depend on the unit [C79].
* Only feature points in the planes x = 0, y = 0, z = 0 become snap points: a geometry moved away from them is refined as if it were empty [C136_moved_refuted]; they are rounded to 10 µm [C136_small_refuted];
  `plot_snap_points()` shows all solids, not those used [C136_default_refuted].

Solver
* Tangential E is not kept at zero on edges where a PEC face meets a face written later [C24_refuted]; 'PMC' is recognised only in some spellings and PMC anywhere freezes H on PEC faces [C26];
  periodic faces do not wrap around [C27_refuted] and can, like open faces, be unstable below the CFL limit on non-uniform grids [C20_periodic_unstable, C20_open_refuted]; absorbing faces in `emsolve` make the field grow without bound, below the CFL limit and on a uniform grid [C20_abc_refuted]; building a solver with periodic or high ABC faces edits the grid [C37].
* What is written into the last layers (H across the axis, E along it) before the first step is cleared by this step, written later it stays: a source there cannot be delayed [C126_last_layer_refuted].
* Without electric or magnetic faces a uniform field is not static: the curl takes zero beyond the last cells [C127_periodic_refuted].
* A current assigned once stays for ever, unless a PML face or a conductive material is anywhere in the domain: then it is gone after one step, also far away [C128_current_refuted].
* With open faces the axes are not alike: the curl joins the end of each x row to the start of the next, which has no counterpart in z [C119_open_refuted].
* PML layers on two axes depend on the names of the axes: in the edge where the layers of the low x and low y faces overlap, the y layer overwrites the x layer, so the conductivity there follows the distance from the y face; exchange x and y and it follows the distance from the other one [C119_pml_refuted].
* `Beam.plot` shows the values from 0 upwards: the current of a bunch of negative charge is outside the picture [C133_negative_refuted].
* The log of a wake run states the time step before it is limited by the relaxation times (solverFIT3D.py:274, 284) [C134_dt_refuted]; parameters as given to the constructor of the wake solver, not those assigned since, nor `add_space` [C134_assigned_refuted, C134_skip_refuted]; `save_logs(folder)` moves all later logs [C134_folder_refuted]; solvers that share a wake solver overwrite each other's entries [C134_shared_refuted].
* `wakesolve(plot=True)` with its default `plot_func` raises `TypeError` at the first picture (`PlotMixin.plot2D` is called without `self`, routines.py:430) [C135_default_refuted]; functions with other names raise `UnboundLocalError` before the first step [C135_own_refuted]; the step `plot_from` is not drawn [C135_from_refuted]. `emsolve(plot=True, plot3d=True)` raises `TypeError`: `plot2D` gets the keywords of `plot3D` [C135_both_refuted].
* `WavePacket.plot` raises `TypeError` before the first update if `sigmaz` was not given, although the class has a default for it [C133_packet_refuted].
* A magnetic symmetry plane cannot be replaced by a `pmc` face of half the model: a `pmc` face freezes H in the cells at the electric walls as well (C26) [C123_magnetic_refuted].
* The mirror image of a model does not have mirrored fields on graded axes (shifted dual lengths) [C120_graded_refuted] or with solids: transverse E at a node has the material of the cell on its high side [C120_solids_refuted].
* On non-uniform meshes the dual lengths are shifted by one cell, so Ampère's law is wrong by the grading ratio [C75].
* In a closed box the high electric walls stand one cell before xmax, ymax, zmax: the error against the requested box is of first order [C106_high_walls_refuted].
* For the same reason a closed box rings too high: its lowest resonance by a fraction of at least 1/(2N) for N cells a side [C110_requested_box_refuted].
* A source placed in a conducting edge replaces the conduction current of that edge (`J` is one array for both), so reciprocity fails there [C111_conductor_refuted].
* The conductivity of PML layers is fixed in S/m whatever the cell size, so scaled models with PML are not similar [C115_pml_refuted].
* A solid without conductivity does not clear the conductivity of an earlier solid [C29_refuted]; conductivity switched on by an explicit zero raises `ValueError` [C61].
* With conductivity, cfln close to 1 is unstable [C81_high_cfl_unstable]. MPI ranks can use different time steps [C32_refuted] and PML on z differs from the serial run with three or more ranks [C34_pml_refuted]; so do PMC [C34_pmc_refuted] and periodic [C34_periodic_refuted] z faces. With PEC on all faces the runs still differ if a source drives tangential E on a transverse wall in a layer next to a rank boundary [C34_driven_refuted].
  Transverse boundary names other than PEC are kept only on the first (low) or last (high) rank [C99_open_refuted, C99_high_refuted, C99_pml_refuted]. A rank whose slab has no conducting cell cannot be built when some solid conducts [C100_refuted].
* `wakesolve` never applies 'abc' boundaries: low 'abc' faces act like 'open' [C107]; it does not clear the fields, so a second run starts with what the first left [C108].
* `mpi_gather` tests `type(x) is int`, but the cell numbers of the test particle are numpy integers: a longitudinal wake run under MPI fails with `AttributeError` at its first frame [C13_numpy_refuted, C146_longitudinal_refuted]. Runs of both planes use slices and are not concerned [C146_both_typed_partial].
* Under MPI each rank computes its number of steps from its own time step; when these differ (C32_refuted) a wake run never ends: the rank with more steps waits for its neighbour for ever [C146_ends, C146_steps_refuted].
* Under MPI `wakesolve(save_J=True)` binds the file of J on rank 0 only: all other ranks fail in the first pass, rank 0 waits for them for ever [C147_mpi_refuted].
* With open faces the curl matrix couples the last cell of a row with the first cell of the next row: a field on one face acts on the opposite face one step later [C109].
* ABC on the CPU reads the live layer (views); high faces store their own layer; two ABC faces on one axis raise KeyError [C38].
* PML: where layers meet the later face overwrites; the low-side reference cell is one off [C31].
* Checkpoints lose the first-step flag [C35]; tensor edits after the first step need `update_tensors` and conductivity edits may be ignored [C36]; `emsolve(save=True)` raises TypeError [C40].

Sources and wakes
* Injection time differs between beam and wake for β ≠ 1 and for user-given times [C43]; delayed Harris pulses are non-zero before their start and default pulses are zero [C45];
  wave packet profile transposed or failing on non-square grids [C62]; a wave given by nodes alone cannot be built [C63]; plane wave H/E ratio wrong [C64]; localized sources use rank-local indices, so every layer other than layer 0 drives the wrong global layer on some rank [C82].
* Default bounds of the resonator fit are computed from no data [C102_bounds_refuted] and extrapolated wakes assume the speed of light [C102_beta_refuted]; `solve(beta=…)` has no effect, `solve(sigmaz=…)` keeps
  derived values, the wake length of the first recording sticks, an unknown plane is silently ignored [C103]; for slower beams the analytic charge distribution is displaced from the bunch [C104_slow_refuted].
* From a recording of a block of columns, the longitudinal wake is taken one cell beyond the test column (`shape//2 + 1` in wakeSolver.py:375, `shape//2` elsewhere), and the calculation fails if the block is a single column [C47_block_refuted, C47_single_refuted].
* `skip_cells` and MPI recordings make the wake calculation fail [C47]; the wake map accumulates over cells [C48_refuted]; more than 100000 frames are out of order [C49]; Panofsky–Wenzel divides by the wrong distance on non-uniform
  grids [C50]; samples beyond the transform are dropped [C51]; the charge distribution is cached [C52]; WPy.txt holds WPx [C53]; counter-moving particles are weighted with mirror cells [C66]; a failed calculation leaves the old file open [C67];
  the field monitor is one step off in phase [C68]; wake-from-impedance reverses time [C74].
* Wave packets are centred at x = y = 0 wherever the grid is [C116_wave_packet_refuted]; in runs of both planes the wakes of all recorded cells but the first depend on the bunch charge [C117_both_refuted].

Pictures
* plot2D with `pos=1`, and plot1D with position 1, raise IndexError [C113_end_refuted, C114_end_refuted]; on non-uniform grids plot2D draws all cells with equal size, so points show the values of other cells [C113_graded_refuted];
  cuts given by indices are drawn between the outermost cell centres instead of faces [C113_indices_refuted], and with several processes fail for layers that rank 0 does not hold [C113_mpi_indices_refuted]; plot1D fails for more
  than seven positions [C114_eight_refuted] and for "EAbs" [C114_abs_refuted]; `Field.inspect` takes the colour range from the largest value, not the largest magnitude [C113_inspect_range_refuted].
* plot3D with a list of `show_solids` uses the loop variable of another loop: UnboundLocalError without other lists [C125_show_refuted], and with one solid to hide in a list only the last of the solids is shown [C125_show_last_refuted];
  an off-screen call that fails leaves `plotter_active` set, and every later off-screen picture raises AttributeError [C125_stuck_refuted]; without clips nothing of the field is drawn [C125_neither_refuted]; plot3DonSTL with two or more
  surfaces leaves all but the last in the following pictures [C125_stale_refuted], and without a surface raises UnboundLocalError after writing the file [C125_no_surface_refuted].
* plot_stl_mask: solids given as a list are always white (`type(stl_colors[key]) is dict`) [C129_list_refuted]; one colour or a list of colours is ignored or raises TypeError [C129_colors_refuted]; a solid called `clip`,
  `slice` or `domain_box` is replaced by the routine's own mesh of that name [C129_name_refuted]. The grid's inspect shows no solid by default although all are documented [C130_default_refuted]; with one colour or a list a single
  solid never appears, because the callback fails [C130_colors_refuted]. The solver's inspect: the master box does not follow the other boxes [C131_master_refuted]; a solid called `beam` or `integration_path` is not drawn with a
  wake [C131_name_refuted]; without STL solids, or with one colour for all, it raises AttributeError [C131_setup_refuted]. plot_solids raises KeyError for a solid without colour and TypeError for a grid made with one colour
  [C132_missing_refuted]; with an opacity below 0.3 vacuum is the least transparent [C132_vacuum_refuted].

Import, files, log
* CST import needs equal x and y counts [C56]; STEP prefixes other than kilo, deci, centi, milli give scale 1 [C58]; 'lossy metal' is not recognised [C71]; a charge distribution given as a dictionary raises [C72]; text export fails for names
  without brackets [C69]; the log fails on complex arrays and tuple keys [C60].

Conformal FDTD (grid2D/3D, solver2D/3D, pmlBlock*)
* InCircle swaps its centre coordinates, spheres negate the centre in the second candidate, `InSphere.out_conductor` recurses for ever, `ImpFunc` is neither in nor out on its zero set, `Plane` with tolerance is offset and divides by zero for m = 0,
  3D `Plane`/`noConductor` return 1000 [C83]. Features smaller than a cell give wrong edges [C84]. Grid3D takes dz from the extent along y [C85].
* The area is a fraction of a cell but the stability bound is physical: marks are wrong unless dx·dy = 1 [C87]; the reduced areas start at zero, so a grid with an unstable cell cannot be built [C88]; the conformal ('DM') step has the wrong
  wave speed for the same reason [C90, C95]; `sol_type='ECT'` raises AttributeError in three dimensions [C95].
* 2D layers: corner blocks under swapped conditions, wrong N_tot_y [C92]; high-x conductivity uses dy, DM seams use dy for Ey, a current on a seam splits the two copies of E [C93].
* 3D layers: edge blocks at high y along z have the wrong count, high-z corners are filled under the low-z condition, maxima use dy [C96]; 'DM' ignores the layers, seam currents split the copies [C97].
* `inspect3D`: windows on the same grid share the cell data, so the window of E shows H after H was inspected and a slider moved [C138_shared_refuted]; in Matplotlib, limits that are not whole numbers of cells raise ValueError although "int or float" is documented, "abs" gives an empty figure, and a field that is zero has the colour of the lowest value [C139_limit_refuted, C139_abs_refuted, C139_zero_refuted].
* STEP files: nothing is found in a file with a blank after `=` [C140_blank_refuted], of a statement on two lines [C140_wrapped_refuted], of a shape with an apostrophe in its name [C140_quote_refuted], of a colour with a name or an exponent [C140_colour_refuted]; solids are then missing without an error, and colours shift or raise IndexError (C57).
* A matrix of another shape with the same number of cells (axes in another order) is accepted by `field_x = ...` and `from_matrix` and scrambled [C141_shape_refuted].
* After a failed calculation a copy of a wake solver shares the open file: when the copy has calculated, the original raises ValueError for ever [C142_refuted].
* On a mesh graded across the beam the fields carry the charge of the bunch times (dual face / cross section of the beam's cell), at every time step: `Beam.update` divides by the cell's `dx*dy`, while the current acts on the dual face, half a cell further on [C143_graded, C143_graded_refuted]. Equal cells around the beam give the right charge [C143_charge_partial].
* The longitudinal wake of a run depends on whether the transverse plane is computed too: `calc_long_WP_3d` does not clear its accumulator between cells (C48), so the centre cell reports W₄ + W₃/Q + W₂/Q² + W₁/Q³ + W₀/Q⁴ (Q the charge in pC, W₀…W₃ the wakes of the four cells visited before), while `calc_long_WP` reports W₄ (`C145_wake_actual`, `C145_refuted`).
* A wake run of both planes on several ranks without skipped cells, the default, records every frame and then fails on rank 0 with an `IndexError` in `calc_long_WP_3d`, since `dz` is `np.diff(Z)` (routines.py:345), one entry less than there are cells: `C146_wake_refuted`. With `skip_cells >= 1` the last length is not used and the wakes are those of one process: `C146_wake_partial`.
* When rank 0 fails in the gather of a longitudinal run the other ranks are not told: rank 1 waits for it in the exchange of the first pass, rank `r` at the latest in that of pass `r`, for ever: `C146_stall_refuted` (events as in SaveJMpi; an uncaught exception ends only the process that raised it, as is so without `mpi4py.run`).

## Testing the theorems against wrong programs

`seeded/LOG.jsonl`, one line per attempt: the definition edited, the edit, the claim it breaks, the theorems that failed and those tightened
afterwards. The edits were made in a scratch copy outside /verif and the whole library rebuilt.

## Plan per property

* **C01 Field cell read after write** — Field as record (Nx,Ny,Nz, flat array); get/set mirror __getitem__/__setitem__ with Python index resolution. Refinement of write sequences to a map (i,j,k,c)->value by induction over the list of writes.
* **C02 Flat layout is a bijection** — Nat arithmetic on the index formula; bijection stated with an explicit inverse.
* **C03 compute_ijk inverts the lexicographic index** — Int floor division model of compute_ijk incl. guard n > N; full statement is false at n = N and for n < 0 (witness theorems), partial theorem for 0 <= n < N.
* **C04 Integer and slice keys address the flat array** — Int key model with guard key <= N; negation witnesses at N (reads y component) and N+1 (refused although valid); partial theorem on -3N <= n <= N.
* **C05 Unknown components are refused without side effect** — Error branches of get/set/from_matrix; unchanged state on error.
* **C06 Field arithmetic is componentwise and pure** — mul/add as total functions on Field; pointwise laws, distributivity.
* **C07 copy() is independent, toarray()/to_matrix() are live** — Small heap model: arrays at references; copy allocates, toarray/to_matrix return (reference, index map) views; invariant over op sequences.
* **C08 Field magnitude** — Real sqrt model.
* **C09 Cell lengths tile the domain** — Axis = node function; telescoping sum; linspace model.
* **C10 Inverse areas are exact inverses and never divide by zero** — Field division model over an ordered field.
* **C11 Dual lengths are midpoint distances** — Midpoint model with duplicated last midpoint.
* **C12 MPI z-partition covers the domain exactly once** — Nat arithmetic of _mpi_initialize; partition stated as exists-unique rank and local layer.
* **C13 Gather after distribution is the identity** — Scatter spec + gather model with the three branches; identity for all ghost contents.
* **C14 Saved grid reloads to the same material map** — h5 group = key-sorted association list; round-trip theorem for contents, witness that overlap order changes, partial theorem for disjoint masks.
* **C15 STL settings are broadcast to every solid** — _prepare_stl_dicts as decision function; witness for the colour-string case.
* **C16 The curl operator is the documented finite-difference stencil** — Sparse matrices as Nat->Nat->K with diags/hstack/vstack; mulVec lemma giving the stencil.
* **C17 Magnetic flux stays divergence-free** — P matrices are polynomials in one nilpotent shift, hence commute; div*curl = 0; induction over steps.
* **C18 Electric charge continuity** — Same with transposes, local statement at a node.
* **C19 Lossless discrete energy is conserved exactly** — Summation by parts through the transpose; induction over steps.
* **C20 CFL time step gives stable runs** — Energy lower bound from Cauchy-Schwarz on the stencil and the dt formula over the reals.  On uniform grids the flat arrays are a part of a long periodic line, on which curl and divergence together are bounded: every boundary name is stable.  The copy onto absorbing faces that `emsolve` makes after each step is not part of that scheme: a two-dimensional space of fields invariant under step and copy, with determinant 21/20, shows growth (AbcGrow).
* **C21 Superposition** — Linearity of step, induction over histories.
* **C22 Quiescence and reset** — Direct + induction.
* **C23 Fields inside PEC material never change** — ieps = 0 kills the update; induction.
* **C24 Tangential E vanishes on PEC faces** — BC mask model with the code's write order; witness that the mask is reset on edges; partial theorem with the exact condition.
* **C25 No coupling across opposite PEC faces** — Stencil lemma + mask lemma.
* **C26 Tangential H vanishes on PMC faces** — PMC branch with the carried-over flags and the case-sensitive compare; witnesses; partial.
* **C27 Periodic faces wrap around** — Witness that z-periodic does not couple and x-periodic shifts by one row; exact description of what it does.
* **C28 Boundary names are case-insensitive** — Model over strings; witness for 'PMC'; partial for all other names.
* **C29 Last solid wins in overlapping materials** — Fold over solids; ieps/imu proved, sigma witness + partial.
* **C30 Time step respects both limits** — min over masked cells as in code incl. the empty-mask exception.
* **C31 PML layers carry the graded conductivity** — Sequential overwrite model over the six faces; profile as abstract function with geomspace hypotheses; witness on the asymmetric reference layer.
* **C32 All MPI ranks use the same dt** — Per-rank dt model; witness; partial (no conductivity).
* **C33 Halo exchange is deadlock-free and schedule-independent** — Small-step semantics of n processes with rendezvous Sendrecv; progress, termination and confluence for all n.
* **C34 Distributed run equals serial run** — Flat-index refinement of rank-local arrays to the global array; induction over steps.
* **C35 Checkpoint and resume** — State machine with step_0; file contents as value; witness for fresh solver; partial for started solver.
* **C36 update_tensors at any point of a run** — Lifecycle state machine with attribute deletion; witness AttributeError after first step.
* **C37 Building a solver does not change the grid** — Grid object carried through construction; witness; partial for PEC/PMC/PML.
* **C38 ABC boundary uses the delayed inner layer** — View/copy model of get_abc on CPU/GPU; witnesses; exact CPU behaviour; partial on GPU.
* **C39 emsolve event order and composition** — Trace semantics of emsolve loop; composition theorem.
* **C40 emsolve saving** — Error model of the save branch; negation for every non-empty field list.
* **C41 Sources write only their own cells** — Frame theorems of each update function.
* **C42 Beam current carries the bunch charge** — Formula over reals.
* **C43 Beam and wake agree on the injection time** — Formula; witness for beta<1 and user ti; partial beta=1 default.
* **C44 Transverse positions snap to the nearest cell** — argmin model on lists.
* **C45 Pulse shapes are bounded and supported on the pulse duration** — Harris = ((1-cos)/2)^3; witnesses for t<0 and default L.
* **C46 Wake integration uses only recorded samples** — Floor arithmetic over a linear ordered field.
* **C47 Longitudinal wake potential is the line integral** — Sum model and linearity.
* **C48 Wake map cells are independent** — Loop model with the carried accumulator; witness + exact formula.
* **C49 Recorded frames are read in chronological order** — Lexicographic order on digit strings; partial for < 100000 frames; witness beyond.
* **C50 Transverse wake from Panofsky-Wenzel** — Finite difference model; witness for non-uniform dx lookup.
* **C51 Impedance frequency axis** — Integer/real arithmetic of N and mask.
* **C52 Impedance is linear and refreshes with its inputs** — DFT over a field with a root of unity; cached lambdas state machine with witness.
* **C53 Results reload as saved** — File model name->columns; witness for WPy.txt; partial for the others.
* **C54 Deposition conserves charge-weighted field** — Weights model.
* **C55 Field monitor is the running Fourier sum** — Induction over updates.
* **C56 CST field import index decoding** — Nat div/mod decode bijection.
* **C57 STEP solids get distinct, consistent names** — String model: zfill, sanitise.
* **C58 STEP unit scale** — Table model; witness MICRO.
* **C59 STL transformations are applied in the documented order** — Composition of maps on K^3.
* **C60 Run log is complete and serialisable** — Recursive convert on a JSON-like tree.
* **C61 Explicit zero conductivity** — set-up model with `use_conductivity` and the time-step minimum over conducting cells; exact success condition, refutation.
* **C62 Wave packet profile** — broadcasting of the profile array against the written block; value formula from the constructor parameters.
* **C63 Plane wave nodes** — constructor and update as functions; switch-off time.
* **C64 Free-space impedance ratio** — quotient of the two written values.
* **C65 Wake run records** — `wakesolve` as a loop that appends frames to the h5 file; frame `n` is the field after step `n`; composed with C47.
* **C66 Counter-moving particles** — reversal of the z axis in the wake integral; witness on a graded axis.
* **C67 Second wake calculation** — state machine of the open file handle, all histories.
* **C68 Monitor phase** — phase of the update against the time of the field.
* **C69 save_txt/read_txt** — header split on ']' on characters, two columns.
* **C70 Masks line up** — VTK cell order against the Field order.
* **C71 STEP library materials** — sanitised names against the material table.
* **C72 Charge distribution** — `np.interp` model against piecewise linear specification.
* **C73/C74 Impedance of a wake, wake of an impedance** — finite Fourier sums over ℂ, orthogonality of roots of unity.
* **C75 Linear fields** — one step of the real operators on samples of linear fields, with the dual metric the constructor builds.
* **C76 Mesh refinement** — lists, `np.unique`, insertion loops; the optimiser is a parameter.
* **C77/C78 Constructor axes, gathered grid** — constructor as decision function; gather by C13.
* **C79/C80 STL masks, default colours** — VTK predicates as parameters; decision table.
* **C81 Lossy stability** — modified energy with the damping factor; counterexample near cfln = 1.
* **C82 Sources under MPI** — cell by cell comparison of a rank's update with the serial one; layer 0 agrees for every class, and for every later layer a rank is named on which the wrong global layer is driven.
* **C83 Conductors** — inside/outside and line intersection methods against the set of points; closed forms over ℝ.
* **C84 Edge lengths** — Lebesgue measure of the free part of each edge. **C85** — node formula. **C86** — Lebesgue measure of the free part of each cell.
* **C87 Stability marks**, **C88 extensions** — loops over cells as folds with invariants; conservation of area; termination of the passes.
* **C89/C90 2D schemes**, **C94/C95 3D schemes** — updates as in the code, discrete energy by summation by parts, stability from the curl bound.
* **C91 ECT step** — flux balance over enlarged cells.
* **C92/C96 PML block layout** — the constructor as a state machine over optional blocks; all sets of sides by kernel case analysis (a finite domain, all of it), counts universally quantified.
* **C93/C97 PML = one grid** — simulation relation between blocks and one split-field grid, induction over steps.
* **C98 FIT quantities of the legacy grid** — see Grid3.
* **C99 Transverse faces under MPI** — first step of serial and distributed runs compared on concrete jobs (refutations); PEC by C34.
* **C100 Ranks accept what serial accepts** — constructor of a rank as a decision function (`limitDt` of an empty list of relaxation times raises).
* **C101 Transverse impedance** — summation by parts in the transform of the running integral (TransZ).
* **C102 Fits and extrapolation** — iddefix as a structure of unknown functions; what wakis passes to it and does with the result (WakeFit).
* **C103 Parameters of solve** — constructor and `setattr` as functions on a record of attributes (SolveArgs).
* **C104 Analytic charge distribution** — against the current of C42 at the times of C43 (BeamLambda).
* **C105 Convergence** — local errors of the H and E updates from the midpoint rule (Midpoint, Converge2, Converge3), accumulation through the energy bound of C20 (Duhamel, Converge4);
  instance: a mode of the unit cavity (Converge5). Specification: `Maxwell`, `Box.l2err`, `Box.Drives`, `Box.run` in Converge.
* **C106 Position of the walls** — tangential E on masked planes is frozen; compared with the mode of the requested box (Converge6).
* **C107 Wake run = plain run** — both loops reduced to the same fold of source, step, callback (WakeEm, from C39); with 'abc' compared after one step of a charged beam (C38).
* **C108 Second wake run** — steps depend on the cells only, the beam overwrites its column; superposition with the free ringing of the remaining fields (Rerun; runs of both planes in RerunBoth).
* **C109 Finite speed** — the update of a cell behind electric or PML faces reads its neighbours only; induction over the steps with a shrinking neighbourhood; refuted for open faces (Speed).
* **C110 Cavity modes** — solutions of the difference equations are reproduced exactly by induction over the steps; standing waves are such solutions when the frequency obeys the dispersion relation; the relation has one root up to half the sampling frequency; `sin²` is concave in the square of its argument, which bounds the root from above, and `sin x ≥ x - x³/6` from below (Modes, Modes2).
* **C111 Reciprocity** — both update operators are one matrix and its transpose between diagonal metrics; with the sources of two runs as power series in the step, each run obeys one symmetric linear relation, and the products with the other run's sources agree coefficient by coefficient. Current per edge is density over inverse dual area, voltage is edge length times E.
* **C112 Passivity** — the leapfrog energy corrected by the conduction term changes per step by twice the work of the sources minus a square; by the bounds of C20 it dominates the field energy.
* **C113 Two-dimensional pictures** — the array given to `imshow`, its extent, labels and title position as a function of the arguments; a pixel of an equidistant axis is a cell, and `int(N pos)` is the cell that contains the cut (Plots, Plots2).
* **C114 One-dimensional plots** — abscissae, ordinates, labels and legends of the curves for every list of positions, by induction over the list; gathering (C13) gives the same arrays on rank 0 (Plots3).
* **C115 Similarity** — every grid array, operator, tensor and the time step scales with a power of `a` (Scale, Scale2); induction over the history of steps and writes (Scale3); the beam current, recording, s axis, wake potential and transform follow (Scale5); the map of wakes, the transverse wakes and impedances of runs of both planes too (Scale6); concrete cases in Scale4.
* **C116 Position of the model** — all lengths are differences of coordinates; every comparison, nearest node and distance in the solids, sources and the wake calculation is between moved quantities; by cases and induction over the loops (Translate, Translate2).
* **C117 Bunch charge** — the step is linear (Similar with factor 1), so the fields of a run from zero scale with the charge, by induction over the steps; the wake divides by it (C47). With both planes the exact formula of C48 gives the dependence (Charge).
* **C118 Reversal** — the two half steps are shears: the magnetic half step undoes itself with the sign of H changed and the electric one with the sign of H and J changed; induction over the way back. The magnetic field lives half a step before the electric one, so the return starts from E after N steps and -H after N + 1 (Reverse).
* **C119 Axes** — behind closed faces the curls are per-cell circulations (C109); a renaming of the axes maps circulations to circulations up to orientation; induction over the steps (Axes). Materials and relaxation times cell by cell, minimum of a permuted list (Axes2). Open faces: the flat curl runs on from one row to the next in x and y but not in z. PML on one axis: filling a face commutes with renaming the cells, face by face (AxesPml); on two axes the order of filling decides the overlap.
* **C120 Mirror images** — the closed-face update (C109) mirrored term by term: nodes `i ↦ Nx-1-i`, cells `i ↦ Nx-2-i` between the wall nodes `0` and `Nx-1`; induction over the steps (Mirror). Graded axes are refuted for every axis whose neighbouring pairs of steps differ, solids for every solid that is not the same all along x (Mirror2).
* **C121 Line integral** — from the sum of C47: on each cell the sample differs from the field along the path of the test particle by at most the Lipschitz bound over the cell and one time step; sums over cells against interval integrals (WakeConv).
* **C122 Fourier integrals** — from C51: the same comparison for the transforms, with the phase factor of the first point cancelling in the quotient; C121 supplies the samples and a Lipschitz bound of the Gaussian the profile (WakeConv).
* **C123 Symmetry planes** — the closed-face update (C109) compared on two grids, index `i ↦ p + i`; the wall makes zero what vanishes on the plane of the whole model; induction over the steps. Opposite mirror images (C120 with C21) vanish on the middle plane (Cut).
* **C124 Fields on the GPU** — fields and the solver's arrays with their place (host or device); the place and the flag agree after every operation of an untouched field (invariant), so every answer is the host's; the step raises unless all arrays are in the same place.
* **C125 3D pictures** — the scene as a list of actors kept in the session, library functions (interpolation, sampling, enclosed points) as parameters; induction over the calls with the invariant that the kept scene holds only the solids of the first call; cell order of VTK against the row-major order of `np.reshape` (Plots5).
* **C126 Delayed sources** — a run is a function from step numbers to lists of assignments; zero stays zero before the start (C22), then both runs agree cell by cell; the first step differs only by the clearing of the last layers, whose exact set of entries is proved (Shift).
* **C127 Static fields** — the closed-face update of C109: the circulation of the drops of a potential is zero, also across the walls where the potential vanishes; likewise for the dual circulation of a magnetic potential (Statics).
* **C128 Out of reach** — the inner-cell updates of C16 on two grids with shifted indices; induction over the steps with a shrinking neighbourhood, as in C109 (Reach).
* **C129–C132 Interactive pictures** — a scene maps names to actors, the window is a state machine driven by a list of events (slider moves, boxes, clicks); invariants by induction over the history (last element added); colours and names by
  the branches of the code (Views3).
* **C133 Pictures of the sources** — the drawn curves and limits as values; algebra against what `update` writes (C42, C62), maximum of a list (SourcePlots).
* **C134 The log of a wake run states its parameters** — objects by number, dictionaries shared by reference; invariant over histories: what is logged equals the attribute it was read from (RunLog). The time step from `limitDt` (MaterialModel).
* **C135 Pictures made during a run** — the loop with and without pictures side by side, induction over the steps; binding of keyword arguments as a decision on names (PlotRun).
* **C136 Snap points and their picture** — membership in the sorted list of unique values; the shift of a counterexample from a bound of all coordinates; feature edges are a parameter (SnapPoints).
* **C137 Monitored patterns obey Maxwell's equations** — the two update equations multiplied by powers of the kernel and summed by parts; flat form of the monitor's arrays (MonitorWave).
* **C138 The window of a field** — a session as a list of windows opened and sliders moved; the shared grid's cell data as state; invariant over the history (Inspect3).
* **C139 Voxel pictures of a field** — lengths of `mgrid`, of slices and of broadcasting for rational limits; the colour bar as a linear map (Inspect3).
* **C140 Statements of a STEP file are found however the file is laid out** — the patterns as functions on lists of characters (no backtracking is possible, each repeated class excludes what follows it); a match needs `#`, digits, `=` and a keyword, so a text with one `=` is matched at its start only; the lists of references by splitting at commas (StepLines).
* **C141 Replacing a component or the whole array of a field** — numpy's rules for assigning to a slice and for `reshape` in Fortran order; the last cell of two shapes with the same product (FieldSet).
* **C142 A copy of a wake solver is independent of the original** — a world of objects and open files, a list of calls; simulation of independent objects as long as no calculation fails (WakeCopy).
* **C143 The charge in the fields of a wake run is the charge of the bunch** — the discrete divergence of Ampère's law removes the curl (the dual of C16), so every step adds the divergence of the beam's current; the sum over the steps is a Riemann sum of a function with one maximum, whose error is bounded by its variation; the exact integral is the bunch's charge by the fundamental theorem (BeamCharge). Partial: graded cross sections refute it. Concrete cases of theorems in other files are in Cases.
* **C144 A bunch gains no energy from a passive structure** — a wake run has the fields of a driven run of the column of the beam; passivity (C112) for edges that may lie in the last layer of z; the work is the sum of the bunch current times the recorded field, times the ratio of C143 (BeamLoss). Runs of both planes, also for C143: every such run has a longitudinal companion with the same fields (BothPlanes).
* **C145 What is recorded does not change a wake run, nor the longitudinal wake** — induction over the loop: fields and beam do not depend on the slices recorded, the test particle or the monitor; the wakes from C47 and C48; witness with the beam in the corner of the block (Planes).
* **C146 A wake run on several processes records what a run on one process does** — the loop of a rank as a program (beam update, step with exchanges), reached in lock step and, by confluence (C33), under every schedule; invariant: the ranks' memories are the serial fields (C34 for the step, C82 for the beam); frames by C13. The gather of a frame is applied to the memories the ranks have at that point of their programs; that `comm.gather` copies them before a rank goes on is trusted. Partial: the wake computed from the recording fails (`C47_mpi_refuted`), boundary conditions as in C34, beam not in an outermost cell, no callback (MpiWake). Ranks with different numbers of passes: the transition system of C147, invariant on two neighbours over all schedules (MpiHang). Numpy and Python integers as indices: `mpi_gather` with typed indices, refined to that of C13 (MpiIndex). The wake from the file of rank 0 (MpiSolve): congruence of the calculation in the cell lengths it reads.
* **C147 Recording the current of a wake run** — the loop with `save_J` as a second loop; its first component is the loop without (so is every error); its frames by the invariant of C65, read under the name of the step, which is shown unique (SaveJ). Partial: a block that reaches over the border of the grid is recorded short. On several ranks: transition system of the ranks' lines with the names each has bound, invariant over all schedules, a count of actions for termination; without `save_J` every schedule comes to its end (SaveJMpi).
* **C148 Field monitors in a wake run on several processes** — a monitor per rank, updated with the memory the rank has at the end of each pass (any memory with which some schedule of that pass ends; by C146 these are the serial fields); induction over passes (MpiMonitor). Partial: assumptions of C146.
