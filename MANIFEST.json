{
 "claims": [
  {
   "property": "C01",
   "status": "proved",
   "theorems": [
    "Wakis.Fld.C01_field_is_map",
    "Wakis.Fld.C01_read_after_write",
    "Wakis.Fld.C01_block_write"
   ],
   "note": "Write sequences refine a map from (component,i,j,k) to the last value written; block assignment with integer and slice selectors included."
  },
  {
   "property": "C02",
   "status": "proved",
   "theorems": [
    "Wakis.Fld.C02_layout",
    "Wakis.Fld.C02_bijection",
    "Wakis.Fld.C02_matrix_round_trip"
   ],
   "note": "Index formula, bijection onto [0,3N), from_matrix/to_matrix round trip."
  },
  {
   "property": "C03",
   "status": "partial",
   "theorems": [
    "Wakis.Fld.C03_compute_ijk_partial",
    "Wakis.Fld.C03_accepts_N",
    "Wakis.Fld.C03_accepts_negative",
    "Wakis.Fld.C03_full_claim_false"
   ],
   "note": "Correct for 0<=n<N; the code also accepts n=N and negative n, so the full claim is refuted."
  },
  {
   "property": "C04",
   "status": "partial",
   "theorems": [
    "Wakis.Fld.C04_int_key_partial",
    "Wakis.Fld.C04_refuses_valid",
    "Wakis.Fld.C04_N_is_y"
   ],
   "note": "Correct on the accepted range; valid keys above N are refused and key N reads the y component. Refutations proved."
  },
  {
   "property": "C05",
   "status": "proved",
   "theorems": [
    "Wakis.Fld.C05_unknown_component",
    "Wakis.Fld.C05_bad_keys",
    "Wakis.Fld.C05_accepted_keys"
   ],
   "note": "Unknown components and key types raise; no state is returned on error."
  },
  {
   "property": "C06",
   "status": "proved",
   "theorems": [
    "Wakis.Fld.C06_mul_pointwise",
    "Wakis.Fld.C06_add_pointwise",
    "Wakis.Fld.C06_operand_table",
    "Wakis.Fld.C06_mask_replace"
   ],
   "note": "Every accepted operand kind acts componentwise; the operand table says which kinds raise."
  },
  {
   "property": "C07",
   "status": "proved",
   "theorems": [
    "Wakis.FieldHeap.C07_independent",
    "Wakis.FieldHeap.C07_copy_fresh",
    "Wakis.FieldHeap.C07_view_live"
   ],
   "note": "Heap model with views and copies, any interleaving of operations (CPU numpy arrays)."
  },
  {
   "property": "C08",
   "status": "proved",
   "theorems": [
    "Wakis.Fld.C08_magnitude",
    "Wakis.Fld.C08_get_abs"
   ],
   "note": "Over the reals; float rounding not modelled."
  },
  {
   "property": "C09",
   "status": "proved",
   "theorems": [
    "Wakis.Grid.C09_lengths",
    "Wakis.Grid.C09_tile",
    "Wakis.Grid.C09_uniform"
   ],
   "note": "Any strictly increasing axes; exact arithmetic."
  },
  {
   "property": "C10",
   "status": "proved",
   "theorems": [
    "Wakis.Grid.C10_primary",
    "Wakis.Grid.C10_dual"
   ],
   "note": "Exact arithmetic; zero areas give the guarded inverse."
  },
  {
   "property": "C100",
   "status": "partial",
   "theorems": [
    "Wakis.Mpi.C100_accepted_partial",
    "Wakis.Mpi.C100_refuted"
   ],
   "note": "Without PML: a rank can be built exactly if no material conducts or a conducting cell lies in its own slab; so the claim is false (C100_refuted)."
  },
  {
   "property": "C101",
   "status": "proved",
   "theorems": [
    "Wakis.Wake.C101_axes",
    "Wakis.Wake.C101_panofsky",
    "Wakis.Wake.C101_first_order"
   ],
   "note": "For the wake map as computed (see C48, C50 for the map and the distance used); the wake has to fit into the transform (C51)."
  },
  {
   "property": "C102",
   "status": "partial",
   "theorems": [
    "Wakis.Wake.C102_data_partial",
    "Wakis.Wake.C102_given",
    "Wakis.Wake.C102_bounds_refuted",
    "Wakis.Wake.C102_axis",
    "Wakis.Wake.C102_values_partial",
    "Wakis.Wake.C102_beta_refuted",
    "Wakis.Wake.C102_smart_bounds",
    "Wakis.Wake.C102_impedance",
    "Wakis.Wake.C102_unfitted",
    "Wakis.Wake.C102_wake_function"
   ],
   "note": "The library iddefix is a parameter. Data, axis and, at light speed, values are right. False of the code: default bounds are determined from no data at all, so the fit fails; for slower beams s/c is used instead of s/v."
  },
  {
   "property": "C103",
   "status": "partial",
   "theorems": [
    "Wakis.Wake.C103_keywords_partial",
    "Wakis.Wake.C103_beta_refuted",
    "Wakis.Wake.C103_beta_differs_refuted",
    "Wakis.Wake.C103_sigmaz_refuted",
    "Wakis.Wake.C103_second_refuted",
    "Wakis.Wake.C103_unknown_refuted"
   ],
   "note": "True on a new solver for parameters from which nothing is derived. False: beta has no effect at all, sigmaz keeps the derived injection time, the wake length of the first recording is kept, unknown planes compute nothing without an error."
  },
  {
   "property": "C104",
   "status": "partial",
   "theorems": [
    "Wakis.Wake.C104_injected_partial",
    "Wakis.Wake.C104_normalised",
    "Wakis.Wake.C104_slow_refuted"
   ],
   "note": "Proved for beta = 1 and the default injection time; false for every slower beam, because beam and wake solver use different default injection times."
  },
  {
   "property": "C105",
   "status": "proved",
   "theorems": [
    "Wakis.Conv.Box.C105_converges",
    "Wakis.Conv.C105_second_order",
    "Wakis.Conv.C105_cavity"
   ],
   "note": "Exact arithmetic. Homogeneous lossless medium, uniform cells, electric walls, the box between the walls (see C106 for where they stand). Non-uniform grids do not converge: C75_graded."
  },
  {
   "property": "C106",
   "status": "partial",
   "theorems": [
    "Wakis.Conv.Box.C106_low_walls",
    "Wakis.Conv.C106_high_walls_refuted"
   ],
   "note": "Low walls are at the lower bounds. The high walls stand one cell before the upper bounds, so against the requested box the error is of first order."
  },
  {
   "property": "C107",
   "status": "partial",
   "theorems": [
    "Wakis.Wake.C107_same_fields_partial",
    "Wakis.Wake.C107_never_applied",
    "Wakis.Wake.C107_low_abc_is_open",
    "Wakis.Wake.C107_abc_differs",
    "Wakis.Wake.C107_refuted"
   ],
   "note": "Holds for every solver, beam, callback and history without 'abc' faces. False with 'abc': wakesolve never applies the absorbing boundary, so low 'abc' faces act like 'open' ones."
  },
  {
   "property": "C108",
   "status": "partial",
   "theorems": [
    "Wakis.Wake.C108_same_start",
    "Wakis.Wake.C108_after_reset_partial",
    "Wakis.Wake.C108_first_frame",
    "Wakis.Wake.C108_ringing",
    "Wakis.Wake.C108_differs",
    "Wakis.Wake.C108_refuted",
    "Wakis.Wake.C108_both_same_start",
    "Wakis.Wake.C108_both_after_reset_partial",
    "Wakis.Wake.C108_both_first_frame",
    "Wakis.Wake.C108_both_differs",
    "Wakis.Wake.C108_both_refuted"
   ],
   "note": "Holds after reset_fields (longitudinal runs, and runs of both planes whose block lies inside the grid, without callback, at most 100000 steps). False without it, in both kinds of run: the fields of the first run are the initial fields of the second, which records the first run's samples plus the ringing of what was left."
  },
  {
   "property": "C109",
   "status": "partial",
   "theorems": [
    "Wakis.Sol.C109_finite_speed_partial",
    "Wakis.Sol.C109_one_write_partial",
    "Wakis.Sol.C109_closed",
    "Wakis.Sol.C109_open_refuted"
   ],
   "note": "Proved for faces that are all electric or PML, any materials and conductors, any assignments during the run. False for open faces: the flat curl couples the last cell of a row with the first of the next, so a field crosses the whole grid in one step."
  },
  {
   "property": "C11",
   "status": "proved",
   "theorems": [
    "Wakis.Grid.C11_dual_lengths",
    "Wakis.Grid.C11_positive",
    "Wakis.Grid.C11_sum"
   ],
   "note": "Exact arithmetic."
  },
  {
   "property": "C110",
   "status": "partial",
   "theorems": [
    "Wakis.Conv.Box.C110_exact",
    "Wakis.Conv.Box.C110_mode",
    "Wakis.Conv.Box.C110_unique_frequency",
    "Wakis.Conv.Box.C110_frequency",
    "Wakis.Conv.Box.C110_rings_partial",
    "Wakis.Conv.C110_requested_box_refuted"
   ],
   "note": "Proved for the box between the walls the solver puts, which ends one cell before xmax, ymax, zmax (C106). For the box given to the grid it is false: the frequency of the lowest mode of the unit cube is too high by a fraction of at least 1/(2N)."
  },
  {
   "property": "C111",
   "status": "proved",
   "theorems": [
    "Wakis.Sol.C111_reaction",
    "Wakis.Sol.C111_reciprocity",
    "Wakis.Sol.C111_conductor_refuted"
   ],
   "note": "Exact arithmetic. All boundary names as one_step treats them (the extra 'abc' update of emsolve is not part of one_step). Edges whose dual area is degenerate (last layer) excluded; C111_conductor_refuted shows that the exclusion of conducting edges is needed: a source there overwrites the conduction current."
  },
  {
   "property": "C112",
   "status": "proved",
   "theorems": [
    "Wakis.Sol.C112_passive_walls",
    "Wakis.Sol.C112_passive",
    "Wakis.Sol.C112_passive_uniform"
   ],
   "note": "Exact arithmetic. C112_passive_walls: any time step with kappa + alpha/2 < 1; C112_passive: the automatic time step of a finished set-up, cfln^2 < 1, or cfln^2 < 1/2 when conductivity is in use (the limit of C20)."
  },
  {
   "property": "C113",
   "status": "partial",
   "theorems": [
    "Wakis.Plot.C113_picture_partial",
    "Wakis.Plot.C113_end_refuted",
    "Wakis.Plot.C113_graded_refuted",
    "Wakis.Plot.C113_indices",
    "Wakis.Plot.C113_indices_refuted",
    "Wakis.Plot.C113_mpi",
    "Wakis.Plot.C113_mpi_indices_refuted",
    "Wakis.Plot.C113_inspect",
    "Wakis.Plot.C113_inspect_range_refuted",
    "Wakis.Plot.C113_indices_x",
    "Wakis.Plot.C113_indices_y"
   ],
   "note": "Proved for equidistant axes, the five plane names and cut positions in [0, 1), in one process and on rank 0 of several; inspect for every grid. False of the code: position 1 fails, non-uniform axes are drawn with equal cells, index cuts are drawn between cell centres and fail under MPI beyond rank 0, the colour range of inspect ignores negative values."
  },
  {
   "property": "C114",
   "status": "partial",
   "theorems": [
    "Wakis.Plot.C114_curves_partial",
    "Wakis.Plot.C114_position",
    "Wakis.Plot.C114_mpi",
    "Wakis.Plot.C114_eight_refuted",
    "Wakis.Plot.C114_end_refuted",
    "Wakis.Plot.C114_abs_refuted",
    "Wakis.Plot.C114_indices"
   ],
   "note": "Proved on every grid for the three axis names and up to seven positions in [0, 1), in one process and on rank 0 of several. False of the code: position 1, an eighth position and the name 'EAbs' raise."
  },
  {
   "property": "C115",
   "status": "partial",
   "theorems": [
    "Wakis.Sol.C115_fields",
    "Wakis.Wake.C115_wake_run",
    "Wakis.Wake.C115_impedance",
    "Wakis.Wake.C115_wake",
    "Wakis.Sol.C115_pml_refuted",
    "Wakis.Wake.C115_both_run",
    "Wakis.Wake.C115_trans_wake",
    "Wakis.Wake.C115_trans_impedance",
    "Wakis.Wake.C115_solve_both",
    "Wakis.Wake.C115_both"
   ],
   "note": "Holds for every model without PML faces (wake runs: longitudinal, and of both planes with the test particle not in an outer layer of cells, through to transverse wakes and impedances; one process, at most 100000 steps, no skipped cells). With PML faces refuted: the conductivity of the layers does not scale."
  },
  {
   "property": "C116",
   "status": "partial",
   "theorems": [
    "Wakis.Sol.C116_mesh",
    "Wakis.Sol.C116_solver",
    "Wakis.Sol.C116_setup",
    "Wakis.Src.C116_beam",
    "Wakis.Src.C116_plane_wave",
    "Wakis.Src.C116_pulse",
    "Wakis.Src.C116_dipole",
    "Wakis.Src.C116_wave_packet_partial",
    "Wakis.Src.C116_wave_packet_refuted",
    "Wakis.Wake.C116_long_wake",
    "Wakis.Wake.C116_block_wake",
    "Wakis.Wake.C116_wake_run",
    "Wakis.Wake.C116_wake",
    "Wakis.Grid.C116_extents",
    "Wakis.Grid.C116_rank",
    "Wakis.Grid.C116_solid"
   ],
   "note": "Holds except for wave packets moved across the axis: they are centred at x = y = 0 wherever the grid is."
  },
  {
   "property": "C117",
   "status": "partial",
   "theorems": [
    "Wakis.Wake.C117_charge_partial",
    "Wakis.Wake.C117_both_actual",
    "Wakis.Wake.C117_both_refuted"
   ],
   "note": "Holds for longitudinal runs. Refuted for runs of both planes: the wake map divides the running sum by the charge cell after cell, so all cells but the first depend on the charge."
  },
  {
   "property": "C118",
   "status": "proved",
   "theorems": [
    "Wakis.Sol.C118_reversal",
    "Wakis.Sol.C118_returns",
    "Wakis.Sol.C118_free"
   ],
   "note": "For every solver of the model (all grids, faces without the 'abc' update, materials). C118_reversal holds for any current assigned before each step, also in conductors when it replaces the conduction current."
  },
  {
   "property": "C119",
   "status": "partial",
   "theorems": [
    "Wakis.Sol.C119_turn_partial",
    "Wakis.Sol.C119_swap_partial",
    "Wakis.Sol.C119_turn_free_partial",
    "Wakis.Sol.C119_setup_turn_partial",
    "Wakis.Sol.C119_setup_swap_partial",
    "Wakis.Sol.C119_open_refuted",
    "Wakis.Sol.C119_pml_turn_partial",
    "Wakis.Sol.C119_pml_swap_partial",
    "Wakis.Sol.C119_model_turn_partial",
    "Wakis.Sol.C119_model_swap_partial",
    "Wakis.Sol.C119_pml_refuted"
   ],
   "note": "Proved from the user's input to the fields for closed faces, PEC or PML with the layers on one axis; turn and swap generate all orders. Refuted for open faces, where the curl wraps in x and y only, and for PML layers on two axes, where of two layers that overlap the one filled last wins."
  },
  {
   "property": "C12",
   "status": "partial",
   "theorems": [
    "Wakis.Grid.C12_refused",
    "Wakis.Grid.C12_local_grid",
    "Wakis.Grid.C12_partition",
    "Wakis.Grid.C12_ghosts_inside",
    "Wakis.Grid.C12_single_rank_exceeds"
   ],
   "note": "Holds for two or more ranks; C12_single_rank_exceeds shows that a single rank gets a ghost cell beyond zmax."
  },
  {
   "property": "C120",
   "status": "partial",
   "theorems": [
    "Wakis.Sol.C120_mirror_partial",
    "Wakis.Sol.C120_free_partial",
    "Wakis.Sol.C120_symmetric_partial",
    "Wakis.Sol.C120_graded_refuted",
    "Wakis.Sol.C120_solids_refuted"
   ],
   "note": "Proved for closed faces (PEC, PML names) and equal steps in x, for mirrored material arrays. Refuted for graded x axes and for solids that vary along x. Other axes follow with C119."
  },
  {
   "property": "C121",
   "status": "proved",
   "theorems": [
    "Wakis.Wake.C121_line_integral",
    "Wakis.Wake.C121_whole_axis"
   ],
   "note": "Longitudinal recordings, no skipped cells; exact arithmetic (rounding of floats is not modelled)."
  },
  {
   "property": "C122",
   "status": "proved",
   "theorems": [
    "Wakis.Wake.C122_fourier",
    "Wakis.Wake.C122_recording"
   ],
   "note": "The bound needs the error of the denominator to be below its absolute value, which the theorem states; wakes longer than the transform are C51_truncated_refuted."
  },
  {
   "property": "C123",
   "status": "partial",
   "theorems": [
    "Wakis.Sol.C123_cut",
    "Wakis.Sol.C123_symmetry_plane_partial",
    "Wakis.Sol.C123_free_partial",
    "Wakis.Sol.C123_magnetic_refuted"
   ],
   "note": "Parts between planes without tangential E, and electric symmetry planes: proved. Magnetic symmetry planes are refuted: a pmc face freezes H in the cells at electric walls."
  },
  {
   "property": "C124",
   "status": "partial",
   "theorems": [
    "Wakis.GFld.C124_transparent",
    "Wakis.GFld.C124_no_cupy",
    "Wakis.GFld.C124_host_arithmetic",
    "Wakis.Sol.C124_step",
    "Wakis.Sol.C124_run",
    "Wakis.GFld.C124_product_refuted",
    "Wakis.GFld.C124_sum_refuted",
    "Wakis.Sol.C124_moved_refuted"
   ],
   "note": "Proved: reads, assignments, copies and moves in any order (C124_transparent); a solver created with use_gpu and any assignments and steps (C124_run). False: products of GPU fields are not marked on_gpu, so reads return device arrays and from_gpu leaves them; sums raise TypeError; a step after a field was moved off the GPU raises."
  },
  {
   "property": "C125",
   "status": "partial",
   "theorems": [
    "Wakis.Pic3.C125_sequence_partial",
    "Wakis.Pic3.C125_surface_partial",
    "Wakis.Pic3.C125_inspect3D",
    "Wakis.Pic3.C125_show_refuted",
    "Wakis.Pic3.C125_show_last_refuted",
    "Wakis.Pic3.C125_stuck_refuted",
    "Wakis.Pic3.C125_neither_refuted",
    "Wakis.Pic3.C125_stale_refuted",
    "Wakis.Pic3.C125_no_surface_refuted"
   ],
   "note": "Proved for all sequences of off-screen plot3D calls with at most one solid to show and a clip, of plot3DonSTL calls with one surface, and for the scalars of inspect3D. The full claim is false of the code: lists of solids to show, calls after a failure, no clip, several surfaces, no surface (refuted). Library: interpolation, sampling and enclosed points are parameters."
  },
  {
   "property": "C126",
   "status": "partial",
   "theorems": [
    "Wakis.Sol.C126_delay_partial",
    "Wakis.Sol.C126_currents",
    "Wakis.Sol.C126_profile",
    "Wakis.Sol.C126_rectangular",
    "Wakis.Sol.C126_last_layer_refuted"
   ],
   "note": "Proved for every solver if the first assignments do not touch the entries cleared by the first step (all sources on J, rectangular pulses). Refuted otherwise: H set in the last layer before the first step is lost, one step later it is kept."
  },
  {
   "property": "C127",
   "status": "partial",
   "theorems": [
    "Wakis.Sol.C127_electrostatic_partial",
    "Wakis.Sol.C127_magnetostatic_partial",
    "Wakis.Sol.C127_periodic_refuted"
   ],
   "note": "Proved behind PEC or PML faces for every grid, material and potential. Refuted without electric or magnetic face: a uniform field along z makes a magnetic field in the last cell."
  },
  {
   "property": "C128",
   "status": "partial",
   "theorems": [
    "Wakis.Sol.C128_out_of_reach_partial",
    "Wakis.Sol.C128_driven_currents",
    "Wakis.Sol.C128_current_refuted"
   ],
   "note": "Proved for all pairs of models when currents are treated alike in both, and for E and H with any boundary names when the currents are driven in every step. Refuted for a current assigned once: a PML face or conductive material anywhere in the domain removes it in the next step."
  },
  {
   "property": "C129",
   "status": "partial",
   "theorems": [
    "Wakis.View3.C129_mask_partial",
    "Wakis.View3.C129_list_refuted",
    "Wakis.View3.C129_colors_refuted",
    "Wakis.View3.C129_name_refuted"
   ],
   "note": "Proved for every history of slider moves when all solids, one or none are asked for with a dictionary of colours. The code refutes the rest: a list of solids is always white, one colour or a list of colours is ignored or raises TypeError, a solid called clip, slice or domain_box is not shown."
  },
  {
   "property": "C13",
   "status": "proved",
   "theorems": [
    "Wakis.Mpi.C13_gather",
    "Wakis.Mpi.C13_gather_asField",
    "Wakis.Mpi.C13_nonroot_zero",
    "Wakis.Mpi.C13_open_slice",
    "Wakis.Mpi.C13_run_gather_partial",
    "Wakis.Mpi.C13_names",
    "Wakis.Wake.C13_numpy_refuted"
   ],
   "note": "Both gather functions on the root, every rank count >= 1, all index forms that select what their bounds say, all components and the magnitude, any ghost content. Slices with an open bound are refused (TypeError). Cell numbers that are numpy integers are refused (AttributeError, C13_numpy_refuted); the claim is for Python's int and slices. On non-root ranks mpi_gather_asField returns a zero field although documented to return None. The last theorem composes with C34 (its side conditions)."
  },
  {
   "property": "C130",
   "status": "partial",
   "theorems": [
    "Wakis.View3.C130_inspect_partial",
    "Wakis.View3.C130_default_refuted",
    "Wakis.View3.C130_colors_refuted"
   ],
   "note": "Proved for every history of boxes when the solids are named and colours are a dictionary. The code refutes the default (no solid is shown) and other forms of the colours."
  },
  {
   "property": "C131",
   "status": "partial",
   "theorems": [
    "Wakis.View3.C131_boxes",
    "Wakis.View3.C131_history",
    "Wakis.View3.C131_beam",
    "Wakis.View3.C131_drawn_partial",
    "Wakis.View3.C131_mpi",
    "Wakis.View3.C131_master_refuted",
    "Wakis.View3.C131_name_refuted",
    "Wakis.View3.C131_setup_refuted"
   ],
   "note": "Proved for every sequence of clicks, except that the code refutes: the master box does not follow the others, a solid called beam or integration_path is not drawn with a wake, the window does not open without STL solids or with one colour for all."
  },
  {
   "property": "C132",
   "status": "partial",
   "theorems": [
    "Wakis.View3.C132_solids_partial",
    "Wakis.View3.C132_missing_refuted",
    "Wakis.View3.C132_vacuum_refuted"
   ],
   "note": "Proved when every solid has a colour. The code refutes: a solid without colour raises KeyError, one colour for all raises TypeError, with an opacity below 0.3 vacuum is the least transparent."
  },
  {
   "property": "C133",
   "status": "partial",
   "theorems": [
    "Wakis.Src.C133_beam",
    "Wakis.Src.C133_beam_shown_partial",
    "Wakis.Src.C133_negative_refuted",
    "Wakis.Src.C133_planeWave",
    "Wakis.Src.C133_packet_partial",
    "Wakis.Src.C133_packet_refuted"
   ],
   "note": "The curves agree with the fields for all three classes. Refuted: a bunch of negative charge lies outside the limits of the picture; a packet of default length cannot be drawn before its first update."
  },
  {
   "property": "C134",
   "status": "partial",
   "theorems": [
    "Wakis.RunLog.C134_partial",
    "Wakis.RunLog.C134_actual",
    "Wakis.RunLog.C134_assigned_refuted",
    "Wakis.RunLog.C134_skip_refuted",
    "Wakis.RunLog.C134_folder_refuted",
    "Wakis.RunLog.C134_shared_refuted",
    "Wakis.RunLog.C134_dt_partial",
    "Wakis.RunLog.C134_dt_refuted"
   ],
   "note": "Proved for every history in which the logged parameters stay as given to the constructors. Refuted: parameters assigned later and add_space are not in the log; the time step is logged before it is limited by the relaxation times; after save_logs with a folder all later logs go there; solvers that share a wake solver share its log."
  },
  {
   "property": "C135",
   "status": "partial",
   "theorems": [
    "Wakis.PlotRun.C135_emsolve",
    "Wakis.PlotRun.C135_emsolve3d",
    "Wakis.PlotRun.C135_wakesolve_partial",
    "Wakis.PlotRun.C135_both_refuted",
    "Wakis.PlotRun.C135_default_refuted",
    "Wakis.PlotRun.C135_own_refuted",
    "Wakis.PlotRun.C135_from_refuted",
    "Wakis.PlotRun.C135_stl_refuted",
    "Wakis.PlotRun.C135_options",
    "Wakis.PlotRun.C135_defaults"
   ],
   "note": "What a pass does to the solver and what a routine draws are parameters. Proved for emsolve with one kind of pictures and for wakesolve with a method of the solver. Refuted: plot and plot3d together, the default plot_func of wakesolve, functions with other names, the step plot_from itself, surfaces without solids."
  },
  {
   "property": "C136",
   "status": "partial",
   "theorems": [
    "Wakis.Grid.SnapPts.C136_actual",
    "Wakis.Grid.SnapPts.C136_picture",
    "Wakis.Grid.SnapPts.C136_partial",
    "Wakis.Grid.SnapPts.C136_moved_refuted",
    "Wakis.Grid.SnapPts.C136_small_refuted",
    "Wakis.Grid.SnapPts.C136_default_refuted"
   ],
   "note": "Exact description of the snap points and of the picture for the same arguments. False: feature points outside the planes x=0, y=0, z=0 are never snap points, so every geometry can be moved such that only the bounds remain; coordinates are rounded to 10 um; the picture without arguments shows all solids, not those the grid was refined with. Feature-edge extraction (pyvista) is a parameter."
  },
  {
   "property": "C137",
   "status": "proved",
   "theorems": [
    "Wakis.Wake.C137_wave",
    "Wakis.Wake.C137_free",
    "Wakis.Wake.C137_lossy",
    "Wakis.Wake.C137_frequency"
   ],
   "note": "For longitudinal wake runs without callback, from zero fields, any operators. The remainder is explicit: E after the last step and after one further step without current."
  },
  {
   "property": "C138",
   "status": "partial",
   "theorems": [
    "Wakis.View3.C138_window_partial",
    "Wakis.View3.C138_shared_refuted"
   ],
   "note": "Proved for any history unless another call uses the same grid object and component afterwards. Refuted then: the values are kept under the component's name in the grid shared by all windows, so a window of E shows H once its slider is moved."
  },
  {
   "property": "C139",
   "status": "partial",
   "theorems": [
    "Wakis.View3.C139_voxels_partial",
    "Wakis.View3.C139_limit_refuted",
    "Wakis.View3.C139_abs_refuted",
    "Wakis.View3.C139_zero_refuted"
   ],
   "note": "The picture is drawn exactly if each limit is a whole number from 1 to the number of cells (documented: int or float), then with the right cells, values and colours. Refuted: limits between nodes raise ValueError; \"abs\" gives a figure without panels; where the field is zero it is drawn in the colour of the lowest value."
  },
  {
   "property": "C14",
   "status": "partial",
   "theorems": [
    "Wakis.GridIO.C14_contents",
    "Wakis.GridIO.C14_disjoint_partial",
    "Wakis.GridIO.C14_sorted_partial",
    "Wakis.GridIO.C14_actual",
    "Wakis.GridIO.C14_refuted",
    "Wakis.GridIO.C14_empty_refuted",
    "Wakis.GridIO.C14_path_refuted"
   ],
   "note": "Contents are restored for every grid with STL solids; the order of the solids becomes alphabetical, so overlapping solids not listed alphabetically change material. Grids without solids cannot be saved, names with '/' cannot be loaded."
  },
  {
   "property": "C140",
   "status": "partial",
   "theorems": [
    "Wakis.Geo.C140_partial",
    "Wakis.Geo.C140_blank_refuted",
    "Wakis.Geo.C140_wrapped_refuted",
    "Wakis.Geo.C140_quote_refuted",
    "Wakis.Geo.C140_colour_refuted"
   ],
   "note": "Proved for files of one statement per line without blanks and with names that have no quote and no equals sign; blanks after =, line breaks inside a statement, apostrophes, named colours and exponents refute the rest."
  },
  {
   "property": "C141",
   "status": "partial",
   "theorems": [
    "Wakis.Fld.C141_partial",
    "Wakis.Fld.C141_refused",
    "Wakis.Fld.C141_shape_refuted"
   ],
   "note": "Proved for the documented shapes and for values of another size; a matrix of another shape with the same number of cells is accepted and scrambled."
  },
  {
   "property": "C142",
   "status": "partial",
   "theorems": [
    "Wakis.Wake.C142_partial",
    "Wakis.Wake.C142_refuted"
   ],
   "note": "Proved for histories without failed calculations; after a failed one the copy shares the open file."
  },
  {
   "property": "C143",
   "status": "partial",
   "theorems": [
    "Wakis.Wake.C143_actual",
    "Wakis.Wake.C143_graded",
    "Wakis.Wake.C143_charge_partial",
    "Wakis.Wake.C143_graded_refuted",
    "Wakis.Wake.C143_planes_off",
    "Wakis.Wake.C143_planes_graded",
    "Wakis.Wake.C143_planes_charge_partial"
   ],
   "note": "Exact on every mesh (C143_actual, C143_graded); the property itself where the cells after the beam column have its size; refuted on graded cross sections."
  },
  {
   "property": "C144",
   "status": "proved",
   "theorems": [
    "Wakis.Wake.C144_loss",
    "Wakis.Wake.C144_both_planes"
   ],
   "note": "Beam not in the last layers of x and y; the recording is read in order for at most 100000 steps (C49)."
  },
  {
   "property": "C145",
   "status": "partial",
   "theorems": [
    "Wakis.Wake.C145_undisturbed",
    "Wakis.Wake.C145_samples_partial",
    "Wakis.Wake.C145_wake_actual",
    "Wakis.Wake.C145_refuted"
   ],
   "note": "Fields, number of steps and monitors: proved for all runs. Samples: for an inner test cell and at most 100000 steps. The wake: false of the code, the centre cell of a run of both planes carries the wakes of the cells visited before it, divided by powers of the charge in pC."
  },
  {
   "property": "C146",
   "status": "partial",
   "theorems": [
    "Wakis.Wake.C146_updates",
    "Wakis.Wake.C146_steps",
    "Wakis.Wake.C146_frames_partial",
    "Wakis.Wake.C146_both_partial",
    "Wakis.Wake.C146_final_partial",
    "Wakis.MpiJ.C146_neighbours_refuted",
    "Wakis.MpiJ.C146_ends",
    "Wakis.MpiJ.C146_steps_refuted",
    "Wakis.Wake.C146_final_planes_partial",
    "Wakis.Wake.C146_longitudinal_refuted",
    "Wakis.Wake.C146_both_typed_partial",
    "Wakis.Wake.C146_wake_partial",
    "Wakis.Wake.C146_wake_refuted",
    "Wakis.MpiJ.C146_stall_refuted"
   ],
   "note": "Every schedule, frame and number of ranks; boundary conditions as in C34, beam not in an outermost cell, no callback. The frames of both planes are those of one process. A longitudinal run fails at its first frame: its cell numbers are numpy integers, for which mpi_gather finds no branch (C146_longitudinal_refuted; C146_frames_partial is for Python integers). From the recording of both planes rank 0 computes the wakes of the run on one process if at least one cell is skipped (C146_wake_partial); without skipped cells, the default, it fails with an IndexError (C146_wake_refuted). With conducting solids ranks can have different time steps and so different numbers of steps; such a run never ends (C146_ends, C146_steps_refuted). After the failure of rank 0 in a longitudinal run the other ranks wait for ever (C146_stall_refuted)."
  },
  {
   "property": "C147",
   "status": "partial",
   "theorems": [
    "Wakis.Wake.C147_same_run",
    "Wakis.Wake.C147_column",
    "Wakis.Wake.C147_block_partial",
    "Wakis.Wake.C147_bunch",
    "Wakis.Wake.C147_beside",
    "Wakis.MpiJ.C147_mpi_refuted",
    "Wakis.MpiJ.C147_mpi_without_partial"
   ],
   "note": "Refuted under MPI: with two or more ranks every rank but 0 fails with UnboundLocalError in the first pass and rank 0 waits for ever (C147_mpi_refuted). On one process partial only for the block of a run of both planes: proved for blocks inside the grid (at the border the slice is shorter, C65)."
  },
  {
   "property": "C148",
   "status": "partial",
   "theorems": [
    "Wakis.Wake.C148_monitor_partial"
   ],
   "note": "Assumptions of C146: boundary conditions as in C34, beam not in an outermost cell, no callback. Any planes."
  },
  {
   "property": "C15",
   "status": "partial",
   "theorems": [
    "Wakis.GridIO.C15_settings",
    "Wakis.GridIO.C15_file",
    "Wakis.GridIO.C15_colour_list",
    "Wakis.GridIO.C15_default_colours",
    "Wakis.GridIO.C15_colour_refuted",
    "Wakis.GridIO.C15_material_refuted",
    "Wakis.GridIO.C15_missing_refuted"
   ],
   "note": "Rotation, scale and translation are broadcast; a single colour and a single material are not, and an incomplete dictionary is accepted."
  },
  {
   "property": "C16",
   "status": "proved",
   "theorems": [
    "Wakis.Sol.C16_H_update",
    "Wakis.Sol.C16_E_update",
    "Wakis.Sol.C16_interior"
   ],
   "note": "Every grid, material field and boundary mask."
  },
  {
   "property": "C17",
   "status": "proved",
   "theorems": [
    "Wakis.Sol.C17_flux_conserved",
    "Wakis.Sol.C17_from_zero"
   ],
   "note": "Cells not touching a masked face."
  },
  {
   "property": "C18",
   "status": "proved",
   "theorems": [
    "Wakis.Sol.C18_continuity",
    "Wakis.Sol.C18_run"
   ],
   "note": "Interior nodes, any J history."
  },
  {
   "property": "C19",
   "status": "proved",
   "theorems": [
    "Wakis.Sol.C19_energy_conserved"
   ],
   "note": "Lossless closed run; leap-frog energy."
  },
  {
   "property": "C20",
   "status": "partial",
   "theorems": [
    "Wakis.Sol.C20_cfl_stable_partial",
    "Wakis.Sol.C20_bounded_energy_partial",
    "Wakis.Sol.C20_values_bounded_partial",
    "Wakis.Sol.C20_periodic_unstable",
    "Wakis.Sol.C20_walls_bounded_partial",
    "Wakis.Sol.C20_setUp_stable_partial",
    "Wakis.Sol.C20_uniform_bounded_partial",
    "Wakis.Sol.C20_setUp_uniform_partial",
    "Wakis.Sol.C20_open_refuted",
    "Wakis.Sol.C20_abc_refuted"
   ],
   "note": "Proved with the sharp Courant factor, every admissible material, every initial state, for the solver as the constructor sets it up: on every grid (non-uniform included) with any mixture of electric, magnetic and PML faces; on uniform grids with any boundary names. With conductivity for cfln^2 < 1/2 (see C81). False on non-uniform grids for periodic and for open faces: the field of a 2x2x2 box doubles each step below the CFL limit. False in emsolve with an absorbing (abc) face: the copy onto the face after each step makes the field of a metal box with a dielectric exceed every bound (C20_abc_refuted). wakesolve never applies that copy (C107)."
  },
  {
   "property": "C21",
   "status": "proved",
   "theorems": [
    "Wakis.Sol.C21_superposition"
   ],
   "note": "All histories of steps and writes."
  },
  {
   "property": "C22",
   "status": "proved",
   "theorems": [
    "Wakis.Sol.C22_reset",
    "Wakis.Sol.C22_quiescent",
    "Wakis.Sol.C22_fresh_and_reset"
   ],
   "note": ""
  },
  {
   "property": "C23",
   "status": "proved",
   "theorems": [
    "Wakis.Sol.C23_pec_frozen",
    "Wakis.Sol.C23_pec_zero"
   ],
   "note": ""
  },
  {
   "property": "C24",
   "status": "partial",
   "theorems": [
    "Wakis.Sol.C24_tangential_zero_partial",
    "Wakis.Sol.C24_closed_box",
    "Wakis.Sol.C24_refuted"
   ],
   "note": "Holds in every cell all of whose tangential faces are PEC (in particular for a closed PEC box, edges included). C24_refuted: an edge shared with a non-PEC face written later is not kept at zero by the code."
  },
  {
   "property": "C25",
   "status": "partial",
   "theorems": [
    "Wakis.Sol.C25_H_update",
    "Wakis.Sol.C25_E_update",
    "Wakis.Sol.C25_clean_forever",
    "Wakis.Sol.C25_refuted",
    "Wakis.Sol.setPlane_eq_setitem"
   ],
   "note": "Every cell, in states with zero tangential E on PEC faces, which a closed PEC box maintains for ever. C25_refuted: without that (PEC next to ABC) rows do couple."
  },
  {
   "property": "C26",
   "status": "partial",
   "theorems": [
    "Wakis.Sol.C26_tangential_zero_partial",
    "Wakis.Sol.C26_pec_faces_frozen",
    "Wakis.Sol.C26_spelling_refuted",
    "Wakis.Sol.C26_side_effect_refuted"
   ],
   "note": "Spelling 'PMC' is not recognised per face, and PMC anywhere freezes H on PEC faces: both refuted with witnesses."
  },
  {
   "property": "C27",
   "status": "partial",
   "theorems": [
    "Wakis.Sol.C27_actual_x",
    "Wakis.Sol.C27_actual_y",
    "Wakis.Sol.C27_actual_z",
    "Wakis.Sol.C27_metric_partial",
    "Wakis.Sol.C27_refuted"
   ],
   "note": "The claim is false of the code for all three axes (C27_refuted); C27_actual_* state what the update reads instead, for every grid, and C27_metric_partial that the dual metric of the axis is closed."
  },
  {
   "property": "C28",
   "status": "partial",
   "theorems": [
    "Wakis.Sol.C28_case_insensitive_partial",
    "Wakis.Sol.C28_refuted"
   ],
   "note": "Holds unless some face is a spelling of pmc."
  },
  {
   "property": "C29",
   "status": "partial",
   "theorems": [
    "Wakis.Sol.C29_setup_succeeds_iff",
    "Wakis.Sol.C29_last_solid_wins",
    "Wakis.Sol.C29_background",
    "Wakis.Sol.C29_conductivity_partial",
    "Wakis.Sol.C29_conductivity_actual",
    "Wakis.Sol.C29_flag_off",
    "Wakis.Sol.C29_disjoint_order",
    "Wakis.Sol.C29_refuted"
   ],
   "note": "Permittivity and permeability: proved in full. Conductivity: a later solid that lists none does not clear an earlier one's conductivity (C29_refuted); C29_conductivity_partial gives the proviso, C29_conductivity_actual the exact value."
  },
  {
   "property": "C30",
   "status": "proved",
   "theorems": [
    "Wakis.Sol.C30_limits",
    "Wakis.Sol.C30_cfl",
    "Wakis.Sol.C30_damping",
    "Wakis.Sol.C30_step_damping",
    "Wakis.Sol.C30_step_current",
    "Wakis.Sol.C30_setUp_damping",
    "Wakis.Sol.C30_no_conducting_cell_fails"
   ],
   "note": "Real arithmetic. The step is the smaller of the requested and the relaxation time of every conducting cell; the per-step damping factor of every entry is in [0,1] for any set-up that succeeds. Conductivity enabled with no conducting cell raises ValueError."
  },
  {
   "property": "C31",
   "status": "partial",
   "theorems": [
    "Wakis.Sol.C31_outside_unchanged",
    "Wakis.Sol.C31_positive",
    "Wakis.Sol.C31_profile_partial",
    "Wakis.Sol.C31_single_face_succeeds_iff",
    "Wakis.Sol.C31_reference_refuted",
    "Wakis.Sol.C31_overlap_refuted"
   ],
   "note": "Conductivity positive in the layers, unchanged outside, geometric profile and reference permittivity for the face written last. Where layers of two faces meet the later face overwrites (C31_overlap_refuted); the low-side reference cell is one off (C31_reference_refuted)."
  },
  {
   "property": "C32",
   "status": "partial",
   "theorems": [
    "Wakis.Sol.C32_same_dt_partial",
    "Wakis.Sol.C32_refuted",
    "Wakis.Sol.C32_rank_fails"
   ],
   "note": "Proved without conductivity. With conductivity each rank uses its own relaxation times: different steps (C32_refuted), and a rank without conducting cells cannot be built (C32_rank_fails)."
  },
  {
   "property": "C33",
   "status": "proved",
   "theorems": [
    "Wakis.Mpi.C33_halo_exchange",
    "Wakis.Mpi.C33_run_deterministic",
    "Wakis.Mpi.C33_slabs"
   ],
   "note": "Operational semantics of Sendrecv with arbitrary buffering and arbitrary schedules; CPU path only."
  },
  {
   "property": "C34",
   "status": "partial",
   "theorems": [
    "Wakis.Mpi.C34_distributed_equals_serial_partial",
    "Wakis.Mpi.C34_tensors_partial",
    "Wakis.Mpi.C34_materials_restrict",
    "Wakis.Mpi.C34_pml_refuted",
    "Wakis.Mpi.C34_pmc_refuted",
    "Wakis.Mpi.C34_periodic_refuted",
    "Wakis.Mpi.C34_driven_refuted"
   ],
   "note": "Proved from user input with PEC transverse faces, z faces open, PEC, ABC or PML (layers within the outer ranks, same conducting flag on all ranks), the time step the user asked for, and sources that drive no tangential E or J on a PEC face. False as stated for PML on z with three or more ranks (C34_pml_refuted), PMC on z (C34_pmc_refuted), periodic z (C34_periodic_refuted), and sources that drive tangential E on a PEC face next to a rank boundary (C34_driven_refuted)."
  },
  {
   "property": "C35",
   "status": "partial",
   "theorems": [
    "Wakis.Sol.C35_restore",
    "Wakis.Sol.C35_resume_partial",
    "Wakis.Sol.C35_resume_fresh_partial",
    "Wakis.Sol.C35_refuted",
    "Wakis.Sol.C35_mpi_refuted"
   ],
   "note": "Loading restores E, H and J exactly; resuming in the same solver, or in a fresh one of a closed PEC box, continues identically. Refuted in general: the first-step flag is not saved, so a fresh solver zeroes ghost layers once more; and only rank 0 keeps data under MPI."
  },
  {
   "property": "C36",
   "status": "partial",
   "theorems": [
    "Wakis.Sol.C36_update_partial",
    "Wakis.Sol.C36_after_step",
    "Wakis.Sol.C36_sigma_ignored",
    "Wakis.Sol.C36_refuted",
    "Wakis.Sol.C36_ghosts_refuted",
    "Wakis.Sol.C36_named_partial",
    "Wakis.Sol.C36_gpu_refuted",
    "Wakis.Sol.C36_gpu_partial"
   ],
   "note": "Edited permittivity/permeability take effect after update_tensors; conductivity edits are ignored unless conductivity was already in use; edits without update do not take effect after the first step.  On the GPU update_tensors raises TypeError, or makes all later steps raise it (C36_gpu_refuted)."
  },
  {
   "property": "C37",
   "status": "partial",
   "theorems": [
    "Wakis.Sol.C37_grid_unchanged_partial",
    "Wakis.Sol.C37_refuted"
   ],
   "note": "Holds when no axis is periodic on both faces and no high face is abc; otherwise the grid is modified in place."
  },
  {
   "property": "C38",
   "status": "partial",
   "theorems": [
    "Wakis.Sol.C38_two_sided",
    "Wakis.Sol.C38_completes",
    "Wakis.Sol.C38_gpu_partial",
    "Wakis.Sol.C38_gpu_low",
    "Wakis.Sol.C38_cpu_actual",
    "Wakis.Sol.C38_gpu_high_refuted",
    "Wakis.Sol.C38_cpu_refuted",
    "Wakis.Sol.C38_gpu_first",
    "Wakis.Sol.C38_gpu_low_first"
   ],
   "note": "Holds on the GPU for low faces. Refuted on the CPU (stored layers are views), on the GPU for high faces (own layer stored) and for two ABC faces on one axis (KeyError)."
  },
  {
   "property": "C39",
   "status": "proved",
   "theorems": [
    "Wakis.Sol.C39_order",
    "Wakis.Sol.C39_calls",
    "Wakis.Sol.C39_split",
    "Wakis.Sol.C39_split_abc",
    "Wakis.Sol.C39_source_split_refuted"
   ],
   "note": "Also proved: with a time-dependent source a run cannot be split, since time restarts at 0."
  },
  {
   "property": "C40",
   "status": "partial",
   "theorems": [
    "Wakis.Sol.C40_refuted",
    "Wakis.Sol.C40_hyp",
    "Wakis.Sol.C40_partial",
    "Wakis.Sol.C40_exact"
   ],
   "note": "Refuted: save=True raises TypeError before the first step whenever there is a file to write."
  },
  {
   "property": "C41",
   "status": "proved",
   "theorems": [
    "Wakis.Src.C41_beam",
    "Wakis.Src.C41_planeWave",
    "Wakis.Src.C41_wavePacket",
    "Wakis.Src.C41_dipole",
    "Wakis.Src.C41_pulse",
    "Wakis.Src.C41_dipole_field",
    "Wakis.Src.C41_pulse_field",
    "Wakis.Src.C41_dipole_value"
   ],
   "note": "For each source class: an update changes only the declared component of the declared field on the declared cells, at every time and for every update of a run."
  },
  {
   "property": "C42",
   "status": "proved",
   "theorems": [
    "Wakis.Src.C42_current",
    "Wakis.Src.C42_charge",
    "Wakis.Src.C42_line_charge",
    "Wakis.Src.C42_updates",
    "Wakis.Src.C42_mpi",
    "Wakis.Src.lineDensity_integral"
   ],
   "note": "Exact reals; the line density integrates to one, the current through every cross-section integrates over time to q, updates always succeed with a given bunch length, MPI ranks use the same reference position on uniform z."
  },
  {
   "property": "C43",
   "status": "partial",
   "theorems": [
    "Wakis.Wake.C43_partial",
    "Wakis.Wake.C43_offset",
    "Wakis.Wake.C43_slow_refuted",
    "Wakis.Wake.C43_given_refuted"
   ],
   "note": "Holds for beta = 1 with the default injection time; refuted for every other beta and for user-supplied times, which wakesolve does not pass to the beam."
  },
  {
   "property": "C44",
   "status": "proved",
   "theorems": [
    "Wakis.Src.C44_nearest",
    "Wakis.Src.C44_unique",
    "Wakis.Src.C44_inside"
   ],
   "note": "Nearest cell centre, first one on ties; on a uniform axis a position strictly inside a cell selects that cell."
  },
  {
   "property": "C45",
   "status": "partial",
   "theorems": [
    "Wakis.Src.C45_range",
    "Wakis.Src.C45_after",
    "Wakis.Src.C45_before_rectangular",
    "Wakis.Src.C45_before_partial",
    "Wakis.Src.C45_before_refuted",
    "Wakis.Src.C45_default_refuted",
    "Wakis.Src.C45_default_silent"
   ],
   "note": "Range and end hold. Refuted: a delayed Harris pulse is non-zero before its start; the default length is compared with c*t, so a default Harris or rectangular pulse is zero at every step."
  },
  {
   "property": "C46",
   "status": "proved",
   "theorems": [
    "Wakis.Wake.C46_nonneg",
    "Wakis.Wake.C46_recorded",
    "Wakis.Wake.C46_at_most",
    "Wakis.Wake.C46_last_sample"
   ],
   "note": "Index of every sample is n + floor((z-zmin)/(v dt)); exact arithmetic. C46_last_sample shows why the bound stops one step before the wake length."
  },
  {
   "property": "C47",
   "status": "partial",
   "theorems": [
    "Wakis.Wake.C47_line_integral",
    "Wakis.Wake.C47_linear",
    "Wakis.Wake.C47_skip_refuted",
    "Wakis.Wake.C47_mpi_refuted",
    "Wakis.Wake.C47_block_actual",
    "Wakis.Wake.C47_block_refuted",
    "Wakis.Wake.C47_single_refuted",
    "Wakis.Wake.C47_mpi_block_refuted"
   ],
   "note": "The line integral holds for single-process recordings without skipped cells, up to 100000 frames; with skip_cells, and for recordings made under MPI (one cell length too few), the calculation fails, proved as refutations. From recordings of blocks of columns the calculation reads the column one cell beyond the test column, proved exactly; for a single column it fails. The failure under MPI is also proved for blocks of columns (C47_mpi_block_refuted)."
  },
  {
   "property": "C48",
   "status": "partial",
   "theorems": [
    "Wakis.Wake.C48_cell_partial",
    "Wakis.Wake.C48_actual",
    "Wakis.Wake.C48_refuted"
   ],
   "note": "The accumulator is not reset between cells: each cell carries the previous ones divided by q*1e12. C48_actual gives the exact values, C48_cell_partial the first cell, C48_refuted a recording where the centre is wrong."
  },
  {
   "property": "C49",
   "status": "partial",
   "theorems": [
    "Wakis.Wake.C49_order_partial",
    "Wakis.Wake.C49_frames_partial",
    "Wakis.Wake.C49_long_refuted",
    "Wakis.Wake.C49_metadata_partial",
    "Wakis.Wake.C49_metadata_refuted",
    "Wakis.Wake.C49_guard_partial"
   ],
   "note": "Time order up to 100000 frames; refuted beyond. Metadata never used as a frame when the time axis matches the frames; refuted otherwise (guard subtracts 4, not 7)."
  },
  {
   "property": "C50",
   "status": "partial",
   "theorems": [
    "Wakis.Wake.C50_panofsky",
    "Wakis.Wake.C50_uniform",
    "Wakis.Wake.C50_mirror",
    "Wakis.Wake.C50_linear",
    "Wakis.Wake.C50_step_partial",
    "Wakis.Wake.C50_step_refuted"
   ],
   "note": "Running integral of a difference quotient, vanishing, antisymmetric, linear for all maps. The quotient's denominator is the distance between the two cells on uniform grids only; refuted for non-uniform ones."
  },
  {
   "property": "C51",
   "status": "partial",
   "theorems": [
    "Wakis.Wake.C51_axis",
    "Wakis.Wake.C51_coarse_refuted",
    "Wakis.Wake.C51_truncated_refuted"
   ],
   "note": "Holds whenever the s axis resolves fmax and the wake fits into the transform; otherwise the calculation fails or silently ignores the tail, both proved."
  },
  {
   "property": "C52",
   "status": "partial",
   "theorems": [
    "Wakis.Wake.C52_linear",
    "Wakis.Wake.C52_fresh_partial",
    "Wakis.Wake.C52_stale",
    "Wakis.Wake.C52_refuted"
   ],
   "note": "The quotient of transforms is C51_axis. The charge distribution is cached: recomputation after a change of bunch length or s axis uses the old one."
  },
  {
   "property": "C53",
   "status": "partial",
   "theorems": [
    "Wakis.Wake.C53_actual",
    "Wakis.Wake.C53_partial",
    "Wakis.Wake.C53_wpy_refuted",
    "Wakis.Wake.C53_longitudinal_refuted",
    "Wakis.Wake.C53_mixed"
   ],
   "note": "Every array of a saved run of both planes reloads except the vertical wake, whose file contains the horizontal one. After a longitudinal run the reload fails, or mixes in the transverse results of an earlier run in the same folder."
  },
  {
   "property": "C54",
   "status": "proved",
   "theorems": [
    "Wakis.Wake.C54_split",
    "Wakis.Wake.C54_inside",
    "Wakis.Wake.C54_conserves",
    "Wakis.Wake.C54_step",
    "Wakis.Wake.C54_position"
   ],
   "note": "update_long_WP as written; the class has no dt and E attributes of its own, the model takes the values as arguments."
  },
  {
   "property": "C55",
   "status": "proved",
   "theorems": [
    "Wakis.Wake.C55_fourier_sum",
    "Wakis.Wake.C55_independent",
    "Wakis.Wake.C55_linear"
   ],
   "note": "Real field components, dt of the first update."
  },
  {
   "property": "C56",
   "status": "partial",
   "theorems": [
    "Wakis.Cst.C56_bijective",
    "Wakis.Cst.C56_import_partial",
    "Wakis.Cst.C56_refuted",
    "Wakis.Cst.C56_single_refuted"
   ],
   "note": "Proved for every grid with equal numbers of cells in x and y and every number of time steps; other grids import with a wrong shape, and a single data line fails."
  },
  {
   "property": "C57",
   "status": "partial",
   "theorems": [
    "Wakis.Geo.C57_consistent",
    "Wakis.Geo.C57_names",
    "Wakis.Geo.C57_distinct",
    "Wakis.Geo.C57_all_solids",
    "Wakis.Geo.C57_sorted_partial",
    "Wakis.Geo.C57_sorted_refuted",
    "Wakis.Geo.C57_colours_partial",
    "Wakis.Geo.C57_colours_refuted",
    "Wakis.Geo.C57_material_of_layers",
    "Wakis.Geo.C57_export",
    "Wakis.Geo.C57_materials"
   ],
   "note": "The English property is proved in full for the material and solid dictionaries; the colour dictionary has the same names when it can be built, which fails when the file has fewer colours than solids. The regular expressions are not modelled."
  },
  {
   "property": "C58",
   "status": "partial",
   "theorems": [
    "Wakis.Geo.C58_actual",
    "Wakis.Geo.C58_partial",
    "Wakis.Geo.C58_metres",
    "Wakis.Geo.C58_refuted",
    "Wakis.Geo.C58_late_refuted"
   ],
   "note": "Right for kilo, deci, centi, milli and none; wrong (1.0) for every other SI prefix, and for units defined after the first 10000 characters."
  },
  {
   "property": "C59",
   "status": "proved",
   "theorems": [
    "Wakis.Stl.C59_order",
    "Wakis.Stl.C59_shape",
    "Wakis.Stl.C59_proper",
    "Wakis.Stl.C59_translation",
    "Wakis.Stl.C59_order_matters"
   ],
   "note": "Also: distances are scaled by the common factor, no mirror image, the translation is scaled too."
  },
  {
   "property": "C60",
   "status": "partial",
   "theorems": [
    "Wakis.Log.C60_partial",
    "Wakis.Log.C60_actual",
    "Wakis.Log.C60_complex_refuted",
    "Wakis.Log.C60_key_refuted",
    "Wakis.Log.C60_folder"
   ],
   "note": "Succeeds exactly when keys are JSON keys and arrays hold plain values; complex arrays and tuple keys make it fail."
  },
  {
   "property": "C61",
   "status": "partial",
   "theorems": [
    "Wakis.Sol.C61_tensors_partial",
    "Wakis.Sol.C61_dt_partial",
    "Wakis.Sol.C61_refuted",
    "Wakis.Sol.C61_without"
   ],
   "note": "Holds for disjoint solids when something else conducts; fails with ValueError for every table in which nothing conducts but a zero is explicit."
  },
  {
   "property": "C62",
   "status": "partial",
   "theorems": [
    "Wakis.Src.C62_packet_partial",
    "Wakis.Src.C62_actual",
    "Wakis.Src.C62_rectangular_refuted",
    "Wakis.Src.C62_parameters",
    "Wakis.Src.C62_time"
   ],
   "note": "Holds when both transverse axes carry the same coordinates. Refuted in general: with different cell counts every update fails, on square grids the profile is transposed."
  },
  {
   "property": "C63",
   "status": "partial",
   "theorems": [
    "Wakis.Src.C63_off",
    "Wakis.Src.C63_nodes_refuted",
    "Wakis.Src.C63_duration_partial"
   ],
   "note": "Switch-off proved for waves with a frequency; a wave given by nodes alone cannot be built."
  },
  {
   "property": "C64",
   "status": "partial",
   "theorems": [
    "Wakis.Src.C64_packet",
    "Wakis.Src.C64_planeWave_actual",
    "Wakis.Src.C64_planeWave_refuted"
   ],
   "note": "Holds for wave packets; refuted for plane waves, whose ratio is mu0*beta*c^2/(2 pi f)."
  },
  {
   "property": "C65",
   "status": "partial",
   "theorems": [
    "Wakis.Wake.C65_records",
    "Wakis.Wake.C65_wake",
    "Wakis.Wake.C65_both_partial",
    "Wakis.Wake.C65_edge_refuted"
   ],
   "note": "Longitudinal runs on one process: full statement, end to end to the wake potential. Runs with the transverse plane: inner test cells; refuted in the first column, where the recorded block is empty. Runs under MPI: C146 for the recording, C47_mpi_refuted for the wake."
  },
  {
   "property": "C66",
   "status": "partial",
   "theorems": [
    "Wakis.Wake.C66_back_partial",
    "Wakis.Wake.C66_refuted"
   ],
   "note": "Each cell is weighted with the length of its mirror cell; equal on grids that are symmetric in z, refuted otherwise."
  },
  {
   "property": "C67",
   "status": "partial",
   "theorems": [
    "Wakis.Wake.C67_current_partial",
    "Wakis.Wake.C67_failed",
    "Wakis.Wake.C67_refuted"
   ],
   "note": "Holds after every history of calculations that raised no exception; after a failed one the file stays open and the next calculation evaluates the old recording."
  },
  {
   "property": "C68",
   "status": "partial",
   "theorems": [
    "Wakis.Wake.C68_actual",
    "Wakis.Wake.C68_refuted"
   ],
   "note": "wakesolve feeds the monitor the field after the step with the phase of the time before it; C68_actual gives the constant phase factor exp(2 pi i f dt), C68_refuted a run where it matters."
  },
  {
   "property": "C69",
   "status": "partial",
   "theorems": [
    "Wakis.Wake.C69_roundtrip_partial",
    "Wakis.Wake.C69_plain_refuted",
    "Wakis.Wake.C69_equal_refuted",
    "Wakis.Wake.C69_single_refuted"
   ],
   "note": "Holds for distinct names ending in a unit in brackets and at least two rows (keys lose their spaces). Fails for names without brackets, equal names and single rows."
  },
  {
   "property": "C70",
   "status": "proved",
   "theorems": [
    "Wakis.GridIO.C70_masks_aligned"
   ],
   "note": "VTK cell numbering (first dimension fastest) is part of the trusted base."
  },
  {
   "property": "C71",
   "status": "partial",
   "theorems": [
    "Wakis.Geo.C71_library_partial",
    "Wakis.Geo.C71_refuted"
   ],
   "note": "All library materials except 'lossy metal', whose space becomes '-'; solids without a layer get the unknown material 'None'."
  },
  {
   "property": "C72",
   "status": "partial",
   "theorems": [
    "Wakis.Wake.C72_values_partial",
    "Wakis.Wake.C72_nodes",
    "Wakis.Wake.C72_outside",
    "Wakis.Wake.C72_bounds",
    "Wakis.Wake.C72_normalised",
    "Wakis.Wake.C72_used",
    "Wakis.Wake.C72_dict_refuted",
    "Wakis.Wake.C72_outside_refuted"
   ],
   "note": "Values within the profile, bounds, scaling and use in the impedance are proved for files and arrays. Refuted: a dictionary always raises, and outside the profile the density keeps its end value instead of vanishing."
  },
  {
   "property": "C73",
   "status": "partial",
   "theorems": [
    "Wakis.Wake.C73_forms",
    "Wakis.Wake.C73_axis_partial",
    "Wakis.Wake.C73_tone",
    "Wakis.Wake.C73_linear",
    "Wakis.Wake.C73_fmax_partial",
    "Wakis.Wake.C73_truncated_refuted",
    "Wakis.Wake.C73_last_sample_refuted"
   ],
   "note": "Axis, values, tones, linearity and call forms are proved. Refuted: samples beyond 2*samples are dropped silently, and a frequency limit drops the last sample."
  },
  {
   "property": "C74",
   "status": "partial",
   "theorems": [
    "Wakis.Wake.C74_forms_partial",
    "Wakis.Wake.C74_values_partial",
    "Wakis.Wake.C74_times",
    "Wakis.Wake.C74_roundtrip",
    "Wakis.Wake.C74_two_refuted",
    "Wakis.Wake.C74_time_refuted",
    "Wakis.Wake.C74_roundtrip_refuted",
    "Wakis.Wake.C74_last_value_refuted"
   ],
   "note": "The value returned is the Fourier sum at a time other than the one reported (equal only at the last sample). The round trip gives the wake reversed in time, negated and shifted by its mean. Two-valued impedances cannot be passed separately from their frequencies."
  },
  {
   "property": "C75",
   "status": "partial",
   "theorems": [
    "Wakis.Sol.C75_faraday",
    "Wakis.Sol.C75_ampere_partial",
    "Wakis.Sol.C75_ampere_actual",
    "Wakis.Sol.C75_graded",
    "Wakis.Sol.C75_ampere_refuted",
    "Wakis.Sol.C16_interior_E"
   ],
   "note": "Faraday's law: proved on every grid. Ampere's law: exact where the neighbouring cells on both sides are equally long; on non-uniform grids the dual lengths are shifted by one cell, so derivatives are multiplied by a ratio of centre distances, 1/r on a mesh graded by r whatever its cell size."
  },
  {
   "property": "C76",
   "status": "partial",
   "theorems": [
    "Wakis.Grid.C76_bounds",
    "Wakis.Grid.C76_snaps",
    "Wakis.Grid.C76_insert_accepts",
    "Wakis.Grid.C76_insert_count",
    "Wakis.Grid.C76_snaps_partial",
    "Wakis.Grid.C76_sorted_partial",
    "Wakis.Grid.C76_neighbor_count",
    "Wakis.Grid.C76_neighbor_partial",
    "Wakis.Grid.C76_unknown",
    "Wakis.Grid.C76_subdivision_refuted",
    "Wakis.Grid.C76_outside_refuted",
    "Wakis.Grid.C76_cells_refuted",
    "Wakis.Grid.C76_neighbor_refuted",
    "Wakis.Grid.C76_domain_refuted",
    "Wakis.Grid.C76_objective_refuted"
   ],
   "note": "Nodes stay in the domain. Snap points, order: proved for an optimiser that leaves snap points and order alone, but the cost it is given prefers moving them. False of the code: 'insert' gives fewer cells than asked for, 'neighbor' can drop snap points and the domain bound, 'subdivision' always raises, solids reaching outside the domain raise."
  },
  {
   "property": "C77",
   "status": "partial",
   "theorems": [
    "Wakis.Grid.C77_own_axes_partial",
    "Wakis.Grid.C77_extents",
    "Wakis.Grid.C77_agree",
    "Wakis.Grid.C77_refused",
    "Wakis.Grid.C77_list_refuted",
    "Wakis.Grid.C77_verbose_refuted",
    "Wakis.Grid.C77_snap_points_refuted",
    "Wakis.Grid.C77_mpi_refined_refuted",
    "Wakis.Grid.C77_log_refuted",
    "Wakis.Grid.C77_counts"
   ],
   "note": "False of the code: Python lists as axes, verbose=2 without extents and user snap points raise; under MPI the refined z axis is discarded; the log keeps the unrefined cell counts."
  },
  {
   "property": "C78",
   "status": "partial",
   "theorems": [
    "Wakis.Grid.C78_gathered",
    "Wakis.Grid.C78_refined_refuted"
   ],
   "note": "Proved for grids from extents on two or more ranks; a refined x or y axis is lost."
  },
  {
   "property": "C79",
   "status": "partial",
   "theorems": [
    "Wakis.Grid.C79_mask_partial",
    "Wakis.Grid.C79_monotone",
    "Wakis.Grid.C79_mpi",
    "Wakis.Grid.C79_unit_refuted",
    "Wakis.Grid.C79_thin_refuted"
   ],
   "note": "VTK's point test and corner-to-cell value are parameters. A mark between 0 and 1 is compared with a length, so the result depends on the unit."
  },
  {
   "property": "C80",
   "status": "partial",
   "theorems": [
    "Wakis.Grid.C80_names_partial",
    "Wakis.Grid.C80_library",
    "Wakis.Grid.C80_values",
    "Wakis.Grid.C80_case_refuted",
    "Wakis.Grid.C80_inf_refuted"
   ],
   "note": "Names not in lower case and infinities other than the object np.inf get another category's colour."
  },
  {
   "property": "C81",
   "status": "proved",
   "theorems": [
    "Wakis.Sol.C81_lossy_stable",
    "Wakis.Sol.C81_high_cfl_unstable"
   ],
   "note": "C81_high_cfl_unstable shows that the restriction on cfln is needed: with conductivity, cfln < 1 and the relaxation-time limit of the constructor do not prevent growth."
  },
  {
   "property": "C82",
   "status": "partial",
   "theorems": [
    "Wakis.Src.C82_beam",
    "Wakis.Src.C82_planeWave_first_layer_partial",
    "Wakis.Src.C82_dipole_first_layer_partial",
    "Wakis.Src.C82_dipole_refuted",
    "Wakis.Src.C82_dipole_out_of_slab",
    "Wakis.Src.C82_dipole_frequency_refuted",
    "Wakis.Src.C82_pulse_first_layer_partial",
    "Wakis.Src.C82_wavePacket_first_layer_partial",
    "Wakis.Src.C82_planeWave_refuted",
    "Wakis.Src.C82_wavePacket_refuted",
    "Wakis.Src.C82_pulse_refuted"
   ],
   "note": "Proved for the beam (every cell, ghosts included) and for sources at layer 0 with a given frequency. False for layers zs >= 1: every rank drives its own layer zs, a zs outside a slab raises IndexError there, and a default dipole frequency depends on the slab. Wave packets and pulses are written by the same assignments; not restated. Proved for the beam (every cell, ghosts included) and for plane waves, wave packets, pulses and dipoles (given frequency) at layer 0. False for layers zs >= 1: refuted for each kind."
  },
  {
   "property": "C83",
   "status": "partial",
   "theorems": [
    "Wakis.Cond.C83_box_complementary",
    "Wakis.Cond.C83_plane2_complementary",
    "Wakis.Cond.C83_circle_complementary",
    "Wakis.Cond.C83_space_complementary",
    "Wakis.Cond.C83_none_complementary",
    "Wakis.Cond.C83_assembly_complementary",
    "Wakis.Cond.C83_assembly_inside",
    "Wakis.Cond.C83_impFunc_partial",
    "Wakis.Cond.C83_impFunc_refuted",
    "Wakis.Cond.C83_inSphere_out_refuted",
    "Wakis.Cond.C83_plane2_bad_sign",
    "Wakis.Cond.C83_assembly",
    "Wakis.Cond.C83_assembly_empty",
    "Wakis.Cond.C83_box",
    "Wakis.Cond.C83_plane2_partial",
    "Wakis.Cond.C83_plane2_tol_refuted",
    "Wakis.Cond.C83_plane2_flat_refuted",
    "Wakis.Cond.C83_outCircle",
    "Wakis.Cond.C83_inCircle_partial",
    "Wakis.Cond.C83_inCircle_refuted",
    "Wakis.Cond.C83_outSphere_partial",
    "Wakis.Cond.C83_inSphere_partial",
    "Wakis.Cond.C83_inSphere_miss_refuted",
    "Wakis.Cond.C83_outSphere_refuted",
    "Wakis.Cond.C83_plane3_partial",
    "Wakis.Cond.C83_plane3_parallel_refuted",
    "Wakis.Cond.C83_none_refuted"
   ],
   "note": "Proved for boxes, planes, OutCircle and for assemblies of shapes that satisfy it. False of the code for InCircle with x_cent != y_cent (centre coordinates swapped), spheres off the origin (sign of the centre), InSphere.out_conductor (infinite recursion), ImpFunc on its zero set, planes with tolerance, planes parallel to the axis."
  },
  {
   "property": "C84",
   "status": "partial",
   "theorems": [
    "Wakis.Cond.C84_edge_partial",
    "Wakis.Cond.C84_plane2",
    "Wakis.Cond.C84_plane3",
    "Wakis.Cond.C84_none",
    "Wakis.Cond.C84_small_refuted",
    "Wakis.Cond.C84_narrow_refuted"
   ],
   "note": "Exact for half planes and half spaces on every grid, and for every conductor with right intersection methods where the line meets the surface at most once within a cell of the edge. False for features smaller than a cell."
  },
  {
   "property": "C85",
   "status": "partial",
   "theorems": [
    "Wakis.Cond.C85_mesh2",
    "Wakis.Cond.C85_mesh3_partial",
    "Wakis.Cond.C85_mesh3_refuted"
   ],
   "note": "False for Grid3D: dz is computed from the extent along y."
  },
  {
   "property": "C86",
   "status": "proved",
   "theorems": [
    "Wakis.Cond.C86_area_plane",
    "Wakis.Cond.C86_bounds",
    "Wakis.Cond.C86_ends"
   ],
   "note": "Area as Lebesgue measure of the free part of the cell."
  },
  {
   "property": "C87",
   "status": "partial",
   "theorems": [
    "Wakis.Cond.C87_unstable_partial",
    "Wakis.Cond.C87_marks",
    "Wakis.Cond.C87_small_cells_refuted",
    "Wakis.Cond.C87_large_cells_refuted"
   ],
   "note": "False unless dx*dy = 1: the area is a fraction of the cell while the stability bound is a physical area."
  },
  {
   "property": "C88",
   "status": "partial",
   "theorems": [
    "Wakis.Cond.C88_constructor_refuted",
    "Wakis.Cond.C88_success_partial",
    "Wakis.Cond.C88_loop_ends",
    "Wakis.Cond.C88_area_conserved",
    "Wakis.Cond.C88_ect_refuted",
    "Wakis.Cond.C88_empty_grid_refuted"
   ],
   "note": "Whenever the extension succeeds, every cell reaches its stable area by positive patches of neighbours, each lender is reduced by exactly what it lent, the total area is conserved and the passes end. False of the code as a whole: the reduced areas start at zero, so the constructor raises IndexError or RuntimeError as soon as one cell is unstable, even without any conductor if dx*dy > 2."
  },
  {
   "property": "C89",
   "status": "proved",
   "theorems": [
    "Wakis.S2.C89_quiet",
    "Wakis.S2.C89_quiet_start",
    "Wakis.S2.C89_energy",
    "Wakis.S2.C89_conserved",
    "Wakis.S2.C89_stable"
   ],
   "note": "Runs without PML blocks; boundary rows and conductors are quiet, energy balance with currents, conservation, bound on the sum of squares for all steps below the CFL limit."
  },
  {
   "property": "C90",
   "status": "partial",
   "theorems": [
    "Wakis.S2.C90_quiet",
    "Wakis.S2.C90_quiet_start",
    "Wakis.S2.C90_energy",
    "Wakis.S2.C90_conserved",
    "Wakis.S2.C90_stable",
    "Wakis.S2.C90_speed_refuted",
    "Wakis.S2.C90_fdtd_partial",
    "Wakis.S2.C90_fdtd_refuted"
   ],
   "note": "Energy balance and stability are proved, with the time step limit of the scheme. Agreement with the standard scheme holds if dx*dy = 1 and is refuted otherwise: the stored area is a fraction of a cell, so the wave speed is wrong."
  },
  {
   "property": "C91",
   "status": "partial",
   "theorems": [
    "Wakis.S2.C91_flux_partial",
    "Wakis.S2.C91_dm",
    "Wakis.S2.C91_constructed"
   ],
   "note": "Flux balance for every successful extension in which lenders start with their own area; every grid the constructor can build has no unstable cell, and there the step is the conformal step."
  },
  {
   "property": "C92",
   "status": "partial",
   "theorems": [
    "Wakis.S2.C92_built_partial",
    "Wakis.S2.C92_error_refuted",
    "Wakis.S2.C92_blocks",
    "Wakis.S2.C92_wired_partial",
    "Wakis.S2.C92_corner_refuted",
    "Wakis.S2.C92_totals_partial",
    "Wakis.S2.C92_graded",
    "Wakis.S2.C92_layers"
   ],
   "note": "Proved for the combinations that can be constructed (11 of 16, given exactly) and correct in 10 of them. False otherwise: two corner blocks are created under swapped conditions (AttributeError), one combination leaves a corner without coefficients and a layer unconnected, and N_tot_y counts the layers of x."
  },
  {
   "property": "C93",
   "status": "partial",
   "theorems": [
    "Wakis.S2.C93_monolith",
    "Wakis.S2.C93_axes",
    "Wakis.S2.C93_coeffs",
    "Wakis.S2.C93_profile",
    "Wakis.S2.C93_mirror_partial",
    "Wakis.S2.C93_vacuum",
    "Wakis.S2.C93_dm_refuted",
    "Wakis.S2.C93_seam_current_refuted"
   ],
   "note": "Equivalence with one grid is proved for the staircased scheme and currents off the seams, for every number of steps. False parts: the high-x layer is computed with dy (mirror images only for square cells), the conformal scheme uses dy for Ey at the seams, and a current on a seam splits the two copies."
  },
  {
   "property": "C94",
   "status": "proved",
   "theorems": [
    "Wakis.L3.C94_quiet",
    "Wakis.L3.C94_quiet_start",
    "Wakis.L3.C94_energy",
    "Wakis.L3.C94_conserved",
    "Wakis.L3.C94_stable"
   ],
   "note": "Exact arithmetic; no absorbing layers. The energy uses the magnetic field before and after its update, as is usual for the leapfrog scheme."
  },
  {
   "property": "C95",
   "status": "partial",
   "theorems": [
    "Wakis.L3.C95_quiet",
    "Wakis.L3.C95_quiet_start",
    "Wakis.L3.C95_energy",
    "Wakis.L3.C95_conserved",
    "Wakis.L3.C95_stable",
    "Wakis.L3.C95_stable_default",
    "Wakis.L3.C95_fdtd_partial",
    "Wakis.L3.C95_speed_refuted",
    "Wakis.L3.C95_one_step",
    "Wakis.L3.C95_ect_refuted",
    "Wakis.L3.C95_names"
   ],
   "note": "Balance, conservation and stability hold. Agreement with the standard scheme only for unit cells (the face fraction is used as an area: refuted otherwise). 'ECT' raises AttributeError in every step (refuted); other names raise ValueError."
  },
  {
   "property": "C96",
   "status": "partial",
   "theorems": [
    "Wakis.L3.C96_blocks",
    "Wakis.L3.C96_sizes_partial",
    "Wakis.L3.C96_corner_refuted",
    "Wakis.L3.C96_count_refuted",
    "Wakis.L3.C96_built_partial",
    "Wakis.L3.C96_all_partial",
    "Wakis.L3.C96_conductivity_partial",
    "Wakis.L3.C96_highcorner_refuted",
    "Wakis.L3.C96_strength_partial"
   ],
   "note": "The set of blocks is right for all 64 sets of sides. False of the code: the edge blocks where a layer at high y meets one along z get the cell count of the low y layer; the corners at high z are filled together with those at low z, so that the constructor raises AttributeError or they keep zero conductivity; the maxima at high x and along z use dy. C96_built_partial says exactly when construction succeeds; with layers on all sides and equal counts along y everything but the maxima is right."
  },
  {
   "property": "C97",
   "status": "partial",
   "theorems": [
    "Wakis.L3.C97_monolith",
    "Wakis.L3.C97_axes",
    "Wakis.L3.C97_arrays",
    "Wakis.L3.C97_no_layers",
    "Wakis.L3.C97_dm_refuted",
    "Wakis.L3.C97_seam_current_refuted"
   ],
   "note": "Proved for the staircased scheme from zero fields for any number of steps, as long as no current flows along, and no conducting face lies on, the sides of the box where a layer begins. With such a current the two copies of the field on the common border differ (refuted); with 'DM' the blocks are never stepped, so the layers do nothing (refuted). Exact arithmetic."
  },
  {
   "property": "C98",
   "status": "partial",
   "theorems": [
    "Wakis.Cond.C98_area_plane",
    "Wakis.Cond.C98_ect_refuted",
    "Wakis.Cond.C98_empty_box_refuted",
    "Wakis.Cond.C98_fit_partial"
   ],
   "note": "Areas: proved for plane conductors and faces whose edges are not cut within the tolerance of an end. False of the code: an ECT grid can only be built if no face is marked as unstable (then nothing is enlarged), and even an empty box fails if a face of a cell is larger than two square units; the FIT lengths along z differ from dz unless the box is as long along z as along y."
  },
  {
   "property": "C99",
   "status": "partial",
   "theorems": [
    "Wakis.Mpi.C99_open_refuted",
    "Wakis.Mpi.C99_pml_refuted",
    "Wakis.Mpi.C34_distributed_equals_serial_partial",
    "Wakis.Mpi.C99_high_refuted"
   ],
   "note": "Holds for PEC transverse faces (C34). False for open and PML transverse faces: the low names are kept on the first rank only and the high names on the last one; all others silently become PEC."
  }
 ]
}
