{"id": "C01", "title": "Field cell read after write", "statement": "After field[i,j,k,c] = v with i,j,k in range and c a component name or number, field[i,j,k,c] reads v and every other cell of every component reads what it read before; any sequence of such writes makes the Field behave like a map from (i,j,k,component) to values holding the last value written.", "quantifier": "every grid size, every sequence of writes, every cell and component, including negative (wrapping) Python indices", "why_tests_cant": "A test writes a few cells of one grid; aliasing between cells or components of some other grid size is not sampled.", "anchors": ["wakis/field.py:Field.__getitem__", "wakis/field.py:Field.__setitem__", "wakis/field.py:Field.to_matrix", "wakis/field.py:Field.from_matrix"]}
{"id": "C02", "title": "Flat layout is a bijection", "statement": "The flat array of a Field of size Nx,Ny,Nz stores cell (i,j,k) of component c at c*N + i + j*Nx + k*Nx*Ny; distinct cells occupy distinct positions, every position below 3N is some cell, and to_matrix after from_matrix (and the reverse) is the identity.", "quantifier": "every Nx,Ny,Nz (including zero and one), every flat position, every matrix", "why_tests_cant": "Round trips on a few shapes cannot exclude collisions for shapes not tried.", "anchors": ["wakis/field.py:Field.to_matrix", "wakis/field.py:Field.from_matrix", "wakis/field.py:Field.field_x"]}
{"id": "C03", "title": "compute_ijk inverts the lexicographic index", "statement": "compute_ijk(n) returns the unique in-range (i,j,k) with i + j*Nx + k*Nx*Ny = n for every cell number n of the grid, and refuses every n that is not a cell number.", "quantifier": "every grid size and every integer n", "why_tests_cant": "The boundary n = N and negative n are single points of an infinite range.", "anchors": ["wakis/field.py:Field.compute_ijk"]}
{"id": "C04", "title": "Integer and slice keys address the flat array", "statement": "field[n] with an int n reads/writes flat position n of the 3N-entry array for every valid n and raises IndexError otherwise; it never touches another position.", "quantifier": "every grid size and every integer n, positive or negative", "why_tests_cant": "The accepted and rejected ranges are unbounded; the guard's boundary is one point.", "anchors": ["wakis/field.py:Field.__getitem__", "wakis/field.py:Field.__setitem__"]}
{"id": "C05", "title": "Unknown components are refused without side effect", "statement": "Reading, writing or replacing a component other than 0/1/2/'x'/'y'/'z' (reading also allows 'abs' in any letter case) raises an exception and leaves the stored values untouched.", "quantifier": "every key, every field content", "why_tests_cant": "The space of invalid keys is infinite.", "anchors": ["wakis/field.py:Field.__getitem__", "wakis/field.py:Field.__setitem__", "wakis/field.py:Field.from_matrix"]}
{"id": "C06", "title": "Field arithmetic is componentwise and pure", "statement": "field*scalar, field*matrix, field*array, field+field and field+matrix return a new Field whose every cell is the product/sum of the operands' cells; operands are unchanged, and the field operations obey the distributive laws the material set-up relies on.", "quantifier": "every size, every pair of operands of matching shape, every cell and component", "why_tests_cant": "Tests compare a few numeric arrays; the law has to hold for every operand.", "anchors": ["wakis/field.py:Field.__mul__", "wakis/field.py:Field.__add__"]}
{"id": "C07", "title": "copy() is independent, toarray()/to_matrix() are live", "statement": "After g = f.copy(), no sequence of writes through g is visible through f or the reverse; an array obtained from f.toarray(), f.field_x or f.to_matrix(c) on the CPU keeps showing the later content of f.", "quantifier": "every interleaving of writes through the original, the copy and the obtained arrays", "why_tests_cant": "Aliasing errors depend on the interleaving; tests exercise one.", "anchors": ["wakis/field.py:Field.copy", "wakis/field.py:Field.toarray", "wakis/field.py:Field.to_matrix"]}
{"id": "C08", "title": "Field magnitude", "statement": "get_abs() (and component 'Abs') is non-negative, its square is the sum of the squared components, it is zero exactly where all three components are zero, and the matrix and flat variants agree cell by cell.", "quantifier": "every field content and every cell", "why_tests_cant": "Real-valued law over all contents.", "anchors": ["wakis/field.py:Field.get_abs"]}
{"id": "C09", "title": "Cell lengths tile the domain", "statement": "For every strictly increasing axis the primary cell lengths are positive and add up exactly to the domain extent along that axis; for extents plus cell counts the nodes are equally spaced from min to max.", "quantifier": "every number of cells, every strictly increasing node list, every extent", "why_tests_cant": "Holds for all node lists; tests use a handful of uniform grids.", "anchors": ["wakis/gridFIT3D.py:GridFIT3D.__init__", "wakis/gridFIT3D.py:GridFIT3D._compute_grid"]}
{"id": "C10", "title": "Inverse areas are exact inverses and never divide by zero", "statement": "On every cell the stored primary inverse area times the product of the two transverse lengths is 1, and the stored dual inverse area times the product of the two transverse dual lengths is 1 where that product is non-zero and the stored value is 0 where it is zero.", "quantifier": "every strictly increasing grid, every cell, every component", "why_tests_cant": "Quantifies over all grids and cells, including the degenerate last dual layer.", "anchors": ["wakis/gridFIT3D.py:GridFIT3D._compute_grid"]}
{"id": "C11", "title": "Dual lengths are midpoint distances", "statement": "Every dual length except in the last layer of its axis is half the sum of the two adjacent cell lengths (hence positive); in the last layer it is exactly 0, and the dual lengths of an axis add up to the distance of the first and last cell centres.", "quantifier": "every strictly increasing grid, every cell", "why_tests_cant": "As above; needs all grids.", "anchors": ["wakis/gridFIT3D.py:GridFIT3D._compute_grid"]}
{"id": "C12", "title": "MPI z-partition covers the domain exactly once", "statement": "For every number of ranks and every Nz >= number of ranks, removing ghost layers from the per-rank grids yields consecutive blocks that together are exactly the global layers 0..NZ-1, each once, with equal size, where NZ is the largest multiple of the rank count not above Nz; node coordinates of owned and ghost layers equal those of the global grid; Nz below the rank count is refused.", "quantifier": "every rank count, every Nz, every rank", "why_tests_cant": "Off-by-one errors at rank boundaries show up only for particular rank counts.", "anchors": ["wakis/gridFIT3D.py:GridFIT3D._mpi_initialize"]}
{"id": "C13", "title": "Gather after distribution is the identity", "statement": "If every rank holds its owned layers plus ghosts of a global array, mpi_gather / mpi_gather_asField on the root return exactly that global array (or the requested z part of it), whatever the ghost layers contain.", "quantifier": "every rank count, every Nx,Ny,NZ, every array content and ghost content, every component", "why_tests_cant": "The reassembly has separate branches for first, middle and last rank; all counts must be covered.", "anchors": ["wakis/solverFIT3D.py:SolverFIT3D.mpi_gather", "wakis/solverFIT3D.py:SolverFIT3D.mpi_gather_asField"]}
{"id": "C14", "title": "Saved grid reloads to the same material map", "statement": "save_to_h5 followed by load_from_h5 yields a grid with the same axes, masks and per-solid data, and a solver built on it has the same material in every cell as one built on the original.", "quantifier": "every grid, every number and naming of solids, every (overlapping) mask", "why_tests_cant": "Depends on the naming and overlap of solids, an unbounded space.", "anchors": ["wakis/gridFIT3D.py:GridFIT3D.save_to_h5", "wakis/gridFIT3D.py:GridFIT3D.load_from_h5"]}
{"id": "C15", "title": "STL settings are broadcast to every solid", "statement": "A single material, rotation, translation, scale or colour given for several solids is applied to each of them, lists are paired with solids in order, and every solid ends up with exactly one entry of each setting.", "quantifier": "every number of solids, every accepted form of each argument", "why_tests_cant": "Argument forms times number of solids is unbounded.", "anchors": ["wakis/gridFIT3D.py:GridFIT3D._prepare_stl_dicts"]}
{"id": "C16", "title": "The curl operator is the documented finite-difference stencil", "statement": "For every cell away from the high faces, the discrete curl used for the H update is the circulation of E around the cell's primary face (forward differences) and the one for the E update its transpose (backward differences of H).", "quantifier": "every grid size, every field content, every cell", "why_tests_cant": "The operator is assembled from shifted diagonals; whether the shift hits the right neighbour must hold for all sizes.", "anchors": ["wakis/solverFIT3D.py:SolverFIT3D.__init__"]}
{"id": "C17", "title": "Magnetic flux stays divergence-free", "statement": "With any boundary conditions not using PMC, the discrete divergence of mu*H*area in every cell has, after any number of time steps, the value it had after the first-step initialisation (0 from zero fields).", "quantifier": "every grid, metric, material with non-zero 1/mu and 1/area, every initial state, every source history, every number of steps", "why_tests_cant": "An exact conservation law over unbounded histories.", "anchors": ["wakis/solverFIT3D.py:SolverFIT3D._one_step", "wakis/solverFIT3D.py:SolverFIT3D.__init__"]}
{"id": "C18", "title": "Electric charge continuity", "statement": "At every node whose adjacent edges are neither PEC nor degenerate, the discrete divergence of eps*E*dual area changes in one step by exactly -dt times the divergence of J*dual area; charge-free evolution keeps it constant for all steps.", "quantifier": "every grid, material, state, current history and step count", "why_tests_cant": "Exact law over unbounded histories.", "anchors": ["wakis/solverFIT3D.py:SolverFIT3D._one_step"]}
{"id": "C19", "title": "Lossless discrete energy is conserved exactly", "statement": "Without currents and conductivity, the leapfrog energy <E,eps E> + <H_prev, mu H_next> (volume weighted) is exactly the same after every number of steps, for every boundary condition and material including PEC solids.", "quantifier": "every grid, material, boundary choice, initial state, step count", "why_tests_cant": "Exact identity over unbounded histories and operators.", "anchors": ["wakis/solverFIT3D.py:SolverFIT3D._one_step"]}
{"id": "C20", "title": "CFL time step gives stable runs", "statement": "With the automatically chosen dt (cfln < 1) and relative eps, mu >= 1 (or PEC), the field energy stays below a constant multiple of its initial value for all time steps in a lossless source-free run.", "quantifier": "every grid, every cfln in (0,1), every admissible material map and initial state, every number of steps", "why_tests_cant": "Stability is a statement about infinitely many steps.", "anchors": ["wakis/solverFIT3D.py:SolverFIT3D.__init__", "wakis/solverFIT3D.py:SolverFIT3D._one_step"]}
{"id": "C21", "title": "Superposition", "statement": "Time stepping is linear: running the sum (or a multiple) of two initial states and source histories gives the sum (multiple) of the two runs after any number of steps.", "quantifier": "every solver set-up, pair of states, scalars, source histories, step counts", "why_tests_cant": "All states and histories.", "anchors": ["wakis/solverFIT3D.py:SolverFIT3D._one_step"]}
{"id": "C22", "title": "Quiescence and reset", "statement": "reset_fields() sets every component of E, H and J to zero, and a zero state without source stays exactly zero for any number of steps.", "quantifier": "every state, set-up and step count", "why_tests_cant": "All prior states and all step counts.", "anchors": ["wakis/solverFIT3D.py:SolverFIT3D.reset_fields", "wakis/solverFIT3D.py:SolverFIT3D._one_step"]}
{"id": "C23", "title": "Fields inside PEC material never change", "statement": "In a cell whose permittivity is infinite (PEC), E keeps its initial value for ever, whatever sources and neighbours do; starting from zero it is zero for ever.", "quantifier": "every grid, material map, source history and step count", "why_tests_cant": "Unbounded histories.", "anchors": ["wakis/solverFIT3D.py:SolverFIT3D._one_step", "wakis/solverFIT3D.py:SolverFIT3D._apply_stl_materials"]}
{"id": "C24", "title": "Tangential E vanishes on PEC faces", "statement": "On a domain face declared 'pec'/'electric'/'pml', tangential E is zero at every node of the face (including edges shared with other faces) after any number of steps when it starts at zero and no current is driven there.", "quantifier": "every grid, every combination of the six boundary conditions, every state history", "why_tests_cant": "Six faces with many conditions each and all edges.", "anchors": ["wakis/solverFIT3D.py:SolverFIT3D._apply_bc_to_C", "wakis/solverFIT3D.py:SolverFIT3D._one_step"]}
{"id": "C25", "title": "No coupling across opposite PEC faces", "statement": "With PEC on the low x (y) face the flat-index curl does not couple the last cell of a row (plane) with the first cell of the next one: the H update equals the true 3-D stencil with zero outside the domain.", "quantifier": "every grid size, every state", "why_tests_cant": "The wrap-around of the flat index occurs at all rows; must be excluded for all.", "anchors": ["wakis/solverFIT3D.py:SolverFIT3D.__init__", "wakis/solverFIT3D.py:SolverFIT3D._apply_bc_to_C"]}
{"id": "C26", "title": "Tangential H vanishes on PMC faces", "statement": "On a face declared 'pmc'/'magnetic' (any letter case) tangential H is zero for all time when it starts at zero, and declaring PMC on one face does not alter H on faces of other types.", "quantifier": "every grid, every combination of boundary conditions, letter case and history", "why_tests_cant": "As for PEC.", "anchors": ["wakis/solverFIT3D.py:SolverFIT3D._apply_bc_to_C"]}
{"id": "C27", "title": "Periodic faces wrap around", "statement": "With 'periodic' on both faces of an axis a field leaving through one face re-enters at the same transverse position of the opposite face.", "quantifier": "every grid, axis, state", "why_tests_cant": "All sizes and states.", "anchors": ["wakis/solverFIT3D.py:SolverFIT3D._apply_bc_to_C"]}
{"id": "C28", "title": "Boundary names are case-insensitive", "statement": "Two spellings of the six boundary names that differ only in letter case give identical solvers.", "quantifier": "every six names and spellings", "why_tests_cant": "All spellings.", "anchors": ["wakis/solverFIT3D.py:SolverFIT3D._apply_bc_to_C"]}
{"id": "C29", "title": "Last solid wins in overlapping materials", "statement": "After set-up each cell carries permittivity, permeability and conductivity of the last listed solid containing it, or the background if none; listing order of disjoint solids does not matter.", "quantifier": "every number of solids, masks, materials, background, cell", "why_tests_cant": "All overlaps and lists.", "anchors": ["wakis/solverFIT3D.py:SolverFIT3D._apply_stl_materials"]}
{"id": "C30", "title": "Time step respects both limits", "statement": "The chosen dt never exceeds the requested dt (or CFL limit) and, with conductivity, the smallest relaxation time; hence the explicit damping factor 1 - dt*sigma/eps of every cell lies in [0,1].", "quantifier": "every grid, cfln, dt, material map with non-negative sigma and eps", "why_tests_cant": "All material maps.", "anchors": ["wakis/solverFIT3D.py:SolverFIT3D.__init__"]}
{"id": "C31", "title": "PML layers carry the graded conductivity", "statement": "On each PML face the n_pml outermost layers get strictly positive conductivity growing monotonically from 5e-3 to 10 (times the reference) towards the face, all cells outside the layers keep their materials, and the reference is the layer adjacent to the PML.", "quantifier": "every grid, n_pml, combination of PML faces, material map", "why_tests_cant": "All combinations and cells.", "anchors": ["wakis/solverFIT3D.py:SolverFIT3D._fill_pml_sigmas"]}
{"id": "C32", "title": "All MPI ranks use the same dt", "statement": "In a distributed run every rank advances with the same time step.", "quantifier": "every rank count and material distribution", "why_tests_cant": "Depends on where materials lie.", "anchors": ["wakis/solverFIT3D.py:SolverFIT3D.__init__", "wakis/gridFIT3D.py:GridFIT3D._mpi_initialize"]}
{"id": "C33", "title": "Halo exchange is deadlock-free and schedule-independent", "statement": "For every number of ranks and every interleaving of the blocking Sendrecv calls, each halo exchange terminates and leaves in every ghost layer the neighbour's adjacent owned layer and every other cell unchanged.", "quantifier": "every rank count, every schedule, every field content", "why_tests_cant": "Schedules cannot be enumerated by tests.", "anchors": ["wakis/solverFIT3D.py:SolverFIT3D._mpi_communicate"]}
{"id": "C34", "title": "Distributed run equals serial run", "statement": "With PEC transverse boundaries, gathering the fields of the ranks after any number of MPI steps gives exactly the fields of the single-process solver on the same global grid.", "quantifier": "every rank count >= 2, grid, material map, source history, step count", "why_tests_cant": "All partitions and histories.", "anchors": ["wakis/solverFIT3D.py:SolverFIT3D._mpi_one_step", "wakis/solverFIT3D.py:SolverFIT3D._one_step"]}
{"id": "C35", "title": "Checkpoint and resume", "statement": "save_state then load_state restores E, H and J bit for bit, and continuing from the restored state gives the same run as continuing without interruption.", "quantifier": "every state, checkpoint step, number of later steps, same or fresh solver", "why_tests_cant": "All crash points and continuations.", "anchors": ["wakis/solverFIT3D.py:SolverFIT3D.save_state", "wakis/solverFIT3D.py:SolverFIT3D.load_state"]}
{"id": "C36", "title": "update_tensors at any point of a run", "statement": "After editing ieps, imu or sigma, update_tensors makes subsequent steps use the edited materials, at any point of the history, without other side effects.", "quantifier": "every history of steps and updates", "why_tests_cant": "All histories.", "anchors": ["wakis/solverFIT3D.py:SolverFIT3D.update_tensors", "wakis/solverFIT3D.py:SolverFIT3D._attrcleanup"]}
{"id": "C37", "title": "Building a solver does not change the grid", "statement": "Two solvers built one after the other on the same grid behave as if each had been built on a fresh grid.", "quantifier": "every grid and every pair of boundary settings", "why_tests_cant": "All pairs and orders.", "anchors": ["wakis/solverFIT3D.py:SolverFIT3D._apply_bc_to_C"]}
{"id": "C38", "title": "ABC boundary uses the delayed inner layer", "statement": "With 'abc' on a face, emsolve overwrites the outermost layer after each step with the neighbouring layer of two steps earlier, on CPU as on GPU, for any set of ABC faces.", "quantifier": "every set of ABC faces, every state, every number of steps", "why_tests_cant": "Aliasing over histories.", "anchors": ["wakis/solverFIT3D.py:SolverFIT3D.get_abc", "wakis/solverFIT3D.py:SolverFIT3D.update_abc", "wakis/routines.py:RoutinesMixin.emsolve"]}
{"id": "C39", "title": "emsolve event order and composition", "statement": "In every completed run emsolve(Nt) performs for n = 0..Nt-1 in order: source update at n*dt, one time step, callback at n*dt; each exactly Nt times and nothing else. On the CPU, a source-free run of N1+N2 steps (with a callback that ignores the time, or none) equals a run of N1 followed by a run of N2.", "quantifier": "every Nt, source, callback, state", "why_tests_cant": "All lengths and splits.", "anchors": ["wakis/routines.py:RoutinesMixin.emsolve"]}
{"id": "C40", "title": "emsolve saving", "statement": "emsolve(save=True) runs to completion and stores one frame per save_every steps.", "quantifier": "every Nt, save_every >= 1, set of fields", "why_tests_cant": "All lengths.", "anchors": ["wakis/routines.py:RoutinesMixin.emsolve"]}
{"id": "C41", "title": "Sources write only their own cells", "statement": "A source update changes only the components and cells it declares (beam: Jz on its transverse cell; plane wave / packet / dipole / pulse: their slices), leaving all others untouched, at every time.", "quantifier": "every source configuration, time, state", "why_tests_cant": "All states and times.", "anchors": ["wakis/sources.py:Beam.update", "wakis/sources.py:PlaneWave.update", "wakis/sources.py:Dipole.update", "wakis/sources.py:Pulse.update"]}
{"id": "C42", "title": "Beam current carries the bunch charge", "statement": "At every time the beam current density on cell k is q*v*lambda(z_k - zmin - v*(t - ti))/(dx*dy), so current density is q*v times a unit-integral line density divided by the cell's transverse area.", "quantifier": "every beam, grid, time, layer", "why_tests_cant": "All parameters.", "anchors": ["wakis/sources.py:Beam.update"]}
{"id": "C43", "title": "Beam and wake agree on the injection time", "statement": "The bunch centre crosses position z at the time that the wake solver assigns to s = 0 at z, for every beta and every user-supplied injection time.", "quantifier": "every beta in (0,1], sigma, ti", "why_tests_cant": "All parameter values.", "anchors": ["wakis/routines.py:RoutinesMixin.wakesolve", "wakis/sources.py:Beam.__init__", "wakis/wakeSolver.py:WakeSolver.__init__"]}
{"id": "C44", "title": "Transverse positions snap to the nearest cell", "statement": "Source and test positions are mapped to a cell whose centre is at minimal distance from the requested coordinate (the lowest-index one on ties), which always exists.", "quantifier": "every axis, every coordinate", "why_tests_cant": "All coordinates.", "anchors": ["wakis/sources.py:Beam.update", "wakis/routines.py:RoutinesMixin.wakesolve"]}
{"id": "C45", "title": "Pulse shapes are bounded and supported on the pulse duration", "statement": "Harris and rectangular pulses take values in [0,1] and are zero before the pulse starts and after it ends; a pulse built with default length does excite the fields.", "quantifier": "every time, length, delay", "why_tests_cant": "Continuous time range.", "anchors": ["wakis/sources.py:Pulse.harris_pulse", "wakis/sources.py:Pulse.rectangular_pulse", "wakis/sources.py:Pulse.update"]}
{"id": "C46", "title": "Wake integration uses only recorded samples", "statement": "For every wake distance s on the s axis and every z, the time index used is between 0 and the number of recorded steps (never negative, hence never wraps to the end of the record) and, up to one dt before the requested wake length, always recorded.", "quantifier": "every grid, dt, sigma, beta, ti, wake length, s, z", "why_tests_cant": "Rounding of all parameter combinations.", "anchors": ["wakis/wakeSolver.py:WakeSolver.calc_long_WP", "wakis/wakeSolver.py:WakeSolver.calc_long_WP_3d", "wakis/routines.py:RoutinesMixin.wakesolve"]}
{"id": "C47", "title": "Longitudinal wake potential is the line integral", "statement": "WP(s) is the sum over the cells along z of Ez, at the time the test particle at distance s behind the bunch passes the cell, times the cell length, divided by the charge (V/pC); it is linear in Ez and inversely proportional to q; samples beyond the record contribute zero.", "quantifier": "every recorded field, grid, charge", "why_tests_cant": "All fields.", "anchors": ["wakis/wakeSolver.py:WakeSolver.calc_long_WP"]}
{"id": "C48", "title": "Wake map cells are independent", "statement": "Each transverse cell of the 3-D wake potential depends only on the recorded field of that cell and the centre equals the 1-D wake potential.", "quantifier": "every recorded field", "why_tests_cant": "All fields.", "anchors": ["wakis/wakeSolver.py:WakeSolver.calc_long_WP_3d"]}
{"id": "C49", "title": "Recorded frames are read in chronological order", "statement": "Sorting the dataset names of the recorded Ez file returns the frames in time order, for every run length, and the loader never mistakes metadata for a frame.", "quantifier": "every number of steps", "why_tests_cant": "Lengths beyond any test run.", "anchors": ["wakis/wakeSolver.py:WakeSolver.calc_long_WP", "wakis/routines.py:RoutinesMixin.wakesolve"]}
{"id": "C50", "title": "Transverse wake from Panofsky-Wenzel", "statement": "The transverse wake is minus the running s-integral of the central transverse difference of the longitudinal wake; it vanishes when the wake map does not depend on the transverse position, is antisymmetric under mirroring and linear.", "quantifier": "every wake map", "why_tests_cant": "All maps.", "anchors": ["wakis/wakeSolver.py:WakeSolver.calc_trans_WP"]}
{"id": "C51", "title": "Impedance frequency axis", "statement": "The impedance is returned on equally spaced frequencies starting at 0, strictly increasing, all below fmax, at most `samples` of them, with bin k meaning the DFT coefficient at that frequency.", "quantifier": "every ds, v, fmax, samples", "why_tests_cant": "All parameters.", "anchors": ["wakis/wakeSolver.py:WakeSolver.calc_long_Z", "wakis/wakeSolver.py:WakeSolver.calc_trans_Z"]}
{"id": "C52", "title": "Impedance is linear and refreshes with its inputs", "statement": "Z is -DFT(WP)/DFT(lambda) bin by bin; scaling or adding wakes scales or adds impedances, and recomputing after WP or s changed uses the current charge distribution.", "quantifier": "every wake, charge distribution, history of recomputations", "why_tests_cant": "All histories.", "anchors": ["wakis/wakeSolver.py:WakeSolver.calc_long_Z", "wakis/wakeSolver.py:WakeSolver.calc_lambdas"]}
{"id": "C53", "title": "Results reload as saved", "statement": "After a saved run, load_results returns for every quantity (WP, WPx, WPy, Z, Zx, Zy, lambda) the arrays computed.", "quantifier": "every result set", "why_tests_cant": "All contents.", "anchors": ["wakis/wakeSolver.py:WakeSolver.load_results", "wakis/wakeSolver.py:WakeSolver.calc_trans_WP", "wakis/wakeSolver.py:WakeSolver.save_txt", "wakis/wakeSolver.py:WakeSolver.read_txt"]}
{"id": "C54", "title": "Deposition conserves charge-weighted field", "statement": "On-the-fly wake deposition splits each sample between the two neighbouring s bins with non-negative weights adding to one and never writes outside the s axis.", "quantifier": "every sample time, position and s axis", "why_tests_cant": "All real positions.", "anchors": ["wakis/wakeSolver.py:WakeSolver.update_long_WP"]}
{"id": "C55", "title": "Field monitor is the running Fourier sum", "statement": "After any sequence of updates the accumulated monitor value at each frequency and cell is the sum over updates n of field_n * exp(-2*pi*i*f*n*dt), linear in the recorded fields, independent for each frequency.", "quantifier": "every sequence of fields, every frequency", "why_tests_cant": "All histories.", "anchors": ["wakis/field_monitors.py:FieldMonitor.update"]}
{"id": "C56", "title": "CST field import index decoding", "statement": "Importing a CST text export places row r at the (i,j,k) of the original regular grid, each row in a distinct cell, covering all cells.", "quantifier": "every grid size n", "why_tests_cant": "All sizes and rows.", "anchors": ["wakis/wakeSolver.py:WakeSolver.read_cst_3d"]}
{"id": "C57", "title": "STEP solids get distinct, consistent names", "statement": "For every list of solids the generated names are pairwise distinct, contain only letters, digits, '_' and '-', start with the solid's index, and are the same in the colour, material and solid dictionaries.", "quantifier": "every list of solid names", "why_tests_cant": "All lists of names including duplicates and unusual characters.", "anchors": ["wakis/geometry.py:extract_colors_from_stp", "wakis/geometry.py:extract_materials_from_stp", "wakis/geometry.py:extract_solids_from_stp"]}
{"id": "C58", "title": "STEP unit scale", "statement": "The unit scale returned for a STEP file converts its length unit to metres for every SI prefix.", "quantifier": "every SI prefix", "why_tests_cant": "Table completeness.", "anchors": ["wakis/geometry.py:get_stp_unit_scale"]}
{"id": "C59", "title": "STL transformations are applied in the documented order", "statement": "Every solid is rotated about x, then y, then z, then translated, then scaled, so a vertex p ends at scale*(Rz Ry Rx p + t).", "quantifier": "every vertex and setting", "why_tests_cant": "All vertices.", "anchors": ["wakis/gridFIT3D.py:GridFIT3D.read_stl"]}
{"id": "C60", "title": "Run log is complete and serialisable", "statement": "The log file contains the wake solver, solver and grid sections in this order, each entry converted to a JSON value, for every content including nested containers and arrays.", "quantifier": "every (nested) log content", "why_tests_cant": "All nestings.", "anchors": ["wakis/logger.py:Logger.save_logs"]}
{"id": "C61", "title": "Explicit zero conductivity is accepted", "statement": "Building a solver whose materials or background are given an explicit conductivity of zero behaves as building it with non-conducting materials.", "quantifier": "every grid, material table", "why_tests_cant": "All material tables and partitions.", "anchors": ["wakis/solverFIT3D.py:SolverFIT3D._apply_stl_materials", "wakis/solverFIT3D.py:SolverFIT3D._one_step"]}
{"id": "C62", "title": "Wave packet has its declared transverse profile", "statement": "A wave-packet update writes at every cell (i,j) of its plane the packet value at the position (x_i, y_j) of that cell, for every transverse grid.", "quantifier": "every grid, packet parameters, time, transverse cell", "why_tests_cant": "All grids, including those with different numbers of cells in x and y.", "anchors": ["wakis/sources.py:WavePacket.update"]}
{"id": "C63", "title": "Plane wave lasts for its number of nodes", "statement": "A plane wave built from a number of nodes excites the fields for that many periods and sets them to zero afterwards; the frequency may be omitted.", "quantifier": "every plane wave, time", "why_tests_cant": "All times.", "anchors": ["wakis/sources.py:PlaneWave.__init__", "wakis/sources.py:PlaneWave.update"]}
{"id": "C64", "title": "Injected waves have the free-space impedance", "statement": "The electric and magnetic fields written by a plane wave or a wave packet (beta = 1) have the ratio mu0*c at every cell and time.", "quantifier": "every frequency, amplitude, phase, cell, time", "why_tests_cant": "All frequencies and times.", "anchors": ["wakis/sources.py:PlaneWave.update", "wakis/sources.py:WavePacket.update"]}
{"id": "C65", "title": "A wake run records what it simulated", "statement": "wakesolve records exactly Nt = int(tmax/dt) frames; frame n is Ez at the test position after n time steps, each of them driven by the beam current at its time n*dt; a field monitor receives the field after every step; the wake potential returned is the line integral of the simulated field.", "quantifier": "every solver, grid, beam, wake length, test position, callback", "why_tests_cant": "All runs and fields; a test compares single numbers.", "anchors": ["wakis/routines.py:RoutinesMixin.wakesolve", "wakis/wakeSolver.py:WakeSolver.solve"]}
{"id": "C66", "title": "Counter-moving test particles", "statement": "With counter_moving the wake map sums, over the cells visited in the opposite direction, the field at the cell times that cell's own length with the opposite sign.", "quantifier": "every recorded field, grid, charge", "why_tests_cant": "All fields and non-uniform grids.", "anchors": ["wakis/wakeSolver.py:WakeSolver.calc_long_WP_3d"]}
{"id": "C67", "title": "A second wake calculation uses the new recording", "statement": "Solving again after a new run, or after pointing the wake solver at another recording, evaluates that recording.", "quantifier": "every history of runs and solves", "why_tests_cant": "All histories.", "anchors": ["wakis/wakeSolver.py:WakeSolver.calc_long_WP", "wakis/wakeSolver.py:WakeSolver.read_Ez", "wakis/routines.py:RoutinesMixin.wakesolve"]}
{"id": "C68", "title": "Monitor phase reference", "statement": "The Fourier sum accumulated by a monitor during a run refers to the time axis of the run: the field at time t enters with the phase exp(-2*pi*i*f*t).", "quantifier": "every run, frequency", "why_tests_cant": "All runs.", "anchors": ["wakis/routines.py:RoutinesMixin.wakesolve", "wakis/field_monitors.py:FieldMonitor.update"]}
{"id": "C69", "title": "Text export and import are inverse", "statement": "Two columns written with save_txt under two names are returned by read_txt as the same columns under the same names.", "quantifier": "every pair of columns of equal length and every pair of column names", "why_tests_cant": "All lengths, values and names.", "anchors": ["wakis/wakeSolver.py:WakeSolver.save_txt", "wakis/wakeSolver.py:WakeSolver.read_txt"]}
{"id": "C70", "title": "Solid masks line up with field cells", "statement": "The mask entry the solver uses for field cell (i,j,k) is the one computed for the grid cell with corner x[i], y[j], z[k].", "quantifier": "every grid size, every mask, every cell", "why_tests_cant": "Index ordering must agree for all sizes, including equal and prime numbers of cells.", "anchors": ["wakis/gridFIT3D.py:GridFIT3D._compute_grid", "wakis/solverFIT3D.py:SolverFIT3D._apply_stl_materials"]}
{"id": "C71", "title": "Library materials named in a STEP file are recognised", "statement": "A STEP solid whose layer carries the name of a library material, with any capitals, gets a material the solver knows.", "quantifier": "every library material and capitalisation", "why_tests_cant": "All spellings of all library names.", "anchors": ["wakis/geometry.py:extract_materials_from_stp", "wakis/materials.py:material_lib"]}
{"id": "C72", "title": "A charge distribution given by the user is used as given", "statement": "With a charge profile given as a file, a dictionary or an array, the line density entering the impedance is the profile divided by the charge, joined by straight lines at every distance within the profile and zero outside it; only the shape matters, and the bunch length plays no role.", "quantifier": "every profile, charge and distance axis", "why_tests_cant": "All profiles and axes; a test sees one profile that happens to vanish at its ends.", "anchors": ["wakis/wakeSolver.py:WakeSolver.calc_lambdas", "wakis/wakeSolver.py:WakeSolver.calc_long_Z"]}
{"id": "C73", "title": "Impedance from a given wake", "statement": "Computing an impedance from a wake table returns the Fourier sum of the samples on the frequencies of the time axis, is linear in the wake, does not depend on which form of the call is used, uses all samples, and padding or a frequency limit only refine or cut the axis.", "quantifier": "every wake, uniform time axis, number of samples and frequency limit", "why_tests_cant": "Statements about all wakes and lengths; a test compares a few spectra.", "anchors": ["wakis/wakeSolver.py:WakeSolver.calc_impedance_from_wake"]}
{"id": "C74", "title": "Wake from a given impedance", "statement": "Computing a wake from an impedance table returns at each reported time minus the real Fourier sum of the impedance at that time, does not depend on the form of the call, and undoes the calculation of an impedance from a wake.", "quantifier": "every impedance on a uniform frequency axis and number of samples", "why_tests_cant": "Time labels and inversion must be right for all lengths and spectra.", "anchors": ["wakis/wakeSolver.py:WakeSolver.calc_wake_from_impedance"]}
{"id": "C75", "title": "Fields linear in position are advanced exactly", "statement": "If E (or H) holds the samples of a field that is linear in position, one time step changes H (or E) in every inner cell by exactly the constant curl of that field, on uniform and non-uniform grids.", "quantifier": "every grid, linear field, material, boundary condition, inner cell", "why_tests_cant": "Consistency on all graded meshes; tests run on uniform grids or a few refined ones.", "anchors": ["wakis/gridFIT3D.py:GridFIT3D._compute_grid", "wakis/solverFIT3D.py:SolverFIT3D._one_step"]}
{"id": "C76", "title": "Mesh refinement keeps snap points, order and cell count", "statement": "With use_mesh_refinement, every axis returned is strictly increasing, starts and ends at the domain bounds, contains every snap point, and has the requested number of cells, for each documented refinement method.", "quantifier": "every domain, cell count, set of snap points, refinement method", "why_tests_cant": "Depends on every arrangement of snap points relative to the uniform nodes.", "anchors": ["wakis/gridFIT3D.py:GridFIT3D.refine_axis", "wakis/gridFIT3D.py:GridFIT3D._compute_snap_points", "wakis/gridFIT3D.py:GridFIT3D._refine_xyz_axis"]}
{"id": "C77", "title": "The grid has the axes the user asked for", "statement": "GridFIT3D uses the axis arrays it is given as they are, or equally spaced nodes for extents and cell counts; both ways agree on the same nodes; incomplete or contradictory arguments raise; verbosity, axis container type and user snap points do not change the outcome.", "quantifier": "every combination of constructor arguments", "why_tests_cant": "All combinations of optional arguments and all values.", "anchors": ["wakis/gridFIT3D.py:GridFIT3D.__init__"]}
{"id": "C78", "title": "The gathered MPI grid is the serial grid", "statement": "mpi_gather_asGrid returns, on rank 0, the grid a single process would build, and every rank's nodes are nodes of it at the rank's offset.", "quantifier": "every number of ranks, every domain and cell count", "why_tests_cant": "All rank counts and decompositions.", "anchors": ["wakis/gridFIT3D.py:GridFIT3D.mpi_gather_asGrid", "wakis/gridFIT3D.py:GridFIT3D._mpi_initialize"]}
{"id": "C79", "title": "Cells of a solid", "statement": "A cell belongs to a solid when (some of) its corners are inside and does not when none is, independently of the unit of length; larger solids mark more cells; each MPI rank marks the same cells as a single process.", "quantifier": "every grid, solid, tolerance, number of ranks", "why_tests_cant": "All geometries, grids and units.", "anchors": ["wakis/gridFIT3D.py:GridFIT3D._mark_cells_in_stl"]}
{"id": "C80", "title": "Default colours follow the material", "statement": "Without user colours each solid is shown in the colour of its material category, for every way the solver accepts the material (library name in any case, or a list of values).", "quantifier": "every material name and value list", "why_tests_cant": "All names and values.", "anchors": ["wakis/gridFIT3D.py:GridFIT3D._assign_colors", "wakis/materials.py:material_colors"]}
{"id": "C81", "title": "Lossy runs are stable at the default CFL number", "statement": "A solver built by the constructor with the automatically chosen time step at the default cfln = 0.5 (any cfln with cfln^2 < 1/2), passive materials that may conduct (relative eps and mu at least 1 or PEC, sigma >= 0), and every face electric, magnetic or PML, keeps the field energy below a fixed multiple of its initial value for all later time steps once no source acts.", "quantifier": "every grid with increasing axes, every mixture of the wall types on the six faces, every passive background and list of solids, every number of PML layers, every initial state, every number of steps", "why_tests_cant": "Stability is a statement about infinitely many steps, and the explicit treatment of the conduction current makes the admissible CFL number depend on the conductivity.", "anchors": ["wakis/solverFIT3D.py:SolverFIT3D.__init__", "wakis/solverFIT3D.py:SolverFIT3D._one_step", "wakis/solverFIT3D.py:SolverFIT3D._fill_pml_sigmas"]}
{"id": "C82", "title": "Sources act on the same cells in an MPI run as in a serial run", "statement": "In a run distributed over two or more ranks, calling update(solver, t) of a source on every rank gives every cell owned by a rank the value the same call gives that cell in a serial run on the same global grid: a beam drives the same current at the same z, and a plane wave, wave packet, dipole or pulse placed at layer zs drives global layer zs only, at the same frequency.", "quantifier": "every number of ranks, every rank, every number of layers, every source of each class, every time, every prior field content", "why_tests_cant": "Which cells are driven depends on the rank, the number of ranks, the ghost layers and the position of the source; tests run one decomposition.", "anchors": ["wakis/sources.py:Beam.update", "wakis/sources.py:PlaneWave.update", "wakis/sources.py:Dipole.update", "wakis/gridFIT3D.py:GridFIT3D._mpi_initialize", "wakis/solverFIT3D.py:SolverFIT3D._mpi_initialize"]}
{"id": "C83", "title": "Conductors of the conformal FDTD grids answer consistently", "statement": "For every conductor object of the two- and three-dimensional FDTD grids, out_conductor is the negation of in_conductor; an assembly is the union of its members; and intersec_x, intersec_y, intersec_z called from a point outside return the nearest surface point of the conductor on the grid line through the point (inf when the line does not meet the surface), for single shapes and for assemblies of any shapes.", "quantifier": "every shape, size, position, slope and orientation, every non-empty list of conductors, every point outside, every axis", "why_tests_cant": "The statement is about all points of space and all combinations of shapes; a test checks a few points of a few shapes.", "anchors": ["wakis/conductors.py", "wakis/conductors3d.py", "wakis/conductors.py:ConductorsAssembly", "wakis/conductors.py:InCircle.intersec_x", "wakis/conductors3d.py:OutSphere.intersec_x"]}
{"id": "C84", "title": "Edge lengths of the conformal grid are the free lengths", "statement": "After construction of a Grid2D or Grid3D, every entry of l_x, l_y (l_z) is the length of the part of that edge which is outside the conductor, up to the relative tolerance 1e-8, and exactly 0 or the full length when it is within the tolerance of these.", "quantifier": "every conductor whose intersection methods are right, every grid, every edge", "why_tests_cant": "Any position of the surface relative to the grid has to be covered.", "anchors": ["wakis/grid2D.py:Grid2D.compute_edges", "wakis/grid3D.py:Grid3D.compute_edges", "wakis/grid2D.py:seg_length"]}
{"id": "C85", "title": "The FDTD grids cover the requested box", "statement": "The nodes of a Grid2D or Grid3D start at (xmin, ymin, zmin) and end at (xmax, ymax, zmax).", "quantifier": "every extent and every number of cells", "why_tests_cant": "Holds by accident for cubes; only a statement over all extents tells the axes apart.", "anchors": ["wakis/grid2D.py:Grid2D.__init__", "wakis/grid3D.py:Grid3D.__init__"]}
{"id": "C86", "title": "Cell areas of the conformal grid are the free fractions", "statement": "The area computed for a cell is the fraction of the cell outside the conductor: exactly so when the surface is a plane and no edge is cut within the tolerance of a node; always between 0 and 1; 1 if the four edges are free and 0 if the four edges are in the conductor.", "quantifier": "every line, every grid, every cell", "why_tests_cant": "The formula is chosen among thirteen cases by the lengths of four edges; every way a line can cross a cell has to be covered.", "anchors": ["wakis/grid2D.py:compute_areas", "wakis/grid2D.py:eq", "wakis/grid2D.py:neq"]}
{"id": "C87", "title": "Stability marks of the conformal grid", "statement": "A cell is marked as unstable exactly if its free area is positive and smaller than half of one of its edges times the cell size across it, and as available exactly if it has free area and is not unstable.", "quantifier": "every grid, every cell size, every cell", "why_tests_cant": "The criterion compares quantities of different dimension unless areas and lengths are normalised alike, which shows only for cell sizes other than one.", "anchors": ["wakis/grid2D.py:mark_cells", "wakis/grid3D.py:Grid3D.mark_cells"]}
{"id": "C88", "title": "Extension of unstable cut cells", "statement": "Building a grid for the enlarged cell technique enlarges every cell marked unstable to its minimum stable area by borrowing positive areas from neighbouring available cells: what a cell gains equals what it borrowed, what a cell lends is removed from it, the total area does not change, and the construction ends, either with all cells extended or with an error.", "quantifier": "every grid size, every set of edge lengths and cell areas, every pattern of unstable and available cells", "why_tests_cant": "The greedy passes depend on the order and the pattern of all cells; conservation must hold for every pattern.", "anchors": ["wakis/grid2D.py:compute_extensions", "wakis/grid2D.py:_compute_extensions_one_cell", "wakis/grid2D.py:_compute_extensions_eight_cells", "wakis/grid2D.py:Grid2D.__init__"]}
{"id": "C89", "title": "Two-dimensional staircased scheme", "statement": "In the legacy two-dimensional FDTD solver without absorbing layers, fields inside conductors and on the box boundary stay zero, a discrete energy changes only by the work of the currents, is conserved without currents, and all fields stay bounded for every number of steps when the safety factor is below one.", "quantifier": "every grid size, every arrangement of conducting edges and cells, every current history, every number of steps", "why_tests_cant": "Stability concerns unboundedly many steps and all initial fields.", "anchors": ["wakis/solver2D.py:EMSolver2D.one_step_fdtd", "wakis/solver2D.py:EMSolver2D.advance_h_fdtd", "wakis/solver2D.py:EMSolver2D.advance_e_fdtd"]}
{"id": "C90", "title": "Two-dimensional conformal scheme", "statement": "In the legacy two-dimensional Dey-Mittra solver without absorbing layers, fields on conducting edges stay zero, a discrete energy weighted by the free edge lengths and areas changes only by the work of the currents, fields stay bounded below the stability limit, and without conductors the scheme is the standard scheme.", "quantifier": "every grid size, all edge lengths and areas, every current history, every number of steps", "why_tests_cant": "Stability and agreement concern all fields and unboundedly many steps.", "anchors": ["wakis/solver2D.py:EMSolver2D.one_step_dm", "wakis/solver2D.py:EMSolver2D.compute_v_and_rho", "wakis/solver2D.py:EMSolver2D.advance_e_dm"]}
{"id": "C91", "title": "Enlarged cell technique step", "statement": "A step of the enlarged cell technique changes the total magnetic flux of the free region exactly by minus the time step times the total voltage around its cells, however areas were borrowed; without unstable cells it is the step of the conformal scheme.", "quantifier": "every grid, every pattern of borrowed areas, all fields", "why_tests_cant": "The borrowed areas couple arbitrary patterns of cells; conservation must hold for each.", "anchors": ["wakis/solver2D.py:EMSolver2D.one_step_ect", "wakis/solver2D.py:EMSolver2D.one_step", "wakis/solver2D.py:EMSolver2D.compute_v_and_rho"]}
{"id": "C92", "title": "Absorbing blocks of the two-dimensional solver", "statement": "With absorbing layers on any combination of the four sides the legacy two-dimensional solver can be constructed; exactly the blocks that lie around the box are made, with the cell counts of their place, each connected on every side to what lies there, and each with its update coefficients; the total cell counts are those of box and layers.", "quantifier": "all sixteen combinations of absorbing sides, all cell counts", "why_tests_cant": "Each combination takes a different path through nested conditions; a test of the usual combination does not see the others.", "anchors": ["wakis/solver2D.py:EMSolver2D.__init__", "wakis/solver2D.py:EMSolver2D.organize_pmls", "wakis/solver2D.py:EMSolver2D.assemble_conductivities_pmls", "wakis/solver2D.py:EMSolver2D.assemble_coeffs_pmls"]}
{"id": "C93", "title": "Two-dimensional solver with absorbing layers", "statement": "A run of the legacy two-dimensional solver with absorbing layers is a run of Berenger's split-field equations on one grid made of the box and its layers: neighbours always agree on the fields they share and the seams have no effect. The layers are matched, damp, have zero conductivity next to the box growing outwards, treat both ends of an axis alike, and without conductivity are empty space.", "quantifier": "every box size, every layer thickness, every conductivity profile that is zero next to the box, all currents inside the box, every number of steps", "why_tests_cant": "Agreement of the blocks with a single grid must hold for all fields, sizes and numbers of steps.", "anchors": ["wakis/pmlBlock2D.py:PmlBlock2D", "wakis/solver2D.py:EMSolver2D.one_step_fdtd", "wakis/solver2D.py:EMSolver2D.update_e_boundary", "wakis/solver2D.py:EMSolver2D.update_e_boundary_dm", "wakis/solver2D.py:EMSolver2D.assemble_conductivities_pmls"]}
{"id": "C94", "title": "The three-dimensional staircased scheme conserves energy and is stable", "statement": "In the legacy three-dimensional solver with sol_type 'FDTD' and no absorbing layer, fields stay zero in the conductor and on the border of the box, one step changes the energy by minus the work of the currents on the free edges, and without currents the fields stay bounded for ever for every Courant number below one.", "quantifier": "every grid size, cell size, arrangement of conducting edges and faces, fields, currents and number of steps", "why_tests_cant": "Stability is a statement about infinitely many steps, and a test can only run some, on some grid; the balance is an identity over all fields.", "anchors": ["wakis/solver3D.py:EMSolver3D.one_step_fdtd", "wakis/solver3D.py:EMSolver3D.advance_h_fdtd", "wakis/solver3D.py:EMSolver3D.advance_e_fdtd"]}
{"id": "C95", "title": "The three-dimensional conformal scheme conserves energy, is stable on grids without marked faces, and agrees with the standard scheme in an empty box", "statement": "In the legacy three-dimensional solver with sol_type 'DM' and no absorbing layer, fields stay zero in the conductor, one step changes the energy (weighted with free lengths and areas) by minus the work of the currents, and without currents the fields stay bounded if no face is marked as unstable and the Courant number is at most the default one half. In an empty box the scheme is the standard one. Every accepted sol_type runs its scheme.", "quantifier": "every grid size, cell size, edge lengths and face areas, fields, currents, number of steps and name of the scheme", "why_tests_cant": "Stability is a statement about infinitely many steps and all conformal grids; agreement has to hold for all cell sizes.", "anchors": ["wakis/solver3D.py:EMSolver3D.one_step", "wakis/solver3D.py:EMSolver3D.one_step_dm", "wakis/solver3D.py:EMSolver3D.one_step_ect", "wakis/solver3D.py:EMSolver3D.compute_v_and_rho", "wakis/solver3D.py:EMSolver3D.advance_e_dm"]}
{"id": "C96", "title": "Absorbing layers of the three-dimensional solver can be used on any set of sides, and every block has the cells and conductivities of its place", "statement": "For every set of the six sides of the box declared absorbing, the three-dimensional solver can be constructed, has exactly one block for every side, edge and corner where absorbing layers meet, every block has the cell counts of its place, and its conductivities grow from zero at the box to a maximum set by the cell size of the axis at the outer end.", "quantifier": "all 64 sets of absorbing sides, every number of cells of the box and of each layer, every cell size, every block, axis and node", "why_tests_cant": "The construction has one branch per side, edge and corner, and the failures depend on the combination of sides and on how the cell counts compare, so any test covers a few of infinitely many cases.", "anchors": ["wakis/solver3D.py:EMSolver3D.connect_pmls", "wakis/solver3D.py:EMSolver3D.assemble_conductivities_pmls", "wakis/solver3D.py:EMSolver3D.assemble_coeffs_pmls", "wakis/pmlBlock3D.py:PmlBlock3D"]}
{"id": "C97", "title": "The three-dimensional solver with absorbing layers computes what one large grid would", "statement": "Stepping the legacy three-dimensional solver with absorbing blocks gives, in the box and in every block, including the nodes on their common borders, which are stored twice, the fields of the split-field equations on one single grid made of the box and its layers with a conducting outer border. This holds for every accepted scheme, for any conductors and any currents in the box.", "quantifier": "every number of steps, cell counts of the box and of each layer (none included), cell size, conductivity profile, conductors and current history", "why_tests_cant": "There are 27 places with different neighbours, twelve split fields each, and infinitely many cell counts, fields and numbers of steps; an error at one border shows up as a small reflection that a test would accept.", "anchors": ["wakis/solver3D.py:EMSolver3D.one_step_fdtd", "wakis/solver3D.py:EMSolver3D.update_e_boundary", "wakis/pmlBlock3D.py:PmlBlock3D.advance_h_fdtd", "wakis/pmlBlock3D.py:PmlBlock3D.advance_e_fdtd", "wakis/pmlBlock3D.py:PmlBlock3D.update_e_boundary", "wakis/solver3D.py:EMSolver3D.one_step_dm"]}
{"id": "C98", "title": "Faces and metric of the three-dimensional conformal grid", "statement": "In a Grid3D cut by a plane conductor the area stored for every face, in each of the three directions, is the fraction of that face outside the conductor; a grid for the enlarged cell technique can be built whenever its faces can be enlarged; with sol_type='FIT' the cell lengths of the grid are its dx, dy and dz.", "quantifier": "all boxes, cell counts, plane conductors and faces; all edge-length arrays for the constructor", "why_tests_cant": "The plane can cut a face in infinitely many ways (all combinations of cut, full and empty edges), in three orientations whose index orders differ; a test checks single cuts.", "anchors": ["wakis/grid3D.py:Grid3D.__init__", "wakis/grid3D.py:compute_areas", "wakis/grid3D.py:mark_cells", "wakis/grid3D.py:compute_extensions", "wakis/grid2D.py:compute_areas", "wakis/grid2D.py:mark_cells", "wakis/grid2D.py:compute_extensions"]}
{"id": "C99", "title": "Transverse boundary conditions hold along the whole box in a distributed run", "statement": "The boundary condition chosen for an x or y face applies on the part of that face that belongs to every rank: the fields computed near that face on each rank are those of the serial run with the same bc_low and bc_high.", "quantifier": "every set of boundary names, every rank count, grid, material map and field history", "why_tests_cant": "The names combine freely with the number of ranks and the part of the box a rank owns; tests use PEC walls, the one name for which the ranks agree by default.", "anchors": ["wakis/solverFIT3D.py:SolverFIT3D._mpi_initialize", "wakis/solverFIT3D.py:SolverFIT3D._apply_bc_to_C", "wakis/solverFIT3D.py:SolverFIT3D._fill_pml_sigmas"]}
{"id": "C100", "title": "Every rank accepts the set-up the serial solver accepts", "statement": "If a solver can be built for a grid, its materials and boundaries in a serial run, the solver of every rank can be built from the same arguments in a distributed run.", "quantifier": "every grid, material map, boundary names, cfl number, rank count and rank", "why_tests_cant": "Whether a rank fails depends on where conducting material lies relative to the slabs, and thus on geometry and the number of processes.", "anchors": ["wakis/solverFIT3D.py:SolverFIT3D.__init__", "wakis/solverFIT3D.py:SolverFIT3D._mpi_initialize", "wakis/gridFIT3D.py:GridFIT3D._mpi_initialize"]}
{"id": "C101", "title": "Transverse and longitudinal impedances obey the Panofsky-Wenzel relation", "statement": "The transverse impedances are returned on the frequency axis of the longitudinal one. At every frequency, the transverse impedance and the longitudinal impedances of the neighbouring test positions satisfy the discrete Panofsky-Wenzel relation, up to the contribution of the end of the recorded wake; where that vanishes the transverse impedance is v/omega times the transverse difference quotient of the longitudinal impedance, to first order in the step of the s axis.", "quantifier": "all wake maps, s axes of constant step, cell sizes, charge distributions, velocities, sample numbers and frequencies", "why_tests_cant": "The relation links three different calculations for every wake and every frequency; a test compares a few curves by eye.", "anchors": ["wakis/wakeSolver.py:WakeSolver.calc_trans_Z", "wakis/wakeSolver.py:WakeSolver.calc_trans_WP", "wakis/wakeSolver.py:WakeSolver.calc_long_Z"]}
{"id": "C102", "title": "Resonator fits use the impedance asked for, and extrapolated wakes continue the computed one", "statement": "get_DEmodel_fitting fits the real part of the impedance of the plane and dimension asked for, with bounds determined from the same data when none are given. get_extrapolated_wake returns the wake at the points of the computed s axis, continued to the requested length, at the time s/v behind a bunch of duration sigmaz/v and in the sign and unit of the computed wake.", "quantifier": "all impedances, planes, bounds, fit libraries, s axes, lengths and velocities", "why_tests_cant": "The fit is stochastic and its quality hides wrong inputs; axes, units and speeds combine freely.", "anchors": ["wakis/wakeSolver.py:WakeSolver.get_SmartBounds", "wakis/wakeSolver.py:WakeSolver.get_DEmodel_fitting", "wakis/wakeSolver.py:WakeSolver.get_extrapolated_wake", "wakis/wakeSolver.py:WakeSolver.get_extrapolated_wake_function", "wakis/wakeSolver.py:WakeSolver.get_extrapolated_impedance"]}
{"id": "C103", "title": "Parameters given to solve act like constructor arguments", "statement": "WakeSolver.solve(**kwargs) gives the results of a WakeSolver constructed with these values, also when the solver has evaluated other recordings before; unknown planes and keywords are refused.", "quantifier": "all constructor arguments, keyword lists, planes, recordings and earlier calculations", "why_tests_cant": "It compares two ways of passing every combination of parameters, after every history of calculations.", "anchors": ["wakis/wakeSolver.py:WakeSolver.__init__", "wakis/wakeSolver.py:WakeSolver.solve", "wakis/wakeSolver.py:WakeSolver.calc_long_WP"]}
{"id": "C104", "title": "The analytic charge distribution is the bunch that was simulated", "statement": "Without a given charge distribution, the distribution used for the impedance is at every s the current that the simulated beam drives through any plane at the time the wake solver assigns to s, divided by charge and velocity; it integrates to one.", "quantifier": "all charges, bunch lengths, velocities, planes and positions s", "why_tests_cant": "Two formulas in different modules, with different conventions for time and position, have to agree as functions.", "anchors": ["wakis/wakeSolver.py:WakeSolver.calc_lambdas_analytic", "wakis/sources.py:Beam.update", "wakis/routines.py:RoutinesMixin.wakesolve"]}
{"id": "C105", "title": "Computed fields converge to the solution of Maxwell's equations", "statement": "On a uniform grid in a homogeneous medium with six electric walls, driven by the samples of a current density, the fields of a new solver after any number of steps differ from any smooth solution of Maxwell's equations with this current in the box between the walls by at most the initial difference plus the elapsed time times a term of second order in cell size and time step, up to a factor that depends only on the distance of the time step from the stability limit.", "quantifier": "all grid sizes, cell lengths, media, time steps below the limit, currents, smooth solutions, starting fields and numbers of steps", "why_tests_cant": "A statement about every refinement of the grid and every solution; a comparison with one analytic mode on a few grids shows a trend for that mode only.", "anchors": ["wakis/solverFIT3D.py:SolverFIT3D._one_step", "wakis/solverFIT3D.py:SolverFIT3D.__init__", "wakis/solverFIT3D.py:SolverFIT3D._apply_bc_to_C", "wakis/gridFIT3D.py:GridFIT3D._compute_grid"]}
{"id": "C106", "title": "Electric walls stand at the bounds of the requested box", "statement": "With electric boundaries the simulated cavity is the box whose bounds were given to the grid: E tangential to the planes xmin, xmax, ymin, ymax, zmin, zmax is held at zero and E inside the box is not.", "quantifier": "all grids, electric boundary names, runs", "why_tests_cant": "The position of a wall is not stored anywhere; it shows only in which entries of the field stay fixed in every run.", "anchors": ["wakis/solverFIT3D.py:SolverFIT3D._apply_bc_to_C", "wakis/gridFIT3D.py:GridFIT3D._compute_grid", "wakis/solverFIT3D.py:SolverFIT3D._set_ghosts_to_0"]}
{"id": "C107", "title": "A wake run advances the fields like a plain run with the same beam", "statement": "The fields after wakesolve are those after emsolve with the same beam as source, the same callback, the same initial fields and the same number of steps, for every choice of boundary conditions the solver accepts.", "quantifier": "all solvers, boundary names, beams, wake lengths, callbacks and initial fields", "why_tests_cant": "The two routines have separate time loops; agreement must hold for every boundary choice and run length, and a missing call in one loop shows only for the boundary that needs it.", "anchors": ["wakis/routines.py:RoutinesMixin.wakesolve", "wakis/routines.py:RoutinesMixin.emsolve", "wakis/solverFIT3D.py:SolverFIT3D.update_abc", "wakis/sources.py:Beam.update"]}
{"id": "C108", "title": "A second wake run repeats the first", "statement": "Calling wakesolve again with the same solver, beam and wake length records the same samples and ends with the same fields as the first call.", "quantifier": "all solvers, beams, wake lengths and histories before the call", "why_tests_cant": "The result depends on the fields left by everything that happened before, an unbounded set of histories; a test that builds a new solver for each run never sees it.", "anchors": ["wakis/routines.py:RoutinesMixin.wakesolve", "wakis/solverFIT3D.py:SolverFIT3D.reset_fields", "wakis/solverFIT3D.py:SolverFIT3D._one_step"]}
{"id": "C109", "title": "Fields spread by at most one cell per step", "statement": "What is assigned in a cell (by a source, a callback or the user) cannot change the fields, n steps later, in a cell that is more than n cells away along some axis; in particular the opposite side of the domain does not feel it before the wave has crossed the grid.", "quantifier": "all grids, materials, time steps, boundary names, states, assignments and numbers of steps", "why_tests_cant": "Absence of an influence must hold for all pairs of cells, all fields and all numbers of steps; a run shows one propagation front.", "anchors": ["wakis/solverFIT3D.py:SolverFIT3D._one_step", "wakis/solverFIT3D.py:SolverFIT3D._apply_bc_to_C"]}
{"id": "C110", "title": "A closed box rings at its resonance frequencies", "statement": "In a rectangular box with six electric walls filled with one lossless material, a run that starts from the samples of a standing wave (a cavity mode) holds the samples of that standing wave after any number of steps, oscillating at one frequency; that frequency is never above the resonance frequency of the box and below it at most by a fraction that falls with the square of the cell length.", "quantifier": "all boxes, numbers of cells, materials, time steps up to the stability limit, half-wave numbers that fit the grid, transverse amplitudes and numbers of steps", "why_tests_cant": "A test compares a few modes on a few grids with a tolerance; the absence of any drift, growth or change of shape is a statement about every number of steps and every mode, and the order of the error about every grid.", "anchors": ["wakis/solverFIT3D.py:SolverFIT3D._one_step", "wakis/solverFIT3D.py:SolverFIT3D._apply_bc_to_C", "wakis/gridFIT3D.py:GridFIT3D"]}
{"id": "C111", "title": "Reciprocity", "statement": "The voltage along one mesh edge caused by a current through another one equals the voltage along the other edge caused by the same current through the first, after every number of steps and for every waveform; more generally the currents of one run react on the fields of another run of the same solver as those of the other on the fields of the first. This holds for edges outside conductors.", "quantifier": "all grids, materials (anisotropic, conducting or perfectly conducting elsewhere), time steps, boundary names, pairs of edges outside the last layer and outside conductors, waveforms and numbers of steps", "why_tests_cant": "A test compares a few pairs of positions on one set-up; the symmetry must hold for every pair, material distribution, waveform and number of steps.", "anchors": ["wakis/solverFIT3D.py:SolverFIT3D._one_step", "wakis/solverFIT3D.py:SolverFIT3D.__init__", "wakis/solverFIT3D.py:SolverFIT3D._apply_bc_to_C"]}
{"id": "C112", "title": "Passivity", "statement": "Sources cannot draw energy from a domain that starts empty: up to any step the currents in any set of edges have done at least as much work on the fields as the fields on them, and the energy stored in the fields is bounded by a constant times that work, whatever the currents are.", "quantifier": "all grids with increasing axes, electric, magnetic or PML faces, passive materials, time steps below the stated limit, sets of edges outside the last layers, currents and numbers of steps", "why_tests_cant": "Nonnegativity of the work must hold for every current waveform and every number of steps; a test sees a few decaying or ringing signals.", "anchors": ["wakis/solverFIT3D.py:SolverFIT3D._one_step", "wakis/solverFIT3D.py:SolverFIT3D.__init__"]}
{"id": "C113", "title": "Two-dimensional pictures", "statement": "plot2D and Field.inspect show at every point of the cut plane the requested component of the requested field in the cell that contains this point, with the axes labelled by the coordinates they run along and the position of the cut in the title; with several processes the picture is the same.", "quantifier": "all grids, fields, components, plane names or index triples, cut positions and points of the plane", "why_tests_cant": "A transposition, a flipped axis or a shifted extent is invisible on symmetric test fields and square grids; the claim ranges over all grids, fields and points.", "anchors": ["wakis/plotting.py:PlotMixin.plot2D", "wakis/field.py:Field.inspect", "wakis/solverFIT3D.py:SolverFIT3D.mpi_gather"]}
{"id": "C114", "title": "One-dimensional plots", "statement": "plot1D draws for each requested position one curve: at the centre of each cell along the line, the value of the requested component in that cell of the line through the requested position, with the coordinates of the line in the legend; with several processes the curves are the same.", "quantifier": "all grids, fields, components, line directions and lists of positions", "why_tests_cant": "The curves must be right for every grid, position and number of positions; tests look at a picture.", "anchors": ["wakis/plotting.py:PlotMixin.plot1D"]}
{"id": "C115", "title": "Similarity", "statement": "A model with all lengths and times multiplied by the same factor a and all conductivities divided by a behaves as the original: it can be set up whenever the original can, with a time step a times as long, has the same fields at every step, and in a wake run with bunch length, positions, injection time and wake length multiplied by a it has the same number of steps, the longitudinal and transverse wake potentials divided by a over the s axis multiplied by a, and the same impedances at frequencies divided by a.", "quantifier": "all factors a > 0, grids, boundaries, materials, time step settings, histories of steps and writes, beams and wake lengths", "why_tests_cant": "The scaling must hold exactly in every part of the chain (metric, time step, conductivity, beam, recording, transform) for every model; a test compares two runs of one model.", "anchors": ["wakis/solverFIT3D.py:SolverFIT3D.__init__", "wakis/solverFIT3D.py:SolverFIT3D._fill_pml_sigmas", "wakis/gridFIT3D.py:GridFIT3D._compute_grid", "wakis/routines.py:RoutinesMixin.wakesolve", "wakis/wakeSolver.py:WakeSolver.calc_long_WP", "wakis/wakeSolver.py:WakeSolver.calc_long_Z"]}
{"id": "C116", "title": "Where the model stands does not matter", "statement": "Moving the whole model (grid, solids, beam and test position) by one vector changes nothing: it can be set up whenever the original can, with the same cells filled by each solid and the same time step, every source makes the same change to the fields at every time, and a wake run has the same number of steps, the same recorded samples, wake potentials and impedances; only the z coordinates of the recording are moved.", "quantifier": "all vectors, grids, boundaries, materials, solids, sources, times, fields, beams and wake lengths", "why_tests_cant": "Models are tested around the origin, where a missing offset is invisible; the claim ranges over all positions, models and times.", "anchors": ["wakis/gridFIT3D.py:GridFIT3D._compute_grid", "wakis/gridFIT3D.py:GridFIT3D._mpi_initialize", "wakis/gridFIT3D.py:GridFIT3D._mark_cells_in_stl", "wakis/sources.py:Beam.update", "wakis/sources.py:WavePacket.update", "wakis/routines.py:RoutinesMixin.wakesolve", "wakis/wakeSolver.py:WakeSolver.calc_long_WP", "wakis/wakeSolver.py:WakeSolver.calc_long_WP_3d"]}
{"id": "C117", "title": "Wakes do not depend on the bunch charge", "statement": "The wake potential and the impedance of a wake run from zero fields do not depend on the bunch charge: with another (nonzero) charge every recorded field is multiplied by the ratio of the charges and the wake potential, which is given per charge, is the same.", "quantifier": "all solvers, grids, beams, charges, wake lengths and recorded cells", "why_tests_cant": "Tests use one charge; the cancellation must be exact in every cell of every recording.", "anchors": ["wakis/routines.py:RoutinesMixin.wakesolve", "wakis/sources.py:Beam.update", "wakis/wakeSolver.py:WakeSolver.calc_long_WP", "wakis/wakeSolver.py:WakeSolver.calc_long_WP_3d"]}
{"id": "C118", "title": "A lossless run can be played backwards", "statement": "Without conductors and absorbing faces the evolution is reversible: after N steps (with any currents assigned before each of them), reverse the magnetic field and play the reversed currents in the opposite order, and the run passes back through the same electric fields, with the magnetic fields reversed, to the fields it started from.", "quantifier": "all solvers without conductivity, starting fields, currents and numbers of steps", "why_tests_cant": "A test compares one run and one return to a tolerance; the identity is exact, holds at every step of the way back and ranges over all models and drives.", "anchors": ["wakis/solverFIT3D.py:SolverFIT3D._one_step", "wakis/solverFIT3D.py:SolverFIT3D.update_tensors"]}
{"id": "C119", "title": "No axis is special", "statement": "Which axis of a model is called x, y or z is arbitrary: the model with its axes renamed (nodes, solids, materials, face names, starting fields and everything assigned between the steps) has the same time step and materials and, after any number of steps, the same fields with components and cells renamed; when the renaming exchanges right and left the magnetic field changes its sign.", "quantifier": "all grids, boundaries, materials, solids, starting fields, assignments, numbers of steps and all six orders of the axes", "why_tests_cant": "Nine copies of the code treat the axes separately; a slip in one of them shows only for one orientation, field component and boundary, and the claim ranges over all models and steps.", "anchors": ["wakis/gridFIT3D.py:GridFIT3D._compute_grid", "wakis/solverFIT3D.py:SolverFIT3D.__init__", "wakis/solverFIT3D.py:SolverFIT3D._apply_bc_to_C", "wakis/solverFIT3D.py:SolverFIT3D._one_step", "wakis/solverFIT3D.py:SolverFIT3D._set_ghosts_to_0"]}
{"id": "C120", "title": "Mirror images", "statement": "A model and its mirror image in x (mesh, solids, materials, faces, starting fields and everything assigned between the steps mirrored) have mirrored fields after any number of steps: E and J with the opposite x component, H with opposite y and z components. A model that is its own mirror image, started from symmetric fields, stays symmetric.", "quantifier": "all grids, boundaries, materials, solids, starting fields, assignments and numbers of steps", "why_tests_cant": "Symmetry of one simulated model to a tolerance does not show that no term of the update prefers a direction; the claim is exact and ranges over all models and steps.", "anchors": ["wakis/gridFIT3D.py:GridFIT3D._compute_grid", "wakis/solverFIT3D.py:SolverFIT3D._one_step", "wakis/solverFIT3D.py:SolverFIT3D._apply_bc_to_C", "wakis/solverFIT3D.py:SolverFIT3D._apply_stl_materials"]}
{"id": "C121", "title": "The wake potential is the line integral of the continuous field, to first order", "statement": "If the recorded samples are within eps of the values of a field F(z,t) somewhere in each cell, and F changes by at most Lz per metre and Lt per second, then WP(s) is the integral over z of F(z, (s+z-zmin)/v + ti), divided by the charge in pC, with an error of at most (Lz h + Lt (dt + h/v) + eps) times the length of the model over the charge, h being the largest cell: refining the grid makes WP converge to the line integral. If no wake length is given this holds for every s of the result.", "quantifier": "every field, grid (uniform or not), time step, velocity, charge, number of frames up to 100000", "why_tests_cant": "A statement about all fields and about the limit of ever finer grids.", "anchors": ["wakis/wakeSolver.py:WakeSolver.calc_long_WP"]}
{"id": "C122", "title": "The impedance is the quotient of the Fourier integrals, to first order", "statement": "At every frequency returned, the longitudinal impedance calculated from samples of a wake W and of a bunch profile is minus the quotient of the Fourier integrals of 10^12 W and of v times the profile over the s axis (the transverse one: i times it), with an error that is first order in the step of the axis and in the error of the samples; for a calculation from a recording with the default Gaussian bunch the same holds with the continuous wake of the recorded field, with an explicit error bound in cell size and time step.", "quantifier": "every wake and profile that is bounded and Lipschitz, every axis that resolves fmax and fits in the transform, every frequency returned", "why_tests_cant": "A statement about all wakes and the limit of ever finer axes.", "anchors": ["wakis/wakeSolver.py:WakeSolver.calc_long_Z", "wakis/wakeSolver.py:WakeSolver.calc_trans_Z", "wakis/wakeSolver.py:WakeSolver.calc_lambdas_analytic"]}
{"id": "C123", "title": "Symmetry planes", "statement": "A closed model that is symmetric about a plane can be calculated as half a model: with an electric wall on the plane for fields whose mirror image is the opposite, with a magnetic wall for fields that are their own mirror image; the half model gives, at every step, the fields of the whole one.  More generally the part of a model between two planes on which the tangential E is zero at every step is a model of its own with electric walls.", "quantifier": "all closed models (any materials, lossy or not, any axes; equal steps across the plane for symmetric ones), starting fields, assignments between the steps and numbers of steps", "why_tests_cant": "It relates two runs on different grids for all fields and all step counts.", "anchors": ["wakis/solverFIT3D.py:SolverFIT3D._apply_bc_to_C", "wakis/solverFIT3D.py:SolverFIT3D._one_step", "wakis/gridFIT3D.py:GridFIT3D._compute_grid"]}
{"id": "C124", "title": "Using the GPU does not change results", "statement": "A Field created with use_gpu, or moved with to_gpu and back with from_gpu at any moments, answers every read and takes every assignment as the same Field kept on the host, and reads return host arrays; products and sums of fields give the same values wherever the operands are. A solver created with use_gpu and driven by any sequence of assignments and time steps holds the fields of the solver without GPU, also when its fields are moved off the GPU to be inspected between steps.", "quantifier": "every field size and content, every sequence of reads, assignments, copies and moves, every operand; every solver and every history of assignments, moves and steps; with and without CuPy installed", "why_tests_cant": "Moves combine freely with every other call, and test machines usually have no GPU, so the CuPy branches are not run at all.", "anchors": ["wakis/field.py:Field.to_gpu", "wakis/field.py:Field.from_gpu", "wakis/field.py:Field.__getitem__", "wakis/field.py:Field.__setitem__", "wakis/field.py:Field.__mul__", "wakis/field.py:Field.__add__", "wakis/solverFIT3D.py:SolverFIT3D._one_step"]}
{"id": "C125", "title": "Three-dimensional pictures show the field of the moment", "statement": "Every call of plot3D with a field (E, H or J) and a component succeeds and makes one picture, a file of the given title and number if off-screen: it shows the solids asked for and, at every point of the grid, the value of that component at the time of the call, blank exactly in the solids to hide and outside the solids to show. plot3DonSTL shows in the same way the field on each surface asked for, and nothing of earlier pictures; a call that failed does not affect later ones. inspect3D shows the component named, in capitals or not, and otherwise the magnitude.", "quantifier": "every grid, field content, component, set of solids, every sequence of calls with any arguments, with fields changed between the calls", "why_tests_cant": "The scene is kept between off-screen calls, so what a picture contains depends on all earlier calls and their failures; a picture test looks at one call, and on a field of few cells an order of cells that is wrong can look right.", "anchors": ["wakis/plotting.py:PlotMixin.plot3D", "wakis/plotting.py:PlotMixin.plot3DonSTL", "wakis/field.py:Field.inspect3D"]}
{"id": "C126", "title": "Starting the sources later only delays the fields", "statement": "If all sources start k steps later (assigning nothing but zeros before), the fields after k+n steps are those of the original run after n steps; adding c*k*dt to the delay of a pulse has this effect.", "quantifier": "all solvers (grids, boundary names, materials), sources and other assignments, delays k and numbers of steps n", "why_tests_cant": "Holds for every source history and delay; the exception (the first step clears the last layers) shows only for sources that act on these cells before the first step.", "anchors": ["wakis/solverFIT3D.py:SolverFIT3D._one_step", "wakis/solverFIT3D.py:SolverFIT3D._set_ghosts_to_0", "wakis/sources.py:Pulse.update"]}
{"id": "C127", "title": "Static fields stay", "statement": "An electrostatic field (voltages that are drops of a potential vanishing on the walls, no current in conductors) and a magnetostatic field without currents do not change, for any number of steps.", "quantifier": "all grids, materials, potentials, time steps, boundary names and numbers of steps", "why_tests_cant": "All potentials on all grids, for unbounded numbers of steps; a test shows one field for a few steps up to rounding.", "anchors": ["wakis/solverFIT3D.py:SolverFIT3D._one_step", "wakis/solverFIT3D.py:SolverFIT3D._apply_bc_to_C"]}
{"id": "C128", "title": "What is out of reach does not matter", "statement": "Two models that have the same cells and materials within N cells of a place, both away from the faces, and the same sources there, give the same fields at this place after N steps, whatever the size of the domain, the boundary conditions, the cell widths and the materials elsewhere are.", "quantifier": "all pairs of models, places, numbers of steps, initial fields and assignments", "why_tests_cant": "Compares all pairs of models and all histories; a test compares two domains.", "anchors": ["wakis/solverFIT3D.py:SolverFIT3D._one_step", "wakis/solverFIT3D.py:SolverFIT3D._apply_bc_to_C", "wakis/gridFIT3D.py:GridFIT3D._compute_grid"]}
{"id": "C129", "title": "The mask window shows the cells of the solid up to the sliders", "statement": "After any sequence of slider moves, the window of plot_stl_mask shows the mask of the solid asked for inside the box from the low corner of the domain to the present position of the three sliders, the slice of the grid at the slider moved last, and the solids asked for (all, one, or a list) in the colours given in any documented form.", "quantifier": "every grid, set and naming of solids, choice of colours, every sequence of slider moves", "why_tests_cant": "What the window shows depends on the whole history of moves and on the names of the solids; an off-screen test sees the initial scene of one geometry.", "anchors": ["wakis/gridFIT3D.py:GridFIT3D.plot_stl_mask"]}
{"id": "C130", "title": "The grid window shows the nodes and solids inside the box", "statement": "After any sequence of moves of the box widget, the window of the grid's inspect shows exactly the grid nodes inside the box and the solids asked for (all by default), clipped by the box, in the colours given in any documented form.", "quantifier": "every grid, set of solids, choice of colours, every sequence of boxes", "why_tests_cant": "All histories of an interactive widget; exceptions in the callback are only warnings.", "anchors": ["wakis/gridFIT3D.py:GridFIT3D.inspect"]}
{"id": "C131", "title": "Check boxes of the solver's inspect window", "statement": "After any sequence of clicks each solid is highlighted exactly when its check box is ticked, the master box shows and sets all of them, beam and integration path are visible exactly when their boxes are ticked and are drawn along the whole domain at the source and test position of the wake given last; every solid is drawn, and the window opens for every solver.", "quantifier": "every set and naming of solids, every sequence of clicks and of calls with and without a wake", "why_tests_cant": "The state is reached by arbitrary interleavings of clicks on three kinds of boxes.", "anchors": ["wakis/plotting.py:PlotMixin.inspect"]}
{"id": "C132", "title": "Picture of all solids", "statement": "plot_solids draws every imported solid once, in its colour (if it has one), with the opacity asked for, and solids of vacuum more transparent than the others.", "quantifier": "every set of solids, materials, opacity, and every documented form of stl_colors", "why_tests_cant": "All combinations of colours, materials and opacity.", "anchors": ["wakis/gridFIT3D.py:GridFIT3D.plot_solids", "wakis/gridFIT3D.py:GridFIT3D._prepare_stl_dicts"]}
{"id": "C133", "title": "Pictures of the sources", "statement": "The curves drawn by plot(t) of a Beam, PlaneWave or WavePacket have, at each of the times given, the value the source writes into the fields at that time (for the beam the current through the first plane of cells, for the packet the field on its axis), and the limits of the picture show the whole curve; plotting a source never fails for a source that can be used in a run.", "quantifier": "all sources, parameters, grids, states of the fields, arrays of times", "why_tests_cant": "The formulas are written twice, once for the fields and once for the picture; that they agree is a statement about all times and parameters, and the limits depend on signs that a sample may not contain.", "anchors": ["wakis/sources.py:Beam.plot", "wakis/sources.py:PlaneWave.plot", "wakis/sources.py:WavePacket.plot", "wakis/sources.py:Beam.update"]}
{"id": "C134", "title": "The log of a wake run states its parameters", "statement": "The log file written at the end of a wake run states the parameters this run was made with: wake length, charge, length, speed and injection time of the bunch, positions, skipped cells, time step, boundary names and grid; and it lies in the folder of the results. This holds after every history of assignments and runs, also when several solvers share a grid or a wake solver.", "quantifier": "every history of constructions, assignments, runs and saved logs of any number of grids, wake solvers and solvers", "why_tests_cant": "The dictionaries of the log are shared between objects, so what is written depends on the whole history; no finite set of runs covers the orders of assignments, runs and saves.", "anchors": ["wakis/wakeSolver.py:WakeSolver.assign_logs", "wakis/solverFIT3D.py:SolverFIT3D.update_logger", "wakis/gridFIT3D.py:GridFIT3D.update_logger", "wakis/routines.py:RoutinesMixin.wakesolve", "wakis/logger.py:Logger.save_logs"]}
{"id": "C135", "title": "Pictures made during a run", "statement": "A run that makes pictures (emsolve with plot or plot3d, wakesolve with plot and any plotting function) leaves the solver exactly as the same run without pictures and completes whenever that one does; the pictures are those of the steps asked for (every plot_every-th one, in wakesolve from plot_from until plot_until), in order, each of the fields right after its step, with the user's options replacing the defaults.", "quantifier": "every solver, number of steps, plotting function, choice of steps and set of options", "why_tests_cant": "It ranges over all numbers of steps, intervals, options and plotting functions; which step fails depends on all of them.", "anchors": ["wakis/routines.py:RoutinesMixin.emsolve", "wakis/routines.py:RoutinesMixin.wakesolve", "wakis/routines.py:RoutinesMixin.get_plotting_kwargs", "wakis/plotting.py:PlotMixin.plot2D"]}
{"id": "C136", "title": "Snap points of the mesh refinement and their picture", "statement": "The nodes the refined grid must keep (snap points) are, on each axis, the two bounds of the domain and the coordinates of the feature points of the chosen solids, wherever the solids are placed and however small they are; the picture of the snap points shows exactly the points the refinement uses.", "quantifier": "every geometry, position of it, choice of solids, tolerance and domain", "why_tests_cant": "It ranges over all geometries and positions; a test places the solids at a few positions, usually symmetric about the origin.", "anchors": ["wakis/gridFIT3D.py:GridFIT3D._compute_snap_points", "wakis/gridFIT3D.py:GridFIT3D.plot_snap_points"]}
{"id": "C137", "title": "Monitored field patterns obey Maxwell's equations", "statement": "The frequency-domain patterns a field monitor has collected in a wake run that starts from rest satisfy, at every monitored frequency and in every cell, the discrete wave equation of the grid and its materials (losses included), driven by the Fourier sum of the beam current, up to the fields left at the end of the run; the frequency in that equation is the monitored one up to an error of second order in the time step.", "quantifier": "every grid, set of materials and boundaries, beam, wake length, list of frequencies and cell", "why_tests_cant": "It is an identity between sums over arbitrarily many time steps, for every frequency and every operator; a test compares a few patterns with reference solutions up to a tolerance.", "anchors": ["wakis/field_monitors.py:FieldMonitor.update", "wakis/routines.py:RoutinesMixin.wakesolve", "wakis/solverFIT3D.py:SolverFIT3D._one_step"]}
{"id": "C138", "title": "The window of a field", "statement": "The interactive window opened for a field shows, at every cell of the grid, the component asked for (the magnitude for any other name) of the field as it was at the call, from the low corner of the domain to where its three sliders are now, with the slice of the grid at the slider moved last and the frame of the domain; whatever is done with other windows in between.", "quantifier": "every field, component, set of limits, and every history of windows opened and sliders moved", "why_tests_cant": "It ranges over all sequences of user actions in any number of windows; a test cannot move sliders, and opens one window.", "anchors": ["wakis/field.py:Field.inspect3D"]}
{"id": "C139", "title": "Voxel pictures of a field", "statement": "The Matplotlib voxel picture of a field can be drawn for any limits within the grid and has a panel for each component asked for, in which each cell below the limits has the value of the field there and a colour that runs linearly from minus to plus the largest magnitude shown, with zero in the middle.", "quantifier": "every field, name of a component and limits along the three axes, whole numbers or not", "why_tests_cant": "It holds for every grid size, every value and all real limits; a test looks at a picture of one field.", "anchors": ["wakis/field.py:Field.inspect3D"]}
{"id": "C140", "title": "Statements of a STEP file are found however the file is laid out", "statement": "Every solid shape, presentation layer and colour of a STEP file is found with its name, members and components, wherever blanks and line ends stand between its tokens and whatever characters its name has.", "quantifier": "every file as a list of lines of characters; every name, number and list of references; every place of a blank or of a line end", "why_tests_cant": "The files that CAD programs write differ in blanks, line ends, names and number formats without bound; a test reads a few files.", "anchors": ["wakis/geometry.py:extract_names_from_stp", "wakis/geometry.py:extract_colors_from_stp"]}
{"id": "C141", "title": "Replacing a component or the whole array of a field", "statement": "Assigning a component (field_x = value, from_matrix) puts the value of each cell at that cell of that component and changes nothing else; values that do not have the shape of the grid are refused and nothing changes.", "quantifier": "every grid, component and name of it, and value: number, array without axes, flat array or matrix of any shape", "why_tests_cant": "It ranges over all pairs of shapes with all contents; a test tries a few.", "anchors": ["wakis/field.py:Field.field_x", "wakis/field.py:Field.from_matrix", "wakis/field.py:Field.fromarray"]}
{"id": "C142", "title": "A copy of a wake solver is independent of the original", "statement": "After wake.copy(), calculations and assignments on one of the two have no influence on what the other calculates or holds.", "quantifier": "every number of copies and every history of copying, assigning parameters and calculating, with failed calculations", "why_tests_cant": "All histories on any number of objects.", "anchors": ["wakis/wakeSolver.py:WakeSolver.copy", "wakis/wakeSolver.py:WakeSolver.calc_long_WP"]}
{"id": "C143", "title": "The charge in the fields of a wake run is the charge of the bunch", "statement": "At the end of a wake run started from zero fields, the electric flux out of the dual cell around a node (Gauss' law) is zero off the column of the beam, and on it the charge of the Gaussian bunch between the two neighbouring cell centres at that time, minus what was there at the start, up to an error of first order in the time step.", "quantifier": "every mesh, materials, beam, wake length (hence number of steps) and time step, every insulating node inside a box without periodic and 'abc' faces", "why_tests_cant": "It couples every step of runs of any length with the sampling of a Gaussian current; a test sees one mesh, and on a uniform one the wrong factor of graded meshes is 1.", "anchors": ["wakis/sources.py:Beam.update", "wakis/wakeSolver.py:WakeSolver", "wakis/routines.py:RoutinesMixin.wakesolve", "wakis/gridFIT3D.py:GridFIT3D._compute_grid"]}
{"id": "C144", "title": "A bunch gains no energy from a passive structure", "statement": "In a wake run from zero fields whose test particle follows the bunch in the same column, the bunch has at no step gained energy from the recorded longitudinal field on its axis (current times field, summed over the cells and the steps), and the energy in the fields at the end is at most a constant times what the bunch has lost.", "quantifier": "every grid with increasing axes, electric, magnetic and PML faces, passive materials, conducting or not, every beam inside the box, wake length and number of steps, with the automatic time step (cfln^2 < 1, with conductivity < 1/2)", "why_tests_cant": "The sign must hold at every step of every run; tests compare a few wake potentials with references.", "anchors": ["wakis/routines.py:RoutinesMixin.wakesolve", "wakis/sources.py:Beam.update", "wakis/solverFIT3D.py:SolverFIT3D._one_step"]}
{"id": "C145", "title": "What is recorded does not change a wake run, nor the longitudinal wake", "statement": "Two wake runs that differ only in the planes computed, the position of the test particle or the presence of a monitor take the same number of steps and end with the same fields; the samples of the longitudinal run are the middle column of the block recorded for both planes; and solve() reports the same longitudinal wake potential whether the transverse plane is computed too or not.", "quantifier": "every solver, grid, beam, wake length, callback, initial fields and test position inside the grid", "why_tests_cant": "Equality must hold at every step for every callback and geometry; tests compute one plane of one geometry, with charges for which the difference is below the tolerance.", "anchors": ["wakis/routines.py:RoutinesMixin.wakesolve", "wakis/wakeSolver.py:WakeSolver.calc_long_WP_3d", "wakis/wakeSolver.py:WakeSolver.calc_long_WP", "wakis/wakeSolver.py:WakeSolver.solve"]}
{"id": "C146", "title": "A wake run on several processes records what a run on one process does", "statement": "wakesolve on several MPI processes makes the same number of steps as on one process, raises no exception while moving the beam, never deadlocks, and writes in every frame the samples of Ez that the run on one process writes; at the end every process holds in its slab, ghost layers included, the fields of the run on one process, and the first process computes from its file the wake potentials of the run on one process.", "quantifier": "every grid with PEC transverse faces, number of processes, material distribution, bunch, wake length, number of steps and recorded frame, and every order in which messages are delivered and processes scheduled", "why_tests_cant": "Tests run one job on a fixed number of processes; the order of messages, the number of processes and the number of steps are unbounded.", "anchors": ["wakis/routines.py:RoutinesMixin.wakesolve", "wakis/solverFIT3D.py:SolverFIT3D.mpi_gather", "wakis/solverFIT3D.py:SolverFIT3D._mpi_one_step", "wakis/sources.py:Beam.update", "wakis/gridFIT3D.py:GridFIT3D"]}
{"id": "C147", "title": "Recording the current of a wake run", "statement": "wakesolve(save_J=True) leaves the same fields, monitor and Ez recording as save_J=False, or fails with the same exception; Jz.h5 holds, under the name of every step and exactly once, the z component of J in the recorded cells when that step begins. If the test particle is in the bunch's column these are the bunch's current densities at the time of the step; in any other insulating column they are zero for a run from zero fields.", "quantifier": "every grid, material distribution, bunch, test position, plane, wake length, callback, monitor, initial state, step and cell, number of ranks and order in which they act", "why_tests_cant": "Tests compare a few steps of one bunch; that recording has no side effect must hold for every run and callback.", "anchors": ["wakis/routines.py:RoutinesMixin.wakesolve", "wakis/sources.py:Beam.update"]}
{"id": "C148", "title": "Field monitors in a wake run on several processes", "statement": "With use_field_monitor on several MPI processes, every process's monitor makes the same number of updates with the same time step as the monitor of a run on one process, and ends with the same accumulated spectra in each cell of the process's slab, ghost layers included.", "quantifier": "every grid with PEC transverse faces, number of processes, material distribution, bunch, wake length, list of frequencies, cell, and every order in which messages are delivered and processes scheduled", "why_tests_cant": "The order of messages, the number of processes, of steps and of frequencies are unbounded; a test sees one of them.", "anchors": ["wakis/routines.py:RoutinesMixin.wakesolve", "wakis/field_monitors.py:FieldMonitor.update", "wakis/solverFIT3D.py:SolverFIT3D._mpi_one_step"]}
