{"id": "C01", "title": "Index packing is a bijection", "statement": "Packing a pair (or triple) of indices into one integer and unpacking it returns the original pair (triple), unpacking then packing returns the original integer, distinct in-range tuples never share a packed index, every packed index lies in [0, product of sizes), and no signed overflow occurs when the product of the sizes fits in a 32-bit int.", "quantifier": "all sizes and all in-range indices", "why_tests_cant": "The tables indexed this way have user-chosen sizes; a test fixes a few sizes.", "anchors": ["src/utilities.cpp:compress2Indices,decompress2Indices,compress3Indices,decompress3Indices"]}
{"id": "C02", "title": "Positive modulo", "statement": "mod(a,b) for b>0 returns the unique representative of a modulo b that lies in [0,b), including for negative a.", "quantifier": "all integers a, all b>0", "why_tests_cant": "Infinitely many negative inputs; truncated division makes sign errors easy.", "anchors": ["src/utilities.cpp:mod"]}
{"id": "C03", "title": "Splitting a vector into chunks loses nothing", "statement": "Splitting a vector into chunks of a requested size gives chunks whose concatenation is the original vector; every chunk except possibly the last has exactly the requested size and none is empty; termination requires a positive chunk size.", "quantifier": "all vectors and chunk sizes", "why_tests_cant": "Boundary behaviour at multiples of the chunk size for every length.", "anchors": ["src/utilities.h:splitVector"]}
{"id": "C04", "title": "Convergence test sees every component", "statement": "The relative change used to stop the iterative and variational BTE solvers is below the threshold only if every component of the transport tensor changed by less than the threshold.", "quantifier": "all pairs of tensors", "why_tests_cant": "A single early-converging component is enough to fool the check; tests with uniform convergence never see it.", "anchors": ["src/utilities.cpp:findMaxRelativeDifference", "src/apps/phonon_transport_app.cpp", "src/apps/electron_wannier_transport_app.cpp"]}
{"id": "C05", "title": "Tokenizer", "statement": "Tokenizing a line yields exactly the maximal runs of non-separator characters, in order.", "quantifier": "all strings", "why_tests_cant": "Arbitrary mixtures of separators.", "anchors": ["src/utilities.cpp:tokenize"]}
{"id": "C06", "title": "Work division partitions the tasks", "statement": "For every number of tasks and of MPI processes, the index ranges assigned to the ranks are consecutive, cover every task exactly once, and their lengths differ by at most one (as long as tasks*processes fits in 64 bits).", "quantifier": "all numbers of tasks, processes and ranks", "why_tests_cant": "A test runs on a few process counts.", "anchors": ["src/mpi/mpiController.cpp:divideWork,divideWorkIter"]}
{"id": "C07", "title": "Gather reassembles divided work", "statement": "If every rank computes its share of an array (as assigned by the work division) and the shares are gathered with the counts and displacements derived from the total size, the result on every rank is the array a serial run would have produced.", "quantifier": "all array lengths, contents and process counts", "why_tests_cant": "Depends on counts agreeing between sender and receiver for every size.", "anchors": ["src/mpi/mpiController.cpp:workDivHelper", "src/mpi/mpiController.h:gatherv,allGatherv"]}
{"id": "C08", "title": "Pools partition the processes", "statement": "When the pool size is accepted, every rank belongs to exactly one pool of exactly poolSize ranks and to exactly one inter-pool group of size/poolSize ranks, and the pair (pool id, rank in pool) identifies the rank; pool sizes that are zero or do not divide the number of processes are rejected.", "quantifier": "all process counts and requested pool sizes", "why_tests_cant": "Only a handful of process counts can be launched in a test.", "anchors": ["src/mpi/mpiController.cpp:MPIcontroller"]}
{"id": "C09", "title": "Gathers of more than INT_MAX elements", "statement": "A gather over any sub-communicator, whatever the number of elements, delivers each rank's full contribution at the displacement computed for that rank; the block datatype describes exactly the requested number of elements with every count representable in an int.", "quantifier": "all element counts, communicators and ranks", "why_tests_cant": "Needs buffers above 2^31 elements and several pools.", "anchors": ["src/mpi/mpiController.h:datatypeHelper,bigAllGatherV"]}
{"id": "C10", "title": "Sum reduction fills the output", "statement": "After a sum reduction into a separate output buffer, the output holds on every rank the elementwise sum of the inputs of all ranks, for every number of processes including one.", "quantifier": "all process counts and buffers", "why_tests_cant": "Single-process path is a special case that multi-process tests do not exercise, and vice versa.", "anchors": ["src/mpi/mpiController.h:allReduceSum"]}
{"id": "C11", "title": "Distribute-fill-reduce equals serial fill", "statement": "Filling a zero-initialised array on the entries owned by each rank and reducing with a sum gives on every rank the same array as the serial loop, for every process count.", "quantifier": "all arrays, fill functions, process counts", "why_tests_cant": "Number of processes unbounded.", "anchors": ["src/bte/drift.cpp", "src/points.cpp:setIrreduciblePoints", "src/bte/ph_scattering.cpp"]}
{"id": "C12", "title": "Mesh points: index and coordinates are inverse", "statement": "On a uniform mesh, the coordinates of point i are distinct for distinct i, looking up the coordinates of point i (or any reciprocal-lattice translate of them) returns i, and i runs over [0, m0*m1*m2).", "quantifier": "all meshes, points and lattice translations", "why_tests_cant": "Every mesh and translation.", "anchors": ["src/points.cpp:getPointCoordinates,getIndex,isPointStored"]}
{"id": "C13", "title": "Off-mesh points are rejected", "statement": "Looking up a point that is not on the mesh (up to the tolerance) is reported as not found.", "quantifier": "all points", "why_tests_cant": "Only sign patterns of the rounding error where errors cancel or are negative reveal failures.", "anchors": ["src/points.cpp:isPointStored"]}
{"id": "C14", "title": "Mesh offset validation", "statement": "A mesh offset component outside [0,1) is rejected.", "quantifier": "all offsets and meshes", "why_tests_cant": "All offsets.", "anchors": ["src/points.cpp:setMesh"]}
{"id": "C15", "title": "Filtered point lists", "statement": "After restricting a point set to a filter of point indices, the stored points are exactly those of the filter, in order; looking up a stored point returns its position and looking up a non-stored mesh point reports it is missing.", "quantifier": "all meshes, sorted filters, points", "why_tests_cant": "Binary search over every sorted list.", "anchors": ["src/points.cpp:setActiveLayer,isPointStored,pointsBinarySearch,internalPointsBinarySearch,innermostPointsBinarySearch"]}
{"id": "C16", "title": "Brillouin-zone folding", "statement": "Folding a point into the Wigner-Seitz/Brillouin zone returns a point that differs from the input by a reciprocal lattice vector and, for the box folding, has crystal coordinates in the half-open unit interval.", "quantifier": "all points", "why_tests_cant": "Continuum of inputs.", "anchors": ["src/points.cpp:foldToBz,bzToWs,setupGVectors"]}
{"id": "C17", "title": "Shortest image search", "statement": "Folding to the Wigner-Seitz cell returns an image no longer than any image obtained by adding a reciprocal-lattice vector with integer components in {-1,0,1}.", "quantifier": "all points and lattices", "why_tests_cant": "Continuum of cells.", "anchors": ["src/points.cpp:setupGVectors,bzToWs"]}
{"id": "C18", "title": "Irreducible points partition the mesh into stars", "statement": "For any symmetry group acting on the mesh, each point belongs to the star of exactly one irreducible point, the stars are disjoint and cover the mesh, every irreducible point represents itself, and the stored rotation maps the irreducible point to the reducible one.", "quantifier": "all finite permutation groups acting on any point set", "why_tests_cant": "Every crystal symmetry and mesh.", "anchors": ["src/points.cpp:setIrreduciblePoints,getRotationToIrreducible,getReducibleStarFromIrreducible"]}
{"id": "C19", "title": "Irreducible/reducible index maps are inverse", "statement": "Mapping an irreducible index to the point index and back is the identity, for every set of irreducible points.", "quantifier": "all irreducible-point lists", "why_tests_cant": "All symmetry reductions.", "anchors": ["src/points.cpp:asIrreducibleIndex,asReducibleIndex,irrPointsIterator,parallelIrrPointsIterator"]}
{"id": "C20", "title": "Sums over irreducible points with star multiplicity equal full sums", "statement": "For a function invariant under the symmetries, summing over the irreducible points weighted by the star size equals summing over all points.", "quantifier": "all invariant functions and symmetry groups", "why_tests_cant": "All symmetry groups.", "anchors": ["src/points.cpp:getRotationsStar", "src/delta_function.cpp:getDOS", "src/observable/specific_heat.cpp"]}
{"id": "C21", "title": "Distributed matrix: every element has exactly one owner", "statement": "In the block-cyclic layout, each global element (i,j) is held by exactly one process at exactly one local position; the local and global index maps are inverse; the per-process lists of local elements are disjoint and together enumerate all elements.", "quantifier": "all matrix shapes, block counts and process grids", "why_tests_cant": "Grid and block shapes unbounded.", "anchors": ["src/algebra/PMatrix.h:global2Local,local2Global,getAllLocalStates"]}
{"id": "C22", "title": "Distributed matrix row/column lists", "statement": "The lists of locally held rows (columns) contain exactly the global rows (columns) stored on this process.", "quantifier": "all shapes and grids", "why_tests_cant": "Off-by-one visible only for some shapes.", "anchors": ["src/algebra/PMatrix.h:getAllLocalRows,getAllLocalCols"]}
{"id": "C23", "title": "Distributed accumulate equals serial accumulate", "statement": "If each process adds its contributions to the elements it owns and reads of non-owned elements yield zero, then summing an element over all processes gives the serial value; writes to non-owned elements have no effect.", "quantifier": "all update sequences, shapes, grids", "why_tests_cant": "All histories of updates.", "anchors": ["src/algebra/PMatrix.h:operator()"]}
{"id": "C24", "title": "Serial matrix storage", "statement": "In the serial dense matrix, element (i,j) read after a write returns the written value and other elements are unchanged; making it the identity gives exactly the identity, whatever it held; out-of-range access is an error.", "quantifier": "all shapes, histories of writes", "why_tests_cant": "All write histories.", "anchors": ["src/algebra/SMatrix.h:global2Local,local2Global,operator(),eye"]}
{"id": "C25", "title": "Matrix symmetrisation", "statement": "Symmetrising a square matrix yields a symmetric matrix, preserves the diagonal, and leaves symmetric matrices unchanged.", "quantifier": "all square matrices", "why_tests_cant": "All sizes.", "anchors": ["src/algebra/SMatrix.cpp:symmetrize", "src/algebra/PMatrix.cpp:symmetrize"]}
{"id": "C26", "title": "Distributed dot product", "statement": "The scalar product of two distributed matrices is the sum over all elements of the products, for every process count.", "quantifier": "all matrices and process counts", "why_tests_cant": "One-process path differs.", "anchors": ["src/algebra/PMatrix.h:dot"]}
{"id": "C27", "title": "Full band structure: state index bijection", "statement": "The state index of (k,band) and its inverse are mutually inverse bijections onto [0, numPoints*numBands).", "quantifier": "all numbers of points and bands", "why_tests_cant": "All sizes.", "anchors": ["src/bands/bandstructure.cpp:getIndex"]}
{"id": "C28", "title": "Active band structure: state index bijection", "statement": "With a different number of active bands at each k-point, the map (k,band) to combined state index is a bijection onto [0,numStates), its inverse is the stored table, and states are numbered k-major.", "quantifier": "all band-count profiles", "why_tests_cant": "All windows/filters.", "anchors": ["src/bands/active_bandstructure.cpp:bloch2Comb,comb2Bloch,buildIndices"]}
{"id": "C29", "title": "Active band structure: storage regions never overlap", "statement": "Writing the energies, velocities or eigenvectors at one k-point never changes those stored at another k-point or band, reading back returns what was written, and no access is out of bounds.", "quantifier": "all band-count profiles and write histories", "why_tests_cant": "All write histories.", "anchors": ["src/bands/active_bandstructure.cpp:velBloch2Comb,eigBloch2Comb,setEnergies,setVelocities,setEigenvectors"]}
{"id": "C30", "title": "BTE index bijection", "statement": "With symmetries, the BTE index of (irreducible k, band) is a bijection onto the number of irreducible states, and state-to-BTE maps every state of a star and band to the BTE state of its irreducible representative.", "quantifier": "all symmetry reductions and band profiles", "why_tests_cant": "All profiles.", "anchors": ["src/bands/active_bandstructure.cpp:buildSymmetries,stateToBte,bteToState", "src/bands/bandstructure.cpp:stateToBte,bteToState"]}
{"id": "C31", "title": "Energy window keeps exactly the bands inside", "statement": "For band energies in ascending order, applying the energy window keeps exactly the bands whose energy lies strictly inside the window, as one contiguous range.", "quantifier": "all sorted energy lists and windows", "why_tests_cant": "Continuum of inputs.", "anchors": ["src/bands/window.cpp:internalEnWindow"]}
{"id": "C32", "title": "Population window is safe for every chemical potential", "statement": "The population window discards a state only if its occupation derivative is negligible at every requested chemical potential and temperature.", "quantifier": "all states, sets of chemical potentials and temperatures", "why_tests_cant": "Intermediate chemical potentials.", "anchors": ["src/bands/window.cpp:apply,internalPopWindow"]}
{"id": "C33", "title": "No-window returns all bands with their energies", "statement": "With the window disabled, all bands are returned with their own energies.", "quantifier": "all energy lists", "why_tests_cant": "All inputs.", "anchors": ["src/bands/window.cpp:apply"]}
{"id": "C34", "title": "Active states do not depend on the parallel layout", "statement": "The list of active k-points and bands produced by the on-the-fly construction is the list a serial scan would produce, for every number of MPI ranks and OpenMP threads and every thread completion order.", "quantifier": "all meshes, windows, rank and thread counts, schedules", "why_tests_cant": "Schedules and layouts unbounded.", "anchors": ["src/bands/active_bandstructure.cpp:buildOnTheFly"]}
{"id": "C35", "title": "Distributed band structure ownership", "statement": "In the distributed full band structure, every k-point is held by exactly one process, ranges are contiguous and ordered, and the state-iterator lists of all ranks partition the states.", "quantifier": "all numbers of k-points and ranks", "why_tests_cant": "All layouts.", "anchors": ["src/bands/bandstructure.cpp:FullBandStructure,getWavevectorIndices,getStateIndices"]}
{"id": "C36", "title": "Statistics sweep enumerates the requested conditions", "statement": "The calculation list is the full product of the requested temperatures and chemical potentials (or dopings), each combination exactly once, and looking up calculation (iTemp,iMu) returns the temperature and chemical potential requested at those positions.", "quantifier": "all lists of temperatures and chemical potentials/dopings", "why_tests_cant": "All list lengths.", "anchors": ["src/statistics_sweep.cpp:StatisticsSweep,getCalcStatistics"]}
{"id": "C37", "title": "Temperature/chemical-potential ranges", "statement": "A range given by minimum, maximum and step expands to the equally spaced values from the minimum up to the maximum, and the expansion terminates for a positive step.", "quantifier": "all ranges", "why_tests_cant": "All ranges.", "anchors": ["src/statistics_sweep.cpp:StatisticsSweep"]}
{"id": "C38", "title": "Chemical potential search converges to the doping", "statement": "For a monotonic electron count, the search keeps the target bracketed at every iteration and on success returns a chemical potential within the tolerance of a root.", "quantifier": "all monotone functions, brackets and iteration counts", "why_tests_cant": "All band structures.", "anchors": ["src/statistics_sweep.cpp:findChemicalPotentialFromDoping"]}
{"id": "C39", "title": "Chemical potential search is collective-safe", "statement": "All MPI ranks take the same decisions in the chemical potential search, so they execute the same sequence of collective operations and return the same value.", "quantifier": "all distributions of states over ranks", "why_tests_cant": "All distributions and schedules.", "anchors": ["src/statistics_sweep.cpp:findChemicalPotentialFromDoping,fPop"]}
{"id": "C40", "title": "Observables are reported for the right condition", "statement": "The value stored for calculation index i is the one returned when asking for the temperature and chemical potential of calculation i.", "quantifier": "all numbers of temperatures and chemical potentials", "why_tests_cant": "Needs several of both at once.", "anchors": ["src/observable/observable.cpp:glob2Loc,loc2Glob", "src/statistics_sweep.cpp:getCalcStatistics", "src/bte/vector_bte.cpp:glob2Loc,loc2Glob"]}
{"id": "C41", "title": "Gaussian smearing is an even non-negative weight", "statement": "The fixed-width Gaussian delta is non-negative, bounded by its peak value and even in the energy.", "quantifier": "all energies and widths", "why_tests_cant": "Continuum.", "anchors": ["src/delta_function.cpp:GaussianDeltaFunction"]}
{"id": "C42", "title": "Adaptive smearing is an even non-negative weight with bounded support", "statement": "The adaptive delta is non-negative, even in energy and in velocity, and vanishes beyond two standard deviations.", "quantifier": "all energies and velocities", "why_tests_cant": "Continuum.", "anchors": ["src/delta_function.cpp:AdaptiveGaussianDeltaFunction"]}
{"id": "C43", "title": "Tetrahedron weights", "statement": "The tetrahedron weight is non-negative, vanishes outside the energy range of the eight corner energies, does not depend on the order of the corner energies, and integrates to one for non-degenerate corners.", "quantifier": "all corner energies", "why_tests_cant": "Continuum.", "anchors": ["src/delta_function.cpp:TetrahedronDeltaFunction"]}
{"id": "C44", "title": "Tetrahedra tile the mesh cell", "statement": "The six tetrahedra cover the sub-cell of the mesh exactly: equal volumes adding to the cell, disjoint interiors.", "quantifier": "all points of the cell", "why_tests_cant": "Continuum of points.", "anchors": ["src/delta_function.cpp:TetrahedronDeltaFunction"]}
{"id": "C45", "title": "Occupation functions", "statement": "Fermi occupations lie in [0,1], Bose occupations are non-negative, n(n+1) and f(1-f) equal the closed form used in the scattering rates, and the energy and temperature derivatives returned are the true derivatives of the occupation.", "quantifier": "all energies, temperatures > 0, chemical potentials", "why_tests_cant": "Continuum.", "anchors": ["src/particle.cpp:getPopulation,getDnde,getDndt,getPopPopPm1"]}
{"id": "C46", "title": "Detailed balance", "statement": "When energy is conserved, the forward and backward statistical factors of a three-phonon process are equal, so the scattering matrix is symmetric.", "quantifier": "all energies and temperatures", "why_tests_cant": "Continuum.", "anchors": ["src/bte/ph_scattering.cpp", "src/particle.cpp:getPopulation"]}
{"id": "C47", "title": "BTE vector arithmetic", "statement": "Elementwise operations on BTE vectors act per calculation, Cartesian component and state; an operand with a single Cartesian component is applied to all three; the excluded (acoustic, zero-energy) states are zero in every result.", "quantifier": "all dimensions, calculations, states and vectors", "why_tests_cant": "All shapes.", "anchors": ["src/bte/vector_bte.cpp:baseOperator,operator*,reciprocal,canonical2Population,population2Canonical"]}
{"id": "C48", "title": "BTE scalar product skips exactly the excluded states", "statement": "The scalar product sums over all states except the excluded ones.", "quantifier": "all band structures with and without symmetries", "why_tests_cant": "Only visible with symmetries where state and BTE numbering differ.", "anchors": ["src/bte/vector_bte.cpp:dot"]}
{"id": "C49", "title": "Parallel matrix-vector product", "statement": "The product of a BTE vector with the distributed matrix is the serial product for every distribution of elements over processes and threads and every order in which threads finish.", "quantifier": "all layouts and schedules", "why_tests_cant": "Schedules unbounded.", "anchors": ["src/bte/vector_bte.cpp:operator*"]}
{"id": "C50", "title": "Scattering loop visits every needed pair exactly once", "statement": "The list of wavevector pairs assigned to the processes contains every (irreducible q1, q2) pair exactly once across processes when the matrix is not stored, and every pair needed by a locally stored element when it is.", "quantifier": "all meshes, symmetry reductions, process grids", "why_tests_cant": "All layouts.", "anchors": ["src/bte/scattering.cpp:getIteratorWavevectorPairs"]}
{"id": "C51", "title": "Pool members run the same number of iterations", "statement": "All processes of a pool go through the same number of iterations of the scattering loop, dummy iterations contribute nothing, and no real pair is lost.", "quantifier": "all pool sizes and work lists", "why_tests_cant": "Deadlocks depend on uneven divisions.", "anchors": ["src/bte/scattering.cpp:getIteratorWavevectorPairs", "src/bte/el_scattering.cpp:builder"]}
{"id": "C52", "title": "Degenerate-state averaging of couplings", "statement": "Averaging couplings over degenerate bands preserves the total coupling, gives equal values to degenerate bands and leaves non-degenerate bands unchanged.", "quantifier": "all couplings and degeneracy patterns", "why_tests_cant": "All patterns.", "anchors": ["src/bte/scattering.cpp:symmetrizeCoupling"]}
{"id": "C53", "title": "Degenerate-state averaging of linewidths", "statement": "After averaging, degenerate states at a wavevector have equal linewidths at every temperature and chemical potential, and the sum over bands is preserved.", "quantifier": "all calculations and degeneracy patterns", "why_tests_cant": "Needs more than one calculation.", "anchors": ["src/bte/scattering.cpp:degeneracyAveragingLinewidths"]}
{"id": "C54", "title": "Symmetrised scattering matrix conversion", "statement": "Converting the scattering matrix to its symmetrised form divides each element by the same factor of its two states, on the matrix and on the stored diagonal alike, once, on every process.", "quantifier": "all matrices, layouts", "why_tests_cant": "All layouts.", "anchors": ["src/bte/scattering.cpp:a2Omega"]}
{"id": "C55", "title": "Linewidths set and read back", "statement": "Reading the linewidths after setting them returns the same values, and the diagonal of the stored matrix agrees with them.", "quantifier": "all vectors, matrix layouts, symmetry options", "why_tests_cant": "All layouts.", "anchors": ["src/bte/scattering.cpp:setLinewidths,getLinewidths"]}
{"id": "C56", "title": "Stored-matrix and on-the-fly modes agree", "statement": "Applying the collision operator to a vector gives the same result whether the matrix is stored or rebuilt, and the off-diagonal product plus the diagonal part is the full product.", "quantifier": "all vectors and matrices", "why_tests_cant": "All matrices.", "anchors": ["src/bte/scattering.cpp:dot,offDiagonalDot", "src/bte/ph_scattering.cpp:builder"]}
{"id": "C57", "title": "Normal and Umklapp contributions add up", "statement": "Every three-phonon contribution to a linewidth is classified as exactly one of Normal or Umklapp, and the two partial linewidths add up to the three-phonon linewidth.", "quantifier": "all processes", "why_tests_cant": "All processes.", "anchors": ["src/bte/ph_scattering.cpp:builder"]}
{"id": "C58", "title": "All third states of a scattering event are available", "statement": "For all q1,q2 in the loop, the point q1+q2 and q1-q2 is in the precomputed third-state list on every process that needs it.", "quantifier": "all q1,q2 lists, layouts", "why_tests_cant": "All layouts.", "anchors": ["src/bte/helper_3rd_state.cpp:Helper3rdState,get"]}
{"id": "C59", "title": "Third-state cache returns the requested state", "statement": "Preparing a batch of q1 points and asking for a q1 of the batch returns the quantities computed for that q1, for any batch.", "quantifier": "all batches of q1 indices", "why_tests_cant": "Only non-contiguous batches reveal the error.", "anchors": ["src/bte/helper_3rd_state.cpp:prepare,get", "src/bte/helper_el_scattering.cpp:prepare,get"]}
{"id": "C60", "title": "Batches cover all wavevectors", "statement": "Splitting the work in batches processes every wavevector exactly once, in order, with batch sizes differing by at most one.", "quantifier": "all list lengths and batch counts", "why_tests_cant": "All sizes.", "anchors": ["src/bte/ph_scattering.cpp:builder", "src/common_kokkos.cpp:splitToBatches"]}
{"id": "C61", "title": "Batches respect the memory limit", "statement": "The number of batches chosen for the three-phonon interaction guarantees that each batch fits in the available memory.", "quantifier": "all memory limits and problem sizes", "why_tests_cant": "All sizes.", "anchors": ["src/interaction/interaction_3ph.cpp:estimateNumBatches"]}
{"id": "C62", "title": "Three-phonon coupling equals the lattice sum", "statement": "The Fourier transform carried out in two steps (caching over one lattice index, then over the other) equals the direct double lattice sum with each weight applied once.", "quantifier": "all force constants, weights and wavevectors", "why_tests_cant": "All tensors.", "anchors": ["src/interaction/interaction_3ph.cpp:cacheD3,getCouplingsSquared"]}
{"id": "C63", "title": "EPA coupling lookup is in bounds and nearest", "statement": "The energy bin used for the coupling is always a valid bin and the nearest one when the energy is in range.", "quantifier": "all energies", "why_tests_cant": "Continuum.", "anchors": ["src/interaction/interaction_epa.cpp:getCoupling"]}
{"id": "C64", "title": "Number lists in the input file are read back", "statement": "A non-empty list of machine integers written between brackets and separated by commas is parsed to the same list; lists of real numbers are read element by element; a list without brackets or without elements is refused.", "quantifier": "all lists of machine integers and all texts of numbers, with any spacing", "why_tests_cant": "All lists.", "anchors": ["src/context.cpp:parseIntList"]}
{"id": "C65", "title": "Boolean values in the input file", "statement": "Boolean inputs true/false and 0/1 are all understood as documented.", "quantifier": "all spellings", "why_tests_cant": "All spellings.", "anchors": ["src/context.cpp:parseBool"]}
{"id": "C66", "title": "Input file line order does not matter", "statement": "Permuting the lines of distinct parameters in the input file does not change the resulting settings.", "quantifier": "all permutations", "why_tests_cant": "All permutations.", "anchors": ["src/context.cpp:setupFromInput"]}
{"id": "C67", "title": "Comments and unknown lines", "statement": "Text after a comment sign has no influence on the settings, and later assignments override earlier ones.", "quantifier": "all input files", "why_tests_cant": "All files.", "anchors": ["src/context.cpp:setupFromInput,parseParameterNameValue"]}
{"id": "C68", "title": "Energy units", "statement": "A value with an energy unit is converted with the factor of that unit.", "quantifier": "all unit strings", "why_tests_cant": "Unit names that contain one another.", "anchors": ["src/context.cpp:parseDoubleWithUnits"]}
{"id": "C69", "title": "Cell geometry", "statement": "The cell volume is the absolute determinant, the reciprocal cell is 2 pi times the inverse transpose, and conversions between crystal and Cartesian coordinates are mutually inverse.", "quantifier": "all invertible cells", "why_tests_cant": "Continuum.", "anchors": ["src/crystal.cpp:calcVolume,calcReciprocalCell,crystalToCartesian,cartesianToCrystal", "src/points.cpp:crystalToCartesian,cartesianToCrystal"]}
{"id": "C70", "title": "Wigner-Seitz vectors", "statement": "The list of Wigner-Seitz lattice vectors contains with each vector its opposite with the same degeneracy, the weights add up to the number of cells of the supercell, and the origin is first; the weights of the vectors equivalent to any lattice vector, up to vectors of the supercell, add up to one.", "quantifier": "all lattices and supercells", "why_tests_cant": "All lattices.", "anchors": ["src/crystal.cpp:buildWignerSeitzVectors"]}
{"id": "C71", "title": "Progress report", "statement": "A loop of any length prints a bounded number of progress lines, and the last step is always reported.", "quantifier": "all loop lengths", "why_tests_cant": "All lengths.", "anchors": ["src/io.cpp:LoopPrint"]}
{"id": "C72", "title": "Application dispatch is total", "statement": "Every accepted application name gets an application object; every other name stops with an error.", "quantifier": "all strings", "why_tests_cant": "All strings.", "anchors": ["src/apps/app.cpp:loadApp"]}
{"id": "C73", "title": "Degenerate-block enumeration on the device", "statement": "The scan-based compaction enumerates each block of degenerate bands exactly once, covering all bands.", "quantifier": "all degeneracy patterns", "why_tests_cant": "All patterns.", "anchors": ["src/harmonic/harmonic.cpp:kokkosBatchedTreatDegenerateVelocities"]}
{"id": "C74", "title": "Exclusion lists refer to the states they are applied to", "statement": "Only zero-energy phonon states are skipped as final states when computing lifetimes on a path different from the integration mesh.", "quantifier": "all pairs of band structures", "why_tests_cant": "Inner and outer band structures must differ.", "anchors": ["src/bte/ph_scattering.cpp:builder", "src/bte/scattering.cpp:ScatteringMatrix"]}
{"id": "C75", "title": "Device memory accounting", "statement": "The tracked device memory equals the total of the live allocations for every history of allocations and frees, and never goes negative.", "quantifier": "all histories", "why_tests_cant": "All histories.", "anchors": ["src/common_kokkos.cpp:DeviceManager"]}
{"id": "C76", "title": "Iterating over all states in parallel", "statement": "The per-process state iterators of a band structure together visit every state exactly once.", "quantifier": "all band structures, distributed or not, and process counts", "why_tests_cant": "All sizes and process counts.", "anchors": ["src/bands/bandstructure.cpp:parallelStateIterator,getNumStates"]}
{"id": "C77", "title": "Energy window around the chemical potentials keeps the requested states", "statement": "An energy window centred on the chemical potentials keeps every state whose energy is within the requested limits of at least one of the chemical potentials.", "quantifier": "all band energies, limits and lists of chemical potentials", "why_tests_cant": "Continuum of energies.", "anchors": ["src/bands/window.cpp:Window,internalEnWindow,apply"]}
{"id": "C78", "title": "Arithmetic and identity of distributed matrices", "statement": "Scaling, negating, adding and subtracting distributed matrices acts element by element on the global matrices; making a square distributed matrix the identity gives exactly the identity, whatever it held; matrices of different sizes are refused.", "quantifier": "all matrices, layouts and process grids", "why_tests_cant": "All layouts and contents.", "anchors": ["src/algebra/PMatrix.h:operator+=,operator-=,operator*=,operator/=,operator-,eye"]}
{"id": "C79", "title": "Atoms of the crystal block", "statement": "Reading the crystal block of the input file gives the positions of the atoms in the order of the lines (converted from Angstrom), distinct species names, and for each atom the index of its own name.", "quantifier": "all lists of atoms", "why_tests_cant": "All numbers and orders of atoms and species.", "anchors": ["src/context.cpp:parseCrystal"]}
{"id": "C80", "title": "Segments of the path block", "statement": "Reading the path block of the input file gives, for each line in order, the labels and the coordinates of the two ends of the segment.", "quantifier": "all lists of segments", "why_tests_cant": "All paths.", "anchors": ["src/context.cpp:parsePathExtrema"]}
{"id": "C81", "title": "Strings in the input file", "statement": "Text between quotes (single or double) is read back, and a list of quoted strings without spaces is read back.", "quantifier": "all texts", "why_tests_cant": "All texts.", "anchors": ["src/context.cpp:parseString,parseStringList"]}
{"id": "C82", "title": "Splitting wavevectors into batches for the device", "statement": "Splitting a list of wavevectors into batches of a requested size gives consecutive batches that together are the list, each with at most the requested number of wavevectors.", "quantifier": "all lists and batch sizes", "why_tests_cant": "All lengths and sizes.", "anchors": ["src/common_kokkos.cpp:DeviceManager::splitToBatches"]}
{"id": "C83", "title": "Number of wavevectors diagonalized at once", "statement": "The number of wavevectors whose Hamiltonians are diagonalized at once is at least one and takes at most 95% of the available device memory, and the program refuses to continue only if not even one fits.", "quantifier": "all available memories and sizes", "why_tests_cant": "All sizes.", "anchors": ["src/harmonic/phonon_h0_kokkos.cpp:PhononH0::estimateBatchSize", "src/harmonic/electron_h0_wannier.cpp:ElectronH0Wannier::estimateBatchSize"]}
{"id": "C84", "title": "Command line", "statement": "The input file read is the one named after -in, wherever it stands on the command line; a missing or unreadable file stops with an error; with -out the output goes to the named file, without it to the screen.", "quantifier": "all command lines", "why_tests_cant": "All lists of words.", "anchors": ["src/io.cpp:IO,getCmdOption", "doc/sphinx/source/running.rst"]}
{"id": "C85", "title": "Invariances of three-phonon couplings", "statement": "The couplings returned for a wavevector do not depend on the other wavevectors of the batch, nor on the arbitrary phases of the eigenvectors, nor on which of the equivalent wavevectors (differing by a reciprocal lattice vector) is used; they are never negative.", "quantifier": "all force constants, batches, eigenvectors, phases and wavevectors", "why_tests_cant": "All batches and phases.", "anchors": ["src/interaction/interaction_3ph.cpp:getCouplingsSquared"]}
{"id": "C86", "title": "Couplings belong to the wavevector of the request", "statement": "Whatever sequence of calls came before, the couplings returned are those of the wavevectors passed with the request.", "quantifier": "all histories of cacheD3 and getCouplingsSquared calls", "why_tests_cant": "All histories.", "anchors": ["src/interaction/interaction_3ph.cpp:cacheD3,getCouplingsSquared"]}
{"id": "C87", "title": "Velocities of degenerate bands", "statement": "After the treatment of degenerate bands on the device the velocity operator is diagonal and real within each block of degenerate bands, the sum of the velocities of a block is unchanged, the elements outside of the blocks are unchanged, and the result does not depend on the order in which the parallel loops run.", "quantifier": "all energies, thresholds, velocity operators and schedules", "why_tests_cant": "All schedules.", "anchors": ["src/harmonic/harmonic.cpp:kokkosBatchedTreatDegenerateVelocities"]}
{"id": "C88", "title": "Acoustic sum rule", "statement": "After an acoustic sum rule (simple or crystal) has been imposed, a rigid translation of the crystal causes no force and the Born charges of all atoms add up to zero; data that satisfy the rule already are returned unchanged; no rule leaves the data as they are and an unknown rule stops the program.", "quantifier": "all force constants, charges, numbers of atoms and grids", "why_tests_cant": "All tensors.", "anchors": ["src/harmonic/phonon_h0_sum_rule.cpp:PhononH0::setAcousticSumRule"]}
{"id": "C89", "title": "Force constants stay symmetric", "statement": "After an acoustic sum rule has been imposed on force constants that are second derivatives of an energy, they still have the symmetry of second derivatives (exchange of the two atoms and directions, opposite cell).", "quantifier": "all symmetric force constants, numbers of atoms and grids", "why_tests_cant": "All tensors.", "anchors": ["src/harmonic/phonon_h0_sum_rule.cpp:PhononH0::setAcousticSumRule"]}
{"id": "C90", "title": "Phonons are time-reversal symmetric", "statement": "The phonon frequencies at q and at -q are equal, and the dynamical matrices are complex conjugates of each other.", "quantifier": "all crystals, force constants, dielectric tensors, charges, wavevectors and eigenvector conventions", "why_tests_cant": "All wavevectors and force constants.", "anchors": ["src/harmonic/phonon_h0.cpp:PhononH0::diagonalizeFromCoordinates,shortRangeTerm,addLongRangeTerm,dynDiagonalize"]}
{"id": "C91", "title": "Phonons are periodic in reciprocal space", "statement": "The frequencies and eigenvectors at two wavevectors that differ by a vector of the reciprocal lattice are the same (frequencies only, when there is a dielectric tensor).", "quantifier": "all crystals, force constants, wavevectors and reciprocal lattice vectors", "why_tests_cant": "All wavevectors and lattice vectors.", "anchors": ["src/harmonic/phonon_h0.cpp:PhononH0::diagonalizeFromCoordinates,addLongRangeTerm"]}
{"id": "C92", "title": "Three acoustic phonons at the zone centre", "statement": "When an acoustic sum rule has been imposed, three phonons at the zone centre have zero frequency.", "quantifier": "all crystals, grids, symmetric force constants and sum rules", "why_tests_cant": "All force constants.", "anchors": ["src/harmonic/phonon_h0.cpp:PhononH0::PhononH0,diagonalizeFromCoordinates"]}
{"id": "C93", "title": "Phonon eigenvectors are orthonormal", "statement": "Whatever the force constants, frequencies come in increasing order and the eigenvectors are orthonormal and complete; with mass scaling they satisfy U^dagger M U = 1 and solve the equations of motion.", "quantifier": "all crystals, masses, force constants and wavevectors", "why_tests_cant": "All matrices.", "anchors": ["src/harmonic/phonon_h0.cpp:PhononH0::diagonalizeFromCoordinates,dynDiagonalize"]}
{"id": "C94", "title": "Phonons on the device", "statement": "The batched device code returns the frequencies and eigenvectors of the host code, for every order in which its teams run.", "quantifier": "all crystals, wavevectors and schedules", "why_tests_cant": "All schedules.", "anchors": ["src/harmonic/phonon_h0_kokkos.cpp:PhononH0::kokkosBatchedBuildBlochHamiltonian,kokkosBatchedDiagonalizeFromCoordinates"]}
{"id": "C95", "title": "Fourier interpolation is exact on the coarse grid", "statement": "The Wigner-Seitz weights of the cells equivalent to a cell of the coarse grid add up to one, and the dynamical matrix at a wavevector of the coarse grid is the Fourier sum of the force constants.", "quantifier": "all crystals with a compact supercell accepted by the program, all grids, force constants and commensurate wavevectors (interpolation: without a dielectric tensor)", "why_tests_cant": "All cells, atoms and grids.", "anchors": ["src/harmonic/phonon_h0.cpp:PhononH0::wsInit,wsWeight,reorderDynamicalMatrix,shortRangeTerm"]}
{"id": "C96", "title": "Strength of the macroscopic field", "statement": "As the wavevector approaches the zone centre along q, the macroscopic field changes the dynamical matrix by 4 pi e^2 / volume (q.Z)(q.Z) / (q.eps.q).", "quantifier": "all polar crystals and directions", "why_tests_cant": "A limit, for all charges and dielectric tensors.", "anchors": ["src/harmonic/phonon_h0.cpp:PhononH0::addLongRangeTerm", "src/constants/constants.h:fourPi"]}
{"id": "C97", "title": "Phonon velocities are well defined", "statement": "The velocities computed for a phonon wavevector do not depend on which of the equivalent eigenvectors the eigensolver returns: the velocity operator is Hermitian, is diagonal within each group of degenerate bands, the velocities of each group in each direction are the same for any two correct eigensolvers, velocities at q and -q are opposite, they are zero at the zone centre (|q| < 1e-6), and otherwise they are the central difference of the square root of the dynamical matrix between the eigenvectors.", "quantifier": "every crystal, set of force constants, wavevector, eigensolver that diagonalizes Hermitian matrices and non-negative degeneracy threshold", "why_tests_cant": "The freedom in the eigenvectors depends on the library, the compiler and the machine; a test sees one choice on one crystal.", "anchors": ["src/harmonic/phonon_h0.cpp:PhononH0::diagonalizeVelocityFromCoordinates"]}
{"id": "C98", "title": "Phonon velocities on the device are those of the host", "statement": "A batch of wavevectors diagonalized on the accelerator gives, for every wavevector, the velocities of the host, whatever the schedule of the parallel loops.", "quantifier": "every crystal, batch of wavevectors, and order of the parallel loops", "why_tests_cant": "Agreement has to hold for every schedule and wavevector; tests on coarse grids never have a wavevector in the small region where the two zone-centre tests differ.", "anchors": ["src/harmonic/phonon_h0_kokkos.cpp:kokkosBatchedDiagonalizeWithVelocities", "src/harmonic/phonon_h0.cpp:PhononH0::diagonalizeVelocityFromCoordinates"]}
{"id": "C99", "title": "Interpolated electron bands go through the input bands", "statement": "After the Fourier interpolation of electron bands is set up, the interpolated energy of every band at every point of the coarse grid is the input energy; a cutoff below one is refused.", "quantifier": "every crystal, grid of wavevectors with any offset, set of energies, number of bands, cutoff, and correct solver of linear systems", "why_tests_cant": "The interpolation is exact only if the set of lattice vectors found by the search separates all the points of the grid, which depends on the shape of the cell, the grid and the cutoff; tests use one cell.", "anchors": ["src/harmonic/electron_h0_fourier.cpp:ElectronH0Fourier::setPositionVectors", "src/harmonic/electron_h0_fourier.cpp:ElectronH0Fourier::getCoefficients", "src/harmonic/electron_h0_fourier.cpp:ElectronH0Fourier::getEnergyFromCoordinates"]}
{"id": "C100", "title": "Interpolated electron velocities are gradients of periodic energies", "statement": "The group velocity of an interpolated band is the gradient of its energy with respect to the wavevector, the velocity operator is diagonal and real, and energies and velocities are unchanged when a reciprocal lattice vector is added to the wavevector.", "quantifier": "every crystal, grid, cutoff, set of energies, wavevector and reciprocal lattice vector", "why_tests_cant": "Finite differences at a few points cannot settle equality of functions of the wavevector.", "anchors": ["src/harmonic/electron_h0_fourier.cpp:ElectronH0Fourier::getGroupVelocityFromCoordinates", "src/harmonic/electron_h0_fourier.cpp:ElectronH0Fourier::diagonalizeVelocityFromCoordinates"]}
{"id": "C101", "title": "Removing bands outside of an energy window keeps the filling", "statement": "Restricting the interpolated bands to an energy window keeps exactly the bands with a coarse energy in the window, in their order, and the new number of occupied states is the number of electrons that the kept bands hold, so that the chemical potential does not move.", "quantifier": "every set of bands, window, and occupation that is one below the window and zero above it", "why_tests_cant": "Depends on how bands lie with respect to the window at all points; tests use well-separated bands.", "anchors": ["src/harmonic/electron_h0_fourier.cpp:ElectronH0Fourier::trimBands"]}
{"id": "C102", "title": "Interpolated Hamiltonians reproduce the input and are Hermitian and periodic", "statement": "The Wannier-interpolated Hamiltonian at a wavevector is the sum over lattice vectors (or over their shifted images, with equal weights) of matrix elements with phases; it is Hermitian when the input is, periodic in reciprocal space, and at the wavevectors of the coarse grid it is the coarse Hamiltonian, with or without shifts. More than eight images of a vector are not accepted.", "quantifier": "every number of functions and vectors, matrix elements, degeneracies, shifts, wavevector, cell and coarse grid", "why_tests_cant": "Equality of functions of the wavevector and of all the data; tests compare one material at a few points.", "anchors": ["src/harmonic/electron_h0_wannier.cpp:ElectronH0Wannier::batchedBuildHamiltonians", "src/harmonic/electron_h0_wannier.cpp:ElectronH0Wannier::addShiftedVectors"]}
{"id": "C103", "title": "Wannier velocities are Hermitian and are gradients of the bands", "statement": "The velocity operator of Wannier-interpolated bands is Hermitian; its diagonal elements for bands that are not degenerate are the gradients of the energies up to an explicit error of second order in the step; velocities do not depend on the eigenvectors chosen by the library (as multisets for degenerate bands) and change sign with the wavevector for time-reversal symmetric data.", "quantifier": "every Hermitian data set, wavevector, correct eigensolver and threshold", "why_tests_cant": "Finite differences at chosen points do not settle degenerate bands, all directions, and every output the library may return.", "anchors": ["src/harmonic/electron_h0_wannier.cpp:ElectronH0Wannier::batchedDiagonalizeWithVelocities"]}
{"id": "C104", "title": "Electron bands on the device are those of the host", "statement": "Hamiltonians and velocities computed on the device are those of the host, whatever the schedule of the parallel loops.", "quantifier": "every data set, batch of wavevectors, eigensolver and schedule of the loops", "why_tests_cant": "Schedules of a parallel device cannot be enumerated by tests, and tests without shifted vectors do not reach the code.", "anchors": ["src/harmonic/electron_h0_wannier.cpp:ElectronH0Wannier::kokkosBatchedBuildBlochHamiltonian", "src/harmonic/electron_h0_wannier.cpp:ElectronH0Wannier::kokkosBatchedDiagonalizeWithVelocities"]}
{"id": "C105", "title": "The Berry connection is the rotated position matrix", "statement": "The Berry connection at a wavevector is the sum over lattice vectors of the matrix elements of the position with their phases, in the basis of the eigenvectors.", "quantifier": "every data set, wavevector and eigensolver", "why_tests_cant": "No test calls it; memory errors need not be visible.", "anchors": ["src/harmonic/electron_h0_wannier.cpp:ElectronH0Wannier::getBerryConnection"]}
{"id": "C106", "title": "Batches do not change the electron band structure", "statement": "The energies, eigenvectors and velocities of a list of points on the device are, point by point, those of the kernel, for every size of the batches.", "quantifier": "every list of points, batch size and kernel", "why_tests_cant": "The size of the batches depends on the free memory of the device, which tests do not control.", "anchors": ["src/harmonic/electron_h0_wannier.cpp:ElectronH0Wannier::kokkosPopulate", "src/harmonic/electron_h0_wannier.cpp:ElectronH0Wannier::estimateBatchSize"]}
{"id": "C107", "title": "The Wannier Hamiltonian is the one in the files", "statement": "Reading the Hamiltonian files of Wannier90 gives the unit cell, the lattice vectors, their degeneracies and the matrix elements that the files state, and the bands at every wavevector are those of the Hamiltonian of the files, with or without the file of shifts.", "quantifier": "every content of the files, every way to print the numbers, every wavevector", "why_tests_cant": "One reference file whose matrices are nearly symmetric does not show an exchange of indices; the statement is about all contents.", "anchors": ["src/parser/qe_input_parser.cpp:QEParser::parseElHarmonicWannier"]}
{"id": "C108", "title": "The file of shifts is read as written", "statement": "For every file of shifts that Wannier90 writes, the program gets the number of images of each pair of functions and vector, and their shifts.", "quantifier": "every content with up to eight images per pair, every set of lattice vectors", "why_tests_cant": "Tests do not read such a file; a grid of one wavevector is never tried.", "anchors": ["src/parser/qe_input_parser.cpp:parseWSVecFromWannier90"]}
{"id": "C109", "title": "Phonon thermal conductivity is the sum over the full mesh", "statement": "The thermal conductivity made from a phonon population is, on every process, 1/(N V) times the sum over all the states of the full mesh of energy, population and velocity, without the excluded states; in the relaxation time approximation it is symmetric and heat never flows against the gradient of temperature.", "quantifier": "every band structure, symmetry reduction, population, number of processes and schedule of threads, dimension", "why_tests_cant": "The reduction by symmetry, the distribution over processes and the order of the additions must not matter; tests run a few cubic crystals on few processes.", "anchors": ["src/observable/phonon_thermal_cond.cpp:PhononThermalConductivity::calcFromPopulation", "src/bte/drift.cpp:BulkTDrift"]}
{"id": "C110", "title": "Onsager coefficients of electrons describe the response of the crystal", "statement": "The electrical conductivity, the Seebeck coefficient and the thermal conductivity that are reported are those of the linear response of the electrons to a field and a temperature gradient: current sigma E without gradient; E = -S grad T and heat current -kappa grad T without current; sigma and kappa symmetric and dissipative; reciprocity between the cross coefficients; the same on every process.", "quantifier": "every band structure, symmetry reduction, relaxation times, temperature, chemical potential, number of processes, schedule of threads, dimension", "why_tests_cant": "Signs and inverses are right or wrong for every input; tests compare a few numbers of one semiconductor.", "anchors": ["src/observable/onsager.cpp:OnsagerCoefficients::calcFromPopulation", "src/observable/onsager.cpp:OnsagerCoefficients::calcTransportCoefficients", "src/observable/onsager.cpp:OnsagerCoefficients::calcFromSymmetricPopulation", "src/bte/drift.cpp:BulkEDrift"]}
{"id": "C111", "title": "Coefficients of the electron-phonon averaged approximation", "statement": "The conductivity, Seebeck coefficient and thermal conductivity made from quantities averaged over energies are those of the transport distribution: K0, -K0^-1 K1/T and (K2 - K1 K0^-1 K1)/T.", "quantifier": "every set of energies, averaged velocities and scattering rates, temperature and chemical potential, dimension", "why_tests_cant": "The sign of one of the cross terms changes the thermal conductivity only, by an amount that depends on the spectrum.", "anchors": ["src/observable/onsager.cpp:OnsagerCoefficients::calcFromEPA"]}
{"id": "C112", "title": "Specific heat is the derivative of the energy", "statement": "The specific heat is the derivative with respect to the temperature of the energy of the crystal per volume, is never negative, and does not depend on the reduction by symmetry or on the schedule of threads.", "quantifier": "every band structure, symmetry reduction, temperature, chemical potential and schedule", "why_tests_cant": "A derivative identity for all spectra; factors of spin go unnoticed without an independent reference.", "anchors": ["src/observable/specific_heat.cpp:SpecificHeat::calc"]}
{"id": "C113", "title": "Reported numbers are in the units printed beside them", "statement": "Conductivities and specific heats that are printed and written to files are in the SI units that the program writes beside them, in one, two and three dimensions.", "quantifier": "every dimension, thickness and value", "why_tests_cant": "Tests check three-dimensional crystals.", "anchors": ["src/observable/onsager.cpp:OnsagerCoefficients::print", "src/observable/onsager.cpp:OnsagerCoefficients::outputToJSON", "src/observable/specific_heat.cpp:SpecificHeat::print", "src/observable/phonon_thermal_cond.cpp:PhononThermalConductivity::PhononThermalConductivity"]}
{"id": "C114", "title": "Lists of the output file are in line with each other", "statement": "In the output file of electron transport the entry number i of every list belongs to the calculation number i of the sweep.", "quantifier": "every sweep of temperatures, dopings and chemical potentials", "why_tests_cant": "Depends on the values of the doping in the sweep.", "anchors": ["src/observable/onsager.cpp:OnsagerCoefficients::outputToJSON"]}
{"id": "C115", "title": "Iterative solver converges to the solution of the Boltzmann equation", "statement": "When the iterative (Omini-Sparavigna) solver ends normally, the conductivity it reports is that of the solution of the linearised Boltzmann equation within the convergence threshold; when it does not reach the threshold in the allowed number of iterations, it reports an error.", "quantifier": "every scattering matrix, band structure, threshold, maximal number of iterations, number of processes and schedule of threads", "why_tests_cant": "Convergence is a statement on all the matrices; a test only sees that one run ends near a reference number.", "anchors": ["src/apps/phonon_transport_app.cpp:PhononTransportApp::run", "src/apps/electron_wannier_transport_app.cpp:ElectronWannierTransportApp::run", "src/observable/phonon_thermal_cond.cpp:PhononThermalConductivity::calcFromCanonicalPopulation", "src/utilities.cpp:findMaxRelativeDifference"]}
{"id": "C116", "title": "Variational solver gives a bound that improves and becomes exact", "statement": "The conductivity that the variational (conjugate gradient) solver reports at every iteration is a lower bound of the exact one, never gets worse from one iteration to the next, and is exact after at most as many iterations as there are states.", "quantifier": "every symmetric positive definite scattering matrix, right-hand side, band structure, number of processes and schedule of threads", "why_tests_cant": "Conjugacy of all the previous directions and termination hold by induction over iterations for every matrix.", "anchors": ["src/apps/phonon_transport_app.cpp:PhononTransportApp::run", "src/apps/electron_wannier_transport_app.cpp:ElectronWannierTransportApp::run", "src/observable/phonon_thermal_cond.cpp:PhononThermalConductivity::calcVariational", "src/observable/onsager.cpp:OnsagerCoefficients::calcVariational", "src/bte/vector_bte.cpp:VectorBTE::dot"]}
{"id": "C117", "title": "Relaxons solver solves the Boltzmann equation", "statement": "The population made from the eigenvalues and eigenvectors of the scattering matrix solves the Boltzmann equation, apart from the part of the source along relaxons whose eigenvalue is not positive; with any number of requested eigenvalues the run is defined.", "quantifier": "every matrix with a complete set of eigenvectors, distribution of its elements among processes, schedule of threads, number of eigenvalues requested", "why_tests_cant": "Distribution of the matrix and discarded relaxons must not matter; tests compute all the eigenvalues on one process.", "anchors": ["src/observable/phonon_thermal_cond.cpp:PhononThermalConductivity::calcFromRelaxons", "src/observable/onsager.cpp:OnsagerCoefficients::calcFromRelaxons", "src/algebra/PMatrix.cpp:ParallelMatrix::diagonalize"]}
{"id": "C118", "title": "Electron-phonon scattering conserves electrons and relaxes to equilibrium", "statement": "Rates of scattering between electron states are not negative, the scattering matrix is symmetric, does not change the equilibrium with a different number of electrons, and drives every other population of interacting states towards it.", "quantifier": "every set of electron states, phonon energies and couplings, temperature, chemical potential, smearing scheme and distribution of the processes", "why_tests_cant": "Detailed balance must hold for all energies and temperatures; tests compare a few mobilities with reference numbers.", "anchors": ["src/bte/el_scattering.cpp:ElScatteringMatrix::builder", "src/bte/helper_el_scattering.cpp", "src/delta_function.cpp:GaussianDeltaFunction::getSmearing", "src/particle.cpp:Particle::getPopPopPm1"]}
{"id": "C119", "title": "Symmetries do not change the action of the scattering matrix", "statement": "With symmetries switched on, the product of the scattering matrix with a population that has the symmetry of the crystal, and the linewidths, equal those without symmetries.", "quantifier": "every crystal symmetry, population with that symmetry, list of scattering processes and distribution among processes", "why_tests_cant": "Reduction to irreducible states must be exact for every crystal and mesh; tests use one material.", "anchors": ["src/bte/el_scattering.cpp:ElScatteringMatrix::builder", "src/bte/ph_scattering.cpp:PhScatteringMatrix::builder", "src/bte/scattering.cpp:ScatteringMatrix::dot"]}
{"id": "C120", "title": "Phonon linewidths due to electrons", "statement": "The linewidth of a phonon due to electrons is the golden-rule sum over all the electron wavevectors of the mesh, is not negative, does not depend on the use of symmetries or on the number of processes, and the calculation ends with any number of processes per pool.", "quantifier": "every electron and phonon band structure, coupling, temperature, chemical potential, symmetry and number of processes", "why_tests_cant": "Sums over stars must be exact for every pair of wavevectors; deadlocks depend on the number of processes.", "anchors": ["src/bte/phel_scattering.cpp:PhElScatteringMatrix::builder", "src/bte/phel_scattering.cpp:PhElScatteringMatrix::getIrrWavevectorPairs", "src/interaction/interaction_elph.cpp:InteractionElPhWan::cacheElPh"]}
{"id": "C121", "title": "Reading the electron-phonon coupling", "statement": "From a file of the coupling in any of the supported formats, each process gets the couplings of exactly the lattice vectors of its share, complete and in order, for any number of processes, and damaged files are rejected.", "quantifier": "every coupling, number of lattice vectors, processes and processes per pool, and file contents", "why_tests_cant": "The loss of data depends on the number of processes and on the sizes; tests run with few processes on one file.", "anchors": ["src/interaction/interaction_elph_parsing.cpp"]}
{"id": "C122", "title": "Interpolated electron-phonon coupling", "statement": "The squared coupling returned for each entry of a batch is that of the Wannier interpolation formula at the wavevectors and eigenvectors given, whatever the distribution of lattice vectors in the pool, the requests of other processes, the other entries of the batch and uninitialised memory.", "quantifier": "every coupling, lattice, set of wavevectors and eigenvectors, distribution among the processes of a pool and batch", "why_tests_cant": "Batches are padded and pools of processes exchange partial sums; tests look at one wavevector on one process.", "anchors": ["src/interaction/interaction_elph.cpp:InteractionElPhWan::cacheElPh", "src/interaction/interaction_elph.cpp:InteractionElPhWan::calcCouplingSquared"]}
{"id": "C123", "title": "Symmetries of the interpolated coupling", "statement": "Sums of the squared coupling over degenerate initial, final or phonon states do not depend on the choice of the eigenvectors, and the coupling is the same at equivalent wavevectors.", "quantifier": "every coupling, wavevector, unitary mixing of any group of states and reciprocal lattice vector", "why_tests_cant": "Eigensolvers choose eigenvectors of degenerate states arbitrarily; the choice differs between machines.", "anchors": ["src/interaction/interaction_elph.cpp:InteractionElPhWan::calcCouplingSquared"]}
{"id": "C124", "title": "Polar correction of the coupling", "statement": "The polar correction is the long-range coupling of Verdi and Giustino with the lattice vectors of the coarse grid; it is linear in the phonon eigenvector, conjugate at opposite wavevectors, independent of the periodic images chosen for the atoms, zero without effective charges, and the same at equivalent wavevectors.", "quantifier": "every crystal, dielectric matrix, effective charges, wavevector, eigenvector and coarse grid", "why_tests_cant": "Identities over all wavevectors; a wrong prefactor gives plausible numbers.", "anchors": ["src/interaction/interaction_elph.cpp:InteractionElPhWan::polarCorrectionPart1Static", "src/constants/constants.h"]}
{"id": "C125", "title": "Wigner correction of the phonon thermal conductivity", "statement": "The correction to the thermal conductivity is, for any number of processes, the sum over the mesh of the heat carried by pairs of different modes; it is symmetric and never carries heat against the gradient, and together with the relaxation time term does not depend on the choice of the eigenvectors of degenerate modes.", "quantifier": "every band structure, velocity operator, linewidths, temperature, number of processes and choice of eigenvectors", "why_tests_cant": "Degenerate modes get arbitrary eigenvectors from the eigensolver, and modes without linewidth are special points of the mesh.", "anchors": ["src/observable/wigner_phonon_thermal_cond.cpp"]}
{"id": "C126", "title": "Wigner corrections of the electron transport coefficients", "statement": "The corrections to the four Onsager coefficients are the fluxes of charge and heat due to the coherences between bands, for any number of processes.", "quantifier": "every band structure, velocity operator, linewidths, temperature, chemical potential and number of processes", "why_tests_cant": "Signs, factors of two and degenerate bands give plausible numbers in a test.", "anchors": ["src/observable/wigner_electron.cpp"]}
{"id": "C127", "title": "Viscosity in the relaxation time approximation", "statement": "The viscosity of phonons and electrons is, on every process and for every schedule, the sum over the full mesh of n(n+-1) tau q v q v / T, even when only irreducible states are stored; it has the symmetries of a viscosity and never gives back energy.", "quantifier": "every band structure with its symmetries, relaxation times, excluded states, number of processes and schedule", "why_tests_cant": "Symmetry reduction, processes and threads must not change the result; tests fix one case.", "anchors": ["src/observable/phonon_viscosity.cpp:PhononViscosity::calcRTA", "src/observable/electron_viscosity.cpp:ElectronViscosity::calcRTA"]}
{"id": "C128", "title": "Special eigenvectors of the scattering matrix", "statement": "The eigenvectors of energy, charge and momentum have norm one and the right direction, for every band structure and number of processes, and the specific heat and specific momentum are averages over the mesh.", "quantifier": "every band structure, mesh, window, temperature, chemical potential, dimension and number of processes", "why_tests_cant": "Meshes with one point along an axis and windows are not covered by tests.", "anchors": ["src/observable/viscosity_io.cpp:genericCalcSpecialEigenvectors"]}
{"id": "C129", "title": "Phonon viscosity from the relaxons", "statement": "The viscosity of phonons from the relaxons is the sum over the relaxons of the products of their fluxes of momentum divided by their rate, and agrees with the relaxation time approximation when the scattering matrix is diagonal.", "quantifier": "every band structure, relaxons, distribution of the eigenvectors, number of processes and schedule", "why_tests_cant": "The components depend on which index is the momentum; an isotropic crystal hides an exchange.", "anchors": ["src/observable/phonon_viscosity.cpp:PhononViscosity::calcFromRelaxons"]}
{"id": "C130", "title": "Electron viscosity from the relaxons", "statement": "The viscosity of electrons from the relaxons is the sum over the relaxons of the products of their fluxes of momentum divided by their rate, for all the relaxons calculated, with the spin factor.", "quantifier": "every band structure, relaxons, number of relaxons calculated, distribution of the eigenvectors and number of processes", "why_tests_cant": "A factor that varies with the state and reads out of range do not show in a single test.", "anchors": ["src/observable/electron_viscosity.cpp:ElectronViscosity::calcFromRelaxons"]}
{"id": "C131", "title": "Relaxons of the conserved quantities", "statement": "The relaxon that is left out is the one that coincides with the special eigenvector, whatever its sign, position and the distribution of the matrix, and none is left out if there is none.", "quantifier": "every set of orthonormal relaxons, special eigenvector, number of relaxons and distribution", "why_tests_cant": "Needs the argument that two orthonormal vectors cannot both overlap by three quarters; small systems are read out of range.", "anchors": ["src/observable/viscosity_io.cpp:genericRelaxonEigenvectorsCheck"]}
{"id": "C132", "title": "Coefficients for the real-space solver", "statement": "The dissipation of momentum written to file is the quadratic form of the scattering matrix on the eigenvectors of momentum (symmetric, never negative, zero when scattering conserves momentum), the velocity tensors are the products of velocities between special eigenvectors, and units are those of the dimension of the crystal.", "quantifier": "every scattering matrix, band structure, distribution, number of processes and dimension", "why_tests_cant": "Quantified over all matrices and distributions; tests use three dimensions.", "anchors": ["src/observable/viscosity_io.cpp:genericOutputRealSpaceToJSON", "src/constants/constants.h"]}
{"id": "C133", "title": "Scattering rates of the electron-phonon averaged approximation", "statement": "The rate at each energy is, on every process, the sum over the modes of emission and absorption with the averaged coupling, the occupations and the density of states interpolated at the shifted energies; it is never negative.", "quantifier": "every mesh of energies, density of states, set of phonon energies, averaged coupling, temperature, chemical potential and number of processes", "why_tests_cant": "Edges of the mesh of energies, spin, and unstable phonons are not in the tests.", "anchors": ["src/apps/transport_epa_app.cpp:TransportEpaApp::getScatteringRates", "src/apps/transport_epa_app.cpp:TransportEpaApp::calcEnergyProjVelocity"]}
{"id": "C134", "title": "Energy-projected velocities and density of states", "statement": "The products of velocities and the density of states projected on each energy are, on every process, averages over the full mesh, whether or not symmetries are used; the density of states is never negative and the tensor of velocities is symmetric and never negative along a direction.", "quantifier": "every band structure with its symmetries, mesh of energies and number of processes", "why_tests_cant": "Symmetries must not change the result, for every group and mesh.", "anchors": ["src/apps/transport_epa_app.cpp:TransportEpaApp::calcEnergyProjVelocity"]}
{"id": "C135", "title": "Constant relaxation time", "statement": "A constant relaxation time given in the input is the relaxation time of every state in transport calculations, is proportional to its unit, and is the time reported.", "quantifier": "every value and unit of the input, state, temperature, particle, form of the scattering matrix", "why_tests_cant": "All values and states; tests look at coefficients, not at the time that was used.", "anchors": ["src/context.cpp:parseDoubleWithUnits", "src/bte/scattering.cpp:ScatteringMatrix::getSingleModeTimes", "src/bte/scattering.cpp:ScatteringMatrix::getLinewidths", "src/apps/transport_epa_app.cpp:TransportEpaApp::getScatteringRates"]}
{"id": "C136", "title": "Relaxation times and linewidths of the output files", "statement": "The relaxation times and linewidths written to file are those of the calculation in the units written beside them, so that their product is the reduced Planck constant, for states, energies and relaxons.", "quantifier": "every rate, particle, form of the scattering matrix, physical constants", "why_tests_cant": "Two factors of conversion with 2 pi cannot be told apart by a test of one of them.", "anchors": ["src/bte/scattering.cpp:ScatteringMatrix::outputToJSON", "src/bte/scattering.cpp:ScatteringMatrix::relaxonsToJSON", "src/apps/transport_epa_app.cpp:outputToJSON"]}
{"id": "C137", "title": "Density of states", "statement": "The density of states written to file is, for any number of processes, that of the tetrahedra filling the Brillouin zone at equally spaced energies, in the units written beside it; it is never negative, zero outside of the bands, counts the number of bands, and does not depend on the use of symmetries.", "quantifier": "every periodic band structure, mesh, set of symmetries, range of energies, number of processes", "why_tests_cant": "All band structures, energies and process counts; tests integrate one density of states.", "anchors": ["src/apps/dos_app.cpp:calcDOS", "src/apps/dos_app.cpp:outputDOSToJSON", "src/delta_function.cpp:TetrahedronDeltaFunction::getDOS", "src/delta_function.cpp:TetrahedronDeltaFunction::getSmearing"]}
{"id": "C138", "title": "Paths of wavevectors", "statement": "The path goes along every segment of the input, in order and from end to end, in equal steps of at least the spacing and less than twice the spacing; common ends appear once and there are no other points.", "quantifier": "every list of segments and spacing", "why_tests_cant": "Segments of all lengths, connected or not.", "anchors": ["src/points.cpp:Points::Points(Crystal&, pathExtrema, delta)"]}
{"id": "C139", "title": "Labels of the ends of the path", "statement": "In the file of the bands each label of the path has the index of a point with the coordinates given in the input (or of the point before with the same label), for every path.", "quantifier": "every list of labelled segments and spacing", "why_tests_cant": "Depends on coincidences of coordinates and labels along the path.", "anchors": ["src/apps/bands_app.cpp:outputBandsToJSON", "src/context.cpp:parsePathExtrema"]}
{"id": "C140", "title": "Rotation of the coupling to the Wannier gauge", "statement": "The coupling in the Wannier gauge at a pair of wavevectors is U_{k+q}^T g conj(U_k), for any number of threads and any schedule.", "quantifier": "every coupling and rotation matrices, number of bands, Wannier functions, modes and threads", "why_tests_cant": "Depends on how the iterations of two loops are given to threads.", "anchors": ["src/apps/qe_to_phoebe_wannier.cpp:BlochToWannierEfficient", "src/apps/qe_to_phoebe_wannier.cpp:blochToWannier"]}
{"id": "C141", "title": "The coupling comes back on the coarse meshes", "statement": "The coupling transformed to Wannier functions and written to file, interpolated at wavevectors of the coarse meshes, is the coupling of the first-principles code, for any number of processes.", "quantifier": "every coupling, meshes, lattice, rotation matrices, phonon eigenvectors, distribution of the work", "why_tests_cant": "All couplings and meshes; a test checks one material and a few points.", "anchors": ["src/apps/qe_to_phoebe_wannier.cpp:blochToWannier", "src/interaction/interaction_elph.cpp:calcCouplingSquared", "src/interaction/interaction_elph.cpp:cacheElPh"]}
{"id": "C142", "title": "The polar part that is subtracted is the one that is added back", "statement": "In polar crystals, the long-range part subtracted before the transform is the one the interpolation adds, so that the coupling on the coarse meshes comes back.", "quantifier": "every coupling, long-range part and rotation matrices", "why_tests_cant": "All phases of the rotation matrices; the tests use silicon, which is not polar.", "anchors": ["src/apps/qe_to_phoebe_wannier.cpp:BlochToWannierEfficient", "src/apps/qe_to_phoebe_wannier.cpp:blochToWannier", "src/interaction/interaction_elph.cpp:getPolarCorrectionStatic"]}
{"id": "C143", "title": "Offset of the Wannier bands", "statement": "The first of the bands of Quantum ESPRESSO that was given to Wannier90 is found from the energies.", "quantifier": "all lists of energies", "why_tests_cant": "All numbers of bands left out below and above.", "anchors": ["src/apps/qe_to_phoebe_wannier.cpp:computeOffset"]}
{"id": "C144", "title": "Both ways of distributing the transform agree", "statement": "The coupling in real space does not depend on whether the processes share the files or all hold all the matrix elements, nor on the number of processes.", "quantifier": "every coupling, number of processes, files and lattice vectors", "why_tests_cant": "All numbers of processes, files and lattice vectors.", "anchors": ["src/apps/qe_to_phoebe_wannier.cpp:BlochToWannierEfficient", "src/apps/qe_to_phoebe_wannier.cpp:blochToWannier", "src/utilities.h:splitVector"]}
{"id": "C145", "title": "Rotation matrices with entangled bands", "statement": "The rotation matrix is the product of the disentanglement matrix and of the unitary one and has orthonormal columns; the coupling between Wannier functions includes all the bands of the disentanglement window.", "quantifier": "every pair of matrices and coupling", "why_tests_cant": "All numbers of bands and Wannier functions.", "anchors": ["src/apps/qe_to_phoebe_wannier.cpp:setupRotationMatrices", "src/apps/elph_qe_to_phoebe_app.cpp:readGFromQEFile"]}
{"id": "C146", "title": "Averages of the coupling over energies", "statement": "The averaged coupling in a pair of bins of energy is the mean of |g|^2/(2 omega) over the electronic transitions, with Gaussian weights centred on the bins, for any number of processes; the bins cover the range of energies.", "quantifier": "every coupling, energies, order of wavevectors, bins, distribution of the files over processes", "why_tests_cant": "All couplings, energies and distributions of files.", "anchors": ["src/apps/qe_to_phoebe_epa.cpp:epaPostProcessing", "src/apps/elph_qe_to_phoebe_app.cpp:readChunkGFromQE"]}
{"id": "C147", "title": "File of the averaged coupling", "statement": "The averaged coupling, the energies of the bins and of the phonons that are written to the file are the ones read back by the transport calculation.", "quantifier": "every number of modes, bins, averages and printed digits", "why_tests_cant": "All sizes and contents of files, and files that end too early.", "anchors": ["src/apps/qe_to_phoebe_epa.cpp:epaPostProcessing", "src/interaction/interaction_epa.cpp:parseEpaCoupling"]}
{"id": "C148", "title": "File of the coupling in Wannier space", "statement": "The coupling in Wannier space that the conversion program writes is the one in the memory of its processes, for any number of processes and any order of their writes, and the transport calculation reads it back with any number of processes.", "quantifier": "every coupling tensor, number of lattice vectors, processes, distribution of the tensor, order of the writes", "why_tests_cant": "All sizes, including tensors larger than one write, and all schedules of the processes.", "anchors": ["src/apps/qe_to_phoebe_utils.cpp:writeElPhCouplingHDF5v1", "src/apps/qe_to_phoebe_utils.cpp:writeElPhCouplingHDF5v2", "src/apps/qe_to_phoebe_utils.cpp:writeWannierCoupling"]}
{"id": "C149", "title": "Force constants from ShengBTE", "statement": "With a FORCE_CONSTANTS_3RD file of ShengBTE, the three-phonon couplings are the squared moduli of the sum, over the triplets of the file and the directions, of force constant, displacements and phases, in the units of the code.", "quantifier": "every file with any number of triplets, atoms and cells, all wavevectors, bands and eigenvectors", "why_tests_cant": "All files and wavevectors; the order of indices and the extents of the tensor only matter for some files.", "anchors": ["src/parser/ifc3_parser.cpp:parseFromShengBTE", "src/parser/ifc3_parser.cpp:findIndexRow", "src/interaction/interaction_3ph.cpp:Interaction3Ph"]}
{"id": "C150", "title": "Force constants from phono3py", "statement": "With the fc3.hdf5 and phono3py_disp.yaml files of phono3py, the three-phonon couplings are the squared moduli of the sum, over atoms, directions and cells, of the force constants of the supercell, displacements and phases, where each pair of an atom and an image carries a weight that shares the force constant among the nearest images.", "quantifier": "every lattice, number of atoms, supercell, order of the cells and force constants, both units of length, all wavevectors, bands and eigenvectors", "why_tests_cant": "All supercells and wavevectors; folding, ties of distances and the order of the images only matter for some of them.", "anchors": ["src/parser/ifc3_parser.cpp:parseFromPhono3py", "src/parser/ifc3_parser.cpp:reorderDynamicalMatrix", "src/parser/ifc3_parser.cpp:wsInit", "src/parser/ifc3_parser.cpp:wsWeight", "src/parser/ifc3_parser.cpp:findIndexRow"]}
{"id": "C151", "title": "Lattice vectors from the Bravais index", "statement": "For each Bravais index of Quantum ESPRESSO and its parameters, the lattice vectors used are a right-handed primitive cell of the lattice whose conventional cell has the given lengths, angles and centring; indices and parameters that describe no lattice are refused.", "quantifier": "all Bravais indices, all parameters", "why_tests_cant": "All parameters of twenty lattices; a wrong parameter in one lattice shows only for that lattice and for cells where two parameters differ.", "anchors": ["src/parser/qe_input_parser.cpp:getQELattice"]}
{"id": "C152", "title": "Force constants from Quantum ESPRESSO", "statement": "From the file of force constants of Quantum ESPRESSO the program reads the species, masses, positions, dielectric matrix, Born charges and each force constant between the pair of atoms, directions and cells it belongs to; files that are not complete are refused.", "quantifier": "all numbers of species and atoms, grids, lattices and values", "why_tests_cant": "All sizes of the file, and all places where it can be cut.", "anchors": ["src/parser/qe_input_parser.cpp:QEParser::parsePhHarmonic", "src/parser/qe_input_parser.cpp:split"]}
{"id": "C153", "title": "Bands from Quantum ESPRESSO", "statement": "From the XML file of a calculation on a uniform mesh of wavevectors, given once each in any order and in any cell of reciprocal space, the program finds the mesh, and gives each point of the mesh the energies that the file has for its wavevector; lists of wavevectors that are not a mesh, spin-polarised calculations and files with a reduced set of wavevectors are refused.", "quantifier": "all meshes (up to 1000 per direction), offsets, orders, translations, rounding of coordinates up to 1e-10, bands, energies", "why_tests_cant": "All orders and translations of all meshes; a wrong index shows only for particular meshes and offsets.", "anchors": ["src/points.cpp:Points::findMesh", "src/points.cpp:Points::getIndex", "src/parser/qe_input_parser.cpp:QEParser::parseElHarmonicFourier", "src/bands/bandstructure.cpp:FullBandStructure::setEnergies"]}
{"id": "C154", "title": "Harmonic force constants from phonopy", "statement": "From the file of displacements and the file of force constants of phonopy the program reads the crystal (lattice, atoms, species, masses), the number of cells of the supercell and, for each cell and pair of atoms, the force constants in Ry/Bohr^2, whatever the order of the cells, the format (full or compact) and the unit; from the file BORN it reads the dielectric tensor and the charges of all atoms. Files of another crystal or of a supercell that is not diagonal are refused.", "quantifier": "all crystals, supercells, orders of the cells, force constants, units, charges", "why_tests_cant": "The elements are found by searching the cell in the list of atoms of the supercell; errors show only for particular formats, units and crystals.", "anchors": ["src/parser/phonopy_input_parser.cpp:PhonopyParser::parsePhHarmonic", "src/parser/phonopy_input_parser.cpp:findRIndex"]}
{"id": "C155", "title": "Values of an active band structure", "statement": "For each active state an active band structure returns the energy, the eigenvector (as a matrix and, for phonons, as displacements of the atoms), the velocity operator and the group velocity that the Hamiltonian gives for the wavevector and the band of the state, whatever the number of processes and threads, the size of the batches and the way it is built (batches, on the fly, as postprocessing), with or without eigenvectors and velocities.", "quantifier": "all Hamiltonians, windows, numbers of processes and threads, batch sizes, orders of the assignments", "why_tests_cant": "The values pass through index maps, batches and sums over processes; errors show only for particular numbers of processes, batch sizes and windows.", "anchors": ["src/bands/active_bandstructure.cpp:ActiveBandStructure::ActiveBandStructure", "src/bands/active_bandstructure.cpp:ActiveBandStructure::buildOnTheFly", "src/bands/active_bandstructure.cpp:ActiveBandStructure::buildAsPostprocessing", "src/bands/active_bandstructure.cpp:ActiveBandStructure::getPhEigenvectors"]}
{"id": "C156", "title": "Matrices are values", "statement": "A program that declares matrices of the general class, serial or distributed, assigns and copies them, changes their elements, adds, scales and multiplies them and lets them go out of scope sees independent values: a copy equals its original and changing one does not change the other, no invalid memory is accessed, and nothing is left in memory. Copies of a full band structure rely on this.", "quantifier": "all histories of declarations, copies, assignments, changes and destructions of any number of matrices", "why_tests_cant": "Ownership errors (double deletions, dangling or null pointers, shared storage) depend on the history of operations and are undefined behaviour, which a test may not see.", "anchors": ["src/algebra/Matrix.h:Matrix::Matrix", "src/algebra/Matrix.h:Matrix::operator=", "src/algebra/Matrix.cpp:Matrix::prod", "src/bands/bandstructure.cpp:FullBandStructure::operator="]}
{"id": "C157", "title": "Products and eigenvectors of matrices", "statement": "The product of two matrices, each as it is, transposed or adjoint, has the right shape and elements whenever the shapes allow it and is refused otherwise; diagonalizing a square symmetric or Hermitian matrix returns its eigenvalues and orthonormal eigenvectors, other shapes are refused; for serial and distributed matrices, real and complex.", "quantifier": "all sizes, elements, choices of transposition, serial and distributed matrices", "why_tests_cant": "The interface promises general sizes and transpositions; the calls made by the program exercise few of them, and wrong leading dimensions show only for rectangular matrices.", "anchors": ["src/algebra/SMatrix.cpp:SerialMatrix::prod", "src/algebra/SMatrix.cpp:SerialMatrix::diagonalize", "src/algebra/PMatrix.cpp:ParallelMatrix::prod"]}
{"id": "C158", "title": "Masses and isotope couplings of the atoms", "statement": "Every atom of the crystal has the name, the mass and the isotope coupling of its species: those of the input file where they are given there, otherwise the mass read with the force constants and the coupling of the natural element; masses have the same unit whichever file the crystal is read from; inconsistent descriptions and unknown elements are refused.", "quantifier": "all numbers of atoms and species, all lists of masses and couplings, all elements of the periodic table", "why_tests_cant": "The lists are matched by position through two levels of indices; a mistake shows only for crystals with several species, or for particular values.", "anchors": ["src/crystal.cpp:Crystal::Crystal", "src/constants/periodic_table.cpp:PeriodicTable::getMassVariance", "src/constants/periodic_table.cpp:PeriodicTable::findElementByStr", "src/parser/qe_input_parser.cpp:QEParser::parseElHarmonicWannier"]}
{"id": "C159", "title": "Symmetry operations of the crystal", "statement": "The rotations kept by the crystal act on wavevectors as the symmetries of the crystal: they map reciprocal lattice vectors to reciprocal lattice vectors, preserve lengths, form a group that begins with the identity, and each belongs to an isometry of space that maps atoms to atoms of the same species and plane waves to plane waves of the rotated wavevector; without symmetries only the identity is kept, and a failure of the symmetry search is refused.", "quantifier": "all cells of non-zero volume, all atoms, all symmetry groups found by the library", "why_tests_cant": "Rows and columns, a matrix and its transpose agree for the cubic crystals of tests; they differ for hexagonal and lower symmetries.", "anchors": ["src/crystal.cpp:Crystal::Crystal", "src/points.cpp:Points::setIrreduciblePoints", "src/crystal.cpp:Crystal::getSymmetryOperations"]}
{"id": "C160", "title": "The file of relaxation times", "statement": "The file of relaxation times has one entry per calculation, irreducible wavevector and band; the energy, velocity, relaxation time and linewidth at the same place of the lists, and the wavevector at the same place of the list of wavevectors, belong to the same state; read in order, the times of a calculation are those of all states of the Boltzmann equation, each once; the header lists temperatures, chemical potentials and dopings in the order of the calculations.", "quantifier": "all band structures with any number of bands per wavevector, all symmetries, all numbers of calculations, with or without the split into normal and umklapp times", "why_tests_cant": "The lists are built from three index maps; wrong pairings appear only when bands differ between points and symmetries are present.", "anchors": ["src/bte/scattering.cpp:ScatteringMatrix::outputToJSON", "src/bands/active_bandstructure.cpp:ActiveBandStructure::stateToBte"]}
{"id": "C161", "title": "What a transport run does", "statement": "A run of the phonon or the electron transport app either ends with an error message or writes exactly the files of the relaxation time approximation and of the exact solvers named in the input. The result of a solver is written right after the full scattering matrix was used for it, in the form that the solver needs; nothing uses the matrix after it was destroyed. A run is refused exactly when its input is incomplete or the solvers cannot be run with it: relaxons or variational with symmetries, relaxons without the matrix in memory, a matrix in memory with several calculations, too many relaxons, no convergence.", "quantifier": "all settings of the input file, all lists of solver names, all sequences of convergence, all numbers of states and calculations", "why_tests_cant": "The settings combine in ways no test suite enumerates; the wrong combinations end in undefined behaviour or in files with plausible numbers.", "anchors": ["src/apps/phonon_transport_app.cpp:PhononTransportApp::run", "src/apps/phonon_transport_app.cpp:PhononTransportApp::checkRequirements", "src/apps/electron_wannier_transport_app.cpp:ElectronWannierTransportApp::run", "src/context.cpp:Context::inputSanityCheck", "src/bte/scattering.cpp:ScatteringMatrix::setup"]}
{"id": "C162", "title": "Filling of the ground state", "statement": "From the number of occupied states (with or without spin-orbit coupling) or from the Fermi level of the input, all the processes find the same filling of the bands and the same Fermi level, where the filling from the lowest state ends, within 1e-8 Ry; without either, the run stops.", "quantifier": "every set of band energies, number of electrons, Fermi level, distribution of the states over processes and of the loop over threads", "why_tests_cant": "The bisection must end at the right level for every band structure and distribution; tests use one material on one process.", "anchors": ["src/statistics_sweep.cpp:StatisticsSweep::StatisticsSweep", "src/statistics_sweep.cpp:StatisticsSweep::findChemicalPotentialFromDoping", "src/context.cpp:setupFromInput"]}
{"id": "C163", "title": "The number of electrons", "statement": "The filling of the bands that dopings and chemical potentials refer to is that of the first-principles calculation: its electrons, less those in bands that are removed by a window of energies or not given to Wannier90, one or two for each state with and without spin-orbit coupling; spin-polarised calculations are refused.", "quantifier": "every number of electrons, of removed bands, with and without spin-orbit coupling", "why_tests_cant": "The count goes through two programs and a file; tests compare one material without excluded bands, or whose count is right.", "anchors": ["src/parser/qe_input_parser.cpp:QEParser::parseElHarmonicFourier", "src/apps/qe_to_phoebe_wannier.cpp:postProcessingWannier", "src/apps/elph_qe_to_phoebe_app.cpp:readQEPhoebeHeader", "src/interaction/interaction_elph_parsing.cpp:parseHeaderHDF5", "src/statistics_sweep.cpp:StatisticsSweep::StatisticsSweep"]}
{"id": "C164", "title": "Lattice vectors go with their coupling", "statement": "When the electron-phonon coupling is read, each process ends with a list of lattice vectors and degeneracies that goes, position by position, with the part of the coupling it holds. The processes of any pool together have each electron lattice vector of the file once and in order; pools are copies of one another; without pools every process has all the vectors. Every process has the phonon vectors, the numbers of bands and of electrons of the file, and the coupling of a spin-polarised calculation is refused.", "quantifier": "all files, numbers of lattice vectors, numbers of processes and sizes of pools that divide them, all processes", "why_tests_cant": "The division depends on the number of processes, the size of the pools and the number of vectors together; a wrong pairing gives smooth but wrong couplings.", "anchors": ["src/interaction/interaction_elph_parsing.cpp:parseHeaderHDF5", "src/interaction/interaction_elph_parsing.cpp:parseHDF5V1", "src/mpi/mpiController.h:MPIcontroller::bcast"]}
{"id": "C165", "title": "Values of a full band structure", "statement": "After a Hamiltonian has filled a full band structure, every function that reads it (energy of a state or of a wavevector, energies of a band, group velocities, velocity operator, eigenvectors as a matrix or as displacements of atoms) returns what the Hamiltonian gives at that wavevector, on every process and whether or not the band structure is distributed, in whatever order threads and batches store the results. The processes of a distributed band structure hold together each wavevector once; a request about a wavevector of another process, and storing a quantity that is not kept, are errors.", "quantifier": "all numbers of processes, wavevectors and bands, ranks, Hamiltonians, batch sizes and orders of the threads, with and without velocities and eigenvectors, distributed or not", "why_tests_cant": "The position of a value depends on the number of processes, the block size and the compressed indices together; a wrong column gives smooth but wrong bands, and only for some numbers of processes.", "anchors": ["src/bands/bandstructure.cpp:FullBandStructure", "src/harmonic/phonon_h0_kokkos.cpp:PhononH0::kokkosPopulate", "src/harmonic/electron_h0_wannier.cpp:ElectronH0Wannier::populate", "src/harmonic/electron_h0_fourier.cpp:ElectronH0Fourier::populate", "src/algebra/Matrix.h:Matrix"]}
{"id": "C166", "title": "Phonon of an electron-phonon process", "statement": "For a pair of electron wavevectors k1, k2 the scattering code works with the phonon of wavevector k2 - k1 (up to a reciprocal lattice vector): energies, eigenvectors, velocities when the smearing needs them, populations at every temperature and the first part of the polar correction all belong to that same wavevector, on every process. This holds whether the phonons were stored on the whole mesh, stored on the wavevectors reached from a window, or computed for a list of k2 before use. The polar data, computed in parts by the processes, are complete on each of them, and asking for a wavevector without data is an error.", "quantifier": "all meshes, selections of points, numbers of processes, executions of the threads, pairs of wavevectors, temperatures and phonon Hamiltonians; tables of fewer than 2^31 elements", "why_tests_cant": "The columns gathered from the processes are matched with wavevectors by position; a wrong displacement or order pairs the polar field of one wavevector with the eigenvectors of another, only with several processes.", "anchors": ["src/bte/helper_el_scattering.cpp:HelperElScattering", "src/points.cpp:Points::parallelIrrPointsIterator", "src/mpi/mpiController.h:allGatherv"]}
{"id": "C167", "title": "Occupations of phonons and third phonon of a three-phonon process", "statement": "The table of occupations of the states, computed in parts by the processes, is the same and complete on each of them, and the entry read for a state is the population of a state related to it by symmetry, at every temperature and chemical potential: the population of the state itself when symmetries leave energies unchanged or are not used. For phonons of wavevectors q1 and q2 the third phonon of a three-phonon process has energies, eigenvectors, velocities when the smearing needs them, and populations all of the same wavevector, equal to q1 + q2 or q1 - q2 up to a reciprocal lattice vector. This holds whether phonons are stored on the mesh, stored on the wavevectors reached from a window, or computed for a list of q1.", "quantifier": "all meshes, symmetries, numbers of processes, executions of the threads, pairs of wavevectors, signs, temperatures and phonon Hamiltonians", "why_tests_cant": "Populations are looked up through the index of the irreducible state while energies use the full index: mixing them up is invisible on meshes where the two coincide.", "anchors": ["src/bte/helper_3rd_state.cpp:Helper3rdState", "src/bte/ph_scattering.cpp:PhScatteringMatrix::builder", "src/bte/el_scattering.cpp:ElScatteringMatrix::builder"]}
{"id": "C168", "title": "Strength of isotope and boundary scattering", "statement": "Isotope scattering between two phonons has the strength of the mass-disorder model: the sum over atoms of the isotope coupling times the squared overlap of the normalized polarization vectors, with no dependence on masses or their unit although eigenvectors are stored divided by the square root of the masses. It is symmetric, not negative, zero without disorder; summed over the modes of a wavevector it depends only on the first phonon and is at most the largest coupling; summed over degenerate modes it does not depend on their basis. Boundary scattering acts only if a positive length is given, at the rate of crossing it. Lists of couplings or masses of the wrong length are refused.", "quantifier": "all crystals with positive masses, force constants, wavevectors, modes, isotope couplings and lengths", "why_tests_cant": "Powers of the mass that do not cancel change the rates only in crystals with several species or when the unit of mass changes; the basis of degenerate modes is chosen by the library.", "anchors": ["src/bte/ph_scattering.cpp:PhScatteringMatrix::PhScatteringMatrix", "src/bte/ph_scattering.cpp:PhScatteringMatrix::builder", "src/bte/el_scattering.cpp:ElScatteringMatrix::ElScatteringMatrix", "src/harmonic/phonon_h0.cpp:PhononH0::diagonalizeFromCoordinates"]}
{"id": "C169", "title": "Broadcasts and reductions reach every process", "statement": "After a sum, maximum or minimum over all processes, over a pool or across pools, every process holds, for each element of the buffer, the sum, maximum or minimum of the values of exactly the processes of its communicator, in whatever order they are combined; after a broadcast it holds the values of the root of its communicator (its first process if none is given). A sum within the pools followed by a sum across pools is the sum over all processes. Calls skipped because the communicator has one process change nothing. This holds for buffers of any length.", "quantifier": "all numbers of processes, pool sizes dividing them, communicators, buffer lengths, values and orders of combination", "why_tests_cant": "A test runs on a few processes with small buffers; a wrong color or root shows only with several pools, and a buffer too long for the count only in large crystals.", "anchors": ["src/mpi/mpiController.h:MPIcontroller::bcast", "src/mpi/mpiController.h:MPIcontroller::allReduceSum", "src/mpi/mpiController.h:MPIcontroller::allReduceMax", "src/mpi/mpiController.h:MPIcontroller::allReduceMin", "src/mpi/mpiController.cpp:MPIcontroller::decideCommunicator", "src/mpi/mpiController.cpp:MPIcontroller::MPIcontroller"]}
{"id": "C170", "title": "File of couplings for plotting", "statement": "The app that writes squared electron-phonon couplings writes, for each requested pair of wavevectors k, q in the order in which the pairs are listed in the file, the coupling of exactly the requested bands at k, k+q and modes at q, whatever the number of processes and the order in which they write, and with or without a parallel HDF5. Pairs are the points with the fixed phonon, the fixed electron with the points, or all with all. Ranges of bands are used as given, or corrected to existing bands. All processes of a pool take part in the same number of collective evaluations. Only the meshes that are used are required.", "quantifier": "all points, styles, ranges and numbers of bands, couplings, numbers of processes and orders of writes", "why_tests_cant": "A file with values at the wrong place, or of zeros, has the right shape; the second bunch of a process exists only beyond 10^9 bytes.", "anchors": ["src/apps/elph_plot_app.cpp:ElPhCouplingPlotApp::run", "src/apps/elph_plot_app.cpp:ElPhCouplingPlotApp::checkRequirements"]}
{"id": "C171", "title": "Sums and differences of wavevectors", "statement": "The sum (difference) of two points of a mesh is the point of the same mesh whose crystal coordinates are the sum (difference) of the coordinates plus the Umklapp vector of the result, which is a reciprocal lattice vector; the result reports an Umklapp vector exactly when the sum leaves the unit cell. The sum is commutative and associative, the point at the origin is neutral, and subtracting a point that was added gives back the first. Points of different sets are refused. Assigning a point to another makes it equal and changes nothing else.", "quantifier": "all meshes, points and pairs or triples of points", "why_tests_cant": "Tests sum a few points of one mesh without offset.", "anchors": ["src/points.cpp:Point::operator+", "src/points.cpp:Point::operator-", "src/points.cpp:Point::hasUmklapp", "src/points.cpp:Point::operator=", "src/points.cpp:Point::getCoordinates"]}
{"id": "C172", "title": "Results on the terminal and in the files", "statement": "Whatever the dimension of the crystal and the number of calculations, the transport coefficients read on the terminal are those of the JSON file: one report per calculation, in the order of the file, with the same temperatures, chemical potentials, dopings, tables and units. Each row of the viscosity tensor can be identified by the indices written before it. The conductivities written during the iterations are the diagonals of those of the file. A single process writes.", "quantifier": "all dimensions, numbers of calculations and values of the coefficients", "why_tests_cant": "The output is not tested; a test would compare a few numbers of one calculation in three dimensions.", "anchors": ["src/observable/onsager.cpp:OnsagerCoefficients::print", "src/observable/onsager.cpp:OnsagerCoefficients::outputToJSON", "src/observable/phonon_thermal_cond.cpp:PhononThermalConductivity::print", "src/observable/phonon_thermal_cond.cpp:PhononThermalConductivity::outputToJSON", "src/observable/specific_heat.cpp:SpecificHeat::print", "src/observable/viscosity_io.cpp:printViscosity", "src/observable/viscosity_io.cpp:outputViscosityToJSON"]}
{"id": "C173", "title": "Missing input variables are refused", "statement": "For every application, an input with all the variables that the documentation requires is accepted, and an input where one of them is missing is refused with an error before anything is computed.", "quantifier": "all applications and all inputs", "why_tests_cant": "A test tries a few inputs; the statement ranges over all sets of variables, and most of the wrong ones are not tried.", "anchors": ["src/apps/app.cpp:App::throwErrorIfUnset", "src/apps/bands_app.cpp:checkRequirements", "src/apps/dos_app.cpp:checkRequirements", "src/apps/electron_wannier_transport_app.cpp:checkRequirements", "src/apps/elph_plot_app.cpp:checkRequirements", "src/apps/elph_qe_to_phoebe_app.cpp:checkRequirements", "src/apps/lifetimes_app.cpp:checkRequirements", "src/apps/ph_el_lifetimes.cpp:checkRequirements", "src/apps/phonon_transport_app.cpp:checkRequirements", "src/apps/transport_epa_app.cpp:checkRequirements", "doc/sphinx/source/inputFiles.rst"]}
{"id": "C174", "title": "An error ends all processes", "statement": "Whatever the number of processes, a run that meets an error ends on all of them with the code of an error, and does not wait forever; a run that meets none ends on all of them with the code of success.", "quantifier": "all numbers of processes and pools, all inputs and all later communications", "why_tests_cant": "Tests run with files that exist and with few processes; a run that hangs is not a result that a unit test can look at.", "anchors": ["src/exceptions.cpp:Error", "src/mpi/mpiController.cpp:MPIcontroller::finalize", "src/main.cpp:main", "src/context.cpp:Context::inputSanityCheck", "src/context.cpp:Context::printInputSummary", "src/interaction/interaction_elph_parsing.cpp:parseHDF5", "src/interaction/interaction_elph_parsing.cpp:parseNoHDF5", "src/apps/elph_qe_to_phoebe_app.cpp:readQEPhoebeHeader", "src/apps/qe_to_phoebe_epa.cpp:epaPostProcessing", "src/statistics_sweep.cpp:StatisticsSweep::findChemicalPotentialFromDoping"]}
{"id": "C175", "title": "The numbers of the relaxation time approximation", "statement": "In three dimensions, from the scattering rates to the output: for phonons, every number of the thermal conductivity in the JSON file and on the terminal is the textbook sum over the full mesh, 1/(N V) sum of C v v / rate, in W/(m K), beside its temperature in kelvin; for electrons, the electrical conductivity, the Seebeck coefficient and the thermal conductivity are those of the moments of (-df/de) v v / rate. The output does not depend on the number of processes nor on the schedule of the threads, and only the head process writes.", "quantifier": "all crystals reduced by symmetry, meshes, energies, velocities, rates with the symmetry of the crystal, temperatures, chemical potentials, numbers of processes and schedules of threads", "why_tests_cant": "The whole chain runs only with MPI, threads and a scattering matrix; tests compare parts of it with stored numbers for one material on one process.", "anchors": ["src/apps/phonon_transport_app.cpp:PhononTransportApp::run", "src/apps/electron_wannier_transport_app.cpp:ElectronWannierTransportApp::run", "src/bte/drift.cpp:BulkTDrift", "src/bte/scattering.cpp:ScatteringMatrix::getTimesFromVectorBTE", "src/bte/vector_bte.cpp:VectorBTE::baseOperator", "src/observable/phonon_thermal_cond.cpp:PhononThermalConductivity::calcFromPopulation", "src/observable/onsager.cpp:OnsagerCoefficients::calcFromPopulation"]}
{"id": "C176", "title": "The summary of the input", "statement": "The summary of the input that the program prints at the start says what will be computed: every number, in the unit printed beside it, is the number that the program uses; every variable of the application that was set is printed; a number written in the file in the printed unit is printed back; only the head process prints.", "quantifier": "all input files, applications, unit tables and settings", "why_tests_cant": "The summary is text on the terminal, composed by some sixty conditions on the application and the settings; no test reads it.", "anchors": ["src/context.cpp:Context::printInputSummary", "src/context.cpp:Context::setupFromInput", "src/context.cpp:parseDoubleWithUnits"]}
{"id": "C177", "title": "The files of the band structure", "statement": "Whenever a run of the phonon bands app ends with a file, the file lists, for each point of the path in order, its coordinates, the frequencies of all the normal modes of the crystal there in meV in increasing order, and, if they are wanted, the displacements of the atoms in the same modes: solutions of the equations of motion with the frequency at the same place, orthonormal with the masses as weights; the lattice vectors are the columns of the listed table and the positions those of the atoms. The files of electrons list the energies of the Hamiltonian in eV. Labels are beside the indices of their points. Only the head process writes. The table of the crystal on the terminal has the lattice vectors under their names.", "quantifier": "all crystals, force constants, paths, batch sizes, schedules of threads and numbers of processes", "why_tests_cant": "The file passes through batches on a device, matrices in memory with packed indices, and nested lists; tests compare energies at a few points.", "anchors": ["src/apps/bands_app.cpp:outputBandsToJSON", "src/apps/bands_app.cpp:PhononBandsApp::run", "src/apps/bands_app.cpp:ElectronWannierBandsApp::run", "src/apps/bands_app.cpp:ElectronFourierBandsApp::run", "src/crystal.cpp:Crystal::print", "src/bands/bandstructure.cpp:FullBandStructure::getPhEigenvectors", "src/harmonic/phonon_h0_kokkos.cpp:PhononH0::kokkosPopulate"]}
{"id": "C178", "title": "The files of the density of states", "statement": "A run of a density of states app, for phonons or electrons, on any number of processes and with any order of the threads, ends with a file that lists the energies from the smallest to the largest in equal steps and, for each, the density of states by the tetrahedron method of all the bands of the Hamiltonian over the whole mesh (for phonons, the frequencies of all the normal modes), in the units the file names. The density is never negative and is zero outside of the bands. More processes than points are refused.", "quantifier": "all periodic Hamiltonians, meshes, point groups that map the mesh to itself, energy windows and steps, batch sizes, schedules of threads and numbers of processes", "why_tests_cant": "The value in the file depends on the symmetry reduction, the storage of the bands on each process, the lookup of the corners of each cell and the gathering; tests look at one material with one mesh.", "anchors": ["src/apps/dos_app.cpp:PhononDosApp::run", "src/apps/dos_app.cpp:ElectronWannierDosApp::run", "src/apps/dos_app.cpp:ElectronFourierDosApp::run", "src/apps/dos_app.cpp:calcDOS", "src/apps/dos_app.cpp:outputDOSToJSON", "src/delta_function.cpp:TetrahedronDeltaFunction::getDOS"]}
{"id": "C179", "title": "A run of the electron-phonon averaged approximation", "statement": "A run of the transport app with the averaged coupling, on any number of processes, leaves three files and the tables on the terminal that agree with each other: the density of states of the window of energies, the rate of the averaged golden rule at each energy as linewidth in eV and relaxation time in fs (their product is the reduced Planck constant), and the conductivity, Seebeck coefficient and thermal conductivity that are the moments of the velocities of the whole mesh with these rates, in SI units. All of it is the same on any number of processes, only the head writes, and a window without energies is refused.", "quantifier": "all band structures with their symmetries, weights, couplings, windows and steps, temperatures, chemical potentials and numbers of processes", "why_tests_cant": "The numbers depend on the symmetry reduction, two reductions over processes, an interpolation and three unit systems; a test compares one material with a reference that the program itself wrote.", "anchors": ["src/apps/transport_epa_app.cpp:TransportEpaApp::run", "src/apps/transport_epa_app.cpp:TransportEpaApp::calcEnergyProjVelocity", "src/apps/transport_epa_app.cpp:TransportEpaApp::getScatteringRates", "src/apps/transport_epa_app.cpp:TransportEpaApp::outputToJSON", "src/observable/onsager.cpp:OnsagerCoefficients::calcFromEPA", "src/apps/dos_app.cpp:outputDOSToJSON"]}
{"id": "C180", "title": "The states kept for a transport calculation", "statement": "The band structure built for a transport calculation contains, with the energies of the Hamiltonian, every state that the user asks to keep in some of the calculations of the sweep: inside the window of energies, inside the window of energies around the chemical potential of that calculation, or with an occupation factor above the limit at its temperature and chemical potential. Points of the mesh related by a symmetry keep the same bands. With the window of energies nothing else is kept. This holds on all processes, for any number of processes and threads.", "quantifier": "all Hamiltonians with the symmetry of the mesh, meshes, point groups, sweeps of temperatures and chemical potentials, windows, numbers of processes, schedules of threads and orders of the assignments", "why_tests_cant": "The kept states result from the whole sweep, the window, the irreducible points and a scan with threads and processes; a test has one material, one temperature and one window.", "anchors": ["src/bands/active_bandstructure.cpp:ActiveBandStructure::builder", "src/bands/active_bandstructure.cpp:ActiveBandStructure::buildAsPostprocessing", "src/bands/active_bandstructure.cpp:ActiveBandStructure::buildOnTheFly", "src/bands/window.cpp:Window::Window", "src/bands/window.cpp:Window::apply"]}
{"id": "C181", "title": "The phonon linewidths due to electrons, from the input to the file", "statement": "For every temperature and chemical potential of the sweep, irreducible phonon wavevector and mode, the file written by the phonon-electron lifetimes app contains the linewidth pi/N times the sum over the wavevectors of the electron mesh and the pairs of bands of the squared coupling, the occupation factor f(1-f)/T and the delta function of energy conservation in absorption, and its inverse as relaxation time, in the units of the file. The linewidth of a calculation does not depend on the other calculations of the sweep, and the file says to which temperature and chemical potential it belongs.", "quantifier": "all phonon band structures, electron Hamiltonians, couplings, meshes, sweeps, delta functions, numbers of processes, schedules of threads in the selection of the electrons", "why_tests_cant": "The result depends on the whole sweep through the window which the app sets itself, on the active phonons and on how the wavevectors are divided among processes; a test has one material and one chemical potential.", "anchors": ["src/apps/ph_el_lifetimes.cpp:PhElLifetimesApp::run", "src/bands/active_bandstructure.cpp:ActiveBandStructure::getMaxEnergy", "src/bte/phel_scattering.cpp:PhElScatteringMatrix::builder", "src/bte/scattering.cpp:ScatteringMatrix::outputToJSON"]}
{"id": "C182", "title": "Electron lifetimes along a path, from the Hamiltonian to the files", "statement": "The electron lifetimes app writes, for every temperature and chemical potential, point of the path and band, the linewidth pi/N times the sum over the wavevectors of the k mesh, the bands and the phonon modes of the squared coupling over the phonon frequency times [(f+n) delta(e1-e2+w) + (1-f+n) delta(e1-e2-w)], averaged over degenerate bands, plus the scattering at the boundaries, and its inverse as relaxation time, in eV and fs; the wavevectors are those of the path up to reciprocal lattice vectors, the energies are the same as in the file of the bands at the same position, and neither file depends on the number of processes or threads.", "quantifier": "all electron Hamiltonians, phonon frequencies and couplings periodic in the reciprocal lattice, all paths, meshes, sweeps, smearings (Gaussian or adaptive), numbers of processes and orders of the calls of the threads", "why_tests_cant": "The entries are sums over all pairs of a path point and a mesh point split over the processes; index mistakes between path and mesh show only when they differ, and a test has one path, one mesh and one number of processes.", "anchors": ["src/apps/lifetimes_app.cpp: ElectronLifetimesApp::run", "src/bte/el_scattering.cpp: ElScatteringMatrix::builder", "src/bte/scattering.cpp: ScatteringMatrix::outputToJSON, degeneracyAveragingLinewidths, getIteratorWavevectorPairs", "src/bands/bandstructure.cpp: FullBandStructure", "src/apps/bands_app.cpp: outputBandsToJSON"]}
{"id": "C183", "title": "Phonon lifetimes along a path, from the dynamical matrix to the files", "statement": "The phonon lifetimes app writes, for every temperature, point of the path and mode, the linewidth of the golden rule: the sum over the wavevectors of the q mesh and the modes of the coalescence and decay processes and of the scattering by isotopes, over n(n+1), averaged over degenerate modes, plus the scattering at the boundaries, and its inverse as relaxation time, in meV and ps; phonons below 0.1 cm^-1 do not scatter; the wavevectors are those of the path up to reciprocal lattice vectors, the energies are the same as in the file of the bands at the same position, and neither file depends on the direction of the path, on the number of processes or threads or on the batches.", "quantifier": "all phonon Hamiltonians, three-phonon couplings and isotope overlaps periodic in the reciprocal lattice, all paths, meshes, temperatures, smearings (Gaussian or adaptive), numbers of processes and orders of the calls of the threads", "why_tests_cant": "The entries are sums over all pairs of a path point and a mesh point, with three cutoffs whose effects depend on the energies and on the positions of the points in the two lists; a test has one crystal, one path and one mesh.", "anchors": ["src/apps/lifetimes_app.cpp: PhononLifetimesApp::run", "src/bte/ph_scattering.cpp: PhScatteringMatrix::builder", "src/bte/scattering.cpp: ScatteringMatrix::ScatteringMatrix (excludeIndices), outputToJSON, degeneracyAveragingLinewidths, getIteratorWavevectorPairs", "src/bte/helper_3rd_state.cpp: Helper3rdState", "src/bands/bandstructure.cpp: FullBandStructure", "src/apps/bands_app.cpp: outputBandsToJSON"]}
{"id": "C184", "title": "Arithmetic of the vectors over calculations and energy bins", "statement": "A new vector of the averaged electron-phonon approximation has one zero element for each calculation, component and energy bin, and is refused for sizes that are not positive; sums, differences, products and quotients act element by element, with a vector of one component on the right acting on all the components; the product with a number, with one number per calculation, with a distributed matrix and the scalar product have the values of the formulas; copies and assignments do not change other vectors.", "quantifier": "all numbers of temperatures, chemical potentials, components and bins, all values, all distributed matrices and process grids", "why_tests_cant": "The result depends on the position of the calculation in the rows of the matrix and on the distribution of the elements over the processes; a test has one of each.", "anchors": ["src/bte/vector_epa.cpp: VectorEPA::VectorEPA, baseOperator, operator*, dot, operator=, glob2Loc, loc2Glob", "src/bte/vector_epa.h"]}
{"id": "C185", "title": "Observables are values", "statement": "The difference of two observables has the difference of every element; the norm is not negative, is zero when and only when all the elements are zero, and bounds every element up to the number of elements; copies and assignments have the elements, dimensions and units of the original.", "quantifier": "all kinds of observables (scalars, vectors, tensors of rank two and four), all dimensions, numbers of calculations and values", "why_tests_cant": "The loops depend on the kind and on the dimension, and the defects show only in classes or dimensions that a test does not use.", "anchors": ["src/observable/observable.cpp: Observable::Observable, operator=, operator-, baseOperatorMinus, getNorm, whichType", "src/observable/phonon_thermal_cond.cpp: PhononThermalConductivity::PhononThermalConductivity, operator=, operator-, print, outputToJSON"]}
{"id": "C186", "title": "Reading of the first-principles coupling", "statement": "The electron-phonon coupling written by Quantum ESPRESSO, one file for each star of phonon wavevectors, is read so that every matrix element, phonon eigenvector and phonon energy of the files is found at the indices of its wavevectors in the meshes of the program, its bands counted from the offset, and its mode, for every order in which the threads read the files; a missing or incomplete file is refused.", "quantifier": "all numbers of modes, bands, electron wavevectors and stars, all values, all orders of the wavevectors in the files, all schedules of the threads", "why_tests_cant": "The position of a number depends on five nested loops, on the order of the wavevectors of the other program and on the stars of the mesh; a test has one crystal whose files are complete.", "anchors": ["src/apps/elph_qe_to_phoebe_app.cpp: ElPhQeToPhoebeApp::readChunkGFromQE, readGFromQEFile", "src/apps/qe_to_phoebe_wannier.cpp: ElPhQeToPhoebeApp::postProcessingWannier"]}
{"id": "C187", "title": "Diagonalization of distributed matrices", "statement": "For every real symmetric or complex Hermitian distributed matrix, the diagonalization returns the eigenvalues in ascending order with orthonormal eigenvectors in the columns of the matrix returned: all of them, or as many as requested, those that the manual promises (the largest). The negative eigenvalues are reported, and the check that finds them does not change the result. Matrices that are not square, or on a grid of processes that is not square, are refused. The size of the matrix is not limited by the workspaces.", "quantifier": "all sizes, all symmetric and Hermitian matrices, all square grids of processes, all numbers of eigenvalues requested", "why_tests_cant": "Eigenvalues depend on all elements, the limits are reached only by matrices with billions of elements, and a test has one matrix and one grid.", "anchors": ["src/algebra/PMatrix.cpp: ParallelMatrix::diagonalize", "src/algebra/PMatrix.h: ParallelMatrix", "doc/sphinx/source/inputFiles.rst: numRelaxonsEigenvalues, checkNegativeRelaxons"]}
{"id": "C188", "title": "Rotation matrices of Wannier90", "statement": "The rotation from Bloch bands to Wannier functions is, at every wavevector of the mesh, the product of the disentanglement matrix and the unitary matrix that Wannier90 wrote for that wavevector (the unitary matrix alone, if there is no disentanglement), whatever the order of the wavevectors in the two files. A missing file, a wavevector outside of the mesh, a file for another mesh and an incomplete file are refused.", "quantifier": "all meshes, all numbers of bands and of Wannier functions, all matrices, all orders of the wavevectors in the files, all points at which a file ends", "why_tests_cant": "The matrices are complex and their indices are transposed easily; a test has one crystal, whose files are complete and list the wavevectors in the order of the mesh.", "anchors": ["src/apps/qe_to_phoebe_wannier.cpp: ElPhQeToPhoebeApp::setupRotationMatrices"]}
{"id": "C189", "title": "Device memory of the electron-phonon coupling", "statement": "The wavevectors for which the electron-phonon coupling is computed at the same time are a part of the list such that the arrays allocated for them on the device never exceed the memory that is available, which is the memory not used by the arrays that exist; every wavevector is in one part; the calculation is refused, before it starts, exactly when there is no room for one wavevector.", "quantifier": "all numbers of Wannier functions, modes, lattice vectors, bands and wavevectors, all available memories, all sizes of the pool of processes, all histories of wavevectors", "why_tests_cant": "Whether the arrays fit depends on the sizes of the crystal and of the device; tests run on the host, with a few bands.", "anchors": ["src/interaction/interaction_elph.cpp: InteractionElPhWan::estimateNumBatches, calcCouplingSquared, cacheElPh, getDeviceMemoryUsage", "src/bte/el_scattering.cpp"]}
{"id": "C190", "title": "A complete conversion keeps the electron-phonon coupling of Quantum ESPRESSO", "statement": "Take the files of Quantum ESPRESSO and Wannier90 for two meshes of wavevectors, the second contained in the first.  Let the conversion to phoebe's own file run on them, and let the coupling be interpolated from the result at wavevectors k and q of the meshes.  The squared coupling is then the squared modulus of the matrix element in the files of Quantum ESPRESSO, between the states that the given electron eigenvectors stand for at k and at k+q and for the given phonon displacement.  This does not depend on the order of the wavevectors in any of the files, on how many files the coupling is split in, or on how processes and threads share the work.", "quantifier": "all crystals whose shortest supercell vectors are found in the search range, all meshes up to 1000 divisions, all numbers of bands and modes, all contents of the files, all orders of the wavevectors in them, all schedules and shares of the work, and all eigenvectors and displacements asked of the interpolation", "why_tests_cant": "the chain of file numbering, rotation, Fourier transforms and interpolation has to be right for every crystal and every order of the files; a test follows one of them, and compares with numbers made by the program", "anchors": ["src/apps/qe_to_phoebe_wannier.cpp: ElPhQeToPhoebeApp::postProcessingWannier", "src/apps/qe_to_phoebe_wannier.cpp: ElPhQeToPhoebeApp::blochToWannier", "src/apps/elph_qe_to_phoebe_app.cpp: ElPhQeToPhoebeApp::readGFromQEFile", "src/interaction/interaction_elph.cpp: InteractionElPhWan::calcCouplingSquared"]}
{"id": "C191", "title": "A transport run uses the electron-phonon coupling that the conversion has written", "statement": "Let the conversion write its coupling to a file, with any number of processes that hold it either in shares or whole.  Let a transport run read this file, with any number of processes in pools of any size, and interpolate.  What each process gets is then the squared modulus of the matrix element of the coupling of the conversion, at the wavevectors and for the eigenvectors that it asks for.  It does not depend on the order in which the processes write, on how many processes write, on how many read, or on the size of the pools.", "quantifier": "all couplings, numbers of lattice vectors, modes and Wannier functions, all numbers of writing and reading processes, all pool sizes, all orders of writing, all pools and processes in them, and all wavevectors and eigenvectors asked", "why_tests_cant": "the layout of the tensor in memory, the shares of the writers, the offsets in the file, the shares of the readers, the layout on the device and the sum in the pool have to agree for all sizes; tests run with one or two processes on one file that is already written", "anchors": ["src/apps/qe_to_phoebe_utils.cpp: ElPhQeToPhoebeApp::writeElPhCouplingHDF5v1", "src/interaction/interaction_elph_parsing.cpp: parseHDF5V1", "src/interaction/interaction_elph_parsing.cpp: parseHeaderHDF5", "src/interaction/interaction_elph.cpp: InteractionElPhWan::cacheElPh", "src/interaction/interaction_elph.cpp: InteractionElPhWan::calcCouplingSquared"]}
{"id": "C192", "title": "The phonon bands of a crystal do not depend on the program that computed its forces", "statement": "Let a file of force constants of Quantum ESPRESSO and the files of phonopy describe the same crystal: the same lattice, atoms, masses, charges and force constants, each in the units and in the layout of its program.  Then the phonon bands app has the same outcome with the one as with the others, on each process and whatever the sum rule: the same file of the bands or the same stop.  At each wavevector of the path that fits the supercell the energies in this file, in meV, are those of all the normal modes of the crystal with these force constants and masses.", "quantifier": "all crystals, numbers of atoms and supercells, all files of the two programs that describe them, all units of force constants that phonopy writes, all paths, sum rules, numbers of processes, orders of the threads and of the sums", "why_tests_cant": "two parsers with other layouts, units and conventions have to end in the same tensor for all crystals; tests compare a run with stored numbers for one crystal of one program", "anchors": ["src/apps/bands_app.cpp: PhononBandsApp::run", "src/parser/qe_input_parser.cpp: QEParser::parsePhHarmonic", "src/parser/phonopy_input_parser.cpp: PhonopyParser::parsePhHarmonic", "src/crystal.cpp: Crystal::Crystal", "src/harmonic/phonon_h0.cpp: PhononH0::PhononH0"]}
{"id": "C193", "title": "The three-phonon couplings of a crystal do not depend on the program that computed its third-order force constants", "statement": "Let a FORCE_CONSTANTS_3RD file of ShengBTE and the fc3.hdf5 and phono3py_disp.yaml files of phono3py describe the same crystal and supercell, each in the units and in the layout of its program; the triplets of ShengBTE may share a force constant among any images of the atoms.  Then, at wavevectors that fit the supercell, the three-phonon couplings of all the bands are the same with the one as with the others: the squared moduli of the sum, over the atoms of the cell and all pairs of atoms of the supercell, of force constants, displacements and phases.", "quantifier": "all crystals, numbers of atoms and supercells, all files of the two programs that describe them, all wavevectors that fit the supercell, all displacements and numbers of bands, all batches", "why_tests_cant": "one reader makes a sum over the listed triplets, the other a sum over weighted images; that both are the same sum for all crystals cannot be seen from a run with stored numbers for one crystal of one program", "anchors": ["src/parser/ifc3_parser.cpp: IFC3Parser::parseFromShengBTE, IFC3Parser::parseFromPhono3py", "src/interaction/interaction_3ph.cpp: Interaction3Ph::cacheD3, Interaction3Ph::getCouplingsSquared"]}
{"id": "C194", "title": "The phonon lifetimes along a path follow from the files of the third-order force constants", "statement": "Run the app phononLifetimes with a FORCE_CONSTANTS_3RD file of ShengBTE, or with the fc3.hdf5 and phono3py_disp.yaml files of phono3py, for a path and a mesh on the grid of the supercell.  Then the linewidth of each phonon of the path in path_ph_relaxation_times.json is that of the golden rule with the couplings of the crystal: the squared moduli of the sum, over the atoms of the cell and all pairs of atoms of the supercell, of force constants, eigenvectors and phases, averaged over degenerate modes.  Two files with the same force constants give the same output.  A file of phono3py without the file of displacements is refused.", "quantifier": "all crystals, numbers of atoms and supercells, all files of the two programs that describe them, all phonons, meshes and paths on the grid, temperatures, numbers of processes and orders of the batches", "why_tests_cant": "a test compares stored numbers for one crystal; that each linewidth is the sum over the force constants of the file, with either format and on any number of processes, holds for all crystals or it is not known for the crystal of the user", "anchors": ["src/parser/ifc3_parser.cpp: IFC3Parser::parse, IFC3Parser::parseFromShengBTE, IFC3Parser::parseFromPhono3py", "src/apps/lifetimes_app.cpp: PhononLifetimesApp::run", "src/bte/ph_scattering.cpp: addPhPhScattering", "src/bte/scattering.cpp: ScatteringMatrix::symmetrizeCoupling", "src/interaction/interaction_3ph.cpp: Interaction3Ph::cacheD3, Interaction3Ph::getCouplingsSquared"]}
{"id": "C195", "title": "The electron bands along a path are those of the Wannier90 file", "statement": "Run the app electronWannierBands with a seedname_tb.dat file of Wannier90 that contains a Hermitian Hamiltonian.  Then electron_bands.json lists the points of the path, and at each of them the energies in eV are all the eigenvalues, in increasing order and with their multiplicity, of the sum over the lattice vectors n of the file of exp(2 pi i p.n) H(n) / degeneracy(n), with the elements H(n) in eV as they are in the file; with the file seedname_wsvec.dat, of the sum over the images of each pair of functions.  The result does not depend on the number of processes, the size of the batches and the order of the threads, and only the first process writes the file.  Flat cells, unknown elements and a file of images without images stop the run.", "quantifier": "all numbers of Wannier functions and lattice vectors, all Hermitian matrices, cells and images, all paths, units, numbers of processes, sizes of batches and orders of the threads", "why_tests_cant": "a test compares stored bands of one crystal at one path; that parser, units, device, batches and output together give the eigenvalues of the file holds for all files or it is not known for the file of the user", "anchors": ["src/apps/bands_app.cpp: ElectronWannierBandsApp::run, outputBandsToJSON", "src/parser/qe_input_parser.cpp: QEParser::parseElHarmonicWannier, parseWSVecFromWannier90", "src/harmonic/electron_h0_wannier.cpp: ElectronH0Wannier::populate, ElectronH0Wannier::kokkosPopulate, ElectronH0Wannier::kokkosBatchedDiagonalizeFromCoordinates, ElectronH0Wannier::kokkosBatchedBuildBlochHamiltonian", "src/crystal.cpp: Crystal::Crystal"]}
{"id": "C196", "title": "The electron density of states is that of the Wannier90 file", "statement": "Run the app electronWannierDos with a seedname_tb.dat file of Wannier90 that contains a Hermitian Hamiltonian.  Then electron_dos.json lists the energies of the window in eV in equal steps, and at each of them the density of states by the tetrahedron method, in 1/eV, of the bands that at every wavevector are all the eigenvalues of the Hamiltonian of the file; it is never negative and vanishes below and above all the eigenvalues.  The same holds with the file seedname_wsvec.dat.  The result does not depend on the number of processes, the size of the batches and the order of the threads.  Flat cells and more processes than points of the mesh stop the run.", "quantifier": "all numbers of Wannier functions and lattice vectors, all Hermitian matrices and cells, all meshes, windows of energies, numbers of processes, sizes of batches and orders of the threads", "why_tests_cant": "a test compares a stored density of states of one crystal; that parser, units, device, distribution and tetrahedra together give the density of states of the file holds for all files or it is not known for the file of the user", "anchors": ["src/apps/dos_app.cpp: ElectronWannierDosApp::run, calcDOS, outputDOSToJSON", "src/parser/qe_input_parser.cpp: QEParser::parseElHarmonicWannier, parseWSVecFromWannier90", "src/harmonic/electron_h0_wannier.cpp: ElectronH0Wannier::populate, ElectronH0Wannier::kokkosPopulate", "src/delta_function.cpp: TetrahedronDeltaFunction::getDOS"]}
{"id": "C197", "title": "The phonon density of states is that of the force-constant files, whichever code wrote them", "statement": "Run the app phononDos with a crystal given by a file of Quantum ESPRESSO or by the files of phonopy.  Both runs have the same outcome: the same phonon_dos.json, or both stop.  For a crystal that is not polar, phonon_dos.json lists the energies of the window in meV in equal steps, and at each of them the density of states by the tetrahedron method, in 1/meV, of bands that at every wavevector that fits the supercell are the frequencies of all the normal modes of the crystal.  The result does not depend on the number of processes, the size of the batches and the order of the threads.", "quantifier": "all numbers of atoms and sizes of supercells, all force constants, cells, positions and masses, all meshes, windows of energies, numbers of processes, sizes of batches and orders of the threads; for the comparison also all sum rules and symmetries", "why_tests_cant": "a test compares a stored density of states of one crystal from one of the codes; that parsers, units, Fourier sum, distribution and tetrahedra together give the density of states of the crystal holds for all files or it is not known for the files of the user", "anchors": ["src/apps/dos_app.cpp: PhononDosApp::run, calcDOS, outputDOSToJSON", "src/parser/qe_input_parser.cpp: QEParser::parsePhHarmonic", "src/parser/phonopy_input_parser.cpp: PhonopyParser::parsePhHarmonic", "src/harmonic/phonon_h0.cpp: PhononH0::PhononH0, PhononH0::populate", "src/delta_function.cpp: TetrahedronDeltaFunction::getDOS"]}
