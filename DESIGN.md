# Formal model of mir-group/phoebe in Lean 4

## Layout

* `lean/Verif/Model/*.lean`  model: executable transcriptions of the C++ functions, each definition cites
  file and lines in `/repo`, and says what is simplified.
* `lean/Verif/Spec/*.lean`   small independent specification vocabulary used in property statements.
* `lean/Verif/Proofs/*.lean` helper lemmas.
* `lean/Verif/Props/*.lean`  the property theorems, each followed by a non-vacuity `example`.

## Trusted base

* Lean 4.33.0 kernel. Theorems depend on at most `propext`, `Classical.choice`, `Quot.sound`.
  No axioms are added, no `sorry`, no `native_decide`, no `bv_decide`.
* The reading of the C++ text: nothing is extracted mechanically.
* MPI: collectives are modelled by their standard semantics (sum, gather by counts/displacements,
  split by colour). Eigen, BLAS, ScaLAPACK and the standard library are modelled by their documented
  contracts at the points where they are called.
* External routines that appear as parameters or by their contract: the eigensolver (`zheev`), matrix inversion
  (`Eigen::Matrix3d::inverse` by the cofactor formula), `std::stod`, the splitting of a stream into words, Kokkos
  `parallel_scan` and reductions, `std::sort`/`std::find`, the ScaLAPACK descriptors and `pdgemv`/`pdgemm` style products
  by their definition on the global matrix.
* Parallel loops: where iterations write shared arrays the order of the iterations is a universally quantified
  parameter (C34, C73, C87); elsewhere each iteration writes its own elements and the loop is modelled as a map. Memory
  orders weaker than interleaving are not modelled. Two data races found by reading are not modelled: `numBands` written
  by all threads in `Window::apply`, and `internalDiagonal` in `a2Omega`/`omega2A` when called from several threads.
* Floating point: where a property concerns real-valued formulas, `double` is modelled by `ℝ` (or `ℚ`, or any
  ordered field); rounding is not modelled. Where a property concerns integers, either unbounded `Int`/`Nat` with
  an explicit no-overflow side condition, or checked 32-bit arithmetic (overflow = a distinct outcome).
* Out-of-bounds access, signed overflow, division by zero, non-termination: distinct outcomes (`none`/error) in the
  model where the property is about them.

## Plan per property (model -> proof method)

| id | modelled | proof method |
|----|----------|--------------|
| C01 | compress/decompress with checked 32-bit arithmetic | div/mod algebra, for all sizes |
| C02 | `mod` with C++ truncated `%` | integer division lemmas |
| C03 | `splitVector` loop, with fuel; non-termination outcome for chunk size 0 | induction on the list |
| C04 | `findMaxRelativeDifference` as fold; code keeps the minimum | negation witness + `_partial` for one component |
| C05 | regex split as character scanner | induction on the string |
| C06 | `divideWork`, `divideWorkIter` with 64-bit wraparound | floor-division monotonicity |
| C07 | `workDivHelper`, gather semantics | list induction over ranks |
| C08 | pool set-up | div/mod |
| C09 | `datatypeHelper`, `bigAllGatherV` | arithmetic; negation witness for wrong rank |
| C10 | `allReduceSum(in,out)` | case split; negation witness size=1 |
| C11 | scatter-fill-reduce | sum over partition |
| C12 | mesh point index/coordinates over ℚ | div/mod + rounding lemma |
| C13 | mesh branch of `isPointStored` | negation witness + partial |
| C14 | `setMesh` checks | negation witness + partial |
| C15 | `setActiveLayer` and the nested binary search | sortedness invariants; negation for permuted full filter |
| C16 | `foldToBz`, `bzToWs` over ℚ/ℝ | floor lemmas |
| C17 | `setupGVectors` | negation witness + partial on the vectors really generated |
| C18-C20 | `setIrreduciblePoints` over an abstract group action on indices | loop invariant |
| C21-C23 | block-cyclic maps | div/mod algebra |
| C24-C26 | serial matrix storage | induction over write histories |
| C27-C30 | band structure index tables | induction over k-points |
| C31-C33 | window | list induction over sorted energies |
| C34 | chunked scan + ordered merge + gather + filter | list append algebra; any permutation of thread completion |
| C35 | distributed rows | div/mod |
| C36-C40 | statistics sweep, bisection | loop invariants, negation witnesses |
| C41-C46 | real analysis on the closed forms | Mathlib reals |
| C47-C49 | BTE vector algebra | function extensionality / finite sums |
| C50-C51 | pair iterators and padding | list membership/count |
| C52-C57 | scattering matrix post-processing | segment induction, finite sums |
| C58-C59 | third-state helper | set membership; negation for non-contiguous batches |
| C60-C62 | batching, interaction | floor algebra; finite sums |
| C63 | EPA lookup | clamp arithmetic over ℝ |
| C64-C68 | input parser on character lists | induction on strings; negation witnesses |
| C79-C81 | crystal and path blocks, strings | induction over the lines |
| C69-C70 | crystal geometry | 3x3 linear algebra; finite sums |
| C71-C75 | progress printer, dispatch, scan compaction, exclusion lists, memory accounting | counting, induction over histories |
| C76-C78 | element updates and identity of distributed matrices | layout lemmas, induction over histories |
| C82-C83 | batches of iterators and of wavevectors on the device | division with remainder, loop induction |
| C84 | command line | list induction; negation for `-out` |
| C85-C86 | three-phonon couplings as complex lattice sums, cache histories | finite sums, exponential algebra; negation witness |
| C87 | velocities of degenerate bands, any order of the parallel loops | disjoint writes, matrix algebra |
| C88-C89 | acoustic sum rules as loops over tensors, Gram-Schmidt with lists of vectors | loop induction, finite sums, involution; negation witnesses |
| C90 | dynamical matrix (short and long range), mass scaling, eigensolver as parameter | conjugation of each term; equal characteristic polynomials |
| C91 | same; reciprocal cell of C69 | phases of lattice vectors; trace at the zone centre and at b1 for the violation |
| C92 | constructor with sum rule, dynamical matrix at zero | null vectors from rigid translations, rank of the kernel |
| C93 | mass scaling and diagonalization | Hermitian part; algebra of the contract of the solver |
| C94 | device Hamiltonian with atomic adds in any order | permutation invariance of the sum; termwise equality |
| C95 | wsInit, wsWeight, reorder | each class weighs at most one up to ties; counting argument from the check on the total weight |
| C96 | long range term | limit of each reciprocal vector's term; only the zero vector jumps |
| C97 | src/harmonic/phonon_h0.cpp L895-1070 | central differences as matrices; two eigendecompositions differ by a unitary matrix that couples only equal eigenvalues, so blocks of the velocity operator are unitarily similar; characteristic polynomials |
| C98 | src/harmonic/phonon_h0_kokkos.cpp L378-532 | refinement to the host using C87 and C94; witness: rank-one dynamical matrix of two opposite charges |
| C99 | src/harmonic/electron_h0_fourier.cpp L45-75, L154-411 | waves of distinct grid points are independent characters, so the matrix of the linear system is Hermitian and positive; completeness of the lattice vectors for orthogonal cells and large cutoffs by shortest representatives; witness: skewed cell |
| C100 | src/harmonic/electron_h0_fourier.cpp L90-125, L402-423 | derivative of the sum of exponentials; duality of direct and reciprocal vectors |
| C101 | src/harmonic/electron_h0_fourier.cpp L8-43 | split the list of bands at the first kept one; witnesses |
| C102 | src/harmonic/electron_h0_wannier.cpp L160-216, L560-622 | sums over images; involution of the vectors; orthogonality of characters of the grid |
| C103 | src/harmonic/electron_h0_wannier.cpp L630-772 | central differences with remainder of the exponential; Hellmann-Feynman; similarity of blocks; witness: chain with complex hopping |
| C104 | src/harmonic/electron_h0_wannier.cpp L777-1000 | equality of the two sums; C87 for the schedules; witnesses |
| C105 | src/harmonic/electron_h0_wannier.cpp L520-558 | index ranges; witness |
| C106 | src/harmonic/electron_h0_wannier.cpp L253-359 | induction over batches with C82 |
| C107 | src/parser/qe_input_parser.cpp L884-1040 | writer of the file as specification; parser of the written file computed by induction over lines; transposition; witness: chain |
| C108 | src/parser/qe_input_parser.cpp L810-881 | induction over the entries with the invariant that the index follows the vectors; witness: first vector zero |
| C109 | src/observable/phonon_thermal_cond.cpp L64-142, src/bte/drift.cpp L3-29 | sums over processes and threads are permutations; unfolding of stars; quadratic form is a sum of squares |
| C110 | src/observable/onsager.cpp L120-318, src/bte/drift.cpp L31-59 | moments of the response; Schur complement of moments is positive; symmetric bilinear form for reciprocity |
| C111 | src/observable/onsager.cpp L72-117 | loop as moments over energies; witness: one conducting energy |
| C112 | src/observable/specific_heat.cpp L31-70 | full mesh sum, derivative term by term |
| C113 | src/observable/onsager.cpp L445-462, specific_heat.cpp L72-122, phonon_thermal_cond.cpp L19-32 | dimensional analysis as powers of the Bohr radius; witness: constants of the code |
| C114 | src/observable/onsager.cpp L612-675 | lists as maps and filters; witness: doping zero first |
| C115 | src/apps/phonon_transport_app.cpp L174-246, src/apps/electron_wannier_transport_app.cpp L189-268, src/observable/phonon_thermal_cond.cpp L44-62, src/bte/vector_bte.cpp L292-329 | loop invariant: populations are iterates; weighted maximum norm for convergence; witness: two coupled states, geometric series |
| C116 | src/apps/phonon_transport_app.cpp L248-385, src/apps/electron_wannier_transport_app.cpp L270-462, calcVariational | refinement of the loop to the conjugate gradient recursion; orthogonality of residuals by induction; dimension count; witness: two coupled states |
| C117 | src/observable/phonon_thermal_cond.cpp L237-440, src/observable/onsager.cpp L324-382 | sums over processes and threads as permutations; completeness of eigenvectors; witness: index before test |
| C118 | src/bte/el_scattering.cpp L230-380, src/particle.cpp | detailed balance of Fermi and Bose functions; sums over processes as permutations; quadratic form; witnesses by evaluation |
| C119 | src/bte/el_scattering.cpp L300-400, src/bte/ph_scattering.cpp, as lists of events with and without symmetries | sums by key; rotation of the population; witness: k to -k |
| C120 | src/bte/phel_scattering.cpp L9-364 | sum over stars and slices; bounds on hyperbolic functions; witnesses: chain with inversion, three points on two processes |
| C121 | src/interaction/interaction_elph_parsing.cpp | shares of divideWorkIter are intervals; loops over shares by induction; witnesses |
| C122 | src/interaction/interaction_elph.cpp L229-447, L492-701 | sums are rearranged; shares of the pool form a permutation of the lattice vectors |
| C123 | as C122 | the matrix element is linear in each eigenvector; unitary matrices preserve norms; phases of reciprocal vectors are one |
| C124 | src/interaction/interaction_elph.cpp L138-206 | sums over symmetric ranges; witness: a crystal with one charge on a line |
| C125 | src/observable/wigner_phonon_thermal_cond.cpp | sums over pairs rearranged; unitary invariance of traces within degenerate groups; witness |
| C126 | src/observable/wigner_electron.cpp | as C125; sign of the difference quotient of the Fermi function |
| C127 | src/observable/phonon_viscosity.cpp L19-78, electron_viscosity.cpp L25-76 | sum over stars is the sum over the mesh; squares |
| C128 | src/observable/viscosity_io.cpp L62-184 | normalisations cancel; witnesses |
| C129 | src/observable/phonon_viscosity.cpp L100-213 | sums over the matrix; witness with a diagonal matrix |
| C130 | src/observable/electron_viscosity.cpp L78-185 | as C129 |
| C131 | src/observable/viscosity_io.cpp L9-60 | Bessel's inequality for two vectors |
| C132 | src/observable/viscosity_io.cpp L312-450 | sums over the matrix; algebra of units |
| C133 | src/apps/transport_epa_app.cpp L180-303 | values of the loops; fill and reduce over processes |
| C134 | src/apps/transport_epa_app.cpp L117-178 | as C133; sums over stars; witness |
| C135 | src/context.cpp L61-93, src/bte/scattering.cpp, src/apps/transport_epa_app.cpp | algebra of the conversions |
| C136 | src/bte/scattering.cpp, src/apps/transport_epa_app.cpp, src/constants/constants.h | algebra of the conversions |
| C137 | src/delta_function.cpp L157-270, src/apps/dos_app.cpp L127-201 | corners by C12; integral by C43; gather by C07; witnesses |
| C138 | src/points.cpp L45-107 | induction on the segments |
| C139 | src/apps/bands_app.cpp L122-185 | induction on the segments |
| C140 | qe_to_phoebe_wannier.cpp L205-263, L538-611 | partial sums per thread; static schedule by lemmas on lists; witness |
| C141 | qe_to_phoebe_wannier.cpp L442-793 | sums over shares; orthogonality of waves; composition with C122 |
| C142 | qe_to_phoebe_wannier.cpp L132-191, L464-531 | composition with C141; witnesses |
| C143 | qe_to_phoebe_wannier.cpp L922-996 | position of the smallest difference |
| C144 | qe_to_phoebe_wannier.cpp L14-440 | regrouping of sums, C06, C05 |
| C145 | qe_to_phoebe_wannier.cpp L795-920, elph_qe_to_phoebe_app.cpp L248-261 | algebra; witness |
| C146 | qe_to_phoebe_epa.cpp | regrouping of sums over files and processes; witness of the order |
| C147 | qe_to_phoebe_epa.cpp, interaction_epa.cpp | tokens written and read, by induction over the sizes; witness |
| C148 | qe_to_phoebe_utils.cpp L446-722 | writes that agree with a target, in any order; invariant of the opened file; composition with C121 |
| C149 | ifc3_parser.cpp L98-110, L648-841 | induction over lines and triplets; injectivity of the place in memory; composition with C62 |
| C150 | ifc3_parser.cpp L40-646 | invariants of the loops over lines, cells and atoms; uniqueness of places of vectors; the weight as a count of equally near copies; composition with C62 |
| C151 | qe_input_parser.cpp L18-366 | per index: explicit vectors, Gram matrix, determinant; the lattice of the integer combinations equals that of the centred conventional cell by parity arguments |
| C152 | qe_input_parser.cpp L386-566 | induction over nested loops that consume lines |
| C153 | points.cpp L562-626, qe_input_parser.cpp L672-787 | pigeonhole gives a bijection between the list and the mesh; the minimum of the folded values and the first gap give the spacing |
| C154 | phonopy_input_parser.cpp L21-33, L36-586 | induction on the lines of the file; the search finds the cell since lattice points are apart; value of the elements by uniqueness of the key |
| C155 | active_bandstructure.cpp L50-190, L247-344, L450-457, L655-760, L943-1072 | induction over the batches; assignments to disjoint regions summed over the processes; index maps are injective |
| C156 | src/algebra/Matrix.h L29-258, Matrix.cpp L3-90, bandstructure.cpp L69-103; a heap of objects with addresses | refinement of a specification by values, with an ownership invariant kept by every operation, induction over histories |
| C157 | src/algebra/SMatrix.cpp L3-92, PMatrix.cpp L10-98; BLAS after its reference implementation, LAPACK and ScaLAPACK by contract | index arithmetic of column-major storage, assignments to distinct places |
| C158 | src/crystal.cpp L23-116, periodic_table.cpp, the table of periodic_table.h (generated), two parsers | the order and the symbols of the table are checked by the kernel; lists by position |
| C159 | src/crystal.cpp L119-205, src/points.cpp L705-718; spglib is a parameter with its documented contract | the metric is invariant, hence the Cartesian form is orthogonal; matrix algebra over the reals |
| C160 | src/bte/scattering.cpp L639-814, on the model of the active band structure | entry by entry, through the index maps of C30 |
| C161 | control flow of both transport apps, their checks and the life of the scattering matrix, as a list of events | structural lemmas on each part of the run, induction on the iterations |
| C162 | filling and Fermi level of the undoped crystal in the constructor of the sweep: reductions over threads and processes, bisection at zero temperature | the bracket of the bisection has too few states at one end and enough at the other, hence a state in between where the filling ends; counts are invariant under the distribution |
| C163 | number of electrons from the XML file or the header of the coupling to the filling used by the sweep | composition of the conversions, with C101 for removed bands |
| C164 | the header on every process (parseHeaderHDF5) with the broadcasts between pools; reading with serial HDF5 | blocks of the division of work, with C08 and C121 |
| C165 | constructor, setters and getters of FullBandStructure on one process, serial or block-cyclic matrices; the calls of the three populate functions | invariant of the matrices over any sequence of calls; C35 for the columns of each process, C82 for the batches |
| C166 | constructor, prepare and get of HelperElScattering, with the polar data of all processes and the gathering of their columns in int arithmetic | the gathered array is the concatenation of the columns in the order of the iterator (C06, C07); C58 and C12 for the lookups |
| C167 | the tables of occupations of all processes and their sum; constructor, prepare and get of Helper3rdState | each column is computed by one process and summed with zeros (C06, C09); irreducible states from C30; C58 and C12 for the lookups |
| C168 | the constructor's mass variances and boundary length, the overlap of the eigenvectors in the isotope loop, with the eigenvectors of C93 | masses cancel atom by atom; completeness of the eigenvectors (C93) for the sum rule; unitary mixing for degenerate modes |
| C169 | `bcast`, `allReduceSum/Max/Min` with the three communicators as colors of ranks, the count converted to `int` | fold over any permutation of the members; members of each communicator computed from the colors |
| C170 | the setup of pairs and ranges, the values of each process, the two ways of writing, the check of the input | the bunches of a process are determined in closed form; writes of all processes agree with one target file (as in C148) |
| C171 | points as objects that refer to one of a list of sets, their sums, differences, assignment, coordinates | the lookup of C12 gives the index; uniqueness of the representative in [0,1) gives the Umklapp vector; injectivity of the coordinates gives the group laws |
| C172 | the lines written on the terminal by the observables and the files they write; a specification of how a reader finds a report and a table | the text is cut at its headings (induction over the calculations); tables are found below their titles |
| C173 | `checkRequirements` of the 14 applications as functions of which variables are set; the documented requirements as a specification | case by case over the applications; violations by inputs that lack one variable |
| C174 | processes as lists of collective calls, run in lock-step; `Error`, `finalize` and the places where one process or pool meets an error | induction over the common collectives; a process at another collective blocks all |
| C175 | the part of the two apps between the scattering matrix and the results of the relaxation time approximation, as a composition of the modelled functions | composition of the theorems on drift vectors, relaxation times, tensors and reports; independence of processes from the values |
| C176 | printInputSummary (lines with real numbers) over the settings of the input model | case analysis of the lines; round trip with the model of the units; concrete files for the violations |
| C177 | the bands apps after the parser: path, full band structure, device results, JSON file; Crystal::print | composition of the theorems on paths, storage and dynamical matrices; spec by the equations of motion |
| C178 | the three density of states apps after the parser, on all processes: irreducible points, band structure, tetrahedra, gather, JSON file | composition of the theorems on stars, storage, tetrahedra and gathering |
| C179 | `TransportEpaApp::run` after the band structure, on all processes, with its three files and the terminal | composition of the theorems on velocities, rates, moments and reports; negations with general and concrete runs |
| C180 | `builder`: extremes of the sweep, window, selection at the irreducible point equivalent to each point, scan and storage | composition of the theorems on sweep, window, stars and storage |
| C181 | `PhElLifetimesApp::run`: largest phonon energy, window of the electrons, selection, linewidths, file | composition of the theorems on window, selection, linewidths and file; sums over kept states rewritten as sums over the mesh |
| C182 | `ElectronLifetimesApp::run`: the two band structures, the loops over pairs and bands, the sum over the processes, the average, the boundaries and the two files | value of each loop as a list; sum over the processes by the partition of the path; composition with the theorems on the stores and the files |
| C183 | `PhononLifetimesApp::run`: the two band structures, the list of excluded phonons, the loops over pairs and modes, the sum over the processes, the average, the boundaries and the two files | value of each loop as a list; sum over the processes by the partition of the mesh; composition with the theorems on the stores and the files; witnesses for the two cutoffs |
| C184 | `VectorEPA`: constructor, `baseOperator`, the four products, `dot`, copy and assignment | values of the loops by induction; sum over the grid of processes by the partition of the elements; witnesses for the violated clauses |
| C185 | `Observable` and `PhononThermalConductivity`: constructors, copies, difference, norm and the unit conversion of the printed elements | nested loops as the list of the index tuples, characterised by induction on the rank; norm by the sum of squares; witnesses for the violated clauses |
| C186 | `readChunkGFromQE` and `readGFromQEFile`: the stream of numbers, the three loops that fill arrays, the copy to the arrays of the mesh by several threads | specification: the list of numbers of a complete file; each loop consumes its part (induction on the list of indices); the arrays after any permutation of the assignments, because assignments to one element have one value; a shorter stream always meets its end |
| C187 | the three `diagonalize` of `ParallelMatrix`: checks, workspaces with `int` arithmetic, calls of ScaLAPACK as parameters, warnings, copies | specification: spectrum (ascending, orthonormal eigenvectors), contract of ScaLAPACK on the upper triangle; the upper triangle of a Hermitian matrix is the matrix; list of non-positive eigenvalues by induction on a sorted list; overflow by monotony of the square |
| C188 | `setupRotationMatrices`: words and lines of the two files, `getline` and `>>`, the index of each wavevector, tensors with bounds, the product | specification: the lines Wannier90 writes; the loops consume their lines (induction on the list of elements and of wavevectors, with what is left unchanged); the product by induction on the list of elements; a cut file meets its end in the loop over the elements |
| C189 | `estimateNumBatches` with `int` products, the allocations and releases of `calcCouplingSquared`, the bytes registered by `cacheElPh` | the sequence of allocations is summed and compared with the estimate; the sizes of the batches from C60; an invariant over the history of wavevectors |
| C190 | the conversion from complete files to the interpolated coupling | composition of C70, C141, C143, C186 and C188; the numbers of the wavevectors are found from their coordinates by the lookup of C12 |
| C191 | the coupling from the tensor of the conversion to the interpolation of a run | composition of C148, C121, C164 and C122 over the layouts of the memory; the shares of a pool are the blocks of the lattice vectors |
| C192 | the phonon bands app from the files of either program to the file of the bands | both parsers give the constructors the same arguments; then C177 and C95 on the common crystal |
| C193 | the couplings from the files of either program | the weights of the images of a cell add up to one; both sums are the sum over the supercell when phases are periodic; then C149 and C150 |
| C194 | the choice of the parser by the name of the file, the couplings of a pair of wavevectors and their averages, in front of the run of C183 | the couplings of the run are used at the wavevectors of path and mesh only, which fit the supercell; there they are those of C193 averaged as in C52; then C183 |
| C195 | the app of the electron bands with the parser of the Wannier90 files in front, the batches on the device and the file behind | the parser gives the data of the file (C107), the batches give the eigenvalues point by point (C104, C106), the file has them (C177); the units cancel because direct and reciprocal cell are dual (C69) |
| C196 | the app of the electron density of states with the parser of the Wannier90 file in front, the batches on the device, and the tetrahedra and the file behind | the batches give the energies of the Hamiltonian on the device (C104, C106), which is periodic because direct and reciprocal cell are dual; then the theorems on the app (C178) apply, and the units cancel |
| C197 | the app of the phonon density of states with the two parsers and the constructors in front, and the batches, the tetrahedra and the file behind | the parsers give the constructors the same data (C192); the theorem on the app (C178) gives the density of states of the matrices of the forces, which at the wavevectors that fit the supercell are the sums over its cells (C95) |

Nothing in the list is left as inexpressible at the outset; properties that the code violates are treated by
proving the negation on a concrete witness and keeping the strongest true part as `..._partial`.

## Where the code and the property disagree

Each line is a theorem that proves the disagreement for the model (most on a concrete witness), with its comment.

* `C04_violated` (Props/Utilities.lean): The full property C04 is violated: one component did not change, another one changed by a factor 5, and the reported "maximum" difference is 0.
* `C09_violated` (Props/Mpi.lean): The full C09 is violated: in the pool made of world ranks 2 and 3, an array of at least INT_MAX elements makes every process read past the end of the list of counts.
* `C09_violated_one_process` (Props/Mpi.lean): The full C09 is violated on one process: the copy of 2^32 elements or more never ends, because its counter has 32 bits.
* `C101_violated_empty` (Props/ElFourier.lean): No band in the window: the first element of an empty vector is read.
* `C101_violated_jump` (Props/ElFourier.lean): Two points, two bands: `5, 0` and `10, 1`, window from four to six, states below `11/2` occupied: the two bands hold three electrons. The second band is removed and its electron stays in the count.
* `C103_violated` (Props/ElWannier.lean): C103 is violated at the zone centre: in a chain with hopping `i` the band is `-2 sin k`, with slope `-2` at the zone centre, where the program returns a velocity of zero. At the equivalent wavevector `(2 pi, 0, 0)`, with the same Hamiltonian, the velocity is not zero.
* `C104_violated_bounds` (Props/ElWannierDevice.lean): C104 is violated with shifted vectors: unless there are as many vectors as functions, the device reads beyond the bounds of the array of matrix elements.
* `C104_violated_centre` (Props/ElWannierDevice.lean): C104 is violated near the zone centre: a chain has a velocity at `k = (1e-4, 0, 0)` on the host, and none on the device.
* `C104_violated_shifts` (Props/ElWannierDevice.lean): C104 is violated with shifted vectors: on the device the images are multiplied, not divided, by their number. The Hamiltonian is one on the host, and four on the device.
* `C105_violated_bounds` (Props/ElWannierDevice.lean): C105 is violated: unless there are three functions and three vectors the Berry connection reads beyond the bounds of the array of positions, for all data, wavevectors and libraries.
* `C105_violated_value` (Props/ElWannierDevice.lean): C105 is violated with three functions and three vectors: the indices of the array of positions are permuted. The component along the first axis is not zero, and the program returns zero.
* `C106_violated` (Props/ElWannierDevice.lean): C106 is violated: a process without points divides by zero.
* `C107_violated_bands` (Props/WannierFile.lean): C107 is violated: with the file of the shifts there are files for which the energies at a wavevector are not those of the Hamiltonian of the files: the elements of a pair of functions are multiplied by the phases of the exchanged pair. In the example, a chain with two functions on a grid of four wavevectors, the energies at a third of the zone should be `±√3` and the program finds two zeros.
* `C107_violated_count` (Props/WannierFile.lean): C107 is violated: a file that states fewer vectors than it has degeneracies, on as many lines, is not rejected; the program writes outside of its memory.
* `C107_violated_elements` (Props/WannierFile.lean): C107 is violated: there are files for which the elements that the program stores are not those of the file, and the Hamiltonian it computes is not the one of the file.
* `C108_violated` (Props/WannierFile.lean): C108 is violated: if the first lattice vector of the file is zero (always so for a grid of one wavevector, where zero is the only lattice vector), the program writes outside of the array.
* `C109_violated_example` (Props/Transport.lean): Two dimensions: the program has undefined behaviour on the example.
* `C109_violated_low_dimension` (Props/Transport.lean): With one or two dimensions the program reads components of a local vector that it never assigned (undefined behaviour) as soon as there is a state to add.
* `C10_violated` (Props/Mpi.lean): The full C10 is violated on one process: the output keeps its old content whatever the input.
* `C110_violated_low_dimension` (Props/Onsager.lean): With fewer than three dimensions the program writes past the end of the tensors.
* `C111_violated` (Props/TransportOut.lean): Two energies, of which only the first one carries a current, one dimension: without a current all the electrons that move heat are stopped, the thermal conductivity is zero; the program finds a positive one.
* `C111_violated_one_energy` (Props/TransportOut.lean): Fewer than two energies: the program reads an energy that does not exist.
* `C112_violated_spin` (Props/TransportOut.lean): Without spin-orbit coupling every state holds two electrons: the specific heat of electrons is half of what it should be, for every crystal and temperature (the transport coefficients and the viscosity have the factor of two).
* `C112_violated_spin_example` (Props/TransportOut.lean): The example has a specific heat that is not zero, so that twice the value is not the value.
* `C113_violated_conductivities` (Props/TransportOut.lean): Two and one dimensions, electrons: the conversion multiplies by an energy instead of a length, and the result is more than ten million times too small.
* `C113_violated_heat` (Props/TransportOut.lean): Specific heat in two and one dimensions: the number printed with the unit `J/K/m^2` (`J/K/m`) is divided by one (two) lengths too many, more than ten billion times too large.
* `C114_violated` (Props/TransportOut.lean): With a calculation of zero doping before others, the list of mobilities is shorter and the entry number `i` belongs to another calculation.
* `C115_violated` (Props/Omini.lean): Violation: for every threshold `t < 1` there is a (symmetric, positive definite) scattering matrix for which the solver ends normally with a conductivity whose relative error is larger than `t`.
* `C116_violated` (Props/Variational.lean): Phonons: for every coupling `q` between two states (`0 < |q| < 1`) and every threshold, the variational solver ends at the first iteration and reports the conductivity of the relaxation time approximation, `1 + q` times that of the solution: above it if `q > 0`. (The functional is evaluated with the population of the previous step and the product of the new one.)
* `C117_violated_few_eigenvalues` (Props/Relaxons.lean): When fewer eigenvalues than states are computed, as the input allows, both functions read the eigenvalues out of bounds: the eigenvalue is read before its number is tested.
* `C118_violated_gaussian` (Props/ElRates.lean): The element between two states is not symmetric with the Gaussian scheme: the Gaussian is cut on one side only.
* `C118_violated_self` (Props/ElRates.lean): Scattering of a state with itself (a phonon of zero wavevector within the smearing) is in the linewidth but not in the off-diagonal part, so electrons are lost.
* `C119_violated` (Props/SymScat.lean): The full C119 is violated: scattering from `k` to `-k` is in the linewidth, but its effect on the current is lost with symmetries, because states of the same star are taken for the same state. Without symmetries the product is twice as large.
* `C120_violated` (Props/PhEl.lean): The full C120 is violated: with inversion symmetry the irreducible electron wavevector stands for its whole star, although the phonon wavevector is not inverted with it. Here the linewidth is twice that of the full mesh.
* `C120_violated_pool` (Props/PhEl.lean): The full C120 is violated with pools: two processes of a pool with three irreducible wavevectors make one and two collective calls, so the calculation never ends.
* `C121_violated_format2` (Props/ElPhRead.lean): The full C121 is violated: on two or more processes without pools, from a file of the second format, every process has the vectors of the share of the first process only, and zeros in place of the coupling of all the others.
* `C121_violated_many_processes` (Props/ElPhRead.lean): The full C121 is violated: with more processes than lattice vectors, the share of the first process is empty and its first element is read all the same.
* `C121_violated_overflow` (Props/ElPhRead.lean): The full C121 is violated: the number of elements of one vector is computed with `int`s, although the tensor of a process may be larger.
* `C121_violated_text` (Props/ElPhRead.lean): The full C121 is violated: a text file that ends too early is accepted, and the last number read is repeated.
* `C123_violated_polar` (Props/ElPhPolar.lean): C123 is violated (periodicity): with the polar correction the squared coupling of a phonon is not the same at two wavevectors that differ by a reciprocal lattice vector, with the same eigenvectors.
* `C124_violated_periodic` (Props/ElPhPolar.lean): C124 is violated (periodicity): the correction, and the coupling with it, is not the same at two wavevectors that differ by a reciprocal lattice vector.
* `C124_violated_strength` (Props/ElPhPolar.lean): C124 is violated (strength): at a small wavevector of a polar crystal the correction is not the long-range part.
* `C125_violated_undamped` (Props/Wigner.lean): Two modes of the same wavevector with the same energy and no linewidth (the acoustic modes at the centre of the zone, whose linewidths the scattering matrix sets to zero, have zero energy), or one mode with a relaxation time that is zero: every element of the correction is `0 / 0`, on every process, whatever the rest of the band structure.
* `C126_violated_degenerate` (Props/Wigner.lean): Two bands with the same energy at one wavevector: all the elements of `LEE` and `LTE` are `0 / 0`, on every process, whatever the rest of the band structure.
* `C126_violated_thermal` (Props/Wigner.lean): Two bands at a temperature: the heat moved by a field has the wrong sign, and the current and the heat moved by a gradient of the temperature are not those of the coherences.
* `C128_violated_axis` (Props/Viscosity.lean): A direction in which no wavevector has a component (a mesh with one point along that axis): the eigenvectors of that momentum are not numbers, for every state, in one, two or three dimensions.
* `C128_violated_window` (Props/Viscosity.lean): With a window that keeps `numPts` of the `N` wavevectors of the mesh, the specific heat is not even the contribution of the states that are kept: that is divided by the number of wavevectors kept instead of those of the mesh, as the viscosity of the same program is.
* `C129_violated_transposed` (Props/ViscosityRelaxons.lean): Two opposite wavevectors with a velocity along the first axis and a scattering matrix that is diagonal, so that the relaxons are the states and the relaxation time approximation is exact: the two viscosities of the program differ, the component `(0, 1, 0, 1)` of the second is not even zero.
* `C130_violated_occupation` (Props/ViscosityRelaxons.lean): Two opposite wavevectors at the chemical potential, the relaxons are the states: the relaxon viscosity is an eighth of the one in the relaxation time approximation, which is exact.
* `C130_violated_some_relaxons` (Props/ViscosityRelaxons.lean): If only some of the relaxons are calculated, the program reads eigenvalues that do not exist.
* `C131_violated_few` (Props/ViscosityRelaxons.lean): If only some of the relaxons are calculated, or there are fewer than ten, the program writes or reads outside of the vector of products.
* `C132_violated_units` (Props/ViscosityRelaxons.lean): In one and two dimensions both have the units of three dimensions: the numbers are too large by powers of the inverse of the Bohr radius.
* `C133_violated_edge` (Props/EpaRates.lean): The full C133 is violated: from the middle of a mesh of three energies, phonons of exactly one step lead to the first and last energies of the mesh, where there are states; the rate is zero.
* `C133_violated_imaginary` (Props/EpaRates.lean): The full C133 is violated: with an averaged phonon energy that is negative (an unstable mode), the density of states is read before its first element.
* `C133_violated_spin` (Props/EpaRates.lean): The full C133 is violated: without spin-orbit coupling the rate is half of the golden rule, because the density of states, which has no spin factor, is divided by the spin degeneracy.
* `C134_violated_symmetry` (Props/EpaRates.lean): The full C134 is violated: on four wavevectors with inversion symmetry, the tetrahedra at an irreducible wavevector do not stand for those at its opposite. Here the density of states with symmetries is half of that of the full mesh.
* `C135_violated` (Props/Times.lean): The full C135 is violated: a constant relaxation time of `T` femtoseconds is used, and printed, as `T / (2π)`, for every `T`; and so it is for `T` picoseconds for phonons.
* `C136_violated_epa` (Props/Times.lean): The full C136 is violated: with the electron-phonon averaged approximation the printed relaxation time times the printed linewidth is not `ħ` but `2π ħ`.
* `C136_violated_relaxons` (Props/Times.lean): The full C136 is violated: the relaxation time of a relaxon is printed `2π` times too long, so that it does not compare with that of a state with the same rate.
* `C137_violated_flat` (Props/Dos.lean): The full C137 is violated: the states of a band without dispersion are missing; the density is one quarter at its energy and zero at all the others, so that its integral is zero.
* `C137_violated_symmetry` (Props/Dos.lean): The full C137 is violated: with the inversion symmetry of the band, which the application always uses, the density of states at 1/2 is half of that of the same mesh without symmetries.
* `C138_violated_short` (Props/Path.lean): The full C138 is violated: a last segment shorter than the spacing is left out, with its end.
* `C139_violated_rounding` (Props/Path.lean): The full C139 is violated: when a segment starts almost at the end of the one before, with another label, its two ends and all those after are not in the list.
* `C139_violated_same_label` (Props/Path.lean): The full C139 is violated: for a segment whose two ends have the same label (a line from one copy of a point to another) the file of the bands is written with reads out of range.
* `C13_violated` (Props/Points.lean): The full C13 is violated: on the 1x1x1 mesh the point (2/5, 0, 0), far from every mesh point, is reported as stored (index 0), because the rounding errors are added with their sign.
* `C140_violated_threads` (Props/BlochWannier.lean): C140 is violated: with three threads and the schedule `static`, one mode, two bands and two Wannier functions, each of which is one of the bands, the matrix element between the two becomes zero instead of one.
* `C141_violated_disentangled` (Props/BlochWannier.lean): C141 is violated: the rotation matrix conserves the second band and the interpolation is asked for that band, whose matrix element is one. The result is zero: the conversion leaves out the matrix elements of the bands beyond the number of Wannier functions.
* `C142_violated_bounds` (Props/BlochWannier.lean): C142 is violated: with more bands than Wannier functions, the subtraction when all processes hold all the matrix elements writes beyond the ends of its matrices.
* `C142_violated_phase` (Props/BlochWannier.lean): C142 is violated: one band whose rotation matrix is `1` at the first wavevector and `i` at the second, matrix element `2` and long-range part `1`: the squared matrix element becomes 8 instead of 4.
* `C142_violated_transposed` (Props/BlochWannier.lean): C142 is violated with real rotation matrices when all processes hold all the matrix elements: two bands that turn into each other, and the squared matrix element between the first at k and the second at k+q becomes 16 instead of 4.
* `C143_violated_offset` (Props/BlochWannier.lean): C143 is violated whenever Wannier90 was given some of the bands, those from `first` on, and not the last ones: the offset found is one too large. (No other first band fits as well.)
* `C144_violated_empty` (Props/BlochWannier.lean): C144 is violated: with more processes than lattice vectors, process 0 reads the first element of an empty list.
* `C145_violated_bands` (Props/BlochWannier.lean): C145 is violated: with two bands and one Wannier function, equal to the second band, whose matrix element is one, the matrix element between Wannier functions is zero instead of one: matrix elements of the bands beyond the number of Wannier functions are left out.
* `C146_violated_order` (Props/EpaAverage.lean): C146 is violated: in a mesh of two by two wavevectors, with the last coordinate running fastest in the file and the first in the mesh, the coupling of the only state with energy 1 has a smaller weight than it should, at that energy.
* `C147_violated_truncated` (Props/EpaAverage.lean): C147 is violated: a file that ends before the last numbers is accepted, and the missing averages are zero.
* `C148_violated_bunches` (Props/ElPhWrite.lean): C148 is violated: if the coupling of two lattice vectors is larger than 10^9 bytes and the tensor is distributed, then in the file all the vectors of a process have the coupling of the first of them.
* `C148_violated_format2` (Props/ElPhWrite.lean): C148 is violated: with the second format and several processes, whatever the order in which they write, either the program fails or the datasets of some lattice vectors are not in the file.
* `C148_violated_int` (Props/ElPhWrite.lean): C148 is violated: thirty lattice vectors of 1.6 * 10^9 bytes each, of which all processes have a copy: the position of a bunch does not fit into the integer type.
* `C149_violated_cells` (Props/Sheng.lean): **C149 is violated** by every file in which the triplets have different numbers of second and third cells: the tensor is allocated with the two extents exchanged, and it is accessed outside of its memory.
* `C149_violated_truncated` (Props/Sheng.lean): **C149 is violated** by a file that is cut short: it is accepted, and the missing triplet replaces the force constants of the first atom with itself in the home cell by zero, whatever they are.
* `C14_violated` (Props/Points.lean): The full C14 is violated: every offset whatsoever is accepted, for instance -1/2 and 3/2.
* `C150_violated_compact` (Props/Phono3py.lean): **C150 is violated** by files in the compact format of phono3py, whose first index runs over the atoms of the cell instead of those of the supercell: the format is not checked, and elements outside of the array are read.
* `C150_violated_grid` (Props/Phono3py.lean): **C150 is violated** by a file of displacements without the supercell matrix: the dimensions are used without having been set.
* `C150_violated_weight` (Props/Phono3py.lean): **C150 is violated** by supercells with images on the border of the Wigner-Seitz cell, which is every supercell with an even number of cells: the weight of the third atom is applied twice. One atom, two cells of a cubic lattice: the coupling is 1 instead of 4.
* `C151_violated_flat` (Props/QeLattice.lean): Violation: the parameters of a flat triclinic cell (three vectors in a plane, at 120 degrees) are accepted; the volume is zero.
* `C151_violated_monoclinic` (Props/QeLattice.lean): Violation: for index 13 (base-centred monoclinic, unique axis c) the code uses `c/a` for the cosine and `celldm(5)` for the sine of the angle. With a right angle, `a = b = 1` and `c = 1/2` the vectors do not span the lattice, whatever the orientation of the axes, even up to one hundredth.
* `C152_violated_truncated` (Props/QeForce.lean): Violation: a file that lacks its last two lines (those of the last force constant) is accepted; the missing force constant is the one read before.
* `C152_violated_uninitialised` (Props/QeForce.lean): Violation: of a file that lacks the last third of the force constants, these are used without having been set.
* `C153_violated_uneven` (Props/XmlBands.lean): C153 is violated for lists that are not a mesh: the differences with respect to the mesh are compared with their sign, so that three points that are not equally spaced are accepted, and the energies at `7/10` become those of the point `2/3`.
* `C154_violated_born_missing` (Props/Phonopy.lean): C154 is false for crystals with equivalent atoms: phonopy writes the charges of the atoms `ind` that are not equivalent, and they are given to the first atoms; the other atoms have no charge.
* `C154_violated_born_ub` (Props/Phonopy.lean): C154 is false for crystals with more lines of charges than species: the name of a species that does not exist is printed.
* `C154_violated_compact` (Props/Phonopy.lean): C154 is false for compact files: the two directions are exchanged.
* `C154_violated_units` (Props/Phonopy.lean): C154 is false for the other units: the force constants are wrong by the factor `2` (hartree/au^2: Elk, DFTB+, TURBOMOLE), by `1/1000` (mRy/au^2: WIEN2k), or by the Bohr radius (eV/angstrom.au: ABINIT, SIESTA).
* `C155_violated_no_velocities` (Props/ActiveStore.lean): VIOLATED: a user of the library can ask for a band structure without velocities (`builder(context, h0, points, withEigenvectors, false)`), but the building functions then read the empty array of velocities, whatever the Hamiltonian, as soon as there is an active state.
* `C156_violated_copy` (Props/MatrixCopy.lean): After any such history, copy construction follows a null pointer, whatever the matrix; so do `+=`, `-=`, `*=`, `/=`, which return the matrix by value, and `prod`, which begins with a copy. All four programs have a meaning in terms of values.
* `C157_violated_eigenvectors` (Props/MatrixProd.lean): Complex Hermitian matrices: the matrix returned is zero, so that it never holds eigenvectors.
* `C157_violated_parallel` (Props/MatrixProd.lean): Distributed rectangular matrices without transposition. The real product stops the program if the first matrix has more rows than columns, and has too many rows if it has fewer; the complex product stops the program if the second matrix has more columns than rows, and has too many columns if it has fewer.
* `C157_violated_serial` (Props/MatrixProd.lean): A rectangular matrix: the product of its transpose with a matrix of as many rows is well defined, and refused. And a product that is not defined, that of a `1 × 2` matrix with the transpose of a `2 × 1` matrix, is not refused: it reads beyond the end of the second.
* `C158_violated_units` (Props/Atoms.lean): The same element has different masses in crystals read by different parsers: the reader for Wannier Hamiltonians (and that for the XML file) leaves the masses in atomic mass units, where the one for phonopy converts them.
* `C158_violated_zero` (Props/Atoms.lean): An isotopically pure crystal cannot be asked for: a coupling of zero in the input file is ignored, and the natural one is used.
* `C15_violated_fine` (Props/Points.lean): C15 is violated for meshes with more than 1000 points along a direction: the lookup of a stored point fails.
* `C15_violated_offset` (Props/Points.lean): C15 is violated for offsets larger than the mesh spacing: mesh 2x1x1 with offset 1/2 stores the point x = 1 which is folded to x = 0 by the lookup and not found.
* `C15_violated_permutation` (Props/Points.lean): C15 is violated for a filter of full length that is not the identity: it is ignored.
* `C15_violated_range` (Props/Points.lean): C15 is violated for filters that leave the mesh: index 7 of a 2x1x1 mesh is accepted.
* `C15_violated_unsorted` (Props/Points.lean): C15 is violated for unsorted filters: on the 1x2x2 mesh the filter [2, 1] (z=1/2,y=0 then z=0,y=1/2) is not detected as unsorted, and the binary search does not find the stored point number 1.
* `C161_violated_electron_constant` (Props/TransportRun.lean): C161 is violated: electrons with a constant relaxation time that is not positive. The interaction is not read, but the rates are computed.
* `C161_violated_iterations` (Props/TransportRun.lean): C161 is violated: with no iteration allowed, the file of the iterative solver is written although the scattering matrix was never used.
* `C161_violated_name` (Props/TransportRun.lean): C161 is violated: a solver whose name is not known is ignored without a word, and the run ends well.
* `C161_violated_phonon_constant` (Props/TransportRun.lean): C161 is violated: phonons with a constant relaxation time and an exact solver. If the matrix is not in memory, its rates are computed through a pointer that was never assigned.
* `C161_violated_phonon_empty` (Props/TransportRun.lean): C161 is violated: if the matrix is in memory, it has no elements, and the variational solver writes a result obtained with a zero matrix.
* `C162_violated_empty` (Props/GroundState.lean): The full C162 is violated: without electrons, two processes that have a state each (1 and 2 Ry) find different Fermi levels; the one of the second is not one of the crystal.
* `C163_violated_fraction` (Props/ElectronCount.lean): The full C163 is violated: with 19/2 electrons in the cell (a doped calculation), half an electron is lost on both ways.
* `C163_violated_spin_orbit` (Props/ElectronCount.lean): The full C163 is violated: with spin-orbit coupling, a band that is not given to Wannier90 holds one electron, and two are taken away: whenever there is such a band, the filling is too small.
* `C165_violated_fourier` (Props/FullStore.lean): **C165** violated: a band structure of the Fourier interpolation that was asked for with eigenvectors has only zeros for eigenvectors, whatever the Hamiltonian.
* `C165_violated_phonon` (Props/FullStore.lean): **C165** violated: nine wavevectors distributed over four processes leave none to the last, whose division into batches divides by zero.
* `C166_violated_empty` (Props/ElHelper.lean): C166: a process without wavevectors reads the first element of an empty list.
* `C166_violated_gap` (Props/ElHelper.lean): C166 is violated for a list with gaps: after preparing wavevectors 0 and 2, asking for wavevector 2 reads outside of the cache.
* `C167_violated_empty` (Props/Occupations.lean): C167: a process without wavevectors reads the first element of an empty list.
* `C167_violated_gap` (Props/Occupations.lean): C167 is violated for a list with gaps: after preparing wavevectors 0 and 2, asking for wavevector 2 reads outside of the cache.
* `C169_violated_refused` (Props/Collectives.lean): ... and between 2^31 and 2^32 elements the count is negative and the library refuses the call, for sums and for broadcasts (the coupling of a large crystal is sent to the pools with `bcast`).
* `C169_violated_silent` (Props/Collectives.lean): C169 is violated for `2^32 + k` elements: the count passed to the library is `k`, so that only the first `k` elements are summed and the others keep the values of the process, without any error.
* `C170_violated_bunches` (Props/ElPhPlot.lean): C170 is violated when a process has more than 10^9 bytes: beyond the first bunch of `m` pairs of the process, the values of the first bunch are repeated.
* `C170_violated_first` (Props/ElPhPlot.lean): C170 is violated for the first band alone: all bands are used.
* `C170_violated_idle` (Props/ElPhPlot.lean): C170 is violated with more processes than pairs: the first pair of an empty share is read.
* `C170_violated_mesh` (Props/ElPhPlot.lean): C170 is violated by the test of the input: the coupling along a path is refused if there is no mesh of electrons, which is not used.
* `C170_violated_serial` (Props/ElPhPlot.lean): C170 is violated when HDF5 has no MPI: on one process the file has only zeros, whatever the coupling.
* `C170_violated_serial_many` (Props/ElPhPlot.lean): ... and on several processes the call is erroneous.
* `C171_violated_assign` (Props/PointSum.lean): Assigning a point of another set to a point changes the set of the latter: here point 1 of a mesh of 2 points, with coordinate 1/2, becomes a point of coordinate 1/4 after another point of its set was assigned to.
* `C171_violated_offset` (Props/PointSum.lean): On a mesh with an offset the sum can be a point that is not the sum, with an Umklapp vector that is not a lattice vector: the mesh of one point at 2/5, where 2/5 + 2/5 gives 2/5.
* `C171_violated_wigner_seitz` (Props/PointSum.lean): The sums are not folded to the Wigner-Seitz cell, as documented, but to the cell `[0,1)`: 1/2 + 1/4 is 3/4 without Umklapp vector, although -1/4 is equivalent and closer to the origin.
* `C172_violated_doping` (Props/Report.lean): The terminal gives dopings in cm^-3 whatever the dimension; the file does in cm^-d: the two agree in three dimensions only.
* `C172_violated_iterations` (Props/Report.lean): Electrons in one and two dimensions: the conductivities written during the iterations are not those of the file, even with the exact value of the Rydberg energy, which is not one in SI units; they differ by its square or by it.
* `C172_violated_viscosity` (Props/Report.lean): Viscosity in two dimensions: the rows are written without their third index, so that two rows start with the same indices `i j`, and can be different.
* `C172_violated_viscosity_unit` (Props/Report.lean): In one and two dimensions the unit written for the viscosity is not one of a viscosity: a force on a cross-section of `d - 1` dimensions over a gradient of the velocity is in N s/m^(d-1), which is Pa s m^(3-d), a positive power of the metre.
* `C173_violated_bins` (Props/Requirements.lean): C173 violated: a transfer to the EPA format without the number of bins is not refused.
* `C173_violated_harmonic` (Props/Requirements.lean): C173 violated: electronic transport without the file of the phonons is not refused.
* `C173_violated_mesh` (Props/Requirements.lean): C173 violated: phonon-electron lifetimes without the mesh of the electrons are not refused.
* `C173_violated_potentials` (Props/Requirements.lean): C173 violated: nor, except for the electronic transport, a range of chemical potentials in place of a list.
* `C173_violated_smearing` (Props/Requirements.lean): C173 violated: a missing (or misspelt) smearing method is not refused.
* `C173_violated_temperatures` (Props/Requirements.lean): C173 violated: no application accepts a range of temperatures in place of the list, although the documentation asks for one or the other.
* `C174_violated_coupling` (Props/ErrorStop.lean): C174 violated: with more than one pool, as in the default of one process per pool, a missing file of the coupling (without HDF5) or a file without the header makes all processes wait forever, and so does, with more than one process, a file that is not an HDF5 file.
* `C174_violated_files` (Props/ErrorStop.lean): C174 violated: with more than one process, a missing file of Quantum ESPRESSO, and a file of the EPA coupling that cannot be written, make all processes wait forever.
* `C174_violated_potential` (Props/ErrorStop.lean): C174 violated: with more than one process and distributed bands, a search of the chemical potential that does not converge makes all processes wait forever.
* `C174_violated_sanity` (Props/ErrorStop.lean): C174 violated: the error on solvers and symmetries is met by the head only. With more than one process, no run ends on all of them with the error, and the runs that begin by exchanging data wait forever.
* `C176_violated_fermi` (Props/Summary.lean): **C176 is violated** by the Fermi level: 10 Ry are printed as 20, without a unit.
* `C176_violated_occupied` (Props/Summary.lean): **C176 is violated** by the number of occupied states in the averaged approximation: 4 is printed as 8, whereas the other applications print 4; and also they print another number if the spin-orbit coupling is set after it.
* `C176_violated_range` (Props/Summary.lean): **C176 is violated** by the range of energies around the Fermi level: 10 eV are printed as 5 eV (in Rydberg, where 1 Ry is 2 eV).
* `C176_violated_temperatures` (Props/Summary.lean): **C176 is violated** by the range of temperatures: the file says 300 K, the summary prints 300 / 17 (the number in atomic units, for a table of units where 1 atomic unit is 17 K) with the unit K.
* `C177_violated_labels` (Props/BandsFile.lean): The labels are violated: for a path whose second segment starts almost at the end of the first, with another label, the phonon bands app ends with a file of four labels and two indices.
* `C178_violated_symmetry` (Props/DosApp.lean): **C178 violated with symmetries**, which the application always uses: for a band with the inversion symmetry of its crystal the density in the file is half of the one without the symmetry.
* `C179_violated_dos_unit` (Props/EpaApp.lean): The full C179 is violated: the file names the density of states `1/eV`, the unit of the densities per cell of the other apps, but its numbers are divided by the volume of the cell.
* `C179_violated_spin` (Props/EpaApp.lean): The full C179 is violated: without spin-orbit coupling every linewidth of the file is half of that of the averaged golden rule.
* `C179_violated_times` (Props/EpaApp.lean): The full C179 is violated: in the file of a run the relaxation time of an energy times its linewidth is not `ħ` but `2π ħ`.
* `C17_violated` (Props/Points.lean): The full C17 is violated: for a (very skewed) cell the image translated by (1,1,1) is shorter than the returned one, because lattice vectors with three positive components are never tried.
* `C180_violated_population` (Props/ActiveRun.lean): VIOLATED for the window of populations: electrons at temperature 1 with the chemical potentials -20, 0 and 20. A half-filled state of the calculation with zero chemical potential has a factor 1/4, above the limit 0.01, and is not kept; the sweep and the band structure are built without any error.
* `C181_violated_labels` (Props/PhElApp.lean): VIOLATED: the file does not say to which chemical potential the linewidths belong. A sweep of two chemical potentials gives two lists of linewidths, both labelled with the chemical potential 0 and the same temperature, and no doping concentrations.
* `C181_violated_window` (Props/PhElApp.lean): VIOLATED: the linewidth at a temperature and a chemical potential depends on the other chemical potentials of the sweep. Electrons at 0.02 that absorb a phonon of energy 0.01 at temperature 1: with the chemical potential 0 alone the file has the linewidth zero; with the chemical potentials 0 and 0.02 it has for the same calculation the sum over all the states, which is positive.
* `C182_violated` (Props/PathTimes.lean): The full C182 is violated: at the second temperature degenerate bands of the same wavevector have different linewidths, although at the first temperature they are averaged and equal.
* `C183_violated_cutoff` (Props/PathPhTimes.lean): Phonons with an energy of 1/1000 of a Rydberg (13.6 meV): the product of three such energies, in Rydberg cubed, is below the cutoff of 0.001 cm^-1, which is an energy, and all the processes are left out. The linewidths are zero, while those of the golden rule are positive.
* `C183_violated_direction` (Props/PathPhTimes.lean): **The linewidth of a phonon depends on the direction of the path.** The list of the phonons below 0.1 cm^-1 is that of the path, and it is also searched for the indices of the mesh. The same path in two directions, `G-A` and `A-G`: in the first the linewidth of `A` is positive, in the second `G` is the second point, the second point of the mesh is left out, and the linewidth of `A` is zero.
* `C183_violated_isotopes` (Props/PathPhTimes.lean): With the adaptive delta function the rate of the scattering by isotopes is not the mean over the two phonons: the value for the second phonon is overwritten by that for the first one, and only then divided by two. When all the phonons have the same velocity and isotopes are all that scatters, every linewidth in the file is half the linewidth of the golden rule.
* `C184_violated_assign` (Props/VectorEpa.lean): The assignment of a vector changes the table of conditions of the vectors that share that of the left-hand side.
* `C184_violated_calculations` (Props/VectorEpa.lean): The full statement is violated: with three components the elements of the list are taken in the order of the rows, and the list is read past its end.
* `C184_violated_dot` (Props/VectorEpa.lean): The scalar product is violated: the result is made as a vector with one column, its second and third columns are never set to zero, and the sum over the states reads them.
* `C184_violated_product` (Props/VectorEpa.lean): The full statement is violated: of the terms of an element that a process has, only the last one is kept. On one process, the product of the vector `(1, 1)` with the matrix of ones is `(1, 1)`, and not `(2, 2)`.
* `C185_violated_assign` (Props/Observable.lean): Violated: an observable in two dimensions assigned to one in three keeps its three dimensions, beyond the elements it was given.
* `C185_violated_copy` (Props/Observable.lean): Violated: a copy of a conductivity cannot be printed, its units are never set.
* `C185_violated_difference` (Props/Observable.lean): Violated: the difference of two observables other than conductivities writes into an array without a size.
* `C186_violated_missing` (Props/CouplingFile.lean): Violated: a file that is missing is not refused: the number of wavevectors is a variable without a value.
* `C186_violated_truncated` (Props/CouplingFile.lean): Violated: a file that ends early is not refused: the elements after its end are made from variables without a value.
* `C187_violated_largest` (Props/ParDiag.lean): The manual promises the `numRelaxonsEigenvalues` largest eigenvalues; those returned are the lowest. The eigenvalues of `twoLevelMat` are `-1` and `2`: asked for one of them, the program returns `-1`.
* `C187_violated_size` (Props/ParDiag.lean): Sizes. Complex matrices with 46341 rows or more, on any grid, and real matrices for which ScaLAPACK reports a workspace of `2 ^ 31` numbers or more: the lengths are not `int`s, and the behaviour is undefined whatever the elements are.
* `C188_violated_header` (Props/RotationFile.lean): A file that ends after its title is not refused either: the dimensions come from variables without a value.
* `C188_violated_mesh` (Props/RotationFile.lean): A file made for a smaller mesh: it is not refused; a wavevector whose index in the mesh is not below the number of wavevectors of the file is written outside of the array.
* `C188_violated_truncated` (Props/RotationFile.lean): A file that ends before its last element: after the lines of the first `w` wavevectors and `c` elements of the next one. It is not refused: the missing elements come from variables without a value.
* `C189_violated_batches` (Props/ElPhMemory.lean): C189 is violated: with room for two and a half wavevectors, five are divided into two batches, and the arrays of the second batch, of three, need more than the available memory (one Wannier function, three modes, a thousand lattice vectors).
* `C189_violated_overflow` (Props/ElPhMemory.lean): C189 is violated: for 90 atoms and 500 bands the estimate overflows `int`, whatever the available memory.
* `C189_violated_pool` (Props/ElPhMemory.lean): C189 is violated in a pool of more processes: whatever the history, the array with the coupling at the current wavevector is not registered, neither when the batches are chosen nor afterwards.
* `C190_violated_bands` (Props/Conversion.lean): C190 is violated when Wannier90 was given the bands from `first` on and not the last ones: the interpolation gives the coupling of the bands from `first + 1` on.
* `C191_violated_processes` (Props/RunCoupling.lean): C191 is violated: without pools, and with more processes than lattice vectors, all the processes read the first element of an empty list.
* `C191_violated_second_format` (Props/RunCoupling.lean): C191 is violated: with the second format, and without pools, each of several processes has zeros in place of the coupling of all the lattice vectors but the first ones, whatever the coupling in the file.
* `C192_violated_units` (Props/PhononRun.lean): Violation: a file of Quantum ESPRESSO and the files of phonopy with the force constants in hartree/au^2 describe the same crystal, both runs end with a file, and the energies are not the same.
* `C193_violated_cells` (Props/ThirdOrder.lean): **C193 is violated** by files of ShengBTE with different numbers of second and third cells: with the first two of these triplets, which share the same force constants, the tensor is accessed outside of its memory.
* `C193_violated_ties` (Props/ThirdOrder.lean): **C193 is violated** by supercells with images on the border of the Wigner-Seitz cell: the same crystal has the coupling 4 with the file of ShengBTE and 1 with the files of phono3py.
* `C194_violated_cells` (Props/PathThird.lean): **C194 is violated** by files of ShengBTE with other numbers of second than of third cells: for these triplets, which share the same force constants, the run accesses memory outside of the tensor.
* `C194_violated_name` (Props/PathThird.lean): **C194 is violated** by the names of the files: a file of ShengBTE in a directory whose name contains `hdf5` is taken for one of phono3py, and refused.
* `C194_violated_ties` (Props/PathThird.lean): **C194 is violated** by supercells with images on the border of the Wigner-Seitz cell: the same force constants of two cells, once in the file of ShengBTE and once in those of phono3py; with the first the linewidth of a phonon at the center of the zone is four times that with the second.
* `C195_violated_shifts` (Props/WannierRun.lean): **C195 is violated** with the file of the shifts of the Wannier functions, which Wannier90 writes by default: unless there are as many vectors as functions, every run reads beyond the bounds of the array of matrix elements.
* `C196_violated_shifts` (Props/WannierDos.lean): **C196 is violated** with the file of the shifts of the Wannier functions, which Wannier90 writes by default: unless there are as many vectors as functions, every run reads beyond the bounds of the array of matrix elements.
* `C197_violated_units` (Props/PhononDos.lean): **C197, other units.** If the files of phonopy are in hartree/au^2, one of the units they can name, the run has the outcome of the run with a file of Quantum ESPRESSO of another crystal: one with half the force constants, so with frequencies smaller by the square root of two.
* `C22_violated` (Props/Matrix.lean): The full C22 is violated: for a 2x2 matrix on 4 processes (default layout), process row 0 stores row 0 but its list of local rows is [-1].
* `C22_violated_blocks` (Props/Matrix.lean): Also violated with two blocks per process: rows 0,1,4,5 of 8 are stored but the list is 0,1,2,5.
* `C24_violated` (Props/Matrix.lean): The full C24 is violated by making a matrix the identity: off-diagonal elements keep their values.
* `C26_violated` (Props/Matrix.lean): The full C26 is violated on one process: the scalar product of any two matrices is zero.
* `C32_violated` (Props/Window.lean): The full C32 is violated: with chemical potentials -20, 0 and 20 at temperature 1 and threshold 0.01, a state at energy 0, half filled for the middle one (factor 1/4), is discarded.
* `C33_violated` (Props/Window.lean): The full C33 is violated: the energies returned are the band indices.
* `C36_violated` (Props/Sweep.lean): The full C36 is violated when both dopings and chemical potentials are given: all calculations are at zero temperature and chemical potential.
* `C39_violated` (Props/Sweep.lean): The full C39 is violated: with no electrons, two processes holding a state each (energies 1 and 2) return different Fermi levels.
* `C40_violated` (Props/Sweep.lean): The full C40 is violated with two temperatures and two chemical potentials: asking for the second temperature and first chemical potential (calculation 2) returns the value of calculation 1.
* `C41_violated` (Props/Delta.lean): The full C41 is violated: beyond six widths the positive side is zero, the negative one is not.
* `C43_violated_integral` (Props/Delta.lean): The integral is violated: for corner energies that are far apart all the weights are below the cutoff of 1e-12, and the weights of non-degenerate corners vanish everywhere.
* `C46_violated` (Props/PhRates.lean): The full C46 is violated with the adaptive scheme: the width is taken from the velocity difference of states 2 and 3 only, so exchanging states 1 and 2 changes the matrix element.
* `C47_violated` (Props/VectorBte.lean): The full C47 is violated: twice a vector that is one everywhere is two on the excluded state 0.
* `C48_violated` (Props/VectorBte.lean): The full C48 is violated with symmetries: on the 2x2x1 mesh reduced by the exchange of two axes, the irreducible states of the single band are 0, 1, 3, with BTE indices 0, 1, 2; with BTE state 2 excluded, the product of the vector that is one everywhere with itself should be 1 + 1 = 2 (up to the stars) but counts state 3 as well.
* `C52_violated_chain` (Props/Degeneracy.lean): **C52 is violated** for chains of nearly degenerate bands: the loop closes a multiplet at the tolerance from its first band, so bands 1 and 2, which are degenerate, end with different couplings.
* `C53_violated_second_calculation` (Props/Degeneracy.lean): **C53 is violated**: with two calculations the linewidths of the second are not averaged; the two degenerate states keep the different linewidths `1` and `3`.
* `C54_violated_processes` (Props/ScatMatrix.lean): **C54 is violated** with several processes: the process that does not store the diagonal element of a state keeps the diagonal of the unsymmetrised matrix, although the flag says that the matrix is symmetrised.
* `C54_violated_symmetries` (Props/ScatMatrix.lean): **C54 is violated** with symmetries: the stored diagonal is divided by the factor nine times, once for each element of the 3x3 block, while the matrix is divided once.
* `C55_violated_constant` (Props/ScatMatrix.lean): **C55 is violated** in the constant relaxation time mode: the linewidths that are read are the constant, not those that were set.
* `C56_violated_degenerate` (Props/ScatMatrix.lean): **C56 is violated** for the off-diagonal product of degenerate states: without the matrix in memory the diagonal was averaged over the degenerate states when it was computed, but the full product was not, so the result differs from the product with the stored matrix.
* `C57_violated_excluded` (Props/LinewidthSplit.lean): **C57** violated: an excluded state (energy below 0.1 cm⁻¹) degenerate with another one has linewidth zero, but nonzero Normal and Umklapp parts.
* `C57_violated_isotope` (Props/LinewidthSplit.lean): **C57** violated: with isotope scattering only, there is no three-phonon process, but the Normal part is not zero.
* `C58_violated_fine` (Props/ThirdState.lean): C58 is violated for meshes with more than 1000 points along a direction: on the mesh of 1001 points, with points 0 and 1 in the window, the third points are 0, 1, 2 and 1000, and the lookup of the sum of points 0 and 1 fails.
* `C59_violated_empty` (Props/ThirdState.lean): C59: an empty list (a process without work) reads the first element of an empty vector.
* `C59_violated_gap` (Props/ThirdState.lean): C59 is violated for lists with gaps: wavevector 2 of the list [0, 2] is read outside of the cache.
* `C59_violated_order` (Props/ThirdState.lean): C59 is violated for lists that are not ascending: for [0, 2, 1], the state of wavevector 1 is returned for wavevector 2.
* `C60_violated_overflow` (Props/ThirdState.lean): C60 is violated for large products: for the 1048576 wavevectors of a 128x128x64 mesh in 4096 batches, the product overflows `int` before the loop ends.
* `C61_violated` (Props/Device.lean): **C61** violated: with room for two and a half wavevectors, five are divided into two batches, and the second batch of three needs more than the available memory (by the estimate and by the arrays allocated).
* `C61_violated_overflow` (Props/Device.lean): **C61** violated: for 136 atoms (408 bands) the estimate overflows `int`, whatever the available memory.
* `C62_violated_size` (Props/Coupling3Ph.lean): **C62 is violated** when there are more third vectors than second ones: the array of the third weights is allocated with the number of the second vectors.
* `C62_violated_weight` (Props/Coupling3Ph.lean): **C62 is violated** by third weights that are not 0 or 1, as those of vectors on the border of the Wigner-Seitz cell (src/parser/ifc3_parser.cpp L81-95): with the weight 1/2 the coupling is a sixteenth of the force constant squared instead of a fourth.
* `C63_violated_equal` (Props/Epa.lean): **C63** violated: two equal first energies make every call undefined.
* `C63_violated_range` (Props/Epa.lean): **C63** violated: an energy `2^31` spacings above the first is converted to `int` before it is brought back into the range: undefined behaviour instead of the last index.
* `C63_violated_spacing` (Props/Epa.lean): **C63** violated: the spacing of the first two energies is used for all; with energies `0, 1, 10` the energy `4` is given the coupling of `10`, though `1` is nearer.
* `C65_violated_digits` (Props/Input.lean): **C65 is violated for 0 and 1**: the digits are erased before they are compared, so a value written with digits always stops the program, for every text without letters.
* `C66_violated_spin_orbit` (Props/Input.lean): **C66 is violated**: the number of occupied states is doubled unless `hasSpinOrbit = true` comes before it.
* `C67_violated_block` (Props/Input.lean): **C67 is violated inside blocks**, where comments are not removed: a commented atom is added to the crystal, as a new species, and a comment with the word `end` ends the block.
* `C67_violated_semicolon` (Props/Input.lean): **C67 is violated by a comment with a semicolon**: lines are cut at semicolons before comments are removed, so the rest of the comment is read as a line.
* `C68_violated_other_units` (Props/Input.lean): **C68 is violated by units that are not in the list**: a value in meV is read as a value in eV, and a value in THz is read as a value in Rydberg, without an error.
* `C69_violated_wire` (Props/Crystal.lean): **C69** violated: for one-dimensional systems the length of the cell is negative when the third lattice vector points along `-z` (a left-handed choice of the axes accepted by the constructor).
* `C70_violated_shift` (Props/Crystal.lean): **C70** violated (shifted vectors): with at least one shift and a supercell of more than one cell, the search for shifted vectors always stops the program: only copies of the first vector are kept, so that the sum of the inverse degeneracies is at most one.
* `C71_violated_zero` (Props/LoopPrint.lean): **C71 is violated** by a loop of zero steps (for instance a process pool with no wavevectors): the number of digits `int(log10(0)) + 1` is an undefined conversion.
* `C74_violated` (Props/LinewidthSplit.lean): **C74** violated: initial states on a path containing Gamma (outer energies 0 and 1), final states on a mesh without zero energies; the process into final state 0 is skipped although both its energies are far above the cutoff.
* `C75_violated_assign` (Props/Device.lean): **C75** violated: after an assignment between two `PhononH0` objects and the destruction of both, memory is still registered, though nothing is allocated.
* `C75_violated_copy` (Props/Device.lean): **C75** violated: a copy of a `PhononH0` (for instance the one made by `std::get` from the result of the parser) registers the shared arrays a second time.
* `C75_violated_negative` (Props/Device.lean): **C75** violated: the registered memory becomes negative when an interaction is copied, the copy updates its cache with a smaller one and is destroyed first.
* `C75_violated_usage3ph` (Props/Device.lean): The formula of `Interaction3Ph` reports more than the bytes of its arrays: the real array `D3_k` is counted as complex.
* `C76_violated` (Props/Bands.lean): The full C76 is violated for a distributed band structure: with 1 band and 4 points on 2 processes, each process stores 2 points and the two iterators give states 0 and 1 only.
* `C78_violated` (Props/Matrix.lean): The full C78 is violated: two 4x4 matrices on a 2x2 grid, the first stored by blocks of 2 and the second cyclically (blocks of 1); the second has a single non-zero element, (0, 2); adding it changes element (0, 1) instead.
* `C79_violated_short_line` (Props/Input.lean): **C79 is violated by short lines**: a line of the crystal block with fewer than four words (for instance a line with only a space) makes the program read past the end of the list of words.
* `C81_violated_apostrophe` (Props/Input.lean): **C81 is violated by a single quote inside double quotes**: one such quote stops the program, and with two only the text between them is kept.
* `C82_violated_empty` (Props/Device.lean): **C82** violated: a list without elements (the wavevectors of an MPI process that has none) gives a division by zero, for every batch size.
* `C83_violated` (Props/Device.lean): **C83** violated: for one atom and a device memory of 800 GB (the environment variable MAXMEM) the number of points is out of the range of `int`: undefined behaviour instead of a large batch.
* `C84_violated_output` (Props/LoopPrint.lean): **C84 is violated**: an output file never receives the output; the stream is put back immediately.
* `C86_violated_stale` (Props/Coupling3Ph.lean): **C86 is violated**: the wavevector handed over with the request is ignored. A request made without a matching call of `cacheD3` silently gives the couplings of the wavevector cached last: here those at `q2 = 0` (four) instead of those at the border of the zone (zero).
* `C88_violated_crystal` (Props/SumRule.lean): C88 is violated by the rule "crystal": for every crystal with one atom, and every grid, the rule changes the sign of the off-diagonal sums instead of making them zero. The vectors to orthogonalize are numbered with the atom as the slowest index, but the orthogonalization decodes their number as if the atom were the fastest one, so linearly dependent vectors are kept and their component is subtracted twice.
* `C88_violated_crystal_witness` (Props/SumRule.lean): The violation is not vacuous: symmetric force constants of one atom whose off-diagonal sum is one, so that it becomes minus one.
* `C89_violated_simple` (Props/SumRule.lean): C89 is violated by the rule "simple": two atoms coupled by a force constant that is not symmetric in the two directions give, after the rule, an on-site matrix that is not symmetric.
* `C91_violated` (Props/DynMat.lean): C91 is violated when there is a dielectric tensor: for two atoms with opposite charges in a cubic cell and force constants on a grid of one cell, the program accepts the input whatever the force constants, but the frequencies at the zone centre and at the first vector of the reciprocal lattice differ.
* `C92_violated` (Props/DynMat.lean): C92 is violated by the rule "simple" for force constants that are symmetric, as second derivatives are: two atoms, a cubic cell, no dielectric tensor. Whatever the solver, at most one of the six frequencies at the zone centre is zero.
* `C96_violated` (Props/DynMat.lean): C96 is violated: for two opposite charges in a cubic cell, whatever the force constants, the change is not the one of the macroscopic field.
* `C98_violated` (Props/PhVelocity.lean): C98 is violated: a cubic crystal with two opposite charges, without force constants, has a velocity along the first axis at `q = (1e-4, 0, 0)` on the host, and zero velocities on the device: the host drops the velocities for `|q| < 1e-6`, the device for `|q|^2 <= 1e-6`, so for wavevectors up to a thousand times longer.
* `C99_violated` (Props/ElFourier.lean): A skewed cell, `a1 = (1, 0, 0)`, `a2 = (10, 1, 0)`, `a3 = (0, 0, 1)`, a grid of `1 x 2 x 1` points and a cutoff of one: whatever the library answers, the bands that come out have the energy of the first point at the second one too, so that they do not go through the data unless the data are flat.

## Modelled code

Collected from the comments of the definitions in `lean/Verif/Model`: every definition of the model and the lines it models.

* **ActiveBuild**: src/bands/active_bandstructure.cpp: scanOne (L558-580, L829-868); ScanThread (L552-599); ScanState; ScanStep (L558-580, L586-598); scanStart; ScanRun; displacement (L626-629); collectWith (L615-650, L902-938); collectArray (L609-650, L896-938); collectActive; energyWrites (L693-713, L986-1018, L356-372)
* **ActiveRun**: src/bands/active_bandstructure.cpp, src/bands/window.cpp, src/bands/window.h, src/points.cpp: ReadyWindow; WindowInput (L18-63); postWindow (L784-801, L784-790, L792-795); flyWindow (L512-516, L22-23); ReadyWindow.select (L569-578, L855-867); postSelect (L836-867, L936-962); flySelect (L558-578); builderSelect (L486-525)
* **ActiveStore**: src/bands/active_bandstructure.cpp: HamView; ActiveLayout.energyAt (L356-363); ActiveLayout.vectorAt (L374-383); ActiveLayout.velocityAt (L385-396); batchBounds (L97-98, L154-155); batchStore (L98-140, L155-180, L78-89); batchedStore (L91-140, L145-182); activeLayoutOf (L655-664, L943-957); postStore (L978-1024, L1038-1068); reduceStore (L183-185, L751-753, L1026-1028, L1069); ActiveArrays; ActiveLayout.getGroupVelocities (L287-297); ActiveLayout.allGroupVelocities (L450-457); activeArrays (L183-187, L751-757, L1026-1072, L66-68, L675-682, L963-971); ActiveArrays.getEnergy (L247-253); ActiveArrays.getGroupVelocity (L273-285); ActiveArrays.getPhEigenvector (L329-344)
* **Atoms**: src/constants/periodic_table.cpp, src/constants/periodic_table.h, src/crystal.cpp, src/parser/phonopy_input_parser.cpp, src/parser/qe_input_parser.cpp: Decimal; Decimal.val; Element (L5-12); elementTable (L20-128); findElementByStr (L5-13); elementAt; getMassVariance (L32-36); getMass (L21-24); containsWord; CrystalInput; AtomData; crystalMasses (L69-91); crystalCouplings (L93-107); readInt; crystalAtoms (L29-116); phonopyMasses (L297-303); wannierMasses (L1047-1054)
* **Bands**: src/algebra/Matrix.h, src/bands/active_bandstructure.cpp, src/bands/bandstructure.cpp: fullGetIndex (L133-136); fullGetBloch (L138-145); fullEnergyPosition (L195-203); fullLayout (L29-40, L196-207, L32-36); toSortedSet; fullWavevectorIndices (L154-163); fullStateIndices (L165-175); fullStateToBte (L419-434); fullBteToState (L436-447); fullIrrStateIterator (L450-462); parallelStateIterator (L11-14, L152); ActiveLayout; ActiveLayout.kbOffset (L429-430); ActiveLayout.kbbOffset (L431-432); ActiveLayout.numStates (L655-664); ActiveLayout.numVelStates (L661); ActiveLayout.numEigStates (L662); ActiveLayout.bloch2Comb (L408-410); ActiveLayout.velBloch2Comb (L398-401); ActiveLayout.eigBloch2Comb (L403-406); fillTable; ActiveLayout.auxTable (L425, L435-442); ActiveLayout.comb2Bloch (L412-414); writeAll; readAt; ActiveLayout.setEnergies (L356-372); ActiveLayout.getEnergies (L256-265); ActiveLayout.setEigenvectors (L374-383); ActiveLayout.getEigenvector (L315-327); ActiveLayout.setVelocities (L385-396); ActiveLayout.getVelocity (L300-313); ActiveLayout.numIrrStates (L462-465); bteLoop (L469-483); ActiveLayout.bteTables (L461-483); ActiveLayout.stateToBte (L1121-1133, L416-418); ActiveLayout.bteToState (L1135-1142, L420-422); ActiveLayout.irrStateIterator (L1077-1088)
* **BandsFile**: src/apps/bands_app.cpp, src/bands/bandstructure.cpp, src/crystal.cpp, src/harmonic/phonon_h0_kokkos.cpp: ModesPart (L245-252); BandsFile (L233-252); AtomsView; V3.toList; displacementsAt (L195-211); modesPart (L215-231, L245-252); energiesAt (L187-192); modesIf; outputBandsToJSON (L113-261); pathWave (L306-310); phononView (L310-342); phononBandsApp (L18-44); electronBandsApp (L46-98); crystalPrint (L265-288)
* **Basic**: src/exceptions.cpp: Outcome (L6-24); isOk; toOption; intMin; i32; cadd; cdiv; u64; toInt32
* **BlochWannier**: src/apps/elph_qe_to_phoebe_app.cpp, src/apps/qe_to_phoebe_utils.cpp, src/apps/qe_to_phoebe_wannier.cpp, src/interaction/interaction_elph.cpp: GaugeThread (L230-242, L245-254, L574-586, L589-598); gaugeTmp (L227-242, L571-586); gaugeTmp2 (L243-254, L587-598, L221-222, L565-566); gaugeRotate (L256-263, L600-607); collapsedLoop (L230-235, L245-249); staticPart; staticThreads; CoarseData (L442-449); reduceOver; coarseGauge (L538-611); coarseElPhase (L624-638, L275-285); coarsePhPhase (L734-748, L365-375); coarseMixed (L617-674); coarseRotated (L681-722); blochToWannier (L442-793); coarseElPhData (L447-575, L1050-1100); localRotated (L196-363); blochToWannierEfficient (L14-440, L68, L379-432); keepBands (L248-261, L112-130); rotationProduct (L911-917, L851-855); offsetDifference (L968-976); computeOffset (L922-996, L981); coarsePolar (L160-178, L508-521, L173-174); polarSubtractEfficient (L132-191); polarSubtractPlain (L464-531, L510)
* **Collectives**: src/mpi/mpiController.cpp, src/mpi/mpiController.h: intCount; MpiComm; MpiComm.color (L60-79, L227-244); MpiComm.group; MpiComm.skips (L471-472, L567-568, L588-589, L644); mpiBcast; bcast (L467-490); combineAll; mpiAllreduce; allReduce (L563-606, L641-657)
* **Conversion**: src/apps/elph_qe_to_phoebe_app.cpp, src/apps/qe_to_phoebe_wannier.cpp, src/points.cpp: gridNumber (L416-424); gridOf (L230-240); gridList; gridPoints (L14-22); rationalIndex; ConversionInput; ConversionShares; assembleCoarse (L1054-1065, L542-552); ConvertedCoupling; sumCoordinates (L544-551); convertCoupling (L998-1070, L221-227)
* **Coupling3Ph**: src/interaction/interaction_3ph.cpp, src/interaction/interaction_3ph.h: loopSum; Coupling3Ph; Coupling3Ph.numBands (L13); Coupling3Ph.make (L5-68, L20, L40, L66-67); phase3 (L128-150); Coupling3Ph.cacheD3 (L100-175); CouplingInput; Tensor3; evView (L220-246); maskIf; tmpView (L275-290); tmp1View (L294-309); tmp2View (L313-329); vView (L333-361); normView (L365-383); couplingsOne (L188-383); getCouplingsSquared (L176-405, L187, L203-205)
* **CouplingFile**: src/apps/elph_qe_to_phoebe_app.cpp: nextNumber (L112, L120, L141, L157); readVectors (L111-117, L119-122); readNumbers (L124-127); readElement (L141-143, L157-159); eigenvectorLoop (L134-136); couplingLoop (L152-156); StarChunk; readChunk (L75-169, L89-97, L130-132); FullWrite; vectorWrites (L252-273); starWrites (L232-274); FullArrays; FullArrays.write; readFull (L171-284, L279-281, L231)
* **Crystal**: src/crystal.cpp: Vec3; vdot; vcross; vnorm; matVec; calcVolume (L11-21); inverse3; calcReciprocalCell (L289-293); Cell; makeCell (L29-34, L295-298); Cell.getVolume (L310-321); Cell.crystalToCartesian (L642-644); Cell.cartesianToCrystal (L646-649); zRange; zBox; toVec; offsetBy (L394-396, L502-504); wsDistances (L388-403, L496-516); distMin (L519-524, L406); wsDegeneracy (L406-418, L518-539); wsCollect (L360-425, L484-549); wsBox (L380-382); originIndex (L443-452); swapFirst (L456-463); buildWignerSeitz (L353-466); nearVec; shiftUnique (L571-586); shiftDegeneracies (L591-611); buildWignerSeitzShift (L468-639)
* **CrystalSym**: src/crystal.cpp, src/crystal.h, src/points.cpp: SpgInput (L131-162); SpgOp; spgInput (L131-160, L134); SymmetryOp (L12-15); storeOp (L190-204); foundOps (L131-183); crystalSymmetries (L123-205, L120); rotationsOf (L705-718)
* **DegVelocity**: src/harmonic/harmonic.cpp: degBlockSize (L38-49); setRow; degRowLoop (L36-66); degCountView (L25, L34-67); maxDegeneracy (L34-67); numMatrices (L75-83); exclScan (L112-122); scanView (L102-122); funcKB (L124-137); VelView; subVelocity (L141-152); rotateBlock (L171-201); treatDegree (L71-202, L171-201); treatDegenerateVelocities (L3-206)
* **Degeneracy**: src/bte/scattering.cpp: degTol (L1190, L1223, L1257, L1291); degCountFrom (L1220-1228); degDegree (L1218-1228, L1252-1262, L1286-1296); averageBlock (L1229-1246); averageLoop (L1217-1249, L1251-1283, L1285-1317); symmetrizeCoupling (L1209-1318); DegPoint; linewidthTmp (L1178-1195); averagePoint (L1169-1206); degeneracyAveraging (L1168-1207)
* **Delta**: src/constants.h, src/delta_function.cpp, src/delta_function.h: gaussianSmearing (L34-37, L39-45); AdaptiveConsts (L55-64); adaptiveSigma (L75-79, L57-62); adaptiveSmearing (L66-96); tetraSorted (L222-256); tetraWeight (L211-220); subCellShift (L130-138); tetraVertices (L147-155); tetraSmearing (L206-270, L181-204)
* **Device**: src/common_kokkos.cpp, src/harmonic/electron_h0_wannier.cpp, src/harmonic/phonon_h0.cpp, src/harmonic/phonon_h0_kokkos.cpp, src/interaction/interaction_3ph.cpp, src/interaction/interaction_3ph.h, src/interaction/interaction_elph.cpp: doubleToInt; cprod; memoryPerWavevector (L415-425); estimateNumBatches (L407-440, L430); MemOp; memStep; peakMemory; couplingMemory (L207-376, L207-212, L262, L274, L290, L292, L308, L311, L327, L330, L355, L358, L375); batchSizeOf (L230-254, L1008-1040); phononMemoryPerPoint (L233-243); splitLoop (L151-165); splitToBatches (L136-166); DevKind; DevObj; DevState; DevState.usage; DevState.useCount; DevOp; devStep (L244-245, L67-68, L59-60, L66-67, L252-273, L73-92, L67-79, L71-74, L276-309, L95-117, L82-101, L77-86, L598-621, L509-510, L698-699, L311-323, L119-129, L103-108, L88-98); devRun; usage3Ph (L442-448, L17-52); bytes3Ph (L52-55)
* **Dos**: src/apps/dos_app.cpp, src/delta_function.cpp: tetraCorner (L181-197); tetraStateSmearing (L171-270); tetraDosFrom (L157-168); tetraDos; dosNumEnergies (L137, L147); calcDos (L127-171, L140-144); dosOutput (L176-201)
* **DosApp**: src/apps/dos_app.cpp, src/bands/bandstructure.cpp: DosFile (L190-196); dosFile (L176-201, L179); meshWave (L306-310); Filler; Filler.isPhonon; Filler.stores (L37-41, L71-75, L105-109); dosBands (L34-41, L68-75, L102-109); dosPoints (L35, L69, L103); processDos; dosApp (L25-122)
* **DynMat**: src/constants/constants.h, src/harmonic/phonon_h0.cpp, src/harmonic/phonon_h0.h, src/harmonic/phonon_h0_kokkos.cpp, src/utilities.cpp: constFourPi (L12); constE2 (L36); constGMax (L196); PhCrystal (L28-46); latVec (L440-441, L481-485, L731-735); superCell (L680-683); rwsList (L431-458); wsWeightLoop (L521-533); wsWeight (L505-535); wsCacheAt (L478-490); wsCells (L685-687); wsCheck (L469, L491, L496-499); foldCell (L738-752, L9); foldFin; Bravais (L725-766); reorder (L672-771); Bravais.mat2R (L715-716, L754-759); DynM; phaseOf (L781-789); shortRange (L773-813); PhCrystal.hasDielectric (L37-39); gLimit (L68-80); PhCrystal.gVectors (L92-106); PhCrystal.geg (L124, L629); PhCrystal.normG (L89, L133, L617, L637); PhCrystal.gZ (L136-141, L640-647); PhCrystal.arg (L147-149, L652-653); inCutoff (L127, L632); PhCrystal.longRange1 (L110-163); PhCrystal.longRange (L537-670); dynMatrix (L351-361); massScaled (L825-855); frequency (L866-874); EigenSolver; diagonalizeFromCoordinates (L346-387); makePhononH0 (L18-54); devPhase (L21-32); devShort (L38-47, L180-190); PhCrystal.devGeg (L100-105); PhCrystal.devBorn (L219-226); PhCrystal.devGQZ (L110-118); PhCrystal.devTerm (L120-137); PhCrystal.devLong (L50-141); devHamiltonian (L6-172); devFrequency (L192-201); devDiagonalize (L177-219)
* **ElFourier**: src/harmonic/electron_h0_fourier.cpp, src/harmonic/electron_h0_fourier.h, src/parser/qe_input_parser.cpp, src/points.cpp: RVec; FourierVectors; fourierMinDistance (L309-315); setPositionVectors (L180-316, L220-279); roughness (L154-159, L114-115); starFunction (L161-167); starDerivative (L169-178); LinearSolver; fourierH (L342-364); getLagrangeMultipliers (L318-370); getCoefficients (L372-400); fourierEnergy (L402-411); fourierVelocity (L413-423); fourierDiagonalize (L90-125); realCoords; coarseWavevector (L230-240, L53-54, L344-350, L383-389); fourierSetup (L45-75); keepBand (L14-20); trimBands (L8-43)
* **ElHelper**: src/bte/helper_el_scattering.cpp, src/points.cpp: parallelIrr (L907-916); polarLocal (L173-183); polarStart (L199); polarDisps (L197-200); polarGather (L168-170, L186-219); polarTable (L164-221); polarAt (L270); StoredPhonons (L252-258); PhononOf (L255, L329-330); boseData (L262-268, L319-327); ElHelper; ElHelper.make (L8-223); computePhonon (L307-349); ElHelper.prepare (L292-353); ElHelper.get (L228-290)
* **ElPhCoupling**: src/interaction/interaction_elph.cpp: ElPhData (L11-60); CachedCoupling; elphPhase (L564-573, L355-366); elphFourier (L577-624); elphRotate (L635-645, L653-663, L548-556); cacheElPh (L492-701, L679-693); CouplingItem; polarPart2 (L208-227); couplingSquared (L229-447, L319, L279-280); calcCouplingSquared (L429-445); PolarData (L138-151); symmetricRange (L171-173); polarVectors (L169-181); polarQEq (L187); polarTerm (L187-202); polarPart1 (L153-206)
* **ElPhHeader**: src/interaction/interaction_elph_parsing.cpp, src/mpi/mpiController.cpp, src/mpi/mpiController.h: ElPhFile; ElPhHeader; headPoolHeader (L180-229); interRoot (L72-78, L237-239); bcastInto (L470-490); elphHeader (L163-270, L232-236, L237-239); v1Serial (L466-504, L500-501)
* **ElPhMemory**: src/bte/el_scattering.cpp, src/bte/phel_scattering.cpp, src/interaction/interaction_elph.cpp: elphMemoryPerWavevector (L459-475); elphEstimateNumBatches (L458-490); elphCouplingMemory (L264-433, L264, L277-279, L319-321, L354, L367, L376, L378, L388, L390, L400, L411, L414, L424); ElPhDevice; ElPhDevice.usage (L703-707); ElPhDevice.cacheElPh (L509-510, L622-623, L697-699); ElPhDevice.calcCouplingSquared (L239-256); ElPhDevice.wavevector (L161-213, L192-196)
* **ElPhPlot**: src/apps/elph_plot_app.cpp, src/points.cpp: PlotInput; PlotSet; plotCheck (L392-401, L395); plotMesh (L38-50); plotPoints (L54-61); plotPairs (L63-90); plotUpper (L108-118); plotLower (L126-128); plotRange; plotRanges (L92-134); rangeOf; couplingAt; plotValues (L212-223); plotShare (L167-224); plotBandProd (L236-239); plotNumPairs (L146); plotCacheCalls (L149-161, L208); PlotJob; plotSetup (L38-147, L236-239); plotWriteProcess (L259-313, L312, L263, L280, L298); plotParallel (L244-315, L252); plotSerial (L316-337); PlotLabels; plotLabels (L341-377, L461-464)
* **ElPhRead**: src/interaction/interaction_elph_parsing.cpp: elphPerVector (L379-380); bunchLoop (L390-400); bunchSizes (L375-400); selectData (L425, L517-519); readBunches (L409-444); v1Slice (L326-334, L375-444); v1Read (L312-473); v1Pool (L339-351, L375-473); v2Loop (L577-597, L603-622); v2Pool (L574-600); v2Read (L602-623, L623); TextState; readNumber; textStep (L112-118, L108-111); textLocal (L104-107); textRead (L56-57, L99-123)
* **ElPhWrite**: src/apps/qe_to_phoebe_utils.cpp: selectWrite (L570, L620-622); applyWrites; sliceToInt (L555-563); writeBunches (L541-571); v1WriteProcess (L462-467, L482-573, L514-535); v1Writes; serialPart (L578-598); v1WriteSerial (L574-618); V2Event (L674, L680-711, L713); V2Event.rank; v2Script (L666-713); V2State; v2Step; v2Run; V2State.dataset
* **ElRates**: src/bte/el_scattering.cpp, src/bte/helper_el_scattering.cpp: ElState; ElSetup (L63, L126); elDelta1 (L284-297); elDelta2 (L284-297); elSkipped (L279-282, L299-301); elRate (L307-318, L87-108, L265, L323); elBose3Symm (L253-261); elRateOff (L320-322); ElProcess; elEvent (L264-386); elProduct (L110-115)
* **ElWannier**: src/harmonic/electron_h0_wannier.cpp, src/harmonic/electron_h0_wannier.h, src/parser/qe_input_parser.cpp: WannierShifts (L224-225, L569, L860-861); WannierData (L6-41); addShiftedVectors (L560-592, L595-622); hostPhase (L175, L206); WannierShifts.at (L204); blochH (L160-216); ElSolver (L229-231, L669-671); elDiagonalize (L218-235); elDer (L694-701, L645-657, L640); elRaw (L704); elVelocity (L630-772, L716-767); devBloch (L777-850, L45, L56, L840-842); devElRaw (L932-989); devElVelocities (L887-999); berryConnection (L520-558, L30-38, L549); elPopulateLoop (L277-357); elKokkosPopulate (L253-359)
* **ElectronCount**: src/apps/elph_qe_to_phoebe_app.cpp, src/apps/qe_to_phoebe_utils.cpp, src/apps/qe_to_phoebe_wannier.cpp, src/interaction/interaction_elph_parsing.cpp, src/parser/qe_input_parser.cpp: truncToInt; XmlElectrons; xmlElectrons (L662-667, L766-768, L789-793); filledWannier (L1022-1036, L285-377); couplingElectrons (L125-137, L230-243, L402-408); wannierElectrons
* **Epa**: src/interaction/interaction_epa.cpp: stdRound; epaBinSize (L16-19); epaBin (L44-51); epaCoupling (L42-54)
* **EpaApp**: src/apps/transport_epa_app.cpp, src/observable/onsager.cpp: EpaApp; EpaApp.setup (L28-40); EpaApp.spinFactor (L20-26); EpaTimesFile (L361-375); epaTimesFile (L305-379, L310-312); EpaOutput; epaApp (L28-40, L67-100)
* **EpaAverage**: src/apps/elph_qe_to_phoebe_app.cpp, src/apps/qe_to_phoebe_epa.cpp, src/interaction/interaction_epa.cpp: EpaQPoint (L80-168, L121-123); epaGStar (L105, L149-164); epaGaussian (L49-63); epaNorm (L114-135); epaCouplingSum (L114-148); epaAverage (L89-166, L89); epaPhAverage (L105-109, L154); epaBins (L22-42); EpaFile; EpaToken; epaWrite (L173-188); epaReadInt; epaReadNum; epaReadNums; epaReadRows; epaReadMats; epaRead (L56-105, L95)
* **EpaRates**: src/apps/transport_epa_app.cpp: truncInt; EpaSetup; epaNumEnergies (L28-34); epaEnergy (L36-40); readDos; epaFinalDos (L242-258); epaModeRate (L222-223, L242-289); epaRateAt (L237-291); fillShare (L225-235); fillReduce; epaRates (L180-303, L187-194); epaOuter (L163-168); epaVelocityAt (L134, L152-171); epaDosAt (L135, L152-160); epaVelocity (L117-178)
* **ErrorStop**: src/apps/elph_qe_to_phoebe_app.cpp, src/apps/qe_to_phoebe_epa.cpp, src/context.cpp, src/exceptions.cpp, src/interaction/interaction_elph_parsing.cpp, src/main.cpp, src/mpi/mpiController.cpp, src/statistics_sweep.cpp, src/statistics_sweep.h: MpiAct; Ending; stopCode; together; runProcesses; finalizeActs (L109-131); errorActs (L6-16); mainProgram (L14-54, L823-1160); readCouplingText (L23-27, L126-132, L60); readCouplingHeader (L174-182, L231-260); readCouplingHdf5 (L638-680); readHeaderProgram (L305-312, L357-373); writeEpaProgram (L165-187, L44-54); bisectionLoop (L340-360); bisectionProgram (L326-360, L261-263, L112)
* **FullStore**: src/algebra/Matrix.h, src/algebra/PMatrix.h, src/algebra/SMatrix.h, src/bands/bandstructure.cpp, src/bands/bandstructure.h, src/harmonic/electron_h0_fourier.cpp, src/harmonic/electron_h0_wannier.cpp, src/harmonic/phonon_h0_kokkos.cpp: BandMat (L28-41); BandMat.make (L195-207, L29-64); BandMat.empty (L209-216); BandMat.holds (L308-312, L523-531); BandMat.get (L294-301, L512-521); BandMat.set (L286-292, L502-510); BandMat.localRows; BandMat.localCols; BandMat.localElems (L326-334, L598-606); FullBands; FullBands.make (L17-68); FullBands.wavevectorIndices (L154-163); BandMat.setColumn (L333-341, L361-371, L384-391); FullBands.setEnergies (L331-341); velocityColumn (L350-360); FullBands.setVelocities (L343-372); vectorColumn (L380-387); FullBands.setEigenvectors (L374-396); FullBands.getEnergy (L186-193); FullBands.getStateEnergy (L195-204); FullBands.getEnergies (L206-215); FullBands.getGroupVelocity (L217-231); FullBands.getGroupVelocities (L233-246); FullBands.getVelocities (L248-264); FullBands.getEigenvectors (L266-281); FullBands.getPhEigenvectors (L283-299); FullBands.getBandEnergies (L391-401); FullStore; FullStore.point; FullStore.run; fullRun; fourierStores (L123-152); wannierStores (L361-437, L402); phononBatchStores (L317-357, L319); phononStores (L257-362)
* **GroundState**: src/statistics_sweep.cpp: GroundInput; GroundInput.spinFactor (L58-63); threadBelow (L105-110); sumBelow (L111-112); occupiedProg (L91-118); GroundInput.search; fermiProg (L91-125)
* **Input**: src/constants.h, src/context.cpp: Str; isSpaceC; findSub; patternInString (L16-22); findFirst; findLast; afterEq (L27-29, L53-55, L65-67, L145-147); parseBool (L26-48); digitsVal; stoi; parseInt (L144-149); parseDouble (L52-57); splitCommas (L115-121, L170-175, L222-232); brackets (L99-112, L154-167); parseIntList (L153-178); parseDoubleList (L98-124); parseStringList (L205-237); parseString (L182-201); UnitTable; parseDoubleWithUnits (L62-94); wordsAux; words; wordAt; speciesIndex (L266-272); CrystalBlock; crystalLine (L253-280); crystalLines; parseCrystal (L246-286); PathSegment; pathLine (L314-332); parsePathExtrema (L304-335); parseBlockNameValue (L343-365); parseParameterNameValue (L402-420); Val; Kind; paramTable (L450-744); Settings; firstOf; smearingCode (L597-609); parseKind (L450-744); spinOrbitOf; assign; setParam; setBlock (L746-766); stripComment (L439); processLines (L436-769); splitSemi (L367-385); setupFromInput (L422-770)
* **IrrPoints**: src/points.cpp, src/points.h: setInsert; StarState; starStep (L741-768); starLoop (L741-768); irrLoop (L727-775); firstRotation (L791-799); rotationCandidates (L824-842); minCandidate; rotationIndex (L783-849, L818-820); lowerBound; IrrPoints; mapOutcome; setIrreduciblePoints (L692-889, L716-723, L875-887); IrrPoints.irrPointsIterator (L898-903); IrrPoints.asIrreducibleIndex (L918-925); IrrPoints.asReducibleIndex (L927-934); IrrPoints.getReducibleStar (L987-990); IrrPoints.getRotationsStar (L965-985)
* **Isotope**: src/bte/el_scattering.cpp, src/bte/ph_scattering.cpp: massVariance (L22-43); isoOverlap (L695-702); boundarySetup (L45-51, L19-25); boundaryRate (L842, L421)
* **LinewidthSplit**: src/bte/ph_scattering.cpp, src/bte/scattering.cpp: excludeIndices (L32-40); isUmklapp (L435-447, L576-586, L593-599, L768-780); PhProcess; Linewidths; addColumn; addPart (L448-452, L587-591, L600-604, L781-785); addProcess (L310-326, L659-679, L432-454, L573-606, L765-787); addProcesses; reduceData (L800-804); finishLinewidths (L800-818, L820-859, L900-906); phLinewidths
* **LoopPrint**: src/apps/app.cpp, src/exceptions.cpp, src/io.cpp, src/io.h: LoopPrint; LoopPrint.make (L193-217); ReportLine; LoopPrint.update (L219-269); LoopPrint.run; AppKind (L39-66); appChoices (L18-31); loadApp (L17-71); getCmdOption (L12-18); Sink; makeIO (L20-55); raiseError (L6-16)
* **Matrix**: src/algebra/PMatrix.cpp, src/algebra/PMatrix.h, src/algebra/PMatrix.h/.cpp, src/algebra/SMatrix.cpp, src/algebra/SMatrix.h, src/algebra/SMatrix.h/.cpp: numroc; indxg2l; indxl2g (L2); infog2lOwner; Layout; initBlacs (L410-473); blockSize (L277-280); mkLayout (L246-313, L270-273); Layout.localRows (L289); Layout.localCols (L290); Layout.localElements (L291); Layout.lld (L304-305); Layout.local2Global (L543-572); Layout.global2Local (L574-596); Layout.getAllLocalStates (L598-606); Layout.getAllLocalRows (L608-617); Layout.getAllLocalCols (L619-628); DistData; Layout.get (L502-521); Layout.set (L502-510); Layout.addTo; Layout.eye (L668-679); Layout.localDot (L697-701); Layout.dot (L696-705); Layout.mapElements (L630-644, L707-714); Layout.combine (L646-665); Layout.eyeAll; Layout.symmetrize (L424-444); SMat; SMat.zeros (L196-212); SMat.global2Local (L320-324); SMat.local2Global (L310-318); SMat.get (L294-301); SMat.set (L286-292); foldOutcome; SMat.eye (L347-353); SMat.symmetrize (L122-138); SMat.dot (L381-388)
* **MatrixCopy**: src/algebra/Matrix.cpp, src/algebra/Matrix.h, src/algebra/PMatrix.h, src/algebra/SMatrix.h, src/bands/bandstructure.cpp: MatObj (L29-42); MatState; MatOp; deref; writePtr; deletePtr; newObj; MatObj.active; varAt; copyConstruct (L219-230, L36-42); matStep; matRun; matStart; matRead; bandCopy (L69-82)
* **MatrixProd**: src/algebra/Blas.h, src/algebra/PMatrix.cpp, src/algebra/SMatrix.cpp: Tr; opEntry; gemmEntry; gemm; SMat.prod (L3-34); GMat; GMat.op; GMat.fits; pgemm; prodSizes (L21-38, L63-80); GMat.prodReal (L10-52, L1-4); GMat.prodComplex (L54-98); Eigensolver; SMat.diagonalizeReal (L67-92); SMat.diagonalizeComplex (L36-65)
* **Mpi**: src/mpi/mpiController.cpp, src/mpi/mpiController.h: divideWork (L169-175); divideWorkIter (L177-199, L178-188); workDivHelper (L201-225); blit; mpiGatherv; allGatherv (L718-750, L666-697); mpiSum; allReduceSum2 (L518-535); allReduceSum1 (L563-582); PoolInfo (L49-79); splitRank; splitSize; poolSetup (L49-79); datatypeOffsets (L774-828); bigGatherSend (L914-941, L930); smallGatherSend (L871-886); collectSends; mpiRecvAll (L889-912); bigAllGatherV (L830-950)
* **Observable**: src/observable/observable.cpp, src/observable/observable.h, src/observable/phonon_thermal_cond.cpp: ObsKind (L63-66); ObsKind.rank; Obs; cartesianTuples (L63-96); Obs.make (L4-11); Obs.resized (L16-17); Obs.copy (L14-25); Obs.assign (L28-41); subtracted (L63-96); Obs.baseMinus (L61-97); Obs.minus (L55-59); Obs.norm (L101-140); Conductivity; Conductivity.make (L12-33); Conductivity.copy (L36-38); Conductivity.assign (L41-48); Conductivity.minus (L50-56); Conductivity.printed (L467, L493, L534)
* **Occupations**: src/bands/active_bandstructure.cpp, src/bands/bandstructure.cpp, src/bte/el_scattering.cpp, src/bte/helper_3rd_state.cpp, src/bte/ph_scattering.cpp, src/points.cpp: BteStates; occupationPart (L103-121, L67-86); occupationTables (L122, L143, L87, L109); readOccupations (L373-374, L508-509, L708-709, L309, L170-176); ThirdPhonon; Helper3; Helper3.make (L7-119); modeOccupations (L188-196, L266-277); computeThird (L253-318); Helper3.prepare (L226-319); Helper3.get (L126-224); fullBteStates (L419-462, L133-136); activeBteStates (L1077-1142); plainBteStates (L918-934)
* **Pairs**: src/bte/el_scattering.cpp, src/bte/scattering.cpp: PairItem; smatIndexInv (L1139-1147); smatIndex (L1128-1137); pairLt; pairInsert; pairsOfElement (L945-966, L1060-1081); localPairs (L936-972, L1051-1087); groupStep (L995-1007, L1110-1122); groupLoop (L995-1007, L1110-1122); groupPairs (L974-1007, L1089-1122); elPairs (L914-1008); phPairs (L1032-1124); dummyItem (L1023-1026); padTo (L1022-1028); padPool (L1016-1029); ElAction (L131-153); elIteration (L131-163); elLoop (L131)
* **ParDiag**: src/algebra/Blacs.h, src/algebra/PMatrix.cpp, src/algebra/PMatrix.h: PMat (L40-78, L247-313); EigRange (L312-316); EigCall; EigLib; Diag; nonPositives (L189-192); workLength (L146-151, L332-335); liworkAll (L131); liworkSome (L340-341); firstValues (L196-199, L254-257, L407-410); PMat.diagonalizeAll (L97-204); negativeCheck (L344-383); PMat.diagonalizeSome (L262-418); workComplex (L225-231); PMat.diagonalizeComplex (L206-260)
* **Particle**: src/particle.cpp: Statistics (L5-15); getPopulation (L64-96); getPopPopPm1 (L117-128); getDndt (L98-106); getDnde (L108-115)
* **Path**: src/apps/bands_app.cpp, src/context.cpp, src/points.cpp: vdist; Segment (L304-335); segmentCount (L78); segmentPoint (L84-86); pathTail (L67-107, L94); pathPoints (L45-107, L61-63); closePoint (L160-162); labelScan (L145-185, L160); pathEnds (L131-143); highSymIndices (L122-235)
* **PathPhTimes**: src/apps/lifetimes_app.cpp, src/bte/helper_3rd_state.cpp, src/bte/ph_scattering.cpp, src/bte/scattering.cpp, src/points.cpp: PathPhApp (L64, L37); PathPhApp.populate (L76-81); plainWave (L648-660, L250-256); withBose (L100-146); PathPhApp.third (L228-318); PathPhApp.setup (L64-72, L98); PathPhApp.updates (L330-456, L458-620, L670-760); keepUpdates (L306-326, L654-678); PathPhApp.pairRates (L280-620, L630-760); PathPhApp.processRates (L164-620, L622-795); FullBands.bteEnergies (L32-36); PathPhApp.summedRates (L59-806); FullBands.phBoundaryRates (L820-857); PathPhApp.diagonal (L91-195, L59-905, L811-817, L897-904); popFactors (L498-508, L552-562); PathPhApp.run (L59-98, L83)
* **PathThird**: src/apps/lifetimes_app.cpp, src/bte/helper_3rd_state.cpp, src/bte/ph_scattering.cpp, src/bte/scattering.cpp, src/parser/ifc3_parser.cpp: ThirdInput; parseThird (L14-35); Tensor3.averaged (L1209-1318); PathPhApp.pairCouplings (L186-283, L190, L169, L244-246, L261-265, L273-282); PathPhApp.withThird; PathPhApp.runFrom (L59-98, L67)
* **PathTimes**: src/apps/lifetimes_app.cpp, src/bands/bandstructure.cpp, src/bte/el_scattering.cpp, src/bte/scattering.cpp, src/points.cpp: PathElApp (L127); PathElApp.populate (L38-42); FullBands.elStates (L155-158, L198-200, L264, L273, L289-293); pathIndices (L133-145, L419-434, L922-924); PathElApp.setup (L64, L80-82, L127); PathElApp.pairRates (L219-386, L378-381); PathElApp.processRates (L132-389); PathElApp.summedRates (L59-397); FullBands.degPoint (L1168-1204); FullBands.boundaryRates (L409-441); PathElApp.diagonal (L91-195, L36-447, L401-405); pathLists (L694-741); pathTimesFile (L639-814); refusesTetra (L75-81); PathElApp.run (L12-58, L44)
* **PhEl**: src/bte/phel_scattering.cpp, src/bte/scattering.cpp: phelSmearing (L283-302); phelRate (L338-341, L97, L188-189); PhElData; phelAdds (L258-353); phelProcess (L9-25, L153-355); phelLinewidths (L43-364, L136-140); phelPairs (L9-25, L1016-1029)
* **PhElApp**: src/apps/ph_el_lifetimes.cpp, src/bands/active_bandstructure.cpp, src/bte/phel_scattering.cpp: PhElApp (L147); maxEnergy (L267-271); PhElApp.window (L55-66); PhElApp.select (L68-71); PhElApp.electron (L293-296); PhElApp.modeTable (L267-269, L310-317); addWavevectors (L231); PhElApp.data (L175-189, L222-233, L258-350); PhElApp.setup (L64, L85-87, L147); PhElApp.linewidths; PhElApp.file (L88-93, L36)
* **PhRates**: src/bte/ph_scattering.cpp, src/delta_function.cpp: PhState; Smearing (L181-270); cutOff (L345-354, L474-483); deltaPlus (L356-365); deltaMinus1 (L485-498, L502); deltaMinus2 (L485-498, L504); PhSetup; ratePlus (L330-380, L345-354, L367-369); rateMinus1 (L458-515, L500); rateMinus2 (L458-518); threePhononElement (L407, L542); deltaIso (L684-693, L689, L688); rateIso (L670-682, L695-713, L695-702)
* **PhVelocity**: src/harmonic/phonon_h0.cpp, src/harmonic/phonon_h0_kokkos.cpp: constDeltaQ (L921, L388); shiftQ (L924-927); sqrtD (L934-962); velDer (L964-988); rawVelocity (L909-911, L991); BandVel (L900); bandFn; bandVel (L900-901, L993-999); hostSub (L1019-1030); hostRotate (L1032-1042); hostBlock (L1018-1051); hostDegLoop (L1005-1055, L1008-1016); hostVelocity (L895-1070); devAllVectors (L390-408); devAll (L413-415); devDer (L457-476); devTmpV (L485-496); devRaw (L499-513); devVelocities (L378-532)
* **Phono3py**: src/parser/ifc3_parser.cpp, src/utilities.cpp: YamlWord; YamlLine; YamlLine.int; YamlLine.num; endLine; gridRow (L431-442); readGrid (L424-446); distanceUnit (L454-463); SupState (L468-506); YamlLine.vec; readSup (L472-506); p3Range (L125-127, L145); p3Box (L230-232, L271-273, L145-147); p3Super (L47-50); p3Rws (L40-77); p3WeightLoop (L82-94); p3Weight (L81-95, L150-156, L317-322, L329-334); p3Inserted (L138-167); p3Vectors (L169-177); Fc3File; p3Fold (L246-260, L288-302, L9); p3Folded (L263-266, L305-308); P3Entry; collect; superAtom; Fc3File.at3; p3Atoms (L312-367); p3Entries (L229-373); p3Tensor (L220-221, L358-359); p3Weights (L179-213); p3Make (L112-377, L622-640); parsePhono3py (L379-646)
* **PhononDos**: src/apps/dos_app.cpp, src/crystal.cpp, src/harmonic/phonon_h0.cpp, src/parser/qe_input_parser.cpp: PhononDosRun; PhononDosRun.harmonic (L22-116, L18-54, L33-55); PhononDosRun.ofInput (L554-556); PhononDosRun.fromEspresso (L24-57); PhononDosRun.fromPhonopy (L24-57)
* **PhononRun**: src/apps/bands_app.cpp, src/crystal.cpp, src/harmonic/phonon_h0.cpp, src/parser/phonopy_input_parser.cpp, src/parser/qe_input_parser.cpp: HarmonicInput (L550-563, L564-566); FcParsed.toInput (L440-475, L550-563); PhonopyData.toInput (L472-566); BandsRun; harmonicRun (L22-116, L18-54, L27-41); bandsOfInput (L554-556); bandsFromEspresso (L19-45); bandsFromPhonopy (L19-45)
* **Phonopy**: src/parser/phonopy_input_parser.cpp: PhLine; PhLine.blank; phEnd; phMatrix (L80-93, L101-114); phDims (L73-116); symbolKey; afterKey; symbolOf (L154-158); CellState (L143-216); CellState.init (L44, L126-138); CellState.addSpecies (L154-167); unitLine (L151-190); primLine (L191-207); readCell (L143-216); phSup (L234-266); BornLine; streamNumbers; BornState (L366-390); bornNine (L383-388); readBorn (L366-390); bornFile (L340-407); bornOf (L331-343); findRIndex (L21-33); Fc2File; fc2Atom; Fc2File.at2; fc2Block (L524-552); Fc2Entry; phCells (L487-489); phEntries (L473-557); PhonopyData; PhonopyData.force; parsePhonopy (L36-586)
* **PointSum**: src/points.cpp, src/points.h: PointRef (L63-65); getPoint (L218, L26); CoordBasis (L8-9); PointRef.getCoordinates (L648-660); PointRef.hasUmklapp (L662-668); pointAt (L674-678, L685-689); PointRef.plus (L670-679); PointRef.minus (L681-690); PointRef.assign (L638-646, L195-216)
* **Points**: src/points.cpp, src/points.h, src/utilities.cpp: V3; V3.get; cround; imod (L9); eps6; meshCoordinates (L230-240); isPointStoredMesh (L406-424, L414, L418); innermostSearch (L270-295); expandDown (L328-345); expandUp (L346-358); tailDist2 (L332-336, L348-352); coordAt; internalSearch (L312-359); pointsBinarySearch (L371-402); Points; setMesh (L528-557); Points.getPointCoordinates (L222-248); notIncreasing (L156-161); sortedFlag (L140, L156-161); Points.setActiveLayer (L126-176, L129-131, L150-153, L165-167); fold1 (L434, L514); linearSearch (L439-451); Points.isPointStored (L404-453); Points.getIndex (L250-256); foldToBz (L498-522); M3; gVectors (L24-43); wsLoop (L481-489); bzToWs (L466-496, L491-494)
* **QeForce**: src/parser/qe_input_parser.cpp: FcLine (L365-384); fcGetLine; loopRead; fcThree; fcRow (L440-444, L499-503, L509-513); fcSpecies (L455-458); fcAtom (L466-474); fcBorn (L507-515); fcExtract (L538-539); fcValue (L537-540); fcBlock (L531-543); fcDirection (L523-547); FcParsed (L550-551, L562-563); FcParsed.elem; fcDielectric (L478-516); fcAxes (L435-446); fcHeader (L407-433); parsePhHarmonic (L386-566, L553-555)
* **QeLattice**: src/parser/qe_input_parser.cpp: sr2 (L52); sr3 (L52); Axes; qeNorm; freeLattice (L58-75, L79-81); indexLattice (L71-359, L79-81, L289); getQELattice (L18-366)
* **Report**: src/constants/constants.h, src/observable/onsager.cpp, src/observable/phonon_thermal_cond.cpp, src/observable/specific_heat.cpp, src/observable/viscosity_io.cpp, src/observable/wigner_phonon_thermal_cond.cpp: Item; Line; ReportUnits; tableLines (L488-496); tableFile (L626-634); sigmaUnit (L445-462, L585-602); kappaUnit (L445-462, L585-602); OnsagerTensors; titledTable (L486-498); onsagerBody (L480-539); onsagerHeader (L476-478); onsagerPrint (L441-541); OnsagerFile; onsagerFile (L581-695); onsagerIteration (L557-577); onsagerPrintIter (L543-579); temperatureLine (L459-462); phononPrint (L448-473, L165-190); PhononFile; phononFile (L475-511); phononPrintIter (L512-540); heatUnit (L75-82, L112-119); heatPrint (L71-106); HeatFile; heatFile (L108-144); viscosityUnit (L204-216, L260-263); viscosityLabel (L239-241); viscosityRows (L236-250); viscosityPrint (L198-255); ViscosityFile; viscosityFile (L252-309)
* **Requirements**: src/apps/app.cpp, src/apps/bands_app.cpp, src/apps/dos_app.cpp, src/apps/electron_wannier_transport_app.cpp, src/apps/elph_plot_app.cpp, src/apps/elph_qe_to_phoebe_app.cpp, src/apps/lifetimes_app.cpp, src/apps/ph_el_lifetimes.cpp, src/apps/phonon_transport_app.cpp, src/apps/transport_epa_app.cpp, src/context.h: InputVars (L22-130); InputVars.needs (L81-106, L115-134); needsInteger (L94-98); needsMesh (L106-111); InputVars.needsSmearing (L107-110); InputVars.needsPotentials (L111-114); InputVars.needsPotentialsOrRange (L262-268); InputVars.needsCouplingOrFilling (L247-260, L112-125); InputVars.needsPlotPoints (L395-399); InputVars.needsInterpolation (L53-58); checkRequirements
* **RotationFile**: src/apps/qe_to_phoebe_wannier.cpp: FileWord; TextStream; nextWord; dropLine; readWordDouble; readWordInt; RotTensor; RotTensor.set; RotTensor.get; readRotationEntry (L832-833, L884-885); rotationPairs (L830-831, L882-883); readRotationPoint (L820-836, L870-888); readRotationHeader (L809-813, L854-858); readRotationBody (L817-838, L863-890); rotationTerm (L913-915); rotationElement (L913-915, L896); rotationTensorProduct (L894-919); setupRotationMatrices (L795-920, L815, L860, L861)
* **RtaRun**: src/apps/electron_wannier_transport_app.cpp, src/apps/phonon_transport_app.cpp, src/bte/drift.cpp, src/bte/scattering.cpp, src/bte/vector_bte.cpp, src/observable/phonon_thermal_cond.cpp: RtaSetup; RtaSetup.numCalc; RtaSetup.excluded (L25-34); RtaSetup.drift (L3-59); RtaSetup.times (L484-527); elementsOf3; phononRta (L120-134, L133, L134, L456); onsagerElements; electronRta (L91-101, L100, L101)
* **RunCoupling**: src/apps/qe_to_phoebe_utils.cpp, src/apps/qe_to_phoebe_wannier.cpp, src/interaction/interaction_elph.cpp, src/interaction/interaction_elph_parsing.cpp, src/mpi/mpiController.cpp: couplingAtNumbers; tensorMemory (L729-731); headerOf (L375-444); ProcessCoupling; readCoupling (L163-270, L284-525); readPoolCoupling (L52-78); readCoupling2 (L163-270, L527-640); readPoolCoupling2 (L52-78); deviceData (L34-58); poolCache (L492-701)
* **ScatMatrix**: src/bte/el_scattering.cpp, src/bte/ph_scattering.cpp, src/bte/scattering.cpp: ScatEvent (L377-432, L512-574, L704-769, L313-380); addAt; cart9; matrixEvent (L382-409, L520-544, L716-742, L332-355); matrixProcess; matrixLoops; finishLinewidth (L820-847, L865-890, L409-431); zeroExcluded (L868-892); placeDiagonal (L910-934, L452-477, L613-636); onProcesses; buildMatrix; productEvent (L411-432, L546-573, L744-769, L356-380); buildProduct (L820-860, L433-440, L893-899); buildLinewidths (L434, L575, L771, L381-384, L811-812); elementAdds (L285-320, L195-222); threadAdds; processAdds (L225-230, L322-327); storedProduct (L271-331, L181-235); dotStored (L294-297, L311-314); offDiagonalDotStored (L203, L216); offDiagonalDotFly (L236-249); a2OmegaElement (L389-432); a2OmegaLoops; ScatState; a2Omega (L366-434); setDiagonal (L570-637); setLinewidths (L613-636); getLinewidths (L529-568)
* **Sheng**: src/interaction/interaction_3ph.cpp, src/parser/ifc3_parser.cpp: FcToken; FcToken.value; FcStream; FcStream.next; ShengTriplet (L681-686); shengPosition (L695-712); leadingInts; shengAtoms (L714-722); shengEntry (L731-735); shengEntries (L724-738); readTriplet (L688-739); readTriplets (L688-739); distinctCells (L751-784); norm3; findIndexRow (L98-110); fc3Address; directions; writeTriplet (L814-825); fillFc3 (L800-826); parseSheng (L648-841, L797, L822, L53-62)
* **Solvers**: src/apps/electron_wannier_transport_app.cpp, src/apps/phonon_transport_app.cpp, src/bte/vector_bte.cpp, src/observable/onsager.cpp, src/observable/phonon_thermal_cond.cpp, src/utilities.cpp: relativeEntries (L87); relativeChange (L80-102); scaleByState (L292-329); bosePop; canonical2Population (L292-309); population2Canonical (L311-329, L313-315); phCanonicalCond (L58-62); ominiStep (L218-219, L514-519); phOminiLoop (L216-240); phOmini (L197-246); elOminiLoop (L507-542); matNat; bteDot (L66-111); cgRatio (L303-316, L327-339); CgState; cgStart (L270-283, L309-329); cgStep (L291-350, L337-400); variationalTerm (L169-201, L741-783); calcVariational (L148-233, L706-805); phCgLoop (L287-373, L353); phVariational (L248-385); elCgLoop (L333-450); elVariational (L270-462); keepRelaxon (L268-274, L349-351); keptStates; relaxonAdds; relaxonPopulation (L355-418, L342-386); phRelaxonSource (L371-382); elRelaxonSource (L354-359); elRelaxonSourceT (L360-361); phRelaxons (L237-440); elRelaxons (L324-382); elRelaxonPair (L324-384)
* **SumRule**: src/harmonic/phonon_h0.h, src/harmonic/phonon_h0_sum_rule.cpp: ZVec; FcIx (L244); FcVec (L244); simpleCharges (L49-60); simpleForcesStep (L64-77); fcRows (L64-66); simpleForces (L62-79); ZeuVec (L88); spZeu (L651-666); zeuU (L100-112); zeuStep (L130-181); crystalCharges (L81-236); oppositeCell (L358-360); mirror (L358-365); fcOrder (L298-304); symStep (L305-367); symPairs (L287-375); symScalar (L397-407, L525-535); symSubtract (L409-418); symProject (L396-419); transLabels (L263-285); transVec (L269-281); decodeAtom (L423-426); decodeDir (L427-428); rowScalar (L445-458); fcStep (L384-515); fcBasis (L377-515); crystalForces (L238-640, L537-546); setAcousticSumRule (L8-649)
* **Summary**: src/context.cpp: Echo; echo; echoList (L813-820); appHas; textOf; crystalSummary (L833-836); pathSummary (L919, L1061); couplingSummary (L856-946); windowSummary (L1001-1005); temperaturesSummary (L1011, L1109); rangeSummary (L1011-1018, L1109-1116); potentialSummary (L1022-1038, L1117-1135); transportSummary (L953-1047); dosSummary (L1050-1062); bandsSummary (L1065-1090); epaSummary (L1093-1139); inputSummary (L823-1151)
* **Sweep**: src/exceptions.cpp, src/observable/observable.cpp, src/observable/specific_heat.cpp, src/statistics_sweep.cpp, src/statistics_sweep.h, src/utilities.h: sweepRange (L33-39, L155-161); CalcRow; fillCalcTable (L175-186, L192-203, L169-170); Sweep; phononSweep (L43-52); electronSweep (L169-210, L145-163); Sweep.getCalc (L391-397); Sweep.getCalc2 (L399-404); observableIndex (L44-46); observableGet (L150-153); RedOp; Prog (L6-16); reduceOp; allRet; allRed; allErr; runAll; SearchData; SearchData.electrons (L280); sgn (L17-19); popSum (L244-256); fPopProg (L239-265); bisectProg (L340-361, L341-343); maxIter (L112); listMin (L315); findMuProg (L267-362); findDoping (L364-389)
* **SymScat**: src/bte/el_scattering.cpp, src/bte/ph_scattering.cpp, src/points.cpp: Process; fullEvent (L927-944); Reduction; irrEvent (L285-303, L235-275); irrProcesses
* **ThirdState**: src/bte/el_scattering.cpp, src/bte/helper_3rd_state.cpp, src/bte/helper_el_scattering.cpp, src/bte/ph_scattering.cpp: phThirdVectors (L57-63); elThirdVectors (L84-100); toSet; thirdIndexes (L65-69, L102-103); threadSet (L50-72, L79-106); RegionRun (L48-75); localCounts (L77-79); thirdPoints (L77-112, L111-146); phThird (L130-137, L157-158, L179-180); elThird (L232-250); ThirdCache; prepareCache (L228-318, L292-352); ThirdCache.get (L202-221, L278-284); batch (L195-199, L221, L172-199); batches (L195)
* **Times**: src/apps/transport_epa_app.cpp, src/bte/scattering.cpp, src/constants/constants.h, src/context.cpp: TimeConstants (L22-33); timeAuToFs (L30, L48); energyRyToFs (L49); energyRyToEvOf (L43); TimeUnit; parseTime (L77-82, L613-614); constantRTA (L52-54); timesOf (L484-513); linewidthsOf (L529-568, L532); printedTime (L652-672, L722-725); printedRelaxonTime (L820, L832-855); printedEpa (L316-318, L346-353)
* **TimesFile**: src/bte/scattering.cpp, src/constants/constants.h: FileUnits; TimesInput; stateLists (L706-741, L753-768); TimesOutput (L786-809); calcLists; readScaled; fileEnergy (L720-722); fileVelocity (L721, L729-734); fileUN (L746-774); timesFile (L639-814)
* **Transport**: src/bte/drift.cpp, src/constants/constants.h, src/observable/onsager.cpp, src/observable/phonon_thermal_cond.cpp, src/observable/specific_heat.cpp, src/statistics_sweep.h: BandView; CalcStat; threadSum; stateSum; assignStates (L13-27); bulkDrift (L3-29, L31-59); vec3Of; lowVec (L100-103); phTerm (L82-112); phTensor (L64-142); phCalcFromPopulation (L103); LTensors; onsagerTerm (L186-222); viewFits (L170-177); onsagerTensors (L156-267, L225-228); TransportCoefficients; transportCoefficients (L270-318); onsagerFromPopulation (L156-268); scaleState (L135-150); scaleSymmetric (L129-152); symmetricTensor (L129-154); epaLoop (L93-113); onsagerFromEPA (L79-117, L86); heatTerm (L53-67); specificHeat (L31-70); SiConstants (L20-32); SiConstants.elConductivity (L67); SiConstants.thConductivity (L65); convSigma (L445-462, L585-602); convKappa (L445-462, L585-602); phCondConversion (L19-32); heatConversion (L85, L122); jsonMobility (L612-669); jsonList (L612-675)
* **TransportRun**: src/apps/app.cpp, src/apps/electron_wannier_transport_app.cpp, src/apps/phonon_transport_app.cpp, src/bte/el_scattering.cpp, src/bte/phel_scattering.cpp, src/bte/scattering.cpp, src/bte/scattering.h, src/context.cpp, src/context.h, src/crystal.cpp, src/delta_function.cpp, src/interaction/interaction_elph.cpp, src/interaction/interaction_elph.h, src/main.cpp, src/observable/viscosity_io.cpp: RunSettings (L18-130); RunWorld; MatrixSource; RunEvent; ScatObject (L190-230); isConstantRTA (L52); SolverFlags; flagOf (L152-156, L138-145); solverFlags; require; inputSanityCheck (L772-803); gridGiven (L108-113); phononRequirements (L521-540); electronRequirements (L250-279); makeScattering (L14-82, L20-33, L24-42, L19-32); callBuilder (L64, L34); setupScattering (L92-162); scatProduct (L181-364); scatRescale (L366-434); scatDiagonalize (L871-905); solverLoop (L216-241, L286-382); iterativePart (L195-248, L470-554); variationalPart (L250-365, L281-467); solverChecks (L158-193, L147-184); phononRelaxons (L367-400, L314-451); electronRelaxons (L196-241); onlyIf; phononElectronPart (L76-101, L406-519); phononRun (L771, L36-45, L18-402); electronRun (L13-248, L30-32, L126-128)
* **Utilities**: src/utilities.cpp, src/utilities.h: cmod (L9); compress3Indices (L11-15); decompress3Indices (L17-27); compress2Indices (L29-33); decompress2Indices (L35-41); splitVectorLoop (L114-124); splitVector (L108-127); scanDiff (L88-97); findMaxRelativeDifference (L80-102); isTokenSep (L108); regexSplit (L108-110); tokenize (L105-118)
* **VectorBte**: src/bands/bandstructure.cpp, src/bte/vector_bte.cpp: VBte; VBte.numCalc; VBte.numRows (L17-18); VBte.mk' (L5-35); VBte.get (L333-342); VBte.glob2Loc (L344-349); VBte.loc2Glob (L351-359); VBte.partnerRow (L146-149); VBte.baseOperator (L113-175); VBte.mapData (L183-189, L258-262, L269-273); VBte.scaleCalc (L192-206); VBte.reciprocal (L275-290); sliceOf (L464-473); dotTerm (L84-106, L85); VBte.dot (L66-111); threadProduct (L224-234); processProduct (L221-241); VBte.timesMatrix (L209-245)
* **VectorEpa**: src/bte/vector_epa.cpp: VBte.epaMake (L4-27); VBte.epaBase (L77-123); VBte.epaTimes (L130-136); VBte.epaScale (L139-146); epaProcess (L159-165); VBte.epaTimesMatrix (L149-169); epaDotStep (L67-69); VBte.epaDot (L55-73); EpaObject; EpaObject.copy (L30-39); EpaObject.assign (L42-54, L44)
* **Viscosity**: src/constants/constants.h, src/observable/electron_viscosity.cpp, src/observable/phonon_viscosity.cpp, src/observable/viscosity_io.cpp: Tensor4; WaveView; viscStar (L52-75, L50-73); phViscTerm (L34-76); phViscosityRta (L19-78); elViscTerm (L40-74); elViscosityRta (L25-76); specialSkip (L117, L154, L172); specialSum (L111-134, L149-162); rescale; SpecialVectors; specialVectors (L62-184, L79-87); LocalPairs; overlaps (L15-27); argMax; specialIndex (L9-60, L42, L46); phRelaxonW (L127-170); phRelaxonTerm (L184-209); phViscosityRelaxons (L127-213); elSkip (L122-123, L149-150); elRelaxonPop (L114-138); elStatePop (L142-158); elRelaxonTerm (L164-183); elViscosityRelaxons (L114-185, L122, L149); momentumDissipation (L337-357); specialVelocity (L359-376); realSpaceHeatConversion (L426); viscosityConversion (L66)
* **WannierDos**: src/apps/dos_app.cpp, src/crystal.cpp, src/harmonic/electron_h0_wannier.cpp, src/parser/qe_input_parser.cpp: WannierDosApp; WannierDosApp.bands (L361-437, L74-75, L384); WannierDosApp.run (L59-91, L883-1063, L22-116)
* **WannierFile**: src/parser/qe_input_parser.cpp: Token; TextLine; getLine; intOf; doubleOf; tokInt; tokDouble; lineInt; readMany; tbCellLine (L914-920); tbDegLine (L949-955); tbNumLines (L933-934); tbElement (L982-986); tbPosition (L1005-1015); tbMatrix (L980-989, L1003-1018); tbHam (L969-990); tbPos (L995-1019); rowAt; TbResult; parseTb (L884-1030); setShift; wsShiftLines (L862-876); wsIndex (L857-861); wsVecLoop (L850-877); parseWsVec (L810-881); parseWannier (L884-1040)
* **WannierRun**: src/apps/bands_app.cpp, src/crystal.cpp, src/harmonic/electron_h0_wannier.cpp, src/parser/qe_input_parser.cpp: WannierApp; elKernel (L855-875); populatedView (L402-413); WannierApp.run (L47-72, L883-1063, L22-116, L361-437, L384)
* **Wigner**: src/bte/scattering.cpp, src/bte/vector_bte.cpp, src/observable/wigner_electron.cpp, src/observable/wigner_phonon_thermal_cond.cpp: PointView; recipTime (L506, L281-285); wignerBose (L50-63); wignerPhPair (L101-118); rotateComplex (L73-83); wignerPhTerm (L42-122); wignerPhonon (L5-124); wignerFE (L73-81); wignerFT (L82-83); wignerFlux (L102-107); wignerElTerm (L28-116); wignerElSum (L30-122); wignerElNorm (L25-26); wignerLEE (L108); wignerLET (L109); wignerLTE (L110-111); wignerLTT (L112-113)
* **Window**: src/bands/active_bandstructure.cpp, src/bands/window.cpp: selectLoop (L121-128, L143-149); bandExtrema (L129-132, L151-154); internalEnWindow (L137-157); internalPopWindow (L113-135); WindowMethod (L18-29, L31-78); windowCtor (L18-78, L62-63); windowApply (L81-111); keptBands (L570-580, L640)
* **XmlBands**: src/bands/bandstructure.cpp, src/parser/qe_input_parser.cpp, src/points.cpp: meshSet (L574-585); meshSingle (L593-604); meshDelta (L610-616); findMesh1 (L572-620); findMesh (L562-626); KsEnergies; XmlBands; xmlRow (L716-757); xmlFill (L780-787, L312-322); xmlBands (L672-787)

## Not modelled

* Files in the formats of other programs: the characters of a file are not parsed into words and numbers; the models start from lines of words, or from
  the arrays of an HDF5 file. On these, the files of Wannier90 (C107, C108, C188), the electron-phonon coupling (C121, C147, C148, C164, C186, C190, C191), the force
  constants of ShengBTE (C149), phono3py (C150), Quantum ESPRESSO (C151, C152) and phonopy (C154, C192), and the bands of Quantum ESPRESSO (C153) are modelled.
* The formats of the coupling without HDF5 (the code does not compile without it), and the test functions of `qe_to_phoebe_utils.cpp` that are not called.
* Eigensolvers and linear solvers (LAPACK, ScaLAPACK, Eigen): parameters with the contract stated in the theorems.
* Of the electron-phonon interaction in Wannier space (`interaction_elph.cpp`): copies and device memory layout.
* Timing and logging.
* Rounding of floating-point numbers, NaN and infinities (mentioned in the comments where they change the behaviour).
* The build system, the Kokkos back ends and the memory model of the hardware.

## Axioms

`#print axioms` on the theorems of MANIFEST.json gives subsets of `propext`, `Classical.choice`, `Quot.sound`.
`decide +kernel` is used for closed decidable goals (witnesses and examples): it is evaluated by the kernel and adds no
axiom.

## Tests against wrong programs

`seeded/LOG.jsonl` records, for each edit of the model, the theorems that failed, and those tightened when nothing
failed. Entries marked as not valid did not compile and are repeated with an edit that does.
