{
 "claims": [
  {
   "property": "C01",
   "status": "proved",
   "theorems": [
    "Verif.Props.C01_pair_roundtrip",
    "Verif.Props.C01_pair_surjective",
    "Verif.Props.C01_pair_injective",
    "Verif.Props.C01_triple_roundtrip",
    "Verif.Props.C01_triple_surjective",
    "Verif.Props.C01_overflow_without_bound"
   ],
   "note": "Checked 32-bit arithmetic; size bound shown necessary."
  },
  {
   "property": "C02",
   "status": "proved",
   "theorems": [
    "Verif.Props.C02_mod_spec",
    "Verif.Props.C02_mod_large_modulus_overflows",
    "Verif.Props.C02_mod_zero"
   ],
   "note": "Requires 2b-1 <= INT_MAX, shown necessary."
  },
  {
   "property": "C03",
   "status": "proved",
   "theorems": [
    "Verif.Props.C03_split",
    "Verif.Props.C03_zero_chunk_diverges"
   ],
   "note": "Includes non-termination for chunk size 0."
  },
  {
   "property": "C04",
   "status": "partial",
   "theorems": [
    "Verif.Props.C04_violated",
    "Verif.Props.C04_returns_minimum",
    "Verif.Props.C04_uniform_partial"
   ],
   "note": "False of the code: the function returns the minimum (utilities.cpp L92). Negation proved; partial for uniform differences."
  },
  {
   "property": "C05",
   "status": "proved",
   "theorems": [
    "Verif.Props.C05_tokenize",
    "Verif.Props.C05_tokens_unique"
   ],
   "note": "Full specification by maximal runs, shown unique."
  },
  {
   "property": "C06",
   "status": "proved",
   "theorems": [
    "Verif.Props.C06_partition",
    "Verif.Props.C06_balance",
    "Verif.Props.C06_start_stop"
   ],
   "note": "64-bit wrap-around modelled; requires n*size < 2^64."
  },
  {
   "property": "C07",
   "status": "proved",
   "theorems": [
    "Verif.Props.C07_gather",
    "Verif.Props.C07_mismatch"
   ],
   "note": "Array length must fit in int."
  },
  {
   "property": "C08",
   "status": "proved",
   "theorems": [
    "Verif.Props.C08_rejects",
    "Verif.Props.C08_accepts",
    "Verif.Props.C08_partition"
   ],
   "note": ""
  },
  {
   "property": "C09",
   "status": "partial",
   "theorems": [
    "Verif.Props.C09_datatype",
    "Verif.Props.C09_datatype_counts",
    "Verif.Props.C09_gather_partial",
    "Verif.Props.C09_violated",
    "Verif.Props.C09_violated_one_process"
   ],
   "note": "False on sub-communicators with >= INT_MAX elements (mpiController.h L930 uses the world rank), and on one process with 2^32 or more elements, where an unsigned int counter wraps and the loop does not end. Negations proved; partial otherwise."
  },
  {
   "property": "C10",
   "status": "partial",
   "theorems": [
    "Verif.Props.C10_sum_partial",
    "Verif.Props.C10_violated"
   ],
   "note": "False on one process (mpiController.h L522). Negation proved; partial for >= 2 processes."
  },
  {
   "property": "C11",
   "status": "proved",
   "theorems": [
    "Verif.Props.C11_fill_reduce"
   ],
   "note": ""
  },
  {
   "property": "C12",
   "status": "proved",
   "theorems": [
    "Verif.Props.C12_lookup",
    "Verif.Props.C12_injective",
    "Verif.Props.C12_complete"
   ],
   "note": "Exact rational coordinates; every mesh size and offset."
  },
  {
   "property": "C13",
   "status": "partial",
   "theorems": [
    "Verif.Props.C13_violated",
    "Verif.Props.C13_reject_partial"
   ],
   "note": "False: the tolerance is tested with an absolute norm on the squared residual (points.cpp), so clearly off-mesh points are accepted. Negation proved; partial for points further than the tolerance."
  },
  {
   "property": "C14",
   "status": "partial",
   "theorems": [
    "Verif.Props.C14_violated",
    "Verif.Props.C14_bad_mesh_partial"
   ],
   "note": "False: the offset test uses && (points.cpp L540). Negation proved; partial: bad mesh sizes are rejected."
  },
  {
   "property": "C15",
   "status": "partial",
   "theorems": [
    "Verif.Props.C15_filter_partial",
    "Verif.Props.C15_full_filter_partial",
    "Verif.Props.C15_negative_partial",
    "Verif.Props.C15_violated_unsorted",
    "Verif.Props.C15_violated_offset",
    "Verif.Props.C15_violated_fine",
    "Verif.Props.C15_violated_permutation",
    "Verif.Props.C15_violated_range"
   ],
   "note": "False for unsorted filters not detected as unsorted, offsets larger than the mesh spacing, permuted full-length filters, out-of-range indices and meshes of more than 1000 points along a direction. Negations proved; partial for the other cases."
  },
  {
   "property": "C16",
   "status": "proved",
   "theorems": [
    "Verif.Props.C16_fold",
    "Verif.Props.C16_wigner_seitz_equivalent"
   ],
   "note": ""
  },
  {
   "property": "C17",
   "status": "partial",
   "theorems": [
    "Verif.Props.C17_violated",
    "Verif.Props.C17_shortest_partial"
   ],
   "note": "False for skewed cells (the 8 all-positive lattice vectors are never tried, points.cpp L33). Negation proved; partial: best among all the other vectors within 4e-8."
  },
  {
   "property": "C18",
   "status": "proved",
   "theorems": [
    "Verif.Props.C18_stars",
    "Verif.Props.C18_mesh_lookup",
    "Verif.Props.C18_second_call"
   ],
   "note": "Any finite lattice-preserving group, any point list whose lookup is right on rotated points, any process count. Second call covered too."
  },
  {
   "property": "C19",
   "status": "proved",
   "theorems": [
    "Verif.Props.C19_maps"
   ],
   "note": ""
  },
  {
   "property": "C20",
   "status": "proved",
   "theorems": [
    "Verif.Props.C20_weighted_sum"
   ],
   "note": ""
  },
  {
   "property": "C21",
   "status": "proved",
   "theorems": [
    "Verif.Props.C21_reachable",
    "Verif.Props.C21_unique_owner",
    "Verif.Props.C21_global_local_global",
    "Verif.Props.C21_local_global_local",
    "Verif.Props.C21_partition"
   ],
   "note": "Every shape, block size and process grid; ScaLAPACK index routines modelled from their documented definitions."
  },
  {
   "property": "C22",
   "status": "partial",
   "theorems": [
    "Verif.Props.C22_violated",
    "Verif.Props.C22_violated_blocks",
    "Verif.Props.C22_lists_partial"
   ],
   "note": "False with more than one block per process or one-row blocks (PMatrix.h L608-628 passes a 0-based index to a 1-based routine). Negations proved; partial for one block per process."
  },
  {
   "property": "C23",
   "status": "proved",
   "theorems": [
    "Verif.Props.C23_nonlocal",
    "Verif.Props.C23_local",
    "Verif.Props.C23_accumulate",
    "Verif.Props.C23_spmd"
   ],
   "note": ""
  },
  {
   "property": "C24",
   "status": "partial",
   "theorems": [
    "Verif.Props.C24_get_set",
    "Verif.Props.C24_bounds",
    "Verif.Props.C24_zeros",
    "Verif.Props.C24_violated",
    "Verif.Props.C24_eye_partial"
   ],
   "note": "False for eye(), which leaves off-diagonal elements (SMatrix.h L347-353). Negation proved; storage part proved in full."
  },
  {
   "property": "C25",
   "status": "proved",
   "theorems": [
    "Verif.Props.C25_serial",
    "Verif.Props.C25_serial_symmetric",
    "Verif.Props.C25_distributed",
    "Verif.Props.C25_nonsquare"
   ],
   "note": "Exact rational arithmetic."
  },
  {
   "property": "C26",
   "status": "partial",
   "theorems": [
    "Verif.Props.C26_dot_partial",
    "Verif.Props.C26_violated",
    "Verif.Props.C26_serial"
   ],
   "note": "False on one process (returns 0). Negation proved; partial for >= 2 processes."
  },
  {
   "property": "C27",
   "status": "proved",
   "theorems": [
    "Verif.Props.C27_roundtrip",
    "Verif.Props.C27_surjective"
   ],
   "note": "Checked 32-bit arithmetic, provided the number of states fits an int."
  },
  {
   "property": "C28",
   "status": "proved",
   "theorems": [
    "Verif.Props.C28_roundtrip",
    "Verif.Props.C28_surjective",
    "Verif.Props.C28_order",
    "Verif.Props.C28_count"
   ],
   "note": "Every profile of band counts, including empty wavevectors."
  },
  {
   "property": "C29",
   "status": "proved",
   "theorems": [
    "Verif.Props.C29_energies",
    "Verif.Props.C29_getEnergies",
    "Verif.Props.C29_eigenvectors",
    "Verif.Props.C29_velocities",
    "Verif.Props.C29_no_overflow"
   ],
   "note": "Every history of writes; bounds of all offsets by the array sizes."
  },
  {
   "property": "C30",
   "status": "proved",
   "theorems": [
    "Verif.Props.C30_active",
    "Verif.Props.C30_active_star",
    "Verif.Props.C30_full"
   ],
   "note": "Both kinds of band structure; the symmetry-related part assumes related points keep equally many bands (buildAsPostprocessing filters on the representative)."
  },
  {
   "property": "C31",
   "status": "proved",
   "theorems": [
    "Verif.Props.C31_energies",
    "Verif.Props.C31_bands",
    "Verif.Props.C31_unsorted",
    "Verif.Props.C31_ctor"
   ],
   "note": "Every list of band energies; sorted energies give the smallest enclosing band interval, unsorted ones an interval that still contains all selected bands."
  },
  {
   "property": "C32",
   "status": "partial",
   "theorems": [
    "Verif.Props.C32_extremes_partial",
    "Verif.Props.C32_phonons",
    "Verif.Props.C32_violated"
   ],
   "note": "False for a state between widely separated chemical potentials: only the smallest and largest ones are tested (window.cpp apply). Negation proved; partial outside the open interval of the chemical potentials, and in full for phonons."
  },
  {
   "property": "C33",
   "status": "partial",
   "theorems": [
    "Verif.Props.C33_all_bands_partial",
    "Verif.Props.C33_violated"
   ],
   "note": "False: the returned energies are not filled in (window.cpp apply, method nothing). Negation proved; the returned band interval is proved."
  },
  {
   "property": "C34",
   "status": "proved",
   "theorems": [
    "Verif.Props.C34_threads",
    "Verif.Props.C34_no_deadlock",
    "Verif.Props.C34_active",
    "Verif.Props.C34_on_the_fly",
    "Verif.Props.C34_postprocessing",
    "Verif.Props.C34_energies"
   ],
   "note": "Every thread interleaving of the filter loop and every process count; allReduce and gather as modelled in Mpi."
  },
  {
   "property": "C35",
   "status": "proved",
   "theorems": [
    "Verif.Props.C35_accepts",
    "Verif.Props.C35_points",
    "Verif.Props.C35_states"
   ],
   "note": "Every band count, point count and process count up to the number of points; more processes are refused."
  },
  {
   "property": "C36",
   "status": "partial",
   "theorems": [
    "Verif.Props.C36_chemical_potentials_partial",
    "Verif.Props.C36_dopings_partial",
    "Verif.Props.C36_phonons",
    "Verif.Props.C36_violated"
   ],
   "note": "Proved for phonons, for given dopings, and for given chemical potentials. False when both lists are given (statistics_sweep.cpp L169-210 fills nothing): negation proved."
  },
  {
   "property": "C37",
   "status": "proved",
   "theorems": [
    "Verif.Props.C37_range",
    "Verif.Props.C37_no_step"
   ],
   "note": "Proved; a step that is not positive makes the expansion endless (C37_no_step)."
  },
  {
   "property": "C38",
   "status": "proved",
   "theorems": [
    "Verif.Props.C38_root",
    "Verif.Props.C38_bracket",
    "Verif.Props.C38_unique",
    "Verif.Props.C38_roundtrip"
   ],
   "note": "Proved in exact arithmetic for every distribution of states over processes."
  },
  {
   "property": "C39",
   "status": "partial",
   "theorems": [
    "Verif.Props.C39_collective_partial",
    "Verif.Props.C39_same_value_partial",
    "Verif.Props.C39_violated"
   ],
   "note": "False in the corner case of no electrons (or full bands) at zero temperature: every process returns its own local extremum; negation proved. Partial otherwise, for brackets below 1e-8*2^98."
  },
  {
   "property": "C40",
   "status": "partial",
   "theorems": [
    "Verif.Props.C40_lookup_partial",
    "Verif.Props.C40_violated"
   ],
   "note": "False with several temperatures and several chemical potentials (observable.cpp L44-46 transposes the index): negation proved; partial when one of the two counts is 1."
  },
  {
   "property": "C41",
   "status": "partial",
   "theorems": [
    "Verif.Props.C41_bounds",
    "Verif.Props.C41_even_partial",
    "Verif.Props.C41_almost_even",
    "Verif.Props.C41_violated"
   ],
   "note": "False beyond six widths: only the positive side is cut (delta_function.cpp L41). Negation proved; the two sides differ by at most exp(-36) of the peak."
  },
  {
   "property": "C42",
   "status": "proved",
   "theorems": [
    "Verif.Props.C42_nonneg",
    "Verif.Props.C42_even_energy",
    "Verif.Props.C42_even_velocity",
    "Verif.Props.C42_support"
   ],
   "note": ""
  },
  {
   "property": "C43",
   "status": "partial",
   "theorems": [
    "Verif.Props.C43_nonneg",
    "Verif.Props.C43_outside",
    "Verif.Props.C43_order",
    "Verif.Props.C43_tetra_integral",
    "Verif.Props.C43_integral_partial",
    "Verif.Props.C43_violated_integral"
   ],
   "note": "The integral is one only up to the zeroing of weights below 1e-12 (delta_function.cpp L262); exact for each tetrahedron. `C43_violated_integral`: corners so far apart that all the weights are below the cutoff have no weight at all."
  },
  {
   "property": "C44",
   "status": "proved",
   "theorems": [
    "Verif.Props.C44_cover",
    "Verif.Props.C44_disjoint",
    "Verif.Props.C44_volume"
   ],
   "note": ""
  },
  {
   "property": "C45",
   "status": "proved",
   "theorems": [
    "Verif.Props.C45_fermi_range",
    "Verif.Props.C45_bose_range",
    "Verif.Props.C45_bose_product",
    "Verif.Props.C45_fermi_product",
    "Verif.Props.C45_fermi_dnde",
    "Verif.Props.C45_bose_dnde",
    "Verif.Props.C45_fermi_dndt",
    "Verif.Props.C45_bose_dndt",
    "Verif.Props.C45_symmetrized",
    "Verif.Props.C45_zero_temperature"
   ],
   "note": "Real arithmetic."
  },
  {
   "property": "C46",
   "status": "partial",
   "theorems": [
    "Verif.Props.C46_detailed_balance",
    "Verif.Props.C46_symmetric_partial",
    "Verif.Props.C46_isotope_partial",
    "Verif.Props.C46_rates_agree_partial",
    "Verif.Props.C46_rate_balance",
    "Verif.Props.C46_energy_tetra",
    "Verif.Props.C46_nonneg",
    "Verif.Props.C46_violated"
   ],
   "note": "False for the adaptive scheme (the width comes from states 2 and 3 only). Negation proved; detailed balance itself and the Gaussian scheme proved."
  },
  {
   "property": "C47",
   "status": "partial",
   "theorems": [
    "Verif.Props.C47_same_dimension",
    "Verif.Props.C47_one_component",
    "Verif.Props.C47_refused",
    "Verif.Props.C47_elementwise_partial",
    "Verif.Props.C47_violated"
   ],
   "note": "Binary operations proved for any operation `op`, including operands with one component. Partial because the unary and scalar operations leave excluded states as they are (C47_violated): they stay zero only if they were zero."
  },
  {
   "property": "C48",
   "status": "partial",
   "theorems": [
    "Verif.Props.C48_dot_partial",
    "Verif.Props.C48_violated"
   ],
   "note": "Partial: proved when state indices and BTE indices agree on the exclusion list; C48_violated shows the 2x2x1 mesh with a symmetry on which vector_bte.cpp L85 compares a state index with excluded BTE indices."
  },
  {
   "property": "C49",
   "status": "proved",
   "theorems": [
    "Verif.Props.C49_product"
   ],
   "note": "Proved for every process grid, thread distribution and order of critical sections, over a commutative semiring (exact arithmetic)."
  },
  {
   "property": "C50",
   "status": "proved",
   "theorems": [
    "Verif.Props.C50_electrons",
    "Verif.Props.C50_phonons",
    "Verif.Props.C50_matrix"
   ],
   "note": "Proved. The pairs of a stored matrix are those needed by the local elements, for any order in which OpenMP threads insert them."
  },
  {
   "property": "C51",
   "status": "proved",
   "theorems": [
    "Verif.Props.C51_pool",
    "Verif.Props.C51_real"
   ],
   "note": "Proved for the padding of the iterators and the loop that skips the dummy entries; one collective cacheElPh call per iteration."
  },
  {
   "property": "C52",
   "status": "partial",
   "theorems": [
    "Verif.Props.C52_total",
    "Verif.Props.C52_nondegenerate",
    "Verif.Props.C52_mean_partial",
    "Verif.Props.C52_equal_partial",
    "Verif.Props.C52_violated_chain"
   ],
   "note": "Total kept and non-degenerate bands unchanged proved for all energies; mean over degenerate triples and equal values proved when energies are ascending separated multiplets; violated for chains of nearly degenerate bands."
  },
  {
   "property": "C53",
   "status": "partial",
   "theorems": [
    "Verif.Props.C53_mean_partial",
    "Verif.Props.C53_equal_sum_partial",
    "Verif.Props.C53_frame",
    "Verif.Props.C53_violated_second_calculation"
   ],
   "note": "First calculation: means, equal values, preserved sum; the other calculations are not averaged (violated)."
  },
  {
   "property": "C54",
   "status": "partial",
   "theorems": [
    "Verif.Props.C54_matrix",
    "Verif.Props.C54_refused",
    "Verif.Props.C54_diagonal_actual",
    "Verif.Props.C54_diagonal_partial",
    "Verif.Props.C54_violated_processes",
    "Verif.Props.C54_violated_symmetries"
   ],
   "note": "Matrix: proved for every layout, order and exclusion list, idempotent, error cases. Stored diagonal: C54_diagonal_actual gives the exact effect; it is the claim only without symmetries on the process that stores the element; violated on the other processes (not divided) and with symmetries (divided once per element of the 3x3 block)."
  },
  {
   "property": "C55",
   "status": "partial",
   "theorems": [
    "Verif.Props.C55_read_back_partial",
    "Verif.Props.C55_matrix_diagonal",
    "Verif.Props.C55_refused",
    "Verif.Props.C55_electrons",
    "Verif.Props.C55_violated_constant"
   ],
   "note": "Read back proved for phonons or a symmetrised matrix, matrix diagonal proved for every layout; violated in the constant relaxation time mode, where the constant is read."
  },
  {
   "property": "C56",
   "status": "partial",
   "theorems": [
    "Verif.Props.C56_modes_agree",
    "Verif.Props.C56_parts",
    "Verif.Props.C56_parts_fly",
    "Verif.Props.C56_violated_degenerate"
   ],
   "note": "Modes agree and off-diagonal + diagonal = full proved for every grid, thread distribution, exclusion list and symmetry option, given that every event is met once (C50). Violated: without the stored matrix the off-diagonal product subtracts a diagonal averaged over degenerate states."
  },
  {
   "property": "C57",
   "status": "partial",
   "theorems": [
    "Verif.Props.C57_label",
    "Verif.Props.C57_parts",
    "Verif.Props.C57_sum_partial",
    "Verif.Props.C57_violated_excluded",
    "Verif.Props.C57_violated_isotope"
   ],
   "note": "Parts and labels for all processes, MPI divisions and degeneracy averages; sum for states that are not excluded; violated for excluded states (linewidth zeroed, parts not) and because isotope scattering is put in the parts."
  },
  {
   "property": "C58",
   "status": "partial",
   "theorems": [
    "Verif.Props.C58_phonons_partial",
    "Verif.Props.C58_electrons_partial",
    "Verif.Props.C58_no_failure",
    "Verif.Props.C58_full_mesh",
    "Verif.Props.C58_star_identity",
    "Verif.Props.C58_violated_fine"
   ],
   "note": "Every third state (sum, difference of mesh points) is found in the filtered list of states that the MPI gather builds, for all meshes of less than 1000 points per direction (the coordinate comparison uses an absolute tolerance of 1e-3); no failure of the lookups and identity of stars in full. Violated for more than 1000 points along a direction: the lookup fails (C58_violated_fine)."
  },
  {
   "property": "C59",
   "status": "partial",
   "theorems": [
    "Verif.Props.C59_exact_partial",
    "Verif.Props.C59_consecutive_partial",
    "Verif.Props.C59_violated_gap",
    "Verif.Props.C59_violated_order",
    "Verif.Props.C59_violated_empty"
   ],
   "note": "Cache of third states correct for consecutive wavevectors; violated for lists with a gap, in decreasing order, or empty."
  },
  {
   "property": "C60",
   "status": "partial",
   "theorems": [
    "Verif.Props.C60_cover_partial",
    "Verif.Props.C60_violated_overflow"
   ],
   "note": "Batches partition the wavevectors when nq1*numBatches fits in an int; violated beyond (signed overflow)."
  },
  {
   "property": "C61",
   "status": "partial",
   "theorems": [
    "Verif.Props.C61_batches_partial",
    "Verif.Props.C61_peak_partial",
    "Verif.Props.C61_violated",
    "Verif.Props.C61_violated_overflow"
   ],
   "note": "Number of batches valid and memory of a batch below available plus one wavevector, and within the estimate apart from 36 bytes per wavevector and the eigenvectors of the second phonon; violated: rounding up the number of batches does not bound the largest batch, and the estimate overflows int from 136 atoms."
  },
  {
   "property": "C62",
   "status": "partial",
   "theorems": [
    "Verif.Props.C62_squared_weight",
    "Verif.Props.C62_lattice_sum_partial",
    "Verif.Props.C62_violated_weight",
    "Verif.Props.C62_violated_size"
   ],
   "note": "Proved for third weights 0 or 1 and at most as many third as second vectors; the general theorem says what is computed (third weight squared). Violated for fractional third weights (applied in cacheD3 and again in getCouplingsSquared) and for more third than second vectors (weights array allocated with the wrong size)."
  },
  {
   "property": "C63",
   "status": "partial",
   "theorems": [
    "Verif.Props.C63_index_partial",
    "Verif.Props.C63_nearest_partial",
    "Verif.Props.C63_violated_spacing",
    "Verif.Props.C63_violated_range",
    "Verif.Props.C63_violated_equal"
   ],
   "note": "Index always valid; nearest for equally spaced energies within 2^31-1 spacings; violated for other spacings, for energies farther away (undefined conversion), and for equal first energies."
  },
  {
   "property": "C64",
   "status": "proved",
   "theorems": [
    "Verif.Props.C64_int_list",
    "Verif.Props.C64_double_list",
    "Verif.Props.C64_refused",
    "Verif.Props.C64_mesh"
   ],
   "note": "Integer lists with any spacing, floating-point lists (std::stod a parameter), refusals and the q/k meshes end to end."
  },
  {
   "property": "C65",
   "status": "partial",
   "theorems": [
    "Verif.Props.C65_words_partial",
    "Verif.Props.C65_refused",
    "Verif.Props.C65_violated_digits"
   ],
   "note": "Exact characterisation of the accepted words; violated for 0 and 1: digits are erased before the comparison, so they stop the program."
  },
  {
   "property": "C66",
   "status": "partial",
   "theorems": [
    "Verif.Props.C66_order_partial",
    "Verif.Props.C66_violated_spin_orbit"
   ],
   "note": "Any permutation of parameter lines, blocks and comments with distinct settings; violated when hasSpinOrbit and numOccupiedStates are both given (the second is doubled unless the first precedes it)."
  },
  {
   "property": "C67",
   "status": "partial",
   "theorems": [
    "Verif.Props.C67_comment_partial",
    "Verif.Props.C67_last_assignment",
    "Verif.Props.C67_unknown",
    "Verif.Props.C67_violated_semicolon",
    "Verif.Props.C67_violated_block"
   ],
   "note": "Comments outside blocks without semicolons, last assignment wins, unknown names ignored; violated for a semicolon in a comment (the rest is executed) and for comments inside blocks (read as content, or ending the block)."
  },
  {
   "property": "C68",
   "status": "partial",
   "theorems": [
    "Verif.Props.C68_units_partial",
    "Verif.Props.C68_violated_other_units"
   ],
   "note": "All units of the documentation with any number text; violated: meV is read as eV and THz as Rydberg, without an error."
  },
  {
   "property": "C69",
   "status": "partial",
   "theorems": [
    "Verif.Props.C69_volume",
    "Verif.Props.C69_reciprocal",
    "Verif.Props.C69_conversions",
    "Verif.Props.C69_dimensions_partial",
    "Verif.Props.C69_violated_wire"
   ],
   "note": "Volume, reciprocal cell and conversions in full; areas and lengths of slabs and wires, violated for wires along -z (negative length)."
  },
  {
   "property": "C70",
   "status": "partial",
   "theorems": [
    "Verif.Props.C70_origin_sum",
    "Verif.Props.C70_opposite",
    "Verif.Props.C70_cell",
    "Verif.Props.C70_nodup",
    "Verif.Props.C70_outcome",
    "Verif.Props.C70_violated_shift",
    "Verif.Props.C70_classes",
    "Verif.Props.C70_compact"
   ],
   "note": "Origin, sum, opposites, exact characterisation of the vectors and degeneracies, distinctness and outcome in full for the unshifted search. `C70_classes`: in a compact supercell (`CompactGrid`; `C70_compact` gives two sufficient conditions) the search never stops the program and the weights of every class of equivalent vectors add up to one. Violated for the shifted search, which always stops the program when the supercell has more than one cell."
  },
  {
   "property": "C71",
   "status": "partial",
   "theorems": [
    "Verif.Props.C71_lines_partial",
    "Verif.Props.C71_others",
    "Verif.Props.C71_violated_zero"
   ],
   "note": "Bound of nineteen lines for every number of steps between 1 and INT_MAX, last step always reported with 100 per cent, increasing steps; a loop of zero steps computes int(log10(0)), an undefined conversion (violated)."
  },
  {
   "property": "C72",
   "status": "proved",
   "theorems": [
    "Verif.Props.C72_dispatch",
    "Verif.Props.C72_injective",
    "Verif.Props.C72_names"
   ],
   "note": "All strings; also injective and each name gives the class it names."
  },
  {
   "property": "C73",
   "status": "proved",
   "theorems": [
    "Verif.Props.C73_partition",
    "Verif.Props.C73_enumeration"
   ],
   "note": "Blocks specified independently (Verif.Spec.Blocks), shown unique; the compaction is proved for every order of the parallel loop; parallel_scan is modelled by its contract."
  },
  {
   "property": "C74",
   "status": "partial",
   "theorems": [
    "Verif.Props.C74_skip_partial",
    "Verif.Props.C74_violated"
   ],
   "note": "Proved when initial and final states belong to the same band structure; violated otherwise: the list of skipped indices is that of the outer band structure."
  },
  {
   "property": "C75",
   "status": "partial",
   "theorems": [
    "Verif.Props.C75_tracked_partial",
    "Verif.Props.C75_released_partial",
    "Verif.Props.C75_violated_copy",
    "Verif.Props.C75_violated_assign",
    "Verif.Props.C75_violated_negative",
    "Verif.Props.C75_usage3ph_partial",
    "Verif.Props.C75_violated_usage3ph"
   ],
   "note": "Proved for all histories without copies of PhononH0/ElectronH0Wannier objects, assignments of objects that own memory, and updates of shared interactions; violated for each of these, including a negative total."
  },
  {
   "property": "C76",
   "status": "partial",
   "theorems": [
    "Verif.Props.C76_not_distributed_partial",
    "Verif.Props.C76_violated"
   ],
   "note": "False for distributed band structures: the number of states is that of the local points (bandstructure.cpp L12, L152). Negation proved; partial for non-distributed ones."
  },
  {
   "property": "C77",
   "status": "proved",
   "theorems": [
    "Verif.Props.C77_covers"
   ],
   "note": ""
  },
  {
   "property": "C78",
   "status": "partial",
   "theorems": [
    "Verif.Props.C78_eye",
    "Verif.Props.C78_eye_refused",
    "Verif.Props.C78_map",
    "Verif.Props.C78_combine_partial",
    "Verif.Props.C78_refused",
    "Verif.Props.C78_violated"
   ],
   "note": "Identity, scaling and negation proved; sums and differences proved for matrices of one layout. C78_violated: operator+= compares only the sizes, so adding matrices stored with different block sizes mixes elements."
  },
  {
   "property": "C79",
   "status": "partial",
   "theorems": [
    "Verif.Props.C79_crystal",
    "Verif.Props.C79_violated_short_line"
   ],
   "note": "Proved for every block whose lines have at least four words; violated for shorter (e.g. blank) lines, which read past the end of the vector."
  },
  {
   "property": "C80",
   "status": "proved",
   "theorems": [
    "Verif.Props.C80_path"
   ],
   "note": "Proved for every list of lines with eight words."
  },
  {
   "property": "C81",
   "status": "partial",
   "theorems": [
    "Verif.Props.C81_single_quotes",
    "Verif.Props.C81_double_quotes_partial",
    "Verif.Props.C81_violated_apostrophe",
    "Verif.Props.C81_string_list"
   ],
   "note": "Single quotes and lists of strings proved in full; double quotes when no single quote is on the line; violated otherwise."
  },
  {
   "property": "C82",
   "status": "partial",
   "theorems": [
    "Verif.Props.C82_pieces_partial",
    "Verif.Props.C82_violated_empty"
   ],
   "note": "Nonempty lists of at most 2^30-1 wavevectors; violated for an empty list (division by zero, e.g. a process without wavevectors)."
  },
  {
   "property": "C83",
   "status": "partial",
   "theorems": [
    "Verif.Props.C83_size_partial",
    "Verif.Props.C83_violated"
   ],
   "note": "Exact characterisation when the number of points fits in an int; violated (undefined conversion) beyond."
  },
  {
   "property": "C84",
   "status": "partial",
   "theorems": [
    "Verif.Props.C84_input_partial",
    "Verif.Props.C84_violated_output"
   ],
   "note": "Input file part proved; -out never redirects (violated: src/io.cpp L46-49 puts the old buffer back at once)."
  },
  {
   "property": "C85",
   "status": "proved",
   "theorems": [
    "Verif.Props.C85_batch",
    "Verif.Props.C85_phases",
    "Verif.Props.C85_equivalent",
    "Verif.Props.C85_nonneg"
   ],
   "note": "Exact arithmetic over the complex numbers; eigenvectors are arbitrary."
  },
  {
   "property": "C86",
   "status": "partial",
   "theorems": [
    "Verif.Props.C86_history_partial",
    "Verif.Props.C86_violated_stale"
   ],
   "note": "Proved when the last cached wavevector is the one of the request; the argument q2 of the request is ignored (violated)."
  },
  {
   "property": "C87",
   "status": "proved",
   "theorems": [
    "Verif.Props.C87_schedule",
    "Verif.Props.C87_diagonal"
   ],
   "note": "The eigensolver is a parameter; the diagonal form assumes its documented contract (IsEigensolver, shown to be satisfiable)."
  },
  {
   "property": "C88",
   "status": "partial",
   "theorems": [
    "Verif.Props.C88_simple",
    "Verif.Props.C88_charges",
    "Verif.Props.C88_names",
    "Verif.Props.C88_unchanged",
    "Verif.Props.C88_crystal_partial",
    "Verif.Props.C88_violated_crystal",
    "Verif.Props.C88_violated_crystal_witness"
   ],
   "note": "Rule simple proved for all inputs; rule crystal proved for the charges and for data that need no correction; for the force constants it is violated: for every one-atom crystal the off-diagonal sums change sign (general theorem) and a witness is given."
  },
  {
   "property": "C89",
   "status": "partial",
   "theorems": [
    "Verif.Props.C89_crystal",
    "Verif.Props.C89_simple_partial",
    "Verif.Props.C89_violated_simple"
   ],
   "note": "Rule crystal proved for all inputs; rule simple proved when the row sums are symmetric, violated otherwise."
  },
  {
   "property": "C90",
   "status": "proved",
   "theorems": [
    "Verif.Props.C90_frequencies",
    "Verif.Props.C90_matrix"
   ],
   "note": "Eigensolver is a parameter with its documented contract (GoodSolver, shown satisfiable)."
  },
  {
   "property": "C91",
   "status": "partial",
   "theorems": [
    "Verif.Props.C91_periodic_partial",
    "Verif.Props.C91_violated"
   ],
   "note": "Proved without a dielectric tensor; violated with one: on a grid of one cell the list of reciprocal vectors has only the zero vector, and the frequencies at the zone centre and at b1 differ for all force constants."
  },
  {
   "property": "C92",
   "status": "partial",
   "theorems": [
    "Verif.Props.C92_acoustic_partial",
    "Verif.Props.C92_simple_partial",
    "Verif.Props.C92_violated"
   ],
   "note": "Proved when the force constants kept are symmetric and translation invariant (and the on-site correction symmetric), and for rule simple with symmetric row sums; violated for rule simple otherwise (at most one zero frequency of six)."
  },
  {
   "property": "C93",
   "status": "proved",
   "theorems": [
    "Verif.Props.C93_plain",
    "Verif.Props.C93_scaled"
   ],
   "note": "Exact arithmetic; eigensolver by its contract."
  },
  {
   "property": "C94",
   "status": "proved",
   "theorems": [
    "Verif.Props.C94_device"
   ],
   "note": "Exact arithmetic; any permutation of the teams; the same eigensolver on both sides."
  },
  {
   "property": "C95",
   "status": "proved",
   "theorems": [
    "Verif.Props.C95_weights",
    "Verif.Props.C95_interpolation",
    "Verif.Props.C95_rectangular",
    "Verif.Props.C95_accepted"
   ],
   "note": "Hypothesis CompactCell (Verif.Spec.Phonon): the nearest image of every lattice point lies within the searched range; proved for supercells with perpendicular edges. Interpolation for crystals without a dielectric tensor."
  },
  {
   "property": "C96",
   "status": "partial",
   "theorems": [
    "Verif.Props.C96_jump_partial",
    "Verif.Props.C96_violated"
   ],
   "note": "The limit is proved to be one half of the claimed value for every polar crystal (fourPi is defined as 2 pi); the violation is a witness."
  },
  {
   "property": "C97",
   "status": "proved",
   "theorems": [
    "Verif.Props.C97_gamma",
    "Verif.Props.C97_hermitian",
    "Verif.Props.C97_value",
    "Verif.Props.C97_gauge",
    "Verif.Props.C97_odd"
   ],
   "note": "Proved for every eigensolver that keeps its promise; exact arithmetic."
  },
  {
   "property": "C98",
   "status": "partial",
   "theorems": [
    "Verif.Props.C98_host_partial",
    "Verif.Props.C98_violated"
   ],
   "note": "Partial: equality with the host is proved for every schedule where |q|^2 > 1e-6 or |q| < 1e-6. Violated in between: the device compares the squared norm with 1e-6, the host the norm, so the device drops velocities for wavevectors up to 1e-3 (C98_violated)."
  },
  {
   "property": "C99",
   "status": "partial",
   "theorems": [
    "Verif.Props.C99_interpolation_partial",
    "Verif.Props.C99_orthogonal",
    "Verif.Props.C99_large_cutoff",
    "Verif.Props.C99_distance",
    "Verif.Props.C99_refused",
    "Verif.Props.C99_violated"
   ],
   "note": "Partial: proved for orthogonal cells with every cutoff, for every cell with every large enough cutoff, and in general when the lattice vectors of the search represent all the classes modulo the supercell. Violated for a skewed cell with cutoff one: unlike the search for the phonon supercell there is no test of the sum of weights, and the bands come out flat without an error (C99_violated). The linear solver is a parameter that must solve Hermitian positive systems, and the matrix is proved to be one."
  },
  {
   "property": "C100",
   "status": "proved",
   "theorems": [
    "Verif.Props.C100_gradient",
    "Verif.Props.C100_periodic"
   ],
   "note": "Proved."
  },
  {
   "property": "C101",
   "status": "partial",
   "theorems": [
    "Verif.Props.C101_kept",
    "Verif.Props.C101_electrons_partial",
    "Verif.Props.C101_violated_empty",
    "Verif.Props.C101_violated_jump"
   ],
   "note": "Partial: the electrons are proved for bands ordered at each point that do not jump across the window between coarse points. Violated: a window without bands reads the first element of an empty vector (C101_violated_empty); a band that jumps across the window is removed but its electrons stay in the count (C101_violated_jump)."
  },
  {
   "property": "C102",
   "status": "proved",
   "theorems": [
    "Verif.Props.C102_value",
    "Verif.Props.C102_accepted",
    "Verif.Props.C102_hermitian",
    "Verif.Props.C102_periodic",
    "Verif.Props.C102_shifts",
    "Verif.Props.C102_interpolation"
   ],
   "note": "Proved. Interpolation at the coarse grid is stated for Wigner-Seitz weights that sum to one in each class of vectors modulo the supercell, which is what Wannier90 writes."
  },
  {
   "property": "C103",
   "status": "partial",
   "theorems": [
    "Verif.Props.C103_centre",
    "Verif.Props.C103_hermitian",
    "Verif.Props.C103_value_partial",
    "Verif.Props.C103_gradient_partial",
    "Verif.Props.C103_gauge",
    "Verif.Props.C103_odd",
    "Verif.Props.C103_violated"
   ],
   "note": "Partial: value and gradient are proved outside of the sphere of radius 1e-6 at the zone centre, where velocities are set to zero. Violated: a chain with complex hopping has a slope of -2 at the zone centre, and the velocity there is zero while it is not at an equivalent wavevector (C103_violated)."
  },
  {
   "property": "C104",
   "status": "partial",
   "theorems": [
    "Verif.Props.C104_host_partial",
    "Verif.Props.C104_violated_centre",
    "Verif.Props.C104_violated_shifts",
    "Verif.Props.C104_violated_bounds"
   ],
   "note": "Partial: proved without shifted vectors and away from 1e-6 <= |k|, |k|^2 <= 1e-6. Violated: velocities up to |k| = 1e-3 are zeroed on the device only (C104_violated_centre); with shifted vectors the device multiplies by the number of images instead of dividing (C104_violated_shifts), and permutes the indices of the matrix elements, reading out of bounds unless there are as many vectors as functions (C104_violated_bounds)."
  },
  {
   "property": "C105",
   "status": "partial",
   "theorems": [
    "Verif.Props.C105_violated_bounds",
    "Verif.Props.C105_violated_value"
   ],
   "note": "Violated: indices of the position matrix are permuted: out-of-bounds reads unless three functions and three vectors (C105_violated_bounds), and wrong elements then (C105_violated_value)."
  },
  {
   "property": "C106",
   "status": "partial",
   "theorems": [
    "Verif.Props.C106_points_partial",
    "Verif.Props.C106_violated"
   ],
   "note": "Partial: proved for non-empty lists of points up to 2^30. Violated for a process without points, division by zero (C106_violated)."
  },
  {
   "property": "C107",
   "status": "partial",
   "theorems": [
    "Verif.Props.C107_read_partial",
    "Verif.Props.C107_bands_partial",
    "Verif.Props.C107_shifts_partial",
    "Verif.Props.C107_violated_elements",
    "Verif.Props.C107_violated_bands",
    "Verif.Props.C107_violated_count"
   ],
   "note": "Partial: cell, vectors and degeneracies are read exactly; matrices are stored transposed, which leaves the energies unchanged without shifts, and with shifts that do not depend on the order of the pair. Violated: elements (C107_violated_elements), energies with the shifts of a chain on four wavevectors (C107_violated_bands), and files with more degeneracies than vectors, which are not rejected (C107_violated_count)."
  },
  {
   "property": "C108",
   "status": "partial",
   "theorems": [
    "Verif.Props.C108_read_partial",
    "Verif.Props.C108_refused",
    "Verif.Props.C108_violated"
   ],
   "note": "Partial: proved when the first vector of the file is not zero. Violated otherwise, as for a grid of one wavevector: the index of the vector starts at -1 and a write outside of the array follows (C108_violated)."
  },
  {
   "property": "C109",
   "status": "partial",
   "theorems": [
    "Verif.Props.C109_population_partial",
    "Verif.Props.C109_low_dimension_partial",
    "Verif.Props.C109_rta_partial",
    "Verif.Props.C109_violated_low_dimension",
    "Verif.Props.C109_violated_example"
   ],
   "note": "Partial: three dimensions; in one and two dimensions right whatever the memory contains if no rotation mixes the axes. Violated: in fewer than three dimensions components that were never assigned are read (C109_violated_low_dimension)."
  },
  {
   "property": "C110",
   "status": "partial",
   "theorems": [
    "Verif.Props.C110_tensors_partial",
    "Verif.Props.C110_symmetrised_partial",
    "Verif.Props.C110_rta_partial",
    "Verif.Props.C110_reciprocity",
    "Verif.Props.C110_violated_low_dimension"
   ],
   "note": "Partial: three dimensions, electrons without excluded states; kappa and Seebeck need an invertible conductivity. Reciprocity is proved for exact solutions with a symmetric operator. Violated: in fewer than three dimensions the tensors are written past their end (C110_violated_low_dimension)."
  },
  {
   "property": "C111",
   "status": "partial",
   "theorems": [
    "Verif.Props.C111_coefficients_partial",
    "Verif.Props.C111_symmetric_partial",
    "Verif.Props.C111_violated",
    "Verif.Props.C111_violated_one_energy"
   ],
   "note": "Partial: conductivity and Seebeck coefficient. Violated: the thermal conductivity is too large by 2/T K1 K0^-1 K1 (C111_violated); fewer than two energies (C111_violated_one_energy)."
  },
  {
   "property": "C112",
   "status": "partial",
   "theorems": [
    "Verif.Props.C112_value",
    "Verif.Props.C112_phonons_partial",
    "Verif.Props.C112_electrons_partial",
    "Verif.Props.C112_violated_spin",
    "Verif.Props.C112_violated_spin_example"
   ],
   "note": "Partial: phonons above the cutoff, electrons with one electron per state. Violated: without spin-orbit coupling the electronic specific heat is half of the right one (C112_violated_spin)."
  },
  {
   "property": "C113",
   "status": "partial",
   "theorems": [
    "Verif.Props.C113_three_dimensions_partial",
    "Verif.Props.C113_layer_partial",
    "Verif.Props.C113_violated_conductivities",
    "Verif.Props.C113_violated_heat"
   ],
   "note": "Partial: three dimensions, and layers of phonons. Violated: electrons in one and two dimensions (energy in place of length), specific heat in one and two dimensions."
  },
  {
   "property": "C114",
   "status": "partial",
   "theorems": [
    "Verif.Props.C114_lists",
    "Verif.Props.C114_mobility_partial",
    "Verif.Props.C114_violated"
   ],
   "note": "Partial: mobilities are in line if no doping is zero. Violated: a calculation with zero doping shifts the list of mobilities (C114_violated)."
  },
  {
   "property": "C115",
   "status": "partial",
   "theorems": [
    "Verif.Props.C115_run_partial",
    "Verif.Props.C115_not_converged",
    "Verif.Props.C115_electrons_partial",
    "Verif.Props.C115_fixed_point",
    "Verif.Props.C115_convergence",
    "Verif.Props.C115_violated"
   ],
   "note": "Partial: without symmetries; the run returns iterates of the fixed-point map, whose limit is the solution when scattering out dominates. Violated: the run can end normally with an error above the threshold (C115_violated)."
  },
  {
   "property": "C116",
   "status": "partial",
   "theorems": [
    "Verif.Props.C116_electrons",
    "Verif.Props.C116_phonons_partial",
    "Verif.Props.C116_violated"
   ],
   "note": "Partial: without symmetries. Electrons: full statement. Phonons: exact after more iterations than states. Violated for phonons: the functional pairs the population of one step with the product of the next, so that the run can stop at once and report the relaxation time approximation (C116_violated)."
  },
  {
   "property": "C117",
   "status": "partial",
   "theorems": [
    "Verif.Props.C117_phonons",
    "Verif.Props.C117_electrons",
    "Verif.Props.C117_electron_forces",
    "Verif.Props.C117_violated_few_eigenvalues"
   ],
   "note": "Partial: without symmetries, all the eigenvalues computed. Violated: with fewer eigenvalues than states they are read out of bounds (C117_violated_few_eigenvalues)."
  },
  {
   "property": "C118",
   "status": "partial",
   "theorems": [
    "Verif.Props.C118_signs",
    "Verif.Props.C118_balance",
    "Verif.Props.C118_conserved_partial",
    "Verif.Props.C118_conserved_elastic",
    "Verif.Props.C118_relaxes",
    "Verif.Props.C118_symmetric_adaptive",
    "Verif.Props.C118_symmetric_gaussian_partial",
    "Verif.Props.C118_tetrahedra_refused",
    "Verif.Props.C118_violated_gaussian",
    "Verif.Props.C118_violated_self"
   ],
   "note": "Partial: conserved up to the energy mismatch within the smearing, exactly for processes that conserve energy. Violated: the Gaussian cutoff acts on one side only, so the matrix is not symmetric (C118_violated_gaussian); scattering of a state with itself is in the linewidth only (C118_violated_self)."
  },
  {
   "property": "C119",
   "status": "partial",
   "theorems": [
    "Verif.Props.C119_product_partial",
    "Verif.Props.C119_linewidths",
    "Verif.Props.C119_violated"
   ],
   "note": "Partial: linewidths: full statement. Product: if no process connects an irreducible state with another state of its star. Violated otherwise: such processes are dropped from the off-diagonal part (C119_violated)."
  },
  {
   "property": "C120",
   "status": "partial",
   "theorems": [
    "Verif.Props.C120_rate",
    "Verif.Props.C120_full_mesh_partial",
    "Verif.Props.C120_no_symmetries",
    "Verif.Props.C120_tetrahedra_refused",
    "Verif.Props.C120_nonneg",
    "Verif.Props.C120_violated",
    "Verif.Props.C120_pool_partial",
    "Verif.Props.C120_violated_pool"
   ],
   "note": "Partial: full mesh without symmetries or for phonons left unchanged by the symmetries; the rate is the golden rule up to a factor close to one for phonon energies below the temperature. Violated: the star of k is counted without rotating q (C120_violated); processes of a pool make different numbers of collective calls (C120_violated_pool)."
  },
  {
   "property": "C121",
   "status": "partial",
   "theorems": [
    "Verif.Props.C121_format1_partial",
    "Verif.Props.C121_short_file_refused",
    "Verif.Props.C121_violated_many_processes",
    "Verif.Props.C121_format1_pools_partial",
    "Verif.Props.C121_format2_pools",
    "Verif.Props.C121_format2_one_process_partial",
    "Verif.Props.C121_violated_format2",
    "Verif.Props.C121_text",
    "Verif.Props.C121_violated_text",
    "Verif.Props.C121_bunches",
    "Verif.Props.C121_violated_overflow",
    "Verif.Props.C121_count_partial"
   ],
   "note": "Partial: up to as many processes as lattice vectors (first format), pools or one process (second format), complete text files. Violated: more processes than vectors read an empty array (C121_violated_many_processes); the second format without pools on several processes keeps the share of one process only (C121_violated_format2); a truncated text file is accepted (C121_violated_text); overflow (C121_violated_overflow)."
  },
  {
   "property": "C122",
   "status": "proved",
   "theorems": [
    "Verif.Props.C122_value",
    "Verif.Props.C122_nonneg"
   ],
   "note": "Full statement."
  },
  {
   "property": "C123",
   "status": "partial",
   "theorems": [
    "Verif.Props.C123_initial",
    "Verif.Props.C123_final",
    "Verif.Props.C123_phonons",
    "Verif.Props.C123_periodic_partial",
    "Verif.Props.C123_violated_polar"
   ],
   "note": "Partial: mixing of states in full; equivalent wavevectors of the electron in full, of the phonon without polar correction. Violated with the polar correction (`C123_violated_polar`)."
  },
  {
   "property": "C124",
   "status": "partial",
   "theorems": [
    "Verif.Props.C124_strength_partial",
    "Verif.Props.C124_linear",
    "Verif.Props.C124_conjugate",
    "Verif.Props.C124_nonpolar",
    "Verif.Props.C124_images",
    "Verif.Props.C124_violated_strength",
    "Verif.Props.C124_violated_periodic"
   ],
   "note": "Partial: the value is half of the formula because fourPi is defined as 2 pi (C124_violated_strength); not periodic because the sum over a box of reciprocal vectors is centred on q instead of on zero (C124_violated_periodic). Linearity, conjugation, images and absence of charges in full."
  },
  {
   "property": "C125",
   "status": "partial",
   "theorems": [
    "Verif.Props.C125_value_partial",
    "Verif.Props.C125_positive_partial",
    "Verif.Props.C125_eigenvectors_partial",
    "Verif.Props.C125_violated_undamped"
   ],
   "note": "Partial: modes with linewidths that are not zero. Violated: two modes with the same energy and no linewidth, or a relaxation time of zero, make the whole tensor not a number (C125_violated_undamped)."
  },
  {
   "property": "C126",
   "status": "partial",
   "theorems": [
    "Verif.Props.C126_conductivity_partial",
    "Verif.Props.C126_factors_partial",
    "Verif.Props.C126_violated_degenerate",
    "Verif.Props.C126_violated_thermal"
   ],
   "note": "Partial: bands with different energies and linewidths. Electrical conductivity in full; the heat moved by a field has the wrong sign and the two responses to a gradient of the temperature are twice too large (C126_factors_partial, C126_violated_thermal). Two bands with the same energy give a value that is not a number (C126_violated_degenerate)."
  },
  {
   "property": "C127",
   "status": "proved",
   "theorems": [
    "Verif.Props.C127_phonons",
    "Verif.Props.C127_electrons"
   ],
   "note": "Full statement."
  },
  {
   "property": "C128",
   "status": "partial",
   "theorems": [
    "Verif.Props.C128_value_partial",
    "Verif.Props.C128_norm_partial",
    "Verif.Props.C128_violated_axis",
    "Verif.Props.C128_violated_window"
   ],
   "note": "Partial: directions in which some wavevector has a component; averages over the wavevectors of the band structure. Violated: a mesh with one point along an axis gives vectors that are not numbers (C128_violated_axis); with a window the specific heat is divided by the number of wavevectors kept (C128_violated_window)."
  },
  {
   "property": "C129",
   "status": "partial",
   "theorems": [
    "Verif.Props.C129_value_partial",
    "Verif.Props.C129_violated_transposed"
   ],
   "note": "Partial: the components (i,j,k,l) with {j,l} = {i,k}. In the others momentum and velocity are exchanged (C129_violated_transposed)."
  },
  {
   "property": "C130",
   "status": "partial",
   "theorems": [
    "Verif.Props.C130_value_partial",
    "Verif.Props.C130_violated_occupation",
    "Verif.Props.C130_violated_some_relaxons"
   ],
   "note": "Partial: formula proved as programmed, with an additional n(1-n) in the sum and without the spin factor; proportional to the viscosity if n(1-n) is uniform. Violated: C130_violated_occupation; out of range with a part of the relaxons (C130_violated_some_relaxons)."
  },
  {
   "property": "C131",
   "status": "partial",
   "theorems": [
    "Verif.Props.C131_index_partial",
    "Verif.Props.C131_found_partial",
    "Verif.Props.C131_violated_few"
   ],
   "note": "Partial: all relaxons calculated and at least ten. Otherwise out of range (C131_violated_few)."
  },
  {
   "property": "C132",
   "status": "partial",
   "theorems": [
    "Verif.Props.C132_dissipation",
    "Verif.Props.C132_velocity",
    "Verif.Props.C132_units_partial",
    "Verif.Props.C132_violated_units"
   ],
   "note": "Partial: units in three dimensions; in one and two they are those of three dimensions (C132_violated_units). The rest in full."
  },
  {
   "property": "C133",
   "status": "partial",
   "theorems": [
    "Verif.Props.C133_value_partial",
    "Verif.Props.C133_nonneg",
    "Verif.Props.C133_violated_spin",
    "Verif.Props.C133_violated_edge",
    "Verif.Props.C133_violated_imaginary",
    "Verif.Props.C133_empty_mesh_refused",
    "Verif.Props.C133_window_covered"
   ],
   "note": "Partial: the golden rule with spin-orbit coupling and half of it without; no final state exactly on the first or last energy of the mesh; positive phonon energies. Violated: half of the rate without spin-orbit coupling (C133_violated_spin); final states exactly on the first or last energy (C133_violated_edge); negative phonon energies read out of range (C133_violated_imaginary)."
  },
  {
   "property": "C134",
   "status": "partial",
   "theorems": [
    "Verif.Props.C134_value_partial",
    "Verif.Props.C134_nonneg",
    "Verif.Props.C134_violated_symmetry"
   ],
   "note": "Partial: weights that are the same on the star of a wavevector. Violated: the tetrahedra of a wavevector are those of the cell on one side of it, and do not represent those of its images (C134_violated_symmetry)."
  },
  {
   "property": "C135",
   "status": "partial",
   "theorems": [
    "Verif.Props.C135_uniform_partial",
    "Verif.Props.C135_epa_partial",
    "Verif.Props.C135_violated",
    "Verif.Props.C135_not_positive"
   ],
   "note": "Partial: uniform and proportional to the input. Violated: divided by 2 pi (C135_violated)."
  },
  {
   "property": "C136",
   "status": "partial",
   "theorems": [
    "Verif.Props.C136_states",
    "Verif.Props.C136_violated_relaxons",
    "Verif.Props.C136_violated_epa"
   ],
   "note": "States in full. Violated: the times of relaxons (C136_violated_relaxons) and of the electron-phonon averaged approximation (C136_violated_epa) are 2 pi too long."
  },
  {
   "property": "C137",
   "status": "partial",
   "theorems": [
    "Verif.Props.C137_value_partial",
    "Verif.Props.C137_range",
    "Verif.Props.C137_total_partial",
    "Verif.Props.C137_file",
    "Verif.Props.C137_order_refused",
    "Verif.Props.C137_violated_symmetry",
    "Verif.Props.C137_violated_flat"
   ],
   "note": "Partial: without symmetries, and bands not flat on a tetrahedron. Violated: with symmetries the densities differ (C137_violated_symmetry), although the number of bands is right; flat bands are lost (C137_violated_flat). The file for any number of processes is proved in full (C137_file)."
  },
  {
   "property": "C138",
   "status": "partial",
   "theorems": [
    "Verif.Props.C138_path_partial",
    "Verif.Props.C138_violated_short"
   ],
   "note": "Partial: segments not shorter than the spacing. Violated: a shorter last segment is left out with its end (C138_violated_short)."
  },
  {
   "property": "C139",
   "status": "partial",
   "theorems": [
    "Verif.Props.C139_labels_partial",
    "Verif.Props.C139_violated_same_label",
    "Verif.Props.C139_violated_rounding"
   ],
   "note": "Partial: segments not shorter than the spacing, with two different labels, and ends of consecutive segments exactly equal, away from each other, or with the same label. Violated: C139_violated_same_label (out of range), C139_violated_rounding."
  },
  {
   "property": "C140",
   "status": "partial",
   "theorems": [
    "Verif.Props.C140_gauge_partial",
    "Verif.Props.C140_static_partial",
    "Verif.Props.C140_violated_threads"
   ],
   "note": "Partial: threads that read the partial products they computed (one thread; or the schedule static when the number of threads divides modes times Wannier functions). Violated: C140_violated_threads (three threads)."
  },
  {
   "property": "C141",
   "status": "partial",
   "theorems": [
    "Verif.Props.C141_roundtrip_partial",
    "Verif.Props.C141_states_partial",
    "Verif.Props.C141_eigenvectors_partial",
    "Verif.Props.C141_violated_disentangled",
    "Verif.Props.C141_lattice_partial"
   ],
   "note": "`C141_states_partial` is general in the rotation matrices (disentanglement included), the eigenvectors and the displacements: the interpolation gives the matrix element of the first-principles coupling between the states that the eigenvectors stand for. `C141_lattice_partial` is the same with the lattice vectors and degeneracies that the program makes for the two meshes (C70), for compact supercells, instead of a hypothesis on the weights. `C141_roundtrip_partial` and `C141_eigenvectors_partial` are the cases of the states of the first-principles code and of eigenvectors of the interpolated Hamiltonian with any phases (nondegenerate bands). Partial: no polar correction, threads as in C140. Violated: `C141_violated_disentangled`, with more bands than Wannier functions matrix elements are left out of what is transformed."
  },
  {
   "property": "C142",
   "status": "partial",
   "theorems": [
    "Verif.Props.C142_distributed_partial",
    "Verif.Props.C142_plain_partial",
    "Verif.Props.C142_violated_phase",
    "Verif.Props.C142_violated_transposed",
    "Verif.Props.C142_violated_bounds"
   ],
   "note": "Partial: the exact difference is proved for both ways of distributing the work; it vanishes for real overlaps when the processes share the files. Violated: C142_violated_phase, C142_violated_transposed, C142_violated_bounds."
  },
  {
   "property": "C143",
   "status": "partial",
   "theorems": [
    "Verif.Props.C143_equal_partial",
    "Verif.Props.C143_violated_offset"
   ],
   "note": "Partial: all bands given to Wannier90, or too many. Violated for all other cases but the last bands: the offset is one too large (C143_violated_offset)."
  },
  {
   "property": "C144",
   "status": "partial",
   "theorems": [
    "Verif.Props.C144_same_partial",
    "Verif.Props.C144_files",
    "Verif.Props.C144_violated_empty"
   ],
   "note": "Partial: at least as many files and lattice vectors as processes. Violated: C144_violated_empty. More processes than files are refused (C144_files)."
  },
  {
   "property": "C145",
   "status": "partial",
   "theorems": [
    "Verif.Props.C145_orthonormal",
    "Verif.Props.C145_bands_partial",
    "Verif.Props.C145_violated_bands"
   ],
   "note": "Partial: as many bands as Wannier functions. Violated: C145_violated_bands. Orthonormality is proved in full."
  },
  {
   "property": "C146",
   "status": "partial",
   "theorems": [
    "Verif.Props.C146_mean_partial",
    "Verif.Props.C146_bounds",
    "Verif.Props.C146_phonons",
    "Verif.Props.C146_violated_order",
    "Verif.Props.C146_bins_spacing",
    "Verif.Props.C146_bins_number",
    "Verif.Props.C146_bins_refused"
   ],
   "note": "Partial: energies that do not change from the order of the wavevectors in the file to that of the mesh. Violated: C146_violated_order (the energies are in the order of the mesh, the wavevectors of the coupling in that of the file). Bounds, phonons and bins are proved in full."
  },
  {
   "property": "C147",
   "status": "partial",
   "theorems": [
    "Verif.Props.C147_read_partial",
    "Verif.Props.C147_spin",
    "Verif.Props.C147_violated_truncated"
   ],
   "note": "Partial: files without spin, to the digits written. Files with spin are refused (C147_spin). Violated: C147_violated_truncated."
  },
  {
   "property": "C148",
   "status": "partial",
   "theorems": [
    "Verif.Props.C148_format1_partial",
    "Verif.Props.C148_format1_replicated_partial",
    "Verif.Props.C148_roundtrip_partial",
    "Verif.Props.C148_violated_bunches",
    "Verif.Props.C148_violated_int",
    "Verif.Props.C148_serial",
    "Verif.Props.C148_format2_partial",
    "Verif.Props.C148_violated_format2"
   ],
   "note": "Partial: the first format for parts of at most 10^9 bytes (distributed tensor) or 2^31-1 elements (copies), the second with one process; HDF5 without MPI in full (C148_serial). Violated: C148_violated_bunches (large distributed tensors: the same vector is written several times), C148_violated_int, C148_violated_format2 (several processes overwrite each other's file)."
  },
  {
   "property": "C149",
   "status": "partial",
   "theorems": [
    "Verif.Props.C149_couplings_partial",
    "Verif.Props.C149_violated_cells",
    "Verif.Props.C149_violated_truncated",
    "Verif.Props.C149_integers"
   ],
   "note": "Partial: triplets listed once, cells equal or at least 10^-12 bohr apart, as many second as third cells. Violated: C149_violated_cells (every file with different numbers of second and third cells: accesses outside of the tensor), C149_violated_truncated (a file that is cut short is accepted and force constants are replaced by zero)."
  },
  {
   "property": "C150",
   "status": "partial",
   "theorems": [
    "Verif.Props.C150_squared_weight",
    "Verif.Props.C150_couplings_partial",
    "Verif.Props.C150_violated_weight",
    "Verif.Props.C150_violated_grid",
    "Verif.Props.C150_violated_compact",
    "Verif.Props.C150_refused_atoms",
    "Verif.Props.C150_refused_matrix"
   ],
   "note": "Partial: images not on the border of the Wigner-Seitz cell of the supercell (C150_squared_weight says what is computed with any weights), distances that are equal or differ by more than the tolerance. Violated: C150_violated_weight (with images on the border the weight of the third atom is applied twice), C150_violated_grid (a file without the supercell matrix: the dimensions are used without being set), C150_violated_compact (compact files are not recognised: reads outside of the array)."
  },
  {
   "property": "C151",
   "status": "partial",
   "theorems": [
    "Verif.Props.C151_lattice_partial",
    "Verif.Props.C151_lattice_exact",
    "Verif.Props.C151_refused_partial",
    "Verif.Props.C151_free",
    "Verif.Props.C151_violated_monoclinic",
    "Verif.Props.C151_violated_flat"
   ],
   "note": "Partial: index 13 excluded; lengths up to 1e-11 for the hexagonal and one trigonal lattice (the square roots of two and three are approximated). Violated: C151_violated_monoclinic (index 13 uses c/a as the cosine and celldm(5) for the sine of the angle), C151_violated_flat (a flat triclinic cell is accepted)."
  },
  {
   "property": "C152",
   "status": "partial",
   "theorems": [
    "Verif.Props.C152_read_partial",
    "Verif.Props.C152_violated_truncated",
    "Verif.Props.C152_violated_uninitialised"
   ],
   "note": "Partial: complete files. Violated: C152_violated_truncated (a file cut in the last third is accepted, the missing force constants repeat the last one read), C152_violated_uninitialised (a file cut before: uninitialised variable)."
  },
  {
   "property": "C153",
   "status": "partial",
   "theorems": [
    "Verif.Props.C153_mesh",
    "Verif.Props.C153_bands_partial",
    "Verif.Props.C153_refused",
    "Verif.Props.C153_violated_uneven"
   ],
   "note": "Partial: complete meshes. Violated: C153_violated_uneven (points that are not equally spaced can be accepted, since rounding errors are compared with their sign)."
  },
  {
   "property": "C154",
   "status": "partial",
   "theorems": [
    "Verif.Props.C154_read_partial",
    "Verif.Props.C154_violated_units",
    "Verif.Props.C154_violated_compact",
    "Verif.Props.C154_born_partial",
    "Verif.Props.C154_violated_born_ub",
    "Verif.Props.C154_violated_born_missing",
    "Verif.Props.C154_refused_atoms",
    "Verif.Props.C154_refused_matrix",
    "Verif.Props.C154_refused_missing"
   ],
   "note": "Partial: full files in eV/angstrom^2 or Ry/au^2; charges if each atom is of another species. Violated: C154_violated_compact (directions exchanged), C154_violated_units (hartree/au^2, mRy/au^2, eV/angstrom.au), C154_violated_born_ub (names of species read out of range), C154_violated_born_missing (the charges of the inequivalent atoms go to the first atoms)."
  },
  {
   "property": "C155",
   "status": "partial",
   "theorems": [
    "Verif.Props.C155_constructor",
    "Verif.Props.C155_on_the_fly_partial",
    "Verif.Props.C155_postprocessing_partial",
    "Verif.Props.C155_violated_no_velocities"
   ],
   "note": "Proved for the constructor with batches; for the two building functions when velocities are asked for. Violated: C155_violated_no_velocities (without velocities the building functions read an empty array)."
  },
  {
   "property": "C156",
   "status": "partial",
   "theorems": [
    "Verif.Props.C156_values_partial",
    "Verif.Props.C156_no_leak_partial",
    "Verif.Props.C156_band_structure",
    "Verif.Props.C156_violated_copy"
   ],
   "note": "Proved for histories without copy construction, and for the copy of a full band structure (which assigns). Violated: C156_violated_copy (the copy constructor writes through a null pointer; +=, -=, *=, /= and prod use it)."
  },
  {
   "property": "C157",
   "status": "partial",
   "theorems": [
    "Verif.Props.C157_serial_partial",
    "Verif.Props.C157_serial_square",
    "Verif.Props.C157_violated_serial",
    "Verif.Props.C157_parallel_real_partial",
    "Verif.Props.C157_parallel_complex_partial",
    "Verif.Props.C157_violated_parallel",
    "Verif.Props.C157_eigenvectors_real",
    "Verif.Props.C157_violated_eigenvectors"
   ],
   "note": "Proved for serial products without transposition (any sizes) and of square matrices with any transposition, for distributed products when one factor is square, for real eigenvectors. Violated: C157_violated_serial (transposed rectangular matrices), C157_violated_parallel (shape of the result), C157_violated_eigenvectors (complex eigenvectors are returned as zero)."
  },
  {
   "property": "C158",
   "status": "partial",
   "theorems": [
    "Verif.Props.C158_table",
    "Verif.Props.C158_atoms_partial",
    "Verif.Props.C158_refused",
    "Verif.Props.C158_violated_zero",
    "Verif.Props.C158_violated_units"
   ],
   "note": "Proved for positive values in the input file, and the refusals. Violated: C158_violated_zero (an isotope coupling of zero is ignored), C158_violated_units (masses in atomic mass units for Wannier Hamiltonians)."
  },
  {
   "property": "C159",
   "status": "proved",
   "theorems": [
    "Verif.Props.C159_wavevectors",
    "Verif.Props.C159_atoms",
    "Verif.Props.C159_switch"
   ],
   "note": "The contract of spglib is a hypothesis (IsSpaceGroup); an empty answer stands for its failure."
  },
  {
   "property": "C160",
   "status": "proved",
   "theorems": [
    "Verif.Props.C160_entries",
    "Verif.Props.C160_complete",
    "Verif.Props.C160_header"
   ],
   "note": "Active band structures. Units are the subject of C136."
  },
  {
   "property": "C161",
   "status": "partial",
   "theorems": [
    "Verif.Props.C161_phonon_partial",
    "Verif.Props.C161_phonon_accepts",
    "Verif.Props.C161_electron_partial",
    "Verif.Props.C161_electron_accepts",
    "Verif.Props.C161_phonon_matrix",
    "Verif.Props.C161_electron_matrix",
    "Verif.Props.C161_electron_constant",
    "Verif.Props.C161_violated_name",
    "Verif.Props.C161_violated_iterations",
    "Verif.Props.C161_violated_phonon_constant",
    "Verif.Props.C161_violated_phonon_empty",
    "Verif.Props.C161_violated_electron_constant"
   ],
   "note": "Partial. Proved, for both apps, when no constant relaxation time is set and at least one iteration is allowed; for electrons also with a positive constant time. Violated: a solver name that is not known is ignored; with maxIterationsBTE = 0 the file of a solver is written without using the matrix; phonons with a constant relaxation time and an exact solver use a smearing that was never made, or a matrix without elements; electrons with a constant relaxation time that is not positive compute rates without having read the interaction."
  },
  {
   "property": "C162",
   "status": "partial",
   "theorems": [
    "Verif.Props.C162_fermi_partial",
    "Verif.Props.C162_fermi_copies_partial",
    "Verif.Props.C162_gap",
    "Verif.Props.C162_level",
    "Verif.Props.C162_level_copies",
    "Verif.Props.C162_input",
    "Verif.Props.C162_neither",
    "Verif.Props.C162_violated_empty"
   ],
   "note": "Partial: the Fermi level of empty or full bands is that of the states of each process (C162_violated_empty); energies up to 1e20 Ry."
  },
  {
   "property": "C163",
   "status": "partial",
   "theorems": [
    "Verif.Props.C163_xml_partial",
    "Verif.Props.C163_refused",
    "Verif.Props.C163_wannier_partial",
    "Verif.Props.C163_wannier_spin_orbit_partial",
    "Verif.Props.C163_violated_spin_orbit",
    "Verif.Props.C163_violated_fraction"
   ],
   "note": "Partial: with spin-orbit coupling, two electrons are taken away for each band not given to Wannier90 instead of one (C163_violated_spin_orbit); fractions of electrons are lost (C163_violated_fraction)."
  },
  {
   "property": "C164",
   "status": "proved",
   "theorems": [
    "Verif.Props.C164_pool",
    "Verif.Props.C164_matches_pools",
    "Verif.Props.C164_matches",
    "Verif.Props.C164_same",
    "Verif.Props.C164_spin"
   ],
   "note": ""
  },
  {
   "property": "C165",
   "status": "partial",
   "theorems": [
    "Verif.Props.C165_too_many",
    "Verif.Props.C165_wavevectors",
    "Verif.Props.C165_values",
    "Verif.Props.C165_refused",
    "Verif.Props.C165_wannier",
    "Verif.Props.C165_fourier_partial",
    "Verif.Props.C165_phonon_partial",
    "Verif.Props.C165_violated_fourier",
    "Verif.Props.C165_violated_phonon"
   ],
   "note": "Missing: a process without wavevectors (phonons, division by zero in the batches) and the eigenvectors of the Fourier interpolation, which are never set."
  },
  {
   "property": "C166",
   "status": "partial",
   "theorems": [
    "Verif.Props.C166_polar",
    "Verif.Props.C166_stored",
    "Verif.Props.C166_mesh",
    "Verif.Props.C166_window_partial",
    "Verif.Props.C166_computed_partial",
    "Verif.Props.C166_violated_gap",
    "Verif.Props.C166_violated_empty"
   ],
   "note": "Missing: windowed meshes with 1000 points or more along a direction (C15), lists of k2 that are empty or have gaps when the phonons are not stored (violated)."
  },
  {
   "property": "C167",
   "status": "partial",
   "theorems": [
    "Verif.Props.C167_tables",
    "Verif.Props.C167_full",
    "Verif.Props.C167_active",
    "Verif.Props.C167_plain",
    "Verif.Props.C167_mesh",
    "Verif.Props.C167_mesh_reduced",
    "Verif.Props.C167_window_partial",
    "Verif.Props.C167_computed_partial",
    "Verif.Props.C167_violated_gap",
    "Verif.Props.C167_violated_empty"
   ],
   "note": "Missing: windowed meshes with 1000 points or more along a direction (C15), lists of q1 that are empty or have gaps when the phonons are not stored (violated)."
  },
  {
   "property": "C168",
   "status": "proved",
   "theorems": [
    "Verif.Props.C168_accepts",
    "Verif.Props.C168_polarization",
    "Verif.Props.C168_polarization_device",
    "Verif.Props.C168_symmetric",
    "Verif.Props.C168_sum_rule",
    "Verif.Props.C168_degenerate",
    "Verif.Props.C168_boundary"
   ],
   "note": ""
  },
  {
   "property": "C169",
   "status": "partial",
   "theorems": [
    "Verif.Props.C169_sum_partial",
    "Verif.Props.C169_max_partial",
    "Verif.Props.C169_min_partial",
    "Verif.Props.C169_bcast_partial",
    "Verif.Props.C169_pools_partial",
    "Verif.Props.C169_violated_silent",
    "Verif.Props.C169_violated_refused"
   ],
   "note": "The number of elements is a size_t passed as the int count of the library: between 2^31 and 2^32 elements the call is refused (the coupling sent to the pools by bcast can be that long), and beyond 2^32 only the remainder modulo 2^32 is communicated without any error (C169_violated_refused, C169_violated_silent). The _partial theorems hold below 2^31 elements."
  },
  {
   "property": "C170",
   "status": "partial",
   "theorems": [
    "Verif.Props.C170_pairs",
    "Verif.Props.C170_ranges_partial",
    "Verif.Props.C170_file_partial",
    "Verif.Props.C170_collective",
    "Verif.Props.C170_violated_first",
    "Verif.Props.C170_violated_serial",
    "Verif.Props.C170_violated_serial_many",
    "Verif.Props.C170_violated_bunches",
    "Verif.Props.C170_violated_idle",
    "Verif.Props.C170_violated_mesh",
    "Verif.Props.C170_refused",
    "Verif.Props.C170_labels"
   ],
   "note": "Holds with parallel HDF5, at least as many pairs as processes and at most 10^9 bytes per process (C170_file_partial). Violated: with HDF5 without MPI the arguments of allGatherv are exchanged and the file has only zeros on one process and the call is erroneous on several (C170_violated_serial, C170_violated_serial_many); each bunch of a process is written from the beginning of its buffer, so that beyond 10^9 bytes the first bunch is repeated (C170_violated_bunches); with more processes than pairs the first element of an empty list is read (C170_violated_idle); a range that ends with the first band becomes all bands (C170_violated_first); the electron mesh is required also for a path (C170_violated_mesh). The lists of the wavevectors and of the ranges in the file describe its contents (C170_labels)."
  },
  {
   "property": "C171",
   "status": "partial",
   "theorems": [
    "Verif.Props.C171_sum",
    "Verif.Props.C171_difference",
    "Verif.Props.C171_group",
    "Verif.Props.C171_associative",
    "Verif.Props.C171_refused",
    "Verif.Props.C171_coordinates",
    "Verif.Props.C171_assign_partial",
    "Verif.Props.C171_violated_assign",
    "Verif.Props.C171_violated_offset",
    "Verif.Props.C171_violated_wigner_seitz"
   ],
   "note": "Holds on meshes without offset. Violated: on meshes with an offset a sum that is not on the mesh can be accepted, with an Umklapp vector that is not a lattice vector (C171_violated_offset); assigning a point of another set overwrites the set of the point assigned to, and so changes all its other points (C171_violated_assign); sums are folded to the cell [0,1) and not to the Wigner-Seitz cell as documented (C171_violated_wigner_seitz)."
  },
  {
   "property": "C172",
   "status": "partial",
   "theorems": [
    "Verif.Props.C172_electrons",
    "Verif.Props.C172_electron_file",
    "Verif.Props.C172_violated_doping",
    "Verif.Props.C172_phonons",
    "Verif.Props.C172_phonon_iterations",
    "Verif.Props.C172_electron_iterations_partial",
    "Verif.Props.C172_violated_iterations",
    "Verif.Props.C172_heat",
    "Verif.Props.C172_viscosity_partial",
    "Verif.Props.C172_viscosity_line",
    "Verif.Props.C172_violated_viscosity",
    "Verif.Props.C172_head",
    "Verif.Props.C172_units",
    "Verif.Props.C172_viscosity_units",
    "Verif.Props.C172_violated_viscosity_unit"
   ],
   "note": "Numbers are taken as printed exactly. Violated in one and two dimensions: the conductivities of electrons written during the iterations use the conversion of three dimensions (C172_violated_iterations); dopings are labelled cm^-3 on the terminal and cm^-d in the file (C172_violated_doping); in two dimensions the rows of the viscosity tensor are written without their third index (C172_violated_viscosity)."
  },
  {
   "property": "C173",
   "status": "partial",
   "theorems": [
    "Verif.Props.C173_accepts_partial",
    "Verif.Props.C173_refuses_partial",
    "Verif.Props.C173_violated_temperatures",
    "Verif.Props.C173_violated_potentials",
    "Verif.Props.C173_violated_smearing",
    "Verif.Props.C173_violated_bins",
    "Verif.Props.C173_violated_harmonic",
    "Verif.Props.C173_violated_mesh"
   ],
   "note": "Violated: a range of temperatures in place of the list is refused by all applications (C173_violated_temperatures), a range of chemical potentials by all but one (C173_violated_potentials); accepted although missing: the smearing method (C173_violated_smearing), the number of bins of EPA (C173_violated_bins), the harmonic file of electronic transport (C173_violated_harmonic), the mesh of the electrons of the phonon-electron lifetimes (C173_violated_mesh). Sizes of meshes are assumed to have 32-bit products. The variables of the crystal are one flag."
  },
  {
   "property": "C174",
   "status": "partial",
   "theorems": [
    "Verif.Props.C174_refused_partial",
    "Verif.Props.C174_success",
    "Verif.Props.C174_common",
    "Verif.Props.C174_serial",
    "Verif.Props.C174_coupling_partial",
    "Verif.Props.C174_potential_partial",
    "Verif.Props.C174_violated_sanity",
    "Verif.Props.C174_violated_coupling",
    "Verif.Props.C174_violated_files",
    "Verif.Props.C174_violated_potential"
   ],
   "note": "Proved for errors met by all processes. Violated where only the head or the first pool meets the error, which then waits in a barrier that the other processes do not call: solvers that do not allow symmetries (C174_violated_sanity), unreadable coupling files (C174_violated_coupling), missing or unwritable files (C174_violated_files), a chemical potential that is not found (C174_violated_potential). Collectives between pools are left out; mismatched collectives are taken as never completing."
  },
  {
   "property": "C175",
   "status": "proved",
   "theorems": [
    "Verif.Props.C175_phonons",
    "Verif.Props.C175_phonon_processes",
    "Verif.Props.C175_electrons",
    "Verif.Props.C175_electron_processes"
   ],
   "note": "The end-to-end composition of C45, C47, C109, C110, C136 and C172. With constantRelaxationTime = T the rate is 2 pi / T (see C135). Fewer dimensions are undefined behaviour (C109, C110). Numbers are exact; printed digits are not cut."
  },
  {
   "property": "C176",
   "status": "partial",
   "theorems": [
    "Verif.Props.C176_faithful_partial",
    "Verif.Props.C176_transport",
    "Verif.Props.C176_potential",
    "Verif.Props.C176_epa",
    "Verif.Props.C176_head",
    "Verif.Props.C176_file_partial",
    "Verif.Props.C176_violated_temperatures",
    "Verif.Props.C176_violated_range",
    "Verif.Props.C176_violated_fermi",
    "Verif.Props.C176_violated_occupied"
   ],
   "note": "Only the lines with real numbers are modelled. Violated: the range of temperatures is printed in atomic units with the label K; eFermiRange is printed in Rydberg with the label eV; fermiLevel is printed in eV without a unit; numOccupiedStates is printed doubled by transportEpa without spin-orbit coupling, and by all applications if hasSpinOrbit is set after it."
  },
  {
   "property": "C177",
   "status": "partial",
   "theorems": [
    "Verif.Props.C177_phonons",
    "Verif.Props.C177_electrons",
    "Verif.Props.C177_processes",
    "Verif.Props.C177_labels_partial",
    "Verif.Props.C177_violated_labels",
    "Verif.Props.C177_crystal"
   ],
   "note": "Composition of C93, C94, C138, C139 and C165. Partial because of the labels: paths with short segments or equal labels at both ends are not covered (violations in C138 and C139), and `C177_violated_labels` is a run that ends with a file of four labels and two indices. Wavevectors are folded into the Wigner-Seitz cell by a function with the contract proved in C16 and C17 for rational coordinates; for polar crystals the frequencies are those of the folded wavevector (C91). The rows of `latticeVectors` are not the lattice vectors, the columns are, as the plotting script of the repository reads them."
  },
  {
   "property": "C178",
   "status": "partial",
   "theorems": [
    "Verif.Props.C178_value_partial",
    "Verif.Props.C178_phonons_partial",
    "Verif.Props.C178_range",
    "Verif.Props.C178_refused",
    "Verif.Props.C178_violated_symmetry"
   ],
   "note": "Composition of C07, C18, C20, C93, C94, C137 and C165. Value proved without symmetries and, for phonons, without dielectric constant; with symmetries, which the apps always use, it is violated (`C178_violated_symmetry`: the cell of a point is not mapped to the cell of the rotated point), while sign, support, energies and units hold with any symmetries. Wavevectors are folded by a function with the contract of C16 and C17."
  },
  {
   "property": "C179",
   "status": "partial",
   "theorems": [
    "Verif.Props.C179_times_partial",
    "Verif.Props.C179_violated_times",
    "Verif.Props.C179_coefficients_partial",
    "Verif.Props.C179_dos_partial",
    "Verif.Props.C179_processes",
    "Verif.Props.C179_empty_window_refused",
    "Verif.Props.C179_violated_spin",
    "Verif.Props.C179_violated_dos_unit"
   ],
   "note": "Composition of C111, C133, C134, C136 and C172. Violated: relaxation times are 2 pi too long (`C179_violated_times`), without spin-orbit coupling the rates are half of the golden rule (`C179_violated_spin`), the thermal conductivity adds the term it should subtract (see C111), the density of states is per volume but its unit does not say so (`C179_violated_dos_unit`). Missing: weights without the symmetry of the crystal (see C134) and phonons of exactly a number of steps (see C133). Three dimensions."
  },
  {
   "property": "C180",
   "status": "partial",
   "theorems": [
    "Verif.Props.C180_postprocessing_partial",
    "Verif.Props.C180_on_the_fly",
    "Verif.Props.C180_equivalent_points",
    "Verif.Props.C180_energy_window",
    "Verif.Props.C180_no_calculations",
    "Verif.Props.C180_violated_population"
   ],
   "note": "Composition of C18, C31, C32, C34, C36, C77 and C155. The window of populations is violated for electrons: it looks only at the smallest and largest chemical potential (`C180_violated_population`: a half-filled state of the middle calculation is dropped); it holds for states outside of the interval of the chemical potentials, at its ends, and for all phonons. The diagonalisation is a function of the wavevector."
  },
  {
   "property": "C181",
   "status": "partial",
   "theorems": [
    "Verif.Props.C181_file_partial",
    "Verif.Props.C181_complete_partial",
    "Verif.Props.C181_no_phonons",
    "Verif.Props.C181_violated_window",
    "Verif.Props.C181_violated_labels"
   ],
   "note": "Composition of C31, C36, C120, C160 and C180. The sum is over the electron states within 1.25 times the largest phonon energy of the range of the chemical potentials: the linewidth of a calculation depends on the other chemical potentials of the sweep (`C181_violated_window`), and all chemical potentials in the file are 0 (`C181_violated_labels`). Without symmetries of the electrons (C120 has a violation for them) and without degenerate phonons. Without active phonons the behaviour is undefined (`C181_no_phonons`)."
  },
  {
   "property": "C182",
   "status": "partial",
   "theorems": [
    "Verif.Props.C182_file_partial",
    "Verif.Props.C182_refused",
    "Verif.Props.C182_processes",
    "Verif.Props.C182_violated"
   ],
   "note": "Composition of C27, C50, C53, C118, C139, C160, C165 and C177. Degenerate bands are averaged in the first calculation only: in the others the linewidth is stated for bands without degeneracies, and `C182_violated` is a run where two degenerate bands have different linewidths at the second temperature. The phonon of a pair is that of wavevector k2-k1 (C166) and the couplings are inputs."
  },
  {
   "property": "C183",
   "status": "partial",
   "theorems": [
    "Verif.Props.C183_file_partial",
    "Verif.Props.C183_refused",
    "Verif.Props.C183_processes",
    "Verif.Props.C183_violated_cutoff",
    "Verif.Props.C183_violated_direction",
    "Verif.Props.C183_violated_isotopes"
   ],
   "note": "Composition of C27, C45, C50, C53, C46, C139, C160, C165, C167, C168 and C177. The statement supposes that the cutoffs of the program leave out the processes of the specification (`SameProcesses`) and, with isotopes, a fixed width. `C183_violated_cutoff`: the product of three energies is compared with an energy, and for phonons of 13.6 meV all the three-phonon processes are left out. `C183_violated_direction`: the list of the phonons below 0.1 cm^-1 has indices of the path, and it is searched for indices of the mesh too, so the linewidth of a phonon is zero for a path in one direction and positive in the other. `C183_violated_isotopes`: with the adaptive delta function the value for the second phonon is overwritten before the mean over the two phonons is taken, and the linewidth due to isotopes is half that of the golden rule when all the velocities are the same. As in C182 degenerate modes are averaged in the first calculation only. `C183_processes` does not need these hypotheses."
  },
  {
   "property": "C184",
   "status": "partial",
   "theorems": [
    "Verif.Props.C184_make",
    "Verif.Props.C184_same_dimension",
    "Verif.Props.C184_one_component",
    "Verif.Props.C184_refused",
    "Verif.Props.C184_scalar",
    "Verif.Props.C184_calculations_partial",
    "Verif.Props.C184_violated_calculations",
    "Verif.Props.C184_product_partial",
    "Verif.Props.C184_violated_product",
    "Verif.Props.C184_violated_dot",
    "Verif.Props.C184_violated_assign",
    "Verif.Props.C184_assign_partial"
   ],
   "note": "Elementwise arithmetic and the product with a number are proved in full. `C184_violated_calculations`: the product with one number per calculation reads the list of numbers at the index of the row, past its end with three components; `C184_calculations_partial` is for one component. `C184_violated_product`: the product with a distributed matrix keeps the last term instead of the sum; `C184_product_partial` is for a symmetric matrix of which no process has two elements of a row. `C184_violated_dot`: the result of the scalar product is made with one column and the sum reads elements that are not set. `C184_violated_assign`: an assignment changes the sweep of the other vectors. `VectorEPA` is used by the program through its constructor and `data`, so the output files do not meet these violations."
  },
  {
   "property": "C185",
   "status": "partial",
   "theorems": [
    "Verif.Props.C185_difference_partial",
    "Verif.Props.C185_norm",
    "Verif.Props.C185_units",
    "Verif.Props.C185_copy_partial",
    "Verif.Props.C185_assign_partial",
    "Verif.Props.C185_violated_copy",
    "Verif.Props.C185_violated_difference",
    "Verif.Props.C185_violated_assign"
   ],
   "note": "`C185_norm` is for every kind. `C185_difference_partial` is for the thermal conductivity, the class that makes its own result. `C185_violated_difference`: for every other observable the result of the difference is made without arrays, which are then written. `C185_violated_copy`: the copy of a thermal conductivity has no units; the phonon transport app reads only the elements of its copies, so its files are not affected. `C185_violated_assign`: the dimension is not assigned."
  },
  {
   "property": "C186",
   "status": "partial",
   "theorems": [
    "Verif.Props.C186_star",
    "Verif.Props.C186_mesh",
    "Verif.Props.C186_violated_truncated",
    "Verif.Props.C186_violated_missing"
   ],
   "note": "`C186_star` and `C186_mesh` are the whole claim for complete files. `C186_violated_truncated`: every file that ends early is accepted and the rest is made from variables without a value. `C186_violated_missing`: the same for a file that cannot be opened. That the index of the head is broadcast to the other processes is C09; that wavevectors of the files are found in the meshes is C12."
  },
  {
   "property": "C187",
   "status": "partial",
   "theorems": [
    "Verif.Props.C187_refused",
    "Verif.Props.C187_all_partial",
    "Verif.Props.C187_some_partial",
    "Verif.Props.C187_complex_partial",
    "Verif.Props.C187_workspace",
    "Verif.Props.C187_violated_size",
    "Verif.Props.C187_violated_largest"
   ],
   "note": "ScaLAPACK enters through a contract (its documentation: the upper triangle is used, all eigenvalues in ascending order or those of a range). `C187_all_partial`, `C187_some_partial`, `C187_complex_partial`: what is returned is right whenever something is returned; `C187_all_partial` also that something is returned while the workspaces fit an `int`. `C187_workspace`: the lengths are those ScaLAPACK documents. `C187_refused`: the shapes that are refused. `C187_violated_size`: complex matrices with 46341 rows or more, and real ones with a workspace of `2 ^ 31` numbers or more, have undefined behaviour. `C187_violated_largest`: the manual promises the largest eigenvalues, the lowest are returned."
  },
  {
   "property": "C188",
   "status": "partial",
   "theorems": [
    "Verif.Props.C188_rotation",
    "Verif.Props.C188_refused",
    "Verif.Props.C188_violated_header",
    "Verif.Props.C188_violated_truncated",
    "Verif.Props.C188_violated_mesh"
   ],
   "note": "`C188_rotation` is the claim for complete files, `C188_refused` the refusals that the code has. `C188_violated_header`, `C188_violated_truncated`: a file that ends after its title or at any element is accepted, and the rest comes from variables without a value. `C188_violated_mesh`: the number of wavevectors is compared with the mesh by an assertion only, which is compiled out; a file for a smaller mesh is written outside of the array."
  },
  {
   "property": "C189",
   "status": "partial",
   "theorems": [
    "Verif.Props.C189_peak",
    "Verif.Props.C189_batches_partial",
    "Verif.Props.C189_refused",
    "Verif.Props.C189_registered",
    "Verif.Props.C189_violated_pool",
    "Verif.Props.C189_violated_batches",
    "Verif.Props.C189_violated_overflow"
   ],
   "note": "`C189_batches_partial` and `C189_peak` bound what a batch allocates, `C189_refused` is the refusal, `C189_registered` the memory registered in a pool of one process. `C189_violated_batches`: the number of batches is rounded up but the batches are not of equal size, so the largest can exceed the memory. `C189_violated_overflow`: the estimate is computed in `int`. `C189_violated_pool`: in a pool of more processes the coupling at the current wavevector is never registered."
  },
  {
   "property": "C190",
   "status": "partial",
   "theorems": [
    "Verif.Props.C190_conversion_partial",
    "Verif.Props.C190_violated_bands"
   ],
   "note": "C190_conversion_partial composes the models of C70, C141, C143, C186 and C188 and the interpolation of the coupling, for files of all the bands.  C190_violated_bands: if Wannier90 was given some of the bands and not the last ones, the interpolation gives the coupling of the bands that come one later (C143).  Missing: disentangled bands (C141), the polar correction (C142), other ways to share the rotation among threads (C140), supercells whose shortest vectors are out of the search range (C70)."
  },
  {
   "property": "C191",
   "status": "partial",
   "theorems": [
    "Verif.Props.C191_run_partial",
    "Verif.Props.C191_second_format_partial",
    "Verif.Props.C191_violated_second_format",
    "Verif.Props.C191_from_espresso_partial",
    "Verif.Props.C191_violated_processes"
   ],
   "note": "C191_run_partial composes the models of C148 (writing), C121 and C164 (reading) and C122 (interpolation), with the layouts of the memory, for the first format; C191_second_format_partial for the second, with one process that writes and pools or one process that reads.  C191_from_espresso_partial adds C190: from the files of Quantum ESPRESSO and Wannier90 to the coupling that each process of a run gets.  C191_violated_processes: without pools, a run with more processes than lattice vectors reads the first element of an empty list (C121).  C191_violated_second_format: several processes without pools have zeros for most lattice vectors.  Missing: parts above 10^9 bytes (C148), 2^31 elements for a lattice vector or more (C121), several processes that write the second format (C148), and what C190 misses."
  },
  {
   "property": "C192",
   "status": "partial",
   "theorems": [
    "Verif.Props.C192_same_partial",
    "Verif.Props.C192_bands_partial",
    "Verif.Props.C192_violated_units"
   ],
   "note": "C192_same_partial and C192_bands_partial compose the models of C152, C154, C158, C69, C95 and C177.  C192_violated_units: with force constants in hartree/au^2 the bands differ from those of Quantum ESPRESSO for the same crystal.  Missing: the other units, compact files of phonopy (C154_violated_compact), charges if two atoms are of the same element (C154_violated_born_ub), wavevectors that do not fit the supercell, masses from the input file (C158)."
  },
  {
   "property": "C193",
   "status": "partial",
   "theorems": [
    "Verif.Props.C193_sheng_partial",
    "Verif.Props.C193_phono3py_partial",
    "Verif.Props.C193_same_partial",
    "Verif.Props.C193_violated_ties",
    "Verif.Props.C193_violated_cells"
   ],
   "note": "C193_sheng_partial, C193_phono3py_partial and C193_same_partial compose the models of C149, C150 and C62.  C193_violated_ties: with two cells along a direction the same crystal has the coupling 4 with the file of ShengBTE and 1 with those of phono3py, because the weight of the third atom is applied twice.  C193_violated_cells: a file of ShengBTE with different numbers of second and third cells is accessed outside of its memory.  Wavevectors that do not fit the supercell depend on the choice of the images and are not in the property."
  },
  {
   "property": "C194",
   "status": "partial",
   "theorems": [
    "Verif.Props.C194_run_partial",
    "Verif.Props.C194_same_partial",
    "Verif.Props.C194_widths_partial",
    "Verif.Props.C194_refused",
    "Verif.Props.C194_violated_cells",
    "Verif.Props.C194_violated_name",
    "Verif.Props.C194_violated_ties"
   ],
   "note": "C194_run_partial, C194_same_partial and C194_widths_partial compose the models of C149, C150, C62, C52 and C183; the hypotheses on cutoffs, degenerate modes and isotopes are those of C183 and C52, with their violations.  C194_refused: no file of displacements.  C194_violated_cells: a file of ShengBTE with other numbers of second than of third cells is accessed outside of its memory.  C194_violated_name: a file of ShengBTE in a directory whose name contains hdf5 is taken for one of phono3py.  C194_violated_ties: in a supercell with images on the border of the Wigner-Seitz cell the same force constants give linewidths four times larger from a file of ShengBTE than from the files of phono3py.  Points between those of the grid depend on the choice of the images and are not in the property."
  },
  {
   "property": "C195",
   "status": "partial",
   "theorems": [
    "Verif.Props.C195_bands_partial",
    "Verif.Props.C195_processes",
    "Verif.Props.C195_refused",
    "Verif.Props.C195_violated_shifts"
   ],
   "note": "C195_bands_partial, C195_processes and C195_refused compose the models of C107, C158, C69, C138, C104, C106, C165 and C177; the eigensolver is an external call.  C195_violated_shifts: with the file of the images, and unless there are as many lattice vectors as functions, every run reads beyond the bounds of the array of matrix elements on the device."
  },
  {
   "property": "C196",
   "status": "partial",
   "theorems": [
    "Verif.Props.C196_dos_partial",
    "Verif.Props.C196_range",
    "Verif.Props.C196_violated_shifts",
    "Verif.Props.C196_refused"
   ],
   "note": "C196_dos_partial (without symmetries), C196_range (with the symmetries of the crystal) and C196_refused compose the models of C107, C158, C69, C104, C106, C165 and C178; the eigensolver and spglib are external calls.  C196_violated_shifts: with the file of the images, and unless there are as many lattice vectors as functions, every run reads beyond the bounds of the array of matrix elements on the device.  With symmetries the value depends on the choice of the tetrahedra (C178_violated_symmetry)."
  },
  {
   "property": "C197",
   "status": "partial",
   "theorems": [
    "Verif.Props.C197_same_partial",
    "Verif.Props.C197_violated_units",
    "Verif.Props.C197_dos_partial"
   ],
   "note": "C197_same_partial (files in eV/angstrom^2 or Ry/au^2; with charges only if no two atoms are of the same element) and C197_dos_partial (without symmetries and sum rule, at the wavevectors that fit the supercell) compose the models of C155, C158, C69, C95, C165, C178 and C192; the eigensolver and spglib are external calls.  C197_violated_units: files of phonopy in hartree/au^2 give the density of states of a crystal with half the force constants.  With symmetries the value depends on the choice of the tetrahedra (C178_violated_symmetry)."
  }
 ]
}