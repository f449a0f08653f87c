{
 "C01": {
  "note": "Any ordered floor field (in particular the reals)."
 },
 "C02": {
  "note": "Any ordered floor field; the exceptional face case is part of the statement and occurs."
 },
 "C03": {
  "note": "Model run over an abstract rounded scalar type (any monotone odd rounding with exact fmod), and over rounding to 53 bits, ties to even, as a function on the reals.",
  "status": "proved"
 },
 "C04": {
  "note": "Exact arithmetic; symmetry of cust_eq for every scalar type."
 },
 "C05": {
  "note": "All naturals, so in particular all u32."
 },
 "C06": {
  "note": "All naturals, so in particular all u32."
 },
 "C07": {
  "note": "Characterisation as an iff; non-transitivity by witness."
 },
 "C08": {
  "status": "partial",
  "note": "False of the code (negation proved with a witness). Partial theorem: holds exactly when the rotations commute."
 },
 "C09": {
  "status": "partial",
  "note": "Associativity is false of the code (negation proved). Exact criterion and identity laws proved."
 },
 "C10": {
  "note": ""
 },
 "C100": {
  "note": "any arithmetic; exception for apply_transformation refuted by C100_false_transformation",
  "status": "proved"
 },
 "C101": {
  "note": "Two safe families (C101_right_handed, C101_compact) and one failing family (C101_false_left_handed), with a failing crystal for all hash orders (C101_false_no_group).",
  "status": "proved"
 },
 "C102": {
  "note": "Independence for pairwise different lengths (C102_distinct_lengths, C102_permuted); dependence on the order of the atoms for equal lengths (C102_false_atom_order).",
  "status": "proved"
 },
 "C103": {
  "note": "Equality of the lattices in exact and in double arithmetic for cubes with sites at halves (C103_same_lattice, C103_double); the two orders of four atoms in double arithmetic (C103_false_atom_order, C103_no_answer).",
  "status": "proved"
 },
 "C11": {
  "note": "Reals; pseudo-inverse modelled by the Hermitian functional calculus."
 },
 "C12": {
  "note": "Discrete part for every scalar type; cell range and idempotence for exact arithmetic."
 },
 "C13": {
  "note": "Reals."
 },
 "C14": {
  "note": "Reals."
 },
 "C15": {
  "note": "Reals."
 },
 "C16": {
  "note": "Reals; every terminating run. C17 gives runs that terminate."
 },
 "C17": {
  "note": "Reals; separation of sites is stated geometrically (SitesApart)."
 },
 "C18": {
  "note": "False of the code (two witnesses that never return). Partial: integer T with separated sites terminates; for T with integer inverse the first pass decides.",
  "status": "partial"
 },
 "C19": {
  "note": "Every scalar type; all hash orders; fewer than 65536 sites."
 },
 "C20": {
  "note": "False from 127 equal atoms on (two witnesses). Partial: exact for at most 126 sites per element, any number of elements; order independence for all inputs.",
  "status": "partial"
 },
 "C21": {
  "note": "Any commutative ring."
 },
 "C22": {
  "note": "needs the result (or, second theorem, the input) to be above the pseudo-inverse cut-off of the crate",
  "status": "proved"
 },
 "C23": {
  "note": "false: C23_false_returns_unreduced, C23_false_panics_on_reduced; partial theorems give the exact exception (100 or 101 iterations) and a sufficient condition",
  "status": "partial"
 },
 "C24": {
  "note": "lattice, volume and sites for all tolerances; handedness for 0<=eps<1 or left-handed; false for eps>=1 (C24_false_handedness)",
  "status": "partial"
 },
 "C25": {
  "note": "reals, 0 < eps < 1 as in the quantifier",
  "status": "proved"
 },
 "C26": {
  "note": "false: left-handed cells are returned unchanged (C26_false_left_handed)",
  "status": "partial"
 },
 "C27": {
  "note": "false: C27_false_panics, also in double precision (C27_false_panics_binary64); cells already Niggli are returned. C82 gives the cells that are certain to be reduced.",
  "status": "partial"
 },
 "C28": {
  "note": "False of the code: C28_false_singular exhibits a right-handed 2x4x3 cell whose primitive cell is returned with a singular lattice (default third_ind = 2 equals second_ind). Proved for every input that is primitive with a margin (NoTranslation) and whose scales exceed the tolerance: positive volume, a basis of the same lattice, volume kept. Non-primitive inputs are missing. C79 gives exact criteria for centred inputs.",
  "status": "partial"
 },
 "C29": {
  "note": "Vectors: proved for all structures above the pseudo-inverse cut-off, all tolerances, all hash orders (distance bound 2*dtol, as the code uses). Sites: needs the new lattice above the cut-off (C28 shows it can be singular) and, for input positions outside the cell, allows an old lattice vector.",
  "status": "partial"
 },
 "C30": {
  "note": "false: C30_false_no_character (an exact Niggli cell with three equal edges), C30_false_api, C83_equal_edges_panic (a crystal with a mirror plane). The partial theorem says exactly which right-handed cells panic; C83 says it in exact terms.",
  "status": "partial"
 },
 "C31": {
  "note": "false in the band of products just below eps (C31_false_band, for every tolerance in (0,1/8)) and for left-handed cells (C31_false_left_handed). Partial: within 100 eps for every Niggli cell outside the band, all 44 characters.",
  "status": "partial"
 },
 "C32": {
  "note": "All 44 characters, any ordered field; additionally the handedness (character 17 reverses it)."
 },
 "C33": {
  "note": "All numbers and hash orders; the types of the operations and the orders are compared with an independent table."
 },
 "C34": {
  "note": "All generator lists and hash orders; generated set as an inductive predicate."
 },
 "C35": {
  "note": "All Bravais types and hash orders, any ordered floor field."
 },
 "C36": {
  "note": "Any ordered floor field."
 },
 "C37": {
  "note": "False of the code for non-commuting rotations (P4_122 witness); proved: generators, distinctness, termination, closure for commuting rotations, exact list of the 21 table groups not preserved.",
  "status": "partial"
 },
 "C38": {
  "note": "False of the code: rotations whose image is not integral are kept and rounded when one entry is 0 or ±1 (witness); also no result for det 1/8. Proved: origin with rounded rotation for all inputs, exact images when all images are integral, pairwise difference, panic exactly on singular matrices, termination and completeness for integer matrices.",
  "status": "partial"
 },
 "C39": {
  "note": "All 230 entries, decoded as the identification does; composition as action on positions modulo lattice; also crystal class and system."
 },
 "C40": {
  "note": "All tolerances and hash orders for a returned number; the case where nothing is returned and the panic are characterised exactly."
 },
 "C41": {
  "note": "All 230 groups, operations in any order, up to lattice vectors and the tolerance (at most 1/24 per component)."
 },
 "C42": {
  "note": "False of the code: P-1 shifted by an eighth is not identified. Proved: independence of lattice translations.",
  "status": "partial"
 },
 "C43": {
  "note": "False of the code: get_space_group_info never reports a rhombohedral number. Proved: the identification would recognise them if asked for that system.",
  "status": "partial"
 },
 "C44": {
  "note": "Over the reals, for every Searchable structure (equal lengths, < 65536 sites, species sorted, same-species sites more than 4*dtol apart modulo the lattice, dtol at most half an edge and at least 3e-9 edges) and every hash order. The distance bound is 2*dtol because that is the coincidence test of the code."
 },
 "C45": {
  "note": "Same hypotheses as C44; the translation found differs by a lattice vector and < 1e-9 per fractional coordinate (the resolution of the integer keys). C45_found_once: every other operation found with the same rotation is more than three tolerances away. C45_search_returns: the search returns whenever there is a site."
 },
 "C46": {
  "note": "C46_total_transformation is the claim, for lattices above the pseudo-inverse cut-off. C46_same_motion: as motions of space the operations agree when the rotations are integral in the input basis (otherwise see C38_false_not_a_symmetry)."
 },
 "C47": {
  "note": "Any scalar type; all list lengths."
 },
 "C48": {
  "note": "Parsing characterised as an iff over all strings."
 },
 "C49": {
  "note": "C49_standard_cells for any ordered field; C49_standard_sites over the reals: every site of the standard cells is a site of the reduced cell modulo its lattice."
 },
 "C50": {
  "note": "Any scalar type (so also floats): no numeric assumption is used."
 },
 "C51": {
  "note": "false: zero products are accepted in type I (C51_false_mixed_signs); all other conditions proved",
  "status": "partial"
 },
 "C52": {
  "note": "Proved: every site is represented up to 2 dtol, measured with the old lattice, and with its species when sites of different species are further apart than that; no duplicates. False in general: C52_false_species_lost (species A and B on one site, B is dropped).",
  "status": "partial"
 },
 "C53": {
  "note": "End-to-end statement about get_space_group_info: composes the operation search (C44, C45), the closure (C37) and the identification (C40); holds for every hash order and loop bound."
 },
 "C54": {
  "note": "Proved over the reals for every list on which the function returns; C54_primitive_cell_vectors says which vectors span the primitive cell of an input that is primitive with a margin (NoTranslation). When no vector has the required area or volume the code falls back to fixed positions; see C28_false_singular for the consequence.",
  "status": "proved"
 },
 "C55": {
  "note": "All generators, tolerances in [0, 1] and any fuel, over every ordered field with floor."
 },
 "C56": {
  "note": "Proved end to end, with hypotheses on the input only, for one atom at the origin of a cell with right angles and edges at least 24 times the distance tolerance (C56_right_angles: numbers 221, 123 and 47). For other cells proved given that the Niggli cell and a lattice character are returned, for every Bravais type except mI and hR and for input bases in which the holohedry has small entries. False for mI and hR: proved that the call then panics (no table of the system contains the holohedry).",
  "status": "partial"
 },
 "C57": {
  "note": "False of the code: C57_false_not_primitive exhibits a cell (4, 3, 3.01) with three equal sites for which, with the default tolerances, the returned lattice misses an exact translation. Proved for every input that is primitive with a margin (NoTranslation) and whose scales exceed the tolerance: the returned cell spans the input lattice, keeps the volume and contains every exact translation. C79 gives exact criteria for centred inputs.",
  "status": "partial"
 },
 "C58": {
  "note": "Proved for every return with different rotations; that the rotations differ is a condition on the generated list and is not derived from the structure. The second part says that monoclinic structures in the body-centred setting and rhombohedral structures get no answer.",
  "status": "proved"
 },
 "C59": {
  "note": "False for the 21 groups whose operations are not closed under the product of the crate (crateBad): C59_false_not_identified shows that a structure with the symmetry of one of these is never identified, C59_false_screw_axis is a concrete one (P4_122). For the other 209: the search finds the operations of the entry once each, the closure adds nothing and the entry is identified. C59_reported_number is the statement about get_space_group_info: no other number is ever returned, and apart from the final change of basis of the operations the run returns the number of the entry. Cases: caesium chloride (221) and diamond (227).",
  "status": "partial"
 },
 "C60": {
  "note": "proved for every function that returns a structure and for the Python wrappers"
 },
 "C61": {
  "note": "Proved for 228 of the 230 numbers, for the stored tables and for identify_space_group; false for 19 and 24 (C61_false_two_symbols): their stored symbols lack an underscore. For the A-centred groups the primitive basis is that of the code with permuted axes, as the operations are.",
  "status": "partial"
 },
 "C62": {
  "note": "Holds unless a product of the result is exactly epsilon; C62_false_boundary gives a cell that the second call changes.",
  "status": "partial"
 },
 "C63": {
  "note": "Uniqueness of the exact Niggli cell, and independence of the input cell for tolerances below a bound that depends on the lattice only; C63_false_fixed_tolerance shows that the bound is needed.",
  "status": "proved"
 },
 "C64": {
  "note": "C64_niggli_converges: the number of iterations is bounded for each cell independently of the tolerance; the proof shows that each iteration lowers (A+B+C, A, B, -(|xi|+|eta|+|zeta|), |xi|, |eta|) lexicographically when the tolerance is below all non-zero differences. The theorem is about nigLoop with the number of iterations as a parameter; the code uses 100 (see C27).",
  "status": "proved"
 },
 "C65": {
  "note": "C65_delaunay_converges, about the loop with its number of iterations as a parameter; the code stops after 101 (see C23).",
  "status": "proved"
 },
 "C66": {
  "note": "C66_full_no_obtuse_angle; the hypothesis that the call without full reduction gives an obtuse superbase excludes the exceptions of C23.",
  "status": "proved"
 },
 "C67": {
  "note": "False for every non-degenerate cell: C67_false_never_shortest (the code replaces one of the three shortest superbase vectors by a longer one, the conditions at src/reduce.rs:486-496 being reversed for that purpose). Proved: the seven candidates contain a shortest vector of the lattice.",
  "status": "partial"
 },
 "C68": {
  "note": "Exactly obtuse superbases; exactObtuse_of_commensurate says when a superbase that is obtuse within 1e-6 is exactly obtuse.",
  "status": "proved"
 },
 "C69": {
  "note": "holohedry of the reported Bravais type = full isometry group of the lattice, for exact Niggli cells and resolving tolerances; C69_every_cell: true below a bound depending on the lattice, for every cell",
  "status": "proved"
 },
 "C70": {
  "note": "for exact Niggli cells with resolving tolerance, searchable structures and primitive cells; rotation exact, translation within dtol",
  "status": "proved"
 },
 "C71": {
  "note": "over the reals, for inputs satisfying CleanInput (conditions on the input alone); the conventional and standard primitive structures under the further condition that the Niggli reduction and the lattice character return, which C71_right_angles proves for cells with right angles",
  "status": "proved"
 },
 "C72": {
  "note": "over the reals (exact arithmetic), for every structure and every rotation; equality of outcomes including failures",
  "status": "proved"
 },
 "C73": {
  "note": "False of the code: C73_false_unit gives one atom in a cell 10 x 10 x 10.000004 (221) that becomes 123 in a unit a hundred times smaller. Proved: coordinate normalisation, apply_transformation and the search for operations commute with a change of unit.",
  "status": "partial"
 },
 "C74": {
  "note": "ℝ arithmetic. All assumptions are on the input: CleanInput (primitive, atoms further apart than the tolerance can confuse, cell not flat), no pseudosymmetry (Resolved), origin on the grid of twelfths (GridOrigin), lattice clear-cut at the tolerance (ClearLattice; holds for every lattice at small tolerances, clearLattice_of_small); the second theorem also SmallMatrices. Inhabited by α-polonium (example: group 221, 48 operations).",
  "status": "proved"
 },
 "C75": {
  "note": "For arbitrary scalars. Seven functions with loops; the hash orders are fixed, since different orders can give different answers.",
  "status": "proved"
 },
 "C76": {
  "note": "Both directions for get_space_group_info, for the class of inputs named; that the standard primitive structure is returned is assumed (clean_standard shows it when the Niggli reduction returns). The 21 groups of crateBad and the rhombohedral tables are excluded by the right-hand side, as the code never reports them.",
  "status": "proved"
 },
 "C77": {
  "note": "C77_primitive_cell: the cell found describes the same crystal; C77_reported_group, C77_operations, C77_reported_iff, C77_holohedral: C74, C76 for inputs that are not primitive (the volume of the cell found is a hypothesis, C57). C77_rock_salt (225) and C77_body_centred (229) discharge all hypotheses for two families of crystals, for all edges in a range.",
  "status": "proved"
 },
 "C78": {
  "note": "C78_same_number: two clean descriptions of one crystal never get different numbers. C78_same_answer_partial: if one is reported so is the other, except for the twelve groups of settingBad; for these the claim is false of the code (C78_silicon, C78_false_turned_axes: the diamond structure with every edge in a range is reported as 227 in the usual primitive cell and never in the cell turned by 90 degrees). C80 shows that it is a matter of the origin; C83_other_description removes the assumption that the standard primitive structure is returned.",
  "status": "partial"
 },
 "C79": {
  "note": "False of the code for some orders of the lengths. C79_body_centred, C79_base_centred_a/_b/_c and C79_face_centred are exact criteria: which cells give a primitive cell, and what is returned otherwise (volume unchanged, or zero). C79_rhombohedral_obverse/_reverse: hexagonal cells with rhombohedral centring always give a primitive cell. C79_no_answer: after a cell of volume zero get_space_group_info never returns. C79_false_base_centred and C79_false_face_centred: families of right-angled cells without an answer. Missing: left-handed cells, cells with further translations.",
  "status": "partial"
 },
 "C80": {
  "note": "Exact real arithmetic, crystals of the class of C77 (no pseudosymmetry, origin on the grid of the tables). That the copy is reported at its own origin is false for some groups (C78); the second theorem says at which origins it is.",
  "status": "proved"
 },
 "C81": {
  "note": "Exact real arithmetic. C81_numbers is the complete list; C81_each_number gives the crystals (they do not depend on the hash order or the angle tolerance); C81_no_other holds at every tolerance. The 28 missing numbers are those of C73 (translations composed in the wrong order) and C43 (rhombohedral tables never consulted).",
  "status": "proved"
 },
 "C82": {
  "note": "Exact real arithmetic. Sufficient conditions on the cell alone; C27 shows that without a condition the call can panic (the example puts skewCell 4, reduced, beside skewCell 120, which panics).",
  "status": "proved"
 },
 "C83": {
  "note": "Exact real arithmetic. C83_standard_structures is the equivalence; C83_space_group and C83_other_description restate C77 and C78 without assuming that a call returns; C83_equal_edges_panic is a symmetric crystal on which all functions panic.",
  "status": "proved"
 },
 "C84": {
  "note": "Exact real arithmetic. C84_every_run_ends gives the three cases with their conditions; C84_turned_silicon_panics and C84_cubic_metric_panics are two crystals of the third case. Which of the two messages appears is left open.",
  "status": "proved"
 },
 "C85": {
  "note": "Comparison, product, normalisation, from_generators and identify_space_group run over rounded numbers. C85_binary64 and C85_own_tables_binary64 are the IEEE double precision cases; infinities and overflow do not occur in the stated ranges.",
  "status": "proved"
 },
 "C86": {
  "note": "The search runs over rounded numbers on a noisy structure. The exact, ideal structure occurs only in the specification (Approximates, HasSymmetry). C86_binary64 is the IEEE double precision case; overflow does not occur in the stated ranges. The steps before the search (primitive cell, Niggli reduction, change of basis) are not treated in rounded arithmetic.",
  "status": "proved"
 },
 "C87": {
  "note": "All steps run over rounded numbers: primitive cell, Niggli reduction, lattice character, both changes of cell, search, closure, identification and the change of basis of the operations. pinv, sqrt and the cube root are modelled as correctly rounded entry by entry; overflow does not occur in the stated ranges. Restricted to diagonal cells with edges a < b < c, a = b < c or a = b = c, whose reduction takes no steps; species in any order, and the Python function with fractional or Cartesian coordinates.",
  "status": "proved"
 },
 "C88": {
  "note": "Any rounded arithmetic with relative error; 33 iterations in double precision because the change of basis must stay below 2^53 (C89 needs no such bound for its lattices). pinv is modelled as correctly rounded entry by entry. The example stands in Props/ExactNiggli.lean, beside the one for C89.",
  "status": "proved"
 },
 "C89": {
  "note": "Left-handed lattices are C26 (nothing is reduced). The cube root is modelled as correctly rounded; only its bounds are used. For tol = 1e-5, the tolerance of the analyzer, the condition is V^(1/3) at most about 25000 / 4^k: lattices of multiples of 1/32 with V^(1/3) up to 24.",
  "status": "proved"
 },
 "C90": {
  "note": "Lattice character, exactness of the conventional cell and of its symmetry, independence of the cell, get_standard_conventional_structure under the hypothesis that the primitive cell consists of multiples of the unit; double precision as a case.",
  "status": "proved"
 },
 "C91": {
  "note": "Same run as in exact arithmetic, exactly the same lattice, exactly obtuse result, atoms kept, independence of the cell; both values of full_reduction; double precision as a case. The exceptions of C23 carried over to double precision.",
  "status": "proved"
 },
 "C92": {
  "note": "The fixed points of delaunay_reduce(false) are exactly the reduced cells (C92_fixed_iff_reduced; C92_fixed_iff_reduced_rounded and _binary64 in rounded arithmetic), hence a second call changes nothing (C92_delaunay_idempotent_partial). The last sentence of the claim is false of the code: C92_false_unreduced (cells with x >= 51 come back unreduced after 101 iterations without an error, and a second call changes them), C92_false_full (the box 1 x 2 x 4 with full_reduction).",
  "status": "partial"
 },
 "C93": {
  "note": "Generic over all scalar operations. C93_reductions and C93_names_are_labels are for renamings that are strictly monotone on all strings, with corresponding hash orders (SameOrders); C93_same_answers removes the orders, C93_isostructural needs monotonicity only on the species that occur; C93_python is about the exported functions.",
  "status": "proved"
 },
 "C94": {
  "note": "Generic over all scalar operations; the field is stored (src/reduce.rs:12, src/analyzer.rs:19) and never read.",
  "status": "proved"
 },
 "C95": {
  "note": "For arbitrary scalar types. Depends on the sort being stable, as Rust's sort_by is.",
  "status": "proved"
 },
 "C96": {
  "note": "Over the reals, for tolerances below the edges and atoms not exactly the tolerance below a face; for Cartesian input and for the reductions also cells above the cut-off of the pseudo-inverse. C96_false_on_face is a witness on a face (normalize_coords only).",
  "status": "proved"
 },
 "C97": {
  "note": "Discrete part for any scalar type; the bounds and the stability under a second normalisation for any monotone rounding, with explicit conditions for binary64.",
  "status": "proved"
 },
 "C98": {
  "note": "Exact criteria for each axis (C98_repeated_a/_b/_c); safe repetitions (C98_longest_edge); C98_false_doubled is the case in which the code gives no answer.",
  "status": "proved"
 },
 "C99": {
  "note": "any arithmetic with usable tables; reals and double precision as instances; NaN in sorts not modelled",
  "status": "proved"
 }
}