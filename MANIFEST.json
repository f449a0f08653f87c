{
 "claims": [
  {
   "property": "C01",
   "status": "proved",
   "theorems": [
    "CrystSymm.C01_normalize_range"
   ],
   "note": "Any ordered floor field (in particular the reals)."
  },
  {
   "property": "C02",
   "status": "proved",
   "theorems": [
    "CrystSymm.C02_normalize_idempotent",
    "CrystSymm.C02_normalize_canonical"
   ],
   "note": "Any ordered floor field; the exceptional face case is part of the statement and occurs."
  },
  {
   "property": "C03",
   "status": "proved",
   "theorems": [
    "CrystSymm.C03_normalize_range_rounded",
    "CrystSymm.C03_normalize_range_binary64"
   ],
   "note": "Model run over an abstract rounded scalar type (any monotone odd rounding with exact fmod), and over rounding to 53 bits, ties to even, as a function on the reals."
  },
  {
   "property": "C04",
   "status": "proved",
   "theorems": [
    "CrystSymm.C04_cust_eq_symm",
    "CrystSymm.C04_cust_eq_iff",
    "CrystSymm.C04_cust_eq_refl",
    "CrystSymm.C04_compare_matrices_iff",
    "CrystSymm.C04_num_negative_zero",
    "CrystSymm.C04_num_negative_zero_partition",
    "CrystSymm.C04_approx_equal_iter_iff",
    "CrystSymm.C04_approx_equal_iter_panics_iff"
   ],
   "note": "Exact arithmetic; symmetry of cust_eq for every scalar type."
  },
  {
   "property": "C05",
   "status": "proved",
   "theorems": [
    "CrystSymm.C05_decode_digits",
    "CrystSymm.C05_decode_injective",
    "CrystSymm.C05_decode_panics_iff"
   ],
   "note": "All naturals, so in particular all u32."
  },
  {
   "property": "C06",
   "status": "proved",
   "theorems": [
    "CrystSymm.C06_decode_spg_op_total",
    "CrystSymm.C06_decode_spg_op_injective",
    "CrystSymm.C06_decode_spg_op_surjective"
   ],
   "note": "All naturals, so in particular all u32."
  },
  {
   "property": "C07",
   "status": "proved",
   "theorems": [
    "CrystSymm.C07_is_approx_eq_iff",
    "CrystSymm.C07_is_approx_eq_refl",
    "CrystSymm.C07_is_approx_eq_symm",
    "CrystSymm.C07_is_approx_eq_lattice",
    "CrystSymm.C07_is_approx_eq_not_transitive"
   ],
   "note": "Characterisation as an iff; non-transitivity by witness."
  },
  {
   "property": "C08",
   "status": "partial",
   "theorems": [
    "CrystSymm.C08_product_is_not_composition",
    "CrystSymm.C08_product_is_composition_partial"
   ],
   "note": "False of the code (negation proved with a witness). Partial theorem: holds exactly when the rotations commute."
  },
  {
   "property": "C09",
   "status": "partial",
   "theorems": [
    "CrystSymm.C09_product_not_associative",
    "CrystSymm.C09_product_associative_partial",
    "CrystSymm.C09_identity"
   ],
   "note": "Associativity is false of the code (negation proved). Exact criterion and identity laws proved."
  },
  {
   "property": "C10",
   "status": "proved",
   "theorems": [
    "CrystSymm.C10_action_affine",
    "CrystSymm.C10_action_lattice",
    "CrystSymm.C10_action_isometry"
   ],
   "note": ""
  },
  {
   "property": "C11",
   "status": "proved",
   "theorems": [
    "CrystSymm.C11_new_fields",
    "CrystSymm.C11_new_consistent",
    "CrystSymm.C11_round_trip"
   ],
   "note": "Reals; pseudo-inverse modelled by the Hermitian functional calculus."
  },
  {
   "property": "C12",
   "status": "proved",
   "theorems": [
    "CrystSymm.C12_normalize_coords_discrete",
    "CrystSymm.C12_normalize_coords_same_sites",
    "CrystSymm.C12_normalize_coords_idempotent",
    "CrystSymm.C12_normalize_coords_in_cell"
   ],
   "note": "Discrete part for every scalar type; cell range and idempotence for exact arithmetic."
  },
  {
   "property": "C13",
   "status": "proved",
   "theorems": [
    "CrystSymm.C13_metric",
    "CrystSymm.C13_lengths",
    "CrystSymm.C13_angles",
    "CrystSymm.C13_volume"
   ],
   "note": "Reals."
  },
  {
   "property": "C14",
   "status": "proved",
   "theorems": [
    "CrystSymm.C14_reciprocal_panics_iff",
    "CrystSymm.C14_reciprocal_dual",
    "CrystSymm.C14_reciprocal_volume",
    "CrystSymm.C14_reciprocal_involutive"
   ],
   "note": "Reals."
  },
  {
   "property": "C15",
   "status": "proved",
   "theorems": [
    "CrystSymm.C15_get_transformation_matrix",
    "CrystSymm.C15_recovers_transformation"
   ],
   "note": "Reals."
  },
  {
   "property": "C16",
   "status": "proved",
   "theorems": [
    "CrystSymm.C16_apply_transformation_sound",
    "CrystSymm.C16_apply_transformation_no_duplicates",
    "CrystSymm.C16_apply_transformation_panics_iff"
   ],
   "note": "Reals; every terminating run. C17 gives runs that terminate."
  },
  {
   "property": "C17",
   "status": "proved",
   "theorems": [
    "CrystSymm.C17_supercell_complete"
   ],
   "note": "Reals; separation of sites is stated geometrically (SitesApart)."
  },
  {
   "property": "C18",
   "status": "partial",
   "theorems": [
    "CrystSymm.C18_false_sixfold_reduction",
    "CrystSymm.C18_false_coinciding_sites",
    "CrystSymm.C18_reduction_dichotomy_partial",
    "CrystSymm.C18_supercell_terminates_partial"
   ],
   "note": "False of the code (two witnesses that never return). Partial: integer T with separated sites terminates; for T with integer inverse the first pass decides."
  },
  {
   "property": "C19",
   "status": "proved",
   "theorems": [
    "CrystSymm.C19_get_min_element",
    "CrystSymm.C19_get_min_element_panics_iff",
    "CrystSymm.C19_get_min_element_order_independent"
   ],
   "note": "Every scalar type; all hash orders; fewer than 65536 sites."
  },
  {
   "property": "C20",
   "status": "partial",
   "theorems": [
    "CrystSymm.C20_formulas_partial",
    "CrystSymm.C20_formulas_order_independent",
    "CrystSymm.C20_false_128",
    "CrystSymm.C20_false_127"
   ],
   "note": "False from 127 equal atoms on (two witnesses). Partial: exact for at most 126 sites per element, any number of elements; order independence for all inputs."
  },
  {
   "property": "C21",
   "status": "proved",
   "theorems": [
    "CrystSymm.C21_delaunay_matrix_closes"
   ],
   "note": "Any commutative ring."
  },
  {
   "property": "C22",
   "status": "proved",
   "theorems": [
    "CrystSymm.C22_delaunay_keeps_crystal",
    "CrystSymm.C22_delaunay_keeps_crystal_of_size"
   ],
   "note": "needs the result (or, second theorem, the input) to be above the pseudo-inverse cut-off of the crate"
  },
  {
   "property": "C23",
   "status": "partial",
   "theorems": [
    "CrystSymm.C23_delaunay_reduced_partial",
    "CrystSymm.C23_delaunay_reduces_commensurate_partial",
    "CrystSymm.C23_false_returns_unreduced",
    "CrystSymm.C23_false_panics_on_reduced",
    "CrystSymm.C23_false_returns_unreduced_binary64",
    "CrystSymm.C23_false_panics_binary64"
   ],
   "note": "false: C23_false_returns_unreduced, C23_false_panics_on_reduced; partial theorems give the exact exception (100 or 101 iterations) and a sufficient condition"
  },
  {
   "property": "C24",
   "status": "partial",
   "theorems": [
    "CrystSymm.C24_niggli_keeps_crystal",
    "CrystSymm.C24_niggli_keeps_handedness_partial",
    "CrystSymm.C24_niggli_keeps_crystal_of_size",
    "CrystSymm.C24_false_handedness"
   ],
   "note": "lattice, volume and sites for all tolerances; handedness for 0<=eps<1 or left-handed; false for eps>=1 (C24_false_handedness)"
  },
  {
   "property": "C25",
   "status": "proved",
   "theorems": [
    "CrystSymm.C25_niggli_conditions"
   ],
   "note": "reals, 0 < eps < 1 as in the quantifier"
  },
  {
   "property": "C26",
   "status": "partial",
   "theorems": [
    "CrystSymm.C26_left_handed_unchanged_partial",
    "CrystSymm.C26_false_left_handed"
   ],
   "note": "false: left-handed cells are returned unchanged (C26_false_left_handed)"
  },
  {
   "property": "C27",
   "status": "partial",
   "theorems": [
    "CrystSymm.C27_false_panics_binary64",
    "CrystSymm.C27_niggli_returns_on_reduced_partial",
    "CrystSymm.C27_false_panics"
   ],
   "note": "false: C27_false_panics, also in double precision (C27_false_panics_binary64); cells already Niggli are returned. C82 gives the cells that are certain to be reduced."
  },
  {
   "property": "C28",
   "status": "partial",
   "theorems": [
    "CrystSymm.C28_primitive_right_handed_partial",
    "CrystSymm.C28_false_singular"
   ],
   "note": "False of the code: C28_false_singular exhibits a right-handed 2x4x3 cell whose primitive cell is returned with a singular lattice (default third_ind = 2 equals second_ind). Proved for every input that is primitive with a margin (NoTranslation) and whose scales exceed the tolerance: positive volume, a basis of the same lattice, volume kept. Non-primitive inputs are missing. C79 gives exact criteria for centred inputs."
  },
  {
   "property": "C29",
   "status": "partial",
   "theorems": [
    "CrystSymm.C29_primitive_vectors_are_translations",
    "CrystSymm.C29_primitive_sites_partial"
   ],
   "note": "Vectors: proved for all structures above the pseudo-inverse cut-off, all tolerances, all hash orders (distance bound 2*dtol, as the code uses). Sites: needs the new lattice above the cut-off (C28 shows it can be singular) and, for input positions outside the cell, allows an old lattice vector."
  },
  {
   "property": "C30",
   "status": "partial",
   "theorems": [
    "CrystSymm.C30_no_character_iff_partial",
    "CrystSymm.C30_false_no_character",
    "CrystSymm.C30_false_api"
   ],
   "note": "false: C30_false_no_character (an exact Niggli cell with three equal edges), C30_false_api, C83_equal_edges_panic (a crystal with a mirror plane). The partial theorem says exactly which right-handed cells panic; C83 says it in exact terms."
  },
  {
   "property": "C31",
   "status": "partial",
   "theorems": [
    "CrystSymm.C31_conventional_shape_partial",
    "CrystSymm.C31_standard_conventional_partial",
    "CrystSymm.C31_false_left_handed",
    "CrystSymm.C31_false_band"
   ],
   "note": "false in the band of products just below eps (C31_false_band, for every tolerance in (0,1/8)) and for left-handed cells (C31_false_left_handed). Partial: within 100 eps for every Niggli cell outside the band, all 44 characters."
  },
  {
   "property": "C32",
   "status": "proved",
   "theorems": [
    "CrystSymm.C32_tables_consistent",
    "CrystSymm.C32_same_lattice",
    "CrystSymm.C32_no_other_character",
    "CrystSymm.C32_handedness"
   ],
   "note": "All 44 characters, any ordered field; additionally the handedness (character 17 reverses it)."
  },
  {
   "property": "C33",
   "status": "proved",
   "theorems": [
    "CrystSymm.C33_point_group",
    "CrystSymm.C33_from_number_returns",
    "CrystSymm.C33_hash_order_irrelevant",
    "CrystSymm.C33_every_point_group",
    "CrystSymm.C33_bad_number_panics"
   ],
   "note": "All numbers and hash orders; the types of the operations and the orders are compared with an independent table."
  },
  {
   "property": "C34",
   "status": "proved",
   "theorems": [
    "CrystSymm.C34_generate_sound_complete",
    "CrystSymm.C34_generate_terminates"
   ],
   "note": "All generator lists and hash orders; generated set as an inductive predicate."
  },
  {
   "property": "C35",
   "status": "proved",
   "theorems": [
    "CrystSymm.C35_primitive_holohedry",
    "CrystSymm.C35_primitive_holohedry_returns"
   ],
   "note": "All Bravais types and hash orders, any ordered floor field."
  },
  {
   "property": "C36",
   "status": "proved",
   "theorems": [
    "CrystSymm.C36_change_of_basis",
    "CrystSymm.C36_structure_preserved",
    "CrystSymm.C36_panics_iff_singular",
    "CrystSymm.C36_round_trip"
   ],
   "note": "Any ordered floor field."
  },
  {
   "property": "C37",
   "status": "partial",
   "theorems": [
    "CrystSymm.C37_contains_generators_partial",
    "CrystSymm.C37_pairwise_different_partial",
    "CrystSymm.C37_terminates",
    "CrystSymm.C37_closed_partial",
    "CrystSymm.C37_false_not_closed",
    "CrystSymm.C37_table_groups_partial"
   ],
   "note": "False of the code for non-commuting rotations (P4_122 witness); proved: generators, distinctness, termination, closure for commuting rotations, exact list of the 21 table groups not preserved."
  },
  {
   "property": "C38",
   "status": "partial",
   "theorems": [
    "CrystSymm.C38_origin_partial",
    "CrystSymm.C38_change_of_basis_partial",
    "CrystSymm.C38_pairwise_different",
    "CrystSymm.C38_panics_iff_singular",
    "CrystSymm.C38_supercell_partial",
    "CrystSymm.C38_supercell_grid_partial",
    "CrystSymm.C38_false_not_a_symmetry",
    "CrystSymm.C38_false_no_result"
   ],
   "note": "False of the code: rotations whose image is not integral are kept and rounded when one entry is 0 or ±1 (witness); also no result for det 1/8. Proved: origin with rounded rotation for all inputs, exact images when all images are integral, pairwise difference, panic exactly on singular matrices, termination and completeness for integer matrices."
  },
  {
   "property": "C39",
   "status": "proved",
   "theorems": [
    "CrystSymm.C39_tables_are_groups",
    "CrystSymm.C39_each_group_once",
    "CrystSymm.C39_crystal_class",
    "CrystSymm.C39_tables_differ"
   ],
   "note": "All 230 entries, decoded as the identification does; composition as action on positions modulo lattice; also crystal class and system."
  },
  {
   "property": "C40",
   "status": "proved",
   "theorems": [
    "CrystSymm.C40_identification_sound",
    "CrystSymm.C40_identification_none"
   ],
   "note": "All tolerances and hash orders for a returned number; the case where nothing is returned and the panic are characterised exactly."
  },
  {
   "property": "C41",
   "status": "proved",
   "theorems": [
    "CrystSymm.C41_table_groups_recognised"
   ],
   "note": "All 230 groups, operations in any order, up to lattice vectors and the tolerance (at most 1/24 per component)."
  },
  {
   "property": "C42",
   "status": "partial",
   "theorems": [
    "CrystSymm.C42_lattice_shift_partial",
    "CrystSymm.C42_false_origin"
   ],
   "note": "False of the code: P-1 shifted by an eighth is not identified. Proved: independence of lattice translations."
  },
  {
   "property": "C43",
   "status": "partial",
   "theorems": [
    "CrystSymm.C43_rhombohedral_tables_partial",
    "CrystSymm.C43_false_never_rhombohedral"
   ],
   "note": "False of the code: get_space_group_info never reports a rhombohedral number. Proved: the identification would recognise them if asked for that system."
  },
  {
   "property": "C44",
   "status": "proved",
   "theorems": [
    "CrystSymm.C44_operations_are_symmetries"
   ],
   "note": "Over the reals, for every Searchable structure (equal lengths, < 65536 sites, species sorted, same-species sites more than 4*dtol apart modulo the lattice, dtol at most half an edge and at least 3e-9 edges) and every hash order. The distance bound is 2*dtol because that is the coincidence test of the code."
  },
  {
   "property": "C45",
   "status": "proved",
   "theorems": [
    "CrystSymm.C45_found_once",
    "CrystSymm.C45_symmetries_are_found",
    "CrystSymm.C45_search_returns"
   ],
   "note": "Same hypotheses as C44; the translation found differs by a lattice vector and < 1e-9 per fractional coordinate (the resolution of the integer keys). C45_found_once: every other operation found with the same rotation is more than three tolerances away. C45_search_returns: the search returns whenever there is a site."
  },
  {
   "property": "C46",
   "status": "proved",
   "theorems": [
    "CrystSymm.C46_total_transformation",
    "CrystSymm.C46_same_motion"
   ],
   "note": "C46_total_transformation is the claim, for lattices above the pseudo-inverse cut-off. C46_same_motion: as motions of space the operations agree when the rotations are integral in the input basis (otherwise see C38_false_not_a_symmetry)."
  },
  {
   "property": "C47",
   "status": "proved",
   "theorems": [
    "CrystSymm.C47_input_panics_iff",
    "CrystSymm.C47_input_fields",
    "CrystSymm.C47_round_trip",
    "CrystSymm.C47_structure_functions",
    "CrystSymm.C47_short_arguments_panic",
    "CrystSymm.C47_space_group_info"
   ],
   "note": "Any scalar type; all list lengths."
  },
  {
   "property": "C48",
   "status": "proved",
   "theorems": [
    "CrystSymm.C48_centering_round_trip",
    "CrystSymm.C48_centering_display",
    "CrystSymm.C48_lattice_system_round_trip",
    "CrystSymm.C48_lattice_system_display",
    "CrystSymm.C48_bravais_parts"
   ],
   "note": "Parsing characterised as an iff over all strings."
  },
  {
   "property": "C49",
   "status": "proved",
   "theorems": [
    "CrystSymm.C49_standard_cells",
    "CrystSymm.C49_standard_sites"
   ],
   "note": "C49_standard_cells for any ordered field; C49_standard_sites over the reals: every site of the standard cells is a site of the reduced cell modulo its lattice."
  },
  {
   "property": "C50",
   "status": "proved",
   "theorems": [
    "CrystSymm.C50_hash_order_irrelevant"
   ],
   "note": "Any scalar type (so also floats): no numeric assumption is used."
  },
  {
   "property": "C51",
   "status": "partial",
   "theorems": [
    "CrystSymm.C51_niggli_tol_zero_partial",
    "CrystSymm.C51_false_mixed_signs"
   ],
   "note": "false: zero products are accepted in type I (C51_false_mixed_signs); all other conditions proved"
  },
  {
   "property": "C53",
   "status": "proved",
   "theorems": [
    "CrystSymm.C53_reported_group"
   ],
   "note": "End-to-end statement about get_space_group_info: composes the operation search (C44, C45), the closure (C37) and the identification (C40); holds for every hash order and loop bound."
  },
  {
   "property": "C54",
   "status": "proved",
   "theorems": [
    "CrystSymm.C54_first_is_shortest",
    "CrystSymm.C54_second_third_are_shortest",
    "CrystSymm.C54_primitive_cell_vectors"
   ],
   "note": "Proved over the reals for every list on which the function returns; C54_primitive_cell_vectors says which vectors span the primitive cell of an input that is primitive with a margin (NoTranslation). When no vector has the required area or volume the code falls back to fixed positions; see C28_false_singular for the consequence."
  },
  {
   "property": "C57",
   "status": "partial",
   "theorems": [
    "CrystSymm.C57_primitive_partial",
    "CrystSymm.C57_false_not_primitive"
   ],
   "note": "False of the code: C57_false_not_primitive exhibits a cell (4, 3, 3.01) with three equal sites for which, with the default tolerances, the returned lattice misses an exact translation. Proved for every input that is primitive with a margin (NoTranslation) and whose scales exceed the tolerance: the returned cell spans the input lattice, keeps the volume and contains every exact translation. C79 gives exact criteria for centred inputs."
  },
  {
   "property": "C52",
   "status": "partial",
   "theorems": [
    "CrystSymm.C52_sites_represented_partial",
    "CrystSymm.C52_no_duplicate_sites",
    "CrystSymm.C52_false_species_lost"
   ],
   "note": "Proved: every site is represented up to 2 dtol, measured with the old lattice, and with its species when sites of different species are further apart than that; no duplicates. False in general: C52_false_species_lost (species A and B on one site, B is dropped)."
  },
  {
   "property": "C55",
   "status": "proved",
   "theorems": [
    "CrystSymm.C55_generated_translations_in_cell"
   ],
   "note": "All generators, tolerances in [0, 1] and any fuel, over every ordered field with floor."
  },
  {
   "property": "C56",
   "status": "partial",
   "theorems": [
    "CrystSymm.C56_lattice_identified",
    "CrystSymm.C56_one_atom_partial",
    "CrystSymm.C56_right_angles"
   ],
   "note": "Proved end to end, with hypotheses on the input only, for one atom at the origin of a cell with right angles and edges at least 24 times the distance tolerance (C56_right_angles: numbers 221, 123 and 47). For other cells proved given that the Niggli cell and a lattice character are returned, for every Bravais type except mI and hR and for input bases in which the holohedry has small entries. False for mI and hR: proved that the call then panics (no table of the system contains the holohedry)."
  },
  {
   "property": "C58",
   "status": "proved",
   "theorems": [
    "CrystSymm.C58_centring_and_class",
    "CrystSymm.C58_no_answer"
   ],
   "note": "Proved for every return with different rotations; that the rotations differ is a condition on the generated list and is not derived from the structure. The second part says that monoclinic structures in the body-centred setting and rhombohedral structures get no answer."
  },
  {
   "property": "C59",
   "status": "partial",
   "theorems": [
    "CrystSymm.C59_group_identified_partial",
    "CrystSymm.C59_false_not_identified",
    "CrystSymm.C59_reported_number",
    "CrystSymm.C59_false_screw_axis"
   ],
   "note": "False for the 21 groups whose operations are not closed under the product of the crate (crateBad): C59_false_not_identified shows that a structure with the symmetry of one of these is never identified, C59_false_screw_axis is a concrete one (P4_122). For the other 209: the search finds the operations of the entry once each, the closure adds nothing and the entry is identified. C59_reported_number is the statement about get_space_group_info: no other number is ever returned, and apart from the final change of basis of the operations the run returns the number of the entry. Cases: caesium chloride (221) and diamond (227)."
  },
  {
   "property": "C60",
   "status": "proved",
   "theorems": [
    "CrystSymm.C60_apply_transformation_tidy",
    "CrystSymm.C60_reductions_tidy",
    "CrystSymm.C60_standard_cells_tidy",
    "CrystSymm.C60_python_tidy"
   ],
   "note": "proved for every function that returns a structure and for the Python wrappers"
  },
  {
   "property": "C61",
   "status": "partial",
   "theorems": [
    "CrystSymm.C61_symbol_describes_operations_partial",
    "CrystSymm.C61_identified_symbol_partial",
    "CrystSymm.C61_false_two_symbols"
   ],
   "note": "Proved for 228 of the 230 numbers, for the stored tables and for identify_space_group; false for 19 and 24 (C61_false_two_symbols): their stored symbols lack an underscore. For the A-centred groups the primitive basis is that of the code with permuted axes, as the operations are."
  },
  {
   "property": "C62",
   "status": "partial",
   "theorems": [
    "CrystSymm.C62_niggli_idempotent_partial",
    "CrystSymm.C62_false_boundary"
   ],
   "note": "Holds unless a product of the result is exactly epsilon; C62_false_boundary gives a cell that the second call changes."
  },
  {
   "property": "C63",
   "status": "proved",
   "theorems": [
    "CrystSymm.C63_niggli_cell_unique",
    "CrystSymm.C63_niggli_exact",
    "CrystSymm.C63_niggli_independent",
    "CrystSymm.C63_false_fixed_tolerance"
   ],
   "note": "Uniqueness of the exact Niggli cell, and independence of the input cell for tolerances below a bound that depends on the lattice only; C63_false_fixed_tolerance shows that the bound is needed."
  },
  {
   "property": "C64",
   "status": "proved",
   "theorems": [
    "CrystSymm.C64_niggli_converges",
    "CrystSymm.C64_niggli_cell_exists",
    "CrystSymm.C64_niggli_cell_kept",
    "CrystSymm.C64_every_lattice_reducible"
   ],
   "note": "C64_niggli_converges: the number of iterations is bounded for each cell independently of the tolerance; the proof shows that each iteration lowers (A+B+C, A, B, -(|xi|+|eta|+|zeta|), |xi|, |eta|) lexicographically when the tolerance is below all non-zero differences. The theorem is about nigLoop with the number of iterations as a parameter; the code uses 100 (see C27)."
  },
  {
   "property": "C65",
   "status": "proved",
   "theorems": [
    "CrystSymm.C65_delaunay_converges"
   ],
   "note": "C65_delaunay_converges, about the loop with its number of iterations as a parameter; the code stops after 101 (see C23)."
  },
  {
   "property": "C66",
   "status": "proved",
   "theorems": [
    "CrystSymm.C66_full_no_obtuse_angle"
   ],
   "note": "C66_full_no_obtuse_angle; the hypothesis that the call without full reduction gives an obtuse superbase excludes the exceptions of C23."
  },
  {
   "property": "C67",
   "status": "partial",
   "theorems": [
    "CrystSymm.C67_false_never_shortest",
    "CrystSymm.C67_seven_contain_shortest_partial"
   ],
   "note": "False for every non-degenerate cell: C67_false_never_shortest (the code replaces one of the three shortest superbase vectors by a longer one, the conditions at src/reduce.rs:486-496 being reversed for that purpose). Proved: the seven candidates contain a shortest vector of the lattice."
  },
  {
   "property": "C68",
   "status": "proved",
   "theorems": [
    "CrystSymm.C68_seven_lengths",
    "CrystSymm.C68_delaunay_independent"
   ],
   "note": "Exactly obtuse superbases; exactObtuse_of_commensurate says when a superbase that is obtuse within 1e-6 is exactly obtuse."
  },
  {
   "property": "C69",
   "status": "proved",
   "theorems": [
    "CrystSymm.C69_symmetry_group",
    "CrystSymm.C69_primitive_group",
    "CrystSymm.C69_pipeline",
    "CrystSymm.C69_every_cell"
   ],
   "note": "holohedry of the reported Bravais type = full isometry group of the lattice, for exact Niggli cells and resolving tolerances; C69_every_cell: true below a bound depending on the lattice, for every cell"
  },
  {
   "property": "C70",
   "status": "proved",
   "theorems": [
    "CrystSymm.C70_symmetries_of_the_crystal_are_found",
    "CrystSymm.C70_reported_group_contains_symmetries",
    "CrystSymm.C70_one_atom"
   ],
   "note": "for exact Niggli cells with resolving tolerance, searchable structures and primitive cells; rotation exact, translation within dtol"
  },
  {
   "property": "C71",
   "status": "proved",
   "theorems": [
    "CrystSymm.C71_standard_cells",
    "CrystSymm.C71_input_symmetries_in_group",
    "CrystSymm.C71_right_angles"
   ],
   "note": "over the reals, for inputs satisfying CleanInput (conditions on the input alone); the conventional and standard primitive structures under the further condition that the Niggli reduction and the lattice character return, which C71_right_angles proves for cells with right angles"
  },
  {
   "property": "C72",
   "status": "proved",
   "theorems": [
    "CrystSymm.C72_primitive_cell_turns",
    "CrystSymm.C72_niggli_turns",
    "CrystSymm.C72_delaunay_turns",
    "CrystSymm.C72_transformation_turns",
    "CrystSymm.C72_standard_structures_turn",
    "CrystSymm.C72_space_group_info_turns",
    "CrystSymm.C72_cell_parameters"
   ],
   "note": "over the reals (exact arithmetic), for every structure and every rotation; equality of outcomes including failures"
  },
  {
   "property": "C73",
   "status": "partial",
   "theorems": [
    "CrystSymm.C73_unit_of_length_partial",
    "CrystSymm.C73_false_unit"
   ],
   "note": "False of the code: C73_false_unit gives one atom in a cell 10 x 10 x 10.000004 (221) that becomes 123 in a unit a hundred times smaller. Proved: coordinate normalisation, apply_transformation and the search for operations commute with a change of unit."
  },
  {
   "property": "C74",
   "status": "proved",
   "theorems": [
    "CrystSymm.C74_reported_group_is_the_symmetry_group",
    "CrystSymm.C74_operations_are_the_symmetries"
   ],
   "note": "ℝ arithmetic. All assumptions are on the input: CleanInput (primitive, atoms further apart than the tolerance can confuse, cell not flat), no pseudosymmetry (Resolved), origin on the grid of twelfths (GridOrigin), lattice clear-cut at the tolerance (ClearLattice; holds for every lattice at small tolerances, clearLattice_of_small); the second theorem also SmallMatrices. Inhabited by α-polonium (example: group 221, 48 operations)."
  },
  {
   "property": "C75",
   "status": "proved",
   "theorems": [
    "CrystSymm.C75_one_outcome"
   ],
   "note": "For arbitrary scalars. Seven functions with loops; the hash orders are fixed, since different orders can give different answers."
  },
  {
   "property": "C76",
   "status": "proved",
   "theorems": [
    "CrystSymm.C76_group_found",
    "CrystSymm.C76_reported_iff",
    "CrystSymm.C76_holohedral",
    "CrystSymm.C76_cubic_lattice_needs_threefold",
    "CrystSymm.C76_cubic_metric_no_answer"
   ],
   "note": "Both directions for get_space_group_info, for the class of inputs named; that the standard primitive structure is returned is assumed (clean_standard shows it when the Niggli reduction returns). The 21 groups of crateBad and the rhombohedral tables are excluded by the right-hand side, as the code never reports them."
  },
  {
   "property": "C77",
   "status": "proved",
   "theorems": [
    "CrystSymm.C77_primitive_cell",
    "CrystSymm.C77_reported_group",
    "CrystSymm.C77_operations",
    "CrystSymm.C77_reported_iff",
    "CrystSymm.C77_holohedral",
    "CrystSymm.C77_rock_salt_operations",
    "CrystSymm.C77_rock_salt",
    "CrystSymm.C77_body_centred"
   ],
   "note": "C77_primitive_cell: the cell found describes the same crystal; C77_reported_group, C77_operations, C77_reported_iff, C77_holohedral: C74, C76 for inputs that are not primitive (the volume of the cell found is a hypothesis, C57). C77_rock_salt (225) and C77_body_centred (229) discharge all hypotheses for two families of crystals, for all edges in a range."
  },
  {
   "property": "C78",
   "status": "partial",
   "theorems": [
    "CrystSymm.C78_silicon",
    "CrystSymm.C78_false_turned_axes",
    "CrystSymm.C78_same_number",
    "CrystSymm.C78_same_answer_partial"
   ],
   "note": "C78_same_number: two clean descriptions of one crystal never get different numbers. C78_same_answer_partial: if one is reported so is the other, except for the twelve groups of settingBad; for these the claim is false of the code (C78_silicon, C78_false_turned_axes: the diamond structure with every edge in a range is reported as 227 in the usual primitive cell and never in the cell turned by 90 degrees). C80 shows that it is a matter of the origin; C83_other_description removes the assumption that the standard primitive structure is returned."
  },
  {
   "property": "C79",
   "status": "partial",
   "theorems": [
    "CrystSymm.C79_body_centred_box",
    "CrystSymm.C79_false_base_centred",
    "CrystSymm.C79_false_face_centred",
    "CrystSymm.C79_body_centred",
    "CrystSymm.C79_base_centred_c",
    "CrystSymm.C79_base_centred_a",
    "CrystSymm.C79_base_centred_b",
    "CrystSymm.C79_face_centred",
    "CrystSymm.C79_rhombohedral_obverse",
    "CrystSymm.C79_rhombohedral_reverse",
    "CrystSymm.C79_no_answer"
   ],
   "note": "False of the code for some orders of the lengths. C79_body_centred, C79_base_centred_a/_b/_c and C79_face_centred are exact criteria: which cells give a primitive cell, and what is returned otherwise (volume unchanged, or zero). C79_rhombohedral_obverse/_reverse: hexagonal cells with rhombohedral centring always give a primitive cell. C79_no_answer: after a cell of volume zero get_space_group_info never returns. C79_false_base_centred and C79_false_face_centred: families of right-angled cells without an answer. Missing: left-handed cells, cells with further translations."
  },
  {
   "property": "C80",
   "status": "proved",
   "theorems": [
    "CrystSymm.C80_copy_number",
    "CrystSymm.C80_copy_origin"
   ],
   "note": "Exact real arithmetic, crystals of the class of C77 (no pseudosymmetry, origin on the grid of the tables). That the copy is reported at its own origin is false for some groups (C78); the second theorem says at which origins it is."
  },
  {
   "property": "C81",
   "status": "proved",
   "theorems": [
    "CrystSymm.C81_each_number",
    "CrystSymm.C81_no_other",
    "CrystSymm.C81_numbers"
   ],
   "note": "Exact real arithmetic. C81_numbers is the complete list; C81_each_number gives the crystals (they do not depend on the hash order or the angle tolerance); C81_no_other holds at every tolerance. The 28 missing numbers are those of C73 (translations composed in the wrong order) and C43 (rhombohedral tables never consulted)."
  },
  {
   "property": "C82",
   "status": "proved",
   "theorems": [
    "CrystSymm.C82_niggli_returns",
    "CrystSymm.C82_four_iterations",
    "CrystSymm.C82_buerger_cells",
    "CrystSymm.C82_commensurate",
    "CrystSymm.C82_commensurate_small"
   ],
   "note": "Exact real arithmetic. Sufficient conditions on the cell alone; C27 shows that without a condition the call can panic (the example puts skewCell 4, reduced, beside skewCell 120, which panics)."
  },
  {
   "property": "C83",
   "status": "proved",
   "theorems": [
    "CrystSymm.C83_standard_structures",
    "CrystSymm.C83_space_group",
    "CrystSymm.C83_other_description",
    "CrystSymm.C83_equal_edges_panic"
   ],
   "note": "Exact real arithmetic. C83_standard_structures is the equivalence; C83_space_group and C83_other_description restate C77 and C78 without assuming that a call returns; C83_equal_edges_panic is a symmetric crystal on which all functions panic."
  },
  {
   "property": "C84",
   "status": "proved",
   "theorems": [
    "CrystSymm.C84_every_run_ends",
    "CrystSymm.C84_turned_silicon_panics",
    "CrystSymm.C84_cubic_metric_panics"
   ],
   "note": "Exact real arithmetic. C84_every_run_ends gives the three cases with their conditions; C84_turned_silicon_panics and C84_cubic_metric_panics are two crystals of the third case. Which of the two messages appears is left open."
  },
  {
   "property": "C85",
   "status": "proved",
   "theorems": [
    "CrystSymm.C85_comparison",
    "CrystSymm.C85_from_generators_ends",
    "CrystSymm.C85_products_found",
    "CrystSymm.C85_identification_sound",
    "CrystSymm.C85_table_groups_recognised",
    "CrystSymm.C85_group_identified",
    "CrystSymm.C85_bad_group_not_identified",
    "CrystSymm.C85_binary64",
    "CrystSymm.C85_own_tables_binary64"
   ],
   "note": "Comparison, product, normalisation, from_generators and identify_space_group run over rounded numbers. C85_binary64 and C85_own_tables_binary64 are the IEEE double precision cases; infinities and overflow do not occur in the stated ranges."
  },
  {
   "property": "C86",
   "status": "proved",
   "theorems": [
    "CrystSymm.C86_binary64",
    "CrystSymm.C86_holohedry",
    "CrystSymm.C86_operations_are_symmetries",
    "CrystSymm.C86_symmetries_are_found",
    "CrystSymm.C86_group_identified",
    "CrystSymm.C86_bad_group_not_identified"
   ],
   "note": "The search runs over rounded numbers on a noisy structure. The exact, ideal structure occurs only in the specification (Approximates, HasSymmetry). C86_binary64 is the IEEE double precision case; overflow does not occur in the stated ranges. The steps before the search (primitive cell, Niggli reduction, change of basis) are not treated in rounded arithmetic."
  },
  {
   "property": "C87",
   "status": "proved",
   "theorems": [
    "CrystSymm.C87_standard_structures",
    "CrystSymm.C87_space_group_info",
    "CrystSymm.C87_python",
    "CrystSymm.C87_binary64",
    "CrystSymm.C87_python_binary64"
   ],
   "note": "All steps run over rounded numbers: primitive cell, Niggli reduction, lattice character, both changes of cell, search, closure, identification and the change of basis of the operations. pinv, sqrt and the cube root are modelled as correctly rounded entry by entry; overflow does not occur in the stated ranges. Restricted to diagonal cells with edges a < b < c, a = b < c or a = b = c, whose reduction takes no steps; species in any order, and the Python function with fractional or Cartesian coordinates."
  },
  {
   "property": "C88",
   "status": "proved",
   "theorems": [
    "CrystSymm.C88_niggli_keeps_crystal",
    "CrystSymm.C88_binary64"
   ],
   "note": "Any rounded arithmetic with relative error; 33 iterations in double precision because the change of basis must stay below 2^53 (C89 needs no such bound for its lattices). pinv is modelled as correctly rounded entry by entry. The example stands in Props/ExactNiggli.lean, beside the one for C89."
  },
  {
   "property": "C89",
   "status": "proved",
   "theorems": [
    "CrystSymm.C89_same_run",
    "CrystSymm.C89_reduced_cell",
    "CrystSymm.C89_returns",
    "CrystSymm.C89_buerger_cells",
    "CrystSymm.C89_binary64"
   ],
   "note": "Left-handed lattices are C26 (nothing is reduced). The cube root is modelled as correctly rounded; only its bounds are used. For tol = 1e-5, the tolerance of the analyzer, the condition is V^(1/3) at most about 25000 / 4^k: lattices of multiples of 1/32 with V^(1/3) up to 24."
  },
  {
   "property": "C90",
   "status": "proved",
   "theorems": [
    "CrystSymm.C90_same_character",
    "CrystSymm.C90_exact_shape",
    "CrystSymm.C90_symmetry_group",
    "CrystSymm.C90_independent",
    "CrystSymm.C90_standard_conventional",
    "CrystSymm.C90_binary64"
   ],
   "note": "Lattice character, exactness of the conventional cell and of its symmetry, independence of the cell, get_standard_conventional_structure under the hypothesis that the primitive cell consists of multiples of the unit; double precision as a case."
  },
  {
   "property": "C91",
   "status": "proved",
   "theorems": [
    "CrystSymm.C91_same_run",
    "CrystSymm.C91_same_lattice",
    "CrystSymm.C91_returns",
    "CrystSymm.C91_independent",
    "CrystSymm.C91_binary64"
   ],
   "note": "Same run as in exact arithmetic, exactly the same lattice, exactly obtuse result, atoms kept, independence of the cell; both values of full_reduction; double precision as a case. The exceptions of C23 carried over to double precision."
  },
  {
   "property": "C92",
   "status": "partial",
   "theorems": [
    "CrystSymm.C92_fixed_iff_reduced",
    "CrystSymm.C92_delaunay_idempotent_partial",
    "CrystSymm.C92_false_unreduced",
    "CrystSymm.C92_fixed_iff_reduced_rounded",
    "CrystSymm.C92_fixed_iff_reduced_binary64",
    "CrystSymm.C92_false_full"
   ],
   "note": "The fixed points of delaunay_reduce(false) are exactly the reduced cells (C92_fixed_iff_reduced; C92_fixed_iff_reduced_rounded and _binary64 in rounded arithmetic), hence a second call changes nothing (C92_delaunay_idempotent_partial). The last sentence of the claim is false of the code: C92_false_unreduced (cells with x >= 51 come back unreduced after 101 iterations without an error, and a second call changes them), C92_false_full (the box 1 x 2 x 4 with full_reduction)."
  },
  {
   "property": "C93",
   "status": "proved",
   "theorems": [
    "CrystSymm.C93_reductions",
    "CrystSymm.C93_names_are_labels",
    "CrystSymm.C93_same_answers",
    "CrystSymm.C93_python",
    "CrystSymm.C93_isostructural"
   ],
   "note": "Generic over all scalar operations. C93_reductions and C93_names_are_labels are for renamings that are strictly monotone on all strings, with corresponding hash orders (SameOrders); C93_same_answers removes the orders, C93_isostructural needs monotonicity only on the species that occur; C93_python is about the exported functions."
  },
  {
   "property": "C94",
   "status": "proved",
   "theorems": [
    "CrystSymm.C94_angle_tolerance_unused",
    "CrystSymm.C94_python"
   ],
   "note": "Generic over all scalar operations; the field is stored (src/reduce.rs:12, src/analyzer.rs:19) and never read."
  },
  {
   "property": "C95",
   "status": "proved",
   "theorems": [
    "CrystSymm.C95_fractional_positions",
    "CrystSymm.C95_cartesian_positions",
    "CrystSymm.C95_python"
   ],
   "note": "For arbitrary scalar types. Depends on the sort being stable, as Rust's sort_by is."
  },
  {
   "property": "C96",
   "status": "proved",
   "theorems": [
    "CrystSymm.C96_reductions",
    "CrystSymm.C96_reductions_panic",
    "CrystSymm.C96_periodic_images",
    "CrystSymm.C96_python",
    "CrystSymm.C96_false_on_face"
   ],
   "note": "Over the reals, for tolerances below the edges and atoms not exactly the tolerance below a face; for Cartesian input and for the reductions also cells above the cut-off of the pseudo-inverse. C96_false_on_face is a witness on a face (normalize_coords only)."
  },
  {
   "property": "C97",
   "status": "proved",
   "theorems": [
    "CrystSymm.C97_consistent_and_sorted",
    "CrystSymm.C97_in_cell",
    "CrystSymm.C97_stable",
    "CrystSymm.C97_binary64"
   ],
   "note": "Discrete part for any scalar type; the bounds and the stability under a second normalisation for any monotone rounding, with explicit conditions for binary64."
  },
  {
   "property": "C98",
   "status": "proved",
   "theorems": [
    "CrystSymm.C98_longest_edge",
    "CrystSymm.C98_false_doubled",
    "CrystSymm.C98_repeated_a",
    "CrystSymm.C98_repeated_b",
    "CrystSymm.C98_repeated_c"
   ],
   "note": "Exact criteria for each axis (C98_repeated_a/_b/_c); safe repetitions (C98_longest_edge); C98_false_doubled is the case in which the code gives no answer."
  },
  {
   "property": "C99",
   "status": "proved",
   "theorems": [
    "CrystSymm.C99_panics",
    "CrystSymm.C99_primitive_cell",
    "CrystSymm.C99_no_atoms",
    "CrystSymm.C99_tables_exact",
    "CrystSymm.C99_exact",
    "CrystSymm.C99_tables_rounded",
    "CrystSymm.C99_binary64",
    "CrystSymm.C99_negative"
   ],
   "note": "any arithmetic with usable tables; reals and double precision as instances; NaN in sorts not modelled"
  },
  {
   "property": "C100",
   "status": "proved",
   "theorems": [
    "CrystSymm.C100_cut",
    "CrystSymm.C100_python",
    "CrystSymm.C100_python_panics",
    "CrystSymm.C100_false_transformation"
   ],
   "note": "any arithmetic; exception for apply_transformation refuted by C100_false_transformation"
  },
  {
   "property": "C101",
   "status": "proved",
   "theorems": [
    "CrystSymm.C101_false_no_group",
    "CrystSymm.C101_right_handed",
    "CrystSymm.C101_compact",
    "CrystSymm.C101_false_left_handed"
   ],
   "note": "Two safe families (C101_right_handed, C101_compact) and one failing family (C101_false_left_handed), with a failing crystal for all hash orders (C101_false_no_group)."
  },
  {
   "property": "C102",
   "status": "proved",
   "theorems": [
    "CrystSymm.C102_distinct_lengths",
    "CrystSymm.C102_permuted",
    "CrystSymm.C102_false_atom_order"
   ],
   "note": "Independence for pairwise different lengths (C102_distinct_lengths, C102_permuted); dependence on the order of the atoms for equal lengths (C102_false_atom_order)."
  },
  {
   "property": "C103",
   "status": "proved",
   "theorems": [
    "CrystSymm.C103_same_lattice",
    "CrystSymm.C103_double",
    "CrystSymm.C103_no_answer",
    "CrystSymm.C103_false_atom_order"
   ],
   "note": "Equality of the lattices in exact and in double arithmetic for cubes with sites at halves (C103_same_lattice, C103_double); the two orders of four atoms in double arithmetic (C103_false_atom_order, C103_no_answer)."
  }
 ]
}