{"id": "C01", "title": "Normalised coordinates lie in the cell", "statement": "normalize_frac_vectors replaces every component by a value in the closed interval [-tol, 1-tol] that differs from the input by an integer; number and order of the vectors do not change.", "quantifier": "all lists of vectors, all real components, all per-axis tolerances with 0 <= tol <= 1", "why_tests_cant": "The input ranges over a continuum; the interesting cases are at the cell faces and for negative values, and a test only looks at a few points.", "anchors": ["src/utils.rs:normalize_frac_vectors"]}
{"id": "C02", "title": "Normalisation is idempotent and canonical", "statement": "Normalising twice equals normalising once, and two vectors that differ by a lattice translation get the same normal form, the only exception being a component that sits exactly on the face (-tol versus 1-tol).", "quantifier": "all real vectors, all integer lattice translations, all tolerances with 0 <= tol < 1", "why_tests_cant": "Idempotence and canonicity are relations between unboundedly many inputs.", "anchors": ["src/utils.rs:normalize_frac_vectors"]}
{"id": "C03", "title": "Normalisation survives rounding", "statement": "The range guarantee of normalize_frac_vectors holds when every addition and subtraction is rounded, not only in exact arithmetic.", "quantifier": "all rounding functions that are monotone, odd and fix 0, 1 and the representable numbers (in particular IEEE-754 round-to-nearest away from overflow), all representable inputs, all tolerances in [0,1]", "why_tests_cant": "A test exercises a handful of doubles out of 2^64 and only one rounding mode.", "anchors": ["src/utils.rs:normalize_frac_vectors"]}
{"id": "C04", "title": "Tolerant comparison primitives mean what they say", "statement": "cust_eq(a,b,eps) holds exactly when |a-b| <= eps and is symmetric and (eps >= 0) reflexive; compare_matrices is its conjunction over the nine entries and never panics with nine tolerances; num_negative_zero partitions its input into negative, near-zero and positive values; approx_equal_iter panics exactly on a length mismatch.", "quantifier": "all real numbers, matrices, lists of fewer than 128 values and tolerances", "why_tests_cant": "The claims are equivalences over all reals; the borderline values are where tests are blind.", "anchors": ["src/utils.rs:cust_eq", "src/utils.rs:compare_matrices", "src/utils.rs:num_negative_zero", "src/utils.rs:approx_equal", "src/utils.rs:approx_equal_iter"]}
{"id": "C05", "title": "decode is the inverse of base-b positional encoding", "statement": "decode(e, base, sub, len) returns exactly len digits, most significant first, each in [-sub, base-1-sub], and re-encoding the digits gives e modulo base^len; so it is injective on e < base^len.", "quantifier": "all 32-bit e, all bases 1..127, every len, every sub for which base-1-sub and -sub fit in i8", "why_tests_cant": "There are 2^32 encodings for each base; a unit test decodes one number.", "anchors": ["src/utils.rs:decode"]}
{"id": "C06", "title": "decode_spg_op is total, well-ranged and injective", "statement": "decode_spg_op never panics on any u32, always returns nine entries in {-1,0,1} and three entries in {0,2,3,4,6,8,9,10}, and different codes below 3^9*8^3 give different operations, every such combination being reached.", "quantifier": "all 32-bit codes", "why_tests_cant": "2^32 codes; the claim includes absence of an out-of-bounds panic and injectivity, which is a statement about pairs.", "anchors": ["src/utils.rs:decode_spg_op"]}
{"id": "C07", "title": "Approximate equality of operations", "statement": "is_approx_eq holds exactly when the rotations are equal and every component of the translation difference is within its tolerance of an integer; it is therefore reflexive, symmetric, invariant under lattice translations of either operation, but not transitive.", "quantifier": "all pairs (and triples) of operations, all tolerances with 0 < tol <= 1/2", "why_tests_cant": "The relation is over a continuum, and the modular wrap-around makes the interesting cases the ones nobody writes down.", "anchors": ["src/symmop.rs:SymmOp::is_approx_eq"]}
{"id": "C08", "title": "The product of operations is their composition", "statement": "Applying S1 * S2 to a point gives the same point as applying the two operations one after the other in some fixed order.", "quantifier": "all pairs of operations and all points", "why_tests_cant": "The unit test checks the translation of one product of two operations, but never that the product acts as a composition.", "anchors": ["src/symmop.rs:Mul for SymmOp", "src/symmop.rs:Mul<Vector3<f64>> for SymmOp"]}
{"id": "C09", "title": "The product of operations is associative with identity", "statement": "(S1*S2)*S3 = S1*(S2*S3) and {1|0} is a two-sided identity.", "quantifier": "all triples of operations", "why_tests_cant": "Algebraic law over all triples.", "anchors": ["src/symmop.rs:Mul for SymmOp"]}
{"id": "C10", "title": "Operations act as affine maps compatible with the lattice", "statement": "S*x - S*y is the rotation applied to x - y, lattice-equivalent points go to lattice-equivalent points, and if the rotation preserves the metric tensor then S preserves distances.", "quantifier": "all operations, all points, all integer lattice vectors, all metric tensors", "why_tests_cant": "Universal over points and lattice vectors.", "anchors": ["src/symmop.rs:Mul<Vector3<f64>> for SymmOp"]}
{"id": "C11", "title": "Cartesian and fractional coordinates agree", "statement": "Structure::new produces cartesian coordinates equal to lattice times fractional coordinates, whichever of the two was supplied, and converting back and forth is the identity.", "quantifier": "all lattices whose singular values exceed the 1e-6 cut-off, all site lists, both input conventions", "why_tests_cant": "Ranges over all lattices; the pseudo-inverse cut-off is a threshold no test approaches.", "anchors": ["src/structure.rs:Structure::new", "src/structure.rs:Structure::get_cart_coords", "src/structure.rs:Structure::get_frac_coords"]}
{"id": "C12", "title": "normalize_coords only relabels sites", "statement": "normalize_coords keeps the lattice, sorts the sites by species name without losing, duplicating or mixing up sites, moves every site by a lattice vector into the cell, and leaves cartesian = lattice * fractional; running it again changes nothing.", "quantifier": "all structures (any number of sites, any order of species), all tolerances", "why_tests_cant": "Permutation and pairing claims over lists of every length.", "anchors": ["src/structure.rs:Structure::normalize_coords"]}
{"id": "C13", "title": "Cell parameters are consistent", "statement": "The metric tensor is symmetric and consists of the scalar products of the cell vectors, lengths are the roots of its diagonal, b*c*cos(alpha) = b.c and cyclically with angles in [0,180], det(metric) = volume^2, and the volume agrees with the textbook formula in a,b,c and the angles.", "quantifier": "all lattices with non-zero vectors", "why_tests_cant": "Identities between real functions of nine real inputs.", "anchors": ["src/structure.rs:Structure::metric_tensor", "src/structure.rs:Structure::a", "src/structure.rs:Structure::alpha", "src/structure.rs:Structure::beta", "src/structure.rs:Structure::gamma", "src/structure.rs:Structure::volume"]}
{"id": "C14", "title": "Reciprocal lattice is dual", "statement": "reciprocal_lattice panics exactly for a singular lattice; otherwise column i of the reciprocal lattice dotted with column j of the lattice is 2*pi when i = j and 0 otherwise, the reciprocal volume is (2*pi)^3/volume and the reciprocal of the reciprocal is the original lattice.", "quantifier": "all lattices", "why_tests_cant": "Identity over nine real inputs.", "anchors": ["src/structure.rs:Structure::reciprocal_lattice"]}
{"id": "C15", "title": "get_transformation_matrix recovers the transformation", "statement": "lattice * s.get_transformation_matrix(s') = lattice', and after s' = s.apply_transformation(T) it returns exactly T.", "quantifier": "all lattices with singular values above the cut-off, all transformations", "why_tests_cant": "The unit test tries a single matrix.", "anchors": ["src/structure.rs:Structure::get_transformation_matrix", "src/structure.rs:Structure::apply_transformation"]}
{"id": "C16", "title": "apply_transformation only produces genuine sites", "statement": "Whenever apply_transformation returns: the new lattice is lattice*T; every new site is an input site of the same species shifted by an old and a new lattice vector; no two new sites coincide under the duplicate test; species are sorted; and the number of sites is at least volume-ratio times the old number.", "quantifier": "all structures, all invertible real T, all tolerances, any number of loop passes", "why_tests_cant": "Soundness over an unbounded search loop and all structures.", "anchors": ["src/structure.rs:Structure::apply_transformation"]}
{"id": "C17", "title": "Supercells are complete", "statement": "For an integer matrix T and a structure without coinciding sites, apply_transformation terminates and returns exactly |det T| times as many sites, one for every old site and every coset of the new lattice.", "quantifier": "all invertible integer T, all structures whose sites stay apart under the duplicate test", "why_tests_cant": "Termination and exact counting for every integer matrix.", "anchors": ["src/structure.rs:Structure::apply_transformation"]}
{"id": "C18", "title": "apply_transformation always terminates", "statement": "apply_transformation returns for every structure and every invertible T.", "quantifier": "all structures and all invertible T", "why_tests_cant": "Non-termination cannot be observed by a test.", "anchors": ["src/structure.rs:Structure::apply_transformation"]}
{"id": "C19", "title": "get_min_element is correct and deterministic", "statement": "get_min_element returns the alphabetically first among the elements with the fewest sites, together with the exact count and first index of every element, independently of hash-map order; it panics exactly on an empty structure.", "quantifier": "all species lists of fewer than 65536 sites, all hash iteration orders", "why_tests_cant": "Hash-map order is randomised per run; correctness is over all lists.", "anchors": ["src/structure.rs:Structure::get_min_element"]}
{"id": "C20", "title": "formulas lists every element once with exact counts", "statement": "The formula lists the elements in alphabetical order with their exact counts (omitting 1), the reduced formula has the counts divided by their greatest common divisor, independently of hash-map order.", "quantifier": "all species lists, all hash iteration orders", "why_tests_cant": "Counts are i8; tests use a dozen sites and one hash order.", "anchors": ["src/structure.rs:Structure::formulas"]}
{"id": "C21", "title": "Delaunay matrix closes", "statement": "The four columns of delaunay_matrix sum to zero, the first three being the cell vectors.", "quantifier": "all lattices", "why_tests_cant": "Identity over all lattices.", "anchors": ["src/structure.rs:Structure::delaunay_matrix"]}
{"id": "C22", "title": "Delaunay reduction keeps the crystal", "statement": "Whenever delaunay_reduce returns, the new cell vectors are an integer unimodular combination of the old ones (same lattice, same volume up to sign), and every site is kept with its species up to a lattice vector.", "quantifier": "all structures with a non-degenerate lattice, both values of full_reduction, any number of iterations", "why_tests_cant": "The number of iterations depends on the lattice.", "anchors": ["src/reduce.rs:Reducer::delaunay_reduce", "src/reduce.rs:Reducer::get_scalar_prods"]}
{"id": "C23", "title": "Delaunay reduction returns a reduced basis", "statement": "Whenever delaunay_reduce (without full reduction) returns, all six scalar products of the superbase are at most 1e-6, and it returns for every lattice.", "quantifier": "all lattices", "why_tests_cant": "Depends on an iteration limit that ordinary cells do not reach.", "anchors": ["src/reduce.rs:Reducer::delaunay_reduce"]}
{"id": "C24", "title": "Niggli reduction keeps the crystal", "statement": "Whenever niggli_reduce returns, the new cell vectors are an integer combination of the old ones with determinant +1 (same lattice, same handedness, same volume), and every site is kept with its species up to a lattice vector.", "quantifier": "all structures with a non-degenerate lattice, all tolerances", "why_tests_cant": "Any number of iterations and any branch sequence.", "anchors": ["src/reduce.rs:Reducer::niggli_reduce"]}
{"id": "C25", "title": "Niggli reduction returns a Niggli cell", "statement": "Whenever niggli_reduce returns for a right-handed lattice, the result satisfies the Niggli conditions (A <= B <= C, |xi| <= B, |eta|,|zeta| <= A, xi+eta+zeta+A+B >= 0, uniform signs and the special conditions) within eps = tol*V^(1/3).", "quantifier": "all right-handed lattices, all tol with 0 < tol*V^(1/3) < 1", "why_tests_cant": "The conclusion is a conjunction of inequalities about an iterative algorithm's result on a continuum of inputs.", "anchors": ["src/reduce.rs:Reducer::niggli_reduce"]}
{"id": "C26", "title": "Niggli reduction handles both handednesses", "statement": "niggli_reduce also returns a Niggli cell for left-handed lattices.", "quantifier": "all lattices with negative determinant", "why_tests_cant": "The failure is a NaN threshold that silently disables every comparison.", "anchors": ["src/reduce.rs:Reducer::niggli_reduce"]}
{"id": "C27", "title": "Niggli reduction returns on every lattice", "statement": "niggli_reduce does not panic on a non-degenerate right-handed lattice.", "quantifier": "all right-handed lattices", "why_tests_cant": "Needs a lattice that takes more than 100 iterations.", "anchors": ["src/reduce.rs:Reducer::niggli_reduce"]}
{"id": "C28", "title": "The primitive cell is a right-handed basis", "statement": "find_primitive_cell returns a structure with a positively oriented, non-singular lattice.", "quantifier": "all structures with a right-handed non-degenerate lattice", "why_tests_cant": "The default indices of the vector search are only used on special length orderings.", "anchors": ["src/reduce.rs:Reducer::find_primitive_cell", "src/reduce.rs:Reducer::get_shortest_translation_vecs"]}
{"id": "C29", "title": "Primitive cell vectors are translations of the crystal", "statement": "Every vector that find_primitive_cell uses to build the new lattice is an integer combination of vectors that map every site onto a site of the same species within the tolerance, and every returned site is an input site with the same species up to a vector of the new lattice.", "quantifier": "all structures, all tolerances", "why_tests_cant": "Soundness of a search over all structures.", "anchors": ["src/reduce.rs:Reducer::find_primitive_cell"]}
{"id": "C30", "title": "Every Niggli cell has a lattice character", "statement": "get_standard_conventional_structure, get_standard_primitive_structure and get_space_group_info do not panic with 'Cannot find lattice character' on a Niggli-reduced cell.", "quantifier": "all Niggli-reduced right-handed lattices", "why_tests_cant": "Needs a low-symmetry cell with accidentally equal lengths.", "anchors": ["src/analyzer.rs:SymmetryAnalyzer::get_lattice_character", "src/analyzer.rs:SymmetryAnalyzer::get_first_set", "src/analyzer.rs:SymmetryAnalyzer::get_second_set", "src/analyzer.rs:SymmetryAnalyzer::get_third_set", "src/analyzer.rs:SymmetryAnalyzer::get_fourth_set", "src/analyzer.rs:SymmetryAnalyzer::extra_eval_a", "src/analyzer.rs:SymmetryAnalyzer::extra_eval_b"]}
{"id": "C31", "title": "The conventional cell has the shape of its Bravais type", "statement": "If a lattice character is assigned then the conventional cell built from it has the metric of the Bravais type: a=b=c and right angles for cubic, a=b, gamma=120 for hexagonal and rhombohedral, and so on, within a fixed multiple of the tolerance.", "quantifier": "all reduced lattices, all 44 characters, all tolerances", "why_tests_cant": "44 tables entries times a continuum of metrics.", "anchors": ["src/analyzer.rs:SymmetryAnalyzer::get_lattice_character", "src/data/core.rs:LATTICE_CHAR_TO_CONV_TRANS", "src/data/core.rs:LATTICE_CHAR_TO_BRAVAIS"]}
{"id": "C32", "title": "Conventional and primitive transformations are inverse up to a change of basis", "statement": "For every lattice character the product of the conventional and the primitive transformation matrix is an integer matrix of determinant +1 or -1, so the standard primitive cell spans the same lattice as the reduced cell, and the conventional volume is the centring multiplicity times it.", "quantifier": "all 44 lattice characters", "why_tests_cant": "Table consistency; the unit tests touch one character.", "anchors": ["src/data/core.rs:LATTICE_CHAR_TO_CONV_TRANS", "src/data/core.rs:CENTERING_TO_PRIM_TRANS", "src/analyzer.rs:SymmetryAnalyzer::primitive_transformation_matrix"]}
{"id": "C33", "title": "The 32 point groups are groups of the right order", "statement": "PointGroup::from_number(n) returns for n = 1..32 (and panics otherwise) a duplicate-free list of matrices of determinant +1 or -1 with entries in {-1,0,1} that contains the identity and is closed under products and inverses, with the crystallographic order, and the same set for every hash order.", "quantifier": "all point-group numbers, all hash iteration orders", "why_tests_cant": "The crate has no test of this; closure involves all pairs and hash order.", "anchors": ["src/pointgroup.rs:PointGroup::from_number", "src/data/pointgroup.rs:PG_NUM_TO_GENERATOR_MATRICES"]}
{"id": "C34", "title": "Generation computes the generated set", "statement": "The operations returned by point-group generation are exactly the finite non-empty products of the generators, without duplicates, and generation always terminates.", "quantifier": "all generator lists, all hash iteration orders", "why_tests_cant": "All generator lists; termination.", "anchors": ["src/pointgroup.rs:PointGroup::generate_operations"]}
{"id": "C35", "title": "Holohedries stay integral in the primitive basis", "statement": "For all 15 Bravais types, the holohedry transformed to the standard primitive basis consists of integer matrices (rounding to i8 loses nothing) with entries in {-1,0,1}, still forms a group of the same order.", "quantifier": "all Bravais types, all hash orders", "why_tests_cant": "The rounding would silently hide a wrong table.", "anchors": ["src/pointgroup.rs:PointGroup::apply_transformation", "src/data/core.rs:CENTERING_TO_PRIM_TRANS", "src/data/pointgroup.rs:BRAVAIS_TO_HOLOHEDRY_NUM"]}
{"id": "C36", "title": "Point-group transformation is a change of basis", "statement": "PointGroup::apply_transformation(T) replaces R by T^-1 R T: products, determinants, traces and the order of the group are preserved whenever the transformed matrices are integral and fit i8; it panics exactly for singular T; transforming with T and then T^-1 restores the group.", "quantifier": "all point groups and all T for which T^-1 R T is integral with entries in i8 range", "why_tests_cant": "Universal over T.", "anchors": ["src/pointgroup.rs:PointGroup::apply_transformation"]}
{"id": "C37", "title": "from_generators returns the generated group", "statement": "SpaceGroup::from_generators returns pairwise different operations that include the generators and are closed under composition modulo lattice translations.", "quantifier": "all generator lists of space groups, all tolerances", "why_tests_cant": "Closure is over all pairs; the test checks four operations.", "anchors": ["src/spacegroup.rs:SpaceGroup::from_generators", "src/spacegroup.rs:SpaceGroup::ops_from_generators"]}
{"id": "C38", "title": "SpaceGroup::apply_transformation is a change of basis", "statement": "Every operation after apply_transformation(T) is {T^-1 R T | T^-1 (t + lattice vector)} of an input operation with an integral rotation, and no two are equal.", "quantifier": "all operation lists, all invertible T, all tolerances", "why_tests_cant": "Universal over T; the rounding to i8 hides errors.", "anchors": ["src/spacegroup.rs:SpaceGroup::apply_transformation"]}
{"id": "C39", "title": "The space-group tables are groups", "statement": "All 230 space groups occur exactly once; each table is a set of distinct operations, closed under composition and inverses modulo lattice translations, contains the identity, has the tabulated order, and no two groups of the same lattice system and order have the same table.", "quantifier": "all 230 table entries, all pairs of operations", "why_tests_cant": "Hundreds of thousands of products; never checked by the tests.", "anchors": ["src/data/spacegroup.rs:SG_NUM_TO_FULL_MATRICES", "src/data/spacegroup.rs:SG_NUM_TO_SYMBOL"]}
{"id": "C40", "title": "Identification is sound", "statement": "If a space-group number is returned then it is a valid number with its own symbol, belongs to the lattice system, and every operation found matches an operation of that group's table within tolerance.", "quantifier": "all operation lists, all lattice systems, all tolerances, all hash orders", "why_tests_cant": "Ranges over arbitrary operation lists.", "anchors": ["src/analyzer.rs:SymmetryAnalyzer::identify_space_group"]}
{"id": "C41", "title": "Identification recognises every table group", "statement": "Given exactly the operations of one of the 230 groups (in any order, translations up to lattice vectors), the identification returns that group's number, for every hash order.", "quantifier": "all 230 groups, all orders, all hash orders, small tolerances", "why_tests_cant": "230 groups and hash order; a test uses one.", "anchors": ["src/analyzer.rs:SymmetryAnalyzer::identify_space_group", "src/data/spacegroup.rs:SG_NUM_TO_FULL_MATRICES"]}
{"id": "C42", "title": "Identification does not depend on the choice of origin", "statement": "Shifting the origin of the crystal does not change the reported space group.", "quantifier": "all operation lists and all origin shifts", "why_tests_cant": "Invariance under a continuous group action.", "anchors": ["src/analyzer.rs:SymmetryAnalyzer::identify_space_group"]}
{"id": "C43", "title": "Rhombohedral space groups are reported", "statement": "The rhombohedral space groups (146,148,155,160,161,166,167) can be reported by get_space_group_info.", "quantifier": "all structures", "why_tests_cant": "Needs a rhombohedral structure; the defect is unreachable table data.", "anchors": ["src/data/core.rs:BravaisType::lattice_system", "src/analyzer.rs:SymmetryAnalyzer::get_space_group_info"]}
{"id": "C44", "title": "Reported symmetry operations are symmetries", "statement": "Every operation found for the standard primitive cell has a rotation of the holohedry and maps every site onto a site of the same species up to a lattice vector and the tolerance.", "quantifier": "all structures sorted by species whose equal-species sites are separated by more than the tolerance, all hash orders", "why_tests_cant": "Soundness of a counting heuristic over all structures.", "anchors": ["src/analyzer.rs:SymmetryAnalyzer::get_primitive_space_group_ops"]}
{"id": "C45", "title": "All symmetries of the primitive cell are found", "statement": "Every holohedry rotation with a translation that maps the structure exactly onto itself is found, up to the tolerance and lattice vectors.", "quantifier": "all structures sorted by species with separated sites, all hash orders", "why_tests_cant": "Completeness over all structures.", "anchors": ["src/analyzer.rs:SymmetryAnalyzer::get_primitive_space_group_ops"]}
{"id": "C46", "title": "Operations are returned in the input basis", "statement": "The transformation used by get_space_group_info to express the operations in the basis of the input structure maps the standard primitive lattice onto the input lattice.", "quantifier": "all structures on which the pipeline succeeds and whose lattices exceed the cut-off", "why_tests_cant": "Composition of five transformations over all inputs.", "anchors": ["src/analyzer.rs:SymmetryAnalyzer::get_space_group_info"]}
{"id": "C47", "title": "Python wrappers are faithful", "statement": "The exported functions read the lattice column-major and the coordinates row-wise, panic exactly on too short lists, and return the lattice, species and fractional coordinates of the Rust result; feeding the output back in with coords_are_cart = False reproduces the structure.", "quantifier": "all argument lists", "why_tests_cant": "All list lengths and shapes.", "anchors": ["src/lib.rs:generate_input_structure", "src/lib.rs:generate_output_structure_data", "src/lib.rs:find_primitive", "src/lib.rs:niggli_reduce", "src/lib.rs:get_space_group_info", "src/lib.rs:get_standard_conventional_structure", "src/lib.rs:get_standard_primitive_structure"]}
{"id": "C48", "title": "Enum parsing round-trips", "statement": "from_str(to_string(x)) = x for centerings and lattice systems, and centering() and lattice_system() of a Bravais type never panic.", "quantifier": "all enum values and all strings", "why_tests_cant": "from_str ranges over all strings.", "anchors": ["src/data/core.rs:Centering::from_str", "src/data/core.rs:Centering::fmt", "src/data/core.rs:LatticeSystem::from_str", "src/data/core.rs:LatticeSystem::fmt", "src/data/core.rs:BravaisType::fmt", "src/data/core.rs:BravaisType::centering", "src/data/core.rs:BravaisType::lattice_system"]}
{"id": "C49", "title": "Standard cells are related by the centring", "statement": "When both succeed, the standard primitive lattice is the standard conventional lattice times the centring matrix, both are integer-related to the reduced cell, and the primitive one spans the same lattice as the reduced one.", "quantifier": "all structures on which the functions return", "why_tests_cant": "Composition over all inputs.", "anchors": ["src/analyzer.rs:SymmetryAnalyzer::get_standard_conventional_structure", "src/analyzer.rs:SymmetryAnalyzer::get_standard_primitive_structure"]}
{"id": "C50", "title": "Results do not depend on hash order", "statement": "find_primitive_cell, niggli_reduce, the standard structures and formulas return the same result for every hash iteration order.", "quantifier": "all structures, all pairs of hash iteration orders", "why_tests_cant": "Hash order is random per process.", "anchors": ["src/reduce.rs:Reducer::find_primitive_cell", "src/analyzer.rs:SymmetryAnalyzer::get_standard_conventional_structure", "src/structure.rs:Structure::formulas"]}
{"id": "C51", "title": "Niggli reduction with zero tolerance is exact", "statement": "With tol = 0 the cell returned by niggli_reduce for a right-handed lattice satisfies the Niggli conditions exactly.", "quantifier": "all right-handed lattices", "why_tests_cant": "Zero off-diagonal products make a measure-zero set of inputs that random tests miss although every rectangular face produces them.", "anchors": ["src/reduce.rs:Reducer::niggli_reduce", "src/utils.rs:num_negative_zero"]}
{"id": "C53", "title": "The reported space group accounts for the symmetries of the standard cell", "statement": "When get_space_group_info returns a number, the number belongs to the lattice system of the Bravais type of the reduced cell, comes with its own symbol, and every rotation of the holohedry with a translation that maps the standard primitive structure exactly onto itself occurs in the table of the reported group up to a lattice vector and the tolerance.", "quantifier": "all structures on which the function returns with separated sites in the standard primitive cell, all hash orders", "why_tests_cant": "It relates the final answer to every symmetry of every structure, across six composed functions; tests only compare a handful of known answers.", "anchors": ["src/analyzer.rs:SymmetryAnalyzer::get_space_group_info", "src/analyzer.rs:SymmetryAnalyzer::get_standard_primitive_structure", "src/analyzer.rs:SymmetryAnalyzer::get_primitive_space_group_ops"]}
{"id": "C54", "title": "Shortest translation vectors are shortest", "statement": "The first vector selected by get_shortest_translation_vecs is a shortest one of the list. If some vector spans with it an area above dtol, the second is a shortest such vector. If some vector spans with the first an area and with both a positive volume above dtol, the third spans such a volume and no vector with both properties is shorter.", "quantifier": "all lists of vectors on which the function returns, all non-negative dtol", "why_tests_cant": "Minimality over a list of arbitrary length and contents, with ties and collinear prefixes.", "anchors": ["src/reduce.rs:Reducer::get_shortest_translation_vecs"]}
{"id": "C57", "title": "The primitive cell is primitive", "statement": "The lattice of the cell returned by find_primitive_cell contains every vector that maps the structure exactly onto itself.", "quantifier": "all structures with a lattice above the pseudo-inverse cut-off, all hash orders", "why_tests_cant": "It needs all translations of all structures; the failing cells are those whose shortest translations do not generate all translations.", "anchors": ["src/reduce.rs:Reducer::find_primitive_cell", "src/reduce.rs:Reducer::get_shortest_translation_vecs"]}
{"id": "C52", "title": "No site is lost in the primitive cell", "statement": "For every site of the input, find_primitive_cell returns a site of the same species which is, modulo the returned lattice, within 2 dtol of it. No two returned sites are the same point modulo the returned lattice.", "quantifier": "all structures and tolerances for which the function returns a cell above the pseudo-inverse cut-off, all hash orders", "why_tests_cant": "It needs every arrangement of sites and species; the failing inputs have different species near one point or a returned cell shaped differently from the input cell.", "anchors": ["src/reduce.rs:Reducer::find_primitive_cell"]}
{"id": "C55", "title": "Generated translations lie in the cell", "statement": "Every operation returned by SpaceGroup::from_generators that is not one of the generators has all translation components between -tol and 1 - tol.", "quantifier": "all lists of generators, all tolerances between 0 and 1, every number of generation rounds", "why_tests_cant": "The generated operations come from arbitrarily long products of arbitrary generators.", "anchors": ["src/spacegroup.rs:SpaceGroup::from_generators", "src/symmop.rs:SymmOp::normalize"]}
{"id": "C56", "title": "One atom per primitive cell: the space group of the lattice", "statement": "For a structure with one atom per primitive cell, get_space_group_info returns the number of the symmorphic space group of the lattice (2, 10, 12, 47, 65, 71, 69, 123, 139, 166, 191, 221, 229 or 225 by Bravais type), and the returned operations are the holohedry in the input basis without translations.", "quantifier": "all lattices whose vectors are long compared with the tolerance, all elements, all hash orders, every sufficient number of loop steps", "why_tests_cant": "It ranges over a continuum of lattices of all Bravais types and all bases; a test runs one material.", "anchors": ["src/analyzer.rs:SymmetryAnalyzer::get_space_group_info", "src/analyzer.rs:SymmetryAnalyzer::get_primitive_space_group_ops", "src/analyzer.rs:SymmetryAnalyzer::identify_space_group"]}
{"id": "C58", "title": "The reported group has the centring of the Bravais type and the crystal class of the operations", "statement": "When get_space_group_info returns a number and the operations generated for the standard primitive cell have different rotations, the number is one of the space groups with the Bravais lattice of the reduced cell and its crystal class is the class of those rotations. For the Bravais types mI and hR such a return is impossible, and get_space_group_info never returns when the standard primitive structure has a symmetry other than 1 and -1 (mI) or a threefold rotation (hR).", "quantifier": "all structures, tolerances and hash orders", "why_tests_cant": "It links the number to the lattice and to the point symmetry for every structure and every entry of the tables; tests compare single answers and would have to cover all 230 groups in all lattice settings.", "anchors": ["src/analyzer.rs:SymmetryAnalyzer::get_space_group_info", "src/analyzer.rs:SymmetryAnalyzer::identify_space_group", "src/data/spacegroup.rs:SG_NUM_TO_FULL_MATRICES"]}
{"id": "C59", "title": "A structure with the symmetry of a table group is reported as that group", "statement": "Let the symmetry operations of the standard primitive structure (rotations of the holohedry that map it onto itself within the tolerance) be exactly the operations of an entry of the space-group tables of its lattice system. Then the operation search finds these operations once each, from_generators returns them unchanged, identify_space_group returns the number of the entry with its symbol, and get_space_group_info never reports another number.", "quantifier": "all structures with separated sites, all 230 table groups, all sufficiently fine tolerances, all hash orders", "why_tests_cant": "It ranges over every crystal with a given symmetry and every table entry; the tests of the crate check a few materials. In particular no test shows that 21 groups can never be reported.", "anchors": ["src/analyzer.rs:SymmetryAnalyzer::get_space_group_info", "src/analyzer.rs:SymmetryAnalyzer::get_primitive_space_group_ops", "src/analyzer.rs:SymmetryAnalyzer::identify_space_group", "src/spacegroup.rs:SpaceGroup::from_generators"]}
{"id": "C60", "title": "Every returned structure is tidy", "statement": "Every structure returned by apply_transformation, find_primitive_cell, niggli_reduce, delaunay_reduce, get_standard_conventional_structure and get_standard_primitive_structure, and every structure handed to Python by the wrappers, has as many species as fractional and cartesian positions, cartesian positions equal to lattice times fractional positions, sites sorted by species, all sites between -tol and length - tol along each axis longer than the tolerance of the call (0.05 for the Python niggli_reduce), and is left unchanged by normalize_coords with that tolerance.", "quantifier": "all input structures, lattices, transformations, options, hash orders and non-negative tolerances for which the call returns", "why_tests_cant": "The tests compare a few returned cells with stored ones; a site left outside the cell or an unsorted species list for some other input goes unnoticed.", "anchors": ["src/structure.rs:Structure::apply_transformation", "src/structure.rs:Structure::normalize_coords", "src/reduce.rs:Reducer::find_primitive_cell", "src/reduce.rs:Reducer::niggli_reduce", "src/reduce.rs:Reducer::delaunay_reduce", "src/reduce.rs:Reducer::default", "src/analyzer.rs:SymmetryAnalyzer::get_standard_conventional_structure", "src/analyzer.rs:SymmetryAnalyzer::get_standard_primitive_structure", "src/lib.rs:niggli_reduce", "src/lib.rs:find_primitive", "src/structure.rs:Structure::num_sites"]}
{"id": "C61", "title": "The symbol reported with a number describes the operations", "statement": "The symbol that identify_space_group and get_space_group_info return with a number is the Hermann-Mauguin symbol of the operations stored for that number: its first letter is the centring for which the primitive basis of the code is a basis, and in the conventional axes each further component names symmetry elements that are present along the symmetry directions of the crystal system (rotation and screw axes with the stated sense and pitch, rotoinversion axes, reflection planes and glide planes with the stated glide vector), a component 1 or a missing component stands for a direction without symmetry elements, and the crystal class read off the symbol is that of the number.", "quantifier": "all 230 space-group numbers, all operation lists and tolerances for which a number is returned", "why_tests_cant": "The tests compare a few reported symbols with literals; a misspelt symbol or one that belongs to another setting or the mirror-image group in the table of 230 strings goes unnoticed.", "anchors": ["src/analyzer.rs:SymmetryAnalyzer::identify_space_group", "src/analyzer.rs:SymmetryAnalyzer::get_space_group_info", "src/data/spacegroup.rs:SG_NUM_TO_SYMBOL", "src/data/spacegroup.rs:SG_NUM_TO_FULL_MATRICES", "src/data/core.rs:CENTERING_TO_PRIM_TRANS"]}
{"id": "C62", "title": "Reducing a Niggli reduced structure again changes nothing", "statement": "When niggli_reduce returns a structure, calling niggli_reduce on that structure with the same tolerance returns as well, with the same lattice, and with the very same structure when the cell is not degenerate and its axes are longer than the distance tolerance.", "quantifier": "all structures and tolerances with 0 < tol V^(1/3) < 1 and all left-handed cells for which the first call returns", "why_tests_cant": "The tests reduce a few cells once; that the conditions and the sign step agree about every value, including those at the edge of the tolerance, is a statement about all cells.", "anchors": ["src/reduce.rs:Reducer::niggli_reduce", "src/utils.rs:num_negative_zero"]}
{"id": "C63", "title": "The Niggli cell does not depend on the cell in which the lattice is given", "statement": "For every lattice there is a bound, depending on the lattice only, such that for all tolerances below it and all right-handed cells of the lattice the cell returned by niggli_reduce satisfies the Niggli conditions exactly and has the same edge lengths and angles as the cell returned for any other right-handed cell of the lattice, so that get_lattice_character gives the same answer for both.", "quantifier": "all lattices, all right-handed cells of a lattice (all unimodular changes of basis), all reducers, and all tolerances below the bound for which the calls return", "why_tests_cant": "The tests reduce one cell per lattice; that no other choice among the infinitely many bases leads to another cell is what the special conditions of the algorithm are for, and no finite set of inputs checks it.", "anchors": ["src/reduce.rs:Reducer::niggli_reduce", "src/analyzer.rs:SymmetryAnalyzer::get_lattice_character"]}
{"id": "C64", "title": "The Niggli iteration converges", "statement": "Apart from the limit of 100 iterations, niggli_reduce always comes to an end: for every right-handed lattice and every small enough tolerance finitely many iterations reach a cell that satisfies all Niggli conditions, and no iteration is repeated in a cycle. In particular every lattice has a Niggli cell, and niggli_reduce returns when it is given that cell.", "quantifier": "all right-handed lattices and all tolerances below a bound that depends on the lattice", "why_tests_cant": "A cycle or a step that makes no progress would need a particular lattice with ties among its lengths and angles.", "anchors": ["src/reduce.rs:Reducer::niggli_reduce"]}
{"id": "C65", "title": "The Delaunay iteration converges", "statement": "Apart from the limit of about 100 iterations, delaunay_reduce always comes to an end: for every lattice, degenerate or not, at most (|a|^2+|b|^2+|c|^2+|a+b+c|^2)/2e-6 iterations reach a superbase with all six scalar products at most 1e-6 that generates the same lattice.", "quantifier": "all lattices", "why_tests_cant": "The number of iterations is unbounded over all lattices.", "anchors": ["src/reduce.rs:Reducer::delaunay_reduce"]}
{"id": "C66", "title": "Full Delaunay reduction leaves no obtuse angle", "statement": "Whenever the Delaunay iteration ends with an obtuse superbase, delaunay_reduce with full_reduction returns a cell whose three angles are not obtuse (scalar products of its vectors at least -2e-6).", "quantifier": "all non-degenerate lattices on which the iteration ends, all reducers", "why_tests_cant": "One of four branches is taken depending on five scalar products; that the branch without a change is never taken has to be shown for all superbases.", "anchors": ["src/reduce.rs:Reducer::delaunay_reduce"]}
{"id": "C67", "title": "Full Delaunay reduction returns the shortest vectors", "statement": "With full_reduction the vectors of the cell returned by delaunay_reduce are the shortest ones that span the lattice among {a, b, c, d, a+b, b+c, c+a}, and one of these is a shortest vector of the lattice.", "quantifier": "all lattices", "why_tests_cant": "Minimality over the infinitely many vectors and bases of a lattice cannot be tested.", "anchors": ["src/reduce.rs:Reducer::delaunay_reduce"]}
{"id": "C68", "title": "The lengths of the Delaunay superbase do not depend on the cell", "statement": "For two cells of the same lattice for which delaunay_reduce returns obtuse superbases, the seven lengths |a|, |b|, |c|, |a+b|, |a+c|, |b+c|, |a+b+c| of the results are the same up to their order.", "quantifier": "all lattices, all pairs of cells of one lattice, all reducers", "why_tests_cant": "Quantifies over all unimodular changes of basis.", "anchors": ["src/reduce.rs:Reducer::delaunay_reduce"]}
{"id": "C69", "title": "The Bravais type found has the symmetry of the lattice", "statement": "If the Niggli conditions hold exactly for the reduced cell and the tolerance resolves it (every comparison that holds within the tolerance holds exactly), then in the basis chosen for the lattice character the operations of the holohedry of the reported Bravais type are exactly the isometries that map the lattice to itself: none is missing and none is extra. For every lattice all small enough tolerances resolve it, in every cell.", "quantifier": "all lattices, all cells of a lattice, all 44 lattice characters, all hash orders", "why_tests_cant": "Quantifies over all isometries of all lattices; a missing operation only shows for lattices of one character and the tests cover a few of them.", "anchors": ["src/analyzer.rs:SymmetryAnalyzer::get_lattice_character", "src/analyzer.rs:SymmetryAnalyzer::conventional_transformation_matrix", "src/analyzer.rs:SymmetryAnalyzer::primitive_transformation_matrix", "src/data/core.rs:LATTICE_CHAR_TO_CONV_TRANS", "src/data/core.rs:LATTICE_CHAR_TO_BRAVAIS", "src/pointgroup.rs:PointGroup::apply_transformation", "src/analyzer.rs:SymmetryAnalyzer::get_first_set", "src/analyzer.rs:SymmetryAnalyzer::get_second_set", "src/analyzer.rs:SymmetryAnalyzer::get_third_set", "src/analyzer.rs:SymmetryAnalyzer::get_fourth_set", "src/analyzer.rs:SymmetryAnalyzer::extra_eval_a", "src/analyzer.rs:SymmetryAnalyzer::extra_eval_b"]}
{"id": "C70", "title": "No symmetry of the crystal is missed", "statement": "For a structure with well separated sites whose standard primitive cell is primitive, every motion of space (orthogonal map and translation) that maps the crystal onto itself, atoms to atoms of the same species, occurs among the operations of the reported space group: the rotation part exactly, the translation part within the distance tolerance. For one atom per cell the rotations returned are exactly the isometries of the lattice of the structure given.", "quantifier": "all structures, all motions of space, all hash orders", "why_tests_cant": "Quantifies over all motions of space and all crystals.", "anchors": ["src/analyzer.rs:SymmetryAnalyzer::get_space_group_info", "src/analyzer.rs:SymmetryAnalyzer::get_primitive_space_group_ops", "src/analyzer.rs:SymmetryAnalyzer::get_standard_primitive_structure", "src/analyzer.rs:SymmetryAnalyzer::get_lattice_character"]}
{"id": "C71", "title": "The standard structures are the same crystal", "statement": "For a primitive input whose atoms are well separated compared with the distance tolerance, find_primitive_cell always returns, and its result, the Niggli cell, the standard conventional structure and the standard primitive structure all put exactly the same species at exactly the same points of space as the input, with no site listed twice. The standard primitive structure is primitive, spans the input lattice and has as many sites as the input; the conventional one has k times the volume and k times the sites with 1 <= k <= 4. Hence every motion of space that maps the input crystal onto itself is an operation of the reported space group (rotation exactly, translation within the tolerance).", "quantifier": "all structures satisfying conditions on the input alone, all motions of space, all hash orders", "why_tests_cant": "Quantifies over all crystals with real coordinates and all motions of space; tests compare a few rounded site lists.", "anchors": ["src/analyzer.rs:SymmetryAnalyzer::get_standard_conventional_structure", "src/analyzer.rs:SymmetryAnalyzer::get_standard_primitive_structure", "src/analyzer.rs:SymmetryAnalyzer::get_space_group_info", "src/reduce.rs:Reducer::find_primitive_cell", "src/reduce.rs:Reducer::niggli_reduce", "src/structure.rs:Structure::apply_transformation"]}
{"id": "C72", "title": "Results do not depend on the orientation of the crystal", "statement": "If the structure is turned as a whole by a rotation of space (lattice vectors and Cartesian positions), get_space_group_info gives the same number, symbol and operations (or the same failure), and the primitive cell, the Niggli and Delaunay cells, the transformed cells and both standard structures are the turned ones. Cell lengths, angles, volume and metric tensor are unchanged.", "quantifier": "all structures, all rotations, all tolerances, all hash orders; no hypothesis on the structure", "why_tests_cant": "Quantifies over a continuous group and all structures, including those on which the functions fail.", "anchors": ["src/analyzer.rs:SymmetryAnalyzer::get_space_group_info", "src/analyzer.rs:SymmetryAnalyzer::get_standard_primitive_structure", "src/reduce.rs:Reducer::find_primitive_cell", "src/reduce.rs:Reducer::niggli_reduce", "src/reduce.rs:Reducer::delaunay_reduce", "src/structure.rs:Structure::apply_transformation", "src/structure.rs:Structure::reciprocal_lattice"]}
{"id": "C73", "title": "Results do not depend on the unit of length", "statement": "Expressing the structure and the distance tolerance in another unit of length does not change the space group reported.", "quantifier": "all structures, all positive factors", "why_tests_cant": "Quantifies over all structures and units; a disagreement needs a cell near a threshold.", "anchors": ["src/analyzer.rs:SymmetryAnalyzer::get_space_group_info", "src/analyzer.rs:SymmetryAnalyzer::get_lattice_character", "src/analyzer.rs:SymmetryAnalyzer::get_primitive_space_group_ops", "src/structure.rs:Structure::apply_transformation", "src/structure.rs:Structure::normalize_coords"]}
{"id": "C74", "title": "The reported group is exactly the symmetry group of the crystal", "statement": "For a clean primitive right-handed input without pseudosymmetry at the distance tolerance, with its origin at one of the positions used in the tables and a lattice whose shape is clear-cut at the reduction tolerance: whenever get_space_group_info returns, the operations tabulated for the reported group are, in the basis of the standard primitive cell, exactly the motions of space that map the infinite crystal onto itself, with exact translations modulo the lattice. If the lattice isometries have small matrices in the input basis, the operations returned are these motions in the input basis, each rotation once, with translations within the tolerance.", "quantifier": "all such inputs, all sizes and compositions, all hash orders, all fuels", "why_tests_cant": "Compares the answer with the set of all isometries of an infinite crystal, for all crystals; tests compare with another program on examples.", "anchors": ["src/analyzer.rs:SymmetryAnalyzer::get_space_group_info", "src/analyzer.rs:SymmetryAnalyzer::identify_space_group", "src/analyzer.rs:SymmetryAnalyzer::get_primitive_space_group_ops", "src/spacegroup.rs:SpaceGroup::from_generators", "src/spacegroup.rs:SpaceGroup::apply_transformation", "src/analyzer.rs:SymmetryAnalyzer::get_standard_primitive_structure"]}
{"id": "C75", "title": "A run that ends has one outcome", "statement": "For fixed iteration orders of the hash maps, the loops of the crate determine their outcome: whatever get_space_group_info, get_standard_primitive_structure, get_standard_conventional_structure, Structure::apply_transformation, SpaceGroup::apply_transformation, SpaceGroup::from_generators and PointGroup::from_number return, or how they panic, is the same for every bound on the number of loop rounds for which they end; letting them run longer never changes an answer into another answer, a panic or a hang.", "quantifier": "all inputs, all scalar types, all hash orders, all pairs of bounds on the number of rounds", "why_tests_cant": "Relates all bounds on the number of rounds to each other, so that a theorem about one bound speaks of the unbounded loop of the program; a test runs the loop once.", "anchors": ["src/analyzer.rs:SymmetryAnalyzer::get_space_group_info", "src/analyzer.rs:SymmetryAnalyzer::get_standard_primitive_structure", "src/analyzer.rs:SymmetryAnalyzer::get_standard_conventional_structure", "src/structure.rs:Structure::apply_transformation", "src/spacegroup.rs:SpaceGroup::apply_transformation", "src/spacegroup.rs:SpaceGroup::from_generators", "src/pointgroup.rs:PointGroup::from_number"]}
{"id": "C76", "title": "A space group is reported exactly when it is the symmetry group of the crystal", "statement": "For a clean primitive right-handed input without pseudosymmetry at the distance tolerance, with its origin at a table position, a lattice whose shape is clear-cut, lattice vectors of at least 48 tolerances and lattice isometries with small matrices, whose standard primitive structure is returned: get_space_group_info returns the number of a space group if and only if the group is one of the tables of the lattice system of the lattice (as defined by its number of isometries), its table is exactly the set of motions that map the infinite crystal onto itself, and it is not one of the 21 groups for which the product of operations of the crate is wrong. A crystal with all isometries of its lattice gets the symmorphic group of the lattice. A crystal with a cubic lattice and no threefold symmetry gets no answer.", "quantifier": "all such inputs, all sizes and compositions, all space groups, all hash orders", "why_tests_cant": "An equivalence between the answer of the program and a geometric property of infinite crystals, in both directions, for all crystals of the class; tests check single materials in one direction.", "anchors": ["src/analyzer.rs:SymmetryAnalyzer::get_space_group_info", "src/analyzer.rs:SymmetryAnalyzer::identify_space_group", "src/analyzer.rs:SymmetryAnalyzer::get_primitive_space_group_ops", "src/analyzer.rs:SymmetryAnalyzer::get_standard_primitive_structure", "src/spacegroup.rs:SpaceGroup::from_generators", "src/spacegroup.rs:SpaceGroup::apply_transformation"]}
{"id": "C77", "title": "Crystals given in a cell that is not primitive", "statement": "Let a crystal be given in a cell that is not necessarily primitive (up to 24 times as large, edges longer than the distance tolerance, atoms far apart compared with the tolerance, no pseudotranslations), and let the crystal have a clean primitive cell. If find_primitive_cell returns a right-handed cell of the volume of the primitive cell that is not longer, the returned cell describes the same infinite crystal with every atom once, and the statements about get_space_group_info for primitive inputs hold: the reported group is exactly the symmetry group, the operations are exactly the symmetries in the basis of the input cell with one operation for each rotation and centring translation, and a group is reported if and only if it is the symmetry group, is tabulated in the lattice system, and is handled correctly by the product of the crate. In particular rock salt in its usual cell of eight atoms gets number 225 and a body-centred metal in its usual cell of two atoms gets number 229, for all edge lengths in a range.", "quantifier": "all such cells and crystals, all sizes and compositions, all hash orders; for the two families all edge lengths between 4 (2.8) and 2000, all angle tolerances", "why_tests_cant": "Speaks of all cells of all crystals of the class and of all edge lengths of the two families, in exact arithmetic; tests run one material with one edge length.", "anchors": ["src/analyzer.rs:SymmetryAnalyzer::get_space_group_info", "src/reduce.rs:Reducer::find_primitive_cell", "src/analyzer.rs:SymmetryAnalyzer::get_standard_primitive_structure", "src/analyzer.rs:SymmetryAnalyzer::get_lattice_character", "src/reduce.rs:Reducer::niggli_reduce", "src/spacegroup.rs:SpaceGroup::apply_transformation"]}
{"id": "C78", "title": "The answer does not depend on the description of the crystal", "statement": "Let two structures describe the same infinite crystal (in different cells, primitive or not, with the atoms in any order and in any cell), both clean in the sense of C77, analysed with possibly different tolerances and hash orders. If get_space_group_info returns for both, it returns the same number and symbol. If it returns for one of them and the standard primitive structure of the other one is found, it returns for the other one as well, with the same number.", "quantifier": "all pairs of descriptions of all such crystals, all space groups, all tolerances that satisfy the conditions, all hash orders", "why_tests_cant": "Relates two runs of the program on every pair of cells of every crystal; the failing cases (twelve groups whose table depends on the choice of axes) appear only for particular pairs of cells.", "anchors": ["src/analyzer.rs:SymmetryAnalyzer::get_space_group_info", "src/analyzer.rs:SymmetryAnalyzer::identify_space_group", "src/analyzer.rs:SymmetryAnalyzer::get_standard_primitive_structure", "src/data/spacegroup.rs:SG_NUM_TO_FULL_MATRICES"]}
{"id": "C79", "title": "The primitive cell of a centred cell", "statement": "For every right-handed centred cell whose only translations are the lattice vectors and the centring vectors of one base, of the body, of all faces or of a rhombohedral lattice on hexagonal axes (exactly, with edges, areas and volume above the distance tolerance), find_primitive_cell returns a cell whose lattice consists exactly of the translations of the crystal, with the corresponding fraction of the volume; get_space_group_info can therefore be answered for it.", "quantifier": "all cells of the seven centring types in all sizes and with all angles, all contents, all tolerances that satisfy the conditions, all hash orders", "why_tests_cant": "Which three vectors are picked depends on the order of up to six lengths and on ties between them; the result is primitive for most orders and flat (volume zero) or not primitive for the others, so tests on a few crystals see only the orders they happen to have.", "anchors": ["src/reduce.rs:Reducer::find_primitive_cell", "src/reduce.rs:Reducer::get_shortest_translation_vecs", "src/analyzer.rs:SymmetryAnalyzer::get_space_group_info"]}
{"id": "C80", "title": "Copies of a crystal: shifted, turned and reflected", "statement": "Let s' be a copy of the crystal s under any isometry of space (a shift of the origin, a rotation, a reflection or a combination), both clean in the sense of C77, in any cells, with any order of the atoms, and analysed with possibly different tolerances and hash orders. If get_space_group_info returns for both, the number for the copy is the number for the crystal when the isometry preserves handedness, and otherwise the number of the mirror image (the other member of an enantiomorphic pair such as 76/78, or the same number). If it returns for the crystal, then for each turned or reflected copy, and for each standard primitive cell the copy may have, one of three origins, (0,0,0), (1/4,1/4,1/4) and (1/4,3/4,1/2) in this cell, makes get_space_group_info report the number of the copy.", "quantifier": "all pairs of copies of all such crystals, all isometries, all space groups, all tolerances that satisfy the conditions, all hash orders", "why_tests_cant": "Relates two runs of the program for every isometry of space, a continuous family, and every crystal; the 230 tables and 24 choices of axes have to be compared up to an arbitrary real shift of the origin.", "anchors": ["src/analyzer.rs:SymmetryAnalyzer::get_space_group_info", "src/analyzer.rs:SymmetryAnalyzer::identify_space_group", "src/analyzer.rs:SymmetryAnalyzer::get_standard_primitive_structure", "src/data/spacegroup.rs:SG_NUM_TO_FULL_MATRICES"]}
{"id": "C81", "title": "Which space-group numbers are reported", "statement": "With the default distance tolerance 0.05 and any angle tolerance, the numbers that get_space_group_info returns for clean crystals (the class of C77: no pseudosymmetry, origin on the grid of the tables) are exactly the numbers from 1 to 230 except 91, 92, 95, 96, 146, 148, 151-155, 160, 161, 166, 167, 178-181, 198, 199, 205, 206, 212-214, 220 and 230. Each of the other 202 numbers is returned, together with the symbol of SG_NUM_TO_SYMBOL, for an explicit crystal (two species, each on a general orbit of the group, in a lattice of the right type and of any size from 144 to 960 times the basis), for every hash order and every sufficiently large number of loop iterations; none of the 28 is returned for any clean crystal at any tolerance.", "quantifier": "all numbers, all clean crystals, all hash orders, all angle tolerances; the crystals that realise the numbers form a continuous family of sizes", "why_tests_cant": "That a number is never returned is a statement about all crystals; that a number is returned whatever the iteration order of the hash maps is a statement about all orders.", "anchors": ["src/analyzer.rs:SymmetryAnalyzer::get_space_group_info", "src/analyzer.rs:SymmetryAnalyzer::identify_space_group", "src/data/spacegroup.rs:SG_NUM_TO_FULL_MATRICES", "src/data/spacegroup.rs:SG_NUM_TO_SYMBOL"]}
{"id": "C82", "title": "When niggli_reduce returns within its hundred iterations", "statement": "niggli_reduce panics after 100 iterations (C27), and four consecutive iterations never leave the sum of the squared edges unchanged. Hence a right-handed cell is reduced to an exact Niggli cell, for all small tolerances, if fewer than 25 smaller sums of squared edges occur among the bases of its lattice; four iterations suffice if the cell has the least sum, in particular for every cell reduced in the sense of Buerger (no sum or difference of its edges shorter than the longest). With explicit tolerances: if the squared edges and twice their scalar products are integer multiples of g, the tolerance tol * V^(1/3) is below g and 1, and the sum of the squared edges is below 28 g (or less than 25 g above the least sum), then niggli_reduce returns an exact Niggli cell.", "quantifier": "all right-handed cells of the kind described, all reducers, all tolerances below a bound", "why_tests_cant": "The iteration limit is met or not depending on the cell; that it is never met for a whole class of cells is a termination argument over all real lattices, not a set of samples.", "anchors": ["src/reduce.rs:Reducer::niggli_reduce"]}
{"id": "C83", "title": "For which clean crystals the standard structures exist", "statement": "For a clean primitive input (C71) whose lattice has a clear-cut shape, given in a cell with fewer than 25 smaller sums of squared edges among the bases of the lattice (C82): the standard structures are returned if and only if in the Niggli cell of the lattice a = b comes with alpha = beta and b = c with beta = gamma (for a = b, an obtuse cell whose body diagonal is as long as c will also do). Otherwise get_standard_conventional_structure, get_standard_primitive_structure and get_space_group_info all panic with 'Cannot find lattice character', for every hash order. So for clean crystals the answer of get_space_group_info (C76, C77) is decided by the input alone, and a number reported for one description of a crystal, with a table that is the same in all settings (C78), is reported for every other clean description. The one-atom crystal with cell (3,0,0), (1,2,2), (1,-2,2) has a mirror plane and panics.", "quantifier": "all clean crystals with a clear-cut lattice, all hash orders, all tolerances in the range of the conditions", "why_tests_cant": "Accidental equality of edges is a set of measure zero among lattices, and the absence of a panic is claimed for all other lattices at once.", "anchors": ["src/analyzer.rs:SymmetryAnalyzer::get_standard_conventional_structure", "src/analyzer.rs:SymmetryAnalyzer::get_standard_primitive_structure", "src/analyzer.rs:SymmetryAnalyzer::get_space_group_info", "src/reduce.rs:Reducer::niggli_reduce"]}
{"id": "C84", "title": "Every run for a clean crystal ends, and how", "statement": "For a clean crystal (C77, C78) given in any cell whose primitive cell is found, with a lattice of clear-cut shape and fewer than 25 smaller sums of squared edges among its bases (C82), get_space_group_info never loops and has exactly one of three outcomes. It panics with 'Cannot find lattice character' if the angles of the Niggli cell do not follow its edges (C83). Otherwise it returns a number if the symmetries of the crystal are the operations of one of the tabulated groups of the lattice system of its lattice, for which the product of operations of the crate is right (C76), and then it returns this number. In all remaining cases it panics in the identification, with 'Cannot identify spacegroup from operations!' or 'Could not find candidate group with the provided number of operations!'; no other panic and no endless loop is possible. Silicon in a cell turned by 90 degrees, and a crystal with group P4mm on a cubic lattice, panic in the identification.", "quantifier": "all clean crystals with a clear-cut lattice in any cell, all hash orders, all tolerances in the range of the conditions", "why_tests_cant": "The absence of any other panic and of an endless loop is claimed for infinitely many crystals, with every table lookup, inversion and loop on the way.", "anchors": ["src/analyzer.rs:SymmetryAnalyzer::get_space_group_info", "src/analyzer.rs:SymmetryAnalyzer::get_primitive_space_group_ops", "src/analyzer.rs:SymmetryAnalyzer::identify_space_group", "src/spacegroup.rs:SpaceGroup::from_generators", "src/spacegroup.rs:SpaceGroup::apply_transformation"]}
{"id": "C85", "title": "Comparison, closure and identification of operations survive rounding", "statement": "The layer of the program that works with lists of operations is right in floating-point arithmetic too. If every rounding of a number of magnitude at most 1024 is off by at most delta, then is_approx_eq returns true only for operations whose exact values agree up to lattice vectors and the tolerance plus 2 delta, and returns true whenever they agree up to the tolerance minus 2 delta. from_generators ends for all generators with translations of at most two cells if the tolerances exceed 3 delta; its result begins with the generators, consists of operations apart from each other if the generators are, and contains the exact product of each generator with each operation returned up to the tolerance plus 14 delta. identify_space_group returns a number only if every operation is that of the table up to the tolerance plus 4 delta. In IEEE double precision (delta = 2^-43), with tolerances between 1e-8 and 1/25 (1/48 for the bad groups): operations that are those of one of the 230 groups up to lattice vectors and 1e-9, in any order, are identified as that group for every hash order, and from_generators returns them unchanged unless the group is one of the 21 for which the product of the crate is wrong; for these nothing is identified after from_generators. This includes the operations decoded from the program's own tables, whose thirds and sixths are not representable.", "quantifier": "all roundings of the stated accuracy, all operation lists with translations of at most two cells (512 for comparison and identification), all 230 groups, all hash orders, all tolerances in the range", "why_tests_cant": "Rounding errors depend on the particular translations and on the order of the operations; tests run a few of infinitely many inputs, and closeness to a tolerance is only hit by chance.", "anchors": ["src/symmop.rs:SymmOp::is_approx_eq", "src/symmop.rs:SymmOp::mul", "src/symmop.rs:SymmOp::normalize", "src/spacegroup.rs:SpaceGroup::from_generators", "src/analyzer.rs:SymmetryAnalyzer::identify_space_group"]}
{"id": "C86", "title": "The search for symmetry operations survives rounding and noise", "statement": "get_primitive_space_group_ops is right in floating-point arithmetic, for a structure stored with rounding errors and noise. Let the rounding be relative with error r^2 (binary64: r = 2^-26), the entries of the lattice be at most A, the distance tolerance at least 4000 A r and A / 10^6, the edges at least three tolerances long, the coordinates at most two cells and sites of the same species more than 4.5 tolerances apart. Then (1) the holohedry used is the one of exact arithmetic; (2) every operation found has a rotation of the holohedry and maps every site within 2.1 tolerances of a site of the same species; (3) if the stored positions are those of an ideal structure up to lattice vectors and noise eta with 100 A eta at most the tolerance, then each symmetry operation of the ideal structure whose rotation is in the holohedry is found, with its translation up to a lattice vector and 4 eta + 5e-9 in each component, and every other operation found with the same rotation is more than four tolerances away; (4) if moreover the operations of the ideal structure are those of one of the table entries, separated by the tolerance, and the edges are at least 25 tolerances long, the search returns exactly these operations, from_generators returns them unchanged unless the entry is one of the 21 groups for which the product of the crate is wrong, and the number is identified; for the 21 groups nothing is identified in what from_generators returns (edges of at least 49 tolerances, eta at most 1/20000). In IEEE double precision this holds for every crystal with positions that are fractions rounded to double precision, in a cell with entries of at most 16000 tolerances.", "quantifier": "all roundings of the stated accuracy, all structures within the bounds, all ideal structures they approximate, all 230 groups, all Bravais types, all hash orders, all fuel from a bound on", "why_tests_cant": "The noise, the rounding errors and the order of the hash maps are not under the control of a test; whether a sum of rounding errors crosses a tolerance is only hit by chance.", "anchors": ["src/analyzer.rs:SymmetryAnalyzer::get_primitive_space_group_ops", "src/analyzer.rs:SymmetryAnalyzer::identify_space_group", "src/pointgroup.rs:PointGroup::apply_transformation", "src/spacegroup.rs:SpaceGroup::from_generators"]}
{"id": "C87", "title": "In floating-point arithmetic get_space_group_info is right for crystals in a box", "statement": "The whole program is right in floating-point arithmetic for crystals in a primitive orthorhombic, tetragonal or cubic cell, whatever the order of the hash maps, the rounding errors and a small noise. Let the rounding be relative with error r^2 (binary64: r = 2^-26), the lattice be diagonal with edges a, b, c that are all equal, or a = b and c longer by at least one tolerance, or grow by at least one tolerance each, with a at least 61 tolerances and all at most A, the distance tolerance between 0.01 and 1 and at least 4000 A r and A / 16000, the positions of all atoms more than eight tolerances apart, and the stored coordinates at most eight cells from the origin and off by at most eta (110 A eta at most the tolerance), up to lattice vectors, from those of an ideal crystal. (1) If no shift of the ideal crystal maps it onto itself within three tolerances except those within 4.5 tolerances of a lattice vector, then get_standard_conventional_structure and get_standard_primitive_structure return a diagonal cell with the same atoms, sorted by species, with edges that differ from a, b, c by at most the tolerance / 10^5, and coordinates in the cell off by at most eta + 10500 A r^2 up to lattice vectors. (2) If the operations with a rotation of the lattice (diagonal matrices; also exchanging equal edges) that map the ideal crystal onto itself within three tolerances are those of one of the tabulated groups of the system of the box, other than the 21 groups whose table in the code is wrong, up to 4.5 tolerances, and these are symmetries of the ideal crystal, then get_space_group_info ends and returns the number and the symbol of this group, and a list of operations that are those of the table in some order: the rotations are the same and the translations are correct up to lattice vectors and 4 (eta + 10500 A r^2) + 7e-7. (3) In IEEE double precision this holds for all crystals with positions that are multiples of 1/N rounded to double precision, if the edges are more than 6 N, at least 61 and at most 15999 tolerances long and any two positions differ in some coordinate by more than eight tolerances, in units of the shortest edge; the translations are correct to 10^-6. (4) The same holds for the function get_space_group_info that Python calls, with the lattice as nine numbers and the coordinates as lists of fractional or Cartesian coordinates; it returns each operation as the nine entries of its rotation, row by row, and three numbers.", "quantifier": "all roundings of the stated accuracy, all boxes, species, positions and noise within the bounds, all orthorhombic, tetragonal and cubic groups with a primitive cell whose table is right, all angle tolerances, all hash orders, all fuel from a bound on", "why_tests_cant": "The noise, the rounding errors and the order of the hash maps are not under the control of a test; the claim is about every box and every crystal in it.", "anchors": ["src/analyzer.rs:SymmetryAnalyzer::get_space_group_info", "src/analyzer.rs:SymmetryAnalyzer::get_standard_primitive_structure", "src/analyzer.rs:SymmetryAnalyzer::get_standard_conventional_structure", "src/reduce.rs:Reducer::find_primitive_cell", "src/reduce.rs:Reducer::niggli_reduce", "src/structure.rs:Structure::apply_transformation", "src/spacegroup.rs:SpaceGroup::apply_transformation", "src/lib.rs:get_space_group_info"]}
{"id": "C88", "title": "In floating-point arithmetic Niggli reduction keeps the crystal", "statement": "Niggli reduction changes the basis by a matrix that stays exactly an integer matrix of determinant one or minus one in floating-point arithmetic, for every input lattice, skewed or left-handed or degenerate, and whatever wrong turns the rounded comparisons take, as long as the loop ends within 33 iterations in double precision (in general: n iterations if the integers up to 3^n are representable). The determinant is one if the tolerance of the comparisons is not negative and below one. So the returned lattice differs from another basis of the input lattice only by the rounding of one matrix product (A B / 10^14 for entries up to A and a change of basis with entries up to B), the species come back sorted, the Cartesian and fractional coordinates agree, and each atom keeps its species and its place up to vectors of the new lattice and A R C / 10^13, where A, R and C bound the entries of the new lattice, of its inverse, and the coordinates.", "quantifier": "all structures, tolerances and reducers over any rounded arithmetic with relative error at most 1/1000, IEEE double precision as a case", "why_tests_cant": "Whether the rounded comparisons go wrong depends on the last bits of the lattice; that no wrong turn can damage the crystal needs an argument over all runs.", "anchors": ["src/reduce.rs:Reducer::niggli_reduce"]}
{"id": "C89", "title": "Niggli reduction makes no rounding error on lattices of multiples of a power of two", "statement": "Take a right-handed lattice whose entries are integer multiples of 2^-k (k up to 300), at most 3500 of them, and a tolerance that is positive (at least 10^-100) and small (4 m tol at most 2^-k where the volume is at most (m 2^-k)^3). In double precision niggli_reduce then does exactly what it does in exact arithmetic: it returns if and only if the exact run returns, with exactly the same lattice, and otherwise panics with the same message. What it returns is exactly another basis of the same lattice, of the same hand, and satisfies the Niggli conditions exactly (tolerance zero); species are sorted, coordinates agree and atoms keep their places up to A R C / 10^13. It returns, within four iterations, for every cell reduced in the sense of Buerger, and generally if the sum of the squared edges is less than 25 units above the least one.", "quantifier": "all such lattices with any atoms, all reducers; any rounded arithmetic in which the multiples that occur are representable", "why_tests_cant": "Rounded and exact decisions agree on the samples tried; that they agree on every such lattice, along every run of up to a hundred steps, needs bounds on all intermediate numbers.", "anchors": ["src/reduce.rs:Reducer::niggli_reduce", "src/structure.rs:Structure::metric_tensor"]}
{"id": "C90", "title": "The lattice character and the conventional cell are exact on lattices of multiples of a power of two", "statement": "Take a right-handed lattice whose entries are integer multiples of 2^-k (k up to 300). In double precision get_lattice_character returns the character that exact arithmetic returns, although the crate compares with a tolerance and divides by 2, 3 and 4. For a cell that is Niggli reduced, the conventional cell of that character has exactly (tolerance zero) the shape of its Bravais type, and the isometries of the lattice, written in the conventional basis, are exactly the operations of the holohedry the crate looks up. Two cells of the same lattice, possibly written with different powers of two, get the same character and Niggli cells of the same shape. If find_primitive_cell returns such a cell with entries of at most 1166 units and volume at most (m 2^-k)^3 with m <= 2^13 2^-k, then whatever get_standard_conventional_structure returns has as its lattice an exact integer combination of the primitive vectors, of exactly the shape of the Bravais type found.", "quantifier": "all such lattices with any atoms, all hash orders, all fuels; any rounded arithmetic in which the multiples that occur are representable", "why_tests_cant": "Agreement of the rounded decision tree with the exact one on every lattice, and exactness of the symmetry found, are statements about infinitely many cells; a test sees a few and cannot say that the shape is exact rather than close.", "anchors": ["src/analyzer.rs:SymmetryAnalyzer::get_lattice_character", "src/analyzer.rs:SymmetryAnalyzer::conventional_transformation_matrix", "src/analyzer.rs:SymmetryAnalyzer::get_standard_conventional_structure"]}
{"id": "C91", "title": "Delaunay reduction makes no rounding error on lattices of multiples of a power of two", "statement": "Take a lattice, of either hand, whose entries are integer multiples of 2^-k with k at most 9 (so that the smallest product is above the crate's tolerance 1e-6), at most a million of them. In double precision delaunay_reduce, with and without full reduction, does exactly what it does in exact arithmetic: it returns if and only if the exact run returns, with exactly the same lattice, and otherwise panics with the same message. What it returns is exactly another basis of the same lattice; species are sorted, coordinates agree and atoms keep their places up to A R C / 10^12. If the squares of a, b, c and a+b+c add up to less than 200 units it returns, with an exactly obtuse superbase (tolerance zero), and with full reduction a cell none of whose angles is obtuse. The seven squared lengths of an obtuse result are exactly the same for every cell of the lattice.", "quantifier": "all such lattices with any atoms, all reducers, both values of full_reduction; any rounded arithmetic in which the multiples that occur are representable and their square roots distinct", "why_tests_cant": "Rounded and exact decisions agree on the samples tried; that they agree on every such lattice along up to 101 steps, including the sort by rounded square roots, needs bounds on all intermediate numbers.", "anchors": ["src/reduce.rs:Reducer::delaunay_reduce", "src/reduce.rs:get_scalar_prods", "src/structure.rs:Structure::delaunay_matrix"]}
{"id": "C92", "title": "Reducing a Delaunay reduced structure again changes nothing", "statement": "delaunay_reduce without full_reduction returns the lattice it is given exactly when the six scalar products of the superbase a, b, c, -(a+b+c) are at most 1e-6. So when it has returned such a cell, calling it again returns the same lattice, and the very same structure when the cell is not degenerate and its axes are longer than the distance tolerance. In double precision the same holds, to the last bit, for all lattices with entries n/2^k, k up to 9 and n up to a million. The same is claimed with full_reduction and for cells returned when the iteration limit is hit.", "quantifier": "all structures, all reducers; exact arithmetic, and rounded arithmetic on the lattices described", "why_tests_cant": "That no cell which is not reduced is a fixed point, and that every reduced cell is one, are statements about all lattices.", "anchors": ["src/reduce.rs:Reducer::delaunay_reduce", "src/structure.rs:Structure::delaunay_matrix"]}
{"id": "C93", "title": "The names of the species are only labels", "statement": "Exchange the species of a structure for others in the same alphabetical order (Na, Cl for K, Br). In any arithmetic, floating point included, get_space_group_info then gives literally the same answers, number, symbol and every digit of every operation, or the same panic: the answers that are possible over all iteration orders of the hash maps are the same, and corresponding orders give the same answer. For a renaming that keeps the alphabetical order of all names, normalize_coords, apply_transformation, niggli_reduce, delaunay_reduce, find_primitive_cell and the two standard structures return the same structures with the names exchanged, or panic alike, and so do the functions exported to Python.", "quantifier": "all structures, all tolerances, all order-preserving renamings, all hash orders, all scalar types and operations on them (no law of arithmetic is used)", "why_tests_cant": "Quantifies over all structures, all names and all arithmetics; that no comparison of names other than by order influences a number is a statement about every path through the program.", "anchors": ["src/structure.rs:Structure::normalize_coords", "src/structure.rs:Structure::get_min_element", "src/structure.rs:Structure::apply_transformation", "src/reduce.rs:Reducer::find_primitive_cell", "src/analyzer.rs:SymmetryAnalyzer::get_primitive_space_group_ops", "src/analyzer.rs:SymmetryAnalyzer::get_space_group_info"]}
{"id": "C94", "title": "The angle tolerance has no effect", "statement": "The angle tolerance atol that Reducer and SymmetryAnalyzer carry, and that the Python functions take as an argument, does not influence any result: find_primitive_cell, niggli_reduce, delaunay_reduce, the two standard structures and get_space_group_info return the same for all values of it, in any arithmetic.", "quantifier": "all structures, all tolerances, all hash orders, all scalar types and operations on them", "why_tests_cant": "A test compares two values on a few structures; that no value ever matters is a statement about all of them.", "anchors": ["src/reduce.rs:Reducer", "src/analyzer.rs:SymmetryAnalyzer", "src/lib.rs:get_space_group_info"]}
{"id": "C95", "title": "The answer depends only on the lattice and the positions of each species", "statement": "In any arithmetic, normalize_coords, find_primitive_cell, the two standard structures and get_space_group_info depend only on the lattice and, for each species, on the list of its fractional positions: listing the species in another order or interleaved, or storing other Cartesian coordinates, changes nothing. niggli_reduce and delaunay_reduce depend only on the lattice and, for each species, on the list of its Cartesian positions. The Python functions get_space_group_info, find_primitive, get_standard_conventional_structure and get_standard_primitive_structure give the same answer for any interleaving of the species.", "quantifier": "all structures, all tolerances, all hash orders, all scalar types and operations on them", "why_tests_cant": "A test permutes a few inputs; that no interleaving of any list matters, digit for digit and under any rounding, is a statement about all lists.", "anchors": ["src/structure.rs:normalize_coords", "src/reduce.rs:find_primitive_cell", "src/reduce.rs:niggli_reduce", "src/reduce.rs:delaunay_reduce", "src/analyzer.rs:get_space_group_info", "src/lib.rs:get_space_group_info"]}
{"id": "C96", "title": "Atoms may be given in any cell", "statement": "In exact arithmetic, moving every atom by a lattice vector of its own, and interleaving the species differently, changes nothing in what normalize_coords, find_primitive_cell, the two standard structures and get_space_group_info return, provided the distance tolerance is not negative and below the three edges and no atom lies exactly that distance below a face of the cell, measured along an axis. The last condition is needed: an atom exactly there keeps the coordinates of the image it was given in. The Python functions give two callers the same answer even if one writes Cartesian and the other fractional coordinates. niggli_reduce and delaunay_reduce return the same structure for all images under the same conditions on the reduced cell, and panic for all images alike.", "quantifier": "all structures over the reals, all tolerances below the edges, all hash orders", "why_tests_cant": "There are infinitely many images for each atom, and the exceptional positions form a set of measure zero that sampling does not hit.", "anchors": ["src/structure.rs:normalize_coords", "src/reduce.rs:find_primitive_cell", "src/analyzer.rs:get_space_group_info", "src/reduce.rs:niggli_reduce", "src/reduce.rs:delaunay_reduce", "src/lib.rs:get_space_group_info"]}
{"id": "C97", "title": "Every returned structure is tidy in any arithmetic", "statement": "Whatever the arithmetic, every structure returned by apply_transformation, find_primitive_cell, niggli_reduce, delaunay_reduce and the two standard structures has one species, one fractional and one Cartesian position per atom, Cartesian positions that are the computed products of the lattice and the fractional ones, and species in sorted order. With any monotone rounding, every fractional component along an axis at least as long as the tolerance lies between minus the tolerance and one minus the tolerance, both as computed fractions of the edge. Normalising a returned structure once more changes no bit of it; in double precision this needs only a tolerance between 2^-53 of every edge and half of it.", "quantifier": "all input structures, tolerances, transformations and hash orders; all scalar types for the first part, all roundings for the second, binary64 for the third", "why_tests_cant": "A test sees a few rounding patterns; whether a component can round up to the excluded face, or a second normalisation can move it, depends on every possible last digit.", "anchors": ["src/structure.rs:normalize_coords", "src/structure.rs:apply_transformation", "src/reduce.rs:find_primitive_cell", "src/reduce.rs:niggli_reduce", "src/reduce.rs:delaunay_reduce", "src/analyzer.rs:get_standard_primitive_structure"]}
{"id": "C98", "title": "Which repeated cells lead back to a primitive cell", "statement": "Take a right-handed cell that consists of n >= 2 copies of a primitive cell along one edge, with no approximate translations at the distance tolerance. find_primitive_cell returns a cell spanning exactly the translations of the crystal, with the n-th part of the volume, except for certain orders of the three primitive edges, given exactly for each axis, in which it returns a cell without volume. Repeating along an edge that is at least as long as the two others is always safe. It is not safe otherwise: a tetragonal crystal of one atom per lattice point with c >= 2a is reported as 123 in its primitive cell and never reported in the cell doubled along the first edge.", "quantifier": "all structures over the reals, all numbers n >= 2 of layers, all three axes, all tolerances small compared with the cell, all hash orders", "why_tests_cant": "The outcome depends on the order of 2 + n lengths with ties; the failing orders are a thin part of the possible cells, and a test suite with a few cubic supercells never meets one.", "anchors": ["src/reduce.rs:find_primitive_cell", "src/reduce.rs:get_shortest_translation_vecs", "src/analyzer.rs:get_space_group_info"]}
{"id": "C99", "title": "The complete list of panics", "statement": "For a structure with atoms (as many positions as species), find_primitive_cell panics only on an index or a slice out of range, and only when it accepts fewer than three translations; niggli_reduce only with \"Could not find Niggli reduced structure!\"; delaunay_reduce only after its iteration limit; get_standard_conventional_structure and get_standard_primitive_structure only for one of the first two reasons or because there is no lattice character; get_space_group_info in addition only because no candidate group has the number of operations, no candidate matches, or the total transformation is not invertible. No look-up in a table, no decoding of an operation, no parsing of an enum and no access to the lists of atoms fails. With exact arithmetic and a tolerance between zero and the shortest edge find_primitive_cell does not panic at all; with a negative tolerance it always does. A structure without atoms panics on an unwrap.", "quantifier": "any arithmetic that can handle the matrices of the tables (the reals and double precision among them), all structures with atoms, all tolerances, all hash orders, any number of loop steps", "why_tests_cant": "There are more than thirty places that may panic, most of them reachable in principle through a table entry or a hash order; that none of the others fires for any input cannot be seen from finitely many inputs.", "anchors": ["src/analyzer.rs:get_space_group_info", "src/analyzer.rs:identify_space_group", "src/reduce.rs:find_primitive_cell", "src/reduce.rs:get_shortest_translation_vecs", "src/structure.rs:apply_transformation", "src/data/core.rs:LATTICE_CHAR_TO_BRAVAIS"]}
{"id": "C100", "title": "Species and positions of different number", "statement": "Species without a position and positions without a species are silently left out: find_primitive_cell, niggli_reduce, delaunay_reduce, get_standard_conventional_structure, get_standard_primitive_structure and get_space_group_info give for such a structure exactly what they give for the structure cut to the shorter list. The Python functions in addition ignore numbers after the ninth of the lattice and after the third of a position. The Python get_space_group_info panics, for arbitrary arguments, only on a lattice of fewer than nine numbers, otherwise on a position of fewer than three, otherwise without species or positions, otherwise with one of the messages of C99. apply_transformation is the exception: a position without a species keeps it searching forever.", "quantifier": "any arithmetic, all structures and Python arguments, all tolerances, all hash orders, any number of loop steps", "why_tests_cant": "Tests use well-formed input; that malformed lists are handled alike by every function and every arithmetic is a statement about all of them.", "anchors": ["src/structure.rs:normalize_coords", "src/structure.rs:apply_transformation", "src/lib.rs:generate_input_structure", "src/lib.rs:get_space_group_info"]}
{"id": "C101", "title": "Supercells in three directions: which lead back to a primitive cell", "statement": "Take a right-handed cell without obtuse angles that consists of n1 x n2 x n3 copies of a primitive cell along its edges, with no approximate translations at the distance tolerance. If the three primitive edges have different lengths that increase in a right-handed order, or if the square of the longest is smaller than twice the square of the shortest (in any order, ties included), find_primitive_cell returns a cell spanning exactly the translations of the crystal, with the volume divided by n1 n2 n3. If the lengths increase in a left-handed order, twice the shortest edge is shorter than the longest and the cell is repeated along the shortest edge, it returns a cell without volume, and a 2 x 2 x 2 block of such boxes with one atom each never gets a space group.", "quantifier": "all structures over the reals, all numbers n1, n2, n3 of copies, all tolerances small compared with the cell, all hash orders", "why_tests_cant": "The number of translations grows with the supercell and the outcome depends on the order of all their lengths; a test checks a few supercells, usually cubic, which are all on the safe side.", "anchors": ["src/reduce.rs:find_primitive_cell", "src/reduce.rs:get_shortest_translation_vecs", "src/analyzer.rs:get_space_group_info"]}
{"id": "C102", "title": "The primitive cell and the order of the atoms", "statement": "Take a right-handed cell with no approximate translations at the distance tolerance. If its edges and centring translations have pairwise different lengths, the lattice that find_primitive_cell returns is a function of the lattice and the translations alone: it does not depend on the order in which the atoms are listed, on which atoms there are, or on the hash order. This is false if lengths agree: for four square prisms a x a x c side by side, with one atom each and c longer than the diagonal of the square, one order of the atoms gives the primitive cell, and the order with the second and third atom exchanged gives a cell without volume and never a space group.", "quantifier": "all structures over the reals, all tolerances small compared with the cell, all hash orders; the failing family for all a and c in the stated range", "why_tests_cant": "The same crystal has to be tried with its atoms in every order, and only ties between lengths show the effect; a test file lists the atoms in one order.", "anchors": ["src/reduce.rs:find_primitive_cell", "src/reduce.rs:get_shortest_translation_vecs", "src/analyzer.rs:get_space_group_info"]}
{"id": "C103", "title": "The primitive cell of a cube in double arithmetic", "statement": "Take a cube whose edge is 2, 4, 8, 16, 32 or 64, with any elements at coordinates 0 and 1/2, listed in any order. find_primitive_cell in double arithmetic returns, and the lattice it returns holds exactly the numbers that the same computation gives without rounding, for all distance tolerances up to 1/4 and all hash orders. So the dependence on the order of the atoms is not hidden by rounding: for four iron atoms in the plane z = 0 of a cube of edge 8, one order gives the lattice 4 x 4 x 8 exactly, and the order with the second and third atom exchanged gives a lattice with two columns that are exactly zero and never a space group.", "quantifier": "all lists of fewer than 65536 sites at halves, all six edges, all tolerances in [0, 1/4] in either run, all hash orders; roundings in which multiples of 1/1024 are exact, binary64 in particular", "why_tests_cant": "A test compares the result with a reference up to a tolerance for a few crystals; it cannot show that no rounding error occurs for any of the crystals.", "anchors": ["src/reduce.rs:find_primitive_cell", "src/reduce.rs:get_shortest_translation_vecs", "src/structure.rs:normalize_coords", "src/analyzer.rs:get_space_group_info"]}
