# Formal model of cryst-symm

Lean 4.33 + Mathlib; sources under `lean/Verif`, built by `lake build` in `lean/`.

| directory | content |
|---|---|
| `Verif/Model` | the crate, function by function, each definition citing file and lines in /repo |
| `Verif/Data` | the constant tables of `src/data/*.rs`, copied literally by `gen_tables.py` |
| `Verif/Spec` | small independent specifications (lattice equivalence, Niggli conditions, ...) |
| `Verif/Proofs` | auxiliary lemmas |
| `Verif/Props` | one file per group of properties: the theorems named in `MANIFEST.json`, each with a non-vacuity `example` |
| `Verif/Tests` | the crate's own unit tests run on the model with IEEE doubles (tests, not proofs) |

## How the code is modelled

* **Scalars.** The crate computes in `f64`. Every definition is generic in the scalar type `K` and uses
  only law-free operation classes. Theorems about discrete data (species, permutations, lattices of
  structures, panics) are proved for *every* `K`, hence for `f64` too. Numeric theorems are proved for
  `K = ℝ` (exact arithmetic) or for every ordered floor field. The tolerances of the crate are kept, so
  the theorems are about the tolerant algorithm, not about an idealised one. For `normalize_frac_vectors`
  and the comparison primitives there are also theorems about the model run over rounded arithmetic
  (a scalar type whose `+` and `-` round with an arbitrary monotone odd rounding), and for the operation lists
  (product, comparison, `from_generators`, identification; C85) and the search for operations in a noisy structure
  (C86), for the whole of `get_space_group_info` for crystals in a box (C87), and for the Niggli reduction of any lattice
  (C88) and of lattices of multiples of a power of two (C89), and for the lattice character, conventional cell and
  Delaunay reduction of the latter (C90, C91), with IEEE double precision as a case.
* **NaN and infinities.** They are modelled where the crate can produce them from finite input: the
  `powf` of a negative volume (`epsilon = none`; every comparison with it is false) and the quotients by
  zero in the two `while` guards. Other NaN/∞ behaviour is outside the model.
* **Integers.** `i8` is Lean's `Int8` (wrapping, the release profile; a debug build panics where this
  wraps). `u16` counters are taken modulo 65536, `as u8` modulo 256.
* **Panics and loops.** `Outcome α = ret | panic | running`. A `while` loop takes fuel; a theorem "for all
  fuel, ... = ret r -> ..." covers every terminating run, non-termination is "for all fuel, = running".
* **Hash containers.** `HashMap`/`HashSet` are association/duplicate-free lists. Wherever the crate
  iterates over one, an arbitrary listing order is a parameter; theorems quantify over all permutations.
* **nalgebra.** `Vec3`, `Mat3` with the operations used. `try_inverse` is the closed adjugate formula and
  fails exactly when the determinant is zero. `pseudo_inverse(1e-6)` over ℝ is defined by the Hermitian
  functional calculus of `LᵀL` dropping singular values `<= 1e-6`.
* **Not modelled.** PyO3 argument conversion, `Debug`/`println!`, benches and examples, memory limits,
  rounding error of matrix arithmetic (except the rounded-arithmetic theorems), accumulation order inside
  nalgebra's dot products, `i32` overflow of the loop counters `mult` and `count`.

## Trusted base

Lean's kernel; the axioms `propext`, `Classical.choice`, `Quot.sound` only (checked per theorem, see the
end of this file); that the definitions in `Verif/Model` and `Verif/Data` say what the Rust says (the
`Tests` directory is evidence, not proof); Mathlib's definitions of ℝ, `sqrt`, `arccos`, the Hermitian
functional calculus.

## Plan per property

* **C01, C02** `normComp` over an ordered floor field: case analysis on `truncZ`; canonical form from
  uniqueness of the representative in a half-open unit interval.
* **C03** the same model over a rounded scalar type; uses only monotonicity, oddness and exactness of fmod.
  `Spec/Binary64.lean` defines rounding to 53 bits, ties to even, as a function on the reals and is one such rounding.
* **C04** order lemmas; `custEq` symmetric for every `K`.
* **C05, C06** `Nat` digit induction on the decode loop; all u32 codes, no enumeration.
* **C07** from C01 and a characterisation of "distance to the nearest integer".
* **C08** false: `S1*S2 = {R1R2 | R2 t1 + t2}` while composition is `{R2R1 | R2 t1 + t2}`. Negation by a
  concrete pair; `_partial`: composition law whenever the rotations commute, plus the exact defect.
* **C09** associativity false (witness); `_partial` for commuting rotations; identity laws hold.
* **C10** ring identities.
* **C11** `pinv = inverse` when all singular values exceed the cut-off, by the functional calculus.
* **C12** stable-sort permutation lemmas for every `K`; numeric part over ℝ.
* **C13, C14** polynomial identities; `arccos` by Cauchy–Schwarz.
* **C15** from C11.
* **C16** invariant of the search loop, induction on fuel.
* **C17** cosets: pass `mult = |det T| + 1` reaches every coset because `mult·v ≡ v` modulo `|det T|`;
  counting via pairwise inequivalence.
* **C18** false: two coinciding sites with `T = 1` loop forever, `T = diag(1/6,1,1)` on a regular 6-fold supercell loops forever; `_partial`
  from C17 and for `T⁻¹` integral.
* **C19, C20** fold invariants of the tallies; C20 is false from 127 equal atoms on (i8), `_partial` below.
* **C21, C22** unimodular integer 4-column steps, induction on iterations.
* **C23** false (iteration limit returns silently at 101 and panics at exactly 100); `_partial`: a run that
  stops before the limit returns a reduced superbase.
* **C24** each step matrix is integral with determinant 1 provided `eps < 1`; for `eps >= 1` handedness can
  flip (negation), `_partial` with the hypothesis.
* **C25** exit conditions of the loop transported to the returned lattice.
* **C26** false: NaN epsilon makes the loop stop at once; theorem: a left-handed cell is returned unchanged.
* **C27** false: subtractive steps, a skewed cell needs more than 100 iterations.
* **C28** false: default indices select the same vector twice; `_partial` when the scans succeed.
* **C29** invariants of candidate filtering and combination vectors.
* **C30** false: no fall-through from the A=B=C and A=B and B=C sets; `_partial` for A<B<C and exact
  description of the panicking inputs.
* **C31** linear arithmetic in the six products, one case per character.
* **C32** finite table, all entries, exact.
* **C33–C36** closure computed once in the kernel, independence of hash order by uniqueness of the
  generated set; general generation theorem by induction.
* **C37** false for 21 groups (product is not composition); `_partial`: contains generators, distinct,
  closed under the crate's own product in the exact setting.
* **C38** false because of `any` instead of `all`; `_partial` invariants.
* **C39** kernel evaluation over the complete tables (finite and total, no sampling).
* **C40–C43** loop invariants; C42 and C43 are false (witness; unreachable table entries).
* **C44, C45** counting argument over separated sites.
* **C46, C49** composition of the lattice equations.
* **C47, C48** direct.
* **C50** from C19 and the permutation lemmas.
* **C51** false: with `tol = 0` zero products count as positive; `_partial` for the remaining conditions.
* **C52, C57** fate of the sites and completeness of the translations in `find_primitive_cell`; both false in
  general, `_partial` with separated species and one atom of some element.
* **C53** composition of C44, C45, C37 and C40 along `get_space_group_info`.
* **C54** the three scans of `get_shortest_translation_vecs` as minimality statements.
* **C55** from C01 for every derived operation.
* **C56** one atom per primitive cell: the operations found are the holohedry, the closure adds nothing, the table
  of the lattice group matches. False for the types `mI` and `hR`.
* **C58** pigeonhole between the generated rotations and the table of the reported number, plus one kernel check per
  Bravais type over the complete tables.
* **C59** C44 and C45 put the operations found in bijection with the table (rotations occur once per entry, C45_found_once
  excludes a second translation), the errors of at most 1e-9 per coordinate stay below the tolerance in one product, so
  the closure argument of C37 and then C41 apply. For the 21 groups a product has a translation outside the table; no
  table lists a rotation twice, so both cannot match. Crystals on a grid are decided by a kernel computation
  (`hasSymmetry_of_grid`).
* **C60** every transformation ends with `normalize_coords`; `normalizeCoords_tidy` says what that leaves behind, with the
  tolerance of the last call.
* **C61** `Spec/Symbols.lean` reads a symbol as a list of components and says what each component claims about the operations
  along a direction. The check runs in integers (translations in twelfths, conventional coordinates multiplied by the
  denominator of the centring matrix) by kernel reduction over all entries; `symbolFitsZ_spec` transfers it to any ordered
  field. False for 19 and 24.
* **C62** the state with which the loop is left satisfies the conditions (C25) and its signs are not changed by the sign step
  (case analysis over where each product lies relative to `±ε`), so the next call leaves it at once; `rebuild` on the same
  lattice is `normalize_coords` of a tidy structure (C60). False when a product of the result is exactly `ε`.
* **C63** uniqueness of the Niggli cell from the conditions alone. The main conditions make `A, B, C` the successive minima
  (`NiggliMin.lean`), so the axes of another Niggli cell have coordinates in `{-1, 0, 1}`; for each such basis a Farkas
  certificate (found by `gen_niggli.py`, checked by kernel reduction in `NiggliCertData.lean`) shows that the products agree.
  The conditions within `ε` bound the edges by the volume, so only finitely many bases are involved and below some `ε` they
  hold exactly. With a fixed tolerance the claim is false (`C63_false_fixed_tolerance`).
* **C64** termination of the iteration. With a tolerance below every non-zero difference that the conditions look at, each
  iteration that continues lowers `(A+B+C, A, B, -(|ξ|+|η|+|ζ|), |ξ|, |η|)` lexicographically (`nigIter_decreases`), and only
  finitely many bases have `A+B+C` below its first value. The theorem is about the loop with its number of iterations as a
  parameter: the code stops at 100 (C27).
* **C65** each Delaunay step lowers the sum of the four squared lengths by twice a product above `1e-6`.
* **C66, C67** the case of the tri-acute step without a change contradicts the sorting by length, so one of the three other
  cases applies; each makes all products non-negative, and each replaces a vector by a longer one.
* **C67, C68** Selling's formula `|Σ mᵢ dᵢ|² = Σ -dᵢ·dⱼ (mᵢ - mⱼ)²`: in each class modulo twice the lattice the sum of superbase
  vectors is a shortest vector, so the seven lengths are minima that depend on the lattice only.
* **C69** `Spec/Isometry.lean` defines isometries of a lattice without a basis. An isometry maps a Niggli cell to another cell
  with the same six products; the entries of the integer matrix between them are bounded, and for each of the 44 shapes the
  finitely many candidates outside the holohedry are excluded by certificates (linear combinations of the products that a
  positive definite form contradicts), generated by `gen_bravais.py` and checked by the kernel (`Proofs/BravaisCert*.lean`).
* **C70** C69, the completeness of the search (C45) and the table lookup (C53) together: motions of space are turned into
  `{W | t}` in the basis of the primitive cell.
* **C71** `SameAtoms` (Spec/Isometry) compares two structures as subsets of space, without reference to a cell. `CleanInput`
  lists conditions on the input alone (primitive with a margin, distinct sites, not too flat, atoms far apart compared with the
  tolerance); `Proofs/Distortion.lean` bounds how much the tables can stretch the tolerance, so that the conditions carry over
  to each later cell.

* **C72** equality of the complete answers, by following a rotation through every function; no hypothesis on the structure. The
  pseudo-inverse is covered because its definition by singular values is invariant.
* **C73** the same for a change of the unit of length; true of the coordinate functions and of the search for operations, false of the
  whole because `epsilon = tol * volume^(1/3)` is a length and is compared with squares of lengths.
* **C74** the set of operations of the reported group against the set of all isometries of the infinite crystal (`CrystalSymmetry`), both
  inclusions, with the exact translations. `Spec/Resolved.lean` states the two assumptions on the crystal: no pseudosymmetry at the
  tolerance (`Resolved`), and an origin at a table position (`GridOrigin`). The second is needed: C42 shows that the code knows one
  origin per group, and slightly off the grid the wrong product of C08 can add operations. `Spec/Clear.lean` states the assumption on
  the lattice (`ClearLattice`); `clearLattice_of_small` shows that every lattice satisfies it at all small tolerances.
* **C75** an order on outcomes (`running` below everything) and monotonicity of each function with a loop in the fuel. It justifies
  reading "for some fuel" and "for all large fuel" as statements about the unbounded loops of the crate.
* **C76** C74 (what is reported is right) together with C59 (what is right is reported), for the set of all isometries of the crystal. The
  lattice system is stated by the number of isometries of the lattice (`Spec/System.lean`). `Props/Salt.lean` runs it on caesium chloride
  (221) and on a distorted one with cubic lattice (no answer). The final change of basis returns because each operation occurs once
  and keeps small entries (`final_change_returns`, from C38).
* **C77** the pipeline lemmas behind C71-C76 are stated for a crystal with a clean primitive cell `ref`; the input is any cell `s` for
  which `find_primitive_cell` finds a primitive cell of `ref`'s lattice (`FoundPrim`). `CleanCell` are the conditions on `s`. That the search
  returns a cell of the right volume is a hypothesis (C57 shows it can fail). `Proofs/CubicCell.lean` evaluates the search for all
  crystals in a cubic cell with sites at halves of the edge, as a computation in integers (the sort becomes a bucket sort,
  `Proofs/BucketSort.lean`); `Props/RockSalt.lean` concludes for rock salt (225) and body-centred metals (229), for all edges in a range.
* **C78** the standard primitive cells of two descriptions of one crystal differ by an isometry of the lattice, i.e. by one of the 48 (24,
  16, ...) integer matrices of the holohedry. `Proofs/Settings.lean` conjugates every table by every such matrix in the kernel: tables of
  different groups never become equal (same number), and a table is mapped to itself for all but the twelve groups of `settingBad`
  (same answer). `Props/Diamond.lean` runs the whole program on the diamond structure, one of the twelve, in two cells.
* **C79** exact criteria, as inequalities between lengths, for `find_primitive_cell` on base-, body- and face-centred cells of any shape.
  `Proofs/Selection.lean` turns the choice of three vectors into integer arithmetic on the sorted list (areas and volumes of grid vectors
  are multiples of a unit above the tolerance) and uses that the sort is stable; `Proofs/Centred.lean` determines the candidates.
  `Props/CentredCells.lean` checks all orders in the kernel and translates positions in the list into inequalities: the result is
  primitive, or has the input volume (body-centred), or is flat (base- and face-centred). `C79_no_answer`: after a flat cell
  `get_space_group_info` never returns. `Props/CentredBoxes.lean` gives families of right-angled cells (one iron atom per lattice
  point). Rhombohedral cells on hexagonal axes always give a primitive cell (`C79_rhombohedral_obverse`, `_reverse`).
* **C80** any isometry. The cells of a crystal and its copy differ by the rotation and an integer matrix of the holohedry
  (`settings_turned`), the tables by this matrix, a change of sign and a real shift of the origin. `Proofs/Congruent.lean` excludes all
  pairs of tables with other numbers by linear forms that a rotation does not change (they do not see the shift; screw and glide parts)
  and, for 23 and 24, by the relative position of two axes; `Proofs/Origins.lean` shows that three shifts are enough to get the table of
  the copy. `Spec/Motion.lean` has the definition of a copy and the eleven enantiomorphic pairs. The twelve groups of C78 whose
  table depends on the axes are thus a matter of the origin.
* **C81** the complete list of reported numbers. The crystals: one integer lattice for each of thirteen Bravais types (`gridBasis`), two
  species on the orbits of two points in 48ths of the standard primitive basis. `Proofs/Orbits.lean` checks in the kernel, for every
  table, that no further isometry of the lattice keeps both orbits (the group of the crystal is the table, not a larger one);
  `Proofs/GridLattice.lean` computes Niggli conditions and lattice character in integers; `Proofs/GridCrystal.lean` and
  `Proofs/GridStandard.lean` verify the assumptions of C76 and follow the pipeline. Positions on a grid of spacing at least `c ≥ 3` are
  far apart compared with the tolerance, so near-symmetries are exact.
* **C82** which cells are reduced within the hundred iterations. `View` is the abstraction of one iteration with exact signs (the tolerance
  below all non-zero differences); `View.four` shows that four continuing iterations cannot all keep `A+B+C`: after steps A1, A2 or a
  boundary case of A5–A7 the next iterations can only sort or stop. So `4 (d+1)` iterations suffice when `d` smaller sums exist
  (`niggli_run`). The definitions are in `Spec/Edges.lean` and do not mention the algorithm.
* **C83** existence of the standard structures from the input alone: `clean_niggli_returns` (C82 for the primitive cell found),
  `noCharacter_exact` (the panic of C30 in exact terms: `AnglesFollow`, `Spec/Angles.lean`), C63 (the shape does not depend on the cell)
  and `clean_standard` (C71). It removes the hypothesis "the standard primitive structure is returned" from C76–C78.
* **C84** the complete outcome for clean crystals: `info_from` splits `get_space_group_info` after the search; the search returns (C45),
  `from_generators` ends (C37), the identification returns or fails in two ways (`identify_cases`), and once a group is identified the
  operations found are its table (`exact_core`, C74), so the final change of basis returns (C38). C75 lifts one run to all larger fuels.
* **C85** the layer of operation lists over the rounded scalars of `Spec/Rounding.lean`. `Accurate ρ δ` bounds one rounding
  (`accurate_binary64`: `δ = 2⁻⁴³` below 1024); `within_sound`/`within_complete` bound a comparison, `mul_close` a product (12 roundings),
  `genLoop_ends`/`genRound_far` treat the loop of `from_generators` for every arithmetic, `identify_any` the identification.
  `tableOp_rounded` gives the decoded tables exactly as rounded quotients.
* **C86** the search over the rounded scalars, for stored structures that differ from an ideal one by `η` (`Approximates`). `Relative ρ ε`
  (`Spec/Relative.lean`) bounds roundings of any size; `SearchBounds` collects what the numbers must satisfy. `Proofs/RoundedHolo.lean` shows
  that the holohedry is the exact one (rounding to `i8` after a rounded inverse); `Proofs/RoundedSearch.lean` bounds keys
  (`key_value`, `key_of`), buckets (`bucket_sound`, `bucket_complete`) and candidates (`cand_close`), and redoes the discrete part of the search
  for every arithmetic (`primitiveOps_eq_any`). `C86_binary64` is the double precision case for positions that are fractions; its
  hypothesis `gridCheck` is a computation with integers.
* **C87** the whole program over the rounded scalars, for a diagonal cell with edges in order, `a < b < c`, `a = b < c` or `a = b = c`
  (`BoxShape`; equal edges stay equal bit for bit, because every step treats them alike and the sorts are stable). Zeros stay exact in rounded arithmetic
  (`0 * x = 0`, `x + 0 = x`, `1 * x = x`), so every matrix on the way is diagonal (`rbox`), and no step of the Niggli loop applies.
  One file per stage: `RoundedBox` (arithmetic of diagonal matrices), `RoundedStage` (normalising and comparing sites), `RoundedSelect`
  (selection of the shortest vectors), `RoundedPrim` (`prim_state`: no vector other than lattice vectors passes as a translation),
  `RoundedNiggli` (`niggli_box`, `conv_box`), `RoundedApply` (`apply_box`), `RoundedGroup` (`group_kept`: the operations in the basis of
  the input), `RoundedFinish` (the symmetry hypothesis in the slightly different box). The primitive cell found has the edges
  `x (1/x x)`, not `x`. The first step sorts the sites by species and is the only one that sees the input, so the answer does not depend
  on the order in which species are given beyond the order within a species (`RoundedOrder`). `C87_python` is the same at the level
  of the lists Python passes, for fractional and Cartesian coordinates.
* **C88** Niggli reduction over the rounded scalars, any lattice. The step matrices have entries 0, 1, -1 in every arithmetic, so the
  product that accumulates them is exact while the integers in it are representable (`TransInts`, a factor of three per
  iteration); the metric tensor may be as wrong as it likes, it only decides which step is next. `rebuild_kept` is the error of
  expressing the atoms in the new basis.
* **C89** the twin run (`StTwin`): metric tensor and change of basis hold the same multiples of a unit in rounded and real
  arithmetic, the tolerance is at most a quarter of the unit in both, so every comparison is decided as a comparison of
  integers (`conds_twin`, `signs_twin`). The sum of the squared edges cannot grow by a whole unit, which bounds all numbers in
  all iterations (`nigLoop_twin`). The example reduces a cell that needs two iterations and keeps two atoms within `10^-10`;
  `C27_false_panics_binary64` carries the panic of C27 over to double precision.
* **C90** the decision tree over the twin products. Two quotients by 2, 3 or 4 of multiples of the unit are equal or a twelfth of a unit
  apart, and the tolerance is at most an eighth of a unit, so each comparison is decided alike (`div_twin`, `CandTwin`, `find_twin`,
  `characterOf_twin`); the answer is that of the real decision tree for every smaller tolerance, and in the limit the shape is exact
  (`shape_limit`). That the primitive cell consists of multiples of the unit is a hypothesis of `C90_standard_conventional`:
  `find_primitive_cell` passes through a rounded pseudo-inverse and need not keep it. The second example discharges it for one atom in a box
  whose edges are powers of two.
* **C91** the same for `delaunay_reduce`: the four vectors of the superbase are the same multiples of the unit in both arithmetics
  (`SuperTwin`), the sum of their squares falls, which bounds all numbers, and every product is either at most zero or above `1e-6`
  (`AboveTol`). Full reduction sorts by rounded square roots; `RootsApart` says that different multiples have different ones, and
  follows from the relative error (`rootsApart_of_relative`). `C23_false_returns_unreduced_binary64` and `C23_false_panics_binary64`
  carry the two exceptions of C23 over to double precision.
* **C92** an iteration lowers the sum of the squares of the superbase by twice a product above `1e-6`, so the lattice can only stay
  the same if no iteration is made (`superSq_of_cols`); the rounded statement is C91 and this. The negations: a cell returned after
  101 iterations, and full reduction.
* **C93** parametricity, function by function: each function commutes with a strictly monotone renaming (`Proofs/Rename.lean`), over the
  law-free operations, so that the theorem holds for floating point without any model of rounding. For a renaming of the species that
  occur only, both structures are renamed to the same third one (`spell`, which is strictly monotone on all strings).
  `SameOrders` relates the iteration orders of two hash maps with different keys; `sameOrders_of` and `sameOrders_for` say that each
  order has a counterpart.
* **C94** by unfolding: `atol` is stored and never read.
* **C95** because the sort in `normalize_coords` and in the reductions is stable: a list sorted by species is determined by its
  sublists for each species (`eq_of_filters`), and C12 gives these sublists. For arbitrary scalars.
* **C96** over ℝ: two images of a component have the same normal form unless it is exactly `-tol` modulo 1 (`normComp_canonical`), so
  the normalised structures are equal and the rest follows as in C95. For the reductions the change of basis is unimodular, so images
  stay images in the reduced cell. `C96_false_on_face` shows that the exception is real. The theorem
  says nothing about rounding, under which moving an atom by a lattice vector may change the last digit of its coordinates.
* **C97** because the last thing done to every returned structure is `normalize_coords` (`EndsNormalised`), together with C12 for the
  discrete part and C03 for the components. `C97_stable` needs that the computed fraction `d / m` is below 1 and that `1 - d / m` does
  not round to 1; `C97_binary64` derives both from a bound on the ratio of tolerance and edge.
* **C98** by following the two scans of `get_shortest_translation_vecs` through a sorted list of any length that contains `F`, `G` and the
  multiples of `e` (`axis_pick`): the third vector is looked for behind the second and on one side of the plane of the first two only, and
  if there is none the entry with the index 2 is taken whatever it is. `C98_false_doubled` is the concrete disagreement.
* **C99** by a calculus of `PanicsOnly o ms` (every panic of `o` has a message in `ms`) through `bind`, with one lemma per look-up showing that it
  succeeds: the tables are complete for the numbers that reach them (`tables_complete`, `systems_complete`, by evaluation), and the index
  computations stay in range. `TablesUsable K` says that the determinants of the table matrices are not zero in `K` and that their volume ratios are
  positive; it is proved for the reals and for every rounding with error at most 10⁻⁹ up to 1024. Not covered: a NaN in the comparison of the sorts
  (`partial_cmp().unwrap()`), since NaN coordinates are outside the model.
* **C100** because `normalize_coords` zips the lists (`trimmed_normalize`) and every function either starts with it or ends with it; the Python panics
  combine this with C47 and C99, so that no hypothesis on the arguments is left. `C100_false_transformation` is the exception.
* **C101** by the same two scans, now through a list of all `i a + j b + k c`: without obtuse angles each is at least as long as in a box, so that only
  the order of the three edges and of twice the shortest one matters (`BlockFrame`). Not covered: ties between edges that are not of similar
  length, left-handed orders in between, and obtuse angles.
* **C102** because a list with pairwise different lengths has one sorted order (`sort_unique`) and everything after the sort depends on the lattice only
  (`centred_lattice`). For crystals with one element the candidates come in the order of the atoms (`metal_list`), and a stable sort keeps this order for
  equal lengths; `C102_false_atom_order` uses this.
* **C103** by running the search in integers (`primZ`): with a power of two as edge, all coordinates, cross products and triple products are multiples of
  1/1024 below 2⁵⁰, which doubles hold exactly, and only the square roots are rounded, whose order is kept since different lengths are far apart
  (`dyv_mag_le`). The pseudo-inverse is rounded once from its exact value, as everywhere in the rounded model; for these lattices the exact value is
  representable. Not covered: the coordinates of the atoms in the returned cell, and edges that are not powers of two.

## Where the properties disagree with the code

Each line names the theorem with the concrete witness (or the general negation). All are about the model; the
crate was not run.

| property | what the code does | witness |
|---|---|---|
| C08, C09 | `SymmOp * SymmOp` (src/symmop.rs:49) multiplies the rotations in one order and the translations in the other; not composition, not associative | `C08_product_is_not_composition`, `C09_product_not_associative` |
| C18 | `Structure::apply_transformation` (src/structure.rs:141) never ends for coinciding sites and for a sixfold reduction of a regular supercell | `C18_false_coinciding_sites`, `C18_false_sixfold_reduction` |
| C20 | `formulas` (src/structure.rs:335) counts in `i8`; wrong from 127 equal atoms on | `C20_false_127`, `C20_false_128` |
| C23 | `delaunay_reduce` (src/reduce.rs:409) gives up after 101 iterations without saying so, and panics when it finishes in exactly 100 | `C23_false_returns_unreduced`, `C23_false_panics_on_reduced` |
| C24 | `niggli_reduce` (src/reduce.rs:214) can flip the handedness when `eps >= 1` | `C24_false_handedness` |
| C26 | left-handed cells: `eps` is NaN, the cell comes back unreduced | `C26_false_left_handed` |
| C27 | `niggli_reduce` panics after 100 steps on a skewed cell | `C27_false_panics`, in double precision `C27_false_panics_binary64` |
| C28 | `find_primitive_cell` (src/reduce.rs:26) can return a singular lattice (default indices of src/reduce.rs:512) | `C28_false_singular` |
| C30 | `get_lattice_character` (src/analyzer.rs:363) finds no character for some Niggli cells and panics | `C30_false_no_character`, `C30_false_api`; exact condition and a symmetric crystal: C83 |
| C31 | products just below `eps`, and left-handed cells, get a conventional cell of the wrong shape | `C31_false_band`, `C31_false_left_handed` |
| C37 | `SpaceGroup::from_generators` (src/spacegroup.rs:22) uses the product of C08; 21 table groups are not closed under it | `C37_false_not_closed`, `C37_table_groups_partial` |
| C38 | `SpaceGroup::apply_transformation` (src/spacegroup.rs:38) tests `any` entry instead of all: keeps rounded non-integral rotations; never ends for determinant 1/8 | `C38_false_not_a_symmetry`, `C38_false_no_result` |
| C42 | `identify_space_group` (src/analyzer.rs:87) knows one origin per group | `C42_false_origin` |
| C43 | the rhombohedral tables are filed under a lattice system that no Bravais type has | `C43_false_never_rhombohedral` |
| C51 | `niggli_reduce` with `tol = 0` accepts zero products in type I | `C51_false_mixed_signs` |
| C52 | `find_primitive_cell` merges sites of different species within the tolerance | `C52_false_species_lost` |
| C56 | one atom on a body-centred monoclinic or rhombohedral lattice: panic instead of 12 or 166 | `C56_one_atom_partial` (first part), `C58_no_answer` |
| C59 | structures with the symmetry of one of the 21 groups of `crateBad` are never identified | `C59_false_not_identified`, `C59_false_screw_axis` |
| C76 | a crystal whose lattice has more symmetry than the crystal (P4mm with a cubic lattice) gets no answer: only the tables of the lattice system are searched | `C76_cubic_metric_no_answer`, `C76_cubic_lattice_needs_threefold` |
| C62 | `niggli_reduce` (src/reduce.rs:276-325) can turn a product `-ε` into `ε`, which `num_negative_zero` (src/utils.rs:18) does not count as zero, so the next call changes the signs again | `C62_false_boundary` |
| C92 | `delaunay_reduce` returns without an error when the 101st iteration still had something to do (src/reduce.rs:429, 458), and a second call changes the cell; with `full_reduction` it is not idempotent even on a right-angled box | `C92_false_unreduced`, `C92_false_full` |
| C63 | with a fixed tolerance two cells of one lattice are reduced to cells of different shape | `C63_false_fixed_tolerance` |
| C67 | full Delaunay reduction (src/reduce.rs:486-496) replaces one of the three shortest superbase vectors by a longer one, so it never returns the shortest vectors; for the cubic lattice it returns a cell with an edge `√2` times too long | `C67_false_never_shortest` (all cells) |
| C61 | the symbols of 19 and 24 in `SG_NUM_TO_SYMBOL` lack an underscore (`P2_12_121`, `I2_12_121`) | `C61_false_two_symbols` |
| C57 | `find_primitive_cell` can miss an exact translation with the default tolerances | `C57_false_not_primitive` |
| C73 | `get_lattice_character` and `niggli_reduce` compare squares of lengths with a tolerance that is proportional to a length (src/reduce.rs:215, src/analyzer.rs:364): the space group depends on the unit of length | `C73_false_unit` |
| C78 | the table of one group is stored in one setting; for twelve groups (80, 88, 98, 109, 110, 122, 141, 142, 203, 210, 227, 228) a lattice isometry maps it to another setting, and which one is tried depends on the axes of the cell: silicon is reported (227) in its usual primitive cell and not in the one turned by 90° | `C78_silicon`, `C78_false_turned_axes` |
| C79 | the scan for the third vector (src/reduce.rs:531) only accepts a positive triple product, so it fails when the first two vectors are ordered the wrong way round, and the default index then gives a flat cell: a base-centred right-angled cell with `a ≤ b ≤ c`, `b < √3 a`, and a face-centred one with the edges of orthorhombic sulfur, never get a space group | `C79_false_base_centred`, `C79_false_face_centred` |
| C79 | a body-centred cell whose half body diagonal is at least as long as every edge is returned as primitive with its volume unchanged | `C79_body_centred` |
| C98 | a cell repeated along an edge that is not the longest may be answered with a cell without volume; a tetragonal metal (123) doubled along its first edge is never reported | `C98_false_doubled` |
| C100 | `apply_transformation` (src/structure.rs:141) counts positions but searches only those with a species: with a position too many even the identity never returns | `C100_false_transformation` |
| C101 | a block of n1 x n2 x n3 cells whose edges increase in a left-handed order is answered with a cell without volume if twice the shortest edge is shorter than the longest; no space group is ever reported for 2 x 2 x 2 such boxes | `C101_false_left_handed`, `C101_false_no_group` |
| C102 | the answer depends on the order in which the atoms are listed: four square prisms side by side are reduced to one in one order and to a cell without volume in another, for which no space group is ever reported | `C102_false_atom_order` |
| C103 | the same happens in double arithmetic: with four iron atoms in a cube of edge 8, exchanging two atoms turns the primitive lattice into one with two zero columns | `C103_false_atom_order` |

## Testing the theorems against wrong programs

`seeded/mutations.json` (the entries up to AC14 written by `seeded/make_mutations.py`) lists edits of the model, one wrong program each, with
the properties whose English statement the edit makes false. `seeded/run.py` applies each edit in a scratch copy
outside /verif, builds, and records in `seeded/LOG.jsonl` which property theorems no longer check. A listed property none of
whose theorems fails is looked at: either the edit does not change the meaning (noted in the log) or the theorem is
tightened and the mutation run again (`theorems_tightened`).

## Axioms per theorem

`#print axioms` of every theorem in `MANIFEST.json`:

* no axioms: `C04_cust_eq_symm`, `C48_centering_round_trip`, `C48_centering_display`, `C48_lattice_system_display`;
* `propext` only: `C11_new_fields`, `C21_delaunay_matrix_closes`, `C48_lattice_system_round_trip`;
* `propext`, `Quot.sound`: `C04_approx_equal_iter_iff`, `C04_approx_equal_iter_panics_iff`, `C05_decode_panics_iff`,
  `C09_identity`, `C10_action_affine`, `C10_action_isometry`, `C13_metric`, `C32_no_other_character`, `C32_handedness`,
  `C33_every_point_group`, `C33_bad_number_panics`, `C36_panics_iff_singular`, `C37_contains_generators_partial`,
  `C47_round_trip`;
* `propext`, `Classical.choice`, `Quot.sound`: all others.

Large finite tables are checked with `decide +kernel`, which is evaluation by the kernel and adds no axiom.
