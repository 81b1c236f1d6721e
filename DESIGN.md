# Design: a Lean 4 model of lanl/Fierro

## Approach

The code is read as text; functions are transcribed one by one into Lean
definitions (each with a comment citing file and lines), and the properties of
`properties.jsonl` are stated as theorems about these definitions.

Layout under `lean/Verif/`:

* `Model/*.lean`  the transcribed code (only definitions),
* `Spec/*.lean`   small independent specifications used by the statements,
* `Proofs/*.lean` helper lemmas,
* `Props/*.lean`  the property theorems and, beside each, an `example` that
  exhibits a concrete non-trivial instance meeting the hypotheses.

### Modelling decisions

* **Floating point** is modelled by exact arithmetic over an arbitrary linear
  ordered field (theorems generic in `K`; definitions are executable over `ℚ`),
  or over `ℝ` where the code uses `sqrt`, `sin`, `cos`.  Rounding, NaN and
  infinities are *not* modelled.
* **Integers**: `size_t` values are modelled by `ℕ` and `int` by `ℤ`; overflow is
  not modelled, but `size_t` underflow (`a-1` at 0) is modelled where the code
  depends on it.
* **Arrays** are functions on the index type or lists; an out-of-range access is
  a separate outcome (`none` / `Outcome.ub`) wherever the property is about range.
* **Parallel loops** (`FOR_ALL`, `FOR_REDUCE_*`) whose iterations write disjoint
  cells are modelled by sequential or simultaneous update; reductions by
  `Finset.sum`/`min`. C58 models the loops as interleavings of actions and proves
  that every schedule gives the sequential result; C59 treats a racing loop.
* **Undefined behaviour / exceptions / `exit`** are explicit outcomes.
* Where the code falsifies a property, the negation is proved with a concrete
  witness (`..._fails`, `..._counterexample`) and the property states exactly
  when the claim holds.

## Per-property plan

| id | model | proof |
|----|-------|-------|
| C01 | `get_id` | injectivity by div/mod uniqueness, surjectivity by explicit inverse |
| C02 | `PointIndexFromIJK` for arbitrary order | explicit inverse by cases vertex/edge/face/interior, counting |
| C03 | `build_3d_box` connectivity | arithmetic on ids via C01 |
| C04 | `build_3d_box` coordinates, `get_vol_hex` | volume of a cell by `ring`, sum over cells by induction |
| C05 | `build_2d_box`, `get_area_quad` | as C03/C04 |
| C06 | `get_bmatrix` | polynomial identities |
| C07 | `get_bmatrix`, `get_vol_hex`, `get_velgrad`, `get_divergence` | polynomial identities, linear algebra |
| C08 | `get_vol_hex` | polynomial identities |
| C09 | 2D geometry | polynomial identities; Heron over ℝ |
| C10 | `update_velocity`, corner force | exchange of finite sums over an arbitrary incidence |
| C11 | `update_velocity`, `update_energy` | exchange of finite sums |
| C12 | `calc_corner_mass`, `calc_node_mass` | exchange of finite sums |
| C13 | `get_timestep` | order reasoning on min/max chain |
| C14 | pair enumeration loop | loop unrolled symbolically, every pair proved to occur |
| C15 | `execute` cycle loop abstracted over the physics step | induction over cycles |
| C16 | `setup_solver_vars` | induction over the solver list |
| C17 | `fill_regions` per element | induction over the fill list, exact condition by comparing slot counts |
| C18 | `append_fills_in_elem` | invariant by induction; repeated materials: witness of the failure |
| C19 | `material_state_setup` serial loop | invariant by induction over the loop |
| C20 | `build_material_elem_node_lists` | invariant by induction |
| C21 | `write_ensight` / `read_ensight_mesh` node permutations | composition = identity; 2D counterexample |
| C22 | `write_vtu` / `read_vtu_mesh` | composition; VTK standard mismatch witness |
| C23 | `write_vtm` naming | positive theorem when every material has elements, counterexample otherwise |
| C24 | `tag_bdys`, `build_boundry_node_sets` | filter/dedupe lemmas |
| C25 | velocity BC functions, application loop | algebra, fold induction, counterexample for reflected BC |
| C26 | gamma law EOS | ordered field |
| C27 | erosion and update_state | induction over history |
| C28 | Tipton | ordered field, finite sums |
| C29 | MARS | finite sums, ordered field |
| C30 | `decompose_vel_grad` | ring |
| C31 | `linear_interpolation` | induction over the table |
| C32 | `split`, `trim` | list induction |
| C33 | id check loops | invariant by induction |
| C34 | `validate_inputs` | list reasoning |
| C35 | `check_fill_*_states` | list reasoning, counterexample with duplicates |
| C36 | `fill_geometric_region` | decision logic |
| C37 | voxel index | floor/trunc reasoning; counterexamples |
| C38 | YAML containers | refinement to `List`/finite map by induction over operations; counterexamples |
| C39 | YAML parser from raw lines to the tree, with quotes and block texts | induction over trees |
| C40 | `execute` clock and dump counter | invariant over cycles; counterexample for late starts |
| C41 | `hypo_elastic_plastic` models | tensor algebra over ℝ, radial return by cases |
| C42 | `update_state` density | field arithmetic; counterexample for the coupled branch |
| C43 | `get_heat_flux`, `moving_flux`, `update_temperature`, thermal stage/cycle/run | exchange of finite sums, induction over stages and cycles; out-of-range witness for several materials |
| C44 | the same | polynomial identities of C06/C07, induction over the run |
| C45 | the same | quadratic form of the conduction operator; checkerboard counterexample |
| C46 | `boundary_convection`, `boundary_radiation`, `boundary_temperature` | Cayley-Menger identity over ℝ, fold induction |
| C47 | thermal `get_timestep` | order reasoning |
| C48 | `ToolPathInfo` | from C31 |
| C49 | `update_position`, `update_velocity`, Runge-Kutta loop | induction over stages and cycles |
| C50 | `get_force`, `update_energy`, `get_velgrad` | bilinear identity, sign argument over an ordered field |
| C51 | `get_force`, `get_bmatrix`, corners of an interior node | polynomial identity in 81 coordinates |
| C52 | `calc_corner_mass_rz`, `calc_node_mass_rz`, `calc_node_areal_mass_rz` | polynomial identity for the corner areas, sum over corners, invariant of the axis loop |
| C53 | `get_force_rz`, `update_velocity_rz` | per-point identity, induction over stages and cycles |
| C54 | `update_energy_rz` with the above | summation by corners, induction over stages and cycles |
| C55 | `update_position_rz`, pairs of `get_timestep_rz` | induction over runs; fold of `min` |
| C56 | `get_force_rz`, `get_velgrad_rz`, `get_divergence_rz` | identities; permutation of neighbours around a node |
| C57 | `MARSRZDissipationModel` | weighted-mean inequality; concrete witnesses for what fails |
| C58 | parallel loops as interleavings of action lists (`Model/Parallel.lean`) for `get_force`, `update_velocity`, `boundary_velocity`, `boundary_convection/radiation`, reductions | conflict-free interleavings commute (induction over schedules); atomic additions via permutation; reduction trees by induction |
| C59 | `fill_regions` painting loop, `paint_vector`, `paint_scalar` | last store of racing constant stores; field identities |
| C60 | `paint_multi_scalar`, `material_state_setup` | case analysis, real square roots |
| C61 | `boundary_stress`, constant and time-varying stress conditions | linear identities of corner normals, closed-surface cancellation, atomic loops as interleavings |
| C62 | `nodal_gradient` of the level set solver | B-matrix identities on lattices, Cauchy-type bounds |
| C63 | `update_level_set`, Runge-Kutta stages | weighted averages, induction over stages, conflict-free interleavings |
| C64 | level set `get_timestep`, cycle loop | order reasoning, induction over cycles, concrete witnesses for what fails |
| C65 | `invert_matrix`, `solve_linear_system`, `PowIntExpo` of EVPFFT | Gauss-Jordan invariant over leading minors, induction over columns |
| C66 | `chg_basis_1..4`, `set_b_basis` | orthonormality of the basis, linear algebra over finite sums |
| C67 | `data_crystal_elast`, `voigt` | case analysis over index pairs, quadratic forms |
| C68 | `data_grain` (stiffness part) | change of variables in quadratic forms, list sums |
| C69 | `euler`, `orient`, `update_orient`, `write_texture` | trigonometric identities, induction over steps |
| C70 | `data_crystal`, `update_schmid` | real square roots, induction over the mode loop |
| C71 | `harden` | exponential identities, induction over steps |
| C72 | `evpal` at one grid point | monotone operators, derivatives, induction over iterations, concrete witness for what fails |
| C73 | wave numbers, acoustic tensor, Green operator, finite Fourier transforms of the whole grid | linear algebra per frequency, orthogonality of characters, derivatives of trigonometric sums |
| C74 | input checks, correction of the average, load step with an arbitrary stress update, equivalent measures | decision logic, induction over iterations and steps, positive definiteness, concrete witnesses for what fails |
| C75 | call of the polycrystal model from a host code | invariant by induction over the calls, composition with C74 |
| C76 | shape functions, tangents, normal and its derivatives of a contact patch | algebraic laws, derivatives over ℝ, concrete witness for what fails |
| C77 | tables of faces and columns, patch coordinates | algebraic identities for every hexahedron |
| C78 | penetration test | decision logic stated outright, convexity, parallelepipeds in closed form |
| C79 | Newton search for local coordinates, foot of the perpendicular | invariant of the loop, exactness on parallelepipeds |
| C80 | bucket grid, sort, visited buckets, recorded patches | floor arithmetic, invariant by induction over sort and search, refinement to a filter |
| C81 | distribution and resolution of contact forces with arbitrary increments | invariant by induction over pairs and passes, composition with C10 |
| C82 | elements penetrated, choice of patch, active set, surface map | induction over rows, refinement to argmin / set |
| C83 | predicted distance, Jacobian and loop of the force increment | algebraic identities, invariant of the loop |
| C84 | overlapping node pairs, slots, faces of a corner, greedy face matching of cohesive zones | induction over the lists, invariant of the matching table, maximality |
| C85 | face normal, matching test, orientation, opening, area of a cohesive pair | vector algebra; 2x2 quadrature on flat convex faces by bilinear interpolation of corner cross products |
| C86 | damage, branch stresses, traction increments, commitment | invariant by induction over steps, telescoping, exact solution of the branch equation |
| C87 | nodal forces of cohesive zones | accumulation as signed sums, composition with C10, moment and work in closed form |
| C88 | prescribed motion of the reorientation test | rotation algebra, composition with C85 |
| C89 | `matrix_exp`, `update_defgrad` at a point | norm estimate of the remainder, Cayley-Hamilton, induction over updates |
| C90 | averages over load steps and turns | invariant (`Balanced`) by induction over turns, composition over a step |
| C91 | iteration of `defgrad_dcmp` | invariant "same rotation" of the iteration, error estimate at exit |
| C92 | elastic, plastic and initial part, stress rotation | invariant by induction over steps, C91 for the rotation |
| C93 | plastic velocity gradients, slip tensors | trace and conjugation algebra, composition with C89 |
| C94 | isotropic flow rule, tangent, hardening | monotonicity of powers, derivatives, induction over histories |
| C95 | reference stiffness and Green operator at deformed points, current stiffness | quadratic forms, mean over frequencies, composition with C98's hypotheses |
| C96 | node motion, points written | Fourier inversion, periodic indices, induction over steps |
| C97 | Piola-Kirchhoff stress | algebra, sums over the grid |
| C98 | stress iteration with line search | monotone operator, induction over iterations and cuts, explicit counterexample |
| C99 | YAML writer: scalars, folding, keys, trees | induction over trees: written lines form a document of C39 |
| C100 | largest eigenvalue helper | Cardano's formula, characteristic polynomial |
| C101 | loops that fill the arrays of a dump, request parsing, arrays as written | effect of a list of loops on one entry, under every schedule |
| C102 | nodal arrays of a dump | same; race of the misindexed store |
| C103 | choice of the reader, `read_Abaqus_mesh` as a machine over lines | induction over the parts of a deck and over their lines |
| C104 | `read_vtk_mesh` as a machine over lines | induction over the lines of each part |
| C105 | `build_2d_polar` | loop effects as in C05, addition theorems, derivative of the sine at zero |
| C106 | `update_state_rz`, `update_stress` of the r-z solver as closures of the run of C52-C57 | case analysis, induction over stages and cycles |
| C107 | `get_timestep_rz` and the cycle loop of the r-z solver | the step is the one of the 3D model for elements of the same length, so C13, C15 and C40 carry over |
| C108 | `parse_bcs` word by word, and which sets and function pointers the thermal and stress boundary loops then use | frame lemma for each word, induction over words and blocks |
| C109 | `parse_materials` word by word, final checks, and the calls through the function pointers at start and in steps | acceptance and frame lemma for each word, induction over words and materials |
| C110 | `parse_multimaterial_options` and the solver's tests for equilibration | the same, sorted keys |
| C111 | `read_tabular_jmatpro_file` and the lookups of `update_properties` | induction over lines, on top of C31 |
| C112 | `parse_mesh_inputs`, the choice in `Driver::initialize`, `build_mesh` and `read_mesh` | acceptance and frame lemma for each word, the test after each word moved to the end by induction, then C03, C05, C105 for the generated mesh |
| C113 | `parse_regions` with the blocks below `volume`, `velocity` and the scalars, and the tests after each region | acceptance and frame lemma for each word, induction over words and regions |
| C114 | the fill instructions `fill_regions` takes from the stored regions, `get_region_scalar` | case split over the volume types, then C17, C18, C36 and C113 |
| C115 | `user_voxel_init` on the lines of a file, with the voxel branch of `fill_geometric_region` | induction over the rows of each block and over the skipped lines, then C32 for trimming and splitting and C37 for the index |
| C116 | `calc_IPF_colors` of EVPFFT and the part of LS-EVPFFT that differs | half-angle formulas for the direction; the three order statistics are symmetric functions of the entries, from which the colour follows |
| C117 | `write_micro_state_pvtu`, `calculate_eel`, `symmetrize` of EVPFFT: the binary section as a list of sized numbers | a reader by name and offset; induction over the list of arrays for the offsets, index arithmetic of nested loops for the entries, C65 and C66 for the elastic strain |
| C118 | stream reading with `>>` and `CLEAR_LINE`; the three readers of data_grain.cpp, the rows of write_texture.cpp | induction over the lines of the file, every assignment to a point found in the list of assignments; blocks of data sets by index arithmetic |
| C119 | `vpsc_input` of EVPFFT block by block, `init_ept`, the test for field output | a lemma for reading any number of lines with comments; the loop over phases by induction; lookup of the last assignment to each variable |
| C120 | `data_crystal` (EVPFFT, LS-EVPFFT) and `data_crystal_elast` from the characters of the file to the arrays | the loop over modes is shown to be the loop of C70 by induction, with the invariant that the wanted modes below the current one were found; stops at the first fault; twin order by pairwise arguments |
| C121 | the file side of `write_mesh`, `write_vtm`, `write_pvd`: a file system as a map from names to contents, the dumps of all solvers in order | induction over dumps and over solvers with a complete description of the files so far; names shown different character by character |
| C122 | `write_material_point_state`, the fields of `write_ensight`, and their files over a run | sums over loops, last write to a cell or name; algebra for the radial part |
| C123 | `SGTM3D::execute` as a whole: start, cycle loop, clock, dumps, tables, moving source | the loop in closed form, shown to be a run of the model of C43 with the steps and sources of the loop; invariants by induction over cycles |
| C124 | the branches `igamma == 1` of LSNP-EVPFFT: `mod_frequency`, gradient, velocities, Green operator, self response, motion of nodes | discrete Fourier analysis over arbitrary grids; closed form of the modified frequency; Parseval; Jordan's inequality for the lower bound of the frequencies; irrationality of pi |
| C125 | the branches `ibc == 1` of LSNP-EVPFFT: vertices, surface velocities, interpolation by transforms, error, frame, outer loop | induction over steps and passes; shape functions by algebra; convolution theorem and positivity of the weights; the frame matrix is a multiple of the identity, so the iteration contracts |
| C126 | `calc_c0`, `init_c0_s0`, `deinit_c0_s0` of LSNP-EVPFFT over a run | invariant over the list of steps; positivity through the change of basis and the deformation gradient; a null vector for the quarter turn |
| C127 | `initialize_fracture_bc`, `initialize_reorientation_mode`, the reorientation branch of `SGH3D::execute` | list induction for the setup; stages reduce to the last one; equivariance of normals under rotations; induction over the steps |
| C128 | the `initialize` methods of state.hpp, `initialize` and `initialize_material_state` of the solvers, the accesses of painting and `material_state_setup`, in the order of the driver | guarded allocation by list induction; which fill arrays exist by induction over the named fields; every access compared with the extents |
| C129 | `DirMARSRZDissipationModel::calc_dissipation` | the planar argument of C57 with the directional resistance; dual edges from coordinates; rectangle computed |
| C130 | all loops of tipton_equilibration.cpp as actions of threads | conflict freedom from the map being without repetition; induction over the materials for each of the four groups of loops; clamp moves sums towards one; induction over the passes; an explicit losing schedule |
| C131 | the functions of LS-EVPFFT-J2 that differ from LS-EVPFFT: `update_grid_velgrad`, weights of `update_defgrad`, `inverse_the_greens`, the stress equation of `evpal` | the local array of a rank is a periodic grid of its own, so C96 lemmas apply to it; algebra of the averages; reduction of the stress equation to C98 without Green operator; explicit witnesses |
| C132 | order of host loops, kernels and `update_host`/`update_device` calls from the deck to the output, per solver; the same for `update_grid_velgrad` | a data flow analysis of programs with two copies per array, proved sound by induction over programs and loop passes; evaluated in the kernel on the programs; symbolic lists of fields by lemmas on lists; witnesses for the programs it refuses |
| C133 | `MicroOutputWriter` with its selections, the loops over components, data sets and attributes of a step | the selection of a block as the list of its points; cells without repetition from the decomposition, hence any permutation of the writes gives the same; induction over the sets and the steps with freshness of the paths |
| C134 | `forward_propagate_layer_host`, `calc_stress`, `init_strength_state_vars` of the host network, reductions in any order | induction over the layers against a separate network; permutations of sums; induction over the calls; explicit witnesses |
| C135 | distribution of the grid over ranks, transforms and Green operator on the arrays of a rank, reductions, iteration with a decision on every rank | each rank holds its part of a run on the whole grid: invariant over iterations and steps; sums over ranks by a bijection of points |
| C136 | `init_strength_state_vars`, `calc_stress`, `destroy` of the link, objects with deletion, memory of the tensors, positions in shared output files | invariant over elements and calls (pointers distinct and alive); each element simulates its own calls; explicit witnesses |
| C137 | `SGH3D::execute` around the cycles of C11/C49 with step sizes from the state, dumps, tallies; `Driver::execute` for several solvers | induction over cycles and over solvers; conservation laws of C11/C12 along the run; explicit witnesses |
| C138 | `SGHRZ::execute` around the cycles of C52-C56 with nodal masses from the given state, step sizes from the state, dumps, tallies; `Driver::execute` for several such solvers | induction over cycles and over solvers; invariants of C52-C55 along the run; explicit witness of mass lost on the axis |
| C139 | `LevelSet::execute` around the cycles of C62-C64 with step sizes from the mesh, dumps | induction over cycles; C63 and C64 along the run; invariant for the dump times |
| C140 | `Driver::execute` for hydrodynamics and level set solvers in any order on one state | equivalence of the driver's loop with an inductive specification; non-interference by induction over the chain; C137 and C139 along it |
| C141 | `parse_command_line`, `check_cmd_args`, `getopt_long`, `atoi`, the choice of the reader | equivalence with an inductive grammar of command lines; induction over the words; determinism of the grammar |
| C142 | `SGH3D::execute` with contact and cohesive zones: forces of each stage, variables that live from cycle to cycle; search, increment and release of contact pairs, normals and areas of crack pairs are arbitrary functions | induction over cycles and stages; refinement to C137 with both off; C10, C11, C81, C86, C87 along the run; counterexample runs |
| C143 | `Driver::execute` with hydrodynamics, level set and thermal solvers on one state: which fields are shared, what each solver reads and writes | refinement to an inductive chain; frame theorems; congruence of hydrodynamics runs in the fields a thermal solver writes; C123, C137, C44 along the chain; concrete simulations |
| C144 | `get_basis`, `lagrange_basis_1D`, `lagrange_derivative_1D`, `partial_*_basis` over any field | equality with Mathlib's Lagrange basis and its derivative; sums over tensor products |
| C145 | the four tables of points and weights, digit by digit | defects of all powers checked in exact rational arithmetic by the kernel; linearity extends them to all polynomials; square roots of the small rules over ℝ |
| C146 | `init` of the reference element in 3D: sizes, positions, maps, weights, stored bases and gradients | writes of the loops resolved by index; C144 and C145 along them; negations outside orders one to nine |
| C147 | `Iterator` of the YAML reader, `Begin`, `End`, the loops of `validate_inputs` and `parse_multimaterial_options` | induction over the entries left; equivalence of termination with the kind of node; the parsers of C33-C35, C101-C104 take blocks that are mappings |
| C148 | `MeshBuilder`, `MeshIO`, `VtkIO` of `legacy/Fierro_V0/src/Mesh-Builder`: boxes and cylinders in 2D and 3D of every order, order of points in VTK files, lines of EnSight files | writes of the loops resolved by index; exact real arithmetic; the order of points by the bijection of C02; counting argument for the reader |
| C149 | `Voxelizer` of `legacy/Fierro_V0/src/Voxelizer`: extents, rays, crossings, sorting, marking, repair, vote, file | reductions over any split; exact crossing test with IEEE division by zero; parity by induction over pairs; monotonicity of the repair |
| C150 | `Yaml-Serializable` of `legacy/Fierro_V0/src`: fields, containers, enumerations, base classes, strict check, registered classes | one serializer per type constructor over the nodes of C38; induction over fields and items; refusal composes through structures and lists |
| C151 | `binary_stl_reader` of `legacy/Fierro_V0/src/Voxelizer` over an input stream of bytes | reads stated for full and cut streams; induction over records; the four variables seen as 48 bytes |
| C152 | the checkpoints of `legacy/Fierro_V0/src/Parallel-Solvers/Parallel-Explicit/SGH_Solver`: set, cache, buffers, levels, repeated solve, backward sweep | invariant of the containers through every store, erase and repeated solve; refinement to a solve that keeps every state |
| C153 | node combinations and `Get_Boundary_Patches` of `legacy/Fierro_V0/src/Parallel-Solvers`: order, equality, flags, list and map of boundary patches | the order is a strict weak order whose equivalence is permutation; invariant of the set and the flags through the loop; the map by the list it is built from |
| C154 | `Volume` and `Region` of `legacy/Fierro_V0/src/Parallel-Solvers/Simulation_Parameters`: containment, volume, validation, derived energy and velocity | decision logic against distances and cells of a grid; the energy by field arithmetic; idempotence of the derivation |
| C155 | `ObjectiveMMA` of `legacy/Fierro_V0/src/Parallel-Solvers/Optimization_Modules`: update, value, gradient, products with the Hessian and its inverse | derivatives along lines from those of quotients and sums; signs of the numerators for convexity |
| C156 | the derivation of optimization modules in `legacy/Fierro_V0/src/Parallel-Solvers/Simulation_Parameters`: objective, terms, constraints, owners among the modules of the physics | decision logic against separate tables of what fits; induction over the entries for owners and lists |
| C157 | `tag_boundaries` and `check_boundary` of `legacy/Fierro_V0/src/Parallel-Solvers/FEA_Module.cpp` and their use for the surfaces of the elastic module | induction over nodes and patches against a separate description of a plane with limits |

## What is modelled and what is not

Modelled (paths under `apps/multiphysics/src`; each definition cites its lines):

* mesh generation: `get_id`, `PointIndexFromIJK`, `build_3d_box`, `build_2d_box` (C01-C05),
  `build_2d_polar` (C105); mesh files of Abaqus and of legacy VTK (C103, C104);
* geometry: `get_bmatrix`, `get_vol_hex`, `get_bmatrix2D`, `get_vol_quad`, `get_area_quad`,
  `heron`, `get_area_weights2D` (C06-C09);
* the 3D staggered-grid hydrodynamics solver: setup of masses, forces, momentum, energy,
  position, velocity gradient, time step, Runge-Kutta loop, cycle loop, boundary velocities
  (C10-C15, C25, C30, C49-C51), with the material closures arbitrary functions there and modelled
  one by one in C26-C29, C41, C42;
* the r-z solver: setup, forces, momentum, energy, position, areal masses, dissipation (C52-C57), material state (C106), time step and cycle loop (C107);
* the thermal solver: conduction, capacity, boundary fluxes, moving heat source, time step, tool
  path (C43-C48), whole run (C123);
* the driver's solver chain (C16), its allocation of the state (C128); region fills and material maps (C17-C19, C36, C37); writers and
  readers of vtk, ensight and state files (C20-C23, C40, C121, C122), fields of graphics dumps (C101, C102); boundary set tagging (C24);
  multi-material equilibration (C28); tables (C31); strings (C32); input deck checks (C33-C35), boundary conditions of a deck (C108), materials and their tables (C109-C111), mesh options (C112), regions and the way to the elements (C113, C114), voxel files (C115);
  the YAML node container and the document structure of the YAML reader (C38, C39), the YAML writer (C99);
* schedules of the parallel loops (C58); initial fields (C59, C60);
* stress boundary conditions (C61); the level set solver (C62-C64);
* the crystal plasticity code (`apps/micromechanics/EVPFFT/src`): dense algebra, change of basis, crystal
  and reference stiffness, orientations, slip systems, hardening, stress update of a grid point,
  Green operator, load steps and boundary conditions, call from a host code (C65-C75), colours and graphics files (C116, C117), microstructure, input, crystal and elastic files (C118-C120), default build without `NON_SCHMID_EFFECTS` and `TWO_SIGN_SLIP_SYSTEMS`;
* frictionless contact (`SGH_solver_3D/src/contact.cpp`): patches, faces, bucket search, penetration
  test, pairing, force increment and resolution (C76-C83);
* cohesive zones (`SGH_solver_3D/src/fracture.cpp`, `reorientation_kinematics.hpp`): pairs, face
  matching, normals, openings, traction law, areas, forces, prescribed motion of the
  reorientation test (C84-C88), setup and whole run of that test (C127);
* the large-strain crystal plasticity code (`apps/micromechanics/LS-EVPFFT/src`): deformation increments,
  averages, polar decomposition, multiplicative split, crystal and isotropic flow, reference medium,
  stress iteration, grid motion and output points (C89-C98), default build; what it shares with
  `EVPFFT` unchanged (change of basis, orientations, Voce hardening, mixed boundary conditions) is
  C65-C75;
* the non-periodic variant (`apps/micromechanics/LSNP-EVPFFT/src`): the rotated scheme of the Green
  operator (C124), prescribed surface velocities (C125) and the reference medium (C126);
* the variant for isotropic plasticity (`apps/micromechanics/LS-EVPFFT-J2/src`), where it departs from
  `LS-EVPFFT` (C131).
* the transfers between host and device memory (C132). Everywhere else `update_host` and
  `update_device` are identities, which is what C132 justifies for the programs it accepts. C132
  assumes of MATAR that `set_values` acts on the device copy and that a fresh array is equal on both
  sides, and it lets a solver kernel read and write any state array of the device.

Not modelled: the older collision detection in `contact.cpp` that no caller uses, the total-Lagrangian quasi-static solver,
high-order solvers and the surface element (the volume reference element and its quadrature rules are C144-C146), user-defined models loaded at run time, MPI other than the ranks of the crystal plasticity code (C133, C135),
performance counters, screen output, the
libraries MATAR, Kokkos and swage (their contracts appear as explicit hypotheses such as
`Mesh8.WF`, `Mesh4.WF`), the other variants under `apps/micromechanics`, `legacy` except the mesh builder, the voxelizer, the loading of structures from YAML, the checkpoints of the explicit solver, the boundary patches, the volumes and regions, the moving asymptotes,
the choice of optimization modules and the patches of boundary conditions of `legacy/Fierro_V0` (C148-C157).

Hypotheses standing for library contracts are stated in the theorems and never as axioms.

## Findings: where the code and the natural statement disagree

Each item is proved (`..._fails` theorem) or visible in the statement of the property.

* Partially eroded elements: an eroded point *assigns* zero to the corner force of its element, so
  the forces of the other materials are lost while their energy is charged (C11, same code in the
  r-z solver).
* The energy update of the 3D solver divides by `mass + 1e-20`, so the printed energy is not
  exactly the conserved one (`C11_printed_energy`).

### Negative results, one theorem each

* `C09_corner_areas_clockwise_fails`: The statement for *every* quadrilateral is false: a quadrilateral numbered clockwise has corner areas adding up to minus the area.
* `C09_corner_areas_reflex_fails`: It is also false for a counter-clockwise arrow-head (one reflex corner), although its area is positive.
* `C100_singular_fails`: For a tensor with determinant zero the result is zero, though there may be other eigenvalues (here 1).
* `C100_unit_fails`: For a multiple of the unit tensor the result is not a number.
* `C101_repeated_name_fails`: A name that is given twice: the array is written twice under the same name, once with zeros and once with twice the values.
* `C102_coords_fails`: Coordinates requested in 3D: the third coordinate of every node but the first keeps what the new array contained (zero), the first one gets the third coordinate of any node, depending on the schedule.
* `C102_force_fails`: Nodal forces can be requested, but nothing is written for them.
* `C103_capitals_fails`: Keywords are taken literally, though Abaqus does not distinguish capital letters: nothing is read, and nothing is reported.
* `C103_comment_fails`: A comment inside the list of nodes ends it; the nodes behind it are lost.
* `C103_continuation_fails`: An element that is continued on a second line: the code reads behind the end of the list of its nodes.
* `C103_labels_fails`: Labels are not looked up: with nodes labelled from 11 on the element refers to nodes 10 to 17 of the eight nodes 0 to 7.
* `C104_points_per_line_fails`: Several points on one line (as most programs write them): the call does not succeed.
* `C104_quads_fails`: Quadrilaterals are renumbered like hexahedra: the square `0, 1, 2, 3` becomes the bow tie `0, 1, 3, 2`, whose area, as the code computes it, is zero.
* `C104_two_blanks_fails`: Two blanks between words: the call does not succeed.
* `C105_angles_backwards_fails`: The order of the angles is not checked: from 90 down to 0 degrees the mesh is built and its element has a negative area.
* `C105_negative_radius_fails`: The r-z solvers take the second coordinate of a node for its radius, but the test "node radius for r-z mesh must be positive" reads the first one. A quarter ring from -90 to 0 degrees, all of it at negative radii, is accepted and its element has a negative volume.
* `C105_positive_radius_refused_fails`: For the same reason a ring from 90 to 180 degrees, all of it at radii (second coordinates) of zero or more, is refused.
* `C106_host_strength_fails`: **C106 (strength models on the host).** An increment-based strength model that is set to run on the host is never called: over a run of any length the stress of its material stays what it was at the start, whatever the model is and however the mesh deforms.
* `C106_mixed_density_fails`: **C106 (state-based strength in mixed elements).** A material with a state-based strength model that fills half of an element of volume 1 with mass 3/4, density 3/2, is given a density below 0.76.
* `C108_contact_on_plane_fails`: A contact condition on a plane: the deck is accepted, but as soon as a patch lies on the plane the solver calls a stress function through a null pointer.
* `C108_global_surface_fails`: The surface type `global` ("tag the full boundary") tags no patch at all, so that a velocity or stress condition with this surface acts nowhere.
* `C108_heat_flux_fails`: The words `heat_flux_model` and `heat_flux_bc_global_vars` are offered as valid words of a boundary condition, but a deck that uses one of them is refused.
* `C108_misspelt_temperature_fails`: A misspelt temperature model is accepted without a message: the block is counted among the temperature sets of its solver, but no thermal boundary condition is ever applied for it.
* `C108_none_fails`: `none` is offered as the name of a velocity, temperature or stress model, but a deck that uses it is refused.
* `C108_plane_and_radius_fails`: A plane with a position and a radius is placed at the radius: both words are stored in the same number.
* `C108_thermal_solver_id_fails`: A temperature boundary condition that names solver 1 is applied by the thermal solver whatever its own number is: the table of temperature sets per solver is filled, and solver 0 has no entry for this block, but it is never read.
* `C108_untyped_surface_fails`: A surface without a type is accepted; its tag is then an uninitialised value.
* `C109_eos_omitted_fails`: A material without `eos_model` is accepted, and initialising the pressure of its points then calls a null pointer (this is done for the thermal solver as well, which needs no equation of state).
* `C109_eos_type_fails`: A misspelt `eos_model_type` is accepted without a message, and so is a deck without one: the pressure of the material then keeps its initial value, because the equation of state is never called in a step.
* `C109_erosion_fails`: The erosion model `basic` without thresholds is accepted; the material is then eroded by comparison with two numbers that were never set.
* `C109_missing_models_fails`: The names of a Mie-Gruneisen equation of state and of two elastic plastic strength models are known, but a deck that uses one of them is refused.
* `C109_no_dissipation_fails`: `no_dissipation` is the name of a dissipation model, but a deck that uses it is refused.
* `C109_no_eos_type_fails`: `no_eos` is the name of a type of equation of state, but a deck that uses it is refused.
* `C109_no_tabular_fails`: The type `no_tabular_model` does not switch the tables off.
* `C109_shared_tables_fails`: The tables are shared by all materials: of two materials with a tabular model each, both use the table that was read last, so the properties of the first are those of the second.
* `C109_strength_omitted_fails`: `strength_model_type: increment_based` without a `strength_model` is accepted, and initialising the material then calls a null pointer.
* `C109_strength_type_fails`: A strength model without `strength_model_type` is accepted without a message and never called.
* `C109_void_fails`: A void has no parameters, but a deck with a void that gives none is refused: the run aborts unless some number, used for nothing, is given.
* `C110_geo_fails`: No deck makes the solver equilibrate the geometry: the word `geo_equilibration_model` sets the model of the other equilibration.
* `C110_user_defined_fails`: The model `user_defined` is accepted and then treated as `tipton`: the solver asks only whether there is a model.
* `C110_vars_fails`: A model without `mat_equilibration_global_vars` is accepted, although the equilibration reads two parameters: their array was then never allocated. That includes every deck that names only the model of the geometry.
* `C111_bad_line_fails`: **C111 (a line that is not understood).** A line with something that is not a number is left out without a message: the table misses that temperature.
* `C111_descending_fails`: **C111 (release builds).** Without assertions a table with descending temperatures is accepted, and a lookup between two of its rows then gives the value of the first row instead of the interpolated one (3 instead of 4).
* `C111_missing_table_fails`: **C111 (materials without all tables).** With a moving heat source the properties of every material are looked up: a material without one of the three tables leads to a call through a null pointer, whatever the temperatures are.
* `C111_one_column_fails`: **C111 (a table of one column).** A file that gives the values without temperatures is read without a message, and every lookup then reads outside of the table.
* `C112_counts_fails`: Fewer or more than three numbers of elements for a mesh with three dimensions are accepted; the third is taken to be 0, whatever it was, and there are no elements.
* `C112_dims_fails`: `num_dims: 2` has no effect on a mesh from a file: the readers are told that there are three dimensions.
* `C112_exit_fails`: A generated mesh with the path of a file ends the program with the exit status of a successful run.
* `C112_fraction_fails`: A number of elements that is not whole is cut off: 2.9 elements are 2.
* `C112_length_fails`: A generated box without `length` is accepted; all of its nodes are at the origin.
* `C112_order_fails`: `polynomial_order` and the scale factors have no effect on a mesh that is generated.
* `C112_polar3_fails`: A polar mesh with three dimensions is accepted, and a box is built.
* `C112_type_fails`: Without `type` a generated mesh with two dimensions depends on a variable that was never set.
* `C113_material_fails`: The number of the material is not checked: a negative one is accepted, and the number of materials plays no role in the reader.
* `C113_misspelt_volume_fails`: A misspelt volume is accepted without a message: the region has no volume at all.
* `C113_negative_density_fails`: A negative density is accepted as it stands.
* `C113_no_value_fails`: A density of which only the type is given is accepted, and is zero.
* `C113_order_fails`: Whether a deck is accepted depends on the order of its regions: one without a field at the Gauss points may follow another but may not be the first, because the test looks at the fields of all regions read so far.
* `C113_solver_range_fails`: A solver number that is not one of the deck is not refused: the reader writes outside the table of the regions of the solvers.
* `C113_vtu_path_fails`: The path of a file is documented for both kinds of files, but a region of the type `vtu_file` with a path stops the program.
* `C114_misspelt_volume_fails`: A region whose volume type is misspelt fills no element, wherever it is.
* `C114_origin_fails`: The origin of a spherical volume fraction is accepted and stored, but not used: with the origin (1, 1, 1) an element centred there gets the distance to (0, 0, 0) and not 0.
* `C114_solver_fails`: The solver of a region plays no role: with two solvers, a region that names solver 1 and is not in the list of solver 0 replaces the material that the region of solver 0 gave to an element; the lists of the regions of the solvers are never read.
* `C114_vortex_fails`: The volume fraction `tg_vortex` is accepted, but it is a variable that is never set.
* `C115_blanks_fails`: **C115 (further blanks).** Two blanks between numbers, or an empty line behind a key word, are not skipped: the conversion of the empty word throws.
* `C115_header_fails`: **C115 (long header).** If none of the first 1002 lines begins with `DIMENSIONS` the search ends with a message only, and the numbers of points that were never set are used.
* `C115_no_table_fails`: **C115 (no table).** If no line begins with `LOOKUP_TABLE` - the word is misspelt or a blank stands before it - the file is accepted, but all values stay zero: no element is filled.
* `C115_number_fails`: **C115 (number of voxels).** The number behind `CELL_DATA` is not compared with the numbers of points: here it is too small, the file is accepted, and the voxels behind it have no value.
* `C115_single_voxel_fails`: **C115 (one voxel in a direction).** A grid with a single voxel in some direction fills nothing that is defined: the spacing is zero, and the code divides by it.
* `C115_surplus_fails`: **C115 (too many numbers).** A further number on the last line is stored behind the end of the array.
* `C116_degrees_fails`: **C116 (angles in degrees).** The angles are computed in degrees and used as radians: a crystal turned by 90 degrees about the sample `x` axis, whose cube axes lie along the sample axes, is not shown in the colour of a cube axis.
* `C116_frame_fails`: **C116 (frame).** The stored matrix turns crystal axes to the sample, and the angles are those of that matrix, not of its transpose as in the texture file. Taken as radians they would colour the direction of a crystal axis in the sample: here the sample `z` axis is 37 degrees away from the nearest cube axis of the crystal, and red is shown.
* `C116_large_fails`: **C116 (large strains).** In LS-EVPFFT the product with the rotation of the lattice is assigned with `=+`, so only its last term stays: a crystal turned by 90 degrees and turned back by the deformation is not shown like a crystal that never turned.
* `C117_gas_fails`: **C117 (gas).** *Fails in the code* at the points of a gas phase: their elastic strain is -100 in every component, a mark a reader can spot, but the equivalent elastic strain computed from it is 200, which looks like a result.
* `C117_positions_fails`: **C117 (places).** *Fails in the code* for a shear when the spacing differs between directions: the spacing of the row of the result multiplies the index of the column, so with spacings 1 and 2 and a shear of 1 the corner at (1/2, 1) is drawn at 1 instead of 3/2 in the first direction.
* `C117_stretch_twice_fails`: **C117 (growing spacing).** *Fails in the code* when the texture and the sample are updated: a step stretches the spacing before the dump, and the dump multiplies it by the average deformation again, so after one step of a stretch `e` along the first axis the grid is drawn stretched by `(1 + e)²`.
* `C118_hdf5_rank_fails`: **C118 (rank of a data set).** *Fails in the code*: only the number of subscripts of the angles is checked. Grain numbers in a data set with two subscripts fill the first part of the array, and the grains of the other points are never set, without a word.
* `C118_lattice_fails`: **C118 (lattice).** *Fails in the code* when no line is exactly `LOOKUP_TABLE default` (a blank or a carriage return at its end is enough): the file is accepted, and grain and phase of every point come from a variable that was never set.
* `C118_short_fails`: **C118 (short file).** *Fails in the code*: a file with too few lines is accepted without a word, and every point beyond its end gets the values of the last line.
* `C118_subscripts_fails`: **C118 (subscripts).** *Fails in the code*: the three subscripts of a line play no role, only its place in the file does. In a grid of two points a file whose first line is that of the second point swaps the two points.
* `C118_texture_ranks_fails`: **C118 (texture file).** *Fails in the code* with several ranks: the file holds the block of the first rank only, with the number of its points in the header; the other ranks write nothing.
* `C119_blank_title_fails`: **C119 (blank title).** *Fails in the code*: a title line left blank is not taken as the title. The line behind it is, so that the name of the microstructure file is taken from the line after its own.
* `C119_eigenstrain_fails`: **C119 (eigenstrains).** *Fails in the code*: the reading stops for good at the first thing that is not a number, such as a comment behind the first row (the lines cleared are those of another file), or at the end of a file with fewer rows than 200000, and the points of all grains from the second on behind that place start with an unset strain.
* `C119_field_output_fails`: **C119 (field output).** *Fails in the code*: with fields wanted every 0 steps the remainder by zero is taken after the first step; otherwise they are written after every multiple of the number.
* `C119_phases_fails`: **C119 (room for phases).** *Fails in the code*: the number of phases is not compared with the room made for them by the first number of the file.
* `C119_time_step_fails`: **C119 (time step).** *Fails in the code*: in mode 0 a rate without deviator, as in a run driven by stresses alone, divides by zero, and a mode below -1 leaves the time step unset; neither is reported.
* `C11_partial_erosion_fails`: In an element that holds two materials one of which is eroded, the eroded point *assigns* zero to the corner force instead of adding nothing, so the force of the other material never reaches the nodes although its energy is charged with the work of that force: energy is lost.
* `C120_elastic_fails`: **C120 (incompressible phase).** A Poisson's ratio of one half is not refused: the stiffness is the result of a division by zero.
* `C120_j2_units_fails`: **C120 (units of J2 phases).** The constants of a `J2` phase are stored as they stand in the file, whatever the conversion factors for stress and time are; those of slip systems and the elastic constants are converted.
* `C120_room_fails`: **C120 (room for ten modes).** The lists of modes have room for ten; a file with more is not refused but written past their end.
* `C120_units_fails`: **C120 (threshold in units).** The bound 1e-6 under which hardening counts as linear is compared with the stress in the units of the run: a file read with the factor 1e-5 (MPa to Mbar) gets another hardening law than with the factor 1 as soon as the saturation stress is not above 0.1.
* `C122_axis_fails`: For a node on the axis the last column of its line is not a number.
* `C122_bare_fails`: An element without material: the columns of the material quantities are never set, and unspecified numbers are written.
* `C122_ensight_chain_fails`: The names of EnSight files do not contain the solver: of two solvers, the dumps of the second replace those of the first.
* `C122_mixed_fails`: An element with two materials: the file shows the state of the material with the larger number alone, so the mass in the file is not the mass of the element.
* `C122_same_time_fails`: Two dumps whose times are printed the same (five digits): only the second is left, under either name.
* `C123_properties_frozen_fails`: **C123 (tables during a run).** Conductivity, density and specific heat never follow the temperature: the tables are read once, before the first cycle and only with a moving source, so all three keep their first values for the whole run, however hot the material becomes.
* `C123_source_start_fails`: **C123 (source in the first cycle).** The tool path is not followed in the first cycle: the source is at the origin of the coordinates there, with the power of the path. On a mesh out of reach of the origin the first cycle is done as if there were no source, also if the path starts in the middle of the mesh.
* `C123_tables_unread_fails`: **C123 (tables without a moving source).** A material given by tables has no effect unless the solver has a moving source: without one the run does not depend on the tables at all.
* `C124_highest_frequency_fails`: **C124 (highest frequency).** With an exact circle constant the table of frequencies would not exist as soon as one direction has an even number of points: at the highest frequency of that direction the code multiplies an infinite tangent with a zero prefactor. Only the rounding of the constant keeps the runs of such grids going.
* `C124_hourglass_fails`: **C124 (hourglass).** When two directions have even numbers of points there is a velocity field, far from constant, whose gradient is zero in every voxel: the velocity is not determined by the gradient.
* `C124_last_node_fails`: **C124 (last nodes).** The nodes past the end always move as the first ones do, whatever the velocities. Under a uniform velocity gradient they should move apart: the outer size of the box does not change, and after any step the displacement of the last node is wrong by the stretch of the whole box.
* `C124_nodes_fails`: **C124 (nodes of several ranks).** A rank whose part of the grid does not start at the first point looks the velocity up with its own numbering in the array of the whole grid: all its nodes but the last move with the velocities of other points.
* `C124_weight_fails`: **C124 (weight).** The weight of a point divides by the second number of points twice and not by the third. A uniform velocity gradient therefore gives velocities multiplied by the ratio of the third to the second number of points, wrong as soon as the two differ.
* `C125_error_fails`: **C125 (error of a rigid translation).** When the prescribed velocities are the same all over the surface, as with a zero velocity gradient, the error is a division by zero.
* `C125_inside_fails`: **C125 (points of other bodies).** When the frame has another width in the second direction than in the third the code takes the third for the second: some point of the frame is read as one of the body, or a point of the body is left out.
* `C125_passes_fails`: **C125 (one pass too many).** When the error stays above the tolerance the largest number of passes asked for is exceeded by one.
* `C125_periodic_passes_fails`: **C125 (periodic bodies, tolerance left unset).** Without prescribed surface velocities the tolerance is compared although it was never set: a negative value left in memory makes the whole iteration of the step run twice.
* `C125_surface_fails`: **C125 (surface of other bodies).** The test compares coordinates with the sizes of other directions. As soon as the sizes differ there is a point, not farther from the body than two voxels, which the code takes for a point of the surface although it is not, or the other way round.
* `C125_weights_fails`: **C125 (weights of odd grids).** With an odd number of points along a direction the last point of the first half gets a distance one voxel too large, the point at the same distance on the other side does not: equally distant points get different weights. With a single point along a direction the distance of a point to itself is one voxel.
* `C126_quarter_turn_fails`: **C126 (quarter turn).** When the whole body has turned by a right angle about an axis, without any other deformation being needed, the mean matrix has no inverse, whatever the materials: the reference medium cannot be computed.
* `C127_lag_fails`: **C127 (positions lag).** "The positions stored with a time are those prescribed at that time": they are those of the start of the last step, also in the graphics written after it. Without rotation a node that is pulled away lies behind by the opening rate times the step.
* `C127_no_parameters_fails`: **C127 (condition without parameters).** With fracture switched on, a user defined velocity condition without parameters, which is allowed, is read past the end of its row.
* `C127_short_row_fails`: **C127 (missing values).** "The number of values is checked": a row that announces more Prony terms than it has values for is read past its end.
* `C127_traction_rotation_fails`: **C127 (traction and rotation).** "The traction on a crack that is pulled open does not depend on its rotation": with a half turn during the step, without damage and with all parameters one, the traction has the opposite sign, because the opening at the end of the step is measured along the normal of its start.
* `C128_mixed_energy_fails`: **C128 (mixed energies, fails).** An input whose first region gives the specific energy and whose second gives the extensive energy is accepted by the tests, and painting the second region writes to an array that was never allocated: the extensive energy is allocated only if the *specific* energy is not. With the two regions exchanged the same input works.
* `C128_no_energy_fails`: **C128 (region without an energy, fails).** The required fields are looked for over all regions together: a region without any energy beside one with a specific energy is accepted, and the setup of its material points reads the extensive energy, which was never allocated.
* `C128_thermal_dims_fails`: **C128 (dimensions of the thermal solver, fails).** The three-dimensional thermal solver does not test the dimensions of the mesh: on a two-dimensional mesh it is initialised, with coordinates of two components.
* `C128_unchecked_fails`: **C128 (unchecked solvers, fails).** The r-z hydrodynamics solver does not look for a density and the level set solver does not look for a level set field: inputs without them are accepted and the setup of the material points reads arrays that were never allocated.
* `C129_collapsed_fails`: **C129 (collapsed element, fails).** If two opposite corners coincide and the element moves as a whole, the forces are not numbers, while the model without direction gives zero forces.
* `C129_weighted_fails`: **C129 (radius weight, fails).** With the radius weight the momentum and energy balances of the axisymmetric solver carry, the directional dissipation also creates axial momentum and cools the material in an element touching the axis.
* `C130_twice_fails`: **C130 (material twice, fails).** If the fill has put a material twice into an element, two iterations of a parallel loop add to the averages of one point without protection: under one schedule the element stays filled, under another one contribution is lost and a third of the element ends up empty.
* `C131_odd_fails`: **C131 does not hold for grids with an odd number of points along the second axis.** One of the two opposite frequencies of largest magnitude is taken for the highest one, the other is not; the code the variant was made from treats both as frequencies below the highest.
* `C131_ranks_fails`: **C131 does not hold on several ranks.** A row of three points shared by two ranks, from an undeformed grid: the last nodes of the first rank are the first nodes of the second, which counts them from its own origin. After a single step the two ranks place them differently: on the first rank the fluctuation of the last node was taken from its first and last point, on the second from its only point. The code the variant was made from places them alike.
* `C131_single_layer_fails`: **C131 does not hold for grids with a single layer of points along the first or second axis.** Every frequency then counts as the highest one: at every frequency but zero the stress is cancelled in the reference medium altogether, as if strains need not be compatible.
* `C131_weights_fails`: The nodes do not follow the average deformation gradient when points have different volumes: two points of a row on a single rank, one stretched to one and a half times its length, the other compressed to half of it, with opposite rates of their deformation gradients. The average deformation gradient does not change, but in a step of length one the opposite nodes of the grid move apart by a unit length.
* `C132_grid_motion_fails`: The code has no such copy: the array summed over the ranks on the host is read by the kernel that moves the nodes from the device copy, which holds the block of this rank only (`apps/micromechanics/LS-EVPFFT/src/update_grid_velgrad.cpp:178-243`). With separate memories the nodes differ.
* `C132_host_strength_fails`: A strength model that runs on the host is called in a host loop that takes density, internal energy and volume through the device names of the arrays: with separate memories this is an access to memory the host cannot reach, while the run with one memory ends (`Solvers/SGH_solver_3D/src/properties.cpp:331-375`).
* `C132_level_set_fails`: The level set filled on the host is never copied to the device: only the default value 1e32 set on the device is seen by the solver and by the output when the memories are separate (`common/src/region_fill.cpp:716-720,816-821,850-886`).
* `C132_moving_source_fails`: The power of a moving heat source is looked up by host code with the function of the table meant for kernels, although one for the host exists: an access to memory the host cannot reach when the memories are separate (`Solvers/SGTM_solver_3D/src/sgtm_execute.cpp:286`, `common/include/table.hpp:165-205`).
* `C133_directions_fails`: **C133, where it fails.** The constructor takes the number of directions, but three are used: with two directions the arrays are read past their ends; with four the direction that is fastest in the buffer is dropped, and of a grid of 16 points the set has 8 cells.
* `C133_repeat_fails`: **C133, where it fails.** A step number that comes twice (the counter of the steps is set by the caller when the code is driven from outside): the group and the data sets exist, the library refuses to create them, the return codes are not looked at; the file keeps the fields of the first time whatever the fields are now.
* `C133_spacing_fails`: **C133, where it fails.** The XDMF file puts the cells at distances of one from the origin; the sizes of the volume element of the input are not used: if they are not one, the picture has other lengths than the grid of the computation.
* `C133_stride_fails`: **C133, where it fails.** The constructor takes a stride; the same stride is used for the selection of the buffer, which is only as large as the block: with a stride of two or more in a direction with two or more points the library refuses the write for every buffer and the set stays empty.
* `C134_bias_fails`: **C134, where it fails.** The bias is added once for every input: a layer with two inputs and the bias one does not give the output of the network.
* `C134_layer_bias_fails`: **C134, where it fails.** The later layers use the biases of the first: with one input per layer the output is not that of the network with its own biases.
* `C134_stress_fails`: **C134, where it fails.** The model is to return the stress; but the stress of the material point after any number of calls is the one before, whatever the network is.
* `C134_width_fails`: **C134, where it fails.** A layer that is wider than the first and has inputs: the biases of the first layer are read past their end, for all weights and orders.
* `C135_weight_fails`: Finding: the weight of a point in the averages is `1.0/(npts1_g*npts2_g*npts3_g)` with a product of `int`s (allocate_memory.cpp:17). It overflows on a grid of 1291 points per direction (and on every larger one), which many ranks together can hold.
* `C136_after_end_fails`: Finding: `destroy` leaves the pointers, so a call or a second `destroy` after it works on deleted objects and is not refused.
* `C136_again_fails`: Finding: a second set-up replaces the pointers without deleting what they point to; the objects of the first one are never deleted.
* `C136_output_fails`: Finding: every unit cell opens the same output files for itself (unless built without output). Of the rows of one cycle, of equal length, only the one written last is left.
* `C136_two_stages_fails`: Finding: `calc_stress` passes the whole time increment in every stage of the time integration ("since using rk_num_stages = 1"): with two stages the unit cell is deformed twice in one cycle.
* `C137_chain_gap_fails`: **C137 (what fails: time that is never simulated).** A solver that stops because of `cycle_stop` leaves the rest of its window undone, but the next solver takes the end of the window as its start time: with steps of length 1, one cycle per solver and windows 0–2 and 2–4, nodes that move freely with velocity 1 are at 2 in the dump of time 3.
* `C137_no_stages_fails`: **C137 (what fails: no stages).** With `rk_num_stages: 0`, which the input allows, nothing moves while time runs to the end: the dumps of all times show the initial state.
* `C137_prescribed_fails`: **C137 (what fails: prescribed velocities are late).** A piston with velocity `t` at time `t` has velocity 0 in the dump of time 1 that follows a first step of length 1, and has not moved, instead of velocity 1 and a way of 1/2: every stage of a cycle uses the boundary condition of the start of the cycle.
* `C138_handover_fails`: **C138 (what does not hold).** A ring of nodes that moves onto the axis keeps its mass in the solver that moves it, but the next solver of the chain takes the nodal masses from areal mass times radius, which is zero on the axis: the nodes have lost their mass (4 of 6 are left here) and with it their kinetic energy. Neither solver prints an error: both print zero for the nodal mass error.
* `C141_missing_value_fails`: An option whose value is left out takes the next option as its value: `-f -m 1` is accepted with the input file `-m` and an ASCII microstructure.
* `C141_type_range_fails`: A type that no reader has is accepted on the command line; the run stops later, when the microstructure is read.
* `C141_type_word_fails`: `-m hdf5` is accepted and reads the microstructure as an ASCII file, without the datasets being named.
* `C141_unit_word_fails`: A word for the unit of the angles that does not begin with a number stands for degrees, even `radian`.
* `C142_energy_fails`: **C142 (what fails: the energy of the crack is in no tally).** Two nodes that only a crack joins, no boundary conditions, no material: the run prints a total energy change of -1/4 out of 1/2, although the crack is the only thing that acts and still holds.
* `C142_next_solver_fails`: **C142 (what fails: the next solver forgets the damage).** A crack that is half broken at the end of one solver is undamaged when the next solver starts on the same state: every run sets the variables of the crack to zero.
* `C143_density_fails`: **C143 (what fails: the density of heated material).** A thermal solver with a moving source replaces the density by the tabulated value and leaves mass, nodes and volume: after it, mass is not density times volume, and the next hydrodynamics solver starts from that density.
* `C143_melt_fails`: **C143 (what fails: a hot body loses its strength).** A thermal solver marks material at 900 or more as eroded, and the flag is the one by which the hydrodynamics solver drops the forces of failed material: a cube under pressure with uniform temperature 1000, insulated and without source, has forces on its nodes before the thermal solver runs and none at all afterwards, although pressure, stress and nodes are the same.
* `C145_lobatto_twelve_fails`: The fourth and the ninth of twelve Gauss-Lobatto points have a wrong fourteenth digit, an error of `9e-15` that a double resolves: the integral of the square is missed by more than `4e-15`, where the thirty digits of the table allow `1e-29` (`common/include/ref_quadrature.hpp:146-159`).
* `C146_high_order_fails`: The tables end at twenty points, and orders from ten on need more: no point is written, all nodes of the element coincide, and every shape function is a quotient by zero (`common/include/ref_quadrature.hpp:55-308`).
* `C146_order_zero_fails`: For order zero the loop that sets the positions runs over the two Lobatto points also for the thermodynamic array, which has one entry: it reads and writes past the end (`common/include/ref_elem.hpp:318-324`).
* `C147_missing_block_fails`: A required block that is missing from the deck is not reported: the node that stands for it has no content and its validation never ends. The parsers of the mesh, of the time steps and of the output take their block so, without looking whether it is there (`input/parse_mesh_inputs.cpp:80`, `input/parse_dynamic_inputs.cpp:73-79`, `input/parse_output_options.cpp:85`).
* `C147_no_entries_fails`: The loop over a text or over a node without content never ends: `Begin()` and `End()` of such a node are not equal, not even to themselves, and each pass gives one more entry without name and content (`input/Yaml.cpp:1752-1770`).
* `C147_search_empty_fails`: An optional block behind an empty deck is searched for without end.
* `C147_text_block_fails`: Nor is a block that has a text where the entries should be.
* `C148_angle_fails`: The angle is checked after it was turned into radians, so that an angle of 20000 degrees, more than 55 turns, is accepted though only angles up to 360 are to be.
* `C148_axis_fails`: With inner radius zero, the value used when the input gives none, the cylinder has different points at the same position: on the axis.
* `C148_ensight_name_fails`: **C148 (a finding).** A linear mesh with a name of ninety bytes or more makes the writer store behind the end of the array for the name.
* `C148_four_values_fails`: **C148 (a finding).** An input with four or more lengths and as many numbers of elements is not refused: entries behind the end of an array are read before the sizes are checked. Nothing else leads there.
* `C148_origin_twice_fails`: The origin is added twice: with origin `(1, 0)` and inner radius one, the first point of the cylinder is at distance two from the origin.
* `C148_read_direction_fails`: Were the order right, as it is for order three where the computed root of 64 is a little below four, the reader would still apply the table in the wrong direction: the second point of the first edge, column one, is read as column twelve.
* `C148_read_high_order_fails`: No file of hexahedra of order two or more can be read: the order is taken one too large (the root of the number of points of an element, not one less), and with the table of that order an entry behind the end of the row is assigned.
* `C148_second_file_fails`: From its second file on, a program takes **every** entry of an element of hexahedra from outside the element's row, because the table of places is kept and extended by every call.
* `C149_edge_fails`: A ray through an edge crosses neither facet there and is not left for repair: for the unit cube, the rays through its centre in all three directions mark nothing, so that the voxel at the centre stays empty.
* `C149_extent_fails`: A mesh whose end along an axis is a single face of a tetrahedron has no facet with one largest coordinate there: the upper end is not found at all.
* `C149_flag_fails`: If the memory of the flag for equal heights holds one, the first crossing of a ray is lost.
* `C149_moved_fails`: The closeness to a crossing is relative to the coordinate: the same voxel half a unit above the same part is empty near the origin and filled far away.
* `C149_repair_order_fails`: The repair reads what it has already repaired, so the order of the list matters: with two rays side by side, of which one has six marked neighbours and the other three, both are filled in one order and one in the other.
* `C149_tip_fails`: A ray through the tip of a tetrahedron meets the three facets there at one height, all three are dropped, and the ray marks nothing. Whether it is left for repair depends on what was in memory.
* `C150_blank_after_comma_fails`: **C150 (fails).** The blank behind a comma belongs to the next word, so that `[a, b]` is refused as a list of names `a` and `b`, though `[a,b]` is not.
* `C150_empty_brackets_fails`: **C150 (fails).** Empty brackets are not the empty list: they are a list of one empty text.
* `C150_empty_unknown_fails`: **C150 (fails).** The strict functions do not report an unknown name with nothing behind it.
* `C150_set_twice_fails`: **C150 (fails).** A list with an element twice cannot be loaded into a set by the strict functions.
* `C150_text_for_struct_fails`: **C150 (fails).** A text where a structure is wanted is dropped without a message, by the strict functions too: the structure keeps its values.
* `C151_cut_file_fails`: **C151 (a finding).** A file cut after a facet gives the last facet again for every missing one, with no message: the surface read is not the one of the file, and facets met twice change the count of crossings of a ray.
* `C151_text_fails`: **C151 (a finding).** A text STL file is not recognised: characters where the number of facets is expected (a tab or greater each) are taken for more than 150 million facets.
* `C151_unopened_fails`: **C151 (a finding).** A file that cannot be opened is only reported: the reader goes on with a number of facets that was never stored.
* `C152_cycle_limit_fails`: **C152 (a finding).** After a forward solve ended by the limit of cycles the sweep begins one cycle too late: its first cycle uses the last state both as the one before and as the one after, and adds to the gradient of the adjoint solve.
* `C152_no_checkpoints_fails`: **C152 (a finding).** With a limit of zero, which the input may give, the first cycle uses an iterator that was never assigned.
* `C153_unknown_patch_fails`: **C153 (a finding).** Nodes that are those of no boundary patch are not refused: they get the index of the first boundary patch.
* `C154_last_face_fails`: **C154 (a finding).** A point on the last face of the block in the first direction is in the block, but gets the value of the first voxel of the next row.
* `C154_negative_radius_fails`: **C154 (a finding).** A negative inner radius is accepted: with it a sphere contains the points of the whole ball, but its energy is spread over twice the volume of the ball.
* `C154_vtk_lower_half_fails`: **C154 (a finding).** A point of the lower half of a voxel of the file in every direction gets the value of the voxel before it in every direction.
* `C155_inverse_fails`: **C155 (a finding).** An entry of the product with the inverse of the Hessian is a division by zero exactly where the gradient of the objective at the point of the update is zero.
* `C155_value_at_fails`: **C155 (a finding).** At the point of the update the value of the approximation is not that of the objective: each entry of the gradient adds its absolute value times the distance of the asymptote on its side.
* `C156_component_fails`: **C156 (a finding).** A constraint of the centre of mass takes every component of a tensor: the centre in direction `xy` is accepted as component three of a vector that has none.
* `C156_multi_fails`: **C156 (a finding).** The module of several objectives needs no module of the physics, and is still recorded as belonging to the first one, in whose list it is not.
* `C157_curved_fails`: **C157 (a finding).** The tags its comment gives to cylinders and spheres are taken by `tag_boundaries` and tag no patch, wherever its nodes are. (The callers in the repository refuse such surfaces first, see `C157_refused`.)
* `C157_limits_scale_fails`: **C157 (a finding).** The position of a plane is scaled as the mesh is but its limits are not: a patch of the file on the plane and inside the limits of the input is not tagged if the scale moves one of its nodes past a limit.
* `C157_two_dimensions_fails`: **C157 (a finding).** In two dimensions limits make the first node on the plane read a third coordinate that no node has.
* `C17_partial_fill_replaces_full_fails`: fails in general: the last complete fill (fill 1, material 1) is lost; a partial fill has replaced it although its material was not in the element.
* `C18_duplicate_material_fails`: fails in general: the element ends up with material 1 twice.
* `C19_two_gauss_points_fails`: With two Gauss points per element (storage index `mat_elem_sid + gauss_lid`) neighbouring elements share storage: the second point of element 0 is overwritten by the first of element 1.
* `C21_ensight_2d_fails`: fails in 2D: the reader permutes the nodes of quadrilaterals, the writer does not; the square `0,1,2,3` comes back as the bow tie `0,1,3,2`.
* `C22_vtk_order_fails`: The files of high-order meshes do not follow the VTK format: already for order 2 other tools see scrambled elements.
* `C22_written_file_rejected_fails`: fails for whole files: the code cannot read the vtu files it writes, because the line that opens the coordinates does not carry the name the reader looks for (for all meshes, orders and fields, unless a user field is called `Points`).
* `C23_missing_material_fails`: fails in general: with material 0 nowhere on the mesh, `mat1` is written but the index names `mat0`.
* `C24_2d_sphere_unset_fails`: In 2D a sphere or z-plane uses a coordinate that was never set.
* `C24_global_surface_fails`: The surface `global`, documented as the full boundary, selects no patch at all.
* `C25_piston_negative_axis_fails`: A piston whose direction is a negative axis (a piston pushing in `-x`) does not impose its velocity: the previous velocity survives doubled.
* `C25_reflected_negative_axis_fails`: With the outward normal of the lower wall, `(-1,0,0)`, the reflected condition doubles the normal velocity instead of removing it.
* `C28_near_single_material_fails`: The sum is not kept at a point where one material is within the fuzz of filling it: the limiter is reset by that material, and a trace of another one can grow to a full second filling.
* `C32_empty_delimiter_fails`: Splitting at the empty string never returns, for any number of passes of the loop.
* `C32_tab_not_trimmed_fails`: Only blanks are trimmed: a tab, or the carriage return of a Windows text file, stays.
* `C34_validate_unknown_passes_fails`: The validation alone lets unknown keys pass: it only prints.
* `C35_per_region_fails`: The check is over all regions together: a deck passes although its second region sets no energy at all.
* `C35_repetition_fails`: The check by itself is not correct on lists with repetitions: `{A, A}` passes for `{A, B}`, and `{A, A, B}` is refused for `{A, B}`.
* `C37_last_layer_lost_fails`: fails for the last layer of voxels: an element centred in a voxel of the last layer of an equally spaced grid is never filled, whatever the grid.
* `C37_last_value_unread_fails`: The loop reading the voxel values stops one value early: from a file with one value per line the last voxel value is never read (its storage stays uninitialised).
* `C37_wrong_voxel_fails`: fails inside the grid: with four unit voxels starting at 0, a centre at 1.1 lies in voxel 1 but voxel 0 is read; a centre at -0.2 lies outside but voxel 0 is read.
* `C38_assign_missing_index_fails`: Assigning to a missing index is lost.
* `C38_erase_gap_fails`: Hence erasing is not list erasure: afterwards the size is 1 but position 0 is empty and the remaining value is at position 1.
* `C38_insert_at_end_fails`: Inserting at a position behind the last one loses the new value: the sequence is unchanged.
* `C38_insert_front_fails`: Inserting at the front overwrites the second value with the first and loses the new one.
* `C38_insert_inside_fails`: Inserting strictly inside never returns.
* `C38_lookup_adds_entry_fails`: Looking up a missing name grows the map: its size and its keys change.
* `C38_lookup_wrong_kind_fails`: Looking up with a bracket of the wrong kind destroys the data.
* `C38_push_front_fails`: Pushing to the front of a sequence that is not empty never returns.
* `C39_apostrophe_fails`: A text with an apostrophe that is not in quotes is rejected.
* `C39_block_comment_sign_fails`: In a literal block a comment sign is not text: the rest of the line is lost, and with it what makes the block a text of its own.
* `C39_block_lines_fails`: Empty lines at the beginning of a literal block are lost, and a blank after the sign removes the line feed at the end.
* `C39_block_quote_fails`: The text of a block that begins with a quote loses its first and its last character.
* `C39_crlf_marker_fails`: With line ends of the form return, line feed the line `---` is not taken for the start marker: the document is read as something else.
* `C39_empty_quotes_fails`: An empty quoted text is rejected.
* `C39_empty_value_fails`: A key without value at the top is given a line feed as its value …
* `C39_empty_value_nested_fails`: … and the same lines deeper in the document are rejected.
* `C39_quoted_comment_sign_fails`: A quoted text with two comment signs is cut at the second and rejected.
* `C39_stray_line_fails`: At the top of the document the column is not looked at: a stray line at the column of the keys becomes part of the value above it.
* `C39_tilde_fails`: The tilde, which YAML uses for null, is an invalid character.
* `C39_unindented_sequence_fails`: A sequence that is not indented below its key is rejected, though YAML allows it.
* `C39_wrong_indent_swallowed_fails`: A deeper line after a value is not rejected: `b: 2` below `a: 1` becomes part of the value of `a`, and no key `b` exists.
* `C40_late_start_fails`: The stall really happens: a solver that starts at `time_start ≥ (J + 1) * graphics_time_step` (as every solver but the first may) and dumps by time only makes, right after its first dump, `J` consecutive cycles that each write a dump and together advance the time by at most `J * (fuzz + tiny)` (with the default options: by `J * 1.0001e-12`).
* `C41_rz_not_deviatoric_fails`: The RZ model does not keep the stress deviatoric: from the trace-free stress `diag(1, -1, 0)` a uniaxial stretching produces a stress with non-zero trace.
* `C41_rz_shear_half_fails`: The two strength models disagree: for simple shear from an unstressed state, below yield, the RZ model returns half of the shear stress of the 3D model (`G D` instead of `2 G D`).
* `C42_coupled_ignores_volfrac_fails`: For materials with a coupled model the volume fractions are ignored: a material that fills half of an element of volume one, with mass one, gets (nearly) half of its true density 2.
* `C43_two_materials_fails`: **C43, the claim fails for more than one material.** If the elements are shared out between materials, at least two of which are present, every stage accesses an array outside its bounds: the gradient of the last element is stored past the points of its material.
* `C45_checkerboard_fails`: **C45, temperatures need not even out.** An insulated conducting cube with alternating corner temperatures of 400 and 300 stays that way for any number of cycles.
* `C46_radiation_ambient_fails`: **C46, the surroundings are not the same for the two kinds of exchange**: a body in equilibrium with the convection temperature still loses heat by radiation (the ambient temperature of the radiation condition is 0).
* `C48_builtin_path_jumps_fails`: **C48, the built-in path jumps**: its second and third point have the same time; at that time the position of the second point is used, and right after it the tool is on the other line.
* `C52_mixed_element_fails`: The corner masses ignore volume fractions: in an element shared half and half by two materials of equal density the nodal mass is twice the material mass.
* `C56_hoop_trapezoid_fails`: On a trapezoid the hoop rate of homogeneous radial expansion is wrong: the mean of the nodal radii is not the radius of the centroid.
* `C57_mirror_fails`: The dissipation is not mirror symmetric: the limiter divides by the signed curl, so an element rotating one way is damped while its mirror image is not damped at all.
* `C57_weighted_fails`: With the radius weight that the momentum and energy balances of the axisymmetric solver carry, neither claim survives: in an element touching the axis the dissipation creates axial momentum and its weighted power is positive, so it cools the material.
* `C58_unprotected_addition_fails`: Without atomics the additions of two iterations to one cell can be lost: some schedule of two unprotected `x += 1`, `x += 2` on `x = 0` ends with 1 (so the patch loops need the `Kokkos::atomic_add`, and the corner-force loop needs distinct elements).
* `C59_interface_race_fails`: The initial velocity of a node between two regions is not determined by the input: two schedules give different velocities, and a third gives the velocity (1,1,0) that neither region prescribes, because the components are stored one by one without synchronisation.
* `C59_linear_velocity_fails`: The velocity types `radial_linear` and `spherical_linear` are accepted by the input parser but set nothing: the velocity of all nodes stays what it was.
* `C59_spherical_2d_fails`: In 2D the spherical velocity field is wrong: the third coordinate read is the memory behind the node (the first coordinate of the next node), so at (3, 0) with 4 behind it a field of speed 1 has speed 3/5.
* `C60_level_set_radial_fails`: A radial (cylindrical) level set is wrong: the value is squared, so the zero contour of `value = 2, slope = 1` is the cylinder of radius 4, not 2.
* `C60_vortex_scalar_fails`: The field type `tg_vortex` is accepted for density, energy and the other scalars but stores nothing, so the material keeps whatever the array held.
* `C61_patch_test_distorted_fails`: **C61 (failure).** The patch test does not extend to elements whose faces are not parallelograms: every node of a face gets a quarter of the traction, while the internal stress is distributed by the bilinear shape functions. On a frustum (bottom face twice the size of the top face) under unit pressure inside and outside a node is left with a force, so a distorted boundary layer is not in equilibrium with its own boundary pressure.
* `C62_gradient_sign_2d_fails`: **C62 (what fails, in the plane too).** For `phi = x` on unit squares the stored gradient at the middle node is `(-1, 0)`.
* `C62_gradient_sign_fails`: **C62 (failure).** The nodal gradient of the level set, which is also the output field `grad_level_set`, points the wrong way: `corner_normal` is taken to point into the element, but the B-matrix points outward (the hydrodynamics solver multiplies it by -1, this solver does not). For `phi = x` on the unit lattice the x-component at the centre is -1.
* `C63_smoothing_length_fails`: **C63 (what fails: the smoothing length in the plane).** On quadrilaterals the length over which the sign of the level set is smoothed is computed from the volume swept around the axis, not from the area: the same unit square has the smoothing length `2 √(r + 1/2)` when its lower edge is at radius `r`, so that it grows without bound away from the axis (on hexahedra of side one it is 2).
* `C64_negative_velocity_fails`: **C64 (failure).** The stability limit is lost for a front moving in the negative direction: the speed used is `1.5 + front`, without absolute value. For `front = -3/2`, node distance 1 and a CFL number of 2/5 the step is the maximum step 1 and the front moves 3/2.
* `C64_overshoot_fails`: **C64 (failure).** If no material has an evolving level set nothing limits the step to the final time: with start 0, final time 1, first step 3/4 and maximum step 10 the run ends at 3/2.
* `C64_step_growth_fails`: **C64 (failure).** The step cannot recover from a small starting value when the mesh also contains a material without an evolving level set: the step of such a material is the old step itself, so in every cycle of the run the step is at most `dt_start` (in the hydrodynamics solver it grows by 10 percent per cycle up to the stable one).
* `C65_newton_matrix_fails`: The matrix inverted in every Newton step of the stress update is `1 + C₀ M` with `C₀` and `M` symmetric positive definite. It is always regular, but its first pivot can be zero: then the Newton update silently uses the unreduced matrix in place of its inverse.
* `C65_regular_fails`: The regular matrix `[[0,1],[2,0]]` is left as it was and the flag still reports success: a caller testing the flag cannot tell that its argument was not inverted.
* `C67_antisymmetric_option_fails`: `iopt = 4` is meant to build the tensor of a quantity antisymmetric in its first two indices for the shear rows and leave the three normal rows as they are. The test `i < 3` sends the third normal row to the shear branch: entry `(3,3,1,1)` comes out with the wrong sign.
* `C69_near_pole_fails`: **C69 (finding).** Between `0.9999` and `1` the round trip loses the orientation: the angles of a rotation whose third axis is a little (up to 0.81 degrees) off the sample axis are computed as if it were exactly along it, so the tilt direction is lost.
* `C69_small_rotation_fails`: **C69 (finding).** A rotation vector not longer than `1e-6` is not carried out: the guard against a zero length divides by 1 instead of the length, and the applied rotation is smaller than the requested one by a factor of more than 10⁵. A slow rotation resolved by many small steps is lost.
* `C70_mode_numbers_fails`: **C70 (finding).** The latent coefficients of the wanted modes are looked up by mode number in a row that is filled by position in the file: when the file's numbers are not 1, 2, …, the hardening matrix holds whatever the array contained before.
* `C70_mode_order_fails`: **C70 (finding).** Wanted modes listed in another order are dropped without a message: asking for modes 2 and 1 of a file with modes 1 and 2 yields only the systems of mode 2, and the number of systems of the second wanted mode keeps the value left in the array.
* `C70_normality_check_fails`: **C70 (finding).** The normality check rejects only positive scalar products: a direction antiparallel to the plane normal is accepted as a slip system.
* `C71_small_slope_fails`: **C71 (finding).** A hardening slope not above `1e-4` of the initial strength is ignored altogether, in the linear law too: a point can be sheared without limit and never harden.
* `C72_acceptance_fails`: The acceptance test divides the square of the last step by the length of the stress, so it depends on the unit of stress: with a stress of `10⁻⁷` the first step is accepted although it removed two thirds of the stress. The plastic rate stored with the result is that of the stress before the step, three times the rate of the stress stored.
* `C74_given_gradient_fails`: *Fails in the code*: with a stress given for a shear component, the velocity gradient component marked as given (2,3) is changed by the correction while the free one (3,2) is left alone, so the run keeps neither the given component nor the rotation it asks for.
* `C74_phase_average_fails`: *Fails in the code* on two ranks: a uniform stress is reported twice as large for phase 1, because the weight is formed from the rank's own count of points.
* `C74_reported_gradient_fails`: *Fails in the code*: the displacement gradient reported for the sample is not the average over the grid when stresses are given, because the last correction of each step is counted but never applied.
* `C74_thin_sample_fails`: *Fails in the code* for a sample one point thick in its first or second direction: the new spacing is `0/0`; only the third direction is guarded.
* `C74_zero_tolerance_fails`: *Fails in the code* for a zero tolerance: asking for an exact solution makes every load step skip its iterations altogether.
* `C75_gas_tangent_fails`: *Fails in the code* with a gas phase: the average tangent then depends on memory never assigned, and with it every extrapolated stress.
* `C75_hold_time_fails`: *Fails in the code*: time during which the element does not deform is not simulated, so stress does not relax while the sample is held; here one unit of time passes and none is counted.
* `C75_reported_strain_fails`: *Fails in the code*: the displacement gradient reported for the element, and the equivalent strain used to judge convergence, lag one load behind; they repeat the first load and miss the latest.
* `C76_mixed_derivative_fails`: C76, what the code does instead: the vector used as mixed derivative of the patch is the mixed derivative only when the third and the fourth patch node coincide, which no proper patch satisfies: the signs of `get_normal_derivatives` belong to another numbering of the patch nodes.
* `C78_relative_tolerance_fails`: C78, what the code does instead: the tolerance 0.01 is a length, not a fraction of the element: for every `m` there is a cube and a node at `m` times the half-edge from its centre, in front of its top face, which is reported as penetrating.
* `C80_bucket_array_fails`: C80, what the code does instead: the array for the buckets of one patch holds 64³ entries, but a patch may visit 65³ buckets: for a thin plate along a diagonal of a cube the loop writes 12 481 entries past the end of the array.
* `C81_release_fails`: C81, what the code does instead: releasing a pair subtracts the accumulated force with the present normal and contact point, not with those it was applied with. Here the pair is released (accumulated force 0), but the node keeps the force 1 in `z` and gets a force -1 in `x`.
* `C82_duplicate_pair_fails`: C82, what the code does instead: the choice is not reset between elements, so a node inside two elements of which only the first has a patch facing its body is paired twice with the same patch. Patch 0 of element 0 faces the body of the node, patch 1 of element 1 does not.
* `C82_units_fails`: C82, what the code does instead: the test whether a patch faces the body of the node divides by the squared distance, so its outcome depends on the unit of length: any patch turned the wrong way is accepted when lengths are multiplied by a large enough factor and rejected for a small one.
* `C83_first_guess_fails`: C83, what the code does instead: when a pair starts without a force, the first guess of the force goes into the unknowns but not into the residual. The first step therefore ends not at the zero of the linearised distance but off by the displacement the guess makes, `J_{·3} · guess`.
* `C83_jacobian_fails`: C83, what the code does instead: with a non-zero increment the terms for the turning normal go to the wrong places: the second column gets the derivative of the normal in the first direction instead of the second, and the reaction term of the second direction is added to the first column. Relative to a Jacobian whose second column has the derivative `dnEta` in both terms, the columns are off by the amounts below.
* `C84_second_face_fails`: C84 (finding). "Every face of side A that faces a face of side B is recorded": false. An element whose node is an inner corner of the crack has two faces on the crack there; only one of them is recorded (there is one face per element and node), so the other one gets no cohesive force.
* `C86_broken_free_fails`: C86 (finding). "A zone whose damage has reached one carries no traction": false. The tractions are accumulated, and a step that starts from an opening that is not the one predicted before (the last stage of a step starts at the positions of the stage before, already in the first time step) leaves a residue that stays for ever: here a compressive traction of a fully broken zone.
* `C86_compression_fails`: C86 (finding). "Pressing the two sides into each other does no damage": false. The opening measure squares the normal opening, so interpenetration counts like separation.
* `C86_prony_law_fails`: C86 (finding). "After a step from a closed zone at rest the traction is the one of the damaged viscoelastic law, (1 − α) u/(u* λ) (E∞ λ + Σ σ)": false with a Prony term. The increment uses the branch stresses of the new time where the ones of the old time are meant, so the branch enters twice.
* `C86_prony_terms_fails`: C86 (finding). "All Prony terms of the input are used": false. The eleventh and the twelfth are replaced by zero modulus and zero time, and from the thirteenth on the code reads outside the array.
* `C87_moment_free_fails`: C87 (finding). "Cohesive forces exert no net moment": false. With different critical openings in the normal and the tangential direction the force of the damaged linear law is not along the line between the two nodes; here the tangential critical opening is twice the normal one.
* `C88_turning_crack_fails`: C88 (finding). "During the prescribed motion the opening predicted for the end of the step is purely normal": false. The prediction uses the normal of the beginning of the step (both normals are computed from the same coordinates), so a turning crack that only opens gets a tangential opening.
* `C89_spin_fails`: **C89 does not hold for rigid rotations.** Turning a body without deformation by the angle `w` in one step, `0 < w < 1`, shrinks its volume: the determinant is `1 - w⁴/12 + w⁶/36 < 1`. A body spun through many steps collapses slowly although no strain was prescribed.
* `C90_no_update_fails`: **C90 does not hold without update of the configuration.** With `iupdate = 0` nothing resets the fields after the first step: for any rates and any stresses the average velocity gradient at the end of a later step is the one of the step before plus the corrections; the prescribed rate `udot` does not enter.
* `C90_rate_change_fails`: **C90 does not hold for a rate that changes between steps.** In a step other than the first the fields keep the average velocity gradient the step before ended with; the new prescribed rate `udot` is not applied to them before the end of the step. Without stress control the points are therefore deformed in the whole step at the old average rate, while the macroscopic displacement gradient advances at the new one.
* `C91_quarter_turn_fails`: **C91 does not hold for every rotation.** The inversion exchanges no rows and its failure is not reported. For a quarter turn about the third axis, a rotation, the routine returns normally with `V = R = diag(0, 0, 1)`: the returned rotation is singular and `V R` is not the argument.
* `C93_volume_fails`: **C93 (finding).** Plastic flow on two systems does not keep the volume: with both shear rates one and an increment `t` the determinant of the plastic part is multiplied by `1 - t⁴/12 - t⁶/36`, so the error grows with every step in the same direction.
* `C94_pressure_fails`: **C94 (finding).** An isotropic point whose stress is a pure pressure has no tangent: the quotient `0/0` is formed and the stress update returns no number, whatever the strain rate is.
* `C94_reference_rate_fails`: **C94 (finding).** The reference rate is not reached at the flow stress: under uniaxial stress equal to the flow stress the axial plastic rate is `√(2/3)ⁿ⁻¹ ε̇₀` instead of `ε̇₀`, because the magnitude of the deviator is used where the equivalent stress is meant. For the exponent 10 it is less than a sixth.
* `C95_definite_fails`: Positive definiteness is lost at large rotations. After a rigid quarter turn the reference medium gives no stress to equal stretching in the plane of the turn, whatever the reference stiffness.
* `C96_output_spacing_fails`: **C96 does not hold for the points written when the spacing is not one.** The average gradient already contains the spacing and is multiplied by the third spacing again: before the first step the cells written have the edges `delt i * delt 3` instead of `delt i`.
* `C96_output_stretch_fails`: **C96 does not hold for the points written after a step of finite size.** The nodes follow the sum of the increments of the average gradient, the average gradient used for the output the product of their exponentials; the difference is not periodic and is averaged across the boundary of the grid. After one step of uniform stretching, which deforms all cells alike, the first cell written is longer than the second, by an amount that grows with the number of points.
* `C98_ten_cuts_fails`: The step cutting gives up after ten evaluations and goes on with the stress it has: for a grid point pulled fast from rest with a cubic flow rule, the first Newton step and its first nine halvings all lengthen the residual. The stress kept is halved a tenth time without being evaluated, its residual is longer than before the step, and the next correction is computed from the residual and the tangent of another stress, twice as large.
* `C99_blank_ends_fails`: Blanks at the ends of a text are lost.
* `C99_empty_node_fails`: An empty map or sequence comes back as a text with a line feed.
* `C99_empty_text_fails`: An empty text comes back as a line feed; in a sequence it is lost, and the items behind it become a sequence in its place.
* `C99_line_feed_fails`: The line feed at the end of a single short line is lost.
* `C99_newline_block_fails`: If texts go on lines of their own, the sign of a text with several lines is written without indentation: what is read has the sign in the text and the lines in one.
* `C99_quote_fails`: A double quote in a text is written without escape: the reader refuses the text; an apostrophe is refused too.
* `C99_two_signs_fails`: A text with two comment signs, or, in a sequence, with two colons (such as a time of day), is refused.

## Trusted base

* Lean's kernel (Lean 4.33.0) and Mathlib as installed.
* Axioms: every theorem depends at most on `propext`, `Classical.choice` and `Quot.sound`
  (checked with `#print axioms` for every theorem of the manifest). No axiom is added, there is no
  `sorry`, `native_decide` or `bv_decide`.
* The faithfulness of the transcription: each definition cites the lines it models and says where
  it simplifies. `seeded/LOG.jsonl` records faults seeded into the model and the theorems that
  catch them.
