{"id": "C01", "title": "Structured grid ids are a bijection", "statement": "When a structured box mesh is built, the global id given to the grid point or cell (i,j,k) is different for different triples, and the ids used are exactly 0 .. ni*nj*nk-1: no gap, no clash, no id out of range.", "quantifier": "all grid extents ni, nj, nk and all in-range triples", "why_tests_cant": "The claim ranges over every grid size; a test builds only a few.", "anchors": ["apps/multiphysics/src/common/include/mesh_io.hpp:get_id", "apps/multiphysics/src/common/include/mesh_io.hpp:build_3d_box"]}
{"id": "C02", "title": "High-order hexahedron point numbering is a bijection", "statement": "For every polynomial order p>=1 the map from lattice position (i,j,k), 0<=i,j,k<=p, to the VTK Lagrange-hexahedron point index used when reading and writing vtu files is one-to-one and onto 0..(p+1)^3-1, so writing or reading a high-order element neither drops nor duplicates a node.", "quantifier": "all orders p>=1 and all lattice positions", "why_tests_cant": "The numbering is piecewise (vertices, edges, faces, interior) and depends on the order; a test checks a finite number of orders.", "anchors": ["apps/multiphysics/src/common/include/mesh_io.hpp:PointIndexFromIJK", "apps/multiphysics/src/common/include/mesh_io.hpp:write_vtu"]}
{"id": "C03", "title": "Built 3D box mesh is well formed and conforming", "statement": "The box mesh builder gives every element eight distinct in-range nodes placed at the corners of its cell in i-fastest order, every node belongs to some element, different elements have different node sets, and two neighbouring elements share exactly the four nodes of the common face. The builder of arbitrary order refuses exactly the orders above nineteen.", "quantifier": "all positive element counts, all origins and lengths", "why_tests_cant": "Connectivity must be right for every mesh size and every cell, including the last cells in each direction.", "anchors": ["apps/multiphysics/src/common/include/mesh_io.hpp:build_3d_box"]}
{"id": "C04", "title": "Built 3D box mesh tiles the box", "statement": "Node coordinates of a built 3D box start at the origin and end at origin+length in each direction, and the sum of the volumes computed by the code's hexahedron volume formula over all elements equals Lx*Ly*Lz (as long as each cell is above the code's volume floor).", "quantifier": "all element counts, origins and positive lengths (exact arithmetic)", "why_tests_cant": "Sum over an arbitrary number of elements of a 24-term cubic polynomial; tests sample sizes.", "anchors": ["apps/multiphysics/src/common/include/mesh_io.hpp:build_3d_box", "apps/multiphysics/src/common/src/geometry_new.cpp:get_vol_hex"]}
{"id": "C05", "title": "Built 2D box mesh is well formed, counter-clockwise and tiles the rectangle", "statement": "Each element of a built 2D box has four distinct in-range nodes listed counter-clockwise, its area by the code's quadrilateral formula is exactly dx*dy>0, and the areas add up to Lx*Ly.", "quantifier": "all element counts, origins and positive lengths", "why_tests_cant": "Every mesh size and cell.", "anchors": ["apps/multiphysics/src/common/include/mesh_io.hpp:build_2d_box", "apps/multiphysics/src/common/src/geometry_new.cpp:get_area_quad"]}
{"id": "C06", "title": "Hexahedron area vectors sum to zero", "statement": "For every hexahedron (any eight points, even tangled) the eight nodal area vectors returned by the B-matrix routine add to the zero vector; hence a uniform stress applies no net force to an element.", "quantifier": "all positions of the eight nodes", "why_tests_cant": "Polynomial identity over all real coordinates.", "anchors": ["apps/multiphysics/src/common/src/geometry_new.cpp:get_bmatrix", "apps/multiphysics/src/Solvers/SGH_solver_3D/src/force_sgh.cpp:get_force"]}
{"id": "C07", "title": "Hexahedron area vectors reproduce linear fields exactly", "statement": "For every hexahedron the B-matrix satisfies sum_n B_n,i x_n,j = V delta_ij with V the volume computed by the hexahedron volume formula, so the velocity gradient computed for any affine velocity field v = L x + c is exactly L and the computed divergence is trace(L), for every element whose volume is not zero.", "quantifier": "all node positions and all affine velocity fields", "why_tests_cant": "Identity over all reals; finite-sample checks cannot exclude an error that vanishes on the samples.", "anchors": ["apps/multiphysics/src/common/src/geometry_new.cpp:get_bmatrix", "apps/multiphysics/src/common/src/geometry_new.cpp:get_vol_hex", "apps/multiphysics/src/Solvers/SGH_solver_3D/src/momentum.cpp:get_velgrad", "apps/multiphysics/src/Solvers/SGH_solver_3D/src/momentum.cpp:get_divergence"]}
{"id": "C08", "title": "Hexahedron volume formula is the true volume", "statement": "The hexahedron volume formula is invariant under translation of all nodes, scales with the cube of a uniform scaling, is a1*a2*a3 for a box, is negated by reflection, equals the determinant for every parallelepiped, and is the potential of the B-matrix (moving one node along one axis changes the volume by exactly displacement times the corresponding B entry).", "quantifier": "all node positions, translations, scalings and displacements", "why_tests_cant": "Polynomial identities over all reals.", "anchors": ["apps/multiphysics/src/common/src/geometry_new.cpp:get_vol_hex", "apps/multiphysics/src/common/src/geometry_new.cpp:get_bmatrix"]}
{"id": "C09", "title": "Quadrilateral area and corner weights agree", "statement": "For every quadrilateral the 2D B-matrix entries sum to zero and reproduce linear fields, and the area and r-z volume routines return the integral of 1 and of the radius over the element. The four corner areas of an r-z element add up to the element area exactly when all four triangles with the element centre are counter-clockwise, in particular for every convex counter-clockwise element; for clockwise or strongly re-entrant elements they do not. The r-z volume handed on is that integral, or the floor of 1e-14 where the integral is below it.", "quantifier": "all positions of the four nodes", "why_tests_cant": "Identity over all reals.", "anchors": ["apps/multiphysics/src/common/src/geometry_new.cpp:get_bmatrix2D", "apps/multiphysics/src/common/src/geometry_new.cpp:get_area_quad", "apps/multiphysics/src/common/src/geometry_new.cpp:get_area_weights2D"]}
{"id": "C10", "title": "Momentum conservation", "statement": "In any number of cycles with no velocity boundary condition and no boundary traction the total linear momentum of the 3D SGH solver is unchanged when every element's corner forces sum to zero, which holds for the stress force of every element.", "quantifier": "all meshes, nodal masses, stresses, velocities, time steps and Runge-Kutta stages", "why_tests_cant": "Holds for every mesh connectivity and state.", "anchors": ["apps/multiphysics/src/Solvers/SGH_solver_3D/src/momentum.cpp:update_velocity", "apps/multiphysics/src/Solvers/SGH_solver_3D/src/force_sgh.cpp:get_force"]}
{"id": "C11", "title": "Total energy conservation of the compatible discretisation", "statement": "One SGH stage transfers energy exactly: the change of kinetic energy plus the change of internal energy of all materials is zero in exact arithmetic when no velocity is prescribed, up to the factor m/(m+1e-20) the code uses when dividing by the material mass.", "quantifier": "all meshes, corner forces, velocities, masses and step sizes", "why_tests_cant": "Sum over arbitrary meshes; depends on every index and sign.", "anchors": ["apps/multiphysics/src/Solvers/SGH_solver_3D/src/energy_sgh.cpp:update_energy", "apps/multiphysics/src/Solvers/SGH_solver_3D/src/momentum.cpp:update_velocity", "apps/multiphysics/src/Solvers/SGH_solver_3D/src/position.cpp:update_position"]}
{"id": "C12", "title": "Mass is distributed without loss", "statement": "After setup the sum over nodes of nodal mass equals the sum over materials and elements of material mass, and each node's mass is non-negative when the material masses are.", "quantifier": "all meshes, all materials, all node-element incidences", "why_tests_cant": "Arbitrary mesh.", "anchors": ["apps/multiphysics/src/common/src/region_fill.cpp:calc_corner_mass", "apps/multiphysics/src/common/src/region_fill.cpp:calc_node_mass", "apps/multiphysics/src/common/src/region_fill.cpp:init_corner_node_masses_zero"]}
{"id": "C13", "title": "Time step respects its limits", "statement": "The time step chosen by the SGH solver is never larger than 1.1 times the previous one, never larger than the CFL limit of any element not eroded (unless the user's minimum step forces it), never larger than the user's maximum, and never carries the simulation past the final time by more than the 'tiny' tolerance.", "quantifier": "all meshes, sound speeds, previous steps and times", "why_tests_cant": "Quantifies over all elements and states.", "anchors": ["apps/multiphysics/src/Solvers/SGH_solver_3D/src/time_integration.cpp:get_timestep"]}
{"id": "C14", "title": "All pairs of nodes enter the CFL length", "statement": "The characteristic length used by the time-step is the minimum distance over all 28 pairs of the element's eight nodes.", "quantifier": "all node positions", "why_tests_cant": "The pair enumeration uses index arithmetic that skips pairs if wrong; a test can pass with a missing pair.", "anchors": ["apps/multiphysics/src/Solvers/SGH_solver_3D/src/time_integration.cpp:get_timestep"]}
{"id": "C15", "title": "The solver loop terminates and stops at the final time", "statement": "An SGH execution performs at most cycle_stop cycles; time strictly increases while steps are positive; when it ends either time >= time_final or cycle_stop cycles were done; and it never writes graphics twice for one cycle.", "quantifier": "all step-size histories, options", "why_tests_cant": "Arbitrary histories of step sizes.", "anchors": ["apps/multiphysics/src/Solvers/SGH_solver_3D/src/sgh_execute.cpp:execute"]}
{"id": "C16", "title": "Solvers run back to back", "statement": "The time windows given to a chain of solvers start at 0, each solver starts at the time its predecessor ends, and every solver after the first ends no later than the final time.", "quantifier": "all lists of solvers with arbitrary end times and all final times", "why_tests_cant": "Any number of solvers.", "anchors": ["apps/multiphysics/src/driver.cpp:setup_solver_vars"]}
{"id": "C17", "title": "Regions: later fills overwrite earlier ones", "statement": "After all fills are applied an element covered by a full-volume-fraction fill holds, as its first material, the last such fill that covers it, with volume fraction one, and exactly the later partial fills that select it after it, if and only if no such partial fill has the material of one of the first k fills of the input, k being the number of fills in the element before it; in particular whenever the fills use different materials. (Otherwise a partial fill may replace the complete one although its material was not in the element.) The result does not depend on the order in which the elements are visited.", "quantifier": "all lists of fills, elements and volume fractions", "why_tests_cant": "Arbitrary sequences of fills.", "anchors": ["apps/multiphysics/src/common/src/region_fill.cpp:fill_regions", "apps/multiphysics/src/common/src/region_fill.cpp:append_fills_in_elem"]}
{"id": "C18", "title": "An element never holds more materials than allowed, and different fills never repeat a material", "statement": "Filling never records more than the user's maximum number of materials in an element (it aborts instead, and as long as no early material is reused only then) and never touches memory outside the arrays; if the fills use different materials, a material occurs at most once in an element. (With repeated materials it may occur twice, and painting a material that is already there may abort.)", "quantifier": "all fill sequences", "why_tests_cant": "Arbitrary sequences of fills.", "anchors": ["apps/multiphysics/src/common/src/region_fill.cpp:append_fills_in_elem"]}
{"id": "C19", "title": "Material storage maps are mutually inverse", "statement": "After material setup the map (element, slot)->(material, storage index) and the map (material, storage index)->element are inverse to each other; storage indices of each material are exactly 0..count-1 where count is the number counted before allocation; so every material point is stored once and nothing is written out of range.", "quantifier": "all assignments of materials to elements", "why_tests_cant": "Arbitrary number of elements and materials per element.", "anchors": ["apps/multiphysics/src/common/src/region_fill.cpp:simulation_setup", "apps/multiphysics/src/common/src/region_fill.cpp:material_state_setup"]}
{"id": "C20", "title": "Mesh-node compaction in the viewer output is faithful", "statement": "When an output file for one material is written, the renumbering of the nodes used by its elements is one-to-one onto 0..n-1, preserves order, and the written connectivity refers to the nodes with the same coordinates as before.", "quantifier": "all meshes and element subsets", "why_tests_cant": "Arbitrary subsets of elements.", "anchors": ["apps/multiphysics/src/common/include/mesh_io.hpp:build_material_elem_node_lists"]}
{"id": "C21", "title": "Ensight write/read round trip", "statement": "Writing a 3D mesh to an Ensight geometry file and reading it back gives the same connectivity, and each coordinate up to the rounding of the printed format. (In 2D the reader permutes the nodes of each quadrilateral and the writer does not, so the connectivity comes back wrong.)", "quantifier": "all meshes", "why_tests_cant": "Every mesh and element.", "anchors": ["apps/multiphysics/src/common/include/mesh_io.hpp:write_ensight", "apps/multiphysics/src/common/include/mesh_io.hpp:read_ensight_mesh"]}
{"id": "C22", "title": "VTU write/read round trip of high-order elements", "statement": "For every order, the connectivity of hexahedra written to a vtu file and passed through the reader's node map gives back the same local nodes, and the reader finds all coordinates, connectivity and types in a written file whose coordinate array carries its name. (The code writes the array without a name, so its reader rejects every file it writes; and files of order two and higher do not follow the VTK node order.)", "quantifier": "all orders and connectivities", "why_tests_cant": "Every order.", "anchors": ["apps/multiphysics/src/common/include/mesh_io.hpp:write_vtu", "apps/multiphysics/src/common/include/mesh_io.hpp:read_vtu_mesh"]}
{"id": "C23", "title": "The multi-block index names exactly the written material files", "statement": "The vtm index file written with each graphics dump refers to exactly the per-material vtu files written in this dump if and only if no material without elements has a smaller number than one with elements (otherwise it names files that do not exist).", "quantifier": "all sets of materials that own elements", "why_tests_cant": "Depends on which materials are empty.", "anchors": ["apps/multiphysics/src/common/include/mesh_io.hpp:write_vtm", "apps/multiphysics/src/common/include/mesh_io.hpp:write_mesh"]}
{"id": "C24", "title": "Boundary patch sets contain exactly the tagged patches", "statement": "The boundary set for a boundary condition holds exactly the boundary patches all of whose nodes satisfy the surface equation of that condition within tolerance, each once, and the node list of the set holds exactly the nodes of these patches, each once. (The surface 'global' selects nothing, and spheres and z-planes in 2D use an unset coordinate.)", "quantifier": "all meshes, boundary patches and surface parameters", "why_tests_cant": "Arbitrary meshes.", "anchors": ["apps/multiphysics/src/common/src/geometry_new.cpp:tag_bdys", "apps/multiphysics/src/common/src/geometry_new.cpp:check_bdy", "apps/multiphysics/src/common/src/geometry_new.cpp:build_boundry_node_sets"]}
{"id": "C25", "title": "Prescribed velocity boundary conditions", "statement": "After applying boundary conditions each node of a zero-velocity set has velocity zero, of a constant-velocity set has the given velocity; a reflected set whose normal is a positive coordinate axis has no normal velocity and unchanged tangential velocity (for every other normal the result is different, and exactly these normals work); nodes in no set are untouched; when a node is in several sets the last set decides; the result does not depend on the order in which the nodes of a set are processed.", "quantifier": "all meshes, sets, normals and velocities", "why_tests_cant": "Every normal vector and every velocity.", "anchors": ["apps/multiphysics/src/boundary_conditions/velocity/reflected_velocity_bc.hpp", "apps/multiphysics/src/Solvers/SGH_solver_3D/src/boundary.cpp:boundary_velocity"]}
{"id": "C26", "title": "Gamma-law gas", "statement": "For gamma>1 and non-negative density and energy the gamma-law model gives p=(gamma-1)*rho*e >= 0, monotone in both arguments, and a sound speed that never falls below the user's minimum. The linear elastic model gives zero pressure at the reference density, a pressure that grows with density, and the longitudinal wave speed or the user's minimum.", "quantifier": "all states", "why_tests_cant": "All reals.", "anchors": ["apps/multiphysics/src/material_models/eos/gamma_law_eos.hpp"]}
{"id": "C27", "title": "Erosion is permanent and void material carries no load", "statement": "Once a material point is eroded it stays eroded; an eroded point has zero pressure, zero stress and a floor density and contributes no force.", "quantifier": "all state histories", "why_tests_cant": "Arbitrary histories.", "anchors": ["apps/multiphysics/src/material_models/erosion/basic_erosion.hpp", "apps/multiphysics/src/Solvers/SGH_solver_3D/src/properties.cpp:update_state"]}
{"id": "C28", "title": "Volume fractions stay in [0,1] and keep their sum under pressure equilibration", "statement": "The Tipton equilibration never produces a volume fraction outside [0,1], and at a point where every material is below 1-fuzz and the fractions sum to one it preserves the sum up to terms of the size of the fuzz, whether or not the limiter is active; all materials move by the same part of the change of the method, and by all of it where the changes are small against the smallest fraction. (A point where one material is within the fuzz of filling it can end with fractions that sum to two.)", "quantifier": "all states, numbers of materials", "why_tests_cant": "All reals and numbers of materials.", "anchors": ["apps/multiphysics/src/material_models/equilibration/src/tipton_equilibration.cpp"]}
{"id": "C29", "title": "Artificial viscosity is momentum neutral and dissipative", "statement": "The MARS dissipation forces of the corners of an element sum to zero and never decrease internal energy; the shock detector lies in [0,1].", "quantifier": "all velocities, stresses, geometry", "why_tests_cant": "All reals.", "anchors": ["apps/multiphysics/src/material_models/artificial_viscosity/mars.hpp"]}
{"id": "C30", "title": "Velocity gradient decomposition", "statement": "The symmetric and skew parts computed from the velocity gradient add up to it; the first is symmetric, the second skew; the symmetric part has the same trace; rigid rotation has zero strain rate.", "quantifier": "all 3x3 matrices", "why_tests_cant": "All reals.", "anchors": ["apps/multiphysics/src/Solvers/SGH_solver_3D/src/momentum.cpp:decompose_vel_grad"]}
{"id": "C31", "title": "Table lookup interpolates", "statement": "The table lookup returns the stored value at stored points, a value between neighbours in between, and clamps outside the table; it never reads out of range.", "quantifier": "all tables and query points", "why_tests_cant": "Arbitrary tables and reals.", "anchors": ["apps/multiphysics/src/common/include/table.hpp:linear_interpolation"]}
{"id": "C32", "title": "String splitting and trimming", "statement": "Joining the pieces returned by split with the delimiter gives back the input, no piece contains the delimiter, and trim removes exactly the leading and trailing blanks. (Tabs and carriage returns stay; splitting at an empty delimiter never returns.)", "quantifier": "all strings and non-empty delimiters", "why_tests_cant": "All strings.", "anchors": ["apps/multiphysics/src/common/include/string_utils.hpp:split", "apps/multiphysics/src/common/include/string_utils.hpp:trim"]}
{"id": "C33", "title": "Ids in the input deck are a permutation", "statement": "If parsing materials (or solvers) succeeds then the ids given in the deck are exactly 0..n-1 each once, block with id k is stored in slot k whatever the order of blocks; any missing, duplicate or out-of-range id makes parsing fail.", "quantifier": "all input decks", "why_tests_cant": "Arbitrary lists of blocks.", "anchors": ["apps/multiphysics/src/input/parse_solver_inputs.cpp:parse_solver_input", "apps/multiphysics/src/input/parse_material_inputs.cpp:parse_materials"]}
{"id": "C34", "title": "Input validation", "statement": "An input block is rejected whenever a required key is missing, and a deck with a key that no parser recognises is rejected before anything runs. (The validation step alone only prints a message for unknown keys; it is the word-by-word parsing that rejects them.)", "quantifier": "all decks", "why_tests_cant": "Arbitrary keys.", "anchors": ["apps/multiphysics/src/input/parse_tools.cpp:validate_inputs", "apps/multiphysics/src/input/parse_dynamic_inputs.cpp:parse_dynamic_options"]}
{"id": "C35", "title": "State allocation check", "statement": "The check that the user supplied all required initial fields accepts exactly when every required field occurs in the list of fields parsed from all regions together, each counted once. (A single region may lack a field another region supplies, so the check does not guarantee that every region is complete.)", "quantifier": "all field lists", "why_tests_cant": "All lists.", "anchors": ["apps/multiphysics/src/common/include/state.hpp:check_fill_mat_states", "apps/multiphysics/src/common/include/state.hpp:check_fill_node_states", "apps/multiphysics/src/input/parse_regions.cpp:parse_regions"]}
{"id": "C36", "title": "Geometric fill shapes", "statement": "A box fill selects exactly the elements whose centre lies in the closed box, a cylinder or sphere fill exactly those whose centre's distance lies in the closed interval given, and the global fill selects everything.", "quantifier": "all geometries and centres", "why_tests_cant": "All reals.", "anchors": ["apps/multiphysics/src/common/src/region_fill.cpp:fill_geometric_region"]}
{"id": "C37", "title": "Voxel fill: which voxel an element gets", "statement": "A voxel-file fill never reads outside the voxel array. On N equal voxels in a direction an element centred t voxels to the right of the first voxel centre gets voxel v exactly if v(N-1)/N <= t < (v+1)(N-1)/N, and voxel 0 exactly if |t| < (N-1)/N; so an element centred in a voxel gets the value of this voxel unless it is in the last layer. (The voxels are shrunk by (N-1)/N and shifted by one half: the last layer is lost, a centre in a voxel may get its neighbour, the last value of a file with one value per line is not read.)", "quantifier": "all voxel grids and centres", "why_tests_cant": "All reals and sizes.", "anchors": ["apps/multiphysics/src/common/src/region_fill.cpp:fill_geometric_region", "apps/multiphysics/src/common/src/region_fill.cpp:user_voxel_init"]}
{"id": "C38", "title": "YAML nodes behave as a list / a map", "statement": "The YAML node container used for input decks behaves like an ordered list under push-back and index lookup, like a finite map with sorted keys under key access, an assignment changes only the addressed entry, and looking up an existing entry changes nothing. (Erase leaves a gap in the numbering, push-front and insert give wrong lists, looking up a missing name adds an empty entry, indexing with the wrong kind of key destroys the data.)", "quantifier": "all operation sequences", "why_tests_cant": "Arbitrary histories.", "anchors": ["apps/multiphysics/src/input/Yaml.cpp:SequenceImp", "apps/multiphysics/src/input/Yaml.cpp:MapImp", "apps/multiphysics/src/input/Yaml.cpp:NodeImp"]}
{"id": "C39", "title": "YAML document structure", "statement": "For a document consisting of nested maps with distinct keys, sequences indented below their keys, and texts written plainly, in quotes, or as literal or folded blocks, with keys plain or in quotes with escapes and consistent indentation, the parser returns exactly the tree the indentation describes; comments, empty lines, carriage returns and trailing blanks do not matter. (Unindented sequences, tildes, empty quoted texts are rejected, a deeper line below a value is swallowed into the value, a comment sign in a block removes text, an apostrophe in plain text is refused.)", "quantifier": "all documents of this form, any depth", "why_tests_cant": "Arbitrary depth and breadth.", "anchors": ["apps/multiphysics/src/input/Yaml.cpp:ParseMap", "apps/multiphysics/src/input/Yaml.cpp:ParseSequence", "apps/multiphysics/src/input/Yaml.cpp:ParseScalar"]}
{"id": "C40", "title": "Graphics dumps at the requested times", "statement": "For a solver starting at time zero and dumping by time only, every requested dump time k*graphics_time_step passed by the run has a graphics dump within the tolerances fuzz+tiny. (A solver starting later violates this: after its first dump the dump times are counted from zero, so it dumps in every cycle with steps of at most fuzz+tiny until the dump counter has caught up.)", "quantifier": "all step-size histories, meshes, final times and dump intervals", "why_tests_cant": "Arbitrary histories of step sizes; the interaction of clock, cached step and dump counter is only visible over long runs.", "anchors": ["apps/multiphysics/src/Solvers/SGH_solver_3D/src/sgh_execute.cpp:execute", "apps/multiphysics/src/Solvers/SGH_solver_3D/src/time_integration.cpp:get_timestep"]}
{"id": "C41", "title": "Strength model keeps the stress admissible", "statement": "After the hypo-elastic-plastic strength update the 3D stress tensor is symmetric and trace free whenever the old stress and the strain rate are, its equivalent stress never exceeds the yield strength, a rigid rotation of an unstressed point creates no stress, and a step staying inside the yield surface is the pure elastic (Jaumann) update. (The axisymmetric variant keeps symmetry and the yield bound but uses half of the shear stiffness in shear and does not keep the trace zero.)", "quantifier": "all old stresses, velocity gradients, material constants, step sizes and stages", "why_tests_cant": "Continuous tensors and parameters; the radial return is a branch on a norm.", "anchors": ["apps/multiphysics/src/material_models/strength/decoupled_plasticity.hpp"]}
{"id": "C42", "title": "Density times material volume is the material mass", "statement": "After every state update, stored density times the volume occupied by the material (element volume times its volume fractions) is the constant mass of the material point, and a point that is not eroded holds the stress, pressure and sound speed its models return for that density. (In the coupled-equation-of-state branch the code divides by the whole element volume, so the claim fails there for partial volume fractions.)", "quantifier": "all masses, positive volumes and volume fractions, all materials", "why_tests_cant": "Ranges over all states of a run.", "anchors": ["apps/multiphysics/src/Solvers/SGH_solver_3D/src/properties.cpp:update_state"]}
{"id": "C43", "title": "Conduction conserves heat", "statement": "In the thermal solver the heat conducted through the corners of an element adds up to zero; the change of the heat content of the mesh in a stage is exactly the boundary heat plus the power of the moving source times the covered fraction of its volume; an insulated body without source keeps its heat content for a run of any length. With one material the solver stays inside its arrays for a run of any length. (With two or more materials every stage writes the temperature gradient outside its array, because the element number is used as the number of the material point.)", "quantifier": "all meshes, element shapes, temperatures, conductivities, step sizes, numbers of stages and cycles", "why_tests_cant": "Conservation over arbitrary meshes and run lengths is a statement about sums over all elements; the out-of-range write only shows on multi-material meshes.", "anchors": ["apps/multiphysics/src/Solvers/SGTM_solver_3D/src/heat_flux.cpp:get_heat_flux", "apps/multiphysics/src/Solvers/SGTM_solver_3D/src/heat_flux.cpp:moving_flux", "apps/multiphysics/src/Solvers/SGTM_solver_3D/src/temperature_sgtm.cpp:update_temperature", "apps/multiphysics/src/Solvers/SGTM_solver_3D/src/sgtm_execute.cpp:execute"]}
{"id": "C44", "title": "Thermal solver is exact for affine temperatures and keeps uniform ones", "statement": "For a temperature field that is an affine function of position the computed temperature gradient is exact and the heat flux is minus conductivity times gradient in every valid element; a uniform temperature compatible with the boundary conditions never changes.", "quantifier": "all affine fields, element shapes, run lengths, numbers of stages", "why_tests_cant": "Continuum of fields and element shapes.", "anchors": ["apps/multiphysics/src/Solvers/SGTM_solver_3D/src/heat_flux.cpp:get_heat_flux", "apps/multiphysics/src/Solvers/SGTM_solver_3D/src/sgtm_execute.cpp:execute"]}
{"id": "C45", "title": "Heat flows from hot to cold", "statement": "For non-negative conductivities the temperature-weighted sum of conducted heat is never positive and vanishes exactly if every conducting element has zero temperature gradient; a field with zero gradient in every conducting element never changes. (Such a field need not be uniform: alternating corner temperatures of a cube are never evened out.)", "quantifier": "all meshes without mixed elements, temperatures and conductivities", "why_tests_cant": "A dissipation inequality over arbitrary meshes and fields.", "anchors": ["apps/multiphysics/src/Solvers/SGTM_solver_3D/src/heat_flux.cpp:get_heat_flux", "apps/multiphysics/src/Solvers/SGTM_solver_3D/src/temperature_sgtm.cpp:update_temperature"]}
{"id": "C46", "title": "Thermal boundary conditions", "statement": "The area used for a boundary patch is the sum of the areas of its two triangles (the true area for a parallelogram); the heat drawn by convection and radiation is coefficient times area times the mean temperature excess, respectively the mean fourth power; a body nowhere colder than 293.15 never gains heat through its boundary; a node in fixed-temperature sets has the value of the last one after every cycle. (Convection and radiation use different surroundings, 293.15 and 0.)", "quantifier": "all boundary sets, patches, positions, temperatures and run lengths", "why_tests_cant": "Continuum of patch shapes, arbitrary set overlaps and histories.", "anchors": ["apps/multiphysics/src/Solvers/SGTM_solver_3D/src/boundary.cpp:boundary_convection", "apps/multiphysics/src/Solvers/SGTM_solver_3D/src/boundary.cpp:boundary_radiation", "apps/multiphysics/src/Solvers/SGTM_solver_3D/src/boundary.cpp:boundary_temperature"]}
{"id": "C47", "title": "Thermal time step respects the diffusion limit", "statement": "Each step of the thermal solver satisfies 20*diffusivity*dt <= squared distance of any two nodes of any element unless the user's minimum step is larger, grows by at most 10 percent, respects the maximum, the final time and the graphics time, and is positive before the final time.", "quantifier": "all element geometries, material data, clock options and times", "why_tests_cant": "Continuous inputs and arbitrary meshes.", "anchors": ["apps/multiphysics/src/Solvers/SGTM_solver_3D/src/time_integration.cpp:get_timestep", "apps/multiphysics/src/Solvers/SGTM_solver_3D/src/sgtm_execute.cpp:execute"]}
{"id": "C48", "title": "Tool path is a polyline in space and power", "statement": "The tool moves on the straight segment between consecutive path points with constant velocity and linearly varying power, waits at the first point and stays at the last one. (The built-in path repeats a time, so the tool jumps there.)", "quantifier": "all paths with increasing times, all times", "why_tests_cant": "Arbitrary tables and continuous time.", "anchors": ["apps/multiphysics/src/common/include/additive_data.hpp:ToolPathInfo", "apps/multiphysics/src/Solvers/SGTM_solver_3D/src/sgtm_execute.cpp:execute"]}
{"id": "C49", "title": "Positions follow velocities without drift", "statement": "After every cycle each node has moved by the time step times the mean of its velocities before and after the cycle, for any number of stages; after any run its position is the initial one plus the trapezoidal sum of its velocities. A node clamped in a direction (wall or axis-aligned symmetry plane) keeps that coordinate exactly for any run; a node without force moves by velocity times elapsed time, however the time is cut into steps.", "quantifier": "all meshes, materials, forces, step sequences, numbers of stages and cycles", "why_tests_cant": "Histories of any length; tests see a few steps of a few problems.", "anchors": ["apps/multiphysics/src/Solvers/SGH_solver_3D/src/position.cpp:update_position", "apps/multiphysics/src/Solvers/SGH_solver_3D/src/momentum.cpp:update_velocity", "apps/multiphysics/src/Solvers/SGH_solver_3D/src/sgh_execute.cpp:execute"]}
{"id": "C50", "title": "Stress power equals the work charged to the internal energy", "statement": "For every material point the power of the corner forces, for any velocity field, equals minus volume times stress : velocity gradient (weighted with the volume fractions) plus the power of the dissipation forces. For a fluid without dissipation the internal energy gained in a stage is exactly -p times divergence times volume times step, so under positive pressure the energy rises if and only if the mean flow converges.", "quantifier": "all hexahedra, stress tensors, velocity fields, pressures, steps", "why_tests_cant": "A bilinear identity over a continuum of shapes, stresses and velocities.", "anchors": ["apps/multiphysics/src/Solvers/SGH_solver_3D/src/force_sgh.cpp:get_force", "apps/multiphysics/src/Solvers/SGH_solver_3D/src/energy_sgh.cpp:update_energy", "apps/multiphysics/src/Solvers/SGH_solver_3D/src/momentum.cpp:get_velgrad"]}
{"id": "C51", "title": "Uniform stress is in equilibrium inside the mesh", "statement": "The area vectors of the eight elements around an interior node of a structured block add up to zero for arbitrary node positions; the force of an element on a corner is minus the area vector times the volume-weighted stress of its materials; hence a uniform stress state, with any mixture of materials, leaves the velocity of interior nodes unchanged.", "quantifier": "all positions of the 27 nodes around the node, all stress tensors, all mixtures of materials", "why_tests_cant": "Continuum of distorted meshes (free-stream preservation).", "anchors": ["apps/multiphysics/src/Solvers/SGH_solver_3D/src/force_sgh.cpp:get_force", "apps/multiphysics/src/Solvers/SGH_solver_3D/src/momentum.cpp:update_velocity", "apps/multiphysics/src/common/src/geometry_new.cpp:get_bmatrix"]}
{"id": "C52", "title": "Axisymmetric nodal masses", "statement": "In the r-z solver the corner areas of a convex element, weighted with the nodal radii, add up to the element volume, so the nodal masses add up to the material masses when every point fills its element; after every stage the mass that accelerates a node is positive and times the radius is the nodal mass fixed at setup, on and off the axis. (Corner masses ignore volume fractions, so shared elements are counted once per material.)", "quantifier": "all meshes, convex elements, densities, node positions and stages", "why_tests_cant": "Continuum of element shapes and arbitrary meshes.", "anchors": ["apps/multiphysics/src/Solvers/SGH_solver_rz/src/sgh_setup_rz.cpp:calc_corner_mass_rz", "apps/multiphysics/src/Solvers/SGH_solver_rz/src/sgh_execute_rz.cpp:calc_node_areal_mass_rz", "apps/multiphysics/src/common/src/geometry_new.cpp:get_area_weights2D"]}
{"id": "C53", "title": "Axisymmetric axial momentum", "statement": "In the r-z solver no stress, of any kind, creates axial momentum: the radius-weighted axial corner forces of every material point add up to those of the dissipation alone, so a run with axially free walls and no dissipation conserves axial momentum exactly, over any number of cycles and stages.", "quantifier": "all meshes of convex elements, stresses, materials, step sizes, stages and cycles", "why_tests_cant": "The cancellation between area terms and hoop terms must hold for every shape and every step of every history.", "anchors": ["apps/multiphysics/src/Solvers/SGH_solver_rz/src/force_sgh_rz.cpp:get_force_rz", "apps/multiphysics/src/Solvers/SGH_solver_rz/src/momentum_rz.cpp:update_velocity_rz"]}
{"id": "C54", "title": "Axisymmetric energy", "statement": "In the r-z solver kinetic plus internal energy changes in a stage only by the work of the velocity boundary conditions, whatever the stresses, materials and dissipation; with walls and symmetry planes it is conserved exactly in runs of any length; material masses never change.", "quantifier": "all meshes, materials, stresses, dissipation forces, step sizes, stages and cycles", "why_tests_cant": "A compatibility property of force, momentum and energy updates over arbitrary histories.", "anchors": ["apps/multiphysics/src/Solvers/SGH_solver_rz/src/energy_sgh_rz.cpp:update_energy_rz", "apps/multiphysics/src/Solvers/SGH_solver_rz/src/momentum_rz.cpp:update_velocity_rz", "apps/multiphysics/src/Solvers/SGH_solver_rz/src/force_sgh_rz.cpp:get_force_rz"]}
{"id": "C55", "title": "Axisymmetric positions and length scale", "statement": "In the r-z solver no node ever crosses the axis; a node on the axis held radially stays there exactly; over a cycle every node moves by step size times the mean of the old and new velocity; the length in the time step is the smallest distance between any two nodes of the element.", "quantifier": "all meshes, forces, step sizes, stages and cycles", "why_tests_cant": "Histories of any length.", "anchors": ["apps/multiphysics/src/Solvers/SGH_solver_rz/src/position_rz.cpp:update_position_rz", "apps/multiphysics/src/Solvers/SGH_solver_rz/src/time_integration_rz.cpp:get_timestep_rz"]}
{"id": "C56", "title": "Axisymmetric equilibrium and strain rates", "statement": "In the r-z solver uniform pressure leaves interior nodes in exact equilibrium (hoop terms cancel) and axis nodes in axial equilibrium; the corner forces of an element add up to the hoop resultant; the in-plane velocity gradient is exact for affine fields, the divergence is its trace with the hoop rate, and homogeneous radial expansion has the exact hoop rate on parallelograms. (On trapezoids the hoop rate is wrong.)", "quantifier": "all convex elements, stresses, pressures, velocity fields, meshes", "why_tests_cant": "Continuum of shapes and fields.", "anchors": ["apps/multiphysics/src/Solvers/SGH_solver_rz/src/force_sgh_rz.cpp:get_force_rz", "apps/multiphysics/src/Solvers/SGH_solver_rz/src/momentum_rz.cpp:get_velgrad_rz", "apps/multiphysics/src/Solvers/SGH_solver_rz/src/momentum_rz.cpp:get_divergence_rz"]}
{"id": "C57", "title": "Axisymmetric shock dissipation", "statement": "The r-z MARS forces add up to zero per unit radius, never have positive power per unit radius, vanish for uniform motion, and the shock detector stays in [floor, 1]. (With the radius weight of the axisymmetric balances they create axial momentum and can cool the material; the signed curl makes the detector depend on the sense of rotation.)", "quantifier": "all velocities, normals, densities, coefficients and neighbour divergences", "why_tests_cant": "Continuous inputs with several branches.", "anchors": ["apps/multiphysics/src/material_models/artificial_viscosity/mars.hpp:MARSRZDissipationModel"]}
{"id": "C58", "title": "Parallel loops give one result", "statement": "The corner-force, velocity-update, velocity-boundary and thermal-boundary loops and the reductions for the time step and the tallies give, under every interleaving of their iterations and every grouping of the reduction, exactly the result of the sequential loop: iterations of the first three touch different cells, the patch loops use atomic additions. (Unprotected additions to shared cells could be lost.)", "quantifier": "all meshes, states, schedules, numbers of threads and reduction trees", "why_tests_cant": "The number of interleavings is astronomical and a test run sees one of them.", "anchors": ["apps/multiphysics/src/Solvers/SGH_solver_3D/src/force_sgh.cpp:get_force", "apps/multiphysics/src/Solvers/SGH_solver_3D/src/momentum.cpp:update_velocity", "apps/multiphysics/src/Solvers/SGH_solver_3D/src/boundary.cpp:boundary_velocity", "apps/multiphysics/src/Solvers/SGTM_solver_3D/src/boundary.cpp:boundary_convection", "apps/multiphysics/src/Solvers/SGTM_solver_3D/src/boundary.cpp:boundary_radiation", "apps/multiphysics/src/Solvers/SGH_solver_3D/src/time_integration.cpp:get_timestep"]}
{"id": "C59", "title": "Initial nodal velocity and temperature", "statement": "After the fills each velocity component of a node is the one prescribed by the last velocity fill of some element at the node, and the same for the temperature; if those elements agree the value does not depend on the schedule; nodes without a fill are untouched. Radial and spherical fields have the given speed and direction, the vortex field is divergence free and tangential to the walls. (On the interface of regions with different velocities the result depends on the schedule and can mix components of both; radial_linear and spherical_linear set nothing; in 2D the spherical field reads past the node.)", "quantifier": "all 3D meshes, fills, node positions and schedules of the painting loop", "why_tests_cant": "Depends on the interleaving of the elements around each node.", "anchors": ["apps/multiphysics/src/common/src/region_fill.cpp:fill_regions", "apps/multiphysics/src/common/src/region_fill.cpp:paint_vector", "apps/multiphysics/src/common/src/region_fill.cpp:paint_scalar"]}
{"id": "C60", "title": "Initial element fields", "statement": "Uniform fields of density, energy, specific heat and conductivity are painted as given; a fill with extensive energy gives every element exactly that energy, a fill with specific energy mass times it; a spherical level set vanishes exactly on the sphere of radius value/slope and linear ones on their plane; the level set of an element is negative exactly where that of one of its materials is. (A radial level set squares the value; tg_vortex is accepted for scalars but stores nothing.)", "quantifier": "all element positions, values, slopes, origins, volume fractions and material lists", "why_tests_cant": "Continuous parameters.", "anchors": ["apps/multiphysics/src/common/src/region_fill.cpp:paint_multi_scalar", "apps/multiphysics/src/common/src/region_fill.cpp:material_state_setup"]}
{"id": "C61", "title": "Stress boundary conditions", "statement": "Stress boundary conditions add to the nodes of each tagged patch exactly the traction of the prescribed stress on the patch: each patch receives in total stress times its vector area, whatever the motion of the solid; forces of different sets superpose; nodes off the tagged patches are untouched; on a closed surface a uniform stress exerts no total force and, with the matching stress inside, leaves box-shaped meshes in equilibrium (patch test); the loads do not depend on the schedule; a time-varying stress acts only in its time window and decays as prescribed. (On distorted meshes the patch test fails: the corner areas of the boundary condition differ from those of the internal forces.)", "quantifier": "all meshes, patches, stresses, boundary sets, times, stages and schedules", "why_tests_cant": "Continuum of stresses and shapes; atomic additions under every interleaving.", "anchors": ["apps/multiphysics/src/Solvers/SGH_solver_3D/src/boundary.cpp:boundary_stress", "apps/multiphysics/src/boundary_conditions/stress/constant_stress_bc.hpp:ConstantStressBC", "apps/multiphysics/src/boundary_conditions/stress/time_varying_stress_bc.hpp:TimeVaryingStressBC"]}
{"id": "C62", "title": "Level set gradient and front direction", "statement": "In the level set solver a uniform level set has zero gradient at interior nodes and a linear one is differentiated exactly up to sign on lattices of parallelepipeds and, in the plane, of parallelograms; the front direction is parallel to the gradient, shorter than a unit vector and zero for zero gradient; the nodal Hamiltonian is the norm of the gradient to within the safeguard. (The stored gradient, which is also written to the output files, points opposite to the true one.)", "quantifier": "all meshes, lattices, level sets and gradients", "why_tests_cant": "Continuum of fields and shapes.", "anchors": ["apps/multiphysics/src/Solvers/level_set_solver/src/solver_functions.cpp:nodal_gradient"]}
{"id": "C63", "title": "Level set update", "statement": "One stage of the level set solver changes each element of an evolving material by finite-speed upwind transport with its normal velocity plus reinitialisation, using only the state before the stage, and no other element; a signed distance function moves exactly with the normal velocity; reinitialisation alone never changes the sign of the level set in an element over any number of stages when the step is below half the smoothing length; the wrong sign of the gradient does not affect the update; the result does not depend on the schedule or the order of materials. A node in a boundary set gets the direction of the velocity the last set listing it prescribes, at unit length to within the safeguard; stage k of S covers the fraction 1/(S-k) of the step from the start of the cycle. (On quadrilaterals the smoothing length is taken from the swept volume, so it depends on the distance from the axis.)", "quantifier": "all meshes, geometries, level sets, velocities, step sizes, stage counts and schedules", "why_tests_cant": "Nonlinear update over continuous fields, any number of stages and every interleaving.", "anchors": ["apps/multiphysics/src/Solvers/level_set_solver/src/solver_functions.cpp:update_level_set", "apps/multiphysics/src/Solvers/level_set_solver/src/level_set_execute.cpp:execute", "apps/multiphysics/src/Solvers/level_set_solver/src/level_set_boundary.cpp:boundary_velocity"]}
{"id": "C64", "title": "Level set time step", "statement": "When some material has an evolving level set with non-negative velocity, the step of the level set solver moves the front at most the CFL fraction of the shortest node distance unless the minimum step is active, grows at most by a tenth, and passes neither the next dump nor the final time by more than the tolerance; the run ends after finitely many cycles and time increases in each by at least a fixed amount. (Negative velocities lose the CFL limit; a material without evolving level set keeps the step from ever growing; if no material evolves, the run passes the final time.)", "quantifier": "all user options, mesh geometries, velocities and histories", "why_tests_cant": "Histories of any length.", "anchors": ["apps/multiphysics/src/Solvers/level_set_solver/src/time_integration.cpp:get_timestep", "apps/multiphysics/src/Solvers/level_set_solver/src/level_set_execute.cpp:execute"]}
{"id": "C65", "title": "Dense inversion, linear solves and integer powers", "statement": "The matrix inversion of the crystal plasticity code returns the exact two-sided inverse exactly when no leading principal submatrix is singular, in particular for every positive definite matrix and also for the column-major views it is called with; the linear solver returns the solution for every regular matrix; integer powers are exact for every exponent of either sign. (The inversion has no pivoting: a regular matrix whose first entry is zero is returned unchanged with the flag of success; this can happen to the matrix of the Newton step of the stress update.)", "quantifier": "all sizes, matrices, right-hand sides, bases and exponents", "why_tests_cant": "Elimination over arbitrary matrices of arbitrary size.", "anchors": ["apps/micromechanics/EVPFFT/src/math_functions.h:invert_matrix", "apps/micromechanics/EVPFFT/src/math_functions.cpp:solve_linear_system", "apps/micromechanics/EVPFFT/src/math_functions.cpp:PowIntExpo"]}
{"id": "C66", "title": "Change of tensor basis", "statement": "The conversions between tensors and their 5 or 6 component vectors and between fourth order tensors and 5x5 or 6x6 matrices are mutually inverse on symmetric (deviatoric) arguments and project all others on their symmetric (deviatoric) part; they preserve inner products and turn contraction into multiplication, so the matrix inverse is the inverse tensor; the constants in the source are those of an orthonormal basis up to rounding.", "quantifier": "all tensors and vectors over the reals", "why_tests_cant": "Identities over all tensors.", "anchors": ["apps/micromechanics/EVPFFT/src/chg_basis.cpp:chg_basis_1", "apps/micromechanics/EVPFFT/src/chg_basis.cpp:chg_basis_2", "apps/micromechanics/EVPFFT/src/chg_basis.cpp:chg_basis_3", "apps/micromechanics/EVPFFT/src/chg_basis.cpp:chg_basis_4", "apps/micromechanics/EVPFFT/src/chg_basis.cpp:set_b_basis"]}
{"id": "C67", "title": "Single crystal stiffness", "statement": "The stiffness tensor built from the isotropic or anisotropic crystal file is fully written, has the minor symmetries, answers strains with Hooke's law for the given Young modulus and Poisson ratio or with the given Voigt matrix on engineering strains, and has positive stored energy exactly when the matrix is positive definite, respectively for every admissible pair of isotropic constants. (The option for antisymmetric tensors treats the third normal row as a shear row.)", "quantifier": "all moduli, Voigt matrices and strains", "why_tests_cant": "Continuum of materials.", "anchors": ["apps/micromechanics/EVPFFT/src/data_crystal_elast.cpp:data_crystal_elast", "apps/micromechanics/EVPFFT/src/voigt.cpp:voigt"]}
{"id": "C68", "title": "Sample-frame stiffness and reference medium", "statement": "The stiffness of a grid point is that of its crystal rotated by its orientation: the energy of a strain equals that of the strain seen by the crystal, isotropic crystals are unaffected, positive definiteness and symmetries are kept; the reference stiffness is the mean over the grid points that are not gas, positive definite when one exists, and its stored compliance is its exact inverse; with equal stiffness everywhere, or isotropic grains of any orientation, it is that stiffness.", "quantifier": "all orientations, stiffnesses, grids and phase maps", "why_tests_cant": "Continuum of orientations and any number of grid points.", "anchors": ["apps/micromechanics/EVPFFT/src/data_grain.cpp:data_grain"]}
{"id": "C69", "title": "Crystal orientations", "statement": "Euler angles always give a proper rotation; reading back the angles from a rotation and converting again gives the same rotation except in a small neighbourhood of the poles; the incremental update keeps every orientation a proper rotation through any number of steps, turns about the axis of the spin increment by its angle, follows an imposed rigid spin when no slip occurs; gas points are not touched. (Near the poles the written texture loses information; rotation increments below a threshold are dropped.)", "quantifier": "all angles, rotations, spins, slip rates and histories", "why_tests_cant": "Trigonometric identities for every angle and histories of any length.", "anchors": ["apps/micromechanics/EVPFFT/src/euler.cpp:euler", "apps/micromechanics/EVPFFT/src/orient.cpp:orient", "apps/micromechanics/EVPFFT/src/update_orient.cpp:update_orient", "apps/micromechanics/EVPFFT/src/write_texture.cpp:write_texture"]}
{"id": "C70", "title": "Slip systems and Schmid tensors", "statement": "Slip plane normals and directions computed from three-index or four-index notation are orthogonal exactly when the indices say so, whatever the cell edges or the axial ratio, and are stored as unit vectors up to the cut-off of small components; orthogonal systems are accepted; the stored vector of a system is the Schmid tensor of the turned normal and direction in every orientation, so the resolved shear is normal times stress times direction, independent of pressure; the phase gets exactly the systems of the wanted modes and their hardening coefficients. (Negative scalar products are not rejected; wanted modes listed out of order are dropped silently; files whose modes are not numbered 1, 2, ... get undefined latent coefficients.)", "quantifier": "all Miller indices, lattice parameters, orientations, stresses and mode lists", "why_tests_cant": "Continuum of lattices and orientations.", "anchors": ["apps/micromechanics/EVPFFT/src/data_crystal.cpp:data_crystal", "apps/micromechanics/EVPFFT/src/update_schmid.cpp:update_schmid"]}
{"id": "C71", "title": "Voce hardening", "statement": "The hardening update is the exact increment of the Voce law over the shear of the step; accumulated shear counts both senses of slip; without slip, and in gas, nothing changes; over any history, however cut into steps, the strength gained lies between the smallest and the largest hardening coefficient times the change of the Voce law between first and last accumulated shear, so with equal coefficients it depends on the accumulated shear only; strengths never decrease and saturate when the final slope is zero. (A hardening slope below 1e-4 of the initial strength is ignored altogether.)", "quantifier": "all parameters, hardening matrices, slip rates and histories", "why_tests_cant": "Histories of any length over continuous parameters.", "anchors": ["apps/micromechanics/EVPFFT/src/harden.cpp:harden"]}
{"id": "C72", "title": "Stress update at a grid point", "statement": "At a grid point plastic flow follows the power law with the sense of the driving stress, is symmetric and volume preserving and never produces negative work without kinematic stress; the equation solved for the stress has at most one solution, its Newton matrix is the exact derivative and is regular; a Newton step leaves the stress unchanged exactly at the solution; when the stress found equals the stress handed in, the strain is exactly elastic plus plastic strain; the iteration ends after one to one hundred steps; the thermo-elastic step is solved exactly; gas points carry no stress. (The acceptance test depends on the unit of stress and the plastic rate stored belongs to the previous iterate.)", "quantifier": "all stresses, strains, stiffnesses, slip systems, exponents and time steps", "why_tests_cant": "Nonlinear equation with arbitrarily many slip systems over continuous states.", "anchors": ["apps/micromechanics/EVPFFT/src/evpal.cpp:evpal"]}
{"id": "C73", "title": "Strain correction with the Green operator", "statement": "The fluctuation added to the displacement gradient in each iteration averages to zero over the grid, is real, is the gradient of a periodic displacement, and is the one response of the reference medium that removes the divergence of the stress; it vanishes at every grid point exactly when the (trigonometrically interpolated) stress is divergence free at every grid point; it depends on directions only. At the highest frequency of an even number of points the stress content is removed through the compliance instead; the field statements are for stresses without such content (always so for odd numbers of points).", "quantifier": "all grids, spacings, reference media and stress fields", "why_tests_cant": "Grids of any size and continuous fields.", "anchors": ["apps/micromechanics/EVPFFT/src/inverse_the_greens.cpp:inverse_the_greens", "apps/micromechanics/EVPFFT/src/forward_backward_fft.cpp:forward_fft", "apps/micromechanics/EVPFFT/src/forward_backward_fft.cpp:backward_fft", "apps/micromechanics/EVPFFT/src/initialize_disgrad.cpp:initialize_disgrad", "apps/micromechanics/EVPFFT/src/evpfft.cpp:init_xk_gb"]}
{"id": "C74", "title": "Mixed boundary conditions and load steps", "statement": "An input is accepted exactly when for each of the six components either the rate or the stress is given; components with a given rate grow by rate times elapsed time in the report and on average over the grid, after any number of steps, whatever the stress update and the number of iterations; the correction of the average vanishes exactly when the given stresses are met; a homogeneous elastic sample meets given normal stresses in one correction and closes a quarter of each shear gap per correction; a load step iterates at least once, at most itmax times, and stops early only when both errors are within a positive tolerance; equivalent stress and strain are the von Mises measures and bound the stress power; after the thermo-elastic step no system slips. (The last correction of each step is reported but never applied; one-sided shear conditions correct the given component; phase averages are wrong on several ranks; a zero tolerance skips the iterations; samples one point thick in the first two directions get an undefined spacing.)", "quantifier": "all inputs, grids, stress updates, histories of load steps and iteration counts", "why_tests_cant": "Histories of any length over continuous fields.", "anchors": ["apps/micromechanics/EVPFFT/src/vpsc_input.cpp:check_mixed_bc", "apps/micromechanics/EVPFFT/src/vpsc_input.cpp:check_iudot", "apps/micromechanics/EVPFFT/src/get_smacro.cpp:get_smacro", "apps/micromechanics/EVPFFT/src/step.cpp:step_update_disgrad", "apps/micromechanics/EVPFFT/src/step.cpp:step_update_velgrad_etc", "apps/micromechanics/EVPFFT/src/step.cpp:step_vm_calc", "apps/micromechanics/EVPFFT/src/evpfft.cpp:evolve", "apps/micromechanics/EVPFFT/src/vm.cpp:vm", "apps/micromechanics/EVPFFT/src/kinhard_param.cpp:kinhard_param"]}
{"id": "C75", "title": "Polycrystal model inside a finite element run", "statement": "For every history of calls the deformation handed to the load steps plus what is pending is the deformation imposed by the host, the same holds for time, and the average displacement gradient of the representative volume follows the host for components with a given rate; what is pending stays below the threshold; the first call that counts is solved in full; between load steps the stress increment solves the linearised law exactly and is elastic without plasticity; otherwise the average stress of the volume is returned. (Time without deformation is not simulated; the strain reported and used to judge convergence lags one load behind; with a gas phase the average tangent is undefined.)", "quantifier": "all histories of velocity gradients, time increments and thresholds", "why_tests_cant": "Unbounded call histories.", "anchors": ["apps/micromechanics/EVPFFT/src/main.cpp:EVPFFT::solve", "apps/micromechanics/EVPFFT/src/evpal.cpp:evpal", "apps/micromechanics/EVPFFT/src/Fierro-EVPFFT-Link/FierroEVPFFTLink.cpp:calc_stress"]}
{"id": "C76", "title": "Contact patch geometry", "statement": "The weights of the four patch nodes add up to one and are non-negative inside the patch; the patch passes through its nodes, moves with them and stays in every box that contains them; the tangents are the derivatives of the patch point; the normal is a unit vector perpendicular to both tangents and forms a right-handed system with them, missing exactly when the tangents are parallel; with the true mixed derivative of the patch put in, the derivatives of the normal are exact. (The vector the code uses as mixed derivative is the wrong combination of the patch nodes on every proper patch.)", "quantifier": "all patches, patch coordinates and translations", "why_tests_cant": "Continuous families of patches; derivatives and signs must hold at every point.", "anchors": ["apps/multiphysics/src/Solvers/SGH_solver_3D/src/contact.cpp:phi", "apps/multiphysics/src/Solvers/SGH_solver_3D/src/contact.cpp:d_phi_d_xi", "apps/multiphysics/src/Solvers/SGH_solver_3D/src/contact.cpp:get_penetration_normal", "apps/multiphysics/src/Solvers/SGH_solver_3D/src/contact.cpp:get_normal_derivatives"]}
{"id": "C77", "title": "Element faces and columns in contact", "statement": "For every hexahedron, a point of a face has the same physical position whether described by element coordinates or by the patch coordinates computed from them; the normals of the faces point outwards wherever the Jacobian is positive; the column in front of a face is bounded by the five faces other than the opposite one; the nodes listed for a face are those with the face coordinate of that face.", "quantifier": "all hexahedra and points", "why_tests_cant": "Orientation and numbering must agree for all six faces and every shape of element.", "anchors": ["apps/multiphysics/src/Solvers/SGH_solver_3D/src/contact.cpp:penetration_sweep", "apps/multiphysics/src/Solvers/SGH_solver_3D/src/contact.cpp:initialize"]}
{"id": "C78", "title": "Penetration test", "statement": "A node counts as penetrating the column in front of a face exactly when it lies less than 0.01 in front of the mean planes of the other five faces; no point of a convex element is missed; on parallelepipeds the test is exactly the distance condition to the five planes. (The tolerance is an absolute length: for small elements nodes far outside are reported.)", "quantifier": "all hexahedra and node positions", "why_tests_cant": "Exactness of a geometric decision over a continuum of shapes.", "anchors": ["apps/multiphysics/src/Solvers/SGH_solver_3D/src/contact.cpp:penetration_check"]}
{"id": "C79", "title": "Local coordinates of the contact point", "statement": "The contact point is the foot of the perpendicular from the node on the plane of the patch, the nearest point of that plane; each update of the search for its local coordinates solves the linearised problem and keeps a solution; a search that ends before its iterations run out has found coordinates describing the point to 1e-8; on parallelepipeds the coordinates are exact, and the patch coordinates stored with a pair describe exactly the foot of the perpendicular.", "quantifier": "all hexahedra, patches and nodes", "why_tests_cant": "A Newton iteration over a continuum of shapes and positions.", "anchors": ["apps/multiphysics/src/Solvers/SGH_solver_3D/src/contact.cpp:isoparametric_inverse", "apps/multiphysics/src/Solvers/SGH_solver_3D/src/contact.cpp:penetration_sweep"]}
{"id": "C80", "title": "Search for penetrating nodes", "statement": "Every boundary node is put into one bucket of the grid, nodes sharing a bucket are less than a bucket apart, the sort lists each node exactly once in its bucket; the buckets visited for a patch are different, lie in the grid and include the bucket of every boundary node in the capture box of the patch, which contains the patch with the capture depth; so every boundary node in the box that belongs to another element and passes the distance and penetration tests is recorded with the patch, up to one hundred patches for a node, each at most once. (The array for the buckets of one patch is too small: a thin diagonal plate visits 65^3 of 64^3 places.)", "quantifier": "all boundary node positions, patches and bucket assignments", "why_tests_cant": "A missed node is a silent loss of contact; coverage must hold for every arrangement.", "anchors": ["apps/multiphysics/src/Solvers/SGH_solver_3D/src/contact.cpp:sort", "apps/multiphysics/src/Solvers/SGH_solver_3D/src/contact.cpp:find_penetrating_nodes"]}
{"id": "C81", "title": "Contact forces", "statement": "Starting from zero, the contact forces of all nodes add up to zero after the resolution, whatever the pairs, the increments and the number of passes, so a Runge-Kutta stage changes the momentum of the mesh by the external impulse alone; the moment of a pair force is that of the vector from the contact point to the node, none when the point is the foot of the perpendicular; no pair ends with a pulling force or with a force while its point has left the patch by more than one percent; while normals and points do not move the forces are the superposition of the pair forces; a converged loop has applied increments of at most 1e-8 in its last pass; a pair that needs a given force lacks (4/5)^n of it after n passes; every boundary node gets its force and no other node. (Releasing a pair subtracts its force with the present, not the original, normal and point, so forces may remain.)", "quantifier": "all lists of pairs, increments, numbers of passes and meshes", "why_tests_cant": "Any number of interacting pairs and passes; conservation must be exact for all of them.", "anchors": ["apps/multiphysics/src/Solvers/SGH_solver_3D/src/contact.cpp:distribute_frictionless_force", "apps/multiphysics/src/Solvers/SGH_solver_3D/src/contact.cpp:force_resolution", "apps/multiphysics/src/Solvers/SGH_solver_3D/src/sgh_execute.cpp:SGH3D::execute"]}
{"id": "C82", "title": "Pairing of nodes and patches", "statement": "The elements a node is paired with are exactly those of the patches it was found behind, each once; for an element with a qualifying patch the nearest qualifying patch is taken (in preload the most opposed one), whatever was taken for other elements, so different elements give different patches; active nodes are exactly the nodes with a pair, without repeats; patch nodes are found at their position in the list of boundary nodes. (An element without qualifying patch repeats the pair of the element before; the alignment test depends on the unit of length.)", "quantifier": "all rows of penetrated patches, alignments and distances", "why_tests_cant": "Arbitrary many patches and elements per node.", "anchors": ["apps/multiphysics/src/Solvers/SGH_solver_3D/src/contact.cpp:penetration_sweep", "apps/multiphysics/src/Solvers/SGH_solver_3D/src/contact.cpp:contact_surface_map"]}
{"id": "C83", "title": "Force increment of a contact pair", "statement": "The quantity brought to zero is the distance between the node and the contact point of the patch, both predicted with the increment applied as action and reaction; the column of the Jacobian for the force is exact in the first pass and the columns for the patch coordinates are exact while the increment is zero; a computation reported as converged leaves a squared predicted distance of at most 1e-15 and never touches node, patch and accumulated force; a pair in contact already is unchanged. (With a non-zero increment the terms for the turning normal are in the wrong places; the first guess of the force enters the unknowns but not the residual, so the first step ends off by the displacement the guess makes.)", "quantifier": "all nodal data, forces, time steps and pairs", "why_tests_cant": "Newton iteration over continuous data.", "anchors": ["apps/multiphysics/src/Solvers/SGH_solver_3D/src/contact.cpp:frictionless_increment"]}
{"id": "C84", "title": "Cohesive pairs and matched faces", "statement": "The cohesive pairs are exactly the pairs of different boundary nodes whose coordinates agree up to the tolerance, each listed once and in one order only, and the table has as many rows as are written; the faces tried at a node are the three faces of the element that contain it; every recorded match joins two faces that contain the two nodes and pass the geometric test; no element of the second side is used twice; an element of the first side stays unmatched only if all its partners were given to earlier elements; on a smooth crack every element facing another one is matched with exactly that face. (An element with two crack faces at a node gets only one of them.)", "quantifier": "all lists of boundary nodes, coordinates, tolerances, connectivities and geometric tests", "why_tests_cant": "A missed or doubled face changes the strength of a crack silently; must hold for every arrangement.", "anchors": ["apps/multiphysics/src/Solvers/SGH_solver_3D/src/fracture.cpp:cohesive_zones_t::initialize", "apps/multiphysics/src/Solvers/SGH_solver_3D/src/fracture.cpp:cohesive_zones_t::build_cohesive_zone_info", "apps/multiphysics/src/Solvers/SGH_solver_3D/src/fracture.cpp:cohesive_zones_t::cohesive_zone_elem_count"]}
{"id": "C85", "title": "Geometry of a cohesive pair", "statement": "On a face that is not degenerate the normal is the outward unit normal at the face centre up to components below 1e-13; accepted faces have centres within the tolerance and opposite normals up to the tolerance; the orientation is a unit vector or zero, and the common normal on a flat crack; normal and tangential opening are the legs of the separation, the predicted opening is that of the nodes moved with their velocities, and a rigid motion of the configuration changes none of them; the area of a flat convex face is exact and its four corners share it.", "quantifier": "all node positions, velocities, time steps, rotations and translations", "why_tests_cant": "Continuum of geometries.", "anchors": ["apps/multiphysics/src/Solvers/SGH_solver_3D/src/fracture.cpp:cohesive_zones_t::compute_face_geometry", "apps/multiphysics/src/Solvers/SGH_solver_3D/src/fracture.cpp:cohesive_zones_t::oriented", "apps/multiphysics/src/Solvers/SGH_solver_3D/src/fracture.cpp:cohesive_zones_t::ucmap", "apps/multiphysics/src/Solvers/SGH_solver_3D/src/fracture.cpp:cohesive_zones_t::cohesive_zone_loads"]}
{"id": "C86", "title": "Cohesive traction law", "statement": "Damage never heals, stays between zero and one, and grows only while the opening measure grows, by the power law; only the last stage of a time step changes the stored variables; branch stresses follow the exact solution of their relaxation equation; without Prony terms the tractions are (1-damage) times modulus times relative opening along every path whose steps fit together, in general off by the jumps between steps; a broken zone keeps its tractions for ever; up to ten Prony terms are taken from the input. (With Prony terms the increment uses the new branch stresses in place of the old ones; a broken zone may keep a residual traction; compression does damage; more than ten terms are zeroed or read out of bounds.)", "quantifier": "all parameter sets, numbers of Prony terms, sequences of openings and time steps", "why_tests_cant": "Path dependence: must hold along every history.", "anchors": ["apps/multiphysics/src/Solvers/SGH_solver_3D/src/fracture.cpp:cohesive_zones_t::cohesive_zone_var_update", "apps/multiphysics/src/Solvers/SGH_solver_3D/src/fracture.cpp:cohesive_zones_t::commit_internal_vars", "apps/multiphysics/src/Solvers/SGH_solver_3D/src/fracture.cpp:cohesive_zones_t::initialize_fracture_bc"]}
{"id": "C87", "title": "Cohesive forces", "statement": "The cohesive force of a node is the signed sum over its pairs, the forces add up to zero, and a Runge-Kutta stage changes the momentum of the mesh by the other external forces alone; the force of a pair has the components traction times area along normal and slip, pulls the nodes together for positive tractions, and its work is that of the two tractions on the two openings; its moment is area (Tt un - Tn ut), zero when the tractions are in proportion to the openings; a pair without matched face exerts no force. (With different critical openings the forces exert a net moment.)", "quantifier": "all lists of pairs, tractions, areas, positions and meshes", "why_tests_cant": "Any number of pairs sharing nodes.", "anchors": ["apps/multiphysics/src/Solvers/SGH_solver_3D/src/fracture.cpp:cohesive_zones_t::cohesive_zone_loads", "apps/multiphysics/src/Solvers/SGH_solver_3D/src/fracture.cpp:cohesive_zones_t::add_cohesive_zone_nodal_forces", "apps/multiphysics/src/Solvers/SGH_solver_3D/src/sgh_execute.cpp:SGH3D::execute"]}
{"id": "C88", "title": "Prescribed motion of the reorientation test", "statement": "The motion is a proper rotation that starts at the identity; nodes of one side keep their distances; the stored velocity carries a node to its next prescribed position; a pair that started together is separated by opening rate times time along the turned axis, purely normal, at every time and rotation rate; the predicted opening has the length of the next opening, its normal part is that times the cosine of the turn. (So a turning crack that only opens is predicted to slide.)", "quantifier": "all rotation rates, opening rates, times, time steps and positions", "why_tests_cant": "Continuum of times and rates.", "anchors": ["apps/multiphysics/src/Solvers/SGH_solver_3D/include/reorientation_kinematics.hpp:prescribe_reorientation_kinematics", "apps/multiphysics/src/Solvers/SGH_solver_3D/src/fracture.cpp:cohesive_zones_t::ucmap"]}
{"id": "C89", "title": "Large strain: deformation increments", "statement": "In the large-strain polycrystal code an increment of the velocity gradient is turned into a deformation by a cubic series that differs from the exponential by at most |A|^4 exp|A|/24; zero increments change nothing; a simple shear is exact; forward and backward increments cancel up to fourth order; gradients multiply, determinants multiply and stored inverses are inverses over any number of updates; increments shorter than one half never break the inversion nor turn a volume over. (A rigid rotation shrinks the volume.)", "quantifier": "all velocity gradients, time steps, histories", "why_tests_cant": "Continuum of increments, any number of steps.", "anchors": ["apps/micromechanics/LS-EVPFFT/src/matrix_exp.cpp:matrix_exp", "apps/micromechanics/LS-EVPFFT/src/update_defgrad.cpp:update_defgrad", "apps/micromechanics/LS-EVPFFT/src/determinant33.cpp:determinant33"]}
{"id": "C90", "title": "Large strain: average velocity gradient", "statement": "After every load step that updates the configuration the volume average of the velocity gradient equals the prescribed rate plus the stress-driven corrections of the step, and the macroscopic displacement gradient advanced by that rate; within a step every turn of the iteration moves the average by the correction found before. (A rate that changes between steps reaches the fields one step late; without update of the configuration it never does.)", "quantifier": "all grids, stresses, corrections, numbers of turns and steps", "why_tests_cant": "Invariant of every history of turns and steps.", "anchors": ["apps/micromechanics/LS-EVPFFT/src/initialize_velgrad.cpp:initialize_velgrad", "apps/micromechanics/LS-EVPFFT/src/update_defgrad.cpp:update_defgrad", "apps/micromechanics/LS-EVPFFT/src/step.cpp:step_update", "apps/micromechanics/LS-EVPFFT/src/evpfft.cpp:EVPFFT::evolve"]}
{"id": "C91", "title": "Large strain: polar decomposition", "statement": "Whenever the routine returns and its inversions complete, V R is the argument, V is symmetric positive definite, R has the orientation of the argument, shortens no vector and stretches none by more than one part in 10^11; gradients that turn no direction by a right angle never break an inversion; rotations are returned unchanged. (A quarter turn gives a singular result without any message.)", "quantifier": "all gradients", "why_tests_cant": "Convergence of an iteration for a continuum of matrices.", "anchors": ["apps/micromechanics/LS-EVPFFT/src/defgrad_dcmp.cpp:defgrad_dcmp"]}
{"id": "C92", "title": "Large strain: multiplicative split and stress rotation", "statement": "Over every run the deformation gradient of a solid point is the product of elastic, plastic and initial part; a step multiplies the plastic part by the exponential of the plastic increment; the stress handed to the next step is turned with the rotation of the elastic increment, keeping symmetry, pressure and magnitude up to the tolerance of the polar decomposition.", "quantifier": "all runs of load steps, stresses, plastic rates", "why_tests_cant": "Invariant of all histories.", "anchors": ["apps/micromechanics/LS-EVPFFT/src/update_defgradp.cpp:update_defgradp", "apps/micromechanics/LS-EVPFFT/src/update_defgrade.cpp:update_defgrade", "apps/micromechanics/LS-EVPFFT/src/evpfft.cpp:init_defgrad"]}
{"id": "C93", "title": "Large strain: plastic flow of crystals", "statement": "The plastic velocity gradient is without trace; slip tensors are carried along by the elastic deformation and resolve the deviatoric stress; the strain rate used in the stress update is the symmetric part of the velocity gradient used in the deformation update; an isotropic point has no plastic spin; one slip system keeps the volume exactly, several up to fourth order of the increment. (The error does not cancel.)", "quantifier": "all orientations, elastic deformations, shear rates, stresses and increments", "why_tests_cant": "Continuum of states.", "anchors": ["apps/micromechanics/LS-EVPFFT/src/update_defgradp.cpp:update_defgradp", "apps/micromechanics/LS-EVPFFT/src/update_schmid.cpp:update_schmid", "apps/micromechanics/LS-EVPFFT/src/evpal.cpp:evpal"]}
{"id": "C94", "title": "Large strain: isotropic flow and hardening", "statement": "The isotropic rate is the deviator times a power of its magnitude, turns with the stress, dissipates and is monotone; the tangent is its exact derivative and never softens; the accumulated strain is the sum of the equivalent plastic increments and the flow stress the hardening law at that strain, neither ever falling. (The reference rate is not reached at the flow stress; a pure pressure gives no tangent.)", "quantifier": "all stresses, exponents, hardening data, histories", "why_tests_cant": "Path dependence and a continuum of stresses.", "anchors": ["apps/micromechanics/LS-EVPFFT/src/evpal.cpp:evpal", "apps/micromechanics/LS-EVPFFT/src/harden.cpp:harden", "apps/micromechanics/LS-EVPFFT/src/vm.cpp:vm"]}
{"id": "C95", "title": "Large strain: reference medium and current stiffness", "statement": "At a deformed point the reference stiffness answers a strain rate with the Cauchy stress of the reference response to the rate of the deformation gradient, the Green operator takes a Cauchy stress to a strain rate through the first Piola-Kirchhoff stress; the operator at the origin is the mean over all frequencies, its work is never positive; both matrices are symmetric; the stiffness matrix is never indefinite, and positive definite if no direction is turned by a right angle; the current crystal stiffness follows the elastic rotation only and is positive definite; these data meet the conditions of the stress iteration; the scaling with the time increment is undone in every step. (After a quarter turn the reference stiffness is singular.)", "quantifier": "all reference stiffnesses, deformation gradients, grids, rotations, time increments", "why_tests_cant": "Continuum of deformations and all grid sizes.", "anchors": ["apps/micromechanics/LS-EVPFFT/src/calc_c066mod.cpp:calc_c066mod", "apps/micromechanics/LS-EVPFFT/src/calc_Goperr0.cpp:calc_Goperr0", "apps/micromechanics/LS-EVPFFT/src/update_el_stiff.cpp:update_el_stiff", "apps/micromechanics/LS-EVPFFT/src/evpfft.cpp:init_c0_s0", "apps/micromechanics/LS-EVPFFT/src/evpfft.cpp:deinit_c0_s0"]}
{"id": "C96", "title": "Large strain: motion of the grid", "statement": "Over every history each node has the position given by the accumulated average gradient plus an accumulated periodic fluctuation, without any read outside the grid; opposite nodes differ exactly by the period of the accumulated gradient, so the deformed grid tiles space; distributing the grid over ranks only shifts it; the fluctuating velocity has zero mean, is at every frequency the one whose gradient is closest to the given one, and reproduces a velocity field exactly from its gradient; uniform steps move the grid affinely. (The points written to the output contain the spacing twice, and are uneven after a uniform stretch.)", "quantifier": "all grids, spacings, histories of gradients, ranks", "why_tests_cant": "All grid sizes and histories.", "anchors": ["apps/micromechanics/LS-EVPFFT/src/update_grid_velgrad.cpp:update_grid_velgrad", "apps/micromechanics/LS-EVPFFT/src/evpfft.cpp:init_defgrad", "apps/micromechanics/LS-EVPFFT/src/write_micro_state.cpp:write_micro_state_pvtu"]}
{"id": "C97", "title": "Large strain: stress power and driving stress", "statement": "The first Piola-Kirchhoff stress formed from the Cauchy stress relative to its average is work conjugate to the gradient rate; its average drives nothing, a uniform stress field gives no correction, and the total power over the grid is the deformed volume times the average driving power.", "quantifier": "all stress fields and deformations", "why_tests_cant": "Continuum of fields on grids of any size.", "anchors": ["apps/micromechanics/LS-EVPFFT/src/Cauchy_to_PK1.cpp:Cauchy_to_PK1"]}
{"id": "C98", "title": "Large strain: stress iteration of a grid point", "statement": "The stress equation of a grid point has at most one solution, for crystals and isotropic phases; a fixed point satisfies the constitutive law; the Newton matrix is the regular exact derivative; the line search keeps the first of ten halvings that does not lengthen the residual; what the uninitialised previous stress holds never matters; there are between one and one hundred iterations; unless ten cuts did not suffice the residual never grows; fewer than one hundred iterations mean a correction below the tolerance. (When ten cuts do not suffice, an unevaluated stress is kept.)", "quantifier": "all stiffnesses, slip systems, exponents, time steps, starting stresses", "why_tests_cant": "Nonlinear iteration over a continuum of data.", "anchors": ["apps/micromechanics/LS-EVPFFT/src/evpal.cpp:evpal"]}
{"id": "C99", "title": "YAML: what is written is read again", "statement": "A tree of non-empty maps and sequences that is written and read again is the same tree, for every configuration of the writer with an indentation of at least two, provided keys and texts avoid the signs the reader cannot take back (double quotes and apostrophes in texts, two comment signs, two colons in items, blanks at the ends of plain texts, empty texts, a line feed after a single short line); long lines are folded and joined again, texts with several lines come back line by line; children without content are dropped and nothing else changes. (Empty texts, maps and sequences, quotes, apostrophes, times of day in sequences do not survive.)", "quantifier": "all trees of any depth and breadth, all configurations", "why_tests_cant": "Arbitrary trees and texts.", "anchors": ["apps/multiphysics/src/input/Yaml.cpp:Serialize", "apps/multiphysics/src/input/Yaml.cpp:SerializeLoop", "apps/multiphysics/src/input/Yaml.cpp:LineFolding", "apps/multiphysics/src/input/Yaml.cpp:AddEscapeTokens"]}
{"id": "C100", "title": "Largest eigenvalue of a symmetric tensor", "statement": "For a symmetric 3x3 tensor with non-zero determinant that is no multiple of the unit tensor, the helper that computes the largest eigenvalue returns the largest modulus of an eigenvalue. (With determinant zero it returns zero, for multiples of the unit tensor no number.)", "quantifier": "all symmetric tensors", "why_tests_cant": "Continuum of tensors; trigonometric solution of the cubic.", "anchors": ["apps/multiphysics/src/Solvers/SGH_solver_3D/src/sgh_execute.cpp:max_Eigen3D"]}
{"id": "C101", "title": "Graphics dumps: fields of elements and materials", "statement": "For every schedule of the loops and whatever the new arrays contain, the cell data of a dump are exactly the requested fields, in the order of the requests under their names: sums over the material points of an element weighted with their part of the volume, the mass as plain sum, the internal energy per mass, Gauss point values as they are; in the file of a material the values of its points. All accesses are inside the arrays; element masses add up to the total mass; uniform quantities come out unchanged where the parts of the volume add up to one; a request is refused exactly if a name is unknown, and the mass is added where the energy needs it. (A name given twice gives a second array of zeros and doubles the first.)", "quantifier": "all meshes, materials, maps, requests, schedules", "why_tests_cant": "All schedules, sizes and requests.", "anchors": ["apps/multiphysics/src/common/include/mesh_io.hpp:concatenate_elem_fields", "apps/multiphysics/src/common/include/mesh_io.hpp:concatenate_mat_fields", "apps/multiphysics/src/common/include/mesh_io.hpp:write_mesh", "apps/multiphysics/src/input/parse_output_options.cpp:parse_output_options"]}
{"id": "C102", "title": "Graphics dumps: fields of nodes", "statement": "For every schedule of the loops the point data of a dump are exactly the requested fields of the nodes, vectors first, in the order of the requests, 2D vectors with third component zero, and the acceleration as the change of velocity over the last step. (Coordinates requested in 3D lose their third component except for the first node, which gets that of any node; forces can be requested but are not written.)", "quantifier": "all meshes, fields, requests, schedules", "why_tests_cant": "All schedules, sizes and requests.", "anchors": ["apps/multiphysics/src/common/include/mesh_io.hpp:concatenate_nodal_fields", "apps/multiphysics/src/common/include/mesh_io.hpp:write_mesh"]}
{"id": "C103", "title": "Reading Abaqus decks", "statement": "The reader is chosen by the end of the file name and every other name is refused; reading an Abaqus deck whose parts stand in any order gives exactly the nodes of the deck in the order of its lines and exactly its elements, and when nodes are labelled 1, 2, 3, ... each corner of each element is the node that the deck names, at the place the code's numbering has for it. (Labels are not looked up, a comment ends a list, keywords in capital letters are skipped, an element continued on a second line reads outside the list.)", "quantifier": "all file names, all decks with any number of parts, nodes and elements", "why_tests_cant": "Arbitrary texts of any length.", "anchors": ["apps/multiphysics/src/common/include/mesh_io.hpp:read_Abaqus_mesh", "apps/multiphysics/src/common/include/mesh_io.hpp:read_mesh"]}
{"id": "C104", "title": "Reading legacy VTK meshes", "statement": "Reading a legacy VTK file of hexahedra in which every point and cell has its own line with single blanks gives exactly the points of the file times the scale and its cells, each corner at the place the code's numbering has for it. (Several points on a line or two blanks between words are not read, quadrilaterals become bow ties of area zero.)", "quantifier": "all files of this form, all numbers of points and cells, all other lines between the parts", "why_tests_cant": "Arbitrary texts of any length.", "anchors": ["apps/multiphysics/src/common/include/mesh_io.hpp:read_vtk_mesh"]}
{"id": "C105", "title": "Polar mesh", "statement": "The polar mesh generator throws exactly when a point of the grid of radii and angles has a negative first coordinate; otherwise it has one node per point and one element per cell, neighbouring cells share the nodes of their edge, the four nodes of a cell lie on its circles and rays in counter-clockwise order, the area of a cell is half the difference of the squared radii times the sine of the angle, positive for increasing radii and angles, and the area of the mesh approaches the one of the sector from below. (The test of the radius reads the axial coordinate: meshes at negative radii are accepted, admissible ones refused; the order of the angles is not checked.)", "quantifier": "all radii, angles, origins, numbers of elements", "why_tests_cant": "Continuum of inputs and meshes of any size.", "anchors": ["apps/multiphysics/src/common/include/mesh_io.hpp:build_2d_polar"]}
{"id": "C106", "title": "Material state in r-z", "statement": "After every update in the r-z solver the density of an uneroded point times the volume its material occupies is its mass, also at the end of every run, pressure and sound speed are those of the equation of state at the new density and energy, points erode exactly when pressure or density is at its limit, stay eroded for the rest of the run and carry no pressure or stress; the updates leave masses and energies alone. (With a state-based strength model the density ignores the volume fraction, so it is right only in elements filled by one material; an increment-based strength model set to run on the host is never called.)", "quantifier": "all material models, all meshes, motions, numbers of cycles and stages", "why_tests_cant": "All models and histories of any length.", "anchors": ["apps/multiphysics/src/Solvers/SGH_solver_rz/src/properties_rz.cpp:update_state_rz", "apps/multiphysics/src/Solvers/SGH_solver_rz/src/properties_rz.cpp:update_stress"]}
{"id": "C107", "title": "Clock of the r-z solver", "statement": "The r-z solver's step grows by at most 10 percent, respects the user's maximum, the CFL limit for every two nodes of every uneroded element, the final time and the next dump time, and is positive before the final time; the cycle loop ends, time increases in every cycle by a fixed amount, the final time is reached with enough cycles and not passed by more than the tolerance, no cycle dumps twice, requested dump times get their dumps and the last state is dumped.", "quantifier": "all options, all histories of coordinates, sound speeds and erosion", "why_tests_cant": "Histories of any length.", "anchors": ["apps/multiphysics/src/Solvers/SGH_solver_rz/src/time_integration_rz.cpp:get_timestep_rz", "apps/multiphysics/src/Solvers/SGH_solver_rz/src/sgh_execute_rz.cpp:execute"]}
{"id": "C108", "title": "Boundary conditions of a deck reach the solver they name, with their own parameters", "statement": "A deck's boundary conditions are accepted exactly if each names an existing solver, has a surface and uses known words, models and well-formed lists. The velocity, temperature and stress sets of a solver are, once each and in deck order, the blocks that name that solver and such a model. Everything stored for a block comes from that block alone, with the documented defaults. Contact, preload and fracture are on exactly if some block asks for them. Each velocity set has its function. Stress conditions call only existing functions exactly if no contact condition has patches. Thermal conditions act on exactly the blocks with the model, whatever solver they name. Not guaranteed: 'none' and the heat flux words are offered but refused, a misspelt temperature model is accepted and ignored, the solver number of temperature conditions is ignored, radius overrides plane position, an untyped surface is accepted, and the surface 'global' tags nothing.", "quantifier": "all decks with any number of blocks and solvers, all conversions of YAML values", "why_tests_cant": "Decks of any length and content.", "anchors": ["apps/multiphysics/src/input/parse_bdy_conds_inputs.cpp:parse_bcs", "apps/multiphysics/src/common/include/boundary_conditions.hpp:BoundaryCondition_t", "apps/multiphysics/src/Solvers/SGTM_solver_3D/src/boundary.cpp:boundary_temperature", "apps/multiphysics/src/Solvers/SGH_solver_3D/src/boundary.cpp:boundary_stress"]}
{"id": "C109", "title": "Materials of a deck get the models and parameters their blocks name", "statement": "A deck's materials are accepted exactly if there is at least one, each block uses known words and models allowed in the dimension of the mesh, lists have an admissible length, tables can be read, equations of state and dissipation models come with parameters and not without, and the ids are 0..n-1 in any order. Each material then holds exactly what its block says, independently of the other blocks and of their order, and the run calls exactly the models so named: the equation of state at the start and, if its type is 'decoupled', in every step; the strength model if its type is 'increment_based'; a dissipation function always; erosion with the thresholds given. Not guaranteed: omitting the equation of state, or the strength model of an increment-based material, is accepted and calls a null pointer; a misspelt or missing type silently switches the model off; 'no_eos' as type, 'no_dissipation' and three model names are offered but refused; a void needs parameters; erosion without thresholds compares with indeterminate numbers; property tables are shared by all materials, the last one read wins.", "quantifier": "all decks with any number of materials, all conversions of YAML values, all table files", "why_tests_cant": "Decks of any length and content.", "anchors": ["apps/multiphysics/src/input/parse_material_inputs.cpp:parse_materials", "apps/multiphysics/src/common/include/material.hpp:Material_t", "apps/multiphysics/src/common/src/region_fill.cpp:init_press_sspd_stress", "apps/multiphysics/src/Solvers/SGH_solver_3D/src/properties.cpp:update_state"]}
{"id": "C110", "title": "Options for several materials", "statement": "The options for several materials are accepted exactly if their words and model names are known and lists of parameters have at least two numbers; the number of materials per element (3 by default) and the parameters are the ones given, and materials sharing an element are equilibrated after each stage exactly if a model other than 'no_equilibration' is named for materials, or, if none is named for them, for the geometry. Not guaranteed: naming a model for the geometry never equilibrates the geometry, 'user_defined' runs the Tipton model, and a model without parameters is accepted although its parameters are then read from an array that was never allocated.", "quantifier": "all option blocks, all conversions of YAML values", "why_tests_cant": "Blocks of any content.", "anchors": ["apps/multiphysics/src/input/parse_material_inputs.cpp:parse_multimaterial_options", "apps/multiphysics/src/Solvers/SGH_solver_3D/src/sgh_execute.cpp:execute"]}
{"id": "C111", "title": "Property tables read from a file are the tables the thermal solver interpolates", "statement": "Reading a table of a property file succeeds exactly if the file has the keyword of the table and the lines below it that consist of numbers give at least one row, rows of equal length, and temperatures that do not descend; the table holds these rows in file order with the temperature first. A table written one row per line is read back, a lookup at a temperature of the table gives the value written there, between two rows the value on the line through them, and a material point gets its density, conductivity and specific heat at the mean temperature of its nodes. Not guaranteed: a line with something that is no number is left out silently, a table of one column is accepted and then read out of bounds, without assertions descending temperatures are accepted and interpolated wrongly, and with a moving heat source a material without all three tables calls a null pointer.", "quantifier": "all files with any number of tables and rows, all number formats, all temperatures", "why_tests_cant": "Arbitrary texts of any length.", "anchors": ["apps/multiphysics/src/input/read_abaqus_files.cpp:read_tabular_jmatpro_file", "apps/multiphysics/src/common/include/table.hpp:Table_t", "apps/multiphysics/src/Solvers/SGTM_solver_3D/src/properties.cpp:update_properties"]}
{"id": "C112", "title": "The mesh a deck asks for is the mesh that is built", "statement": "The mesh options are accepted exactly if they name a source and a number of dimensions, all words and names are known, 'origin', 'length' and 'num_elems' are lists of at least two numbers, and a mesh to be generated comes without the path of a file; what is given is stored and the rest has its defaults. A mesh from a file is read from the given path, relative to the directory of the deck unless absolute, by the reader its extension names; a generated mesh is a box in three dimensions and a box or polar mesh in two, with the corners of the elements at even steps of the given lengths, radii and angles. Not guaranteed: a generated mesh with a file path ends the program with the exit status of success, 'num_dims: 2' has no effect on files (the readers are told three dimensions), a polar mesh in three dimensions is a box, a two-dimensional mesh without a type depends on an unset variable, counts that are not whole are cut off, fewer or more than three counts in three dimensions leave no elements, a box without lengths has all nodes at the origin, and 'polynomial_order' and scale factors have no effect on generated meshes.", "quantifier": "all blocks of mesh options, all conversions of YAML values, all sizes of meshes", "why_tests_cant": "Blocks of any content and meshes of any size.", "anchors": ["apps/multiphysics/src/input/parse_mesh_inputs.cpp:parse_mesh_inputs", "apps/multiphysics/src/common/include/mesh_inputs.hpp:mesh_input_t", "apps/multiphysics/src/driver.cpp:initialize", "apps/multiphysics/src/common/include/mesh_io.hpp:build_mesh"]}
{"id": "C113", "title": "Regions of a deck are stored as their blocks say", "statement": "A deck's regions are accepted exactly if each has a material and a volume, all words are known, each initial field and the velocity has a type from its list (only 'uniform' and 'tg_vortex' except for volume fraction and level set), lists of coordinates can be read, voxel files and nothing else come with a path, solver numbers exist, and the first region names a field at the Gauss points. Each region is then stored as its own block says, with the documented defaults for the rest; each solver is listed the regions that name it in deck order; the fields recorded as filled are exactly those some region names, each once, so that a solver's check passes exactly if every field it requires is named somewhere. Not guaranteed: a negative density, a density without a value (zero), a misspelt volume type and any material number are accepted; acceptance depends on the order of the regions; a vtu part with a file path stops the program; a solver number out of range writes outside a table.", "quantifier": "all decks with any number of regions, all conversions of YAML values", "why_tests_cant": "Decks of any length and content.", "anchors": ["apps/multiphysics/src/input/parse_regions.cpp:parse_regions", "apps/multiphysics/src/common/include/region.hpp:RegionFill_t", "apps/multiphysics/src/common/include/initial_conditions.hpp:scalar_ics_type_map"]}
{"id": "C114", "title": "Elements get their materials from the regions of the deck", "statement": "For every accepted deck there is one fill instruction for each region in deck order: it selects exactly the elements whose centre is in the closed box, spherical shell or cylindrical shell written in the deck (or everything, or the part of the mesh file, or the voxels), with the material and volume fraction written there. Without volume fractions an element holds exactly the material of the last region it lies in, with volume fraction one and never an abort; an element in no region holds none. Not guaranteed: the solver a region names plays no role; the origin of a volume fraction is ignored; 'tg_vortex' as volume fraction is accepted but reads a variable that is never set; a region with a misspelt volume type fills nothing.", "quantifier": "all accepted decks with any number of regions, all meshes and elements", "why_tests_cant": "Decks and meshes of any size.", "anchors": ["apps/multiphysics/src/common/src/region_fill.cpp:fill_regions", "apps/multiphysics/src/common/src/region_fill.cpp:get_region_scalar", "apps/multiphysics/src/input/parse_regions.cpp:parse_regions"]}
{"id": "C115", "title": "Voxel files fill the elements the user drew", "statement": "A rectilinear-grid text file with its key words in order, single blanks between numbers and at least three points per direction is read whatever way the numbers are distributed over lines: numbers of points, scaled coordinates, number of voxels and values are the written ones (only a last number alone on its line is dropped). With equally spaced points an element centred at voxel (i,j,k) of the scaled and moved grid is filled exactly if the number at place i+(nx-1)(j+(ny-1)k) of the values is one, for all voxels but the last layer of each direction. Not guaranteed: doubled blanks or an empty line behind a key word throw, surplus numbers are stored out of bounds, a header of more than 1001 lines leaves the sizes unset, a missing LOOKUP_TABLE fills nothing without complaint, the number of voxels is not compared with the grid, and one voxel in a direction divides by zero.", "quantifier": "all texts of voxel files of any size and line layout, all number formats, scales, origins and voxels", "why_tests_cant": "Texts of any length, grids of any size.", "anchors": ["apps/multiphysics/src/common/src/region_fill.cpp:user_voxel_init", "apps/multiphysics/src/common/src/region_fill.cpp:fill_geometric_region"]}
{"id": "C116", "title": "Inverse pole figure colours of the crystal plasticity output", "statement": "For Euler angles in radians the direction that is coloured is the sample z axis in the frame of the crystal with these angles. The colour of a direction does not change under any permutation or change of sense of the crystal axes, is the standard colour of the sorted entries, has all channels between 0 and 255 with one of them 255, and is red for cube axes, green for face diagonals and blue for body diagonals. Not guaranteed: the program computes the angles in degrees and uses them as radians, takes them from the stored crystal-to-sample matrix without transposing it, and in the large-strain program keeps only the last term of the product with the rotation of the lattice; so crystals whose cube axes lie along the sample axes are shown in other colours.", "quantifier": "all Euler angles, all directions, all symmetry operations of the cube", "why_tests_cant": "A continuum of orientations.", "anchors": ["apps/micromechanics/EVPFFT/src/write_micro_state.cpp:calc_IPF_colors", "apps/micromechanics/EVPFFT/src/euler.cpp:euler", "apps/micromechanics/LS-EVPFFT/src/write_micro_state.cpp:calc_IPF_colors"]}
{"id": "C117", "title": "The graphics files of a crystal plasticity step", "statement": "In every piece of a dump every array is found at the offset announced under its name, with the announced length: the time, and for the cell of each grid point (first direction fastest) the rank, phase, grain, colour, equivalent and six-component strain, stress, plastic strain rate and elastic strain of that point. Each cell is a hexahedron whose eight connectivity entries name the points stored for its corners; a corner written by two ranks has one place; every array announced for all pieces is in each piece with the announced number of components. The elastic strain is the strain to which the stiffness of the point answers with its stress. Corners are those of the grid carried along by the average deformation when the spacing is the same in all directions or the deformation stretches along the axes. Not guaranteed: with unequal spacing a shear is drawn wrongly; with the update of the sample the stretch is counted twice; points of a gas phase get an equivalent elastic strain of 200.", "quantifier": "all numbers of points, ranks, fields, spacings and deformations", "why_tests_cant": "Files of any size and fields of any content.", "anchors": ["apps/micromechanics/EVPFFT/src/write_micro_state.cpp:write_micro_state_pvtu", "apps/micromechanics/EVPFFT/src/write_micro_state.cpp:calculate_eel", "apps/micromechanics/EVPFFT/src/write_micro_state.cpp:symmetrize", "apps/micromechanics/EVPFFT/src/step.cpp:step_texture_rve_update"]}
{"id": "C118", "title": "EVPFFT microstructure files give each point its own line", "statement": "A microstructure file of lines `phi theta omega i j k grain phase`, listed with the first direction fastest, gives every point of every rank the angles, grain and phase of its own line, whatever comments follow the eight numbers; a lattice file gives a point whose number is n the grain and phase n+1 with zero angles; an HDF5 file gives each point the entries with the subscripts (third, second, first direction), in degrees if the file is in radians. The texture file of a run on one rank has one line for each point in that order. The subscripts i, j, k are not looked at, a file that is too short silently repeats its last line, a lattice file without the exact key line leaves grains and phases unset, the number of subscripts of the grain and phase data sets is not checked, and with several ranks the texture file holds the points of the first rank only.", "quantifier": "all grids, divisions among ranks, numbers and ways of writing them", "why_tests_cant": "Files of any length; every point on every rank.", "anchors": ["apps/micromechanics/EVPFFT/src/data_grain.cpp:read_classic_los_alamos_texture_file", "apps/micromechanics/EVPFFT/src/data_grain.cpp:read_hdf5_texture_file", "apps/micromechanics/EVPFFT/src/data_grain.cpp:read_vtk_lattice_structure", "apps/micromechanics/EVPFFT/src/write_texture.cpp:write_texture"]}
{"id": "C119", "title": "EVPFFT input files set what their lines say", "statement": "An input file in the documented layout, with any comments behind the data of a line, any (not blank) titles and anything in the lines between the blocks, makes the run work with exactly its numbers and names: grid, spacing, the phases in order, flags, rates, the symmetric stress, tolerances and controls. Contradictory flags and a positive control mode stop the run. In mode -1 the time step is the number given, in mode 0 it is the one that gives the wanted strain; a rate without deviator in mode 0, or a mode below -1, leave no usable time step. Eigenstrains of grains come from a file with six bare numbers for each of 200000 grains; a comment or an early end leaves later grains unset. A blank title line shifts the reading by a line, and the number of phases is not checked against the room for them.", "quantifier": "all input files in the layout, all ways of writing numbers, all numbers of phases and grains", "why_tests_cant": "Files of any length with any comments.", "anchors": ["apps/micromechanics/EVPFFT/src/vpsc_input.cpp:vpsc_input", "apps/micromechanics/EVPFFT/src/evpfft.cpp:init_ept", "apps/micromechanics/EVPFFT/src/evpfft.cpp:evolve"]}
{"id": "C120", "title": "EVPFFT crystal and elastic files give the phase what their lines say", "statement": "A crystal file in the documented layout with up to ten modes numbered 1, 2, ... and the wanted ones listed in ascending order gives the phase exactly the slip systems of the wanted modes, in order, each with the rate, exponent, strengths and hardening rates of its mode in the units asked for and with its unit vectors, and a hardening matrix of the self and latent coefficients of their modes; comments, and everything in modes that are not wanted, have no influence. The first wanted mode at fault stops the run: initial hardening below the final one, unknown symmetry, normal and direction not orthogonal; so does a slip system behind a twinning one. An elastic file gives the stiffness with the entries of its Voigt matrix, or that of Hooke's law. More than ten modes are written past the end of arrays, the bound for linear hardening depends on the units, the constants of J2 phases (LS-EVPFFT) are not converted, and a Poisson's ratio of one half is not refused.", "quantifier": "all crystal and elastic files in the layout, all unit conversions, all numbers of modes and systems", "why_tests_cant": "Files of any length with any modes skipped.", "anchors": ["apps/micromechanics/EVPFFT/src/data_crystal.cpp:data_crystal", "apps/micromechanics/EVPFFT/src/data_crystal_elast.cpp:data_crystal_elast", "apps/micromechanics/LS-EVPFFT/src/data_crystal.cpp:data_crystal"]}
{"id": "C121", "title": "What lies in the graphics directories after a run", "statement": "After a run of any number of solvers with at most 20000 graphics dumps each, every file of fields of every dump of every solver is there with what was dumped, each dump has an index with its own time, and the index over time of each solver lists all its dumps in order; no file of an earlier run is left among them and no file with another name is touched. If the dumps of a solver have the same variables and materials, and the materials with elements come first, following the indices leads from every listed time to files that exist and hold the fields of that time. One dump more than 20000 is undefined behaviour.", "quantifier": "all numbers of solvers, dumps and materials, all contents of the directories beforehand", "why_tests_cant": "Histories of any length.", "anchors": ["apps/multiphysics/src/common/include/mesh_io.hpp:write_mesh", "apps/multiphysics/src/common/include/mesh_io.hpp:write_vtm", "apps/multiphysics/src/common/include/mesh_io.hpp:write_pvd"]}
{"id": "C122", "title": "State files and EnSight files", "statement": "A state file has a line for each material point with the centre of its element, distances and state, and one for each node with position, velocity, speed and the part of the velocity that is not radial (not a number on the axis). EnSight files hold volume, speed, position, velocity and acceleration, and for each element the state of its last material point (unspecified numbers without one; the other materials of a mixed element are lost). After a run the state files of a dump are there unless a later dump has a time with the same five digits; EnSight files of a dump are there unless a later solver made as many dumps, since their names do not contain the solver.", "quantifier": "all meshes, states, numbers of solvers and dumps", "why_tests_cant": "All states and histories of any length.", "anchors": ["apps/multiphysics/src/common/include/mesh_io.hpp:write_material_point_state", "apps/multiphysics/src/common/include/mesh_io.hpp:write_ensight"]}
{"id": "C123", "title": "A whole run of the thermal solver", "statement": "A run of the thermal solver makes its cycles one after the other from the initial state with the boundary temperatures applied; time is the start time plus the steps made, each at least a fixed positive amount; it ends after cycle_stop cycles or at the final time, which it does not pass by more than the tolerance and reaches if enough cycles are allowed. Each dump shows the state after its cycle with the time of that state, no cycle dumps twice, and a run that reaches the final time has written its last state. An insulated body without source has the same heat content at the end. With one material the run completes. The moving source has the power and, after the first cycle, the place given by the tool path at the start of each cycle. (In the first cycle it is at the origin; the material tables are read once before the first cycle, and only with a moving source, so properties never follow the temperature.)", "quantifier": "all meshes, states, boundary sets, clock options, tables and tool paths, runs of any length", "why_tests_cant": "Runs of any length and all options.", "anchors": ["apps/multiphysics/src/Solvers/SGTM_solver_3D/src/sgtm_execute.cpp:execute", "apps/multiphysics/src/Solvers/SGTM_solver_3D/src/properties.cpp:update_properties"]}
{"id": "C124", "title": "The rotated scheme of the non-periodic crystal plasticity code", "statement": "With the rotated scheme of LSNP-EVPFFT the derivative taken through the transforms is, in every voxel, the mean of the four differences of its eight corners, up to the rounding of the circle constant, and it is defined at every frequency. On grids with odd numbers of points the velocities recovered from a gradient are those it came from up to the mean, the correction found for a stress field is the gradient of a velocity field, unique, and leaves a stress that does no work on any gradient of velocities; the tensor kept as the response of a point to itself is the correction caused there by a stress at that point alone. The half of the frequencies that is stored determines the whole transform. On one rank the nodes move with the velocities of their points. (An even number of points needs a rounded circle constant; with two even directions a non-constant field has zero gradient; the weight of a point uses the second number of points twice; ranks that do not start at the first point move their nodes with velocities of other points; the last nodes repeat the first ones, so a mean gradient does not change the box.)", "quantifier": "all grid sizes, velocity and stress fields, stiffnesses with positive energy, partitions into ranks", "why_tests_cant": "All fields on grids of all sizes.", "anchors": ["apps/micromechanics/LSNP-EVPFFT/src/mod_frequency.cpp:mod_frequency", "apps/micromechanics/LSNP-EVPFFT/src/calc_velocity.cpp:calc_velocity", "apps/micromechanics/LSNP-EVPFFT/src/inverse_the_greens.cpp:inverse_the_greens", "apps/micromechanics/LSNP-EVPFFT/src/calc_Goperr0.cpp:calc_Goperr0", "apps/micromechanics/LSNP-EVPFFT/src/update_grid.cpp:update_grid", "apps/micromechanics/LSNP-EVPFFT/src/allocate_memory.cpp:allocate_memory"]}
{"id": "C125", "title": "Velocities prescribed on the surface of the body in the non-periodic crystal plasticity code", "statement": "In LSNP-EVPFFT with prescribed surface velocities the points found on the surface are those of the surface of the body if the body has the same number of voxels along all directions. Its vertices, through any number of steps, and the velocities of its surface are those of one linear map, up to a common translation that makes them sum to zero. Every other point gets a velocity, without division by zero, between the extremes of the held points; with even numbers of points it is their average weighted by the inverse fourth power of the distance. The error of the boundary condition is zero exactly when the surface moves as prescribed up to a translation. Each iteration brings the frame closer to a linear elastic one by a fixed factor below one, and its stiffness stays below its first value times the two factors given. A step makes at least the passes asked for and ends with the error below the tolerance or at the limit. (With different numbers of voxels wrong points are held; odd numbers of points give uneven weights; a uniform prescribed velocity makes the error a division by zero; a frame of different widths takes the third for the second; the limit of passes is exceeded by one; without prescribed velocities the tolerance is compared although never set.)", "quantifier": "all grid sizes, frames, histories of velocity gradients, velocity fields and stresses", "why_tests_cant": "All fields on grids of all sizes, histories of any length.", "anchors": ["apps/micromechanics/LSNP-EVPFFT/src/calc_vel_boundary_lin_el.cpp:calc_vel_boundary_lin_el", "apps/micromechanics/LSNP-EVPFFT/src/calc_eigenvelgradref.cpp:calc_eigenvelgradref", "apps/micromechanics/LSNP-EVPFFT/src/calc_wfhat.cpp:calc_wfhat", "apps/micromechanics/LSNP-EVPFFT/src/calc_vel_bc_error.cpp:calc_vel_bc_error", "apps/micromechanics/LSNP-EVPFFT/src/calc_IC0a_inv.cpp:calc_IC0a_inv", "apps/micromechanics/LSNP-EVPFFT/src/evpal.cpp:evpal", "apps/micromechanics/LSNP-EVPFFT/src/evpfft.cpp:evolve", "apps/micromechanics/LSNP-EVPFFT/src/data_grain.cpp:read_classic_los_alamos_texture_file"]}
{"id": "C126", "title": "The reference medium of the non-periodic crystal plasticity code through a run", "statement": "After every step LSNP-EVPFFT replaces its reference medium by a factor times the mean over the body of the tangents of the first Piola-Kirchhoff stress. The tangent of a point inverts the sum of its plastic tangent and its elastic compliance per step and has positive energy, and the mean has positive energy if one point of the body is not turned by a right angle or more. Then through any number of steps of any lengths the stiffness and compliance the solver uses are inverse to each other, symmetric in their index pairs and of positive energy; for an undeformed elastic body of one stiffness the medium is the factor times that stiffness whatever the step length. (The first step uses a medium without the factor; a body turned by a right angle about an axis has a mean without an inverse, whatever its material.)", "quantifier": "all grids, materials, deformations, step lengths and numbers of steps", "why_tests_cant": "Runs of any length over any fields.", "anchors": ["apps/micromechanics/LSNP-EVPFFT/src/calc_c0.cpp:calc_c0", "apps/micromechanics/LSNP-EVPFFT/src/evpfft.cpp:init_c0_s0", "apps/micromechanics/LSNP-EVPFFT/src/evpfft.cpp:deinit_c0_s0", "apps/micromechanics/LSNP-EVPFFT/src/evpfft.cpp:evolve"]}
{"id": "C127", "title": "Setup of the fracture option and the whole run of its reorientation test", "statement": "The parameters of the cohesive law are the values of the fracture condition, with up to ten Prony pairs; without such a condition or without pairs of nodes fracture is off. The reorientation test is taken from the first user defined velocity condition that asks for it, and pulls away exactly the nodes of the elements centred beyond the interface, in whatever order the elements are visited. Through a run of any number of steps and stages the nodes follow the prescribed motion, the normal found for a plane crack is the turned axis whichever node of a pair comes first, and the internal variables are those of the cohesive law along the prescribed openings; without rotation and Prony terms the traction is (1 - damage) times modulus times relative opening at the time reached; with equal critical openings rotation changes neither damage nor branch stresses. (The positions stored with a time are those of the start of the last step; tractions depend on the rotation; too short a row of parameters, or a user defined velocity condition without parameters, is read past its end.)", "quantifier": "all parameter rows, meshes, rotation and opening rates, time steps, numbers of steps and stages", "why_tests_cant": "Runs of any length with any rates.", "anchors": ["apps/multiphysics/src/Solvers/SGH_solver_3D/src/fracture.cpp:initialize_fracture_bc", "apps/multiphysics/src/Solvers/SGH_solver_3D/src/fracture.cpp:initialize_reorientation_mode", "apps/multiphysics/src/Solvers/SGH_solver_3D/src/fracture.cpp:compute_cohesive_zone_nodal_forces", "apps/multiphysics/src/Solvers/SGH_solver_3D/src/sgh_execute.cpp:execute", "apps/multiphysics/src/Solvers/SGH_solver_3D/include/reorientation_kinematics.hpp:prescribe_reorientation_kinematics"]}
{"id": "C128", "title": "Which arrays of the state exist after the initialisation, and which inputs it accepts", "statement": "After the initialisation of the solvers every array one of them uses exists, with the extents of the mesh or of the material index spaces, an array that held data (the coordinates) is untouched, and the order of the solvers makes no difference. The initialisation stops with an exception exactly if a solver finds the wrong number of dimensions or misses a required field. It never touches memory outside an array if density and level set are given where they are needed and the energies are consistent: either the extensive energy is named before any specific one, or every region that fills an element sets the specific energy and none the extensive one. Otherwise (mixed energies in the other order, a region without energy, an r-z run without density, a level set run without level set field) the input is accepted and memory outside the arrays is used.", "quantifier": "all lists of solvers, regions, fields, materials and all choices of regions for the elements", "why_tests_cant": "All combinations of solvers, fields and regions.", "anchors": ["apps/multiphysics/src/common/include/state.hpp:initialize", "apps/multiphysics/src/driver.cpp:initialize", "apps/multiphysics/src/common/src/region_fill.cpp:fill_regions", "apps/multiphysics/src/common/src/region_fill.cpp:material_state_setup", "apps/multiphysics/src/Solvers/SGH_solver_3D/src/sgh_initialize.cpp:initialize", "apps/multiphysics/src/Solvers/SGTM_solver_3D/src/sgtm_initialize.cpp:initialize"]}
{"id": "C129", "title": "Directional dissipation of the axisymmetric solver", "statement": "The directional shock dissipation of the axisymmetric solver gives defined forces in every element of nonzero area. They act between the ends of edges, weighted with the segments from the centre to the middles of the edges. They add up to zero when the total impedance exceeds the fuzz constant and never to more than fuzz times the largest velocity, never feed the motion, and do not see a common velocity. For motion along one side of a rectangle the resistance depends on the other side only, and at a corner at rest relative to the element it is that of the model without direction; it is bounded by the impedance times the lengths of the two segments. Coefficients are chosen by the sign of the full rate of expansion. (An element with two coinciding opposite corners moving as a whole gets forces that are not numbers; with the radius weight of the balances, axial momentum is created and the material may cool next to the axis.)", "quantifier": "all quadrilateral elements, velocities, coefficients and material states", "why_tests_cant": "All shapes and velocity fields.", "anchors": ["apps/multiphysics/src/material_models/artificial_viscosity/mars.hpp:DirMARSRZDissipationModel"]}
{"id": "C130", "title": "Pressure equilibration between materials over the mesh and through a run", "statement": "If no material is twice in an element, a pass of the pressure equilibration treats the materials of each element with each other alone, for every schedule of its parallel loops: fractions, densities and energies become those of the single point method, pressures and sound speeds those of the equations of state at the new densities and energies, and nothing else is touched. Fractions end in [0, 1], density times volume is the mass, an element filled by one material keeps fraction and energy, and the numbering of the materials makes no difference in mixed elements. In a mixed element the amount by which the fractions miss to fill it grows in a pass at most by the relative change of volume plus terms with the factor fuzz, hence through a run of any number of passes it stays fuzz times a bound; the energy the materials lose together is the mean pressure times the change of the filled volume. (If the fill puts a material twice into an element, the loops race and part of the element can end up empty.)", "quantifier": "all meshes, maps of materials to elements, states, equations of state, schedules and numbers of passes", "why_tests_cant": "All schedules and runs of any length.", "anchors": ["apps/multiphysics/src/material_models/equilibration/src/tipton_equilibration.cpp:mat_equilibration", "apps/multiphysics/src/material_models/equilibration/src/tipton_equilibration.cpp:build_gauss_point_averages", "apps/multiphysics/src/material_models/equilibration/src/tipton_equilibration.cpp:calc_volfrac_change", "apps/multiphysics/src/material_models/equilibration/src/tipton_equilibration.cpp:update_state_equilibration"]}
{"id": "C131", "title": "The variant of the large strain crystal plasticity code for isotropic plasticity", "statement": "Through any number of steps every node of every rank has a position computed from points the rank holds; on a single rank, as long as all points have the same volume, it is the position the large strain code gives. In general the nodes follow the average of the rate of the deformation gradient over the deformed volume, and each rank deforms its block as if it alone filled space periodically. For even numbers of points (the third possibly one) the strain correction is that of the large strain code. The stress equation of a point has at most one solution, its Newton matrix is regular and exact, and at convergence the constitutive equation is that of the large strain code. (On several ranks the blocks do not fit together; with unequal volumes the grid does not follow the average deformation gradient; with a single layer of points along the first or second axis the strain correction ignores compatibility; with an odd number of points opposite frequencies are treated differently.)", "quantifier": "all grids, decompositions into blocks, histories of velocity and deformation gradients, stiffnesses and flow rules", "why_tests_cant": "All decompositions over ranks and histories of any length.", "anchors": ["apps/micromechanics/LS-EVPFFT-J2/src/update_grid_velgrad.cpp:update_grid_velgrad", "apps/micromechanics/LS-EVPFFT-J2/src/update_defgrad.cpp:update_defgrad", "apps/micromechanics/LS-EVPFFT-J2/src/inverse_the_greens.cpp:inverse_the_greens", "apps/micromechanics/LS-EVPFFT-J2/src/evpal.cpp:evpal", "apps/micromechanics/LS-EVPFFT-J2/src/evpfft.cpp:init_defgrad"]}
{"id": "C132", "title": "Runs on machines with separate host and device memory", "statement": "A build for a machine where host and device have separate memories writes the same files as a CPU build, and never touches memory of the wrong side: every host loop, kernel and branch finds up to date the copies it reads. This holds for the 3D hydrodynamics solver (with contact and fracture, strength models on the device), the axisymmetric solver and the thermal solver without a moving source, from reading the deck to the last output. (It fails for the level set solver, whose filled level set stays on the host; for strength models run on the host and for the power of a moving heat source, where host code uses device memory; and for the motion of the grid in the large strain code on several ranks, where the sum over the ranks stays on the host.)", "quantifier": "all functions computed by kernels and host loops, all numbers of passes of every loop, all branches, mesh sources, lists of filled fields and sets of allocated material arrays", "why_tests_cant": "Tests on a CPU share one memory, so a missing copy changes nothing there; the property ranges over all kernels, decks and run lengths.", "anchors": ["apps/multiphysics/src/common/src/region_fill.cpp:simulation_setup", "apps/multiphysics/src/common/src/region_fill.cpp:fill_regions", "apps/multiphysics/src/common/src/region_fill.cpp:material_state_setup", "apps/multiphysics/src/common/include/mesh_io.hpp:write_mesh", "apps/multiphysics/src/Solvers/SGH_solver_3D/src/sgh_execute.cpp:execute", "apps/multiphysics/src/Solvers/SGH_solver_3D/src/properties.cpp:update_stress", "apps/multiphysics/src/Solvers/SGTM_solver_3D/src/sgtm_execute.cpp:execute", "apps/multiphysics/src/Solvers/level_set_solver/src/level_set_execute.cpp:execute", "apps/micromechanics/LS-EVPFFT/src/update_grid_velgrad.cpp:update_grid_velgrad"]}
{"id": "C133", "title": "The state of the micromechanics grid written by all ranks into one HDF5 file with XDMF files beside it", "statement": "For every grid, every decomposition into blocks of ranks and any order in which the cells written by the ranks reach the file, each written step can be read back: every attribute of the XDMF file of the step names a data set with the stated extents and number type, and the cell (x, y, z) holds the value of the field at that point of the whole grid: six components of strain, stress, plastic strain rate and elastic strain, the phase (and grain), four equivalent values. Steps written later do not change those written before, decompositions make no difference, and all fixed buffers for names are large enough. (A step number that comes twice leaves the old fields; the constructor of the writer offers a stride and a number of directions that do not work; the picture has unit spacing whatever the size of the volume element.)", "quantifier": "all grids, decompositions, orders of writes, fields, sequences of distinct steps", "why_tests_cant": "All decompositions, orders of parallel writes and sequences of steps.", "anchors": ["apps/micromechanics/EVPFFT/src/micro_output_writer.h:MicroOutputWriter", "apps/micromechanics/EVPFFT/src/hdf5_io_functions.cpp:create_hdf5_filespace", "apps/micromechanics/EVPFFT/src/hdf5_io_functions.cpp:create_hdf5_memspace", "apps/micromechanics/EVPFFT/src/hdf5_io_functions.h:write_hdf5_dataset", "apps/micromechanics/EVPFFT/src/XdmfUniformGridWriter.cpp:write_attribute", "apps/micromechanics/EVPFFT/src/write_micro_state.cpp:write_micro_state_xdmf", "apps/micromechanics/LS-EVPFFT-J2/src/write_micro_state.cpp:write_micro_state"]}
{"id": "C134", "title": "The strength model with a neural network run from the host", "statement": "For all sizes of the layers with none wider than the first hidden one, all weights, biases, inputs and orders of the parallel reductions, a call evaluates a feed forward network with the logistic function in which the bias of a node is that of the first layer times the number of inputs; with zero biases, as set at the start, it is the network of the weights. All outputs lie strictly between zero and one, and the order of the reductions makes no difference. As initialised, every call gives the same constant. (Nonzero biases are counted once per input and taken from the first layer for all layers, past their end if a later layer is wider; neither the state of the material point enters the network nor does its output enter the stress, which stays what it was.)", "quantifier": "all sizes of the network, weights, biases, inputs, orders of reduction and sequences of calls", "why_tests_cant": "All network sizes, weights and schedules.", "anchors": ["apps/multiphysics/src/material_models/strength/host_ann_strength.hpp:forward_propagate_layer_host", "apps/multiphysics/src/material_models/strength/host_ann_strength.hpp:calc_stress", "apps/multiphysics/src/material_models/strength/host_ann_strength.hpp:init_strength_state_vars"]}
{"id": "C135", "title": "Runs of the crystal plasticity code on several ranks", "statement": "For every grid, process grid and material law at the points, every point and every kept frequency belongs to exactly one rank, the sizes of the parts along an axis differ by at most one, and no rank reaches outside its arrays. A run of any number of steps and iterations comes to its end with no rank left waiting, every rank holding its part of the fields of the run on the whole grid and all ranks holding the same stresses, strains and errors of the sample; so the number of ranks makes no difference to stress, strain and crystal state at any point. (Exact arithmetic; the average over the first phase and the spacing of a deforming grid do depend on the ranks, see the property on load steps. The number of points is multiplied as an int, which overflows from 1291 points per direction.)", "quantifier": "all grids, process grids, material laws, numbers of steps and iterations, libraries of transforms with the stated contract", "why_tests_cant": "All numbers of ranks, grids and run lengths.", "anchors": ["apps/micromechanics/EVPFFT/src/heffte_fft.h:FFT3D_R2C", "apps/micromechanics/EVPFFT/src/allocate_memory.cpp:allocate_memory", "apps/micromechanics/EVPFFT/src/forward_backward_fft.cpp:forward_fft", "apps/micromechanics/EVPFFT/src/inverse_the_greens.cpp:inverse_the_greens", "apps/micromechanics/EVPFFT/src/evpal.cpp:evpal", "apps/micromechanics/EVPFFT/src/get_smacro.cpp:get_smacro", "apps/micromechanics/EVPFFT/src/step.cpp:step_vm_calc", "apps/micromechanics/EVPFFT/src/evpfft.cpp:evolve"]}
{"id": "C136", "title": "Crystal plasticity unit cells in the elements of a finite element run", "statement": "After the set-up every element whose material asks for the model has a unit cell of its own, made from the input file of its material (different materials, different files). After any calls, in any order among the elements, unit cell, stress and outputs of an element are what its own calls alone make of them, tensors are passed component by component, and nothing is written for other elements; each unit cell has received the deformation of the calls to its element but for what it still holds back. The set-up stops with its message exactly when an element with the model has a material that runs on the device; a call for an element without the model is refused; at the end every unit cell is deleted once. (Calls after the end work on deleted objects; a second set-up loses the first unit cells; with two stages of time integration a unit cell is deformed twice per cycle; unless built without output, all unit cells write over each other in the same files.)", "quantifier": "all numbers of elements, materials, sequences of calls and responses of unit cells", "why_tests_cant": "All interleavings of calls over any number of elements.", "anchors": ["apps/micromechanics/EVPFFT/src/Fierro-EVPFFT-Link/FierroEVPFFTLink.cpp:init_strength_state_vars", "apps/micromechanics/EVPFFT/src/Fierro-EVPFFT-Link/FierroEVPFFTLink.cpp:calc_stress", "apps/micromechanics/EVPFFT/src/Fierro-EVPFFT-Link/FierroEVPFFTLink.cpp:destroy", "apps/micromechanics/EVPFFT/src/main.cpp:solve", "apps/micromechanics/EVPFFT/src/output_file_manager.cpp:open_files"]}
{"id": "C137", "title": "A whole run of the hydrodynamics solver", "statement": "A run of the 3D hydrodynamics solver that ends is a number of time integration cycles, one after the other, from the given state with the boundary velocities applied: no cycle is lost or done twice and time is the start time plus the steps made; it ends after the requested number of cycles or at the final time. Each dump shows the state and the time after its cycle, the first dump is the initial state, and the last state is dumped if the final time is reached; every step keeps to the CFL condition of the state it starts from or is at most the minimum step. The mass errors printed at the end are zero, the energies printed are those of the first dump and the last state, and between fixed walls and without applied forces the energy change printed is zero but for the safeguard of 1e-20 in the division by the mass. Several such solvers run one after the other, each from the state the one before has left; if each reaches the end of its window, the time simulated by all together is the end of the last window within one tolerance each, and energy is kept over the whole chain. (Prescribed velocities are those of the start of the cycle, so a dump shows them late; with zero stages nothing moves while time runs; a solver that runs out of cycles leaves a gap, since the next one starts its clock at the end of the window.)", "quantifier": "all meshes, material models, initial states, boundary sets, options and sequences of windows", "why_tests_cant": "All run lengths, states and sequences of time steps.", "anchors": ["apps/multiphysics/src/Solvers/SGH_solver_3D/src/sgh_execute.cpp:SGH3D::execute", "apps/multiphysics/src/Solvers/SGH_solver_3D/src/time_integration.cpp:get_timestep", "apps/multiphysics/src/driver.cpp:Driver::execute", "apps/multiphysics/src/driver.cpp:setup_solver_vars"]}
{"id": "C138", "title": "A whole run of the axisymmetric hydrodynamics solver", "statement": "A run of the axisymmetric (r-z) hydrodynamics solver that ends is a number of time integration cycles, one after the other, from the given state with the boundary velocities applied and with the nodal masses of that state; no cycle is lost or done twice, time is the start time plus the steps made, it ends after the requested number of cycles or at the final time, each dump shows the state and time after its cycle, and every step keeps to the CFL condition over the four nodes or is at most the minimum step. No dump shows a node at negative radius. The mass errors printed are zero, the energies printed are those of the first dump and the last state, and between fixed walls the energy change printed is exactly zero and axial momentum is kept, as long as nodes stay off the axis (or on it). Under the same condition the next solver finds the nodal masses the first one started with, and energy is kept over a whole chain of solvers. (A node that moves onto the axis keeps its mass in the running solver but loses it, and its energy, at the hand-over to the next one, with no error printed.)", "quantifier": "all meshes, material models, initial states, boundary sets, options and sequences of windows", "why_tests_cant": "All run lengths, states and sequences of time steps and solvers.", "anchors": ["apps/multiphysics/src/Solvers/SGH_solver_rz/src/sgh_execute_rz.cpp:SGHRZ::execute", "apps/multiphysics/src/Solvers/SGH_solver_rz/src/sgh_execute_rz.cpp:calc_node_extensive_mass_rz", "apps/multiphysics/src/Solvers/SGH_solver_rz/src/time_integration_rz.cpp:get_timestep_rz", "apps/multiphysics/src/driver.cpp:Driver::execute"]}
{"id": "C139", "title": "A whole run of the level set solver", "statement": "A run of the level set solver on a hexahedral mesh that ends is a number of time integration cycles, one after the other, from the given level set; no cycle is lost or done twice, time is the start time plus the steps made, it ends after the requested number of cycles or at the final time, each dump shows the level set and time after its cycle, and in every cycle a front with non-negative velocities moves at most the CFL number times the distance of any two nodes of an element, or the step is at most the minimum step. Every cycle advances time by a fixed amount, and with an evolving material the final time is not passed by more than the tolerance. With dumps by time only, the k-th dump comes at k intervals after the start plus at most k times the tolerances, also for a solver that does not start at time zero. Elements outside the evolving materials keep their value in every dump. In the others the level set changes no faster than the bound (|F|+1)B+1 given by normal velocity F and nodal Hamiltonians up to B over the whole run, and without normal velocity it never changes sign if steps are small.", "quantifier": "all meshes, materials, boundary sets, initial level sets and options", "why_tests_cant": "All run lengths, fields and sequences of time steps.", "anchors": ["apps/multiphysics/src/Solvers/level_set_solver/src/level_set_execute.cpp:LevelSet::execute", "apps/multiphysics/src/Solvers/level_set_solver/src/time_integration.cpp:get_timestep", "apps/multiphysics/src/Solvers/level_set_solver/src/solver_functions.cpp:update_level_set"]}
{"id": "C140", "title": "Hydrodynamics and level set solvers in one simulation", "statement": "An input with hydrodynamics and level set solvers in any order runs one after the other, each in its time window and each on what the ones before have left; it is defined exactly when the dump interval of each kind in use is not zero or it makes no cycles. Level set solvers do not disturb the hydrodynamics: every hydrodynamics solver gives the result it gives in the simulation without them, and total energy is kept over the whole chain. Hydrodynamics solvers do not touch the level set; it changes in elements of evolving materials only, on the mesh as deformed so far. With enough cycles every solver ends at the end of its window within the tolerance, where the next one starts.", "quantifier": "all sequences of solvers and windows, meshes, materials, states and options", "why_tests_cant": "All lengths and orders of the chain, all states.", "anchors": ["apps/multiphysics/src/driver.cpp:Driver::execute", "apps/multiphysics/src/driver.cpp:Driver::setup_solver_vars", "apps/multiphysics/src/Solvers/level_set_solver/src/level_set_execute.cpp:LevelSet::execute", "apps/multiphysics/src/Solvers/SGH_solver_3D/src/sgh_execute.cpp:SGH3D::execute"]}
{"id": "C141", "title": "Command line of the crystal plasticity codes", "statement": "A command line of the crystal plasticity codes is accepted exactly if it is made of options with values in the forms `-fvalue`, `-f value`, `--infile=value`, `--infile value` (long names may be shortened while only one option fits), mixed with words that are no options and possibly cut off by `--`; if its numbers fit the machine; and if the values given last contain an input file and, for type 1, the three dataset paths and a unit. The run gets exactly the values given last. Every other command line, and every request for help, prints the help text and stops with exit code 1; only a number outside the range of int is undefined. A command line has one reading only; words that are no options are ignored. The types 0, 1, 2 choose the ASCII, HDF5 and lattice readers; any other type is accepted and stops the run only when the microstructure is read. It does not hold that a value is checked to be of the right kind: `-u radian` means degrees, `-m hdf5` reads an ASCII file, and an option whose value is left out takes the next option as its value.", "quantifier": "all lists of words", "why_tests_cant": "All command lines of any length in any order and mixture of forms.", "anchors": ["apps/micromechanics/EVPFFT/src/command_line_args.cpp:CommandLineArgs::parse_command_line", "apps/micromechanics/EVPFFT/src/command_line_args.cpp:CommandLineArgs::check_cmd_args", "apps/micromechanics/EVPFFT/src/data_grain.cpp:EVPFFT::data_grain"]}
{"id": "C142", "title": "A whole hydrodynamics run with contact and cohesive zones", "statement": "A run of the 3D hydrodynamics solver with contact, preload or a cohesive crack is a number of cycles one after the other, from the given state without contact forces and with an undamaged crack; clock, dumps, step sizes and end of the run are as without them, and with both switched off it is the run of the plain solver. Every cycle is one step of Newton's law under the forces its last stage finds: elements, tractions, crack and contact, and the crack takes one step of the cohesive law. Without tractions, momentum is the same at the end as at the start, whatever pairs are found and however far the contact iteration gets. Between fixed walls the printed energy change is exactly the work of tractions, crack and contact forces along the mean velocities. Damage of every crack pair stays between zero and one and never decreases during the run. In all stages but the last the nodes are pushed by the contact forces of the previous cycle. It does not hold that the printed energy is conserved (the energy of the crack is in no tally), nor that a second solver continues with the damage of the first: every run starts with an undamaged crack.", "quantifier": "all meshes, states, materials, contact pairs, increments, cohesive laws, numbers of stages and cycles", "why_tests_cant": "All run lengths, contact histories and openings; the forces act in a loop over cycles whose number is data dependent.", "anchors": ["apps/multiphysics/src/Solvers/SGH_solver_3D/src/sgh_execute.cpp:SGH3D::execute", "apps/multiphysics/src/Solvers/SGH_solver_3D/src/momentum.cpp:update_velocity", "apps/multiphysics/src/Solvers/SGH_solver_3D/src/boundary.cpp:boundary_contact_force", "apps/multiphysics/src/Solvers/SGH_solver_3D/src/fracture.cpp:compute_cohesive_zone_nodal_forces"]}
{"id": "C143", "title": "Mechanics and heat conduction in one simulation", "statement": "A simulation that lists hydrodynamics, level set and thermal solvers in any order runs each in its window on what the ones before have left, and on nothing else. A thermal solver sees the current nodes, the densities and erosion flags of the hydrodynamics solver and the temperatures of the thermal solvers before it; it leaves nodes, velocities, masses, internal energies, pressures, stresses and volume fractions as they are, and only sets erosion flags (material at 900 or more when it starts is eroded for all later solvers). The other solvers leave all temperatures. Without moving source and melting the hydrodynamics solvers give exactly the clock, dumps, tallies and states they give without the thermal solvers, and mechanical energy is conserved under the same conditions. An insulated body without source keeps its heat content whatever runs in between. With enough cycles every solver ends at the end of its window. It does not hold that heating is harmless to the mechanics: a hot body under pressure loses all its forces after a thermal solver, and with a moving source the density becomes the tabulated one, so that mass is no longer density times volume.", "quantifier": "all sequences of solvers, meshes, states, materials, boundary conditions and options", "why_tests_cant": "All lengths and orders of the chain, all states.", "anchors": ["apps/multiphysics/src/driver.cpp:Driver::execute", "apps/multiphysics/src/Solvers/SGTM_solver_3D/src/sgtm_execute.cpp:SGTM3D::execute", "apps/multiphysics/src/Solvers/SGTM_solver_3D/src/heat_flux.cpp:SGTM3D::get_heat_flux", "apps/multiphysics/src/Solvers/SGTM_solver_3D/src/properties.cpp:SGTM3D::update_properties", "apps/multiphysics/src/Solvers/SGH_solver_3D/src/sgh_execute.cpp:SGH3D::execute"]}
{"id": "C144", "title": "Shape functions of the reference element", "statement": "The shape functions of a reference element with any number of distinct nodes along each axis are one at their own node and zero at the others; at every point of space they add up to one and their gradients to zero; every polynomial of degree at most the order in each coordinate is reproduced from its nodal values, and its gradient by the gradients of the shape functions. The derivative the code computes is the derivative of the shape function at every point, including the nodes. Every entry of the arrays is written and nothing else.", "quantifier": "all numbers of nodes, all distinct positions, all points, all polynomial fields", "why_tests_cant": "A test checks a few orders and a few points; the statements range over all of them.", "anchors": ["apps/multiphysics/src/common/include/ref_elem.hpp:get_basis", "apps/multiphysics/src/common/include/ref_elem.hpp:lagrange_basis_1D", "apps/multiphysics/src/common/include/ref_elem.hpp:lagrange_derivative_1D", "apps/multiphysics/src/common/include/ref_elem.hpp:partial_xi_basis", "apps/multiphysics/src/common/include/ref_elem.hpp:partial_eta_basis", "apps/multiphysics/src/common/include/ref_elem.hpp:partial_mu_basis"]}
{"id": "C145", "title": "Quadrature rules", "statement": "With n Gauss-Legendre points (1 to 19) every polynomial of degree below 2n is integrated over [-1,1] up to 1e-29 times the sum of the sizes of its coefficients; with n Gauss-Lobatto points (2 to 20, except 12) every polynomial of degree at most 2n-3 up to 1e-23. The points are increasing, symmetric, inside the interval (Lobatto: from -1 to 1), the weights positive and symmetric. Two of the twelve Lobatto points have a wrong fourteenth digit: this rule reaches 1e-14 only.", "quantifier": "all rules in the tables and all polynomials up to the degree of the rule", "why_tests_cant": "The rules are finite but the polynomials are not; a test samples a few of them.", "anchors": ["apps/multiphysics/src/common/include/ref_quadrature.hpp:get_lobatto_nodes_1D", "apps/multiphysics/src/common/include/ref_quadrature.hpp:get_lobatto_weights_1D", "apps/multiphysics/src/common/include/ref_quadrature.hpp:get_legendre_nodes_1D", "apps/multiphysics/src/common/include/ref_quadrature.hpp:get_legendre_weights_1D"]}
{"id": "C146", "title": "The reference element of an order", "statement": "The reference element of order one to nine has its nodes in increasing order from -1 to 1 along each axis; the stored kinematic and thermodynamic shape functions add up to one and the stored gradients to zero at every Lobatto and every Gauss point; nodal values of a polynomial of degree at most the order give the field and its gradient at every Gauss point. The map from nodes to Lobatto points gives, for every order from one on, the point at the position of the node, where the stored shape functions are one for this node and zero for the others. The weighted sum over the Gauss points of a product of polynomials is the product of the sums along the axes, each within 1e-29 of the integral for degrees below four times the order. Order zero writes past the end of an array; from order ten on all nodes coincide because the tables end, and the shape functions divide by zero.", "quantifier": "all orders, all points of the rules, all polynomial fields", "why_tests_cant": "All orders and all fields, and the limits of the range of orders.", "anchors": ["apps/multiphysics/src/common/include/ref_elem.hpp:init", "apps/multiphysics/src/common/include/ref_elem.hpp:dof_lobatto_map", "apps/multiphysics/src/common/include/ref_elem.hpp:lobatto_rid"]}
{"id": "C147", "title": "Loops over YAML nodes and missing blocks", "statement": "A loop from Begin() to End() over a block or a list of the input deck visits every entry once, in order, and ends. Over a text or a node without content it never ends, because Begin() and End() of such a node compare unequal. So the validation of a block gives its keys, or the exception for a missing required key, exactly if the node is a block or a list; if the block is missing from the deck (mesh_options, dynamic_options, output_options are taken without a check) or is a text, the code neither reports this nor stops. The search for an optional block tells whether the deck has it.", "quantifier": "all YAML trees, block names, lists of required keys and numbers of passes", "why_tests_cant": "A test cannot show that a loop never ends, nor that it ends for every tree.", "anchors": ["apps/multiphysics/src/input/Yaml.cpp:Iterator", "apps/multiphysics/src/input/Yaml.cpp:Node::Begin", "apps/multiphysics/src/input/Yaml.cpp:Node::End", "apps/multiphysics/src/input/parse_tools.cpp:validate_inputs", "apps/multiphysics/src/input/parse_material_inputs.cpp:parse_multimaterial_options"]}
{"id": "C148", "title": "Boxes, cylinders and files of the previous mesh builder", "statement": "A box is built exactly from an input with two or three values per list, equal in number, and an order of at least one. The local point (u,v,w) of element (i,j,k) is an existing point at origin + index times spacing; two elements share the points of their common face; the points are numbered without gaps. A cylinder is built exactly if in addition the angle is not negative and its value in radians is at most 360, so 20000 degrees pass. Its local points lie on the circle of their radius at their angle, also where a full circle closes, but around an axis through twice the origin; with inner radius zero different points coincide. The first file of a program puts the points of hexahedra of any order where the VTK format wants them; every later file of the same program takes all of them from outside the row of the element. Linear elements come back from a file as written; files of hexahedra of order two or more cannot be read: with the exact root the order is one too large and entries behind the row are assigned, with a root rounded below the table is applied in the wrong direction. EnSight files are written exactly for linear meshes in two or three dimensions whose name has at most 89 bytes; they give all points coordinate by coordinate and the corners of every element, numbered from one and in order around its faces; a longer name is stored behind the end of an array.", "quantifier": "all inputs, orders, elements and local points, all numbers of files written", "why_tests_cant": "All sizes and orders, and the history of files written by one program.", "anchors": ["legacy/Fierro_V0/src/Mesh-Builder/src/MeshBuilder.cpp:build_mesh", "legacy/Fierro_V0/src/Mesh-Builder/include/MeshIO.h:reorder_columns", "legacy/Fierro_V0/src/Mesh-Builder/include/VtkIO.h:ijk_to_lagrange_hex", "legacy/Fierro_V0/src/Mesh-Builder/src/VtkIO.cpp:write_geometry", "legacy/Fierro_V0/src/Mesh-Builder/src/VtkIO.cpp:read_vtk", "legacy/Fierro_V0/src/Mesh-Builder/src/EnsightIO.cpp:write_ensight"]}
{"id": "C149", "title": "Voxels of a surface mesh", "statement": "The rays of the result go through the centres of equal voxels. A facet counts as crossed by a ray exactly if the ray meets its inside and the facet is not seen edge on, also where the test divides by zero; the height of the crossing is that of the facet there, and the preselection by extents loses nothing. A ray through no vertex with an even number of crossings at different heights marks exactly the voxels with an odd number of crossings below, and those within a ten-thousandth of their own coordinate of a crossing. The repair of other rays clears nothing, touches no other rays and needs four marked neighbours of eight. A voxel is filled if two of the three directions marked it, and the file lists the voxels with x fastest. The extent of the mesh does not depend on the split among threads, but is the largest coordinate that is strictly larger than the others of its facet: the face of a tetrahedron at the end is not seen. A ray through an edge marks nothing and is not repaired (the centre of a cube stays empty); equal heights are all dropped, so a ray through a tip marks nothing; a flag and two extremes are read before they are set; the closeness test depends on where the part lies; the repair depends on the order of the rays.", "quantifier": "all meshes of facets, all rays, all splits among threads, all contents of uninitialised memory, all numbers of voxels", "why_tests_cant": "All meshes and rays, including those through edges and vertices, and all schedules.", "anchors": ["legacy/Fierro_V0/src/Voxelizer/src/stl-to-voxelvtk.cpp:create_voxel_vtk", "legacy/Fierro_V0/src/Voxelizer/src/stl-to-voxelvtk.cpp:main_function"]}
{"id": "C150", "title": "Loading structures from YAML", "statement": "Loading a structure sets every field that the input names from the entry of that name and leaves the others as they were; it fails only if a required field is missing or if a field cannot be loaded, and the error says where. What is written comes back when loaded: truth values, names of enumerations, numbers and strings that print faithfully, optional values, lists, sets, arrays of the right length, and structures of these, with base classes treated as if their fields came first. Post-processing runs once, when all fields are loaded: derivation, then check. The strict functions refuse input with an entry that is no field of its structure, at any depth and in lists; and otherwise give the object that the plain functions give; but an unknown name with nothing behind it passes, a text in place of a structure is dropped without a message, and a list with an element twice cannot be loaded into a set. Words between brackets are taken as they stand, so a blank behind a comma belongs to the next word, and empty brackets are a list of one empty text. Two classes cannot be registered for one type, and a pointer is loaded by the class of the type that the input gives.", "quantifier": "all structures with any number of fields of any such types nested to any depth, all input trees, all values", "why_tests_cant": "All structures, types and inputs, nested to any depth.", "anchors": ["legacy/Fierro_V0/src/Yaml-Serializable/include/serializable-struct.h:IMPL_YAML_SERIALIZABLE_FOR", "legacy/Fierro_V0/src/Yaml-Serializable/include/yaml-serializable.h:from_strict", "legacy/Fierro_V0/src/Yaml-Serializable/include/configuration-validation.h:validate_subset", "legacy/Fierro_V0/src/Yaml-Serializable/include/yaml-serializable-containers.h:Impl", "legacy/Fierro_V0/src/Yaml-Serializable/include/type-discrimination.h:TypeDiscriminated"]}
{"id": "C151", "title": "Reading a surface from a binary STL file", "statement": "A binary STL file is read back facet by facet, each number in its place, whatever its heading, its attributes and the bytes after the last facet are; the attributes of the last facet may be missing. The number of facets is determined exactly for files of at least 84 bytes. A file that ends too early is not refused: each missing facet gets the bytes that are left and then those of the last complete facet. A file that cannot be opened and a text STL file are not refused either.", "quantifier": "all files, all headings, all numbers of facets below 2^32, all places where a file may end", "why_tests_cant": "All contents and lengths of files.", "anchors": ["legacy/Fierro_V0/src/Voxelizer/src/stl-to-voxelvtk.cpp:binary_stl_reader"]}
{"id": "C152", "title": "Checkpoints of the forward solve for the adjoint solve", "statement": "With a limit of at least one checkpoint the backward sweep after a forward solve that reached the final time uses in every cycle exactly the states before and after it, as if all states had been kept. The forward solve and the sweep never keep more than the first state and as many others as the limit, each in a buffer of its own with the state of its step. A checkpoint other than the last is given up only if its level is below that of the last raised one. After a forward solve that was ended by the limit of cycles the sweep has a further cycle at its beginning that uses the last state twice. A limit of zero is accepted and makes the first cycle use an iterator that was never assigned.", "quantifier": "all solvers (functions of the cycle and the state), all numbers of cycles, all limits", "why_tests_cant": "All histories of cycles, limits and replacements of checkpoints.", "anchors": ["legacy/Fierro_V0/src/Parallel-Solvers/Parallel-Explicit/SGH_Solver/src/FEA_Module_SGH.cpp:sgh_solve", "legacy/Fierro_V0/src/Parallel-Solvers/Parallel-Explicit/SGH_Solver/src/sgh_optimization.cpp:compute_topology_optimization_adjoint_full", "legacy/Fierro_V0/src/Parallel-Solvers/Parallel-Explicit/SGH_Solver/src/sgh_optimization.cpp:checkpoint_solve", "legacy/Fierro_V0/src/Parallel-Solvers/dynamic_checkpoint.h:Dynamic_Checkpoint"]}
{"id": "C153", "title": "Boundary patches of the previous version's solver", "statement": "Two patches are the same to the solver exactly if they have the same nodes in whatever order, and the order its sets and maps use is irreflexive and transitive. The boundary patches of a process are exactly the element surfaces whose nodes no other surface of its elements has and of which at least one node is its own, in the order of the elements and surfaces. The number of a boundary patch is found from its nodes in whatever order. Nodes that are those of no boundary patch are not refused when the surfaces of a boundary condition are read: they get the number of the first boundary patch.", "quantifier": "all lists of surfaces with any numbers of nodes and repetitions, all distributions of nodes over processes", "why_tests_cant": "All meshes, all orders of elements and of the nodes of a surface.", "anchors": ["legacy/Fierro_V0/src/Parallel-Solvers/Solver.cpp:Get_Boundary_Patches", "legacy/Fierro_V0/src/Parallel-Solvers/node_combination.cpp:operator<", "legacy/Fierro_V0/src/Parallel-Solvers/node_combination.h:operator=="]}
{"id": "C154", "title": "Volumes and regions of the previous version's input", "statement": "A box contains exactly the points between its bounds, a cylinder those whose distance from the third axis is between its radii and a sphere those whose distance from its origin is. A voxelized surface contains a point of one of its voxels exactly if that voxel is filled and no point outside its block; a point on the last face of the block gets the value of a voxel of the next row. A voxel file gives a point of the upper half of a voxel the value of that voxel and a point of the lower half the value of the voxel before it. A region is accepted exactly if one of energy and specific energy is given and its density is positive; a given energy is specific energy times density times volume, and deriving again changes nothing. An energy given for a volume without bounds or made of voxels fails an assertion. A negative inner radius is accepted, and a sphere with it spreads its energy over more than the ball it contains.", "quantifier": "all volumes, all points, all regions", "why_tests_cant": "All real coordinates and sizes, including those on the faces of voxels.", "anchors": ["legacy/Fierro_V0/src/Parallel-Solvers/Simulation_Parameters/Geometry.h:Volume", "legacy/Fierro_V0/src/Parallel-Solvers/Simulation_Parameters/Region.h:Region"]}
{"id": "C155", "title": "Approximation by moving asymptotes in the previous version's optimization", "statement": "Every update of the approximation but a temporary one depends only on the point and puts the asymptotes at the given shifts from it. Its gradient is the derivative of its value along every direction, and its product with the Hessian the derivative of its gradient, at every point between the asymptotes; at the point of the update the gradient is that of the objective. The approximation is convex between the asymptotes. The product with the inverse of the Hessian is undone by the product with the Hessian where it is a number, which it is not exactly where the gradient at the point of the update is zero. The value at the point of the update is not that of the objective: each entry of the gradient adds its absolute value times the distance of its asymptote.", "quantifier": "all objectives, all shifts, all points and directions, all numbers of design variables", "why_tests_cant": "All real points and gradients; derivatives are limits.", "anchors": ["legacy/Fierro_V0/src/Parallel-Solvers/Optimization_Modules/MMA_Objective.hpp:ObjectiveMMA"]}
{"id": "C156", "title": "Optimization modules of the previous version", "statement": "An input for an optimization is accepted exactly if the process has its objective, the objective, the terms of several objectives and every constraint find a module of the physics they need among those of the user, and the constraints on moments of inertia and centres of mass name a component. The modules are then one for the objective, one for each term and one for each constraint in this order, the constraints with their values; each that needs physics belongs to the first module of a type it needs and is in the list of that module and of no other. A kinetic energy objective of a topology takes the first hydrodynamics module and only without one the first of dynamic elasticity. The module of several objectives needs no physics and is still recorded as belonging to the first module. A constraint on the centre of mass accepts components of a tensor, such as xy as the component three of a vector.", "quantifier": "all lists of physics modules, all processes, objectives, terms and constraints", "why_tests_cant": "All combinations of lists of any length.", "anchors": ["legacy/Fierro_V0/src/Parallel-Solvers/Simulation_Parameters/Simulation_Parameters.h:Simulation_Parameters", "legacy/Fierro_V0/src/Parallel-Solvers/Simulation_Parameters/Optimization_Options.h:Optimization_Options"]}
{"id": "C157", "title": "Patches of a boundary condition in the previous version", "statement": "In three dimensions the patches tagged for a plane are exactly those of which all nodes are on it and inside the limits of the other two coordinates, up to the tolerance, in order and each once; surfaces that are not planes are refused by the elastic module. Without limits the tagged patches of a mesh read with a scale are those on the plane of the input, up to the tolerance over the scale. The limits are not scaled as the position and the mesh are, so that a scale can move a patch out of them. The tags that the comments give to cylinders and spheres tag nothing, and limits in two dimensions make a node on the plane read a third coordinate.", "quantifier": "all meshes, planes, limits, tolerances, scales and tags", "why_tests_cant": "All real coordinates and scales, all lists of patches with any numbers of nodes.", "anchors": ["legacy/Fierro_V0/src/Parallel-Solvers/FEA_Module.cpp:tag_boundaries", "legacy/Fierro_V0/src/Parallel-Solvers/FEA_Module.cpp:check_boundary", "legacy/Fierro_V0/src/Parallel-Solvers/Implicit-Lagrange/FEA_Physics_Modules/FEA_Module_Elasticity.cpp:generate_bcs", "legacy/Fierro_V0/src/Parallel-Solvers/Simulation_Parameters/FEA_Module/Boundary_Conditions.h:Surface"]}
