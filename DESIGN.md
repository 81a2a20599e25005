# DESIGN — a Lean 4 model of GEOUNED

## Method

* Lean 4.33.0, Lake project in `lean/`, modules under `lean/Verif/`, all imported by `lean/Verif.lean`.
* The Python code was read as text and modelled function by function as small executable Lean functions, branch by branch; every definition cites file and
  lines of `/repo` and says where it simplifies. A mutating method returns the new value; where sharing of objects matters (C32, C43, C58) there is an
  explicit heap. Python exceptions are values (`Except`, `Option`). Recursion depth and unbounded loops are a `Nat` fuel: running out of fuel is an outcome
  of its own (`RecursionError`, or "the loop does not end"), and the theorems hold for every fuel or state the fuel that suffices. The iteration order of
  Python sets is a parameter (any order) of the theorems.
* Specifications (what an expression means at a point, what a box is, what a card describes, ...) are in separate small `*Spec.lean` files.
  Property theorems are in `*Props.lean`, with `example`s beside them that meet the hypotheses in a concrete case; helper lemmas are in `*Lemmas.lean`.
* Where the code violates a property, the full statement is kept as `def Cnn_statement`, its negation is proved from a witness (`Cnn_..._violated`; the
  witness is run through the model by the kernel), and the largest part that was found to hold is proved as `Cnn_..._partial`.
* Theorems are tested against wrong programs (`seeded/LOG.jsonl`): the model is edited in a scratch copy as a realistic bug would change the program, and the
  theorems of the property must fail.

## Trusted base

* Lean's kernel. No axioms were added; every theorem depends at most on `propext`, `Classical.choice` and `Quot.sound` (checked by `vcheck`). No compiled
  evaluation is used in proofs.
* The reading of the Python source: that the Lean definitions say what the cited lines do.
* Real numbers in place of floating point wherever the model computes with coordinates (C24, C25, C36-C39, C43, C46-C51). Theorems about tolerances are
  about the comparison as written, in exact arithmetic.
* The CAD kernel (FreeCAD / OpenCascade) is outside: splitting of solids, distances, `isInside`, bounding boxes, intersections of shapes are
  parameters of the models; what a theorem needs of their answers is a hypothesis in its statement.

## Properties: what is modelled and how it is proved

| id | property | model | proof | status | theorems |
|--|--|--|--|--|--|
| C01 | append is conjunction/disjunction | `BoolSequence` trees (AND/OR, int or sub-sequence elements, stored level), methods as functions | meaning under a side assignment; cases on operators, induction on the item list | proved | `Geouned.C01_append_and`, `Geouned.C01_append_or`, `Geouned.C01_append_bool_and`, `Geouned.C01_append_bool_or`, `Geouned.C01_append_bool_absorbing`, `Geouned.C01_append_bool_violated` |
| C02 | clean keeps the region | same | induction on fuel and tree | proved | `Geouned.C02_clean`, `Geouned.C02_clean_self` |
| C03 | group_single keeps the region | same | induction on fuel and tree | proved | `Geouned.C03_group_single` |
| C04 | check only reports real constants | same | induction on fuel and tree | proved | `Geouned.C04_check`, `Geouned.C04_check_returns`, `Geouned.C04_check_flat` |
| C05 | substitute by a boolean is restriction | same | induction; semantic restriction lemma | proved | `Geouned.C05_substitute_bool`, `Geouned.C05_substitute_bool_any` |
| C06 | substitute removes the variable | same | induction, support | proved | `Geouned.C06_substitute_removes` |
| C07 | substitute by a surface is renaming | same | induction | proved | `Geouned.C07_substitute_surface` |
| C08 | join_operators keeps the region | same | induction over the list of elements | proved | `Geouned.C08_join_operators` |
| C09 | get_complementary is the complement | same | De Morgan by induction | proved | `Geouned.C09_get_complementary`, `Geouned.C09_complement_of_bool_raises` |
| C10 | evaluate is sound for partial knowledge | `evaluate` with the dictionary as association list | induction over the dictionary using C05 | proved | `Geouned.C10_evaluate`, `Geouned.C10_evaluate_returns` |
| C11 | factorize keeps the region | `factorize`, `update`, `get_sub_sequence` with the overwrite flagged | invariant of the loop; witness for the defect | partial | `Geouned.C11_factorize_violated`, `Geouned.C11_factorize_partial`, `Geouned.C11_factorize_flat_partial` |
| C12 | simplify without table keeps the region | `simplify` with any iteration order | induction on rounds, C05, C10, C11; witness | partial | `Geouned.C12_simplify_violated`, `Geouned.C12_simplify_partial`, `Geouned.C12_simplify_mixed_raises` |
| C13 | simplify with a constraint table keeps the region inside the box | `simplify` with a constraint table | soundness of the table at the point; witness | partial | `Geouned.C13_simplify_violated`, `Geouned.C13_simplify_partial`, `Geouned.C13_simplify_table_partial` |
| C14 | get_surfaces_numbers is the support | `get_surfaces_numbers` | induction; semantic independence of other surfaces | proved | `Geouned.C14_surfaces_exact`, `Geouned.C14_support` |
| C15 | insert_in_sequence adds an ancillary surface everywhere | `substitute_integer_element` | structural induction | proved | `Geouned.C15_insert_and`, `Geouned.C15_insert_or` |
| C16 | parsing an expression string means what MCNP syntax means | tokens; `outer_terms`, `redundant`, `set_def` | grammar as specification, induction over derivations; unambiguity | proved | `Geouned.Text.C16_parse`, `Geouned.Text.C16_unambiguous` |
| C17 | written cell definitions read back as the same region | writers at token and character level | induction over trees; round trip through C16; wrapped lines through C34 | partial | `Geouned.Text.C17_chars_unambiguous`, `Geouned.Text.C17_number`, `Geouned.Text.C17_chars_write`, `Geouned.Text.C17_cell_card`, `Geouned.Text.C17_write_mcnp`, `Geouned.Text.C17_cell_text`, `Geouned.Text.C17_write_xml`, `Geouned.Text.C17_write_py`, `Geouned.Text.C17_round_trip`, `Geouned.Text.C17_bare_boolean_violated`, `Geouned.Text.C17_bare_boolean_raises`, `Geouned.Text.C17_inner_boolean_raises`, `Geouned.Text.C17_definition` |
| C18 | removing redundant parentheses keeps the region | `remove_redundant` | induction over derivations | proved | `Geouned.Text.C18_remove_redundant`, `Geouned.Text.C18_iff`, `Geouned.Text.C18_symbols` |
| C19 | constraint table transposition | pair entries | cases | proved | `Geouned.C19_transpose`, `Geouned.C19_transpose_diag_violated` |
| C20 | constraint sets only state facts true in the box | `get_dependence`, `get_constraint_set` | cases on entries, induction over the table | partial | `Geouned.C20_constraint_set_violated`, `Geouned.C20_constraint_set_partial`, `Geouned.C20_constraint_set_returns`, `Geouned.C20_entry_complete_partial` |
| C21 | filling the table from diagonals is sound | `fill_missing_elements` | induction | proved | `Geouned.C21_combine_diag`, `Geouned.C21_fill_missing` |
| C22 | solid_in_box is sound | `solid_in_box` | C10, C20 | partial | `Geouned.C22_solid_in_box_violated`, `Geouned.C22_solid_in_box_partial`, `Geouned.C22_solid_in_box_diag`, `Geouned.C22_solid_in_box_diag_returns` |
| C23 | remove_extra_surfaces keeps the region inside the box | `remove_extra_surfaces` | C10, C13 | partial | `Geouned.C23_remove_extra_violated`, `Geouned.C23_remove_extra_partial`, `Geouned.C23_remove_extra_corrected_partial` |
| C24 | box subdivision covers the box | `divide_box` over an ordered field | case analysis | proved | `Geouned.Box.C24_divide_box_covers`, `Geouned.Box.C24_divide_box_disjoint`, `Geouned.Box.C24_divide_box_centres` |
| C25 | void box split covers the box | `VoidBox.split` | case analysis | proved | `Geouned.Box.C25_split_covers`, `Geouned.Box.C25_split_none`, `Geouned.Box.C25_split_depth` |
| C26 | void cell is the box minus the solids | `get_void_complementary`, all modes | composition of C01, C09, C13, C23; witnesses | partial | `Geouned.C26_void_cell_lost_violated`, `Geouned.C26_void_cell_raises_violated`, `Geouned.C26_void_cell_none_violated`, `Geouned.C26_void_cell_partial`, `Geouned.C26_void_enclosure_violated` |
| C27 | void generation never drops a box | `get_void_def` loop | induction on rounds with the measure of boxes | partial | `Geouned.Void.C27_void_loop_violated`, `Geouned.Void.C27_void_loop_partial` |
| C28 | no-overlap option partitions the union | `no_overlapping_cell` | induction over the list of cells | partial | `Geouned.C28_no_overlap_violated`, `Geouned.C28_no_overlap_partial` |
| C29 | surface numbers are unique and consecutive | `SurfacesDict` as state machine | invariant over all histories | proved | `Geouned.Reg.C29_numbers_consecutive`, `Geouned.Reg.C29_numbers_distinct`, `Geouned.Reg.C29_add` |
| C30 | get_surface finds the registered surface | same | invariant; witness | partial | `Geouned.Reg.C30_get_surface_partial`, `Geouned.Reg.C30_get_surface_returns_partial`, `Geouned.Reg.C30_get_surface_after_add_partial`, `Geouned.Reg.C30_get_surface_violated` |
| C31 | all surfaces are written, in number order | `sorted_surfaces` | permutation and order | proved | `Geouned.Reg.C31_sorted_surfaces` |
| C32 | cell labels are unique and consecutive | numbering, `sort_enclosure`, on object identities | induction over the lists; witnesses | partial | `Geouned.Labels.C32_plain`, `Geouned.Labels.C32_sorted_partial`, `Geouned.Labels.C32_envelope_violated`, `Geouned.Labels.C32_duplicate_enclosure_violated`, `Geouned.Labels.C32_null_solid_violated` |
| C33 | plane sign normalisation keeps every cell | all writers one after the other on shared planes and cells | point-wise meaning; witnesses | partial | `Geouned.Signs.C33_no_three_points_partial`, `Geouned.Signs.C33_first_three_points_partial`, `Geouned.Signs.C33_second_export_violated`, `Geouned.Signs.C33_openmc_after_mcnp_violated`, `Geouned.Signs.C33_aligned_three_points_violated` |
| C34 | wrapped lines lose nothing and fit | `wrap_line`, `CardLine` on characters | loop invariant; non-termination witness for all fuels | proved | `Geouned.Wrap.C34_wrap_room`, `Geouned.Wrap.C34_wrap`, `Geouned.Wrap.C34_normalise`, `Geouned.Wrap.C34_too_long_never_ends`, `Geouned.Wrap.C34_card` |
| C35 | unsupported output formats are rejected before writing | `write_geometry` as a list of opened files | case analysis | proved | `Geouned.Export.C35_reject`, `Geouned.Export.C35_files` |
| C36 | quadric coefficients of a cylinder | `q_form_cyl` over the reals | `ring` | proved | `Geouned.Geom.C36_q_form_cyl`, `Geouned.Geom.C36_parallel_to_X_raises` |
| C37 | quadric coefficients of a cone | `q_form_cone` | `ring`, trigonometric identity | proved | `Geouned.Geom.C37_q_form_cone` |
| C38 | three-point planes | `points_to_coeffs` | `ring`, sign cases | proved | `Geouned.Geom.C38_convention_unique`, `Geouned.Geom.C38_points_to_coeffs`, `Geouned.Geom.C38_collinear_raises` |
| C39 | same-surface tests are symmetric | comparison tests with tolerances | inequalities; witnesses | partial | `Geouned.Geom.C39_sphere_cone_torus_partial`, `Geouned.Geom.C39_plane_partial`, `Geouned.Geom.C39_cylinder_partial`, `Geouned.Geom.C39_plane_violated`, `Geouned.Geom.C39_cylinder_violated`, `Geouned.Geom.C39_violated` |
| C40 | cell density is nominal density times dilution | material and dilution as state machine | induction over calls | proved | `Geouned.Density.C40_density`, `Geouned.Density.C40_never_set`, `Geouned.Density.C40_void_cells`, `Geouned.Density.C40_stale_attribute` |
| C41 | enclosure hierarchy checks | `check_enclosure`, `set_enclosure_levels` | loop invariant with depth in the parent graph | proved | `Geouned.Encl.C41_depth_unique`, `Geouned.Encl.C41_accept`, `Geouned.Encl.C41_levels`, `Geouned.Encl.C41_order`, `Geouned.Encl.C41_needs_check` |
| C42 | parallel-plane grouping is a permutation | `ParallelPlanes`, `sort_planes` | `List.Perm` by induction | proved | `Geouned.Planes.C42_permutation`, `Geouned.Planes.C42_groups` |
| C43 | reverse conversion: bounding-box algebra is sound | `myBox` on a heap of boxes | set reasoning; induction over the expression depth | proved | `Geouned.Box.C43_myBox_history`, `Geouned.Box.C43_add`, `Geouned.Box.C43_mult`, `Geouned.Box.C43_build_box_depth` |
| C44 | reverse conversion: cell range parsing | `getRangeData` on characters | induction; witness | partial | `Geouned.Range.C44_accept`, `Geouned.Range.C44_range_partial`, `Geouned.Range.C44_violated` |
| C45 | pair entries of the constraint table exclude only what does not occur | entries from sampled positions | cases; witness | partial | `Geouned.C45_pair_entry_sound`, `Geouned.C45_pair_entry_returns`, `Geouned.C45_pair_entry_stale_violated` |
| C46 | identified surfaces are the same surface | same-surface tests with tolerance 0 | vector algebra | partial | `Geouned.Geom.C46_same_plane`, `Geouned.Geom.C46_same_cylinder`, `Geouned.Geom.C46_same_sphere`, `Geouned.Geom.C46_same_torus`, `Geouned.Geom.C46_same_cone_partial`, `Geouned.Geom.C46_same_cone_violated` |
| C47 | MCNP and PHITS surface cards describe the surfaces | MCNP and PHITS surface cards | real geometry of each card as specification | partial | `Geouned.Geom.C47_surface_cards_partial`, `Geouned.Geom.C47_oblique_torus_violated` |
| C48 | OpenMC surface definitions describe the surfaces | OpenMC XML and Python | same | partial | `Geouned.Geom.C48_xml_cards_partial`, `Geouned.Geom.C48_py_cards_partial`, `Geouned.Geom.C48_oblique_torus_violated`, `Geouned.Geom.C48_py_torus_violated`, `Geouned.Geom.C48_py_violated` |
| C49 | Serpent surface cards describe the surfaces | Serpent | same | partial | `Geouned.Geom.C49_serpent_cards_partial`, `Geouned.Geom.C49_cone_violated`, `Geouned.Geom.C49_cylinder_violated`, `Geouned.Geom.C49_violated` |
| C50 | graveyard cells close the model | graveyard cells | real geometry | proved | `Geouned.Void.C50_sphere_holds_box`, `Geouned.Void.C50_graveyard` |
| C51 | the definition of a void box holds at the points of the box | box definition | real geometry | proved | `Geouned.Void.C51_box_definition` |
| C52 | solids and void cells fill the universe once | void generation from boxes to cells | composition of C25, C26, C27, C51, C59, C60 | partial | `Geouned.Void.C52_void_of_solids_partial`, `Geouned.Void.C52_void_fills_universe_partial`, `Geouned.Whole.C52_violated` |
| C53 | overlapping or doubly embedded enclosures are rejected | `check_enclosure` on geometry | witnesses | partial | `Geouned.Encl.C53_violated`, `Geouned.Encl.C53_never_rejects_violated` |
| C54 | void comments name the labels of the enclosed solids | comments of void cells | induction | partial | `Geouned.Labels.C54_plain_partial`, `Geouned.Labels.C54_violated` |
| C55 | the summary file lists cells under their labels | summary file | induction; witness | partial | `Geouned.Labels.C55_violated`, `Geouned.Labels.C55_summary_partial` |
| C56 | oblique cones keep one sheet | `process_cones`, `add_cone_plane` | point-wise meaning; witness | partial | `Geouned.Conv.C56_solids_from_faces`, `Geouned.Cones.C56_sheet_geometry`, `Geouned.Cones.C56_one_sheet_partial`, `Geouned.Cones.C56_no_overlap_violated` |
| C57 | long surface cards are wrapped without loss | `trim`, `cut_line` on characters | loop invariant; non-termination witness | partial | `Geouned.Wrap.C57_trim_partial`, `Geouned.Wrap.C57_violated`, `Geouned.Wrap.C57_hangs` |
| C58 | turning a surface after an insertion turns it everywhere | in-place insertion and sign change on a heap | simulation by the value model with multiplicity of places | partial | `Geouned.Alias.C58_change_sign_partial`, `Geouned.Alias.C58_insert_then_turn_partial`, `Geouned.Alias.C58_violated` |
| C59 | A void box keeps the solids that reach into it | `VoidBox.__init__`, `remove_extra_comp` | alignment invariant; witness | partial | `Geouned.Void.C59_void_box_violated`, `Geouned.Void.C59_void_box_partial`, `Geouned.Void.C59_void_box_returns` |
| C60 | The definition of a cell says what the faces of its solids say | `cellDef` | parsing (C16) of the text built, then meaning of C01, C09 | proved | `Geouned.Conv.C60_cell_definition`, `Geouned.Conv.C60_feeds_void_boxes` |
| C61 | Solids are considered in every enclosure they reach | `assignEnclosure`, `select_solids` | ancestors in the hierarchy (C41); witness | partial | `Geouned.Encl.C61_embedded_violated`, `Geouned.Encl.C61_assign_partial` |
| C62 | Void cells of enclosures are numbered in sequence and name their enclosure | `void_generation`, `update_void_list` | induction over the enclosures | proved | `Geouned.Encl.C62_void_numbered` |
| C63 | With enclosures, void cells and solids share out the universe | `void_generation` as a whole | C41, C61, C62; unique innermost enclosure; witness | partial | `Geouned.Encl.C63_embedded_violated`, `Geouned.Encl.C63_void_with_enclosures_partial` |
| C64 | Removing the complement operator keeps the region of a cell | `remove_hash`, `complementary` on tokens | induction on the grammar with `#`, and on the depth of mentions | partial | `Geouned.Rev.C64_complementary`, `Geouned.Rev.C64_remove_hash_partial`, `Geouned.Rev.C64_transformed_violated`, `Geouned.Rev.C64_transformed_kept_violated`, `Geouned.Rev.C64_cycle_raises` |
| C65 | The filters choose the cells the user asked for | `set_filters`, `selectCells` of both readers on the history of calls | state of the filters characterised by the last calls (induction on the history), then the nine branches | partial | `Geouned.Rev.C65_mcnp`, `Geouned.Rev.C65_xml_partial`, `Geouned.Rev.C65_xml_violated`, `Geouned.Rev.C65_xml_raises_violated`, `Geouned.Rev.C65_stale_list_violated` |
| C66 | Levels and nested universes of a file are found | `GetLevelStructure`, `getSubUniverses`, choice of universes in `GetFilteredCells` | the loop over levels is breadth-first search: induction on the rounds; induction on the rank of nested universes | partial | `Geouned.Rev.C66_levels`, `Geouned.Rev.C66_lonely`, `Geouned.Rev.C66_no_root`, `Geouned.Rev.C66_subuniverses`, `Geouned.Rev.C66_selection_partial`, `Geouned.Rev.C66_xml_partial`, `Geouned.Rev.C66_deep_violated`, `Geouned.Rev.C66_xml_violated` |
| C67 | Solids of nested universes are in their places | `BuildUniverseCells` with the shapes kept, `build_universe`, `build_container`; solids are sets of points, the CAD kernel a parameter | induction on the recursion and on the list of cells, with the invariant that universes not yet visited have no shape | partial | `Geouned.Rev.C67_cells_partial`, `Geouned.Rev.C67_universe_partial`, `Geouned.Rev.C67_reuse_violated`, `Geouned.Rev.C67_no_place_violated`, `Geouned.Rev.C67_depth_violated`, `Geouned.Rev.C67_container_violated` |
| C68 | Cells read from a file are what their cards say | cards as records with token texts, `Rev/Cards.lean`: `setExplicitCellDefinition`, `remove_hash`, `processSurfaces`, `substituteLikeCell`; specification `Rev/CardsSpec.lean` (`Resolves`, `InDeck`, `RightCells`) | loop invariants per stage: entries = resolution of LIKE; texts clean of # and equivalent (C64); numbers of surfaces dense, dictionary only grows; counterexamples by evaluation | partial | `Geouned.Rev.C68_read_partial`, `Geouned.Rev.C68_violated`, `Geouned.Rev.C68_universe_violated`, `Geouned.Rev.C68_filter_violated`, `Geouned.Rev.C68_zero_violated`, `Geouned.Rev.C68_fill_violated`, `Geouned.Rev.C68_order_violated` |
| C69 | Universes can be built repeatedly | the objects kept between builds (texts changed in place, cells replaced when nothing is filtered), the loop over the calls | induction over the calls with the invariant that every text is the one of the card or an equivalent one without #; renaming is then the identity; counterexamples by evaluation | partial | `Geouned.Rev.C69_builds_partial`, `Geouned.Rev.C69_violated`, `Geouned.Rev.C69_then_filter_violated`, `Geouned.Rev.C69_renamed_twice_violated`, `Geouned.Rev.C69_names_violated`, `Geouned.Rev.C69_trcl_violated` |
| C70 | The container cell is what its card says | GetCell: one card alone, renaming of its surfaces | the text without # is renamed to an equivalent one (as C68); counterexamples by evaluation | partial | `Geouned.Rev.C70_container_partial`, `Geouned.Rev.C70_violated`, `Geouned.Rev.C70_like_violated`, `Geouned.Rev.C70_trcl_violated` |
| C71 | Surface cards are read on the right sides | `RSurf/Model.lean`: `makeSurf`, `primLoop` (with the variables that outlive a pass), `surfaceSide`; specification `RSurf/Spec.lean` (`cardMeaning`) | per card: the computed side is the sign of the manual's equation (angles by arccos/arctan monotony); induction over the list; counterexamples by computation | partial | `Geouned.RSurf.C71_cards_read_partial`, `Geouned.RSurf.C71_two_point_cylinder_violated`, `Geouned.RSurf.C71_violated`, `Geouned.RSurf.C71_earlier_cylinder_violated`, `Geouned.RSurf.C71_same_height_violated`, `Geouned.RSurf.C71_point_on_axis_violated`, `Geouned.RSurf.C71_trc_apex_violated`, `Geouned.RSurf.C71_rec_facet_violated` |
| C72 | Transformations move surfaces rigidly | `RSurf/Model.lean`: `transform`, `originalAfter`, `readSurfaces` | a map that keeps distances keeps dot products, hence the computed number; induction over the file | partial | `Geouned.RSurf.C72_transformed_cards_partial`, `Geouned.RSurf.C72_plane_violated`, `Geouned.RSurf.C72_box_violated`, `Geouned.RSurf.C72_violated`, `Geouned.RSurf.C72_copy_partial`, `Geouned.RSurf.C72_copy_violated` |
| C73 | Transformation cards mean what the manual says | `RSurf/Model.lean`: `getTransMatrix`, `inlineMatrix`; specification `trMeaning` | case distinction over the forms, linear algebra by components | partial | `Geouned.RSurf.C73_tr_card_partial`, `Geouned.RSurf.C73_two_axes_violated`, `Geouned.RSurf.C73_minus_one_violated`, `Geouned.RSurf.C73_violated`, `Geouned.RSurf.C73_inline_partial`, `Geouned.RSurf.C73_inline_two_axes_violated` |
| C74 | Cards GQ and SQ keep their sides | `gq2params`, `sq2params`, `conicSurface`, `getGQAxis`, the five `get_*_parameters` and the scaling of GQ/SQ; `numpy.linalg.eigh` is an argument constrained by its contract (`RSurf/Quad.lean`) | uniqueness of eigenvalues, completeness of an orthonormal triple, then one sign computation per family; for the violated families an explicit point for every member of the family | partial | `Geouned.RSurf.C74_cylinder_partial`, `Geouned.RSurf.C74_hyperbolic_cylinder_partial`, `Geouned.RSurf.C74_right_cone_partial`, `Geouned.RSurf.C74_cone_violated`, `Geouned.RSurf.C74_sq`, `Geouned.RSurf.C74_hyperboloid_partial`, `Geouned.RSurf.C74_hyperboloid_violated`, `Geouned.RSurf.C74_ellipsoid_violated`, `Geouned.RSurf.C74_negated_cylinder_violated`, `Geouned.RSurf.C74_paraboloid_violated`, `Geouned.RSurf.C74_violated` |
| C75 | Surfaces of OpenMC files are read with their sides | `XmlInput.GetSurfaces`, `Get_primitive_surfaces` and `gq2cyl` of `XMLinput.py`; `eigh` is a function argument with its contract (`RSurf/Xml.lean`), shown to exist by the spectral theorem (`RSurf/QuadExists.lean`) | elements that are not quadrics reduce to the MCNP cards of C71; quadrics by sign computations in the eigenbasis; induction over the elements | partial | `Geouned.RSurf.C75_surfaces_partial`, `Geouned.RSurf.C75_cone_violated`, `Geouned.RSurf.C75_hyperboloid_violated`, `Geouned.RSurf.C75_narrow_cone_violated`, `Geouned.RSurf.C75_lost_violated`, `Geouned.RSurf.C75_scaled_cylinder_violated`, `Geouned.RSurf.C75_violated` |
| C76 | Surfaces written and read back are the same surfaces | composition of the writers of C47/C48 with the readers of C71, C74 and C75 (`RSurf/Round.lean`) | the quadric of an oblique cylinder or cone is brought to its principal axes by an explicit orthonormal base; then C47/C48 and C71/C74/C75; induction over the list | partial | `Geouned.RSurf.C76_round_trip_partial`, `Geouned.RSurf.C76_oblique_cone_violated`, `Geouned.RSurf.C76_violated` |
| C77 | The solid of a cell is the region of its definition (GEOReverse) | `BuildSolid`, `BuildDepth`, `BuildSolidParts`, `filterparts`, `joinBase`, `SplitSolid`, `getSubCell`, `build_BoundBox`, `makeBox`, `evaluate`, with the remembered sides of surfaces; slicing, fusing, boxes and inner points are the parameter `Kernel` with the assumptions `Right` (`Rev/SolidSpec.lean`, `Rev/Solid.lean`) | invariant of a part (its solid is on the remembered side of each remembered surface); induction over the surfaces that cut and over the recursion depth, with a frame condition for surfaces not used; witnesses with a kernel for finitely many points, proved right | partial | `Geouned.Rev.Solid.C77_flat_partial`, `Geouned.Rev.Solid.C77_nested_partial`, `Geouned.Rev.Solid.C77_join_violated`, `Geouned.Rev.Solid.C77_reversed_violated`, `Geouned.Rev.Solid.C77_violated` |
| C78 | The bounding box computed for a cell holds the cell | `isInside`, `get_box_orientation`, `plane_intersect` (with the lagging index `j`), `plane_boundary`, `line_boundary`, `sort_point`, `remove_close_points`, `remove_points`, `get_component_boundBox`, `get_boundBox` over any ordered field, exact plane intersections | linear programming: every linear function on a bounded polyhedron has its least value at a vertex (three moves along explicit directions); all vertices are listed (at most two faces are met by a line); merged points stay within 0.1 per axis; witnesses over ℚ evaluated by the kernel | partial | `Geouned.BB.C78_returns`, `Geouned.BB.C78_intersection_partial`, `Geouned.BB.C78_intersection_cut_partial`, `Geouned.BB.C78_union_partial`, `Geouned.BB.C78_outside_partial`, `Geouned.BB.C78_everywhere_partial`, `Geouned.BB.C78_nowhere_partial`, `Geouned.BB.C78_unbounded_violated`, `Geouned.BB.C78_foil_violated`, `Geouned.BB.C78_violated` |
| C79 | GEOReverse reads exactly the cards of an MCNP file | `get_cards`, `get_cards_from_input` (generator as the list of what it yields), `is_commented`, `is_fc_card`, `is_blankline`, `replace_tab`, `Card.get_input` on lists of characters (`Card/Model.lean`); specification of decks as a grammar (`Card/Spec.lean`) | the state of the loop (lines kept, comment lines kept) after each prefix of a block; induction over cards and continuation lines; tabs by induction over the column; witnesses evaluated by the kernel | partial | `Geouned.Card.C79_cards_partial`, `Geouned.Card.C79_lines`, `Geouned.Card.C79_blank_title`, `Geouned.Card.C79_ampersand_violated`, `Geouned.Card.C79_lone_c_violated`, `Geouned.Card.C79_newline_violated`, `Geouned.Card.C79_violated` |
| C80 | GEOReverse reads what a cell card says | `CellCardString` (constructor, comments, split into geometry and parameters, `TRCL`, `U`, `FILL`, `MAT`, name) with each regular expression as a backtracking-free matcher, and `Card.get_values` of a cell (`CellText/Model.lean`); grammar of cell cards and what they say (`CellText/Spec.lean`) | each matcher characterised on prefixes; where a key can match inside a card, by induction over the list of parameters; witnesses evaluated by the kernel | partial | `Geouned.CellText.C80_card_partial`, `Geouned.CellText.C80_density_violated`, `Geouned.CellText.C80_trcl_violated`, `Geouned.CellText.C80_noequals_violated`, `Geouned.CellText.C80_nonu_violated`, `Geouned.CellText.C80_minus_violated`, `Geouned.CellText.C80_fill_violated`, `Geouned.CellText.C80_cosy_violated`, `Geouned.CellText.C80_like_violated`, `Geouned.CellText.C80_line_violated`, `Geouned.CellText.C80_violated` |
| C81 | GEOReverse reads what surface cards and TR cards say | `_protect_nums`, `_split_surface`, `_split_data`, `_parse_tr`, `_get_int` on lists of characters, and the loops of `__getTransList__` and `GetSurfaces` over the cards of C79 (`SurfText/Model.lean`); words and cards as a grammar (`SurfText/Spec.lean`) | words are independent of lines and blanks; a repetition cannot reach into the first word; the number of a TR card is the first digit of the text, so the replacement keeps the words; induction over the cards of the deck | partial | `Geouned.SurfText.C81_cards_partial`, `Geouned.SurfText.C81_fortran_violated`, `Geouned.SurfText.C81_repetition_violated`, `Geouned.SurfText.C81_data_violated`, `Geouned.SurfText.C81_violated` |
| C82 | A cut is tried at tolerances from the one given until the kernel succeeds | `split_bop` branch by branch (`Decom/Model.lean: splitBop`), the kernel a function of the tolerance, the recursion limited by the stack | `bop_down`, `bop_up`: the tolerances tried are t·10^k; first success in the order 0,-1,-2,…,1,2,…; endless recursion for 0 < t < 1e-13 by induction on the stack | partial | `Geouned.Decom.C82_endless`, `Geouned.Decom.C82_violated`, `Geouned.Decom.C82_coarse_partial`, `Geouned.Decom.C82_scaleUp_partial`, `Geouned.Decom.C82_noScaleUp_partial`, `Geouned.Decom.C82_fine_partial`, `Geouned.Decom.C82_ends_partial` |
| C83 | The pieces of a decomposed solid make up the solid | the whole of `SplitSolid` over an abstract kernel (`Decom/Model.lean`); compounds are lists of solids; specification `Divides` in `Decom/Spec.lean` | an additive weight (indicator of a point, volume) conserved by each cut is conserved by each loop up to dropped pieces; the dropped pieces are exhibited; witness of a solid that vanishes | partial | `Geouned.Decom.C83_dropped_partial`, `Geouned.Decom.C83_exact_partial`, `Geouned.Decom.C83_sound_partial`, `Geouned.Decom.C83_violated` |
| C84 | A cell damaged by the decomposition is reported as suspicious | `_decompose_solids` and the error numbers of all stages | induction over the cells; error 0 implies the 1 % test of the last solid; two witnesses of unreported losses | partial | `Geouned.Decom.C84_report`, `Geouned.Decom.C84_single_partial`, `Geouned.Decom.C84_cells_partial`, `Geouned.Decom.C84_last`, `Geouned.Decom.C84_empty`, `Geouned.Decom.C84_violated`, `Geouned.Decom.C84_violated_pieces`, `Geouned.Decom.C84_cuts_partial`, `Geouned.Decom.C84_cuts_violated` |
| C85 | The decomposition ends | the `while True` loops with a number of rounds | a well-founded piece relation bounds the rounds; a positive lower bound on the volume of pieces makes it well-founded; witness: a kernel producing empty pieces | partial | `Geouned.Decom.C85_ends_partial`, `Geouned.Decom.C85_volume_partial`, `Geouned.Decom.C85_violated` |
| C86 | The faces connected to a face | `same_faces`: list scan with the touching test as a parameter (`Face/Model`) | paths through increasing indices; witness for the chain 0-2-1-3 | partial | `Geouned.Face.C86_sound_partial`, `Geouned.Face.C86_increasing_partial`, `Geouned.Face.C86_three_partial`, `Geouned.Face.C86_violated` |
| C87 | Torus faces are grouped into connected surfaces | `same_torus_surf`, `separate_surfaces` with the two tests as parameters | induction on the work list; connected components as reflexive-transitive closure | proved | `Geouned.Face.C87_partition`, `Geouned.Face.C87_components` |
| C88 | The range of a group of torus faces holds all of them | `merge_periodic_uv` on lists of rational ranges, length of a turn a parameter | invariant of the merging loops; two witnesses | partial | `Geouned.Face.C88_total`, `Geouned.Face.C88_cover_partial`, `Geouned.Face.C88_closed_partial`, `Geouned.Face.C88_cover_violated`, `Geouned.Face.C88_closed_violated` |
| C89 | The ranges covered by the faces of a cylinder or cone are their connected sets | `get_intervals` on the sorted nodes | nodes as an alternating count; induction over the jumps of the search | proved | `Geouned.Face.C89_intervals` |
| C90 | The additional plane of a cylinder or cone face is computed from the faces joined to it around the turn | `get_u_value_boundary`, `get_closed_ranges` | on top of C89; witness with a range past the seam | partial | `Geouned.Face.C90_partial`, `Geouned.Face.C90_violated` |
| C91 | The planes that bound a torus face around the axis keep the face | `gen_torus_annex_u_planes` over the reals with sin and cos | orthonormal frames, half sum and half difference of the angles | partial | `Geouned.Face.C91_half_partial`, `Geouned.Face.C91_large_partial`, `Geouned.Face.C91_violated` |
| C92 | The surface that bounds a torus face around its circle keeps the face | `gen_torus_annex_v_surface` over the reals | case analysis plane/cylinder/cone in the meridian plane; witnesses | partial | `Geouned.Face.C92_partial`, `Geouned.Face.C92_violated` |
| C93 | The additional plane of a concave cylinder or cone face separates the face from the rest of the surface | `gen_plane_cylinder`, `gen_plane_cone`, `sign_plane` over the reals | the plane function equals a positive constant times cos(u-m)-cos h | proved | `Geouned.Face.C93_cylinder`, `Geouned.Face.C93_cone` |
| C94 | No solid of a STEP file is lost, duplicated or put into the cell of another element | `load_cad`, `fuse_meta_obj`, `joinEnvelopes`, label patterns on texts; elements as labels of the branch and solids | done ++ todo invariant of the loop over elements; flattened solids invariant; witnesses by evaluation | partial | `Geouned.Load.C94_solids`, `Geouned.Load.C94_cells_partial`, `Geouned.Load.C94_total_partial`, `Geouned.Load.C94_violated`, `Geouned.Load.C94_index_violated`, `Geouned.Load.C94_joined_partial` |
| C95 | The cells of a STEP file have different numbers | as C94 | numbers follow the places while no enclosure is fused; witness | partial | `Geouned.Load.C95_numbers_partial`, `Geouned.Load.C95_violated` |
| C96 | The labels of the CAD tree give each cell its material, dilution, universe, transformation and enclosure | regular expressions as searches on lists of characters | search = first place, upward loop = nearest label; witnesses | partial | `Geouned.Load.C96_attributes_partial`, `Geouned.Load.C96_root_violated`, `Geouned.Load.C96_word_violated`, `Geouned.Load.C96_number_partial` |
| C97 | Several STEP files give the cells and enclosures of all of them, with different numbers | `join_meta_lists` on objects with a table of numbers, the enclosures being the same objects | invariant: numbers increase; witnesses | partial | `Geouned.Load.C97_cells_partial`, `Geouned.Load.C97_enclosures_partial`, `Geouned.Load.C97_numbers_partial`, `Geouned.Load.C97_enclosures_violated`, `Geouned.Load.C97_empty_violated`, `Geouned.Load.C97_numbers_violated` |
| C98 | skip_solids removes the solids it names and no others | `del l[k]` for the sorted indices, removal of cells without solids | descending deletions keep lower places; witnesses | partial | `Geouned.Load.C98_skip_partial`, `Geouned.Load.C98_order`, `Geouned.Load.C98_range`, `Geouned.Load.C98_witness`, `Geouned.Load.C98_twice_violated`, `Geouned.Load.C98_negative_violated` |
| C99 | The material file is read as a table | `extract_materials`, `int` and `float` parameters | induction over the lines; witness | partial | `Geouned.Load.C99_table_partial`, `Geouned.Load.C99_blank_violated` |
| C100 | Conversions do not share their configuration | heap of configuration objects, instances as references, operations | invariant: no two sections hold the same object; witness | partial | `Geouned.Conf.C100_independent_partial`, `Geouned.Conf.C100_violated` |
| C101 | A configuration file runs the conversion it says | `from_json` on that heap, file as list of keys and values | induction over the keys; witness | partial | `Geouned.Conf.C101_runs`, `Geouned.Conf.C101_file_partial`, `Geouned.Conf.C101_violated` |
| C102 | The MCNP file is a valid deck that says exactly the model | `McnpFile/Model.lean`: the characters of the whole file | line by line: every line is first line, continuation or comment; blocks as in C79; regions through C17/C34; witnesses | partial | `Geouned.McnpFile.C102_file`, `Geouned.McnpFile.C102_read`, `Geouned.McnpFile.C102_title_violated`, `Geouned.McnpFile.C102_density_violated`, `Geouned.McnpFile.C102_violated` |
| C103 | The cells of a written MCNP file are read back by GEOReverse | `McnpFile/Model.lean` (writer) composed with `Card/Model.lean` and `CellText/Model.lean` (reader) | deck of C102 + cards of C79 + cell text of C80: each card is laid out as the reader's grammar wants | proved | `Geouned.McnpFile.C103_cells` |
| C104 | The surfaces of a written MCNP file are read back by GEOReverse | `McnpFile/Model.lean` (writer) composed with `Card/Model.lean` and `SurfText/Model.lean` (reader) | deck of C102 + cards of C79 + surface text of C81; data cards never start with `tr` | proved | `Geouned.McnpFile.C104_surfaces` |
| C105 | The OpenMC XML file is well-formed and says exactly the model | `OmcFile/Model.lean`: the characters of the XML file; `OmcFile/XmlSpec.lean`: reader of XML | each line is a tag that the reader takes; regions through C17; witnesses | partial | `Geouned.OmcFile.C105_xml_partial`, `Geouned.OmcFile.C105_violated`, `Geouned.OmcFile.C105_quote_violated`, `Geouned.OmcFile.C105_nosurf` |
| C106 | The OpenMC XML file is read back by GEOReverse | `OmcFile/Read.lean`: XMLParser on elements, composed with the writer of C105 | C105 + digits read back + region text unchanged; witnesses | partial | `Geouned.OmcFile.Read.C106_read`, `Geouned.OmcFile.Read.C106_universe_violated`, `Geouned.OmcFile.Read.C106_other_violated`, `Geouned.OmcFile.Read.C106_noregion_violated` |
| C107 | The OpenMC Python script is valid and says exactly the model | `OmcFile/Model.lean`: the characters of the script; `OmcFile/PySpec.lean`: Python tokens | line by line: tokens of each statement; names by induction over the statements; witness | partial | `Geouned.OmcFile.C107_script_partial`, `Geouned.OmcFile.C107_names_partial`, `Geouned.OmcFile.C107_violated`, `Geouned.OmcFile.C107_nosurf` |
| C108 | The Serpent file is valid and says exactly the model | `SerpFile/Model.lean`: the characters of the Serpent file; `SerpFile/Spec.lean`: words and cards of Serpent | each part of the file has its words whatever follows; regions through C17/C34; witnesses | partial | `Geouned.SerpFile.C108_file_partial`, `Geouned.SerpFile.C108_title_violated`, `Geouned.SerpFile.C108_universe_violated`, `Geouned.SerpFile.C108_comment_violated`, `Geouned.SerpFile.C108_cone_violated` |
| C109 | The PHITS file says exactly the model | `PhitsFile/Model.lean`: the characters of the PHITS file and the cells as the writer leaves them; `PhitsFile/Spec.lean`: sections, comments and cards of PHITS, labels in the STEP file | each part of the file has its lines whatever follows; regions through C17/C34; witnesses | partial | `Geouned.PhitsFile.C109_file_partial`, `Geouned.PhitsFile.C109_labels`, `Geouned.PhitsFile.C109_title_violated`, `Geouned.PhitsFile.C109_files_violated`, `Geouned.PhitsFile.C109_zero_violated`, `Geouned.PhitsFile.C109_voidMat_violated` |
| C110 | The unified void of a PHITS file is what the solids leave | `PhitsFile/UniSpec.lean`: the points of a cell card, with `#n` looked up in the file | the numbers of the solids are the range that is written (numbering of core.py as hypothesis); meaning of the definitions through C17; witness | partial | `Geouned.PhitsFile.C110_regions_partial`, `Geouned.PhitsFile.C110_fills_partial`, `Geouned.PhitsFile.C110_zero_violated` |
| C111 | Exports do not change what later exports write | `Session/Model.lean`: histories of exports over a disk and the shared cells | the PHITS writer changes only inner and outer void, once (case analysis of the writer); induction on the history; witnesses for each format | partial | `Geouned.Session.C111_plain_partial`, `Geouned.Session.C111_settled_partial`, `Geouned.Session.C111_phits_violated`, `Geouned.Session.C111_mcnp_violated`, `Geouned.Session.C111_serpent_violated`, `Geouned.Session.C111_openmc_violated`, `Geouned.Session.C111_comments_violated` |
| C112 | An export writes exactly the files that are asked for | `Session/Model.lean`: checks of the arguments, the seven files in order; `Session/Spec.lean`: kinds of files | the function is a run over the list of kinds; induction on it with the file names distinct; witness for UCARD=0 | partial | `Geouned.Session.C112_arguments`, `Geouned.Session.C112_single`, `Geouned.Session.C112_files`, `Geouned.Session.C112_ends`, `Geouned.Session.C112_failure`, `Geouned.Session.C112_independent`, `Geouned.Session.C112_zero_violated` |
| C113 | GEOReverse: the definition built from the text of a cell has the meaning of the text | `RBool/Model.lean`: `BoolSequence(text)`, `evaluate` and `get_complementary` of the GEOReverse version of the boolean class, token by token | texts by the grammar of `Text/Spec.lean`; strong induction on the number of tokens; repeated `evaluate` by induction on the history | proved | `Geouned.RBool.C113_parse`, `Geouned.RBool.C113_evaluate`, `Geouned.RBool.C113_complement` |
| C114 | A cell described by planes encloses the cell | `Poly/Model.lean`: `quadric_to_plane`, `plane_definition`, `change_surf`, and the operations of the GEOReverse boolean class they use; the planes of a surface are a parameter | monotonicity of the definition in its literals, by induction on the definition; one step per replaced surface, by induction on the list of surfaces | partial | `Geouned.Poly.C114_planes`, `Geouned.Poly.C114_forward_partial`, `Geouned.Poly.C114_forward_violated`, `Geouned.Poly.C114_reversed_partial`, `Geouned.Poly.C114_exact_partial`, `Geouned.Poly.C114_exact_violated`, `Geouned.Poly.C114_unsupported_violated` |
| C115 | The planes that stand for a curved surface enclose it | `Shape/Model.lean`: the functions `*_to_planes`, `get_orto_axis` and `convert_to_planes`, over the reals | an orthonormal frame from `get_orto_axis` (Gram determinant), then inequalities for every kind of surface; cells by composition with C114 | partial | `Geouned.Shape.C115_enclosed_partial`, `Geouned.Shape.C115_torus_violated`, `Geouned.Shape.C115_oblique_torus_violated`, `Geouned.Shape.C115_box`, `Geouned.Shape.C115_plane_partial`, `Geouned.Shape.C115_plane_violated`, `Geouned.Shape.C115_cell_partial` |
| C116 | Faceted solids keep their material (option Facets) | `Facet/Model.lean`: `commonEdge`, `isConvex`, `removeElement` and `set_definition` of the option Facets; `get_id` and `is_inverted` are parameters | invariant of the loop over the faces left, by induction on their number; the boolean part through C01; witnesses are prisms over the rationals | partial | `Geouned.Facet.C116_solids_partial`, `Geouned.Facet.C116_sound_partial`, `Geouned.Facet.C116_convex`, `Geouned.Facet.C116_edge`, `Geouned.Facet.C116_order_violated`, `Geouned.Facet.C116_coplanar_violated`, `Geouned.Facet.C116_inverted_violated`, `Geouned.Facet.C116_thin_violated` |
| C117 | Cells excluded from void generation | `Driver/Model.lean`: `exclude_cells` and the run of `CadToCsg.start`, with the parts called as parameters (`Kit`) | induction on the list; phases before void generation keep number, comment and solids of every cell | proved | `Geouned.Driver.C117_exclude`, `Geouned.Driver.C117_void_input` |
| C118 | Bounding box of the geometry | `Driver/Model.lean`: `_get_geometry_bounding_box`, `start` | induction with the hull of the boxes seen so far | proved | `Geouned.Driver.C118_box`, `Geouned.Driver.C118_run` |
| C119 | A conversion runs to its end | `Driver/Model.lean`: `start` phase by phase; objects shared by meta_list and enclosure_list as places of a heap | definitions once made are never lost (`Grow`), loop by loop; numbering from C32; the negations follow from cells kept without definition | partial | `Geouned.Driver.C119_kept_partial`, `Geouned.Driver.C119_runs_partial`, `Geouned.Driver.C119_overlap_violated`, `Geouned.Driver.C119_full_violated`, `Geouned.Driver.C119_sort_violated`, `Geouned.Driver.C119_violated` |
| C120 | A second conversion with the same object | as C119 | every run that ends has put a comment cell without solids in the list; refuted | partial | `Geouned.Driver.C120_second_run`, `Geouned.Driver.C120_violated` |
| C121 | GEOReverse: the bounding box of a nested cell holds the cell | `Nest/Model.lean`: `myBox.add`, `mult`, `build_box_depth`, `get_boundBox` on nested definitions, with the level-0 box of C78 | induction on the definition: the box of every part is right up to the tolerance 0.1 per axis (`Near`), the operations keep it, the enlargement by 20 % pays for it; cells with curved surfaces through C114 and C115 | partial | `Geouned.Nest.C121_returns`, `Geouned.Nest.C121_nested_partial`, `Geouned.Nest.C121_mixed`, `Geouned.Nest.C121_foil_violated`, `Geouned.Nest.C121_cell_returns`, `Geouned.Nest.C121_cell_partial` |
| C122 | The cells of a converted model divide space, also after the file has been written and read | `Whole/`: a structure with what one conversion made (cells, boxes, void cells, graveyard); its fields are results of the models of C25, C26, C27, C50, C52, C59, and the files of C102, C106, C110; with enclosures `Whole/Encl.lean` (C62, C63, C124) | case analysis on universe box, solids, sphere with the theorems of the parts; exactly-one transported along permutations and pointwise relations to the cards read | partial | `Geouned.Whole.C122_enclosures_partial`, `Geouned.Whole.C122_enclosures_mcnp_partial`, `Geouned.Whole.C122_full_partial`, `Geouned.Whole.C122_violated`, `Geouned.Whole.C122_cells_partial`, `Geouned.Whole.C122_mcnp_partial`, `Geouned.Whole.C122_xml_partial`, `Geouned.Whole.C122_phits_partial` |
| C123 | Values of options, tolerances, formats and settings are checked when they are given | `Setup/`: the four classes as tables of parameters with the form of their setter and their default, a heap of lists, histories of operations | each setter accepts exactly the documented type (table against an independent table from the docstrings); invariant over histories; violations by short histories | partial | `Geouned.Setup.C123_assign`, `Geouned.Setup.C123_make`, `Geouned.Setup.C123_types_partial`, `Geouned.Setup.C123_types_violated`, `Geouned.Setup.C123_defaults_partial`, `Geouned.Setup.C123_defaults_violated`, `Geouned.Setup.C123_names_violated` |
| C124 | The void of an enclosure fills the enclosure | `Void/PieceModel.lean`: `VoidBox` with a piece of an enclosure, `split`, `piece_enclosure_split`; the CAD kernel (distance, volume, common part, bounding box) is a parameter with laws at a point | invariant of the loop of C27 over reached boxes; witness: a U of three boxes; composition with C26 and C59 | partial | `Geouned.Void.C124_boxes_violated`, `Geouned.Void.C124_boxes_partial`, `Geouned.Void.C124_void_partial` |
| C125 | The files of a CAD export have the name that was asked for | `RCore/NameModel.lean`: export_cad on lists of characters, with name and suffix of pathlib | induction on the name for the parts between slashes and the last dot; case analysis on the form of the file name; counterexamples by evaluation | partial | `Geouned.RCore.C125_violated`, `Geouned.RCore.C125_apart_violated`, `Geouned.RCore.C125_names_partial`, `Geouned.RCore.C125_suffix`, `Geouned.RCore.C125_forms`, `Geouned.RCore.C125_default`, `Geouned.RCore.C125_apart_partial` |
| C126 | GEOReverse builds in the box of its settings | `RCore/SetModel.lean`: BoxSettings objects and converters as references in a state, statements of a session, exceptions as values | invariant over sessions: a converter has the box of its settings, settings that were not resized have the box of their values; counterexamples by evaluation | partial | `Geouned.RCore.C126_violated`, `Geouned.RCore.C126_box_partial`, `Geouned.RCore.C126_radius_violated`, `Geouned.RCore.C126_radius_partial`, `Geouned.RCore.C126_apart_violated`, `Geouned.RCore.C126_apart_partial`, `Geouned.RCore.C126_values_violated`, `Geouned.RCore.C126_values_partial` |
| C127 | Reverse conversion: a cell card becomes a solid with the region written on it | `Whole/BackModel.lean`: remove_hash, remove_redundant of GEOReverse, BoolSequence(text), build_BoundBox, buildShape one after another | C64, C18, C113 and C77 composed: lemmas that the definition read from a text has no empty list, exactly the surfaces written and, without parentheses, is flat (induction over set_def); with C103 the round trip CAD to MCNP to CAD; negation by the text of `C77_join_violated` | partial | `Geouned.Back.C127_violated`, `Geouned.Back.C127_flat_partial`, `Geouned.Back.C127_nested_partial`, `Geouned.Back.C127_hash_partial`, `Geouned.Back.C127_back_partial` |
| C128 | The exported CAD document shows every built cell once, under its universe and its material | `RCore/TreeModel.lean`: makeTree and the loop of export_cad on a document that is the list of its objects, referred to by their places | induction on the nesting with an invariant of the loop over the content (what was appended, which references wait in the dictionary of materials); the labels by injectivity of decimal numbers; a clash of two material labels as counterexample | partial | `Geouned.RCore.C128_tree`, `Geouned.RCore.C128_once`, `Geouned.RCore.C128_within`, `Geouned.RCore.C128_solids`, `Geouned.RCore.C128_cell_label`, `Geouned.RCore.C128_universe_label`, `Geouned.RCore.C128_material_label_violated`, `Geouned.RCore.C128_material_label_partial` |
| C129 | A constraint table made from the solids describes the box | `CTable/BuildModel.lean`: split_solid_fast, the loops of build_c_table_from_solids with their variables that are not reset, over a kernel given by its answers | an invariant of the entries carried through both loops, the transposition and the filling of the missing pairs (`build_ent`); exactness by tracing each allowed combination back to a piece; composition with C13, C20, C21 and C45; an instance on the points of a line | partial | `Geouned.C129_sound`, `Geouned.C129_exact`, `Geouned.C129_returns`, `Geouned.C129_no_surface`, `Geouned.C129_simplify_partial` |
| C130 | The side of a surface used for constraint tables is the side in the output | `Geom/Sign.lean`: check_sign over the reals | for each kind of surface, the sign compared with the region of the surface (CardSpec), then with the card through C47; witnesses for the far sheet of an oblique cone and for the inner part of a torus | partial | `Geouned.Geom.C130_plane`, `Geouned.Geom.C130_cylinder`, `Geouned.Geom.C130_sphere`, `Geouned.Geom.C130_cone`, `Geouned.Geom.C130_torus`, `Geouned.Geom.C130_sign_partial`, `Geouned.Geom.C130_card_partial`, `Geouned.Geom.C130_oblique_cone_violated`, `Geouned.Geom.C130_inner_torus_violated` |
| C131 | A configuration file of geouned_csgtocad runs the conversion it says | `RCore/Cli*.lean`: main of geouned_csgtocad as a list of statements with keyword arguments, each of which may raise | the statements are computed from what the sections give (CliSpec); induction on the run for failures; permutations of a dictionary; the selection with C65; a misnamed section as the witness | partial | `Geouned.RCli.C131_runs`, `Geouned.RCli.C131_cells`, `Geouned.RCli.C131_no_partial_output`, `Geouned.RCli.C131_order`, `Geouned.RCli.C131_no_read`, `Geouned.RCli.C131_other_sections`, `Geouned.RCli.C131_ignored_violated` |
| C132 | Renumbering changes the numbers of surfaces in a card and nothing else | `Rev/Renum*.lean`: the loops that rename surfaces and `Cline.replace`, on characters, with the position kept; an endless loop is a loop that does not end for any number of rounds | induction on the pieces of the text (separators and numbers); every text is such pieces; a number with a zero in front as the witness; the loop on characters follows the loop on tokens of `Rev/Cards.lean` (C132_tokens) | partial | `Geouned.Renum.C132_renumbers_partial`, `Geouned.Renum.C132_unknown`, `Geouned.Renum.C132_all_texts`, `Geouned.Renum.C132_zero_violated`, `Geouned.Renum.C132_tokens` |

Remarks per property (what is missing in the partial ones):

* **C01** Every list expression and every item list. The excluded case (self already a bare boolean) is shown to raise in C01_append_bool_violated.
* **C09** Expressions built of surfaces; the excluded case (a bare boolean) is shown to raise.
* **C11** False of the code in full (witness theorem). Proved for every execution in which update() overwrites no sibling, and for flat expressions without restriction.
* **C12** False of the code in full (witness: AND[OR[1 2 -2] OR[3 4]] simplifies to True; mixed-level expressions raise). Proved for every execution in which update() overwrites no sibling, all iteration orders and recursion limits.
* **C13** Same defect as C12. Proved for every sound table in every execution in which update() overwrites no sibling. Also stated for the tables of the code themselves (C13_simplify_table_partial; tables without an entry saying two surfaces are equal/opposite).
* **C16** Token level: every well-formed text is accepted, at any nesting, for every iteration order of Python sets; the grammar is proved unambiguous. Character-level tokenising is not in this theorem.
* **C17** MCNP, PHITS, Serpent, OpenMC XML and OpenMC Python, all trees without boolean constants; round trip through BoolSequence(string). For MCNP, PHITS and Serpent also on the characters of the wrapped lines (C17_cell_card), and with conditions on the size of the numbers and the depth of the tree only (C17_definition). Violated for a definition that is (or contains) a boolean constant: the writers raise TypeError.
* **C18** Every well-formed text; also only parentheses are touched.
* **C19** Pair entries. For diagonal entries the code returns a bare integer (shown); the code never transposes those (fill_missing_elements skips the diagonal).
* **C20** False of the code for entries (0,1,0,1) and (1,0,1,0) (witness). Proved for all other tables, with totality after filling.
* **C22** False in matrix mode for tables with such entries (consequence of C20); proved for all others and, in diagonal mode, for every table.
* **C23** False of the code when check() finds a sub-cell empty or full: the result is negated (witness). Proved otherwise; and for the corrected test without restriction.
* **C26** False of the code (witnesses: region lost for a single solid in mode diag; the whole void cell lost when check() decides a sub-cell; AttributeError; enclosure cells reaching outside in mode full). Proved for every execution in which none of the three known defects fires, all modes, with and without piece enclosure.
* **C27** False of the code (50-round cap, witness). Proved for every box whose splits cannot nest 50 deep.
* **C28** False of the code (TypeError, witness). Proved for every call that returns without the known defects of check/simplify.
* **C30** Proved for every history without deletion of the last entry; after such a deletion get_surface raises (witness).
* **C32** False of the code when sorting with an envelope (KeyError), with equal enclosure numbers from two files (cells written twice), or when a comment names a null solid (witnesses). Proved for all other inputs, both modes.
* **C33** Axes compared exactly. Proved: without three-point planes the sign treatment of simplify_planes keeps every cell's meaning in every export; with them the first export is right when no three-point plane is aligned with an axis. Violated: three-point planes are toggled again at each writer (a second export, or OpenMC after MCNP, gets the opposite cells), and aligned three-point planes below the origin are wrong even in the first MCNP file.
* **C34** Character level: wrap_line (tidying substitutions and cutting loop with Python's negative indices) and CardLine; without the condition that words fit the loop never ends (C34_too_long_never_ends).
* **C39** False of the code for planes with relative tolerances and for cylinders with axes only nearly parallel (witnesses). Proved for spheres, cones, tori (all tolerances), planes with absolute tolerances, cylinders with equal/opposite axes.
* **C40** The Density attribute, when set before, is overwritten or kept exactly as the code does (C40_stale_attribute).
* **C44** False for strings with characters that str.isdigit accepts and int() rejects (e.g. superscript two): ValueError. Proved for all other strings.
* **C45** Proved when each side has pieces; with an empty side the value left from the previous surface is used (shown).
* **C46** Proved for planes, cylinders, spheres, tori, and for cones as double cones; false for the one-sheet cones which the code writes (opposite axes are identified).
* **C47** False of the code for tori with oblique axes (an empty card is written); proved for all other surfaces.
* **C48** XML: false for oblique tori (type None), proved for the rest. Python: false for every torus (keywords r, r1, r2 do not exist), proved for the rest.
* **C49** False of the code for all cones, for cylinders along Z and oblique cylinders (unreadable cards); proved for planes, cylinders along X and Y, spheres, aligned tori.
* **C50** Exact real arithmetic; registered planes are exactly coincident up to orientation.
* **C51** Exact real arithmetic; registered planes are exactly coincident up to orientation.
* **C52** Composition of C25, C26, C27, C51. C52_violated: a universe box of 2^60 minimum sizes (C27). Partial: universe box without piece enclosure, executions in which C26 and C27 hold, CAD answers (tables, lists of solids of a box) right at the point.
* **C53** False of the code: both checks are dead (witness theorems).
* **C54** Proved without sorting; false with sorting (identifiers of void cells repeat those of solids, witness).
* **C55** False of the code (the internal id is printed). Proved when ids and labels coincide.
* **C56** Proved for cells whose oblique cones are all recorded with their sign (C56_one_sheet_partial); C56_solids_from_faces proves this hypothesis for the solids made from faces, and the written cells hold where the faces agree with one-sheet cones. Violated with forceNoOverlap: the complement of an earlier cell brings a cone that is not recorded for the later cell, which then gets both sheets. Not proved: that the cones of void cells are recorded.
* **C57** Violated: cut_line loops for ever when the last blank of a long line is beyond the line length. C57_trim_partial: it works when that blank is within and the rest fits.
* **C58** Heap model (objects with addresses, in-place updates). Proved: insert_in_sequence stores one shared object at every place and computes the meaning of C15; change_surf_sign turns the surface iff every object holding it sits in an odd number of places. Violated: with an even number of places the shared object is toggled an even number of times (C58_violated).
* **C59** False in full: after forceNoOverlap the definition has no longer one element per CAD solid, remove_extra_comp takes the wrong element (C59_void_box_violated). Proved for every list of cells whose definition has one part per solid, each part inside the box of its solid.
* **C60** The geometric questions (which registered surface, orientation, additional planes) are inputs of the model. C60_feeds_void_boxes: the result satisfies the hypotheses of C59 and C52.
* **C61** Full statement C61_statement, refuted by C61_embedded_violated: the answer -2 of check_intersection (enclosure inside the solid) is ignored by assignEnclosure. C61_assign_partial proves it for all hierarchies when -2 is not answered; the universe clause, the converse and ParentEnclosureID without that condition.
* **C62** Proved for all hierarchies, void lists and envelopes; comments of the cells are C54.
* **C63** Full statement C63_statement, refuted by C63_embedded_violated (same defect as C61). C63_void_with_enclosures_partial: for solids without the answer -2. That each call of get_void_def fills its enclosure is a hypothesis on the calls made (see C26, C27, C52).
* **C64** Proved for cards without TRCL/LIKE, any deck without cycles. Violated for transformed cells: `#n` takes the geometry of cell n without its TRCL; a TRCL/LIKE cell keeps its `#`. A cell that mentions itself: RecursionError.
* **C65** C65_mcnp proves it for MCNP files. For OpenMC files it is violated: the combination include-material/exclude-cell raises AttributeError always; a filter that leaves no cell raises ValueError. `include` without a list keeps the list of an earlier call, or raises TypeError.
* **C66** Levels (C66_levels), rejection (C66_lonely, C66_no_root) and nested universes (C66_subuniverses) in full. Choice by depth: when every universe is nested at one level only (C66_selection_partial); refuted otherwise (C66_deep_violated), and for OpenMC files unwanted universes are kept (C66_xml_violated).
* **C67** C67_statement is refuted by a universe that fills two cells (its shapes are made in the box of the first). C67_cells_partial/C67_universe_partial: every universe fills one cell, transformations given below a transformation. Further violations: no transformation in a moved universe, universes at several levels, build_container one level too deep. The CAD kernel is a parameter with exact operations (Kernel.Lawful, satisfied by exactKernel).
* **C68** C68_statement is refuted by a file with a surface card that is skipped (new numbers start at the number of surfaces and overwrite one). C68_read_partial: all files with ids 1..n for which LIKE names an earlier card or one that is no LIKE card, of the same universe and not filtered out, no entry changed to 0, no # together with TRCL/LIKE, and no FILL transformation beside TRCL; each of these conditions (# : C64) is shown to be needed by its own violated theorem. Surfaces are sets of points; the equations of moved surfaces are not part of C68.
* **C69** Proved when the file has no LIKE and TRCL, surfaces are named 1, 2, ..., and every build has a filter; the others are counterexamples (second build fails with AttributeError or KeyError, or cells get wrong surfaces).
* **C70** Proved for cards without LIKE, TRCL, #; each of these is a counterexample.
* **C71** C71_statement is refuted by cylinders given by two points (exception, or an earlier cylinder moved), two points at one height, a point on the axis, the apex of a TRC, and the prolonged facet of a REC. C71_cards_read_partial: all lists of cards without these, all points off the infinite facets of TRC and REC. Cards SQ and GQ: C74.
* **C72** Refuted for P with a normal that is no unit vector, for BOX/RPP with a displacement, and (TRCL) for the original of a copied REC. C72_transformed_cards_partial: all files without these; C72_copy_partial: the same for TRCL.
* **C73** Refuted for two axes given by cosines (TypeError) and for M = -1 (ignored). Proved for all other forms, TR cards and TRCL/FILL.
* **C74** Proved for every result allowed by eigh: cylinders circular and elliptic, hyperbolic cylinders with negative constant, cones of 45 degrees, hyperboloids around the origin, and SQ = GQ. False for: every other circular cone (tangent inverted), every hyperboloid with another centre, ellipsoids and spheres (surface_side raises), negated circular cylinders (sides exchanged), paraboloids along x (axis reversed). Elliptic cones, elliptic hyperboloids, paraboloids in other directions and eigenvalues within the tolerances are not treated.
* **C75** Proved for files of any length with all types of surfaces, quadrics being cylinders with coefficients 1 (any position and direction) or cones of 45 degrees. False for: other circular cones (inverse tangent), narrow cones (read as cylinders), hyperboloids (read as cones), spheres, ellipsoids and elliptic cylinders (lost), scaled cylinders (moved, for one admissible eigenbasis).
* **C76** Proved for lists of surfaces of any length, all kinds and positions, in MCNP and XML, as long as cones with an oblique axis have a half angle of 45 degrees. False for every other oblique cone (tangent inverted on reading). Number formatting is not modelled.
* **C77** Proved, with any CAD kernel that satisfies the assumptions of `Right` (SolidSpec.lean), for all sequences and unions of sequences, bounded or not (C77_flat_partial), and for every nesting in which no surface of a nested union occurs again in a later element of the same intersection and each intersection starts with a bounded part (C77_nested_partial). False otherwise: after a union the remembered sides are those of only some of its parts (C77_join_violated), and an unbounded part that lies apart from the box of the next element makes the code add the whole region of that element (C77_reversed_violated).
* **C78** Violated: a foil thinner than 0.1 mm (its corners are merged by remove_close_points, the flat box is dropped and the cell is said to be empty), and a prism with a pointed end that leaves the universe through a face (no corner of the universe is in it, so it is taken to be bounded and cut at its last corner). Proved over any ordered field: the method always returns a box (C78_returns); intersections of half-spaces that lie in the external box, that leave the universe through a corner (no line of two planes through an edge of the external box), unions of half-spaces, complements of polyhedra, and cells that fill or miss the universe, all at least 2.1 mm wide, tolerance above 0.3. Missing: definitions with nested parentheses (the combination of boxes is C43) and the planes that replace curved surfaces.
* **C79** Every deck whose continuation lines are indented, without a comment that is `c` alone after blanks, and with a final newline is read exactly (C79_cards_partial); no line is lost, any file (C79_lines). The three conditions are necessary: proved counterexamples. Tally comment cards (fc) are outside the specification.
* **C80** Every card whose numbers have signed exponents, whose parameters have an equals sign, and that meets the other conditions of `Usual` is read as written (C80_card_partial). The conditions of `Usual` and the signed exponents are needed: one proved counterexample each for density, TRCL entries, missing `=`, NONU, negative universe, FILL before TRCL, COSY, LIKE, material on another line. Lattice fills and `&` are outside the specification.
* **C81** From the characters of the file to the values: every file whose entries are numbers in the usual form and whose other data cards have harmless names is read as written (C81_cards_partial, on top of C79). Both conditions are needed: 1.5-3 and 2r raise ValueError, PTRAC and MGOPT raise ValueError (proved). nI, nM, nJ are outside the specification.
* **C82** Violated for 0 < splitTolerance < 1e-13 with scaleUp (the default): endless recursion without calling the kernel (C82_endless). All other accepted values are covered by the partial theorems, which give the exact sequence of tolerances tried.
* **C83** Violated: pieces of at most 0.01 mm3 are dropped (a solid of 0.015 mm3 cut in two vanishes). Proved: with the dropped pieces, the result is a division; without small pieces it is one; no point is added or doubled.
* **C84** Violated three times: the error number of SplitSolid is that of the last solid of the cell only (C84_last), split_2nd_order_planes keeps only the error of its last cut, and a cut of a closed cylinder that fails is taken as one that leaves the solid whole (C84_cuts_violated). Proved for cells of one solid: not reported implies volume within 1 %; what the report contains; and (C84_cuts_partial) which failing cuts are reported.
* **C85** Violated for kernels that produce empty pieces (nothing checks the volumes of the pieces cut by planes). Proved if no solid can be cut for ever, in particular if the kernel conserves the volume and its pieces have a least volume.
* **C86** Violated: the list of faces is gone through once, so that a face reached only through a later one is missed (chain 0-2-1-3). Proved: every face found is linked (sound), the search is complete when every face of the chain can be reached in increasing order, and for at most three faces.
* **C87** C87_partition: no face lost or repeated for any outcome of the tests; C87_components: the groups are the connected components when the tests are symmetric and `same torus` is an equivalence.
* **C88** Violated: overlapping ranges lose part of a face; stacked faces are said to go all around. Proved: the range always exists (C88_total); for ranges that follow each other without overlap it holds every face, and 'all around' is right.
* **C89** Full statement, for the ends sorted as the program does.
* **C90** Violated: faces whose range crosses the seam beyond a turn are not joined to faces after it. Proved when every range lies within one turn [0, 2pi].
* **C91** Violated: for more than half a turn the plane is computed from the absolute position, wrong for tori whose center is not on the line through the origin along the axis. Proved: ranges up to half a turn for every position; larger ranges for tori centered on that line.
* **C92** Violated: with a cylinder, a face of more than half a turn that is centered on the outer or inner equator is put on the wrong side. Proved for the plane and cone cases and for cylinders with the face in one half.
* **C93** Full statement; real numbers instead of floats; the parametrisation of the CAD kernel is written in the model.
* **C94** C94_solids is full. Cells and absence of exceptions: proved with labels as they are (delLastNumber off) and no envelope number used twice; C94_joined_partial: consecutive cells of one envelope number are joined into one which keeps number, kind, parent and all solids (but loses comment and material). Violated: two elements with the same envelope number swallow the elements between them, and if another envelope follows loading stops with IndexError.
* **C95** Violated: an enclosure of several solids followed by other solids and another enclosure gives a number twice. Proved for compSolids, or enclosures of one solid each.
* **C96** Proved for elements below another element with delLastNumber off, and with it on when every label ends with a last word to drop. Violated: an element at the top of the tree gets no material; delLastNumber drops the last word even if it is no number.
* **C97** Violated: enclosures of later files lost if the first has none; with enclosures in two files numbers collide; everything lost if the first file has no cells. Proved in the other cases.
* **C98** Order of the indices and out-of-range indices: full. Violated for repeated indices and for several negative ones; proved for different indices that are not negative.
* **C99** Violated: a blank line raises IndexError. Proved for files of comments and records; reading of numbers is a parameter.
* **C100** Violated: the default objects of __init__ are made once, so that two instances made without arguments share them. Proved for every history in which instances are given objects of their own.
* **C101** When it runs and with which arguments: full (C101_runs). Violated: sections missing in the file are the shared default objects, which may have been changed (C100). Contents of sections are abstract; their validation is a parameter.
* **C102** C102_file: for every model with numbers of at most 8 digits, definitions at most 30 deep, formatted numbers of at most 21 characters and a title of one line, the characters of the file form a deck that obeys the rules and says exactly the model; C102_read: GEOReverse divides it into these cards if the file ends with a newline character. Violated by a title of two lines (its second line is a cell card in every valid reading, C102_title_violated) and by a material without density (TypeError). Formatting of floating point numbers is a parameter.
* **C103** The writer (McnpFile/Model) composed with the card reader (Card/Model) and the cell-card reader (CellText/Model); Python's float and the float formats are parameters constrained to produce/accept numbers.
* **C104** As C103 for the surface and data blocks (SurfText/Model).
* **C105** The file is modelled character by character and read by a small XML reader (XmlSpec.lean) written from the XML rules. C105_xml_partial: for comments without quotation mark, < and &. Violated by comments with & (C105_violated) or a quotation mark: attribute values are not escaped. Without surfaces IndexError (C105_nosurf).
* **C106** C106_read: the whole round trip for every file of C105. Violated for other XML files: universes 0 and 1 become one (C106_universe_violated), elements other than cell and surface become None (C106_other_violated), a cell without region raises KeyError (C106_noregion_violated).
* **C107** The script is modelled character by character and divided into Python tokens by a small lexer (PySpec.lean). C107_script_partial: for comments without quotation mark and backslash; C107_names_partial: names assigned before use if every surface number occurring is one of the surfaces. Violated by a quotation mark in a comment (C107_violated). Without surfaces IndexError (C107_nosurf).
* **C108** The file is modelled character by character. C108_file_partial: valid and faithful if the title is a comment, there is no universe, every cell has a comment or material name, and no cone or oblique cylinder occurs. Each of the four restrictions is needed: C108_title_violated (the default title), C108_universe_violated (each cell twice), C108_comment_violated (`-2cell`), C108_cone_violated (no surface number).
* **C109** The file is modelled character by character. C109_file_partial: valid and faithful for models that can be written (Good), with and without unified void cells; C109_labels decides which. Violations with witnesses: title of two lines, several STEP files (FileNotFoundError), solid of material 0 with unified void cells (density and card M0), voidMat that no cell has (no card).
* **C110** C110_regions_partial: each card contains exactly the points of its cell, the inner void those of the sphere in no solid, for cells numbered as core.py does it and materials with positive numbers. C110_fills_partial: the cells of the file cover space. Violation for a solid of material 0: its density becomes part of the region.
* **C111** Full statement C111_statement (per kind of file). Proved: it holds if no earlier export asks for PHITS or the model has no inner/outer void (C111_plain_partial), and from the first PHITS export on nothing changes any more (C111_settled_partial). Violated after an export of PHITS for PHITS, MCNP, Serpent, OpenMC and the comment file (witnesses). Orientation of planes across exports is C33.
* **C112** Proved in full for arguments, files, independence and failure points; partial only because UCARD=0 writes U=0 (C112_zero_violated) although documented otherwise.
* **C113** The tokens of a text are those of Text/Spec.lean; characters that are no tokens are outside the grammar. Sequences are values: evaluate returns the regrouped sequence.
* **C114** Proved for cells that use no curved surface with both signs. Violated: with both signs the planes of the sign treated last stand for both; True == 1 in Python, so that `1 5` becomes True when the planes of 5 are dropped; surface types without planes stay as numbers without plane (later KeyError).
* **C115** Proved for all surfaces except tori that are elliptical or not along a coordinate axis, and planes whose normal is not of length 1; for these the code is wrong: the two minor radii of an elliptical torus are exchanged, an oblique torus raises UnboundLocalError, and a card `P` with a normal of another length is moved. Real arithmetic.
* **C116** C116_convex: cells of convex solids are exact. C116_solids_partial/C116_sound_partial: exact when the solids are not inside out, the first face of each group meets all the others of it, and faces of notches share no plane. Each of the three conditions is needed (C116_order_violated: the letter U loses an arm; C116_coplanar_violated: an upside-down T loses a foot because removeElement removes the first face with the same plane number; C116_inverted_violated: an inside-out block). C116_edge: the convexity test; C116_thin_violated: it fails for faces narrower than 0.1 mm.
* **C117** C117_exclude: the function; C117_void_input: in every run, stated by letting void generation refuse every other list, which changes nothing. Cells are identified by number, comment and solids.
* **C118** C118_box: holds all boxes with the margin, and no side is farther out than the margin beyond some solid; C118_run: after every run that ends.
* **C119** C119_runs_partial: without sorting by enclosures; with forceNoOverlap only with facets, without enclosures or with one cell; with simplify full only if all enclosures take part in void generation. Each restriction corresponds to a failure for every model: C119_overlap_violated, C119_full_violated, C119_sort_violated (AttributeError, AttributeError, KeyError). Sorting together with void generation is not covered (see C32).
* **C120** False for every program and every model: C120_second_run shows that the second call always stops with AttributeError/TypeError (comment cells in meta_list have no solids), and that it leaves the state as it was; C120_violated refutes the statement.
* **C121** C121_returns, C121_cell_returns: no exception for any nesting. C121_nested_partial: right box for every nesting whose level-0 parts fit (the cases of C78) and whose intersections are no slivers (at least 2.1 mm wide, or empty); C121_mixed: the union of a forward and a reversed box. C121_cell_partial: cells with curved surfaces, through C114/C115. C121_foil_violated: a cube with a foil of 0.05 mm sticking out gets the box of the cube only.
* **C122** Composition of C25, C26, C27, C50, C52, C59 with the file theorems C103, C106, C110; with enclosures (C122_enclosures_partial, C122_enclosures_mcnp_partial) also of C61, C62, C63, C124. C122_violated: a point of a long universe box that is in no cell (C27). Missing in the partial theorems: the situations in which C26 (lossy simplification), C27 (boxes longer than 2^17 minimum sizes), C63 and C124 are false, definitions rewritten by forceNoOverlap, and the rounding of the numbers of the surface cards: the sides of the surfaces in the file are a hypothesis (C47-C49, C71, C104).
* **C123** Assignments and constructions proved for all states; types and defaults for all histories in which no list is changed in place. Violated: settings.voidExclude.append(5) is not checked; the default lists of voidMat and voidExclude are shared by all Settings objects, so an append to one changes the defaults of the next; a misspelt name in an assignment is accepted. Types are Python's: True is an int, NaN is a float that is not negative.
* **C124** C124_statement is refuted by C124_boxes_violated: piece_enclosure_split keeps only the first solid of what a half has in common with the piece, so that a U-shaped enclosure loses a leg. C124_boxes_partial: if no half has several solids (and within the 50 rounds of C27), each point of the enclosure is in exactly one void box. C124_void_partial: the same for the void cells, with the solids chosen as in C59 and the complement of C26. The answers of the CAD kernel and the definition of the pieces (C60) are hypotheses.
* **C125** C125_violated, C125_apart_violated: every suffix is cut from the name: model_v1.2 and model_v1.3 are both written to model_v1.stp. Partial for names without a dot in the middle, or with .stp/.step; C125_forms shows that C125_names_partial and C125_suffix together describe every file name.
* **C126** C126_violated: universe_box is computed once in __init__, later assignments to box_dimensions or universe_radius are accepted without effect. C126_apart_violated: the default settings object is shared by all converters. C126_radius_violated: the cube of the radius, not the sphere. C126_values_violated: IndexError for short sequences, True as a number.
* **C127** C127_violated: for the text (1 2:-1 3) (-2:4) half of the cell is missing (C77). Proved for texts without parentheses (C127_flat_partial), for nested ones that are tidy and start bounded (C127_nested_partial), for decks with '#' (C127_hash_partial), and for the file GEOUNED writes (C127_back_partial: regions without parentheses; that the surfaces come back is C104).
* **C128** C128_tree, C128_once, C128_within and C128_solids are the whole property on content; the labels of the material parts are proved distinct within one universe (C128_material_label_partial) and the code violates the rest (C128_material_label_violated: container and universe numbers are concatenated without separator). FreeCAD's own making of labels unique is not modelled.
* **C129** Sound for every honest kernel; exact when cuts leave pieces on both sides and 'not away' means crossing; it returns with all pairs filled; with no surface IndexError. Composition with simplify is partial: the sibling overwriting of C12 and two crossing surfaces that are equal or opposite all over the box (C20) are excluded by hypothesis. The kernel's cuts, distances and points inside solids are assumptions (CutKernel.Honest).
* **C130** Proved against the geometric surfaces for planes, cylinders, spheres, aligned cones (one sheet) and tori, and against the written MCNP card through C47. False of cones that are not along a coordinate axis (the card has both sheets, the sign one) and of the inner part of a self-cutting torus (the card has a negative major radius, the sign the positive one): witnesses proved. Exact reals; the rounding of the cosine to 15 places is left out; planes printed by three points are excluded.
* **C131** Sound for the documented sections; a section with another name is silently ignored (C131_ignored_violated), so the clause that it should be refused is false of the code.
* **C132** Proved for all texts whose numbers have no zero in front (C132_all_texts: nothing else is left out); with such a zero the loop of processSurfaces does not end, and that of substituteLikeCell stops early (C132_zero_violated).

## Which code is modelled

| file | modelled | not modelled |
|--|--|--|
| `GEOUNED/utils/boolean_function.py` | all of `BoolSequence` (`Bool/`), parsing (`Text/`), in-place versions (`Alias/`) | `__str__` |
| `GEOUNED/utils/boolean_solids.py` | constraint tables, `solid_in_box`, `remove_extra_surfaces`, entries from sampled positions, the making of the table from the solids, `split_solid_fast`, `check_sign` (also over the reals, `Geom/Sign.lean`), `divide_box` (`CTable/`, `Box/`) | `point_inside`, cuts and distances (CAD kernel: parameters) |
| `GEOUNED/utils/functions.py` | `SurfacesDict`, `GeounedSolid` (material, boxes) | building of CAD faces, `check_intersection` (CAD kernel; its answers are inputs) |
| `GEOUNED/utils/basic_functions_part1.py`, `part2.py`, `q_form.py` | parameters, same-surface tests, quadrics, planes through points | |
| `GEOUNED/conversion/cell_definition.py` | `cellDef`, `no_overlapping_cell`, `add_cone_plane`; ranges of faces, additional planes of cylinder and cone faces, additional surfaces of torus faces (`Face/`) | `gen_plane_sphere`, angle between faces (CAD kernel) |
| `GEOUNED/utils/geometry_gu.py` | grouping of torus faces and their ranges (`Face/`) | wrappers of the CAD kernel |
| `GEOUNED/void/*.py` | void boxes, with and without a piece of an enclosure, complementary, loop, box definition, graveyard, enclosures | distance, volume and common part of solids (CAD kernel: parameters of C124); `refine`, which is not called |
| `GEOUNED/loadfile/load_functions.py` | enclosure checks and levels, labels, fusing of cells, envelopes | options of the CAD program, unused index functions |
| `GEOUNED/loadfile/load_step.py` | all, from the elements of the document on | reading of the file by the CAD kernel, messages, exit for splines |
| `GEOUNED/core.py` | numbering and sorting of cells, cones, joining of files, skipped solids, configuration (`Conf/`), `export_csg` (`Session/`), the run of `start` as a whole with the parts called as parameters (`Driver/`) | logging, time stamps, debug files; what a step that fails leaves half done |
| `GEOUNED/utils/data_classes.py` | all parameters, setters and constructors (`Setup/`) | numbers as Python values of floats beyond finite, infinite, NaN |
| `GEOUNED/cuboid/translate.py` | `set_definition` and what it calls (`Facet/`) | `is_inverted` (CAD kernel), extraction of the planes |
| `GEOUNED/write/*.py` | all surface writers, all cell-definition writers, line wrapping, orientation of planes, labels and comments, export selection; of `mcnp_format.py`, `openmc_format.py`, `serpent_format.py` and `phits_format.py` the whole files, character by character (`McnpFile/`, `OmcFile/`, `SerpFile/`, `PhitsFile/`) | formatting of floats |
| `GEOUNED/decompose/decom_one.py` | grouping of parallel planes, the loops of the decomposition and their error numbers | the cuts themselves and the extraction of surfaces (CAD kernel): parameters of the model |
| `GEOReverse` | oriented boxes, cell ranges, removal of `#`, `LIKE`/`TRCL` cards and numbering of surfaces, repeated builds, container cell, filters, the configuration file of the tool (`RCore/Cli*`), levels, construction of nested universes and of solids (`Rev/`), boxes of nested definitions (`Nest/`), bounding boxes of level-0 definitions (`BB/`), surface and transformation cards (`RSurf/`), cards of a file from its lines (`Card/`), text of cell cards (`CellText/`), text of surface and TR cards (`SurfText/`), elements of OpenMC XML files (`OmcFile/Read.lean`), its own boolean class from the text (`RBool/`), definitions of planes (`Poly/`) and the planes of every kind of surface (`Shape/`), names of exports and box settings (`RCore/`), from the text of a cell card to its solid (`Whole/Back*.lean`), the tree of the exported document (`RCore/Tree*.lean`), renaming of surfaces on characters (`Rev/Renum*.lean`) | CAD kernel (a parameter of C67) |

## Defects found in the code

Each is proved in the model (`..._violated` or the named theorem):

* `simplify` may turn an expression into `True`/`False` wrongly: `update` puts a bare boolean in place of the whole parent (C11, C12, C13); raises on mixed
  levels (C12).
* `append` on a boolean object and `get_complementary` of a boolean crash (C01, C09).
* `get_dependence` is wrong for entries (0,1,0,1) and (1,0,1,0) (C20, C22).
* `remove_extra_surfaces` negates a sub-cell that `check` finds constant (C23).
* pair entries use a stale variable when one side has no piece (C45); transposing a diagonal entry gives a bare integer (C19).
* a void cell can lose a region or be lost: AND of one solid treated as a union, AttributeError, cell dropped when decided, enclosure cell reaching outside (C26);
  the loop over boxes stops after 50 rounds and drops what is left (C27).
* `no_overlapping_cell` raises TypeError on identical half-spaces (C28); after it, `remove_extra_comp` takes the wrong element of a definition (C59); cones
  brought by complements are not recorded (C56).
* `get_surface` raises IndexError after deletion of the last entry (C30).
* `sort_enclosure`: envelope → KeyError, two enclosures with equal number → cells written twice; a comment naming a null solid → KeyError (C32); ids of
  void cells repeat those of solids in sorted mode (C54); the summary prints the internal id (C55).
* three-point planes are turned again by each writer; those along an axis below the origin are wrong at once (C33); shared sub-objects are turned once per place (C58).
* `wrap_line` and `cut_line` never end for some texts (C34, C57); writers raise TypeError for boolean constants (C17).
* `is_same_plane` with relative tolerance and `is_same_cylinder` are not symmetric (C39); `is_same_cone` identifies opposite axes (C46).
* oblique tori: empty MCNP/PHITS card, type `None` in OpenMC XML; OpenMC Python tori have keywords that do not exist (C47, C48); Serpent cones,
  cylinders along Z and oblique cylinders are unreadable (C49).
* the checks for overlapping and doubly embedded enclosures are dead code (C53); an enclosure inside a solid is ignored (C61, C63).
* `Density` is stale when the dilution is set later (C40); `²` passes `isnumeric` and raises in `int` (C44).
* GEOReverse: `#n` of a cell with `TRCL` uses the untransformed geometry; a cell with `TRCL`/`LIKE` keeps its `#`, which the parser then
  ignores; a cell that mentions itself ends in RecursionError (C64).
* GEOReverse, filters: for OpenMC files including materials while excluding cells always raises AttributeError; `include` without a list uses the list of an
  earlier call or raises TypeError (C65).
* GEOReverse, universes: a universe used at several levels is counted at the first only, so that what is nested in it may be left out; the OpenMC reader removes
  keys from the list it iterates over and keeps universes that are not wanted (C66).
* GEOReverse, construction: a universe that fills two cells is made in the box of the first one, and the cut shape is kept, so that the second one gets a wrong solid;
  a filling without transformation inside a moved universe raises TypeError; `build_container` goes one level too deep and raises KeyError (C67).
* GEOReverse, cards: if a surface card is not supported, the surfaces moved by `TRCL` overwrite others; `LIKE n BUT` with `n` in another universe or filtered out
  raises KeyError, entries 0 are ignored, and chains written backwards lose entries; a transformation given with `FILL` is lost beside `TRCL` (C68).
* GEOReverse, repeated builds: without filters a second build raises AttributeError; with filters the names of surfaces are replaced a second time (wrong surface or
  KeyError), and cells with `TRCL` raise KeyError (C69). `build_container`: `#` stays in the text, `TRCL` is ignored, a `LIKE` card raises KeyError (C70).
* GEOReverse, surfaces: a cylinder given by two points (cards X, Y, Z) raises UnboundLocalError or moves the cylinder read before it and gets a radius ten times
  too small; two points at one height raise ZeroDivisionError, a point on the axis gives a surface without parameters; the side of a TRC raises at the apex (C71).
* GEOReverse, transformations: planes `P` with a normal that is no unit vector and boxes with a displacement are moved wrongly; moving a copy of a REC changes the
  original (C72); nine cosines raise TypeError and `M = -1` is ignored (C73).
* GEOReverse, quadrics: circular cones given as GQ get the inverse of their tangent (right only for 45°); the position of a hyperboloid is subtracted twice, so only those around
  the origin are right; asking for the side of an ellipsoid or sphere given as GQ/SQ raises TypeError, ellipsoids with three radii are lost; cylinders with negated coefficients
  have their sides exchanged; paraboloids along x open to the wrong side (a row of the matrix of eigenvectors is taken instead of a column) (C74).
* GEOReverse, OpenMC quadrics: cones get the inverse tangent, cones narrower than 12.6° become cylinders, hyperboloids become cones, spheres, ellipsoids and elliptic cylinders are
  dropped (a cell that uses them raises KeyError), cylinders whose equation is multiplied by a number are moved (`P b` is computed instead of `P.T b`) (C75).
* Round trip: a cone with an oblique axis (other than 45°) written by GEOUNED comes back from GEOReverse with the inverse tangent, in MCNP and OpenMC files (C76).
* GEOReverse, solids: after a nested union, e.g. `(1 2 : -1 3) (-2 : 4)`, the sides of surfaces remembered for one part are used for all (`joinBase`), and pieces of the cell are lost or
  pieces outside are kept; for unbounded cells such as `(7 : -1) (8 : 9)` `filterparts` adds the whole region of the second factor (C77).
* GEOReverse, bounding boxes: cells thinner than 0.1 mm (foils) are said to be empty and get no solid; cells that leave the universe through a face and have at least six corners
  are cut at their last corner (C78).
* GEOReverse, reading of files: a card continued with `&` is cut in two (the program looks for `&` in the text before it); `c` alone after blanks is taken as a card instead of a
  comment; without a newline at the end of the file the last character is lost; a blank title raises IndexError (C79).
* GEOReverse, cell cards: a density with an unsigned exponent (`1e1`) loses the geometry and such entries of TRCL are cut in two; `U 5` without `=` is not seen; `NONU=2` is taken as
  the universe; `U=-5` gives universe -5; in `FILL=3 TRCL=(...)` the transformation of the cell is also given to the filling universe; a line that begins with `COSY` hides the
  parameters after it; `LIKE` in capitals raises ValueError; a material on another line than the name raises AttributeError (C80).
* GEOReverse, surface and data cards: numbers such as `1.5-3` or `1d3` and repetitions (`2r`) in surface and TR cards raise ValueError; a file with one of the data cards PTRAC, TROPT, MGOPT,
  MPLOT cannot be read at all: the first is taken as a transformation, the last as a material without number (C81).
* Decomposition: a splitTolerance between 0 and 1e-13 with scaleUp recurses without end and never calls the kernel (C82); pieces of at most 0.01 mm³ are dropped, so that a small solid may
  vanish (C83); the error number of a cell is that of its last solid, and of the last cut by auxiliary planes, so that losses go unreported (C84); nothing stops the loops if the kernel keeps
  producing empty pieces (C85).
* Faces: `same_faces` goes through the list once and misses faces linked only through later ones (chain 0-2-1-3) (C86); `merge_periodic_uv` loses part of overlapping ranges and takes
  stacked faces for a whole turn (C88); a face that crosses the seam is not joined to the faces after it (C90); for torus faces of more than half a turn around the axis the planes
  are computed from the absolute position of a point, wrong unless the torus is centered on the line through the origin (C91); a torus face of more than half a turn around the circle
  with its ends on a cylinder is put on the wrong side (C92).
* Loading: two elements with the same envelope number swallow the elements between them, and if another envelope follows loading stops with IndexError (C94); fused enclosures lead to cells with the
  same number (C95); an element at the top of the tree gets no material, dilution or enclosure from its label, and `delLastNumber` drops the last word even if it is no number (C96); with
  several files, enclosures of later files are lost if the first has none, their numbers collide with those of cells if it has some, and everything is lost if it has no cells (C97);
  `skip_solids` with a repeated index or several negative ones removes other solids (C98); a blank line in the material file raises IndexError (C99).
* Configuration: instances of `CadToCsg` made without arguments share their default option objects, so that changing the options of one changes the other (C100), and a
  configuration file without a section gets what an earlier conversion left there (C101).
* MCNP file: the second line of a title becomes a cell card; a material without density raises TypeError while the file is being written (C102).
* OpenMC files: comments are written into the attribute `name` without escaping, so that `&`, `<` or `"` in a comment makes the XML file unreadable (C105), and `"` or a backslash the Python
  script (C107); both writers raise IndexError if there is no surface. GEOReverse merges the universes 0 and 1 of an XML file, turns elements other than cells and surfaces into None and raises
  KeyError for a cell without region (C106).
* Serpent file: the title, also the default one, is not a comment; with a universe every cell is written twice and empty cells without `void`; after a cell without comments the next card is
  glued to the definition (`-2cell`); cards of cones and oblique cylinders lack the number of the surface (C108).
* PHITS file: the second line of a title is not a comment; a model from several STEP files cannot be exported (FileNotFoundError); with unified void cells a solid of material 0 gets a density, which
  is read as part of its region, and a card `M0`; a material of the void (`voidMat`) that no cell has gets no card (C109, C110).
* Exports: the PHITS writer renames the inner and the outer void in the shared cells (and cuts the definition of the inner void), so that after an export of PHITS a second one lacks both, MCNP
  has no cell of importance 0, Serpent no `outside`, and OpenMC writes the graveyard as a cell (C111); `UCARD=0`, documented as "not written", is written as `U=0` (C112).
* GEOReverse, definition of planes: with a curved surface of both signs the planes of the sign treated last stand for both; a dropped surface turns `1 5` into `True` since `True == 1`; surface types
  without planes (ellipsoid, elliptic cylinder and cone, hyperboloid …) stay as numbers without plane, which is a KeyError later (C114).
* GEOReverse, planes of a surface: the two minor radii of an elliptical torus are taken for each other (the planes cut the torus); a torus that is not along a coordinate axis raises UnboundLocalError;
  a card `P` whose normal has not length 1 (`P 0 0 0.5 1`) stands at the wrong place, so that the bounding box of the cell is wrong (C115).
* Option Facets: the faces of a notch are joined only around the face that comes first in the list, so that a block with a notch (letter U) loses an arm if a wall comes before the floor; the
  faces used are removed by plane number, so that with two notches in one plane the wrong one may go; the test for convex edges ignores that a solid is inside out and fails for faces
  narrower than 0.1 mm (C116).
* The run as a whole: a model with an enclosure cannot be converted without void generation, neither with sorting by enclosures (KeyError) nor with simplify "full" (AttributeError); with
  forceNoOverlap a model of at least two cells with an enclosure always stops with AttributeError, the definitions of enclosures being made later (C119); a second `start()` of the same object
  always raises, since `meta_list` now holds comment cells without solids (C120).
* A cut that fails while a closed cylinder is cut is taken as one that leaves the solid whole and is not reported (C84); cells joined because they have the same envelope number lose comment and
  material (C94).
* GEOReverse, box of a nested cell: a part of less than 0.1 mm is taken as empty, so that a cube with a foil sticking out gets a box around the cube only, and the foil is lost (C121).
* Settings: `settings.voidExclude.append(5)` is not checked; the default lists of `voidMat` and `voidExclude` are shared by all `Settings` objects, so that an append to one changes the defaults of
  the next; a misspelt name in an assignment is accepted (C123).
* Void of an enclosure: when the box of an enclosure is cut and a half has several solids (a U cut across its legs), only the first of them gets a void cell; the other legs belong to no cell (C124).
* GEOReverse, export: every suffix is cut from the name of the export, so that `model_v1.2` and `model_v1.3` are written to the same files; by default the input files `run.1` and `run.2` as well (C125).
* GEOReverse, settings: `box_dimensions` and `universe_radius` have no effect after the object is made; converters made without settings share one object; the universe is the cube, not the sphere of
  the documented radius; five dimensions raise IndexError (C126).
* GEOReverse, export: the part of a material is labelled with the numbers of the container cell and of the universe written one after the other, so universe 23 in cell 1 and universe 3 in cell 12 have a
  part of the same name (C128).
- `check_sign` takes a cone for one sheet while oblique cones are written with both, and ignores the sign of the major radius of the inner part of a torus (C130): the constraint tables reason about another surface than the output has.
* `geouned_csgtocad`: a section of the configuration file with an unknown name is silently ignored, so a filter of materials under `material_filter`, the name of its method, has no effect (C131).
* GEOReverse: a surface number with a zero in front in a cell card (`-01`) makes the reading of the file endless; in a card with TRCL it leaves the numbers after it unchanged (C132).
